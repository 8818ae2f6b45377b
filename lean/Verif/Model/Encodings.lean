import Verif.Model.PyStr
/-!
# Model of `postgresql/encodings/aliases.py` and of `TypeIO.set_encoding` (pq3.py:167-174)
-/
namespace PG.Encodings
open PG PG.PyStr

/-- encodings/aliases.py:18-35 `postgres_to_python`. -/
def postgresToPython : List (String × String) :=
  [("unicode", "utf_8"), ("sql_ascii", "ascii"), ("euc_jp", "eucjp"), ("euc_cn", "euccn"), ("euc_kr", "euckr"), ("shift_jis_2004", "euc_jis_2004"),
    ("sjis", "shift_jis"), ("alt", "cp866"), ("abc", "cp1258"), ("vscii", "cp1258"), ("koi8r", "koi8_r"), ("koi8u", "koi8_u"), ("tcvn", "cp1258"),
    ("tcvn5712", "cp1258")]

/-- `postgres_to_python.get(name)`. -/
def known (name : Str) : Option Str := (postgresToPython.find? fun e => e.1.toList = name).map (·.2.toList)

/-- `name.rstrip('0123456789')`. -/
def bare (name : Str) : Str := (name.reverse.dropWhile Char.isDigit).reverse

/-- `x.strip('_-')`. -/
def stripDash (x : Str) : Str := ((x.dropWhile fun c => c = '_' || c = '-').reverse.dropWhile fun c => c = '_' || c = '-').reverse

/-- encodings/aliases.py:37-58 `get_python_name`. -/
def getPythonName (name : Str) : Str :=
  match known name with
  | some n => n
  | none =>
    if "win".toList.isPrefixOf name then
      if stripDash (bare name) = "win".toList || stripDash (bare name) = "windows".toList then "cp".toList ++ name.drop (bare name).length
      else name
    else name

/-- The names under which `set_encoding` looks for a codec (pq3.py:171-173); the name is never empty without `self.encoding` being so. -/
def codecName (U : Unicode) (value : Str) : Str := getPythonName (strip U (U.lower value))

/-- The attributes of the type I/O that `set_encoding` assigns (pq3.py:171, 174): the name and the codec. -/
structure Coding (C : Type) where
  encoding : Str
  codec : C

/-- pq3.py:167-174 `set_encoding`, with Python's `codecs.lookup` given; `none` is the `LookupError` (the name is assigned by then). -/
def setEncoding {C : Type} (U : Unicode) (lookup : Str → Option C) (s : Coding C) (value : Str) : Coding C × Bool :=
  match lookup (codecName U value) with
  | some c => (⟨strip U (U.lower value), c⟩, true)
  | none => (⟨strip U (U.lower value), s.codec⟩, false)

end PG.Encodings
