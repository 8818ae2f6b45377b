import Verif.Model.PyStr
import Verif.Model.PyDict
/-!
# postgresql/configfile.py: PostgreSQL configuration files

`os.linesep` is `"\n"` (a POSIX host). Files are their decoded text.
-/
namespace PG.ConfigFile
open PG PG.PyStr

/-- configfile.py:64-69: the two slices of a line, by their bounds. -/
structure Slices where
  kstart : Nat
  kstop : Nat
  vstart : Nat
  vstop : Nat
  deriving DecidableEq, Repr

/-- configfile.py:28: what ends the key. -/
def keyChar (U : Unicode) (c : Char) : Bool := U.isAlpha c || U.isDigit c || c = '_'

/-- configfile.py:22: what may stand before the key. -/
def preKeyChar (U : Unicode) (c : Char) : Bool := U.isSpace c || c = '#'

/-- configfile.py:39: what may stand before the value. -/
def preValChar (U : Unicode) (c : Char) : Bool := U.isSpace c && !(c = '\n' || c = '\r')

/-- configfile.py:43-62: the length of the value; the loop over the rest of the line, with its two variables. -/
def valLen (U : Unicode) (inquotes escaped : Bool) : Str → Nat
  | [] => 0
  | c :: s =>
    if c = '\'' then
      if inquotes = false then 1 + valLen U true escaped s
      else if escaped = false then
        if s.head? = some '\'' then 1 + valLen U true true s else 1 + valLen U false false s
      else 1 + valLen U inquotes false s
    else if inquotes = false ∧ (U.isSpace c || c = '#') = true then 0
    else 1 + valLen U inquotes escaped s

/-- configfile.py:15-69 `parse_line`. -/
def parseLine (U : Unicode) (line : Str) : Option Slices :=
  match splitMax '=' 1 line with
  | [key, val] =>
    let pre := (key.takeWhile (preKeyChar U)).length
    let klen := ((key.drop pre).takeWhile (keyChar U)).length
    if strip U (key.drop (pre + klen)) ≠ [] then none
    else
      let pv := (val.takeWhile (preValChar U)).length
      let vlen := valLen U false false (val.drop pv)
      some ⟨pre, klen + pre, key.length + 1 + pv, key.length + 1 + pv + vlen⟩
  | _ => none

/-- configfile.py:71-78 `unquote`. -/
def unquote (U : Unicode) (s : Str) : Str :=
  match strip U s with
  | [] => []
  | c :: r => if c = '\'' then undouble '\'' r.dropLast else c :: r

/-- configfile.py:80-87 `write_config`: what is given to the writer, together. A key of `keys` that is not in the map raises `KeyError`,
after the lines before it have been written. -/
def writeConfig (map : List (Str × Str)) (keys : Option (List Str)) : Except Err (List Str) :=
  (keys.getD (map.map Prod.fst)).mapM fun k =>
    match PyDict.get k map with
    | some v => .ok (k ++ ['='] ++ v ++ ['\n'])
    | none => .error .keyError

/-- The items given to `alter_config`: a value, or None. -/
abbrev Map := List (Str × Option Str)

/-- configfile.py:93-98: the normalized keys, with the key and the value they stand for. Simplified: `keys` is not given, as no caller in the
project does; then `keys[keys.index(k)]` is `k`. -/
def pkeys (U : Unicode) (map : Map) : List (Str × (Str × Option Str)) :=
  map.foldl (fun d e => PyDict.set (strip U (U.lower e.1)) e d) []

/-- configfile.py:119: a candidate: the number of a line and its slices. -/
abbrev Cand := Nat × Slices

/-- configfile.py:105-119: one line in search of candidates. -/
def candStep (U : Unicode) (pk : List (Str × (Str × Option Str))) (cands : List (Str × List Cand)) (il : Nat × Str) : List (Str × List Cand) :=
  match parseLine U il.2 with
  | none => cands
  | some sl =>
    let k := U.lower (slice il.2 sl.kstart sl.kstop)
    match PyDict.get k pk with
    | none => cands
    | some _ => PyDict.set k ((PyDict.get k cands).getD [] ++ [(il.1, sl)]) cands

/-- The lines with their numbers, from `i` on. -/
def numbered (i : Nat) : List Str → List (Nat × Str)
  | [] => []
  | l :: ls => (i, l) :: numbered (i + 1) ls

/-- configfile.py:100-119: the candidates. -/
def candidates (U : Unicode) (pk : List (Str × (Str × Option Str))) (lines : List Str) : List (Str × List Cand) :=
  (numbered 0 lines).foldl (candStep U pk) []

/-- `"'%s'" % v.replace("'", "''")`, configfile.py:129 and :198. -/
def quoted (v : Str) : Str := '\'' :: double '\'' v ++ ['\'']

/-- configfile.py:127-128: the last line gets its line separator; `lines[-1]` of no lines raises. -/
def endLast (lines : List Str) : Except Err (List Str) :=
  match lines.getLast? with
  | none => .error .indexError
  | some l => .ok (if l.getLast? = some '\n' then lines else lines.dropLast ++ [l ++ ['\n']])

/-- configfile.py:121-129: a line for each key that has no candidates. -/
def appendMissing (cands : List (Str × List Cand)) : List (Str × (Str × Option Str)) → List Str → Except Err (List Str)
  | [], lines => .ok lines
  | (k, key, val) :: rest, lines =>
    match PyDict.get k cands, val with
    | none, some v => do
      let lines ← endLast lines
      appendMissing cands rest (lines ++ [key ++ " = ".toList ++ quoted v])
    | _, _ => appendMissing cands rest lines

/-- The line of a number; the numbers of candidates are those of lines. -/
def lineAt (lines : List Str) (i : Nat) : Str := lines.getD i []

/-- `comment in l[:sk.start]`, configfile.py:140, :156. -/
def commented (l : Str) (sl : Slices) : Bool := (l.take sl.kstart).contains '#'

/-- configfile.py:139-141: comment the line unless it is. -/
def commentOut (lines : List Str) (cl : Cand) : List Str :=
  if commented (lineAt lines cl.1) cl.2 then lines else lines.set cl.1 ('#' :: lineAt lines cl.1)

/-- configfile.py:147-150: the winner so far: `w_score`, `w_commented`, `w_cl`. -/
structure Winner where
  score : Nat
  commented : Bool
  cl : Cand

/-- configfile.py:152-175: one candidate of the election. -/
def elect (U : Unicode) (v : Str) (st : List Str × Option Winner) (cl : Cand) : List Str × Option Winner :=
  let l := lineAt st.1 cl.1
  let com := commented l cl.2
  let score := (if com then 0 else 1) + (if unquote U (slice l cl.2.vstart cl.2.vstop) = v then 2 else 0)
  match st.2 with
  | none => (st.1, some ⟨score, com, cl⟩)
  | some w =>
    if w.score < score then
      (if w.commented = false then st.1.set w.cl.1 ('#' :: lineAt st.1 w.cl.1) else st.1, some ⟨score, com, cl⟩)
    else if com = false then (st.1.set cl.1 ('#' :: l), some w)
    else (st.1, some w)

/-- configfile.py:183-193: what follows the value, as a comment if there is anything. -/
def postVal (U : Unicode) (p : Str) : Str :=
  let stripped := lstrip U p
  if stripped = [] then p
  else if stripped.head? = some '#' then p
  else p.takeWhile U.isSpace ++ '#' :: stripped

/-- configfile.py:178-198: the winner's line. -/
def rewritten (U : Unicode) (v : Str) (com : Bool) (sl : Slices) (l : Str) : Str :=
  (if com then [] else l.take sl.kstart) ++ slice l sl.kstart sl.vstart ++ quoted v ++ postVal U (l.drop sl.vstop)

/-- configfile.py:177-198: the winner is rewritten. -/
def setWinner (U : Unicode) (v : Str) (st : List Str × Option Winner) : List Str :=
  match st.2 with
  | none => st.1
  | some w => st.1.set w.cl.1 (rewritten U v w.commented w.cl.2 (lineAt st.1 w.cl.1))

/-- configfile.py:136-198: the lines of one key. -/
def alterKey (U : Unicode) (val : Option Str) (lines : List Str) (cs : List Cand) : List Str :=
  match val with
  | none => cs.foldl commentOut lines
  | some v => setWinner U v (cs.foldl (elect U v) (lines, none))

/-- configfile.py:132-134: all keys with candidates. -/
def alterAll (U : Unicode) (pk : List (Str × (Str × Option Str))) : List (Str × List Cand) → List Str → List Str
  | [], lines => lines
  | (k, cs) :: rest, lines => alterAll U pk rest (alterKey U ((PyDict.get k pk).bind Prod.snd) lines cs)

/-- configfile.py:89-199 `alter_config`. -/
def alterConfig (U : Unicode) (map : Map) (lines : List Str) : Except Err (List Str) := do
  let pk := pkeys U map
  let cands := candidates U pk lines
  let lines ← appendMissing cands pk lines
  .ok (alterAll U pk cands lines)

/-- configfile.py:205-210: what a line sets. -/
def setting (U : Unicode) (line : Str) : Option (Str × Str) :=
  match parseLine U line with
  | none => none
  | some sl => if commented line sl then none else some (slice line sl.kstart sl.kstop, unquote U (slice line sl.vstart sl.vstop))

/-- configfile.py:205-210: one line read into the dictionary. -/
def readStep (U : Unicode) (selector : Str → Bool) (d : List (Str × Str)) (l : Str) : List (Str × Str) :=
  match setting U l with
  | none => d
  | some (k, v) => if selector k then PyDict.set k v d else d

/-- configfile.py:201-211 `read_config`, into an empty dictionary. -/
def readConfig (U : Unicode) (selector : Str → Bool) (lines : List Str) : List (Str × Str) := lines.foldl (readStep U selector) []

/-! ## `ConfigFile` -/

/-- Universal newlines: what the text of a file is read as. -/
def translate : Str → Str
  | [] => []
  | '\r' :: '\n' :: s => '\n' :: translate s
  | '\r' :: s => '\n' :: translate s
  | c :: s => c :: translate s

/-- The lines of a text, each with its newline. -/
def linesOf : Str → List Str
  | [] => []
  | c :: s => if c = '\n' then ['\n'] :: linesOf s else consHead c (linesOf s)

/-- Iteration over the open file. -/
def readLines (file : Str) : List Str := linesOf (translate file)

/-- configfile.py:239-242 `_save`: the lines one after the other. -/
def save (lines : List Str) : Str := lines.flatten

/-- configfile.py:297-304 `update`: the file afterwards; when an exception is raised the file has not been opened for writing. -/
def update (U : Unicode) (map : Map) (file : Str) : Except Err Str := (alterConfig U map (readLines file)).map save

/-- configfile.py:256-257 `__setitem__`. -/
def setItem (U : Unicode) (k : Str) (v : Option Str) (file : Str) : Except Err Str := update U [(k, v)] file

/-- configfile.py:244-247 `__delitem__`: `self._save()` lacks an argument, so that the file is never written. -/
def delItem (U : Unicode) (k : Str) (file : Str) : Except Err Str := do
  let _ ← alterConfig U [(k, none)] (readLines file)
  .error .typeError

/-- configfile.py:284-286 `get`. -/
def get (U : Unicode) (k : Str) (alt : Option Str) (file : Str) : Option Str :=
  match PyDict.get k (readConfig U (fun x => x = k) (readLines file)) with
  | some v => some v
  | none => alt

/-- configfile.py:249-254 `__getitem__`. -/
def getItem (U : Unicode) (k : Str) (file : Str) : Except Err Str :=
  match PyDict.get k (readConfig U (fun x => x = k) (readLines file)) with
  | some v => .ok v
  | none => .error .keyError

/-- configfile.py:288-295 `items`; `keys` and `values` are its parts. -/
def items (U : Unicode) (file : Str) : List (Str × Str) := readConfig U (fun _ => true) (readLines file)

/-- configfile.py:306-319 `getset`: the dictionary; the order of the missing keys is that of a set, here the order given. -/
def getset (U : Unicode) (keys : List Str) (file : Str) : List (Str × Option Str) :=
  let cfg := (readConfig U (fun k => keys.contains k) (readLines file)).map fun e => (e.1, some e.2)
  (keys.filter fun k => (PyDict.get k cfg).isNone).foldl (fun d k => PyDict.set k none d) cfg

end PG.ConfigFile
