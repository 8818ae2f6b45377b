import Verif.Model.Encodings
/-!
# C66: the names of encodings
-/
namespace PG.Props.Encodings
open PG PG.PyStr PG.Encodings

/-! ## Specification -/

/-- The encodings of PostgreSQL, under the names the server reports (`pg_encoding_to_char`, src/common/encnames.c), with the name of the same character set in Python's documentation
(library/codecs, Standard Encodings: the codec or one of its aliases). There is no codec of `EUC_TW` and `MULE_INTERNAL`. -/
def standard : List (String × List String) :=
  [("SQL_ASCII", ["ascii"]), ("EUC_JP", ["euc_jp", "eucjp", "ujis"]), ("EUC_CN", ["gb2312", "euccn", "eucgb2312_cn"]), ("EUC_KR", ["euc_kr", "euckr"]),
    ("EUC_JIS_2004", ["euc_jis_2004", "jisx0213", "eucjis2004"]), ("UTF8", ["utf_8", "utf8", "u8"]), ("LATIN1", ["latin_1", "latin1", "iso8859_1"]),
    ("LATIN2", ["iso8859_2", "latin2", "l2"]), ("LATIN3", ["iso8859_3", "latin3", "l3"]), ("LATIN4", ["iso8859_4", "latin4", "l4"]),
    ("LATIN5", ["iso8859_9", "latin5", "l5"]), ("LATIN6", ["iso8859_10", "latin6", "l6"]), ("LATIN7", ["iso8859_13", "latin7", "l7"]),
    ("LATIN8", ["iso8859_14", "latin8", "l8"]), ("LATIN9", ["iso8859_15", "latin9", "l9"]), ("LATIN10", ["iso8859_16", "latin10", "l10"]),
    ("WIN1256", ["cp1256"]), ("WIN1258", ["cp1258"]), ("WIN866", ["cp866"]), ("WIN874", ["cp874"]), ("KOI8R", ["koi8_r"]), ("WIN1251", ["cp1251"]),
    ("WIN1252", ["cp1252"]), ("ISO_8859_5", ["iso8859_5", "iso_8859_5"]), ("ISO_8859_6", ["iso8859_6", "iso_8859_6"]), ("ISO_8859_7", ["iso8859_7", "iso_8859_7"]),
    ("ISO_8859_8", ["iso8859_8", "iso_8859_8"]), ("WIN1250", ["cp1250"]), ("WIN1253", ["cp1253"]), ("WIN1254", ["cp1254"]), ("WIN1255", ["cp1255"]),
    ("WIN1257", ["cp1257"]), ("KOI8U", ["koi8_u"]), ("SJIS", ["shift_jis", "sjis", "s_jis"]), ("BIG5", ["big5"]), ("GBK", ["gbk"]), ("UHC", ["cp949", "uhc", "ms949"]),
    ("GB18030", ["gb18030"]), ("JOHAB", ["johab", "cp1361"]), ("SHIFT_JIS_2004", ["shift_jis_2004", "shiftjis2004", "sjis_2004"])]

/-! ## Lemmas -/

theorem known_none {name : Str} (h : ∀ e ∈ postgresToPython, e.1.toList ≠ name) : known name = none := by
  unfold known
  rw [List.find?_eq_none.mpr]
  · rfl
  · intro e he
    simpa using h e he

theorem bare_append {x d : Str} (hd : ∀ c ∈ d, c.isDigit = true) (hx : ∀ c, x.getLast? = some c → c.isDigit = false) : bare (x ++ d) = x := by
  unfold bare
  rw [List.reverse_append, List.dropWhile_append_of_pos]
  · cases hr : x.reverse with
    | nil => simpa using (congrArg List.reverse hr).symm
    | cons c l =>
      have hl : x = l.reverse ++ [c] := by simpa using congrArg List.reverse hr
      rw [List.dropWhile_cons_of_neg, ← hr, List.reverse_reverse]
      rw [hx c (by rw [hl]; simp)]
      exact Bool.false_ne_true
  · intro c hc
    exact hd c (List.mem_reverse.mp hc)

/-- The names of Windows' code pages, whichever way they are written. -/
theorem windows {x d : Str} (h : x = "win".toList ∨ x = "windows".toList ∨ x = "windows-".toList ∨ x = "windows_".toList) (hd : ∀ c ∈ d, c.isDigit = true) :
    getPythonName (x ++ d) = "cp".toList ++ d := by
  have nodigit : ∀ c, x.getLast? = some c → c.isDigit = false := by
    intro c hc
    rcases h with rfl | rfl | rfl | rfl <;> (have hc := Option.some.inj hc; subst hc; decide)
  have hb := bare_append hd nodigit
  have hk : known (x ++ d) = none := by
    apply known_none
    intro e he hc
    have w : "win".toList.isPrefixOf e.1.toList = true := by
      rw [hc, List.isPrefixOf_iff_prefix]
      rcases h with rfl | rfl | rfl | rfl
      · exact List.prefix_append ..
      · exact ⟨"dows".toList ++ d, rfl⟩
      · exact ⟨"dows-".toList ++ d, rfl⟩
      · exact ⟨"dows_".toList ++ d, rfl⟩
    have no : ∀ e ∈ postgresToPython, "win".toList.isPrefixOf e.1.toList = false := by decide +kernel
    rw [no e he] at w
    cases w
  unfold getPythonName
  rw [hk, hb]
  dsimp only
  rw [List.drop_left, if_pos, if_pos]
  · rcases h with rfl | rfl | rfl | rfl <;> decide
  · rw [List.isPrefixOf_iff_prefix]
    rcases h with rfl | rfl | rfl | rfl
    · exact List.prefix_append ..
    · exact ⟨"dows".toList ++ d, rfl⟩
    · exact ⟨"dows-".toList ++ d, rfl⟩
    · exact ⟨"dows_".toList ++ d, rfl⟩

theorem codec_of (U : Unicode) {name : String} {n : String} (ascii : ∀ c ∈ name.toList, c.toNat < 128)
    (blank : ∀ c ∈ name.toList.map Char.toLower, c.toNat < 128 ∧ ¬ ((9 ≤ c.toNat ∧ c.toNat ≤ 13) ∨ (28 ≤ c.toNat ∧ c.toNat ≤ 32)))
    (main : getPythonName (name.toList.map Char.toLower) = n.toList) : codecName U name.toList = n.toList := by
  unfold codecName
  rw [U.lower_ascii _ ascii, ← main]
  congr 1
  have keep : ∀ c ∈ name.toList.map Char.toLower, U.isSpace c = false := by
    intro c hc
    obtain ⟨g1, g2⟩ := blank c hc
    rw [U.space_ascii c g1]
    exact decide_eq_false g2
  revert keep
  generalize name.toList.map Char.toLower = s
  intro keep
  have none : ∀ l : Str, (∀ c ∈ l, U.isSpace c = false) → l.dropWhile U.isSpace = l := by
    intro l hl
    cases l with
    | nil => rfl
    | cons c l => rw [List.dropWhile_cons_of_neg]; rw [hl c (List.mem_cons_self ..)]; exact Bool.false_ne_true
  unfold strip lstrip rstrip
  rw [none s keep, none s.reverse fun c hc => keep c (List.mem_reverse.mp hc), List.reverse_reverse]

/-! ## C66 -/

/-- For every encoding the server may report (`EUC_TW`, `MULE_INTERNAL`, for which there is no codec, apart) the codec looked for is one of the same character set, but for `SHIFT_JIS_2004`. -/
theorem C66_standard_partial (U : Unicode) : ∀ e ∈ standard, e.1 ≠ "SHIFT_JIS_2004" → ∃ n ∈ e.2, codecName U e.1.toList = n.toList := by
  have ascii : ∀ e ∈ standard, ∀ c ∈ e.1.toList, c.toNat < 128 := by decide +kernel
  have blank : ∀ e ∈ standard, ∀ c ∈ e.1.toList.map Char.toLower, c.toNat < 128 ∧ ¬ ((9 ≤ c.toNat ∧ c.toNat ≤ 13) ∨ (28 ≤ c.toNat ∧ c.toNat ≤ 32)) := by decide +kernel
  have main : ∀ e ∈ standard, e.1 ≠ "SHIFT_JIS_2004" → ∃ n ∈ e.2, getPythonName (e.1.toList.map Char.toLower) = n.toList := by decide +kernel
  intro e he hn
  obtain ⟨n, h1, h2⟩ := main e he hn
  exact ⟨n, h1, codec_of U (ascii e he) (blank e he) h2⟩

/-- The other names of PostgreSQL's table of character sets, which old servers report as they were set. -/
def older : List (String × List String) :=
  [("Unicode", ["utf_8", "utf8"]), ("ALT", ["cp866"]), ("ABC", ["cp1258"]), ("TCVN", ["cp1258"]), ("TCVN5712", ["cp1258"]), ("VSCII", ["cp1258"]), ("WIN932", ["cp932"]), ("Windows932", ["cp932"]),
    ("WIN949", ["cp949"]), ("Windows949", ["cp949"]), ("WIN936", ["cp936", "gbk"]), ("Windows936", ["cp936", "gbk"])]

/-- The same for other names. What is missing: `WIN` and `KOI8`, for which no codec is found. -/
theorem C66_older_partial (U : Unicode) : ∀ e ∈ older, ∃ n ∈ e.2, codecName U e.1.toList = n.toList := by
  have ascii : ∀ e ∈ older, ∀ c ∈ e.1.toList, c.toNat < 128 := by decide +kernel
  have blank : ∀ e ∈ older, ∀ c ∈ e.1.toList.map Char.toLower, c.toNat < 128 ∧ ¬ ((9 ≤ c.toNat ∧ c.toNat ≤ 13) ∨ (28 ≤ c.toNat ∧ c.toNat ≤ 32)) := by decide +kernel
  have main : ∀ e ∈ older, ∃ n ∈ e.2, getPythonName (e.1.toList.map Char.toLower) = n.toList := by decide +kernel
  intro e he
  obtain ⟨n, h1, h2⟩ := main e he
  exact ⟨n, h1, codec_of U (ascii e he) (blank e he) h2⟩

/-- Finding: `WIN`, another name of WIN1251, is looked for as `cp`; `KOI8`, of KOI8R, as itself. -/
theorem C66_older_missing : codecName Unicode.ascii "WIN".toList = "cp".toList ∧ codecName Unicode.ascii "KOI8".toList = "koi8".toList := by decide +kernel

/-- FINDING: text of a connection whose encoding is `SHIFT_JIS_2004` is read and written as EUC-JIS-2004. -/
theorem C66_shift_jis_2004 : codecName Unicode.ascii "SHIFT_JIS_2004".toList = "euc_jis_2004".toList ∧
    ∀ e ∈ standard, e.1 = "SHIFT_JIS_2004" → ¬ "euc_jis_2004" ∈ e.2 := by decide +kernel

/-- `win1252`, `windows-1252`, `windows_1252` are code page 1252, and so for every number. -/
theorem C66_windows (d : Str) (hd : ∀ c ∈ d, c.isDigit = true) :
    getPythonName ("win".toList ++ d) = "cp".toList ++ d ∧ getPythonName ("windows-".toList ++ d) = "cp".toList ++ d
    ∧ getPythonName ("windows_".toList ++ d) = "cp".toList ++ d :=
  ⟨windows (.inl rfl) hd, windows (.inr (.inr (.inl rfl))) hd, windows (.inr (.inr (.inr rfl))) hd⟩

/-- A name that is neither in the dictionary nor begins like those of Windows is the name itself. -/
theorem C66_other (name : Str) (h : ∀ e ∈ postgresToPython, e.1.toList ≠ name) (hw : ¬ "win".toList <+: name) : getPythonName name = name := by
  unfold getPythonName
  rw [known_none h]
  dsimp only
  rw [if_neg]
  rw [List.isPrefixOf_iff_prefix]
  exact hw

/-- The codec in use is, after any reports of the server, the one found for the last encoding that has one (at first the one of the beginning), and the name is the last one reported. -/
theorem C66_last {C : Type} (U : Unicode) (lookup : Str → Option C) (s : Coding C) (l : List Str) :
    (l.foldl (fun s v => (setEncoding U lookup s v).1) s).codec = ((l.filterMap fun v => lookup (codecName U v)).getLast?).getD s.codec
    ∧ (l.foldl (fun s v => (setEncoding U lookup s v).1) s).encoding = ((l.map fun v => strip U (U.lower v)).getLast?).getD s.encoding := by
  induction l generalizing s with
  | nil => exact ⟨rfl, rfl⟩
  | cons v l ih =>
    rw [List.foldl_cons]
    obtain ⟨h1, h2⟩ := ih (setEncoding U lookup s v).1
    rw [h1, h2]
    constructor
    · unfold setEncoding
      cases hl : lookup (codecName U v) with
      | none => rw [List.filterMap_cons_none (f := fun v => lookup (codecName U v)) hl]
      | some c =>
        rw [List.filterMap_cons_some (f := fun v => lookup (codecName U v)) hl, List.getLast?_cons]
        cases (l.filterMap fun v => lookup (codecName U v)).getLast? <;> rfl
    · rw [List.map_cons, List.getLast?_cons]
      have : (setEncoding U lookup s v).1.encoding = strip U (U.lower v) := by
        unfold setEncoding
        cases lookup (codecName U v) <;> rfl
      rw [this]
      cases (l.map fun v => strip U (U.lower v)).getLast? <;> rfl

/-- FINDING: `get_python_name` minds the case, and `Cluster.init` gives it the name as it is (cluster.py:248): the names PostgreSQL documents are not mapped. `set_encoding` lowers them. -/
theorem C66_case : getPythonName "SQL_ASCII".toList = "SQL_ASCII".toList ∧ getPythonName "WIN1252".toList = "WIN1252".toList
    ∧ getPythonName "sql_ascii".toList = "ascii".toList ∧ codecName Unicode.ascii " SQL_ASCII".toList = "ascii".toList := by decide +kernel

/-! Non-vacuity. -/
example : getPythonName "windows-1252".toList = "cp1252".toList ∧ getPythonName "window-1252".toList = "window-1252".toList ∧ getPythonName "big5".toList = "big5".toList := by decide +kernel
example : (["SQL_ASCII", "nonsense", "UTF8", "EUC_TW"].foldl (fun s v => (setEncoding Unicode.ascii (fun n => if n ∈ ["ascii".toList, "utf8".toList] then some n else none) s v.toList).1)
    ⟨"ascii".toList, "ascii".toList⟩).codec = "utf8".toList := by decide +kernel

end PG.Props.Encodings
