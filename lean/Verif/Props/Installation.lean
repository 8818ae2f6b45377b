import Verif.Model.Installation
import Verif.Spec.Installation
import Verif.Proofs.ConfigFile
import Verif.Props.PgString
import Verif.Props.VersionString
/-!
# C68: what is known of an installation
-/
namespace PG.Props.Installation
open PG PG.PyStr PG.Installation PG.Spec.Installation

/-! ## Lines -/

theorem break_ne {c : Char} (h : isBreak c = false) : c ≠ '\r' := by
  rintro rfl
  revert h
  decide

theorem lines_cons {c : Char} (h : isBreak c = false) (s : Str) : lines (c :: s) = consHead c (lines s) := by
  cases s with
  | nil =>
    show (if isBreak c then [[]] else [[c]]) = _
    rw [if_neg (by simp [h])]
    rfl
  | cons d s => rw [lines, if_neg (fun e => break_ne h e.1), if_neg (by simp [h])]

theorem lines_nl (s : Str) : lines ('\n' :: s) = [] :: lines s := by
  cases s with
  | nil => rfl
  | cons d s => rw [lines, if_neg (by simp), if_pos (by decide)]

theorem lines_line : ∀ {x : Str}, (∀ c ∈ x, isBreak c = false) → ∀ rest, lines (x ++ '\n' :: rest) = x :: lines rest
  | [], _, rest => lines_nl rest
  | c :: x, h, rest => by
    rw [List.cons_append, lines_cons (h c (List.mem_cons_self ..)), lines_line (fun d hd => h d (List.mem_cons_of_mem _ hd))]
    rfl

theorem lines_printed : ∀ {l : List Str}, (∀ x ∈ l, ∀ c ∈ x, isBreak c = false) → lines (l.flatMap (· ++ ['\n'])) = l
  | [], _ => rfl
  | x :: l, h => by
    rw [List.flatMap_cons, List.append_assoc]
    show lines (x ++ '\n' :: l.flatMap (· ++ ['\n'])) = _
    rw [lines_line (h x (List.mem_cons_self ..)), lines_printed fun y hy => h y (List.mem_cons_of_mem _ hy)]

/-! ## Rows -/

theorem splitMax_eq {a b : Str} (h : '=' ∉ a) : PyStr.splitMax '=' 1 (a ++ '=' :: b) = [a, b] := by
  induction a with
  | nil =>
    show PyStr.splitMax '=' 1 ('=' :: b) = _
    rw [PyStr.splitMax, if_pos rfl]
    cases b <;> rfl
  | cons c a ih =>
    rw [List.cons_append, PyStr.splitMax, if_neg (fun e => h (by rw [e]; exact List.mem_cons_self ..)), ih (fun g => h (List.mem_cons_of_mem _ g))]
    rfl

theorem splitMax_none : ∀ {a : Str}, '=' ∉ a → PyStr.splitMax '=' 1 a = [a]
  | [], _ => rfl
  | c :: a, h => by
    rw [PyStr.splitMax, if_neg (fun e => h (by rw [e]; exact List.mem_cons_self ..)), splitMax_none (fun g => h (List.mem_cons_of_mem _ g))]
    rfl

theorem graphic_space (U : Unicode) {c : Char} (h : 33 ≤ c.toNat ∧ c.toNat < 127) : U.isSpace c = false := by
  rw [U.space_ascii c (by omega)]
  simp
  omega

theorem toLower_graphic {c : Char} (h : 33 ≤ c.toNat ∧ c.toNat < 127) : 33 ≤ c.toLower.toNat ∧ c.toLower.toNat < 127 := by
  have key : ∀ n : Fin 127, 33 ≤ n.val → 33 ≤ (Char.ofNat n.val).toLower.toNat ∧ (Char.ofNat n.val).toLower.toNat < 127 := by decide
  have := key ⟨c.toNat, h.2⟩ h.1
  rwa [Char.ofNat_toNat] at this

theorem space_space (U : Unicode) : U.isSpace ' ' = true := by
  rw [U.space_ascii ' ' (by decide)]
  decide

/-- What a line adds. -/
theorem addLine_row (U : Unicode) (d : List (Str × Str)) {r : Row} (h : r.Ok isBreak U.isSpace) : addLine U d r.text = PyDict.set (r.name.map Char.toLower) r.value d := by
  have e : r.text = (r.name ++ [' ']) ++ '=' :: (' ' :: r.value) := by
    show r.name ++ [' ', '=', ' '] ++ r.value = _
    simp
  unfold addLine
  rw [if_pos (by rw [e]; simp), e, splitMax_eq]
  · dsimp only
    have e1 : strip U (U.lower (r.name ++ [' '])) = r.name.map Char.toLower := by
      rw [U.lower_ascii]
      · rw [List.map_append]
        have := Props.PgString.strip_pad U [] (r.name.map Char.toLower) [' '] (fun c h => by cases h) (by intro c hc; rw [List.mem_singleton.mp hc]; exact space_space U) ?_ ?_ ?_
        · exact this
        · intro c hc
          obtain ⟨x, hx, rfl⟩ := List.mem_map.mp (List.mem_of_head? hc)
          exact graphic_space U (toLower_graphic ⟨(h.name.2 x hx).1, (h.name.2 x hx).2.1⟩)
        · intro c hc
          obtain ⟨x, hx, rfl⟩ := List.mem_map.mp (List.mem_of_getLast? hc)
          exact graphic_space U (toLower_graphic ⟨(h.name.2 x hx).1, (h.name.2 x hx).2.1⟩)
        · intro e
          exact h.name.1 (List.map_eq_nil_iff.mp e)
      · intro c hc
        rcases List.mem_append.mp hc with hc | hc
        · exact Nat.lt_succ_of_lt (h.name.2 c hc).2.1
        · rw [List.mem_singleton.mp hc]; decide
    have e2 : strip U (' ' :: r.value) = r.value := by
      by_cases hv : r.value = []
      · rw [hv]
        unfold strip lstrip
        rw [List.dropWhile_cons_of_pos (space_space U)]
        rfl
      · have := Props.PgString.strip_pad U [' '] r.value [] (by intro c hc; rw [List.mem_singleton.mp hc]; exact space_space U) (fun c h => by cases h) h.front h.back hv
        rwa [List.append_nil] at this
    rw [e1, e2]
  · intro g
    rcases List.mem_append.mp g with g | g
    · exact (h.name.2 '=' g).2.2 rfl
    · cases List.mem_singleton.mp g

theorem addLine_other (U : Unicode) (d : List (Str × Str)) {x : Str} (h : '=' ∉ x) : addLine U d x = d := by
  unfold addLine
  rw [if_neg h]

theorem get_rows (U : Unicode) (k : Str) : ∀ {rows : List Row} {d : List (Str × Str)}, (∀ r ∈ rows, r.Ok isBreak U.isSpace) →
    PyDict.get k ((rows.map Row.text).foldl (addLine U) d) = match said rows k with
      | some v => some v
      | none => PyDict.get k d := by
  intro rows
  induction rows with
  | nil => intro d _; rfl
  | cons r rows ih =>
    intro d h
    rw [List.map_cons, List.foldl_cons, ih fun x hx => h x (List.mem_cons_of_mem _ hx), addLine_row U d (h r (List.mem_cons_self ..)), PyDict.get_set]
    unfold said
    rw [List.filter_cons]
    by_cases e : r.name.map Char.toLower = k
    · rw [if_pos e, if_pos (by simpa using e), List.getLast?_cons]
      cases ((rows.filter fun r => r.name.map Char.toLower = k).getLast?) <;> rfl
    · rw [if_neg e, if_neg (by simpa using e)]

theorem row_oneLine {isSpace : Char → Bool} {r : Row} (h : r.Ok isBreak isSpace) : ∀ c ∈ r.text, isBreak c = false := by
  intro c hc
  have hc : c ∈ r.name ++ [' ', '=', ' '] ++ r.value := hc
  rcases List.mem_append.mp hc with hc | hc
  · rcases List.mem_append.mp hc with hc | hc
    · obtain ⟨a, b, _⟩ := h.name.2 c hc
      unfold isBreak
      simp only [List.contains_eq_mem, List.mem_cons, List.not_mem_nil, or_false, decide_eq_false_iff_not]
      omega
    · have : ∀ c ∈ [' ', '=', ' '], isBreak c = false := by decide
      exact this c hc
  · exact h.oneLine c hc

/-! ## C68: the dictionary -/

/-- What `pg_config` prints is what the dictionary says: under each name, in lower case, the value of the last line with it, and nothing else. -/
theorem C68_dictionary (U : Unicode) (P : Program) (rows : List Row) (h : ∀ r ∈ rows, r.Ok isBreak U.isSpace) (hp : P [] = .text (printed rows)) :
    ∃ d, pgConfigDictionary U P = .ok d ∧ ∀ k, PyDict.get k d = said rows k := by
  unfold pgConfigDictionary commandOutput
  rw [List.map_nil, hp]
  refine ⟨_, rfl, fun k => ?_⟩
  have e : lines (printed rows) = rows.map Row.text := by
    have e : printed rows = (rows.map Row.text).flatMap (· ++ ['\n']) := by
      unfold printed
      rw [List.flatMap_map]
    rw [e, lines_printed]
    intro x hx
    obtain ⟨r, hr, rfl⟩ := List.mem_map.mp hx
    exact row_oneLine (h r hr)
  rw [e, get_rows U k h]
  cases said rows k <;> rfl

/-! ## Options of `configure` -/

open PG.Spec.PgString in
/-- Text in quotes stays in one piece. -/
theorem cut_inside : ∀ (t rest : Str), '\'' ∉ t → cut '\'' ' ' none true (t ++ '\'' :: rest) = match cut '\'' ' ' none false rest with
    | [] => [t ++ ['\'']]
    | h :: l => (t ++ '\'' :: h) :: l
  | [], rest, _ => by
    show cut '\'' ' ' none true ('\'' :: rest) = _
    rw [cut, if_neg (by simp), if_pos rfl]
    rfl
  | c :: t, rest, h => by
    have hc : c ≠ '\'' := fun e => h (by rw [e]; exact List.mem_cons_self ..)
    rw [List.cons_append, cut, if_neg (by simp), if_neg hc, cut_inside t rest (fun g => h (List.mem_cons_of_mem _ g))]
    cases cut '\'' ' ' none false rest <;> rfl

open PG.Spec.PgString in
theorem cut_quoted (t rest : Str) (h : '\'' ∉ t) : cut '\'' ' ' none false ('\'' :: t ++ '\'' :: rest) = match cut '\'' ' ' none false rest with
    | [] => ['\'' :: t ++ ['\'']]
    | x :: l => ('\'' :: t ++ '\'' :: x) :: l := by
  rw [List.cons_append, cut, if_neg (by simp), if_pos rfl]
  show (match cut '\'' ' ' none true (t ++ '\'' :: rest) with | [] => [['\'']] | h :: t => ('\'' :: h) :: t) = _
  rw [cut_inside t rest h]
  cases cut '\'' ' ' none false rest <;> rfl

theorem arg_noquote {a : Arg} (h : a.Ok) : '\'' ∉ a.text := by
  unfold Arg.text
  intro g
  rcases List.mem_append.mp g with g | g
  · rcases List.mem_append.mp g with g | g
    · by_cases hd : a.dashes = true
      · rw [if_pos hd] at g; revert g; decide
      · rw [if_neg hd] at g; cases g
    · exact h.name.1 g
  · cases hv : a.value with
    | none => rw [hv] at g; cases g
    | some v =>
      rw [hv] at g
      rcases List.mem_cons.mp g with g | g
      · cases g
      · exact h.value v hv g

def quoted (a : Arg) : Str := '\'' :: a.text ++ ['\'']

open PG.Spec.PgString in
theorem cut_kept : ∀ {l : List Arg}, l ≠ [] → (∀ a ∈ l, a.Ok) → cut '\'' ' ' none false (kept l) = l.map quoted
  | [], h, _ => absurd rfl h
  | [a], _, h => by
    show cut '\'' ' ' none false ('\'' :: a.text ++ '\'' :: []) = _
    rw [cut_quoted _ _ (arg_noquote (h a (List.mem_cons_self ..)))]
    rfl
  | a :: b :: l, _, h => by
    have e : kept (a :: b :: l) = '\'' :: a.text ++ '\'' :: (' ' :: kept (b :: l)) := by
      show '\'' :: a.text ++ ['\'', ' '] ++ kept (b :: l) = _
      simp
    rw [e, cut_quoted _ _ (arg_noquote (h a (List.mem_cons_self ..))), cut, if_pos (by simp)]
    show (quoted a) :: cut '\'' ' ' none false (kept (b :: l)) = _
    rw [cut_kept (by simp) fun x hx => h x (List.mem_cons_of_mem _ hx)]
    rfl

theorem undouble_id {q : Char} : ∀ {s : Str}, q ∉ s → undouble q s = s
  | [], _ => rfl
  | c :: s, h => by
    rw [Props.PgString.undouble_ne (fun e => h (by rw [e]; exact List.mem_cons_self ..)), undouble_id fun g => h (List.mem_cons_of_mem _ g)]

theorem undouble_quoted {t : Str} (h : '\'' ∉ t) (hn : t ≠ []) : undouble '\'' ('\'' :: t ++ ['\'']) = '\'' :: t ++ ['\''] := by
  cases t with
  | nil => exact absurd rfl hn
  | cons c t =>
    have hc : c ≠ '\'' := fun e => h (by rw [e]; exact List.mem_cons_self ..)
    have tail : ∀ {t : Str}, '\'' ∉ t → undouble '\'' (t ++ ['\'']) = t ++ ['\''] := by
      intro t ht
      induction t with
      | nil => rfl
      | cons d t ih =>
        rw [List.cons_append, Props.PgString.undouble_ne (fun e => ht (by rw [e]; exact List.mem_cons_self ..)), ih fun g => ht (List.mem_cons_of_mem _ g)]
    show undouble '\'' ('\'' :: c :: (t ++ ['\''])) = _
    rw [undouble, if_neg (fun e => hc e.2)]
    show '\'' :: undouble '\'' ((c :: t) ++ ['\'']) = _
    rw [tail h]
    rfl

/-- Between dashes and quotes. -/
theorem stripped {m : Str} {pre post : Str} (h1 : ∀ c ∈ pre, c = '-' ∨ c = '\'' ∨ c = '"') (h2 : ∀ c ∈ post, c = '-' ∨ c = '\'' ∨ c = '"')
    (hf : ∀ c, m.head? = some c → c ≠ '-' ∧ c ≠ '\'' ∧ c ≠ '"') (hl : ∀ c, m.getLast? = some c → c ≠ '-' ∧ c ≠ '\'' ∧ c ≠ '"') (hn : m ≠ []) :
    stripDashQuotes (pre ++ m ++ post) = m := by
  unfold stripDashQuotes
  rw [List.append_assoc, List.dropWhile_append_of_pos (by intro c hc; simpa [or_assoc] using h1 c hc)]
  have e1 : (m ++ post).dropWhile (fun c => c = '-' || c = '\'' || c = '"') = m ++ post := by
    cases m with
    | nil => exact absurd rfl hn
    | cons c m =>
      rw [List.cons_append, List.dropWhile_cons_of_neg]
      obtain ⟨a, b, d⟩ := hf c rfl
      simp [a, b, d]
  rw [e1, List.reverse_append, List.dropWhile_append_of_pos (by intro c hc; simpa [or_assoc] using h2 c (List.mem_reverse.mp hc))]
  have e2 : m.reverse.dropWhile (fun c => c = '-' || c = '\'' || c = '"') = m.reverse := by
    cases hr : m.reverse with
    | nil => rfl
    | cons c r =>
      rw [List.dropWhile_cons_of_neg]
      obtain ⟨a, b, d⟩ := hl c (by rw [List.getLast?_eq_head?_reverse, hr]; rfl)
      simp [a, b, d]
  rw [e2, List.reverse_reverse]

/-- An argument without its dashes. -/
def body (a : Arg) : Str := a.name ++ (match a.value with
  | none => []
  | some v => '=' :: v)

/-- The value of an option in Python: its text, or `True`. -/
def inPython : Option Str → Value
  | none => .given
  | some v => .text v

theorem optionOf_quoted {a : Arg} (h : a.Ok) : optionOf '\'' (quoted a) = some (underscored a.name, inPython a.value) := by
  obtain ⟨c, r, hn, hc1, hc2⟩ := h.first
  have hc3 : c ≠ '\'' := fun e => h.name.1 (by rw [hn, e]; exact List.mem_cons_self ..)
  have ht : a.text = (if a.dashes then "--".toList else []) ++ body a := by
    unfold Arg.text body
    rw [List.append_assoc]
    cases a.value <;> rfl
  have hb : body a ≠ [] := by unfold body; rw [hn]; simp
  have hq : undouble '\'' (quoted a) = ('\'' :: (if a.dashes then "--".toList else [])) ++ body a ++ ['\''] := by
    unfold quoted
    rw [undouble_quoted (arg_noquote h) (by rw [ht]; simp [hb]), ht]
    simp
  have hbl : ∀ z, (body a).getLast? = some z → z ≠ '-' ∧ z ≠ '\'' ∧ z ≠ '"' := by
    intro z hz
    have hz' : a.text.getLast? = some z := by rw [ht, List.getLast?_append, hz]; rfl
    obtain ⟨x, y⟩ := h.last z hz'
    exact ⟨x, fun e => arg_noquote h (by rw [← e]; exact List.mem_of_getLast? hz'), y⟩
  unfold optionOf
  rw [hq, stripped (pre := '\'' :: (if a.dashes then "--".toList else [])) (post := ['\'']) ?_ ?_ ?_ hbl hb]
  · have key : underscored a.name ≠ [] := by unfold underscored; rw [hn]; simp
    unfold body
    cases a.value with
    | none =>
      dsimp only
      rw [List.append_nil, splitMax_none h.name.2]
      dsimp only
      show (if underscored a.name = [] then none else some (underscored a.name, Value.given)) = _
      rw [if_neg key]
      rfl
    | some v =>
      dsimp only
      rw [splitMax_eq h.name.2]
      dsimp only
      show (if underscored a.name = [] then none else some (underscored a.name, Value.text v)) = _
      rw [if_neg key]
      rfl
  · intro z hz
    rcases List.mem_cons.mp hz with rfl | hz
    · exact .inr (.inl rfl)
    · by_cases hd : a.dashes = true
      · rw [if_pos hd] at hz
        have : ∀ z ∈ "--".toList, z = '-' := by decide
        exact .inl (this z hz)
      · rw [if_neg hd] at hz; cases hz
  · intro z hz; rw [List.mem_singleton.mp hz]; exact .inr (.inl rfl)
  · intro z hz
    unfold body at hz
    rw [hn] at hz
    cases hz
    exact ⟨hc1, hc3, hc2⟩

/-- The options are the arguments `configure` was given, in order: the name with `_` for `-`, and the value, or `True` without one. What is missing: values with single quotes, and arguments
that end with a dash or a double quote; see `C68_configure_end` and `C68_configure_quote`. -/
theorem C68_configure_partial (l : List Arg) (h : ∀ a ∈ l, a.Ok) : parseConfigure (kept l) = l.map fun a => (underscored a.name, inPython a.value) := by
  by_cases hl : l = []
  · rw [hl]; rfl
  have hq : quoteOf (kept l) = some '\'' := by
    cases l with
    | nil => exact absurd rfl hl
    | cons a l =>
      cases l with
      | nil => rfl
      | cons b l => rfl
  unfold parseConfigure
  rw [hq]
  dsimp only
  rw [Props.PgString.C28_split_using _ _ _ (by decide)]
  have : Props.PgString.limit (-1) = none := rfl
  rw [this, cut_kept hl h, List.filterMap_map]
  clear hq this hl
  induction l with
  | nil => rfl
  | cons a l ih =>
    rw [List.filterMap_cons_some (f := optionOf '\'' ∘ quoted) (optionOf_quoted (h a (List.mem_cons_self ..))), ih fun x hx => h x (List.mem_cons_of_mem _ hx)]
    rfl

end PG.Props.Installation
