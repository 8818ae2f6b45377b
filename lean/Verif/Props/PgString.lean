import Verif.Model.PgString
import Verif.Spec.PgString
/-!
# C27, C28: quoting and splitting of identifiers and literals
-/
namespace PG.Props.PgString
open PG PG.PyStr PG.PgString PG.Spec.PgString

/-! ## C27 -/

theorem lexQuoted_ne {q c : Char} (h : c ≠ q) (s : Str) : lexQuoted q (c :: s) = (lexQuoted q s).map fun r => (c :: r.1, r.2) := by
  cases s with
  | nil => simp [lexQuoted, h]
  | cons d s => rw [lexQuoted, if_neg h]

theorem lexQuoted_double (q : Char) (rest : Str) (h : rest.head? ≠ some q) : ∀ s : Str, lexQuoted q (double q s ++ q :: rest) = some (s, rest)
  | [] => by
    show lexQuoted q (q :: rest) = _
    cases rest with
    | nil => simp [lexQuoted]
    | cons d s =>
      rw [lexQuoted, if_pos rfl, if_neg (by intro hd; exact h (by simp [hd]))]
  | c :: s => by
    have ih := lexQuoted_double q rest h s
    by_cases hc : c = q
    · subst hc
      have : double c (c :: s) ++ c :: rest = c :: c :: (double c s ++ c :: rest) := by simp [double]
      rw [this, lexQuoted, if_pos rfl, if_pos rfl, ih]
      rfl
    · have : double q (c :: s) ++ q :: rest = c :: (double q s ++ q :: rest) := by simp [double, hc]
      rw [this, lexQuoted_ne hc, ih]
      rfl

/-- C27: a quoted literal, followed by a text that does not begin with a quote and does not continue it on a new line, is read as one string
constant with the string as its value, and in no other way. -/
theorem C27_literal (s rest : Str) (h : rest.head? ≠ some '\'') (hc : ¬ Continues rest) (v r : Str) :
    Literal (quoteLiteral s ++ rest) v r ↔ v = s ∧ r = rest := by
  have hq : quoteLiteral s ++ rest = '\'' :: (double '\'' s ++ '\'' :: rest) := by simp [quoteLiteral]
  have hl := lexQuoted_double '\'' rest h s
  rw [hq]
  constructor
  · intro hL
    cases hL with
    | stop body v rest' h1 h2 => rw [hl] at h1; cases h1; exact ⟨rfl, rfl⟩
    | more body v w m v' rest' h1 h2 h3 =>
      rw [hl] at h1
      cases h1
      exact absurd ⟨_, _, h2, rfl⟩ hc
  · rintro ⟨rfl, rfl⟩
    exact .stop _ _ _ hl hc

/-- C27: what precedes the literal in the statement cannot change its end: two different strings never quote to texts one of which begins the
other followed by something else than a quote. -/
theorem C27_literal_unique (s t x y : Str) (hx : x.head? ≠ some '\'') (hy : y.head? ≠ some '\'') (h : quoteLiteral s ++ x = quoteLiteral t ++ y) :
    s = t ∧ x = y := by
  have h1 := lexQuoted_double '\'' x hx s
  have h2 := lexQuoted_double '\'' y hy t
  have : double '\'' s ++ '\'' :: x = double '\'' t ++ '\'' :: y := by simpa [quoteLiteral] using h
  rw [this, h2] at h1
  cases h1
  exact ⟨rfl, rfl⟩

/-- C27: the quoted form of a name is read as one identifier, that name. -/
theorem C27_ident (s rest : Str) (hs : s ≠ []) (h : rest.head? ≠ some '"') (v r : Str) : QuotedIdent (quoteIdent s ++ rest) v r ↔ v = s ∧ r = rest := by
  have hq : quoteIdent s ++ rest = '"' :: (double '"' s ++ '"' :: rest) := by simp [quoteIdent]
  have hl := lexQuoted_double '"' rest h s
  unfold QuotedIdent
  rw [hq]
  constructor
  · rintro ⟨body, h1, h2, h3⟩
    injection h1 with _ h1
    subst h1
    rw [hl] at h2
    cases h2
    exact ⟨rfl, rfl⟩
  · rintro ⟨rfl, rfl⟩
    exact ⟨_, rfl, hl, hs⟩

/-- C27: the empty name has no quoted form the server accepts. -/
theorem C27_empty_ident (rest v r : Str) (h : rest.head? ≠ some '"') : ¬ QuotedIdent (quoteIdent [] ++ rest) v r := by
  have hl := lexQuoted_double '"' rest h []
  rintro ⟨body, h1, h2, h3⟩
  have hq : quoteIdent [] ++ rest = '"' :: (double '"' [] ++ '"' :: rest) := by simp [quoteIdent]
  rw [hq] at h1
  injection h1 with _ h1
  subst h1
  rw [hl] at h2
  cases h2
  exact h3 rfl

theorem alnum_cont (U : Unicode) (c : Char) (h : U.isAlnum (if c = '_' then 'a' else c) = true) : identCont c = true := by
  by_cases hc : c = '_'
  · subst hc; decide
  · rw [if_neg hc] at h
    by_cases ha : c.toNat < 128
    · rw [U.alnum_ascii c ha] at h
      unfold Char.isAlphanum at h
      unfold identCont identStart
      rw [Bool.or_eq_true] at h
      rcases h with h | h <;> simp [h]
    · unfold identCont identStart
      simp [show 128 ≤ c.toNat by omega]

theorem map_id_iff {α : Type} (f : α → α) : ∀ s : List α, s.map f = s ↔ ∀ c ∈ s, f c = c
  | [] => by simp
  | x :: s => by simp [map_id_iff f s]

theorem toLower_id (c : Char) : c.toLower = c ↔ c.isUpper = false := by
  unfold Char.toLower Char.isUpper
  by_cases h : c.val ≥ 'A'.val ∧ c.val ≤ 'Z'.val
  · rw [dif_pos h]
    constructor
    · intro hc
      exfalso
      have := congrArg Char.val hc
      simp only at this
      have h2 := congrArg UInt32.toNat this
      have h3 : c.val.toNat ≤ 'Z'.val.toNat := UInt32.le_iff_toNat_le.1 h.2
      rw [UInt32.toNat_add, show ('a'.val - 'A'.val).toNat = 32 from by decide] at h2
      have h4 : 'Z'.val.toNat = 90 := by decide
      omega
    · intro hu
      simp only [decide_eq_false_iff_not] at hu
      exact absurd h hu
  · rw [dif_neg h]
    simp only [true_iff, decide_eq_false_iff_not]
    exact h

/-- C27: a name that is left unquoted is read as one word, and as that name exactly if it has no upper case letters (and is no key word). -/
theorem C27_unquoted (U : Unicode) (s rest : Str) (hs : needsQuoting U s = false) (h : ∀ c, rest.head? = some c → identCont c = false) :
    quoteIdentIfNeeded U s = s ∧ lexWord (s ++ rest) = some (s, rest) ∧ (foldCase s = s ↔ ∀ c ∈ s, c.isUpper = false) := by
  refine ⟨by simp [quoteIdentIfNeeded, hs], ?_, ?_⟩
  · cases s with
    | nil => simp [needsQuoting] at hs
    | cons c r =>
      simp only [needsQuoting, Bool.not_eq_false', Bool.and_eq_true, Bool.not_eq_true', List.all_eq_true] at hs
      obtain ⟨hd, ha⟩ := hs
      have hstart : identStart c = true := by
        have hcc := alnum_cont U c (ha c List.mem_cons_self)
        by_cases hlt : c.toNat < 128
        · rw [U.decimal_ascii c hlt] at hd
          unfold identCont at hcc
          have h2 := ha c List.mem_cons_self
          by_cases h3 : c = '_'
          · subst h3; decide
          · rw [if_neg h3, U.alnum_ascii c hlt] at h2
            unfold Char.isAlphanum at h2
            rw [hd, Bool.or_false] at h2
            simp [identStart, h2]
        · simp [identStart, show 128 ≤ c.toNat by omega]
      have hall : ∀ x ∈ r, identCont x = true := fun x hx => alnum_cont U x (ha x (List.mem_cons_of_mem _ hx))
      show lexWord (c :: (r ++ rest)) = _
      simp only [lexWord]
      rw [if_pos hstart]
      have h1 : ∀ (r : Str), (∀ x ∈ r, identCont x = true) → (r ++ rest).takeWhile identCont = r ∧ (r ++ rest).dropWhile identCont = rest := by
        intro r hr
        induction r with
        | nil =>
          cases rest with
          | nil => simp
          | cons d t => simp [h d rfl]
        | cons x r ih =>
          obtain ⟨i1, i2⟩ := ih fun y hy => hr y (List.mem_cons_of_mem _ hy)
          simp [hr x List.mem_cons_self, i1, i2]
      obtain ⟨e1, e2⟩ := h1 r hall
      rw [e1, e2]
  · unfold foldCase
    rw [map_id_iff]
    exact ⟨fun hm c hc => (toLower_id c).1 (hm c hc), fun hm c hc => (toLower_id c).2 (hm c hc)⟩

/-- Finding: `quote_ident_if_needed` leaves `Foo` unquoted, which the server reads as `foo`. -/
theorem C27_upper_case_lost (U : Unicode) : quoteIdentIfNeeded U "Foo".toList = "Foo".toList ∧ foldCase "Foo".toList = "foo".toList := by
  have h : ∀ c ∈ "Foo".toList, U.isAlnum (if c = '_' then 'a' else c) = true := by
    intro c hc
    have : c = 'F' ∨ c = 'o' := by simpa using hc
    rcases this with rfl | rfl
    · rw [if_neg (by decide), U.alnum_ascii _ (by decide)]; decide
    · rw [if_neg (by decide), U.alnum_ascii _ (by decide)]; decide
  refine ⟨?_, by decide⟩
  have hn : needsQuoting U "Foo".toList = false := by
    show needsQuoting U ('F' :: ['o', 'o']) = false
    simp only [needsQuoting, U.decimal_ascii 'F' (by decide), Bool.not_eq_false', Bool.and_eq_true, Bool.not_eq_true', List.all_eq_true]
    exact ⟨by decide, h⟩
  unfold quoteIdentIfNeeded
  rw [hn]
  rfl

/-- The text from the character after the opening quote, as a literal with backslash escapes reads it. -/
theorem lexEscaped_double (rest : Str) (h : rest.head? ≠ some '\'') : ∀ s : Str, '\\' ∉ s → lexEscaped (double '\'' s ++ '\'' :: rest) = some rest
  | [], _ => by
    show lexEscaped ('\'' :: rest) = _
    cases rest with
    | nil => simp [lexEscaped]
    | cons d s => simp [lexEscaped, show d ≠ '\'' from fun hd => h (by simp [hd])]
  | c :: s, hb => by
    have ih := lexEscaped_double rest h s fun hm => hb (List.mem_cons_of_mem _ hm)
    have hc : c ≠ '\\' := fun hc => hb (by simp [hc])
    by_cases hq : c = '\''
    · subst hq
      have : double '\'' ('\'' :: s) ++ '\'' :: rest = '\'' :: '\'' :: (double '\'' s ++ '\'' :: rest) := by simp [double]
      rw [this]
      simp only [lexEscaped]
      rw [if_neg (by decide), if_pos trivial, if_pos trivial, ih]
    · have : double '\'' (c :: s) ++ '\'' :: rest = c :: (double '\'' s ++ '\'' :: rest) := by simp [double, hq]
      rw [this]
      cases hd : double '\'' s ++ '\'' :: rest with
      | nil => simp at hd
      | cons d t => rw [lexEscaped, if_neg hc, if_neg hq, ← hd, ih]

/-- C27: without standard_conforming_strings, a quoted literal without backslashes still ends where it should. -/
theorem C27_literal_escapes (s rest : Str) (hb : '\\' ∉ s) (h : rest.head? ≠ some '\'') : ∃ body, quoteLiteral s ++ rest = '\'' :: body ∧ lexEscaped body = some rest :=
  ⟨_, by simp [quoteLiteral]; rfl, by simpa using lexEscaped_double rest h s hb⟩

/-- Finding: with a backslash it does not: the quoted form of a backslash takes the rest of the statement into the constant. -/
theorem C27_backslash : quoteLiteral ['\\'] ++ "; SELECT 1".toList = '\'' :: "\\'; SELECT 1".toList ∧ lexEscaped "\\'; SELECT 1".toList = none := by
  decide

/-- Concrete cases. -/
example : ("; SELECT 1".toList).head? ≠ some '\'' ∧ quoteLiteral "it's".toList = "'it''s'".toList ∧ quoteIdent "a\"b".toList = "\"a\"\"b\"".toList := by decide

example : ¬ Continues "; SELECT 1".toList := by
  rintro ⟨w, more, ⟨h, n, l, hh, hn, hl, rfl⟩, he⟩
  cases hh with
  | nil => simp at he; simp [← he.1] at hn
  | space c s hc _ => simp at he; simp [← he.1] at hc
  | comment t _ _ => simp at he

/-! ## C28 -/

/-- The place of the first separator outside quotes. -/
def firstSep (q sep : Char) : Bool → Str → Option Nat
  | _, [] => none
  | inq, c :: s => if c = sep ∧ inq = false then some 0 else (firstSep q sep (if c = q then !inq else inq) s).map (· + 1)

theorem firstSep_true (q sep : Char) (hne : sep ≠ q) : ∀ s : Str, firstSep q sep true s =
    (s.findIdx? (· = q)).bind fun i => (firstSep q sep false (s.drop (i + 1))).map (· + (i + 1))
  | [] => rfl
  | c :: s => by
    rw [firstSep, if_neg (by simp), List.findIdx?_cons]
    by_cases hc : c = q
    · simp [hc]
    · rw [if_neg hc, firstSep_true q sep hne s]
      simp only [hc, decide_false, Bool.false_eq_true, if_false]
      cases s.findIdx? (· = q) with
      | none => rfl
      | some i =>
        simp only [Option.map_some, Option.bind_some, List.drop_succ_cons]
        rw [Option.map_map]
        rfl

theorem firstSep_none (q sep : Char) (hne : sep ≠ q) : ∀ (s : Str) (b : Bool), s.findIdx? (· = sep) = none → firstSep q sep b s = none
  | [], _, _ => rfl
  | c :: s, b, h => by
    rw [List.findIdx?_cons] at h
    by_cases hc : c = sep
    · simp [hc] at h
    · simp only [hc, decide_false, Bool.false_eq_true, if_false, Option.map_eq_none_iff] at h
      rw [firstSep, if_neg (by simp [hc]), firstSep_none q sep hne s _ h]
      rfl

theorem firstSep_false (q sep : Char) (hne : sep ≠ q) : ∀ (s : Str) (ns : Nat), s.findIdx? (· = sep) = some ns → firstSep q sep false s =
    match (s.take ns).findIdx? (· = q) with
    | none => some ns
    | some i => (firstSep q sep true (s.drop (i + 1))).map (· + (i + 1))
  | [], _, h => by simp at h
  | c :: s, ns, h => by
    rw [List.findIdx?_cons] at h
    by_cases hc : c = sep
    · simp only [hc, decide_true, if_true, Option.some.injEq] at h
      subst h
      simp [firstSep, hc]
    · simp only [hc, decide_false, Bool.false_eq_true, if_false, Option.map_eq_some_iff] at h
      obtain ⟨n, hn, rfl⟩ := h
      rw [firstSep, if_neg (by simp [hc]), List.take_succ_cons, List.findIdx?_cons]
      by_cases hq : c = q
      · simp [hq]
      · rw [if_neg hq, firstSep_false q sep hne s n hn]
        simp only [hq, decide_false, Bool.false_eq_true, if_false]
        cases (s.take n).findIdx? (· = q) with
        | none => rfl
        | some i =>
          simp only [Option.map_some, List.drop_succ_cons]
          rw [Option.map_map]
          rfl

/-- From a place in the text. -/
def sepFrom (q sep : Char) (text : Str) (b : Bool) (k : Nat) : Option Nat := (firstSep q sep b (text.drop k)).map (· + k)

theorem sepFrom_true (q sep : Char) (hne : sep ≠ q) (text : Str) (k : Nat) :
    sepFrom q sep text true k = (find q text k).bind fun nq => sepFrom q sep text false (nq + 1) := by
  unfold sepFrom find
  rw [firstSep_true q sep hne]
  cases (text.drop k).findIdx? (· = q) with
  | none => rfl
  | some i =>
    simp only [Option.bind_some, Option.map_some, List.drop_drop]
    rw [Option.map_map, show i + k + 1 = k + (i + 1) by omega]
    congr 1
    funext x
    simp only [Function.comp]
    omega

theorem sepFrom_false (q sep : Char) (hne : sep ≠ q) (text : Str) (k : Nat) : sepFrom q sep text false k =
    (find sep text k).bind fun ns => match findIn q text k ns with
      | none => some ns
      | some nq => sepFrom q sep text true (nq + 1) := by
  unfold sepFrom find findIn
  cases h : (text.drop k).findIdx? (· = sep) with
  | none => rw [firstSep_none q sep hne _ _ h]; rfl
  | some ns =>
    rw [firstSep_false q sep hne _ _ h]
    simp only [Option.map_some, Option.bind_some]
    have : (text.take (ns + k)).drop k = (text.drop k).take ns := by rw [List.drop_take]; congr 1; omega
    rw [this]
    cases ((text.drop k).take ns).findIdx? (· = q) with
    | none => rfl
    | some i =>
      simp only [Option.map_some, List.drop_drop]
      rw [Option.map_map, show i + k + 1 = k + (i + 1) by omega]
      congr 1
      funext x
      simp only [Function.comp]
      omega

theorem find_lt {c : Char} {s : Str} {k n : Nat} (h : find c s k = some n) : k ≤ n ∧ n < s.length ∧ s[n]? = some c := by
  unfold find at h
  rw [Option.map_eq_some_iff] at h
  obtain ⟨i, hi, rfl⟩ := h
  rw [List.findIdx?_eq_some_iff_getElem] at hi
  obtain ⟨hl, he, _⟩ := hi
  simp only [List.length_drop] at hl
  simp only [decide_eq_true_eq] at he
  rw [List.getElem_drop] at he
  refine ⟨by omega, by omega, ?_⟩
  rw [List.getElem?_eq_getElem (by omega)]
  rw [← he]
  congr 2
  omega

/-- After a quote inside a quotation. -/
theorem closing_spec (q sep : Char) (hne : sep ≠ q) (text : Str) : ∀ (fuel : Nat) (o : Option Nat), (∀ n, o = some n → text.length - n < fuel ∧ text[n]? = some q) → 0 < fuel →
    (o.bind fun nq => sepFrom q sep text false (nq + 1)) = (closing q text fuel o).bind fun nq => sepFrom q sep text false (nq + 1)
  | 0, _, _, h => by omega
  | fuel + 1, none, _, _ => by simp [closing]
  | fuel + 1, some n, h, _ => by
    obtain ⟨h1, h2⟩ := h n rfl
    have hn : n < text.length := (List.getElem?_eq_some_iff.1 h2).1
    rw [closing]
    by_cases he : slice text n (n + 2) ≠ [q, q]
    · rw [if_pos he]
    · rw [if_neg he]
      have he : slice text n (n + 2) = [q, q] := Decidable.not_not.1 he
      have hd : text.drop (n + 1) = q :: text.drop (n + 2) := by
        have : text.drop n = q :: text.drop (n + 1) := by
          rw [List.drop_eq_getElem_cons hn]
          congr 1
          rw [List.getElem?_eq_getElem hn] at h2
          exact Option.some.inj h2
        unfold slice at he
        rw [this] at he
        have h3 : n + 2 - n = 2 := by omega
        rw [h3, List.take_succ_cons] at he
        injection he with _ he
        cases hdd : text.drop (n + 1) with
        | nil => rw [hdd] at he; simp at he
        | cons x t =>
          rw [hdd, List.take_succ_cons] at he
          injection he with he _
          rw [he]
          congr 1
          have := congrArg (List.drop 1) hdd
          rw [List.drop_drop] at this
          simpa using this.symm
      have key : sepFrom q sep text false (n + 1) = sepFrom q sep text true (n + 2) := by
        unfold sepFrom
        rw [hd, firstSep, if_neg (by simp [Ne.symm hne])]
        simp only [if_true, Bool.not_false]
        rw [Option.map_map]
        congr 1
        funext x
        simp only [Function.comp]
        omega
      show sepFrom q sep text false (n + 1) = _
      rw [key, sepFrom_true q sep hne]
      have hf : 0 < fuel := by omega
      refine closing_spec q sep hne text fuel (find q text (n + 2)) ?_ hf
      intro m hm
      obtain ⟨a1, a2, a3⟩ := find_lt hm
      exact ⟨by omega, a3⟩

theorem closing_ge (q : Char) (text : Str) : ∀ (fuel : Nat) (o : Option Nat) (m : Nat), closing q text fuel o = some m → ∃ n, o = some n ∧ n ≤ m
  | 0, _, _, h => by simp [closing] at h
  | _ + 1, none, _, h => by simp [closing] at h
  | fuel + 1, some n, m, h => by
    rw [closing] at h
    split at h
    · cases h; exact ⟨n, rfl, Nat.le_refl _⟩
    · obtain ⟨k, hk, hle⟩ := closing_ge q text fuel _ m h
      have := (find_lt hk).1
      exact ⟨n, rfl, by omega⟩

theorem findIn_lt {c : Char} {s : Str} {k e n : Nat} (h : findIn c s k e = some n) : k ≤ n ∧ n < s.length := by
  unfold findIn at h
  rw [Option.map_eq_some_iff] at h
  obtain ⟨i, hi, rfl⟩ := h
  rw [List.findIdx?_eq_some_iff_getElem] at hi
  obtain ⟨hl, _⟩ := hi
  simp only [List.length_drop, List.length_take] at hl
  omega

theorem skipQuotes_spec (q sep : Char) (hne : sep ≠ q) (text : Str) : ∀ (fuel ns : Nat) (o : Option Nat), (∀ n, o = some n → text.length - n < fuel) → 0 < fuel →
    skipQuotes q sep text fuel ns o = match o with
      | none => some ns
      | some nq => sepFrom q sep text true (nq + 1)
  | 0, _, _, _, h => by omega
  | fuel + 1, ns, none, _, _ => by simp [skipQuotes]
  | fuel + 1, ns, some n, h, _ => by
    have hn := h n rfl
    rw [skipQuotes]
    simp only
    rw [sepFrom_true q sep hne, closing_spec q sep hne text (text.length + 1)]
    rotate_left
    · intro m hm
      obtain ⟨a1, a2, a3⟩ := find_lt hm
      exact ⟨by omega, a3⟩
    · omega
    cases hc : closing q text (text.length + 1) (find q text (n + 1)) with
    | none => rfl
    | some nq =>
      simp only [Option.bind_some]
      obtain ⟨m, hm, hle⟩ := closing_ge q text _ _ _ hc
      obtain ⟨a1, a2, _⟩ := find_lt hm
      rw [sepFrom_false q sep hne]
      cases hs : find sep text (nq + 1) with
      | none => rfl
      | some ns' =>
        simp only [Option.bind_some]
        obtain ⟨b1, b2, _⟩ := find_lt hs
        rw [skipQuotes_spec q sep hne text fuel ns' _ ?_ (by omega)]
        intro k hk
        have := findIn_lt hk
        omega

theorem cut_zero (q sep : Char) : ∀ (b : Bool) (s : Str), cut q sep (some 0) b s = [s]
  | _, [] => rfl
  | b, c :: s => by rw [cut, if_neg (by simp), cut_zero q sep _ s]

theorem cut_step (q sep : Char) (n : Option Nat) (hn : n ≠ some 0) : ∀ (b : Bool) (s : Str), cut q sep n b s =
    match firstSep q sep b s with
    | none => [s]
    | some i => s.take i :: cut q sep (n.map (· - 1)) false (s.drop (i + 1))
  | _, [] => by simp [cut, firstSep]
  | b, c :: s => by
    rw [cut, firstSep]
    by_cases h : c = sep ∧ b = false
    · rw [if_pos ⟨h.1, h.2, hn⟩, if_pos h]
      simp
    · rw [if_neg (fun hh => h ⟨hh.1, hh.2.1⟩), if_neg h, cut_step q sep n hn _ s]
      cases firstSep q sep (if c = q then !b else b) s with
      | none => rfl
      | some i => simp

/-- The limit `maxsplit` stands for. -/
def limit (maxsplit : Int) : Option Nat := if maxsplit < 0 then none else some maxsplit.toNat

theorem limit_zero (n : Int) : limit n = some 0 ↔ n = 0 := by
  unfold limit
  by_cases h : n < 0
  · rw [if_pos h]; simp; omega
  · rw [if_neg h]; simp; omega

theorem limit_pred (n : Int) (h : n ≠ 0) : (limit n).map (· - 1) = limit (n - 1) := by
  unfold limit
  by_cases hn : n < 0
  · rw [if_pos hn, if_pos (by omega)]; rfl
  · rw [if_neg hn, if_neg (by omega)]
    simp only [Option.map_some, Option.some.injEq]
    omega

theorem splitUsingLoop_spec (q sep : Char) (hne : sep ≠ q) (text : Str) : ∀ (fuel : Nat) (n : Int) (k : Nat), k ≤ text.length → text.length - k < fuel →
    splitUsingLoop q sep text fuel n k = cut q sep (limit n) false (text.drop k)
  | 0, _, _, _, h => by omega
  | fuel + 1, n, k, hk, hf => by
    rw [splitUsingLoop]
    by_cases hn : n = 0
    · rw [if_pos hn, (limit_zero n).2 hn, cut_zero]
    · rw [if_neg hn, cut_step q sep _ (fun h => hn ((limit_zero n).1 h)), limit_pred n hn]
      have hs := sepFrom_false q sep hne text k
      cases hfd : find sep text k with
      | none =>
        rw [hfd] at hs
        simp only [sepFrom, Option.bind_none, Option.map_eq_none_iff] at hs
        rw [hs]
      | some ns =>
        rw [hfd] at hs
        simp only [Option.bind_some] at hs
        simp only
        rw [skipQuotes_spec q sep hne text (text.length + 1) ns _ (fun m hm => by have := findIn_lt hm; omega) (by omega), ← hs]
        unfold sepFrom
        cases hfs : firstSep q sep false (text.drop k) with
        | none => rfl
        | some i =>
          have hi : i < (text.drop k).length := by
            have : ∀ (s : Str) (b : Bool) (i : Nat), firstSep q sep b s = some i → i < s.length := by
              intro s
              induction s with
              | nil => intro b i h; simp [firstSep] at h
              | cons c s ih =>
                intro b i h
                rw [firstSep] at h
                split at h
                · cases h; simp
                · rw [Option.map_eq_some_iff] at h
                  obtain ⟨j, hj, rfl⟩ := h
                  have := ih _ _ hj
                  simp only [List.length_cons]
                  omega
            exact this _ _ _ hfs
          simp only [List.length_drop] at hi
          simp only [Option.map_some]
          rw [splitUsingLoop_spec q sep hne text fuel (n - 1) (i + k + 1) (by omega) (by omega), List.drop_drop]
          unfold slice
          rw [show i + k - k = i by omega, show i + k + 1 = k + (i + 1) by omega]

theorem split_cut (q sep : Char) : ∀ s : Str, q ∉ s → PyStr.split sep s = cut q sep none false s
  | [], _ => rfl
  | c :: s, h => by
    have ih := split_cut q sep s fun hm => h (List.mem_cons_of_mem _ hm)
    rw [PyStr.split, cut]
    by_cases hc : c = sep
    · rw [if_pos hc, if_pos ⟨hc, rfl, by simp⟩, ih]; rfl
    · rw [if_neg hc, if_neg (fun hh => hc hh.1), if_neg (fun hq => h (by simp [hq])), ih]
      cases cut q sep none false s <;> rfl

theorem splitMax_cut (q sep : Char) : ∀ (n : Nat) (s : Str), q ∉ s → splitMax sep n s = cut q sep (some n) false s
  | _, [], _ => by simp [splitMax, cut]
  | 0, c :: s, _ => by rw [cut_zero, splitMax]
  | n + 1, c :: s, h => by
    have h' : q ∉ s := fun hm => h (List.mem_cons_of_mem _ hm)
    rw [splitMax, cut]
    by_cases hc : c = sep
    · rw [if_pos hc, if_pos ⟨hc, rfl, by simp⟩, splitMax_cut q sep n s h']; rfl
    · rw [if_neg hc, if_neg (fun hh => hc hh.1), if_neg (fun hq => h (by simp [hq])), splitMax_cut q sep (n + 1) s h']
      cases cut q sep (some (n + 1)) false s <;> rfl

/-- C28: `split_using` cuts any text at every separator outside quotes, at most `maxsplit` times (a negative `maxsplit`: any number of times). -/
theorem C28_split_using (text : Str) (q sep : Char) (hne : sep ≠ q) (maxsplit : Int) : splitUsing text q sep maxsplit = cut q sep (limit maxsplit) false text := by
  unfold splitUsing
  by_cases hq : q ∈ text
  · rw [if_neg (by simp [hq]), splitUsingLoop_spec q sep hne text _ _ _ (by omega) (by omega)]
    rfl
  · rw [if_pos hq]
    unfold limit
    by_cases hm : maxsplit < 0
    · rw [if_pos hm, if_pos hm, split_cut q sep text hq]
    · rw [if_neg hm, if_neg hm, splitMax_cut q sep _ text hq]

/-- The first item of a list, with a text put before it. -/
def appHead (p : Str) : List Str → List Str
  | [] => [p]
  | h :: t => (p ++ h) :: t

/-- A text that leaves quotations as they are and has no separator outside of them. -/
def Neutral (q sep : Char) (p : Str) : Prop := ∀ n t, cut q sep n false (p ++ t) = appHead p (cut q sep n false t)

theorem cut_ne (q sep : Char) (n : Option Nat) (b : Bool) (s : Str) : ∃ h t, cut q sep n b s = h :: t := by
  cases s with
  | nil => exact ⟨_, _, rfl⟩
  | cons c s =>
    rw [cut]
    split
    · exact ⟨_, _, rfl⟩
    · split <;> exact ⟨_, _, rfl⟩

theorem neutral_append {q sep : Char} {p r : Str} (hp : Neutral q sep p) (hr : Neutral q sep r) : Neutral q sep (p ++ r) := by
  intro n t
  rw [List.append_assoc, hp, hr]
  obtain ⟨h, u, e⟩ := cut_ne q sep n false t
  rw [e]
  simp [appHead]

theorem neutral_plain {q sep : Char} : ∀ {p : Str}, q ∉ p → sep ∉ p → Neutral q sep p
  | [], _, _ => by
    intro n t
    obtain ⟨h, u, e⟩ := cut_ne q sep n false t
    simp [e, appHead]
  | c :: p, h1, h2 => by
    intro n t
    have ih := neutral_plain (q := q) (sep := sep) (p := p) (fun hm => h1 (List.mem_cons_of_mem _ hm)) (fun hm => h2 (List.mem_cons_of_mem _ hm)) n t
    show cut q sep n false (c :: (p ++ t)) = _
    rw [cut, if_neg (fun h => h2 (by simp [h.1])), if_neg (fun h => h1 (by simp [h])), ih]
    obtain ⟨h, u, e⟩ := cut_ne q sep n false t
    simp [e, appHead]

theorem cut_double (q sep : Char) (hne : sep ≠ q) (n : Option Nat) (t : Str) : ∀ x : Str, cut q sep n true (double q x ++ q :: t) = appHead (double q x ++ [q]) (cut q sep n false t)
  | [] => by
    show cut q sep n true (q :: t) = _
    rw [cut, if_neg (by simp), if_pos rfl]
    obtain ⟨h, u, e⟩ := cut_ne q sep n false t
    simp [e, appHead, double]
  | c :: x => by
    have ih := cut_double q sep hne n t x
    obtain ⟨h, u, e⟩ := cut_ne q sep n false t
    rw [e] at ih
    by_cases hc : c = q
    · subst hc
      have : double c (c :: x) = c :: c :: double c x := by simp [double]
      rw [this]
      show cut c sep n true (c :: c :: (double c x ++ c :: t)) = _
      rw [cut, if_neg (by simp), if_pos rfl, Bool.not_true, cut, if_neg (by simp [Ne.symm hne]), if_pos rfl, Bool.not_false, ih, e]
      simp [appHead]
    · have : double q (c :: x) = c :: double q x := by simp [double, hc]
      rw [this]
      show cut q sep n true (c :: (double q x ++ q :: t)) = _
      rw [cut, if_neg (by simp), if_neg hc, ih, e]
      simp [appHead]

theorem neutral_quoted {q sep : Char} (hne : sep ≠ q) (x : Str) : Neutral q sep (q :: double q x ++ [q]) := by
  intro n t
  have : q :: double q x ++ [q] ++ t = q :: (double q x ++ q :: t) := by simp
  rw [this, cut, if_neg (by simp [Ne.symm hne]), if_pos rfl, Bool.not_false, cut_double q sep hne]
  obtain ⟨h, u, e⟩ := cut_ne q sep n false t
  simp [e, appHead]

theorem cut_join {q sep : Char} (hne : sep ≠ q) : ∀ (l : List Str), l ≠ [] → (∀ p ∈ l, Neutral q sep p) → cut q sep none false (join [sep] l) = l
  | [], h, _ => absurd rfl h
  | [p], _, h => by
    have := h p List.mem_cons_self none []
    rw [List.append_nil] at this
    rw [join, this]
    simp [cut, appHead]
  | p :: r :: l, _, h => by
    rw [join, List.append_assoc, h p List.mem_cons_self]
    rotate_left
    · simp
    show appHead p (cut q sep none false (sep :: join [sep] (r :: l))) = _
    rw [cut, if_pos ⟨rfl, rfl, by simp⟩, Option.map_none, cut_join hne (r :: l) (by simp) fun x hx => h x (List.mem_cons_of_mem _ hx)]
    simp [appHead]

theorem undouble_ne {q c : Char} (h : c ≠ q) (s : Str) : undouble q (c :: s) = c :: undouble q s := by
  cases s with
  | nil => simp [undouble]
  | cons d s => rw [undouble, if_neg (fun hh => h hh.1)]

theorem undouble_double (q : Char) : ∀ x : Str, undouble q (double q x) = x
  | [] => rfl
  | c :: x => by
    by_cases hc : c = q
    · subst hc
      have : double c (c :: x) = c :: c :: double c x := by simp [double]
      rw [this, undouble, if_pos ⟨rfl, rfl⟩, undouble_double c x]
    · have : double q (c :: x) = c :: double q x := by simp [double, hc]
      rw [this, undouble_ne hc, undouble_double q x]

theorem lexQuoted_inv (q : Char) : ∀ (s v r : Str), lexQuoted q s = some (v, r) → s = double q v ++ q :: r
  | [], _, _, h => by simp [lexQuoted] at h
  | [c], v, r, h => by
    rw [lexQuoted] at h
    split at h
    · rename_i hc; cases h; simp [hc, double]
    · cases h
  | c :: d :: s, v, r, h => by
    rw [lexQuoted] at h
    by_cases hc : c = q
    · rw [if_pos hc] at h
      by_cases hd : d = q
      · rw [if_pos hd, Option.map_eq_some_iff] at h
        obtain ⟨⟨v', r'⟩, h1, h2⟩ := h
        cases h2
        have := lexQuoted_inv q s v' r' h1
        rw [this, hc, hd]
        simp [double]
      · rw [if_neg hd] at h
        cases h
        simp [hc, double]
    · rw [if_neg hc, Option.map_eq_some_iff] at h
      obtain ⟨⟨v', r'⟩, h1, h2⟩ := h
      cases h2
      have := lexQuoted_inv q (d :: s) v' r' h1
      rw [this]
      simp [double, hc]

theorem strip_pad (U : Unicode) (pre b post : Str) (h1 : ∀ c ∈ pre, U.isSpace c = true) (h2 : ∀ c ∈ post, U.isSpace c = true)
    (hh : ∀ c, b.head? = some c → U.isSpace c = false) (hl : ∀ c, b.getLast? = some c → U.isSpace c = false) (hb : b ≠ []) : strip U (pre ++ b ++ post) = b := by
  have drop_pre : ∀ (p t : Str), (∀ c ∈ p, U.isSpace c = true) → t ≠ [] → (∀ c, t.head? = some c → U.isSpace c = false) → (p ++ t).dropWhile U.isSpace = t := by
    intro p t hp ht hth
    induction p with
    | nil =>
      cases t with
      | nil => exact absurd rfl ht
      | cons c t => simp [hth c rfl]
    | cons c p ih =>
      have := ih fun x hx => hp x (List.mem_cons_of_mem _ hx)
      simp [hp c List.mem_cons_self, this]
  unfold strip lstrip rstrip
  rw [List.append_assoc, drop_pre pre _ h1 (by simp [hb])]
  · rw [List.reverse_append, drop_pre post.reverse b.reverse (by simpa using h2) (by simp [hb]) (by simpa using hl), List.reverse_reverse]
  · cases b with
    | nil => exact absurd rfl hb
    | cons c b => simpa using hh

theorem bare_not_needed (U : Unicode) (s : Str) : bareWord U.isAlnum U.isDecimal s = !needsQuoting U s := by
  cases s with
  | nil => rfl
  | cons c r =>
    simp only [bareWord, needsQuoting, List.any_cons, Bool.true_or, Bool.true_and, List.take_succ_cons, List.take_zero, List.all_cons, List.all_nil, Bool.and_true, Bool.not_not]
    have hx : ∀ x, (U.isAlnum x || decide (x = '_')) = U.isAlnum (if x = '_' then 'a' else x) := by
      intro x
      by_cases h : x = '_'
      · subst h
        rw [if_pos rfl, U.alnum_ascii 'a' (by decide)]
        simp
      · simp [h]
    simp only [hx]

theorem bare_chars (U : Unicode) (s : Str) (h : bareWord U.isAlnum U.isDecimal s = true) : s ≠ [] ∧ ∀ c ∈ s, (U.isAlnum c = true ∨ c = '_') := by
  simp only [bareWord, Bool.and_eq_true, List.all_eq_true, Bool.or_eq_true, decide_eq_true_eq] at h
  refine ⟨?_, h.2⟩
  rintro rfl
  simp at h

theorem word_not_space (U : Unicode) (c : Char) (h : U.isAlnum c = true ∨ c = '_') : U.isSpace c = false := by
  rcases h with h | rfl
  · exact U.alnum_not_space c h
  · rw [U.space_ascii _ (by decide)]; decide

theorem quote_not_space (U : Unicode) : U.isSpace '"' = false := by rw [U.space_ascii _ (by decide)]; decide

theorem identOf_written (U : Unicode) (text name : Str) (h : Written U.isSpace (bareWord U.isAlnum U.isDecimal) U.lower text name) : identOf U text = .ok name := by
  obtain ⟨pre, body, post, rfl, hpre, hpost, ⟨b, rfl, hb⟩ | ⟨hb, rfl⟩⟩ := h
  · have hbd := lexQuoted_inv _ _ _ _ hb
    subst hbd
    unfold identOf
    rw [strip_pad U pre _ post hpre hpost (by simp [quote_not_space]) (by
      intro c hc
      rw [show ('"' :: (double '"' name ++ ['"'])) = ('"' :: double '"' name) ++ ['"'] from rfl, List.getLast?_append] at hc
      simp at hc
      rw [← hc]; exact quote_not_space U) (by simp)]
    simp only
    rw [if_pos (by rfl), if_neg]
    · simp [undouble_double]
    · rw [show ('"' :: (double '"' name ++ ['"'])) = ('"' :: double '"' name) ++ ['"'] from rfl, List.getLast?_append]
      simp
  · obtain ⟨hne, hch⟩ := bare_chars U body hb
    unfold identOf
    rw [strip_pad U pre _ post hpre hpost (fun c hc => word_not_space U c (hch c (List.mem_of_head? hc)))
      (fun c hc => word_not_space U c (hch c (List.mem_of_getLast? hc))) hne]
    simp only
    rw [if_neg, if_neg]
    · rw [bare_not_needed] at hb
      simpa using hb
    · intro hc
      rcases hch _ (List.mem_of_head? hc) with h | h
      · rw [U.alnum_ascii _ (by decide)] at h; exact absurd h (by decide)
      · exact absurd h (by decide)

/-- C28: identifiers written in any way (quoted, bare, with white space around them) and joined with a separator are split into their names;
quoted names may contain the separator and quotes. -/
theorem C28_split_ident (U : Unicode) (sep : Char) (h1 : sep ≠ '"') (h2 : U.isSpace sep = false) (h3 : U.isAlnum sep = false) (h4 : sep ≠ '_')
    (l : List (Str × Str)) (hl : l ≠ []) (h : ∀ p ∈ l, Written U.isSpace (bareWord U.isAlnum U.isDecimal) U.lower p.1 p.2) :
    splitIdent U (join [sep] (l.map Prod.fst)) sep '"' (-1) = .ok (l.map Prod.snd) := by
  unfold splitIdent
  rw [C28_split_using _ _ _ h1]
  have hlim : limit (-1) = none := rfl
  rw [hlim, cut_join h1 _ (by simpa using hl)]
  · have : ∀ l : List (Str × Str), (∀ p ∈ l, Written U.isSpace (bareWord U.isAlnum U.isDecimal) U.lower p.1 p.2) → identsOf U (l.map Prod.fst) = .ok (l.map Prod.snd) := by
      intro l hl
      induction l with
      | nil => rfl
      | cons p l ih =>
        rw [List.map_cons, identsOf, identOf_written U _ _ (hl p List.mem_cons_self), ih fun x hx => hl x (List.mem_cons_of_mem _ hx)]
        rfl
    exact this l h
  · intro t ht
    obtain ⟨p, hp, rfl⟩ := List.mem_map.1 ht
    obtain ⟨pre, body, post, he, hpre, hpost, hb⟩ := h p hp
    rw [he]
    have hsp : ∀ s : Str, (∀ c ∈ s, U.isSpace c = true) → Neutral '"' sep s := by
      intro s hs
      refine neutral_plain ?_ ?_
      · intro hm; have := hs _ hm; rw [quote_not_space] at this; cases this
      · intro hm; have := hs _ hm; rw [h2] at this; cases this
    refine neutral_append (neutral_append (hsp _ hpre) ?_) (hsp _ hpost)
    rcases hb with ⟨b, rfl, hb⟩ | ⟨hb, _⟩
    · rw [lexQuoted_inv _ _ _ _ hb]
      exact neutral_quoted h1 _
    · obtain ⟨_, hch⟩ := bare_chars U body hb
      refine neutral_plain ?_ ?_
      · intro hm
        rcases hch _ hm with h | h
        · rw [U.alnum_ascii _ (by decide)] at h; exact absurd h (by decide)
        · exact absurd h (by decide)
      · intro hm
        rcases hch _ hm with h | h
        · rw [h3] at h; cases h
        · exact h4 h

theorem quoteIdent_written (U : Unicode) (x : Str) : Written U.isSpace (bareWord U.isAlnum U.isDecimal) U.lower (quoteIdent x) x :=
  ⟨[], quoteIdent x, [], by simp, by simp, by simp, .inl ⟨double '"' x ++ ['"'], by simp [quoteIdent], lexQuoted_double '"' [] (by simp) x⟩⟩

theorem dot_ok (U : Unicode) : U.isSpace '.' = false ∧ U.isAlnum '.' = false := by
  rw [U.space_ascii _ (by decide), U.alnum_ascii _ (by decide)]
  decide

/-- C28: `split_qname(qname(*names)) == names`, whatever the names. -/
theorem C28_qname (U : Unicode) (names : List Str) (h : names ≠ []) : splitQname U (qname names) = .ok names := by
  have := C28_split_ident U '.' (by decide) (dot_ok U).1 (dot_ok U).2 (by decide) (names.map fun x => (quoteIdent x, x)) (by simpa using h)
    (by intro p hp; obtain ⟨x, _, rfl⟩ := List.mem_map.1 hp; exact quoteIdent_written U x)
  simpa [splitQname, qname, Function.comp_def] using this

/-- C28: with `qname_if_needed`, names that are left unquoted come back in lower case and all others as they are. -/
theorem C28_qname_if_needed (U : Unicode) (names : List Str) (h : names ≠ []) :
    splitQname U (qnameIfNeeded U names) = .ok (names.map fun x => if needsQuoting U x then x else U.lower x) := by
  have := C28_split_ident U '.' (by decide) (dot_ok U).1 (dot_ok U).2 (by decide) (names.map fun x => (quoteIdentIfNeeded U x, if needsQuoting U x then x else U.lower x))
    (by simpa using h) (by
      intro p hp
      obtain ⟨x, _, rfl⟩ := List.mem_map.1 hp
      simp only [quoteIdentIfNeeded]
      by_cases hn : needsQuoting U x = true
      · rw [if_pos hn, if_pos hn]; exact quoteIdent_written U x
      · rw [if_neg hn, if_neg hn]
        exact ⟨[], x, [], by simp, by simp, by simp, .inr ⟨by rw [bare_not_needed]; simpa using hn, rfl⟩⟩)
  simpa [splitQname, qnameIfNeeded, Function.comp_def] using this

/-- Findings: no names make a text that is refused; a lone quote is taken for the empty name; and text after a closing quote is not noticed. -/
theorem C28_not_refused (U : Unicode) : splitQname U (qname []) = .error .valueError ∧ splitQname U ['"'] = .ok [[]] ∧
    splitQname U "\"a\"b\"".toList = .ok ["a\"b".toList] := by
  have hs : ∀ b : Str, b.head? = some '"' → b.getLast? = some '"' → strip U b = b := by
    intro b h1 h2
    have := strip_pad U [] b [] (by simp) (by simp) (by intro c hc; rw [h1] at hc; cases hc; exact quote_not_space U)
      (by intro c hc; rw [h2] at hc; cases hc; exact quote_not_space U) (by rintro rfl; cases h1)
    simpa using this
  have e1 : splitUsing "\"a\"b\"".toList '"' '.' (-1) = ["\"a\"b\"".toList] := by decide
  have e2 : splitUsing ['"'] '"' '.' (-1) = [['"']] := by decide
  have e3 : splitUsing (qname []) '"' '.' (-1) = [[]] := by decide
  refine ⟨?_, ?_, ?_⟩
  · unfold splitQname splitIdent
    rw [e3]
    rfl
  · unfold splitQname splitIdent
    rw [e2, identsOf, identsOf, identOf]
    rw [hs _ rfl rfl]
    rfl
  · unfold splitQname splitIdent
    rw [e1, identsOf, identsOf, identOf]
    rw [hs _ (by decide) (by decide)]
    rw [if_pos (by decide), if_neg (by decide)]
    rfl

/-- A concrete case: `"a.b"`, `c` and `"d""e"` with a space. -/
example (U : Unicode) : Written U.isSpace (bareWord U.isAlnum U.isDecimal) U.lower " \"d\"\"e\"".toList "d\"e".toList :=
  ⟨[' '], "\"d\"\"e\"".toList, [], by decide, by simp [U.space_ascii ' ' (by decide)], by simp, .inl ⟨"d\"\"e\"".toList, by decide, by decide⟩⟩

end PG.Props.PgString
