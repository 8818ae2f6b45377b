import Verif.Spec.SymLib
/-!
# Proofs about reading symbol libraries: lines, markers, blocks
-/
namespace PG.Proofs.SymLib
open PG PG.SymLib PG.Spec.SymLib PG.PyStr

/-! ### Trimming -/

theorem dropWhile_split (f : Char → Bool) : ∀ s : Str, ∃ l, s = l ++ s.dropWhile f ∧ (∀ c ∈ l, f c = true) ∧ (∀ c, (s.dropWhile f).head? = some c → f c = false)
  | [] => ⟨[], rfl, by simp, by simp⟩
  | x :: s => by
    obtain ⟨l, h1, h2, h3⟩ := dropWhile_split f s
    by_cases h : f x = true
    · rw [List.dropWhile_cons_of_pos h]
      exact ⟨x :: l, by rw [List.cons_append, ← h1], by intro c hc; rcases List.mem_cons.mp hc with rfl | hc; exact h; exact h2 c hc, h3⟩
    · rw [List.dropWhile_cons_of_neg h]
      exact ⟨[], rfl, by simp, by intro c hc; cases hc; simpa using h⟩

theorem dropWhile_all_append (f : Char → Bool) : ∀ (l b : Str), (∀ c ∈ l, f c = true) → (∀ c, b.head? = some c → f c = false) → (l ++ b).dropWhile f = b
  | [], [], _, _ => rfl
  | [], x :: b, _, h => by rw [List.nil_append, List.dropWhile_cons_of_neg (by simp [h x rfl])]
  | x :: l, b, h, hb => by
    rw [List.cons_append, List.dropWhile_cons_of_pos (h x (by simp))]
    exact dropWhile_all_append f l b (fun c hc => h c (by simp [hc])) hb

/-- Trimming both ends. -/
def trim (f : Char → Bool) (s : Str) : Str := ((s.dropWhile f).reverse.dropWhile f).reverse

theorem trim_spec (f : Char → Bool) (s : Str) : Trimmed f s (trim f s) := by
  obtain ⟨l, h1, h2, h3⟩ := dropWhile_split f s
  obtain ⟨r, k1, k2, k3⟩ := dropWhile_split f (s.dropWhile f).reverse
  refine ⟨l, r.reverse, ?_, h2, fun c hc => k2 c (List.mem_reverse.mp hc), ?_, ?_⟩
  · have : s.dropWhile f = trim f s ++ r.reverse := by
      have := congrArg List.reverse k1
      rw [List.reverse_reverse, List.reverse_append] at this
      exact this
    rw [List.append_assoc, ← this, ← h1]
  · intro c hc
    apply h3
    have : s.dropWhile f = trim f s ++ r.reverse := by
      have := congrArg List.reverse k1
      rw [List.reverse_reverse, List.reverse_append] at this
      exact this
    rw [this, List.head?_append, hc]
    rfl
  · intro c hc
    apply k3
    unfold trim at hc
    rwa [List.getLast?_reverse] at hc

theorem trim_eq (f : Char → Bool) (a b : Str) (h : Trimmed f a b) : trim f a = b := by
  obtain ⟨l, r, e, hl, hr, hb1, hb2⟩ := h
  subst e
  unfold trim
  cases b with
  | nil =>
    have : (l ++ [] ++ r).dropWhile f = [] := by
      have := dropWhile_all_append f (l ++ r) [] (by intro c hc; rcases List.mem_append.mp hc with hc | hc; exact hl c hc; exact hr c hc) (by simp)
      simpa using this
    rw [this]; rfl
  | cons x b =>
    rw [List.append_assoc, dropWhile_all_append f l _ hl (by intro c hc; exact hb1 c (by simpa using hc)), List.reverse_append,
      dropWhile_all_append f r.reverse _ (fun c hc => hr c (List.mem_reverse.mp hc)) (by intro c hc; rw [List.head?_reverse] at hc; exact hb2 c hc), List.reverse_reverse]

theorem strip_trim (U : Unicode) (s : Str) : strip U s = trim U.isSpace s := rfl
theorem strip_iff (U : Unicode) (a b : Str) : Trimmed U.isSpace a b ↔ strip U a = b := ⟨trim_eq _ a b, fun h => h ▸ trim_spec _ a⟩
theorem stripBrackets_iff (a b : Str) : Trimmed (fun c => c = '[' ∨ c = ']') a b ↔ stripBrackets a = b := ⟨trim_eq _ a b, fun h => h ▸ trim_spec _ a⟩

/-! ### Lines -/

theorem space_open (U : Unicode) : U.isSpace '[' = false := by rw [U.space_ascii _ (by decide)]; decide
theorem space_close (U : Unicode) : U.isSpace ']' = false := by rw [U.space_ascii _ (by decide)]; decide

theorem isHeader_iff (U : Unicode) (line : Str) : isHeader U line = true ↔ Opens U line := by
  unfold isHeader
  rw [decide_eq_true_iff]
  constructor
  · rintro ⟨h1, h2⟩
    obtain ⟨l, r, e, hl, hr, -, -⟩ := trim_spec U.isSpace line
    rw [← strip_trim] at e
    generalize strip U line = b at *
    cases b with
    | nil => cases h1
    | cons x b =>
      cases h1
      cases hb : b.getLast? with
      | none =>
        have : b = [] := by simpa using hb
        subst this
        cases h2
      | some y =>
        rw [List.getLast?_cons, hb] at h2
        have hy : y = ']' := Option.some.inj h2
        subst hy
        obtain ⟨m, rfl⟩ := List.getLast?_eq_some_iff.mp hb
        exact ⟨l, m, r, by simpa using e, hl, hr⟩
  · rintro ⟨l, m, r, e, hl, hr⟩
    have : strip U line = '[' :: m ++ [']'] := by
      rw [← strip_iff]
      refine ⟨l, r, by rw [e]; simp, hl, hr, ?_, ?_⟩
      · intro c hc; cases hc; exact space_open U
      · intro c hc
        rw [List.getLast?_append] at hc
        cases hc; exact space_close U
    rw [this]
    exact ⟨rfl, by rw [List.getLast?_append]; rfl⟩

theorem not_header (U : Unicode) (line : Str) : isHeader U line = false ↔ ¬ Opens U line := by
  rw [← isHeader_iff]; cases isHeader U line <;> simp

theorem takeDrop_bracket : ∀ s : Str, ']' ∈ s → s = s.takeWhile (· ≠ ']') ++ ']' :: (s.dropWhile (· ≠ ']')).drop 1 ∧ ']' ∉ s.takeWhile (· ≠ ']')
  | [], h => by cases h
  | x :: s, h => by
    by_cases hx : x = ']'
    · subst hx; simp
    · obtain ⟨h1, h2⟩ := takeDrop_bracket s (by simpa [Ne.symm hx] using h)
      rw [List.takeWhile_cons_of_pos (by simpa using hx), List.dropWhile_cons_of_pos (by simpa using hx)]
      refine ⟨by rw [List.cons_append, ← h1], ?_⟩
      intro hm
      rcases List.mem_cons.mp hm with e | e
      · exact hx e.symm
      · exact h2 e

theorem split_unique : ∀ (n n' r r' : Str), ']' ∉ n → ']' ∉ n' → n ++ ']' :: r = n' ++ ']' :: r' → n = n' ∧ r = r'
  | [], [], _, _, _, _, h => ⟨rfl, (List.cons.inj h).2⟩
  | [], y :: n', _, _, _, h2, h => absurd (by simp [← (List.cons.inj h).1]) h2
  | x :: n, [], _, _, h1, _, h => absurd (by simp [(List.cons.inj h).1]) h1
  | x :: n, y :: n', r, r', h1, h2, h => by
    obtain ⟨e1, e2⟩ := List.cons.inj h
    obtain ⟨k1, k2⟩ := split_unique n n' r r' (fun h => h1 (by simp [h])) (fun h => h2 (by simp [h])) e2
    exact ⟨by rw [e1, k1], k2⟩

theorem bline_ref (line n r : Str) : bline line = .ref n r ↔ Refers line n r := by
  unfold bline Refers
  split
  · next s =>
    by_cases h : ']' ∈ s
    · rw [if_pos h]
      obtain ⟨h1, h2⟩ := takeDrop_bracket s h
      constructor
      · intro e
        cases e
        exact ⟨by rw [List.cons_append, List.cons_append, ← h1], h2⟩
      · rintro ⟨e, hn⟩
        have e : s = n ++ ']' :: r := by simpa using e
        obtain ⟨k1, k2⟩ := split_unique _ _ _ _ h2 hn (h1.symm.trans e)
        rw [k1, k2]
    · rw [if_neg h]
      constructor
      · intro e; cases e
      · rintro ⟨e, hn⟩
        have e : s = n ++ ']' :: r := by simpa using e
        exact absurd (by rw [e]; simp) h
  · next hne =>
    constructor
    · intro e; cases e
    · rintro ⟨e, hn⟩
      exact absurd (by simpa using e) (hne _)

theorem bline_text (line : Str) : (∀ n r, ¬ Refers line n r) → bline line = .text line := by
  intro h
  cases hb : bline line with
  | ref n r => exact absurd ((bline_ref line n r).mp hb) (h n r)
  | text s =>
    unfold bline at hb
    split at hb
    · split at hb
      · cases hb
      · exact hb.symm
    · exact hb.symm

theorem bline_text_not (line s : Str) (h : bline line = .text s) : s = line ∧ ∀ n r, ¬ Refers line n r := by
  have : ∀ n r, ¬ Refers line n r := by
    intro n r hr
    rw [(bline_ref line n r).mpr hr] at h
    cases h
  rw [bline_text line this] at h
  cases h
  exact ⟨rfl, this⟩

/-! ### Blocks -/

theorem blocks_body (U : Unicode) (id : Option Str) : ∀ (b : List Str) (cur : List BLine) (rest : List Str), (∀ l ∈ b, ¬ Opens U l) →
    blocks U id cur (b ++ rest) = blocks U id (cur ++ b.map bline) rest
  | [], cur, rest, _ => by simp
  | x :: b, cur, rest, h => by
    rw [List.cons_append, blocks, if_neg (by rw [isHeader_iff]; exact h x (by simp)), blocks_body U id b _ rest (fun l hl => h l (by simp [hl]))]
    simp

theorem blocks_sections (U : Unicode) : ∀ (secs : List Section) (id : Option Str) (cur : List BLine), (∀ s ∈ secs, Opens U s.header) → (∀ s ∈ secs, ∀ l ∈ s.body, ¬ Opens U l) →
    blocks U id cur (secs.flatMap fun s => s.header :: s.body) = (id, cur) :: secs.map fun s => (some s.header, s.body.map bline)
  | [], id, cur, _, _ => rfl
  | s :: secs, id, cur, h1, h2 => by
    rw [List.flatMap_cons, List.cons_append, blocks, if_pos (by rw [isHeader_iff]; exact h1 s (by simp)), blocks_body U _ _ _ _ (h2 s (by simp)),
      blocks_sections U secs _ _ (fun t ht => h1 t (by simp [ht])) (fun t ht => h2 t (by simp [ht]))]
    rfl

theorem blocks_file (U : Unicode) (lines pre : List Str) (secs : List Section) (h : IsFile U lines pre secs) :
    blocks U none [] lines = (none, pre.map bline) :: secs.map fun s => (some s.header, s.body.map bline) := by
  rw [h.eq, blocks_body U none pre _ _ h.preface, blocks_sections U secs _ _ h.headers h.bodies]
  rfl

/-- Every sequence of lines is a file. -/
theorem isFile_exists (U : Unicode) : ∀ lines : List Str, ∃ pre secs, IsFile U lines pre secs
  | [] => ⟨[], [], rfl, by simp, by simp, by simp⟩
  | x :: lines => by
    obtain ⟨pre, secs, h⟩ := isFile_exists U lines
    by_cases hx : Opens U x
    · refine ⟨[], ⟨x, pre⟩ :: secs, ?_, by simp, ?_, ?_⟩
      · rw [h.eq]; simp
      · intro s hs; rcases List.mem_cons.mp hs with rfl | hs; exact hx; exact h.headers s hs
      · intro s hs; rcases List.mem_cons.mp hs with rfl | hs; exact h.preface; exact h.bodies s hs
    · refine ⟨x :: pre, secs, ?_, ?_, h.headers, h.bodies⟩
      · rw [h.eq]; simp
      · intro s hs; rcases List.mem_cons.mp hs with rfl | hs; exact hx; exact h.preface s hs

end PG.Proofs.SymLib
