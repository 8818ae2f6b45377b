import Verif.Proofs.RiParse
import Verif.Props.SqlSplit
/-!
# Lemmas on schemes, escapes and net locations
-/
namespace PG.Proofs.RiParse
open PG PG.PyStr PG.RiParse PG.Spec.RiParse

theorem schemeChar_iff (c : Char) : schemeChar c = true ↔ (c.isAlphanum = true ∨ c = '-' ∨ c = '.' ∨ c = '+') := by
  unfold schemeChar Char.isAlphanum Char.isAlpha Char.isUpper Char.isLower Char.isDigit
  have hd : ("-.+0123456789".toList.contains c = true) ↔ (c = '-' ∨ c = '.' ∨ c = '+') ∨ (48 ≤ c.toNat ∧ c.toNat ≤ 57) := by
    simp only [List.contains_iff_mem]
    show c ∈ ['-', '.', '+', '0', '1', '2', '3', '4', '5', '6', '7', '8', '9'] ↔ _
    simp only [List.mem_cons, List.not_mem_nil, or_false]
    constructor
    · rintro (h | h | h | h | h | h | h | h | h | h | h | h | h) <;> subst h <;> decide
    · rintro ((h | h | h) | h)
      · simp [h]
      · simp [h]
      · simp [h]
      · have : c.toNat = 48 ∨ c.toNat = 49 ∨ c.toNat = 50 ∨ c.toNat = 51 ∨ c.toNat = 52 ∨ c.toNat = 53 ∨ c.toNat = 54 ∨ c.toNat = 55 ∨ c.toNat = 56 ∨ c.toNat = 57 := by omega
        have conv : ∀ d : Char, c.toNat = d.toNat → c = d := fun d e => Char.toNat_inj.mp e
        rcases this with h | h | h | h | h | h | h | h | h | h
        · have := conv '0' h; subst this; decide
        · have := conv '1' h; subst this; decide
        · have := conv '2' h; subst this; decide
        · have := conv '3' h; subst this; decide
        · have := conv '4' h; subst this; decide
        · have := conv '5' h; subst this; decide
        · have := conv '6' h; subst this; decide
        · have := conv '7' h; subst this; decide
        · have := conv '8' h; subst this; decide
        · have := conv '9' h; subst this; decide
  have e1 : ('A' ≤ c) ↔ 65 ≤ c.toNat := Iff.rfl
  have e2 : (c ≤ 'Z') ↔ c.toNat ≤ 90 := Iff.rfl
  have e3 : ('a' ≤ c) ↔ 97 ≤ c.toNat := Iff.rfl
  have e4 : (c ≤ 'z') ↔ c.toNat ≤ 122 := Iff.rfl
  have g1 : (c.val ≥ 'A'.val) ↔ 65 ≤ c.toNat := Iff.rfl
  have g2 : (c.val ≤ 'Z'.val) ↔ c.toNat ≤ 90 := Iff.rfl
  have g3 : (c.val ≥ 'a'.val) ↔ 97 ≤ c.toNat := Iff.rfl
  have g4 : (c.val ≤ 'z'.val) ↔ c.toNat ≤ 122 := Iff.rfl
  have g5 : (c.val ≥ '0'.val) ↔ 48 ≤ c.toNat := Iff.rfl
  have g6 : (c.val ≤ '9'.val) ↔ c.toNat ≤ 57 := Iff.rfl
  simp only [Bool.or_eq_true, Bool.and_eq_true, decide_eq_true_eq, hd, e1, e2, e3, e4, g1, g2, g3, g4, g5, g6]
  constructor
  · rintro (((h | h) | h) | h)
    · exact .inr h
    · exact .inl (.inr h)
    · exact .inl (.inl (.inl h))
    · exact .inl (.inl (.inr h))
  · rintro (((h | h) | h) | h)
    · exact .inl (.inr h)
    · exact .inr h
    · exact .inl (.inl (.inr h))
    · exact .inl (.inl (.inl h))

theorem findStr_some {t : Str} : ∀ {s : Str} {i : Nat}, findStr t s = some i → s = s.take i ++ t ++ s.drop (i + t.length) ∧ i + t.length ≤ s.length
  | [], i, h => by
    unfold findStr at h
    split at h
    · rename_i ht; cases h; simp [ht]
    · cases h
  | c :: s, i, h => by
    rw [findStr] at h
    split at h
    · rename_i hp
      cases h
      rw [List.isPrefixOf_iff_prefix] at hp
      obtain ⟨r, hr⟩ := hp
      rw [← hr]
      simp
    · rw [Option.map_eq_some_iff] at h
      obtain ⟨j, hj, rfl⟩ := h
      obtain ⟨h1, h2⟩ := findStr_some hj
      constructor
      · have e : j + 1 + t.length = (j + t.length) + 1 := by omega
        rw [e, List.take_succ_cons, List.drop_succ_cons]
        simp only [List.cons_append]
        congr 1
      · simp; omega

/-- The first occurrence: any other comes later. -/
theorem findStr_first {t : Str} : ∀ (x r : Str), ∃ i, findStr t (x ++ t ++ r) = some i ∧ i ≤ x.length
  | [], r => by
    refine ⟨0, ?_, Nat.le_refl _⟩
    cases t with
    | nil => cases r <;> simp [findStr]
    | cons c t =>
      rw [List.nil_append, List.cons_append, findStr, if_pos]
      rw [← List.cons_append]
      simp only [List.isPrefixOf_iff_prefix]
      exact List.prefix_append _ _
  | c :: x, r => by
    obtain ⟨i, h1, h2⟩ := findStr_first (t := t) x r
    rw [List.cons_append, List.cons_append, findStr]
    split
    · exact ⟨0, rfl, Nat.zero_le _⟩
    · rw [h1]; exact ⟨i + 1, rfl, by simp; omega⟩

theorem splitScheme_cases (s : Str) : (∃ x r, splitScheme s = (some x, x.length + 3) ∧ s = x ++ "://".toList ++ r ∧ ∀ c ∈ x, schemeChar c = true) ∨
    (splitScheme s = (none, 0) ∧ ∀ x r, s = x ++ "://".toList ++ r → ∃ c ∈ x, ¬ schemeChar c = true) := by
  unfold splitScheme
  cases hf : findStr [':', '/', '/'] s with
  | none =>
    right
    refine ⟨rfl, fun x r h => ?_⟩
    obtain ⟨i, hi, _⟩ := findStr_first (t := [':', '/', '/']) x r
    rw [h] at hf
    have e : "://".toList = [':', '/', '/'] := rfl
    rw [e] at hf
    rw [hf] at hi
    cases hi
  | some i =>
    dsimp only
    obtain ⟨h1, h2⟩ := findStr_some hf
    by_cases ha : (s.take i).all schemeChar = true
    · left
      rw [if_pos ha]
      refine ⟨s.take i, s.drop (i + 3), ?_, h1, ?_⟩
      · have : (s.take i).length = i := by simp at h2 ⊢; omega
        rw [this]
      · simpa using ha
    · right
      rw [if_neg ha]
      refine ⟨rfl, fun x r h => ?_⟩
      obtain ⟨j, hj, hjx⟩ := findStr_first (t := [':', '/', '/']) x r
      have e : "://".toList = [':', '/', '/'] := rfl
      rw [h, e, hj] at hf
      cases hf
      apply Classical.byContradiction
      intro hn
      apply ha
      rw [List.all_eq_true]
      intro c hc
      apply Classical.byContradiction
      intro hcs
      apply hn
      refine ⟨c, ?_, hcs⟩
      rw [h, List.append_assoc, List.take_append_of_le_length hjx] at hc
      exact List.mem_of_mem_take hc

theorem splitScheme_of {x r : Str} (hx : ∀ c ∈ x, schemeChar c = true) : splitScheme (x ++ "://".toList ++ r) = (some x, x.length + 3) := by
  rcases splitScheme_cases (x ++ "://".toList ++ r) with ⟨y, r', h1, h2, h3⟩ | ⟨h1, h2⟩
  · have : x = y := by
      have aux : ∀ (x y r r' : Str), (∀ c ∈ x, schemeChar c = true) → (∀ c ∈ y, schemeChar c = true) → x ++ ':' :: r = y ++ ':' :: r' → x = y := by
        intro x
        induction x with
        | nil =>
          intro y r r' _ hy h
          cases y with
          | nil => rfl
          | cons d y =>
            simp at h
            have := hy d List.mem_cons_self
            rw [← h.1] at this
            exact absurd this (by decide)
        | cons c x ih =>
          intro y r r' hx hy h
          cases y with
          | nil =>
            simp at h
            have := hx c List.mem_cons_self
            rw [h.1] at this
            exact absurd this (by decide)
          | cons d y =>
            simp at h
            rw [h.1, ih y r r' (fun c hc => hx c (List.mem_cons_of_mem _ hc)) (fun c hc => hy c (List.mem_cons_of_mem _ hc)) h.2]
      have e : "://".toList = [':', '/', '/'] := rfl
      rw [e, List.append_assoc, List.append_assoc] at h2
      exact aux x y _ _ hx h3 h2
    rw [h1, this]
  · obtain ⟨c, hc, hn⟩ := h2 x r rfl
    exact absurd (hx c hc) hn

theorem unesc_ne {c : Char} (h : c ≠ '%') (s : Str) : unescape (c :: s) = c :: unescape s := by
  conv => lhs; unfold unescape
  rw [if_neg h]

theorem hexVal_hexDigit (n : Nat) (h : n < 16) : hexVal (hexDigit n) = some n := by
  have : n = 0 ∨ n = 1 ∨ n = 2 ∨ n = 3 ∨ n = 4 ∨ n = 5 ∨ n = 6 ∨ n = 7 ∨ n = 8 ∨ n = 9 ∨ n = 10 ∨ n = 11 ∨ n = 12 ∨ n = 13 ∨ n = 14 ∨ n = 15 := by omega
  rcases this with h | h | h | h | h | h | h | h | h | h | h | h | h | h | h | h <;> subst h <;> decide

theorem hexDigit_safe (n : Nat) (h : n < 16) : hexDigit n ∈ "0123456789ABCDEF".toList := by
  have : n = 0 ∨ n = 1 ∨ n = 2 ∨ n = 3 ∨ n = 4 ∨ n = 5 ∨ n = 6 ∨ n = 7 ∨ n = 8 ∨ n = 9 ∨ n = 10 ∨ n = 11 ∨ n = 12 ∨ n = 13 ∨ n = 14 ∨ n = 15 := by omega
  rcases this with h | h | h | h | h | h | h | h | h | h | h | h | h | h | h | h <;> subst h <;> decide

theorem unesc_pct {c : Char} (h : c.toNat < 256) (s : Str) : unescape (pctEncode c ++ s) = c :: unescape s := by
  show unescape ('%' :: hexDigit (c.toNat / 16) :: hexDigit (c.toNat % 16) :: s) = _
  rw [unescape, if_pos rfl]
  simp only [percentEscape, hexVal_hexDigit _ (show c.toNat / 16 < 16 by omega), hexVal_hexDigit _ (show c.toNat % 16 < 16 by omega)]
  have : c.toNat / 16 * 16 + c.toNat % 16 = c.toNat := by omega
  rw [this, Char.ofNat_toNat]

theorem escapeWith_cons (X : List Char) (c : Char) (s : Str) : escapeWith X (c :: s) = (if unescapedChar c || X.contains c then pctEncode c else [c]) ++ escapeWith X s := rfl

theorem unescapedChar_iff (c : Char) : unescapedChar c = true ↔ c = '%' ∨ c.toNat < 33 := by simp [unescapedChar]

theorem unescape_escape {X : List Char} (hX : ∀ c ∈ X, c.toNat < 256) : ∀ s : Str, unescape (escapeWith X s) = s
  | [] => rfl
  | c :: s => by
    rw [escapeWith_cons]
    have ih := unescape_escape hX s
    split
    · rename_i h
      rw [unesc_pct, ih]
      simp [unescapedChar_iff] at h
      rcases h with (h | h) | h
      · subst h; decide
      · omega
      · exact hX c h
    · rename_i h
      simp [unescapedChar_iff] at h
      rw [List.cons_append, List.nil_append, unesc_ne h.1.1, ih]

theorem escaped_lt {X : List Char} (hX : ∀ c ∈ X, c.toNat < 256) {d : Char} (hu : (unescapedChar d || X.contains d) = true) : d.toNat < 256 := by
  simp [unescapedChar_iff] at hu
  rcases hu with (h | h) | h
  · subst h; decide
  · omega
  · exact hX d h

/-- The characters an escaped text consists of. -/
theorem mem_escape {X : List Char} (hX : ∀ c ∈ X, c.toNat < 256) {s : Str} {c : Char} (h : c ∈ escapeWith X s) :
    (c ∈ s ∧ c ∉ X ∧ c ≠ '%' ∧ 33 ≤ c.toNat) ∨ c = '%' ∨ c ∈ "0123456789ABCDEF".toList := by
  unfold escapeWith at h
  rw [List.mem_flatMap] at h
  obtain ⟨d, hd, h⟩ := h
  split at h
  · rename_i hu
    have hd := escaped_lt hX hu
    simp only [pctEncode, List.mem_cons, List.not_mem_nil, or_false] at h
    rcases h with h | h | h
    · exact .inr (.inl h)
    · subst h; exact .inr (.inr (hexDigit_safe _ (by omega)))
    · subst h; exact .inr (.inr (hexDigit_safe _ (by omega)))
  · rename_i hu
    simp at h
    subst h
    simp [unescapedChar_iff] at hu
    exact .inl ⟨hd, hu.2, hu.1.1, hu.1.2⟩

/-- A delimiter that is escaped does not occur. -/
theorem not_mem_escape {X : List Char} (hX : ∀ c ∈ X, c.toNat < 256) {s : Str} {c : Char} (hc : c ∈ X ∨ c.toNat < 33 ∨ c ∉ s) (hd : c ≠ '%') (he : c ∉ "0123456789ABCDEF".toList) :
    c ∉ escapeWith X s := by
  intro h
  rcases mem_escape hX h with ⟨h1, h2, _, h3⟩ | h1 | h1
  · rcases hc with hc | hc | hc
    · exact h2 hc
    · omega
    · exact hc h1
  · exact hd h1
  · exact he h1

end PG.Proofs.RiParse
