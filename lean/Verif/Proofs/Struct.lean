import Verif.Model.Struct
import Verif.Proofs.Py
/-! Lemmas about splitting, joining, dictionaries, struct fields. -/
set_option linter.unusedSectionVars false
namespace PG

section Break
variable {α : Type _} [DecidableEq α]

theorem breakOn_append {sep : α} {a : List α} (h : sep ∉ a) (r : List α) :
    breakOn sep (a ++ sep :: r) = (a, some r) := by
  induction a with
  | nil => simp [breakOn]
  | cons x a ih =>
    simp at h
    simp [breakOn, Ne.symm h.1, ih h.2]

theorem breakOn_none {sep : α} {a : List α} (h : sep ∉ a) : breakOn sep a = (a, none) := by
  induction a with
  | nil => simp [breakOn]
  | cons x a ih =>
    simp at h
    simp [breakOn, Ne.symm h.1, ih h.2]

/-- `breakOn` cuts at the first separator and loses nothing. -/
theorem breakOn_spec (sep : α) (b : List α) :
    match breakOn sep b with
    | (pre, some rest) => b = pre ++ sep :: rest ∧ sep ∉ pre
    | (pre, none) => b = pre ∧ sep ∉ b := by
  induction b with
  | nil => simp [breakOn]
  | cons x b ih =>
    by_cases h : x = sep
    · simp [breakOn, h]
    · simp only [breakOn, if_neg h]
      cases hb : breakOn sep b with
      | mk pre o =>
        rw [hb] at ih
        cases o with
        | some rest =>
          simp only at ih ⊢
          simp [ih.1, ih.2, Ne.symm h]
        | none =>
          simp only at ih ⊢
          refine ⟨by rw [← ih.1], ?_⟩
          simp [ih.2, Ne.symm h]

theorem splitMax_succ_append {sep : α} {a : List α} (h : sep ∉ a) (n : Nat) (r : List α) :
    splitMax sep (n + 1) (a ++ sep :: r) = a :: splitMax sep n r := by
  simp [splitMax, breakOn_append h]

theorem splitMax_none {sep : α} {a : List α} (h : sep ∉ a) (n : Nat) : splitMax sep n a = [a] := by
  cases n <;> simp [splitMax, breakOn_none h]

theorem splitMax_join {sep : α} (parts : List (List α)) (hne : parts ≠ []) (h : ∀ p ∈ parts, sep ∉ p) :
    ∀ n, parts.length ≤ n + 1 → splitMax sep n (joinWith [sep] parts) = parts := by
  induction parts with
  | nil => exact absurd rfl hne
  | cons p r ih =>
    intro n hn
    cases r with
    | nil => simpa [joinWith] using splitMax_none (h p (by simp)) n
    | cons q r =>
      cases n with
      | zero => simp at hn
      | succ n =>
        have e : joinWith [sep] (p :: q :: r) = p ++ sep :: joinWith [sep] (q :: r) := by simp [joinWith]
        rw [e, splitMax_succ_append (h p (by simp)), ih (by simp) (fun x hx => h x (by simp [hx])) n (by simp at hn ⊢; omega)]

theorem length_joinWith_ge {sep : α} (parts : List (List α)) : parts.length ≤ (joinWith [sep] parts).length + 1 := by
  match parts with
  | [] => simp
  | [x] => simp
  | x :: y :: r =>
    have := length_joinWith_ge (sep := sep) (y :: r)
    simp [joinWith] at this ⊢
    omega

theorem splitAll_join {sep : α} (parts : List (List α)) (hne : parts ≠ []) (h : ∀ p ∈ parts, sep ∉ p) :
    splitAll sep (joinWith [sep] parts) = parts :=
  splitMax_join parts hne h _ (length_joinWith_ge parts)

theorem splitMax_ne_nil (sep : α) (n : Nat) (b : List α) : splitMax sep n b ≠ [] := by
  cases n with
  | zero => simp [splitMax]
  | succ n => unfold splitMax; split <;> simp

/-- Joining what was split gives the original. -/
theorem join_splitMax (sep : α) : ∀ (n : Nat) (b : List α), joinWith [sep] (splitMax sep n b) = b := by
  intro n
  induction n with
  | zero => intro b; simp [splitMax, joinWith]
  | succ n ih =>
    intro b
    have hs := breakOn_spec sep b
    unfold splitMax
    split
    · rename_i pre rest hb
      rw [hb] at hs
      have hne := splitMax_ne_nil sep n rest
      cases hm : splitMax sep n rest with
      | nil => exact absurd hm hne
      | cons y r =>
        have := ih rest
        rw [hm] at this
        simp [joinWith, this, hs.1]
    · rename_i pre hb
      rw [hb] at hs
      simp [joinWith, hs.1]

theorem join_splitAll (sep : α) (b : List α) : joinWith [sep] (splitAll sep b) = b := join_splitMax ..

/-- With enough fuel every piece is separator-free. -/
theorem splitMax_free (sep : α) : ∀ (n : Nat) (b : List α), b.length ≤ n → ∀ p ∈ splitMax sep n b, sep ∉ p := by
  intro n
  induction n with
  | zero => intro b h; simp at h; subst h; simp [splitMax]
  | succ n ih =>
    intro b hb
    have hs := breakOn_spec sep b
    unfold splitMax
    split
    · rename_i pre rest hbr
      rw [hbr] at hs
      intro p hp
      rcases List.mem_cons.mp hp with rfl | hp
      · exact hs.2
      · exact ih rest (by have := congrArg List.length hs.1; simp at this; omega) p hp
    · rename_i pre hbr
      rw [hbr] at hs
      intro p hp
      rw [List.mem_singleton.mp hp, ← hs.1]; exact hs.2

theorem splitAll_free (sep : α) (b : List α) : ∀ p ∈ splitAll sep b, sep ∉ p := splitMax_free sep _ b (Nat.le_refl _)

theorem splitAll_ne_nil (sep : α) (b : List α) : splitAll sep b ≠ [] := splitMax_ne_nil sep _ b

theorem joinWith_append_singleton {sep : List α} (l : List (List α)) (h : l ≠ []) (x : List α) :
    joinWith sep (l ++ [x]) = joinWith sep l ++ sep ++ x := by
  match l, h with
  | [a], _ => simp [joinWith]
  | a :: b :: r, _ =>
    have := joinWith_append_singleton (sep := sep) (b :: r) (by simp) x
    simp [joinWith] at this ⊢
    exact this

theorem joinWith_cons {sep : List α} (a : List α) (l : List (List α)) (h : l ≠ []) :
    joinWith sep (a :: l) = a ++ sep ++ joinWith sep l := by
  cases l with
  | nil => exact absurd rfl h
  | cons b r => rfl

end Break

section Dict
variable {κ β : Type _} [DecidableEq κ]

theorem dictSet_append_of_not_mem (d : List (κ × β)) (k : κ) (v : β) (h : k ∉ d.map (·.1)) :
    dictSet d k v = d ++ [(k, v)] := by
  induction d with
  | nil => rfl
  | cons p d ih =>
    simp only [List.map_cons, List.mem_cons, not_or] at h
    simp [dictSet, Ne.symm h.1, ih h.2]

theorem dictOf_nodup_aux (ps d : List (κ × β)) (h : ((d ++ ps).map (·.1)).Nodup) :
    ps.foldl (fun d p => dictSet d p.1 p.2) d = d ++ ps := by
  induction ps generalizing d with
  | nil => simp
  | cons p ps ih =>
    have hk : p.1 ∉ d.map (·.1) := by
      simp only [List.map_append, List.map_cons] at h
      have := List.nodup_append.mp h
      intro hc
      exact this.2.2 _ hc _ (by simp) rfl
    simp only [List.foldl_cons]
    rw [dictSet_append_of_not_mem d p.1 p.2 hk, ih]
    · simp
    · simpa using h

theorem dictOf_nodup (ps : List (κ × β)) (h : (ps.map (·.1)).Nodup) : dictOf ps = ps := by
  simpa [dictOf] using dictOf_nodup_aux ps [] (by simpa using h)

theorem dictGet_dictSet (d : List (κ × β)) (k k' : κ) (v : β) :
    dictGet (dictSet d k v) k' = if k = k' then some v else dictGet d k' := by
  induction d with
  | nil => simp [dictSet, dictGet]
  | cons p d ih =>
    unfold dictSet
    split
    · rename_i h
      simp only [dictGet]
      split
      · rfl
      · rename_i h2; rw [if_neg (by rw [h]; exact h2)]
    · rename_i h
      simp only [dictGet]
      split
      · rename_i h2; rw [if_neg (by intro hc; exact h (h2.trans hc.symm))]
      · exact ih

end Dict

theorem unpackFromU_append {k : Nat} {n : Int} {b : Bytes} (h : packU k n = .ok b) (r : Bytes) :
    unpackFromU k (b ++ r) = .ok n := by
  have hl := length_packU h
  have h1 := unpackU_of_packU h
  unfold unpackU at h1
  rw [if_pos hl] at h1
  unfold unpackFromU
  rw [if_neg (by simp; omega), List.take_append_of_le_length (by omega), List.take_of_length_le (by omega)]
  have h2 := h1.2
  have := h1.1
  injection this with this
  rw [this, Int.toNat_of_nonneg h2]

theorem unpackFromU_packU {k : Nat} {n : Int} {b : Bytes} (h : packU k n = .ok b) : unpackFromU k b = .ok n := by
  simpa using unpackFromU_append h []

theorem beDec_packU {k : Nat} {n : Int} {b : Bytes} (h : packU k n = .ok b) : (beDec b : Int) = n := by
  have h1 := unpackU_of_packU h
  unfold unpackU at h1
  rw [if_pos (length_packU h)] at h1
  have := h1.1
  injection this with this
  rw [this, Int.toNat_of_nonneg h1.2]

theorem unpackFromS_append {k : Nat} {n : Int} {b : Bytes} (h : packS k n = .ok b) (r : Bytes) :
    unpackFromS k (b ++ r) = .ok n := by
  have hl := length_packS h
  have h1 := unpackS_of_packS h
  unfold unpackS at h1
  rw [if_pos hl] at h1
  unfold unpackFromS
  rw [if_neg (by simp; omega), List.take_append_of_le_length (by omega), List.take_of_length_le (by omega)]
  exact h1

theorem unpackFromS_packS {k : Nat} {n : Int} {b : Bytes} (h : packS k n = .ok b) : unpackFromS k b = .ok n := by
  simpa using unpackFromS_append h []

theorem exists_packU {k : Nat} {n : Int} (h : 0 ≤ n ∧ n < 256 ^ k) : ∃ b, packU k n = .ok b := by
  unfold packU; rw [if_pos h]; exact ⟨_, rfl⟩

theorem exists_packS {k : Nat} {n : Int} (h : -(256 ^ k : Int) ≤ 2 * n ∧ 2 * n < 256 ^ k) : ∃ b, packS k n = .ok b := by
  unfold packS; rw [if_pos h]; exact ⟨_, rfl⟩

end PG
