import Verif.Model.Statement
import Verif.Spec.Statement
import Verif.Props.ReplyBatches
/-! # Calling a statement: lemmas -/
namespace PG.Statement
open PG PG.Element3 PG.Xact3 PG.Fetch PG.Row PG.Spec.Xact PG.Spec.Reply PG.Spec.Received PG.Spec.Fetch PG.Spec.Statement

/-! ## Tags -/

theorem wordsFrom_blank : ∀ (a : Bytes) (w b : Bytes), wordsFrom w (a ++ 32 :: b) = wordsFrom w a ++ words b
  | [], w, b => by
    unfold words
    rw [List.nil_append, wordsFrom, wordsFrom, if_pos (by decide)]
    split <;> simp
  | x :: a, w, b => by
    rw [List.cons_append, wordsFrom, wordsFrom]
    split
    · split
      · exact wordsFrom_blank a [] b
      · rw [wordsFrom_blank a [] b, List.cons_append]
    · exact wordsFrom_blank a _ b

theorem words_blank (a b : Bytes) : words (a ++ 32 :: b) = words a ++ words b := wordsFrom_blank a [] b

theorem wordsFrom_word : ∀ (a w : Bytes), (∀ b ∈ a, isSpaceB b = false) → wordsFrom w a = if w ++ a = [] then [] else [w ++ a]
  | [], w, _ => by rw [wordsFrom, List.append_nil]
  | x :: a, w, h => by
    rw [wordsFrom, if_neg (by rw [h x List.mem_cons_self]; simp), wordsFrom_word a _ fun b hb => h b (List.mem_cons_of_mem _ hb)]
    simp

theorem decimal_digit {n : Nat} {b : UInt8} (h : b ∈ decimal n) : 48 ≤ b.toNat ∧ b.toNat ≤ 57 := by
  unfold decimal at h
  obtain ⟨c, hc, rfl⟩ := List.mem_map.mp h
  have := Nat.isDigit_of_mem_toDigits (b := 10) (by decide) (by decide) hc
  unfold Char.isDigit at this
  simp only [ge_iff_le, Bool.and_eq_true, decide_eq_true_eq, UInt32.le_iff_toNat_le] at this
  have h1 : 48 ≤ c.toNat := this.1
  have h2 : c.toNat ≤ 57 := this.2
  rw [UInt8.toNat_ofNat', Nat.mod_eq_of_lt (by omega)]
  exact ⟨h1, h2⟩

theorem digitB {b : UInt8} (h : 48 ≤ b.toNat ∧ b.toNat ≤ 57) : isDigitB b = true ∧ isSpaceB b = false ∧ tagStrip b = true := by
  have hd : isDigitB b = true := by
    unfold isDigitB
    simp only [Bool.and_eq_true, decide_eq_true_eq, UInt8.le_iff_toNat_le]
    exact h
  refine ⟨hd, ?_, ?_⟩
  · unfold isSpaceB
    simp only [Bool.or_eq_false_iff, Bool.and_eq_false_iff, decide_eq_false_iff_not, UInt8.le_iff_toNat_le]
    refine ⟨fun e => ?_, .inr ?_⟩
    · rw [e] at h; exact absurd h.1 (by decide)
    · show ¬ b.toNat ≤ 13; omega
  · unfold tagStrip
    rw [hd, Bool.or_true]

theorem decimal_ne (n : Nat) : decimal n ≠ [] := by
  unfold decimal
  intro e
  exact Nat.toDigits_ne_nil (List.map_eq_nil_iff.mp e)

theorem foldl_digits : ∀ (l : List Char) (i : Nat), (∀ c ∈ l, c.isDigit = true) → (l.map fun c => UInt8.ofNat c.toNat).foldl (fun n (b : UInt8) => 10 * n + (b.toNat - 48)) i = Nat.ofDigitChars 10 l i
  | [], i, _ => rfl
  | c :: l, i, h => by
    have hc := h c List.mem_cons_self
    unfold Char.isDigit at hc
    simp only [ge_iff_le, Bool.and_eq_true, decide_eq_true_eq, UInt32.le_iff_toNat_le] at hc
    have h2 : c.toNat ≤ 57 := hc.2
    rw [List.map_cons, List.foldl_cons, Nat.ofDigitChars_cons, ← foldl_digits l _ fun x hx => h x (List.mem_cons_of_mem _ hx), UInt8.toNat_ofNat', Nat.mod_eq_of_lt (by omega)]
    rfl

theorem intOf_decimal (n : Nat) : intOf (decimal n) = n := by
  unfold intOf decimal
  rw [foldl_digits _ _ fun c hc => Nat.isDigit_of_mem_toDigits (by decide) (by decide) hc, Nat.ofDigitChars_ten_toDigits]

theorem words_decimal (n : Nat) : words (decimal n) = [decimal n] := by
  unfold words
  rw [wordsFrom_word _ _ fun b hb => (digitB (decimal_digit hb)).2.1, List.nil_append, if_neg (decimal_ne n)]

theorem isDigits_decimal (n : Nat) : isDigits (decimal n) = true := by
  unfold isDigits
  rw [Bool.and_eq_true, List.all_eq_true]
  exact ⟨by simpa using decimal_ne n, fun b hb => (digitB (decimal_digit hb)).1⟩

/-- The words are made of the bytes. -/
theorem wordsFrom_mem : ∀ (a w : Bytes) (x : Bytes), x ∈ wordsFrom w a → ∀ b ∈ x, b ∈ w ∨ b ∈ a
  | [], w, x, h, b, hb => by
    rw [wordsFrom] at h
    split at h
    · cases h
    · rw [List.mem_singleton] at h; subst h; exact .inl hb
  | y :: a, w, x, h, b, hb => by
    rw [wordsFrom] at h
    have lift : (b ∈ ([] : Bytes) ∨ b ∈ a) → b ∈ w ∨ b ∈ y :: a := fun e => e.elim (fun e => (nomatch e)) fun e => .inr (List.mem_cons_of_mem _ e)
    split at h
    · split at h
      · exact lift (wordsFrom_mem a [] x h b hb)
      · rcases List.mem_cons.mp h with rfl | h
        · exact .inl hb
        · exact lift (wordsFrom_mem a [] x h b hb)
    · rcases wordsFrom_mem a _ x h b hb with e | e
      · rcases List.mem_append.mp e with e | e
        · exact .inl e
        · rw [List.mem_singleton] at e; subst e; exact .inr List.mem_cons_self
      · exact .inr (List.mem_cons_of_mem _ e)

theorem wordsFrom_ne : ∀ (a w : Bytes), [] ∉ wordsFrom w a
  | [], w => by
    rw [wordsFrom]
    split
    · simp
    · rename_i h; simpa using h
  | y :: a, w => by
    rw [wordsFrom]
    split
    · split
      · exact wordsFrom_ne a []
      · rename_i h
        simp only [List.mem_cons, not_or]
        exact ⟨fun e => h e.symm, wordsFrom_ne a []⟩
    · exact wordsFrom_ne a _

theorem name_words {nm : Bytes} (h : IsName nm) : ∀ w ∈ words nm, isDigits w = false := by
  intro w hw
  unfold isDigits
  cases w with
  | nil => exact absurd hw (wordsFrom_ne _ _)
  | cons b w =>
    rw [List.all_cons]
    have hb := wordsFrom_mem nm [] _ hw b List.mem_cons_self
    have hb : b ∈ nm := hb.elim (fun e => (nomatch e)) id
    have : isDigitB b = false := by
      unfold isDigitB
      simp only [Bool.and_eq_false_iff, decide_eq_false_iff_not, UInt8.le_iff_toNat_le]
      rcases h.letters b hb with h1 | h1
      · have h1 : 65 ≤ b.toNat := UInt8.le_iff_toNat_le.mp h1.1
        exact .inr (show ¬ b.toNat ≤ 57 by omega)
      · subst h1; decide
    rw [this]
    simp

theorem name_strip {b : UInt8} (h : (65 ≤ b ∧ b ≤ 90) ∨ b = 32) (hb : b ≠ 32) : tagStrip b = false := by
  have h := h.resolve_right hb
  have h1 : 65 ≤ b.toNat := UInt8.le_iff_toNat_le.mp h.1
  unfold tagStrip isDigitB
  have hne : ∀ c : UInt8, c.toNat < 65 → b ≠ c := by rintro c hc rfl; omega
  simp only [Bool.or_eq_false_iff, Bool.and_eq_false_iff, decide_eq_false_iff_not, UInt8.le_iff_toNat_le]
  exact ⟨⟨⟨⟨hne 13 (by decide), hne 10 (by decide)⟩, hne 9 (by decide)⟩, hb⟩, .inr (show ¬ b.toNat ≤ 57 by omega)⟩

theorem command_name {nm j : Bytes} (h : IsName nm) (hj : ∀ b ∈ j, tagStrip b = true) : extractCommand (nm ++ j) = some nm := by
  obtain ⟨b, hb, hb2⟩ := h.first
  obtain ⟨c, hc, hc2⟩ := h.last
  have h1 : (nm ++ j).dropWhile tagStrip = nm ++ j := by
    cases nm with
    | nil => cases hb
    | cons x nm =>
      cases hb
      rw [List.cons_append, List.dropWhile_cons_of_neg (by rw [name_strip (h.letters _ List.mem_cons_self) hb2]; simp)]
  have h2 : (nm ++ j).reverse.dropWhile tagStrip = nm.reverse := by
    rw [List.reverse_append, List.dropWhile_append_of_pos fun x hx => hj x (List.mem_reverse.mp hx)]
    have hm : c ∈ nm := List.mem_of_getLast? hc
    have hcs := name_strip (h.letters _ hm) hc2
    have hr : nm.reverse.head? = some c := by rw [List.head?_reverse]; exact hc
    cases hn : nm.reverse with
    | nil => rfl
    | cons x l =>
      rw [hn] at hr
      cases hr
      rw [List.dropWhile_cons_of_neg (by rw [hcs]; simp)]
  unfold extractCommand
  rw [h1, h2, List.reverse_reverse]
  dsimp only
  rw [if_neg]
  intro e
  rw [e] at hb
  cases hb

/-- What is read from a tag. -/
theorem tag_read {d nm : Bytes} {n : Option Nat} (h : IsTag d nm n) : extractCommand d = some nm ∧ extractCount d = n := by
  have hfind : ∀ ws m, (ws ++ [decimal m]).reverse.find? isDigits = some (decimal m) := by
    intro ws m
    rw [List.reverse_append, List.reverse_singleton, List.singleton_append, List.find?_cons_of_pos (isDigits_decimal m)]
  cases h with
  | alone hn =>
    refine ⟨?_, ?_⟩
    · have := command_name (j := []) hn (by simp)
      rwa [List.append_nil] at this
    · unfold extractCount
      rw [List.find?_eq_none.mpr]
      · rfl
      · intro w hw
        rw [name_words hn w (List.mem_reverse.mp hw)]
        simp
  | @counted _ m hn =>
    refine ⟨command_name hn ?_, ?_⟩
    · intro b hb
      rcases List.mem_cons.mp hb with rfl | hb
      · decide
      · exact (digitB (decimal_digit hb)).2.2
    · unfold extractCount
      rw [words_blank, words_decimal, hfind, Option.map_some, intOf_decimal]
  | @insert _ o m hn =>
    refine ⟨?_, ?_⟩
    · rw [List.append_assoc]
      refine command_name hn ?_
      intro b hb
      simp only [List.cons_append, List.mem_cons, List.mem_append] at hb
      rcases hb with rfl | hb | rfl | hb
      · decide
      · exact (digitB (decimal_digit hb)).2.2
      · decide
      · exact (digitB (decimal_digit hb)).2.2
    · unfold extractCount
      rw [words_blank, words_decimal, hfind, Option.map_some, intOf_decimal]

/-! ## Rows -/

theorem processLoop_decoded {α β : Type} {u : List (α → Except Err β)} {t r} (h : Decoded u t r) : ∀ i, processLoop u t i = .ok r := by
  induction h with
  | nil => intro i; rfl
  | null _ ih => intro i; simp only [processLoop, ih]; rfl
  | value hv _ ih => intro i; simp only [processLoop, ih, hv]; rfl

theorem decoded_length {α β : Type} {u : List (α → Except Err β)} {t r} (h : Decoded u t r) : t.length = u.length := by
  induction h with
  | nil => rfl
  | null _ ih => simp [ih]
  | value _ _ ih => simp [ih]

theorem processTuple_decoded {α β : Type} {u : List (α → Except Err β)} {t r} (h : Decoded u t r) : processTuple u t = .ok r := by
  unfold processTuple
  rw [if_neg (by rw [decoded_length h]; simp), processLoop_decoded h]

theorem processLoop_inv {α β : Type} : ∀ (u : List (α → Except Err β)) (t : List (Option α)) (i : Nat) (r : List (Option β)), t.length = u.length → processLoop u t i = .ok r → Decoded u t r
  | [], [], i, r, _, h => by cases h; exact .nil
  | f :: u, none :: t, i, r, hl, h => by
    rw [processLoop] at h
    cases hr : processLoop u t (i + 1) with
    | error e => rw [hr] at h; cases h
    | ok r' => rw [hr] at h; cases h; exact .null (processLoop_inv u t _ r' (by simpa using hl) hr)
  | f :: u, some x :: t, i, r, hl, h => by
    rw [processLoop] at h
    cases hx : f x with
    | error e => rw [hx] at h; cases h
    | ok v =>
      rw [hx] at h
      cases hr : processLoop u t (i + 1) with
      | error e => rw [hr] at h; cases h
      | ok r' => rw [hr] at h; cases h; exact .value hx (processLoop_inv u t _ r' (by simpa using hl) hr)
  | [], _ :: _, _, _, hl, _ => by cases hl
  | _ :: _, [], _, _, hl, _ => by cases hl

theorem processTuple_inv {α β : Type} {u : List (α → Except Err β)} {t r} (h : processTuple u t = .ok r) : Decoded u t r := by
  unfold processTuple at h
  split at h
  · cases h
  · rename_i hl
    exact processLoop_inv u t 0 r (by simpa using hl) h

end PG.Statement
