import Verif.Proofs.Crypt
/-!
# The key schedule
-/
namespace PG.Proofs.Crypt
open PG PG.Crypt

theorem rotate_half {b : Spec.Crypt.Block} {c : Nat} (h : Half b c) (two : Bool) : Half (Spec.Crypt.shifted (if two then 2 else 1) b) (rotate two c) := by
  obtain ⟨h1, h2⟩ := h
  refine ⟨Nat.lt_of_le_of_lt Nat.and_le_right (by decide), fun n hn => ?_⟩
  have m : ∀ n < 28, Nat.testBit 0x0fffffff n = true := by decide
  have key : ∀ k, 1 ≤ k → k ≤ 2 → ((c >>> k) ||| (c <<< (28 - k))).testBit n = b ((n + k) % 28 + 1) := by
    intro k k1 k2
    rw [Nat.testBit_or, Nat.testBit_shiftRight, Nat.testBit_shiftLeft, Nat.add_comm k n]
    by_cases g : n + k < 28
    · rw [Nat.mod_eq_of_lt g, h2 _ g, decide_eq_false (by omega), Bool.false_and, Bool.or_false]
    · rw [testBit_ge h1 (by omega), decide_eq_true (by omega), Bool.true_and, Bool.false_or, h2 _ (by omega)]
      congr 1
      omega
  unfold rotate Spec.Crypt.shifted
  rw [Nat.testBit_and, m n hn, Bool.and_true]
  cases two
  · exact key 1 (by decide) (by decide)
  · exact key 2 (by decide) (by decide)

/-! ## The tables -/

/-- Each entry is made of those of the powers of two. -/
def Linear (t : List Nat) : Bool := upTo 64 fun i =>
  at_ t i = (if i.testBit 0 then at_ t 1 else 0) ||| (if i.testBit 1 then at_ t 2 else 0) ||| (if i.testBit 2 then at_ t 4 else 0) ||| (if i.testBit 3 then at_ t 8 else 0) |||
    (if i.testBit 4 then at_ t 16 else 0) ||| (if i.testBit 5 then at_ t 32 else 0)

theorem ite_testBit (b : Bool) (x n : Nat) : (if b then x else 0).testBit n = (x.testBit n && b) := by
  cases b <;> simp

theorem linear_testBit {t : List Nat} (h : Linear t = true) {i : Nat} (hi : i < 64) (n : Nat) : (at_ t i).testBit n =
    ((at_ t 1).testBit n && i.testBit 0 || (at_ t 2).testBit n && i.testBit 1 || (at_ t 4).testBit n && i.testBit 2 || (at_ t 8).testBit n && i.testBit 3 ||
      (at_ t 16).testBit n && i.testBit 4 || (at_ t 32).testBit n && i.testBit 5) := by
  have := of_decide_eq_true (upTo_spec h hi)
  rw [this]
  simp only [Nat.testBit_or, ite_testBit]

/-- The bits of `c` and of `d` that the tables are given, with what they give for each. -/
def cbits : List (Nat × Nat) :=
  [(0, at_ skb0 1), (1, at_ skb0 2), (2, at_ skb0 4), (3, at_ skb0 8), (4, at_ skb0 16), (5, at_ skb0 32),
   (6, at_ skb1 1), (7, at_ skb1 2), (9, at_ skb1 4), (10, at_ skb1 8), (11, at_ skb1 16), (12, at_ skb1 32),
   (13, at_ skb2 1), (14, at_ skb2 2), (15, at_ skb2 4), (16, at_ skb2 8), (18, at_ skb2 16), (19, at_ skb2 32),
   (20, at_ skb3 1), (22, at_ skb3 2), (23, at_ skb3 4), (25, at_ skb3 8), (26, at_ skb3 16), (27, at_ skb3 32)]
def dbits : List (Nat × Nat) :=
  [(0, at_ skb4 1), (1, at_ skb4 2), (2, at_ skb4 4), (3, at_ skb4 8), (4, at_ skb4 16), (5, at_ skb4 32),
   (7, at_ skb5 1), (8, at_ skb5 2), (10, at_ skb5 4), (11, at_ skb5 8), (12, at_ skb5 16), (13, at_ skb5 32),
   (15, at_ skb6 1), (16, at_ skb6 2), (17, at_ skb6 4), (18, at_ skb6 8), (19, at_ skb6 16), (20, at_ skb6 32),
   (21, at_ skb7 1), (22, at_ skb7 2), (23, at_ skb7 4), (24, at_ skb7 8), (26, at_ skb7 16), (27, at_ skb7 32)]

theorem bit_of_six {x : Nat} {j : Nat} : (x &&& 0x3f).testBit j = (decide (j < 6) && x.testBit j) := by
  rw [Nat.testBit_and, Bool.and_comm]
  congr 1
  by_cases h : j < 6
  · exact (by decide : ∀ j < 6, Nat.testBit 0x3f j = decide (j < 6)) j h
  · rw [testBit_ge (n := 6) (by decide) (by omega), decide_eq_false h]

theorem six_lt (x : Nat) : x &&& 0x3f < 64 := Nat.lt_of_le_of_lt Nat.and_le_right (by decide)

theorem or_lt {a b : Nat} (ha : a < 64) (hb : b < 64) : a ||| b < 64 := Nat.or_lt_two_pow (n := 6) ha hb

theorem b63_0 : Nat.testBit 63 0 = true := rfl
theorem b63_1 : Nat.testBit 63 1 = true := rfl
theorem b63_2 : Nat.testBit 63 2 = true := rfl
theorem b63_3 : Nat.testBit 63 3 = true := rfl
theorem b63_4 : Nat.testBit 63 4 = true := rfl
theorem b63_5 : Nat.testBit 63 5 = true := rfl
theorem b3_0 : Nat.testBit 3 0 = true := rfl
theorem b3_1 : Nat.testBit 3 1 = true := rfl
theorem b3_2 : Nat.testBit 3 2 = false := rfl
theorem b3_3 : Nat.testBit 3 3 = false := rfl
theorem b3_4 : Nat.testBit 3 4 = false := rfl
theorem b3_5 : Nat.testBit 3 5 = false := rfl
theorem b60_0 : Nat.testBit 60 0 = false := rfl
theorem b60_1 : Nat.testBit 60 1 = false := rfl
theorem b60_2 : Nat.testBit 60 2 = true := rfl
theorem b60_3 : Nat.testBit 60 3 = true := rfl
theorem b60_4 : Nat.testBit 60 4 = true := rfl
theorem b60_5 : Nat.testBit 60 5 = true := rfl
theorem b15_0 : Nat.testBit 15 0 = true := rfl
theorem b15_1 : Nat.testBit 15 1 = true := rfl
theorem b15_2 : Nat.testBit 15 2 = true := rfl
theorem b15_3 : Nat.testBit 15 3 = true := rfl
theorem b15_4 : Nat.testBit 15 4 = false := rfl
theorem b15_5 : Nat.testBit 15 5 = false := rfl
theorem b48_0 : Nat.testBit 48 0 = false := rfl
theorem b48_1 : Nat.testBit 48 1 = false := rfl
theorem b48_2 : Nat.testBit 48 2 = false := rfl
theorem b48_3 : Nat.testBit 48 3 = false := rfl
theorem b48_4 : Nat.testBit 48 4 = true := rfl
theorem b48_5 : Nat.testBit 48 5 = true := rfl
theorem b1_0 : Nat.testBit 1 0 = true := rfl
theorem b1_1 : Nat.testBit 1 1 = false := rfl
theorem b1_2 : Nat.testBit 1 2 = false := rfl
theorem b1_3 : Nat.testBit 1 3 = false := rfl
theorem b1_4 : Nat.testBit 1 4 = false := rfl
theorem b1_5 : Nat.testBit 1 5 = false := rfl
theorem b6_0 : Nat.testBit 6 0 = false := rfl
theorem b6_1 : Nat.testBit 6 1 = true := rfl
theorem b6_2 : Nat.testBit 6 2 = true := rfl
theorem b6_3 : Nat.testBit 6 3 = false := rfl
theorem b6_4 : Nat.testBit 6 4 = false := rfl
theorem b6_5 : Nat.testBit 6 5 = false := rfl
theorem b56_0 : Nat.testBit 56 0 = false := rfl
theorem b56_1 : Nat.testBit 56 1 = false := rfl
theorem b56_2 : Nat.testBit 56 2 = false := rfl
theorem b56_3 : Nat.testBit 56 3 = true := rfl
theorem b56_4 : Nat.testBit 56 4 = true := rfl
theorem b56_5 : Nat.testBit 56 5 = true := rfl

theorem keyS_testBit (c n : Nat) : (keyS c).testBit n = cbits.any fun e => e.2.testBit n && c.testBit e.1 := by
  have l1 : ((c >>> 6) &&& 0x03) ||| ((c >>> 7) &&& 0x3c) < 64 := or_lt (Nat.lt_of_le_of_lt Nat.and_le_right (by decide)) (Nat.lt_of_le_of_lt Nat.and_le_right (by decide))
  have l2 : ((c >>> 13) &&& 0x0f) ||| ((c >>> 14) &&& 0x30) < 64 := or_lt (Nat.lt_of_le_of_lt Nat.and_le_right (by decide)) (Nat.lt_of_le_of_lt Nat.and_le_right (by decide))
  have l3 : ((c >>> 20) &&& 0x01) ||| ((c >>> 21) &&& 0x06) ||| ((c >>> 22) &&& 0x38) < 64 :=
    or_lt (or_lt (Nat.lt_of_le_of_lt Nat.and_le_right (by decide)) (Nat.lt_of_le_of_lt Nat.and_le_right (by decide))) (Nat.lt_of_le_of_lt Nat.and_le_right (by decide))
  unfold keyS
  rw [Nat.testBit_or, Nat.testBit_or, Nat.testBit_or, linear_testBit (by decide +kernel) (six_lt c), linear_testBit (by decide +kernel) l1, linear_testBit (by decide +kernel) l2, linear_testBit (by decide +kernel) l3]
  simp only [Nat.testBit_or, Nat.testBit_and, Nat.testBit_shiftRight]
  simp only [b63_0, b63_1, b63_2, b63_3, b63_4, b63_5, b3_0, b3_1, b3_2, b3_3, b3_4, b3_5, b60_0, b60_1, b60_2, b60_3, b60_4, b60_5, b15_0, b15_1, b15_2, b15_3, b15_4, b15_5, b48_0, b48_1, b48_2, b48_3, b48_4, b48_5, b1_0, b1_1, b1_2, b1_3, b1_4, b1_5, b6_0, b6_1, b6_2, b6_3, b6_4, b6_5, b56_0, b56_1, b56_2, b56_3, b56_4, b56_5, Nat.reduceAdd, Bool.and_true, Bool.and_false, Bool.or_false, Bool.false_or, Bool.or_assoc, cbits, List.any_cons, List.any_nil]

theorem keyT_testBit (d n : Nat) : (keyT d).testBit n = dbits.any fun e => e.2.testBit n && d.testBit e.1 := by
  have l1 : ((d >>> 7) &&& 0x03) ||| ((d >>> 8) &&& 0x3c) < 64 := or_lt (Nat.lt_of_le_of_lt Nat.and_le_right (by decide)) (Nat.lt_of_le_of_lt Nat.and_le_right (by decide))
  have l3 : ((d >>> 21) &&& 0x0f) ||| ((d >>> 22) &&& 0x30) < 64 := or_lt (Nat.lt_of_le_of_lt Nat.and_le_right (by decide)) (Nat.lt_of_le_of_lt Nat.and_le_right (by decide))
  unfold keyT
  rw [Nat.testBit_or, Nat.testBit_or, Nat.testBit_or, linear_testBit (by decide +kernel) (six_lt d), linear_testBit (by decide +kernel) l1, linear_testBit (by decide +kernel) (six_lt (d >>> 15)), linear_testBit (by decide +kernel) l3]
  simp only [Nat.testBit_or, Nat.testBit_and, Nat.testBit_shiftRight]
  simp only [b63_0, b63_1, b63_2, b63_3, b63_4, b63_5, b3_0, b3_1, b3_2, b3_3, b3_4, b3_5, b60_0, b60_1, b60_2, b60_3, b60_4, b60_5, b15_0, b15_1, b15_2, b15_3, b15_4, b15_5, b48_0, b48_1, b48_2, b48_3, b48_4, b48_5, Nat.reduceAdd, Bool.and_true, Bool.and_false, Bool.or_false, Bool.false_or, Bool.or_assoc, dbits, List.any_cons, List.any_nil]

/-- The bits that bit `n` of the table is of. -/
def source (t : List (Nat × Nat)) (n : Nat) : List Nat := (t.filter fun e => e.2.testBit n).map Prod.fst

theorem any_source (t : List (Nat × Nat)) (n c : Nat) : (t.any fun e => e.2.testBit n && c.testBit e.1) = (source t n).any c.testBit := by
  unfold source
  rw [List.any_map, List.any_filter]
  rfl

theorem keyS_lt (c : Nat) : keyS c < 2 ^ 32 := by
  apply lt_of_testBit
  intro i hi
  rw [keyS_testBit, List.any_eq_false]
  intro e he
  have : cbits.all (fun e => decide (e.2 < 2 ^ 32)) = true := by decide +kernel
  rw [testBit_ge (of_decide_eq_true (List.all_eq_true.1 this e he)) hi]
  simp

theorem keyT_lt (c : Nat) : keyT c < 2 ^ 32 := by
  apply lt_of_testBit
  intro i hi
  rw [keyT_testBit, List.any_eq_false]
  intro e he
  have : dbits.all (fun e => decide (e.2 < 2 ^ 32)) = true := by decide +kernel
  rw [testBit_ge (of_decide_eq_true (List.all_eq_true.1 this e he)) hi]
  simp

theorem mask_testBit {k m n : Nat} (hm : m = 2 ^ k - 1) : Nat.testBit m n = decide (n < k) := by
  subst hm; exact Nat.testBit_two_pow_sub_one _ _

theorem keyWords_first (c d : Nat) {m : Nat} (hm : m < 32) : (keyWords c d).1.testBit m = if m < 16 then (keyS c).testBit m else (keyT d).testBit (m - 16) := by
  unfold keyWords
  simp only [Nat.testBit_and, Nat.testBit_or, Nat.testBit_shiftLeft]
  rw [mask_testBit (k := 32) (m := 0xffffffff) (by decide), mask_testBit (k := 16) (m := 0x0000ffff) (by decide), decide_eq_true hm]
  by_cases h : m < 16
  · rw [if_pos h, decide_eq_true h, decide_eq_false (show ¬ m ≥ 16 by omega)]; simp
  · rw [if_neg h, decide_eq_false h, decide_eq_true (show m ≥ 16 by omega)]; simp

/-- The second word before its rotation. -/
def second (c d : Nat) : Nat := (keyS c >>> 16) ||| (keyT d &&& 0xffff0000)

theorem second_lt (c d : Nat) : second c d < 2 ^ 32 :=
  Nat.or_lt_two_pow (Nat.lt_of_le_of_lt (Nat.shiftRight_le _ _) (keyS_lt c)) (Nat.lt_of_le_of_lt Nat.and_le_left (keyT_lt d))

theorem second_testBit (c d : Nat) {m : Nat} (hm : m < 32) : (second c d).testBit m = if m < 16 then (keyS c).testBit (m + 16) else (keyT d).testBit m := by
  unfold second
  have h0 : ∀ m < 32, Nat.testBit 0xffff0000 m = decide (16 ≤ m) := by decide
  rw [Nat.testBit_or, Nat.testBit_and, Nat.testBit_shiftRight, h0 m hm, Nat.add_comm 16 m]
  by_cases h : m < 16
  · rw [if_pos h, decide_eq_false (by omega)]; simp
  · rw [if_neg h, decide_eq_true (by omega), testBit_ge (keyS_lt c) (by omega)]; simp

theorem keyWords_second (c d : Nat) {m : Nat} (hm : m < 32) : (keyWords c d).2.testBit ((m + 4) % 32) = if m < 16 then (keyS c).testBit (m + 16) else (keyT d).testBit m := by
  rw [← second_testBit c d hm]
  show (((second c d <<< 4) ||| ((second c d >>> 28) &&& 0x0f)) &&& 0xffffffff).testBit ((m + 4) % 32) = _
  rw [Nat.testBit_and, Nat.testBit_or, Nat.testBit_and, Nat.testBit_shiftLeft, Nat.testBit_shiftRight, mask_testBit (k := 32) (m := 0xffffffff) (by decide),
    mask_testBit (k := 4) (m := 0x0f) (by decide), decide_eq_true (show (m + 4) % 32 < 32 by omega)]
  by_cases h : m < 28
  · rw [decide_eq_true (show (m + 4) % 32 ≥ 4 by omega), decide_eq_false (show ¬ (m + 4) % 32 < 4 by omega), show (m + 4) % 32 - 4 = m by omega]; simp
  · rw [decide_eq_false (show ¬ (m + 4) % 32 ≥ 4 by omega), decide_eq_true (show (m + 4) % 32 < 4 by omega), show 28 + (m + 4) % 32 = m by omega]; simp

/-- The two words are the 48 bits of `k`: those of the odd and of the even selection functions. -/
def Key (k : Spec.Crypt.Block) (ws : Nat × Nat) : Prop := ∀ w < 4, ∀ j < 6, ws.1.testBit (8 * w + j) = k (12 * w + j + 1) ∧ ws.2.testBit ((8 * w + j + 4) % 32) = k (12 * w + 6 + j + 1)

/-- The tables are PC-2. -/
theorem key_tables : upTo 2 (fun w => upTo 6 fun j =>
    source cbits (8 * w + j) = [Spec.Crypt.pc2.getD (12 * w + j) 0 - 1] && source cbits (8 * w + j + 16) = [Spec.Crypt.pc2.getD (12 * w + 6 + j) 0 - 1] &&
    source dbits (8 * w + j) = [Spec.Crypt.pc2.getD (12 * (w + 2) + j) 0 - 29] && source dbits (8 * w + j + 16) = [Spec.Crypt.pc2.getD (12 * (w + 2) + 6 + j) 0 - 29] &&
    (1 ≤ Spec.Crypt.pc2.getD (12 * w + j) 0 && Spec.Crypt.pc2.getD (12 * w + j) 0 ≤ 28) && (1 ≤ Spec.Crypt.pc2.getD (12 * w + 6 + j) 0 && Spec.Crypt.pc2.getD (12 * w + 6 + j) 0 ≤ 28) &&
    (29 ≤ Spec.Crypt.pc2.getD (12 * (w + 2) + j) 0 && Spec.Crypt.pc2.getD (12 * (w + 2) + j) 0 ≤ 56) &&
    (29 ≤ Spec.Crypt.pc2.getD (12 * (w + 2) + 6 + j) 0 && Spec.Crypt.pc2.getD (12 * (w + 2) + 6 + j) 0 ≤ 56)) = true := by decide +kernel

theorem keyWords_key {b b' : Spec.Crypt.Block} {c d : Nat} (hc : Half b c) (hd : Half b' d) : Key (Spec.Crypt.select Spec.Crypt.pc2 (Spec.Crypt.join 28 b b')) (keyWords c d) := by
  have low : ∀ {n q : Nat}, source cbits n = [q - 1] → 1 ≤ q → q ≤ 28 → (keyS c).testBit n = Spec.Crypt.join 28 b b' q := by
    intro n q h1 h2 h3
    rw [keyS_testBit, any_source, h1, List.any_cons, List.any_nil, Bool.or_false, hc.2 _ (by omega)]
    unfold Spec.Crypt.join
    rw [if_pos h3, show q - 1 + 1 = q by omega]
  have high : ∀ {n q : Nat}, source dbits n = [q - 29] → 29 ≤ q → q ≤ 56 → (keyT d).testBit n = Spec.Crypt.join 28 b b' q := by
    intro n q h1 h2 h3
    rw [keyT_testBit, any_source, h1, List.any_cons, List.any_nil, Bool.or_false, hd.2 _ (by omega)]
    unfold Spec.Crypt.join
    rw [if_neg (by omega), show q - 29 + 1 = q - 28 by omega]
  intro w hw j hj
  rw [keyWords_first c d (by omega), keyWords_second c d (by omega)]
  unfold Spec.Crypt.select
  by_cases h : w < 2
  · have := upTo_spec (upTo_spec key_tables h) hj
    simp only [Bool.and_eq_true, decide_eq_true_eq] at this
    obtain ⟨⟨⟨⟨⟨⟨⟨t1, t2⟩, t3⟩, t4⟩, r1⟩, r2⟩, r3⟩, r4⟩ := this
    rw [if_pos (by omega), if_pos (by omega)]
    exact ⟨low t1 r1.1 r1.2, low t2 r2.1 r2.2⟩
  · obtain ⟨v, rfl⟩ : ∃ v, w = v + 2 := ⟨w - 2, by omega⟩
    have := upTo_spec (upTo_spec key_tables (show v < 2 by omega)) hj
    simp only [Bool.and_eq_true, decide_eq_true_eq] at this
    obtain ⟨⟨⟨⟨⟨⟨⟨t1, t2⟩, t3⟩, t4⟩, r1⟩, r2⟩, r3⟩, r4⟩ := this
    rw [if_neg (by omega), if_neg (by omega), show 8 * (v + 2) + j - 16 = 8 * v + j by omega, show 8 * (v + 2) + j = 8 * v + j + 16 by omega]
    exact ⟨high t3 r3.1 r3.2, high t4 r4.1 r4.2⟩

/-- The keys of the rounds. -/
def Keys : List Spec.Crypt.Block → List (Nat × Nat) → Prop
  | [], [] => True
  | k :: ks, w :: ws => Key k w ∧ Keys ks ws
  | _, _ => False

theorem schedule_keys : ∀ (l : List Bool) {b b' : Spec.Crypt.Block} {c d : Nat}, Half b c → Half b' d → Keys (Spec.Crypt.keysFrom b b' (l.map fun two => if two then 2 else 1)) (schedule c d l)
  | [], _, _, _, _, _, _ => trivial
  | two :: l, _, _, _, _, hc, hd => ⟨keyWords_key (rotate_half hc two) (rotate_half hd two), schedule_keys l (rotate_half hc two) (rotate_half hd two)⟩

theorem setKey_keys (p : Bytes) : Keys (Spec.Crypt.keys (Spec.Crypt.keyOf p)) (setKey ((p ++ [0, 0, 0, 0, 0, 0, 0, 0]).take 8)) :=
  schedule_keys shifts2 (startKey_halves p).1 (startKey_halves p).2

end PG.Proofs.Crypt
