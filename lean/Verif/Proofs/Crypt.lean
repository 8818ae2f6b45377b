import Verif.Model.Crypt
import Verif.Spec.Crypt
/-!
# Words and blocks

What each step of `Model/Crypt` does to the bits of its words. Most steps move bits: a word is described by the function that says of which bit of the input
each of its bits is, and the moves are compared to the tables of the standard.
-/
namespace PG.Proofs.Crypt
open PG PG.Crypt

/-- `∀ i < n, q i`, computed. -/
def upTo (n : Nat) (q : Nat → Bool) : Bool := (List.range n).all q

theorem upTo_spec {n : Nat} {q : Nat → Bool} (h : upTo n q = true) {i : Nat} (hi : i < n) : q i = true := List.all_eq_true.1 h i (List.mem_range.2 hi)

/-- The bits of `a` are bits of `b`, as `f` says. -/
def From (b : Nat → Bool) (a : Nat) (f : Nat → Nat) : Prop := ∀ i, a.testBit i = b (f i)

/-- The moves of `permOp`: of its first word, of its second word; and that of `hpermOp`. -/
def srcA (n m : Nat) (f g : Nat → Nat) (i : Nat) : Nat := if n ≤ i ∧ m.testBit (i - n) = true then g (i - n) else f i
def srcB (n m : Nat) (f g : Nat → Nat) (i : Nat) : Nat := if m.testBit i = true then f (i + n) else g i
def srcH (f : Nat → Nat) (i : Nat) : Nat :=
  if 18 ≤ i ∧ (0xcccc0000).testBit i = true then f (i - 18) else if (0x3fff).testBit i = true ∧ (0xcccc0000).testBit (i + 18) = true then f (i + 18) else f i

theorem permOp_from {b : Nat → Bool} {x y : Nat} {f g : Nat → Nat} (hx : From b x f) (hy : From b y g) (n m : Nat) :
    From b (permOp x y n m).1 (srcA n m f g) ∧ From b (permOp x y n m).2 (srcB n m f g) := by
  constructor
  · intro i
    unfold permOp srcA
    rw [Nat.testBit_xor, Nat.testBit_shiftLeft, Nat.testBit_and, Nat.testBit_xor, Nat.testBit_shiftRight]
    by_cases h : n ≤ i
    · by_cases hm : m.testBit (i - n) = true
      · rw [if_pos ⟨h, hm⟩, hm, ← hy, Nat.add_sub_cancel' h]
        simp [h]
      · rw [if_neg (fun g => hm g.2), Bool.eq_false_iff.2 hm, ← hx]
        simp
    · rw [if_neg (fun g => h g.1), ← hx]
      simp [h]
  · intro i
    unfold permOp srcB
    rw [Nat.testBit_xor, Nat.testBit_and, Nat.testBit_xor, Nat.testBit_shiftRight]
    by_cases hm : m.testBit i = true
    · rw [if_pos hm, hm, ← hx, Nat.add_comm n i]
      cases x.testBit (i + n) <;> cases y.testBit i <;> rfl
    · rw [if_neg hm, Bool.eq_false_iff.2 hm, ← hy]
      simp

theorem hpermOp_from {b : Nat → Bool} {x : Nat} {f : Nat → Nat} (hx : From b x f) : From b (hpermOp x) (srcH f) := by
  intro i
  have h18 : ∀ i, (0xcccc0000).testBit i = true → 18 ≤ i := by
    intro i hi
    by_cases h : 18 ≤ i
    · exact h
    · exfalso
      have : ∀ i < 18, (0xcccc0000).testBit i = false := by decide
      rw [this i (by omega)] at hi
      cases hi
  have h0 : ∀ i, (0xcccc0000).testBit i = true → (0x3fff).testBit i = false := by
    intro i hi
    have := h18 i hi
    by_cases h : i < 32
    · have : ∀ i < 32, (0xcccc0000).testBit i = true → (0x3fff).testBit i = false := by decide
      exact this i h hi
    · exact Nat.testBit_lt_two_pow (Nat.lt_of_lt_of_le (by decide : 0x3fff < 2 ^ 32) (Nat.pow_le_pow_right (by decide) (by omega)))
  unfold hpermOp srcH
  simp only [Nat.testBit_xor, Nat.testBit_and, Nat.testBit_shiftLeft, Nat.testBit_shiftRight]
  by_cases hm : (0xcccc0000).testBit i = true
  · rw [if_pos ⟨h18 i hm, hm⟩, hm, h0 i hm, ← hx]
    simp only [ge_iff_le, h18 i hm, decide_true, Bool.true_and, Bool.and_true, Bool.and_false, Bool.xor_false]
    cases x.testBit i <;> cases x.testBit (i - 18) <;> rfl
  · rw [if_neg (fun g => hm g.2), Bool.eq_false_iff.2 hm]
    by_cases hc : (0x3fff).testBit i = true ∧ (0xcccc0000).testBit (i + 18) = true
    · rw [if_pos hc, hc.1, Nat.add_comm 18 i, hc.2, ← hx]
      simp
    · rw [if_neg hc, ← hx]
      by_cases h1 : (0x3fff).testBit i = true
      · rw [Nat.add_comm 18 i, Bool.eq_false_iff.2 (fun g => hc ⟨h1, g⟩)]
        simp
      · rw [Bool.eq_false_iff.2 h1]
        simp

theorem from_congr {b : Nat → Bool} {x : Nat} {f g : Nat → Nat} (h : From b x f) (e : ∀ i, f i = g i) : From b x g := fun i => (e i) ▸ h i

/-! ## The key -/

/-- Bit `n` of the two words of the key: of each byte the seven low bits, one place up. -/
def keyBit (p : Bytes) (n : Nat) : Bool := 1 ≤ n % 8 && (p.getD (n / 8) 0).toNat.testBit (n % 8 - 1)

theorem word_testBit (p : Bytes) (i n : Nat) : (word p i).testBit n = (decide (n < 32) && (p.getD (i + n / 8) 0).toNat.testBit (n % 8)) := by
  have hb : ∀ j, (p.getD j 0).toNat < 2 ^ 8 := fun j => (p.getD j 0).toNat_lt
  unfold word
  have e : (p.getD i 0).toNat + 256 * (p.getD (i + 1) 0).toNat + 65536 * (p.getD (i + 2) 0).toNat + 16777216 * (p.getD (i + 3) 0).toNat =
      2 ^ 8 * (2 ^ 8 * (2 ^ 8 * (p.getD (i + 3) 0).toNat + (p.getD (i + 2) 0).toNat) + (p.getD (i + 1) 0).toNat) + (p.getD i 0).toNat := by omega
  rw [e, Nat.testBit_two_pow_mul_add _ (hb i), Nat.testBit_two_pow_mul_add _ (hb _), Nat.testBit_two_pow_mul_add _ (hb _)]
  by_cases h1 : n < 8
  · rw [if_pos h1, Nat.div_eq_of_lt h1, Nat.mod_eq_of_lt h1]
    simp [show n < 32 by omega]
  · rw [if_neg h1]
    by_cases h2 : n - 8 < 8
    · rw [if_pos h2, show n / 8 = 1 by omega, show n % 8 = n - 8 by omega]
      simp [show n < 32 by omega]
    · rw [if_neg h2]
      by_cases h3 : n - 8 - 8 < 8
      · rw [if_pos h3, show n / 8 = 2 by omega, show n % 8 = n - 8 - 8 by omega]
        simp [show n < 32 by omega]
      · rw [if_neg h3]
        by_cases h4 : n < 32
        · rw [show n / 8 = 3 by omega, show n % 8 = n - 8 - 8 - 8 by omega]
          simp [h4]
        · rw [decide_eq_false h4, Bool.false_and]
          exact Nat.testBit_lt_two_pow (Nat.lt_of_lt_of_le (hb _) (Nat.pow_le_pow_right (by decide) (by omega)))

theorem testBit_ge {a n i : Nat} (h : a < 2 ^ n) (hi : n ≤ i) : a.testBit i = false :=
  Nat.testBit_lt_two_pow (Nat.lt_of_lt_of_le h (Nat.pow_le_pow_right (by decide) hi))

/-- Where the bits of the two words are taken from; bit 64 is no bit. -/
def fromWord (j n : Nat) : Nat := if n < 32 then 32 * j + n else 64

theorem word_from (p : Bytes) (j : Nat) : From (keyBit p) ((word p (4 * j) &&& 0x7f7f7f7f) <<< 1) (fromWord j) := by
  intro n
  rw [Nat.testBit_shiftLeft, Nat.testBit_and, word_testBit]
  unfold fromWord
  by_cases h : n < 32
  · rw [if_pos h]
    unfold keyBit
    have hm : ∀ n < 32, (decide (1 ≤ n) && (0x7f7f7f7f).testBit (n - 1)) = decide (1 ≤ n % 8) := by decide
    have := hm n h
    by_cases h1 : 1 ≤ n % 8
    · rw [decide_eq_true h1, Bool.and_eq_true] at this
      rw [this.2, decide_eq_true (show n ≥ 1 by omega), decide_eq_true (show n - 1 < 32 by omega), decide_eq_true (show 1 ≤ (32 * j + n) % 8 by omega),
        show 4 * j + (n - 1) / 8 = (32 * j + n) / 8 by omega, show (n - 1) % 8 = (32 * j + n) % 8 - 1 by omega]
      simp
    · rw [decide_eq_false (show ¬ 1 ≤ (32 * j + n) % 8 by omega)]
      rw [decide_eq_false h1] at this
      rcases Bool.and_eq_false_iff.1 this with g | g
      · rw [show decide (n ≥ 1) = decide (1 ≤ n) from rfl, g]; rfl
      · rw [g]; simp
  · have hk : keyBit p 64 = false := rfl
    rw [if_neg h, hk]
    by_cases h2 : n - 1 < 32
    · have m : Nat.testBit 0x7f7f7f7f 31 = false := by decide
      rw [show n - 1 = 31 by omega, m]; simp
    · rw [decide_eq_false h2]; simp

/-- The end of the permutation: `d` with the four bits it has in `c`. -/
def srcD (f g : Nat → Nat) (n : Nat) : Nat := if n < 8 then f (n + 16) else if n < 16 then f n else if n < 24 then f (n - 16) else g (n + 4)

/-- Where the halves of the key are taken from. -/
def fromC1 : Nat → Nat := srcH (srcB 4 0x0f0f0f0f (fromWord 1) (fromWord 0))
def fromD1 : Nat → Nat := srcH (srcA 4 0x0f0f0f0f (fromWord 1) (fromWord 0))
def fromC2 : Nat → Nat := srcB 1 0x55555555 fromD1 fromC1
def fromD2 : Nat → Nat := srcA 1 0x55555555 fromD1 fromC1
def fromC3 : Nat → Nat := srcA 8 0x00ff00ff fromC2 fromD2
def fromD3 : Nat → Nat := srcB 8 0x00ff00ff fromC2 fromD2
def fromC4 : Nat → Nat := srcB 1 0x55555555 fromD3 fromC3
def fromD4 : Nat → Nat := srcA 1 0x55555555 fromD3 fromC3

/-- `d` at the end. -/
def merged (c d : Nat) : Nat := ((d &&& 0x000000ff) <<< 16) ||| (d &&& 0x0000ff00) ||| ((d &&& 0x00ff0000) >>> 16) ||| ((c >>> 4) &&& 0x0f000000)

theorem merged_testBit (c d : Nat) {n : Nat} (hn : n < 28) : (merged c d).testBit n =
    if n < 8 then d.testBit (n + 16) else if n < 16 then d.testBit n else if n < 24 then d.testBit (n - 16) else c.testBit (n + 4) := by
  unfold merged
  simp only [Nat.testBit_and, Nat.testBit_or, Nat.testBit_shiftLeft, Nat.testBit_shiftRight]
  have m1 : ∀ n < 28, 16 ≤ n → (0x000000ff).testBit (n - 16) = decide (n < 24) := by decide
  have m2 : ∀ n < 28, (0x0000ff00).testBit n = decide (8 ≤ n ∧ n < 16) := by decide
  have m3 : ∀ n < 28, (0x00ff0000).testBit (16 + n) = decide (n < 8) := by decide
  have m4 : ∀ n < 28, (0x0f000000).testBit n = decide (24 ≤ n) := by decide
  rw [m2 n hn, m3 n hn, m4 n hn, Nat.add_comm 16 n, Nat.add_comm 4 n]
  by_cases h1 : n < 8
  · rw [if_pos h1]
    simp [show ¬ 16 ≤ n by omega, show ¬ 8 ≤ n by omega, h1, show ¬ 24 ≤ n by omega]
  · rw [if_neg h1]
    by_cases h2 : n < 16
    · rw [if_pos h2]
      simp [show ¬ 16 ≤ n by omega, show 8 ≤ n by omega, h1, h2, show ¬ 24 ≤ n by omega]
    · rw [if_neg h2, m1 n hn (by omega)]
      by_cases h3 : n < 24
      · rw [if_pos h3]
        simp [show 16 ≤ n by omega, h1, h2, h3, show ¬ 24 ≤ n by omega]
      · rw [if_neg h3]
        simp [h1, h2, h3, show 24 ≤ n by omega]

theorem lt_of_testBit {a n : Nat} (h : ∀ i, n ≤ i → a.testBit i = false) : a < 2 ^ n := Nat.lt_pow_two_of_testBit _ h

theorem merged_lt (c d : Nat) : merged c d < 2 ^ 28 := by
  apply lt_of_testBit
  intro i hi
  unfold merged
  simp only [Nat.testBit_and, Nat.testBit_or, Nat.testBit_shiftLeft, Nat.testBit_shiftRight]
  rw [testBit_ge (a := 0xff) (n := 12) (by decide) (by omega), testBit_ge (a := 0xff00) (n := 28) (by decide) (by omega), testBit_ge (a := 0xff0000) (n := 28) (by decide) (by omega),
    testBit_ge (a := 0x0f000000) (n := 28) (by decide) (by omega)]
  simp

/-- `c` and `d` before the end. -/
def permuted (p : Bytes) : Nat × Nat :=
  let c := (word p 0 &&& 0x7f7f7f7f) <<< 1
  let d := (word p 4 &&& 0x7f7f7f7f) <<< 1
  let x := permOp d c 4 0x0f0f0f0f
  let y := permOp (hpermOp x.1) (hpermOp x.2) 1 0x55555555
  let z := permOp y.2 y.1 8 0x00ff00ff
  let w := permOp z.2 z.1 1 0x55555555
  (w.2, w.1)

theorem permuted_from (p : Bytes) : From (keyBit p) (permuted p).1 fromC4 ∧ From (keyBit p) (permuted p).2 fromD4 := by
  obtain ⟨d0, c0⟩ := permOp_from (word_from p 1) (word_from p 0) 4 0x0f0f0f0f
  obtain ⟨d2, c2⟩ := permOp_from (hpermOp_from d0) (hpermOp_from c0) 1 0x55555555
  obtain ⟨c3, d3⟩ := permOp_from c2 d2 8 0x00ff00ff
  obtain ⟨d4, c4⟩ := permOp_from d3 c3 1 0x55555555
  exact ⟨c4, d4⟩

theorem startKey_eq (p : Bytes) : startKey p = ((permuted p).1 &&& 0x0fffffff, merged (permuted p).1 (permuted p).2) := rfl

theorem startKey_bits (p : Bytes) {n : Nat} (hn : n < 28) : (startKey p).1.testBit n = keyBit p (fromC4 n) ∧ (startKey p).2.testBit n = keyBit p (srcD fromD4 fromC4 n) := by
  obtain ⟨hc, hd⟩ := permuted_from p
  rw [startKey_eq]
  constructor
  · show ((permuted p).1 &&& 0x0fffffff).testBit n = _
    have m : ∀ n < 28, Nat.testBit 0x0fffffff n = true := by decide
    rw [Nat.testBit_and, m n hn, Bool.and_true, hc]
  · show (merged (permuted p).1 (permuted p).2).testBit n = _
    rw [merged_testBit _ _ hn]
    unfold srcD
    by_cases h1 : n < 8
    · rw [if_pos h1, if_pos h1, hd]
    · rw [if_neg h1, if_neg h1]
      by_cases h2 : n < 16
      · rw [if_pos h2, if_pos h2, hd]
      · rw [if_neg h2, if_neg h2]
        by_cases h3 : n < 24
        · rw [if_pos h3, if_pos h3, hd]
        · rw [if_neg h3, if_neg h3, hc]

/-- The place in the words of bit `i` of the key. -/
def place (i : Nat) : Nat := 8 * ((i - 1) / 8) + 7 - (i - 1) % 8

theorem key_place (p q : Bytes) (hq : ∀ j < 8, q.getD j 0 = (p ++ List.replicate 8 0).getD j 0) {i : Nat} (h1 : 1 ≤ i) (h2 : i ≤ 64) : keyBit q (place i) = Spec.Crypt.keyOf p i := by
  unfold keyBit Spec.Crypt.keyOf place
  have e1 : (8 * ((i - 1) / 8) + 7 - (i - 1) % 8) / 8 = (i - 1) / 8 := by omega
  have e2 : (8 * ((i - 1) / 8) + 7 - (i - 1) % 8) % 8 = 7 - (i - 1) % 8 := by omega
  rw [e1, e2, hq _ (by omega)]
  by_cases h : (i - 1) % 8 < 7
  · rw [decide_eq_true h, decide_eq_true (by omega), show 7 - (i - 1) % 8 - 1 = 6 - (i - 1) % 8 by omega]
  · rw [decide_eq_false h, decide_eq_false (by omega)]; rfl

theorem start_tables : upTo 28 (fun n => fromC4 n = place (Spec.Crypt.pc1.getD n 0) && srcD fromD4 fromC4 n = place (Spec.Crypt.pc1.getD (28 + n) 0) &&
    (1 ≤ Spec.Crypt.pc1.getD n 0 && Spec.Crypt.pc1.getD n 0 ≤ 64) && (1 ≤ Spec.Crypt.pc1.getD (28 + n) 0 && Spec.Crypt.pc1.getD (28 + n) 0 ≤ 64)) = true := by decide +kernel

/-- A half of 28 bits. -/
def Half (b : Spec.Crypt.Block) (c : Nat) : Prop := c < 2 ^ 28 ∧ ∀ n < 28, c.testBit n = b (n + 1)

theorem startKey_halves (p : Bytes) : Half (Spec.Crypt.left (Spec.Crypt.select Spec.Crypt.pc1 (Spec.Crypt.keyOf p))) (startKey ((p ++ [0, 0, 0, 0, 0, 0, 0, 0]).take 8)).1 ∧
    Half (Spec.Crypt.right 28 (Spec.Crypt.select Spec.Crypt.pc1 (Spec.Crypt.keyOf p))) (startKey ((p ++ [0, 0, 0, 0, 0, 0, 0, 0]).take 8)).2 := by
  have hq : ∀ j < 8, ((p ++ [0, 0, 0, 0, 0, 0, 0, 0]).take 8).getD j 0 = (p ++ List.replicate 8 0).getD j 0 := by
    intro j hj
    rw [List.getD_eq_getElem?_getD, List.getD_eq_getElem?_getD, List.getElem?_take, if_pos hj]
    rfl
  have key : ∀ n < 28, fromC4 n = place (Spec.Crypt.pc1.getD n 0) ∧ srcD fromD4 fromC4 n = place (Spec.Crypt.pc1.getD (28 + n) 0) ∧
      (1 ≤ Spec.Crypt.pc1.getD n 0 ∧ Spec.Crypt.pc1.getD n 0 ≤ 64) ∧ (1 ≤ Spec.Crypt.pc1.getD (28 + n) 0 ∧ Spec.Crypt.pc1.getD (28 + n) 0 ≤ 64) := by
    intro n hn
    have := upTo_spec start_tables hn
    simp only [Bool.and_eq_true, decide_eq_true_eq] at this
    exact ⟨this.1.1.1, this.1.1.2, this.1.2, this.2⟩
  constructor
  · refine ⟨by rw [startKey_eq]; exact Nat.lt_of_le_of_lt Nat.and_le_right (by decide), ?_⟩
    intro n hn
    obtain ⟨h1, -, h2, -⟩ := key n hn
    rw [(startKey_bits _ hn).1, h1, key_place p _ hq h2.1 h2.2]
    rfl
  · refine ⟨by rw [startKey_eq]; exact merged_lt _ _, ?_⟩
    intro n hn
    obtain ⟨-, h1, -, h2⟩ := key n hn
    rw [(startKey_bits _ hn).2, h1, key_place p _ hq h2.1 h2.2]
    rfl

end PG.Proofs.Crypt
