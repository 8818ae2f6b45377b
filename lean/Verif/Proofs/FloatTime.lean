import Verif.Model.FloatTime
/-! Lemmas about the rounding of `Verif.Model.FloatTime`. -/
namespace PG.FloatTime
open PG

theorem pow2_pos (k : Int) : 0 < pow2 k := Rat.zpow_pos (by decide)
theorem pow2_ne (k : Int) : pow2 k ≠ 0 := by have := pow2_pos k; grind
theorem pow2_add (a b : Int) : pow2 (a + b) = pow2 a * pow2 b := Rat.zpow_add (by decide) a b
theorem pow2_succ (a : Int) : pow2 (a + 1) = 2 * pow2 a := by
  rw [pow2_add, show pow2 1 = 2 from by decide +kernel]; grind
theorem pow2_nat (n : Nat) : pow2 (n : Int) = ((2 ^ n : Nat) : Rat) := by
  unfold pow2; rw [Rat.zpow_natCast]; simp [Rat.natCast_pow]

theorem pow2_ge_one (n : Nat) : 1 ≤ pow2 n := by
  rw [pow2_nat]
  have : ((1 : Nat) : Rat) ≤ ((2 ^ n : Nat) : Rat) := Rat.natCast_le_natCast.mpr (Nat.one_le_two_pow)
  exact this

theorem pow2_mono {a b : Int} (h : a ≤ b) : pow2 a ≤ pow2 b := by
  obtain ⟨n, hn⟩ : ∃ n : Nat, b = a + n := ⟨(b - a).toNat, by omega⟩
  rw [hn, pow2_add]
  have h1 := pow2_ge_one n
  have h2 := pow2_pos a
  have := Rat.mul_le_mul_of_nonneg_left h1 (Rat.le_of_lt h2)
  grind

theorem pow2_lt_iff {a b : Int} (h : pow2 a < pow2 b) : a < b := by
  by_cases hc : a < b
  · exact hc
  · have := pow2_mono (show b ≤ a by omega); grind

theorem absR_nonneg (x : Rat) : 0 ≤ absR x := by unfold absR; split <;> grind
theorem absR_le {x y : Rat} : absR x ≤ y ↔ -y ≤ x ∧ x ≤ y := by unfold absR; split <;> grind
theorem absR_lt {x y : Rat} : absR x < y ↔ -y < x ∧ x < y := by unfold absR; split <;> grind

theorem absR_eq (x : Rat) : absR x * (x.den : Rat) = (x.num.natAbs : Rat) := by
  have hd : (x.den : Rat) ≠ 0 := by
    intro h
    have : x.den = 0 := by exact_mod_cast h
    exact x.den_nz this
  have hx : x * (x.den : Rat) = (x.num : Rat) := by
    have := Rat.mkRat_self x
    rw [Rat.mkRat_eq_div] at this
    have h2 := Rat.div_mul_cancel (a := (x.num : Rat)) hd
    rw [this] at h2
    exact h2
  have hn : x < 0 ↔ x.num < 0 := by
    rw [Rat.lt_iff]; simp
  unfold absR
  by_cases h : x < 0
  · rw [if_pos h]
    have hneg := hn.mp h
    have e : (x.num.natAbs : Int) = -x.num := by omega
    have e2 : (x.num.natAbs : Rat) = ((-x.num : Int) : Rat) := by rw [← e]; rfl
    rw [e2]
    have : ((-x.num : Int) : Rat) = -(x.num : Rat) := by simp
    rw [this]; grind
  · rw [if_neg h]
    have hneg : ¬ x.num < 0 := fun q => h (hn.mpr q)
    have e : (x.num.natAbs : Int) = x.num := by omega
    have e2 : (x.num.natAbs : Rat) = ((x.num : Int) : Rat) := by rw [← e]; rfl
    rw [e2]; exact hx

theorem expo_spec (x : Rat) (hx : x ≠ 0) : pow2 (expo x) ≤ absR x ∧ absR x < pow2 (expo x + 1) := by
  have hn : x.num.natAbs ≠ 0 := by
    intro h
    exact hx (Rat.num_eq_zero.mp (by omega))
  have hd := x.den_nz
  have n1 : 2 ^ Nat.log2 x.num.natAbs ≤ x.num.natAbs := Nat.log2_self_le hn
  have n2 : x.num.natAbs < 2 ^ (Nat.log2 x.num.natAbs + 1) := Nat.lt_log2_self
  have d1 : 2 ^ Nat.log2 x.den ≤ x.den := Nat.log2_self_le hd
  have d2 : x.den < 2 ^ (Nat.log2 x.den + 1) := Nat.lt_log2_self
  have n1 : pow2 (Nat.log2 x.num.natAbs) ≤ (x.num.natAbs : Rat) := by rw [pow2_nat]; exact Rat.natCast_le_natCast.mpr n1
  have n2 : (x.num.natAbs : Rat) < pow2 ((Nat.log2 x.num.natAbs : Int) + 1) := by
    have := pow2_nat (Nat.log2 x.num.natAbs + 1)
    rw [show ((Nat.log2 x.num.natAbs : Int) + 1) = ((Nat.log2 x.num.natAbs + 1 : Nat) : Int) by omega, this]
    exact Rat.natCast_lt_natCast.mpr n2
  have d1 : pow2 (Nat.log2 x.den) ≤ (x.den : Rat) := by rw [pow2_nat]; exact Rat.natCast_le_natCast.mpr d1
  have d2 : (x.den : Rat) < pow2 ((Nat.log2 x.den : Int) + 1) := by
    have := pow2_nat (Nat.log2 x.den + 1)
    rw [show ((Nat.log2 x.den : Int) + 1) = ((Nat.log2 x.den + 1 : Nat) : Int) by omega, this]
    exact Rat.natCast_lt_natCast.mpr d2
  have he := absR_eq x
  unfold expo
  generalize (Nat.log2 x.num.natAbs : Int) = a at *
  generalize (Nat.log2 x.den : Int) = b at *
  generalize (x.num.natAbs : Rat) = N at *
  have hdpos : (0 : Rat) < (x.den : Rat) := by have := pow2_pos b; grind
  generalize (x.den : Rat) = D at *
  have hub : absR x < pow2 (a - b + 1) := by
    have e : pow2 (a - b + 1) * pow2 b = pow2 (a + 1) := by rw [← pow2_add]; congr 1; omega
    have h1 := Rat.mul_le_mul_of_nonneg_left d1 (Rat.le_of_lt (pow2_pos (a - b + 1)))
    have : absR x * D < pow2 (a - b + 1) * D := by grind
    exact Rat.lt_of_mul_lt_mul_right this (Rat.le_of_lt hdpos)
  have hlb : pow2 (a - b - 1) ≤ absR x := by
    have e : pow2 (a - b - 1) * pow2 (b + 1) = pow2 a := by rw [← pow2_add]; congr 1; omega
    have h1 := Rat.mul_le_mul_of_nonneg_left (Rat.le_of_lt d2) (Rat.le_of_lt (pow2_pos (a - b - 1)))
    have : pow2 (a - b - 1) * D ≤ absR x * D := by grind
    exact Rat.le_of_mul_le_mul_right this hdpos
  dsimp only
  by_cases hc : absR x < pow2 (a - b)
  · rw [if_pos hc]
    exact ⟨hlb, by rw [show a - b - 1 + 1 = a - b by omega]; exact hc⟩
  · rw [if_neg hc]
    exact ⟨by grind, hub⟩

theorem expo_lt {x : Rat} (hx : x ≠ 0) {m : Int} (h : absR x < pow2 m) : expo x < m := by
  have := (expo_spec x hx).1
  exact pow2_lt_iff (by grind)

theorem halfEven_spec (y : Rat) : (halfEven y : Rat) - y ≤ 1 / 2 ∧ y - (halfEven y : Rat) ≤ 1 / 2 := by
  have h1 := Rat.floor_le y
  have h2 := Rat.lt_floor_add_one y
  have e : ((y.floor + 1 : Int) : Rat) = (y.floor : Rat) + 1 := by simp
  unfold halfEven
  dsimp only
  split
  · grind
  · split
    · grind
    · split <;> grind

theorem halfEven_int (n : Int) : halfEven (n : Rat) = n := by
  unfold halfEven
  dsimp only
  rw [Rat.floor_intCast, if_pos (by grind)]

/-- The rounding error is at most half a unit of the last place. -/
theorem rnd_err (x : Rat) (hx : x ≠ 0) : absR (rnd x - x) ≤ pow2 (place x) / 2 := by
  unfold rnd
  rw [if_neg hx]
  have hp := pow2_pos (place x)
  have hc := Rat.div_mul_cancel (a := x) (pow2_ne (place x))
  have h := halfEven_spec (x / pow2 (place x))
  generalize pow2 (place x) = u at *
  generalize hy : x / u = y at *
  have h1 := Rat.mul_le_mul_of_nonneg_right h.1 (Rat.le_of_lt hp)
  have h2 := Rat.mul_le_mul_of_nonneg_right h.2 (Rat.le_of_lt hp)
  rw [absR_le]
  grind

theorem rnd_bound (x : Rat) (m : Int) (hm : -1021 ≤ m) (h : absR x < pow2 m) : absR (rnd x - x) ≤ pow2 (m - 54) := by
  by_cases hx : x = 0
  · subst hx
    have := pow2_pos (m - 54)
    rw [absR_le]
    have : rnd 0 = 0 := by decide +kernel
    grind
  · have h1 := rnd_err x hx
    have h2 := expo_lt hx h
    have h3 : place x ≤ m - 53 := by unfold place; omega
    have h4 := pow2_mono h3
    have h5 : pow2 (m - 53) = 2 * pow2 (m - 54) := by rw [← pow2_succ]; congr 1; omega
    grind

/-- Integers below 2^53 are doubles. -/
theorem rnd_int (s : Int) (h : -9007199254740992 < s ∧ s < 9007199254740992) : rnd s = s := by
  by_cases hs : s = 0
  · subst hs; decide +kernel
  · have hx : (s : Rat) ≠ 0 := by
      intro hh; exact hs (by exact_mod_cast hh)
    have habs : absR (s : Rat) < pow2 53 := by
      rw [show pow2 53 = ((9007199254740992 : Int) : Rat) from by decide +kernel, absR_lt]
      constructor
      · have : ((-9007199254740992 : Int) : Rat) < (s : Rat) := Rat.intCast_lt_intCast.mpr h.1
        simpa using this
      · exact Rat.intCast_lt_intCast.mpr h.2
    have h2 := expo_lt hx habs
    have h3 : place (s : Rat) ≤ 0 := by unfold place; omega
    unfold rnd
    rw [if_neg hx]
    obtain ⟨n, hn⟩ : ∃ n : Nat, place (s : Rat) = -(n : Int) := ⟨(-place (s : Rat)).toNat, by omega⟩
    rw [hn]
    have e : pow2 (-(n : Int)) * pow2 n = 1 := by rw [← pow2_add, show -(n : Int) + n = 0 by omega]; decide +kernel
    have e2 : (s : Rat) / pow2 (-(n : Int)) = ((s * (2 ^ n : Nat) : Int) : Rat) := by
      have hc := Rat.div_mul_cancel (a := (s : Rat)) (pow2_ne (-(n : Int)))
      rw [Rat.intCast_mul]
      have : (((2 ^ n : Nat) : Int) : Rat) = pow2 n := by rw [pow2_nat]; rfl
      rw [this]
      grind
    rw [e2, halfEven_int, ← e2]
    exact Rat.div_mul_cancel (pow2_ne _)

end PG.FloatTime
