import Verif.Proofs.FloatTime
/-! The error of a number of seconds and microseconds sent as a double and read back. -/
namespace PG.FloatTime
open PG

theorem cast_lt {a b : Int} (h : a < b) : (a : Rat) < (b : Rat) := Rat.intCast_lt_intCast.mpr h
theorem cast_le {a b : Int} (h : a ≤ b) : (a : Rat) ≤ (b : Rat) := Rat.intCast_le_intCast.mpr h
theorem of_cast_lt {a b : Int} (h : (a : Rat) < (b : Rat)) : a < b := Rat.intCast_lt_intCast.mp h
theorem of_cast_le {a b : Int} (h : (a : Rat) ≤ (b : Rat)) : a ≤ b := Rat.intCast_le_intCast.mp h

/-- The fraction of a second that is sent. -/
theorem fraction (us : Int) (h : 0 ≤ us ∧ us < 1000000) :
    ∃ f : Rat, rnd ((us : Rat) / 1000000) = f ∧ -pow2 (-54) ≤ f - (us : Rat) / 1000000 ∧ f - (us : Rat) / 1000000 ≤ pow2 (-54) ∧
      1000000 * ((us : Rat) / 1000000) ≤ 999999 ∧ 0 ≤ (us : Rat) / 1000000 ∧ 1000000 * ((us : Rat) / 1000000) = us := by
  have hz : 1000000 * ((us : Rat) / 1000000) = us := by
    rw [Rat.mul_comm]; exact Rat.div_mul_cancel (by decide)
  have h1 := cast_le h.1
  have h2 := cast_le (show us ≤ 999999 by omega)
  have e0 : ((0 : Int) : Rat) = 0 := rfl
  have e1 : ((999999 : Int) : Rat) = 999999 := rfl
  have hx : absR ((us : Rat) / 1000000) < pow2 0 := by
    rw [show pow2 0 = 1 from by decide +kernel, absR_lt]
    generalize (us : Rat) / 1000000 = z at *
    grind
  have := absR_le.mp (rnd_bound _ 0 (by omega) hx)
  generalize (us : Rat) / 1000000 = z at *
  refine ⟨_, rfl, this.1, this.2, ?_, ?_, hz⟩ <;> grind

/-- `mktime` is off by half a unit in the last place of the sum. -/
theorem mktime_err (s us m : Int) (hm : 1 ≤ m ∧ m ≤ 53) (hs : -pow2 m < (s : Rat) ∧ (s : Rat) + 1 ≤ pow2 m) (hu : 0 ≤ us ∧ us < 1000000) :
    let d := mktime (s, us) - ((s : Rat) + (us : Rat) / 1000000);
    -(pow2 (m - 54) + pow2 (-54)) ≤ d ∧ d ≤ pow2 (m - 54) + pow2 (-54) := by
  obtain ⟨f, hf, f1, f2, f3, f4, f5⟩ := fraction us hu
  have p54 : 18014398509481984 * pow2 (-54) = 1 := by decide +kernel
  have hb : pow2 m ≤ pow2 53 := pow2_mono hm.2
  have e53 : pow2 53 = ((9007199254740992 : Int) : Rat) := by decide +kernel
  have e53' : -pow2 53 = ((-9007199254740992 : Int) : Rat) := by decide +kernel
  have hsi : rnd (s : Rat) = s := by
    apply rnd_int
    constructor
    · apply of_cast_lt; grind
    · apply of_cast_lt; grind
  have hlow : us = 0 → f = 0 := by
    intro h0
    subst h0
    rw [← hf]
    decide +kernel
  have hf0 : 0 ≤ f := by
    by_cases h0 : us = 0
    · have := hlow h0; grind
    · have := cast_le (show 1 ≤ us by omega)
      have e1 : ((1 : Int) : Rat) = 1 := rfl
      generalize (us : Rat) / 1000000 = z at *
      grind
  have hx : absR ((s : Rat) + f) < pow2 m := by
    rw [absR_lt]
    generalize (us : Rat) / 1000000 = z at *
    grind
  have hr := absR_le.mp (rnd_bound _ m (by omega) hx)
  have hmk : mktime (s, us) = rnd ((s : Rat) + f) := by
    unfold mktime; dsimp only; rw [hsi, hf]
  intro d
  show -(pow2 (m - 54) + pow2 (-54)) ≤ mktime (s, us) - ((s : Rat) + (us : Rat) / 1000000) ∧
    mktime (s, us) - ((s : Rat) + (us : Rat) / 1000000) ≤ pow2 (m - 54) + pow2 (-54)
  rw [hmk]
  generalize (us : Rat) / 1000000 = z at *
  grind

/-- `mktimetuple` is off by less than a thousandth of a microsecond before the last `floor`. -/
theorem mktimetuple_err (t : Rat) (ht : -9007199254740991 < t ∧ t < 9007199254740991) :
    ∃ p : Rat, mktimetuple t = (t.floor, p.floor) ∧
      -1 ≤ 1000 * ((t.floor : Rat) * 1000000 + p - 1000000 * t) ∧ 1000 * ((t.floor : Rat) * 1000000 + p - 1000000 * t) ≤ 1 := by
  have h1 := Rat.floor_le t
  have h2 := Rat.lt_floor_add_one t
  have e : ((t.floor + 1 : Int) : Rat) = (t.floor : Rat) + 1 := by simp
  have hq : rnd (t.floor : Rat) = t.floor := by
    apply rnd_int
    have c1 : ((-9007199254740992 : Int) : Rat) = -9007199254740992 := rfl
    have c2 : ((9007199254740992 : Int) : Rat) = 9007199254740992 := rfl
    exact ⟨of_cast_lt (by grind), of_cast_lt (by grind)⟩
  have hx : absR (t - (t.floor : Rat)) < pow2 0 := by
    rw [show pow2 0 = 1 from by decide +kernel, absR_lt]; grind
  have hr := absR_le.mp (rnd_bound _ 0 (by omega) hx)
  generalize hr' : rnd (t - (t.floor : Rat)) = r at *
  have p54 : 18014398509481984 * pow2 (0 - 54) = 1 := by decide +kernel
  have p20 : pow2 20 = 1048576 := by decide +kernel
  have p34 : 17179869184 * pow2 (20 - 54) = 1 := by decide +kernel
  have hy : absR (1000000 * r) < pow2 20 := by rw [absR_lt]; grind
  have hp := absR_le.mp (rnd_bound _ 20 (by omega) hy)
  refine ⟨rnd (1000000 * r), ?_, ?_, ?_⟩
  · unfold mktimetuple; dsimp only; rw [hq, hr']
  · grind
  · grind

/-- The whole way: the microseconds read back are at most `k` after and `k + 1` before those sent. -/
theorem round_err (s us m : Int) (hm : 1 ≤ m ∧ m ≤ 52) (hs : -pow2 m < (s : Rat) ∧ (s : Rat) + 1 ≤ pow2 m) (hu : 0 ≤ us ∧ us < 1000000)
    (k : Int) (hk : 500 * (1000000 * pow2 (m - 54)) + 1 ≤ 500 * ((k : Rat) + 1)) :
    let r := mktimetuple (mktime (s, us));
    -(k + 2) < r.1 * 1000000 + r.2 - (s * 1000000 + us) ∧ r.1 * 1000000 + r.2 - (s * 1000000 + us) < k + 1 := by
  have h1 := mktime_err s us m (by omega) hs hu
  dsimp only at h1
  have p54 : 18014398509481984 * pow2 (-54) = 1 := by decide +kernel
  have hb : pow2 m ≤ pow2 52 := pow2_mono hm.2
  have hb2 : pow2 (m - 54) ≤ pow2 (-2) := pow2_mono (by omega)
  have e52 : pow2 52 = 4503599627370496 := by decide +kernel
  have e2 : 4 * pow2 (-2) = 1 := by decide +kernel
  have u1 := cast_le hu.1
  have u2 := cast_le (show us ≤ 999999 by omega)
  have c0 : ((0 : Int) : Rat) = 0 := rfl
  have c1 : ((999999 : Int) : Rat) = 999999 := rfl
  generalize ht : mktime (s, us) = t at *
  have hz : 1000000 * ((us : Rat) / 1000000) = us := by
    rw [Rat.mul_comm]; exact Rat.div_mul_cancel (by decide)
  generalize (us : Rat) / 1000000 = z at *
  obtain ⟨p, e, hp⟩ := mktimetuple_err t (by constructor <;> grind)
  intro r
  have hr1 : r.1 = t.floor := by show (mktimetuple t).1 = _; rw [e]
  have hr2 : r.2 = p.floor := by show (mktimetuple t).2 = _; rw [e]
  rw [hr1, hr2]
  have f1 := Rat.floor_le p
  have f2 := Rat.lt_floor_add_one p
  have fe : ((p.floor + 1 : Int) : Rat) = (p.floor : Rat) + 1 := by simp
  have ce : ((t.floor * 1000000 + p.floor - (s * 1000000 + us) : Int) : Rat) =
      (t.floor : Rat) * 1000000 + (p.floor : Rat) - ((s : Rat) * 1000000 + (us : Rat)) := by simp
  have ck : ((k + 1 : Int) : Rat) = (k : Rat) + 1 := by simp
  have ck2 : ((-(k + 2) : Int) : Rat) = -((k : Rat) + 2) := by simp
  constructor
  · apply of_cast_lt; grind
  · apply of_cast_lt; grind

/-- Within 272 years the seconds come back, and the microseconds or one less. -/
theorem pair_round (s us : Int) (hs : -8589934592 < s ∧ s < 8589934592) (hu : 0 ≤ us ∧ us < 1000000) :
    mktimetuple (mktime (s, us)) = (s, us) ∨ (0 < us ∧ mktimetuple (mktime (s, us)) = (s, us - 1)) := by
  have s1 := cast_lt hs.1
  have s2 := cast_le (show s ≤ 8589934591 by omega)
  have d1 : ((-8589934592 : Int) : Rat) = -8589934592 := rfl
  have d2 : ((8589934591 : Int) : Rat) = 8589934591 := rfl
  have e33 : pow2 33 = 8589934592 := by decide +kernel
  have e21 : 2097152 * pow2 (33 - 54) = 1 := by decide +kernel
  have hs' : -pow2 33 < (s : Rat) ∧ (s : Rat) + 1 ≤ pow2 33 := by grind
  by_cases h0 : us = 0
  · subst h0
    left
    have hr : rnd (s : Rat) = s := rnd_int s (by omega)
    have hm : mktime (s, 0) = s := by
      unfold mktime; dsimp only
      rw [hr, show rnd (((0 : Int) : Rat) / 1000000) = 0 from by decide +kernel, Rat.add_zero, hr]
    rw [hm]
    unfold mktimetuple
    dsimp only
    rw [Rat.floor_intCast, hr, show (s : Rat) - (s : Rat) = 0 by grind]
    have : (rnd (1000000 * rnd 0)).floor = 0 := by decide +kernel
    rw [this]
  · have ht := round_err s us 33 (by omega) hs' hu 0 (by
      have c : ((0 : Int) : Rat) = 0 := rfl
      grind)
    have h1 := mktime_err s us 33 (by omega) hs' hu
    dsimp only at h1 ht
    have p54 : 18014398509481984 * pow2 (-54) = 1 := by decide +kernel
    have u1 := cast_le (show 1 ≤ us by omega)
    have u2 := cast_le (show us ≤ 999999 by omega)
    have c0 : ((1 : Int) : Rat) = 1 := rfl
    have c1 : ((999999 : Int) : Rat) = 999999 := rfl
    have hz : 1000000 * ((us : Rat) / 1000000) = us := by
      rw [Rat.mul_comm]; exact Rat.div_mul_cancel (by decide)
    generalize (us : Rat) / 1000000 = z at *
    have hq : (mktime (s, us)).floor = s := by
      have a1 : s ≤ (mktime (s, us)).floor := Rat.le_floor_iff.mpr (by grind)
      have a2 : (mktime (s, us)).floor < s + 1 := Rat.floor_lt_iff.mpr (by
        have : ((s + 1 : Int) : Rat) = (s : Rat) + 1 := by simp
        grind)
      omega
    have hfst : (mktimetuple (mktime (s, us))).1 = s := hq
    rw [hfst] at ht
    generalize hz : mktimetuple (mktime (s, us)) = z at *
    obtain ⟨z1, z2⟩ := z
    dsimp only at hfst ht
    subst hfst
    by_cases hh : z2 = us
    · left; rw [hh]
    · right; refine ⟨by omega, ?_⟩; congr 1; omega

/-- For every datetime, and every number of seconds below 2^38: at most 16 microseconds away. -/
theorem pair_near (s us : Int) (hs : -274877906944 < s ∧ s < 274877906944) (hu : 0 ≤ us ∧ us < 1000000) :
    let r := mktimetuple (mktime (s, us));
    -16 ≤ r.1 * 1000000 + r.2 - (s * 1000000 + us) ∧ r.1 * 1000000 + r.2 - (s * 1000000 + us) ≤ 15 := by
  have s1 := cast_lt hs.1
  have s2 := cast_le (show s ≤ 274877906943 by omega)
  have d1 : ((-274877906944 : Int) : Rat) = -274877906944 := rfl
  have d2 : ((274877906943 : Int) : Rat) = 274877906943 := rfl
  have e38 : pow2 38 = 274877906944 := by decide +kernel
  have e16 : 65536 * pow2 (38 - 54) = 1 := by decide +kernel
  have hs' : -pow2 38 < (s : Rat) ∧ (s : Rat) + 1 ≤ pow2 38 := by grind
  have ht := round_err s us 38 (by omega) hs' hu 15 (by
      have c : ((15 : Int) : Rat) = 15 := rfl
      grind)
  dsimp only at ht ⊢
  omega

/-! ## `rnd` is the IEEE rounding -/

/-- A finite binary64, but for the largest exponent: at most 53 binary digits, the last one not below 2^-1074. -/
def IsDouble (d : Rat) : Prop := ∃ n k : Int, (-9007199254740992 < n ∧ n < 9007199254740992) ∧ -1074 ≤ k ∧ d = (n : Rat) * pow2 k

theorem pow2_53 (k : Int) : ((9007199254740992 : Int) : Rat) * pow2 k = pow2 (k + 53) := by
  rw [show k + 53 = 53 + k by omega, pow2_add, show pow2 53 = ((9007199254740992 : Int) : Rat) from by decide +kernel]

theorem isDouble_zero : IsDouble 0 := ⟨0, 0, by decide, by decide, by decide +kernel⟩

/-- A number of at most 2^53 units is a double. -/
theorem isDouble_units (n k : Int) (hn : -9007199254740992 ≤ n ∧ n ≤ 9007199254740992) (hk : -1074 ≤ k) : IsDouble ((n : Rat) * pow2 k) := by
  by_cases h1 : n = 9007199254740992
  · refine ⟨1, k + 53, by omega, by omega, ?_⟩
    subst h1; rw [pow2_53]; grind
  · by_cases h2 : n = -9007199254740992
    · refine ⟨-1, k + 53, by omega, by omega, ?_⟩
      subst h2
      rw [← pow2_53]
      have c1 : ((-9007199254740992 : Int) : Rat) = -9007199254740992 := rfl
      have c2 : ((9007199254740992 : Int) : Rat) = 9007199254740992 := rfl
      have c3 : ((-1 : Int) : Rat) = -1 := rfl
      grind
    · exact ⟨n, k, by omega, hk, rfl⟩

theorem scaled_bound (x : Rat) (hx : x ≠ 0) : absR x < 9007199254740992 * pow2 (place x) := by
  have h := (expo_spec x hx).2
  have h2 : pow2 (expo x + 1) ≤ pow2 (place x + 53) := pow2_mono (by unfold place; omega)
  rw [← pow2_53] at h2
  have c2 : ((9007199254740992 : Int) : Rat) = 9007199254740992 := rfl
  grind

theorem halfEven_mono_bound (y : Rat) (b : Int) (h : y ≤ b) : halfEven y ≤ b := by
  have h1 := (halfEven_spec y).1
  have : (halfEven y : Rat) < ((b + 1 : Int) : Rat) := by
    have e : ((b + 1 : Int) : Rat) = (b : Rat) + 1 := by simp
    grind
  have := of_cast_lt this
  omega

theorem halfEven_mono_bound' (y : Rat) (b : Int) (h : (b : Rat) ≤ y) : b ≤ halfEven y := by
  have h1 := (halfEven_spec y).2
  have : ((b - 1 : Int) : Rat) < (halfEven y : Rat) := by
    have e : ((b - 1 : Int) : Rat) = (b : Rat) - 1 := by simp
    grind
  have := of_cast_lt this
  omega

theorem rnd_isDouble (x : Rat) : IsDouble (rnd x) := by
  by_cases hx : x = 0
  · subst hx; exact isDouble_zero
  · unfold rnd
    rw [if_neg hx]
    apply isDouble_units _ _ ?_ (by unfold place; omega)
    have h := scaled_bound x hx
    have hp := pow2_pos (place x)
    have hc := Rat.div_mul_cancel (a := x) (pow2_ne (place x))
    generalize x / pow2 (place x) = y at *
    rw [← hc, absR_lt] at h
    constructor
    · apply halfEven_mono_bound'
      have : ((-9007199254740992 : Int) : Rat) = -9007199254740992 := rfl
      rw [this]
      exact Rat.le_of_mul_le_mul_right (c := pow2 (place x)) (by grind) hp
    · apply halfEven_mono_bound
      have : ((9007199254740992 : Int) : Rat) = 9007199254740992 := rfl
      rw [this]
      exact Rat.le_of_mul_le_mul_right (c := pow2 (place x)) (by grind) hp

/-- No integer is nearer. -/
theorem halfEven_nearest (y : Rat) (n : Int) : absR ((halfEven y : Rat) - y) ≤ absR ((n : Rat) - y) := by
  have h := halfEven_spec y
  by_cases e : n = halfEven y
  · subst e; exact Rat.le_refl
  · have : 1 / 2 ≤ absR ((n : Rat) - y) := by
      by_cases hl : n < halfEven y
      · have := cast_le (show n + 1 ≤ halfEven y by omega)
        have e : ((n + 1 : Int) : Rat) = (n : Rat) + 1 := by simp
        unfold absR; split <;> grind
      · have := cast_le (show halfEven y + 1 ≤ n by omega)
        have e : ((halfEven y + 1 : Int) : Rat) = (halfEven y : Rat) + 1 := by simp
        unfold absR; split <;> grind
    have : absR ((halfEven y : Rat) - y) ≤ 1 / 2 := by rw [absR_le]; grind
    grind

theorem absR_mul (a u : Rat) (hu : 0 < u) : absR (a * u) = absR a * u := by
  unfold absR
  by_cases h : a < 0
  · have : a * u < 0 := (Rat.mul_neg_iff_of_pos_right hu).mpr h
    rw [if_pos h, if_pos this]; grind
  · have : ¬ a * u < 0 := fun q => h ((Rat.mul_neg_iff_of_pos_right hu).mp q)
    rw [if_neg h, if_neg this]

/-- No multiple of the last place is nearer. -/
theorem rnd_nearest_multiple (x : Rat) (hx : x ≠ 0) (n : Int) : absR (rnd x - x) ≤ absR ((n : Rat) * pow2 (place x) - x) := by
  unfold rnd
  rw [if_neg hx]
  have hp := pow2_pos (place x)
  have hc := Rat.div_mul_cancel (a := x) (pow2_ne (place x))
  generalize x / pow2 (place x) = y at *
  generalize pow2 (place x) = u at *
  have h := halfEven_nearest y n
  have e1 : (halfEven y : Rat) * u - x = ((halfEven y : Rat) - y) * u := by rw [← hc]; grind
  have e2 : (n : Rat) * u - x = ((n : Rat) - y) * u := by rw [← hc]; grind
  rw [e1, e2, absR_mul _ _ hp, absR_mul _ _ hp]
  exact Rat.mul_le_mul_of_nonneg_right h (Rat.le_of_lt hp)

/-- `rnd` gives a nearest double. -/
theorem rnd_nearest (x d : Rat) (hd : IsDouble d) : absR (rnd x - x) ≤ absR (d - x) := by
  by_cases hx : x = 0
  · subst hx
    have : rnd 0 = 0 := by decide +kernel
    rw [this, show absR (0 - 0) = 0 from by decide +kernel]
    exact absR_nonneg _
  · obtain ⟨n, k, hn, hk, rfl⟩ := hd
    by_cases hkp : place x ≤ k
    · obtain ⟨j, hj⟩ : ∃ j : Nat, k = j + place x := ⟨(k - place x).toNat, by omega⟩
      have e : (n : Rat) * pow2 k = ((n * (2 ^ j : Nat) : Int) : Rat) * pow2 (place x) := by
        rw [hj, pow2_add, Rat.intCast_mul]
        have : (((2 ^ j : Nat) : Int) : Rat) = pow2 j := by rw [pow2_nat]; rfl
        rw [this]; grind
      rw [e]
      exact rnd_nearest_multiple x hx _
    · have hpl : place x = expo x - 52 := by unfold place at *; omega
      have hlow := (expo_spec x hx).1
      have hd : absR ((n : Rat) * pow2 k) < pow2 (expo x) := by
        have h1 : pow2 (k + 53) ≤ pow2 (expo x) := pow2_mono (by omega)
        rw [← pow2_53] at h1
        have hp := pow2_pos k
        have c1 := (Rat.mul_lt_mul_right hp).mpr (cast_lt hn.1)
        have c2 := (Rat.mul_lt_mul_right hp).mpr (cast_lt hn.2)
        have e1 : ((-9007199254740992 : Int) : Rat) = -9007199254740992 := rfl
        have e2 : ((9007199254740992 : Int) : Rat) = 9007199254740992 := rfl
        rw [absR_lt]; grind
      have e52 : ((4503599627370496 : Int) : Rat) * pow2 (place x) = pow2 (expo x) := by
        rw [show ((4503599627370496 : Int) : Rat) = pow2 52 from by decide +kernel, ← pow2_add]; congr 1; omega
      have e52' : ((-4503599627370496 : Int) : Rat) * pow2 (place x) = -pow2 (expo x) := by
        rw [← e52]
        have e1 : ((-4503599627370496 : Int) : Rat) = -4503599627370496 := rfl
        have e2 : ((4503599627370496 : Int) : Rat) = 4503599627370496 := rfl
        grind
      have hd' := absR_lt.mp hd
      have hpe := pow2_pos (expo x)
      by_cases hs : x < 0
      · have := rnd_nearest_multiple x hx (-4503599627370496)
        rw [e52'] at this
        have hx2 : pow2 (expo x) ≤ -x := by unfold absR at hlow; rw [if_pos hs] at hlow; exact hlow
        generalize absR (rnd x - x) = A at *
        generalize (n : Rat) * pow2 k = D at *
        unfold absR at this ⊢
        split at this <;> split <;> grind
      · have := rnd_nearest_multiple x hx 4503599627370496
        rw [e52] at this
        have hx2 : pow2 (expo x) ≤ x := by unfold absR at hlow; rw [if_neg hs] at hlow; exact hlow
        generalize absR (rnd x - x) = A at *
        generalize (n : Rat) * pow2 k = D at *
        unfold absR at this ⊢
        split at this <;> split <;> grind

end PG.FloatTime
