import Verif.Model.Py
/-! Lemmas about the Python fragments. -/
namespace PG

@[simp] theorem length_slice {α} (b : List α) (i j : Nat) : (slice b i j).length = min (j - i) (b.length - i) := by
  simp [slice]

@[simp] theorem length_beEnc (k n : Nat) : (beEnc k n).length = k := by
  induction k generalizing n with
  | zero => rfl
  | succ k ih => simp [beEnc, ih]

theorem beDec_foldl (b : Bytes) (a : Nat) :
    b.foldl (fun a x => a * 256 + x.toNat) a = a * 256 ^ b.length + beDec b := by
  induction b generalizing a with
  | nil => simp [beDec]
  | cons x b ih =>
    simp only [List.foldl_cons, List.length_cons, beDec]
    rw [ih, ih (0 * 256 + x.toNat)]
    simp only [Nat.pow_succ, Nat.add_mul]
    have : a * 256 * 256 ^ b.length = a * (256 ^ b.length * 256) := by
      rw [Nat.mul_assoc, Nat.mul_comm 256]
    omega

theorem beDec_append (a b : Bytes) : beDec (a ++ b) = beDec a * 256 ^ b.length + beDec b := by
  rw [beDec, List.foldl_append, beDec_foldl]; rfl

@[simp] theorem beDec_nil : beDec [] = 0 := rfl

theorem beDec_cons (x : UInt8) (b : Bytes) : beDec (x :: b) = x.toNat * 256 ^ b.length + beDec b := by
  have := beDec_append [x] b
  simpa [beDec] using this

theorem beDec_lt (b : Bytes) : beDec b < 256 ^ b.length := by
  induction b with
  | nil => simp [beDec]
  | cons x b ih =>
    rw [beDec_cons, List.length_cons, Nat.pow_succ]
    have hx : x.toNat < 256 := x.toNat_lt
    have : (x.toNat + 1) * 256 ^ b.length ≤ 256 * 256 ^ b.length := Nat.mul_le_mul_right _ hx
    rw [Nat.add_mul] at this
    omega

theorem beDec_beEnc (k n : Nat) : beDec (beEnc k n) = n % 256 ^ k := by
  induction k generalizing n with
  | zero => simp [beEnc, Nat.mod_one]
  | succ k ih =>
    rw [beEnc, beDec_append, ih]
    have h1 : beDec [UInt8.ofNat n] = n % 256 := by simp [beDec]
    rw [h1]
    simp only [List.length_singleton, Nat.pow_one]
    rw [Nat.pow_succ, Nat.mul_comm (256 ^ k) 256, Nat.mod_mul]
    omega

theorem beDec_beEnc_of_lt {k n : Nat} (h : n < 256 ^ k) : beDec (beEnc k n) = n := by
  rw [beDec_beEnc, Nat.mod_eq_of_lt h]

theorem beEnc_inj {k a b : Nat} (ha : a < 256 ^ k) (hb : b < 256 ^ k) (h : beEnc k a = beEnc k b) : a = b := by
  have := congrArg beDec h
  rwa [beDec_beEnc_of_lt ha, beDec_beEnc_of_lt hb] at this

theorem beEnc_beDec (b : Bytes) : beEnc b.length (beDec b) = b := by
  induction h : b.length generalizing b with
  | zero => simp at h; subst h; rfl
  | succ n ih =>
    have hne : b ≠ [] := by intro h'; simp [h'] at h
    obtain ⟨l, x, rfl⟩ : ∃ l x, b = l ++ [x] := ⟨b.dropLast, b.getLast hne, (List.dropLast_concat_getLast hne).symm⟩
    simp at h
    rw [beEnc, beDec_append]
    have hx : beDec [x] = x.toNat := by simp [beDec]
    have hlt : x.toNat < 256 := x.toNat_lt
    rw [hx]
    have h1 : (beDec l * 256 ^ [x].length + x.toNat) / 256 = beDec l := by simp; omega
    have h2 : UInt8.ofNat (beDec l * 256 ^ [x].length + x.toNat) = x := by
      apply UInt8.toNat_inj.mp
      simp
    rw [h1, h2, ih l h]

@[simp] theorem slice_zero {α} (b : List α) (j : Nat) : slice b 0 j = b.take j := by simp [slice]

theorem slice_append_right {α} (a b : List α) (i j : Nat) (h : i = a.length) :
    slice (a ++ b) i j = b.take (j - i) := by subst h; simp [slice]

theorem packU_ok {k : Nat} {n : Int} (h0 : 0 ≤ n) (h1 : n < 256 ^ k) : packU k n = .ok (beEnc k n.toNat) := by
  simp [packU, h0, h1]

theorem cast_pow256 (k : Nat) : ((256 ^ k : Nat) : Int) = (256 : Int) ^ k := by
  rw [Int.natCast_pow]; rfl

theorem packU_nat {k n : Nat} (h1 : n < 256 ^ k) : packU k n = .ok (beEnc k n) := by
  have h2 : (n : Int) < 256 ^ k := by rw [← cast_pow256]; exact Int.ofNat_lt.mpr h1
  simp [packU, h2]

theorem unpackU_beEnc {k n : Nat} (h : n < 256 ^ k) : unpackU k (beEnc k n) = .ok n := by
  simp [unpackU, beDec_beEnc_of_lt h]

theorem unpackU_of_packU {k : Nat} {n : Int} {b : Bytes} (h : packU k n = .ok b) :
    unpackU k b = .ok n.toNat ∧ 0 ≤ n := by
  unfold packU at h
  split at h
  · rename_i hc
    cases h
    have : n.toNat < 256 ^ k := by
      have := hc.2
      have h3 : ((n.toNat : Nat) : Int) = n := Int.toNat_of_nonneg hc.1
      rw [← h3, ← cast_pow256] at this
      exact Int.ofNat_lt.mp this
    exact ⟨unpackU_beEnc this, hc.1⟩
  · cases h

theorem toSigned_mod {k : Nat} {n : Int} (h : -(256 ^ k : Int) ≤ 2 * n ∧ 2 * n < 256 ^ k) :
    toSigned k (n % (256 ^ k : Int)).toNat = n := by
  have hp : (0 : Int) < 256 ^ k := Int.pow_pos (by decide)
  have hcast : ((256 ^ k : Nat) : Int) = (256 : Int) ^ k := cast_pow256 k
  generalize hM : (256 : Int) ^ k = M at *
  unfold toSigned
  by_cases hn : 0 ≤ n
  · have hmod : n % M = n := Int.emod_eq_of_lt hn (by omega)
    rw [hmod]
    have h3 : ((n.toNat : Nat) : Int) = n := Int.toNat_of_nonneg hn
    rw [if_pos]
    · exact h3
    · have : ((2 * n.toNat : Nat) : Int) < ((256 ^ k : Nat) : Int) := by rw [hcast]; omega
      exact Int.ofNat_lt.mp this
  · have hmod : n % M = n + M := by
      rw [← Int.add_emod_right]
      exact Int.emod_eq_of_lt (by omega) (by omega)
    rw [hmod]
    have h3 : (((n + M).toNat : Nat) : Int) = n + M := Int.toNat_of_nonneg (by omega)
    rw [if_neg]
    · rw [h3, hcast]; omega
    · intro hc
      have : ((2 * (n + M).toNat : Nat) : Int) < ((256 ^ k : Nat) : Int) := Int.ofNat_lt.mpr hc
      rw [hcast] at this
      omega

theorem unpackS_of_packS {k : Nat} {n : Int} {b : Bytes} (h : packS k n = .ok b) : unpackS k b = .ok n := by
  unfold packS at h
  split at h
  · rename_i hc
    cases h
    have hp : (0 : Int) < 256 ^ k := Int.pow_pos (by decide)
    have h0 : 0 ≤ n % (256 ^ k : Int) := Int.emod_nonneg _ (by omega)
    have h1 : (n % (256 ^ k : Int)).toNat < 256 ^ k := by
      have h2 : n % (256 ^ k : Int) < 256 ^ k := Int.emod_lt_of_pos _ hp
      have h3 : (((n % (256 ^ k : Int)).toNat : Nat) : Int) = n % (256 ^ k : Int) := Int.toNat_of_nonneg h0
      rw [← h3, ← cast_pow256] at h2
      exact Int.ofNat_lt.mp h2
    simp [unpackS, beDec_beEnc_of_lt h1, toSigned_mod hc]
  · cases h

theorem length_packU {k n b} (h : packU k n = .ok b) : b.length = k := by
  unfold packU at h; split at h
  · cases h; simp
  · cases h

theorem length_packS {k n b} (h : packS k n = .ok b) : b.length = k := by
  unfold packS at h; split at h
  · cases h; simp
  · cases h

end PG
