import Verif.Spec.Types
import Verif.Proofs.WireFormat
namespace PG.TypesLib
open PG PG.Spec PG.Spec.Format PG.Spec.Types PG.Element3

theorem length_digits (k : Nat) (n : Int) : (digits k n).length = k := by simp [digits]

theorem packU_iff {k : Nat} {n : Int} {b : Bytes} : packU k n = .ok b ↔ InU k n ∧ b = digits k n := by
  constructor
  · intro h
    have hu : InU k n := by
      unfold InU
      unfold packU at h
      split at h
      · assumption
      · cases h
    rw [packU_digits hu] at h
    exact ⟨hu, (Except.ok.inj h).symm⟩
  · rintro ⟨h, rfl⟩; exact packU_digits h

theorem packS_iff {k : Nat} {n : Int} {b : Bytes} : packS k n = .ok b ↔ InS k n ∧ b = digits k n := by
  constructor
  · intro h
    have hu : InS k n := by
      unfold InS
      unfold packS at h
      split at h
      · assumption
      · cases h
    rw [packS_digits hu] at h
    exact ⟨hu, (Except.ok.inj h).symm⟩
  · rintro ⟨h, rfl⟩; exact packS_digits h

theorem packS_error {k : Nat} {n : Int} (h : ¬ InS k n) : packS k n = .error .structError := by
  unfold InS at h
  rw [packS, if_neg h]

theorem packU_error {k : Nat} {n : Int} (h : ¬ InU k n) : packU k n = .error .structError := by
  unfold InU at h
  rw [packU, if_neg h]

theorem inU_beDec (b : Bytes) : InU b.length (beDec b) := inU_of_nat (beDec_lt b)

theorem inS_toSigned (b : Bytes) : InS b.length (toSigned b.length (beDec b)) := by
  have h := beDec_lt b
  unfold InS toSigned
  rw [← cast_pow256]
  generalize 256 ^ b.length = M at *
  split <;> omega

theorem digits_beDec (b : Bytes) : digits b.length (beDec b) = b := by
  rw [digits_eq, ← cast_pow256, ← Int.natCast_emod, Int.toNat_natCast, Nat.mod_eq_of_lt (beDec_lt b), beEnc_beDec]

theorem digits_toSigned (b : Bytes) : digits b.length (toSigned b.length (beDec b)) = b := by
  have h := beDec_lt b
  rw [digits_eq, ← cast_pow256]
  have : toSigned b.length (beDec b) % ((256 ^ b.length : Nat) : Int) = (beDec b : Int) := by
    unfold toSigned
    split
    · exact Int.emod_eq_of_lt (by omega) (by omega)
    · rw [Int.sub_emod_right]
      exact Int.emod_eq_of_lt (by omega) (by omega)
  rw [this, Int.toNat_natCast, beEnc_beDec]

theorem unpackFromU_iff {k : Nat} {n : Int} {b : Bytes} (hb : b.length ≤ k) :
    unpackFromU k b = .ok n ↔ b = digits k n ∧ InU k n := by
  constructor
  · intro h
    unfold unpackFromU at h
    split at h
    · cases h
    · have hk : b.length = k := by omega
      subst hk
      rw [List.take_length] at h
      rw [← Except.ok.inj h]
      exact ⟨(digits_beDec b).symm, inU_beDec b⟩
  · rintro ⟨rfl, h⟩
    exact unpackFromU_packU (packU_digits h)

theorem unpackFromS_iff {k : Nat} {n : Int} {b : Bytes} (hb : b.length ≤ k) :
    unpackFromS k b = .ok n ↔ b = digits k n ∧ InS k n := by
  constructor
  · intro h
    unfold unpackFromS at h
    split at h
    · cases h
    · have hk : b.length = k := by omega
      subst hk
      rw [List.take_length] at h
      rw [← Except.ok.inj h]
      exact ⟨(digits_toSigned b).symm, inS_toSigned b⟩
  · rintro ⟨rfl, h⟩
    exact unpackFromS_packS (packS_digits h)

theorem unpackFromS_digits {k : Nat} {n : Int} (h : InS k n) (r : Bytes) : unpackFromS k (digits k n ++ r) = .ok n :=
  unpackFromS_append (packS_digits h) r
theorem unpackFromU_digits {k : Nat} {n : Int} (h : InU k n) (r : Bytes) : unpackFromU k (digits k n ++ r) = .ok n :=
  unpackFromU_append (packU_digits h) r

/-! ### Doubles -/

theorem length_dblEnc (d : Dbl) : (dblEnc d).length = 8 := by simp [dblEnc]

theorem dblDec_enc (d : Dbl) (r : Bytes) : dblDec (dblEnc d ++ r) = d := by
  unfold dblDec
  rw [List.take_left' (length_dblEnc d), dblEnc, beDec_beEnc_of_lt (Nat.lt_of_lt_of_le d.toNat_lt (by decide))]
  simp

theorem dblsDec_pack (l : List Dbl) (r : Bytes) : dblsDec l.length (dblsPack l ++ r) = l := by
  induction l with
  | nil => rfl
  | cons a l ih =>
    simp only [dblsPack, List.flatMap_cons, List.length_cons, dblsDec, List.append_assoc]
    rw [dblDec_enc, List.drop_left' (length_dblEnc a)]
    exact congrArg _ ih

theorem length_dblsPack (l : List Dbl) : (dblsPack l).length = 8 * l.length := by
  induction l with
  | nil => rfl
  | cons a l ih =>
    simp only [dblsPack, List.flatMap_cons, List.length_append, length_dblEnc, List.length_cons] at *
    omega

theorem dblsUnpack_pack (l : List Dbl) : dblsUnpack l.length (dblsPack l) = .ok l := by
  unfold dblsUnpack
  rw [if_neg (by rw [length_dblsPack]; omega)]
  have := dblsDec_pack l []
  rw [List.append_nil] at this
  rw [this]

/-! ### Network -/

theorem bytesOf_ok (l : List Nat) (h : ∀ x ∈ l, x < 256) : bytesOf (l.map (Int.ofNat ·)) = .ok (l.map UInt8.ofNat) := by
  induction l with
  | nil => rfl
  | cons a l ih =>
    have ha := h a (by simp)
    have : ¬ (Int.ofNat a < 0 ∨ 256 ≤ Int.ofNat a) := by simp only [Int.ofNat_eq_natCast]; omega
    simp only [List.map_cons, bytesOf, if_neg this, ih fun x hx => h x (by simp [hx]), bind_ok, pure_ok]
    simp

theorem packed_length (a : IPAddress) : a.packed.length = bitsOf a.version / 8 := by simp [IPAddress.packed]

theorem ipAddress_packed (a : IPAddress) (h : AddressOk a) : ipAddress a.packed = .ok a := by
  obtain ⟨v, n⟩ := a
  rcases h with ⟨h1, h2⟩ | ⟨h1, h2⟩
  · simp only at h1 h2; subst h1
    have hb : beDec (beEnc 4 n) = n := beDec_beEnc_of_lt (Nat.lt_of_lt_of_le h2 (by decide))
    simp [ipAddress, IPAddress.packed, bitsOf, hb]
  · simp only at h1 h2; subst h1
    have hb : beDec (beEnc 16 n) = n := beDec_beEnc_of_lt (Nat.lt_of_lt_of_le h2 (by decide))
    simp [ipAddress, IPAddress.packed, bitsOf, hb]

/-! ### MAC -/

theorem isHex_spec {c : Char} {n : Nat} (h : IsHex c n) : hexVal c = some n ∧ isSpace c = false ∧ c ≠ '-' ∧ c ≠ '+' ∧
    c ≠ '_' ∧ c ≠ 'x' ∧ c ≠ 'X' ∧ c ≠ ':' ∧ c ≠ '.' := by
  obtain ⟨hn, h⟩ := h
  have : n = 0 ∨ n = 1 ∨ n = 2 ∨ n = 3 ∨ n = 4 ∨ n = 5 ∨ n = 6 ∨ n = 7 ∨ n = 8 ∨ n = 9 ∨ n = 10 ∨ n = 11 ∨ n = 12 ∨ n = 13 ∨
    n = 14 ∨ n = 15 := by omega
  rcases this with rfl | rfl | rfl | rfl | rfl | rfl | rfl | rfl | rfl | rfl | rfl | rfl | rfl | rfl | rfl | rfl <;>
    rcases h with h | h <;> rw [h] <;> decide

theorem strip_two {x y : Char} (hx : isSpace x = false) (hy : isSpace y = false) : strip [x, y] = [x, y] := by
  simp [strip, hx, hy]

theorem hexUnsigned_two {x y : Char} {a b : Nat} (hx : IsHex x a) (hy : IsHex y b) :
    hexUnsigned [x, y] = some (a * 16 + b) := by
  obtain ⟨x1, -, -, -, x2, -⟩ := isHex_spec hx
  obtain ⟨y1, -, -, -, y2, y3, y4, -⟩ := isHex_spec hy
  have h2 : hexDigits 0 [x, y] = some (a * 16 + b) := by
    unfold hexDigits
    split
    · rename_i h; cases h
    · rename_i h; injection h with h; exact absurd h x2
    · rename_i h; injection h with h h'
      subst h; subst h'
      rw [x1]
      dsimp only
      unfold hexDigits
      split
      · rename_i h; cases h
      · rename_i h; injection h with h; exact absurd h y2
      · rename_i h; injection h with h h'
        subst h; subst h'
        rw [y1]
        simp [hexDigits]
  unfold hexUnsigned
  split
  · rename_i h; injection h with _ h; injection h with h; exact absurd h y3
  · rename_i h; injection h with _ h; injection h with h; exact absurd h y4
  · rename_i h; cases h
  · rename_i h; injection h with h h'
    subst h; subst h'
    rw [x1, h2]; rfl

theorem pyInt16_two {x y : Char} {a b : Nat} (hx : IsHex x a) (hy : IsHex y b) : pyInt16 [x, y] = .ok ((a * 16 + b : Nat) : Int) := by
  obtain ⟨-, x1, x2, x3, -⟩ := isHex_spec hx
  obtain ⟨-, y1, -⟩ := isHex_spec hy
  unfold pyInt16
  rw [strip_two x1 y1]
  split
  · rename_i h; injection h with h; exact absurd h x2
  · rename_i h; injection h with h; exact absurd h x3
  · rw [hexUnsigned_two hx hy]

theorem intsOf_hex (parts : List Str) (b : Bytes) (h : HexBytes parts b) : intsOf parts = .ok (b.map fun x => Int.ofNat x.toNat) := by
  induction parts generalizing b with
  | nil => cases b with
    | nil => rfl
    | cons => exact h.elim
  | cons p parts ih => cases b with
    | nil => exact h.elim
    | cons c b =>
      obtain ⟨⟨hi, lo, x, y, rfl, hx, hy, hc⟩, h2⟩ := h
      simp only [intsOf, pyInt16_two hx hy, ih b h2, bind_ok, pure_ok, List.map_cons, hc, Int.ofNat_eq_natCast]

theorem pack_hex (parts : List Str) (b : Bytes) (h : HexBytes parts b) : (do let l ← intsOf parts; bytesOf l) = .ok b := by
  rw [intsOf_hex parts b h, bind_ok]
  have e : (b.map fun x : UInt8 => Int.ofNat x.toNat) = (b.map UInt8.toNat).map (Int.ofNat ·) := by simp
  rw [e, bytesOf_ok]
  · rw [List.map_map]; congr 1
    have : UInt8.ofNat ∘ UInt8.toNat = id := by funext x; simp
    rw [this, List.map_id]
  · intro x hx
    obtain ⟨y, -, rfl⟩ := List.mem_map.mp hx
    exact y.toNat_lt

theorem splitAll_none {s : Char} {t : Str} (h : s ∉ t) : splitAll s t = [t] := splitMax_none h _

theorem hexByte_free {p : Str} {b : UInt8} (h : HexByte p b) : ':' ∉ p ∧ '-' ∉ p ∧ '.' ∉ p ∧ p.length = 2 := by
  obtain ⟨hi, lo, x, y, rfl, hx, hy, -⟩ := h
  have hx := isHex_spec hx
  have hy := isHex_spec hy
  simp [Ne.symm hx.2.2.1, Ne.symm hy.2.2.1, Ne.symm hx.2.2.2.2.2.2.2.1, Ne.symm hy.2.2.2.2.2.2.2.1, Ne.symm hx.2.2.2.2.2.2.2.2, Ne.symm hy.2.2.2.2.2.2.2.2]

end PG.TypesLib
