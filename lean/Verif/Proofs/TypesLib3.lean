import Verif.Proofs.TypesLib2
namespace PG.TypesLib
open PG PG.Spec PG.Spec.Format PG.Spec.Types PG.Element3 PG.Itertools

theorem interlace_pair {α : Type} (a b : List α) (h : a.length = b.length) (fuel : Nat) (hf : a.length + b.length < fuel) :
    interlaceLoop fuel [a, b] = (a.zip b).flatMap fun p => [p.1, p.2] := by
  induction a generalizing b fuel with
  | nil =>
    cases b with
    | nil => cases fuel <;> rfl
    | cons => simp at h
  | cons x a ih =>
    cases b with
    | nil => simp at h
    | cons y b =>
      simp only [List.length_cons] at hf h
      obtain ⟨f, rfl⟩ : ∃ f, fuel = f + 2 := ⟨fuel - 2, by omega⟩
      simp only [interlaceLoop, List.cons_append, List.nil_append, List.zip_cons_cons, List.flatMap_cons]
      rw [ih b (by omega) f (by omega)]

theorem longsPack_spec (l : List Int) (h : ∀ x ∈ l, Int4 x) : longsPack l = .ok (encs (l.map .int32)) := by
  induction l with
  | nil => rfl
  | cons a l ih =>
    have ha : longPack a = .ok (digits 4 a) := packS_digits ((inS4_iff a).mpr (h a (by simp)))
    simp only [longsPack, ha, ih fun x hx => h x (by simp [hx]), bind_ok, pure_ok, List.map_cons, encs_cons, enc]

theorem elementsPack_spec (l : List (Option Bytes)) (h : ∀ x ∈ l, ∀ d, x = some d → d.length < 2 ^ 31) :
    elementsPack l = .ok (encs (l.flatMap value)) := by
  induction l with
  | nil => rfl
  | cons a l ih =>
    have ih := ih fun x hx => h x (by simp [hx])
    cases a with
    | none => simp only [elementsPack, ih, bind_ok, pure_ok, List.flatMap_cons, encs_append, encs_value_none]
    | some d =>
      have hl : longPack d.length = .ok (digits 4 d.length) := packS_digits (inS4_nat (h _ (by simp) d rfl))
      simp only [elementsPack, hl, ih, bind_ok, pure_ok, List.flatMap_cons, encs_append, encs_value_some]

theorem map_zip_flat (a b : List Int) : ((a.zip b).flatMap fun p => [p.1, p.2]).map Field.int32 =
    (a.zip b).flatMap fun p => [Field.int32 p.1, Field.int32 p.2] := by
  induction a.zip b with
  | nil => rfl
  | cons p l ih => simp only [List.flatMap_cons, List.map_append, ih]; rfl

theorem arrayPack_spec (a : RawArray) (h : ArrayOk a) : arrayPack a = .ok (encs (arrayFields a)) := by
  obtain ⟨h1, h2, h3, h4, h5, h6, h7⟩ := h
  have hi : interlace [a.dims, a.lbs] = (a.dims.zip a.lbs).flatMap fun p => [p.1, p.2] := by
    unfold interlace
    exact interlace_pair _ _ h1 _ (by simp)
  have hz : ∀ x ∈ (a.dims.zip a.lbs).flatMap (fun p => [p.1, p.2]), Int4 x := by
    intro x hx
    obtain ⟨p, hp, hx⟩ := List.mem_flatMap.mp hx
    obtain ⟨hp1, hp2⟩ := List.of_mem_zip (a := p.1) (b := p.2) hp
    simp only [List.mem_cons, List.not_mem_nil, or_false] at hx
    rcases hx with rfl | rfl
    · exact h5 _ hp1
    · exact h6 _ hp2
  have e1 : packS 4 (a.dims.length : Int) = .ok (digits 4 a.dims.length) := packS_digits (inS4_nat h2)
  have e2 : packS 4 a.flags = .ok (digits 4 a.flags) := packS_digits ((inS4_iff _).mpr h3)
  have e3 : packU 4 a.typid = .ok (digits 4 a.typid) := packU_digits ((inU4_iff _).mpr h4)
  simp only [arrayPack, e1, e2, e3, hi, longsPack_spec _ hz, elementsPack_spec _ h7, bind_ok, pure_ok, arrayFields,
    map_zip_flat, encs_cons, encs_append, enc, List.append_assoc, List.cons_append]

theorem pySlice_nat {α} (data : List α) (i j : Nat) : pySlice data (i : Int) (j : Int) = slice data i j := by
  unfold pySlice
  simp only [show ¬ ((i : Int) < 0) by omega, show ¬ ((j : Int) < 0) by omega, if_false, Int.toNat_natCast]

theorem elementsUnpack_spec (l : List (Option Bytes)) (h : ∀ x ∈ l, ∀ d, x = some d → d.length < 2 ^ 31) (pre : Bytes)
    (fuel : Nat) (hf : l.length ≤ fuel) :
    elementsUnpack (pre ++ encs (l.flatMap value)) fuel pre.length = some (.ok l) := by
  induction l generalizing pre fuel with
  | nil =>
    cases fuel <;> (rw [elementsUnpack, if_pos (by simp)])
  | cons x l ih =>
    obtain ⟨f, rfl⟩ : ∃ f, fuel = f + 1 := ⟨fuel - 1, by simp at hf; omega⟩
    have hf' : l.length ≤ f := by simpa using hf
    rw [List.flatMap_cons, encs_append]
    have hc : ((pre.length : Int) + 4) = ((pre.length + 4 : Nat) : Int) := by omega
    cases x with
    | none =>
      rw [encs_value_none, elementsUnpack]
      have h4 : nullSeq.length = 4 := rfl
      rw [if_neg (by simp only [List.length_append, h4]; omega)]
      dsimp only
      rw [hc, pySlice_nat, slice_at _ _ _ _ h4, if_pos rfl]
      have e : ((pre.length + 4 : Nat) : Int) = ((pre ++ nullSeq).length : Int) := by rw [List.length_append, h4]
      rw [e, ← List.append_assoc, ih (fun x hx => h x (by simp [hx])) _ _ hf']
      rfl
    | some d =>
      have hd := h _ (by simp) d rfl
      have hS := inS4_nat hd
      rw [encs_value_some, elementsUnpack, List.append_assoc]
      have h4 : (digits 4 (d.length : Int)).length = 4 := length_digits ..
      rw [if_neg (by simp only [List.length_append, h4]; omega)]
      dsimp only
      rw [hc, pySlice_nat, slice_at _ _ _ _ h4]
      have h5 : longUnpack (digits 4 (d.length : Int)) = .ok (d.length : Int) := by
        have := unpackFromS_digits hS []; rw [List.append_nil] at this; exact this
      have hne : digits 4 (d.length : Int) ≠ nullSeq := by
        intro e
        rw [e] at h5
        have h6 : longUnpack nullSeq = .ok (-1) := by decide
        rw [h6] at h5
        have := Except.ok.inj h5
        omega
      rw [if_neg hne, h5]
      dsimp only
      have e0 : ((pre.length + 4 : Nat) : Int) + (d.length : Int) = ((pre.length + 4 + d.length : Nat) : Int) := by omega
      have e : pre.length + 4 = (pre ++ digits 4 (d.length : Int)).length := by rw [List.length_append, h4]
      have e2 : (pre ++ digits 4 (d.length : Int)).length + d.length = (pre ++ digits 4 (d.length : Int) ++ d).length := by
        rw [List.length_append (bs := d)]
      rw [e0, pySlice_nat, e, ← List.append_assoc, slice_at _ _ _ _ rfl, e2, ← List.append_assoc,
        ih (fun x hx => h x (by simp [hx])) _ _ hf']
      rfl

theorem strided_spec (l : List (Int × Int)) (h : ∀ p ∈ l, Int4 p.1 ∧ Int4 p.2) (pre rest : Bytes) :
    strided (pre ++ (encs (l.flatMap fun p => [Field.int32 p.1, Field.int32 p.2]) ++ rest)) l.length pre.length = .ok (l.map (·.1)) ∧
    strided (pre ++ (encs (l.flatMap fun p => [Field.int32 p.1, Field.int32 p.2]) ++ rest)) l.length (pre.length + 4) = .ok (l.map (·.2)) := by
  induction l generalizing pre with
  | nil => exact ⟨rfl, rfl⟩
  | cons p l ih =>
    obtain ⟨p1, p2⟩ := h p (by simp)
    have ih := ih (fun q hq => h q (by simp [hq])) (pre ++ digits 4 p.1 ++ digits 4 p.2)
    have L (n : Int) : (digits 4 n).length = 4 := length_digits ..
    have hlen : (pre ++ digits 4 p.1 ++ digits 4 p.2).length = pre.length + 8 := by simp only [List.length_append, L]
    have e : pre ++ (encs ((p :: l).flatMap fun p => [Field.int32 p.1, Field.int32 p.2]) ++ rest) =
        pre ++ digits 4 p.1 ++ digits 4 p.2 ++ (encs (l.flatMap fun p => [Field.int32 p.1, Field.int32 p.2]) ++ rest) := by
      simp [encs, enc]
    have u1 : longUnpack (digits 4 p.1) = .ok p.1 := by
      have := unpackFromS_digits ((inS4_iff _).mpr p1) []; rw [List.append_nil] at this; exact this
    have u2 : longUnpack (digits 4 p.2) = .ok p.2 := by
      have := unpackFromS_digits ((inS4_iff _).mpr p2) []; rw [List.append_nil] at this; exact this
    rw [e]
    rw [hlen] at ih
    constructor
    · simp only [List.length_cons, strided]
      rw [ih.1]
      have : slice (pre ++ digits 4 p.1 ++ digits 4 p.2 ++ (encs (l.flatMap fun p => [Field.int32 p.1, Field.int32 p.2]) ++ rest)) pre.length (pre.length + 4) = digits 4 p.1 := by
        rw [List.append_assoc, List.append_assoc, slice_at _ _ _ _ (L _)]
      rw [this, u1]; rfl
    · simp only [List.length_cons, strided]
      rw [show pre.length + 4 + 8 = pre.length + 8 + 4 by omega, ih.2]
      have : slice (pre ++ digits 4 p.1 ++ digits 4 p.2 ++ (encs (l.flatMap fun p => [Field.int32 p.1, Field.int32 p.2]) ++ rest)) (pre.length + 4) (pre.length + 4 + 4) = digits 4 p.2 := by
        have e2 : pre.length + 4 = (pre ++ digits 4 p.1).length := by rw [List.length_append, L]
        rw [e2, List.append_assoc (pre ++ digits 4 p.1), slice_at _ _ _ _ (L _)]
      rw [this, u2]; rfl

theorem length_encs_zip (l : List (Int × Int)) : (encs (l.flatMap fun p => [Field.int32 p.1, Field.int32 p.2])).length = 8 * l.length := by
  induction l with
  | nil => rfl
  | cons p l ih =>
    have L (n : Int) : (digits 4 n).length = 4 := length_digits ..
    rw [List.flatMap_cons, encs_append, List.length_append, ih]
    simp only [encs, List.flatMap_cons, List.flatMap_nil, enc, List.length_append, L, List.length_cons, List.length_nil]
    omega

theorem arrayUnpack_spec (a : RawArray) (h : ArrayOk a) (fuel : Nat) (hf : a.elements.length ≤ fuel) :
    arrayUnpack fuel (encs (arrayFields a)) = some (.ok a) := by
  obtain ⟨h1, h2, h3, h4, h5, h6, h7⟩ := h
  have L (n : Int) : (digits 4 n).length = 4 := length_digits ..
  let pre := digits 4 (a.dims.length : Int) ++ digits 4 a.flags ++ digits 4 a.typid
  let z := a.dims.zip a.lbs
  have hz : z.length = a.dims.length := by simp [z, h1]
  have hzz : encs (arrayFields a) = pre ++ (encs (z.flatMap fun p => [Field.int32 p.1, Field.int32 p.2]) ++ encs (a.elements.flatMap value)) := by
    simp only [arrayFields, encs_cons, encs_append, enc, List.append_assoc, List.cons_append, pre, z]
  have hpre : pre.length = 12 := by simp only [pre, List.length_append, L]
  have hmz : ∀ p ∈ z, Int4 p.1 ∧ Int4 p.2 := by
    intro p hp
    obtain ⟨hp1, hp2⟩ := List.of_mem_zip (a := p.1) (b := p.2) hp
    exact ⟨h5 _ hp1, h6 _ hp2⟩
  obtain ⟨s1, s2⟩ := strided_spec z hmz pre (encs (a.elements.flatMap value))
  rw [hpre, hz] at s1 s2
  have d1 : toSigned 4 (beDec ((encs (arrayFields a)).take 4)) = (a.dims.length : Int) := by
    have := unpackFromS_digits (inS4_nat h2) []
    rw [List.append_nil] at this
    have e : (encs (arrayFields a)).take 4 = digits 4 (a.dims.length : Int) := by
      rw [hzz]; simp only [pre, List.append_assoc]; rw [List.take_left' (L _)]
    rw [e]
    unfold unpackFromS at this
    rw [L, if_neg (by omega), List.take_of_length_le (by rw [L]; omega)] at this
    exact Except.ok.inj this
  have d2 : toSigned 4 (beDec (slice (encs (arrayFields a)) 4 8)) = a.flags := by
    have := unpackFromS_digits ((inS4_iff _).mpr h3) []
    rw [List.append_nil] at this
    have e : slice (encs (arrayFields a)) 4 8 = digits 4 a.flags := by
      rw [hzz]; simp only [pre, List.append_assoc]
      have := slice_at (digits 4 (a.dims.length : Int)) (digits 4 a.flags) (digits 4 a.typid ++ (encs (z.flatMap fun p => [Field.int32 p.1, Field.int32 p.2]) ++ encs (a.elements.flatMap value))) 4 (L _)
      rw [L] at this
      exact this
    rw [e]
    unfold unpackFromS at this
    rw [L, if_neg (by omega), List.take_of_length_le (by rw [L]; omega)] at this
    exact Except.ok.inj this
  have d3 : (beDec (slice (encs (arrayFields a)) 8 12) : Int) = a.typid := by
    have := unpackFromU_digits ((inU4_iff _).mpr h4) []
    rw [List.append_nil] at this
    have e : slice (encs (arrayFields a)) 8 12 = digits 4 a.typid := by
      rw [hzz]; simp only [pre]
      have := slice_at (digits 4 (a.dims.length : Int) ++ digits 4 a.flags) (digits 4 a.typid) (encs (z.flatMap fun p => [Field.int32 p.1, Field.int32 p.2]) ++ encs (a.elements.flatMap value)) 4 (L _)
      rw [List.length_append, L, L] at this
      rw [List.append_assoc]
      exact this
    rw [e]
    unfold unpackFromU at this
    rw [L, if_neg (by omega), List.take_of_length_le (by rw [L]; omega)] at this
    exact Except.ok.inj this
  have hlen : 12 ≤ (encs (arrayFields a)).length := by rw [hzz, List.length_append, hpre]; omega
  unfold arrayUnpack
  rw [if_neg (by omega)]
  dsimp only
  rw [d1, d2, d3, if_neg (by omega), Int.toNat_natCast]
  rw [hzz, s1]
  dsimp only
  rw [s2]
  dsimp only
  have e1 : ((8 * a.dims.length + 12 : Nat) : Int) = ((pre ++ encs (z.flatMap fun p => [Field.int32 p.1, Field.int32 p.2])).length : Int) := by
    rw [List.length_append, hpre, length_encs_zip, hz]; omega
  rw [e1, ← List.append_assoc, elementsUnpack_spec _ h7 _ _ hf]
  have z1 : z.map (·.1) = a.dims := List.map_fst_zip (Nat.le_of_eq h1)
  have z2 : z.map (·.2) = a.lbs := List.map_snd_zip (Nat.le_of_eq h1.symm)
  rw [z1, z2]
  rfl

end PG.TypesLib
