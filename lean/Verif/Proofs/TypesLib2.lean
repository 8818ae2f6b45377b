import Verif.Proofs.TypesLib
namespace PG.TypesLib
open PG PG.Spec PG.Spec.Format PG.Spec.Types PG.Element3

theorem inU4_iff (n : Int) : InU 4 n ↔ 0 ≤ n ∧ n < 2 ^ 32 := by
  unfold InU
  rw [show (256 : Int) ^ 4 = 2 ^ 32 by decide]
theorem inS4_iff (n : Int) : InS 4 n ↔ -2 ^ 31 ≤ n ∧ n < 2 ^ 31 := by
  unfold InS
  rw [show (256 : Int) ^ 4 = 4294967296 by decide, show (-2 ^ 31 : Int) = -2147483648 by decide, show (2 ^ 31 : Int) = 2147483648 by decide]
  omega
theorem inS4_nat {n : Nat} (h : n < 2 ^ 31) : InS 4 (n : Int) := by
  rw [inS4_iff, show (-2 ^ 31 : Int) = -2147483648 by decide, show (2 ^ 31 : Int) = 2147483648 by decide]
  rw [show (2 ^ 31 : Nat) = 2147483648 by decide] at h
  omega

/-- One attribute of a record. -/
abbrev attFields (p : Int × Option Bytes) : List Field := .int32 p.1 :: value p.2

theorem encs_value_some (d : Bytes) : encs (value (some d)) = digits 4 d.length ++ d := by
  simp [value, encs, enc]
theorem encs_value_none : encs (value none) = nullSeq := by
  simp [value, encs, enc, digits_neg1]
theorem encs_att (p : Int × Option Bytes) : encs (attFields p) = digits 4 p.1 ++ encs (value p.2) := by
  simp [attFields, encs, enc]

/-- The conditions on one attribute. -/
def AttOk (p : Int × Option Bytes) : Prop := (0 ≤ p.1 ∧ p.1 < 2 ^ 32) ∧ ∀ d, p.2 = some d → d.length < 2 ^ 31

theorem recordAtts_spec (r : List (Int × Option Bytes)) (h : ∀ p ∈ r, AttOk p) :
    recordAtts r = .ok (encs (r.flatMap attFields)) := by
  induction r with
  | nil => rfl
  | cons p r ih =>
    obtain ⟨o, v⟩ := p
    obtain ⟨h1, h2⟩ := h (o, v) (by simp)
    have ih := ih fun p hp => h p (by simp [hp])
    have hu : oidPack o = .ok (digits 4 o) := packU_digits ((inU4_iff o).mpr h1)
    cases v with
    | none =>
      simp only [recordAtts, hu, ih, bind_ok, pure_ok, List.flatMap_cons, encs_append, encs_att, encs_value_none, List.append_assoc]
    | some d =>
      have hl : longPack d.length = .ok (digits 4 d.length) := packS_digits (inS4_nat (h2 d rfl))
      simp only [recordAtts, hu, hl, ih, bind_ok, pure_ok, List.flatMap_cons, encs_append, encs_att, encs_value_some, List.append_assoc]

theorem slice_at {α} (pre a rest : List α) (n : Nat) (h : a.length = n) :
    slice (pre ++ (a ++ rest)) pre.length (pre.length + n) = a := by
  simp [slice, ← h]

theorem slice_take {α} (pre rest : List α) (n : Nat) :
    slice (pre ++ rest) pre.length (pre.length + n) = rest.take n := by
  simp [slice]

theorem take_eq_split {α} {l a : List α} {n : Nat} (h : l.take n = a) : l = a ++ l.drop n := by
  rw [← h, List.take_append_drop]

/-- The attribute loop reads exactly the attributes' layout. -/
theorem recordLoop_iff (n : Nat) (pre rest : Bytes) (l : List (Int × Option Bytes)) (o : Nat) :
    recordLoop (pre ++ rest) n pre.length = .ok (l, o) ↔
    ∃ tail, rest = encs (l.flatMap attFields) ++ tail ∧ l.length = n ∧ (∀ p ∈ l, AttOk p) ∧ o + tail.length = (pre ++ rest).length := by
  induction n generalizing pre rest l o with
  | zero =>
    simp only [recordLoop, Except.ok.injEq, Prod.mk.injEq]
    constructor
    · rintro ⟨rfl, rfl⟩
      exact ⟨rest, by simp, rfl, by simp, by simp⟩
    · rintro ⟨tail, h1, h2, -, h3⟩
      have : l = [] := List.length_eq_zero_iff.mp h2
      subst this
      simp at h1
      subst h1
      simp at h3
      exact ⟨rfl, h3.symm⟩
  | succ n ih =>
    constructor
    · intro h
      simp only [recordLoop] at h
      obtain ⟨typid, ht, h⟩ := bind_eq_ok h
      rw [slice_take] at ht
      obtain ⟨ht1, ht2⟩ := (unpackFromU_iff (by simp; omega)).mp ht
      have hr := take_eq_split ht1
      generalize rest.drop 4 = r1 at hr
      subst hr
      have hp : pre.length + 4 = (pre ++ digits 4 typid).length := by simp [length_digits]
      rw [← List.append_assoc, hp, slice_take] at h
      by_cases hn : r1.take 4 = nullSeq
      · rw [if_pos hn] at h
        obtain ⟨⟨l', o'⟩, hl, h⟩ := bind_eq_ok h
        injection h with h; injection h with h1 h2
        subst h1; subst h2
        have hr := take_eq_split hn
        generalize r1.drop 4 = r2 at hr
        subst hr
        have hp2 : (pre ++ digits 4 typid).length + 4 = (pre ++ digits 4 typid ++ nullSeq).length := by rw [List.length_append (bs := nullSeq)]; rfl
        rw [hp2, ← List.append_assoc] at hl
        obtain ⟨tail, h1, h2, h3, h4⟩ := (ih _ _ _ _).mp hl
        refine ⟨tail, ?_, by simp [h2], ?_, ?_⟩
        · rw [List.flatMap_cons, encs_append, encs_att, encs_value_none, h1]; simp
        · intro p hp
          rcases List.mem_cons.mp hp with rfl | hp
          · exact ⟨(inU4_iff _).mp ht2, by simp⟩
          · exact h3 p hp
        · rw [h4]; simp
      · rw [if_neg hn] at h
        obtain ⟨size, hs, h⟩ := bind_eq_ok h
        obtain ⟨hs1, hs2⟩ := (unpackFromS_iff (by simp; omega)).mp hs
        have hr := take_eq_split hs1
        generalize r1.drop 4 = r2 at hr
        subst hr
        by_cases hneg : size < -1
        · rw [if_pos hneg] at h; cases h
        · rw [if_neg hneg] at h
          have hp2 : (pre ++ digits 4 typid).length + 4 = (pre ++ digits 4 typid ++ digits 4 size).length := by simp [length_digits]
          rw [hp2, ← List.append_assoc, slice_take] at h
          simp only [pure_ok, bind_ok] at h
          by_cases hlen : ((r2.take size.toNat).length : Int) ≠ size
          · rw [if_pos hlen] at h; cases h
          · rw [if_neg hlen] at h
            obtain ⟨⟨l', o'⟩, hl, h⟩ := bind_eq_ok h
            injection h with h; injection h with h1 h2
            subst h1; subst h2
            have hr : r2 = r2.take size.toNat ++ r2.drop size.toNat := (List.take_append_drop ..).symm
            have hsz : size = ((r2.take size.toNat).length : Int) := by omega
            have hsz' : size.toNat = (r2.take size.toNat).length := by omega
            generalize ha : r2.take size.toNat = att at *
            generalize r2.drop size.toNat = r3 at hr
            subst hr
            have hp3 : (pre ++ digits 4 typid ++ digits 4 size).length + size.toNat = (pre ++ digits 4 typid ++ digits 4 size ++ att).length := by
              rw [List.length_append (bs := att), ← hsz']
            rw [hp3, ← List.append_assoc] at hl
            obtain ⟨tail, h1, h2, h3, h4⟩ := (ih _ _ _ _).mp hl
            refine ⟨tail, ?_, by simp [h2], ?_, ?_⟩
            · rw [List.flatMap_cons, encs_append, encs_att, encs_value_some, h1, ← hsz]; simp
            · intro p hp
              rcases List.mem_cons.mp hp with rfl | hp
              · refine ⟨(inU4_iff _).mp ht2, ?_⟩
                intro d hd
                injection hd with hd
                subst hd
                have := ((inS4_iff size).mp hs2).2
                rw [show (2 ^ 31 : Int) = 2147483648 by decide] at this
                rw [show (2 ^ 31 : Nat) = 2147483648 by decide]
                omega
              · exact h3 p hp
            · rw [h4]; simp
    · rintro ⟨tail, h1, h2, h3, h4⟩
      cases l with
      | nil => simp at h2
      | cons p l =>
        obtain ⟨typid, v⟩ := p
        obtain ⟨hu, hv⟩ := h3 (typid, v) (by simp)
        rw [List.flatMap_cons, encs_append, encs_att] at h1
        have ht2 := (inU4_iff _).mpr hu
        have hrest : rest = digits 4 typid ++ (encs (value v) ++ (encs (l.flatMap attFields) ++ tail)) := by rw [h1]; simp
        subst hrest
        simp only [recordLoop]
        rw [slice_at _ _ _ _ (length_digits ..)]
        have hd : oidUnpack (digits 4 typid) = .ok typid := by
          have := unpackFromU_digits ht2 []; rw [List.append_nil] at this; exact this
        rw [hd, bind_ok]
        have hp : pre.length + 4 = (pre ++ digits 4 typid).length := by simp [length_digits]
        rw [← List.append_assoc, hp]
        cases v with
        | none =>
          rw [encs_value_none, slice_at _ _ _ _ (by rfl), if_pos rfl]
          have hp2 : (pre ++ digits 4 typid).length + 4 = (pre ++ digits 4 typid ++ nullSeq).length := by rw [List.length_append (bs := nullSeq)]; rfl
          rw [hp2, ← List.append_assoc]
          rw [(ih _ _ l o).mpr ⟨tail, rfl, by simpa using h2, fun p hp => h3 p (by simp [hp]), by rw [h4, encs_value_none]; simp⟩]
          rfl
        | some d =>
          have hl := hv d rfl
          have hS := inS4_nat hl
          rw [encs_value_some, List.append_assoc (digits 4 (d.length : Int)), slice_at _ _ _ _ (length_digits ..)]
          have hne : digits 4 (d.length : Int) ≠ nullSeq := by
            intro e
            have h5 : unpackFromS 4 (digits 4 (d.length : Int)) = .ok (d.length : Int) := by
              have := unpackFromS_digits hS []; rw [List.append_nil] at this; exact this
            rw [e] at h5
            have h6 : unpackFromS 4 nullSeq = .ok (-1) := by decide
            rw [h6] at h5
            have := Except.ok.inj h5
            omega
          rw [if_neg hne]
          have h5 : longUnpack (digits 4 (d.length : Int)) = .ok (d.length : Int) := by
            have := unpackFromS_digits hS []; rw [List.append_nil] at this; exact this
          rw [h5, bind_ok, if_neg (by omega)]
          have hp2 : (pre ++ digits 4 typid).length + 4 = (pre ++ digits 4 typid ++ digits 4 (d.length : Int)).length := by simp [length_digits]
          rw [hp2, ← List.append_assoc]
          simp only [pure_ok, bind_ok, Int.toNat_natCast]
          simp only [slice_at _ d _ _ rfl]
          rw [if_neg (by simp)]
          have hp3 : (pre ++ digits 4 typid ++ digits 4 (d.length : Int)).length + d.length = (pre ++ digits 4 typid ++ digits 4 (d.length : Int) ++ d).length := by
            rw [List.length_append (bs := d)]
          rw [hp3, ← List.append_assoc]
          rw [(ih _ _ l o).mpr ⟨tail, rfl, by simpa using h2, fun p hp => h3 p (by simp [hp]), by rw [h4, encs_value_some]; simp⟩]
          rfl

end PG.TypesLib
