import Verif.Proofs.Element3b
import Verif.Proofs.PBuffer
/-! Lemmas for framing of batches and for truncated rows. -/
namespace PG.Element3
open PG PG.Spec

attribute [local irreducible] beDec beEnc

theorem msgBytes_of {m : Elem} {d p : Bytes} {t : UInt8} (hs : serialize m = .ok d) (ht : m.kind.typ = some t)
    (hp : packU 4 ((d.length : Int) + 4) = .ok p) : msgBytes m = .ok (t :: (p ++ d)) := by
  unfold msgBytes
  rw [hs, bind_ok, hp, bind_ok, ht]
  rfl

theorem packU4_nat {n : Nat} {b : Bytes} (h : packU 4 (n : Int) = .ok b) : b = beEnc 4 n ∧ n < 2 ^ 32 := by
  unfold packU at h
  split at h
  · rename_i hc
    injection h with h
    refine ⟨by rw [← h]; simp, ?_⟩
    have := hc.2
    omega
  · cases h

theorem packS4_nat {n : Nat} {b : Bytes} (h : packS 4 (n : Int) = .ok b) : b = beEnc 4 n ∧ n < 2 ^ 31 := by
  unfold packS at h
  split at h
  · rename_i hc
    injection h with h
    have h2 := hc.2
    have h3 : n < 2 ^ 31 := by omega
    refine ⟨?_, h3⟩
    rw [← h]
    congr 1
    omega
  · cases h

theorem bind_eq_ok {ε α β} {x : Except ε α} {f : α → Except ε β} {b : β} (h : (x >>= f) = .ok b) :
    ∃ a, x = .ok a ∧ f a = .ok b := by
  cases x with
  | error e => cases h
  | ok a => exact ⟨a, rfl, h⟩

theorem itemBytes_frames (x : Item) (hx : ∀ m, x = .msg m → m.kind.typ.isSome) {w : Bytes} (h : itemBytes x = .ok w) :
    ∃ ms, itemMsg x = .ok ms ∧ w = frames ms ∧ ∀ m ∈ ms, Fits m := by
  cases x with
  | msg m =>
    obtain ⟨t, ht⟩ := Option.isSome_iff_exists.mp (hx m rfl)
    simp only [itemBytes, msgBytes] at h
    obtain ⟨b, hb, h⟩ := bind_eq_ok h
    obtain ⟨l, hl, h⟩ := bind_eq_ok h
    rw [ht] at h
    injection h with h
    obtain ⟨e, hlt⟩ := packU4_nat (n := b.length + 4) (by simpa using hl)
    refine ⟨[(t, b)], by simp [itemMsg, hb, ht], ?_, ?_⟩
    · rw [← h, e]; simp [frames, frame]
    · intro m hm
      rw [List.mem_singleton.mp hm]
      exact hlt
  | raw d =>
    simp only [itemBytes] at h
    obtain ⟨l, hl, h⟩ := bind_eq_ok h
    injection h with h
    obtain ⟨e, hlt⟩ := packS4_nat (n := d.length + 4) (by simpa using hl)
    refine ⟨[(100, d)], rfl, ?_, ?_⟩
    · rw [← h, e]; simp [frames, frame]
    · intro m hm
      rw [List.mem_singleton.mp hm]
      show d.length + 4 < 2 ^ 32
      omega
  | row t =>
    simp only [itemBytes] at h
    obtain ⟨r, hr, h⟩ := bind_eq_ok h
    obtain ⟨l, hl, h⟩ := bind_eq_ok h
    obtain ⟨c, hc, h⟩ := bind_eq_ok h
    injection h with h
    obtain ⟨e, hlt⟩ := packS4_nat (n := r.length + 6) (by simpa using hl)
    have lc := length_packU hc
    refine ⟨[(68, c ++ r)], by simp [itemMsg, serialize, hr, hc], ?_, ?_⟩
    · rw [← h, e]
      have : (c ++ r).length + 4 = r.length + 6 := by simp; omega
      simp only [frames, List.flatMap_cons, List.flatMap_nil, frame, this]
      simp
    · intro m hm
      rw [List.mem_singleton.mp hm]
      show (c ++ r).length + 4 < 2 ^ 32
      simp; omega
  | void =>
    simp only [itemBytes] at h
    injection h with h
    exact ⟨[], rfl, by rw [← h]; rfl, by simp⟩

theorem catMessages_frames (xs : List Item) (hx : ∀ m, .msg m ∈ xs → m.kind.typ.isSome) {w : Bytes}
    (h : catMessages xs = .ok w) : ∃ ms, itemsMsgs xs = .ok ms ∧ w = frames ms ∧ ∀ m ∈ ms, Fits m := by
  induction xs generalizing w with
  | nil =>
    injection h with h
    exact ⟨[], rfl, by rw [← h]; rfl, by simp⟩
  | cons x xs ih =>
    simp only [catMessages] at h
    obtain ⟨a, ha, h⟩ := bind_eq_ok h
    obtain ⟨b, hb, h⟩ := bind_eq_ok h
    injection h with h
    obtain ⟨m1, e1, w1, f1⟩ := itemBytes_frames x (fun m hm => hx m (by simp [hm])) ha
    obtain ⟨m2, e2, w2, f2⟩ := ih (fun m hm => hx m (by simp [hm])) hb
    refine ⟨m1 ++ m2, by simp [itemsMsgs, e1, e2], ?_, ?_⟩
    · rw [← h, w1, w2]; simp [frames]
    · intro m hm
      rcases List.mem_append.mp hm with hm | hm
      · exact f1 m hm
      · exact f2 m hm

theorem catMessages_append (xs ys : List Item) : catMessages (xs ++ ys) = (do
    let a ← catMessages xs
    let b ← catMessages ys
    return a ++ b) := by
  induction xs with
  | nil => cases h : catMessages ys <;> simp [catMessages, h]
  | cons x xs ih =>
    simp only [List.cons_append, catMessages, ih]
    cases itemBytes x with
    | error e => simp
    | ok a =>
      cases catMessages xs with
      | error e => simp
      | ok b =>
        cases catMessages ys with
        | error e => simp
        | ok c => simp

theorem ulongUnpack_short {b : Bytes} (h : b.length < 4) : ulongUnpack b = .error .structError := by
  simp [unpackFromU, h]

theorem attLoop_past_end (data : Bytes) (n o : Nat) (h : data.length ≤ o) (hn : 0 < n) :
    attLoop data n o = .error .structError := by
  cases n with
  | zero => omega
  | succ n =>
    have hs : slice data o (o + 4) = [] := by simp [slice, List.drop_eq_nil_of_le h]
    have hne : ([] : Bytes) ≠ nullSeq := by simp [nullSeq]
    simp only [attLoop, hs, if_neg hne]
    rw [ulongUnpack_short (by simp)]
    rfl

/-- A packed row cut short: parsing succeeds only if the cut is inside the last attribute's data. -/
theorem attLoop_cut (atts : List (Option Bytes)) (hA : ∀ x ∈ atts, ∀ d, x = some d → d.length < 2 ^ 32 - 1) (b : Bytes)
    (hb : packTupleData atts = .ok b) (pre : Bytes) (j : Nat) (hj : j < b.length) {r : List (Option Bytes) × Nat}
    (h : attLoop (pre ++ b.take j) atts.length pre.length = .ok r) :
    ∃ init d, atts = init ++ [some d] ∧ b.length - j ≤ d.length ∧
      r.1 = init ++ [some (d.take (d.length - (b.length - j)))] := by
  induction atts generalizing b pre j r with
  | nil =>
    injection hb with hb
    subst hb
    simp at hj
  | cons x atts ih =>
    have short : j < 4 → False := by
      intro hj4
      simp only [List.length_cons, attLoop] at h
      rw [slice_append_right _ _ _ _ rfl] at h
      have hlen : (List.take (pre.length + 4 - pre.length) (List.take j b)).length < 4 := by simp; omega
      have hne : List.take (pre.length + 4 - pre.length) (List.take j b) ≠ nullSeq := by
        intro hc
        have := congrArg List.length hc
        simp [nullSeq] at this
        omega
      rw [if_neg hne, ulongUnpack_short hlen] at h
      cases h
    have hj4 : 4 ≤ j := Nat.le_of_not_lt short
    cases x with
    | none =>
      simp only [packTupleData] at hb
      obtain ⟨b', hb', hb⟩ := bind_eq_ok hb
      injection hb with hb
      subst hb
      have ht : (nullSeq ++ b').take j = nullSeq ++ b'.take (j - 4) := by
        rw [List.take_append, List.take_of_length_le (by simp [nullSeq]; omega)]
        rfl
      rw [ht] at h
      have hs : slice (pre ++ (nullSeq ++ b'.take (j - 4))) pre.length (pre.length + 4) = nullSeq := by
        rw [slice_append_right _ _ _ _ rfl, Nat.add_sub_cancel_left]; simp [nullSeq]
      simp only [List.length_cons, attLoop, hs, if_true] at h
      obtain ⟨p, hp, h⟩ := bind_eq_ok h
      injection h with h
      subst h
      have hln : (pre ++ nullSeq).length = pre.length + 4 := by simp [nullSeq]
      have he : pre ++ (nullSeq ++ b'.take (j - 4)) = pre ++ nullSeq ++ b'.take (j - 4) := by simp
      rw [he, ← hln] at hp
      have hj' : j - 4 < b'.length := by simp [nullSeq] at hj; omega
      obtain ⟨init, d, h1, h2, h3⟩ := ih (fun x hx => hA x (by simp [hx])) b' hb' _ _ hj' hp
      have hl : (nullSeq ++ b').length - j = b'.length - (j - 4) := by simp [nullSeq]; omega
      refine ⟨none :: init, d, by rw [h1]; rfl, by omega, ?_⟩
      rw [hl]
      simp [h3]
    | some d =>
      simp only [packTupleData] at hb
      obtain ⟨hh, hhe, hb⟩ := bind_eq_ok hb
      obtain ⟨b', hb', hb⟩ := bind_eq_ok hb
      injection hb with hb
      subst hb
      have hhl := length_packU hhe
      have hdl := hA (some d) (by simp) d rfl
      have hne : hh ≠ nullSeq := by
        intro hc
        have h1 := beDec_packU hhe
        rw [hc, beDec_nullSeq] at h1
        omega
      have hu : ulongUnpack hh = .ok (d.length : Int) := unpackFromU_packU hhe
      have ht : (hh ++ d ++ b').take j = hh ++ (d ++ b').take (j - 4) := by
        rw [List.append_assoc, List.take_append, List.take_of_length_le (by omega), hhl]
      rw [ht] at h
      have hs : slice (pre ++ (hh ++ (d ++ b').take (j - 4))) pre.length (pre.length + 4) = hh := by
        rw [slice_append_right _ _ _ _ rfl, Nat.add_sub_cancel_left, List.take_append_of_le_length (by omega),
          List.take_of_length_le (by omega)]
      simp only [List.length_cons, attLoop, hs, if_neg hne, hu, bind_ok, Int.toNat_natCast] at h
      obtain ⟨p, hp, h⟩ := bind_eq_ok h
      injection h with h
      subst h
      have hs2 : slice (pre ++ (hh ++ (d ++ b').take (j - 4))) (pre.length + 4) (pre.length + 4 + d.length) =
          d.take (j - 4) := by
        rw [← List.append_assoc, slice_append_right _ _ _ _ (by simp [hhl]), Nat.add_sub_cancel_left, List.take_take]
        rw [List.take_append_of_le_length (by omega)]
        by_cases hc : d.length ≤ j - 4
        · rw [Nat.min_eq_left hc, List.take_of_length_le (Nat.le_refl _), List.take_of_length_le hc]
        · rw [Nat.min_eq_right (by omega)]
      have hbl : (hh ++ d ++ b').length = 4 + d.length + b'.length := by simp [hhl]; omega
      rw [hbl] at hj ⊢
      by_cases hc : j - 4 < d.length
      · -- the cut is inside this attribute
        cases atts with
        | nil =>
          have hbn : b' = [] := (Except.ok.inj (show (Except.ok [] : Except Err Bytes) = Except.ok b' from hb')).symm
          have hp' : p = ([], pre.length + 4 + d.length) := by
            simp only [List.length_nil, attLoop] at hp
            exact (Except.ok.inj hp).symm
          subst hp' hbn
          refine ⟨[], d, rfl, by simp; omega, ?_⟩
          simp only [List.nil_append, hs2, List.length_nil]
          have hx : d.length - (4 + d.length + 0 - j) = j - 4 := by omega
          rw [hx]
        | cons y r =>
          exfalso
          rw [attLoop_past_end _ _ _ (by simp; omega) (by simp)] at hp
          cases hp
      · have he : pre ++ (hh ++ (d ++ b').take (j - 4)) = pre ++ hh ++ d ++ b'.take (j - 4 - d.length) := by
          rw [List.take_append, List.take_of_length_le (by omega)]; simp
        have hln : (pre ++ hh ++ d).length = pre.length + 4 + d.length := by simp [hhl]; omega
        rw [he, ← hln] at hp
        have hj' : j - 4 - d.length < b'.length := by omega
        obtain ⟨init, d', h1, h2, h3⟩ := ih (fun x hx => hA x (by simp [hx])) b' hb' _ _ hj' hp
        have hl : 4 + d.length + b'.length - j = b'.length - (j - 4 - d.length) := by omega
        refine ⟨some d :: init, d', by rw [h1]; rfl, by omega, ?_⟩
        rw [hl, hs2, List.take_of_length_le (by omega)]
        simp [h3]

end PG.Element3
