import Verif.Proofs.Element3
/-! The round trip of every element class. -/
namespace PG.Element3
open PG PG.Spec

attribute [local irreducible] beDec beEnc

theorem copyBegin_spec (f : Int) (fs : List Int) (hf : InU 1 f) (hl : fs.length < 2 ^ 16) (h : ∀ x ∈ fs, InU 2 x) :
    ∃ a b t, packU 1 f = .ok a ∧ packU 2 fs.length = .ok b ∧ packAll ushortPack fs = .ok t ∧
      parseK.copyBegin (a ++ b ++ t) = .ok (f, fs) := by
  obtain ⟨a, ea⟩ := exists_packU hf
  obtain ⟨b, eb⟩ := exists_packU (k := 2) (inU_of_nat (n := fs.length) (k := 2) (by omega))
  obtain ⟨t, et, lt, ut⟩ := packAll_spec 2 fs h
  have la := length_packU ea
  have lb := length_packU eb
  refine ⟨a, b, t, ea, eb, et, ?_⟩
  have h3 : ((a ++ b ++ t).take 3).length = 3 := by simp; omega
  have h1 : (a ++ b ++ t).take 1 = a := by rw [List.append_assoc, ← la, List.take_left]
  have h2 : slice (a ++ b ++ t) 1 3 = b := by
    rw [List.append_assoc, slice_append_right _ _ _ _ la.symm, List.take_append_of_le_length (by omega),
      List.take_of_length_le (by omega)]
  have h4 : (a ++ b ++ t).drop 3 = t := by
    have : (a ++ b).length = 3 := by simp; omega
    rw [← this, List.drop_left]
  have hb := beDec_packU eb
  have hb' : beDec b = fs.length := by omega
  unfold parseK.copyBegin
  simp only [h3, h1, h2, h4, hb', lt, ut, beDec_packU ea, ne_eq, not_true_eq_false, if_false, pure_ok]

theorem rstrip0_spec (d : Bytes) (h : NulFree d) : rstrip0 (d ++ [0]) = d := by
  unfold rstrip0
  simp only [List.reverse_append, List.reverse_cons, List.reverse_nil, List.nil_append, List.cons_append]
  rw [List.dropWhile_cons_of_pos (by simp)]
  have : d.reverse.dropWhile (· == 0) = d.reverse := by
    cases hr : d.reverse with
    | nil => rfl
    | cons x r =>
      rw [List.dropWhile_cons_of_neg]
      have hx : x ∈ d := by rw [← List.mem_reverse, hr]; simp
      simp only [beq_iff_eq]
      rintro rfl
      exact h hx
  rw [this, List.reverse_reverse]

/-- Serialization of a representable element succeeds and its class's `parse` returns the element. -/
theorem round_trip (m : Elem) (h : Representable m) : ∃ b, serialize m = .ok b ∧ parseK m.kind b = .ok m := by
  cases m with
  | notify pid ch pl =>
    obtain ⟨hp, hc, hl⟩ := h
    obtain ⟨a, ea⟩ := exists_packU hp
    have la := length_packU ea
    refine ⟨a ++ ch ++ [0] ++ pl ++ [0], by simp only [serialize, ea, bind_ok, pure_ok], ?_⟩
    have hd : (a ++ ch ++ [0] ++ pl ++ [0]).drop 4 = ch ++ 0 :: (pl ++ 0 :: []) := by
      simp only [List.append_assoc]
      rw [← la, List.drop_left]; simp
    have hu : ulongUnpack (a ++ ch ++ [0] ++ pl ++ [0]) = .ok pid := by
      simp only [List.append_assoc]; exact unpackFromU_append ea _
    simp only [Elem.kind, parseK, hu, bind_ok, hd]
    rw [splitMax_succ_append hc, splitMax_succ_append hl]
    rfl
  | showOption n v =>
    refine ⟨_, rfl, ?_⟩
    have : n ++ [0] ++ v ++ [0] = n ++ 0 :: (v ++ 0 :: []) := by simp
    simp only [Elem.kind, parseK, this]
    rw [splitMax_succ_append h.1, splitMax_succ_append h.2]
    rfl
  | complete d =>
    refine ⟨_, rfl, ?_⟩
    simp only [Elem.kind, parseK, rstrip0_spec d h]
  | empty k => exact ⟨[], rfl, by simp [Elem.kind, parseK]⟩
  | ready d => exact ⟨d, rfl, by simp only [Elem.kind, parseK]; exact if_pos h⟩
  | notice fs => exact ⟨_, rfl, by simp only [Elem.kind, parseK, parseNotice_spec fs h]⟩
  | error fs => exact ⟨_, rfl, by simp only [Elem.kind, parseK, parseNotice_spec fs h]⟩
  | functionResult r =>
    cases r with
    | none => exact ⟨nullSeq, rfl, by simp only [Elem.kind, parseK, if_true]⟩
    | some d =>
      have hd := h d rfl
      obtain ⟨a, ea⟩ := exists_packU (k := 4) (inU_of_nat (n := d.length) (k := 4) (by omega))
      have la := length_packU ea
      refine ⟨a ++ d, by simp only [serialize, ea, bind_ok, pure_ok], ?_⟩
      have hne : a ++ d ≠ nullSeq := by
        intro hc
        have hl := congrArg List.length hc
        simp [nullSeq, la] at hl
        subst hl
        have h1 := beDec_packU ea
        rw [List.append_nil] at hc
        rw [hc, beDec_nullSeq] at h1
        simp at h1
      have ht : (a ++ d).take 4 = a := by rw [← la, List.take_left]
      have hdr : (a ++ d).drop 4 = d := by rw [← la, List.drop_left]
      have hu : ulongUnpack a = .ok (d.length : Int) := unpackFromU_packU ea
      simp only [Elem.kind, parseK, if_neg hne, ht, hdr, hu, bind_ok, ne_eq, not_true_eq_false, if_false, pure_ok]
  | attributeTypes l =>
    obtain ⟨a, ea⟩ := exists_packU (k := 2) (inU_of_nat (n := l.length) (k := 2) (by have := h.1; omega))
    obtain ⟨t, et, lt, ut⟩ := packAll_spec 4 l h.2
    have la := length_packU ea
    refine ⟨a ++ t, by simp only [serialize, ea, et, bind_ok, pure_ok], ?_⟩
    have ht : (a ++ t).take 2 = a := by rw [← la, List.take_left]
    have hdr : (a ++ t).drop 2 = t := by rw [← la, List.drop_left]
    have hu : ushortUnpack a = .ok (l.length : Int) := unpackFromU_packU ea
    simp only [Elem.kind, parseK, ht, hdr, hu, bind_ok, lt, Int.toNat_natCast, ut, pure_ok]
    rw [if_neg (by simp)]
  | tupleDescriptor cs =>
    obtain ⟨a, ea⟩ := exists_packU (k := 2) (inU_of_nat (n := cs.length) (k := 2) (by have := h.1; omega))
    obtain ⟨t, et, ut⟩ := parseCols_spec cs h.2
    have ut := ut []
    rw [List.append_nil] at ut
    have la := length_packU ea
    refine ⟨a ++ t, by simp only [serialize, ea, et, bind_ok, pure_ok], ?_⟩
    have ht : (a ++ t).take 2 = a := by rw [← la, List.take_left]
    have hdr : (a ++ t).drop 2 = t := by rw [← la, List.drop_left]
    have hu : ushortUnpack a = .ok (cs.length : Int) := unpackFromU_packU ea
    simp only [Elem.kind, parseK, ht, hdr, hu, bind_ok, Int.toNat_natCast, ut, pure_ok]
  | tuple l =>
    obtain ⟨a, ea⟩ := exists_packU (k := 2) (inU_of_nat (n := l.length) (k := 2) (by have := h.1; omega))
    obtain ⟨t, et, ut⟩ := packTuple_loop l h.2
    have ut := ut a []
    rw [List.append_nil] at ut
    have la := length_packU ea
    rw [la] at ut
    refine ⟨a ++ t, by simp only [serialize, ea, et, bind_ok, pure_ok], ?_⟩
    have ht : (a ++ t).take 2 = a := by rw [← la, List.take_left]
    have hu : ushortUnpack a = .ok (l.length : Int) := unpackFromU_packU ea
    simp only [Elem.kind, parseK, ht, hu, bind_ok, Int.toNat_natCast, ut, pure_ok]
  | killInformation p k =>
    obtain ⟨a, ea⟩ := exists_packU h.1
    obtain ⟨b, eb⟩ := exists_packU h.2
    have la := length_packU ea
    have lb := length_packU eb
    refine ⟨a ++ b, by simp only [serialize, ea, eb, bind_ok, pure_ok], ?_⟩
    have hl : (a ++ b).length = 8 := by simp; omega
    have ht : (a ++ b).take 4 = a := by rw [← la, List.take_left]
    have hdr : (a ++ b).drop 4 = b := by rw [← la, List.drop_left]
    simp only [Elem.kind, parseK, hl, ht, hdr, beDec_packU ea, beDec_packU eb, ne_eq, not_true_eq_false, if_false]
  | cancelRequest p k =>
    obtain ⟨a, ea⟩ := exists_packU h.1
    obtain ⟨b, eb⟩ := exists_packU h.2
    have la := length_packU ea
    have lb := length_packU eb
    have lc : cancelCode.length = 4 := by simp [cancelCode, versionBytes]
    refine ⟨cancelCode ++ (a ++ b), by simp only [serialize, ea, eb, bind_ok, pure_ok], ?_⟩
    have hl : (a ++ b).length = 8 := by simp; omega
    have ht : (a ++ b).take 4 = a := by rw [← la, List.take_left]
    have hdr : (a ++ b).drop 4 = b := by rw [← la, List.drop_left]
    have ht' : (cancelCode ++ (a ++ b)).take 4 = cancelCode := by rw [← lc, List.take_left]
    have hdr' : (cancelCode ++ (a ++ b)).drop 4 = a ++ b := by rw [← lc, List.drop_left]
    simp only [Elem.kind, parseK, hl, ht, hdr, ht', hdr', beDec_packU ea, beDec_packU eb, ne_eq, not_true_eq_false, if_false]
  | negotiateSSL => exact ⟨sslCode, rfl, by simp [Elem.kind, parseK]⟩
  | startup fs => exact ⟨_, rfl, startup_spec fs h⟩
  | authentication r salt =>
    obtain ⟨a, ea⟩ := exists_packU (k := 4) h
    have la := length_packU ea
    refine ⟨a ++ salt, by simp only [serialize, ea, bind_ok, pure_ok], ?_⟩
    have ht : (a ++ salt).take 4 = a := by rw [← la, List.take_left]
    have hdr : (a ++ salt).drop 4 = salt := by rw [← la, List.drop_left]
    have hu : ulongUnpack a = .ok r := unpackFromU_packU ea
    simp only [Elem.kind, parseK, ht, hdr, hu, bind_ok, pure_ok]
  | str k d =>
    refine ⟨_, rfl, ?_⟩
    have h1 : (k.subtype ++ d ++ [0]).take k.subtype.length = k.subtype := by simp
    have h2 : (k.subtype ++ d ++ [0]).drop k.subtype.length = d ++ [0] := by simp
    simp only [Elem.kind, parseK, h1, h2, ne_eq, not_true_eq_false, if_false, List.getLast?_append,
      List.getLast?_singleton, Option.some_or, List.dropLast_concat]
  | parse n s l =>
    obtain ⟨hn, hs, hl, hr⟩ := h
    obtain ⟨a, ea⟩ := exists_packU (k := 2) (inU_of_nat (n := l.length) (k := 2) (by omega))
    obtain ⟨t, et, lt, ut⟩ := packAll_spec 4 l hr
    have la := length_packU ea
    refine ⟨n ++ [0] ++ s ++ [0] ++ a ++ t, by simp only [serialize, ea, et, bind_ok, pure_ok], ?_⟩
    have e : n ++ [0] ++ s ++ [0] ++ a ++ t = n ++ 0 :: (s ++ 0 :: (a ++ t)) := by simp
    have ht : (a ++ t).take 2 = a := by rw [← la, List.take_left]
    have hdr : (a ++ t).drop 2 = t := by rw [← la, List.drop_left]
    have hu : ushortUnpack a = .ok (l.length : Int) := unpackFromU_packU ea
    simp only [Elem.kind, parseK, e]
    rw [splitMax_succ_append hn, splitMax_succ_append hs]
    simp only [splitMax, ht, hdr, hu, bind_ok, lt, Int.toNat_natCast, ut, pure_ok]
    rw [if_neg (by simp)]
  | bind n s afs args rfs =>
    obtain ⟨hn, hs, ⟨ha1, ha2⟩, ⟨hg1, hg2⟩, ⟨hr1, hr2⟩, hlen⟩ := h
    obtain ⟨a, ea⟩ := exists_packU (k := 2) (inU_of_nat (n := args.length) (k := 2) (by omega))
    obtain ⟨r, er⟩ := exists_packU (k := 2) (inU_of_nat (n := rfs.length) (k := 2) (by omega))
    obtain ⟨t, et, ut⟩ := packTuple_loop args hg2
    have la := length_packU ea
    have lr := length_packU er
    obtain ⟨fa, fal⟩ := unpack2s_flatten afs ha2
    obtain ⟨fr, frl⟩ := unpack2s_flatten rfs hr2
    refine ⟨n ++ [0] ++ s ++ [0] ++ a ++ afs.flatten ++ a ++ t ++ r ++ rfs.flatten,
      by simp only [serialize, ea, et, er, bind_ok, pure_ok], ?_⟩
    have e : n ++ [0] ++ s ++ [0] ++ a ++ afs.flatten ++ a ++ t ++ r ++ rfs.flatten =
      n ++ 0 :: (s ++ 0 :: (a ++ afs.flatten ++ a ++ (t ++ (r ++ rfs.flatten)))) := by simp
    have ht : (a ++ afs.flatten ++ a ++ (t ++ (r ++ rfs.flatten))).take 2 = a := by
      simp only [List.append_assoc]; rw [← la, List.take_left]
    have hu : ushortUnpack a = .ok (args.length : Int) := unpackFromU_packU ea
    have hur : ushortUnpack r = .ok (rfs.length : Int) := unpackFromU_packU er
    have h1 : slice (a ++ afs.flatten ++ a ++ (t ++ (r ++ rfs.flatten))) 2 (2 + 2 * args.length) = afs.flatten := by
      simp only [List.append_assoc]
      rw [slice_append_right _ _ _ _ la.symm, Nat.add_sub_cancel_left, ← hlen, ← fal, List.take_left]
    have h2 : slice (a ++ afs.flatten ++ a ++ (t ++ (r ++ rfs.flatten))) (2 + 2 * args.length)
        (2 + 2 * args.length + 2) = a := by
      rw [List.append_assoc (a ++ afs.flatten), slice_append_right _ _ _ _ (by simp only [List.length_append]; omega), Nat.add_sub_cancel_left, ← la,
        List.take_left]
    have hloop := ut (a ++ afs.flatten ++ a) (r ++ rfs.flatten)
    have hll : (a ++ afs.flatten ++ a).length = 2 + 2 * args.length + 2 := by simp only [List.length_append]; omega
    rw [hll] at hloop
    have h3 : slice (a ++ afs.flatten ++ a ++ (t ++ (r ++ rfs.flatten))) (2 + 2 * args.length + 2 + t.length)
        (2 + 2 * args.length + 2 + t.length + 2) = r := by
      rw [show a ++ afs.flatten ++ a ++ (t ++ (r ++ rfs.flatten)) = (a ++ afs.flatten ++ a ++ t) ++ (r ++ rfs.flatten) by simp,
        slice_append_right _ _ _ _ (by simp only [List.length_append]; omega), Nat.add_sub_cancel_left, ← lr, List.take_left]
    have h4 : slice (a ++ afs.flatten ++ a ++ (t ++ (r ++ rfs.flatten))) (2 + 2 * args.length + 2 + t.length + 2)
        (2 + 2 * args.length + 2 + t.length + 2 + 2 * rfs.length) = rfs.flatten := by
      rw [show a ++ afs.flatten ++ a ++ (t ++ (r ++ rfs.flatten)) = (a ++ afs.flatten ++ a ++ t ++ r) ++ rfs.flatten by simp,
        slice_append_right _ _ _ _ (by simp only [List.length_append]; omega), Nat.add_sub_cancel_left, ← frl,
        List.take_of_length_le (Nat.le_refl _)]
    simp only [Elem.kind, parseK, e]
    rw [splitMax_succ_append hn, splitMax_succ_append hs]
    rw [hlen] at fa
    simp only [splitMax, ht, hu, bind_ok, Int.toNat_natCast, h1, fa, h2, hloop, h3, hur, h4, fr, pure_ok]
  | execute n m =>
    obtain ⟨a, ea⟩ := exists_packU h.2
    refine ⟨n ++ [0] ++ a, by simp only [serialize, ea, bind_ok, pure_ok], ?_⟩
    have e : n ++ [0] ++ a = n ++ 0 :: a := by simp
    have hu : ulongUnpack a = .ok m := unpackFromU_packU ea
    simp only [Elem.kind, parseK, e]
    rw [splitMax_succ_append h.1]
    simp only [splitMax, hu, bind_ok, pure_ok]
  | function o afs args rf =>
    obtain ⟨ho, ⟨ha1, ha2⟩, ⟨hg1, hg2⟩, hlen⟩ := h
    obtain ⟨a, ea⟩ := exists_packU (k := 2) (inU_of_nat (n := args.length) (k := 2) (by omega))
    obtain ⟨p, ep⟩ := exists_packU ho
    obtain ⟨t, et, ut⟩ := packTuple_loop args hg2
    have la := length_packU ea
    have lp := length_packU ep
    obtain ⟨fa, fal⟩ := unpack2s_flatten afs ha2
    refine ⟨p ++ a ++ afs.flatten ++ a ++ t ++ rf, by simp only [serialize, ea, et, ep, bind_ok, pure_ok], ?_⟩
    have e : p ++ a ++ afs.flatten ++ a ++ t ++ rf = p ++ a ++ afs.flatten ++ a ++ (t ++ rf) := by simp
    rw [e]
    have hu : ushortUnpack a = .ok (args.length : Int) := unpackFromU_packU ea
    have hup : ulongUnpack p = .ok o := unpackFromU_packU ep
    have ht : (p ++ a ++ afs.flatten ++ a ++ (t ++ rf)).take 4 = p := by
      simp only [List.append_assoc]; rw [← lp, List.take_left]
    have h0 : slice (p ++ a ++ afs.flatten ++ a ++ (t ++ rf)) 4 6 = a := by
      simp only [List.append_assoc]
      rw [slice_append_right _ _ _ _ lp.symm, List.take_append_of_le_length (by omega), List.take_of_length_le (by omega)]
    have h1 : slice (p ++ a ++ afs.flatten ++ a ++ (t ++ rf)) 6 (6 + 2 * args.length) = afs.flatten := by
      rw [show p ++ a ++ afs.flatten ++ a ++ (t ++ rf) = (p ++ a) ++ (afs.flatten ++ (a ++ (t ++ rf))) by simp,
        slice_append_right _ _ _ _ (by simp only [List.length_append]; omega), Nat.add_sub_cancel_left, ← hlen, ← fal, List.take_left]
    have h2 : slice (p ++ a ++ afs.flatten ++ a ++ (t ++ rf)) (6 + 2 * args.length) (6 + 2 * args.length + 2) = a := by
      rw [show p ++ a ++ afs.flatten ++ a ++ (t ++ rf) = (p ++ a ++ afs.flatten) ++ (a ++ (t ++ rf)) by simp,
        slice_append_right _ _ _ _ (by simp only [List.length_append]; omega), Nat.add_sub_cancel_left, ← la, List.take_left]
    have hloop := ut (p ++ a ++ afs.flatten ++ a) rf
    have hll : (p ++ a ++ afs.flatten ++ a).length = 6 + 2 * args.length + 2 := by simp only [List.length_append]; omega
    rw [hll] at hloop
    have h3 : (p ++ a ++ afs.flatten ++ a ++ (t ++ rf)).drop (6 + 2 * args.length + 2 + t.length) = rf := by
      rw [show p ++ a ++ afs.flatten ++ a ++ (t ++ rf) = (p ++ a ++ afs.flatten ++ a ++ t) ++ rf by simp]
      have : (p ++ a ++ afs.flatten ++ a ++ t).length = 6 + 2 * args.length + 2 + t.length := by
        simp only [List.length_append]; omega
      rw [← this, List.drop_left]
    rw [hlen] at fa
    simp only [Elem.kind, parseK, ht, hup, h0, hu, bind_ok, Int.toNat_natCast, h1, fa, h2, hloop, h3, pure_ok]
  | copyToBegin f fs =>
    obtain ⟨a, b, t, ea, eb, et, hp⟩ := copyBegin_spec f fs h.1 h.2.1 h.2.2
    exact ⟨a ++ b ++ t, by simp only [serialize, ea, eb, et, bind_ok, pure_ok],
      by simp only [Elem.kind, parseK, hp, bind_ok, pure_ok]⟩
  | copyFromBegin f fs =>
    obtain ⟨a, b, t, ea, eb, et, hp⟩ := copyBegin_spec f fs h.1 h.2.1 h.2.2
    exact ⟨a ++ b ++ t, by simp only [serialize, ea, eb, et, bind_ok, pure_ok],
      by simp only [Elem.kind, parseK, hp, bind_ok, pure_ok]⟩
  | copyData d => exact ⟨d, rfl, rfl⟩

end PG.Element3
