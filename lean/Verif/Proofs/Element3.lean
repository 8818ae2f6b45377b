import Verif.Spec.Elements
import Verif.Proofs.Struct
/-! Helper lemmas for the element round trips. -/
namespace PG.Element3
open PG PG.Spec

attribute [local irreducible] beDec beEnc

@[simp] theorem bind_ok {ε α β} (a : α) (f : α → Except ε β) : (Except.ok a >>= f) = f a := rfl
@[simp] theorem bind_err {ε α β} (e : ε) (f : α → Except ε β) : (Except.error e >>= f) = Except.error e := rfl
@[simp] theorem pure_ok {ε α} (a : α) : (pure a : Except ε α) = Except.ok a := rfl
@[simp] theorem throw_err {ε α} (e : ε) : (throw e : Except ε α) = Except.error e := rfl

theorem beDec_nullSeq : beDec nullSeq = 2 ^ 32 - 1 := by
  unfold nullSeq; simp [beDec_cons]

theorem inU_of_nat {k n : Nat} (h : n < 256 ^ k) : 0 ≤ (n : Int) ∧ (n : Int) < 256 ^ k :=
  ⟨by omega, by rw [← cast_pow256]; exact Int.ofNat_lt.mpr h⟩

theorem packTuple_loop (atts : List (Option Bytes)) (h : ∀ x ∈ atts, ∀ d, x = some d → d.length < 2 ^ 32 - 1) :
    ∃ b, packTupleData atts = .ok b ∧ ∀ pre post : Bytes,
      attLoop (pre ++ (b ++ post)) atts.length pre.length = .ok (atts, pre.length + b.length) := by
  induction atts with
  | nil => exact ⟨[], rfl, by simp [attLoop]⟩
  | cons x atts ih =>
    obtain ⟨b, hb, hl⟩ := ih (fun x hx => h x (by simp [hx]))
    cases x with
    | none =>
      refine ⟨nullSeq ++ b, by simp [packTupleData, hb], ?_⟩
      intro pre post
      have hs : slice (pre ++ (nullSeq ++ b ++ post)) pre.length (pre.length + 4) = nullSeq := by
        rw [slice_append_right _ _ _ _ rfl, Nat.add_sub_cancel_left]; simp [nullSeq]
      have := hl (pre ++ nullSeq) post
      have hln : (pre ++ nullSeq).length = pre.length + 4 := by simp [nullSeq]
      rw [hln] at this
      have he : pre ++ (nullSeq ++ b ++ post) = pre ++ nullSeq ++ (b ++ post) := by simp
      simp only [List.length_cons, attLoop, hs, if_true]
      rw [he, this]
      simp [nullSeq]; omega
    | some d =>
      have hd := h (some d) (by simp) d rfl
      obtain ⟨hh, hhe⟩ := exists_packU (k := 4) (inU_of_nat (n := d.length) (k := 4) (by omega))
      have hhl := length_packU hhe
      refine ⟨hh ++ d ++ b, by simp [packTupleData, hb, hhe], ?_⟩
      intro pre post
      have hs : slice (pre ++ (hh ++ d ++ b ++ post)) pre.length (pre.length + 4) = hh := by
        rw [slice_append_right _ _ _ _ rfl, Nat.add_sub_cancel_left, List.append_assoc, List.append_assoc,
          List.take_append_of_le_length (by omega), List.take_of_length_le (by omega)]
      have hne : hh ≠ nullSeq := by
        intro hc
        have h1 := beDec_packU hhe
        rw [hc, beDec_nullSeq] at h1
        omega
      have hd2 : slice (pre ++ (hh ++ d ++ b ++ post)) (pre.length + 4) (pre.length + 4 + d.length) = d := by
        have : pre ++ (hh ++ d ++ b ++ post) = (pre ++ hh) ++ (d ++ (b ++ post)) := by simp
        rw [this, slice_append_right _ _ _ _ (by simp [hhl]), Nat.add_sub_cancel_left]
        simp
      have := hl (pre ++ hh ++ d) post
      have hln : (pre ++ hh ++ d).length = pre.length + 4 + d.length := by simp [hhl]; omega
      rw [hln] at this
      have he : pre ++ (hh ++ d ++ b ++ post) = pre ++ hh ++ d ++ (b ++ post) := by simp
      have hu : ulongUnpack hh = .ok (d.length : Int) := unpackFromU_packU hhe
      simp only [List.length_cons, attLoop, hs, if_neg hne, hu, bind_ok, Int.toNat_natCast, hd2]
      rw [he, this]
      simp; omega

theorem packAll_spec (k : Nat) (l : List Int) (h : ∀ x ∈ l, InU k x) :
    ∃ b, packAll (packU k) l = .ok b ∧ b.length = l.length * k ∧ unpackAllU k l.length b = l := by
  induction l with
  | nil => exact ⟨[], rfl, by simp, rfl⟩
  | cons x l ih =>
    obtain ⟨b, hb, hl, hu⟩ := ih (fun x hx => h x (by simp [hx]))
    obtain ⟨hh, hhe⟩ := exists_packU (h x (by simp))
    have hhl := length_packU hhe
    refine ⟨hh ++ b, by simp [packAll, hb, hhe], ?_, ?_⟩
    · simp [hl, hhl, Nat.add_mul]; omega
    · simp only [List.length_cons, unpackAllU]
      rw [List.take_append_of_le_length (by omega), List.take_of_length_le (by omega), beDec_packU hhe,
        ← hhl, List.drop_left, hhl, hu]

theorem unpack2s_flatten (l : List Bytes) (h : ∀ x ∈ l, x.length = 2) :
    unpack2s l.length l.flatten = .ok l ∧ l.flatten.length = 2 * l.length := by
  induction l with
  | nil => exact ⟨rfl, rfl⟩
  | cons x l ih =>
    obtain ⟨i1, i2⟩ := ih (fun x hx => h x (by simp [hx]))
    have hx := h x (by simp)
    match x, hx with
    | [a, b], _ =>
      constructor
      · simp [unpack2s, i1]
      · simp [i2]; omega

theorem unpackU_of_packU' {k : Nat} {n : Int} {b : Bytes} (h : packU k n = .ok b) :
    ∃ m : Nat, unpackU k b = .ok m ∧ (m : Int) = n := by
  obtain ⟨h1, h2⟩ := unpackU_of_packU h
  exact ⟨_, h1, Int.toNat_of_nonneg h2⟩

theorem parseCols_spec (cs : List ColDesc) (h : ∀ c ∈ cs, ColOk c) :
    ∃ b, packCols cs = .ok b ∧ ∀ post, parseCols cs.length (b ++ post) = .ok cs := by
  induction cs with
  | nil => exact ⟨[], rfl, by simp [parseCols]⟩
  | cons c cs ih =>
    obtain ⟨b, hb, hl⟩ := ih (fun x hx => h x (by simp [hx]))
    obtain ⟨hn, h1, h2, h3, h4, h5, h6⟩ := h c (by simp)
    obtain ⟨b1, e1⟩ := exists_packU h1
    obtain ⟨b2, e2⟩ := exists_packS h2
    obtain ⟨b3, e3⟩ := exists_packU h3
    obtain ⟨b4, e4⟩ := exists_packS h4
    obtain ⟨b5, e5⟩ := exists_packS h5
    obtain ⟨b6, e6⟩ := exists_packS h6
    have l1 := length_packU e1
    have l2 := length_packS e2
    have l3 := length_packU e3
    have l4 := length_packS e4
    have l5 := length_packS e5
    have l6 := length_packS e6
    obtain ⟨m1, u1, v1⟩ := unpackU_of_packU' e1
    obtain ⟨m3, u3, v3⟩ := unpackU_of_packU' e3
    have u2 := unpackS_of_packS e2
    have u4 := unpackS_of_packS e4
    have u5 := unpackS_of_packS e5
    have u6 := unpackS_of_packS e6
    refine ⟨c.name ++ [0] ++ (b1 ++ b2 ++ b3 ++ b4 ++ b5 ++ b6) ++ b, ?_, ?_⟩
    · simp only [packCols, packCol, hb, e1, e2, e3, e4, e5, e6, bind_ok, pure_ok]
    · intro post
      have hbr : breakOn 0 (c.name ++ [0] ++ (b1 ++ b2 ++ b3 ++ b4 ++ b5 ++ b6) ++ b ++ post) =
          (c.name, some ((b1 ++ b2 ++ b3 ++ b4 ++ b5 ++ b6) ++ (b ++ post))) := by
        have := breakOn_append hn ((b1 ++ b2 ++ b3 ++ b4 ++ b5 ++ b6) ++ (b ++ post))
        rw [← this]
        congr 1
        simp
      have hlen : (b1 ++ b2 ++ b3 ++ b4 ++ b5 ++ b6).length = 18 := by simp; omega
      have ht : ((b1 ++ b2 ++ b3 ++ b4 ++ b5 ++ b6) ++ (b ++ post)).take 18 = b1 ++ b2 ++ b3 ++ b4 ++ b5 ++ b6 := by
        rw [← hlen, List.take_left]
      have hd : ((b1 ++ b2 ++ b3 ++ b4 ++ b5 ++ b6) ++ (b ++ post)).drop 18 = b ++ post := by
        rw [← hlen, List.drop_left]
      have s1 : slice (b1 ++ b2 ++ b3 ++ b4 ++ b5 ++ b6) 0 4 = b1 := by
        simp only [List.append_assoc, slice_zero]
        rw [← l1, List.take_left]
      have s2 : slice (b1 ++ b2 ++ b3 ++ b4 ++ b5 ++ b6) 4 6 = b2 := by
        simp only [List.append_assoc]
        rw [slice_append_right _ _ _ _ l1.symm, List.take_append_of_le_length (by omega), List.take_of_length_le (by omega)]
      have s3 : slice (b1 ++ b2 ++ b3 ++ b4 ++ b5 ++ b6) 6 10 = b3 := by
        have : b1 ++ b2 ++ b3 ++ b4 ++ b5 ++ b6 = (b1 ++ b2) ++ (b3 ++ (b4 ++ b5 ++ b6)) := by simp
        rw [this, slice_append_right _ _ _ _ (by simp; omega), List.take_append_of_le_length (by omega),
          List.take_of_length_le (by omega)]
      have s4 : slice (b1 ++ b2 ++ b3 ++ b4 ++ b5 ++ b6) 10 12 = b4 := by
        have : b1 ++ b2 ++ b3 ++ b4 ++ b5 ++ b6 = (b1 ++ b2 ++ b3) ++ (b4 ++ (b5 ++ b6)) := by simp
        rw [this, slice_append_right _ _ _ _ (by simp; omega), List.take_append_of_le_length (by omega),
          List.take_of_length_le (by omega)]
      have s5 : slice (b1 ++ b2 ++ b3 ++ b4 ++ b5 ++ b6) 12 16 = b5 := by
        have : b1 ++ b2 ++ b3 ++ b4 ++ b5 ++ b6 = (b1 ++ b2 ++ b3 ++ b4) ++ (b5 ++ b6) := by simp
        rw [this, slice_append_right _ _ _ _ (by simp; omega), List.take_append_of_le_length (by omega),
          List.take_of_length_le (by omega)]
      have s6 : slice (b1 ++ b2 ++ b3 ++ b4 ++ b5 ++ b6) 16 18 = b6 := by
        rw [slice_append_right _ _ _ _ (by simp; omega), List.take_of_length_le (by omega)]
      simp only [List.length_cons, parseCols, hbr, ht, hd, hlen, ne_eq, not_true_eq_false, if_false,
        s1, s2, s3, s4, s5, s6, u1, u2, u3, u4, u5, u6, hl post, bind_ok, pure_ok]
      rw [v1, v3]

theorem length_serialize_str_take (k : StrKind) (d : Bytes) :
    (k.subtype ++ d ++ [0]).take k.subtype.length = k.subtype := by simp

theorem noticeFields_ok (fs : List (Bytes × Option Bytes)) (h : FieldsOk fs) :
    ∃ parts : List Bytes, noticeFields fs = parts ∧ parts.length = fs.length ∧ (∀ p ∈ parts, (0 : UInt8) ∉ p) ∧
      parts.filterMap noticeField = fs := by
  obtain ⟨-, h⟩ := h
  induction fs with
  | nil => exact ⟨[], rfl, rfl, by simp, rfl⟩
  | cons f fs ih =>
    obtain ⟨parts, h1, h2, h3, h4⟩ := ih (fun x hx => h x (by simp [hx]))
    obtain ⟨⟨c, hc, hc0⟩, v, hv, hvn⟩ := h f (by simp)
    obtain ⟨fk, fv⟩ := f
    simp only at hc hv
    subst hc; subst hv
    refine ⟨(c :: v) :: parts, ?_, by simp [h2], ?_, ?_⟩
    · simp only [noticeFields, List.filterMap_cons]
      simp only [noticeFields] at h1
      rw [h1]; simp
    · intro p hp
      rcases List.mem_cons.mp hp with rfl | hp
      · simp only [List.mem_cons, not_or]; exact ⟨Ne.symm hc0, hvn⟩
      · exact h3 p hp
    · simp [h4, noticeField]

theorem parseNotice_spec (fs : List (Bytes × Option Bytes)) (h : FieldsOk fs) :
    parseNotice (joinWith [0] (noticeFields fs) ++ [0]) = fs := by
  obtain ⟨parts, h1, h2, h3, h4⟩ := noticeFields_ok fs h
  unfold parseNotice
  rw [h1]
  cases parts with
  | nil =>
    have : fs = [] := by simpa using h2.symm
    subst this
    rfl
  | cons p r =>
    have e : joinWith [0] (p :: r) ++ [0] = joinWith [0] ((p :: r) ++ [[]]) := by
      rw [joinWith_append_singleton _ (by simp)]; simp
    rw [e, splitAll_join _ (by simp) (by
      intro q hq
      rcases List.mem_append.mp hq with hq | hq
      · exact h3 q hq
      · rw [List.mem_singleton.mp hq]; simp)]
    rw [List.filterMap_append, h4]
    have e2 : List.filterMap noticeField [[]] = [] := rfl
    rw [e2, List.append_nil]
    exact dictOf_nodup fs h.1

theorem startupPairs_spec (fs kw : List (Bytes × Option Bytes)) (h : ((kw ++ fs).map (·.1)).Nodup)
    (hv : ∀ f ∈ fs, ∃ v, f.2 = some v) :
    startupPairs kw none (fs.flatMap fun x => [x.1, x.2.getD []]) = kw ++ fs := by
  induction fs generalizing kw with
  | nil => simp [startupPairs]
  | cons f fs ih =>
    obtain ⟨v, hv'⟩ := hv f (by simp)
    obtain ⟨k, fv⟩ := f
    simp only at hv'
    subst hv'
    have hk : k ∉ kw.map (·.1) := by
      simp only [List.map_append, List.map_cons] at h
      have := List.nodup_append.mp h
      intro hc
      exact this.2.2 _ hc _ (by simp) rfl
    simp only [List.flatMap_cons, List.cons_append, List.nil_append, startupPairs, Option.getD_some]
    rw [dictSet_append_of_not_mem _ _ _ hk, ih]
    · simp
    · simpa using h
    · exact fun f hf => hv f (by simp [hf])

theorem startupItems_join (fs : List (Bytes × Option Bytes)) (hv : ∀ f ∈ fs, ∃ v, f.2 = some v) :
    startupItems fs ++ [0] = joinWith [0] ((fs.flatMap fun x => [x.1, x.2.getD []]) ++ [[], []]) := by
  induction fs with
  | nil => rfl
  | cons f fs ih =>
    obtain ⟨v, hv'⟩ := hv f (by simp)
    obtain ⟨k, fv⟩ := f
    simp only at hv'
    subst hv'
    have ih := ih (fun f hf => hv f (by simp [hf]))
    simp only [List.flatMap_cons, List.cons_append, List.nil_append, Option.getD_some]
    rw [joinWith_cons _ _ (by simp), joinWith_cons _ _ (by simp), ← ih]
    simp [startupItems]

theorem startup_spec (fs : List (Bytes × Option Bytes)) (h : ParamsOk fs) :
    parseK .startup (v3Code ++ startupItems fs ++ [0]) = .ok (.startup fs) := by
  obtain ⟨hn, hf⟩ := h
  have hl : v3Code.length = 4 := by simp [v3Code, versionBytes]
  have ht : (v3Code ++ startupItems fs ++ [0]).take 4 = v3Code := by
    rw [List.append_assoc, ← hl, List.take_left]
  have hd : (v3Code ++ startupItems fs ++ [0]).drop 4 = startupItems fs ++ [0] := by
    rw [List.append_assoc, ← hl, List.drop_left]
  have hv : ∀ f ∈ fs, ∃ v, f.2 = some v := fun f h => let ⟨_, v, hv, _⟩ := hf f h; ⟨v, hv⟩
  simp only [parseK, ht, hd, ne_eq, not_true_eq_false, if_false]
  rw [startupItems_join fs hv, splitAll_join _ (by simp)]
  · have hlen : ∀ l : List Bytes, (l ++ [[], []]).length - 2 = l.length := by intro l; simp
    rw [hlen, List.take_left, startupPairs_spec fs [] (by simpa using hn) hv]
    simp
  · intro p hp
    rcases List.mem_append.mp hp with hp | hp
    · obtain ⟨f, hf1, hf2⟩ := List.mem_flatMap.mp hp
      obtain ⟨a, v, b, c⟩ := hf f hf1
      obtain ⟨k, fv⟩ := f
      simp only at b a
      subst b
      simp at hf2
      rcases hf2 with rfl | rfl
      · exact a
      · exact c
    · simp at hp; subst hp; simp

end PG.Element3
