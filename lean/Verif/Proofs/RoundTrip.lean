import Verif.Props.Types
import Verif.Props.Convert
import Verif.Spec.RoundTrip
/-! # Proofs for C78 -/
namespace PG.Proofs.RoundTrip
open PG PG.TypesLib PG.Spec PG.Spec.Types PG.Spec.Format PG.Convert PG.Spec.Convert PG.Spec.RoundTrip PG.Proofs.Convert PG.Props.Convert PG.Element3

variable {A B C V : Type} {W : World V}

theorem converted {f : Nat → A → Except Exn B} {xs : List (Option A)} {ys : List (Option B)} (hn : SameNulls xs ys) (h : ∀ (i : Nat) x y, xs[i]? = some (some x) → ys[i]? = some (some y) → f i x = .ok y) :
    Converted f xs ys := by
  refine ⟨hn.1, fun i x hx => ?_⟩
  cases x with
  | none => exact .inl ⟨rfl, (hn.2 i).1 hx⟩
  | some a =>
    right
    have hi : i < ys.length := by
      have := (List.getElem?_eq_some_iff.1 hx).1
      rw [hn.1]; exact this
    cases hy : ys[i]? with
    | none => rw [List.getElem?_eq_none_iff] at hy; omega
    | some y =>
      cases y with
      | none => rw [(hn.2 i).2 hy] at hx; cases hx
      | some b => exact ⟨a, b, rfl, h i a b hx hy, rfl⟩

theorem same_of_converted {f : Nat → A → Except Exn B} {xs : List (Option A)} {ys : List (Option B)} (h : Converted f xs ys) :
    SameNulls xs ys ∧ ∀ (i : Nat) x y, xs[i]? = some (some x) → ys[i]? = some (some y) → f i x = .ok y := by
  refine ⟨⟨h.1, fun i => ⟨fun hi => ?_, fun hi => ?_⟩⟩, fun i x y hx hy => ?_⟩
  · rcases h.2 i none hi with ⟨_, h⟩ | ⟨a, b, h, _⟩
    · exact h
    · cases h
  · have hl : i < xs.length := by
      have := (List.getElem?_eq_some_iff.1 hi).1
      rw [← h.1]; exact this
    cases hx : xs[i]? with
    | none => rw [List.getElem?_eq_none_iff] at hx; omega
    | some x =>
      rcases h.2 i x hx with ⟨rfl, _⟩ | ⟨a, b, rfl, _, h⟩
      · rfl
      · rw [hi] at h; cases h
  · rcases h.2 i (some x) hx with ⟨h, _⟩ | ⟨a, b, h1, h2, h3⟩
    · cases h
    · cases h1
      rw [hy] at h3
      cases h3
      exact h2

theorem sn_symm {xs : List (Option A)} {ys : List (Option B)} (h : SameNulls xs ys) : SameNulls ys xs := ⟨h.1.symm, fun i => (h.2 i).symm⟩
theorem sn_trans {xs : List (Option A)} {ys : List (Option B)} {zs : List (Option C)} (h : SameNulls xs ys) (h' : SameNulls ys zs) : SameNulls xs zs :=
  ⟨h'.1.trans h.1, fun i => (h.2 i).trans (h'.2 i)⟩

/-- Where one has a value the other has. -/
theorem sn_some {xs : List (Option A)} {ys : List (Option B)} (h : SameNulls xs ys) {i : Nat} {x : A} (hx : xs[i]? = some (some x)) : ∃ y, ys[i]? = some (some y) := by
  have hi : i < ys.length := by
    have := (List.getElem?_eq_some_iff.1 hx).1
    rw [h.1]; exact this
  cases hy : ys[i]? with
  | none => rw [List.getElem?_eq_none_iff] at hy; omega
  | some y =>
    cases y with
    | none => rw [(h.2 i).2 hy] at hx; cases hx
    | some b => exact ⟨b, rfl⟩

theorem value_length (x : Option Bytes) : 4 ≤ (encs (Format.value x)).length := by
  cases x with
  | none => simp [encs, Format.value, enc, length_digits]
  | some b => simp [encs, Format.value, enc, length_digits]

theorem elements_length (es : List (Option Bytes)) : es.length ≤ (encs (es.flatMap Format.value)).length := by
  induction es with
  | nil => simp
  | cons x es ih =>
    have := value_length x
    rw [List.flatMap_cons, encs_append, List.length_append, List.length_cons]
    omega

theorem array_fuel (a : RawArray) : a.elements.length ≤ (encs (arrayFields a)).length := by
  have := elements_length a.elements
  unfold arrayFields
  rw [encs_append, List.length_append]
  omega

theorem arrayParts_ok {a : RawArray} (h : ArrayOk a) : arrayParts (encs (arrayFields a)) = .ok a := by
  have := (PG.Props.Types.C20_array_round_trip a h).2 ((encs (arrayFields a)).length + 1) (by have := array_fuel a; omega)
  unfold arrayParts
  rw [this]

theorem attr_pack {fields : List (Ty V)} {i : Nat} {x : V} {b : Bytes} (hi : i < fields.length) (h : ∀ c, fields[i]? = some c → run PACK W.repr (packer W c) x = .ok b) :
    attrOf PACK W.repr (packers W fields) i x = .ok b := by
  unfold attrOf
  rw [packers_getElem]
  cases hc : fields[i]? with
  | none => rw [List.getElem?_eq_none_iff] at hc; omega
  | some c => exact h c hc

theorem attr_unpack {fields : List (Ty V)} {i : Nat} {x : V} {b : Bytes} (hi : i < fields.length) (h : ∀ c, fields[i]? = some c → run UNPACK reprBytes (unpacker W c) b = .ok x) :
    attrOf UNPACK reprBytes (unpackers W fields) i b = .ok x := by
  unfold attrOf
  rw [unpackers_getElem]
  cases hc : fields[i]? with
  | none => rw [List.getElem?_eq_none_iff] at hc; omega
  | some c => exact h c hc

theorem sent_array {t : Nat} {el : Ty V} {v : V} {es dims lbs bs es' v'} (hp : W.parts v = .ok (es, dims, lbs)) (hb : SameNulls es bs) (hr : SameNulls es es')
    (he : ∀ (i : Nat) x b x', es[i]? = some (some x) → bs[i]? = some (some b) → es'[i]? = some (some x') → run PACK W.repr (packer W el) x = .ok b ∧ run UNPACK reprBytes (unpacker W el) b = .ok x')
    (ok : ArrayOk ⟨0, t, dims, lbs, bs⟩) (made : W.fromParts es' dims lbs = .ok v') :
    run PACK W.repr (packer W (.array t el true true)) v = .ok (encs (arrayFields ⟨0, t, dims, lbs, bs⟩)) ∧ run UNPACK reprBytes (unpacker W (.array t el true true)) (encs (arrayFields ⟨0, t, dims, lbs, bs⟩)) = .ok v' := by
  have h1 : eachItem (run PACK W.repr (packer W el)) es = .ok bs := eachItem_ok.2 (converted hb fun i x b hx hb' => by
    obtain ⟨x', hx'⟩ := sn_some hr hx
    exact (he i x b x' hx hb' hx').1)
  have h2 : eachItem (run UNPACK reprBytes (unpacker W el)) bs = .ok es' := eachItem_ok.2 (converted (sn_trans (sn_symm hb) hr) fun i b x' hb' hx' => by
    obtain ⟨x, hx⟩ := sn_some (sn_symm hb) hb'
    exact (he i x b x' hx hb' hx').2)
  have h3 := (PG.Props.Types.C20_array_round_trip _ ok).1
  have h4 := arrayParts_ok ok
  clear ok he
  constructor
  · rw [packer, if_pos rfl, run, hp]
    dsimp only
    rw [h1]
    dsimp only
    rw [h3]
    rfl
  · rw [unpacker, if_pos rfl, run, h4]
    dsimp only
    rw [h2]
    dsimp only
    rw [made]
    rfl

theorem sent_record {n : Names} {typids : List Int} {fields : List (Ty V)} {v : V} {xs bs xs'} (hp : W.attrs n.atts v = .ok xs) (hl : xs.length = fields.length) (ht : typids.length = fields.length) (hb : SameNulls xs bs)
    (hr : SameNulls xs xs') (he : ∀ (i : Nat) c x b x', fields[i]? = some c → xs[i]? = some (some x) → bs[i]? = some (some b) → xs'[i]? = some (some x') →
      run PACK W.repr (packer W c) x = .ok b ∧ run UNPACK reprBytes (unpacker W c) b = .ok x') (ok : RecordOk (typids.zip bs)) :
    run PACK W.repr (packer W (.record n typids fields)) v = .ok (encs (recordFields (typids.zip bs))) ∧
    run UNPACK reprBytes (unpacker W (.record n typids fields)) (encs (recordFields (typids.zip bs))) = .ok (W.row n.atts xs') := by
  have hlt : ∀ {i : Nat} {x : V}, xs[i]? = some (some x) → i < fields.length := fun hx => by rw [← hl]; exact (List.getElem?_eq_some_iff.1 hx).1
  have h1 : processTuple (compositeError PACK n) W.repr (runs PACK W.repr (packers W fields)) xs = .ok bs := processTuple_ok.2 ⟨by rw [packers_length, hl], converted hb fun i x b hx hb' => by
    obtain ⟨x', hx'⟩ := sn_some hr hx
    exact attr_pack (hlt hx) fun c hc => (he i c x b x' hc hx hb' hx').1⟩
  have h2 : processTuple (compositeError UNPACK n) reprBytes (runs UNPACK reprBytes (unpackers W fields)) bs = .ok xs' := processTuple_ok.2 ⟨by rw [unpackers_length, hb.1, hl], converted (sn_trans (sn_symm hb) hr) fun i b x' hb' hx' => by
    obtain ⟨x, hx⟩ := sn_some (sn_symm hb) hb'
    exact attr_unpack (hlt hx) fun c hc => (he i c x b x' hc hx hb' hx').2⟩
  obtain ⟨h3, h4⟩ := PG.Props.Types.C20_record_round_trip _ ok
  have hz : (typids.zip bs).map Prod.snd = bs := by
    rw [List.map_snd_zip]
    rw [ht, hb.1, hl]; exact Nat.le_refl _
  clear ok he
  constructor
  · rw [packer, run, hp]
    dsimp only
    rw [h1]
    dsimp only
    rw [h3]
    rfl
  · rw [unpacker, run, h4]
    dsimp only
    rw [hz, h2]
    rfl

theorem sent_run {t : Ty V} {v v' : V} {b : Bytes} (h : Sent W t v b v') : run PACK W.repr (packer W t) v = .ok b ∧ run UNPACK reprBytes (unpacker W t) b = .ok v' := by
  induction h with
  | base hp hu => simp only [packer, unpacker, run, hp, hu, lift]; exact ⟨trivial, trivial⟩
  | text hp hu => exact ⟨by simp only [packer, Bool.false_eq_true, if_false, run, hp, lift], by simp only [unpacker, Bool.false_eq_true, if_false, run, hu, lift]⟩
  | array hp hb hr _ ok made ih => exact sent_array hp hb hr ih ok made
  | record hp hl ht hb hr _ ok ih => exact sent_record hp hl ht hb hr ih ok

/-! ## Completeness -/

theorem nat_of_inS {n : Nat} (h : InS 4 (n : Int)) : n < 2 ^ 31 := by
  obtain ⟨_, h⟩ := h
  have : (256 : Int) ^ 4 = 4294967296 := by decide
  omega

theorem int4_of_inS {n : Int} (h : InS 4 n) : Int4 n := by
  obtain ⟨h1, h2⟩ := h
  have : (256 : Int) ^ 4 = 4294967296 := by decide
  constructor <;> omega

theorem oid_of_inU {n : Int} (h : InU 4 n) : 0 ≤ n ∧ n < 2 ^ 32 := by
  obtain ⟨h1, h2⟩ := h
  have : (256 : Int) ^ 4 = 4294967296 := by decide
  constructor <;> omega

theorem recordAtts_fits : ∀ {r : List (Int × Option Bytes)} {b : Bytes}, recordAtts r = .ok b → ∀ p ∈ r, (0 ≤ p.1 ∧ p.1 < 2 ^ 32) ∧ ∀ d, p.2 = some d → d.length < 2 ^ 31
  | [], _, _, p, hp => by cases hp
  | (o, y) :: r, b, h, p, hp => by
    unfold recordAtts at h
    obtain ⟨o', ho, h⟩ := bind_eq_ok h
    have ho := oid_of_inU (packU_iff.1 ho).1
    cases y with
    | none =>
      dsimp only at h
      obtain ⟨v, hv, h⟩ := bind_eq_ok h
      obtain ⟨t, ht, h⟩ := bind_eq_ok h
      rcases List.mem_cons.1 hp with rfl | hp
      · exact ⟨ho, fun d hd => by cases hd⟩
      · exact recordAtts_fits ht p hp
    | some d =>
      dsimp only at h
      obtain ⟨l, hl, h⟩ := bind_eq_ok h
      obtain ⟨v, hv, h⟩ := bind_eq_ok h
      obtain ⟨t, ht, h⟩ := bind_eq_ok h
      rcases List.mem_cons.1 hp with rfl | hp
      · exact ⟨ho, fun d hd => by cases hd; exact nat_of_inS (packS_iff.1 hl).1⟩
      · exact recordAtts_fits ht p hp

theorem recordPack_fits {r : List (Int × Option Bytes)} {b : Bytes} (h : recordPack r = .ok b) : RecordOk r := by
  unfold recordPack at h
  obtain ⟨l, hl, h⟩ := bind_eq_ok h
  obtain ⟨t, ht, _⟩ := bind_eq_ok h
  exact ⟨nat_of_inS (packS_iff.1 hl).1, recordAtts_fits ht⟩

theorem elementsPack_fits {P : Nat → Prop} (hP : ∀ (n : Nat) b, longPack (n : Int) = .ok b → P n) : ∀ {es : List (Option Bytes)} {b : Bytes}, elementsPack es = .ok b → ∀ x ∈ es, ∀ d, x = some d → P d.length := by
  intro es
  induction es with
  | nil => intro b _ x hx; cases hx
  | cons y es ih =>
    intro b h x hx d hd
    cases y with
    | none =>
      unfold elementsPack at h
      obtain ⟨t, ht, _⟩ := bind_eq_ok h
      rcases List.mem_cons.1 hx with rfl | hx
      · cases hd
      · exact ih ht x hx d hd
    | some y =>
      unfold elementsPack at h
      obtain ⟨l, hl, h⟩ := bind_eq_ok h
      obtain ⟨t, ht, _⟩ := bind_eq_ok h
      rcases List.mem_cons.1 hx with rfl | hx
      · cases hd
        exact hP _ _ hl
      · exact ih ht x hx d hd

theorem longsPack_fits : ∀ {l : List Int} {b : Bytes}, longsPack l = .ok b → ∀ x ∈ l, Int4 x
  | [], _, _, x, hx => by cases hx
  | y :: l, b, h, x, hx => by
    unfold longsPack at h
    obtain ⟨c, hl, h⟩ := bind_eq_ok h
    obtain ⟨t, ht, _⟩ := bind_eq_ok h
    rcases List.mem_cons.1 hx with rfl | hx
    · exact int4_of_inS (packS_iff.1 hl).1
    · exact longsPack_fits ht x hx

theorem mem_zip_left {a b : List Int} (h : a.length = b.length) {x : Int} (hx : x ∈ a) : ∃ y, (x, y) ∈ a.zip b := by
  have : x ∈ (a.zip b).map Prod.fst := by rw [List.map_fst_zip]; exact hx; omega
  obtain ⟨⟨p, q⟩, hp, rfl⟩ := List.mem_map.1 this
  exact ⟨q, hp⟩
theorem mem_zip_right {a b : List Int} (h : a.length = b.length) {x : Int} (hx : x ∈ b) : ∃ y, (y, x) ∈ a.zip b := by
  have : x ∈ (a.zip b).map Prod.snd := by rw [List.map_snd_zip]; exact hx; omega
  obtain ⟨⟨p, q⟩, hp, rfl⟩ := List.mem_map.1 this
  exact ⟨p, hp⟩

theorem arrayPack_fits {a : RawArray} {b : Bytes} (hd : a.dims.length = a.lbs.length) (h : arrayPack a = .ok b) : ArrayOk a := by
  unfold arrayPack at h
  obtain ⟨n, hn, h⟩ := bind_eq_ok h
  obtain ⟨f, hf, h⟩ := bind_eq_ok h
  obtain ⟨t, ht, h⟩ := bind_eq_ok h
  obtain ⟨d, hds, h⟩ := bind_eq_ok h
  obtain ⟨e, he, h⟩ := bind_eq_ok h
  have hi : PG.Itertools.interlace [a.dims, a.lbs] = (a.dims.zip a.lbs).flatMap fun p => [p.1, p.2] := by
    unfold PG.Itertools.interlace
    exact PG.TypesLib.interlace_pair _ _ hd _ (by simp)
  rw [hi] at hds
  have hm := longsPack_fits hds
  refine ⟨hd, nat_of_inS (packS_iff.1 hn).1, int4_of_inS (packS_iff.1 hf).1, oid_of_inU (packU_iff.1 ht).1, fun x hx => ?_, fun x hx => ?_, elementsPack_fits (P := fun n => n < 2 ^ 31) (fun n b h => nat_of_inS (packS_iff.1 h).1) he⟩
  · obtain ⟨y, hy⟩ := mem_zip_left hd hx
    exact hm x (List.mem_flatMap.2 ⟨_, hy, by simp⟩)
  · obtain ⟨y, hy⟩ := mem_zip_right hd hx
    exact hm x (List.mem_flatMap.2 ⟨_, hy, by simp⟩)

theorem lift_ok {x : Except Err B} {y : B} (h : lift x = .ok y) : x = .ok y := by
  cases x with
  | ok z => simpa [lift] using h
  | error e => cases h

/-- For every item there is a choice: a list of them. -/
theorem choose_list {R : Nat → A → B → Prop} : ∀ (xs : List (Option A)), (∀ (i : Nat) x, xs[i]? = some (some x) → ∃ y, R i x y) →
    ∃ ys : List (Option B), SameNulls xs ys ∧ ∀ (i : Nat) x y, xs[i]? = some (some x) → ys[i]? = some (some y) → R i x y
  | [], _ => ⟨[], ⟨rfl, fun i => by simp⟩, fun i x y h => by simp at h⟩
  | a :: xs, h => by
    obtain ⟨ys, h1, h2⟩ := choose_list (R := fun i => R (i + 1)) xs fun i x hx => h (i + 1) x (by simpa using hx)
    cases a with
    | none =>
      refine ⟨none :: ys, ⟨by simp [h1.1], fun i => ?_⟩, fun i x y hx hy => ?_⟩
      · cases i with
        | zero => simp
        | succ i => simpa using h1.2 i
      · cases i with
        | zero => simp at hx
        | succ i => exact h2 i x y (by simpa using hx) (by simpa using hy)
    | some a =>
      obtain ⟨y, hy⟩ := h 0 a (by simp)
      refine ⟨some y :: ys, ⟨by simp [h1.1], fun i => ?_⟩, fun i x z hx hz => ?_⟩
      · cases i with
        | zero => simp
        | succ i => simpa using h1.2 i
      · cases i with
        | zero =>
          simp at hx hz
          subst hx hz
          exact hy
        | succ i => exact h2 i x z (by simpa using hx) (by simpa using hz)

theorem complete (hW : Faithful W) {t : Ty V} (hs : Symmetric W t) : ∀ {v : V} {b : Bytes}, run PACK W.repr (packer W t) v = .ok b → ∃ v', Sent W t v b v' ∧ Alike W t v v' := by
  induction hs with
  | base h =>
    intro v b hr
    simp only [packer, run] at hr
    obtain ⟨v', hv⟩ := h v b (lift_ok hr)
    exact ⟨v', .base (lift_ok hr) hv, .base (lift_ok hr) hv⟩
  | text h =>
    intro v b hr
    simp only [packer, Bool.false_eq_true, if_false, run] at hr
    obtain ⟨v', hv⟩ := h v b (lift_ok hr)
    exact ⟨v', .text (lift_ok hr) hv, .text (lift_ok hr) hv⟩
  | @array t el _ ih =>
    intro v b hr
    simp only [packer, if_true, run] at hr
    cases hp : W.parts v with
    | error e => rw [hp] at hr; cases hr
    | ok r =>
      obtain ⟨es, dims, lbs⟩ := r
      rw [hp] at hr
      dsimp only at hr
      cases he : eachItem (run PACK W.repr (packer W el)) es with
      | error e => rw [he] at hr; cases hr
      | ok bs =>
        rw [he] at hr
        dsimp only at hr
        have hr := lift_ok hr
        have hl := hW.bounds v es dims lbs hp
        have ok := arrayPack_fits (a := ⟨0, t, dims, lbs, bs⟩) hl hr
        obtain ⟨hn, hc⟩ := same_of_converted (eachItem_ok.1 he)
        obtain ⟨es', h1, h2⟩ := choose_list (R := fun i x x' => ∀ b, bs[i]? = some (some b) → Sent W el x b x' ∧ Alike W el x x') es fun i x hx => by
          obtain ⟨b', hb'⟩ := sn_some hn hx
          obtain ⟨x', hx'⟩ := ih (hc i x b' hx hb')
          exact ⟨x', fun b'' hb'' => by rw [hb'] at hb''; cases hb''; exact hx'⟩
        obtain ⟨v', hv, hv'⟩ := hW.array v es dims lbs hp es' h1.1
        have h3 := (PG.Props.Types.C20_array_round_trip _ ok).1
        rw [h3] at hr
        cases hr
        exact ⟨v', .array hp hn h1 (fun i x b x' hx hb hx' => (h2 i x x' hx hx' b hb).1) ok hv, .array hp hv' h1 fun i x x' hx hx' => by
          obtain ⟨b, hb⟩ := sn_some hn hx
          exact (h2 i x x' hx hx' b hb).2⟩
  | @record n typids fields ht _ ih =>
    intro v b hr
    simp only [packer, run] at hr
    cases hp : W.attrs n.atts v with
    | error e => rw [hp] at hr; cases hr
    | ok xs =>
      rw [hp] at hr
      dsimp only at hr
      cases he : processTuple (compositeError PACK n) W.repr (runs PACK W.repr (packers W fields)) xs with
      | error e => rw [he] at hr; cases hr
      | ok bs =>
        rw [he] at hr
        dsimp only at hr
        have hr := lift_ok hr
        have ok := recordPack_fits hr
        obtain ⟨hl, hcv⟩ := processTuple_ok.1 he
        rw [packers_length] at hl
        obtain ⟨hn, hc⟩ := same_of_converted hcv
        obtain ⟨xs', h1, h2⟩ := choose_list (R := fun i x x' => ∀ b c, bs[i]? = some (some b) → fields[i]? = some c → Sent W c x b x' ∧ Alike W c x x') xs fun i x hx => by
          obtain ⟨b', hb'⟩ := sn_some hn hx
          have hi : i < fields.length := by rw [← hl]; exact (List.getElem?_eq_some_iff.1 hx).1
          obtain ⟨c, hf⟩ : ∃ c, fields[i]? = some c := ⟨_, List.getElem?_eq_getElem hi⟩
          have hrun := hc i x b' hx hb'
          unfold attrOf at hrun
          rw [packers_getElem, hf] at hrun
          obtain ⟨x', hx'⟩ := ih i c hf hrun
          exact ⟨x', fun b'' c' hb'' hc' => by rw [hb'] at hb''; rw [hf] at hc'; cases hb''; cases hc'; exact hx'⟩
        have h3 := (PG.Props.Types.C20_record_round_trip _ ok).1
        rw [h3] at hr
        cases hr
        exact ⟨_, .record hp hl ht hn h1 (fun i c x b x' hf hx hb hx' => (h2 i x x' hx hx' b c hb hf).1) ok, .record hp (hW.row _ _) hl h1 fun i c x x' hf hx hx' => by
          obtain ⟨b, hb⟩ := sn_some hn hx
          exact (h2 i x x' hx hx' b c hb hf).2⟩

end PG.Proofs.RoundTrip
