import Verif.Model.OptElement3
import Verif.Proofs.Element3c
import Verif.Props.Elements
import Verif.Spec.Elements
/-!
# C95: rows and batches in C

The functions of `port/_optimized/element3.c`, which replace `Tuple.parse`, `pack_tuple_data` and `cat_messages` of `protocol/element3.py` when the extension could be compiled.
-/
namespace PG.Props.OptElement3
open PG PG.Spec PG.Element3 PG.OptBuffer PG.OptElement3

/-- An attribute on the wire: 32 bits of size and the data, or the size -1. -/
def onWire : Option Bytes → Bytes
  | none => [255, 255, 255, 255]
  | some d => beEnc 4 d.length ++ d

/-- A row on the wire: 16 bits for the number of attributes, and the attributes. -/
def rowOnWire (l : List (Option Bytes)) : Bytes := beEnc 2 l.length ++ l.flatMap onWire

/-- Every size can be written; 2^32 - 1 stands for NULL. -/
def SizesFit (l : List (Option Bytes)) : Prop := ∀ d, some d ∈ l → d.length < 2 ^ 32 - 1

/-! ## Parsing -/

theorem beEnc_length : ∀ (k n : Nat), (beEnc k n).length = k
  | 0, _ => rfl
  | k + 1, n => by rw [beEnc, List.length_append, beEnc_length k]; rfl

theorem four (b : Bytes) (h : b.length = 4) : ∃ w x y z, b = [w, x, y, z] := by
  match b, h with
  | [w, x, y, z], _ => exact ⟨w, x, y, z, rfl⟩

theorem beEnc4_beDec (b : Bytes) (h : b.length = 4) : beEnc 4 (beDec b) = b ∧ beDec b < 2 ^ 32 ∧ (beDec b = 2 ^ 32 - 1 → b = [255, 255, 255, 255]) := by
  obtain ⟨w, x, y, z, rfl⟩ := four b h
  have hw := w.toNat_lt; have hx := x.toNat_lt; have hy := y.toNat_lt; have hz := z.toNat_lt
  have e : beDec [w, x, y, z] = ((w.toNat * 256 + x.toNat) * 256 + y.toNat) * 256 + z.toNat := by simp [beDec]
  refine ⟨?_, by rw [e]; omega, fun h => ?_⟩
  · rw [e]
    simp only [beEnc, List.nil_append, List.cons_append, List.cons.injEq, and_true]
    refine ⟨?_, ?_, ?_, ?_⟩ <;> apply UInt8.toNat_inj.mp <;> rw [UInt8.toNat_ofNat'] <;> omega
  · rw [e] at h
    have a1 : w.toNat = 255 := by omega
    have a2 : x.toNat = 255 := by omega
    have a3 : y.toNat = 255 := by omega
    have a4 : z.toNat = 255 := by omega
    simp only [List.cons.injEq, and_true]
    exact ⟨UInt8.toNat_inj.mp a1, UInt8.toNat_inj.mp a2, UInt8.toNat_inj.mp a3, UInt8.toNat_inj.mp a4⟩

theorem beDec_beEnc4 (n : Nat) (h : n < 2 ^ 32) : beDec (beEnc 4 n) = n := by
  simp only [beEnc, beDec, List.nil_append, List.cons_append, List.foldl_cons, List.foldl_nil, UInt8.toNat_ofNat']
  omega

theorem beDec_beEnc2 (n : Nat) (h : n < 2 ^ 16) : beDec (beEnc 2 n) = n := by
  simp only [beEnc, beDec, List.nil_append, List.cons_append, List.foldl_cons, List.foldl_nil, UInt8.toNat_ofNat']
  omega

theorem beEnc2_beDec (b : Bytes) (h : b.length = 2) : beEnc 2 (beDec b) = b ∧ beDec b < 2 ^ 16 := by
  match b, h with
  | [y, z], _ =>
    have hy := y.toNat_lt; have hz := z.toNat_lt
    have e : beDec [y, z] = y.toNat * 256 + z.toNat := by simp [beDec]
    refine ⟨?_, by rw [e]; omega⟩
    rw [e]
    simp only [beEnc, List.nil_append, List.cons_append, List.cons.injEq, and_true]
    refine ⟨?_, ?_⟩ <;> apply UInt8.toNat_inj.mp <;> rw [UInt8.toNat_ofNat'] <;> omega

theorem unpackAtts_sound : ∀ (n : Nat) (data : Bytes) (l : List (Option Bytes)), unpackAtts n data = .ok l →
    l.length = n ∧ SizesFit l ∧ data = l.flatMap onWire
  | 0, data, l, h => by
    unfold unpackAtts at h
    by_cases hd : data = []
    · rw [if_neg (by simpa using hd)] at h
      cases h
      exact ⟨rfl, (fun d hd => by cases hd), hd⟩
    · rw [if_pos hd] at h; cases h
  | n + 1, data, l, h => by
    unfold unpackAtts at h
    by_cases h4 : data.length < 4
    · rw [if_pos h4] at h; cases h
    · rw [if_neg h4] at h
      have ht : (data.take 4).length = 4 := by rw [List.length_take]; omega
      by_cases hn : data.take 4 = nullSeq
      · rw [if_pos hn] at h
        cases hu : unpackAtts n (data.drop 4) with
        | error e => rw [hu] at h; cases h
        | ok r =>
          rw [hu] at h
          cases h
          obtain ⟨a, b, c⟩ := unpackAtts_sound n _ r hu
          refine ⟨by rw [List.length_cons, a], fun d hd => ?_, ?_⟩
          · rcases List.mem_cons.mp hd with hd | hd
            · cases hd
            · exact b d hd
          · rw [List.flatMap_cons, ← c]
            show data = nullSeq ++ _
            rw [← hn, List.take_append_drop]
      · rw [if_neg hn] at h
        by_cases hs : (data.drop 4).length < beDec (data.take 4)
        · rw [if_pos hs] at h; cases h
        · rw [if_neg hs] at h
          cases hu : unpackAtts n ((data.drop 4).drop (beDec (data.take 4))) with
          | error e => rw [hu] at h; cases h
          | ok r =>
            rw [hu] at h
            cases h
            obtain ⟨a, b, c⟩ := unpackAtts_sound n _ r hu
            obtain ⟨e1, e2, e3⟩ := beEnc4_beDec _ ht
            have hlen : ((data.drop 4).take (beDec (data.take 4))).length = beDec (data.take 4) := by rw [List.length_take]; omega
            refine ⟨by rw [List.length_cons, a], fun d hd => ?_, ?_⟩
            · rcases List.mem_cons.mp hd with hd | hd
              · injection hd with hd
                rw [hd, hlen]
                have : beDec (data.take 4) ≠ 2 ^ 32 - 1 := fun h => hn (e3 h)
                omega
              · exact b d hd
            · rw [List.flatMap_cons, ← c]
              show data = (beEnc 4 ((data.drop 4).take (beDec (data.take 4))).length ++ _) ++ _
              rw [hlen, e1, List.append_assoc, List.take_append_drop, List.take_append_drop]

theorem onWire_null {d : Bytes} (h : d.length < 2 ^ 32 - 1) : beEnc 4 d.length ≠ nullSeq := by
  intro e
  have := congrArg beDec e
  rw [beDec_beEnc4 _ (by omega), show beDec nullSeq = 2 ^ 32 - 1 by decide] at this
  omega

theorem unpackAtts_complete : ∀ (l : List (Option Bytes)), SizesFit l → unpackAtts l.length (l.flatMap onWire) = .ok l
  | [], _ => rfl
  | none :: l, h => by
    have ih := unpackAtts_complete l fun d hd => h d (List.mem_cons_of_mem _ hd)
    rw [List.length_cons, unpackAtts, List.flatMap_cons]
    have h1 : (onWire none ++ l.flatMap onWire).take 4 = nullSeq := rfl
    have h2 : (onWire none ++ l.flatMap onWire).drop 4 = l.flatMap onWire := rfl
    have h3 : ¬ (onWire none ++ l.flatMap onWire).length < 4 := by rw [List.length_append]; show ¬ 4 + _ < 4; omega
    rw [if_neg h3, h1, if_pos rfl, h2, ih]
    rfl
  | some d :: l, h => by
    have ih := unpackAtts_complete l fun d hd => h d (List.mem_cons_of_mem _ hd)
    have hd := h d (List.mem_cons_self ..)
    rw [List.length_cons, unpackAtts, List.flatMap_cons]
    have hw : onWire (some d) ++ l.flatMap onWire = beEnc 4 d.length ++ (d ++ l.flatMap onWire) := List.append_assoc ..
    rw [hw]
    have hl := beEnc_length 4 d.length
    have h1 : (beEnc 4 d.length ++ (d ++ l.flatMap onWire)).take 4 = beEnc 4 d.length := List.take_left' hl
    have h2 : (beEnc 4 d.length ++ (d ++ l.flatMap onWire)).drop 4 = d ++ l.flatMap onWire := List.drop_left' hl
    have h3 : ¬ (beEnc 4 d.length ++ (d ++ l.flatMap onWire)).length < 4 := by rw [List.length_append, hl]; omega
    rw [if_neg h3, h1, if_neg (onWire_null hd), h2]
    dsimp only
    rw [beDec_beEnc4 _ (by omega), if_neg (by rw [List.length_append]; omega), List.take_left, List.drop_left, ih]
    rfl

/-- **C95** `parse_tuple_message` gives a row exactly for the bytes that are the row on the wire; everything else, with data missing anywhere or data left over, raises. -/
theorem C95_parse (data : Bytes) (l : List (Option Bytes)) :
    parseTuple data = .ok l ↔ l.length < 2 ^ 16 ∧ SizesFit l ∧ data = rowOnWire l := by
  unfold parseTuple rowOnWire
  constructor
  · intro h
    by_cases h2 : data.length < 2
    · rw [if_pos h2] at h; cases h
    · rw [if_neg h2] at h
      obtain ⟨a, b, c⟩ := unpackAtts_sound _ _ _ h
      obtain ⟨e1, e2⟩ := beEnc2_beDec (data.take 2) (by rw [List.length_take]; omega)
      exact ⟨by rw [a]; exact e2, b, by rw [a, e1, ← c, List.take_append_drop]⟩
  · rintro ⟨h1, h2, rfl⟩
    have hl := beEnc_length 2 l.length
    rw [if_neg (by rw [List.length_append, hl]; omega), List.take_left' hl, List.drop_left' hl, beDec_beEnc2 _ h1, unpackAtts_complete l h2]

/-- **C95** whatever it rejects, it rejects with ValueError. -/
theorem C95_parse_error (data : Bytes) (e : CErr) (h : parseTuple data = .error e) : e = .value := by
  have : ∀ (n : Nat) (data : Bytes) (e : CErr), unpackAtts n data = .error e → e = .value := by
    intro n
    induction n with
    | zero =>
      intro data e h
      unfold unpackAtts at h
      split at h
      · cases h; rfl
      · cases h
    | succ n ih =>
      intro data e h
      unfold unpackAtts at h
      by_cases h4 : data.length < 4
      · rw [if_pos h4] at h; cases h; rfl
      · rw [if_neg h4] at h
        by_cases hn : data.take 4 = nullSeq
        · rw [if_pos hn] at h
          cases hu : unpackAtts n (data.drop 4) with
          | error e' => rw [hu] at h; cases h; exact ih _ _ hu
          | ok r => rw [hu] at h; cases h
        · rw [if_neg hn] at h
          by_cases hs : (data.drop 4).length < beDec (data.take 4)
          · rw [if_pos hs] at h; cases h; rfl
          · rw [if_neg hs] at h
            cases hu : unpackAtts n ((data.drop 4).drop (beDec (data.take 4))) with
            | error e' => rw [hu] at h; cases h; exact ih _ _ hu
            | ok r => rw [hu] at h; cases h
  unfold parseTuple at h
  split at h
  · cases h; rfl
  · exact this _ _ _ h

example : parseTuple [0, 2, 0, 0, 0, 2, 1, 2, 255, 255, 255, 255] = .ok [some [1, 2], none] ∧ parseTuple [0, 1, 0, 0, 0, 5, 65] = .error .value ∧
    parseTuple [0, 1, 0, 0, 0, 0, 9] = .error .value := by decide +kernel

/-! ## Packing -/

theorem packTuple_ok (l : List (Option Bytes)) (b : Bytes) : packTuple l = .ok b ↔ SizesFit l ∧ b = l.flatMap onWire := by
  unfold packTuple
  have hany : l.any tooLarge = true ↔ ¬ SizesFit l := by
    rw [List.any_eq_true]
    constructor
    · rintro ⟨a, ha, hp⟩ hf
      cases a with
      | none => cases hp
      | some d =>
        have := hf d ha
        have := of_decide_eq_true hp
        omega
    · intro hf
      apply Classical.byContradiction
      intro hne
      apply hf
      intro d hd
      apply Nat.lt_of_not_le
      intro hle
      exact hne ⟨some d, hd, decide_eq_true (by omega)⟩
  have hmap : SizesFit l → l.flatMap attBytes = l.flatMap onWire := by
    intro hf
    have : ∀ a ∈ l, attBytes a = onWire a := by
      intro a ha
      cases a with
      | none => rfl
      | some d =>
        have := hf d ha
        unfold attBytes onWire
        dsimp only
        rw [show u32 d.length = d.length from Nat.mod_eq_of_lt (by omega)]
    rw [List.flatMap_def, List.flatMap_def, List.map_congr_left this]
  by_cases hf : SizesFit l
  · rw [if_neg (by rw [hany]; exact fun h => h hf), hmap hf]
    constructor
    · intro h; cases h; exact ⟨hf, rfl⟩
    · rintro ⟨_, rfl⟩; rfl
  · rw [if_pos (hany.mpr hf)]
    constructor
    · intro h; cases h
    · rintro ⟨h, _⟩; exact absurd h hf

/-- **C95** `pack_tuple_data` gives the attributes on the wire, or raises when a size cannot be written. -/
theorem C95_pack (l : List (Option Bytes)) : (SizesFit l → packTuple l = .ok (l.flatMap onWire)) ∧ (¬ SizesFit l → packTuple l = .error .system) := by
  refine ⟨fun h => (packTuple_ok l _).mpr ⟨h, rfl⟩, fun h => ?_⟩
  cases hp : packTuple l with
  | ok b => exact absurd ((packTuple_ok l b).mp hp).1 h
  | error e =>
    unfold packTuple at hp
    split at hp
    · exact hp.symm
    · cases hp

/-- **C95** what is packed is parsed to the same row. -/
theorem C95_round_trip (l : List (Option Bytes)) (b : Bytes) (h : packTuple l = .ok b) (hl : l.length < 2 ^ 16) : parseTuple (beEnc 2 l.length ++ b) = .ok l := by
  obtain ⟨h1, h2⟩ := (packTuple_ok l b).mp h
  exact (C95_parse _ _).mpr ⟨hl, h1, by rw [h2]; rfl⟩

example : packTuple [none, some [7, 8]] = .ok [255, 255, 255, 255, 0, 0, 0, 2, 7, 8] := by decide +kernel

/-! ## Against the functions they replace -/

theorem packU4 {n : Nat} (h : n < 2 ^ 32) : packU 4 n = .ok (beEnc 4 n) := by
  unfold packU
  have e : (256 : Int) ^ 4 = 4294967296 := by decide
  rw [e, if_pos ⟨by omega, by omega⟩]
  rfl

theorem packU2 {n : Nat} (h : n < 2 ^ 16) : packU 2 n = .ok (beEnc 2 n) := by
  unfold packU
  have e : (256 : Int) ^ 2 = 65536 := by decide
  rw [e, if_pos ⟨by omega, by omega⟩]
  rfl

theorem packS4 {n : Nat} (h : n < 2 ^ 31) : packS 4 n = .ok (beEnc 4 n) := by
  unfold packS
  have e : (256 : Int) ^ 4 = 4294967296 := by decide
  rw [e, if_pos ⟨by omega, by omega⟩, show ((n : Int) % 4294967296).toNat = n by omega]

theorem packTupleData_fits (l : List (Option Bytes)) (h : SizesFit l) : packTupleData l = .ok (l.flatMap onWire) := by
  induction l with
  | nil => rfl
  | cons a r ih =>
    have ih := ih fun d hd => h d (List.mem_cons_of_mem _ hd)
    cases a with
    | none =>
      unfold packTupleData
      rw [ih]
      rfl
    | some x =>
      have hx := h x (List.mem_cons_self ..)
      unfold packTupleData
      rw [ih, show ulongPack x.length = .ok (beEnc 4 x.length) from packU4 (by omega)]
      rfl

/-- **C95** the same attributes are packed to the same bytes as by the Python function. -/
theorem C95_pack_same (l : List (Option Bytes)) (h : SizesFit l) : ∃ b, packTuple l = .ok b ∧ packTupleData l = .ok b :=
  ⟨_, (C95_pack l).1 h, packTupleData_fits l h⟩

/-- **C95** what the C function makes of a message, `Tuple.parse` in Python makes of it. -/
theorem C95_parse_same (data : Bytes) (l : List (Option Bytes)) (h : parseTuple data = .ok l) : parseK .tuple data = .ok (.tuple l) := by
  obtain ⟨h1, h2, rfl⟩ := (C95_parse data l).mp h
  have hr : Representable (.tuple l) := ⟨h1, fun x hx d hd => h2 d (hd ▸ hx)⟩
  obtain ⟨b, hb, hp⟩ := round_trip (.tuple l) hr
  have hb' : serialize (.tuple l) = .ok (rowOnWire l) := by
    show (do let h ← ushortPack l.length; let t ← packTupleData l; return h ++ t) = _
    rw [show ushortPack l.length = .ok (beEnc 2 l.length) from packU2 h1, packTupleData_fits l h2]
    rfl
  rw [hb'] at hb
  cases hb
  exact hp

/-- Nothing that cannot be sent: COPY lines and rows below 2^31 bytes, message objects below 2^32, and no `Void` among them. -/
def Sendable : Item → Prop
  | .raw d => d.length + 4 < 2 ^ 31
  | .row t => (t.flatMap onWire).length + 6 < 2 ^ 31
  | .msg m => ∀ data, serialize m = .ok data → data.length + 4 < 2 ^ 32
  | .void => False

theorem mem_onWire_le {t : List (Option Bytes)} {d : Bytes} (h : some d ∈ t) : d.length + 4 ≤ (t.flatMap onWire).length := by
  induction t with
  | nil => cases h
  | cons a r ih =>
    rw [List.flatMap_cons, List.length_append]
    rcases List.mem_cons.mp h with h | h
    · rw [← h]
      show _ ≤ (beEnc 4 d.length ++ d).length + _
      rw [List.length_append, beEnc_length]
      omega
    · have := ih h; omega

theorem sendable_sizes {t : List (Option Bytes)} (h : Sendable (.row t)) : SizesFit t := by
  intro d hd
  have h1 : (t.flatMap onWire).length + 6 < 2 ^ 31 := h
  have := mem_onWire_le hd
  omega

theorem attBytes_onWire {t : List (Option Bytes)} (h : SizesFit t) : t.flatMap attBytes = t.flatMap onWire := by
  have : ∀ a ∈ t, attBytes a = onWire a := by
    intro a ha
    cases a with
    | none => rfl
    | some d =>
      have := h d ha
      unfold attBytes onWire
      dsimp only
      rw [show u32 d.length = d.length from Nat.mod_eq_of_lt (by omega)]
  rw [List.flatMap_def, List.flatMap_def, List.map_congr_left this]

/-- The row with its header; `none`: it has too many attributes. -/
def rowItem (t : List (Option Bytes)) : Option Bytes :=
  if t.length < 2 ^ 16 then some (68 :: (beEnc 4 ((t.flatMap onWire).length + 6) ++ beEnc 2 t.length ++ t.flatMap onWire)) else none

/-- The type of a message object, its length, and its data. -/
def object (typ : Option UInt8) (data : Bytes) : Bytes := typ.toList ++ beEnc 4 (data.length + 4) ++ data

/-- What both functions write for an item; `none`: they raise. -/
def itemOnWire : Item → Option Bytes
  | .raw d => some (100 :: (beEnc 4 (d.length + 4) ++ d))
  | .row t => rowItem t
  | .msg m => (serialize m).toOption.map (object m.kind.typ)
  | .void => none

/-- What they write for a batch. -/
def batchOnWire : List Item → Option Bytes
  | [] => some []
  | x :: r => match itemOnWire x, batchOnWire r with
    | some h, some t => some (h ++ t)
    | _, _ => none

theorem itemBytes_wire (x : Item) (h : Sendable x) : (itemBytes x).toOption = itemOnWire x := by
  cases x with
  | raw d =>
    have h1 : d.length + 4 < 2 ^ 31 := h
    show (do let l ← packS 4 ((d.length : Int) + 4); return 100 :: (l ++ d) : Except Err Bytes).toOption = some _
    have e : ((d.length : Int) + 4) = ((d.length + 4 : Nat) : Int) := by omega
    rw [e, packS4 h1]
    rfl
  | row t =>
    have h1 : (t.flatMap onWire).length + 6 < 2 ^ 31 := h
    show (do let r ← packTupleData t; let h ← packS 4 ((r.length : Int) + 6); let c ← packU 2 t.length; return 68 :: (h ++ c ++ r) : Except Err Bytes).toOption = rowItem t
    rw [packTupleData_fits t (sendable_sizes h), bind_ok]
    unfold rowItem
    generalize t.flatMap onWire = w at h1 ⊢
    have e : ((w.length : Int) + 6) = ((w.length + 6 : Nat) : Int) := by omega
    rw [e, packS4 h1, bind_ok]
    by_cases h2 : t.length < 2 ^ 16
    · rw [if_pos h2, packU2 h2]
      rfl
    · rw [if_neg h2]
      have : packU 2 t.length = .error .structError := by
        unfold packU
        have e : (256 : Int) ^ 2 = 65536 := by decide
        rw [e, if_neg (by omega)]
      rw [this]
      rfl
  | msg m =>
    show (msgBytes m).toOption = (serialize m).toOption.map (object m.kind.typ)
    unfold msgBytes
    cases hs : serialize m with
    | error e => rfl
    | ok data =>
      have h1 : data.length + 4 < 2 ^ 32 := h data hs
      have e : ((data.length : Int) + 4) = ((data.length + 4 : Nat) : Int) := by omega
      rw [bind_ok, e, packU4 h1, bind_ok]
      cases m.kind.typ with
      | none => rfl
      | some t => rfl
  | void => exact absurd h id

theorem catMessages_wire : ∀ (items : List Item), (∀ x ∈ items, Sendable x) → (catMessages items).toOption = batchOnWire items
  | [], _ => rfl
  | x :: r, h => by
    have h1 := itemBytes_wire x (h x (List.mem_cons_self ..))
    have h2 := catMessages_wire r fun y hy => h y (List.mem_cons_of_mem _ hy)
    unfold catMessages batchOnWire
    rw [← h1, ← h2]
    cases itemBytes x with
    | error e => rfl
    | ok a =>
      cases catMessages r with
      | error e => rfl
      | ok b => rfl

theorem batch_rowsFit : ∀ (items : List Item), (∃ b, batchOnWire items = some b) → rowsFit items = true
  | [], _ => rfl
  | .raw _ :: _, _ => rfl
  | .msg _ :: _, _ => rfl
  | .void :: _, _ => rfl
  | .row t :: r, ⟨b, h⟩ => by
    unfold batchOnWire at h
    by_cases h2 : t.length < 2 ^ 16
    · have hr : ∃ b, batchOnWire r = some b := by
        cases hb : batchOnWire r with
        | some b => exact ⟨b, rfl⟩
        | none => rw [hb] at h; cases hi : itemOnWire (.row t) <;> rw [hi] at h <;> cases h
      unfold rowsFit
      rw [batch_rowsFit r hr, Bool.and_true]
      exact decide_eq_true (by omega)
    · have : itemOnWire (.row t) = none := by show rowItem t = none; unfold rowItem; rw [if_neg h2]
      rw [this] at h
      cases h

theorem rowsFit_head {t : List (Option Bytes)} {r : List Item} (h : rowsFit (.row t :: r) = true) : t.length < 2 ^ 16 ∧ rowsFit r = true := by
  unfold rowsFit at h
  rw [Bool.and_eq_true] at h
  exact ⟨by have := of_decide_eq_true h.1; omega, h.2⟩

theorem cat_wire : ∀ (items : List Item) (seen : Bool), (∀ x ∈ items, Sendable x) → (seen = true → rowsFit items = true) →
    (cat seen items).toOption = batchOnWire items
  | [], _, _, _ => by unfold cat; rfl
  | .raw d :: r, seen, h, _ => by
    have hd : d.length + 4 < 2 ^ 31 := h (.raw d) (List.mem_cons_self ..)
    have ih := cat_wire r false (fun y hy => h y (List.mem_cons_of_mem _ hy)) (fun e => by cases e)
    unfold cat batchOnWire rawBytes
    rw [if_pos (by omega), ← ih]
    cases cat false r with
    | error e => rfl
    | ok b => rfl
  | .void :: r, _, h, _ => absurd (h .void (List.mem_cons_self ..)) id
  | .msg m :: r, seen, h, _ => by
    have hm : Sendable (.msg m) := h (.msg m) (List.mem_cons_self ..)
    have ih := cat_wire r false (fun y hy => h y (List.mem_cons_of_mem _ hy)) (fun e => by cases e)
    unfold cat batchOnWire
    rw [show itemOnWire (.msg m) = (serialize m).toOption.map (object m.kind.typ) from rfl]
    cases hs : serialize m with
    | error e => rfl
    | ok data =>
      have h1 : data.length + 4 < 2 ^ 32 := hm data hs
      dsimp only
      unfold objBytes
      rw [show (Except.ok data : Except Err Bytes).toOption.map (object m.kind.typ) = some (object m.kind.typ data) from rfl]
      unfold object
      rw [show u32 data.length = data.length from Nat.mod_eq_of_lt (by omega), if_neg (by omega), ← ih]
      cases cat false r with
      | error e => cases m.kind.typ <;> rfl
      | ok b => cases m.kind.typ <;> rfl
  | .row t :: r, seen, h, hseen => by
    have ht : Sendable (.row t) := h (.row t) (List.mem_cons_self ..)
    have ht' : (t.flatMap onWire).length + 6 < 2 ^ 31 := ht
    unfold cat
    by_cases hf : rowsFit (.row t :: r) = true
    · obtain ⟨h2, hr⟩ := rowsFit_head hf
      have ih := cat_wire r true (fun y hy => h y (List.mem_cons_of_mem _ hy)) (fun _ => hr)
      rw [hf]
      have hc : ¬ ((!seen && !true) = true) := by cases seen <;> decide
      rw [if_neg hc]
      unfold batchOnWire rowBytes rowLength
      rw [show itemOnWire (.row t) = rowItem t from rfl]
      unfold rowItem
      rw [if_pos h2, attBytes_onWire (sendable_sizes ht), if_pos (by omega), ← ih]
      cases cat true r with
      | error e => rfl
      | ok b => rfl
    · have hns : seen = false := by
        cases seen with
        | false => rfl
        | true => exact absurd (hseen rfl) hf
      have hn : batchOnWire (.row t :: r) = none := by
        cases hb : batchOnWire (.row t :: r) with
        | none => rfl
        | some b => exact absurd (batch_rowsFit _ ⟨b, hb⟩) hf
      rw [hn, hns, Bool.eq_false_iff.mpr hf]
      rfl

/-- **C95** (partly: without `Void`, and within the sizes of `Sendable`) `cat_messages` in C gives the same bytes as in Python for every batch, and raises for the same batches. -/
theorem C95_batch_partial (items : List Item) (h : ∀ x ∈ items, Sendable x) : (cat false items).toOption = (catMessages items).toOption := by
  rw [cat_wire items false h (fun e => by cases e), catMessages_wire items h]

/-- **C95** (partly: likewise) and these are the messages, one after the other. -/
theorem C95_batch_bytes_partial (items : List Item) (h : ∀ x ∈ items, Sendable x) : (cat false items).toOption = batchOnWire items :=
  cat_wire items false h (fun e => by cases e)

set_option maxRecDepth 100000 in
example : cat false [.msg (.empty .synchronize), .raw [1, 2], .raw [], .row [none, some [7]], .row [], .msg .negotiateSSL] =
    .ok ([83, 0, 0, 0, 4] ++ [100, 0, 0, 0, 6, 1, 2] ++ [100, 0, 0, 0, 4] ++ [68, 0, 0, 0, 15, 0, 2, 255, 255, 255, 255, 0, 0, 0, 1, 7] ++ [68, 0, 0, 0, 6, 0, 0] ++ [0, 0, 0, 8, 4, 210, 22, 47]) ∧
    (∀ x ∈ [Item.raw [1, 2], .row [none, some [7]]], Sendable x) := by
  refine ⟨by decide +kernel, fun x hx => ?_⟩
  rcases List.mem_cons.mp hx with rfl | hx
  · show 2 + 4 < _; omega
  · rw [List.mem_singleton.mp hx]; show (_ : Nat) < _; decide +kernel

/-- **C95** the unrestricted claim is false: a `Void` writes nothing in Python, and a length of four without a type in C, which the server takes for the beginning of a message. -/
theorem C95_void : cat false [.void] = .ok [0, 0, 0, 4] ∧ catMessages [.void] = .ok [] := ⟨by decide +kernel, rfl⟩

/-- **C95** and a line of COPY data of 2^31 - 4 bytes raises in Python and is sent by C. -/
theorem C95_large (d : Bytes) (h : d.length = 2 ^ 31 - 4) : (∃ b, cat false [.raw d] = .ok b) ∧ catMessages [.raw d] = .error .structError := by
  constructor
  · unfold cat rawBytes
    rw [if_pos (by omega)]
    exact ⟨_, rfl⟩
  · show (do let h ← (do let l ← longPack (d.length + 4); return 100 :: (l ++ d)); let t ← catMessages []; return h ++ t : Except Err Bytes) = _
    have : longPack (d.length + 4) = .error .structError := by
      unfold longPack packS
      have e : (256 : Int) ^ 4 = 4294967296 := by decide
      rw [e, if_neg (by omega)]
    rw [this]
    rfl

end PG.Props.OptElement3
