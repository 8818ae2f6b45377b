import Verif.Proofs.RoundTrip
import Verif.Props.PgArray
import Verif.Model.PyWorld
/-!
# C78: values of arrays and composites, in one another to any depth, come back

`Sent W t v b v'` (Spec/RoundTrip): the format of the server, and what is read from it.
-/
namespace PG.Props.RoundTrip
open PG PG.TypesLib PG.Spec PG.Spec.Types PG.Spec.Format PG.Convert PG.Spec.Convert PG.Spec.RoundTrip PG.Proofs.Convert PG.Props.Convert PG.Proofs.RoundTrip

variable {V : Type} {W : World V} {s : Stmt V}

/-- **C78 (the format).** A value is sent in the format of the server, and what comes is read as it says. -/
theorem C78_sent {t : Ty V} {v v' : V} {b : Bytes} (h : Sent W t v b v') : run PACK W.repr (packer W t) v = .ok b ∧ run UNPACK reprBytes (unpacker W t) b = .ok v' := sent_run h

/-- **C78 (everything comes back).** If the types inside unpack what they pack then whatever can be sent, of a type of arrays and composites in one another to any depth, is in the server's format and can be read, and what is read is like
what was sent: the same dimensions and lower bounds, alike elements at the same places. -/
theorem C78_comes_back (hW : Faithful W) {t : Ty V} (hs : Symmetric W t) {v : V} {b : Bytes} (h : run PACK W.repr (packer W t) v = .ok b) :
    ∃ v', Sent W t v b v' ∧ run UNPACK reprBytes (unpacker W t) b = .ok v' ∧ Alike W t v v' := by
  obtain ⟨v', h1, h2⟩ := complete hW hs h
  exact ⟨v', h1, (sent_run h1).2, h2⟩

/-- **C78 (through a statement).** The parameters of a statement whose columns have the parameters' types, such as `SELECT $1::a, $2::b`, come back: what is bound is read as a row of values that are like them, None where None was. -/
theorem C78_echo (hW : Faithful W) (hc : s.columns.map (·.2.1) = s.params.map Prod.fst) (hs : ∀ t ∈ s.params.map Prod.fst, Symmetric W t) {ps : List (Option V)} {bs : List (Option Bytes)} (h : bound W s ps = .ok bs) (c : Creator) :
    ∃ ps', row W s c bs = .ok ps' ∧ SameNulls ps ps' ∧ ∀ (i : Nat) t x x', (s.params.map Prod.fst)[i]? = some t → ps[i]? = some (some x) → ps'[i]? = some (some x') → Alike W t x x' := by
  obtain ⟨h1, h2, h3⟩ := C77_bound.1 h
  have hcv : Converted (attrOf PACK W.repr (packers W (s.params.map Prod.fst))) ps bs := by
    refine ⟨h2, fun i x hx => ?_⟩
    rcases h3 i x hx with h | ⟨v, t, b, rfl, ht, hr, hb⟩
    · exact .inl h
    · refine .inr ⟨v, b, rfl, ?_, hb⟩
      unfold attrOf
      rw [packers_getElem, ht]
      exact hr
  obtain ⟨hn, hp⟩ := same_of_converted hcv
  obtain ⟨ps', g1, g2⟩ := choose_list (R := fun i x x' => ∀ t b, (s.params.map Prod.fst)[i]? = some t → bs[i]? = some (some b) → run UNPACK reprBytes (unpacker W t) b = .ok x' ∧ Alike W t x x') ps fun i x hx => by
    rcases h3 i _ hx with ⟨h, _⟩ | ⟨v, t, b, hv, ht, hr, hb⟩
    · cases h
    · cases hv
      obtain ⟨x', hs', ha⟩ := complete hW (hs t (List.mem_of_getElem? ht)) hr
      exact ⟨x', fun t' b' ht' hb' => by rw [ht] at ht'; rw [hb] at hb'; cases ht'; cases hb'; exact ⟨(sent_run hs').2, ha⟩⟩
  refine ⟨ps', ?_, g1, fun i t x x' ht hx hx' => ?_⟩
  · unfold row
    rw [hc]
    refine processTuple_ok.2 ⟨by rw [unpackers_length, List.length_map, h2, h1], converted (sn_trans (sn_symm hn) g1) fun i b x' hb hx' => ?_⟩
    obtain ⟨x, hx⟩ := sn_some (sn_symm hn) hb
    refine attr_unpack ?_ fun t ht => (g2 i x x' hx hx' t b ht hb).1
    rw [List.length_map, ← h1]
    exact (List.getElem?_eq_some_iff.1 hx).1
  · obtain ⟨b, hb⟩ := sn_some hn hx
    exact (g2 i x x' hx hx' t b ht hb).2

/-! ## Python's arrays, lists and rows -/

open PG.PyWorld PG.PgArray PG.Spec.PgArray PG.Props.PgArray

variable {β : Type} {repr : PV β → Str} {encode : PV β → Except Err Bytes} {decode : Bytes → Except Err (PV β)}

theorem arrayFromParts_valid {es : List (PG.PgArray.V (Option (PV β)))} {a : Arr (Option (PV β))} (hv : Valid a) (hl : es.length = a.elements.length) :
    arrayFromParts es (a.dims.map Int.ofNat) a.lower = .ok ⟨es, a.lower, a.upper, a.dims⟩ := by
  obtain ⟨hb, h0, h1⟩ := hv
  unfold arrayFromParts
  rw [upper_of_bounds _ _ _ hb]
  obtain ⟨elements, lower, upper, dims⟩ := a
  dsimp only at *
  by_cases hne : dims = []
  · subst hne
    have := h0 rfl
    subst this
    obtain ⟨b1, b2⟩ := bounds_length _ _ _ hb
    cases List.length_eq_zero_iff.1 b1
    cases List.length_eq_zero_iff.1 b2
    cases List.length_eq_zero_iff.1 hl
    rfl
  · rw [fromElements_bounds hb hne (by rw [hl, h1 hne]) rfl]

theorem arrayFromParts_is_valid {es : List (PG.PgArray.V (Option (PV β)))} {dims lower : List Int} {a : Arr (Option (PV β))} (h : arrayFromParts es dims lower = .ok a) : Valid a ∧ a.elements = es := by
  obtain ⟨h1, h2, h3, h4⟩ := C25_from_elements _ _ _ _ h
  exact ⟨⟨h2, fun h => by rw [h1]; exact h3 h, fun h => by rw [h1]; exact (h4 h).1⟩, h1⟩

theorem fromNest_valid {l : List (PG.PgArray.V (Option (PV β)))} {a : Arr (Option (PV β))} (h : fromNest l = .ok a) : Valid a := by
  unfold fromNest at h
  obtain ⟨d, _, h⟩ := PG.Element3.bind_eq_ok h
  obtain ⟨e, _, h⟩ := PG.Element3.bind_eq_ok h
  obtain ⟨h1, h2, h3, h4⟩ := C25_from_elements _ _ _ _ h
  exact ⟨h2, fun h => by rw [h1]; exact h3 h, fun h => by rw [h1]; exact (h4 h).1⟩

theorem parts_valid {v : PV β} {es dims lbs} (h : parts v = .ok (es, dims, lbs)) : ∃ a : Arr (Option (PV β)), Valid a ∧ a.elements.length = es.length ∧ dims = a.dims.map Int.ofNat ∧ lbs = a.lower := by
  have nest : ∀ l, (match fromNest (toVs l) with | .error e => .error e | .ok a => .ok (a.elements.map ofV, a.dims.map Int.ofNat, a.lower)) = Except.ok (ε := Err) (es, dims, lbs) →
      ∃ a : Arr (Option (PV β)), Valid a ∧ a.elements.length = es.length ∧ dims = a.dims.map Int.ofNat ∧ lbs = a.lower := by
    intro l h
    cases ha : fromNest (toVs l) with
    | error e => rw [ha] at h; cases h
    | ok a =>
      rw [ha] at h
      cases h
      exact ⟨a, fromNest_valid ha, by simp, rfl, rfl⟩
  cases v with
  | atom b => cases h
  | list l => exact nest l h
  | tuple l => exact nest l h
  | array e lo d =>
    simp only [parts] at h
    cases ha : arrayFromParts (e.map V.atom) (d.map Int.ofNat) lo with
    | error e => rw [ha] at h; cases h
    | ok a =>
      rw [ha] at h
      cases h
      obtain ⟨h1, h2⟩ := arrayFromParts_is_valid ha
      exact ⟨a, h1, by rw [h2, List.length_map], rfl, rfl⟩

/-- **C78 (Python's values).** Lists, tuples, rows and `Array` objects are such values: what `array_parts` takes apart `array_from_parts` puts together. -/
theorem C78_python : Faithful (world repr encode decode) where
  bounds v es dims lbs h := by
    obtain ⟨a, hv, _, rfl, rfl⟩ := parts_valid h
    rw [List.length_map]
    exact (bounds_length _ _ _ hv.1).1.symm
  array v es dims lbs h es' hl := by
    obtain ⟨a, hv, ha, rfl, rfl⟩ := parts_valid h
    have := arrayFromParts_valid hv (es := es'.map V.atom) (by rw [List.length_map, hl, ha])
    refine ⟨.array es' a.lower a.dims, ?_, ?_⟩
    · show fromParts _ _ _ = _
      rw [fromParts, this]
    · show PyWorld.parts (.array es' a.lower a.dims) = _
      simp only [PyWorld.parts, this]
  row _ _ := rfl

/-! ## The hypotheses are met -/

/-- Numbers; text is not used. -/
def numbers : World (PV Int) := world (fun _ => []) (fun _ => .error .typeError) (fun _ => .error .typeError)
def int4 : Ty (PV Int) := .base (some fun | .atom n => int4Pack n | _ => .error .structError) (some fun d => match int4Unpack d with | .ok n => .ok (.atom n) | .error e => .error e)
/-- A composite of a number and an array of composites of two numbers; `($1::t, $2::int4[])`. -/
def couple : Ty (PV Int) := .record ⟨["a".toList, "b".toList], [none, none], "s.couple".toList⟩ [23, 23] [int4, int4]
def deep : Ty (PV Int) := .record ⟨["x".toList, "y".toList], [none, none], "s.deep".toList⟩ [23, 100] [int4, .array 99 couple true true]
def select : Stmt (PV Int) := { params := [(deep, none), (.array 23 int4 true true, none)], columns := [("a".toList, deep, none), ("b".toList, .array 23 int4 true true, none)] }

theorem int4_symmetric : Symmetric numbers int4 := .base fun v b h => by
  cases v with
  | atom n =>
    have hb : int4Pack n = .ok b := h
    have hu : int4Unpack b = .ok n := PG.unpackFromS_packS hb
    exact ⟨.atom n, by show (match int4Unpack b with | .ok n => _ | .error e => _) = _; rw [hu]⟩
  | _ => cases h

theorem deep_symmetric : Symmetric numbers deep := by
  have hc : Symmetric numbers couple := .record rfl fun i c h => by
    match i, h with
    | 0, h => cases h; exact int4_symmetric
    | 1, h => cases h; exact int4_symmetric
    | n + 2, h => cases h
  refine .record rfl fun i c h => ?_
  match i, h with
  | 0, h => cases h; exact int4_symmetric
  | 1, h => cases h; exact .array hc
  | n + 2, h => cases h

/-- `(3, [(1, -2), None, (4, None)])` and `[[1, 2], [3, None]]`. -/
def given : List (Option (PV Int)) := [some (.tuple [some (.atom 3), some (.list [some (.tuple [some (.atom 1), some (.atom (-2))]), none, some (.tuple [some (.atom 4), none])])]),
  some (.list [some (.list [some (.atom 1), some (.atom 2)]), some (.list [some (.atom 3), none])])]
/-- What comes back: the lists are `Array` objects. -/
def back : List (Option (PV Int)) := [some (.tuple [some (.atom 3), some (.array [some (.tuple [some (.atom 1), some (.atom (-2))]), none, some (.tuple [some (.atom 4), none])] [1] [3])]),
  some (.array [some (.atom 1), some (.atom 2), some (.atom 3), none] [1, 1] [2, 2])]

/-- In the server's format. -/
def wire : List (Option Bytes) := [some [0, 0, 0, 2, 0, 0, 0, 23, 0, 0, 0, 4, 0, 0, 0, 3, 0, 0, 0, 100, 0, 0, 0, 84, 0, 0, 0, 1, 0, 0, 0, 0, 0, 0, 0, 99,
  0, 0, 0, 3, 0, 0, 0, 1, 0, 0, 0, 28, 0, 0, 0, 2, 0, 0, 0, 23, 0, 0, 0, 4, 0, 0, 0, 1, 0, 0, 0, 23, 0, 0, 0, 4, 255,
  255, 255, 254, 255, 255, 255, 255, 0, 0, 0, 24, 0, 0, 0, 2, 0, 0, 0, 23, 0, 0, 0, 4, 0, 0, 0, 4, 0, 0, 0, 23, 255,
  255, 255, 255],
 some [0, 0, 0, 2, 0, 0, 0, 0, 0, 0, 0, 23, 0, 0, 0, 2, 0, 0, 0, 1, 0, 0, 0, 2, 0, 0, 0, 1, 0, 0, 0, 4, 0, 0, 0, 1, 0,
  0, 0, 4, 0, 0, 0, 2, 0, 0, 0, 4, 0, 0, 0, 3, 255, 255, 255, 255]]

set_option maxRecDepth 100000 in
/-- `C78_echo`, with `C78_comes_back` and `C78_sent` inside. -/
example : Faithful numbers ∧ (∀ t ∈ select.params.map Prod.fst, Symmetric numbers t) ∧ select.columns.map (·.2.1) = select.params.map Prod.fst ∧ bound numbers select given = .ok wire ∧ row numbers select .output wire = .ok back := by
  refine ⟨C78_python, fun t ht => ?_, rfl, ?_⟩
  · have : t = deep ∨ t = .array 23 int4 true true := by simpa [select] using ht
    rcases this with rfl | rfl
    · exact deep_symmetric
    · exact .array int4_symmetric
  · exact ⟨rfl, rfl⟩

end PG.Props.RoundTrip
