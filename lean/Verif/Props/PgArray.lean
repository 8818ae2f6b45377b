import Verif.Proofs.PgArray
import Verif.Props.Types
/-!
# C25: arrays
-/
namespace PG.Props.PgArray
open PG PG.Element3 PG.PgArray PG.Spec.PgArray PG.TypesLib PG.Spec.Types PG.Spec.Format

variable {α : Type}

/-- C25: a regular nest of lists makes an array with the nest's dimensions, lower bounds of one, and its elements in row-major order. -/
theorem C25_from_nest (d : Nat) (ds : List Nat) (nst : List (V α)) (hp : ∀ e ∈ d :: ds, 1 ≤ e) (h : HasShape (d :: ds) (.list nst)) :
    fromNest nst = .ok ⟨flat (d :: ds) (.list nst), List.replicate (ds.length + 1) 1, (d :: ds).map Int.ofNat, d :: ds⟩ := by
  refine fromNest_iff.2 (Or.inr ⟨d :: ds, ?_, down_of_shape _ _ hp h, loose_of_nest _ _ (nest_of_shape _ _ h), rfl⟩)
  rintro rfl
  obtain ⟨l, hl, h1, _⟩ := h
  cases hl
  have := hp d (List.mem_cons_self ..)
  simp at h1
  omega

/-- C25: the empty list is the array without dimensions. -/
theorem C25_empty : fromNest ([] : List (V α)) = .ok ⟨[], [], [], []⟩ := rfl

/-- C25: exactly the nests are accepted in which every list (or tuple in the place of a list) has the size found by going down the first
members; whatever is below that level is an element. -/
theorem C25_accepts (nst : List (V α)) : (∃ a, fromNest nst = .ok a) ↔ nst = [] ∨ ∃ ds, Down (.list nst) ds ∧ Loose ds (.list nst) := by
  constructor
  · rintro ⟨a, h⟩
    rcases fromNest_iff.1 h with ⟨h, _⟩ | ⟨ds, _, hd, hl, _⟩
    · exact Or.inl h
    · exact Or.inr ⟨ds, hd, hl⟩
  · rintro (rfl | ⟨ds, hd, hl⟩)
    · exact ⟨_, rfl⟩
    · by_cases hne : nst = []
      · subst hne; exact ⟨_, rfl⟩
      · exact ⟨_, fromNest_iff.2 (Or.inr ⟨ds, hne, hd, hl, rfl⟩)⟩

/-- C25: a nest with a list of another size than its sisters is refused. -/
theorem C25_irregular_refused (nst : List (V α)) (x y : List (V α)) (hx : .list x ∈ nst) (hy : .list y ∈ nst) (hne : x.length ≠ y.length)
    (hall : ∀ v ∈ nst, ∃ l, v = .list l) : ∃ e, fromNest nst = .error e := by
  cases hf : fromNest nst with
  | error e => exact ⟨e, rfl⟩
  | ok a =>
    exfalso
    rcases fromNest_iff.1 hf with ⟨h, _⟩ | ⟨ds, _, hd, hl, _⟩
    · subst h; cases hx
    · cases hd with
      | stop h => exact h.elim
      | @go v l ds hd =>
        obtain ⟨v', hv'⟩ := hall v (List.mem_cons_self ..)
        subst hv'
        obtain ⟨e, es, rfl⟩ := down_ne hd
        obtain ⟨l', hl', _, h⟩ := hl
        cases hl'
        obtain ⟨a1, ha1, hb1, _⟩ := h _ hx
        obtain ⟨a2, ha2, hb2, _⟩ := h _ hy
        cases ha1
        cases ha2
        exact hne (hb1.trans hb2.symm)

theorem pos_of_down : ∀ (ds : List Nat), (∀ e ∈ ds, 1 ≤ e) → 0 < ds.prod
  | [], _ => by simp
  | d :: ds, h => by
    rw [List.prod_cons]
    exact Nat.mul_pos (h d (List.mem_cons_self ..)) (pos_of_down ds fun e he => h e (List.mem_cons_of_mem _ he))

/-- An array that holds the nest `l`. -/
structure Holds (a : Arr α) (l : List (V α)) : Prop where
  bounds : Bounds a.lower a.upper a.dims
  shape : ∃ d ds, a.dims = d :: ds
  loose : ∀ d ds, a.dims = d :: ds → l.length = d ∧ (∀ x ∈ l, Loose ds x) ∧ a.elements = l.flatMap (flat ds)

theorem bounds_pos : ∀ (lb ub : List Int) (ds : List Nat), Bounds lb ub ds → ∀ d ∈ ds, 1 ≤ d
  | [], [], [], _ => by simp
  | _ :: ls, _ :: us, _ :: ds, ⟨_, h2, h3⟩ => by
    intro d hd
    rcases List.mem_cons.1 hd with rfl | hd
    · exact h2
    · exact bounds_pos ls us ds h3 d hd

theorem weight_holds {a : Arr α} {l : List (V α)} (h : Holds a l) {d : Nat} {ds : List Nat} (hd : a.dims = d :: ds) : weight a = ds.prod ∧ len a = d ∧
    (∀ x ∈ l, (flat ds x).length = ds.prod) ∧ l.length = d := by
  obtain ⟨h1, h2, h3⟩ := h.loose d ds hd
  have hp : 1 ≤ d := bounds_pos _ _ _ h.bounds d (by rw [hd]; exact List.mem_cons_self ..)
  have hlen : ∀ x ∈ l, (flat ds x).length = ds.prod := fun x hx => length_flat ds x (h2 x hx)
  refine ⟨?_, by rw [len, hd]; rfl, hlen, h1⟩
  unfold weight
  rw [hd]
  simp only
  rw [if_neg (by omega), h3, length_blocks l hlen, h1, Nat.mul_div_cancel_left _ (by omega)]

theorem bounds_tail {lb ub : List Int} {d : Nat} {ds : List Nat} (h : Bounds lb ub (d :: ds)) : Bounds lb.tail ub.tail ds := by
  cases lb with
  | nil => cases ub <;> exact False.elim h
  | cons l ls => cases ub with
    | nil => exact False.elim h
    | cons u us => exact h.2.2

theorem pySlice_nat {β : Type} (l : List β) (i j : Nat) : pySlice l (i : Int) (j : Int) = slice l i j := by
  unfold pySlice
  dsimp only
  rw [if_neg (by omega), if_neg (by omega), Int.toNat_natCast, Int.toNat_natCast]

/-- C25: in two dimensions or more, `a[i]` is the array of the nest's `i`-th list (or tuple). -/
theorem C25_getitem (a : Arr α) (l : List (V α)) (d e : Nat) (ds : List Nat) (h : Holds a l) (hd : a.dims = d :: e :: ds) (i : Nat) (x : V α)
    (hx : l[i]? = some x) : ∃ b m, members x = some m ∧ subArray a i = .ok b ∧ Holds b m ∧ b.dims = e :: ds := by
  obtain ⟨hw, hlen, hbl, hll⟩ := weight_holds h hd
  obtain ⟨h1, h2, h3⟩ := h.loose d _ hd
  have hb := h.bounds
  rw [hd] at hb
  have hb := bounds_tail hb
  have hi : i < l.length := (List.getElem?_eq_some_iff.1 hx).1
  obtain ⟨m, hm, hm1, hm2⟩ := h2 x (List.mem_of_getElem? hx)
  refine ⟨⟨flat (e :: ds) x, a.lower.tail, a.upper.tail, e :: ds⟩, m, hm, ?_, ⟨hb, ⟨_, _, rfl⟩, ?_⟩, rfl⟩
  · unfold subArray
    rw [if_neg (by omega), hw]
    have : pySlice a.elements (((e :: ds).prod : Nat) * (i : Int)) (((e :: ds).prod : Nat) * ((i : Int) + 1)) = flat (e :: ds) x := by
      have := pySlice_nat a.elements ((e :: ds).prod * i) ((e :: ds).prod * (i + 1))
      rw [Int.natCast_mul, Int.natCast_mul, Int.natCast_add, Int.natCast_one] at this
      rw [this, h3]
      exact slice_block hbl hx
    rw [this]
    exact fromElements_bounds hb (by simp) (hbl x (List.mem_of_getElem? hx)) rfl
  · intro d' ds' he
    cases he
    exact ⟨hm1, hm2, by dsimp only; rw [flat, hm]; rfl⟩

theorem mapE_range {β : Type} {f : Nat → Except Err β} {l : List β} (h : ∀ i x, l[i]? = some x → f i = .ok x) : mapE f (List.range l.length) = .ok l := by
  have key : ∀ (k : List β) (s : Nat), (∀ i x, k[i]? = some x → f (s + i) = .ok x) → mapE f (List.range' s k.length) = .ok k := by
    intro k
    induction k with
    | nil => intro s _; rfl
    | cons x k ih =>
      intro s hk
      rw [List.length_cons, List.range'_succ, mapE, show f s = .ok x from hk 0 x rfl, bind_ok, ih (s + 1), bind_ok, pure_ok]
      intro i y hy
      rw [show s + 1 + i = s + (i + 1) by omega]
      exact hk (i + 1) y hy
  rw [List.range_eq_range']
  exact key l 0 fun i x hx => by rw [Nat.zero_add]; exact h i x hx

theorem flat_nil (l : List (V α)) : l.flatMap (flat []) = l := by
  induction l with
  | nil => rfl
  | cons x l ih => rw [List.flatMap_cons, ih]; rfl

theorem nest_holds (fuel : Nat) : ∀ (a : Arr α) (l : List (V α)), Holds a l → Nest a.dims (.list l) → a.dims.length ≤ fuel + 1 → nest fuel a = .ok (.list l) := by
  induction fuel with
  | zero =>
    intro a l h hn hf
    obtain ⟨d, ds, hd⟩ := h.shape
    rw [hd] at hf
    cases ds with
    | cons => simp at hf
    | nil => rw [nest, (h.loose d [] hd).2.2, flat_nil]
  | succ fuel ih =>
    intro a l h hn hf
    obtain ⟨d, ds, hd⟩ := h.shape
    cases ds with
    | nil => rw [nest, if_pos (by simp [hd]), (h.loose d [] hd).2.2, flat_nil]
    | cons e ds =>
      rw [nest, if_neg (by simp [hd])]
      obtain ⟨hw, hlen, hbl, hll⟩ := weight_holds h hd
      rw [hlen, ← hll, mapE_range (l := l), bind_ok, pure_ok]
      intro i x hx
      obtain ⟨b, m, hm, hs, hb, hbd⟩ := C25_getitem a l d e ds h hd i x hx
      rw [hs]
      show nest fuel b = _
      rw [hd] at hn
      obtain ⟨l', hl', _, hn⟩ := hn
      cases hl'
      have hnx := hn x (List.mem_of_getElem? hx)
      obtain ⟨m', rfl, hml, hmn⟩ := hnx
      cases hm
      exact ih b m hb (by rw [hbd]; exact ⟨m, rfl, hml, hmn⟩) (by rw [hbd]; rw [hd] at hf; simpa using hf)

theorem holds_fromNest {nst : List (V α)} {a : Arr α} (h : fromNest nst = .ok a) (hne : nst ≠ []) :
    Holds a nst ∧ Down (.list nst) a.dims ∧ a.elements = flat a.dims (.list nst) := by
  rcases fromNest_iff.1 h with ⟨h, _⟩ | ⟨ds, _, hd, hl, rfl⟩
  · exact absurd h hne
  · obtain ⟨d, es, rfl⟩ := down_ne hd
    refine ⟨⟨bounds_ones _ (down_pos hd), ⟨_, _, rfl⟩, ?_⟩, hd, rfl⟩
    intro d' ds' he
    cases he
    obtain ⟨l, hm, h1, h2⟩ := hl
    cases hm
    exact ⟨h1, h2, rfl⟩

/-- No tuple is where the array takes it for a list. -/
def NoTuples (nst : List (V α)) : Prop := ∀ ds, Down (.list nst) ds → Loose ds (.list nst) → Nest ds (.list nst)

/-- C25: what is accepted comes back: `Array(nest).nest() == nest`. -/
theorem C25_nest (nst : List (V α)) (a : Arr α) (h : fromNest nst = .ok a) (ht : NoTuples nst) : nest a.dims.length a = .ok (.list nst) := by
  by_cases hne : nst = []
  · subst hne
    cases h
    rfl
  · obtain ⟨hh, hd, _⟩ := holds_fromNest h hne
    refine nest_holds _ a nst hh (ht _ hd ?_) (by omega)
    obtain ⟨d, ds, he⟩ := hh.shape
    rw [he]
    obtain ⟨h1, h2, _⟩ := hh.loose d ds he
    exact ⟨nst, rfl, h1, h2⟩

/-- C25: in particular for every regular nest. -/
theorem C25_round_trip (d : Nat) (ds : List Nat) (nst : List (V α)) (hp : ∀ e ∈ d :: ds, 1 ≤ e) (h : HasShape (d :: ds) (.list nst)) :
    ∃ a, fromNest nst = .ok a ∧ nest a.dims.length a = .ok (.list nst) := by
  have hok := C25_from_nest d ds nst hp h
  refine ⟨_, hok, C25_nest nst _ hok ?_⟩
  intro es he _
  have := detectRest_iff.2 he
  rw [detectRest_iff.2 (down_of_shape _ _ hp h)] at this
  cases this
  exact nest_of_shape _ _ h

theorem position_flat : ∀ (ds : List Nat) (v : V α) (addr : List Int) (p : List Nat), Loose ds v → Indices ds addr p →
    ∃ k w, position (flat ds v).length addr ds = .ok k ∧ (flat ds v)[k]? = some w ∧ follow v p = some w
  | [], v, [], [], _, _ => ⟨0, v, rfl, rfl, rfl⟩
  | d :: ds, v, b :: addr, i :: p, ⟨l, hm, hl, h⟩, ⟨⟨hi, hb⟩, hidx⟩ => by
    have hbl : ∀ x ∈ l, (flat ds x).length = ds.prod := fun x hx => length_flat ds x (h x hx)
    have hx : l[i]? = some l[i] := List.getElem?_eq_getElem (by omega)
    obtain ⟨k, w, h1, h2, h3⟩ := position_flat ds l[i] addr p (h _ (List.mem_of_getElem? hx)) hidx
    have hfl : flat (d :: ds) v = l.flatMap (flat ds) := by rw [flat, hm]; rfl
    have hlen : (flat (d :: ds) v).length = d * ds.prod := by rw [hfl, length_blocks l hbl, hl]
    have hw : (flat ds l[i]).length = ds.prod := hbl _ (List.mem_of_getElem? hx)
    have hn : (if b < 0 then b + d else b) = (i : Int) := by split <;> omega
    refine ⟨i * ds.prod + k, w, ?_, ?_, ?_⟩
    · rw [position]
      rw [hn, if_neg (by omega), hlen, Nat.mul_div_cancel_left _ (by omega), ← hw, h1, bind_ok, pure_ok, Int.toNat_natCast]
    · have hk : k < ds.prod := by
        rw [← hw]
        exact (List.getElem?_eq_some_iff.1 h2).1
      rw [hfl, get_block hbl hx hk, h2]
    · rw [follow, hm]
      simp only [Option.bind_some]
      rw [hx]
      exact h3

/-- C25: `get_element` of an address is the value at that path in the nest; negative indices count from the end. -/
theorem C25_get_element (nst : List (V α)) (a : Arr α) (addr : List Int) (p : List Nat) (h : fromNest nst = .ok a) (hi : Indices a.dims addr p)
    (hne : nst ≠ []) : ∃ w, getElement a addr = .ok w ∧ follow (.list nst) p = some w := by
  obtain ⟨hh, hd, he⟩ := holds_fromNest h hne
  obtain ⟨d, ds, hds⟩ := hh.shape
  obtain ⟨h1, h2, h3⟩ := hh.loose d ds hds
  obtain ⟨k, w, q1, q2, q3⟩ := position_flat a.dims (.list nst) addr p (by rw [hds]; exact ⟨nst, rfl, h1, h2⟩) hi
  refine ⟨w, ?_, q3⟩
  have hal : addr.length = a.dims.length := by
    have : ∀ (ds : List Nat) (addr : List Int) (p : List Nat), Indices ds addr p → addr.length = ds.length := by
      intro ds
      induction ds with
      | nil => intro addr p h; cases addr with
        | nil => rfl
        | cons => cases p <;> exact h.elim
      | cons d ds ih => intro addr p h; cases addr with
        | nil => cases p <;> exact h.elim
        | cons b addr => cases p with
          | nil => exact h.elim
          | cons i p => simp [ih addr p h.2]
    exact this _ _ _ hi
  unfold getElement
  rw [if_neg (by rw [hds]; simp), if_neg (by simp [hal]), he, q1, bind_ok]
  unfold pyGet
  simp only
  rw [if_neg (by omega), if_neg (by omega), Int.toNat_natCast, q2]

/-- C25: an index outside of its dimension raises IndexError, whatever the others are. -/
theorem C25_get_element_range (a : Arr α) (addr : List Int) (hne : a.dims ≠ []) (hl : addr.length = a.dims.length) (j : Nat) (b : Int) (d : Nat)
    (hb : addr[j]? = some b) (hd : a.dims[j]? = some d) (hout : ¬ ∃ i, IsIndex d b i) : getElement a addr = .error .indexError := by
  have key : ∀ (ds : List Nat) (addr : List Int) (n j : Nat), addr[j]? = some b → ds[j]? = some d → position n addr ds = .error .indexError := by
    intro ds
    induction ds with
    | nil => intro addr n j _ h; simp at h
    | cons e ds ih =>
      intro addr n j h1 h2
      cases addr with
      | nil => simp at h1
      | cons c addr =>
        rw [position]
        generalize hc : (if c < 0 then c + (e : Int) else c) = c'
        by_cases hin : c' < 0 ∨ (e : Int) ≤ c'
        · exact if_pos hin
        · rw [if_neg hin]
          cases j with
          | zero =>
            cases h1
            cases h2
            exfalso
            apply hout
            by_cases hneg : b < 0
            · rw [if_pos hneg] at hc
              exact ⟨(b + d).toNat, by unfold IsIndex; omega⟩
            · rw [if_neg hneg] at hc
              exact ⟨b.toNat, by unfold IsIndex; omega⟩
          | succ j =>
            rw [ih addr (n / e) j h1 h2]
            rfl
  unfold getElement
  rw [if_neg hne, if_neg (by simp [hl]), key a.dims addr _ j hb hd]
  rfl

/-- C25: `from_elements` with upper bounds: an array it makes has as many elements as its bounds describe, and the dimensions are those of
the bounds. -/
theorem C25_from_elements (e : List (V α)) (lower : Option (List Int)) (ub : List Int) (a : Arr α) (h : fromElements e lower (some ub) = .ok a) :
    a.elements = e ∧ Bounds a.lower a.upper a.dims ∧ (a.dims = [] → e = []) ∧ (a.dims ≠ [] → e.length = a.dims.prod ∧ a.upper = ub) := by
  rcases fromElements_ok h with ⟨rfl, rfl⟩ | ⟨h1, _, h3, h4, h5, h6⟩
  · exact ⟨rfl, trivial, fun _ => rfl, fun h => absurd rfl h⟩
  · exact ⟨h1, h4, fun h => absurd h h5, fun _ => ⟨h6, h3⟩⟩

/-- C25: and it makes every such array. -/
theorem C25_from_elements_complete (e : List (V α)) (lb ub : List Int) (ds : List Nat) (hb : Bounds lb ub ds) (hne : ds ≠ []) (hl : e.length = ds.prod) :
    fromElements e (some lb) (some ub) = .ok ⟨e, lb, ub, ds⟩ := fromElements_bounds hb hne hl rfl

/-- The row-major position of an address within the bounds. -/
def sqlIndex : List Int → List Nat → List Int → Nat
  | l :: ls, _ :: ds, x :: xs => (x - l).toNat * ds.prod + sqlIndex ls ds xs
  | _, _, _ => 0

/-- An SQL address is within the bounds. -/
def Within : List Int → List Int → List Int → Prop
  | [], [], [] => True
  | l :: ls, u :: us, x :: xs => l ≤ x ∧ x ≤ u ∧ Within ls us xs
  | _, _, _ => False

theorem position_sql : ∀ (lb ub : List Int) (ds : List Nat) (addr : List Int), Bounds lb ub ds → addr.length = ds.length →
    ((addr.zip lb).map fun x => x.1 - x.2).any (fun x => x < 0) = false →
    (Within lb ub addr → position ds.prod ((addr.zip lb).map fun x => x.1 - x.2) ds = .ok (sqlIndex lb ds addr) ∧ sqlIndex lb ds addr < ds.prod) ∧
    (¬ Within lb ub addr → position ds.prod ((addr.zip lb).map fun x => x.1 - x.2) ds = .error .indexError)
  | [], [], [], [], _, _, _ => ⟨fun _ => ⟨rfl, by simp [sqlIndex]⟩, fun h => (h trivial).elim⟩
  | l :: ls, u :: us, d :: ds, x :: xs, ⟨h1, h2, h3⟩, hl, hneg => by
    have hl' : xs.length = ds.length := by simpa using hl
    simp only [List.zip_cons_cons, List.map_cons, List.any_cons, Bool.or_eq_false_iff, decide_eq_false_iff_not] at hneg
    obtain ⟨ih1, ih2⟩ := position_sql ls us ds xs h3 hl' hneg.2
    have hdiv : (d :: ds).prod / d = ds.prod := by rw [List.prod_cons, Nat.mul_div_cancel_left _ (by omega)]
    simp only [List.zip_cons_cons, List.map_cons]
    rw [position]
    rw [if_neg hneg.1, hdiv]
    constructor
    · rintro ⟨w1, w2, w3⟩
      obtain ⟨i1, i2⟩ := ih1 w3
      rw [if_neg (by omega), i1, bind_ok, pure_ok]
      refine ⟨rfl, ?_⟩
      rw [sqlIndex, List.prod_cons]
      have hlt : (x - l).toNat + 1 ≤ d := by omega
      calc (x - l).toNat * ds.prod + sqlIndex ls ds xs < (x - l).toNat * ds.prod + ds.prod := by omega
        _ = ((x - l).toNat + 1) * ds.prod := by rw [Nat.succ_mul]
        _ ≤ d * ds.prod := Nat.mul_le_mul_right _ hlt
    · intro hw
      by_cases hx : x ≤ u
      · have hw' : ¬ Within ls us xs := fun h => hw ⟨by omega, hx, h⟩
        rw [if_neg (by omega), ih2 hw']
        rfl
      · rw [if_pos (by omega)]

/-- C25: with SQL indices, `sql_get_element` gives the element at the row-major position of an address within the bounds and None for every
other address of the right length. -/
theorem C25_sql_get_element (e : List (V α)) (lower : Option (List Int)) (ub : List Int) (a : Arr α) (h : fromElements e lower (some ub) = .ok a)
    (addr : List Int) (hl : addr.length = a.dims.length) :
    (Within a.lower a.upper addr → a.dims ≠ [] → ∃ w, sqlGetElement a addr = .ok (some w) ∧ e[sqlIndex a.lower a.dims addr]? = some w) ∧
    (¬ Within a.lower a.upper addr → sqlGetElement a addr = .ok none) := by
  obtain ⟨he, hb, h0, h1⟩ := C25_from_elements e lower ub a h
  unfold sqlGetElement
  dsimp only
  have hblen := bounds_length _ _ _ hb
  have hlen2 : ((addr.zip a.lower).map fun x => x.1 - x.2).length = a.dims.length := by simp [hl, hblen.1]
  by_cases hneg : ((addr.zip a.lower).map fun x => x.1 - x.2).any (fun x => x < 0) = true
  · rw [if_pos hneg]
    refine ⟨?_, fun _ => rfl⟩
    intro hw
    exfalso
    have : ∀ (lb ub addr : List Int), Within lb ub addr → ((addr.zip lb).map fun x => x.1 - x.2).any (fun x => x < 0) = false := by
      intro lb
      induction lb with
      | nil => intro ub addr _; simp
      | cons l ls ih =>
        intro ub addr hw
        cases ub with
        | nil => exact hw.elim
        | cons u us => cases addr with
          | nil => exact hw.elim
          | cons x xs =>
            simp only [List.zip_cons_cons, List.map_cons, List.any_cons, Bool.or_eq_false_iff, decide_eq_false_iff_not]
            exact ⟨by have := hw.1; omega, ih us xs hw.2.2⟩
    rw [this _ _ _ hw] at hneg
    cases hneg
  · have hneg' : ((addr.zip a.lower).map fun x => x.1 - x.2).any (fun x => x < 0) = false := by simpa using hneg
    rw [if_neg hneg]
    obtain ⟨p1, p2⟩ := position_sql a.lower a.upper a.dims addr hb hl hneg'
    constructor
    · intro hw hne
      obtain ⟨q1, q2⟩ := p1 hw
      obtain ⟨hn, _⟩ := h1 hne
      have hlt : sqlIndex a.lower a.dims addr < e.length := by omega
      refine ⟨e[sqlIndex a.lower a.dims addr], ?_, List.getElem?_eq_getElem hlt⟩
      have : getElement a ((addr.zip a.lower).map fun x => x.1 - x.2) = .ok e[sqlIndex a.lower a.dims addr] := by
        unfold getElement
        rw [if_neg hne, if_neg (by simp only [hlen2, ne_eq, not_true_eq_false, not_false_eq_true]), he, hn, q1, bind_ok]
        unfold pyGet
        simp only
        rw [if_neg (by omega), if_neg (by omega), Int.toNat_natCast, List.getElem?_eq_getElem hlt]
      rw [this]
    · intro hw
      by_cases hne : a.dims = []
      · have : getElement a ((addr.zip a.lower).map fun x => x.1 - x.2) = .error .indexError := by
          unfold getElement
          rw [if_pos hne]
        rw [this]
      · obtain ⟨hn, _⟩ := h1 hne
        have : getElement a ((addr.zip a.lower).map fun x => x.1 - x.2) = .error .indexError := by
          unfold getElement
          rw [if_neg hne, if_neg (by simp only [hlen2, ne_eq, not_true_eq_false, not_false_eq_true]), he, hn, p2 hw]
          rfl
        rw [this]

theorem blocks_pick {β γ : Type} {f : β → List γ} {w : Nat} (l : List β) (h : ∀ x ∈ l, (f x).length = w) :
    ∀ (idx : List Nat) (m : List β), idx.map (l[·]?) = m.map some →
      idx.flatMap (fun i => slice (l.flatMap f) (w * i) (w * (i + 1))) = m.flatMap f ∧ (∀ x ∈ m, x ∈ l) ∧ m.length = idx.length
  | [], [], _ => by simp
  | i :: idx, x :: m, he => by
    simp only [List.map_cons, List.cons.injEq] at he
    obtain ⟨h1, h2, h3⟩ := blocks_pick l h idx m he.2
    refine ⟨by rw [List.flatMap_cons, List.flatMap_cons, h1, slice_block h he.1], ?_, by simp [h3]⟩
    intro y hy
    rcases List.mem_cons.1 hy with rfl | hy
    · exact List.mem_of_getElem? he.1
    · exact h2 y hy

/-- C25: in two dimensions or more, a slice is the array of the lists at its indices. -/
theorem C25_slice (a : Arr α) (l m : List (V α)) (d e : Nat) (ds : List Nat) (h : Holds a l) (hd : a.dims = d :: e :: ds) (idx : List Nat)
    (hm : idx.map (l[·]?) = m.map some) (hne : idx ≠ []) :
    ∃ b, subSlice a idx = .ok b ∧ Holds b m ∧ b.dims = idx.length :: e :: ds := by
  obtain ⟨hw, hlen, hbl, hll⟩ := weight_holds h hd
  obtain ⟨h1, h2, h3⟩ := h.loose d _ hd
  obtain ⟨p1, p2, p3⟩ := blocks_pick l hbl idx m hm
  have hb := h.bounds
  rw [hd] at hb
  have hb := bounds_tail hb
  have hpos : 0 < idx.length := List.length_pos_iff.2 hne
  have hb2 : Bounds (1 :: a.lower.tail) ((idx.length : Int) :: a.upper.tail) (idx.length :: e :: ds) := ⟨by omega, hpos, hb⟩
  refine ⟨⟨m.flatMap (flat (e :: ds)), 1 :: a.lower.tail, (idx.length : Int) :: a.upper.tail, idx.length :: e :: ds⟩, ?_, ⟨hb2, ⟨_, _, rfl⟩, ?_⟩, rfl⟩
  · unfold subSlice
    rw [if_neg hne, hw, h3, p1]
    refine fromElements_bounds hb2 (by simp) ?_ rfl
    rw [length_blocks m fun x hx => hbl x (p2 x hx), p3]
    simp only [List.prod_cons]
  · intro d' ds' he
    cases he
    exact ⟨p3, fun x hx => h2 x (p2 x hx), rfl⟩

/-- An array as `from_elements` makes it from bounds. -/
def Valid (a : Arr α) : Prop := Bounds a.lower a.upper a.dims ∧ (a.dims = [] → a.elements = []) ∧ (a.dims ≠ [] → a.elements.length = a.dims.prod)

theorem upper_of_bounds : ∀ (lb ub : List Int) (ds : List Nat), Bounds lb ub ds → ((ds.map Int.ofNat).zip lb).map (fun x => x.1 + x.2 - 1) = ub
  | [], [], [], _ => rfl
  | l :: ls, u :: us, d :: ds, ⟨h1, _, h3⟩ => by
    rw [List.map_cons, List.zip_cons_cons, List.map_cons, upper_of_bounds ls us ds h3]
    congr 1
    show (d : Int) + l - 1 = u
    omega

theorem pack_unpack_elements {β : Type} {pack : V (Option β) → Except Err Bytes} {unpack : Bytes → Except Err (V (Option β))} :
    ∀ (l : List (V (Option β))), (∀ x ∈ l, x ≠ .atom none → ∃ b, pack x = .ok b ∧ unpack b = .ok x ∧ b.length < 2 ^ 31) →
      ∃ e, packElements pack l = .ok e ∧ unpackElements unpack e = .ok l ∧ e.length = l.length ∧ ∀ x ∈ e, ∀ b, x = some b → b.length < 2 ^ 31
  | [], _ => ⟨[], rfl, rfl, rfl, by simp⟩
  | x :: l, h => by
    obtain ⟨e, h1, h2, h3, h4⟩ := pack_unpack_elements l fun y hy => h y (List.mem_cons_of_mem _ hy)
    have hx := h x (List.mem_cons_self ..)
    by_cases hn : x = .atom none
    · subst hn
      refine ⟨none :: e, ?_, ?_, by simp [h3], ?_⟩
      · simp only [packElements, h1, bind_ok, pure_ok]
      · simp only [unpackElements, h2, bind_ok, pure_ok]
      · intro y hy b hb
        rcases List.mem_cons.1 hy with rfl | hy
        · cases hb
        · exact h4 y hy b hb
    · obtain ⟨b, hb1, hb2, hb3⟩ := hx hn
      refine ⟨some b :: e, ?_, ?_, by simp [h3], ?_⟩
      · rw [packElements]
        · simp only [h1, hb1, bind_ok, pure_ok]
        · exact hn
      · simp only [unpackElements, hb2, h2, bind_ok, pure_ok]
      · intro y hy c hc
        rcases List.mem_cons.1 hy with rfl | hy
        · cases hc; exact hb3
        · exact h4 y hy c hc

/-- C25: an array sent to the server and read back is the same array, with elements, dimensions and bounds, if its elements come back and the
numbers fit their fields. -/
theorem C25_wire {β : Type} (pack : V (Option β) → Except Err Bytes) (unpack : Bytes → Except Err (V (Option β))) (typoid : Nat) (a : Arr (Option β))
    (hv : Valid a) (ht : typoid < 2 ^ 32) (hn : a.dims.length < 2 ^ 31) (hd : ∀ d ∈ a.dims, d < 2 ^ 31) (hl : ∀ l ∈ a.lower, Int4 l)
    (he : ∀ x ∈ a.elements, x ≠ .atom none → ∃ b, pack x = .ok b ∧ unpack b = .ok x ∧ b.length < 2 ^ 31) :
    ∃ data, packArray pack typoid a = .ok data ∧ ∀ fuel, a.elements.length ≤ fuel → unpackArray unpack fuel data = some (.ok a) := by
  obtain ⟨hb, h0, h1⟩ := hv
  obtain ⟨e, p1, p2, p3, p4⟩ := pack_unpack_elements a.elements he
  have hok : ArrayOk ⟨0, typoid, a.dims.map Int.ofNat, a.lower, e⟩ := by
    refine ⟨by simp [(bounds_length _ _ _ hb).1], by simpa using hn, ⟨by dsimp only; decide, by dsimp only; decide⟩, ⟨Int.natCast_nonneg _, by dsimp only; omega⟩, ?_, hl, p4⟩
    intro d hd'
    obtain ⟨n, hn', rfl⟩ := List.mem_map.1 hd'
    have := hd n hn'
    constructor
    · show -2 ^ 31 ≤ (n : Int); omega
    · show (n : Int) < 2 ^ 31; omega
  obtain ⟨q1, q2⟩ := PG.Props.Types.C20_array_round_trip _ hok
  refine ⟨_, by unfold packArray; rw [p1, bind_ok]; exact q1, ?_⟩
  intro fuel hf
  unfold unpackArray
  rw [q2 fuel (by dsimp only; omega)]
  simp only [Option.map_some, bind_ok, p2]
  unfold arrayFromParts
  rw [upper_of_bounds _ _ _ hb]
  obtain ⟨elements, lower, upper, dims⟩ := a
  dsimp only at *
  by_cases hne : dims = []
  · subst hne
    have := h0 rfl
    subst this
    obtain ⟨b1, b2⟩ := bounds_length _ _ _ hb
    cases List.length_eq_zero_iff.1 b1
    cases List.length_eq_zero_iff.1 b2
    rfl
  · rw [fromElements_bounds hb hne (h1 hne) rfl]

/-- Finding: in two dimensions or more the index -1 raises ValueError. -/
theorem C25_last_by_minus_one_fails (a : Arr α) (l : List (V α)) (d e : Nat) (ds : List Nat) (h : Holds a l) (hd : a.dims = d :: e :: ds) :
    subArray a (-1) = .error .valueError := by
  have hb := h.bounds
  rw [hd] at hb
  have hb := bounds_tail hb
  have hpos := pos_of_down _ (bounds_pos _ _ _ hb)
  obtain ⟨hl1, hl2⟩ := bounds_length _ _ _ hb
  obtain ⟨u, us, hu⟩ : ∃ u us, a.upper.tail = u :: us := by
    cases hx : a.upper.tail with
    | nil => rw [hx] at hl2; cases hl2
    | cons u us => exact ⟨u, us, rfl⟩
  unfold subArray
  rw [if_neg (by omega)]
  have hs : pySlice a.elements (weight a * (-1)) (weight a * (-1 + 1)) = [] := by
    unfold pySlice slice
    dsimp only
    rw [show ((weight a : Int) * (-1 + 1)) = 0 by omega]
    simp
  rw [hs, hu]
  rw [hu] at hb
  unfold fromElements
  simp only [defaultLower]
  rw [physical_bounds _ _ _ _ hb, bind_ok]
  simp only
  rw [if_pos]
  simp only [List.length_nil, ne_eq]
  omega

/-- Finding: the index after the last one raises ValueError instead of IndexError. -/
theorem C25_index_after_last (a : Arr α) (l : List (V α)) (d e : Nat) (ds : List Nat) (h : Holds a l) (hd : a.dims = d :: e :: ds) :
    subArray a d = .error .valueError := by
  obtain ⟨hw, hlen, hbl, hll⟩ := weight_holds h hd
  obtain ⟨h1, h2, h3⟩ := h.loose d _ hd
  have hb := h.bounds
  rw [hd] at hb
  have hb := bounds_tail hb
  have hpos := pos_of_down _ (bounds_pos _ _ _ hb)
  obtain ⟨hl1, hl2⟩ := bounds_length _ _ _ hb
  obtain ⟨u, us, hu⟩ : ∃ u us, a.upper.tail = u :: us := by
    cases hx : a.upper.tail with
    | nil => rw [hx] at hl2; cases hl2
    | cons u us => exact ⟨u, us, rfl⟩
  unfold subArray
  rw [if_neg (by omega), hw]
  have hs : pySlice a.elements ((e :: ds).prod * (d : Int)) ((e :: ds).prod * ((d : Int) + 1)) = [] := by
    have := pySlice_nat a.elements ((e :: ds).prod * d) ((e :: ds).prod * (d + 1))
    rw [Int.natCast_mul, Int.natCast_mul, Int.natCast_add, Int.natCast_one] at this
    rw [this, slice, h3, drop_blocks l d hbl, ← hll, List.drop_length]
    simp
  rw [hs, hu]
  rw [hu] at hb
  unfold fromElements
  simp only [defaultLower]
  rw [physical_bounds _ _ _ _ hb, bind_ok]
  simp only
  rw [if_pos]
  simp only [List.length_nil, ne_eq]
  omega

/-- Finding: lower bounds without upper bounds make an array whose bounds do not describe its dimensions. -/
theorem C25_lower_only (x y z : V α) : fromElements [x, y, z] (some [5]) none = .ok ⟨[x, y, z], [5], [3], [3]⟩ := rfl

/-- Finding: a list below the level of the elements is taken for an element, not refused. -/
theorem C25_deeper_list_accepted : fromNest [.atom (1 : Nat), .list [.atom 2]] = .ok ⟨[.atom 1, .list [.atom 2]], [1], [2], [2]⟩ := rfl

/-- Finding: a string or tuple of the right length in the place of a list is taken apart: `Array([['a', 'b'], 'cd'])`. -/
theorem C25_tuple_taken_apart (a b c d : α) :
    fromNest [.list [.atom a, .atom b], .tuple [.atom c, .atom d]] = .ok ⟨[.atom a, .atom b, .atom c, .atom d], [1, 1], [2, 2], [2, 2]⟩ := rfl

/-- Finding: an SQL address with too many indices is cut, not refused. -/
theorem C25_long_address (x y : V α) : sqlGetElement ⟨[x, y], [1], [2], [2]⟩ [2, 99] = .ok (some y) := by
  simp [sqlGetElement, getElement, position, pyGet]

/-- A concrete case: a two by three array. -/
example : HasShape [2, 3] (.list [.list [.atom 1, .atom 2, .atom 4], .list [.atom 3, .atom 4, .atom (8 : Nat)]]) ∧
    fromNest [.list [.atom 1, .atom 2, .atom 4], .list [.atom 3, .atom 4, .atom (8 : Nat)]]
      = .ok ⟨[.atom 1, .atom 2, .atom 4, .atom 3, .atom 4, .atom 8], [1, 1], [2, 3], [2, 3]⟩ ∧
    Indices [2, 3] [-1, 1] [1, 1] ∧
    getElement ⟨[.atom 1, .atom 2, .atom 4, .atom 3, .atom 4, .atom (8 : Nat)], [1, 1], [2, 3], [2, 3]⟩ [-1, 1] = .ok (.atom 4) ∧
    Valid (⟨[.atom 1, .atom 2, .atom 4, .atom 3, .atom 4, .atom (8 : Nat)], [1, 1], [2, 3], [2, 3]⟩ : Arr Nat) := by
  refine ⟨⟨_, rfl, rfl, ?_⟩, rfl, ⟨⟨by decide, by decide⟩, ⟨by decide, by decide⟩, trivial⟩, rfl, ⟨⟨by decide, by decide, by decide, by decide, trivial⟩, by simp, by simp⟩⟩
  intro x hx
  simp only [List.mem_cons, List.not_mem_nil, or_false] at hx
  rcases hx with rfl | rfl <;> refine ⟨_, rfl, rfl, ?_⟩ <;> intro y hy <;> simp only [List.mem_cons, List.not_mem_nil, or_false] at hy <;>
    rcases hy with rfl | rfl | rfl <;> trivial

end PG.Props.PgArray
