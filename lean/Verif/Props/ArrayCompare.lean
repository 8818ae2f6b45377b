import Verif.Model.ArrayCompare
import Verif.Props.PgArray
/-! # C89: arrays compare as the nested lists they hold, and can be copied -/
namespace PG.PgArray
open PG PG.Spec.PgArray PG.TypesLib PG.Props.PgArray
variable {α : Type}

/-! ## Every array holds a nest -/

/-- An array that the API made: `Array(nest)`, or `from_elements` with upper bounds or without bounds. -/
def Made (a : Arr α) : Prop := (∃ e lower ub, fromElements e lower (some ub) = .ok a) ∨ (∃ e, fromElements e none none = .ok a) ∨ ∃ l, fromNest l = .ok a

theorem unflat : ∀ (ds : List Nat) (e : List (V α)), e.length = ds.prod → ∃ v, Nest ds v ∧ flat ds v = e
  | [], e, h => by
    match e, h with
    | [x], _ => exact ⟨x, trivial, rfl⟩
  | d :: ds, e, h => by
    have key : ∀ (d : Nat) (e : List (V α)), e.length = d * ds.prod → ∃ l : List (V α), l.length = d ∧ (∀ x ∈ l, Nest ds x) ∧ l.flatMap (flat ds) = e := by
      intro d
      induction d with
      | zero => intro e h; exact ⟨[], rfl, by simp, by simpa using (List.length_eq_zero_iff.mp (by simpa using h)).symm⟩
      | succ d ih =>
        intro e h
        rw [Nat.succ_mul] at h
        obtain ⟨x, hx, hf⟩ := unflat ds (e.take ds.prod) (by rw [List.length_take]; omega)
        obtain ⟨l, h1, h2, h3⟩ := ih (e.drop ds.prod) (by rw [List.length_drop]; omega)
        refine ⟨x :: l, by simp [h1], ?_, ?_⟩
        · intro y hy
          rcases List.mem_cons.mp hy with rfl | hy
          · exact hx
          · exact h2 y hy
        · rw [List.flatMap_cons, hf, h3, List.take_append_drop]
    obtain ⟨l, h1, h2, h3⟩ := key d e (by rw [h, List.prod_cons])
    exact ⟨.list l, ⟨l, rfl, h1, h2⟩, h3⟩

theorem made_holds {a : Arr α} (h : Made a) : (a.dims = [] ∧ a.elements = []) ∨ ∃ l, Holds a l ∧ Nest a.dims (.list l) := by
  have main : (∃ e lower ub, fromElements e lower (some ub) = .ok a) → (a.dims = [] ∧ a.elements = []) ∨ ∃ l, Holds a l ∧ Nest a.dims (.list l) := by
    rintro ⟨e, lower, ub, h⟩
    rcases fromElements_ok h with ⟨rfl, rfl⟩ | ⟨h1, _, h3, h4, h5, h6⟩
    · exact Or.inl ⟨rfl, rfl⟩
    · right
      obtain ⟨v, hv, hf⟩ := unflat a.dims e h6
      cases hd : a.dims with
      | nil => exact absurd hd h5
      | cons d ds =>
        rw [hd] at hv hf
        obtain ⟨l, rfl, hl, hn⟩ := hv
        refine ⟨l, ⟨h4, ⟨d, ds, hd⟩, ?_⟩, ⟨l, rfl, hl, hn⟩⟩
        intro d' ds' e'
        rw [hd] at e'
        cases e'
        exact ⟨hl, fun x hx => loose_of_nest _ _ (hn x hx), by rw [h1, ← hf]; rfl⟩
  rcases h with h | ⟨e, h⟩ | ⟨l, h⟩
  · exact main h
  · cases e with
    | nil => cases h; exact Or.inl ⟨rfl, rfl⟩
    | cons x e =>
      refine main ⟨x :: e, some [1], [((x :: e).length : Int)], ?_⟩
      rw [C25_from_elements_complete (x :: e) [1] [((x :: e).length : Int)] [(x :: e).length] ⟨by simp, by simp, trivial⟩ (by simp) (by simp)]
      rw [← h]
      rfl
  · by_cases hl : l = []
    · subst hl; cases h; exact Or.inl ⟨rfl, rfl⟩
    · rcases fromNest_iff.1 h with ⟨h', _⟩ | ⟨ds, _, hd, hl', rfl⟩
      · exact absurd h' hl
      · refine main ⟨flat ds (.list l), none, ds.map Int.ofNat, ?_⟩
        obtain ⟨d, es, rfl⟩ := down_ne hd
        refine fromElements_bounds (bounds_ones _ (down_pos hd)) (by simp) (length_flat _ _ hl') ?_
        simp [defaultLower]

/-- `Array.nest()` of every array is a nested list. -/
theorem made_nest {a : Arr α} (h : Made a) : ∃ l, nest a.dims.length a = .ok (.list l) ∧ ((a.dims = [] ∧ a.elements = [] ∧ l = []) ∨ Holds a l ∧ Nest a.dims (.list l)) := by
  rcases made_holds h with ⟨h1, h2⟩ | ⟨l, h1, h2⟩
  · refine ⟨[], ?_, Or.inl ⟨h1, h2, rfl⟩⟩
    rw [h1]
    show Except.ok (V.list a.elements) = _
    rw [h2]
  · exact ⟨l, nest_holds _ a l h1 h2 (by omega), Or.inr ⟨h1, h2⟩⟩

/-! ## Objects and the nests they stand for -/

/-- An object with arrays in it, and the same with nested lists in their places. -/
inductive Is : Obj α → V α → Prop
  | atom (a : α) : Is (.atom a) (.atom a)
  | list {l m} : l.length = m.length → (∀ (i : Nat) x v, l[i]? = some x → m[i]? = some v → Is x v) → Is (.list l) (.list m)
  | tuple {l m} : l.length = m.length → (∀ (i : Nat) x v, l[i]? = some x → m[i]? = some v → Is x v) → Is (.tuple l) (.tuple m)
  | array {a l} : (a.dims = [] ∧ a.elements = [] ∧ l = []) ∨ (Holds a l ∧ Nest a.dims (.list l)) → Is (.array a) (.list l)

mutual
theorem is_ofV : ∀ v : V α, Is (Obj.ofV v) v
  | .atom a => by unfold Obj.ofV; exact .atom a
  | .list l => by
    unfold Obj.ofV
    refine .list (by simp) ?_
    intro i x v hx hv
    rw [List.getElem?_map, hv] at hx
    cases hx
    exact is_ofV_mem l v (List.mem_of_getElem? hv)
  | .tuple l => by
    unfold Obj.ofV
    refine .tuple (by simp) ?_
    intro i x v hx hv
    rw [List.getElem?_map, hv] at hx
    cases hx
    exact is_ofV_mem l v (List.mem_of_getElem? hv)
theorem is_ofV_mem : ∀ (l : List (V α)) (v : V α), v ∈ l → Is (Obj.ofV v) v
  | [], _, h => by cases h
  | w :: l, v, h => by
    rcases List.mem_cons.mp h with h | h
    · rw [h]; exact is_ofV w
    · exact is_ofV_mem l v h
end

theorem mapE_all {β γ : Type} {f : β → Except Err γ} {R : β → γ → Prop} : ∀ {l : List β}, (∀ x ∈ l, ∃ y, f x = .ok y ∧ R x y) →
    ∃ r, mapE f l = .ok r ∧ r.length = l.length ∧ ∀ (i : Nat) x y, l[i]? = some x → r[i]? = some y → R x y
  | [], _ => ⟨[], rfl, rfl, by simp⟩
  | a :: l, h => by
    obtain ⟨y, hy, hR⟩ := h a (by simp)
    obtain ⟨r, h1, h2, h3⟩ := mapE_all (l := l) (R := R) (fun x hx => h x (by simp [hx]))
    refine ⟨y :: r, ?_, by simp [h2], ?_⟩
    · unfold mapE
      rw [hy, h1]
      rfl
    · intro i x z hx hz
      cases i with
      | zero => simp at hx hz; subst hx hz; exact hR
      | succ i => exact h3 i x z (by simpa using hx) (by simpa using hz)

/-- `list(array)`: its items stand for the items of the nest. -/
theorem listOf_is {a : Arr α} {l : List (V α)} (h : (a.dims = [] ∧ a.elements = [] ∧ l = []) ∨ (Holds a l ∧ Nest a.dims (.list l))) : ∃ r, listOf a = .ok r ∧ Is (.list r) (.list l) := by
  rcases h with ⟨h1, h2, rfl⟩ | ⟨h, hn⟩
  · refine ⟨[], ?_, .list rfl (by simp)⟩
    unfold listOf
    rw [if_pos (by simp [h1]), h2]
    rfl
  · obtain ⟨d, ds, hd⟩ := h.shape
    cases ds with
    | nil =>
      refine ⟨l.map Obj.ofV, ?_, ?_⟩
      · unfold listOf
        rw [if_pos (by simp [hd]), (h.loose d [] hd).2.2, flat_nil]
      · have := is_ofV (V.list l)
        unfold Obj.ofV at this
        exact this
    | cons e ds =>
      obtain ⟨hw, hlen, hbl, hll⟩ := weight_holds h hd
      unfold listOf
      rw [if_neg (by simp [hd]), hlen]
      obtain ⟨r, h1, h2, h3⟩ := mapE_all (f := fun (x : Nat) => (subArray a x).map Obj.array) (R := fun i y => ∀ v, l[i]? = some v → Is y v) (l := List.range d) (by
        intro i hi
        have hi : i < l.length := by rw [hll]; simpa using hi
        obtain ⟨b, m, hm, hs, hb, hbd⟩ := C25_getitem a l d e ds h hd i l[i] (List.getElem?_eq_getElem hi)
        refine ⟨.array b, by rw [hs]; rfl, ?_⟩
        intro v hv
        rw [List.getElem?_eq_getElem hi] at hv
        injection hv with hv
        rw [hd] at hn
        obtain ⟨l', hl', _, hn⟩ := hn
        cases hl'
        obtain ⟨m', he, hml, hmn⟩ := hn l[i] (List.getElem_mem hi)
        rw [he] at hm
        cases hm
        rw [← hv, he]
        exact .array (Or.inr ⟨hb, by rw [hbd]; exact ⟨m, rfl, hml, hmn⟩⟩))
      refine ⟨r, h1, .list (by rw [h2, List.length_range, hll]) ?_⟩
      intro i x v hx hv
      have hi : i < d := by rw [← hll]; exact (List.getElem?_eq_some_iff.mp hv).1
      exact h3 i i x (by simp [hi]) hx v hv

def Obj.IsArray : Obj α → Prop
  | .array _ => True
  | _ => False

theorem unarray_is {x : Obj α} {v : V α} (h : Is x v) : ∃ x', unarray x = .ok x' ∧ Is x' v ∧ ¬ x'.IsArray := by
  cases h with
  | atom a => exact ⟨_, rfl, .atom a, id⟩
  | list h1 h2 => exact ⟨_, rfl, .list h1 h2, id⟩
  | tuple h1 h2 => exact ⟨_, rfl, .tuple h1 h2, id⟩
  | array h =>
    obtain ⟨r, h1, h2⟩ := listOf_is h
    exact ⟨.list r, by show (listOf _).map Obj.list = _; rw [h1]; rfl, h2, id⟩

/-! ## Comparing -/

theorem swap_nat (op : Cmp) (m n : Nat) : op.swap.nat n m = op.nat m n := by
  cases op <;> simp [Cmp.swap, Cmp.nat, eq_comm]

theorem swap_foreign (op : Cmp) : op.swap.foreign = op.foreign := by cases op <;> rfl

theorem loop_congr {f g : Cmp → Obj α → Obj α → Except Err Bool} (H : ∀ op x v y w, Is x v → Is y w → f op x y = g op (Obj.ofV v) (Obj.ofV w)) (op : Cmp) (m n : Nat) :
    ∀ {l r : List (Obj α)} {l' r' : List (V α)}, l.length = l'.length → (∀ (i : Nat) x v, l[i]? = some x → l'[i]? = some v → Is x v) →
      r.length = r'.length → (∀ (i : Nat) x v, r[i]? = some x → r'[i]? = some v → Is x v) → listLoop f op m n l r = listLoop g op m n (l'.map Obj.ofV) (r'.map Obj.ofV)
  | [], r, [], r', _, _, h3, _ => rfl
  | x :: l, [], v :: l', [], _, _, _, _ => rfl
  | x :: l, y :: r, v :: l', w :: r', h1, h2, h3, h4 => by
    have hx : Is x v := h2 0 x v rfl rfl
    have hy : Is y w := h4 0 y w rfl rfl
    have ih := loop_congr H op m n (l := l) (r := r) (l' := l') (r' := r') (by simpa using h1) (fun i a b ha hb => h2 (i + 1) a b (by simpa using ha) (by simpa using hb))
      (by simpa using h3) (fun i a b ha hb => h4 (i + 1) a b (by simpa using ha) (by simpa using hb))
    simp only [List.map_cons]
    unfold listLoop
    rw [H .eq x v y w hx hy, ih]
    have ho := fun op => H op x v y w hx hy
    cases g .eq (Obj.ofV v) (Obj.ofV w) with
    | error e => rfl
    | ok b => cases b with
      | true => rfl
      | false => cases op <;> first | rfl | exact ho _

theorem plain_congr {atoms : Cmp → α → α → Except Err Bool} {f g : Cmp → Obj α → Obj α → Except Err Bool} (H : ∀ op x v y w, Is x v → Is y w → f op x y = g op (Obj.ofV v) (Obj.ofV w)) (op : Cmp)
    {x y : Obj α} {v w : V α} (hx : Is x v) (hy : Is y w) (ax : ¬ x.IsArray) (ay : ¬ y.IsArray) : plainCmp atoms f op x y = plainCmp atoms g op (Obj.ofV v) (Obj.ofV w) := by
  cases hx with
  | atom a =>
    cases hy with
    | atom b => unfold Obj.ofV; rfl
    | list => unfold Obj.ofV; rfl
    | tuple => unfold Obj.ofV; rfl
    | array => exact absurd trivial ay
  | @list l l' h1 h2 =>
    cases hy with
    | atom b => unfold Obj.ofV; rfl
    | tuple => unfold Obj.ofV; rfl
    | array => exact absurd trivial ay
    | @list r r' h3 h4 =>
      unfold Obj.ofV
      show listCmp f op _ _ = listCmp g op _ _
      unfold listCmp
      rw [loop_congr H op _ _ h1 h2 h3 h4]
      simp only [List.length_map, h1, h3]
  | @tuple l l' h1 h2 =>
    cases hy with
    | atom b => unfold Obj.ofV; rfl
    | list => unfold Obj.ofV; rfl
    | array => exact absurd trivial ay
    | @tuple r r' h3 h4 =>
      unfold Obj.ofV
      show tupleCmp f op _ _ = tupleCmp g op _ _
      unfold tupleCmp
      rw [loop_congr H op _ _ h1 h2 h3 h4]
      simp only [List.length_map, h1, h3]
  | array => exact absurd trivial ax

theorem loop_sym {f : Cmp → Obj α → Obj α → Except Err Bool} (H : ∀ op v w, f op.swap (Obj.ofV w) (Obj.ofV v) = f op (Obj.ofV v) (Obj.ofV w)) (op : Cmp) (m n : Nat) : ∀ (l r : List (V α)),
    listLoop f op.swap n m (r.map Obj.ofV) (l.map Obj.ofV) = listLoop f op m n (l.map Obj.ofV) (r.map Obj.ofV)
  | [], [] => by simp only [List.map_nil]; unfold listLoop; rw [swap_nat]
  | [], _ :: _ => by simp only [List.map_nil, List.map_cons]; unfold listLoop; rw [swap_nat]
  | _ :: _, [] => by simp only [List.map_nil, List.map_cons]; unfold listLoop; rw [swap_nat]
  | v :: l, w :: r => by
    simp only [List.map_cons]
    unfold listLoop
    rw [loop_sym H op m n l r]
    have e : f .eq (Obj.ofV w) (Obj.ofV v) = f .eq (Obj.ofV v) (Obj.ofV w) := H .eq v w
    rw [e]
    have ho := fun op => H op v w
    cases f .eq (Obj.ofV v) (Obj.ofV w) with
    | error e => rfl
    | ok b => cases b with
      | true => rfl
      | false => cases op <;> first | rfl | exact ho .lt | exact ho .le | exact ho .gt | exact ho .ge

theorem plain_sym {atoms : Cmp → α → α → Except Err Bool} (hat : ∀ op a b, atoms op.swap b a = atoms op a b) {f : Cmp → Obj α → Obj α → Except Err Bool}
    (H : ∀ op v w, f op.swap (Obj.ofV w) (Obj.ofV v) = f op (Obj.ofV v) (Obj.ofV w)) (op : Cmp) (v w : V α) : plainCmp atoms f op.swap (Obj.ofV w) (Obj.ofV v) = plainCmp atoms f op (Obj.ofV v) (Obj.ofV w) := by
  have hs : ∀ c : Cmp, (op.swap = c ↔ op = c.swap) := by intro c; cases op <;> cases c <;> simp [Cmp.swap]
  cases v with
  | atom a => cases w <;> unfold Obj.ofV <;> first | exact hat op _ _ | exact swap_foreign op
  | list l =>
    cases w with
    | list r =>
      unfold Obj.ofV
      show listCmp f op.swap _ _ = listCmp f op _ _
      unfold listCmp
      rw [List.length_map, List.length_map, loop_sym H op]
      have h1 : (op.swap = .eq ∨ op.swap = .ne) ↔ (op = .eq ∨ op = .ne) := by rw [hs, hs]; rfl
      have h2 : (op.swap = .ne) ↔ (op = .ne) := by rw [hs]; rfl
      by_cases hl : l.length = r.length
      · rw [if_neg (by simp [hl]), if_neg (by simp [hl])]
      · by_cases h : op = .eq ∨ op = .ne
        · rw [if_pos ⟨fun e => hl e.symm, h1.mpr h⟩, if_pos ⟨hl, h⟩]
          simp only [h2]
        · rw [if_neg (fun h' => h (h1.mp h'.2)), if_neg (fun h' => h h'.2)]
    | _ => unfold Obj.ofV; exact swap_foreign op
  | tuple l =>
    cases w with
    | tuple r =>
      unfold Obj.ofV
      show tupleCmp f op.swap _ _ = tupleCmp f op _ _
      unfold tupleCmp
      rw [List.length_map, List.length_map, loop_sym H op]
    | _ => unfold Obj.ofV; exact swap_foreign op

variable {atoms : Cmp → α → α → Except Err Bool}

theorem compare_plain (k : Nat) (op : Cmp) {x y : Obj α} (hx : ¬ x.IsArray) (hy : ¬ y.IsArray) : compare atoms (k + 1) op x y = plainCmp atoms (compare atoms k) op x y := by
  cases x with
  | array => exact absurd trivial hx
  | _ => cases y with
    | array => exact absurd trivial hy
    | _ => rfl

theorem ofV_plain (v : V α) : ¬ (Obj.ofV v).IsArray := by
  cases v <;> unfold Obj.ofV <;> exact id

theorem compare_sym (hat : ∀ op a b, atoms op.swap b a = atoms op a b) : ∀ (k : Nat) (op : Cmp) (v w : V α), compare atoms k op.swap (Obj.ofV w) (Obj.ofV v) = compare atoms k op (Obj.ofV v) (Obj.ofV w)
  | 0, _, _, _ => rfl
  | k + 1, op, v, w => by
    rw [compare_plain k _ (ofV_plain w) (ofV_plain v), compare_plain k _ (ofV_plain v) (ofV_plain w)]
    exact plain_sym hat (compare_sym hat k) op v w

theorem compare_is (hat : ∀ op a b, atoms op.swap b a = atoms op a b) : ∀ (k : Nat) (op : Cmp) (x : Obj α) (v : V α) (y : Obj α) (w : V α), Is x v → Is y w → compare atoms k op x y = compare atoms k op (Obj.ofV v) (Obj.ofV w)
  | 0, _, _, _, _, _, _, _ => rfl
  | k + 1, op, x, v, y, w, hx, hy => by
    obtain ⟨x', h1, h2, h3⟩ := unarray_is hx
    rw [compare_plain k op (ofV_plain v) (ofV_plain w)]
    unfold compare
    rw [h1]
    dsimp only
    by_cases ha : y.IsArray
    · cases hy with
      | @array b l hb =>
        obtain ⟨r, g1, g2⟩ := listOf_is hb
        dsimp only
        rw [g1]
        dsimp only
        rw [plain_congr (compare_is hat k) op.swap g2 h2 id h3]
        exact plain_sym hat (compare_sym hat k) op v _
      | _ => exact absurd ha id
    · cases y with
      | array => exact absurd trivial ha
      | _ => exact plain_congr (compare_is hat k) op h2 hy h3 ha

/-- **C89.** Comparing arrays with arrays, or with lists that may have arrays in them, in either order, is comparing the nested lists they hold: the same result, or the same exception. (If the elements compare symmetrically, as Python's own do.) -/
theorem C89_compare (hat : ∀ op a b, atoms op.swap b a = atoms op a b) (k : Nat) (op : Cmp) (a b : Arr α) (ha : Made a) (hb : Made b) :
    ∃ l m, nest a.dims.length a = .ok (.list l) ∧ nest b.dims.length b = .ok (.list m) ∧
      compare atoms k op (.array a) (.array b) = compare atoms k op (Obj.ofV (.list l)) (Obj.ofV (.list m)) ∧
      ∀ v, compare atoms k op (.array a) (Obj.ofV v) = compare atoms k op (Obj.ofV (.list l)) (Obj.ofV v) ∧ compare atoms k op (Obj.ofV v) (.array a) = compare atoms k op (Obj.ofV v) (Obj.ofV (.list l)) := by
  obtain ⟨l, h1, h2⟩ := made_nest ha
  obtain ⟨m, h3, h4⟩ := made_nest hb
  exact ⟨l, m, h1, h3, compare_is hat k op _ _ _ _ (.array h2) (.array h4), fun v => ⟨compare_is hat k op _ _ _ _ (.array h2) (is_ofV v), compare_is hat k op _ _ _ _ (is_ofV v) (.array h2)⟩⟩

/-- **C89 (equal arrays).** In particular arrays that hold the same nested list are equal, whatever their bounds, if everything is equal to itself; and an array is equal to the list it holds. -/
theorem C89_equal (hat : ∀ op a b, atoms op.swap b a = atoms op a b) (k : Nat) (a b : Arr α) (ha : Made a) (hb : Made b) (l : List (V α)) (hl : nest a.dims.length a = .ok (.list l)) (hm : nest b.dims.length b = .ok (.list l))
    (hrefl : compare atoms k .eq (Obj.ofV (.list l)) (Obj.ofV (.list l)) = .ok true) :
    compare atoms k .eq (.array a) (.array b) = .ok true ∧ compare atoms k .eq (.array a) (Obj.ofV (.list l)) = .ok true ∧ compare atoms k .eq (Obj.ofV (.list l)) (.array a) = .ok true := by
  obtain ⟨l', m', h1, h2, h3, h4⟩ := C89_compare hat k .eq a b ha hb
  rw [hl] at h1
  rw [hm] at h2
  cases h1
  cases h2
  exact ⟨h3.trans hrefl, (h4 _).1.trans hrefl, (h4 _).2.trans hrefl⟩

/-! ## Items -/

/-- **C89 (items).** `list(a)` and `len(a)` are those of the nested list: an item is the element, or an array that holds the item of the nested list. -/
theorem C89_items (a : Arr α) (ha : Made a) : ∃ l r, nest a.dims.length a = .ok (.list l) ∧ listOf a = .ok r ∧ r.length = l.length ∧ len a = l.length ∧
    ∀ (i : Nat) item v, r[i]? = some item → l[i]? = some v → item = Obj.ofV v ∨ ∃ b, item = .array b ∧ nest b.dims.length b = .ok v := by
  obtain ⟨l, h1, h2⟩ := made_nest ha
  obtain ⟨r, h3, h4⟩ := listOf_is h2
  have hlen : len a = l.length := by
    rcases h2 with ⟨h, _, rfl⟩ | ⟨h, _⟩
    · unfold len; rw [h]; rfl
    · obtain ⟨d, ds, hd⟩ := h.shape
      unfold len
      rw [hd, (h.loose d ds hd).1]
      rfl
  cases h4 with
  | list h5 h6 =>
    refine ⟨l, r, h1, h3, h5, hlen, ?_⟩
    intro i item v hi hv
    by_cases hd : a.dims.length < 2
    · left
      unfold listOf at h3
      rw [if_pos hd] at h3
      injection h3 with h3
      have : a.elements = l := by
        rcases h2 with ⟨_, h, rfl⟩ | ⟨h, _⟩
        · exact h
        · obtain ⟨d, ds, hds⟩ := h.shape
          cases ds with
          | nil => rw [(h.loose d [] hds).2.2, flat_nil]
          | cons => rw [hds] at hd; simp at hd; omega
      rw [← h3, this, List.getElem?_map, hv] at hi
      cases hi
      rfl
    · right
      unfold listOf at h3
      rw [if_neg hd] at h3
      have key : ∀ (f : Nat → Except Err (Arr α)) (xs : List Nat) (r : List (Obj α)), mapE (fun x => (f x).map Obj.array) xs = .ok r → ∀ item ∈ r, ∃ b, item = Obj.array b := by
        intro f xs
        induction xs with
        | nil => intro r hr; cases hr; simp
        | cons x xs ih =>
          intro r hr item hitem
          unfold mapE at hr
          cases hf : f x with
          | error e => rw [hf] at hr; cases hr
          | ok b =>
            rw [hf] at hr
            cases ht : mapE (fun x => (f x).map Obj.array) xs with
            | error e => rw [ht] at hr; cases hr
            | ok t =>
              rw [ht] at hr
              cases hr
              rcases List.mem_cons.mp hitem with rfl | h
              · exact ⟨b, rfl⟩
              · exact ih t ht item h
      obtain ⟨b, rfl⟩ := key (fun x => subArray a x) _ r h3 item (List.mem_of_getElem? hi)
      refine ⟨b, rfl, ?_⟩
      have := h6 i _ v hi hv
      cases this with
      | array h =>
        rcases h with ⟨hb1, hb2, rfl⟩ | ⟨hb1, hb2⟩
        · rw [hb1]; show Except.ok (V.list b.elements) = _; rw [hb2]
        · exact nest_holds _ b _ hb1 hb2 (by omega)

/-! ## Copies -/

theorem shape_of_elements : ∀ (ds : List Nat) (v : V α), Nest ds v → (∀ x ∈ flat ds v, IsElement x) → HasShape ds v
  | [], v, _, h => h v (by simp [flat])
  | d :: ds, v, ⟨l, hv, hl, hn⟩, h => by
    subst hv
    refine ⟨l, rfl, hl, fun x hx => shape_of_elements ds x (hn x hx) fun y hy => h y ?_⟩
    show y ∈ l.flatMap (flat ds)
    exact List.mem_flatMap.mpr ⟨x, hx, hy⟩

/-- **C89 (copies, partial: the elements are not lists).** `copy`, `deepcopy` and `pickle` give an array with the same elements, bounds and dimensions. Missing: elements that are lists, see `C89_not_copied`. -/
theorem C89_copy_partial (a : Arr α) (ha : Made a) (he : ∀ x ∈ a.elements, IsElement x) : copied a = .ok a := by
  obtain ⟨l, h1, h2⟩ := made_nest ha
  have hf : ∃ b, fromNest l = .ok b := by
    rcases h2 with ⟨_, _, rfl⟩ | ⟨h, hn⟩
    · exact ⟨_, C25_empty⟩
    · obtain ⟨d, ds, hd⟩ := h.shape
      obtain ⟨g1, g2, g3⟩ := h.loose d ds hd
      rw [hd] at hn
      have hs : HasShape (d :: ds) (.list l) := shape_of_elements _ _ hn (by
        intro x hx
        refine he x ?_
        rw [g3]
        exact hx)
      have hb := h.bounds
      rw [hd] at hb
      exact ⟨_, C25_from_nest d ds l (bounds_pos _ _ _ hb) hs⟩
  obtain ⟨b, hb⟩ := hf
  unfold copied
  rw [h1]
  show (fromNest l).bind (fun _ => Except.ok a) = _
  rw [hb]
  rfl

/-- **C89 (finding).** An array of lists of different lengths (JSON values, say), which `from_elements` makes and which can be received, cannot be copied or unpickled: ValueError. -/
theorem C89_not_copied (x y z : α) : ∃ a : Arr α, fromElements [.list [.atom x], .list [.atom y, .atom z]] none none = .ok a ∧ copied a = .error .valueError :=
  ⟨⟨[.list [.atom x], .list [.atom y, .atom z]], [1], [2], [2]⟩, rfl, rfl⟩

/-! ## Instances -/

/-- Numbers, and `None`, which only knows `==` and `!=`. -/
def atomCmp (op : Cmp) (a b : Option Nat) : Except Err Bool := match a, b with
  | some m, some n => .ok (op.nat m n)
  | none, none => match op with | .eq => .ok true | .ne => .ok false | _ => .error .typeError
  | _, _ => op.foreign

theorem atomCmp_sym (op : Cmp) (a b : Option Nat) : atomCmp op.swap b a = atomCmp op a b := by
  cases a <;> cases b <;> unfold atomCmp <;> dsimp only
  · cases op <;> rfl
  · exact swap_foreign op
  · exact swap_foreign op
  · rw [swap_nat]

/-- Two by two, with lower bounds 0 and 5. -/
def exA : Arr (Option Nat) := ⟨[.atom (some 1), .atom (some 2), .atom (some 3), .atom none], [0, 5], [1, 6], [2, 2]⟩
def exB : Arr (Option Nat) := ⟨[.atom (some 1), .atom (some 2), .atom (some 4), .atom none], [1, 1], [2, 2], [2, 2]⟩

example : Made exA ∧ Made exB := ⟨Or.inl ⟨exA.elements, some [0, 5], [1, 6], rfl⟩, Or.inr (Or.inr ⟨[.list [.atom (some 1), .atom (some 2)], .list [.atom (some 4), .atom none]], rfl⟩)⟩

example : compare atomCmp 5 .lt (.array exA) (.array exB) = .ok true ∧ compare atomCmp 5 .ge (.array exA) (.array exB) = .ok false ∧
    compare atomCmp 5 .eq (.list [.list [.atom (some 1), .atom (some 2)], .list [.atom (some 3), .atom none]]) (.array exA) = .ok true ∧
    compare atomCmp 5 .lt (.array exA) (.list [.list [.atom (some 1), .atom (some 2)], .list [.atom (some 3), .atom (some 7)]]) = .error .typeError ∧
    compare atomCmp 5 .ne (.array exA) (.tuple []) = .ok true ∧ compare atomCmp 5 .gt (.list []) (.array exA) = .ok false := by
  have hA : listOf exA = .ok [.array ⟨[.atom (some 1), .atom (some 2)], [5], [6], [2]⟩, .array ⟨[.atom (some 3), .atom none], [5], [6], [2]⟩] := by rfl
  have hB : listOf exB = .ok [.array ⟨[.atom (some 1), .atom (some 2)], [1], [2], [2]⟩, .array ⟨[.atom (some 4), .atom none], [1], [2], [2]⟩] := by rfl
  have h1 : ∀ (x y : Option Nat) (l u : List Int), listOf ⟨[.atom x, .atom y], l, u, [2]⟩ = .ok [.atom x, .atom y] := by
    intro x y l u
    simp [listOf, Obj.ofV]
  simp [compare, unarray, hA, hB, h1, Except.map, plainCmp, listCmp, listLoop, atomCmp, Cmp.swap, Cmp.nat, Cmp.foreign]

example : copied exA = .ok exA := C89_copy_partial exA (Or.inl ⟨exA.elements, some [0, 5], [1, 6], rfl⟩) (by intro x hx; simp [exA] at hx; rcases hx with rfl | rfl | rfl | rfl <;> exact trivial)

end PG.PgArray
