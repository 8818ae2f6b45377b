import Verif.Model.NamedTuple
import Verif.Spec.NamedTuple
import Verif.Props.Row
import Verif.Props.Prepare
/-!
# C69: rows as named tuples
-/
namespace PG.Props.NamedTuple
open PG PG.NamedTuple PG.Spec.NamedTuple

/-- What may be an attribute: see `collections.namedtuple`. -/
def Usable (P : Names) (n : Str) : Prop := P.identifier n = true ∧ P.keyword n = false ∧ n.head? ≠ some '_'

theorem usable_iff (P : Names) (n : Str) : usable P n = true ↔ Usable P n := by
  unfold usable Usable
  rw [Bool.and_eq_true, Bool.and_eq_true, and_assoc, Bool.not_eq_true', Bool.not_eq_true']
  refine and_congr_right fun _ => and_congr_right fun _ => ?_
  cases n with
  | nil => exact ⟨fun _ h => (by cases h), fun _ => rfl⟩
  | cons c n =>
    show (('_' == c) && true) = false ↔ some c ≠ some '_'
    rw [Bool.and_true, beq_eq_false_iff_ne]
    exact ⟨fun h e => h (Option.some.inj e).symm, fun h e => h (by rw [e])⟩

theorem positional_inj {i j : Nat} (h : positional i = positional j) : i = j := by
  have h := (List.cons.inj h).2
  have hi := @Nat.ofDigitChars_ten_toDigits i
  have hj := @Nat.ofDigitChars_ten_toDigits j
  rw [h] at hi
  exact hi.symm.trans hj

theorem rename_length (P : Names) : ∀ (ns seen : List Str) (i : Nat), (renameFrom P seen i ns).length = ns.length
  | [], _, _ => rfl
  | n :: ns, seen, i => by rw [renameFrom, List.length_cons, rename_length P ns, List.length_cons]

open Classical in
theorem rename_get (P : Names) : ∀ (ns seen : List Str) (k i : Nat), (renameFrom P seen k ns)[i]? = ns[i]?.map fun n => if Usable P n ∧ n ∉ seen ∧ ∀ j < i, ns[j]? ≠ some n then n else positional (k + i)
  | [], _, _, _ => rfl
  | n :: ns, seen, k, 0 => by
    rw [renameFrom]
    show some _ = some _
    congr 1
    have : (usable P n && !seen.contains n) = true ↔ Usable P n ∧ n ∉ seen ∧ ∀ j < 0, (n :: ns)[j]? ≠ some n := by
      rw [Bool.and_eq_true, usable_iff]
      simp
    dsimp only
    by_cases h : (usable P n && !seen.contains n) = true
    · rw [if_pos h, if_pos (this.1 h)]
    · rw [if_neg h, if_neg (fun g => h (this.2 g)), Nat.add_zero]
  | n :: ns, seen, k, i + 1 => by
    rw [renameFrom, List.getElem?_cons_succ, rename_get P ns (n :: seen) (k + 1) i, List.getElem?_cons_succ]
    cases hm : ns[i]? with
    | none => rfl
    | some m =>
      show some _ = some _
      congr 1
      have : (Usable P m ∧ m ∉ n :: seen ∧ ∀ j < i, ns[j]? ≠ some m) ↔ (Usable P m ∧ m ∉ seen ∧ ∀ j < i + 1, (n :: ns)[j]? ≠ some m) := by
        constructor
        · rintro ⟨h1, h2, h3⟩
          rw [List.mem_cons, not_or] at h2
          refine ⟨h1, h2.2, fun j hj => ?_⟩
          cases j with
          | zero => intro h; exact h2.1 (Option.some.inj h).symm
          | succ j => exact h3 j (by omega)
        · rintro ⟨h1, h2, h3⟩
          refine ⟨h1, ?_, fun j hj => h3 (j + 1) (by omega)⟩
          rw [List.mem_cons, not_or]
          exact ⟨fun h => h3 0 (by omega) (by rw [h]; rfl), h2⟩
      dsimp only
      by_cases h : Usable P m ∧ m ∉ n :: seen ∧ ∀ j < i, ns[j]? ≠ some m
      · rw [if_pos h, if_pos (this.1 h)]
      · rw [if_neg h, if_neg (fun g => h (this.2 g)), Nat.add_right_comm, Nat.add_assoc]

theorem rename_iff (P : Names) (ns : List Str) (i : Nat) (m : Str) : (renameFrom P [] 0 ns)[i]? = some m ↔ AttributeOf (Usable P) ns i m := by
  rw [rename_get, Option.map_eq_some_iff]
  refine exists_congr fun n => and_congr_right fun _ => ?_
  by_cases h : Usable P n ∧ ∀ j < i, ns[j]? ≠ some n
  · rw [if_pos ⟨h.1, List.not_mem_nil, h.2⟩]
    exact ⟨fun e => .inl ⟨h.1, h.2, e.symm⟩, fun e => e.elim (fun e => e.2.2.symm) fun e => absurd h e.1⟩
  · rw [if_neg (fun g => h ⟨g.1, g.2.2⟩), Nat.zero_add]
    exact ⟨fun e => .inr ⟨h, e.symm⟩, fun e => e.elim (fun e => absurd ⟨e.1, e.2.1⟩ h) fun e => e.2.symm⟩

/-- No two columns have the same attribute. -/
theorem attribute_inj {P : Names} {ns : List Str} {i j : Nat} {m : Str} (hi : AttributeOf (Usable P) ns i m) (hj : AttributeOf (Usable P) ns j m) : i = j := by
  obtain ⟨n, hn, h⟩ := hi
  obtain ⟨n', hn', h'⟩ := hj
  rcases h with ⟨h1, h2, rfl⟩ | ⟨-, rfl⟩
  · rcases h' with ⟨h3, h4, rfl⟩ | ⟨-, rfl⟩
    · rcases Nat.lt_trichotomy i j with h | h | h
      · exact absurd hn (h4 i h)
      · exact h
      · exact absurd hn' (h2 j h)
    · exact absurd rfl h1.2.2
  · rcases h' with ⟨h3, h4, rfl⟩ | ⟨-, h⟩
    · exact absurd rfl h3.2.2
    · exact positional_inj h

theorem rename_nodup (P : Names) (ns : List Str) : (renameFrom P [] 0 ns).Nodup := by
  rw [List.Nodup, List.pairwise_iff_getElem]
  intro i j hi hj hij he
  have he : (renameFrom P [] 0 ns)[i]? = (renameFrom P [] 0 ns)[j]? := by rw [List.getElem?_eq_getElem hi, List.getElem?_eq_getElem hj, he]
  have h := List.getElem?_eq_getElem hj
  have h1 := (rename_iff P ns j _).1 h
  have h2 := (rename_iff P ns i _).1 (he.trans h)
  exact absurd (attribute_inj h1 h2) (by omega)

theorem spaced_normal (n : Str) : Spaced n (normal n) := by
  refine ⟨List.length_map .., fun i => ?_⟩
  rw [normal, List.getElem?_map]
  cases n[i]? with
  | none => rfl
  | some c =>
    by_cases h : c = ' '
    · subst h; rfl
    · show some (if c = ' ' then '_' else c) = _
      rw [if_neg h, if_neg (fun e => h (Option.some.inj e))]

theorem spaced_unique {n m : Str} (h : Spaced n m) : m = normal n := by
  apply List.ext_getElem?
  intro i
  rw [h.2 i, (spaced_normal n).2 i]

theorem spacedAll_eq {cols ns : List Str} (h : SpacedAll cols ns) : ns = cols.map normal := by
  obtain ⟨hl, hs⟩ := h
  apply List.ext_getElem?
  intro i
  rw [List.getElem?_map]
  cases hc : cols[i]? with
  | none =>
    rw [List.getElem?_eq_none_iff] at hc
    exact List.getElem?_eq_none_iff.2 (hl ▸ hc)
  | some n =>
    have hi : i < ns.length := by rw [hl]; exact (List.getElem?_eq_some_iff.1 hc).1
    have := List.getElem?_eq_getElem hi
    rw [this, spaced_unique (hs i n _ hc this)]
    rfl

theorem spacedAll_normal (cols : List Str) : SpacedAll cols (cols.map normal) :=
  ⟨List.length_map .., fun i n m hn hm => by rw [List.getElem?_map, hn] at hm; cases hm; exact spaced_normal n⟩

/-! ## The cache -/

/-- The module after any calls. -/
def after (P : Names) (s : St) : List (List Str) → St
  | [] => s
  | c :: cs => after P (factory P s c).2 cs

/-- What holds of the cache at all times. -/
structure Sound (P : Names) (s : St) : Prop where
  right : ∀ k c, PyDict.get k s.cache = some c → c.fields = renameFrom P [] 0 k ∧ c.ident < s.made
  single : ∀ k k' c c', PyDict.get k s.cache = some c → PyDict.get k' s.cache = some c' → c.ident = c'.ident → k = k'

theorem sound_factory {P : Names} {s : St} (h : Sound P s) (cols : List Str) : Sound P (factory P s cols).2 ∧ (factory P s cols).1.fields = renameFrom P [] 0 (cols.map normal) ∧
    PyDict.get (cols.map normal) (factory P s cols).2.cache = some (factory P s cols).1 ∧ ∀ k c, PyDict.get k s.cache = some c → PyDict.get k (factory P s cols).2.cache = some c := by
  unfold factory
  cases hg : PyDict.get (cols.map normal) s.cache with
  | some c => exact ⟨h, (h.right _ _ hg).1, hg, fun _ _ h => h⟩
  | none =>
    refine ⟨⟨?_, ?_⟩, rfl, by show PyDict.get _ (PyDict.set _ _ _) = _; rw [PyDict.get_set, if_pos rfl], ?_⟩
    · intro k c hc
      replace hc : PyDict.get k (PyDict.set (cols.map normal) _ s.cache) = some c := hc
      rw [PyDict.get_set] at hc
      by_cases e : cols.map normal = k
      · rw [if_pos e] at hc; cases hc; exact ⟨by rw [← e], Nat.lt_succ_self _⟩
      · rw [if_neg e] at hc; exact ⟨(h.right _ _ hc).1, Nat.lt_succ_of_lt (h.right _ _ hc).2⟩
    · intro k k' c c' hc hc' he
      replace hc : PyDict.get k (PyDict.set (cols.map normal) _ s.cache) = some c := hc
      replace hc' : PyDict.get k' (PyDict.set (cols.map normal) _ s.cache) = some c' := hc'
      rw [PyDict.get_set] at hc hc'
      by_cases e : cols.map normal = k
      · by_cases e' : cols.map normal = k'
        · exact e.symm.trans e'
        · rw [if_pos e] at hc; rw [if_neg e'] at hc'; cases hc
          exact absurd he.symm (Nat.ne_of_lt (h.right _ _ hc').2)
      · by_cases e' : cols.map normal = k'
        · rw [if_neg e] at hc; rw [if_pos e'] at hc'; cases hc'
          exact absurd he (Nat.ne_of_lt (h.right _ _ hc).2)
        · rw [if_neg e] at hc; rw [if_neg e'] at hc'
          exact h.single _ _ _ _ hc hc' he
    · intro k c hc
      show PyDict.get k (PyDict.set (cols.map normal) _ s.cache) = some c
      rw [PyDict.get_set, if_neg, hc]
      intro e
      rw [e, hc] at hg
      cases hg

theorem sound_after {P : Names} : ∀ (calls : List (List Str)) {s : St}, Sound P s → Sound P (after P s calls) ∧ ∀ k c, PyDict.get k s.cache = some c → PyDict.get k (after P s calls).cache = some c
  | [], s, h => ⟨h, fun _ _ h => h⟩
  | c :: cs, s, h => by
    obtain ⟨h1, -, -, h2⟩ := sound_factory h c
    obtain ⟨h3, h4⟩ := sound_after cs h1
    exact ⟨h3, fun k c hc => h4 k c (h2 k c hc)⟩

theorem sound_start (P : Names) : Sound P {} := ⟨fun _ _ h => (by cases h), fun _ _ _ _ h => (by cases h)⟩

/-- C69: whatever has been made before, the class made for columns has a field for each of them, in their order: the name with its spaces as
underscores if that may be an attribute and no earlier column has it, `_i` otherwise; no two fields have the same name. -/
theorem C69_fields (P : Names) (calls : List (List Str)) (cols ns : List Str) (hs : SpacedAll cols ns) : let c := (factory P (after P {} calls) cols).1
    c.fields.length = cols.length ∧ (∀ i m, c.fields[i]? = some m ↔ AttributeOf (Usable P) ns i m) ∧ c.fields.Nodup := by
  have hn := spacedAll_eq hs
  have hl := hs.1
  obtain ⟨-, h, -⟩ := sound_factory (sound_after calls (sound_start P)).1 cols
  intro c
  have hc : c.fields = renameFrom P [] 0 ns := by rw [hn]; exact h
  rw [hc]
  exact ⟨by rw [rename_length, hl], fun i m => rename_iff P ns i m, rename_nodup P ns⟩

/-- C69: the class is made once: the same columns have the same class ever after, and columns of other names another one. -/
theorem C69_once (P : Names) (calls later : List (List Str)) (cols cols' : List Str) :
    (factory P (after P {} (calls ++ cols :: later)) cols').1.ident = (factory P (after P {} calls) cols).1.ident ↔ cols'.map normal = cols.map normal := by
  have happ : after P {} (calls ++ cols :: later) = after P (factory P (after P {} calls) cols).2 later := by
    have : ∀ (l : List (List Str)) (s : St), after P s (l ++ cols :: later) = after P (factory P (after P s l) cols).2 later := by
      intro l
      induction l with
      | nil => intro s; rfl
      | cons c l ih => intro s; exact ih _
    exact this calls {}
  obtain ⟨h1, -, h2, -⟩ := sound_factory (sound_after calls (sound_start P)).1 cols
  obtain ⟨h3, h4⟩ := sound_after later h1
  rw [← happ] at h3 h4
  obtain ⟨h5, -, h6, h7⟩ := sound_factory h3 cols'
  have h8 := h7 _ _ (h4 _ _ h2)
  constructor
  · exact fun e => h5.single _ _ _ _ h6 h8 e
  · intro e
    rw [e, h8] at h6
    rw [← Option.some.inj h6]

/-! ## Rows -/

theorem attr_at {α : Type} {c : Class} {y : List α} (hn : c.fields.Nodup) (hl : y.length = c.fields.length) {i : Nat} {m : Str} (h : c.fields[i]? = some m) : attr ⟨c, y⟩ m = y[i]? := by
  have key : ∀ (l : List Str) (y : List α) (i : Nat), l.Nodup → y.length = l.length → l[i]? = some m → PyDict.get m (l.zip y) = y[i]? := by
    intro l
    induction l with
    | nil => intro y i _ _ h; cases h
    | cons x l ih =>
      intro y i hn hl h
      cases y with
      | nil => cases hl
      | cons b y =>
        rw [List.zip_cons_cons, PyDict.get_cons]
        rw [List.nodup_cons] at hn
        cases i with
        | zero => rw [List.getElem?_cons_zero] at h; rw [if_pos (Option.some.inj h)]; rfl
        | succ i =>
          rw [List.getElem?_cons_succ] at h ⊢
          rw [if_neg (fun e => hn.1 (by rw [show x = m from e]; exact List.mem_of_getElem? h)), ih y i hn.2 (Nat.succ.inj hl) h]
  exact key c.fields y i hn hl h

/-- The rows have been made of `rows`, each value under the attribute of its column. -/
def MadeOf {α : Type} (P : Names) (ns : List Str) (rows : List (List α)) (ts : List (Inst α)) : Prop :=
  ts.map (·.vals) = rows ∧ ∀ t ∈ ts, ∀ i m, AttributeOf (Usable P) ns i m → attr t m = t.vals[i]?

theorem starmap_make {α : Type} {c : Class} (e : Option Err) : ∀ {rows : List (List α)}, (∀ r ∈ rows, r.length = c.fields.length) → starmap (make c) rows e = ⟨rows.map fun r => ⟨c, r⟩, e⟩
  | [], _ => rfl
  | r :: rows, h => by
    rw [starmap, starmap_make e (fun r hr => h r (List.mem_cons_of_mem _ hr))]
    unfold make
    rw [if_pos (h r List.mem_cons_self)]
    rfl

/-- C69: `namedtuples(stmt)(...)` delivers the rows of `stmt.chunks(...)`, all of them, in their order and with their values, and ends as that ends;
each value has the attribute of its column. A statement without columns raises TypeError. -/
theorem C69_rows {α : Type} (P : Names) (calls : List (List Str)) (cols ns : List Str) (hs : SpacedAll cols ns) (chunks : Iter (List (List α)))
    (hr : ∀ r ∈ chunks.items.flatten, r.length = cols.length) :
    (∃ f, (namedtuples P (after P {} calls) (some cols)).1 = .ok f ∧ MadeOf P ns chunks.items.flatten (f chunks).items ∧ (f chunks).stop = chunks.stop) ∧
    (namedtuples (α := α) P (after P {} calls) none).1 = .error .typeError := by
  refine ⟨⟨_, rfl, ?_⟩, rfl⟩
  obtain ⟨h1, h2, h3⟩ := C69_fields P calls cols ns hs
  rw [starmap_make _ (fun r hm => (hr r hm).trans h1.symm)]
  refine ⟨⟨by rw [List.map_map]; exact (List.map_congr_left fun _ _ => rfl).trans (List.map_id _), ?_⟩, rfl⟩
  intro t ht i m hm
  obtain ⟨r, hm', rfl⟩ := List.mem_map.1 ht
  exact attr_at h3 ((hr r hm').trans h1.symm) ((h2 i m).2 hm)

/-! ## The factory of rows -/

theorem set_new {β : Type} {k : Str} {v : β} : ∀ {d : List (Str × β)}, k ∉ d.map Prod.fst → PyDict.set k v d = d ++ [(k, v)]
  | [], _ => rfl
  | e :: d, h => by
    rw [List.map_cons, List.mem_cons, not_or] at h
    rw [PyDict.set, if_neg (fun g => h.1 g.symm), set_new h.2]; rfl

theorem set_old {β : Type} {k : Str} {v : β} : ∀ {d : List (Str × β)}, k ∈ d.map Prod.fst → (PyDict.set k v d).length = d.length ∧ (PyDict.set k v d).map Prod.fst = d.map Prod.fst
  | [], h => by cases h
  | e :: d, h => by
    by_cases g : e.1 = k
    · rw [PyDict.set, if_pos g]; exact ⟨rfl, by rw [List.map_cons, List.map_cons, g]⟩
    · rw [List.map_cons, List.mem_cons] at h
      obtain ⟨h1, h2⟩ := set_old (d := d) (v := v) (h.resolve_left fun e => g e.symm)
      rw [PyDict.set, if_neg g]
      exact ⟨by rw [List.length_cons, h1, List.length_cons], by rw [List.map_cons, h2, List.map_cons]⟩

theorem attmap_nodup : ∀ {ns : List Str} {d : List (Str × Nat)} {i : Nat}, ns.Nodup → (∀ n ∈ ns, n ∉ d.map Prod.fst) → Prepare.attmapFrom d i ns = d ++ ns.zipIdx i
  | [], d, i, _, _ => by rw [Prepare.attmapFrom]; simp
  | n :: ns, d, i, hn, hd => by
    rw [List.nodup_cons] at hn
    rw [Prepare.attmapFrom, set_new (hd n List.mem_cons_self), attmap_nodup hn.2 ?_, List.zipIdx_cons, List.append_assoc]
    · rfl
    · intro m hm
      rw [List.map_append, List.mem_append, not_or]
      refine ⟨hd m (List.mem_cons_of_mem _ hm), ?_⟩
      intro h
      rw [List.map_cons, List.map_nil, List.mem_singleton] at h
      exact hn.1 ((show m = n from h) ▸ hm)

theorem attmap_length : ∀ (ns : List Str) (d : List (Str × Nat)) (i : Nat), (Prepare.attmapFrom d i ns).length ≤ d.length + ns.length ∧
    (¬ (ns.Nodup ∧ ∀ n ∈ ns, n ∉ d.map Prod.fst) → (Prepare.attmapFrom d i ns).length < d.length + ns.length)
  | [], d, i => ⟨Nat.le_refl _, fun h => absurd ⟨List.nodup_nil, fun _ h => by cases h⟩ h⟩
  | n :: ns, d, i => by
    rw [Prepare.attmapFrom, List.length_cons]
    obtain ⟨h1, h2⟩ := attmap_length ns (PyDict.set n i d) (i + 1)
    by_cases hm : n ∈ d.map Prod.fst
    · rw [(set_old hm).1] at h1
      exact ⟨by omega, fun _ => by omega⟩
    · rw [set_new hm, List.length_append] at h1 h2
      rw [set_new hm]
      refine ⟨by simp only [List.length_cons, List.length_nil] at h1; omega, fun h => ?_⟩
      have := h2 (fun g => h ⟨List.nodup_cons.2 ⟨fun hn => g.2 n hn (by rw [List.map_append]; exact List.mem_append_right _ List.mem_cons_self), g.1⟩, fun m hm' hd => by
        rcases List.mem_cons.1 hm' with rfl | hm'
        · exact hm hd
        · exact g.2 m hm' (by rw [List.map_append]; exact List.mem_append_left _ hd)⟩)
      simp only [List.length_cons, List.length_nil] at this
      omega

theorem byPosition_length (d : List (Str × Nat)) : (factoryNames d).length = d.length := by
  unfold factoryNames Row.byPosition
  rw [List.length_map, List.length_mergeSort]

theorem factoryNames_of {n : Nat} {d : List (Str × Nat)} {cols : List Str} (h : PG.Props.Row.Names n d) (hc : ∀ i k, cols[i]? = some k ↔ (k, i) ∈ d) : factoryNames d = cols := by
  apply List.ext_getElem?
  intro i
  apply Option.ext
  intro k
  exact (PG.Props.Row.byPosition_get h).trans (hc i k).symm

theorem zipIdx_names {cols : List Str} (h : cols.Nodup) : PG.Props.Row.Names cols.length cols.zipIdx := by
  refine ⟨?_, ?_⟩
  · rw [List.zipIdx_map_fst]; exact h
  · rw [List.zipIdx_map_snd, List.range_eq_range']

/-- The full property: every row of a result is made a named tuple with the values of the row. -/
def FactoryComplete (P : Names) : Prop := ∀ (calls : List (List Str)) (cols ns : List Str) (y : List Nat), SpacedAll cols ns → y.length = cols.length →
  ∃ t, (rowOf P (Prepare.attmapFrom [] 0 cols) (after P {} calls) y).1 = .ok t ∧ t.vals = y ∧ ∀ i m, AttributeOf (Usable P) ns i m → attr t m = y[i]?

/-- C69: with `NamedTupleFactory` as the factory of rows, the rows of a statement are named tuples with the values of the row, each under the attribute
of its column, provided that no two columns have the same name. -/
theorem C69_factory_partial {α : Type} (P : Names) (calls : List (List Str)) (cols ns : List Str) (hs : SpacedAll cols ns) (hn : cols.Nodup) (y : List α)
    (hy : y.length = cols.length) : ∃ t, (rowOf P (Prepare.attmapFrom [] 0 cols) (after P {} calls) y).1 = .ok t ∧ t.vals = y ∧ ∀ i m, AttributeOf (Usable P) ns i m → attr t m = y[i]? := by
  have hf : factoryNames (Prepare.attmapFrom [] 0 cols) = cols := by
    rw [attmap_nodup hn (fun _ _ h => by cases h)]
    exact factoryNames_of (zipIdx_names hn) fun i k => by rw [List.nil_append, List.mem_zipIdx_iff_getElem?]
  obtain ⟨h1, h2, h3⟩ := C69_fields P calls cols ns hs
  refine ⟨⟨(factory P (after P {} calls) cols).1, y⟩, ?_, rfl, fun i m hm => attr_at h3 (hy.trans h1.symm) ((h2 i m).2 hm)⟩
  unfold rowOf make
  rw [hf, if_pos (hy.trans h1.symm)]

/-- C69: the same of composite types, whose attributes have different names: `d` gives the position of each. -/
theorem C69_composite {α : Type} (P : Names) (calls : List (List Str)) (d : List (Str × Nat)) (cols ns : List Str) (hs : SpacedAll cols ns) (hd : PG.Props.Row.Names cols.length d)
    (hc : ∀ i k, cols[i]? = some k ↔ (k, i) ∈ d) (y : List α) (hy : y.length = cols.length) :
    ∃ t, (rowOf P d (after P {} calls) y).1 = .ok t ∧ t.vals = y ∧ ∀ i m, AttributeOf (Usable P) ns i m → attr t m = y[i]? := by
  obtain ⟨h1, h2, h3⟩ := C69_fields P calls cols ns hs
  refine ⟨⟨(factory P (after P {} calls) cols).1, y⟩, ?_, rfl, fun i m hm => attr_at h3 (hy.trans h1.symm) ((h2 i m).2 hm)⟩
  unfold rowOf make
  rw [factoryNames_of hd hc, if_pos (hy.trans h1.symm)]

/-- C69: when two columns have the same name, no row can be made: every one raises TypeError. -/
theorem C69_duplicate_columns {α : Type} (P : Names) (calls : List (List Str)) (cols : List Str) (hn : ¬ cols.Nodup) (y : List α) (hy : y.length = cols.length) :
    (rowOf P (Prepare.attmapFrom [] 0 cols) (after P {} calls) y).1 = .error .typeError := by
  obtain ⟨-, h⟩ := attmap_length cols [] 0
  have h := h fun g => hn g.1
  obtain ⟨-, hf, -⟩ := sound_factory (sound_after calls (sound_start P)).1 (factoryNames (Prepare.attmapFrom [] 0 cols))
  unfold rowOf make
  dsimp only
  rw [hf, rename_length, List.length_map, byPosition_length, if_neg]
  rw [List.length_nil] at h
  omega

/-- C69: hence the full property is false. -/
theorem C69_factory_incomplete (P : Names) : ¬ FactoryComplete P := by
  intro h
  obtain ⟨t, ht, -⟩ := h [] ["a".toList, "a".toList] _ [1, 2] (spacedAll_normal _) rfl
  rw [C69_duplicate_columns P [] ["a".toList, "a".toList] (by decide) ([1, 2] : List Nat) rfl] at ht
  cases ht

/-- C69: all rows of a statement, and of the statements with the same columns, are of the one class, whatever else is made in between. -/
theorem C69_rows_share {α : Type} (P : Names) (calls later : List (List Str)) (d : List (Str × Nat)) (y y' : List α) (t t' : Inst α)
    (h : (rowOf P d (after P {} calls) y).1 = .ok t) (h' : (rowOf P d (after P (rowOf P d (after P {} calls) y).2 later) y').1 = .ok t') : t'.cls = t.cls := by
  obtain ⟨h1, -, h2, -⟩ := sound_factory (sound_after calls (sound_start P)).1 (factoryNames d)
  obtain ⟨h3, h4⟩ := sound_after later h1
  obtain ⟨-, -, h6, h7⟩ := sound_factory h3 (factoryNames d)
  have h8 := h7 _ _ (h4 _ _ h2)
  rw [h8] at h6
  have h9 := Option.some.inj h6
  unfold rowOf make at h h'
  dsimp only at h h'
  split at h
  · split at h'
    · cases h; cases h'; exact h9.symm
    · cases h'
  · cases h

/-- C69: the same of `namedtuples` and the classes made afterwards. -/
theorem C69_namedtuples_share {α : Type} (P : Names) (calls later : List (List Str)) (cols : List Str) :
    (factory P (after P (namedtuples (α := α) P (after P {} calls) (some cols)).2 later) cols).1 = (factory P (after P {} calls) cols).1 := by
  obtain ⟨h1, -, h2, -⟩ := sound_factory (sound_after calls (sound_start P)).1 cols
  obtain ⟨h3, h4⟩ := sound_after later h1
  obtain ⟨-, -, h6, h7⟩ := sound_factory h3 cols
  have h8 := h7 _ _ (h4 _ _ h2)
  rw [h8] at h6
  exact (Option.some.inj h6).symm

/-- C69: a row that has not a value for each column ends the iteration with TypeError, after the rows before it. -/
theorem C69_bad_row {α : Type} (P : Names) (calls : List (List Str)) (cols : List Str) (chunks : Iter (List (List α))) (good : List (List α)) (bad : List α) (more : List (List α))
    (hc : chunks.items.flatten = good ++ bad :: more) (hg : ∀ r ∈ good, r.length = cols.length) (hb : bad.length ≠ cols.length) :
    ∃ f, (namedtuples P (after P {} calls) (some cols)).1 = .ok f ∧ (f chunks).items.map (·.vals) = good ∧ (f chunks).stop = some .typeError := by
  refine ⟨_, rfl, ?_⟩
  obtain ⟨h1, -, -⟩ := C69_fields P calls cols _ (spacedAll_normal cols)
  rw [hc]
  generalize (factory P (after P {} calls) cols).1 = c at h1
  clear hc
  induction good with
  | nil =>
    rw [List.nil_append, starmap]
    unfold make
    rw [if_neg (by rw [h1]; exact hb)]
    exact ⟨rfl, rfl⟩
  | cons r good ih =>
    obtain ⟨i1, i2⟩ := ih fun x hx => hg x (List.mem_cons_of_mem _ hx)
    rw [List.cons_append, starmap]
    have : make c r = .ok ⟨c, r⟩ := by unfold make; rw [if_pos ((hg r (List.mem_cons_self ..)).trans h1.symm)]
    rw [this]
    dsimp only
    exact ⟨by rw [List.map_cons, i1], i2⟩

/-! ## Cases -/

example : (rowOf ⟨fun _ => true, fun _ => false⟩ [("a".toList, 0)] (rowOf ⟨fun _ => true, fun _ => false⟩ [("a".toList, 0)] {} [1]).2 [2]).1.map (·.cls.ident) = .ok 0 := by
  simp [rowOf, factoryNames, Row.byPosition]
  decide +kernel

/-- Letters, digits and underscores, no leading digit. -/
def ascii : Names := ⟨fun n => n.all (fun c => c.isAlphanum || c = '_') && n.head?.any fun c => !c.isDigit, fun n => n = "class".toList⟩

example : (factory ascii {} ["id".toList, "full name".toList, "class".toList, "id".toList, "?column?".toList, "_x".toList]).1.fields =
    ["id".toList, "full_name".toList, "_2".toList, "_3".toList, "_4".toList, "_5".toList] := by decide +kernel

example : (namedtuples ascii {} (some ["a b".toList, "a_b".toList])).1.map (fun f => (f ⟨[[[1, 2]], [], [[3, 4], [5, 6]]], some .valueError⟩).items.map fun t => (attr t "a_b".toList, attr t "_1".toList)) =
    .ok [(some 1, some 2), (some 3, some 4), (some 5, some 6)] := by decide +kernel

example : ((rowOf ascii [("b".toList, 1), ("a".toList, 0)] {} [10, 20]).1.map fun t => (attr t "a".toList, attr t "b".toList)) = .ok (some 10, some 20) := by
  simp [rowOf, factoryNames, Row.byPosition, List.mergeSort, List.MergeSort.Internal.splitInTwo]
  decide +kernel

example : PG.Props.Row.Names 2 [("b".toList, 1), ("a".toList, 0)] := by
  refine ⟨by decide, ?_⟩
  show List.Perm [1, 0] [0, 1]
  exact List.Perm.swap ..

end PG.Props.NamedTuple
