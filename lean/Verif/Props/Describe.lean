import Verif.Proofs.Describe
import Verif.Props.Procedure
/-!
# C80: what a statement says about its columns

`used` are the dictionaries of the connection after any types have been used, those of the statement's columns among them.
-/
namespace PG.Props.Describe
open PG PG.TypeIo PG.Spec.TypeIo PG.Describe PG.Procedure PG.Proofs.Describe

/-- The class that goes with a type: `str` for what has no routines of its own, the class that stands beside the routines, that of the base type for a domain. -/
def Declares (env : Env) (t : Nat) (x : Cls) : Prop := ∃ n io, Is env n t io ∧ third io = some x

variable {env : Env} {ids ts : List Nat}

theorem type_ok (hfin : ∀ t, env.cat t ≠ none → t ∈ ids) {t : Nat} (ht : t ∈ ts) (hr : ∃ n io, Is env n t io) {x : Cls} :
    typeFromOid (used env (ids.length + 1) ts) t = .ok x ↔ Found env t ∧ Declares env t x := by
  unfold typeFromOid
  obtain ⟨n, io, hi⟩ := hr
  by_cases hf : Found env t
  · rw [used_cached hfin ht hi hf]
    dsimp only
    constructor
    · intro h
      cases h3 : third io with
      | none => rw [h3] at h; cases h
      | some y => rw [h3] at h; cases h; exact ⟨hf, n, io, hi, h3⟩
    · rintro ⟨_, m, io', hi', h3⟩
      rw [is_det hi hi', h3]
  · rw [not_cached hf]
    exact ⟨fun h => by (cases h), fun h => absurd h.1 hf⟩

/-- C80: the classes of the columns, in their order. They do not depend on what else has been used. -/
theorem C80_types_partial (hfin : ∀ t, env.cat t ≠ none → t ∈ ids) {cols : List Nat} (hc : ∀ t ∈ cols, t ∈ ts) (hr : ∀ t ∈ cols, ∃ n io, Is env n t io) {xs : List Cls} :
    columnTypes (used env (ids.length + 1) ts) (some cols) = .ok (some xs) ↔ xs.length = cols.length ∧ ∀ i, ∀ (h : i < cols.length), ∀ (h' : i < xs.length), Found env cols[i] ∧ Declares env cols[i] xs[i] := by
  have key : columnTypes (used env (ids.length + 1) ts) (some cols) = .ok (some xs) ↔ eachType (used env (ids.length + 1) ts) cols = .ok xs := by
    unfold columnTypes
    dsimp only
    cases eachType (used env (ids.length + 1) ts) cols with
    | error e => exact ⟨fun h => by (cases h), fun h => by (cases h)⟩
    | ok ys => exact ⟨fun h => by injection h with h; injection h with h; rw [h], fun h => by injection h with h; rw [h]⟩
  rw [key, each_ok]
  constructor
  · rintro ⟨h1, h2⟩
    exact ⟨h1, fun i h h' => (type_ok hfin (hc _ (List.getElem_mem h)) (hr _ (List.getElem_mem h))).1 (h2 i h h')⟩
  · rintro ⟨h1, h2⟩
    exact ⟨h1, fun i h h' => (type_ok hfin (hc _ (List.getElem_mem h)) (hr _ (List.getElem_mem h))).2 (h2 i h h')⟩

/-- C80: a statement without columns has no classes of columns. -/
theorem C80_no_columns (c : Cache) (k : Known) : columnTypes c none = .ok none ∧ sqlColumnTypes k none = none := ⟨rfl, rfl⟩

/-- C80, not so: a single column whose routines come without a class - `oid`, `xid`, `cid`, `tid`, `uuid`, a domain over one of these, an anonymous record, an identified hstore - or that the catalog does not have, and asking for the classes raises. -/
theorem C80_types_raise (hfin : ∀ t, env.cat t ≠ none → t ∈ ids) {cols : List Nat} (hc : ∀ t ∈ cols, t ∈ ts) {t n : Nat} {io : Io} (ht : t ∈ cols) (hi : Is env n t io) (hb : third io = none ∨ ¬ Found env t) :
    ∃ e, columnTypes (used env (ids.length + 1) ts) (some cols) = .error e := by
  have : ∃ e, typeFromOid (used env (ids.length + 1) ts) t = .error e := by
    unfold typeFromOid
    by_cases hf : Found env t
    · rw [used_cached hfin (hc t ht) hi hf]
      rcases hb with hb | hb
      · exact ⟨.index, by dsimp only; rw [hb]⟩
      · exact absurd hf hb
    · rw [not_cached hf]
      exact ⟨_, rfl⟩
  obtain ⟨e, he⟩ := this
  obtain ⟨e', he'⟩ := each_error ht he
  exact ⟨e', by unfold columnTypes; dsimp only; rw [he']⟩

/-- The routines without a class. -/
theorem C80_bare (io : Io) : third io = none ↔ (∃ t, io = .anonymous t) ∨ ∃ t, io = .builtin t ∧ t ∉ moduleClass.map Prod.fst := by
  cases io with
  | anonymous t => simp [third]
  | str t => simp [third]
  | array t a b c => simp [third]
  | record t l => simp [third]
  | builtin t =>
    simp only [third, reduceCtorEq, exists_false, false_or, Io.builtin.injEq, exists_eq_left']
    unfold lookup
    rw [Option.map_eq_none_iff, List.find?_eq_none]
    simp
    exact ⟨fun h x hx => h t x hx rfl, fun h a b hm e => h b (e ▸ hm)⟩

/-- C80: of PostgreSQL's types with routines, these have none. -/
theorem C80_bare_types : builtinOids.filter (fun t => (third (.builtin t)).isNone) = [26, 28, 29, 27, 2950] := by decide +kernel

/-- The types whose values are of another class than the one that is said: `inet`, `cidr`, `bit`, `xml`, and arrays whose elements have no binary output. -/
def Otherwise : Io → Bool
  | .builtin t => t = 869 || t = 650 || t = 1560 || t = 142
  | .array _ _ _ hasOut => !hasOut
  | _ => false

theorem modules_conform : ∀ e ∈ moduleClass, Otherwise (.builtin e.1) = false → ∀ y ∈ gives (.builtin e.1), y.sub e.2 = true := by decide +kernel

theorem find_mem {t : Nat} {x : Cls} (h : lookup moduleClass t = some x) : (t, x) ∈ moduleClass := Props.Procedure.lookup_mem h

/-- C80: what comes in a column is of the class that is said, except for these types. -/
theorem C80_conforms_partial {t n : Nat} {io : Io} {x : Cls} (_ : Is env n t io) (h : third io = some x) (ho : Otherwise io = false) : ∀ y ∈ gives io, y.sub x = true := by
  cases io with
  | str t => cases h; simp [gives]; decide
  | builtin t => exact modules_conform _ (find_mem h) ho
  | array t a b c =>
    cases h
    have : c = true := by simpa [Otherwise] using ho
    subst this
    simp [gives]; decide
  | record t l => cases h; simp [gives]; decide
  | anonymous t => cases h

/-- C80, not so for them: there is something that is not of that class. -/
theorem C80_otherwise {io : Io} (ho : Otherwise io = true) : ∃ x y, third io = some x ∧ y ∈ gives io ∧ y.sub x = false := by
  cases io with
  | builtin t =>
    have : t = 869 ∨ t = 650 ∨ t = 1560 ∨ t = 142 := by simpa [Otherwise, or_assoc] using ho
    rcases this with rfl | rfl | rfl | rfl
    · exact ⟨.str, .ipAddress, by decide, by decide, by decide⟩
    · exact ⟨.str, .ipNetwork, by decide, by decide, by decide⟩
    · exact ⟨.bit, .varbit, by decide, by decide, by decide⟩
    · exact ⟨.elementTree, .element, by decide, by decide, by decide⟩
  | array t a b c =>
    have : c = false := by simpa [Otherwise] using ho
    subst this
    exact ⟨.array, .str, rfl, by simp [gives], by decide⟩
  | str t => cases ho
  | record t l => cases ho
  | anonymous t => cases ho

/-- C80: the SQL names of the columns' types, in their order: each one, read as SQL, names the type. (`CHARACTER` is read as one character: see C61.) -/
theorem C80_sql_names {nm : Nat → Str × Str} {catalog : Str → Str → Option Nat} (hb : ∀ t, env.builtin t = true → t ∈ builtinOids) (hcat : Props.Procedure.Catalog env nm catalog) {fuel fuel' : Nat} {ops : List Props.Procedure.Op} {cols : List Nat}
    (hr : (resolveAll env nm fuel' (Props.Procedure.after env nm fuel ops) cols).1 = .ok ()) (hf : ∀ t ∈ cols, Found env t) (hi : ∀ t ∈ cols, t ∉ Props.Procedure.identified ops) (h42 : 1042 ∉ cols) :
    ∃ names, sqlColumnTypes (resolveAll env nm fuel' (Props.Procedure.after env nm fuel ops) cols).2 (some cols) = some names ∧ names.length = cols.length ∧
      ∀ i, ∀ (h : i < cols.length), ∃ s toks, names[i]? = some (some s) ∧ Proofs.SqlText.Piece Props.Procedure.Stop s toks ∧ Spec.Procedure.Names catalog toks cols[i] none := by
  refine ⟨_, rfl, by simp, fun i h => ?_⟩
  obtain ⟨k1, _, k3⟩ := Props.Procedure.all_good hb cols _ (Props.Procedure.after_inv hb fuel ops) (fuel := fuel')
  have hm := List.getElem_mem h
  have hcov : Props.Procedure.Covered (Props.Procedure.identified ops) (resolveAll env nm fuel' (Props.Procedure.after env nm fuel ops) cols).2 cols[i] := by
    rcases hf _ hm with h' | h' | h'
    · exact .inl h'
    · exact .inr (.inl (hb _ h'))
    · exact k3 hr _ hm h'
  obtain ⟨text, toks, n, h1, h2, h3, h4, _⟩ := Props.Procedure.type_piece hcat k1 hcov (hi _ hm)
  have hne : cols[i] ≠ 1042 := fun e => h42 (e ▸ hm)
  rw [h4 hne] at h3
  refine ⟨text, toks, ?_, h2, h3⟩
  rw [List.getElem?_map, List.getElem?_eq_getElem h, Option.map_some, h1]

/-- C80, not so: a cursor or chunks without columns raise a TypeError where the statement says None. -/
theorem C80_output_raises (k : Known) : sqlColumnTypesOutput k none = .error .type := rfl

/-- C80: with columns both say the same. -/
theorem C80_output (k : Known) (cols : List Nat) : ∃ l, sqlColumnTypesOutput k (some cols) = .ok l ∧ sqlColumnTypes k (some cols) = some l := ⟨_, rfl, rfl⟩

/-- A composite type, an array of text, a domain over int4, a type without routines: their classes. -/
example : columnTypes (used TypeIo.demoEnv 6 [103, 100, 1009, 102, 101]) (some [100, 1009, 102, 103]) = .ok (some [.tuple, .array, .int, .str]) :=
  (C80_types_partial (ids := [100, 101, 102, 103, 1009]) demo_finite (by decide) (fun t ht => (by
    have h2 : ∃ n io, Is TypeIo.demoEnv n 102 io := ⟨2, _, .domain (by decide) (by decide) (by decide) (.builtin (by decide) (by decide))⟩
    have h9 : ∃ n io, Is TypeIo.demoEnv n 1009 io := ⟨2, _, .array (by decide) (by decide) rfl (.initial (by decide))⟩
    have h0 : ∃ n io, Is TypeIo.demoEnv n 100 io := ⟨3, _, .composite (by decide) (by decide) rfl (.cons (.initial (by decide)) (.cons (.builtin (by decide) (by decide)) (.cons (.array (by decide) (by decide) rfl (.initial (by decide))) .nil)))⟩
    have h3 : ∃ n io, Is TypeIo.demoEnv n 103 io := ⟨1, _, .other (by decide) (by decide) (by decide)⟩
    simp only [List.mem_cons, List.not_mem_nil, or_false] at ht
    rcases ht with rfl | rfl | rfl | rfl <;> assumption))).2 ⟨rfl, fun i h h' => (by
    have h2 : Declares TypeIo.demoEnv 102 .int := ⟨2, _, .domain (by decide) (by decide) (by decide) (.builtin (by decide) (by decide)), by decide⟩
    have h9 : Declares TypeIo.demoEnv 1009 .array := ⟨2, _, .array (by decide) (by decide) rfl (.initial (by decide)), rfl⟩
    have h0 : Declares TypeIo.demoEnv 100 .tuple := ⟨3, _, .composite (by decide) (by decide) rfl (.cons (.initial (by decide)) (.cons (.builtin (by decide) (by decide)) (.cons (.array (by decide) (by decide) rfl (.initial (by decide))) .nil))), rfl⟩
    have h3 : Declares TypeIo.demoEnv 103 .str := ⟨1, _, .other (by decide) (by decide) (by decide), rfl⟩
    have hf : ∀ t, TypeIo.demoEnv.cat t ≠ none → Found TypeIo.demoEnv t := fun t h => .inr (.inr h)
    match i, h, h' with
    | 0, _, _ => exact ⟨hf 100 (by decide), h0⟩
    | 1, _, _ => exact ⟨hf 1009 (by decide), h9⟩
    | 2, _, _ => exact ⟨hf 102 (by decide), h2⟩
    | 3, _, _ => exact ⟨hf 103 (by decide), h3⟩
    | i + 4, h, _ => simp at h; omega)⟩

/-- A catalog with uuid. -/
def uuidEnv : Env where
  cat := fun _ => none
  base := id
  builtin := fun t => t = 23 || t = 2950

example : ∃ e, columnTypes (used uuidEnv 1 [23, 2950]) (some [23, 2950]) = .error e :=
  C80_types_raise (ids := []) (fun t h => absurd rfl h) (by decide) (t := 2950) (by decide) (.builtin (n := 0) (by decide) rfl) (.inl (by decide))

example : ∃ names, sqlColumnTypes (resolveAll Props.Procedure.demoEnv Props.Procedure.demoName 3 (Props.Procedure.after Props.Procedure.demoEnv Props.Procedure.demoName 3 [.use 790]) [23, 5000, 790]).2 (some [23, 5000, 790]) = some names ∧ names.length = 3 := by
  obtain ⟨n, h1, h2, _⟩ := C80_sql_names (fuel := 3) (fuel' := 3) (ops := [.use 790]) (cols := [23, 5000, 790]) (fun t h => by simpa [Props.Procedure.demoEnv] using h) Props.Procedure.demo_catalog rfl
    (fun t ht => .inr (.inr ((by decide +kernel : ∀ t ∈ [23, 5000, 790], Props.Procedure.demoEnv.cat t ≠ none) t ht))) (by decide) (by decide)
  exact ⟨n, h1, h2⟩

end PG.Props.Describe
