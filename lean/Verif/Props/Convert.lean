import Verif.Proofs.Convert2
/-!
# C77: a value that cannot be converted is named by the exception

`bound W s ps`: a statement is executed with parameters; `row W s c d`: a row the server sent is converted, for a cursor or for `first`.
-/
namespace PG.Props.Convert
open PG PG.Exceptions PG.Messages PG.Convert PG.Spec.Convert PG.Proofs.Convert

variable {A B V : Type} {W : World V} {s : Stmt V} {z : Exn}

theorem packers_getElem (W : World V) (ts : List (Ty V)) (i : Nat) : (packers W ts)[i]? = (ts[i]?).map (packer W) := by
  induction ts generalizing i with
  | nil => simp [packers]
  | cons t ts ih => cases i <;> simp [packers, ih]
theorem packers_length (W : World V) (ts : List (Ty V)) : (packers W ts).length = ts.length := by
  induction ts with
  | nil => simp [packers]
  | cons t ts ih => simp [packers, ih]
theorem unpackers_getElem (W : World V) (ts : List (Ty V)) (i : Nat) : (unpackers W ts)[i]? = (ts[i]?).map (unpacker W) := by
  induction ts generalizing i with
  | nil => simp [unpackers]
  | cons t ts ih => cases i <;> simp [unpackers, ih]
theorem unpackers_length (W : World V) (ts : List (Ty V)) : (unpackers W ts).length = ts.length := by
  induction ts with
  | nil => simp [unpackers]
  | cons t ts ih => simp [unpackers, ih]

/-- **C77 (composites in composites, arrays of them, and so on).** Converting a value raises if and only if something in it cannot be converted; following `__cause__` from the exception leads, by the positions in the
details, from record to record to the first thing that cannot, and ends with its own exception; those on the way are `CompositeError`s. -/
theorem C77_path {verb : Str} {repr : A → Str} {c : Conv A B} {a : A} :
    (∀ x, run verb repr c a = .error x → ∃ p e, Fault verb repr c a p e ∧ positions x = texts p ∧ root x = e ∧ AllOf .CompositeError x) ∧
    (∀ p e, Fault verb repr c a p e → ∃ x, run verb repr c a = .error x ∧ positions x = texts p ∧ root x = e) :=
  ⟨right c a, fun _ _ h => raised h⟩

/-- **C77 (one record).** The exception of a record says which attribute it was, of which type, of which composite, and shows the value; its cause is what converting that value raised, all attributes before it can be converted. -/
theorem C77_attribute {verb : Str} {repr : A → Str} {n : Names} {split} {cs : List (Conv A B)} {a : A} {o : Obj} {cr : Creator} {cause : Exn} (h : run verb repr (.record n split cs) a = .error (.client o cr cause)) :
    ∃ xs join i c x, split a = .ok (xs, join) ∧ cs[i]? = some c ∧ xs[i]? = some (some x) ∧ run verb repr c x = .error cause ∧ Before verb repr cs xs i ∧
      o.cls = some .CompositeError ∧ o.code = "--cIO".toList ∧ cr = .database ∧
      o.message = "failed to ".toList ++ verb ++ " attribute ".toList ++ Nat.toDigits 10 i ++ ", ".toList ++ n.atts.getD i [] ++ "::".toList ++ Procedure.percentS (n.typs.getD i none) ++ ", of composite ".toList ++
        n.composite ++ " from wire data".toList ∧
      o.details = [(.severity, "ERROR".toList), (.context, short (repr x)), (.position, Nat.toDigits 10 i)] := by
  unfold run at h
  cases hs : split a with
  | error e => rw [hs] at h; cases h
  | ok r =>
    obtain ⟨xs, join⟩ := r
    rw [hs] at h
    dsimp only at h
    cases he : processTuple (compositeError verb n) repr (runs verb repr cs) xs with
    | ok ys =>
      rw [he] at h
      obtain ⟨e, _, h⟩ := lift_error h
      cases h
    | error e =>
      rw [he] at h
      cases h
      rcases processTuple_error.1 he with ⟨_, h⟩ | ⟨hl, i, c, y, e', hc, hy, he', hb, h⟩
      · cases h
      · unfold compositeError at h
        rw [raise_composite] at h
        injection h with h1 h2 h3
        subst h1 h2 h3
        exact ⟨xs, join, i, c, y, rfl, hc, hy, he', hb, rfl, rfl, rfl, rfl, rfl⟩

/-- **C77 (parameters).** Executing a statement raises because of its parameters if there is another number of them (TypeError), or one that cannot be packed: then a `ParameterError` says which one it is, its type, and shows the value; its
causes lead to what was wrong; the ones before it could be packed. -/
theorem C77_parameter {ps : List (Option V)} (h : bound W s ps = .error z) : (ps.length ≠ s.params.length ∧ z = .py .typeError) ∨
    ∃ i t sql x p e o cause, s.params[i]? = some (t, sql) ∧ ps[i]? = some (some x) ∧ Fault PACK W.repr (packer W t) x p e ∧
      (∀ j < i, ∀ t y, (s.params.map Prod.fst)[j]? = some t → ps[j]? = some (some y) → ∃ b, run PACK W.repr (packer W t) y = .ok b) ∧
      z = .client o .statement cause ∧ o.cls = some .ParameterError ∧ o.code = "--PIO".toList ∧ o.fromServer = false ∧
      o.message = "could not pack parameter $".toList ++ Nat.toDigits 10 (i + 1) ++ "::".toList ++ sql.getD "<unknown>".toList ++ " for transfer".toList ∧
      PyDict.get .detail o.details = some (short (W.repr x)) ∧ positions z = texts (i :: p) ∧ root z = e ∧ AllOf .CompositeError cause := by
  unfold bound at h
  split at h
  · rename_i hl
    cases h
    exact .inl ⟨hl, rfl⟩
  · unfold parameters at h
    rcases processTuple_error.1 h with ⟨hl, rfl⟩ | ⟨hl, i, c, x, e, hc, hx, he, hb, rfl⟩
    · rw [packers_length, List.length_map] at hl
      exact .inl ⟨hl, rfl⟩
    · right
      rw [packers_getElem, List.getElem?_map] at hc
      cases hp : s.params[i]? with
      | none => rw [hp] at hc; cases hc
      | some ts =>
        obtain ⟨t, sql⟩ := ts
        rw [hp] at hc
        cases hc
        obtain ⟨p, e', hf, h3, h4, h5⟩ := right _ _ _ he
        have hg : (s.params.map Prod.snd).getD i none = sql := by simp [List.getD, hp]
        rw [hg, raise_parameter]
        refine ⟨i, t, sql, x, p, e', _, _, hp, hx, hf, fun j hj t' y ht hy => hb j hj _ y (by rw [packers_getElem, ht]; rfl) hy, rfl, rfl, rfl, rfl, ?_, rfl, ?_, h4, h5⟩
        · simp [parameterObj, decimal]
        · simp only [positions, h3]; rfl

/-- **C77 (what is sent).** Otherwise every parameter was packed, by the routine of its type, in order; None is sent as NULL. -/
theorem C77_bound {ps : List (Option V)} {bs : List (Option Bytes)} : bound W s ps = .ok bs ↔ ps.length = s.params.length ∧ bs.length = ps.length ∧
    ∀ (i : Nat) (x : Option V), ps[i]? = some x → (x = none ∧ bs[i]? = some none) ∨ ∃ v t b, x = some v ∧ (s.params.map Prod.fst)[i]? = some t ∧ run PACK W.repr (packer W t) v = .ok b ∧ bs[i]? = some (some b) := by
  unfold bound parameters
  by_cases hl : ps.length = s.params.length
  · simp only [hl, ne_eq, not_true_eq_false, if_false, true_and]
    rw [processTuple_ok]
    unfold Converted
    rw [packers_length, List.length_map]
    simp only [hl, true_and]
    refine and_congr_right fun _ => forall_congr' fun i => forall_congr' fun x => forall_congr' fun hx => or_congr_right ?_
    constructor
    · rintro ⟨a, b, rfl, h1, h2⟩
      unfold attrOf at h1
      rw [packers_getElem] at h1
      cases ht : (s.params.map Prod.fst)[i]? with
      | none => rw [ht] at h1; cases h1
      | some t => rw [ht] at h1; exact ⟨a, t, b, rfl, rfl, h1, h2⟩
    · rintro ⟨a, t, b, rfl, ht, h1, h2⟩
      refine ⟨a, b, rfl, ?_, h2⟩
      unfold attrOf
      rw [packers_getElem, ht]
      exact h1
  · simp [hl]

/-- **C77 (columns).** A row that cannot be converted raises, by a cursor or a statement with several columns, a `ColumnError` that says which column it is, its name and type, and shows the data; its causes lead to what was wrong; the columns before
it could be converted.  Missing: `first` of one column, `column`, cursors of `cursor_from_id` (`C77_first_bare`, C58, `C77_cursor_from_id`). -/
theorem C77_column_partial {c : Creator} {d : List (Option Bytes)} (h : row W s c d = .error z) : (d.length ≠ s.columns.length ∧ z = .py .typeError) ∨
    ∃ i name t sql x p e o cause, s.columns[i]? = some (name, t, sql) ∧ d[i]? = some (some x) ∧ Fault UNPACK reprBytes (unpacker W t) x p e ∧
      (∀ j < i, ∀ t y, (s.columns.map (·.2.1))[j]? = some t → d[j]? = some (some y) → ∃ b, run UNPACK reprBytes (unpacker W t) y = .ok b) ∧
      z = .client o c cause ∧ o.cls = some .ColumnError ∧ o.code = "--CIO".toList ∧ o.fromServer = false ∧
      (∃ intro, o.message = intro ++ " unpack column ".toList ++ Nat.toDigits 10 i ++ ", ".toList ++ name ++ "::".toList ++ sql.getD "<unknown>".toList ++ ", from wire data".toList) ∧
      PyDict.get .detail o.details = some (short (reprBytes x)) ∧ positions z = texts (i :: p) ∧ root z = e ∧ AllOf .CompositeError cause := by
  unfold row at h
  rcases processTuple_error.1 h with ⟨hl, rfl⟩ | ⟨hl, i, k, x, e, hc, hx, he, hb, rfl⟩
  · rw [unpackers_length, List.length_map] at hl
    exact .inl ⟨hl, rfl⟩
  · right
    rw [unpackers_getElem, List.getElem?_map] at hc
    cases hp : s.columns[i]? with
    | none => rw [hp] at hc; cases hc
    | some ts =>
      obtain ⟨name, t, sql⟩ := ts
      rw [hp] at hc
      cases hc
      obtain ⟨p, e', hf, h3, h4, h5⟩ := right _ _ _ he
      have hg : (s.columns.map (·.2.2)).getD i none = sql := by simp [List.getD, hp]
      have hn : (s.columns.map Prod.fst).getD i [] = name := by simp [List.getD, hp]
      rw [hg, hn, raise_column]
      refine ⟨i, name, t, sql, x, p, e', _, _, hp, hx, hf, fun j hj t' y ht hy => hb j hj _ y (by rw [unpackers_getElem, ht]; rfl) hy, rfl, rfl, rfl, rfl, ⟨_, rfl⟩, rfl, ?_, h4, h5⟩
      simp only [positions, h3]; rfl

/-- **C77 (many rows).** Of rows one after the other it is the first that cannot be converted, and none is returned. -/
theorem C77_rows {c : Creator} : ∀ {ds : List (List (Option Bytes))}, rows W s c ds = .error z ↔ ∃ pre d post, ds = pre ++ d :: post ∧ (∀ y ∈ pre, ∃ r, row W s c y = .ok r) ∧ row W s c d = .error z
  | [] => by
    constructor
    · intro h; cases h
    · rintro ⟨pre, d, post, h, _⟩; cases pre <;> cases h
  | d :: ds => by
    have ih := @C77_rows c ds
    unfold rows
    cases hd : row W s c d with
    | error e =>
      constructor
      · intro h
        cases h
        exact ⟨[], d, ds, rfl, fun y hy => by simp at hy, hd⟩
      · rintro ⟨pre, y, post, h, h1, h2⟩
        cases pre with
        | nil => cases h; rw [hd] at h2; cases h2; rfl
        | cons a pre =>
          cases h
          obtain ⟨r, hr⟩ := h1 d (by simp)
          rw [hd] at hr; cases hr
    | ok r =>
      dsimp only
      constructor
      · intro h
        cases hr : rows W s c ds with
        | ok rs => rw [hr] at h; cases h
        | error e =>
          rw [hr] at h
          cases h
          obtain ⟨pre, y, post, rfl, h1, h2⟩ := ih.1 hr
          refine ⟨d :: pre, y, post, rfl, fun a ha => ?_, h2⟩
          rcases List.mem_cons.1 ha with rfl | ha
          · exact ⟨r, hd⟩
          · exact h1 a ha
      · rintro ⟨pre, y, post, h, h1, h2⟩
        cases pre with
        | nil => cases h; rw [hd] at h2; cases h2
        | cons a pre =>
          cases h
          rw [ih.2 ⟨pre, y, post, rfl, fun b hb => h1 b (List.mem_cons_of_mem _ hb), h2⟩]

/-- **C77 (anonymous records).** The items of a record without a declared type are converted by the types they bring along; the first that cannot is named by its position. -/
theorem C77_anonymous {resolve : Int → Ty V} {d : Bytes} (h : unpackAnonymous W resolve d = .error z) : (∃ e, TypesLib.recordUnpack d = .error e ∧ z = .py e) ∨
    ∃ l i t x p e o cause, TypesLib.recordUnpack d = .ok l ∧ l[i]? = some (t, some x) ∧ Fault UNPACK reprBytes (unpacker W (resolve t)) x p e ∧ z = .client o .database cause ∧ o.cls = some .CompositeError ∧
      o.message = "Could not unpack element ".toList ++ Nat.toDigits 10 i ++ " from anonymous record".toList ∧ PyDict.get .context o.details = some (short (reprBytes x)) ∧
      positions z = texts (i :: p) ∧ root z = e := by
  unfold unpackAnonymous at h
  cases hr : TypesLib.recordUnpack d with
  | error e => rw [hr] at h; cases h; exact .inl ⟨e, rfl, rfl⟩
  | ok l =>
    rw [hr] at h
    dsimp only at h
    rcases processTuple_error.1 h with ⟨hl, rfl⟩ | ⟨hl, i, k, x, e, hc, hx, he, hb, rfl⟩
    · rw [unpackers_length, List.length_map, List.length_map] at hl
      exact absurd rfl hl
    · right
      rw [unpackers_getElem, List.getElem?_map] at hc
      rw [List.getElem?_map] at hx
      cases hp : l[i]? with
      | none => rw [hp] at hc; cases hc
      | some ts =>
        obtain ⟨t, y⟩ := ts
        rw [hp] at hc hx
        cases hc
        cases hx
        obtain ⟨p, e', hf, h3, h4, h5⟩ := right _ _ _ he
        unfold anonymousError
        rw [raise_composite]
        exact ⟨l, i, t, x, p, e', _, _, rfl, hp, hf, rfl, rfl, rfl, rfl, by simp only [positions, h3]; rfl, h4⟩

/-- **C77 (what is shown).** A value is shown as it is, or, if that is long, its beginning; never more than 80 characters. -/
theorem C77_short (d : Str) : (short d).length ≤ 80 ∧ (d.length ≤ 80 → short d = d) ∧ d.take 75 <+: short d := by
  unfold short
  split
  · rename_i h
    refine ⟨?_, fun h' => absurd h' (by omega), List.prefix_append _ _⟩
    rw [List.length_append, List.length_take]
    have : " ...".toList.length = 4 := rfl
    omega
  · rename_i h
    exact ⟨by omega, fun _ => rfl, List.take_prefix _ _⟩

/-! ## The hypotheses are met -/

/-- Values are numbers or lists of values. -/
inductive Val where
  | num (n : Nat)
  | list (l : List (Option Val))

/-- Numbers under 10 can be encoded; lists are records and arrays. -/
def demo : World Val where
  repr | .num n => Nat.toDigits 10 n | .list _ => "(...)".toList
  encode | .num n => if n < 10 then .ok [UInt8.ofNat n] else .error .overflowError | .list _ => .error .typeError
  decode | [b] => if b < 10 then .ok (.num b.toNat) else .error .valueError | _ => .error .structError
  attrs _ | .list l => .ok l | .num _ => .error .typeError
  parts | .list l => .ok (l, [(l.length : Int)], [1]) | .num _ => .error .typeError
  fromParts l _ _ := .ok (.list l)
  row _ l := .list l

/-- `t`: a number and an array of pairs of numbers. -/
def number : Ty Val := .base none none
def pair : Ty Val := .record ⟨["a".toList, "b".toList], [some "int".toList, none], "s.pair".toList⟩ [23, 23] [number, number]
def nested : Ty Val := .record ⟨["x".toList, "y".toList], [some "int".toList, some "pair[]".toList], "s.t".toList⟩ [23, 100] [number, .array 99 pair true true]
def stmt : Stmt Val := { params := [(number, some "int".toList), (nested, none)], columns := [("c".toList, number, some "int".toList), ("d".toList, pair, some "s.pair".toList)] }
/-- `(3, [(1, 2), None, (4, n)])` -/
def value (n : Nat) : Val := .list [some (.num 3), some (.list [some (.list [some (.num 1), some (.num 2)]), none, some (.list [some (.num 4), some (.num n)])])]

/-- `C77_parameter`, `C77_path`, `C77_attribute`: the number 77 in the second parameter, second attribute, in an array, second attribute. -/
example : ∃ o1 o2 o3, bound demo stmt [some (.num 5), some (value 77)] = .error (.client o1 .statement (.client o2 .database (.client o3 .database (.py .overflowError)))) ∧
    o1.message = "could not pack parameter $2::<unknown> for transfer".toList ∧ o2.message = "failed to pack attribute 1, y::pair[], of composite s.t from wire data".toList ∧
    o3.message = "failed to pack attribute 1, b::None, of composite s.pair from wire data".toList ∧ PyDict.get .context o3.details = some "77".toList ∧
    positions (.client o1 .statement (.client o2 .database (.client o3 .database (.py .overflowError)))) = texts [1, 1, 1] := by
  refine ⟨parameterObj ("could not pack parameter ".toList ++ '$' :: decimal (1 + 1) ++ "::".toList ++ (none : Option Str).getD "<unknown>".toList ++ " for transfer".toList) "(...)".toList 1,
    compositeObj "failed to pack attribute 1, y::pair[], of composite s.t from wire data".toList "(...)".toList 1, compositeObj "failed to pack attribute 1, b::None, of composite s.pair from wire data".toList "77".toList 1,
    ?_, rfl, rfl, rfl, rfl, rfl⟩
  have : bound demo stmt [some (.num 5), some (value 77)] = .error (parameterError none 1 "(...)".toList (compositeError PACK ⟨["x".toList, "y".toList], [some "int".toList, some "pair[]".toList], "s.t".toList⟩ 1 "(...)".toList
      (compositeError PACK ⟨["a".toList, "b".toList], [some "int".toList, none], "s.pair".toList⟩ 1 "77".toList (.py .overflowError)))) := rfl
  rw [this, raise_parameter]
  unfold compositeError
  rw [raise_composite, raise_composite]
  rfl
/-- `C77_bound`. -/
example : (bound demo stmt [some (.num 5), some (value 7)]).toOption.isSome = true ∧ bound demo stmt [some (.num 5), none] = .ok [some [5], none] := ⟨by decide +kernel, by decide +kernel⟩
/-- `C77_column_partial`, `C77_rows`: the second column of the second row. -/
example : ∃ o cause, rows demo stmt .output [[some [1], none], [some [2], some [0, 0, 0, 1, 0, 0, 0, 23, 0, 0, 0, 1, 11]]] = .error (.client o .output cause) ∧
    o.message = "failed to unpack column 1, d::s.pair, from wire data".toList ∧ root cause = .typeError := by
  refine ⟨columnObj ((if Creator.output = .output then "failed to".toList else "could not".toList) ++ " unpack column ".toList ++ decimal 1 ++ ", ".toList ++ "d".toList ++ "::".toList ++
    (some "s.pair".toList).getD "<unknown>".toList ++ ", from wire data".toList) (reprBytes [0, 0, 0, 1, 0, 0, 0, 23, 0, 0, 0, 1, 11]) 1, .py .typeError, ?_, rfl, rfl⟩
  have : rows demo stmt .output [[some [1], none], [some [2], some [0, 0, 0, 1, 0, 0, 0, 23, 0, 0, 0, 1, 11]]] =
    .error (columnError .output "d".toList (some "s.pair".toList) 1 (reprBytes [0, 0, 0, 1, 0, 0, 0, 23, 0, 0, 0, 1, 11]) (.py .typeError)) := rfl
  rw [this, raise_column]
set_option maxRecDepth 100000 in
/-- `C77_anonymous`: the item 11 has no value. -/
example : ∃ o cause, unpackAnonymous demo (fun _ => number) [0, 0, 0, 2, 0, 0, 0, 23, 0, 0, 0, 1, 9, 0, 0, 0, 23, 0, 0, 0, 1, 11] = .error (.client o .database cause) ∧
    o.message = "Could not unpack element 1 from anonymous record".toList ∧ root cause = .valueError := by
  refine ⟨compositeObj "Could not unpack element 1 from anonymous record".toList (reprBytes [11]) 1, .py .valueError, ?_, rfl, rfl⟩
  have : unpackAnonymous demo (fun _ => number) [0, 0, 0, 2, 0, 0, 0, 23, 0, 0, 0, 1, 9, 0, 0, 0, 23, 0, 0, 0, 1, 11] = .error (anonymousError 1 (reprBytes [11]) (.py .valueError)) := rfl
  rw [this]
  unfold anonymousError
  rw [raise_composite]
  rfl

/-! ## Findings -/

/-- **C77 (a finding: `first` of one column).** If the statement has one column then `first` raises what the routine raised, and not a `ColumnError`. -/
theorem C77_first_bare {c : Str × Ty V × Option Str} {d : Bytes} {ds : List (Option Bytes)} {e : Exn} (hs : s.columns = [c]) (h : run UNPACK reprBytes (unpacker W c.2.1) d = .error e) :
    firstRow W s (some d :: ds) = .error e := by
  unfold firstRow
  rw [hs]
  simp [h]

/-- It does so here. -/
example : firstRow demo { params := [], columns := [("c".toList, number, none)] } [some [11]] = .error (.py .valueError) ∧ firstRow demo { params := [], columns := [("c".toList, number, none)] } [some [9]] = .ok [some (.num 9)] :=
  ⟨rfl, rfl⟩

/-- **C77 (a finding: cursors made of a name).** A cursor of `cursor_from_id` raises AttributeError instead. -/
theorem C77_cursor_from_id {d : List (Option Bytes)} {i : Nat} {name : Str} {t : Ty V} {sql : Option Str} {x : Bytes} {e : Exn} (hl : d.length = s.columns.length) (hc : s.columns[i]? = some (name, t, sql)) (hx : d[i]? = some (some x))
    (he : run UNPACK reprBytes (unpacker W t) x = .error e) (hb : ∀ j < i, ∀ t y, (s.columns.map (·.2.1))[j]? = some t → d[j]? = some (some y) → ∃ b, run UNPACK reprBytes (unpacker W t) y = .ok b) :
    cursorRow W s d = .error (.py .attributeError) := by
  unfold cursorRow
  refine processTuple_error.2 (.inr ⟨by rw [unpackers_length, List.length_map, hl], i, unpacker W t, x, e, by rw [unpackers_getElem, List.getElem?_map, hc]; rfl, hx, he, fun j hj c y hc' hy => ?_, rfl⟩)
  rw [unpackers_getElem] at hc'
  cases ht : (s.columns.map (·.2.1))[j]? with
  | none => rw [ht] at hc'; cases hc'
  | some t' => rw [ht] at hc'; cases hc'; exact hb j hj t' y ht hy
/-- The hypotheses are met. -/
example : cursorRow demo stmt [some [11], none] = .error (.py .attributeError) := rfl

/-- **C77 (a finding: which element of an array).** The exception of an element is that of the array: it does not say which element it was. -/
theorem C77_element {verb : Str} {repr : A → Str} {split} {el : Conv A B} {a : A} {pre post : List (Option A)} {x : A} {join} {e : Exn} (hs : split a = .ok (pre ++ some x :: post, join))
    (hpre : ∀ y, some y ∈ pre → ∃ b, run verb repr el y = .ok b) (he : run verb repr el x = .error e) : run verb repr (.each split el) a = .error e := by
  unfold run
  rw [hs]
  dsimp only
  rw [eachItem_error.2 ⟨pre, x, post, rfl, hpre, he⟩]
/-- The same, first or second. -/
example : run PACK demo.repr (packer demo (.array 23 number true true)) (.list [some (.num 5), some (.num 11)]) = run PACK demo.repr (packer demo (.array 23 number true true)) (.list [some (.num 11), some (.num 5)]) ∧
    run PACK demo.repr (packer demo (.array 23 number true true)) (.list [some (.num 11), some (.num 5)]) = .error (.py .overflowError) := ⟨rfl, rfl⟩

end PG.Props.Convert
