import Verif.Proofs.Procedure
/-! # C61: stored procedures -/
namespace PG.Props.Procedure
open PG PG.PyStr PG.PgString PG.SqlText PG.Procedure PG.Spec.PgString PG.Spec.SqlText PG.Spec.Procedure PG.Proofs.SqlText PG.Props.SqlText

/-- **C61 (function).** The function is found by its name as the server writes it, with letters of any case and any characters in it. -/
theorem C61_function_name {text : Str} {toks : List Tok} (h : FunctionName text toks) : ReadsAs ['('] text toks ∧ Tok.sym ';' ∉ toks := function_name h

/-- **C61 (text).** Whatever types were used or identified before: if the types of the parameters are in the catalog, are not `bpchar` and `identify()` was not used for them, the statement that is prepared reads as one: it selects from the function, with
every parameter, in order, as the type that the function has there (no more and no less), with the columns that were given. -/
theorem C61_text_partial {env : TypeIo.Env} {nm : Nat → Str × Str} {catalog : Str → Str → Option Nat} (hb : ∀ t, env.builtin t = true → t ∈ builtinOids) (hcat : Catalog env nm catalog) {fuel fuel' : Nat} {ops : List Op} {p : ProcTup} {k : Known}
    (hr : resolveAll env nm fuel' (after env nm fuel ops) p.argtypes = (.ok (), k)) (ht : ∀ t ∈ p.argtypes, env.cat t ≠ none ∧ t ≠ 1042 ∧ t ∉ identified ops) {fn : List Tok} (hf : FunctionName p.proid fn)
    {description : List Str} {cols : List (List Tok)} (hd : Columns description cols) :
    ∃ types, NamesAll catalog types p.argtypes ∧ Reads (textOf k p description) [selects fn types cols] := by
  have hg := all_good hb (fuel := fuel') p.argtypes _ (after_inv (nm := nm) hb fuel ops)
  rw [hr] at hg
  obtain ⟨g1, _, g3⟩ := hg
  have g3 := g3 rfl
  have key : ∀ l : List Nat, (∀ t ∈ l, t ∈ p.argtypes) → ∃ tk, NamesAll catalog tk l ∧ Spec.Prepare.Each (fun t toks => ∃ s, t = some s ∧ Piece Stop s toks) (l.map (sqlType k)) tk ∧ ∀ t ∈ tk, Tok.sym ';' ∉ t := by
    intro l
    induction l with
    | nil => intro _; exact ⟨[], .nil, .nil, by simp⟩
    | cons t l ih =>
      intro hl
      obtain ⟨tk, i1, i2, i3⟩ := ih fun u hu => hl u (List.mem_cons_of_mem _ hu)
      obtain ⟨q1, q2, q3⟩ := ht t (hl t (List.mem_cons_self ..))
      obtain ⟨text, toks, n, h1, h2, h3, h4, h5⟩ := type_piece hcat g1 (g3 t (hl t (List.mem_cons_self ..)) q1) q3
      rw [h4 q2] at h3
      refine ⟨toks :: tk, .cons h3 i1, .cons ⟨text, h1, h2⟩ i2, ?_⟩
      intro x hx
      rcases List.mem_cons.mp hx with rfl | hx
      · exact h5
      · exact i3 x hx
  obtain ⟨tk, i1, i2, i3⟩ := key p.argtypes fun _ h => h
  obtain ⟨f1, f2⟩ := function_name hf
  exact ⟨tk, i1, text_reads f1 f2 i2 i3 hd⟩

/-- The catalog of the examples: the type 5000 is `public."My Type"`; 790 is `money`. -/
def demoEnv : TypeIo.Env where
  cat := fun t => if t = 5000 ∨ t = 790 ∨ t ∈ TypeIo.initialOids ∨ t ∈ builtinOids then some .other else none
  base := id
  builtin := fun t => builtinOids.contains t

def demoName (t : Nat) : Str × Str := if t = 5000 then ("public".toList, "My Type".toList) else ("pg_catalog".toList, ((lookup ownTypes t).getD "").toList)

def demoCatalog (nsp name : Str) : Option Nat :=
  if nsp = "public".toList ∧ name = "My Type".toList then some 5000 else if nsp = "pg_catalog".toList then (ownTypes.find? fun e => e.2.toList = name).map Prod.fst else none

theorem demo_catalog : Catalog demoEnv demoName demoCatalog := by
  have hl : ∀ t, demoEnv.cat t ≠ none → t ∈ 5000 :: 790 :: (TypeIo.initialOids ++ builtinOids) := by
    intro t ht
    by_cases h : t = 5000 ∨ t = 790 ∨ t ∈ TypeIo.initialOids ∨ t ∈ builtinOids
    · simp only [List.mem_cons, List.mem_append]; exact h
    · exact absurd (if_neg h) ht
  refine ⟨by decide +kernel, fun t ht => ?_, fun t ht => ?_⟩
  · exact (by decide +kernel : ∀ t ∈ 5000 :: 790 :: (TypeIo.initialOids ++ builtinOids), demoCatalog (demoName t).1 (demoName t).2 = some t) t (hl t ht)
  · exact (by decide +kernel : ∀ t ∈ 5000 :: 790 :: (TypeIo.initialOids ++ builtinOids), (demoName t).1 ≠ [] ∧ (demoName t).2 ≠ []) t (hl t ht)

/-- A function `my."Func"(integer, "My Type", money, "char")`. -/
def demoProc : ProcTup := ⟨"my.\"Func\"".toList, [], [23, 5000, 790, 18], false, false⟩

theorem demo_text : textOf (resolveAll demoEnv demoName 3 (after demoEnv demoName 3 [.use 790]) demoProc.argtypes).2 demoProc [] = "SELECT * FROM my.\"Func\"($1::INTEGER, $2::\"public\".\"My Type\", $3::\"pg_catalog\".\"money\", $4::pg_catalog.char) AS func".toList := by
  decide +kernel

example : ∃ types, NamesAll demoCatalog types demoProc.argtypes ∧ Reads "SELECT * FROM my.\"Func\"($1::INTEGER, $2::\"public\".\"My Type\", $3::\"pg_catalog\".\"money\", $4::pg_catalog.char) AS func".toList
    [selects [kw "my", .sym '.', .ident "Func".toList] types []] := by
  rw [← demo_text]
  refine C61_text_partial (fuel := 3) (fuel' := 3) (ops := [.use 790]) (fun t h => by simpa [demoEnv] using h) demo_catalog (p := demoProc) (k := (resolveAll demoEnv demoName 3 (after demoEnv demoName 3 [.use 790]) demoProc.argtypes).2) rfl ?_ ?_ .nil
  · intro t ht
    exact (by decide +kernel : ∀ t ∈ demoProc.argtypes, demoEnv.cat t ≠ none ∧ t ≠ 1042 ∧ t ∉ identified [.use 790]) t ht
  · show FunctionName ("my".toList ++ '.' :: "\"Func\"".toList) _
    exact .qualified (.bare (by decide) (by decide)) (Part.quoted (v := "Func".toList) (by decide))

/-! ## What is missing -/

theorem character_only {catalog : Str → Str → Option Nat} {t : Nat} {n : Option Nat} (h : Names catalog [kw "character"] t n) : n = some 1 := by
  generalize e : [kw "character"] = l at h
  cases h with
  | @sql ws t n hm =>
    have : ∀ x ∈ sqlTypes, [kw "character"] = x.1.map kw → x.2.2 = some 1 := by decide +kernel
    exact this _ hm e
  | qualified => injection e with _ e; cases e

/-- **C61 (`bpchar`).** For a parameter of the type `bpchar` the property fails: it is cast to `character`, which is `character(1)`, so that the server cuts the argument to its first character, and no error is raised. -/
theorem C61_character_cut (k : Known) (catalog : Str → Str → Option Nat) :
    Reads (textOf k ⟨"f".toList, [], [1042], false, false⟩ []) [selects [kw "f"] [[kw "character"]] []] ∧ Names catalog [kw "character"] 1042 (some 1) ∧ ¬ Names catalog [kw "character"] 1042 none ∧
      castString (some 1) "abc".toList = "a".toList := by
  refine ⟨?_, Names.sql (ws := ["character"]) (by decide), (fun h => by have := character_only h; cases this), rfl⟩
  obtain ⟨f1, f2⟩ := function_name (text := "f".toList) (toks := [kw "f"]) (.alone (.bare (by decide) (by decide)))
  have hp : Piece Stop "CHARACTER".toList [kw "character"] := (piece_word (w := "CHARACTER".toList) (isWord_of (by decide))).weaken fun _ => stop_after
  exact text_reads f1 f2 (ts := [some "CHARACTER".toList]) (.cons ⟨_, rfl, hp⟩ .nil) (by simp [kw]) .nil

/-- **C61 (identified types).** For a type that `identify()` was used for (`hstore`) and that was not used before, the property fails: the statement casts the parameter to a type named `none`. -/
theorem C61_identified_unnamed : let k := after demoEnv demoName 3 [.identify 6000]
    (resolveAll demoEnv demoName 3 k [6000]).1 = .ok () ∧ Reads (textOf (resolveAll demoEnv demoName 3 k [6000]).2 ⟨"f".toList, [], [6000], false, false⟩ []) [selects [kw "f"] [[kw "none"]] []] ∧
      ∀ t n, ¬ Names demoCatalog [kw "none"] t n := by
  refine ⟨rfl, ?_, ?_⟩
  · obtain ⟨f1, f2⟩ := function_name (text := "f".toList) (toks := [kw "f"]) (.alone (.bare (by decide) (by decide)))
    have hp : Piece Stop "None".toList [kw "none"] := (piece_word (w := "None".toList) (isWord_of (by decide))).weaken fun _ => stop_after
    exact text_reads f1 f2 (ts := [some "None".toList]) (.cons ⟨_, rfl, hp⟩ .nil) (by simp [kw]) .nil
  · intro t n h
    generalize e : [kw "none"] = l at h
    cases h with
    | @sql ws t n hm =>
      have : ∀ x ∈ sqlTypes, [kw "none"] ≠ x.1.map kw := by decide +kernel
      exact this _ hm e
    | qualified => injection e with _ e; cases e

/-! ## Making the object -/

open PG.Element3 PG.Xact3 PG.Fetch PG.Statement PG.Prepare PG.Spec.Xact PG.Spec.Prepare PG.Spec.Statement PG.Spec.Reply PG.Props.Prepare PG.Props.Statement

/-- **C61 (no such function).** If the catalog has no function with the identifier, LookupError is raised, and nothing is prepared. -/
theorem C61_lookup_error {ν α β : Type} [DecidableEq ν] (env : TypeIo.Env) (nm : Nat → Str × Str) (fuel : Nat) (T : Typio Str ν α β) (id : Bytes) (k : Known) (description : List Str) (bs : List Batch) :
    construct env nm fuel T id k none description bs = ([], .lookupError, k) := rfl

theorem attmap_get (n : Str) : ∀ (l : List (Option Str)) (d : List (Str × Nat)) (i j : Nat), PyDict.get n (inputAttmap d i l) = some j ↔
    (∃ k, j = i + k ∧ l[k]? = some (some n) ∧ ∀ m, k < m → l[m]? ≠ some (some n)) ∨ (some n ∉ l ∧ PyDict.get n d = some j)
  | [], d, i, j => by simp [inputAttmap]
  | o :: l, d, i, j => by
    have step : PyDict.get n (inputAttmap d i (o :: l)) = PyDict.get n (inputAttmap (match o with | none => d | some m => PyDict.set m i d) (i + 1) l) := by cases o <;> rfl
    rw [step, attmap_get n l]
    constructor
    · rintro (⟨k, rfl, h1, h2⟩ | ⟨h1, h2⟩)
      · refine .inl ⟨k + 1, by omega, by simpa using h1, fun m hm => ?_⟩
        obtain ⟨m', rfl⟩ : ∃ m', m = m' + 1 := ⟨m - 1, by omega⟩
        simpa using h2 m' (by omega)
      · by_cases ho : o = some n
        · subst ho
          rw [PyDict.get_set, if_pos rfl] at h2
          injection h2 with h2
          refine .inl ⟨0, by omega, rfl, fun m hm e => h1 ?_⟩
          obtain ⟨m', rfl⟩ : ∃ m', m = m' + 1 := ⟨m - 1, by omega⟩
          exact List.mem_of_getElem? (by simpa using e)
        · refine .inr ⟨by simp [h1, Ne.symm ho], ?_⟩
          cases o with
          | none => exact h2
          | some m => rwa [PyDict.get_set, if_neg (fun e => ho (by rw [e]))] at h2
    · rintro (⟨k, rfl, h1, h2⟩ | ⟨h1, h2⟩)
      · cases k with
        | zero =>
          have ho : o = some n := by simpa using h1
          subst ho
          refine .inr ⟨fun hm => ?_, by rw [PyDict.get_set, if_pos rfl]; rfl⟩
          obtain ⟨m, hm⟩ := List.mem_iff_getElem?.mp hm
          exact h2 (m + 1) (by omega) (by simpa using hm)
        | succ k => exact .inl ⟨k, by omega, by simpa using h1, fun m hm => by simpa using h2 (m + 1) (by omega)⟩
      · have ho : o ≠ some n := fun e => h1 (by simp [e])
        refine .inr ⟨fun hm => h1 (List.mem_cons_of_mem _ hm), ?_⟩
        cases o with
        | none => exact h2
        | some m => rw [PyDict.get_set, if_neg (fun e => ho (by rw [e]))]; exact h2

/-- The last position of the name. -/
theorem attmap_position (n : Str) (l : List (Option Str)) (i : Nat) : PyDict.get n (inputAttmap [] 0 l) = some i ↔ l[i]? = some (some n) ∧ ∀ j, i < j → l[j]? ≠ some (some n) := by
  rw [attmap_get]
  constructor
  · rintro (⟨k, rfl, h⟩ | ⟨_, h⟩)
    · rw [Nat.zero_add]; exact h
    · cases h
  · intro h
    exact .inl ⟨i, by omega, h⟩

/-- **C61 (object).** If the server answers the preparation of the text without an error, the object has the statement that was prepared with it (C60), the position of each name of a parameter, and calls will be treated as the catalog says: one row or a set, a row type or not. -/
theorem C61_made {ν α β : Type} [DecidableEq ν] {env : TypeIo.Env} {nm : Nat → Str × Str} {fuel : Nat} {T : Typio Str ν α β} {id q : Bytes} {k k' : Known} {tup : ProcTup} {description : List Str} {bs : List Batch} {types columns packs unpacks} {names : List ν}
    (hr : resolveAll env nm fuel k tup.argtypes = (.ok (), k')) (he : T.encodeText (textOf k' tup description) = .ok q) (ha : Answered (prepareCommands id (some q)) bs) (hd : Describes (allMsgs bs) types (some columns))
    (hn : Needs T types columns packs unpacks names) :
    ∃ p, construct env nm fuel T id k (some tup) description bs = (prepareCommands id (some q), .made p, k') ∧ Made T id types (some columns) packs unpacks names p.statement ∧ p.srf = tup.retset ∧ p.composite = tup.composite ∧
      ∀ n i, PyDict.get n p.attmap = some i ↔ tup.argnames[i]? = some (some n) ∧ ∀ j, i < j → tup.argnames[j]? ≠ some (some n) := by
  have he' : encoded T (some (textOf k' tup description)) = .ok (some q) := by show (T.encodeText _).map some = _; rw [he]; rfl
  obtain ⟨s, h1, hm⟩ := C60_prepared (columns := some columns) he' ha hd hn
  refine ⟨⟨s, inputAttmap [] 0 tup.argnames, tup.retset, tup.composite⟩, ?_, hm, rfl, rfl, fun n i => ?_⟩
  · unfold construct
    dsimp only
    rw [hr]
    dsimp only
    rw [h1]
  · exact attmap_position n tup.argnames i

/-- **C61 (errors).** If a type cannot be resolved nothing is prepared; if preparing raises, so does making the object. -/
theorem C61_construct_raises {ν α β : Type} [DecidableEq ν] {env : TypeIo.Env} {nm : Nat → Str × Str} {fuel : Nat} {T : Typio Str ν α β} {id : Bytes} {k k' : Known} {tup : ProcTup} {description : List Str} {bs : List Batch} :
    (∀ e, resolveAll env nm fuel k tup.argtypes = (.error e, k') → construct env nm fuel T id k (some tup) description bs = ([], .raised, k')) ∧
    (∀ cs, resolveAll env nm fuel k tup.argtypes = (.ok (), k') → prepare T id (some (textOf k' tup description)) bs = (cs, .raised) → construct env nm fuel T id k (some tup) description bs = (cs, .raised, k')) := by
  constructor
  · intro e h
    unfold construct
    dsimp only
    rw [h]
  · intro cs h h1
    unfold construct
    dsimp only
    rw [h]
    dsimp only
    rw [h1]

/-! ## Calls -/

set_option linter.unusedSectionVars false
variable {ν α β : Type} [DecidableEq ν] [DecidableEq α] {T : Typio Str ν α β} {id : Bytes} {types : List Int} {columns : List ColDesc} {packs : List (α → Except Err Bytes)} {unpacks : List ((Bytes → Except Err β) × Bytes)} {names : List ν}
  {p : Proc' (Prepared ν α β)} {args : List (Option α)} {ps : List (Option Bytes)} {bs : List Batch}

theorem call_rows {rs : List (List (Option β))} (hm : Made T id types (some columns) packs unpacks names p.statement) (hp : Decoded packs args ps)
    (ha : Answered (callCommands id (types.map fun _ => [0, 1]) ps (unpacks.map Prod.snd)) bs) (hcopy : ∀ x ∈ allMsgs bs, x.1 ≠ 72 ∧ x.1 ≠ 100) (hr : AllDecoded (unpacks.map Prod.fst) (tuplesOf (allMsgs bs)) rs) :
    Procedure.call p args [] bs = (callCommands id (types.map fun _ => [0, 1]) ps (unpacks.map Prod.snd), firstOf' p.composite (.rows rs)) := by
  unfold Procedure.call keywords
  rw [if_pos rfl]
  dsimp only
  unfold callPrepared
  rw [hm.id, hm.inputIo, hm.inputFormats, hm.outputIo, hm.outputFormats]
  rw [show (some columns).map (fun _ => unpacks.map Prod.fst) = some (unpacks.map Prod.fst) from rfl, C58_call_rows hp ha hcopy hr]

/-- **C61 (row).** A function that returns a row, called with positional arguments: the packed arguments are sent, and the first row of the reply is returned, every column decoded. -/
theorem C61_call_row {r : List (Option β)} {rs : List (List (Option β))} (hm : Made T id types (some columns) packs unpacks names p.statement) (hp : Decoded packs args ps)
    (ha : Answered (callCommands id (types.map fun _ => [0, 1]) ps (unpacks.map Prod.snd)) bs) (hcopy : ∀ x ∈ allMsgs bs, x.1 ≠ 72 ∧ x.1 ≠ 100) (hr : AllDecoded (unpacks.map Prod.fst) (tuplesOf (allMsgs bs)) (r :: rs))
    (hc : p.composite = true) : Procedure.call p args [] bs = (callCommands id (types.map fun _ => [0, 1]) ps (unpacks.map Prod.snd), .row r) := by
  rw [call_rows hm hp ha hcopy hr, hc]
  rfl

/-- **C61 (value).** A function that returns a value: the value of the first column of the first row is returned, `None` if it is NULL. -/
theorem C61_call_value {v : Option β} {r : List (Option β)} {rs : List (List (Option β))} (hm : Made T id types (some columns) packs unpacks names p.statement) (hp : Decoded packs args ps)
    (ha : Answered (callCommands id (types.map fun _ => [0, 1]) ps (unpacks.map Prod.snd)) bs) (hcopy : ∀ x ∈ allMsgs bs, x.1 ≠ 72 ∧ x.1 ≠ 100) (hr : AllDecoded (unpacks.map Prod.fst) (tuplesOf (allMsgs bs)) ((v :: r) :: rs))
    (hc : p.composite = false) : Procedure.call p args [] bs = (callCommands id (types.map fun _ => [0, 1]) ps (unpacks.map Prod.snd), .value v) := by
  rw [call_rows hm hp ha hcopy hr, hc]
  rfl

/-- **C61 (no row).** If there is no row, IndexError is raised. -/
theorem C61_call_no_row (hm : Made T id types (some columns) packs unpacks names p.statement) (hp : Decoded packs args ps)
    (ha : Answered (callCommands id (types.map fun _ => [0, 1]) ps (unpacks.map Prod.snd)) bs) (hcopy : ∀ x ∈ allMsgs bs, x.1 ≠ 72 ∧ x.1 ≠ 100) (hr : tuplesOf (allMsgs bs) = []) :
    Procedure.call p args [] bs = (callCommands id (types.map fun _ => [0, 1]) ps (unpacks.map Prod.snd), .indexError) := by
  rw [call_rows (rs := []) hm hp ha hcopy (by rw [hr]; exact .nil)]
  cases p.composite <;> rfl

/-- **C61 (no invention).** What a call returns is of the reply: it was called without keywords, the statement gave rows, and it is the first one, or the first column of it. -/
theorem C61_call_sound {cs : List Elem} {kw : List (Str × Option α)} :
    (∀ r, Procedure.call p args kw bs = (cs, .row r) → kw = [] ∧ p.composite = true ∧ ∃ rs, callPrepared p.statement args bs = (cs, .rows (r :: rs))) ∧
    (∀ v, Procedure.call p args kw bs = (cs, .value v) → kw = [] ∧ p.composite = false ∧ ∃ r rs, callPrepared p.statement args bs = (cs, .rows ((v :: r) :: rs))) := by
  have key : ∀ x, Procedure.call p args kw bs = (cs, x) → (∃ r, x = .row r) ∨ (∃ v, x = .value v) → kw = [] ∧ ∃ rs, callPrepared p.statement args bs = (cs, .rows rs) ∧ firstOf' p.composite (.rows rs) = x := by
    intro x h hx
    unfold Procedure.call keywords at h
    by_cases hk : kw = []
    · refine ⟨hk, ?_⟩
      rw [if_pos hk] at h
      dsimp only at h
      generalize callPrepared p.statement args bs = y at h
      obtain ⟨cs', y⟩ := y
      injection h with h1 h2
      subst h1
      cases y with
      | rows rs => exact ⟨rs, rfl, h2⟩
      | command => subst h2; rcases hx with ⟨r, hx⟩ | ⟨r, hx⟩ <;> cases hx
      | lines l => cases l <;> (subst h2; rcases hx with ⟨r, hx⟩ | ⟨r, hx⟩ <;> cases hx)
      | raised => subst h2; rcases hx with ⟨r, hx⟩ | ⟨r, hx⟩ <;> cases hx
      | blocked => subst h2; rcases hx with ⟨r, hx⟩ | ⟨r, hx⟩ <;> cases hx
    · exfalso
      rw [if_neg hk] at h
      split at h
      · rename_i e
        split at e
        · injection e with e; subst e; injection h with h1 h2; subst h2; rcases hx with ⟨r, hx⟩ | ⟨r, hx⟩ <;> cases hx
        · injection e with e; subst e; injection h with h1 h2; subst h2; rcases hx with ⟨r, hx⟩ | ⟨r, hx⟩ <;> cases hx
      · rename_i e
        split at e <;> cases e
  constructor
  · intro r h
    obtain ⟨hk, rs, h1, h2⟩ := key _ h (.inl ⟨r, rfl⟩)
    cases rs with
    | nil => cases h2
    | cons r' rs =>
      cases hc : p.composite with
      | true => rw [hc] at h2; injection h2 with h2; subst h2; exact ⟨hk, rfl, rs, h1⟩
      | false => rw [hc] at h2; cases r' <;> cases h2
  · intro v h
    obtain ⟨hk, rs, h1, h2⟩ := key _ h (.inr ⟨v, rfl⟩)
    cases rs with
    | nil => cases h2
    | cons r' rs =>
      cases hc : p.composite with
      | true => rw [hc] at h2; cases h2
      | false =>
        rw [hc] at h2
        cases r' with
        | nil => cases h2
        | cons v' r' => injection h2 with h2; subst h2; exact ⟨hk, rfl, r', rs, h1⟩

/-- An item of the iterator for a row. -/
inductive Gives (composite : Bool) : List (Option β) → Item β → Prop
  | row {r} : composite = true → Gives composite r (.row r)
  | value {v r} : composite = false → Gives composite (v :: r) (.value v)

/-- **C61 (set).** A function that returns a set: the iterator gives every row that the server has, in order, or its first column, and ends; in a transaction block or not; whatever statements are executed in between. -/
theorem C61_set {rs : List (List (Option β))} {items : List (Item β)} (hm : Made T id types (some columns) packs unpacks names p.statement) (inBlock : Bool) (portal : Portal (List (Option Bytes))) (hpf : portal.fails = false)
    (hr : AllDecoded (unpacks.map Prod.fst) portal.rows rs) (hi : Each (Gives p.composite) rs items) (sched : List Between) (hs : ∀ t ∈ sched, t ≠ .failing) (hl : portal.rows.length < sched.length) :
    callSet p inBlock portal sched = (items, .stop) := by
  have h : portal.rows.mapM (item p.composite (p.statement.outputIo.getD [])) = some items := by
    rw [hm.outputIo]
    show portal.rows.mapM (item p.composite (unpacks.map Prod.fst)) = some items
    clear hl
    generalize portal.rows = l at hr
    induction hr generalizing items with
    | nil => cases hi; rfl
    | cons hd _ ih =>
      cases hi with
      | cons h1 h2 =>
        rw [List.mapM_cons, ih h2]
        unfold item
        rw [processTuple_decoded hd]
        cases h1 with
        | row hc => rw [hc]; rfl
        | value hc => rw [hc]; rfl
  obtain ⟨a, b, _⟩ := Fetch.C42_stream (wayOf inBlock) portal hpf (c := chunksize) (by decide) _ items h sched hs hl
  unfold callSet
  dsimp only
  rw [a, b]

/-! ## Keywords -/

/-- **C61 (keywords).** A call with keywords raises before anything is sent: NameError if all are names of parameters, AttributeError if one is not (not TypeError, as is meant). -/
theorem C61_keywords_raise {kw : List (Str × Option α)} (h : kw ≠ []) : Procedure.call p args kw bs = ([], .nameError) ∧ (∀ e ∈ kw, (PyDict.get e.1 p.attmap).isSome = true) ∨
    Procedure.call p args kw bs = ([], .attributeError) ∧ ∃ e ∈ kw, PyDict.get e.1 p.attmap = none := by
  unfold Procedure.call keywords
  rw [if_neg h]
  by_cases hk : kw.all (fun e => (PyDict.get e.1 p.attmap).isSome) = true
  · rw [if_pos hk]
    exact .inl ⟨rfl, by simpa using hk⟩
  · rw [if_neg hk]
    refine .inr ⟨rfl, ?_⟩
    simpa using hk

theorem firstOf_no_names (c : Bool) (x : Called β) : firstOf' c x ≠ .nameError ∧ firstOf' c x ≠ .attributeError := by
  cases x with
  | rows l => cases l with
    | nil => exact ⟨by simp [firstOf'], by simp [firstOf']⟩
    | cons r l => cases c <;> cases r <;> exact ⟨by simp [firstOf'], by simp [firstOf']⟩
  | lines l => cases l <;> exact ⟨by simp [firstOf'], by simp [firstOf']⟩
  | _ => exact ⟨by simp [firstOf'], by simp [firstOf']⟩

/-- **C61 (keywords, the property fails).** No call with keywords does what the call does that has the same arguments in their places. -/
theorem C61_keywords_never {kw : List (Str × Option α)} (h : kw ≠ []) (l : List (Option α)) (_ : bound (fun n => PyDict.get n p.attmap) args kw l) : (Procedure.call p args kw bs).2 ≠ (Procedure.call p l [] bs).2 := by
  have h1 : (Procedure.call p l [] bs).2 = firstOf' p.composite (callPrepared p.statement l bs).2 := by
    unfold Procedure.call keywords
    rw [if_pos rfl]
  rw [h1]
  obtain ⟨n1, n2⟩ := firstOf_no_names p.composite (callPrepared p.statement l bs).2
  rcases C61_keywords_raise (p := p) (args := args) (bs := bs) h with ⟨e, _⟩ | ⟨e, _⟩
  · rw [e]; exact n1.symm
  · rw [e]; exact n2.symm

/-! ## Non-vacuity -/

/-- As in the examples of C60, with texts; every text is encoded as `q`. -/
def procT : Typio Str Bytes UInt8 UInt8 := { demoT with encodeText := fun _ => .ok [113] }

theorem proc_needs : Needs procT [23] [col 97 23, col 98 25] [packByte] [(oneByte, [0, 1]), (demoT.decode, [0, 0])] [[97], [98]] :=
  ⟨.cons (.own (by rfl)) .nil, .cons (.own (by rfl)) (.cons (.other (by rfl)) .nil), .cons rfl (.cons rfl .nil)⟩

/-- `f(x integer)`. -/
def rowProc (composite : Bool) : ProcTup := ⟨"f".toList, [some "x".toList], [23], false, composite⟩

theorem proc_made (composite : Bool) : ∃ p, construct demoEnv demoName 3 procT [115] Known.initial (some (rowProc composite)) [] prepWire = (prepareCommands [115] (some [113]), .made p, (resolveAll demoEnv demoName 3 Known.initial [23]).2) ∧
    Made procT [115] [23] (some [col 97 23, col 98 25]) [packByte] [(oneByte, [0, 1]), (demoT.decode, [0, 0])] [[97], [98]] p.statement ∧ p.composite = composite ∧ PyDict.get "x".toList p.attmap = some 0 := by
  obtain ⟨p, h1, h2, _, h3, h4⟩ := C61_made (env := demoEnv) (nm := demoName) (fuel := 3) (T := procT) (id := [115]) (k := Known.initial) (tup := rowProc composite) (description := []) (bs := prepWire) (q := [113]) rfl rfl prep_demo prep_describes proc_needs
  refine ⟨p, h1, h2, h3, (h4 _ _).2 ⟨rfl, fun j hj => ?_⟩⟩
  obtain ⟨j', rfl⟩ : ∃ j', j = j' + 1 := ⟨j - 1, by omega⟩
  intro e
  cases e

theorem demo_decoded : AllDecoded ([(oneByte, [0, 1]), (demoT.decode, [0, 0])].map Prod.fst) (tuplesOf (allMsgs rowsWire)) [[some 7, some 8]] := by
  rw [show tuplesOf (allMsgs rowsWire) = [[some [7], some [8]]] by decide]
  exact .cons (.value rfl (.value rfl .nil)) .nil

example : ∃ p : Proc' (Prepared Bytes UInt8 UInt8), p.composite = true ∧ (Procedure.call p [some 5] [] rowsWire).2 = .row [some 7, some 8] := by
  obtain ⟨p, _, hm, hc, _⟩ := proc_made true
  exact ⟨p, hc, by rw [C61_call_row hm (.value rfl .nil) (rows_demo _) (by decide) demo_decoded hc]⟩

example : ∃ p : Proc' (Prepared Bytes UInt8 UInt8), p.composite = false ∧ (Procedure.call p [some 5] [] rowsWire).2 = .value (some 7) ∧ (Procedure.call p [] [("x".toList, some 5)] rowsWire).2 ≠ (Procedure.call p [some 5] [] rowsWire).2 := by
  obtain ⟨p, _, hm, hc, hx⟩ := proc_made false
  refine ⟨p, hc, by rw [C61_call_value hm (.value rfl .nil) (rows_demo _) (by decide) demo_decoded hc], C61_keywords_never (by simp) [some 5] ?_⟩
  refine ⟨rfl, ?_, [], rfl, .nil, by simp, rfl⟩
  intro e he
  rw [List.mem_singleton] at he
  subst he
  exact ⟨0, hx, rfl⟩

/-- A set of three rows, in a block, with other statements in between. -/
example : ∃ p : Proc' (Prepared Bytes UInt8 UInt8), callSet p true ⟨[[some [1], some [2]], [none, some [4]], [some [5], none]], false, none, 0⟩ (List.replicate 4 .statement) = ([.value (some 1), .value none, .value (some 5)], .stop) := by
  obtain ⟨p, _, hm, hc, _⟩ := proc_made false
  refine ⟨p, C61_set (rs := [[some 1, some 2], [none, some 4], [some 5, none]]) hm true _ rfl ?_ (.cons (.value hc) (.cons (.value hc) (.cons (.value hc) .nil))) _ (by decide) (by decide)⟩
  exact AllDecoded.cons (.value (d := [1]) (v := 1) rfl (.value (d := [2]) (v := 2) rfl .nil)) (.cons (.null (.value (d := [4]) (v := 4) rfl .nil)) (.cons (.value (d := [5]) (v := 5) rfl (.null .nil)) .nil))

end PG.Props.Procedure
