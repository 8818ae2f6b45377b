import Verif.Model.DbApiMany
import Verif.Spec.DbApiMany
import Verif.Props.LoadRows
import Verif.Props.DbApiParams
import Verif.Proofs.Statement
/-!
# C82: `executemany`, `rowcount`, `description` and the constructors of the DB-API
-/
namespace PG.DbApi
open PG PG.Spec.DbApiMany PG.LoadRows PG.Spec.LoadRows

/-- Executing with the parameters of a list, one `execute` after the other; `none` if one raises. -/
def oneByOne {σ α π : Type} (U : Unicode) (prepare : Str → Option (Prepared σ α π)) (statement : Str) (s : σ) (parameters : List (Params α)) : Option σ :=
  parameters.foldlM (executeOn U prepare statement) s

theorem executeArgs_parts {α : Type} {U : Unicode} {st : Str} {p : Params α} {x : Str × List α} (h : executeArgs U st p = .ok x) :
    ∃ tr n, convertQuery U st = .ok (x.1, tr, n) ∧ transform tr p = .ok x.2 := by
  unfold executeArgs at h
  cases hc : convertQuery U st with
  | error e => rw [hc] at h; cases h
  | ok c =>
    obtain ⟨sql, tr, n⟩ := c
    rw [hc] at h
    simp only [bind, Except.bind] at h
    by_cases hl : p.len ≠ n
    · rw [if_pos hl] at h; cases h
    · rw [if_neg hl] at h
      cases ht : transform tr p with
      | error e => rw [ht] at h; cases h
      | ok a => rw [ht] at h; cases h; exact ⟨tr, n, rfl, ht⟩

theorem executeOn_ok {σ α π : Type} {U : Unicode} {prepare : Str → Option (Prepared σ α π)} {st sql : Str} {tr : Transformer} {n : Nat} {ps : Prepared σ α π} {p : Params α}
    (hc : convertQuery U st = .ok (sql, tr, n)) (hps : prepare sql = some ps) {x : Str × List α} (h : executeArgs U st p = .ok x) (s : σ) :
    executeOn U prepare st s p = ps.run s x.2 ∧ transform tr p = .ok x.2 := by
  obtain ⟨tr', n', h1, h2⟩ := executeArgs_parts h
  obtain ⟨x1, x2⟩ := x
  rw [hc] at h1
  cases h1
  refine ⟨?_, h2⟩
  unfold executeOn
  rw [h]
  dsimp only
  rw [hps]

theorem run_after {σ α π : Type} (ps : Prepared σ α π) (s : σ) (r : List α) (rs : List (List α)) :
    after ps.exec ps.packRow s (r :: rs) = (ps.run s r).bind fun s => after ps.exec ps.packRow s rs := by
  rw [after, Prepared.run]
  cases ps.packRow r with
  | none => rfl
  | some p => dsimp only; cases ps.exec s p <;> rfl

/-- All accepted: the rows, and none raises. -/
theorem mapped_all {σ α π : Type} {U : Unicode} {prepare : Str → Option (Prepared σ α π)} {st sql : Str} {tr : Transformer} {n : Nat} {ps : Prepared σ α π}
    (hc : convertQuery U st = .ok (sql, tr, n)) (hps : prepare sql = some ps) : ∀ (params : List (Params α)) (s : σ), (∀ p ∈ params, ∃ x, executeArgs U st p = .ok x) →
    (mapped tr params).2 = false ∧ oneByOne U prepare st s params = after ps.exec ps.packRow s (mapped tr params).1
  | [], s, _ => ⟨rfl, rfl⟩
  | p :: params, s, h => by
    obtain ⟨x, hx⟩ := h p List.mem_cons_self
    obtain ⟨h1, h2⟩ := executeOn_ok hc hps hx s
    unfold mapped
    rw [h2]
    dsimp only
    rw [run_after]
    refine ⟨(mapped_all hc hps params s fun q hq => h q (List.mem_cons_of_mem _ hq)).1, ?_⟩
    show (p :: params).foldlM _ s = _
    rw [List.foldlM_cons, h1]
    cases ps.run s x.2 with
    | none => rfl
    | some s' => exact (mapped_all hc hps params s' fun q hq => h q (List.mem_cons_of_mem _ hq)).2

/-- Some of the first of them: the first rows come from the first parameters. -/
theorem mapped_take {α : Type} {tr : Transformer} : ∀ (params : List (Params α)) (k : Nat), k ≤ (mapped tr params).1.length → (mapped tr (params.take k)).1 = (mapped tr params).1.take k
  | [], k, h => by simp [mapped]
  | p :: params, 0, h => by simp [mapped]
  | p :: params, k + 1, h => by
    rw [List.take_succ_cons]
    unfold mapped at h ⊢
    cases ht : transform tr p with
    | error e => rw [ht] at h; simp at h
    | ok r =>
      rw [ht] at h
      dsimp only
      rw [List.take_succ_cons, mapped_take params k (by simpa using h)]

theorem mapped_le {α : Type} {tr : Transformer} : ∀ (params : List (Params α)), (mapped tr params).1.length ≤ params.length
  | [] => Nat.le_refl _
  | p :: params => by
    unfold mapped
    cases transform tr p with
    | error e => exact Nat.zero_le _
    | ok r => exact Nat.succ_le_succ (mapped_le params)

/-- The setting: an idle connection whose transaction, if any, is in order. -/
def Ready {σ π : Type} (db : Db σ π) : Prop := db.pending = none ∧ db.aborted = false

theorem executemany_ready {σ α π : Type} {U : Unicode} {prepare : Str → Option (Prepared σ α π)} {st sql : Str} {tr : Transformer} {n : Nat} {ps : Prepared σ α π}
    (hc : convertQuery U st = .ok (sql, tr, n)) (hps : prepare sql = some ps) {db : Db σ π} (hr : Ready db) (params : List (Params α)) (fails : Bool) :
    executemany U prepare db st params fails =
      loadRows ps.exec (fun s => ps.run s []) ps.packRow ps.arity db (mapped tr params).1 ((mapped tr params).2 || fails) 256 := by
  unfold executemany
  rw [hc]
  dsimp only
  rw [hr.2, if_neg (by simp), hps]

/-- What is needed for it to return. -/
theorem executemany_true {σ α π : Type} {U : Unicode} {prepare : Str → Option (Prepared σ α π)} {st : Str} {db : Db σ π} (hr : Ready db) {params : List (Params α)} {fails : Bool}
    (h : (executemany U prepare db st params fails).1 = true) : ∃ sql tr n ps, convertQuery U st = .ok (sql, tr, n) ∧ prepare sql = some ps ∧ 0 < ps.arity := by
  unfold executemany at h
  cases hc : convertQuery U st with
  | error e => rw [hc] at h; cases h
  | ok c =>
    obtain ⟨sql, tr, n⟩ := c
    rw [hc] at h
    dsimp only at h
    rw [hr.2, if_neg (by simp)] at h
    cases hps : prepare sql with
    | none => rw [hps] at h; cases h
    | some ps =>
      rw [hps] at h
      refine ⟨sql, tr, n, ps, rfl, hps, ?_⟩
      by_cases hz : ps.arity = 0
      · dsimp only at h
        rw [hz] at h
        unfold loadRows loadChunks loadNoCopy at h
        rw [if_pos rfl] at h
        split at h
        · cases h
        · split at h <;> cases h
      · omega

/-- **C82** `executemany` that returns has done what one `execute` after the other does with each of the parameters, all of which were given; as far as `execute` takes each of them (see
`C82_extra_keys` for what else `executemany` takes). -/
theorem C82_executemany_partial {σ α π : Type} (U : Unicode) (prepare : Str → Option (Prepared σ α π)) (statement : Str) (db : Db σ π) (hr : Ready db) (params : List (Params α)) (fails : Bool)
    (hok : ∀ p ∈ params, ∃ x, executeArgs U statement p = .ok x) (h : (executemany U prepare db statement params fails).1 = true) :
    oneByOne U prepare statement db.state params = some (executemany U prepare db statement params fails).2.state ∧
    Ready (executemany U prepare db statement params fails).2 ∧ (executemany U prepare db statement params fails).2.block = db.block ∧ fails = false := by
  obtain ⟨sql, tr, n, ps, hc, hps, har⟩ := executemany_true hr h
  obtain ⟨h1, h2⟩ := mapped_all hc hps params db.state hok
  rw [executemany_ready hc hps hr] at h ⊢
  rw [h2]
  rw [h1, Bool.false_or] at h ⊢
  obtain ⟨g1, g2, g3⟩ := C51_load_rows ps.exec (fun s => ps.run s []) ps.packRow har db hr.1 hr.2 _ fails (by decide) h
  have hch := C51_load_chunks ps.exec ps.packRow fails (chunkOf (mapped tr params).1 fails 256) db hr.1 hr.2
  have hld : loadRows ps.exec (fun s => ps.run s []) ps.packRow ps.arity db (mapped tr params).1 fails 256 = loadTuples ps.exec ps.packRow fails db (chunkOf (mapped tr params).1 fails 256) := by
    unfold loadRows loadChunks
    rw [if_neg (by omega)]
  refine ⟨g1, ⟨?_, g2⟩, ?_, g3⟩
  · rw [hld]; exact hch.2.2.2.2.2
  · rw [hld]; exact hch.2.2.2.2.1

/-- And if one `execute` after the other succeeds with all of them, `executemany` returns, given that the statement has parameters at all. -/
theorem C82_executemany_returns {σ α π : Type} (U : Unicode) (prepare : Str → Option (Prepared σ α π)) (statement : Str) (db : Db σ π) (hr : Ready db) (params : List (Params α)) (s : σ)
    (hex : ∃ sql tr n ps, convertQuery U statement = .ok (sql, tr, n) ∧ prepare sql = some ps ∧ 0 < ps.arity) (h : oneByOne U prepare statement db.state params = some s) :
    (executemany U prepare db statement params false).1 = true ∧ (executemany U prepare db statement params false).2.state = s := by
  have hok : ∀ (params : List (Params α)) (s0 : σ), oneByOne U prepare statement s0 params = some s → ∀ p ∈ params, ∃ x, executeArgs U statement p = .ok x := by
    intro params
    induction params with
    | nil => intro _ _ p hp; cases hp
    | cons q params ih =>
      intro s0 h p hp
      unfold oneByOne at h
      rw [List.foldlM_cons] at h
      cases hq : executeOn U prepare statement s0 q with
      | none => rw [hq] at h; cases h
      | some s1 =>
        rw [hq] at h
        cases hp with
        | head =>
          unfold executeOn at hq
          cases hx : executeArgs U statement q with
          | error e => rw [hx] at hq; cases hq
          | ok x => exact ⟨x, rfl⟩
        | tail _ hp => exact ih s1 h p hp
  have hall := hok params db.state h
  obtain ⟨sql, tr, n, ps, hc, hps, har⟩ := hex
  obtain ⟨h1, h2⟩ := mapped_all hc hps params db.state hall
  have hret : (executemany U prepare db statement params false).1 = true := by
    rw [executemany_ready hc hps hr, h1]
    exact C51_load_rows_succeeds ps.exec _ ps.packRow har db hr.1 hr.2 _ (by decide) s (h2 ▸ h)
  refine ⟨hret, ?_⟩
  have := (C82_executemany_partial U prepare statement db hr params false hall hret).1
  rw [h] at this
  exact (Option.some.inj this).symm

/-- Outside a transaction block (autocommit) what stays of an `executemany` that raises is what one `execute` after the other does with the first parameters, a multiple of 256 of them or all. -/
theorem C82_executemany_prefix {σ α π : Type} (U : Unicode) (prepare : Str → Option (Prepared σ α π)) (statement : Str) (db : Db σ π) (hr : Ready db) (hb : db.block = false) (params : List (Params α)) (fails : Bool)
    (hok : ∀ p ∈ params, ∃ x, executeArgs U statement p = .ok x) (hex : ∃ sql tr n ps, convertQuery U statement = .ok (sql, tr, n) ∧ prepare sql = some ps ∧ 0 < ps.arity) :
    ∃ j, oneByOne U prepare statement db.state (params.take (j * 256)) = some (executemany U prepare db statement params fails).2.state := by
  obtain ⟨sql, tr, n, ps, hc, hps, har⟩ := hex
  obtain ⟨h1, h2⟩ := mapped_all hc hps params db.state hok
  rw [executemany_ready hc hps hr]
  obtain ⟨j, hj⟩ := C51_load_rows_partially ps.exec (fun s => ps.run s []) ps.packRow har db hr.1 hr.2 hb (mapped tr params).1 ((mapped tr params).2 || fails) (n := 256) (by decide)
  refine ⟨j, ?_⟩
  rw [← hj]
  have hlen : ∀ (params : List (Params α)), (∀ p ∈ params, ∃ x, executeArgs U statement p = .ok x) → (mapped tr params).1.length = params.length := by
    intro params
    induction params with
    | nil => intro _; rfl
    | cons p params ih =>
      intro h
      obtain ⟨x, hx⟩ := h p List.mem_cons_self
      have ht := (executeOn_ok hc hps hx db.state).2
      unfold mapped
      rw [ht]
      exact congrArg Nat.succ (ih fun q hq => h q (List.mem_cons_of_mem _ hq))
  rw [(mapped_all hc hps (params.take (j * 256)) db.state fun p hp => hok p (List.mem_of_mem_take hp)).2]
  by_cases hle : j * 256 ≤ (mapped tr params).1.length
  · rw [mapped_take _ _ hle]
  · rw [List.take_of_length_le (by have := hlen params hok; omega), List.take_of_length_le (by omega)]

/-- A statement without markers is executed once by `executemany`, whatever the parameters and be there none, and then it raises; what it did stays. -/
theorem C82_no_parameters {σ α π : Type} (U : Unicode) (prepare : Str → Option (Prepared σ α π)) (statement : Str) (db : Db σ π) (hr : Ready db) (params : List (Params α)) (fails : Bool)
    {sql : Str} {tr : Transformer} {n : Nat} {ps : Prepared σ α π} (hc : convertQuery U statement = .ok (sql, tr, n)) (hps : prepare sql = some ps) (har : ps.arity = 0) {s : σ}
    (h : ps.run db.state [] = some s) : executemany U prepare db statement params fails = (false, { db with state := s }) := by
  rw [executemany_ready hc hps hr, har]
  exact C51_no_parameters ps.exec (fun s => ps.run s []) ps.packRow db hr.2 _ _ _ s h

/-- A parameter set that cannot be transformed (a key is missing, a sequence for named markers): `executemany` raises. -/
theorem C82_refused {σ α π : Type} (U : Unicode) (prepare : Str → Option (Prepared σ α π)) (statement : Str) (db : Db σ π) (hr : Ready db) (params : List (Params α)) (fails : Bool)
    {sql : Str} {tr : Transformer} {n : Nat} (hc : convertQuery U statement = .ok (sql, tr, n)) (p : Params α) (hp : p ∈ params) (e : Err) (ht : transform tr p = .error e) :
    (executemany U prepare db statement params fails).1 = false := by
  cases hx : (executemany U prepare db statement params fails).1 with
  | false => rfl
  | true =>
    obtain ⟨sql', tr', n', ps, hc', hps, har⟩ := executemany_true hr hx
    rw [hc] at hc'
    cases hc'
    rw [executemany_ready hc hps hr] at hx
    have hm : ∀ params : List (Params α), p ∈ params → (mapped tr params).2 = true := by
      intro params
      induction params with
      | nil => intro hp; cases hp
      | cons q params ih =>
        intro hp
        unfold mapped
        cases hp with
        | head => rw [ht]
        | tail _ hp => cases transform tr q with
          | error e => rfl
          | ok r => exact ih hp
    rw [hm params hp] at hx
    have := (C51_load_rows ps.exec (fun s => ps.run s []) ps.packRow har db hr.1 hr.2 _ _ (by decide) hx).2.2
    cases this

/-- Too many or too few values for the statement: `execute` raises, and `executemany` raises if one of the parameter sets has them. -/
theorem C82_wrong_number {σ α π : Type} (U : Unicode) (prepare : Str → Option (Prepared σ α π)) (statement : Str) (db : Db σ π) (hr : Ready db) (params : List (Params α)) (fails : Bool)
    {sql : Str} {args : List α} {ps : Prepared σ α π} (p : Params α) (hp : p ∈ params) (hx : executeArgs U statement p = .ok (sql, args)) (hps : prepare sql = some ps) (hn : args.length ≠ ps.arity) :
    (∀ s, executeOn U prepare statement s p = none) ∧ (executemany U prepare db statement params fails).1 = false := by
  obtain ⟨tr, n, hc, ht⟩ := executeArgs_parts hx
  dsimp only at hc ht
  have hrun : ∀ s, ps.run s args = none := by
    intro s
    unfold Prepared.run Prepared.packRow
    rw [if_pos hn]
  refine ⟨fun s => by rw [(executeOn_ok hc hps hx s).1]; exact hrun s, ?_⟩
  cases hx : (executemany U prepare db statement params fails).1 with
  | false => rfl
  | true =>
    obtain ⟨sql', tr', n', ps', hc', hps', har⟩ := executemany_true hr hx
    rw [hc] at hc'
    cases hc'
    rw [hps] at hps'
    cases hps'
    rw [executemany_ready hc hps hr] at hx
    obtain ⟨g1, _, g3⟩ := C51_load_rows ps.exec (fun s => ps.run s []) ps.packRow har db hr.1 hr.2 _ _ (by decide) hx
    have key : ∀ (params : List (Params α)) (s : σ), p ∈ params → (mapped tr params).2 = false → after ps.exec ps.packRow s (mapped tr params).1 = none := by
      intro params
      induction params with
      | nil => intro _ hp; cases hp
      | cons q params ih =>
        intro s hp hm
        unfold mapped at hm ⊢
        cases htq : transform tr q with
        | error e => rw [htq] at hm; cases hm
        | ok r =>
          rw [htq] at hm
          dsimp only at hm ⊢
          rw [run_after]
          cases hp with
          | head =>
            rw [ht] at htq
            cases htq
            rw [hrun s]
            rfl
          | tail _ hp =>
            cases ps.run s r with
            | none => rfl
            | some s' => exact ih s' hp hm
    rw [Bool.or_eq_false_iff] at g3
    rw [key params db.state hp g3.1] at g1
    cases g1

/-! ## A concrete server -/

/-- A table of numbers; 13 is refused. -/
def insert1 : Prepared (List Nat) Nat (List Nat) := ⟨1, some, fun s p => if 13 ∈ p then none else some (s ++ p)⟩

/-- It has one statement. -/
def server (sql : Str) : Option (Prepared (List Nat) Nat (List Nat)) :=
  if sql = "INSERT INTO t VALUES ($1)".toList then some insert1 else if sql = "VALUES (7)".toList then some ⟨0, some, fun s _ => some (s ++ [7])⟩ else none

/-- `C82_executemany_partial`, `C82_executemany_returns` and `C82_executemany_prefix` apply. -/
example : Ready (⟨[], true, false, none⟩ : Db (List Nat) (List Nat)) ∧
    (∀ p ∈ [Params.seq [1], Params.seq [2], Params.seq [3]], (executeArgs Unicode.ascii "INSERT INTO t VALUES (%s)".toList p).isOk = true) ∧
    oneByOne Unicode.ascii server "INSERT INTO t VALUES (%s)".toList [] [.seq [1], .seq [2], .seq [3]] = some [1, 2, 3] ∧
    executemany Unicode.ascii server ⟨[], true, false, none⟩ "INSERT INTO t VALUES (%s)".toList [.seq [1], .seq [2], .seq [3]] false = (true, ⟨[1, 2, 3], true, false, none⟩) ∧
    executemany Unicode.ascii server ⟨[], true, false, none⟩ "INSERT INTO t VALUES (%s)".toList [.seq [1], .seq [13], .seq [3]] false = (false, ⟨[], true, true, none⟩) := by
  refine ⟨⟨rfl, rfl⟩, ?_, ?_, ?_, ?_⟩ <;> decide +kernel

/-- `C82_wrong_number` applies: the statement has one parameter. -/
example : executeArgs Unicode.ascii "INSERT INTO t VALUES (%s)".toList (.seq [1]) = .ok ("INSERT INTO t VALUES ($1)".toList, [1]) ∧ (1 : Nat) ≠ 2 ∧
    executemany Unicode.ascii (fun _ => some ⟨2, some, fun s p => some (s ++ p)⟩) ⟨[], false, false, none⟩ "INSERT INTO t VALUES (%s)".toList [.seq [1]] false = (false, ⟨[], false, false, none⟩) := by decide +kernel

/-- `C82_no_parameters` and `C82_refused` apply. -/
example : executemany Unicode.ascii server ⟨[], false, false, none⟩ "VALUES (7)".toList [] false = (false, ⟨[7], false, false, none⟩) ∧
    executemany Unicode.ascii server ⟨[], false, false, none⟩ "INSERT INTO t VALUES (%(a)s)".toList [.map [("b".toList, 1)]] false = (false, ⟨[], false, false, none⟩) := by decide +kernel

/-- What `executemany` takes and `execute` does not: mappings with more keys than the statement names. -/
theorem C82_extra_keys :
    executeOn Unicode.ascii server "INSERT INTO t VALUES (%(a)s)".toList [] (.map [("a".toList, 1), ("b".toList, 2)]) = none ∧
    executemany Unicode.ascii server ⟨[], false, false, none⟩ "INSERT INTO t VALUES (%(a)s)".toList [.map [("a".toList, 1), ("b".toList, 2)]] false = (true, ⟨[1], false, false, none⟩) := by decide +kernel

/-- Not all or nothing in autocommit: 256 rows stay, then it raises. -/
theorem C82_not_atomic : ∃ params : List (Params Nat), (executemany Unicode.ascii server ⟨[], false, false, none⟩ "INSERT INTO t VALUES (%s)".toList params false).1 = false ∧
    (executemany Unicode.ascii server ⟨[], false, false, none⟩ "INSERT INTO t VALUES (%s)".toList params false).2.state.length = 256 :=
  ⟨List.replicate 256 (.seq [1]) ++ [.seq [13]], by decide +kernel⟩

/-! ## Attributes -/

/-- After a statement that gives no rows `rowcount` is the number in its tag, or -1 if it has none, and there is no description. -/
theorem C82_rowcount {d nm : Bytes} {n : Option Nat} (h : PG.Spec.Statement.IsTag d nm n) (decode : Bytes → Str) :
    attrsAfter decode none d = ⟨match n with | some n => n | none => -1, none⟩ := by
  unfold attrsAfter
  dsimp only
  rw [(PG.Statement.tag_read h).2]
  cases n <;> rfl

/-- After a statement that gives rows: -1, and one entry for each column, in the order of the columns, with its name. -/
theorem C82_description (decode : Bytes → Str) (c : Column) (cs : List Column) (tag : Bytes) :
    ∃ l, attrsAfter decode (some (c :: cs)) tag = ⟨-1, some l⟩ ∧ l.length = (c :: cs).length ∧
      ∀ i (hi : i < (c :: cs).length), (l.map Described.name)[i]? = some (decode ((c :: cs)[i]).name) ∧ (l.map Described.code)[i]? = some (dbapiType ((c :: cs)[i]).typid) := by
  refine ⟨_, rfl, by simp, ?_⟩
  intro i hi
  constructor
  · rw [List.map_map, List.getElem?_map, List.getElem?_eq_getElem hi]; rfl
  · rw [List.map_map, List.getElem?_map, List.getElem?_eq_getElem hi]; rfl

/-- The type object of a kind. -/
def typeObject : Kind → ApiType
  | .string => STRING
  | .binary => BINARY
  | .number => NUMBER
  | .datetime => DATETIME
  | .rowid => ROWID

/-- **C82** A type code that is given is the type object of the kind of the type. Missing: it is not given for all types of a kind, see `C82_no_code`. -/
theorem C82_type_code_partial (t : Nat) (a : ApiType) (h : dbapiType t = some a) : ∃ k, (t, k) ∈ kindOf ∧ typeObject k = a := by
  unfold dbapiType at h
  split at h
  · rename_i hm
    cases h
    refine ⟨.string, ?_, rfl⟩
    simp only [List.mem_cons, List.not_mem_nil, or_false] at hm
    rcases hm with rfl | rfl | rfl | rfl | rfl <;> decide
  · split at h
    · rename_i hm; cases h; subst hm; exact ⟨.binary, by decide, rfl⟩
    · split at h
      · rename_i hm
        cases h
        refine ⟨.number, ?_, rfl⟩
        simp only [List.mem_cons, List.not_mem_nil, or_false] at hm
        rcases hm with rfl | rfl | rfl <;> decide
      · split at h
        · rename_i hm
          cases h
          refine ⟨.datetime, ?_, rfl⟩
          simp only [List.mem_cons, List.not_mem_nil, or_false] at hm
          rcases hm with rfl | rfl <;> decide
        · split at h
          · rename_i hm; cases h; subst hm; exact ⟨.rowid, by decide, rfl⟩
          · cases h

/-- Of the types with a kind, these have no type code: real, double precision, numeric, date, time, time with time zone, interval, character. -/
theorem C82_no_code (t : Nat) (k : Kind) (h : (t, k) ∈ kindOf) : dbapiType t = none ↔ t ∈ [700, 701, 1700, 1082, 1083, 1266, 1186, 1042] := by
  have : ∀ x ∈ kindOf, (dbapiType x.1 = none ↔ x.1 ∈ [700, 701, 1700, 1082, 1083, 1266, 1186, 1042]) := by decide
  exact this (t, k) h

example : dbapiType 1700 = none ∧ dbapiType 25 = some STRING := by decide

/-- Numbers and row identifiers cannot be told apart. -/
theorem C82_rowid_is_number : ROWID = NUMBER := rfl

/-- `executemany` leaves the description of the query before it. -/
theorem C82_stale_description (a : Attrs) : (attrsMany a).description = a.description ∧ (attrsMany a).rowcount = -1 := ⟨rfl, rfl⟩

example : ∃ a : Attrs, (attrsMany a).description ≠ none := ⟨⟨1, some []⟩, by decide⟩

example : attrsAfter (fun b => b.map fun x => Char.ofNat x.toNat) (some [⟨[97], 25⟩, ⟨[98], 1700⟩]) [] = ⟨-1, some [⟨['a'], some STRING⟩, ⟨['b'], none⟩]⟩ := by decide

/-! ## Constructors -/

/-- The date and the time of day of the ticks. -/
theorem C82_date_time_ticks (localtime : Int → Tm) (x : Int) :
    dateFromTicks localtime x = [(localtime x).year, (localtime x).mon, (localtime x).mday] ∧ timeFromTicks localtime x = [(localtime x).hour, (localtime x).min, (localtime x).sec] := ⟨rfl, rfl⟩

/-- `TimestampFromTicks` gives the local time of the ticks, in whole seconds, exactly when that is a Monday: otherwise it is off by the number of the day of the week, in microseconds. -/
theorem C82_timestamp_ticks (localtime : Int → Tm) (x : Int) :
    let t := localtime x
    timestampFromTicks localtime x = some ⟨t.year, t.mon, t.mday, t.hour, t.min, t.sec, t.wday⟩ ∧
    (timestampFromTicks localtime x = some ⟨t.year, t.mon, t.mday, t.hour, t.min, t.sec, 0⟩ ↔ t.wday = 0) := by
  refine ⟨rfl, ?_⟩
  show some _ = some _ ↔ _
  simp

/-- `Timestamp` takes a date, and as much of a time of day as is given: what is not given is 0. -/
theorem C82_timestamp (y mo d : Nat) (l : List Nat) : (stampOf (y :: mo :: d :: l) = none ↔ 4 < l.length) ∧
    ∀ s, stampOf (y :: mo :: d :: l) = some s → s = ⟨y, mo, d, l.getD 0 0, l.getD 1 0, l.getD 2 0, l.getD 3 0⟩ := by
  match l with
  | [] => simp [stampOf]
  | [a] => simp [stampOf]
  | [a, b] => simp [stampOf]
  | [a, b, c] => simp [stampOf]
  | [a, b, c, e] => simp [stampOf]
  | a :: b :: c :: e :: f :: r => simp [stampOf]

/-- The epoch was a Thursday. -/
example : timestampFromTicks (fun _ => ⟨1970, 1, 1, 0, 0, 0, 3, 1, 0⟩) 0 = some ⟨1970, 1, 1, 0, 0, 0, 3⟩ := rfl

end PG.DbApi
