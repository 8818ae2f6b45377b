import Verif.Model.PyDict
import Verif.Model.PgString
/-!
# Model of `Settings` and `SettingsCM` in `postgresql/driver/pq3.py`

The server is what PostgreSQL documents for run-time parameters, as far as the queries of `lib/libsys.sql` see it. A statement that fails changes nothing; that it also makes the transaction block fail is not
modelled here (see `Model/Transaction`). A ParameterStatus message is sent for each reported parameter that has changed and arrives before the statement that changed it completes. Callbacks do not raise.
-/
namespace PG.Settings
open PG

/-- The parameters of a server. -/
structure Guc where
  /-- all of them, under their own names -/
  names : List Str
  /-- the own name of a parameter named in any letter case -/
  fold : Str → Option Str
  /-- what a value given as text is shown as; `none` when it is not accepted -/
  canon : Str → Str → Option Str
  /-- what `pg_settings.setting` has for it (there values have no units) -/
  plain : Str → Str → Str
  /-- GUC_REPORT -/
  reported : Str → Bool
  /-- what RESET goes back to -/
  reset : Str → Str

/-- The values in the session, and what they go back to when the transaction is rolled back. -/
structure Server where
  vals : Str → Str
  saved : Option (Str → Str)

/-- The values with one changed. -/
def put (k v : Str) (vals : Str → Str) : Str → Str := fun x => if x = k then v else vals x

/-- `set_config(name, value, false)` (lib/libsys.sql:133-134). -/
def setConfig (g : Guc) (vals : Str → Str) (name v : Str) : Option (Str × (Str → Str)) :=
  match g.fold name with
  | none => none
  | some k =>
    match g.canon k v with
    | none => none
    | some c => some (c, put k c vals)

/-- lib/libsys.sql:154-159 `setting_update`: the rows, or an error and no change. -/
def setConfigs (g : Guc) (vals : Str → Str) : List (Str × Str) → Option (List (Str × Str) × (Str → Str))
  | [] => some ([], vals)
  | (k, v) :: l =>
    match setConfig g vals k v with
    | none => none
    | some (c, vals) =>
      match setConfigs g vals l with
      | none => none
      | some (rows, vals) => some ((k, c) :: rows, vals)

/-- lib/libsys.sql:130-131 `setting_get`. -/
def settingGet (g : Guc) (vals : Str → Str) (k : Str) : Option Str := if k ∈ g.names then some (g.plain k (vals k)) else none

/-- lib/libsys.sql:142-143 `setting_mget`. -/
def settingMget (g : Guc) (vals : Str → Str) (ks : List Str) : List (Str × Str) := (g.names.filter fun k => k ∈ ks).map fun k => (k, g.plain k (vals k))

/-- ParameterStatus messages: the reported parameters that have changed. -/
def reports (g : Guc) (before after : Str → Str) : List (Str × Str) := (g.names.filter fun k => g.reported k && before k != after k).map fun k => (k, after k)

/-- The connection: the server, `cache`, `_subscriptions`, and the calls of callbacks, the last first. -/
structure St where
  server : Server
  cache : List (Str × Str)
  subs : List (Option Str × List Nat)
  calls : List (Nat × Str × Str)

/-- `dict.update`. -/
def updates (cache : List (Str × Str)) (l : List (Str × Str)) : List (Str × Str) := l.foldl (fun c e => PyDict.set e.1 e.2 c) cache

/-- pq3.py:2058-2067 `_notify`. -/
def notify (st : St) (m : Str × Str) : St :=
  let called := (PyDict.get (some m.1) st.subs).getD [] ++ (PyDict.get none st.subs).getD []
  { st with calls := (called.map fun f => (f, m.1, m.2)).reverse ++ st.calls, cache := PyDict.set m.1 m.2 st.cache }

/-- The server's values change, and the messages about it arrive. -/
def change (g : Guc) (st : St) (vals : Str → Str) : St :=
  (reports g st.server.vals vals).foldl notify { st with server := { st.server with vals := vals } }

/-- What a call returns. -/
inductive Out where
  | none
  | value (v : Str)
  | alt
  | items (l : List (Str × Str))
  | keyError
  /-- the server refused -/
  | error
  deriving DecidableEq, Repr

/-- pq3.py:1965-1974 `__getitem__`. -/
def getItem (g : Guc) (st : St) (k : Str) : Out :=
  match PyDict.get k st.cache with
  | some v => .value v
  | none =>
    match settingGet g st.server.vals k with
    | some v => .value v
    | none => .keyError

/-- pq3.py:1976-1981 `__setitem__`. -/
def setItem (g : Guc) (st : St) (k v : Str) : Out × St :=
  if PyDict.get k st.cache = some v then (.none, st)
  else
    match setConfig g st.server.vals k v with
    | none => (.error, st)
    | some (c, vals) => (.none, { change g st vals with cache := PyDict.set k c (change g st vals).cache })

/-- pq3.py:1983-1987 `__delitem__`; the name is quoted, the server looks for it in any letter case. -/
def delItem (g : Guc) (st : St) (k : Str) : Out × St :=
  match g.fold k with
  | none => (.error, st)
  | some n => (.none, { change g st (put n (g.reset n) st.server.vals) with cache := PyDict.erase k (change g st (put n (g.reset n) st.server.vals)).cache })

/-- pq3.py:2014-2024 `get`. -/
def get (g : Guc) (st : St) (k : Str) : Out × St :=
  match PyDict.get k st.cache with
  | some v => (.value v, st)
  | none =>
    match settingGet g st.server.vals k with
    | some v => (.value v, { st with cache := PyDict.set k v st.cache })
    | none => (.alt, st)

/-- pq3.py:2029-2034: the keys whose values are cached, with them. -/
def cached (st : St) (ks : List Str) : List (Str × Str) := ks.filterMap fun k => (PyDict.get k st.cache).map fun v => (k, v)

/-- pq3.py:2029-2034: the other keys. -/
def missing (st : St) (ks : List Str) : List Str := ks.filter fun k => (PyDict.get k st.cache).isNone

/-- pq3.py:2026-2043 `getset`. -/
def getSet (g : Guc) (st : St) (ks : List Str) : Out × St :=
  if missing st ks = [] then (.items (updates [] (cached st ks)), st)
  else
    if ∃ k ∈ missing st ks, k ∉ (settingMget g st.server.vals (missing st ks)).map Prod.fst then
      (.keyError, { st with cache := updates st.cache (settingMget g st.server.vals (missing st ks)) })
    else (.items (updates (updates [] (cached st ks)) (settingMget g st.server.vals (missing st ks))), { st with cache := updates st.cache (settingMget g st.server.vals (missing st ks)) })

/-- pq3.py:2054-2056 `update`; the argument is the items of a dictionary. -/
def update (g : Guc) (st : St) (l : List (Str × Str)) : Out × St :=
  match setConfigs g st.server.vals l with
  | none => (.error, st)
  | some (rows, vals) => (.none, { change g st vals with cache := updates (change g st vals).cache rows })

/-- pq3.py:2069-2085 `subscribe`. -/
def subscribe (st : St) (key : Option Str) (f : Nat) : St :=
  let l := (PyDict.get key st.subs).getD []
  { st with subs := PyDict.set key (if f ∈ l then l else l ++ [f]) st.subs }

/-- pq3.py:2087-2098 `unsubscribe`. -/
def unsubscribe (st : St) (key : Option Str) (f : Nat) : St :=
  match PyDict.get key st.subs with
  | none => st
  | some l => if f ∈ l then { st with subs := PyDict.set key (l.erase f) st.subs } else st

/-- What happens on a connection. -/
inductive Op where
  | getItem (k : Str)
  | setItem (k v : Str)
  | delItem (k : Str)
  | get (k : Str)
  | getSet (ks : List Str)
  | update (l : List (Str × Str))
  | clear
  | subscribe (key : Option Str) (f : Nat)
  | unsubscribe (key : Option Str) (f : Nat)
  /-- not through this object: SET or set_config in a statement of the program -/
  | sql (k v : Str)
  /-- a transaction begins -/
  | start
  | commit
  /-- the settings made in it are undone -/
  | rollback

/-- One of them. -/
def step (g : Guc) (st : St) : Op → Out × St
  | .getItem k => (Settings.getItem g st k, st)
  | .setItem k v => Settings.setItem g st k v
  | .delItem k => Settings.delItem g st k
  | .get k => Settings.get g st k
  | .getSet ks => Settings.getSet g st ks
  | .update l => Settings.update g st l
  | .clear => (.none, { st with cache := [] })
  | .subscribe key f => (.none, Settings.subscribe st key f)
  | .unsubscribe key f => (.none, Settings.unsubscribe st key f)
  | .sql k v =>
    match setConfig g st.server.vals k v with
    | none => (.error, st)
    | some (_, vals) => (.none, change g st vals)
  | .start => (.none, { st with server := { st.server with saved := some (st.server.saved.getD st.server.vals) } })
  | .commit => (.none, { st with server := { st.server with saved := none } })
  | .rollback =>
    match st.server.saved with
    | none => (.none, st)
    | some vals => (.none, { change g st vals with server := ⟨vals, none⟩ })

/-- All of them in order. -/
def run (g : Guc) (st : St) : List Op → List Out × St
  | [] => ([], st)
  | o :: os => ((step g st o).1 :: (run g (step g st o).2 os).1, (run g (step g st o).2 os).2)

/-- A program: calls and `with db.settings(...)` blocks; a call that raises ends it up to the next handler. -/
inductive Prog where
  | skip
  | op (o : Op)
  | raise
  | seq (p q : Prog)
  | tryExcept (p q : Prog)
  /-- `with db.settings(**l): p` -/
  | block (l : List (Str × Str)) (p : Prog)

/-- A call that raised. -/
def Out.isRaise : Out → Bool
  | .keyError | .error => true
  | _ => false

/-- What a program does; whether it raises. pq3.py:1941-1950 `SettingsCM.__enter__` and `__exit__`. -/
def exec (g : Guc) : Prog → St → Bool × St
  | .skip, st => (false, st)
  | .op o, st => ((step g st o).1.isRaise, (step g st o).2)
  | .raise, st => (true, st)
  | .seq p q, st => if (exec g p st).1 then exec g p st else exec g q (exec g p st).2
  | .tryExcept p q, st => if (exec g p st).1 then exec g q (exec g p st).2 else exec g p st
  | .block l p, st =>
    match getSet g st (l.map Prod.fst) with
    | (.items stored, st) =>
      match update g st l with
      | (.none, st) =>
        match update g (exec g p st).2 stored with
        | (.none, st') => ((exec g p st).1, st')
        | (_, st') => (true, st')
      | (_, st) => (true, st)
    | (_, st) => (true, st)

/-! ## `path` -/

/-- pq3.py:1998-2001 `path.fset`: what `search_path` is set to. -/
def pathText (names : List Str) : Str := PyStr.join [','] (names.map PgString.quoteIdent)

/-- pq3.py:1996-1997 `path.fget`, of what `search_path` is. -/
def pathOf (U : Unicode) (text : Str) : Except Err (List Str) := PgString.splitIdent U text ',' '"' (-1)

end PG.Settings
