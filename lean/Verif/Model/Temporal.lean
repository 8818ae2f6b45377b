import Verif.Model.PyDict
import Verif.Model.Py
/-!
# Model of the contexts of `postgresql/temporal.py` (`push`, `pop`, `_init_c`, `__enter__`, `__exit__`)

The names in Python's builtins, the stack of contexts, the schemas there are in the database and the connections open. Every operation on the server or system is answered by a sequence of
outcomes (it is made, it raises an `Exception`, it raises another exception as `KeyboardInterrupt`), in the order the operations are made; creating a schema also fails when it is there,
dropping one when it is not. A program is what the code inside of the contexts does to them. Not modelled: `init` but for its outcome, `destroy`, threads, other processes.
-/
namespace PG.Temporal
open PG

/-- The two sorts of exceptions `pop` tells apart (temporal.py:224). -/
inductive Exn where
  | exception
  | interrupt
  deriving DecidableEq, Repr

/-- The values of builtins: those of others, and the attributes of connections. -/
inductive Val where
  | other (n : Nat)
  | attr (conn : Nat) (name : String)
  deriving DecidableEq, Repr

/-- An entry of `builtins_stack`: the names, and the connections made by `new`. The connection is that of the names; at the bottom there is none. -/
structure Level where
  names : List (String × Val)
  conn : Option Nat
  extras : List Nat := []
  deriving DecidableEq, Repr

/-- A schema is known by the number at its end (temporal.py:32, 174). -/
structure St where
  builtins : List (String × Val) := []
  stack : List Level := []
  sandbox : Nat := 0
  schemas : List Nat := []
  /-- The `search_path` of connections, as far as it begins with schemas of contexts. -/
  paths : List (Nat × List Nat) := []
  /-- The number of the schema that the function `new` of a context has kept (temporal.py:174, 177). -/
  kept : List (Nat × Nat) := []
  opened : List Nat := []
  conns : Nat := 0
  ops : Nat := 0
  deriving DecidableEq, Repr

/-- The outcomes of operations. -/
abbrev World := Nat → Option Exn

/-- Programs; what the server and the system do is given by the world. -/
def M (α : Type) : Type := World → St → Except Exn α × St

instance : Monad M where
  pure a := fun _ s => (.ok a, s)
  bind m k := fun W s => match m W s with
    | (.ok a, s) => k a W s
    | (.error e, s) => (.error e, s)

/-- `raise e`. -/
def raise {α : Type} (e : Exn) : M α := fun _ s => (.error e, s)
/-- An assignment. -/
def modify (f : St → St) : M Unit := fun _ s => (.ok (), f s)
/-- The attributes. -/
def get : M St := fun _ s => (.ok s, s)

/-- An operation on the server or the system. -/
def op : M Unit := fun W s => match W s.ops with
  | none => (.ok (), { s with ops := s.ops + 1 })
  | some e => (.error e, { s with ops := s.ops + 1 })

/-- temporal.py:36-46 `builtins_keys`. -/
def keys : List String := ["connector", "db", "do", "xact", "proc", "settings", "prepare", "sqlexec", "newdb"]

/-- The new builtins (temporal.py:184-194). -/
def locals (c : Nat) : List (String × Val) :=
  [("db", .attr c "db"), ("prepare", .attr c "prepare"), ("xact", .attr c "xact"), ("sqlexec", .attr c "execute"), ("do", .attr c "do"), ("settings", .attr c "settings"),
    ("proc", .attr c "proc"), ("connector", .attr c "connector"), ("new", .attr c "new")]

/-- `d.update(e)`. -/
def update (d e : List (String × Val)) : List (String × Val) := e.foldl (fun d x => PyDict.set x.1 x.2 d) d

/-- A new connection. -/
def connect : M Nat := do
  op
  let s ← get
  modify fun s => { s with conns := s.conns + 1, opened := s.conns :: s.opened }
  pure s.conns

/-- The builtins kept at the bottom of the stack (temporal.py:195-201). -/
def bottom (s : St) : List Level :=
  if s.stack.isEmpty then [⟨s.builtins.filter fun e => keys.contains e.1, none, []⟩] else s.stack

/-- temporal.py:163-206 `push`. -/
def push : M Unit := do
  let c ← connect
  modify fun s => { s with
    stack := ⟨locals c, some c, []⟩ :: bottom s
    builtins := update s.builtins (locals c)
    kept := (c, s.sandbox + 1) :: s.kept
    sandbox := s.sandbox + 1 }

/-- `xdb.interrupt()` if it is open, and `xdb.close()` (temporal.py:228-233). -/
def shut (c : Nat) : M Unit := do
  let s ← get
  if s.opened.contains c then op
  op
  modify fun s => { s with opened := s.opened.filter (· ≠ c) }

/-- The loop of `pop` over connections (temporal.py:228-233). -/
def shutAll : List Nat → M Unit
  | [] => pure ()
  | c :: l => do
    shut c
    shutAll l

/-- `execute('CREATE SCHEMA ...')`. -/
def createSchema (n : Nat) : M Unit := do
  op
  let s ← get
  if s.schemas.contains n then raise .exception
  else modify fun s => { s with schemas := n :: s.schemas }

/-- `execute('DROP SCHEMA ... CASCADE')`. -/
def dropSchema (n : Nat) : M Unit := do
  op
  let s ← get
  if s.schemas.contains n then modify fun s => { s with schemas := s.schemas.filter (· ≠ n) }
  else raise .exception

/-- The end of `with connection`. -/
def closing (c : Nat) (m : M Unit) : M Unit := fun W t => match m W t with
  | (r, t) => (r, { t with opened := t.opened.filter (· ≠ c) })

/-- temporal.py:235-242: the schema is dropped on a connection of its own, closed by `with` whatever happens. -/
def dropSandbox : M Unit := do
  let s ← get
  let c ← connect
  closing c (dropSchema (s.sandbox + 1))

/-- The builtins are restored (temporal.py:212-221). The entry at the bottom is a pair, so no name is in it: all are removed. -/
def restore (s : St) : St :=
  match s.stack with
  | _ :: l :: l' :: rest => { s with builtins := update s.builtins l.names, stack := l :: l' :: rest }
  | _ => { s with builtins := keys.foldl (fun d k => PyDict.erase k d) s.builtins, stack := [] }

/-- The connections of the context that ends. -/
def connections : List Level → List Nat
  | ⟨_, some c, extras⟩ :: _ => c :: extras
  | _ => []

/-- temporal.py:208-245 `pop`. -/
def pop (exc : Option Exn) : M Unit := do
  let s ← get
  modify fun s => { restore s with sandbox := s.sandbox - 1 }
  if exc = some .interrupt then pure ()
  else do
    shutAll (connections s.stack)
    dropSandbox

/-- The connection of the innermost context: `builtins.db`. -/
def current (s : St) : Nat := ((connections s.stack).head?).getD 0

/-- Setting the `search_path`: it is read, then set (temporal.py:251, 181). -/
def setPath (c : Nat) (n : Nat) : M Unit := do
  op
  op
  modify fun s => { s with paths := PyDict.set c (n :: (PyDict.get c s.paths).getD []) s.paths }

/-- temporal.py:247-251 `_init_c`; the connection is open already. -/
def initC (c : Nat) : M Unit := do
  let s ← get
  createSchema s.sandbox
  setPath c s.sandbox

/-- `try: self._init_c(...) except Exception` (temporal.py:259-264). -/
def initOrPop (c : Nat) : M Unit := fun W t => match initC c W t with
  | (.ok (), t) => (.ok (), t)
  | (.error .interrupt, t) => (.error .interrupt, t)
  | (.error .exception, t) => match pop (some .exception) W t with
    | (.ok (), t) => (.error .exception, t)
    | (.error e, t) => (.error e, t)

/-- temporal.py:253-264 `__enter__`, with the initialization of the cluster as one operation. -/
def enter : M Unit := do
  op
  push
  let s ← get
  initOrPop (current s)

/-- The function `new` of a context (temporal.py:177-182): a connection is made and noted with the context, if that is there still. -/
def note (c x : Nat) (l : Level) : Level := if l.conn = some c then { l with extras := l.extras ++ [x] } else l

/-- `new` (temporal.py:177-182). -/
def newConnection (c n : Nat) : M Unit := do
  let x ← connect
  modify fun s => { s with stack := s.stack.map (note c x) }
  setPath x n

/-- `new()`: the function among the builtins; another value is not called here. -/
def renew (s : St) : M Unit :=
  match PyDict.get "new" s.builtins with
  | some (.attr c _) => newConnection c ((PyDict.get c s.kept).getD 0)
  | _ => raise .exception

/-- What code does to contexts: it ends or raises; it sets a builtin; it makes a connection with `new`; it has a context, with what is in it and what follows, where an exception may be caught or
not. -/
inductive Prog where
  | done (exc : Option Exn)
  | assign (name : String) (v : Nat) (rest : Prog)
  | fresh (rest : Prog)
  | block (inner : Prog) (caught : Bool) (rest : Prog)
  deriving Repr

/-- A body and `__exit__`, which gives the exception to `pop` (temporal.py:266-267); an exception of `pop` takes its place. -/
def bodyThenPop (body : M Unit) : M Unit := fun W s => match body W s with
  | (.ok (), t) => pop none W t
  | (.error e, t) => match pop (some e) W t with
    | (.ok (), t) => (.error e, t)
    | (.error e', t) => (.error e', t)

/-- `with pg_tmp: body`. -/
def within (body : M Unit) : M Unit := do
  enter
  bodyThenPop body

/-- `try: m except Exception: pass`. -/
def guard (caught : Bool) (m : M Unit) : M Unit := fun W s => match m W s with
  | (.ok (), t) => (.ok (), t)
  | (.error e, t) => if caught && e = .exception then (.ok (), t) else (.error e, t)

/-- A program that uses contexts; not code of the repository. -/
def exec : Prog → M Unit
  | .done none => pure ()
  | .done (some e) => raise e
  | .assign k v rest => do
    modify fun s => { s with builtins := PyDict.set k (.other v) s.builtins }
    exec rest
  | .fresh rest => do
    let s ← get
    renew s
    exec rest
  | .block inner caught rest => do
    guard caught (within (exec inner))
    exec rest

end PG.Temporal
