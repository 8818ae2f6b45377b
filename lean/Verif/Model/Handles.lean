import Verif.Model.Py
/-!
# Model of the life of statements and cursors: `pq3.py` `Statement`, `Output`, and the registries of `protocol/client3.py`

Python objects live at addresses; an address may be used again when its object is gone. Identifiers are made of addresses (pq3.py:76-77). The server's side is what it documents: a Close removes a portal or a prepared
statement, of whatever name, or does nothing; ends of transactions and SQL may remove some, and SQL may make some under other names.

Simplified: identifiers are encoded as ASCII (the client encoding is a superset). An exchange either happens as a whole or is refused before anything is sent (pq3.py:2604-2608: the error of another transaction is raised);
lost connections are not in this model. An object whose making was refused is never handed out.
-/
namespace PG.Handles
open PG

/-- A digit of `hex()`. -/
def hexDigit (n : Nat) : UInt8 := if n < 10 then UInt8.ofNat (48 + n) else UInt8.ofNat (87 + n)

/-- The digits of `hex(n)`, at most `fuel`, before `acc`. -/
def hexDigits : Nat → Nat → Bytes → Bytes
  | 0, _, acc => acc
  | fuel + 1, n, acc => if n < 16 then hexDigit n :: acc else hexDigits fuel (n / 16) (hexDigit (n % 16) :: acc)

/-- pq3.py:76-77 `ID(s)`: `'py:' + hex(id(s))`, encoded. -/
def idOf (addr : Nat) : Bytes := [112, 121, 58, 48, 120] ++ hexDigits (addr + 1) addr []

/-- Cursors (portals) and statements. -/
inductive Kind where
  | cursor
  | statement
  deriving DecidableEq, Repr

/-- client3.py:487-507: the weak references in `pq.cursors` (or `pq.statements`): identifier and address; `garbage_cursors` (`garbage_statements`); and the portals (prepared statements) on the server. -/
structure Side where
  refs : List (Bytes × Nat) := []
  garbage : List Bytes := []
  server : List Bytes := []
  deriving DecidableEq, Repr

/-- An object: `closed` is `None` (a statement that is being prepared), `False` or `True`; `made`: the exchange that makes it on the server took place. -/
structure Obj where
  addr : Nat
  kind : Kind
  id : Bytes
  closed : Option Bool
  made : Bool
  deriving DecidableEq, Repr

/-- The client's objects and both sides. -/
structure State where
  objs : List Obj := []
  cursors : Side := {}
  statements : Side := {}
  deriving DecidableEq, Repr

/-- The side of a kind. -/
def State.side (s : State) : Kind → Side
  | .cursor => s.cursors
  | .statement => s.statements

/-- Replace the side of a kind. -/
def State.setSide (s : State) (k : Kind) (x : Side) : State :=
  match k with
  | .cursor => { s with cursors := x }
  | .statement => { s with statements := x }

/-- client3.py:487-489, 498-500 `register_cursor`, `register_statement`. -/
def Side.register (x : Side) (id : Bytes) (addr : Nat) : Side := { x with refs := (id, addr) :: x.refs.filter (·.1 ≠ id) }

/-- client3.py:491-496, 502-507 `trash_cursor`, `trash_statement`. -/
def Side.trash (x : Side) (id : Bytes) : Side := { x with refs := x.refs.filter (·.1 ≠ id), garbage := x.garbage ++ [id] }

/-- The object at an address. -/
def State.at? (s : State) (addr : Nat) : Option Obj := s.objs.find? (·.addr = addr)

/-- The interpreter frees the object at an address. If a registry still has the weak reference, its callback runs. -/
def collect (s : State) (addr : Nat) : State :=
  match s.at? addr with
  | none => s
  | some o =>
    let s := { s with objs := s.objs.filter (·.addr ≠ addr) }
    if (o.id, addr) ∈ (s.side o.kind).refs then s.setSide o.kind ((s.side o.kind).trash o.id) else s

/-- Several. -/
def collectAll (s : State) (l : List Nat) : State := l.foldl collect s

/-- pq3.py:660-663 `Output.close`, 1482-1485 `Statement.close`. -/
def close (s : State) (addr : Nat) : State :=
  match s.at? addr with
  | none => s
  | some o =>
    let s := if o.closed = some false then s.setSide o.kind ((s.side o.kind).trash o.id) else s
    { s with objs := s.objs.map fun x => if x.addr = addr then { x with closed := some true } else x }

/-- client3.py:371-373, 375-377: a loop over the garbage, from index `i`; before each step objects may be freed. What the loop saw. -/
def loop (k : Kind) (s : State) (i : Nat) : List (List Nat) → List Bytes × State
  | [] => ((s.side k).garbage.drop i, s)
  | f :: fs =>
    match ((collectAll s f).side k).garbage[i]? with
    | none => ([], collectAll s f)
    | some x => (x :: (loop k (collectAll s f) (i + 1) fs).1, (loop k (collectAll s f) (i + 1) fs).2)

/-- Objects freed during `take_out_trash`: before each step of the loops, and after them. -/
structure Freed where
  cursors : List (List Nat) := []
  statements : List (List Nat) := []
  late : List Nat := []
  deriving Repr

/-- The closings are answered, and the front of the garbage is deleted: client3.py:381-383. -/
def Side.closed (x : Side) (ids : List Bytes) : Side := { x with garbage := x.garbage.drop ids.length, server := x.server.filter (· ∉ ids) }

/-- client3.py:365-383 `take_out_trash`. -/
def takeOutTrash (s : State) (f : Freed) : State :=
  match loop .cursor s 0 f.cursors with
  | (cs, s1) => match loop .statement s1 0 f.statements with
    | (ss, s2) =>
      let s3 := collectAll s2 f.late
      { s3 with cursors := s3.cursors.closed cs, statements := s3.statements.closed ss }

/-- client3.py:385-402 `push`: before anything else is sent. -/
def flush (s : State) (f : Freed) : State :=
  if s.statements.garbage ≠ [] ∨ s.cursors.garbage ≠ [] then takeOutTrash s f else s

/-- How an exchange that makes something ends. -/
inductive Outcome where
  /-- an error of another transaction is raised first; nothing is sent -/
  | refused
  /-- the server refuses the command (a wrong query, a cursor of that name) -/
  | failed
  | done
  deriving DecidableEq, Repr

/-- The server makes a portal or a prepared statement. There cannot be two portals of the same name; for statements a Close is sent before (pq3.py:1496-1499). -/
def Side.make (x : Side) (k : Kind) (id : Bytes) : Side :=
  if k = .cursor ∧ id ∈ x.server then x else { x with server := id :: x.server.filter (· ≠ id) }

/-- A Parse that fails: the statement of that name was closed before. -/
def Side.unmade (x : Side) (k : Kind) (id : Bytes) : Side := if k = .cursor then x else { x with server := x.server.filter (· ≠ id) }

/-- The new object, registered. -/
def registered (s : State) (k : Kind) (addr : Nat) (closed : Option Bool) : State :=
  { s.setSide k ((s.side k).register (idOf addr) addr) with objs := ⟨addr, k, idOf addr, closed, false⟩ :: s.objs }

/-- The exchange took place. -/
def made (s : State) (addr : Nat) : State := { s with objs := s.objs.map fun x => if x.addr = addr then { x with made := true } else x }

/-- A new object at a free address with an identifier of its own: pq3.py:640-655, 986-1007, 1074-1118 (`MultiXactStream`, `Cursor` of a statement), 1330-1343, 1487-1508, 2333-2343 (`prepare`). A statement whose Parse
fails is closed at once (1519-1522), without the garbage; one whose preparation is interrupted stays with `None` (`interrupted`). -/
def create (s : State) (k : Kind) (addr : Nat) (out : Outcome) (interrupted : Bool) (f : Freed) : State :=
  match out with
  | .refused => registered s k addr (if k = .statement then none else some false)
  | .failed =>
    let s := flush (registered s k addr (some (decide (k = .statement)))) f
    s.setSide k ((s.side k).unmade k (idOf addr))
  | .done =>
    let s := made (flush (registered s k addr (if k = .statement ∧ interrupted then none else some false)) f) addr
    s.setSide k ((s.side k).make k (idOf addr))

/-- A new object for something that is there under a name: pq3.py:2349-2353 `statement_from_id`, 2359-2362 `cursor_from_id`; also 868-872: a result that is fetched at once, under the empty name. Not registered (648-650,
1341-1343). -/
def adopt (s : State) (k : Kind) (addr : Nat) (name : Bytes) (f : Freed) : State := flush { s with objs := ⟨addr, k, name, some false, true⟩ :: s.objs } f

/-- What happens. -/
inductive Event where
  | create (k : Kind) (addr : Nat) (out : Outcome) (interrupted : Bool) (f : Freed)
  | adopt (k : Kind) (addr : Nat) (name : Bytes) (f : Freed)
  | close (addr : Nat)
  | collect (addr : Nat)
  /-- something else is sent -/
  | other (f : Freed)
  /-- the server removes something (the end of a transaction, `CLOSE`, `DEALLOCATE`) -/
  | drop (k : Kind) (name : Bytes)
  /-- SQL makes something (`DECLARE`, `PREPARE`) -/
  | sql (k : Kind) (name : Bytes)

/-- A name that is an identifier made by the client. -/
def Generated (n : Bytes) : Prop := ∃ a, n = idOf a

/-- The objects freed. -/
def Freed.all (f : Freed) : List Nat := f.cursors.flatten ++ f.statements.flatten ++ f.late

/-- Which events are possible: new objects are at free addresses and are not freed while they are made; one closes objects that one was given; other names are not like the client's. -/
def Event.Ok (s : State) : Event → Prop
  | .create _ addr _ _ f => s.at? addr = none ∧ addr ∉ f.all
  | .adopt _ addr name f => s.at? addr = none ∧ addr ∉ f.all ∧ ¬ Generated name
  | .close addr => ∀ o, s.at? addr = some o → o.closed ≠ none
  | .sql _ name => ¬ Generated name
  | _ => True

/-- One event. -/
def step (s : State) : Event → State
  | .create k a o i f => create s k a o i f
  | .adopt k a n f => adopt s k a n f
  | .close a => close s a
  | .collect a => collect s a
  | .other f => flush s f
  | .drop k n => s.setSide k { s.side k with server := (s.side k).server.filter (· ≠ n) }
  | .sql k n => s.setSide k { s.side k with server := n :: (s.side k).server }

/-- The states a connection can get to. -/
inductive Reach : State → Prop
  | start : Reach {}
  | step {s : State} {e : Event} : Reach s → e.Ok s → Reach (step s e)

end PG.Handles
