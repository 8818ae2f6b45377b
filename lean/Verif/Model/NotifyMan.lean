import Verif.Model.PyDict
/-!
# Model of `postgresql/notifyman.py`

Connections are numbers. `α` is a notification as it lies in `db._notifies`, `β` the decoded triple `(channel, payload, pid)`; `dec` decodes one, `none`
when a name or payload cannot be decoded. Sets are lists; the order in which a set is iterated is arbitrary and comes from outside (`Pass.order`), as do the
clock, what `select` reports, which connections are found closed, what `db.execute('')` collects and whether it fails. Times are whole ticks. Errors of
`select` itself and subclasses that override `queue` or `trash` are not modelled.
-/
namespace PG.NotifyMan
open PG
variable {α β : Type}

/-- notifyman.py:37-44: the manager, with what the connections have in `_notifies`. `received` is not in the code: all that a connection ever put
in `_notifies`. -/
structure State (α β : Type) where
  timeout : Option Nat
  connections : List Nat
  garbage : List Nat
  /-- `None`, or what is left of the iterator -/
  incoming : Option (List (Nat × List β))
  lastTime : Option Int
  pulled : List (Nat × List β)
  notifies : Nat → List α
  received : Nat → List α

/-- What the world does during one pass of the loop in `__next__`. -/
structure Pass (α : Type) where
  /-- `time()` in `_timedout` -/
  now : Int
  /-- `time()` in `_wait_on_wires` -/
  later : Int
  /-- the order in which `self.connections` is iterated -/
  order : List Nat
  closed : Nat → Bool
  readable : Nat → Bool
  exceptional : Nat → Bool
  /-- what `db.execute('')` collects -/
  arrivals : Nat → List α
  fails : Nat → Bool

/-- What a call of `__next__` gives. -/
inductive Out (β : Type) where
  | event (db : Nat) (notifies : List β)
  /-- `None`, the idle event -/
  | idle
  /-- `StopIteration` -/
  | stop
  /-- a notification could not be decoded -/
  | raised
  /-- it has not returned -/
  | waiting
  deriving DecidableEq, Repr

/-- notifyman.py:46-54 `NotificationManager.__init__`; the argument `before` is what lies in the connections' `_notifies`. -/
def init (connections : List Nat) (timeout : Option Nat) (before : Nat → List α) : State α β :=
  ⟨timeout, connections, [], none, none, [], before, before⟩

/-- notifyman.py:65: `self.timeout or 10`. -/
def orTen : Option Nat → Int
  | none => 10
  | some t => if t = 0 then 10 else t

/-- notifyman.py:58-71: how long `select` may wait. -/
def duration (timeout : Option Nat) (lastTime : Option Int) (later : Int) : Int :=
  if timeout = some 0 then 0
  else
    match lastTime with
    | some l => if orTen timeout - (later - l) < 0 then 0 else orTen timeout - (later - l)
    | none => orTen timeout

/-- `s.update(l)` on a set. -/
def union (s l : List Nat) : List Nat := l.foldl (fun s i => if i ∈ s then s else s ++ [i]) s
/-- `s - l` on sets. -/
def minus (s l : List Nat) : List Nat := s.filter fun i => i ∉ l

/-- notifyman.py:95-105 `NotificationManager.trash`. -/
def trash (st : State α β) (l : List Nat) : State α β := { st with garbage := union st.garbage l, connections := minus st.connections l }

/-- notifyman.py:57-93 `NotificationManager._wait_on_wires`. -/
def waitOnWires (st : State α β) (p : Pass α) : State α β :=
  let lastTime := if st.timeout = some 0 then st.lastTime else match st.lastTime with | some l => some l | none => some p.later
  let shut := (minus st.connections st.garbage).filter p.closed
  let connections := minus st.connections shut
  let garbage := union st.garbage shut
  let check := minus connections garbage
  let r := check.filter p.readable
  let x := check.filter p.exceptional ++ r.filter p.fails
  trash { st with
    lastTime := lastTime, connections := connections, garbage := garbage
    notifies := fun i => if i ∈ r then st.notifies i ++ p.arrivals i else st.notifies i
    received := fun i => if i ∈ r then st.received i ++ p.arrivals i else st.received i } x

/-- notifyman.py:107-115 `NotificationManager.queue`. -/
def queue (pulled : List (Nat × List β)) (db : Nat) (l : List β) : List (Nat × List β) :=
  match PyDict.get db pulled with
  | some old => PyDict.set db (old ++ l) pulled
  | none => PyDict.set db l pulled

/-- notifyman.py:118-130 `NotificationManager._pull_from_connections`: `false` when a notification cannot be decoded. -/
def pull (dec : α → Option β) (st : State α β) : List Nat → Bool × State α β
  | [] => (true, st)
  | db :: order =>
    if st.notifies db = [] then pull dec st order
    else
      match (st.notifies db).mapM dec with
      | none => (false, st)
      | some l => pull dec { st with pulled := queue st.pulled db l, notifies := fun i => if i = db then (st.notifies db).drop l.length else st.notifies i } order

/-- notifyman.py:133-148 `NotificationManager._queue_next`. -/
def queueNext (st : State α β) : State α β :=
  if st.pulled ≠ [] then
    match st.incoming with
    | some rest => { st with incoming := some (rest ++ st.pulled), pulled := [] }
    | none => { st with incoming := some st.pulled, pulled := [] }
  else if st.incoming.isNone then { st with incoming := some [], pulled := [] }
  else st

/-- notifyman.py:150-165 `NotificationManager._timedout`. -/
def timedout (st : State α β) (now : Int) : Bool × State α β :=
  match st.lastTime with
  | none => (false, { st with lastTime := some now })
  | some l =>
    match st.timeout with
    | some (t + 1) => if now ≥ l + (t + 1 : Nat) then (true, { st with lastTime := none }) else (false, { st with lastTime := none })
    | _ => (false, { st with lastTime := none })

/-- notifyman.py:200-213: the first half of a pass: a return, or nothing is queued. -/
def front (st : State α β) : (Out β × State α β) ⊕ State α β :=
  match st.incoming with
  | some ((db, l) :: rest) => .inl (.event db l, { st with incoming := some rest })
  | some [] => if st.timeout = some 0 ∨ st.connections = [] then .inl (.stop, { st with incoming := none }) else .inr { st with incoming := none }
  | none => .inr st

/-- notifyman.py:220-226: the wires are checked unless the last pass did, or this is the first pass. -/
def checkWires (st : State α β) (checked : Bool) : Bool := !checked && !st.connections.isEmpty
/-- notifyman.py:220-226: what that makes of the state. -/
def wired (st : State α β) (checked : Bool) (p : Pass α) : State α β := if checkWires st checked then waitOnWires st p else st

/-- notifyman.py:215-229: the second half of a pass: a return, or `checked_wire` for the next pass. -/
def body (dec : α → Option β) (st : State α β) (checked : Bool) (p : Pass α) : (Out β × State α β) ⊕ (Bool × State α β) :=
  let r := timedout st p.now
  if r.1 then .inl (.idle, r.2)
  else
    let r' := pull dec (wired r.2 checked p) (p.order.filter (· ∈ (wired r.2 checked p).connections))
    if r'.1 then .inr (checkWires r.2 checked, queueNext r'.2) else .inl (.raised, r'.2)

/-- notifyman.py:196-229 `NotificationManager.__next__`, with the value of `checked_wire`; the passes are those that the world has time for. -/
def loop (dec : α → Option β) (st : State α β) (checked : Bool) : List (Pass α) → Out β × State α β
  | [] => match front st with
    | .inl r => r
    | .inr st => (.waiting, st)
  | p :: ps => match front st with
    | .inl r => r
    | .inr st => match body dec st checked p with
      | .inl r => r
      | .inr (checked, st) => loop dec st checked ps

/-- notifyman.py:196 `__next__`. -/
def next (dec : α → Option β) (st : State α β) (ps : List (Pass α)) : Out β × State α β := loop dec st true ps

/-- What the program does with the manager and the connections. -/
inductive Op (α : Type) where
  | next (ps : List (Pass α))
  /-- a query on connection `db` collects notifications -/
  | arrive (db : Nat) (l : List α)
  /-- `nm.settimeout(t)`; a negative number raises -/
  | settimeout (t : Option Int)
  /-- `nm.connections.add(db)` -/
  | add (db : Nat)
  /-- `nm.connections.discard(db)` -/
  | discard (db : Nat)

/-- notifyman.py:167-186 `NotificationManager.settimeout`: `false` for `ValueError`. -/
def settimeout (st : State α β) : Option Int → Bool × State α β
  | none => (true, { st with timeout := none })
  | some t => if t < 0 then (false, st) else (true, { st with timeout := some t.toNat })

/-- One operation; what `__next__` gave. -/
def step (dec : α → Option β) (st : State α β) : Op α → List (Out β) × State α β
  | .next ps => ([(next dec st ps).1], (next dec st ps).2)
  | .arrive db l => ([], { st with notifies := fun i => if i = db then st.notifies db ++ l else st.notifies i, received := fun i => if i = db then st.received db ++ l else st.received i })
  | .settimeout t => ([], (settimeout st t).2)
  | .add db => ([], { st with connections := union st.connections [db] })
  | .discard db => ([], { st with connections := minus st.connections [db] })

/-- A program. -/
def run (dec : α → Option β) (st : State α β) : List (Op α) → List (Out β) × State α β
  | [] => ([], st)
  | o :: os => ((step dec st o).1 ++ (run dec (step dec st o).2 os).1, (run dec (step dec st o).2 os).2)

end PG.NotifyMan
