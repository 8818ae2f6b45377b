import Verif.Model.NotifyMan
/-!
# Model of `Connection.iternotifies`

`postgresql/driver/pq3.py` 2716-2723: a generator over a `NotificationManager` with one connection. The connection is number 0.
-/
namespace PG.NotifyMan
open PG
variable {α β : Type}

/-- notifyman.py:188-192 `NotificationManager.gettimeout`. -/
def gettimeout (st : State α β) : Option Nat := st.timeout

/-- Where the generator stands. -/
inductive Gen (α β : Type) where
  /-- not yet started: the argument, and what lies in the connection's `_notifies` -/
  | fresh (timeout : Option Int) (before : List α)
  /-- at a `yield`: what is left of `x[1]` -/
  | at (nm : State α β) (left : List β)
  /-- returned, or left by an exception; what the connection ever received (not in the code), and what lies in its `_notifies` -/
  | ended (received notifies : List α)

/-- What `next()` of the generator gives. -/
inductive Given (β : Type) where
  | notify (x : β)
  /-- `None` -/
  | idle
  /-- `StopIteration` -/
  | stop
  /-- `ValueError` of `settimeout` -/
  | valueError
  /-- a notification could not be decoded -/
  | raised
  /-- it has not returned -/
  | waiting
  deriving DecidableEq, Repr

/-- pq3.py:2718-2723: `for x in nm`, from the point after `x[1]` has been given; every call of `NotificationManager.__next__` has its own passes. -/
def resume (dec : α → Option β) (st : State α β) : List (List (Pass α)) → Given β × Gen α β
  | [] => (.waiting, .at st [])
  | ps :: pss => match next dec st ps with
    | (.event _ (y :: ys), st) => (.notify y, .at st ys)
    | (.event _ [], st) => resume dec st pss
    | (.idle, st) => (.idle, .at st [])
    | (.stop, st) => (.stop, .ended (st.received 0) (st.notifies 0))
    | (.raised, st) => (.raised, .ended (st.received 0) (st.notifies 0))
    | (.waiting, st) => (.waiting, .at st [])

/-- pq3.py:2716-2723 `Connection.iternotifies`: `next()` of what it returns. -/
def give (dec : α → Option β) (pss : List (List (Pass α))) : Gen α β → Given β × Gen α β
  | .fresh none before => resume dec (init [0] none fun _ => before) pss
  | .fresh (some t) before => if t < 0 then (.valueError, .ended before before) else resume dec (init [0] (some t.toNat) fun _ => before) pss
  | .at st (y :: ys) => (.notify y, .at st ys)
  | .at st [] => resume dec st pss
  | .ended r n => (.stop, .ended r n)

/-- A query on the connection collects notifications. -/
def collect (l : List α) : Gen α β → Gen α β
  | .fresh t before => .fresh t (before ++ l)
  | .at st left => .at { st with notifies := fun i => if i = 0 then st.notifies 0 ++ l else st.notifies i, received := fun i => if i = 0 then st.received 0 ++ l else st.received i } left
  | .ended r n => .ended (r ++ l) (n ++ l)

/-- What the program does: take the next item, or use the connection. -/
inductive Use (α : Type) where
  | take (pss : List (List (Pass α)))
  | collects (l : List α)

/-- A program; what `next()` gave. -/
def uses (dec : α → Option β) : List (Use α) → Gen α β → List (Given β) × Gen α β
  | [], g => ([], g)
  | .take pss :: us, g => ((give dec pss g).1 :: (uses dec us (give dec pss g).2).1, (uses dec us (give dec pss g).2).2)
  | .collects l :: us, g => uses dec us (collect l g)

end PG.NotifyMan
