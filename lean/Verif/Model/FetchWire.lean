import Verif.Model.Fetch
import Verif.Model.Client3
/-!
# `FetchAll` in `postgresql/driver/pq3.py` over the connection: from the bytes of the socket to the rows

`Fetch` takes the batches of messages that the connection reads as given; here `_pq_step` makes steps of the model of the connection (`Client3`), which reads from the socket. The commands are sent already (C15 is about that), and nothing else
uses the connection in between (`Fetch` has that). Loops are cut off after `fuel` turns (then `blocked`).
-/
namespace PG.FetchWire
open PG PG.Element3 PG.Xact3 PG.Client3 PG.Fetch

/-- client3.py:404-431: `step` before the transaction is removed; `true`: it goes on to 432-435, `false`: the exception says to try again (422-424). -/
def stepOpen (o : Ops IX) (c : Conn IX) : Conn IX × Res Bool :=
  match c.xact with
  | none => (c, .raised (.py .attributeError))
  | some x => match o.dir x with
    | .complete => (c, .raised (.py .runtimeError))
    | .sending => match writeMessages o c (o.messages x) with
      | (c, .ret _) => ({ c with xact := c.xact.map (o.sent x) }, .ret true)
      | (c, .raised (.sock .tryAgain)) => (c, .ret false)
      | (c, .raised e) => (c, .raised e)
      | (c, .blocked) => (c, .blocked)
    | .receiving => match readMessages o c with
      | (c, .ret _) => match putRead o c x (c.xact.getD x) with
        | (c, .ret ()) => (noteReady o c (c.xact.getD x), .ret true)
        | (c, .raised (.sock .tryAgain)) => (c, .ret false)
        | (c, .raised e) => (c, .raised e)
        | (c, .blocked) => (c, .blocked)
      | (c, .raised (.sock .tryAgain)) => (c, .ret false)
      | (c, .raised e) => (c, .raised e)
      | (c, .blocked) => (c, .blocked)

/-- A connection, and the transaction object that a `FetchAll` holds: that of the connection, until the connection drops it. -/
structure Held where
  conn : Conn IX
  obj : Inst

/-- pq3.py:2626-2636 `_pq_step`. -/
def pqStep (s : Held) : Held × Stepped :=
  match s.conn.xact with
  | none => (s, .fine)
  | some x =>
    match stepOpen instOps s.conn with
    | (d, .ret b) =>
      (⟨if b then stepEnd instOps d else d, (d.xact.getD x).inst⟩,
        if (d.xact.getD x).inst.state = .complete ∧ (d.xact.getD x).inst.fatal ≠ none then .raised else .fine)
    | (d, .raised _) => (⟨d, (d.xact.getD x).inst⟩, .raised)
    | (d, .blocked) => (⟨d, (d.xact.getD x).inst⟩, .blocked)

/-- `while x.state is not Complete and not stop(x): STEP()`. -/
def steps (stop : Inst → Bool) : Nat → Held → Held × Stepped
  | 0, s => (s, .blocked)
  | fuel + 1, s =>
    if s.obj.state = .complete ∨ stop s.obj then (s, .fine)
    else
      match pqStep s with
      | (s, .fine) => steps stop fuel s
      | r => r

/-- A `FetchAll` object: `_xact` (`live`: not None), `_complete_message`. -/
structure All where
  held : Held
  live : Bool
  complete : Option Proc

/-- pq3.py:924-968 `__next__`. -/
def next {β : Type} (decode : List Proc → Option (List β)) (fuel : Nat) (a : All) : Out β × All :=
  if a.live then
    match steps (fun x => !x.completed.isEmpty) fuel a.held with
    | (s, .blocked) => (.blocked, { a with held := s })
    | (s, .raised) => (.raised, { a with held := s })
    | (s, .fine) =>
      if s.obj.fatal ≠ none then (.raised, { a with held := s })
      else
        match s.obj.completed with
        | [] => (.stop, { a with held := s, live := false })
        | (_, ms) :: rest =>
          match decode (ms.filter isData) with
          | none => (.raised, { a with held := s })
          | some r =>
            (.chunk r, ⟨{ conn := { s.conn with xact := s.conn.xact.map (fun x => { x with inst := { x.inst with completed := rest } }) }, obj := { s.obj with completed := rest } },
              true, ((ms.drop (ms.length - 3)).filter isComplete).getLast?.or a.complete⟩)
  else (.stop, a)

/-- `for chunk in stream`, at most `turns` times. -/
def iterate {β : Type} (decode : List Proc → Option (List β)) (fuel : Nat) : Nat → All → List (List β) × Out β × All
  | 0, a => ([], .blocked, a)
  | n + 1, a =>
    match next decode fuel a with
    | (.chunk r, a') => (r :: (iterate decode fuel n a').1, (iterate decode fuel n a').2)
    | (o, a') => ([], o, a')

/-- pq3.py:886-922 `_init`, after the commands are sent: step until something is seen. Simplified: `_pq_complete` (2613-2624) is a loop of steps; an exception that is not from the socket is not turned into a failed transaction. -/
def init (copy : Bool) : Nat → Held → Stepped × All
  | 0, s => (.blocked, ⟨s, true, none⟩)
  | fuel + 1, s =>
    if s.obj.state = .complete then (.fine, ⟨s, true, none⟩)
    else
      match pqStep s with
      | (s, .raised) => (.raised, ⟨s, true, none⟩)
      | (s, .blocked) => (.blocked, ⟨s, true, none⟩)
      | (s, .fine) =>
        match firstSeen copy (messagesReceived s.obj) with
        | .noise => init copy fuel s
        | .data => (.fine, ⟨s, true, none⟩)
        | .null => ((steps (fun _ => false) fuel s).2, ⟨(steps (fun _ => false) fuel s).1, false, none⟩)
        | .complete p => ((steps (fun _ => false) fuel s).2, ⟨(steps (fun _ => false) fuel s).1, false, some p⟩)
        | .unexpected => (.raised, ⟨(steps (fun _ => false) fuel s).1, true, none⟩)

end PG.FetchWire
