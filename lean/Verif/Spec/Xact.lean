import Verif.Model.Xact3
/-!
# Vocabulary for the statements about protocol transactions

What a user of an `Instruction` sees: whether it waits for more, wants to send, or is complete; its error; the messages it
collected; what the asynchronous hook was given.
-/
namespace PG.Spec.Xact
open PG PG.Element3 PG.Xact3

/-- The transaction waits for messages from the server. -/
def Receiving (s : Inst) : Prop := ∃ op, s.state = .receiving op
/-- The transaction wants to send. -/
def Sending (s : Inst) : Prop := ∃ op, s.state = .sending op

instance (s : Inst) : Decidable (Receiving s) := by
  unfold Receiving
  cases h : s.state with
  | receiving op => exact isTrue ⟨op, rfl⟩
  | sending op => exact isFalse (by rintro ⟨_, h⟩; cases h)
  | complete => exact isFalse (by rintro ⟨_, h⟩; cases h)

/-- The client found the reply in violation of the protocol. -/
def Violated (s : Inst) : Prop := ∃ ex t, s.errorMessage = some (.violation ex t)

/-- The three phases of a transaction. -/
inductive Phase where | waiting | sending | complete
  deriving DecidableEq, Repr
def phase (s : Inst) : Phase :=
  match s.state with
  | .receiving _ => .waiting
  | .sending _ => .sending
  | .complete => .complete

/-- Deliver batches one after another, as long as the transaction waits for messages: the resulting transaction, the number
of messages consumed (or the error), and how many of the batches were delivered. -/
def feed (s : Inst) : List Batch → Inst × Except Err Nat × Nat
  | [] => (s, .ok 0, 0)
  | b :: bs =>
    if Receiving s then
      match deliver s b with
      | (s, .error e) => (s, .error e, 1)
      | (s, .ok n) =>
        match feed s bs with
        | (s, r, k) => (s, r.map (n + ·), k + 1)
    else (s, .ok 0, 0)

/-- The messages of a list of batches, in order. -/
def allMsgs (bs : List Batch) : List Msg := bs.flatMap (·.msgs)

/-- The batches are new objects: none was delivered before, no two are the same object, none is empty. -/
def Fresh (s : Inst) (bs : List Batch) : Prop :=
  (bs.map (·.id)).Nodup ∧
  ∀ b ∈ bs, b.msgs ≠ [] ∧ b.id ≠ s.lastId ∧ ∀ c ∈ s.completed, c.1 ≠ b.id

/-- Every row message in the stream has a body that parses. -/
def RowsOk (ms : List Msg) : Prop := ∀ x ∈ ms, x.1 = 68 → ∃ m, parseK .tuple x.2 = .ok m

/-- The asynchronous messages of a stream (notices, notifications, parameter changes). -/
def asyncsOf (ms : List Msg) : List Msg := ms.filter (fun x => (asyncKind x.1).isSome)

/-- The states a user can bring an instruction to: created, sent, given new batches of messages, given COPY data to send. -/
inductive Reach (commands : List Elem) : Inst → Prop
  | start {s} : init commands = .ok s → Reach commands s
  | sent {s} : Reach commands s → Sending s → Reach commands (sent s)
  | put {s b s' n} : Reach commands s → Receiving s → Fresh s [b] → deliver s b = (s', .ok n) → Reach commands s'
  | give {s o} : Reach commands s → Reach commands { s with messages := o }

/-- What a user sees of two deliveries is the same: the phase, the error and the transaction status; and, unless the
transaction was ended by an error (then neither the position nor the messages of the last batch are stored), the position, the
collected messages and the commands to be re-issued after a COPY. -/
structure Agree (w f : Inst) : Prop where
  phase : phase w = phase f
  fatal : w.fatal = f.fatal
  error : w.errorMessage = f.errorMessage
  ready : w.lastReady = f.lastReady
  full : (w.state = .complete → w.last2.offset = w.commands.length) →
    w.last2 = f.last2 ∧ messagesReceived w = messagesReceived f ∧ w.copyTail = f.copyTail
  commands : w.commands = f.commands

end PG.Spec.Xact
