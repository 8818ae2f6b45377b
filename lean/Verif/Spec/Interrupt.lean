import Verif.Spec.Xact
/-!
# Interruption points of a delivery

An exception raised asynchronously (a `KeyboardInterrupt`, for instance) can leave `put` between any two of its assignments to
the transaction object.  `Stopped s b t`: delivering `b` to `s` may be left in the state `t`.
The local variables are lost; the batch object stays in the connection and is delivered again.
-/
namespace PG.Spec.Xact
open PG PG.Element3 PG.Xact3

/-- Left inside `standard_put` (xact3.py:473-615), between two assignments to attributes of the transaction. -/
inductive StoppedStd (s : Inst) (b : Batch) : Inst → Prop
  /-- after the messages `m1` were processed -/
  | inLoop {s0 l m1 m2 s1 l1} : startLoop s b = (s0, .ok l) → b.msgs = m1 ++ m2 → loop s0 l m1 = (s1, .ok ⟨false, l1⟩) →
      StoppedStd s b s1
  /-- after the hook was called with an asynchronous message, before the message was recorded (528-535) -/
  | inHook {s0 l m1 x m2 s1 l1 k m} : startLoop s b = (s0, .ok l) → b.msgs = m1 ++ x :: m2 →
      loop s0 l m1 = (s1, .ok ⟨false, l1⟩) → react s1.commands l1.offset l1.step l1.cmd l1.paths x = .ok (.async k) →
      x ∉ s1.asyncs → parseK k x.2 = .ok m → StoppedStd s b { s1 with hookCalls := s1.hookCalls ++ [m] }
  /-- after `fatal` was set (495, 539), before `error_message` and `state` -/
  | setFatal {s0 l m1 x m2 s1 l1 f} : startLoop s b = (s0, .ok l) → b.msgs = m1 ++ x :: m2 →
      loop s0 l m1 = (s1, .ok ⟨false, l1⟩) →
      ((∃ ex, f = true ∧ react s1.commands l1.offset l1.step l1.cmd l1.paths x = .ok (.violation ex)) ∨
       (∃ em, f = true ∧ react s1.commands l1.offset l1.step l1.cmd l1.paths x = .ok (.fatal em)) ∨
       (∃ em, f = false ∧ react s1.commands l1.offset l1.step l1.cmd l1.paths x = .ok (.lost em)) ∨
       (∃ em o c p, f = false ∧ react s1.commands l1.offset l1.step l1.cmd l1.paths x = .ok (.skip em o c p))) →
      StoppedStd s b { s1 with fatal := some f }
  /-- after `fatal` and `error_message` were set, before `state` (496-500, 509-516, 540-548) -/
  | setError {s0 l m1 x m2 s1 l1 f e} : startLoop s b = (s0, .ok l) → b.msgs = m1 ++ x :: m2 →
      loop s0 l m1 = (s1, .ok ⟨false, l1⟩) →
      ((∃ ex, f = true ∧ e = .violation ex x.1 ∧ react s1.commands l1.offset l1.step l1.cmd l1.paths x = .ok (.violation ex)) ∨
       (∃ em, f = true ∧ e = .server em ∧ react s1.commands l1.offset l1.step l1.cmd l1.paths x = .ok (.fatal em)) ∨
       (∃ em, f = false ∧ e = .server em ∧ react s1.commands l1.offset l1.step l1.cmd l1.paths x = .ok (.lost em))) →
      StoppedStd s b { s1 with fatal := some f, errorMessage := some e }
  /-- after the messages were pushed (585), before `last` is stored -/
  | pushed {s0 l s1 l1} : startLoop s b = (s0, .ok l) → loop s0 l b.msgs = (s1, .ok ⟨false, l1⟩) →
      StoppedStd s b { s1 with completed := pushCompleted s1.completed b.id l1.processed }
  /-- after `last` was stored (588), before the state is switched -/
  | stored {s0 l s1 l1} : startLoop s b = (s0, .ok l) → loop s0 l b.msgs = (s1, .ok ⟨false, l1⟩) →
      StoppedStd s b { s1 with completed := pushCompleted s1.completed b.id l1.processed, lastId := b.id, last1 := s1.last2,
                               last2 := ⟨l1.offset, l1.step⟩ }
  /-- after everything, before the connection drops the batch -/
  | done {s0 l s1 l1} : startLoop s b = (s0, .ok l) → loop s0 l b.msgs = (s1, .ok ⟨false, l1⟩) →
      StoppedStd s b (finish s1 b l1)

/-- The installed fast path applies to the batch: COPY lines or rows only. -/
def FastBranch (s : Inst) (b : Batch) : Prop :=
  (s.state = .receiving .putCopydata ∧ ∀ x ∈ b.msgs, x.1 = 100) ∨ (s.state = .receiving .putTupledata ∧ ∀ x ∈ b.msgs, x.1 = 68)

/-- Left inside the operation that receives `b`. -/
inductive Stopped (s : Inst) (b : Batch) : Inst → Prop
  /-- in `standard_put`, called directly or by a fast path that gave up (628-633, 668-674) -/
  | std {t} : deliver s b = standardPut { s with state := .receiving .standardPut } b →
      StoppedStd { s with state := .receiving .standardPut } b t → Stopped s b t
  /-- in a fast path, after the messages were pushed (635-636, 676-677) -/
  | fastPushed {rows} : FastBranch s b → deliver s b = fastPush s b rows →
      Stopped s b { s with completed := pushCompleted s.completed b.id rows }
  /-- in a fast path, after `last` was stored -/
  | fastDone {rows} : FastBranch s b → deliver s b = fastPush s b rows → Stopped s b (fastPush s b rows).1

end PG.Spec.Xact
