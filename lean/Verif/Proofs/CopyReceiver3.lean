import Verif.Proofs.CopyReceiver2
import Verif.Spec.Lifecycle
/-!
# What was sent earlier does not matter to what a connection does
-/
namespace PG.CopyReceiver
open PG PG.Element3 PG.Xact3 PG.Client3 PG.Lifecycle PG.CopyLoad PG.Spec.Client PG.Spec.Lifecycle

variable {X : Type}

/-- The same connection, had `w` been sent before. -/
def pre (w : Bytes) (c : Conn X) : Conn X := { c with wire := w ++ c.wire }

/-- The same for a result. -/
def pre2 {α : Type} (w : Bytes) (r : Conn X × α) : Conn X × α := (pre w r.1, r.2)

theorem sendLoop_shift (w : Bytes) : ∀ (evs : List SendEv) (d x : Bytes), sendLoop evs d (w ++ x) = match sendLoop evs d x with | (e, v, y, r) => (e, v, w ++ y, r)
  | evs, [], x => by cases evs <;> rfl
  | [], y :: ys, x => rfl
  | .sent n :: evs, y :: ys, x => by
    rw [sendLoop, sendLoop, List.append_assoc]
    exact sendLoop_shift w evs _ _
  | .err k :: evs, y :: ys, x => rfl

theorem sendMessageData_shift (o : Ops X) (w : Bytes) (c : Conn X) : sendMessageData o (pre w c) = pre2 w (sendMessageData o c) := by
  unfold sendMessageData
  rw [show (pre w c).wire = w ++ c.wire from rfl, show (pre w c).sends = c.sends from rfl, show (pre w c).messageData = c.messageData from rfl, sendLoop_shift]
  generalize sendLoop c.sends c.messageData c.wire = z
  obtain ⟨e, v, y, r⟩ := z
  cases r with
  | ret u => rfl
  | blocked => rfl
  | raised e =>
    cases e with
    | py e => rfl
    | sock k => cases k <;> rfl

theorem catWriting_shift (w : Bytes) (c : Conn X) : catWriting (pre w c) = (match catWriting c with | .ok c => .ok (pre w c) | .error e => .error e) := by
  obtain ⟨x, gc, gs, st, rd, rdd, md, wr, wn, sta, ni, se, re, wi, rc, lo, ta, tc, ts, cl⟩ := c
  unfold catWriting pre
  dsimp only
  cases wr with
  | none => rfl
  | some m =>
    dsimp only
    by_cases h : wn.map (·.id) = some m.id
    · rw [if_pos h, if_pos h]
    · rw [if_neg h, if_neg h]
      cases catMessages m.items <;> rfl

theorem writeMessages_shift (o : Ops X) (w : Bytes) (c : Conn X) (m : Obj) : writeMessages o (pre w c) m = pre2 w (writeMessages o c m) := by
  unfold writeMessages
  dsimp only
  rw [show ({ pre w c with log := (pre w c).log ++ [m] } : Conn X) = pre w { c with log := c.log ++ [m] } from rfl, catWriting_shift]
  generalize ({ c with log := c.log ++ [m] } : Conn X) = d
  cases catWriting d with
  | error e => rfl
  | ok d =>
    dsimp only
    rw [show (pre w d).writing = d.writing from rfl]
    by_cases h : d.writing.map (·.id) = some m.id
    · rw [if_pos h, if_pos h]
      exact sendMessageData_shift o w d
    · rw [if_neg h, if_neg h]
      cases catMessages m.items with
      | error e => rfl
      | ok b => exact sendMessageData_shift o w { d with writing := some m, messageData := d.messageData ++ b, written := some m }

theorem readIntoLoop_shift (o : Ops X) (w : Bytes) : ∀ (evs : List RecvEv) (c : Conn X), readIntoLoop o (pre w c) evs = pre2 w (readIntoLoop o c evs)
  | [], c => by
    unfold readIntoLoop
    rw [show (pre w c).stream = c.stream from rfl]
    cases PBuffer.hasMessage c.stream with
    | error e => rfl
    | ok b => cases b <;> rfl
  | ev :: evs, c => by
    unfold readIntoLoop
    rw [show (pre w c).stream = c.stream from rfl]
    cases PBuffer.hasMessage c.stream with
    | error e => rfl
    | ok b =>
      cases b with
      | true => rfl
      | false =>
        cases ev with
        | err k => cases k <;> rfl
        | data d =>
          cases d with
          | nil => rfl
          | cons x xs => exact readIntoLoop_shift o w evs { c with stream := PBuffer.write c.stream (x :: xs), received := c.received ++ (x :: xs) }

theorem readInto_shift (o : Ops X) (w : Bytes) (c : Conn X) : readInto o (pre w c) = pre2 w (readInto o c) := by
  unfold readInto
  rw [show (pre w c).stream = c.stream from rfl, show (pre w c).readData = c.readData from rfl]
  cases PBuffer.hasMessage c.stream with
  | error e => rfl
  | ok b =>
    cases b with
    | true => rfl
    | false =>
      cases c.readData with
      | none => exact readIntoLoop_shift o w c.recvs c
      | some d => exact readIntoLoop_shift o w c.recvs { c with stream := PBuffer.write c.stream d, readData := none }

theorem readMessages_shift (o : Ops X) (w : Bytes) (c : Conn X) : readMessages o (pre w c) = pre2 w (readMessages o c) := by
  unfold readMessages
  rw [show (pre w c).read = c.read from rfl, readInto_shift]
  by_cases h : c.read.msgs ≠ []
  · rw [if_pos h, if_pos h]; rfl
  · rw [if_neg h, if_neg h]
    generalize readInto o c = z
    obtain ⟨d, r⟩ := z
    cases r with
    | raised e => rfl
    | blocked => rfl
    | ret b =>
      unfold pre2
      dsimp only
      rw [show (pre w d).stream = d.stream from rfl]
      generalize PBuffer.read d.stream = q
      obtain ⟨q, s⟩ := q
      cases q <;> rfl

theorem putRead_shift (o : Ops X) (w : Bytes) (c : Conn X) (op x : X) : putRead o (pre w c) op x = pre2 w (putRead o c op x) := by
  unfold putRead
  rw [show (pre w c).read = c.read from rfl]
  generalize o.put op x c.read = q
  obtain ⟨y, q⟩ := q
  cases q <;> rfl

theorem handler_shift (o : Ops X) (w : Bytes) (c : Conn X) (e : CErr) : handler o (pre w c) e = pre2 w (handler o c e) := by
  cases e with
  | py e => rfl
  | sock k => cases k <;> rfl

theorem completePass_shift (o : Ops X) (w : Bytes) (c : Conn X) (x : X) : completePass o (pre w c) x = pre2 w (completePass o c x) := by
  unfold completePass
  cases o.dir x with
  | complete => rfl
  | receiving =>
    dsimp only
    rw [readMessages_shift]
    generalize readMessages o c = z
    obtain ⟨d, r⟩ := z
    cases r with
    | raised e => exact handler_shift o w d e
    | blocked => rfl
    | ret b =>
      cases b with
      | false => rfl
      | true =>
        unfold pre2
        dsimp only
        rw [putRead_shift]
        generalize putRead o d x x = z
        obtain ⟨e, r⟩ := z
        cases r with
        | ret u => rfl
        | raised er => exact handler_shift o w e er
        | blocked => rfl
  | sending =>
    dsimp only
    rw [writeMessages_shift]
    generalize writeMessages o c (o.messages x) = z
    obtain ⟨d, r⟩ := z
    cases r with
    | raised e => exact handler_shift o w d e
    | blocked => rfl
    | ret b => cases b <;> rfl

theorem settle_shift (o : Ops X) (w : Bytes) (c : Conn X) : settle o (pre w c) = pre w (settle o c) := by
  unfold settle
  rw [show (pre w c).xact = c.xact from rfl]
  cases c.xact with
  | none => rfl
  | some x =>
    dsimp only
    split <;> rfl

theorem complete_shift (o : Ops X) (w : Bytes) : ∀ (n : Nat) (c : Conn X), complete o n (pre w c) = pre2 w (complete o n c)
  | 0, c => rfl
  | n + 1, c => by
    unfold complete
    rw [show (pre w c).xact = c.xact from rfl]
    cases c.xact with
    | none => rfl
    | some x =>
      dsimp only
      rw [completePass_shift]
      generalize completePass o c x = z
      obtain ⟨d, p⟩ := z
      cases p with
      | again => exact complete_shift o w n d
      | done => unfold pre2; dsimp only; rw [settle_shift]
      | raised e => rfl
      | blocked => rfl

theorem drive_shift (o : Ops X) (w : Bytes) : ∀ (n : Nat) (c : Conn X), drive o n (pre w c) = pre2 w (drive o n c)
  | 0, c => rfl
  | n + 1, c => by
    unfold drive
    rw [show (pre w c).xact = c.xact from rfl]
    cases c.xact with
    | none => rfl
    | some x =>
      dsimp only
      rw [completePass_shift]
      generalize completePass o c x = z
      obtain ⟨d, p⟩ := z
      cases p with
      | again => exact drive_shift o w n d
      | done => rfl
      | raised e => rfl
      | blocked => rfl

theorem stepHandler_shift (w : Bytes) (c : Conn X) (e : CErr) : stepHandler (pre w c) e = pre2 w (stepHandler c e) := by
  cases e with
  | py e => rfl
  | sock k => cases k <;> rfl

theorem stepEnd_shift (o : Ops X) (w : Bytes) (c : Conn X) : stepEnd o (pre w c) = pre w (stepEnd o c) := by
  unfold stepEnd
  rw [show (pre w c).xact = c.xact from rfl]
  cases c.xact with
  | none => rfl
  | some x =>
    dsimp only
    split <;> rfl

theorem noteReady_shift (o : Ops X) (w : Bytes) (c : Conn X) (x : X) : noteReady o (pre w c) x = pre w (noteReady o c x) := rfl

theorem step_shift (o : Ops X) (w : Bytes) (c : Conn X) : step o (pre w c) = pre2 w (step o c) := by
  unfold step
  rw [show (pre w c).xact = c.xact from rfl]
  cases c.xact with
  | none => rfl
  | some x =>
    dsimp only
    cases o.dir x with
    | complete => rfl
    | sending =>
      dsimp only
      rw [writeMessages_shift]
      generalize writeMessages o c (o.messages x) = z
      obtain ⟨d, r⟩ := z
      cases r with
      | raised e => exact stepHandler_shift w d e
      | blocked => rfl
      | ret b =>
        unfold pre2
        dsimp only
        rw [← stepEnd_shift]
        rfl
    | receiving =>
      dsimp only
      rw [readMessages_shift]
      generalize readMessages o c = z
      obtain ⟨d, r⟩ := z
      cases r with
      | raised e => exact stepHandler_shift w d e
      | blocked => rfl
      | ret b =>
        unfold pre2
        dsimp only
        rw [show (pre w d).xact = d.xact from rfl, putRead_shift]
        generalize putRead o d x (d.xact.getD x) = z
        obtain ⟨e, r⟩ := z
        cases r with
        | ret u =>
          unfold pre2
          dsimp only
          rw [show (pre w e).xact = e.xact from rfl, noteReady_shift, stepEnd_shift]
        | raised er => exact stepHandler_shift w e er
        | blocked => rfl

theorem stepRaw_shift (o : Ops X) (w : Bytes) (c : Conn X) : stepRaw o (pre w c) = pre2 w (stepRaw o c) := by
  unfold stepRaw
  rw [show (pre w c).xact = c.xact from rfl]
  cases c.xact with
  | none => rfl
  | some x =>
    dsimp only
    cases o.dir x with
    | complete => rfl
    | sending =>
      dsimp only
      rw [writeMessages_shift]
      generalize writeMessages o c (o.messages x) = z
      obtain ⟨d, r⟩ := z
      cases r with
      | raised e => unfold pre2; dsimp only; rw [stepHandler_shift]; rfl
      | blocked => rfl
      | ret b => rfl
    | receiving =>
      dsimp only
      rw [readMessages_shift]
      generalize readMessages o c = z
      obtain ⟨d, r⟩ := z
      cases r with
      | raised e => unfold pre2; dsimp only; rw [stepHandler_shift]; rfl
      | blocked => rfl
      | ret b =>
        unfold pre2
        dsimp only
        rw [show (pre w d).xact = d.xact from rfl, putRead_shift]
        generalize putRead o d x (d.xact.getD x) = z
        obtain ⟨e, r⟩ := z
        cases r with
        | ret u => rfl
        | raised er => unfold pre2; dsimp only; rw [stepHandler_shift]; rfl
        | blocked => rfl

theorem maybe_shift (o : Ops X) (w : Bytes) (n : Nat) (b : Prop) [Decidable b] (c : Conn X) :
    (if b then complete o n (pre w c) else (pre w c, .ret ())) = pre2 w (if b then complete o n c else (c, .ret ())) := by
  split
  · exact complete_shift o w n c
  · rfl

theorem takeOutTrash_shift (o : Ops X) (f : Finalizers) (w : Bytes) (c : Conn X) : takeOutTrash o f (pre w c) = pre w (takeOutTrash o f c) := rfl

theorem push_shift (o : Ops X) (f : Finalizers) (n : Nat) (w : Bytes) (c : Conn X) (x : X) : push o f n (pre w c) x = pre2 w (push o f n c x) := by
  unfold push
  by_cases h : o.dir x = .complete
  · rw [if_pos h, if_pos h]; rfl
  · rw [if_neg h, if_neg h, show (pre w c).xact = c.xact from rfl, maybe_shift]
    generalize (if c.xact.isSome then complete o n c else (c, .ret ())) = z
    obtain ⟨d, r⟩ := z
    cases r with
    | raised e => rfl
    | blocked => rfl
    | ret u =>
      unfold pre2
      dsimp only
      rw [show (pre w d).xact = d.xact from rfl, show (pre w d).garbageStatements = d.garbageStatements from rfl, show (pre w d).garbageCursors = d.garbageCursors from rfl]
      by_cases h1 : d.xact.isSome = true
      · rw [if_pos h1, if_pos h1]
      · rw [if_neg h1, if_neg h1, takeOutTrash_shift]
        have : (if d.garbageStatements ≠ [] ∨ d.garbageCursors ≠ [] then complete o n (pre w (takeOutTrash o f d)) else (pre w d, Res.ret ())) =
          pre2 w (if d.garbageStatements ≠ [] ∨ d.garbageCursors ≠ [] then complete o n (takeOutTrash o f d) else (d, .ret ())) := by
          split
          · exact complete_shift o w n _
          · rfl
        rw [this]
        generalize (if d.garbageStatements ≠ [] ∨ d.garbageCursors ≠ [] then complete o n (takeOutTrash o f d) else (d, Res.ret ())) = z
        obtain ⟨e, r⟩ := z
        cases r with
        | raised e => rfl
        | blocked => rfl
        | ret u =>
          unfold pre2
          dsimp only
          rw [show (pre w e).xact = e.xact from rfl]
          by_cases h2 : e.xact.isSome = true
          · rw [if_pos h2, if_pos h2]
          · rw [if_neg h2, if_neg h2]
            exact step_shift o w { e with xact := some x }

theorem synchronize_shift (o : Ops X) (n : Nat) (w : Bytes) (c : Conn X) : synchronize o n (pre w c) = pre2 w (synchronize o n c) := by
  unfold synchronize
  rw [show (pre w c).xact = c.xact from rfl, maybe_shift]
  generalize (if c.xact.isSome then complete o n c else (c, .ret ())) = z
  obtain ⟨d, r⟩ := z
  cases r with
  | raised e => rfl
  | blocked => rfl
  | ret u => exact complete_shift o w n { d with xact := some (o.instruction d.nextId [.empty .synchronize]), nextId := d.nextId + 1 }

end PG.CopyReceiver
