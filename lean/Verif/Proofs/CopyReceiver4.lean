import Verif.Proofs.CopyReceiver3
/-!
# What was sent earlier does not matter to what the driver's connection does
-/
namespace PG.CopyReceiver
open PG PG.Element3 PG.Xact3 PG.Client3 PG.Lifecycle PG.CopyLoad PG.Spec.Client PG.Spec.Lifecycle

theorem plug_shift (b : Bool) (w : Bytes) (c : Conn Y) : plug b (pre w c) = pre w (plug b c) := by cases b <;> rfl

/-- The same for the driver's connection. -/
def preDb (w : Bytes) (db : Db) : Db := onConn (pre w) db
def preO (w : Bytes) (r : Db × Outcome) : Db × Outcome := (preDb w r.1, r.2)

theorem preDb_conn {w : Bytes} {db : Db} {c : Conn Y} (h : db.pq = .conn c) : preDb w db = { db with pq := .conn (pre w c) } := by
  unfold preDb onConn
  rw [h]

theorem pqPush_shift (f : Finalizers) (n : Nat) (w : Bytes) (db : Db) (y : Y) {c : Conn Y} (h : db.pq = .conn c) :
    pqPush f n (preDb w db) y = preO w (pqPush f n db y) ∧ ∃ d, (pqPush f n db y).1.pq = .conn d := by
  rw [preDb_conn h]
  unfold pqPush
  rw [h]
  dsimp only
  rw [plug_shift]
  generalize plug db.socket c = p
  rw [show (pre w p).xact = p.xact from rfl]
  cases p.xact with
  | none =>
    dsimp only
    rw [push_shift]
    exact ⟨rfl, _, rfl⟩
  | some x =>
    dsimp only
    rw [drive_shift]
    generalize drive dbOps n p = z
    obtain ⟨d, r⟩ := z
    cases r with
    | raised e => exact ⟨rfl, _, rfl⟩
    | blocked => exact ⟨rfl, _, rfl⟩
    | ret u =>
      unfold pre2
      dsimp only
      rw [settle_shift, show (pre w d).xact = d.xact from rfl, push_shift]
      cases d.xact with
      | none => exact ⟨rfl, _, rfl⟩
      | some x =>
        dsimp only
        cases fatalOf x with
        | none => exact ⟨rfl, _, rfl⟩
        | some b => exact ⟨rfl, _, rfl⟩

theorem pqStart_shift (f : Finalizers) (n : Nat) (w : Bytes) (db : Db) (cmds : List Elem) {c : Conn Y} (h : db.pq = .conn c) :
    pqStart f n (preDb w db) cmds = preO w (pqStart f n db cmds) ∧ ∃ d, (pqStart f n db cmds).1.pq = .conn d := by
  have e := preDb_conn (w := w) h
  rw [e]
  unfold pqStart
  rw [h]
  dsimp only
  cases Xact3.init cmds with
  | error er => exact ⟨by unfold preO; rw [e], _, h⟩
  | ok i => exact pqPush_shift f n w { db with pq := .conn { c with nextId := c.nextId + 1 } } _ rfl

theorem pqComplete_shift (n : Nat) (w : Bytes) (db : Db) {c : Conn Y} (h : db.pq = .conn c) :
    pqComplete n (preDb w db) = preO w (pqComplete n db) ∧ ∃ d, (pqComplete n db).1.pq = .conn d := by
  have e := preDb_conn (w := w) h
  rw [e]
  unfold pqComplete
  rw [h]
  dsimp only
  rw [plug_shift]
  generalize plug db.socket c = p
  rw [show (pre w p).xact = p.xact from rfl]
  cases p.xact with
  | none => exact ⟨by unfold preO; rw [e], _, h⟩
  | some x =>
    dsimp only
    rw [drive_shift]
    generalize drive dbOps n p = z
    obtain ⟨d, r⟩ := z
    cases r with
    | raised e => exact ⟨rfl, _, rfl⟩
    | blocked => exact ⟨rfl, _, rfl⟩
    | ret u =>
      unfold pre2
      dsimp only
      rw [settle_shift, show (pre w d).xact = d.xact from rfl]
      cases d.xact.bind fatalOf with
      | none =>
        dsimp only
        split
        · exact ⟨rfl, _, rfl⟩
        · exact ⟨rfl, _, rfl⟩
      | some b => exact ⟨rfl, _, rfl⟩

theorem pqStep_shift (w : Bytes) (db : Db) {c : Conn Y} (h : db.pq = .conn c) :
    pqStep (preDb w db) = preO w (pqStep db) ∧ ∃ d, (pqStep db).1.pq = .conn d := by
  have e := preDb_conn (w := w) h
  rw [e]
  unfold pqStep
  rw [h]
  dsimp only
  rw [plug_shift]
  generalize plug db.socket c = p
  rw [show (pre w p).xact = p.xact from rfl]
  cases p.xact with
  | none => exact ⟨by unfold preO; rw [e], _, h⟩
  | some x =>
    dsimp only
    rw [stepRaw_shift]
    generalize stepRaw dbOps p = z
    obtain ⟨d, fin, r⟩ := z
    cases r with
    | raised e => exact ⟨rfl, _, rfl⟩
    | blocked => exact ⟨rfl, _, rfl⟩
    | ret u =>
      unfold pre2
      dsimp only
      have hq : (if fin = true then stepEnd dbOps (pre w d) else pre w d) = pre w (if fin = true then stepEnd dbOps d else d) := by
        rw [stepEnd_shift]; split <;> rfl
      rw [hq, show (pre w d).xact = d.xact from rfl]
      cases d.xact with
      | none => exact ⟨rfl, _, rfl⟩
      | some y =>
        dsimp only
        split
        · cases fatalOf y with
          | none =>
            dsimp only
            split
            · exact ⟨rfl, _, rfl⟩
            · exact ⟨rfl, _, rfl⟩
          | some b => exact ⟨rfl, _, rfl⟩
        · exact ⟨rfl, _, rfl⟩

theorem pqSynchronize_shift (n : Nat) (w : Bytes) (db : Db) {c : Conn Y} (h : db.pq = .conn c) :
    pqSynchronize n (preDb w db) = preO w (pqSynchronize n db) ∧ ∃ d, (pqSynchronize n db).1.pq = .conn d := by
  rw [preDb_conn (w := w) h]
  unfold pqSynchronize
  rw [h]
  dsimp only
  rw [plug_shift, synchronize_shift]
  exact ⟨rfl, _, rfl⟩

theorem pqGive_shift (m : Option (Nat × List Item)) (w : Bytes) (db : Db) {c : Conn Y} (h : db.pq = .conn c) :
    pqGive m (preDb w db) = preDb w (pqGive m db) ∧ ∃ d, (pqGive m db).pq = .conn d := by
  have e := preDb_conn (w := w) h
  rw [e]
  unfold pqGive
  rw [h]
  dsimp only
  rw [show (pre w c).xact = c.xact from rfl]
  cases c.xact with
  | none => exact ⟨by rw [← e], _, h⟩
  | some y =>
    cases y with
    | closing b => exact ⟨by rw [← e], _, h⟩
    | inst x =>
      dsimp only
      split
      · cases m with
        | none => exact ⟨rfl, _, rfl⟩
        | some m => exact ⟨rfl, _, rfl⟩
      · exact ⟨by rw [← e], _, h⟩

theorem closeFirst_shift (n : Nat) (w : Bytes) (c : Conn Y) : closeFirst n (pre w c) = pre2 w (closeFirst n c) := by
  unfold closeFirst
  rw [show (pre w c).xact = c.xact from rfl]
  cases c.xact with
  | none => rfl
  | some x =>
    dsimp only
    split
    · exact complete_shift dbOps w n c
    · rfl

theorem closeSecond_shift (f : Finalizers) (n : Nat) (w : Bytes) (c : Conn Y) : closeSecond f n (pre w c) = pre2 w (closeSecond f n c) := by
  unfold closeSecond
  rw [show (pre w c).xact = c.xact from rfl]
  cases c.xact with
  | some x => rfl
  | none =>
    dsimp only
    rw [push_shift]
    generalize push dbOps f n c (.closing false) = z
    obtain ⟨d, r⟩ := z
    cases r with
    | raised e => rfl
    | blocked => rfl
    | ret u =>
      unfold pre2 finishClosing plainComplete
      dsimp only
      rw [complete_shift]
      generalize complete dbOps n d = z
      obtain ⟨e, r⟩ := z
      cases r with
      | raised e => rfl
      | blocked => rfl
      | ret u => exact complete_shift dbOps w n e

theorem close_shift (f : Finalizers) (n : Nat) (w : Bytes) (db : Db) {c : Conn Y} (h : db.pq = .conn c) :
    close f n (preDb w db) = preO w (close f n db) ∧ ∃ d, (close f n db).1.pq = .conn d := by
  have e := preDb_conn (w := w) h
  rw [e]
  unfold close
  rw [h]
  dsimp only
  split
  · exact ⟨by unfold preO; rw [e], _, h⟩
  · rw [closeFirst_shift]
    generalize closeFirst n c = z
    obtain ⟨d, r⟩ := z
    cases r with
    | raised e => exact ⟨rfl, _, rfl⟩
    | blocked => exact ⟨rfl, _, rfl⟩
    | ret u =>
      unfold pre2
      dsimp only
      rw [closeSecond_shift]
      generalize closeSecond f n d = z
      obtain ⟨e, r⟩ := z
      cases r with
      | raised e => exact ⟨rfl, _, rfl⟩
      | blocked => exact ⟨rfl, _, rfl⟩
      | ret u => exact ⟨rfl, _, rfl⟩

theorem connect_shift (r : Established) (w : Bytes) (db : Db) {c : Conn Y} (h : db.pq = .conn c) :
    connect r (preDb w db) = preO w (connect r db) ∧ ∃ d, (connect r db).1.pq = .conn d := by
  have e := preDb_conn (w := w) h
  have hcl : closed { db with pq := .conn (pre w c) } = closed db := by unfold closed; rw [h]; rfl
  have e' : preO w (db, Outcome.ok) = ({ db with pq := .conn (pre w c) }, .ok) := by unfold preO; rw [e]
  rw [e]
  unfold connect
  rw [hcl, h]
  dsimp only
  split
  · exact ⟨e'.symm, _, h⟩
  · rw [show (pre w c).xact = c.xact from rfl]
    cases c.xact with
    | none => exact ⟨by unfold preO; rw [e], _, h⟩
    | some x => exact ⟨by unfold preO; rw [e], _, h⟩

theorem call_shift (w : Bytes) (a : Call) (db : Db) {c : Conn Y} (h : db.pq = .conn c) :
    call (preDb w db) a = preO w (call db a) ∧ ∃ d, (call db a).1.pq = .conn d := by
  cases a with
  | sock s r => rw [preDb_conn h]; unfold call preO preDb onConn; rw [h]; exact ⟨rfl, _, rfl⟩
  | push f n cmds => exact pqStart_shift f n w db cmds h
  | complete n => exact pqComplete_shift n w db h
  | step => exact pqStep_shift w db h
  | synchronize n => exact pqSynchronize_shift n w db h
  | give m =>
    obtain ⟨h1, h2⟩ := pqGive_shift m w db h
    refine ⟨?_, h2⟩
    show (pqGive m (preDb w db), Outcome.ok) = (preDb w (pqGive m db), .ok)
    rw [h1]
  | trashCursor i => rw [preDb_conn h]; unfold call preO preDb onConn; rw [h]; exact ⟨rfl, _, rfl⟩
  | trashStatement i => rw [preDb_conn h]; unfold call preO preDb onConn; rw [h]; exact ⟨rfl, _, rfl⟩
  | close f n => exact close_shift f n w db h
  | connect r => exact connect_shift r w db h

theorem calls_shift (w : Bytes) : ∀ (as : List Call) (db : Db) {c : Conn Y}, db.pq = .conn c →
    (calls (preDb w db) as).1 = preDb w (calls db as).1 ∧ ∃ d, (calls db as).1.pq = .conn d
  | [], db, c, h => ⟨rfl, c, h⟩
  | a :: as, db, c, h => by
    obtain ⟨h1, d, h2⟩ := call_shift w a db h
    unfold calls
    rw [h1]
    generalize call db a = z at *
    obtain ⟨e, o⟩ := z
    unfold preO
    dsimp only at h2 ⊢
    exact calls_shift w as e h2

end PG.CopyReceiver
