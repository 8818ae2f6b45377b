import Verif.Spec.Lifecycle
import Verif.Proofs.Client3c
/-!
# Facts about the life of a connection
-/
namespace PG.Lifecycle
open PG PG.Element3 PG.Xact3 PG.Client3 PG.Spec.Client PG.Spec.Lifecycle

theorem dbOps_lawful : Lawful dbOps :=
  ⟨fun x => by cases x <;> rfl, fun x => by cases x <;> rfl⟩

theorem dbOps_sends : Sends dbOps := by
  intro x y hx hy hd
  cases x with
  | closing b => rcases hy with rfl | rfl <;> rfl
  | inst x =>
    have hst : ∃ st, x.inst.state = .sending st := by
      have hx : dirOf x.inst = .sending := hx
      unfold dirOf at hx
      cases hs : x.inst.state with
      | sending st => exact ⟨st, rfl⟩
      | receiving st => rw [hs] at hx; cases hx
      | complete => rw [hs] at hx; cases hx
    obtain ⟨st, hst⟩ := hst
    rcases hy with rfl | rfl
    · exfalso
      have hd : dirOf (sentAs x.inst.state x.inst) = .complete := hd
      unfold dirOf sentAs at hd
      rw [hst] at hd
      cases st with
      | standardSent => cases hd
      | sentFromStdin =>
        dsimp only at hd
        split at hd
        · cases hd
        · cases hd
        · rename_i h
          split at h <;> cases h
    · show ((sentAs x.inst.state { x.inst with state := .complete, fatal := some true, errorMessage := none }).fatal == some true) = true
      have : (sentAs x.inst.state { x.inst with state := .complete, fatal := some true, errorMessage := none }).fatal = some true := by
        unfold sentAs
        split
        · rfl
        · split <;> rfl
        · rfl
      rw [this]
      rfl

theorem fatal_iff (x : Y) : dbOps.fatal x = true ↔ fatalOf x = some true := by
  cases x with
  | inst x => show (x.inst.fatal == some true) = true ↔ x.inst.fatal = some true; simp
  | closing d => cases d <;> simp [dbOps, fatalOf]

/-- The transaction failed fatally and is complete. -/
def Dead (c : Conn Y) : Prop := ∃ x, c.xact = some x ∧ dbOps.dir x = .complete ∧ fatalOf x = some true

theorem dead_noteReady {c : Conn Y} (x : Y) (h : Dead c) : Dead (noteReady dbOps c x) := h

theorem dead_plug {c : Conn Y} (b : Bool) (h : Dead c) : Dead (plug b c) := by
  cases b
  · exact h
  · exact h

theorem settle_dead {c : Conn Y} (h : Dead c) : settle dbOps c = c := by
  obtain ⟨x, hx, _, hf⟩ := h
  unfold settle
  rw [hx]
  dsimp only
  rw [if_pos ((fatal_iff x).2 hf)]

theorem drive_dead (n : Nat) {c : Conn Y} {x : Y} (hx : c.xact = some x) (hd : dbOps.dir x = .complete) :
    drive dbOps (n + 1) c = (noteReady dbOps c x, .ret ()) := by
  unfold drive
  rw [hx]
  dsimp only
  unfold completePass
  rw [hd]

theorem settle_drive_dead {c d : Conn Y} {n : Nat} (h : drive dbOps n c = (d, .ret ())) : (settle dbOps d).xact = none ∨ Dead (settle dbOps d) := by
  obtain ⟨x, hx, hd⟩ := drive_ret dbOps_lawful n c d h
  unfold settle
  rw [hx]
  dsimp only
  split
  · rename_i hf
    exact .inr ⟨x, hx, hd, (fatal_iff x).1 hf⟩
  · exact .inl rfl

theorem complete_dead {c d : Conn Y} {n : Nat} (h : complete dbOps n c = (d, .ret ())) : d.xact = none ∨ Dead d := by
  rw [complete_drive] at h
  cases hz : drive dbOps n c with
  | mk e r =>
    rw [hz] at h
    cases r with
    | ret u => cases u; cases h; exact settle_drive_dead hz
    | raised e => cases h
    | blocked => cases h

/-! ## Being fatal is kept by the sender and the connection -/

theorem complete_isDead {c : Conn Y} {n : Nat} (hd : Dead c) : Dead (complete dbOps n c).1 ∧
    (complete dbOps n c).1.wire = c.wire ∧ (complete dbOps n c).1.received = c.received := by
  obtain ⟨x, hx, h1, h2⟩ := id hd
  cases n with
  | zero => exact ⟨hd, rfl, rfl⟩
  | succ n =>
    rw [complete_drive, drive_dead n hx h1]
    dsimp only
    rw [settle_dead (dead_noteReady x hd)]
    exact ⟨hd, rfl, rfl⟩

/-- A call leaves a dead connection dead, and nothing is sent or received. -/
def Still (db : Db) (r : Db × Outcome) : Prop :=
  ∃ c d, db.pq = .conn c ∧ r.1.pq = .conn d ∧ Dead d ∧ d.wire = c.wire ∧ d.received = c.received ∧ (db.socket = false → r.1.socket = false)

theorem plug_wire (b : Bool) (c : Conn Y) : (plug b c).wire = c.wire ∧ (plug b c).received = c.received ∧ (plug b c).xact = c.xact ∧
    (plug b c).writing = c.writing ∧ (plug b c).nextId = c.nextId ∧ (plug b c).log = c.log := by
  cases b <;> exact ⟨rfl, rfl, rfl, rfl, rfl, rfl⟩

theorem pqPush_dead (f : Finalizers) (n : Nat) (db : Db) (y : Y) {c : Conn Y} (hc : db.pq = .conn c) (hd : Dead c) :
    Still db (pqPush f n db y) ∧ (pqPush f n db y).2 ≠ .ok := by
  obtain ⟨x, hx, h1, h2⟩ := id hd
  obtain ⟨w1, w2, w3, _⟩ := plug_wire db.socket c
  unfold pqPush
  rw [hc]
  dsimp only
  rw [w3, hx]
  dsimp only
  cases n with
  | zero => exact ⟨⟨c, _, hc, rfl, dead_plug _ hd, w1, w2, id⟩, by simp [drive, outOf]⟩
  | succ n =>
    rw [drive_dead n (w3.trans hx) h1]
    have hn : (noteReady dbOps (plug db.socket c) x).xact = some x := w3.trans hx
    dsimp only
    rw [hn]
    dsimp only
    rw [h2]
    dsimp only
    rw [settle_dead (dead_noteReady x (dead_plug _ hd))]
    exact ⟨⟨c, _, hc, rfl, dead_plug _ hd, w1, w2, id⟩, by simp⟩

theorem pqComplete_dead (n : Nat) (db : Db) {c : Conn Y} (hc : db.pq = .conn c) (hd : Dead c) :
    Still db (pqComplete n db) ∧ (pqComplete n db).2 ≠ .ok := by
  obtain ⟨x, hx, h1, h2⟩ := id hd
  obtain ⟨w1, w2, w3, _⟩ := plug_wire db.socket c
  unfold pqComplete
  rw [hc]
  dsimp only
  rw [w3, hx]
  dsimp only
  cases n with
  | zero => exact ⟨⟨c, _, hc, rfl, dead_plug _ hd, w1, w2, id⟩, by simp [drive, outOf]⟩
  | succ n =>
    rw [drive_dead n (w3.trans hx) h1]
    have hn : (noteReady dbOps (plug db.socket c) x).xact = some x := w3.trans hx
    dsimp only
    rw [hn, settle_dead (dead_noteReady x (dead_plug _ hd))]
    dsimp only [Option.bind_some]
    rw [h2]
    exact ⟨⟨c, _, hc, rfl, dead_plug _ hd, w1, w2, id⟩, by simp⟩

theorem pqStep_dead (db : Db) {c : Conn Y} (hc : db.pq = .conn c) (hd : Dead c) :
    Still db (pqStep db) ∧ (pqStep db).2 ≠ .ok := by
  obtain ⟨x, hx, h1, h2⟩ := id hd
  obtain ⟨w1, w2, w3, _⟩ := plug_wire db.socket c
  unfold pqStep
  rw [hc]
  dsimp only
  rw [w3, hx]
  dsimp only
  have : stepRaw dbOps (plug db.socket c) = (plug db.socket c, false, .raised (.py .runtimeError)) := by
    unfold stepRaw
    rw [w3, hx]
    dsimp only
    rw [h1]
  rw [this]
  exact ⟨⟨c, _, hc, rfl, dead_plug _ hd, w1, w2, id⟩, by simp [outOf]⟩

theorem pqGive_dead (m : Option (Nat × List Item)) (db : Db) {c : Conn Y} (hc : db.pq = .conn c) (hd : Dead c) : pqGive m db = db := by
  obtain ⟨x, hx, h1, h2⟩ := id hd
  unfold pqGive
  rw [hc]
  dsimp only
  rw [hx]
  cases x with
  | closing d => rfl
  | inst x =>
    dsimp only
    rw [if_neg]
    intro h
    have h1 : dirOf x.inst = .complete := h1
    rw [h1] at h
    cases h

theorem close_dead (f : Finalizers) (n : Nat) (db : Db) {c : Conn Y} (hc : db.pq = .conn c) (hd : Dead c) :
    Still db (close f n db) ∧ (close f n db).2 = .ok ∧ (close f n db).1.socket = false ∧ (close f n db).1.pq = db.pq := by
  obtain ⟨x, hx, h1, h2⟩ := id hd
  unfold close
  rw [hc]
  dsimp only
  by_cases hs : db.socket = false
  · rw [if_pos hs]
    exact ⟨⟨c, c, hc, hc, hd, rfl, rfl, fun _ => hs⟩, rfl, hs, hc⟩
  · have e1 : closeFirst n c = (c, .ret ()) := by
      unfold closeFirst
      rw [hx]
      dsimp only
      rw [if_neg (fun h => h h2)]
    have e2 : closeSecond f n c = (c, .ret ()) := by
      unfold closeSecond
      rw [hx]
    rw [if_neg hs, e1]
    dsimp only
    rw [e2]
    exact ⟨⟨c, c, hc, rfl, hd, rfl, rfl, fun _ => rfl⟩, rfl, rfl, rfl⟩

theorem connect_dead (r : Established) (db : Db) {c : Conn Y} (hc : db.pq = .conn c) (hd : Dead c) :
    (connect r db).1 = db ∧ (connect r db).2 ≠ .ok := by
  obtain ⟨x, hx, h1, h2⟩ := id hd
  have hcl : closed db = true := by
    unfold closed
    rw [hc]
    dsimp only
    rw [hx]
    simp [h2]
  unfold connect
  rw [hcl, if_neg (by simp), hc]
  dsimp only
  rw [hx]
  exact ⟨rfl, by simp⟩

theorem closed_dead (db : Db) {c : Conn Y} (hc : db.pq = .conn c) (hd : Dead c) : closed db = true := by
  obtain ⟨x, hx, h1, h2⟩ := id hd
  unfold closed
  rw [hc]
  dsimp only
  rw [hx]
  simp [h2]

/-- The object written last is older than the next new object. -/
def Old (c : Conn Y) : Prop := ∀ m k, c.writing = some m → m.id = .commands k → k < c.nextId

theorem failXact_dead {c : Conn Y} {x : Y} (hx : c.xact = some x) : Dead (failXact dbOps c) := by
  refine ⟨dbOps.fail x, ?_, dbOps_lawful.fail_complete x, (fatal_iff _).1 (dbOps_lawful.fail_fatal x)⟩
  unfold failXact
  rw [hx]
  rfl

theorem catWriting_ok {c d : Conn Y} (h : catWriting c = .ok d) :
    d.writing = c.writing ∧ d.wire = c.wire ∧ d.received = c.received ∧ d.nextId = c.nextId ∧ d.xact = c.xact ∧ d.sends = c.sends := by
  unfold catWriting at h
  split at h
  · cases h; exact ⟨rfl, rfl, rfl, rfl, rfl, rfl⟩
  · split at h
    · cases h; exact ⟨rfl, rfl, rfl, rfl, rfl, rfl⟩
    · split at h
      · cases h
      · cases h; exact ⟨rfl, rfl, rfl, rfl, rfl, rfl⟩

theorem sync_bytes : catMessages [Item.msg (.empty .synchronize)] = .ok [83, 0, 0, 0, 4] := by decide +kernel

theorem syncPass (c : Conn Y) (k : Nat) (hx : c.xact = some (.inst (instOps.instruction k [.empty .synchronize])))
    (hs : c.sends = [.err .other]) (hw : ∀ m, c.writing = some m → m.id ≠ .commands k) :
    ∃ d, completePass dbOps c (.inst (instOps.instruction k [.empty .synchronize])) = (d, .done) ∧ Dead d ∧ d.wire = c.wire ∧
      d.received = c.received ∧ d.nextId = c.nextId ∧ (d.writing = c.writing ∨ ∃ m, d.writing = some m ∧ m.id = .commands k) := by
  unfold completePass
  have hdir : dbOps.dir (.inst (instOps.instruction k [.empty .synchronize])) = .sending := rfl
  have hm : dbOps.messages (.inst (instOps.instruction k [.empty .synchronize])) = ⟨.commands k, [.msg (.empty .synchronize)]⟩ := rfl
  rw [hdir, hm]
  dsimp only
  unfold writeMessages
  dsimp only
  cases hcat : catWriting { c with log := c.log ++ [⟨.commands k, [.msg (.empty .synchronize)]⟩] } with
  | error e =>
    dsimp only
    refine ⟨_, rfl, failXact_dead (x := .inst (instOps.instruction k [.empty .synchronize])) hx, rfl, rfl, rfl, .inl rfl⟩
  | ok d =>
    obtain ⟨e1, e2, e3, e4, e5, e6⟩ := catWriting_ok hcat
    dsimp only at e1 e2 e3 e4 e5 e6 ⊢
    have hne : ¬ d.writing.map (·.id) = some (OId.commands k) := by
      rw [e1]
      cases hcw : c.writing with
      | none => simp
      | some m => intro h; exact hw m hcw (Option.some.inj h)
    rw [if_neg hne, sync_bytes]
    dsimp only
    unfold sendMessageData
    dsimp only
    rw [e6, hs]
    have hl : ∃ y ys, d.messageData ++ [83, 0, 0, 0, 4] = y :: ys := by
      cases d.messageData with
      | nil => exact ⟨_, _, rfl⟩
      | cons a l => exact ⟨_, _, rfl⟩
    obtain ⟨y, ys, hl⟩ := hl
    rw [hl]
    have : sendLoop [.err .other] (y :: ys) d.wire = ([], y :: ys, d.wire, .raised (.sock .other)) := rfl
    rw [this]
    dsimp only
    refine ⟨_, rfl, failXact_dead (x := .inst (instOps.instruction k [.empty .synchronize])) (e5.trans hx), e2, e3, e4, .inr ⟨_, rfl, rfl⟩⟩

theorem synchronize_dead (n : Nat) {p : Conn Y} (hs : p.sends = [.err .other]) (hd : Dead p) (ho : Old p) :
    Dead (synchronize dbOps n p).1 ∧ Old (synchronize dbOps n p).1 ∧ (synchronize dbOps n p).1.wire = p.wire ∧
      (synchronize dbOps n p).1.received = p.received := by
  obtain ⟨x, hx, h1, h2⟩ := id hd
  have hsome : p.xact.isSome = true := by rw [hx]; rfl
  unfold synchronize
  rw [if_pos hsome]
  cases n with
  | zero => exact ⟨hd, ho, rfl, rfl⟩
  | succ n =>
    rw [complete_drive, drive_dead n hx h1]
    dsimp only
    rw [settle_dead (dead_noteReady x hd)]
    generalize hq : noteReady dbOps p x = q
    have q1 : q.nextId = p.nextId := by rw [← hq]; rfl
    have q2 : q.sends = p.sends := by rw [← hq]; rfl
    have q3 : q.writing = p.writing := by rw [← hq]; rfl
    have q4 : q.wire = p.wire := by rw [← hq]; rfl
    have q5 : q.received = p.received := by rw [← hq]; rfl
    rw [complete_drive]
    unfold drive
    dsimp only
    obtain ⟨d, hz, a1, a2, a3, a4, a5⟩ := syncPass
      { q with xact := some (.inst (instOps.instruction q.nextId [.empty .synchronize])), nextId := q.nextId + 1 } q.nextId rfl (q2.trans hs)
        (fun m hm he => by
          have hm : q.writing = some m := hm
          rw [q3] at hm
          rw [q1] at he
          exact Nat.lt_irrefl _ (ho m _ hm he))
    have hins : dbOps.instruction q.nextId [.empty .synchronize] = .inst (instOps.instruction q.nextId [.empty .synchronize]) := rfl
    rw [hins, hz]
    dsimp only
    rw [settle_dead a1]
    refine ⟨a1, ?_, a2.trans q4, a3.trans q5⟩
    intro m k hm hk
    rw [a4]
    dsimp only at a5 ⊢
    rw [q1, q3] at *
    rcases a5 with h | ⟨m', h, hid⟩
    · exact Nat.lt_succ_of_lt (ho m k (h ▸ hm) hk)
    · rw [h] at hm
      cases hm
      rw [hid] at hk
      cases hk
      exact Nat.lt_succ_self _

theorem pqSynchronize_dead (n : Nat) (db : Db) {c : Conn Y} (hs : db.socket = false) (hc : db.pq = .conn c) (hd : Dead c) (ho : Old c) :
    ∃ d, (pqSynchronize n db).1.pq = .conn d ∧ Dead d ∧ Old d ∧ d.wire = c.wire ∧ d.received = c.received ∧ (pqSynchronize n db).1.socket = false := by
  obtain ⟨w1, w2, w3, w4, w5, _⟩ := plug_wire db.socket c
  obtain ⟨a, b, c', d⟩ := synchronize_dead (p := plug db.socket c) n (by rw [hs]; rfl) (dead_plug _ hd)
    (fun m k hm hk => by rw [w4] at hm; rw [w5]; exact ho m k hm hk)
  unfold pqSynchronize
  rw [hc]
  exact ⟨_, rfl, a, b, c'.trans w1, d.trans w2, hs⟩

end PG.Lifecycle
