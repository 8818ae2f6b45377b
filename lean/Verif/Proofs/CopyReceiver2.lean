import Verif.Proofs.CopyReceiver
/-!
# Receiving into a COPY: what the connection sends when it completes the transaction
-/
namespace PG.CopyReceiver
open PG PG.Element3 PG.Xact3 PG.Client3 PG.Lifecycle PG.CopyLoad PG.Spec.Client

/-- `w`, then `T`, are to be sent: `T` is not yet, or already, among the data. -/
structure Queued (w : Bytes) (T : Obj) (c : Conn Y) : Prop where
  neat : c.written.map (·.id) = c.writing.map (·.id)
  data : (c.writing.map (·.id) ≠ some T.id ∧ c.wire ++ c.messageData = w) ∨ (c.writing.map (·.id) = some T.id ∧ c.wire ++ c.messageData = w ++ bytesOf T)

theorem catWriting_neat {c : Conn Y} (h : c.written.map (·.id) = c.writing.map (·.id)) : catWriting c = .ok c := by
  unfold catWriting
  cases hw : c.writing with
  | none => rfl
  | some o =>
    rw [hw] at h
    dsimp only
    rw [h, Option.map_some, if_pos rfl]

theorem write_queued {w : Bytes} {T : Obj} {c : Conn Y} (hT : Serializable T = true) (h : Queued w T c) :
    rv (writeMessages dbOps c T).1 = rv c ∧ (writeMessages dbOps c T).1.wire ++ (writeMessages dbOps c T).1.messageData = w ++ bytesOf T ∧
    Queued w T (writeMessages dbOps c T).1 ∧
    ((writeMessages dbOps c T).2 = .ret true → (writeMessages dbOps c T).1.messageData = [] ∧ (writeMessages dbOps c T).1.xact = c.xact) ∧
    ((writeMessages dbOps c T).2 = .ret false → (writeMessages dbOps c T).1.xact = c.xact.map dbOps.fail) ∧
    ((∀ r, (writeMessages dbOps c T).2 ≠ .ret r) → (writeMessages dbOps c T).1.xact = c.xact) := by
  unfold writeMessages
  dsimp only
  have hn : catWriting { c with log := c.log ++ [T] } = .ok { c with log := c.log ++ [T] } := catWriting_neat (c := { c with log := c.log ++ [T] }) h.neat
  rw [hn]
  dsimp only
  rcases h.data with ⟨h1, h2⟩ | ⟨h1, h2⟩
  · rw [if_neg h1]
    have hc : catMessages T.items = .ok (bytesOf T) := by
      unfold Serializable at hT
      unfold bytesOf
      cases hh : catMessages T.items with
      | error e => rw [hh] at hT; cases hT
      | ok d => rfl
    rw [hc]
    dsimp only
    obtain ⟨a1, a2, a3, _, a5, a6, a7, a8⟩ := sendMessageData_spec dbOps { c with log := c.log ++ [T], writing := some T, messageData := c.messageData ++ bytesOf T, written := some T }
    dsimp only at a1 a2 a3
    rw [← List.append_assoc, h2] at a1
    exact ⟨a5, a1, ⟨by rw [a2, a3], .inr ⟨by rw [a2]; rfl, a1⟩⟩, a6, a7, a8⟩
  · rw [if_pos h1]
    obtain ⟨a1, a2, a3, _, a5, a6, a7, a8⟩ := sendMessageData_spec dbOps { c with log := c.log ++ [T] }
    dsimp only at a1 a2 a3
    rw [h2] at a1
    exact ⟨a5, a1, ⟨by rw [a2, a3]; exact h.neat, .inr ⟨by rw [a2]; exact h1, a1⟩⟩, a6, a7, a8⟩

/-- While the connection completes the transaction: `w`, then the end `T` of the data. -/
structure Out (w : Bytes) (T : Obj) (k : Nat) (stmt : Bytes) (c : Conn Y) : Prop where
  r : R c
  bound : c.wire ++ c.messageData <+: w ++ bytesOf T
  ours : Ours k stmt c (fun x => 
    (Asked stmt x.inst ∧ Fresh c x.inst ∧ dbOps.messages (.inst x) = T ∧ (x.inst.messages = .copyDone ∨ x.inst.messages = .copyFail) ∧ Queued w T c) ∨
    (Ended stmt x.inst ∧ (x.inst.state = .complete ∨ Fresh c x.inst) ∧ c.messageData = [] ∧ c.wire = w ++ bytesOf T) ∨
    (x.inst.state = .complete ∧ x.inst.fatal = some true))

theorem failed_out {w : Bytes} {T : Obj} {k : Nat} {stmt : Bytes} {d : Conn Y} {x : IX} (hr : R d) (hb : d.wire ++ d.messageData <+: w ++ bytesOf T)
    (hx : d.xact = some (dbOps.fail (.inst x))) (hk : x.oid = k) (hc : x.inst.commands = commands stmt) : Out w T k stmt d :=
  ⟨hr, hb, _, hx, hk, hc, .inr (.inr ⟨rfl, rfl⟩)⟩

theorem out_congr {w : Bytes} {T : Obj} {k : Nat} {stmt : Bytes} {c d : Conn Y} (hw : wv c = wv d) (hr : rv c = rv d) (hx : c.xact = d.xact) (h : Out w T k stmt c) : Out w T k stmt d := by
  have h1 : c.wire = d.wire := (congrArg (·.1) hw :)
  have h2 : c.messageData = d.messageData := (congrArg (·.2.1) hw :)
  have h3 : c.writing = d.writing := (congrArg (·.2.2.1) hw :)
  have h4 : c.written = d.written := (congrArg (·.2.2.2.1) hw :)
  have h5 : c.read = d.read := (congrArg (·.2.2.1) hr :)
  have h6 : c.nextId = d.nextId := (congrArg (·.2.2.2.2.2) hr :)
  refine ⟨R_congr hr h.r, by rw [← h1, ← h2]; exact h.bound, ?_⟩
  obtain ⟨x, a, b, e, g⟩ := h.ours
  refine ⟨x, by rw [← hx]; exact a, b, e, ?_⟩
  rcases g with ⟨g1, g2, g3, g4, g5⟩ | ⟨g1, g2, g3, g4⟩ | g
  · exact .inl ⟨g1, by unfold Fresh at g2 ⊢; rw [← h5, ← h6]; exact g2, g3, g4, ⟨by rw [← h3, ← h4]; exact g5.neat, by rw [← h1, ← h2, ← h3]; exact g5.data⟩⟩
  · exact .inr (.inl ⟨g1, by unfold Fresh at g2 ⊢; rw [← h5, ← h6]; exact g2, by rw [← h2]; exact g3, by rw [← h1]; exact g4⟩)
  · exact .inr (.inr g)

theorem handler_out {w : Bytes} {T : Obj} {k : Nat} {stmt : Bytes} {c : Conn Y} (e : CErr) (h : Out w T k stmt c) : Out w T k stmt (handler dbOps c e).1 := by
  have hf : Out w T k stmt (failXact dbOps { c with state := [] }) := by
    obtain ⟨x, a, b, e, _⟩ := h.ours
    refine failed_out (x := x) (R_congr (c := c) rfl h.r) h.bound ?_ b e
    unfold failXact
    dsimp only
    rw [a]
    rfl
  cases e with
  | py e => exact hf
  | sock s => cases s <;> first | exact h | exact hf

theorem pass_out {w : Bytes} {T : Obj} {k : Nat} {stmt : Bytes} {c : Conn Y} {y : Y} (hT : Serializable T = true) (h : Out w T k stmt c) (hy : c.xact = some y) :
    Out w T k stmt (completePass dbOps c y).1 := by
  obtain ⟨x, hx, hk, hc, g⟩ := h.ours
  rw [hy] at hx
  cases hx
  unfold completePass
  cases hd : dbOps.dir (.inst x) with
  | complete => exact out_congr (c := c) rfl rfl rfl h
  | sending =>
    have hd : dirOf x.inst = .sending := hd
    rcases g with ⟨g1, g2, g3, g4, g5⟩ | ⟨g1, _⟩ | g
    · rw [g3]
      dsimp only
      obtain ⟨a1, a2, a3, a4, a5, a6⟩ := write_queued hT g5
      have hrr : (writeMessages dbOps c T).1.read = c.read := (congrArg (·.2.2.1) a1 :)
      have hnn : (writeMessages dbOps c T).1.nextId = c.nextId := (congrArg (·.2.2.2.2.2) a1 :)
      have hR : R (writeMessages dbOps c T).1 := R_congr a1.symm h.r
      generalize writeMessages dbOps c T = z at *
      obtain ⟨d, r⟩ := z
      dsimp only at *
      have hfr : Fresh d x.inst := by unfold Fresh; rw [hrr, hnn]; exact g2
      have keep : d.xact = c.xact → Out w T k stmt d := fun e => ⟨hR, by rw [a2]; exact List.prefix_rfl, x, e.trans hy, hk, hc, .inl ⟨g1, hfr, g3, g4, a3⟩⟩
      cases r with
      | ret b =>
        cases b with
        | true =>
          dsimp only
          obtain ⟨b1, b2⟩ := a4 rfl
          rw [b1, List.append_nil] at a2
          have hs : sentAs x.inst.state x.inst = { x.inst with messages := .empty, state := .receiving .standardPut } := by
            rw [g1.state]; unfold sentAs; dsimp only; rw [if_pos g4]
          refine ⟨R_congr (c := d) rfl hR, by dsimp only; rw [a2, b1, List.append_nil]; exact List.prefix_rfl, { x with inst := sentAs x.inst.state x.inst }, rfl, hk, by rw [hs]; exact hc, .inr (.inl ⟨?_, .inr ?_, b1, a2⟩)⟩
          · rw [hs]; exact ⟨hc, .inl rfl, .inr (.inl g1.pos)⟩
          · rw [hs]; exact hfr
        | false =>
          dsimp only
          have := a5 rfl
          rw [hy] at this
          exact failed_out (x := x) hR (by rw [a2]; exact List.prefix_rfl) this hk hc
      | raised e => exact handler_out e (keep (a6 (fun r hh => by cases hh)))
      | blocked => exact keep (a6 (fun r hh => by cases hh))
    · unfold dirOf at hd
      rcases g1.state with e | e <;> rw [e] at hd <;> cases hd
    · unfold dirOf at hd; rw [g.1] at hd; cases hd
  | receiving =>
    have hd : dirOf x.inst = .receiving := hd
    dsimp only
    rcases g with ⟨g1, _⟩ | ⟨g1, g2, g3, g4⟩ | g
    · unfold dirOf at hd; rw [g1.state] at hd; cases hd
    · have g2 : Fresh c x.inst := by
        rcases g2 with e | e
        · unfold dirOf at hd; rw [e] at hd; cases hd
        · exact e
      obtain ⟨a1, a2, _, a4, a5, a6, a7, a8⟩ := readMessages_spec dbOps c h.r
      have hrr := readMessages_read c
      generalize readMessages dbOps c = z at *
      obtain ⟨d, r⟩ := z
      dsimp only at *
      have hw : d.wire = c.wire := (congrArg (·.1) a2 :)
      have hm : d.messageData = c.messageData := (congrArg (·.2.1) a2 :)
      have hfr : Fresh d x.inst := by
        refine ⟨Nat.lt_of_lt_of_le g2.1 a4, ?_⟩
        rcases hrr with e | e
        · rw [e]; exact g2.2
        · right; rw [e]; have := g2.1; omega
      have hb : d.wire ++ d.messageData <+: w ++ bytesOf T := by rw [hw, hm]; exact h.bound
      have keep : d.xact = c.xact ∨ d.xact = c.xact.map dbOps.fail → Out w T k stmt d := by
        rintro (e | e)
        · exact ⟨a1, hb, x, e.trans hy, hk, hc, .inr (.inl ⟨g1, .inr hfr, by rw [hm]; exact g3, by rw [hw]; exact g4⟩)⟩
        · rw [hy] at e
          exact failed_out (x := x) a1 hb e hk hc
      cases r with
      | blocked => exact keep (.inl (a8 rfl))
      | raised e => exact handler_out e (keep (a7 e rfl))
      | ret b =>
        cases b with
        | false => exact keep (.inr (a6 rfl).1)
        | true =>
          dsimp only
          obtain ⟨b1, b2, _⟩ := a5 rfl
          have hid : d.read.id ≠ x.inst.lastId := by
            rcases hfr.2 with h | h
            · exact absurd h b2
            · exact h
          obtain ⟨p1, p2, _⟩ := putRead_spec dbOps d (.inst x) (.inst x) a1
          have hst : x.inst.state = .receiving .standardPut := by
            rcases g1.state with h | h
            · exact h
            · unfold dirOf at hd; rw [h] at hd; cases hd
          have hput : dbOps.put (.inst x) (.inst x) d.read = (.inst { x with inst := (putAs x.inst.state x.inst d.read).1 }, (putAs x.inst.state x.inst d.read).2) := rfl
          have hmain : Out w T k stmt (putRead dbOps d (.inst x) (.inst x)).1 := by
            have pw : (putRead dbOps d (.inst x) (.inst x)).1.wire = w ++ bytesOf T := by rw [← g4, ← hw]; exact (congrArg (·.1) p2 :)
            have pm : (putRead dbOps d (.inst x) (.inst x)).1.messageData = [] := by rw [← g3, ← hm]; exact (congrArg (·.2.1) p2 :)
            refine ⟨p1, by rw [pw, pm, List.append_nil]; exact List.prefix_rfl, ?_⟩
            have hu : (putRead dbOps d (.inst x) (.inst x)).1 = match (putAs x.inst.state x.inst d.read) with
              | (i, .error e) => { d with xact := some (.inst { x with inst := i }) }
              | (i, .ok n) => { d with xact := some (.inst { x with inst := i }), taken := d.taken ++ d.read.msgs.take n, read := ⟨d.nextId, d.read.msgs.drop n⟩, nextId := d.nextId + 1 } := by
              unfold putRead
              rw [hput]
              cases putAs x.inst.state x.inst d.read with
              | mk i r => cases r <;> rfl
            rw [hu] at pw pm ⊢
            cases hz : putAs x.inst.state x.inst d.read with
            | mk i r =>
              rw [hz] at pw pm
              cases r with
              | error e =>
                dsimp only at pw pm ⊢
                rw [hst] at hz
                obtain ⟨f1, f2⟩ := standardPut_error (s := x.inst) hz
                obtain ⟨q1, q2, q3, q4, q5, q6, q7⟩ := frame0_fields f1
                refine ⟨{ x with inst := i }, rfl, hk, q1.trans hc, .inr (.inl ⟨⟨q1.trans hc, ?_, ?_⟩, .inr ?_, pm, pw⟩)⟩
                · show i.state = _ ∨ i.state = _
                  rw [f2]; exact g1.state
                · show i.state = _ ∨ i.last2 = _ ∨ i.last2 = _
                  rw [f2, q5]; exact g1.pos
                · unfold Fresh; rw [show _ = x.inst.lastId from q3]; exact hfr
              | ok n =>
                dsimp only at pw pm ⊢
                obtain ⟨e1, e2, e3⟩ := put_ended g1 hd hid hz
                have hids : d.read.id < d.nextId := a1.ids
                refine ⟨{ x with inst := i }, rfl, hk, e1.cmds, .inr (.inl ⟨e1, ?_, pm, pw⟩)⟩
                rcases e2 with e2 | e2
                · exact .inl e2
                · refine .inr ⟨?_, .inr ?_⟩
                  · show i.lastId < d.nextId + 1
                    rw [e2]; omega
                  · show d.nextId ≠ i.lastId
                    rw [e2]; omega
          generalize putRead dbOps d (.inst x) (.inst x) = z at hmain
          obtain ⟨e, r⟩ := z
          cases r with
          | ret u => cases u; exact hmain
          | raised e => exact handler_out e hmain
          | blocked => exact hmain
    · unfold dirOf at hd; rw [g.1] at hd; cases hd

theorem drive_out {w : Bytes} {T : Obj} {k : Nat} {stmt : Bytes} (hT : Serializable T = true) : ∀ (n : Nat) (c : Conn Y), Out w T k stmt c → Out w T k stmt (drive dbOps n c).1
  | 0, _, h => h
  | n + 1, c, h => by
    unfold drive
    cases hx : c.xact with
    | none => exact h
    | some y =>
      dsimp only
      have := pass_out hT h hx
      generalize completePass dbOps c y = z at this
      obtain ⟨d, p⟩ := z
      cases p with
      | again => exact drive_out hT n d this
      | done => exact this
      | raised e => exact this
      | blocked => exact this

/-- Completing: nothing but `w` and `T` goes out, and all of it does unless the connection is lost. -/
theorem complete_out {w : Bytes} {T : Obj} {k : Nat} {stmt : Bytes} {n : Nat} {db db' : Db} {o : Outcome} {c : Conn Y} (hT : Serializable T = true)
    (hc : db.pq = .conn c) (h : Out w T k stmt c) (he : pqComplete n db = (db', o)) :
    ∃ d, db'.pq = .conn d ∧ d.wire <+: w ++ bytesOf T ∧ (o = .ok ∨ (∃ m, o = .dbError false m) → d.wire = w ++ bytesOf T) := by
  unfold pqComplete at he
  rw [hc] at he
  dsimp only at he
  have hp : Out w T k stmt (plug db.socket c) := by
    cases db.socket
    · exact out_congr (c := c) rfl rfl rfl h
    · exact h
  generalize plug db.socket c = p at he hp
  obtain ⟨x, hx, _⟩ := id hp.ours
  rw [hx] at he
  dsimp only at he
  have h1 := drive_out hT n p hp
  have h2 := drive_ret dbOps_lawful n p (drive dbOps n p).1
  generalize drive dbOps n p = z at h1 h2 he
  obtain ⟨d, r⟩ := z
  have hb : d.wire <+: w ++ bytesOf T := List.IsPrefix.trans ⟨_, rfl⟩ h1.bound
  cases r with
  | raised e => cases he; exact ⟨d, rfl, hb, by rintro (h | ⟨m, h⟩) <;> cases h⟩
  | blocked => cases he; exact ⟨d, rfl, hb, by rintro (h | ⟨m, h⟩) <;> cases h⟩
  | ret u =>
    cases u
    obtain ⟨x', hx', hd⟩ := h2 rfl
    dsimp only at hx' he h1
    obtain ⟨ix, hix, hk, hcm, g⟩ := h1.ours
    rw [hx'] at hix
    cases hix
    have hs : (settle dbOps d).wire = d.wire := by unfold settle; split; rfl; split <;> rfl
    have hd : dirOf ix.inst = .complete := hd
    have hall : fatalOf (.inst ix) ≠ some true → d.wire = w ++ bytesOf T := by
      intro hf
      rcases g with ⟨g1, _⟩ | ⟨_, _, _, g4⟩ | ⟨_, g⟩
      · unfold dirOf at hd; rw [g1.state] at hd; cases hd
      · exact g4
      · exact absurd g hf
    rw [hx'] at he
    dsimp only [Option.bind_some] at he
    cases hf : fatalOf (.inst ix) with
    | some b =>
      rw [hf] at he hall
      cases he
      refine ⟨settle dbOps d, rfl, by rw [hs]; exact hb, ?_⟩
      rintro (h | ⟨m, h⟩)
      · cases h
      · cases h
        rw [hs]; exact hall (by simp)
    | none =>
      rw [hf] at he hall
      dsimp only at he
      have hall := hall (by simp)
      split at he <;> cases he <;> exact ⟨settle dbOps d, rfl, by rw [hs]; exact hb, fun _ => by rw [hs]; exact hall⟩

end PG.CopyReceiver
