import Verif.Proofs.Lifecycle
/-!
# Invariants of the driver's connection
-/
namespace PG.Lifecycle
open PG PG.Element3 PG.Xact3 PG.Client3 PG.Spec.Client PG.Spec.Lifecycle

/-- The identity of the commands of a transaction. -/
def oidY : Y → Option Nat
  | .inst x => some x.oid
  | .closing _ => none

theorem oidY_sent (a b : Y) : oidY (dbOps.sent a b) = oidY b := by cases a <;> cases b <;> rfl
theorem oidY_fail (a : Y) : oidY (dbOps.fail a) = oidY a := by cases a <;> rfl
theorem oidY_put (a b : Y) (m : Batch) : oidY (dbOps.put a b m).1 = oidY b := by
  cases a with
  | closing d => cases b <;> rfl
  | inst op =>
    cases b with
    | closing d => rfl
    | inst x =>
      show oidY (match instOps.put op x m with | (x, r) => (Y.inst x, r)).1 = _
      rfl

theorem oidY_messages (a : Y) (k : Nat) (h : (dbOps.messages a).id = .commands k) : oidY a = some k := by
  cases a with
  | closing d => cases d <;> cases h
  | inst x =>
    have h : x.oidOf = .commands k := h
    unfold IX.oidOf at h
    cases hm : x.inst.messages <;> rw [hm] at h <;> cases h
    rfl

/-- What holds of every connection: the writer's and the reader's invariants, and that identities are not reused. -/
structure B (c : Conn Y) : Prop where
  i : I c
  ids : ∀ m ∈ c.log, ∀ k, m.id = .commands k → k < c.nextId
  own : ∀ y k, c.xact = some y → oidY y = some k → k < c.nextId

theorem B_xact {c : Conn Y} (h : B c) (y : Y) (hy : ∀ k, oidY y = some k → k < c.nextId) : B { c with xact := some y } :=
  ⟨I_congr (c := c) rfl rfl h.i, h.ids, fun z k hz hk => by
    have hz : some y = some z := hz
    cases hz
    exact hy k hk⟩

theorem B_write {c d : Conn Y} {x : Y} {r : Res Bool} (h : B c) (hx : c.xact = some x) (hw : writeMessages dbOps c (dbOps.messages x) = (d, r)) :
    B d ∧ d.nextId = c.nextId := by
  obtain ⟨a1, a2, a3, a4, a5, a6⟩ := writeMessages_W dbOps c (dbOps.messages x) h.i.1
  have hi := write_I dbOps c (dbOps.messages x) h.i
  rw [hw] at a1 a2 a3 a4 a5 a6 hi
  dsimp only at a1 a2 a3 a4 a5 a6 hi
  have hn : d.nextId = c.nextId := (congrArg (·.2.2.2.2.2) a3 :)
  refine ⟨⟨hi, ?_, ?_⟩, hn⟩
  · intro m hm k hk
    rw [a2, List.mem_append, List.mem_singleton] at hm
    rw [hn]
    rcases hm with hm | rfl
    · exact h.ids m hm k hk
    · exact h.own x k hx (oidY_messages x k hk)
  · intro y k hy hk
    rw [hn]
    have : d.xact = c.xact ∨ d.xact = c.xact.map dbOps.fail := by
      cases r with
      | ret b =>
        cases b with
        | true => exact .inl (a4 rfl).2.1
        | false => exact .inr (a5 rfl)
      | raised e => exact .inl (a6 (by simp))
      | blocked => exact .inl (a6 (by simp))
    rcases this with e | e <;> rw [e, hx] at hy <;> cases hy
    · exact h.own x k hx hk
    · rw [oidY_fail] at hk; exact h.own x k hx hk

theorem B_read {c d : Conn Y} {x : Y} {r : Res Bool} (h : B c) (hx : c.xact = some x) (hw : readMessages dbOps c = (d, r)) :
    B d ∧ c.nextId ≤ d.nextId ∧ d.log = c.log := by
  obtain ⟨_, a2, _, a4, a5, a6, a7, a8⟩ := readMessages_spec dbOps c h.i.2
  have hi := read_I dbOps c h.i
  rw [hw] at a2 a4 a5 a6 a7 a8 hi
  dsimp only at a2 a4 a5 a6 a7 a8 hi
  have hlog : d.log = c.log := (congrArg (·.2.2.2.2) a2 :)
  refine ⟨⟨hi, ?_, ?_⟩, a4, hlog⟩
  · intro m hm k hk
    rw [hlog] at hm
    exact Nat.lt_of_lt_of_le (h.ids m hm k hk) a4
  · intro y k hy hk
    have : d.xact = c.xact ∨ d.xact = c.xact.map dbOps.fail := by
      cases r with
      | ret b =>
        cases b with
        | true => exact .inl (a5 rfl).1
        | false => exact .inr (a6 rfl).1
      | raised e => exact a7 e rfl
      | blocked => exact .inl (a8 rfl)
    apply Nat.lt_of_lt_of_le _ a4
    rcases this with e | e <;> rw [e, hx] at hy <;> cases hy
    · exact h.own x k hx hk
    · rw [oidY_fail] at hk; exact h.own x k hx hk

theorem B_put {d : Conn Y} {op y : Y} (h : B d) (hy : ∀ k, oidY y = some k → k < d.nextId) :
    B (putRead dbOps d op y).1 ∧ d.nextId ≤ (putRead dbOps d op y).1.nextId := by
  have hi := put_I dbOps d op y h.i
  obtain ⟨_, a2, a3⟩ := putRead_spec dbOps d op y h.i.2
  refine ⟨⟨hi, ?_, ?_⟩, a3⟩
  · intro m hm k hk
    have hlog : (putRead dbOps d op y).1.log = d.log := (congrArg (·.2.2.2.2) a2 :)
    rw [hlog] at hm
    exact Nat.lt_of_lt_of_le (h.ids m hm k hk) a3
  · intro z k hz hk
    apply Nat.lt_of_lt_of_le _ a3
    have hx : (putRead dbOps d op y).1.xact = some (dbOps.put op y d.read).1 := by
      unfold putRead
      generalize dbOps.put op y d.read = w
      obtain ⟨w, r⟩ := w
      cases r <;> rfl
    rw [hx] at hz
    cases hz
    rw [oidY_put] at hk
    exact hy k hk

theorem B_pres : PresNew dbOps B where
  wrote c x d hc hx _ hw := by
    obtain ⟨h1, h2⟩ := B_write hc hx hw
    exact B_xact h1 _ (fun k hk => by rw [oidY_sent] at hk; rw [h2]; exact hc.own x k hx hk)
  writeLost c x d hc hx _ hw := by
    obtain ⟨h1, h2⟩ := B_write hc hx hw
    exact ⟨h1, B_xact h1 _ (fun k hk => by rw [oidY_sent, oidY_fail] at hk; rw [h2]; exact hc.own x k hx hk)⟩
  writeOther c x d r hc hx _ hw _ := (B_write hc hx hw).1
  read c x d r hc hx _ hw := (B_read hc hx hw).1
  put c x d hc hx _ hw := by
    obtain ⟨h1, h2, _⟩ := B_read hc hx hw
    exact (B_put h1 (fun k hk => Nat.lt_of_lt_of_le (hc.own x k hx hk) h2)).1
  putLost c x d hc hx _ hw := by
    obtain ⟨h1, h2, _⟩ := B_read hc hx hw
    exact (B_put h1 (fun k hk => by rw [oidY_fail] at hk; exact Nat.lt_of_lt_of_le (hc.own x k hx hk) h2)).1
  fail c hc _ := ⟨I_congr (c := c) rfl rfl hc.i, hc.ids, fun y k hy hk => by
    cases hx : c.xact with
    | none => unfold failXact at hy; dsimp only at hy; rw [hx] at hy; cases hy
    | some x =>
      unfold failXact at hy
      dsimp only at hy
      rw [hx] at hy
      cases hy
      rw [oidY_fail] at hk
      exact hc.own x k hx hk⟩
  note c x hc _ := ⟨I_congr (c := c) rfl rfl hc.i, hc.ids, hc.own⟩
  drop c x hc _ _ _ _ := ⟨I_congr (c := c) rfl rfl hc.i, hc.ids, fun y k hy => (by cases hy)⟩
  trash c f hc _ := by
    refine ⟨takeOutTrash_I dbOps f c hc.i, ?_, ?_⟩
    · intro m hm k hk
      exact Nat.lt_succ_of_lt (hc.ids m hm k hk)
    · intro y k hy hk
      have : y = .inst (instOps.instruction c.nextId ((iterate c.garbageCursors 0 f.cursors).1.map (Elem.str .closePortal) ++
          (iterate c.garbageStatements 0 f.statements).1.map (Elem.str .closeStatement) ++ [.empty .synchronize])) := (Option.some.inj hy).symm
      rw [this] at hk
      have hk : some c.nextId = some k := hk
      cases hk
      exact Nat.lt_succ_self _

theorem old_of_B {c : Conn Y} (h : B c) : Old c := by
  intro m k hm hk
  obtain ⟨g, _, _, _, hc⟩ := h.i.1
  refine h.ids m ?_ k hk
  rcases hc with ⟨hq, hw⟩ | ⟨b, r, hq, _, hw, _⟩
  · rw [hw] at hm
    exact squeezeFrom_sub _ _ m (by show m ∈ squeeze c.log; rw [hq]; exact List.mem_of_getLast? hm)
  · rw [hw] at hm
    cases hm
    exact squeezeFrom_sub _ _ m (by show m ∈ squeeze c.log; rw [hq]; simp)

theorem next_pres (k : Nat) : PresNew dbOps (fun c => B c ∧ k ≤ c.nextId) := by
  have mono : ∀ {c d : Conn Y}, k ≤ c.nextId → c.nextId ≤ d.nextId → k ≤ d.nextId := fun h h' => Nat.le_trans h h'
  exact {
    wrote := fun c x d hc hx hd hw => ⟨B_pres.wrote c x d hc.1 hx hd hw, by
      show k ≤ d.nextId; rw [(B_write hc.1 hx hw).2]; exact hc.2⟩
    writeLost := fun c x d hc hx hd hw => by
      have : k ≤ d.nextId := by rw [(B_write hc.1 hx hw).2]; exact hc.2
      exact ⟨⟨(B_pres.writeLost c x d hc.1 hx hd hw).1, this⟩, ⟨(B_pres.writeLost c x d hc.1 hx hd hw).2, this⟩⟩
    writeOther := fun c x d r hc hx hd hw hr => ⟨B_pres.writeOther c x d r hc.1 hx hd hw hr, by
      rw [(B_write hc.1 hx hw).2]; exact hc.2⟩
    read := fun c x d r hc hx hd hw => ⟨(B_read hc.1 hx hw).1, mono hc.2 (B_read hc.1 hx hw).2.1⟩
    put := fun c x d hc hx hd hw => ⟨B_pres.put c x d hc.1 hx hd hw, by
      obtain ⟨h1, h2, _⟩ := B_read hc.1 hx hw
      exact mono (mono hc.2 h2) (putRead_spec dbOps d x x h1.i.2).2.2⟩
    putLost := fun c x d hc hx hd hw => ⟨B_pres.putLost c x d hc.1 hx hd hw, by
      obtain ⟨h1, h2, _⟩ := B_read hc.1 hx hw
      exact mono (mono hc.2 h2) (putRead_spec dbOps d x _ h1.i.2).2.2⟩
    fail := fun c hc hn => ⟨B_pres.fail c hc.1 hn, hc.2⟩
    note := fun c x hc hx => ⟨B_pres.note c x hc.1 hx, hc.2⟩
    drop := fun c x hc hx hd hf hn => ⟨B_pres.drop c x hc.1 hx hd hf hn, hc.2⟩
    trash := fun c f hc hx => ⟨B_pres.trash c f hc.1 hx, Nat.le_succ_of_le hc.2⟩ }

/-! ## Calls -/

/-- `P` is kept by the allowed calls. -/
structure Keeps (ok : Call → Prop) (P : Conn Y → Prop) : Prop extends PresNew dbOps P where
  start : ∀ c i k cmds, P c → Xact3.init cmds = .ok i → k < c.nextId → c.xact = none → P { c with xact := some (.inst { inst := i, oid := k }) }
  bump : ∀ c, P c → P { c with nextId := c.nextId + 1 }
  plugged : ∀ c b, P c → P (plug b c)
  sync : ∀ c, P c → c.xact = none ∨ Dead c →
    P { c with xact := some (dbOps.instruction c.nextId [.empty .synchronize]), nextId := c.nextId + 1 }
  given : ∀ c x m n a, ok (.give a) → P c → c.xact = some (.inst x) → dirOf x.inst = .sending →
    P { c with xact := some (.inst { x with inst := { x.inst with messages := m }, user := n }) }
  trashC : ∀ c i, P c → P (trashCursor c i)
  trashS : ∀ c i, P c → P (trashStatement c i)
  sock : ∀ c s r, ok (.sock s r) → P c → P { c with sends := c.sends ++ s, recvs := c.recvs ++ r }
  closes : ∀ c f n, ok (.close f n) → P c → c.xact = none → P { c with xact := some (.closing false) }

/-- There is a protocol connection with this property. -/
def Has (P : Conn Y → Prop) (db : Db) : Prop := ∃ c, db.pq = .conn c ∧ B c ∧ P c

theorem pqPush_keeps {P : Conn Y → Prop} (h : PresNew dbOps P) (f : Finalizers) (n : Nat) (db : Db) (y : Y) {c : Conn Y} (hc : db.pq = .conn c)
    (hp : P (plug db.socket c)) (hs : ∀ d, P d → d.xact = none → P { d with xact := some y }) :
    ∃ d, (pqPush f n db y).1.pq = .conn d ∧ P d := by
  have go : ∀ d, P d → P (push dbOps f n d y).1 := fun d hd => push_pres dbOps_lawful dbOps_sends h f n d y hd hs
  unfold pqPush
  rw [hc]
  dsimp only
  generalize plug db.socket c = p at hp
  cases hx : p.xact with
  | none => exact ⟨_, rfl, go p hp⟩
  | some x =>
    dsimp only
    have h1 := drive_pres h.toPres0 n p hp
    have hnt := drive_noted dbOps_lawful n p (drive dbOps n p).1
    have h2 := drive_ret dbOps_lawful n p (drive dbOps n p).1
    generalize drive dbOps n p = z at h1 h2 hnt
    obtain ⟨d, r⟩ := z
    cases r with
    | raised e => exact ⟨_, rfl, h1⟩
    | blocked => exact ⟨_, rfl, h1⟩
    | ret u =>
      cases u
      obtain ⟨x', hx', hd⟩ := h2 rfl
      have h3 : P (settle dbOps d) := settle_pres h.toPres d h1 (fun y hy => by rw [hx'] at hy; cases hy; exact hd) (hnt rfl)
      dsimp only at hx' ⊢
      rw [hx']
      dsimp only
      cases fatalOf x' with
      | none => exact ⟨_, rfl, go _ h3⟩
      | some b => exact ⟨_, rfl, h3⟩

theorem pqComplete_keeps {P : Conn Y → Prop} (h : Pres dbOps P) (n : Nat) (db : Db) {c : Conn Y} (hc : db.pq = .conn c) (hp0 : P c)
    (hp : P (plug db.socket c)) : ∃ d, (pqComplete n db).1.pq = .conn d ∧ P d := by
  unfold pqComplete
  rw [hc]
  dsimp only
  generalize plug db.socket c = p at hp
  cases hx : p.xact with
  | none => exact ⟨c, hc, hp0⟩
  | some x =>
    dsimp only
    have h1 := drive_pres h.toPres0 n p hp
    have hnt := drive_noted dbOps_lawful n p (drive dbOps n p).1
    have h2 := drive_ret dbOps_lawful n p (drive dbOps n p).1
    generalize drive dbOps n p = z at h1 h2 hnt
    obtain ⟨d, r⟩ := z
    cases r with
    | raised e => exact ⟨_, rfl, h1⟩
    | blocked => exact ⟨_, rfl, h1⟩
    | ret u =>
      cases u
      obtain ⟨x', hx', hd⟩ := h2 rfl
      have h3 : P (settle dbOps d) := settle_pres h d h1 (fun y hy => by rw [hx'] at hy; cases hy; exact hd) (hnt rfl)
      dsimp only at hx' ⊢
      rw [hx']
      dsimp only [Option.bind_some]
      cases fatalOf x' with
      | none =>
        dsimp only
        split
        · exact ⟨_, rfl, h3⟩
        · exact ⟨_, rfl, h3⟩
      | some b => exact ⟨_, rfl, h3⟩

theorem pqStep_keeps {P : Conn Y → Prop} (h : Pres dbOps P) (db : Db) {c : Conn Y} (hc : db.pq = .conn c) (hp0 : P c)
    (hp : P (plug db.socket c)) : ∃ d, (pqStep db).1.pq = .conn d ∧ P d := by
  unfold pqStep
  rw [hc]
  dsimp only
  generalize plug db.socket c = p at hp
  cases hx : p.xact with
  | none => exact ⟨c, hc, hp0⟩
  | some x =>
    dsimp only
    have h1 := stepRaw_pres h.toPres0 p hp
    have hnt := stepRaw_noted dbOps_sends p (stepRaw dbOps p).1 (stepRaw dbOps p).2.2
    generalize stepRaw dbOps p = z at h1 hnt
    obtain ⟨d, fin, r⟩ := z
    cases r with
    | raised e => exact ⟨_, rfl, h1⟩
    | blocked => exact ⟨_, rfl, h1⟩
    | ret u =>
      cases u
      dsimp only at h1 ⊢
      have h3 : P (if fin then stepEnd dbOps d else d) := by
        split
        · rename_i hfin
          exact stepEnd_pres h d h1 (hnt (by rw [hfin]))
        · exact h1
      generalize (if fin then stepEnd dbOps d else d) = e at h3
      cases d.xact with
      | none => exact ⟨_, rfl, h3⟩
      | some x' =>
        dsimp only
        split
        · cases fatalOf x' with
          | none =>
            dsimp only
            split
            · exact ⟨_, rfl, h3⟩
            · exact ⟨_, rfl, h3⟩
          | some b => exact ⟨_, rfl, h3⟩
        · exact ⟨_, rfl, h3⟩

theorem synchronize_keeps {P : Conn Y → Prop} (h : Pres dbOps P) (n : Nat) (c : Conn Y) (hc : P c)
    (hs : ∀ d, P d → d.xact = none ∨ Dead d → P { d with xact := some (dbOps.instruction d.nextId [.empty .synchronize]), nextId := d.nextId + 1 }) :
    P (synchronize dbOps n c).1 := by
  unfold synchronize
  by_cases hx : c.xact.isSome
  · rw [if_pos hx]
    have h1 := complete_pres dbOps_lawful h n c hc
    cases hz : complete dbOps n c with
    | mk d r =>
      rw [hz] at h1
      cases r with
      | raised e => exact h1
      | blocked => exact h1
      | ret u =>
        cases u
        exact complete_pres dbOps_lawful h n _ (hs d h1 (complete_dead hz))
  · rw [if_neg hx]
    exact complete_pres dbOps_lawful h n _ (hs c hc (.inl (by simpa using hx)))

theorem closeFirst_keeps {P : Conn Y → Prop} (h : Pres dbOps P) (n : Nat) (c : Conn Y) (hp : P c) : P (closeFirst n c).1 := by
  unfold closeFirst
  cases c.xact with
  | none => exact hp
  | some x =>
    dsimp only
    split
    · exact complete_pres dbOps_lawful h n c hp
    · exact hp

theorem finishClosing_keeps {P : Conn Y → Prop} (h : Pres dbOps P) (n : Nat) (e : Conn Y) (hq : P e) : P (finishClosing n e).1 := by
  unfold finishClosing plainComplete
  have ha := complete_pres dbOps_lawful h n e hq
  generalize complete dbOps n e = z at ha
  obtain ⟨e', r⟩ := z
  cases r with
  | raised e => exact ha
  | blocked => exact ha
  | ret u => cases u; exact complete_pres dbOps_lawful h n e' ha

theorem closeSecond_keeps {P : Conn Y → Prop} (h : PresNew dbOps P) (f : Finalizers) (n : Nat) (d : Conn Y) (h1 : P d)
    (hs : ∀ d, P d → d.xact = none → P { d with xact := some (.closing false) }) : P (closeSecond f n d).1 := by
  unfold closeSecond
  cases d.xact with
  | some x => exact h1
  | none =>
    dsimp only
    have hq := push_pres dbOps_lawful dbOps_sends h f n d (.closing false) h1 hs
    generalize push dbOps f n d (.closing false) = z at hq
    obtain ⟨e, r⟩ := z
    cases r with
    | raised e => exact hq
    | blocked => exact hq
    | ret u => cases u; exact finishClosing_keeps h.toPres n e hq

theorem close_keeps {P : Conn Y → Prop} (h : PresNew dbOps P) (f : Finalizers) (n : Nat) (db : Db) {c : Conn Y} (hc : db.pq = .conn c) (hp : P c)
    (hs : ∀ d, P d → d.xact = none → P { d with xact := some (.closing false) }) : ∃ d, (close f n db).1.pq = .conn d ∧ P d := by
  unfold close
  rw [hc]
  dsimp only
  split
  · exact ⟨c, hc, hp⟩
  · have h1 := closeFirst_keeps h.toPres n c hp
    generalize closeFirst n c = z at h1
    obtain ⟨d, r⟩ := z
    cases r with
    | raised e => exact ⟨_, rfl, h1⟩
    | blocked => exact ⟨_, rfl, h1⟩
    | ret u =>
      cases u
      dsimp only at h1 ⊢
      have h2 := closeSecond_keeps h f n d h1 hs
      generalize closeSecond f n d = z at h2
      obtain ⟨e, r⟩ := z
      cases r with
      | raised e => exact ⟨_, rfl, h2⟩
      | blocked => exact ⟨_, rfl, h2⟩
      | ret u => cases u; exact ⟨_, rfl, h2⟩

theorem connect_pq (r : Established) (db : Db) {c : Conn Y} (hc : db.pq = .conn c) : (connect r db).1 = db := by
  unfold connect
  split
  · rfl
  · rw [hc]
    dsimp only
    cases c.xact <;> rfl

theorem B_plug (b : Bool) {c : Conn Y} (h : B c) : B (plug b c) := by
  cases b
  · exact ⟨I_congr (c := c) rfl rfl h.i, h.ids, h.own⟩
  · exact h

theorem B_bump {c : Conn Y} (h : B c) : B { c with nextId := c.nextId + 1 } :=
  ⟨⟨W_congr (c := c) rfl h.i.1, h.i.2.inv, h.i.2.bytes, h.i.2.fits, h.i.2.data, Nat.lt_succ_of_lt h.i.2.ids⟩,
    fun m hm k hk => Nat.lt_succ_of_lt (h.ids m hm k hk), fun y k hy hk => Nat.lt_succ_of_lt (h.own y k hy hk)⟩

theorem B_sync {c : Conn Y} (h : B c) : B { c with xact := some (dbOps.instruction c.nextId [.empty .synchronize]), nextId := c.nextId + 1 } := by
  have := B_bump h
  refine ⟨⟨W_congr (c := c) rfl h.i.1, R_congr (c := { c with nextId := c.nextId + 1 }) rfl this.i.2⟩, this.ids, ?_⟩
  intro y k hy hk
  have hy : some (dbOps.instruction c.nextId [.empty .synchronize]) = some y := hy
  cases hy
  have hk : some c.nextId = some k := hk
  cases hk
  exact Nat.lt_succ_self _

theorem call_keeps {ok : Call → Prop} {P : Conn Y → Prop} (h : Keeps ok P) (a : Call) (ha : ok a) (db : Db) (hd : Has P db) : Has P (call db a).1 := by
  obtain ⟨c, hc, hb, hp⟩ := hd
  have hboth : PresNew dbOps (fun c => P c ∧ B c) := h.toPresNew.and B_pres
  have fin : ∀ db' : Db, (∃ d, db'.pq = .conn d ∧ P d ∧ B d) → Has P db' := fun db' ⟨d, e, p, b⟩ => ⟨d, e, b, p⟩
  cases a with
  | sock s r =>
    refine ⟨{ c with sends := c.sends ++ s, recvs := c.recvs ++ r }, by unfold call onConn; rw [hc], ?_, h.sock c s r ha hp⟩
    exact ⟨I_congr (c := c) rfl rfl hb.i, hb.ids, hb.own⟩
  | push f n cmds =>
    unfold call pqStart
    dsimp only
    rw [hc]
    dsimp only
    cases hi : Xact3.init cmds with
    | error e => exact ⟨c, hc, hb, hp⟩
    | ok i =>
      dsimp only
      obtain ⟨d, e1, e2, e3, _⟩ := pqPush_keeps (h.toPresNew.and (next_pres (c.nextId + 1))) f n { db with pq := .conn { c with nextId := c.nextId + 1 } }
        (.inst { inst := i, oid := c.nextId }) (c := { c with nextId := c.nextId + 1 }) rfl
        ⟨h.plugged _ _ (h.bump c hp), B_plug _ (B_bump hb), by rw [(plug_wire db.socket { c with nextId := c.nextId + 1 }).2.2.2.2.1]; exact Nat.le_refl _⟩
        (fun d hd hn => ⟨h.start d i c.nextId cmds hd.1 hi hd.2.2 hn, B_xact hd.2.1 _ (fun k hk => by
          have hk : some c.nextId = some k := hk
          cases hk
          exact hd.2.2), hd.2.2⟩)
      exact ⟨d, e1, e3, e2⟩
  | complete n => exact fin _ (pqComplete_keeps hboth.toPres n db hc ⟨hp, hb⟩ ⟨h.plugged _ _ hp, B_plug _ hb⟩)
  | step => exact fin _ (pqStep_keeps hboth.toPres db hc ⟨hp, hb⟩ ⟨h.plugged _ _ hp, B_plug _ hb⟩)
  | synchronize n =>
    have := synchronize_keeps hboth.toPres n (plug db.socket c) ⟨h.plugged _ _ hp, B_plug _ hb⟩
      (fun d hd hx => ⟨h.sync d hd.1 hx, B_sync hd.2⟩)
    refine ⟨_, by unfold call pqSynchronize; rw [hc], this.2, this.1⟩
  | give m =>
    unfold call pqGive
    dsimp only
    rw [hc]
    dsimp only
    cases hx : c.xact with
    | none => exact ⟨c, hc, hb, hp⟩
    | some y =>
      cases y with
      | closing d => exact ⟨c, hc, hb, hp⟩
      | inst x =>
        dsimp only
        split
        · rename_i hs
          have hown : ∀ k, some x.oid = some k → k < c.nextId := fun k hk => hb.own _ k hx hk
          cases m with
          | none => exact ⟨_, rfl, B_xact hb _ hown, h.given c x .copyDone x.user _ ha hp hx hs⟩
          | some m => exact ⟨_, rfl, B_xact hb _ hown, h.given c x (.data m.2) m.1 _ ha hp hx hs⟩
        · exact ⟨c, hc, hb, hp⟩
  | trashCursor i => exact ⟨trashCursor c i, by unfold call onConn; rw [hc], ⟨I_congr (c := c) rfl rfl hb.i, hb.ids, hb.own⟩, h.trashC c i hp⟩
  | trashStatement i => exact ⟨trashStatement c i, by unfold call onConn; rw [hc], ⟨I_congr (c := c) rfl rfl hb.i, hb.ids, hb.own⟩, h.trashS c i hp⟩
  | close f n => exact fin _ (close_keeps hboth f n db hc ⟨hp, hb⟩ (fun d hd hn => ⟨h.closes d f n ha hd.1 hn, B_xact hd.2 _ (fun k hk => by cases hk)⟩))
  | connect r =>
    have := connect_pq r db hc
    exact ⟨c, by unfold call; rw [this]; exact hc, hb, hp⟩

theorem calls_keeps {ok : Call → Prop} {P : Conn Y → Prop} (h : Keeps ok P) : ∀ (as : List Call) (db : Db), (∀ a ∈ as, ok a) → Has P db → Has P (calls db as).1
  | [], db, _, hd => hd
  | a :: as, db, ha, hd => calls_keeps h as _ (fun b hb => ha b (List.mem_cons_of_mem _ hb)) (call_keeps h a (ha a List.mem_cons_self) db hd)

theorem true_pres0 : Pres0 dbOps (fun _ => True) := by
  constructor <;> intros <;> first | trivial | exact ⟨trivial, trivial⟩

theorem true_keeps : Keeps (fun _ => True) (fun _ => True) where
  toPresNew := ⟨⟨true_pres0, fun _ _ _ _ _ _ _ => trivial⟩, fun _ _ _ _ => trivial⟩
  start _ _ _ _ _ _ _ _ := trivial
  bump _ _ := trivial
  plugged _ _ _ := trivial
  sync _ _ _ := trivial
  given _ _ _ _ _ _ _ _ _ := trivial
  trashC _ _ _ := trivial
  trashS _ _ _ := trivial
  sock _ _ _ _ _ := trivial
  closes _ _ _ _ _ _ := trivial

theorem B_established (s : List SendEv) (r : List RecvEv) (st : Bytes) :
    B { xact := none, sends := s, recvs := r, state := st } := by
  refine ⟨⟨⟨[], by simp, rfl, rfl, .inl ⟨rfl, rfl⟩⟩, ⟨PBuffer.inv_init, ?_, by simp, .inl rfl, Nat.zero_lt_one⟩⟩, by simp, by simp⟩
  simp [Spec.frames, PBuffer.unread]

end PG.Lifecycle
