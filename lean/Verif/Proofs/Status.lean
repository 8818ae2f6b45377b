import Verif.Proofs.Xact3f
import Verif.Proofs.Lifecycle3
/-!
# Errors and status of a connection
-/
namespace PG.Lifecycle
open PG PG.Element3 PG.Xact3 PG.Client3 PG.Spec.Client PG.Spec.Lifecycle PG.Spec.Status

/-! ## What reading and writing leave alone -/

/-- The messages taken, the status, and what is to be closed on the server. -/
def mem (c : Conn Y) := (c.taken, c.state, c.garbageCursors, c.garbageStatements)

theorem writeMessages_mem (c : Conn Y) (m : Obj) : mem (writeMessages dbOps c m).1 = mem c ∧ (writeMessages dbOps c m).1.read = c.read := by
  have hs : ∀ d : Conn Y, mem (sendMessageData dbOps d).1 = mem d ∧ (sendMessageData dbOps d).1.read = d.read := by
    intro d
    unfold sendMessageData
    generalize sendLoop d.sends d.messageData d.wire = z
    obtain ⟨evs, x, w, r⟩ := z
    dsimp only
    cases r with
    | ret u => exact ⟨rfl, rfl⟩
    | blocked => exact ⟨rfl, rfl⟩
    | raised e =>
      cases e with
      | py e => exact ⟨rfl, rfl⟩
      | sock k => cases k <;> exact ⟨rfl, rfl⟩
  have hcw : ∀ (c d : Conn Y), catWriting c = .ok d → mem d = mem c ∧ d.read = c.read := by
    intro c d h
    unfold catWriting at h
    split at h
    · cases h; exact ⟨rfl, rfl⟩
    · split at h
      · cases h; exact ⟨rfl, rfl⟩
      · split at h
        · cases h
        · cases h; exact ⟨rfl, rfl⟩
  unfold writeMessages
  dsimp only
  split
  · exact ⟨rfl, rfl⟩
  · rename_i d hd
    obtain ⟨h1, h2⟩ := hcw _ _ hd
    have h1 : mem d = mem c := h1
    have h2 : d.read = c.read := h2
    split
    · rw [← h1, ← h2]; exact hs d
    · split
      · exact ⟨h1, h2⟩
      · rename_i dd _
        rw [← h1, ← h2]
        exact hs { d with writing := some m, messageData := d.messageData ++ dd, written := some m }

theorem readIntoLoop_mem : ∀ (evs : List RecvEv) (c : Conn Y), mem (readIntoLoop dbOps c evs).1 = mem c := by
  intro evs
  induction evs with
  | nil => intro c; unfold readIntoLoop; split <;> rfl
  | cons ev evs ih =>
    intro c
    unfold readIntoLoop
    split
    · rfl
    · rfl
    · split
      · rfl
      · rfl
      · rfl
      · exact ih _

theorem readMessages_mem (c : Conn Y) : mem (readMessages dbOps c).1 = mem c := by
  have hi : mem (readInto dbOps c).1 = mem c := by
    unfold readInto
    split
    · rfl
    · rfl
    · split <;> exact readIntoLoop_mem _ _
  unfold readMessages
  split
  · rfl
  · generalize readInto dbOps c = z at hi
    obtain ⟨d, r⟩ := z
    cases r with
    | raised e => exact hi
    | blocked => exact hi
    | ret b =>
      dsimp only
      split <;> exact hi

theorem putRead_cases (d : Conn Y) (ix y : IX) :
    (∃ i e, putAs ix.inst.state y.inst d.read = (i, .error e) ∧ (putRead dbOps d (.inst ix) (.inst y)).1 = { d with xact := some (.inst { y with inst := i }) }) ∨
    (∃ i n, putAs ix.inst.state y.inst d.read = (i, .ok n) ∧ (putRead dbOps d (.inst ix) (.inst y)).1 =
      { d with xact := some (.inst { y with inst := i }), taken := d.taken ++ d.read.msgs.take n, read := ⟨d.nextId, d.read.msgs.drop n⟩, nextId := d.nextId + 1 }) := by
  have hput : dbOps.put (.inst ix) (.inst y) d.read = (.inst { y with inst := (putAs ix.inst.state y.inst d.read).1 }, (putAs ix.inst.state y.inst d.read).2) := rfl
  unfold putRead
  rw [hput]
  generalize putAs ix.inst.state y.inst d.read = z
  obtain ⟨i, r⟩ := z
  cases r with
  | error e => exact .inl ⟨i, e, rfl, rfl⟩
  | ok n => exact .inr ⟨i, n, rfl, rfl⟩

/-! ## Status -/

/-- The messages taken and the status are the same. -/
def Mem2 (c d : Conn Y) : Prop := d.taken = c.taken ∧ d.state = c.state

theorem mem2 {c d : Conn Y} (h : mem d = mem c) : Mem2 c d := ⟨(congrArg (·.1) h :), (congrArg (·.2.1) h :)⟩


/-- The batch at hand cannot be processed. -/
def Stuck (c : Conn Y) : Prop := ∃ x, c.xact = some (.inst x) ∧ dirOf x.inst = .receiving ∧ c.read.msgs ≠ [] ∧ Fails x.inst c.read

/-- A lone Synchronize is the transaction, and the status is not known. -/
def Owes (c : Conn Y) : Prop := ∃ x, c.xact = some (.inst x) ∧ Waits x.inst

/-- The status is the one the server reported last. -/
structure Told (st : Bytes) (c : Conn Y) : Prop where
  idle : c.xact = none → c.state = (lastStatus c.taken).getD st
  busy : ∀ y, c.xact = some y → (dbOps.lastReady y).getD c.state = (lastStatus c.taken).getD st
  valid : ValidZ (lastStatus c.taken)

/-- What holds of the status of every connection. -/
structure Z (st : Bytes) (c : Conn Y) : Prop where
  b : B c
  status : Stuck c ∨ Dead c ∨ Owes c ∨ Told st c

theorem dead_fail {c : Conn Y} {x : Y} (hx : c.xact = some (dbOps.fail x)) : Dead c :=
  ⟨_, hx, dbOps_lawful.fail_complete x, (fatal_iff _).1 (dbOps_lawful.fail_fatal x)⟩

theorem stuck_not_sending {c : Conn Y} {x : Y} (h : Stuck c) (hx : c.xact = some x) : dbOps.dir x = .receiving := by
  obtain ⟨y, h1, h2, _⟩ := h
  rw [hx] at h1
  cases h1
  exact h2

theorem dead_complete {c : Conn Y} {x : Y} (h : Dead c) (hx : c.xact = some x) : dbOps.dir x = .complete := by
  obtain ⟨y, h1, h2, _⟩ := h
  rw [hx] at h1
  cases h1
  exact h2

theorem sentAs_ready (st : XState) (s : Inst) : (sentAs st s).lastReady = s.lastReady := by
  unfold sentAs
  split
  · rfl
  · split <;> rfl
  · rfl

theorem told_congr {st : Bytes} {c d : Conn Y} (h : Told st c) (hm : Mem2 c d) (hx : d.xact = c.xact) : Told st d := by
  obtain ⟨h1, h2⟩ := hm
  refine ⟨fun hn => ?_, fun y hy => ?_, ?_⟩
  · rw [h1, h2]; exact h.idle (hx ▸ hn)
  · rw [h1, h2]; exact h.busy y (hx ▸ hy)
  · rw [h1]; exact h.valid

theorem told_xact {st : Bytes} {c d : Conn Y} {x y : Y} (h : Told st c) (hm : Mem2 c d) (hx : c.xact = some x) (hy : d.xact = some y)
    (hr : dbOps.lastReady y = dbOps.lastReady x) : Told st d := by
  obtain ⟨h1, h2⟩ := hm
  refine ⟨fun hn => ?_, fun z hz => ?_, ?_⟩
  · rw [hy] at hn; cases hn
  · rw [hy] at hz; cases hz; rw [h1, h2, hr]; exact h.busy x hx
  · rw [h1]; exact h.valid

theorem told_fresh {st : Bytes} {c d : Conn Y} {y : Y} (h : Told st c) (hm : Mem2 c d) (hx : c.xact = none) (hy : d.xact = some y)
    (hr : dbOps.lastReady y = none) : Told st d := by
  obtain ⟨h1, h2⟩ := hm
  refine ⟨fun hn => ?_, fun z hz => ?_, ?_⟩
  · rw [hy] at hn; cases hn
  · rw [hy] at hz; cases hz; rw [h1, h2, hr]; exact h.idle hx
  · rw [h1]; exact h.valid

theorem ready_sent (x y : Y) (hy : y = x ∨ y = dbOps.fail x) : dbOps.lastReady (dbOps.sent x y) = dbOps.lastReady x := by
  cases x with
  | closing b => rcases hy with rfl | rfl <;> rfl
  | inst x => rcases hy with rfl | rfl <;> exact sentAs_ready _ _

theorem waits_sent {s : Inst} {t : Inst} (h : Waits s) (hd : dirOf s = .sending) (h1 : t.commands = s.commands) (h2 : t.lastReady = s.lastReady)
    (h3 : t.last1 = s.last1) (h4 : t.last2 = s.last2) : Waits (sentAs s.state t) := by
  rcases h.state with hst | hst
  · rw [hst]
    exact ⟨h1.trans h.commands, h2.trans h.none, h3.trans h.last1, h4.trans h.last2, .inr rfl⟩
  · unfold dirOf at hd
    rw [hst] at hd
    cases hd

/-- When nothing was taken. -/
theorem Z_same {st : Bytes} {c d : Conn Y} (h : Z st c) (hb : B d) (hm : Mem2 c d) (hr : d.read = c.read) (hx : d.xact = c.xact) : Z st d := by
  refine ⟨hb, ?_⟩
  rcases h.status with ⟨x, h1, h2, h3, h4⟩ | ⟨x, h1, h2⟩ | ⟨x, h1, h2⟩ | h
  · exact .inl ⟨x, hx.trans h1, h2, by rw [hr]; exact h3, by rw [hr]; exact h4⟩
  · exact .inr (.inl ⟨x, hx.trans h1, h2⟩)
  · exact .inr (.inr (.inl ⟨x, hx.trans h1, h2⟩))
  · exact .inr (.inr (.inr (told_congr h hm hx)))

theorem Z_read {st : Bytes} {c d : Conn Y} {x : Y} {r : Res Bool} (h : Z st c) (hx : c.xact = some x)
    (hw : readMessages dbOps c = (d, r)) : Z st d := by
  have hb := (B_read h.b hx hw).1
  by_cases hne : c.read.msgs = []
  · obtain ⟨_, _, _, _, a5, a6, a7, a8⟩ := readMessages_spec dbOps c h.b.i.2
    have hm := readMessages_mem c
    rw [hw] at a5 a6 a7 a8 hm
    have hxd : d.xact = c.xact ∨ d.xact = c.xact.map dbOps.fail := by
      cases r with
      | ret b =>
        cases b with
        | true => exact .inl (a5 rfl).1
        | false => exact .inr (a6 rfl).1
      | raised e => exact a7 e rfl
      | blocked => exact .inl (a8 rfl)
    rcases hxd with e | e
    · refine ⟨hb, ?_⟩
      rcases h.status with ⟨x, h1, h2, h3, h4⟩ | ⟨x, h1, h2⟩ | ⟨x, h1, h2⟩ | h
      · exact absurd hne h3
      · exact .inr (.inl ⟨x, e.trans h1, h2⟩)
      · exact .inr (.inr (.inl ⟨x, e.trans h1, h2⟩))
      · exact .inr (.inr (.inr (told_congr h (mem2 hm) e)))
    · rw [hx] at e
      exact ⟨hb, .inr (.inl (dead_fail (x := x) e))⟩
  · unfold readMessages at hw
    rw [if_pos hne] at hw
    cases hw
    exact h

theorem Z_put {st : Bytes} {d : Conn Y} {ix : IX} (h : Z st d) (hx : d.xact = some (.inst ix)) (hd : dirOf ix.inst = .receiving) (hne : d.read.msgs ≠ [])
    (hb : B (putRead dbOps d (.inst ix) (.inst ix)).1) : Z st (putRead dbOps d (.inst ix) (.inst ix)).1 := by
  refine ⟨hb, ?_⟩
  obtain ⟨p1, p2⟩ := putAs_seen ix.inst.state ix.inst d.read rfl hd
  rcases putRead_cases d ix ix with ⟨i, e, hp, he⟩ | ⟨i, n, hp, he⟩
  · rw [he]
    obtain ⟨_, q2, q3⟩ := p2 i e hp
    exact .inl ⟨_, rfl, q2, hne, q3⟩
  · rw [he]
    have hs := p1 i n hp
    rcases h.status with ⟨x, h1, h2, h3, e', h4⟩ | hdead | ⟨x, h1, h2⟩ | h
    · rw [hx] at h1
      cases h1
      rw [hp] at h4
      cases h4
    · have := dead_complete hdead hx
      have : dirOf ix.inst = .complete := this
      rw [hd] at this
      cases this
    · rw [hx] at h1
      cases h1
      have hst : ix.inst.state = .receiving .standardPut := by
        rcases h2.state with hst | hst
        · unfold dirOf at hd; rw [hst] at hd; cases hd
        · exact hst
      rw [hst] at hp
      have hp : standardPut ix.inst d.read = (i, .ok n) := hp
      rcases hs.status with ⟨s1, s2⟩ | ⟨s1, s2⟩
      · exact .inr (.inl ⟨_, rfl, by show dirOf i = .complete; unfold dirOf; rw [s2], s1⟩)
      · rcases standardPut_sync h2 hst hp with ⟨s1, s2⟩ | hn | hwait
        · exact .inr (.inl ⟨_, rfl, by show dirOf i = .complete; unfold dirOf; rw [s2], s1⟩)
        · rw [h2.none, Option.or_none] at s1
          refine .inr (.inr (.inr ⟨fun hn => (by cases hn), fun y hy => ?_, ?_⟩))
          · cases hy
            show i.lastReady.getD d.state = (lastStatus (d.taken ++ d.read.msgs.take n)).getD st
            rw [lastStatus_append, ← s1]
            obtain ⟨z, hz⟩ := Option.ne_none_iff_exists'.1 hn
            rw [hz]
            rfl
          · show ValidZ (lastStatus (d.taken ++ d.read.msgs.take n))
            rw [lastStatus_append, ← s1]
            rw [← s1] at s2
            obtain ⟨z, hz⟩ := Option.ne_none_iff_exists'.1 hn
            rw [hz] at s2 ⊢
            exact s2
        · exact .inr (.inr (.inl ⟨_, rfl, hwait⟩))
    · rcases hs.status with ⟨s1, s2⟩ | ⟨s1, s2⟩
      · exact .inr (.inl ⟨_, rfl, by show dirOf i = .complete; unfold dirOf; rw [s2], s1⟩)
      · refine .inr (.inr (.inr ⟨fun hn => (by cases hn), fun y hy => ?_, ?_⟩))
        · cases hy
          show i.lastReady.getD d.state = (lastStatus (d.taken ++ d.read.msgs.take n)).getD st
          have hbusy : ix.inst.lastReady.getD d.state = (lastStatus d.taken).getD st := h.busy _ hx
          rw [lastStatus_append, s1]
          cases lastStatus (d.read.msgs.take n) with
          | none => exact hbusy
          | some z => rfl
        · show ValidZ (lastStatus (d.taken ++ d.read.msgs.take n))
          rw [lastStatus_append]
          exact valid_or s2 h.valid

theorem standardPut_nil_fatal (s : Inst) (b : Batch) (hb : b.msgs = []) : (standardPut s b).1.fatal = s.fatal := by
  obtain ⟨a, _, e1, _⟩ := startLoop_spec s b
  unfold standardPut
  generalize startLoop s b = z at e1
  obtain ⟨s1, r⟩ := z
  dsimp only at e1
  subst e1
  cases r with
  | error e => rfl
  | ok l =>
    dsimp only
    rw [hb]
    unfold loop
    exact finish_fatal _ b l

theorem putAs_nil_fatal (st : XState) (s : Inst) (b : Batch) (hb : b.msgs = []) : (putAs st s b).1.fatal = s.fatal := by
  unfold putAs
  split
  · exact standardPut_nil_fatal s b hb
  · unfold putCopydata; rw [hb]; rfl
  · unfold putTupledata; rw [hb]; rfl
  · rfl

theorem Z_pres (st : Bytes) : PresNew dbOps (Z st) where
  wrote c x d h hx hd hw := by
    refine ⟨B_pres.wrote c x d h.b hx hd hw, ?_⟩
    have hm := (writeMessages_mem c (dbOps.messages x)).1
    rw [hw] at hm
    rcases h.status with hs | hs | ⟨y, h1, h2⟩ | hs
    · have := stuck_not_sending hs hx; rw [hd] at this; cases this
    · have := dead_complete hs hx; rw [hd] at this; cases this
    · rw [hx] at h1
      cases h1
      exact .inr (.inr (.inl ⟨_, rfl, waits_sent h2 hd rfl rfl rfl rfl⟩))
    · exact .inr (.inr (.inr (told_xact (d := { d with xact := some (dbOps.sent x x) }) hs (mem2 hm) hx rfl (ready_sent x x (.inl rfl)))))
  writeLost c x d h hx hd hw := by
    obtain ⟨b1, b2⟩ := B_pres.writeLost c x d h.b hx hd hw
    have hm := (writeMessages_mem c (dbOps.messages x)).1
    have hxd := (writeMessages_xact dbOps c (dbOps.messages x)).2
    rw [hw] at hm hxd
    have hxd := hxd rfl
    rw [hx] at hxd
    refine ⟨⟨b1, .inr (.inl (dead_fail hxd))⟩, b2, ?_⟩
    rcases h.status with hs | hs | ⟨y, h1, h2⟩ | hs
    · have := stuck_not_sending hs hx; rw [hd] at this; cases this
    · have := dead_complete hs hx; rw [hd] at this; cases this
    · rw [hx] at h1
      cases h1
      exact .inr (.inr (.inl ⟨_, rfl, waits_sent h2 hd rfl rfl rfl rfl⟩))
    · exact .inr (.inr (.inr (told_xact (d := { d with xact := some (dbOps.sent x (dbOps.fail x)) }) hs (mem2 hm) hx rfl (ready_sent x _ (.inr rfl)))))
  writeOther c x d r h hx hd hw hr := by
    obtain ⟨h1, h2⟩ := writeMessages_mem c (dbOps.messages x)
    obtain ⟨_, _, _, _, _, a6⟩ := writeMessages_W dbOps c (dbOps.messages x) h.b.i.1
    rw [hw] at h1 h2 a6
    exact Z_same h (B_write h.b hx hw).1 (mem2 h1) h2 (a6 hr)
  read c x d r h hx hd hw := Z_read h hx hw
  put c x d h hx hd hw := by
    have hb := B_pres.put c x d h.b hx hd hw
    have hz := Z_read h hx hw
    obtain ⟨_, _, _, _, a5, _⟩ := readMessages_spec dbOps c h.b.i.2
    rw [hw] at a5
    obtain ⟨e1, e2, _⟩ := a5 rfl
    obtain ⟨ix, rfl⟩ := closing_receiving hd
    exact Z_put hz (e1.trans hx) hd e2 hb
  putLost c x d h hx hd hw := by
    have hb := B_pres.putLost c x d h.b hx hd hw
    obtain ⟨_, _, _, _, _, a6, _⟩ := readMessages_spec dbOps c h.b.i.2
    rw [hw] at a6
    obtain ⟨_, e2⟩ := a6 rfl
    obtain ⟨ix, rfl⟩ := closing_receiving hd
    refine ⟨hb, .inr (.inl ?_)⟩
    have hc := putAs_nil ix.inst.state { ix.inst with state := .complete, fatal := some true, errorMessage := none } d.read e2 rfl
    refine ⟨_, putRead_xact dbOps d _ _, ?_, ?_⟩
    · show dirOf (putAs ix.inst.state { ix.inst with state := .complete, fatal := some true, errorMessage := none } d.read).1 = .complete
      unfold dirOf
      rw [hc]
    · show (putAs ix.inst.state { ix.inst with state := .complete, fatal := some true, errorMessage := none } d.read).1.fatal = some true
      rw [putAs_nil_fatal _ _ _ e2]
  fail c h hn := by
    refine ⟨B_pres.fail c h.b hn, ?_⟩
    cases hx : c.xact with
    | some x =>
      have := failXact_dead (c := { c with state := [] }) hx
      rw [hx] at this
      exact .inr (.inl this)
    | none => exact absurd hx hn
  note c x h hx := by
    refine ⟨B_pres.note c x h.b hx, ?_⟩
    rcases h.status with ⟨y, h1, h2, h3, h4⟩ | ⟨y, h1, h2⟩ | ⟨y, h1, h2⟩ | hs
    · exact .inl ⟨y, h1, h2, h3, h4⟩
    · exact .inr (.inl ⟨y, h1, h2⟩)
    · exact .inr (.inr (.inl ⟨y, h1, h2⟩))
    · refine .inr (.inr (.inr ⟨fun hn => ?_, fun y hy => ?_, hs.valid⟩))
      · have hn : c.xact = none := hn
        rw [hx] at hn; cases hn
      · have hy : c.xact = some y := hy
        rw [hx] at hy
        cases hy
        have := hs.busy x hx
        show (dbOps.lastReady x).getD ((dbOps.lastReady x).getD c.state) = _
        cases hl : dbOps.lastReady x with
        | none => rw [hl] at this; exact this
        | some z => rw [hl] at this; exact this
  drop c x h hx hd hf hn := by
    refine ⟨B_pres.drop c x h.b hx hd hf hn, ?_⟩
    rcases h.status with hs | ⟨y, h1, _, h3⟩ | ⟨y, h1, h2⟩ | hs
    · have := stuck_not_sending hs hx; rw [hd] at this; cases this
    · rw [hx] at h1; cases h1; rw [(fatal_iff _).2 h3] at hf; cases hf
    · rw [hx] at h1
      cases h1
      have hd : dirOf y.inst = .complete := hd
      unfold dirOf at hd
      rcases h2.state with h | h <;> rw [h] at hd <;> cases hd
    · refine .inr (.inr (.inr ⟨fun _ => ?_, fun y hy => (by cases hy), hs.valid⟩))
      have := hs.busy x hx
      show c.state = _
      rw [← this]
      exact hn.symm
  trash c f h hx := by
    refine ⟨B_pres.trash c f h.b hx, ?_⟩
    rcases h.status with ⟨y, h1, _⟩ | ⟨y, h1, _⟩ | ⟨y, h1, _⟩ | hs
    · rw [hx] at h1; cases h1
    · rw [hx] at h1; cases h1
    · rw [hx] at h1; cases h1
    · exact .inr (.inr (.inr (told_fresh hs ⟨rfl, rfl⟩ hx rfl rfl)))

theorem Z_keeps (st : Bytes) : Keeps (fun _ => True) (Z st) where
  toPresNew := Z_pres st
  start c i k cmds h hi hk hn := by
    refine ⟨B_xact h.b _ (fun k' hk' => by
      have : some k = some k' := hk'
      cases this
      exact hk), ?_⟩
    have hr : i.lastReady = none := by
      unfold Xact3.init at hi
      split at hi
      · cases hi; rfl
      · cases hi
    rcases h.status with ⟨y, h1, _⟩ | ⟨y, h1, _⟩ | ⟨y, h1, _⟩ | hs
    · rw [hn] at h1; cases h1
    · rw [hn] at h1; cases h1
    · rw [hn] at h1; cases h1
    · exact .inr (.inr (.inr (told_fresh (d := { c with xact := some (.inst { inst := i, oid := k }) }) hs ⟨rfl, rfl⟩ hn rfl hr)))
  bump c h := Z_same h (B_bump h.b) ⟨rfl, rfl⟩ rfl rfl
  plugged c b h := by
    cases b with
    | true => exact h
    | false => exact Z_same h (B_plug false h.b) ⟨rfl, rfl⟩ rfl rfl
  sync c h _ := ⟨B_sync h.b, .inr (.inr (.inl ⟨_, rfl, ⟨rfl, rfl, rfl, rfl, .inl rfl⟩⟩))⟩
  given c x m n _ _ h hx hd := by
    refine ⟨B_xact h.b _ (fun k hk => h.b.own _ k hx hk), ?_⟩
    rcases h.status with hs | hs | ⟨y, h1, h2⟩ | hs
    · have := stuck_not_sending hs hx
      have : dirOf x.inst = .receiving := this
      rw [hd] at this; cases this
    · have := dead_complete hs hx
      have : dirOf x.inst = .complete := this
      rw [hd] at this; cases this
    · rw [hx] at h1
      cases h1
      exact .inr (.inr (.inl ⟨_, rfl, ⟨h2.commands, h2.none, h2.last1, h2.last2, h2.state⟩⟩))
    · exact .inr (.inr (.inr (told_xact (d := { c with xact := some (.inst { x with inst := { x.inst with messages := m }, user := n }) }) hs ⟨rfl, rfl⟩ hx rfl rfl)))
  trashC c i h := Z_same h ⟨I_congr (c := c) rfl rfl h.b.i, h.b.ids, h.b.own⟩ ⟨rfl, rfl⟩ rfl rfl
  trashS c i h := Z_same h ⟨I_congr (c := c) rfl rfl h.b.i, h.b.ids, h.b.own⟩ ⟨rfl, rfl⟩ rfl rfl
  sock c s r _ h := Z_same h ⟨I_congr (c := c) rfl rfl h.b.i, h.b.ids, h.b.own⟩ ⟨rfl, rfl⟩ rfl rfl
  closes c f n _ h hn := by
    refine ⟨B_xact h.b _ (fun k hk => by cases hk), ?_⟩
    rcases h.status with ⟨y, h1, _⟩ | ⟨y, h1, _⟩ | ⟨y, h1, _⟩ | hs
    · rw [hn] at h1; cases h1
    · rw [hn] at h1; cases h1
    · rw [hn] at h1; cases h1
    · exact .inr (.inr (.inr (told_fresh (d := { c with xact := some (.closing false) }) hs ⟨rfl, rfl⟩ hn rfl rfl)))

theorem Z_established (s : List SendEv) (r : List RecvEv) (st : Bytes) : Z st { xact := none, sends := s, recvs := r, state := st } :=
  ⟨B_established s r st, .inr (.inr (.inr ⟨fun _ => rfl, fun y hy => (by cases hy), valid_none⟩))⟩

/-- The status of an idle connection, after any history. -/
theorem status_calls (s : List SendEv) (r : List RecvEv) (st : Bytes) (as : List Call) :
    ∃ c, (calls (established s r st) as).1.pq = .conn c ∧ Z st c := by
  obtain ⟨c, h1, _, h3⟩ := calls_keeps (Z_keeps st) as (established s r st) (fun _ _ => trivial) ⟨_, rfl, B_established s r st, Z_established s r st⟩
  exact ⟨c, h1, h3⟩

/-! ## Errors -/

/-- The running transaction failed. -/
def Pend (c : Conn Y) : Prop := ∃ x, c.xact = some x ∧ fatalOf x ≠ none

theorem errors_append (a b : List Msg) : errors (a ++ b) = errors a + errors b := by
  unfold errors
  rw [List.filter_append, List.length_append]

theorem errors_zero {ms : List Msg} (h : ¬ ∃ m ∈ ms, m.1 = 69) : errors ms = 0 := by
  unfold errors
  rw [List.filter_eq_nil_iff.2 (fun m hm => by simpa using fun h69 => h ⟨m, hm, h69⟩)]
  rfl

/-- Nothing is to be closed on the server, and fewer than `n` errors came, or the running transaction failed. -/
structure Few (n : Nat) (c : Conn Y) : Prop where
  clean : c.garbageCursors = [] ∧ c.garbageStatements = []
  few : errors c.taken < n ∨ Pend c

theorem fatalOf_sent (x y : Y) : fatalOf (dbOps.sent x y) = fatalOf y ∨ fatalOf (dbOps.sent x y) = some true := by
  cases x with
  | closing b => cases y with
    | closing d => exact .inr rfl
    | inst y => exact .inl rfl
  | inst x => cases y with
    | closing d => exact .inl rfl
    | inst y => exact .inl (sentAs_fatal _ _)

theorem fatalOf_fail (x : Y) : fatalOf (dbOps.fail x) = some true := (fatal_iff _).1 (dbOps_lawful.fail_fatal x)

theorem pend_fail {c : Conn Y} {x : Y} (hx : c.xact = some (dbOps.fail x)) : Pend c := ⟨_, hx, by rw [fatalOf_fail]; simp⟩

/-- Taken and garbage are the same. -/
def SameMem (c d : Conn Y) : Prop := d.taken = c.taken ∧ d.garbageCursors = c.garbageCursors ∧ d.garbageStatements = c.garbageStatements

theorem mem_taken {c d : Conn Y} (h : mem d = mem c) : SameMem c d := ⟨(congrArg (·.1) h :), (congrArg (·.2.2.1) h :), (congrArg (·.2.2.2) h :)⟩

theorem clean_same {c d : Conn Y} {n : Nat} (h : Few n c) (ht : SameMem c d) : d.garbageCursors = [] ∧ d.garbageStatements = [] :=
  ⟨ht.2.1.trans h.clean.1, ht.2.2.trans h.clean.2⟩

theorem few_same {n : Nat} {c d : Conn Y} (h : Few n c) (hx : d.xact = c.xact) (ht : SameMem c d) : Few n d := by
  refine ⟨clean_same h ht, ?_⟩
  rcases h.few with h | ⟨x, h1, h2⟩
  · exact .inl (by rw [ht.1]; exact h)
  · exact .inr ⟨x, hx.trans h1, h2⟩

theorem few_xact {n : Nat} {c d : Conn Y} {x y : Y} (h : Few n c) (hx : c.xact = some x) (hy : d.xact = some y) (ht : SameMem c d)
    (hf : fatalOf x ≠ none → fatalOf y ≠ none) : Few n d := by
  refine ⟨clean_same h ht, ?_⟩
  rcases h.few with h | ⟨z, h1, h2⟩
  · exact .inl (by rw [ht.1]; exact h)
  · rw [hx] at h1
    cases h1
    exact .inr ⟨y, hy, hf h2⟩

theorem few_put {n : Nat} {d : Conn Y} {ix : IX} (h : Few n d) (hx : d.xact = some (.inst ix)) (hd : dirOf ix.inst = .receiving) :
    Few n (putRead dbOps d (.inst ix) (.inst ix)).1 := by
  obtain ⟨p1, p2⟩ := putAs_seen ix.inst.state ix.inst d.read rfl hd
  rcases putRead_cases d ix ix with ⟨i, e, hp, he⟩ | ⟨i, k, hp, he⟩
  · rw [he]
    exact few_xact h hx rfl ⟨rfl, rfl, rfl⟩ (p2 i e hp).1
  · rw [he]
    have hs := p1 i k hp
    refine ⟨h.clean, ?_⟩
    by_cases hm : ∃ m ∈ d.read.msgs.take k, m.1 = 69
    · exact .inr ⟨_, rfl, hs.error hm⟩
    · rcases h.few with h | ⟨z, h1, h2⟩
      · refine .inl ?_
        dsimp only
        rw [errors_append, errors_zero hm]
        exact h
      · rw [hx] at h1
        cases h1
        exact .inr ⟨_, rfl, hs.kept h2⟩

theorem putAs_kept (st : XState) (s : Inst) (b : Batch) (h : s.fatal ≠ none) : (putAs st s b).1.fatal ≠ none := by
  have std : ∀ t : Inst, t.fatal ≠ none → (standardPut t b).1.fatal ≠ none := by
    intro t ht
    obtain ⟨h1, h2⟩ := standardPut_seen t b
    cases hz : standardPut t b with
    | mk t' r =>
      cases r with
      | error e => exact (h2 t' e hz).1 ht
      | ok n => exact (h1 t' n hz).kept ht
  unfold putAs
  split
  · exact std s h
  · unfold putCopydata
    split
    · exact h
    · dsimp only
      split
      · exact std _ h
      · exact h
  · unfold putTupledata
    split
    · exact h
    · split
      · exact std _ h
      · split
        · exact h
        · split
          · exact std _ h
          · exact h
  · exact h

theorem putRead_garbage (d : Conn Y) (x y : Y) : (putRead dbOps d x y).1.garbageCursors = d.garbageCursors ∧
    (putRead dbOps d x y).1.garbageStatements = d.garbageStatements := by
  unfold putRead
  generalize dbOps.put x y d.read = z
  obtain ⟨z, r⟩ := z
  cases r <;> exact ⟨rfl, rfl⟩

theorem few_pres (n : Nat) : Pres0 dbOps (Few n) where
  wrote c x d h hx hd hw := by
    have hm := (writeMessages_mem c (dbOps.messages x)).1
    rw [hw] at hm
    refine few_xact (d := { d with xact := some (dbOps.sent x x) }) h hx rfl (mem_taken hm) (fun hf => ?_)
    rcases fatalOf_sent x x with e | e <;> rw [e]
    · exact hf
    · simp
  writeLost c x d h hx hd hw := by
    have hm := (writeMessages_mem c (dbOps.messages x)).1
    have hxd := (writeMessages_xact dbOps c (dbOps.messages x)).2
    rw [hw] at hm hxd
    have hxd := hxd rfl
    rw [hx] at hxd
    refine ⟨⟨clean_same h (mem_taken hm), .inr (pend_fail hxd)⟩, clean_same h (mem_taken hm), .inr ⟨_, rfl, ?_⟩⟩
    rcases fatalOf_sent x (dbOps.fail x) with e | e <;> rw [e]
    · rw [fatalOf_fail]; simp
    · simp
  writeOther c x d r h hx hd hw hr := by
    have hm := (writeMessages_mem c (dbOps.messages x)).1
    have hs := writeMessages_same dbOps c (dbOps.messages x)
    rw [hw] at hm hs
    rcases hs with e | e
    · exact few_same h e (mem_taken hm)
    · rw [hx] at e
      exact ⟨clean_same h (mem_taken hm), .inr (pend_fail (x := x) e)⟩
  read c x d r h hx hd hw := by
    have hm := readMessages_mem c
    have hs := readMessages_same dbOps c
    rw [hw] at hm hs
    rcases hs with e | e
    · exact few_same h e (mem_taken hm)
    · rw [hx] at e
      exact ⟨clean_same h (mem_taken hm), .inr (pend_fail (x := x) e)⟩
  put c x d h hx hd hw := by
    have hm := readMessages_mem c
    have hxd := (readMessages_xact dbOps c).1
    rw [hw] at hm hxd
    have hxd := hxd rfl
    obtain ⟨ix, rfl⟩ := closing_receiving hd
    exact few_put (few_same h hxd (mem_taken hm)) (hxd.trans hx) hd
  putLost c x d h hx hd hw := by
    have hm := readMessages_mem c
    rw [hw] at hm
    have hc := clean_same h (mem_taken hm)
    obtain ⟨ix, rfl⟩ := closing_receiving hd
    obtain ⟨g1, g2⟩ := putRead_garbage d (.inst ix) (dbOps.fail (.inst ix))
    exact ⟨⟨g1.trans hc.1, g2.trans hc.2⟩, .inr ⟨_, putRead_xact dbOps d _ _, putAs_kept _ _ _ (by show some true ≠ none; simp)⟩⟩
  fail c h hn := by
    cases hx : c.xact with
    | none => exact absurd hx hn
    | some x => exact ⟨h.clean, .inr (pend_fail (x := x) (by unfold failXact; rfl))⟩
  note c x h hx := few_same (d := noteReady dbOps c x) h rfl ⟨rfl, rfl, rfl⟩

theorem few_drop {n : Nat} {c : Conn Y} {x : Y} (h : Few n c) (hx : c.xact = some x) (hf : fatalOf x = none) : Few n { c with xact := none } := by
  refine ⟨h.clean, ?_⟩
  rcases h.few with h | ⟨y, h1, h2⟩
  · exact .inl h
  · rw [hx] at h1; cases h1; exact absurd hf h2

theorem few_start {n : Nat} {c : Conn Y} (y : Y) (h : Few n c) (hx : c.xact = none) : Few n { c with xact := some y } := by
  refine ⟨h.clean, ?_⟩
  rcases h.few with h | ⟨y, h1, h2⟩
  · exact .inl h
  · rw [hx] at h1; cases h1

/-! ## Calls that raise no error -/

theorem few_settle {n : Nat} {c : Conn Y} {x : Y} (h : Few n c) (hx : c.xact = some x) (hf : fatalOf x = none) :
    Few n (settle dbOps c) ∧ (settle dbOps c).xact = none := by
  unfold settle
  rw [hx]
  dsimp only
  rw [if_neg (by rw [fatal_iff, hf]; simp)]
  exact ⟨few_drop h hx hf, rfl⟩

theorem few_stepRaw {n : Nat} {c : Conn Y} (h : Few n c) : Few n (stepRaw dbOps c).1 := stepRaw_pres (few_pres n) c h

theorem few_plug {n : Nat} (b : Bool) {c : Conn Y} (h : Few n c) : Few n (plug b c) := by
  cases b
  · exact few_same h rfl ⟨rfl, rfl, rfl⟩
  · exact h

theorem few_stepEnd {n : Nat} {c : Conn Y} (h : Few n c) (hf : ∀ x, c.xact = some x → dbOps.dir x = .complete → fatalOf x ≠ some false) :
    Few n (stepEnd dbOps c) := by
  unfold stepEnd
  cases hx : c.xact with
  | none => exact h
  | some x =>
    dsimp only
    split
    · rename_i hd
      refine few_drop h hx ?_
      have h1 := hf x hx hd.1
      have h2 : fatalOf x ≠ some true := fun e => by rw [(fatal_iff x).2 e] at hd; cases hd.2
      cases hz : fatalOf x with
      | none => rfl
      | some b => cases b with | false => exact absurd hz h1 | true => exact absurd hz h2
    · exact h

theorem stepRaw_sending {c : Conn Y} {x : Y} (hx : c.xact = some x) (hd : dbOps.dir x = .sending) (h : (stepRaw dbOps c).2.1 = true) :
    ∀ y, (stepRaw dbOps c).1.xact = some y → dbOps.dir y = .complete → fatalOf y ≠ some false := by
  unfold stepRaw at h ⊢
  rw [hx] at h ⊢
  dsimp only at h ⊢
  rw [hd] at h ⊢
  dsimp only at h ⊢
  have hw := writeMessages_xact dbOps c (dbOps.messages x)
  generalize writeMessages dbOps c (dbOps.messages x) = w at h hw
  obtain ⟨q, r⟩ := w
  cases r with
  | blocked => cases h
  | raised e => cases h
  | ret b =>
    intro y hy hyd
    dsimp only at hy hw
    have : ∃ z, (z = x ∨ z = dbOps.fail x) ∧ y = dbOps.sent x z := by
      cases b with
      | true => rw [hw.1 rfl, hx] at hy; cases hy; exact ⟨x, .inl rfl, rfl⟩
      | false => rw [hw.2 rfl, hx] at hy; cases hy; exact ⟨dbOps.fail x, .inr rfl, rfl⟩
    obtain ⟨z, hz, rfl⟩ := this
    rw [(fatal_iff _).1 (dbOps_sends x z hd hz hyd)]
    simp

theorem few_step {n : Nat} {c : Conn Y} {x : Y} (h : Few n c) (hx : c.xact = some x) (hd : dbOps.dir x = .sending) : Few n (step dbOps c).1 := by
  rw [step_stepRaw]
  have h1 := few_stepRaw h
  have h2 := stepRaw_sending hx hd
  unfold endStep
  generalize stepRaw dbOps c = z at h1 h2
  obtain ⟨d, fin, r⟩ := z
  cases fin with
  | false => exact h1
  | true => exact few_stepEnd h1 (h2 rfl)

/-- Pushing onto an idle connection. -/
theorem few_push {n k : Nat} {f : Finalizers} {c : Conn Y} {i : Inst} {o : Nat} (h : Few n c) (hx : c.xact = none) (hi : dirOf i = .sending) :
    Few n (push dbOps f k c (.inst { inst := i, oid := o })).1 := by
  have hdir : dbOps.dir (.inst { inst := i, oid := o }) = .sending := hi
  have hg : ¬ (c.garbageStatements ≠ [] ∨ c.garbageCursors ≠ []) := by rw [h.clean.1, h.clean.2]; simp
  have hp : push dbOps f k c (.inst { inst := i, oid := o }) = step dbOps { c with xact := some (.inst { inst := i, oid := o }) } := by
    unfold push
    rw [if_neg (by rw [hdir]; simp), hx]
    dsimp only [Option.isSome]
    rw [if_neg (by simp)]
    dsimp only
    rw [hx, if_neg (by simp), if_neg hg]
    dsimp only
    rw [hx, if_neg (by simp)]
  rw [hp]
  exact few_step (few_start _ h hx) rfl hdir

/-- Calls that neither close the connection, nor synchronize by force, nor leave something to be closed on the server. -/
def plainCall : Call → Bool
  | .close _ _ | .synchronize _ | .trashCursor _ | .trashStatement _ => false
  | _ => true

theorem few_pqPush {n k : Nat} {f : Finalizers} {db : Db} {c : Conn Y} {i : Inst} {o : Nat} (hc : db.pq = .conn c) (h : Few n (plug db.socket c)) (hi : dirOf i = .sending)
    (ho : ∀ b m, (pqPush f k db (.inst { inst := i, oid := o })).2 ≠ .dbError b m) : ∃ d, (pqPush f k db (.inst { inst := i, oid := o })).1.pq = .conn d ∧ Few n d := by
  unfold pqPush at ho ⊢
  rw [hc] at ho ⊢
  dsimp only at ho ⊢
  generalize plug db.socket c = p at h ho
  cases hx : p.xact with
  | none => exact ⟨_, rfl, few_push h hx hi⟩
  | some x =>
    rw [hx] at ho
    dsimp only at ho ⊢
    have h1 := drive_pres (few_pres n) k p h
    have hr := drive_ret dbOps_lawful k p (drive dbOps k p).1
    generalize drive dbOps k p = z at h1 hr ho
    obtain ⟨d, r⟩ := z
    cases r with
    | raised e => exact ⟨_, rfl, h1⟩
    | blocked => exact ⟨_, rfl, h1⟩
    | ret u =>
      cases u
      obtain ⟨x', hx', hd⟩ := hr rfl
      dsimp only at ho hx' hd h1 ⊢
      rw [hx'] at ho ⊢
      dsimp only at ho ⊢
      cases hf : fatalOf x' with
      | some b => rw [hf] at ho; exact absurd rfl (ho b (errorOf x'))
      | none =>
        obtain ⟨s1, s2⟩ := few_settle h1 hx' hf
        exact ⟨_, rfl, few_push s1 s2 hi⟩

theorem few_pqComplete {n k : Nat} {db : Db} {c : Conn Y} (hc : db.pq = .conn c) (h : Few n c)
    (ho : ∀ b m, (pqComplete k db).2 ≠ .dbError b m) : ∃ d, (pqComplete k db).1.pq = .conn d ∧ Few n d := by
  unfold pqComplete at ho ⊢
  rw [hc] at ho ⊢
  dsimp only at ho ⊢
  have hp := few_plug db.socket h
  generalize plug db.socket c = p at hp ho
  cases hx : p.xact with
  | none => exact ⟨c, hc, h⟩
  | some x =>
    rw [hx] at ho
    dsimp only at ho ⊢
    have h1 := drive_pres (few_pres n) k p hp
    have hr := drive_ret dbOps_lawful k p (drive dbOps k p).1
    generalize drive dbOps k p = z at h1 hr ho
    obtain ⟨d, r⟩ := z
    cases r with
    | raised e => exact ⟨_, rfl, h1⟩
    | blocked => exact ⟨_, rfl, h1⟩
    | ret u =>
      cases u
      obtain ⟨x', hx', hd⟩ := hr rfl
      dsimp only at ho hx' hd h1 ⊢
      rw [hx'] at ho ⊢
      dsimp only [Option.bind_some] at ho ⊢
      cases hf : fatalOf x' with
      | some b => rw [hf] at ho; exact absurd rfl (ho b (errorOf x'))
      | none =>
        obtain ⟨s1, s2⟩ := few_settle h1 hx' hf
        cases db.controller <;> exact ⟨_, rfl, s1⟩

theorem few_pqStep {n : Nat} {db : Db} {c : Conn Y} (hc : db.pq = .conn c) (h : Few n c)
    (ho : ∀ b m, (pqStep db).2 ≠ .dbError b m) : ∃ d, (pqStep db).1.pq = .conn d ∧ Few n d := by
  unfold pqStep at ho ⊢
  rw [hc] at ho ⊢
  dsimp only at ho ⊢
  have hp := few_plug db.socket h
  generalize plug db.socket c = p at hp ho
  cases hx : p.xact with
  | none => exact ⟨c, hc, h⟩
  | some x =>
    rw [hx] at ho
    dsimp only at ho ⊢
    have h1 := few_stepRaw hp
    generalize stepRaw dbOps p = z at h1 ho
    obtain ⟨d, fin, r⟩ := z
    cases r with
    | raised e => exact ⟨_, rfl, h1⟩
    | blocked => exact ⟨_, rfl, h1⟩
    | ret u =>
      cases u
      dsimp only at ho h1 ⊢
      have fin' : (∀ x, d.xact = some x → dbOps.dir x = .complete → fatalOf x ≠ some false) → Few n (if fin = true then stepEnd dbOps d else d) := by
        intro h
        cases fin with
        | true => exact few_stepEnd h1 h
        | false => exact h1
      cases hx' : d.xact with
      | none => exact ⟨_, rfl, fin' (fun x h => by rw [hx'] at h; cases h)⟩
      | some x' =>
        rw [hx'] at ho
        dsimp only at ho ⊢
        by_cases hd : dbOps.dir x' = .complete
        · rw [if_pos hd] at ho ⊢
          cases hf : fatalOf x' with
          | some b => rw [hf] at ho; exact absurd rfl (ho b (errorOf x'))
          | none =>
            have := fin' (fun x h => by rw [hx'] at h; cases h; rw [hf]; simp)
            cases db.controller <;> exact ⟨_, rfl, this⟩
        · rw [if_neg hd]
          exact ⟨_, rfl, fin' (fun x h hc => by rw [hx'] at h; cases h; exact absurd hc hd)⟩

theorem few_call {n : Nat} {db : Db} {c : Conn Y} (a : Call) (ha : plainCall a = true) (hc : db.pq = .conn c) (h : Few n c)
    (ho : ∀ b m, (call db a).2 ≠ .dbError b m) : ∃ d, (call db a).1.pq = .conn d ∧ Few n d := by
  cases a with
  | sock s r => exact ⟨{ c with sends := c.sends ++ s, recvs := c.recvs ++ r }, by unfold call onConn; rw [hc], few_same h rfl ⟨rfl, rfl, rfl⟩⟩
  | push f k cmds =>
    unfold call pqStart at ho ⊢
    dsimp only at ho ⊢
    rw [hc] at ho ⊢
    dsimp only at ho ⊢
    cases hi : Xact3.init cmds with
    | error e => exact ⟨c, hc, h⟩
    | ok i =>
      rw [hi] at ho
      dsimp only at ho ⊢
      exact few_pqPush (db := { db with pq := .conn { c with nextId := c.nextId + 1 } }) (c := { c with nextId := c.nextId + 1 }) rfl
        (few_plug _ (few_same h rfl ⟨rfl, rfl, rfl⟩)) (by unfold dirOf; rw [(init_state hi).1]) ho
  | complete k => exact few_pqComplete hc h ho
  | step => exact few_pqStep hc h ho
  | synchronize k => cases ha
  | give m =>
    show ∃ d, (pqGive m db).pq = .conn d ∧ Few n d
    unfold pqGive
    rw [hc]
    dsimp only
    cases hx : c.xact with
    | none => exact ⟨c, hc, h⟩
    | some y =>
      cases y with
      | closing b => exact ⟨c, hc, h⟩
      | inst x =>
        dsimp only
        split
        · cases m with
          | none => exact ⟨_, rfl, few_xact h hx rfl ⟨rfl, rfl, rfl⟩ (fun h => h)⟩
          | some m => exact ⟨_, rfl, few_xact h hx rfl ⟨rfl, rfl, rfl⟩ (fun h => h)⟩
        · exact ⟨c, hc, h⟩
  | trashCursor i => cases ha
  | trashStatement i => cases ha
  | close f k => cases ha
  | connect r =>
    refine ⟨c, ?_, h⟩
    show (connect r db).1.pq = .conn c
    rw [connect_pq r db hc]
    exact hc

theorem few_calls {n : Nat} : ∀ (as : List Call) {db : Db} {c : Conn Y}, (∀ a ∈ as, plainCall a = true) → db.pq = .conn c → Few n c →
    (∀ p ∈ (calls db as).2, ∀ b m, p.2 ≠ .dbError b m) → ∃ d, (calls db as).1.pq = .conn d ∧ Few n d
  | [], db, c, _, hc, h, _ => ⟨c, hc, h⟩
  | a :: as, db, c, ha, hc, h, ho => by
    have h1 : (calls db (a :: as)).1 = (calls (call db a).1 as).1 := rfl
    have h2 : (calls db (a :: as)).2 = (a, (call db a).2) :: (calls (call db a).1 as).2 := rfl
    rw [h2] at ho
    obtain ⟨d, e1, e2⟩ := few_call a (ha a List.mem_cons_self) hc h (fun b m => ho _ List.mem_cons_self b m)
    rw [h1]
    exact few_calls as (fun b hb => ha b (List.mem_cons_of_mem _ hb)) e1 e2 (fun p hp => ho p (List.mem_cons_of_mem _ hp))

end PG.Lifecycle
