import Verif.Proofs.CopyLoad5
/-!
# Loading COPY lines: the beginning
-/
namespace PG.CopyLoad
open PG PG.Element3 PG.Xact3 PG.Client3 PG.Lifecycle PG.Spec.Client

/-- What is known before the transaction with identity `k` is started. -/
structure P0 (k : Nat) (w : Bytes) (c : Conn Y) : Prop where
  b : B c
  next : k < c.nextId
  log : ∀ m ∈ c.log, m.id ≠ .commands k
  other : ∀ y, c.xact = some y → oidY y ≠ some k
  pre : w <+: c.wire

theorem p0_write {k : Nat} {w : Bytes} {c d : Conn Y} {x : Y} {r : Res Bool} (h : P0 k w c) (hx : c.xact = some x)
    (hw : writeMessages dbOps c (dbOps.messages x) = (d, r)) :
    B d ∧ k < d.nextId ∧ (∀ m ∈ d.log, m.id ≠ .commands k) ∧ w <+: d.wire ∧ (d.xact = some x ∨ d.xact = some (dbOps.fail x)) := by
  obtain ⟨h1, h2⟩ := B_write h.b hx hw
  obtain ⟨_, a2, _⟩ := writeMessages_W dbOps c (dbOps.messages x) h.b.i.1
  have hpre := writeMessages_pre dbOps c (dbOps.messages x)
  have hs := writeMessages_same dbOps c (dbOps.messages x)
  rw [hw] at a2 hpre hs
  unfold SameOrFailed at hs
  rw [hx] at hs
  dsimp only at a2 hpre hs
  refine ⟨h1, by rw [h2]; exact h.next, ?_, h.pre.trans hpre, hs⟩
  intro m hm
  rw [a2, List.mem_append, List.mem_singleton] at hm
  rcases hm with hm | rfl
  · exact h.log m hm
  · exact fun e => h.other x hx (oidY_messages x k e)

theorem p0_read {k : Nat} {w : Bytes} {c d : Conn Y} {x : Y} {r : Res Bool} (h : P0 k w c) (hx : c.xact = some x)
    (hw : readMessages dbOps c = (d, r)) :
    B d ∧ k < d.nextId ∧ (∀ m ∈ d.log, m.id ≠ .commands k) ∧ w <+: d.wire ∧ (d.xact = some x ∨ d.xact = some (dbOps.fail x)) := by
  obtain ⟨h1, h2, h3⟩ := B_read h.b hx hw
  obtain ⟨_, a2, _⟩ := readMessages_spec dbOps c h.b.i.2
  have hs := readMessages_same dbOps c
  rw [hw] at a2 hs
  unfold SameOrFailed at hs
  rw [hx] at hs
  have hwire : d.wire = c.wire := (congrArg (·.1) a2 :)
  exact ⟨h1, Nat.lt_of_lt_of_le h.next h2, by rw [h3]; exact h.log, by rw [hwire]; exact h.pre, hs⟩

theorem p0_put {k : Nat} {w : Bytes} {d : Conn Y} {x y : Y} (hb : B d) (hn : k < d.nextId) (hl : ∀ m ∈ d.log, m.id ≠ .commands k) (hp : w <+: d.wire)
    (hy : oidY y ≠ some k) (hy' : ∀ j, oidY y = some j → j < d.nextId) : P0 k w (putRead dbOps d x y).1 := by
  obtain ⟨h1, h2⟩ := B_put (op := x) hb hy'
  obtain ⟨_, b2, _⟩ := putRead_spec dbOps d x y hb.i.2
  refine ⟨h1, Nat.lt_of_lt_of_le hn h2, ?_, ?_, ?_⟩
  · have e := (congrArg (·.2.2.2.2) b2 :)
    unfold wv at e; dsimp only at e; rw [e]; exact hl
  · intro z hz
    rw [putRead_xact] at hz
    cases hz
    rw [oidY_put]; exact hy
  · have e := (congrArg (·.1) b2 :)
    unfold wv at e; dsimp only at e; rw [e]; exact hp

theorem p0_pres (k : Nat) (w : Bytes) : PresNew dbOps (P0 k w) where
  wrote c x d h hx hd hw := by
    obtain ⟨_, h2, h3, h4, _⟩ := p0_write h hx hw
    refine ⟨B_pres.wrote c x d h.b hx hd hw, h2, h3, ?_, h4⟩
    intro y hy
    cases hy
    rw [oidY_sent]; exact h.other x hx
  writeLost c x d h hx hd hw := by
    obtain ⟨_, h2, h3, h4, h5⟩ := p0_write h hx hw
    obtain ⟨g1, g2⟩ := B_pres.writeLost c x d h.b hx hd hw
    refine ⟨⟨g1, h2, h3, ?_, h4⟩, ⟨g2, h2, h3, ?_, h4⟩⟩
    · intro y hy
      rcases h5 with e | e <;> rw [e] at hy <;> cases hy
      · exact h.other x hx
      · rw [oidY_fail]; exact h.other x hx
    · intro y hy
      cases hy
      rw [oidY_sent, oidY_fail]; exact h.other x hx
  writeOther c x d r h hx hd hw hr := by
    obtain ⟨h1, h2, h3, h4, h5⟩ := p0_write h hx hw
    refine ⟨h1, h2, h3, ?_, h4⟩
    intro y hy
    rcases h5 with e | e <;> rw [e] at hy <;> cases hy
    · exact h.other x hx
    · rw [oidY_fail]; exact h.other x hx
  read c x d r h hx hd hw := by
    obtain ⟨h1, h2, h3, h4, h5⟩ := p0_read h hx hw
    refine ⟨h1, h2, h3, ?_, h4⟩
    intro y hy
    rcases h5 with e | e <;> rw [e] at hy <;> cases hy
    · exact h.other x hx
    · rw [oidY_fail]; exact h.other x hx
  put c x d h hx hd hw := by
    obtain ⟨h1, h2, h3, h4, _⟩ := p0_read h hx hw
    have hle := (B_read h.b hx hw).2.1
    exact p0_put h1 h2 h3 h4 (h.other x hx) (fun j hj => Nat.lt_of_lt_of_le (h.b.own x j hx hj) hle)
  putLost c x d h hx hd hw := by
    obtain ⟨h1, h2, h3, h4, _⟩ := p0_read h hx hw
    have hle := (B_read h.b hx hw).2.1
    exact p0_put h1 h2 h3 h4 (by rw [oidY_fail]; exact h.other x hx) (fun j hj => by rw [oidY_fail] at hj; exact Nat.lt_of_lt_of_le (h.b.own x j hx hj) hle)
  fail c h hx := by
    refine ⟨B_pres.fail c h.b hx, h.next, h.log, ?_, h.pre⟩
    obtain ⟨x, hx'⟩ := Option.ne_none_iff_exists'.1 hx
    intro y hy
    unfold failXact at hy
    dsimp only at hy
    rw [hx'] at hy
    cases hy
    rw [oidY_fail]; exact h.other x hx'
  note c x h hx := ⟨B_pres.note c x h.b hx, h.next, h.log, h.other, h.pre⟩
  drop c x h hx hd hf hn := ⟨B_pres.drop c x h.b hx hd hf hn, h.next, h.log, fun y hy => (by cases hy), h.pre⟩
  trash c f h hx := by
    refine ⟨B_pres.trash c f h.b hx, Nat.lt_succ_of_lt h.next, h.log, ?_, h.pre⟩
    intro y hy
    cases hy
    show some c.nextId ≠ some k
    have := h.next
    intro e
    cases e
    omega

theorem dead_pend {c : Conn Y} (h : Dead c) : Pend c := by
  obtain ⟨x, hx, _, hf⟩ := h
  exact ⟨x, hx, by rw [hf]; simp⟩

/-- Pushing: a failed transaction is left, or there was none and the new one is stepped. -/
theorem push_cases {P : Conn Y → Prop} (h : PresNew dbOps P) {f : Finalizers} {n : Nat} {c d : Conn Y} {y : Y} (hc : P c) (hy : dbOps.dir y = .sending)
    (hp : push dbOps f n c y = (d, .ret ())) :
    Pend d ∨ ∃ c1, P c1 ∧ c1.xact = none ∧ step dbOps { c1 with xact := some y } = (d, .ret ()) ∧
      (c.xact = none → c.garbageStatements = [] → c.garbageCursors = [] → c1 = c) := by
  unfold push at hp
  rw [if_neg (by rw [hy]; simp)] at hp
  have h1 : P (if c.xact.isSome then complete dbOps n c else (c, Res.ret ())).1 ∧
      (∀ e, (if c.xact.isSome then complete dbOps n c else (c, Res.ret ())) = (e, .ret ()) → (e.xact = none ∨ Dead e) ∧ (c.xact = none → e = c)) := by
    split
    · rename_i hx
      refine ⟨complete_pres dbOps_lawful h.toPres n c hc, fun e he => ⟨complete_dead he, fun hn => ?_⟩⟩
      rw [hn] at hx; cases hx
    · rename_i hx
      refine ⟨hc, fun e he => ?_⟩
      cases he
      exact ⟨.inl (by simpa using hx), fun _ => rfl⟩
  generalize (if c.xact.isSome then complete dbOps n c else (c, Res.ret ())) = z at h1 hp
  obtain ⟨e, r⟩ := z
  cases r with
  | raised e => cases hp
  | blocked => cases hp
  | ret u =>
    cases u
    obtain ⟨h1, h2⟩ := h1
    obtain ⟨h2, h3⟩ := h2 e rfl
    dsimp only at hp h1
    split at hp
    · rename_i hx
      cases hp
      rcases h2 with h2 | h2
      · rw [h2] at hx; cases hx
      · exact .inl (dead_pend h2)
    · rename_i hx
      have hx : e.xact = none := by simpa using hx
      have h4 : P (if e.garbageStatements ≠ [] ∨ e.garbageCursors ≠ [] then complete dbOps n (takeOutTrash dbOps f e) else (e, Res.ret ())).1 ∧
          (∀ q, (if e.garbageStatements ≠ [] ∨ e.garbageCursors ≠ [] then complete dbOps n (takeOutTrash dbOps f e) else (e, Res.ret ())) = (q, .ret ()) →
            (q.xact = none ∨ Dead q) ∧ (e.garbageStatements = [] → e.garbageCursors = [] → q = e)) := by
        split
        · rename_i hg
          refine ⟨complete_pres dbOps_lawful h.toPres n _ (h.trash e f h1 hx), fun q hq => ⟨complete_dead hq, fun a b => ?_⟩⟩
          rcases hg with hg | hg
          · exact absurd a hg
          · exact absurd b hg
        · refine ⟨h1, fun q hq => ?_⟩
          cases hq
          exact ⟨.inl hx, fun _ _ => rfl⟩
      generalize (if e.garbageStatements ≠ [] ∨ e.garbageCursors ≠ [] then complete dbOps n (takeOutTrash dbOps f e) else (e, Res.ret ())) = z at h4 hp
      obtain ⟨q, r⟩ := z
      cases r with
      | raised e => cases hp
      | blocked => cases hp
      | ret u =>
        cases u
        obtain ⟨h4, h5⟩ := h4
        obtain ⟨h5, h6⟩ := h5 q rfl
        dsimp only at hp h4
        split at hp
        · rename_i hx
          cases hp
          rcases h5 with h5 | h5
          · rw [h5] at hx; cases hx
          · exact .inl (dead_pend h5)
        · rename_i hxq
          refine .inr ⟨q, h4, by simpa using hxq, hp, fun a b b' => ?_⟩
          have := h3 a
          subst this
          exact h6 b b'

/-- The first step. -/
theorem first_step {k : Nat} {w : Bytes} {stmt : Bytes} {c1 d : Conn Y} {x : IX} (h : P0 k w c1) (hk : x.oid = k) (hc : x.inst.commands = commands stmt)
    (hst : x.inst.state = .sending .standardSent) (hm : x.inst.messages = .commands)
    (hs : step dbOps { c1 with xact := some (.inst x) } = (d, .ret ())) :
    I d ∧ (Pend d ∨ Ours k stmt d (fun x => Before (squeeze c1.log) k stmt d x.inst)) := by
  have hS : (squeeze c1.log).getLast?.map (·.id) ≠ some (objC k stmt).id := by
    intro e
    cases hg : (squeeze c1.log).getLast? with
    | none => rw [hg] at e; cases e
    | some m =>
      rw [hg] at e
      exact h.log m (squeezeFrom_sub _ _ m (List.mem_of_getLast? hg)) (Option.some.inj e)
  have hd : dirOf x.inst = .sending := by unfold dirOf; rw [hst]
  have hi : I ({ c1 with xact := some (Y.inst x) } : Conn Y) := I_congr (c := c1) rfl rfl h.b.i
  rw [step_stepRaw] at hs
  have hsr := stepRaw_sending (c := { c1 with xact := some (.inst x) }) rfl hd
  cases hz : stepRaw dbOps { c1 with xact := some (.inst x) } with
  | mk e fr =>
    obtain ⟨fin, r⟩ := fr
    rw [hz] at hs hsr
    unfold endStep at hs
    dsimp only at hs hsr
    have hr : r = .ret () := (Prod.mk.inj hs).2
    subst hr
    obtain ⟨a1, _, _, a4, a5⟩ := send_step hi rfl hd hz
    have hobj : (⟨x.oidOf, outItems x.inst⟩ : Obj) = objC k stmt := by
      unfold IX.oidOf outItems objC
      rw [hm, hk, hc]
    rw [hobj] at a4
    have hlog : squeeze e.log = squeeze c1.log ++ [objC k stmt] := by rw [a4]; exact sq_next hS (.inl rfl)
    have hde : d = e := by
      have hs := (Prod.mk.inj hs).1
      split at hs
      · rename_i hfin
        rw [← hs]
        unfold stepEnd
        cases hxe : e.xact with
        | none => rfl
        | some y =>
          dsimp only
          rw [if_neg]
          rintro ⟨g1, g2⟩
          have g3 := hsr hfin y hxe g1
          have g4 : fatalOf y ≠ some true := fun e => by rw [(fatal_iff y).2 e] at g2; cases g2
          rcases a5 with ⟨a5, _⟩ | ⟨y', hy', hf'⟩ | a5
          · rw [hxe] at a5
            cases a5
            have g1 : dirOf (sentAs x.inst.state x.inst) = .complete := g1
            rw [sent_standard hst] at g1
            cases g1
          · rw [hxe] at hy'
            cases hy'
            cases hz : fatalOf y with
            | none => exact hf' hz
            | some b => cases b with | false => exact g3 hz | true => exact g4 hz
          · rw [hxe] at a5
            cases a5
            rw [show dbOps.dir (.inst x) = .sending from hd] at g1
            cases g1
      · exact hs.symm
    subst hde
    refine ⟨a1, ?_⟩
    rcases a5 with ⟨a5, _⟩ | a5 | a5
    · right
      refine ⟨_, a5, hk, by rw [sent_standard hst]; exact hc, .receiving (by rw [sent_standard hst]; rfl) (by rw [sent_standard hst]) hlog⟩
    · exact .inl a5
    · exact .inr ⟨x, a5, hk, hc, .sending hst hm (.inr hlog)⟩

theorem p0_plug {k : Nat} {w : Bytes} {c : Conn Y} (b : Bool) (h : P0 k w c) : P0 k w (plug b c) := by
  cases b
  · exact ⟨⟨I_plug false h.b.i, h.b.ids, h.b.own⟩, h.next, h.log, h.other, h.pre⟩
  · exact h

/-- Starting the commands. -/
theorem begin_spec {f : Finalizers} {n : Nat} {stmt : Bytes} {db db' : Db} {c : Conn Y} (hc : db.pq = .conn c) (hb : B c)
    (h : pqStart f n db (commands stmt) = (db', .ok)) :
    ∃ d, db'.pq = .conn d ∧ I d ∧ (Pend d ∨ ∃ c1 : Conn Y, P0 c.nextId c.wire c1 ∧
      Ours c.nextId stmt d (fun x => Before (squeeze c1.log) c.nextId stmt d x.inst) ∧
      (c.xact = none → c.garbageStatements = [] → c.garbageCursors = [] → wv c1 = wv c)) := by
  unfold pqStart at h
  rw [hc] at h
  dsimp only at h
  have hinit : Xact3.init (commands stmt) = .ok (instOps.instruction c.nextId (commands stmt)).inst := rfl
  rw [hinit] at h
  dsimp only at h
  unfold pqPush at h
  dsimp only at h
  have hp0 : P0 c.nextId c.wire (plug db.socket { c with nextId := c.nextId + 1 }) := by
    apply p0_plug
    refine ⟨⟨⟨W_congr (c := c) rfl hb.i.1, ⟨hb.i.2.inv, hb.i.2.bytes, hb.i.2.fits, hb.i.2.data, Nat.lt_succ_of_lt hb.i.2.ids⟩⟩, ?_, ?_⟩, Nat.lt_succ_self _, ?_, ?_, List.prefix_rfl⟩
    · exact fun m hm k hk => Nat.lt_succ_of_lt (hb.ids m hm k hk)
    · exact fun y k hy hk => Nat.lt_succ_of_lt (hb.own y k hy hk)
    · exact fun m hm e => Nat.lt_irrefl _ (hb.ids m hm _ e)
    · exact fun y hy e => Nat.lt_irrefl _ (hb.own y _ hy e)
  have hpw : wv (plug db.socket { c with nextId := c.nextId + 1 }) = wv c ∧ (plug db.socket { c with nextId := c.nextId + 1 }).xact = c.xact ∧
      (plug db.socket { c with nextId := c.nextId + 1 }).garbageStatements = c.garbageStatements ∧
      (plug db.socket { c with nextId := c.nextId + 1 }).garbageCursors = c.garbageCursors := by
    cases db.socket <;> exact ⟨rfl, rfl, rfl, rfl⟩
  have go : ∀ (q : Conn Y) (db0 : Db), P0 c.nextId c.wire q → (c.xact = none → c.garbageStatements = [] → c.garbageCursors = [] → wv q = wv c ∧ q.xact = none ∧ q.garbageStatements = [] ∧ q.garbageCursors = []) →
      ((match push dbOps f n q (.inst { inst := (instOps.instruction c.nextId (commands stmt)).inst, oid := c.nextId }) with
        | (c, r) => ({ db0 with pq := .conn c, controller := true }, outOf r)) : Db × Outcome) = (db', .ok) →
      ∃ d, db'.pq = .conn d ∧ I d ∧ (Pend d ∨ ∃ c1 : Conn Y, P0 c.nextId c.wire c1 ∧
      Ours c.nextId stmt d (fun x => Before (squeeze c1.log) c.nextId stmt d x.inst) ∧
      (c.xact = none → c.garbageStatements = [] → c.garbageCursors = [] → wv c1 = wv c)) := by
    intro q db0 hq hid h
    have hI := push_I dbOps f n q (.inst { inst := (instOps.instruction c.nextId (commands stmt)).inst, oid := c.nextId }) hq.b.i
    cases hz : push dbOps f n q (.inst { inst := (instOps.instruction c.nextId (commands stmt)).inst, oid := c.nextId }) with
    | mk d r =>
      rw [hz] at h hI
      have hr : r = .ret () := by
        have := (Prod.mk.inj h).2
        cases r with
        | ret u => rfl
        | raised e => cases this
        | blocked => cases this
      subst hr
      have hdb : db'.pq = .conn d := by rw [← (Prod.mk.inj h).1]
      refine ⟨d, hdb, hI, ?_⟩
      rcases push_cases (p0_pres c.nextId c.wire) hq rfl hz with hp | ⟨c1, g1, g2, g3, g4⟩
      · exact .inl hp
      · rcases (first_step g1 rfl rfl rfl rfl g3).2 with hp | ho
        · exact .inl hp
        · refine .inr ⟨c1, g1, ho, fun a b b' => ?_⟩
          obtain ⟨e1, e2, e3, e4⟩ := hid a b b'
          rw [g4 e2 e3 e4]
          exact e1
  generalize plug db.socket { c with nextId := c.nextId + 1 } = p at h hp0 hpw
  obtain ⟨p1, p2, p3, p4⟩ := hpw
  cases hx : p.xact with
  | none =>
    rw [hx] at h
    exact go p { db with pq := .conn { c with nextId := c.nextId + 1 } } hp0 (fun a b b' => ⟨p1, hx, p3.trans b, p4.trans b'⟩) h
  | some x =>
    rw [hx] at h
    dsimp only at h
    have h1 := drive_pres (p0_pres c.nextId c.wire).toPres0 n p hp0
    have hnt := drive_noted dbOps_lawful n p (drive dbOps n p).1
    have h2 := drive_ret dbOps_lawful n p (drive dbOps n p).1
    generalize drive dbOps n p = z at h1 h2 hnt h
    obtain ⟨d, r⟩ := z
    cases r with
    | raised e => cases h
    | blocked => cases h
    | ret u =>
      cases u
      obtain ⟨x', hx', hd⟩ := h2 rfl
      have h3 := settle_pres (p0_pres c.nextId c.wire).toPres d h1 (fun y hy => by rw [hx'] at hy; cases hy; exact hd) (hnt rfl)
      dsimp only at hx' h
      rw [hx'] at h
      dsimp only at h
      cases hf : fatalOf x' with
      | some b => rw [hf] at h; cases h
      | none =>
        rw [hf] at h
        exact go _ { db with pq := .conn { c with nextId := c.nextId + 1 } } h3 (fun a _ _ => by rw [← p2, hx] at a; cases a) h

end PG.CopyLoad
