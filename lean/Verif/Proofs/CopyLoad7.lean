import Verif.Proofs.CopyLoad6
/-!
# Loading COPY lines: all of it
-/
namespace PG.CopyLoad
open PG PG.Element3 PG.Xact3 PG.Client3 PG.Lifecycle PG.Spec.Client PG.Spec.Lifecycle

/-- The data was sent. -/
theorem sendChunks_spec {f : Finalizers} {n : Nat} {stmt : Bytes} {chunks : List (List Item)} {db db' : Db} {c : Conn Y} (hc : db.pq = .conn c) (hb : B c)
    (h : sendChunks f n stmt chunks db c.nextId = (db', .ok)) :
    ∃ d, db'.pq = .conn d ∧ (Pend d ∨ ∃ (c1 : Conn Y) (U : List Obj), P0 c.nextId c.wire c1 ∧
      (c.xact = none → c.garbageStatements = [] → c.garbageCursors = [] → wv c1 = wv c) ∧ U.map (·.items) = chunks ∧
      Last (squeeze c1.log ++ [objC c.nextId stmt] ++ [objU] ++ U) d.nextId ∧
      I d ∧ Ours c.nextId stmt d (fun x => Ready (squeeze c1.log ++ [objC c.nextId stmt] ++ [objU] ++ U) stmt d x.inst)) := by
  unfold sendChunks at h
  cases h1 : pqStart f n db (commands stmt) with
  | mk db1 o =>
    rw [h1] at h
    cases o with
    | dbError b m => cases h
    | raised e => cases h
    | blocked => cases h
    | ok =>
      dsimp only at h
      obtain ⟨d1, e1, i1, g1⟩ := begin_spec hc hb h1
      cases h2 : start c.nextId n db1 with
      | mk db2 o =>
        rw [h2] at h
        cases o with
        | dbError b m => cases h
        | raised e => cases h
        | blocked => cases h
        | ok =>
          dsimp only at h
          rcases g1 with hp | ⟨c1, p0, ho, hid⟩
          · obtain ⟨d2, e2, hp⟩ := pend_start n e1 hp h2
            obtain ⟨d3, e3, hp⟩ := pend_feed chunks e2 hp h
            exact ⟨d3, e3, .inl hp⟩
          · have hS : (squeeze c1.log).getLast?.map (·.id) ≠ some (.commands c.nextId) := by
              intro e
              cases hg : (squeeze c1.log).getLast? with
              | none => rw [hg] at e; cases e
              | some m =>
                rw [hg] at e
                exact p0.log m (squeezeFrom_sub _ _ m (List.mem_of_getLast? hg)) (Option.some.inj e)
            obtain ⟨d2, e2, g2⟩ := start_spec hS n e1 i1 ho h2
            rcases g2 with hp | g2
            · obtain ⟨d3, e3, hp⟩ := pend_feed chunks e2 hp h
              exact ⟨d3, e3, .inl hp⟩
            · obtain ⟨d3, e3, g3⟩ := feed_spec chunks e2 ⟨g2.1, Nat.zero_le _, g2.2.2⟩ (.inl (by simp [objU])) h
              refine ⟨d3, e3, ?_⟩
              rcases g3 with hp | ⟨U, u1, ⟨u2, _, u3⟩, u4⟩
              · exact .inl hp
              · rcases u3 with hp | u3
                · exact .inl hp
                · exact .inr ⟨c1, U, p0, hid, u1, u4, u2, u3⟩

theorem W_pre {c : Conn Y} (h : W c) : c.wire <+: (squeeze c.log).flatMap bytesOf := by
  obtain ⟨g, _, h2, _, h4⟩ := h
  rcases h4 with ⟨h4, _⟩ | ⟨b, r, h4, _⟩
  · rw [h4]; exact ⟨_, h2⟩
  · rw [h4, List.flatMap_append, ← h2, List.append_assoc]; exact ⟨_, rfl⟩

theorem pend_complete {n : Nat} {db db' : Db} {c : Conn Y} (hc : db.pq = .conn c) (h : Pend c) : pqComplete n db ≠ (db', .ok) := by
  intro he
  unfold pqComplete at he
  rw [hc] at he
  dsimp only at he
  obtain ⟨y, hy, hf⟩ := h
  have hp : Pend (plug db.socket c) := ⟨y, (plug_wire _ _).2.2.1.trans hy, hf⟩
  generalize plug db.socket c = p at he hp
  obtain ⟨x, hx, _⟩ := id hp
  rw [hx] at he
  dsimp only at he
  have h1 := drive_pres pend_pres n p hp
  generalize drive dbOps n p = z at he h1
  obtain ⟨d, r⟩ := z
  cases r with
  | raised e => cases he
  | blocked => cases he
  | ret u =>
    cases u
    obtain ⟨x', hx', hf'⟩ := h1
    dsimp only at hx' he
    rw [hx'] at he
    dsimp only [Option.bind_some] at he
    cases hz : fatalOf x' with
    | none => exact hf' hz
    | some b => rw [hz] at he; cases he

theorem last_not {G : List Obj} {n : Nat} (h : Last G n) {i : OId} (h1 : i ≠ .unit) (h2 : ∀ j, i ≠ .user j) : G.getLast?.map (·.id) ≠ some i := by
  rcases h with h | ⟨j, _, h⟩ <;> rw [h] <;> intro e
  · exact h1 (Option.some.inj e).symm
  · exact h2 j (Option.some.inj e).symm

/-- All of a load that returned. -/
theorem load_spec {f : Finalizers} {n : Nat} {stmt : Bytes} {chunks : List (List Item)} {db db' : Db} {c : Conn Y} (hc : db.pq = .conn c) (hb : B c)
    (h : load f n stmt chunks none db = (db', .ok)) :
    ∃ (d : Conn Y) (S U : List Obj) (suf : Bytes), db'.pq = .conn d ∧ c.wire <+: S.flatMap bytesOf ∧
      (c.xact = none → c.garbageStatements = [] → c.garbageCursors = [] → S.flatMap bytesOf = c.wire ++ c.messageData) ∧
      U.map (·.items) = chunks ∧ (∀ m ∈ S ++ [objC c.nextId stmt] ++ [objU] ++ U ++ [objE c.nextId], Serializable m = true) ∧
      d.wire = (S ++ [objC c.nextId stmt] ++ [objU] ++ U ++ [objE c.nextId]).flatMap bytesOf ++ suf ∧ suf <+: bytesOf (objS 0) ∧
      (closed db' = false → suf = bytesOf (objS 0)) := by
  unfold load at h
  rw [hc] at h
  dsimp only at h
  cases h1 : sendChunks f n stmt chunks db c.nextId with
  | mk db1 o =>
    rw [h1] at h
    cases o with
    | dbError b m => cases h
    | raised e => cases h
    | blocked => cases h
    | ok =>
      dsimp only at h
      unfold finishLoad at h
      obtain ⟨d1, e1, g1⟩ := sendChunks_spec hc hb h1
      cases h2 : pqComplete n (give c.nextId none db1) with
      | mk db2 o =>
        rw [h2] at h
        cases o with
        | dbError b m => cases h
        | raised e => cases h
        | blocked => cases h
        | ok =>
          dsimp only at h
          rcases g1 with hp | ⟨c1, U, p0, hid, hU, hlast, hi, x, hx, hk, hcm, hr⟩
          · obtain ⟨d2, e2, hp2⟩ := pend_give (k := c.nextId) (m := none) e1 hp
            exact (pend_complete e2 hp2 h2).elim
          · have hg : give c.nextId none db1 = { db1 with pq := .conn { d1 with xact := some (.inst { x with inst := { x.inst with messages := .copyDone } }) } } := by
              unfold give
              rw [e1]
              dsimp only
              rw [hx]
              dsimp only
              rw [if_pos hk]
            rw [hg] at h2
            have hG : (squeeze c1.log ++ [objC c.nextId stmt] ++ [objU] ++ U).getLast?.map (·.id) ≠ some (objE c.nextId).id :=
              last_not hlast (by simp [objE]) (by simp [objE])
            obtain ⟨d2, e2, i2, x2, cl2, l2⟩ := complete_spec (stmt := stmt) hG
              (db := { db1 with pq := .conn { d1 with xact := some (.inst { x with inst := { x.inst with messages := .copyDone } }) } }) rfl
              ⟨I_congr (c := d1) rfl rfl hi, .inr ⟨_, rfl, hk, hcm, hr.fresh, .inl ⟨⟨hr.asked.cmds, hr.asked.state, hr.asked.pos, hr.asked.tail⟩, rfl, .inl hr.log⟩⟩⟩ (by simp) h2
            obtain ⟨d3, suf, e3, w3, s3, f3⟩ := sync_spec (fun j => by rw [List.getLast?_append]; simp [objE]) e2 i2 x2 cl2 l2 h
            have hser : ∀ m ∈ squeeze c1.log ++ [objC c.nextId stmt] ++ [objU] ++ U ++ [objE c.nextId], Serializable m = true := by
              rw [← l2]; exact cl2.2.2
            refine ⟨d3, squeeze c1.log, U, suf, e3, p0.pre.trans (W_pre p0.b.i.1), ?_, hU, hser, w3, s3, f3⟩
            intro a b b'
            have hw := hid a b b'
            obtain ⟨g, _, g2, _, g4⟩ := p0.b.i.1
            have hw1 : c1.wire = c.wire := (congrArg (·.1) hw :)
            have hw2 : c1.messageData = c.messageData := (congrArg (·.2.1) hw :)
            rcases g4 with ⟨g4, _⟩ | ⟨m, r, g4, g5, _⟩
            · rw [g4, ← g2, hw1, hw2]
            · exfalso
              have := hser m (by rw [g4]; simp)
              rw [this] at g5; cases g5

/-! ## Giving up -/

/-- The object that ends a COPY in failure. -/
def objF (k : Nat) : Obj := ⟨.copyFail k 1, [.msg (.str .copyFail [105, 110, 118, 97, 108, 105, 100, 32, 116, 101, 114, 109, 105, 110, 97, 116, 105, 111, 110]),
  .msg (.empty .synchronize)]⟩

/-- What may follow the data. -/
def Follows (k : Nat) (m : Obj) : Prop := m = objF k ∨ ∃ j, m = objS j

/-- After a load that was given up. -/
structure A (G : List Obj) (k : Nat) (w : Bytes) (c : Conn Y) : Prop where
  i : I c
  pre : w <+: c.wire
  log : (∃ m, Follows k m ∧ G ++ [m] <+: squeeze c.log) ∨ (squeeze c.log = G ∧ ∃ y, c.xact = some y ∧
    ((dbOps.dir y = .sending ∧ Follows k (dbOps.messages y)) ∨ (dbOps.dir y = .complete ∧ fatalOf y = some true)))

theorem follows_last {G : List Obj} {n k : Nat} {m : Obj} (hl : Last G n) (h : Follows k m) : G.getLast?.map (·.id) ≠ some m.id := by
  rcases h with rfl | ⟨j, rfl⟩
  · exact last_not hl (by simp [objF]) (by simp [objF])
  · exact last_not hl (by simp [objS]) (by simp [objS])

theorem a_write {G : List Obj} {n k : Nat} {w : Bytes} (hl : Last G n) {c d : Conn Y} {x : Y} {r : Res Bool} (h : A G k w c) (hx : c.xact = some x)
    (hd : dbOps.dir x = .sending) (hw : writeMessages dbOps c (dbOps.messages x) = (d, r)) :
    I d ∧ w <+: d.wire ∧ ∃ m, Follows k m ∧ G ++ [m] <+: squeeze d.log := by
  obtain ⟨_, a2, _⟩ := writeMessages_W dbOps c (dbOps.messages x) h.i.1
  have hiw := write_I dbOps c (dbOps.messages x) h.i
  have hpre := writeMessages_pre dbOps c (dbOps.messages x)
  rw [hw] at a2 hiw hpre
  dsimp only at a2 hiw hpre
  refine ⟨hiw, h.pre.trans hpre, ?_⟩
  rcases h.log with ⟨m, h1, h2⟩ | ⟨h1, y, hy, h2⟩
  · refine ⟨m, h1, ?_⟩
    rw [a2, squeeze_snoc]
    split
    · exact h2
    · exact h2.trans ⟨_, rfl⟩
  · rw [hx] at hy
    cases hy
    rcases h2 with ⟨_, h2⟩ | ⟨h2, _⟩
    · exact ⟨_, h2, by rw [a2, sq_next (follows_last hl h2) (.inl h1)]; exact List.prefix_rfl⟩
    · rw [hd] at h2; cases h2

theorem a_recv {G : List Obj} {k : Nat} {w : Bytes} {c : Conn Y} {x : Y} (h : A G k w c) (hx : c.xact = some x)
    (hd : dbOps.dir x = .receiving) : ∃ m, Follows k m ∧ G ++ [m] <+: squeeze c.log := by
  rcases h.log with h1 | ⟨_, y, hy, h2⟩
  · exact h1
  · rw [hx] at hy
    cases hy
    rcases h2 with ⟨h2, _⟩ | ⟨h2, _⟩ <;> rw [hd] at h2 <;> cases h2

theorem a_none {G : List Obj} {k : Nat} {w : Bytes} {c : Conn Y} (h : A G k w c) (hx : c.xact = none) : ∃ m, Follows k m ∧ G ++ [m] <+: squeeze c.log := by
  rcases h.log with h1 | ⟨_, y, hy, h2⟩
  · exact h1
  · rw [hx] at hy; cases hy

theorem a_pres {G : List Obj} {n k : Nat} {w : Bytes} (hl : Last G n) : PresNew dbOps (A G k w) where
  wrote c x d h hx hd hw := by
    obtain ⟨h1, h2, h3⟩ := a_write hl h hx hd hw
    exact ⟨I_congr (c := d) rfl rfl h1, h2, .inl h3⟩
  writeLost c x d h hx hd hw := by
    obtain ⟨h1, h2, h3⟩ := a_write hl h hx hd hw
    exact ⟨⟨h1, h2, .inl h3⟩, ⟨I_congr (c := d) rfl rfl h1, h2, .inl h3⟩⟩
  writeOther c x d r h hx hd hw hr := by
    obtain ⟨h1, h2, h3⟩ := a_write hl h hx hd hw
    exact ⟨h1, h2, .inl h3⟩
  read c x d r h hx hd hw := by
    obtain ⟨_, a2, _⟩ := readMessages_spec dbOps c h.i.2
    have hir := read_I dbOps c h.i
    rw [hw] at a2 hir
    have hlog : d.log = c.log := (congrArg (·.2.2.2.2) a2 :)
    have hwire : d.wire = c.wire := (congrArg (·.1) a2 :)
    exact ⟨hir, by rw [hwire]; exact h.pre, .inl (by rw [hlog]; exact a_recv h hx hd)⟩
  put c x d h hx hd hw := by
    obtain ⟨_, a2, _⟩ := readMessages_spec dbOps c h.i.2
    have hir := read_I dbOps c h.i
    rw [hw] at a2 hir
    obtain ⟨_, b2, _⟩ := putRead_spec dbOps d x x hir.2
    have b2 := b2.trans a2
    have hlog := (congrArg (·.2.2.2.2) b2 :)
    have hwire := (congrArg (·.1) b2 :)
    unfold wv at hlog hwire
    dsimp only at hlog hwire
    exact ⟨put_I dbOps d _ _ hir, by rw [hwire]; exact h.pre, .inl (by rw [hlog]; exact a_recv h hx hd)⟩
  putLost c x d h hx hd hw := by
    obtain ⟨_, a2, _⟩ := readMessages_spec dbOps c h.i.2
    have hir := read_I dbOps c h.i
    rw [hw] at a2 hir
    obtain ⟨_, b2, _⟩ := putRead_spec dbOps d x (dbOps.fail x) hir.2
    have b2 := b2.trans a2
    have hlog := (congrArg (·.2.2.2.2) b2 :)
    have hwire := (congrArg (·.1) b2 :)
    unfold wv at hlog hwire
    dsimp only at hlog hwire
    exact ⟨put_I dbOps d _ _ hir, by rw [hwire]; exact h.pre, .inl (by rw [hlog]; exact a_recv h hx hd)⟩
  fail c h hx := by
    refine ⟨I_congr (c := c) rfl rfl h.i, h.pre, ?_⟩
    rcases h.log with h1 | ⟨h1, _⟩
    · exact .inl h1
    · obtain ⟨y, hy⟩ := Option.ne_none_iff_exists'.1 hx
      refine .inr ⟨h1, dbOps.fail y, ?_, .inr ⟨dbOps_lawful.fail_complete y, fatalOf_fail y⟩⟩
      unfold failXact
      dsimp only
      rw [hy]
      rfl
  note c x h hx := ⟨I_congr (c := c) rfl rfl h.i, h.pre, h.log⟩
  drop c x h hx hd hf hn := by
    refine ⟨I_congr (c := c) rfl rfl h.i, h.pre, .inl ?_⟩
    rcases h.log with h1 | ⟨_, y, hy, h2⟩
    · exact h1
    · rw [hx] at hy
      cases hy
      rcases h2 with ⟨h2, _⟩ | ⟨_, h2⟩
      · rw [hd] at h2; cases h2
      · rw [(fatal_iff x).2 h2] at hf; cases hf
  trash c f h hx := by
    have h1 := a_none h hx
    exact ⟨takeOutTrash_I dbOps f c h.i, h.pre, .inl h1⟩

/-- The calls of other users: they do not touch the data of the load. -/
def otherCall : Call → Prop
  | .give _ => False
  | _ => True

theorem a_keeps {G : List Obj} {n k : Nat} {w : Bytes} (hl : Last G n) : Keeps otherCall (A G k w) where
  toPresNew := a_pres hl
  start c i k' cmds h hi hk hx := by
    have h1 := a_none h hx
    exact ⟨I_congr (c := c) rfl rfl h.i, h.pre, .inl h1⟩
  bump c h := ⟨⟨W_congr (c := c) rfl h.i.1, ⟨h.i.2.inv, h.i.2.bytes, h.i.2.fits, h.i.2.data, Nat.lt_succ_of_lt h.i.2.ids⟩⟩, h.pre, h.log⟩
  plugged c b h := by
    cases b
    · exact ⟨I_plug false h.i, h.pre, h.log⟩
    · exact h
  sync c h hx := by
    refine ⟨⟨W_congr (c := c) rfl h.i.1, ⟨h.i.2.inv, h.i.2.bytes, h.i.2.fits, h.i.2.data, Nat.lt_succ_of_lt h.i.2.ids⟩⟩, h.pre, ?_⟩
    rcases h.log with h1 | ⟨h1, _⟩
    · exact .inl h1
    · exact .inr ⟨h1, _, rfl, .inl ⟨rfl, .inr ⟨c.nextId, rfl⟩⟩⟩
  given c x m n a ha := ha.elim
  trashC c i h := ⟨I_congr (c := c) rfl rfl h.i, h.pre, h.log⟩
  trashS c i h := ⟨I_congr (c := c) rfl rfl h.i, h.pre, h.log⟩
  sock c s r _ h := ⟨I_congr (c := c) rfl rfl h.i, h.pre, h.log⟩
  closes c f n _ h hx := by
    have h1 := a_none h hx
    exact ⟨I_congr (c := c) rfl rfl h.i, h.pre, .inl h1⟩

theorem split_prefix {a b c : Bytes} (h : a <+: b ++ c) : a <+: b ∨ b <+: a := by
  rcases Nat.le_total a.length b.length with h1 | h1
  · left
    rw [List.prefix_iff_eq_take] at h ⊢
    rw [List.take_append_of_le_length h1] at h
    exact h
  · right
    exact List.prefix_of_prefix_length_le ⟨c, rfl⟩ h h1

theorem a_wire {G : List Obj} {k : Nat} {c : Conn Y} (h : A G k (G.flatMap bytesOf) c) :
    ∃ suf, c.wire = G.flatMap bytesOf ++ suf ∧ (suf <+: bytesOf (objF 0) ∨ bytesOf (objF 0) <+: suf ∨ suf <+: bytesOf (objS 0) ∨ bytesOf (objS 0) <+: suf) := by
  obtain ⟨suf, hs⟩ := h.pre
  refine ⟨suf, hs.symm, ?_⟩
  have hw := W_pre h.i.1
  rw [← hs] at hw
  rcases h.log with ⟨m, h1, t, h2⟩ | ⟨h1, _⟩
  · rw [← h2, List.flatMap_append, List.flatMap_append, List.append_assoc, List.prefix_append_right_inj, List.flatMap_cons, List.flatMap_nil, List.append_nil] at hw
    have := split_prefix hw
    rcases h1 with rfl | ⟨j, rfl⟩
    · rcases this with h | h
      · exact .inl h
      · exact .inr (.inl h)
    · rcases this with h | h
      · exact .inr (.inr (.inl h))
      · exact .inr (.inr (.inr h))
  · rw [h1] at hw
    have : suf = [] := by
      have := hw.length_le
      rw [List.length_append] at this
      exact List.eq_nil_of_length_eq_zero (by omega)
    rw [this]
    exact .inl List.nil_prefix

end PG.CopyLoad
