import Verif.Proofs.Lifecycle3
/-!
# The end of a connection: the Terminate message
-/
namespace PG.Lifecycle
open PG PG.Element3 PG.Xact3 PG.Client3 PG.Spec.Client PG.Spec.Lifecycle

/-- The messages of a `Closing`. -/
def co : Obj := ⟨.closing, [.msg (.empty .disconnect)]⟩

theorem co_bytes : catMessages co.items = .ok terminate := by decide +kernel
theorem co_ser : Serializable co = true := by unfold Serializable; rw [co_bytes]; rfl
theorem bytesOf_co : bytesOf co = terminate := by
  have := serializable_iff.1 co_ser
  rw [co_bytes] at this
  exact (Except.ok.inj this).symm

/-- The `Closing` is being sent after `g`. -/
structure Cl (g : List Obj) (e : Conn Y) : Prop where
  w : W e
  x : e.xact = some (.closing false)
  quiet : SendEv.err .fatal ∉ e.sends ∧ SendEv.err .other ∉ e.sends
  log : squeeze (e.log ++ [co]) = g ++ [co]
  ser : ∀ m ∈ g, Serializable m = true

/-- The `Closing` was sent after `g`. -/
structure Gone (g : List Obj) (e : Conn Y) : Prop where
  x : e.xact = some (.closing true)
  wire : e.wire = g.flatMap bytesOf ++ terminate
  rest : e.messageData = []

theorem Cl_write {g : List Obj} {e d : Conn Y} {r : Res Bool} (h : Cl g e) (hw : writeMessages dbOps e co = (d, r)) :
    (r = .ret true ∧ d.wire = g.flatMap bytesOf ++ terminate ∧ d.messageData = []) ∨
    (Cl g d ∧ (r = .blocked ∨ r = .raised (.sock .tryAgain) ∨ r = .raised (.sock .unclear) ∨ r = .raised (.sock .interrupt))) := by
  obtain ⟨e1, e2, e3, e4⟩ := writeMessages_events dbOps e co
  obtain ⟨a1, a2, a3, a4, a5, a6⟩ := writeMessages_W dbOps e co h.w
  have hall : ∀ x ∈ squeeze (e.log ++ [co]), Serializable x = true := by
    rw [h.log]
    intro x hx
    rcases List.mem_append.1 hx with hx | hx
    · exact h.ser x hx
    · cases List.mem_singleton.1 hx; exact co_ser
  have e5 := e4 h.w hall
  rw [hw] at e1 e2 e3 e5 a1 a2 a4 a6
  dsimp only at e1 e2 e3 e5 a1 a2 a4 a6
  have cl : (∀ b, r ≠ .ret b) → Cl g d := by
    intro hr
    refine ⟨a1, (a6 hr).trans h.x, ⟨fun hm => h.quiet.1 (e1 _ hm), fun hm => h.quiet.2 (e1 _ hm)⟩, ?_, h.ser⟩
    rw [a2, squeeze_snoc, h.log, if_pos (by simp)]
  cases r with
  | ret b =>
    cases b with
    | true =>
      obtain ⟨b1, _, b3, _⟩ := a4 rfl
      refine .inl ⟨rfl, ?_, b1⟩
      rw [b3, h.log, List.flatMap_append]
      simp [bytesOf_co]
    | false => exact absurd (e2 rfl) h.quiet.1
  | blocked => exact .inr ⟨cl (by simp), .inl rfl⟩
  | raised x =>
    refine .inr ⟨cl (by simp), ?_⟩
    cases x with
    | py x => exact absurd rfl (e5 x)
    | sock k =>
      cases k with
      | tryAgain => simp
      | unclear => simp
      | interrupt => simp
      | fatal => exact absurd (e3 _ rfl) h.quiet.1
      | other => exact absurd (e3 _ rfl) h.quiet.2

theorem Gone_drive {g : List Obj} {n : Nat} {e d : Conn Y} {r : Res Unit} (h : Gone g e) (hd : drive dbOps n e = (d, r)) : Gone g d := by
  cases n with
  | zero => cases hd; exact h
  | succ n =>
    rw [drive_dead n h.x rfl] at hd
    cases hd
    exact ⟨h.x, h.wire, h.rest⟩

theorem Cl_drive {g : List Obj} : ∀ (n : Nat) {e d : Conn Y}, Cl g e → drive dbOps n e = (d, .ret ()) → Gone g d
  | 0, e, d, _, hd => by cases hd
  | n + 1, e, d, h, hd => by
    unfold drive at hd
    rw [h.x] at hd
    dsimp only at hd
    have hm : dbOps.messages (.closing false) = co := rfl
    unfold completePass at hd
    rw [show dbOps.dir (Y.closing false) = .sending from rfl, hm] at hd
    dsimp only at hd
    cases hw : writeMessages dbOps e co with
    | mk e' r =>
      rw [hw] at hd
      rcases Cl_write h hw with ⟨rfl, h2, h3⟩ | ⟨h2, rfl | rfl | rfl | rfl⟩
      · exact Gone_drive (e := { e' with xact := some (dbOps.sent (.closing false) (.closing false)) }) ⟨rfl, h2, h3⟩ hd
      · cases hd
      · exact Cl_drive n h2 hd
      · cases hd
      · cases hd

theorem settle_gone {g : List Obj} {e : Conn Y} (h : Gone g e) : Gone g (settle dbOps e) := by
  rw [settle_dead ⟨_, h.x, rfl, rfl⟩]; exact h

theorem complete_gone {g : List Obj} {n : Nat} {e d : Conn Y} (h : Cl g e ∨ Gone g e) (hd : complete dbOps n e = (d, .ret ())) : Gone g d := by
  rw [complete_drive] at hd
  cases hz : drive dbOps n e with
  | mk e' r =>
    rw [hz] at hd
    cases r with
    | raised e => cases hd
    | blocked => cases hd
    | ret u =>
      cases u
      cases hd
      apply settle_gone
      rcases h with h | h
      · exact Cl_drive n h hz
      · exact Gone_drive h hz

theorem finishClosing_gone {g : List Obj} {n : Nat} {e d : Conn Y} (h : Cl g e ∨ Gone g e) (hd : finishClosing n e = (d, .ret ())) : Gone g d := by
  unfold finishClosing plainComplete at hd
  cases hz : complete dbOps n e with
  | mk e' r =>
    rw [hz] at hd
    cases r with
    | raised e => cases hd
    | blocked => cases hd
    | ret u => cases u; exact complete_gone (.inr (complete_gone h hz)) hd

theorem step_closing {g : List Obj} {e d : Conn Y} (h : Cl g e) (hd : step dbOps e = (d, .ret ())) : Cl g d ∨ Gone g d := by
  unfold step at hd
  rw [h.x] at hd
  dsimp only at hd
  have hm : dbOps.messages (.closing false) = co := rfl
  rw [show dbOps.dir (Y.closing false) = .sending from rfl, hm] at hd
  dsimp only at hd
  cases hw : writeMessages dbOps e co with
  | mk e' r =>
    rw [hw] at hd
    obtain ⟨_, _, _, a4, _⟩ := writeMessages_W dbOps e co h.w
    rcases Cl_write h hw with ⟨rfl, h2, h3⟩ | ⟨h2, rfl | rfl | rfl | rfl⟩
    · rw [hw] at a4
      have hx : e'.xact = some (.closing false) := (a4 rfl).2.1.trans h.x
      have key : ∀ q : Conn Y, q.xact = some (.closing true) → q.wire = g.flatMap bytesOf ++ terminate → q.messageData = [] →
          (stepEnd dbOps q, (Res.ret () : Res Unit)) = (d, .ret ()) → Gone g d := by
        intro q h1 h2 h3 he
        unfold stepEnd at he
        rw [h1] at he
        dsimp only at he
        rw [if_neg (by simp [dbOps])] at he
        cases he
        exact ⟨h1, h2, h3⟩
      exact .inr (key { e' with xact := e'.xact.map (dbOps.sent (.closing false)) } (by dsimp only; rw [hx]; rfl) h2 h3 hd)
    · cases hd
    · cases hd; exact .inl h2
    · cases hd
    · cases hd

/-! ## The transactions before -/

/-- The transaction is an `Instruction`, or there is none. -/
def Plain (c : Conn Y) : Prop := ∀ y, c.xact = some y → ∃ x, y = .inst x

theorem plain_map {c d : Conn Y} (h : Plain c) (hx : d.xact = c.xact ∨ d.xact = c.xact.map dbOps.fail) : Plain d := by
  intro y hy
  rcases hx with e | e
  · exact h y (e ▸ hy)
  · rw [e] at hy
    cases hc : c.xact with
    | none => rw [hc] at hy; cases hy
    | some x =>
      rw [hc] at hy
      cases hy
      obtain ⟨x', rfl⟩ := h x hc
      exact ⟨_, rfl⟩

theorem plain_some {c : Conn Y} (x : IX) : Plain { c with xact := some (.inst x) } := fun y hy => ⟨x, (Option.some.inj hy).symm⟩

/-- Sends that do not fail but with errors to be tried again, or that leave the call. -/
def Mild (c : Conn Y) : Prop := SendEv.err .fatal ∉ c.sends ∧ SendEv.err .other ∉ c.sends

/-- What holds of a connection that was not closed yet. -/
structure K (w : Bytes) (c : Conn Y) : Prop where
  j : J c
  mild : Mild c
  plain : Plain c
  pre : w <+: c.wire

theorem sendLoop_pre : ∀ (evs : List SendEv) (d w : Bytes), w <+: (sendLoop evs d w).2.2.1
  | evs, [], w => by
    cases evs <;> exact List.prefix_rfl
  | [], x :: xs, w => List.prefix_rfl
  | .sent n :: evs, x :: xs, w => by
    rw [sendLoop]
    exact List.IsPrefix.trans (List.prefix_append _ _) (sendLoop_pre evs _ _)
  | .err k :: evs, x :: xs, w => List.prefix_rfl

theorem sendMessageData_pre (o : Ops Y) (c : Conn Y) : c.wire <+: (sendMessageData o c).1.wire := by
  unfold sendMessageData
  have := sendLoop_pre c.sends c.messageData c.wire
  generalize sendLoop c.sends c.messageData c.wire = z at this
  obtain ⟨evs, x, w, r⟩ := z
  cases r with
  | ret u => exact this
  | blocked => exact this
  | raised e =>
    cases e with
    | py e => exact this
    | sock k => cases k <;> exact this

theorem writeMessages_pre (o : Ops Y) (c : Conn Y) (m : Obj) : c.wire <+: (writeMessages o c m).1.wire := by
  unfold writeMessages
  dsimp only
  cases hcat : catWriting { c with log := c.log ++ [m] } with
  | error e => exact List.prefix_rfl
  | ok d =>
    obtain ⟨e1, e2, e3, e4, e5, e6⟩ := catWriting_ok hcat
    dsimp only at e2 ⊢
    split
    · exact e2 ▸ sendMessageData_pre o d
    · cases catMessages m.items with
      | error e => dsimp only; rw [e2]; exact List.prefix_rfl
      | ok dd =>
        have := sendMessageData_pre o { d with writing := some m, messageData := d.messageData ++ dd, written := some m }
        dsimp only at this ⊢
        exact List.IsPrefix.trans (by rw [e2]; exact List.prefix_rfl) this

theorem K_pres (w : Bytes) : PresNew dbOps (K w) where
  wrote c x d h hx hd hw := by
    obtain ⟨e1, _⟩ := writeMessages_events dbOps c (dbOps.messages x)
    have e2 := writeMessages_pre dbOps c (dbOps.messages x)
    rw [hw] at e1 e2
    obtain ⟨x', rfl⟩ := h.plain x hx
    exact ⟨J_wrote h.j hx hd hw, ⟨fun hm => h.mild.1 (e1 _ hm), fun hm => h.mild.2 (e1 _ hm)⟩, plain_some _, h.pre.trans e2⟩
  writeLost c x d h hx hd hw := by
    obtain ⟨_, e2, _⟩ := writeMessages_events dbOps c (dbOps.messages x)
    rw [hw] at e2
    exact absurd (e2 rfl) h.mild.1
  writeOther c x d r h hx hd hw hr := by
    obtain ⟨e1, _⟩ := writeMessages_events dbOps c (dbOps.messages x)
    have e2 := writeMessages_pre dbOps c (dbOps.messages x)
    obtain ⟨_, _, _, _, _, a6⟩ := writeMessages_W dbOps c (dbOps.messages x) h.j.b.i.1
    rw [hw] at e1 e2 a6
    exact ⟨J_pres.writeOther c x d r h.j hx hd hw hr, ⟨fun hm => h.mild.1 (e1 _ hm), fun hm => h.mild.2 (e1 _ hm)⟩,
      plain_map h.plain (.inl (a6 hr)), h.pre.trans e2⟩
  read c x d r h hx hd hw := by
    obtain ⟨_, a2, _, a4, a5, a6, a7, a8⟩ := readMessages_spec dbOps c h.j.b.i.2
    have hs := readMessages_sends dbOps c
    rw [hw] at a2 a5 a6 a7 a8 hs
    have hwire : d.wire = c.wire := (congrArg (·.1) a2 :)
    have hs : d.sends = c.sends := hs
    refine ⟨J_read h.j hx hd hw, by unfold Mild; rw [hs]; exact h.mild, plain_map h.plain ?_, by rw [hwire]; exact h.pre⟩
    cases r with
    | ret b =>
      cases b with
      | true => exact .inl (a5 rfl).1
      | false => exact .inr (a6 rfl).1
    | raised e => exact a7 e rfl
    | blocked => exact .inl (a8 rfl)
  put c x d h hx hd hw := by
    obtain ⟨_, a2, _⟩ := readMessages_spec dbOps c h.j.b.i.2
    have hs := readMessages_sends dbOps c
    rw [hw] at a2 hs
    have hwire : d.wire = c.wire := (congrArg (·.1) a2 :)
    have hs : d.sends = c.sends := hs
    have hj := J_read h.j hx hd hw
    obtain ⟨_, a3, _⟩ := putRead_spec dbOps d x x hj.b.i.2
    have hwire' : (putRead dbOps d x x).1.wire = d.wire := (congrArg (·.1) a3 :)
    obtain ⟨x', rfl⟩ := h.plain x hx
    refine ⟨J_pres.put c _ d h.j hx hd hw, by unfold Mild; rw [putRead_sends, hs]; exact h.mild, ?_, by rw [hwire', hwire]; exact h.pre⟩
    intro y hy
    rw [putRead_xact] at hy
    cases hy
    exact ⟨_, rfl⟩
  putLost c x d h hx hd hw := by
    obtain ⟨_, a2, _⟩ := readMessages_spec dbOps c h.j.b.i.2
    have hs := readMessages_sends dbOps c
    rw [hw] at a2 hs
    have hwire : d.wire = c.wire := (congrArg (·.1) a2 :)
    have hs : d.sends = c.sends := hs
    have hj := J_read h.j hx hd hw
    obtain ⟨x', rfl⟩ := h.plain x hx
    obtain ⟨_, a3, _⟩ := putRead_spec dbOps d (.inst x') (dbOps.fail (.inst x')) hj.b.i.2
    have hwire' : (putRead dbOps d (.inst x') (dbOps.fail (.inst x'))).1.wire = d.wire := (congrArg (·.1) a3 :)
    refine ⟨J_pres.putLost c _ d h.j hx hd hw, by unfold Mild; rw [putRead_sends, hs]; exact h.mild, ?_, by rw [hwire', hwire]; exact h.pre⟩
    intro y hy
    rw [putRead_xact] at hy
    cases hy
    exact ⟨_, rfl⟩
  fail c h hn := ⟨J_pres.fail c h.j hn, h.mild, plain_map (d := failXact dbOps { c with state := [] }) h.plain (.inr rfl), h.pre⟩
  note c x h hx := ⟨J_pres.note c x h.j hx, h.mild, h.plain, h.pre⟩
  drop c x h hx hd hf hn := ⟨J_pres.drop c x h.j hx hd hf hn, h.mild, fun y hy => (by cases hy), h.pre⟩
  trash c f h hx := ⟨J_pres.trash c f h.j hx, h.mild, fun y hy => ⟨_, (Option.some.inj hy).symm⟩, h.pre⟩

/-- The calls of a history without `close` and without sends that fail fatally. -/
def openCall : Call → Prop
  | .sock s _ => SendEv.err .fatal ∉ s
  | .close _ _ => False
  | _ => True

theorem plain_presNew : PresNew dbOps (fun c => J c ∧ Plain c) where
  wrote c x d h hx hd hw := by
    obtain ⟨x', rfl⟩ := h.2 x hx
    exact ⟨J_wrote h.1 hx hd hw, plain_some _⟩
  writeLost c x d h hx hd hw := by
    obtain ⟨_, e2, _⟩ := writeMessages_events dbOps c (dbOps.messages x)
    rw [hw] at e2
    exact absurd (e2 rfl) h.1.quiet
  writeOther c x d r h hx hd hw hr := by
    obtain ⟨_, _, _, _, _, a6⟩ := writeMessages_W dbOps c (dbOps.messages x) h.1.b.i.1
    rw [hw] at a6
    exact ⟨J_pres.writeOther c x d r h.1 hx hd hw hr, plain_map h.2 (.inl (a6 hr))⟩
  read c x d r h hx hd hw := by
    obtain ⟨_, a2, _, a4, a5, a6, a7, a8⟩ := readMessages_spec dbOps c h.1.b.i.2
    rw [hw] at a2 a5 a6 a7 a8
    refine ⟨J_read h.1 hx hd hw, plain_map h.2 ?_⟩
    cases r with
    | ret b =>
      cases b with
      | true => exact .inl (a5 rfl).1
      | false => exact .inr (a6 rfl).1
    | raised e => exact a7 e rfl
    | blocked => exact .inl (a8 rfl)
  put c x d h hx hd hw := by
    obtain ⟨x', rfl⟩ := h.2 x hx
    refine ⟨J_pres.put c _ d h.1 hx hd hw, fun y hy => ?_⟩
    rw [putRead_xact] at hy
    cases hy
    exact ⟨_, rfl⟩
  putLost c x d h hx hd hw := by
    obtain ⟨x', rfl⟩ := h.2 x hx
    refine ⟨J_pres.putLost c _ d h.1 hx hd hw, fun y hy => ?_⟩
    rw [putRead_xact] at hy
    cases hy
    exact ⟨_, rfl⟩
  fail c h hn := ⟨J_pres.fail c h.1 hn, plain_map (d := failXact dbOps { c with state := [] }) h.2 (.inr rfl)⟩
  note c x h hx := ⟨J_pres.note c x h.1 hx, h.2⟩
  drop c x h hx hd hf hn := ⟨J_pres.drop c x h.1 hx hd hf hn, fun y hy => (by cases hy)⟩
  trash c f h hx := ⟨J_pres.trash c f h.1 hx, fun y hy => ⟨_, (Option.some.inj hy).symm⟩⟩

theorem plain_keeps : Keeps openCall (fun c => J c ∧ Plain c) where
  toPresNew := plain_presNew
  start c i k cmds h hi hk hn := ⟨J_keeps.start c i k cmds h.1 hi hk hn, plain_some _⟩
  bump c h := ⟨J_keeps.bump c h.1, h.2⟩
  plugged c b h := ⟨J_keeps.plugged c b h.1, by cases b <;> exact h.2⟩
  sync c h hx := ⟨J_keeps.sync c h.1 hx, fun y hy => ⟨_, (Option.some.inj hy).symm⟩⟩
  given c x m n a _ h hx hd := ⟨J_keeps.given c x m n a trivial h.1 hx hd, plain_some _⟩
  trashC c i h := ⟨J_keeps.trashC c i h.1, h.2⟩
  trashS c i h := ⟨J_keeps.trashS c i h.1, h.2⟩
  sock c s r hq h := ⟨J_keeps.sock c s r hq h.1, h.2⟩
  closes c f n hq _ _ := hq.elim

/-- What pushing and finishing the `Closing` does. -/
theorem closeSecond_gone {w : Bytes} {f : Finalizers} {n : Nat} {c d : Conn Y} (h : K w c) (hn : c.xact = none)
    (hd : closeSecond f n c = (d, .ret ())) :
    (∃ g, Gone g d ∧ w <+: g.flatMap bytesOf ∧ (c.garbageStatements = [] → c.garbageCursors = [] → g.flatMap bytesOf = c.wire)) ∨
    (Dead d ∧ Plain d ∧ ¬ (c.garbageStatements = [] ∧ c.garbageCursors = [])) := by
  have start : ∀ e : Conn Y, K w e → e.xact = none → Cl (squeeze e.log) { e with xact := some (.closing false) } ∧ e.wire = (squeeze e.log).flatMap bytesOf := by
    intro e he hx
    rcases he.j.flow with ⟨x, h1, _⟩ | ⟨x, h1, _⟩ | ⟨h1, h2⟩
    · rw [hx] at h1; cases h1
    · rw [hx] at h1; cases h1
    · refine ⟨⟨W_congr (c := e) rfl he.j.b.i.1, rfl, he.mild, ?_, h1.2.2⟩, h1.2.1⟩
      show squeeze (e.log ++ [co]) = _
      rw [squeeze_snoc, if_neg]
      intro hl
      cases hg : (squeeze e.log).getLast? with
      | none => rw [hg] at hl; cases hl
      | some m =>
        rw [hg] at hl
        exact h2 m hg (Option.some.inj hl)
  unfold closeSecond at hd
  rw [hn] at hd
  dsimp only at hd
  have fin : ∀ (e d' : Conn Y), K w e → e.xact = none → step dbOps { e with xact := some (.closing false) } = (d', .ret ()) → finishClosing n d' = (d, .ret ()) →
      ∃ g, Gone g d ∧ w <+: g.flatMap bytesOf ∧ g.flatMap bytesOf = e.wire := by
    intro e d' he hx hs hf
    obtain ⟨h1, h2⟩ := start e he hx
    exact ⟨squeeze e.log, finishClosing_gone (step_closing h1 hs) hf, h2 ▸ he.pre, h2.symm⟩
  unfold push at hd
  rw [if_neg (by simp [dbOps])] at hd
  rw [if_neg (show ¬ c.xact.isSome = true by rw [hn]; simp)] at hd
  dsimp only at hd
  rw [if_neg (show ¬ c.xact.isSome = true by rw [hn]; simp)] at hd
  by_cases hg : c.garbageStatements ≠ [] ∨ c.garbageCursors ≠ []
  · rw [if_pos hg] at hd
    have hk := complete_pres dbOps_lawful (K_pres w).toPres n _ ((K_pres w).trash c f h hn)
    cases hz : complete dbOps n (takeOutTrash dbOps f c) with
    | mk e r =>
      rw [hz] at hd hk
      cases r with
      | raised e => cases hd
      | blocked => cases hd
      | ret u =>
        cases u
        dsimp only at hd
        rcases complete_dead hz with hx | hx
        · rw [if_neg (show ¬ e.xact.isSome = true by rw [hx]; simp)] at hd
          cases hs : step dbOps { e with xact := some (.closing false) } with
          | mk d' r =>
            rw [hs] at hd
            cases r with
            | raised e => cases hd
            | blocked => cases hd
            | ret u =>
              cases u
              obtain ⟨g, h1, h2, h3⟩ := fin e d' hk hx hs hd
              refine .inl ⟨g, h1, h2, fun h4 h5 => ?_⟩
              rcases hg with hg | hg
              · exact absurd h4 hg
              · exact absurd h5 hg
        · obtain ⟨x, hx', _⟩ := id hx
          rw [if_pos (show e.xact.isSome = true by rw [hx']; rfl)] at hd
          have hfp := finishClosing_keeps (K_pres w).toPres n e hk
          dsimp only at hd
          rw [hd] at hfp
          refine .inr ⟨?_, hfp.plain, fun hh => ?_⟩
          · unfold finishClosing plainComplete at hd
            cases hy : complete dbOps n e with
            | mk e' r =>
              rw [hy] at hd
              have h1 := (complete_isDead (n := n) hx).1
              rw [hy] at h1
              cases r with
              | raised e => cases hd
              | blocked => cases hd
              | ret u =>
                cases u
                dsimp only at hd h1
                have h2 := (complete_isDead (n := n) h1).1
                rw [hd] at h2
                exact h2
          · rcases hg with hg | hg
            · exact hg hh.1
            · exact hg hh.2
  · rw [if_neg hg] at hd
    dsimp only at hd
    rw [if_neg (show ¬ c.xact.isSome = true by rw [hn]; simp)] at hd
    cases hs : step dbOps { c with xact := some (.closing false) } with
    | mk d' r =>
      rw [hs] at hd
      cases r with
      | raised e => cases hd
      | blocked => cases hd
      | ret u =>
        cases u
        obtain ⟨g, h1, h2, h3⟩ := fin c d' h hn hs hd
        exact .inl ⟨g, h1, h2, fun _ _ => h3⟩

end PG.Lifecycle
