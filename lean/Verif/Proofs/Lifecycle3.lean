import Verif.Proofs.Lifecycle2
/-!
# Connections whose sends never failed fatally
-/
namespace PG.Lifecycle
open PG PG.Element3 PG.Xact3 PG.Client3 PG.Spec.Client PG.Spec.Lifecycle

/-! ## The sender and its errors -/

theorem sendLoop_events : ∀ (evs : List SendEv) (d w : Bytes),
    (∀ e ∈ (sendLoop evs d w).1, e ∈ evs) ∧ (∀ k, (sendLoop evs d w).2.2.2 = .raised (.sock k) → SendEv.err k ∈ evs) ∧
    (∀ e, (sendLoop evs d w).2.2.2 ≠ .raised (.py e)) := by
  intro evs
  induction evs with
  | nil =>
    intro d w
    cases d with
    | nil => exact ⟨fun _ h => h, fun k h => (by cases h), fun e h => (by cases h)⟩
    | cons x xs => exact ⟨fun _ h => h, fun k h => (by cases h), fun e h => (by cases h)⟩
  | cons ev evs ih =>
    intro d w
    cases d with
    | nil => exact ⟨fun _ h => h, fun k h => (by cases h), fun e h => (by cases h)⟩
    | cons x xs =>
      cases ev with
      | sent n =>
        have : sendLoop (.sent n :: evs) (x :: xs) w = sendLoop evs ((x :: xs).drop n) (w ++ (x :: xs).take n) := by rw [sendLoop]
        rw [this]
        obtain ⟨a, b, c⟩ := ih ((x :: xs).drop n) (w ++ (x :: xs).take n)
        exact ⟨fun e h => List.mem_cons_of_mem _ (a e h), fun k h => List.mem_cons_of_mem _ (b k h), c⟩
      | err k =>
        have : sendLoop (.err k :: evs) (x :: xs) w = (evs, x :: xs, w, .raised (.sock k)) := by rw [sendLoop]
        rw [this]
        refine ⟨fun e h => List.mem_cons_of_mem _ h, fun k' h => ?_, fun e h => (by cases h)⟩
        cases h
        exact List.mem_cons_self

theorem sendMessageData_events (o : Ops Y) (c : Conn Y) :
    (∀ e ∈ (sendMessageData o c).1.sends, e ∈ c.sends) ∧
    ((sendMessageData o c).2 = .ret false → SendEv.err .fatal ∈ c.sends) ∧
    (∀ k, (sendMessageData o c).2 = .raised (.sock k) → SendEv.err k ∈ c.sends) ∧
    (∀ e, (sendMessageData o c).2 ≠ .raised (.py e)) := by
  unfold sendMessageData
  obtain ⟨a, b, d⟩ := sendLoop_events c.sends c.messageData c.wire
  generalize sendLoop c.sends c.messageData c.wire = z at a b d
  obtain ⟨evs, x, w, r⟩ := z
  dsimp only at a b d ⊢
  cases r with
  | ret u => exact ⟨a, fun h => by simp at h, fun k h => by simp at h, fun e h => by simp at h⟩
  | blocked => exact ⟨a, fun h => by simp at h, fun k h => by simp at h, fun e h => by simp at h⟩
  | raised e =>
    cases e with
    | py e => exact (d e rfl).elim
    | sock k =>
      cases k <;> refine ⟨a, ?_, ?_, ?_⟩ <;> intro h <;> first | exact b _ rfl | (intro h'; cases h'; exact b _ rfl) | (intro h'; cases h') | cases h

theorem writeMessages_events (o : Ops Y) (c : Conn Y) (m : Obj) :
    (∀ e ∈ (writeMessages o c m).1.sends, e ∈ c.sends) ∧
    ((writeMessages o c m).2 = .ret false → SendEv.err .fatal ∈ c.sends) ∧
    (∀ k, (writeMessages o c m).2 = .raised (.sock k) → SendEv.err k ∈ c.sends) ∧
    (W c → (∀ x ∈ squeeze (c.log ++ [m]), Serializable x = true) → ∀ e, (writeMessages o c m).2 ≠ .raised (.py e)) := by
  unfold writeMessages
  dsimp only
  cases hcat : catWriting { c with log := c.log ++ [m] } with
  | error e =>
    refine ⟨fun _ h => h, fun h => (by cases h), fun k h => (by cases h), ?_⟩
    intro hw hall
    obtain ⟨g, hg, _, hwn, hcase⟩ := hw
    exfalso
    rcases hcase with ⟨hq, hwr⟩ | ⟨b, r, hq, hb, hwr, hne⟩
    · unfold catWriting at hcat
      dsimp only at hcat
      rw [hwr, hwn] at hcat
      cases hl : g.getLast? with
      | none => rw [hl] at hcat; cases hcat
      | some z => rw [hl] at hcat; simp at hcat
    · have hsn := squeeze_snoc c.log m
      have : b ∈ squeeze (c.log ++ [m]) := by
        rw [hsn, hq]
        split <;> simp
      rw [hall b this] at hb
      cases hb
  | ok d =>
    obtain ⟨e1, e2, e3, e4, e5, e6⟩ := catWriting_ok hcat
    dsimp only at e1 e2 e3 e4 e5 e6 ⊢
    split
    · obtain ⟨a, b, f, g⟩ := sendMessageData_events o d
      rw [e6] at a b f
      exact ⟨a, b, f, fun _ _ => g⟩
    · cases hm : catMessages m.items with
      | error e =>
        refine ⟨fun x h => e6 ▸ h, fun h => (by cases h), fun k h => (by cases h), ?_⟩
        intro hw hall
        exfalso
        rename_i hne
        have hs : Serializable m = false := by
          cases hs : Serializable m with
          | false => rfl
          | true => rw [serializable_iff.1 hs] at hm; cases hm
        obtain ⟨g, hg, _, hwn, hcase⟩ := hw
        have hsn := squeeze_snoc c.log m
        rcases hcase with ⟨hq, hwr⟩ | ⟨b, r, hq, hb, hwr, hne'⟩
        · rw [hq, if_neg (by rw [← hwr]; rw [e1] at hne; exact hne)] at hsn
          have := hall m (by rw [hsn]; simp)
          rw [this] at hs
          cases hs
        · have : b ∈ squeeze (c.log ++ [m]) := by
            rw [hsn, hq]
            split <;> simp
          rw [hall b this] at hb
          cases hb
      | ok dd =>
        dsimp only
        obtain ⟨a, b, f, g⟩ := sendMessageData_events o { d with writing := some m, messageData := d.messageData ++ dd, written := some m }
        exact ⟨fun e h => e6 ▸ a e h, fun h => e6 ▸ b h, fun k h => e6 ▸ f k h, fun _ _ => g⟩

/-! ## The transaction stays the same, or is marked as failed -/

/-- Transaction `y` is `x`, or `x` marked as failed. -/
def SameOrFailed (o : Ops Y) (c d : Conn Y) : Prop := d.xact = c.xact ∨ d.xact = c.xact.map o.fail

theorem readIntoLoop_same (o : Ops Y) : ∀ (evs : List RecvEv) (c : Conn Y), SameOrFailed o c (readIntoLoop o c evs).1 := by
  intro evs
  induction evs with
  | nil => intro c; unfold readIntoLoop; split <;> exact .inl rfl
  | cons ev evs ih =>
    intro c
    unfold readIntoLoop
    split
    · exact .inl rfl
    · exact .inl rfl
    · split
      · exact .inr rfl
      · exact .inl rfl
      · exact .inr rfl
      · exact ih _

theorem readMessages_same (o : Ops Y) (c : Conn Y) : SameOrFailed o c (readMessages o c).1 := by
  have hi : SameOrFailed o c (readInto o c).1 := by
    unfold readInto
    split
    · exact .inl rfl
    · exact .inl rfl
    · split <;> exact readIntoLoop_same _ _ _
  unfold readMessages
  split
  · exact .inl rfl
  · generalize readInto o c = z at hi
    obtain ⟨d, r⟩ := z
    cases r with
    | raised e => exact hi
    | blocked => exact hi
    | ret b =>
      dsimp only
      split <;> exact hi

theorem writeMessages_same (o : Ops Y) (c : Conn Y) (m : Obj) : SameOrFailed o c (writeMessages o c m).1 := by
  have hs : ∀ d : Conn Y, d.xact = c.xact → SameOrFailed o c (sendMessageData o d).1 := by
    intro d hd
    unfold sendMessageData
    generalize sendLoop d.sends d.messageData d.wire = z
    obtain ⟨evs, x, w, r⟩ := z
    dsimp only
    cases r with
    | ret u => exact .inl hd
    | blocked => exact .inl hd
    | raised e =>
      cases e with
      | py e => exact .inl hd
      | sock k =>
        cases k with
        | fatal => exact .inr (by show d.xact.map o.fail = _; rw [hd])
        | _ => exact .inl hd
  unfold writeMessages
  dsimp only
  cases hcat : catWriting { c with log := c.log ++ [m] } with
  | error e => exact .inl rfl
  | ok d =>
    obtain ⟨_, _, _, _, e5, _⟩ := catWriting_ok hcat
    dsimp only at e5 ⊢
    split
    · exact hs d e5
    · split
      · exact .inl e5
      · exact hs _ e5

/-! ## Reading does not touch the sender -/

theorem readIntoLoop_sends (o : Ops Y) : ∀ (evs : List RecvEv) (c : Conn Y), (readIntoLoop o c evs).1.sends = c.sends := by
  intro evs
  induction evs with
  | nil => intro c; unfold readIntoLoop; split <;> rfl
  | cons ev evs ih =>
    intro c
    unfold readIntoLoop
    split
    · rfl
    · rfl
    · split
      · rfl
      · rfl
      · rfl
      · exact ih _

theorem readMessages_sends (o : Ops Y) (c : Conn Y) : (readMessages o c).1.sends = c.sends := by
  have hi : (readInto o c).1.sends = c.sends := by
    unfold readInto
    split
    · rfl
    · rfl
    · split <;> exact readIntoLoop_sends _ _ _
  unfold readMessages
  split
  · rfl
  · generalize readInto o c = z at hi
    obtain ⟨d, r⟩ := z
    cases r with
    | raised e => exact hi
    | blocked => exact hi
    | ret b =>
      dsimp only
      split <;> exact hi

theorem putRead_sends (o : Ops Y) (c : Conn Y) (op x : Y) : (putRead o c op x).1.sends = c.sends := by
  unfold putRead
  generalize o.put op x c.read = z
  obtain ⟨y, r⟩ := z
  cases r <;> rfl

theorem putRead_xact (o : Ops Y) (c : Conn Y) (op x : Y) : (putRead o c op x).1.xact = some (o.put op x c.read).1 := by
  unfold putRead
  generalize o.put op x c.read = z
  obtain ⟨y, r⟩ := z
  cases r <;> rfl

/-! ## What is fatal is complete -/

theorem loop_fatal : ∀ (ms : List Msg) (s : Inst) (l : Loc), s.fatal ≠ some true →
    (loop s l ms).1.fatal = some true → (loop s l ms).1.state = .complete ∧ ∃ l', (loop s l ms).2 = .ok ⟨true, l'⟩ := by
  intro ms
  induction ms with
  | nil => intro s l h h'; exact absurd h' h
  | cons x xs ih =>
    intro s l h
    unfold loop
    dsimp only
    split
    · intro h'; exact absurd h' h
    · intro _; exact ⟨rfl, _, rfl⟩
    · intro _; exact ⟨rfl, _, rfl⟩
    · intro h'; cases h'
    · exact ih _ _ (by simp)
    · split
      · intro h'; exact absurd h' h
      · rename_i s' hs
        apply ih
        unfold handleAsync at hs
        split at hs
        · cases hs; exact h
        · split at hs
          · cases hs; exact h
          · cases hs
    · exact ih _ _ h
    · apply ih
      rename_i rd _ _ _ _
      cases rd <;> exact h
    · rename_i rd _ _
      intro h'
      cases rd <;> exact absurd h' h

theorem finish_fatal (s : Inst) (b : Batch) (l : Loc) : (finish s b l).fatal = s.fatal := by
  unfold finish switchState
  dsimp only
  split
  · rfl
  · split
    · split <;> rfl
    · rfl

theorem standardPut_fatal (s : Inst) (b : Batch) (h : s.fatal ≠ some true) (h' : (standardPut s b).1.fatal = some true) :
    (standardPut s b).1.state = .complete := by
  unfold standardPut at h' ⊢
  have h1 : (startLoop s b).1.fatal ≠ some true := by
    unfold startLoop
    dsimp only
    have : (if b.id = s.lastId then s else { s with asyncs := [] }).fatal = s.fatal := by split <;> rfl
    split
    · rw [this]; exact h
    · split <;> (rw [this]; exact h)
  generalize startLoop s b = z at h1 h'
  obtain ⟨s1, r⟩ := z
  cases r with
  | error e => exact absurd h' h1
  | ok l =>
    dsimp only at h1 h' ⊢
    have h2 := loop_fatal b.msgs s1 l h1
    generalize loop s1 l b.msgs = z at h2 h'
    obtain ⟨s2, r⟩ := z
    cases r with
    | error e =>
      obtain ⟨_, l', hl⟩ := h2 h'
      cases hl
    | ok d =>
      obtain ⟨e, l'⟩ := d
      cases e with
      | true => exact (h2 h').1
      | false =>
        dsimp only at h' h2
        rw [finish_fatal] at h'
        obtain ⟨_, l', hl⟩ := h2 h'
        cases hl

theorem putAs_fatal (st : XState) (s : Inst) (b : Batch) (h : s.fatal ≠ some true) (h' : (putAs st s b).1.fatal = some true) :
    (putAs st s b).1.state = .complete := by
  unfold putAs at h' ⊢
  split at h'
  · exact standardPut_fatal s b h h'
  · unfold putCopydata at h' ⊢
    split at h'
    · exact absurd h' h
    · dsimp only at h' ⊢
      split at h'
      · rename_i hc
        rw [if_pos hc]
        exact standardPut_fatal _ b h h'
      · exact absurd h' h
  · unfold putTupledata at h' ⊢
    split at h'
    · exact absurd h' h
    · split at h'
      · rename_i hc
        rw [if_pos hc]
        exact standardPut_fatal _ b h h'
      · rename_i hc
        rw [if_neg hc]
        split at h'
        · exact absurd h' h
        · split at h'
          · rename_i hc
            rw [if_pos hc]
            exact standardPut_fatal _ b h h'
          · exact absurd h' h
  · exact absurd h' h

theorem standardPut_nil (s : Inst) (b : Batch) (hb : b.msgs = []) (hs : s.state = .complete) : (standardPut s b).1.state = .complete := by
  unfold standardPut
  have h1 : (startLoop s b).1.state = .complete ∧ ∀ l, (startLoop s b).2 = .ok l → l.processed = [] := by
    unfold startLoop
    dsimp only
    have : (if b.id = s.lastId then s else { s with asyncs := [] }).state = s.state := by split <;> rfl
    split
    · exact ⟨this.trans hs, fun l h => (by cases h)⟩
    · split
      · exact ⟨this.trans hs, fun l h => (by cases h)⟩
      · exact ⟨this.trans hs, fun l h => (by cases h; rfl)⟩
  generalize startLoop s b = z at h1
  obtain ⟨s1, r⟩ := z
  cases r with
  | error e => exact h1.1
  | ok l =>
    dsimp only
    rw [hb]
    unfold loop
    dsimp only
    unfold finish switchState
    dsimp only
    split
    · rfl
    · split
      · rw [h1.2 l rfl]
        exact h1.1
      · exact h1.1

theorem putAs_nil (st : XState) (s : Inst) (b : Batch) (hb : b.msgs = []) (hs : s.state = .complete) : (putAs st s b).1.state = .complete := by
  unfold putAs
  split
  · exact standardPut_nil s b hb hs
  · unfold putCopydata; rw [hb]; exact hs
  · unfold putTupledata; rw [hb]; exact hs
  · exact hs

/-! ## The invariant -/

/-- The sends did not and will not fail fatally. -/
def Quiet (c : Conn Y) : Prop := SendEv.err .fatal ∉ c.sends

/-- Nothing that failed fatally goes on. -/
def Whole (c : Conn Y) : Prop := ∀ x, c.xact = some x → fatalOf x = some true → dbOps.dir x = .complete

/-- There is something to send, or the connection is lost, or everything was sent, and it was not the end. -/
def Flow (c : Conn Y) : Prop := (∃ x, c.xact = some x ∧ dbOps.dir x = .sending) ∨ Dead c ∨
  (Clean c ∧ ∀ m, (squeeze c.log).getLast? = some m → m.id ≠ .closing)

/-- What holds of a connection whose sends never fail fatally. -/
structure J (c : Conn Y) : Prop where
  b : B c
  quiet : Quiet c
  whole : Whole c
  flow : Flow c

theorem closing_receiving {y : Y} (h : dbOps.dir y = .receiving) : ∃ x, y = .inst x := by
  cases y with
  | inst x => exact ⟨x, rfl⟩
  | closing d => cases d <;> cases h

theorem whole_start {c : Conn Y} (y : Y) (h : fatalOf y ≠ some true) : Whole { c with xact := some y } := by
  intro x hx hf
  have hx : some y = some x := hx
  cases hx
  exact absurd hf h

theorem flow_sending {c : Conn Y} (y : Y) (h : dbOps.dir y = .sending) : Flow { c with xact := some y } := .inl ⟨y, rfl, h⟩

theorem messages_closing {y : Y} (h : (dbOps.messages y).id = .closing) : ∃ d, y = .closing d := by
  cases y with
  | closing d => exact ⟨d, rfl⟩
  | inst x =>
    have h : x.oidOf = .closing := h
    unfold IX.oidOf at h
    cases hm : x.inst.messages <;> rw [hm] at h <;> cases h

theorem sentAs_fatal (st : XState) (s : Inst) : (sentAs st s).fatal = s.fatal := by
  unfold sentAs
  split
  · rfl
  · split <;> rfl
  · rfl

theorem J_wrote {c : Conn Y} {x : Y} {d : Conn Y} (h : J c) (hx : c.xact = some x) (hd : dbOps.dir x = .sending)
    (hw : writeMessages dbOps c (dbOps.messages x) = (d, .ret true)) : J { d with xact := some (dbOps.sent x x) } := by
  obtain ⟨e1, _⟩ := writeMessages_events dbOps c (dbOps.messages x)
  obtain ⟨_, a2, _, a4, _⟩ := writeMessages_W dbOps c (dbOps.messages x) h.b.i.1
  rw [hw] at e1 a2 a4
  refine ⟨B_pres.wrote c x d h.b hx hd hw, fun hm => h.quiet (e1 _ hm), ?_, ?_⟩
  · cases x with
    | closing b => intro y hy hf; cases hy; rfl
    | inst x =>
      refine whole_start _ ?_
      show (sentAs x.inst.state x.inst).fatal ≠ some true
      rw [sentAs_fatal]
      intro hf
      have := h.whole _ hx hf
      rw [hd] at this
      cases this
  · obtain ⟨b1, _, b3, b4⟩ := a4 rfl
    cases x with
    | closing b => exact .inr (.inl ⟨.closing true, rfl, rfl, rfl⟩)
    | inst x =>
      refine .inr (.inr ⟨⟨b1, ?_, ?_⟩, ?_⟩)
      · show d.wire = (squeeze d.log).flatMap bytesOf; rw [a2]; exact b3
      · show ∀ x ∈ squeeze d.log, Serializable x = true; rw [a2]; exact b4
      · intro m hm hid
        have hm : (squeeze d.log).getLast? = some m := hm
        rw [a2, squeeze_snoc] at hm
        have hne : (dbOps.messages (.inst x)).id ≠ .closing := fun h => by
          obtain ⟨d, hd⟩ := messages_closing h
          cases hd
        split at hm
        · rename_i he
          rw [hm] at he
          exact hne ((Option.some.inj he).symm.trans hid)
        · simp at hm
          exact hne (hm ▸ hid)

theorem Flow_congr {c d : Conn Y} (hx : d.xact = c.xact) (h : wv c = wv d) (hf : Flow c) : Flow d := by
  have h5 : c.log = d.log := (congrArg (·.2.2.2.2) h :)
  rcases hf with ⟨x, h1, h2⟩ | ⟨x, h1, h2⟩ | ⟨h1, h2⟩
  · exact .inl ⟨x, hx.trans h1, h2⟩
  · exact .inr (.inl ⟨x, hx.trans h1, h2⟩)
  · exact .inr (.inr ⟨Clean_congr h h1, h5 ▸ h2⟩)

/-- While receiving, everything was sent. -/
theorem flow_receiving {c d : Conn Y} {x : Y} (hx : c.xact = some x) (hd : dbOps.dir x = .receiving) (hf : Flow c) (h : wv c = wv d) : Flow d := by
  have h5 : c.log = d.log := (congrArg (·.2.2.2.2) h :)
  rcases hf with ⟨y, h1, h2⟩ | ⟨y, h1, h2, _⟩ | ⟨h1, h2⟩
  · rw [hx] at h1; cases h1; rw [hd] at h2; cases h2
  · rw [hx] at h1; cases h1; rw [hd] at h2; cases h2
  · exact .inr (.inr ⟨Clean_congr h h1, h5 ▸ h2⟩)

theorem fail_whole (x : Y) : dbOps.dir (dbOps.fail x) = .complete := by cases x <;> rfl

theorem whole_map {c d : Conn Y} (h : Whole c) (hx : d.xact = c.xact ∨ d.xact = c.xact.map dbOps.fail) : Whole d := by
  intro y hy hf
  rcases hx with e | e
  · exact h y (e ▸ hy) hf
  · rw [e] at hy
    cases hc : c.xact with
    | none => rw [hc] at hy; cases hy
    | some x => rw [hc] at hy; cases hy; exact fail_whole x

theorem J_read {c : Conn Y} {x : Y} {d : Conn Y} {r : Res Bool} (h : J c) (hx : c.xact = some x) (hd : dbOps.dir x = .receiving)
    (hw : readMessages dbOps c = (d, r)) : J d := by
  obtain ⟨_, a2, _, a4, a5, a6, a7, a8⟩ := readMessages_spec dbOps c h.b.i.2
  have hs := readMessages_sends dbOps c
  rw [hw] at a2 a5 a6 a7 a8 hs
  refine ⟨(B_read h.b hx hw).1, by unfold Quiet; rw [show d.sends = c.sends from hs]; exact h.quiet, ?_, flow_receiving hx hd h.flow a2.symm⟩
  refine whole_map h.whole ?_
  cases r with
  | ret b =>
    cases b with
    | true => exact .inl (a5 rfl).1
    | false => exact .inr (a6 rfl).1
  | raised e => exact a7 e rfl
  | blocked => exact .inl (a8 rfl)

theorem J_put {c d : Conn Y} {x y : Y} (h : J c) (hx : c.xact = some x) (hd : dbOps.dir x = .receiving)
    (hdj : J d) (hwv : wv c = wv d) (hB : B (putRead dbOps d x y).1)
    (hy : (y = x) ∨ (y = dbOps.fail x ∧ d.read.msgs = [])) : J (putRead dbOps d x y).1 := by
  obtain ⟨_, a2, _⟩ := putRead_spec dbOps d x y hdj.b.i.2
  refine ⟨hB, ?_, ?_, flow_receiving hx hd h.flow (hwv.trans a2.symm)⟩
  · unfold Quiet; rw [putRead_sends]; exact hdj.quiet
  · intro z hz hf
    rw [putRead_xact] at hz
    cases hz
    obtain ⟨ix, rfl⟩ := closing_receiving hd
    have hnf : fatalOf (.inst ix) ≠ some true := fun hf => by
      have := h.whole _ hx hf
      rw [hd] at this
      cases this
    rcases hy with rfl | ⟨rfl, hm⟩
    · have hc := putAs_fatal ix.inst.state ix.inst d.read hnf hf
      show dirOf (putAs ix.inst.state ix.inst d.read).1 = .complete
      unfold dirOf
      rw [hc]
    · have hc := putAs_nil ix.inst.state { ix.inst with state := .complete, fatal := some true, errorMessage := none } d.read hm rfl
      show dirOf (putAs ix.inst.state { ix.inst with state := .complete, fatal := some true, errorMessage := none } d.read).1 = .complete
      unfold dirOf
      rw [hc]

theorem init_state {cmds : List Elem} {i : Inst} (h : Xact3.init cmds = .ok i) : i.state = .sending .standardSent ∧ i.fatal = none := by
  unfold Xact3.init at h
  split at h
  · cases h; exact ⟨rfl, rfl⟩
  · cases h

/-- The calls that promise no fatal failure of a send. -/
def quietCall : Call → Prop
  | .sock s _ => SendEv.err .fatal ∉ s
  | _ => True

theorem J_pres : PresNew dbOps J where
  wrote c x d h hx hd hw := J_wrote h hx hd hw
  writeLost c x d h hx hd hw := by
    obtain ⟨_, e2, _⟩ := writeMessages_events dbOps c (dbOps.messages x)
    rw [hw] at e2
    exact absurd (e2 rfl) h.quiet
  writeOther c x d r h hx hd hw hr := by
    obtain ⟨e1, _⟩ := writeMessages_events dbOps c (dbOps.messages x)
    obtain ⟨_, _, _, _, _, a6⟩ := writeMessages_W dbOps c (dbOps.messages x) h.b.i.1
    rw [hw] at e1 a6
    have hxd : d.xact = c.xact := a6 hr
    exact ⟨(B_write h.b hx hw).1, fun hm => h.quiet (e1 _ hm), whole_map h.whole (.inl hxd), .inl ⟨x, hxd.trans hx, hd⟩⟩
  read c x d r h hx hd hw := J_read h hx hd hw
  put c x d h hx hd hw := by
    have hj := J_read h hx hd hw
    obtain ⟨_, a2, _⟩ := readMessages_spec dbOps c h.b.i.2
    rw [hw] at a2
    exact J_put h hx hd hj a2.symm (B_pres.put c x d h.b hx hd hw) (.inl rfl)
  putLost c x d h hx hd hw := by
    have hj := J_read h hx hd hw
    obtain ⟨_, a2, _, _, _, a6, _⟩ := readMessages_spec dbOps c h.b.i.2
    rw [hw] at a2 a6
    exact J_put h hx hd hj a2.symm (B_pres.putLost c x d h.b hx hd hw) (.inr ⟨rfl, (a6 rfl).2⟩)
  fail c h hn := by
    refine ⟨B_pres.fail c h.b hn, h.quiet, whole_map (d := failXact dbOps { c with state := [] }) h.whole (.inr rfl), ?_⟩
    cases hx : c.xact with
    | some x =>
      have := failXact_dead (c := { c with state := [] }) hx
      rw [hx] at this
      exact .inr (.inl this)
    | none => exact absurd hx hn
  note c x h hx := ⟨B_pres.note c x h.b hx, h.quiet, h.whole, h.flow⟩
  drop c x h hx hd hf hn := by
    refine ⟨B_pres.drop c x h.b hx hd hf hn, h.quiet, fun y hy => (by cases hy), ?_⟩
    rcases h.flow with ⟨y, h1, h2⟩ | ⟨y, h1, _, h3⟩ | ⟨h1, h2⟩
    · rw [hx] at h1; cases h1; rw [hd] at h2; cases h2
    · rw [hx] at h1; cases h1; rw [(fatal_iff _).2 h3] at hf; cases hf
    · exact .inr (.inr ⟨h1, h2⟩)
  trash c f h hx := ⟨B_pres.trash c f h.b hx, h.quiet, fun y hy hf => by
      have hy : y = .inst (instOps.instruction c.nextId ((iterate c.garbageCursors 0 f.cursors).1.map (Elem.str .closePortal) ++
          (iterate c.garbageStatements 0 f.statements).1.map (Elem.str .closeStatement) ++ [.empty .synchronize])) := (Option.some.inj hy).symm
      rw [hy] at hf
      exact (by cases hf), .inl ⟨_, rfl, rfl⟩⟩

theorem J_keeps : Keeps quietCall J where
  toPresNew := J_pres
  start c i k cmds h hi hk hn := by
    obtain ⟨h1, h2⟩ := init_state hi
    refine ⟨B_xact h.b _ (fun k' hk' => ?_), h.quiet, whole_start _ ?_, flow_sending _ ?_⟩
    · have : some k = some k' := hk'
      cases this
      exact hk
    · show i.fatal ≠ some true
      rw [h2]; simp
    · show dirOf i = .sending
      unfold dirOf; rw [h1]
  bump c h := ⟨B_bump h.b, h.quiet, h.whole, h.flow⟩
  plugged c b h := by
    cases b with
    | true => exact h
    | false => exact ⟨B_plug false h.b, fun hm => (by simp [plug] at hm), h.whole, h.flow⟩
  sync c h _ := ⟨B_sync h.b, h.quiet, whole_start (c := { c with nextId := c.nextId + 1 }) _ (by intro hf; cases hf),
    flow_sending (c := { c with nextId := c.nextId + 1 }) _ rfl⟩
  given c x m n _ _ h hx hd := by
    refine ⟨B_xact h.b _ (fun k hk => h.b.own _ k hx hk), h.quiet, whole_start _ ?_, flow_sending _ hd⟩
    intro hf
    have := h.whole _ hx hf
    have hd' : dbOps.dir (.inst x) = .sending := hd
    rw [hd'] at this
    cases this
  trashC c i h := ⟨⟨I_congr (c := c) rfl rfl h.b.i, h.b.ids, h.b.own⟩, h.quiet, h.whole, h.flow⟩
  trashS c i h := ⟨⟨I_congr (c := c) rfl rfl h.b.i, h.b.ids, h.b.own⟩, h.quiet, h.whole, h.flow⟩
  sock c s r hq h := ⟨⟨I_congr (c := c) rfl rfl h.b.i, h.b.ids, h.b.own⟩, fun hm => by
    rcases List.mem_append.1 hm with hm | hm
    · exact h.quiet hm
    · exact hq hm, h.whole, h.flow⟩
  closes c f n _ h hn := ⟨B_xact h.b _ (fun k hk => by cases hk), h.quiet, whole_start _ (by intro hf; cases hf), flow_sending _ rfl⟩

theorem J_established {s : List SendEv} (hs : SendEv.err .fatal ∉ s) (r : List RecvEv) (st : Bytes) :
    J { xact := none, sends := s, recvs := r, state := st } :=
  ⟨B_established s r st, hs, fun x hx => (by cases hx), .inr (.inr ⟨⟨rfl, rfl, by simp [squeeze, squeezeFrom]⟩, by simp [squeeze, squeezeFrom]⟩)⟩

end PG.Lifecycle
