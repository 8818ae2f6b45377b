import Verif.Proofs.Xact3e
/-!
# C10, C11: a protocol transaction receives its reply in batches
-/
namespace PG.Props.Xact
open PG PG.Element3 PG.Xact3 PG.Spec.Xact

/-! ## C10

Batches are delivered while the transaction waits for messages.  `feed s bs` delivers `bs` one after another and
gives the transaction, the number of messages consumed (or the exception) and the number of batches delivered. -/

theorem loop_early : ∀ (ms : List Msg) (s : Inst) (l : Loc) (l' : Loc), (loop s l ms).2 = .ok ⟨true, l'⟩ →
    (loop s l ms).1.errorMessage ≠ none
  | [], _, _, _, h => by cases h
  | x :: xs, s, l, l', h => by
    rw [loop_cons] at h ⊢
    cases hr : react s.commands l.offset l.step l.cmd l.paths x with
    | error e => rw [hr] at h; cases h
    | ok r =>
      rw [hr] at h
      cases r with
      | violation ex => simp
      | fatal em => simp
      | lost em => simp
      | skip em o c p => exact loop_early xs _ _ l' h
      | async kk =>
        dsimp only at h ⊢
        cases ha : handleAsync s kk x with
        | error e => rw [ha] at h; cases h
        | ok s' => rw [ha] at h; exact loop_early xs _ _ l' h
      | take r n => exact loop_early xs _ _ l' h
      | next r rd o c p => exact loop_early xs _ _ l' h
      | last r rd o => cases h

/-- A delivery that completes the transaction without an error stands at the end of the commands. -/
theorem complete_at_end {s a : Inst} {b : Batch} {n : Nat} (hs : Receiving s) (hid : b.id ≠ s.lastId)
    (h : standardPut s b = (a, .ok n)) (he : a.errorMessage = none) (hc : a.state = .complete) :
    a.last2.offset = a.commands.length := by
  obtain ⟨l, s1, ⟨ea, l1⟩, hst, hv, _, hd⟩ := standardPut_ok hid h
  obtain ⟨f1, f2, f3⟩ := loop_frame0 b.msgs { s with asyncs := [] } l
  have hearly := loop_early b.msgs { s with asyncs := [] } l l1
  rw [hv] at f1 f2 f3 hearly
  dsimp only at f1 f2 f3 hd hearly
  rcases hd with ⟨rfl, rfl⟩ | ⟨rfl, rfl⟩
  · exact absurd he (hearly rfl)
  · have hst1 := f2 (fun _ h => by cases h)
    obtain ⟨op, ho⟩ := hs
    have hs1 : s1.state = .receiving op := hst1.trans ho
    unfold finish switchState at hc ⊢
    dsimp only at hc ⊢
    split at hc
    · rename_i h1
      rw [if_pos h1]
      exact h1
    · split at hc
      · split at hc <;> first | (rw [hs1] at hc; cases hc) | cases hc
      · rw [hs1] at hc; cases hc

/-- C10, part 1: however the reply is cut into (new, non-empty) batches, the outcome is that of the delivered messages read
as one batch by `standard_put`: the same number of messages is consumed, the phase, the error and the transaction status are
the same; unless an error ended the transaction, so are the command position, the collected messages and the commands to
re-issue after a COPY; and the hook for asynchronous messages is called alike if no two of them are equal.
Assumed of the reply: its rows parse, and read as one batch it does not violate the protocol. -/
theorem C10_batching_partial {cs : List Elem} {s : Inst} {bs : List Batch} (k : Nat) (hr : Reach cs s) (hw : Receiving s)
    (hne : bs ≠ []) (hf : Fresh s bs) (hk : k ≠ s.lastId ∧ ∀ x ∈ s.completed, x.1 ≠ k)
    (hrows : RowsOk (allMsgs (bs.take (feed s bs).2.2)))
    (hv : ¬ Violated (standardPut s ⟨k, allMsgs (bs.take (feed s bs).2.2)⟩).1) :
    (feed s bs).2.1 = (standardPut s ⟨k, allMsgs (bs.take (feed s bs).2.2)⟩).2 ∧
    ((∃ c, (feed s bs).2.1 = .ok c) →
      Agree (standardPut s ⟨k, allMsgs (bs.take (feed s bs).2.2)⟩).1 (feed s bs).1) ∧
    ((asyncsOf (allMsgs (bs.take (feed s bs).2.2))).Nodup →
      (feed s bs).1.hookCalls = (standardPut s ⟨k, allMsgs (bs.take (feed s bs).2.2)⟩).1.hookCalls) := by
  obtain ⟨hg, hc, hh⟩ := reach_good hr
  exact feed_whole bs s k hne hg hw (by rw [hc]; exact hh) hf hk.1 hk.2 hrows hv

/-- C10, part 2: two ways of cutting the same reply into batches, both delivered to the end without an exception or an error
message, give the same consumed count, phase, position, collected messages, status and re-issued commands. -/
theorem C10_two_batchings_partial {cs : List Elem} {s : Inst} {bs bs' : List Batch} (hr : Reach cs s) (hw : Receiving s)
    (hne : bs ≠ []) (hne' : bs' ≠ []) (hf : Fresh s bs) (hf' : Fresh s bs') (hm : allMsgs bs = allMsgs bs')
    (hall : (feed s bs).2.2 = bs.length) (hall' : (feed s bs').2.2 = bs'.length) (hrows : RowsOk (allMsgs bs))
    {c : Nat} (hok : (feed s bs).2.1 = .ok c) (he : (feed s bs).1.errorMessage = none)
    (hv : ∀ k, k ≠ s.lastId → ¬ Violated (standardPut s ⟨k, allMsgs bs⟩).1) :
    (feed s bs').2.1 = .ok c ∧ phase (feed s bs').1 = phase (feed s bs).1 ∧ (feed s bs').1.last2 = (feed s bs).1.last2 ∧
    messagesReceived (feed s bs').1 = messagesReceived (feed s bs).1 ∧ (feed s bs').1.lastReady = (feed s bs).1.lastReady ∧
    (feed s bs').1.copyTail = (feed s bs).1.copyTail ∧ (feed s bs').1.fatal = (feed s bs).1.fatal ∧
    (feed s bs').1.errorMessage = none ∧
    ((asyncsOf (allMsgs bs)).Nodup → (feed s bs').1.hookCalls = (feed s bs).1.hookCalls) := by
  obtain ⟨b0, bs0, rfl⟩ := List.exists_cons_of_ne_nil hne
  obtain ⟨_, hkid, hkc⟩ := hf.2 b0 List.mem_cons_self
  have e1 : (b0 :: bs0).take (feed s (b0 :: bs0)).2.2 = b0 :: bs0 := by rw [hall]; exact List.take_length
  have e2 : bs'.take (feed s bs').2.2 = bs' := by rw [hall']; exact List.take_length
  obtain ⟨a1, a2, a3⟩ := C10_batching_partial b0.id hr hw hne hf ⟨hkid, hkc⟩ (by rw [e1]; exact hrows) (by rw [e1]; exact hv _ hkid)
  obtain ⟨b1, b2, b3⟩ := C10_batching_partial b0.id hr hw hne' hf' ⟨hkid, hkc⟩ (by rw [e2, ← hm]; exact hrows)
    (by rw [e2, ← hm]; exact hv _ hkid)
  rw [e1] at a1 a2 a3
  rw [e2, ← hm] at b1 b2 b3
  have hok' : (feed s bs').2.1 = .ok c := by rw [b1, ← a1]; exact hok
  have A := a2 ⟨c, hok⟩
  have B := b2 ⟨c, hok'⟩
  have full : (standardPut s ⟨b0.id, allMsgs (b0 :: bs0)⟩).1.state = .complete →
      (standardPut s ⟨b0.id, allMsgs (b0 :: bs0)⟩).1.last2.offset = (standardPut s ⟨b0.id, allMsgs (b0 :: bs0)⟩).1.commands.length :=
    fun hc => complete_at_end (b := ⟨b0.id, allMsgs (b0 :: bs0)⟩) (n := c) hw hkid (Prod.ext rfl (by rw [← a1]; exact hok))
      (by rw [A.error]; exact he) hc
  obtain ⟨x1, x2, x3⟩ := A.full full
  obtain ⟨y1, y2, y3⟩ := B.full full
  exact ⟨hok', B.phase.symm.trans A.phase, y1.symm.trans x1, y2.symm.trans x2, B.ready.symm.trans A.ready, y3.symm.trans x3,
    B.fatal.symm.trans A.fatal, by rw [← B.error, A.error]; exact he, fun hn => (b3 hn).trans (a3 hn).symm⟩

/-! Non-vacuity: the extended query protocol, with rows and a notice, delivered in three ways. -/

/-- Parse, Bind, Execute, Synchronize. -/
def demoCmds : List Elem :=
  [.parse [115] [113] [], .bind [] [115] [] [] [], .execute [] 0, .empty .synchronize]
/-- The transaction after its commands were sent. -/
def demo : Inst :=
  { commands := demoCmds, completed := [], lastId := 0, last1 := ⟨0, 0⟩, last2 := ⟨0, 0⟩, messages := .empty,
    copyTail := [], state := .receiving .standardPut, fatal := none, errorMessage := none, lastReady := none,
    asyncs := [], hookCalls := [] }
theorem demo_reach : Reach demoCmds demo :=
  Reach.sent (s := { demo with messages := .commands, state := .sending .standardSent }) (.start rfl) ⟨_, rfl⟩
/-- A row with one one-byte attribute; a notification. -/
def row (b : UInt8) : Msg := (68, [0, 1, 0, 0, 0, 1, b])
theorem rowsOk_of {ms : List Msg} (h : ∀ x ∈ ms, x.1 = 68 → (parseK .tuple x.2).isOk = true) : RowsOk ms := by
  intro x hx ht
  have := h x hx ht
  cases hp : parseK .tuple x.2 with
  | error e => rw [hp] at this; cases this
  | ok m => exact ⟨m, rfl⟩
def note : Msg := (65, [0, 0, 0, 1, 99, 0, 112, 0])
def demoReply : List Msg := [(49, []), (50, []), row 1, note, row 2, row 3, (67, [67, 0]), (90, [73])]

example : let bs := [⟨1, [(49, []), (50, []), row 1]⟩, ⟨2, [note]⟩, ⟨3, [row 2, row 3]⟩, ⟨4, [(67, [67, 0]), (90, [73])]⟩]
    let bs' := demoReply.zipIdx.map (fun p => (⟨p.2 + 5, [p.1]⟩ : Batch))
    Receiving demo ∧ Fresh demo bs ∧ Fresh demo bs' ∧ allMsgs bs = demoReply ∧ allMsgs bs' = demoReply ∧
    (feed demo bs).2 = (.ok 8, 4) ∧ (feed demo bs').2 = (.ok 8, 8) ∧ (feed demo bs).1.errorMessage = none ∧
    (feed demo bs).1.state = .complete ∧ (messagesReceived (feed demo bs).1).length = 7 ∧
    (standardPut demo ⟨9, demoReply⟩).1.errorMessage = none ∧ (asyncsOf demoReply).Nodup ∧ (feed demo bs).1.hookCalls.length = 1 := by
  refine ⟨⟨_, rfl⟩, ⟨by decide, ?_⟩, ⟨by decide, ?_⟩, by decide, by decide, by decide, by decide, by decide, by decide, by decide,
    by decide, by decide, by decide⟩
  all_goals
    intro b hb
    simp [demoReply, List.zipIdx] at hb
    rcases hb with rfl | rfl | rfl | rfl | rfl | rfl | rfl | rfl <;> exact ⟨by simp, by simp [demo], fun c hc => by cases hc⟩
example : RowsOk demoReply := rowsOk_of (by decide)

/-! The restrictions are needed; in each case the unrestricted claim is false of the code. -/

/-- Equal asynchronous messages: two equal notifications in one batch reach the hook once, in two batches twice.  (A user
that sends the same NOTIFY payload twice may see one notification.) -/
theorem C10_equal_notifications_depend_on_batching :
    (feed demo [⟨1, [note, note]⟩]).1.hookCalls.length = 1 ∧
    (feed demo [⟨1, [note]⟩, ⟨2, [note]⟩]).1.hookCalls.length = 2 := by decide

/-- `ERROR` with the severity field `S`. -/
def errorMsg (sev : List UInt8) : Msg := (69, [83] ++ sev ++ [0, 0])

/-- Messages of a batch in which an error ends the transaction are not collected: with the error in the same batch the
preceding message is lost, in two batches it is kept. -/
theorem C10_messages_before_fatal_depend_on_batching :
    messagesReceived (feed demo [⟨1, [(49, []), errorMsg [70]]⟩]).1 = [] ∧
    messagesReceived (feed demo [⟨1, [(49, [])]⟩, ⟨2, [errorMsg [70]]⟩]).1 = [.elem (.empty .parseComplete)] := by decide

/-- A simple query. -/
def demoQuery : Inst := { demo with commands := [.str .query [115]] }
theorem demoQuery_reach : Reach [.str .query [115]] demoQuery :=
  Reach.sent (s := { demoQuery with messages := .commands, state := .sending .standardSent }) (.start rfl) ⟨_, rfl⟩

/-- Protocol violations: a row after the error of a simple query is a violation when it arrives in the same batch, and is
silently collected when it arrives in the next one (the fast path for rows is still installed). -/
theorem C10_violation_depends_on_batching :
    Violated (feed demoQuery [⟨1, [(84, [0, 0]), row 1, errorMsg [69, 82, 82, 79, 82], row 2]⟩]).1 ∧
    ¬ Violated (feed demoQuery [⟨1, [(84, [0, 0]), row 1, errorMsg [69, 82, 82, 79, 82]]⟩, ⟨2, [row 2]⟩]).1 ∧
    (messagesReceived (feed demoQuery [⟨1, [(84, [0, 0]), row 1, errorMsg [69, 82, 82, 79, 82]]⟩, ⟨2, [row 2]⟩]).1).length = 3 := by
  refine ⟨⟨[84, 73, 67, 72, 71, 90], 68, by decide⟩, ?_, by decide⟩
  rintro ⟨ex, t, h⟩
  have : (feed demoQuery [⟨1, [(84, [0, 0]), row 1, errorMsg [69, 82, 82, 79, 82]]⟩, ⟨2, [row 2]⟩]).1.errorMessage =
    some (.server [([83], some [69, 82, 82, 79, 82])]) := by decide
  rw [this] at h
  cases h

/-! ## C11 -/

/-- C11: if the delivery of a new batch is left at any point by an exception and the same batch is delivered again, the
second delivery consumes as many messages as an uninterrupted one (or raises the same exception) and leaves the same phase,
error, status, position, collected messages and re-issued commands: nothing is lost, nothing is collected twice.
What is missing, hence `_partial`: asynchronous messages.  If the interruption came after the batch was recorded, the hook is
not called again (third part); before, it is (`C11_notification_repeated`). -/
theorem C11_redelivery_partial {cs : List Elem} {s t : Inst} {b : Batch} (_hr : Reach cs s) (hw : Receiving s) (hf : Fresh s [b])
    (hrows : RowsOk b.msgs) (hi : Stopped s b t) (ht : Receiving t) :
    (deliver t b).2 = (deliver s b).2 ∧
    ((∃ n, (deliver s b).2 = .ok n) → Agree (deliver s b).1 (deliver t b).1) ∧
    (t.lastId = b.id → (deliver t b).1.hookCalls = (deliver s b).1.hookCalls) :=
  redeliver_any hw hf hrows hi ht

/-- The first batch of the demonstration. -/
def demoBatch : Batch := ⟨1, [(49, []), note, (50, []), row 1]⟩

/-- Non-vacuity: the delivery of a batch of four messages, left after two of them. -/
example : ∃ t, Stopped demo demoBatch t ∧ Receiving t ∧ Fresh demo [demoBatch] ∧ RowsOk demoBatch.msgs ∧
    t.hookCalls.length = 1 ∧ (deliver t demoBatch).2 = .ok 4 ∧ (messagesReceived (deliver t demoBatch).1).length = 3 := by
  refine ⟨(loop demo ⟨0, 0, .parse [115] [113] [], some [[(49, .parse (.empty .parseComplete), none)]], [], 0⟩ [(49, []), note]).1,
    .std rfl (.inLoop (m1 := [(49, []), note]) (m2 := [(50, []), row 1]) rfl rfl rfl), ⟨_, rfl⟩, ⟨by decide, ?_⟩, rowsOk_of (by decide), by decide, by decide, by decide⟩
  intro b hb
  rcases List.mem_singleton.mp hb with rfl
  exact ⟨by decide, by decide, fun c hc => by cases hc⟩

/-- A notification processed before the interruption is given to the hook again. -/
theorem C11_notification_repeated : ∃ t, Stopped demo demoBatch t ∧ Receiving t ∧
    (deliver t demoBatch).1.hookCalls.length = 2 ∧ (deliver demo demoBatch).1.hookCalls.length = 1 := by
  refine ⟨(loop demo ⟨0, 0, .parse [115] [113] [], some [[(49, .parse (.empty .parseComplete), none)]], [], 0⟩ [(49, []), note]).1,
    .std rfl (.inLoop (m1 := [(49, []), note]) (m2 := [(50, []), row 1]) rfl rfl rfl), ⟨_, rfl⟩, by decide, by decide⟩

/-- One redelivery is the limit: `last` is stored by every delivery, so after two complete redeliveries of the same batch the
start of the batch is forgotten, and the third reads the batch from its end position (here: a violation). -/
theorem C11_second_redelivery_fails :
    let b : Batch := ⟨1, [(49, []), (50, [])]⟩
    (deliver (deliver demo b).1 b).1.errorMessage = none ∧
    Violated (deliver (deliver (deliver demo b).1 b).1 b).1 := by
  refine ⟨by decide, ⟨[68, 72, 71, 73, 67], 49, by decide⟩⟩

end PG.Props.Xact
