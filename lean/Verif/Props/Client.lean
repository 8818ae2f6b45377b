import Verif.Proofs.Client3b
/-!
# C15 and C17: what a connection puts on the wire

The transaction objects are arbitrary (`Ops X`) unless an `Instruction` is named (`instOps`); the socket accepts any number of
bytes per call and raises whatever it likes; the history of calls is arbitrary.
-/
namespace PG.Props.Client
open PG PG.Element3 PG.Xact3 PG.Client3 PG.Spec.Client PG.Spec

/-! ## C15 -/

/-- C15: after any history, what reached the server and what is still to be sent is, in order and each once, the bytes of the
sequences of messages handed to the writer (handing over the same object again right away does not count), up to the first
that cannot be serialized. -/
theorem C15_sent_once_in_order {X : Type} (o : Ops X) (x : X) (ops : List (Op X)) :
    (run o x ops).wire ++ (run o x ops).messageData = ((squeeze (run o x ops).log).takeWhile Serializable).flatMap bytesOf := by
  obtain ⟨⟨g, hg, hw, _, h⟩, _⟩ := run_I o x ops
  rw [hw]
  have htw : ∀ (g t : List Obj), (∀ m ∈ g, Serializable m = true) → (g ++ t).takeWhile Serializable = g ++ t.takeWhile Serializable := by
    intro g t hg
    induction g with
    | nil => rfl
    | cons a g ih =>
      rw [List.cons_append, List.takeWhile_cons_of_pos (hg a List.mem_cons_self), ih (fun m hm => hg m (List.mem_cons_of_mem _ hm))]
      rfl
  rcases h with ⟨hq, _⟩ | ⟨b, r, hq, hb, _⟩
  · have := htw g [] hg
    rw [List.append_nil, List.takeWhile_nil, List.append_nil] at this
    rw [hq, this]
  · rw [hq, htw g (b :: r) hg, List.takeWhile_cons_of_neg (by rw [hb]; simp), List.append_nil]

/-- C15: what reached the server is a prefix of it. -/
theorem C15_wire_is_prefix {X : Type} (o : Ops X) (x : X) (ops : List (Op X)) :
    (run o x ops).wire <+: (squeeze (run o x ops).log).flatMap bytesOf := by
  have h := C15_sent_once_in_order o x ops
  obtain ⟨t, ht⟩ := List.takeWhile_prefix Serializable (l := squeeze (run o x ops).log)
  refine ⟨(run o x ops).messageData ++ t.flatMap bytesOf, ?_⟩
  rw [← List.append_assoc, h, ← List.flatMap_append, ht]

/-- C15: `write_messages` returns `True` only when everything handed over so far is on the wire. -/
theorem C15_true_means_sent {X : Type} (o : Ops X) (x : X) (ops : List (Op X)) (m : Obj) {d : Conn X}
    (h : writeMessages o (run o x ops) m = (d, .ret true)) :
    d.messageData = [] ∧ d.wire = (squeeze ((run o x ops).log ++ [m])).flatMap bytesOf := by
  obtain ⟨_, _, _, t, _⟩ := writeMessages_W o _ m (run_I o x ops).1
  rw [h] at t
  exact ⟨(t rfl).1, (t rfl).2.2.1⟩

/-- C15: when `complete()` is called on a transaction that is sending and ends with the transaction done, then all its
messages, and everything before, are on the wire. -/
theorem C15_complete_means_sent {X : Type} {o : Ops X} (hl : Lawful o) (x : X) (ops : List (Op X)) {y : X} {d : Conn X} {n : Nat}
    (hy : (run o x ops).xact = some y) (hs : o.dir y = .sending)
    (h : complete o n (run o x ops) = (d, .ret ())) (hd : d.xact = none) :
    d.messageData = [] ∧ d.wire = (squeeze d.log).flatMap bytesOf ∧ ∀ m ∈ squeeze d.log, Serializable m = true :=
  complete_clean hl n _ d (run_I o x ops) (fun z hz => .inl (by rw [hy] at hz; cases hz; exact hs)) h hd

/-- C15: in particular an instruction's commands are put on the wire exactly once, after everything before. -/
theorem C15_instruction_sent_once (x : IX) (ops : List (Op IX)) {cmds : List Elem} {k n : Nat} {d : Conn IX}
    (hx : (run instOps x ops).xact = some (instOps.instruction k cmds))
    (hk : ∀ m ∈ (run instOps x ops).log, m.id ≠ .commands k)
    (h : complete instOps n (run instOps x ops) = (d, .ret ())) (hd : d.xact = none) :
    ∃ (bytes : Bytes) (rest : List Obj), catMessages (cmds.map .msg) = .ok bytes ∧
      d.wire = (squeeze (run instOps x ops).log).flatMap bytesOf ++ bytes ++ rest.flatMap bytesOf ∧ d.messageData = [] ∧
      ∀ m ∈ rest, m.id ≠ .commands k := by
  obtain ⟨c1, c2, c3⟩ := C15_complete_means_sent instOps_lawful x ops hx rfl h hd
  have hp : P k cmds (run instOps x ops).log (run instOps x ops) :=
    ⟨_, hx, rfl, rfl, 0, [], by simp, by simp, fun _ => ⟨rfl, .inl rfl⟩, fun h => absurd rfl h⟩
  obtain ⟨j, rest, h1, h2⟩ := complete_once n _ d (run_I instOps x ops) hp h hd
  rw [h1, squeeze_once _ _ ⟨.commands k, cmds.map .msg⟩ _ hk] at c2 c3
  refine ⟨_, squeezeFrom (some (.commands k)) rest, serializable_iff.1 (c3 ⟨.commands k, cmds.map .msg⟩ (by simp)), ?_, c1, ?_⟩
  · rw [c2, List.flatMap_append, List.flatMap_append]; simp
  · intro m hm; exact h2 m (squeezeFrom_sub _ _ m hm)

/-- C15, reading: after any history, what came from the server is, in order and each once, the messages taken by
transactions, the messages read but not taken yet, and an unread rest. -/
theorem C15_received_once_in_order {X : Type} (o : Ops X) (x : X) (ops : List (Op X)) :
    ∃ rest, (run o x ops).received = frames ((run o x ops).taken ++ (run o x ops).read.msgs) ++ rest ∧
      (parse (run o x ops).received).1 = (run o x ops).taken ++ (run o x ops).read.msgs ++ (parse rest).1 := by
  obtain ⟨_, hr⟩ := run_I o x ops
  refine ⟨_, hr.bytes, ?_⟩
  rw [hr.bytes, PBuffer.parse_frames _ hr.fits]

/-! A concrete history: the socket accepts three bytes, would block, accepts the rest; the reply comes in two pieces. -/

/-- `Instruction([Synchronize])` as the connection's transaction. -/
def syncX : IX := instOps.instruction 7 [.empty .synchronize]

def demoOps : List (Op IX) :=
  [.sock [.sent 3, .err .tryAgain, .sent 100] [.data [90, 0, 0], .err .tryAgain, .data [0, 5, 73, 65, 0]], .complete 10]

example : (run instOps syncX demoOps).wire = [83, 0, 0, 0, 4] ∧ (run instOps syncX demoOps).xact.isNone ∧
    (run instOps syncX demoOps).taken = [(90, [73])] := by decide +kernel

/-- An object of the user handed over twice in a row is sent once: a COPY of the same list object loses rows. -/
theorem C15_same_object_is_not_sent_again {X : Type} (o : Ops X) (x : X) (ops : List (Op X)) (m : Obj) {d : Conn X}
    (h : writeMessages o (run o x ops) m = (d, .ret true)) :
    (writeMessages o d m).1.wire = d.wire ∧ (writeMessages o d m).2 = .ret true := by
  obtain ⟨hw, hl, _, t, _⟩ := writeMessages_W o _ m (run_I o x ops).1
  rw [h] at hw hl t
  obtain ⟨t1, _, t3, t4⟩ := t rfl
  dsimp only at hw hl t1 t3
  have hmem : (squeeze ((run o x ops).log ++ [m])).getLast?.map (·.id) = some m.id := by
    rw [squeeze_snoc]
    split
    · rename_i e; exact e
    · simp
  have hdd : squeeze (d.log ++ [m]) = squeeze ((run o x ops).log ++ [m]) := by
    rw [hl, squeeze_snoc, if_pos hmem]
  have hwr : d.written = d.writing ∧ d.writing.map (·.id) = some m.id := by
    obtain ⟨g, hg, _, hwn, hc⟩ := hw
    rcases hc with ⟨hq, hwr⟩ | ⟨b, r, hq, hb, _⟩
    · refine ⟨hwn.trans hwr.symm, ?_⟩
      rw [hwr, ← hq, hl]; exact hmem
    · have := t4 b (by rw [← hl, hq]; simp)
      rw [hb] at this; cases this
  have hcat : ∀ e : Conn X, e.written = d.written → e.writing = d.writing → catWriting e = .ok e := by
    intro e e1 e2
    unfold catWriting
    split
    · rfl
    · rename_i w hw'
      rw [e1, hwr.1, ← e2, hw']
      simp
  unfold writeMessages
  dsimp only
  rw [hcat { d with log := d.log ++ [m] } rfl rfl]
  dsimp only
  rw [if_pos hwr.2]
  unfold sendMessageData
  dsimp only
  rw [t1]
  have : sendLoop d.sends [] d.wire = (d.sends, [], d.wire, .ret ()) := by cases d.sends <;> rfl
  rw [this]
  exact ⟨rfl, rfl⟩

/-- `step()` does not look at the result of the writer: after a fatal error of the socket the transaction is fatal, but waits
for messages again. -/
theorem C15_step_revives_failed : let c : Conn IX := { xact := some syncX, sends := [.err .fatal] }
    ∃ y, (step instOps c).1.xact = some y ∧ y.inst.fatal = some true ∧ y.inst.state = .receiving .standardPut :=
  ⟨_, rfl, rfl, rfl⟩

/-! ## C17 -/

/-- C17: after any history, the identifiers handed to the garbage lists (by the user or by finalizers, at any time) are, in
order and each once, those closed by a transaction of the connection and those still waiting in the lists. -/
theorem C17_trash_closed_once {X : Type} (o : Ops X) (x : X) (ops : List (Op X)) :
    (run o x ops).trashedCursors = portalsClosed (run o x ops).closings.flatten ++ (run o x ops).garbageCursors ∧
    (run o x ops).trashedStatements = statementsClosed (run o x ops).closings.flatten ++ (run o x ops).garbageStatements :=
  run_G o x ops

/-- C17: taking out the trash puts one Close message for each waiting identifier, and for those added meanwhile, and a
Synchronize, on the wire, exactly once. -/
theorem C17_close_messages_sent (x : IX) (ops : List (Op IX)) (f : Finalizers) {n : Nat} {d : Conn IX}
    (hk : ∀ m ∈ (run instOps x ops).log, m.id ≠ .commands (run instOps x ops).nextId)
    (h : complete instOps n (takeOutTrash instOps f (run instOps x ops)) = (d, .ret ())) (hd : d.xact = none) :
    ∃ (cs ss : List Bytes) (bytes : Bytes) (rest : List Obj), (run instOps x ops).garbageCursors <+: cs ∧ (run instOps x ops).garbageStatements <+: ss ∧
      catMessages ((cs.map (Elem.str .closePortal) ++ ss.map (Elem.str .closeStatement) ++ [Elem.empty .synchronize]).map Item.msg) = .ok bytes ∧
      d.wire = (squeeze (run instOps x ops).log).flatMap bytesOf ++ bytes ++ rest.flatMap bytesOf ∧ d.messageData = [] ∧
      (∀ m ∈ rest, m.id ≠ .commands (run instOps x ops).nextId) ∧
      d.trashedCursors = portalsClosed (run instOps x ops).closings.flatten ++ cs ++ d.garbageCursors ∧
      d.trashedStatements = statementsClosed (run instOps x ops).closings.flatten ++ ss ++ d.garbageStatements := by
  have hI := takeOutTrash_I instOps f _ (run_I instOps x ops)
  have hG := takeOutTrash_G instOps f _ (run_G instOps x ops)
  have hgv := complete_gv instOps n (takeOutTrash instOps f (run instOps x ops))
  rw [h] at hgv
  obtain ⟨a, a1, a2⟩ := iterate_spec f.cursors (run instOps x ops).garbageCursors 0 (Nat.zero_le _)
  obtain ⟨b, b1, b2⟩ := iterate_spec f.statements (run instOps x ops).garbageStatements 0 (Nat.zero_le _)
  rw [List.drop_zero] at a2 b2
  have hxm : (takeOutTrash instOps f (run instOps x ops)).xact = some (instOps.instruction (run instOps x ops).nextId
      (((run instOps x ops).garbageCursors ++ a).map (Elem.str .closePortal) ++ ((run instOps x ops).garbageStatements ++ b).map (Elem.str .closeStatement) ++ [.empty .synchronize])) := by
    unfold takeOutTrash
    dsimp only
    rw [a2, b2]
  have hcl : (takeOutTrash instOps f (run instOps x ops)).closings = (run instOps x ops).closings ++
      [((run instOps x ops).garbageCursors ++ a).map (Elem.str .closePortal) ++ ((run instOps x ops).garbageStatements ++ b).map (Elem.str .closeStatement) ++ [.empty .synchronize]] := by
    unfold takeOutTrash
    dsimp only
    rw [a2, b2]
  have hlog : (takeOutTrash instOps f (run instOps x ops)).log = (run instOps x ops).log := rfl
  generalize takeOutTrash instOps f (run instOps x ops) = t at *
  obtain ⟨c1, c2, c3⟩ := complete_clean instOps_lawful n t d hI (fun z hz => .inl (by rw [hxm] at hz; cases hz; rfl)) h hd
  generalize hcmds : ((run instOps x ops).garbageCursors ++ a).map (Elem.str .closePortal) ++ ((run instOps x ops).garbageStatements ++ b).map (Elem.str .closeStatement) ++ [Elem.empty .synchronize] = cmds at *
  have hp : P (run instOps x ops).nextId cmds (run instOps x ops).log t :=
    ⟨_, hxm, rfl, rfl, 0, [], by rw [hlog]; simp, by simp, fun _ => ⟨rfl, .inl rfl⟩, fun h => absurd rfl h⟩
  obtain ⟨j, rest, h1, h2⟩ := complete_once n t d hI hp h hd
  rw [h1, squeeze_once _ _ ⟨.commands (run instOps x ops).nextId, cmds.map .msg⟩ _ hk] at c2 c3
  have hpc := portals_closing ((run instOps x ops).garbageCursors ++ a) ((run instOps x ops).garbageStatements ++ b)
  have hsc := statements_closing ((run instOps x ops).garbageCursors ++ a) ((run instOps x ops).garbageStatements ++ b)
  rw [hcmds] at hpc hsc
  have e : ∀ l : List Elem, [l].flatten = l := fun l => by simp
  have hGd := G_congr hgv.symm hG
  have hcd : d.closings = t.closings := (congrArg (·.2.2.2.2) hgv :)
  refine ⟨_, _, _, squeezeFrom (some (.commands (run instOps x ops).nextId)) rest, List.prefix_append _ a, List.prefix_append _ b, by rw [hcmds]; exact serializable_iff.1 (c3 ⟨.commands (run instOps x ops).nextId, cmds.map .msg⟩ (by simp)), ?_, c1, ?_, ?_, ?_⟩
  · rw [c2, List.flatMap_append, List.flatMap_append]; simp
  · intro m hm; exact h2 m (squeezeFrom_sub _ _ m hm)
  · have := hGd.1
    rw [hcd, hcl, List.flatten_append, portals_append, e, hpc] at this
    exact this
  · have := hGd.2
    rw [hcd, hcl, List.flatten_append, statements_append, e, hsc] at this
    exact this

/-- C17: pushing a transaction takes the trash out first: if the pushed transaction is started, or done, then nothing that
was waiting before is still waiting and everything written before it is on the wire. -/
theorem C17_trash_goes_first {X : Type} {o : Ops X} (f : Finalizers) (n : Nat) (c : Conn X) (x : X)
    (hx : c.xact = none) (hne : c.garbageCursors ≠ [] ∨ c.garbageStatements ≠ []) (hd : o.dir x ≠ .complete) {d : Conn X}
    (h : push o f n c x = (d, .ret ())) :
    ∃ e, complete o n (takeOutTrash o f c) = (e, .ret ()) ∧
      (e.xact.isSome ∧ d = e ∨ e.xact = none ∧ step o { e with xact := some x } = (d, .ret ())) := by
  unfold push at h
  rw [if_neg hd, hx] at h
  have e1 : (if (none : Option X).isSome = true then complete o n c else (c, Res.ret ())) = (c, .ret ()) := if_neg (by simp)
  rw [e1] at h
  dsimp only at h
  have e2 : c.xact.isSome = false := by rw [hx]; rfl
  rw [e2, if_neg (by simp), if_pos hne.symm] at h
  generalize complete o n (takeOutTrash o f c) = z at h
  obtain ⟨e, r⟩ := z
  cases r with
  | raised e => cases h
  | blocked => cases h
  | ret u =>
    cases u
    dsimp only at h
    refine ⟨e, rfl, ?_⟩
    split at h
    · rename_i hs
      cases h
      exact .inl ⟨hs, rfl⟩
    · rename_i hs
      refine .inr ⟨?_, h⟩
      cases he : e.xact with
      | none => rfl
      | some y => rw [he] at hs; exact absurd rfl hs

/-- Non-vacuity: two cursors and a statement are waiting, a finalizer adds a cursor during the loop and one after it. -/
def trashOps : List (Op IX) :=
  demoOps ++ [.trashCursor [1], .trashStatement [2], .trashCursor [3],
    .sock [.sent 7, .sent 1000] [.data [51, 0, 0, 0, 4, 51, 0, 0, 0, 4, 51, 0, 0, 0, 4, 51, 0, 0, 0, 4, 90, 0, 0, 0, 5, 73]],
    .push { cursors := [[], [[4]]], lateCursors := [[5]] } 10 (instOps.instruction 50 [.empty .synchronize])]

example : (run instOps syncX trashOps).garbageCursors = [[5]] ∧ (run instOps syncX trashOps).trashedCursors = [[1], [3], [4], [5]] ∧
    (run instOps syncX trashOps).garbageStatements = [] ∧
    (run instOps syncX trashOps).closings = [[.str .closePortal [1], .str .closePortal [3], .str .closePortal [4], .str .closeStatement [2], .empty .synchronize]] := by
  decide +kernel

end PG.Props.Client
