import Verif.Proofs.Client3
import Verif.Proofs.Xact3e
/-!
# Proofs about the connection: the garbage lists
-/
namespace PG.Client3
open PG PG.Element3 PG.Xact3 PG.Spec.Client PG.Spec

variable {X : Type}

/-- What the statements about garbage are about. -/
def gv (c : Conn X) := (c.garbageCursors, c.garbageStatements, c.trashedCursors, c.trashedStatements, c.closings)

theorem sendMessageData_gv (o : Ops X) (c : Conn X) : gv (sendMessageData o c).1 = gv c := by
  unfold sendMessageData
  generalize sendLoop c.sends c.messageData c.wire = z
  obtain ⟨evs, d, w, r⟩ := z
  dsimp only
  split <;> rfl

theorem writeMessages_gv (o : Ops X) (c : Conn X) (m : Obj) : gv (writeMessages o c m).1 = gv c := by
  unfold writeMessages
  dsimp only
  split
  · rfl
  · rename_i d hd
    have hdx : gv d = gv c := by
      unfold catWriting at hd
      split at hd
      · cases hd; rfl
      · split at hd
        · cases hd; rfl
        · split at hd
          · cases hd
          · cases hd; rfl
    split
    · exact (sendMessageData_gv o d).trans hdx
    · split
      · exact hdx
      · exact (sendMessageData_gv o _).trans hdx

theorem readIntoLoop_gv (o : Ops X) : ∀ (evs : List RecvEv) (c : Conn X), gv (readIntoLoop o c evs).1 = gv c := by
  intro evs
  induction evs with
  | nil => intro c; unfold readIntoLoop; split <;> rfl
  | cons ev evs ih =>
    intro c
    unfold readIntoLoop
    split
    · rfl
    · rfl
    · split
      · rfl
      · rfl
      · rfl
      · exact ih _

theorem readMessages_gv (o : Ops X) (c : Conn X) : gv (readMessages o c).1 = gv c := by
  have hi : gv (readInto o c).1 = gv c := by
    unfold readInto
    split
    · rfl
    · rfl
    · split
      · exact readIntoLoop_gv o _ _
      · exact readIntoLoop_gv o _ _
  unfold readMessages
  split
  · rfl
  · generalize readInto o c = z at hi
    obtain ⟨d, r⟩ := z
    cases r with
    | blocked => exact hi
    | raised e => exact hi
    | ret b =>
      dsimp only
      generalize PBuffer.read d.stream = z
      obtain ⟨res, s⟩ := z
      cases res <;> exact hi

theorem putRead_gv (o : Ops X) (c : Conn X) (op x : X) : gv (putRead o c op x).1 = gv c := by
  unfold putRead
  generalize o.put op x c.read = z
  obtain ⟨y, r⟩ := z
  cases r <;> rfl

theorem handler_gv (o : Ops X) (c : Conn X) (e : CErr) : gv (handler o c e).1 = gv c := by
  cases e with
  | py e => rfl
  | sock k => cases k <;> rfl

theorem completePass_gv (o : Ops X) (c : Conn X) (x : X) : gv (completePass o c x).1 = gv c := by
  unfold completePass
  cases o.dir x with
  | complete => rfl
  | receiving =>
    dsimp only
    have hr := readMessages_gv o c
    generalize readMessages o c = z at hr
    obtain ⟨d, r⟩ := z
    cases r with
    | blocked => exact hr
    | raised e => exact (handler_gv o d e).trans hr
    | ret b =>
      cases b with
      | false => exact hr
      | true =>
        dsimp only
        have hp := putRead_gv o d x x
        generalize putRead o d x x = z at hp
        obtain ⟨d', r⟩ := z
        cases r with
        | blocked => exact hp.trans hr
        | raised e => exact (handler_gv o d' e).trans (hp.trans hr)
        | ret u => cases u; exact hp.trans hr
  | sending =>
    dsimp only
    have hw := writeMessages_gv o c (o.messages x)
    generalize writeMessages o c (o.messages x) = z at hw
    obtain ⟨d, r⟩ := z
    cases r with
    | blocked => exact hw
    | raised e => exact (handler_gv o d e).trans hw
    | ret b => cases b <;> exact hw

theorem settle_gv (o : Ops X) (c : Conn X) : gv (settle o c) = gv c := by
  unfold settle
  split
  · rfl
  · split <;> rfl

theorem complete_gv (o : Ops X) : ∀ (n : Nat) (c : Conn X), gv (complete o n c).1 = gv c
  | 0, c => rfl
  | n + 1, c => by
    unfold complete
    cases hx : c.xact with
    | none => rfl
    | some x =>
      dsimp only
      have hp := completePass_gv o c x
      generalize completePass o c x = z at hp
      obtain ⟨d, r⟩ := z
      cases r with
      | again => exact (complete_gv o n d).trans hp
      | done => exact (settle_gv o d).trans hp
      | raised e => exact hp
      | blocked => exact hp

theorem stepHandler_gv (c : Conn X) (e : CErr) : gv (stepHandler c e).1 = gv c := by
  cases e with
  | py e => rfl
  | sock k => cases k <;> rfl

theorem stepEnd_gv (o : Ops X) (c : Conn X) : gv (stepEnd o c) = gv c := by
  unfold stepEnd
  split
  · rfl
  · split <;> rfl

theorem step_gv (o : Ops X) (c : Conn X) : gv (step o c).1 = gv c := by
  unfold step
  cases hx : c.xact with
  | none => rfl
  | some x =>
    dsimp only
    cases o.dir x with
    | complete => rfl
    | sending =>
      dsimp only
      have hw := writeMessages_gv o c (o.messages x)
      generalize writeMessages o c (o.messages x) = z at hw
      obtain ⟨d, r⟩ := z
      cases r with
      | blocked => exact hw
      | raised e => exact (stepHandler_gv d e).trans hw
      | ret b => exact (stepEnd_gv o _).trans hw
    | receiving =>
      dsimp only
      have hr := readMessages_gv o c
      generalize readMessages o c = z at hr
      obtain ⟨d, r⟩ := z
      cases r with
      | blocked => exact hr
      | raised e => exact (stepHandler_gv d e).trans hr
      | ret b =>
        dsimp only
        have hp := putRead_gv o d x (d.xact.getD x)
        generalize putRead o d x (d.xact.getD x) = z at hp
        obtain ⟨d', r⟩ := z
        cases r with
        | blocked => exact hp.trans hr
        | raised e => exact (stepHandler_gv d' e).trans (hp.trans hr)
        | ret u => cases u; exact (stepEnd_gv o _).trans (hp.trans hr)

/-- Everything handed to the garbage lists is closed or still in the lists, in order. -/
def G (c : Conn X) : Prop :=
  c.trashedCursors = portalsClosed c.closings.flatten ++ c.garbageCursors ∧
  c.trashedStatements = statementsClosed c.closings.flatten ++ c.garbageStatements

theorem G_congr {c d : Conn X} (h : gv c = gv d) : G c → G d := by
  have h1 : c.garbageCursors = d.garbageCursors := (congrArg (·.1) h :)
  have h2 : c.garbageStatements = d.garbageStatements := (congrArg (·.2.1) h :)
  have h3 : c.trashedCursors = d.trashedCursors := (congrArg (·.2.2.1) h :)
  have h4 : c.trashedStatements = d.trashedStatements := (congrArg (·.2.2.2.1) h :)
  have h5 : c.closings = d.closings := (congrArg (·.2.2.2.2) h :)
  unfold G
  rw [h1, h2, h3, h4, h5]
  exact id

theorem iterate_spec : ∀ (fs : List (List Bytes)) (g : List Bytes) (i : Nat), i ≤ g.length →
    ∃ a, (iterate g i fs).2 = g ++ a ∧ (iterate g i fs).1 = (g ++ a).drop i := by
  intro fs
  induction fs with
  | nil => intro g i _; exact ⟨[], by simp [iterate], by simp [iterate]⟩
  | cons f fs ih =>
    intro g i hi
    unfold iterate
    cases h : (g ++ f)[i]? with
    | none =>
      refine ⟨f, rfl, ?_⟩
      have := List.getElem?_eq_none_iff.1 h
      exact (List.drop_eq_nil_of_le this).symm
    | some x =>
      have hlt := (List.getElem?_eq_some_iff.1 h).1
      obtain ⟨a, h1, h2⟩ := ih (g ++ f) (i + 1) hlt
      dsimp only
      generalize iterate (g ++ f) (i + 1) fs = z at h1 h2
      obtain ⟨l, g'⟩ := z
      dsimp only at h1 h2 ⊢
      refine ⟨f ++ a, by rw [h1, List.append_assoc], ?_⟩
      have hlt' : i < (g ++ f ++ a).length := by simp at hlt ⊢; omega
      have hx : (g ++ f ++ a)[i] = x := by
        rw [List.getElem_append_left hlt]
        exact (List.getElem?_eq_some_iff.1 h).2
      rw [h2, ← List.append_assoc, List.drop_eq_getElem_cons hlt', hx]

theorem portals_append (a b : List Elem) : portalsClosed (a ++ b) = portalsClosed a ++ portalsClosed b := List.filterMap_append
theorem statements_append (a b : List Elem) : statementsClosed (a ++ b) = statementsClosed a ++ statementsClosed b := List.filterMap_append

theorem portals_closing (cs ss : List Bytes) :
    portalsClosed (cs.map (Elem.str .closePortal) ++ ss.map (Elem.str .closeStatement) ++ [.empty .synchronize]) = cs := by
  have h1 : portalsClosed (cs.map (Elem.str .closePortal)) = cs := by
    induction cs with
    | nil => rfl
    | cons c cs ih => exact congrArg (c :: ·) ih
  have h2 : portalsClosed (ss.map (Elem.str .closeStatement)) = [] := by
    induction ss with
    | nil => rfl
    | cons c cs ih => exact ih
  rw [portals_append, portals_append, h1, h2, List.append_nil]
  exact List.append_nil _

theorem statements_closing (cs ss : List Bytes) :
    statementsClosed (cs.map (Elem.str .closePortal) ++ ss.map (Elem.str .closeStatement) ++ [.empty .synchronize]) = ss := by
  have h1 : statementsClosed (cs.map (Elem.str .closePortal)) = [] := by
    induction cs with
    | nil => rfl
    | cons c cs ih => exact ih
  have h2 : statementsClosed (ss.map (Elem.str .closeStatement)) = ss := by
    induction ss with
    | nil => rfl
    | cons c cs ih => exact congrArg (c :: ·) ih
  rw [statements_append, statements_append, h1, h2, List.nil_append]
  exact List.append_nil _

theorem takeOutTrash_G (o : Ops X) (f : Finalizers) (c : Conn X) (h : G c) : G (takeOutTrash o f c) := by
  obtain ⟨a, a1, a2⟩ := iterate_spec f.cursors c.garbageCursors 0 (Nat.zero_le _)
  obtain ⟨b, b1, b2⟩ := iterate_spec f.statements c.garbageStatements 0 (Nat.zero_le _)
  unfold takeOutTrash
  generalize iterate c.garbageCursors 0 f.cursors = z at a1 a2
  obtain ⟨cs, gc⟩ := z
  generalize iterate c.garbageStatements 0 f.statements = z at b1 b2
  obtain ⟨ss, gs⟩ := z
  dsimp only at a1 a2 b1 b2 ⊢
  rw [List.drop_zero] at a2 b2
  subst a1 a2 b1 b2
  unfold G
  dsimp only
  have hp : ∀ a b, portalsClosed (a ++ b) = portalsClosed a ++ portalsClosed b := fun a b => List.filterMap_append
  have hs : ∀ a b, statementsClosed (a ++ b) = statementsClosed a ++ statementsClosed b := fun a b => List.filterMap_append
  rw [List.flatten_append, hp, hs]
  have e : ∀ l : List Elem, [l].flatten = l := fun l => by simp
  rw [e, portals_closing, statements_closing, h.1, h.2]
  constructor
  · rw [List.append_assoc (c.garbageCursors), List.drop_append, List.drop_length, Nat.sub_self, List.drop_zero, List.nil_append,
      ← List.append_assoc c.garbageCursors, List.drop_append, List.drop_length, Nat.sub_self, List.drop_zero, List.nil_append]
    simp
  · rw [List.append_assoc (c.garbageStatements), List.drop_append, List.drop_length, Nat.sub_self, List.drop_zero, List.nil_append,
      ← List.append_assoc c.garbageStatements, List.drop_append, List.drop_length, Nat.sub_self, List.drop_zero, List.nil_append]
    simp

theorem push_G (o : Ops X) (f : Finalizers) (n : Nat) (c : Conn X) (x : X) (h : G c) : G (push o f n c x).1 := by
  unfold push
  split
  · exact h
  · have h1 : G (if c.xact.isSome then complete o n c else (c, .ret ())).1 := by
      split
      · exact G_congr (complete_gv o n c).symm h
      · exact h
    generalize (if c.xact.isSome then complete o n c else (c, .ret ())) = z at h1
    obtain ⟨d, r⟩ := z
    cases r with
    | raised e => exact h1
    | blocked => exact h1
    | ret u =>
      cases u
      dsimp only at h1 ⊢
      split
      · exact h1
      · have h2 : G (if d.garbageStatements ≠ [] ∨ d.garbageCursors ≠ [] then complete o n (takeOutTrash o f d) else (d, .ret ())).1 := by
          split
          · exact G_congr (complete_gv o n _).symm (takeOutTrash_G o f d h1)
          · exact h1
        generalize (if d.garbageStatements ≠ [] ∨ d.garbageCursors ≠ [] then complete o n (takeOutTrash o f d) else (d, .ret ())) = z at h2
        obtain ⟨d', r⟩ := z
        cases r with
        | raised e => exact h2
        | blocked => exact h2
        | ret u =>
          cases u
          dsimp only at h2 ⊢
          split
          · exact h2
          · exact G_congr (step_gv o _).symm (G_congr (c := d') rfl h2)

theorem apply_G (o : Ops X) (c : Conn X) (op : Op X) (h : G c) : G (apply o c op) := by
  cases op with
  | sock s r => exact G_congr (c := c) rfl h
  | give x =>
    unfold apply
    dsimp only
    split
    · split
      · exact G_congr (c := c) rfl h
      · exact h
    · exact h
  | push f n x => exact push_G o f n c x h
  | step => exact G_congr (step_gv o c).symm h
  | complete n => exact G_congr (complete_gv o n c).symm h
  | synchronize n =>
    unfold apply synchronize
    dsimp only
    have h1 : G (if c.xact.isSome then complete o n c else (c, .ret ())).1 := by
      split
      · exact G_congr (complete_gv o n c).symm h
      · exact h
    generalize (if c.xact.isSome then complete o n c else (c, .ret ())) = z at h1
    obtain ⟨d, r⟩ := z
    cases r with
    | raised e => exact h1
    | blocked => exact h1
    | ret u => cases u; exact G_congr (complete_gv o n _).symm (G_congr (c := d) rfl h1)
  | trashCursor i => exact ⟨by show c.trashedCursors ++ [i] = _ ++ (c.garbageCursors ++ [i]); rw [h.1, List.append_assoc]; rfl, h.2⟩
  | trashStatement i => exact ⟨h.1, by show c.trashedStatements ++ [i] = _ ++ (c.garbageStatements ++ [i]); rw [h.2, List.append_assoc]; rfl⟩

theorem run_G (o : Ops X) (x : X) (ops : List (Op X)) : G (run o x ops) := by
  have : ∀ (ops : List (Op X)) (c : Conn X), G c → G (ops.foldl (apply o) c) := by
    intro ops
    induction ops with
    | nil => intro c h; exact h
    | cons op ops ih => intro c h; exact ih _ (apply_G o c op h)
  exact this ops _ ⟨rfl, rfl⟩

/-! ## One instruction -/

theorem putAs_messages (st : XState) (s : Inst) (b : Batch) : (putAs st s b).1.messages = s.messages := by
  have hstd : ∀ s : Inst, (standardPut s b).1.messages = s.messages := by
    intro s
    unfold standardPut
    have h0 : (startLoop s b).1.messages = s.messages := by
      unfold startLoop
      dsimp only
      split
      · split <;> rfl
      · split
        · split <;> rfl
        · split <;> rfl
    generalize startLoop s b = z at h0
    obtain ⟨s1, r⟩ := z
    cases r with
    | error e => exact h0
    | ok l =>
      dsimp only at h0 ⊢
      have h1 : (loop s1 l b.msgs).1.messages = s1.messages := by
        exact (congrArg (·.messages) (loop_frame0 b.msgs s1 l).1 :)
      generalize loop s1 l b.msgs = z at h1
      obtain ⟨s2, r⟩ := z
      cases r with
      | error e => exact h1.trans h0
      | ok d =>
        obtain ⟨ea, l'⟩ := d
        cases ea with
        | true => exact h1.trans h0
        | false =>
          dsimp only at h1 ⊢
          refine Eq.trans ?_ (h1.trans h0)
          unfold finish switchState
          dsimp only
          split
          · rfl
          · split
            · split <;> rfl
            · rfl
  unfold putAs
  split
  · exact hstd s
  · unfold putCopydata
    split
    · rfl
    · dsimp only
      split
      · exact hstd _
      · rfl
  · unfold putTupledata
    split
    · rfl
    · split
      · exact hstd _
      · split
        · rfl
        · split
          · exact hstd _
          · rfl
  · rfl

end PG.Client3

namespace PG.Client3
open PG PG.Element3 PG.Xact3 PG.Spec.Client PG.Spec

theorem squeezeFrom_append : ∀ (a b : List Obj) (p : Option OId),
    squeezeFrom p (a ++ b) = squeezeFrom p a ++ squeezeFrom (lastId p (squeezeFrom p a)) b
  | [], b, p => rfl
  | x :: a, b, p => by
    show (if p = some x.id then squeezeFrom p (a ++ b) else x :: squeezeFrom (some x.id) (a ++ b)) = _
    by_cases hp : p = some x.id
    · rw [if_pos hp, squeezeFrom_append a b p]
      have : squeezeFrom p (x :: a) = squeezeFrom p a := if_pos hp
      rw [this]
    · rw [if_neg hp, squeezeFrom_append a b]
      have : squeezeFrom p (x :: a) = x :: squeezeFrom (some x.id) a := if_neg hp
      rw [this, lastId_cons]
      rfl

theorem squeezeFrom_replicate (m : Obj) : ∀ k, squeezeFrom (some m.id) (List.replicate k m) = []
  | 0 => rfl
  | k + 1 => by
    show (if some m.id = some m.id then _ else _) = _
    rw [if_pos rfl]
    exact squeezeFrom_replicate m k

theorem squeezeFrom_sub (p : Option OId) (l : List Obj) : ∀ x ∈ squeezeFrom p l, x ∈ l := by
  induction l generalizing p with
  | nil => intro x h; exact h
  | cons a l ih =>
    intro x h
    unfold squeezeFrom at h
    split at h
    · exact List.mem_cons_of_mem _ (ih _ x h)
    · rcases List.mem_cons.1 h with rfl | h
      · exact List.mem_cons_self
      · exact List.mem_cons_of_mem _ (ih _ x h)

theorem squeeze_once (l rest : List Obj) (m : Obj) (k : Nat) (hl : ∀ x ∈ l, x.id ≠ m.id) :
    squeeze (l ++ List.replicate (k + 1) m ++ rest) = squeeze l ++ [m] ++ squeezeFrom (some m.id) rest := by
  have hne : lastId none (squeeze l) ≠ some m.id := by
    unfold lastId
    rw [Option.or_none]
    cases hg : (squeeze l).getLast? with
    | none => simp
    | some z =>
      intro e
      exact hl z (squeezeFrom_sub none l z (List.mem_of_getLast? hg)) (Option.some.inj e)
  unfold squeeze at *
  rw [squeezeFrom_append, squeezeFrom_append]
  have h1 : squeezeFrom (lastId none (squeezeFrom none l)) (List.replicate (k + 1) m) = [m] := by
    show (if lastId none (squeezeFrom none l) = some m.id then _ else _) = _
    rw [if_neg hne, squeezeFrom_replicate]
  rw [h1]
  have h2 : lastId none (squeezeFrom none l ++ [m]) = some m.id := by
    unfold lastId
    simp
  rw [h2]

/-- The transaction was marked as failed. -/
def Failed (x : IX) : Prop := x.inst.state = .complete ∧ x.inst.fatal = some true

/-- What holds while `complete()` drives an instruction: its commands are written in a run of identical calls, then never
again. -/
def P (n : Nat) (cmds : List Elem) (l : List Obj) (c : Conn IX) : Prop :=
  ∃ x, c.xact = some x ∧ x.oid = n ∧ x.inst.commands = cmds ∧
  ∃ k rest, c.log = l ++ List.replicate k ⟨.commands n, cmds.map .msg⟩ ++ rest ∧ (∀ r ∈ rest, r.id ≠ .commands n) ∧
    (x.inst.messages = .commands → rest = [] ∧ (x.inst.state = .sending .standardSent ∨ Failed x)) ∧
    (x.inst.messages ≠ .commands → 0 < k)

theorem putAs_commands (st : XState) (s : Inst) (b : Batch) : (putAs st s b).1.commands = s.commands := by
  have hstd : ∀ s : Inst, (standardPut s b).1.commands = s.commands := by
    intro s
    unfold standardPut
    have h0 : (startLoop s b).1.commands = s.commands := by
      unfold startLoop
      dsimp only
      split
      · split <;> rfl
      · split
        · split <;> rfl
        · split <;> rfl
    generalize startLoop s b = z at h0
    obtain ⟨s1, r⟩ := z
    cases r with
    | error e => exact h0
    | ok l =>
      dsimp only at h0 ⊢
      have h1 : (loop s1 l b.msgs).1.commands = s1.commands := (congrArg (·.commands) (loop_frame0 b.msgs s1 l).1 :)
      generalize loop s1 l b.msgs = z at h1
      obtain ⟨s2, r⟩ := z
      cases r with
      | error e => exact h1.trans h0
      | ok d =>
        obtain ⟨ea, l'⟩ := d
        cases ea with
        | true => exact h1.trans h0
        | false =>
          dsimp only at h1 ⊢
          refine Eq.trans ?_ (h1.trans h0)
          unfold finish switchState
          dsimp only
          split
          · rfl
          · split
            · split <;> rfl
            · rfl
  unfold putAs
  split
  · exact hstd s
  · unfold putCopydata
    split
    · rfl
    · dsimp only
      split
      · exact hstd _
      · rfl
  · unfold putTupledata
    split
    · rfl
    · split
      · exact hstd _
      · split
        · rfl
        · split
          · exact hstd _
          · rfl
  · rfl

theorem P_fail {n : Nat} {cmds : List Elem} {l : List Obj} {c : Conn IX} (h : P n cmds l c) : P n cmds l (failXact instOps c) := by
  obtain ⟨x, hx, ho, hc, k, rest, h1, h2, h3, h4⟩ := h
  refine ⟨instOps.fail x, ?_, ho, hc, k, rest, h1, h2, fun hm => ⟨(h3 hm).1, .inr ⟨rfl, rfl⟩⟩, h4⟩
  unfold failXact
  dsimp only
  rw [hx]
  rfl

theorem P_handler {n : Nat} {cmds : List Elem} {l : List Obj} {c : Conn IX} (e : CErr) (h : P n cmds l c) : P n cmds l (handler instOps c e).1 := by
  cases e with
  | py e => exact P_fail h
  | sock k => cases k <;> first | exact h | exact P_fail h

theorem completePass_P {n : Nat} {cmds : List Elem} {l : List Obj} (c : Conn IX) (x : IX) (hx : c.xact = some x) (hi : I c) (h : P n cmds l c) :
    P n cmds l (completePass instOps c x).1 := by
  have h0 := h
  obtain ⟨x', hx', ho, hc, k, rest, h1, h2, h3, h4⟩ := h
  rw [hx] at hx'
  cases hx'
  unfold completePass
  cases hd : instOps.dir x with
  | complete => exact h0
  | receiving =>
    dsimp only
    have hm : x.inst.messages ≠ .commands := by
      intro hm
      have hd' : dirOf x.inst = .receiving := hd
      unfold dirOf at hd'
      rcases (h3 hm).2 with e | ⟨e, _⟩ <;> rw [e] at hd' <;> cases hd'
    obtain ⟨_, hwv, _, _, t, f, e, bl⟩ := readMessages_spec instOps c hi.2
    generalize readMessages instOps c = z at hwv t f e bl
    obtain ⟨d, r⟩ := z
    have hlog : d.log = c.log := (congrArg (·.2.2.2.2) hwv :)
    dsimp only at t f e bl
    have same : d.xact = c.xact → P n cmds l d := fun he =>
      ⟨x, he.trans hx, ho, hc, k, rest, hlog.trans h1, h2, h3, h4⟩
    have fail : d.xact = c.xact.map instOps.fail → P n cmds l d := fun he =>
      ⟨instOps.fail x, he.trans (by rw [hx]; rfl), ho, hc, k, rest, hlog.trans h1, h2, fun hm' => absurd hm' hm, h4⟩
    cases r with
    | blocked => exact same (bl rfl)
    | raised e' =>
      rcases e e' rfl with h | h
      · exact P_handler e' (same h)
      · exact P_handler e' (fail h)
    | ret b =>
      cases b with
      | false => exact fail (f rfl).1
      | true =>
        have hdx : d.xact = some x := (t rfl).1.trans hx
        have hput : ∃ y, (putRead instOps d x x).1.xact = some y ∧ y.oid = x.oid ∧ y.inst.commands = x.inst.commands ∧
            y.inst.messages = x.inst.messages ∧ (putRead instOps d x x).1.log = d.log := by
          unfold putRead
          have e1 : instOps.put x x d.read = ({ x with inst := (putAs x.inst.state x.inst d.read).1 }, (putAs x.inst.state x.inst d.read).2) := rfl
          rw [e1]
          have a := putAs_commands x.inst.state x.inst d.read
          have b := putAs_messages x.inst.state x.inst d.read
          generalize putAs x.inst.state x.inst d.read = z at a b
          obtain ⟨i, r⟩ := z
          cases r <;> exact ⟨_, rfl, rfl, a, b, rfl⟩
        dsimp only
        obtain ⟨y, y1, y2, y3, y4, y5⟩ := hput
        have hp : P n cmds l (putRead instOps d x x).1 :=
          ⟨y, y1, y2.trans ho, y3.trans hc, k, rest, y5.trans (hlog.trans h1), h2, fun hm' => absurd (y4.symm.trans hm') hm,
            fun _ => h4 hm⟩
        generalize putRead instOps d x x = z at hp
        obtain ⟨d', r⟩ := z
        cases r with
        | blocked => exact hp
        | raised e => exact P_handler e hp
        | ret u => cases u; exact hp
  | sending =>
    dsimp only
    obtain ⟨_, hl, _, t, f, e⟩ := writeMessages_W instOps c (instOps.messages x) hi.1
    generalize writeMessages instOps c (instOps.messages x) = z at hl t f e
    obtain ⟨d, r⟩ := z
    dsimp only at hl t f e
    have hlog : ∃ k' rest', d.log = l ++ List.replicate k' ⟨.commands n, cmds.map .msg⟩ ++ rest' ∧ (∀ r ∈ rest', r.id ≠ .commands n) ∧
        (x.inst.messages = .commands → rest' = []) ∧ 0 < k' := by
      by_cases hm : x.inst.messages = .commands
      · refine ⟨k + 1, [], ?_, by simp, fun _ => rfl, Nat.succ_pos _⟩
        have hr := (h3 hm).1
        subst hr
        have hobj : instOps.messages x = ⟨.commands n, cmds.map .msg⟩ := by
          show Obj.mk x.oidOf (outItems x.inst) = _
          unfold IX.oidOf outItems
          rw [hm]
          dsimp only
          rw [ho, hc]
        rw [hl, h1, hobj]
        simp [List.replicate_succ']
      · refine ⟨k, rest ++ [instOps.messages x], by rw [hl, h1, List.append_assoc], ?_, fun hm' => absurd hm' hm, h4 hm⟩
        intro r hr
        rcases List.mem_append.1 hr with hr | hr
        · exact h2 r hr
        · cases List.mem_singleton.1 hr
          show x.oidOf ≠ _
          unfold IX.oidOf
          cases hmm : x.inst.messages with
          | commands => exact absurd hmm hm
          | _ => simp
    obtain ⟨k', rest', l1, l2, l3, l4⟩ := hlog
    have same : d.xact = c.xact → P n cmds l d := fun he =>
      ⟨x, he.trans hx, ho, hc, k', rest', l1, l2, fun hm => ⟨l3 hm, (h3 hm).2⟩, fun _ => l4⟩
    cases r with
    | blocked => exact same (e (by simp))
    | raised e' => exact P_handler e' (same (e (by simp)))
    | ret b =>
      cases b with
      | false =>
        exact ⟨instOps.fail x, (f rfl).trans (by rw [hx]; rfl), ho, hc, k', rest', l1, l2, fun hm => ⟨l3 hm, .inr ⟨rfl, rfl⟩⟩, fun _ => l4⟩
      | true =>
        refine ⟨instOps.sent x x, rfl, ho, ?_, k', rest', l1, l2, fun hm => ?_, fun _ => l4⟩
        · show (sentAs x.inst.state x.inst).commands = cmds
          unfold sentAs
          split
          · exact hc
          · split <;> exact hc
          · exact hc
        · exfalso
          have hd' : dirOf x.inst = .sending := hd
          have hm' : (sentAs x.inst.state x.inst).messages = .commands := hm
          unfold sentAs at hm'
          unfold dirOf at hd'
          split at hm'
          · cases hm'
          · split at hm' <;> cases hm'
          · rename_i e1 e2
            split at hd'
            · rename_i op hop
              cases op
              · exact e1 hop
              · exact e2 hop
            · cases hd'
            · cases hd'

theorem instOps_lawful : Lawful instOps := ⟨fun _ => rfl, fun _ => rfl⟩

theorem complete_once {n : Nat} {cmds : List Elem} {l : List Obj} : ∀ (m : Nat) (c d : Conn IX), I c → P n cmds l c →
    complete instOps m c = (d, .ret ()) → d.xact = none →
    ∃ k rest, d.log = l ++ List.replicate (k + 1) ⟨.commands n, cmds.map .msg⟩ ++ rest ∧ ∀ r ∈ rest, r.id ≠ .commands n
  | 0, c, d, _, _, h, _ => by cases h
  | m + 1, c, d, hi, hp, h, hn => by
    unfold complete at h
    cases hx : c.xact with
    | none => rw [hx] at h; cases h
    | some x =>
      rw [hx] at h
      dsimp only at h
      have hpi := completePass_I instOps c x hi
      have hpp := completePass_P c x hx hi hp
      have hdn := completePass_done instOps_lawful c (completePass instOps c x).1 x hx
      generalize hz : completePass instOps c x = z at h hpi hpp hdn
      obtain ⟨d1, r⟩ := z
      cases r with
      | again => exact complete_once m d1 d hpi hpp h hn
      | raised e => cases h
      | blocked => cases h
      | done =>
        have hdir := hdn rfl
        dsimp only at h hpp hdir
        have : d = settle instOps d1 := by cases h; rfl
        subst this
        obtain ⟨y, hy, _, _, k, rest, h1, h2, h3, h4⟩ := hpp
        unfold settle at hn ⊢
        rw [hy] at hn ⊢
        dsimp only at hn ⊢
        split at hn
        · rw [hy] at hn; cases hn
        · rename_i hf
          rw [if_neg hf]
          have hm : y.inst.messages ≠ .commands := by
            intro hm
            rcases (h3 hm).2 with e | ⟨_, e⟩
            · have := hdir y hy
              have hd' : dirOf y.inst = .complete := this
              unfold dirOf at hd'
              rw [e] at hd'
              cases hd'
            · apply hf
              show (y.inst.fatal == some true) = true
              rw [e]; rfl
          obtain ⟨k', rfl⟩ := Nat.exists_eq_succ_of_ne_zero (Nat.pos_iff_ne_zero.1 (h4 hm))
          exact ⟨k', rest, h1, h2⟩

end PG.Client3
