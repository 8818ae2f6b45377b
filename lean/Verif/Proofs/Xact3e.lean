import Verif.Proofs.Xact3d
import Verif.Spec.Interrupt
/-!
# Delivering a batch again after an interruption
-/
namespace PG.Xact3
open PG PG.Element3 PG.Spec.Xact

/-- A field of two runs: changed alike, or left alone in both. -/
def Eq2 {α} (a a' b b' : α) : Prop := a' = b' ∨ (a' = a ∧ b' = b)

theorem Eq2.trans {α} {a a1 a2 b b1 b2 : α} (h : Eq2 a a1 b b1) (k : Eq2 a1 a2 b1 b2) : Eq2 a a2 b b2 := by
  rcases k with k | ⟨k1, k2⟩
  · exact .inl k
  · rcases h with h | ⟨h1, h2⟩
    · exact .inl (by rw [k1, k2, h])
    · exact .inr ⟨by rw [k1, h1], by rw [k2, h2]⟩

theorem Eq2.rfl' {α} {a b : α} : Eq2 a a b b := .inr ⟨rfl, rfl⟩
theorem Eq2.eq {α} {a a' b b' : α} (h : Eq2 a a' b b') (e : a = b) : a' = b' := by
  rcases h with h | ⟨h1, h2⟩
  · exact h
  · rw [h1, h2, e]

/-- Three fields of two runs. -/
structure Two (s s' t t' : Inst) : Prop where
  fatal : Eq2 s.fatal s'.fatal t.fatal t'.fatal
  error : Eq2 s.errorMessage s'.errorMessage t.errorMessage t'.errorMessage
  ready : Eq2 s.lastReady s'.lastReady t.lastReady t'.lastReady

theorem Two.trans {s s1 s2 t t1 t2 : Inst} (h : Two s s1 t t1) (k : Two s1 s2 t1 t2) : Two s s2 t t2 :=
  ⟨h.fatal.trans k.fatal, h.error.trans k.error, h.ready.trans k.ready⟩

theorem Two.rfl' {s t : Inst} : Two s s t t := ⟨.rfl', .rfl', .rfl'⟩

theorem setReady_two (s t : Inst) (rd) : Two s (setReady s rd) t (setReady t rd) := by
  cases rd
  · exact .rfl'
  · exact ⟨.rfl', .rfl', .inl rfl⟩

/-- Two runs over the same messages from the same position. -/
theorem loop_two : ∀ (ms : List Msg) (s t : Inst) (l : Loc), s.commands = t.commands → AsyncsOk s → AsyncsOk t →
    (loop s l ms).2 = (loop t l ms).2 ∧ Two s (loop s l ms).1 t (loop t l ms).1 ∧
    AsyncsOk (loop s l ms).1 ∧ AsyncsOk (loop t l ms).1
  | [], s, t, l, _, hs, ht => ⟨rfl, .rfl', hs, ht⟩
  | x :: xs, s, t, l, hc, hs, ht => by
    have hreq : react t.commands l.offset l.step l.cmd l.paths x = react s.commands l.offset l.step l.cmd l.paths x := by rw [hc]
    rw [loop_cons, loop_cons, hreq]
    cases hr : react s.commands l.offset l.step l.cmd l.paths x with
    | error e => exact ⟨rfl, .rfl', hs, ht⟩
    | ok r =>
      cases r with
      | violation ex => exact ⟨rfl, ⟨.inl rfl, .inl rfl, .rfl'⟩, hs, ht⟩
      | fatal em => exact ⟨rfl, ⟨.inl rfl, .inl rfl, .rfl'⟩, hs, ht⟩
      | lost em => exact ⟨rfl, ⟨.inl rfl, .inl rfl, .rfl'⟩, hs, ht⟩
      | skip em o c p =>
        dsimp only
        obtain ⟨a, b, d, e⟩ := loop_two xs { s with fatal := some false, errorMessage := some (.server em) }
          { t with fatal := some false, errorMessage := some (.server em) }
          { l with count := l.count + 1, offset := o, cmd := c, paths := p, step := 0 } hc hs ht
        exact ⟨a, Two.trans (s1 := { s with fatal := some false, errorMessage := some (.server em) })
          (t1 := { t with fatal := some false, errorMessage := some (.server em) }) ⟨.inl rfl, .inl rfl, .rfl'⟩ b, d, e⟩
      | async k =>
        dsimp only
        have hk := react_async_kind hr
        obtain ⟨e1, o1⟩ := handleAsync_ok hk hs
        obtain ⟨e2, o2⟩ := handleAsync_ok hk ht
        cases ha : handleAsync s k x with
        | error e =>
          rw [(e2 e).mpr ((e1 e).mp ha)]
          exact ⟨rfl, .rfl', hs, ht⟩
        | ok s' =>
          cases hb : handleAsync t k x with
          | error e => rw [(e1 e).mpr ((e2 e).mp hb)] at ha; cases ha
          | ok t' =>
            dsimp only
            obtain ⟨p1, p2, p3, p4, p5⟩ := o1 s' ha
            obtain ⟨q1, q2, q3, q4, q5⟩ := o2 t' hb
            obtain ⟨a, b, d, e⟩ := loop_two xs s' t' { l with count := l.count + 1 } (by rw [p2, q2, hc]) p1 q1
            exact ⟨a, Two.trans ⟨.inr ⟨p3, q3⟩, .inr ⟨p4, q4⟩, .inr ⟨p5, q5⟩⟩ b, d, e⟩
      | take r n =>
        dsimp only
        exact loop_two xs s t { l with count := l.count + 1, processed := l.processed ++ [r], step := n } hc hs ht
      | next r rd o c p =>
        dsimp only
        have hh : ∀ (u : Inst), AsyncsOk u → AsyncsOk (setReady u rd) := fun u hu => by cases rd <;> exact hu
        obtain ⟨a, b, d, e⟩ := loop_two xs (setReady s rd) (setReady t rd)
          { l with count := l.count + 1, processed := l.processed ++ [r], step := 0, offset := o, cmd := c, paths := some p }
          (by cases rd <;> exact hc) (hh _ hs) (hh _ ht)
        exact ⟨a, (setReady_two s t rd).trans b, d, e⟩
      | last r rd o =>
        have hh : ∀ (u : Inst), AsyncsOk u → AsyncsOk (setReady u rd) := fun u hu => by cases rd <;> exact hu
        exact ⟨rfl, setReady_two s t rd, hh _ hs, hh _ ht⟩

theorem handleAsync_mem {s s' : Inst} {k x} (h : handleAsync s k x = .ok s') :
    x ∈ s'.asyncs ∧ ∀ y ∈ s.asyncs, y ∈ s'.asyncs := by
  unfold handleAsync at h
  split at h
  · rename_i hx; cases h; exact ⟨hx, fun _ h => h⟩
  · split at h
    · cases h; exact ⟨by simp, fun y hy => by simp [hy]⟩
    · cases h

/-- The record of asynchronous messages only grows. -/
theorem loop_asyncs : ∀ (ms : List Msg) (s : Inst) (l : Loc), ∀ y ∈ s.asyncs, y ∈ (loop s l ms).1.asyncs
  | [], s, l, y, hy => hy
  | x :: xs, s, l, y, hy => by
    rw [loop_cons]
    cases hr : react s.commands l.offset l.step l.cmd l.paths x with
    | error e => exact hy
    | ok r =>
      cases r with
      | violation ex => exact hy
      | fatal em => exact hy
      | lost em => exact hy
      | skip em o c p => exact loop_asyncs xs { s with fatal := some false, errorMessage := some (.server em) } _ y hy
      | async k =>
        dsimp only
        cases ha : handleAsync s k x with
        | error e => exact hy
        | ok s' => exact loop_asyncs xs s' _ y ((handleAsync_mem ha).2 y hy)
      | take r n => exact loop_asyncs xs s _ y hy
      | next r rd o c p => exact loop_asyncs xs (setReady s rd) _ y (by cases rd <;> exact hy)
      | last r rd o => cases rd <;> exact hy

/-- A second run with the record of the first calls no hook. -/
theorem loop_quiet : ∀ (ms : List Msg) (s t : Inst) (l : Loc), s.commands = t.commands →
    (∃ d, (loop s l ms).2 = .ok d) → (∀ y ∈ (loop s l ms).1.asyncs, y ∈ t.asyncs) →
    (loop t l ms).1.hookCalls = t.hookCalls
  | [], s, t, l, _, _, _ => rfl
  | x :: xs, s, t, l, hc, hok, hsub => by
    have hreq : react t.commands l.offset l.step l.cmd l.paths x = react s.commands l.offset l.step l.cmd l.paths x := by rw [hc]
    rw [loop_cons] at hok hsub ⊢
    rw [hreq]
    cases hr : react s.commands l.offset l.step l.cmd l.paths x with
    | error e => rfl
    | ok r =>
      rw [hr] at hok hsub
      cases r with
      | violation ex => rfl
      | fatal em => rfl
      | lost em => rfl
      | skip em o c p =>
        exact loop_quiet xs { s with fatal := some false, errorMessage := some (.server em) }
          { t with fatal := some false, errorMessage := some (.server em) } _ hc hok hsub
      | async k =>
        dsimp only at hok hsub ⊢
        cases ha : handleAsync s k x with
        | error e => rw [ha] at hok; obtain ⟨d, hd⟩ := hok; cases hd
        | ok s' =>
          rw [ha] at hok hsub
          dsimp only at hok hsub
          have hx : x ∈ t.asyncs := hsub x (loop_asyncs xs s' _ x (handleAsync_mem ha).1)
          have : handleAsync t k x = .ok t := by unfold handleAsync; rw [if_pos hx]
          rw [this]
          have hf := (frame0_fields (handleAsync_frame ha).1).1
          exact loop_quiet xs s' t _ (by rw [hf, hc]) hok hsub
      | take r n => exact loop_quiet xs s t _ hc hok hsub
      | next r rd o c p =>
        have := loop_quiet xs (setReady s rd) (setReady t rd)
          { l with count := l.count + 1, processed := l.processed ++ [r], step := 0, offset := o, cmd := c, paths := some p }
          (by cases rd <;> exact hc) hok (by cases rd <;> exact hsub)
        exact this.trans (by cases rd <;> rfl)
      | last r rd o => cases rd <;> rfl


/-- The fields that errors and ready messages set. -/
def Same (s t : Inst) : Prop := s.fatal = t.fatal ∧ s.errorMessage = t.errorMessage ∧ s.lastReady = t.lastReady

theorem Two.same {s s' t t' : Inst} (h : Two s s' t t') (e : Same s t) : Same s' t' :=
  ⟨h.fatal.eq e.1, h.error.eq e.2.1, h.ready.eq e.2.2⟩

/-- Starting again with the fields left by a first, interrupted run. -/
theorem again_prefix {m1 : List Msg} {s0 t0 s1 : Inst} {l l1 : Loc} (h : loop s0 l m1 = (s1, .ok ⟨false, l1⟩))
    (hc : s0.commands = t0.commands) (hs : AsyncsOk s0) (ht : AsyncsOk t0) :
    ∃ t1, loop t0 l m1 = (t1, .ok ⟨false, l1⟩) ∧ Eq2 t0.fatal t1.fatal s1.fatal s1.fatal ∧
      Eq2 t0.errorMessage t1.errorMessage s1.errorMessage s1.errorMessage ∧
      Eq2 t0.lastReady t1.lastReady s1.lastReady s1.lastReady ∧ AsyncsOk s1 ∧ AsyncsOk t1 ∧ s1.commands = t1.commands := by
  obtain ⟨a, b, d, e⟩ := loop_two m1 s0 t0 l hc hs ht
  have f1 := (frame0_fields (loop_frame0 m1 s0 l).1).1
  have f2 := (frame0_fields (loop_frame0 m1 t0 l).1).1
  rw [h] at a b d f1
  refine ⟨(loop t0 l m1).1, Prod.ext rfl a.symm, ?_, ?_, ?_, d, e, by rw [f2, ← hc]; exact f1⟩
  · rcases b.fatal with h | ⟨_, h⟩
    · exact .inl h.symm
    · exact .inr ⟨h, rfl⟩
  · rcases b.error with h | ⟨_, h⟩
    · exact .inl h.symm
    · exact .inr ⟨h, rfl⟩
  · rcases b.ready with h | ⟨_, h⟩
    · exact .inl h.symm
    · exact .inr ⟨h, rfl⟩

theorem again {m1 m2 : List Msg} {s0 t0 s1 : Inst} {l l1 : Loc} (h : loop s0 l m1 = (s1, .ok ⟨false, l1⟩))
    (hl : LocOk s0.commands l) (hc : s0.commands = t0.commands) (hs : AsyncsOk s0) (ht : AsyncsOk t0) (he : Same s1 t0) :
    Same (loop s0 l (m1 ++ m2)).1 (loop t0 l (m1 ++ m2)).1 := by
  obtain ⟨t1, ht1, e1, e2, e3, k1, k2, k3⟩ := again_prefix h hc hs ht
  have hst : Same s1 t1 := ⟨(e1.eq he.1.symm).symm, (e2.eq he.2.1.symm).symm, (e3.eq he.2.2.symm).symm⟩
  rw [loop_append _ _ _ _ hl, loop_append _ _ _ _ (hc ▸ hl), h, ht1]
  dsimp only
  rw [← hc]
  split
  · exact hst
  · exact (loop_two m2 s1 t1 l1 k3 k1 k2).2.1.same hst

/-- What `loop` does with an error or a violation does not depend on the error fields. -/
theorem loop_err {s t : Inst} {l : Loc} {x : Msg} {xs : List Msg} (hc : s.commands = t.commands) (hr : s.lastReady = t.lastReady)
    (hs : AsyncsOk s) (ht : AsyncsOk t)
    (h : (∃ ex, react s.commands l.offset l.step l.cmd l.paths x = .ok (.violation ex)) ∨
       (∃ em, react s.commands l.offset l.step l.cmd l.paths x = .ok (.fatal em)) ∨
       (∃ em, react s.commands l.offset l.step l.cmd l.paths x = .ok (.lost em)) ∨
       (∃ em o c p, react s.commands l.offset l.step l.cmd l.paths x = .ok (.skip em o c p))) :
    Same (loop s l (x :: xs)).1 (loop t l (x :: xs)).1 := by
  rw [loop_cons, loop_cons]
  have hreq : react t.commands l.offset l.step l.cmd l.paths x = react s.commands l.offset l.step l.cmd l.paths x := by rw [hc]
  rw [hreq]
  rcases h with ⟨ex, h⟩ | ⟨em, h⟩ | ⟨em, h⟩ | ⟨em, o, c, p, h⟩
  · rw [h]; exact ⟨rfl, rfl, hr⟩
  · rw [h]; exact ⟨rfl, rfl, hr⟩
  · rw [h]; exact ⟨rfl, rfl, hr⟩
  · rw [h]
    exact (loop_two xs { s with fatal := some false, errorMessage := some (.server em) }
      { t with fatal := some false, errorMessage := some (.server em) } _ hc hs ht).2.1.same ⟨rfl, rfl, hr⟩

theorem again_err {m1 m2 : List Msg} {x : Msg} {s0 t0 s1 : Inst} {l l1 : Loc} (h : loop s0 l m1 = (s1, .ok ⟨false, l1⟩))
    (hl : LocOk s0.commands l) (hc : s0.commands = t0.commands) (hs : AsyncsOk s0) (ht : AsyncsOk t0)
    (he : s1.lastReady = t0.lastReady)
    (hx : (∃ ex, react s1.commands l1.offset l1.step l1.cmd l1.paths x = .ok (.violation ex)) ∨
       (∃ em, react s1.commands l1.offset l1.step l1.cmd l1.paths x = .ok (.fatal em)) ∨
       (∃ em, react s1.commands l1.offset l1.step l1.cmd l1.paths x = .ok (.lost em)) ∨
       (∃ em o c p, react s1.commands l1.offset l1.step l1.cmd l1.paths x = .ok (.skip em o c p)))
    (hne : l1.offset ≠ s0.commands.length) :
    Same (loop s0 l (m1 ++ x :: m2)).1 (loop t0 l (m1 ++ x :: m2)).1 := by
  obtain ⟨t1, ht1, e1, e2, e3, k1, k2, k3⟩ := again_prefix h hc hs ht
  rw [loop_append _ _ _ _ hl, loop_append _ _ _ _ (hc ▸ hl), h, ht1]
  dsimp only
  rw [← hc, if_neg hne, if_neg hne]
  exact loop_err k3 (e3.eq he.symm).symm k1 k2 hx

theorem switchState_same {s t : Inst} (l : Loc) (hc : s.commands = t.commands) (hs : s.state = .receiving .standardPut)
    (ht : t.state = .receiving .standardPut) (hk : s.copyTail = t.copyTail) :
    phase (switchState s l) = phase (switchState t l) ∧ (switchState s l).copyTail = (switchState t l).copyTail := by
  unfold switchState
  rw [hc]
  split
  · exact ⟨rfl, hk⟩
  · split
    · split
      · exact ⟨by simp [phase, hs, ht], hk⟩
      · exact ⟨rfl, hk⟩
      · exact ⟨rfl, hk⟩
      · exact ⟨rfl, rfl⟩
      · exact ⟨rfl, hk⟩
      · exact ⟨by simp [phase, hs, ht], hk⟩
    · exact ⟨by simp [phase, hs, ht], hk⟩

/-- Delivering again to a state that starts from the same position with suitable fields. -/
theorem redeliver {s t t0 : Inst} {b : Batch} {l : Loc} (hs : s.state = .receiving .standardPut)
    (hid : b.id ≠ s.lastId) (hfr : ∀ x ∈ s.completed, x.1 ≠ b.id)
    (hst : startAt { s with asyncs := [] } = ({ s with asyncs := [] }, .ok l))
    (ht : startLoop t b = (t0, .ok l)) (hc : t0.commands = s.commands) (hts : t0.state = .receiving .standardPut)
    (ha : AsyncsOk t0) (hk : t0.copyTail = s.copyTail)
    (hsame : Same (loop { s with asyncs := [] } l b.msgs).1 (loop t0 l b.msgs).1)
    (hcomp : t0.completed = s.completed ∨
      ∃ l1, (loop { s with asyncs := [] } l b.msgs).2 = .ok ⟨false, l1⟩ ∧ t0.completed = s.completed ++ [(b.id, l1.processed)]) :
    (standardPut t b).2 = (standardPut s b).2 ∧
    ((∃ n, (standardPut s b).2 = .ok n) → Agree (standardPut s b).1 (standardPut t b).1) := by
  have hsa : AsyncsOk { s with asyncs := [] } := fun x hx => by cases hx
  obtain ⟨g1, g2, g3, g4, g5⟩ := startAt_loc hst
  obtain ⟨a, _, _, _⟩ := loop_two b.msgs { s with asyncs := [] } t0 l hc.symm hsa ha
  obtain ⟨f1, f2, f3⟩ := loop_frame0 b.msgs { s with asyncs := [] } l
  obtain ⟨k1, k2, k3⟩ := loop_frame0 b.msgs t0 l
  unfold standardPut
  rw [startLoop_fresh hid, hst, ht]
  dsimp only
  cases hv : loop { s with asyncs := [] } l b.msgs with
  | mk s1 r =>
    cases hw : loop t0 l b.msgs with
    | mk t1 r' =>
      rw [hv] at a f1 f2 f3 hsame hcomp
      rw [hw] at a k1 k2 k3 hsame
      dsimp only at a f1 f2 f3 k1 k2 k3 hsame hcomp
      subst a
      cases r with
      | error e => exact ⟨rfl, fun ⟨n, h⟩ => by cases h⟩
      | ok d =>
        obtain ⟨ea, l1⟩ := d
        have c1 : s1.commands = s.commands := (frame0_fields f1).1
        have c2 : t1.commands = s.commands := ((frame0_fields k1).1).trans hc
        cases ea with
        | true =>
          dsimp only
          refine ⟨rfl, fun _ => ⟨?_, hsame.1, hsame.2.1, hsame.2.2, fun h => ?_, c1.trans c2.symm⟩⟩
          · rw [phase_complete.mpr (f3 _ rfl), phase_complete.mpr (k3 _ rfl)]
          · have h2 := h (f3 _ rfl)
            have h3 : s1.last2 = s.last2 := (congrArg Inst.last2 f1 :)
            rw [h3, c1] at h2
            have := loc_lt g1
            have g2' : l.offset = s.last2.offset := g2
            have this' : l.offset < s.commands.length := this
            omega
        | false =>
          dsimp only
          have st1 := f2 (fun _ h => by cases h)
          have st2 := k2 (fun _ h => by cases h)
          refine ⟨rfl, fun _ => ?_⟩
          have hcs : s1.completed = s.completed := (congrArg Inst.completed f1 :)
          have hct : t1.completed = t0.completed := (congrArg Inst.completed k1 :)
          have ks : s1.copyTail = s.copyTail := (congrArg Inst.copyTail f1 :)
          have kt : t1.copyTail = t0.copyTail := (congrArg Inst.copyTail k1 :)
          have e1 : pushCompleted s1.completed b.id l1.processed = s.completed ++ [(b.id, l1.processed)] := by
            rw [hcs]; exact pushCompleted_fresh hfr
          have e2 : pushCompleted t1.completed b.id l1.processed = s.completed ++ [(b.id, l1.processed)] := by
            rw [hct]
            rcases hcomp with h | ⟨l2, hl2, h⟩
            · rw [h]; exact pushCompleted_fresh hfr
            · cases hl2
              rw [h]
              unfold pushCompleted
              rw [if_pos (by simp)]
          unfold finish
          dsimp only
          rw [e1, e2]
          obtain ⟨p1, p2⟩ := switchState_same
            (s := { s1 with completed := s.completed ++ [(b.id, l1.processed)], lastId := b.id, last1 := s1.last2, last2 := ⟨l1.offset, l1.step⟩ })
            (t := { t1 with completed := s.completed ++ [(b.id, l1.processed)], lastId := b.id, last1 := t1.last2, last2 := ⟨l1.offset, l1.step⟩ })
            l1 (c1.trans c2.symm) (st1.trans hs) (st2.trans hts) (ks.trans (kt.trans hk).symm)
          obtain ⟨a1, a2, a3, a4, a5, a6, a7, a8, a9, a10, a11⟩ := switchState_carry
            { s1 with completed := s.completed ++ [(b.id, l1.processed)], lastId := b.id, last1 := s1.last2, last2 := ⟨l1.offset, l1.step⟩ } l1
          obtain ⟨b1, b2, b3, b4, b5, b6, b7, b8, b9, b10, b11⟩ := switchState_carry
            { t1 with completed := s.completed ++ [(b.id, l1.processed)], lastId := b.id, last1 := t1.last2, last2 := ⟨l1.offset, l1.step⟩ } l1
          refine ⟨p1, ?_, ?_, ?_, fun _ => ⟨?_, ?_, p2⟩, ?_⟩
          · rw [a3, b3]; exact hsame.1
          · rw [a4, b4]; exact hsame.2.1
          · rw [a5, b5]; exact hsame.2.2
          · rw [a1, b1]
          · unfold messagesReceived; rw [a2, b2]
          · rw [a6, b6]; exact c1.trans c2.symm

/-- After the last command nothing is expected. -/
theorem loop_end : ∀ (ms : List Msg) (s : Inst) (l : Loc) (l' : Loc), LocOk s.commands l →
    (loop s l ms).2 = .ok ⟨false, l'⟩ → l'.offset = s.commands.length → l'.paths = none
  | [], s, l, l', hl, h, he => by
    cases h
    have := loc_lt hl
    omega
  | x :: xs, s, l, l', hl, h, he => by
    rw [loop_cons] at h
    cases hr : react s.commands l.offset l.step l.cmd l.paths x with
    | error e => rw [hr] at h; cases h
    | ok r =>
      rw [hr] at h
      obtain ⟨i, j, k⟩ := react_ok hr
      cases r with
      | violation ex => cases h
      | fatal em => cases h
      | lost em => cases h
      | skip em o c p =>
        exact loop_end xs { s with fatal := some false, errorMessage := some (.server em) }
          { l with count := l.count + 1, offset := o, cmd := c, paths := p, step := 0 } l' (i _ _ _ _ rfl) h he
      | async kk =>
        dsimp only at h
        cases ha : handleAsync s kk x with
        | error e => rw [ha] at h; cases h
        | ok s' =>
          rw [ha] at h
          have hf := (frame0_fields (handleAsync_frame ha).1).1
          exact loop_end xs s' { l with count := l.count + 1 } l' (by rw [hf]; exact hl) h (by rw [hf]; exact he)
      | take r n =>
        exact loop_end xs s { l with count := l.count + 1, processed := l.processed ++ [r], step := n } l' hl h he
      | next r rd o c p =>
        have hf := (frame0_fields (setReady_frame s rd).1).1
        exact loop_end xs (setReady s rd)
          { l with count := l.count + 1, processed := l.processed ++ [r], step := 0, offset := o, cmd := c, paths := some p }
          l' (by rw [hf]; exact j _ _ _ _ _ rfl) h (by rw [hf]; exact he)
      | last r rd o => cases h; rfl

theorem react_paths {cs o st cmd p} {x : Msg} {a} (h : react cs o st cmd p x = .ok a) : p ≠ none := by
  intro e
  subst e
  cases h

/-- The start of a delivery whose batch is not the one recorded last. -/
theorem startLoop_again {t : Inst} {b : Batch} {s : Inst} {l : Loc} (hid : b.id ≠ t.lastId) (hc : t.commands = s.commands)
    (h2 : t.last2 = s.last2) (hst : startAt { s with asyncs := [] } = ({ s with asyncs := [] }, .ok l)) :
    startLoop t b = ({ t with asyncs := [] }, .ok l) := by
  rw [startLoop_fresh hid]
  unfold startAt at hst ⊢
  dsimp only at hst ⊢
  rw [hc, h2]
  split at hst
  · cases hst
  · rename_i c hcc
    split at hst
    · cases hst
    · rename_i p hp
      cases hst
      rfl

/-- The start of a delivery of the batch recorded last. -/
theorem startLoop_same {t : Inst} {b : Batch} {s : Inst} {l : Loc} (hid : b.id = t.lastId) (hc : t.commands = s.commands)
    (h1 : t.last1 = s.last2) (hst : startAt { s with asyncs := [] } = ({ s with asyncs := [] }, .ok l)) :
    startLoop t b = (t, .ok l) := by
  unfold startLoop startPos
  rw [if_pos hid]
  simp only [if_pos hid]
  unfold startAt at hst
  dsimp only at hst
  rw [hc, h1]
  split at hst
  · cases hst
  · rename_i c hcc
    rw [hcc]
    dsimp only
    split at hst
    · cases hst
    · rename_i p hp
      rw [hp]
      cases hst
      rfl

/-- Delivering again after an interruption of `standard_put`. -/
theorem redeliver_std {s t : Inst} {b : Batch} (hs : s.state = .receiving .standardPut)
    (hid : b.id ≠ s.lastId) (hfr : ∀ x ∈ s.completed, x.1 ≠ b.id) (h : StoppedStd s b t) (ht : Receiving t) :
    (standardPut { t with state := .receiving .standardPut } b).2 = (standardPut s b).2 ∧
    ((∃ n, (standardPut s b).2 = .ok n) →
      Agree (standardPut s b).1 (standardPut { t with state := .receiving .standardPut } b).1) ∧
    (t.lastId = b.id → (standardPut { t with state := .receiving .standardPut } b).1.hookCalls = (standardPut s b).1.hookCalls) := by
  have hsa : AsyncsOk { s with asyncs := [] } := fun x hx => by cases hx
  have start : ∀ {s0 l}, startLoop s b = (s0, .ok l) →
      startAt { s with asyncs := [] } = ({ s with asyncs := [] }, .ok l) ∧ s0 = { s with asyncs := [] } := by
    intro s0 l h0
    rw [startLoop_fresh hid] at h0
    have : (startAt { s with asyncs := [] }).1 = { s with asyncs := [] } := by
      unfold startAt
      split
      · rfl
      · split <;> rfl
    rw [h0] at this
    dsimp only at this
    subst this
    exact ⟨h0, rfl⟩
  -- interruptions before `last` is stored
  have before : ∀ {l s1 l1 m1 m2} (t0 : Inst), startAt { s with asyncs := [] } = ({ s with asyncs := [] }, .ok l) →
      b.msgs = m1 ++ m2 → loop { s with asyncs := [] } l m1 = (s1, .ok ⟨false, l1⟩) →
      frame0 t0 = frame0 s1 ∨ (m2 = [] ∧ frame0 t0 = frame0 { s1 with completed := pushCompleted s1.completed b.id l1.processed }) →
      (∀ u : Inst, u.commands = s.commands → AsyncsOk u → u.fatal = t0.fatal → u.errorMessage = t0.errorMessage → u.lastReady = t0.lastReady →
        Same (loop { s with asyncs := [] } l b.msgs).1 (loop u l b.msgs).1) →
      (standardPut { t0 with state := .receiving .standardPut } b).2 = (standardPut s b).2 ∧
      ((∃ n, (standardPut s b).2 = .ok n) →
        Agree (standardPut s b).1 (standardPut { t0 with state := .receiving .standardPut } b).1) ∧ t0.lastId ≠ b.id := by
    intro l s1 l1 m1 m2 t0 hst hm hlp hfrm hsame
    have f1 := (loop_frame0 m1 { s with asyncs := [] } l).1
    rw [hlp] at f1
    dsimp only at f1
    have hbase : t0.commands = s.commands ∧ t0.last2 = s.last2 ∧ t0.lastId = s.lastId ∧ t0.copyTail = s.copyTail := by
      rcases hfrm with e | ⟨_, e⟩
      · have e2 := e.trans f1
        exact ⟨(congrArg Inst.commands e2 :), (congrArg Inst.last2 e2 :), (congrArg Inst.lastId e2 :), (congrArg Inst.copyTail e2 :)⟩
      · exact ⟨(congrArg Inst.commands e :).trans (congrArg Inst.commands f1 :),
          (congrArg Inst.last2 e :).trans (congrArg Inst.last2 f1 :), (congrArg Inst.lastId e :).trans (congrArg Inst.lastId f1 :),
          (congrArg Inst.copyTail e :).trans (congrArg Inst.copyTail f1 :)⟩
    obtain ⟨b1, b2, b3, b4⟩ := hbase
    have hid' : b.id ≠ t0.lastId := by rw [b3]; exact hid
    have hst' := startLoop_again (t := { t0 with state := .receiving .standardPut }) (b := b) hid' b1 b2 hst
    obtain ⟨r1, r2⟩ := redeliver hs hid hfr hst hst' b1 rfl (fun x hx => by cases hx) b4
      (hsame _ b1 (fun x hx => by cases hx) rfl rfl rfl) (by
        rcases hfrm with e | ⟨e0, e⟩
        · left
          have e2 := e.trans f1
          exact (congrArg Inst.completed e2 :)
        · right
          subst e0
          rw [List.append_nil] at hm
          refine ⟨l1, by rw [hm, hlp], ?_⟩
          have e3 : t0.completed = pushCompleted s1.completed b.id l1.processed := (congrArg Inst.completed e :)
          have e4 : s1.completed = s.completed := (congrArg Inst.completed f1 :)
          show t0.completed = _
          rw [e3, e4]
          exact pushCompleted_fresh hfr)
    exact ⟨r1, r2, fun e => hid' e.symm⟩
  -- the fields at the interruption
  have same1 : ∀ {l s1 l1 m1 m2}, startAt { s with asyncs := [] } = ({ s with asyncs := [] }, .ok l) →
      b.msgs = m1 ++ m2 → loop { s with asyncs := [] } l m1 = (s1, .ok ⟨false, l1⟩) →
      ∀ u : Inst, u.commands = s.commands → AsyncsOk u → u.fatal = s1.fatal → u.errorMessage = s1.errorMessage → u.lastReady = s1.lastReady →
        Same (loop { s with asyncs := [] } l b.msgs).1 (loop u l b.msgs).1 := by
    intro l s1 l1 m1 m2 hst hm hlp u hc hu e1 e2 e3
    rw [hm]
    exact again hlp (startAt_loc hst).1 hc.symm hsa hu ⟨e1.symm, e2.symm, e3.symm⟩
  have same2 : ∀ {l s1 l1 m1 x m2}, startAt { s with asyncs := [] } = ({ s with asyncs := [] }, .ok l) →
      b.msgs = m1 ++ x :: m2 → loop { s with asyncs := [] } l m1 = (s1, .ok ⟨false, l1⟩) →
      ((∃ ex, react s1.commands l1.offset l1.step l1.cmd l1.paths x = .ok (.violation ex)) ∨
       (∃ em, react s1.commands l1.offset l1.step l1.cmd l1.paths x = .ok (.fatal em)) ∨
       (∃ em, react s1.commands l1.offset l1.step l1.cmd l1.paths x = .ok (.lost em)) ∨
       (∃ em o c p, react s1.commands l1.offset l1.step l1.cmd l1.paths x = .ok (.skip em o c p))) →
      ∀ u : Inst, u.commands = s.commands → AsyncsOk u → u.lastReady = s1.lastReady →
        Same (loop { s with asyncs := [] } l b.msgs).1 (loop u l b.msgs).1 := by
    intro l s1 l1 m1 x m2 hst hm hlp hx u hc hu e3
    rw [hm]
    refine again_err hlp (startAt_loc hst).1 hc.symm hsa hu e3.symm hx ?_
    intro e
    have hpn := loop_end m1 { s with asyncs := [] } l l1 (startAt_loc hst).1 (by rw [hlp]) e
    rcases hx with ⟨_, h⟩ | ⟨_, h⟩ | ⟨_, h⟩ | ⟨_, _, _, _, h⟩ <;> exact react_paths h hpn
  -- interruptions after `last` was stored
  have after : ∀ {l s1 l1} (t0 : Inst), startAt { s with asyncs := [] } = ({ s with asyncs := [] }, .ok l) →
      loop { s with asyncs := [] } l b.msgs = (s1, .ok ⟨false, l1⟩) →
      frame0 t0 = frame0 { s1 with completed := pushCompleted s1.completed b.id l1.processed, lastId := b.id, last1 := s1.last2, last2 := ⟨l1.offset, l1.step⟩ } →
      t0.fatal = s1.fatal → t0.errorMessage = s1.errorMessage → t0.lastReady = s1.lastReady → t0.asyncs = s1.asyncs → t0.hookCalls = s1.hookCalls →
      (standardPut { t0 with state := .receiving .standardPut } b).2 = (standardPut s b).2 ∧
      ((∃ n, (standardPut s b).2 = .ok n) →
        Agree (standardPut s b).1 (standardPut { t0 with state := .receiving .standardPut } b).1) ∧
      (standardPut { t0 with state := .receiving .standardPut } b).1.hookCalls = (standardPut s b).1.hookCalls := by
    intro l s1 l1 t0 hst hlp e f1 f2 f3 f4 f5
    have g1 := (loop_frame0 b.msgs { s with asyncs := [] } l).1
    rw [hlp] at g1
    dsimp only at g1
    have c0 : t0.commands = s.commands := (congrArg Inst.commands e :).trans (congrArg Inst.commands g1 :)
    have c1 : t0.last1 = s.last2 := (congrArg Inst.last1 e :).trans (congrArg Inst.last2 g1 :)
    have c2 : b.id = t0.lastId := (congrArg Inst.lastId e :).symm
    have hst' := startLoop_same (t := { t0 with state := .receiving .standardPut }) (b := b) c2 c0 c1 hst
    have ha : AsyncsOk { t0 with state := .receiving .standardPut } := by
      have := (loop_two b.msgs { s with asyncs := [] } { s with asyncs := [] } l rfl hsa hsa).2.2.1
      rw [hlp] at this
      intro x hx
      exact this x (by have : x ∈ t0.asyncs := hx; rw [f4] at this; exact this)
    obtain ⟨r1, r2⟩ := redeliver hs hid hfr hst hst' c0 rfl ha
      ((congrArg Inst.copyTail e :).trans (congrArg Inst.copyTail g1 :))
      (same1 hst (List.append_nil _).symm hlp _ c0 ha f1 f2 f3)
      (.inr ⟨l1, by rw [hlp], by
        have e3 : t0.completed = pushCompleted s1.completed b.id l1.processed := (congrArg Inst.completed e :)
        have e4 : s1.completed = s.completed := (congrArg Inst.completed g1 :)
        show t0.completed = _
        rw [e3, e4]
        exact pushCompleted_fresh hfr⟩)
    refine ⟨r1, r2, ?_⟩
    have hq := loop_quiet b.msgs { s with asyncs := [] } { t0 with state := .receiving .standardPut } l c0.symm
      (by rw [hlp]; exact ⟨_, rfl⟩) (by rw [hlp]; intro y hy; show y ∈ t0.asyncs; rw [f4]; exact hy)
    have htw := (loop_two b.msgs { s with asyncs := [] } { t0 with state := .receiving .standardPut } l c0.symm hsa ha).1
    unfold standardPut
    rw [startLoop_fresh hid, hst, hst']
    dsimp only
    rw [hlp] at htw ⊢
    cases hw : loop { t0 with state := .receiving .standardPut } l b.msgs with
    | mk t1 r' =>
      rw [hw] at hq htw
      dsimp only at hq htw
      subst htw
      dsimp only
      unfold finish
      dsimp only
      rw [(switchState_carry _ l1).2.2.2.2.2.2.2.1, (switchState_carry _ l1).2.2.2.2.2.2.2.1]
      exact hq.trans f5
  cases h with
  | inLoop h0 hm hlp =>
    obtain ⟨hst, rfl⟩ := start h0
    obtain ⟨r1, r2, r3⟩ := before t hst hm hlp (.inl rfl) (same1 hst hm hlp)
    exact ⟨r1, r2, fun e => absurd e r3⟩
  | @inHook _ _ _ _ _ s1 _ _ m h0 hm hlp _ _ _ =>
    obtain ⟨hst, rfl⟩ := start h0
    obtain ⟨r1, r2, r3⟩ := before { s1 with hookCalls := s1.hookCalls ++ [m] } hst hm hlp (.inl rfl)
      (fun u a b c d e => same1 hst hm hlp u a b c d e)
    exact ⟨r1, r2, fun e => absurd e r3⟩
  | @setFatal _ _ _ _ _ s1 _ f h0 hm hlp hx =>
    obtain ⟨hst, rfl⟩ := start h0
    obtain ⟨r1, r2, r3⟩ := before { s1 with fatal := some f } hst hm hlp (.inl rfl) (fun u hc hu _ _ e3 => same2 hst hm hlp (by
      rcases hx with ⟨a, _, h⟩ | ⟨a, _, h⟩ | ⟨a, _, h⟩ | ⟨a, b, c, d, _, h⟩
      · exact .inl ⟨_, h⟩
      · exact .inr (.inl ⟨_, h⟩)
      · exact .inr (.inr (.inl ⟨_, h⟩))
      · exact .inr (.inr (.inr ⟨_, _, _, _, h⟩))) u hc hu e3)
    exact ⟨r1, r2, fun e => absurd e r3⟩
  | @setError _ _ _ _ _ s1 _ f e h0 hm hlp hx =>
    obtain ⟨hst, rfl⟩ := start h0
    obtain ⟨r1, r2, r3⟩ := before { s1 with fatal := some f, errorMessage := some e } hst hm hlp (.inl rfl) (fun u hc hu _ _ e3 => same2 hst hm hlp (by
      rcases hx with ⟨a, _, _, h⟩ | ⟨a, _, _, h⟩ | ⟨a, _, _, h⟩
      · exact .inl ⟨_, h⟩
      · exact .inr (.inl ⟨_, h⟩)
      · exact .inr (.inr (.inl ⟨_, h⟩))) u hc hu e3)
    exact ⟨r1, r2, fun e => absurd e r3⟩
  | @pushed _ _ s1 l1 h0 hlp =>
    obtain ⟨hst, rfl⟩ := start h0
    obtain ⟨r1, r2, r3⟩ := before { s1 with completed := pushCompleted s1.completed b.id l1.processed } hst
      (List.append_nil _).symm hlp (.inr ⟨rfl, rfl⟩)
      (fun u a b c d e => same1 hst (List.append_nil _).symm hlp u a b c d e)
    exact ⟨r1, r2, fun e => absurd e r3⟩
  | @stored _ _ s1 l1 h0 hlp =>
    obtain ⟨hst, rfl⟩ := start h0
    obtain ⟨r1, r2, r3⟩ := after { s1 with completed := pushCompleted s1.completed b.id l1.processed, lastId := b.id, last1 := s1.last2, last2 := ⟨l1.offset, l1.step⟩ }
      hst hlp rfl rfl rfl rfl rfl rfl
    exact ⟨r1, r2, fun _ => r3⟩
  | @done _ _ s1 l1 h0 hlp =>
    obtain ⟨hst, rfl⟩ := start h0
    have key : frame0 (finish s1 b l1) = frame0 { s1 with completed := pushCompleted s1.completed b.id l1.processed, lastId := b.id, last1 := s1.last2, last2 := ⟨l1.offset, l1.step⟩ } := by
      obtain ⟨op, ho⟩ := ht
      unfold finish switchState at ho ⊢
      dsimp only at ho ⊢
      split at ho
      · cases ho
      · rename_i h1
        rw [if_neg h1]
        split at ho
        · rename_i h2
          rw [if_pos h2]
          split at ho
          · rfl
          · rfl
          · rfl
          · cases ho
          · rfl
          · rfl
        · rename_i h2
          rw [if_neg h2]
    obtain ⟨q1, q2, q3, q4, q5, q6, q7, q8, q9, q10, q11⟩ := switchState_carry
      { s1 with completed := pushCompleted s1.completed b.id l1.processed, lastId := b.id, last1 := s1.last2, last2 := ⟨l1.offset, l1.step⟩ } l1
    obtain ⟨r1, r2, r3⟩ := after (finish s1 b l1) hst hlp key q3 q4 q5 q10 q8
    exact ⟨r1, r2, fun _ => r3⟩

theorem fastPush_twice {s : Inst} {b : Batch} {rows rows' : List Proc} (t : Inst)
    (ht : t = { s with completed := pushCompleted s.completed b.id rows } ∨ t = (fastPush s b rows).1) :
    (fastPush t b rows').2 = (fastPush s b rows).2 ∧ Agree (fastPush s b rows).1 (fastPush t b rows').1 ∧
    (fastPush t b rows').1.hookCalls = (fastPush s b rows).1.hookCalls := by
  have hl : (pushCompleted s.completed b.id rows).getLast?.map (·.1) = some b.id := by
    unfold pushCompleted
    split
    · assumption
    · simp
  have hp : pushCompleted (pushCompleted s.completed b.id rows) b.id rows' = pushCompleted s.completed b.id rows := by
    rw [pushCompleted, if_pos hl]
  rcases ht with rfl | rfl
  · refine ⟨rfl, ⟨rfl, rfl, rfl, rfl, fun _ => ⟨rfl, ?_, rfl⟩, rfl⟩, rfl⟩
    unfold messagesReceived fastPush
    dsimp only
    rw [hp]
  · refine ⟨rfl, ⟨rfl, rfl, rfl, rfl, fun _ => ⟨rfl, ?_, rfl⟩, rfl⟩, rfl⟩
    unfold messagesReceived fastPush
    dsimp only
    rw [hp]

/-- Which states a delivery to a state with the standard operation can leave. -/
theorem stoppedStd_state {s t : Inst} {b : Batch} (hs : s.state = .receiving .standardPut) (hid : b.id ≠ s.lastId)
    (h : StoppedStd s b t) (ht : Receiving t) :
    t.state = .receiving .standardPut ∨ (∃ n, standardPut s b = (t, .ok n)) := by
  have start : ∀ {s0 l}, startLoop s b = (s0, .ok l) → s0.state = .receiving .standardPut := by
    intro s0 l h0
    have : (startLoop s b).1.state = s.state := by
      unfold startLoop
      rw [if_neg hid]
      dsimp only
      split
      · rfl
      · split <;> rfl
    rw [h0] at this
    exact this.trans hs
  have lp : ∀ {s0 l ms s1 l1}, s0.state = .receiving .standardPut → loop s0 l ms = (s1, .ok ⟨false, l1⟩) →
      s1.state = .receiving .standardPut := by
    intro s0 l ms s1 l1 h0 h
    have := (loop_frame0 ms s0 l).2.1
    rw [h] at this
    exact (this (fun _ e => by cases e)).trans h0
  cases h with
  | inLoop h0 _ hlp => exact .inl (lp (start h0) hlp)
  | inHook h0 _ hlp => have := lp (start h0) hlp; exact .inl this
  | setFatal h0 _ hlp => have := lp (start h0) hlp; exact .inl this
  | setError h0 _ hlp => have := lp (start h0) hlp; exact .inl this
  | pushed h0 hlp => have := lp (start h0) hlp; exact .inl this
  | stored h0 hlp => have := lp (start h0) hlp; exact .inl this
  | done h0 hlp =>
    right
    unfold standardPut
    rw [h0]
    dsimp only
    rw [hlp]
    exact ⟨_, rfl⟩

theorem parseRows_length : ∀ (ms : List Msg) (rows : List Proc), (∀ x ∈ ms, x.1 = 68) → parseRows ms = .ok rows →
    rows.length = ms.length := fun ms rows h hp => (parseRows_zip ms rows h hp).1

theorem fast_branch {s : Inst} {b : Batch} (h : FastBranch s b) (hne : b.msgs ≠ []) (hr : RowsOk b.msgs) :
    ∃ rows, deliver s b = fastPush s b rows := by
  obtain ⟨x, hx⟩ : ∃ x, b.msgs.getLast? = some x := ⟨_, List.getLast?_eq_some_getLast hne⟩
  have hm := List.mem_of_getLast? hx
  rcases h with ⟨hs, hall⟩ | ⟨hs, hall⟩
  · unfold deliver putCopydata
    rw [hs]
    dsimp only
    rw [hx]
    dsimp only
    rw [if_neg]
    · exact ⟨_, rfl⟩
    · rw [not_or, Decidable.not_not, Decidable.not_not, List.length_map, List.length_filter_eq_length_iff]
      exact ⟨hall x hm, fun y hy => by simpa using hall y hy⟩
  · obtain ⟨rows, hrows⟩ := parseRows_ok hr
    unfold deliver putTupledata
    rw [hs]
    dsimp only
    rw [hx]
    dsimp only
    rw [if_neg (by rw [Decidable.not_not]; exact hall x hm), hrows]
    dsimp only
    rw [if_neg (by rw [Decidable.not_not]; exact parseRows_length _ _ hall hrows)]
    exact ⟨_, rfl⟩

/-- Delivering a batch again after its delivery was interrupted. -/
theorem redeliver_any {s t : Inst} {b : Batch} (hs : Receiving s) (hf : Fresh s [b]) (hrows : RowsOk b.msgs)
    (h : Stopped s b t) (ht : Receiving t) :
    (deliver t b).2 = (deliver s b).2 ∧
    ((∃ n, (deliver s b).2 = .ok n) → Agree (deliver s b).1 (deliver t b).1) ∧
    (t.lastId = b.id → (deliver t b).1.hookCalls = (deliver s b).1.hookCalls) := by
  obtain ⟨hbne, hbid, hbc⟩ := hf.2 b List.mem_cons_self
  have nerr : ∀ (u : Inst), ¬ ∃ e, deliver u b = (u, .error e) ∧ (b.msgs = [] ∨
      (u.state = .receiving .putTupledata ∧ parseRows b.msgs = .error e)) := by
    rintro u ⟨e, _, he⟩
    rcases he with he | ⟨_, he⟩
    · exact hbne he
    · obtain ⟨r, hr⟩ := parseRows_ok hrows
      rw [hr] at he
      cases he
  cases h with
  | std hd hst =>
    obtain ⟨r1, r2, r3⟩ := redeliver_std (s := { s with state := .receiving .standardPut }) rfl hbid hbc hst ht
    rw [hd]
    have fast : ∀ rows, t.state ≠ .receiving .standardPut → deliver t b = fastPush t b rows →
        (deliver t b).2 = (standardPut { s with state := .receiving .standardPut } b).2 ∧
        ((∃ n, (standardPut { s with state := .receiving .standardPut } b).2 = .ok n) →
          Agree (standardPut { s with state := .receiving .standardPut } b).1 (deliver t b).1) ∧
        (t.lastId = b.id → (deliver t b).1.hookCalls = (standardPut { s with state := .receiving .standardPut } b).1.hookCalls) := by
      intro rows hne he
      rcases stoppedStd_state (s := { s with state := .receiving .standardPut }) rfl hbid hst ht with e | ⟨n, e⟩
      · exact absurd e hne
      · obtain ⟨l, s1, l1, _, _, _, _, _, ha, hn, _⟩ := standardPut_waiting (s := { s with state := .receiving .standardPut }) hbid e ht
        rw [e, he]
        have hcomp : t.completed = pushCompleted s1.completed b.id l1.processed := by
          rw [ha]
          unfold finish
          exact (switchState_carry _ l1).2.1
        have hl : t.completed.getLast?.map (·.1) = some b.id := by
          rw [hcomp]
          unfold pushCompleted
          split
          · assumption
          · simp
        refine ⟨by rw [hn]; rfl, fun _ => ⟨rfl, rfl, rfl, rfl, fun _ => ⟨rfl, ?_, rfl⟩, rfl⟩, fun _ => rfl⟩
        unfold messagesReceived fastPush pushCompleted
        dsimp only
        rw [if_pos hl]
    rcases deliver_cases t b ht with e | ⟨hst', _, e⟩ | ⟨hst', _, rows, _, _, e⟩ | e
    · rw [e]; exact ⟨r1, r2, r3⟩
    · exact fast _ (by rw [hst']; simp) e
    · exact fast _ (by rw [hst']; simp) e
    · exact absurd e (nerr t)
  | @fastPushed rows hb hd =>
    obtain ⟨rows', e⟩ := fast_branch (s := { s with completed := pushCompleted s.completed b.id rows }) hb hbne hrows
    rw [hd, e]
    obtain ⟨a1, a2, a3⟩ := fastPush_twice (rows' := rows') _ (.inl rfl)
    exact ⟨a1, fun _ => a2, fun _ => a3⟩
  | @fastDone rows hb hd =>
    obtain ⟨rows', e⟩ := fast_branch (s := (fastPush s b rows).1) hb hbne hrows
    rw [hd, e]
    obtain ⟨a1, a2, a3⟩ := fastPush_twice (rows' := rows') _ (.inr rfl)
    exact ⟨a1, fun _ => a2, fun _ => a3⟩

end PG.Xact3
