import Verif.Proofs.Xact3
import Verif.Proofs.Element3c
/-!
# Batching: `put` on a concatenation of batches
-/
namespace PG.Xact3
open PG PG.Element3 PG.Spec.Xact

/-! ## Equality up to the choice of receiving operation -/

def normState : XState → XState
  | .receiving _ => .receiving .standardPut
  | x => x

/-- Forget which receiving operation is installed, and the record of asynchronous messages. -/
def norm (s : Inst) : Inst := { s with state := normState s.state, asyncs := [] }

theorem loop_state (st : XState) : ∀ (ms : List Msg) (s : Inst) (l : Loc),
    (loop { s with state := st } l ms).2 = (loop s l ms).2 ∧
    (loop { s with state := st } l ms).1 =
      { (loop s l ms).1 with state := match (loop s l ms).2 with | .ok ⟨true, _⟩ => .complete | _ => st }
  | [], s, l => ⟨rfl, rfl⟩
  | x :: xs, s, l => by
    rw [loop_cons, loop_cons]
    dsimp only
    cases hr : react s.commands l.offset l.step l.cmd l.paths x with
    | error e => exact ⟨rfl, rfl⟩
    | ok r =>
      cases r with
      | violation ex => exact ⟨rfl, rfl⟩
      | fatal em => exact ⟨rfl, rfl⟩
      | lost em => exact ⟨rfl, rfl⟩
      | skip em o c p => exact loop_state st xs { s with fatal := some false, errorMessage := some (.server em) } _
      | async k =>
        dsimp only
        have : handleAsync { s with state := st } k x = (handleAsync s k x).map (fun u => { u with state := st }) := by
          unfold handleAsync
          dsimp only
          split
          · rfl
          · cases parseK k x.2 <;> rfl
        rw [this]
        cases ha : handleAsync s k x with
        | error e => exact ⟨rfl, rfl⟩
        | ok s' => exact loop_state st xs s' _
      | take r n => exact loop_state st xs s _
      | next r rd o c p =>
        cases rd with
        | none => exact loop_state st xs s _
        | some d => exact loop_state st xs { s with lastReady := some d } _
      | last r rd o => cases rd <;> exact ⟨rfl, rfl⟩

theorem switchState_norm {s t : Inst} (l : Loc) (h : norm s = norm t) :
    norm (switchState s l) = norm (switchState t l) := by
  have hcs : s.commands = t.commands := (congrArg Inst.commands h :)
  unfold switchState
  rw [hcs]
  split
  · have := h
    simp only [norm] at this ⊢
    injection this
    simp_all [normState]
  · split
    · split
      · exact h
      · simp only [norm] at h ⊢; injection h; simp_all [normState]
      · simp only [norm] at h ⊢; injection h; simp_all [normState]
      · simp only [norm] at h ⊢; injection h; simp_all [normState]
      · simp only [norm] at h ⊢; injection h; simp_all [normState]
      · exact h
    · exact h

/-- Where a new batch starts. -/
def startAt (s : Inst) : Inst × Except Err Loc :=
  match s.commands[s.last2.offset]? with
  | none => (s, .error .indexError)
  | some c => match hookOf c with
    | none => (s, .error .keyError)
    | some t => (s, .ok ⟨s.last2.offset, s.last2.step, c, t, [], 0⟩)

theorem startLoop_fresh {s : Inst} {b : Batch} (hb : b.id ≠ s.lastId) : startLoop s b = startAt { s with asyncs := [] } := by
  unfold startLoop startPos startAt
  rw [if_neg hb]
  simp only [if_neg hb]
  cases s.commands[s.last2.offset]? with
  | none => rfl
  | some c => dsimp only; cases hookOf c <;> rfl

/-- `put` on a new batch depends only on `norm`. -/
theorem standardPut_norm {s t : Inst} {b : Batch} (hs : Receiving s) (ht : Receiving t) (hb : b.id ≠ s.lastId)
    (h : norm s = norm t) :
    (standardPut s b).2 = (standardPut t b).2 ∧ norm (standardPut s b).1 = norm (standardPut t b).1 := by
  obtain ⟨op, hop⟩ := ht
  -- `t` is `s` with another state and record
  have e : { t with asyncs := [] } = { s with asyncs := [], state := .receiving op } := by
    have hst : normState s.state = normState t.state := (congrArg Inst.state h :)
    have h' := h
    cases s; cases t
    simp only [norm, Inst.mk.injEq] at h'
    simp only at hop
    subst hop
    simp only [Inst.mk.injEq]
    simp_all
  have hid : s.lastId = t.lastId := (congrArg Inst.lastId h :)
  have hl2 : s.last2 = t.last2 := (congrArg Inst.last2 h :)
  have hcs : s.commands = t.commands := (congrArg Inst.commands h :)
  unfold standardPut
  rw [startLoop_fresh hb, startLoop_fresh (hid ▸ hb), e]
  unfold startAt
  dsimp only
  cases hc : s.commands[s.last2.offset]? with
  | none =>
    refine ⟨rfl, ?_⟩
    obtain ⟨o, ho⟩ := hs
    simp [norm, normState, ho]
  | some c =>
    dsimp only
    cases hh : hookOf c with
    | none =>
      refine ⟨rfl, ?_⟩
      obtain ⟨o, ho⟩ := hs
      simp [norm, normState, ho]
    | some p =>
      dsimp only
      obtain ⟨i, j⟩ := loop_state (.receiving op) b.msgs { s with asyncs := [] } ⟨s.last2.offset, s.last2.step, c, p, [], 0⟩
      obtain ⟨_, k1, k2⟩ := loop_frame0 b.msgs { s with asyncs := [] } ⟨s.last2.offset, s.last2.step, c, p, [], 0⟩
      generalize hu : loop { s with asyncs := [], state := .receiving op } ⟨s.last2.offset, s.last2.step, c, p, [], 0⟩ b.msgs = u
      dsimp only at i j
      rw [hu] at i j
      clear hu
      generalize hv : loop { s with asyncs := [] } ⟨s.last2.offset, s.last2.step, c, p, [], 0⟩ b.msgs = v at *
      obtain ⟨u1, u2⟩ := u
      obtain ⟨v1, v2⟩ := v
      dsimp only at i j k1 k2
      subst i
      obtain ⟨o, ho⟩ := hs
      cases u2 with
      | error er =>
        dsimp only at j ⊢
        refine ⟨rfl, ?_⟩
        have := k1 (fun _ h => by cases h)
        subst j
        simp [norm, normState, this, ho]
      | ok d =>
        obtain ⟨ea, l⟩ := d
        cases ea with
        | true =>
          dsimp only at j ⊢
          refine ⟨rfl, ?_⟩
          have := k2 _ rfl
          subst j
          simp [norm, normState, this]
        | false =>
          dsimp only at j ⊢
          refine ⟨rfl, ?_⟩
          have := k1 (fun _ h => by cases h)
          subst j
          unfold finish
          dsimp only
          apply switchState_norm
          simp [norm, normState, this, ho]

/-! ## Splitting a batch -/

/-- Processing only adds to `processed`. -/
theorem loop_processed : ∀ (ms : List Msg) (s : Inst) (l : Loc) (d : Done), (loop s l ms).2 = .ok d →
    ∃ q, d.loc.processed = l.processed ++ q
  | [], s, l, d, h => by cases h; exact ⟨[], (List.append_nil _).symm⟩
  | x :: xs, s, l, d, h => by
    rw [loop_cons] at h
    split at h
    · cases h
    · cases h; exact ⟨[], (List.append_nil _).symm⟩
    · cases h; exact ⟨[], (List.append_nil _).symm⟩
    · cases h; exact ⟨[], (List.append_nil _).symm⟩
    · obtain ⟨q, e⟩ := loop_processed xs _ _ d h
      exact ⟨q, e⟩
    · split at h
      · cases h
      · obtain ⟨q, e⟩ := loop_processed xs _ _ d h
        exact ⟨q, e⟩
    · obtain ⟨q, e⟩ := loop_processed xs _ _ d h
      exact ⟨_, by rw [e, List.append_assoc]⟩
    · obtain ⟨q, e⟩ := loop_processed xs _ _ d h
      exact ⟨_, by rw [e, List.append_assoc]⟩
    · cases h; exact ⟨_, rfl⟩

theorem react_skip_cmd {cs : List Elem} {o st cmd p} {x : Msg} {em o' c p'}
    (h : react cs o st cmd p x = .ok (.skip em o' c p')) (hl : cs[o]? = some cmd) :
    (c = cmd ∧ o' = o ∧ (cmd.kind.typ = some 70 ∨ cmd.kind.typ = some 81)) ∨ c = .empty .synchronize := by
  unfold react at h
  split at h
  · cases h
  split at h
  · cases h
  split at h
  · split at h
    · split at h
      · split at h
        · cases h
        · cases h
        · split at h
          · cases h
          · split at h
            · rename_i hq
              split at h
              · cases h
              · rename_i hc
                split at h
                · cases h
                · cases h
                  rw [hl] at hc
                  cases hc
                  exact .inl ⟨rfl, rfl, hq⟩
            · split at h
              · cases h
              · rename_i o'' hf
                obtain ⟨a, _⟩ := (findSync_spec _ _ cs rfl).1 _ hf
                rw [a] at h
                dsimp only at h
                split at h
                · cases h
                · cases h; exact .inr rfl
      · cases h
      · cases h
    · split at h <;> cases h
  · split at h
    · cases h
    · split at h
      · cases h
      · split at h <;> cases h

/-- Without processing a message the current command only changes to a Synchronize. -/
theorem loop_cmd : ∀ (ms : List Msg) (s : Inst) (l : Loc) (l' : Loc), LocOk s.commands l →
    (loop s l ms).2 = .ok ⟨false, l'⟩ → l'.processed = l.processed →
    l'.cmd = l.cmd ∨ l'.cmd = .empty .synchronize
  | [], s, l, l', hl, h, _ => by cases h; exact .inl rfl
  | x :: xs, s, l, l', hl, h, hp => by
    rw [loop_cons] at h
    cases hr : react s.commands l.offset l.step l.cmd l.paths x with
    | error e => rw [hr] at h; cases h
    | ok r =>
      rw [hr] at h
      obtain ⟨i, j, k⟩ := react_ok hr
      cases r with
      | violation ex => cases h
      | fatal em => cases h
      | lost em => cases h
      | skip em o c p =>
        dsimp only at h
        have := loop_cmd xs { s with fatal := some false, errorMessage := some (.server em) } { l with count := l.count + 1, offset := o, cmd := c, paths := p, step := 0 } l'
          (i _ _ _ _ rfl) h hp
        rcases react_skip_cmd hr hl.1 with ⟨a, _⟩ | a
        · subst a; exact this
        · rw [a] at this
          rcases this with e | e <;> exact .inr e
      | async kk =>
        dsimp only at h
        cases ha : handleAsync s kk x with
        | error e => rw [ha] at h; cases h
        | ok s' =>
          rw [ha] at h
          have hf := (frame0_fields (handleAsync_frame ha).1).1
          exact loop_cmd xs s' { l with count := l.count + 1 } l' (by rw [hf]; exact hl) h hp
      | take r n =>
        dsimp only at h
        obtain ⟨q, e⟩ := loop_processed xs _ _ _ h
        rw [hp] at e
        simp at e
      | next r rd o c p =>
        dsimp only at h
        obtain ⟨q, e⟩ := loop_processed xs _ _ _ h
        rw [hp] at e
        simp at e
      | last r rd o =>
        dsimp only at h
        cases h
        simp at hp

/-- The state switch of a run with the processed messages `P ++ q` against one with `q` that starts in a waiting state. -/
theorem switchState_agree {s t : Inst} {l l0 : Loc} {P : List Proc} (hc : s.commands = t.commands)
    (ho : l.offset = l0.offset) (hcmd : l.cmd = l0.cmd) (hp : l.processed = P ++ l0.processed)
    (hs : Receiving s) (ht : Receiving t) (htail : s.copyTail = t.copyTail)
    (hG : l0.processed = [] → l.cmd.kind.typ = some 69 ∨ l.cmd.kind.typ = some 81 →
      ∀ f fs, P.getLast? ≠ some (.elem (.copyFromBegin f fs))) :
    phase (switchState s l) = phase (switchState t l0) ∧ (switchState s l).copyTail = (switchState t l0).copyTail ∧
    ((switchState s l).state = .complete ↔ l.offset = s.commands.length) := by
  obtain ⟨os, hos⟩ := hs
  obtain ⟨ot, hot⟩ := ht
  unfold switchState
  rw [← hc, ← ho, ← hcmd]
  by_cases h1 : l.offset = s.commands.length
  · rw [if_pos h1, if_pos h1]
    exact ⟨rfl, htail, by simp [h1]⟩
  · rw [if_neg h1, if_neg h1]
    by_cases h2 : l.cmd.kind.typ = some 69 ∨ l.cmd.kind.typ = some 81
    · rw [if_pos h2, if_pos h2]
      by_cases h3 : l0.processed = []
      · rw [h3, List.append_nil] at hp
        have hg := hG h3 h2
        rw [h3, hp]
        dsimp only [List.getLast?_nil]
        split
        · exact ⟨by simp [phase, hos, hot], htail, by simp [hos, h1]⟩
        · exact ⟨by simp [phase, hot], htail, by simp [h1]⟩
        · exact ⟨by simp [phase, hot], htail, by simp [h1]⟩
        · rename_i h; exact absurd h (hg _ _)
        · exact ⟨by simp [phase, hot], htail, by simp [h1]⟩
        · exact ⟨by simp [phase, hos, hot], htail, by simp [hos, h1]⟩
      · have : l.processed.getLast? = l0.processed.getLast? := by
          rw [hp, List.getLast?_append]
          cases h : l0.processed.getLast? with
          | none => exact absurd (List.getLast?_eq_none_iff.mp h) h3
          | some y => rfl
        rw [this]
        split
        · exact ⟨by simp [phase, hos, hot], htail, by simp [hos, h1]⟩
        · exact ⟨by simp [phase], htail, by simp [h1]⟩
        · exact ⟨by simp [phase], htail, by simp [h1]⟩
        · exact ⟨by simp [phase], by simp, by simp [h1]⟩
        · exact ⟨by simp [phase], htail, by simp [h1]⟩
        · exact ⟨by simp [phase, hos, hot], htail, by simp [hos, h1]⟩
    · rw [if_neg h2, if_neg h2]
      exact ⟨by simp [phase, hos, hot], htail, by simp [hos, h1]⟩

theorem switchState_carry (s : Inst) (l : Loc) :
    (switchState s l).last2 = s.last2 ∧ (switchState s l).completed = s.completed ∧ (switchState s l).fatal = s.fatal ∧
    (switchState s l).errorMessage = s.errorMessage ∧ (switchState s l).lastReady = s.lastReady ∧
    (switchState s l).commands = s.commands ∧ (switchState s l).lastId = s.lastId ∧
    (switchState s l).hookCalls = s.hookCalls ∧ (switchState s l).messages = s.messages ∧
    (switchState s l).asyncs = s.asyncs ∧ (switchState s l).last1 = s.last1 := by
  unfold switchState
  split
  · simp
  · split
    · split <;> simp
    · simp

theorem pushCompleted_fresh {c : List (Nat × List Proc)} {i : Nat} {p : List Proc} (h : ∀ x ∈ c, x.1 ≠ i) :
    pushCompleted c i p = c ++ [(i, p)] := by
  unfold pushCompleted
  rw [if_neg]
  intro e
  rw [Option.map_eq_some_iff] at e
  obtain ⟨a, ha, e⟩ := e
  exact h a (List.mem_of_getLast? ha) e

/-- Facts about a `put` that leaves the transaction waiting. -/
theorem standardPut_waiting {s a : Inst} {b : Batch} {n : Nat} (hid : b.id ≠ s.lastId) (h : standardPut s b = (a, .ok n)) (ha : Receiving a) :
    ∃ l s1 l1, startAt { s with asyncs := [] } = ({ s with asyncs := [] }, .ok l) ∧ LocOk s.commands l ∧
      l.processed = [] ∧ l.count = 0 ∧
      loop { s with asyncs := [] } l b.msgs = (s1, .ok ⟨false, l1⟩) ∧ a = finish s1 b l1 ∧ n = b.msgs.length ∧
      l1.offset ≠ s.commands.length ∧ LocOk s.commands l1 ∧ l1.count = b.msgs.length ∧
      frame0 s1 = frame0 s ∧ s1.state = s.state := by
  unfold standardPut at h
  rw [startLoop_fresh hid] at h
  unfold startAt at h
  dsimp only at h
  cases hc : s.commands[s.last2.offset]? with
  | none => rw [hc] at h; cases h
  | some c =>
    rw [hc] at h
    dsimp only at h
    cases hh : hookOf c with
    | none => rw [hh] at h; cases h
    | some p =>
      rw [hh] at h
      dsimp only at h
      have hok : LocOk s.commands ⟨s.last2.offset, s.last2.step, c, p, [], 0⟩ := ⟨hc, hh⟩
      obtain ⟨f1, f2, f3⟩ := loop_frame0 b.msgs { s with asyncs := [] } ⟨s.last2.offset, s.last2.step, c, p, [], 0⟩
      have lk := loop_locOk b.msgs { s with asyncs := [] } ⟨s.last2.offset, s.last2.step, c, p, [], 0⟩
      generalize hv : loop { s with asyncs := [] } ⟨s.last2.offset, s.last2.step, c, p, [], 0⟩ b.msgs = v at h f1 f2 f3 lk
      obtain ⟨s1, r⟩ := v
      obtain ⟨op, ho⟩ := ha
      cases r with
      | error e => cases h
      | ok d =>
        obtain ⟨ea, l1⟩ := d
        cases ea with
        | true =>
          cases h
          have := f3 _ rfl
          rw [this] at ho
          cases ho
        | false =>
          have hst := f2 (fun _ h => by cases h)
          dsimp only at h f1 hst
          have ha' : finish s1 b l1 = a := congrArg Prod.fst h
          have hn : l1.count = n := Except.ok.inj (congrArg Prod.snd h)
          have hcs : s1.commands = s.commands := (frame0_fields f1).1
          have hne : l1.offset ≠ s.commands.length := by
            intro e
            rw [← ha'] at ho
            unfold finish switchState at ho
            dsimp only at ho
            rw [if_pos (by rw [hcs]; exact e)] at ho
            cases ho
          rcases lk l1 hok rfl with e | ⟨e1, e2⟩
          · exact absurd e hne
          · have e2' : l1.count = b.msgs.length := by rw [e2]; exact Nat.zero_add _
            refine ⟨⟨s.last2.offset, s.last2.step, c, p, [], 0⟩, s1, l1, ?_, hok, rfl, rfl, hv, ha'.symm, by rw [← hn, e2'], hne,
              e1, e2', f1, hst⟩
            unfold startAt
            dsimp only
            rw [hc]
            dsimp only
            rw [hh]

/-- The shift of a count. -/
def addN (n : Nat) (r : Except Err Nat) : Except Err Nat := r.map (n + ·)

theorem standardPut_split {s a : Inst} {i j k n : Nat} {m1 m2 : List Msg} (hs : Receiving s)
    (hi : i ≠ s.lastId) (hk : k ≠ s.lastId) (hji : j ≠ i)
    (ci : ∀ x ∈ s.completed, x.1 ≠ i) (cj : ∀ x ∈ s.completed, x.1 ≠ j) (ck : ∀ x ∈ s.completed, x.1 ≠ k)
    (h : standardPut s ⟨i, m1⟩ = (a, .ok n)) (ha : Receiving a) :
    n = m1.length ∧
    (standardPut s ⟨k, m1 ++ m2⟩).2 = addN n (standardPut a ⟨j, m2⟩).2 ∧
    ((∃ c, (standardPut s ⟨k, m1 ++ m2⟩).2 = .ok c) →
      Agree (standardPut s ⟨k, m1 ++ m2⟩).1 (standardPut a ⟨j, m2⟩).1) ∧
    ((asyncsOf (m1 ++ m2)).Nodup →
      (standardPut s ⟨k, m1 ++ m2⟩).1.hookCalls = (standardPut a ⟨j, m2⟩).1.hookCalls) := by
  obtain ⟨l, s1, l1, hst, hl, hl0, hlc, hv, rfl, rfl, hne, hl1, hcount, f1, hstate⟩ := standardPut_waiting hi h ha
  dsimp only at hv hcount
  obtain ⟨g1, g2, g3, g4, g5, g6, g7⟩ := frame0_fields f1
  refine ⟨rfl, ?_⟩
  -- the whole batch
  have happ := loop_append m1 m2 { s with asyncs := [] } l hl
  rw [hv] at happ
  dsimp only at happ
  rw [if_neg hne] at happ
  -- the second batch
  obtain ⟨w1, w2, w3, w4, w5, w6, w7, w8, w9, w10, w11⟩ := switchState_carry
    { s1 with completed := pushCompleted s1.completed i l1.processed, lastId := i, last1 := s1.last2, last2 := ⟨l1.offset, l1.step⟩ } l1
  generalize hA : finish s1 ⟨i, m1⟩ l1 = A at *
  have hA' : switchState { s1 with completed := pushCompleted s1.completed i l1.processed, lastId := i, last1 := s1.last2, last2 := ⟨l1.offset, l1.step⟩ } l1 = A := by rw [← hA]; rfl
  rw [hA'] at w1 w2 w3 w4 w5 w6 w7 w8 w9 w10 w11
  dsimp only at w1 w2 w3 w4 w5 w6 w7 w8
  rw [g2, pushCompleted_fresh ci] at w2
  have hstA : startAt { A with asyncs := [] } =
      ({ A with asyncs := [] }, .ok ⟨l1.offset, l1.step, l1.cmd, l1.paths, [], 0⟩) := by
    unfold startAt
    dsimp only
    rw [w1, w6, g1]
    dsimp only
    rw [hl1.1]
    dsimp only
    rw [hl1.2]
  have rel : Rel s1 { A with asyncs := [] } l1 ⟨l1.offset, l1.step, l1.cmd, l1.paths, [], 0⟩ l1.processed l1.count :=
    { commands := w6.symm, fatal := w3.symm, error := w4.symm, ready := w5.symm, offset := rfl, step := rfl, cmd := rfl,
      paths := rfl, processed := (List.append_nil _).symm, count := rfl,
      sOk := by
        have hu : AsyncsOk { s with asyncs := [] } := fun x hx => by cases hx
        have := (loop_rel [] 0 m1 { s with asyncs := [] } { s with asyncs := [] } l l
          ⟨rfl, rfl, rfl, rfl, rfl, rfl, rfl, rfl, rfl, (Nat.zero_add _).symm, hu, hu⟩).1
        rw [hv] at this
        exact this.2.sOk
      tOk := fun x hx => by cases hx }
  obtain ⟨r1, r2⟩ := loop_rel _ _ m2 _ _ _ _ rel
  have hWhole : standardPut s ⟨k, m1 ++ m2⟩ = match loop s1 l1 m2 with
      | (s, .error e) => (s, .error e)
      | (s, .ok ⟨true, l⟩) => (s, .ok l.count)
      | (s, .ok ⟨false, l⟩) => (finish s ⟨k, m1 ++ m2⟩ l, .ok l.count) := by
    unfold standardPut
    rw [startLoop_fresh hk, hst]
    dsimp only
    rw [happ]
    rcases loop s1 l1 m2 with ⟨_, _ | ⟨_ | _, _⟩⟩ <;> rfl
  have hSecond : standardPut A ⟨j, m2⟩ =
      match loop { A with asyncs := [] } ⟨l1.offset, l1.step, l1.cmd, l1.paths, [], 0⟩ m2 with
      | (s, .error e) => (s, .error e)
      | (s, .ok ⟨true, l⟩) => (s, .ok l.count)
      | (s, .ok ⟨false, l⟩) => (finish s ⟨j, m2⟩ l, .ok l.count) := by
    unfold standardPut
    rw [startLoop_fresh (by rw [w7]; exact hji), hstA]
    dsimp only
    rcases loop { A with asyncs := [] } ⟨l1.offset, l1.step, l1.cmd, l1.paths, [], 0⟩ m2 with ⟨_, _ | ⟨_ | _, _⟩⟩ <;> rfl
  obtain ⟨u1, u2, u3⟩ := loop_frame0 m2 s1 l1
  obtain ⟨v1, v2, v3⟩ := loop_frame0 m2 { A with asyncs := [] } ⟨l1.offset, l1.step, l1.cmd, l1.paths, [], 0⟩
  have hcmd := loop_cmd m2 { A with asyncs := [] } ⟨l1.offset, l1.step, l1.cmd, l1.paths, [], 0⟩
  have hhook : (asyncsOf (m1 ++ m2)).Nodup → HookRel s1 { A with asyncs := [] } m2 := by
    intro hn
    have hn' : (asyncsOf m1 ++ asyncsOf m2).Nodup := by
      unfold asyncsOf at hn ⊢
      rwa [List.filter_append] at hn
    rw [List.nodup_append] at hn'
    refine ⟨w8.symm, hn'.2.1, fun x hx => ⟨fun hx1 => ?_, fun hx1 => by cases hx1⟩⟩
    -- the record holds only asynchronous messages of the first batch
    have sub : ∀ (ms : List Msg) (u : Inst) (q : Loc) (v : Inst) (d : Done), loop u q ms = (v, .ok d) →
        ∀ x ∈ v.asyncs, x ∈ u.asyncs ∨ x ∈ asyncsOf ms := by
      intro ms
      induction ms with
      | nil => intro u q v d hh x hx; cases hh; exact .inl hx
      | cons y ys ih =>
        intro u q v d hh x hx
        have lift : x ∈ asyncsOf ys → x ∈ asyncsOf (y :: ys) := by
          unfold asyncsOf
          intro h
          rw [List.mem_filter] at h ⊢
          exact ⟨List.mem_cons_of_mem _ h.1, h.2⟩
        rw [loop_cons] at hh
        split at hh
        · cases hh
        · cases hh; exact .inl hx
        · cases hh; exact .inl hx
        · cases hh; exact .inl hx
        · rcases ih _ _ _ _ hh x hx with h | h
          · exact .inl h
          · exact .inr (lift h)
        · rename_i kk hr
          split at hh
          · cases hh
          · rename_i s' hs'
            have hk' := react_async_kind hr
            rcases ih _ _ _ _ hh x hx with h | h
            · unfold handleAsync at hs'
              split at hs'
              · cases hs'; exact .inl h
              · split at hs'
                · cases hs'
                  rcases List.mem_append.mp h with h | h
                  · exact .inl h
                  · right
                    rw [List.mem_singleton.mp h]
                    unfold asyncsOf
                    rw [List.mem_filter]
                    exact ⟨List.mem_cons_self, by rw [hk']; rfl⟩
                · cases hs'
            · exact .inr (lift h)
        · rcases ih _ _ _ _ hh x hx with h | h
          · exact .inl h
          · exact .inr (lift h)
        · rename_i rd _ _ _ _
          rcases ih _ _ _ _ hh x hx with h | h
          · left; cases rd <;> exact h
          · exact .inr (lift h)
        · rename_i rd _ _
          cases hh
          left
          revert hx
          cases rd <;> exact id
    rcases sub m1 _ _ _ _ hv x hx1 with h | h
    · cases h
    · exact hn'.2.2 x h x hx rfl
  have r2' := fun hn => r2 (hhook hn)
  generalize loop s1 l1 m2 = X at *
  generalize loop { A with asyncs := [] } ⟨l1.offset, l1.step, l1.cmd, l1.paths, [], 0⟩ m2 = Y at *
  obtain ⟨x1, x2⟩ := X
  obtain ⟨y1, y2⟩ := Y
  rw [hWhole, hSecond]
  cases x2 with
  | error e =>
    cases y2 with
    | error e' => cases r1; exact ⟨rfl, fun h => (by obtain ⟨c, h⟩ := h; cases h), r2'⟩
    | ok d => exact absurd r1 (by simp [ResRel])
  | ok d =>
    obtain ⟨ea, lx⟩ := d
    cases y2 with
    | error e' => exact absurd r1 (by simp [ResRel])
    | ok d' =>
      obtain ⟨eb, ly⟩ := d'
      obtain ⟨e, r⟩ := r1
      subst e
      have hcnt : lx.count = m1.length + ly.count := by rw [r.count, hcount]
      cases ea with
      | true =>
        dsimp only at r2' ⊢
        refine ⟨by simp [addN, Except.map, hcnt], fun _ => ?_, r2'⟩
        have a1 := u3 _ rfl
        have a2 := v3 _ rfl
        dsimp only at a1 a2 u1
        refine ⟨by simp [phase, a1, a2], r.fatal, r.error, r.ready, fun hf => ?_, r.commands⟩
        exfalso
        obtain ⟨z1, z2, z3, z4, z5, z6, z7⟩ := frame0_fields u1
        have := hf a1
        rw [z5, z1, g5, g1] at this
        have hlt := loc_lt hl
        have : l.offset = s.last2.offset := by
          unfold startAt at hst
          dsimp only at hst
          split at hst
          · cases hst
          · split at hst
            · cases hst
            · cases hst; rfl
        omega
      | false =>
        dsimp only at r2' u1 v1 ⊢
        have a1 := u2 (fun _ h => by cases h)
        have a2 := v2 (fun _ h => by cases h)
        dsimp only at a1 a2
        obtain ⟨z1, z2, z3, z4, z5, z6, z7⟩ := frame0_fields u1
        obtain ⟨y1', y2', y3', y4', y5', y6', y7'⟩ := frame0_fields v1
        dsimp only at y1' y2' y3' y4' y5' y6' y7'
        have hAtail : A.copyTail = s1.copyTail := by
          obtain ⟨op, ho⟩ := ha
          rw [← hA'] at ho ⊢
          unfold switchState at ho ⊢
          dsimp only at ho ⊢
          split
          · rfl
          · rename_i n1
            rw [if_neg n1] at ho
            split
            · rename_i n2
              rw [if_pos n2] at ho
              split <;> first | rfl | (rename_i hG; rw [hG] at ho; cases ho)
            · rfl
        have key := switchState_agree (s := { x1 with completed := pushCompleted x1.completed k lx.processed, lastId := k, last1 := x1.last2, last2 := ⟨lx.offset, lx.step⟩ })
          (t := { y1 with completed := pushCompleted y1.completed j ly.processed, lastId := j, last1 := y1.last2, last2 := ⟨ly.offset, ly.step⟩ }) (l := lx) (l0 := ly) (P := l1.processed)
          (by dsimp only; rw [z1, y1', w6]) r.offset r.cmd r.processed
          (by obtain ⟨o, ho⟩ := hs; exact ⟨o, by dsimp only; rw [a1, hstate, ho]⟩)
          (by obtain ⟨o, ho⟩ := ha; exact ⟨o, by dsimp only; rw [a2, ho]⟩)
          (by dsimp only; rw [z7, y7', hAtail])
          (by
            intro hly hcm f fs hP
            have hcs : lx.cmd = l1.cmd := by
              rcases hcmd ly (by exact ⟨by rw [show ({ A with asyncs := [] } : Inst).commands = A.commands from rfl, w6, g1]; exact hl1.1, hl1.2⟩) rfl hly with e | e
              · rw [r.cmd, e]
              · rw [r.cmd, e] at hcm
                rcases hcm with h | h <;> cases h
            obtain ⟨op, ho⟩ := ha
            rw [← hA'] at ho
            unfold switchState at ho
            dsimp only at ho
            rw [if_neg (by rw [g1]; exact hne), if_pos (hcs ▸ hcm), hP] at ho
            cases ho)
        obtain ⟨p1, p2, p3⟩ := key
        refine ⟨by simp [addN, Except.map, hcnt], fun _ => ?_, fun hn => ?_⟩
        · refine ⟨p1, ?_, ?_, ?_, fun _ => ⟨?_, ?_, p2⟩, ?_⟩
          case refine_6 =>
            unfold finish
            rw [(switchState_carry _ lx).2.2.2.2.2.1, (switchState_carry _ ly).2.2.2.2.2.1]
            exact r.commands
          · unfold finish; rw [(switchState_carry _ lx).2.2.1, (switchState_carry _ ly).2.2.1]; exact r.fatal
          · unfold finish; rw [(switchState_carry _ lx).2.2.2.1, (switchState_carry _ ly).2.2.2.1]; exact r.error
          · unfold finish; rw [(switchState_carry _ lx).2.2.2.2.1, (switchState_carry _ ly).2.2.2.2.1]; exact r.ready
          · refine (switchState_carry _ lx).1.trans (Eq.trans ?_ (switchState_carry _ ly).1.symm)
            dsimp only
            rw [r.offset, r.step]
          · unfold messagesReceived finish
            rw [(switchState_carry _ lx).2.1, (switchState_carry _ ly).2.1]
            dsimp only
            rw [z2, g2, pushCompleted_fresh ck, y2', w2, pushCompleted_fresh, r.processed]
            · simp
            · intro x hx
              rcases List.mem_append.mp hx with h | h
              · exact cj x h
              · rw [List.mem_singleton.mp h]; exact Ne.symm hji
        · unfold finish
          rw [(switchState_carry _ lx).2.2.2.2.2.2.2.1, (switchState_carry _ ly).2.2.2.2.2.2.2.1]
          exact r2' hn

end PG.Xact3
