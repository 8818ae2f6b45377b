import Verif.Proofs.Xact3c
/-!
# Batch independence of `put`
-/
namespace PG.Xact3
open PG PG.Element3 PG.Spec.Xact

/-- A run over messages that are all taken at one step. -/
theorem loop_stay (s : Inst) (ms : List Msg) : ∀ (rows : List Proc) (l : Loc),
    rows.length = ms.length →
    (∀ x r, (x, r) ∈ ms.zip rows → react s.commands l.offset l.step l.cmd l.paths x = .ok (.take r l.step)) →
    loop s l ms = (s, .ok ⟨false, { l with processed := l.processed ++ rows, count := l.count + ms.length }⟩) := by
  induction ms with
  | nil =>
    intro rows l hl _
    have : rows = [] := List.length_eq_zero_iff.mp hl
    subst this
    simp [loop]
  | cons x xs ih =>
    intro rows l hl h
    cases rows with
    | nil => cases hl
    | cons r rs =>
      rw [loop_cons, h x r (by simp)]
      dsimp only
      rw [ih rs { l with count := l.count + 1, processed := l.processed ++ [r], step := l.step } (by simpa using hl)
        (fun y q hy => h y q (by simp [hy]))]
      simp only [List.append_assoc, List.singleton_append, List.length_cons, Prod.mk.injEq, Except.ok.injEq, Done.mk.injEq,
        Loc.mk.injEq, true_and]
      omega

/-- A first message without a path that is neither an error nor asynchronous ends the run as a violation. -/
theorem loop_violation {s : Inst} {l : Loc} {x : Msg} {xs : List Msg} {ex}
    (h : react s.commands l.offset l.step l.cmd l.paths x = .ok (.violation ex)) :
    (loop s l (x :: xs)).1.errorMessage = some (.violation ex x.1) ∧ ∃ d, (loop s l (x :: xs)).2 = .ok ⟨true, d⟩ := by
  rw [loop_cons, h]
  exact ⟨rfl, _, rfl⟩

theorem parseRows_zip : ∀ (ms : List Msg) (rows : List Proc), (∀ x ∈ ms, x.1 = 68) → parseRows ms = .ok rows →
    rows.length = ms.length ∧
    ∀ x r, (x, r) ∈ ms.zip rows → x.1 = 68 ∧ ∃ m, parseK .tuple x.2 = .ok m ∧ r = .elem m
  | [], rows, _, h => by cases h; exact ⟨rfl, fun x r hx => by cases hx⟩
  | y :: ys, rows, ha, h => by
    unfold parseRows at h
    rw [if_pos (ha y List.mem_cons_self)] at h
    split at h
    · cases h
    · rename_i m hm
      split at h
      · cases h
      · rename_i rs hrs
        cases h
        obtain ⟨a, b⟩ := parseRows_zip ys rs (fun x hx => ha x (List.mem_cons_of_mem _ hx)) hrs
        refine ⟨by simp [a], fun x r hx => ?_⟩
        simp only [List.zip_cons_cons, List.mem_cons] at hx
        rcases hx with e | e
        · cases e
          exact ⟨ha y List.mem_cons_self, m, hm, rfl⟩
        · exact b x r e

theorem hookOf_of_typ {c : Elem} {t : UInt8} (h : c.kind.typ = some t) : hookOf c = hook t := by
  unfold hookOf; rw [h]

/-- Rows at the row step of Execute or Query are taken; at the start of Query they are a violation. -/
theorem react_row {cs : List Elem} {o st : Nat} {cmd : Elem} {p : Option (List Table)} {x : Msg} {m : Elem}
    (hp : hookOf cmd = some p) (hx : x.1 = 68) (hm : parseK .tuple x.2 = .ok m)
    (hc : (cmd.kind.typ = some 69 ∧ st = 1) ∨ (cmd.kind.typ = some 81 ∧ (st = 3 ∨ st = 0))) :
    react cs o st cmd p x = .ok (.take (.elem m) st) ∨ ∃ ex, react cs o st cmd p x = .ok (.violation ex) := by
  rcases hc with ⟨h, rfl⟩ | ⟨h, rfl | rfl⟩
  · rw [hookOf_of_typ h] at hp
    cases hp
    left
    simp [react, Table.find, hx, Path.call, hm, Except.map]
  · rw [hookOf_of_typ h] at hp
    cases hp
    left
    simp [react, Table.find, hx, Path.call, hm, Except.map]
  · rw [hookOf_of_typ h] at hp
    cases hp
    right
    simp [react, Table.find, hx, asyncKind]

theorem react_line {cs : List Elem} {o st : Nat} {cmd : Elem} {p : Option (List Table)} {x : Msg}
    (hp : hookOf cmd = some p) (hx : x.1 = 100)
    (hc : (cmd.kind.typ = some 69 ∧ st = 2) ∨ (cmd.kind.typ = some 81 ∧ (st = 2 ∨ st = 0))) :
    react cs o st cmd p x = .ok (.take (.raw x.2) st) ∨ ∃ ex, react cs o st cmd p x = .ok (.violation ex) := by
  rcases hc with ⟨h, rfl⟩ | ⟨h, rfl | rfl⟩
  · rw [hookOf_of_typ h] at hp
    cases hp
    left
    simp [react, Table.find, hx, Path.call]
  · rw [hookOf_of_typ h] at hp
    cases hp
    left
    simp [react, Table.find, hx, Path.call]
  · rw [hookOf_of_typ h] at hp
    cases hp
    right
    simp [react, Table.find, hx, asyncKind]

/-- A run in which every message of the batch is taken at the current step, or the first is a violation. -/
theorem put_stay {s : Inst} {b : Batch} {c : Elem} {p} {rows : List Proc} (hs : Receiving s) (hid : b.id ≠ s.lastId)
    (hne : b.msgs ≠ []) (hc : s.commands[s.last2.offset]? = some c) (hp : hookOf c = some p)
    (hlen : rows.length = b.msgs.length) (hty : c.kind.typ = some 69 ∨ c.kind.typ = some 81)
    (hrows : ∀ r ∈ rows, (isRow r ∨ isCopy r) ∧ ∀ f fs, r ≠ .elem (.copyFromBegin f fs))
    (h : ∀ x r, (x, r) ∈ b.msgs.zip rows → react s.commands s.last2.offset s.last2.step c p x = .ok (.take r s.last2.step) ∨
      ∃ ex, react s.commands s.last2.offset s.last2.step c p x = .ok (.violation ex))
    (hall : ∀ x r y q, (x, r) ∈ b.msgs.zip rows → (y, q) ∈ b.msgs.zip rows →
      ((∃ ex, react s.commands s.last2.offset s.last2.step c p x = .ok (.violation ex)) ↔
       (∃ ex, react s.commands s.last2.offset s.last2.step c p y = .ok (.violation ex))))
    (hv : ¬ Violated (standardPut s b).1) :
    (fastPush s b rows).2 = (standardPut s b).2 ∧ norm (fastPush s b rows).1 = norm (standardPut s b).1 := by
  have hst : startAt { s with asyncs := [] } = ({ s with asyncs := [] }, .ok ⟨s.last2.offset, s.last2.step, c, p, [], 0⟩) := by
    unfold startAt
    dsimp only
    rw [hc]
    dsimp only
    rw [hp]
  unfold standardPut at hv ⊢
  rw [startLoop_fresh hid, hst] at hv ⊢
  dsimp only at hv ⊢
  by_cases hviol : ∃ x r, (x, r) ∈ b.msgs.zip rows ∧
      ∃ ex, react s.commands s.last2.offset s.last2.step c p x = .ok (.violation ex)
  · exfalso
    obtain ⟨x, r, hx, hex⟩ := hviol
    cases hm : b.msgs with
    | nil => exact hne hm
    | cons y ys =>
      cases hr : rows with
      | nil => rw [hm, hr] at hlen; cases hlen
      | cons q qs =>
        obtain ⟨ex, hy⟩ := (hall x r y q hx (by rw [hm, hr]; simp)).mp hex
        apply hv
        rw [hm]
        have := loop_violation (s := { s with asyncs := [] }) (l := ⟨s.last2.offset, s.last2.step, c, p, [], 0⟩) (xs := ys) hy
        obtain ⟨h1, d, h2⟩ := this
        generalize loop { s with asyncs := [] } ⟨s.last2.offset, s.last2.step, c, p, [], 0⟩ (y :: ys) = X at *
        obtain ⟨x1, x2⟩ := X
        dsimp only at h1 h2
        subst h2
        exact ⟨_, _, h1⟩
  · have hstay := loop_stay { s with asyncs := [] } b.msgs rows ⟨s.last2.offset, s.last2.step, c, p, [], 0⟩ hlen
      (fun x r hx => (h x r hx).resolve_right (fun he => hviol ⟨x, r, hx, he⟩))
    rw [hstay]
    dsimp only
    refine ⟨by simp [fastPush], ?_⟩
    obtain ⟨op, ho⟩ := hs
    unfold fastPush finish switchState
    dsimp only
    have hlt : s.last2.offset < s.commands.length := (List.getElem?_eq_some_iff.mp hc).1
    rw [if_neg (by omega), if_pos hty, List.nil_append]
    have hrne : rows ≠ [] := fun e => by
      rw [e] at hlen
      exact hne (List.length_eq_zero_iff.mp hlen.symm)
    cases hlast : rows.getLast? with
    | none => exact absurd (List.getLast?_eq_none_iff.mp hlast) hrne
    | some r =>
      have hr := hrows r (List.mem_of_getLast? hlast)
      split
      · rename_i h; cases h
      · simp [norm, normState, ho]
      · simp [norm, normState, ho]
      · rename_i h; cases h; exact absurd rfl (hr.2 _ _)
      · simp [norm, normState, ho]
      · simp [norm, normState, ho]

/-- Lemma F: in a waiting state `put` does what `standard_put` would, whatever operation is installed. -/
theorem deliver_standard {s : Inst} {b : Batch} (hg : Good s) (hs : Receiving s) (hid : b.id ≠ s.lastId)
    (hne : b.msgs ≠ []) (hrows : RowsOk b.msgs) (hhook : ∀ c ∈ s.commands, (hookOf c).isSome)
    (hv : ¬ Violated (standardPut s b).1) :
    (deliver s b).2 = (standardPut s b).2 ∧ norm (deliver s b).1 = norm (standardPut s b).1 := by
  rcases deliver_cases s b hs with h | ⟨hst, hall, h⟩ | ⟨hst, hall, rows, hp, hlen, h⟩ | ⟨e, h, he⟩
  · rw [h]
    refine standardPut_norm (s := { s with state := .receiving .standardPut }) ⟨_, rfl⟩ hs hid ?_
    obtain ⟨op, ho⟩ := hs
    simp [norm, normState, ho]
  · rw [h]
    obtain ⟨c, hc, hcase⟩ := hg.2.1 hst
    obtain ⟨p, hp⟩ := Option.isSome_iff_exists.mp (hhook c (List.mem_of_getElem? hc))
    refine put_stay hs hid hne hc hp (by simp) ?_ ?_ ?_ ?_ hv
    · rcases hcase with h | h
      · exact .inl h.1
      · exact .inr h.1
    · intro r hr
      obtain ⟨x, _, rfl⟩ := List.mem_map.mp hr
      exact ⟨.inr rfl, fun _ _ => by simp⟩
    · intro x r hx
      have hr : r = .raw x.2 := by
        have : ∀ (l : List Msg), (x, r) ∈ l.zip (l.map (fun x => Proc.raw x.2)) → r = .raw x.2 := by
          intro l
          induction l with
          | nil => intro h; cases h
          | cons a t ih =>
            intro h
            simp only [List.map_cons, List.zip_cons_cons, List.mem_cons] at h
            rcases h with e | e
            · cases e; rfl
            · exact ih e
        exact this _ hx
      subst hr
      exact react_line hp (hall x (List.of_mem_zip hx).1) hcase
    · intro x r y q hx hy
      rcases hcase with ⟨ht, hstep⟩ | ⟨ht, hstep | hstep⟩
      all_goals
        have hh := hookOf_of_typ ht
        rw [hp] at hh
        cases hh
        have h1 := hall x (List.of_mem_zip hx).1
        have h2 := hall y (List.of_mem_zip hy).1
        simp [react, Table.find, h1, h2, hstep, Path.call, asyncKind]
  · rw [h]
    obtain ⟨c, hc, hcase⟩ := hg.1 hst
    obtain ⟨p, hp'⟩ := Option.isSome_iff_exists.mp (hhook c (List.mem_of_getElem? hc))
    obtain ⟨_, hz⟩ := parseRows_zip b.msgs rows hall hp
    refine put_stay hs hid hne hc hp' hlen ?_ ?_ ?_ ?_ hv
    · rcases hcase with h | h
      · exact .inl h.1
      · exact .inr h.1
    · intro r hr
      have : ∃ x, (x, r) ∈ b.msgs.zip rows := by
        obtain ⟨i, hi, e⟩ := List.mem_iff_getElem.mp hr
        refine ⟨b.msgs[i]'(by omega), ?_⟩
        rw [List.mem_iff_getElem]
        exact ⟨i, by simp; omega, by simp [e]⟩
      obtain ⟨x, hx⟩ := this
      obtain ⟨_, m, hm, rfl⟩ := hz x r hx
      have hk := parseK_kind hm
      cases m <;> first | (cases hk; done) | skip
      exact ⟨.inl rfl, fun _ _ => by simp⟩
    · intro x r hx
      obtain ⟨hx1, m, hm, rfl⟩ := hz x r hx
      exact react_row hp' hx1 hm hcase
    · intro x r y q hx hy
      obtain ⟨h1, m1, hm1, _⟩ := hz x r hx
      obtain ⟨h2, m2, hm2, _⟩ := hz y q hy
      rcases hcase with ⟨ht, hstep⟩ | ⟨ht, hstep | hstep⟩
      all_goals
        have hh := hookOf_of_typ ht
        rw [hp'] at hh
        cases hh
        simp [react, Table.find, h1, h2, hstep, Path.call, asyncKind, hm1, hm2, Except.map]
  · rcases he with he | ⟨_, he⟩
    · exact absurd he hne
    · obtain ⟨r, hr⟩ := parseRows_ok hrows
      rw [hr] at he
      cases he

theorem deliver_good {s a : Inst} {b : Batch} {n : Nat} (hg : Good s) (hs : Receiving s) (hid : b.id ≠ s.lastId)
    (h : deliver s b = (a, .ok n)) : Good a := by
  rcases deliver_cases s b hs with e | ⟨hst, hall, e⟩ | ⟨hst, hall, rows, hp, hlen, e⟩ | ⟨e, h', he⟩
  · rw [e] at h
    exact standardPut_good (s := { s with state := .receiving .standardPut }) rfl hid
      (hg.2.2 (by obtain ⟨op, ho⟩ := hs; rw [ho]; simp)) h
  · rw [e] at h; cases h; exact hg
  · rw [e] at h; cases h; exact hg
  · rw [h'] at h; cases h

/-- What `put` keeps. -/
theorem standardPut_keep (s : Inst) (b : Batch) : (standardPut s b).1.commands = s.commands := by
  unfold standardPut
  have hst : (startLoop s b).1.commands = s.commands := by
    unfold startLoop
    dsimp only
    split
    · split <;> rfl
    · split <;> · split <;> rfl
  cases hx : startLoop s b with
  | mk s0 r =>
    rw [hx] at hst
    cases r with
    | error e => exact hst
    | ok l =>
      dsimp only
      have := (frame0_fields (loop_frame0 b.msgs s0 l).1).1
      cases hv : loop s0 l b.msgs with
      | mk s1 r =>
        rw [hv] at this
        dsimp only at this
        cases r with
        | error e => exact this.trans hst
        | ok d =>
          obtain ⟨ea, l1⟩ := d
          cases ea with
          | true => exact this.trans hst
          | false =>
            dsimp only
            unfold finish
            rw [(switchState_carry _ _).2.2.2.2.2.1]
            exact this.trans hst

theorem deliver_keep (s : Inst) (b : Batch) : (deliver s b).1.commands = s.commands := by
  unfold deliver
  split
  · exact standardPut_keep s b
  · unfold putCopydata
    split
    · rfl
    · dsimp only
      split
      · exact standardPut_keep _ b
      · rfl
  · unfold putTupledata
    split
    · rfl
    · split
      · exact standardPut_keep _ b
      · split
        · rfl
        · split
          · exact standardPut_keep _ b
          · rfl
  · rfl

theorem reach_good {cs : List Elem} {s : Inst} (h : Reach cs s) :
    Good s ∧ s.commands = cs ∧ ∀ c ∈ cs, (hookOf c).isSome := by
  induction h with
  | start h =>
    unfold init at h
    split at h
    · rename_i hc
      cases h
      exact ⟨⟨fun e => (by cases e), fun e => (by cases e), fun _ h => (by obtain ⟨_, _, h⟩ := h; cases h)⟩, rfl, List.all_eq_true.mp hc⟩
    · cases h
  | sent _ hs ih =>
    obtain ⟨g, c, hh⟩ := ih
    obtain ⟨op, ho⟩ := hs
    unfold sent
    rw [ho]
    cases op with
    | standardSent => exact ⟨⟨fun e => (by cases e), fun e => (by cases e), fun _ => g.2.2 (by rw [ho]; simp)⟩, c, hh⟩
    | sentFromStdin =>
      dsimp only
      split
      · exact ⟨⟨fun e => (by cases e), fun e => (by cases e), fun _ => g.2.2 (by rw [ho]; simp)⟩, c, hh⟩
      · exact ⟨⟨fun e => (by cases e), fun e => (by cases e), fun _ => g.2.2 (by rw [ho]; simp)⟩, c, hh⟩
  | @put s b s' n _ hr hf hd ih =>
    obtain ⟨g, c, hh⟩ := ih
    refine ⟨deliver_good g hr (hf.2 b List.mem_cons_self).2.1 hd, ?_, hh⟩
    have := deliver_keep s b
    rw [hd] at this
    exact this.trans c
  | give _ ih => exact ih

/-! ## Agreement -/

theorem _root_.PG.Spec.Xact.Agree.of_norm {w f : Inst} (h : norm w = norm f) : Agree w f := by
  have hst : normState w.state = normState f.state := (congrArg Inst.state h :)
  refine ⟨?_, (congrArg Inst.fatal h :), (congrArg Inst.errorMessage h :), (congrArg Inst.lastReady h :), fun _ =>
    ⟨(congrArg Inst.last2 h :), ?_, (congrArg Inst.copyTail h :)⟩, (congrArg Inst.commands h :)⟩
  · unfold phase
    cases hw : w.state <;> cases hf : f.state <;> rw [hw, hf] at hst <;> first | rfl | cases hst
  · unfold messagesReceived
    rw [show w.completed = f.completed from (congrArg Inst.completed h :)]

theorem phase_complete {s : Inst} : phase s = .complete ↔ s.state = .complete := by
  unfold phase
  cases s.state <;> simp

theorem phase_waiting {s : Inst} : phase s = .waiting ↔ Receiving s := by
  unfold phase Receiving
  cases s.state <;> simp

theorem _root_.PG.Spec.Xact.Agree.trans {w f g : Inst} (a : Agree w f) (b : Agree f g) : Agree w g := by
  refine ⟨a.phase.trans b.phase, a.fatal.trans b.fatal, a.error.trans b.error, a.ready.trans b.ready, fun h => ?_,
    a.commands.trans b.commands⟩
  obtain ⟨x, y, z⟩ := a.full h
  obtain ⟨x', y', z'⟩ := b.full (fun hc => by
    rw [← x, ← a.commands]
    exact h (phase_complete.mp (a.phase.trans (phase_complete.mpr hc))))
  exact ⟨x.trans x', y.trans y', z.trans z'⟩

/-- If one is fully known then so is the other. -/
theorem _root_.PG.Spec.Xact.Agree.symm_full {w f : Inst} (a : Agree w f) (h : w.state = .complete → w.last2.offset = w.commands.length) :
    Agree f w := by
  obtain ⟨x, y, z⟩ := a.full h
  exact ⟨a.phase.symm, a.fatal.symm, a.error.symm, a.ready.symm, fun _ => ⟨x.symm, y.symm, z.symm⟩, a.commands.symm⟩

/-- The identity of a new batch object does not matter. -/
theorem standardPut_id {s : Inst} {i k : Nat} {ms : List Msg} (hi : i ≠ s.lastId) (hk : k ≠ s.lastId)
    (ci : ∀ x ∈ s.completed, x.1 ≠ i) (ck : ∀ x ∈ s.completed, x.1 ≠ k) :
    (standardPut s ⟨k, ms⟩).2 = (standardPut s ⟨i, ms⟩).2 ∧ Agree (standardPut s ⟨k, ms⟩).1 (standardPut s ⟨i, ms⟩).1 ∧
    (standardPut s ⟨k, ms⟩).1.hookCalls = (standardPut s ⟨i, ms⟩).1.hookCalls := by
  unfold standardPut
  rw [startLoop_fresh (b := ⟨k, ms⟩) hk, startLoop_fresh (b := ⟨i, ms⟩) hi]
  have hst : startAt { s with asyncs := [] } = ({ s with asyncs := [] }, (startAt { s with asyncs := [] }).2) := by
    unfold startAt
    split
    · rfl
    · split <;> rfl
  rw [hst]
  cases hx : (startAt { s with asyncs := [] }).2 with
  | error e => exact ⟨rfl, Agree.of_norm rfl, rfl⟩
  | ok l =>
    dsimp only
    obtain ⟨f1, f2, f3⟩ := loop_frame0 ms { s with asyncs := [] } l
    cases hv : loop { s with asyncs := [] } l ms with
    | mk s1 r =>
      rw [hv] at f1
      cases r with
      | error e => exact ⟨rfl, Agree.of_norm rfl, rfl⟩
      | ok d =>
        obtain ⟨ea, l1⟩ := d
        cases ea with
        | true => exact ⟨rfl, Agree.of_norm rfl, rfl⟩
        | false =>
          dsimp only
          refine ⟨rfl, ?_, ?_⟩
          · have hc : s1.completed = s.completed := (frame0_fields f1).2.1
            unfold finish
            dsimp only
            rw [hc, pushCompleted_fresh ci, pushCompleted_fresh ck]
            unfold switchState
            dsimp only
            split
            · exact ⟨rfl, rfl, rfl, rfl, fun _ => ⟨rfl, by simp [messagesReceived], rfl⟩, rfl⟩
            · split
              · split <;> exact ⟨rfl, rfl, rfl, rfl, fun _ => ⟨rfl, by simp [messagesReceived], rfl⟩, rfl⟩
              · exact ⟨rfl, rfl, rfl, rfl, fun _ => ⟨rfl, by simp [messagesReceived], rfl⟩, rfl⟩
          · unfold finish
            rw [(switchState_carry _ _).2.2.2.2.2.2.2.1, (switchState_carry _ _).2.2.2.2.2.2.2.1]

/-- A violation in a prefix is a violation of the whole. -/
theorem violated_prefix {s : Inst} {i k : Nat} {m1 m2 : List Msg} (hi : i ≠ s.lastId) (hk : k ≠ s.lastId)
    (hns : ¬ Violated s) (h : Violated (standardPut s ⟨i, m1⟩).1) : Violated (standardPut s ⟨k, m1 ++ m2⟩).1 := by
  unfold standardPut at h ⊢
  rw [startLoop_fresh hi] at h
  rw [startLoop_fresh hk]
  have hst : startAt { s with asyncs := [] } = ({ s with asyncs := [] }, (startAt { s with asyncs := [] }).2) := by
    unfold startAt
    split
    · rfl
    · split <;> rfl
  rw [hst] at h ⊢
  cases hx : (startAt { s with asyncs := [] }).2 with
  | error e => rw [hx] at h; exact absurd h hns
  | ok l =>
    rw [hx] at h hst
    dsimp only at h ⊢
    have hl := (startAt_loc hst).1
    rw [loop_append m1 m2 _ _ hl]
    cases hv : loop { s with asyncs := [] } l m1 with
    | mk s1 r =>
      rw [hv] at h
      cases r with
      | error e => exact h
      | ok d =>
        obtain ⟨ea, l1⟩ := d
        cases ea with
        | true => exact h
        | false =>
          exfalso
          dsimp only at h
          have : Violated s1 := by
            refine (violated_of_error ?_).mp h
            unfold finish
            rw [(switchState_carry _ _).2.2.2.1]
          exact hns (show Violated s from loop_violated _ { s with asyncs := [] } _ _ _ hv this)

/-- A violation is reported, not raised. -/
theorem standardPut_violated_ok {s : Inst} {b : Batch} (hid : b.id ≠ s.lastId) (hns : ¬ Violated s)
    (h : Violated (standardPut s b).1) : ∃ c, (standardPut s b).2 = .ok c := by
  have lv : ∀ (ms : List Msg) (s : Inst) (l : Loc) (s1 : Inst) (e : Err), loop s l ms = (s1, .error e) →
      Violated s1 → Violated s := by
    intro ms
    induction ms with
    | nil => intro s l s1 e h; cases h
    | cons x xs ih =>
      intro s l s1 e h hv
      rw [loop_cons] at h
      split at h
      · cases h; exact hv
      · cases h
      · cases h
      · cases h
      · obtain ⟨_, _, h⟩ := ih _ _ _ _ h hv
        cases h
      · split at h
        · cases h; exact hv
        · rename_i kk hr s' hs'
          refine (violated_of_error ?_).mp (ih _ _ _ _ h hv)
          unfold handleAsync at hs'
          split at hs'
          · cases hs'; rfl
          · split at hs'
            · cases hs'; rfl
            · cases hs'
      · exact ih _ _ _ _ h hv
      · rename_i rd _ _ _ _
        have := ih _ _ _ _ h hv
        cases rd <;> exact this
      · cases h
  unfold standardPut at h ⊢
  rw [startLoop_fresh hid] at h ⊢
  have hst : startAt { s with asyncs := [] } = ({ s with asyncs := [] }, (startAt { s with asyncs := [] }).2) := by
    unfold startAt
    split
    · rfl
    · split <;> rfl
  rw [hst] at h ⊢
  cases hx : (startAt { s with asyncs := [] }).2 with
  | error e => rw [hx] at h; exact absurd h hns
  | ok l =>
    rw [hx] at h
    dsimp only at h ⊢
    cases hv : loop { s with asyncs := [] } l b.msgs with
    | mk s1 r =>
      rw [hv] at h
      cases r with
      | error e => exact absurd (show Violated s from lv _ { s with asyncs := [] } _ _ _ hv h) hns
      | ok d =>
        obtain ⟨ea, l1⟩ := d
        cases ea <;> exact ⟨_, rfl⟩

/-- What a `put` that leaves the transaction waiting does to the bookkeeping of batches. -/
theorem waiting_ids {s a : Inst} {b : Batch} {n : Nat} (hid : b.id ≠ s.lastId) (ci : ∀ x ∈ s.completed, x.1 ≠ b.id)
    (h : standardPut s b = (a, .ok n)) (ha : Receiving a) :
    a.lastId = b.id ∧ ∀ x ∈ a.completed, x ∈ s.completed ∨ x.1 = b.id := by
  obtain ⟨l, s1, l1, hst, hl, hl0, hlc, hv, rfl, rfl, hne, hl1, hcount, f1, hstate⟩ := standardPut_waiting hid h ha
  unfold finish
  dsimp only
  rw [(switchState_carry _ _).2.2.2.2.2.2.1, (switchState_carry _ _).2.1]
  refine ⟨rfl, fun x hx => ?_⟩
  dsimp only at hx
  rw [(frame0_fields f1).2.1, pushCompleted_fresh ci] at hx
  rcases List.mem_append.mp hx with h | h
  · exact .inl h
  · right; rw [List.mem_singleton.mp h]

theorem feed_nil (s : Inst) : feed s [] = (s, .ok 0, 0) := rfl

theorem feed_stop {s : Inst} {bs : List Batch} (h : ¬ Receiving s) : feed s bs = (s, .ok 0, 0) := by
  cases bs with
  | nil => rfl
  | cons b bs => unfold feed; rw [if_neg h]

/-- The main induction. -/
theorem feed_whole : ∀ (bs : List Batch) (s : Inst) (k : Nat), bs ≠ [] → Good s → Receiving s →
    (∀ c ∈ s.commands, (hookOf c).isSome) → Fresh s bs → k ≠ s.lastId → (∀ x ∈ s.completed, x.1 ≠ k) →
    RowsOk (allMsgs (bs.take (feed s bs).2.2)) →
    ¬ Violated (standardPut s ⟨k, allMsgs (bs.take (feed s bs).2.2)⟩).1 →
    (feed s bs).2.1 = (standardPut s ⟨k, allMsgs (bs.take (feed s bs).2.2)⟩).2 ∧
    ((∃ c, (feed s bs).2.1 = .ok c) →
      Agree (standardPut s ⟨k, allMsgs (bs.take (feed s bs).2.2)⟩).1 (feed s bs).1) ∧
    ((asyncsOf (allMsgs (bs.take (feed s bs).2.2))).Nodup →
      (feed s bs).1.hookCalls = (standardPut s ⟨k, allMsgs (bs.take (feed s bs).2.2)⟩).1.hookCalls)
  | [], _, _, h, _, _, _, _, _, _, _, _ => absurd rfl h
  | b :: bs, s, k, _, hg, hs, hhook, hf, hk, ck, hrows, hv => by
    have hnv : ¬ Violated s := hg.2.2 (by obtain ⟨op, ho⟩ := hs; rw [ho]; simp)
    obtain ⟨hbne, hbid, hbc⟩ := hf.2 b List.mem_cons_self
    have hbc' : ∀ x ∈ s.completed, x.1 ≠ b.id := hbc
    -- a delivery that ends here
    have single : ∀ (s' : Inst) (r : Except Err Nat), deliver s b = (s', r) → RowsOk b.msgs →
        ¬ Violated (standardPut s ⟨k, b.msgs⟩).1 →
        r = (standardPut s ⟨k, b.msgs⟩).2 ∧ Agree (standardPut s ⟨k, b.msgs⟩).1 s' ∧
        s'.hookCalls = (standardPut s ⟨k, b.msgs⟩).1.hookCalls := by
      intro s' r hd hr hv'
      obtain ⟨i1, i2, i3⟩ := standardPut_id (ms := b.msgs) hbid hk hbc' ck
      have hv2 : ¬ Violated (standardPut s b).1 := fun h => hv' ((violated_of_error i2.error).mpr h)
      obtain ⟨d1, d2⟩ := deliver_standard hg hs hbid hbne hr hhook hv2
      rw [hd] at d1 d2
      dsimp only at d1 d2
      exact ⟨d1.trans i1.symm, i2.trans (Agree.of_norm d2.symm), ((congrArg Inst.hookCalls d2 :)).trans i3.symm⟩
    unfold feed at hrows hv ⊢
    rw [if_pos hs] at hrows hv ⊢
    cases hd : deliver s b with
    | mk s' r =>
      rw [hd] at hrows hv
      cases r with
      | error e =>
        dsimp only at hrows hv ⊢
        have hall : allMsgs ((b :: bs).take 1) = b.msgs := by simp [allMsgs]
        rw [hall] at hrows hv ⊢
        obtain ⟨a1, a2, a3⟩ := single s' _ hd hrows hv
        exact ⟨a1, fun _ => a2, fun _ => a3⟩
      | ok n =>
        by_cases hend : Receiving s' ∧ bs ≠ []
        · obtain ⟨hs', hbs⟩ := hend
          dsimp only at hrows hv ⊢
          cases hfd : feed s' bs with
          | mk f fr =>
            obtain ⟨r, used⟩ := fr
            rw [hfd] at hrows hv
            dsimp only at hrows hv ⊢
            have hall : allMsgs ((b :: bs).take (used + 1)) = b.msgs ++ allMsgs (bs.take used) := by
              simp [allMsgs]
            rw [hall] at hrows hv ⊢
            have hr1 : RowsOk b.msgs := fun x hx => hrows x (List.mem_append_left _ hx)
            have hr2 : RowsOk (allMsgs (bs.take used)) := fun x hx => hrows x (List.mem_append_right _ hx)
            have hv1 : ¬ Violated (standardPut s b).1 := fun h => hv (violated_prefix (i := b.id) hbid hk hnv h)
            obtain ⟨d1, d2⟩ := deliver_standard hg hs hbid hbne hr1 hhook hv1
            rw [hd] at d1 d2
            dsimp only at d1 d2
            cases hp : standardPut s b with
            | mk a ar =>
              rw [hp] at d1 d2
              dsimp only at d1 d2
              subst d1
              have ha : Receiving a := by
                rw [← phase_waiting, ← (Agree.of_norm d2).phase, phase_waiting]
                exact hs'
              obtain ⟨b2, bs2, rfl⟩ := List.exists_cons_of_ne_nil hbs
              have hnd : b.id ≠ b2.id ∧ b.id ∉ (b2 :: bs2).map (·.id) := by
                have := hf.1
                simp only [List.map_cons, List.nodup_cons, List.mem_cons, not_or] at this ⊢
                exact ⟨this.1.1, this.1.1, this.1.2⟩
              obtain ⟨_, h2id, h2c⟩ := hf.2 b2 (by simp)
              obtain ⟨s1, s2, s3, s4⟩ := standardPut_split (k := k) (j := b2.id) (m2 := allMsgs ((b2 :: bs2).take used)) hs hbid hk
                (Ne.symm hnd.1) hbc' h2c ck hp ha
              obtain ⟨w1, w2⟩ := waiting_ids hbid hbc' hp ha
              have e1 : s'.lastId = a.lastId := (congrArg Inst.lastId d2 :)
              have e2 : s'.completed = a.completed := (congrArg Inst.completed d2 :)
              have e3 : s'.commands = s.commands := by
                have := deliver_keep s b
                rw [hd] at this
                exact this
              have hid2 : b2.id ≠ s'.lastId := by rw [e1, w1]; exact Ne.symm hnd.1
              obtain ⟨n1, n2⟩ := standardPut_norm (s := s') (t := a) (b := ⟨b2.id, allMsgs ((b2 :: bs2).take used)⟩) hs' ha hid2 d2
              have hf' : Fresh s' (b2 :: bs2) := by
                refine ⟨(List.nodup_cons.mp hf.1).2, fun b3 hb3 => ?_⟩
                obtain ⟨q1, q2, q3⟩ := hf.2 b3 (List.mem_cons_of_mem _ hb3)
                have hne : b.id ≠ b3.id := fun e => hnd.2 (e ▸ List.mem_map_of_mem hb3)
                refine ⟨q1, by rw [e1, w1]; exact Ne.symm hne, fun x hx => ?_⟩
                rw [e2] at hx
                rcases w2 x hx with h | h
                · exact q3 x h
                · rw [h]; exact hne
              have c2 : ∀ x ∈ s'.completed, x.1 ≠ b2.id := (hf'.2 b2 List.mem_cons_self).2.2
              have okOf : (∃ c, r = .ok c) → ∃ c, r.map (n + ·) = .ok c := fun ⟨c, h⟩ => ⟨n + c, by rw [h]; rfl⟩
              have ofOk : (∃ c, r.map (n + ·) = .ok c) → ∃ c, r = .ok c := fun ⟨c, h⟩ => by
                cases r with
                | error e => cases h
                | ok c => exact ⟨c, rfl⟩
              -- no violation in the rest
              have hv2 : ¬ Violated (standardPut s' ⟨b2.id, allMsgs ((b2 :: bs2).take used)⟩).1 := by
                intro h
                have hva : Violated (standardPut a ⟨b2.id, allMsgs ((b2 :: bs2).take used)⟩).1 :=
                  (violated_of_error (congrArg Inst.errorMessage n2 :)).mp h
                -- a violation returns normally
                have hok : ∃ c, (standardPut a ⟨b2.id, allMsgs ((b2 :: bs2).take used)⟩).2 = .ok c := by
                  have hna : ¬ Violated a := by
                    intro h
                    have : Violated s' := (violated_of_error (congrArg Inst.errorMessage d2 :)).mpr h
                    have hg' := deliver_good hg hs hbid hd
                    exact hg'.2.2 (by obtain ⟨op, ho⟩ := hs'; rw [ho]; simp) this
                  exact standardPut_violated_ok (by rw [← e1]; exact hid2) hna hva
                obtain ⟨c, hc⟩ := hok
                have : ∃ c, (standardPut s ⟨k, b.msgs ++ allMsgs ((b2 :: bs2).take used)⟩).2 = .ok c := by
                  rw [s2, hc]
                  exact ⟨n + c, rfl⟩
                exact hv ((violated_of_error (s3 this).error).mpr hva)
              have ih := feed_whole (b2 :: bs2) s' b2.id hbs (deliver_good hg hs hbid hd) hs'
                (by rw [e3]; exact hhook) hf' hid2 c2 (by rw [hfd]; exact hr2) (by rw [hfd]; exact hv2)
              rw [hfd] at ih
              dsimp only at ih
              obtain ⟨i1, i2, i3⟩ := ih
              refine ⟨?_, fun hok => ?_, fun hn => ?_⟩
              · rw [s2, ← n1, ← i1]
                rfl
              · have hw : ∃ c, (standardPut s ⟨k, b.msgs ++ allMsgs ((b2 :: bs2).take used)⟩).2 = .ok c := by
                  obtain ⟨c, hc⟩ := hok
                  exact ⟨c, by rw [s2, ← n1, ← i1]; exact hc⟩
                exact ((s3 hw).trans (Agree.of_norm n2.symm)).trans (i2 (ofOk hok))
              · have hn2 : (asyncsOf (allMsgs ((b2 :: bs2).take used))).Nodup := by
                  unfold asyncsOf at hn ⊢
                  rw [List.filter_append, List.nodup_append] at hn
                  exact hn.2.1
                rw [i3 hn2, s4 hn]
                exact (congrArg Inst.hookCalls n2 :)
        · -- the transaction is done with
          have hst : feed s' bs = (s', .ok 0, 0) := by
            by_cases h : Receiving s'
            · have h2 : bs = [] := by
                cases bs with
                | nil => rfl
                | cons c r => exact absurd ⟨h, List.cons_ne_nil _ _⟩ hend
              rw [h2]; rfl
            · exact feed_stop h
          dsimp only at hrows hv ⊢
          rw [hst] at hrows hv ⊢
          dsimp only at hrows hv ⊢
          have hall : allMsgs ((b :: bs).take (0 + 1)) = b.msgs := by simp [allMsgs]
          rw [hall] at hrows hv ⊢
          obtain ⟨a1, a2, a3⟩ := single s' _ hd hrows hv
          exact ⟨by rw [← a1]; rfl, fun _ => a2, fun _ => a3⟩

end PG.Xact3
