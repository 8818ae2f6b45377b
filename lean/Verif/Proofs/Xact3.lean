import Verif.Spec.Xact
/-!
# Lemmas about the `Instruction` model
-/
namespace PG.Xact3
open PG PG.Element3 PG.Spec.Xact

/-! ## The loop -/

/-- Everything but the fields the loop may change. -/
def frame0 (s : Inst) : Inst :=
  { s with fatal := none, errorMessage := none, lastReady := none, asyncs := [], hookCalls := [], state := .complete }

theorem setReady_frame (s : Inst) (r) : frame0 (setReady s r) = frame0 s ∧ (setReady s r).state = s.state := by
  cases r <;> exact ⟨rfl, rfl⟩

theorem handleAsync_frame {s k x s'} (h : handleAsync s k x = .ok s') : frame0 s' = frame0 s ∧ s'.state = s.state := by
  unfold handleAsync at h
  split at h
  · cases h; exact ⟨rfl, rfl⟩
  · split at h
    · cases h; exact ⟨rfl, rfl⟩
    · cases h

/-- The loop changes only the fields dropped by `frame0`; the state only when it returns early, to complete. -/
theorem loop_frame0 : ∀ (ms : List Msg) (s : Inst) (l : Loc),
    frame0 (loop s l ms).1 = frame0 s ∧
    ((∀ l', (loop s l ms).2 ≠ .ok ⟨true, l'⟩) → (loop s l ms).1.state = s.state) ∧
    (∀ l', (loop s l ms).2 = .ok ⟨true, l'⟩ → (loop s l ms).1.state = .complete)
  | [], s, l => ⟨rfl, fun _ => rfl, fun l' h => by simp [loop] at h⟩
  | x :: xs, s, l => by
    unfold loop
    dsimp only
    cases hr : react s.commands l.offset l.step l.cmd l.paths x with
    | error e => exact ⟨rfl, fun _ => rfl, fun l' h => by cases h⟩
    | ok r =>
      cases r with
      | violation ex => exact ⟨rfl, fun h => absurd rfl (h _), fun _ _ => rfl⟩
      | fatal em => exact ⟨rfl, fun h => absurd rfl (h _), fun _ _ => rfl⟩
      | lost em => exact ⟨rfl, fun h => absurd rfl (h _), fun _ _ => rfl⟩
      | skip em o c p => exact loop_frame0 xs _ _
      | async k =>
        dsimp only
        cases ha : handleAsync s k x with
        | error e => exact ⟨rfl, fun _ => rfl, fun l' h => by cases h⟩
        | ok s' =>
          obtain ⟨a, b⟩ := handleAsync_frame ha
          obtain ⟨i, j, k⟩ := loop_frame0 xs s' { l with count := l.count + 1 }
          exact ⟨i.trans a, fun h => (j h).trans b, k⟩
      | take r n => exact loop_frame0 xs _ _
      | next r rd o c p =>
        obtain ⟨a, b⟩ := setReady_frame s rd
        dsimp only
        obtain ⟨i, j, k⟩ := loop_frame0 xs (setReady s rd)
          { l with count := l.count + 1, processed := l.processed ++ [r], step := 0, offset := o, cmd := c, paths := some p }
        exact ⟨i.trans a, fun h => (j h).trans b, k⟩
      | last r rd o =>
        obtain ⟨a, b⟩ := setReady_frame s rd
        exact ⟨a, fun _ => b, fun l' h => by cases h⟩

theorem frame0_fields {s t : Inst} (h : frame0 s = frame0 t) :
    s.commands = t.commands ∧ s.completed = t.completed ∧ s.lastId = t.lastId ∧ s.last1 = t.last1 ∧ s.last2 = t.last2 ∧
    s.messages = t.messages ∧ s.copyTail = t.copyTail :=
  ⟨(congrArg Inst.commands h :), (congrArg Inst.completed h :), (congrArg Inst.lastId h :), (congrArg Inst.last1 h :),
   (congrArg Inst.last2 h :), (congrArg Inst.messages h :), (congrArg Inst.copyTail h :)⟩

/-- The loop's local variables agree with the commands. -/
def LocOk (cs : List Elem) (l : Loc) : Prop := cs[l.offset]? = some l.cmd ∧ hookOf l.cmd = some l.paths

theorem advance_spec : ∀ (r : List Elem) (o : Nat) (cs : List Elem), cs.drop o = r →
    (∀ o', advance r o = .ok (o', none) → o' = o + r.length) ∧
    (∀ o' c p, advance r o = .ok (o', some (c, p)) → cs[o']? = some c ∧ hookOf c = some (some p) ∧ o ≤ o')
  | [], o, cs, _ => ⟨fun o' h => by cases h; rfl, fun o' c p h => by cases h⟩
  | c :: r, o, cs, h => by
    have hd : cs.drop (o + 1) = r := by rw [← List.drop_drop, h]; rfl
    have hc : cs[o]? = some c := by
      have := congrArg (fun l => l[0]?) h
      simpa using this
    obtain ⟨i, j⟩ := advance_spec r (o + 1) cs hd
    unfold advance
    cases hh : hookOf c with
    | none => exact ⟨fun o' h => (nomatch h), fun o' c p h => (nomatch h)⟩
    | some p =>
      cases p with
      | none =>
        refine ⟨fun o' h => ?_, fun o' c p h => ?_⟩
        · rw [i o' h, List.length_cons]; omega
        · obtain ⟨a, b, d⟩ := j o' c p h
          exact ⟨a, b, by omega⟩
      | some p =>
        refine ⟨fun o' h => (nomatch h), fun o' c' p' h => ?_⟩
        cases h
        exact ⟨hc, hh, Nat.le_refl _⟩

theorem findSync_spec : ∀ (r : List Elem) (o : Nat) (cs : List Elem), cs.drop o = r →
    (∀ o', findSync r o = some o' → cs[o']? = some (.empty .synchronize) ∧ o ≤ o' ∧
      ∀ k, o ≤ k → k < o' → cs[k]? ≠ some (.empty .synchronize)) ∧
    (findSync r o = none → ∀ k, o ≤ k → cs[k]? ≠ some (.empty .synchronize))
  | [], o, cs, h => ⟨fun o' h => (nomatch h), fun _ k hk => by
      have : cs.length ≤ o := List.drop_eq_nil_iff.mp h
      rw [List.getElem?_eq_none (by omega)]; simp⟩
  | c :: r, o, cs, h => by
    have hd : cs.drop (o + 1) = r := by rw [← List.drop_drop, h]; rfl
    have hc : cs[o]? = some c := by
      have := congrArg (fun l => l[0]?) h
      simpa using this
    obtain ⟨i, j⟩ := findSync_spec r (o + 1) cs hd
    unfold findSync
    by_cases e : c = .empty .synchronize
    · rw [if_pos e]
      refine ⟨fun o' h => ?_, fun h => (nomatch h)⟩
      cases h
      exact ⟨by rw [hc, e], Nat.le_refl _, fun k h1 h2 => by omega⟩
    · rw [if_neg e]
      refine ⟨fun o' h => ?_, fun h k hk => ?_⟩
      · obtain ⟨a, b, d⟩ := i o' h
        refine ⟨a, by omega, fun k h1 h2 => ?_⟩
        by_cases hk : k = o
        · rw [hk, hc]; simpa using e
        · exact d k (by omega) h2
      · by_cases hk : k = o
        · rw [hk, hc]; simpa using e
        · exact j h k (by omega)

/-- The positions reached by `react` are consistent. -/
theorem react_ok {cs : List Elem} {o st : Nat} {cmd : Elem} {p : Option (List Table)} {x : Msg} {r : React}
    (h : react cs o st cmd p x = .ok r) :
    (∀ em o' c p', r = .skip em o' c p' → cs[o']? = some c ∧ hookOf c = some p') ∧
    (∀ y rd o' c p', r = .next y rd o' c p' → cs[o']? = some c ∧ hookOf c = some (some p')) ∧
    (∀ y rd o', o < cs.length → r = .last y rd o' → o' = cs.length) := by
  unfold react at h
  split at h
  · cases h
  split at h
  · cases h
  split at h
  · split at h
    · split at h
      · split at h
        · cases h
        · cases h
        · split at h
          · cases h; refine ⟨?_, ?_, ?_⟩ <;> intros <;> simp_all
          · split at h
            · split at h
              · cases h
              · rename_i c hc
                split at h
                · cases h
                · rename_i q hq
                  cases h
                  refine ⟨fun em o' c' p' e => ?_, ?_, ?_⟩
                  · cases e; exact ⟨hc, hq⟩
                  · intros; simp_all
                  · intros; simp_all
            · split at h
              · cases h; refine ⟨?_, ?_, ?_⟩ <;> intros <;> simp_all
              · split at h
                · cases h
                · rename_i c hc
                  split at h
                  · cases h
                  · rename_i q hq
                    cases h
                    refine ⟨fun em o' c' p' e => ?_, ?_, ?_⟩
                    · cases e; exact ⟨hc, hq⟩
                    · intros; simp_all
                    · intros; simp_all
      · cases h
      · cases h
    · split at h
      · cases h; refine ⟨?_, ?_, ?_⟩ <;> intros <;> simp_all
      · cases h; refine ⟨?_, ?_, ?_⟩ <;> intros <;> simp_all
  · split at h
    · cases h
    · split at h
      · cases h; refine ⟨?_, ?_, ?_⟩ <;> intros <;> simp_all
      · obtain ⟨i, j⟩ := advance_spec _ (o + 1) cs rfl
        split at h
        · cases h
        · rename_i o' ha
          cases h
          refine ⟨fun _ _ _ _ e => (nomatch e), fun _ _ _ _ _ e => (nomatch e), fun y rd o'' hl e => ?_⟩
          cases e
          have := i _ ha
          rw [List.length_drop] at this
          omega
        · rename_i o' c p' ha
          cases h
          refine ⟨fun _ _ _ _ e => (nomatch e), fun y rd o'' c' p'' e => ?_, fun _ _ _ _ e => (nomatch e)⟩
          cases e
          obtain ⟨a, b, _⟩ := j _ _ _ ha
          exact ⟨a, b⟩


/-- The loop keeps the local variables consistent, unless the transaction is finished. -/
theorem loop_locOk : ∀ (ms : List Msg) (s : Inst) (l : Loc) (l' : Loc), LocOk s.commands l →
    (loop s l ms).2 = .ok ⟨false, l'⟩ →
    (l'.offset = s.commands.length ∨ (LocOk s.commands l' ∧ l'.count = l.count + ms.length))
  | [], s, l, l', hl, h => by
    simp only [loop, Except.ok.injEq, Done.mk.injEq, true_and] at h
    subst h
    exact .inr ⟨hl, rfl⟩
  | x :: xs, s, l, l', hl, h => by
    unfold loop at h
    dsimp only at h
    cases hr : react s.commands l.offset l.step l.cmd l.paths x with
    | error e => rw [hr] at h; cases h
    | ok r =>
      rw [hr] at h
      obtain ⟨i, j, k⟩ := react_ok hr
      have lt : l.offset < s.commands.length := by
        have := hl.1
        exact (List.getElem?_eq_some_iff.mp this).1
      cases r with
      | violation ex => cases h
      | fatal em => cases h
      | lost em => cases h
      | skip em o c p =>
        dsimp only at h
        have := loop_locOk xs _ _ l' (by exact i _ _ _ _ rfl) h
        rcases this with a | ⟨a, b⟩
        · exact .inl a
        · refine .inr ⟨a, ?_⟩; rw [b]; simp only [List.length_cons]; omega
      | async kk =>
        dsimp only at h
        cases ha : handleAsync s kk x with
        | error e => rw [ha] at h; cases h
        | ok s' =>
          rw [ha] at h
          have hf := (frame0_fields (handleAsync_frame ha).1).1
          have := loop_locOk xs s' _ l' (by rw [hf]; exact hl) h
          rw [hf] at this
          rcases this with a | ⟨a, b⟩
          · exact .inl a
          · refine .inr ⟨a, ?_⟩; rw [b]; simp only [List.length_cons]; omega
      | take r n =>
        dsimp only at h
        have := loop_locOk xs _ _ l' (by exact hl) h
        rcases this with a | ⟨a, b⟩
        · exact .inl a
        · refine .inr ⟨a, ?_⟩; rw [b]; simp only [List.length_cons]; omega
      | next r rd o c p =>
        dsimp only at h
        have hf := (frame0_fields (setReady_frame s rd).1).1
        have := loop_locOk xs (setReady s rd) _ l' (by rw [hf]; exact j _ _ _ _ _ rfl) h
        rw [hf] at this
        rcases this with a | ⟨a, b⟩
        · exact .inl a
        · refine .inr ⟨a, ?_⟩; rw [b]; simp only [List.length_cons]; omega
      | last r rd o =>
        simp only [Except.ok.injEq, Done.mk.injEq, true_and] at h
        subst h
        exact .inl (k _ _ _ lt rfl)

theorem loc_lt {cs : List Elem} {l : Loc} (h : LocOk cs l) : l.offset < cs.length :=
  (List.getElem?_eq_some_iff.mp h.1).1

theorem loop_cons (s : Inst) (l : Loc) (x : Msg) (xs : List Msg) : loop s l (x :: xs) =
    match react s.commands l.offset l.step l.cmd l.paths x with
    | .error e => (s, .error e)
    | .ok (.violation ex) =>
      ({ s with fatal := some true, errorMessage := some (.violation ex x.1), state := .complete },
        .ok ⟨true, { l with count := l.count + 1 }⟩)
    | .ok (.fatal em) =>
      ({ s with fatal := some true, errorMessage := some (.server em), state := .complete },
        .ok ⟨true, { l with count := l.count + 1 }⟩)
    | .ok (.lost em) =>
      ({ s with fatal := some false, errorMessage := some (.server em), state := .complete },
        .ok ⟨true, { l with count := l.count + 1 }⟩)
    | .ok (.skip em o c p) =>
      loop { s with fatal := some false, errorMessage := some (.server em) }
        { l with count := l.count + 1, offset := o, cmd := c, paths := p, step := 0 } xs
    | .ok (.async k) => match handleAsync s k x with
      | .error e => (s, .error e)
      | .ok s => loop s { l with count := l.count + 1 } xs
    | .ok (.take r n) => loop s { l with count := l.count + 1, processed := l.processed ++ [r], step := n } xs
    | .ok (.next r rd o c p) =>
      loop (setReady s rd)
        { l with count := l.count + 1, processed := l.processed ++ [r], step := 0, offset := o, cmd := c, paths := some p } xs
    | .ok (.last r rd o) =>
      (setReady s rd, .ok ⟨false, { l with count := l.count + 1, processed := l.processed ++ [r], step := 0, offset := o, paths := none }⟩) := rfl

/-- Splitting the messages of the loop. -/
theorem loop_append : ∀ (m1 m2 : List Msg) (s : Inst) (l : Loc), LocOk s.commands l →
    loop s l (m1 ++ m2) = match loop s l m1 with
      | (s', .ok ⟨false, l'⟩) => if l'.offset = s.commands.length then (s', .ok ⟨false, l'⟩) else loop s' l' m2
      | r => r
  | [], m2, s, l, hl => by
    simp only [List.nil_append, loop]
    rw [if_neg (by have := loc_lt hl; omega)]
  | x :: xs, m2, s, l, hl => by
    rw [List.cons_append]
    rw [loop_cons, loop_cons]
    cases hr : react s.commands l.offset l.step l.cmd l.paths x with
    | error e => rfl
    | ok r =>
      obtain ⟨i, j, k⟩ := react_ok hr
      have lt := loc_lt hl
      cases r with
      | violation ex => rfl
      | fatal em => rfl
      | lost em => rfl
      | skip em o c p =>
        dsimp only
        exact loop_append xs m2 { s with fatal := some false, errorMessage := some (.server em) }
          { l with count := l.count + 1, offset := o, cmd := c, paths := p, step := 0 } (i _ _ _ _ rfl)
      | async kk =>
        dsimp only
        cases ha : handleAsync s kk x with
        | error e => rfl
        | ok s' =>
          dsimp only
          have hf := (frame0_fields (handleAsync_frame ha).1).1
          rw [loop_append xs m2 s' _ (by rw [hf]; exact hl), hf]
      | take r n =>
        dsimp only
        exact loop_append xs m2 s { l with count := l.count + 1, processed := l.processed ++ [r], step := n } hl
      | next r rd o c p =>
        dsimp only
        have hf := (frame0_fields (setReady_frame s rd).1).1
        rw [loop_append xs m2 (setReady s rd)
          { l with count := l.count + 1, processed := l.processed ++ [r], step := 0, offset := o, cmd := c, paths := some p }
          (by rw [hf]; exact j _ _ _ _ _ rfl), hf]
      | last r rd o =>
        dsimp only
        rw [if_pos (k _ _ _ lt rfl)]

/-! ## Two runs of the loop over the same messages -/

/-- The recorded asynchronous messages were parsed. -/
def AsyncsOk (s : Inst) : Prop := ∀ x ∈ s.asyncs, ∀ k, asyncKind x.1 = some k → ∃ m, parseK k x.2 = .ok m

/-- What the outcome of the loop depends on. -/
structure Rel (s t : Inst) (l l0 : Loc) (P : List Proc) (c : Nat) : Prop where
  commands : s.commands = t.commands
  fatal : s.fatal = t.fatal
  error : s.errorMessage = t.errorMessage
  ready : s.lastReady = t.lastReady
  offset : l.offset = l0.offset
  step : l.step = l0.step
  cmd : l.cmd = l0.cmd
  paths : l.paths = l0.paths
  processed : l.processed = P ++ l0.processed
  count : l.count = c + l0.count
  sOk : AsyncsOk s
  tOk : AsyncsOk t

/-- The asynchronous messages still to come are new to both records and distinct: the hook is called alike. -/
def HookRel (s t : Inst) (ms : List Msg) : Prop :=
  s.hookCalls = t.hookCalls ∧ (asyncsOf ms).Nodup ∧ ∀ x ∈ asyncsOf ms, x ∉ s.asyncs ∧ x ∉ t.asyncs

/-- Related results of two loops. -/
def ResRel (P : List Proc) (c : Nat) : Inst × Except Err Done → Inst × Except Err Done → Prop
  | (_, .error e), (_, .error e') => e = e'
  | (s, .ok ⟨b, l⟩), (t, .ok ⟨b', l'⟩) => b = b' ∧ Rel s t l l' P c
  | _, _ => False

theorem react_async_kind {cs o st cmd p} {x : Msg} {k} (h : react cs o st cmd p x = .ok (.async k)) :
    asyncKind x.1 = some k := by
  unfold react at h
  split at h
  · cases h
  split at h
  · cases h
  split at h
  · split at h
    · split at h
      · split at h
        · cases h
        · cases h
        · split at h
          · cases h
          · split at h
            · split at h
              · cases h
              · split at h <;> cases h
            · split at h
              · cases h
              · split at h
                · cases h
                · split at h <;> cases h
      · cases h
      · cases h
    · split at h
      · cases h; assumption
      · cases h
  · split at h
    · cases h
    · split at h
      · cases h
      · split at h <;> cases h

theorem handleAsync_ok {s k} {x : Msg} (hk : asyncKind x.1 = some k) (hs : AsyncsOk s) :
    (∀ e, handleAsync s k x = .error e ↔ parseK k x.2 = .error e) ∧
    ∀ s', handleAsync s k x = .ok s' → AsyncsOk s' ∧ s'.commands = s.commands ∧ s'.fatal = s.fatal ∧
      s'.errorMessage = s.errorMessage ∧ s'.lastReady = s.lastReady := by
  unfold handleAsync
  by_cases hx : x ∈ s.asyncs
  · rw [if_pos hx]
    obtain ⟨m, hm⟩ := hs x hx k hk
    refine ⟨fun e => ?_, fun s' h => ?_⟩
    · rw [hm]; simp
    · cases h; exact ⟨hs, rfl, rfl, rfl, rfl⟩
  · rw [if_neg hx]
    cases hp : parseK k x.2 with
    | error e => exact ⟨fun e' => by simp, fun s' h => by cases h⟩
    | ok m =>
      refine ⟨fun e => by simp, fun s' h => ?_⟩
      cases h
      refine ⟨?_, rfl, rfl, rfl, rfl⟩
      intro y hy k' hk'
      rcases List.mem_append.mp hy with h | h
      · exact hs y h k' hk'
      · rw [List.mem_singleton.mp h] at hk' ⊢
        rw [hk] at hk'
        cases hk'
        exact ⟨m, hp⟩

theorem loop_rel (P : List Proc) (c : Nat) : ∀ (ms : List Msg) (s t : Inst) (l l0 : Loc), Rel s t l l0 P c →
    ResRel P c (loop s l ms) (loop t l0 ms) ∧
    (HookRel s t ms → (loop s l ms).1.hookCalls = (loop t l0 ms).1.hookCalls)
  | [], s, t, l, l0, h => ⟨⟨rfl, h⟩, fun h => h.1⟩
  | x :: xs, s, t, l, l0, h => by
    have hreq : react t.commands l0.offset l0.step l0.cmd l0.paths x = react s.commands l.offset l.step l.cmd l.paths x := by
      rw [h.commands, h.offset, h.step, h.cmd, h.paths]
    rw [loop_cons, loop_cons, hreq]
    have hc : l.count + 1 = c + (l0.count + 1) := by rw [h.count]; omega
    cases hr : react s.commands l.offset l.step l.cmd l.paths x with
    | error e => exact ⟨rfl, fun h => h.1⟩
    | ok r =>
      have drop : HookRel s t (x :: xs) → HookRel s t xs := by
        rintro ⟨a, b, d⟩
        unfold asyncsOf at b d
        rw [List.filter_cons] at b d
        split at b
        · rename_i hx
          rw [if_pos hx] at d
          exact ⟨a, (List.nodup_cons.mp b).2, fun y hy => d y (List.mem_cons_of_mem _ hy)⟩
        · rename_i hx
          rw [if_neg hx] at d
          exact ⟨a, b, d⟩
      cases r with
      | violation ex =>
        exact ⟨⟨rfl, ⟨h.commands, rfl, rfl, h.ready, h.offset, h.step, h.cmd, h.paths, h.processed, hc, h.sOk, h.tOk⟩⟩,
          fun h => h.1⟩
      | fatal em =>
        exact ⟨⟨rfl, ⟨h.commands, rfl, rfl, h.ready, h.offset, h.step, h.cmd, h.paths, h.processed, hc, h.sOk, h.tOk⟩⟩,
          fun h => h.1⟩
      | lost em =>
        exact ⟨⟨rfl, ⟨h.commands, rfl, rfl, h.ready, h.offset, h.step, h.cmd, h.paths, h.processed, hc, h.sOk, h.tOk⟩⟩,
          fun h => h.1⟩
      | skip em o cc p =>
        dsimp only
        obtain ⟨a, b⟩ := loop_rel P c xs { s with fatal := some false, errorMessage := some (.server em) }
          { t with fatal := some false, errorMessage := some (.server em) }
          { l with count := l.count + 1, offset := o, cmd := cc, paths := p, step := 0 }
          { l0 with count := l0.count + 1, offset := o, cmd := cc, paths := p, step := 0 }
          ⟨h.commands, rfl, rfl, h.ready, rfl, rfl, rfl, rfl, h.processed, hc, h.sOk, h.tOk⟩
        exact ⟨a, fun hh => b (drop hh)⟩
      | async k =>
        dsimp only
        have hk := react_async_kind hr
        obtain ⟨e1, o1⟩ := handleAsync_ok hk h.sOk
        obtain ⟨e2, o2⟩ := handleAsync_ok hk h.tOk
        cases ha : handleAsync s k x with
        | error e =>
          rw [(e2 e).mpr ((e1 e).mp ha)]
          exact ⟨rfl, fun h => h.1⟩
        | ok s' =>
          cases hb : handleAsync t k x with
          | error e => rw [(e1 e).mpr ((e2 e).mp hb)] at ha; cases ha
          | ok t' =>
            dsimp only
            obtain ⟨p1, p2, p3, p4, p5⟩ := o1 s' ha
            obtain ⟨q1, q2, q3, q4, q5⟩ := o2 t' hb
            obtain ⟨a, b⟩ := loop_rel P c xs s' t' { l with count := l.count + 1 } { l0 with count := l0.count + 1 }
              ⟨by rw [p2, q2, h.commands], by rw [p3, q3, h.fatal], by rw [p4, q4, h.error], by rw [p5, q5, h.ready],
               h.offset, h.step, h.cmd, h.paths, h.processed, hc, p1, q1⟩
            refine ⟨a, fun hh => ?_⟩
            have b' : HookRel s' t' xs → (loop s' { l with count := l.count + 1 } xs).1.hookCalls =
              (loop t' { l0 with count := l0.count + 1 } xs).1.hookCalls := b
            have hx : x ∈ asyncsOf (x :: xs) := by
              unfold asyncsOf
              rw [List.filter_cons, if_pos (by rw [hk]; rfl)]
              exact List.mem_cons_self
            have hn := hh.2.2 x hx
            have key : HookRel s' t' xs := by
              unfold handleAsync at ha hb
              rw [if_neg hn.1] at ha
              rw [if_neg hn.2] at hb
              cases hp : parseK k x.2 with
              | error e => rw [hp] at ha; cases ha
              | ok m =>
                rw [hp] at ha hb
                cases ha
                cases hb
                obtain ⟨d1, d2, d3⟩ := hh
                unfold asyncsOf at d2 d3
                rw [List.filter_cons, if_pos (by rw [hk]; rfl)] at d2 d3
                refine ⟨by simp only [d1], (List.nodup_cons.mp d2).2, fun y hy => ?_⟩
                have := d3 y (List.mem_cons_of_mem _ hy)
                have ne : y ≠ x := fun e => (List.nodup_cons.mp d2).1 (e ▸ hy)
                simp only [List.mem_append, List.mem_singleton, not_or]
                exact ⟨⟨this.1, ne⟩, ⟨this.2, ne⟩⟩
            exact b' key
      | take r n =>
        dsimp only
        obtain ⟨a, b⟩ := loop_rel P c xs s t { l with count := l.count + 1, processed := l.processed ++ [r], step := n }
          { l0 with count := l0.count + 1, processed := l0.processed ++ [r], step := n }
          ⟨h.commands, h.fatal, h.error, h.ready, h.offset, rfl, h.cmd, h.paths,
            by simp only [h.processed, List.append_assoc], hc, h.sOk, h.tOk⟩
        exact ⟨a, fun hh => b (drop hh)⟩
      | next r rd o cc p =>
        dsimp only
        have hh : ∀ (u : Inst), AsyncsOk u → AsyncsOk (setReady u rd) := fun u hu => by cases rd <;> exact hu
        have hH : HookRel s t xs → HookRel (setReady s rd) (setReady t rd) xs := fun q => by cases rd <;> exact q
        obtain ⟨a, b⟩ := loop_rel P c xs (setReady s rd) (setReady t rd)
          { l with count := l.count + 1, processed := l.processed ++ [r], step := 0, offset := o, cmd := cc, paths := some p }
          { l0 with count := l0.count + 1, processed := l0.processed ++ [r], step := 0, offset := o, cmd := cc, paths := some p }
          ⟨by cases rd <;> exact h.commands, by cases rd <;> exact h.fatal, by cases rd <;> exact h.error,
           by cases rd <;> first | exact h.ready | rfl, rfl, rfl, rfl, rfl,
            by simp only [h.processed, List.append_assoc], hc, hh _ h.sOk, hh _ h.tOk⟩
        exact ⟨a, fun q => b (hH (drop q))⟩
      | last r rd o =>
        dsimp only
        have hh : ∀ (u : Inst), AsyncsOk u → AsyncsOk (setReady u rd) := fun u hu => by cases rd <;> exact hu
        refine ⟨⟨rfl, ⟨by cases rd <;> exact h.commands, by cases rd <;> exact h.fatal, by cases rd <;> exact h.error,
           by cases rd <;> first | exact h.ready | rfl, rfl, rfl, h.cmd, rfl,
            by simp only [h.processed, List.append_assoc], hc, hh _ h.sOk, hh _ h.tOk⟩⟩, fun q => ?_⟩
        cases rd <;> exact q.1

end PG.Xact3
