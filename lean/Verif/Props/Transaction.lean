import Verif.Spec.Transaction
/-! # Transactions (C40) -/
namespace PG.Transaction
open PG
variable {δ : Type}

/-- The program raises no exception outside `Exception`. -/
def NoInterrupt : Prog δ → Prop
  | .interrupt => False
  | .seq p q => NoInterrupt p ∧ NoInterrupt q
  | .tryExcept p q => NoInterrupt p ∧ NoInterrupt q
  | .block _ _ p => NoInterrupt p
  | _ => True

/-- How the server stands to the meaning: `base` is what is committed, `stk` the savepoints of the blocks around. -/
def Rel (inside : Bool) (base : δ) (stk : List (Nat × δ)) (d : δ) (doomed lost : Bool) (s : Server δ) : Prop :=
  (lost = true → s.closed = true ∧ s.committed = if inside then base else d) ∧
  (lost = false → s.closed = false ∧
    (inside = true → s.committed = base ∧ s.stack = stk ∧ s.status = (if doomed then .failed else .active) ∧ (doomed = false → s.current = d)) ∧
    (inside = false → doomed = false ∧ s.status = .idle ∧ s.committed = d))

theorem execute_closed (env : δ → Commit) (s : Server δ) (c : Cmd δ) (h : s.closed = true) : execute env s c = (some .error, s) := by
  unfold execute
  rw [if_pos h]

theorem commit_closed (env : δ → Commit) (t : Tx) (s : Server δ) (h : s.closed = true) (ht : t.state = .opened) : commit env t s = (some .error, t, s) := by
  unfold commit
  rw [if_neg (by rw [ht]; simp), if_neg (by rw [ht]; simp), execute_closed env s _ h]

/-- Leaving a block of a lost connection raises and does nothing. -/
theorem exit_closed (env : δ → Commit) (t : Tx) (s : Server δ) (e : Option Exc) (h : s.closed = true) (ht : t.state = .opened) (he : ∀ x, e = some x → x.isException = true) :
    ∃ x, exit env t s e = (some x, s) ∧ x.isException = true := by
  cases e with
  | none =>
    unfold exit; dsimp only
    by_cases hf : s.status = .failed
    · rw [if_pos hf, if_neg (by simp [h])]
      exact ⟨_, rfl, rfl⟩
    · rw [if_neg hf, commit_closed env t s h ht]
      exact ⟨_, rfl, rfl⟩
  | some x =>
    unfold exit; dsimp only
    rw [if_pos (he x rfl), if_neg (by simp [h])]
    exact ⟨_, rfl, he x rfl⟩

/-- Starting on a lost connection raises and does nothing. -/
theorem start_closed (env : δ → Commit) (conf : Conf) (id : Nat) (s : Server δ) (h : s.closed = true) : ∃ t, start env (new conf id) s = (some .error, t, s) := by
  unfold start new
  rw [if_neg (by simp), if_neg (by simp)]
  by_cases hi : s.status = .idle
  · rw [if_pos hi]
    dsimp only
    split
    · exact ⟨_, rfl⟩
    · rw [execute_closed env s _ h]
      exact ⟨_, rfl⟩
  · rw [if_neg hi]
    dsimp only
    split
    · exact ⟨_, rfl⟩
    · rw [execute_closed env s _ h]
      exact ⟨_, rfl⟩

theorem find_head (id : Nat) (d : δ) (l : List (Nat × δ)) : find id ((id, d) :: l) = some (d, l) := by simp [find]

/-- A savepoint block, entered and left. -/
theorem exit_savepoint (env : δ → Commit) (id : Nat) (d0 : δ) (base : δ) (stk : List (Nat × δ)) (d : δ) (doomed : Bool) (s : Server δ) (e : Option Exc)
    (h : Rel true base ((id, d0) :: stk) d doomed false s) (he : ∀ x, e = some x → x.isException = true) :
    ∃ r, exit env ⟨.plain, id, .opened, some .savepoint⟩ s e = r ∧ r.1.isSome = (e.isSome || doomed) ∧ (∀ x, r.1 = some x → x.isException = true) ∧
      Rel true base stk (if e.isSome || doomed then d0 else d) false false r.2 := by
  obtain ⟨hc, hin, _⟩ := h.2 rfl
  obtain ⟨h1, h2, h3, h4⟩ := hin rfl
  have hrb : rollback env ⟨.plain, id, .opened, some .savepoint⟩ s = (none, ⟨.plain, id, .aborted, some .savepoint⟩, { s with status := .active, current := d0, stack := stk }) := by
    unfold rollback
    rw [if_neg (by simp), if_neg (by simp)]
    dsimp only
    have : execute env s (.rollbackTo id) = (none, { s with status := .active, current := d0, stack := stk }) := by
      unfold execute
      rw [if_neg (by simp [hc])]
      dsimp only
      rw [h2, find_head]
      rw [h3]
      cases doomed <;> rfl
    rw [this]
  have hrel : Rel true base stk d0 false false ({ s with status := .active, current := d0, stack := stk } : Server δ) :=
    ⟨by simp, fun _ => ⟨hc, fun _ => ⟨h1, rfl, rfl, fun _ => rfl⟩, by simp⟩⟩
  refine ⟨_, rfl, ?_⟩
  cases e with
  | some x =>
    unfold exit; dsimp only
    rw [if_pos (he x rfl), if_pos (by simp [hc]), hrb]
    exact ⟨rfl, he, hrel⟩
  | none =>
    unfold exit; dsimp only
    cases doomed with
    | true =>
      have h3f : s.status = .failed := h3
      rw [if_pos h3f, if_pos (by simp [hc]), hrb]
      exact ⟨rfl, by simp [Exc.isException], hrel⟩
    | false =>
      have hst : s.status = .active := h3
      rw [if_neg (by rw [hst]; simp)]
      have : commit env ⟨.plain, id, .opened, some .savepoint⟩ s = (none, ⟨.plain, id, .committed, some .savepoint⟩, { s with stack := stk }) := by
        unfold commit
        rw [if_neg (by simp), if_neg (by simp)]
        have : execute env s (endCmd ⟨.plain, id, .opened, some .savepoint⟩) = (none, { s with stack := stk }) := by
          unfold execute endCmd
          rw [if_neg (by simp [hc]), if_neg (by simp)]
          dsimp only
          rw [hst]
          dsimp only
          rw [h2, find_head]
        rw [this]
      rw [this]
      exact ⟨rfl, by simp, by simp, fun _ => ⟨hc, fun _ => ⟨h1, rfl, hst, fun _ => h4 rfl⟩, by simp⟩⟩

/-- A transaction block, left. -/
theorem exit_block (env : δ → Commit) (conf : Conf) (id : Nat) (base : δ) (stk : List (Nat × δ)) (d : δ) (doomed : Bool) (s : Server δ) (e : Option Exc)
    (h : Rel true base stk d doomed false s) (he : ∀ x, e = some x → x.isException = true) :
    ∃ r, exit env ⟨conf, id, .opened, some .block⟩ s e = r ∧ (∀ x, r.1 = some x → x.isException = true) ∧
      ((e.isSome || doomed) = true → r.1.isSome = true ∧ Rel false base [] base false false r.2) ∧
      ((e.isSome || doomed) = false → match env d with
        | .ok => r.1.isSome = false ∧ Rel false base [] d false false r.2
        | .error _ => r.1.isSome = true ∧ Rel false base [] base false false r.2
        | .lost done => r.1.isSome = true ∧ Rel false base [] (if done then d else base) false true r.2) := by
  obtain ⟨hc, hin, _⟩ := h.2 rfl
  obtain ⟨h1, h2, h3, h4⟩ := hin rfl
  have hrb : rollback env ⟨conf, id, .opened, some .block⟩ s = (none, ⟨conf, id, .aborted, some .block⟩, { s with status := .idle, stack := [] }) := by
    unfold rollback
    rw [if_neg (by simp), if_neg (by simp)]
    dsimp only
    have : execute env s .abort = (none, { s with status := .idle, stack := [] }) := by
      unfold execute
      rw [if_neg (by simp [hc])]
    rw [this]
  have hrel : Rel false base [] base false false ({ s with status := .idle, stack := [] } : Server δ) :=
    ⟨by simp, fun _ => ⟨hc, by simp, fun _ => ⟨rfl, rfl, h1⟩⟩⟩
  refine ⟨_, rfl, ?_⟩
  cases e with
  | some x =>
    unfold exit; dsimp only
    rw [if_pos (he x rfl), if_pos (by simp [hc]), hrb]
    exact ⟨he, fun _ => ⟨rfl, hrel⟩, by simp⟩
  | none =>
    unfold exit; dsimp only
    cases doomed with
    | true =>
      have h3f : s.status = .failed := h3
      rw [if_pos h3f, if_pos (by simp [hc]), hrb]
      exact ⟨by simp [Exc.isException], fun _ => ⟨rfl, hrel⟩, by simp⟩
    | false =>
      have hst : s.status = .active := h3
      have hcur := h4 rfl
      rw [if_neg (by rw [hst]; simp)]
      have hcm : ∀ r : Option Exc × Server δ, execute env s .commit = r → commit env ⟨conf, id, .opened, some .block⟩ s =
          match r with | (some e, s) => (some e, ⟨conf, id, .opened, some .block⟩, s) | (none, s) => (none, ⟨conf, id, .committed, some .block⟩, s) := by
        intro r hr
        unfold commit
        rw [if_neg (by simp), if_neg (by simp)]
        have : (endCmd ⟨conf, id, .opened, some .block⟩ : Cmd δ) = .commit := by unfold endCmd; rw [if_pos rfl]
        rw [this, hr]
        obtain ⟨e, s'⟩ := r
        cases e <;> rfl
      cases hd : env d with
      | ok =>
        have : execute env s .commit = (none, { s with status := .idle, committed := s.current, stack := [] }) := by
          unfold execute
          rw [if_neg (by simp [hc])]
          dsimp only
          rw [hst]
          dsimp only
          rw [hcur, hd]
        rw [hcm _ this]
        refine ⟨by simp, by simp, fun _ => ⟨rfl, by simp, fun _ => ⟨hc, by simp, fun _ => ⟨rfl, rfl, hcur⟩⟩⟩⟩
      | error a =>
        have : execute env s .commit = (some (if a then .activeTransaction else .error), { s with status := .idle, stack := [] }) := by
          unfold execute
          rw [if_neg (by simp [hc])]
          dsimp only
          rw [hst]
          dsimp only
          rw [hcur, hd]
        rw [hcm _ this]
        cases a with
        | false => exact ⟨by simp [Exc.isException], by simp, fun _ => ⟨rfl, hrel⟩⟩
        | true =>
          have hrb2 : rollback env ⟨conf, id, .opened, some .block⟩ { s with status := .idle, stack := [] } =
              (none, ⟨conf, id, .aborted, some .block⟩, { s with status := .idle, stack := [] }) := by
            unfold rollback
            rw [if_neg (by simp), if_neg (by simp)]
            dsimp only
            have : execute env { s with status := .idle, stack := [] } .abort = (none, { s with status := .idle, stack := [] }) := by
              unfold execute
              rw [if_neg (by simp [hc])]
            rw [this]
          simp only [if_true]
          rw [hrb2, if_pos (by simp [hc])]
          exact ⟨by simp [Exc.isException], by simp, fun _ => ⟨rfl, hrel⟩⟩
      | lost done =>
        have : execute env s .commit = (some .error, { s with committed := if done then s.current else s.committed, closed := true }) := by
          unfold execute
          rw [if_neg (by simp [hc])]
          dsimp only
          rw [hst]
          dsimp only
          rw [hcur, hd]
        rw [hcm _ this]
        refine ⟨by simp [Exc.isException], by simp, fun _ => ⟨rfl, fun _ => ⟨rfl, ?_⟩, by simp⟩⟩
        dsimp only
        rw [hcur, h1]
        simp

theorem exec_seq (env : δ → Commit) (p q : Prog δ) (s : Server δ) : exec env (.seq p q) s = if (exec env p s).1.isSome then exec env p s else exec env q (exec env p s).2 := by
  rw [exec]
  cases hp : exec env p s with
  | mk e s' => cases e <;> rfl

theorem exec_try (env : δ → Commit) (p q : Prog δ) (s : Server δ) (h : ∀ x, (exec env p s).1 = some x → x.isException = true) :
    exec env (.tryExcept p q) s = if (exec env p s).1.isSome then exec env q (exec env p s).2 else exec env p s := by
  rw [exec]
  cases hp : exec env p s with
  | mk e s' =>
    cases e with
    | none => rfl
    | some x =>
      rw [hp] at h
      have := h x rfl
      dsimp only
      rw [if_pos this]
      rfl

theorem exec_rel (env : δ → Commit) : ∀ (p : Prog δ), NoInterrupt p → ∀ (inside : Bool) (base : δ) (stk : List (Nat × δ)) (d : δ) (doomed lost : Bool) (s : Server δ),
    Rel inside base stk d doomed lost s →
    let r := Spec.meaning env p inside d doomed lost
    Rel inside base stk r.data r.doomed r.lost (exec env p s).2 ∧ (exec env p s).1.isSome = r.raised ∧ ∀ x, (exec env p s).1 = some x → x.isException = true
  | .skip, _, inside, base, stk, d, doomed, lost, s, h => ⟨h, rfl, by simp [exec]⟩
  | .raise, _, inside, base, stk, d, doomed, lost, s, h => ⟨h, rfl, by simp [exec, Exc.isException]⟩
  | .interrupt, hn, _, _, _, _, _, _, _, _ => hn.elim
  | .die, _, inside, base, stk, d, doomed, lost, s, h => by
    refine ⟨⟨fun _ => ⟨rfl, ?_⟩, by simp [Spec.meaning]⟩, rfl, by simp [exec, Exc.isException]⟩
    cases lost with
    | true => exact (h.1 rfl).2
    | false =>
      obtain ⟨_, h2, h3⟩ := h.2 rfl
      cases inside with
      | true => exact (h2 rfl).1
      | false => exact (h3 rfl).2.2
  | .stmt f, _, inside, base, stk, d, doomed, lost, s, h => by
    dsimp only
    cases lost with
    | true =>
      have : exec env (.stmt f) s = (some .error, s) := execute_closed env s _ (h.1 rfl).1
      rw [this]
      unfold Spec.meaning
      exact ⟨h, rfl, by simp [Exc.isException]⟩
    | false =>
      obtain ⟨hc, h2, h3⟩ := h.2 rfl
      cases inside with
      | true =>
        obtain ⟨g1, g2, g3, g4⟩ := h2 rfl
        cases doomed with
        | true =>
          have : exec env (.stmt f) s = (some .error, s) := by
            simp only [exec]
            unfold execute
            rw [if_neg (by simp [hc])]
            dsimp only
            rw [g3]
            rfl
          rw [this]
          exact ⟨h, rfl, by simp [Exc.isException]⟩
        | false =>
          have hst : s.status = .active := g3
          have hcur := g4 rfl
          unfold Spec.meaning
          rw [if_neg (by simp)]
          simp only [exec]
          unfold execute
          rw [if_neg (by simp [hc])]
          dsimp only
          rw [hst]
          dsimp only
          rw [hcur]
          cases hf : f d with (dsimp only)
          | some d' =>
            exact ⟨⟨by simp, fun _ => ⟨hc, fun _ => ⟨g1, g2, rfl, fun _ => rfl⟩, by simp⟩⟩, rfl, by simp⟩
          | none =>
            refine ⟨⟨by simp, fun _ => ⟨hc, fun _ => ⟨g1, g2, ?_, by simp⟩, by simp⟩⟩, rfl, by simp [Exc.isException]⟩
            simp [Server.fail, hst]
      | false =>
        obtain ⟨rfl, g2, g3⟩ := h3 rfl
        unfold Spec.meaning
        rw [if_neg (by simp)]
        simp only [exec]
        unfold execute
        rw [if_neg (by simp [hc])]
        dsimp only
        rw [g2]
        dsimp only
        rw [g3]
        cases hf : f d with (dsimp only)
        | some d' => exact ⟨⟨by simp, fun _ => ⟨hc, by simp, fun _ => ⟨rfl, rfl, rfl⟩⟩⟩, rfl, by simp⟩
        | none => exact ⟨⟨by simp, fun _ => ⟨hc, by simp, fun _ => ⟨rfl, g2, g3⟩⟩⟩, rfl, by simp [Exc.isException]⟩
  | .seq p q, hn, inside, base, stk, d, doomed, lost, s, h => by
    obtain ⟨i1, i2, i3⟩ := exec_rel env p hn.1 inside base stk d doomed lost s h
    rw [Spec.meaning, exec_seq, i2]
    dsimp only
    cases hr : (Spec.meaning env p inside d doomed lost).raised with
    | true => exact ⟨i1, i2, i3⟩
    | false => exact exec_rel env q hn.2 inside base stk _ _ _ _ i1
  | .tryExcept p q, hn, inside, base, stk, d, doomed, lost, s, h => by
    obtain ⟨i1, i2, i3⟩ := exec_rel env p hn.1 inside base stk d doomed lost s h
    rw [Spec.meaning, exec_try env p q s i3, i2]
    dsimp only
    cases hr : (Spec.meaning env p inside d doomed lost).raised with
    | true => exact exec_rel env q hn.2 inside base stk _ _ _ _ i1
    | false => exact ⟨i1, i2, i3⟩
  | .block conf id p, hn, inside, base, stk, d, doomed, lost, s, h => by
    dsimp only
    rw [Spec.meaning]
    rw [exec]
    cases lost with
    | true =>
      obtain ⟨t, ht⟩ := start_closed env conf id s (h.1 rfl).1
      rw [ht]
      exact ⟨h, rfl, by simp [Exc.isException]⟩
    | false =>
      obtain ⟨hc, h2, h3⟩ := h.2 rfl
      cases inside with
      | true =>
        obtain ⟨g1, g2, g3, g4⟩ := h2 rfl
        have hni : s.status ≠ .idle := by rw [g3]; cases doomed <;> simp
        have hstart : start env (new conf id) s = if conf ≠ .plain then (some .error, ⟨conf, id, .initialized, some .savepoint⟩, s) else
            match execute env s (.savepoint id) with
            | (some e, s) => (some e, ⟨conf, id, .initialized, some .savepoint⟩, s)
            | (none, s) => (none, ⟨conf, id, .opened, some .savepoint⟩, s) := by
          unfold start new
          rw [if_neg (by simp), if_neg (by simp), if_neg hni]
          rfl
        rw [hstart]
        cases doomed with
        | true =>
          have hex : execute env s (.savepoint id) = (some .error, s) := by
            unfold execute
            rw [if_neg (by simp [hc])]
            dsimp only
            rw [g3]
            simp only [if_true]
            congr 1
            unfold Server.fail
            rw [if_neg hni]
            cases s
            simp_all
          rw [hex, if_pos (by simp)]
          by_cases hcf : conf ≠ .plain
          · rw [if_pos hcf]; exact ⟨h, rfl, by simp [Exc.isException]⟩
          · rw [if_neg hcf]; exact ⟨h, rfl, by simp [Exc.isException]⟩
        | false =>
          have hst : s.status = .active := g3
          by_cases hcf : conf ≠ .plain
          · rw [if_pos hcf, if_pos (by simp [hcf])]
            exact ⟨h, rfl, by simp [Exc.isException]⟩
          · have hcf : conf = .plain := by simpa using hcf
            subst hcf
            have hcond : (false || false || if true = true then (Conf.plain != .plain) else (Conf.plain == .bad || Conf.plain == .semicolon)) = false := rfl
            have hpl : ¬ Conf.plain ≠ Conf.plain := by simp
            rw [if_neg hpl, hcond, if_neg Bool.false_ne_true]
            have hex : execute env s (.savepoint id) = (none, { s with stack := (id, s.current) :: s.stack }) := by
              unfold execute
              rw [if_neg (by simp [hc])]
              dsimp only
              rw [hst]
            rw [hex]
            dsimp only
            have hcur := g4 rfl
            have hrel0 : Rel true base ((id, d) :: stk) d false false ({ s with stack := (id, s.current) :: s.stack } : Server δ) :=
              ⟨by simp, fun _ => ⟨hc, fun _ => ⟨g1, by dsimp only; rw [hcur, g2], hst, fun _ => hcur⟩, by simp⟩⟩
            obtain ⟨i1, i2, i3⟩ := exec_rel env p hn true base ((id, d) :: stk) d false false _ hrel0
            generalize Spec.meaning env p true d false false = r at i1 i2
            generalize exec env p { s with stack := (id, s.current) :: s.stack } = x at i1 i2 i3
            cases hl : r.lost with
            | true =>
              rw [hl] at i1
              rw [if_pos rfl]
              obtain ⟨y, hy, hye⟩ := exit_closed env ⟨.plain, id, .opened, some .savepoint⟩ x.2 x.1 (i1.1 rfl).1 rfl i3
              rw [hy]
              refine ⟨⟨fun _ => ⟨(i1.1 rfl).1, (i1.1 rfl).2⟩, by simp⟩, rfl, ?_⟩
              intro z hz
              obtain rfl : y = z := by simpa using hz
              exact hye
            | false =>
              rw [hl] at i1
              rw [if_neg (by simp)]
              obtain ⟨y, hy, k1, k2, k3⟩ := exit_savepoint env id d base stk r.data r.doomed x.2 x.1 i1 i3
              rw [hy]
              rw [i2] at k1 k3
              cases hrd : (r.raised || r.doomed) with
              | true =>
                rw [hrd] at k1 k3
                rw [if_pos rfl]
                exact ⟨k3, k1, k2⟩
              | false =>
                rw [hrd] at k1 k3
                rw [if_neg (by simp), if_pos rfl]
                exact ⟨k3, k1, k2⟩
      | false =>
        obtain ⟨rfl, g2, g3⟩ := h3 rfl
        have hstart : start env (new conf id) s = if conf = .semicolon then (some .error, ⟨conf, id, .initialized, some .block⟩, s) else
            match execute env s (.start (conf ≠ .bad)) with
            | (some e, s) => (some e, ⟨conf, id, .initialized, some .block⟩, s)
            | (none, s) => (none, ⟨conf, id, .opened, some .block⟩, s) := by
          unfold start new
          rw [if_neg (by simp), if_neg (by simp), if_pos g2]
          rfl
        rw [hstart]
        by_cases hsc : conf = .semicolon
        · subst hsc
          rw [if_pos rfl, if_pos (by simp)]
          exact ⟨h, rfl, by simp [Exc.isException]⟩
        · rw [if_neg hsc]
          by_cases hb : conf = .bad
          · subst hb
            have hex : execute env s (.start (decide (Conf.bad ≠ .bad))) = (some .error, s) := by
              unfold execute
              rw [if_neg (by simp [hc])]
              dsimp only
              rw [g2]
              rfl
            rw [hex, if_pos (by simp)]
            exact ⟨h, rfl, by simp [Exc.isException]⟩
          · have hex : execute env s (.start (decide (conf ≠ .bad))) = (none, { s with status := .active, current := s.committed, stack := [] }) := by
              unfold execute
              rw [if_neg (by simp [hc])]
              dsimp only
              rw [g2]
              dsimp only
              rw [if_pos (by simpa using hb)]
            rw [hex, if_neg (by simp [hb, hsc])]
            dsimp only
            have hrel0 : Rel true d [] d false false ({ s with status := .active, current := s.committed, stack := [] } : Server δ) :=
              ⟨by simp, fun _ => ⟨hc, fun _ => ⟨g3, rfl, rfl, fun _ => g3⟩, by simp⟩⟩
            obtain ⟨i1, i2, i3⟩ := exec_rel env p hn true d [] d false false _ hrel0
            generalize Spec.meaning env p true d false false = r at i1 i2
            generalize exec env p { s with status := .active, current := s.committed, stack := [] } = x at i1 i2 i3
            cases hl : r.lost with
            | true =>
              rw [hl] at i1
              rw [if_pos rfl]
              obtain ⟨y, hy, hye⟩ := exit_closed env ⟨conf, id, .opened, some .block⟩ x.2 x.1 (i1.1 rfl).1 rfl i3
              rw [hy]
              refine ⟨⟨fun _ => ⟨(i1.1 rfl).1, (i1.1 rfl).2⟩, by simp⟩, rfl, ?_⟩
              intro z hz
              obtain rfl : y = z := by simpa using hz
              exact hye
            | false =>
              rw [hl] at i1
              rw [if_neg (by simp)]
              obtain ⟨y, hy, k1, k2, k3⟩ := exit_block env conf id d [] r.data r.doomed x.2 x.1 i1 i3
              rw [hy]
              rw [i2] at k2 k3
              have hweak : ∀ (b : Bool) (z : δ) (l : Bool), Rel false d [] z b l y.2 → Rel false base stk z b l y.2 := by
                intro b z l hz
                exact ⟨hz.1, fun hl => ⟨(hz.2 hl).1, by simp, (hz.2 hl).2.2⟩⟩
              cases hrd : (r.raised || r.doomed) with
              | true =>
                rw [if_pos rfl]
                obtain ⟨q1, q2⟩ := k2 hrd
                exact ⟨hweak _ _ _ q2, q1, k1⟩
              | false =>
                rw [if_neg (by simp), if_neg (by simp)]
                have k3 := k3 hrd
                cases hd : env r.data with
                | ok =>
                  rw [hd] at k3
                  exact ⟨hweak _ _ _ k3.2, k3.1, k1⟩
                | error a =>
                  rw [hd] at k3
                  exact ⟨hweak _ _ _ k3.2, k3.1, k1⟩
                | lost done =>
                  rw [hd] at k3
                  exact ⟨hweak _ _ _ k3.2, k3.1, k1⟩

/-- **C40.** Any program of statements, `raise`, `try`, and `with db.xact()` blocks nested to any depth, started when the connection is idle, with any server (statements and COMMIT may fail, the connection may be lost at
any point), leaves in the database what its meaning says, raises when its meaning raises, and leaves the connection idle again (unless it is lost). -/
theorem C40_meaning_partial (env : δ → Commit) (p : Prog δ) (hp : NoInterrupt p) (d x : δ) (l : List (Nat × δ)) :
    let r := Spec.meaning env p false d false false
    let o := exec env p ⟨d, .idle, x, l, false⟩
    o.2.committed = r.data ∧ o.1.isSome = r.raised ∧ o.2.closed = r.lost ∧ (r.lost = false → o.2.status = .idle) := by
  obtain ⟨h1, h2, _⟩ := exec_rel env p hp false d [] d false false ⟨d, .idle, x, l, false⟩ ⟨by simp, fun _ => ⟨rfl, by simp, fun _ => ⟨rfl, rfl, rfl⟩⟩⟩
  dsimp only at h1 h2 ⊢
  cases hl : (Spec.meaning env p false d false false).lost with
  | true =>
    obtain ⟨k1, k2⟩ := h1.1 hl
    exact ⟨k2, h2, k1, by simp⟩
  | false =>
    obtain ⟨k1, _, k3⟩ := h1.2 hl
    obtain ⟨_, q2, q3⟩ := k3 rfl
    exact ⟨q3, h2, k1, fun _ => q2⟩

/-- **C40 (atomic).** A `with` block that is not in another one, that starts idle: if it raises and the connection lives, nothing of it is in the database; if it does not raise, all of it is. -/
theorem C40_atomic_partial (env : δ → Commit) (conf : Conf) (id : Nat) (p : Prog δ) (hp : NoInterrupt p) (d x : δ) (l : List (Nat × δ)) :
    let o := exec env (.block conf id p) ⟨d, .idle, x, l, false⟩
    (o.1 = none → o.2.committed = (Spec.meaning env p true d false false).data) ∧ (o.1.isSome = true → o.2.closed = false → o.2.committed = d) ∧
    (o.2.committed = d ∨ o.2.committed = (Spec.meaning env p true d false false).data) := by
  obtain ⟨h1, h2, h3, _⟩ := C40_meaning_partial env (.block conf id p) hp d x l
  dsimp only at *
  rw [h1, h3]
  have hn : (exec env (.block conf id p) ⟨d, .idle, x, l, false⟩).1 = none ↔ (Spec.meaning env (.block conf id p) false d false false).raised = false := by
    rw [← h2]; simp
  rw [hn, h2]
  clear h1 h2 h3 hn
  rw [Spec.meaning]
  dsimp only
  rw [if_neg Bool.false_ne_true, if_neg Bool.false_ne_true]
  split
  · exact ⟨by simp, by simp, Or.inl rfl⟩
  · split
    · exact ⟨by simp, by simp, Or.inl rfl⟩
    · split
      · exact ⟨by simp, by simp, Or.inl rfl⟩
      · split
        · exact ⟨by simp, by simp, Or.inr rfl⟩
        · exact ⟨by simp, by simp, Or.inl rfl⟩
        · rename_i done _
          refine ⟨by simp, by simp, ?_⟩
          cases done
          · exact Or.inl rfl
          · exact Or.inr rfl

/-- A statement that adds a number, and one that fails. -/
def add (n : Nat) : Prog Nat := .stmt fun d => some (d + n)
/-- A statement that fails. -/
def bad : Prog Nat := .stmt fun _ => none

/-- Inner blocks that fail are undone alone; a failure that is caught without leaving the block undoes the block; COMMIT may fail. -/
example : let env : Nat → Commit := fun d => if d = 13 then .error true else .ok
    let s : Server Nat := ⟨1, .idle, 0, [], false⟩
    exec env (.block .good 7 (.seq (add 10) (.seq (.tryExcept (.block .plain 8 (.seq (add 100) bad)) .skip) (.block .plain 7 (add 5))))) s = (none, ⟨16, .idle, 16, [], false⟩) ∧
    exec env (.block .plain 7 (.seq (add 10) (.seq (.tryExcept bad .skip) .skip))) s = (some .error, ⟨1, .idle, 11, [], false⟩) ∧
    exec env (.block .plain 7 (add 12)) s = (some .activeTransaction, ⟨1, .idle, 13, [], false⟩) ∧
    exec env (.block .plain 7 (.seq (add 12) .die)) s = (some .error, ⟨1, .active, 13, [], true⟩) ∧
    (exec env (.block .plain 7 (.block .good 7 (add 12))) s).1 = some .error := by decide

example : NoInterrupt (.block .good 7 (.seq (add 10) (.seq (.tryExcept (.block .plain 8 (.seq (add 100) bad)) .skip) (.block .plain 7 (add 5))))) := by simp [NoInterrupt, add, bad]

/-! ## The object -/

/-- **C40 (the end is the end).** A transaction that was committed or rolled back sends nothing any more: repeating the same end does nothing, everything else raises. -/
theorem C40_finished (env : δ → Commit) (t : Tx) (s : Server δ) :
    (t.state = .committed → commit env t s = (none, t, s) ∧ rollback env t s = (some .error, t, s) ∧ start env t s = (some .error, t, s)) ∧
    (t.state = .aborted → rollback env t s = (none, t, s) ∧ commit env t s = (some .error, t, s) ∧ start env t s = (some .error, t, s)) ∧
    (t.state = .initialized → rollback env t s = (some .error, t, s) ∧ commit env t s = (some .error, t, s)) ∧
    (t.state = .opened → start env t s = (none, t, s)) := by
  refine ⟨fun h => ?_, fun h => ?_, fun h => ?_, fun h => ?_⟩ <;> simp [commit, rollback, start, h]

/-- The states an object goes through. -/
def rank : State → Nat
  | .initialized => 0
  | .opened => 1
  | .committed => 2
  | .aborted => 2

/-- What can be called on an object. -/
inductive Call where
  | start
  | commit
  | rollback

/-- One call. -/
def call (env : δ → Commit) (t : Tx) (s : Server δ) : Call → Option Exc × Tx × Server δ
  | .start => start env t s
  | .commit => commit env t s
  | .rollback => rollback env t s

/-- The states after each of the calls, whatever the server is like at each. -/
def states (env : δ → Commit) (t : Tx) : List (Call × Server δ) → List State
  | [] => []
  | (c, s) :: cs => (call env t s c).2.1.state :: states env (call env t s c).2.1 cs

theorem call_state (env : δ → Commit) (t : Tx) (s : Server δ) (c : Call) : (call env t s c).2.1.state = t.state ∨ rank (call env t s c).2.1.state = rank t.state + 1 := by
  have hr : ∀ (k : State) (r : Option Exc × Server δ) (t : Tx), rank k = rank t.state + 1 →
      (match r with | (some e, s) => ((some e, t, s) : Option Exc × Tx × Server δ) | (none, s) => (none, { t with state := k }, s)).2.1.state = t.state ∨
      rank (match r with | (some e, s) => ((some e, t, s) : Option Exc × Tx × Server δ) | (none, s) => (none, { t with state := k }, s)).2.1.state = rank t.state + 1 := by
    intro k r t hk
    obtain ⟨e, s'⟩ := r
    cases e with
    | none => exact Or.inr hk
    | some e => exact Or.inl rfl
  cases c with
  | start =>
    simp only [call]
    unfold start
    split
    · exact Or.inl rfl
    · split
      · exact Or.inl rfl
      · rename_i h1 h2
        have h2 : t.state = .initialized := by simpa using h2
        split
        · dsimp only
          split
          · exact Or.inl rfl
          · exact hr .opened _ { t with kind := some .block } (by simp [rank, h2])
        · dsimp only
          split
          · exact Or.inl rfl
          · exact hr .opened _ { t with kind := some .savepoint } (by simp [rank, h2])
  | commit =>
    simp only [call]
    unfold commit
    split
    · exact Or.inl rfl
    · split
      · exact Or.inl rfl
      · rename_i h1 h2
        have h2 : t.state = .opened := by simpa using h2
        exact hr .committed _ t (by simp [rank, h2])
  | rollback =>
    simp only [call]
    unfold rollback
    split
    · exact Or.inl rfl
    · split
      · exact Or.inl rfl
      · rename_i h1 h2
        have h2 : t.state = .opened := by simpa using h2
        split
        · exact Or.inl rfl
        · exact hr .aborted _ t (by simp [rank, h2])

/-- **C40 (states).** Whatever is called on a transaction, in whatever order, and whatever the server does in between and answers, its states go forward only: initialized, open, then committed or aborted for good. -/
theorem C40_states (env : δ → Commit) : ∀ (calls : List (Call × Server δ)) (t : Tx),
    (t.state :: states env t calls).Pairwise fun a b => a = b ∨ rank a < rank b
  | [], t => by simp [states]
  | (c, s) :: cs, t => by
    have ih := C40_states env cs (call env t s c).2.1
    rw [List.pairwise_cons]
    refine ⟨fun b hb => ?_, ih⟩
    have h1 := call_state env t s c
    have h2 : b = (call env t s c).2.1.state ∨ rank (call env t s c).2.1.state < rank b := by
      rw [List.pairwise_cons] at ih
      simp only [states, List.mem_cons] at hb
      rcases hb with rfl | hb
      · exact Or.inl rfl
      · rcases ih.1 b hb with h | h
        · exact Or.inl h.symm
        · exact Or.inr h
    rcases h1 with h1 | h1
    · rcases h2 with h2 | h2
      · left; rw [h2, h1]
      · right; rw [← h1]; exact h2
    · right
      rcases h2 with h2 | h2
      · rw [h2, h1]; omega
      · omega

/-! ## `_start_xact_string` -/

/-- **C40 (one statement).** What starts a transaction is one statement whatever isolation and mode are given: the only semicolon is the last character. -/
theorem C40_one_statement (isolation mode : Option Str) (q : Str) (h : startString isolation mode = some q) : ∃ body, q = body ++ [';'] ∧ ';' ∉ body := by
  unfold startString at h
  split at h
  · split at h
    · simp at h
    · rename_i hi
      split at h
      · split at h
        · simp at h
        · rename_i hm
          obtain rfl := Option.some.inj h
          refine ⟨_, rfl, ?_⟩
          simp only [List.mem_append, not_or]
          exact ⟨⟨⟨by decide, hi⟩, by decide⟩, hm⟩
      · obtain rfl := Option.some.inj h
        refine ⟨_, rfl, ?_⟩
        simp only [List.mem_append, not_or]
        exact ⟨by decide, hi⟩
  · split at h
    · split at h
      · simp at h
      · rename_i hm
        obtain rfl := Option.some.inj h
        refine ⟨_, rfl, ?_⟩
        simp only [List.mem_append, not_or]
        exact ⟨by decide, hm⟩
    · obtain rfl := Option.some.inj h
      exact ⟨_, rfl, by decide⟩

example : startString (some "SERIALIZABLE".toList) (some "READ ONLY".toList) = some "START TRANSACTION ISOLATION LEVEL SERIALIZABLE READ ONLY;".toList := by decide

/-! ## Where it fails -/

/-- **An interrupt leaves the transaction open.** When a block is left by an exception that is not an `Exception` (`KeyboardInterrupt`, or `GeneratorExit` in a generator), nothing is sent; the next block is then only a
savepoint of the one that was left: it ends without an exception and nothing is committed. -/
theorem C40_interrupt (env : δ → Commit) (a b : Nat) (f g : δ → Option δ) (d d1 d2 x : δ) (hf : f d = some d1) (hg : g d1 = some d2) :
    let left := exec env (.block .plain a (.seq (.stmt f) .interrupt)) ⟨d, .idle, x, [], false⟩
    let next := exec env (.block .plain b (.stmt g)) left.2
    left.1 = some .base ∧ next.1 = none ∧ next.2 = ⟨d, .active, d2, [], false⟩ := by
  simp [exec, start, new, execute, hf, hg, exit, Exc.isException, commit, endCmd, find]

/-- **Rolling back in the block.** A block that is left without an exception after the program rolled it back itself raises. -/
theorem C40_rolled_back (env : δ → Commit) (t : Tx) (s : Server δ) (hc : s.closed = false) (ht : t.state = .opened) (hk : t.kind = some .block) :
    let r := rollback env t s
    r.1 = none ∧ exit env r.2.1 r.2.2 none = (some .error, r.2.2) ∧ r.2.2.status = .idle := by
  simp [rollback, ht, hk, execute, hc, exit, commit]

end PG.Transaction
