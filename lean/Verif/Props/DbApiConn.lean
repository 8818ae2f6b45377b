import Verif.Spec.DbApiConn
/-! # DB-API connections (C48) -/
namespace PG.DbApiConn
open PG PG.Transaction
variable {δ : Type}

/-- Whether a call raised. -/
def Out.isRaise : Out → Bool
  | .ok => false
  | _ => true

/-- How the object and the server stand to the meaning. -/
def Rel (m : Spec.St δ) (db : Db δ) : Prop :=
  db.server.closed = m.closed ∧ db.server.committed = m.saved ∧ db.flag = true ∧ db.xact.isNone = m.auto ∧
  (m.closed = true → ∀ t, db.xact = some t → t.state = .opened ∨ t.state = .initialized) ∧
  (m.closed = false → (m.auto = true → db.server.status = .idle) ∧
    (m.auto = false → (∃ id, db.xact = some ⟨.plain, id, .opened, some .block⟩) ∧ db.server.status = (if m.bad then .failed else .active) ∧ (m.bad = false → db.server.current = m.work)))

theorem rollback_closed (env : δ → Commit) (t : Tx) (s : Server δ) (h : s.closed = true) (ht : t.state = .opened ∨ t.state = .initialized) :
    Transaction.rollback env t s = (some .error, t, s) := by
  have : ∀ c, execute env s c = (some .error, s) := by intro c; unfold execute; rw [if_pos h]
  unfold Transaction.rollback
  rcases ht with ht | ht
  · rw [if_neg (by rw [ht]; simp), if_neg (by rw [ht]; simp)]
    cases t.kind with
    | none => rfl
    | some k => dsimp only; rw [this]
  · rw [if_neg (by rw [ht]; simp), if_pos (by rw [ht]; simp)]

theorem commit_closed (env : δ → Commit) (t : Tx) (s : Server δ) (h : s.closed = true) (ht : t.state = .opened ∨ t.state = .initialized) :
    Transaction.commit env t s = (some .error, t, s) := by
  have : ∀ c, execute env s c = (some .error, s) := by intro c; unfold execute; rw [if_pos h]
  unfold Transaction.commit
  rcases ht with ht | ht
  · rw [if_neg (by rw [ht]; simp), if_neg (by rw [ht]; simp), this]
  · rw [if_neg (by rw [ht]; simp), if_pos (by rw [ht]; simp)]

theorem restart_idle (env : δ → Commit) (id : Nat) (s : Server δ) (flag : Bool) (hs : s.status = .idle) (hc : s.closed = false) :
    restart env id s flag = (.ok, ⟨{ s with status := .active, current := s.committed, stack := [] }, some ⟨.plain, id, .opened, some .block⟩, flag⟩) := by
  simp [restart, start, new, hs, execute, hc]

theorem restart_closed (env : δ → Commit) (id : Nat) (s : Server δ) (flag : Bool) (hc : s.closed = true) :
    ∃ t, restart env id s flag = (.raised .error, ⟨s, some t, flag⟩) ∧ t.state = .initialized := by
  by_cases hs : s.status = .idle <;> simp [restart, start, new, hs, execute, hc]

/-- A new transaction of an idle server. -/
theorem restart_rel (env : δ → Commit) (id : Nat) (s : Server δ) (m : Spec.St δ) (hs : s.status = .idle) (hc : s.closed = false) (hm : m.closed = false) (hd : s.committed = m.saved) :
    (restart env id s true).1 = .ok ∧ Rel m.fresh (restart env id s true).2 := by
  rw [restart_idle env id s true hs hc]
  refine ⟨rfl, ?_⟩
  simp [Rel, Spec.St.fresh, hc, hm, hd]

theorem step_rel (env : δ → Commit) (henv : ∀ d a, env d ≠ .error a) (id : Nat) (m : Spec.St δ) (db : Db δ) (h : Rel m db) (o : Op δ) :
    (step env id db o).1.isRaise = (Spec.step env m o).1 ∧ Rel (Spec.step env m o).2 (step env id db o).2 := by
  obtain ⟨h1, h2, h3, h4, h5, h6⟩ := h
  obtain ⟨s, x, fl⟩ := db
  obtain ⟨saved, work, auto, bad, closed⟩ := m
  dsimp only at *
  subst h1 h2 h3 h4
  cases hc : s.closed with
  | true =>
    have h5 := h5 hc
    cases o with
    | stmt f => simp [step, Spec.step, execute, hc, Out.isRaise, Rel]; exact h5
    | die => simp [step, Spec.step, Server.die, Out.isRaise, Rel]; exact h5
    | close => simp [step, Spec.step, close, hc, Out.isRaise, Rel]; exact h5
    | commit =>
      cases x with
      | none => simp [step, Spec.step, commit, hc, Out.isRaise, Rel]
      | some t => simp [step, Spec.step, commit, commit_closed env t s hc (h5 t rfl), hc, Out.isRaise, Rel]; exact h5 t rfl
    | rollback =>
      cases x with
      | none => simp [step, Spec.step, rollback, hc, Out.isRaise, Rel]
      | some t => simp [step, Spec.step, rollback, rollback_closed env t s hc (h5 t rfl), hc, Out.isRaise, Rel]; exact h5 t rfl
    | autocommit v =>
      cases x with
      | none =>
        cases v with
        | true => simp [step, Spec.step, setAutocommit, hc, Out.isRaise, Rel]
        | false =>
          obtain ⟨t, ht, hti⟩ := restart_closed env id s true hc
          simp [step, Spec.step, setAutocommit, ht, hc, Out.isRaise, Rel, Spec.St.fresh, hti]
      | some t =>
        cases v with
        | true => simp [step, Spec.step, setAutocommit, rollback_closed env t s hc (h5 t rfl), hc, Out.isRaise, Rel]; exact h5 t rfl
        | false => simp [step, Spec.step, setAutocommit, hc, Out.isRaise, Rel]; exact h5 t rfl
  | false =>
    obtain ⟨ha, hb⟩ := h6 hc
    clear h5 h6
    cases x with
    | none =>
      have ha := ha rfl
      cases o with
      | stmt f =>
        cases hf : f s.committed with
        | none => simp [step, Spec.step, execute, hc, ha, hf, Out.isRaise, Rel]
        | some d => simp [step, Spec.step, execute, hc, ha, hf, Out.isRaise, Rel]
      | die => simp [step, Spec.step, Server.die, Out.isRaise, Rel]
      | close => simp [step, Spec.step, close, Server.die, hc, Out.isRaise, Rel]
      | commit => simp [step, Spec.step, commit, hc, ha, Out.isRaise, Rel]
      | rollback => simp [step, Spec.step, rollback, hc, ha, Out.isRaise, Rel]
      | autocommit v =>
        cases v with
        | true => simp [step, Spec.step, setAutocommit, hc, ha, Out.isRaise, Rel]
        | false =>
          obtain ⟨r1, r2⟩ := restart_rel env id s ⟨s.committed, work, true, bad, false⟩ ha hc rfl rfl
          have e1 : step env id ⟨s, none, true⟩ (.autocommit false) = restart env id s true := rfl
          have e2 : Spec.step env ⟨s.committed, work, true, bad, false⟩ (.autocommit false) = (false, Spec.St.fresh ⟨s.committed, work, true, bad, false⟩) := rfl
          show (step env id ⟨s, none, true⟩ (.autocommit false)).1.isRaise = (Spec.step env ⟨s.committed, work, true, bad, false⟩ (.autocommit false)).1 ∧ _
          rw [e1]
          refine ⟨by rw [r1]; rfl, ?_⟩
          exact r2
    | some t =>
      obtain ⟨⟨tid, ht⟩, hst, hw⟩ := hb rfl
      obtain rfl : t = _ := Option.some.inj ht
      have hrb : Transaction.rollback env ⟨.plain, tid, .opened, some .block⟩ s = (none, ⟨.plain, tid, .aborted, some .block⟩, { s with status := .idle, stack := [] }) := by
        simp [Transaction.rollback, execute, hc]
      cases o with
      | stmt f =>
        cases bad with
        | true => simp at hst; simp [step, Spec.step, execute, hc, hst, Out.isRaise, Rel]
        | false =>
          simp at hst hw
          subst hw
          cases hf : f s.current with
          | none => simp [step, Spec.step, execute, hc, hst, hf, Out.isRaise, Rel, Server.fail]
          | some d => simp [step, Spec.step, execute, hc, hst, hf, Out.isRaise, Rel]
      | die => simp [step, Spec.step, Server.die, Out.isRaise, Rel]
      | close => simp [step, Spec.step, close, Server.die, hc, Out.isRaise, Rel]
      | commit =>
        cases bad with
        | true =>
          simp at hst
          have hcm : Transaction.commit env ⟨.plain, tid, .opened, some .block⟩ s = (none, ⟨.plain, tid, .committed, some .block⟩, { s with status := .idle, stack := [] }) := by
            simp [Transaction.commit, endCmd, execute, hc, hst]
          obtain ⟨r1, r2⟩ := restart_rel env id { s with status := .idle, stack := [] } ⟨s.committed, work, false, true, false⟩ rfl hc rfl rfl
          simp only [step, commit, hcm, r1]
          exact ⟨rfl, r2⟩
        | false =>
          simp at hst hw
          subst hw
          cases he : env s.current with
          | error a => exact absurd he (henv _ _)
          | ok =>
            have hcm : Transaction.commit env ⟨.plain, tid, .opened, some .block⟩ s = (none, ⟨.plain, tid, .committed, some .block⟩, { s with status := .idle, committed := s.current, stack := [] }) := by
              simp [Transaction.commit, endCmd, execute, hc, hst, he]
            obtain ⟨r1, r2⟩ := restart_rel env id { s with status := .idle, committed := s.current, stack := [] } ⟨s.current, s.current, false, false, false⟩ rfl hc rfl rfl
            simp only [step, commit, hcm, r1, Spec.step, he]
            exact ⟨rfl, r2⟩
          | lost done =>
            have hcm : Transaction.commit env ⟨.plain, tid, .opened, some .block⟩ s = (some .error, ⟨.plain, tid, .opened, some .block⟩, { s with committed := if done then s.current else s.committed, closed := true }) := by
              simp [Transaction.commit, endCmd, execute, hc, hst, he]
            simp [step, commit, hcm, Spec.step, he, Out.isRaise, Rel]
      | rollback =>
        obtain ⟨r1, r2⟩ := restart_rel env id { s with status := .idle, stack := [] } ⟨s.committed, work, false, bad, false⟩ rfl hc rfl rfl
        simp only [step, rollback, hrb, r1]
        exact ⟨rfl, r2⟩
      | autocommit v =>
        cases v with
        | true => simp [step, Spec.step, setAutocommit, hrb, hc, Out.isRaise, Rel, Spec.St.fresh]
        | false =>
          simp [step, Spec.step, setAutocommit, hc, Out.isRaise, Rel]
          exact ⟨hst, hw⟩

theorem run_rel (env : δ → Commit) (henv : ∀ d a, env d ≠ .error a) : ∀ (os : List (Op δ)) (id : Nat) (m : Spec.St δ) (db : Db δ), Rel m db →
    (run env id db os).1.map Out.isRaise = (Spec.run env m os).1 ∧ Rel (Spec.run env m os).2 (run env id db os).2
  | [], _, _, _, h => ⟨rfl, h⟩
  | o :: os, id, m, db, h => by
    obtain ⟨g1, g2⟩ := step_rel env henv id m db h o
    obtain ⟨i1, i2⟩ := run_rel env henv os (id + 1) _ _ g2
    refine ⟨?_, i2⟩
    simp only [run, Spec.run, List.map_cons]
    rw [g1, i1]

/-- **C48.** Any calls on a new DB-API connection, with statements that may fail and a connection that may be lost at any point: each raises exactly when its meaning raises, what is stored is what the meaning says,
`autocommit` reads what it means. Missing: servers on which COMMIT fails with an error; then the claim is false (`C48_failed_commit`). -/
theorem C48_meaning_partial (env : δ → Commit) (henv : ∀ d a, env d ≠ .error a) (os : List (Op δ)) (id : Nat) (d x : δ) (l : List (Nat × δ)) :
    let db := connect env id ⟨d, .idle, x, l, false⟩
    let r := run env (id + 1) db.2 os
    let m := Spec.run env ⟨d, d, false, false, false⟩ os
    db.1 = .ok ∧ r.1.map Out.isRaise = m.1 ∧ r.2.server.committed = m.2.saved ∧ r.2.server.closed = m.2.closed ∧ autocommit r.2 = m.2.auto := by
  have hco : connect env id ⟨d, .idle, x, l, false⟩ = (.ok, ⟨⟨d, .active, d, [], false⟩, some ⟨.plain, id, .opened, some .block⟩, true⟩) := by
    simp [connect, restart, start, new, execute]
  rw [hco]
  dsimp only
  have h0 : Rel (⟨d, d, false, false, false⟩ : Spec.St δ) ⟨⟨d, .active, d, [], false⟩, some ⟨.plain, id, .opened, some .block⟩, true⟩ := by simp [Rel]
  obtain ⟨k1, k2, k3, _, k5, _⟩ := run_rel env henv os (id + 1) _ _ h0
  exact ⟨rfl, k1, k3, k2, k5⟩

/-- The statements in order, when all succeed. -/
def applyAll : List (δ → Option δ) → δ → Option δ
  | [], d => some d
  | f :: fs, d => (f d).bind (applyAll fs)

theorem spec_append (env : δ → Commit) : ∀ (a b : List (Op δ)) (m : Spec.St δ), (Spec.run env m (a ++ b)).2 = (Spec.run env (Spec.run env m a).2 b).2
  | [], _, _ => rfl
  | o :: a, b, m => by
    simp only [List.cons_append, Spec.run]
    exact spec_append env a b _

theorem spec_stmts (env : δ → Commit) : ∀ (fs : List (δ → Option δ)) (m : Spec.St δ), m.auto = false → m.closed = false →
    ∃ w b, (Spec.run env m (fs.map .stmt)).2 = { m with work := w, bad := b } ∧ (m.bad = false → (match applyAll fs m.work with | some d => b = false ∧ w = d | none => b = true)) ∧ (m.bad = true → b = true)
  | [], m, _, _ => by
    refine ⟨m.work, m.bad, rfl, ?_, fun h => h⟩
    intro h; exact ⟨h, rfl⟩
  | f :: fs, ⟨saved, work, auto, bad, closed⟩, ha, hc => by
    dsimp only at ha hc
    subst ha hc
    simp only [List.map_cons, Spec.run]
    cases bad with
    | true =>
      obtain ⟨w, b, e1, _, e3⟩ := spec_stmts env fs ⟨saved, work, false, true, false⟩ rfl rfl
      exact ⟨w, b, e1, by simp, e3⟩
    | false =>
      cases hf : f work with
      | none =>
        obtain ⟨w, b, e1, _, e3⟩ := spec_stmts env fs ⟨saved, work, false, true, false⟩ rfl rfl
        refine ⟨w, b, ?_, ?_, by simp⟩
        · have : (Spec.step env ⟨saved, work, false, false, false⟩ (.stmt f)).2 = ⟨saved, work, false, true, false⟩ := by simp [Spec.step, hf]
          rw [this]; exact e1
        · intro _
          simp only [applyAll, hf, Option.bind]
          exact e3 rfl
      | some d =>
        obtain ⟨w, b, e1, e2, _⟩ := spec_stmts env fs ⟨saved, d, false, false, false⟩ rfl rfl
        refine ⟨w, b, ?_, ?_, by simp⟩
        · have : (Spec.step env ⟨saved, work, false, false, false⟩ (.stmt f)).2 = ⟨saved, d, false, false, false⟩ := by simp [Spec.step, hf]
          rw [this]; exact e1
        · intro _
          simp only [applyAll, hf, Option.bind]
          exact e2 rfl

/-- **C48 (rollback).** After any calls that leave the connection alive and not in autocommit mode, any statements followed by `rollback()` change nothing of what is stored. -/
theorem C48_rollback_partial (env : δ → Commit) (henv : ∀ d a, env d ≠ .error a) (os : List (Op δ)) (fs : List (δ → Option δ)) (id : Nat) (d x : δ) (l : List (Nat × δ)) :
    let db := (connect env id ⟨d, .idle, x, l, false⟩).2
    let before := (run env (id + 1) db os).2
    before.server.closed = false → autocommit before = false →
    (run env (id + 1) db (os ++ (fs.map .stmt ++ [.rollback]))).2.server.committed = before.server.committed := by
  obtain ⟨_, _, k3, k4, k5⟩ := C48_meaning_partial env henv os id d x l
  obtain ⟨_, _, q3, _, _⟩ := C48_meaning_partial env henv (os ++ (fs.map .stmt ++ [.rollback])) id d x l
  dsimp only at *
  intro hc ha
  rw [q3, k3, spec_append, spec_append]
  rw [k4] at hc
  rw [k5] at ha
  obtain ⟨w, b, e1, _, _⟩ := spec_stmts env fs _ ha hc
  rw [e1]
  simp [Spec.run, Spec.step, ha, hc, Spec.St.fresh]

/-- **C48 (commit).** After any calls that end with `commit()` or `rollback()` without a loss of the connection and not in autocommit mode, statements that all succeed followed by a `commit()` the server does not lose are stored,
all of them in order; when one of them failed, none is. -/
theorem C48_commit_partial (env : δ → Commit) (henv : ∀ d a, env d ≠ .error a) (os : List (Op δ)) (o : Op δ) (ho : o = .commit ∨ o = .rollback) (fs : List (δ → Option δ)) (id : Nat) (d x : δ) (l : List (Nat × δ)) :
    let db := (connect env id ⟨d, .idle, x, l, false⟩).2
    let before := (run env (id + 1) db (os ++ [o])).2
    let after := (run env (id + 1) db ((os ++ [o]) ++ (fs.map .stmt ++ [.commit]))).2
    before.server.closed = false → autocommit before = false → after.server.closed = false →
    after.server.committed = (applyAll fs before.server.committed).getD before.server.committed := by
  obtain ⟨_, _, k3, k4, k5⟩ := C48_meaning_partial env henv (os ++ [o]) id d x l
  obtain ⟨_, _, q3, q4, _⟩ := C48_meaning_partial env henv ((os ++ [o]) ++ (fs.map .stmt ++ [.commit])) id d x l
  dsimp only at *
  intro hc ha hc2
  rw [k4] at hc
  rw [k5] at ha
  rw [q3, k3]
  rw [q4] at hc2
  rw [spec_append] at hc2 ⊢
  rw [spec_append] at hc2 ⊢
  obtain ⟨w, b, e1, e2, _⟩ := spec_stmts env fs _ ha hc
  rw [e1] at hc2 ⊢
  have hfresh : (Spec.run env ⟨d, d, false, false, false⟩ (os ++ [o])).2.bad = false ∧ (Spec.run env ⟨d, d, false, false, false⟩ (os ++ [o])).2.work = (Spec.run env ⟨d, d, false, false, false⟩ (os ++ [o])).2.saved := by
    rw [spec_append] at ha hc ⊢
    generalize (Spec.run env ⟨d, d, false, false, false⟩ os).2 = m at ha hc ⊢
    obtain ⟨saved, work, auto, bad, closed⟩ := m
    rcases ho with rfl | rfl
    · simp only [Spec.run, Spec.step] at ha hc ⊢
      cases auto <;> cases closed <;> cases bad <;> simp [Spec.St.fresh] at ha hc ⊢
      cases he : env work <;> simp [he] at ha hc ⊢
    · simp only [Spec.run, Spec.step] at ha hc ⊢
      cases auto <;> cases closed <;> simp [Spec.St.fresh] at ha hc ⊢
  generalize (Spec.run env ⟨d, d, false, false, false⟩ (os ++ [o])).2 = m at *
  obtain ⟨saved, work, auto, bad, closed⟩ := m
  dsimp only at *
  obtain ⟨rfl, rfl⟩ := hfresh
  subst ha hc
  have e2 := e2 rfl
  cases hap : applyAll fs work with
  | none =>
    rw [hap] at e2
    obtain rfl : b = true := e2
    simp [Spec.run, Spec.step, Spec.St.fresh]
  | some z =>
    rw [hap] at e2
    obtain ⟨rfl, rfl⟩ : b = false ∧ w = z := e2
    cases he : env w with
    | error a => exact absurd he (henv _ _)
    | ok => simp [Spec.run, Spec.step, he, Spec.St.fresh]
    | lost done => simp [Spec.run, Spec.step, he] at hc2

/-- Three statements, a rollback, a commit, autocommit mode, a second `close`. -/
example : let env : Nat → Commit := fun _ => .ok
    let add (n : Nat) : Op Nat := .stmt fun d => some (d + n)
    let bad : Op Nat := .stmt fun _ => none
    run env 1 (connect env 0 ⟨1, .idle, 0, [], false⟩).2 [add 10, .rollback, add 100, .commit, bad, add 1000, .commit, .autocommit true, .commit, add 5, .autocommit false, add 7, .close, .close] =
    ([.ok, .ok, .ok, .ok, .raised .error, .raised .error, .ok, .ok, .interfaceError, .ok, .ok, .ok, .ok, .alreadyClosed],
      ⟨⟨106, .active, 113, [], true⟩, some ⟨.plain, 11, .opened, some .block⟩, true⟩) := by decide

/-! ## Where it fails -/

/-- **After a failed commit nothing is in a transaction.** COMMIT fails (a deferred constraint): `commit()` raises and starts no new transaction. The next statement is stored at once, and the `rollback()` that follows
succeeds without undoing it, although `autocommit` reads false all the time. -/
theorem C48_failed_commit (env : δ → Commit) (f g : δ → Option δ) (d d1 d2 x : δ) (a : Bool) (hf : f d = some d1) (he : env d1 = .error a) (hg : g d = some d2) :
    let db := (connect env 0 ⟨d, .idle, x, [], false⟩).2
    let r := run env 1 db [.stmt f, .commit, .stmt g, .rollback]
    r.1.map Out.isRaise = [false, true, false, false] ∧ autocommit r.2 = false ∧ r.2.server.committed = d2 := by
  cases a <;> simp [connect, restart, start, new, execute, run, step, hf, commit, Transaction.commit, endCmd, he, hg, rollback, Transaction.rollback, Out.isRaise, autocommit]

/-- **A commit that rolls back returns as if it had committed**: after a statement failed, `commit()` raises nothing, and what the statements before it did is not stored. -/
theorem C48_silent_rollback (env : δ → Commit) (f g : δ → Option δ) (d d1 x : δ) (hf : f d = some d1) (hg : g d1 = none) :
    let db := (connect env 0 ⟨d, .idle, x, [], false⟩).2
    let r := run env 1 db [.stmt f, .stmt g, .commit]
    r.1.map Out.isRaise = [false, true, false] ∧ r.2.server.committed = d := by
  simp [connect, restart, start, new, execute, run, step, hf, commit, Transaction.commit, endCmd, hg, Out.isRaise, Server.fail]

/-- **Switching to autocommit throws away** what was done and not committed, without an exception. -/
theorem C48_switch_discards (env : δ → Commit) (f : δ → Option δ) (d d1 x : δ) (hf : f d = some d1) :
    let db := (connect env 0 ⟨d, .idle, x, [], false⟩).2
    let r := run env 1 db [.stmt f, .autocommit true]
    r.1.map Out.isRaise = [false, false] ∧ autocommit r.2 = true ∧ r.2.server.committed = d := by
  simp [connect, restart, start, new, execute, run, step, hf, setAutocommit, Transaction.rollback, Out.isRaise, autocommit]

/-- **A connection that was lost cannot be closed**: `close()` raises "already closed" though the program never closed it. -/
theorem C48_lost_close (db : Db δ) (hf : db.flag = true) : (close { db with server := db.server.die }).1 = .alreadyClosed := by
  simp [close, Server.die, hf]

end PG.DbApiConn
