import Verif.Proofs.Cluster3
/-!
# Lemmas on the control of a server: waiting for the end; which calls are made
-/
namespace PG.Proofs.Cluster
open PG PG.Cluster PG.Spec.Cluster

/-! ## `wait_until_stopped` -/

theorem stoppedLoop_run (b t : Int) (fuel : Nat) (W : World) (s : St) : stoppedLoop b t (fuel + 1) W s =
    M.andThen (running W s) fun r s1 => if r = true then
      M.andThen (pickup W s1) fun _ s2 =>
        if t ≤ (W s2.trace.length).now - b then (.error (.timeout none), called s2 .clock)
        else stoppedLoop b t fuel W (called (called s2 .clock) .sleep)
      else (.ok (), s1) := by
  show M.andThen (running W s) _ = _
  congr 1
  funext r s1
  cases r with
  | false => rfl
  | true =>
    rw [if_pos rfl]
    show M.andThen (pickup W s1) _ = _
    congr 1
    funext _ s2
    show (if t ≤ (W s2.trace.length).now - b then _ else _ : M Unit) W (called s2 .clock) = _
    split <;> rfl

theorem stoppedLoop_value {b t : Int} {W : World} {fuel : Nat} : ∀ {s s' : St}, stoppedLoop b t fuel W s = (.ok (), s') → SeenStopped W s s' := by
  induction fuel with
  | zero => intro s s' h; cases h
  | succ n ih =>
    intro s s' h
    rw [stoppedLoop_run] at h
    obtain ⟨r, s1, h1, h⟩ := then_value h
    have p1 := prefix_of keeps_running h1
    cases r with
    | false => cases h; exact running_stopped h1
    | true =>
      rw [if_pos rfl] at h
      obtain ⟨_, s2, h2, h⟩ := then_value h
      have p2 := prefix_of keeps_pickup h2
      split at h
      · cases h
      · exact stopped_after ((p1.trans p2).trans ((prefix_called _ _).trans (prefix_called _ _))) (ih h)

theorem probe_run (W : World) (s : St) : probe W s = match fileSays (W s.trace.length) with
    | .error e => (.error e, called s .readPid)
    | .ok none => (.error .type, called s .readPid)
    | .ok (some n) => (match (W (s.trace.length + 1)).signal n .zero with | none => .ok none | some e => .error (.os e), called (called s .readPid) (.kill n .zero)) := by
  unfold probe
  rw [bind_run, file_run]
  cases fileSays (W s.trace.length) with
  | error e => rfl
  | ok r =>
    cases r with
    | none => rfl
    | some n =>
      rw [then_ok]
      dsimp only
      rw [bind_run, ask_called, then_ok, show (called s .readPid).trace.length = s.trace.length + 1 by rw [called_trace]; simp]
      cases (W (s.trace.length + 1)).signal n .zero <;> rfl

/-- Why picking up the exit code raises. -/
theorem pickup_raises {W : World} {s s' : St} {e : Exn} (h : pickup W s = (.error e, s')) :
    SystemFails W s s' e ∨ (∃ i, s'.daemon = none ∧ Made s s' i .readPid ∧ NoFile (W i) ∧ e = .type) ∨
    ∃ i pid, s'.daemon = none ∧ Made s s' i (.kill pid .zero) ∧ (W i).signal pid .zero = some ESRCH ∧ e = .os ESRCH := by
  rw [pickup_run] at h
  cases hd : s.daemon with
  | some p =>
    rw [hd] at h
    have h : M.andThen (poll p W s) (fun r s => setLastExit r W s) = (.error e, s') := h
    rcases poll_run p W s hd with ⟨r, _, h2⟩ | ⟨_, h2⟩ <;> rw [h2] at h <;> cases h
  | none =>
    rw [hd] at h
    have h : M.andThen (probe W s) (fun r s => setLastExit r W s) = (.error e, s') := h
    rcases then_raises h with h1 | ⟨r, s1, _, h2⟩
    · rw [probe_run] at h1
      cases hf : fileSays (W s.trace.length) with
      | error e' =>
        rw [hf] at h1
        cases h1
        obtain ⟨rfl, line, h2, h3⟩ := says_error hf
        exact .inl (.noNumber _ line (made_called _ _) h2 h3)
      | ok r =>
        rw [hf] at h1
        cases r with
        | none => cases h1; exact .inr (.inl ⟨_, hd, made_called _ _, says_none hf, rfl⟩)
        | some n =>
          dsimp only at h1
          cases hs : (W (s.trace.length + 1)).signal n .zero with
          | none => rw [hs] at h1; cases h1
          | some x =>
            rw [hs] at h1
            cases h1
            by_cases hx : x = ESRCH
            · subst hx; exact .inr (.inr ⟨_, n, hd, made_kill _ _ _, hs, rfl⟩)
            · exact .inl (.noSignal _ n .zero x (made_kill _ _ _) hs hx)
    · cases h2

theorem stopFails_after {W : World} {t : Int} {a b c : St} {e : Exn} (h : a.trace <+: b.trace) (x : SystemFails W b c e) : StopFails W t a c e :=
  .system _ (system_mono h List.prefix_rfl x)

/-- The reasons of the loop, with the time it began for the time waited. -/
def StopLoopFails (W : World) (b t : Int) (s s' : St) (e : Exn) : Prop :=
  ∀ (s0 : St) (i : Nat), s0.trace <+: s.trace → i < s.trace.length → Made s0 s i .clock → b = (W i).now → e ≠ .hang → StopFails W t s0 s' e

theorem stoppedLoop_raises {b t : Int} {W : World} {fuel : Nat} : ∀ {s s' : St} {e : Exn}, stoppedLoop b t fuel W s = (.error e, s') → StopLoopFails W b t s s' e := by
  induction fuel with
  | zero =>
    intro s s' e h s0 i _ _ _ _ hh
    cases h
    exact absurd rfl hh
  | succ n ih =>
    intro s s' e h s0 i h0 hi hm hb hh
    rw [stoppedLoop_run] at h
    rcases then_raises h with h1 | ⟨r, s1, h1, h⟩
    · exact stopFails_after h0 (running_fails h1)
    · have p1 := prefix_of keeps_running h1
      cases r with
      | false => cases h
      | true =>
        rw [if_pos rfl] at h
        rcases then_raises h with h2 | ⟨_, s2, h2, h⟩
        · rcases pickup_raises h2 with h3 | ⟨j, h3, h4, h5, rfl⟩ | ⟨j, pid, h3, h4, h5, rfl⟩
          · exact stopFails_after (h0.trans p1) h3
          · exact .vanished j h3 (made_after (h0.trans p1) h4) h5
          · exact .died j pid h3 (made_after (h0.trans p1) h4) h5
        · have p2 := prefix_of keeps_pickup h2
          split at h
          · rename_i ht
            cases h
            refine .timeUp s s1 h0 (running_seen h1) (p2.trans (prefix_called _ _)) ⟨i, s2.trace.length, Nat.lt_of_lt_of_le hi (p1.trans p2).length_le,
              made_mono hm ((p1.trans p2).trans (prefix_called _ _)), made_after ((h0.trans p1).trans p2) (made_called _ _), ?_⟩
            rw [← hb]; exact ht
          · have p3 : s.trace <+: (called (called s2 .clock) .sleep).trace := (p1.trans p2).trans ((prefix_called _ _).trans (prefix_called _ _))
            exact ih h s0 i (h0.trans p3) (Nat.lt_of_lt_of_le hi p3.length_le) (made_mono hm p3) hb hh

theorem stoppedLoop_ends {b t : Int} {W : World} {n : Nat} (hn : ∀ k, n ≤ k → b + t ≤ (W k).now) (fuel : Nat) :
    ∀ {s s' : St}, n < s.trace.length + fuel → 0 < fuel → stoppedLoop b t fuel W s ≠ (.error .hang, s') := by
  induction fuel with
  | zero => intro s s' _ h0; cases h0
  | succ m ih =>
    intro s s' hl _ h
    rw [stoppedLoop_run] at h
    rcases then_raises h with h1 | ⟨r, s1, h1, h⟩
    · exact system_hang (running_fails h1)
    · have p1 := prefix_of keeps_running h1
      cases r with
      | false => cases h
      | true =>
        rw [if_pos rfl] at h
        rcases then_raises h with h2 | ⟨_, s2, h2, h⟩
        · rcases pickup_raises h2 with h3 | ⟨_, _, _, _, h3⟩ | ⟨_, _, _, _, _, h3⟩
          · exact system_hang h3
          · cases h3
          · cases h3
        · have p2 := prefix_of keeps_pickup h2
          have pl := (p1.trans p2).length_le
          split at h
          · cases h
          · rename_i ht
            have hk : ¬ n ≤ s2.trace.length := fun g => ht (by have := hn _ g; omega)
            refine ih (s := called (called s2 .clock) .sleep) (s' := s') ?_ (by omega) h
            rw [called_trace, called_trace]
            simp only [List.length_append, List.length_cons, List.length_nil]
            omega

theorem stoppedLoop_more {b t : Int} {W : World} (fuel : Nat) : ∀ {s : St}, (stoppedLoop b t fuel W s).1 ≠ .error .hang →
    ∀ k, stoppedLoop b t (fuel + k) W s = stoppedLoop b t fuel W s := by
  induction fuel with
  | zero => intro s h; exact absurd rfl h
  | succ n ih =>
    intro s h k
    rw [show n + 1 + k = (n + k) + 1 by omega, stoppedLoop_run, stoppedLoop_run]
    rw [stoppedLoop_run] at h
    generalize running W s = r1 at h
    obtain ⟨x, s1⟩ := r1
    cases x with
    | error e => rfl
    | ok b =>
      rw [then_ok] at h
      rw [then_ok, then_ok]
      cases b with
      | false => rfl
      | true =>
        rw [if_pos rfl] at h
        rw [if_pos rfl, if_pos rfl]
        generalize pickup W s1 = r2 at h
        obtain ⟨x, s2⟩ := r2
        cases x with
        | error e => rfl
        | ok _ =>
          rw [then_ok] at h
          rw [then_ok, then_ok]
          split
          · rfl
          · rename_i h2
            rw [if_neg h2] at h
            exact ih h k

/-! ## Which calls are made -/

/-- All calls a program makes are of a kind. -/
def Only (P : Call → Prop) {α : Type} (m : M α) : Prop := ∀ W s, ∃ t, (m W s).2.trace = s.trace ++ t ∧ ∀ c ∈ t, P c

theorem only_pure (P : Call → Prop) {α : Type} (a : α) : Only P (pure a : M α) := fun _ s => ⟨[], by simp [pure_run], fun c hc => by cases hc⟩
theorem only_raise (P : Call → Prop) {α : Type} (e : Exn) : Only P (raise e : M α) := fun _ s => ⟨[], by simp [raise_run], fun c hc => by cases hc⟩
theorem only_getSt (P : Call → Prop) : Only P getSt := fun _ s => ⟨[], by simp [getSt_run], fun c hc => by cases hc⟩
theorem only_ask {P : Call → Prop} {α : Type} {c : Call} (h : P c) (f : Instant → α) : Only P (ask c f) := fun W s =>
  ⟨[c], rfl, fun x hx => by rw [List.mem_singleton.mp hx]; exact h⟩
theorem only_setLastExit (P : Call → Prop) (c : Option Int) : Only P (setLastExit c) := fun _ s => ⟨[], by simp [setLastExit_run], fun c hc => by cases hc⟩
theorem only_setDaemon (P : Call → Prop) (c : Option Proc) : Only P (setDaemon c) := fun _ s => ⟨[], by simp [setDaemon_run], fun c hc => by cases hc⟩
theorem only_orRaise (P : Call → Prop) {α : Type} (x : Except Errno α) : Only P (orRaise x) := by
  cases x with
  | ok a => exact only_pure P a
  | error e => exact only_raise P _
theorem only_attempt {P : Call → Prop} {α : Type} {m : M α} (h : Only P m) : Only P (attempt m) := fun W s => h W s

theorem only_bind {P : Call → Prop} {α β : Type} {m : M α} {k : α → M β} (h : Only P m) (g : ∀ a, Only P (k a)) : Only P (m >>= k) := by
  intro W s
  rw [bind_run]
  obtain ⟨t, h1, h2⟩ := h W s
  generalize m W s = r at h1
  obtain ⟨x, s1⟩ := r
  cases x with
  | error e => exact ⟨t, h1, h2⟩
  | ok a =>
    obtain ⟨t', g1, g2⟩ := g a W s1
    refine ⟨t ++ t', ?_, fun c hc => ?_⟩
    · rw [then_ok, g1, show s1.trace = s.trace ++ t from h1, List.append_assoc]
    · rcases List.mem_append.mp hc with hc | hc
      · exact h2 c hc
      · exact g2 c hc

theorem only_ite {P : Call → Prop} {α : Type} {c : Prop} [Decidable c] {m m' : M α} (h : Only P m) (g : Only P m') : Only P (if c then m else m') := by
  split <;> assumption

/-- Calls that only look. -/
def Looks : Call → Prop
  | .poll _ => True
  | .readPid => True
  | .kill _ .zero => True
  | .readConf => True
  | .connect _ _ => True
  | .clock => True
  | .sleep => True
  | _ => False

/-- The calls `running` makes. -/
def Checks : Call → Prop
  | .poll _ => True
  | .readPid => True
  | .kill _ .zero => True
  | _ => False

theorem only_mono {P Q : Call → Prop} {α : Type} {m : M α} (h : Only P m) (g : ∀ c, P c → Q c) : Only Q m := fun W s => by
  obtain ⟨t, h1, h2⟩ := h W s
  exact ⟨t, h1, fun c hc => g c (h2 c hc)⟩

theorem checks_looks (c : Call) (h : Checks c) : Looks c := by
  cases c with
  | kill n g => cases g <;> first | trivial | exact h.elim
  | poll _ => trivial
  | readPid => trivial
  | _ => exact h.elim

theorem checks_poll (p : Proc) : Only Checks (poll p) := by
  obtain ⟨n, r⟩ := p
  cases r with
  | some r => exact only_pure _ _
  | none => exact only_bind (only_ask trivial _) fun r => only_bind (only_setDaemon _ _) fun _ => only_pure _ _

theorem checks_file : Only Checks getPidFromFile := by
  intro W s
  rw [file_run]
  exact ⟨[.readPid], rfl, fun c hc => by rw [List.mem_singleton.mp hc]; trivial⟩

theorem checks_byFile : Only Checks runningByFile := by
  refine only_bind checks_file fun r => ?_
  cases r with
  | none => exact only_pure _ _
  | some n =>
    refine only_bind (only_ask trivial _) fun r => ?_
    cases r with
    | none => exact only_pure _ _
    | some e => exact only_ite (only_raise _ _) (only_pure _ _)

theorem checks_afterPoll (r : Option Int) : Only Checks (afterPoll r) := by
  cases r with
  | none => exact only_pure _ _
  | some r =>
    refine only_bind checks_file fun f => ?_
    cases f with
    | none => exact only_pure _ _
    | some n => exact only_bind (only_setDaemon _ _) fun _ => checks_byFile

theorem checks_running : Only Checks running := by
  intro W s
  rw [running_run]
  cases s.daemon with
  | none => exact checks_byFile W s
  | some p => exact only_bind (checks_poll p) checks_afterPoll W s

theorem only_poll (p : Proc) : Only Looks (poll p) := only_mono (checks_poll p) checks_looks
theorem only_file : Only Looks getPidFromFile := only_mono checks_file checks_looks
theorem only_running : Only Looks running := only_mono checks_running checks_looks

theorem only_examine (old : Bool) (all l : List Fail) : Only Looks (examine old all l) := by
  induction l with
  | nil => exact only_pure _ _
  | cons x l ih =>
    cases x with
    | authSpec n => exact only_pure _ _
    | undefinedObject n => exact only_ite (only_pure _ _) ih
    | cf n => exact only_raise _ _
    | protocol n => exact only_raise _ _
    | notReady n => exact only_pure _ _
    | other n => exact ih

theorem only_address (C : Config) : Only Looks (address C) :=
  only_bind (only_ask trivial _) fun r => only_bind (only_orRaise _ r) fun _ => only_pure _ _

theorem only_contact (C : Config) (a : Option Str × Option Str) : Only Looks (contact C a) := by
  obtain ⟨h, p⟩ := a
  cases h with
  | none => exact only_raise _ _
  | some h =>
    cases p with
    | none => exact only_raise _ _
    | some p =>
      refine only_bind (only_ask trivial _) fun c => ?_
      cases c with
      | connected => exact only_pure _ _
      | cannot l => exact only_examine _ _ _
      | other n => exact only_raise _ _

theorem only_ready (C : Config) : Only Looks (readyForConnections C) := by
  rw [ready_eq]
  exact only_bind only_running fun b => only_ite (only_bind (only_address C) fun a => only_contact C a) (only_pure _ _)

theorem only_mustRun : Only Looks mustRun := by
  rw [mustRun_eq]
  refine only_bind only_running fun b => only_ite (only_pure _ _) (only_bind (only_getSt _) fun s => ?_)
  unfold noServer
  cases s.daemon with
  | none => exact only_raise _ _
  | some p =>
    dsimp only
    cases p.returncode with
    | none => exact only_pure _ _
    | some r => exact only_raise _ _

theorem only_startedLoop (C : Config) (b t : Int) (fuel : Nat) : Only Looks (startedLoop C b t fuel) := by
  induction fuel with
  | zero => exact only_raise _ _
  | succ n ih =>
    refine only_bind only_mustRun fun _ => only_bind (only_ready C) fun r => only_bind (only_ask trivial _) fun c => ?_
    refine only_ite (only_pure _ _) (only_ite ?_ (only_bind (only_ask trivial _) fun _ => ih))
    cases r <;> exact only_raise _ _

theorem only_waitStarted (C : Config) (t : Int) (fuel : Nat) : Only Looks (waitUntilStarted C t fuel) :=
  only_bind (only_ask trivial _) fun b => only_startedLoop C b t fuel

theorem only_probe : Only Looks probe := by
  refine only_bind only_file fun r => ?_
  cases r with
  | none => exact only_raise _ _
  | some n =>
    refine only_bind (only_ask trivial _) fun r => ?_
    cases r with
    | none => exact only_pure _ _
    | some e => exact only_raise _ _

theorem only_pickup : Only Looks pickup := by
  intro W s
  rw [pickup_run]
  cases s.daemon with
  | none => exact only_bind only_probe (fun r => only_setLastExit _ r) W s
  | some p => exact only_bind (only_poll p) (fun r => only_setLastExit _ r) W s

theorem only_stoppedLoop (b t : Int) (fuel : Nat) : Only Looks (stoppedLoop b t fuel) := by
  induction fuel with
  | zero => exact only_raise _ _
  | succ n ih =>
    refine only_bind only_running fun r => only_ite ?_ (only_pure _ _)
    refine only_bind only_pickup fun _ => only_bind (only_ask trivial _) fun c => ?_
    exact only_ite (only_raise _ _) (only_bind (only_ask trivial _) fun _ => ih)

theorem only_waitStopped (t : Int) (fuel : Nat) : Only Looks (waitUntilStopped t fuel) :=
  only_bind (only_ask trivial _) fun b => only_stoppedLoop b t fuel

theorem looks_signals {t : List Call} (h : ∀ c ∈ t, Looks c) : signalsOf t = [] := by
  unfold signalsOf
  rw [List.filterMap_eq_nil_iff]
  intro c hc
  have := h c hc
  cases c with
  | kill n g => cases g <;> first | rfl | exact this.elim
  | _ => rfl

theorem looks_spawns {t : List Call} (h : ∀ c ∈ t, Looks c) : spawnsOf t = [] := by
  unfold spawnsOf
  rw [List.filterMap_eq_nil_iff]
  intro c hc
  have := h c hc
  cases c with
  | spawn n => exact this.elim
  | _ => rfl

theorem between_append {s s' : St} {t : List Call} (h : s'.trace = s.trace ++ t) : between s s' = t := by
  unfold between
  rw [h, List.drop_left]

end PG.Proofs.Cluster
