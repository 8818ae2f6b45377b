import Verif.Spec.Cluster
/-!
# Lemmas on the control of a server
-/
namespace PG.Proofs.Cluster
open PG PG.Cluster PG.Spec.Cluster

theorem bind_run {α β : Type} (m : M α) (k : α → M β) (W : World) (s : St) : (m >>= k) W s = M.andThen (m W s) (fun a s => k a W s) := rfl
theorem pure_run {α : Type} (a : α) (W : World) (s : St) : (pure a : M α) W s = (.ok a, s) := rfl
theorem raise_run {α : Type} (e : Exn) (W : World) (s : St) : (raise e : M α) W s = (.error e, s) := rfl
theorem getSt_run (W : World) (s : St) : getSt W s = (.ok s, s) := rfl
theorem ask_run {α : Type} (c : Call) (f : Instant → α) (W : World) (s : St) : ask c f W s = (.ok (f (W s.trace.length)), { s with trace := s.trace ++ [c] }) := rfl
theorem attempt_run {α : Type} (m : M α) (W : World) (s : St) : attempt m W s = (.ok (m W s).1, (m W s).2) := rfl
theorem setDaemon_run (d : Option Proc) (W : World) (s : St) : setDaemon d W s = (.ok (), { s with daemon := d }) := rfl
theorem setCommand_run (d : Option (List Str)) (W : World) (s : St) : setCommand d W s = (.ok (), { s with command := d }) := rfl
theorem setLastExit_run (d : Option Int) (W : World) (s : St) : setLastExit d W s = (.ok (), { s with lastExit := some d }) := rfl
theorem then_ok {α β : Type} (a : α) (s : St) (k : α → St → Except Exn β × St) : M.andThen (.ok a, s) k = k a s := rfl
theorem then_error {α β : Type} (e : Exn) (s : St) (k : α → St → Except Exn β × St) : M.andThen (.error e, s) k = (.error e, s) := rfl

/-- How a sequence comes to a value. -/
theorem then_value {α β : Type} {r : Except Exn α × St} {k : α → St → Except Exn β × St} {b : β} {s' : St} (h : M.andThen r k = (.ok b, s')) :
    ∃ a s1, r = (.ok a, s1) ∧ k a s1 = (.ok b, s') := by
  obtain ⟨x, s1⟩ := r
  cases x with
  | ok a => exact ⟨a, s1, rfl, h⟩
  | error e => cases h

/-- How a sequence comes to raise. -/
theorem then_raises {α β : Type} {r : Except Exn α × St} {k : α → St → Except Exn β × St} {e : Exn} {s' : St} (h : M.andThen r k = (.error e, s')) :
    r = (.error e, s') ∨ ∃ a s1, r = (.ok a, s1) ∧ k a s1 = (.error e, s') := by
  obtain ⟨x, s1⟩ := r
  cases x with
  | ok a => exact .inr ⟨a, s1, rfl, h⟩
  | error e' => cases h; exact .inl rfl

/-! ## What every operation keeps -/

/-- The record of calls grows, and what is known of the object's own process stays right. -/
def Good (W : World) (s s' : St) : Prop := s.trace <+: s'.trace ∧ (Own W s → Own W s')

theorem good_refl (W : World) (s : St) : Good W s s := ⟨List.prefix_rfl, id⟩
theorem good_trans {W : World} {a b c : St} (h : Good W a b) (g : Good W b c) : Good W a c := ⟨h.1.trans g.1, fun x => g.2 (h.2 x)⟩

/-- A program all of whose runs are good. -/
def Keeps {α : Type} (m : M α) : Prop := ∀ W s, Good W s (m W s).2

theorem get_prefix {l l' : List Call} {i : Nat} {c : Call} (h : l <+: l') (g : l[i]? = some c) : l'[i]? = some c := by
  obtain ⟨t, rfl⟩ := h
  rw [List.getElem?_append_left (List.getElem?_eq_some_iff.mp g).1]
  exact g

theorem own_of {W : World} {s s' : St} (h : s.trace <+: s'.trace) (d : s'.daemon = s.daemon) (o : Own W s) : Own W s' := by
  intro p hp
  rw [d] at hp
  obtain ⟨⟨i, cmd, h1, h2⟩, h3⟩ := o p hp
  refine ⟨⟨i, cmd, get_prefix h h1, h2⟩, fun r hr => ?_⟩
  obtain ⟨j, h4, h5⟩ := h3 r hr
  exact ⟨j, get_prefix h h4, h5⟩

theorem keeps_pure {α : Type} (a : α) : Keeps (pure a : M α) := fun W s => good_refl W s
theorem keeps_raise {α : Type} (e : Exn) : Keeps (raise e : M α) := fun W s => good_refl W s
theorem keeps_getSt : Keeps getSt := fun W s => good_refl W s
theorem keeps_ask {α : Type} (c : Call) (f : Instant → α) : Keeps (ask c f) := fun _ s =>
  ⟨List.prefix_append _ _, own_of (s := s) (List.prefix_append _ _) rfl⟩
theorem keeps_setCommand (c : Option (List Str)) : Keeps (setCommand c) := fun _ s => ⟨List.prefix_rfl, own_of (s := s) List.prefix_rfl rfl⟩
theorem keeps_setLastExit (c : Option Int) : Keeps (setLastExit c) := fun _ s => ⟨List.prefix_rfl, own_of (s := s) List.prefix_rfl rfl⟩
theorem keeps_forget : Keeps (setDaemon none) := fun _ _ => ⟨List.prefix_rfl, fun _ p hp => by cases hp⟩
theorem keeps_attempt {α : Type} {m : M α} (h : Keeps m) : Keeps (attempt m) := fun W s => h W s
theorem keeps_orRaise {α : Type} (x : Except Errno α) : Keeps (orRaise x) := by
  cases x with
  | ok a => exact keeps_pure a
  | error e => exact keeps_raise _

theorem keeps_bind {α β : Type} {m : M α} {k : α → M β} (h : Keeps m) (g : ∀ a, Keeps (k a)) : Keeps (m >>= k) := by
  intro W s
  rw [bind_run]
  have h1 := h W s
  generalize m W s = r at h1
  obtain ⟨x, s1⟩ := r
  cases x with
  | ok a => exact good_trans h1 (g a W s1)
  | error e => exact h1

theorem keeps_ite {α : Type} {c : Prop} [Decidable c] {m m' : M α} (h : Keeps m) (g : Keeps m') : Keeps (if c then m else m') := by
  split <;> assumption

theorem keeps_file : Keeps getPidFromFile := by
  refine keeps_bind (keeps_ask _ _) fun r => ?_
  cases r with
  | error e => exact keeps_pure _
  | ok l =>
    show Keeps (match PyInt.pyInt 10 l with | .ok n => pure (some n) | .error _ => raise .value)
    cases PyInt.pyInt 10 l with
    | ok n => exact keeps_pure _
    | error e => exact keeps_raise _

/-- `poll` of the object's own process. -/
theorem good_poll {W : World} {s : St} {p : Proc} (h : s.daemon = some p) : Good W s (poll p W s).2 := by
  obtain ⟨n, r⟩ := p
  cases r with
  | some r => exact good_refl W s
  | none =>
    refine ⟨List.prefix_append _ _, fun o q hq => ?_⟩
    obtain ⟨⟨i, cmd, h1, h2⟩, h3⟩ := o _ h
    cases hq
    refine ⟨⟨i, cmd, get_prefix (List.prefix_append _ _) h1, h2⟩, fun r hr => ⟨s.trace.length, ?_, hr⟩⟩
    show (s.trace ++ [_])[s.trace.length]? = _
    rw [List.getElem?_append_right (Nat.le_refl _), Nat.sub_self]
    rfl

theorem keeps_runningByFile : Keeps runningByFile := by
  refine keeps_bind keeps_file fun r => ?_
  cases r with
  | none => exact keeps_pure _
  | some n =>
    refine keeps_bind (keeps_ask _ _) fun r => ?_
    cases r with
    | none => exact keeps_pure _
    | some e => exact keeps_ite (keeps_raise _) (keeps_pure _)

/-- What `running` does after the poll. -/
def afterPoll : Option Int → M Bool
  | some _ => do
    match ← getPidFromFile with
    | some _ => do
      setDaemon none
      runningByFile
    | none => pure false
  | none => pure true

theorem running_run (W : World) (s : St) : running W s = match s.daemon with
    | some p => M.andThen (poll p W s) (fun r s => afterPoll r W s)
    | none => runningByFile W s := by
  unfold running
  rw [bind_run, getSt_run, then_ok]
  cases h : s.daemon with
  | none => rfl
  | some p =>
    show M.andThen (poll p W s) _ = M.andThen (poll p W s) _
    congr 1
theorem keeps_afterPoll (r : Option Int) : Keeps (afterPoll r) := by
  cases r with
  | none => exact keeps_pure _
  | some r =>
    refine keeps_bind keeps_file fun f => ?_
    cases f with
    | none => exact keeps_pure _
    | some n => exact keeps_bind keeps_forget fun _ => keeps_runningByFile

theorem keeps_running : Keeps running := by
  intro W s
  rw [running_run]
  cases h : s.daemon with
  | none => exact keeps_runningByFile W s
  | some p =>
    have h1 := good_poll (W := W) h
    show Good W s (M.andThen (poll p W s) fun r s => afterPoll r W s).2
    generalize poll p W s = r at h1
    obtain ⟨x, s1⟩ := r
    cases x with
    | ok a => exact good_trans h1 (keeps_afterPoll a W s1)
    | error e => exact h1

theorem keeps_pid : Keeps pid := by
  refine keeps_bind keeps_file fun r => ?_
  cases r with
  | some n => exact keeps_pure _
  | none =>
    refine keeps_bind keeps_getSt fun s => ?_
    show Keeps (match s.daemon with | some d => pure (some d.pid) | none => pure none)
    cases s.daemon <;> exact keeps_pure _

theorem keeps_signalled (g : Sig) : Keeps (signalled g) := by
  refine keeps_bind keeps_pid fun r => ?_
  cases r with
  | none => exact keeps_pure _
  | some n =>
    refine keeps_bind (keeps_ask _ _) fun r => ?_
    cases r with
    | none => exact keeps_pure _
    | some e => exact keeps_ite (keeps_raise _) (keeps_pure _)

theorem keeps_state : Keeps state := by
  refine keeps_bind keeps_running fun b => ?_
  cases b with
  | true => exact keeps_pure _
  | false =>
    refine keeps_bind (keeps_ask _ _) fun b => ?_
    cases b <;> exact keeps_pure _

/-- The part of `start` that starts the process. -/
def launch (cmd : List Str) : M Unit := do
  let n ← orRaise (← ask (.spawn cmd) Instant.spawn)
  setDaemon (some { pid := n })
  setCommand (some cmd)

theorem launch_run (cmd : List Str) (W : World) (s : St) : launch cmd W s = match (W s.trace.length).spawn with
    | .ok n => (.ok (), { s with trace := s.trace ++ [.spawn cmd], daemon := some { pid := n }, command := some cmd })
    | .error e => (.error (.os e), { s with trace := s.trace ++ [.spawn cmd] }) := by
  show M.andThen (orRaise (W s.trace.length).spawn W { s with trace := s.trace ++ [.spawn cmd] }) _ = _
  cases (W s.trace.length).spawn <;> rfl

theorem keeps_launch (cmd : List Str) : Keeps (launch cmd) := by
  intro W s
  rw [launch_run]
  cases h : (W s.trace.length).spawn with
  | error e => exact ⟨List.prefix_append _ _, own_of (s := s) (List.prefix_append _ _) rfl⟩
  | ok n =>
    refine ⟨List.prefix_append _ _, fun _ p hp => ?_⟩
    cases hp
    refine ⟨⟨s.trace.length, cmd, ?_, h⟩, fun r hr => by cases hr⟩
    show (s.trace ++ [_])[s.trace.length]? = _
    rw [List.getElem?_append_right (Nat.le_refl _), Nat.sub_self]
    rfl

/-- `start` when the cluster is not running. -/
def startup (C : Config) (settings : Option (List (Str × Str))) : M Unit :=
  if (settings.getD []).isEmpty then
    match C.daemon with
    | none => raise .type
    | some d => launch [d, "-D".toList, C.dataDir]
  else raise .attribute

theorem start_eq (C : Config) (x : Option (List (Str × Str))) : start C x = (running >>= fun b => if b then pure () else startup C x) := by
  show (running >>= _) = _
  congr 1

theorem keeps_startup (C : Config) (x : Option (List (Str × Str))) : Keeps (startup C x) := by
  unfold startup
  refine keeps_ite ?_ (keeps_raise _)
  cases C.daemon with
  | none => exact keeps_raise _
  | some d => exact keeps_launch _

theorem keeps_start (C : Config) (x : Option (List (Str × Str))) : Keeps (start C x) := by
  rw [start_eq]
  exact keeps_bind keeps_running fun b => keeps_ite (keeps_pure _) (keeps_startup C x)

theorem keeps_address (C : Config) : Keeps (address C) :=
  keeps_bind (keeps_ask _ _) fun r => keeps_bind (keeps_orRaise r) fun _ => keeps_pure _

theorem keeps_connector (C : Config) : Keeps (connector C) := keeps_bind (keeps_address C) fun _ => keeps_pure _

theorem keeps_examine (old : Bool) (all l : List Fail) : Keeps (examine old all l) := by
  induction l with
  | nil => exact keeps_pure _
  | cons x l ih =>
    cases x with
    | authSpec n => exact keeps_pure _
    | undefinedObject n => exact keeps_ite (keeps_pure _) ih
    | cf n => exact keeps_raise _
    | protocol n => exact keeps_raise _
    | notReady n => exact keeps_pure _
    | other n => exact ih

/-- What `ready_for_connections` does with what connecting comes to. -/
def verdict (old : Bool) : Connect → M Ready
  | .connected => pure .yes
  | .cannot l => examine old l l
  | .other n => raise (.connecting n)

/-- What it does with the address. -/
def contact (C : Config) : Option Str × Option Str → M Ready
  | (some host, some port) => do verdict C.old (← ask (.connect host port) Instant.connect)
  | _ => raise .type

theorem ready_eq (C : Config) : readyForConnections C = (running >>= fun b => if b then (address C >>= contact C) else pure .no) := by
  show (running >>= _) = _
  congr 1

theorem keeps_verdict (old : Bool) (c : Connect) : Keeps (verdict old c) := by
  cases c with
  | connected => exact keeps_pure _
  | cannot l => exact keeps_examine _ _ _
  | other n => exact keeps_raise _

theorem keeps_contact (C : Config) (a : Option Str × Option Str) : Keeps (contact C a) := by
  obtain ⟨h, p⟩ := a
  cases h with
  | none => exact keeps_raise _
  | some h =>
    cases p with
    | none => exact keeps_raise _
    | some p => exact keeps_bind (keeps_ask _ _) fun c => keeps_verdict _ _

theorem keeps_ready (C : Config) : Keeps (readyForConnections C) := by
  rw [ready_eq]
  exact keeps_bind keeps_running fun b => keeps_ite (keeps_bind (keeps_address C) fun a => keeps_contact C a) (keeps_pure _)

theorem keeps_connect (C : Config) : Keeps (connect C) := by
  refine keeps_bind keeps_running fun b => ?_
  cases b with
  | false => exact keeps_raise _
  | true =>
    refine keeps_bind (keeps_connector C) fun a => ?_
    refine keeps_bind (keeps_ask _ _) fun c => ?_
    cases c with
    | connected => exact keeps_pure _
    | cannot l => exact keeps_raise _
    | other n => exact keeps_raise _

/-- What `mustRun` does without a running server. -/
def noServer (s : St) : M Unit :=
  match s.daemon with
  | some p => match p.returncode with
    | some r => raise (.startup r s.command)
    | none => pure ()
  | none => raise .notRunning

theorem mustRun_eq : mustRun = (running >>= fun b => if b then pure () else (getSt >>= noServer)) := by
  show (running >>= _) = _
  congr 1

theorem keeps_mustRun : Keeps mustRun := by
  rw [mustRun_eq]
  refine keeps_bind keeps_running fun b => keeps_ite (keeps_pure _) (keeps_bind keeps_getSt fun s => ?_)
  unfold noServer
  cases s.daemon with
  | none => exact keeps_raise _
  | some p =>
    dsimp only
    cases p.returncode with
    | none => exact keeps_pure _
    | some r => exact keeps_raise _

theorem keeps_startTimeout (r : Ready) : Keeps (startTimeout r) := by
  cases r <;> exact keeps_raise _

theorem keeps_startedLoop (C : Config) (b t : Int) (fuel : Nat) : Keeps (startedLoop C b t fuel) := by
  induction fuel with
  | zero => exact keeps_raise _
  | succ n ih =>
    refine keeps_bind keeps_mustRun fun _ => keeps_bind (keeps_ready C) fun r => keeps_bind (keeps_ask _ _) fun c => ?_
    exact keeps_ite (keeps_pure _) (keeps_ite (keeps_startTimeout r) (keeps_bind (keeps_ask _ _) fun _ => ih))

theorem keeps_waitStarted (C : Config) (t : Int) (fuel : Nat) : Keeps (waitUntilStarted C t fuel) :=
  keeps_bind (keeps_ask _ _) fun b => keeps_startedLoop C b t fuel

theorem keeps_probe : Keeps probe := by
  refine keeps_bind keeps_file fun r => ?_
  cases r with
  | none => exact keeps_raise _
  | some n =>
    refine keeps_bind (keeps_ask _ _) fun r => ?_
    cases r with
    | none => exact keeps_pure _
    | some e => exact keeps_raise _

theorem pickup_run (W : World) (s : St) : pickup W s = match s.daemon with
    | some p => M.andThen (poll p W s) (fun r s => setLastExit r W s)
    | none => M.andThen (probe W s) (fun r s => setLastExit r W s) := by
  unfold pickup
  rw [bind_run, getSt_run, then_ok]
  cases s.daemon <;> rfl

theorem keeps_pickup : Keeps pickup := by
  intro W s
  rw [pickup_run]
  cases h : s.daemon with
  | none => exact keeps_bind keeps_probe (fun r => keeps_setLastExit r) W s
  | some p =>
    have h1 := good_poll (W := W) h
    show Good W s (M.andThen (poll p W s) fun r s => setLastExit r W s).2
    generalize poll p W s = r at h1
    obtain ⟨x, s1⟩ := r
    cases x with
    | ok a => exact good_trans h1 (keeps_setLastExit a W s1)
    | error e => exact h1

theorem keeps_stoppedLoop (b t : Int) (fuel : Nat) : Keeps (stoppedLoop b t fuel) := by
  induction fuel with
  | zero => exact keeps_raise _
  | succ n ih =>
    refine keeps_bind keeps_running fun r => keeps_ite ?_ (keeps_pure _)
    refine keeps_bind keeps_pickup fun _ => keeps_bind (keeps_ask _ _) fun c => ?_
    exact keeps_ite (keeps_raise _) (keeps_bind (keeps_ask _ _) fun _ => ih)

theorem keeps_waitStopped (t : Int) (fuel : Nat) : Keeps (waitUntilStopped t fuel) :=
  keeps_bind (keeps_ask _ _) fun b => keeps_stoppedLoop b t fuel

/-- The second half of `restart`. -/
def again (C : Config) (x : Option (List (Str × Str))) (t : Int) (fuel : Nat) : M Unit := do
  if ← running then raise .stillRunning
  else do
    start C x
    waitUntilStarted C t fuel

theorem restart_eq (C : Config) (x : Option (List (Str × Str))) (t : Int) (fuel : Nat) : restart C x t fuel =
    (running >>= fun b => if b then (stop >>= fun _ => waitUntilStopped t fuel >>= fun _ => again C x t fuel) else again C x t fuel) := by
  show (running >>= _) = _
  congr 1

theorem keeps_again (C : Config) (x : Option (List (Str × Str))) (t : Int) (fuel : Nat) : Keeps (again C x t fuel) := by
  refine keeps_bind keeps_running fun b => keeps_ite (keeps_raise _) ?_
  exact keeps_bind (keeps_start C x) fun _ => keeps_waitStarted C t fuel

theorem keeps_restart (C : Config) (x : Option (List (Str × Str))) (t : Int) (fuel : Nat) : Keeps (restart C x t fuel) := by
  rw [restart_eq]
  refine keeps_bind keeps_running fun b => keeps_ite ?_ (keeps_again C x t fuel)
  exact keeps_bind (keeps_signalled _) fun _ => keeps_bind (keeps_waitStopped t fuel) fun _ => keeps_again C x t fuel

theorem keeps_timedOut (t : Int) (fuel : Nat) : Keeps (timedOut t fuel) := by
  refine keeps_bind (keeps_attempt (keeps_waitStopped t fuel)) fun r => ?_
  cases r with
  | ok _ => exact keeps_pure _
  | error e => cases e <;> first | exact keeps_pure _ | exact keeps_raise _

/-- The end of `drop`. -/
def erase : M Unit := do orRaise (← ask .remove Instant.removal)

/-- What `drop` does about a running server. -/
def takeDown (t : Int) (fuel : Nat) : M Unit := do
  shutdown
  if ← timedOut t fuel then do
    kill
    if ← timedOut t fuel then ask .warn fun _ => ()

theorem drop_eq (t : Int) (fuel : Nat) : drop t fuel = (running >>= fun b => if b then (takeDown t fuel >>= fun _ => erase) else erase) := by
  funext W s
  show M.andThen (running W s) _ = M.andThen (running W s) _
  congr 1
  funext b s1
  cases b with
  | false => rfl
  | true =>
    show M.andThen (shutdown W s1) _ = M.andThen (M.andThen (shutdown W s1) _) _
    generalize shutdown W s1 = r
    obtain ⟨x, s2⟩ := r
    cases x with
    | error e => rfl
    | ok _ =>
      show M.andThen (timedOut t fuel W s2) _ = M.andThen (M.andThen (timedOut t fuel W s2) _) _
      generalize timedOut t fuel W s2 = r
      obtain ⟨x, s3⟩ := r
      cases x with
      | error e => rfl
      | ok b =>
        cases b with
        | false => rfl
        | true =>
          show M.andThen (kill W s3) _ = M.andThen (M.andThen (kill W s3) _) _
          generalize kill W s3 = r
          obtain ⟨x, s4⟩ := r
          cases x with
          | error e => rfl
          | ok _ =>
            show M.andThen (timedOut t fuel W s4) _ = M.andThen (M.andThen (timedOut t fuel W s4) _) _
            generalize timedOut t fuel W s4 = r
            obtain ⟨x, s5⟩ := r
            cases x with
            | error e => rfl
            | ok b => cases b <;> rfl

theorem keeps_erase : Keeps erase := keeps_bind (keeps_ask _ _) fun r => keeps_orRaise r

theorem keeps_takeDown (t : Int) (fuel : Nat) : Keeps (takeDown t fuel) := by
  refine keeps_bind (keeps_signalled _) fun _ => keeps_bind (keeps_timedOut t fuel) fun b => keeps_ite ?_ (keeps_pure _)
  refine keeps_bind (keeps_signalled _) fun _ => keeps_bind (keeps_timedOut t fuel) fun b => keeps_ite (keeps_ask _ _) (keeps_pure _)

theorem keeps_drop (t : Int) (fuel : Nat) : Keeps (drop t fuel) := by
  rw [drop_eq]
  exact keeps_bind keeps_running fun b => keeps_ite (keeps_bind (keeps_takeDown t fuel) fun _ => keeps_erase) keeps_erase

theorem keeps_enter (C : Config) (t : Int) (fuel : Nat) : Keeps (enter C t fuel) :=
  keeps_bind (keeps_start C none) fun _ => keeps_waitStarted C t fuel

theorem keeps_exit (t : Int) (fuel : Nat) : Keeps (exit_ t fuel) := keeps_bind (keeps_signalled _) fun _ => keeps_waitStopped t fuel

theorem keeps_perform (C : Config) (op : Op) : Keeps (perform C op) := by
  cases op with
  | running => exact keeps_bind keeps_running fun _ => keeps_pure _
  | state => exact keeps_bind keeps_state fun _ => keeps_pure _
  | reload => exact keeps_signalled _
  | stop => exact keeps_signalled _
  | shutdown => exact keeps_signalled _
  | kill => exact keeps_signalled _
  | ready => exact keeps_bind (keeps_ready C) fun _ => keeps_pure _
  | connect => exact keeps_connect C
  | start x => exact keeps_start C x
  | waitStarted t f => exact keeps_waitStarted C t f
  | waitStopped t f => exact keeps_waitStopped t f
  | restart x t f => exact keeps_restart C x t f
  | drop t f => exact keeps_drop t f
  | enter t f => exact keeps_enter C t f
  | exit t f => exact keeps_exit t f

end PG.Proofs.Cluster
