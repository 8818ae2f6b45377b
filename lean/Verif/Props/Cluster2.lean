import Verif.Props.Cluster
/-!
# C63: what a cluster object does to its server
-/
namespace PG.Props.Cluster
open PG PG.Cluster PG.Spec.Cluster PG.Proofs.Cluster
set_option linter.unusedSectionVars false
variable {C : Config} {W : World} {s s' : St}

/-! ## Signals -/

/-- What sending a signal comes to. -/
def sent : Option Errno → Except Exn Unit
  | none => .ok ()
  | some e => if e ≠ ESRCH then .error (.os e) else .ok ()

theorem pid_run (W : World) (s : St) : pid W s = match fileSays (W s.trace.length) with
    | .error e => (.error e, called s .readPid)
    | .ok (some n) => (.ok (some n), called s .readPid)
    | .ok none => (.ok (s.daemon.map Proc.pid), called s .readPid) := by
  unfold pid
  rw [bind_run, file_run]
  cases fileSays (W s.trace.length) with
  | error e => rfl
  | ok r =>
    cases r with
    | some n => rfl
    | none =>
      rw [then_ok]
      dsimp only
      rw [bind_run, getSt_run, then_ok]
      rw [show (called s .readPid).daemon = s.daemon from rfl]
      cases s.daemon <;> rfl

theorem signalled_run (g : Sig) (W : World) (s : St) : signalled g W s = match fileSays (W s.trace.length), s.daemon with
    | .error e, _ => (.error e, called s .readPid)
    | .ok (some n), _ => (sent ((W (s.trace.length + 1)).signal n g), called (called s .readPid) (.kill n g))
    | .ok none, some p => (sent ((W (s.trace.length + 1)).signal p.pid g), called (called s .readPid) (.kill p.pid g))
    | .ok none, none => (.ok (), called s .readPid) := by
  have send : ∀ n : Int, (ask (.kill n g) (fun i => i.signal n g) >>= fun r => match r with
      | none => pure ()
      | some e => if e ≠ ESRCH then raise (.os e) else pure () : M Unit) W (called s .readPid) =
      (sent ((W (s.trace.length + 1)).signal n g), called (called s .readPid) (.kill n g)) := by
    intro n
    rw [bind_run, ask_called, then_ok, show (called s .readPid).trace.length = s.trace.length + 1 by rw [called_trace]; simp]
    unfold sent
    cases (W (s.trace.length + 1)).signal n g with
    | none => rfl
    | some e =>
      dsimp only
      by_cases h : e = ESRCH
      · rw [if_neg (fun k => k h), if_neg (fun k => k h)]; rfl
      · rw [if_pos h, if_pos h]; rfl
  unfold signalled
  rw [bind_run, pid_run]
  cases fileSays (W s.trace.length) with
  | error e => rfl
  | ok r =>
    cases r with
    | some n => exact send n
    | none =>
      cases s.daemon with
      | none => rfl
      | some p => exact send p.pid

/-- The operations that signal, with their signals. -/
def signallers : List (Op × Sig) := [(.reload, .hup), (.stop, .term), (.shutdown, .int), (.kill, .kill)]

theorem perform_signaller {op : Op} {g : Sig} (h : (op, g) ∈ signallers) : perform C op = signalled g := by
  simp only [signallers, List.mem_cons, List.not_mem_nil, or_false, Prod.mk.injEq] at h
  rcases h with ⟨rfl, rfl⟩ | ⟨rfl, rfl⟩ | ⟨rfl, rfl⟩ | ⟨rfl, rfl⟩ <;> rfl

/-- `reload`, `stop`, `shutdown` and `kill` send their signal once, to the process the file names, or else to that of the object; without such a process they send none.
That there is no such process any more is no error, other errors are raised. -/
theorem C63_signal {op : Op} {g : Sig} (hop : (op, g) ∈ signallers) {r : Except Exn Unit} (h : perform C op W s = (r, s')) :
    (∃ pid, Target (W s.trace.length) s.daemon pid ∧ between s s' = [.readPid, .kill pid g] ∧
      (∀ e, (W (s.trace.length + 1)).signal pid g = some e → e ≠ ESRCH → r = .error (.os e)) ∧
      ((W (s.trace.length + 1)).signal pid g = none ∨ (W (s.trace.length + 1)).signal pid g = some ESRCH → r = .ok ())) ∨
    (NoFile (W s.trace.length) ∧ s.daemon = none ∧ between s s' = [.readPid] ∧ r = .ok ()) ∨
    (∃ line, (W s.trace.length).pidfile = .ok line ∧ (∀ n, PyInt.pyInt 10 line ≠ .ok n) ∧ between s s' = [.readPid] ∧ r = .error .value) := by
  rw [perform_signaller hop, signalled_run] at h
  have one : between s (called s .readPid) = [.readPid] := between_append rfl
  have two : ∀ n, between s (called (called s .readPid) (.kill n g)) = [.readPid, .kill n g] := fun n => between_append (by rw [called_trace, called_trace, List.append_assoc]; rfl)
  have out : ∀ (o : Option Errno), (∀ e, o = some e → e ≠ ESRCH → sent o = .error (.os e)) ∧ (o = none ∨ o = some ESRCH → sent o = .ok ()) := by
    intro o
    constructor
    · rintro e rfl he
      unfold sent
      dsimp only
      rw [if_pos he]
    · rintro (rfl | rfl)
      · rfl
      · unfold sent
        dsimp only
        rw [if_neg (fun k => k rfl)]
  cases hf : fileSays (W s.trace.length) with
  | error e =>
    rw [hf] at h
    cases h
    obtain ⟨rfl, line, h1, h2⟩ := says_error hf
    exact .inr (.inr ⟨line, h1, h2, one, rfl⟩)
  | ok x =>
    rw [hf] at h
    cases x with
    | some n => cases h; exact .inl ⟨n, .inl (says_names hf), two n, (out _).1, (out _).2⟩
    | none =>
      cases hd : s.daemon with
      | none => rw [hd] at h; cases h; exact .inr (.inl ⟨says_none hf, rfl, one, rfl⟩)
      | some p => rw [hd] at h; cases h; exact .inl ⟨p.pid, .inr ⟨says_none hf, p, rfl, rfl⟩, two p.pid, (out _).1, (out _).2⟩

example : perform demoC .stop (demoW 0 9) {} = (.ok (), { trace := [.readPid, .kill 7 .term] }) := by decide +kernel
example : (perform demoC .kill (fun n => { up n with signal := fun _ _ => some 1 }) {}).1 = .error (.os 1) := by decide +kernel

/-- After every history of operations a signal goes to a process the file named just before, or to one the object started. -/
theorem C63_target_partial (l : List Op) {op : Op} {g : Sig} (hop : (op, g) ∈ signallers) {pid : Int} {g' : Sig}
    (h : (pid, g') ∈ signalsOf (between (history C W l) (history C W (op :: l)))) : g' = g ∧
    (Names (W (history C W l).trace.length) pid ∨ ∃ (i : Nat) (cmd : List Str), (history C W l).trace[i]? = some (.spawn cmd) ∧ (W i).spawn = .ok pid) := by
  have own := C62_own (C := C) W l
  have hg : g ≠ .zero := by
    simp only [signallers, List.mem_cons, List.not_mem_nil, or_false, Prod.mk.injEq] at hop
    rcases hop with ⟨_, rfl⟩ | ⟨_, rfl⟩ | ⟨_, rfl⟩ | ⟨_, rfl⟩ <;> exact fun k => by cases k
  cases hr : perform C op W (history C W l) with
  | mk r s2 =>
    have he : history C W (op :: l) = s2 := by
      show (perform C op W (history C W l)).2 = _
      rw [hr]
    rw [he] at h
    rcases C63_signal hop hr with ⟨p, ht, hb, _⟩ | ⟨_, _, hb, _⟩ | ⟨_, _, _, hb, _⟩
    · rw [hb] at h
      have : (pid, g') = (p, g) := by
        cases g <;> first | exact absurd rfl hg | exact List.mem_singleton.mp h
      cases this
      refine ⟨rfl, ?_⟩
      rcases ht with ht | ⟨_, q, hq, rfl⟩
      · exact .inl ht
      · exact .inr (own q hq).1
    · rw [hb] at h; cases h
    · rw [hb] at h; cases h

/-- Not so in general that signals go to the server: a file left over makes the signal go to the process that now has its number, not to the server the object runs. -/
theorem C63_wrong_process : (perform demoC .stop (fun n => { up n with pidfile := .ok "99\n".toList }) mine).2.trace = [.readPid, .kill 99 .term] := by decide +kernel

/-- A process known to have ended is signalled still: its number may be another's by then. -/
theorem C63_ended_process : (perform demoC .stop (demoW 9 9) { daemon := some { pid := 7, returncode := some 0 } }).2.trace = [.readPid, .kill 7 .term] := by decide +kernel

/-! ## `start()` -/

theorem running_between {W : World} {s s1 : St} {x : Except Exn Bool} (h : running W s = (x, s1)) : ∃ t, s1.trace = s.trace ++ t ∧ ∀ c ∈ t, Looks c := by
  have := only_running W s
  rw [h] at this
  exact this

theorem startup_run (C : Config) (x : Option (List (Str × Str))) (W : World) (s : St) : startup C x W s =
    if (x.getD []).isEmpty then
      match C.daemon with
      | none => (.error .type, s)
      | some d => launch [d, "-D".toList, C.dataDir] W s
    else (.error .attribute, s) := by
  unfold startup
  split
  · cases C.daemon <;> rfl
  · rfl

/-- `start()` starts at most one process, `postgres -D` with the directory of the cluster, and only when the server was seen not to be running. If it returns, the server was seen
running, and nothing was started, or the process of the object is the one started. -/
theorem C63_start {x : Option (List (Str × Str))} {r : Except Exn Unit} (h : start C x W s = (r, s')) :
    (spawnsOf (between s s') = [] ∨ ∃ s1 d, SeenStopped W s s1 ∧ C.daemon = some d ∧ spawnsOf (between s s') = [[d, "-D".toList, C.dataDir]] ∧
      Made s1 s' s1.trace.length (.spawn [d, "-D".toList, C.dataDir])) ∧
    signalsOf (between s s') = [] ∧
    (r = .ok () → (SeenRunning W s s' ∧ spawnsOf (between s s') = []) ∨
      ∃ s1 d n, SeenStopped W s s1 ∧ C.daemon = some d ∧ Made s1 s' s1.trace.length (.spawn [d, "-D".toList, C.dataDir]) ∧
        (W s1.trace.length).spawn = .ok n ∧ s'.daemon = some { pid := n } ∧ s'.command = some [d, "-D".toList, C.dataDir]) := by
  rw [start_eq, bind_run] at h
  cases hr : running W s with
  | mk y s1 =>
    obtain ⟨t, ht1, ht2⟩ := running_between hr
    rw [hr] at h
    cases y with
    | error e =>
      cases h
      rw [between_append ht1]
      exact ⟨.inl (looks_spawns ht2), looks_signals ht2, fun he => by cases he⟩
    | ok b =>
      cases b with
      | true =>
        cases h
        rw [between_append ht1]
        exact ⟨.inl (looks_spawns ht2), looks_signals ht2, fun _ => .inl ⟨running_seen hr, looks_spawns ht2⟩⟩
      | false =>
        have h : startup C x W s1 = (r, s') := h
        have stopped := running_stopped hr
        rw [startup_run] at h
        split at h
        · cases hd : C.daemon with
          | none =>
            rw [hd] at h
            cases h
            rw [between_append ht1]
            exact ⟨.inl (looks_spawns ht2), looks_signals ht2, fun he => by cases he⟩
          | some d =>
            rw [hd] at h
            have h : launch [d, "-D".toList, C.dataDir] W s1 = (r, s') := h
            have hs' : s'.trace = s1.trace ++ [.spawn [d, "-D".toList, C.dataDir]] := by
              rw [launch_run] at h
              cases hsp : (W s1.trace.length).spawn <;> rw [hsp] at h <;> cases h <;> rfl
            have hb : between s s' = t ++ [.spawn [d, "-D".toList, C.dataDir]] := by
              refine between_append ?_
              rw [hs', ht1, List.append_assoc]
            have hm : Made s1 s' s1.trace.length (.spawn [d, "-D".toList, C.dataDir]) := ⟨Nat.le_refl _, by
              rw [hs', List.getElem?_append_right (Nat.le_refl _), Nat.sub_self]; rfl⟩
            refine ⟨.inr ⟨s1, d, stopped, rfl, ?_, hm⟩, ?_, fun he => .inr ?_⟩
            · rw [hb]
              unfold spawnsOf
              rw [List.filterMap_append]
              rw [show t.filterMap _ = [] from looks_spawns ht2]
              rfl
            · rw [hb]
              unfold signalsOf
              rw [List.filterMap_append]
              rw [show t.filterMap _ = [] from looks_signals ht2]
              rfl
            · subst he
              rw [launch_run] at h
              cases hsp : (W s1.trace.length).spawn with
              | error e => rw [hsp] at h; cases h
              | ok n =>
                rw [hsp] at h
                cases h
                exact ⟨s1, d, n, stopped, rfl, hm, hsp, rfl, rfl⟩
        · cases h
          rw [between_append ht1]
          exact ⟨.inl (looks_spawns ht2), looks_signals ht2, fun he => by cases he⟩

example : (start demoC none (demoW 1 9) {}).1 = .ok () ∧ (start demoC none (demoW 1 9) {}).2.trace = [.readPid, .spawn ["postgres".toList, "-D".toList, "/d".toList]] := by decide +kernel
example : (start demoC none (demoW 0 9) {}).1 = .ok () ∧ (start demoC none (demoW 0 9) {}).2.trace = [.readPid, .kill 7 .zero] := by decide +kernel

/-- With settings `start()` never starts a server: it raises `AttributeError`, unless the server runs already. -/
theorem C63_start_settings {x : List (Str × Str)} (hx : x ≠ []) {r : Except Exn Unit} (h : start C (some x) W s = (r, s')) :
    spawnsOf (between s s') = [] ∧ (r = .ok () → SeenRunning W s s') ∧ (SeenStopped W s s' → (∀ e, r = .error e → ¬ SystemFails W s s' e) → ¬ SeenRunning W s s' → r = .error .attribute) := by
  rw [start_eq, bind_run] at h
  cases hr : running W s with
  | mk y s1 =>
    obtain ⟨t, ht1, ht2⟩ := running_between hr
    rw [hr] at h
    cases y with
    | error e =>
      cases h
      rw [between_append ht1]
      exact ⟨looks_spawns ht2, fun he => (by cases he), fun _ hf _ => absurd (running_fails hr) (hf e rfl)⟩
    | ok b =>
      cases b with
      | true =>
        cases h
        rw [between_append ht1]
        exact ⟨looks_spawns ht2, fun _ => running_seen hr, fun _ _ hn => absurd (running_seen hr) hn⟩
      | false =>
        have h : startup C (some x) W s1 = (r, s') := h
        rw [startup_run, if_neg (by cases x with | nil => exact absurd rfl hx | cons a l => exact fun k => by cases k)] at h
        cases h
        rw [between_append ht1]
        exact ⟨looks_spawns ht2, fun he => (by cases he), fun _ _ _ => rfl⟩

example : (start demoC (some [("port".toList, "1".toList)]) (demoW 1 9) {}).1 = .error .attribute := by decide +kernel

/-! ## `restart()` -/

theorem signalled_between (g : Sig) (W : World) (s : St) : ∃ t, (signalled g W s).2.trace = s.trace ++ t ∧ spawnsOf t = [] ∧ Call.remove ∉ t ∧
    (signalsOf t = [] ∨ ∃ pid, signalsOf t = [(pid, g)]) := by
  have two : ∀ n, ∃ t, (called (called s .readPid) (.kill n g)).trace = s.trace ++ t ∧ spawnsOf t = [] ∧ Call.remove ∉ t ∧ (signalsOf t = [] ∨ ∃ pid, signalsOf t = [(pid, g)]) := by
    intro n
    refine ⟨[.readPid, .kill n g], by rw [called_trace, called_trace, List.append_assoc]; rfl, rfl, by simp, ?_⟩
    cases g with
    | zero => exact .inl rfl
    | _ => exact .inr ⟨n, rfl⟩
  rw [signalled_run]
  cases fileSays (W s.trace.length) with
  | error e => exact ⟨[.readPid], rfl, rfl, by simp, .inl rfl⟩
  | ok x =>
    cases x with
    | some n => exact two n
    | none =>
      cases s.daemon with
      | none => exact ⟨[.readPid], rfl, rfl, by simp, .inl rfl⟩
      | some p => exact two p.pid

theorem signalsOf_append (a b : List Call) : signalsOf (a ++ b) = signalsOf a ++ signalsOf b := List.filterMap_append
theorem spawnsOf_append (a b : List Call) : spawnsOf (a ++ b) = spawnsOf a ++ spawnsOf b := List.filterMap_append

/-- The calls of a run. -/
theorem trace_of {P : Call → Prop} {α : Type} {m : M α} (h : Only P m) {W : World} {s s' : St} {r : Except Exn α} (e : m W s = (r, s')) : ∃ t, s'.trace = s.trace ++ t ∧ ∀ c ∈ t, P c := by
  have g := h W s
  rw [e] at g
  exact g

theorem start_between {x : Option (List (Str × Str))} {r : Except Exn Unit} (h : start C x W s = (r, s')) :
    ∃ t, s'.trace = s.trace ++ t ∧ signalsOf t = [] ∧ (spawnsOf t = [] ∨ ∃ s1 d, SeenStopped W s s1 ∧ C.daemon = some d ∧ spawnsOf t = [[d, "-D".toList, C.dataDir]]) := by
  obtain ⟨t, ht⟩ := prefix_of (keeps_start C x) h
  obtain ⟨h1, h2, _⟩ := C63_start h
  rw [between_append ht.symm] at h1 h2
  refine ⟨t, ht.symm, h2, ?_⟩
  rcases h1 with h1 | ⟨s1, d, h1, h3, h4, _⟩
  · exact .inl h1
  · exact .inr ⟨s1, d, h1, h3, h4⟩

/-- The second half of `restart`. -/
theorem again_run {x : Option (List (Str × Str))} {t : Int} {fuel : Nat} {r : Except Exn Unit} (h : again C x t fuel W s = (r, s')) :
    ∃ u, s'.trace = s.trace ++ u ∧ signalsOf u = [] ∧ (spawnsOf u = [] ∨ ∃ a b d, s.trace <+: a.trace ∧ SeenStopped W a b ∧ C.daemon = some d ∧ spawnsOf u = [[d, "-D".toList, C.dataDir]]) ∧
    (r = .ok () → ∃ a b, SeenStopped W s a ∧ a.trace <+: b.trace ∧ SeenReady C W b s') := by
  have h : M.andThen (running W s) _ = (r, s') := h
  cases hr : running W s with
  | mk y s1 =>
    obtain ⟨u1, hu1, hu2⟩ := running_between hr
    rw [hr] at h
    cases y with
    | error e => cases h; exact ⟨u1, hu1, looks_signals hu2, .inl (looks_spawns hu2), fun he => by cases he⟩
    | ok b =>
      cases b with
      | true => cases h; exact ⟨u1, hu1, looks_signals hu2, .inl (looks_spawns hu2), fun he => by cases he⟩
      | false =>
        have h : M.andThen (start C x W s1) (fun _ s => waitUntilStarted C t fuel W s) = (r, s') := h
        cases hs : start C x W s1 with
        | mk y s2 =>
          obtain ⟨u2, hu3, hu4, hu5⟩ := start_between hs
          have p1 : s.trace <+: s1.trace := ⟨u1, hu1.symm⟩
          have sp : spawnsOf (u1 ++ u2) = [] ∨ ∃ a b d, s.trace <+: a.trace ∧ SeenStopped W a b ∧ C.daemon = some d ∧ spawnsOf (u1 ++ u2) = [[d, "-D".toList, C.dataDir]] := by
            rw [spawnsOf_append, looks_spawns hu2, List.nil_append]
            rcases hu5 with hu5 | ⟨b, d, k1, k2, k3⟩
            · exact .inl hu5
            · exact .inr ⟨s1, b, d, p1, k1, k2, k3⟩
          have sg : signalsOf (u1 ++ u2) = [] := by rw [signalsOf_append, looks_signals hu2, hu4]; rfl
          have tr : s2.trace = s.trace ++ (u1 ++ u2) := by rw [hu3, hu1, List.append_assoc]
          rw [hs] at h
          cases y with
          | error e => cases h; exact ⟨u1 ++ u2, tr, sg, sp, fun he => by cases he⟩
          | ok _ =>
            have h : waitUntilStarted C t fuel W s2 = (r, s') := h
            obtain ⟨u3, hu6, hu7⟩ := trace_of (only_waitStarted C t fuel) h
            refine ⟨(u1 ++ u2) ++ u3, by rw [hu6, tr, List.append_assoc], ?_, ?_, fun he => ?_⟩
            · rw [signalsOf_append, sg, looks_signals hu7]; rfl
            · rw [spawnsOf_append, looks_spawns hu7, List.append_nil]; exact sp
            · subst he
              exact ⟨s1, s2, running_stopped hr, ⟨u2, hu3.symm⟩, C62_started h⟩

/-- `restart()` sends at most one signal, the one of `stop`, and starts at most one process, after the server was seen not to be running. If it returns, the server was seen not to be running, and
after that to take connections. -/
theorem C63_restart {x : Option (List (Str × Str))} {t : Int} {fuel : Nat} {r : Except Exn Unit} (h : restart C x t fuel W s = (r, s')) :
    (signalsOf (between s s') = [] ∨ ∃ pid, signalsOf (between s s') = [(pid, .term)]) ∧
    (spawnsOf (between s s') = [] ∨ ∃ a b d, s.trace <+: a.trace ∧ SeenStopped W a b ∧ C.daemon = some d ∧ spawnsOf (between s s') = [[d, "-D".toList, C.dataDir]]) ∧
    (r = .ok () → ∃ a b c, s.trace <+: a.trace ∧ SeenStopped W a b ∧ b.trace <+: c.trace ∧ SeenReady C W c s') := by
  rw [restart_eq, bind_run] at h
  have fin : ∀ (s0 : St) (u : List Call), s0.trace = s.trace ++ u → (signalsOf u = [] ∨ ∃ pid, signalsOf u = [(pid, .term)]) → spawnsOf u = [] → again C x t fuel W s0 = (r, s') →
      (signalsOf (between s s') = [] ∨ ∃ pid, signalsOf (between s s') = [(pid, .term)]) ∧
      (spawnsOf (between s s') = [] ∨ ∃ a b d, s.trace <+: a.trace ∧ SeenStopped W a b ∧ C.daemon = some d ∧ spawnsOf (between s s') = [[d, "-D".toList, C.dataDir]]) ∧
      (r = .ok () → ∃ a b c, s.trace <+: a.trace ∧ SeenStopped W a b ∧ b.trace <+: c.trace ∧ SeenReady C W c s') := by
    intro s0 u hu hsg hsp ha
    obtain ⟨v, hv1, hv2, hv3, hv4⟩ := again_run ha
    have p0 : s.trace <+: s0.trace := ⟨u, hu.symm⟩
    rw [between_append (show s'.trace = s.trace ++ (u ++ v) by rw [hv1, hu, List.append_assoc]), signalsOf_append, spawnsOf_append, hv2, hsp, List.append_nil, List.nil_append]
    refine ⟨hsg, ?_, fun he => ?_⟩
    · rcases hv3 with hv3 | ⟨a, b, d, k1, k2, k3, k4⟩
      · exact .inl hv3
      · exact .inr ⟨a, b, d, p0.trans k1, k2, k3, k4⟩
    · obtain ⟨a, b, k1, k2, k3⟩ := hv4 he
      exact ⟨s0, a, b, p0, k1, k2, k3⟩
  have short : ∀ (u : List Call) (e : Exn), s'.trace = s.trace ++ u → (signalsOf u = [] ∨ ∃ pid, signalsOf u = [(pid, .term)]) → spawnsOf u = [] → r = .error e →
      (signalsOf (between s s') = [] ∨ ∃ pid, signalsOf (between s s') = [(pid, .term)]) ∧
      (spawnsOf (between s s') = [] ∨ ∃ a b d, s.trace <+: a.trace ∧ SeenStopped W a b ∧ C.daemon = some d ∧ spawnsOf (between s s') = [[d, "-D".toList, C.dataDir]]) ∧
      (r = .ok () → ∃ a b c, s.trace <+: a.trace ∧ SeenStopped W a b ∧ b.trace <+: c.trace ∧ SeenReady C W c s') := by
    intro u e hu hsg hsp he
    rw [between_append hu]
    exact ⟨hsg, .inl hsp, fun k => by rw [he] at k; cases k⟩
  cases hr : running W s with
  | mk y s1 =>
    obtain ⟨u1, hu1, hu2⟩ := running_between hr
    rw [hr] at h
    cases y with
    | error e => cases h; exact short u1 e hu1 (.inl (looks_signals hu2)) (looks_spawns hu2) rfl
    | ok b =>
      cases b with
      | false => exact fin s1 u1 hu1 (.inl (looks_signals hu2)) (looks_spawns hu2) h
      | true =>
        have h : M.andThen (stop W s1) (fun _ s2 => M.andThen (waitUntilStopped t fuel W s2) fun _ s3 => again C x t fuel W s3) = (r, s') := h
        obtain ⟨u2, hu3, hu4, _, hu5⟩ := signalled_between .term W s1
        have hu3 : (stop W s1).2.trace = s1.trace ++ u2 := hu3
        generalize stop W s1 = q at h hu3
        obtain ⟨y, s2⟩ := q
        have hu3 : s2.trace = s1.trace ++ u2 := hu3
        have tr : s2.trace = s.trace ++ (u1 ++ u2) := by rw [hu3, hu1, List.append_assoc]
        have sg : signalsOf (u1 ++ u2) = [] ∨ ∃ pid, signalsOf (u1 ++ u2) = [(pid, .term)] := by rw [signalsOf_append, looks_signals hu2]; exact hu5
        have sp : spawnsOf (u1 ++ u2) = [] := by rw [spawnsOf_append, looks_spawns hu2]; exact hu4
        cases y with
        | error e => cases h; exact short (u1 ++ u2) e tr sg sp rfl
        | ok _ =>
          rw [then_ok] at h
          cases hw : waitUntilStopped t fuel W s2 with
          | mk y s3 =>
            obtain ⟨u3, hu6, hu7⟩ := trace_of (only_waitStopped t fuel) hw
            have tr3 : s3.trace = s.trace ++ ((u1 ++ u2) ++ u3) := by rw [hu6, tr, List.append_assoc]
            have sg3 : signalsOf ((u1 ++ u2) ++ u3) = [] ∨ ∃ pid, signalsOf ((u1 ++ u2) ++ u3) = [(pid, .term)] := by rw [signalsOf_append, looks_signals hu7, List.append_nil]; exact sg
            have sp3 : spawnsOf ((u1 ++ u2) ++ u3) = [] := by rw [spawnsOf_append, looks_spawns hu7, sp]; rfl
            rw [hw] at h
            cases y with
            | error e => cases h; exact short _ e tr3 sg3 sp3 rfl
            | ok _ => exact fin s3 _ tr3 sg3 sp3 h

/-- A world for `restart`: up, then down until the process is started, then up. -/
def restartW : World := fun n => if n < 4 then up n else if n ≤ 7 then down n else up n

example : (restart demoC none 20 3 restartW mine).1 = .ok () := by decide +kernel
example : signalsOf (restart demoC none 20 3 restartW mine).2.trace = [(7, .term)] := by decide +kernel
example : spawnsOf (restart demoC none 20 3 restartW mine).2.trace = [["postgres".toList, "-D".toList, "/d".toList]] := by decide +kernel

end PG.Props.Cluster
