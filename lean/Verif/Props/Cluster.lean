import Verif.Proofs.Cluster4
/-!
# C62: what a cluster object says about its server
-/
namespace PG.Props.Cluster
open PG PG.Cluster PG.Spec.Cluster PG.Proofs.Cluster
set_option linter.unusedSectionVars false
variable {C : Config} {W : World} {s s' : St}

/-! ## A demonstration: one world for the examples -/

/-- A configuration. -/
def demoC : Config := ⟨Unicode.ascii, some "postgres".toList, "/d".toList, false⟩

/-- An instant: process 7 runs, the file names it, the server takes connections. -/
def up (now : Int) : Instant where
  exited _ := none
  pidfile := .ok "7\n".toList
  signal _ _ := none
  spawn := .ok 7
  conf := .ok "listen_addresses = 'localhost'\nport = '5432'\n".toList
  connect := .connected
  now := now
  removal := .ok ()
  found := true

/-- An instant: the server has ended with status 0. -/
def down (now : Int) : Instant := { up now with
  exited := fun _ => some 0
  pidfile := .error ENOENT
  signal := fun _ _ => some ESRCH
  connect := .cannot [.other 1] }

/-- A server that is down before call `a`, up until call `b`. -/
def demoW (a b : Nat) : World := fun n => if n < a ∨ b ≤ n then down n else up n

/-- An object with the process 7. -/
def mine : St := { daemon := some { pid := 7 } }

/-! ## `running()` -/

/-- `running()` says `True` only of a server it saw running. -/
theorem C62_running_true (h : running W s = (.ok true, s')) : SeenRunning W s s' := running_seen h

/-- `running()` says `False` only of a server it saw not running. -/
theorem C62_running_false (h : running W s = (.ok false, s')) : SeenStopped W s s' := running_stopped h

/-- `running()` raises only when the file holds no number, or the process the file names is there and may not be signalled. -/
theorem C62_running_raises {e : Exn} (h : running W s = (.error e, s')) : SystemFails W s s' e := running_fails h

/-- In a world that stands still `running()` tells what is so. -/
theorem C62_running_still {x : Instant} (hx : ∀ n, W n = x) (hs : ∀ p r, s.daemon = some p → p.returncode = some r → x.exited p.pid = some r) :
    ((running W s).1 = .ok true ↔ IsUp x s.daemon) ∧ ((running W s).1 = .ok false ↔ IsDown x s.daemon) := by
  have file : ∀ s1 : St, ((runningByFile W s1).1 = .ok true ↔ ∃ pid, Names x pid ∧ x.signal pid .zero = none) ∧
      ((runningByFile W s1).1 = .ok false ↔ (NoFile x ∨ ∃ pid, Names x pid ∧ x.signal pid .zero = some ESRCH)) := by
    intro s1
    rw [byFile_run, hx, hx]
    constructor
    · constructor
      · intro h
        cases hf : fileSays x with
        | error e => rw [hf] at h; cases h
        | ok r =>
          rw [hf] at h
          cases r with
          | none => cases h
          | some n =>
            refine ⟨n, says_names hf, ?_⟩
            have h : alive (x.signal n .zero) = .ok true := h
            cases hg : x.signal n .zero with
            | none => rfl
            | some e =>
              rw [hg] at h
              have h : alive (some e) = .ok true := h
              unfold alive at h
              dsimp only at h
              split at h <;> cases h
      · rintro ⟨pid, h1, h2⟩
        rw [names_says h1]
        show alive (x.signal pid .zero) = _
        rw [h2]; rfl
    · constructor
      · intro h
        cases hf : fileSays x with
        | error e => rw [hf] at h; cases h
        | ok r =>
          rw [hf] at h
          cases r with
          | none => exact .inl (says_none hf)
          | some n =>
            refine .inr ⟨n, says_names hf, ?_⟩
            have h : alive (x.signal n .zero) = .ok false := h
            cases hg : x.signal n .zero with
            | none => rw [hg] at h; cases h
            | some e =>
              rw [hg] at h
              have h : alive (some e) = .ok false := h
              unfold alive at h
              dsimp only at h
              split at h
              · cases h
              · rename_i g; rw [Decidable.of_not_not g]
      · rintro (h | ⟨pid, h1, h2⟩)
        · rw [none_says h]
        · rw [names_says h1]
          show alive (x.signal pid .zero) = _
          rw [h2]; rfl
  have ended : ∀ (r : Int) (s1 : St), ((afterPoll (some r) W s1).1 = .ok true ↔ ∃ pid, Names x pid ∧ x.signal pid .zero = none) ∧
      ((afterPoll (some r) W s1).1 = .ok false ↔ (NoFile x ∨ ∃ pid, Names x pid ∧ x.signal pid .zero = some ESRCH)) := by
    intro r s1
    rw [afterPoll_run, hx]
    cases hf : fileSays x with
    | error e =>
      obtain ⟨rfl, line, h1, h2⟩ := says_error hf
      refine ⟨⟨fun h => (by cases h), ?_⟩, ⟨fun h => (by cases h), ?_⟩⟩
      · rintro ⟨pid, ⟨l, g1, g2⟩, _⟩
        rw [h1] at g1; cases g1; exact absurd g2 (h2 pid)
      · rintro (⟨e, g⟩ | ⟨pid, ⟨l, g1, g2⟩, _⟩)
        · rw [h1] at g; cases g
        · rw [h1] at g1; cases g1; exact absurd g2 (h2 pid)
    | ok o =>
      cases o with
      | none =>
        obtain ⟨e, h1⟩ := says_none hf
        refine ⟨⟨fun h => (by cases h), ?_⟩, ⟨fun _ => .inl ⟨e, h1⟩, fun _ => rfl⟩⟩
        rintro ⟨pid, ⟨l, g1, g2⟩, _⟩
        rw [h1] at g1; cases g1
      | some n => exact file _
  rw [running_run]
  cases hd : s.daemon with
  | none =>
    obtain ⟨f1, f2⟩ := file s
    refine ⟨f1.trans ⟨fun h => .inr h, ?_⟩, f2.trans ⟨fun h => ⟨fun p hp => (by cases hp), h⟩, fun h => h.2⟩⟩
    rintro (⟨p, hp, _⟩ | h)
    · cases hp
    · exact h
  | some p =>
    show ((M.andThen (poll p W s) fun r s => afterPoll r W s).1 = _ ↔ _) ∧ ((M.andThen (poll p W s) fun r s => afterPoll r W s).1 = _ ↔ _)
    have key : ∀ (r : Int) (s1 : St), x.exited p.pid = some r → ((afterPoll (some r) W s1).1 = .ok true ↔ IsUp x (some p)) ∧ ((afterPoll (some r) W s1).1 = .ok false ↔ IsDown x (some p)) := by
      intro r s1 hr
      obtain ⟨f1, f2⟩ := ended r s1
      refine ⟨f1.trans ⟨fun h => .inr h, ?_⟩, f2.trans ⟨fun h => ⟨fun q hq => (by cases hq; rw [hr]; exact fun g => by cases g), h⟩, fun h => h.2⟩⟩
      rintro (⟨q, hq, h⟩ | h)
      · cases hq; rw [hr] at h; cases h
      · exact h
    rcases poll_run p W s hd with ⟨r, h1, h2⟩ | ⟨h1, h2⟩
    · rw [h2]; exact key r s (hs p r hd h1)
    · rw [h2, then_ok, hx]
      cases he : x.exited p.pid with
      | some r => exact key r _ he
      | none =>
        refine ⟨⟨fun _ => .inl ⟨p, rfl, he⟩, fun _ => rfl⟩, ⟨fun h => (by cases h), fun h => absurd he (h.1 p rfl)⟩⟩

example : (running (demoW 0 9) mine).1 = .ok true := by decide +kernel
example : (running (demoW 0 9) {}).1 = .ok true := by decide +kernel
example : (running (demoW 9 9) mine).1 = .ok false := by decide +kernel
example : IsUp (up 0) none := .inr ⟨7, ⟨_, rfl, by decide +kernel⟩, rfl⟩
example : IsDown (down 0) (some { pid := 7 }) := ⟨fun p hp => (by cases hp; exact fun g => (by cases g)), .inl ⟨ENOENT, rfl⟩⟩

/-- What is so of the operating system is what the object knows of its own process, after every history of operations: the process was started by the
object, and its status is the one the system gave. -/
theorem C62_own (W : World) (l : List Op) : Own W (history C W l) := by
  induction l with
  | nil => intro p hp; cases hp
  | cons op l ih => exact (keeps_perform C op W _).2 ih

example : (history demoC (demoW 1 9) [.start none]).daemon = some { pid := 7 } := by decide +kernel

theorem quiet_of {α : Type} {m : M α} (h : Only Looks m) (W : World) (s : St) :
    signalsOf (between s (m W s).2) = [] ∧ spawnsOf (between s (m W s).2) = [] ∧ Call.remove ∉ between s (m W s).2 := by
  obtain ⟨t, h1, h2⟩ := h W s
  rw [between_append h1]
  exact ⟨looks_signals h2, looks_spawns h2, fun g => h2 _ g⟩

/-- Operations that only ask, or wait, send no signal, start nothing and remove nothing. -/
theorem C62_looks_only (t : Int) (fuel : Nat) {op : Op} (h : op ∈ [.running, .ready, .waitStarted t fuel, .waitStopped t fuel]) :
    signalsOf (between s (perform C op W s).2) = [] ∧ spawnsOf (between s (perform C op W s).2) = [] ∧ Call.remove ∉ between s (perform C op W s).2 := by
  simp only [List.mem_cons, List.not_mem_nil, or_false] at h
  rcases h with rfl | rfl | rfl | rfl
  · exact quiet_of (m := perform C .running) (only_bind only_running fun _ => only_pure _ _) W s
  · exact quiet_of (m := perform C .ready) (only_bind (only_ready C) fun _ => only_pure _ _) W s
  · exact quiet_of (only_waitStarted C t fuel) W s
  · exact quiet_of (only_waitStopped t fuel) W s

/-! ## `ready_for_connections()`, `connect()` -/

/-- `ready_for_connections()` is `True` only if, after it was seen running, the server took a connection at the address of its configuration, or refused its
user. -/
theorem C62_ready (h : readyForConnections C W s = (.ok .yes, s')) : SeenReady C W s s' := ready_value h

/-- The other values of `ready_for_connections()`: `False` for a server that does not run, the error of a server that is starting up, or the error of the
attempt to connect when all its failures say nothing. -/
theorem C62_ready_no {r : Ready} (h : readyForConnections C W s = (.ok r, s')) (hr : r ≠ .yes) : (r = .no ∧ SeenStopped W s s') ∨
    (∃ n, r = .starting n ∧ Attempted W s s' fun c => ∃ l, c = .cannot l ∧ Decisive C.old l (.notReady n)) ∨
    ∃ l, r = .failed l ∧ Attempted W s s' fun c => c = .cannot l ∧ ∀ x ∈ l, Indecisive C.old x := by
  have := ready_value h
  cases r with
  | yes => exact absurd rfl hr
  | no => exact .inl ⟨rfl, this⟩
  | starting n => exact .inr (.inl ⟨n, rfl, this⟩)
  | failed l => exact .inr (.inr ⟨l, rfl, this⟩)

/-- The reasons for which it raises. -/
theorem C62_ready_raises {e : Exn} (h : readyForConnections C W s = (.error e, s')) : ReadyFails C W s s' e := ready_raises h

example : (readyForConnections demoC (demoW 0 9) mine).1 = .ok .yes := by decide +kernel
example : (readyForConnections demoC (fun n => { up n with connect := .cannot [.other 1, .authSpec 2] }) mine).1 = .ok .yes := by decide +kernel
example : (readyForConnections demoC (fun n => { up n with connect := .cannot [.undefinedObject 0, .notReady 2] }) mine).1 = .ok (.starting 2) := by decide +kernel
example : (readyForConnections demoC (fun n => { up n with connect := .cannot [.cf 3] }) mine).1 = .error (.refused (.cf 3)) := by decide +kernel

/-- A server that runs and takes connections is not seen to be ready when its configuration, as `initdb` writes it, names no address: `TypeError`. -/
theorem C62_no_address : IsUp (up 0) mine.daemon ∧ Accepts demoC.old (up 0).connect ∧
    (readyForConnections demoC (fun n => { up n with conf := .ok "#listen_addresses = 'localhost'\n#port = 5432\n".toList }) mine).1 = .error .type :=
  ⟨.inl ⟨_, rfl, rfl⟩, .connected, by decide +kernel⟩

theorem split_ne_nil (c : Char) (t : Str) : PyStr.split c t ≠ [] := by
  cases t with
  | nil => exact fun h => by cases h
  | cons x t =>
    unfold PyStr.split
    split
    · exact fun h => by cases h
    · unfold PyStr.consHead
      split <;> exact fun h => by cases h

theorem preferred_for (addrs : List Str) (h : addrs ≠ []) : HostFor addrs (preferred addrs) := by
  unfold preferred
  generalize e1 : "localhost".toList = n1
  generalize e2 : "*".toList = n2
  generalize e3 : "127.0.0.1".toList = n3
  generalize e4 : "::1".toList = n4
  simp only [List.contains_iff_mem, Bool.or_eq_true]
  subst e1 e2 e3 e4
  by_cases h1 : "localhost".toList ∈ addrs ∨ "*".toList ∈ addrs
  · rw [if_pos h1]; exact .name h1
  · rw [if_neg h1]
    by_cases h3 : "127.0.0.1".toList ∈ addrs
    · rw [if_pos h3]; exact .ip4 (fun g => h1 (.inl g)) (fun g => h1 (.inr g)) h3
    · rw [if_neg h3]
      by_cases h4 : "::1".toList ∈ addrs
      · rw [if_pos h4]; exact .ip6 (fun g => h1 (.inl g)) (fun g => h1 (.inr g)) h3 h4
      · rw [if_neg h4]
        cases addrs with
        | nil => exact absurd rfl h
        | cons a l => exact .first a (fun g => h1 (.inl g)) (fun g => h1 (.inr g)) h3 h4 rfl

theorem configured (C : Config) (text : Str) : Configured C text ((ConfigFile.get C.U "listen_addresses".toList none text).map fun l => preferred (PyStr.split ',' (C.U.lower l)))
    (ConfigFile.get C.U "port".toList none text) := by
  refine ⟨rfl, fun h => by rw [h]; rfl, fun l h => ⟨_, by rw [h]; rfl, preferred_for _ (split_ne_nil _ _)⟩⟩

/-- `address()`: what the configuration gives, as it is at that instant. -/
theorem C62_address {a : Option Str × Option Str} (h : address C W s = (.ok a, s')) :
    ∃ i text, Made s s' i .readConf ∧ (W i).conf = .ok text ∧ Configured C text a.1 a.2 := by
  rw [address_run] at h
  cases hc : (W s.trace.length).conf with
  | error e => rw [hc] at h; cases h
  | ok text =>
    rw [hc] at h
    dsimp only at h
    rw [address_get] at h
    cases h
    exact ⟨s.trace.length, text, made_called _ _, hc, configured C text⟩

example : (address demoC (fun n => { up n with conf := .ok "port=1\nlisten_addresses = '10.0.0.1,::1'".toList }) {}).1 = .ok (some "::1".toList, some "1".toList) := by decide +kernel

/-- Blanks after the commas keep an address from being recognized: the local host is passed over for the first address. -/
theorem C62_address_blank : (address demoC (fun n => { up n with conf := .ok "listen_addresses = '10.0.0.1, localhost'\nport = 5432\n".toList }) {}).1 =
    .ok (some "10.0.0.1".toList, some "5432".toList) := by decide +kernel

/-- The part of `connect` after `running`. -/
def attemptAt (C : Config) : M Unit := do
  let (host, port) ← connector C
  match ← ask (.connect host port) Instant.connect with
  | .connected => pure ()
  | .cannot l => raise (.cannotConnect l)
  | .other n => raise (.connecting n)

theorem connect_eq (C : Config) : connect C = (running >>= fun b => if b then attemptAt C else raise .notRunning) := rfl

theorem attemptAt_run (C : Config) (W : World) (s : St) : attemptAt C W s = match (W s.trace.length).conf with
    | .error e => (.error (.os e), called s .readConf)
    | .ok text => (match (W (s.trace.length + 1)).connect with
      | .connected => .ok ()
      | .cannot l => .error (.cannotConnect l)
      | .other n => .error (.connecting n),
      called (called s .readConf) (.connect (orElse ((ConfigFile.get C.U "listen_addresses".toList none text).map fun l => preferred (PyStr.split ',' (C.U.lower l))) "localhost".toList)
        (orElse (ConfigFile.get C.U "port".toList none text) "5432".toList))) := by
  unfold attemptAt connector
  rw [bind_run, bind_run, address_run]
  cases (W s.trace.length).conf with
  | error e => rfl
  | ok text =>
    dsimp only
    rw [then_ok, pure_run, then_ok, address_get]
    rw [bind_run, ask_called, then_ok, show (called s .readConf).trace.length = s.trace.length + 1 by rw [called_trace]; simp]
    cases (W (s.trace.length + 1)).connect <;> rfl

/-- `connect()`: an attempt is made only to a server it saw running; without a running server it raises that it is not running, and makes none; a connection is made at the
address of the configuration, or else `localhost:5432`. -/
theorem C62_connect {r : Except Exn Unit} (h : connect C W s = (r, s')) :
    (∀ i host port, Made s s' i (.connect host port) → ∃ s1, SeenRunning W s s1 ∧ s1.trace.length ≤ i) ∧
    (r = .error .notRunning → SeenStopped W s s') ∧
    (r = .ok () → ∃ (s1 : St) (i : Nat) (text : Str) (host port : Option Str), SeenRunning W s s1 ∧ Made s1 s' i .readConf ∧ (W i).conf = .ok text ∧
      Configured C text host port ∧ Made s1 s' (i + 1) (.connect (orElse host "localhost".toList) (orElse port "5432".toList)) ∧ (W (i + 1)).connect = .connected) := by
  rw [connect_eq, bind_run] at h
  obtain ⟨t, ht1, ht2⟩ := checks_running W s
  cases hr : running W s with
  | mk x s1 =>
    rw [hr] at h ht1
    have nocon : ∀ i host port, ¬ Made s s1 i (.connect host port) := by
      intro i host port hm
      have h1 : s1.trace[i]? = some (.connect host port) := hm.2
      rw [show s1.trace = s.trace ++ t from ht1, List.getElem?_append_right hm.1] at h1
      exact ht2 _ (List.mem_of_getElem? h1)
    cases x with
    | error e =>
      cases h
      refine ⟨fun i host port hm => absurd hm (nocon i host port), fun he => ?_, fun he => by cases he⟩
      cases he
      cases running_fails hr
    | ok b =>
      cases b with
      | false =>
        cases h
        exact ⟨fun i host port hm => absurd hm (nocon i host port), fun _ => running_stopped hr, fun he => by cases he⟩
      | true =>
        have h : attemptAt C W s1 = (r, s') := h
        have seen := running_seen hr
        rw [attemptAt_run] at h
        refine ⟨fun i host port hm => ⟨s1, seen, ?_⟩, ?_⟩
        · refine Decidable.byContradiction fun hi => nocon i host port ⟨hm.1, ?_⟩
          have hp : s1.trace <+: s'.trace := by
            cases hc : (W s1.trace.length).conf with
            | error e => rw [hc] at h; cases h; exact prefix_called _ _
            | ok text => rw [hc] at h; cases h; exact (prefix_called _ _).trans (prefix_called _ _)
          obtain ⟨u, hu⟩ := hp
          have h1 := hm.2
          rw [← hu, List.getElem?_append_left (by omega)] at h1
          exact h1
        · cases hc : (W s1.trace.length).conf with
          | error e =>
            rw [hc] at h
            cases h
            exact ⟨fun he => (by cases he), fun he => (by cases he)⟩
          | ok text =>
            rw [hc] at h
            dsimp only at h
            cases hk : (W (s1.trace.length + 1)).connect with
            | connected =>
              rw [hk] at h
              cases h
              refine ⟨fun he => (by cases he), fun _ => ⟨s1, s1.trace.length, text, _, _, seen, made_mono (made_called _ _) (prefix_called _ _), hc, configured C text, made_kill _ _ _, hk⟩⟩
            | cannot l => rw [hk] at h; cases h; exact ⟨fun he => (by cases he), fun he => (by cases he)⟩
            | other n => rw [hk] at h; cases h; exact ⟨fun he => (by cases he), fun he => (by cases he)⟩

example : (connect demoC (demoW 0 9) mine).1 = .ok () := by decide +kernel
example : (connect demoC (demoW 9 9) mine).1 = .error .notRunning := by decide +kernel

/-! ## `wait_until_started()` -/

/-- `wait_until_started()` returns only when the server was seen to take connections. -/
theorem C62_started {t : Int} {fuel : Nat} (h : waitUntilStarted C t fuel W s = (.ok (), s')) : SeenReady C W s s' :=
  seenReady_mono (prefix_called s .clock) List.prefix_rfl (startedLoop_value (s := called s .clock) h)

/-- The reasons for which it raises: the process of the object ended, there is none, the configuration names no address, the system failed, or the time is
up (then the error of a server that is starting is raised as it is). -/
theorem C62_started_raises {t : Int} {fuel : Nat} {e : Exn} (h : waitUntilStarted C t fuel W s = (.error e, s')) (he : e ≠ .hang) : StartFails C W t s s' e := by
  refine startedLoop_raises (s := called s .clock) h s s.trace.length (prefix_called _ _) ?_ (made_called _ _) rfl he
  rw [called_trace]; simp

/-- It comes to an end, if the clock does not stand still, and what it comes to does not depend on the rounds granted. -/
theorem C62_started_ends (t : Int) (hW : ClockRuns W) : ∃ fuel, ∀ k, (waitUntilStarted C t fuel W s).1 ≠ .error .hang ∧
    waitUntilStarted C t (fuel + k) W s = waitUntilStarted C t fuel W s := by
  obtain ⟨n, hn⟩ := hW ((W s.trace.length).now + t)
  have h1 : (startedLoop C (W s.trace.length).now t (n + 1) W (called s .clock)).1 ≠ .error .hang := by
    intro h
    cases hr : startedLoop C (W s.trace.length).now t (n + 1) W (called s .clock) with
    | mk x s' =>
      rw [hr] at h
      cases h
      exact startedLoop_ends hn (n + 1) (by omega) (by omega) hr
  exact ⟨n + 1, fun k => ⟨h1, startedLoop_more (n + 1) h1 k⟩⟩

example : ClockRuns (demoW 1 5) := fun T => ⟨T.toNat, fun k hk => by unfold demoW; split <;> (show T ≤ (k : Int)) <;> omega⟩
example : (waitUntilStarted demoC 10 3 (demoW 0 99) mine).1 = .ok () := by decide +kernel
example : (waitUntilStarted demoC 10 3 (fun n => { up n with connect := if n < 9 then .cannot [.notReady 1] else .connected }) mine).1 = .ok () := by decide +kernel
example : (waitUntilStarted demoC 5 3 (fun n => { up n with connect := .cannot [.notReady 1] }) mine).1 = .error (.refused (.notReady 1)) := by decide +kernel
example : (waitUntilStarted demoC 10 3 (demoW 0 3) mine).1 = .error (.startup 0 none) := by decide +kernel

/-- The status of a server that crashed and left its file behind is lost: it is said not to have been started, though its process ended with status 1. -/
theorem C62_crash_left_file : (waitUntilStarted demoC 10 3 (fun n => { up n with exited := fun _ => some 1, signal := fun _ _ => some ESRCH }) mine).1 = .error .notRunning := by
  decide +kernel

/-! ## `wait_until_stopped()` -/

/-- `wait_until_stopped()` returns only when the server was seen not to be running. -/
theorem C62_stopped {t : Int} {fuel : Nat} (h : waitUntilStopped t fuel W s = (.ok (), s')) : SeenStopped W s s' :=
  stopped_after (prefix_called s .clock) (stoppedLoop_value (s := called s .clock) h)

/-- The reasons for which it raises: the time is up and the server was seen running, the system failed, or, for a server that is no process of the object, it went away between
two looks. -/
theorem C62_stopped_raises {t : Int} {fuel : Nat} {e : Exn} (h : waitUntilStopped t fuel W s = (.error e, s')) (he : e ≠ .hang) : StopFails W t s s' e := by
  refine stoppedLoop_raises (s := called s .clock) h s s.trace.length (prefix_called _ _) ?_ (made_called _ _) rfl he
  rw [called_trace]; simp

/-- It comes to an end, if the clock does not stand still. -/
theorem C62_stopped_ends (t : Int) (hW : ClockRuns W) : ∃ fuel, ∀ k, (waitUntilStopped t fuel W s).1 ≠ .error .hang ∧
    waitUntilStopped t (fuel + k) W s = waitUntilStopped t fuel W s := by
  obtain ⟨n, hn⟩ := hW ((W s.trace.length).now + t)
  have h1 : (stoppedLoop (W s.trace.length).now t (n + 1) W (called s .clock)).1 ≠ .error .hang := by
    intro h
    cases hr : stoppedLoop (W s.trace.length).now t (n + 1) W (called s .clock) with
    | mk x s' =>
      rw [hr] at h
      cases h
      exact stoppedLoop_ends hn (n + 1) (by omega) (by omega) hr
  exact ⟨n + 1, fun k => ⟨h1, stoppedLoop_more (n + 1) h1 k⟩⟩

example : (waitUntilStopped 10 3 (demoW 0 3) mine).1 = .ok () := by decide +kernel
example : (waitUntilStopped 3 3 (demoW 0 99) mine).1 = .error (.timeout none) := by decide +kernel

/-- A server not started by the object that ends while it is waited for may raise `TypeError`: the file is gone when it is read again. -/
theorem C62_stop_race : (waitUntilStopped 10 3 (demoW 0 3) {}).1 = .error .type := by decide +kernel

/-- The exit code is not picked up: the status of a server that ended with status 0 while it was waited for is `None`. -/
theorem C62_exit_code : (waitUntilStopped 10 3 (demoW 0 5) mine).1 = .ok () ∧ (waitUntilStopped 10 3 (demoW 0 5) mine).2.lastExit = some none ∧
    (waitUntilStopped 10 3 (demoW 0 5) mine).2.daemon = some { pid := 7, returncode := some 0 } := by decide +kernel

end PG.Props.Cluster
