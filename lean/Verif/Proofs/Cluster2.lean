import Verif.Proofs.Cluster
/-!
# Lemmas on the control of a server: what the calls show
-/
namespace PG.Proofs.Cluster
open PG PG.Cluster PG.Spec.Cluster

/-! ## Calls made -/

theorem made_mono {a b c : St} {i : Nat} {x : Call} (h : Made a b i x) (g : b.trace <+: c.trace) : Made a c i x := ⟨h.1, get_prefix g h.2⟩

theorem made_after {a b c : St} {i : Nat} {x : Call} (h : a.trace <+: b.trace) (g : Made b c i x) : Made a c i x := ⟨Nat.le_trans h.length_le g.1, g.2⟩

/-- A state with one call more. -/
def called (s : St) (c : Call) : St := { s with trace := s.trace ++ [c] }

/-- A state with another process. -/
def withDaemon (s : St) (d : Option Proc) : St := { s with daemon := d }

theorem called_trace (s : St) (c : Call) : (called s c).trace = s.trace ++ [c] := rfl
theorem called_daemon (s : St) (c : Call) : (called s c).daemon = s.daemon := rfl

theorem made_called (s : St) (c : Call) : Made s (called s c) s.trace.length c :=
  ⟨Nat.le_refl _, by rw [called_trace, List.getElem?_append_right (Nat.le_refl _), Nat.sub_self]; rfl⟩

theorem prefix_called (s : St) (c : Call) : s.trace <+: (called s c).trace := List.prefix_append _ _

theorem ask_called {α : Type} (c : Call) (f : Instant → α) (W : World) (s : St) : ask c f W s = (.ok (f (W s.trace.length)), called s c) := rfl

/-! ## The file -/

/-- What reading the file comes to. -/
def fileSays (x : Instant) : Except Exn (Option Int) :=
  match x.pidfile with
  | .error _ => .ok none
  | .ok line => match PyInt.pyInt 10 line with
    | .ok n => .ok (some n)
    | .error _ => .error .value

theorem file_run (W : World) (s : St) : getPidFromFile W s = (fileSays (W s.trace.length), called s .readPid) := by
  unfold getPidFromFile
  rw [bind_run, ask_called, then_ok]
  unfold fileSays
  cases h : (W s.trace.length).pidfile with
  | error e => rfl
  | ok line => dsimp only; cases PyInt.pyInt 10 line <;> rfl

theorem says_names {x : Instant} {n : Int} (h : fileSays x = .ok (some n)) : Names x n := by
  unfold fileSays at h
  cases hp : x.pidfile with
  | error e => rw [hp] at h; cases h
  | ok line =>
    rw [hp] at h
    dsimp only at h
    cases hn : PyInt.pyInt 10 line with
    | error e => rw [hn] at h; cases h
    | ok m => rw [hn] at h; cases h; exact ⟨line, hp, hn⟩

theorem says_none {x : Instant} (h : fileSays x = .ok none) : NoFile x := by
  unfold fileSays at h
  cases hp : x.pidfile with
  | error e => exact ⟨e, hp⟩
  | ok line =>
    rw [hp] at h
    dsimp only at h
    cases hn : PyInt.pyInt 10 line with
    | error e => rw [hn] at h; cases h
    | ok m => rw [hn] at h; cases h

theorem says_error {x : Instant} {e : Exn} (h : fileSays x = .error e) : e = .value ∧ ∃ line, x.pidfile = .ok line ∧ ∀ n, PyInt.pyInt 10 line ≠ .ok n := by
  unfold fileSays at h
  cases hp : x.pidfile with
  | error e => rw [hp] at h; cases h
  | ok line =>
    rw [hp] at h
    dsimp only at h
    cases hn : PyInt.pyInt 10 line with
    | error e => rw [hn] at h; cases h; exact ⟨rfl, line, rfl, fun n g => by rw [hn] at g; cases g⟩
    | ok m => rw [hn] at h; cases h

theorem names_says {x : Instant} {n : Int} (h : Names x n) : fileSays x = .ok (some n) := by
  obtain ⟨line, h1, h2⟩ := h
  unfold fileSays
  rw [h1]; dsimp only; rw [h2]

theorem none_says {x : Instant} (h : NoFile x) : fileSays x = .ok none := by
  obtain ⟨e, h⟩ := h
  unfold fileSays
  rw [h]

/-! ## `running` -/

/-- The outcome of signal 0. -/
def alive : Option Errno → Except Exn Bool
  | none => .ok true
  | some e => if e ≠ ESRCH then .error (.os e) else .ok false

theorem byFile_run (W : World) (s : St) : runningByFile W s = match fileSays (W s.trace.length) with
    | .error e => (.error e, called s .readPid)
    | .ok none => (.ok false, called s .readPid)
    | .ok (some n) => (alive ((W (s.trace.length + 1)).signal n .zero), called (called s .readPid) (.kill n .zero)) := by
  unfold runningByFile
  rw [bind_run, file_run]
  cases fileSays (W s.trace.length) with
  | error e => rfl
  | ok r =>
    cases r with
    | none => rfl
    | some n =>
      rw [then_ok]
      dsimp only
      rw [bind_run, ask_called, then_ok]
      rw [show (called s .readPid).trace.length = s.trace.length + 1 by rw [called_trace]; simp]
      unfold alive
      cases (W (s.trace.length + 1)).signal n .zero with
      | none => rfl
      | some e =>
        dsimp only
        by_cases h : e = ESRCH
        · rw [if_neg (fun g => g h), if_neg (fun g => g h)]; rfl
        · rw [if_pos h, if_pos h]; rfl

theorem byFile_true {W : World} {s s' : St} (h : runningByFile W s = (.ok true, s')) :
    ∃ pid, Names (W s.trace.length) pid ∧ (W (s.trace.length + 1)).signal pid .zero = none ∧ s' = called (called s .readPid) (.kill pid .zero) := by
  rw [byFile_run] at h
  cases hf : fileSays (W s.trace.length) with
  | error e => rw [hf] at h; cases h
  | ok r =>
    rw [hf] at h
    cases r with
    | none => cases h
    | some n =>
      dsimp only at h
      refine ⟨n, says_names hf, ?_, (congrArg (·.2) h).symm⟩
      have h := congrArg (·.1) h
      dsimp only at h
      unfold alive at h
      cases hs : (W (s.trace.length + 1)).signal n .zero with
      | none => rfl
      | some e =>
        rw [hs] at h
        dsimp only at h
        split at h <;> cases h

theorem byFile_false {W : World} {s s' : St} (h : runningByFile W s = (.ok false, s')) :
    (NoFile (W s.trace.length) ∧ s' = called s .readPid) ∨
    ∃ pid, Names (W s.trace.length) pid ∧ (W (s.trace.length + 1)).signal pid .zero = some ESRCH ∧ s' = called (called s .readPid) (.kill pid .zero) := by
  rw [byFile_run] at h
  cases hf : fileSays (W s.trace.length) with
  | error e => rw [hf] at h; cases h
  | ok r =>
    rw [hf] at h
    cases r with
    | none => exact .inl ⟨says_none hf, (congrArg (·.2) h).symm⟩
    | some n =>
      dsimp only at h
      refine .inr ⟨n, says_names hf, ?_, (congrArg (·.2) h).symm⟩
      have h := congrArg (·.1) h
      dsimp only at h
      unfold alive at h
      cases hs : (W (s.trace.length + 1)).signal n .zero with
      | none => rw [hs] at h; cases h
      | some e =>
        rw [hs] at h
        dsimp only at h
        split at h
        · cases h
        · rename_i g
          rw [Decidable.of_not_not g]

theorem byFile_raises {W : World} {s s' : St} {e : Exn} (h : runningByFile W s = (.error e, s')) :
    (e = .value ∧ s' = called s .readPid ∧ ∃ line, (W s.trace.length).pidfile = .ok line ∧ ∀ n, PyInt.pyInt 10 line ≠ .ok n) ∨
    ∃ pid n, Names (W s.trace.length) pid ∧ (W (s.trace.length + 1)).signal pid .zero = some n ∧ n ≠ ESRCH ∧ e = .os n ∧
      s' = called (called s .readPid) (.kill pid .zero) := by
  rw [byFile_run] at h
  cases hf : fileSays (W s.trace.length) with
  | error e =>
    rw [hf] at h
    cases h
    obtain ⟨g, k⟩ := says_error hf
    exact .inl ⟨g, rfl, k⟩
  | ok r =>
    rw [hf] at h
    cases r with
    | none => cases h
    | some n =>
      dsimp only at h
      refine .inr ⟨n, ?_⟩
      have h2 := (congrArg (·.2) h).symm
      have h := congrArg (·.1) h
      dsimp only at h
      unfold alive at h
      cases hs : (W (s.trace.length + 1)).signal n .zero with
      | none => rw [hs] at h; cases h
      | some x =>
        rw [hs] at h
        dsimp only at h
        split at h
        · rename_i g
          cases h
          exact ⟨x, says_names hf, rfl, g, rfl, h2⟩
        · cases h

theorem byFile_daemon (W : World) (s : St) : (runningByFile W s).2.daemon = s.daemon := by
  rw [byFile_run]
  cases fileSays (W s.trace.length) with
  | error e => rfl
  | ok r => cases r <;> rfl

theorem made_kill (s : St) (c x : Call) : Made s (called (called s c) x) (s.trace.length + 1) x := by
  have h := made_called (called s c) x
  rw [show (called s c).trace.length = s.trace.length + 1 by rw [called_trace]; simp] at h
  exact ⟨by omega, h.2⟩

theorem byFile_seen {W : World} {s s' : St} (h : runningByFile W s = (.ok true, s')) : SeenRunning W s s' := by
  obtain ⟨pid, h1, h2, rfl⟩ := byFile_true h
  exact .file _ _ pid (Nat.lt_succ_self _) (made_mono (made_called _ _) (prefix_called _ _)) h1 (made_kill _ _ _) h2

theorem byFile_stopped {W : World} {s s' : St} (d : s.daemon = none) (h : runningByFile W s = (.ok false, s')) : SeenStopped W s s' := by
  have e := byFile_daemon W s
  rw [h, d] at e
  rcases byFile_false h with ⟨h1, rfl⟩ | ⟨pid, h1, h2, rfl⟩
  · exact .noFile _ (fun p hp => by have := hp.symm.trans e; cases this) (made_called _ _) h1
  · exact .gone _ _ pid e (Nat.lt_succ_self _) (made_mono (made_called _ _) (prefix_called _ _)) h1 (made_kill _ _ _) h2

/-- What `poll` comes to. -/
theorem poll_run (p : Proc) (W : World) (s : St) (h : s.daemon = some p) :
    (∃ r, p.returncode = some r ∧ poll p W s = (.ok (some r), s)) ∨
    (p.returncode = none ∧ poll p W s = (.ok ((W s.trace.length).exited p.pid), withDaemon (called s (.poll p.pid)) (some ⟨p.pid, (W s.trace.length).exited p.pid⟩))) := by
  obtain ⟨n, r⟩ := p
  cases r with
  | some r => exact .inl ⟨r, rfl, rfl⟩
  | none => exact .inr ⟨rfl, rfl⟩

theorem poll_prefix (p : Proc) (W : World) (s : St) : s.trace <+: (poll p W s).2.trace := by
  obtain ⟨n, r⟩ := p
  cases r with
  | some r => exact List.prefix_rfl
  | none => exact List.prefix_append _ _

theorem afterPoll_run (r : Int) (W : World) (s : St) : afterPoll (some r) W s = match fileSays (W s.trace.length) with
    | .error e => (.error e, called s .readPid)
    | .ok none => (.ok false, called s .readPid)
    | .ok (some _) => runningByFile W (withDaemon (called s .readPid) none) := by
  show M.andThen (getPidFromFile W s) _ = _
  rw [file_run]
  cases fileSays (W s.trace.length) with
  | error e => rfl
  | ok r =>
    cases r with
    | none => rfl
    | some n => rfl

/-- A server was seen to run, if a program that began earlier saw it. -/
theorem seen_file_after {W : World} {a b c : St} (h : a.trace <+: b.trace) (d : b.daemon = none) (g : SeenRunning W b c) : SeenRunning W a c := by
  cases g with
  | own i p h1 _ _ => rw [d] at h1; cases h1
  | file i j pid h1 h2 h3 h4 h5 => exact .file i j pid h1 (made_after h h2) h3 (made_after h h4) h5

theorem stopped_after {W : World} {a b c : St} (h : a.trace <+: b.trace) (g : SeenStopped W b c) : SeenStopped W a c := by
  cases g with
  | noFile i h1 h2 h3 => exact .noFile i h1 (made_after h h2) h3
  | gone i j pid d h1 h2 h3 h4 h5 => exact .gone i j pid d h1 (made_after h h2) h3 (made_after h h4) h5

theorem running_seen {W : World} {s s' : St} (h : running W s = (.ok true, s')) : SeenRunning W s s' := by
  rw [running_run] at h
  cases hd : s.daemon with
  | none => rw [hd] at h; exact byFile_seen h
  | some p =>
    rw [hd] at h
    have h : M.andThen (poll p W s) (fun r s => afterPoll r W s) = (.ok true, s') := h
    have key : ∀ (r : Int) (s1 : St), s.trace <+: s1.trace → afterPoll (some r) W s1 = (.ok true, s') → SeenRunning W s s' := by
      intro r s1 hp ha
      rw [afterPoll_run] at ha
      cases hf : fileSays (W s1.trace.length) with
      | error e => rw [hf] at ha; cases ha
      | ok x =>
        rw [hf] at ha
        cases x with
        | none => cases ha
        | some n => exact seen_file_after (b := withDaemon (called s1 .readPid) none) (hp.trans (prefix_called s1 .readPid)) rfl (byFile_seen ha)
    rcases poll_run p W s hd with ⟨r, _, h2⟩ | ⟨_, h2⟩
    · rw [h2] at h
      exact key r s List.prefix_rfl h
    · rw [h2, then_ok] at h
      cases hx : (W s.trace.length).exited p.pid with
      | some r => rw [hx] at h; exact key r (withDaemon (called s (.poll p.pid)) (some ⟨p.pid, some r⟩)) (prefix_called s (.poll p.pid)) h
      | none =>
        rw [hx] at h
        cases h
        exact .own s.trace.length p hd (made_called s (.poll p.pid)) hx

theorem running_stopped {W : World} {s s' : St} (h : running W s = (.ok false, s')) : SeenStopped W s s' := by
  rw [running_run] at h
  cases hd : s.daemon with
  | none => rw [hd] at h; exact byFile_stopped hd h
  | some p =>
    rw [hd] at h
    have h : M.andThen (poll p W s) (fun r s => afterPoll r W s) = (.ok false, s') := h
    have key : ∀ (r : Int) (s1 : St), s.trace <+: s1.trace → (∀ q, s1.daemon = some q → q.returncode ≠ none) → afterPoll (some r) W s1 = (.ok false, s') → SeenStopped W s s' := by
      intro r s1 hp hr ha
      rw [afterPoll_run] at ha
      cases hf : fileSays (W s1.trace.length) with
      | error e => rw [hf] at ha; cases ha
      | ok x =>
        rw [hf] at ha
        cases x with
        | none => cases ha; exact .noFile s1.trace.length hr (made_after hp (made_called _ _)) (says_none hf)
        | some n => exact stopped_after (b := withDaemon (called s1 .readPid) none) (hp.trans (prefix_called s1 .readPid)) (byFile_stopped rfl ha)
    rcases poll_run p W s hd with ⟨r, h1, h2⟩ | ⟨_, h2⟩
    · rw [h2] at h
      exact key r s List.prefix_rfl (fun q hq => by rw [hd] at hq; cases hq; rw [h1]; exact fun g => by cases g) h
    · rw [h2, then_ok] at h
      cases hx : (W s.trace.length).exited p.pid with
      | some r => rw [hx] at h; exact key r (withDaemon (called s (.poll p.pid)) (some ⟨p.pid, some r⟩)) (prefix_called s (.poll p.pid)) (fun q hq => by cases hq; exact fun g => by cases g) h
      | none => rw [hx] at h; cases h

/-- Why `running` raises: the file holds no number, or the process it names cannot be signalled, and exists. -/
theorem running_raises {W : World} {s s' : St} {e : Exn} (h : running W s = (.error e, s')) :
    ∃ i : Nat, Made s s' i .readPid ∧
      ((e = .value ∧ ∃ line, (W i).pidfile = .ok line ∧ ∀ n, PyInt.pyInt 10 line ≠ .ok n) ∨
       ∃ pid n, Names (W i) pid ∧ Made s s' (i + 1) (.kill pid .zero) ∧ (W (i + 1)).signal pid .zero = some n ∧ n ≠ ESRCH ∧ e = .os n) := by
  have byfile : ∀ s1 : St, s.trace <+: s1.trace → runningByFile W s1 = (.error e, s') → ∃ i : Nat, Made s s' i .readPid ∧
      ((e = .value ∧ ∃ line, (W i).pidfile = .ok line ∧ ∀ n, PyInt.pyInt 10 line ≠ .ok n) ∨
       ∃ pid n, Names (W i) pid ∧ Made s s' (i + 1) (.kill pid .zero) ∧ (W (i + 1)).signal pid .zero = some n ∧ n ≠ ESRCH ∧ e = .os n) := by
    intro s1 hp hb
    rcases byFile_raises hb with ⟨h1, rfl, h2⟩ | ⟨pid, n, h1, h2, h3, h4, rfl⟩
    · exact ⟨s1.trace.length, made_after hp (made_called _ _), .inl ⟨h1, h2⟩⟩
    · exact ⟨s1.trace.length, made_after hp (made_mono (made_called _ _) (prefix_called _ _)), .inr ⟨pid, n, h1, made_after hp (made_kill _ _ _), h2, h3, h4⟩⟩
  rw [running_run] at h
  cases hd : s.daemon with
  | none => rw [hd] at h; exact byfile s List.prefix_rfl h
  | some p =>
    rw [hd] at h
    have h : M.andThen (poll p W s) (fun r s => afterPoll r W s) = (.error e, s') := h
    have hp := poll_prefix p W s
    rcases then_raises h with h1 | ⟨r, s1, h1, h2⟩
    · rcases poll_run p W s hd with ⟨r, _, h2⟩ | ⟨_, h2⟩ <;> rw [h2] at h1 <;> cases h1
    · rw [h1] at hp
      cases r with
      | none => cases h2
      | some r =>
        rw [afterPoll_run] at h2
        cases hf : fileSays (W s1.trace.length) with
        | error e' =>
          rw [hf] at h2
          cases h2
          obtain ⟨g, k⟩ := says_error hf
          exact ⟨s1.trace.length, made_after hp (made_called _ _), .inl ⟨g, k⟩⟩
        | ok x =>
          rw [hf] at h2
          cases x with
          | none => cases h2
          | some n => exact byfile (withDaemon (called s1 .readPid) none) (hp.trans (prefix_called s1 .readPid)) h2

end PG.Proofs.Cluster
