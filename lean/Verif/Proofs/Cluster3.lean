import Verif.Proofs.Cluster2
import Verif.Props.ConfigFile2
/-!
# Lemmas on the control of a server: waiting
-/
namespace PG.Proofs.Cluster
open PG PG.Cluster PG.Spec.Cluster

theorem prefix_of {α : Type} {m : M α} (h : Keeps m) {W : World} {s s' : St} {r : Except Exn α} (e : m W s = (r, s')) : s.trace <+: s'.trace := by
  have g := (h W s).1
  rw [e] at g
  exact g

theorem system_mono {W : World} {a b c d : St} {e : Exn} (h : a.trace <+: b.trace) (g : c.trace <+: d.trace) (x : SystemFails W b c e) : SystemFails W a d e := by
  cases x with
  | noNumber i line h1 h2 h3 => exact .noNumber i line (made_after h (made_mono h1 g)) h2 h3
  | noSignal i pid sig n h1 h2 h3 => exact .noSignal i pid sig n (made_after h (made_mono h1 g)) h2 h3
  | noSettings i n h1 h2 => exact .noSettings i n (made_after h (made_mono h1 g)) h2

theorem attempted_mono {W : World} {a b c d : St} {P : Connect → Prop} (h : a.trace <+: b.trace) (g : c.trace <+: d.trace) (x : Attempted W b c P) : Attempted W a d P := by
  obtain ⟨i, host, port, h1, h2⟩ := x
  exact ⟨i, host, port, made_after h (made_mono h1 g), h2⟩

theorem readyFails_after {C : Config} {W : World} {a b c : St} {e : Exn} (h : a.trace <+: b.trace) (x : ReadyFails C W b c e) : ReadyFails C W a c e := by
  cases x with
  | system e h1 => exact .system e (system_mono h List.prefix_rfl h1)
  | noAddress h1 =>
    obtain ⟨i, t, h1, h2, h3⟩ := h1
    exact .noAddress ⟨i, t, made_after h h1, h2, h3⟩
  | broken n h1 => exact .broken n (attempted_mono h List.prefix_rfl h1)
  | configuration n h1 => exact .configuration n (attempted_mono h List.prefix_rfl h1)
  | protocol n h1 => exact .protocol n (attempted_mono h List.prefix_rfl h1)

theorem running_fails {W : World} {s s' : St} {e : Exn} (h : running W s = (.error e, s')) : SystemFails W s s' e := by
  obtain ⟨i, h1, h2⟩ := running_raises h
  rcases h2 with ⟨rfl, line, h3, h4⟩ | ⟨pid, n, h3, h4, h5, h6, rfl⟩
  · exact .noNumber i line h1 h3 h4
  · exact .noSignal (i + 1) pid .zero n h4 h5 h6

/-! ## The address -/

theorem address_run (C : Config) (W : World) (s : St) : address C W s = match (W s.trace.length).conf with
    | .error e => (.error (.os e), called s .readConf)
    | .ok t => (.ok (addressOf C.U (ConfigFile.getset C.U ["listen_addresses".toList, "port".toList] t)), called s .readConf) := by
  unfold address
  rw [bind_run, ask_called, then_ok, bind_run]
  cases (W s.trace.length).conf <;> rfl

theorem address_get (U : Unicode) (t : Str) : addressOf U (ConfigFile.getset U ["listen_addresses".toList, "port".toList] t) =
    ((ConfigFile.get U "listen_addresses".toList none t).map fun l => preferred (PyStr.split ',' (U.lower l)), ConfigFile.get U "port".toList none t) := by
  unfold addressOf
  rw [PG.Props.ConfigFile.C33_getset, PG.Props.ConfigFile.C33_getset, if_pos (List.mem_cons_self ..), if_pos (List.mem_cons_of_mem _ (List.mem_cons_self ..))]
  simp only [Option.join]
  cases ConfigFile.get U "listen_addresses".toList none t <;> rfl

/-! ## Attempts to connect -/

/-- What the loop over the failures comes to. -/
def Examined (old : Bool) (all l : List Fail) (W : World) (s : St) : Prop :=
    ((∀ x ∈ l, Indecisive old x) ∧ examine old all l W s = (.ok (.failed all), s)) ∨
    (∃ x, Decisive old l x ∧
      ((UserRefused x ∧ examine old all l W s = (.ok .yes, s)) ∨
       (∃ n, x = .cf n ∧ examine old all l W s = (.error (.refused (.cf n)), s)) ∨
       (∃ n, x = .protocol n ∧ examine old all l W s = (.error (.refused (.protocol n)), s)) ∨
       (∃ n, x = .notReady n ∧ examine old all l W s = (.ok (.starting n), s))))

theorem examine_run (old : Bool) (all l : List Fail) (W : World) (s : St) : Examined old all l W s := by
  induction l with
  | nil => exact .inl ⟨fun x hx => (by cases hx), rfl⟩
  | cons x l ih =>
    have skip : Indecisive old x → examine old all (x :: l) W s = examine old all l W s → Examined old all (x :: l) W s := fun hi he => by
      unfold Examined
      rw [he]
      rcases ih with ⟨h1, h2⟩ | ⟨y, ⟨before, after, h1, h2, h3⟩, h4⟩
      · refine Or.inl ⟨fun z hz => ?_, h2⟩
        rcases List.mem_cons.mp hz with rfl | hz
        · exact hi
        · exact h1 z hz
      · refine Or.inr ⟨y, ⟨x :: before, after, by rw [h1]; rfl, fun z hz => ?_, h3⟩, h4⟩
        rcases List.mem_cons.mp hz with rfl | hz
        · exact hi
        · exact h2 z hz
    have hit : ¬ Indecisive old x → Decisive old (x :: l) x := fun h => ⟨[], l, rfl, fun y hy => (by cases hy), h⟩
    cases x with
    | authSpec n => exact .inr ⟨_, hit (fun h => h), .inl ⟨trivial, rfl⟩⟩
    | undefinedObject n =>
      cases old with
      | true => exact .inr ⟨_, hit (fun h => by cases h), .inl ⟨trivial, rfl⟩⟩
      | false => exact skip rfl rfl
    | cf n => exact .inr ⟨_, hit (fun h => h), .inr (.inl ⟨n, rfl, rfl⟩)⟩
    | protocol n => exact .inr ⟨_, hit (fun h => h), .inr (.inr (.inl ⟨n, rfl, rfl⟩))⟩
    | notReady n => exact .inr ⟨_, hit (fun h => h), .inr (.inr (.inr ⟨n, rfl, rfl⟩))⟩
    | other n => exact skip trivial rfl

/-- What a value of `ready_for_connections` says. -/
def ReadySays (C : Config) (W : World) (s s' : St) : Ready → Prop
  | .yes => SeenReady C W s s'
  | .no => SeenStopped W s s'
  | .starting n => Attempted W s s' (fun c => ∃ l, c = .cannot l ∧ Decisive C.old l (.notReady n))
  | .failed l => Attempted W s s' (fun c => c = .cannot l ∧ ∀ x ∈ l, Indecisive C.old x)

theorem contact_run (C : Config) (W : World) (s s' : St) (host port : Str) (r : Except Exn Ready) (h : contact C (some host, some port) W s = (r, s')) :
    s' = called s (.connect host port) ∧
    match r with
    | .ok .yes => Accepts C.old (W s.trace.length).connect
    | .ok .no => False
    | .ok (.starting n) => ∃ l, (W s.trace.length).connect = .cannot l ∧ Decisive C.old l (.notReady n)
    | .ok (.failed l) => (W s.trace.length).connect = .cannot l ∧ ∀ x ∈ l, Indecisive C.old x
    | .error (.connecting n) => (W s.trace.length).connect = .other n
    | .error (.refused (.cf n)) => ∃ l, (W s.trace.length).connect = .cannot l ∧ Decisive C.old l (.cf n)
    | .error (.refused (.protocol n)) => ∃ l, (W s.trace.length).connect = .cannot l ∧ Decisive C.old l (.protocol n)
    | .error _ => False := by
  have h : M.andThen (ask (.connect host port) Instant.connect W s) (fun c s => verdict C.old c W s) = (r, s') := h
  rw [ask_called, then_ok] at h
  cases hc : (W s.trace.length).connect with
  | connected =>
    rw [hc] at h
    cases h
    exact ⟨rfl, .connected⟩
  | other n =>
    rw [hc] at h
    cases h
    exact ⟨rfl, rfl⟩
  | cannot l =>
    rw [hc] at h
    have h : examine C.old l l W (called s (.connect host port)) = (r, s') := h
    rcases examine_run C.old l l W (called s (.connect host port)) with ⟨h1, h2⟩ | ⟨x, h1, h2⟩
    · rw [h2] at h
      cases h
      exact ⟨rfl, rfl, h1⟩
    · rcases h2 with ⟨hu, h2⟩ | ⟨n, rfl, h2⟩ | ⟨n, rfl, h2⟩ | ⟨n, rfl, h2⟩
      · rw [h2] at h; cases h; exact ⟨rfl, .refused l x h1 hu⟩
      · rw [h2] at h; cases h; exact ⟨rfl, l, rfl, h1⟩
      · rw [h2] at h; cases h; exact ⟨rfl, l, rfl, h1⟩
      · rw [h2] at h; cases h; exact ⟨rfl, l, rfl, h1⟩

/-- The run of `ready_for_connections`, in its parts. -/
theorem ready_cases {C : Config} {W : World} {s s' : St} {r : Except Exn Ready} (h : readyForConnections C W s = (r, s')) :
    (∃ e, r = .error e ∧ running W s = (.error e, s')) ∨
    (r = .ok .no ∧ running W s = (.ok false, s')) ∨
    ∃ s1, running W s = (.ok true, s1) ∧ s1.trace <+: s'.trace ∧
      ((∃ e, r = .error (.os e) ∧ (W s1.trace.length).conf = .error e ∧ s' = called s1 .readConf) ∨
       (r = .error .type ∧ s' = called s1 .readConf ∧ ∃ text, (W s1.trace.length).conf = .ok text ∧
          (ConfigFile.get C.U "listen_addresses".toList none text = none ∨ ConfigFile.get C.U "port".toList none text = none)) ∨
       ∃ host port, contact C (some host, some port) W (called s1 .readConf) = (r, s')) := by
  have hpre := prefix_of (keeps_ready C) h
  rw [ready_eq, bind_run] at h
  cases hr : running W s with
  | mk x s1 =>
    rw [hr] at h
    cases x with
    | error e => cases h; exact .inl ⟨e, rfl, rfl⟩
    | ok b =>
      cases b with
      | false => cases h; exact .inr (.inl ⟨rfl, rfl⟩)
      | true =>
        have h : M.andThen (address C W s1) (fun a s => contact C a W s) = (r, s') := h
        refine .inr (.inr ⟨s1, rfl, ?_, ?_⟩)
        · exact prefix_of (keeps_bind (keeps_address C) fun a => keeps_contact C a) (m := address C >>= contact C) h
        · rw [address_run] at h
          cases hc : (W s1.trace.length).conf with
          | error e => rw [hc] at h; cases h; exact .inl ⟨e, rfl, rfl, rfl⟩
          | ok text =>
            rw [hc] at h
            dsimp only at h
            rw [then_ok, address_get] at h
            cases hh : ConfigFile.get C.U "listen_addresses".toList none text with
            | none =>
              rw [hh] at h
              cases h
              exact .inr (.inl ⟨rfl, rfl, text, rfl, .inl hh⟩)
            | some l =>
              rw [hh] at h
              cases hp : ConfigFile.get C.U "port".toList none text with
              | none =>
                rw [hp] at h
                cases h
                exact .inr (.inl ⟨rfl, rfl, text, rfl, .inr hp⟩)
              | some p =>
                rw [hp] at h
                exact .inr (.inr ⟨_, p, h⟩)

theorem ready_value {C : Config} {W : World} {s s' : St} {r : Ready} (h : readyForConnections C W s = (.ok r, s')) : ReadySays C W s s' r := by
  rcases ready_cases h with ⟨e, h1, _⟩ | ⟨h1, h2⟩ | ⟨s1, h1, hp, h2⟩
  · cases h1
  · cases h1; exact running_stopped h2
  · rcases h2 with ⟨e, h2, _⟩ | ⟨h2, _⟩ | ⟨host, port, h2⟩
    · cases h2
    · cases h2
    · obtain ⟨rfl, h3⟩ := contact_run _ _ _ _ _ _ _ h2
      have hpre := prefix_of keeps_running h1
      have made : Made s1 (called (called s1 .readConf) (.connect host port)) (called s1 .readConf).trace.length (.connect host port) :=
        made_after (prefix_called _ _) (made_called _ _)
      cases r with
      | yes => exact .mk s s1 _ host port List.prefix_rfl (running_seen h1) hp made h3
      | no => exact h3.elim
      | starting n => exact ⟨_, host, port, made_after hpre made, h3⟩
      | failed l => exact ⟨_, host, port, made_after hpre made, h3⟩

theorem ready_raises {C : Config} {W : World} {s s' : St} {e : Exn} (h : readyForConnections C W s = (.error e, s')) : ReadyFails C W s s' e := by
  rcases ready_cases h with ⟨e', h1, h2⟩ | ⟨h1, h2⟩ | ⟨s1, h1, hp, h2⟩
  · cases h1; exact .system _ (running_fails h2)
  · cases h1
  · have hpre := prefix_of keeps_running h1
    rcases h2 with ⟨e', h2, h3, rfl⟩ | ⟨h2, rfl, t, h3, h4⟩ | ⟨host, port, h2⟩
    · cases h2; exact .system _ (.noSettings s1.trace.length e' (made_after hpre (made_called _ _)) h3)
    · cases h2; exact .noAddress ⟨s1.trace.length, t, made_after hpre (made_called _ _), h3, h4⟩
    · obtain ⟨rfl, h3⟩ := contact_run _ _ _ _ _ _ _ h2
      have made : Made s (called (called s1 .readConf) (.connect host port)) (called s1 .readConf).trace.length (.connect host port) :=
        made_after hpre (made_after (prefix_called _ _) (made_called _ _))
      cases e with
      | connecting n => exact .broken n ⟨_, host, port, made, h3⟩
      | refused x =>
        cases x with
        | cf n => exact .configuration n ⟨_, host, port, made, h3⟩
        | protocol n => exact .protocol n ⟨_, host, port, made, h3⟩
        | _ => exact h3.elim
      | _ => exact h3.elim

/-! ## `wait_until_started` -/

theorem mustRun_value {W : World} {s s' : St} (h : mustRun W s = (.ok (), s')) : s.trace <+: s'.trace := prefix_of keeps_mustRun h

theorem mustRun_raises {W : World} {s s' : St} {e : Exn} (h : mustRun W s = (.error e, s')) :
    SystemFails W s s' e ∨
    (∃ p r i, s'.daemon = some p ∧ p.returncode = some r ∧ Made s s' i .readPid ∧ NoFile (W i) ∧ e = .startup r s'.command) ∨
    (e = .notRunning ∧ s'.daemon = none ∧ SeenStopped W s s') := by
  rw [mustRun_eq, bind_run] at h
  cases hr : running W s with
  | mk x s1 =>
    rw [hr] at h
    cases x with
    | error e => cases h; exact .inl (running_fails hr)
    | ok b =>
      cases b with
      | true => cases h
      | false =>
        have h : noServer s1 W s1 = (.error e, s') := h
        unfold noServer at h
        have hs := running_stopped hr
        cases hd : s1.daemon with
        | none => rw [hd] at h; cases h; exact .inr (.inr ⟨rfl, hd, hs⟩)
        | some p =>
          rw [hd] at h
          dsimp only at h
          cases hc : p.returncode with
          | none => rw [hc] at h; cases h
          | some r =>
            rw [hc] at h
            cases h
            cases hs with
            | noFile i h1 h2 h3 => exact .inr (.inl ⟨p, r, i, hd, hc, h2, h3, rfl⟩)
            | gone i j pid d _ _ _ _ _ => rw [hd] at d; cases d

/-- One round of the loop. -/
theorem startedLoop_run (C : Config) (b t : Int) (fuel : Nat) (W : World) (s : St) : startedLoop C b t (fuel + 1) W s =
    M.andThen (mustRun W s) fun _ s1 => M.andThen (readyForConnections C W s1) fun r s2 =>
      if r = .yes then (.ok (), called s2 .clock)
      else if t ≤ (W s2.trace.length).now - b then startTimeout r W (called s2 .clock)
      else startedLoop C b t fuel W (called (called s2 .clock) .sleep) := by
  show M.andThen (mustRun W s) _ = _
  congr 1
  funext _ s1
  show M.andThen (readyForConnections C W s1) _ = _
  congr 1
  funext r s2
  show (if r = .yes then _ else if t ≤ (W s2.trace.length).now - b then _ else _ : M Unit) W (called s2 .clock) = _
  split
  · rfl
  · split <;> rfl

theorem seenReady_mono {C : Config} {W : World} {a b c d : St} (h : a.trace <+: b.trace) (g : c.trace <+: d.trace) (x : SeenReady C W b c) : SeenReady C W a d := by
  obtain ⟨u, v, i, host, port, h1, h2, h3, h4, h5⟩ := x
  exact .mk u v i host port (h.trans h1) h2 (h3.trans g) (made_mono h4 g) h5

theorem startedLoop_value {C : Config} {b t : Int} {W : World} {fuel : Nat} : ∀ {s s' : St}, startedLoop C b t fuel W s = (.ok (), s') → SeenReady C W s s' := by
  induction fuel with
  | zero => intro s s' h; cases h
  | succ n ih =>
    intro s s' h
    rw [startedLoop_run] at h
    obtain ⟨_, s1, h1, h⟩ := then_value h
    obtain ⟨r, s2, h2, h⟩ := then_value h
    have p1 := prefix_of keeps_mustRun h1
    have p2 := prefix_of (keeps_ready C) h2
    split at h
    · rename_i hy
      cases h
      subst hy
      exact seenReady_mono p1 (prefix_called _ _) (ready_value h2)
    · split at h
      · cases r <;> cases h
      · exact seenReady_mono ((p1.trans p2).trans ((prefix_called _ _).trans (prefix_called _ _))) List.prefix_rfl (ih h)

/-- The reasons of the loop, with the time it began for the time waited. -/
def LoopFails (C : Config) (W : World) (b t : Int) (s s' : St) (e : Exn) : Prop :=
  ∀ (s0 : St) (i : Nat), s0.trace <+: s.trace → i < s.trace.length → Made s0 s i .clock → b = (W i).now → e ≠ .hang → StartFails C W t s0 s' e

theorem startedLoop_raises {C : Config} {b t : Int} {W : World} {fuel : Nat} : ∀ {s s' : St} {e : Exn}, startedLoop C b t fuel W s = (.error e, s') → LoopFails C W b t s s' e := by
  induction fuel with
  | zero =>
    intro s s' e h s0 i _ _ _ _ hh
    cases h
    exact absurd rfl hh
  | succ n ih =>
    intro s s' e h s0 i h0 hi hm hb hh
    rw [startedLoop_run] at h
    rcases then_raises h with h1 | ⟨_, s1, h1, h⟩
    · rcases mustRun_raises h1 with h2 | ⟨p, r, j, h2, h3, h4, h5, rfl⟩ | ⟨rfl, h2, h3⟩
      · exact .ready _ (.system _ (system_mono h0 List.prefix_rfl h2))
      · exact .ended p r j h2 h3 (made_after h0 h4) h5
      · exact .notRunning h2 (stopped_after h0 h3)
    · have p1 := prefix_of keeps_mustRun h1
      rcases then_raises h with h2 | ⟨r, s2, h2, h⟩
      · exact .ready _ (readyFails_after (h0.trans p1) (ready_raises h2))
      · have p2 := prefix_of (keeps_ready C) h2
        split at h
        · cases h
        · split at h
          · rename_i hy ht
            have hv := ready_value h2
            have w : Waited W s0 (called s2 .clock) t := by
              refine ⟨i, s2.trace.length, Nat.lt_of_lt_of_le hi (p1.trans p2).length_le, made_mono hm ((p1.trans p2).trans (prefix_called _ _)),
                made_after ((h0.trans p1).trans p2) (made_called _ _), ?_⟩
              rw [← hb]; exact ht
            cases r with
            | yes => exact absurd rfl hy
            | no =>
              cases h
              refine .timeUpStopped w ?_
              have hv := stopped_after (h0.trans p1) hv
              cases hv with
              | noFile i h1 h2 h3 => exact .noFile i h1 (made_mono h2 (prefix_called _ _)) h3
              | gone i j pid d h1 h2 h3 h4 h5 => exact .gone i j pid d h1 (made_mono h2 (prefix_called _ _)) h3 (made_mono h4 (prefix_called _ _)) h5
            | starting n => cases h; exact .starting n w (attempted_mono (h0.trans p1) (prefix_called _ _) hv)
            | failed l => cases h; exact .timeUp l w (attempted_mono (h0.trans p1) (prefix_called _ _) hv)
          · have p3 : s.trace <+: (called (called s2 .clock) .sleep).trace := (p1.trans p2).trans ((prefix_called _ _).trans (prefix_called _ _))
            exact ih h s0 i (h0.trans p3) (Nat.lt_of_lt_of_le hi p3.length_le) (made_mono hm p3) hb hh

theorem system_hang {W : World} {s s' : St} (h : SystemFails W s s' .hang) : False := by cases h
theorem ready_hang {C : Config} {W : World} {s s' : St} (h : ReadyFails C W s s' .hang) : False := by
  cases h with
  | system _ h => exact system_hang h

/-- The loop ends once the clock has passed the time. -/
theorem startedLoop_ends {C : Config} {b t : Int} {W : World} {n : Nat} (hn : ∀ k, n ≤ k → b + t ≤ (W k).now) (fuel : Nat) :
    ∀ {s s' : St}, n < s.trace.length + fuel → 0 < fuel → startedLoop C b t fuel W s ≠ (.error .hang, s') := by
  induction fuel with
  | zero => intro s s' _ h0; cases h0
  | succ m ih =>
    intro s s' hl _ h
    rw [startedLoop_run] at h
    rcases then_raises h with h1 | ⟨_, s1, h1, h⟩
    · rcases mustRun_raises h1 with h2 | ⟨p, r, j, h2, h3, h4, h5, h6⟩ | ⟨h6, h2, h3⟩
      · exact system_hang h2
      · cases h6
      · cases h6
    · have p1 := prefix_of keeps_mustRun h1
      rcases then_raises h with h2 | ⟨r, s2, h2, h⟩
      · exact ready_hang (ready_raises h2)
      · have p2 := prefix_of (keeps_ready C) h2
        have pl := (p1.trans p2).length_le
        split at h
        · cases h
        · split at h
          · cases r <;> cases h
          · rename_i _ ht
            have hk : ¬ n ≤ s2.trace.length := fun g => ht (by have := hn _ g; omega)
            refine ih (s := called (called s2 .clock) .sleep) (s' := s') ?_ (by omega) h
            rw [called_trace, called_trace]
            simp only [List.length_append, List.length_cons, List.length_nil]
            omega

/-- More rounds change nothing once the loop has ended. -/
theorem startedLoop_more {C : Config} {b t : Int} {W : World} (fuel : Nat) : ∀ {s : St}, (startedLoop C b t fuel W s).1 ≠ .error .hang →
    ∀ k, startedLoop C b t (fuel + k) W s = startedLoop C b t fuel W s := by
  induction fuel with
  | zero => intro s h; exact absurd rfl h
  | succ n ih =>
    intro s h k
    rw [show n + 1 + k = (n + k) + 1 by omega, startedLoop_run, startedLoop_run]
    rw [startedLoop_run] at h
    generalize mustRun W s = r1 at h
    obtain ⟨x, s1⟩ := r1
    cases x with
    | error e => rfl
    | ok _ =>
      rw [then_ok] at h
      rw [then_ok, then_ok]
      generalize readyForConnections C W s1 = r2 at h
      obtain ⟨x, s2⟩ := r2
      cases x with
      | error e => rfl
      | ok r =>
        rw [then_ok] at h
        rw [then_ok, then_ok]
        split
        · rfl
        · split
          · rfl
          · rename_i h1 h2
            rw [if_neg h1, if_neg h2] at h
            exact ih h k

end PG.Proofs.Cluster
