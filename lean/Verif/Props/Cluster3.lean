import Verif.Props.Cluster2
/-!
# C63: what a cluster object does to its server: `drop`, `with`
-/
namespace PG.Props.Cluster
open PG PG.Cluster PG.Spec.Cluster PG.Proofs.Cluster
set_option linter.unusedSectionVars false
variable {C : Config} {W : World} {s s' : St}

/-! ## `drop()` -/

theorem timedOut_run (t : Int) (fuel : Nat) (W : World) (s : St) : timedOut t fuel W s = match waitUntilStopped t fuel W s with
    | (.ok _, s1) => (.ok false, s1)
    | (.error (.timeout _), s1) => (.ok true, s1)
    | (.error e, s1) => (.error e, s1) := by
  unfold timedOut
  rw [bind_run, attempt_run, then_ok]
  generalize waitUntilStopped t fuel W s = q
  obtain ⟨x, s1⟩ := q
  cases x with
  | ok _ => rfl
  | error e => cases e <;> rfl

theorem timedOut_false {t : Int} {fuel : Nat} (h : timedOut t fuel W s = (.ok false, s')) : SeenStopped W s s' := by
  rw [timedOut_run] at h
  cases hw : waitUntilStopped t fuel W s with
  | mk x s1 =>
    rw [hw] at h
    cases x with
    | ok _ => cases h; exact C62_stopped hw
    | error e => cases e <;> cases h

theorem timedOut_true {t : Int} {fuel : Nat} (h : timedOut t fuel W s = (.ok true, s')) : Waited W s s' t := by
  rw [timedOut_run] at h
  cases hw : waitUntilStopped t fuel W s with
  | mk x s1 =>
    rw [hw] at h
    cases x with
    | ok _ => cases h
    | error e =>
      cases e with
      | timeout c =>
        cases h
        have := C62_stopped_raises hw (fun k => by cases k)
        cases this with
        | system _ g => cases g
        | timeUp a b _ _ _ g => exact g
      | _ => cases h

theorem timedOut_trace {t : Int} {fuel : Nat} {r : Except Exn Bool} (h : timedOut t fuel W s = (r, s')) : ∃ u, s'.trace = s.trace ++ u ∧ ∀ c ∈ u, Looks c := by
  have g := only_waitStopped t fuel W s
  rw [timedOut_run] at h
  generalize waitUntilStopped t fuel W s = q at h g
  obtain ⟨x, s1⟩ := q
  cases x with
  | ok _ => cases h; exact g
  | error e => cases e <;> cases h <;> exact g

theorem waited_mono {W : World} {a b c d : St} {t : Int} (h : a.trace <+: b.trace) (g : c.trace <+: d.trace) (x : Waited W b c t) : Waited W a d t := by
  obtain ⟨i, j, h1, h2, h3, h4⟩ := x
  exact ⟨i, j, h1, made_after h (made_mono h2 g), made_after h (made_mono h3 g), h4⟩

/-- What is so after the server was taken down. -/
def Down (W : World) (t : Int) (s s' : St) : Prop :=
  (∃ a b, s.trace <+: a.trace ∧ SeenStopped W a b ∧ b.trace <+: s'.trace) ∨ (Waited W s s' t ∧ ∃ j, Made s s' j .warn)

/-- The signals of `drop`: at most that of `shutdown`, then at most that of `kill`, after the time was up. -/
def DropSignals (W : World) (t : Int) (s s' : St) (u : List Call) : Prop :=
  ∃ x y, signalsOf u = x ++ y ∧ (x = [] ∨ ∃ p, x = [(p, .int)]) ∧ (y = [] ∨ (Waited W s s' t ∧ ∃ p, y = [(p, .kill)]))

theorem takeDown_run {t : Int} {fuel : Nat} {r : Except Exn Unit} (h : takeDown t fuel W s = (r, s')) :
    ∃ u, s'.trace = s.trace ++ u ∧ Call.remove ∉ u ∧ DropSignals W t s s' u ∧ (r = .ok () → Down W t s s') := by
  have looks_remove : ∀ {u : List Call}, (∀ c ∈ u, Looks c) → Call.remove ∉ u := fun hu g => hu _ g
  have h : M.andThen (shutdown W s) (fun _ s1 => M.andThen (timedOut t fuel W s1) fun b s2 =>
      (if b then (do kill; if ← timedOut t fuel then ask .warn fun _ => ()) else pure () : M Unit) W s2) = (r, s') := h
  obtain ⟨u1, h1, _, hr1, hs1⟩ := signalled_between .int W s
  have h1 : (shutdown W s).2.trace = s.trace ++ u1 := h1
  generalize shutdown W s = q at h h1
  obtain ⟨y, s1⟩ := q
  have h1 : s1.trace = s.trace ++ u1 := h1
  have p1 : s.trace <+: s1.trace := ⟨u1, h1.symm⟩
  cases y with
  | error e => cases h; exact ⟨u1, h1, hr1, ⟨signalsOf u1, [], by simp, hs1, .inl rfl⟩, fun k => by cases k⟩
  | ok _ =>
    rw [then_ok] at h
    cases hw : timedOut t fuel W s1 with
    | mk y s2 =>
      obtain ⟨u2, h2, l2⟩ := timedOut_trace hw
      have tr2 : s2.trace = s.trace ++ (u1 ++ u2) := by rw [h2, h1, List.append_assoc]
      have p2 : s1.trace <+: s2.trace := ⟨u2, h2.symm⟩
      have nr2 : Call.remove ∉ u1 ++ u2 := fun g => by
        rcases List.mem_append.mp g with g | g
        · exact hr1 g
        · exact looks_remove l2 g
      have sg2 : signalsOf (u1 ++ u2) = signalsOf u1 := by rw [signalsOf_append, looks_signals l2, List.append_nil]
      rw [hw] at h
      cases y with
      | error e => cases h; exact ⟨_, tr2, nr2, ⟨signalsOf u1, [], by rw [sg2]; simp, hs1, .inl rfl⟩, fun k => by cases k⟩
      | ok b =>
        rw [then_ok] at h
        cases b with
        | false =>
          cases h
          exact ⟨_, tr2, nr2, ⟨signalsOf u1, [], by rw [sg2]; simp, hs1, .inl rfl⟩, fun _ => .inl ⟨s1, _, p1, timedOut_false hw, List.prefix_rfl⟩⟩
        | true =>
          have w2 := timedOut_true hw
          have h : M.andThen (kill W s2) (fun _ s3 => M.andThen (timedOut t fuel W s3) fun b s4 => (if b then ask .warn fun _ => () else pure () : M Unit) W s4) = (r, s') := h
          obtain ⟨u3, h3, _, hr3, hs3⟩ := signalled_between .kill W s2
          have h3 : (kill W s2).2.trace = s2.trace ++ u3 := h3
          generalize kill W s2 = q at h h3
          obtain ⟨y, s3⟩ := q
          have h3 : s3.trace = s2.trace ++ u3 := h3
          have p3 : s2.trace <+: s3.trace := ⟨u3, h3.symm⟩
          have tr3 : s3.trace = s.trace ++ (u1 ++ u2 ++ u3) := by rw [h3, tr2, List.append_assoc, List.append_assoc]
          have nr3 : Call.remove ∉ u1 ++ u2 ++ u3 := fun g => by
            rcases List.mem_append.mp g with g | g
            · exact nr2 g
            · exact hr3 g
          have sg3 : signalsOf (u1 ++ u2 ++ u3) = signalsOf u1 ++ signalsOf u3 := by rw [signalsOf_append, sg2]
          have y3 : ∀ z : St, s2.trace <+: z.trace → (signalsOf u3 = [] ∨ (Waited W s z t ∧ ∃ p, signalsOf u3 = [(p, .kill)])) := by
            intro z hz
            rcases hs3 with hs3 | hs3
            · exact .inl hs3
            · exact .inr ⟨waited_mono p1 hz w2, hs3⟩
          cases y with
          | error e => cases h; exact ⟨_, tr3, nr3, ⟨_, _, sg3, hs1, y3 _ p3⟩, fun k => by cases k⟩
          | ok _ =>
            rw [then_ok] at h
            cases hw4 : timedOut t fuel W s3 with
            | mk y s4 =>
              obtain ⟨u4, h4, l4⟩ := timedOut_trace hw4
              have p4 : s3.trace <+: s4.trace := ⟨u4, h4.symm⟩
              have tr4 : s4.trace = s.trace ++ (u1 ++ u2 ++ u3 ++ u4) := by rw [h4, tr3, List.append_assoc]
              have nr4 : Call.remove ∉ u1 ++ u2 ++ u3 ++ u4 := fun g => by
                rcases List.mem_append.mp g with g | g
                · exact nr3 g
                · exact looks_remove l4 g
              have sg4 : signalsOf (u1 ++ u2 ++ u3 ++ u4) = signalsOf u1 ++ signalsOf u3 := by rw [signalsOf_append, sg3, looks_signals l4, List.append_nil]
              rw [hw4] at h
              cases y with
              | error e => cases h; exact ⟨_, tr4, nr4, ⟨_, _, sg4, hs1, y3 _ (p3.trans p4)⟩, fun k => by cases k⟩
              | ok b =>
                rw [then_ok] at h
                cases b with
                | false =>
                  cases h
                  exact ⟨_, tr4, nr4, ⟨_, _, sg4, hs1, y3 _ (p3.trans p4)⟩, fun _ => .inl ⟨s3, _, (p1.trans p2).trans p3, timedOut_false hw4, List.prefix_rfl⟩⟩
                | true =>
                  have h : (Except.ok (), called s4 .warn) = (r, s') := h
                  cases h
                  refine ⟨u1 ++ u2 ++ u3 ++ u4 ++ [.warn], by rw [called_trace, tr4, List.append_assoc], ?_, ⟨_, _, ?_, hs1, y3 _ ((p3.trans p4).trans (prefix_called _ _))⟩,
                    fun _ => .inr ⟨waited_mono p1 ((p3.trans p4).trans (prefix_called _ _)) w2, s4.trace.length, made_after (((p1.trans p2).trans p3).trans p4) (made_called _ _)⟩⟩
                  · intro g
                    rcases List.mem_append.mp g with g | g
                    · exact nr4 g
                    · cases List.mem_singleton.mp g
                  · rw [signalsOf_append, sg4]; exact List.append_nil _

theorem erase_run (W : World) (s : St) : erase W s = (match (W s.trace.length).removal with | .ok _ => .ok () | .error e => .error (.os e), called s .remove) := by
  unfold erase
  rw [bind_run, ask_called, then_ok]
  cases (W s.trace.length).removal <;> rfl

/-- `drop()` removes the files only after the server was seen not to be running, or, when it did not end though killed, after the time was up and a warning. It sends at most the
signal of `shutdown`, and, when the time is up, that of `kill`. If it returns, the files were removed. -/
theorem C63_drop {t : Int} {fuel : Nat} {r : Except Exn Unit} (h : drop t fuel W s = (r, s')) :
    (∀ i, Made s s' i .remove → (∃ a b, s.trace <+: a.trace ∧ SeenStopped W a b ∧ b.trace.length ≤ i) ∨ (Waited W s s' t ∧ ∃ j, j < i ∧ Made s s' j .warn)) ∧
    DropSignals W t s s' (between s s') ∧
    (r = .ok () → ∃ i, Made s s' i .remove ∧ (W i).removal = .ok ()) := by
  rw [drop_eq, bind_run] at h
  have fin : ∀ (s0 : St) (u : List Call), s0.trace = s.trace ++ u → Call.remove ∉ u → DropSignals W t s s0 u → Down W t s s0 → erase W s0 = (r, s') →
      (∀ i, Made s s' i .remove → (∃ a b, s.trace <+: a.trace ∧ SeenStopped W a b ∧ b.trace.length ≤ i) ∨ (Waited W s s' t ∧ ∃ j, j < i ∧ Made s s' j .warn)) ∧
      DropSignals W t s s' (between s s') ∧ (r = .ok () → ∃ i, Made s s' i .remove ∧ (W i).removal = .ok ()) := by
    intro s0 u hu hn hd hw he
    rw [erase_run] at he
    have e2 : s' = called s0 .remove := (congrArg (·.2) he).symm
    have e1 : r = _ := (congrArg (·.1) he).symm
    subst e2
    have p0 : s.trace <+: s0.trace := ⟨u, hu.symm⟩
    refine ⟨fun i hi => ?_, ?_, fun hr => ⟨s0.trace.length, made_after p0 (made_called _ _), ?_⟩⟩
    · have hle : s0.trace.length ≤ i := by
        refine Decidable.byContradiction fun hlt => hn ?_
        have h2 := hi.2
        rw [called_trace, List.getElem?_append_left (by omega), hu, List.getElem?_append_right hi.1] at h2
        exact List.mem_of_getElem? h2
      rcases hw with ⟨a, b, k1, k2, k3⟩ | ⟨k1, j, k2⟩
      · exact .inl ⟨a, b, k1, k2, Nat.le_trans k3.length_le hle⟩
      · refine .inr ⟨waited_mono List.prefix_rfl (prefix_called _ _) k1, j, ?_, made_mono k2 (prefix_called _ _)⟩
        exact Nat.lt_of_lt_of_le (List.getElem?_eq_some_iff.mp k2.2).1 hle
    · obtain ⟨x, y, k1, k2, k3⟩ := hd
      rw [between_append (show (called s0 .remove).trace = s.trace ++ (u ++ [.remove]) by rw [called_trace, hu, List.append_assoc])]
      refine ⟨x, y, by rw [signalsOf_append, k1]; exact List.append_nil _, k2, ?_⟩
      rcases k3 with k3 | ⟨k3, k4⟩
      · exact .inl k3
      · exact .inr ⟨waited_mono List.prefix_rfl (prefix_called _ _) k3, k4⟩
    · rw [hr] at e1
      cases hx : (W s0.trace.length).removal with
      | ok _ => rfl
      | error e => rw [hx] at e1; cases e1
  have short : ∀ (u : List Call) (e : Exn), s'.trace = s.trace ++ u → Call.remove ∉ u → DropSignals W t s s' u → r = .error e →
      (∀ i, Made s s' i .remove → (∃ a b, s.trace <+: a.trace ∧ SeenStopped W a b ∧ b.trace.length ≤ i) ∨ (Waited W s s' t ∧ ∃ j, j < i ∧ Made s s' j .warn)) ∧
      DropSignals W t s s' (between s s') ∧ (r = .ok () → ∃ i, Made s s' i .remove ∧ (W i).removal = .ok ()) := by
    intro u e hu hn hd he
    rw [between_append hu]
    refine ⟨fun i hi => absurd ?_ hn, hd, fun k => by rw [he] at k; cases k⟩
    have h2 := hi.2
    rw [hu, List.getElem?_append_right hi.1] at h2
    exact List.mem_of_getElem? h2
  cases hr : running W s with
  | mk y s1 =>
    obtain ⟨u1, hu1, hu2⟩ := running_between hr
    have nr1 : Call.remove ∉ u1 := fun g => hu2 _ g
    have p1 : s.trace <+: s1.trace := ⟨u1, hu1.symm⟩
    rw [hr] at h
    cases y with
    | error e => cases h; exact short u1 e hu1 nr1 ⟨[], [], looks_signals hu2, .inl rfl, .inl rfl⟩ rfl
    | ok b =>
      cases b with
      | false => exact fin s1 u1 hu1 nr1 ⟨[], [], looks_signals hu2, .inl rfl, .inl rfl⟩ (.inl ⟨s, s1, List.prefix_rfl, running_stopped hr, List.prefix_rfl⟩) h
      | true =>
        have h : M.andThen (takeDown t fuel W s1) (fun _ s2 => erase W s2) = (r, s') := h
        cases hw : takeDown t fuel W s1 with
        | mk y s2 =>
          obtain ⟨u2, k1, k2, ⟨x, z, k3, k4, k5⟩, k6⟩ := takeDown_run hw
          have tr : s2.trace = s.trace ++ (u1 ++ u2) := by rw [k1, hu1, List.append_assoc]
          have nr : Call.remove ∉ u1 ++ u2 := fun g => by
            rcases List.mem_append.mp g with g | g
            · exact nr1 g
            · exact k2 g
          have ds : DropSignals W t s s2 (u1 ++ u2) := by
            refine ⟨x, z, by rw [signalsOf_append, looks_signals hu2, List.nil_append]; exact k3, k4, ?_⟩
            rcases k5 with k5 | ⟨k5, k7⟩
            · exact .inl k5
            · exact .inr ⟨waited_mono p1 List.prefix_rfl k5, k7⟩
          rw [hw] at h
          cases y with
          | error e => cases h; exact short _ e tr nr ds rfl
          | ok _ =>
            refine fin s2 _ tr nr ds ?_ h
            rcases k6 rfl with ⟨a, b, m1, m2, m3⟩ | ⟨m1, j, m2⟩
            · exact .inl ⟨a, b, p1.trans m1, m2, m3⟩
            · exact .inr ⟨waited_mono p1 List.prefix_rfl m1, j, made_after p1 m2⟩

example : (drop 10 3 (demoW 0 5) mine).1 = .ok () ∧ signalsOf (drop 10 3 (demoW 0 5) mine).2.trace = [(7, .int)] := by decide +kernel
example : (drop 4 3 (demoW 0 99) mine).1 = .ok () ∧ signalsOf (drop 4 3 (demoW 0 99) mine).2.trace = [(7, .int), (7, .kill)] ∧ Call.warn ∈ (drop 4 3 (demoW 0 99) mine).2.trace := by
  decide +kernel

/-! ## `with cluster:` -/

/-- `with cluster:` runs its body only after the server was seen to take connections, and ends with `stop` and the wait for its end, whatever the body comes to; the outcome is that of the
body then, and the server was seen not to be running after it. -/
theorem C63_with {α : Type} {d : Int} {fuel : Nat} {body : M α} {r : Except Exn α} (h : withCluster C d fuel body W s = (r, s')) :
    (∃ e, enter C d fuel W s = (.error e, s') ∧ r = .error e) ∨
    ∃ s1 s2 x, enter C d fuel W s = (.ok (), s1) ∧ (∃ a, s.trace <+: a.trace ∧ SeenReady C W a s1) ∧ body W s1 = (x, s2) ∧
      ((∃ e, exit_ d fuel W s2 = (.error e, s') ∧ r = .error e) ∨ (exit_ d fuel W s2 = (.ok (), s') ∧ r = x ∧ ∃ a, s2.trace <+: a.trace ∧ SeenStopped W a s')) := by
  have h : M.andThen (enter C d fuel W s) (fun _ s1 => M.andThen (attempt body W s1) fun x s2 => (match x with
      | .ok a => do
        exit_ d fuel
        pure a
      | .error e => do
        exit_ d fuel
        raise e : M α) W s2) = (r, s') := h
  cases he : enter C d fuel W s with
  | mk y s1 =>
    rw [he] at h
    cases y with
    | error e => cases h; exact .inl ⟨e, rfl, rfl⟩
    | ok _ =>
      rw [then_ok, attempt_run, then_ok] at h
      refine .inr ⟨s1, (body W s1).2, (body W s1).1, rfl, ?_, rfl, ?_⟩
      · have he : M.andThen (start C none W s) (fun _ s => waitUntilStarted C d fuel W s) = (.ok (), s1) := he
        obtain ⟨_, s0, k1, k2⟩ := then_value he
        exact ⟨s0, prefix_of (keeps_start C none) k1, C62_started k2⟩
      · generalize body W s1 = q at h
        obtain ⟨x, s2⟩ := q
        have stopped : ∀ {z : St}, exit_ d fuel W s2 = (.ok (), z) → ∃ a, s2.trace <+: a.trace ∧ SeenStopped W a z := by
          intro z hz
          have hz : M.andThen (stop W s2) (fun _ s => waitUntilStopped d fuel W s) = (.ok (), z) := hz
          obtain ⟨_, s0, k1, k2⟩ := then_value hz
          exact ⟨s0, prefix_of (keeps_signalled .term) k1, C62_stopped k2⟩
        cases x with
        | ok a =>
          have h : M.andThen (exit_ d fuel W s2) (fun _ s => (.ok a, s)) = (r, s') := h
          cases hx : exit_ d fuel W s2 with
          | mk y s3 =>
            rw [hx] at h
            cases y with
            | error e => cases h; exact .inl ⟨e, rfl, rfl⟩
            | ok _ => cases h; exact .inr ⟨rfl, rfl, stopped hx⟩
        | error e' =>
          have h : M.andThen (exit_ d fuel W s2) (fun _ s => (.error e', s)) = (r, s') := h
          cases hx : exit_ d fuel W s2 with
          | mk y s3 =>
            rw [hx] at h
            cases y with
            | error e => cases h; exact .inl ⟨e, rfl, rfl⟩
            | ok _ => cases h; exact .inr ⟨rfl, rfl, stopped hx⟩

/-- A world for `with`: down until the process is started, then up until the signal. -/
def withW : World := fun n => if n < 2 ∨ 10 ≤ n then down n else up n

example : (withCluster demoC 20 3 (pure 5 : M Nat) withW {}).1 = .ok 5 ∧ (withCluster demoC 20 3 (pure 5 : M Nat) withW {}).2.trace =
    [.readPid, .spawn ["postgres".toList, "-D".toList, "/d".toList], .clock, .poll 7, .poll 7, .readConf, .connect "localhost".toList "5432".toList, .clock,
      .readPid, .kill 7 .term, .clock, .poll 7, .readPid] := by decide +kernel

/-- A server that was started is left running when the wait in `__enter__` raises: no signal is sent. Here the configuration names no address. -/
theorem C63_with_leaves : let W : World := fun n => { (withW n) with conf := .ok [] }
    (withCluster demoC 20 3 (pure 5 : M Nat) W {}).1 = .error .type ∧ spawnsOf (withCluster demoC 20 3 (pure 5 : M Nat) W {}).2.trace = [["postgres".toList, "-D".toList, "/d".toList]] ∧
    signalsOf (withCluster demoC 20 3 (pure 5 : M Nat) W {}).2.trace = [] := by decide +kernel

end PG.Props.Cluster
