import Verif.Model.TemporalDestroy
import Verif.Props.Cluster3
/-!
# C67: the end of a temporary cluster
-/
namespace PG.Props.Cluster
open PG PG.Cluster PG.Spec.Cluster PG.Proofs.Cluster
variable {W : World} {s s' : St}

/-- **C67 (other processes).** A process that did not make the cluster, a child for example, does nothing to it at its end. -/
theorem C67_destroy_other (five ten : Int) (fuel : Nat) : destroy false five ten fuel W s = (.ok (), s) := rfl

theorem destroy_run (five ten : Int) (fuel : Nat) : destroy true five ten fuel W s = M.andThen (stop W s) fun _ s1 => M.andThen (waitUntilStopped five fuel W s1) fun _ s2 => drop ten fuel W s2 := rfl

/-- **C67 (the end).** The files of the temporary cluster are removed only after its server was seen not to be running; and if nothing is raised, they were removed. -/
theorem C67_destroy {five ten : Int} {fuel : Nat} {r : Except Exn Unit} (h : destroy true five ten fuel W s = (r, s')) :
    (∀ i, Made s s' i .remove → ∃ a b, s.trace <+: a.trace ∧ SeenStopped W a b ∧ b.trace.length ≤ i) ∧ (r = .ok () → ∃ i, Made s s' i .remove ∧ (W i).removal = .ok ()) := by
  rw [destroy_run] at h
  obtain ⟨t1, e1, -, n1, -⟩ := signalled_between .term W s
  change (stop W s).2.trace = s.trace ++ t1 at e1
  have none_of : ∀ (x : St) (t : List Call), x.trace = s.trace ++ t → Call.remove ∉ t → ∀ i, ¬ Made s x i .remove := by
    intro x t hx hn i hi
    have h2 := hi.2
    rw [hx, List.getElem?_append_right hi.1] at h2
    exact hn (List.mem_of_getElem? h2)
  cases hs : stop W s with
  | mk x1 s1 =>
    rw [hs] at h e1
    cases x1 with
    | error e =>
      cases h
      exact ⟨fun i hi => absurd hi (none_of _ t1 e1 n1 i), fun k => by cases k⟩
    | ok _ =>
      have h : M.andThen (waitUntilStopped five fuel W s1) (fun _ s2 => drop ten fuel W s2) = (r, s') := h
      obtain ⟨t2, e2, l2⟩ := only_waitStopped five fuel W s1
      cases hw : waitUntilStopped five fuel W s1 with
      | mk x2 s2 =>
        rw [hw] at h e2
        have e2 : s2.trace = s1.trace ++ t2 := e2
        have e1 : s1.trace = s.trace ++ t1 := e1
        have e12 : s2.trace = s.trace ++ (t1 ++ t2) := by rw [e2, e1, List.append_assoc]
        have n12 : Call.remove ∉ t1 ++ t2 := fun g => by
          rcases List.mem_append.mp g with g | g
          · exact n1 g
          · exact l2 _ g
        cases x2 with
        | error e =>
          cases h
          exact ⟨fun i hi => absurd hi (none_of _ _ e12 n12 i), fun k => by cases k⟩
        | ok _ =>
          have h : drop ten fuel W s2 = (r, s') := h
          obtain ⟨-, -, d3⟩ := C63_drop h
          refine ⟨fun i hi => ⟨s1, s2, ⟨t1, e1.symm⟩, C62_stopped hw, ?_⟩, fun hr => ?_⟩
          · refine Decidable.byContradiction fun hlt => none_of s2 _ e12 n12 i ⟨hi.1, ?_⟩
            obtain ⟨t, ht⟩ := prefix_of (keeps_drop ten fuel) h
            have h2 := hi.2
            rw [← ht, List.getElem?_append_left (by omega)] at h2
            exact h2
          · obtain ⟨i, m, k⟩ := d3 hr
            exact ⟨i, made_after ⟨_, e12.symm⟩ m, k⟩

/-- **C67 (finding).** If the server has not ended five seconds after `stop`, because a connection is still open, nothing else is done: the error is raised, the server goes on and its files stay. -/
theorem C67_destroy_stuck {five ten : Int} {fuel : Nat} {s1 s2 : St} {e : Exn} (h1 : stop W s = (.ok (), s1)) (h2 : waitUntilStopped five fuel W s1 = (.error e, s2)) :
    destroy true five ten fuel W s = (.error e, s2) ∧ ∀ i, ¬ Made s s2 i .remove := by
  have hd : destroy true five ten fuel W s = (.error e, s2) := by
    rw [destroy_run, h1]
    show M.andThen (waitUntilStopped five fuel W s1) (fun _ s2 => drop ten fuel W s2) = _
    rw [h2]
    rfl
  refine ⟨hd, fun i hi => ?_⟩
  obtain ⟨t1, e1, -, n1, -⟩ := signalled_between .term W s
  change (stop W s).2.trace = s.trace ++ t1 at e1
  obtain ⟨t2, e2, l2⟩ := only_waitStopped five fuel W s1
  rw [h1] at e1
  rw [h2] at e2
  have e1 : s1.trace = s.trace ++ t1 := e1
  have e2 : s2.trace = s1.trace ++ t2 := e2
  have h3 := hi.2
  rw [e2, e1, List.append_assoc, List.getElem?_append_right hi.1] at h3
  rcases List.mem_append.mp (List.mem_of_getElem? h3) with g | g
  · exact n1 g
  · exact l2 _ g

/-- A server that ends, and one that does not as long as somebody is connected. -/
example : (destroy true 5 10 9 (demoW 0 5) mine).1 = .ok () ∧ Call.remove ∈ (destroy true 5 10 9 (demoW 0 5) mine).2.trace := by decide +kernel
example : (destroy true 5 10 9 (demoW 0 999) mine).1 = .error (.timeout none) ∧ signalsOf (destroy true 5 10 9 (demoW 0 999) mine).2.trace = [(7, .term)] := by decide +kernel

end PG.Props.Cluster
