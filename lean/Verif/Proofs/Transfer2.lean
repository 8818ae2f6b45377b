import Verif.Proofs.Transfer
/-!
# A transfer: the loop, and the end
-/
namespace PG.Transfer
open PG PG.Element3 PG.Client3 PG.Lifecycle PG.CopyReceiver PG.Props.CopyReceiver PG.Spec.Copy PG.CopyTo

/-- All in the set. -/
def AllIn (m : Mgr) : Prop := ∀ s ∈ m.slots, s.active = true

theorem allIn_map {ss ss' : List Slot} (h : ss'.map (·.active) = ss.map (·.active)) (ha : ∀ s ∈ ss, s.active = true) : ∀ s ∈ ss', s.active = true := by
  intro s hs
  have : s.active ∈ ss.map (·.active) := by rw [← h]; exact List.mem_map_of_mem hs
  obtain ⟨t, ht, he⟩ := List.mem_map.1 this
  rw [← he]; exact ha t ht

theorem accept_active {v : Bytes} (ss : List Slot) : (ss.map fun s => if s.active then { s with rcv := accept v s.rcv } else s).map (·.active) = ss.map (·.active) := by
  rw [List.map_map]
  apply List.map_congr_left
  intro s _
  show (if s.active then ({ s with rcv := accept v s.rcv } : Slot) else s).active = s.active
  split <;> rfl

/-- What the loop comes to. -/
inductive Comes (cs : List Elem) (rows : List Bytes) (e : Bool) (ds : List Dest) (m : Mgr) : Svc → Prop where
  /-- the producer has ended -/
  | ended : e = false → Ended m.prod (copyFrames rows) rows → m.seen = true → AllIn m → Each (FlowR (copyFrames rows)) ds m.slots → Comes cs rows e ds m .stop
  /-- nobody to give anything to -/
  | nobody {pub t} : noneLeft m = true → AllIn m → Ok cs m.prod pub rows e t → Each (FlowR pub) ds m.slots → Comes cs rows e ds m .stop
  | raised {pub t} : e = true → Ok cs m.prod pub rows e t → Each (FlowR pub) ds m.slots → Comes cs rows e ds m .producerFault
  | fault {pub t} : Ok cs m.prod pub rows e t → Each (FlowR pub) ds m.slots → Comes cs rows e ds m .receiverFault
  | blocked {pub} : pub <+: copyFrames rows → Each (Flow pub) ds m.slots → Comes cs rows e ds m .blocked
  | interrupted {pub} : pub <+: copyFrames rows → Each (Flow pub) ds m.slots → Comes cs rows e ds m .interrupted

theorem loop_comes {cs : List Elem} (hcs : Cmds cs) {rows : List Bytes} {e : Bool} {ds : List Dest} (hrf : ∀ row ∈ rows, row.length + 4 < 2147483648) :
    ∀ (n : Nat) {m m' : Mgr} {v : Svc} {pub : Bytes} {t : Nat}, Ok cs m.prod pub rows e t → AllIn m → Each (FlowR pub) ds m.slots → loop n m = (m', v) → Comes cs rows e ds m' v
  | 0, m, m', v, _, _, hok, _, hf, h => by cases h; exact .blocked (ok_prefix hok).1 (hf.mono fun _ _ _ h => h.1)
  | n + 1, m, m', v, pub, t, hok, ha, hf, h => by
    unfold loop at h
    cases hsp : serviceProducer m with
    | mk m1 v1 =>
      rw [hsp] at h
      unfold serviceProducer at hsp
      by_cases hn : noneLeft m = true
      · rw [if_pos hn] at hsp
        cases hsp
        cases h
        exact .nobody hn ha hok hf
      · rw [if_neg hn] at hsp
        rcases next_ok hcs hok hrf with ⟨x, p', t', h1, h2, h3⟩ | ⟨p', h1, h2, h3⟩ | ⟨p', t', h1, h2, h3⟩
        · rw [h1] at hsp
          cases hsp
          dsimp only at h
          unfold serviceReceivers at h
          dsimp only at h
          cases hz : serveAll (m.slots.map fun s => if s.active then { s with rcv := accept x s.rcv } else s) with
          | mk ss v2 =>
            rw [hz] at h
            obtain ⟨k1, k2, k3, k4, k5⟩ := serve_flow (accept_each (v := x) hf) hz
            cases v2 with
            | ok =>
              dsimp only at h
              exact loop_comes hcs hrf n (m := { m with prod := p', slots := ss }) h2 (allIn_map ((k3 rfl).trans (accept_active _)) ha) (k2 (.inl rfl)) h
            | stop => exact absurd rfl k4
            | producerFault => exact absurd rfl k5
            | receiverFault => cases h; exact .fault h2 (k2 (.inr rfl))
            | blocked => cases h; exact .blocked (ok_prefix h2).1 k1
            | interrupted => cases h; exact .interrupted (ok_prefix h2).1 k1
        · rw [h1] at hsp
          cases hsp
          cases h
          have := h3.all
          subst this
          exact .ended h2 h3 rfl ha hf
        · rw [h1] at hsp
          cases hsp
          cases h
          exact .raised h2 (.inl h3) hf

/-- The relation of a destination and its receiver, if it was entered. -/
def FlowN (data : Bytes) (d : Dest) (s : Slot) : Prop := NotIn d s ∨ Flow data d s
def FlowNR (data : Bytes) (d : Dest) (s : Slot) : Prop := FlowN data d s ∧ (s.active = true → s.rcv.view = [])

theorem flowR_N {data : Bytes} {d : Dest} {s : Slot} (h : FlowR data d s) : FlowNR data d s := ⟨.inr h.1, h.2⟩

theorem flowN_accept {data v : Bytes} {d : Dest} {s : Slot} (h : FlowNR data d s) : FlowN (data ++ v) d (if s.active then { s with rcv := accept v s.rcv } else s) := by
  rcases h with ⟨h | h, hv⟩
  · left
    split
    · exact h
    · exact h
  · exact .inr (flow_accept ⟨h, hv⟩)

theorem accept_eachN {data v : Bytes} : ∀ {ds : List Dest} {ss : List Slot}, Each (FlowNR data) ds ss →
    Each (FlowN (data ++ v)) ds (ss.map fun s => if s.active then { s with rcv := accept v s.rcv } else s)
  | _, _, .nil => .nil
  | _, _, .cons h t => .cons (flowN_accept h) (accept_eachN t)

theorem flowN_more {data v : Bytes} {d : Dest} {s : Slot} (h : FlowN data d s) (hv : s.active = true → v = []) : FlowN (data ++ v) d s := by
  rcases h with h | ⟨r1, ops, h1, h2, h3, h4, h5, h6⟩
  · exact .inl h
  · exact .inr ⟨r1, ops, h1, h2, h3, fun ha => by rw [hv ha, List.append_nil]; exact h4 ha, h5.trans (List.prefix_append _ _), h6⟩

/-- Receivers in the set are left, the others stay as they are. -/
theorem exitAll_each {R S : Dest → Slot → Prop} {fuel : Nat} {t : Typ} (hstay : ∀ d s, R d s → S d s)
    (hexit : ∀ d s r o, R d s → s.active = true → exit fuel t s.rcv = (r, o) → S d { s with rcv := r, left := some o }) :
    ∀ {ds : List Dest} {ss ss' : List Slot} {v : Svc}, Each R ds ss → exitAll fuel t ss = (ss', v) → Each S ds ss'
  | _, _, _, _, .nil, h => by cases h; exact .nil
  | _, _, ss', v, .cons (a := d) (as := ds) (b := s) (bs := ss) hf ht, h => by
    unfold exitAll at h
    by_cases ha : s.active = true
    · rw [if_pos ha] at h
      cases hz : exit fuel t s.rcv with
      | mk r o =>
        have hq := hexit d s r o hf ha hz
        rw [hz] at h
        cases hy : exitAll fuel t ss with
        | mk w z =>
          rw [hy] at h
          have hr := exitAll_each hstay hexit ht hy
          have hst : Each S ds ss := ht.mono fun d _ s h => hstay d s h
          cases o with
          | ok => cases h; exact .cons hq hr
          | blocked => cases h; exact .cons hq hst
          | dbError b m => cases h; exact .cons hq hr
          | raised e =>
            cases e with
            | py e => cases h; exact .cons hq hr
            | sock k => cases k <;> cases h <;> first | exact .cons hq hr | exact .cons hq hst
    · rw [if_neg ha] at h
      cases hy : exitAll fuel t ss with
      | mk w z =>
        rw [hy] at h
        cases h
        exact .cons (hstay d s hf) (exitAll_each hstay hexit ht hy)

/-- When no exception comes, each in the set returned. -/
theorem exitAll_ok {R S : Dest → Slot → Prop} {fuel : Nat} {t : Typ}
    (hexit : ∀ d s r, R d s → s.active = true → exit fuel t s.rcv = (r, .ok) → S d { s with rcv := r, left := some .ok }) (hstay : ∀ d s, R d s → ¬ s.active = true → S d s) :
    ∀ {ds : List Dest} {ss ss' : List Slot}, Each R ds ss → exitAll fuel t ss = (ss', .ok) → Each S ds ss'
  | _, _, _, .nil, h => by cases h; exact .nil
  | _, _, ss', .cons (a := d) (as := ds) (b := s) (bs := ss) hf ht, h => by
    unfold exitAll at h
    cases hy : exitAll fuel t ss with
    | mk w z =>
      rw [hy] at h
      by_cases ha : s.active = true
      · rw [if_pos ha] at h
        cases hz : exit fuel t s.rcv with
        | mk r o =>
          rw [hz] at h
          have bad : ∀ l, (l, (if z = .ok then Svc.receiverFault else z)) ≠ (ss', Svc.ok) := by
            intro l hh
            injection hh with _ hh
            split at hh
            · cases hh
            · exact absurd hh ‹_›
          cases o with
          | ok =>
            cases h
            exact .cons (hexit d s r hf ha hz) (exitAll_ok hexit hstay ht hy)
          | blocked => cases h
          | dbError b m => exact absurd h (bad _)
          | raised e =>
            cases e with
            | py e => exact absurd h (bad _)
            | sock k => cases k <;> first | exact absurd h (bad _) | cases h
      · rw [if_neg ha] at h
        cases h
        exact .cons (hstay d s hf ha) (exitAll_ok hexit hstay ht hy)

end PG.Transfer
