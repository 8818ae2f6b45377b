import Verif.Props.NotifyMan
/-! # Notifications: the wires, idle events, and where the property fails (C39) -/
namespace PG.NotifyMan
open PG
variable {α β : Type}

theorem pull_nil (dec : α → Option β) : ∀ (order : List Nat) (st : State α β), (∀ i ∈ order, st.notifies i = []) → pull dec st order = (true, st)
  | [], st, _ => rfl
  | db :: order, st, h => by
    unfold pull
    rw [if_pos (h db (by simp))]
    exact pull_nil dec order st fun i hi => h i (by simp [hi])

theorem queueNext_nil {s : State α β} (hp : s.pulled = []) (hi : s.incoming = none) : queueNext s = { s with incoming := some [] } := by
  unfold queueNext
  rw [if_neg (by simp [hp]), if_pos (by simp [hi])]
  rw [← hp]

theorem front_empty {s : State α β} (hi : s.incoming = some []) (ht : s.timeout ≠ some 0) (hc : s.connections ≠ []) : front s = .inr { s with incoming := none } := by
  unfold front
  rw [hi]
  dsimp only
  rw [if_neg (by rintro (h | h); exact ht h; exact hc h)]

theorem ne_nil_of_mem {l : List Nat} {a : Nat} (h : a ∈ l) : l ≠ [] := by rintro rfl; simp at h

/-- The first pass, when nothing is pending and no idle event is due. -/
theorem first_pass (dec : α → Option β) (st : State α β) (p : Pass α) (ps : List (Pass α)) (hi : st.incoming = none) (hp : st.pulled = [])
    (hnone : ∀ i ∈ st.connections, st.notifies i = []) (ht : (timedout st p.now).1 = false) :
    next dec st (p :: ps) = loop dec { st with incoming := some [], lastTime := toggled st.lastTime p.now } false ps := by
  unfold next
  rw [loop, front_none hi]
  dsimp only
  have hb : body dec st true p = .inr (false, { st with incoming := some [], lastTime := toggled st.lastTime p.now }) := by
    unfold body
    dsimp only
    rw [if_neg (by simp [ht]), timedout_false ht]
    have hw : ∀ s : State α β, wired s true p = s := fun s => by simp [wired, checkWires]
    rw [hw, pull_nil dec _ _ (by
      intro i hi
      have := (List.mem_filter.mp hi).2
      exact hnone i (by simpa using this)), if_pos rfl]
    refine congrArg Sum.inr (Prod.ext rfl ?_)
    exact queueNext_nil (s := { st with lastTime := toggled st.lastTime p.now }) hp hi
  rw [hb]

theorem timedout_congr {s s' : State α β} (h1 : s.lastTime = s'.lastTime) (h2 : s.timeout = s'.timeout) (now : Int) : (timedout s now).1 = (timedout s' now).1 := by
  unfold timedout
  rw [h1, h2]
  cases s'.lastTime with
  | none => rfl
  | some l =>
    cases s'.timeout with
    | none => rfl
    | some t =>
      cases t with
      | zero => rfl
      | succ t => dsimp only; split <;> rfl

/-- A pass that checks the wires. -/
theorem wire_pass (dec : α → Option β) (st : State α β) (p : Pass α) (ps : List (Pass α)) (hi : st.incoming = some []) (ht0 : st.timeout ≠ some 0) (hc : st.connections ≠ [])
    (ht : (timedout st p.now).1 = false) :
    loop dec st false (p :: ps) =
      let s := waitOnWires { st with incoming := none, lastTime := toggled st.lastTime p.now } p
      let r := pull dec s (p.order.filter (· ∈ s.connections))
      if r.1 then loop dec (queueNext r.2) true ps else (.raised, r.2) := by
  rw [loop, front_empty hi ht0 hc]
  dsimp only
  have ht' : (timedout { st with incoming := none } p.now).1 = false := by
    rw [← ht]
    exact timedout_congr (s := { st with incoming := none }) (s' := st) rfl rfl _
  unfold body
  dsimp only
  rw [if_neg (by simp [ht']), timedout_false ht']
  have hw : ∀ s : State α β, s.connections ≠ [] → wired s false p = waitOnWires s p ∧ checkWires s false = true := by
    intro s hs
    have : checkWires s false = true := by
      unfold checkWires
      cases hcs : s.connections with
      | nil => exact absurd hcs hs
      | cons => rfl
    exact ⟨by unfold wired; rw [if_pos this], this⟩
  rw [(hw _ (by exact hc)).1, (hw _ (by exact hc)).2]
  dsimp only
  generalize pull dec _ _ = r
  cases hr : r.1 with
  | true => rfl
  | false => rfl

/-- A connection that is alive. -/
def Pass.Alive (p : Pass α) (db : Nat) : Prop := p.closed db = false ∧ p.exceptional db = false ∧ p.fails db = false

theorem wait_conn (st : State α β) (p : Pass α) (db : Nat) (hdb : db ∈ st.connections) (hg : db ∉ st.garbage) (ha : p.Alive db) : db ∈ (waitOnWires st p).connections ∧
    (p.readable db = true → (waitOnWires st p).notifies db = st.notifies db ++ p.arrivals db) := by
  obtain ⟨h1, h2, h3⟩ := ha
  constructor
  · simp only [waitOnWires, trash, mem_minus, List.mem_append, List.mem_filter, mem_union]
    simp [hdb, h1, h2, h3]
  · intro hr
    simp only [waitOnWires, trash, List.mem_filter, mem_minus, mem_union]
    rw [if_pos]
    simp [hdb, hg, h1, hr]

theorem wait_sub (st : State α β) (p : Pass α) (i : Nat) : (i ∈ (waitOnWires st p).connections → i ∈ st.connections) ∧
    ∀ a ∈ (waitOnWires st p).notifies i, a ∈ st.notifies i ∨ (p.readable i = true ∧ a ∈ p.arrivals i) := by
  constructor
  · simp only [waitOnWires, trash, mem_minus]
    exact fun h => h.1.1
  · intro a
    simp only [waitOnWires, trash]
    split
    · rename_i h
      intro ha
      rcases List.mem_append.mp ha with ha | ha
      · exact Or.inl ha
      · exact Or.inr ⟨(List.mem_filter.mp h).2, ha⟩
    · exact Or.inl

/-- **C39 (the wires).** When nothing is pending and no idle event is due, the call checks the wires; when it is told that a live connection is readable, and that brings notifications
that can be decoded, it returns an event. -/
theorem C39_wires (dec : α → Option β) (st : State α β) (p1 p2 : Pass α) (ps : List (Pass α)) (db : Nat) (hi : st.incoming = none) (hpl : st.pulled = []) (ht0 : st.timeout ≠ some 0)
    (hnone : ∀ i ∈ st.connections, st.notifies i = []) (hdb : db ∈ st.connections) (hg : db ∉ st.garbage)
    (hdue1 : ∀ l t, st.lastTime = some l → st.timeout = some t → p1.now < l + t) (hdue2 : ∀ t, st.timeout = some t → p2.now < p1.now + t)
    (ha : p2.Alive db) (hr : p2.readable db = true) (harr : p2.arrivals db ≠ []) (hdec : ∀ i, ∀ a ∈ p2.arrivals i, dec a ≠ none) (hord : db ∈ p2.order) :
    ∃ db' l, (next dec st (p1 :: p2 :: ps)).1 = .event db' l := by
  have hc := ne_nil_of_mem hdb
  have hnt : ∀ (s : State α β) (now : Int), (∀ l t, s.lastTime = some l → s.timeout = some t → now < l + t) → (timedout s now).1 = false := by
    intro s now h
    cases hh : (timedout s now).1 with
    | false => rfl
    | true =>
      obtain ⟨l, t, h1, h2, _, h4, _⟩ := timedout_true hh
      have := h l t h1 h2
      omega
  rw [first_pass dec st p1 _ hi hpl hnone (hnt st _ hdue1)]
  rw [wire_pass dec { st with incoming := some [], lastTime := toggled st.lastTime p1.now } p2 ps rfl ht0 hc (hnt _ _ (by
    intro l t h1 h2
    dsimp only at h1 h2
    unfold toggled at h1
    cases hl : st.lastTime with
    | none => rw [hl] at h1; simp at h1; subst h1; exact hdue2 t h2
    | some l0 => rw [hl] at h1; simp at h1))]
  dsimp only
  have hs : ∀ s : State α β, s.connections = st.connections → s.garbage = st.garbage → s.notifies = st.notifies → s.incoming = none →
      ∃ db' l, (let w := waitOnWires s p2; let r := pull dec w (p2.order.filter (· ∈ w.connections)); if r.1 then loop dec (queueNext r.2) true ps else (.raised, r.2)).1 = Out.event db' l := by
    intro s e1 e2 e3 e4
    obtain ⟨k1, k2⟩ := wait_conn s p2 db (by rw [e1]; exact hdb) (by rw [e2]; exact hg) ha
    dsimp only
    obtain ⟨g1, _, g3, g4⟩ := pull_ok dec (p2.order.filter (· ∈ (waitOnWires s p2).connections)) (waitOnWires s p2) (by
      intro i hi a hia
      have hic := (List.mem_filter.mp hi).2
      have hic : i ∈ (waitOnWires s p2).connections := by simpa using hic
      obtain ⟨q1, q2⟩ := wait_sub s p2 i
      rcases q2 a hia with h | ⟨_, h⟩
      · rw [e3, hnone i (by rw [← e1]; exact q1 hic)] at h
        simp at h
      · exact hdec i a h)
    rw [if_pos g1]
    have hpn := g3 db (List.mem_filter.mpr ⟨hord, by simpa using k1⟩) (by rw [k2 hr]; simp [harr])
    have h4 : (waitOnWires s p2).incoming = none := e4
    obtain ⟨i, l, s', hs'⟩ := front_queueNext hpn (g4.trans h4)
    exact ⟨i, l, by rw [loop_front hs']⟩
  exact hs _ rfl rfl rfl rfl

/-- **C39 (waiting).** `select` is never asked to wait a negative time, nor past the time at which the idle event is due. -/
theorem C39_wait_bound (timeout : Option Nat) (lastTime : Option Int) (later : Int) : 0 ≤ duration timeout lastTime later ∧
    (∀ t : Nat, 0 < t → timeout = some t → ∀ l, lastTime = some l → later + duration timeout lastTime later ≤ max later (l + t)) ∧
    (∀ t : Nat, timeout = some t → lastTime = none → duration timeout lastTime later = t) ∧ (timeout = some 0 → duration timeout lastTime later = 0) := by
  have h10 : 0 ≤ orTen timeout := by
    unfold orTen
    split
    · omega
    · split <;> omega
  have ht : ∀ t : Nat, 0 < t → orTen (some t) = t := fun t h => by unfold orTen; dsimp only; rw [if_neg (by omega)]
  unfold duration
  refine ⟨?_, ?_, ?_, ?_⟩
  · split
    · omega
    · split
      · split <;> omega
      · exact h10
  · rintro t h0 rfl l rfl
    rw [if_neg (by simpa using (by omega : t ≠ 0)), ht t h0]
    dsimp only
    split <;> omega
  · rintro t rfl rfl
    by_cases h0 : t = 0
    · subst h0; rfl
    · rw [if_neg (by simpa using h0)]
      exact ht t (by omega)
  · rintro rfl
    rfl

/-- **C39 (idle events come).** With a timeout that is not zero and nothing arriving, the call returns the idle event by the third pass, when the wait in the second lasts as long as asked. -/
theorem C39_idle_comes (dec : α → Option β) (st : State α β) (p1 p2 p3 : Pass α) (ps : List (Pass α)) (t db : Nat) (hi : st.incoming = none) (hpl : st.pulled = []) (ht : st.timeout = some t) (ht0 : 0 < t)
    (hnone : ∀ i ∈ st.connections, st.notifies i = []) (hdb : db ∈ st.connections) (hg : db ∉ st.garbage) (ha : p2.Alive db) (harr : ∀ i, p2.arrivals i = [])
    (hwait : p2.later + duration st.timeout (if st.lastTime.isNone then none else some p2.now) p2.later ≤ p3.now) :
    (next dec st (p1 :: p2 :: p3 :: ps)).1 = .idle := by
  have hc := ne_nil_of_mem hdb
  have htn : st.timeout ≠ some 0 := by rw [ht]; simpa using (by omega : t ≠ 0)
  cases h1 : (timedout st p1.now).1 with
  | true =>
    unfold next
    rw [loop, front_none hi]
    dsimp only
    unfold body
    dsimp only
    rw [if_pos h1]
  | false =>
    rw [first_pass dec st p1 _ hi hpl hnone h1]
    cases h2 : (timedout ({ st with incoming := some [], lastTime := toggled st.lastTime p1.now } : State α β) p2.now).1 with
    | true =>
      rw [loop, front_empty (s := { st with incoming := some [], lastTime := toggled st.lastTime p1.now }) (by rfl) htn hc]
      dsimp only
      have h2' : (timedout ({ st with incoming := none, lastTime := toggled st.lastTime p1.now } : State α β) p2.now).1 = true := by
        obtain ⟨l, t', e1, e2, e3, e4, _⟩ := timedout_true h2
        dsimp only at e1 e2
        unfold timedout
        dsimp only
        rw [e1, e2]
        cases t' with
        | zero => omega
        | succ t' => dsimp only; rw [if_pos (by omega)]
      unfold body
      dsimp only
      rw [if_pos h2']
    | false =>
      rw [wire_pass dec { st with incoming := some [], lastTime := toggled st.lastTime p1.now } p2 _ rfl htn hc h2]
      dsimp only
      have hlt : ∃ l, (waitOnWires ({ st with incoming := none, lastTime := toggled (toggled st.lastTime p1.now) p2.now } : State α β) p2).lastTime = some l ∧ l + t ≤ p3.now := by
        simp only [waitOnWires, trash]
        rw [if_neg htn]
        cases hl : st.lastTime with
        | none =>
          refine ⟨p2.later, rfl, ?_⟩
          rw [hl] at hwait
          have := (C39_wait_bound st.timeout none p2.later).2.2.1 t ht rfl
          simp only [Option.isNone_none, if_true] at hwait
          omega
        | some l =>
          refine ⟨p2.now, rfl, ?_⟩
          rw [hl, ht] at hwait
          simp only [Option.isNone_some, Bool.false_eq_true, if_false] at hwait
          unfold duration at hwait
          rw [if_neg (by simpa using (by omega : t ≠ 0))] at hwait
          have hten : orTen (some t) = t := by unfold orTen; dsimp only; rw [if_neg (by omega)]
          rw [hten] at hwait
          dsimp only at hwait
          split at hwait <;> omega
      obtain ⟨k1, _⟩ := wait_conn ({ st with incoming := none, lastTime := toggled (toggled st.lastTime p1.now) p2.now } : State α β) p2 db hdb hg ha
      have hn : ∀ i ∈ (waitOnWires ({ st with incoming := none, lastTime := toggled (toggled st.lastTime p1.now) p2.now } : State α β) p2).connections,
          (waitOnWires ({ st with incoming := none, lastTime := toggled (toggled st.lastTime p1.now) p2.now } : State α β) p2).notifies i = [] := by
        intro i hic
        obtain ⟨q1, q2⟩ := wait_sub ({ st with incoming := none, lastTime := toggled (toggled st.lastTime p1.now) p2.now } : State α β) p2 i
        rw [List.eq_nil_iff_forall_not_mem]
        intro a haa
        rcases q2 a haa with h | ⟨_, h⟩
        · rw [show ({ st with incoming := none, lastTime := toggled (toggled st.lastTime p1.now) p2.now } : State α β).notifies i = st.notifies i from rfl, hnone i (q1 hic)] at h
          simp at h
        · rw [harr] at h; simp at h
      have hinc : (waitOnWires ({ st with incoming := none, lastTime := toggled (toggled st.lastTime p1.now) p2.now } : State α β) p2).incoming = none := rfl
      have hpul : (waitOnWires ({ st with incoming := none, lastTime := toggled (toggled st.lastTime p1.now) p2.now } : State α β) p2).pulled = [] := hpl
      have htime : (waitOnWires ({ st with incoming := none, lastTime := toggled (toggled st.lastTime p1.now) p2.now } : State α β) p2).timeout = some t := ht
      generalize waitOnWires ({ st with incoming := none, lastTime := toggled (toggled st.lastTime p1.now) p2.now } : State α β) p2 = w at *
      rw [pull_nil dec _ _ (by
        intro i hi
        have := (List.mem_filter.mp hi).2
        exact hn i (by simpa using this)), if_pos rfl]
      dsimp only
      rw [queueNext_nil hpul hinc, loop, front_empty (s := { w with incoming := some [] }) (by rfl) (by rw [htime]; simpa using (by omega : t ≠ 0)) (ne_nil_of_mem k1)]
      dsimp only
      obtain ⟨l, hl, hle⟩ := hlt
      have h3 : (timedout ({ w with incoming := none } : State α β) p3.now).1 = true := by
        unfold timedout
        dsimp only
        rw [hl, htime]
        cases t with
        | zero => omega
        | succ t => dsimp only; rw [if_pos (by omega)]
      unfold body
      dsimp only
      rw [if_pos h3]

/-! ## Where the code does not do what it says -/

/-- **Polling is blind.** With timeout 0 a call never reads from the connections: nothing that is on the wires is received. (The documentation: "a StopIteration being raised by `__next__` when there are
no more Notifications available for any of the connections in the set".) -/
theorem C39_poll_blind (dec : α → Option β) (st : State α β) (ps : List (Pass α)) (h : st.timeout = some 0) :
    (next dec st ps).2.received = st.received ∧ (next dec st ps).2.connections = st.connections := by
  unfold next
  cases ps with
  | nil =>
    unfold loop
    split
    · rename_i r hr
      rcases front_inl hr with ⟨_, _, _, _, rfl⟩ | ⟨_, _, rfl⟩ <;> exact ⟨rfl, rfl⟩
    · rename_i s hs
      rw [(front_inr hs).1]; exact ⟨rfl, rfl⟩
  | cons p ps =>
    rw [loop]
    split
    · rename_i r hr
      rcases front_inl hr with ⟨_, _, _, _, rfl⟩ | ⟨_, _, rfl⟩ <;> exact ⟨rfl, rfl⟩
    · rename_i s hs
      have hs' := (front_inr hs).1
      have hw : ∀ s : State α β, wired s true p = s := fun s => by simp [wired, checkWires]
      split
      · rename_i r hr
        rcases body_inl hr with ⟨rfl, _⟩ | ⟨ht, _, rfl⟩
        · rw [hs']; exact ⟨rfl, rfl⟩
        · dsimp only
          rw [(pull_frame dec _ _).2.2.1, (pull_frame dec _ _).2.2.2.2.2, hw, timedout_false ht, hs']
          exact ⟨rfl, rfl⟩
      · rename_i c s' hr
        obtain ⟨ht, _, hr'⟩ := body_inr hr
        have e : s' = _ := (Prod.mk.inj hr').2
        have e1 : s'.received = st.received := by
          rw [e, (queueNext_frame _).2.2.2.2.1, (pull_frame dec _ _).2.2.2.2.2, hw, timedout_false ht, hs']
        have e2 : s'.connections = st.connections := by
          rw [e, (queueNext_frame _).2.2.1, (pull_frame dec _ _).2.2.1, hw, timedout_false ht, hs']
        have e3 : s'.timeout = some 0 := by
          rw [e, (queueNext_frame _).1, (pull_frame dec _ _).1, hw, timedout_false ht, hs']
          exact h
        have e4 : ∃ l, s'.incoming = some l := by
          rw [e]
          unfold queueNext
          split
          · split <;> exact ⟨_, rfl⟩
          · split
            · exact ⟨_, rfl⟩
            · rename_i hn
              exact Option.ne_none_iff_exists'.mp (by simpa using hn)
        obtain ⟨l, e4⟩ := e4
        have : ∃ r, front s' = .inl r := by
          unfold front
          rw [e4]
          cases l with
          | nil => dsimp only; rw [if_pos (Or.inl e3)]; exact ⟨_, rfl⟩
          | cons x l => exact ⟨_, rfl⟩
        obtain ⟨r, hr2⟩ := this
        rw [loop_front hr2]
        rw [← e1, ← e2]
        rcases front_inl hr2 with ⟨_, _, _, _, rfl⟩ | ⟨_, _, rfl⟩ <;> exact ⟨rfl, rfl⟩

theorem pull_bad (dec : α → Option β) (db : Nat) (a : α) (hbad : dec a = none) : ∀ (order : List Nat) (st : State α β), db ∈ order → a ∈ st.notifies db →
    (pull dec st order).1 = false ∧ a ∈ (pull dec st order).2.notifies db
  | [], st, h, _ => by simp at h
  | i :: order, st, h, ha => by
    unfold pull
    by_cases hn : st.notifies i = []
    · rw [if_pos hn]
      refine pull_bad dec db a hbad order st ?_ ha
      rcases List.mem_cons.mp h with rfl | h
      · rw [hn] at ha; simp at ha
      · exact h
    · rw [if_neg hn]
      cases hm : (st.notifies i).mapM dec with
      | none => exact ⟨rfl, ha⟩
      | some l =>
        dsimp only
        have hi : i ≠ db := by
          rintro rfl
          have h1 := mapM_some dec _ _ hm
          have : dec a ∈ (st.notifies i).map dec := List.mem_map_of_mem ha
          rw [h1, hbad] at this
          simp at this
        refine pull_bad dec db a hbad order _ ?_ ?_
        · rcases List.mem_cons.mp h with rfl | h
          · exact absurd rfl hi
          · exact h
        · dsimp only
          rw [if_neg (Ne.symm hi)]
          exact ha

/-- **One bad notification stops them all.** When a notification at one connection cannot be decoded, the manager gives no event at all any more, for no connection, whatever the program does with it
and whatever arrives (as long as the connection is managed): calls of `__next__` raise, or give the idle event. -/
theorem C39_bad_blocks (dec : α → Option β) (db : Nat) (a : α) (hbad : dec a = none) : ∀ (program : List (Op α)) (st : State α β), st.incoming = none → db ∈ st.connections → a ∈ st.notifies db →
    (∀ o ∈ program, o ≠ .discard db ∧ ∀ ps, o = .next ps → ∀ p ∈ ps, db ∈ p.order) → ∀ o ∈ (run dec st program).1, o = .raised ∨ o = .idle ∨ o = .waiting
  | [], st, _, _, _, _ => by simp [run]
  | o :: os, st, hi, hdb, ha, hp => by
    have key : (∀ o' ∈ (step dec st o).1, o' = .raised ∨ o' = .idle ∨ o' = .waiting) ∧ (step dec st o).2.incoming = none ∧ db ∈ (step dec st o).2.connections ∧ a ∈ (step dec st o).2.notifies db := by
      cases o with
      | arrive i l =>
        refine ⟨by simp [step], hi, hdb, ?_⟩
        simp only [step]
        split
        · rename_i h; subst h; simp [ha]
        · exact ha
      | settimeout t =>
        simp only [step, settimeout]
        refine ⟨by simp, ?_⟩
        split
        · exact ⟨hi, hdb, ha⟩
        · split <;> exact ⟨hi, hdb, ha⟩
      | add i =>
        refine ⟨by simp [step], hi, ?_, ha⟩
        simp only [step, mem_union]
        exact Or.inl hdb
      | discard i =>
        refine ⟨by simp [step], hi, ?_, ha⟩
        simp only [step, mem_minus]
        refine ⟨hdb, ?_⟩
        have := (hp (.discard i) (by simp)).1
        intro h
        apply this
        rw [show db = i by simpa using h]
      | next ps =>
        simp only [step]
        cases ps with
        | nil =>
          have : next dec st [] = (.waiting, st) := by unfold next; rw [loop, front_none hi]
          rw [this]
          exact ⟨by simp, hi, hdb, ha⟩
        | cons p ps =>
          have hord : db ∈ p.order := (hp (.next (p :: ps)) (by simp)).2 (p :: ps) rfl p (by simp)
          cases ht : (timedout st p.now).1 with
          | true =>
            obtain ⟨_, _, _, _, _, _, e⟩ := timedout_true ht
            have : next dec st (p :: ps) = (.idle, { st with lastTime := none }) := by
              unfold next
              rw [loop, front_none hi]
              dsimp only
              unfold body
              dsimp only
              rw [if_pos ht, e]
            rw [this]
            exact ⟨by simp, hi, hdb, ha⟩
          | false =>
            have hw : ∀ s : State α β, wired s true p = s := fun s => by simp [wired, checkWires]
            obtain ⟨g1, g2⟩ := pull_bad dec db a hbad (p.order.filter (· ∈ st.connections)) { st with lastTime := toggled st.lastTime p.now }
              (List.mem_filter.mpr ⟨hord, by simpa using hdb⟩) ha
            have : next dec st (p :: ps) = (.raised, (pull dec { st with lastTime := toggled st.lastTime p.now } (p.order.filter (· ∈ st.connections))).2) := by
              unfold next
              rw [loop, front_none hi]
              dsimp only
              unfold body
              dsimp only
              rw [if_neg (by simp [ht]), timedout_false ht, hw, if_neg (by simp [g1])]
            rw [this]
            refine ⟨by simp, ?_, ?_, g2⟩
            · rw [(pull_frame dec _ _).2.2.2.2.1]; exact hi
            · rw [(pull_frame dec _ _).2.2.1]; exact hdb
    obtain ⟨k1, k2, k3, k4⟩ := key
    intro o' ho'
    rcases List.mem_append.mp ho' with h | h
    · exact k1 o' h
    · exact C39_bad_blocks dec db a hbad os _ k2 k3 k4 (fun x hx => hp x (by simp [hx])) o' h

/-- A pass in which nothing happens. -/
def quiet (now : Int) (order : List Nat) : Pass Nat := ⟨now, now, order, fun _ => false, fun _ => false, fun _ => false, fun _ => [], fun _ => false⟩

/-- Decoding for the examples: 99 cannot be decoded. -/
def exDec (n : Nat) : Option Nat := if n = 99 then none else some n

/-- **An idle event while a notification is pending**: what a query of the program collected after the timeout is passed over once (the code says: "Never emit idle when there are real events"). -/
theorem C39_idle_while_pending : let r := run exDec (init [0] (some 5) fun _ => []) [.arrive 0 [1], .next [quiet 0 [0]], .arrive 0 [2], .next [quiet 10 [0]]]
    r.1 = [.event 0 [1], .idle] ∧ r.2.notifies 0 = [2] := by decide

/-- **A poll that stops while a notification is pending.** -/
theorem C39_poll_pending : let r := run exDec (init [0] (some 0) fun _ => []) [.arrive 0 [1], .next [quiet 0 [0]], .arrive 0 [2], .next [quiet 10 [0], quiet 11 [0]]]
    r.1 = [.event 0 [1], .stop] ∧ r.2.notifies 0 = [2] := by decide

/-- **Lost notifications**: what a failing connection received at last is never given. -/
theorem C39_lost : let r := run exDec (init [0] none fun _ => []) [.next [quiet 0 [0], ⟨1, 1, [0], fun _ => false, fun _ => true, fun _ => false, fun _ => [7], fun _ => true⟩, quiet 2 [0]], .next [quiet 3 [0], quiet 4 [0]]]
    r.1 = [.stop, .stop] ∧ r.2.notifies 0 = [7] ∧ r.2.garbage = [0] := by decide

/-- Two connections, one fails; events, an idle event, the end. -/
example : let r := run exDec (init [0, 1] (some 5) fun _ => []) [.arrive 1 [3, 4], .arrive 0 [1], .next [quiet 0 [1, 0]], .next [], .arrive 1 [5], .next [quiet 1 [0, 1]],
       .next [quiet 2 [0, 1], ⟨3, 3, [0, 1], fun _ => false, fun i => i = 0, fun i => i = 1, fun _ => [6], fun _ => false⟩],
       .next [quiet 4 [0, 1], quiet 5 [0, 1], quiet 10 [0, 1], quiet 20 [0]], .settimeout (some 0), .next [quiet 21 [0], quiet 22 [0]]]
    r.1 = [.event 1 [3, 4], .event 0 [1], .event 1 [5], .event 0 [6], .idle, .stop] ∧ r.2.connections = [0] ∧ r.2.garbage = [1] := by decide

example : ∃ db' l, (next exDec (init [0, 1] none fun _ => []) [quiet 0 [0, 1], ⟨3, 3, [0, 1], fun _ => false, fun i => i = 0, fun i => i = 1, fun _ => [6], fun _ => false⟩]).1 = .event db' l :=
  C39_wires exDec _ _ _ [] 0 rfl rfl (by simp [init]) (by simp [init]) (by simp [init]) (by simp [init]) (by simp [init]) (by simp [init]) ⟨rfl, rfl, rfl⟩ rfl (by simp)
    (by simp [exDec]) (by simp)

example : (next exDec (init [0] (some 5) fun _ => []) [quiet 0 [0], quiet 1 [0], quiet 6 [0]]).1 = .idle :=
  C39_idle_comes exDec _ _ _ _ [] 5 0 rfl rfl rfl (by omega) (by simp [init]) (by simp [init]) (by simp [init]) ⟨rfl, rfl, rfl⟩ (by simp [quiet]) (by decide)

end PG.NotifyMan
