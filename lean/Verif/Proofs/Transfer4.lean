import Verif.Proofs.Transfer3
/-!
# A transfer: its end
-/
namespace PG.Transfer
open PG PG.Element3 PG.Client3 PG.Lifecycle PG.CopyReceiver PG.Props.CopyReceiver PG.Spec PG.Spec.Copy PG.Spec.Client PG.Spec.Lifecycle PG.Spec.CopyLoad PG.Spec.Transfer PG.CopyTo
open PG.Props.Lifecycle PG.Props.Status PG.Props.CopyLoad

/-- Every receiver in the set is left, if nothing blocks or interrupts. -/
theorem exitAll_left {fuel : Nat} {t : Typ} : ∀ {ss ss' : List Slot} {v : Svc}, exitAll fuel t ss = (ss', v) → v ≠ .blocked → v ≠ .interrupted → ∀ s ∈ ss', s.active = true → s.left ≠ none
  | [], _, _, h, _, _ => by cases h; exact fun s hs => by cases hs
  | s :: ss, ss', v, h, hb, hi => by
    unfold exitAll at h
    have key : ∀ (x : Slot) (w : List Slot) (z : Svc), (x.active = true → x.left ≠ none) → exitAll fuel t ss = (w, z) → z ≠ .blocked → z ≠ .interrupted → ∀ y ∈ x :: w, y.active = true → y.left ≠ none := by
      intro x w z hx hy h1 h2 y hm
      rcases List.mem_cons.1 hm with rfl | hm
      · exact hx
      · exact exitAll_left hy h1 h2 y hm
    cases hy : exitAll fuel t ss with
    | mk w z =>
      have hfault : ∀ x : Slot, x.left ≠ none → (x :: w, if z = .ok then Svc.receiverFault else z) = (ss', v) → ∀ s ∈ ss', s.active = true → s.left ≠ none := by
        intro x hx hh
        cases hh
        refine key x w z (fun _ => hx) hy ?_ ?_
        · intro hz; rw [hz] at hb; exact hb rfl
        · intro hz; rw [hz] at hi; exact hi rfl
      by_cases ha : s.active = true
      · rw [if_pos ha] at h
        cases hz : CopyReceiver.exit fuel t s.rcv with
        | mk r o =>
          rw [hz, hy] at h
          cases o with
          | ok => cases h; exact key _ _ _ (fun _ => by simp) hy hb hi
          | blocked => cases h; exact absurd rfl hb
          | dbError b m => exact hfault _ (by simp) h
          | raised e =>
            cases e with
            | py e => exact hfault _ (by simp) h
            | sock k => cases k <;> first | exact hfault _ (by simp) h | (cases h; exact absurd rfl hi)
      · rw [if_neg ha, hy] at h
        cases h
        exact key _ _ _ (fun h => absurd h ha) hy hb hi

theorem noneLeft_all {m : Mgr} (h : noneLeft m = true) : ∀ s ∈ m.slots, ¬ s.active = true := by
  intro s hs ha
  unfold noneLeft at h
  have := List.all_eq_true.1 h s hs
  rw [ha] at this
  cases this

theorem each_act {R : Dest → Slot → Prop} {ds : List Dest} {ss : List Slot} (h : Each (fun d s => s.active = true → R d s) ds ss) (ha : ∀ s ∈ ss, s.active = true) : Each R ds ss := by
  induction h with
  | nil => exact .nil
  | cons h _ ih => exact .cons (h (ha _ List.mem_cons_self)) (ih fun s hs => ha s (List.mem_cons_of_mem _ hs))

/-- The end after an exception. -/
theorem finish_true {rows done last : List Bytes} {e : Bool} {data : Bytes} {ds : List Dest} {fuel : Nat} {pf : Bool} {m m' : Mgr} {o : Outcome} (hr : ∀ d ∈ ds, Reached d.db)
    (hd : data <+: copyFrames (done ++ last)) (hd2 : noneLeft m = true ∨ data = copyFrames (done ++ last)) (h1 : done <+: rows) (h2 : last.length ≤ 1) (hf : Each (FlowN data) ds m.slots)
    (h : finish fuel true pf m = (m', o)) :
    m'.prod = m.prod ∧ Each (Fate rows e) ds m'.slots ∧ o ≠ .done ∧ o ≠ .failed false ∧ (o = .failed true → ∀ s ∈ m'.slots, s.active = true → s.left ≠ none) := by
  have hfr : Each (fun d s => Reached d.db ∧ FlowN data d s) ds m.slots := hf.mono fun d hd s h => ⟨hr d hd, h⟩
  have hstill : ∀ d s, (Reached d.db ∧ FlowN data d s) → Fate rows e d s := fun d s h => fate_still h.1 hd h1 h2 h.2
  unfold finish at h
  by_cases hn : noneLeft m = true
  · rw [if_pos hn] at h
    cases h
    exact ⟨rfl, hfr.mono fun d _ s h => hstill d s h, by simp, by simp, fun _ s hs ha => absurd ha (noneLeft_all hn s hs)⟩
  · rw [if_neg hn, if_pos rfl] at h
    have hd2 := hd2.resolve_left hn
    cases hy : exitAll fuel .exception m.slots with
    | mk w z =>
      rw [hy] at h
      have hz := exitAll_each (S := Fate rows e) hstill (fun d s r o k ha he => fate_failed k.1 hd2 h1 h2 k.2 ha he) hfr hy
      have hl := exitAll_left hy
      cases z with
      | blocked => cases h; exact ⟨rfl, hz, by simp, by simp, fun h => by cases h⟩
      | interrupted => cases h; exact ⟨rfl, hz, by simp, by simp, fun h => by cases h⟩
      | ok => cases h; exact ⟨rfl, hz, by simp, by simp, fun _ => hl (by simp) (by simp)⟩
      | stop => cases h; exact ⟨rfl, hz, by simp, by simp, fun _ => hl (by simp) (by simp)⟩
      | producerFault => cases h; exact ⟨rfl, hz, by simp, by simp, fun _ => hl (by simp) (by simp)⟩
      | receiverFault => cases h; exact ⟨rfl, hz, by simp, by simp, fun _ => hl (by simp) (by simp)⟩

theorem exit_mode (p : SP) (x : Mode) : CopyTo.exit { p with mode := x } = ((CopyTo.exit p).1, { (CopyTo.exit p).2 with mode := x }) := by
  obtain ⟨q, y, c, pr, md⟩ := p
  cases y with
  | none => rfl
  | some i =>
    unfold CopyTo.exit
    dsimp only
    by_cases h : i.state = .complete
    · rw [if_pos h, if_pos h]
    · rw [if_neg h, if_neg h]

/-- Leaving with an exception. -/
theorem leave_true {cs : List Elem} (hcs : Cmds cs) {rows : List Bytes} {e : Bool} {pub : Bytes} {t : Nat} {ds : List Dest} {fuel : Nat} {m m' : Mgr} {o : Outcome} (hr : ∀ d ∈ ds, Reached d.db)
    (hok : Ok cs m.prod pub rows e t) (hf : Each (FlowNR pub) ds m.slots) (h : leave fuel true m = (m', o)) :
    AtRest m'.prod ∧ Each (Fate rows e) ds m'.slots ∧ o ≠ .done ∧ o ≠ .failed false ∧ (o = .failed true → ∀ s ∈ m'.slots, s.active = true → s.left ≠ none) := by
  obtain ⟨p1, fill, l1, l2, ⟨done, last, d1, d2, d3, _⟩, r, p', x1, x2, x3⟩ := leave_ok hcs hok
  have hpre : pub <+: copyFrames (done ++ last) := ⟨fill, d1⟩
  have hN : Each (FlowN pub) ds m.slots := hf.mono fun _ _ _ h => h.1
  unfold leave at h
  rw [l1] at h
  dsimp only at h
  -- the end, with the producer left
  have fin : ∀ (m1 : Mgr) (data : Bytes), AtRest m1.prod → data <+: copyFrames (done ++ last) → (noneLeft m1 = true ∨ data = copyFrames (done ++ last)) → Each (FlowN data) ds m1.slots → ∀ pf,
      finish fuel true pf m1 = (m', o) → AtRest m'.prod ∧ Each (Fate rows e) ds m'.slots ∧ o ≠ .done ∧ o ≠ .failed false ∧ (o = .failed true → ∀ s ∈ m'.slots, s.active = true → s.left ≠ none) := by
    intro m1 data ha k1 k2 k3 pf hh
    obtain ⟨q1, q2⟩ := finish_true (e := e) hr k1 k2 d3 d2 k3 hh
    exact ⟨by rw [q1]; exact ha, q2⟩
  unfold serviceProducer at h
  by_cases hn : noneLeft { m with prod := p1 } = true
  · rw [if_pos hn] at h
    dsimp only at h
    rw [x1] at h
    rcases x3 with rfl | ⟨rfl, _⟩
    · exact fin { m with prod := p' } pub x2 hpre (.inl hn) hN _ h
    · exact fin { m with prod := p' } pub x2 hpre (.inl hn) hN _ h
  · rw [if_neg hn] at h
    by_cases hfl : fill = []
    · subst hfl
      have hnx : CopyTo.next p1 = (.stop, p1) := by unfold CopyTo.next; rw [l2]; rfl
      rw [hnx] at h
      dsimp only at h
      rw [x1] at h
      rw [List.append_nil] at d1
      rcases x3 with rfl | ⟨rfl, _⟩
      · exact fin { m with prod := p', seen := true } pub x2 hpre (.inr d1) hN _ h
      · exact fin { m with prod := p', seen := true } pub x2 hpre (.inr d1) hN _ h
    · have hnx : CopyTo.next p1 = (.view fill, { p1 with mode := .views [] }) := by unfold CopyTo.next; rw [l2, if_neg hfl]
      rw [hnx] at h
      dsimp only at h
      rw [exit_mode, x1] at h
      have x2' : AtRest { p' with mode := .views [] } := ⟨x2.xact, x2.wire⟩
      have hN2 := accept_eachN (v := fill) hf
      rcases x3 with rfl | ⟨rfl, _⟩
      · exact fin ⟨{ p' with mode := .views [] }, _, m.seen⟩ (pub ++ fill) x2' (by rw [d1]; exact List.prefix_rfl) (.inr d1) hN2 _ h
      · exact fin ⟨{ p' with mode := .views [] }, _, m.seen⟩ (pub ++ fill) x2' (by rw [d1]; exact List.prefix_rfl) (.inr d1) hN2 _ h

theorem exitAll_active {fuel : Nat} {t : Typ} : ∀ {ss ss' : List Slot} {v : Svc}, exitAll fuel t ss = (ss', v) → ss'.map (·.active) = ss.map (·.active)
  | [], _, _, h => by cases h; rfl
  | s :: ss, ss', v, h => by
    unfold exitAll at h
    cases hy : exitAll fuel t ss with
    | mk w z =>
      have ih := exitAll_active hy
      rw [hy] at h
      by_cases ha : s.active = true
      · rw [if_pos ha] at h
        cases hz : CopyReceiver.exit fuel t s.rcv with
        | mk r o =>
          rw [hz] at h
          cases o with
          | ok => cases h; rw [List.map_cons, List.map_cons, ih]
          | blocked => cases h; rfl
          | dbError b m => cases h; rw [List.map_cons, List.map_cons, ih]
          | raised e =>
            cases e with
            | py e => cases h; rw [List.map_cons, List.map_cons, ih]
            | sock k => cases k <;> cases h <;> first | rfl | rw [List.map_cons, List.map_cons, ih]
      · rw [if_neg ha] at h
        cases h
        rw [List.map_cons, List.map_cons, ih]

theorem realigned_ended {p : SP} {rows : List Bytes} (he : Ended p (copyFrames rows) rows) :
    ∃ p1, realigned p = .ok p1 ∧ p1.mode = .views [] ∧ p1.xact = none ∧ Wire p1.pq [] ∧ p1.prod = p.prod := by
  rcases he.state with hs | hs
  · exact ⟨{ p with mode := .views [] }, by unfold realigned; rw [hs], rfl, he.xact, he.wire, rfl⟩
  · obtain ⟨wi, wu⟩ := PBuffer.write_spec p.pq.stream he.wire.inv []
    refine ⟨{ p with pq := { p.pq with stream := PBuffer.write p.pq.stream [] }, mode := .views [] }, by unfold realigned; rw [hs]; rfl, rfl, he.xact, ?_, rfl⟩
    exact ⟨wi, he.wire.read, he.wire.data, he.wire.pieces, by dsimp only; rw [wu, List.append_nil]; exact he.wire.bytes, he.wire.fits⟩

/-- Leaving with an exception when the producer has ended. -/
theorem leave_true_ended {rows : List Bytes} {e : Bool} {ds : List Dest} {fuel : Nat} {m m' : Mgr} {o : Outcome} (hr : ∀ d ∈ ds, Reached d.db)
    (he : Ended m.prod (copyFrames rows) rows) (hf : Each (FlowR (copyFrames rows)) ds m.slots) (h : leave fuel true m = (m', o)) :
    AtRest m'.prod ∧ Each (Fate rows e) ds m'.slots ∧ o ≠ .done ∧ o ≠ .failed false ∧ (o = .failed true → ∀ s ∈ m'.slots, s.active = true → s.left ≠ none) := by
  obtain ⟨p1, l1, l2, l3, l4, l5⟩ := realigned_ended he
  have hrest : AtRest p1 := ⟨fun i hi => (by rw [l3] at hi; cases hi), l4⟩
  have hex : CopyTo.exit p1 = (.fine, p1) := by unfold CopyTo.exit; rw [l3]
  have fin : ∀ (sn : Bool) pf, finish fuel true pf { m with prod := p1, seen := sn } = (m', o) →
      AtRest m'.prod ∧ Each (Fate rows e) ds m'.slots ∧ o ≠ .done ∧ o ≠ .failed false ∧ (o = .failed true → ∀ s ∈ m'.slots, s.active = true → s.left ≠ none) := by
    intro sn pf hh
    obtain ⟨q1, q2⟩ := finish_true (e := e) (done := rows) (last := []) (data := copyFrames rows) (m := { m with prod := p1, seen := sn }) hr (by rw [List.append_nil]; exact List.prefix_rfl) (.inr (by rw [List.append_nil])) List.prefix_rfl (by simp)
      (hf.mono fun _ _ _ h => (flowR_N h).1) hh
    exact ⟨by rw [q1]; exact hrest, q2⟩
  unfold leave at h
  rw [l1] at h
  dsimp only at h
  unfold serviceProducer at h
  by_cases hn : noneLeft { m with prod := p1 } = true
  · rw [if_pos hn] at h
    dsimp only at h
    rw [hex] at h
    exact fin _ _ h
  · rw [if_neg hn] at h
    have hnx : CopyTo.next p1 = (.stop, p1) := by unfold CopyTo.next; rw [l2]
    rw [hnx] at h
    dsimp only at h
    rw [hex] at h
    exact fin _ _ h

/-- Leaving when the producer has ended. -/
theorem leave_ended {rows : List Bytes} {ds : List Dest} {fuel : Nat} {m m' : Mgr} {o : Outcome} (hr : ∀ d ∈ ds, Reached d.db)
    (he : Ended m.prod (copyFrames rows) rows) (hf : Each (FlowR (copyFrames rows)) ds m.slots) (h : leave fuel false m = (m', o)) :
    AtRest m'.prod ∧ Counts m'.prod.prod (copyFrames rows) rows ∧ Each (Fate rows false) ds m'.slots ∧ o ≠ .failed true ∧
      (o = .done → Each (fun d s => s.active = true → s.left = some .ok ∧ ∃ pre, Before d.db pre ∧ wire s.rcv.db = pre ++ upload d.stmt rows ++ frames [copyDone, syncMsg]) ds m'.slots) ∧ m'.slots.map (·.active) = m.slots.map (·.active) ∧
      (o = .failed false → ∀ s ∈ m'.slots, s.active = true → s.left ≠ none) := by
  obtain ⟨p1, l1, l2, l3, l4, l5⟩ := realigned_ended he
  have hrest : AtRest p1 := ⟨fun i hi => (by rw [l3] at hi; cases hi), l4⟩
  have hcnt : Counts p1.prod (copyFrames rows) rows := by rw [l5]; exact he.counts
  have hex : CopyTo.exit p1 = (.fine, p1) := by unfold CopyTo.exit; rw [l3]
  have hfr : Each (fun d s => Reached d.db ∧ FlowR (copyFrames rows) d s) ds m.slots := hf.mono fun d hd s h => ⟨hr d hd, h⟩
  have hstill : ∀ d s, (Reached d.db ∧ FlowR (copyFrames rows) d s) → Fate rows false d s :=
    fun d s h => fate_still (done := rows) (last := []) h.1 (by rw [List.append_nil]; exact List.prefix_rfl) List.prefix_rfl (by simp) (flowR_N h.2).1
  have fin : ∀ sn, finish fuel false false { m with prod := p1, seen := sn } = (m', o) →
      AtRest m'.prod ∧ Counts m'.prod.prod (copyFrames rows) rows ∧ Each (Fate rows false) ds m'.slots ∧ o ≠ .failed true ∧
      (o = .done → Each (fun d s => s.active = true → s.left = some .ok ∧ ∃ pre, Before d.db pre ∧ wire s.rcv.db = pre ++ upload d.stmt rows ++ frames [copyDone, syncMsg]) ds m'.slots) ∧ m'.slots.map (·.active) = m.slots.map (·.active) ∧
      (o = .failed false → ∀ s ∈ m'.slots, s.active = true → s.left ≠ none) := by
    intro sn hh
    unfold finish at hh
    by_cases hn : noneLeft { m with prod := p1, seen := sn } = true
    · rw [if_pos hn] at hh
      cases hh
      exact ⟨hrest, hcnt, hfr.mono fun d _ s h => hstill d s h, by simp, fun h => (by cases h), rfl, fun _ s hs ha => absurd ha (noneLeft_all hn s hs)⟩
    · rw [if_neg hn, if_neg (by simp)] at hh
      dsimp only at hh
      cases hy : exitAll fuel .none m.slots with
      | mk w z =>
        rw [hy] at hh
        have hz := exitAll_each (S := Fate rows false) hstill (fun d s r o k ha he => fate_done k.1 k.2 ha he) hfr hy
        have hl := exitAll_left hy
        have bad : z ≠ .ok → z ≠ .blocked → z ≠ .interrupted → ((⟨p1, w, sn⟩ : Mgr), if (false || decide (z ≠ .ok) || false || !sn) = true then Outcome.failed false else .done) = (m', o) →
            AtRest m'.prod ∧ Counts m'.prod.prod (copyFrames rows) rows ∧ Each (Fate rows false) ds m'.slots ∧ o ≠ .failed true ∧
            (o = .done → Each (fun d s => s.active = true → s.left = some .ok ∧ ∃ pre, Before d.db pre ∧ wire s.rcv.db = pre ++ upload d.stmt rows ++ frames [copyDone, syncMsg]) ds m'.slots) ∧ m'.slots.map (·.active) = m.slots.map (·.active) ∧
            (o = .failed false → ∀ s ∈ m'.slots, s.active = true → s.left ≠ none) := by
          intro k k1 k2 q
          rw [if_pos (by simp [k])] at q
          cases q
          exact ⟨hrest, hcnt, hz, by simp, fun h => (by cases h), exitAll_active hy, fun _ => hl k1 k2⟩
        cases z with
        | blocked => cases hh; exact ⟨hrest, hcnt, hz, by simp, fun h => (by cases h), exitAll_active hy, fun h => (by cases h)⟩
        | interrupted => cases hh; exact ⟨hrest, hcnt, hz, by simp, fun h => (by cases h), exitAll_active hy, fun h => (by cases h)⟩
        | stop => exact bad (by simp) (by simp) (by simp) hh
        | producerFault => exact bad (by simp) (by simp) (by simp) hh
        | receiverFault => exact bad (by simp) (by simp) (by simp) hh
        | ok =>
          have hall := exitAll_ok (S := fun d s => s.active = true → s.left = some .ok ∧ ∃ pre, Before d.db pre ∧ wire s.rcv.db = pre ++ upload d.stmt rows ++ frames [copyDone, syncMsg])
            (R := fun d s => Reached d.db ∧ FlowR (copyFrames rows) d s) (fun d s r k ha he => fun _ => ⟨rfl, fate_ok k.1 k.2 ha he⟩) (fun d s _ ha hc => absurd hc ha) hfr hy
          cases hh
          exact ⟨hrest, hcnt, hz, by split <;> simp, fun _ => hall, exitAll_active hy, fun _ => hl (by simp) (by simp)⟩
  unfold leave at h
  rw [l1] at h
  dsimp only at h
  unfold serviceProducer at h
  by_cases hn : noneLeft { m with prod := p1 } = true
  · rw [if_pos hn] at h
    dsimp only at h
    rw [hex] at h
    exact fin _ h
  · rw [if_neg hn] at h
    have hnx : CopyTo.next p1 = (.stop, p1) := by unfold CopyTo.next; rw [l2]
    rw [hnx] at h
    dsimp only at h
    rw [hex] at h
    exact fin _ h

/-- Leaving when there is no receiver. -/
theorem leave_nobody {cs : List Elem} (hcs : Cmds cs) {rows : List Bytes} {e : Bool} {pub : Bytes} {t : Nat} {fuel : Nat} {exc : Bool} {m m' : Mgr} {o : Outcome}
    (hok : Ok cs m.prod pub rows e t) (hn : noneLeft m = true) (h : leave fuel exc m = (m', o)) : AtRest m'.prod ∧ m'.slots = m.slots ∧ o = .failed exc := by
  obtain ⟨p1, fill, l1, l2, _, r, p', x1, x2, x3⟩ := leave_ok hcs hok
  unfold leave at h
  rw [l1] at h
  dsimp only at h
  unfold serviceProducer at h
  have hn1 : noneLeft { m with prod := p1 } = true := hn
  have hn2 : noneLeft { m with prod := p' } = true := hn
  rw [if_pos hn1] at h
  dsimp only at h
  rw [x1] at h
  rcases x3 with rfl | ⟨rfl, _⟩
  · dsimp only at h
    unfold finish at h
    rw [if_pos hn2] at h
    cases h
    exact ⟨x2, rfl, rfl⟩
  · dsimp only at h
    unfold finish at h
    rw [if_pos hn2] at h
    cases h
    exact ⟨x2, rfl, rfl⟩

/-- What a run comes to. -/
structure Ran (rows : List Bytes) (e : Bool) (ds : List Dest) (m : Mgr) (o : Outcome) : Prop where
  fate : Each (Fate rows e) ds m.slots
  done : o = .done → e = false ∧ Counts m.prod.prod (copyFrames rows) rows ∧ AtRest m.prod ∧
    Each (fun d s => s.left = some .ok ∧ ∃ pre, Before d.db pre ∧ wire s.rcv.db = pre ++ upload d.stmt rows ++ frames [copyDone, syncMsg]) ds m.slots
  failed : ∀ b, o = .failed b → AtRest m.prod ∧ ∀ s ∈ m.slots, s.active = true → s.left ≠ none
  error : e = true → ds ≠ [] → o ≠ .failed false

theorem run_ran {cs : List Elem} (hcs : Cmds cs) {rows : List Bytes} {e : Bool} {t fuel : Nat} {ds : List Dest} {p : SP} {m' : Mgr} {o : Outcome} (hrf : ∀ row ∈ rows, row.length + 4 < 2147483648)
    (hr : ∀ d ∈ ds, Reached d.db) (hok : Ok cs p [] rows e t) (h : run fuel p ds = (m', o)) : Ran rows e ds m' o := by
  unfold run at h
  have still : ∀ {pub : Bytes} {ss : List Slot}, pub <+: copyFrames rows → Each (FlowN pub) ds ss → Each (Fate rows e) ds ss := fun hp hf =>
    hf.mono fun d hd s h => fate_still (done := rows) (last := []) (hr d hd) (by rw [List.append_nil]; exact hp) List.prefix_rfl (by simp) h
  have lt : ∀ {m : Mgr} {pub : Bytes} {t : Nat}, Ok cs m.prod pub rows e t → Each (FlowNR pub) ds m.slots → leave fuel true m = (m', o) → Ran rows e ds m' o := by
    intro m pub t ho hf hl
    obtain ⟨k1, k2, k3, k4, k5⟩ := leave_true hcs hr ho hf hl
    refine ⟨k2, fun h => absurd h k3, fun b hb => ⟨k1, k5 ?_⟩, fun _ _ => k4⟩
    cases b with
    | true => exact hb
    | false => exact absurd hb k4
  cases hen : enterAll ds with
  | mk ss v =>
    rw [hen] at h
    obtain ⟨k1, k2, k3, k4⟩ := enter_flow hen
    have hN : Each (FlowN []) ds ss := k1.mono fun _ _ _ h => h.2.2
    have hNR : Each (FlowNR []) ds ss := k1.mono fun _ _ _ h => ⟨h.2.2, fun _ => h.2.1⟩
    cases v with
    | stop => exact absurd rfl k3
    | producerFault => exact absurd rfl k4
    | blocked => cases h; exact ⟨still (List.nil_prefix) hN, fun h => (by cases h), fun _ h => (by cases h), fun _ _ => by simp⟩
    | interrupted => cases h; exact ⟨still (List.nil_prefix) hN, fun h => (by cases h), fun _ h => (by cases h), fun _ _ => by simp⟩
    | receiverFault => exact lt (m := ⟨p, ss, false⟩) hok hNR h
    | ok =>
      dsimp only at h
      have hall : AllIn ⟨p, ss, false⟩ := by
        have : ∀ {as : List Dest} {bs : List Slot}, Each (fun d s => s.active = true ∧ s.rcv.view = [] ∧ (NotIn d s ∨ Flow [] d s)) as bs → ∀ s ∈ bs, s.active = true := by
          intro as bs hh
          induction hh with
          | nil => exact fun s hs => (by cases hs)
          | cons h _ ih =>
            intro s hs
            rcases List.mem_cons.1 hs with rfl | hs
            · exact h.1
            · exact ih s hs
        exact this k1
      cases hlo : loop fuel ⟨p, ss, false⟩ with
      | mk m v =>
        rw [hlo] at h
        have hc := loop_comes hcs hrf fuel (m := ⟨p, ss, false⟩) hok hall (k2 rfl) hlo
        cases hc with
        | ended he hen2 hs ha hf =>
          subst he
          obtain ⟨q1, q2, q3, q4, q5, q7, q6⟩ := leave_ended hr hen2 hf h
          refine ⟨q3, fun hd => ⟨rfl, q2, q1, each_act (q5 hd) (allIn_map q7 ha)⟩, fun b hb => ⟨q1, q6 ?_⟩, fun h => (by cases h)⟩
          cases b with
          | false => exact hb
          | true => exact absurd hb q4
        | nobody hn ha ho hf =>
          obtain ⟨q1, q2, rfl⟩ := leave_nobody hcs ho hn h
          refine ⟨by rw [q2]; exact still (ok_prefix ho).1 (hf.mono fun _ _ _ h => (flowR_N h).1), fun h => (by cases h), fun b _ => ⟨q1, ?_⟩, fun _ hds => ?_⟩
          · rw [q2]; exact fun s hs ha => absurd ha (noneLeft_all hn s hs)
          · have hsl : m.slots = [] := by
              cases hm : m.slots with
              | nil => rfl
              | cons s _ => exact absurd (ha s (by rw [hm]; exact List.mem_cons_self)) (noneLeft_all hn s (by rw [hm]; exact List.mem_cons_self))
            have := hf.length
            rw [hsl] at this
            exact absurd (List.length_eq_zero_iff.1 this.symm) hds
        | raised _ ho hf => exact lt ho (hf.mono fun _ _ _ h => flowR_N h) h
        | fault ho hf => exact lt ho (hf.mono fun _ _ _ h => flowR_N h) h
        | blocked hp hf => cases h; exact ⟨still hp (hf.mono fun _ _ _ h => .inr h), fun h => (by cases h), fun _ h => (by cases h), fun _ _ => by simp⟩
        | interrupted hp hf => cases h; exact ⟨still hp (hf.mono fun _ _ _ h => .inr h), fun h => (by cases h), fun _ h => (by cases h), fun _ _ => by simp⟩

end PG.Transfer
