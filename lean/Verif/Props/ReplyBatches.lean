import Verif.Proofs.ReplyBatches
/-! # C12 for a reply that arrives in any batches -/
namespace PG.Props.ReplyBatches
open PG PG.Element3 PG.Xact3 PG.Spec.Xact PG.Spec.Reply PG.Spec.Received PG.ReplyBatches PG.Props.Reply

theorem take_drop_msgs (bs : List Batch) (j : Nat) : allMsgs (bs.take j) ++ allMsgs (bs.drop j) = allMsgs bs := by
  unfold allMsgs
  rw [← List.flatMap_append, List.take_append_drop]

/-- The first delivery, for any messages. -/
theorem put_first {cs : List Elem} {s0 : Inst} (h0 : init cs = .ok s0) {k : Nat} (hk : k ≠ 0) :
    ∃ s1 : Inst, s1.commands = cs ∧ s1.state = .receiving .standardPut ∧ s1.fatal = none ∧ ¬ Violated s1 ∧ ∀ ms, deliver (sent s0) ⟨k, ms⟩ = standardPut (sent s0) ⟨k, ms⟩ ∧
    ∀ c, cs[0]? = some c → ∀ t, hookOf c = some t → deliver (sent s0) ⟨k, ms⟩ =
      match loop s1 ⟨0, 0, c, t, [], 0⟩ ms with
          | (s, .error e) => (s, .error e)
          | (s, .ok ⟨true, l⟩) => (s, .ok l.count)
          | (s, .ok ⟨false, l⟩) => (finish s ⟨k, ms⟩ l, .ok l.count) := by
  rw [start_eq h0]
  refine ⟨{ commands := cs, completed := [], lastId := 0, last1 := ⟨0, 0⟩, last2 := ⟨0, 0⟩, messages := .empty, copyTail := [], state := .receiving .standardPut, fatal := none, errorMessage := none, lastReady := none, asyncs := [], hookCalls := [] }, rfl, rfl, rfl, ?_, fun ms => ⟨rfl, fun c hc t ht => ?_⟩⟩
  · rintro ⟨_, _, e⟩; cases e
  unfold deliver standardPut startLoop startPos
  dsimp only
  rw [if_neg hk, if_neg hk]
  dsimp only
  rw [hc]
  dsimp only
  rw [ht]
  rfl

/-- A delivery after which the transaction wants to send has seen the server ask for COPY data. -/
theorem finish_sending {s : Inst} {b : Batch} {l : Loc} (hs : s.state = .receiving .standardPut) (h : Sending (finish s b l)) : ∃ u v, Proc.elem (.copyFromBegin u v) ∈ l.processed := by
  unfold finish switchState at h
  dsimp only at h
  obtain ⟨op, h⟩ := h
  split at h
  · cases h
  · split at h
    · split at h
      · rw [hs] at h; cases h
      · cases h
      · cases h
      · rename_i e; exact ⟨_, _, List.mem_of_getLast? e⟩
      · cases h
      · rw [hs] at h; cases h
    · rw [hs] at h; cases h

/-- **C12, completeness for any batches.** The reply to the commands, with well formed asynchronous messages anywhere in it and divided into batches in any way, completes the transaction, not fatally,
and is consumed up to its last message that is not asynchronous. It does not ask for COPY data (the transaction then sends in between: C13). -/
theorem C12_batched_completes {cs : List Elem} {s0 : Inst} {bs : List Batch} (h0 : init cs = .ok s0) (hcs : ∀ c ∈ cs, IsCommand c) (hne : cs ≠ []) (hfl : cs.head? ≠ some (.empty .flush))
    (hf : Fresh (sent s0) bs) (ha : AsyncsParse (allMsgs bs)) (hr : Reply cs (strip (allMsgs bs))) (hcopy : ∀ x ∈ allMsgs bs, x.1 ≠ 71) (hb : bs ≠ []) :
    ∃ m, (feed (sent s0) bs).2.1 = .ok m ∧ (feed (sent s0) bs).1.state = .complete ∧ (feed (sent s0) bs).1.fatal ≠ some true ∧ strip ((allMsgs bs).take m) = strip (allMsgs bs) ∧
      ((∀ x ∈ allMsgs bs, x.1 ≠ 69) → (feed (sent s0) bs).1.fatal = none) := by
  have hk : (1 : Nat) ≠ 0 := by decide
  obtain ⟨a, m, hd, hac, haf, hmn, hst⟩ := C12_completes_on_reply (k := 1) (n := (allMsgs bs).length) (ms := allMsgs bs) h0 hcs hne hfl hk (by rw [List.take_length]; exact ha) (by rw [List.take_length]; exact hr)
  rw [List.take_length] at hst
  obtain ⟨s1, g1, g2, g3, g4, g5⟩ := put_first h0 hk
  obtain ⟨c, cs', rfl⟩ := List.exists_cons_of_ne_nil hne
  obtain ⟨t, ht⟩ := hook_some (hcs c List.mem_cons_self)
  have hput := fun ms => (g5 ms).2 c rfl t ht
  have hreach : Reach (c :: cs') (sent s0) := by
    refine .sent (.start h0) ⟨.standardSent, ?_⟩
    unfold init at h0
    split at h0
    · cases h0; rfl
    · cases h0
  have hS := start_eq h0
  have hw : Receiving (sent s0) := ⟨.standardPut, by rw [hS]⟩
  have hloc : LocOk s1.commands ⟨0, 0, c, t, [], 0⟩ := by rw [g1]; exact ⟨rfl, ht⟩
  have hrows := rows_of_strip (reply_rows hr)
  have hpq := take_drop_msgs bs (feed (sent s0) bs).2.2
  generalize hP : allMsgs (bs.take (feed (sent s0) bs).2.2) = P at hpq
  generalize allMsgs (bs.drop (feed (sent s0) bs).2.2) = Q at hpq
  -- the whole
  have hvw : ¬ Violated a := by
    intro hv
    apply haf
    rw [hput] at hd
    cases hl : loop s1 ⟨0, 0, c, t, [], 0⟩ (allMsgs bs) with
    | mk s' r =>
      rw [hl] at hd
      cases r with
      | error e => cases hd
      | ok d =>
        have hvl := loop_violation _ _ _ _ _ hl g4
        have hst2 := (loop_frame0 (allMsgs bs) s1 ⟨0, 0, c, t, [], 0⟩).2.1
        rw [hl] at hst2
        obtain ⟨early, l⟩ := d
        cases early with
        | true => cases hd; exact hvl hv
        | false =>
          cases hd
          obtain ⟨f1, f2, _⟩ := finish_facts (b := ⟨1, allMsgs bs⟩) (l := l) ((hst2 (fun l' e => by cases e)).trans g2)
          rw [f1]
          exact hvl ((violated_of_error f2).mp hv)
  have hvp : ¬ Violated (standardPut (sent s0) ⟨1, P⟩).1 := by
    intro hv
    apply hvw
    have := violated_prefix (k := 1) (m2 := Q) (by rw [hS]; exact hk) (by rw [hS]; exact hk) (by rw [hS]; rintro ⟨_, _, e⟩; cases e) hv
    rw [hpq, ← (g5 _).1, hd] at this
    exact this
  obtain ⟨e1, e2, _⟩ := PG.Props.Xact.C10_batching_partial 1 hreach hw hb hf ⟨by rw [hS]; exact hk, by rw [hS]; intro x hx; cases hx⟩
    (by rw [hP]; intro x hx; exact hrows x (by rw [← hpq]; exact List.mem_append_left _ hx)) (by rw [hP]; exact hvp)
  rw [hP, ← (g5 P).1] at e1 e2
  -- the prefix
  have key : deliver (sent s0) ⟨1, P⟩ = (deliver (sent s0) ⟨1, P⟩ |>.1, .ok m) ∧ (deliver (sent s0) ⟨1, P⟩).1.state = .complete ∧ (deliver (sent s0) ⟨1, P⟩).1.fatal = a.fatal := by
    have happ := loop_append P Q s1 ⟨0, 0, c, t, [], 0⟩ hloc
    rw [hpq] at happ
    rw [hput] at hd
    have hPd := hput P
    have hfrP := loop_frame0 P s1 ⟨0, 0, c, t, [], 0⟩
    cases hl : loop s1 ⟨0, 0, c, t, [], 0⟩ P with
    | mk s' r =>
      rw [hl] at happ hPd hfrP
      cases r with
      | error e => rw [happ] at hd; cases hd
      | ok d =>
        obtain ⟨early, l⟩ := d
        cases early with
        | true =>
          rw [happ] at hd
          cases hd
          rw [hPd]
          exact ⟨rfl, hac, rfl⟩
        | false =>
          dsimp only at happ hPd
          have hs2 : s'.state = .receiving .standardPut := (hfrP.2.1 (fun l' e => by cases e)).trans g2
          have hcom : s'.commands = s1.commands := (frame0_fields hfrP.1).1
          by_cases ho : l.offset = s1.commands.length
          · rw [if_pos ho] at happ
            rw [happ] at hd
            dsimp only at hd
            obtain ⟨f1, f2, f3⟩ := finish_facts (b := ⟨1, P⟩) (l := l) hs2
            obtain ⟨f4, _, _⟩ := finish_facts (b := ⟨1, allMsgs bs⟩) (l := l) hs2
            obtain ⟨q1, q2⟩ := Prod.mk.inj hd
            rw [hPd]
            refine ⟨by rw [q2], f3.mpr (by rw [hcom]; exact ho), ?_⟩
            rw [f1, ← q1, f4]
          · exfalso
            obtain ⟨f1, f2, f3⟩ := finish_facts (b := ⟨1, P⟩) (l := l) hs2
            have hnc : (finish s' ⟨1, P⟩ l).state ≠ .complete := fun e => ho (by rw [← hcom]; exact f3.mp e)
            rw [hPd] at e1 e2
            have A := e2 ⟨_, e1⟩
            have hp := A.phase
            dsimp only at hp
            cases hfs : (feed (sent s0) bs).1.state with
            | complete =>
              unfold phase at hp
              rw [hfs] at hp
              dsimp only at hp
              split at hp
              · cases hp
              · cases hp
              · rename_i e; exact hnc e
            | receiving op =>
              have hall := feed_delivered bs (sent s0) _ e1 ⟨op, hfs⟩
              rw [hall, List.take_length] at hP
              rw [hP, hl] at hd
              dsimp only at hd
              obtain ⟨q1, _⟩ := Prod.mk.inj hd
              exact hnc (by rw [q1]; exact hac)
            | sending op =>
              have hsend : Sending (finish s' ⟨1, P⟩ l) := by
                unfold phase at hp
                rw [hfs] at hp
                dsimp only at hp
                split at hp
                · cases hp
                · rename_i e; exact ⟨_, e⟩
                · cases hp
              obtain ⟨u, v, hm⟩ := finish_sending hs2 hsend
              rcases loop_procs P s1 _ s' l hloc hl _ hm with h1 | ⟨x, hx, h1⟩
              · cases h1
              · exact hcopy x (by rw [← hpq]; exact List.mem_append_left _ hx) (procOf_copyIn h1)
  obtain ⟨k1, k2, k3⟩ := key
  rw [k1] at e1
  have A := e2 ⟨m, e1⟩
  have hfeed : (feed (sent s0) bs).1.state = .complete := by
    have hp := A.phase
    unfold phase at hp
    rw [k2] at hp
    dsimp only at hp
    split at hp
    · cases hp
    · cases hp
    · assumption
  refine ⟨m, e1, hfeed, by rw [← A.fatal, k3]; exact haf, hst, fun h69 => ?_⟩
  rw [← A.fatal, k3]
  rw [hput] at hd
  cases hl : loop s1 ⟨0, 0, c, t, [], 0⟩ (allMsgs bs) with
  | mk s' r =>
    rw [hl] at hd
    cases r with
    | error e => cases hd
    | ok d =>
      have hq := loop_quiet _ _ _ _ _ hloc hl h69 g3
      have hst2 := (loop_frame0 (allMsgs bs) s1 ⟨0, 0, c, t, [], 0⟩).2.1
      rw [hl] at hst2
      obtain ⟨early, l⟩ := d
      cases early with
      | true =>
        cases hd
        exact hq.resolve_right haf
      | false =>
        cases hd
        obtain ⟨f1, f2, _⟩ := finish_facts (b := ⟨1, allMsgs bs⟩) (l := l) ((hst2 (fun l' e => by cases e)).trans g2)
        rw [f1] at haf ⊢
        exact hq.resolve_right haf

/-! Non-vacuity: three rows in four batches, with a notification among them. -/
open PG.Props.Xact PG.Fetch in
example : let s0 : Inst := { demo with commands := demoCommands, messages := .commands, state := .sending .standardSent }
    init demoCommands = .ok s0 ∧ (∀ c ∈ demoCommands, IsCommand c) ∧ Fresh (sent s0) demoWire ∧ AsyncsParse (allMsgs demoWire) ∧ Reply demoCommands (strip (allMsgs demoWire)) ∧
    (∀ x ∈ allMsgs demoWire, x.1 ≠ 71 ∧ x.1 ≠ 69) ∧ (feed (sent s0) demoWire).2.1 = .ok 7 ∧ demoWire.length = 4 := by
  refine ⟨demo_init, ?_, ⟨by decide, ?_⟩, ?_, ?_, by decide, by decide, rfl⟩
  · intro c hc
    simp only [demoCommands, List.mem_cons, List.not_mem_nil, or_false] at hc
    rcases hc with rfl | rfl | rfl <;> trivial
  · intro b hb
    simp [demoWire] at hb
    rcases hb with rfl | rfl | rfl | rfl <;> exact ⟨by simp, by simp [sent, Props.Xact.demo], fun c hc => by cases hc⟩
  · intro x hx k hk
    simp only [demoWire, allMsgs, List.flatMap_cons, List.flatMap_nil, List.cons_append, List.nil_append, List.append_nil, List.mem_cons, List.not_mem_nil, or_false] at hx
    rcases hx with rfl | rfl | rfl | rfl | rfl | rfl | rfl <;> first | cases hk | skip
    exact ⟨.notify 1 [99] [112], by decide⟩
  · have hb : Is (.empty .bindComplete) (50, []) := ⟨rfl, _, rfl⟩
    have hz : Is .ready (90, [73]) := ⟨rfl, _, rfl⟩
    have hrow : ∀ r ∈ [row 1, row 2, row 3], Is .tuple r := by
      intro r hr
      simp only [List.mem_cons, List.not_mem_nil, or_false] at hr
      rcases hr with rfl | rfl | rfl
      · exact ⟨rfl, .tuple [some [1]], by decide⟩
      · exact ⟨rfl, .tuple [some [2]], by decide⟩
      · exact ⟨rfl, .tuple [some [3]], by decide⟩
    have hc : Is .complete (67, [67, 0]) := ⟨rfl, .complete [67], by decide⟩
    exact .answer (a := [(50, [])]) (.bind hb) (.answer (a := [row 1, row 2, row 3] ++ [(67, [67, 0])]) (.execute hrow hc) (.answer (a := [(90, [73])]) (.sync hz) .nil))

end PG.Props.ReplyBatches
