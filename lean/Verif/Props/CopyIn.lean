import Verif.Proofs.Xact3e
import Verif.Spec.CopyIn
import Verif.Props.Xact
/-!
# C13: COPY FROM STDIN is always terminated and the rest of the commands is issued again
-/
namespace PG.Props.CopyIn
open PG PG.Element3 PG.Xact3 PG.Spec.Xact PG.Spec.CopyIn

/-- C13, part 1: when a delivery brings a waiting transaction to sending, the server has just asked for COPY data (it is the
last message collected) in answer to a simple query or an Execute, and the commands kept for later are exactly those after it. -/
theorem C13_copy_begins {cs : List Elem} {s s' : Inst} {b : Batch} {n : Nat} (hr : Reach cs s) (hw : Receiving s) (hf : Fresh s [b])
    (h : deliver s b = (s', .ok n)) (hs : Sending s') :
    s'.state = .sending .sentFromStdin ∧ s'.messages = s.messages ∧
    (∃ f g, (messagesReceived s').getLast? = some (.elem (.copyFromBegin f g))) ∧
    (∃ c, cs[s'.last2.offset]? = some c ∧ (c.kind.typ = some 81 ∨ c.kind.typ = some 69)) ∧
    s'.copyTail = cs.drop (s'.last2.offset + 1) := by
  obtain ⟨op, hop⟩ := hw
  have hid := (hf.2 b List.mem_cons_self).2.1
  have hcm := (reach_good hr).2.1
  have key : ∀ t : Inst, (∃ op, t.state = .receiving op) → b.id ≠ t.lastId → (∀ c ∈ t.completed, c.1 ≠ b.id) → t.commands = cs → t.messages = s.messages →
      standardPut t b = (s', .ok n) →
      s'.state = .sending .sentFromStdin ∧ s'.messages = s.messages ∧
      (∃ f g, (messagesReceived s').getLast? = some (.elem (.copyFromBegin f g))) ∧
      (∃ c, cs[s'.last2.offset]? = some c ∧ (c.kind.typ = some 81 ∨ c.kind.typ = some 69)) ∧
      s'.copyTail = cs.drop (s'.last2.offset + 1) := by
    intro t ⟨op', ht⟩ htid htc htcm htm hput
    obtain ⟨l, s1, ⟨ea, l1⟩, hst, hv, _, hd⟩ := standardPut_ok htid hput
    obtain ⟨f1, f2, f3⟩ := loop_frame0 b.msgs { t with asyncs := [] } l
    rw [hv] at f1 f2 f3
    dsimp only at f1 f2 f3 hd
    have g1 : s1.commands = t.commands := (congrArg (·.commands) f1 :)
    have g2 : s1.messages = t.messages := (congrArg (·.messages) f1 :)
    have g3 : s1.completed = t.completed := (congrArg (·.completed) f1 :)
    rcases hd with ⟨rfl, rfl⟩ | ⟨rfl, rfl⟩
    · obtain ⟨o, ho⟩ := hs
      rw [f3 l1 rfl] at ho
      cases ho
    · have hst1 : s1.state = .receiving op' := (f2 (fun _ h => by cases h)).trans ht
      have hpush : pushCompleted s1.completed b.id l1.processed = s1.completed ++ [(b.id, l1.processed)] := by
        unfold pushCompleted
        rw [if_neg]
        intro e
        cases hg : s1.completed.getLast? with
        | none => rw [hg] at e; cases e
        | some z =>
          rw [hg] at e
          exact htc z (by rw [← g3]; exact List.mem_of_getLast? hg) (Option.some.inj e)
      have hlok := loop_locOk b.msgs { t with asyncs := [] } l l1
      rw [hv] at hlok
      obtain ⟨oo, hoo⟩ := hs
      unfold finish switchState at hoo ⊢
      dsimp only at hoo ⊢
      split at hoo
      · cases hoo
      · rename_i hend
        rw [if_neg hend]
        split at hoo
        · rename_i hty
          rw [if_pos hty]
          split at hoo
          · rw [hst1] at hoo; cases hoo
          · cases hoo
          · cases hoo
          · rename_i f g hlast
            refine ⟨rfl, g2.trans htm, ⟨f, g, ?_⟩, ⟨l1.cmd, ?_, hty.symm⟩, by rw [g1, htcm]⟩
            · unfold messagesReceived
              dsimp only
              rw [hpush, List.flatMap_append]
              have : (List.flatMap (fun (x : Nat × List Proc) => x.2) [(b.id, l1.processed)]) = l1.processed := by simp
              rw [this, List.getLast?_append, hlast]
              rfl
            · have hlo : LocOk t.commands l := by
                have hst' := hst
                unfold startAt at hst'
                dsimp only at hst'
                split at hst'
                · cases hst'
                · rename_i c hc
                  split at hst'
                  · cases hst'
                  · rename_i tt htt
                    cases hst'
                    refine ⟨?_, htt⟩
                    exact hc
              rcases hlok hlo rfl with h1 | ⟨h1, _⟩
              · exact absurd (h1.trans (congrArg _ g1.symm)) hend
              · rw [← htcm]; exact h1.1
          · cases hoo
          · rw [hst1] at hoo; cases hoo
        · rw [hst1] at hoo; cases hoo
  have nofast : ∀ p, fastPush s b p ≠ (s', .ok n) := by
    intro p e
    unfold fastPush at e
    cases e
    obtain ⟨o, ho⟩ := hs
    rw [hop] at ho
    cases ho
  have hcs' := (hf.2 b List.mem_cons_self).2.2
  unfold deliver at h
  rw [hop] at h
  cases op with
  | standardPut => exact key s ⟨_, hop⟩ hid hcs' hcm rfl h
  | putCopydata =>
    dsimp only at h
    unfold putCopydata at h
    split at h
    · cases h
    · dsimp only at h
      split at h
      · exact key { s with state := .receiving .standardPut } ⟨_, rfl⟩ hid hcs' hcm rfl h
      · exact absurd h (nofast _)
  | putTupledata =>
    dsimp only at h
    unfold putTupledata at h
    split at h
    · cases h
    · split at h
      · exact key { s with state := .receiving .standardPut } ⟨_, rfl⟩ hid hcs' hcm rfl h
      · split at h
        · cases h
        · split at h
          · exact key { s with state := .receiving .standardPut } ⟨_, rfl⟩ hid hcs' hcm rfl h
          · exact absurd h (nofast _)

theorem send_data {s : Inst} {u : Option Out} (hs : s.state = .sending .sentFromStdin) (hu : IsData u) :
    outItems (choose s u) = dataOf u ∧ sent (choose s u) = { s with messages := .copyFail } := by
  cases u with
  | none => cases hu
  | some o =>
    cases o with
    | data l =>
      refine ⟨rfl, ?_⟩
      unfold sent choose
      dsimp only
      rw [hs]
      dsimp only
      rw [if_neg (by simp)]
    | _ => cases hu

/-- C13, part 2: the user gives data any number of times and then says it is done (or failed): exactly the data is written, in
order, then once the end of the COPY followed by the kept commands, after which the transaction waits for the reply. -/
theorem C13_user_ends {s : Inst} (hs : s.state = .sending .sentFromStdin) (us : List (Option Out)) (hd : ∀ u ∈ us, IsData u)
    (e : Option Out) (he : Ends e) (more : List (Option Out)) :
    (sendAll s (us ++ e :: more)).1 = us.map dataOf ++ [(if e = some .copyDone then done else fail) :: s.copyTail.map .msg] ∧
    (sendAll s (us ++ e :: more)).2 = { s with messages := .empty, state := .receiving .standardPut } := by
  induction us generalizing s with
  | nil =>
    cases e with
    | none => cases he
    | some o =>
      have stop : sendAll { s with messages := .empty, state := .receiving .standardPut } more = ([], { s with messages := .empty, state := .receiving .standardPut }) := by
        cases more <;> rfl
      cases o with
      | copyDone | copyFail =>
        rw [List.nil_append]
        unfold sendAll
        rw [hs]
        dsimp only [choose]
        unfold sent
        dsimp only
        rw [hs]
        dsimp only
        rw [if_pos (by simp), stop]
        exact ⟨rfl, rfl⟩
      | _ => cases he
  | cons u us ih =>
    obtain ⟨h1, h2⟩ := send_data hs (hd u List.mem_cons_self)
    obtain ⟨i1, i2⟩ := ih (s := { s with messages := .copyFail }) hs (fun u hu => hd u (List.mem_cons_of_mem _ hu))
    rw [List.cons_append]
    unfold sendAll
    rw [hs]
    dsimp only
    rw [h1, h2]
    exact ⟨by rw [i1]; rfl, i2⟩

/-- C13, part 3: the user gives data at least once (or performs the first, empty, transition: a transaction comes here with no
messages) and then nothing: the COPY is failed, exactly once, followed by the kept commands.  No sequence of transitions leaves
the server waiting for more data. -/
theorem C13_default_fails {s : Inst} (hs : s.state = .sending .sentFromStdin) (u : Option Out) (hu : IsData u ∨ (u = none ∧ s.messages = .empty))
    (us : List (Option Out)) (hd : ∀ u ∈ us, IsData u) (more : List (Option Out)) :
    (sendAll s (u :: us ++ none :: more)).1 = (u :: us).map dataOf ++ [fail :: s.copyTail.map .msg] ∧
    (sendAll s (u :: us ++ none :: more)).2 = { s with messages := .empty, state := .receiving .standardPut } := by
  have step : ∀ (us : List (Option Out)) (s : Inst), s.state = .sending .sentFromStdin → s.messages = .copyFail → (∀ u ∈ us, IsData u) →
      (sendAll s (us ++ none :: more)).1 = us.map dataOf ++ [fail :: s.copyTail.map .msg] ∧
      (sendAll s (us ++ none :: more)).2 = { s with messages := .empty, state := .receiving .standardPut } := by
    intro us
    induction us with
    | nil =>
      intro s hs hm _
      have stop : sendAll { s with messages := .empty, state := .receiving .standardPut } more = ([], { s with messages := .empty, state := .receiving .standardPut }) := by
        cases more <;> rfl
      rw [List.nil_append]
      unfold sendAll
      rw [hs]
      dsimp only [choose]
      unfold sent
      rw [hs]
      dsimp only
      rw [if_pos (.inr hm), stop]
      unfold outItems
      rw [hm]
      exact ⟨rfl, rfl⟩
    | cons u us ih =>
      intro s hs hm hd
      obtain ⟨h1, h2⟩ := send_data hs (hd u List.mem_cons_self)
      obtain ⟨i1, i2⟩ := ih { s with messages := .copyFail } hs rfl (fun u hu => hd u (List.mem_cons_of_mem _ hu))
      rw [List.cons_append]
      unfold sendAll
      rw [hs]
      dsimp only
      rw [h1, h2]
      exact ⟨by rw [i1]; rfl, i2⟩
  have first : outItems (choose s u) = dataOf u ∧ sent (choose s u) = { s with messages := .copyFail } := by
    rcases hu with hu | ⟨rfl, hm⟩
    · exact send_data hs hu
    · unfold choose sent outItems dataOf
      dsimp only
      rw [hs, hm]
      exact ⟨rfl, rfl⟩
  obtain ⟨i1, i2⟩ := step us { s with messages := .copyFail } hs rfl hd
  rw [List.cons_append]
  unfold sendAll
  rw [hs]
  dsimp only
  rw [first.1, first.2]
  exact ⟨by rw [i1]; rfl, i2⟩

/-! Non-vacuity: a COPY inside an extended query, followed by two more commands. -/
open PG.Props.Xact in
example : let s := { demo with commands := [.bind [] [115] [] [] [], .execute [] 0, .str .closePortal [], .empty .synchronize] }
    let s' := (deliver s ⟨1, [(50, []), (71, [0, 0, 0])]⟩).1
    (deliver s ⟨1, [(50, []), (71, [0, 0, 0])]⟩).2 = .ok 2 ∧ s'.state = .sending .sentFromStdin ∧ s'.messages = .empty ∧
    s'.copyTail = [.str .closePortal [], .empty .synchronize] ∧
    (sendAll s' [none, some (.data [.raw [49, 10]]), some (.data []), some .copyDone]).1 =
      [[], [.raw [49, 10]], [], [done, .msg (.str .closePortal []), .msg (.empty .synchronize)]] ∧
    (sendAll s' [some (.data [.raw [49, 10]]), none, none]).1 =
      [[.raw [49, 10]], [fail, .msg (.str .closePortal []), .msg (.empty .synchronize)]] := by decide

end PG.Props.CopyIn
