import Verif.Proofs.Reply3
import Verif.Props.Xact
/-!
# C12: a transaction completes exactly when the server has answered everything
-/
namespace PG.Props.Reply
open PG PG.Element3 PG.Xact3 PG.Spec.Xact PG.Spec.Reply

/-- How the loop treats `fatal`. -/
theorem loop_fatal : ∀ (ms : List Msg) (s : Inst) (l : Loc) (a : Inst) (d : Done), loop s l ms = (a, .ok d) → s.fatal ≠ some true →
    (d.early = false → a.fatal ≠ some true) ∧ (d.early = true → a.fatal = some true ∨ a.fatal = some false) ∧
    (a.fatal = some true → ∃ m0 x m1, ms = m0 ++ x :: m1 ∧ d.loc.count = l.count + m0.length + 1 ∧ d.early = true ∧
      ((∃ ex, a.errorMessage = some (.violation ex x.1) ∧ x.1 ∉ ex ∧ x.1 ≠ 69 ∧ asyncKind x.1 = none) ∨
       (∃ em sev, a.errorMessage = some (.server em) ∧ IsError x sev ∧ sev.map upperB ≠ ERROR)))
  | [], s, l, a, d, h, hf => by
    cases h
    exact ⟨fun _ => hf, fun e => (nomatch e), fun e => absurd e hf⟩
  | x :: xs, s, l, a, d, h, hf => by
    rw [loop_cons] at h
    have lift : ∀ (s' : Inst) (l' : Loc), l'.count = l.count + 1 → s'.fatal ≠ some true → loop s' l' xs = (a, .ok d) → _ := fun s' l' hc hs' h' =>
      (show (d.early = false → a.fatal ≠ some true) ∧ (d.early = true → a.fatal = some true ∨ a.fatal = some false) ∧
        (a.fatal = some true → ∃ m0 y m1, x :: xs = m0 ++ y :: m1 ∧ d.loc.count = l.count + m0.length + 1 ∧ d.early = true ∧
          ((∃ ex, a.errorMessage = some (.violation ex y.1) ∧ y.1 ∉ ex ∧ y.1 ≠ 69 ∧ asyncKind y.1 = none) ∨
           (∃ em sev, a.errorMessage = some (.server em) ∧ IsError y sev ∧ sev.map upperB ≠ ERROR))) from by
        obtain ⟨h1, h2, h3⟩ := loop_fatal xs s' l' a d h' hs'
        refine ⟨h1, h2, fun e => ?_⟩
        obtain ⟨m0, y, m1, e1, e2, e3⟩ := h3 e
        exact ⟨x :: m0, y, m1, by rw [e1]; rfl, by rw [e2, hc]; simp only [List.length_cons]; omega, e3⟩)
    cases hr : react s.commands l.offset l.step l.cmd l.paths x with
    | error e => rw [hr] at h; cases h
    | ok r =>
      rw [hr] at h
      cases r with
      | violation ex =>
        cases h
        refine ⟨fun e => (nomatch e), fun _ => .inl rfl, fun _ => ⟨[], x, xs, rfl, rfl, rfl, .inl ⟨ex, rfl, ?_⟩⟩⟩
        unfold react at hr
        split at hr
        · cases hr
        split at hr
        · cases hr
        rename_i t _
        split at hr
        · rename_i hfind
          split at hr
          · split at hr
            · split at hr
              · cases hr
              · cases hr
              · split at hr
                · cases hr
                · split at hr
                  · split at hr
                    · cases hr
                    · split at hr <;> cases hr
                  · split at hr
                    · cases hr
                    · split at hr
                      · cases hr
                      · split at hr <;> cases hr
            · cases hr
            · cases hr
          · rename_i h69
            split at hr
            · cases hr
            · rename_i hk
              cases hr
              refine ⟨fun hm => ?_, h69, hk⟩
              obtain ⟨e, he, h1⟩ := List.mem_map.mp hm
              unfold Table.find at hfind
              rw [Option.map_eq_none_iff, List.find?_eq_none] at hfind
              exact hfind e he (by simpa using h1)
        · split at hr
          · cases hr
          · split at hr
            · cases hr
            · split at hr <;> cases hr
      | fatal em =>
        cases h
        refine ⟨fun e => (nomatch e), fun _ => .inl rfl, fun _ => ⟨[], x, xs, rfl, rfl, rfl, .inr ⟨em, ?_⟩⟩⟩
        unfold react at hr
        split at hr
        · cases hr
        split at hr
        · cases hr
        split at hr
        · split at hr
          · rename_i h69
            split at hr
            · rename_i em' hem
              split at hr
              · cases hr
              · cases hr
              · rename_i sev hsev
                split at hr
                · rename_i hup
                  cases hr
                  exact ⟨sev, rfl, ⟨h69, em, hem, hsev⟩, hup⟩
                · split at hr
                  · split at hr
                    · cases hr
                    · split at hr <;> cases hr
                  · split at hr
                    · cases hr
                    · split at hr
                      · cases hr
                      · split at hr <;> cases hr
            · cases hr
            · cases hr
          · split at hr <;> cases hr
        · split at hr
          · cases hr
          · split at hr
            · cases hr
            · split at hr <;> cases hr
      | lost em =>
        cases h
        exact ⟨fun e => (nomatch e), fun _ => .inr rfl, fun e => (nomatch e)⟩
      | skip em o c p => exact lift { s with fatal := some false, errorMessage := some (.server em) } _ rfl (by simp) h
      | async kk =>
        dsimp only at h
        cases ha : handleAsync s kk x with
        | error e => rw [ha] at h; cases h
        | ok s' =>
          rw [ha] at h
          refine lift s' _ rfl ?_ h
          unfold handleAsync at ha
          split at ha
          · cases ha; exact hf
          · split at ha
            · cases ha; exact hf
            · cases ha
      | take r n => exact lift s _ rfl hf h
      | next r rd o c p => exact lift (setReady s rd) _ rfl (by cases rd <;> exact hf) h
      | last r rd o =>
        cases h
        have : (setReady s rd).fatal ≠ some true := by cases rd <;> exact hf
        exact ⟨fun _ => this, fun e => (nomatch e), fun e => absurd e this⟩

/-- The instruction `Instruction(cs)` after its commands were sent. -/
theorem start_eq {cs : List Elem} {s0 : Inst} (h : init cs = .ok s0) : sent s0 =
    { commands := cs, completed := [], lastId := 0, last1 := ⟨0, 0⟩, last2 := ⟨0, 0⟩, messages := .empty, copyTail := [],
      state := .receiving .standardPut, fatal := none, errorMessage := none, lastReady := none, asyncs := [], hookCalls := [] } := by
  unfold init at h
  split at h
  · cases h; rfl
  · cases h

/-- The first delivery, opened. -/
theorem first_put {cs : List Elem} {s0 : Inst} (h : init cs = .ok s0) {k : Nat} (hk : k ≠ 0) {ms : List Msg} :
    ∃ s1 : Inst, s1.commands = cs ∧ s1.state = .receiving .standardPut ∧ s1.fatal = none ∧
    deliver (sent s0) ⟨k, ms⟩ = match cs[0]? with
      | none => (s1, .error .indexError)
      | some c => match hookOf c with
        | none => (s1, .error .keyError)
        | some t => match loop s1 ⟨0, 0, c, t, [], 0⟩ ms with
          | (s, .error e) => (s, .error e)
          | (s, .ok ⟨true, l⟩) => (s, .ok l.count)
          | (s, .ok ⟨false, l⟩) => (finish s ⟨k, ms⟩ l, .ok l.count) := by
  rw [start_eq h]
  refine ⟨{ commands := cs, completed := [], lastId := 0, last1 := ⟨0, 0⟩, last2 := ⟨0, 0⟩, messages := .empty, copyTail := [], state := .receiving .standardPut, fatal := none, errorMessage := none, lastReady := none, asyncs := [], hookCalls := [] }, rfl, rfl, rfl, ?_⟩
  unfold deliver standardPut startLoop startPos
  dsimp only
  rw [if_neg hk, if_neg hk]
  dsimp only
  cases cs[0]? with
  | none => rfl
  | some c =>
    dsimp only
    cases hookOf c with
    | none => rfl
    | some t => rfl

/-- `finish` sets neither the error nor `fatal`; it completes the transaction only at the end of the commands. -/
theorem finish_facts {s : Inst} {b : Batch} {l : Loc} (hs : s.state = .receiving .standardPut) :
    (finish s b l).fatal = s.fatal ∧ (finish s b l).errorMessage = s.errorMessage ∧
    ((finish s b l).state = .complete ↔ l.offset = s.commands.length) := by
  unfold finish switchState
  dsimp only
  split
  · rename_i h; exact ⟨rfl, rfl, fun _ => h, fun _ => rfl⟩
  · rename_i h
    have hne : ∀ st : XState, st ≠ .complete → (st = .complete ↔ l.offset = s.commands.length) :=
      fun st hst => ⟨fun e => absurd e hst, fun e => absurd e h⟩
    split
    · split <;> exact ⟨rfl, rfl, hne _ (by first | (rw [hs]; simp) | simp)⟩
    · exact ⟨rfl, rfl, hne _ (by rw [hs]; simp)⟩

/-- C12, soundness: when the first delivery completes the transaction and not fatally, the consumed messages, asynchronous
ones left out, are the complete reply to the commands, as the protocol defines it.
Function calls are excepted: see `C12_function_error_violates`. -/
theorem C12_completes_only_on_reply {cs : List Elem} {s0 a : Inst} {k n : Nat} {ms : List Msg} (h0 : init cs = .ok s0)
    (hcs : ∀ c ∈ cs, IsCommand c ∧ c.kind ≠ .function) (hk : k ≠ 0) (h : deliver (sent s0) ⟨k, ms⟩ = (a, .ok n))
    (hc : a.state = .complete) (hf : a.fatal ≠ some true) : n ≤ ms.length ∧ Reply cs (strip (ms.take n)) := by
  have hcs' : ∀ c ∈ cs, IsCommand c ∧ NoFunction c := by
    intro c hcm
    refine ⟨(hcs c hcm).1, fun e => ?_⟩
    obtain ⟨h1, h2⟩ := hcs c hcm
    cases c with
    | str k d => cases k <;> first | cases e | cases h1
    | empty k => cases k <;> first | cases e | cases h1
    | parse | bind | execute => cases e
    | function => exact h2 rfl
    | tuple | copyData | complete | error | copyToBegin | notify | showOption | ready | notice | functionResult | attributeTypes
    | tupleDescriptor | killInformation | cancelRequest | negotiateSSL | startup | authentication | copyFromBegin => cases h1
  obtain ⟨s1, hs1, hst1, hf1, e⟩ := first_put h0 hk (ms := ms)
  rw [e] at h
  cases hc0 : cs[0]? with
  | none => rw [hc0] at h; cases h
  | some c =>
    rw [hc0] at h
    dsimp only at h
    cases hh : hookOf c with
    | none => rw [hh] at h; cases h
    | some t =>
      rw [hh] at h
      dsimp only at h
      cases hl : loop s1 ⟨0, 0, c, t, [], 0⟩ ms with
      | mk s2 res =>
        rw [hl] at h
        have hfr := loop_frame0 ms s1 ⟨0, 0, c, t, [], 0⟩
        rw [hl] at hfr
        cases res with
        | error e => cases h
        | ok d =>
          obtain ⟨f1, f2, _⟩ := loop_fatal ms s1 _ s2 d hl (by rw [hf1]; simp)
          have hcom : s2.commands = cs := by rw [← hs1]; exact (congrArg (·.commands) hfr.1 :)
          have main : GoodEnd cs.length s2 d → d.loc.count = n → n ≤ ms.length ∧ Reply cs (strip (ms.take n)) := by
            intro hg hn
            cases t with
            | none =>
              cases ms with
              | nil =>
                cases hl
                rcases hg with ⟨h1, _⟩ | ⟨_, h2⟩
                · cases h1
                · dsimp only at h2
                  rw [h2, List.getElem?_eq_none (Nat.le_refl _)] at hc0
                  cases hc0
              | cons x xs => cases hl
            | some ts =>
              obtain ⟨m, hm, hcnt, hrep⟩ := loop_sound hcs' ms s1 ⟨0, 0, c, some ts, [], 0⟩ [] ts s2 d hs1 hc0 hh rfl .nil hl hg
              have : m = n := by rw [← hn, hcnt]; simp
              subst this
              exact ⟨hm, by simpa using hrep⟩
          obtain ⟨early, l⟩ := d
          cases early with
          | true =>
            cases h
            refine main (.inl ⟨rfl, ?_⟩) rfl
            rcases f2 rfl with h1 | h1
            · exact absurd h1 hf
            · exact h1
          | false =>
            cases h
            have hst2 : s2.state = .receiving .standardPut := by
              rw [← hst1]; exact hfr.2.1 (fun l' e => by cases e)
            obtain ⟨_, _, e3⟩ := finish_facts (b := ⟨k, ms⟩) (l := l) hst2
            refine main (.inr ⟨rfl, ?_⟩) rfl
            rw [← hcom]
            exact e3.mp hc

/-- C12, completeness: the complete reply (with well formed asynchronous messages anywhere in it) completes the transaction,
not fatally, and is consumed up to its last message that is not asynchronous; what the batch contains beyond it is left alone. -/
theorem C12_completes_on_reply {cs : List Elem} {s0 : Inst} {k n : Nat} {ms : List Msg} (h0 : init cs = .ok s0)
    (hcs : ∀ c ∈ cs, IsCommand c) (hne : cs ≠ []) (hfl : cs.head? ≠ some (.empty .flush)) (hk : k ≠ 0)
    (ha : AsyncsParse (ms.take n)) (hr : Reply cs (strip (ms.take n))) :
    ∃ a m, deliver (sent s0) ⟨k, ms⟩ = (a, .ok m) ∧ a.state = .complete ∧ a.fatal ≠ some true ∧ m ≤ n ∧
      strip (ms.take m) = strip (ms.take n) := by
  obtain ⟨s1, hs1, hst1, hf1, e⟩ := first_put h0 hk (ms := ms)
  obtain ⟨c, cs', rfl⟩ := List.exists_cons_of_ne_nil hne
  have hc0 : (c :: cs')[0]? = some c := rfl
  rw [hc0] at e
  dsimp only at e
  obtain ⟨t, ht⟩ := hook_some (hcs c List.mem_cons_self)
  rw [ht] at e
  dsimp only at e
  cases t with
  | none =>
    exfalso
    exact hfl (by rw [hook_none (hcs c List.mem_cons_self) ht]; rfl)
  | some ts =>
    have hadv : advance (c :: cs') 0 = .ok (0, some (c, ts)) := by unfold advance; rw [ht]
    obtain ⟨a, d, m, h1, h2, h3, h4, h5⟩ := (reply_ends (cs := c :: cs') hr 0 rfl hcs).2 0 c ts hadv s1 ⟨0, 0, c, some ts, [], 0⟩ (ms.take n)
      hs1 rfl rfl rfl rfl ha rfl
    have hmn : m ≤ n := Nat.le_trans h4 (List.length_take_le _ _)
    have hmt : (ms.take n).take m = ms.take m := by rw [List.take_take, Nat.min_eq_left hmn]
    rw [hmt] at h5
    have hall : loop s1 ⟨0, 0, c, some ts, [], 0⟩ ms = (a, .ok d) := by
      have := loop_append (ms.take n) (ms.drop n) s1 ⟨0, 0, c, some ts, [], 0⟩ (by rw [hs1]; exact ⟨hc0, ht⟩)
      rw [List.take_append_drop, h1] at this
      obtain ⟨early, l⟩ := d
      cases early with
      | true => exact this
      | false =>
        dsimp only at this
        rcases h2 with ⟨e1, _⟩ | ⟨_, e2⟩
        · cases e1
        · rw [if_pos e2] at this; exact this
    rw [hall] at e
    have hcount : d.loc.count = m := by rw [h3]; simp
    have hfr := loop_frame0 ms s1 ⟨0, 0, c, some ts, [], 0⟩
    rw [hall] at hfr
    obtain ⟨f1, f2, _⟩ := loop_fatal ms s1 _ a d hall (by rw [hf1]; simp)
    obtain ⟨early, l⟩ := d
    cases early with
    | true =>
      refine ⟨a, m, by rw [e, ← hcount], hfr.2.2 l rfl, ?_, hmn, h5⟩
      rcases h2 with ⟨_, e2⟩ | ⟨e1, _⟩
      · rw [e2]; simp
      · cases e1
    | false =>
      have hst2 : a.state = .receiving .standardPut := by
        rw [← hst1]; exact hfr.2.1 (fun l' e => by cases e)
      obtain ⟨g1, g2, g3⟩ := finish_facts (b := ⟨k, ms⟩) (l := l) hst2
      refine ⟨finish a ⟨k, ms⟩ l, m, by rw [e, ← hcount], g3.mpr ?_, by rw [g1]; exact f1 rfl, hmn, h5⟩
      rcases h2 with ⟨e1, _⟩ | ⟨_, e2⟩
      · cases e1
      · have hcom : a.commands = s1.commands := (congrArg (·.commands) hfr.1 :)
        rw [hcom]; exact e2

/-- C12: what makes a transaction fatal is its last consumed message: an error whose severity is not ERROR, or a message that
is not an error, not asynchronous and not expected. -/
theorem C12_fatal {cs : List Elem} {s0 a : Inst} {k n : Nat} {ms : List Msg} (h0 : init cs = .ok s0)
    (hk : k ≠ 0) (h : deliver (sent s0) ⟨k, ms⟩ = (a, .ok n)) (hf : a.fatal = some true) :
    a.state = .complete ∧ ∃ x, ms[n - 1]? = some x ∧ 0 < n ∧
      ((∃ ex, a.errorMessage = some (.violation ex x.1) ∧ x.1 ∉ ex ∧ x.1 ≠ 69 ∧ asyncKind x.1 = none) ∨
       (∃ em sev, a.errorMessage = some (.server em) ∧ IsError x sev ∧ sev.map upperB ≠ ERROR)) := by
  obtain ⟨s1, hs1, hst1, hf1, e⟩ := first_put h0 hk (ms := ms)
  rw [e] at h
  cases hc0 : cs[0]? with
  | none => rw [hc0] at h; cases h
  | some c =>
    rw [hc0] at h
    dsimp only at h
    cases hh : hookOf c with
    | none => rw [hh] at h; cases h
    | some t =>
      rw [hh] at h
      dsimp only at h
      cases hl : loop s1 ⟨0, 0, c, t, [], 0⟩ ms with
      | mk s2 res =>
        rw [hl] at h
        have hfr := loop_frame0 ms s1 ⟨0, 0, c, t, [], 0⟩
        rw [hl] at hfr
        cases res with
        | error e => cases h
        | ok d =>
          obtain ⟨f1, f2, f3⟩ := loop_fatal ms s1 _ s2 d hl (by rw [hf1]; simp)
          obtain ⟨early, l⟩ := d
          cases early with
          | true =>
            cases h
            obtain ⟨m0, x, m1, e1, e2, _, e4⟩ := f3 hf
            refine ⟨hfr.2.2 l rfl, x, ?_, ?_, e4⟩
            · dsimp only at e2
              rw [e1, e2]
              simp
            · dsimp only at e2; omega
          | false =>
            cases h
            have hst2 : s2.state = .receiving .standardPut := by
              rw [← hst1]; exact hfr.2.1 (fun l' e => by cases e)
            rw [(finish_facts (b := ⟨k, ms⟩) (l := l) hst2).1] at hf
            exact absurd hf (f1 rfl)

/-- C12: if the commands end with a Synchronize, the reply ends with the ready message; so the transaction does not complete
(unless fatally) before that. -/
theorem C12_ready_is_last {cs : List Elem} {w : List Msg} (h : Reply (cs ++ [.empty .synchronize]) w) :
    ∃ w' z, w = w' ++ [z] ∧ Is .ready z := by
  generalize hD : cs ++ [Elem.empty .synchronize] = D at h
  induction h generalizing cs with
  | nil => simp at hD
  | @answer c D a r hans hrep ih =>
    cases cs with
    | nil =>
      cases hD
      cases hrep
      cases hans with
      | sync hz => exact ⟨[], _, rfl, hz⟩
    | cons c' cs =>
      cases hD
      obtain ⟨w', z, rfl, hz⟩ := ih rfl
      exact ⟨a ++ w', z, by simp, hz⟩
  | @error c D p x r hns hb hx hm hrep ih =>
    obtain ⟨pre, hpre⟩ : ∃ pre, (c :: D).dropWhile (· ≠ .empty .synchronize) = pre ++ [Elem.empty .synchronize] := by
      rw [← hD]
      clear hD ih hm hrep
      induction cs with
      | nil => exact ⟨[], rfl⟩
      | cons y ys ih =>
        by_cases hy : y = .empty .synchronize
        · exact ⟨y :: ys, by rw [List.cons_append, List.dropWhile_cons_of_neg (by simp [hy])]⟩
        · rw [List.cons_append, List.dropWhile_cons_of_pos (by simpa using hy)]; exact ih
    obtain ⟨w', z, rfl, hz⟩ := ih hpre.symm
    exact ⟨p ++ x :: w', z, by simp, hz⟩
  | @lost c D p x hns hb hx hm =>
    exact absurd (by rw [← hD]; simp) hm
  | @queryError q D p x r hb hx hrep ih =>
    obtain ⟨w', z, rfl, hz⟩ := ih hD
    exact ⟨p ++ x :: w', z, by simp, hz⟩

/-- C12 for a reply that arrives in several batches: if delivering them (as long as the transaction waits) completes the
transaction, not fatally, the consumed messages are the complete reply to the commands.  Assumed, as for C10: the rows parse
and the delivered messages read as one batch do not violate the protocol. -/
theorem C12_batched_partial {cs : List Elem} {s0 : Inst} {bs : List Batch} {k n : Nat} (h0 : init cs = .ok s0)
    (hcs : ∀ c ∈ cs, IsCommand c ∧ c.kind ≠ .function) (hb : bs ≠ []) (hf : Fresh (sent s0) bs) (hk : k ≠ 0)
    (hrows : RowsOk (allMsgs (bs.take (feed (sent s0) bs).2.2)))
    (hv : ¬ Violated (standardPut (sent s0) ⟨k, allMsgs (bs.take (feed (sent s0) bs).2.2)⟩).1)
    (hok : (feed (sent s0) bs).2.1 = .ok n) (hc : (feed (sent s0) bs).1.state = .complete)
    (hft : (feed (sent s0) bs).1.fatal ≠ some true) :
    Reply cs (strip ((allMsgs (bs.take (feed (sent s0) bs).2.2)).take n)) := by
  have hreach : Reach cs (sent s0) := by
    refine .sent (.start h0) ⟨.standardSent, ?_⟩
    unfold init at h0
    split at h0
    · cases h0; rfl
    · cases h0
  have hst := start_eq h0
  have hw : Receiving (sent s0) := ⟨.standardPut, by rw [hst]⟩
  obtain ⟨e1, e2, _⟩ := PG.Props.Xact.C10_batching_partial k hreach hw hb hf
    ⟨by rw [hst]; exact hk, by rw [hst]; intro x hx; cases hx⟩ hrows hv
  have A := e2 ⟨n, hok⟩
  have hdel : ∀ b, deliver (sent s0) b = standardPut (sent s0) b := by intro b; rw [hst]; rfl
  refine (C12_completes_only_on_reply (a := (standardPut (sent s0) ⟨k, allMsgs (bs.take (feed (sent s0) bs).2.2)⟩).1) h0 hcs hk
    (by rw [hdel]; exact Prod.ext rfl (e1.symm.trans hok)) ?_ (by rw [A.fatal]; exact hft)).2
  have hp := A.phase
  unfold phase at hp
  rw [hc] at hp
  dsimp only at hp
  split at hp
  · cases hp
  · cases hp
  · assumption

/-! Non-vacuity: an extended query that fails while executing, answered with a notification in between and surplus after it;
the reply of the specification is the consumed part. -/
open PG.Props.Xact

theorem demo_error : IsPlainError (errorMsg [69, 114, 114, 111, 114]) :=
  ⟨[69, 114, 114, 111, 114], ⟨rfl, [([83], some [69, 114, 114, 111, 114])], by decide, by decide⟩, by decide⟩

example : let ms := [(49, []), (50, []), row 1, note, errorMsg [69, 114, 114, 111, 114], (90, [73]), (90, [73])]
    Reply demoCmds (strip (ms.take 6)) ∧ AsyncsParse (ms.take 6) ∧ (deliver (sent { demo with messages := .commands, state := .sending .standardSent }) ⟨1, ms⟩).2 = .ok 6 ∧
    (deliver demo ⟨1, ms⟩).1.state = .complete ∧ (deliver demo ⟨1, ms⟩).1.fatal = some false := by
  refine ⟨?_, ?_, by decide, by decide, by decide⟩
  · have hp : Is (.empty .parseComplete) (49, []) := ⟨rfl, _, rfl⟩
    have hb : Is (.empty .bindComplete) (50, []) := ⟨rfl, _, rfl⟩
    have hz : Is .ready (90, [73]) := ⟨rfl, _, rfl⟩
    have hrow : Is .tuple (row 1) := ⟨rfl, .tuple [some [1]], by decide⟩
    have hbegun : Begun (.execute [] 0) [row 1] :=
      ⟨[(67, [])], by simp, .execute (rs := [row 1]) (by simpa using hrow) some_complete⟩
    exact .answer (a := [(49, [])]) (.parse hp) (.answer (a := [(50, [])]) (.bind hb)
      (.error (p := [row 1]) (by rintro (h | h) <;> cases h) hbegun demo_error (by simp) (.answer (a := [(90, [73])]) (.sync hz) .nil)))
  · intro x hx k hk
    simp only [List.take, List.mem_cons, List.not_mem_nil, or_false] at hx
    rcases hx with rfl | rfl | rfl | rfl | rfl | rfl <;> first | cases hk | skip
    exact ⟨.notify 1 [99] [112], by decide⟩

/-- The exception: a function call that fails.  The server answers with the error and a ready message; the client, back at the
first step of the call, does not expect the ready message there: the connection is given up as violating the protocol. -/
theorem C12_function_error_violates :
    let s := sent { demo with commands := [.function 1 [] [] [0, 0]], messages := .commands, state := .sending .standardSent }
    Violated (deliver s ⟨1, [errorMsg [69, 82, 82, 79, 82], (90, [73])]⟩).1 ∧
    (deliver s ⟨1, [errorMsg [69, 82, 82, 79, 82], (90, [73])]⟩).1.fatal = some true :=
  ⟨⟨[86], 90, by decide⟩, by decide⟩

/-- Describing a portal that returns no rows: the server answers NoData alone, which the client takes for a violation. -/
theorem C12_describe_portal_nodata_violates :
    Violated (deliver (sent { demo with commands := [.str .describePortal [], .empty .synchronize], messages := .commands, state := .sending .standardSent })
      ⟨1, [(110, []), (90, [73])]⟩).1 := ⟨[116, 84], 110, by decide⟩

/-- A transaction that starts with Flush cannot receive anything: `TypeError`. -/
theorem C12_flush_first_fails (x : Msg) (xs : List Msg) :
    (deliver (sent { demo with commands := [.empty .flush, .empty .synchronize], messages := .commands, state := .sending .standardSent }) ⟨1, x :: xs⟩).2 =
      .error .typeError := rfl

/-- A localized severity (`FEHLER`) of a plain error is taken for a fatal one. -/
theorem C12_localized_error_is_fatal :
    (deliver demo ⟨1, [errorMsg [70, 69, 72, 76, 69, 82]]⟩).1.fatal = some true := by decide

end PG.Props.Reply
