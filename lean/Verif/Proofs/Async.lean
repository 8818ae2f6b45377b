import Verif.Spec.Async
import Verif.Proofs.Received
import Verif.Proofs.Reply2
/-!
# What the hook for asynchronous messages is given
-/
namespace PG.Async
open PG PG.Element3 PG.Xact3 PG.Spec.Xact PG.Spec.Async PG.Fetch

theorem parsed_kind {x : Msg} {k : Kind} {m : Elem} (hk : asyncKind x.1 = some k) (h : parseK k x.2 = .ok m) : parsed x = some m := by
  unfold parsed
  unfold asyncKind at hk
  split at hk
  · rename_i e; cases hk; rw [if_pos e, h]
  · rename_i e; cases hk; rw [if_neg (by rw [e]; decide), if_pos e, h]
  · rename_i e; cases hk; rw [if_neg (by rw [e]; decide), if_neg (by rw [e]; decide), if_pos e, h]
  · cases hk

/-- `firsts`, without what was seen. -/
def once : List Msg → List Msg → List Msg
  | _, [] => []
  | seen, x :: xs => if x ∈ seen then once seen xs else x :: once (seen ++ [x]) xs

theorem once_firsts : ∀ (l seen : List Msg), once seen l = (firsts l).filter (· ∉ seen)
  | [], _ => rfl
  | x :: xs, seen => by
    unfold once firsts
    by_cases h : x ∈ seen
    · rw [if_pos h, once_firsts xs seen, List.filter_cons_of_neg (by simpa using h), List.filter_filter]
      apply List.filter_congr
      intro y _
      by_cases hy : y = x
      · subst hy; simp [h]
      · simp [hy]
    · rw [if_neg h, once_firsts xs, List.filter_cons_of_pos (by simpa using h), List.filter_filter]
      congr 1
      apply List.filter_congr
      intro y _
      simp [List.mem_append, not_or]

theorem firsts_nodup : ∀ {l : List Msg}, l.Nodup → firsts l = l
  | [], _ => rfl
  | x :: xs, h => by
    rw [List.nodup_cons] at h
    unfold firsts
    rw [firsts_nodup h.2, List.filter_eq_self.2]
    intro y hy
    have : y ≠ x := fun e => h.1 (e ▸ hy)
    simpa using this

theorem firsts_sub : ∀ {l : List Msg} {x : Msg}, x ∈ firsts l ↔ x ∈ l
  | [], _ => Iff.rfl
  | y :: ys, x => by
    unfold firsts
    rw [List.mem_cons, List.mem_cons, List.mem_filter, firsts_sub]
    by_cases h : x = y
    · simp [h]
    · simp [h]

theorem react_is_async {cs : List Elem} {l : Loc} {x : Msg} {k : Kind} {r : React} (hl : LocOk cs l) (hk : asyncKind x.1 = some k) (h : react cs l.offset l.step l.cmd l.paths x = .ok r) : r = .async k := by
  unfold react at h
  split at h
  · cases h
  · rename_i ts hp
    split at h
    · cases h
    · rename_i tb htb
      split at h
      · rw [if_neg (by intro e; rw [e] at hk; cases hk), hk] at h
        cases h; rfl
      · rename_i hf
        have := find_not_async (by rw [hl.2, hp]) htb hf
        rw [this] at hk; cases hk

theorem asyncsOf_cons_async {x : Msg} {xs : List Msg} {k : Kind} (h : asyncKind x.1 = some k) : asyncsOf (x :: xs) = x :: asyncsOf xs := by
  unfold asyncsOf; rw [List.filter_cons_of_pos]; rw [h]; rfl
theorem asyncsOf_cons_other {x : Msg} {xs : List Msg} (h : asyncKind x.1 = none) : asyncsOf (x :: xs) = asyncsOf xs := by
  unfold asyncsOf; rw [List.filter_cons_of_neg]; rw [h]; simp

/-- The loop calls the hook with the asynchronous messages it went through, once each. -/
theorem loop_hooks : ∀ (ms : List Msg) (s : Inst) (l : Loc) (s' : Inst) (d : Done), LocOk s.commands l → loop s l ms = (s', .ok d) →
    ∃ n es, d.loc.count = l.count + n ∧ n ≤ ms.length ∧ s'.hookCalls = s.hookCalls ++ es ∧ es.map some = (once s.asyncs (asyncsOf (ms.take n))).map parsed
  | [], s, l, s', d, _, h => by
    cases h
    exact ⟨0, [], rfl, Nat.le_refl _, (List.append_nil _).symm, rfl⟩
  | x :: xs, s, l, s', d, hl, h => by
    rw [loop_cons] at h
    cases hr : react s.commands l.offset l.step l.cmd l.paths x with
    | error e => rw [hr] at h; cases h
    | ok r =>
      rw [hr] at h
      obtain ⟨i, j, _⟩ := react_ok hr
      have other : (∀ k, r ≠ .async k) → asyncKind x.1 = none := by
        intro hn
        cases hk : asyncKind x.1 with
        | none => rfl
        | some k => exact absurd (react_is_async hl hk hr) (hn k)
      have one : (∀ k, r ≠ .async k) → s'.hookCalls = s.hookCalls → d.loc.count = l.count + 1 →
          ∃ n es, d.loc.count = l.count + n ∧ n ≤ (x :: xs).length ∧ s'.hookCalls = s.hookCalls ++ es ∧ es.map some = (once s.asyncs (asyncsOf ((x :: xs).take n))).map parsed := by
        intro hn h1 h2
        refine ⟨1, [], h2, by simp, by rw [h1, List.append_nil], ?_⟩
        rw [List.take_succ_cons, asyncsOf_cons_other (other hn)]
        rfl
      have more : ∀ {s1 : Inst} {l1 : Loc}, (∀ k, r ≠ .async k) → s1.hookCalls = s.hookCalls → s1.asyncs = s.asyncs → l1.count = l.count + 1 →
          (∃ n es, d.loc.count = l1.count + n ∧ n ≤ xs.length ∧ s'.hookCalls = s1.hookCalls ++ es ∧ es.map some = (once s1.asyncs (asyncsOf (xs.take n))).map parsed) →
          ∃ n es, d.loc.count = l.count + n ∧ n ≤ (x :: xs).length ∧ s'.hookCalls = s.hookCalls ++ es ∧ es.map some = (once s.asyncs (asyncsOf ((x :: xs).take n))).map parsed := by
        rintro s1 l1 hn h1 h2 h3 ⟨n, es, k1, k2, k3, k4⟩
        refine ⟨n + 1, es, by rw [k1, h3]; omega, by simpa using k2, by rw [k3, h1], ?_⟩
        rw [List.take_succ_cons, asyncsOf_cons_other (other hn), k4, h2]
      cases r with
      | violation ex => cases h; exact one (by simp) rfl rfl
      | fatal em => cases h; exact one (by simp) rfl rfl
      | lost em => cases h; exact one (by simp) rfl rfl
      | skip em o c p => exact more (by simp) rfl rfl rfl (loop_hooks xs { s with fatal := some false, errorMessage := some (.server em) } { l with count := l.count + 1, offset := o, cmd := c, paths := p, step := 0 } s' d (i _ _ _ _ rfl) h)
      | async kk =>
        dsimp only at h
        have hk := react_async_kind hr
        unfold handleAsync at h
        by_cases hx : x ∈ s.asyncs
        · rw [if_pos hx] at h
          obtain ⟨n, es, k1, k2, k3, k4⟩ := loop_hooks xs s { l with count := l.count + 1 } s' d hl h
          refine ⟨n + 1, es, by rw [k1]; dsimp only; omega, by simpa using k2, k3, ?_⟩
          rw [List.take_succ_cons, asyncsOf_cons_async hk]
          unfold once
          rw [if_pos hx, k4]
        · rw [if_neg hx] at h
          cases hm : parseK kk x.2 with
          | error e => rw [hm] at h; cases h
          | ok m =>
            rw [hm] at h
            dsimp only at h
            obtain ⟨n, es, k1, k2, k3, k4⟩ := loop_hooks xs { s with hookCalls := s.hookCalls ++ [m], asyncs := s.asyncs ++ [x] } { l with count := l.count + 1 } s' d hl h
            refine ⟨n + 1, m :: es, by rw [k1]; dsimp only; omega, by simpa using k2, by rw [k3]; simp, ?_⟩
            rw [List.take_succ_cons, asyncsOf_cons_async hk]
            unfold once
            rw [if_neg hx, List.map_cons, List.map_cons, k4, parsed_kind hk hm]
      | take r n => exact more (by simp) rfl rfl rfl (loop_hooks xs s { l with count := l.count + 1, processed := l.processed ++ [r], step := n } s' d hl h)
      | next r rd o c p =>
        have hc := (frame0_fields (setReady_frame s rd).1).1
        refine more (s1 := setReady s rd) (by simp) (by cases rd <;> rfl) (by cases rd <;> rfl) rfl (loop_hooks xs (setReady s rd) { l with count := l.count + 1, processed := l.processed ++ [r], step := 0, offset := o, cmd := c, paths := some p } s' d (by rw [hc]; exact j _ _ _ _ _ rfl) h)
      | last r rd o =>
        cases h
        exact one (by simp) (by cases rd <;> rfl) rfl

theorem loop_early_state : ∀ (ms : List Msg) (s : Inst) (l l' : Loc) (s' : Inst), loop s l ms = (s', .ok ⟨true, l'⟩) → s'.state = .complete
  | [], _, _, _, _, h => by cases h
  | x :: xs, s, l, l', s', h => by
    rw [loop_cons] at h
    cases hr : react s.commands l.offset l.step l.cmd l.paths x with
    | error e => rw [hr] at h; cases h
    | ok r =>
      rw [hr] at h
      cases r with
      | violation ex => cases h; rfl
      | fatal em => cases h; rfl
      | lost em => cases h; rfl
      | skip em o c p => exact loop_early_state xs _ _ _ _ h
      | async kk =>
        dsimp only at h
        cases ha : handleAsync s kk x with
        | error e => rw [ha] at h; cases h
        | ok s1 => rw [ha] at h; exact loop_early_state xs _ _ _ _ h
      | take r n => exact loop_early_state xs _ _ _ _ h
      | next r rd o c p => exact loop_early_state xs _ _ _ _ h
      | last r rd o => cases h

theorem switchState_hooks (s : Inst) (l : Loc) : (switchState s l).hookCalls = s.hookCalls ∧ (switchState s l).lastId = s.lastId := by
  unfold switchState
  split
  · exact ⟨rfl, rfl⟩
  · split
    · split <;> exact ⟨rfl, rfl⟩
    · exact ⟨rfl, rfl⟩

/-- A delivery calls the hook with the asynchronous messages it consumed, once each. -/
theorem deliver_hooks {s a : Inst} {b : Batch} {n : Nat} (hw : Receiving s) (hid : b.id ≠ s.lastId) (h : deliver s b = (a, .ok n)) :
    ∃ es, a.hookCalls = s.hookCalls ++ es ∧ es.map some = (firsts (asyncsOf (b.msgs.take n))).map parsed ∧ n ≤ b.msgs.length ∧ (Receiving a → n = b.msgs.length ∧ a.lastId = b.id) := by
  have none : ∀ {t : UInt8}, asyncKind t = none → (∀ x ∈ b.msgs, x.1 = t) → asyncsOf b.msgs = [] := by
    intro t ht hx
    unfold asyncsOf
    rw [List.filter_eq_nil_iff]
    intro x hm
    rw [hx x hm, ht]; simp
  rcases deliver_cases s b hw with e | ⟨_, h100, e⟩ | ⟨_, h68, rows, hrows, _, e⟩ | ⟨er, e, _⟩
  · rw [e] at h
    obtain ⟨l, s1, ⟨early, l1⟩, h1, h2, h3, h4⟩ := standardPut_ok (s := { s with state := .receiving .standardPut }) (b := b) hid h
    have hloc := startAt_loc h1
    obtain ⟨m, es, k1, k2, k3, k4⟩ := loop_hooks b.msgs _ l s1 _ hloc.1 h2
    have hm : n = m := by rw [h3, k1, hloc.2.2.2.2]; omega
    subst hm
    dsimp only at h4 k3 k4
    rw [once_firsts] at k4
    have k4 : es.map some = (firsts (asyncsOf (b.msgs.take n))).map parsed := by
      rw [k4, List.filter_eq_self.2 (by simp)]
    rcases h4 with ⟨e1, e2⟩ | ⟨e1, e2⟩
    · subst e1 e2
      refine ⟨es, k3, k4, k2, fun hr => ?_⟩
      obtain ⟨op, ho⟩ := hr
      rw [loop_early_state _ _ _ _ _ h2] at ho
      cases ho
    · subst e1 e2
      refine ⟨es, ?_, k4, k2, fun hr => ⟨?_, ?_⟩⟩
      · unfold finish
        rw [(switchState_hooks _ _).1]
        exact k3
      · rcases loop_locOk b.msgs _ l l1 hloc.1 (by rw [h2]) with q | ⟨_, q⟩
        · exfalso
          obtain ⟨op, ho⟩ := hr
          have hc : s1.commands = s.commands := by
            have hfr := loop_frame0 b.msgs { s with state := .receiving .standardPut, asyncs := [] } l
            rw [h2] at hfr
            exact (frame0_fields hfr.1).1
          unfold finish switchState at ho
          dsimp only at ho
          rw [if_pos (by rw [hc]; exact q)] at ho
          cases ho
        · rw [h3]; dsimp only; rw [q, hloc.2.2.2.2]; omega
      · unfold finish
        rw [(switchState_hooks _ _).2]
  · rw [e] at h
    cases h
    refine ⟨[], (List.append_nil _).symm, ?_, Nat.le_refl _, fun _ => ⟨rfl, rfl⟩⟩
    rw [List.take_length, none (by decide) h100]; rfl
  · rw [e] at h
    cases h
    refine ⟨[], (List.append_nil _).symm, ?_, Nat.le_refl _, fun _ => ⟨rfl, rfl⟩⟩
    rw [List.take_length, none (by decide) h68]; rfl
  · rw [e] at h; cases h

theorem taken_zero : ∀ (bs : List Batch), ∀ ms ∈ taken 0 bs, ms = []
  | [], _, h => by cases h
  | b :: bs, ms, h => by
    unfold taken at h
    rw [List.take_zero, Nat.zero_sub] at h
    rcases List.mem_cons.1 h with h | h
    · exact h
    · exact taken_zero bs ms h

theorem feed_hooks : ∀ (bs : List Batch) (s : Inst) (n : Nat), (bs.map (·.id)).Nodup → (∀ b ∈ bs, b.id ≠ s.lastId) → (feed s bs).2.1 = .ok n →
    ∃ es, (feed s bs).1.hookCalls = s.hookCalls ++ es ∧ es.map some = ((taken n bs).flatMap fun ms => firsts (asyncsOf ms)).map parsed
  | [], s, n, _, _, hn => ⟨[], (List.append_nil _).symm, rfl⟩
  | b :: bs, s, n, h1, h2, hn => by
    have zero : ∀ l : List (List Msg), (∀ ms ∈ l, ms = []) → (l.flatMap fun ms => firsts (asyncsOf ms)) = [] := by
      intro l hl
      rw [List.flatMap_eq_nil_iff]
      intro ms hm
      rw [hl ms hm]; rfl
    unfold feed at hn ⊢
    by_cases hw : Receiving s
    · rw [if_pos hw] at hn ⊢
      cases hd : deliver s b with
      | mk s1 r =>
        rw [hd] at hn
        cases r with
        | error e => cases hn
        | ok m =>
          dsimp only at hn ⊢
          obtain ⟨es, k1, k2, k3, k4⟩ := deliver_hooks hw (h2 b List.mem_cons_self) hd
          cases hr : (feed s1 bs).2.1 with
          | error e => rw [hr] at hn; cases hn
          | ok k =>
            rw [hr] at hn
            cases hn
            by_cases hs1 : Receiving s1
            · obtain ⟨rfl, q⟩ := k4 hs1
              rw [List.map_cons, List.nodup_cons] at h1
              obtain ⟨es', j1, j2⟩ := feed_hooks bs s1 k h1.2 (fun b' hb' => by rw [q]; intro e; exact h1.1 (e ▸ List.mem_map_of_mem hb')) hr
              refine ⟨es ++ es', by rw [j1, k1, List.append_assoc], ?_⟩
              unfold taken
              dsimp only
              rw [List.flatMap_cons, List.map_append, List.map_append, j2, k2, Nat.add_sub_cancel_left]
              rw [List.take_length, List.take_of_length_le (by omega)]
            · have hf := feed_stop (bs := bs) hs1
              rw [hf] at hr ⊢
              cases hr
              refine ⟨es, k1, ?_⟩
              unfold taken
              dsimp only
              rw [Nat.add_zero, List.flatMap_cons, k2, show m - b.msgs.length = 0 by omega, zero _ (taken_zero bs), List.append_nil]
    · rw [if_neg hw] at hn ⊢
      cases hn
      refine ⟨[], (List.append_nil _).symm, ?_⟩
      rw [zero _ (taken_zero _)]; rfl

end PG.Async
