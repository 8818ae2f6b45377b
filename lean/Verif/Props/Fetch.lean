import Verif.Proofs.Fetch2
import Verif.Props.Xact
/-! # Result streams (C42) -/
namespace PG.Fetch
open PG PG.Element3 PG.Xact3 PG.Spec.Xact PG.Spec.Fetch

/-! ## `feed` and `due` -/

theorem standardPut_fatal_mono {s : Inst} {b : Batch} (h : (standardPut s b).1.fatal = none) : s.fatal = none := by
  have hst : (startLoop s b).1.fatal = s.fatal := by
    unfold startLoop
    dsimp only
    split
    · split <;> rfl
    · split
      · split <;> rfl
      · split <;> rfl
  unfold standardPut at h
  rw [← hst]
  cases hsl : startLoop s b with
  | mk s0 r =>
    rw [hsl] at h
    cases r with
    | error e => exact h
    | ok l =>
      dsimp only at h ⊢
      have hm := loop_fatal_mono b.msgs s0 l
      cases hl : loop s0 l b.msgs with
      | mk s1 r1 =>
        rw [hl] at h hm
        cases r1 with
        | error e => exact hm h
        | ok d =>
          obtain ⟨early, l1⟩ := d
          cases early with
          | true => exact hm h
          | false =>
            dsimp only at h
            unfold finish at h
            rw [(switchState_completed _ _).2.1] at h
            exact hm h

theorem deliver_fatal_mono {s : Inst} {b : Batch} (h : (deliver s b).1.fatal = none) : s.fatal = none := by
  by_cases hw : Receiving s
  · rcases deliver_cases s b hw with e | ⟨_, _, e⟩ | ⟨_, _, rows, _, _, e⟩ | ⟨er, e, _⟩
    · rw [e] at h; exact standardPut_fatal_mono (s := { s with state := .receiving .standardPut }) h
    · rw [e] at h; exact h
    · rw [e] at h; exact h
    · rw [e] at h; exact h
  · unfold deliver at h
    split at h
    · rename_i e; exact absurd ⟨_, e⟩ hw
    · rename_i e; exact absurd ⟨_, e⟩ hw
    · rename_i e; exact absurd ⟨_, e⟩ hw
    · exact h

theorem feed_fatal_mono : ∀ (bs : List Batch) (s : Inst), (feed s bs).1.fatal = none → s.fatal = none
  | [], s, h => h
  | b :: bs, s, h => by
    unfold feed at h
    split at h
    · have hm := deliver_fatal_mono (s := s) (b := b)
      cases hd : deliver s b with
      | mk s1 r =>
        rw [hd] at h hm
        cases r with
        | error e => exact hm h
        | ok n => exact hm (feed_fatal_mono bs s1 h)
    · exact h

/-- A reply that completes the transaction without an error gives the rows among its messages. -/
theorem feed_due : ∀ (bs : List Batch) (s : Inst) (n : Nat), Fresh s bs → (feed s bs).2.1 = .ok n → (feed s bs).1.state = .complete → (feed s bs).1.fatal = none →
    due s bs = some (rowsOf ((allMsgs bs).take n)) ∧ n ≤ (allMsgs bs).length
  | [], s, n, _, hn, hc, _ => by
    cases hn
    unfold due
    rw [if_pos (show s.state = .complete from hc)]
    exact ⟨rfl, Nat.zero_le _⟩
  | b :: bs, s, n, hf, hn, hc, hft => by
    unfold feed at hn hc hft
    by_cases hw : Receiving s
    · rw [if_pos hw] at hn hc hft
      have hst : s.state ≠ .complete := by obtain ⟨op, e⟩ := hw; rw [e]; simp
      unfold due
      rw [if_neg hst]
      cases hd : deliver s b with
      | mk s1 r =>
        rw [hd] at hn hc hft
        cases r with
        | error e => cases hn
        | ok m =>
          dsimp only at hn hc hft ⊢
          have hfat := feed_fatal_mono bs s1 hft
          obtain ⟨p, h1, h2, h3, h4, h5⟩ := deliver_data hw (fresh_head hf) hd hfat
          cases hr : (feed s1 bs).2.1 with
          | error e => rw [hr] at hn; cases hn
          | ok k =>
            rw [hr] at hn
            cases hn
            obtain ⟨i1, i2⟩ := feed_due bs s1 k (fresh_next hf h5 h1) hr hc hft
            rw [if_pos hfat, i1]
            have hall : allMsgs (b :: bs) = b.msgs ++ allMsgs bs := by simp [allMsgs]
            rw [hall]
            by_cases hs1 : s1.state = .complete
            · have hk : k = 0 := by
                have : ¬ Receiving s1 := by rintro ⟨op, e⟩; rw [hs1] at e; cases e
                rw [feed_stop this] at hr
                cases hr
                rfl
              subst hk
              refine ⟨?_, by simp only [List.length_append]; omega⟩
              dsimp only
              rw [Nat.add_zero, List.take_append_of_le_length h3]
              simp [rowsOf]
            · have := h4 hs1
              subst this
              refine ⟨?_, by simp only [List.length_append]; omega⟩
              dsimp only
              rw [List.take_length_add_append]
              simp [rowsOf]
    · rw [if_neg hw] at hn hc hft
      cases hn
      unfold due
      rw [if_pos hc]
      exact ⟨rfl, Nat.zero_le _⟩

/-- And conversely. -/
theorem due_feed : ∀ (bs : List Batch) (s : Inst) (R : List Proc), s.fatal = none → due s bs = some R → (feed s bs).1.state = .complete ∧ (feed s bs).1.fatal = none ∧ ∃ n, (feed s bs).2.1 = .ok n
  | [], s, R, hf, h => by
    unfold due at h
    split at h
    · rename_i hc; exact ⟨hc, hf, 0, rfl⟩
    · cases h
  | b :: bs, s, R, hf, h => by
    unfold due at h
    split at h
    · rename_i hc
      rw [feed_stop (by rintro ⟨op, e⟩; rw [hc] at e; cases e)]
      exact ⟨hc, hf, 0, rfl⟩
    · cases hd : deliver s b with
      | mk s1 r =>
        rw [hd] at h
        cases r with
        | error e => cases h
        | ok n =>
          dsimp only at h
          split at h
          · rename_i hfat
            rw [Option.map_eq_some_iff] at h
            obtain ⟨R', h1, _⟩ := h
            obtain ⟨k1, k2, m, k3⟩ := due_feed bs s1 R' hfat h1
            unfold feed
            rw [if_pos (deliver_receiving hd), hd]
            dsimp only
            refine ⟨k1, k2, n + m, ?_⟩
            rw [k3]
            rfl
          · cases h

/-! ## The constructor -/

theorem init_ready (copy : Bool) : ∀ (bs : List Batch) (i : Inst) (R : List Proc) (a : All), Run i → Ready ⟨some i, bs, none⟩ R → init copy i bs = (.fine, a) → Ready a R ∧ size a ≤ size ⟨some i, bs, none⟩
  | [], i, R, a, _, hR, h => by
    unfold init at h
    obtain ⟨_, rfl⟩ := Prod.mk.inj h
    exact ⟨hR, Nat.le_refl _⟩
  | b :: bs, i, R, a, hr, hR, h => by
    unfold init at h
    by_cases hc : i.state = .complete
    · rw [if_pos hc] at h
      obtain ⟨_, rfl⟩ := Prod.mk.inj h
      exact ⟨hR, Nat.le_refl _⟩
    · rw [if_neg hc] at h
      obtain ⟨hfat, hf, R0, hd, hRe⟩ := hR
      dsimp only at hf hd
      obtain ⟨i', n, p, R', e1, e2, e3, e4, _, e6, e7⟩ := due_cons hf hc hd
      rw [e1] at h
      dsimp only at h
      rw [if_neg (by rintro ⟨_, h⟩; exact h e2)] at h
      obtain ⟨hr', _⟩ := deliver_run hr (fresh_head hf) e1 e2
      have hR' : Ready ⟨some i', bs, none⟩ R := ⟨e2, e7, R', e3, by rw [hRe, e6, got_append i i' _ _ e4, List.append_assoc]⟩
      have hsz : size ⟨some i', bs, none⟩ ≤ size ⟨some i, b :: bs, none⟩ := by
        simp only [size, e4, List.length_append, List.length_cons, List.length_nil]
        omega
      have hempty : (firstSeen copy (messagesReceived i') = .null ∨ ∃ p, firstSeen copy (messagesReceived i') = .complete p) → R = [] := by
        intro hs
        obtain ⟨g1, g2⟩ := no_data_at_end hr' hs
        obtain ⟨_, _, R1, k1, k2⟩ := hR'
        dsimp only at k1
        rw [k2, g1, due_after bs i' R1 hr' g2 e7 k1]
        rfl
      cases hs : firstSeen copy (messagesReceived i') with
      | noise =>
        rw [hs] at h
        obtain ⟨q1, q2⟩ := init_ready copy bs i' R a hr' hR' h
        exact ⟨q1, Nat.le_trans q2 hsz⟩
      | data =>
        rw [hs] at h
        obtain ⟨_, rfl⟩ := Prod.mk.inj h
        exact ⟨hR', hsz⟩
      | null =>
        rw [hs] at h
        obtain ⟨_, rfl⟩ := Prod.mk.inj h
        exact ⟨hempty (.inl hs), Nat.zero_le _⟩
      | complete p =>
        rw [hs] at h
        obtain ⟨_, rfl⟩ := Prod.mk.inj h
        exact ⟨hempty (.inr ⟨p, hs⟩), Nat.zero_le _⟩
      | unexpected =>
        rw [hs] at h
        cases (Prod.mk.inj h).1

/-! ## Iteration -/

theorem mapM_append_some {α β : Type} {f : α → Option β} : ∀ {l m : List α} {out : List β}, (l ++ m).mapM f = some out → ∃ a b, l.mapM f = some a ∧ m.mapM f = some b ∧ out = a ++ b
  | [], m, out, h => ⟨[], out, by simp, h, rfl⟩
  | x :: l, m, out, h => by
    rw [List.cons_append, List.mapM_cons] at h
    cases hx : f x with
    | none => rw [hx] at h; cases h
    | some y =>
      rw [hx] at h
      cases hr : (l ++ m).mapM f with
      | none => rw [hr] at h; cases h
      | some r =>
        rw [hr] at h
        cases h
        obtain ⟨a, b, h1, h2, h3⟩ := mapM_append_some hr
        refine ⟨y :: a, b, ?_, h2, by rw [h3]; rfl⟩
        rw [List.mapM_cons, hx, h1]
        rfl

theorem iterate_ready {β : Type} (f : Proc → Option β) : ∀ (ts : List Bool) (a : All) (R : List Proc) (out : List β), Ready a R → size a < ts.length → R.mapM f = some out →
    (iterate (perRow f) ts a).1.flatten = out ∧ (iterate (perRow f) ts a).2.1 = .stop
  | [], a, R, out, _, h, _ => absurd h (by simp)
  | t :: ts, a, R, out, hR, hs, hm => by
    have h0 : Ready (if t then interfere a else a) R ∧ size (if t then interfere a else a) ≤ size a := by
      cases t with
      | true => exact interfere_ready hR
      | false => exact ⟨hR, Nat.le_refl _⟩
    obtain ⟨h1, h2⟩ := h0
    unfold iterate
    generalize (if t then interfere a else a) = a0 at h1 h2
    rcases next_ready (perRow f) h1 with ⟨k1, k2, _⟩ | ⟨c, R', rfl, ⟨r, k2, k3, k4, k5⟩ | ⟨k2, _⟩⟩
    · subst k2
      cases hm
      generalize next (perRow f) a0 = p at k1
      obtain ⟨o, a1⟩ := p
      dsimp only at k1
      subst k1
      exact ⟨rfl, rfl⟩
    · obtain ⟨x, y, m1, m2, rfl⟩ := mapM_append_some hm
      have : x = r := by unfold perRow at k2; rw [m1] at k2; exact Option.some.inj k2
      subst this
      generalize next (perRow f) a0 = p at k3 k4 k5
      obtain ⟨o, a1⟩ := p
      dsimp only at k3 k4 k5
      subst k3
      obtain ⟨i1, i2⟩ := iterate_ready f ts a1 R' y k4 (by simp only [List.length_cons] at hs; omega) m2
      dsimp only
      exact ⟨by rw [List.flatten_cons, i1], i2⟩
    · exfalso
      obtain ⟨x, y, m1, m2, rfl⟩ := mapM_append_some hm
      unfold perRow at k2
      rw [m1] at k2
      cases k2

/-- The transaction of a `FetchAll` after its commands are sent. -/
theorem start_run {cs : List Elem} {s0 : Inst} (h3 : Three cs) (h : Xact3.init cs = .ok s0) : Run (sent s0) ∧ (sent s0).fatal = none ∧ got (sent s0) = [] ∧ (sent s0).completed = [] := by
  unfold Xact3.init at h
  split at h
  · cases h
    refine ⟨⟨h3, ⟨fun e => (by cases e), fun e => (by cases e), fun _ e => (by obtain ⟨_, _, e⟩ := e; cases e)⟩, [], [], rfl, by simp, by simp, fun _ => rfl⟩, rfl, rfl, rfl⟩
  · cases h

/-- **C42 (every row once, in order).** The commands of a `FetchAll` are sent; the server's reply arrives in any batches; it completes the transaction without an error. Then, whatever other statements are executed between the calls of `next()` (`sched`), the stream gives
exactly the decoded rows of the reply, in order, and ends. -/
theorem C42_fetch_all {β : Type} {cs : List Elem} {s0 : Inst} {bs : List Batch} {n : Nat} {a : All} (h3 : Three cs) (h0 : Xact3.init cs = .ok s0) (hf : Fresh (sent s0) bs)
    (hok : (feed (sent s0) bs).2.1 = .ok n) (hc : (feed (sent s0) bs).1.state = .complete) (hft : (feed (sent s0) bs).1.fatal = none)
    (copy : Bool) (hi : init copy (sent s0) bs = (.fine, a)) (f : Proc → Option β) (out : List β) (hm : (rowsOf ((allMsgs bs).take n)).mapM f = some out) (sched : List Bool) (hs : bs.length < sched.length) :
    (iterate (perRow f) sched a).1.flatten = out ∧ (iterate (perRow f) sched a).2.1 = .stop := by
  obtain ⟨hr, hfat, hg, hcomp⟩ := start_run h3 h0
  have hR : Ready ⟨some (sent s0), bs, none⟩ (rowsOf ((allMsgs bs).take n)) := ⟨hfat, hf, _, (feed_due bs _ n hf hok hc hft).1, by rw [hg]; rfl⟩
  obtain ⟨k1, k2⟩ := init_ready copy bs _ _ a hr hR hi
  refine iterate_ready f sched a _ out k1 (Nat.lt_of_le_of_lt k2 ?_) hm
  simp only [size, hcomp, List.length_nil]
  omega

/-- **C42 (a row that cannot be decoded).** It is not skipped: the error is raised again on every further call, and what was due stays due. -/
theorem C42_decode_error {β : Type} (decode : List Proc → Option (List β)) {a : All} {R : List Proc} (h : Ready a R) (hc : (next decode a).1 = .raised) :
    Ready (next decode a).2 R ∧ next decode (next decode a).2 = next decode a := by
  rcases next_ready decode h with ⟨k1, _⟩ | ⟨c, R', _, ⟨r, _, k3, _⟩ | ⟨_, _, k4, k5⟩⟩
  · rw [k1] at hc; cases hc
  · rw [k3] at hc; cases hc
  · exact ⟨k4, k5⟩

/-! ## A stream that ends has given everything -/

theorem steps_fatal_mono (stop : Inst → Bool) : ∀ (bs : List Batch) (i : Inst), (steps stop i bs).1.fatal = none → i.fatal = none
  | [], i, h => by
    unfold steps at h
    split at h
    · exact h
    · exact h
  | b :: bs, i, h => by
    unfold steps at h
    split at h
    · exact h
    · have hm := deliver_fatal_mono (s := i) (b := b)
      cases hd : deliver i b with
      | mk i2 r =>
        rw [hd] at h hm
        cases r with
        | error e => exact hm h
        | ok n =>
          dsimp only at h
          split at h
          · exact hm h
          · exact hm (steps_fatal_mono stop bs i2 h)

theorem feed_swap : ∀ (bs : List Batch) (i : Inst) (c : List (Nat × List Proc)), (bs.map (·.id)).Nodup → (∀ b ∈ bs, ∀ x ∈ i.completed, x.1 ≠ b.id) → (∀ b ∈ bs, ∀ x ∈ c, x.1 ≠ b.id) →
    (feed { i with completed := c } bs).2.1 = (feed i bs).2.1
  | [], i, c, _, _, _ => rfl
  | b :: bs, i, c, hnd, hi, hc => by
    obtain ⟨new, h1, h2, h3⟩ := deliver_swap c i b (hi b List.mem_cons_self) (hc b List.mem_cons_self)
    simp only [List.map_cons, List.nodup_cons, List.mem_map, not_exists, not_and] at hnd
    have hadd : ∀ l : List (Nat × List Proc), (∀ b' ∈ b :: bs, ∀ x ∈ l, x.1 ≠ b'.id) → ∀ b' ∈ bs, ∀ x ∈ l ++ new, x.1 ≠ b'.id := by
      intro l hl x hx y hy
      rcases List.mem_append.mp hy with hy | hy
      · exact hl x (List.mem_cons_of_mem _ hx) y hy
      · rw [h2 y hy]; exact fun e => hnd.1 x hx e.symm
    by_cases hw : Receiving i
    · unfold feed
      rw [if_pos hw, if_pos (show Receiving { i with completed := c } from hw), h3]
      cases hd : deliver i b with
      | mk i1 r =>
        rw [hd] at h1
        cases r with
        | error e => rfl
        | ok n =>
          dsimp only at h1 ⊢
          rw [feed_swap bs i1 (c ++ new) hnd.2 (by rw [h1]; exact hadd _ hi) (hadd _ hc)]
    · rw [feed_stop hw, feed_stop (show ¬ Receiving { i with completed := c } from hw)]

/-- The messages of the reply can all be processed. -/
def Readable (i : Inst) (w : List Batch) : Prop := ∃ n, (feed i w).2.1 = .ok n

/-- The transaction of a stream is not going to end well, or has failed. `calm`: nothing else uses the connection. -/
def Doomed (calm : Bool) (a : All) : Prop :=
  match a.xact with
  | none => False
  | some i => i.fatal ≠ none ∨ (Fresh i a.wire ∧ due i a.wire = none ∧ (calm = false → Readable i a.wire))

theorem deliver_doomed (calm : Bool) {i i' : Inst} {b : Batch} {bs : List Batch} {n : Nat} (c : Option Proc) (hc : i.state ≠ .complete) (hd : deliver i b = (i', .ok n)) (h : Doomed calm ⟨some i, b :: bs, c⟩) :
    Doomed calm ⟨some i', bs, c⟩ := by
  by_cases hf : i'.fatal = none
  · have hi := deliver_fatal_mono (s := i) (b := b) (by rw [hd]; exact hf)
    rcases h with h | ⟨h1, h2, h3⟩
    · exact absurd hi h
    · unfold due at h2
      rw [if_neg hc, hd] at h2
      dsimp only at h2
      rw [if_pos hf] at h2
      have hw := deliver_receiving hd
      obtain ⟨p, e1, e2, e3, e4, e5⟩ := deliver_data hw (fresh_head h1) hd hf
      refine .inr ⟨fresh_next h1 e5 e1, ?_, fun hcalm => ?_⟩
      · cases hdue : due i' bs with
        | none => rfl
        | some R => rw [hdue] at h2; cases h2
      · obtain ⟨m, hm⟩ := h3 hcalm
        dsimp only at hm
        unfold feed at hm
        rw [if_pos hw, hd] at hm
        dsimp only at hm
        cases hr : (feed i' bs).2.1 with
        | ok k => exact ⟨k, hr⟩
        | error e => rw [hr] at hm; cases hm
  · exact .inl hf

theorem steps_doomed (calm : Bool) (stop : Inst → Bool) : ∀ (w : List Batch) (i : Inst) (c : Option Proc), Doomed calm ⟨some i, w, c⟩ →
    Doomed calm ⟨some (steps stop i w).1, (steps stop i w).2.1, c⟩ ∨ (calm = true ∧ (steps stop i w).2.2 ≠ .fine)
  | [], i, c, h => by
    left
    unfold steps
    split <;> exact h
  | b :: bs, i, c, h => by
    by_cases hst : i.state = .complete ∨ stop i = true
    · left
      unfold steps
      rw [if_pos hst]
      exact h
    · by_cases hfin : (steps stop i (b :: bs)).1.fatal = none
      · have hi := steps_fatal_mono stop _ _ hfin
        rcases h with h | ⟨h1, h2, h3⟩
        · exact absurd hi h
        · unfold steps at hfin ⊢
          rw [if_neg hst] at hfin ⊢
          unfold due at h2
          rw [if_neg (fun e => hst (.inl e))] at h2
          cases hd : deliver i b with
          | mk i1 r =>
            rw [hd] at hfin h2
            cases r with
            | error e =>
              cases calm with
              | true => right; exact ⟨rfl, by simp⟩
              | false =>
                obtain ⟨n, hn⟩ := h3 rfl
                dsimp only at hn
                unfold feed at hn
                split at hn
                · rw [hd] at hn; cases hn
                · rename_i hw
                  have hnot : ∀ b, deliver i b = (i, .error .runtimeError) := by
                    intro b
                    unfold deliver
                    split
                    · rename_i e; exact absurd ⟨_, e⟩ hw
                    · rename_i e; exact absurd ⟨_, e⟩ hw
                    · rename_i e; exact absurd ⟨_, e⟩ hw
                    · rfl
                  rw [hnot b] at hd
                  cases hd
                  left
                  right
                  refine ⟨⟨?_, fun x hx => h1.2 x (List.mem_cons_of_mem _ hx)⟩, ?_, fun _ => ⟨0, by rw [feed_stop hw]⟩⟩
                  · have := h1.1
                    simp only [List.map_cons, List.nodup_cons] at this
                    exact this.2
                  · dsimp only
                    unfold due
                    split
                    · rw [if_neg (fun e => hst (.inl e))]
                    · rw [if_neg (fun e => hst (.inl e)), hnot]
            | ok n =>
              dsimp only at hfin h2 ⊢
              by_cases hcf : i1.state = .complete ∧ i1.fatal ≠ none
              · rw [if_pos hcf] at hfin
                exact absurd hfin hcf.2
              · rw [if_neg hcf] at hfin ⊢
                exact steps_doomed calm stop bs i1 c (deliver_doomed calm c (fun e => hst (.inl e)) hd (.inr ⟨h1, by unfold due; rw [if_neg (fun e => hst (.inl e)), hd]; exact h2, h3⟩))
      · exact .inl (.inl hfin)

theorem steps_fine (stop : Inst → Bool) : ∀ (bs : List Batch) (i : Inst), (steps stop i bs).2.2 = .fine → (steps stop i bs).1.state = .complete ∨ stop (steps stop i bs).1 = true
  | [], i, h => by
    unfold steps at h ⊢
    split
    · assumption
    · rename_i e; rw [if_neg e] at h; cases h
  | b :: bs, i, h => by
    unfold steps at h ⊢
    split
    · assumption
    · rename_i e
      rw [if_neg e] at h
      cases hd : deliver i b with
      | mk i1 r =>
        rw [hd] at h
        cases r with
        | error e => cases h
        | ok n =>
          dsimp only at h ⊢
          split
          · rename_i e; rw [if_pos e] at h; cases h
          · rename_i e; rw [if_neg e] at h; exact steps_fine stop bs i1 h

theorem next_doomed {β : Type} (calm : Bool) (decode : List Proc → Option (List β)) {a : All} (h : Doomed calm a) :
    (next decode a).1 ≠ .stop ∧ (∀ r, (next decode a).1 = .chunk r → Doomed calm (next decode a).2) := by
  unfold next
  cases hx : a.xact with
  | none => unfold Doomed at h; rw [hx] at h; exact h.elim
  | some i =>
    dsimp only
    have hd := steps_doomed calm (fun x => !x.completed.isEmpty) a.wire i a.complete (by
      unfold Doomed at h ⊢
      rw [hx] at h
      exact h)
    have hst := steps_fine (fun x => !x.completed.isEmpty) a.wire i
    cases hs : steps (fun x => !x.completed.isEmpty) i a.wire with
    | mk i' r =>
      obtain ⟨w, o⟩ := r
      rw [hs] at hd hst
      cases o with
      | blocked => exact ⟨by simp, fun r e => by cases e⟩
      | raised => exact ⟨by simp, fun r e => by cases e⟩
      | fine =>
        dsimp only at hd ⊢
        have hst := hst rfl
        dsimp only at hst
        rcases hd with hd | ⟨_, hd⟩
        · by_cases hf : i'.fatal = none
          · rw [if_neg (by rw [hf]; simp)]
            rcases hd with hd | ⟨d1, d2, d3⟩
            · exact absurd hf hd
            · dsimp only at d1 d2 d3
              cases hc : i'.completed with
              | nil =>
                exfalso
                rw [hc] at hst
                rcases hst with e | e
                · unfold due at d2
                  split at d2
                  · rw [if_pos e] at d2; cases d2
                  · rw [if_pos e] at d2; cases d2
                · cases e
              | cons m rest =>
                dsimp only
                cases decode (m.2.filter isData) with
                | none => exact ⟨by simp, fun r e => by cases e⟩
                | some r =>
                  refine ⟨by simp, fun _ _ => ?_⟩
                  have hsub : ∀ x ∈ w, ∀ y ∈ rest, y.1 ≠ x.id := fun x hx y hy => (d1.2 x hx).2.2 y (by rw [hc]; exact List.mem_cons_of_mem _ hy)
                  right
                  refine ⟨⟨d1.1, fun x hx => ⟨(d1.2 x hx).1, (d1.2 x hx).2.1, fun y hy => hsub x hx y hy⟩⟩, ?_, fun hcalm => ?_⟩
                  · dsimp only
                    rw [due_swap w i' rest d1 hsub]
                    exact d2
                  · obtain ⟨n, hn⟩ := d3 hcalm
                    exact ⟨n, by dsimp only; rw [feed_swap w i' rest d1.1 (fun x hx => (d1.2 x hx).2.2) hsub]; exact hn⟩
          · rw [if_pos hf]
            exact ⟨by simp, fun r e => by cases e⟩
        · exact absurd rfl hd

theorem steps_fine_fatal : ∀ (bs : List Batch) (i : Inst), ¬ (i.state = .complete ∧ i.fatal ≠ none) → (steps (fun _ => false) i bs).2.2 = .fine → (steps (fun _ => false) i bs).1.fatal = none
  | [], i, hn, h => by
    unfold steps at h ⊢
    split
    · rename_i e
      rcases e with e | e
      · exact Decidable.byContradiction fun hf => hn ⟨e, hf⟩
      · cases e
    · rename_i e; rw [if_neg e] at h; cases h
  | b :: bs, i, hn, h => by
    unfold steps at h ⊢
    split
    · rename_i e
      rcases e with e | e
      · exact Decidable.byContradiction fun hf => hn ⟨e, hf⟩
      · cases e
    · rename_i e
      rw [if_neg e] at h
      cases hd : deliver i b with
      | mk i1 r =>
        rw [hd] at h
        cases r with
        | error e => cases h
        | ok n =>
          dsimp only at h ⊢
          split
          · rename_i e; rw [if_pos e] at h; cases h
          · rename_i e; rw [if_neg e] at h; exact steps_fine_fatal bs i1 e h

theorem interfere_doomed {a : All} (h : Doomed false a) : Doomed false (interfere a) := by
  unfold interfere
  cases hx : a.xact with
  | none => unfold Doomed at h; rw [hx] at h; exact h.elim
  | some i =>
    rcases steps_doomed false (fun _ => false) a.wire i a.complete (by unfold Doomed at h ⊢; rw [hx] at h; exact h) with h | ⟨h, _⟩
    · exact h
    · cases h

theorem iterate_doomed {β : Type} (calm : Bool) (decode : List Proc → Option (List β)) : ∀ (ts : List Bool) (a : All), (calm = true → ∀ t ∈ ts, t = false) → Doomed calm a → (iterate decode ts a).2.1 ≠ .stop
  | [], a, _, _ => by unfold iterate; simp
  | t :: ts, a, ht, h => by
    have h0 : Doomed calm (if t then interfere a else a) := by
      cases t with
      | false => exact h
      | true =>
        cases calm with
        | true => have := ht rfl true List.mem_cons_self; cases this
        | false => exact interfere_doomed h
    unfold iterate
    generalize (if t then interfere a else a) = a0 at h0
    obtain ⟨k1, k2⟩ := next_doomed calm decode h0
    generalize next decode a0 = p at k1 k2
    obtain ⟨o, a1⟩ := p
    cases o with
    | chunk r => exact iterate_doomed calm decode ts a1 (fun hc t h => ht hc t (List.mem_cons_of_mem _ h)) (k2 r rfl)
    | stop => exact absurd rfl k1
    | raised => simp
    | blocked => simp

theorem init_doomed (calm copy : Bool) : ∀ (bs : List Batch) (i : Inst) (a : All), Doomed calm ⟨some i, bs, none⟩ → init copy i bs = (.fine, a) → Doomed calm a
  | [], i, a, h, hi => by
    unfold init at hi
    obtain ⟨_, rfl⟩ := Prod.mk.inj hi
    exact h
  | b :: bs, i, a, h, hi => by
    unfold init at hi
    by_cases hc : i.state = .complete
    · rw [if_pos hc] at hi
      obtain ⟨_, rfl⟩ := Prod.mk.inj hi
      exact h
    · rw [if_neg hc] at hi
      cases hd : deliver i b with
      | mk i' r =>
        rw [hd] at hi
        cases r with
        | error e => cases (Prod.mk.inj hi).1
        | ok n =>
          dsimp only at hi
          by_cases hcf : i'.state = .complete ∧ i'.fatal ≠ none
          · rw [if_pos hcf] at hi
            cases (Prod.mk.inj hi).1
          · rw [if_neg hcf] at hi
            have h' : Doomed calm ⟨some i', bs, none⟩ := deliver_doomed calm none hc hd h
            have hend : ∀ o, (steps (fun _ => false) i' bs).2.2 = .fine → Doomed calm ⟨none, (steps (fun _ => false) i' bs).2.1, o⟩ := by
              intro o hfine
              exfalso
              have h1 := steps_fine _ _ _ hfine
              have h2 := steps_fine_fatal bs i' hcf hfine
              rcases steps_doomed calm (fun _ => false) bs i' none h' with h | ⟨_, h⟩
              · rcases h with h | ⟨_, h, _⟩
                · exact h h2
                · rcases h1 with e | e
                  · dsimp only at h
                    unfold due at h
                    split at h
                    · rw [if_pos e] at h; cases h
                    · rw [if_pos e] at h; cases h
                  · cases e
              · exact h hfine
            cases hs : firstSeen copy (messagesReceived i') with
            | noise =>
              rw [hs] at hi
              exact init_doomed calm copy bs i' a h' hi
            | data =>
              rw [hs] at hi
              obtain ⟨_, rfl⟩ := Prod.mk.inj hi
              exact h'
            | null =>
              rw [hs] at hi
              obtain ⟨h1, rfl⟩ := Prod.mk.inj hi
              exact hend _ h1
            | complete p =>
              rw [hs] at hi
              obtain ⟨h1, rfl⟩ := Prod.mk.inj hi
              exact hend _ h1
            | unexpected =>
              rw [hs] at hi
              cases (Prod.mk.inj hi).1

/-- **C42 (a stream that ends has ended well).** If iteration over the stream ends without an exception, then the reply was complete, without an error from the server, and could be read to its end: by `C42_fetch_all` all its rows have been given.
Unless nothing else uses the connection in between, the reply is taken to be readable (a protocol violation in a batch that another statement's `_pq_push` consumed is raised there). -/
theorem C42_stop {β : Type} {cs : List Elem} {s0 : Inst} {bs : List Batch} {a : All} (h3 : Three cs) (h0 : Xact3.init cs = .ok s0) (hf : Fresh (sent s0) bs) (copy : Bool) (hi : init copy (sent s0) bs = (.fine, a))
    (decode : List Proc → Option (List β)) (sched : List Bool) (hq : (∀ t ∈ sched, t = false) ∨ ∃ n, (feed (sent s0) bs).2.1 = .ok n) (hstop : (iterate decode sched a).2.1 = .stop) :
    (feed (sent s0) bs).1.state = .complete ∧ (feed (sent s0) bs).1.fatal = none ∧ ∃ n, (feed (sent s0) bs).2.1 = .ok n := by
  obtain ⟨_, hfat, _⟩ := start_run h3 h0
  cases hdue : due (sent s0) bs with
  | some R => exact due_feed bs _ R hfat hdue
  | none =>
    exfalso
    rcases hq with hq | hq
    · exact iterate_doomed true decode sched a (fun _ => hq) (init_doomed true copy bs _ a (.inr ⟨hf, hdue, fun h => by cases h⟩) hi) hstop
    · exact iterate_doomed false decode sched a (fun h => by cases h) (init_doomed false copy bs _ a (.inr ⟨hf, hdue, fun _ => hq⟩) hi) hstop

/-! ### Concrete replies -/

/-- Bind, Execute, Synchronize. -/
def demoCommands : List Elem := [.bind [] [115] [] [] [], .execute [] 0, .empty .synchronize]

/-- Three rows in four batches. -/
def demoWire : List Batch := [⟨1, [(50, []), Props.Xact.row 1]⟩, ⟨2, [Props.Xact.note, Props.Xact.row 2]⟩, ⟨3, [Props.Xact.row 3]⟩, ⟨4, [(67, [67, 0]), (90, [73])]⟩]

/-- The second batch brings an error. -/
def failWire : List Batch := [⟨1, [(50, []), Props.Xact.row 1]⟩, ⟨2, [Props.Xact.row 2, Props.Xact.errorMsg [69, 82, 82, 79, 82], (90, [73])]⟩]

theorem demo_init : Xact3.init demoCommands = .ok { Props.Xact.demo with commands := demoCommands, messages := .commands, state := .sending .standardSent } := by decide

/-- What a row of the examples is decoded to. -/
def demoDecode : Proc → Option (Option Bytes)
  | .elem (.tuple [x]) => some x
  | _ => none

example : let s0 : Inst := { Props.Xact.demo with commands := demoCommands, messages := .commands, state := .sending .standardSent }
    Three demoCommands ∧ Fresh (sent s0) demoWire ∧ (feed (sent s0) demoWire).2.1 = .ok 7 ∧ (feed (sent s0) demoWire).1.state = .complete ∧ (feed (sent s0) demoWire).1.fatal = none ∧
    (init false (sent s0) demoWire).1 = .fine ∧ (rowsOf ((allMsgs demoWire).take 7)).mapM demoDecode = some [some [1], some [2], some [3]] ∧
    (iterate (perRow demoDecode) [false, true, false, false, true] (init false (sent s0) demoWire).2).1.flatten = [some [1], some [2], some [3]] := by
  refine ⟨⟨rfl, ⟨_, rfl, by decide⟩, ⟨_, rfl, by decide⟩, ⟨_, rfl, by decide⟩⟩, ⟨by decide, ?_⟩, by decide, by decide, by decide, by decide, by decide, by decide⟩
  intro b hb
  simp [demoWire] at hb
  rcases hb with rfl | rfl | rfl | rfl <;> exact ⟨by simp, by simp [sent, Props.Xact.demo], fun c hc => by cases hc⟩

/-- The stream of the failing reply raises instead of ending; the row before the error is given if it came in an earlier batch. -/
example : let s0 : Inst := { Props.Xact.demo with commands := demoCommands, messages := .commands, state := .sending .standardSent }
    (init false (sent s0) failWire).1 = .fine ∧ (feed (sent s0) failWire).1.fatal = some false ∧
    (iterate (perRow demoDecode) [false, false, false] (init false (sent s0) failWire).2).1 = [[some [1]]] ∧ (iterate (perRow demoDecode) [false, false, false] (init false (sent s0) failWire).2).2.1 = .raised ∧
    (iterate (perRow demoDecode) [true, false, false] (init false (sent s0) failWire).2).2.1 = .raised := by decide

/-- A row that cannot be decoded: the same exception for ever. -/
example : let s0 : Inst := { Props.Xact.demo with commands := demoCommands, messages := .commands, state := .sending .standardSent }
    let a := (init false (sent s0) demoWire).2
    (next (perRow fun _ => (none : Option Nat)) a).1 = .raised ∧ (next (perRow fun _ => (none : Option Nat)) (next (perRow fun _ => (none : Option Nat)) a).2).1 = .raised := by decide

end PG.Fetch
