import Verif.Spec.Manager
import Verif.Proofs.Transfer4
/-!
# Iterating over a `CopyManager`: invariants
-/
namespace PG.Manager
open PG PG.Element3 PG.Client3 PG.Lifecycle PG.CopyReceiver PG.Props.CopyReceiver PG.Spec PG.Spec.Copy PG.Spec.Manager PG.CopyTo PG.Transfer

/-! ## Lists -/

theorem each_set {α β : Type} {R : α → β → Prop} : ∀ {as : List α} {bs : List β} {i : Nat} {b : β}, Each R as bs → (∀ a, as[i]? = some a → R a b) → Each R as (bs.set i b)
  | _, _, _, _, .nil, _ => .nil
  | _, _, 0, _, .cons _ t, h => .cons (h _ rfl) t
  | _, _, i + 1, _, .cons k t, h => .cons k (each_set (i := i) t h)

theorem each_some {α β : Type} {R : α → β → Prop} : ∀ {as : List α} {bs : List β} {i : Nat} {b : β}, Each R as bs → bs[i]? = some b → ∃ a, as[i]? = some a
  | _, _, i, _, .nil, h => by cases i <;> cases h
  | a :: _, _, 0, _, .cons _ t, h => ⟨a, rfl⟩
  | _, _, i + 1, _, .cons k t, h => each_some (i := i) t h

/-! ## Dropping -/

theorem serveAll_dropped : ∀ {ss ss' : List Slot} {v : Svc} {i : Nat} {s s' : Slot}, serveAll ss = (ss', v) → ss[i]? = some s → ss'[i]? = some s' → s.active = true → s'.active = false →
    s' = { rcv := (transmit s.rcv).1, active := false }
  | [], _, _, i, _, _, _, h, _, _, _ => by cases i <;> cases h
  | x :: ss, ss', v, i, s, s', h, hs, hs', ha, hb => by
    unfold serveAll at h
    cases hy : serveAll ss with
    | mk w z =>
      rw [hy] at h
      have rest : ∀ y, ss' = y :: w → i ≠ 0 → s' = { rcv := (transmit s.rcv).1, active := false } := by
        intro y he hi
        subst he
        cases i with
        | zero => exact absurd rfl hi
        | succ i => exact serveAll_dropped (i := i) hy hs hs' ha hb
      have same : ∀ y, ss' = y :: ss → i ≠ 0 → False := by
        intro y he hi
        subst he
        cases i with
        | zero => exact absurd rfl hi
        | succ i =>
          have e1 : ss[i]? = some s := hs
          have e2 : ss[i]? = some s' := hs'
          rw [e1] at e2
          cases e2
          rw [ha] at hb
          cases hb
      have keep : ∀ (w2 : List Slot) (r : Rcv), ss' = { x with rcv := r } :: w2 → i = 0 → False := by
        intro w2 r he hi
        subst he hi
        cases hs
        cases hs'
        rw [show ({ x with rcv := r } : Slot).active = x.active from rfl, ha] at hb
        cases hb
      by_cases hx : x.active = true
      · rw [if_pos hx] at h
        cases hz : transmit x.rcv with
        | mk r res =>
          rw [hz] at h
          have drop : ss' = { rcv := r, active := false } :: w → s' = { rcv := (transmit s.rcv).1, active := false } := by
            intro he
            by_cases hi : i = 0
            · subst he hi
              cases hs
              cases hs'
              rw [hz]
            · exact rest _ he hi
          cases res with
          | ret u =>
            cases u
            cases h
            by_cases hi : i = 0
            · exact (keep _ _ rfl hi).elim
            · exact rest _ rfl hi
          | blocked => cases h; by_cases hi : i = 0; exact (keep _ _ rfl hi).elim; exact (same _ rfl hi).elim
          | raised e =>
            cases e with
            | py e => cases h; exact drop rfl
            | sock k =>
              cases k with
              | interrupt => cases h; by_cases hi : i = 0; exact (keep _ _ rfl hi).elim; exact (same _ rfl hi).elim
              | tryAgain => cases h; exact drop rfl
              | fatal => cases h; exact drop rfl
              | unclear => cases h; exact drop rfl
              | other => cases h; exact drop rfl
      · rw [if_neg hx] at h
        cases h
        by_cases hi : i = 0
        · exact (keep w x.rcv rfl hi).elim
        · exact rest _ rfl hi

theorem mem_dropped {ss ss' : List Slot} {i : Nat} (h : i ∈ droppedOf ss ss') : ∃ s s', ss[i]? = some s ∧ ss'[i]? = some s' ∧ s.active = true ∧ s'.active = false := by
  unfold droppedOf at h
  have h := (List.mem_filter.1 h).2
  cases h1 : ss[i]? with
  | none => rw [h1] at h; cases h
  | some s =>
    cases h2 : ss'[i]? with
    | none => rw [h1, h2] at h; cases h
    | some s' =>
      rw [h1, h2] at h
      dsimp only at h
      refine ⟨s, s', rfl, rfl, ?_, ?_⟩
      · cases ha : s.active with
        | true => rfl
        | false => rw [ha] at h; cases h
      · cases ha : s'.active with
        | true => rw [ha] at h; cases hb : s.active <;> rw [hb] at h <;> cases h
        | false => rfl

/-! ## The invariant -/

/-- Between two operations: `pub` has been published, and given to every receiver in the set and to those dropped by the latest `next`. -/
structure Inv (cs : List Elem) (rows : List Bytes) (e : Bool) (ds : List Dest) (x : Ses) (pub : Bytes) (t : Nat) (recent : List Nat) : Prop where
  ok : Ok cs x.mgr.prod pub rows e t
  flow : Each (FlowR pub) ds x.mgr.slots
  fresh : ∀ i ∈ recent, ∀ d s, ds[i]? = some d → x.mgr.slots[i]? = some s → Flow pub d { s with active := true }

theorem transmit_nil {r : Rcv} (h : r.view = []) : (transmit r).1.view = [] := by
  unfold transmit
  split
  · rename_i c _
    rw [h]
    have : sendLoop (plug r.db.socket c).sends [] c.wire = ((plug r.db.socket c).sends, [], c.wire, .ret ()) := by
      unfold sendLoop
      cases (plug r.db.socket c).sends with
      | nil => rfl
      | cons a as => cases a <;> rfl
    rw [this]
  · exact h

variable {cs : List Elem} {rows : List Bytes} {e : Bool} {ds : List Dest}

/-- `reconcile`. -/
theorem reconcile_inv {x x' : Ses} {pub : Bytes} {t i : Nat} {recent : List Nat} {o : Out} (h : Inv cs rows e ds x pub t recent)
    (hi : i ∈ recent ∨ ∃ s, x.mgr.slots[i]? = some s ∧ s.active = true) (ho : reconcile i x = (x', o)) :
    Inv cs rows e ds x' pub t recent ∧ x'.mgr.prod = x.mgr.prod ∧ x'.stats = x.stats ∧ x'.mgr.seen = x.mgr.seen ∧ (∀ m b, o ≠ .progress m b) ∧ o ≠ .stop ∧ o ≠ .producerFault := by
  unfold reconcile at ho
  cases hs : x.mgr.slots[i]? with
  | none => rw [hs] at ho; cases ho; exact ⟨h, rfl, rfl, rfl, by simp, by simp, by simp⟩
  | some s =>
    rw [hs] at ho
    dsimp only at ho
    obtain ⟨d, hd⟩ := each_some h.flow hs
    have hfs := h.flow.at hd hs
    have hfl : s.left = none := by obtain ⟨⟨_, _, _, _, _, _, _, k⟩, _⟩ := hfs; exact k
    have hX : Flow pub d { s with active := true } := by
      rcases hi with hi | ⟨s', h1, h2⟩
      · exact h.fresh i hi d s hd hs
      · rw [hs] at h1; cases h1
        have : ({ s with active := true } : Slot) = s := by rw [← h2]
        rw [this]; exact hfs.1
    have hT : Flow pub d { s with rcv := (transmit s.rcv).1, active := true } := by
      have := flow_transmit (b := true) hX (fun _ => rfl)
      rw [hfl]
      exact this
    have hT2 : Flow pub d { s with rcv := (transmit s.rcv).1 } := by
      have := flow_transmit (b := s.active) hfs.1 (fun h => h)
      rw [hfl]
      exact this
    -- a slot is replaced by one that was given the same
    have repl : ∀ s2 : Slot, FlowR pub d s2 → Flow pub d { s2 with active := true } → Inv cs rows e ds { x with mgr := { x.mgr with slots := x.mgr.slots.set i s2 } } pub t recent := by
      intro s2 k1 k2
      refine ⟨h.ok, each_set h.flow (fun a ha => by rw [hd] at ha; cases ha; exact k1), fun j hj d' s' hd' hs' => ?_⟩
      by_cases hji : j = i
      · subst hji
        rw [hd] at hd'
        cases hd'
        have hlt : j < x.mgr.slots.length := by
          by_cases hlt : j < x.mgr.slots.length
          · exact hlt
          · rw [List.getElem?_eq_none (Nat.le_of_not_lt hlt)] at hs; cases hs
        have : (x.mgr.slots.set j s2)[j]? = some s2 := by rw [List.getElem?_set_self hlt]
        have hs'' : (x.mgr.slots.set j s2)[j]? = some s' := hs'
        rw [this] at hs''
        cases hs''
        exact k2
      · have hs'' : (x.mgr.slots.set i s2)[j]? = some s' := hs'
        rw [List.getElem?_set_ne (fun h => hji h.symm)] at hs''
        exact h.fresh j hj d' s' hd' hs''
    have stay : Inv cs rows e ds { x with mgr := { x.mgr with slots := x.mgr.slots.set i { s with rcv := (transmit s.rcv).1 } } } pub t recent :=
      repl _ ⟨hT2, fun ha => transmit_nil (hfs.2 ha)⟩ hT
    cases hz : transmit s.rcv with
    | mk r res =>
      rw [hz] at ho stay hT
      cases res with
      | ret u =>
        cases u
        cases ho
        exact ⟨repl _ ⟨hT, fun _ => transmit_ret hz⟩ hT, rfl, rfl, rfl, by simp, by simp, by simp⟩
      | blocked => cases ho; exact ⟨stay, rfl, rfl, rfl, by simp, by simp, by simp⟩
      | raised er =>
        cases er with
        | py _ => cases ho; exact ⟨stay, rfl, rfl, rfl, by simp, by simp, by simp⟩
        | sock k => cases k <;> cases ho <;> exact ⟨stay, rfl, rfl, rfl, by simp, by simp, by simp⟩

/-- The rows of which everything was published are determined by what was published. -/
theorem counts_unique {pub : Bytes} {a b : List Bytes} (ha : a <+: rows) (hb : b <+: rows) (h1 : copyFrames a <+: pub) (h2 : copyFrames b <+: pub)
    (m1 : ∀ more, a ++ [more] <+: rows → ¬ copyFrames (a ++ [more]) <+: pub) (m2 : ∀ more, b ++ [more] <+: rows → ¬ copyFrames (b ++ [more]) <+: pub) : a = b := by
  have key : ∀ {a b : List Bytes}, a <+: b → b <+: rows → copyFrames b <+: pub → (∀ more, a ++ [more] <+: rows → ¬ copyFrames (a ++ [more]) <+: pub) → a = b := by
    rintro a b ⟨z, rfl⟩ hb h2 m1
    cases z with
    | nil => rw [List.append_nil]
    | cons y ys =>
      exfalso
      have : a ++ [y] <+: a ++ y :: ys := ⟨ys, by simp⟩
      refine m1 y (this.trans hb) (List.IsPrefix.trans ?_ h2)
      obtain ⟨w, hw⟩ := this
      rw [← hw, CopyMan.copyFrames_append (a ++ [y])]
      exact List.prefix_append _ _
  rcases List.prefix_or_prefix_of_prefix ha hb with h | h
  · exact key h hb h2 m1
  · exact (key h ha h1 m2).symm

/-- The totals of the producer. -/
def totals (x : Ses) : Int × Int := (x.mgr.prod.prod.totalMessages, x.mgr.prod.prod.totalBytes)

/-- What a `next` comes to. -/
inductive Next (cs : List Elem) (rows : List Bytes) (e : Bool) (ds : List Dest) (x' : Ses) : Out → Prop where
  | progress {pub t a b} : Inv cs rows e ds x' pub t [] → Next cs rows e ds x' (.progress a b)
  | fault {pub t l} : Inv cs rows e ds x' pub t l → Next cs rows e ds x' (.receiverFault l)
  | ended : e = false → Ended x'.mgr.prod (copyFrames rows) rows → x'.mgr.seen = true → Each (FlowR (copyFrames rows)) ds x'.mgr.slots → noneLeft x'.mgr = false →
      Next cs rows e ds x' .stop
  | nobody {pub t} : noneLeft x'.mgr = true → Ok cs x'.mgr.prod pub rows e t → Each (FlowR pub) ds x'.mgr.slots → Next cs rows e ds x' .stop
  | raised {pub t} : e = true → Ok cs x'.mgr.prod pub rows e t → Each (FlowR pub) ds x'.mgr.slots → Next cs rows e ds x' .producerFault
  | blocked {pub} : pub <+: copyFrames rows → Each (Flow pub) ds x'.mgr.slots → Next cs rows e ds x' .blocked
  | interrupted {pub} : pub <+: copyFrames rows → Each (Flow pub) ds x'.mgr.slots → Next cs rows e ds x' .interrupted

theorem next_inv (hcs : Cmds cs) (hrf : ∀ row ∈ rows, row.length + 4 < 2147483648) {x x' : Ses} {pub : Bytes} {t : Nat} {recent : List Nat} {o : Out} (h : Inv cs rows e ds x pub t recent)
    (ho : next x = (x', o)) : Next cs rows e ds x' o := by
  unfold next at ho
  cases hsp : serviceProducer x.mgr with
  | mk m1 v1 =>
    rw [hsp] at ho
    unfold serviceProducer at hsp
    by_cases hn : noneLeft x.mgr = true
    · rw [if_pos hn] at hsp
      cases hsp
      cases ho
      exact .nobody hn h.ok h.flow
    · rw [if_neg hn] at hsp
      rcases next_ok hcs h.ok hrf with ⟨y, p', t', h1, h2, h3⟩ | ⟨p', h1, h2, h3⟩ | ⟨p', t', h1, h2, h3⟩
      · rw [h1] at hsp
        cases hsp
        dsimp only at ho
        unfold serviceReceivers at ho
        dsimp only at ho
        have hacc := accept_each (v := y) h.flow
        generalize (x.mgr.slots.map fun s => if s.active then { s with rcv := accept y s.rcv } else s) = ss1 at ho hacc
        cases hz : serveAll ss1 with
        | mk ss v2 =>
          rw [hz] at ho
          obtain ⟨k1, k2, _, k4, k5⟩ := serve_flow hacc hz
          cases v2 with
          | ok =>
            cases ho
            exact .progress (pub := pub ++ y) (t := t') ⟨h2, k2 (.inl rfl), fun i hi => by cases hi⟩
          | stop => exact absurd rfl k4
          | producerFault => exact absurd rfl k5
          | receiverFault =>
            cases ho
            refine .fault (pub := pub ++ y) (t := t') ⟨h2, k2 (.inr rfl), fun i hi d s hd hs => ?_⟩
            · obtain ⟨s0, s1, q1, q2, q3, q4⟩ := mem_dropped hi
              have hs : ss[i]? = some s := hs
              rw [hs] at q2
              cases q2
              have := serveAll_dropped hz q1 hs q3 q4
              rw [this]
              exact flow_transmit (b := true) (hacc.at hd q1) (fun _ => q3)
          | blocked => cases ho; exact .blocked (ok_prefix h2).1 k1
          | interrupted => cases ho; exact .interrupted (ok_prefix h2).1 k1
      · rw [h1] at hsp
        cases hsp
        cases ho
        have := h3.all
        subst this
        refine .ended h2 h3 rfl h.flow ?_
        show noneLeft x.mgr = false
        cases hb : noneLeft x.mgr with
        | true => exact absurd hb hn
        | false => rfl
      · rw [h1] at hsp
        cases hsp
        cases ho
        exact .raised h2 (.inl h3) h.flow

theorem totals_ok {p : SP} {pub : Bytes} {t : Nat} (h : Ok cs p pub rows e t) : ∃ done, (p.prod.totalMessages = done.length ∧ p.prod.totalBytes = pub.length) ∧ done <+: rows ∧ copyFrames done <+: pub ∧
    ∀ more, done ++ [more] <+: rows → ¬ copyFrames (done ++ [more]) <+: pub := by
  obtain ⟨_, done, c1, c2, c3, c4⟩ := ok_prefix h
  exact ⟨done, ⟨c2.messages, c2.bytes⟩, c1, c3, c4⟩

/-- The progress is the difference of the totals. -/
theorem next_adds (hcs : Cmds cs) (hrf : ∀ row ∈ rows, row.length + 4 < 2147483648) {x x' : Ses} {pub : Bytes} {t : Nat} {recent : List Nat} {o : Out} (h : Inv cs rows e ds x pub t recent)
    (ho : next x = (x', o)) : (adds [o]).1 + x'.stats.1 = (totals x').1 - (totals x).1 + x.stats.1 ∧ (adds [o]).2 + x'.stats.2 = (totals x').2 - (totals x).2 + x.stats.2 := by
  have same : ∀ m : Mgr, m.prod.prod.totalMessages = x.mgr.prod.prod.totalMessages → m.prod.prod.totalBytes = x.mgr.prod.prod.totalBytes → ∀ o, adds [o] = (0, 0) → ({ x with mgr := m }, o) = (x', o) →
      (adds [o]).1 + x'.stats.1 = (totals x').1 - (totals x).1 + x.stats.1 ∧ (adds [o]).2 + x'.stats.2 = (totals x').2 - (totals x).2 + x.stats.2 := by
    intro m k1 k2 o k3 hh
    injection hh with hh _
    subst hh
    rw [k3]
    unfold totals
    dsimp only
    rw [k1, k2]
    constructor <;> omega
  obtain ⟨done, ⟨a1, a2⟩, a3, a4, a5⟩ := totals_ok h.ok
  unfold next at ho
  cases hsp : serviceProducer x.mgr with
  | mk m1 v1 =>
    rw [hsp] at ho
    unfold serviceProducer at hsp
    by_cases hn : noneLeft x.mgr = true
    · rw [if_pos hn] at hsp
      cases hsp
      cases ho
      exact same x.mgr rfl rfl .stop rfl rfl
    · rw [if_neg hn] at hsp
      rcases next_ok hcs h.ok hrf with ⟨y, p', t', h1, h2, h3⟩ | ⟨p', h1, h2, h3⟩ | ⟨p', t', h1, h2, h3⟩
      · rw [h1] at hsp
        cases hsp
        dsimp only at ho
        generalize hm : (⟨p', x.mgr.slots.map fun s => if s.active then { s with rcv := accept y s.rcv } else s, x.mgr.seen⟩ : Mgr) = m1 at ho
        cases hz : serviceReceivers m1 with
        | mk m2 v2 =>
          have hp2 : m2.prod = p' := by
            unfold serviceReceivers at hz
            rw [← hm] at hz
            injection hz with hz _
            rw [← hz]
          rw [hz] at ho
          unfold totals
          cases v2 <;> (injection ho with k1 k2; subst k1 k2; dsimp only [adds]; rw [hp2]; constructor <;> omega)
      · rw [h1] at hsp
        cases hsp
        cases ho
        have := h3.all
        subst this
        have hd : done = rows := counts_unique a3 List.prefix_rfl a4 List.prefix_rfl a5 (fun more hm => by
          have := hm.length_le
          rw [List.length_append, List.length_singleton] at this
          omega)
        subst hd
        exact same _ (by dsimp only; rw [h3.counts.messages, a1]) (by dsimp only; rw [h3.counts.bytes, a2]) .stop rfl rfl
      · rw [h1] at hsp
        cases hsp
        cases ho
        obtain ⟨done2, ⟨b1, b2⟩, b3, b4, b5⟩ := totals_ok (.inl h3)
        have hd := counts_unique a3 b3 a4 b4 a5 b5
        subst hd
        exact same _ (by dsimp only; rw [b1, a1]) (by dsimp only; rw [b2, a2]) .producerFault rfl rfl

/-- What a session comes to. -/
inductive Came (cs : List Elem) (rows : List Bytes) (e : Bool) (ds : List Dest) (x' : Ses) (outs : List Out) : Prop where
  | going {pub t recent} : Inv cs rows e ds x' pub t recent → (∀ o ∈ outs, goesOn o = true) → Came cs rows e ds x' outs
  | ended : e = false → Ended x'.mgr.prod (copyFrames rows) rows → x'.mgr.seen = true → Each (FlowR (copyFrames rows)) ds x'.mgr.slots → noneLeft x'.mgr = false → Came cs rows e ds x' outs
  | nobody {pub t} : noneLeft x'.mgr = true → Ok cs x'.mgr.prod pub rows e t → Each (FlowR pub) ds x'.mgr.slots → Came cs rows e ds x' outs
  | raised {pub t} : Out.producerFault ∈ outs → Out.stop ∉ outs → e = true → Ok cs x'.mgr.prod pub rows e t → Each (FlowR pub) ds x'.mgr.slots → Came cs rows e ds x' outs
  | cut {pub} : Out.blocked ∈ outs ∨ Out.interrupted ∈ outs → Out.stop ∉ outs → pub <+: copyFrames rows → Each (Flow pub) ds x'.mgr.slots → Came cs rows e ds x' outs

theorem session_came (hcs : Cmds cs) (hrf : ∀ row ∈ rows, row.length + 4 < 2147483648) : ∀ (acts : List Act) {x x' : Ses} {pub : Bytes} {t : Nat} {recent : List Nat} {outs : List Out},
    Inv cs rows e ds x pub t recent → Timely recent x acts → session x acts = (x', outs) →
    Came cs rows e ds x' outs ∧ (adds outs).1 + x'.stats.1 = (totals x').1 - (totals x).1 + x.stats.1 ∧ (adds outs).2 + x'.stats.2 = (totals x').2 - (totals x).2 + x.stats.2
  | [], x, x', _, _, _, _, h, _, hs => by
    cases hs
    refine ⟨.going h (fun o ho => by cases ho), ?_, ?_⟩ <;> (dsimp only [adds]; omega)
  | a :: as, x, x', pub, t, recent, outs, h, ht, hs => by
    unfold session at hs
    cases ha : act x a with
    | mk x1 o =>
      rw [ha] at hs
      dsimp only at hs
      -- the sums
      have hsum : (adds [o]).1 + x1.stats.1 = (totals x1).1 - (totals x).1 + x.stats.1 ∧ (adds [o]).2 + x1.stats.2 = (totals x1).2 - (totals x).2 + x.stats.2 := by
        cases a with
        | next => exact next_adds hcs hrf h ha
        | reconcile i =>
          have ha : reconcile i x = (x1, o) := ha
          unfold Timely at ht
          obtain ⟨_, q2, q3, _, q5, _, _⟩ := reconcile_inv h ht.1 ha
          have htot : totals x1 = totals x := by unfold totals; rw [q2]
          have : adds [o] = (0, 0) := by cases o <;> first | exact absurd rfl (q5 _ _) | rfl
          rw [this, htot, q3]
          constructor <;> (dsimp only; omega)
      -- the rest of the session after an operation with result `o`
      have cont : ∀ {pub1 : Bytes} {t1 : Nat} {recent1 : List Nat}, Inv cs rows e ds x1 pub1 t1 recent1 → goesOn o = true → Timely recent1 x1 as →
          Came cs rows e ds x' outs ∧ (adds outs).1 + x'.stats.1 = (totals x').1 - (totals x).1 + x.stats.1 ∧ (adds outs).2 + x'.stats.2 = (totals x').2 - (totals x).2 + x.stats.2 := by
        intro pub1 t1 recent1 hi hg htm
        rw [if_pos hg] at hs
        cases hr : session x1 as with
        | mk x2 os =>
          rw [hr] at hs
          dsimp only at hs
          injection hs with hs1 hs2
          subst hs1
          have hadd : (adds outs).1 = (adds [o]).1 + (adds os).1 ∧ (adds outs).2 = (adds [o]).2 + (adds os).2 := by
            rw [← hs2]
            cases o <;> simp [adds]
          have hmem : ∀ y, y ∈ os → y ∈ outs := fun y hy => by rw [← hs2]; exact List.mem_cons_of_mem _ hy
          have hstop : Out.stop ∉ os → Out.stop ∉ outs := fun hy hm => by
            rw [← hs2] at hm
            rcases List.mem_cons.1 hm with h | h
            · rw [← h] at hg; cases hg
            · exact hy h
          obtain ⟨hc, c1, c2⟩ := session_came hcs hrf as hi htm hr
          refine ⟨?_, by omega, by omega⟩
          cases hc with
          | going q1 q2 =>
            refine .going q1 (fun y hy => ?_)
            rw [← hs2] at hy
            rcases List.mem_cons.1 hy with rfl | hy
            · exact hg
            · exact q2 y hy
          | ended q2 q3 q4 q5 q6 => exact .ended q2 q3 q4 q5 q6
          | nobody q2 q3 q4 => exact .nobody q2 q3 q4
          | raised q1 q0 q2 q3 q4 => exact .raised (hmem _ q1) (hstop q0) q2 q3 q4
          | cut q1 q0 q2 q3 => exact .cut (q1.imp (hmem _) (hmem _)) (hstop q0) q2 q3
      cases a with
      | next =>
        have ha : next x = (x1, o) := ha
        have ht : Timely recent x (.next :: as) := ht
        unfold Timely at ht
        rw [ha] at ht
        cases next_inv hcs hrf h ha with
        | progress q1 => exact cont q1 rfl ht
        | fault q1 => exact cont q1 rfl ht
        | ended q1 q2 q3 q4 q5 => cases hs; exact ⟨.ended q1 q2 q3 q4 q5, hsum⟩
        | nobody q1 q2 q3 => cases hs; exact ⟨.nobody q1 q2 q3, hsum⟩
        | raised q1 q2 q3 => cases hs; exact ⟨.raised (by simp) (by simp) q1 q2 q3, hsum⟩
        | blocked q1 q2 => cases hs; exact ⟨.cut (.inl (by simp)) (by simp) q1 q2, hsum⟩
        | interrupted q1 q2 => cases hs; exact ⟨.cut (.inr (by simp)) (by simp) q1 q2, hsum⟩
      | reconcile i =>
        have ha : reconcile i x = (x1, o) := ha
        unfold Timely at ht
        rw [ha] at ht
        obtain ⟨q1, q2, q3, _, q5, q6, q7⟩ := reconcile_inv h ht.1 ha
        cases hg : goesOn o with
        | true => exact cont q1 hg ht.2
        | false =>
          rw [hg] at hs
          cases hs
          refine ⟨.cut ?_ (by simp; exact fun h => q6 h.symm) (ok_prefix h.ok).1 (q1.flow.mono fun _ _ _ h => h.1), hsum⟩
          cases o with
          | blocked => exact .inl (by simp)
          | interrupted => exact .inr (by simp)
          | stop => exact absurd rfl q6
          | producerFault => exact absurd rfl q7
          | progress _ _ => cases hg
          | receiverFault _ => cases hg
          | reconciled => cases hg
          | raised => cases hg

end PG.Manager
