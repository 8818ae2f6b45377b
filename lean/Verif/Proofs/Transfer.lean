import Verif.Model.Transfer
import Verif.Props.CopyReceiver
import Verif.Props.CopyTo
/-!
# A transfer: what every receiver has been given
-/
namespace PG.Transfer
open PG PG.Client3 PG.Lifecycle PG.CopyReceiver PG.Props.CopyReceiver PG.Spec.Copy

/-- Two lists of the same length, related element by element. -/
inductive Each {α β : Type} (R : α → β → Prop) : List α → List β → Prop where
  | nil : Each R [] []
  | cons {a b as bs} : R a b → Each R as bs → Each R (a :: as) (b :: bs)

theorem Each.mono {α β : Type} {R S : α → β → Prop} {as : List α} {bs : List β} (h : Each R as bs) (hs : ∀ a ∈ as, ∀ b, R a b → S a b) : Each S as bs := by
  induction h with
  | nil => exact .nil
  | cons h _ ih => exact .cons (hs _ List.mem_cons_self _ h) (ih fun a ha => hs a (List.mem_cons_of_mem _ ha))

theorem Each.length {α β : Type} {R : α → β → Prop} {as : List α} {bs : List β} (h : Each R as bs) : bs.length = as.length := by
  induction h with
  | nil => rfl
  | cons _ _ ih => rw [List.length_cons, List.length_cons, ih]

theorem Each.at {α β : Type} {R : α → β → Prop} {as : List α} {bs : List β} (h : Each R as bs) : ∀ {i : Nat} {a : α} {b : β}, as[i]? = some a → bs[i]? = some b → R a b := by
  induction h with
  | nil => intro i a b h; cases i <;> cases h
  | cons h _ ih =>
    intro i x y hx hy
    cases i with
    | zero => cases hx; cases hy; exact h
    | succ i => exact ih hx hy

/-! ## Operations on a receiver -/

theorem prompt_append : ∀ (a b : List Op) (r : Rcv), Prompt r a → Prompt (a.foldl apply r) b → Prompt r (a ++ b)
  | [], _, _, _, h => h
  | .accept _ :: a, b, _, h1, h2 => ⟨h1.1, prompt_append a b _ h1.2 h2⟩
  | .transmit :: a, b, r, h1, h2 => prompt_append a b (apply r .transmit) h1 h2

theorem accepted_append : ∀ (a b : List Op), accepted (a ++ b) = accepted a ++ accepted b
  | [], _ => rfl
  | .accept d :: a, b => by rw [List.cons_append, accepted, accepted_append a b, accepted, List.append_assoc]
  | .transmit :: a, b => accepted_append a b

/-- A receiver that was entered and has been given `data` (all of it, if it is still in the set). -/
def Flow (data : Bytes) (d : Dest) (s : Slot) : Prop :=
  ∃ r1 ops, enter d.fin d.fuel d.stmt { db := d.db } = (r1, .ok) ∧ s.rcv = ops.foldl apply r1 ∧ Prompt r1 ops ∧ (s.active = true → accepted ops = data) ∧ accepted ops <+: data ∧ s.left = none

/-- The same, and it has transmitted what it was given. -/
def FlowR (data : Bytes) (d : Dest) (s : Slot) : Prop := Flow data d s ∧ (s.active = true → s.rcv.view = [])

theorem flow_accept {data v : Bytes} {d : Dest} {s : Slot} (h : FlowR data d s) : Flow (data ++ v) d (if s.active then { s with rcv := accept v s.rcv } else s) := by
  obtain ⟨⟨r1, ops, h1, h2, h3, h4, h5, h6⟩, hv⟩ := h
  by_cases ha : s.active = true
  · rw [if_pos ha]
    refine ⟨r1, ops ++ [.accept v], h1, ?_, prompt_append ops [.accept v] r1 h3 ⟨by rw [← h2]; exact hv ha, trivial⟩, fun _ => ?_, ?_, h6⟩
    · rw [List.foldl_append, ← h2]; rfl
    · rw [accepted_append, h4 ha]; simp [accepted]
    · rw [accepted_append, h4 ha]; simp [accepted]
  · rw [if_neg ha]
    exact ⟨r1, ops, h1, h2, h3, fun h => absurd h ha, h5.trans (List.prefix_append _ _), h6⟩

theorem flow_transmit {data : Bytes} {d : Dest} {s : Slot} (h : Flow data d s) {b : Bool} (hb : b = true → s.active = true) : Flow data d { rcv := (transmit s.rcv).1, active := b } := by
  obtain ⟨r1, ops, h1, h2, h3, h4, h5, _⟩ := h
  have he : accepted (ops ++ [.transmit]) = accepted ops := by rw [accepted_append]; simp [accepted]
  refine ⟨r1, ops ++ [.transmit], h1, ?_, prompt_append ops [.transmit] r1 h3 trivial, fun h => by rw [he]; exact h4 (hb h), by rw [he]; exact h5, rfl⟩
  rw [List.foldl_append, ← h2]; rfl

theorem transmit_ret {r r' : Rcv} (h : transmit r = (r', .ret ())) : r'.view = [] := by
  unfold transmit at h
  split at h
  · rename_i c _
    obtain ⟨_, q2⟩ := sendLoop_spec (plug r.db.socket c).sends r.view c.wire
    generalize sendLoop (plug r.db.socket c).sends r.view c.wire = z at h q2
    obtain ⟨e, v, y, q⟩ := z
    cases h
    exact q2 rfl
  · cases h

/-- Serving: nothing else is given; those that faulted are out of the set, the others have transmitted. -/
theorem serve_flow {data : Bytes} : ∀ {ds : List Dest} {ss ss' : List Slot} {v : Svc}, Each (Flow data) ds ss → serveAll ss = (ss', v) →
    Each (Flow data) ds ss' ∧ (v = .ok ∨ v = .receiverFault → Each (FlowR data) ds ss') ∧ (v = .ok → ss'.map (·.active) = ss.map (·.active)) ∧ v ≠ .stop ∧ v ≠ .producerFault
  | _, _, ss', v, .nil, h => by cases h; exact ⟨.nil, fun _ => .nil, fun _ => rfl, by simp, by simp⟩
  | _, _, ss', v, .cons (a := d) (as := ds) (b := s) (bs := ss) hf ht, h => by
    unfold serveAll at h
    by_cases ha : s.active = true
    · rw [if_pos ha] at h
      have hq := flow_transmit (b := true) hf (fun _ => ha)
      have hq2 := flow_transmit (b := false) hf (fun h => by cases h)
      have hs : ∀ r, ({ s with rcv := r } : Slot) = { rcv := r, active := true } := fun r => by
        obtain ⟨_, _, _, _, _, _, _, hl⟩ := id hf
        rw [← ha, hl]
      have rest := fun w z => serve_flow (ss' := w) (v := z) ht
      cases hz : transmit s.rcv with
      | mk r res =>
        rw [hz] at h hq hq2
        cases hy : serveAll ss with
        | mk w z =>
          rw [hy] at h
          obtain ⟨k1, k2, k3, k4, k5⟩ := rest w z hy
          cases res with
          | ret u =>
            cases u
            cases h
            rw [hs]
            refine ⟨.cons hq k1, fun hv => .cons ⟨hq, fun _ => transmit_ret hz⟩ (k2 hv), fun hv => ?_, k4, k5⟩
            rw [List.map_cons, List.map_cons, k3 hv, ha]
          | blocked =>
            cases h
            rw [hs]
            exact ⟨.cons hq ht, (fun h => by rcases h with h | h <;> cases h), (fun h => by cases h), by simp, by simp⟩
          | raised e =>
            have hdrop : ∀ x, x = (if z = .ok then Svc.receiverFault else z) → ({ rcv := r, active := false } :: w, x) = (ss', v) →
                Each (Flow data) (d :: ds) ss' ∧ (v = .ok ∨ v = .receiverFault → Each (FlowR data) (d :: ds) ss') ∧ (v = .ok → ss'.map (·.active) = (s :: ss).map (·.active)) ∧ v ≠ .stop ∧ v ≠ .producerFault := by
              intro x hx hh
              cases hh
              refine ⟨.cons hq2 k1, fun hv => .cons ⟨hq2, (fun h => by cases h)⟩ (k2 ?_), fun hv => ?_, ?_, ?_⟩
              · by_cases hzo : z = .ok
                · exact .inl hzo
                · rw [hx, if_neg hzo] at hv; exact hv
              · rw [hx] at hv
                split at hv
                · cases hv
                · exact absurd hv ‹_›
              · rw [hx]; split <;> first | exact k4 | simp
              · rw [hx]; split <;> first | exact k5 | simp
            cases e with
            | py e => exact hdrop _ rfl h
            | sock k =>
              cases k with
              | interrupt => cases h; rw [hs]; exact ⟨.cons hq ht, (fun h => by rcases h with h | h <;> cases h), (fun h => by cases h), by simp, by simp⟩
              | tryAgain => exact hdrop _ rfl h
              | fatal => exact hdrop _ rfl h
              | unclear => exact hdrop _ rfl h
              | other => exact hdrop _ rfl h
    · rw [if_neg ha] at h
      cases hy : serveAll ss with
      | mk w z =>
        rw [hy] at h
        obtain ⟨k1, k2, k3, k4, k5⟩ := serve_flow (ss' := w) (v := z) ht hy
        cases h
        refine ⟨.cons hf k1, fun hv => .cons ⟨hf, fun h => absurd h ha⟩ (k2 hv), fun hv => ?_, k4, k5⟩
        rw [List.map_cons, List.map_cons, k3 hv]

theorem accept_each {data v : Bytes} : ∀ {ds : List Dest} {ss : List Slot}, Each (FlowR data) ds ss →
    Each (Flow (data ++ v)) ds (ss.map fun s => if s.active then { s with rcv := accept v s.rcv } else s)
  | _, _, .nil => .nil
  | _, _, .cons h t => .cons (flow_accept h) (accept_each t)

/-- The COPY of this destination was not started: entering it was not tried, or it raised. -/
def NotIn (d : Dest) (s : Slot) : Prop :=
  s.left = none ∧ s.rcv.xact = none ∧ (s.rcv.db = d.db ∨ ((enter d.fin d.fuel d.stmt { db := d.db }).2 ≠ .ok ∧ s.rcv.db = (enter d.fin d.fuel d.stmt { db := d.db }).1.db))

/-- Entering. -/
theorem enter_flow : ∀ {ds : List Dest} {ss : List Slot} {v : Svc}, enterAll ds = (ss, v) →
    Each (fun d s => s.active = true ∧ s.rcv.view = [] ∧ (NotIn d s ∨ Flow [] d s)) ds ss ∧ (v = .ok → Each (FlowR []) ds ss) ∧ v ≠ .stop ∧ v ≠ .producerFault
  | [], ss, v, h => by cases h; exact ⟨.nil, fun _ => .nil, by simp, by simp⟩
  | d :: ds, ss, v, h => by
    unfold enterAll at h
    have hx : ∀ r o, enter d.fin d.fuel d.stmt { db := d.db } = (r, o) → r.view = [] ∧ (o ≠ .ok → r.xact = none) := by
      intro r o he
      unfold enter at he
      split at he
      · split at he
        · cases he; exact ⟨rfl, fun h => absurd rfl h⟩
        · cases he; exact ⟨rfl, fun _ => rfl⟩
      · cases he; exact ⟨rfl, fun _ => rfl⟩
    have hrest : ∀ (ds : List Dest), Each (fun d s => s.active = true ∧ s.rcv.view = [] ∧ (NotIn d s ∨ Flow [] d s)) ds (ds.map (fun d => { rcv := { db := d.db } })) := by
      intro ds
      induction ds with
      | nil => exact .nil
      | cons d ds ih => exact .cons ⟨rfl, rfl, .inl ⟨rfl, rfl, .inl rfl⟩⟩ ih
    cases he : enter d.fin d.fuel d.stmt { db := d.db } with
    | mk r o =>
      obtain ⟨h1, h2⟩ := hx r o he
      rw [he] at h
      have bad : ∀ z, o ≠ .ok → z ≠ .ok ∧ z ≠ .stop ∧ z ≠ .producerFault → ({ rcv := r } :: ds.map (fun d => ({ rcv := { db := d.db } } : Slot)), z) = (ss, v) →
          Each (fun d s => s.active = true ∧ s.rcv.view = [] ∧ (NotIn d s ∨ Flow [] d s)) (d :: ds) ss ∧ (v = .ok → Each (FlowR []) (d :: ds) ss) ∧ v ≠ .stop ∧ v ≠ .producerFault := by
        intro z ho hz hh
        cases hh
        exact ⟨.cons ⟨rfl, h1, .inl ⟨rfl, h2 ho, .inr ⟨by rw [he]; exact ho, by rw [he]⟩⟩⟩ (hrest ds), fun h => absurd h hz.1, hz.2⟩
      cases o with
      | ok =>
        cases hy : enterAll ds with
        | mk w z =>
          rw [hy] at h
          obtain ⟨k1, k2, k3⟩ := enter_flow hy
          cases h
          have hf : Flow [] d { rcv := r } := ⟨r, [], he, rfl, trivial, fun _ => rfl, List.prefix_rfl, rfl⟩
          exact ⟨.cons ⟨rfl, h1, .inr hf⟩ k1, fun hv => .cons ⟨hf, fun _ => h1⟩ (k2 hv), k3⟩
      | blocked => exact bad _ (by simp) (by simp) h
      | dbError b m => exact bad _ (by simp) (by simp) h
      | raised e =>
        cases e with
        | py e => exact bad _ (by simp) (by simp) h
        | sock k => cases k <;> exact bad _ (by simp) (by simp) h

end PG.Transfer
