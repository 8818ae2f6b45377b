import Verif.Proofs.Manager
import Verif.Props.Transfer
/-!
# C75: iterating over a `CopyManager`, with faults and reconciliation

The source is as in C74; the destinations were entered.  The user iterates, catches `ReceiverFault`s, puts receivers back with `reconcile`, in any order and number; then the block is left.
-/
namespace PG.Props.Manager
open PG PG.Element3 PG.Client3 PG.Lifecycle PG.CopyReceiver PG.Transfer PG.Manager PG.Spec PG.Spec.Copy PG.Spec.CopyTo PG.Spec.Client PG.Spec.Lifecycle PG.Spec.CopyLoad PG.Spec.Transfer PG.Spec.Manager
open PG.Props.Lifecycle PG.Props.Status PG.Props.CopyLoad PG.Props.CopyReceiver PG.Props.CopyTo PG.Props.Transfer

variable {name statement : Bytes} {af : List Bytes} {args : List (Option Bytes)} {rf : List Bytes} {portal : Bytes} {max : Int}
variable {recvs : List Bytes} {reply : List (UInt8 × Bytes)} {rows : List Bytes} {e : Bool}

theorem came (hy : Says .bind reply rows e) (ha : Arrives recvs reply) (hr : ∀ row ∈ rows, Small row) {p : CopyTo.SP}
    (hp : CopyTo.enter (Props.CopyTo.commands name statement af args rf portal max) recvs = .ok (.fine, p)) {dests : List Dest} {ss : List Slot} (hd : enterAll dests = (ss, .ok))
    {acts : List Act} (ht : Timely [] { mgr := ⟨p, ss, false⟩ } acts) {x : Ses} {outs : List Manager.Out} (h : session { mgr := ⟨p, ss, false⟩ } acts = (x, outs)) :
    Came (Props.CopyTo.commands name statement af args rf portal max) rows e dests x outs ∧
      (adds outs).1 + x.stats.1 = x.mgr.prod.prod.totalMessages ∧ (adds outs).2 + x.stats.2 = x.mgr.prod.prod.totalBytes := by
  obtain ⟨r, p0, h1, _, t, h3⟩ := start (name := name) (statement := statement) (af := af) (args := args) (rf := rf) (portal := portal) (max := max) hy ha
  rw [h1] at hp
  injection hp with hp
  injection hp with _ hp
  subst hp
  obtain ⟨_, k2, _⟩ := enter_flow hd
  obtain ⟨c, c1, c2⟩ := session_came (cmds_commands ..) hr acts (x := { mgr := ⟨p0, ss, false⟩ }) ⟨h3, k2 rfl, fun i hi => by cases hi⟩ ht h
  obtain ⟨done, ⟨a1, a2⟩, a3, a4, _⟩ := totals_ok h3
  have a5 : done.length = 0 := by
    cases done with
    | nil => rfl
    | cons y ys =>
      have := a4.length_le
      rw [CopyMan.copyFrames_cons', List.length_append, CopyMan.length_fr, List.length_nil] at this
      omega
  refine ⟨c, ?_, ?_⟩
  · rw [c1]; unfold totals; dsimp only; rw [a1, a5]; omega
  · rw [c2]; unfold totals; dsimp only; rw [a2]; simp

/-- **C75 (the progress adds up).** The messages and bytes that the iteration reported, and what it still has to report after a fault, are the totals of the producer; when it has
ended with a receiver in the set, these are the rows of the source. -/
theorem C75_progress (hy : Says .bind reply rows e) (ha : Arrives recvs reply) (hr : ∀ row ∈ rows, Small row) {p : CopyTo.SP}
    (hp : CopyTo.enter (Props.CopyTo.commands name statement af args rf portal max) recvs = .ok (.fine, p)) {dests : List Dest} {ss : List Slot} (hd : enterAll dests = (ss, .ok))
    {acts : List Act} (ht : Timely [] { mgr := ⟨p, ss, false⟩ } acts) {x : Ses} {outs : List Manager.Out} (h : session { mgr := ⟨p, ss, false⟩ } acts = (x, outs)) :
    (adds outs).1 + x.stats.1 = x.mgr.prod.prod.totalMessages ∧ (adds outs).2 + x.stats.2 = x.mgr.prod.prod.totalBytes ∧
    (Manager.Out.stop ∈ outs → (∃ s ∈ x.mgr.slots, s.active = true) → x.mgr.prod.prod.totalMessages = rows.length ∧ x.mgr.prod.prod.totalBytes = (copyFrames rows).length) := by
  obtain ⟨c, c1, c2⟩ := came hy ha hr hp hd ht h
  refine ⟨c1, c2, fun hs ⟨s, k1, k2⟩ => ?_⟩
  cases c with
  | going _ q => have := q _ hs; cases this
  | ended _ q _ _ _ => exact ⟨q.counts.messages, q.counts.bytes⟩
  | nobody q _ _ => exact absurd k2 (noneLeft_all q s k1)
  | raised _ q _ _ _ => exact absurd hs q
  | cut _ q _ _ => exact absurd hs q

/-- **C75 (what was put back in time has everything).** When the iteration has ended and leaving the block returns: there was no error in the source's answer, and every destination whose
receiver is in the set, whatever faults it had, was sent all rows in order and then CopyDone, and has confirmed it. -/
theorem C75_completed (hy : Says .bind reply rows e) (ha : Arrives recvs reply) (hr : ∀ row ∈ rows, Small row) {p : CopyTo.SP}
    (hp : CopyTo.enter (Props.CopyTo.commands name statement af args rf portal max) recvs = .ok (.fine, p)) {dests : List Dest} (hre : ∀ d ∈ dests, Reached d.db) {ss : List Slot}
    (hd : enterAll dests = (ss, .ok)) {acts : List Act} (ht : Timely [] { mgr := ⟨p, ss, false⟩ } acts) {x : Ses} {outs : List Manager.Out} (h : session { mgr := ⟨p, ss, false⟩ } acts = (x, outs))
    (hs : Manager.Out.stop ∈ outs) {fuel : Nat} {m : Mgr} (hl : leave fuel false x.mgr = (m, .done)) :
    e = false ∧ m.slots.length = dests.length ∧ (∃ s ∈ m.slots, s.active = true) ∧
    ∀ (i : Nat) (d : Dest) (s : Slot), dests[i]? = some d → m.slots[i]? = some s → s.active = true →
      s.left = some .ok ∧ ∃ pre, Before d.db pre ∧ wire s.rcv.db = pre ++ upload d.stmt rows ++ frames [copyDone, syncMsg] := by
  obtain ⟨c, _, _⟩ := came hy ha hr hp hd ht h
  cases c with
  | going _ q => have := q _ hs; cases this
  | ended q1 q2 q3 q4 q5 =>
    obtain ⟨_, _, k3, _, k5, k6, _⟩ := leave_ended hre q2 q4 hl
    refine ⟨q1, k3.length, ?_, fun i d s hd hs => (k5 rfl).at hd hs⟩
    unfold noneLeft at q5
    rw [List.all_eq_false] at q5
    obtain ⟨s, hm, hac⟩ := q5
    have hac : s.active = true := by cases hb : s.active with | true => rfl | false => rw [hb] at hac; exact absurd rfl hac
    have : true ∈ m.slots.map (·.active) := by rw [k6, ← hac]; exact List.mem_map_of_mem hm
    obtain ⟨s', h1, h2⟩ := List.mem_map.1 this
    exact ⟨s', h1, h2⟩
  | nobody q1 q2 q3 => obtain ⟨_, _, h⟩ := leave_nobody (cmds_commands ..) q2 q1 hl; cases h
  | raised _ q _ _ _ => exact absurd hs q
  | cut _ q _ _ => exact absurd hs q

/-- **C75 (no destination commits anything but all rows).** If the block is left with an exception, at any point, or when the iteration has ended, then, however that goes: every destination was
sent either a beginning of the rows followed by CopyFail, or, if there was no error in the source's answer, all of them followed by CopyDone (or a beginning of that).  Unless a failure of its
transaction was unreported when the COPY started.  The source's connection is free. -/
theorem C75_sound (hy : Says .bind reply rows e) (ha : Arrives recvs reply) (hr : ∀ row ∈ rows, Small row) {p : CopyTo.SP}
    (hp : CopyTo.enter (Props.CopyTo.commands name statement af args rf portal max) recvs = .ok (.fine, p)) {dests : List Dest} (hre : ∀ d ∈ dests, Reached d.db) {ss : List Slot}
    (hd : enterAll dests = (ss, .ok)) {acts : List Act} (ht : Timely [] { mgr := ⟨p, ss, false⟩ } acts) {x : Ses} {outs : List Manager.Out} (h : session { mgr := ⟨p, ss, false⟩ } acts = (x, outs))
    (hb : Manager.Out.blocked ∉ outs ∧ Manager.Out.interrupted ∉ outs) {exc : Bool} (hs : exc = true ∨ Manager.Out.stop ∈ outs)
    {fuel : Nat} {m : Mgr} {o : Transfer.Outcome} (hl : leave fuel exc x.mgr = (m, o)) :
    Clean m.prod ∧ m.slots.length = dests.length ∧ ∀ (i : Nat) (d : Dest) (s : Slot), dests[i]? = some d → m.slots[i]? = some s →
      s.rcv.db = d.db ∨ ∃ r1, enter d.fin d.fuel d.stmt { db := d.db } = (r1, .ok) ∧ (Unreported r1.db ∨ Sound rows e d.db d.stmt s.rcv.db s.left) := by
  obtain ⟨c, _, _⟩ := came hy ha hr hp hd ht h
  -- all were entered
  have hent : ∀ d ∈ dests, (enter d.fin d.fuel d.stmt { db := d.db }).2 = .ok := by
    have : ∀ {as : List Dest} {bs : List Slot}, Each (FlowR []) as bs → ∀ d ∈ as, (enter d.fin d.fuel d.stmt { db := d.db }).2 = .ok := by
      intro as bs hh
      induction hh with
      | nil => exact fun d hd => (by cases hd)
      | cons h _ ih =>
        intro d hd
        rcases List.mem_cons.1 hd with rfl | hd
        · obtain ⟨⟨r1, _, k, _⟩, _⟩ := h; rw [k]
        · exact ih d hd
    exact this ((enter_flow hd).2.1 rfl)
  have fin : CopyTo.AtRest m.prod → Each (Fate rows e) dests m.slots →
      Clean m.prod ∧ m.slots.length = dests.length ∧ ∀ (i : Nat) (d : Dest) (s : Slot), dests[i]? = some d → m.slots[i]? = some s → s.rcv.db = d.db ∨
        ∃ r1, enter d.fin d.fuel d.stmt { db := d.db } = (r1, .ok) ∧ (Unreported r1.db ∨ Sound rows e d.db d.stmt s.rcv.db s.left) := by
    intro hr hz
    refine ⟨clean_of hr, hz.length, fun i d s h1 h2 => ?_⟩
    rcases hz.at h1 h2 with (h | ⟨h, _⟩) | h
    · exact .inl h
    · exact absurd (hent d (List.mem_of_getElem? h1)) h
    · exact .inr h
  have still : ∀ {pub : Bytes} {ss : List Slot}, pub <+: copyFrames rows → Each (FlowR pub) dests ss → Each (Fate rows e) dests ss := fun hp hf =>
    hf.mono fun d hd s h => fate_still (done := rows) (last := []) (hre d hd) (by rw [List.append_nil]; exact hp) List.prefix_rfl (by simp) (flowR_N h).1
  have lt : ∀ {pub : Bytes} {t : Nat}, CopyTo.Ok (Props.CopyTo.commands name statement af args rf portal max) x.mgr.prod pub rows e t → Each (FlowR pub) dests x.mgr.slots → exc = true →
      CopyTo.AtRest m.prod ∧ Each (Fate rows e) dests m.slots := by
    intro pub t ho hf he
    subst he
    obtain ⟨k1, k2, _⟩ := leave_true (cmds_commands ..) hre ho (hf.mono fun _ _ _ h => flowR_N h) hl
    exact ⟨k1, k2⟩
  cases c with
  | going q1 q2 =>
    obtain ⟨k1, k2⟩ := lt q1.ok q1.flow (hs.resolve_right fun hs => by have := q2 _ hs; cases this)
    exact fin k1 k2
  | ended q1 q2 q3 q4 q5 =>
    subst q1
    cases exc with
    | true =>
      obtain ⟨k1, k2, _⟩ := leave_true_ended (e := false) hre q2 q4 hl
      exact fin k1 k2
    | false =>
      obtain ⟨k1, _, k3, _⟩ := leave_ended hre q2 q4 hl
      exact fin k1 k3
  | nobody q1 q2 q3 =>
    obtain ⟨k1, k2, _⟩ := leave_nobody (cmds_commands ..) q2 q1 hl
    exact fin k1 (by rw [k2]; exact still (CopyTo.ok_prefix q2).1 q3)
  | raised _ q _ q3 q4 =>
    obtain ⟨k1, k2⟩ := lt q3 q4 (hs.resolve_right q)
    exact fin k1 k2
  | cut q _ _ _ => rcases q with q | q; exact absurd q hb.1; exact absurd q hb.2

/-- **C75 (reconciling).** When `reconcile` returns, the receiver is in the set again and has sent what it was given; the other receivers, the producer and the statistics are as they were. -/
theorem C75_put_back {i : Nat} {x x' : Ses} (h : reconcile i x = (x', .reconciled)) :
    ∃ s r, x.mgr.slots[i]? = some s ∧ transmit s.rcv = (r, .ret ()) ∧ x'.mgr.slots[i]? = some { s with rcv := r, active := true } ∧ (∀ j ≠ i, x'.mgr.slots[j]? = x.mgr.slots[j]?) ∧
      x'.mgr.prod = x.mgr.prod ∧ x'.stats = x.stats := by
  unfold reconcile at h
  split at h
  · cases h
  · rename_i s hs
    split at h <;> cases h
    rename_i r hr
    refine ⟨s, r, hs, hr, ?_, fun j hj => ?_, rfl, rfl⟩
    · have := (List.getElem?_eq_some_iff.1 hs).1
      simp [this]
    · simp [Ne.symm hj]

/-! ## The hypotheses are met -/

/-- A socket that raises once, in the middle of the first row. -/
def stalls (last : RecvEv) : Db := established ([.sent 999, .sent 1, .sent 1, .sent 1, .err .other] ++ List.replicate 99 (.sent 999))
  [.data [50, 0, 0, 0, 4, 71, 0, 0, 0, 7, 0, 0, 0], last, .data [90, 0, 0, 0, 5, 73]] [73]
/-- Two destinations, the socket of the second one stalls. -/
def both (last : RecvEv) : List Dest := [to (takes last), to (stalls last)]
/-- `Timely`, decided. -/
def timely (l : List Nat) (x : Ses) : List Act → Bool
  | [] => true
  | .next :: as => match Manager.next x with
    | (x', .receiverFault l) => timely l x' as
    | (x', _) => timely [] x' as
  | .reconcile i :: as => (decide (i ∈ l) || (x.mgr.slots[i]?.any (·.active))) && timely l (reconcile i x).1 as

theorem timely_of : ∀ {as : List Act} {l : List Nat} {x : Ses}, timely l x as = true → Timely l x as
  | [], _, _, _ => trivial
  | .next :: as, _, x, h => by
    unfold timely at h
    unfold Timely
    cases hn : Manager.next x with
    | mk x' o =>
      rw [hn] at h
      cases o <;> exact timely_of h
  | .reconcile i :: as, l, x, h => by
    unfold timely at h
    unfold Timely
    rw [Bool.and_eq_true] at h
    refine ⟨?_, timely_of h.2⟩
    rcases Bool.or_eq_true _ _ ▸ h.1 with h | h
    · exact .inl (of_decide_eq_true h)
    · right
      cases hs : x.mgr.slots[i]? with
      | none => rw [hs] at h; cases h
      | some s => rw [hs] at h; exact ⟨s, rfl, h⟩

/-- The results: of entering the destinations, whether the operations are timely, of the operations, of leaving; what is on the wires of which receivers. -/
structure Seen where
  entered : Svc
  timely : Bool
  outs : List Manager.Out
  left : Transfer.Outcome
  wires : List (Bool × Bytes)
  deriving DecidableEq
/-- A session with these destinations, and these operations. -/
def used (p : CopyTo.SP) (ds : List Dest) (acts : List Act) (exc : Bool) : Seen :=
  match enterAll ds with
  | (ss, o) => match session { mgr := ⟨p, ss, false⟩ } acts with
    | (x, outs) => match leave 99 exc x.mgr with
      | (m, r) => ⟨o, timely [] { mgr := ⟨p, ss, false⟩ } acts, outs, r, m.slots.map fun s => (s.active, wire s.rcv.db)⟩

theorem used_spec {p : CopyTo.SP} {ds : List Dest} {acts : List Act} {exc : Bool} {t : Bool} {outs : List Manager.Out} {r : Transfer.Outcome} {ws : List (Bool × Bytes)}
    (h : used p ds acts exc = ⟨.ok, t, outs, r, ws⟩) : ∃ ss x m, enterAll ds = (ss, .ok) ∧ timely [] { mgr := ⟨p, ss, false⟩ } acts = t ∧
      session { mgr := ⟨p, ss, false⟩ } acts = (x, outs) ∧ leave 99 exc x.mgr = (m, r) ∧ m.slots.map (fun s => (s.active, wire s.rcv.db)) = ws := by
  unfold used at h
  cases h1 : enterAll ds with
  | mk ss o =>
    rw [h1] at h
    dsimp only at h
    cases h2 : session { mgr := ⟨p, ss, false⟩ } acts with
    | mk x outs' =>
      rw [h2] at h
      dsimp only at h
      cases h3 : leave 99 exc x.mgr with
      | mk m r' =>
        rw [h3] at h
        dsimp only at h
        injection h with a1 a2 a3 a4 a5
        subst a1 a3 a4
        exact ⟨ss, x, m, rfl, a2, h2, h3, a5⟩

/-- The fault of the second receiver is reconciled at once. -/
def inTime : List Act := [.next, .reconcile 1] ++ List.replicate 9 .next
/-- Only after two more turns. -/
def late : List Act := [.next, .next, .next, .reconcile 1, .next, .next]

theorem reached_both (last : RecvEv) : ∀ d ∈ both last, Reached d.db := by
  intro d hd
  rcases List.mem_cons.1 hd with rfl | hd
  · exact reached_takes _
  · rw [List.mem_singleton.1 hd]; exact ⟨_, _, _, [], rfl⟩

/-- `C75_completed`, `C75_progress`: a fault, reconciled; both destinations have everything. -/
example : source.map (used · (both copied) inTime false) = some ⟨.ok, true, [.receiverFault [1], .reconciled, .progress 1 7, .progress 1 7, .progress 0 0, .stop], .done,
      List.replicate 2 (true, upload [115] [[49, 10], [50, 10]] ++ frames [copyDone, syncMsg])⟩ := by decide +kernel

/-- `C75_sound`: the block is left with an exception after two turns, a fault in the first; the second row is not sent. -/
example : source.map (used · (both refused) [.next, .reconcile 1, .next] true) = some ⟨.ok, true, [.receiverFault [1], .reconciled, .progress 1 7], .failed true,
      List.replicate 2 (true, upload [115] [[49, 10]] ++ frames [copyFail, syncMsg])⟩ := by decide +kernel

/-! ## Findings -/

/-- `C75_completed` without its condition on `reconcile`. -/
def AnyReconcile : Prop := ∀ (recvs : List Bytes) (reply : List (UInt8 × Bytes)) (rows : List Bytes) (p : CopyTo.SP) (dests : List Dest) (ss : List Slot) (acts : List Act) (x : Ses) (outs : List Manager.Out)
  (fuel : Nat) (m : Mgr), Says .bind reply rows false → Arrives recvs reply → (∀ row ∈ rows, Small row) → CopyTo.enter cmds0 recvs = .ok (.fine, p) → (∀ d ∈ dests, Reached d.db) →
  enterAll dests = (ss, .ok) → session { mgr := ⟨p, ss, false⟩ } acts = (x, outs) → .stop ∈ outs → leave fuel false x.mgr = (m, .done) →
  ∀ (i : Nat) (d : Dest) (s : Slot), dests[i]? = some d → m.slots[i]? = some s → s.active = true → ∃ pre, wire s.rcv.db = pre ++ upload d.stmt rows ++ frames [copyDone, syncMsg]

/-- `C75_completed` without its condition that the iteration has ended. -/
def LeaveAnytime : Prop := ∀ (recvs : List Bytes) (reply : List (UInt8 × Bytes)) (rows : List Bytes) (p : CopyTo.SP) (dests : List Dest) (ss : List Slot) (acts : List Act) (x : Ses) (outs : List Manager.Out)
  (fuel : Nat) (m : Mgr), Says .bind reply rows false → Arrives recvs reply → (∀ row ∈ rows, Small row) → CopyTo.enter cmds0 recvs = .ok (.fine, p) → (∀ d ∈ dests, Reached d.db) →
  enterAll dests = (ss, .ok) → Timely [] { mgr := ⟨p, ss, false⟩ } acts → session { mgr := ⟨p, ss, false⟩ } acts = (x, outs) → leave fuel false x.mgr = (m, .done) →
  ∀ (i : Nat) (d : Dest) (s : Slot), dests[i]? = some d → m.slots[i]? = some s → s.active = true → ∃ pre, wire s.rcv.db = pre ++ upload d.stmt rows ++ frames [copyDone, syncMsg]

theorem source_enter : ∃ p, source = some p ∧ CopyTo.enter cmds0 (bytewise (frames twoRows)) = .ok (.fine, p) := by
  obtain ⟨p, hp⟩ : ∃ p, source = some p := Option.isSome_iff_exists.1 (by decide +kernel)
  refine ⟨p, hp, ?_⟩
  unfold source at hp
  split at hp
  · cases hp; assumption
  · cases hp

theorem rows_small : ∀ row ∈ [[49, 10], [50, 10]], Small row := by
  intro row hr
  simp only [List.mem_cons, List.not_mem_nil, or_false] at hr
  rcases hr with rfl | rfl <;> (unfold Small; decide)

theorem short_wire {w a b : Bytes} (h : decide (w.length < a.length + b.length) = true) : ¬ ∃ pre, w = pre ++ a ++ b := by
  have h := of_decide_eq_true h
  rintro ⟨pre, rfl⟩
  rw [List.length_append, List.length_append] at h
  omega

theorem slot_at {ss : List Slot} {ws : List (Bool × Bytes)} {i : Nat} {w : Bool × Bytes} (h : ss.map (fun s => (s.active, wire s.rcv.db)) = ws) (hw : ws[i]? = some w) :
    ∃ s, ss[i]? = some s ∧ s.active = w.1 ∧ wire s.rcv.db = w.2 := by
  rw [← h, List.getElem?_map] at hw
  cases hs : ss[i]? with
  | none => rw [hs] at hw; cases hw
  | some s => rw [hs] at hw; injection hw with hw; subst hw; exact ⟨s, rfl, rfl, rfl⟩

/-- What the late receiver was sent. -/
def torn : Bytes := upload [115] [[49, 10]] ++ frames [copyDone, syncMsg]

/-- **C75 (a finding: reconciling late tears the data).** `reconcile` does not check that the receiver was given everything: when the iteration went on in between, it returns, and leaving the block
returns, but the destination lacks data (here, a row). -/
theorem C75_late_reconcile : ¬ AnyReconcile := by
  intro h
  obtain ⟨p, hp, hen⟩ := source_enter
  have hv : source.map (used · (both copied) late false) = some ⟨.ok, false, [.receiverFault [1], .progress 1 7, .progress 1 7, .reconciled, .progress 0 0, .stop], .done,
      [(true, upload [115] [[49, 10], [50, 10]] ++ frames [copyDone, syncMsg]), (true, torn)]⟩ := by decide +kernel
  rw [hp, Option.map_some] at hv
  injection hv with hv
  obtain ⟨ss, x, m, h1, _, h3, h4, h5⟩ := used_spec hv
  obtain ⟨s, k1, k2, k3⟩ := slot_at (i := 1) h5 rfl
  have := h _ _ _ p (both copied) ss late x _ 99 m twoRows_says twoRows_arrives rows_small hen (reached_both _) h1 h3 (by simp) h4 1 (to (stalls copied)) s rfl k1 k2
  rw [k3] at this
  exact short_wire (by decide +kernel) this

/-- **C75 (a finding: leaving the loop early commits).** When the user leaves the loop (`break`) between two messages and the server has already sent everything, the block is left
without an exception, as a success: the destination is sent CopyDone after only a part of the rows. -/
theorem C75_break_commits : ¬ LeaveAnytime := by
  intro h
  obtain ⟨p, hp, hen⟩ := source_enter
  have hv : source.map (used · [to (takes copied)] [.next] false) = some ⟨.ok, true, [.progress 1 7], .done, [(true, upload [115] [[49, 10]] ++ frames [copyDone, syncMsg])]⟩ := by decide +kernel
  rw [hp, Option.map_some] at hv
  injection hv with hv
  obtain ⟨ss, x, m, h1, h2, h3, h4, h5⟩ := used_spec hv
  obtain ⟨s, k1, k2, k3⟩ := slot_at (i := 0) h5 rfl
  have := h _ _ _ p [to (takes copied)] ss [.next] x _ 99 m twoRows_says twoRows_arrives rows_small hen
    (fun d hd => by rw [List.mem_singleton.1 hd]; exact reached_takes _) h1 (timely_of h2) h3 h4 0 (to (takes copied)) s rfl k1 k2
  rw [k3] at this
  exact short_wire (by decide +kernel) this

end PG.Props.Manager
