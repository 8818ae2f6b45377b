import Verif.Proofs.Transfer2
import Verif.Spec.Transfer
/-!
# A transfer: what is on the wire of a destination
-/
namespace PG.Transfer
open PG PG.Element3 PG.Client3 PG.Lifecycle PG.CopyReceiver PG.Props.CopyReceiver PG.Spec PG.Spec.Copy PG.Spec.Client PG.Spec.Lifecycle PG.Spec.CopyLoad PG.Spec.Transfer PG.CopyTo
open PG.Props.Lifecycle PG.Props.Status PG.Props.CopyLoad

theorem upload_rows (stmt : Bytes) (rows : List Bytes) : upload stmt [] ++ copyFrames rows = upload stmt rows := by
  unfold upload copyFrames
  rw [List.map_nil, List.append_nil]
  unfold frames
  rw [← List.flatMap_append]
  rfl

/-- Between entering and leaving. -/
theorem wire_still {f : Finalizers} {n : Nat} {stmt : Bytes} {db : Db} {r1 : Rcv} {ops : List Op} (hr : Reached db)
    (h1 : CopyReceiver.enter f n stmt { db := db } = (r1, .ok)) (hp : Prompt r1 ops) :
    Unreported r1.db ∨ ∃ pre, Before db pre ∧ wire (ops.foldl apply r1).db <+: pre ++ upload stmt [] ++ accepted ops := by
  obtain ⟨s, r, st, before, rfl⟩ := hr
  obtain ⟨c, hc, hb⟩ := history_conn s r st before
  generalize (calls (established s r st) before).1 = db at *
  obtain ⟨a1, a2, d, a3, _, a5⟩ := entered hc hb h1
  rcases a5 with ⟨y, hy, hf⟩ | ⟨pre, p1, p2, p3, _⟩
  · exact .inl ⟨d, y, by unfold connOf; rw [a3], hy, hf⟩
  · right
    obtain ⟨evs, w, b1, b2, b3⟩ := ops_spec ops r1 a3 hp
    have hco : connOf db = some c := by unfold connOf; rw [hc]
    have hu : unsent db = c.messageData := by unfold unsent; rw [hco]
    refine ⟨pre, ⟨by rw [wire_of hc]; exact p1, fun hi hg => by rw [wire_of hc, hu]; exact p2 (hi c hco) (hg c hco).2 (hg c hco).1⟩, ?_⟩
    rw [b1, wire_of rfl]
    dsimp only
    rw [a1, List.nil_append] at b3
    rw [p3.wire, ← b3, ← List.append_assoc]
    exact List.prefix_append _ _

/-- Leaving without an exception, however it ends. -/
theorem wire_done {f : Finalizers} {n m : Nat} {stmt : Bytes} {db : Db} {r1 r2 : Rcv} {ops : List Op} {o : Lifecycle.Outcome} (hr : Reached db)
    (h1 : CopyReceiver.enter f n stmt { db := db } = (r1, .ok)) (hp : Prompt r1 ops) (hv : (ops.foldl apply r1).view = []) (h2 : CopyReceiver.exit m .none (ops.foldl apply r1) = (r2, o)) :
    Unreported r1.db ∨ ∃ pre, Before db pre ∧ wire r2.db <+: pre ++ upload stmt [] ++ accepted ops ++ frames [copyDone, syncMsg] ∧
      (Completed (some o) → wire r2.db = pre ++ upload stmt [] ++ accepted ops ++ frames [copyDone, syncMsg]) := by
  obtain ⟨s, r, st, before, rfl⟩ := hr
  obtain ⟨c, hc, hb⟩ := history_conn s r st before
  generalize (calls (established s r st) before).1 = db at *
  obtain ⟨a1, a2, d, a3, _, a5⟩ := entered hc hb h1
  obtain ⟨evs, w, b1, b2, b3⟩ := ops_spec ops r1 a3 hp
  generalize ops.foldl apply r1 = ro at *
  unfold CopyReceiver.exit at h2
  rw [b2, a2] at h2
  dsimp only at h2
  rw [if_neg (by rw [hv]; simp)] at h2
  cases hz : pqComplete m (CopyLoad.give c.nextId none ro.db) with
  | mk db2 q =>
    rw [hz] at h2
    cases h2
    rcases a5 with ⟨y, hy, hf⟩ | ⟨pre, p1, p2, p3, _⟩
    · exact .inl ⟨d, y, by unfold connOf; rw [a3], hy, hf⟩
    · right
      have hco : connOf db = some c := by unfold connOf; rw [hc]
      have hu : unsent db = c.messageData := by unfold unsent; rw [hco]
      obtain ⟨e2, he2, ho⟩ := out_done (db := ro.db) (c := { d with sends := evs, wire := d.wire ++ w }) (by rw [b1]) (in_sent p3 evs w)
      obtain ⟨g, g1, g2, g3⟩ := complete_out (objE_ser _) he2 ho hz
      rw [hv, List.append_nil, a1, List.nil_append] at b3
      rw [b3, objE_bytes] at g2 g3
      refine ⟨pre, ⟨by rw [wire_of hc]; exact p1, fun hi hg => by rw [wire_of hc, hu]; exact p2 (hi c hco) (hg c hco).2 (hg c hco).1⟩, by rw [wire_of g1]; exact g2, fun h => ?_⟩
      rw [wire_of g1]
      apply g3
      rcases h with h | ⟨m, h⟩
      · exact .inl (by injection h)
      · exact .inr ⟨m, by injection h⟩

/-- Leaving with an exception. -/
theorem wire_failed {f : Finalizers} {n m : Nat} {stmt : Bytes} {db : Db} {r1 r2 : Rcv} {ops : List Op} {o : Lifecycle.Outcome} (hr : Reached db)
    (h1 : CopyReceiver.enter f n stmt { db := db } = (r1, .ok)) (hp : Prompt r1 ops) (h2 : CopyReceiver.exit m .exception (ops.foldl apply r1) = (r2, o)) :
    Unreported r1.db ∨ ∃ pre, Before db pre ∧ wire r2.db <+: pre ++ upload stmt [] ++ accepted ops ++ frames [copyFail, syncMsg] ∧
      (Completed (some o) → wire r2.db = pre ++ upload stmt [] ++ accepted ops ++ frames [copyFail, syncMsg]) := by
  obtain ⟨s, r, st, before, rfl⟩ := hr
  rcases C73_failed s r st before f n stmt r1 r2 ops m .exception o h1 hp (.inl rfl) h2 with h | ⟨pre, k1, k2, k3, k4⟩
  · exact .inl h
  · refine .inr ⟨pre, ⟨k1, k4⟩, k2, fun h => k3 ?_⟩
    rcases h with h | ⟨m, h⟩
    · exact .inl (by injection h)
    · exact .inr ⟨m, by injection h⟩

/-- The COPY of the destination was not started, or started with the failure of a transaction unreported, or it is sound. -/
def Fate (rows : List Bytes) (e : Bool) (d : Dest) (s : Slot) : Prop :=
  (s.rcv.db = d.db ∨ ((CopyReceiver.enter d.fin d.fuel d.stmt { db := d.db }).2 ≠ .ok ∧ s.rcv.db = (CopyReceiver.enter d.fin d.fuel d.stmt { db := d.db }).1.db)) ∨
  ∃ r1, CopyReceiver.enter d.fin d.fuel d.stmt { db := d.db } = (r1, .ok) ∧ (Unreported r1.db ∨ Sound rows e d.db d.stmt s.rcv.db s.left)

theorem not_completed_none : ¬ Completed none := by
  rintro (h | ⟨m, h⟩) <;> cases h

/-- Not left. -/
theorem fate_still {rows done last : List Bytes} {e : Bool} {data : Bytes} {d : Dest} {s : Slot} (hr : Reached d.db) (hd : data <+: copyFrames (done ++ last)) (h1 : done <+: rows) (h2 : last.length ≤ 1)
    (h : FlowN data d s) : Fate rows e d s := by
  rcases h with ⟨_, _, h⟩ | ⟨r1, ops, k1, k2, k3, _, k5, k6⟩
  · exact .inl h
  · refine .inr ⟨r1, k1, ?_⟩
    rcases wire_still hr k1 k3 with h | ⟨pre, b, w⟩
    · exact .inl h
    · refine .inr ⟨pre, b, .inl ⟨done, last, h1, h2, ?_, fun h => absurd (by rw [k6] at h; exact h) not_completed_none⟩⟩
      rw [k2, ← upload_rows, ← List.append_assoc]
      refine w.trans ?_
      rw [List.append_assoc (pre ++ upload d.stmt [])]
      exact (List.prefix_append_right_inj _).2 ((k5.trans hd).trans (List.prefix_append _ _))

/-- Left with an exception. -/
theorem fate_failed {rows done last : List Bytes} {e : Bool} {data : Bytes} {d : Dest} {s : Slot} {m : Nat} {r : Rcv} {o : Lifecycle.Outcome} (hr : Reached d.db) (hd : data = copyFrames (done ++ last))
    (h1 : done <+: rows) (h2 : last.length ≤ 1) (h : FlowN data d s) (ha : s.active = true) (he : CopyReceiver.exit m .exception s.rcv = (r, o)) : Fate rows e d { s with rcv := r, left := some o } := by
  rcases h with ⟨_, hx, h⟩ | ⟨r1, ops, k1, k2, k3, k4, _, _⟩
  · unfold CopyReceiver.exit at he
    rw [hx] at he
    cases he
    exact .inl h
  · refine .inr ⟨r1, k1, ?_⟩
    rw [k2] at he
    rcases wire_failed hr k1 k3 he with h | ⟨pre, b, w, w2⟩
    · exact .inl h
    · refine .inr ⟨pre, b, .inl ⟨done, last, h1, h2, ?_⟩⟩
      rw [← upload_rows, ← hd, ← k4 ha, ← List.append_assoc]
      exact ⟨w, w2⟩

/-- Left without one. -/
theorem fate_done {rows : List Bytes} {d : Dest} {s : Slot} {m : Nat} {r : Rcv} {o : Lifecycle.Outcome} (hr : Reached d.db) (h : FlowR (copyFrames rows) d s) (ha : s.active = true)
    (he : CopyReceiver.exit m .none s.rcv = (r, o)) : Fate rows false d { s with rcv := r, left := some o } := by
  obtain ⟨⟨r1, ops, k1, k2, k3, k4, _, _⟩, hv⟩ := h
  refine .inr ⟨r1, k1, ?_⟩
  have hv := hv ha
  rw [k2] at he hv
  rcases wire_done hr k1 k3 hv he with h | ⟨pre, b, w, w2⟩
  · exact .inl h
  · refine .inr ⟨pre, b, .inr ⟨rfl, ?_⟩⟩
    rw [k4 ha] at w w2
    unfold Committed
    rw [← upload_rows, ← List.append_assoc]
    exact ⟨w, w2⟩

/-- Left without one, and it returned. -/
theorem fate_ok {rows : List Bytes} {d : Dest} {s : Slot} {m : Nat} {r : Rcv} (hr : Reached d.db) (h : FlowR (copyFrames rows) d s) (ha : s.active = true)
    (he : CopyReceiver.exit m .none s.rcv = (r, .ok)) : ∃ pre, Before d.db pre ∧ wire r.db = pre ++ upload d.stmt rows ++ frames [copyDone, syncMsg] := by
  obtain ⟨⟨r1, ops, k1, k2, k3, k4, _, _⟩, hv⟩ := h
  have hv := hv ha
  obtain ⟨x, y, z, before, hr⟩ := hr
  rw [k2] at he hv
  rw [hr] at k1
  obtain ⟨pre, q1, q2, q3⟩ := C73_success x y z before d.fin d.fuel d.stmt r1 r ops m k1 k3 hv he
  rw [← hr] at q1 q3
  refine ⟨pre, ⟨q1, q3⟩, ?_⟩
  rw [q2, k4 ha, ← upload_rows d.stmt rows, List.append_assoc pre]

end PG.Transfer
