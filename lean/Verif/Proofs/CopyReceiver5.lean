import Verif.Proofs.CopyReceiver4
import Verif.Spec.CopyReceiver
/-!
# Receiving into a COPY: entering, transmitting and leaving
-/
namespace PG.CopyReceiver
open PG PG.Element3 PG.Xact3 PG.Client3 PG.Lifecycle PG.CopyLoad PG.Spec.Client PG.Spec.Lifecycle

theorem ops_spec : ∀ (ops : List Op) (r : Rcv) {c : Conn Y}, r.db.pq = .conn c → Prompt r ops →
    ∃ evs w, (ops.foldl apply r).db = { r.db with pq := .conn { c with sends := evs, wire := c.wire ++ w } } ∧
      (ops.foldl apply r).xact = r.xact ∧ w ++ (ops.foldl apply r).view = r.view ++ accepted ops
  | [], r, c, hc, _ => ⟨c.sends, [], by rw [List.append_nil, ← hc]; rfl, rfl, by simp [accepted]⟩
  | .accept d :: ops, r, c, hc, hp => by
    obtain ⟨hv, hp⟩ := hp
    obtain ⟨evs, w, h1, h2, h3⟩ := ops_spec ops (apply r (.accept d)) (c := c) hc hp
    refine ⟨evs, w, h1, h2, ?_⟩
    rw [List.foldl_cons, h3, hv]
    rfl
  | .transmit :: ops, r, c, hc, hp => by
    have hq : ∃ evs w, (apply r .transmit).db = { r.db with pq := .conn { c with sends := evs, wire := c.wire ++ w } } ∧
      (apply r .transmit).xact = r.xact ∧ w ++ (apply r .transmit).view = r.view := by
      unfold apply transmit
      rw [hc]
      dsimp only
      obtain ⟨s, _⟩ := sendLoop_spec (plug r.db.socket c).sends r.view []
      have h2 := sendLoop_shift c.wire (plug r.db.socket c).sends r.view []
      rw [List.append_nil] at h2
      rw [h2]
      generalize sendLoop (plug r.db.socket c).sends r.view [] = z at s
      obtain ⟨e, v, y, q⟩ := z
      exact ⟨e, y, rfl, rfl, s⟩
    obtain ⟨e1, w1, g1, g2, g3⟩ := hq
    obtain ⟨evs, w, h1, h2, h3⟩ := ops_spec ops (apply r .transmit) (c := { c with sends := e1, wire := c.wire ++ w1 }) (by rw [g1]) hp
    refine ⟨evs, w1 ++ w, ?_, h2.trans g2, ?_⟩
    · rw [List.foldl_cons, h1, g1]
      dsimp only
      rw [List.append_assoc]
    · rw [List.foldl_cons, List.append_assoc, h3, ← List.append_assoc, g3]
      rfl

/-- In the COPY: ready for data, `w` was sent. -/
structure In (k : Nat) (stmt : Bytes) (w : Bytes) (c : Conn Y) : Prop where
  r : R c
  data : c.messageData = []
  wire : c.wire = w
  neat : c.written.map (·.id) = c.writing.map (·.id)
  notE : c.writing.map (·.id) ≠ some (objE k).id
  notF : c.writing.map (·.id) ≠ some (objF k).id
  ours : Ours k stmt c (fun x => Asked stmt x.inst ∧ x.inst.messages = .copyFail ∧ Fresh c x.inst)

theorem in_of_ready {G : List Obj} {k n : Nat} {stmt : Bytes} {d : Conn Y} (hi : I d) (hl : Last G n) (ho : Ours k stmt d (fun x => Ready G stmt d x.inst)) :
    In k stmt d.wire d := by
  obtain ⟨x, h1, h2, h3, h4⟩ := ho
  have hw : d.written = G.getLast? ∧ d.writing = G.getLast? := by
    obtain ⟨g, _, _, g3, g4⟩ := hi.1
    rcases g4 with ⟨g4, g5⟩ | ⟨b, r, g4, g5, _⟩
    · rw [h4.log] at g4
      subst g4
      exact ⟨g3, g5⟩
    · have := h4.clean.2.2 b (by rw [g4]; simp)
      rw [g5] at this
      cases this
  refine ⟨hi.2, h4.clean.1, rfl, by rw [hw.1, hw.2], ?_, ?_, x, h1, h2, h3, h4.asked, h4.fail, h4.fresh⟩
  · rw [hw.2]; exact last_not hl (by unfold objE; simp) (by unfold objE; simp)
  · rw [hw.2]; exact last_not hl (by unfold objF; simp) (by unfold objF; simp)

theorem in_sent {k : Nat} {stmt w : Bytes} {c : Conn Y} (h : In k stmt w c) (evs : List SendEv) (a : Bytes) : In k stmt (w ++ a) { c with sends := evs, wire := c.wire ++ a } :=
  ⟨R_congr (c := c) rfl h.r, h.data, by rw [h.wire], h.neat, h.notE, h.notF, h.ours⟩

theorem objE_ser (k : Nat) : Serializable (objE k) = true := by
  show Serializable (objE 0) = true
  decide +kernel
theorem objF_ser (k : Nat) : Serializable (objF k) = true := by
  show Serializable (objF 0) = true
  decide +kernel

/-- With CopyDone to be sent. -/
theorem out_done {k : Nat} {stmt w : Bytes} {db : Db} {c : Conn Y} (hc : db.pq = .conn c) (h : In k stmt w c) :
    ∃ d, (give k none db).pq = .conn d ∧ Out w (objE k) k stmt d := by
  obtain ⟨x, h1, h2, h3, h4, h5, h6⟩ := h.ours
  unfold give
  rw [hc]
  dsimp only
  rw [h1]
  dsimp only
  rw [if_pos h2]
  refine ⟨_, rfl, R_congr (c := c) rfl h.r, by dsimp only; rw [h.data, h.wire, List.append_nil]; exact List.prefix_append _ _, _, rfl, h2, h3, .inl ⟨?_, h6, ?_, .inl rfl, h.neat, .inl ⟨h.notE, ?_⟩⟩⟩
  · exact ⟨h4.1, h4.2, h4.3, h4.4⟩
  · exact asked_obj h2 ⟨h4.1, h4.2, h4.3, h4.4⟩ rfl
  · dsimp only; rw [h.data, h.wire, List.append_nil]

/-- With CopyFail to be sent, after what was left of the data. -/
theorem out_fail {k : Nat} {stmt w : Bytes} {c : Conn Y} (v : Bytes) (h : In k stmt w c) : Out (w ++ v) (objF k) k stmt { c with messageData := v } := by
  obtain ⟨x, h1, h2, h3, h4, h5, h6⟩ := h.ours
  refine ⟨R_congr (c := c) rfl h.r, by dsimp only; rw [h.wire]; exact List.prefix_append _ _, x, h1, h2, h3, .inl ⟨h4, h6, ?_, .inr h5, h.neat, .inl ⟨h.notF, by dsimp only; rw [h.wire]⟩⟩⟩
  show (⟨x.oidOf, outItems x.inst⟩ : Obj) = objF k
  unfold IX.oidOf outItems objF
  rw [h5]
  dsimp only
  rw [h2, h4.pos, h4.tail]
  rfl

end PG.CopyReceiver
