import Verif.Proofs.FetchWire2
import Verif.Props.Statement
/-! # What the constructor sees -/
namespace PG.FetchWire
open PG
open PG.PBuffer hiding Msg
open PG.Element3 PG.Xact3 PG.Client3 PG.Fetch PG.Spec PG.Spec.Xact PG.Spec.Fetch PG.Spec.Reply PG.Spec.Received PG.Spec.FetchWire PG.Statement

/-- What comes is not unexpected. -/
def Says (copy : Bool) (s : Held) : Prop :=
  s.obj.state ≠ .complete → ∃ M, Linked s M ∧ Full s.obj s.conn.nextId M ∧ M ≠ [] ∧ firstSeen copy (messagesReceived s.obj ++ meaning M) ≠ .unexpected

theorem seen_prefix {copy : Bool} {a b : List Proc} (h : firstSeen copy (a ++ b) ≠ .unexpected) : firstSeen copy a ≠ .unexpected := by
  intro e
  rw [firstSeen_append, e, if_neg (by simp)] at h
  exact h rfl

theorem meaning_append (a b : List Msg) : meaning (a ++ b) = meaning a ++ meaning b := by
  unfold meaning
  exact List.filterMap_append

/-- One batch of an answer that is complete. -/
theorem full_batch {i : Inst} {k : Nat} {ms M : List Msg} (h : Full i k (ms ++ M)) (hrecv : Receiving i) (ho : Old i k) (hms : ms ≠ []) :
    ∃ i' n p, deliver i ⟨k, ms⟩ = (i', .ok n) ∧ i'.fatal = none ∧ i'.completed = i.completed ++ [(k, p)] ∧ p = meaning (ms.take n) ∧
      (i'.state ≠ .complete → n = ms.length ∧ Receiving i' ∧ Full i' (k + 2) M) := by
  have key : ∀ bs, Batches (k + 2) M bs → ∃ i' n m, deliver i ⟨k, ms⟩ = (i', .ok n) ∧ (feed i' bs).2.1 = .ok m ∧ (feed i' bs).1.state = .complete ∧ (feed i' bs).1.fatal = none ∧ strip ((ms ++ M).take (n + m)) = strip (ms ++ M) := by
    intro bs hb
    obtain ⟨m, h1, h2, h3, h4⟩ := h _ (batches_cons hms hb)
    unfold feed at h1 h2 h3
    rw [if_pos hrecv] at h1 h2 h3
    cases hd : deliver i ⟨k, ms⟩ with
    | mk i' r =>
      rw [hd] at h1 h2 h3
      cases r with
      | error e => cases h1
      | ok n =>
        dsimp only at h1 h2 h3
        cases hr : (feed i' bs).2.1 with
        | error e => rw [hr] at h1; cases h1
        | ok q =>
          rw [hr] at h1
          cases h1
          exact ⟨i', n, q, rfl, hr, h2, h3, h4⟩
  obtain ⟨bs0, hb0⟩ := batches_some (k + 2) M
  obtain ⟨i', n, m, h1, h2, h3, h4, h5⟩ := key bs0 hb0
  have hfat := feed_fatal_mono bs0 i' h4
  have hfr : Fresh i [⟨k, ms⟩] := ⟨by simp, fun x hx => by
    rw [List.mem_singleton.mp hx]
    exact ⟨hms, by have := ho.last; show k ≠ _; omega, fun c hc e => by have := ho.completed c hc; have e : c.1 = k := e; omega⟩⟩
  have hall := Received.deliver_all hrecv hfr h1 hfat
  obtain ⟨p, q1, q2, q3, q4, q5⟩ := deliver_data hrecv hfr h1 hfat
  refine ⟨i', n, _, h1, hfat, hall, rfl, fun hnc => ?_⟩
  have hn : n = ms.length := q4 hnc
  subst hn
  refine ⟨rfl, ?_, ?_⟩
  · refine Decidable.byContradiction fun hn => ?_
    rw [feed_stop hn] at h3
    exact hnc h3
  · intro bs hb
    obtain ⟨i2, n2, m2, g1, g2, g3, g4, g5⟩ := key bs hb
    rw [h1] at g1
    obtain ⟨rfl, g1⟩ := Prod.mk.inj g1
    cases g1
    refine ⟨m2, g2, g3, g4, ?_⟩
    rw [List.take_length_add_append] at g5
    unfold strip at g5 ⊢
    rw [List.filter_append, List.filter_append] at g5
    exact List.append_cancel_left g5

theorem full_ne {i : Inst} {k : Nat} {M : List Msg} (h : Full i k M) (hc : i.state ≠ .complete) : M ≠ [] := by
  rintro rfl
  obtain ⟨m, _, h2, _⟩ := h [] ⟨rfl, by simp, by simp⟩
  exact hc h2

theorem meaning_take (ms : List Msg) (n : Nat) : ∃ l, meaning ms = meaning (ms.take n) ++ l :=
  ⟨meaning (ms.drop n), by rw [← meaning_append, List.take_append_drop]⟩

theorem says_step {copy : Bool} {s s' : Held} (h : Says copy s) (ho : Old s.obj s.conn.nextId) (hc : s.obj.state ≠ .complete) (e : pqStep s = (s', .fine)) (hn : firstSeen copy (messagesReceived s.obj) ≠ .unexpected) :
    Says copy s' ∧ firstSeen copy (messagesReceived s'.obj) ≠ .unexpected := by
  obtain ⟨M, hl, hfull, hne, hs⟩ := h hc
  rcases pqStep_linked hl hne with ⟨s1, e1, e2, e3, e4, _⟩ | ⟨ms, M2, hms, hM, hstep⟩
  · rw [e1] at e
    cases e
    exact ⟨fun _ => ⟨M, e2, by rw [e3, e4]; exact hfull, hne, by rw [e3]; exact hs⟩, by rw [e3]; exact hn⟩
  · subst hM
    obtain ⟨i', n, p, d1, d2, d3, d4, d5⟩ := full_batch hfull hl.recv ho hms
    obtain ⟨s1, e1, e2, e3, _, e5⟩ := hstep i' n d1 d2 (fun hnc => ⟨(d5 hnc).2.1, (d5 hnc).1⟩)
    rw [e1] at e
    cases e
    have hrec := Received.received_append s.obj i' _ _ d3
    obtain ⟨l, hl2⟩ := meaning_take ms n
    refine ⟨fun hnc => ?_, ?_⟩
    · rw [e2] at hnc
      obtain ⟨k1, k2, k3⟩ := d5 hnc
      refine ⟨M2, e5 hnc, by rw [e2, e3]; exact k3, full_ne k3 hnc, ?_⟩
      rw [e2, hrec, d4, k1, List.take_length, List.append_assoc, ← meaning_append]
      exact hs
    · rw [e2, hrec, d4]
      rw [meaning_append, hl2, List.append_assoc, ← List.append_assoc] at hs
      exact seen_prefix hs

theorem init_says (copy : Bool) : ∀ (fuel : Nat) {s : Held} {R : List Proc} {f t : Nat}, Gives s R f t → Says copy s → f < fuel → firstSeen copy (messagesReceived s.obj) ≠ .unexpected → (init copy fuel s).1 = .fine
  | 0, _, _, _, _, _, _, h, _ => absurd h (Nat.not_lt_zero _)
  | fuel + 1, s, R, f, t, hg, hs, hf, hn => by
    unfold init
    by_cases hc : s.obj.state = .complete
    · rw [if_pos hc]
    · rw [if_neg hc]
      obtain ⟨s1, f1, e1, e2, e3, _⟩ := gives_step hg hc
      obtain ⟨k1, k2⟩ := says_step hs hg.old hc e1 hn
      rw [e1]
      dsimp only
      obtain ⟨s2, q1, _⟩ := gives_steps (fun _ => false) fuel e2 (by omega)
      cases hz : firstSeen copy (messagesReceived s1.obj) with
      | noise => exact init_says copy fuel e2 k1 (by omega) k2
      | data => rfl
      | null => dsimp only; rw [q1]
      | complete p => dsimp only; rw [q1]
      | unexpected => exact absurd hz k2

/-- What the three commands are. -/
theorem three_commands {cs : List Elem} (h : Three cs) (hcs : ∀ c ∈ cs, IsCommand c) : ∃ n s fi ps fo nm mx, cs = [.bind n s fi ps fo, .execute nm mx, .empty .synchronize] := by
  obtain ⟨h0, ⟨a, ha, hak⟩, ⟨b, hb, hbk⟩, ⟨c, hc, hck⟩⟩ := h
  match cs, h0 with
  | [x, y, z], hlen =>
    clear hlen
    simp only [List.getElem?_cons_zero, List.getElem?_cons_succ, Option.some.injEq] at ha hb hc
    subst ha hb hc
    have ia := hcs x (by simp)
    have ib := hcs y (by simp)
    have ic := hcs z (by simp)
    have h1 : ∃ n s fi ps fo, x = .bind n s fi ps fo := by
      cases x <;> first | exact ⟨_, _, _, _, _, rfl⟩ | (exfalso; revert hak; simp [Elem.kind, Kind.typ]; done) | skip
      · rename_i k; cases k <;> exact absurd hak (by simp [Elem.kind, Kind.typ, EmptyKind.typ])
      · rename_i k d; cases k <;> exact absurd hak (by simp [Elem.kind, Kind.typ, StrKind.typ])
    have h2 : ∃ nm mx, y = .execute nm mx := by
      cases y <;> first | exact ⟨_, _, rfl⟩ | (exfalso; cases ib; done) | (exfalso; revert hbk; simp [Elem.kind, Kind.typ]; done) | skip
      · rename_i k; cases k <;> exact absurd hbk (by simp [Elem.kind, Kind.typ, EmptyKind.typ])
      · rename_i k d; cases k <;> exact absurd hbk (by simp [Elem.kind, Kind.typ, StrKind.typ])
    have h3 : z = .empty .synchronize := by
      cases z <;> first | (exfalso; cases ic; done) | (exfalso; revert hck; simp [Elem.kind, Kind.typ]; done) | skip
      · rename_i k; cases k <;> first | rfl | exact absurd hck (by simp [Elem.kind, Kind.typ, EmptyKind.typ])
      · rename_i k d; cases k <;> exact absurd hck (by simp [Elem.kind, Kind.typ, StrKind.typ])
    obtain ⟨n, s, fi, ps, fo, rfl⟩ := h1
    obtain ⟨nm, mx, rfl⟩ := h2
    subst h3
    exact ⟨n, s, fi, ps, fo, nm, mx, rfl⟩

end PG.FetchWire
