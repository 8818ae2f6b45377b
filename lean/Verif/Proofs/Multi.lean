import Verif.Spec.Fetch
/-! # Proofs about `MultiXactStream` -/
namespace PG.Fetch

/-- The answer on its way and what is left after it. -/
structure Holds {α : Type} (c : Nat) (m : Multi α) (r : Reply α) : Prop where
  size : m.chunksize = c
  asked : m.asked = c
  pending : m.pending = some r
  short : r.failed = false → r.rows.length ≤ c ∧ (r.rows.length < c → m.portal.rows = [] ∧ m.portal.fails = false)
  failed : r.failed = true → r.rows.length < c ∧ m.portal.fails = true

/-- What the server answers, for a positive quantity. -/
theorem ask_cases {α : Type} (w : Way) {n : Nat} (hn : 0 < n) (p : Portal α) :
    ((p.ask w n).1.failed = false ∧ p.rows = (p.ask w n).1.rows ++ (p.ask w n).2.rows ∧ (p.ask w n).1.rows.length ≤ n ∧ (p.ask w n).2.fails = p.fails ∧
      ((p.ask w n).1.rows.length < n → (p.ask w n).2.rows = [] ∧ p.fails = false)) ∨
    ((p.ask w n).1.failed = true ∧ (∃ k, (p.ask w n).1.rows = p.rows.take k) ∧ (p.ask w n).1.rows.length < n ∧ p.fails = true ∧ (p.ask w n).2.fails = true ∧ p.rows.length < n) := by
  unfold Portal.ask
  rw [if_neg (by omega)]
  by_cases h : n ≤ p.rows.length
  · rw [if_pos h]
    left
    refine ⟨rfl, (List.take_append_drop n p.rows).symm, ?_, rfl, fun e => ?_⟩
    · dsimp only; rw [List.length_take]; omega
    · exfalso; dsimp only at e; rw [List.length_take] at e; omega
  · rw [if_neg h]
    unfold Portal.rest
    cases hf : p.fails with
    | true =>
      right
      simp only [if_pos]
      refine ⟨trivial, ⟨_, rfl⟩, ?_, trivial, trivial, by omega⟩
      rw [List.length_take]; omega
    | false =>
      left
      simp only [Bool.false_eq_true, if_false]
      refine ⟨trivial, by simp, by omega, trivial, fun _ => ⟨trivial, trivial⟩⟩

theorem ask_holds {α : Type} {c : Nat} (hc : 0 < c) {m : Multi α} (hs : m.chunksize = c) (ha : m.asked = c) :
    Holds c { m with portal := (m.portal.ask m.way m.asked).2, pending := some (m.portal.ask m.way m.asked).1, running := true } (m.portal.ask m.way m.asked).1 := by
  subst ha
  rcases ask_cases m.way hc m.portal with ⟨h1, h2, h3, h4, h5⟩ | ⟨h1, h2, h3, h4, h5, h6⟩
  · exact ⟨hs, rfl, rfl, fun _ => ⟨h3, fun e => ⟨(h5 e).1, by dsimp only; rw [h4]; exact (h5 e).2⟩⟩, fun e => by rw [h1] at e; cases e⟩
  · exact ⟨hs, rfl, rfl, fun e => (by rw [h1] at e; cases e), fun _ => ⟨h3, h5⟩⟩

theorem start_holds {α : Type} {c : Nat} (hc : 0 < c) (w : Way) (p : Portal α) : Holds c (start w p c) (p.ask w c).1 :=
  ask_holds hc (m := { way := w, portal := p, pending := none, running := true, asked := c, chunksize := c }) rfl rfl

theorem disturb_holds {α : Type} {c : Nat} {m : Multi α} {r : Reply α} (h : Holds c m r) : Holds c (disturb m) r := ⟨h.size, h.asked, h.pending, h.short, h.failed⟩

/-- One call of `next()`. -/
theorem nextMulti_cases {α β : Type} (decode : List α → Option (List β)) (other : Bool) {c : Nat} (hc : 0 < c) {m : Multi α} {r : Reply α} (h : Holds c m r) :
    ((m.running = true ∧ r.failed = true ∧ (nextMulti decode other m).1 = .raised)) ∨
    (¬ (m.running = true ∧ r.failed = true) ∧
      ((r.rows.length = c ∧ other = true ∧ (nextMulti decode other m).1 = .raised) ∨
       (r.rows.length = c ∧ other = false ∧ r.failed = false ∧ (nextMulti decode other m).1 = (match decode r.rows with | some x => .chunk x | none => .raised) ∧
          Holds c (nextMulti decode other m).2 (m.portal.ask m.way c).1 ∧ (nextMulti decode other m).2.portal = (m.portal.ask m.way c).2) ∨
       (r.rows = [] ∧ (nextMulti decode other m).1 = .stop) ∨
       (r.rows ≠ [] ∧ r.rows.length ≠ c ∧ (nextMulti decode other m).1 = (match decode r.rows with | some x => .chunk x | none => .raised) ∧ (nextMulti decode other m).2.pending = none))) := by
  unfold nextMulti
  rw [h.pending]
  dsimp only
  by_cases h1 : m.running = true ∧ r.failed = true
  · left
    rw [if_pos h1]
    exact ⟨h1.1, h1.2, rfl⟩
  · right
    rw [if_neg h1]
    refine ⟨h1, ?_⟩
    by_cases h2 : r.rows.length = c
    · rw [if_pos (by rw [h.size]; exact h2)]
      cases other with
      | true => left; exact ⟨h2, rfl, rfl⟩
      | false =>
        right; left
        have hnf : r.failed = false := by
          cases hf : r.failed with
          | false => rfl
          | true => have := (h.failed hf).1; omega
        refine ⟨h2, rfl, hnf, rfl, ?_, ?_⟩
        · have := ask_holds hc h.size h.asked
          simp only [Bool.false_eq_true, if_false]
          have ha := h.asked
          subst ha
          exact this
        · simp only [Bool.false_eq_true, if_false]
          rw [h.asked]
    · rw [if_neg (by rw [h.size]; exact h2)]
      right; right
      by_cases h3 : r.rows = []
      · left
        rw [if_pos (by rw [h3]; rfl)]
        exact ⟨h3, rfl⟩
      · right
        rw [if_neg (by simpa using h3)]
        exact ⟨h3, h2, rfl, rfl⟩

/-- An exhausted stream stays so. -/
theorem turn_none {α β : Type} (decode : List α → Option (List β)) (t : Between) {m : Multi α} (h : m.pending = none) : (turn decode t m).1 = .stop := by
  cases t <;> simp only [turn, nextMulti, disturb, h]

theorem iterate_none {α β : Type} (decode : List α → Option (List β)) (ts : List Between) {m : Multi α} (h : m.pending = none) : (iterateMulti decode ts m).1 = [] ∧ (ts ≠ [] → (iterateMulti decode ts m).2.1 = .stop) := by
  cases ts with
  | nil => exact ⟨rfl, fun e => absurd rfl e⟩
  | cons t ts =>
    have := turn_none decode t h
    unfold iterateMulti
    generalize turn decode t m = p at this
    obtain ⟨o, m'⟩ := p
    dsimp only at this
    subst this
    exact ⟨rfl, fun _ => rfl⟩

end PG.Fetch
