import Verif.Proofs.Multi
/-! # Streams of chunks (C42): `MultiXactInsideBlock`, `MultiXactOutsideBlock` -/
namespace PG.Fetch

theorem mapM_length {α β : Type} {f : α → Option β} : ∀ {l : List α} {out : List β}, l.mapM f = some out → out.length = l.length
  | [], out, h => by cases h; rfl
  | x :: l, out, h => by
    rw [List.mapM_cons] at h
    cases hx : f x with
    | none => rw [hx] at h; cases h
    | some y =>
      rw [hx] at h
      cases hr : l.mapM f with
      | none => rw [hr] at h; cases h
      | some r => rw [hr] at h; cases h; rw [List.length_cons, List.length_cons, mapM_length hr]

theorem mapM_append {α β : Type} {f : α → Option β} : ∀ {l m : List α} {a b : List β}, l.mapM f = some a → m.mapM f = some b → (l ++ m).mapM f = some (a ++ b)
  | [], m, a, b, h, hb => by cases h; exact hb
  | x :: l, m, a, b, h, hb => by
    rw [List.mapM_cons] at h
    cases hx : f x with
    | none => rw [hx] at h; cases h
    | some y =>
      rw [hx] at h
      cases hr : l.mapM f with
      | none => rw [hr] at h; cases h
      | some r =>
        rw [hr] at h
        cases h
        rw [List.cons_append, List.mapM_cons, hx, mapM_append hr hb]
        rfl

theorem mapM_split {α β : Type} {f : α → Option β} : ∀ {l m : List α} {out : List β}, (l ++ m).mapM f = some out → ∃ a b, l.mapM f = some a ∧ m.mapM f = some b ∧ out = a ++ b
  | [], m, out, h => ⟨[], out, by simp, h, rfl⟩
  | x :: l, m, out, h => by
    rw [List.cons_append, List.mapM_cons] at h
    cases hx : f x with
    | none => rw [hx] at h; cases h
    | some y =>
      rw [hx] at h
      cases hr : (l ++ m).mapM f with
      | none => rw [hr] at h; cases h
      | some r =>
        rw [hr] at h
        cases h
        obtain ⟨a, b, h1, h2, h3⟩ := mapM_split hr
        refine ⟨y :: a, b, ?_, h2, by rw [h3]; rfl⟩
        rw [List.mapM_cons, hx, h1]
        rfl

/-- A turn is a `next()` of the stream, disturbed or not. -/
theorem turn_next {α β : Type} (decode : List α → Option (List β)) (t : Between) {c : Nat} {m : Multi α} {r : Reply α} (h : Holds c m r) :
    ∃ m', turn decode t m = nextMulti decode (decide (t = .failing)) m' ∧ Holds c m' r ∧ m'.portal = m.portal ∧ m'.way = m.way ∧ (t = .quiet → m' = m) ∧ (t ≠ .quiet → m'.running = false) := by
  cases t with
  | quiet => exact ⟨m, rfl, h, rfl, rfl, fun _ => rfl, fun e => absurd rfl e⟩
  | statement => exact ⟨disturb m, rfl, disturb_holds h, rfl, rfl, fun e => (by cases e), fun _ => rfl⟩
  | failing => exact ⟨disturb m, rfl, disturb_holds h, rfl, rfl, fun e => (by cases e), fun _ => rfl⟩

/-- Well-formed chunks. -/
def Even {β : Type} (c : Nat) (l : List (List β)) : Prop := (∀ x ∈ l, x ≠ []) ∧ ∀ x ∈ l.dropLast, x.length = c

theorem stream_all {α β : Type} (f : α → Option β) {c : Nat} (hc : 0 < c) : ∀ (ts : List Between) (m : Multi α) (r : Reply α) (out : List β), Holds c m r → r.failed = false → m.portal.fails = false → (∀ t ∈ ts, t ≠ .failing) →
    (r.rows ++ m.portal.rows).length < ts.length → (r.rows ++ m.portal.rows).mapM f = some out →
    (iterateMulti (perRow f) ts m).1.flatten = out ∧ (iterateMulti (perRow f) ts m).2.1 = .stop ∧ Even c (iterateMulti (perRow f) ts m).1
  | [], m, r, out, _, _, _, _, hl, _ => absurd hl (by simp)
  | t :: ts, m, r, out, h, hr, hp, ht, hl, hm => by
    obtain ⟨m', e1, e2, e3, e4, _⟩ := turn_next (perRow f) t h
    have ht0 := ht t List.mem_cons_self
    rw [decide_eq_false ht0] at e1
    unfold iterateMulti
    rw [e1]
    obtain ⟨a, b, q1, q2, rfl⟩ := mapM_split hm
    rcases nextMulti_cases (perRow f) false hc e2 with ⟨_, k, _⟩ | ⟨_, ⟨_, k, _⟩ | ⟨k1, _, _, k4, k5, k6⟩ | ⟨k1, k2⟩ | ⟨k1, k2, k3, k4⟩⟩
    · rw [hr] at k; cases k
    · cases k
    · have hd : perRow f r.rows = some a := q1
      rw [hd] at k4
      generalize nextMulti (perRow f) false m' = p at k4 k5 k6
      obtain ⟨o, m1⟩ := p
      dsimp only at k4 k5 k6
      subst k4
      dsimp only
      have hp' : m'.portal.fails = false := by rw [e3]; exact hp
      rcases ask_cases m'.way hc m'.portal with ⟨g1, g2, g3, g4, g5⟩ | ⟨_, _, _, g4, _⟩
      · have hrows : (m'.portal.ask m'.way c).1.rows ++ m1.portal.rows = m.portal.rows := by rw [k6, ← g2, e3]
        obtain ⟨i1, i2, i3⟩ := stream_all f hc ts m1 _ b k5 g1 (by rw [k6, g4]; exact hp') (fun t h => ht t (List.mem_cons_of_mem _ h)) (by
          rw [hrows]
          simp only [List.length_append, List.length_cons] at hl
          omega) (by rw [hrows]; exact q2)
        have hla := mapM_length q1
        refine ⟨by rw [List.flatten_cons, i1], i2, fun x hx => ?_, fun x hx => ?_⟩
        · rcases List.mem_cons.mp hx with rfl | hx
          · intro e; subst e; simp at hla; omega
          · exact i3.1 x hx
        · cases hit : (iterateMulti (perRow f) ts m1).1 with
          | nil => rw [hit] at hx; simp at hx
          | cons y ys =>
            rw [hit, List.dropLast_cons_cons] at hx
            rcases List.mem_cons.mp hx with rfl | hx
            · omega
            · exact i3.2 x (by rw [hit]; exact hx)
      · rw [hp'] at g4; cases g4
    · have hsh := (e2.short hr).2 (by rw [k1]; exact hc)
      rw [e3] at hsh
      rw [k1] at q1
      rw [hsh.1] at q2
      cases q1
      cases q2
      generalize nextMulti (perRow f) false m' = p at k2
      obtain ⟨o, m1⟩ := p
      dsimp only at k2
      subst k2
      exact ⟨rfl, rfl, by simp [Even]⟩
    · have hsh := (e2.short hr)
      have hsh := hsh.2 (by omega)
      rw [e3] at hsh
      rw [hsh.1] at q2
      cases q2
      have hd : perRow f r.rows = some a := q1
      rw [hd] at k3
      generalize nextMulti (perRow f) false m' = p at k3 k4
      obtain ⟨o, m1⟩ := p
      dsimp only at k3 k4
      subst k3
      dsimp only
      obtain ⟨j1, j2⟩ := iterate_none (perRow f) ts k4
      have hne : ts ≠ [] := by
        rintro rfl
        simp only [List.length_append, List.length_cons, List.length_nil] at hl
        have := List.length_pos_iff.mpr k1
        omega
      have hla := mapM_length q1
      rw [j1, j2 hne]
      refine ⟨by simp, rfl, fun x hx => ?_, fun x hx => by simp at hx⟩
      rw [List.mem_singleton.mp hx]
      intro e; subst e
      have := List.length_pos_iff.mpr k1
      simp at hla; omega

/-- **C42 (chunks).** A query that does not fail, a positive chunk size, statements executed between the calls of `next()` or not: the stream gives every row once, in order, in non-empty chunks that are all full but the last one, and ends. -/
theorem C42_stream {α β : Type} (w : Way) (p : Portal α) (hp : p.fails = false) {c : Nat} (hc : 0 < c) (f : α → Option β) (out : List β) (hm : p.rows.mapM f = some out) (sched : List Between) (hs : ∀ t ∈ sched, t ≠ .failing) (hl : p.rows.length < sched.length) :
    let r := iterateMulti (perRow f) sched (start w p c)
    r.1.flatten = out ∧ r.2.1 = .stop ∧ (∀ x ∈ r.1, x ≠ []) ∧ ∀ x ∈ r.1.dropLast, x.length = c := by
  rcases ask_cases w hc p with ⟨g1, g2, g3, g4, g5⟩ | ⟨_, _, _, g4, _⟩
  · exact stream_all f hc sched (start w p c) _ out (start_holds hc w p) g1 (by show (p.ask w c).2.fails = false; rw [g4]; exact hp) hs (by show ((p.ask w c).1.rows ++ (p.ask w c).2.rows).length < _; rw [← g2]; exact hl)
      (by show ((p.ask w c).1.rows ++ (p.ask w c).2.rows).mapM f = _; rw [← g2]; exact hm)
  · rw [hp] at g4; cases g4

example : (iterateMulti (perRow some) (List.replicate 6 .statement) (start .fetch ⟨[1, 2, 3, 4, 5], false, none, 0⟩ 2)).1 = [[1, 2], [3, 4], [5]] := by decide
example : (iterateMulti (perRow some) (List.replicate 6 .quiet) (start .execute ⟨[1, 2, 3, 4], false, none, 0⟩ 2)).1 = [[1, 2], [3, 4]] := by decide

theorem stream_prefix {α β : Type} (f : α → Option β) {c : Nat} (hc : 0 < c) : ∀ (ts : List Between) (m : Multi α) (r : Reply α) (R : List α), Holds c m r → (r.failed = false → R = r.rows ++ m.portal.rows) → (r.failed = true → ∃ k, r.rows = R.take k) →
    ∃ k, (R.take k).mapM f = some (iterateMulti (perRow f) ts m).1.flatten
  | [], m, r, R, _, _, _ => ⟨0, by simp [iterateMulti]⟩
  | t :: ts, m, r, R, h, hR, hF => by
    obtain ⟨m', e1, e2, e3, e4, _⟩ := turn_next (perRow f) t h
    unfold iterateMulti
    rw [e1]
    generalize decide (t = .failing) = o
    have hnil : ∀ q : Out β × Multi α, (∀ l, q.1 ≠ .chunk l) → ∃ k, (R.take k).mapM f = some (match q with
        | (.chunk r, m') => (r :: (iterateMulti (perRow f) ts m').1, (iterateMulti (perRow f) ts m').2)
        | (o, m') => (([] : List (List β)), o, m')).1.flatten := by
      rintro ⟨q, m1⟩ hq
      cases q with
      | chunk l => exact absurd rfl (hq l)
      | stop => exact ⟨0, by simp⟩
      | raised => exact ⟨0, by simp⟩
      | blocked => exact ⟨0, by simp⟩
    rcases nextMulti_cases (perRow f) o hc e2 with ⟨_, _, k⟩ | ⟨_, ⟨_, _, k⟩ | ⟨k1, _, k3, k4, k5, k6⟩ | ⟨k1, k2⟩ | ⟨k1, k2, k3, k4⟩⟩
    · exact hnil _ (by rw [k]; simp)
    · exact hnil _ (by rw [k]; simp)
    · cases hd : perRow f r.rows with
      | none => rw [hd] at k4; exact hnil _ (by rw [k4]; simp)
      | some a =>
        rw [hd] at k4
        generalize nextMulti (perRow f) o m' = p at k4 k5 k6
        obtain ⟨o', m1⟩ := p
        dsimp only at k4 k5 k6
        subst k4
        dsimp only
        have hRR := hR k3
        rw [← e3] at hRR
        obtain ⟨k, hk⟩ := stream_prefix f hc ts m1 _ m'.portal.rows k5 (fun hh => by
            rcases ask_cases m'.way hc m'.portal with ⟨_, g2, _⟩ | ⟨g1, _⟩
            · rw [k6]; exact g2
            · rw [g1] at hh; cases hh) (fun hh => by
            rcases ask_cases m'.way hc m'.portal with ⟨g1, _⟩ | ⟨_, g2, _⟩
            · rw [g1] at hh; cases hh
            · exact g2)
        refine ⟨r.rows.length + k, ?_⟩
        rw [hRR, List.take_length_add_append, List.flatten_cons]
        exact mapM_append hd hk
    · exact hnil _ (by rw [k2]; simp)
    · cases hd : perRow f r.rows with
      | none => rw [hd] at k3; exact hnil _ (by rw [k3]; simp)
      | some a =>
        rw [hd] at k3
        generalize nextMulti (perRow f) o m' = p at k3 k4
        obtain ⟨o', m1⟩ := p
        dsimp only at k3 k4
        subst k3
        dsimp only
        rw [(iterate_none (perRow f) ts k4).1]
        have : ∃ k, r.rows = R.take k := by
          cases hf : r.failed with
          | true => exact hF hf
          | false => exact ⟨r.rows.length, by rw [hR hf]; simp⟩
        obtain ⟨k, hk⟩ := this
        refine ⟨k, ?_⟩
        rw [← hk]
        show perRow f r.rows = _
        rw [hd]
        simp

/-- **C42 (never wrong rows).** Whatever fails and whatever else happens, what iteration over the stream has given are the first rows of the query. -/
theorem C42_stream_prefix {α β : Type} (w : Way) (p : Portal α) {c : Nat} (hc : 0 < c) (f : α → Option β) (sched : List Between) :
    ∃ k, (p.rows.take k).mapM f = some (iterateMulti (perRow f) sched (start w p c)).1.flatten := by
  refine stream_prefix f hc sched (start w p c) _ p.rows (start_holds hc w p) (fun hh => ?_) (fun hh => ?_)
  · rcases ask_cases w hc p with ⟨_, g2, _⟩ | ⟨g1, _⟩
    · exact g2
    · rw [g1] at hh; cases hh
  · rcases ask_cases w hc p with ⟨g1, _⟩ | ⟨_, g2, _⟩
    · rw [g1] at hh; cases hh
    · exact g2

example : (iterateMulti (perRow some) [.quiet, .statement, .quiet] (start .execute ⟨[1, 2, 3], true, none, 1⟩ 2)).1 = [[1, 2], [3]] := by decide

theorem stream_stop {α β : Type} (f : α → Option β) {c : Nat} (hc : 0 < c) : ∀ (n : Nat) (m : Multi α) (r : Reply α), Holds c m r → m.running = true → (iterateMulti (perRow f) (List.replicate n .quiet) m).2.1 = .stop →
    m.portal.fails = false ∧ r.failed = false ∧ (r.rows ++ m.portal.rows).mapM f = some (iterateMulti (perRow f) (List.replicate n .quiet) m).1.flatten
  | 0, m, r, _, _, h => by cases h
  | n + 1, m, r, hh, hrun, h => by
    rw [List.replicate_succ] at h ⊢
    unfold iterateMulti at h ⊢
    unfold turn at h ⊢
    dsimp only at h ⊢
    rcases nextMulti_cases (perRow f) false hc hh with ⟨_, _, k⟩ | ⟨k0, ⟨_, k, _⟩ | ⟨k1, _, k3, k4, k5, k6⟩ | ⟨k1, k2⟩ | ⟨k1, k2, k3, k4⟩⟩
    · generalize nextMulti (perRow f) false m = p at k h
      obtain ⟨o, m1⟩ := p
      dsimp only at k
      subst k
      cases h
    · cases k
    · cases hd : perRow f r.rows with
      | none =>
        rw [hd] at k4
        generalize nextMulti (perRow f) false m = p at k4 h
        obtain ⟨o, m1⟩ := p
        dsimp only at k4
        subst k4
        cases h
      | some a =>
        rw [hd] at k4
        have krun : (nextMulti (perRow f) false m).2.running = true := by
          unfold nextMulti
          rw [hh.pending]
          dsimp only
          rw [if_neg (by rw [k3]; simp), if_pos (by rw [hh.size]; exact k1)]
          rfl
        generalize nextMulti (perRow f) false m = p at k4 k5 k6 h krun
        obtain ⟨o, m1⟩ := p
        dsimp only at k4 k5 k6 krun
        subst k4
        dsimp only at h ⊢
        obtain ⟨i1, i2, i3⟩ := stream_stop f hc n m1 _ k5 krun h
        rcases ask_cases m.way hc m.portal with ⟨g1, g2, g3, g4, g5⟩ | ⟨g1, _⟩
        · refine ⟨by rw [← g4, ← k6]; exact i1, k3, ?_⟩
          rw [List.flatten_cons]
          refine mapM_append hd ?_
          rw [g2, ← k6]
          exact i3
        · rw [g1] at i2; cases i2
    · have hnf : r.failed = false := by
        cases hf : r.failed with
        | false => rfl
        | true => exact absurd ⟨hrun, hf⟩ k0
      have hsh := (hh.short hnf).2 (by rw [k1]; exact hc)
      refine ⟨hsh.2, hnf, ?_⟩
      generalize nextMulti (perRow f) false m = p at k2
      obtain ⟨o, m1⟩ := p
      dsimp only at k2
      subst k2
      rw [k1, hsh.1]
      rfl
    · have hnf : r.failed = false := by
        cases hf : r.failed with
        | false => rfl
        | true => exact absurd ⟨hrun, hf⟩ k0
      have hsh := (hh.short hnf)
      have hsh := hsh.2 (by omega)
      refine ⟨hsh.2, hnf, ?_⟩
      cases hd : perRow f r.rows with
      | none =>
        rw [hd] at k3
        generalize nextMulti (perRow f) false m = p at k3 h
        obtain ⟨o, m1⟩ := p
        dsimp only at k3
        subst k3
        cases h
      | some a =>
        rw [hd] at k3
        generalize nextMulti (perRow f) false m = p at k3 k4
        obtain ⟨o, m1⟩ := p
        dsimp only at k3 k4
        subst k3
        dsimp only
        rw [(iterate_none (perRow f) _ k4).1, hsh.1]
        have : (r.rows).mapM f = some a := hd
        simp [this]

/-- **C42 (a stream that ends has given everything), if nothing else uses the connection.** Then iteration that ends without an exception has given all the rows, and the query has not failed. Otherwise this is false (`C42_stream_error_lost`, `C42_other_error_loses_rows`). -/
theorem C42_stream_stop_partial {α β : Type} (w : Way) (p : Portal α) {c : Nat} (hc : 0 < c) (f : α → Option β) (n : Nat) (h : (iterateMulti (perRow f) (List.replicate n .quiet) (start w p c)).2.1 = .stop) :
    p.fails = false ∧ p.rows.mapM f = some (iterateMulti (perRow f) (List.replicate n .quiet) (start w p c)).1.flatten := by
  obtain ⟨h1, h2, h3⟩ := stream_stop f hc n (start w p c) _ (start_holds hc w p) rfl h
  rcases ask_cases w hc p with ⟨g1, g2, g3, g4, g5⟩ | ⟨g1, _⟩
  · exact ⟨by rw [← g4]; exact h1, by rw [g2]; exact h3⟩
  · rw [g1] at h2; cases h2

example : (iterateMulti (perRow some) (List.replicate 9 .quiet) (start .execute ⟨[1, 2, 3], false, none, 1⟩ 2)).2.1 = .stop ∧
    (iterateMulti (perRow some) (List.replicate 9 .quiet) (start .execute ⟨[1, 2, 3], true, none, 1⟩ 2)).2.1 = .raised := by decide

/-! ### Findings -/

/-- The query fails after two rows. If another statement is executed before the failing chunk is asked for, that statement raises the error (it is not executed), and the stream ends as if the query had two rows. -/
theorem C42_stream_error_lost : ∃ p : Portal Nat, p.fails = true ∧ (iterateMulti (perRow some) [.quiet, .statement] (start .execute p 2)).1 = [[1, 2]] ∧ (iterateMulti (perRow some) [.quiet, .statement] (start .execute p 2)).2.1 = .stop :=
  ⟨⟨[1, 2], true, none, 0⟩, by decide⟩

/-- And after the exception a further call of `next()` ends the iteration, or gives rows that came before the error. -/
theorem C42_stream_error_forgotten : let m := (turn (perRow some) .quiet (start .execute ⟨[1], true, none, 1⟩ 2)).2
    (turn (perRow some) .quiet (start .execute ⟨[1], true, none, 1⟩ 2)).1 = .raised ∧ (turn (perRow some) .quiet m).1 = .chunk [1] := by decide

/-- The error of another stream is raised by this one's `next()`; all the rows from there on are lost: the next call ends the iteration although the query has more rows, and none of its requests failed. -/
theorem C42_other_error_loses_rows : ∃ p : Portal Nat, p.fails = false ∧ p.rows.length = 5 ∧ (turn (perRow some) .failing (start .fetch p 2)).1 = .raised ∧
    (turn (perRow some) .quiet (turn (perRow some) .failing (start .fetch p 2)).2).1 = .stop :=
  ⟨⟨[1, 2, 3, 4, 5], false, none, 0⟩, by decide⟩

/-- `chunksize` is a public attribute; changed after the stream is made, the first chunk does not have that size, and the rows after it are lost without an error. -/
theorem C42_chunksize_changed : (iterateMulti (perRow some) (List.replicate 9 .quiet) { start .execute ⟨[1, 2, 3, 4, 5], false, none, 0⟩ 2 with chunksize := 4 }).1 = [[1, 2]] ∧
    (iterateMulti (perRow some) (List.replicate 9 .quiet) { start .execute ⟨[1, 2, 3, 4, 5], false, none, 0⟩ 2 with chunksize := 4 }).2.1 = .stop := by decide

/-- With chunk size 0 a stream outside of a transaction block never ends, whatever the query gives: it gives empty chunks. -/
theorem C42_chunksize_zero {α : Type} (rows : List α) : ∀ n, iterateMulti (perRow (some : α → Option α)) (List.replicate n .quiet) (start .fetch ⟨rows, false, none, 0⟩ 0) = (List.replicate n [], .blocked, start .fetch ⟨rows, false, none, 0⟩ 0)
  | 0 => rfl
  | n + 1 => by
    rw [List.replicate_succ, iterateMulti]
    have : turn (perRow (some : α → Option α)) .quiet (start .fetch ⟨rows, false, none, 0⟩ 0) = (.chunk [], start .fetch ⟨rows, false, none, 0⟩ 0) := rfl
    rw [this]
    dsimp only
    rw [C42_chunksize_zero rows n]
    rfl

/-- A chunk with a row that cannot be decoded is lost: the next call of `next()` gives the chunk after it. -/
theorem C42_stream_decode_error : let f := fun n : Nat => if n = 2 then none else some n
    (turn (perRow f) .quiet (start .execute ⟨[1, 2, 3, 4], false, none, 0⟩ 2)).1 = .raised ∧
    (turn (perRow f) .quiet (turn (perRow f) .quiet (start .execute ⟨[1, 2, 3, 4], false, none, 0⟩ 2)).2).1 = .chunk [3, 4] := by decide

end PG.Fetch
