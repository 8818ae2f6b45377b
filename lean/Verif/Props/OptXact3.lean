import Verif.Model.OptXact3
import Verif.Props.OptElement3
import Verif.Props.Xact
/-!
# C96: transactions that receive their rows with the C function

`feedC` is the client with `consume_tuple_messages`, `Spec.Xact.feed` the client without it. The C one takes the rows at the beginning of what was read, and is given the rest
of it again, as another batch.
-/
namespace PG.Props.OptXact3
open PG PG.Element3 PG.Xact3 PG.Spec.Xact PG.OptBuffer PG.OptElement3 PG.OptXact3 PG.Props.OptElement3

/-- Every row message has a body that the C function takes. -/
def RowsOkC (ms : List Msg) : Prop := ∀ x ∈ ms, x.1 = 68 → ∃ l, parseTuple x.2 = .ok l

/-- The messages of all reads. -/
def allReads (bs : List Read) : List Msg := bs.flatMap (·.msgs)

/-- The tuples are new objects, and no read is empty. -/
def FreshC (s : Inst) (bs : List Read) : Prop :=
  (bs.flatMap (fun b => [b.id, b.rest])).Nodup ∧
  ∀ b ∈ bs, b.msgs ≠ [] ∧ ∀ i ∈ [b.id, b.rest], i ≠ s.lastId ∧ ∀ c ∈ s.completed, c.1 ≠ i

/-- **C96** `consume_tuple_messages` gives the rows before the first other message, parsed, and raises exactly when one of them cannot be. -/
theorem C96_consume (ms : List Msg) (rows : List (List (Option Bytes))) :
    consume ms = .ok rows ↔ (ms.takeWhile (fun x => x.1 = 68)).map (fun x => parseTuple x.2) = rows.map Except.ok := by
  induction ms generalizing rows with
  | nil => cases rows <;> simp [consume]
  | cons x xs ih =>
    unfold consume
    by_cases hx : x.1 = 68
    · rw [if_neg (by simpa using hx), List.takeWhile_cons_of_pos (by simpa using hx), List.map_cons]
      cases hp : parseTuple x.2 with
      | error e =>
        refine ⟨fun h => (by cases h), fun h => ?_⟩
        cases rows with
        | nil => cases h
        | cons r rs => rw [List.map_cons, List.cons.injEq] at h; cases h.1
      | ok t =>
        dsimp only
        cases hc : consume xs with
        | error e =>
          refine ⟨fun h => (by cases h), fun h => ?_⟩
          cases rows with
          | nil => cases h
          | cons r rs =>
            rw [List.map_cons, List.cons.injEq] at h
            rw [(ih rs).mpr h.2] at hc
            cases hc
        | ok l =>
          have hl := (ih l).mp hc
          refine ⟨fun h => ?_, fun h => ?_⟩
          · cases h; rw [List.map_cons, hl]
          · cases rows with
            | nil => cases h
            | cons r rs =>
              rw [List.map_cons, List.cons.injEq] at h
              cases h.1
              have := (ih rs).mpr h.2
              rw [hc] at this
              cases this
              rfl
    · rw [if_pos hx, List.takeWhile_cons_of_neg (by simpa using hx), List.map_nil]
      cases rows <;> simp

/-- **C96** a row that cannot be parsed raises ValueError. -/
theorem C96_consume_error (ms : List Msg) (e : CErr) (h : consume ms = .error e) : e = .value := by
  induction ms with
  | nil => cases h
  | cons x xs ih =>
    unfold consume at h
    split at h
    · cases h
    · cases hp : parseTuple x.2 with
      | error e' => rw [hp] at h; cases h; exact C95_parse_error _ _ hp
      | ok t =>
        rw [hp] at h
        dsimp only at h
        cases hc : consume xs with
        | error e' => rw [hc] at h; cases h; exact ih hc
        | ok l => rw [hc] at h; cases h

theorem receiving_iff (s : Inst) : drain.Receiving s = true ↔ Receiving s := by
  unfold drain.Receiving Receiving
  cases s.state with
  | receiving op => exact ⟨fun _ => ⟨op, rfl⟩, fun _ => rfl⟩
  | sending op => exact ⟨fun h => (by cases h), fun ⟨_, h⟩ => (by cases h)⟩
  | complete => exact ⟨fun h => (by cases h), fun ⟨_, h⟩ => (by cases h)⟩

theorem rowsOk_of_C {ms : List Msg} (h : RowsOkC ms) : RowsOk ms := fun x hx ht => by
  obtain ⟨l, hl⟩ := h x hx ht
  exact ⟨_, C95_parse_same _ _ hl⟩

/-- The rows at the beginning, by both functions. -/
theorem consume_rows : ∀ (m1 m2 : List Msg), (∀ x ∈ m1, x.1 = 68) → (∀ x ∈ m2.head?, x.1 ≠ 68) → RowsOkC m1 →
    ∃ rows, consume (m1 ++ m2) = .ok rows ∧ rows.length = m1.length ∧ parseRows m1 = .ok (rows.map asRow)
  | [], m2, _, h2, _ => by
    refine ⟨[], ?_, rfl, rfl⟩
    cases m2 with
    | nil => rfl
    | cons y ys => rw [List.nil_append]; unfold consume; rw [if_pos (h2 y rfl)]
  | x :: xs, m2, h1, h2, hr => by
    obtain ⟨rows, e1, e2, e3⟩ := consume_rows xs m2 (fun y hy => h1 y (List.mem_cons_of_mem _ hy)) h2 (fun y hy => hr y (List.mem_cons_of_mem _ hy))
    have hx := h1 x (List.mem_cons_self ..)
    obtain ⟨l, hl⟩ := hr x (List.mem_cons_self ..) hx
    refine ⟨l :: rows, ?_, by rw [List.length_cons, e2]; rfl, ?_⟩
    · rw [List.cons_append]; unfold consume; rw [if_neg (by simpa using hx), hl, e1]
    · unfold parseRows; rw [if_pos hx, C95_parse_same _ _ hl, e3]; rfl

/-- A batch of rows only. -/
theorem deliver_rows {s : Inst} {i : Nat} {m : List Msg} {rows : List Proc} (hs : s.state = .receiving .putTupledata) (hne : m ≠ [])
    (h : ∀ x ∈ m, x.1 = 68) (hp : parseRows m = .ok rows) (hl : rows.length = m.length) : deliver s ⟨i, m⟩ = fastPush s ⟨i, m⟩ rows := by
  unfold deliver
  rw [hs]
  show putTupledata s ⟨i, m⟩ = _
  unfold putTupledata
  have hg := List.getLast?_eq_some_getLast hne
  have hm : m.getLast hne ∈ m := List.getLast_mem hne
  show (match m.getLast? with | none => _ | some x => _) = _
  rw [hg]
  show (if (m.getLast hne).1 ≠ 68 then _ else _) = _
  rw [if_neg (by simpa using h _ hm)]
  show (match parseRows m with | .error e => _ | .ok rows => _) = _
  rw [hp]
  show (if rows.length ≠ m.length then _ else _) = _
  rw [if_neg (by simpa using hl)]

theorem parseRows_short : ∀ (ms : List Msg) (rows : List Proc), parseRows ms = .ok rows → rows.length = (ms.filter (fun x => x.1 = 68)).length
  | [], rows, h => by cases h; rfl
  | x :: xs, rows, h => by
    unfold parseRows at h
    by_cases hx : x.1 = 68
    · rw [if_pos hx] at h
      cases hp : parseK .tuple x.2 with
      | error e => rw [hp] at h; cases h
      | ok m =>
        rw [hp] at h
        dsimp only at h
        cases hr : parseRows xs with
        | error e => rw [hr] at h; cases h
        | ok r =>
          rw [hr] at h
          cases h
          rw [List.filter_cons_of_pos (by simpa using hx), List.length_cons, List.length_cons, parseRows_short xs r hr]
    · rw [if_neg hx] at h
      rw [List.filter_cons_of_neg (by simpa using hx)]
      exact parseRows_short xs rows h

/-- A batch that begins with something else. -/
theorem deliver_other {s : Inst} {i : Nat} {m : List Msg} (hs : s.state = .receiving .putTupledata) (hne : m ≠ [])
    (h : ∀ x ∈ m.head?, x.1 ≠ 68) (hr : RowsOk m) : deliver s ⟨i, m⟩ = standardPut { s with state := .receiving .standardPut } ⟨i, m⟩ := by
  unfold deliver
  rw [hs]
  show putTupledata s ⟨i, m⟩ = _
  unfold putTupledata
  show (match m.getLast? with | none => _ | some x => _) = _
  rw [List.getLast?_eq_some_getLast hne]
  show (if (m.getLast hne).1 ≠ 68 then _ else _) = _
  by_cases hl : (m.getLast hne).1 = 68
  · rw [if_neg (by simpa using hl)]
    obtain ⟨rows, hp⟩ := parseRows_ok hr
    show (match parseRows m with | .error e => _ | .ok rows => _) = _
    rw [hp]
    show (if rows.length ≠ m.length then _ else _) = _
    rw [if_pos]
    rw [parseRows_short _ _ hp]
    intro e
    rw [List.length_filter_eq_length_iff] at e
    cases m with
    | nil => exact hne rfl
    | cons x xs => exact h x rfl (by simpa using e x (List.mem_cons_self ..))
  · rw [if_pos hl]

theorem deliverC_other {s : Inst} {i : Nat} {m : List Msg} (hs : s.state = .receiving .putTupledata) (hne : m ≠ [])
    (h : ∀ x ∈ m.head?, x.1 ≠ 68) : deliverC s ⟨i, m⟩ = standardPut { s with state := .receiving .standardPut } ⟨i, m⟩ := by
  unfold deliverC
  rw [hs]
  show putTupledataC s ⟨i, m⟩ = _
  unfold putTupledataC
  have : consume m = .ok [] := by
    cases m with
    | nil => exact absurd rfl hne
    | cons x xs => unfold consume; rw [if_pos (h x rfl)]
  show (match consume m with | .error e => _ | .ok [] => _ | .ok (t :: r) => _) = _
  rw [this]

theorem deliverC_rows {s : Inst} {i : Nat} {m1 m2 : List Msg} (hs : s.state = .receiving .putTupledata) (hne : m1 ≠ [])
    (h1 : ∀ x ∈ m1, x.1 = 68) (h2 : ∀ x ∈ m2.head?, x.1 ≠ 68) (hr : RowsOkC m1) :
    deliverC s ⟨i, m1 ++ m2⟩ = deliver s ⟨i, m1⟩ ∧ (deliver s ⟨i, m1⟩).2 = .ok m1.length ∧ (deliver s ⟨i, m1⟩).1.state = .receiving .putTupledata := by
  obtain ⟨rows, e1, e2, e3⟩ := consume_rows m1 m2 h1 h2 hr
  have hd := deliver_rows (i := i) hs hne h1 e3 (by rw [List.length_map, e2])
  rw [hd]
  refine ⟨?_, rfl, hs⟩
  unfold deliverC
  rw [hs]
  show putTupledataC s ⟨i, m1 ++ m2⟩ = _
  unfold putTupledataC
  show (match consume (m1 ++ m2) with | .error e => _ | .ok [] => _ | .ok (t :: r) => _) = _
  rw [e1]
  cases rows with
  | nil => exact absurd (List.length_eq_zero_iff.mp e2.symm) hne
  | cons t r =>
    show (_, Except.ok (t :: r).length) = (_, Except.ok m1.length)
    rw [e2]

/-- After a delivery that leaves the transaction waiting, everything was taken, and other objects are still new. -/
theorem deliver_fresh {s s' : Inst} {b : Batch} {n : Nat} (hs : Receiving s) (hid : b.id ≠ s.lastId) (hc : ∀ x ∈ s.completed, x.1 ≠ b.id)
    (h : deliver s b = (s', .ok n)) (hs' : Receiving s') :
    n = b.msgs.length ∧ s'.lastId = b.id ∧ ∀ x ∈ s'.completed, x ∈ s.completed ∨ x.1 = b.id := by
  have fast : ∀ p : List Proc, fastPush s b p = (s', .ok n) → n = b.msgs.length ∧ s'.lastId = b.id ∧ ∀ x ∈ s'.completed, x ∈ s.completed ∨ x.1 = b.id := by
    intro p hf
    unfold fastPush at hf
    rw [pushCompleted_fresh hc] at hf
    cases hf
    refine ⟨rfl, rfl, fun x hx => ?_⟩
    rcases List.mem_append.mp hx with h | h
    · exact .inl h
    · exact .inr (by rw [List.mem_singleton.mp h])
  rcases deliver_cases s b hs with hd | ⟨_, _, hd⟩ | ⟨_, _, rows, _, _, hd⟩ | ⟨e, hd, _⟩
  · rw [hd] at h
    obtain ⟨_, _, _, _, _, _, _, _, _, hn, _⟩ := standardPut_waiting (s := { s with state := .receiving .standardPut }) hid h hs'
    exact ⟨hn, waiting_ids (s := { s with state := .receiving .standardPut }) hid hc h hs'⟩
  · rw [hd] at h; exact fast _ h
  · rw [hd] at h; exact fast _ h
  · rw [hd] at h; cases h

/-! ## Reads cut into batches -/

theorem map_add (r : Except Err Nat) (a b : Nat) : (r.map (b + ·)).map (a + ·) = r.map ((a + b) + ·) := by
  cases r with
  | error e => rfl
  | ok n => show Except.ok (a + (b + n)) = .ok (a + b + n); rw [Nat.add_assoc]

theorem map_zero (r : Except Err Nat) : r.map (0 + ·) = r := by
  cases r with
  | error e => rfl
  | ok n => show Except.ok (0 + n) = .ok n; rw [Nat.zero_add]

theorem feed_cons {s s' : Inst} {b : Batch} {n : Nat} (hs : Receiving s) (h : deliver s b = (s', .ok n)) (bs : List Batch) :
    feed s (b :: bs) = ((feed s' bs).1, (feed s' bs).2.1.map (n + ·), (feed s' bs).2.2 + 1) := by
  rw [feed, if_pos hs, h]

theorem feed_cons_error {s s' : Inst} {b : Batch} {e : Err} (hs : Receiving s) (h : deliver s b = (s', .error e)) (bs : List Batch) :
    feed s (b :: bs) = (s', .error e, 1) := by
  rw [feed, if_pos hs, h]

/-- Batches after batches. -/
theorem feed_append : ∀ (ps qs : List Batch) (s : Inst),
    (∀ n, (feed s ps).2.1 = .ok n → (feed s ps).2.2 = ps.length →
      feed s (ps ++ qs) = ((feed (feed s ps).1 qs).1, (feed (feed s ps).1 qs).2.1.map (n + ·), ps.length + (feed (feed s ps).1 qs).2.2)) ∧
    (∀ e, (feed s ps).2.1 = .error e → feed s (ps ++ qs) = feed s ps)
  | [], qs, s => by
    refine ⟨fun n h _ => ?_, fun e h => (by cases h)⟩
    cases h
    rw [List.nil_append, feed_nil, map_zero, List.length_nil, Nat.zero_add]
  | b :: ps, qs, s => by
    by_cases hs : Receiving s
    · cases hd : deliver s b with
      | mk s' r =>
        cases r with
        | error e =>
          rw [List.cons_append, feed_cons_error hs hd, feed_cons_error hs hd]
          exact ⟨fun n h => (by cases h), fun _ _ => rfl⟩
        | ok m =>
          rw [List.cons_append, feed_cons hs hd, feed_cons hs hd]
          obtain ⟨h1, h2⟩ := feed_append ps qs s'
          constructor
          · intro n hn hk
            replace hn : (feed s' ps).2.1.map (m + ·) = .ok n := hn
            replace hk : (feed s' ps).2.2 + 1 = ps.length + 1 := hk
            cases hr : (feed s' ps).2.1 with
            | error e => rw [hr] at hn; cases hn
            | ok x =>
              rw [hr] at hn
              cases hn
              rw [h1 x hr (by omega)]
              show (_, ((feed (feed s' ps).1 qs).2.1.map (x + ·)).map (m + ·), ps.length + (feed (feed s' ps).1 qs).2.2 + 1) = _
              rw [map_add, List.length_cons]
              refine Prod.ext rfl (Prod.ext rfl ?_)
              show ps.length + (feed (feed s' ps).1 qs).2.2 + 1 = ps.length + 1 + (feed (feed s' ps).1 qs).2.2
              omega
          · intro e he
            replace he : (feed s' ps).2.1.map (m + ·) = .error e := he
            cases hr : (feed s' ps).2.1 with
            | error e' => rw [h2 e' hr]; exact Prod.ext rfl (Prod.ext (by rw [hr]) rfl)
            | ok x => rw [hr] at he; cases he
    · rw [feed_stop hs, feed_stop hs]
      refine ⟨fun n h hk => ?_, fun e h => (by cases h)⟩
      cases h
      have : ps = [] := by cases hk
      cases hk

/-- The read `ms` does the same as one or two batches. -/
def Pieces (s : Inst) (i j : Nat) (ms : List Msg) : Prop :=
  ∃ ps : List Batch, allMsgs ps = ms ∧ (∀ p ∈ ps, p.msgs ≠ []) ∧ List.Sublist (ps.map (·.id)) [i, j] ∧
    (drain s ms [i, j]).1 = (feed s ps).1 ∧ (drain s ms [i, j]).2.1 = (feed s ps).2.1 ∧
    ∀ n, (feed s ps).2.1 = .ok n → (feed s ps).2.2 = ps.length ∧
      (Receiving (feed s ps).1 → n = ms.length ∧ ((feed s ps).1.lastId = i ∨ (feed s ps).1.lastId = j) ∧
        ∀ x ∈ (feed s ps).1.completed, x ∈ s.completed ∨ x.1 = i ∨ x.1 = j)

theorem pieces_single {s : Inst} {i j : Nat} {ms : List Msg} (hs : Receiving s) (hne : ms ≠ [])
    (hi : i ≠ s.lastId ∧ ∀ c ∈ s.completed, c.1 ≠ i) (hdc : deliverC s ⟨i, ms⟩ = deliver s ⟨i, ms⟩) : Pieces s i j ms := by
  refine ⟨[⟨i, ms⟩], by simp [allMsgs], fun p hp => by rw [List.mem_singleton.mp hp]; exact hne, ?_, ?_⟩
  · show List.Sublist [i] [i, j]
    exact List.Sublist.cons_cons i (List.nil_sublist _)
  · have hds : drain s ms [i, j] = match deliver s ⟨i, ms⟩ with
        | (s, .error e) => (s, .error e, [j])
        | (s, .ok n) => ((drain s (ms.drop n) [j]).1, (drain s (ms.drop n) [j]).2.1.map (n + ·), (drain s (ms.drop n) [j]).2.2) := by
      rw [drain, if_pos ⟨(receiving_iff s).mpr hs, hne⟩, hdc]
      cases deliver s ⟨i, ms⟩ with
      | mk s' r => cases r <;> rfl
    cases hd : deliver s ⟨i, ms⟩ with
    | mk s' r =>
      rw [hd] at hds
      cases r with
      | error e =>
        rw [feed_cons_error hs hd]
        replace hds : drain s ms [i, j] = (s', .error e, [j]) := hds
        rw [hds]
        exact ⟨rfl, rfl, fun n h => (by cases h)⟩
      | ok n =>
        rw [feed_cons hs hd]
        replace hds : drain s ms [i, j] = ((drain s' (ms.drop n) [j]).1, (drain s' (ms.drop n) [j]).2.1.map (n + ·), (drain s' (ms.drop n) [j]).2.2) := hds
        have hend : drain s' (ms.drop n) [j] = (s', .ok 0, [j]) := by
          rw [drain, if_neg]
          rintro ⟨h1, h2⟩
          obtain ⟨e, _⟩ := deliver_fresh (b := ⟨i, ms⟩) hs hi.1 hi.2 hd ((receiving_iff s').mp h1)
          exact h2 (List.drop_eq_nil_iff.mpr (by rw [e]; exact Nat.le_refl _))
        rw [hds, hend]
        refine ⟨rfl, rfl, fun k hk => ⟨rfl, fun hs' => ?_⟩⟩
        cases hk
        obtain ⟨a, b, c⟩ := deliver_fresh (b := ⟨i, ms⟩) hs hi.1 hi.2 hd hs'
        refine ⟨a, .inl b, fun x hx => ?_⟩
        rcases c x hx with h | h
        · exact .inl h
        · exact .inr (.inl h)

/-- One read: the same as one or two batches. -/
theorem drain_pieces {s : Inst} {i j : Nat} {ms : List Msg} (hs : Receiving s) (hne : ms ≠ []) (hij : i ≠ j)
    (hi : i ≠ s.lastId ∧ ∀ c ∈ s.completed, c.1 ≠ i) (hj : j ≠ s.lastId ∧ ∀ c ∈ s.completed, c.1 ≠ j) (hr : RowsOkC ms) : Pieces s i j ms := by
  by_cases hst : s.state = .receiving .putTupledata
  · have hsplit : ms.takeWhile (fun x => x.1 = 68) ++ ms.dropWhile (fun x => x.1 = 68) = ms := List.takeWhile_append_dropWhile
    have h1 : ∀ x ∈ ms.takeWhile (fun x => x.1 = 68), x.1 = 68 := fun x hx => by
      simpa using List.all_eq_true.mp (List.all_takeWhile (l := ms) (p := fun x => x.1 = 68)) x hx
    have h2 : ∀ x ∈ (ms.dropWhile (fun x => x.1 = 68)).head?, x.1 ≠ 68 := fun x hx => by
      have := List.head?_dropWhile_not (fun x : Msg => decide (x.1 = 68)) ms
      rw [Option.mem_def.mp hx] at this
      simpa using this
    generalize ms.takeWhile (fun x => x.1 = 68) = m1 at *
    generalize ms.dropWhile (fun x => x.1 = 68) = m2 at *
    subst hsplit
    by_cases e1 : m1 = []
    · subst e1
      refine pieces_single hs hne hi ?_
      rw [List.nil_append] at hne ⊢
      rw [deliverC_other hst hne h2, deliver_other hst hne h2 (rowsOk_of_C hr)]
    · by_cases e2 : m2 = []
      · subst e2
        refine pieces_single hs hne hi ?_
        obtain ⟨a, _⟩ := deliverC_rows (i := i) hst e1 h1 h2 (fun x hx => hr x (List.mem_append_left _ hx))
        rw [a, List.append_nil]
      · obtain ⟨a, b, c⟩ := deliverC_rows (i := i) hst e1 h1 h2 (fun x hx => hr x (List.mem_append_left _ hx))
        have hr2 : RowsOkC m2 := fun x hx => hr x (List.mem_append_right _ hx)
        cases hd : deliver s ⟨i, m1⟩ with
        | mk s1 r1 =>
          rw [hd] at a b c
          replace b : r1 = .ok m1.length := b
          subst b
          replace c : s1.state = .receiving .putTupledata := c
          have hs1 : Receiving s1 := ⟨_, c⟩
          obtain ⟨_, hl, hcm⟩ := deliver_fresh (b := ⟨i, m1⟩) hs hi.1 hi.2 hd hs1
          replace hl : s1.lastId = i := hl
          have hj1 : j ≠ s1.lastId := by rw [hl]; exact Ne.symm hij
          have hjc : ∀ x ∈ s1.completed, x.1 ≠ j := fun x hx => by
            rcases hcm x hx with h | h
            · exact hj.2 x h
            · rw [h]; exact hij
          have hdr : drain s (m1 ++ m2) [i, j] = ((drain s1 m2 [j]).1, (drain s1 m2 [j]).2.1.map (m1.length + ·), (drain s1 m2 [j]).2.2) := by
            rw [drain, if_pos ⟨(receiving_iff s).mpr hs, hne⟩, a]
            show (match drain s1 ((m1 ++ m2).drop m1.length) [j] with | (s, r, k) => (s, r.map (m1.length + ·), k)) = _
            rw [List.drop_left]
          have hd2 : deliverC s1 ⟨j, m2⟩ = deliver s1 ⟨j, m2⟩ := by
            rw [deliverC_other c e2 h2, deliver_other c e2 h2 (rowsOk_of_C hr2)]
          refine ⟨[⟨i, m1⟩, ⟨j, m2⟩], by simp [allMsgs], ?_, List.Sublist.refl _, ?_⟩
          · intro p hp
            rcases List.mem_cons.mp hp with rfl | hp
            · exact e1
            · rw [List.mem_singleton.mp hp]; exact e2
          · cases hx : deliver s1 ⟨j, m2⟩ with
            | mk s2 r2 =>
              rw [hx] at hd2
              cases r2 with
              | error e =>
                have hdj : drain s1 m2 [j] = (s2, .error e, []) := by
                  rw [drain, if_pos ⟨(receiving_iff s1).mpr hs1, e2⟩, hd2]
                rw [feed_cons hs hd, feed_cons_error hs1 hx, hdr, hdj]
                exact ⟨rfl, rfl, fun n h => (by cases h)⟩
              | ok n2 =>
                have hdj : drain s1 m2 [j] = (s2, .ok (n2 + 0), []) := by
                  rw [drain, if_pos ⟨(receiving_iff s1).mpr hs1, e2⟩, hd2]
                  rfl
                rw [feed_cons hs hd, feed_cons hs1 hx, hdr, hdj]
                refine ⟨rfl, ?_, fun k hk => ⟨rfl, fun hs2 => ?_⟩⟩
                · rfl
                · cases hk
                  obtain ⟨p, q, t⟩ := deliver_fresh (b := ⟨j, m2⟩) hs1 hj1 hjc hx hs2
                  replace p : n2 = m2.length := p
                  refine ⟨?_, .inr q, fun x hx => ?_⟩
                  · show m1.length + (n2 + 0) = _
                    rw [p, List.length_append]; rfl
                  · rcases t x hx with h | h
                    · rcases hcm x h with h | h
                      · exact .inl h
                      · exact .inr (.inl h)
                    · exact .inr (.inr h)
  · refine pieces_single hs hne hi ?_
    unfold deliverC
    split
    · rename_i h; exact absurd h hst
    · rfl

theorem feedC_stop {s : Inst} {bs : List Read} (h : ¬ Receiving s) : feedC s bs = (s, .ok 0, 0) := by
  cases bs with
  | nil => rfl
  | cons b bs => unfold feedC; rw [if_neg (fun hh => h ((receiving_iff s).mp hh))]

/-- All identities of reads. -/
def ids (bs : List Read) : List Nat := bs.flatMap (fun b => [b.id, b.rest])

theorem recut : ∀ (bs : List Read) (s : Inst), (ids bs).Nodup → (∀ b ∈ bs, b.msgs ≠ []) →
    (Receiving s → ∀ i ∈ ids bs, i ≠ s.lastId ∧ ∀ c ∈ s.completed, c.1 ≠ i) → RowsOkC (allReads bs) →
    ∃ ps : List Batch, allMsgs ps = allReads bs ∧ (∀ p ∈ ps, p.msgs ≠ []) ∧ List.Sublist (ps.map (·.id)) (ids bs) ∧
      (feedC s bs).1 = (feed s ps).1 ∧ (feedC s bs).2.1 = (feed s ps).2.1 ∧
      (∀ n, (feedC s bs).2.1 = .ok n → (feedC s bs).2.2 = bs.length → (feed s ps).2.2 = ps.length)
  | [], s, _, _, _, _ => ⟨[], rfl, fun p hp => (by cases hp), List.Sublist.refl _, rfl, rfl, fun _ _ _ => rfl⟩
  | b :: bs, s, hnd, hne, hf, hr => by
    have hids : ids (b :: bs) = b.id :: b.rest :: ids bs := rfl
    have hall : allReads (b :: bs) = b.msgs ++ allReads bs := rfl
    rw [hids] at hnd hf ⊢
    rw [hall] at hr ⊢
    have hnd' := (List.nodup_cons.mp (List.nodup_cons.mp hnd).2).2
    have n1 : b.id ≠ b.rest := fun e => (List.nodup_cons.mp hnd).1 (by rw [e]; exact List.mem_cons_self ..)
    have n2 : ∀ x ∈ ids bs, b.id ≠ x := fun x hx e => (List.nodup_cons.mp hnd).1 (by rw [e]; exact List.mem_cons_of_mem _ hx)
    have n3 : ∀ x ∈ ids bs, b.rest ≠ x := fun x hx e => (List.nodup_cons.mp (List.nodup_cons.mp hnd).2).1 (by rw [e]; exact hx)
    have hr1 : RowsOkC b.msgs := fun x hx => hr x (List.mem_append_left _ hx)
    have hr2 : RowsOkC (allReads bs) := fun x hx => hr x (List.mem_append_right _ hx)
    by_cases hs : Receiving s
    · obtain ⟨ps, p1, p2, p3, p4, p5, p6⟩ := drain_pieces hs (hne b (List.mem_cons_self ..)) n1 (hf hs b.id (List.mem_cons_self ..))
        (hf hs b.rest (List.mem_cons_of_mem _ (List.mem_cons_self ..))) hr1
      have hfc : feedC s (b :: bs) = match (drain s b.msgs [b.id, b.rest]).2.1 with
          | .error e => ((drain s b.msgs [b.id, b.rest]).1, .error e, 1)
          | .ok n => ((feedC (drain s b.msgs [b.id, b.rest]).1 bs).1, (feedC (drain s b.msgs [b.id, b.rest]).1 bs).2.1.map (n + ·),
              (feedC (drain s b.msgs [b.id, b.rest]).1 bs).2.2 + 1) := by
        rw [feedC, if_pos ((receiving_iff s).mpr hs)]
        generalize drain s b.msgs [b.id, b.rest] = z
        obtain ⟨s', r, k⟩ := z
        cases r <;> rfl
      rw [p4, p5] at hfc
      obtain ⟨qs, q1, q2, q3, q4, q5, q6⟩ : ∃ qs : List Batch, allMsgs qs = allReads bs ∧ (∀ p ∈ qs, p.msgs ≠ []) ∧ List.Sublist (qs.map (·.id)) (ids bs) ∧
          (∀ n, (feed s ps).2.1 = .ok n → (feedC (feed s ps).1 bs).1 = (feed (feed s ps).1 qs).1) ∧
          (∀ n, (feed s ps).2.1 = .ok n → (feedC (feed s ps).1 bs).2.1 = (feed (feed s ps).1 qs).2.1) ∧
          (∀ n, (feed s ps).2.1 = .ok n → ∀ m, (feedC (feed s ps).1 bs).2.1 = .ok m → (feedC (feed s ps).1 bs).2.2 = bs.length →
            (feed (feed s ps).1 qs).2.2 = qs.length) := by
        cases hres : (feed s ps).2.1 with
        | error e =>
          obtain ⟨qs, q1, q2, q3, _⟩ := recut bs { s with state := .complete } hnd' (fun x hx => hne x (List.mem_cons_of_mem _ hx))
            (fun ⟨_, h⟩ => (by cases h)) hr2
          exact ⟨qs, q1, q2, q3, fun _ h => (by cases h), fun _ h => (by cases h), fun _ h => (by cases h)⟩
        | ok n =>
          obtain ⟨qs, q1, q2, q3, q4, q5, q6⟩ := recut bs (feed s ps).1 hnd' (fun x hx => hne x (List.mem_cons_of_mem _ hx))
            (fun hs' i hi => by
              obtain ⟨_, a, c⟩ := (p6 n hres).2 hs'
              constructor
              · rcases a with a | a
                · rw [a]; exact Ne.symm (n2 i hi)
                · rw [a]; exact Ne.symm (n3 i hi)
              · intro x hx
                rcases c x hx with h | h | h
                · exact (hf hs i (List.mem_cons_of_mem _ (List.mem_cons_of_mem _ hi))).2 x h
                · rw [h]; exact n2 i hi
                · rw [h]; exact n3 i hi) hr2
          exact ⟨qs, q1, q2, q3, fun _ _ => q4, fun _ _ => q5, fun _ _ => q6⟩
      refine ⟨ps ++ qs, ?_, ?_, ?_, ?_⟩
      · rw [← p1, ← q1]; exact List.flatMap_append
      · intro p hp
        rcases List.mem_append.mp hp with h | h
        · exact p2 p h
        · exact q2 p h
      · rw [List.map_append]; exact List.Sublist.append p3 q3
      · cases hres : (feed s ps).2.1 with
        | error e =>
          rw [hres] at hfc
          rw [hfc, (feed_append ps qs s).2 e hres]
          exact ⟨rfl, hres.symm, fun n h => (by cases h)⟩
        | ok n =>
          rw [hres] at hfc
          rw [hfc, (feed_append ps qs s).1 n hres (p6 n hres).1]
          refine ⟨q4 n hres, congrArg (fun r => Except.map (n + ·) r) (q5 n hres), fun m hm hk => ?_⟩
          replace hm : (feedC (feed s ps).1 bs).2.1.map (n + ·) = .ok m := hm
          replace hk : (feedC (feed s ps).1 bs).2.2 + 1 = bs.length + 1 := hk
          cases hx : (feedC (feed s ps).1 bs).2.1 with
          | error e => rw [hx] at hm; cases hm
          | ok m' =>
            rw [List.length_append]
            exact congrArg (ps.length + ·) (q6 n hres m' hx (by omega))
    · refine ⟨(b :: bs).map (fun x => ⟨x.id, x.msgs⟩), ?_, ?_, ?_, ?_⟩
      · rw [← hall]
        unfold allMsgs allReads
        rw [List.flatMap_map]
      · intro p hp
        obtain ⟨x, hx, rfl⟩ := List.mem_map.mp hp
        exact hne x hx
      · rw [← hids]
        have : ∀ l : List Read, List.Sublist ((l.map (fun x => (⟨x.id, x.msgs⟩ : Batch))).map (·.id)) (ids l) := by
          intro l
          induction l with
          | nil => exact List.Sublist.refl _
          | cons x xs ih => exact List.Sublist.cons_cons _ (List.Sublist.cons _ ih)
        exact this _
      · rw [feedC_stop hs, feed_stop hs]
        exact ⟨rfl, rfl, fun n _ h => (by cases h)⟩

/-- **C96** a transaction that receives its rows with the C function is, after any reads, exactly the one that gets the same messages in some (smaller) batches without it:
every property of all batchings (C10, C12, C13 and others) is one of the client with the C function, too. -/
theorem C96_recut {s : Inst} {bs : List Read} (hf : FreshC s bs) (hr : RowsOkC (allReads bs)) :
    ∃ ps : List Batch, allMsgs ps = allReads bs ∧ Fresh s ps ∧ (feedC s bs).1 = (feed s ps).1 ∧ (feedC s bs).2.1 = (feed s ps).2.1 ∧
      (∀ n, (feedC s bs).2.1 = .ok n → (feedC s bs).2.2 = bs.length → (feed s ps).2.2 = ps.length) := by
  obtain ⟨h1, h2⟩ := hf
  have hmem : ∀ i ∈ ids bs, i ≠ s.lastId ∧ ∀ c ∈ s.completed, c.1 ≠ i := fun i hi => by
    obtain ⟨b, hb, hib⟩ := List.mem_flatMap.mp hi
    exact (h2 b hb).2 i hib
  obtain ⟨ps, p1, p2, p3, p4, p5, p6⟩ := recut bs s h1 (fun b hb => (h2 b hb).1) (fun _ => hmem) hr
  refine ⟨ps, p1, ⟨List.Nodup.sublist p3 h1, fun p hp => ?_⟩, p4, p5, p6⟩
  exact ⟨p2 p hp, hmem p.id (p3.subset (List.mem_map_of_mem hp))⟩

/-- The same reads for the client without the C function. -/
def asBatches (bs : List Read) : List Batch := bs.map (fun b => ⟨b.id, b.msgs⟩)

theorem allMsgs_asBatches (bs : List Read) : allMsgs (asBatches bs) = allReads bs := by
  unfold asBatches allMsgs allReads
  rw [List.flatMap_map]

theorem fresh_asBatches {s : Inst} {bs : List Read} (h : FreshC s bs) : Fresh s (asBatches bs) := by
  have hsub : ∀ l : List Read, List.Sublist ((asBatches l).map (·.id)) (ids l) := by
    intro l
    induction l with
    | nil => exact List.Sublist.refl _
    | cons x xs ih => exact List.Sublist.cons_cons _ (List.Sublist.cons _ ih)
  refine ⟨List.Nodup.sublist (hsub bs) h.1, fun p hp => ?_⟩
  obtain ⟨b, hb, rfl⟩ := List.mem_map.mp hp
  exact ⟨(h.2 b hb).1, (h.2 b hb).2 b.id (List.mem_cons_self ..)⟩

/-! ## Both take the same reads -/

theorem feed_take : ∀ (bs : List Batch) (s : Inst) (m : Nat), m < (feed s bs).2.2 →
    (feed s (bs.take m)).2.2 = (bs.take m).length ∧ (∃ n, (feed s (bs.take m)).2.1 = .ok n) ∧ Receiving (feed s (bs.take m)).1
  | [], s, m, h => absurd h (Nat.not_lt_zero m)
  | b :: bs, s, m, h => by
    by_cases hs : Receiving s
    · cases m with
      | zero => exact ⟨rfl, ⟨0, rfl⟩, hs⟩
      | succ m =>
        cases hd : deliver s b with
        | mk s' r =>
          cases r with
          | error e => rw [feed_cons_error hs hd] at h; exact absurd h (by show ¬ (m + 1 < 1); omega)
          | ok n =>
            rw [feed_cons hs hd] at h
            replace h : m + 1 < (feed s' bs).2.2 + 1 := h
            obtain ⟨h1, ⟨x, h2⟩, h3⟩ := feed_take bs s' m (by omega)
            rw [List.take_succ_cons, feed_cons hs hd]
            exact ⟨congrArg (· + 1) h1, ⟨n + x, by show (feed s' (bs.take m)).2.1.map (n + ·) = _; rw [h2]; rfl⟩, h3⟩
    · rw [feed_stop hs] at h; exact absurd h (Nat.not_lt_zero m)

theorem feed_le : ∀ (bs : List Batch) (s : Inst), (feed s bs).2.2 ≤ bs.length
  | [], s => Nat.le_refl _
  | b :: bs, s => by
    by_cases hs : Receiving s
    · cases hd : deliver s b with
      | mk s' r =>
        cases r with
        | error e => rw [feed_cons_error hs hd]; show 1 ≤ bs.length + 1; omega
        | ok n => rw [feed_cons hs hd]; show (feed s' bs).2.2 + 1 ≤ bs.length + 1; have := feed_le bs s'; omega
    · rw [feed_stop hs]; exact Nat.zero_le _

/-- What the client with the C function began to read, and why it did not go on. -/
theorem feedC_take : ∀ (bs : List Read) (s : Inst), (feedC s bs).2.2 ≤ bs.length ∧ feedC s (bs.take (feedC s bs).2.2) = feedC s bs ∧
    (∀ n, (feedC s bs).2.1 = .ok n → (feedC s bs).2.2 < bs.length → ¬ Receiving (feedC s bs).1)
  | [], s => ⟨Nat.le_refl _, rfl, fun n _ h => absurd h (Nat.not_lt_zero _)⟩
  | b :: bs, s => by
    by_cases hs : Receiving s
    · have hfc : ∀ bs, feedC s (b :: bs) = match drain s b.msgs [b.id, b.rest] with
          | (s', .error e, _) => (s', .error e, 1)
          | (s', .ok n, _) => ((feedC s' bs).1, (feedC s' bs).2.1.map (n + ·), (feedC s' bs).2.2 + 1) := by
        intro bs
        rw [feedC, if_pos ((receiving_iff s).mpr hs)]
        rfl
      generalize drain s b.msgs [b.id, b.rest] = z at hfc
      obtain ⟨s', r, k⟩ := z
      cases r with
      | error e =>
        replace hfc : ∀ bs, feedC s (b :: bs) = (s', .error e, 1) := hfc
        rw [hfc bs]
        refine ⟨by show 1 ≤ bs.length + 1; omega, ?_, fun n h => (by cases h)⟩
        show feedC s ((b :: bs).take 1) = _
        exact hfc _
      | ok n =>
        replace hfc : ∀ bs, feedC s (b :: bs) = ((feedC s' bs).1, (feedC s' bs).2.1.map (n + ·), (feedC s' bs).2.2 + 1) := hfc
        obtain ⟨h1, h2, h3⟩ := feedC_take bs s'
        rw [hfc bs]
        refine ⟨by show (feedC s' bs).2.2 + 1 ≤ bs.length + 1; omega, ?_, fun m hm hk => ?_⟩
        · show feedC s ((b :: bs).take ((feedC s' bs).2.2 + 1)) = _
          rw [List.take_succ_cons, hfc, h2]
        · replace hk : (feedC s' bs).2.2 + 1 < bs.length + 1 := hk
          replace hm : (feedC s' bs).2.1.map (n + ·) = .ok m := hm
          cases hx : (feedC s' bs).2.1 with
          | error e => rw [hx] at hm; cases hm
          | ok x => exact h3 x hx (by omega)
    · rw [feedC_stop hs]
      exact ⟨Nat.zero_le _, by show feedC s [] = _; rfl, fun _ _ _ => hs⟩

theorem loop_error_append : ∀ (m1 m2 : List Msg) (s : Inst) (l : Loc) (e : Err), (loop s l m1).2 = .error e → (loop s l (m1 ++ m2)).2 = .error e
  | [], m2, s, l, e, h => by cases h
  | x :: xs, m2, s, l, e, h => by
    rw [List.cons_append]
    rw [loop_cons] at h ⊢
    split at h
    · exact h
    · cases h
    · cases h
    · cases h
    · exact loop_error_append xs m2 _ _ e h
    · split at h
      · exact h
      · exact loop_error_append xs m2 _ _ e h
    · exact loop_error_append xs m2 _ _ e h
    · exact loop_error_append xs m2 _ _ e h
    · cases h

theorem standardPut_error_append {s : Inst} {k : Nat} {m1 m2 : List Msg} {e : Err} (h : (standardPut s ⟨k, m1⟩).2 = .error e) :
    (standardPut s ⟨k, m1 ++ m2⟩).2 = .error e := by
  have hl : startLoop s ⟨k, m1 ++ m2⟩ = startLoop s ⟨k, m1⟩ := rfl
  unfold standardPut at h ⊢
  rw [hl]
  cases hs : startLoop s ⟨k, m1⟩ with
  | mk s1 r =>
    rw [hs] at h
    cases r with
    | error e' => exact h
    | ok l =>
      replace h : (match loop s1 l m1 with | (s, .error e) => (s, .error e) | (s, .ok ⟨true, l⟩) => (s, .ok l.count) | (s, .ok ⟨false, l⟩) => (finish s ⟨k, m1⟩ l, .ok l.count) : Inst × Except Err Nat).2 = .error e := h
      show (match loop s1 l (m1 ++ m2) with | (s, .error e) => (s, .error e) | (s, .ok ⟨true, l⟩) => (s, .ok l.count) | (s, .ok ⟨false, l⟩) => (finish s ⟨k, m1 ++ m2⟩ l, .ok l.count) : Inst × Except Err Nat).2 = .error e
      have hla := loop_error_append m1 m2 s1 l e
      cases hx : loop s1 l m1 with
      | mk s2 r2 =>
        rw [hx] at h hla
        cases r2 with
        | ok d => obtain ⟨ea, l2⟩ := d; cases ea <;> cases h
        | error e2 =>
          cases h
          have := hla rfl
          generalize loop s1 l (m1 ++ m2) = z at this
          obtain ⟨z1, z2⟩ := z
          replace this : z2 = .error e := this
          subst this
          rfl

theorem ids_sublist {l l' : List Read} (h : l.Sublist l') : (ids l).Sublist (ids l') := by
  induction h with
  | slnil => exact List.Sublist.refl _
  | cons a _ ih => exact List.Sublist.cons _ (List.Sublist.cons _ ih)
  | cons_cons a _ ih => exact List.Sublist.cons_cons _ (List.Sublist.cons_cons _ ih)

theorem takes_all {cs : List Elem} {s : Inst} {bs : List Read} (hreach : Reach cs s) (hw : Receiving s) (hne : bs ≠ []) (hf : FreshC s bs)
    (hr : RowsOkC (allReads bs)) (hall : (feed s (asBatches bs)).2.2 = bs.length) {c : Nat} (hok : (feed s (asBatches bs)).2.1 = .ok c)
    (hv : ∀ k, k ≠ s.lastId → ¬ Violated (standardPut s ⟨k, allReads bs⟩).1) :
    (feedC s bs).2.2 = bs.length ∧ ∃ c', (feedC s bs).2.1 = .ok c' := by
  obtain ⟨hN, hC, hstop⟩ := feedC_take bs s
  have hnv : ¬ Violated s := (reach_good hreach).1.2.2 (by obtain ⟨op, ho⟩ := hw; rw [ho]; simp)
  generalize hNN : (feedC s bs).2.2 = N at *
  -- the reads that were begun
  have hsub : (bs.take N).Sublist bs := List.take_sublist N bs
  have hf' : FreshC s (bs.take N) := ⟨List.Nodup.sublist (ids_sublist hsub) hf.1, fun b hb => hf.2 b (List.mem_of_mem_take hb)⟩
  have hreads : allReads bs = allReads (bs.take N) ++ allReads (bs.drop N) := by
    unfold allReads
    rw [← List.flatMap_append, List.take_append_drop]
  have hr' : RowsOkC (allReads (bs.take N)) := fun x hx => hr x (by rw [hreads]; exact List.mem_append_left _ hx)
  obtain ⟨b0, bs0, hb0⟩ := List.exists_cons_of_ne_nil hne
  obtain ⟨hk0, hkc0⟩ := (hf.2 b0 (by rw [hb0]; exact List.mem_cons_self ..)).2 b0.id (List.mem_cons_self ..)
  generalize b0.id = k at hk0 hkc0
  have hv' : ¬ Violated (standardPut s ⟨k, allReads (bs.take N)⟩).1 := fun h => hv k hk0 (by
    rw [hreads]; exact violated_prefix hk0 hk0 hnv h)
  have hNpos : bs.take N ≠ [] := by
    intro e
    rw [hb0] at e hNN
    have : N ≠ 0 := by
      rw [← hNN]
      unfold feedC
      rw [if_pos ((receiving_iff s).mpr hw)]
      generalize drain s b0.msgs [b0.id, b0.rest] = z
      obtain ⟨s', r, k⟩ := z
      cases r with
      | error e => show (1 : Nat) ≠ 0; omega
      | ok n => show (feedC s' bs0).2.2 + 1 ≠ 0; omega
    cases N with
    | zero => exact this rfl
    | succ N => cases e
  -- Python on them
  have hpy : (feed s (asBatches (bs.take N))).2.2 = (bs.take N).length ∧ (∃ n, (feed s (asBatches (bs.take N))).2.1 = .ok n) ∧
      (N < bs.length → Receiving (feed s (asBatches (bs.take N))).1) := by
    by_cases hlt : N < bs.length
    · obtain ⟨a, b, d⟩ := feed_take (asBatches bs) s N (by rw [hall]; exact hlt)
      have e : (asBatches bs).take N = asBatches (bs.take N) := by unfold asBatches; rw [List.map_take]
      rw [e] at a b d
      exact ⟨by rw [a]; simp [asBatches], b, fun _ => d⟩
    · have e : bs.take N = bs := List.take_of_length_le (by omega)
      rw [e]
      exact ⟨hall, ⟨c, hok⟩, fun h => absurd h hlt⟩
  obtain ⟨y1, ⟨n, y2⟩, y3⟩ := hpy
  have hm := allMsgs_asBatches (bs.take N)
  have etake : (asBatches (bs.take N)).take (feed s (asBatches (bs.take N))).2.2 = asBatches (bs.take N) :=
    List.take_of_length_le (by rw [y1]; simp [asBatches])
  obtain ⟨a1, a2, _⟩ := Props.Xact.C10_batching_partial k hreach hw (bs := asBatches (bs.take N)) (by simpa [asBatches] using hNpos) (fresh_asBatches hf') ⟨hk0, hkc0⟩
    (by rw [etake, hm]; exact rowsOk_of_C hr') (by rw [etake, hm]; exact hv')
  rw [etake, hm] at a1 a2
  -- C on them
  obtain ⟨ps, p1, p2, p3, p4, p5⟩ := C96_recut hf' hr'
  rw [hC] at p3 p4 p5
  have hps : ps ≠ [] := fun e => by
    rw [e] at p1
    obtain ⟨b, bs', hb⟩ := List.exists_cons_of_ne_nil hNpos
    rw [hb] at p1
    have : b.msgs ++ allReads bs' = [] := p1.symm
    exact (hf'.2 b (by rw [hb]; exact List.mem_cons_self ..)).1 (List.append_eq_nil_iff.mp this).1
  have hsplit : allReads (bs.take N) = allMsgs (ps.take (feed s ps).2.2) ++ allMsgs (ps.drop (feed s ps).2.2) := by
    rw [← p1]
    unfold allMsgs
    rw [← List.flatMap_append, List.take_append_drop]
  obtain ⟨c1, c2, _⟩ := Props.Xact.C10_batching_partial k hreach hw hps p2 ⟨hk0, hkc0⟩
    (fun x hx => rowsOk_of_C hr' x (by rw [hsplit]; exact List.mem_append_left _ hx))
    (fun h => hv' (by rw [hsplit]; exact violated_prefix hk0 hk0 hnv h))
  cases hres : (feedC s bs).2.1 with
  | error e =>
    rw [← p4, hres] at c1
    have := standardPut_error_append (m2 := allMsgs (ps.drop (feed s ps).2.2)) c1.symm
    rw [← hsplit, ← a1, y2] at this
    cases this
  | ok m =>
    refine ⟨?_, m, rfl⟩
    by_cases hlt : N < bs.length
    · exfalso
      have hall' := p5 m hres (by rw [hNN, List.length_take]; omega)
      rw [List.take_of_length_le (Nat.le_of_eq hall'.symm), p1] at c2
      have q1 := (a2 ⟨n, y2⟩).phase
      have q2 := (c2 ⟨m, by rw [← p4]; exact hres⟩).phase
      rw [q1, ← p3] at q2
      exact hstop m hres hlt (phase_waiting.mp (q2.symm.trans (phase_waiting.mpr (y3 hlt))))
    · omega

/-- **C96** (partly, as C10: for replies that end without an error and without a violation of the protocol) with the C function and without it the transaction takes as many
messages, and ends in the same phase, at the same position, with the same messages collected in the same order, the same status, and the same calls of the hook. -/
theorem C96_same_partial {cs : List Elem} {s : Inst} {bs : List Read} (hreach : Reach cs s) (hw : Receiving s) (hne : bs ≠ []) (hf : FreshC s bs)
    (hr : RowsOkC (allReads bs)) (hall : (feed s (asBatches bs)).2.2 = bs.length) {c : Nat} (hok : (feed s (asBatches bs)).2.1 = .ok c) (he : (feed s (asBatches bs)).1.errorMessage = none)
    (hv : ∀ k, k ≠ s.lastId → ¬ Violated (standardPut s ⟨k, allReads bs⟩).1) :
    (feedC s bs).2.2 = bs.length ∧ (feedC s bs).2.1 = .ok c ∧ phase (feedC s bs).1 = phase (feed s (asBatches bs)).1 ∧ (feedC s bs).1.last2 = (feed s (asBatches bs)).1.last2 ∧
    messagesReceived (feedC s bs).1 = messagesReceived (feed s (asBatches bs)).1 ∧ (feedC s bs).1.lastReady = (feed s (asBatches bs)).1.lastReady ∧
    (feedC s bs).1.copyTail = (feed s (asBatches bs)).1.copyTail ∧ (feedC s bs).1.fatal = (feed s (asBatches bs)).1.fatal ∧
    (feedC s bs).1.errorMessage = none ∧
    ((asyncsOf (allReads bs)).Nodup → (feedC s bs).1.hookCalls = (feed s (asBatches bs)).1.hookCalls) := by
  obtain ⟨hallC, c', hokC⟩ := takes_all hreach hw hne hf hr hall hok hv
  obtain ⟨ps, p1, p2, p3, p4, p5⟩ := C96_recut hf hr
  have hm := allMsgs_asBatches bs
  have hps : ps ≠ [] := fun e => by
    rw [e] at p1
    obtain ⟨b, bs', rfl⟩ := List.exists_cons_of_ne_nil hne
    have : b.msgs ++ allReads bs' = [] := p1.symm
    exact (hf.2 b (List.mem_cons_self ..)).1 (List.append_eq_nil_iff.mp this).1
  obtain ⟨r1, r2, r3, r4, r5, r6, r7, r8, r9⟩ := Props.Xact.C10_two_batchings_partial hreach hw (bs := asBatches bs) (bs' := ps) (by simpa [asBatches] using hne) hps
    (fresh_asBatches hf) p2 (by rw [p1, hm]) (by rw [hall]; simp [asBatches]) (p5 c' hokC hallC) (by rw [hm]; exact rowsOk_of_C hr) hok he (by rw [hm]; exact hv)
  rw [← p3] at r2 r3 r4 r5 r6 r7 r8 r9
  rw [hm] at r9
  rw [← p4, hokC] at r1
  exact ⟨hallC, hokC.trans r1, r2, r3, r4, r5, r6, r7, r8, r9⟩

/-- Non-vacuity: the reply to an extended query, the rows and what follows them in one read. The C function takes two batches of it. -/
def demoReads : List Read :=
  [⟨1, 2, [(49, []), (50, []), Props.Xact.row 1]⟩, ⟨3, 4, [Props.Xact.row 2, Props.Xact.row 3, (67, [83, 0]), (90, [73])]⟩]

set_option maxRecDepth 100000 in
example : FreshC Props.Xact.demo demoReads ∧ RowsOkC (allReads demoReads) ∧ (feed Props.Xact.demo (asBatches demoReads)).2 = (.ok 7, 2) ∧
    (feedC Props.Xact.demo demoReads).2 = (.ok 7, 2) ∧ (feed Props.Xact.demo (asBatches demoReads)).1.errorMessage = none ∧
    (feed Props.Xact.demo (asBatches demoReads)).1.completed.length = 2 ∧ (feedC Props.Xact.demo demoReads).1.completed.length = 3 := by
  refine ⟨⟨by decide, by decide⟩, ?_, by decide +kernel, by decide +kernel, by decide +kernel, by decide +kernel, by decide +kernel⟩
  have : ∀ x ∈ allReads demoReads, x.1 = 68 → (parseTuple x.2).isOk = true := by decide +kernel
  intro x hx ht
  have h := this x hx ht
  cases hp : parseTuple x.2 with
  | error e => rw [hp] at h; cases h
  | ok l => exact ⟨l, rfl⟩

/-- A simple query whose rows have begun. -/
def rowsBegun : Inst := (deliver Props.Xact.demoQuery ⟨1, [(84, [0, 0]), Props.Xact.row 1]⟩).1

/-- A row whose only attribute has one byte instead of nine. -/
def cutRow : Msg := (68, [0, 1, 0, 0, 0, 9, 1])

/-- **C96** the unrestricted claim is false: a row that is cut short is taken without the C function (C09), and raises ValueError with it. -/
theorem C96_malformed : rowsBegun.state = .receiving .putTupledata ∧
    (deliver rowsBegun ⟨2, [Props.Xact.row 1, cutRow, (67, [83, 0])]⟩).2 = .ok 3 ∧
    deliverC rowsBegun ⟨2, [Props.Xact.row 1, cutRow, (67, [83, 0])]⟩ = (rowsBegun, .error .valueError) := by
  refine ⟨by decide +kernel, by decide +kernel, by decide +kernel⟩

/-- **C96** and an empty read, which `step()` hands over when the connection is at its end, raises IndexError without the C function; with it the transaction goes back to
`standard_put`. -/
theorem C96_empty (s : Inst) (i : Nat) (h : s.state = .receiving .putTupledata) :
    (deliver s ⟨i, []⟩).2 = .error .indexError ∧ deliverC s ⟨i, []⟩ = standardPut { s with state := .receiving .standardPut } ⟨i, []⟩ := by
  unfold deliver deliverC
  rw [h]
  exact ⟨rfl, rfl⟩

end PG.Props.OptXact3
