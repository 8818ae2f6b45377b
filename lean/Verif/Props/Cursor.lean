import Verif.Model.Cursor
/-! # Scrollable cursors (C49) -/
namespace PG.Cursor
open PG
variable {α : Type}

/-- The cursor over the same rows in the opposite order, in the opposite direction, at the same place. -/
def mirror (c : Cur α) : Cur α := ⟨c.rows.reverse, c.rows.length + 1 - c.pos, !c.dir⟩

theorem mirror_mirror (c : Cur α) (h : c.pos ≤ c.rows.length + 1) : mirror (mirror c) = c := by
  obtain ⟨rows, pos, dir⟩ := c
  simp only [mirror, List.reverse_reverse, List.length_reverse, Bool.not_not, Cur.mk.injEq, true_and, and_true]
  dsimp only at h
  omega

theorem forward_mirror (c : Cur α) (n : Nat) (h : c.pos ≤ c.rows.length + 1) : forward (mirror c) n = ((backward c n).1, mirror (backward c n).2) := by
  obtain ⟨rows, pos, dir⟩ := c
  dsimp only at h
  simp only [forward, backward, mirror, List.length_reverse, Prod.mk.injEq, Cur.mk.injEq, true_and, and_true]
  refine ⟨?_, ?_⟩
  · rw [List.drop_reverse]
    have : rows.length - (rows.length + 1 - pos) = pos - 1 := by omega
    rw [this]
  · by_cases hn : n < pos
    · rw [if_pos hn]
      split <;> omega
    · rw [if_neg hn]
      split <;> omega

theorem backward_pos (c : Cur α) (n : Nat) (h : c.pos ≤ c.rows.length + 1) : (backward c n).2.pos ≤ (backward c n).2.rows.length + 1 := by
  simp only [backward]
  split <;> omega

theorem forward_pos (c : Cur α) (n : Nat) : (forward c n).2.pos ≤ (forward c n).2.rows.length + 1 := by
  simp only [forward]
  split <;> omega

theorem mirror_pos (c : Cur α) : (mirror c).pos ≤ (mirror c).rows.length + 1 := by
  simp only [mirror, List.length_reverse]
  omega

theorem backward_mirror (c : Cur α) (n : Nat) (h : c.pos ≤ c.rows.length + 1) : backward (mirror c) n = ((forward c n).1, mirror (forward c n).2) := by
  have h1 := forward_mirror (mirror c) n (mirror_pos c)
  rw [mirror_mirror c h] at h1
  rw [h1]
  dsimp only
  rw [mirror_mirror _ (backward_pos _ _ (mirror_pos c))]

theorem go_mirror (c : Cur α) (d : Bool) (q : Option Int) (h : c.pos ≤ c.rows.length + 1) : go (mirror c) (!d) q = ((go c d q).1, mirror (go c d q).2) := by
  have hlen : (mirror c).rows.length = c.rows.length := by simp [mirror]
  cases q with
  | none =>
    cases d with
    | true => simp only [go, hlen]; exact backward_mirror c _ h
    | false => simp only [go, hlen]; exact forward_mirror c _ h
  | some n =>
    simp only [go]
    by_cases hn : 0 ≤ n
    · cases d with
      | true => simp only [hn]; exact backward_mirror c _ h
      | false => simp only [hn]; exact forward_mirror c _ h
    · cases d with
      | true => simp only [hn]; exact forward_mirror c _ h
      | false => simp only [hn]; exact backward_mirror c _ h

theorem go_keeps (c : Cur α) (d : Bool) (q : Option Int) (h : c.pos ≤ c.rows.length + 1) : (go c d q).2.pos ≤ (go c d q).2.rows.length + 1 ∧ (go c d q).2.rows = c.rows ∧ (go c d q).2.dir = c.dir := by
  have hf : ∀ n, (forward c n).2.pos ≤ (forward c n).2.rows.length + 1 ∧ (forward c n).2.rows = c.rows ∧ (forward c n).2.dir = c.dir := fun n => ⟨forward_pos c n, rfl, rfl⟩
  have hb : ∀ n, (backward c n).2.pos ≤ (backward c n).2.rows.length + 1 ∧ (backward c n).2.rows = c.rows ∧ (backward c n).2.dir = c.dir := fun n => ⟨backward_pos c n h, rfl, rfl⟩
  unfold go
  split <;> split
  · exact hf _
  · exact hb _
  · exact hf _
  · exact hb _

theorem absolute_pos (c : Cur α) (n : Int) : (moveAbsolute c n).pos ≤ c.rows.length + 1 := by
  simp only [moveAbsolute]
  split <;> split <;> omega

theorem moved_keeps (c : Cur α) (o : Int) (w : Whence) (h : c.pos ≤ c.rows.length + 1) : (moved c o w).pos ≤ (moved c o w).rows.length + 1 ∧ (moved c o w).rows = c.rows ∧ (moved c o w).dir = c.dir := by
  cases w with
  | relative => simp only [moved]; split <;> exact go_keeps c _ _ h
  | forward => simp only [moved]; split <;> exact go_keeps c _ _ h
  | backward => simp only [moved]; split <;> exact go_keeps c _ _ h
  | absolute => exact ⟨absolute_pos c o, rfl, rfl⟩
  | fromEnd =>
    simp only [moved]
    obtain ⟨a1, a2, a3⟩ := go_keeps (moveLast c) true (some 1) (absolute_pos c (-1))
    obtain ⟨b1, b2, b3⟩ := go_keeps (go (moveLast c) true (some 1)).2 false (some o) a1
    exact ⟨b1, b2.trans a2, b3.trans a3⟩

/-- **C49 (position).** Whatever is called on a cursor, it stays between before the first row and after the last; the rows and the direction do not change. -/
theorem C49_position (c : Cur α) (o : Op) (h : c.pos ≤ c.rows.length + 1) : (step c o).2.pos ≤ c.rows.length + 1 ∧ (step c o).2.rows = c.rows ∧ (step c o).2.dir = c.dir := by
  have conv : ∀ c' : Cur α, (c'.pos ≤ c'.rows.length + 1 ∧ c'.rows = c.rows ∧ c'.dir = c.dir) → c'.pos ≤ c.rows.length + 1 ∧ c'.rows = c.rows ∧ c'.dir = c.dir := by
    rintro c' ⟨a, b, d⟩
    rw [b] at a
    exact ⟨a, b, d⟩
  apply conv
  cases o with
  | read q d =>
    simp only [step, read]
    split
    · exact ⟨h, rfl, rfl⟩
    · exact go_keeps c _ _ h
  | next => exact go_keeps c _ _ h
  | seek o w => exact moved_keeps c _ _ h
  | seekAll w => cases w <;> exact go_keeps c _ _ h

/-- The end of `FROM_END`: from behind the last row. -/
theorem moved_fromEnd (c : Cur α) (o : Int) : moved c o .fromEnd = (go { c with pos := c.rows.length + 1 } false (some o)).2 := by
  have : (go (moveLast c) true (some 1)).2 = { c with pos := c.rows.length + 1 } := by
    simp only [go, moveLast, moveAbsolute, forward, beq_iff_eq]
    simp
    by_cases hz : 1 ≤ c.rows.length
    · rw [if_pos hz]; intros; omega
    · rw [if_neg hz]; intros; omega
  simp only [moved]
  rw [this]

theorem fromEnd_pos (c : Cur α) (o : Int) (ho : 0 ≤ o) : moved c o .fromEnd = { c with pos := c.rows.length + 1 - o.natAbs } := by
  rw [moved_fromEnd]
  simp only [go, ho, decide_true, backward]
  simp
  intros; omega

theorem absolute_of_nonneg (c : Cur α) (o : Int) (ho : 0 ≤ o) : moveAbsolute c o = { c with pos := if o.natAbs ≤ c.rows.length then o.natAbs else c.rows.length + 1 } := by
  have : o.toNat = o.natAbs := by omega
  simp only [moveAbsolute, if_pos ho, this]

/-- The calls of which the documentation's symmetry holds. -/
def Op.symmetric : Op → Prop
  | .seek o .absolute => 0 ≤ o
  | .seek o .fromEnd => 0 ≤ o
  | .seek _ .relative => True
  | .seek _ _ => False
  | .seekAll w => w ≠ .forward ∧ w ≠ .backward
  | _ => True

theorem step_mirror (c : Cur α) (hd : c.dir = true) (o : Op) (ho : o.symmetric) (h : c.pos ≤ c.rows.length + 1) : step (mirror c) o = ((step c o).1, mirror (step c o).2) := by
  have hmd : (mirror c).dir = false := by simp [mirror, hd]
  cases o with
  | read q d =>
    simp only [step, read]
    by_cases hq : q = some 0
    · rw [if_pos hq, if_pos hq]
    · rw [if_neg hq, if_neg hq]
      have : whichWay (mirror c).dir d = !(whichWay c.dir d) := by
        rw [hmd, hd]
        cases d with
        | none => rfl
        | some b => cases b <;> rfl
      rw [this]
      exact go_mirror c _ q h
  | next =>
    simp only [step, next]
    have : (mirror c).dir = !c.dir := rfl
    rw [this, go_mirror c _ _ h]
  | seekAll w =>
    obtain ⟨h1, h2⟩ := ho
    have key : (go (mirror c) (mirror c).dir none).2 = mirror (go c c.dir none).2 := by
      have : (mirror c).dir = !c.dir := rfl
      rw [this, go_mirror c _ _ h]
    cases w with
    | forward => exact absurd rfl h1
    | backward => exact absurd rfl h2
    | absolute => simp only [step, seekAll, key]
    | relative => simp only [step, seekAll, key]
    | fromEnd => simp only [step, seekAll, key]
  | seek o w =>
    simp only [step, Prod.mk.injEq, true_and]
    cases w with
    | forward => exact ho.elim
    | backward => exact ho.elim
    | relative =>
      have e1 : seek (mirror c) o .relative = moved (mirror c) (-o) .relative := by
        simp [seek, directed, hmd, turned]
      have e2 : seek c o .relative = moved c o .relative := by simp [seek, directed, hd, turned]
      rw [e1, e2]
      simp only [moved]
      have gm := fun q => go_mirror c true q h
      have gm' := fun q => go_mirror c false q h
      simp only [Bool.not_true, Bool.not_false] at gm gm'
      by_cases hz : o = 0
      · subst hz
        simp only [Int.neg_zero, Int.lt_irrefl, if_false]
        have : go (mirror c) true (some 0) = ([], mirror c) := by
          simp [go, forward, mirror]
          omega
        have h2 : go c true (some 0) = ([], c) := by
          simp [go, forward]
          obtain ⟨r, p, d⟩ := c
          simp only [Cur.mk.injEq, true_and, and_true]
          dsimp only at h
          split <;> omega
        rw [this, h2]
      · by_cases hn : o < 0
        · rw [if_neg (by omega), if_pos hn, gm']
        · rw [if_pos (by omega), if_neg hn, Int.neg_neg, gm]
    | absolute =>
      have ho : 0 ≤ o := ho
      have e1 : seek (mirror c) o .absolute = moved (mirror c) o .fromEnd := by simp [seek, directed, hmd, turned]
      have e2 : seek c o .absolute = moveAbsolute c o := by simp [seek, directed, hd, turned, moved]
      rw [e1, e2, fromEnd_pos _ _ ho, absolute_of_nonneg c o ho]
      simp only [mirror, List.length_reverse, Cur.mk.injEq, true_and, and_true]
      split <;> omega
    | fromEnd =>
      have ho : 0 ≤ o := ho
      have e1 : seek (mirror c) o .fromEnd = moveAbsolute (mirror c) o := by simp [seek, directed, hmd, turned, moved]
      have e2 : seek c o .fromEnd = moved c o .fromEnd := by simp [seek, directed, hd, turned]
      rw [e1, e2, fromEnd_pos _ _ ho, absolute_of_nonneg _ o ho]
      simp only [mirror, List.length_reverse, Cur.mk.injEq, true_and, and_true]
      split <;> omega

/-- **C49 (symmetry).** "The backward direction property is designed so that the effect of any read or seek operation on those cursors is the same": two cursors over the same rows in opposite orders, one of them `BACKWARD`, at the
same place. Any calls return the same rows from both. Missing: `seek` with FORWARD or BACKWARD, and with a negative position and ABSOLUTE or FROM_END, for which it is false (`C49_not_symmetric`). -/
theorem C49_symmetry_partial : ∀ (os : List Op) (c : Cur α), c.dir = true → c.pos ≤ c.rows.length + 1 → (∀ o ∈ os, o.symmetric) → (run (mirror c) os).1 = (run c os).1
  | [], _, _, _, _ => rfl
  | o :: os, c, hd, h, ho => by
    simp only [run]
    rw [step_mirror c hd o (ho o List.mem_cons_self) h]
    obtain ⟨h1, h2, h3⟩ := C49_position c o h
    dsimp only
    rw [C49_symmetry_partial os (step c o).2 (h3.trans hd) (by rw [h2]; exact h1) fun x hx => ho x (List.mem_cons_of_mem _ hx)]

/-- The documentation's example: the second cursor begins with `seek(0)`. -/
theorem C49_backward_as_reversed (rows : List α) (os : List Op) (ho : ∀ o ∈ os, o.symmetric) (p q : Nat) :
    (run ⟨rows.reverse, q, false⟩ (.seek 0 .absolute :: os)).1 = (run ⟨rows, p, true⟩ (.seek 0 .absolute :: os)).1 := by
  have h1 : step ⟨rows.reverse, q, false⟩ (.seek 0 .absolute) = ([], mirror ⟨rows, 0, true⟩) := by
    have : seek (⟨rows.reverse, q, false⟩ : Cur α) 0 .absolute = moved ⟨rows.reverse, q, false⟩ 0 .fromEnd := rfl
    simp only [step]
    rw [this, fromEnd_pos _ _ (by omega)]
    simp [mirror]
  have h2 : step ⟨rows, p, true⟩ (.seek 0 .absolute) = ([], ⟨rows, 0, true⟩) := by
    simp [step, seek, turned, directed, moved, moveAbsolute]
  simp only [run]
  rw [h1, h2]
  dsimp only
  rw [C49_symmetry_partial os ⟨rows, 0, true⟩ rfl (by simp) ho]

example : let os : List Op := [.seek 0 .absolute, .read (some 2) none, .seek (-1) .relative, .next, .read (some 2) (some false), .seek 1 .fromEnd, .read none none, .seekAll .absolute, .read (some 3) (some false), .read (some (-2)) (some false)]
    (∀ o ∈ os, o.symmetric) ∧ (run ⟨[1, 2, 3, 4, 5], 3, true⟩ os).1 = [[], [1, 2], [], [2], [1], [], [], [], [5, 4, 3], [4, 5]] ∧ (run ⟨[5, 4, 3, 2, 1], 2, false⟩ os).1 = (run ⟨[1, 2, 3, 4, 5], 3, true⟩ os).1 := by
  refine ⟨?_, by decide, by decide⟩
  simp [Op.symmetric]

/-! ## Reading -/

/-- **C49 (read).** Reading forward returns the next rows, and the next reading goes on after them. -/
theorem C49_read (c : Cur α) (n : Nat) (hn : 0 < n) (hd : c.dir = true) : (read c (some n) none).1 = (c.rows.drop c.pos).take n ∧
    ∀ m : Nat, 0 < m → (read (read c (some n) none).2 (some m) none).1 = ((c.rows.drop c.pos).drop n).take m := by
  have h : ∀ (c : Cur α) (n : Nat), 0 < n → c.dir = true → read c (some n) none = forward c n := by
    intro c n hn hd
    unfold read
    rw [if_neg (by simp; omega)]
    simp only [whichWay, hd, go]
    have : (0 : Int) ≤ n := by omega
    simp
  refine ⟨by rw [h c n hn hd]; rfl, fun m hm => ?_⟩
  rw [h c n hn hd, h (forward c n).2 m hm hd]
  simp only [forward]
  rw [List.drop_drop]
  split
  · rfl
  · rw [List.drop_of_length_le (by omega), List.drop_of_length_le (by omega)]

/-- All rows by readings of given sizes. -/
def pieces (c : Cur α) : List Nat → List (List α) × Cur α
  | [] => ([], c)
  | n :: ns => ((read c (some (n : Int)) none).1 :: (pieces (read c (some (n : Int)) none).2 ns).1, (pieces (read c (some (n : Int)) none).2 ns).2)

theorem read_nat (c : Cur α) (n : Nat) (hd : c.dir = true) (h : c.pos ≤ c.rows.length + 1) : read c (some (n : Int)) none = forward c n := by
  unfold read
  by_cases hn : n = 0
  · subst hn
    rw [if_pos (by simp)]
    obtain ⟨r, p, d⟩ := c
    simp only [forward, List.take_zero, Prod.mk.injEq, true_and, Cur.mk.injEq, and_true]
    dsimp only at h
    split <;> omega
  · rw [if_neg (by simp; omega)]
    simp only [whichWay, hd, go]
    have : (0 : Int) ≤ n := by omega
    simp

/-- **C49 (every row once).** Reading in pieces of any sizes returns consecutive rows: together they are the rows from where the cursor stood, as many as were asked for. -/
theorem C49_pieces : ∀ (ns : List Nat) (c : Cur α), c.dir = true → c.pos ≤ c.rows.length + 1 → (pieces c ns).1.flatten = (c.rows.drop c.pos).take ns.sum
  | [], c, _, _ => by simp [pieces]
  | n :: ns, c, hd, h => by
    simp only [pieces, List.flatten_cons, List.sum_cons]
    rw [read_nat c n hd h, C49_pieces ns (forward c n).2 hd (forward_pos c n)]
    simp only [forward]
    split
    · rw [List.take_add, List.drop_drop]
    · rw [List.drop_of_length_le (by omega : c.rows.length ≤ c.rows.length + 1), List.take_nil, List.append_nil]
      rw [List.take_of_length_le (by simp; omega), List.take_of_length_le (by simp; omega)]

/-- **C49 (short means exhausted).** When fewer rows are returned than were asked for, in either direction, nothing is left in that direction. -/
theorem C49_exhausted (c : Cur α) (n : Nat) (d : Option Bool) (h : c.pos ≤ c.rows.length + 1) (hs : (read c (some (n : Int)) d).1.length < n) (m : Option Int) (hm : ∀ x, m = some x → 0 ≤ x) :
    (read (read c (some (n : Int)) d).2 m d).1 = [] := by
  have hn : 0 < n := by omega
  have hr : read c (some (n : Int)) d = go c (whichWay c.dir d) (some (n : Int)) := by unfold read; rw [if_neg (by simp; omega)]
  rw [hr] at hs ⊢
  obtain ⟨_, g2, g3⟩ := go_keeps c (whichWay c.dir d) (some (n : Int)) h
  unfold read
  split
  · rfl
  · rw [g3]
    have hnn : (0 : Int) ≤ n := by omega
    cases hw : whichWay c.dir d with
    | true =>
      rw [hw] at hs
      have e : go c true (some (n : Int)) = forward c n := by simp [go]
      rw [e] at hs ⊢
      have hp : (forward c n).2 = { c with pos := c.rows.length + 1 } := by
        simp only [forward, List.length_take, List.length_drop] at hs ⊢
        rw [if_neg (by omega)]
      rw [hp]
      cases m with
      | none => simp [go, forward]
      | some x => simp [go, forward, hm x rfl]
    | false =>
      rw [hw] at hs
      have e : go c false (some (n : Int)) = backward c n := by simp [go]
      rw [e] at hs ⊢
      have hp : (backward c n).2 = { c with pos := 0 } := by
        simp only [backward, List.length_take, List.length_reverse] at hs ⊢
        rw [if_neg (by omega)]
      rw [hp]
      cases m with
      | none => simp [go, backward]
      | some x => simp [go, backward, hm x rfl]

/-- `for row in cursor`, with enough turns. -/
def iterate : Nat → Cur α → List α × Cur α
  | 0, c => ([], c)
  | fuel + 1, c =>
    match next c with
    | (none, c) => ([], c)
    | (some x, c) => (x :: (iterate fuel c).1, (iterate fuel c).2)

/-- **C49 (iteration).** Iterating gives all the rows that follow, each once, in order; then it stays at the end. -/
theorem C49_iterate : ∀ (fuel : Nat) (c : Cur α), c.dir = true → c.pos ≤ c.rows.length + 1 → c.rows.length + 1 ≤ fuel + c.pos → (iterate (fuel + 1) c).1 = c.rows.drop c.pos ∧ (iterate (fuel + 1) c).2 = { c with pos := c.rows.length + 1 }
  | fuel, c, hd, h, hf => by
    have hnext : next c = (c.rows[c.pos]?, { c with pos := if c.pos + 1 ≤ c.rows.length then c.pos + 1 else c.rows.length + 1 }) := by
      simp only [next, hd, go, forward]
      simp [List.head?_take, List.head?_drop]
    rw [iterate, hnext]
    by_cases hp : c.pos < c.rows.length
    · rw [List.getElem?_eq_getElem hp]
      dsimp only
      rw [if_pos (by omega)]
      cases fuel with
      | zero => omega
      | succ fuel =>
        obtain ⟨i1, i2⟩ := C49_iterate fuel { c with pos := c.pos + 1 } hd (by dsimp only; omega) (by dsimp only; omega)
        rw [i1, i2]
        exact ⟨(List.drop_eq_getElem_cons hp).symm, rfl⟩
    · rw [List.getElem?_eq_none (by omega)]
      dsimp only
      rw [if_neg (by omega), List.drop_of_length_le (by omega)]
      exact ⟨rfl, rfl⟩

example : (iterate 10 ⟨[1, 2, 3], 1, true⟩).1 = [2, 3] ∧ (pieces ⟨[1, 2, 3, 4, 5], 0, true⟩ [2, 0, 2, 2]).1 = [[1, 2], [], [3, 4], [5]] := by decide

/-! ## Seeking on a forward cursor -/

/-- The position nearest to a number: 0 is before the first row, the number of rows plus one is after the last. -/
def clamp (rows : Nat) (p : Int) : Nat := if p < 0 then 0 else if p ≤ rows then p.toNat else rows + 1

/-- Where a seek is meant to go. -/
def target (c : Cur α) (offset : Int) : Whence → Int
  | .absolute => if 0 ≤ offset then offset else c.rows.length + 1 + offset
  | .relative => c.pos + offset
  | .forward => c.pos + offset
  | .backward => c.pos - offset
  | .fromEnd => c.rows.length + 1 - offset

theorem go_pos (c : Cur α) (d : Bool) (n : Int) (h : c.pos ≤ c.rows.length + 1) : (go c d (some n)).2.pos = clamp c.rows.length (if d then c.pos + n else c.pos - n) := by
  cases d <;> simp only [go, if_true, Bool.false_eq_true, if_false]
  · by_cases hn : 0 ≤ n
    · simp only [hn, decide_true, Bool.false_beq, Bool.not_true, Bool.false_eq_true, if_false, backward, clamp]
      repeat' split
      all_goals omega
    · simp only [hn, decide_false, Bool.false_beq, Bool.not_false, if_true, forward, clamp]
      repeat' split
      all_goals omega
  · by_cases hn : 0 ≤ n
    · simp only [hn, decide_true, Bool.true_beq, if_true, forward, clamp]
      repeat' split
      all_goals omega
    · simp only [hn, decide_false, Bool.true_beq, Bool.false_eq_true, if_false, backward, clamp]
      repeat' split
      all_goals omega

/-- **C49 (seek).** On a cursor whose direction is forward every seek goes to the position it names, or to the nearest end; nothing else changes. -/
theorem C49_seek (c : Cur α) (hd : c.dir = true) (h : c.pos ≤ c.rows.length + 1) (o : Int) (w : Whence) : seek c o w = { c with pos := clamp c.rows.length (target c o w) } := by
  have hk := moved_keeps c (directed c.dir (turned o w).1 (turned o w).2).1 (directed c.dir (turned o w).1 (turned o w).2).2 h
  have hp : (seek c o w).pos = clamp c.rows.length (target c o w) := by
    unfold seek
    simp only [directed, hd, if_true]
    cases w with
    | absolute => simp only [turned, and_false, reduceCtorEq, if_false, moved, moveAbsolute, target, clamp]; repeat' split
                  all_goals omega
    | relative =>
      simp only [turned, and_false, reduceCtorEq, if_false, moved, target]
      by_cases ho : o < 0
      · rw [if_pos ho, go_pos c _ _ h]; simp only [Bool.false_eq_true, if_false]; congr 1; omega
      · rw [if_neg ho, go_pos c _ _ h]; simp only [if_true]
    | forward =>
      simp only [turned, and_false, reduceCtorEq, if_false, moved, target]
      by_cases ho : o < 0
      · rw [if_pos ho, go_pos c _ _ h]; simp only [Bool.false_eq_true, if_false]; congr 1; omega
      · rw [if_neg ho, go_pos c _ _ h]; simp only [if_true]
    | backward =>
      simp only [turned, and_true, target]
      by_cases ho : o < 0
      · rw [if_pos ho]
        simp only [moved]
        rw [if_neg (by omega), go_pos c _ _ h]; simp only [if_true]; congr 1
      · rw [if_neg ho]
        simp only [moved]
        rw [if_neg ho, go_pos c _ _ h]; simp only [Bool.false_eq_true, if_false]
    | fromEnd =>
      simp only [turned, and_false, reduceCtorEq, if_false, target]
      rw [moved_fromEnd, go_pos _ _ _ (by simp)]
      simp only [Bool.false_eq_true, if_false]
      congr 1
  obtain ⟨_, k2, k3⟩ := hk
  have e : seek c o w = ⟨(seek c o w).rows, (seek c o w).pos, (seek c o w).dir⟩ := rfl
  rw [e, hp]
  simp only [Cur.mk.injEq, true_and]
  exact ⟨k2, k3⟩

/-- **C49 (seek ALL).** Forward and backward to the end, whatever the direction of the cursor; any other `whence` is the direction of the cursor. -/
theorem C49_seek_all (c : Cur α) (h : c.pos ≤ c.rows.length + 1) (w : Whence) :
    seekAll c w = { c with pos := if w = .forward ∨ (w ≠ .backward ∧ c.dir = true) then c.rows.length + 1 else 0 } := by
  have f : (forward c (c.rows.length + 1)).2 = { c with pos := c.rows.length + 1 } := by
    simp only [forward]; rw [if_neg (by omega)]
  have b : (backward c (c.rows.length + 1)).2 = { c with pos := 0 } := by
    simp only [backward]; rw [if_neg (by omega)]
  cases w <;> cases hd : c.dir <;> simp [seekAll, go, hd, f, b]

/-- **C49 (direction of a read).** A read against the direction returns the rows before the position, nearest first. -/
theorem C49_read_direction (c : Cur α) (n : Nat) (hn : 0 < n) (hd : c.dir = true) : (read c (some (n : Int)) (some false)).1 = (c.rows.take (c.pos - 1)).reverse.take n ∧ (read c none (some false)).1 = (c.rows.take (c.pos - 1)).reverse ∧
    (read c none (some true)).1 = c.rows.drop c.pos ∧ (read c none none).1 = c.rows.drop c.pos := by
  have hz : ¬ (some (n : Int) = some 0) := by simp; omega
  simp only [read, hz, if_false, whichWay, hd, go, reduceCtorEq]
  simp [backward, forward]
  refine ⟨?_, ?_⟩
  · rw [List.take_of_length_le]; simp; omega
  · rw [List.take_of_length_le]; simp; omega

example : (seek ⟨[1, 2, 3, 4, 5], 2, true⟩ (-2) .backward).pos = 4 ∧ (seek ⟨[1, 2, 3, 4, 5], 2, true⟩ (-7) .relative).pos = 0 ∧ (seek ⟨[1, 2, 3, 4, 5], 2, true⟩ 2 .fromEnd).pos = 4 ∧ (seekAll ⟨[1, 2, 3, 4, 5], 2, false⟩ .absolute).pos = 0 := by decide

/-! ## Where it fails -/

/-- **Not symmetric.** On a backward cursor `seek(n, 'FORWARD')` and `seek(n, 'BACKWARD')` are taken for absolute positions; `seek('ALL', 'FORWARD')` is not inverted; negative absolute positions count from the end in one direction only. -/
theorem C49_not_symmetric :
    let c : Cur Nat := ⟨[1, 2, 3, 4, 5], 2, true⟩
    let r := fun o : Op => ((run c [o, .read (some 1) none]).1.flatten, (run (mirror c) [o, .read (some 1) none]).1.flatten)
    r (.seek 1 .forward) = ([4], []) ∧ r (.seek 1 .backward) = ([2], []) ∧ r (.seekAll .forward) = ([], [1]) ∧ r (.seek (-2) .absolute) = ([5], [1]) ∧ r (.seek (-2) .fromEnd) = ([], [3]) := by decide

/-- For every cursor that reads backward: FORWARD and BACKWARD by any positive number go to that position from the beginning, wherever the cursor stood. -/
theorem C49_backward_relative (c : Cur α) (hd : c.dir = false) (n : Nat) : seek c n .forward = moveAbsolute c n ∧ seek c n .backward = moveAbsolute c n := by
  have : ¬ ((n : Int) < 0) := by omega
  simp [seek, turned, directed, hd, moved, this]

end PG.Cursor
