import Mathlib.Tactic.Linarith
import Mathlib.Tactic.FieldSimp
import Mathlib.Tactic.Ring
import Mathlib.Tactic.NormNum
import Mathlib.Analysis.Real.Sqrt
import Verif.Model.Geometry
import Verif.Spec.Geometry
/-!
# C70: geometric values
-/
namespace PG.Props.Geometry
open PG PG.Geometry PG.Spec.Geometry

variable {K : Type} [Field K] [LinearOrder K] [IsStrictOrderedRing K]

omit [Field K] [LinearOrder K] [IsStrictOrderedRing K] in
theorem point_eq {p q : Point K} (h1 : p.x = q.x) (h2 : p.y = q.y) : p = q := by
  cases p; cases q; cases h1; cases h2; rfl

omit [LinearOrder K] [IsStrictOrderedRing K] in
/-- C70: `+` and `-` are those of vectors, and `*` is the product of complex numbers: it is commutative, associative, distributes over `+`, has
the unit `(1, 0)`, and `(0, 1) * (0, 1)` is `(-1, 0)`; points on the axis are multiplied as numbers. -/
theorem C70_arithmetic (p q r : Point K) (a b : K) : p.add q = q.add p ∧ (p.add q).add r = p.add (q.add r) ∧ (p.add q).sub q = p ∧ (p.sub q).add q = p ∧
    p.mul q = q.mul p ∧ (p.mul q).mul r = p.mul (q.mul r) ∧ p.mul (q.add r) = (p.mul q).add (p.mul r) ∧ p.mul ⟨1, 0⟩ = p ∧
    (⟨0, 1⟩ : Point K).mul ⟨0, 1⟩ = ⟨-1, 0⟩ ∧ (⟨a, 0⟩ : Point K).mul ⟨b, 0⟩ = ⟨a * b, 0⟩ ∧ (⟨a, b⟩ : Point K).add r = ⟨a + r.x, b + r.y⟩ := by
  refine ⟨?_, ?_, ?_, ?_, ?_, ?_, ?_, ?_, ?_, ?_, rfl⟩
  all_goals
    refine (by rintro ⟨⟩ ⟨⟩ ⟨h1, h2⟩; simp_all : ∀ p q : Point K, p.x = q.x ∧ p.y = q.y → p = q) _ _ ⟨?_, ?_⟩ <;>
    simp only [Point.add, Point.sub, Point.mul] <;> ring

omit [IsStrictOrderedRing K] in
/-- The full property: points are divided as complex numbers. -/
def Divides (K : Type) [Field K] [LinearOrder K] (div : Point K → Point K → Except Exn (Point K)) : Prop := ∀ p q : Point K, q ≠ ⟨0, 0⟩ → div (p.mul q) q = .ok p

theorem norm_ne {q : Point K} (h : q ≠ ⟨0, 0⟩) : q.x * q.x + q.y * q.y ≠ 0 := by
  intro e
  have h1 := mul_self_nonneg q.x
  have h2 := mul_self_nonneg q.y
  have hx : q.x * q.x = 0 := by linarith
  have hy : q.y * q.y = 0 := by linarith
  exact h (point_eq (mul_self_eq_zero.1 hx) (mul_self_eq_zero.1 hy))

/-- C70: `__div__` divides by points on the axis; of other points it gives the quotient exactly if the dividend has no `x`. -/
theorem C70_division_partial (p q : Point K) (h : q ≠ ⟨0, 0⟩) : (p.mul q).divMethod q = .ok p ↔ q.y = 0 ∨ (p.mul q).x = 0 := by
  have hn := norm_ne h
  unfold Point.divMethod quot
  rw [if_neg hn]
  simp only [bind, Except.bind, pure, Except.pure]
  rw [if_neg hn]
  simp only [Except.ok.injEq]
  rw [← mul_eq_zero]
  constructor
  · intro e
    have e2 := congrArg Point.y e
    simp only [Point.mul] at e2 ⊢
    rw [div_eq_iff hn] at e2
    have : 2 * (q.y * (p.x * q.x - p.y * q.y)) = 0 := by linarith
    rcases mul_eq_zero.1 this with h | h
    · norm_num at h
    · exact h
  · intro e
    refine point_eq ?_ ?_
    · simp only [Point.mul]
      rw [div_eq_iff hn]; ring
    · simp only [Point.mul] at e ⊢
      rw [div_eq_iff hn]; linarith

/-- C70: hence `__div__` does not divide, and `/` raises TypeError. -/
theorem C70_division_false : ¬ Divides K Point.divMethod ∧ ¬ Divides K Point.divOperator := by
  refine ⟨fun h => ?_, fun h => ?_⟩
  · have := (C70_division_partial (⟨1, 0⟩ : Point K) ⟨1, 1⟩ (by intro e; exact one_ne_zero (congrArg Point.x e))).1 (h _ _ (by intro e; exact one_ne_zero (congrArg Point.x e)))
    simp [Point.mul] at this
  · exact absurd (h ⟨1, 0⟩ ⟨1, 0⟩ (by intro e; exact one_ne_zero (congrArg Point.x e))) (by intro e; cases e)

/-! ## Distance -/

theorem sq_sum_nonneg (a b : K) : 0 ≤ a ^ 2 + b ^ 2 := by positivity

theorem le_of_sq {a b : K} (hb : 0 ≤ b) (h : a * a ≤ b * b) : a ≤ b := by
  by_contra hc
  rw [not_le] at hc
  nlinarith

/-- C70: `distance` is a distance: it is that of Pythagoras, never negative, the same in both directions, 0 of equal points only, not shorter by way of a
third point, and kept by shifting both points. -/
theorem C70_distance {sqrt : K → K} (hs : SquareRoot sqrt) (p q r v : Point K) : 0 ≤ p.distance sqrt q ∧
    p.distance sqrt q * p.distance sqrt q = (p.x - q.x) * (p.x - q.x) + (p.y - q.y) * (p.y - q.y) ∧ p.distance sqrt q = q.distance sqrt p ∧ (p.distance sqrt q = 0 ↔ p = q) ∧
    p.distance sqrt r ≤ p.distance sqrt q + q.distance sqrt r ∧ (p.add v).distance sqrt (q.add v) = p.distance sqrt q ∧ (Lseg.mk p q).length sqrt = p.distance sqrt q := by
  have key : ∀ p q : Point K, 0 ≤ p.distance sqrt q ∧ p.distance sqrt q * p.distance sqrt q = (p.x - q.x) * (p.x - q.x) + (p.y - q.y) * (p.y - q.y) := by
    intro p q
    obtain ⟨h1, h2⟩ := hs _ (sq_sum_nonneg (p.x - q.x) (p.y - q.y))
    exact ⟨h1, h2.trans (by ring)⟩
  obtain ⟨h1, h2⟩ := key p q
  refine ⟨h1, h2, ?_, ?_, ?_, ?_, rfl⟩
  · unfold Point.distance
    congr 1
    ring
  · constructor
    · intro e
      rw [e, mul_zero] at h2
      have a1 := mul_self_nonneg (p.x - q.x)
      have a2 := mul_self_nonneg (p.y - q.y)
      have hx : (p.x - q.x) * (p.x - q.x) = 0 := by linarith
      have hy : (p.y - q.y) * (p.y - q.y) = 0 := by linarith
      exact point_eq (sub_eq_zero.1 (mul_self_eq_zero.1 hx)) (sub_eq_zero.1 (mul_self_eq_zero.1 hy))
    · rintro rfl
      rw [sub_self, sub_self, mul_zero, add_zero] at h2
      exact mul_self_eq_zero.1 h2
  · obtain ⟨g1, g2⟩ := key q r
    obtain ⟨f1, f2⟩ := key p r
    refine le_of_sq (add_nonneg h1 g1) ?_
    generalize p.distance sqrt q = d at *
    generalize q.distance sqrt r = e at *
    rw [f2]
    have hcs : (p.x - q.x) * (q.x - r.x) + (p.y - q.y) * (q.y - r.y) ≤ d * e := by
      refine le_of_sq (mul_nonneg h1 g1) ?_
      have : d * e * (d * e) = (d * d) * (e * e) := by ring
      rw [this, h2, g2]
      nlinarith [mul_self_nonneg ((p.x - q.x) * (q.y - r.y) - (p.y - q.y) * (q.x - r.x))]
    nlinarith
  · unfold Point.distance
    congr 1
    simp only [Point.add]
    ring

/-! ## Segments -/

/-- C70: the slope of a segment is that of its direction, and vertical ones (exactly) raise ZeroDivisionError; the center is as far from one end as from the
other, on the segment. -/
theorem C70_segment (s : Lseg K) : (s.vertical = true ↔ s.one.x = s.two.x) ∧ (s.horizontal = true ↔ s.one.y = s.two.y) ∧ (s.slope = .error .zeroDivision ↔ s.one.x = s.two.x) ∧
    (s.one.x ≠ s.two.x → ∃ m, s.slope = .ok m ∧ m * (s.two.x - s.one.x) = s.two.y - s.one.y) ∧ s.center.sub s.one = s.two.sub s.center := by
  refine ⟨by simp [Lseg.vertical], by simp [Lseg.horizontal], ?_, ?_, ?_⟩
  · unfold Lseg.slope quot
    by_cases h : s.two.x - s.one.x = 0
    · rw [if_pos h]; exact ⟨fun _ => (sub_eq_zero.1 h).symm, fun _ => rfl⟩
    · rw [if_neg h]; exact ⟨fun e => (by cases e), fun e => absurd (sub_eq_zero.2 e.symm) h⟩
  · intro h
    have h : s.two.x - s.one.x ≠ 0 := fun e => h (sub_eq_zero.1 e).symm
    refine ⟨_, by unfold Lseg.slope quot; rw [if_neg h], div_mul_cancel₀ _ h⟩
  · refine point_eq ?_ ?_ <;> simp only [Point.sub, Lseg.center] <;> ring

/-- The directions of the segments are parallel. -/
def ParallelS (s t : Lseg K) : Prop := Parallel (s.two.x - s.one.x) (s.two.y - s.one.y) (t.two.x - t.one.x) (t.two.y - t.one.y)

/-- The segments are at a right angle. -/
def RightAngleS (s t : Lseg K) : Prop := RightAngle (s.two.x - s.one.x) (s.two.y - s.one.y) (t.two.x - t.one.x) (t.two.y - t.one.y)

/-- C70: `parallel` of segments that are not vertical says whether they are parallel; if one is vertical, it raises ZeroDivisionError. -/
theorem C70_parallel_partial (s t : Lseg K) : (s.one.x ≠ s.two.x → t.one.x ≠ t.two.x → ∃ b, s.parallel t = .ok b ∧ (b = true ↔ ParallelS s t)) ∧
    (s.one.x = s.two.x ∨ t.one.x = t.two.x → s.parallel t = .error .zeroDivision) := by
  constructor
  · intro h1 h2
    obtain ⟨m, hm, em⟩ := (C70_segment s).2.2.2.1 h1
    obtain ⟨n, hn, en⟩ := (C70_segment t).2.2.2.1 h2
    refine ⟨decide (m = n), by unfold Lseg.parallel; rw [hm, hn]; rfl, ?_⟩
    rw [decide_eq_true_eq]
    unfold ParallelS Parallel
    rw [← em, ← en]
    have d1 : s.two.x - s.one.x ≠ 0 := fun e => h1 (sub_eq_zero.1 e).symm
    have d2 : t.two.x - t.one.x ≠ 0 := fun e => h2 (sub_eq_zero.1 e).symm
    constructor
    · rintro rfl; ring
    · intro e
      have : (s.two.x - s.one.x) * (t.two.x - t.one.x) * (n - m) = 0 := by linarith
      rcases mul_eq_zero.1 this with h | h
      · exact absurd h (mul_ne_zero d1 d2)
      · exact (sub_eq_zero.1 h).symm
  · intro h
    unfold Lseg.parallel
    by_cases h1 : s.one.x = s.two.x
    · rw [(C70_segment s).2.2.1.2 h1]; rfl
    · obtain ⟨m, hm, -⟩ := (C70_segment s).2.2.2.1 h1
      rw [hm, (C70_segment t).2.2.1.2 (h.resolve_left h1)]; rfl

/-- The full property of `perpendicular`. -/
def PerpendicularRight (K : Type) [Field K] [LinearOrder K] : Prop := ∀ s t : Lseg K, ∃ b, s.perpendicular t = .ok b ∧ (b = true ↔ RightAngleS s t)

/-- C70: what `perpendicular` does say of segments neither of which is vertical, the second not horizontal: whether the slopes are opposite. -/
theorem C70_perpendicular_partial (s t : Lseg K) (h1 : s.one.x ≠ s.two.x) (h2 : t.one.x ≠ t.two.x) (h3 : t.one.y ≠ t.two.y) : ∃ b m n, s.perpendicular t = .ok b ∧
    m * (s.two.x - s.one.x) = s.two.y - s.one.y ∧ n * (t.two.x - t.one.x) = t.two.y - t.one.y ∧ (b = true ↔ m = -n) ∧ (m = 1 ∨ m = -1 → (b = true ↔ RightAngleS s t)) ∧
    (RightAngleS s t → b = true → m = 1 ∨ m = -1) := by
  obtain ⟨m, hm, em⟩ := (C70_segment s).2.2.2.1 h1
  obtain ⟨n, hn, en⟩ := (C70_segment t).2.2.2.1 h2
  have hn0 : n ≠ 0 := by rintro rfl; rw [zero_mul] at en; exact h3 (sub_eq_zero.1 en.symm).symm
  have d1 : s.two.x - s.one.x ≠ 0 := fun e => h1 (sub_eq_zero.1 e).symm
  have d2 : t.two.x - t.one.x ≠ 0 := fun e => h2 (sub_eq_zero.1 e).symm
  have hb : (decide (m / n = -1) = true ↔ m = -n) := by rw [decide_eq_true_eq, div_eq_iff hn0]; constructor <;> intro e <;> linarith
  have hr : RightAngleS s t ↔ m * n = -1 := by
    unfold RightAngleS RightAngle
    rw [← em, ← en]
    constructor
    · intro e
      have : (s.two.x - s.one.x) * (t.two.x - t.one.x) * (1 + m * n) = 0 := by linarith
      rcases mul_eq_zero.1 this with h | h
      · exact absurd h (mul_ne_zero d1 d2)
      · linarith
    · intro e
      have : (s.two.x - s.one.x) * (t.two.x - t.one.x) + m * (s.two.x - s.one.x) * (n * (t.two.x - t.one.x)) = (s.two.x - s.one.x) * (t.two.x - t.one.x) * (1 + m * n) := by ring
      rw [this, e]; ring
  refine ⟨decide (m / n = -1), m, n, ?_, em, en, hb, ?_, ?_⟩
  · unfold Lseg.perpendicular
    rw [hm, hn]
    show (quot m n >>= _) = _
    unfold quot
    rw [if_neg hn0]; rfl
  · intro h
    rw [hb, hr]
    rcases h with rfl | rfl <;> constructor <;> intro e <;> linarith
  · intro e h
    rw [hr] at e
    rw [hb] at h
    have : (m - 1) * (m + 1) = 0 := by subst h; linarith
    rcases mul_eq_zero.1 this with h | h
    · exact .inl (sub_eq_zero.1 h)
    · exact .inr (by linarith)

/-- C70: hence `perpendicular` is wrong both ways: of slopes 2 and -1/2, which are at a right angle, it says False, of slopes 2 and -2 it says True;
and of an axis and the other it raises ZeroDivisionError. -/
theorem C70_perpendicular_false : let s : Lseg K := ⟨⟨0, 0⟩, ⟨1, 2⟩⟩
    (RightAngleS s ⟨⟨0, 0⟩, ⟨2, -1⟩⟩ ∧ s.perpendicular ⟨⟨0, 0⟩, ⟨2, -1⟩⟩ = .ok false) ∧ (¬ RightAngleS s ⟨⟨0, 0⟩, ⟨1, -2⟩⟩ ∧ s.perpendicular ⟨⟨0, 0⟩, ⟨1, -2⟩⟩ = .ok true) ∧
    (RightAngleS (⟨⟨0, 0⟩, ⟨1, 0⟩⟩ : Lseg K) ⟨⟨0, 0⟩, ⟨0, 1⟩⟩ ∧ (⟨⟨0, 0⟩, ⟨1, 0⟩⟩ : Lseg K).perpendicular ⟨⟨0, 0⟩, ⟨0, 1⟩⟩ = .error .zeroDivision) ∧ ¬ PerpendicularRight K := by
  intro s
  have h3 : RightAngleS (⟨⟨0, 0⟩, ⟨1, 0⟩⟩ : Lseg K) ⟨⟨0, 0⟩, ⟨0, 1⟩⟩ ∧ (⟨⟨0, 0⟩, ⟨1, 0⟩⟩ : Lseg K).perpendicular ⟨⟨0, 0⟩, ⟨0, 1⟩⟩ = .error .zeroDivision := by
    refine ⟨by simp [RightAngleS, RightAngle], ?_⟩
    simp [Lseg.perpendicular, Lseg.slope, quot, bind, Except.bind]
  refine ⟨⟨?_, ?_⟩, ⟨?_, ?_⟩, h3, ?_⟩
  · simp [s, RightAngleS, RightAngle]
  · simp only [s, Lseg.perpendicular, Lseg.slope, quot, bind, Except.bind, pure, Except.pure]
    norm_num
  · simp only [s, RightAngleS, RightAngle]
    norm_num
  · simp only [s, Lseg.perpendicular, Lseg.slope, quot, bind, Except.bind, pure, Except.pure]
    norm_num
  · intro h
    obtain ⟨b, hb, -⟩ := h ⟨⟨0, 0⟩, ⟨1, 0⟩⟩ ⟨⟨0, 0⟩, ⟨0, 1⟩⟩
    rw [h3.2] at hb
    cases hb

/-! ## Boxes and circles -/

/-- The comparison of numbers. -/
def gt (a b : K) : Bool := decide (b < a)

omit [Field K] [IsStrictOrderedRing K] in
theorem box_x (p q : Point K) : (Box.new gt p q).high.x = max p.x q.x ∧ (Box.new gt p q).low.x = min p.x q.x ∧ (Box.new gt p q).high.y = max p.y q.y ∧ (Box.new gt p q).low.y = min p.y q.y := by
  have key : ∀ a b : K, (if gt a b = true then (a, b) else (b, a)) = (max a b, min a b) := by
    intro a b
    unfold gt
    by_cases h : b < a
    · rw [if_pos (decide_eq_true h), max_eq_left (le_of_lt h), min_eq_right (le_of_lt h)]
    · rw [if_neg (by simpa using h), max_eq_right (not_lt.1 h), min_eq_left (not_lt.1 h)]
  unfold Box.new
  dsimp only
  rw [key, key]
  exact ⟨rfl, rfl, rfl, rfl⟩

omit [Field K] [IsStrictOrderedRing K] in
/-- C70: the box of two points has its high point above and to the right of its low point, and it is the smallest box with both points in it; it is the
same for the two points in the other order, for the two other corners, and for its own points. -/
theorem C70_box (p q : Point K) : let b := Box.new gt p q
    b.low.x ≤ b.high.x ∧ b.low.y ≤ b.high.y ∧ (∀ v : Point K, (b.low.x ≤ v.x ∧ v.x ≤ b.high.x) ∧ (b.low.y ≤ v.y ∧ v.y ≤ b.high.y) ↔ Between p.x q.x v.x ∧ Between p.y q.y v.y) ∧
    Box.new gt q p = b ∧ Box.new gt ⟨p.x, q.y⟩ ⟨q.x, p.y⟩ = b ∧ Box.new gt b.high b.low = b := by
  obtain ⟨h1, h2, h3, h4⟩ := box_x p q
  have ext : ∀ b c : Box K, b.high.x = c.high.x → b.low.x = c.low.x → b.high.y = c.high.y → b.low.y = c.low.y → b = c := by
    rintro ⟨⟨⟩, ⟨⟩⟩ ⟨⟨⟩, ⟨⟩⟩ h1 h2 h3 h4
    cases h1; cases h2; cases h3; cases h4; rfl
  have btw : ∀ a b x : K, (min a b ≤ x ∧ x ≤ max a b) ↔ Between a b x := by
    intro a b x
    unfold Between
    rw [min_le_iff, le_max_iff]
    rcases le_total a b with h | h
    · constructor
      · rintro ⟨h1 | h1, h2 | h2⟩
        · exact .inl ⟨h1, le_trans h2 h⟩
        · exact .inl ⟨h1, h2⟩
        · exact .inr ⟨h1, h2⟩
        · exact .inl ⟨le_trans h h1, h2⟩
      · rintro (⟨h1, h2⟩ | ⟨h1, h2⟩)
        · exact ⟨.inl h1, .inr h2⟩
        · exact ⟨.inr h1, .inl h2⟩
    · constructor
      · rintro ⟨h1 | h1, h2 | h2⟩
        · exact .inr ⟨le_trans h h1, h2⟩
        · exact .inl ⟨h1, h2⟩
        · exact .inr ⟨h1, h2⟩
        · exact .inr ⟨h1, le_trans h2 h⟩
      · rintro (⟨h1, h2⟩ | ⟨h1, h2⟩)
        · exact ⟨.inl h1, .inr h2⟩
        · exact ⟨.inr h1, .inl h2⟩
  intro b
  have e1 : b.high.x = max p.x q.x := h1
  have e2 : b.low.x = min p.x q.x := h2
  have e3 : b.high.y = max p.y q.y := h3
  have e4 : b.low.y = min p.y q.y := h4
  refine ⟨?_, ?_, ?_, ?_, ?_, ?_⟩
  · rw [e1, e2]; exact min_le_max
  · rw [e3, e4]; exact min_le_max
  · intro v
    rw [e1, e2, e3, e4]
    exact and_congr (btw ..) (btw ..)
  · obtain ⟨g1, g2, g3, g4⟩ := box_x q p
    exact ext _ _ (by rw [g1, e1, max_comm]) (by rw [g2, e2, min_comm]) (by rw [g3, e3, max_comm]) (by rw [g4, e4, min_comm])
  · obtain ⟨g1, g2, g3, g4⟩ := box_x (⟨p.x, q.y⟩ : Point K) ⟨q.x, p.y⟩
    exact ext _ _ (by rw [g1, e1]) (by rw [g2, e2]) (by rw [g3, e3, max_comm]) (by rw [g4, e4, min_comm])
  · obtain ⟨g1, g2, g3, g4⟩ := box_x b.high b.low
    refine ext _ _ ?_ ?_ ?_ ?_
    · rw [g1, e1, e2]; exact max_eq_left min_le_max
    · rw [g2, e1, e2]; exact min_eq_right min_le_max
    · rw [g3, e3, e4]; exact max_eq_left min_le_max
    · rw [g4, e3, e4]; exact min_eq_right min_le_max

omit [IsStrictOrderedRing K] in
/-- C70: the center of a box is that of the segment between the points it has been made of. -/
theorem C70_box_center (p q : Point K) : (Box.new gt p q).center = (Lseg.mk p q).center := by
  obtain ⟨h1, h2, h3, h4⟩ := box_x p q
  refine point_eq ?_ ?_
  · show ((Box.new gt p q).high.x + (Box.new gt p q).low.x) / 2 = (p.x + q.x) / 2
    rw [h1, h2, max_add_min]
  · show ((Box.new gt p q).high.y + (Box.new gt p q).low.y) / 2 = (p.y + q.y) / 2
    rw [h3, h4, max_add_min]

omit [Field K] [LinearOrder K] [IsStrictOrderedRing K] in
/-- C70: a coordinate that is NaN (which compares to nothing) exchanges the two: the box of the points of a box is another box then. -/
theorem C70_box_nan {lt : K → K → Bool} {nan : K} (h1 : ∀ x, lt nan x = false) (x y z : K) (hx : x ≠ nan) :
    let b : Box K := ⟨⟨nan, y⟩, ⟨x, z⟩⟩
    (Box.new lt b.high b.low).high.x = x ∧ (Box.new lt b.high b.low).low.x = nan ∧ Box.new lt b.high b.low ≠ b := by
  have e : (Box.new lt (⟨nan, y⟩ : Point K) ⟨x, z⟩).high.x = x ∧ (Box.new lt (⟨nan, y⟩ : Point K) ⟨x, z⟩).low.x = nan := by
    unfold Box.new
    simp [h1]
  refine ⟨e.1, e.2, fun h => hx ?_⟩
  rw [← e.1]
  exact congrArg (fun b => b.high.x) h

omit [IsStrictOrderedRing K] in
/-- C70: there are circles of all radii but those below 0, which raise ValueError. -/
theorem C70_circle (p : Point K) (r : K) : (0 ≤ r → Circle.new p r = .ok ⟨p, r⟩) ∧ (r < 0 → Circle.new p r = .error .value) := by
  unfold Circle.new
  exact ⟨fun h => if_neg (not_lt.2 h), fun h => if_pos h⟩

/-! ## Cases -/

example : SquareRoot Real.sqrt := fun _ h => ⟨Real.sqrt_nonneg _, Real.mul_self_sqrt h⟩

example : (Box.new gt (⟨-4, 0⟩ : Point ℚ) ⟨-2, -3⟩) = ⟨⟨-2, 0⟩, ⟨-4, -3⟩⟩ := by
  simp [Box.new, gt]
  norm_num
example : (⟨1, 2⟩ : Point ℚ).mul ⟨3, 4⟩ = ⟨-5, 10⟩ := by simp [Point.mul]; norm_num
example : ∃ s t : Lseg ℚ, s.one.x ≠ s.two.x ∧ t.one.x ≠ t.two.x ∧ t.one.y ≠ t.two.y ∧ ParallelS s t := ⟨⟨⟨0, 0⟩, ⟨1, 2⟩⟩, ⟨⟨1, 0⟩, ⟨2, 2⟩⟩, by simp [ParallelS, Parallel]; norm_num⟩

end PG.Props.Geometry
