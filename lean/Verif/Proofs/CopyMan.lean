import Verif.Model.CopyMan
import Verif.Spec.Copy
import Verif.Proofs.TypesLib
/-!
# Lemmas about the tracking of COPY streams
-/
namespace PG.CopyMan
open PG PG.Spec PG.Spec.Copy

/-- The state that goes with what is left of the stream. -/
def At (r : Bytes) (s : WS) : Prop :=
  (r = [] ∧ s = ⟨0, [], none⟩) ∨ (∃ f, InHeader r f ∧ s = ⟨-1, f, none⟩) ∨ (∃ k : Nat, InRow r k ∧ s = ⟨k, [], none⟩) ∨
    (Foreign r ∧ s = ⟨0, [], some r⟩)

theorem copyFrames_nil : copyFrames [] = [] := rfl
theorem copyFrames_cons (row : Bytes) (rows : List Bytes) :
    copyFrames (row :: rows) = 100 :: (beEnc 4 (row.length + 4) ++ row) ++ copyFrames rows := by
  simp [copyFrames, frames, frame]
theorem copyFrames_append (a b : List Bytes) : copyFrames (a ++ b) = copyFrames a ++ copyFrames b := by
  simp [copyFrames, frames]

theorem head4 {n : Nat} (h : n < 2 ^ 32) (t : Bytes) : beDec ((beEnc 4 n ++ t).take 4) = n := by
  rw [List.take_left' (length_beEnc 4 n), beDec_beEnc_of_lt (by simpa using h)]

/-- One turn of the loop at a boundary, with a complete header in the view. -/
theorem loop_header {fuel : Nat} {n L : Nat} (hL : L < 2 ^ 32) (t : Bytes) :
    loop (fuel + 1) (100 :: (beEnc 4 L ++ t)) ((5 + t.length : Nat) : Int) 0 [] n =
      loop fuel (100 :: (beEnc 4 L ++ t)) ((5 + t.length : Nat) : Int) (L + 1) [] n := by
  rw [loop, inside, if_neg (by simp)]
  simp only
  rw [if_neg (by simp [copyType]), if_neg (by omega), head4 hL]

theorem inside_zero (view : Bytes) (vlen : Int) (n : Nat) : inside view vlen 0 n = (view, vlen, 0, n) := by
  rw [inside, if_neg (by simp)]

theorem inside_full {n k : Nat} (hk : 0 < k) (view : Bytes) (h : k ≤ view.length) :
    inside view (view.length : Int) (k : Int) n = (view.drop k, ((view.drop k).length : Int), 0, n + 1) := by
  rw [inside, if_pos (by omega)]
  simp only
  rw [if_pos (by omega), Int.toNat_natCast, List.length_drop, show -((k : Int) - view.length) = ((view.length - k : Nat) : Int) by omega]

/-- One turn of the loop inside a message. -/
theorem loop_inside {fuel : Nat} {n k : Nat} (hk : 0 < k) (view : Bytes) (h : k ≤ view.length) :
    loop (fuel + 1) view (view.length : Int) (k : Int) [] n =
      loop (fuel + 1) (view.drop k) ((view.drop k).length : Int) 0 [] (n + 1) := by
  rw [loop, loop, inside_full hk view h, inside_zero]

theorem loop_inside_short {fuel : Nat} {n k : Nat} (view : Bytes) (h : view.length < k) :
    loop (fuel + 1) view (view.length : Int) (k : Int) [] n = .ok ⟨((k - view.length : Nat) : Int), [], none, n⟩ := by
  rw [loop, inside, if_pos (by omega)]
  simp only
  rw [if_neg (by omega), Int.toNat_natCast, List.drop_eq_nil_of_le (by omega)]
  simp only [Except.ok.injEq, Out.mk.injEq, and_true]
  omega

theorem loop_rest {r : Bytes} (h : Rest r) : ∀ fuel n, ∃ s, loop (fuel + 2) r r.length 0 [] n = .ok ⟨s.remaining, s.fragment, s.final, n⟩ ∧ At r s := by
  intro fuel n
  rcases h with rfl | ⟨f, rfl, hf⟩ | ⟨k, hk, part, rfl, hl⟩ | ⟨x, t, rfl, hx⟩
  · exact ⟨⟨0, [], none⟩, rfl, Or.inl ⟨rfl, rfl⟩⟩
  · refine ⟨⟨-1, f, none⟩, ?_, Or.inr (Or.inl ⟨f, ⟨rfl, hf⟩, rfl⟩)⟩
    rw [loop, inside, if_neg (by simp)]
    simp only
    rw [if_neg (by simp [copyType]), if_pos (by simp only [List.length_cons]; omega)]
    rfl
  · refine ⟨⟨k, [], none⟩, ?_, Or.inr (Or.inr (Or.inl ⟨k, ⟨hk, part, rfl, hl⟩, rfl⟩))⟩
    have hlen : (100 :: (beEnc 4 (part.length + k + 4) ++ part)).length = 5 + part.length := by simp; omega
    rw [hlen, loop_header (by omega)]
    have := loop_inside_short (fuel := fuel) (n := n) (k := part.length + k + 4 + 1) (100 :: (beEnc 4 (part.length + k + 4) ++ part)) (by omega)
    rw [hlen] at this
    rw [show (((part.length + k + 4 : Nat) : Int) + 1) = ((part.length + k + 4 + 1 : Nat) : Int) by omega, this]
    simp only [Except.ok.injEq, Out.mk.injEq, and_true]
    omega
  · refine ⟨⟨0, [], some (x :: t)⟩, ?_, Or.inr (Or.inr (Or.inr ⟨⟨x, t, rfl, hx⟩, rfl⟩))⟩
    rw [loop, inside, if_neg (by simp)]
    simp only
    rw [if_pos (by simpa [copyType] using hx)]

theorem loop_position {r : Bytes} (h : Rest r) (rows : List Bytes) : ∀ fuel n, (∀ row ∈ rows, RowFits row) → rows.length ≤ fuel →
    ∃ s, loop (fuel + 2) (copyFrames rows ++ r) (copyFrames rows ++ r).length 0 [] n =
      .ok ⟨s.remaining, s.fragment, s.final, n + rows.length⟩ ∧ At r s := by
  induction rows with
  | nil =>
    intro fuel n _ _
    exact loop_rest h fuel n
  | cons row rows ih =>
    intro fuel n hf hl
    obtain ⟨fuel, rfl⟩ : ∃ k, fuel = k + 1 := ⟨fuel - 1, by simp at hl; omega⟩
    obtain ⟨s, hs, ha⟩ := ih fuel (n + 1) (fun x hx => hf x (List.mem_cons_of_mem _ hx)) (by simp at hl; omega)
    refine ⟨s, ?_, ha⟩
    have hfit : row.length + 4 < 2 ^ 32 := hf row (List.mem_cons_self ..)
    have e : copyFrames (row :: rows) ++ r = 100 :: (beEnc 4 (row.length + 4) ++ (row ++ (copyFrames rows ++ r))) := by
      rw [copyFrames_cons]; simp
    have hlen : (100 :: (beEnc 4 (row.length + 4) ++ (row ++ (copyFrames rows ++ r)))).length = 5 + (row ++ (copyFrames rows ++ r)).length := by
      simp; omega
    have hdrop : (100 :: (beEnc 4 (row.length + 4) ++ (row ++ (copyFrames rows ++ r)))).drop (row.length + 4 + 1) = copyFrames rows ++ r := by
      rw [List.drop_succ_cons, ← List.append_assoc]
      exact List.drop_left' (by simp; omega)
    rw [e, hlen, loop_header (by omega)]
    have := loop_inside (fuel := fuel + 1) (n := n) (k := row.length + 4 + 1) (by omega)
      (100 :: (beEnc 4 (row.length + 4) ++ (row ++ (copyFrames rows ++ r)))) (by rw [hlen]; simp; omega)
    rw [hlen, hdrop] at this
    rw [show (((row.length + 4 : Nat) : Int) + 1) = ((row.length + 4 + 1 : Nat) : Int) by omega, this, hs]
    simp only [List.length_cons, Except.ok.injEq, Out.mk.injEq, true_and]
    omega

theorem length_copyFrames (rows : List Bytes) : rows.length ≤ (copyFrames rows).length := by
  induction rows with
  | nil => simp
  | cons row rows ih => rw [copyFrames_cons]; simp only [List.length_append, List.length_cons]; omega

/-- One message. -/
def fr (row : Bytes) : Bytes := 100 :: (beEnc 4 (row.length + 4) ++ row)

theorem length_fr (row : Bytes) : (fr row).length = row.length + 5 := by simp [fr]; omega
theorem copyFrames_cons' (row : Bytes) (rows : List Bytes) : copyFrames (row :: rows) = fr row ++ copyFrames rows := copyFrames_cons row rows

theorem inRow_fr {r : Bytes} {k : Nat} (h : InRow r k) : ∃ c row : Bytes, c.length = k ∧ RowFits row ∧ r ++ c = fr row := by
  obtain ⟨_, part, rfl, hl⟩ := h
  refine ⟨List.replicate k 0, part ++ List.replicate k 0, by simp, ?_, ?_⟩
  · unfold RowFits; simp; omega
  · simp [fr]

/-- A proper part of a message is incomplete. -/
theorem cut {a c row : Bytes} (h : a ++ c = fr row) (hc : c ≠ []) (hf : RowFits row) :
    a = [] ∨ (∃ f, InHeader a f) ∨ InRow a c.length := by
  match a with
  | [] => exact Or.inl rfl
  | x :: a =>
    right
    rw [fr, List.cons_append] at h
    injection h with hx h
    subst hx
    by_cases hl : a.length < 4
    · exact Or.inl ⟨a, rfl, hl⟩
    · right
      have hlen := congrArg List.length h
      simp only [List.length_append, length_beEnc] at hlen
      have hcp : 0 < c.length := List.length_pos_iff.2 hc
      refine ⟨hcp, a.drop 4, ?_, ?_⟩
      · rw [List.length_drop, show a.length - 4 + c.length + 4 = row.length + 4 by omega]
        have : a.take 4 = beEnc 4 (row.length + 4) := by
          have := congrArg (List.take 4) h
          rw [List.take_left' (length_beEnc _ _), List.take_append_of_le_length (by omega)] at this
          exact this
        rw [← this, List.take_append_drop]
      · rw [List.length_drop]
        unfold RowFits at hf
        omega

theorem rest_of_cut {a c row : Bytes} (h : a ++ c = fr row) (hc : c ≠ []) (hf : RowFits row) : Rest a := by
  rcases cut h hc hf with h | h | h
  · exact Or.inl h
  · exact Or.inr (Or.inl h)
  · exact Or.inr (Or.inr (Or.inl ⟨_, h⟩))

theorem fr_inj {a b x y : Bytes} (ha : RowFits a) (hb : RowFits b) (h : fr a ++ x = fr b ++ y) : a = b ∧ x = y := by
  simp only [fr, List.cons_append, List.append_assoc, List.cons.injEq, true_and] at h
  obtain ⟨h1, h2⟩ := List.append_inj h (by simp)
  have hl : a.length = b.length := by
    have := beEnc_inj (by simpa [RowFits] using ha) (by simpa [RowFits] using hb) h1
    omega
  exact List.append_inj h2 hl

/-- What is left holds no complete message. -/
theorem rest_no_fr {row x : Bytes} (hf : RowFits row) (h : Rest (fr row ++ x)) : False := by
  rcases h with h | ⟨f, h, hl⟩ | ⟨k, h⟩ | ⟨y, t, h, hy⟩
  · simp [fr] at h
  · have := congrArg List.length h
    rw [List.length_append, length_fr, List.length_cons] at this
    omega
  · have hk := h.1
    obtain ⟨c, row', hc, hf', he⟩ := inRow_fr h
    rw [List.append_assoc, ← List.append_nil (fr row')] at he
    have := (fr_inj hf hf' he).2
    have := congrArg List.length this
    simp only [List.length_append, List.length_nil] at this
    omega
  · simp only [fr, List.cons_append, List.cons.injEq] at h
    exact hy h.1.symm

theorem position_rest {r q : Bytes} {rows : List Bytes} (h : Rest r) (hp : Position r rows q) : rows = [] ∧ q = r := by
  obtain ⟨he, hf, hq⟩ := hp
  cases rows with
  | nil => exact ⟨rfl, he.symm⟩
  | cons row rows =>
    rw [copyFrames_cons', List.append_assoc] at he
    rw [he] at h
    exact (rest_no_fr (hf row (List.mem_cons_self ..)) h).elim

theorem position_fr {row x q : Bytes} {rows : List Bytes} (hf : RowFits row) (hp : Position (fr row ++ x) rows q) :
    ∃ rows', rows = row :: rows' ∧ Position x rows' q := by
  obtain ⟨he, hfs, hq⟩ := hp
  cases rows with
  | nil => rw [copyFrames_nil, List.nil_append] at he; rw [← he] at hq; exact (rest_no_fr hf hq).elim
  | cons row' rows =>
    rw [copyFrames_cons', List.append_assoc] at he
    obtain ⟨rfl, rfl⟩ := fr_inj hf (hfs _ (List.mem_cons_self ..)) he
    exact ⟨rows, rfl, rfl, fun y hy => hfs y (List.mem_cons_of_mem _ hy), hq⟩

theorem position_unique {s r r' : Bytes} {rows rows' : List Bytes} (h : Position s rows r) (h' : Position s rows' r') :
    rows = rows' ∧ r = r' := by
  induction rows generalizing s rows' with
  | nil =>
    obtain ⟨he, _, hr⟩ := h
    rw [copyFrames_nil, List.nil_append] at he
    subst he
    obtain ⟨h1, h2⟩ := position_rest hr h'
    exact ⟨h1.symm, h2.symm⟩
  | cons row rows ih =>
    obtain ⟨he, hf, hr⟩ := h
    rw [copyFrames_cons', List.append_assoc] at he
    subst he
    obtain ⟨rows2, rfl, hp⟩ := position_fr (hf row (List.mem_cons_self ..)) h'
    obtain ⟨h1, h2⟩ := ih ⟨rfl, fun y hy => hf y (List.mem_cons_of_mem _ hy), hr⟩ hp
    exact ⟨by rw [h1], h2⟩

theorem rest_prefix {a b : Bytes} (h : Rest (a ++ b)) : Rest a := by
  rcases h with h | ⟨f, h, hl⟩ | ⟨k, h⟩ | ⟨y, t, h, hy⟩
  · exact Or.inl (List.append_eq_nil_iff.1 h).1
  · cases a with
    | nil => exact Or.inl rfl
    | cons x a =>
      rw [List.cons_append] at h
      injection h with h1 h2
      subst h1 h2
      exact Or.inr (Or.inl ⟨a, rfl, by rw [List.length_append] at hl; omega⟩)
  · have hk := h.1
    obtain ⟨c, row', hc, hf', he⟩ := inRow_fr h
    rw [List.append_assoc] at he
    exact rest_of_cut he (by intro hn; have := congrArg List.length hn; simp only [List.length_append, List.length_nil] at this; omega) hf'
  · cases a with
    | nil => exact Or.inl rfl
    | cons x a =>
      rw [List.cons_append] at h
      injection h with h1 h2
      subst h1
      exact Or.inr (Or.inr (Or.inr ⟨x, a, rfl, hy⟩))

/-- A beginning of a stream with a position has one too. -/
theorem position_prefix {a b r : Bytes} {rows : List Bytes} (h : Position (a ++ b) rows r) :
    ∃ rows1 q rows2, rows = rows1 ++ rows2 ∧ Position a rows1 q ∧ Position (q ++ b) rows2 r := by
  induction rows generalizing a with
  | nil =>
    obtain ⟨he, hf, hr⟩ := h
    rw [copyFrames_nil, List.nil_append] at he
    rw [← he] at hr
    exact ⟨[], a, [], rfl, ⟨rfl, by simp, rest_prefix hr⟩, ⟨by simpa [copyFrames_nil] using he, by simp, he ▸ hr⟩⟩
  | cons row rows ih =>
    have hp := h
    obtain ⟨he, hf, hr⟩ := h
    have hfr := hf row (List.mem_cons_self ..)
    rw [copyFrames_cons', List.append_assoc] at he
    rcases Nat.lt_or_ge a.length (fr row).length with hl | hl
    · obtain ⟨c, hc⟩ : ∃ c, a ++ c = fr row := by
        refine ⟨(fr row).drop a.length, ?_⟩
        have := congrArg (List.take a.length) he
        rw [List.take_left, List.take_append_of_le_length (by omega)] at this
        conv => lhs; arg 1; rw [this]
        exact List.take_append_drop ..
      have hne : c ≠ [] := by intro hn; subst hn; rw [List.append_nil] at hc; subst hc; omega
      have hra := rest_of_cut hc hne hfr
      exact ⟨[], a, row :: rows, rfl, ⟨rfl, by simp, hra⟩, hp⟩
    · obtain ⟨a', ha⟩ : ∃ a', a = fr row ++ a' := by
        refine ⟨a.drop (fr row).length, ?_⟩
        have := congrArg (List.take (fr row).length) he
        rw [List.take_left, List.take_append_of_le_length (by omega)] at this
        conv => rhs; arg 1; rw [← this]
        exact (List.take_append_drop ..).symm
      subst ha
      rw [List.append_assoc] at he hp
      have he' := List.append_cancel_left he
      obtain ⟨rows1, q, rows2, h1, h2, h3⟩ := ih ⟨he', fun y hy => hf y (List.mem_cons_of_mem _ hy), hr⟩
      refine ⟨row :: rows1, q, rows2, by rw [h1]; rfl, ⟨?_, ?_, h2.2.2⟩, h3⟩
      · rw [copyFrames_cons', List.append_assoc, ← h2.1]
      · intro y hy
        rcases List.mem_cons.1 hy with rfl | hy
        · exact hfr
        · exact h2.2.1 y hy

theorem loop_ok_update {s : WS} {view : Bytes} {remaining : Int} (hf : s.final = none) (hr : s.remaining = remaining)
    (hfr : s.fragment = []) (h0 : 0 ≤ remaining) {o : Out} (h : loop (view.length + 2) view view.length remaining [] 0 = .ok o) :
    update s view = .ok (⟨o.remaining, o.fragment, o.final⟩, o.n) := by
  have hc : carry s view = (remaining, []) := by rw [carry, if_neg (by omega), hr, hfr]
  unfold update
  rw [hf, hc]
  simp only
  rw [if_pos h0, h]
  rfl

/-- The update with a header completed by the view. -/
theorem update_header {f view : Bytes} {L : Nat} (hf : f.length < 4)
    (hL : f ++ view.take (4 - f.length) = beEnc 4 L) (hL4 : 4 ≤ L) (hL2 : L < 2 ^ 32) {o : Out}
    (h : loop (view.length + 2) view view.length ((L - f.length : Nat) : Int) [] 0 = .ok o) :
    update ⟨-1, f, none⟩ view = .ok (⟨o.remaining, o.fragment, o.final⟩, o.n) := by
  have hc : carry ⟨-1, f, none⟩ view = (((L - f.length : Nat) : Int), []) := by
    rw [carry, if_pos rfl]
    simp only [hL]
    rw [if_pos (length_beEnc _ _), beDec_beEnc_of_lt (by simpa using hL2),
      show (L : Int) - f.length = ((L - f.length : Nat) : Int) by omega]
  unfold update
  rw [hc]
  simp only
  rw [if_pos (by omega), h]
  rfl

theorem update_position {r c q : Bytes} {rows : List Bytes} {s : WS} (ha : At r s) (hn : ¬ Foreign r) (hp : Position (r ++ c) rows q) :
    ∃ s', update s c = .ok (s', rows.length) ∧ At q s' := by
  rcases ha with ⟨rfl, rfl⟩ | ⟨f, ⟨rfl, hfl⟩, rfl⟩ | ⟨k, hk, rfl⟩ | ⟨hF, _⟩
  · obtain ⟨he, hf, hr⟩ := hp
    rw [List.nil_append] at he
    obtain ⟨s', h1, h2⟩ := loop_position hr rows c.length 0 hf (by rw [he]; have := length_copyFrames rows; simp; omega)
    rw [← he] at h1
    refine ⟨s', ?_, h2⟩
    rw [loop_ok_update rfl rfl rfl (by simp) h1]
    simp
  · by_cases hl : f.length + c.length < 4
    · have hr : Rest (100 :: f ++ c) := Or.inr (Or.inl ⟨f ++ c, rfl, by simpa using hl⟩)
      obtain ⟨rfl, rfl⟩ := position_rest hr hp
      refine ⟨⟨-1, f ++ c, none⟩, ?_, Or.inr (Or.inl ⟨f ++ c, ⟨rfl, by simpa using hl⟩, rfl⟩)⟩
      have hc : carry ⟨-1, f, none⟩ c = (-1, f ++ c) := by
        rw [carry, if_pos rfl]
        simp only [List.take_of_length_le (show c.length ≤ 4 - f.length by omega)]
        rw [if_neg (by simp; omega)]
      unfold update
      rw [hc]
      rfl
    · have h4 : 4 ≤ f.length + c.length := by omega
      have htake : (f ++ c).take 4 = f ++ c.take (4 - f.length) := by
        rw [List.take_append, List.take_of_length_le (by omega)]
      obtain ⟨he, hf, hq⟩ := hp
      cases rows with
      | nil =>
        rw [copyFrames_nil, List.nil_append] at he
        subst he
        have hq' := hq
        rcases hq with h | ⟨f', h, hl'⟩ | ⟨k, hk, part, h, hl'⟩ | h
        · simp at h
        · have := congrArg List.length h
          simp at this
          omega
        · rw [List.cons_append] at h
          injection h with _ h
          have hL : f ++ c.take (4 - f.length) = beEnc 4 (part.length + k + 4) := by
            rw [← htake, h, List.take_left' (length_beEnc _ _)]
          have hlen := congrArg List.length h
          simp only [List.length_append, length_beEnc] at hlen
          have := loop_inside_short (fuel := c.length + 1) (n := 0) (k := part.length + k + 4 - f.length) c (by omega)
          refine ⟨_, update_header hfl hL (by omega) hl' this, ?_⟩
          refine Or.inr (Or.inr (Or.inl ⟨k, ⟨hk, part, ?_, hl'⟩, ?_⟩))
          · rw [List.cons_append, h]
          · simp only [WS.mk.injEq, and_true]; omega
        · exact (hn (by obtain ⟨x, t, h, hx⟩ := h; exact ⟨100, f, rfl, by rw [List.cons_append] at h; injection h with h _; exact (hx h.symm).elim⟩)).elim
      | cons row rows =>
        have hfr := hf row (List.mem_cons_self ..)
        rw [copyFrames_cons, List.cons_append, List.cons_append, List.cons_append] at he
        injection he with _ he
        have hL : f ++ c.take (4 - f.length) = beEnc 4 (row.length + 4) := by
          rw [← htake, he, List.append_assoc, List.append_assoc, List.take_left' (length_beEnc _ _)]
        have hlen := congrArg List.length he
        simp only [List.length_append, length_beEnc] at hlen
        have hd : c.drop (row.length + 4 - f.length) = copyFrames rows ++ q := by
          have := congrArg (List.drop (row.length + 4)) he
          rw [List.drop_append, List.drop_eq_nil_of_le (by omega), List.nil_append, List.append_assoc (beEnc 4 (row.length + 4) ++ row),
            List.drop_left' (by simp; omega)] at this
          exact this
        obtain ⟨s', h1, h2⟩ := loop_position hq rows c.length 1 (fun y hy => hf y (List.mem_cons_of_mem _ hy))
          (by have := length_copyFrames rows; omega)
        have hi := loop_inside (fuel := c.length + 1) (n := 0) (k := row.length + 4 - f.length) (by omega) c (by omega)
        rw [hd, h1] at hi
        refine ⟨s', ?_, h2⟩
        rw [update_header hfl hL (by omega) hfr hi]
        simp only [List.length_cons]
        rw [Nat.add_comm]
  · have hkp := hk.1
    obtain ⟨d, row, hd, hf, he⟩ := inRow_fr hk
    by_cases hl : c.length < k
    · have hcut : Rest (r ++ c) ∧ InRow (r ++ c) (k - c.length) := by
        obtain ⟨h0, part, rfl, hl2⟩ := hk
        have : InRow (100 :: (beEnc 4 (part.length + k + 4) ++ part) ++ c) (k - c.length) := by
          refine ⟨by omega, part ++ c, ?_, ?_⟩
          · rw [List.length_append, show part.length + c.length + (k - c.length) + 4 = part.length + k + 4 by omega]
            simp
          · rw [List.length_append]; omega
        exact ⟨Or.inr (Or.inr (Or.inl ⟨_, this⟩)), this⟩
      obtain ⟨rfl, rfl⟩ := position_rest hcut.1 hp
      have := loop_inside_short (fuel := c.length + 1) (n := 0) (k := k) c hl
      refine ⟨⟨((k - c.length : Nat) : Int), [], none⟩,
        (loop_ok_update (s := ⟨k, [], none⟩) rfl rfl rfl (Int.natCast_nonneg _) this).trans rfl, Or.inr (Or.inr (Or.inl ⟨_, hcut.2, rfl⟩))⟩
    · have hkc : k ≤ c.length := by omega
      -- the row that ends in the view
      obtain ⟨h0, part, rfl, hl2⟩ := hk
      have hfit : RowFits (part ++ c.take k) := by
        unfold RowFits
        rw [List.length_append, List.length_take, Nat.min_eq_left hkc]
        exact hl2
      have hsp : 100 :: (beEnc 4 (part.length + k + 4) ++ part) ++ c = fr (part ++ c.take k) ++ c.drop k := by
        unfold fr
        rw [List.length_append, List.length_take, Nat.min_eq_left hkc]
        simp
      rw [hsp] at hp
      obtain ⟨rows', rfl, hp'⟩ := position_fr hfit hp
      obtain ⟨he', hf', hq⟩ := hp'
      obtain ⟨s', h1, h2⟩ := loop_position hq rows' c.length 1 hf'
          (by have := length_copyFrames rows'; have := congrArg List.length he'; simp only [List.length_append, List.length_drop] at this; omega)
      have hi := loop_inside (fuel := c.length + 1) (n := 0) (k := k) hkp c hkc
      rw [he', h1] at hi
      refine ⟨s', ?_, h2⟩
      rw [loop_ok_update rfl rfl rfl (Int.natCast_nonneg _) hi]
      rw [List.length_cons, Nat.add_comm]
  · exact (hn hF).elim

end PG.CopyMan
