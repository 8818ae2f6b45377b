import Verif.Spec.Itertools
/-! # C44: `chunk`, `interlace`, `find` -/
namespace PG.Itertools
open PG.Spec.Itertools

theorem chunkLoop_cut {α : Type} {n : Nat} (hn : 0 < n) : ∀ (fuel : Nat) (l : List α), l.length < fuel → Cut n (chunkLoop n fuel l) l
  | 0, l, h => absurd h (by omega)
  | fuel + 1, l, h => by
    unfold chunkLoop
    dsimp only
    by_cases hl : (l.take n).length = n
    · rw [if_pos hl]
      rw [List.length_take] at hl
      obtain ⟨h1, h2, p, h3, h4⟩ := chunkLoop_cut hn fuel (l.drop n) (by rw [List.length_drop]; omega)
      refine ⟨by rw [List.flatten_cons, h1, List.take_append_drop], fun q hq => ?_, p, ?_, h4⟩
      · cases hc : chunkLoop n fuel (l.drop n) with
        | nil => rw [hc] at h3; cases h3
        | cons y ys =>
          rw [hc, List.dropLast_cons_cons] at hq
          rcases List.mem_cons.mp hq with rfl | hq
          · rw [List.length_take]; exact hl
          · exact h2 q (by rw [hc]; exact hq)
      · cases hc : chunkLoop n fuel (l.drop n) with
        | nil => rw [hc] at h3; cases h3
        | cons y ys => rw [hc] at h3; rw [List.getLast?_cons_cons]; exact h3
    · rw [if_neg hl]
      rw [List.length_take] at hl
      have : l.take n = l := List.take_of_length_le (by omega)
      rw [this]
      exact ⟨by simp, fun q hq => by simp at hq, l, rfl, by omega⟩

/-- **C44 (chunk).** For a positive size, the pieces are consecutive, all full but the last, which is always shorter than the size (it is empty if the length is a multiple of the size: see `C44_empty_chunk`). -/
theorem C44_chunk {α : Type} (l : List α) {n : Nat} (hn : 0 < n) : Cut n (chunk l n) l := chunkLoop_cut hn _ l (by omega)

example : chunk [1, 2, 3, 4, 5] 2 = [[1, 2], [3, 4], [5]] := by decide

/-- The documented example, `chunks([o1,o2,o3,o4], chunksize = 2) -> [[o1,o2],[o3,o4]]`, is not what is returned: a further, empty chunk follows. -/
theorem C44_empty_chunk : chunk [1, 2, 3, 4] 2 = [[1, 2], [3, 4], []] := by decide

/-- In general: an empty last chunk comes exactly if the length is a multiple of the size. -/
theorem C44_empty_chunk_iff {α : Type} (l : List α) {n : Nat} (hn : 0 < n) : (chunk l n).getLast? = some [] ↔ l.length % n = 0 := by
  obtain ⟨h1, h2, p, h3, h4⟩ := C44_chunk l hn
  have hsp : chunk l n = (chunk l n).dropLast ++ [p] := by
    have hne : chunk l n ≠ [] := by intro e; rw [e] at h3; cases h3
    rw [List.getLast?_eq_some_getLast hne] at h3
    rw [← Option.some.inj h3]
    exact (List.dropLast_concat_getLast hne).symm
  have hlen : ∀ ps : List (List α), (∀ q ∈ ps, q.length = n) → ps.flatten.length = ps.length * n := by
    intro ps
    induction ps with
    | nil => intro _; simp
    | cons q qs ih =>
      intro h
      rw [List.flatten_cons, List.length_append, ih fun x hx => h x (List.mem_cons_of_mem _ hx), h q List.mem_cons_self, List.length_cons, Nat.succ_mul]
      omega
  have hl : l.length = (chunk l n).dropLast.length * n + p.length := by
    conv => lhs; rw [← h1, hsp]
    rw [List.flatten_append, List.length_append, hlen _ h2]
    simp
  rw [h3, hl, Nat.add_comm, Nat.add_mul_mod_self_right, Nat.mod_eq_of_lt h4]
  constructor
  · intro e; rw [Option.some.inj e]; rfl
  · intro e; rw [List.length_eq_zero_iff.mp e]

/-- With size 0 the generator never ends: every prefix of what it yields is made of empty chunks. -/
theorem C44_zero {α : Type} (l : List α) : ∀ fuel, chunkLoop 0 fuel l = List.replicate fuel []
  | 0 => rfl
  | fuel + 1 => by
    unfold chunkLoop
    simp only [List.take_zero, List.length_nil, if_true, List.drop_zero]
    rw [C44_zero l fuel]
    rfl

theorem placed_next {α : Type} (x : α) (xs : List α) (rest : List (List α)) (k : Nat) : placed (rest ++ [xs]) k = placed ((x :: xs) :: rest) (k + 1) := by
  unfold placed
  have hlen : (rest ++ [xs]).length = rest.length + 1 := by simp
  rw [hlen, List.length_cons]
  have hlt := Nat.mod_lt k (Nat.succ_pos rest.length)
  by_cases h : k % (rest.length + 1) < rest.length
  · have h1 : (k + 1) % (rest.length + 1) = k % (rest.length + 1) + 1 := by
      rw [Nat.add_mod, Nat.mod_eq_of_lt (show k % (rest.length + 1) + 1 % (rest.length + 1) < rest.length + 1 from ?_), Nat.mod_eq_of_lt (show 1 < rest.length + 1 by omega)]
      rw [Nat.mod_eq_of_lt (show 1 < rest.length + 1 by omega)]
      omega
    have h2 : (k + 1) / (rest.length + 1) = k / (rest.length + 1) := by
      have := Nat.div_add_mod k (rest.length + 1)
      have h3 := Nat.div_add_mod (k + 1) (rest.length + 1)
      rw [h1] at h3
      have : (rest.length + 1) * ((k + 1) / (rest.length + 1)) = (rest.length + 1) * (k / (rest.length + 1)) := by omega
      exact Nat.eq_of_mul_eq_mul_left (Nat.succ_pos _) this
    rw [h1, h2, List.getElem?_cons_succ, List.getElem?_append_left h]
  · have he : k % (rest.length + 1) = rest.length := by simp only [Nat.succ_eq_add_one] at hlt; omega
    have h3 := Nat.div_add_mod k (rest.length + 1)
    rw [he] at h3
    have hk : k + 1 = (rest.length + 1) * (k / (rest.length + 1) + 1) := by rw [Nat.mul_succ]; omega
    have h1 : (k + 1) % (rest.length + 1) = 0 := by rw [hk]; exact Nat.mul_mod_right _ _
    have h2 : (k + 1) / (rest.length + 1) = k / (rest.length + 1) + 1 := by
      conv => lhs; rw [hk]
      exact Nat.mul_div_cancel_left _ (Nat.succ_pos _)
    rw [h1, h2, he, List.getElem?_append_right (Nat.le_refl _)]
    simp

theorem interlaceLoop_placed {α : Type} : ∀ (fuel : Nat) (q : List (List α)), q ≠ [] → q.flatten.length < fuel →
    (∀ k, k < (interlaceLoop fuel q).length → (interlaceLoop fuel q)[k]? = placed q k) ∧ placed q (interlaceLoop fuel q).length = none
  | 0, q, _, h => absurd h (by omega)
  | fuel + 1, [], h, _ => absurd rfl h
  | fuel + 1, [] :: rest, _, _ => ⟨fun k h => by simp [interlaceLoop] at h, by simp [interlaceLoop, placed]⟩
  | fuel + 1, (x :: xs) :: rest, _, h => by
    obtain ⟨h1, h2⟩ := interlaceLoop_placed fuel (rest ++ [xs]) (by simp) (by
      simp only [List.flatten_cons, List.flatten_append, List.length_append, List.length_cons, List.flatten_nil, List.append_nil] at h ⊢
      omega)
    rw [interlaceLoop]
    refine ⟨fun k hk => ?_, ?_⟩
    · cases k with
      | zero => simp [placed]
      | succ k =>
        rw [List.getElem?_cons_succ, ← placed_next]
        exact h1 k (by simpa using hk)
    · rw [List.length_cons, ← placed_next]
      exact h2

/-- **C44 (interlace).** The items come in rotation, and the sequence ends at the first iterator that has nothing when it is its turn. -/
theorem C44_interlace {α : Type} (iters : List (List α)) (h : iters ≠ []) :
    (∀ k, k < (interlace iters).length → (interlace iters)[k]? = placed iters k) ∧ placed iters (interlace iters).length = none :=
  interlaceLoop_placed _ iters h (by omega)

example : interlace [[1, 4, 7], [2, 5], [3, 6, 9]] = [1, 2, 3, 4, 5, 6, 7] := by decide

/-- So for sequences of the same length nothing is lost. -/
theorem C44_interlace_all {α : Type} (iters : List (List α)) (n : Nat) (h : iters ≠ []) (hl : ∀ l ∈ iters, l.length = n) : (interlace iters).length = n * iters.length := by
  obtain ⟨h1, h2⟩ := C44_interlace iters h
  have hpos : 0 < iters.length := List.length_pos_iff.mpr h
  have hp : ∀ k, k < n * iters.length ↔ placed iters k ≠ none := by
    intro k
    unfold placed
    have hm := Nat.mod_lt k hpos
    rw [List.getElem?_eq_getElem hm, Option.bind_some]
    have hlen := hl _ (List.getElem_mem hm)
    rw [Ne, List.getElem?_eq_none_iff, hlen]
    rw [Nat.not_le, Nat.div_lt_iff_lt_mul hpos]
  have hle : ¬ (interlace iters).length < n * iters.length := fun e => (hp _).mp e h2
  by_cases hgt : n * iters.length < (interlace iters).length
  · exfalso
    have := h1 _ hgt
    have hno : ¬ n * iters.length < n * iters.length := Nat.lt_irrefl _
    rw [hp] at hno
    have hnone : placed iters (n * iters.length) = none := Decidable.of_not_not hno
    rw [hnone, List.getElem?_eq_none_iff] at this
    omega
  · omega

example : (interlace [[1, 3], [2, 4]]).length = 4 := by decide

/-- **C44 (find).** The first item that is selected, if there is one. -/
theorem C44_find {α : Type} (p : α → Bool) (l : List α) : (∀ x, find l p = some x ↔ ∃ a b, l = a ++ x :: b ∧ p x = true ∧ ∀ y ∈ a, p y = false) ∧ (find l p = none ↔ ∀ y ∈ l, p y = false) := by
  induction l with
  | nil => exact ⟨fun x => ⟨fun h => (by cases h), fun ⟨a, b, h, _⟩ => (by simp at h)⟩, ⟨fun _ y hy => by simp at hy, fun _ => rfl⟩⟩
  | cons y l ih =>
    unfold find
    cases hp : p y with
    | true =>
      simp only [if_true]
      refine ⟨fun x => ⟨fun h => ?_, fun ⟨a, b, h, h1, h2⟩ => ?_⟩, ⟨fun h => (by cases h), fun h => ?_⟩⟩
      · cases h; exact ⟨[], l, rfl, hp, by simp⟩
      · cases a with
        | nil => cases h; rfl
        | cons z a => cases h; rw [h2 y List.mem_cons_self] at hp; cases hp
      · rw [h y List.mem_cons_self] at hp; cases hp
    | false =>
      simp only [Bool.false_eq_true, if_false]
      refine ⟨fun x => ⟨fun h => ?_, fun ⟨a, b, h, h1, h2⟩ => ?_⟩, ⟨fun h => ?_, fun h => ?_⟩⟩
      · obtain ⟨a, b, h1, h2, h3⟩ := (ih.1 x).mp h
        refine ⟨y :: a, b, by rw [h1]; rfl, h2, fun z hz => ?_⟩
        rcases List.mem_cons.mp hz with rfl | hz
        · exact hp
        · exact h3 z hz
      · cases a with
        | nil => cases h; rw [hp] at h1; cases h1
        | cons z a =>
          cases h
          exact (ih.1 x).mpr ⟨a, b, rfl, h1, fun w hw => h2 w (List.mem_cons_of_mem _ hw)⟩
      · intro z hz
        rcases List.mem_cons.mp hz with rfl | hz
        · exact hp
        · exact ih.2.mp h z hz
      · exact ih.2.mpr fun z hz => h z (List.mem_cons_of_mem _ hz)

example : find [1, 4, 6] (fun n => n % 2 = 0) = some 4 := by decide

end PG.Itertools
