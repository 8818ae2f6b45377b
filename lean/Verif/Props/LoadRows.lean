import Verif.Model.LoadRows
import Verif.Spec.LoadRows
import Verif.Props.Itertools
/-! # C51: loading rows -/
namespace PG.LoadRows
open PG.Itertools PG.Spec.LoadRows PG.Spec.Itertools

theorem after_eq {σ ρ π : Type} (exec : σ → π → Option σ) (pack : ρ → Option π) : ∀ (c : List ρ) (ps : List π) (s : σ), c.mapM pack = some ps → after exec pack s c = ps.foldlM exec s
  | [], ps, s, h => by cases h; rfl
  | r :: rs, ps, s, h => by
    rw [List.mapM_cons] at h
    cases hp : pack r with
    | none => rw [hp] at h; cases h
    | some p =>
      rw [hp] at h
      cases hr : rs.mapM pack with
      | none => rw [hr] at h; cases h
      | some qs =>
        rw [hr] at h
        cases h
        unfold after
        rw [hp, List.foldlM_cons]
        dsimp only
        cases exec s p with
        | none => rfl
        | some s' => exact after_eq exec pack rs qs s' hr

theorem after_none {σ ρ π : Type} (exec : σ → π → Option σ) (pack : ρ → Option π) : ∀ (c : List ρ) (s : σ), c.mapM pack = none → after exec pack s c = none
  | [], s, h => by cases h
  | r :: rs, s, h => by
    rw [List.mapM_cons] at h
    unfold after
    cases hp : pack r with
    | none => rfl
    | some p =>
      rw [hp] at h
      dsimp only
      cases exec s p with
      | none => rfl
      | some s' =>
        cases hr : rs.mapM pack with
        | none => exact after_none exec pack rs s' hr
        | some qs => rw [hr] at h; cases h

theorem after_append {σ ρ π : Type} (exec : σ → π → Option σ) (pack : ρ → Option π) : ∀ (a b : List ρ) (s : σ), after exec pack s (a ++ b) = (after exec pack s a).bind fun s => after exec pack s b
  | [], b, s => rfl
  | r :: a, b, s => by
    rw [List.cons_append, after, after]
    cases pack r with
    | none => rfl
    | some p =>
      dsimp only
      cases exec s p with
      | none => rfl
      | some s' => exact after_append exec pack a b s'

/-- A connection with a chunk on its way is one on which it has been answered. -/
theorem load_pending {σ ρ π : Type} (exec : σ → π → Option σ) (pack : ρ → Option π) (fails : Bool) (cs : List (List ρ)) (db : Db σ π) (ps : List π) (hp : db.pending = some ps) :
    loadTuples exec pack fails db cs = match serve exec db ps with
      | (true, db) => loadTuples exec pack fails db cs
      | (false, db) => (false, db) := by
  have hsp : (serve exec db ps).2.pending = none := by unfold serve; split; rfl; split <;> rfl
  have hc : complete exec db = serve exec db ps := by unfold complete; rw [hp]
  have hc2 : complete exec (serve exec db ps).2 = (true, (serve exec db ps).2) := by unfold complete; rw [hsp]
  cases hs : serve exec db ps with
  | mk ok db' =>
    rw [hs] at hc hc2
    dsimp only at hc2
    cases ok with
    | true =>
      dsimp only
      cases cs with
      | nil => unfold loadTuples; rw [hc, hc2]
      | cons c cs =>
        unfold loadTuples
        cases c.mapM pack with
        | none => dsimp only; rw [hc, hc2]
        | some qs =>
          dsimp only
          unfold push
          rw [hc, hc2]
    | false =>
      dsimp only
      cases cs with
      | nil =>
        unfold loadTuples
        rw [hc]
        cases fails <;> rfl
      | cons c cs =>
        unfold loadTuples
        cases c.mapM pack with
        | none => dsimp only; rw [hc]
        | some qs =>
          dsimp only
          unfold push
          rw [hc]
          dsimp only
          rw [hc2]

/-- **C51 (chunks).** `load_chunks` on a statement with parameters, nothing running: it returns without an exception exactly if every chunk is good and iterating over them does not fail. Unless the transaction block was aborted, what it leaves are the good chunks up to the first that is not;
outside of a block nothing is ever aborted. -/
theorem C51_load_chunks {σ ρ π : Type} (exec : σ → π → Option σ) (pack : ρ → Option π) (fails : Bool) : ∀ (cs : List (List ρ)) (db : Db σ π), db.pending = none → db.aborted = false →
    let r := loadTuples exec pack fails db cs
    (r.1 = true ↔ (stored exec pack db.state cs).2 = true ∧ fails = false) ∧ (r.2.aborted = false → r.2.state = (stored exec pack db.state cs).1) ∧ (db.block = false → r.2.aborted = false) ∧
    (r.1 = true → r.2.aborted = false) ∧ r.2.block = db.block ∧ r.2.pending = none
  | [], db, hp, ha => by
    have hc : complete exec db = (true, db) := by unfold complete; rw [hp]
    cases fails with
    | true => simp [loadTuples, hc, stored, ha, hp]
    | false => simp [loadTuples, hc, stored, ha, hp]
  | c :: cs, db, hp, ha => by
    have hc : complete exec db = (true, db) := by unfold complete; rw [hp]
    dsimp only
    unfold loadTuples
    cases hm : c.mapM pack with
    | none =>
      simp [hc, stored, after_none exec pack c db.state hm, ha, hp]
    | some ps =>
      dsimp only
      unfold push
      rw [hc]
      dsimp only
      rw [load_pending exec pack fails cs { db with pending := some ps } ps rfl]
      have he := after_eq exec pack c ps db.state hm
      unfold serve
      rw [if_neg (by rw [ha]; simp)]
      cases hf : ps.foldlM exec db.state with
      | some s =>
        rw [hf] at he
        have hst : stored exec pack db.state (c :: cs) = stored exec pack s cs := by rw [stored, he]
        rw [hst]
        dsimp only
        obtain ⟨h1, h2, h3, h4, h5, h6⟩ := C51_load_chunks exec pack fails cs { db with state := s, pending := none } rfl ha
        exact ⟨h1, h2, h3, h4, h5, h6⟩
      | none =>
        rw [hf] at he
        have hst : stored exec pack db.state (c :: cs) = (db.state, false) := by rw [stored, he]
        rw [hst]
        simp

/-- A table of numbers, with a constraint: the statement fails for 13. -/
def insert (s : List Nat) (p : Nat) : Option (List Nat) := if p = 13 then none else some (s ++ [p])

/-- Packing fails for `none`. -/
example : loadTuples insert (id : Option Nat → Option Nat) false ⟨[], false, false, none⟩ [[some 1, some 2], [some 3], [some 4, none], [some 5]] = (false, ⟨[1, 2, 3], false, false, none⟩) := by decide
example : loadTuples insert some false ⟨[], false, false, none⟩ [[1, 2], [3, 13], [4]] = (false, ⟨[1, 2], false, false, none⟩) := by decide
example : (loadTuples insert some false ⟨[], true, false, none⟩ [[1, 2], [3, 13], [4]]).2.aborted = true := by decide
example : loadTuples insert some false ⟨[], true, false, none⟩ [[1, 2], [3], [4]] = (true, ⟨[1, 2, 3, 4], true, false, none⟩) := by decide

theorem stored_all {σ ρ π : Type} (exec : σ → π → Option σ) (pack : ρ → Option π) : ∀ (cs : List (List ρ)) (s : σ), (stored exec pack s cs).2 = true → after exec pack s cs.flatten = some (stored exec pack s cs).1
  | [], s, _ => rfl
  | c :: cs, s, h => by
    rw [List.flatten_cons, after_append]
    unfold stored at h ⊢
    cases ha : after exec pack s c with
    | none => rw [ha] at h; cases h
    | some s' => rw [ha] at h; exact stored_all exec pack cs s' h

theorem stored_prefix {σ ρ π : Type} (exec : σ → π → Option σ) (pack : ρ → Option π) : ∀ (cs : List (List ρ)) (s : σ), ∃ k, k ≤ cs.length ∧ after exec pack s (cs.take k).flatten = some (stored exec pack s cs).1
  | [], s => ⟨0, Nat.le_refl _, rfl⟩
  | c :: cs, s => by
    unfold stored
    cases ha : after exec pack s c with
    | none => exact ⟨0, Nat.zero_le _, rfl⟩
    | some s' =>
      obtain ⟨k, h1, h2⟩ := stored_prefix exec pack cs s'
      refine ⟨k + 1, by simpa using h1, ?_⟩
      rw [List.take_succ_cons, List.flatten_cons, after_append, ha]
      exact h2

/-- Full pieces. -/
theorem take_full {α : Type} {n : Nat} : ∀ (ps : List (List α)) (k : Nat), (∀ p ∈ ps, p.length = n) → k ≤ ps.length → (ps.take k).flatten = ps.flatten.take (k * n)
  | ps, 0, _, _ => by simp
  | [], k + 1, _, h => by simp at h
  | p :: ps, k + 1, hf, h => by
    have hp := hf p List.mem_cons_self
    rw [List.take_succ_cons, List.flatten_cons, List.flatten_cons, take_full ps k (fun q hq => hf q (List.mem_cons_of_mem _ hq)) (by simpa using h)]
    rw [show (k + 1) * n = p.length + k * n by rw [Nat.succ_mul, hp, Nat.add_comm], List.take_length_add_append]

theorem cut_take {α : Type} {n : Nat} {ps : List (List α)} {l : List α} (h : Cut n ps l) (k : Nat) : ∃ j, (ps.take k).flatten = l.take (j * n) := by
  obtain ⟨h1, h2, p, h3, h4⟩ := h
  have hsp : ps = ps.dropLast ++ [p] := by
    have hne : ps ≠ [] := by intro e; rw [e] at h3; cases h3
    rw [List.getLast?_eq_some_getLast hne] at h3
    rw [← Option.some.inj h3]
    exact (List.dropLast_concat_getLast hne).symm
  by_cases hk : k ≤ ps.dropLast.length
  · refine ⟨k, ?_⟩
    rw [hsp, List.take_append_of_le_length hk, take_full _ k h2 hk, ← h1]
    conv => rhs; rw [hsp]
    rw [List.flatten_append, List.take_append_of_le_length]
    have : ∀ qs : List (List α), (∀ q ∈ qs, q.length = n) → qs.flatten.length = qs.length * n := by
      intro qs
      induction qs with
      | nil => intro _; simp
      | cons q qs ih =>
        intro h
        rw [List.flatten_cons, List.length_append, ih fun x hx => h x (List.mem_cons_of_mem _ hx), h q List.mem_cons_self, List.length_cons, Nat.succ_mul]
        omega
    rw [this _ h2]
    exact Nat.mul_le_mul_right n hk
  · refine ⟨l.length, ?_⟩
    have hlen : ps.length = ps.dropLast.length + 1 := by
      have := congrArg List.length hsp
      rw [List.length_append] at this
      simpa using this
    rw [List.take_of_length_le (by omega), h1, List.take_of_length_le]
    have hn : 0 < n := by omega
    exact Nat.le_mul_of_pos_right _ hn

/-- **C51 (all rows).** If `load_rows` returns, then every row was packed and its statement executed, once, in the order of the iterable, and all of it is stored (in a block: part of it). -/
theorem C51_load_rows {σ ρ π : Type} (exec : σ → π → Option σ) (once : σ → Option σ) (pack : ρ → Option π) {parameters : Nat} (hpar : 0 < parameters) (db : Db σ π) (hp : db.pending = none) (ha : db.aborted = false) (rows : List ρ) (fails : Bool) {n : Nat} (hn : 0 < n)
    (hok : (loadRows exec once pack parameters db rows fails n).1 = true) :
    after exec pack db.state rows = some (loadRows exec once pack parameters db rows fails n).2.state ∧ (loadRows exec once pack parameters db rows fails n).2.aborted = false ∧ fails = false := by
  unfold loadRows loadChunks at hok ⊢
  rw [if_neg (by omega)] at hok ⊢
  obtain ⟨h1, h2, h3, h4, h5, h6⟩ := C51_load_chunks exec pack fails (chunkOf rows fails n) db hp ha
  obtain ⟨g1, g2⟩ := h1.mp hok
  have hab := h4 hok
  refine ⟨?_, hab, g2⟩
  rw [h2 hab, ← stored_all exec pack _ _ g1]
  subst g2
  rw [chunkOf, if_neg (by simp), (C44_chunk rows hn).1]

/-- And conversely: if every row can be packed and executed, and the iterable does not raise, it returns. -/
theorem C51_load_rows_succeeds {σ ρ π : Type} (exec : σ → π → Option σ) (once : σ → Option σ) (pack : ρ → Option π) {parameters : Nat} (hpar : 0 < parameters) (db : Db σ π) (hp : db.pending = none) (ha : db.aborted = false) (rows : List ρ) {n : Nat} (hn : 0 < n)
    (s : σ) (hs : after exec pack db.state rows = some s) : (loadRows exec once pack parameters db rows false n).1 = true := by
  unfold loadRows loadChunks
  rw [if_neg (by omega)]
  refine (C51_load_chunks exec pack false _ db hp ha).1.mpr ⟨?_, rfl⟩
  have key : ∀ (cs : List (List ρ)) (s0 : σ), after exec pack s0 cs.flatten = some s → (stored exec pack s0 cs).2 = true := by
    intro cs
    induction cs with
    | nil => intro _ _; rfl
    | cons c cs ih =>
      intro s0 h
      rw [List.flatten_cons, after_append] at h
      unfold stored
      cases hc : after exec pack s0 c with
      | none => rw [hc] at h; cases h
      | some s' => rw [hc] at h; exact ih s' h
  refine key _ _ ?_
  rw [chunkOf, if_neg (by simp), (C44_chunk rows hn).1]
  exact hs

/-- **C51 (whole chunks).** Outside of a transaction block, whatever happens (a row that cannot be packed, a failing statement, an iterable that raises), what `load_rows` has stored are the first rows, a whole number of chunks of them (or all): never a row twice, never out of order, never a row after one that is not stored. -/
theorem C51_load_rows_partially {σ ρ π : Type} (exec : σ → π → Option σ) (once : σ → Option σ) (pack : ρ → Option π) {parameters : Nat} (hpar : 0 < parameters) (db : Db σ π) (hp : db.pending = none) (ha : db.aborted = false) (hb : db.block = false) (rows : List ρ) (fails : Bool) {n : Nat} (hn : 0 < n) :
    ∃ j, after exec pack db.state (rows.take (j * n)) = some (loadRows exec once pack parameters db rows fails n).2.state := by
  unfold loadRows loadChunks
  rw [if_neg (by omega)]
  obtain ⟨h1, h2, h3, h4, h5, h6⟩ := C51_load_chunks exec pack fails (chunkOf rows fails n) db hp ha
  rw [h2 (h3 hb)]
  obtain ⟨k, _, hk⟩ := stored_prefix exec pack (chunkOf rows fails n) db.state
  rw [← hk]
  have hcut := C44_chunk rows hn
  cases fails with
  | false =>
    obtain ⟨j, hj⟩ := cut_take hcut k
    exact ⟨j, by rw [chunkOf, if_neg (by simp), hj]⟩
  | true =>
    obtain ⟨j, hj⟩ := cut_take hcut (min k ((chunk rows n).length - 1))
    refine ⟨j, ?_⟩
    rw [chunkOf, if_pos rfl, List.dropLast_eq_take, List.take_take, hj]

example : loadRows insert some some 1 ⟨[], false, false, none⟩ [1, 2, 3, 4, 13, 6, 7] false 2 = (false, ⟨[1, 2, 3, 4], false, false, none⟩) := by decide
example : loadRows insert some some 1 ⟨[], false, false, none⟩ [1, 2, 3, 4, 5] false 2 = (true, ⟨[1, 2, 3, 4, 5], false, false, none⟩) := by decide
example : loadRows insert some some 1 ⟨[], false, false, none⟩ [1, 2, 3, 4, 5] true 2 = (false, ⟨[1, 2, 3, 4], false, false, none⟩) := by decide

/-! ### Findings -/

/-- A load that raises is not undone: outside of a block the chunks before the failing one stay stored. (The documentation advises a transaction block.) -/
theorem C51_not_atomic : ∃ rows : List Nat, (loadRows insert some some 1 ⟨[], false, false, none⟩ rows false 256).1 = false ∧ (loadRows insert some some 1 ⟨[], false, false, none⟩ rows false 256).2.state.length = 256 :=
  ⟨List.replicate 256 1 ++ [13], by decide +kernel⟩

/-- A statement without parameters that is not a COPY is executed once by `load_rows`, whatever the rows, before it raises "used on a non-COPY FROM STDIN query"; its effect stays. -/
theorem C51_no_parameters {σ ρ π : Type} (exec : σ → π → Option σ) (once : σ → Option σ) (pack : ρ → Option π) (db : Db σ π) (ha : db.aborted = false) (rows : List ρ) (fails : Bool) (n : Nat) (s : σ) (ho : once db.state = some s) :
    loadRows exec once pack 0 db rows fails n = (false, { db with state := s }) := by
  unfold loadRows loadChunks loadNoCopy
  rw [if_pos rfl, ha, if_neg (by simp), ho]

example : loadRows insert (fun s => some (s ++ [0])) some 0 ⟨[], false, false, none⟩ ([] : List Nat) false 256 = (false, ⟨[0], false, false, none⟩) := by decide

end PG.LoadRows
