import Verif.Proofs.CopyTo3
/-!
# The chunks of a COPY TO STDOUT
-/
namespace PG.CopyTo
open PG
open PG.PBuffer hiding Msg
open PG.Element3 PG.Xact3 PG.Spec PG.Spec.CopyTo

/-- The rows in the batches that were received and not yet taken. -/
def held (i : Inst) : List Bytes := i.completed.flatMap fun x => lines x.2

/-- The COPY as the connection has it: `rest` are the rows that have not been taken, `e`: there is an error. -/
structure Live (cs : List Elem) (p : SP) (i : Inst) (g : Stage) (e0 : Bool) (M : List Msg) (rest : List Bytes) (e : Bool) : Prop where
  xact : p.xact = some i
  stands : Stands cs i g e0 p.pq.nextId
  wire : Wire p.pq M
  says : ∃ rM eM, Says g M rM eM ∧ rest = held i ++ rM ∧ e = (e0 || eM)
  only : ∀ x ∈ i.completed.dropLast, lines x.2 = []

theorem Live.error {cs : List Elem} {p : SP} {i : Inst} {g : Stage} {e0 : Bool} {M : List Msg} {rest : List Bytes} {e : Bool} (h : Live cs p i g e0 M rest e) (h0 : e0 = true) : e = true := by
  obtain ⟨_, _, _, _, rfl⟩ := h.says; rw [h0]; rfl

theorem stands_fatal {cs : List Elem} {i : Inst} {g : Stage} {e0 : Bool} {n : Nat} (h : Stands cs i g e0 n) : i.fatal ≠ none ↔ e0 = true := by
  rw [h.fatal]; cases e0 <;> simp

theorem stands_complete {cs : List Elem} {i : Inst} {g : Stage} {e0 : Bool} {n : Nat} (h : Stands cs i g e0 n) : i.state = .complete ↔ g = .over := by
  constructor
  · intro hc
    refine Decidable.byContradiction fun ho => ?_
    rcases h.wait ho with h | ⟨h, _⟩ <;> rw [h] at hc <;> cases hc
  · exact h.over

/-- The batch that the next chunk is taken from. -/
theorem steps_one {cs : List Elem} (hc : Cmds cs) {p : SP} {i : Inst} {g : Stage} {e0 : Bool} {M : List Msg} {rest : List Bytes} {e : Bool} (h : Live cs p i g e0 M rest e) :
    ∃ i' q' g' e0' M' r, stepsX (fun x => !x.completed.isEmpty) (fuelOf p.pq) i p.pq = (i', q', r) ∧
      Live cs { p with xact := some i', pq := q' } i' g' e0' M' rest e ∧ (r = .fine ∨ (r = .raised ∧ e0' = true)) ∧ (i'.completed = [] → g' = .over) ∧
      M'.length + i'.completed.length ≤ M.length + i.completed.length ∧ M' <:+ M := by
  obtain ⟨hx, hs, hw, ⟨rM, eM, hy, rfl, rfl⟩, ho⟩ := h
  have hf := hw.fuel
  obtain ⟨f, hfe⟩ : ∃ f, fuelOf p.pq = f + 2 := ⟨fuelOf p.pq - 2, by omega⟩
  rw [hfe]
  by_cases hstop : i.state = .complete ∨ (!i.completed.isEmpty) = true
  · refine ⟨i, p.pq, g, e0, M, .fine, by rw [stepsX, if_pos hstop], ⟨rfl, hs, hw, ⟨rM, eM, hy, rfl, rfl⟩, ho⟩, .inl rfl, ?_, Nat.le_refl _, List.suffix_refl _⟩
    intro he
    rcases hstop with h | h
    · exact (stands_complete hs).1 h
    · rw [he] at h; cases h
  · have hg : g ≠ .over := fun h => hstop (.inl (hs.over h))
    have hce : i.completed = [] := by
      cases hcc : i.completed with
      | nil => rfl
      | cons a b => rw [hcc] at hstop; exact absurd (.inr rfl) hstop
    obtain ⟨i', q', g1, ms, M2, ps, e1, rows2, e2, k, h1, h2, h3, h4, h5, rfl, h7, rfl, rfl, h10⟩ := stepX_ok hc hs hg hy hw
    rw [hce, List.nil_append] at h10
    have hlive : Live cs { p with xact := some i', pq := q' } i' g1 (e0 || e1) M2 (held i ++ (lines ps ++ rows2)) (e0 || (e1 || e2)) := by
      refine ⟨rfl, h2, h5, ⟨rows2, e2, h4, ?_, by rw [Bool.or_assoc]⟩, ?_⟩
      · unfold held
        rw [hce, h10]
        simp
      · rw [h10]; intro x hx; cases hx
    have hlen : M2.length + i'.completed.length ≤ (ms ++ M2).length + i.completed.length := by
      have := List.length_pos_iff.2 h7
      rw [h10, hce, List.length_append, List.length_cons, List.length_nil]
      omega
    rw [stepsX, if_neg hstop, h1]
    by_cases hr : g1 = .over ∧ (e0 || e1) = true
    · rw [if_pos hr]
      exact ⟨i', q', g1, _, M2, .raised, rfl, hlive, .inr ⟨rfl, hr.2⟩, fun h => (by rw [h10] at h; cases h), hlen, List.suffix_append ..⟩
    · rw [if_neg hr]
      dsimp only
      rw [stepsX, if_pos (.inr (by rw [h10]; rfl))]
      exact ⟨i', q', g1, _, M2, .fine, rfl, hlive, .inl rfl, fun h => (by rw [h10] at h; cases h), hlen, List.suffix_append ..⟩

/-- What the next chunk is. -/
theorem nextChunk_ok {cs : List Elem} (hc : Cmds cs) {p : SP} {i : Inst} {g : Stage} {e0 : Bool} {M : List Msg} {rest : List Bytes} {e : Bool} (h : Live cs p i g e0 M rest e) :
    (∃ q', nextChunk p = (.stop, { p with xact := none, pq := q' }) ∧ rest = [] ∧ e = false ∧ Wire q' []) ∨
    (∃ i' q' g' M', nextChunk p = (.raised, { p with xact := some i', pq := q' }) ∧ e = true ∧ Live cs { p with xact := some i', pq := q' } i' g' true M' rest e) ∨
    (∃ l i' q' c g' M' rest', nextChunk p = (.chunk l, { p with xact := some i', pq := q', complete := c }) ∧ rest = l ++ rest' ∧
      Live cs { p with xact := some i', pq := q', complete := c } i' g' false M' rest' e ∧ (l ≠ [] → i'.completed = []) ∧ M'.length + i'.completed.length < M.length + i.completed.length ∧ M' <:+ M) := by
  obtain ⟨i', q', g', e0', M', r, h1, h2, h3, h4, h5, h6⟩ := steps_one hc h
  have hn : nextChunk p = match stepsX (fun x => !x.completed.isEmpty) (fuelOf p.pq) i p.pq with
    | (i', q, .blocked) => (.blocked, { p with xact := some i', pq := q })
    | (i', q, .raised) => (.raised, { p with xact := some i', pq := q })
    | (i', q, .fine) =>
      if i'.fatal ≠ none then (.raised, { p with xact := some i', pq := q })
      else
        match i'.completed with
        | [] => (.stop, { p with xact := none, pq := q })
        | (_, ms) :: rest =>
          (.chunk (lines ms), { p with xact := some { i' with completed := rest }, pq := q, complete := ((ms.drop (ms.length - 3)).filter Fetch.isComplete).getLast?.or p.complete }) := by
    unfold nextChunk
    rw [h.xact]
    rfl
  rw [hn, h1]
  by_cases he : e0' = true
  · subst he
    refine .inr (.inl ⟨i', q', g', M', ?_, h2.error rfl, h2⟩)
    rcases h3 with rfl | ⟨rfl, _⟩
    · dsimp only
      rw [if_pos ((stands_fatal h2.stands).2 rfl)]
    · rfl
  · have hef : e0' = false := by cases e0' <;> simp_all
    subst hef
    have hr : r = .fine := by rcases h3 with h | ⟨_, h⟩ <;> first | exact h | cases h
    subst hr
    dsimp only
    rw [if_neg (fun hh => he ((stands_fatal h2.stands).1 hh))]
    obtain ⟨_, hs, hw, ⟨rM, eM, hy, rfl, rfl⟩, ho⟩ := h2
    cases hcc : i'.completed with
    | nil =>
      left
      have hg := h4 hcc
      subst hg
      obtain ⟨rfl, rfl, rfl⟩ := says_over hy
      exact ⟨q', rfl, by unfold held; rw [hcc]; rfl, rfl, hw⟩
    | cons x rest =>
      obtain ⟨k, ms⟩ := x
      right; right
      dsimp only
      refine ⟨lines ms, { i' with completed := rest }, q', _, g', M', rest.flatMap (fun x => lines x.2) ++ rM, rfl, ?_, ?_, ?_, ?_, h6⟩
      · unfold held
        rw [hcc, List.flatMap_cons, List.append_assoc]
      · refine ⟨rfl, ⟨hs.cmds, hs.wait, hs.over, hs.at_, hs.fatal, hs.asyncs, hs.last, ?_⟩, hw, ⟨rM, _, hy, rfl, rfl⟩, ?_⟩
        · intro x hx; exact hs.ids x (by rw [hcc]; exact List.mem_cons_of_mem _ hx)
        · intro x hx
          refine ho x ?_
          rw [hcc]
          dsimp only at hx
          cases rest with
          | nil => cases hx
          | cons y ys => rw [List.dropLast_cons_of_ne_nil (by simp)]; exact List.mem_cons_of_mem _ hx
      · intro hl
        dsimp only
        cases rest with
        | nil => rfl
        | cons y ys => exact absurd (ho (k, ms) (by rw [hcc, List.dropLast_cons_of_ne_nil (by simp)]; exact List.mem_cons_self ..)) hl
      · rw [hcc, List.length_cons] at h5
        dsimp only
        omega

/-- The rows that `confiscate` takes. -/
theorem taken_ok {cs : List Elem} (hc : Cmds cs) : ∀ (fuel : Nat) {p : SP} {i : Inst} {g : Stage} {e0 : Bool} {M : List Msg} {rest : List Bytes} {e : Bool}, Live cs p i g e0 M rest e →
    M.length + i.completed.length < fuel →
    (∃ q' c, taken fuel p = (.stop, { p with xact := none, pq := q', complete := c }) ∧ rest = [] ∧ e = false ∧ Wire q' []) ∨
    (∃ i' q' c g' M', taken fuel p = (.raised, { p with xact := some i', pq := q', complete := c }) ∧ e = true ∧ Live cs { p with xact := some i', pq := q', complete := c } i' g' true M' rest e) ∨
    (∃ l i' q' c g' M' rest', taken fuel p = (.chunk l, { p with xact := some i', pq := q', complete := c }) ∧ rest = l ++ rest' ∧ l ≠ [] ∧
      Live cs { p with xact := some i', pq := q', complete := c } i' g' false M' rest' e ∧ i'.completed = [] ∧ M'.length < M.length + i.completed.length ∧ M' <:+ M) := by
  intro fuel
  induction fuel with
  | zero => intro p i g e0 M rest e _ h; omega
  | succ fuel ih =>
    intro p i g e0 M rest e h hf
    rw [taken]
    rcases nextChunk_ok hc h with ⟨q', h1, h2, h3, h4⟩ | ⟨i', q', g', M', h1, h2, h3⟩ | ⟨l, i', q', c, g', M', rest', h1, h2, h3, h4, h5, h6⟩
    · rw [h1]
      exact .inl ⟨q', p.complete, rfl, h2, h3, h4⟩
    · rw [h1]
      exact .inr (.inl ⟨i', q', p.complete, g', M', rfl, h2, h3⟩)
    · rw [h1]
      cases l with
      | nil =>
        dsimp only
        rw [List.nil_append] at h2
        subst h2
        rcases ih h3 (by omega) with ⟨q2, c2, k1, k2⟩ | ⟨i2, q2, c2, g2, M2, k1, k2⟩ | ⟨l, i2, q2, c2, g2, M2, rest2, k1, k2, k3, k4, k5, k6, k7⟩
        · exact .inl ⟨q2, c2, k1, k2⟩
        · exact .inr (.inl ⟨i2, q2, c2, g2, M2, k1, k2⟩)
        · exact .inr (.inr ⟨l, i2, q2, c2, g2, M2, rest2, k1, k2, k3, k4, k5, by omega, k7.trans h6⟩)
      | cons a l => 
        have hcomp := h4 (by simp)
        exact .inr (.inr ⟨_, i', q', c, g', M', rest', rfl, h2, by simp, h3, hcomp, by omega, h6⟩)

end PG.CopyTo
