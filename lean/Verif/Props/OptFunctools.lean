import Verif.Model.OptFunctools
/-!
# C98: rows processed in C
-/
namespace PG.Props.OptFunctools
open PG PG.OptFunctools

variable {ε β γ : Type}

theorem loopPy_none (p : β → Except (Exn ε) γ) (procs : List (β → Except (Exn ε) γ)) (tup : List (Option β)) (i : Nat) :
    loopPy (p :: procs) (none :: tup) i = match loopPy procs tup (i + 1) with | .error e => .error e | .ok l => .ok (none :: l) := rfl

theorem loopPy_some (p : β → Except (Exn ε) γ) (procs : List (β → Except (Exn ε) γ)) (x : β) (tup : List (Option β)) (i : Nat) :
    loopPy (p :: procs) (some x :: tup) i = match p x with
      | .error e => .error (e, i)
      | .ok y => match loopPy procs tup (i + 1) with | .error e => .error e | .ok l => .ok (some y :: l) := rfl

theorem loopC_spec (procs : List (β → Except (Exn ε) γ)) (tup : List (Option β)) (handler : Handler ε) (hl : tup.length = procs.length) :
    ∀ (left i : Nat) (rob : List (Option γ)), i + left = tup.length →
      loopC procs tup handler left i rob = match loopPy (procs.drop i) (tup.drop i) i with
        | .ok l => .ok (rob ++ l)
        | .error (e, j) => if e.isException then (match handler e j with | some r => .error r | none => .error .runtimeError) else .error e
  | 0, i, rob, h => by
    rw [List.drop_eq_nil_of_le (show tup.length ≤ i by omega), List.drop_eq_nil_of_le (show procs.length ≤ i by omega)]
    show _ = Except.ok (rob ++ [])
    rw [List.append_nil]
    rfl
  | left + 1, i, rob, h => by
    have h1 : i < tup.length := by omega
    have h2 : i < procs.length := by omega
    rw [List.drop_eq_getElem_cons h1, List.drop_eq_getElem_cons h2]
    unfold loopC
    rw [List.getElem?_eq_getElem h1, List.getElem?_eq_getElem h2]
    have ih := fun r => loopC_spec procs tup handler hl left (i + 1) r (by omega)
    generalize tup[i] = o at *
    generalize procs[i] = p at *
    cases o with
    | none =>
      show loopC procs tup handler left (i + 1) (rob ++ [none]) = _
      rw [ih, loopPy_none]
      cases loopPy (procs.drop (i + 1)) (tup.drop (i + 1)) (i + 1) with
      | ok l => show Except.ok (rob ++ [none] ++ l) = .ok (rob ++ (none :: l)); rw [List.append_assoc]; rfl
      | error e => rfl
    | some o =>
      show (match p o with | .ok r => _ | .error e => _) = _
      rw [loopPy_some]
      cases p o with
      | error e => rfl
      | ok y =>
        show loopC procs tup handler left (i + 1) (rob ++ [some y]) = _
        rw [ih]
        cases loopPy (procs.drop (i + 1)) (tup.drop (i + 1)) (i + 1) with
        | ok l => show Except.ok (rob ++ [some y] ++ l) = .ok (rob ++ (some y :: l)); rw [List.append_assoc]; rfl
        | error e => rfl

/-- **C98** (partly: for tuples, see `C98_list`) `process_tuple` in C gives the same row, raises the same exception and calls the handler with the same cause and position as in Python. -/
theorem C98_row_partial (procs : List (β → Except (Exn ε) γ)) (c : Cls) (hc : c ≠ .list) (tup : List (Option β)) (handler : Handler ε) :
    processTupleC .tuple procs c tup handler = processTuplePy procs tup handler := by
  unfold processTupleC processTuplePy
  rw [if_neg (by simp), if_neg hc]
  by_cases hl : tup.length = procs.length
  · rw [if_neg (by simpa using hl), if_neg (by simpa using hl), loopC_spec procs tup handler hl tup.length 0 [] (by omega)]
    rfl
  · rw [if_pos hl, if_pos hl]

/-- **C98** in a row NULL stays NULL, whatever the processors do, and all others are processed by the one at the same place. -/
theorem C98_row_values (procs : List (β → Except (Exn ε) γ)) (tup : List (Option β)) (handler : Handler ε) (l : List (Option γ)) :
    processTupleC .tuple procs .tuple tup handler = .ok l ↔
      tup.length = procs.length ∧ l.length = tup.length ∧ ∀ (i : Nat) (p : β → Except (Exn ε) γ) (o : Option β), procs[i]? = some p → tup[i]? = some o →
        match o with
        | none => l[i]? = some none
        | some x => ∃ y, p x = .ok y ∧ l[i]? = some (some y) := by
  rw [C98_row_partial procs .tuple (by simp)]
  unfold processTuplePy
  have key : ∀ (procs : List (β → Except (Exn ε) γ)) (tup : List (Option β)) (k : Nat) (l : List (Option γ)), tup.length = procs.length →
      (loopPy procs tup k = .ok l ↔ l.length = tup.length ∧ ∀ (i : Nat) (p : β → Except (Exn ε) γ) (o : Option β), procs[i]? = some p → tup[i]? = some o →
        match o with
        | none => l[i]? = some none
        | some x => ∃ y, p x = .ok y ∧ l[i]? = some (some y)) := by
    intro procs
    induction procs with
    | nil =>
      intro tup k l h
      have : tup = [] := List.length_eq_zero_iff.mp h
      subst this
      unfold loopPy
      constructor
      · intro e; cases e; exact ⟨rfl, fun i p o hp => by simp at hp⟩
      · rintro ⟨e, _⟩
        rw [List.length_eq_zero_iff.mp (show l.length = 0 from e)]
    | cons p procs ih =>
      intro tup k l h
      cases tup with
      | nil => cases h
      | cons o tup =>
        have h' : tup.length = procs.length := by simpa using h
        cases o with
        | none =>
          unfold loopPy
          constructor
          · intro e
            cases hx : loopPy procs tup (k + 1) with
            | error e' => rw [hx] at e; cases e
            | ok l' =>
              rw [hx] at e
              cases e
              obtain ⟨a, b⟩ := (ih tup (k + 1) l' h').mp hx
              refine ⟨by rw [List.length_cons, List.length_cons, a], fun i q o hq ho => ?_⟩
              cases i with
              | zero => simp at ho; subst ho; rfl
              | succ i => exact b i q o (by simpa using hq) (by simpa using ho)
          · rintro ⟨a, b⟩
            cases l with
            | nil => cases a
            | cons y l' =>
              have hy := b 0 p none rfl rfl
              replace hy : some y = some none := hy
              cases hy
              have := (ih tup (k + 1) l' h').mpr ⟨by simpa using a, fun i q o hq ho => b (i + 1) q o (by simpa using hq) (by simpa using ho)⟩
              rw [this]
        | some x =>
          unfold loopPy
          constructor
          · intro e
            cases hpx : p x with
            | error e' => rw [hpx] at e; cases e
            | ok y =>
              rw [hpx] at e
              dsimp only at e
              cases hx : loopPy procs tup (k + 1) with
              | error e' => rw [hx] at e; cases e
              | ok l' =>
                rw [hx] at e
                cases e
                obtain ⟨a, b⟩ := (ih tup (k + 1) l' h').mp hx
                refine ⟨by rw [List.length_cons, List.length_cons, a], fun i q o hq ho => ?_⟩
                cases i with
                | zero =>
                  replace hq : some p = some q := hq
                  replace ho : some (some x) = some o := ho
                  cases hq; cases ho
                  exact ⟨y, hpx, rfl⟩
                | succ i => exact b i q o (by simpa using hq) (by simpa using ho)
          · rintro ⟨a, b⟩
            cases l with
            | nil => cases a
            | cons y l' =>
              obtain ⟨y', h1, h2⟩ := b 0 p (some x) rfl rfl
              replace h2 : some y = some (some y') := h2
              cases h2
              have := (ih tup (k + 1) l' h').mpr ⟨by simpa using a, fun i q o hq ho => b (i + 1) q o (by simpa using hq) (by simpa using ho)⟩
              rw [h1]
              dsimp only
              rw [this]
  by_cases hl : tup.length = procs.length
  · rw [if_neg (by simpa using hl)]
    refine Iff.trans ?_ (Iff.trans (key procs tup 0 l hl) ⟨fun h => ⟨hl, h⟩, fun h => h.2⟩)
    cases loopPy procs tup 0 with
    | ok l' => exact ⟨fun h => (by cases h; rfl), fun h => (by cases h; rfl)⟩
    | error e =>
      obtain ⟨e, i⟩ := e
      dsimp only
      constructor
      · intro h
        split at h
        · split at h <;> cases h
        · cases h
      · intro h; cases h
  · rw [if_pos hl]
    exact ⟨fun h => (by cases h), fun h => absurd h.1 hl⟩

/-- **C98** (partly: for tuples, and iterables that do not raise, see `C98_iterable`) chunks of rows are processed alike. -/
theorem C98_chunk_partial (procs : List (β → Except (Exn ε) γ)) (handler : Handler ε) (rows : List (Cls × List (Option β))) (hc : ∀ x ∈ rows, x.1 ≠ .list) :
    processChunkC .tuple procs ⟨rows, none⟩ handler = processChunkPy procs handler none (rows.map (·.2)) := by
  show chunkLoopC .tuple procs handler rows = _
  induction rows with
  | nil => rfl
  | cons x rows ih =>
    obtain ⟨c, t⟩ := x
    rw [List.map_cons]
    unfold chunkLoopC processChunkPy
    rw [C98_row_partial procs c (hc (c, t) (List.mem_cons_self ..)), ih (fun y hy => hc y (List.mem_cons_of_mem _ hy))]

/-- **C98** in C processors that are not a `tuple` itself (a list, or of a class derived from it), and rows that are a list, are refused with TypeError, before any processor is called. -/
theorem C98_refused (pc tc : Cls) (procs : List (β → Except (Exn ε) γ)) (tup : List (Option β)) (handler : Handler ε) (h : pc ≠ .tuple ∨ tc = .list) :
    processTupleC pc procs tc tup handler = .error .typeError := by
  unfold processTupleC
  by_cases hp : pc ≠ .tuple
  · rw [if_pos hp]
  · rw [if_neg hp, if_pos (h.resolve_left hp)]

/-- **C98** an iterable that raises makes `process_chunk` raise that exception, in both versions, when the rows it gave can be processed. -/
theorem C98_iterable_raises (procs : List (β → Except (Exn ε) γ)) (handler : Handler ε) (e : Exn ε) (rows : List (Cls × List (Option β)))
    (h : ∀ x ∈ rows, ∃ y, processTuplePy procs x.2 handler = .ok y) :
    processChunkPy procs handler (some e) (rows.map (·.2)) = .error e ∧ processChunkC .tuple procs ⟨rows, some e⟩ handler = .error e := by
  refine ⟨?_, rfl⟩
  induction rows with
  | nil => rfl
  | cons x rows ih =>
    obtain ⟨y, hy⟩ := h x (List.mem_cons_self ..)
    rw [List.map_cons]
    unfold processChunkPy
    rw [hy, ih (fun z hz => h z (List.mem_cons_of_mem _ hz))]

/-- **C98** `compose` in C calls the same functions in the same order. -/
theorem C98_compose (seq : List (β → Except (Exn ε) β)) (r : β) : composeC seq seq.length 0 r = composePy seq r := by
  have key : ∀ (left i : Nat) (r : β), i + left = seq.length → composeC seq left i r = composePy (seq.drop i) r := by
    intro left
    induction left with
    | zero =>
      intro i r h
      rw [List.drop_eq_nil_of_le (by omega)]
      rfl
    | succ left ih =>
      intro i r h
      have h1 : i < seq.length := by omega
      rw [List.drop_eq_getElem_cons h1]
      unfold composeC composePy
      rw [List.getElem?_eq_getElem h1]
      dsimp only
      cases seq[i] r with
      | error e => rfl
      | ok r' => exact ih (i + 1) r' (by omega)
  exact key _ 0 r (by omega)

/-- A processor that fails for odd numbers with an Exception, and for 8 with a KeyboardInterrupt. -/
def demo (n : Nat) : Except (Exn String) Nat := if n = 8 then .error (.base "KeyboardInterrupt") else if n % 2 = 1 then .error (.other "odd") else .ok (n / 2)

/-- Raises for the cause, and does nothing for position 3. -/
def handler (e : Exn String) (i : Nat) : Option (Exn String) := if i = 3 then none else some (match e with | .other s => .other ("at: " ++ s) | e => e)

example : processTupleC .tuple [demo, demo, demo] .derived [some 4, none, some 6] handler = .ok [some 2, none, some 3] ∧
    processTupleC .tuple [demo, demo, demo] .tuple [some 4, some 5, some 8] handler = .error (.other "at: odd") ∧
    processTupleC .tuple [demo, demo] .tuple [some 4, some 8] handler = .error (.base "KeyboardInterrupt") ∧
    processTupleC .tuple [demo, demo, demo, demo] .tuple [none, none, none, some 1] handler = .error .runtimeError ∧
    processTupleC .tuple [demo] .tuple [none, none] handler = .error .typeError := by
  refine ⟨by decide +kernel, by decide +kernel, by decide +kernel, by decide +kernel, by decide +kernel⟩

/-- **C98** the unrestricted claim is false: a row that is a list is processed in Python, and raises TypeError in C. -/
theorem C98_list : processTuplePy [demo] [some 4] handler = .ok [some 2] ∧ processTupleC .tuple [demo] .list [some 4] handler = .error .typeError :=
  ⟨by decide +kernel, by decide +kernel⟩

/-- **C98** and an iterable of rows that raises does so before any row is processed in C: here the second row cannot be, and Python says so. -/
theorem C98_iterable : processChunkPy [demo] handler (some (.other "connection")) [[some 4], [some 5]] = .error (.other "at: odd") ∧
    processChunkC .tuple [demo] ⟨[(.tuple, [some 4]), (.tuple, [some 5])], some (.other "connection")⟩ handler = .error (.other "connection") :=
  ⟨by decide +kernel, by decide +kernel⟩

end PG.Props.OptFunctools
