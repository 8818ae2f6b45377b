import Verif.Proofs.Convert
/-!
# Proofs for C77: the exceptions
-/
namespace PG.Proofs.Convert
open PG PG.Exceptions PG.Messages PG.Convert PG.Spec.Convert

variable {A B : Type} {verb : Str} {repr : A → Str}

theorem look_c : errorLookup "--cIO".toList = .CompositeError := by decide +kernel
theorem look_P : errorLookup "--PIO".toList = .ParameterError := by decide +kernel
theorem look_C : errorLookup "--CIO".toList = .ColumnError := by decide +kernel
theorem code_c : instanceCode .CompositeError "--cIO".toList = "--cIO".toList := by decide +kernel
theorem code_P : instanceCode .ParameterError "--PIO".toList = "--PIO".toList := by decide +kernel
theorem code_C : instanceCode .ColumnError "--CIO".toList = "--CIO".toList := by decide +kernel

/-- The exception of a record's item. -/
def compositeObj (message data : Str) (i : Nat) : Obj :=
  { cls := some .CompositeError, message := message, code := "--cIO".toList, details := [(.severity, "ERROR".toList), (.context, short data), (.position, decimal i)], fromServer := false }

theorem raise_composite (message data : Str) (i : Nat) (cr : Creator) (cause : Exn) :
    raiseClientError [([67], "--cIO".toList), ([83], "ERROR".toList), ([77], message), ([87], short data), ([80], decimal i)] cr cause = .client (compositeObj message data i) cr cause := by
  have : raiseClientError [([67], "--cIO".toList), ([83], "ERROR".toList), ([77], message), ([87], short data), ([80], decimal i)] cr cause =
      .client { cls := some (errorLookup "--cIO".toList), message := message, code := instanceCode (errorLookup "--cIO".toList) "--cIO".toList,
                details := [(.severity, "ERROR".toList), (.context, short data), (.position, decimal i)], fromServer := false } cr cause := rfl
  rw [this, look_c, code_c]
  rfl

/-- The exception of a parameter. -/
def parameterObj (message data : Str) (i : Nat) : Obj :=
  { cls := some .ParameterError, message := message, code := "--PIO".toList,
    details := [(.severity, "ERROR".toList), (.detail, short data), (.hint, "Try casting the parameter to 'text', then to the target type.".toList), (.position, decimal i)], fromServer := false }

theorem raise_parameter (typ : Option Str) (data : Str) (i : Nat) (cause : Exn) : parameterError typ i data cause = .client (parameterObj
    ("could not pack parameter ".toList ++ '$' :: decimal (i + 1) ++ "::".toList ++ typ.getD "<unknown>".toList ++ " for transfer".toList) data i) .statement cause := by
  unfold parameterError
  generalize "could not pack parameter ".toList ++ '$' :: decimal (i + 1) ++ "::".toList ++ typ.getD "<unknown>".toList ++ " for transfer".toList = message
  have : raiseClientError [([83], "ERROR".toList), ([67], "--PIO".toList), ([77], message), ([68], short data), ([72], "Try casting the parameter to 'text', then to the target type.".toList), ([80], decimal i)] .statement cause =
      .client { cls := some (errorLookup "--PIO".toList), message := message, code := instanceCode (errorLookup "--PIO".toList) "--PIO".toList,
                details := [(.severity, "ERROR".toList), (.detail, short data), (.hint, "Try casting the parameter to 'text', then to the target type.".toList), (.position, decimal i)], fromServer := false } .statement cause := rfl
  rw [this, look_P, code_P]
  rfl

/-- The exception of a column. -/
def columnObj (message data : Str) (i : Nat) : Obj :=
  { cls := some .ColumnError, message := message, code := "--CIO".toList,
    details := [(.severity, "ERROR".toList), (.detail, short data), (.hint, "Try casting the column to 'text'.".toList), (.position, decimal i)], fromServer := false }

theorem raise_column (c : Creator) (name : Str) (typ : Option Str) (data : Str) (i : Nat) (cause : Exn) : columnError c name typ i data cause = .client (columnObj
    ((if c = .output then "failed to".toList else "could not".toList) ++ " unpack column ".toList ++ decimal i ++ ", ".toList ++ name ++ "::".toList ++ typ.getD "<unknown>".toList ++ ", from wire data".toList) data i) c cause := by
  unfold columnError
  generalize (if c = .output then "failed to".toList else "could not".toList) ++ " unpack column ".toList ++ decimal i ++ ", ".toList ++ name ++ "::".toList ++ typ.getD "<unknown>".toList ++ ", from wire data".toList = message
  have : raiseClientError [([83], "ERROR".toList), ([67], "--CIO".toList), ([77], message), ([68], short data), ([72], "Try casting the column to 'text'.".toList), ([80], decimal i)] c cause =
      .client { cls := some (errorLookup "--CIO".toList), message := message, code := instanceCode (errorLookup "--CIO".toList) "--CIO".toList,
                details := [(.severity, "ERROR".toList), (.detail, short data), (.hint, "Try casting the column to 'text'.".toList), (.position, decimal i)], fromServer := false } c cause := rfl
  rw [this, look_C, code_C]
  rfl

/-- What `run` raises is right. -/
def Right (verb : Str) (repr : A → Str) (c : Conv A B) : Prop :=
  ∀ a x, run verb repr c a = .error x → ∃ p e, Fault verb repr c a p e ∧ positions x = texts p ∧ root x = e ∧ AllOf .CompositeError x

theorem lift_error {r : Except Err B} {x : Exn} (h : lift r = .error x) : ∃ e, r = .error e ∧ x = .py e := by
  cases r with
  | ok y => cases h
  | error e => cases h; exact ⟨e, rfl, rfl⟩

mutual
theorem right : (c : Conv A B) → Right verb repr c
  | .base f => fun a x h => by
    unfold run at h
    obtain ⟨e, h1, rfl⟩ := lift_error h
    exact ⟨[], e, .base h1, rfl, rfl, trivial⟩
  | .each split el => fun a x h => by
    have ih : Right verb repr el := right el
    unfold run at h
    cases hs : split a with
    | error e =>
      rw [hs] at h
      cases h
      exact ⟨[], e, .notArray hs, rfl, rfl, trivial⟩
    | ok r =>
      obtain ⟨xs, join⟩ := r
      rw [hs] at h
      dsimp only at h
      cases he : eachItem (run verb repr el) xs with
      | error e =>
        rw [he] at h
        cases h
        obtain ⟨pre, y, post, rfl, h1, h2⟩ := eachItem_error.1 he
        obtain ⟨p, e, hf, h3, h4, h5⟩ := ih y _ h2
        exact ⟨p, e, .element hs h1 hf, h3, h4, h5⟩
      | ok ys =>
        rw [he] at h
        dsimp only at h
        obtain ⟨e, h1, rfl⟩ := lift_error h
        exact ⟨[], e, .whole hs (eachItem_ok.1 he) h1, rfl, rfl, trivial⟩
  | .record n split cs => fun a x h => by
    have ih : ∀ (i : Nat) (c : Conv A B), cs[i]? = some c → Right verb repr c := rights cs
    unfold run at h
    cases hs : split a with
    | error e =>
      rw [hs] at h
      cases h
      exact ⟨[], e, .notRecord hs, rfl, rfl, trivial⟩
    | ok r =>
      obtain ⟨xs, join⟩ := r
      rw [hs] at h
      dsimp only at h
      cases he : processTuple (compositeError verb n) repr (runs verb repr cs) xs with
      | error e =>
        rw [he] at h
        cases h
        rcases processTuple_error.1 he with ⟨hl, rfl⟩ | ⟨hl, i, c, y, e', hc, hy, he', hb, rfl⟩
        · exact ⟨[], _, .count hs hl, rfl, rfl, trivial⟩
        · obtain ⟨p, e, hf, h3, h4, h5⟩ := ih i c hc y _ he'
          refine ⟨i :: p, e, .item hs hl hc hy hb hf, ?_, ?_, ?_⟩
          · unfold compositeError
            rw [raise_composite]
            simp only [positions, h3]
            rfl
          · unfold compositeError
            rw [raise_composite]
            exact h4
          · unfold compositeError
            rw [raise_composite]
            exact ⟨rfl, h5⟩
      | ok ys =>
        rw [he] at h
        dsimp only at h
        obtain ⟨e, h1, rfl⟩ := lift_error h
        obtain ⟨hl, hy⟩ := processTuple_ok.1 he
        exact ⟨[], e, .made hs hl hy h1, rfl, rfl, trivial⟩
theorem rights : (cs : List (Conv A B)) → ∀ (i : Nat) (c : Conv A B), cs[i]? = some c → Right verb repr c
  | [] => fun i c h => by simp at h
  | c :: cs => fun i d h => by
    have h0 := right c
    have h1 := rights cs
    cases i with
    | zero => simp only [List.getElem?_cons_zero, Option.some.injEq] at h; subst h; exact h0
    | succ i => exact h1 i d (by simpa using h)
end

/-- The other direction. -/
theorem raised {c : Conv A B} {a : A} {p : List Nat} {e : Err} (h : Fault verb repr c a p e) :
    ∃ x, run verb repr c a = .error x ∧ positions x = texts p ∧ root x = e := by
  induction h with
  | base h => exact ⟨.py _, by simp [run, h, lift], rfl, rfl⟩
  | notArray h => exact ⟨.py _, by simp [run, h], rfl, rfl⟩
  | element h hpre hx ih =>
    obtain ⟨x, h1, h2, h3⟩ := ih
    refine ⟨x, ?_, h2, h3⟩
    simp only [run, h]
    rw [eachItem_error.2 ⟨_, _, _, rfl, hpre, h1⟩]
  | whole h hall hj =>
    refine ⟨.py _, ?_, rfl, rfl⟩
    simp only [run, h]
    rw [eachItem_ok.2 hall]
    simp [lift, hj]
  | notRecord h => exact ⟨.py _, by simp [run, h], rfl, rfl⟩
  | count h hl =>
    refine ⟨.py .typeError, ?_, rfl, rfl⟩
    simp only [run, h]
    rw [processTuple_error.2 (.inl ⟨hl, rfl⟩)]
  | @item n split cs a xs join i c x p e h hl hc hi hb hx ih =>
    obtain ⟨z, h1, h2, h3⟩ := ih
    refine ⟨compositeError verb n i (repr x) z, ?_, ?_, ?_⟩
    · simp only [run, h]
      rw [processTuple_error.2 (.inr ⟨hl, i, c, x, z, hc, hi, h1, hb, rfl⟩)]
    · unfold compositeError
      rw [raise_composite]
      simp only [positions, h2]
      rfl
    · unfold compositeError
      rw [raise_composite]
      exact h3
  | made h hl hy hj =>
    refine ⟨.py _, ?_, rfl, rfl⟩
    simp only [run, h]
    rw [processTuple_ok.2 ⟨hl, hy⟩]
    simp [lift, hj]

end PG.Proofs.Convert
