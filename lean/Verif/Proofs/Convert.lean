import Verif.Spec.Convert
/-!
# Proofs for C77
-/
namespace PG.Proofs.Convert
open PG PG.Exceptions PG.Messages PG.Convert PG.Spec.Convert

variable {A B : Type} {verb : Str} {repr : A → Str}

theorem runs_getElem (cs : List (Conv A B)) (i : Nat) : (runs verb repr cs)[i]? = (cs[i]?).map (run verb repr) := by
  induction cs generalizing i with
  | nil => simp [runs]
  | cons c cs ih => cases i <;> simp [runs, ih]

theorem runs_length (cs : List (Conv A B)) : (runs verb repr cs).length = cs.length := by
  induction cs with
  | nil => simp [runs]
  | cons c cs ih => simp [runs, ih]

theorem converted_nil {f : Nat → A → Except Exn B} {ys : List (Option B)} : Converted f [] ys ↔ ys = [] := by
  constructor
  · intro h
    exact List.eq_nil_of_length_eq_zero h.1
  · rintro rfl
    exact ⟨rfl, fun i x h => by simp at h⟩

theorem converted_cons {f : Nat → A → Except Exn B} {x : Option A} {xs : List (Option A)} {ys : List (Option B)} :
    Converted f (x :: xs) ys ↔ ∃ y ys', ys = y :: ys' ∧ ((x = none ∧ y = none) ∨ ∃ a b, x = some a ∧ f 0 a = .ok b ∧ y = some b) ∧ Converted (fun i => f (i + 1)) xs ys' := by
  constructor
  · rintro ⟨h1, h2⟩
    cases ys with
    | nil => simp at h1
    | cons y ys =>
      refine ⟨y, ys, rfl, ?_, ?_, fun i z hz => ?_⟩
      · have := h2 0 x rfl
        simpa using this
      · simpa using h1
      · have := h2 (i + 1) z (by simpa using hz)
        simpa using this
  · rintro ⟨y, ys, rfl, h1, h2, h3⟩
    refine ⟨by simp [h2], fun i z hz => ?_⟩
    cases i with
    | zero =>
      simp only [List.getElem?_cons_zero, Option.some.injEq] at hz ⊢
      subst hz
      exact h1
    | succ i =>
      simp only [List.getElem?_cons_succ] at hz ⊢
      exact h3 i z hz

/-- `eachItem` succeeds. -/
theorem eachItem_ok {f : A → Except Exn B} : ∀ {xs : List (Option A)} {ys : List (Option B)}, eachItem f xs = .ok ys ↔ Converted (fun _ => f) xs ys
  | [], ys => by rw [converted_nil]; simp [eachItem, eq_comm]
  | none :: xs, ys => by
    rw [converted_cons]
    unfold eachItem
    cases h : eachItem f xs with
    | error e =>
      constructor
      · intro h; cases h
      · rintro ⟨y, ys', rfl, _, h2⟩
        rw [← eachItem_ok, h] at h2
        cases h2
    | ok zs =>
      constructor
      · intro h'
        cases h'
        exact ⟨none, zs, rfl, .inl ⟨rfl, rfl⟩, eachItem_ok.1 h⟩
      · rintro ⟨y, ys', rfl, h1, h2⟩
        rw [← eachItem_ok, h] at h2
        cases h2
        rcases h1 with ⟨_, rfl⟩ | ⟨a, b, h1, _⟩
        · rfl
        · cases h1
  | some x :: xs, ys => by
    rw [converted_cons]
    unfold eachItem
    cases hx : f x with
    | error e =>
      constructor
      · intro h; cases h
      · rintro ⟨y, ys', rfl, ⟨h1, _⟩ | ⟨a, b, h1, h3, _⟩, h2⟩
        · cases h1
        · cases h1
          rw [hx] at h3; cases h3
    | ok y =>
      dsimp only
      cases h : eachItem f xs with
      | error e =>
        constructor
        · intro h; cases h
        · rintro ⟨y, ys', rfl, _, h2⟩
          rw [← eachItem_ok, h] at h2
          cases h2
      | ok zs =>
        constructor
        · intro h'
          cases h'
          exact ⟨some y, zs, rfl, .inr ⟨x, y, rfl, hx, rfl⟩, eachItem_ok.1 h⟩
        · rintro ⟨y', ys', rfl, h1, h2⟩
          rw [← eachItem_ok, h] at h2
          cases h2
          rcases h1 with ⟨h1, _⟩ | ⟨a, b, h1, h3, rfl⟩
          · cases h1
          · cases h1
            rw [hx] at h3; cases h3
            rfl

/-- `eachItem` fails. -/
theorem eachItem_error {f : A → Except Exn B} {e : Exn} : ∀ {xs : List (Option A)}, eachItem f xs = .error e ↔
    ∃ pre x post, xs = pre ++ some x :: post ∧ (∀ y, some y ∈ pre → ∃ b, f y = .ok b) ∧ f x = .error e
  | [] => by
    constructor
    · intro h; cases h
    · rintro ⟨pre, x, post, h, _⟩
      cases pre <;> cases h
  | none :: xs => by
    have ih := @eachItem_error f e xs
    unfold eachItem
    constructor
    · intro h
      cases h' : eachItem f xs with
      | ok ys => rw [h'] at h; cases h
      | error e' =>
        rw [h'] at h
        cases h
        obtain ⟨pre, x, post, rfl, h1, h2⟩ := ih.1 h'
        exact ⟨none :: pre, x, post, rfl, fun y hy => h1 y (by simpa using hy), h2⟩
    · rintro ⟨pre, x, post, h, h1, h2⟩
      cases pre with
      | nil => cases h
      | cons z pre =>
        cases h
        rw [ih.2 ⟨pre, x, post, rfl, fun y hy => h1 y (List.mem_cons_of_mem _ hy), h2⟩]
  | some a :: xs => by
    have ih := @eachItem_error f e xs
    unfold eachItem
    cases ha : f a with
    | error e' =>
      constructor
      · intro h
        cases h
        exact ⟨[], a, xs, rfl, fun y hy => by simp at hy, ha⟩
      · rintro ⟨pre, x, post, h, h1, h2⟩
        cases pre with
        | nil => cases h; rw [ha] at h2; cases h2; rfl
        | cons z pre =>
          cases h
          obtain ⟨b, hb⟩ := h1 a (by simp)
          rw [ha] at hb; cases hb
    | ok b =>
      dsimp only
      constructor
      · intro h
        cases h' : eachItem f xs with
        | ok ys => rw [h'] at h; cases h
        | error e' =>
          rw [h'] at h
          cases h
          obtain ⟨pre, x, post, rfl, h1, h2⟩ := ih.1 h'
          refine ⟨some a :: pre, x, post, rfl, fun y hy => ?_, h2⟩
          rcases List.mem_cons.1 hy with h | h
          · cases h; exact ⟨b, ha⟩
          · exact h1 y h
      · rintro ⟨pre, x, post, h, h1, h2⟩
        cases pre with
        | nil => cases h; rw [ha] at h2; cases h2
        | cons z pre =>
          cases h
          rw [ih.2 ⟨pre, x, post, rfl, fun y hy => h1 y (List.mem_cons_of_mem _ hy), h2⟩]

/-- The routine in a list. -/
def at_ (fs : List (A → Except Exn B)) (i : Nat) (x : A) : Except Exn B :=
  match fs[i]? with
  | some f => f x
  | none => .error (.py .indexError)

theorem at_runs (cs : List (Conv A B)) : at_ (runs verb repr cs) = attrOf verb repr cs := by
  funext i x
  unfold at_ attrOf
  rw [runs_getElem]
  cases cs[i]? <;> rfl

/-- The loop of `process_tuple` succeeds. -/
theorem items_ok : ∀ {fs : List (A → Except Exn B)} {xs : List (Option A)} {n : Nat} {ys : List (Option B)}, xs.length = fs.length → (items fs xs n = .ok ys ↔ Converted (at_ fs) xs ys)
  | [], [], n, ys, _ => by rw [converted_nil]; simp [items, eq_comm]
  | [], _ :: _, _, _, h => by simp at h
  | _ :: _, [], _, _, h => by simp at h
  | f :: fs, none :: xs, n, ys, hl => by
    rw [converted_cons]
    have ih := fun ys => @items_ok fs xs (n + 1) ys (by simpa using hl)
    have hs : (fun i => at_ (f :: fs) (i + 1)) = at_ fs := by funext i x; simp [at_]
    rw [hs]
    unfold items
    cases h : items fs xs (n + 1) with
    | error e =>
      constructor
      · intro h; cases h
      · rintro ⟨y, ys', rfl, _, h2⟩
        rw [← ih, h] at h2
        cases h2
    | ok zs =>
      constructor
      · intro h'
        cases h'
        exact ⟨none, zs, rfl, .inl ⟨rfl, rfl⟩, (ih _).1 h⟩
      · rintro ⟨y, ys', rfl, h1, h2⟩
        rw [← ih, h] at h2
        cases h2
        rcases h1 with ⟨_, rfl⟩ | ⟨a, b, h1, _⟩
        · rfl
        · cases h1
  | f :: fs, some x :: xs, n, ys, hl => by
    rw [converted_cons]
    have ih := fun ys => @items_ok fs xs (n + 1) ys (by simpa using hl)
    have hs : (fun i => at_ (f :: fs) (i + 1)) = at_ fs := by funext i x; simp [at_]
    have h0 : ∀ a, at_ (f :: fs) 0 a = f a := fun a => rfl
    rw [hs]
    unfold items
    cases hx : f x with
    | error e =>
      constructor
      · intro h; cases h
      · rintro ⟨y, ys', rfl, ⟨h1, _⟩ | ⟨a, b, h1, h3, _⟩, h2⟩
        · cases h1
        · cases h1
          rw [h0, hx] at h3; cases h3
    | ok y =>
      dsimp only
      cases h : items fs xs (n + 1) with
      | error e =>
        constructor
        · intro h; cases h
        · rintro ⟨y, ys', rfl, _, h2⟩
          rw [← ih, h] at h2
          cases h2
      | ok zs =>
        constructor
        · intro h'
          cases h'
          exact ⟨some y, zs, rfl, .inr ⟨x, y, rfl, by rw [h0, hx], rfl⟩, (ih _).1 h⟩
        · rintro ⟨y', ys', rfl, h1, h2⟩
          rw [← ih, h] at h2
          cases h2
          rcases h1 with ⟨h1, _⟩ | ⟨a, b, h1, h3, rfl⟩
          · cases h1
          · cases h1
            rw [h0, hx] at h3; cases h3
            rfl

/-- The loop of `process_tuple` fails: at the first item that does. -/
theorem items_error {e : Exn} : ∀ {fs : List (A → Except Exn B)} {xs : List (Option A)} {n m : Nat}, xs.length = fs.length → (items fs xs n = .error (e, m) ↔
    ∃ i f x, m = n + i ∧ fs[i]? = some f ∧ xs[i]? = some (some x) ∧ f x = .error e ∧ ∀ j < i, ∀ f x, fs[j]? = some f → xs[j]? = some (some x) → ∃ y, f x = .ok y)
  | [], [], n, m, _ => by
    constructor
    · intro h; cases h
    · rintro ⟨i, f, x, _, h, _⟩; simp at h
  | [], _ :: _, _, _, h => by simp at h
  | _ :: _, [], _, _, h => by simp at h
  | f :: fs, none :: xs, n, m, hl => by
    have ih := @items_error e fs xs (n + 1) m (by simpa using hl)
    have hsplit : items (f :: fs) (none :: xs) n = .error (e, m) ↔ items fs xs (n + 1) = .error (e, m) := by
      rw [items]
      cases items fs xs (n + 1) <;> simp
    rw [hsplit, ih]
    constructor
    · rintro ⟨i, g, x, rfl, h1, h2, h3, h4⟩
      refine ⟨i + 1, g, x, by omega, by simpa using h1, by simpa using h2, h3, fun j hj f' x' hf hx => ?_⟩
      cases j with
      | zero => simp at hx
      | succ j => exact h4 j (by omega) f' x' (by simpa using hf) (by simpa using hx)
    · rintro ⟨i, g, x, rfl, h1, h2, h3, h4⟩
      cases i with
      | zero => simp at h2
      | succ i =>
        exact ⟨i, g, x, by omega, by simpa using h1, by simpa using h2, h3, fun j hj f' x' hf hx => h4 (j + 1) (by omega) f' x' (by simpa using hf) (by simpa using hx)⟩
  | f :: fs, some a :: xs, n, m, hl => by
    have ih := @items_error e fs xs (n + 1) m (by simpa using hl)
    cases ha : f a with
    | error e' =>
      rw [items, ha]
      constructor
      · intro h
        cases h
        exact ⟨0, f, a, rfl, rfl, rfl, ha, fun j hj => by omega⟩
      · rintro ⟨i, g, x, rfl, h1, h2, h3, h4⟩
        cases i with
        | zero =>
          simp only [List.getElem?_cons_zero, Option.some.injEq] at h1 h2
          subst h1 h2
          rw [ha] at h3
          cases h3
          rfl
        | succ i =>
          obtain ⟨y, hy⟩ := h4 0 (by omega) f a rfl rfl
          rw [ha] at hy; cases hy
    | ok y =>
      have hsplit : items (f :: fs) (some a :: xs) n = .error (e, m) ↔ items fs xs (n + 1) = .error (e, m) := by
        rw [items, ha]
        dsimp only
        cases items fs xs (n + 1) <;> simp
      rw [hsplit, ih]
      constructor
      · rintro ⟨i, g, x, rfl, h1, h2, h3, h4⟩
        refine ⟨i + 1, g, x, by omega, by simpa using h1, by simpa using h2, h3, fun j hj f' x' hf hx => ?_⟩
        cases j with
        | zero =>
          simp only [List.getElem?_cons_zero, Option.some.injEq] at hf hx
          subst hf hx
          exact ⟨y, ha⟩
        | succ j => exact h4 j (by omega) f' x' (by simpa using hf) (by simpa using hx)
      · rintro ⟨i, g, x, rfl, h1, h2, h3, h4⟩
        cases i with
        | zero =>
          simp only [List.getElem?_cons_zero, Option.some.injEq] at h1 h2
          subst h1 h2
          rw [ha] at h3
          cases h3
        | succ i =>
          exact ⟨i, g, x, by omega, by simpa using h1, by simpa using h2, h3, fun j hj f' x' hf hx => h4 (j + 1) (by omega) f' x' (by simpa using hf) (by simpa using hx)⟩

/-- `process_tuple` fails. -/
theorem processTuple_error {handler : Nat → Str → Exn → Exn} {cs : List (Conv A B)} {xs : List (Option A)} {z : Exn} :
    processTuple handler repr (runs verb repr cs) xs = .error z ↔ (xs.length ≠ cs.length ∧ z = .py .typeError) ∨
      (xs.length = cs.length ∧ ∃ i c x e, cs[i]? = some c ∧ xs[i]? = some (some x) ∧ run verb repr c x = .error e ∧ Before verb repr cs xs i ∧ z = handler i (repr x) e) := by
  unfold processTuple
  rw [runs_length]
  by_cases hl : xs.length = cs.length
  · simp only [hl, ne_eq, not_true_eq_false, if_false, false_and, true_and, false_or]
    have hl' : xs.length = (runs verb repr cs).length := by rw [runs_length, hl]
    constructor
    · intro h
      cases hi : items (runs verb repr cs) xs 0 with
      | ok ys => rw [hi] at h; cases h
      | error em =>
        obtain ⟨e, m⟩ := em
        rw [hi] at h
        dsimp only at h
        obtain ⟨i, f, x, rfl, h1, h2, h3, h4⟩ := (items_error hl').1 hi
        rw [runs_getElem] at h1
        cases hc : cs[i]? with
        | none => rw [hc] at h1; cases h1
        | some c =>
          rw [hc] at h1
          cases h1
          rw [Nat.zero_add, h2] at h
          refine ⟨i, c, x, e, hc, h2, h3, fun j hj c' x' hc' hx' => h4 j hj _ x' (by rw [runs_getElem, hc']; rfl) hx', ?_⟩
          injection h with h
          exact h.symm
    · rintro ⟨i, c, x, e, hc, hx, he, hb, rfl⟩
      have : items (runs verb repr cs) xs 0 = .error (e, i) := (items_error hl').2 ⟨i, _, x, (Nat.zero_add _).symm, by rw [runs_getElem, hc]; rfl, hx, he, fun j hj f' x' hf hx' => by
        rw [runs_getElem] at hf
        cases hc' : cs[j]? with
        | none => rw [hc'] at hf; cases hf
        | some c' =>
          rw [hc'] at hf
          cases hf
          exact hb j hj c' x' hc' hx'⟩
      rw [this]
      dsimp only
      rw [hx]
      rfl
  · simp only [ne_eq, hl, not_false_eq_true, if_true, true_and, false_and, or_false]
    constructor
    · intro h; injection h with h; exact h.symm
    · rintro rfl; rfl

/-- `process_tuple` succeeds. -/
theorem processTuple_ok {handler : Nat → Str → Exn → Exn} {cs : List (Conv A B)} {xs : List (Option A)} {ys : List (Option B)} :
    processTuple handler repr (runs verb repr cs) xs = .ok ys ↔ xs.length = cs.length ∧ Converted (attrOf verb repr cs) xs ys := by
  unfold processTuple
  rw [runs_length]
  by_cases hl : xs.length = cs.length
  · simp only [hl, ne_eq, not_true_eq_false, if_false, true_and]
    rw [← at_runs, ← items_ok (n := 0) (by rw [runs_length, hl])]
    cases items (runs verb repr cs) xs 0 with
    | ok zs => simp
    | error em => obtain ⟨e, m⟩ := em; simp
  · simp [hl]

end PG.Proofs.Convert
