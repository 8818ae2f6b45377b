import Verif.Props.SymLib
/-!
# C46: symbol libraries, binding

What the attributes of a binding are, and what the database is asked for them, over all sequences of accesses and all answers.
-/
namespace PG.Props.SymBind
open PG PG.SymLib PG.Spec.SymLib

variable (D : Db) (L : Library)

/-! ### One access -/

theorem cached_set_ne (b : Binding) (n m : Str) (x : Bound) (t : List Event) (h : m ≠ n) : cached { cache := PyDict.set m x b.cache, asked := t } n = cached b n := by
  unfold cached
  dsimp only
  rw [PyDict.get_set, if_neg h]

theorem cached_set (b : Binding) (n : Str) (x : Bound) (t : List Event) (h : x ≠ .value .none) : cached { cache := PyDict.set n x b.cache, asked := t } n = some x := by
  unfold cached
  dsimp only
  rw [PyDict.get_set, if_pos rfl]
  cases x with
  | value v => cases v with
    | none => exact absurd rfl h
    | obj => rfl
  | _ => rfl

theorem bindSymbol_spec (s : Symbol) (t : List Event) (r : Except Err Bound) (t' : List Event) (h : bindSymbol D s t = (r, t')) :
    t' = (if s.type = some "proc".toList then .proc s.source else .prepare s.source) :: t ∧
    (∀ x, r = .ok x → x = if s.type = some "proc".toList then .symbol s.source none true else .symbol s.source s.method false) ∧
    (∀ e, r = .error e ↔ D.ask t (if s.type = some "proc".toList then .proc s.source else .prepare s.source) = .error e) := by
  unfold bindSymbol at h
  by_cases hp : s.type = some "proc".toList
  · rw [if_pos hp] at h
    rw [if_pos hp, if_pos hp]
    cases hd : D.ask t (.proc s.source) with
    | error e => rw [hd] at h; cases h; exact ⟨rfl, fun _ h => (by cases h), fun e' => by simp⟩
    | ok v => rw [hd] at h; cases h; exact ⟨rfl, fun _ h => by cases h; rfl, fun e' => by simp⟩
  · rw [if_neg hp] at h
    rw [if_neg hp, if_neg hp]
    cases hd : D.ask t (.prepare s.source) with
    | error e => rw [hd] at h; cases h; exact ⟨rfl, fun _ h => (by cases h), fun e' => by simp⟩
    | ok v => rw [hd] at h; cases h; exact ⟨rfl, fun _ h => by cases h; rfl, fun e' => by simp⟩

theorem callReference_spec (s : Symbol) (hs : s.type = some "const".toList) (t : List Event) (r : Except Err Bound) (t' : List Event) (h : callReference D s t = (r, t')) :
    (∃ a, t' = a ++ t) ∧
    (∀ x, r = .ok x → t' = .prepare (PyStr.join ['\n'] ((D.rows t s.source).map (PyStr.join [' ']))) :: .run s.source (some "chunks".toList) :: t ∧
      x = .symbol (PyStr.join ['\n'] ((D.rows t s.source).map (PyStr.join [' ']))) s.method false) := by
  have hp : ¬ s.type = some "proc".toList := by rw [hs]; decide
  unfold callReference at h
  cases hd : D.ask t (.run s.source (some "chunks".toList)) with
  | error e => rw [hd] at h; cases h; exact ⟨⟨[_], rfl⟩, fun _ h => by cases h⟩
  | ok v =>
    rw [hd] at h
    dsimp only at h
    obtain ⟨h1, h2, -⟩ := bindSymbol_spec D _ _ r t' h
    rw [if_neg hp] at h1 h2
    exact ⟨⟨[_, _], h1⟩, fun x hx => ⟨h1, h2 x hx⟩⟩

/-- The four ways an access goes. -/
theorem getattr_cases (b b' : Binding) (n : Str) (r : Except Err Bound) (h : getattr D L b n = (r, b')) :
    (∃ x, cached b n = some x ∧ r = .ok x ∧ b' = b) ∨
    (cached b n = none ∧ getSymbol L n = none ∧ r = .error .attributeError ∧ b' = b) ∨
    (∃ s t, cached b n = none ∧ getSymbol L n = some s ∧ (∃ a, t = a ++ b.asked) ∧ ((∃ e, r = .error e) ∨ s.type = some "transient".toList ∧ ∃ x, r = .ok x ∧ Expected D s t x) ∧ b' = { b with asked := t }) ∨
    (∃ s t x, cached b n = none ∧ getSymbol L n = some s ∧ (∃ a, t = a ++ b.asked) ∧ s.type ≠ some "transient".toList ∧ r = .ok x ∧ Expected D s t x ∧ b' = { cache := PyDict.set n x b.cache, asked := t }) := by
  unfold getattr at h
  cases hc : cached b n with
  | some x => rw [hc] at h; cases h; exact .inl ⟨x, rfl, rfl, rfl⟩
  | none =>
    rw [hc] at h
    dsimp only at h
    cases hg : getSymbol L n with
    | none => rw [hg] at h; cases h; exact .inr (.inl ⟨rfl, rfl, rfl, rfl⟩)
    | some s =>
      rw [hg] at h
      dsimp only at h
      refine .inr (.inr ?_)
      by_cases hr : s.reference = true
      · rw [if_pos hr] at h
        cases hd : D.ask b.asked (.prepare s.source) with
        | error e =>
          have hb : bindReference D s b.asked = (.error e, .prepare s.source :: b.asked) := by unfold bindReference; rw [hd]
          rw [hb] at h
          cases h
          exact .inl ⟨s, _, rfl, rfl, ⟨[_], rfl⟩, .inl ⟨e, rfl⟩, rfl⟩
        | ok v =>
          have hb : bindReference D s b.asked = (.ok (.reference s), .prepare s.source :: b.asked) := by unfold bindReference; rw [hd]
          rw [hb] at h
          dsimp only at h
          by_cases hk : s.type = some "const".toList
          · rw [if_pos hk] at h
            cases hcr : callReference D s (.prepare s.source :: b.asked) with
            | mk r' t' =>
              obtain ⟨⟨a, ha⟩, hx⟩ := callReference_spec D s hk _ _ _ hcr
              rw [hcr] at h
              cases r' with
              | error e => cases h; exact .inl ⟨s, _, rfl, rfl, ⟨a ++ [.prepare s.source], by rw [ha]; simp⟩, .inl ⟨e, rfl⟩, rfl⟩
              | ok x =>
                cases h
                refine .inr ⟨s, _, x, rfl, rfl, ⟨a ++ [.prepare s.source], by rw [ha]; simp⟩, by rw [hk]; decide, rfl, ?_, rfl⟩
                unfold Expected
                rw [if_pos hr, if_pos hk]
                obtain ⟨h1, h2⟩ := hx x rfl
                exact ⟨_, [], h1, h2⟩
          · rw [if_neg hk] at h
            have hE : ∀ t, Expected D s t (.reference s) := by
              intro t
              unfold Expected
              rw [if_pos hr, if_neg hk]
            by_cases htr : s.type = some "transient".toList
            · rw [if_pos htr] at h
              cases h
              exact .inl ⟨s, _, rfl, rfl, ⟨[_], rfl⟩, .inr ⟨htr, _, rfl, hE _⟩, rfl⟩
            · rw [if_neg htr] at h
              cases h
              exact .inr ⟨s, _, _, rfl, rfl, ⟨[_], rfl⟩, htr, rfl, hE _, rfl⟩
      · rw [if_neg hr] at h
        cases hbs : bindSymbol D s b.asked with
        | mk r' t' =>
          obtain ⟨e1, e2, -⟩ := bindSymbol_spec D s _ _ _ hbs
          rw [hbs] at h
          by_cases hk : s.type = some "const".toList
          · rw [if_pos hk] at h
            cases r' with
            | error e => cases h; exact .inl ⟨s, _, rfl, rfl, ⟨[_], e1⟩, .inl ⟨e, rfl⟩, rfl⟩
            | ok x =>
              dsimp only at h
              cases hd : D.ask t' (.run s.source s.method) with
              | error e => rw [hd] at h; cases h; exact .inl ⟨s, _, rfl, rfl, ⟨[_, _], by rw [e1]; rfl⟩, .inl ⟨e, rfl⟩, rfl⟩
              | ok v =>
                rw [hd] at h
                cases h
                refine .inr ⟨s, _, _, rfl, rfl, ⟨[_, _], by rw [e1]; rfl⟩, by rw [hk]; decide, rfl, ?_, rfl⟩
                unfold Expected
                rw [if_neg hr, if_pos hk]
                exact ⟨t', [], v, rfl, hd, rfl⟩
          · rw [if_neg hk] at h
            cases r' with
            | error e => cases h; exact .inl ⟨s, _, rfl, rfl, ⟨[_], e1⟩, .inl ⟨e, rfl⟩, rfl⟩
            | ok x =>
              dsimp only at h
              have hE : ∀ t, Expected D s t x := by
                intro t
                unfold Expected
                rw [if_neg hr, if_neg hk]
                have := e2 x rfl
                by_cases hp : s.type = some "proc".toList
                · rw [if_pos hp] at this ⊢; exact this
                · rw [if_neg hp] at this ⊢; exact this
              by_cases htr : s.type = some "transient".toList
              · rw [if_pos htr] at h
                cases h
                exact .inl ⟨s, _, rfl, rfl, ⟨[_], e1⟩, .inr ⟨htr, _, rfl, hE _⟩, rfl⟩
              · rw [if_neg htr] at h
                cases h
                exact .inr ⟨s, _, _, rfl, rfl, ⟨[_], e1⟩, htr, rfl, hE _, rfl⟩

theorem expected_more (s : Symbol) (t a : List Event) (x : Bound) (h : Expected D s t x) : Expected D s (a ++ t) x := by
  unfold Expected at *
  split
  · next hr =>
    rw [if_pos hr] at h
    split
    · next hk => rw [if_pos hk] at h; obtain ⟨t0, a0, rfl, h2⟩ := h; exact ⟨t0, a ++ a0, by simp, h2⟩
    · next hk => rw [if_neg hk] at h; exact h
  · next hr =>
    rw [if_neg hr] at h
    split
    · next hk => rw [if_pos hk] at h; obtain ⟨t0, a0, v, rfl, h2⟩ := h; exact ⟨t0, a ++ a0, v, by simp, h2⟩
    · next hk => rw [if_neg hk] at h; exact h

/-! ### The invariant -/

/-- What is cached is what is expected, and no transient symbol is. -/
def Inv (b : Binding) : Prop := ∀ n x, PyDict.get n b.cache = some x → ∃ s, getSymbol L n = some s ∧ s.type ≠ some "transient".toList ∧ Expected D s b.asked x

theorem inv_getattr (b b' : Binding) (n : Str) (r : Except Err Bound) (h : getattr D L b n = (r, b')) (hi : Inv D L b) : Inv D L b' := by
  rcases getattr_cases D L b b' n r h with ⟨x, -, -, rfl⟩ | ⟨-, -, -, rfl⟩ | ⟨s, t, -, -, ⟨a, rfl⟩, -, rfl⟩ | ⟨s, t, x, -, hg, ⟨a, rfl⟩, ht, -, he, rfl⟩
  · exact hi
  · exact hi
  · intro m y hm
    obtain ⟨s', h1, h2, h3⟩ := hi m y hm
    exact ⟨s', h1, h2, expected_more D s' _ a y h3⟩
  · intro m y hm
    have hm : PyDict.get m (PyDict.set n x b.cache) = some y := hm
    rw [PyDict.get_set] at hm
    by_cases hnm : n = m
    · rw [if_pos hnm] at hm
      cases hm
      subst hnm
      exact ⟨s, hg, ht, he⟩
    · rw [if_neg hnm] at hm
      obtain ⟨s', h1, h2, h3⟩ := hi m y hm
      exact ⟨s', h1, h2, expected_more D s' _ a y h3⟩

theorem inv_accesses : ∀ (ms : List Str) (b : Binding), Inv D L b → Inv D L (accesses D L b ms)
  | [], _, h => h
  | m :: ms, b, h => inv_accesses ms _ (inv_getattr D L b _ m _ rfl h)

theorem inv_loadAll : ∀ (ms : List Str) (b b' : Binding), loadAll D L b ms = .ok b' → Inv D L b → Inv D L b'
  | [], b, b', h, hi => by cases h; exact hi
  | m :: ms, b, b', h, hi => by
    rw [loadAll] at h
    cases hg : getattr D L b m with
    | mk r b1 =>
      rw [hg] at h
      have := inv_getattr D L b b1 m r hg hi
      cases r with
      | error e => cases h
      | ok x => exact inv_loadAll ms b1 b' h this

theorem inv_reached (b : Binding) (h : Reached D L b) : Inv D L b := by
  obtain ⟨t, b0, ms, h, rfl⟩ := h
  exact inv_accesses D L ms b0 (inv_loadAll D L _ _ b0 h (fun n x h => by cases h))

theorem cached_some {b : Binding} {n : Str} {x : Bound} (h : cached b n = some x) : PyDict.get n b.cache = some x := by
  unfold cached at h
  split at h
  · cases h
  · exact h

theorem kept_getattr (b : Binding) (n m : Str) (x : Bound) (h : cached b n = some x) : cached (getattr D L b m).2 n = some x := by
  cases hg : getattr D L b m with
  | mk r b' =>
    rcases getattr_cases D L b b' m r hg with ⟨y, -, -, rfl⟩ | ⟨-, -, -, rfl⟩ | ⟨s, t, -, -, -, -, rfl⟩ | ⟨s, t, y, hm, -, -, -, -, -, rfl⟩
    · exact h
    · exact h
    · exact h
    · show cached { cache := PyDict.set m y b.cache, asked := t } n = some x
      rw [cached_set_ne b n m y t (fun e => by subst e; rw [hm] at h; cases h)]
      exact h

theorem kept_accesses (n : Str) (x : Bound) : ∀ (ms : List Str) (b : Binding), cached b n = some x → cached (accesses D L b ms) n = some x
  | [], _, h => h
  | m :: ms, b, h => kept_accesses n x ms _ (kept_getattr D L b n m x h)

theorem getattr_cached (b : Binding) (n : Str) (x : Bound) (h : cached b n = some x) : getattr D L b n = (.ok x, b) := by
  unfold getattr
  rw [h]

/-! ### The theorems -/

/-- C46: after any accesses, an attribute that is a symbol of the library is what its section says, and an attribute that is not is refused without asking the database. -/
theorem C46_bound (b b' : Binding) (hr : Reached D L b) (n : Str) (r : Except Err Bound) (h : getattr D L b n = (r, b')) :
    (∀ x, r = .ok x → ∃ s, getSymbol L n = some s ∧ Expected D s b'.asked x) ∧ (getSymbol L n = none → r = .error .attributeError ∧ b' = b) := by
  have hi := inv_reached D L b hr
  rcases getattr_cases D L b b' n r h with ⟨x, hc, rfl, rfl⟩ | ⟨-, hg, rfl, rfl⟩ | ⟨s, t, -, hg, -, hh, rfl⟩ | ⟨s, t, x, -, hg, -, -, rfl, he, rfl⟩
  · obtain ⟨s, h1, -, h3⟩ := hi n x (cached_some hc)
    exact ⟨fun y hy => by cases hy; exact ⟨s, h1, h3⟩, fun hn => by rw [h1] at hn; cases hn⟩
  · exact ⟨fun y hy => (by cases hy), fun _ => ⟨rfl, rfl⟩⟩
  · refine ⟨fun y hy => ?_, fun hn => by rw [hg] at hn; cases hn⟩
    rcases hh with ⟨e, rfl⟩ | ⟨-, x, rfl, he⟩
    · cases hy
    · cases hy; exact ⟨s, hg, he⟩
  · exact ⟨fun y hy => by cases hy; exact ⟨s, hg, he⟩, fun hn => by rw [hg] at hn; cases hn⟩

/-- C46: a symbol that is not transient is loaded once: after an access that succeeded, all further ones give the same object, and the database is asked nothing more, whatever
was accessed in between. A constant is run once, unless its value is `None` (see `C46_none`). -/
theorem C46_once (b b' : Binding) (n : Str) (x : Bound) (h : getattr D L b n = (.ok x, b')) (s : Symbol) (hs : getSymbol L n = some s) (ht : s.type ≠ some "transient".toList)
    (hv : x ≠ .value .none) (ms : List Str) : getattr D L (accesses D L b' ms) n = (.ok x, accesses D L b' ms) := by
  apply getattr_cached
  apply kept_accesses
  rcases getattr_cases D L b b' n _ h with ⟨y, hc, e, rfl⟩ | ⟨-, -, e, -⟩ | ⟨s', t, -, hg, -, hh, -⟩ | ⟨s', t, y, -, -, -, -, e, -, rfl⟩
  · cases e; exact hc
  · cases e
  · rcases hh with ⟨e, h⟩ | ⟨h', -⟩
    · cases h
    · rw [hs] at hg; cases hg; exact absurd h' ht
  · cases e; exact cached_set b n x t hv

/-- C46: an access that succeeds asks the database nothing if the symbol is there already, and otherwise exactly what is needed to load it. -/
theorem C46_questions (b b' : Binding) (n : Str) (x : Bound) (h : getattr D L b n = (.ok x, b')) (s : Symbol) (hs : getSymbol L n = some s) :
    b' = b ∨ b'.asked = questions D s b.asked ++ b.asked := by
  unfold getattr at h
  cases hc : cached b n with
  | some x => rw [hc] at h; cases h; exact .inl rfl
  | none =>
    rw [hc] at h
    dsimp only at h
    rw [hs] at h
    dsimp only at h
    refine .inr ?_
    unfold questions
    by_cases hr : s.reference = true
    · rw [if_pos hr] at h ⊢
      cases hd : D.ask b.asked (.prepare s.source) with
      | error e =>
        have hb : bindReference D s b.asked = (.error e, .prepare s.source :: b.asked) := by unfold bindReference; rw [hd]
        rw [hb] at h
        cases h
      | ok v =>
        have hb : bindReference D s b.asked = (.ok (.reference s), .prepare s.source :: b.asked) := by unfold bindReference; rw [hd]
        rw [hb] at h
        dsimp only at h
        by_cases hk : s.type = some "const".toList
        · rw [if_pos hk] at h ⊢
          cases hcr : callReference D s (.prepare s.source :: b.asked) with
          | mk r' t' =>
            have hx := (callReference_spec D s hk _ _ _ hcr).2
            rw [hcr] at h
            cases r' with
            | error e => cases h
            | ok y => cases h; exact (hx x rfl).1
        · rw [if_neg hk] at h ⊢
          by_cases htr : s.type = some "transient".toList
          · rw [if_pos htr] at h; cases h; rfl
          · rw [if_neg htr] at h; cases h; rfl
    · rw [if_neg hr] at h ⊢
      cases hbs : bindSymbol D s b.asked with
      | mk r' t' =>
        obtain ⟨e1, -, -⟩ := bindSymbol_spec D s _ _ _ hbs
        rw [hbs] at h
        by_cases hk : s.type = some "const".toList
        · rw [if_pos hk] at h ⊢
          rw [if_neg (by rw [hk]; decide)] at e1
          cases r' with
          | error e => cases h
          | ok x =>
            dsimp only at h
            cases hd : D.ask t' (.run s.source s.method) with
            | error e => rw [hd] at h; cases h
            | ok v => rw [hd] at h; cases h; rw [e1]; rfl
        · rw [if_neg hk] at h ⊢
          have e1 : t' = (if s.type = some "proc".toList then [.proc s.source] else [.prepare s.source]) ++ b.asked := by
            rw [e1]; split <;> rfl
          cases r' with
          | error e => cases h
          | ok x =>
            dsimp only at h
            by_cases htr : s.type = some "transient".toList
            · rw [if_pos htr] at h; cases h; exact e1
            · rw [if_neg htr] at h; cases h; exact e1

/-- C46: a transient symbol is prepared at each access, and never kept. -/
theorem C46_transient (b : Binding) (hr : Reached D L b) (n : Str) (s : Symbol) (hs : getSymbol L n = some s) (ht : s.type = some "transient".toList) :
    (getattr D L b n).2 = { b with asked := .prepare s.source :: b.asked } := by
  have hc : cached b n = none := by
    cases hc : cached b n with
    | none => rfl
    | some x =>
      obtain ⟨s', h1, h2, -⟩ := inv_reached D L b hr n x (cached_some hc)
      rw [hs] at h1
      cases h1
      exact absurd ht h2
  have h1 : ¬ s.type = some "const".toList := by rw [ht]; decide
  have h2 : ¬ s.type = some "proc".toList := by rw [ht]; decide
  unfold getattr
  rw [hc]
  dsimp only
  rw [hs]
  dsimp only
  by_cases href : s.reference = true
  · rw [if_pos href]
    unfold bindReference
    cases D.ask b.asked (.prepare s.source) with
    | error e => rfl
    | ok v =>
      dsimp only
      rw [if_neg h1, if_pos ht]
  · rw [if_neg href, if_neg h1]
    unfold bindSymbol
    rw [if_neg h2]
    cases D.ask b.asked (.prepare s.source) with
    | error e => rfl
    | ok v =>
      dsimp only
      rw [if_pos ht]

theorem loadAll_kept (n : Str) (s : Symbol) (hs : getSymbol L n = some s) (ht : s.type ≠ some "transient".toList) (hc : s.type ≠ some "const".toList) :
    ∀ (ms : List Str) (b b' : Binding), Inv D L b → loadAll D L b ms = .ok b' → (n ∈ ms ∨ ∃ x, cached b n = some x) → ∃ x, cached b' n = some x
  | [], b, b', _, h, hm => by
    cases h
    rcases hm with hm | hm
    · cases hm
    · exact hm
  | m :: ms, b, b', hi, h, hm => by
    rw [loadAll] at h
    cases hg : getattr D L b m with
    | mk r b1 =>
      have hi1 := inv_getattr D L b b1 m r hg hi
      rw [hg] at h
      cases r with
      | error e => cases h
      | ok x =>
        refine loadAll_kept n s hs ht hc ms b1 b' hi1 h ?_
        rcases hm with hm | ⟨y, hy⟩
        · rcases List.mem_cons.mp hm with rfl | hm
          · right
            rcases getattr_cases D L b b1 n _ hg with ⟨y, hy, e, rfl⟩ | ⟨-, -, e, -⟩ | ⟨s', t, -, hg', -, hh, -⟩ | ⟨s', t, y, -, hg', -, -, e, he, rfl⟩
            · exact ⟨y, hy⟩
            · cases e
            · rcases hh with ⟨e, h⟩ | ⟨h', -⟩
              · cases h
              · rw [hs] at hg'; cases hg'; exact absurd h' ht
            · cases e
              rw [hs] at hg'
              cases hg'
              refine ⟨x, cached_set b n x t ?_⟩
              rintro rfl
              unfold Expected at he
              split at he
              · cases he
              · split at he <;> cases he
          · exact .inl hm
        · right
          refine ⟨y, ?_⟩
          have := kept_getattr D L b n m y hy
          rw [hg] at this
          exact this

/-- C46: a symbol that is marked `preload` is there when the library is bound: no access to it asks the database. -/
theorem C46_preload (t : List Event) (b : Binding) (h : bind D L t = .ok b) (n : Str) (hn : n ∈ L.preload) (s : Symbol) (hs : getSymbol L n = some s)
    (ht : s.type ≠ some "transient".toList) (hc : s.type ≠ some "const".toList) :
    ∃ x, Expected D s b.asked x ∧ ∀ ms, getattr D L (accesses D L b ms) n = (.ok x, accesses D L b ms) := by
  have hi0 : Inv D L { asked := t } := fun n x h => by cases h
  obtain ⟨x, hx⟩ := loadAll_kept D L n s hs ht hc L.preload _ b hi0 h (.inl hn)
  obtain ⟨s', h1, -, h3⟩ := inv_loadAll D L _ _ b h hi0 n x (cached_some hx)
  rw [hs] at h1
  cases h1
  exact ⟨x, h3, fun ms => getattr_cached D L _ n x (kept_accesses D L n x ms b hx)⟩

/-- Finding: constants and procedures are not loaded when the library is bound, as the documentation says, but only what is marked `preload`. -/
theorem C46_lazy (t : List Event) (h : L.preload = []) : bind D L t = .ok { asked := t } := by
  unfold SymLib.bind
  rw [h]
  rfl

/-- Finding: a constant whose value is `None` is prepared and run again at each access. -/
theorem C46_none (hD : ∀ t e, D.ask t e = .ok .none) (b : Binding) (n : Str) (hc : cached b n = none) (s : Symbol) (hs : getSymbol L n = some s) (hr : s.reference = false)
    (ht : s.type = some "const".toList) :
    ∃ b', getattr D L b n = (.ok (.value .none), b') ∧ b'.asked = [.run s.source s.method, .prepare s.source] ++ b.asked ∧ cached b' n = none := by
  have hp : ¬ s.type = some "proc".toList := by rw [ht]; decide
  refine ⟨{ cache := PyDict.set n (.value .none) b.cache, asked := .run s.source s.method :: .prepare s.source :: b.asked }, ?_, rfl, ?_⟩
  · unfold getattr
    rw [hc]
    dsimp only
    rw [hs]
    dsimp only
    rw [if_neg (by rw [hr]; decide), if_pos ht]
    unfold bindSymbol
    rw [if_neg hp, hD]
    dsimp only
    rw [hD]
  · unfold cached
    dsimp only
    rw [PyDict.get_set, if_pos rfl]

/-! ### An example -/

/-- A database that answers everything. -/
def db : Db where
  ask t _ := .ok (.obj t.length)
  rows _ _ := [["SELECT".toList, "2".toList], ["LIMIT 1".toList]]

/-- A constant reference, a preloaded statement, a constant. -/
def lib : Library where
  preload := ["a".toList]
  symbolsd := [("a".toList, ⟨"a".toList, "SELECT 1".toList, some "first".toList, none, false⟩), ("c".toList, ⟨"c".toList, "SELECT 3".toList, none, some "const".toList, false⟩),
    ("r".toList, ⟨"r".toList, "SELECT source".toList, some "rows".toList, some "const".toList, true⟩), ("t".toList, ⟨"t".toList, "SELECT 4".toList, none, some "transient".toList, false⟩)]

def bound : Binding := { cache := [("a".toList, .symbol "SELECT 1".toList (some "first".toList) false)], asked := [.prepare "SELECT 1".toList] }

theorem bound_eq : bind db lib [] = .ok bound := by decide +kernel

example : Reached db lib (accesses db lib bound ["c".toList, "t".toList]) := ⟨[], bound, _, bound_eq, rfl⟩

example : (getattr db lib bound "c".toList).1 = .ok (.value (.obj 2)) ∧
    (getattr db lib bound "r".toList).1 = .ok (.symbol "SELECT 2\nLIMIT 1".toList (some "rows".toList) false) ∧
    (accesses db lib bound ["c".toList, "a".toList, "c".toList, "t".toList, "t".toList]).asked =
      [.prepare "SELECT 4".toList, .prepare "SELECT 4".toList, .run "SELECT 3".toList none, .prepare "SELECT 3".toList, .prepare "SELECT 1".toList] := by decide +kernel

end PG.Props.SymBind
