import Verif.Spec.Exceptions
import Verif.Proofs.ConfigFile2
/-! # C45: errors and warnings by SQL state -/
namespace PG.Props.Exceptions
open PG PG.Exceptions PG.Spec.Exceptions

/-! ### The hierarchy -/

theorem subAt_sound : ∀ (n : Nat) (a b : Cls), subAt n a b = true → Sub a b
  | 0, a, b, h => by simp only [subAt, decide_eq_true_eq] at h; subst h; exact .refl a
  | n + 1, a, b, h => by
    simp only [subAt, Bool.or_eq_true, decide_eq_true_eq, List.any_eq_true] at h
    rcases h with rfl | ⟨x, hx, h⟩
    · exact .refl a
    · exact .step hx (subAt_sound n x b h)

/-- How many classes a class stands under in line, at most. -/
def depth : Nat → Cls → Nat
  | 0, _ => 0
  | n + 1, c => (bases c).foldl (fun m b => max m (depth n b + 1)) 0

def others : List Cls := [.builtins_Exception, .builtins_MemoryError, .builtins_OverflowError, .Message]

theorem mem_all (c : Cls) : c ∈ others ++ statements := by
  rw [List.mem_append]
  cases c <;> decide

theorem depth_step {a x : Cls} (h : x ∈ bases a) : depth 8 x < depth 8 a := by
  have : ∀ a ∈ others ++ statements, ∀ x ∈ bases a, depth 8 x < depth 8 a := by decide +kernel
  exact this a (mem_all a) x h

theorem depth_le (a : Cls) : depth 8 a ≤ 8 := by
  have : ∀ a ∈ others ++ statements, depth 8 a ≤ 8 := by decide +kernel
  exact this a (mem_all a)

theorem subAt_refl (n : Nat) (a : Cls) : subAt n a a = true := by cases n <;> simp [subAt]

theorem subAt_complete {a b : Cls} (h : Sub a b) : ∀ n, depth 8 a ≤ n → subAt n a b = true := by
  induction h with
  | refl a => intro n _; exact subAt_refl n a
  | @step a x c hx _ ih =>
    intro n hn
    have := depth_step hx
    obtain ⟨m, rfl⟩ : ∃ m, n = m + 1 := ⟨n - 1, by omega⟩
    simp only [subAt, Bool.or_eq_true, List.any_eq_true]
    exact .inr ⟨x, hx, ih m (by omega)⟩

/-- The model's `issubclass` is the relation of the specification. -/
theorem isSub_iff (a b : Cls) : isSub a b = true ↔ Sub a b :=
  ⟨subAt_sound 8 a b, fun h => subAt_complete h 8 (depth_le a)⟩

/-! ### The dictionaries -/

/-- The codes of a class statement. -/
def codes (c : Cls) : List Str := (ownCode c).toList ++ (ownPgCode c).toList

/-- The classes the module binds in the end. -/
def bound : List Cls := (statements.filter (· ≠ .EscapeCharacterError)).map boundTo

theorem errors_eq : maps.errors = (bound.filter fun c => isSub c .Error).flatMap (fun c => (codes c).map fun k => (k, c)) := by
  decide +kernel

theorem warnings_eq : maps.warnings = (bound.filter fun c => isSub c .Warning).flatMap (fun c => (codes c).map fun k => (k, c)) := by
  decide +kernel

theorem errors_class : ∀ p ∈ maps.errors, isSub p.2 ((PyDict.get (p.1.take 2 ++ "000".toList) maps.errors).getD .Error) = true := by
  rw [errors_eq]; decide +kernel

theorem warnings_class : ∀ p ∈ maps.warnings, isSub p.2 ((PyDict.get (p.1.take 2 ++ "000".toList) maps.warnings).getD .Warning) = true := by
  rw [warnings_eq]; decide +kernel

theorem mem_bound {c : Cls} : c ∈ bound ↔ c ∈ statements ∧ c ≠ .EscapeCharacterError_old := by
  have h1 : Cls.EscapeCharacterError_old ∈ statements := by decide +kernel
  have h2 : Cls.EscapeCharacterError ∈ statements := by decide +kernel
  unfold bound
  simp only [List.mem_map, List.mem_filter, decide_eq_true_eq]
  constructor
  · rintro ⟨x, ⟨hx, hne⟩, rfl⟩
    unfold boundTo
    split
    · exact ⟨h2, by decide⟩
    · rename_i h; exact ⟨hx, h⟩
  · rintro ⟨hx, hne⟩
    by_cases he : c = .EscapeCharacterError
    · subst he; exact ⟨.EscapeCharacterError_old, ⟨h1, by decide⟩, rfl⟩
    · refine ⟨c, ⟨hx, he⟩, ?_⟩
      unfold boundTo
      split
      · exact absurd rfl hne
      · rfl

theorem mem_errors {p : Str × Cls} : p ∈ maps.errors ↔ p.2 ∈ statements ∧ p.2 ≠ .EscapeCharacterError_old ∧ isSub p.2 .Error = true ∧ p.1 ∈ codes p.2 := by
  rw [errors_eq]
  simp only [List.mem_flatMap, List.mem_filter, List.mem_map, mem_bound]
  constructor
  · rintro ⟨c, ⟨⟨h1, h2⟩, h3⟩, k, h4, rfl⟩; exact ⟨h1, h2, h3, h4⟩
  · rintro ⟨h1, h2, h3, h4⟩; exact ⟨p.2, ⟨⟨h1, h2⟩, h3⟩, p.1, h4, rfl⟩

theorem mem_warnings {p : Str × Cls} : p ∈ maps.warnings ↔ p.2 ∈ statements ∧ p.2 ≠ .EscapeCharacterError_old ∧ isSub p.2 .Warning = true ∧ p.1 ∈ codes p.2 := by
  rw [warnings_eq]
  simp only [List.mem_flatMap, List.mem_filter, List.mem_map, mem_bound]
  constructor
  · rintro ⟨c, ⟨⟨h1, h2⟩, h3⟩, k, h4, rfl⟩; exact ⟨h1, h2, h3, h4⟩
  · rintro ⟨h1, h2, h3, h4⟩; exact ⟨p.2, ⟨⟨h1, h2⟩, h3⟩, p.1, h4, rfl⟩

/-! #### Any classes -/

section Generic
variable {C : Type} (V : View C)

theorem place_nodup (obj : C) (k : Str) (d : List (Str × C)) (h : (d.map Prod.fst).Nodup) : ((place V obj k d).map Prod.fst).Nodup := by
  have hu : ((match V.pgCode obj with | some p => PyDict.set p obj (PyDict.set k obj d) | none => PyDict.set k obj d).map Prod.fst).Nodup := by
    cases V.pgCode obj with
    | some p => exact Proofs.ConfigFile.nodup_set _ _ _ (Proofs.ConfigFile.nodup_set _ _ _ h)
    | none => exact Proofs.ConfigFile.nodup_set _ _ _ h
  unfold place
  cases PyDict.get k d with
  | none => exact hu
  | some cur =>
    dsimp only
    split
    · exact hu
    · exact h

theorem mapOne_nodup (m : Maps C) (obj : C) (h : (m.errors.map Prod.fst).Nodup ∧ (m.warnings.map Prod.fst).Nodup) :
    ((mapOne V m obj).errors.map Prod.fst).Nodup ∧ ((mapOne V m obj).warnings.map Prod.fst).Nodup := by
  unfold mapOne
  split
  · split
    · exact h
    · split
      · exact ⟨place_nodup V _ _ _ h.1, h.2⟩
      · split
        · exact ⟨h.1, place_nodup V _ _ _ h.2⟩
        · exact h
  · exact h

theorem fold_nodup : ∀ (objs : List C) (m : Maps C), (m.errors.map Prod.fst).Nodup ∧ (m.warnings.map Prod.fst).Nodup →
    ((objs.foldl (mapOne V) m).errors.map Prod.fst).Nodup ∧ ((objs.foldl (mapOne V) m).warnings.map Prod.fst).Nodup
  | [], _, h => h
  | o :: objs, m, h => fold_nodup objs _ (mapOne_nodup V m o h)

theorem mapAll_nodup (objs : List C) : ((mapAll V objs).errors.map Prod.fst).Nodup ∧ ((mapAll V objs).warnings.map Prod.fst).Nodup :=
  fold_nodup V objs {} ⟨.nil, .nil⟩

/-- An object the errors are told by. -/
def ErrorWith (V : View C) (k : Str) (c : C) : Prop := V.ofMessage c = true ∧ V.isError c = true ∧ V.code c = some k

theorem place_get (obj : C) (k k' : Str) (d : List (Str × C)) (hp : ∀ p, V.pgCode obj = some p → p ≠ k') :
    PyDict.get k' (place V obj k d) = if k = k' then (match PyDict.get k d with | none => some obj | some cur => if V.sub cur obj = true then some obj else some cur) else PyDict.get k' d := by
  have hu : PyDict.get k' (match V.pgCode obj with | some p => PyDict.set p obj (PyDict.set k obj d) | none => PyDict.set k obj d) = if k = k' then some obj else PyDict.get k' d := by
    cases e : V.pgCode obj with
    | some p => dsimp only; rw [PyDict.get_set, if_neg (hp p e), PyDict.get_set]
    | none => dsimp only; rw [PyDict.get_set]
  unfold place
  cases e : PyDict.get k d with
  | none => exact hu
  | some cur =>
    dsimp only
    cases V.sub cur obj with
    | true => exact hu
    | false =>
      rw [if_neg (by decide)]
      split
      · rename_i h; rw [← h, e, if_neg (by decide)]
      · rfl

theorem mapOne_get (m : Maps C) (obj : C) (k : Str) (hp : ∀ p, V.pgCode obj = some p → p ≠ k) :
    (ErrorWith V k obj ∧ PyDict.get k (mapOne V m obj).errors = (match PyDict.get k m.errors with | none => some obj | some cur => if V.sub cur obj = true then some obj else some cur)) ∨
    (¬ ErrorWith V k obj ∧ PyDict.get k (mapOne V m obj).errors = PyDict.get k m.errors) := by
  unfold mapOne
  by_cases h1 : V.ofMessage obj = true
  · rw [if_pos h1]
    cases h2 : V.code obj with
    | none => right; exact ⟨(by rintro ⟨-, -, h⟩; rw [h2] at h; cases h), rfl⟩
    | some k' =>
      dsimp only
      by_cases h3 : V.isError obj = true
      · rw [if_pos h3]
        dsimp only
        rw [place_get V obj k' k _ hp]
        by_cases hk : k' = k
        · subst hk; left; exact ⟨⟨h1, h3, h2⟩, by rw [if_pos rfl]⟩
        · right; exact ⟨by rintro ⟨-, -, h⟩; rw [h2] at h; injection h with h; exact hk h, by rw [if_neg hk]⟩
      · rw [if_neg h3]
        right
        refine ⟨by rintro ⟨-, h, -⟩; exact h3 h, ?_⟩
        split <;> rfl
  · rw [if_neg h1]
    right; exact ⟨by rintro ⟨h, -, -⟩; exact h1 h, rfl⟩

theorem fold_get (k : Str) (g : C) (anti : ∀ c, V.sub g c = true → V.sub c g = true → c = g) : ∀ (objs : List C) (m : Maps C),
    (∀ c ∈ objs, ErrorWith V k c → V.sub c g = true) → (∀ c ∈ objs, ∀ p, V.pgCode c = some p → p ≠ k) →
    (∀ c, PyDict.get k m.errors = some c → V.sub c g = true) → (ErrorWith V k g ∧ g ∈ objs ∨ PyDict.get k m.errors = some g) →
    PyDict.get k (objs.foldl (mapOne V) m).errors = some g
  | [], m, _, _, _, h => by
    rcases h with ⟨-, h⟩ | h
    · cases h
    · exact h
  | o :: objs, m, hs, hp, hc, h => by
    rw [List.foldl_cons]
    have ho := mapOne_get V m o k (hp o (by simp))
    refine fold_get k g anti objs _ (fun c hc => hs c (by simp [hc])) (fun c hc => hp c (by simp [hc])) ?_ ?_
    · intro c hg
      rcases ho with ⟨h1, h2⟩ | ⟨h1, h2⟩
      · rw [h2] at hg
        cases e : PyDict.get k m.errors with
        | none => rw [e] at hg; injection hg with hg; subst hg; exact hs _ (by simp) h1
        | some cur =>
          rw [e] at hg
          dsimp only at hg
          split at hg
          · injection hg with hg; subst hg; exact hs _ (by simp) h1
          · injection hg with hg; subst hg; exact hc _ e
      · rw [h2] at hg; exact hc c hg
    · by_cases hog : o = g
      · subst hog
        rcases h with ⟨h, -⟩ | h
        · rcases ho with ⟨h1, h2⟩ | ⟨h1, h2⟩
          · right
            rw [h2]
            cases e : PyDict.get k m.errors with
            | none => rfl
            | some cur => dsimp only; rw [if_pos (hc _ e)]
          · exact absurd h h1
        · right
          rcases ho with ⟨h1, h2⟩ | ⟨h1, h2⟩
          · rw [h2, h]; dsimp only; split <;> rfl
          · rw [h2, h]
      · rcases h with ⟨h, hm⟩ | h
        · left; exact ⟨h, by rcases List.mem_cons.1 hm with h' | h'; exact absurd h'.symm hog; exact h'⟩
        · right
          rcases ho with ⟨h1, h2⟩ | ⟨h1, h2⟩
          · rw [h2, h]
            dsimp only
            split
            · rename_i hsub; exact absurd (anti o hsub (hs o (by simp) h1)) hog
            · rfl
          · rw [h2, h]

/-- C45: of the error classes with the same code, the most general one is found by it, in whatever order the classes are mapped. -/
theorem C45_most_general (objs : List C) (k : Str) (g : C) (hg : g ∈ objs ∧ ErrorWith V k g) (hs : ∀ c ∈ objs, ErrorWith V k c → V.sub c g = true)
    (anti : ∀ c, V.sub g c = true → V.sub c g = true → c = g) (hp : ∀ c ∈ objs, ∀ p, V.pgCode c = some p → p ≠ k) (d : C) :
    codeLookup d (mapAll V objs).errors k = g := by
  have : PyDict.get k (mapAll V objs).errors = some g := fold_get V k g anti objs {} hs hp (fun c h => by cases h) (.inl ⟨hg.2, hg.1⟩)
  unfold codeLookup; rw [this]

end Generic

/-! #### The module's classes -/

theorem errors_sound : ∀ p ∈ maps.errors, p.2 ∈ statements ∧ (ownCode p.2 = some p.1 ∨ ownPgCode p.2 = some p.1) ∧ isSub p.2 .Error = true ∧ isSub p.2 .Warning = false := by
  intro p hp
  obtain ⟨h1, -, h3, h4⟩ := mem_errors.1 hp
  have : ∀ c ∈ statements, isSub c .Error = true → isSub c .Warning = false := by decide +kernel
  refine ⟨h1, ?_, h3, this _ h1 h3⟩
  unfold codes at h4
  simpa only [List.mem_append, Option.mem_toList] using h4

theorem errors_complete : ∀ c ∈ statements, isSub c .Warning = false → c ≠ .EscapeCharacterError_old → isSub c .PLEError = false →
    ∀ k ∈ codes c, PyDict.get k maps.errors = some c := by
  intro c hc h1 h2 h3 k hk
  have : ∀ c ∈ statements, isSub c .Warning = false → isSub c .PLEError = false → codes c ≠ [] → isSub c .Error = true := by decide +kernel
  exact PyDict.get_of_mem (mapAll_nodup view _).1 (mem_errors.2 ⟨hc, h2, this c hc h1 h3 (List.ne_nil_of_mem hk), hk⟩)

theorem warnings_sound : ∀ p ∈ maps.warnings, p.2 ∈ statements ∧ (ownCode p.2 = some p.1 ∨ ownPgCode p.2 = some p.1) ∧ isSub p.2 .Warning = true := by
  intro p hp
  obtain ⟨h1, -, h3, h4⟩ := mem_warnings.1 hp
  refine ⟨h1, ?_, h3⟩
  unfold codes at h4
  simpa only [List.mem_append, Option.mem_toList] using h4

theorem warnings_complete : ∀ c ∈ statements, isSub c .Warning = true → ∀ k ∈ codes c, PyDict.get k maps.warnings = some c := by
  intro c hc h1 k hk
  have hne : c ≠ .EscapeCharacterError_old := by rintro rfl; revert h1; decide +kernel
  exact PyDict.get_of_mem (mapAll_nodup view _).2 (mem_warnings.2 ⟨hc, hne, h1, hk⟩)

theorem ple_codes : ∀ c ∈ statements, isSub c .PLEError = true → ∀ k ∈ codes c, k.take 2 = "54".toList := by
  decide +kernel

theorem not54 : ∀ p ∈ maps.errors, p.1.take 2 ≠ "54".toList := by rw [errors_eq]; decide +kernel

theorem declares_iff (c : Cls) (k : Str) : Declares c k ↔ c ∈ statements ∧ k ∈ codes c := by
  unfold Declares codes
  simp only [List.mem_append, Option.mem_toList]

attribute [local irreducible] maps statements isSub

theorem get_declared {c : Cls} {k : Str} (h : Declares c k) (hw : IsError c) (h1 : k ≠ "22019".toList) (h2 : k.take 2 ≠ "54".toList) : PyDict.get k maps.errors = some c := by
  obtain ⟨hm, h⟩ := (declares_iff c k).1 h
  have hw : isSub c .Warning = false := by
    cases e : isSub c .Warning
    · rfl
    · exact absurd ((isSub_iff _ _).1 e) hw
  have hne : c ≠ .EscapeCharacterError_old := by
    rintro rfl
    have : codes .EscapeCharacterError_old = ["22019".toList] := rfl
    rw [this, List.mem_singleton] at h; exact h1 h
  have hp : isSub c .PLEError = false := by
    cases e : isSub c .PLEError
    · rfl
    · exact absurd (ple_codes c hm e k h) h2
  exact errors_complete c hm hw hne hp k h

theorem declared_of_get {c : Cls} {k : Str} (h : PyDict.get k maps.errors = some c) : Declares c k ∧ IsError c ∧ Sub c .Error := by
  obtain ⟨h1, h2, h3, h4⟩ := errors_sound _ (PyDict.get_mem h)
  refine ⟨⟨h1, h2⟩, ?_, (isSub_iff _ _).1 h3⟩
  intro hs
  rw [(isSub_iff _ _).2 hs] at h4; cases h4

theorem classCode_ne (code : Str) : classCode code ≠ "22019".toList := by
  intro h
  have h' := congrArg List.reverse h
  unfold classCode at h'
  rw [List.reverse_append] at h'
  have e : ("000".toList).reverse = ['0', '0', '0'] := by decide
  have e2 : ("22019".toList).reverse = ['9', '1', '0', '2', '2'] := by decide
  rw [e, e2] at h'
  injection h' with h' _
  exact absurd h' (by decide)

theorem take_classCode {code : Str} (h : (classCode code).take 2 = "54".toList) : code.take 2 = "54".toList := by
  unfold classCode at h
  match code with
  | [] => simp at h
  | [a] => simp at h
  | a :: b :: r => simpa using h

theorem lookup_some {C : Type} {d g : C} {m : List (Str × C)} {k : Str} (h : PyDict.get k m = some g) : codeLookup d m k = g := by
  unfold codeLookup; rw [h]

theorem lookup_none {C : Type} {d : C} {m : List (Str × C)} {k : Str} (h : PyDict.get k m = none) : codeLookup d m k = (PyDict.get (classCode k) m).getD d := by
  unfold codeLookup; rw [h]; rfl

/-- C45: an SQL state is raised as the class that declares it, else as the one that declares the state's class, else as `Error`;
this is so for all texts, but for the state 22019 and those of class 54. -/
theorem C45_error_partial (code : Str) (h1 : code ≠ "22019".toList) (h2 : code.take 2 ≠ "54".toList) (c : Cls) :
    Appropriate IsError .Error code c ↔ c = errorLookup code := by
  have hc2 : (classCode code).take 2 ≠ "54".toList := fun h => h2 (take_classCode h)
  unfold errorLookup
  cases e : PyDict.get code maps.errors with
  | some d =>
    rw [lookup_some e]
    obtain ⟨g1, g2, -⟩ := declared_of_get e
    constructor
    · intro h
      cases h with
      | exact hc hp => have := get_declared hc hp h1 h2; rw [e] at this; injection this with this; exact this.symm
      | general hn _ _ => exact absurd g1 (hn d g2)
      | base hn _ => exact absurd g1 (hn d g2)
    · rintro rfl; exact .exact g1 g2
  | none =>
    rw [lookup_none e]
    have hn : ∀ c, IsError c → ¬ Declares c code := by
      intro c hc hd
      have := get_declared hd hc h1 h2
      rw [e] at this; cases this
    cases e2 : PyDict.get (classCode code) maps.errors with
    | some d =>
      obtain ⟨g1, g2, -⟩ := declared_of_get e2
      show _ ↔ c = d
      constructor
      · intro h
        cases h with
        | exact hc hp => exact absurd hc (hn _ hp)
        | general _ hc hp => have := get_declared hc hp (classCode_ne code) hc2; rw [e2] at this; injection this with this; exact this.symm
        | base _ hn' => exact absurd g1 (hn' d g2)
      · rintro rfl; exact .general hn g1 g2
    | none =>
      have hn' : ∀ c, IsError c → ¬ Declares c (classCode code) := by
        intro c hc hd
        have := get_declared hd hc (classCode_ne code) hc2
        rw [e2] at this; cases this
      show _ ↔ c = .Error
      constructor
      · intro h
        cases h with
        | exact hc hp => exact absurd hc (hn _ hp)
        | general _ hc hp => exact absurd hc (hn' _ hp)
        | base _ _ => rfl
      · rintro rfl; exact .base hn hn'

theorem classCode_twice {code : Str} (h : 2 ≤ code.length) : classCode (classCode code) = classCode code := by
  unfold classCode
  match code, h with
  | a :: b :: r, _ => simp

theorem lookup_class {C : Type} {d : C} {m : List (Str × C)} {k : Str} (h : 2 ≤ k.length) : codeLookup d m (classCode k) = (PyDict.get (classCode k) m).getD d := by
  cases e : PyDict.get (classCode k) m with
  | some g => rw [lookup_some e]; rfl
  | none => rw [lookup_none e, classCode_twice h, e]

/-- C45: whatever the state, what is raised is an `Error`. -/
theorem C45_is_error (code : Str) : Sub (errorLookup code) .Error := by
  unfold errorLookup
  cases e : PyDict.get code maps.errors with
  | some d => rw [lookup_some e]; exact (declared_of_get e).2.2
  | none =>
    rw [lookup_none e]
    cases e2 : PyDict.get (classCode code) maps.errors with
    | some d => exact (declared_of_get e2).2.2
    | none => exact .refl _

/-- C45: a handler for the class of a state catches all the states of the class, known or not. -/
theorem C45_caught (code : Str) (h : 2 ≤ code.length) : Sub (errorLookup code) (errorLookup (classCode code)) := by
  unfold errorLookup
  rw [lookup_class h]
  cases e : PyDict.get code maps.errors with
  | some d => rw [lookup_some e]; exact (isSub_iff _ _).1 (errors_class _ (PyDict.get_mem e))
  | none => rw [lookup_none e]; exact .refl _

/-- C45, a finding: no state of class 54 (program limit exceeded) is raised as `PLEError` or one of its kinds, which declare the states;
these classes are no `Error`s. -/
theorem C45_program_limit (code : Str) (h : code.take 2 = "54".toList) : errorLookup code = .Error ∧ Declares .ComplexityOverflowError "54001".toList ∧
    Sub .ComplexityOverflowError .PLEError ∧ ¬ Sub .PLEError .Error := by
  have hn : ∀ k : Str, k.take 2 = "54".toList → PyDict.get k maps.errors = none := by
    intro k hk
    rw [PyDict.get_none]
    intro e he h'
    exact not54 e he (by rw [h', hk])
  refine ⟨?_, ?_, ?_, ?_⟩
  · unfold errorLookup
    rw [lookup_none (hn code h), hn (classCode code)]
    · rfl
    · unfold classCode
      rw [h]; rfl
  · rw [declares_iff]
    exact ⟨by have := mem_all .ComplexityOverflowError; rw [List.mem_append] at this; exact this.resolve_left (by decide), by decide⟩
  · exact .step (b := .PLEError) (by decide) (.refl _)
  · intro hs
    have := (isSub_iff _ _).2 hs
    have h2 : isSub .PLEError .Error = false := by decide +kernel
    rw [this] at h2; cases h2

/-- C45, a finding: the state 22019 (invalid escape character) is raised as `DataError`, for the name of the class that declares it is bound again to another. -/
theorem C45_escape_character : errorLookup "22019".toList = .DataError ∧ ownCode .EscapeCharacterError_old = some "22019".toList ∧ errorLookup "2200C".toList = .EscapeCharacterError := by
  unfold errorLookup; rw [errors_eq]; decide +kernel

/-- The states PostgreSQL documents are raised as the classes named after their conditions. -/
theorem C45_standard : ∀ e ∈ standard, errorLookup e.1.toList = e.2.2 := by
  unfold errorLookup; rw [errors_eq]; decide +kernel

/-! ### Warnings -/

theorem get_declaredW {c : Cls} {k : Str} (h : Declares c k) (hw : IsWarning c) : PyDict.get k maps.warnings = some c := by
  obtain ⟨hm, h⟩ := (declares_iff c k).1 h
  exact warnings_complete c hm ((isSub_iff _ _).2 hw) k h

theorem declared_of_getW {c : Cls} {k : Str} (h : PyDict.get k maps.warnings = some c) : Declares c k ∧ IsWarning c := by
  obtain ⟨h1, h2, h3⟩ := warnings_sound _ (PyDict.get_mem h)
  exact ⟨⟨h1, h2⟩, (isSub_iff _ _).1 h3⟩

/-- C45: a warning's state is emitted as the class that declares it, else as the one of the state's class, else as `Warning`. -/
theorem C45_warning (code : Str) (c : Cls) : Appropriate IsWarning .Warning code c ↔ c = warningLookup code := by
  unfold warningLookup
  cases e : PyDict.get code maps.warnings with
  | some d =>
    rw [lookup_some e]
    obtain ⟨g1, g2⟩ := declared_of_getW e
    constructor
    · intro h
      cases h with
      | exact hc hp => have := get_declaredW hc hp; rw [e] at this; injection this with this; exact this.symm
      | general hn _ _ => exact absurd g1 (hn d g2)
      | base hn _ => exact absurd g1 (hn d g2)
    · rintro rfl; exact .exact g1 g2
  | none =>
    rw [lookup_none e]
    have hn : ∀ c, IsWarning c → ¬ Declares c code := by
      intro c hc hd
      have := get_declaredW hd hc
      rw [e] at this; cases this
    cases e2 : PyDict.get (classCode code) maps.warnings with
    | some d =>
      obtain ⟨g1, g2⟩ := declared_of_getW e2
      show _ ↔ c = d
      constructor
      · intro h
        cases h with
        | exact hc hp => exact absurd hc (hn _ hp)
        | general _ hc hp => have := get_declaredW hc hp; rw [e2] at this; injection this with this; exact this.symm
        | base _ hn' => exact absurd g1 (hn' d g2)
      · rintro rfl; exact .general hn g1 g2
    | none =>
      have hn' : ∀ c, IsWarning c → ¬ Declares c (classCode code) := by
        intro c hc hd
        have := get_declaredW hd hc
        rw [e2] at this; cases this
      show _ ↔ c = .Warning
      constructor
      · intro h
        cases h with
        | exact hc hp => exact absurd hc (hn _ hp)
        | general _ hc hp => exact absurd hc (hn' _ hp)
        | base _ _ => rfl
      · rintro rfl; exact .base hn hn'

/-- C45: a handler for a class of warnings catches all its states. -/
theorem C45_warning_caught (code : Str) (h : 2 ≤ code.length) : Sub (warningLookup code) .Warning ∧ Sub (warningLookup code) (warningLookup (classCode code)) := by
  unfold warningLookup
  constructor
  · cases e : PyDict.get code maps.warnings with
    | some d => rw [lookup_some e]; exact (declared_of_getW e).2
    | none =>
      rw [lookup_none e]
      cases e2 : PyDict.get (classCode code) maps.warnings with
      | some d => exact (declared_of_getW e2).2
      | none => exact .refl _
  · rw [lookup_class h]
    cases e : PyDict.get code maps.warnings with
    | some d => rw [lookup_some e]; exact (isSub_iff _ _).1 (warnings_class _ (PyDict.get_mem e))
    | none => rw [lookup_none e]; exact .refl _

/-! ### Examples -/

/-- A state that no class declares, of a class that is known: `22032` is caught as `DataError`; one of no known class is an `Error`. -/
example : errorLookup "22032".toList = .DataError ∧ errorLookup "42P01".toList = .UndefinedTableError ∧ errorLookup "ZZ123".toList = .Error ∧ errorLookup "22020".toList = .LimitValueError := by
  unfold errorLookup; rw [errors_eq]; decide +kernel
example : Sub .UndefinedTableError .SEARVError := .step (b := .UndefinedError) (by decide) (.step (b := .SEARVError) (by decide) (.refl _))
example : warningLookup "01P01".toList = .DeprecationWarning ∧ warningLookup "01888".toList = .Warning ∧ warningLookup "02999".toList = .NoDataWarning := by
  unfold warningLookup; rw [warnings_eq]; decide +kernel

end PG.Props.Exceptions
