import Verif.Model.Category
/-!
# C90: categories bind libraries
-/
namespace PG.Category
open PG

/-! ## Specification -/

/-- The arguments of the category ask for the library `l` as attribute `n`. -/
def Wanted (c : Cat) (n : Str) (l : Lib) : Prop := (n, l) ∈ c.named ∨ (l ∈ c.direct ∧ n = l.name)

/-- An order in which the libraries may be gone through: each once. -/
def Order (c : Cat) (order : List Lib) : Prop := order.Nodup ∧ ∀ l, l ∈ order ↔ l ∈ c.direct ∨ ∃ n, (n, l) ∈ c.named

/-- Keyword arguments have different names, and a positional library that is given twice is one library. -/
def Given (c : Cat) : Prop := (c.named.map Prod.fst).Nodup

/-! ## Proofs -/

/-- What binding `(n, l)` pairs one after the other does. -/
def setAll : Attrs → List (Str × Lib) → Attrs × Option Exc
  | a, [] => (a, none)
  | a, (n, l) :: r => if (a n).isSome then (a, some .nameError) else setAll (fun m => if m = n then some (.binding l) else a m) r

theorem setAll_append (r s : List (Str × Lib)) : ∀ a, setAll a (r ++ s) = (match setAll a r with | (a, some e) => (a, some e) | (a, none) => setAll a s) := by
  induction r with
  | nil => intro a; rfl
  | cons p r ih =>
    intro a
    obtain ⟨n, l⟩ := p
    show (if (a n).isSome then (a, some Exc.nameError) else setAll _ (r ++ s)) = _
    rw [show setAll a ((n, l) :: r) = if (a n).isSome then (a, some Exc.nameError) else setAll (fun m => if m = n then some (.binding l) else a m) r from rfl]
    split
    · rfl
    · exact ih _

theorem setNames_all (l : Lib) : ∀ (ns : List Str) (a : Attrs), setNames l a ns = setAll a (ns.map fun n => (n, l))
  | [], _ => rfl
  | n :: ns, a => by
    rw [List.map_cons]
    unfold setNames setAll
    split
    · rfl
    · exact setNames_all l ns _

/-- All the pairs, in order. -/
def pairs (c : Cat) (order : List Lib) : List (Str × Lib) := order.flatMap fun l => (c.names l).map fun n => (n, l)

theorem call_all (c : Cat) : ∀ (order : List Lib) (a : Attrs), call c a order = setAll a (pairs c order)
  | [], _ => rfl
  | l :: ls, a => by
    unfold call
    show _ = setAll a ((c.names l).map _ ++ pairs c ls)
    rw [setAll_append, setNames_all]
    split
    · rename_i h; rw [h]
    · rename_i h; rw [h]; exact call_all c ls _

theorem setAll_keeps : ∀ (r : List (Str × Lib)) (a : Attrs) (n : Str), (a n).isSome → (setAll a r).1 n = a n
  | [], _, _, _ => rfl
  | (m, l) :: r, a, n, h => by
    unfold setAll
    split
    · rfl
    · rename_i hm
      have hne : n ≠ m := fun e => hm (e ▸ h)
      rw [setAll_keeps r _ n (by rw [if_neg hne]; exact h), if_neg hne]

theorem setAll_others : ∀ (r : List (Str × Lib)) (a : Attrs) (n : Str), (∀ l, (n, l) ∉ r) → (setAll a r).1 n = a n
  | [], _, _, _ => rfl
  | (m, l) :: r, a, n, h => by
    unfold setAll
    split
    · rfl
    · have hne : n ≠ m := fun e => h l (e ▸ List.mem_cons_self)
      rw [setAll_others r _ n (fun k hk => h k (List.mem_cons_of_mem _ hk)), if_neg hne]

theorem setAll_sets : ∀ (r : List (Str × Lib)) (a : Attrs) (n : Str) (l : Lib), (setAll a r).2 = none → (n, l) ∈ r → (setAll a r).1 n = some (.binding l)
  | [], _, _, _, _, h => by cases h
  | (m, k) :: r, a, n, l, h0, h => by
    unfold setAll at h0 ⊢
    split at h0
    · cases h0
    · rename_i hm
      rw [if_neg hm]
      rcases List.mem_cons.mp h with e | h
      · obtain ⟨rfl, rfl⟩ := Prod.mk.injEq .. ▸ e
        rw [setAll_keeps r _ n (by simp), if_pos rfl]
      · exact setAll_sets r _ n l h0 h

theorem setAll_ok : ∀ (r : List (Str × Lib)) (a : Attrs), (setAll a r).2 = none ↔ (r.map Prod.fst).Nodup ∧ ∀ n l, (n, l) ∈ r → a n = none
  | [], a => by simp [setAll]
  | (m, k) :: r, a => by
    unfold setAll
    rw [List.map_cons, List.nodup_cons]
    by_cases hm : (a m).isSome
    · rw [if_pos hm]
      constructor
      · intro h; cases h
      · rintro ⟨_, h⟩
        rw [h m k List.mem_cons_self] at hm
        cases hm
    · rw [if_neg hm, setAll_ok r]
      have hm' : a m = none := by simpa using hm
      constructor
      · rintro ⟨h1, h2⟩
        have hni : m ∉ r.map Prod.fst := by
          intro hin
          obtain ⟨⟨m', l⟩, hp, rfl⟩ := List.mem_map.mp hin
          have := h2 _ _ hp
          simp at this
        refine ⟨⟨hni, h1⟩, fun n l hin => ?_⟩
        rcases List.mem_cons.mp hin with e | hin
        · cases e; exact hm'
        · have := h2 n l hin
          rw [if_neg (fun (e : n = m) => hni (e ▸ List.mem_map.mpr ⟨_, hin, rfl⟩))] at this
          exact this
      · rintro ⟨⟨h1, h2⟩, h3⟩
        refine ⟨h2, fun n l hin => ?_⟩
        rw [if_neg (fun (e : n = m) => h1 (e ▸ List.mem_map.mpr ⟨_, hin, rfl⟩))]
        exact h3 n l (List.mem_cons_of_mem _ hin)

theorem mem_names (c : Cat) (l : Lib) (n : Str) : n ∈ c.names l ↔ Wanted c n l := by
  unfold Cat.names Cat.aliases Wanted
  rw [List.mem_append, List.mem_filterMap]
  refine or_congr ?_ ?_
  · constructor
    · rintro ⟨⟨n', l'⟩, hp, h⟩
      dsimp only at h
      split at h
      · rename_i e; subst e; cases h; exact hp
      · cases h
    · intro h
      exact ⟨(n, l), h, by simp⟩
  · split
    · rename_i h; simp [h]
    · rename_i h; simp [h]

theorem mem_pairs {c : Cat} {order : List Lib} (ho : Order c order) (n : Str) (l : Lib) : (n, l) ∈ pairs c order ↔ Wanted c n l := by
  unfold pairs
  rw [List.mem_flatMap]
  constructor
  · rintro ⟨k, _, h⟩
    obtain ⟨m, hm, e⟩ := List.mem_map.mp h
    cases e
    exact (mem_names c l n).mp hm
  · intro h
    refine ⟨l, (ho.2 l).mpr ?_, List.mem_map.mpr ⟨n, (mem_names c l n).mpr h, rfl⟩⟩
    rcases h with h | h
    · exact Or.inr ⟨n, h⟩
    · exact Or.inl h.1

/-- **C90.** If binding the category succeeds, then every library is at every attribute that was asked for it, and all other attributes are as they were. -/
theorem C90_bound (c : Cat) (order : List Lib) (ho : Order c order) (a : Attrs) (h : (call c a order).2 = none) :
    (∀ n l, Wanted c n l → (call c a order).1 n = some (.binding l)) ∧ ∀ n, (∀ l, ¬ Wanted c n l) → (call c a order).1 n = a n := by
  rw [call_all] at h ⊢
  exact ⟨fun n l hw => setAll_sets _ a n l h ((mem_pairs ho n l).mpr hw), fun n hn => setAll_others _ a n fun l hl => hn l ((mem_pairs ho n l).mp hl)⟩

/-- **C90 (nothing is replaced).** Whether it succeeds or fails, no attribute that the database had is replaced, and nothing is set that was not asked for. -/
theorem C90_kept (c : Cat) (order : List Lib) (ho : Order c order) (a : Attrs) :
    (∀ n, (a n).isSome → (call c a order).1 n = a n) ∧ ∀ n, (∀ l, ¬ Wanted c n l) → (call c a order).1 n = a n := by
  rw [call_all]
  exact ⟨fun n hn => setAll_keeps _ a n hn, fun n hn => setAll_others _ a n fun l hl => hn l ((mem_pairs ho n l).mp hl)⟩

theorem names_nodup {c : Cat} (hg : Given c) (l : Lib) (hd : l ∈ c.direct → ∀ k, (l.name, k) ∉ c.named) : (c.names l).Nodup := by
  unfold Cat.names
  have ha : (c.aliases l).Nodup := by
    unfold Cat.aliases
    have : ∀ r : List (Str × Lib), (r.map Prod.fst).Nodup → (r.filterMap fun p => if p.2 = l then some p.1 else none).Nodup := by
      intro r
      induction r with
      | nil => intro _; exact List.nodup_nil
      | cons p r ih =>
        intro h
        rw [List.map_cons, List.nodup_cons] at h
        rw [List.filterMap_cons]
        split
        · exact ih h.2
        · rename_i hp
          split at hp
          · cases hp
            rw [List.nodup_cons]
            refine ⟨fun hin => h.1 ?_, ih h.2⟩
            obtain ⟨q, hq, e⟩ := List.mem_filterMap.mp hin
            split at e
            · have e' := Option.some.inj e
              exact List.mem_map.mpr ⟨q, hq, e'⟩
            · cases e
          · cases hp
    exact this _ hg
  split
  · rename_i h
    rw [List.nodup_append]
    refine ⟨ha, by simp, ?_⟩
    intro x hx y hy e
    rw [List.mem_singleton] at hy
    rw [hy] at e
    rw [e] at hx
    unfold Cat.aliases at hx
    obtain ⟨q, hq, e2⟩ := List.mem_filterMap.mp hx
    split at e2
    · have e3 := Option.some.inj e2
      refine hd h q.2 ?_
      rw [← e3]
      exact (show (q.1, q.2) ∈ c.named from hq)
    · cases e2
  · rw [List.append_nil]; exact ha

/-- **C90 (when).** Binding succeeds exactly if no attribute that is asked for exists, no two libraries are asked for under the same name, and no library is asked for twice under its own name, by position and by keyword; it does not depend on the order. -/
theorem C90_when (c : Cat) (hg : Given c) (order : List Lib) (ho : Order c order) (a : Attrs) :
    (call c a order).2 = none ↔ (∀ n l, Wanted c n l → a n = none) ∧ (∀ n l k, Wanted c n l → Wanted c n k → l = k) ∧ ∀ l ∈ c.direct, (l.name, l) ∉ c.named := by
  rw [call_all, setAll_ok]
  have hp := mem_pairs ho
  constructor
  · rintro ⟨h1, h2⟩
    refine ⟨fun n l hw => h2 n l ((hp n l).mpr hw), fun n l k hl hk => ?_, ?_⟩
    · have := h1
      have key : ∀ r : List (Str × Lib), (r.map Prod.fst).Nodup → (n, l) ∈ r → (n, k) ∈ r → l = k := by
        intro r
        induction r with
        | nil => intro _ h; cases h
        | cons p r ih =>
          intro hn h3 h4
          rw [List.map_cons, List.nodup_cons] at hn
          rcases List.mem_cons.mp h3 with e | h3
          · rcases List.mem_cons.mp h4 with e' | h4
            · rw [← e] at e'; cases e'; rfl
            · rw [← e] at hn; exact absurd (List.mem_map.mpr ⟨_, h4, rfl⟩) hn.1
          · rcases List.mem_cons.mp h4 with e' | h4
            · rw [← e'] at hn; exact absurd (List.mem_map.mpr ⟨_, h3, rfl⟩) hn.1
            · exact ih hn.2 h3 h4
      exact key _ h1 ((hp n l).mpr hl) ((hp n k).mpr hk)
    · intro l hl hin
      have hmem : l ∈ order := (ho.2 l).mpr (Or.inl hl)
      have hsub : List.Sublist ((c.names l).map fun n => (n, l)) (pairs c order) := by
        unfold pairs
        obtain ⟨s, t, e⟩ := List.append_of_mem hmem
        rw [e, List.flatMap_append, List.flatMap_cons]
        exact (List.sublist_append_left _ _).trans (List.sublist_append_right _ _)
      have hn : (c.names l).Nodup := by
        have := (hsub.map Prod.fst).nodup h1
        rw [List.map_map] at this
        simpa [Function.comp_def] using this
      unfold Cat.names at hn
      rw [if_pos hl, List.nodup_append] at hn
      exact hn.2.2 l.name (List.mem_filterMap.mpr ⟨(l.name, l), hin, by simp⟩) l.name (by simp) rfl
  · rintro ⟨h1, h2, h3⟩
    refine ⟨?_, fun n l hin => h1 n l ((hp n l).mp hin)⟩
    have hnn : ∀ l, (c.names l).Nodup := fun l => names_nodup hg l (fun hl k hin => by
      have : l = k := h2 l.name l k (Or.inr ⟨hl, rfl⟩) (Or.inl hin)
      exact h3 l hl (this ▸ hin))
    have key : ∀ r : List Lib, r.Nodup → ((pairs c r).map Prod.fst).Nodup := by
      intro r
      induction r with
      | nil => intro _; exact List.nodup_nil
      | cons l r ih =>
        intro hr
        rw [List.nodup_cons] at hr
        show (((c.names l).map _ ++ pairs c r).map _).Nodup
        rw [List.map_append, List.nodup_append]
        refine ⟨?_, ih hr.2, ?_⟩
        · rw [List.map_map]
          simpa [Function.comp_def] using hnn l
        · intro x hx y hy e
          subst e
          obtain ⟨⟨x1, x2⟩, hx1, rfl⟩ := List.mem_map.mp hx
          obtain ⟨m, hm, e⟩ := List.mem_map.mp hx1
          cases e
          obtain ⟨⟨y1, y2⟩, hy1, e⟩ := List.mem_map.mp hy
          dsimp only at e
          subst e
          obtain ⟨k, hk, hk1⟩ := List.mem_flatMap.mp hy1
          obtain ⟨m', hm', e⟩ := List.mem_map.mp hk1
          cases e
          have := h2 _ l y2 ((mem_names c l _).mp hm) ((mem_names c y2 _).mp hm')
          exact hr.1 (this ▸ hk)
    exact key order ho.1

/-- **C90 (finding).** Where it does not succeed the exception is a NameError, not the AttributeError that the code means to raise. -/
theorem C90_error (c : Cat) (order : List Lib) (a : Attrs) (h : (call c a order).2 ≠ none) : (call c a order).2 = some .nameError := by
  rw [call_all] at h ⊢
  have key : ∀ (r : List (Str × Lib)) (a : Attrs), (setAll a r).2 = none ∨ (setAll a r).2 = some .nameError := by
    intro r
    induction r with
    | nil => intro a; exact Or.inl rfl
    | cons p r ih =>
      intro a
      obtain ⟨n, l⟩ := p
      unfold setAll
      split
      · exact Or.inr rfl
      · exact ih _
  exact (key _ a).resolve_left h

/-- A category of two libraries, one of them with its name and an alias. -/
def exLib : Lib := ⟨1, "sys".toList⟩
def exLib2 : Lib := ⟨2, "auth".toList⟩
def exC : Cat := ⟨[exLib, exLib2], [("s".toList, exLib)]⟩
def exDb : Attrs := fun n => if n = "pq".toList then some (.other 1) else none

example : Given exC ∧ Order exC [exLib2, exLib] ∧ (call exC exDb [exLib2, exLib]).2 = none ∧ (call exC exDb [exLib2, exLib]).1 "s".toList = some (.binding exLib) ∧
    (call ⟨[exLib], [("sys".toList, exLib)]⟩ exDb [exLib]).2 = some .nameError ∧ (call ⟨[], [("pq".toList, exLib)]⟩ exDb [exLib]).2 = some .nameError := by
  refine ⟨by unfold Given; decide, ⟨by decide, ?_⟩, by decide +kernel, by decide +kernel, by decide +kernel, by decide +kernel⟩
  intro l
  simp [exC]
  constructor
  · rintro (h | h) <;> simp [h]
  · rintro ((h | h) | h) <;> simp [h]

end PG.Category
