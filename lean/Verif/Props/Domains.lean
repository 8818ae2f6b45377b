import Verif.Model.Domains
/-!
# C50: the base types of domains
-/
namespace PG.Domains
open PG

/-- The catalog says that `t` is a domain over `u`. -/
def Over (cat : Catalog) (t u : Nat) : Prop := cat t = some (true, u) ∧ u ≠ 0

/-- `b` is what is at the end of the chain of domains that begins with `t`: a type that is no domain. -/
inductive Root (cat : Catalog) : Nat → Nat → Prop where
  | self (b : Nat) : b ≠ 0 → cat b = some (false, 0) → Root cat b b
  | over (t u b : Nat) : t ≠ 0 → Over cat t u → Root cat u b → Root cat t b

theorem loop_root {cat : Catalog} {t b : Nat} (h : Root cat t b) : ∃ n, ∀ fuel, n ≤ fuel → loop cat fuel t = .ok (some b) := by
  induction h with
  | self b h0 hc =>
    refine ⟨1, fun fuel hf => ?_⟩
    obtain ⟨k, rfl⟩ : ∃ k, fuel = k + 1 := ⟨fuel - 1, by omega⟩
    unfold loop lookupBasetype
    rw [if_neg h0, hc]
    rfl
  | over t u b h0 hc _ ih =>
    obtain ⟨n, hn⟩ := ih
    refine ⟨n + 1, fun fuel hf => ?_⟩
    obtain ⟨k, rfl⟩ : ∃ k, fuel = k + 1 := ⟨fuel - 1, by omega⟩
    unfold loop lookupBasetype
    rw [if_neg h0, hc.1]
    show (if u = 0 then _ else loop cat k u) = _
    rw [if_neg hc.2]
    exact hn k (by omega)

theorem hierarchy_root {cat : Catalog} {t b : Nat} (h : Root cat t b) : ∃ n, ∀ fuel, n ≤ fuel → (t :: hierarchy cat fuel t).getLast? = some b := by
  induction h with
  | self b h0 hc =>
    refine ⟨1, fun fuel hf => ?_⟩
    obtain ⟨k, rfl⟩ : ∃ k, fuel = k + 1 := ⟨fuel - 1, by omega⟩
    unfold hierarchy
    rw [hc]
    rfl
  | over t u b h0 hc _ ih =>
    obtain ⟨n, hn⟩ := ih
    refine ⟨n + 1, fun fuel hf => ?_⟩
    obtain ⟨k, rfl⟩ : ∃ k, fuel = k + 1 := ⟨fuel - 1, by omega⟩
    unfold hierarchy
    rw [hc.1]
    show (t :: (if u ≠ 0 then u :: hierarchy cat k u else [])).getLast? = _
    rw [if_pos hc.2, List.getLast?_cons_cons]
    exact hn k (by omega)

/-- **C50 (domains).** For every domain, over domains to any depth, and every version of the server, the type whose routines are used is the one at the end of the chain: the query for new servers and the loop for old ones agree. -/
theorem C50_basetype (cat : Catalog) (t u b : Nat) (ht : t ≠ 0) (h : Over cat t u) (hb : Root cat u b) : ∃ n, ∀ major minor fuel, n ≤ fuel → basetype cat major minor fuel t = .ok (some b) := by
  obtain ⟨n, hn⟩ := loop_root (Root.over t u b ht h hb)
  obtain ⟨m, hm⟩ := hierarchy_root hb
  refine ⟨n + m, fun major minor fuel hf => ?_⟩
  unfold basetype
  split
  · unfold basetype84 lookupBasetypeRecursive
    rw [h.1]
    show Except.ok ((u :: hierarchy cat fuel u).getLast?) = _
    rw [hm fuel (by omega)]
  · exact hn fuel (by omega)

/-- **C50 (what is not a domain).** Old servers are asked and give the type itself, new ones give nothing; a type that does not exist raises IndexError. -/
theorem C50_not_domain (cat : Catalog) (t : Nat) (ht : t ≠ 0) (fuel : Nat) (hf : 0 < fuel) :
    (cat t = some (false, 0) → basetype cat 8 3 fuel t = .ok (some t) ∧ basetype cat 8 4 fuel t = .ok none) ∧ (cat t = none → ∀ major minor, basetype cat major minor fuel t = .error .indexError) := by
  obtain ⟨k, rfl⟩ : ∃ k, fuel = k + 1 := ⟨fuel - 1, by omega⟩
  constructor
  · intro h
    constructor
    · show loop cat (k + 1) t = _
      unfold loop lookupBasetype
      rw [if_neg ht, h]
      rfl
    · show basetype84 cat (k + 1) t = _
      unfold basetype84 lookupBasetypeRecursive
      rw [h]
  · intro h major minor
    unfold basetype
    split
    · unfold basetype84 lookupBasetypeRecursive
      rw [h]
    · unfold loop lookupBasetype
      rw [if_neg ht, h]

/-- A domain over a domain over `int4`. -/
def exCat : Catalog := fun t => if t = 23 then some (false, 0) else if t = 100 then some (true, 23) else if t = 101 then some (true, 100) else none

example : Over exCat 101 100 ∧ Root exCat 100 23 := ⟨⟨rfl, by decide⟩, .over 100 23 23 (by decide) ⟨rfl, by decide⟩ (.self 23 (by decide) rfl)⟩
example : basetype exCat 8 3 5 101 = .ok (some 23) ∧ basetype exCat 9 0 5 101 = .ok (some 23) ∧ basetype exCat 8 4 5 100 = .ok (some 23) := by decide +kernel

end PG.Domains
