import Verif.Spec.PgArray
import Verif.Proofs.TypesLib
/-!
# Lemmas about arrays
-/
namespace PG.PgArray
open PG PG.Element3 PG.Spec.PgArray PG.TypesLib

variable {α : Type}

theorem drop_blocks {β γ : Type} {f : β → List γ} {w : Nat} (l : List β) (i : Nat) (h : ∀ x ∈ l, (f x).length = w) :
    (l.flatMap f).drop (w * i) = (l.drop i).flatMap f := by
  induction l generalizing i with
  | nil => simp
  | cons x l ih =>
    cases i with
    | zero => simp
    | succ i =>
      rw [List.flatMap_cons, List.drop_succ_cons, ← ih i fun y hy => h y (List.mem_cons_of_mem _ hy)]
      have hx := h x (List.mem_cons_self ..)
      rw [Nat.mul_succ, Nat.add_comm (w * i), ← List.drop_drop, ← hx, List.drop_left]

theorem slice_block {β γ : Type} {f : β → List γ} {w : Nat} {l : List β} {i : Nat} {x : β} (h : ∀ x ∈ l, (f x).length = w) (hx : l[i]? = some x) :
    slice (l.flatMap f) (w * i) (w * (i + 1)) = f x := by
  unfold slice
  rw [drop_blocks l i h]
  obtain ⟨hlt, he⟩ := List.getElem?_eq_some_iff.1 hx
  rw [List.drop_eq_getElem_cons hlt, List.flatMap_cons, he, Nat.mul_succ, Nat.add_sub_cancel_left, ← h x (List.mem_of_getElem? hx), List.take_left]

theorem get_block {β γ : Type} {f : β → List γ} {w : Nat} {l : List β} {i k : Nat} {x : β} (h : ∀ x ∈ l, (f x).length = w) (hx : l[i]? = some x)
    (hk : k < w) : (l.flatMap f)[i * w + k]? = (f x)[k]? := by
  obtain ⟨hlt, he⟩ := List.getElem?_eq_some_iff.1 hx
  rw [Nat.mul_comm, ← List.getElem?_drop, drop_blocks l i h, List.drop_eq_getElem_cons hlt, List.flatMap_cons, he,
    List.getElem?_append_left (by rw [h x (List.mem_of_getElem? hx)]; exact hk)]

theorem length_blocks {β γ : Type} {f : β → List γ} {w : Nat} (l : List β) (h : ∀ x ∈ l, (f x).length = w) : (l.flatMap f).length = l.length * w := by
  induction l with
  | nil => simp
  | cons x l ih =>
    rw [List.flatMap_cons, List.length_append, ih fun y hy => h y (List.mem_cons_of_mem _ hy), h x (List.mem_cons_self ..), List.length_cons,
      Nat.succ_mul, Nat.add_comm]

theorem length_flat : ∀ (ds : List Nat) (v : V α), Loose ds v → (flat ds v).length = ds.prod
  | [], _, _ => by simp [flat]
  | d :: ds, v, ⟨l, hm, hl, h⟩ => by
    rw [flat, hm, Option.getD_some, length_blocks l fun x hx => length_flat ds x (h x hx), hl, List.prod_cons]

theorem loose_of_nest : ∀ (ds : List Nat) (v : V α), Nest ds v → Loose ds v
  | [], _, _ => trivial
  | _ :: ds, v, ⟨l, hv, hl, h⟩ => ⟨l, by rw [hv]; rfl, hl, fun x hx => loose_of_nest ds x (h x hx)⟩

theorem nest_of_shape : ∀ (ds : List Nat) (v : V α), HasShape ds v → Nest ds v
  | [], _, _ => trivial
  | _ :: ds, v, ⟨l, hv, hl, h⟩ => ⟨l, hv, hl, fun x hx => nest_of_shape ds x (h x hx)⟩

theorem down_of_shape : ∀ (ds : List Nat) (v : V α), (∀ d ∈ ds, 1 ≤ d) → HasShape ds v → Down v ds
  | [], _, _, h => .stop h
  | d :: ds, v, hp, ⟨l, hv, hl, h⟩ => by
    subst hv hl
    cases l with
    | nil => have := hp 0 (by simp); omega
    | cons x l => exact .go (down_of_shape ds x (fun e he => hp e (List.mem_cons_of_mem _ he)) (h x (List.mem_cons_self ..)))

theorem detectRest_iff {v : V α} {ds : List Nat} : detectRest v = .ok ds ↔ Down v ds := by
  constructor
  · intro h
    induction ds generalizing v with
    | nil =>
      cases v with
      | atom a => exact .stop trivial
      | tuple l => exact .stop trivial
      | list l =>
        cases l with
        | nil => simp only [detectRest] at h; cases h
        | cons x l =>
          simp only [detectRest] at h
          obtain ⟨r, _, h⟩ := bind_eq_ok h
          cases h
    | cons d ds ih =>
      cases v with
      | atom a => simp only [detectRest] at h; cases h
      | tuple l => simp only [detectRest] at h; cases h
      | list l =>
        cases l with
        | nil => simp only [detectRest] at h; cases h
        | cons x l =>
          simp only [detectRest] at h
          obtain ⟨r, hr, h⟩ := bind_eq_ok h
          cases h
          exact .go (ih hr)
  · intro h
    induction h with
    | @stop v h => cases v with
      | list l => exact h.elim
      | atom a => rfl
      | tuple l => rfl
    | go _ ih => simp only [detectRest, ih, bind_ok, pure_ok]

theorem detect_iff {l : List (V α)} {ds : List Nat} : detectDimensions l = .ok ds ↔ (l = [] ∧ ds = []) ∨ (l ≠ [] ∧ Down (.list l) ds) := by
  cases l with
  | nil => simp [detectDimensions, eq_comm]
  | cons x l =>
    have : detectDimensions (x :: l) = detectRest (.list (x :: l)) := by simp only [detectRest, detectDimensions]
    rw [this, detectRest_iff]
    simp

theorem members_items (x : V α) : members x = (items x).toOption := by cases x <;> rfl

theorem extendAll_iff {f : List (V α) → Except Err (List (V α))} {P : List (V α) → Prop} {g : List (V α) → List (V α)}
    (hf : ∀ i r, f i = .ok r ↔ P i ∧ r = g i) (l : List (V α)) :
    ∀ r, extendAll f l = .ok r ↔ (∀ x ∈ l, ∃ i, members x = some i ∧ P i) ∧ r = l.flatMap fun x => g ((members x).getD []) := by
  induction l with
  | nil => intro r; simp [extendAll, eq_comm]
  | cons x l ih =>
    intro r
    rw [extendAll]
    constructor
    · intro h
      obtain ⟨i, hi, h⟩ := bind_eq_ok h
      obtain ⟨hd, hh, h⟩ := bind_eq_ok h
      obtain ⟨t, ht, h⟩ := bind_eq_ok h
      cases h
      obtain ⟨hP, rfl⟩ := (hf _ _).1 hh
      obtain ⟨hl, rfl⟩ := (ih _).1 ht
      have hm : members x = some i := by rw [members_items, hi]; rfl
      refine ⟨?_, ?_⟩
      · intro y hy
        rcases List.mem_cons.1 hy with rfl | hy
        · exact ⟨i, hm, hP⟩
        · exact hl y hy
      · rw [List.flatMap_cons, hm]; rfl
    · rintro ⟨h, rfl⟩
      obtain ⟨i, hm, hP⟩ := h x (List.mem_cons_self ..)
      have hi : items x = .ok i := by
        cases x with
        | atom a => cases hm
        | list l => cases hm; rfl
        | tuple l => cases hm; rfl
      rw [hi, bind_ok, (hf _ _).2 ⟨hP, rfl⟩, bind_ok, (ih _).2 ⟨fun y hy => h y (List.mem_cons_of_mem _ hy), rfl⟩, bind_ok, pure_ok,
        List.flatMap_cons, hm]
      rfl

theorem unroll_iff : ∀ (ds : List Nat) (d : Nat) (hier r : List (V α)),
    unrollNest (d :: ds) hier = .ok r ↔ (hier.length = d ∧ ∀ x ∈ hier, Loose ds x) ∧ r = hier.flatMap (flat ds)
  | [], d, hier, r => by
    have hf : hier.flatMap (flat []) = hier := by
      induction hier with
      | nil => rfl
      | cons x l ih => rw [List.flatMap_cons, ih]; rfl
    rw [unrollNest, hf]
    by_cases h : hier.length = d
    · rw [if_neg (by simp [h])]
      simp [h, Loose, eq_comm]
    · rw [if_pos h]
      simp [h]
  | e :: ds, d, hier, r => by
    rw [unrollNest]
    by_cases h : hier.length = d
    · rw [if_neg (by simp [h]), extendAll_iff (unroll_iff ds e)]
      simp only [h, true_and]
      have hfl : (fun x : V α => ((members x).getD []).flatMap (flat ds)) = flat (e :: ds) := by
        funext x; rw [flat]
      rw [hfl]
      have : (∀ x ∈ hier, ∃ i, members x = some i ∧ i.length = e ∧ ∀ y ∈ i, Loose ds y) ↔ ∀ x ∈ hier, Loose (e :: ds) x := Iff.rfl
      rw [this]
    · rw [if_pos h]
      simp [h]

theorem physical_bounds (n : Nat) : ∀ (lb ub : List Int) (ds : List Nat), Bounds lb ub ds → physical n (lb.zip ub) = .ok (some ds)
  | [], [], [], _ => rfl
  | l :: ls, u :: us, d :: ds, ⟨h1, h2, h3⟩ => by
    rw [List.zip_cons_cons, physical, if_neg (by omega), physical_bounds n ls us ds h3, bind_ok, pure_ok]
    simp only [Option.map_some]
    rw [← h1, Int.toNat_natCast]

theorem bounds_length : ∀ (lb ub : List Int) (ds : List Nat), Bounds lb ub ds → lb.length = ds.length ∧ ub.length = ds.length
  | [], [], [], _ => ⟨rfl, rfl⟩
  | _ :: ls, _ :: us, _ :: ds, ⟨_, _, h3⟩ => by
    have := bounds_length ls us ds h3
    simp [this]

theorem physical_iff (n : Nat) : ∀ (z : List (Int × Int)) (ds : List Nat), physical n z = .ok (some ds) →
    Bounds (z.map Prod.fst) (z.map Prod.snd) ds
  | [], ds, h => by cases h; trivial
  | (l, u) :: z, ds, h => by
    rw [physical] at h
    split at h
    · split at h <;> cases h
    · obtain ⟨t, ht, h⟩ := bind_eq_ok h
      cases t with
      | none => cases h
      | some t =>
        cases h
        exact ⟨by omega, by omega, physical_iff n z t ht⟩

theorem physical_none (n : Nat) : ∀ (z : List (Int × Int)), physical n z = .ok none → n = 0
  | [], h => by cases h
  | (l, u) :: z, h => by
    rw [physical] at h
    split at h
    · split at h
      · assumption
      · cases h
    · obtain ⟨t, ht, h⟩ := bind_eq_ok h
      cases t with
      | none => exact physical_none n z ht
      | some t => cases h

theorem fromElements_bounds {e : List (V α)} {lb ub : List Int} {ds : List Nat} (hb : Bounds lb ub ds) (hne : ds ≠ []) (hlen : e.length = ds.prod)
    {lower : Option (List Int)} (hlo : defaultLower e.length lower (some ub) = lb) :
    fromElements e lower (some ub) = .ok ⟨e, lb, ub, ds⟩ := by
  obtain ⟨h1, h2⟩ := bounds_length lb ub ds hb
  cases ub with
  | nil => cases ds with
    | nil => exact absurd rfl hne
    | cons => cases h2
  | cons u us =>
    unfold fromElements
    simp only
    rw [hlo, physical_bounds _ _ _ _ hb, bind_ok]
    simp only
    rw [if_neg (by simp [hlen]), consistent, if_neg (by simp [h1, h2])]

theorem zip_fst {β γ : Type} : ∀ (a : List β) (b : List γ), a.length = b.length → (a.zip b).map Prod.fst = a ∧ (a.zip b).map Prod.snd = b
  | [], [], _ => ⟨rfl, rfl⟩
  | x :: a, y :: b, h => by
    have := zip_fst a b (by simpa using h)
    simp [this]

theorem consistent_ok {a b : Arr α} (h : consistent a = .ok b) : a = b ∧ a.lower.length = a.upper.length := by
  unfold consistent at h
  split at h
  · cases h
  · rename_i hh
    cases h
    exact ⟨rfl, by simpa using hh⟩

/-- An array made with upper bounds given. -/
theorem fromElements_ok {e : List (V α)} {lower : Option (List Int)} {ub : List Int} {a : Arr α} (h : fromElements e lower (some ub) = .ok a) :
    (e = [] ∧ a = ⟨[], [], [], []⟩) ∨
    (a.elements = e ∧ a.lower = defaultLower e.length lower (some ub) ∧ a.upper = ub ∧ Bounds a.lower a.upper a.dims ∧ a.dims ≠ [] ∧ e.length = a.dims.prod) := by
  cases ub with
  | nil =>
    unfold fromElements at h
    dsimp only at h
    split at h
    · cases h
    · rename_i he
      obtain ⟨rfl, h1⟩ := consistent_ok h
      dsimp only at h1
      have he : e = [] := by simpa using he
      subst he
      exact Or.inl ⟨rfl, by rw [List.length_eq_zero_iff.1 h1]⟩
  | cons u us =>
    unfold fromElements at h
    dsimp only at h
    obtain ⟨p, hp, h⟩ := bind_eq_ok h
    cases p with
    | none =>
      dsimp only at h
      split at h
      · cases h
      · rename_i he
        have he : e = [] := by simpa using he
        subst he
        obtain ⟨rfl, _⟩ := consistent_ok h
        exact Or.inl ⟨rfl, rfl⟩
    | some ds =>
      dsimp only at h
      split at h
      · cases h
      · rename_i he
        obtain ⟨rfl, h1⟩ := consistent_ok h
        dsimp only at h1
        have hb := physical_iff _ _ _ hp
        rw [(zip_fst _ _ h1).1, (zip_fst _ _ h1).2] at hb
        refine Or.inr ⟨rfl, rfl, rfl, hb, ?_, by simpa using he⟩
        dsimp only
        rintro rfl
        have := (bounds_length _ _ _ hb).2
        cases this

theorem bounds_ones : ∀ (ds : List Nat), (∀ d ∈ ds, 1 ≤ d) → Bounds (List.replicate ds.length 1) (ds.map Int.ofNat) ds
  | [], _ => trivial
  | d :: ds, h => ⟨by simp, h d (List.mem_cons_self ..), bounds_ones ds fun e he => h e (List.mem_cons_of_mem _ he)⟩

theorem down_pos {v : V α} {ds : List Nat} (h : Down v ds) : ∀ d ∈ ds, 1 ≤ d := by
  induction h with
  | stop => simp
  | go _ ih =>
    intro d hd
    rcases List.mem_cons.1 hd with rfl | hd
    · omega
    · exact ih d hd

theorem down_ne {l : List (V α)} {ds : List Nat} (h : Down (.list l) ds) : ∃ e es, ds = e :: es := by
  cases h with
  | stop h => exact h.elim
  | go _ => exact ⟨_, _, rfl⟩

/-- Exactly which nests make an array, and which. -/
theorem fromNest_iff {nest : List (V α)} {a : Arr α} : fromNest nest = .ok a ↔
    (nest = [] ∧ a = ⟨[], [], [], []⟩) ∨
    ∃ ds, nest ≠ [] ∧ Down (.list nest) ds ∧ Loose ds (.list nest) ∧
      a = ⟨flat ds (.list nest), List.replicate ds.length 1, ds.map Int.ofNat, ds⟩ := by
  have key : ∀ ds, nest ≠ [] → Down (.list nest) ds → Loose ds (.list nest) →
      fromElements (flat ds (.list nest)) none (some (ds.map Int.ofNat)) = .ok ⟨flat ds (.list nest), List.replicate ds.length 1, ds.map Int.ofNat, ds⟩ := by
    intro ds hne hd hl
    obtain ⟨e, es, rfl⟩ := down_ne hd
    exact fromElements_bounds (bounds_ones _ (down_pos hd)) (by simp) (length_flat _ _ hl) (by simp [defaultLower])
  constructor
  · intro h
    unfold fromNest at h
    obtain ⟨ds, hd, h⟩ := bind_eq_ok h
    obtain ⟨e, he, h⟩ := bind_eq_ok h
    rcases detect_iff.1 hd with ⟨rfl, rfl⟩ | ⟨hne, hd⟩
    · left
      rw [unrollNest, if_neg (by simp)] at he
      cases he
      exact ⟨rfl, by injection h with h; exact h.symm⟩
    · right
      obtain ⟨d, es, rfl⟩ := down_ne hd
      obtain ⟨⟨h1, h2⟩, rfl⟩ := (unroll_iff es d nest e).1 he
      have hl : Loose (d :: es) (.list nest) := ⟨nest, rfl, h1, h2⟩
      have := key _ hne hd hl
      refine ⟨_, hne, hd, hl, ?_⟩
      have hf : flat (d :: es) (.list nest) = nest.flatMap (flat es) := rfl
      rw [hf] at this ⊢
      rw [h] at this
      injection this
  · rintro (⟨rfl, rfl⟩ | ⟨ds, hne, hd, hl, rfl⟩)
    · rfl
    · unfold fromNest
      rw [detect_iff.2 (Or.inr ⟨hne, hd⟩), bind_ok]
      obtain ⟨d, es, rfl⟩ := down_ne hd
      obtain ⟨l, hm, h1, h2⟩ := id hl
      cases hm
      rw [(unroll_iff es d nest _).2 ⟨⟨h1, h2⟩, rfl⟩, bind_ok]
      exact key _ hne hd hl

end PG.PgArray
