import Verif.Spec.TypeIo
/-! # Proofs about the resolution of types -/
namespace PG.TypeIo
open PG.Spec.TypeIo

theorem are_mono_of {env : Env} {n m : Nat} (h : ∀ t io, Is env n t io → Is env m t io) : ∀ {fs : List (Nat × Bool)} {ios : List Io}, Are env n fs ios → Are env m fs ios
  | [], _, h' => by cases h'; exact .nil
  | (t, dom) :: fs, _, h' => by
    cases h' with
    | cons h1 h2 => exact .cons (h _ _ h1) (are_mono_of h h2)

theorem is_mono {env : Env} : ∀ {n m : Nat} {t : Nat} {io : Io}, n ≤ m → Is env n t io → Is env m t io
  | 0, m, t, io, _, h => by cases h
  | n + 1, 0, t, io, hm, _ => absurd hm (by omega)
  | n + 1, m + 1, t, io, hm, h => by
    have ih : ∀ t io, Is env n t io → Is env m t io := fun t io => is_mono (by omega)
    cases h with
    | initial h1 => exact .initial h1
    | builtin h1 h2 => exact .builtin h1 h2
    | unknown h1 h2 h3 => exact .unknown h1 h2 h3
    | other h1 h2 h3 => exact .other h1 h2 h3
    | anonymous h1 h2 h3 => exact .anonymous h1 h2 h3
    | domain h1 h2 h3 h4 => exact .domain h1 h2 h3 (ih _ _ h4)
    | array h1 h2 h3 h4 => exact .array h1 h2 h3 (ih _ _ h4)
    | composite h1 h2 h3 h4 => exact .composite h1 h2 h3 (are_mono_of ih h4)

theorem are_mono {env : Env} {n m : Nat} (h : n ≤ m) {fs ios} (h' : Are env n fs ios) : Are env m fs ios := are_mono_of (fun _ _ => is_mono h) h'

theorem are_det_of {env : Env} {n m : Nat} (h : ∀ t io io', Is env n t io → Is env m t io' → io = io') : ∀ {fs : List (Nat × Bool)} {ios ios' : List Io}, Are env n fs ios → Are env m fs ios' → ios = ios'
  | [], _, _, h1, h2 => by cases h1; cases h2; rfl
  | (t, dom) :: fs, _, _, h1, h2 => by
    cases h1 with
    | cons a1 a2 =>
      cases h2 with
      | cons b1 b2 => rw [h _ _ _ a1 b1, are_det_of h a2 b2]

/-- A type has one set of routines. -/
theorem is_det {env : Env} : ∀ {n m : Nat} {t : Nat} {io io' : Io}, Is env n t io → Is env m t io' → io = io'
  | 0, _, _, _, _, h, _ => by cases h
  | n + 1, 0, _, _, _, _, h => by cases h
  | n + 1, m + 1, t, io, io', h, h' => by
    have ih : ∀ t io io', Is env n t io → Is env m t io' → io = io' := fun t io io' => is_det
    cases h with
    | initial h1 => cases h' <;> first | rfl | contradiction
    | builtin h1 h2 => cases h' <;> first | rfl | contradiction | (rename_i a b; rw [h2] at b; cases b) | (rename_i a b c; rw [h2] at b; cases b) | (rename_i a b c d; rw [h2] at b; cases b)
    | unknown h1 h2 h3 => cases h' <;> first | rfl | contradiction | simp_all
    | other h1 h2 h3 => cases h' <;> first | rfl | contradiction | simp_all
    | anonymous h1 h2 h3 => cases h' <;> first | rfl | contradiction | simp_all
    | domain h1 h2 h3 h4 =>
      cases h' with
      | initial k => contradiction
      | domain k1 k2 k3 k4 => exact ih _ _ _ h4 k4
      | builtin k1 k2 => rw [h2] at k2; cases k2
      | unknown k1 k2 k3 => rw [h3] at k3; cases k3
      | other k1 k2 k3 => rw [h3] at k3; cases k3
      | anonymous k1 k2 k3 => rw [h3] at k3; cases k3
      | array k1 k2 k3 k4 => rw [h3] at k3; cases k3
      | composite k1 k2 k3 k4 => rw [h3] at k3; cases k3
    | array h1 h2 h3 h4 =>
      cases h' with
      | initial k => contradiction
      | array k1 k2 k3 k4 => rw [h3] at k3; cases k3; rw [ih _ _ _ h4 k4]
      | builtin k1 k2 => rw [h2] at k2; cases k2
      | unknown k1 k2 k3 => rw [h3] at k3; cases k3
      | other k1 k2 k3 => rw [h3] at k3; cases k3
      | anonymous k1 k2 k3 => rw [h3] at k3; cases k3
      | domain k1 k2 k3 k4 => rw [h3] at k3; cases k3
      | composite k1 k2 k3 k4 => rw [h3] at k3; cases k3
    | composite h1 h2 h3 h4 =>
      cases h' with
      | initial k => contradiction
      | composite k1 k2 k3 k4 => rw [h3] at k3; cases k3; rw [are_det_of ih h4 k4]
      | builtin k1 k2 => rw [h2] at k2; cases k2
      | unknown k1 k2 k3 => rw [h3] at k3; cases k3
      | other k1 k2 k3 => rw [h3] at k3; cases k3
      | anonymous k1 k2 k3 => rw [h3] at k3; cases k3
      | domain k1 k2 k3 k4 => rw [h3] at k3; cases k3
      | array k1 k2 k3 k4 => rw [h3] at k3; cases k3

/-- What is resolved for a type that is not known yet. -/
def Child (env : Env) (u t : Nat) : Prop :=
  u ∉ initialOids ∧ env.builtin u = false ∧
    ((∃ fs x, env.cat u = some (.composite fs) ∧ x ∈ fs ∧ t = if x.2 then env.base x.1 else x.1) ∨ (∃ i o, env.cat u = some (.array t i o)) ∨ (env.cat u = some .domain ∧ t = env.base u))

/-- Something is resolved, in one or more steps. -/
inductive Below (env : Env) : Nat → Nat → Prop
  | step {u t} : Child env u t → Below env u t
  | more {u t s} : Below env u t → Child env t s → Below env u s

theorem are_mem {env : Env} {n : Nat} : ∀ {fs : List (Nat × Bool)} {ios : List Io}, Are env n fs ios → ∀ x ∈ fs, ∃ io, Is env n (if x.2 then env.base x.1 else x.1) io
  | [], _, _, x, hx => by cases hx
  | (t, dom) :: fs, _, h, x, hx => by
    cases h with
    | cons h1 h2 =>
      rcases List.mem_cons.mp hx with rfl | hx
      · exact ⟨_, h1⟩
      · exact are_mem h2 x hx

theorem child_is {env : Env} {n u t : Nat} {io : Io} (hc : Child env u t) (h : Is env (n + 1) u io) : ∃ io', Is env n t io' := by
  obtain ⟨c1, c2, c3⟩ := hc
  cases h with
  | initial h1 => contradiction
  | builtin h1 h2 => rw [c2] at h2; cases h2
  | unknown h1 h2 h3 =>
    rcases c3 with ⟨fs, x, k, _⟩ | ⟨i, o, k⟩ | ⟨k, _⟩ <;> (rw [h3] at k; cases k)
  | other h1 h2 h3 =>
    rcases c3 with ⟨fs, x, k, _⟩ | ⟨i, o, k⟩ | ⟨k, _⟩ <;> (rw [h3] at k; cases k)
  | anonymous h1 h2 h3 =>
    rcases c3 with ⟨fs, x, k, _⟩ | ⟨i, o, k⟩ | ⟨k, _⟩ <;> (rw [h3] at k; cases k)
  | domain h1 h2 h3 h4 =>
    rcases c3 with ⟨fs, x, k, _⟩ | ⟨i, o, k⟩ | ⟨k, rfl⟩
    · rw [h3] at k; cases k
    · rw [h3] at k; cases k
    · exact ⟨_, h4⟩
  | array h1 h2 h3 h4 =>
    rcases c3 with ⟨fs, x, k, _⟩ | ⟨i, o, k⟩ | ⟨k, rfl⟩
    · rw [h3] at k; cases k
    · rw [h3] at k; cases k; exact ⟨_, h4⟩
    · rw [h3] at k; cases k
  | composite h1 h2 h3 h4 =>
    rcases c3 with ⟨fs, x, k, hx, rfl⟩ | ⟨i, o, k⟩ | ⟨k, rfl⟩
    · rw [h3] at k; cases k; exact are_mem h4 x hx
    · rw [h3] at k; cases k
    · rw [h3] at k; cases k

theorem below_is {env : Env} {u t : Nat} (hb : Below env u t) : ∀ {n : Nat} {io : Io}, Is env n u io → ∃ m io', m < n ∧ Is env m t io' := by
  induction hb with
  | step hc =>
    intro n io h
    cases n with
    | zero => cases h
    | succ n => obtain ⟨io', h'⟩ := child_is hc h; exact ⟨n, io', by omega, h'⟩
  | more _ hc ih =>
    intro n io h
    obtain ⟨m, io', h1, h2⟩ := ih h
    cases m with
    | zero => cases h2
    | succ m => obtain ⟨io'', h'⟩ := child_is hc h2; exact ⟨m, io'', by omega, h'⟩

/-- A type below itself has no routines. -/
theorem below_self {env : Env} {t : Nat} (hb : Below env t t) : ∀ (n : Nat) (io : Io), ¬ Is env n t io := by
  intro n
  induction n using Nat.strongRecOn with
  | ind n ih =>
    intro io h
    obtain ⟨m, io', h1, h2⟩ := below_is hb h
    exact ih m h1 io' h2

/-- What is in the cache is right, and the first entries are there. -/
def Right (env : Env) (c : Cache) : Prop := (∀ t io, Cache.get c t = some io → ∃ n, Is env n t io) ∧ ∀ t ∈ initialOids, (Cache.get c t).isSome

theorem right_cons {env : Env} {c : Cache} {t n : Nat} {io : Io} (h : Right env c) (hi : Is env n t io) : Right env ((t, io) :: c) := by
  refine ⟨fun u io' hu => ?_, fun u hu => ?_⟩
  · unfold Cache.get at hu
    split at hu
    · rename_i e; subst e; cases hu; exact ⟨n, hi⟩
    · exact h.1 u io' hu
  · unfold Cache.get
    split
    · rfl
    · exact h.2 u hu

theorem right_not {env : Env} {c : Cache} {t : Nat} (h : Right env c) (hn : Cache.get c t = none) : t ∉ initialOids := by
  intro ht
  have := h.2 t ht
  rw [hn] at this
  cases this

/-! ## What is found is right -/

theorem fields_sound {env : Env} {rec : Cache → Nat → Except Err Io × Cache} (hrec : ∀ c t, Right env c → Right env (rec c t).2 ∧ ∀ io, (rec c t).1 = .ok io → ∃ n, Is env n t io) :
    ∀ (fs : List (Nat × Bool)) (c : Cache), Right env c → Right env (resolveFields env.base rec c fs).2 ∧ ∀ ios, (resolveFields env.base rec c fs).1 = .ok ios → ∃ n, Are env n fs ios
  | [], c, h => ⟨h, fun ios e => by cases e; exact ⟨0, .nil⟩⟩
  | (t, dom) :: fs, c, h => by
    unfold resolveFields
    obtain ⟨k1, k2⟩ := hrec c (if dom then env.base t else t) h
    cases hr : rec c (if dom then env.base t else t) with
    | mk r c1 =>
      rw [hr] at k1 k2
      cases r with
      | error e => exact ⟨k1, fun ios e => by cases e⟩
      | ok io =>
        dsimp only
        obtain ⟨j1, j2⟩ := fields_sound hrec fs c1 k1
        cases hf : resolveFields env.base rec c1 fs with
        | mk r2 c2 =>
          rw [hf] at j1 j2
          cases r2 with
          | error e => exact ⟨j1, fun ios e => by cases e⟩
          | ok ios =>
            refine ⟨j1, fun ios' e => ?_⟩
            cases e
            obtain ⟨n, hn⟩ := k2 io rfl
            obtain ⟨m, hm⟩ := j2 ios rfl
            exact ⟨max n m, .cons (is_mono (Nat.le_max_left _ _) hn) (are_mono (Nat.le_max_right _ _) hm)⟩

theorem resolve_sound {env : Env} : ∀ (fuel : Nat) (from_ : List Nat) (c : Cache) (t : Nat), Right env c → Right env (resolve env fuel from_ c t).2 ∧ ∀ io, (resolve env fuel from_ c t).1 = .ok io → ∃ n, Is env n t io
  | 0, from_, c, t, h => ⟨h, fun io e => by cases e⟩
  | fuel + 1, from_, c, t, h => by
    unfold resolve
    split
    · exact ⟨h, fun io e => by cases e⟩
    · cases hg : Cache.get c t with
      | some io => exact ⟨h, fun io' e => by cases e; exact h.1 t io hg⟩
      | none =>
        have hni := right_not h hg
        dsimp only
        cases hb : env.builtin t with
        | true =>
          have : Is env 1 t (.builtin t) := .builtin hni hb
          exact ⟨right_cons h this, fun io e => by cases e; exact ⟨1, this⟩⟩
        | false =>
          simp only [Bool.false_eq_true, if_false]
          cases hc : env.cat t with
          | none => exact ⟨h, fun io e => by cases e; exact ⟨1, .unknown hni hb hc⟩⟩
          | some info =>
            cases info with
            | other =>
              have : Is env 1 t (.str t) := .other hni hb hc
              exact ⟨right_cons h this, fun io e => by cases e; exact ⟨1, this⟩⟩
            | anonymous =>
              have : Is env 1 t (.anonymous t) := .anonymous hni hb hc
              exact ⟨right_cons h this, fun io e => by cases e; exact ⟨1, this⟩⟩
            | domain =>
              dsimp only
              obtain ⟨k1, k2⟩ := resolve_sound fuel (from_ ++ [t]) c (env.base t) h
              cases hr : resolve env fuel (from_ ++ [t]) c (env.base t) with
              | mk r c1 =>
                rw [hr] at k1 k2
                cases r with
                | error e => exact ⟨k1, fun io e => by cases e⟩
                | ok io =>
                  obtain ⟨n, hn⟩ := k2 io rfl
                  have : Is env (n + 1) t io := .domain hni hb hc hn
                  exact ⟨right_cons k1 this, fun io e => by cases e; exact ⟨_, this⟩⟩
            | array el i o =>
              dsimp only
              obtain ⟨k1, k2⟩ := resolve_sound fuel (from_ ++ [t]) c el h
              cases hr : resolve env fuel (from_ ++ [t]) c el with
              | mk r c1 =>
                rw [hr] at k1 k2
                cases r with
                | error e => exact ⟨k1, fun io e => by cases e⟩
                | ok io =>
                  obtain ⟨n, hn⟩ := k2 io rfl
                  have : Is env (n + 1) t (.array t io i o) := .array hni hb hc hn
                  exact ⟨right_cons k1 this, fun io e => by cases e; exact ⟨_, this⟩⟩
            | composite fs =>
              dsimp only
              obtain ⟨k1, k2⟩ := fields_sound (fun c u hc => resolve_sound fuel (from_ ++ [t]) c u hc) fs c h
              cases hr : resolveFields env.base (resolve env fuel (from_ ++ [t])) c fs with
              | mk r c1 =>
                rw [hr] at k1 k2
                cases r with
                | error e => exact ⟨k1, fun io e => by cases e⟩
                | ok ios =>
                  obtain ⟨n, hn⟩ := k2 ios rfl
                  have : Is env (n + 1) t (.record t ios) := .composite hni hb hc hn
                  exact ⟨right_cons k1 this, fun io e => by cases e; exact ⟨_, this⟩⟩

/-! ## What is right is found -/

theorem fields_complete {env : Env} {n : Nat} {rec : Cache → Nat → Except Err Io × Cache} :
    ∀ (fs : List (Nat × Bool)) (ios : List Io) (c : Cache), (∀ c x, x ∈ fs → ∀ io, Right env c → Is env n (if x.2 then env.base x.1 else x.1) io →
      ((rec c (if x.2 then env.base x.1 else x.1)).1 = .ok io ∨ (rec c (if x.2 then env.base x.1 else x.1)).1 = .error .recursion) ∧ Right env (rec c (if x.2 then env.base x.1 else x.1)).2) →
    Right env c → Are env n fs ios → (resolveFields env.base rec c fs).1 = .ok ios ∨ (resolveFields env.base rec c fs).1 = .error .recursion
  | [], ios, c, _, _, h => by cases h; exact .inl rfl
  | (t, dom) :: fs, ios, c, hrec, hc, h => by
    cases h with
    | @cons _ _ _ _ io ios' h1 h2 =>
      obtain ⟨k1, k2⟩ := hrec c (t, dom) List.mem_cons_self io hc h1
      unfold resolveFields
      cases hr : rec c (if dom then env.base t else t) with
      | mk r c1 =>
        rw [hr] at k1 k2
        dsimp only at k1 k2
        rcases k1 with k1 | k1
        · subst k1
          dsimp only
          have := fields_complete fs ios' c1 (fun c x hx => hrec c x (List.mem_cons_of_mem _ hx)) k2 h2
          cases hf : resolveFields env.base rec c1 fs with
          | mk r2 c2 =>
            rw [hf] at this
            dsimp only at this
            rcases this with h | h
            · subst h; exact .inl rfl
            · subst h; exact .inr rfl
        · subst k1
          exact .inr rfl

theorem below_child {env : Env} {from_ : List Nat} {t s : Nat} (h : ∀ u ∈ from_, Below env u t) (hc : Child env t s) : ∀ u ∈ from_ ++ [t], Below env u s := by
  intro u hu
  rcases List.mem_append.mp hu with hu | hu
  · exact .more (h u hu) hc
  · rw [List.mem_singleton.mp hu]; exact .step hc

theorem resolve_complete {env : Env} : ∀ (n fuel : Nat) (from_ : List Nat) (c : Cache) (t : Nat) (io : Io), (∀ u ∈ from_, Below env u t) → Right env c → Is env n t io →
    (resolve env fuel from_ c t).1 = .ok io ∨ (resolve env fuel from_ c t).1 = .error .recursion
  | 0, fuel, from_, c, t, io, _, _, h => by cases h
  | n + 1, 0, from_, c, t, io, _, _, _ => .inr rfl
  | n + 1, fuel + 1, from_, c, t, io, hb, hc, h => by
    unfold resolve
    rw [if_neg (by
      intro e
      rw [List.contains_iff_mem] at e
      exact below_self (hb t e) _ _ h)]
    cases hg : Cache.get c t with
    | some io' =>
      obtain ⟨m, hm⟩ := hc.1 t io' hg
      left
      dsimp only
      rw [is_det h hm]
    | none =>
      have hni := right_not hc hg
      have ih : ∀ c s io, Child env t s → Right env c → Is env n s io → (resolve env fuel (from_ ++ [t]) c s).1 = .ok io ∨ (resolve env fuel (from_ ++ [t]) c s).1 = .error .recursion :=
        fun c s io hch hr hi => resolve_complete n fuel (from_ ++ [t]) c s io (below_child hb hch) hr hi
      dsimp only
      cases h with
      | initial h1 => contradiction
      | builtin h1 h2 => left; rw [if_pos h2]
      | unknown h1 h2 h3 => left; rw [if_neg (by rw [h2]; simp), h3]
      | other h1 h2 h3 => left; rw [if_neg (by rw [h2]; simp), h3]
      | anonymous h1 h2 h3 => left; rw [if_neg (by rw [h2]; simp), h3]
      | domain h1 h2 h3 h4 =>
        rw [if_neg (by rw [h2]; simp), h3]
        dsimp only
        have := ih c _ _ ⟨h1, h2, .inr (.inr ⟨h3, rfl⟩)⟩ hc h4
        cases hr : resolve env fuel (from_ ++ [t]) c (env.base t) with
        | mk r c1 => rw [hr] at this; dsimp only at this; rcases this with h | h; (subst h; exact .inl rfl); (subst h; exact .inr rfl)
      | @array _ _ el io i o h1 h2 h3 h4 =>
        rw [if_neg (by rw [h2]; simp), h3]
        dsimp only
        have := ih c el _ ⟨h1, h2, .inr (.inl ⟨i, o, h3⟩)⟩ hc h4
        cases hr : resolve env fuel (from_ ++ [t]) c el with
        | mk r c1 => rw [hr] at this; dsimp only at this; rcases this with h | h; (subst h; exact .inl rfl); (subst h; exact .inr rfl)
      | @composite _ _ fs ios h1 h2 h3 h4 =>
        rw [if_neg (by rw [h2]; simp), h3]
        dsimp only
        have := fields_complete (rec := resolve env fuel (from_ ++ [t])) fs ios c (fun c x hx io hr hi => ⟨ih c _ io ⟨h1, h2, .inl ⟨fs, x, h3, hx, rfl⟩⟩ hr hi, (resolve_sound fuel (from_ ++ [t]) c _ hr).1⟩) hc h4
        cases hr : resolveFields env.base (resolve env fuel (from_ ++ [t])) c fs with
        | mk r c1 => rw [hr] at this; dsimp only at this; rcases this with h | h; (subst h; exact .inl rfl); (subst h; exact .inr rfl)

/-! ## The recursion ends -/

theorem fields_ends {base : Nat → Nat} {rec : Cache → Nat → Except Err Io × Cache} (hrec : ∀ c t, (rec c t).1 ≠ .error .recursion) : ∀ (fs : List (Nat × Bool)) (c : Cache), (resolveFields base rec c fs).1 ≠ .error .recursion
  | [], c => by simp [resolveFields]
  | (t, dom) :: fs, c => by
    unfold resolveFields
    have h1 := hrec c (if dom then base t else t)
    cases hr : rec c (if dom then base t else t) with
    | mk r c1 =>
      rw [hr] at h1
      cases r with
      | error e => exact fun h => h1 (by dsimp only at h ⊢; cases h; rfl)
      | ok io =>
        dsimp only
        have h2 := fields_ends (base := base) hrec fs c1
        cases hf : resolveFields base rec c1 fs with
        | mk r2 c2 =>
          rw [hf] at h2
          cases r2 with
          | error e => exact fun h => h2 (by dsimp only at h ⊢; cases h; rfl)
          | ok ios => simp

theorem resolve_ends {env : Env} {ids : List Nat} (hfin : ∀ t, env.cat t ≠ none → t ∈ ids) : ∀ (fuel : Nat) (from_ : List Nat) (c : Cache) (t : Nat), from_.Nodup → (∀ u ∈ from_, u ∈ ids) → ids.length < fuel + from_.length → (resolve env fuel from_ c t).1 ≠ .error .recursion
  | 0, from_, c, t, hn, hs, hl => by
    have : from_.length ≤ ids.length := List.Nodup.length_le_of_subset hn hs
    omega
  | fuel + 1, from_, c, t, hn, hs, hl => by
    have ih : env.cat t ≠ none → t ∉ from_ → ∀ c u, (resolve env fuel (from_ ++ [t]) c u).1 ≠ .error .recursion := by
      intro ht hnf c u
      refine resolve_ends hfin fuel (from_ ++ [t]) c u ?_ ?_ (by simp only [List.length_append, List.length_cons, List.length_nil]; omega)
      · rw [List.nodup_append]
        refine ⟨hn, by simp, fun a ha b hb => ?_⟩
        rw [List.mem_singleton.mp hb]
        rintro rfl
        exact hnf ha
      · intro u hu
        rcases List.mem_append.mp hu with hu | hu
        · exact hs u hu
        · rw [List.mem_singleton.mp hu]; exact hfin t ht
    unfold resolve
    split
    · simp
    · rename_i hnf
      have hnf : t ∉ from_ := fun e => hnf (by rw [List.contains_iff_mem]; exact e)
      cases Cache.get c t with
      | some io => simp
      | none =>
        dsimp only
        split
        · simp
        · cases hc : env.cat t with
          | none => simp
          | some info =>
            have ih := ih (by rw [hc]; simp) hnf
            cases info with
            | other => simp
            | anonymous => simp
            | domain =>
              dsimp only
              have := ih c (env.base t)
              cases hr : resolve env fuel (from_ ++ [t]) c (env.base t) with
              | mk r c1 =>
                rw [hr] at this
                cases r with
                | error e => exact fun h => this (by dsimp only at h ⊢; cases h; rfl)
                | ok io => simp
            | array el i o =>
              dsimp only
              have := ih c el
              cases hr : resolve env fuel (from_ ++ [t]) c el with
              | mk r c1 =>
                rw [hr] at this
                cases r with
                | error e => exact fun h => this (by dsimp only at h ⊢; cases h; rfl)
                | ok io => simp
            | composite fs =>
              dsimp only
              have := fields_ends (base := env.base) (rec := resolve env fuel (from_ ++ [t])) ih fs c
              cases hr : resolveFields env.base (resolve env fuel (from_ ++ [t])) c fs with
              | mk r c1 =>
                rw [hr] at this
                cases r with
                | error e => exact fun h => this (by dsimp only at h ⊢; cases h; rfl)
                | ok io => simp

end PG.TypeIo
