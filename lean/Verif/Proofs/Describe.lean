import Verif.Model.Describe
import Verif.Props.TypeIo
/-! # Proofs for C80: what is in the cache stays there -/
namespace PG.Proofs.Describe
open PG PG.TypeIo PG.Spec.TypeIo PG.Describe

/-- The driver knows something about the type: it has routines, or the catalog has it. -/
def Found (env : Env) (t : Nat) : Prop := t ∈ initialOids ∨ env.builtin t = true ∨ env.cat t ≠ none

/-- Nothing is forgotten, nothing comes in that is not found. -/
def Keeps (env : Env) (c c' : Cache) : Prop :=
  (∀ u, (Cache.get c u).isSome = true → (Cache.get c' u).isSome = true) ∧ ∀ u, (Cache.get c' u).isSome = true → (Cache.get c u).isSome = true ∨ Found env u

theorem keeps_refl (env : Env) (c : Cache) : Keeps env c c := ⟨fun _ h => h, fun _ h => .inl h⟩
theorem keeps_trans {env : Env} {a b c : Cache} (h : Keeps env a b) (h' : Keeps env b c) : Keeps env a c :=
  ⟨fun u hu => h'.1 u (h.1 u hu), fun u hu => (h'.2 u hu).elim (h.2 u) .inr⟩
theorem keeps_cons {env : Env} {c : Cache} {t : Nat} (io : Io) (ht : Found env t) : Keeps env c ((t, io) :: c) := by
  refine ⟨fun u hu => ?_, fun u hu => ?_⟩ <;> unfold Cache.get at *
  · split
    · rfl
    · cases c <;> exact hu
  · split at hu
    · rename_i e; subst e; exact .inr ht
    · cases c <;> exact .inl hu
theorem get_cons (c : Cache) (t : Nat) (io : Io) : (Cache.get ((t, io) :: c) t).isSome = true := by
  unfold Cache.get; simp

theorem fields_keeps {env : Env} {rec : Cache → Nat → Except TypeIo.Err Io × Cache} (hrec : ∀ c t, (∀ u ∈ initialOids, (Cache.get c u).isSome = true) → Keeps env c (rec c t).2) :
    ∀ (fs : List (Nat × Bool)) (c : Cache), (∀ u ∈ initialOids, (Cache.get c u).isSome = true) → Keeps env c (resolveFields env.base rec c fs).2
  | [], c, _ => keeps_refl env c
  | (t, dom) :: fs, c, hc0 => by
    unfold resolveFields
    have k1 := hrec c (if dom then env.base t else t) hc0
    cases hr : rec c (if dom then env.base t else t) with
    | mk r c1 =>
      rw [hr] at k1
      cases r with
      | error e => exact k1
      | ok io =>
        dsimp only
        have j1 := fields_keeps (env := env) hrec fs c1 (fun u hu => k1.1 u (hc0 u hu))
        cases hf : resolveFields env.base rec c1 fs with
        | mk r2 c2 =>
          rw [hf] at j1
          cases r2 with
          | error e => exact keeps_trans k1 j1
          | ok ios => exact keeps_trans k1 j1

theorem resolve_keeps {env : Env} : ∀ (fuel : Nat) (from_ : List Nat) (c : Cache) (t : Nat), (∀ u ∈ initialOids, (Cache.get c u).isSome = true) →
    Keeps env c (resolve env fuel from_ c t).2 ∧ ((∃ io, (resolve env fuel from_ c t).1 = .ok io) → Found env t → (Cache.get (resolve env fuel from_ c t).2 t).isSome = true)
  | 0, from_, c, t, _ => ⟨keeps_refl env c, fun ⟨_, h⟩ => by cases h⟩
  | fuel + 1, from_, c, t, hc0 => by
    unfold resolve
    split
    · exact ⟨keeps_refl env c, fun ⟨_, h⟩ => by cases h⟩
    · cases hg : Cache.get c t with
      | some io => exact ⟨keeps_refl env c, fun _ _ => by simp [hg]⟩
      | none =>
        dsimp only
        cases hb : env.builtin t with
        | true => exact ⟨keeps_cons _ (.inr (.inl hb)), fun _ _ => get_cons ..⟩
        | false =>
          simp only [Bool.false_eq_true, if_false]
          cases hc : env.cat t with
          | none =>
            refine ⟨keeps_refl env c, fun _ hf => ?_⟩
            rcases hf with h | h | h
            · have := hc0 t h
              rw [hg] at this
              cases this
            · rw [hb] at h; cases h
            · exact absurd hc h
          | some info =>
            have hf : Found env t := .inr (.inr (by rw [hc]; simp))
            cases info with
            | other => exact ⟨keeps_cons _ hf, fun _ _ => get_cons ..⟩
            | anonymous => exact ⟨keeps_cons _ hf, fun _ _ => get_cons ..⟩
            | domain =>
              dsimp only
              have k1 := (resolve_keeps (env := env) fuel (from_ ++ [t]) c (env.base t) hc0).1
              cases hr : resolve env fuel (from_ ++ [t]) c (env.base t) with
              | mk r c1 =>
                rw [hr] at k1
                cases r with
                | error e => exact ⟨k1, fun ⟨_, h⟩ => by cases h⟩
                | ok io => exact ⟨keeps_trans k1 (keeps_cons _ hf), fun _ _ => get_cons ..⟩
            | array el i o =>
              dsimp only
              have k1 := (resolve_keeps (env := env) fuel (from_ ++ [t]) c el hc0).1
              cases hr : resolve env fuel (from_ ++ [t]) c el with
              | mk r c1 =>
                rw [hr] at k1
                cases r with
                | error e => exact ⟨k1, fun ⟨_, h⟩ => by cases h⟩
                | ok io => exact ⟨keeps_trans k1 (keeps_cons _ hf), fun _ _ => get_cons ..⟩
            | composite fs =>
              dsimp only
              have k1 := fields_keeps (env := env) (fun c u hc0 => (resolve_keeps (env := env) fuel (from_ ++ [t]) c u hc0).1) fs c hc0
              cases hr : resolveFields env.base (resolve env fuel (from_ ++ [t])) c fs with
              | mk r c1 =>
                rw [hr] at k1
                cases r with
                | error e => exact ⟨k1, fun ⟨_, h⟩ => by cases h⟩
                | ok io => exact ⟨keeps_trans k1 (keeps_cons _ hf), fun _ _ => get_cons ..⟩


theorem step_right {env : Env} {depth : Nat} : ∀ (ts : List Nat) (c : Cache), Right env c → Right env (ts.foldl (fun c t => (resolve env depth [] c t).2) c)
  | [], _, h => h
  | t :: ts, c, h => step_right ts _ (resolve_sound depth [] c t h).1

theorem step_keeps {env : Env} {depth : Nat} : ∀ (ts : List Nat) (c : Cache), Right env c → Keeps env c (ts.foldl (fun c t => (resolve env depth [] c t).2) c)
  | [], c, _ => keeps_refl env c
  | t :: ts, c, h => keeps_trans (resolve_keeps depth [] c t h.2).1 (step_keeps ts _ (resolve_sound depth [] c t h).1)

/-- What has been used, and has routines, is in the cache. -/
theorem used_cached {env : Env} {ids : List Nat} (hfin : ∀ t, env.cat t ≠ none → t ∈ ids) {ts : List Nat} {t n : Nat} {io : Io} (ht : t ∈ ts) (hi : Is env n t io) (hf : Found env t) :
    Cache.get (used env (ids.length + 1) ts) t = some io := by
  obtain ⟨a, b, rfl⟩ := List.append_of_mem ht
  have h0 := used_right env (ids.length + 1) a
  have hr := (C50_resolve env ids hfin a t).1 io |>.2 ⟨n, hi⟩
  have h1 := (resolve_keeps (ids.length + 1) [] (used env (ids.length + 1) a) t h0.2).2 ⟨io, hr⟩ hf
  have h2 := (step_keeps (depth := ids.length + 1) b _ (resolve_sound (ids.length + 1) [] (used env (ids.length + 1) a) t h0).1).1 t h1
  have he : used env (ids.length + 1) (a ++ t :: b) = b.foldl (fun c t => (resolve env (ids.length + 1) [] c t).2) (resolve env (ids.length + 1) [] (used env (ids.length + 1) a) t).2 := by
    unfold used
    rw [List.foldl_append, List.foldl_cons]
  rw [← he] at h2
  obtain ⟨io', h3⟩ := Option.isSome_iff_exists.1 h2
  obtain ⟨m, hm⟩ := (used_right env (ids.length + 1) (a ++ t :: b)).1 t io' h3
  rw [h3, is_det hm hi]

/-- What is not found is never there. -/
theorem not_cached {env : Env} {depth : Nat} {ts : List Nat} {t : Nat} (h : ¬ Found env t) : Cache.get (used env depth ts) t = none := by
  cases hg : Cache.get (used env depth ts) t with
  | none => rfl
  | some io =>
    rcases (step_keeps (depth := depth) ts initialCache (initial_right env)).2 t (by unfold used at hg; rw [hg]; rfl) with h' | h'
    · rw [initial_get] at h'
      split at h'
      · exact absurd (.inl ‹_›) h
      · cases h'
    · exact absurd h' h

theorem each_ok {c : Cache} : ∀ {ts : List Nat} {xs : List Cls}, eachType c ts = .ok xs ↔ xs.length = ts.length ∧ ∀ i, ∀ (h : i < ts.length), ∀ (h' : i < xs.length), typeFromOid c ts[i] = .ok xs[i]
  | [], xs => by
    constructor
    · intro h; cases h; exact ⟨rfl, fun i h => by simp at h⟩
    · rintro ⟨h, _⟩
      cases xs with
      | nil => rfl
      | cons => simp at h
  | t :: ts, xs => by
    unfold eachType
    constructor
    · intro h
      cases ht : typeFromOid c t with
      | error e => rw [ht] at h; cases h
      | ok x =>
        rw [ht] at h
        dsimp only at h
        cases hs : eachType c ts with
        | error e => rw [hs] at h; cases h
        | ok ys =>
          rw [hs] at h
          cases h
          obtain ⟨h1, h2⟩ := each_ok.1 hs
          refine ⟨by simp [h1], fun i h h' => ?_⟩
          cases i with
          | zero => exact ht
          | succ i => exact h2 i (by simpa using h) (by simpa using h')
    · rintro ⟨h1, h2⟩
      cases xs with
      | nil => simp at h1
      | cons x xs =>
        have ht := h2 0 (by simp) (by simp)
        have hs : eachType c ts = .ok xs := each_ok.2 ⟨by simpa using h1, fun i h h' => h2 (i + 1) (by simpa using h) (by simpa using h')⟩
        simp only [List.getElem_cons_zero] at ht
        rw [ht]
        dsimp only
        rw [hs]

theorem each_error {c : Cache} {ts : List Nat} {t : Nat} {e : Exn} (ht : t ∈ ts) (h : typeFromOid c t = .error e) : ∃ e, eachType c ts = .error e := by
  cases hs : eachType c ts with
  | error e => exact ⟨e, rfl⟩
  | ok xs =>
    obtain ⟨i, hi, rfl⟩ := List.mem_iff_getElem.1 ht
    obtain ⟨h1, h2⟩ := each_ok.1 hs
    rw [h2 i hi (by omega)] at h
    cases h

end PG.Proofs.Describe
