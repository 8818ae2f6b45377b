import Verif.Model.Settings
import Verif.Props.PgString
/-! # Settings (C41) -/
namespace PG.Settings
open PG

/-- Names stand for themselves, and folding gives names. -/
structure Guc.Wf (g : Guc) : Prop where
  self : ∀ k ∈ g.names, g.fold k = some k
  mem : ∀ x k, g.fold x = some k → k ∈ g.names

/-- What is cached for a parameter is what the server has. -/
def Coh (st : St) (k : Str) : Prop := ∀ v, PyDict.get k st.cache = some v → v = st.server.vals k

/-- The name is the parameter's own name, or no name at all. -/
def ExactName (g : Guc) (x : Str) : Prop := ∀ k, g.fold x = some k → k = x

/-- Several parameters set at once are given under their own names. -/
def Op.exact (g : Guc) : Op → Prop
  | .update l => ∀ e ∈ l, ExactName g e.1
  | _ => True

/-- Parameters are set through the object only, under their own names, and settings are not rolled back. -/
def Op.safe (g : Guc) : Op → Prop
  | .setItem k _ => ExactName g k
  | .delItem k => ExactName g k
  | .update l => ∀ e ∈ l, ExactName g e.1
  | .sql _ _ => False
  | .rollback => False
  | _ => True

theorem safe_exact (g : Guc) (o : Op) (h : o.safe g) : o.exact g := by
  cases o <;> first | trivial | exact h

/-! ## Messages -/

theorem notifies_get (k : Str) : ∀ (ms : List (Str × Str)) (st : St), PyDict.get k (ms.foldl notify st).cache = PyDict.get k (updates st.cache ms)
  | [], _ => rfl
  | m :: ms, st => by
    rw [List.foldl_cons, notifies_get k ms]
    rfl

theorem notifies_server : ∀ (ms : List (Str × Str)) (st : St), (ms.foldl notify st).server = st.server ∧ (ms.foldl notify st).subs = st.subs
  | [], _ => ⟨rfl, rfl⟩
  | m :: ms, st => by
    rw [List.foldl_cons]
    exact notifies_server ms _

theorem change_server (g : Guc) (st : St) (vals : Str → Str) : (change g st vals).server = ⟨vals, st.server.saved⟩ := (notifies_server _ _).1
theorem change_subs (g : Guc) (st : St) (vals : Str → Str) : (change g st vals).subs = st.subs := (notifies_server _ _).2

theorem updates_get_other (k : Str) : ∀ (l c : List (Str × Str)), (∀ e ∈ l, e.1 ≠ k) → PyDict.get k (updates c l) = PyDict.get k c
  | [], _, _ => rfl
  | e :: l, c, h => by
    show PyDict.get k (updates (PyDict.set e.1 e.2 c) l) = _
    rw [updates_get_other k l _ fun x hx => h x (List.mem_cons_of_mem _ hx), PyDict.get_set, if_neg (h e List.mem_cons_self)]

/-- All items of one key have one value. -/
theorem updates_get_same (k v : Str) : ∀ (l c : List (Str × Str)), (∀ e ∈ l, e.1 = k → e.2 = v) → (∃ e ∈ l, e.1 = k) → PyDict.get k (updates c l) = some v
  | e :: l, c, h, hx => by
    show PyDict.get k (updates (PyDict.set e.1 e.2 c) l) = _
    by_cases hl : ∃ e ∈ l, e.1 = k
    · exact updates_get_same k v l _ (fun x hm => h x (List.mem_cons_of_mem _ hm)) hl
    · obtain ⟨y, hy, hyk⟩ := hx
      rcases List.mem_cons.1 hy with rfl | hy
      · rw [updates_get_other k l _ fun x hx hxk => hl ⟨x, hx, hxk⟩, PyDict.get_set, if_pos hyk, h y List.mem_cons_self hyk]
      · exact absurd ⟨y, hy, hyk⟩ hl

/-- After items that agree with `v`, what is cached is `v` if it was. -/
theorem updates_coh (k v : Str) (l c : List (Str × Str)) (h : ∀ e ∈ l, e.1 = k → e.2 = v) (hc : ∀ x, PyDict.get k c = some x → x = v) :
    ∀ x, PyDict.get k (updates c l) = some x → x = v := by
  by_cases hx : ∃ e ∈ l, e.1 = k
  · rw [updates_get_same k v l c h hx]
    intro x hx; exact (Option.some.inj hx).symm
  · rw [updates_get_other k l c fun e he hk => hx ⟨e, he, hk⟩]
    exact hc

theorem reports_val (g : Guc) (a b : Str → Str) (e : Str × Str) (h : e ∈ reports g a b) : e.2 = b e.1 := by
  unfold reports at h
  obtain ⟨k, _, rfl⟩ := List.mem_map.1 h
  rfl

theorem change_get (g : Guc) (st : St) (vals : Str → Str) (k : Str) : PyDict.get k (change g st vals).cache = PyDict.get k (updates st.cache (reports g st.server.vals vals)) := notifies_get k _ _

/-- A change keeps a parameter coherent when it is reported or its value stays. -/
theorem change_coh (g : Guc) (st : St) (vals : Str → Str) (k : Str) (hk : k ∈ g.names) (h : Coh st k) (hr : g.reported k = true ∨ vals k = st.server.vals k) : Coh (change g st vals) k := by
  intro v hv
  rw [change_get] at hv
  rw [change_server]
  show v = vals k
  by_cases hs : vals k = st.server.vals k
  · refine updates_coh k (vals k) _ _ (fun e he hek => ?_) (fun x hx => ?_) v hv
    · rw [reports_val g _ _ e he, hek]
    · rw [hs]; exact h x hx
  · have hr : g.reported k = true := hr.resolve_right hs
    have : ∃ e ∈ reports g st.server.vals vals, e.1 = k := by
      refine ⟨(k, vals k), ?_, rfl⟩
      unfold reports
      refine List.mem_map.2 ⟨k, ?_, rfl⟩
      rw [List.mem_filter]
      refine ⟨hk, ?_⟩
      simp only [hr, Bool.true_and, bne_iff_ne]
      exact fun h => hs h.symm
    rw [updates_get_same k (vals k) _ _ (fun e he hek => by rw [reports_val g _ _ e he, hek]) this] at hv
    exact (Option.some.inj hv).symm

theorem setConfig_some {g : Guc} {vals vals' : Str → Str} {n v c : Str} (h : setConfig g vals n v = some (c, vals')) :
    ∃ k, g.fold n = some k ∧ g.canon k v = some c ∧ vals' = put k c vals := by
  unfold setConfig at h
  split at h
  · cases h
  · rename_i k hk
    split at h
    · cases h
    · rename_i c' hc
      simp only [Option.some.injEq, Prod.mk.injEq] at h
      obtain ⟨rfl, rfl⟩ := h
      exact ⟨k, hk, hc, rfl⟩

/-- Setting several parameters, all under their own names: the rows have the last values, and nothing else changes. -/
theorem setConfigs_exact (g : Guc) : ∀ (l : List (Str × Str)) (vals vals' : Str → Str) (rows : List (Str × Str)), (∀ e ∈ l, ExactName g e.1) → setConfigs g vals l = some (rows, vals') →
    rows.map Prod.fst = l.map Prod.fst ∧ ∀ k, (∀ c, (∀ x, PyDict.get k c = some x → x = vals k) → ∀ x, PyDict.get k (updates c rows) = some x → x = vals' k) ∧ ((∀ e ∈ l, e.1 ≠ k) → vals' k = vals k)
  | [], vals, vals', rows, _, h => by
    simp only [setConfigs, Option.some.injEq, Prod.mk.injEq] at h
    obtain ⟨rfl, rfl⟩ := h
    exact ⟨rfl, fun k => ⟨fun c hc x hx => hc x hx, fun _ => rfl⟩⟩
  | (n, v) :: l, vals, vals', rows, he, h => by
    rw [setConfigs] at h
    split at h
    · cases h
    · rename_i c vals1 h1
      split at h
      · cases h
      · rename_i rows1 vals2 h2
        simp only [Option.some.injEq, Prod.mk.injEq] at h
        obtain ⟨rfl, rfl⟩ := h
        obtain ⟨k0, hk0, hcn, rfl⟩ := setConfig_some h1
        obtain rfl : k0 = n := he (n, v) List.mem_cons_self k0 hk0
        obtain ⟨i1, i2⟩ := setConfigs_exact g l _ _ _ (fun e hm => he e (List.mem_cons_of_mem _ hm)) h2
        refine ⟨by simp [i1], fun k => ⟨fun cc hcc x hx => ?_, fun hne => ?_⟩⟩
        · refine (i2 k).1 (PyDict.set k0 c cc) ?_ x hx
          intro y hy
          rw [PyDict.get_set] at hy
          by_cases hkk : k0 = k
          · rw [if_pos hkk] at hy
            simp [put, hkk, (Option.some.inj hy).symm]
          · rw [if_neg hkk] at hy
            rw [put, if_neg fun h => hkk h.symm]
            exact hcc y hy
        · rw [(i2 k).2 fun e hm => hne e (List.mem_cons_of_mem _ hm), put, if_neg]
          intro h
          exact hne (k0, v) List.mem_cons_self h.symm

theorem setConfigs_names (g : Guc) (hg : g.Wf) : ∀ (l : List (Str × Str)) (vals vals' : Str → Str) (rows : List (Str × Str)) (k : Str), setConfigs g vals l = some (rows, vals') →
    vals' k ≠ vals k → ∃ e ∈ l, g.fold e.1 = some k
  | [], vals, vals', rows, k, h, hne => by
    simp only [setConfigs, Option.some.injEq, Prod.mk.injEq] at h
    exact absurd (by rw [h.2]) hne
  | (n, v) :: l, vals, vals', rows, k, h, hne => by
    rw [setConfigs] at h
    split at h
    · cases h
    · rename_i c vals1 h1
      split at h
      · cases h
      · rename_i rows1 vals2 h2
        simp only [Option.some.injEq, Prod.mk.injEq] at h
        obtain ⟨rfl, rfl⟩ := h
        obtain ⟨k0, hk0, hcn, rfl⟩ := setConfig_some h1
        by_cases hkk : k = k0
        · subst hkk
          exact ⟨(n, v), List.mem_cons_self, hk0⟩
        · obtain ⟨e, he, hek⟩ := setConfigs_names g hg l _ _ _ k h2 (by rw [put, if_neg hkk]; exact hne)
          exact ⟨e, List.mem_cons_of_mem _ he, hek⟩

theorem mget_val (g : Guc) (vals : Str → Str) (ks : List Str) (e : Str × Str) (h : e ∈ settingMget g vals ks) : e.2 = g.plain e.1 (vals e.1) ∧ e.1 ∈ ks ∧ e.1 ∈ g.names := by
  unfold settingMget at h
  obtain ⟨k, hk, rfl⟩ := List.mem_map.1 h
  rw [List.mem_filter] at hk
  exact ⟨rfl, by simpa using hk.2, hk.1⟩

theorem update_coh (g : Guc) (st : St) (l : List (Str × Str)) (k : Str) (hk : k ∈ g.names) (h : Coh st k) (he : ∀ e ∈ l, ExactName g e.1) : Coh (update g st l).2 k := by
  unfold update
  cases hs : setConfigs g st.server.vals l with
  | none => exact h
  | some r =>
    obtain ⟨rows, vals⟩ := r
    obtain ⟨i1, i2⟩ := setConfigs_exact g l _ _ _ he hs
    dsimp only
    intro v hv
    rw [change_server]
    show v = vals k
    -- what the messages left agrees with the old or the new value
    by_cases hch : vals k = st.server.vals k
    · refine (i2 k).1 _ ?_ v hv
      intro x hx
      have := change_coh g st vals k hk h (Or.inr hch) x hx
      rw [this, change_server]; exact hch
    · have hin : ∃ e ∈ rows, e.1 = k := by
        refine Classical.byContradiction fun hno => hch ((i2 k).2 fun e hm hek => hno ?_)
        have : e.1 ∈ rows.map Prod.fst := by rw [i1]; exact List.mem_map_of_mem hm
        obtain ⟨r, hr, hre⟩ := List.mem_map.1 this
        exact ⟨r, hr, hre.trans hek⟩
      have key : PyDict.get k (updates (change g st vals).cache rows) = PyDict.get k (updates [] rows) := by
        clear hv i1 i2 hs
        generalize (change g st vals).cache = c
        revert hin
        generalize ([] : List (Str × Str)) = c'
        intro hin
        induction rows generalizing c c' with
        | nil => obtain ⟨e, he, _⟩ := hin; simp at he
        | cons r rows ih =>
          show PyDict.get k (updates (PyDict.set r.1 r.2 c) rows) = PyDict.get k (updates (PyDict.set r.1 r.2 c') rows)
          by_cases hl : ∃ e ∈ rows, e.1 = k
          · exact ih _ _ hl
          · have hno : ∀ e ∈ rows, e.1 ≠ k := fun e he hek => hl ⟨e, he, hek⟩
            rw [updates_get_other k rows _ hno, updates_get_other k rows _ hno, PyDict.get_set, PyDict.get_set]
            obtain ⟨e, he, hek⟩ := hin
            rcases List.mem_cons.1 he with rfl | he
            · rw [if_pos hek, if_pos hek]
            · exact absurd hek (hno e he)
      rw [key] at hv
      exact (i2 k).1 [] (by simp [PyDict.get_nil]) v hv

theorem getSet_coh (g : Guc) (st : St) (ks : List Str) (k : Str) (hp : ∀ v, g.plain k v = v) (h : Coh st k) : Coh (getSet g st ks).2 k := by
  have : ∀ x, PyDict.get k (updates st.cache (settingMget g st.server.vals (missing st ks))) = some x → x = st.server.vals k := by
    refine updates_coh k _ _ _ (fun e he hek => ?_) h
    rw [(mget_val g _ _ e he).1, hek, hp]
  unfold getSet
  split
  · exact h
  · split
    · exact this
    · exact this

theorem step_coh (g : Guc) (hg : g.Wf) (st : St) (o : Op) (k : Str) (hk : k ∈ g.names) (hp : ∀ v, g.plain k v = v) (h : Coh st k)
    (ho : if g.reported k then o.exact g else o.safe g) : Coh (step g st o).2 k := by
  have hex : o.exact g := by
    split at ho
    · exact ho
    · exact safe_exact g o ho
  have hsafe : g.reported k = true ∨ o.safe g := by
    cases hr : g.reported k with
    | true => exact Or.inl rfl
    | false => rw [hr] at ho; exact Or.inr ho
  cases o with
  | getItem x => exact h
  | clear => intro v hv; simp [step, PyDict.get_nil] at hv
  | subscribe key f => exact h
  | unsubscribe key f =>
    simp only [step]
    unfold unsubscribe
    split
    · exact h
    · split
      · exact h
      · exact h
  | start => exact h
  | commit => exact h
  | get x =>
    simp only [step]
    unfold get
    split
    · exact h
    · split
      · rename_i v hv
        intro y hy
        dsimp only at hy ⊢
        rw [PyDict.get_set] at hy
        by_cases hx : x = k
        · rw [if_pos hx] at hy
          unfold settingGet at hv
          split at hv
          · rw [← Option.some.inj hy, ← Option.some.inj hv, hx, hp]
          · cases hv
        · rw [if_neg hx] at hy
          exact h y hy
      · exact h
  | getSet ks => exact getSet_coh g st ks k hp h
  | update l => exact update_coh g st l k hk h hex
  | setItem x v =>
    simp only [step]
    unfold setItem
    split
    · exact h
    · split
      · exact h
      · rename_i c vals hs
        obtain ⟨k0, hk0, _, rfl⟩ := setConfig_some hs
        intro y hy
        dsimp only at hy ⊢
        rw [PyDict.get_set] at hy
        by_cases hx : x = k
        · rw [if_pos hx] at hy
          subst hx
          have := hg.self x hk
          rw [this] at hk0
          obtain rfl := Option.some.inj hk0
          rw [change_server]
          simp [put, (Option.some.inj hy).symm]
        · rw [if_neg hx] at hy
          refine change_coh g st _ k hk h ?_ y hy
          rcases hsafe with hr | hs
          · exact Or.inl hr
          · right
            obtain rfl := hs k0 hk0
            rw [put, if_neg fun h => hx h.symm]
  | delItem x =>
    simp only [step]
    unfold delItem
    split
    · exact h
    · rename_i k0 hk0
      intro y hy
      dsimp only at hy ⊢
      rw [PyDict.get_erase] at hy
      by_cases hx : x = k
      · rw [if_pos hx] at hy; cases hy
      · rw [if_neg hx] at hy
        refine change_coh g st _ k hk h ?_ y hy
        rcases hsafe with hr | hs
        · exact Or.inl hr
        · right
          obtain rfl := hs k0 hk0
          rw [put, if_neg fun h => hx h.symm]
  | sql x v =>
    have hr : g.reported k = true := hsafe.resolve_right fun h => h
    simp only [step]
    split
    · exact h
    · exact change_coh g st _ k hk h (Or.inl hr)
  | rollback =>
    have hr : g.reported k = true := hsafe.resolve_right fun h => h
    simp only [step]
    split
    · exact h
    · rename_i vals _
      have := change_coh g st vals k hk h (Or.inl hr)
      intro y hy
      have := this y hy
      rw [change_server] at this
      exact this

theorem run_coh (g : Guc) (hg : g.Wf) (k : Str) (hk : k ∈ g.names) (hp : ∀ v, g.plain k v = v) : ∀ (os : List Op) (st : St), Coh st k →
    (∀ o ∈ os, if g.reported k then o.exact g else o.safe g) → Coh (run g st os).2 k
  | [], _, h, _ => h
  | o :: os, st, h, ho => run_coh g hg k hk hp os _ (step_coh g hg st o k hk hp h (ho o List.mem_cons_self)) fun x hx => ho x (List.mem_cons_of_mem _ hx)

theorem coh_getItem (g : Guc) (st : St) (k : Str) (hk : k ∈ g.names) (hp : ∀ v, g.plain k v = v) (h : Coh st k) : getItem g st k = .value (st.server.vals k) := by
  unfold getItem
  split
  · rename_i v hv
    rw [h v hv]
  · unfold settingGet
    rw [if_pos hk]
    dsimp only
    rw [hp]

/-- **C41 (coherent).** After any history on a new connection, reading a parameter gives the value the server has: always for a reported parameter (whoever changed it, rollbacks included); for the others as long as they are set through
this object only, under their own names, and not rolled back. (Of parameters whose value `pg_settings` shows as it is.) -/
theorem C41_coherent_partial (g : Guc) (hg : g.Wf) (k : Str) (hk : k ∈ g.names) (hp : ∀ v, g.plain k v = v) (os : List Op) (ho : ∀ o ∈ os, if g.reported k then o.exact g else o.safe g)
    (server : Server) (subs : List (Option Str × List Nat)) (calls : List (Nat × Str × Str)) :
    let st := (run g ⟨server, [], subs, calls⟩ os).2
    getItem g st k = .value (st.server.vals k) ∧ (get g st k).1 = .value (st.server.vals k) := by
  have hc := run_coh g hg k hk hp os ⟨server, [], subs, calls⟩ (by intro v hv; simp [PyDict.get_nil] at hv) ho
  refine ⟨coh_getItem g _ k hk hp hc, ?_⟩
  have := coh_getItem g _ k hk hp hc
  unfold getItem at this
  unfold get
  split
  · rename_i v hv
    rw [hv] at this
    exact this
  · rename_i hv
    rw [hv] at this
    dsimp only at this
    split
    · rename_i v hv2
      rw [hv2] at this
      exact this
    · rename_i hv2
      rw [hv2] at this
      cases this

/-- **C41 (set, then read).** After such a history, setting a parameter that succeeds leaves the server with the given value, or what the server makes of it; and reading gives that. -/
theorem C41_read_after_write_partial (g : Guc) (hg : g.Wf) (k : Str) (hk : k ∈ g.names) (hp : ∀ v, g.plain k v = v) (os : List Op) (ho : ∀ o ∈ os, if g.reported k then o.exact g else o.safe g)
    (server : Server) (v : Str) :
    let st := (run g ⟨server, [], [], []⟩ os).2
    let r := setItem g st k v
    (r.1 = .none → (r.2.server.vals k = v ∨ g.canon k v = some (r.2.server.vals k)) ∧ getItem g r.2 k = .value (r.2.server.vals k)) ∧
    (r.1 ≠ .none → g.canon k v = none ∧ r.2 = st) := by
  have hc := run_coh g hg k hk hp os ⟨server, [], [], []⟩ (by intro v hv; simp [PyDict.get_nil] at hv) ho
  dsimp only
  generalize (run g ⟨server, [], [], []⟩ os).2 = st at hc
  have hc' : Coh (setItem g st k v).2 k := step_coh g hg st (.setItem k v) k hk hp hc (by
    split
    · trivial
    · intro k0 hk0
      rw [hg.self k hk] at hk0
      exact (Option.some.inj hk0).symm)
  refine ⟨fun _ => ⟨?_, coh_getItem g _ k hk hp hc'⟩, ?_⟩
  · rename_i hn
    unfold setItem at hn ⊢
    split at hn
    · rename_i h
      rw [if_pos h]
      exact Or.inl (hc v h).symm
    · rename_i h
      rw [if_neg h]
      cases hs : setConfig g st.server.vals k v with
      | none => rw [hs] at hn; cases hn
      | some r =>
        obtain ⟨c, vals⟩ := r
        obtain ⟨k0, hk0, hcn, rfl⟩ := setConfig_some hs
        rw [hg.self k hk] at hk0
        obtain rfl := Option.some.inj hk0
        right
        dsimp only
        rw [change_server, hcn]
        simp [put]
  · intro hn
    unfold setItem at hn ⊢
    split at hn
    · exact absurd rfl hn
    · rename_i h
      rw [if_neg h]
      cases hs : setConfig g st.server.vals k v with
      | none =>
        refine ⟨?_, rfl⟩
        unfold setConfig at hs
        rw [hg.self k hk] at hs
        dsimp only at hs
        cases hcn : g.canon k v with
        | none => rfl
        | some c => rw [hcn] at hs; cases hs
      | some r => rw [hs] at hn; exact absurd rfl hn

end PG.Settings
