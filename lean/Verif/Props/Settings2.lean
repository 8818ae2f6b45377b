import Verif.Props.Settings
/-! # Settings: `with` blocks, `path`, subscriptions (C41) -/
namespace PG.Settings
open PG

/-- A value shown by the server is one it accepts and shows the same way. -/
def Shown (g : Guc) (k v : Str) : Prop := g.canon k v = some v

theorem updates_append (c a b : List (Str × Str)) : updates c (a ++ b) = updates (updates c a) b := by simp [updates, List.foldl_append]

theorem set_mem {k v : Str} : ∀ {d : List (Str × Str)} {e : Str × Str}, e ∈ PyDict.set k v d → e = (k, v) ∨ e ∈ d
  | [], e, h => by left; simpa [PyDict.set] using h
  | x :: d, e, h => by
    rw [PyDict.set] at h
    split at h
    · rcases List.mem_cons.1 h with h | h
      · exact Or.inl h
      · exact Or.inr (List.mem_cons_of_mem _ h)
    · rcases List.mem_cons.1 h with h | h
      · exact Or.inr (by rw [h]; exact List.mem_cons_self)
      · rcases set_mem h with h | h
        · exact Or.inl h
        · exact Or.inr (List.mem_cons_of_mem _ h)

theorem updates_mem : ∀ {l c : List (Str × Str)} {e : Str × Str}, e ∈ updates c l → e ∈ l ∨ e ∈ c
  | [], _, _, h => Or.inr h
  | x :: l, c, e, h => by
    have h : e ∈ updates (PyDict.set x.1 x.2 c) l := h
    rcases updates_mem h with h | h
    · exact Or.inl (List.mem_cons_of_mem _ h)
    · rcases set_mem h with h | h
      · exact Or.inl (by rw [h]; exact List.mem_cons_self)
      · exact Or.inr h

/-- What `getset` returns when it does not raise: of each key the value the server has. -/
theorem getSet_items (g : Guc) (st st' : St) (ks : List Str) (items : List (Str × Str)) (hk : ∀ k ∈ ks, Coh st k ∧ ∀ v, g.plain k v = v) (h : getSet g st ks = (.items items, st')) :
    (∀ e ∈ items, e.1 ∈ ks ∧ e.2 = st.server.vals e.1) ∧ (∀ k ∈ ks, PyDict.get k items = some (st.server.vals k)) ∧ st'.server = st.server := by
  have hc : ∀ e ∈ cached st ks, e.1 ∈ ks ∧ e.2 = st.server.vals e.1 := by
    intro e he
    unfold cached at he
    obtain ⟨k, hm, hg⟩ := List.mem_filterMap.1 he
    obtain ⟨v, hv, rfl⟩ := Option.map_eq_some_iff.1 hg
    exact ⟨hm, (hk k hm).1 v hv⟩
  have hcm : ∀ k ∈ ks, k ∉ missing st ks → ∃ e ∈ cached st ks, e.1 = k := by
    intro k hm hn
    unfold missing at hn
    rw [List.mem_filter] at hn
    have : (PyDict.get k st.cache).isNone ≠ true := fun h => hn ⟨hm, h⟩
    cases hv : PyDict.get k st.cache with
    | none => rw [hv] at this; simp at this
    | some v => exact ⟨(k, v), List.mem_filterMap.2 ⟨k, hm, by rw [hv]; rfl⟩, rfl⟩
  have hmm : ∀ k ∈ missing st ks, k ∈ ks := fun k h => (List.mem_filter.1 h).1
  have hmg : ∀ e ∈ settingMget g st.server.vals (missing st ks), e.1 ∈ ks ∧ e.2 = st.server.vals e.1 := by
    intro e he
    obtain ⟨h1, h2, _⟩ := mget_val g _ _ e he
    exact ⟨hmm _ h2, by rw [h1, (hk _ (hmm _ h2)).2]⟩
  unfold getSet at h
  split at h
  · rename_i hmiss
    simp only [Prod.mk.injEq, Out.items.injEq] at h
    obtain ⟨rfl, rfl⟩ := h
    refine ⟨fun e he => ?_, fun k hm => ?_, rfl⟩
    · rcases updates_mem he with he | he
      · exact hc e he
      · simp at he
    · exact updates_get_same k _ _ _ (fun e he hek => by rw [(hc e he).2, hek]) (hcm k hm (by rw [hmiss]; simp))
  · split at h
    · simp at h
    · rename_i hall
      simp only [Prod.mk.injEq, Out.items.injEq] at h
      obtain ⟨rfl, rfl⟩ := h
      rw [← updates_append]
      refine ⟨fun e he => ?_, fun k hm => ?_, rfl⟩
      · rcases updates_mem he with he | he
        · rcases List.mem_append.1 he with he | he
          · exact hc e he
          · exact hmg e he
        · simp at he
      · refine updates_get_same k _ _ _ (fun e he hek => ?_) ?_
        · rcases List.mem_append.1 he with he | he
          · rw [(hc e he).2, hek]
          · rw [(hmg e he).2, hek]
        · by_cases hms : k ∈ missing st ks
          · have : k ∈ (settingMget g st.server.vals (missing st ks)).map Prod.fst := Classical.byContradiction fun hn => hall ⟨k, hms, hn⟩
            obtain ⟨e, he, hek⟩ := List.mem_map.1 this
            exact ⟨e, List.mem_append_right _ he, hek⟩
          · obtain ⟨e, he, hek⟩ := hcm k hm hms
            exact ⟨e, List.mem_append_left _ he, hek⟩

/-- Setting parameters to values that are shown as they are succeeds. -/
theorem setConfigs_shown (g : Guc) (f : Str → Str) : ∀ (l : List (Str × Str)) (vals : Str → Str), (∀ e ∈ l, g.fold e.1 = some e.1 ∧ Shown g e.1 e.2 ∧ e.2 = f e.1) →
    ∃ vals', setConfigs g vals l = some (l, vals') ∧ ∀ k, vals' k = if k ∈ l.map Prod.fst then f k else vals k
  | [], vals, _ => ⟨vals, rfl, by simp⟩
  | (n, v) :: l, vals, h => by
    obtain ⟨h1, h2, h3⟩ := h (n, v) List.mem_cons_self
    obtain ⟨vals', i1, i2⟩ := setConfigs_shown g f l (put n v vals) fun e he => h e (List.mem_cons_of_mem _ he)
    have hs : setConfig g vals n v = some (v, put n v vals) := by
      unfold setConfig
      rw [h1]; dsimp only
      have h2 : g.canon n v = some v := h2
      rw [h2]
    refine ⟨vals', ?_, ?_⟩
    · rw [setConfigs, hs]
      dsimp only
      rw [i1]
    · intro k
      rw [i2 k]
      by_cases hkl : k ∈ l.map Prod.fst
      · rw [if_pos hkl, if_pos (by simp only [List.map_cons]; exact List.mem_cons_of_mem _ hkl)]
      · rw [if_neg hkl]
        by_cases hkn : k = n
        · subst hkn
          rw [if_pos (by simp)]
          have h3 : v = f k := h3
          simp [put, h3]
        · rw [if_neg (by simp only [List.map_cons, List.mem_cons]; exact fun h => h.elim hkn hkl), put, if_neg hkn]

theorem update_server (g : Guc) (st : St) (l : List (Str × Str)) :
    (update g st l).2.server.vals = match setConfigs g st.server.vals l with | none => st.server.vals | some (_, vals) => vals := by
  unfold update
  cases setConfigs g st.server.vals l with
  | none => rfl
  | some r => dsimp only; rw [change_server]

/-- **C41 (restored).** Whatever is done in a `with db.settings(...)` block, and however it is left, the parameters it set have the values they had before: also when the block changed them itself, by SQL, in a rolled back transaction,
or when one of the values was refused on entering. What the cache had of them must be right on entering. -/
theorem C41_restored_partial (g : Guc) (hg : g.Wf) (l : List (Str × Str)) (p : Prog) (st : St)
    (h : ∀ e ∈ l, e.1 ∈ g.names ∧ (∀ v, g.plain e.1 v = v) ∧ Coh st e.1 ∧ Shown g e.1 (st.server.vals e.1)) :
    ∀ e ∈ l, (exec g (.block l p) st).2.server.vals e.1 = st.server.vals e.1 := by
  intro e he
  have hks : ∀ k ∈ l.map Prod.fst, Coh st k ∧ ∀ v, g.plain k v = v := by
    intro k hk
    obtain ⟨x, hx, rfl⟩ := List.mem_map.1 hk
    exact ⟨(h x hx).2.2.1, (h x hx).2.1⟩
  rw [exec]
  have hsame : (getSet g st (l.map Prod.fst)).2.server = st.server := by
    unfold getSet
    split
    · rfl
    · split <;> rfl
  cases hgs : getSet g st (l.map Prod.fst) with
  | mk o st1 =>
    rw [hgs] at hsame
    dsimp only at hsame
    cases o with
    | items stored =>
      dsimp only
      obtain ⟨g1, g2, _⟩ := getSet_items g st st1 _ stored hks hgs
      cases hup : update g st1 l with
      | mk o2 st2 =>
        cases o2 with
        | none =>
          dsimp only
          have hst : ∀ x ∈ stored, g.fold x.1 = some x.1 ∧ Shown g x.1 x.2 ∧ x.2 = st.server.vals x.1 := by
            intro x hx
            obtain ⟨q1, q2⟩ := g1 x hx
            obtain ⟨y, hy, hyx⟩ := List.mem_map.1 q1
            obtain ⟨r1, _, _, r4⟩ := h y hy
            rw [hyx] at r1 r4
            exact ⟨hg.self _ r1, by rw [q2]; exact r4, q2⟩
          obtain ⟨vals', k1, k2⟩ := setConfigs_shown g st.server.vals stored (exec g p st2).2.server.vals hst
          have hex : update g (exec g p st2).2 stored = (.none, { change g (exec g p st2).2 vals' with cache := updates (change g (exec g p st2).2 vals').cache stored }) := by
            unfold update
            rw [k1]
          rw [hex]
          dsimp only
          rw [change_server]
          show vals' e.1 = _
          rw [k2, if_pos]
          have := g2 e.1 (List.mem_map_of_mem he)
          exact List.mem_map.2 ⟨_, PyDict.get_mem this, rfl⟩
        | _ =>
          dsimp only
          have : st2.server.vals = (update g st1 l).2.server.vals := by rw [hup]
          rw [this, update_server]
          unfold update at hup
          cases hsc : setConfigs g st1.server.vals l with
          | none => dsimp only; rw [hsame]
          | some r => rw [hsc] at hup; simp at hup
    | _ => dsimp only; rw [hsame]

/-- Calls that keep the cache of a parameter right. -/
def Prog.keeps (g : Guc) (k : Str) : Prog → Prop
  | .op o => if g.reported k then o.exact g else o.safe g
  | .seq p q => p.keeps g k ∧ q.keeps g k
  | .tryExcept p q => p.keeps g k ∧ q.keeps g k
  | .block l p => (∀ e ∈ l, e.1 ∈ g.names) ∧ p.keeps g k
  | _ => True

theorem getSet_keys (g : Guc) (st st' : St) (ks : List Str) (items : List (Str × Str)) (h : getSet g st ks = (.items items, st')) : ∀ e ∈ items, e.1 ∈ ks := by
  have hc : ∀ e ∈ cached st ks, e.1 ∈ ks := by
    intro e he
    obtain ⟨k, hm, hg⟩ := List.mem_filterMap.1 he
    obtain ⟨v, hv, rfl⟩ := Option.map_eq_some_iff.1 hg
    exact hm
  intro e he
  unfold getSet at h
  split at h
  · simp only [Prod.mk.injEq, Out.items.injEq] at h
    obtain ⟨rfl, rfl⟩ := h
    rcases updates_mem he with he | he
    · exact hc e he
    · simp at he
  · split at h
    · simp at h
    · simp only [Prod.mk.injEq, Out.items.injEq] at h
      obtain ⟨rfl, rfl⟩ := h
      rw [← updates_append] at he
      rcases updates_mem he with he | he
      · rcases List.mem_append.1 he with he | he
        · exact hc e he
        · exact (List.mem_filter.1 (mget_val g _ _ e he).2.1).1
      · simp at he

/-- **C41 (coherent in programs).** Blocks, nested to any depth and left in any way, keep the cache right. -/
theorem C41_program_partial (g : Guc) (hg : g.Wf) (k : Str) (hk : k ∈ g.names) (hp : ∀ v, g.plain k v = v) : ∀ (p : Prog) (st : St), p.keeps g k → Coh st k → Coh (exec g p st).2 k
  | .skip, _, _, h => h
  | .raise, _, _, h => h
  | .op o, st, ho, h => step_coh g hg st o k hk hp h ho
  | .seq p q, st, ho, h => by
    rw [exec]
    have ih := C41_program_partial g hg k hk hp p st ho.1 h
    split
    · exact ih
    · exact C41_program_partial g hg k hk hp q _ ho.2 ih
  | .tryExcept p q, st, ho, h => by
    rw [exec]
    have ih := C41_program_partial g hg k hk hp p st ho.1 h
    split
    · exact C41_program_partial g hg k hk hp q _ ho.2 ih
    · exact ih
  | .block l p, st, ho, h => by
    have hex : ∀ e ∈ l, ExactName g e.1 := by
      intro e he n hn
      rw [hg.self _ (ho.1 e he)] at hn
      exact (Option.some.inj hn).symm
    rw [exec]
    have hgc := getSet_coh g st (l.map Prod.fst) k hp h
    cases hgs : getSet g st (l.map Prod.fst) with
    | mk o st1 =>
      rw [hgs] at hgc
      cases o with
      | items stored =>
        dsimp only
        have huc := update_coh g st1 l k hk hgc hex
        have hkeys := getSet_keys g st st1 _ stored hgs
        have hsx : ∀ e ∈ stored, ExactName g e.1 := by
          intro e he n hn
          obtain ⟨y, hy, hyx⟩ := List.mem_map.1 (hkeys e he)
          have := hex y hy
          rw [hyx] at this
          exact this n hn
        cases hup : update g st1 l with
        | mk o2 st2 =>
          rw [hup] at huc
          cases o2 with
          | none =>
            dsimp only
            have ih := C41_program_partial g hg k hk hp p st2 ho.2 huc
            have := update_coh g (exec g p st2).2 stored k hk ih hsx
            cases hu2 : update g (exec g p st2).2 stored with
            | mk o3 st3 =>
              rw [hu2] at this
              cases o3 <;> exact this
          | _ => exact huc
      | _ => exact hgc

/-! ## A server for the examples -/

/-- Two parameters without units, one reported, and one whose values have a unit. -/
def small : Guc where
  names := ["TimeZone".toList, "role".toList, "work_mem".toList]
  fold x := if x = "TimeZone".toList ∨ x = "timezone".toList then some "TimeZone".toList else if x = "role".toList then some "role".toList else if x = "work_mem".toList then some "work_mem".toList else none
  canon _ v := if v = [] then none else some v
  plain k v := if k = "work_mem".toList then v.filter Char.isDigit else v
  reported k := k = "TimeZone".toList
  reset _ := "x".toList

theorem small_wf : small.Wf where
  self := by decide
  mem := by
    intro x k h
    simp only [small] at h ⊢
    split at h
    · rw [← Option.some.inj h]; decide
    · split at h
      · rw [← Option.some.inj h]; decide
      · split at h
        · rw [← Option.some.inj h]; decide
        · cases h

/-- The start. -/
def st0 : St := ⟨⟨fun _ => "a".toList, none⟩, [], [], []⟩

/-- The hypotheses of `C41_coherent_partial` hold of a history with a rollback for the reported parameter, and of one without for the other. -/
example : (∀ v, small.plain "TimeZone".toList v = v) ∧ (∀ v, small.plain "role".toList v = v) ∧
    (∀ o ∈ [Op.start, .setItem "timezone".toList "b".toList, .sql "TimeZone".toList "c".toList, .rollback], o.exact small) ∧
    (∀ o ∈ [Op.start, .setItem "role".toList "b".toList, .delItem "role".toList, .commit], o.safe small) := by
  have hn : ∀ k : Str, k ≠ "work_mem".toList → ∀ v, small.plain k v = v := fun k hk v => if_neg hk
  refine ⟨hn _ (by decide), hn _ (by decide), ?_, ?_⟩
  · simp only [List.mem_cons, List.not_mem_nil, or_false]
    rintro o (rfl | rfl | rfl | rfl) <;> trivial
  · simp only [List.mem_cons, List.not_mem_nil, or_false]
    rintro o (rfl | rfl | rfl | rfl)
    · trivial
    · intro k hk
      have : small.fold "role".toList = some "role".toList := by decide
      rw [this] at hk; exact (Option.some.inj hk).symm
    · intro k hk
      have : small.fold "role".toList = some "role".toList := by decide
      rw [this] at hk; exact (Option.some.inj hk).symm
    · trivial

example : (run small st0 [.start, .setItem "TimeZone".toList "b".toList, .rollback, .getItem "TimeZone".toList]).1 = [.none, .none, .none, .value "a".toList] := by decide
example : (exec small (.block [("role".toList, "b".toList)] (.op (.sql "role".toList "c".toList))) st0).2.server.vals "role".toList = "a".toList := by decide
example : Shown small "role".toList (st0.server.vals "role".toList) ∧ Coh st0 "role".toList := ⟨show small.canon _ _ = _ by decide, fun v hv => by cases hv⟩

/-! ## `path` -/

/-- **C41 (path).** Setting `path` to any names and reading it gives the names. -/
theorem C41_path_partial (U : Unicode) (names : List Str) (h : names ≠ []) : pathOf U (pathText names) = .ok names := by
  have hs : U.isSpace ',' = false ∧ U.isAlnum ',' = false := by
    rw [U.space_ascii _ (by decide), U.alnum_ascii _ (by decide)]
    decide
  have := Props.PgString.C28_split_ident U ',' (by decide) hs.1 hs.2 (by decide) (names.map fun x => (PgString.quoteIdent x, x)) (by simpa using h)
    (by intro p hp; obtain ⟨x, _, rfl⟩ := List.mem_map.1 hp; exact Props.PgString.quoteIdent_written U x)
  simpa [pathOf, pathText, Function.comp_def] using this

/-! ## Subscriptions -/

/-- Whether a callback is subscribed, by the last call about it. -/
def subscribed (key : Option Str) (f : Nat) : Bool → List Op → Bool
  | b, [] => b
  | b, .subscribe k x :: os => subscribed key f (if k = key ∧ x = f then true else b) os
  | b, .unsubscribe k x :: os => subscribed key f (if k = key ∧ x = f then false else b) os
  | b, _ :: os => subscribed key f b os

/-- The callbacks of a key. -/
def callbacks (st : St) (key : Option Str) : List Nat := (PyDict.get key st.subs).getD []

theorem step_subs (g : Guc) (st : St) (o : Op) (key : Option Str) (hn : (callbacks st key).Nodup) :
    (callbacks (step g st o).2 key).Nodup ∧ ∀ f, f ∈ callbacks (step g st o).2 key ↔ subscribed key f (decide (f ∈ callbacks st key)) [o] = true := by
  have same : ∀ st', st'.subs = st.subs → (callbacks st' key).Nodup ∧ ∀ f, f ∈ callbacks st' key ↔ decide (f ∈ callbacks st key) = true := by
    intro st' h
    unfold callbacks
    rw [h]
    exact ⟨hn, fun f => by simp⟩
  cases o with
  | subscribe k x =>
    have hcb : callbacks (step g st (.subscribe k x)).2 key = if k = key then (if x ∈ callbacks st key then callbacks st key else callbacks st key ++ [x]) else callbacks st key := by
      simp only [step, subscribe, callbacks, PyDict.get_set]
      by_cases hk : k = key
      · subst hk
        rw [if_pos rfl, if_pos rfl]
        rfl
      · simp [hk]
    rw [hcb]
    by_cases hk : k = key
    · subst hk
      rw [if_pos rfl]
      by_cases hx : x ∈ callbacks st k
      · rw [if_pos hx]
        refine ⟨hn, fun f => ?_⟩
        simp only [subscribed]
        by_cases hxf : x = f
        · subst hxf; simp [hx]
        · simp [hxf]
      · rw [if_neg hx]
        refine ⟨?_, fun f => ?_⟩
        · rw [List.nodup_append]
          refine ⟨hn, by simp, ?_⟩
          intro a ha b hb
          simp at hb
          subst hb
          intro hab
          subst hab
          exact hx ha
        · simp only [subscribed, List.mem_append, List.mem_singleton]
          by_cases hxf : x = f
          · subst hxf; simp
          · have : f ≠ x := fun h => hxf h.symm
            simp [hxf, this]
    · rw [if_neg hk]
      refine ⟨hn, fun f => ?_⟩
      simp [subscribed, hk]
  | unsubscribe k x =>
    have hcb : callbacks (step g st (.unsubscribe k x)).2 key = if k = key then (callbacks st key).erase x else callbacks st key := by
      simp only [step, unsubscribe]
      cases hg : PyDict.get k st.subs with
      | none =>
        dsimp only
        by_cases hk : k = key
        · subst hk; simp [callbacks, hg]
        · simp [hk]
      | some l =>
        dsimp only
        by_cases hx : x ∈ l
        · rw [if_pos hx]
          simp only [callbacks, PyDict.get_set]
          by_cases hk : k = key
          · subst hk; simp [hg]
          · simp [hk]
        · rw [if_neg hx]
          by_cases hk : k = key
          · subst hk
            simp only [callbacks, hg, if_true, Option.getD_some]
            exact (List.erase_of_not_mem hx).symm
          · simp [hk]
    rw [hcb]
    by_cases hk : k = key
    · subst hk
      rw [if_pos rfl]
      refine ⟨hn.erase _, fun f => ?_⟩
      rw [List.Nodup.mem_erase_iff hn]
      simp only [subscribed]
      by_cases hxf : x = f
      · subst hxf; simp
      · have : f ≠ x := fun h => hxf h.symm
        simp [hxf, this]
    · rw [if_neg hk]
      refine ⟨hn, fun f => ?_⟩
      simp [subscribed, hk]
  | getItem k => exact same _ rfl
  | clear => exact same _ rfl
  | start => exact same _ rfl
  | commit => exact same _ rfl
  | setItem k v =>
    refine same _ ?_
    simp only [step, setItem]
    split
    · rfl
    · split
      · rfl
      · exact change_subs g _ _
  | delItem k =>
    refine same _ ?_
    simp only [step, delItem]
    split
    · rfl
    · exact change_subs g _ _
  | get k =>
    refine same _ ?_
    simp only [step, get]
    split
    · rfl
    · split <;> rfl
  | getSet ks =>
    refine same _ ?_
    simp only [step, getSet]
    split
    · rfl
    · split <;> rfl
  | update l =>
    refine same _ ?_
    simp only [step, update]
    split
    · rfl
    · exact change_subs g _ _
  | sql k v =>
    refine same _ ?_
    simp only [step]
    split
    · rfl
    · exact change_subs g _ _
  | rollback =>
    refine same _ ?_
    simp only [step]
    split
    · rfl
    · exact change_subs g _ _

theorem subscribed_cons (key : Option Str) (f : Nat) (b : Bool) (o : Op) (os : List Op) : subscribed key f b (o :: os) = subscribed key f (subscribed key f b [o]) os := by
  cases o <;> rfl

theorem run_subs (g : Guc) (key : Option Str) : ∀ (os : List Op) (st : St), (callbacks st key).Nodup →
    (callbacks (run g st os).2 key).Nodup ∧ ∀ f, f ∈ callbacks (run g st os).2 key ↔ subscribed key f (decide (f ∈ callbacks st key)) os = true
  | [], st, hn => ⟨hn, fun f => by simp [subscribed, run]⟩
  | o :: os, st, hn => by
    obtain ⟨h1, h2⟩ := step_subs g st o key hn
    obtain ⟨i1, i2⟩ := run_subs g key os _ h1
    refine ⟨i1, fun f => ?_⟩
    simp only [run]
    rw [i2 f, subscribed_cons]
    have : decide (f ∈ callbacks (step g st o).2 key) = subscribed key f (decide (f ∈ callbacks st key)) [o] := by
      rw [Bool.eq_iff_iff, decide_eq_true_iff]
      exact h2 f
    rw [this]

/-- **C41 (subscriptions).** After any history on a new connection, a message about a parameter calls exactly the callbacks whose last call of `subscribe` or `unsubscribe` for that parameter was `subscribe`, each once, and then
those subscribed to all parameters, each once; each with the parameter and its new value. -/
theorem C41_subscribed (g : Guc) (os : List Op) (server : Server) (m : Str × Str) :
    let st := (run g ⟨server, [], [], []⟩ os).2
    ∃ own all : List Nat, (notify st m).calls.reverse = st.calls.reverse ++ (own ++ all).map (fun f => (f, m.1, m.2)) ∧
      own.Nodup ∧ all.Nodup ∧ (∀ f, f ∈ own ↔ subscribed (some m.1) f false os = true) ∧ (∀ f, f ∈ all ↔ subscribed none f false os = true) := by
  dsimp only
  obtain ⟨a1, a2⟩ := run_subs g (some m.1) os ⟨server, [], [], []⟩ (by simp [callbacks, PyDict.get_nil])
  obtain ⟨b1, b2⟩ := run_subs g none os ⟨server, [], [], []⟩ (by simp [callbacks, PyDict.get_nil])
  refine ⟨_, _, ?_, a1, b1, fun f => ?_, fun f => ?_⟩
  · simp [notify, callbacks]
  · rw [a2 f]; simp [callbacks, PyDict.get_nil]
  · rw [b2 f]; simp [callbacks, PyDict.get_nil]

example : (run small st0 [.subscribe (some "TimeZone".toList) 1, .subscribe none 2, .subscribe none 1, .subscribe none 2, .unsubscribe none 2, .sql "timezone".toList "b".toList]).2.calls =
    [(1, "TimeZone".toList, "b".toList), (1, "TimeZone".toList, "b".toList)] := by decide

/-- **C41 (one message per change).** A parameter set by SQL: one message when it is reported and its value has changed, else none; other parameters are not affected. -/
theorem C41_message (g : Guc) (hg : g.Wf) (hn : g.names.Nodup) (a : Str → Str) (n v c : Str) (vals : Str → Str) (h : setConfig g a n v = some (c, vals)) :
    ∃ k, g.fold n = some k ∧ g.canon k v = some c ∧ vals k = c ∧ (∀ x, x ≠ k → vals x = a x) ∧ reports g a vals = if g.reported k ∧ a k ≠ c then [(k, c)] else [] := by
  obtain ⟨k, hk, hcn, rfl⟩ := setConfig_some h
  have hmem := hg.mem n k hk
  refine ⟨k, hk, hcn, by simp [put], fun x hx => by simp [put, hx], ?_⟩
  unfold reports
  have hf : g.names.filter (fun x => g.reported x && a x != put k c a x) = if g.reported k ∧ a k ≠ c then [k] else [] := by
    have : ∀ l : List Str, l.Nodup → l.filter (fun x => g.reported x && a x != put k c a x) = if k ∈ l ∧ g.reported k ∧ a k ≠ c then [k] else [] := by
      intro l
      induction l with
      | nil => simp
      | cons y l ih =>
        intro hnd
        rw [List.nodup_cons] at hnd
        have ih := ih hnd.2
        by_cases hy : y = k
        · subst hy
          have hno : l.filter (fun x => g.reported x && a x != put y c a x) = [] := by rw [ih, if_neg fun h => hnd.1 h.1]
          by_cases hp : g.reported y = true ∧ a y ≠ c
          · rw [List.filter_cons_of_pos (by simp [put, hp.1, hp.2]), hno, if_pos ⟨List.mem_cons_self, hp⟩]
          · rw [List.filter_cons_of_neg (by simp [put]; intro h1; exact Classical.byContradiction fun h2 => hp ⟨h1, h2⟩), hno, if_neg fun h => hp h.2]
        · rw [List.filter_cons_of_neg (by simp [put, hy]), ih]
          have : k ≠ y := fun h => hy h.symm
          simp [this]
    rw [this _ hn]
    simp [hmem]
  rw [hf]
  split <;> simp [put]

/-! ## Where it fails -/

/-- **A rolled back setting stays in the cache.** A parameter that is not reported is set in a transaction that is rolled back: reading gives the value that was rolled back, and setting it again sends nothing, so the
server keeps the old value while the caller sees the new one. -/
theorem C41_rollback_stale (g : Guc) (hg : g.Wf) (k v : Str) (hk : k ∈ g.names) (hr : g.reported k = false) (hc : g.canon k v = some v) (vals : Str → Str) (hv : vals k ≠ v) :
    let r := run g ⟨⟨vals, none⟩, [], [], []⟩ [.start, .setItem k v, .rollback, .getItem k, .setItem k v, .getItem k]
    r.1 = [.none, .none, .none, .value v, .none, .value v] ∧ r.2.server.vals k = vals k ∧ vals k ≠ v := by
  have hset : setConfig g vals k v = some (v, put k v vals) := by
    unfold setConfig; rw [hg.self k hk]; dsimp only; rw [hc]
  let s1 : St := ⟨⟨vals, some vals⟩, [], [], []⟩
  have e1 : step g ⟨⟨vals, none⟩, [], [], []⟩ .start = (.none, s1) := rfl
  have e2 : step g s1 (.setItem k v) = (.none, { change g s1 (put k v vals) with cache := PyDict.set k v (change g s1 (put k v vals)).cache }) := by
    simp only [step, setItem, s1]
    rw [if_neg (by simp [PyDict.get_nil]), hset]
  let s2 : St := { change g s1 (put k v vals) with cache := PyDict.set k v (change g s1 (put k v vals)).cache }
  have hs2 : s2.server = ⟨put k v vals, some vals⟩ := change_server g s1 _
  have e3 : step g s2 .rollback = (.none, { change g s2 vals with server := ⟨vals, none⟩ }) := by
    simp only [step]
    rw [hs2]
  let s3 : St := { change g s2 vals with server := ⟨vals, none⟩ }
  have hget : PyDict.get k s3.cache = some v := by
    show PyDict.get k (change g s2 vals).cache = some v
    rw [change_get, updates_get_other]
    · show PyDict.get k (PyDict.set k v _) = some v
      rw [PyDict.get_set, if_pos rfl]
    · intro e he hek
      unfold reports at he
      obtain ⟨x, hx, rfl⟩ := List.mem_map.1 he
      rw [List.mem_filter] at hx
      have hek : x = k := hek
      subst hek
      rw [hr] at hx
      simp at hx
  have e4 : getItem g s3 k = .value v := by unfold getItem; rw [hget]
  have e5 : setItem g s3 k v = (.none, s3) := by unfold setItem; rw [if_pos hget]
  dsimp only
  have f2 : step g s1 (.setItem k v) = (.none, s2) := e2
  have f3 : step g s2 .rollback = (.none, s3) := e3
  have f4 : step g s3 (.getItem k) = (.value v, s3) := by simp only [step]; rw [e4]
  have f5 : step g s3 (.setItem k v) = (.none, s3) := e5
  simp only [run, e1, f2, f3, f4, f5]
  exact ⟨trivial, rfl, hv⟩

example : small.Wf ∧ "role".toList ∈ small.names ∧ small.reported "role".toList = false ∧ small.canon "role".toList "b".toList = some "b".toList := ⟨small_wf, by decide, by decide, by decide⟩

/-- **Two names of one parameter**: set as `timezone`, then as `TimeZone`; reading `timezone` gives the first value. -/
theorem C41_letter_case : (run small st0 [.setItem "timezone".toList "b".toList, .setItem "TimeZone".toList "c".toList, .getItem "timezone".toList, .getItem "TimeZone".toList]).1 =
    [.none, .none, .value "b".toList, .value "c".toList] := by decide

/-- **Units**: after setting `64MB` reading gives `64MB`, without the cache it gives another text. -/
theorem C41_units : (run small st0 [.setItem "work_mem".toList "64MB".toList, .getItem "work_mem".toList, .clear, .getItem "work_mem".toList]).1 = [.none, .value "64MB".toList, .none, .value "64".toList] := by decide

/-- **A path that cannot be read**: after `search_path` was set to the example of the documentation, or `path` to nothing, reading `path` raises `ValueError`. -/
theorem C41_path_refused : pathOf Unicode.ascii "$user,public".toList = .error .valueError ∧ pathOf Unicode.ascii (pathText []) = .error .valueError := by
  refine ⟨by decide +kernel, by decide +kernel⟩

end PG.Settings
