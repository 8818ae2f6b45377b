import Verif.Proofs.ClientParams4
/-!
# C47: client parameters come from the strongest of their sources
-/
namespace PG.Props.ClientParams
open PG PG.ClientParams PG.Spec.ClientParams
open PG.Proofs.ConfigFile (mem_keys_set nodup_set)

/-- The configuration items of the arguments. -/
def configItems (c : Collect) : List Item :=
  (match c.sysconfdir with | some d => [Item.config "pg_sysconfdir".toList d] | none => [])
  ++ (match c.serviceFile with | some f => [Item.config "pg_service_file".toList f] | none => [])

/-- The configuration they make. -/
structure Config (own system : Option Str) (cfg : List (Str × Str)) : Prop where
  own : PyDict.get "pg_service_file".toList cfg = own
  system : PyDict.get "pg_sysconfdir".toList cfg = system
  name : PyDict.get "pg_service_filename".toList cfg = none

theorem config_system {own system : Option Str} {cfg : List (Str × Str)} (h : Config own system cfg) (v : Str) :
    Config own (some v) (PyDict.set "pg_sysconfdir".toList v cfg) := by
  refine ⟨?_, ?_, ?_⟩
  · rw [PyDict.get_set, if_neg (by decide), h.own]
  · rw [PyDict.get_set, if_pos rfl]
  · rw [PyDict.get_set, if_neg (by decide), h.name]

theorem config_own {own system : Option Str} {cfg : List (Str × Str)} (h : Config own system cfg) (v : Str) :
    Config (some v) system (PyDict.set "pg_service_file".toList v cfg) := by
  refine ⟨?_, ?_, ?_⟩
  · rw [PyDict.get_set, if_pos rfl]
  · rw [PyDict.get_set, if_neg (by decide), h.system]
  · rw [PyDict.get_set, if_neg (by decide), h.name]

theorem configItems_ok (W : World) (c : Collect) : extrapolate W [] (configItems c) = .ok [] ∧ Config c.serviceFile c.sysconfdir (configAfter [] (configItems c)) := by
  have h0 : Config none none [] := ⟨rfl, rfl, rfl⟩
  unfold configItems
  cases c.sysconfdir with
  | none => cases c.serviceFile with
    | none => exact ⟨rfl, h0⟩
    | some f => exact ⟨rfl, config_own h0 f⟩
  | some d => cases c.serviceFile with
    | none => exact ⟨rfl, config_system h0 d⟩
    | some f => exact ⟨rfl, config_own (config_system h0 d) f⟩

theorem serviceFiles_for (W : World) {own system : Option Str} {cfg : List (Str × Str)} (h : Config own system cfg) : serviceFiles W cfg = filesFor W own system := by
  unfold serviceFiles filesFor
  rw [h.own, h.system, h.name]
  cases own <;> cases system <;> rfl

theorem env_config (W : World) (environ : List (Str × Str)) {own system : Option Str} {cfg : List (Str × Str)} (h : Config own system cfg) :
    ∃ cfg', (∀ rest, extrapolate W cfg (envItem environ "PGSYSCONFDIR".toList (fun v => .config "pg_sysconfdir".toList v)
      ++ envItem environ "PGSERVICEFILE".toList (fun v => .config "pg_service_file".toList v) ++ rest) = extrapolate W cfg' rest) ∧
      Config ((PyDict.get "PGSERVICEFILE".toList environ).or own) ((PyDict.get "PGSYSCONFDIR".toList environ).or system) cfg' := by
  unfold envItem
  cases PyDict.get "PGSYSCONFDIR".toList environ with
  | none => cases PyDict.get "PGSERVICEFILE".toList environ with
    | none => exact ⟨cfg, fun rest => rfl, h⟩
    | some f => exact ⟨_, fun rest => rfl, config_own h f⟩
  | some d => cases PyDict.get "PGSERVICEFILE".toList environ with
    | none => exact ⟨_, fun rest => rfl, config_system h d⟩
    | some f => exact ⟨_, fun rest => rfl, config_own (config_system h d) f⟩

theorem envRest_ok (W : World) (environ : List (Str × Str)) (pre : Str) {own system : Option Str} {cfg : List (Str × Str)} (h : Config own system cfg) :
    extrapolate W cfg (envRest environ pre) = match PyDict.get (pre ++ "SERVICE".toList) environ with
      | none => .ok []
      | some name => serviceSearch W name (filesFor W ((PyDict.get "PGSERVICEFILE".toList environ).or own) ((PyDict.get "PGSYSCONFDIR".toList environ).or system)) := by
  obtain ⟨cfg', h1, h2⟩ := env_config W environ h
  unfold envRest
  rw [h1]
  unfold envItem
  cases PyDict.get (pre ++ "SERVICE".toList) environ with
  | none => rfl
  | some name =>
    dsimp only
    rw [extrapolate, show callback W cfg' "pg_service".toList (.val (.text name)) = some (serviceSearch W name (serviceFiles W cfg')) from by
      unfold callback xService; rw [if_neg (by decide), if_neg (by decide), if_pos rfl], serviceFiles_for W h2]
    cases serviceSearch W name (filesFor W ((PyDict.get "PGSERVICEFILE".toList environ).or own) ((PyDict.get "PGSYSCONFDIR".toList environ).or system)) with
    | error e => rfl
    | ok l => simp [extrapolate, Except.map]

/-- All of the environment. -/
def envAll (W : World) (c : Collect) : List Item := match c.environ with | some e => envvars W e c.pre | none => []

def envAllSays (W : World) (c : Collect) (key : Key) : Option Arg := c.environ.bind fun e => envSays W e c.pre key

theorem envAll_ok (W : World) (c : Collect) {cfg : List (Str × Str)} (h : Config c.serviceFile c.sysconfdir cfg) (l : List Flat)
    (hl : extrapolate W cfg (envAll W c) = .ok l) : (∀ f ∈ l, Fine f) ∧ ∀ key, says l key = (serviceSays W c key).or (envAllSays W c key) := by
  unfold envAll at hl
  unfold serviceSays envAllSays
  cases he : c.environ with
  | none => rw [he] at hl; cases hl; exact ⟨by simp, fun _ => rfl⟩
  | some environ =>
    rw [he] at hl
    dsimp only at hl
    rw [envvars_parts, extrapolate_append, (extrapolate_flats W cfg _).1, (extrapolate_flats W cfg _).2] at hl
    dsimp only at hl
    rw [envRest_ok W environ c.pre h] at hl
    have fine : ∀ f ∈ envPart W environ c.pre, Fine f := by
      intro f hf
      obtain ⟨k, v, hk, rfl⟩ := envPart_fine W environ c.pre f hf
      exact hk
    dsimp only [Option.bind_some]
    cases hs : PyDict.get (c.pre ++ "SERVICE".toList) environ with
    | none =>
      rw [hs] at hl
      have := Except.ok.inj hl
      dsimp only at this
      rw [List.append_nil] at this
      subst this
      exact ⟨fine, fun key => says_envPart W environ c.pre key⟩
    | some name =>
      rw [hs] at hl
      dsimp only at hl
      cases hf : serviceSearch W name (filesFor W ((PyDict.get "PGSERVICEFILE".toList environ).or c.serviceFile) ((PyDict.get "PGSYSCONFDIR".toList environ).or c.sysconfdir)) with
      | error e => rw [hf] at hl; cases hl
      | ok s =>
        rw [hf] at hl
        have := Except.ok.inj hl
        dsimp only at this
        subst this
        obtain ⟨f1, es, f2, f3⟩ := says_service W name _ s hf
        refine ⟨?_, fun key => ?_⟩
        · intro f hf
          rcases List.mem_append.1 hf with hf | hf
          · exact fine f hf
          · exact f1 f hf
        · rw [says_append, says_envPart, f3 key]
          dsimp only
          rw [f2]

theorem sources_eq {W : World} {c : Collect} {l : List Item} (h : sources W c = .ok l) :
    ∃ ps os, denormalize c.parameters = .ok ps ∧ optItems (c.options.getD []) = .ok os ∧
      l = configItems c ++ ((if c.noDefaults then [] else defaults W) ++ ps).map Item.flat ++ (envAll W c ++ os) := by
  unfold sources at h
  cases hp : denormalize c.parameters with
  | error e => rw [hp] at h; cases h
  | ok ps =>
    rw [hp] at h
    cases ho : optItems (c.options.getD []) with
    | error e => rw [ho] at h; cases h
    | ok os =>
      rw [ho] at h
      refine ⟨ps, os, rfl, rfl, ?_⟩
      rw [← Except.ok.inj h]
      unfold configItems envAll
      cases c.noDefaults <;> simp <;> rfl

theorem gather_says (W : World) (c : Collect) (hc : Ok c.parameters) (p : Params) (h : gather W c = .ok p) :
    Good p ∧ ∀ key, key.Proper → value p key = strongest [optionsSay W (c.options.getD []) key, serviceSays W c key, envAllSays W c key, value c.parameters key,
      if c.noDefaults then none else defaultSays W key] := by
  unfold gather at h
  cases hs : sources W c with
  | error e => rw [hs] at h; cases h
  | ok l =>
    rw [hs] at h
    dsimp only at h
    obtain ⟨ps, os, h1, h2, rfl⟩ := sources_eq hs
    rw [extrapolate_append, extrapolate_append, (configItems_ok W c).1] at h
    dsimp only at h
    have hcfg := (configItems_ok W c).2
    rw [(extrapolate_flats W _ _).1, configAfter_append, (extrapolate_flats W _ _).2] at h
    simp only [Except.map, List.nil_append] at h
    rw [extrapolate_append] at h
    cases he : extrapolate W (configAfter [] (configItems c)) (envAll W c) with
    | error e => rw [he] at h; cases h
    | ok env =>
      rw [he] at h
      dsimp only at h
      cases ho : extrapolate W (configAfter (configAfter [] (configItems c)) (envAll W c)) os with
      | error e => rw [ho] at h; cases h
      | ok opts =>
        rw [ho] at h
        dsimp only [Except.map] at h
        obtain ⟨e1, e2⟩ := envAll_ok W c hcfg env he
        obtain ⟨o1, o2⟩ := options_ok W _ os _ opts h2 ho
        obtain ⟨p1, p2⟩ := denormalize_ok c.parameters ps hc h1
        have d1 : ∀ f ∈ (if c.noDefaults then [] else defaults W), Fine f := by
          cases c.noDefaults
          · exact defaults_fine W
          · exact fun f hf => by cases hf
        obtain ⟨q, q1, q2, q3⟩ := normalize_ok ((if c.noDefaults then [] else defaults W) ++ ps ++ (env ++ opts)) (by
          intro f hf
          simp only [List.mem_append] at hf
          rcases hf with (hf | hf) | hf | hf
          · exact d1 f hf
          · exact p1 f hf
          · exact e1 f hf
          · exact o1 f hf)
        have : q = p := Except.ok.inj (q1.symm.trans h)
        subst this
        refine ⟨q2, fun key hk => ?_⟩
        rw [q3 key hk, says_append, says_append, says_append, o2 key hk, e2 key, p2 key hk]
        have hd : says (if c.noDefaults then [] else defaults W) key = if c.noDefaults then none else defaultSays W key := by
          cases c.noDefaults
          · exact says_defaults W key
          · rfl
        rw [hd]
        unfold strongest
        simp only [List.findSome?_cons, List.findSome?_nil, id_eq]
        cases optionsSay W (c.options.getD []) key <;> cases serviceSays W c key <;> cases envAllSays W c key <;> cases value c.parameters key <;>
          cases (if c.noDefaults then none else defaultSays W key) <;> rfl

/-! ### Passwords -/

theorem given_iff (v : Option Arg) : ¬ Given v ↔ v.getD (.val .none) = .val .none := by
  unfold Given
  cases v with
  | none => simp
  | some x => simp

theorem conf_entry (W : World) (p : Params) : conf W p = passwordEntry W p := by
  have key : ∀ k : String, (PyDict.get k.toList p).map (strOf W) = written W p k := by
    intro k
    unfold written
    rw [show value p (.param k.toList) = PyDict.get k.toList p from rfl]
    cases PyDict.get k.toList p with
    | none => rfl
    | some v => cases v with
      | dict d => rfl
      | val v => cases v <;> rfl
  unfold conf passwordEntry
  rw [key, key, key, key]

/-- The password is the one typed if asked for, or the one given, or the one of the password file; what was only needed for it is removed, and all else kept. -/
theorem C47_password (W : World) (p q : Params) (h : resolvePassword W p = .ok q) :
    (∀ k, k ≠ "password".toList → k ∉ helpers → PyDict.get k q = PyDict.get k p) ∧
    (∀ k ∈ helpers, PyDict.get k q = none) ∧
    (PyDict.get "prompt_password".toList p = some (.val (.bool true)) → PyDict.get "password".toList q = some (.val (.text (typed W.stdin)))) ∧
    (PyDict.get "prompt_password".toList p ≠ some (.val (.bool true)) →
      (Given (PyDict.get "password".toList p) ∨ ¬ Given (PyDict.get "pgpassfile".toList p) → PyDict.get "password".toList q = PyDict.get "password".toList p) ∧
      (¬ Given (PyDict.get "password".toList p) → ∀ f, PyDict.get "pgpassfile".toList p = some f → Given (some f) →
        ∃ w, PgPass.lookupPgpass W.E.U (passwordEntry W p) (W.passfile f) = .ok w ∧ PyDict.get "password".toList q = some (optText w))) := by
  rw [← conf_entry]
  unfold resolvePassword at h
  dsimp only at h
  generalize hp' : PyDict.erase "prompt_title".toList (PyDict.erase "pgpassfile".toList (PyDict.erase "prompt_password".toList p)) = p' at h
  have e1 : ∀ k, k ∉ helpers → PyDict.get k p' = PyDict.get k p := by
    intro k hk
    simp only [helpers, List.mem_cons, List.not_mem_nil, or_false, not_or] at hk
    rw [← hp', PyDict.get_erase, PyDict.get_erase, PyDict.get_erase, if_neg (fun e => hk.2.2 e.symm), if_neg (fun e => hk.2.1 e.symm), if_neg (fun e => hk.1 e.symm)]
  have e2 : ∀ k ∈ helpers, PyDict.get k p' = none := by
    intro k hk
    simp only [helpers, List.mem_cons, List.not_mem_nil, or_false] at hk
    rw [← hp', PyDict.get_erase, PyDict.get_erase, PyDict.get_erase]
    rcases hk with rfl | rfl | rfl
    · rw [if_neg (by decide), if_neg (by decide), if_pos rfl]
    · rw [if_neg (by decide), if_pos rfl]
    · rw [if_pos rfl]
  have hpw : "password".toList ∉ helpers := by decide +kernel
  have epw := e1 _ hpw
  have keep : ∀ (v : Arg), q = PyDict.set "password".toList v p' →
      (∀ k, k ≠ "password".toList → k ∉ helpers → PyDict.get k q = PyDict.get k p) ∧ (∀ k ∈ helpers, PyDict.get k q = none) ∧
        PyDict.get "password".toList q = some v := by
    intro v hq
    subst hq
    refine ⟨fun k hk hh => ?_, fun k hk => ?_, ?_⟩
    · rw [PyDict.get_set, if_neg (fun e => hk e.symm), e1 k hh]
    · rw [PyDict.get_set, if_neg (fun e => hpw (by rw [e]; exact hk)), e2 k hk]
    · rw [PyDict.get_set, if_pos rfl]
  have same : q = p' → (∀ k, k ≠ "password".toList → k ∉ helpers → PyDict.get k q = PyDict.get k p) ∧ (∀ k ∈ helpers, PyDict.get k q = none) ∧
        PyDict.get "password".toList q = PyDict.get "password".toList p := by
    intro hq
    subst hq
    exact ⟨fun k _ hh => e1 k hh, e2, epw⟩
  have hconf : conf W p' = conf W p := by
    unfold conf
    rw [e1 _ (by decide +kernel), e1 _ (by decide +kernel), e1 _ (by decide +kernel), e1 _ (by decide +kernel)]
  by_cases ht : PyDict.get "prompt_password".toList p = some (.val (.bool true))
  · rw [if_pos ht] at h
    have hq : q = PyDict.set "password".toList (.val (.text (typed W.stdin))) p' := by
      cases hs : W.stdin with
      | tty a => rw [hs] at h; exact (Except.ok.inj h).symm
      | line s => rw [hs] at h; exact (Except.ok.inj h).symm
    obtain ⟨k1, k2, k3⟩ := keep _ hq
    exact ⟨k1, k2, fun _ => k3, fun hn => absurd ht hn⟩
  · rw [if_neg ht, epw] at h
    by_cases hg : Given (PyDict.get "password".toList p)
    · rw [if_neg (fun e => (given_iff _).2 e hg)] at h
      obtain ⟨k1, k2, k3⟩ := same (Except.ok.inj h).symm
      exact ⟨k1, k2, fun hn => absurd hn ht, fun _ => ⟨fun _ => k3, fun hn => absurd hg hn⟩⟩
    · rw [if_pos ((given_iff _).1 hg)] at h
      cases hf : PyDict.get "pgpassfile".toList p with
      | none =>
        rw [hf] at h
        obtain ⟨k1, k2, k3⟩ := same (Except.ok.inj h).symm
        exact ⟨k1, k2, fun hn => absurd hn ht, fun _ => ⟨fun _ => k3, fun _ f hf' _ => by cases hf'⟩⟩
      | some f =>
        rw [hf] at h
        by_cases hn : f = .val .none
        · subst hn
          obtain ⟨k1, k2, k3⟩ := same (Except.ok.inj h).symm
          exact ⟨k1, k2, fun hn => absurd hn ht, fun _ => ⟨fun _ => k3, fun _ f hf' hgf => by cases hf'; exact absurd rfl hgf.2⟩⟩
        · have h' : (match PgPass.lookupPgpass W.E.U (conf W p') (W.passfile f) with
              | .error e => Except.error e
              | .ok w => .ok (PyDict.set "password".toList (optText w) p')) = .ok q := by
            revert h
            cases f with
            | dict d => exact id
            | val v => cases v with
              | none => exact absurd rfl hn
              | _ => exact id
          rw [hconf] at h'
          cases hl : PgPass.lookupPgpass W.E.U (conf W p) (W.passfile f) with
          | error e => rw [hl] at h'; cases h'
          | ok w =>
            rw [hl] at h'
            obtain ⟨k1, k2, k3⟩ := keep _ (Except.ok.inj h').symm
            refine ⟨k1, k2, fun hn => absurd hn ht, fun _ => ⟨fun ho => ?_, fun _ f' hf' _ => ?_⟩⟩
            · rcases ho with ho | ho
              · exact absurd ho hg
              · exact absurd ⟨by simp, by simpa using hn⟩ ho
            · cases hf'
              exact ⟨w, hl, k3⟩

/-! ### `collect` -/

/-- A parameter or setting that `collect` gives is the one of the strongest source: an option of the command line (the last one for it), the service, the environment, the
parameters given as an argument, the defaults. (Partial: settings from the environment, which the documentation has, are ignored, see `C47_env_settings`; the value
for PGREQUIRESSL is not a mode, see `C47_requiressl`; and the variable documented as PGKRBSVRNAME is read as PGKRBSRVNAME.) -/
theorem C47_collect_partial (W : World) (c : Collect) (hc : Ok c.parameters) (hr : c.resolve = false) (p : Params) (h : collect W c = .ok p) (key : Key) (hk : key.Proper) :
    value p key = strongest [optionsSay W (c.options.getD []) key, serviceSays W c key, c.environ.bind (fun e => envSays W e c.pre key), value c.parameters key,
      if c.noDefaults then none else defaultSays W key] := by
  unfold collect at h
  cases hg : gather W c with
  | error e => rw [hg] at h; cases h
  | ok q =>
    rw [hg, hr] at h
    have : q = p := Except.ok.inj h
    subst this
    exact (gather_says W c hc q hg).2 key hk

/-- Without a service, options and parameters, nothing can fail. -/
theorem C47_collect_total (W : World) (c : Collect) (hp : c.parameters = []) (ho : c.options.getD [] = []) (hr : c.resolve = false)
    (hs : ∀ e, c.environ = some e → PyDict.get (c.pre ++ "SERVICE".toList) e = none) : ∃ p, collect W c = .ok p := by
  have hsrc : sources W c = .ok (configItems c ++ (if c.noDefaults then [] else defaults W).map Item.flat ++ envAll W c) := by
    unfold sources
    rw [hp, ho]
    simp only [denormalize, optItems]
    unfold configItems envAll
    cases c.noDefaults <;> simp <;> rfl
  have hcfg := (configItems_ok W c).2
  have henv : ∃ l, extrapolate W (configAfter [] (configItems c)) (envAll W c) = .ok l ∧ ∀ f ∈ l, Fine f := by
    unfold envAll
    cases he : c.environ with
    | none => exact ⟨[], rfl, by simp⟩
    | some environ =>
      dsimp only
      rw [envvars_parts, extrapolate_append, (extrapolate_flats W _ _).1, (extrapolate_flats W _ _).2]
      dsimp only
      rw [envRest_ok W environ c.pre hcfg, hs environ he]
      refine ⟨_, rfl, ?_⟩
      intro f hf
      dsimp only at hf
      rw [List.append_nil] at hf
      obtain ⟨k, v, hk, rfl⟩ := envPart_fine W environ c.pre f hf
      exact hk
  obtain ⟨env, he, hfine⟩ := henv
  obtain ⟨p, h1, -, -⟩ := normalize_ok ((if c.noDefaults then [] else defaults W) ++ env) (by
    intro f hf
    rcases List.mem_append.1 hf with hf | hf
    · cases hd : c.noDefaults
      · rw [hd] at hf; exact defaults_fine W f hf
      · rw [hd] at hf; cases hf
    · exact hfine f hf)
  refine ⟨p, ?_⟩
  unfold collect gather
  rw [hsrc]
  dsimp only
  rw [extrapolate_append, extrapolate_append, (configItems_ok W c).1]
  dsimp only
  rw [(extrapolate_flats W _ _).1, configAfter_append, (extrapolate_flats W _ _).2, he, hr]
  simp only [Except.map, List.nil_append]
  rw [h1]
  rfl

/-- A service that is in none of the files is an error. -/
theorem C47_missing_service (W : World) (c : Collect) (environ : List (Str × Str)) (he : c.environ = some environ) (name : Str)
    (hs : PyDict.get (c.pre ++ "SERVICE".toList) environ = some name)
    (hn : serviceIn W name (filesFor W ((PyDict.get "PGSERVICEFILE".toList environ).or c.serviceFile) ((PyDict.get "PGSYSCONFDIR".toList environ).or c.sysconfdir)) = none)
    (p : Params) : collect W c ≠ .ok p := by
  intro h
  unfold collect at h
  cases hg : gather W c with
  | error e => rw [hg] at h; cases h
  | ok q =>
    clear h
    unfold gather at hg
    cases hsrc : sources W c with
    | error e => rw [hsrc] at hg; cases hg
    | ok l =>
      rw [hsrc] at hg
      dsimp only at hg
      obtain ⟨ps, os, h1, h2, rfl⟩ := sources_eq hsrc
      rw [extrapolate_append, extrapolate_append, (configItems_ok W c).1] at hg
      dsimp only at hg
      have hcfg := (configItems_ok W c).2
      rw [(extrapolate_flats W _ _).1, configAfter_append, (extrapolate_flats W _ _).2] at hg
      simp only [Except.map, List.nil_append] at hg
      rw [extrapolate_append] at hg
      unfold envAll at hg
      rw [he] at hg
      dsimp only at hg
      rw [envvars_parts, extrapolate_append, (extrapolate_flats W _ _).1, (extrapolate_flats W _ _).2] at hg
      dsimp only at hg
      rw [envRest_ok W environ c.pre hcfg, hs] at hg
      dsimp only at hg
      cases hf : serviceSearch W name (filesFor W ((PyDict.get "PGSERVICEFILE".toList environ).or c.serviceFile) ((PyDict.get "PGSYSCONFDIR".toList environ).or c.sysconfdir)) with
      | ok l => exact serviceSearch_none W name _ hn l hf
      | error e => rw [hf] at hg; cases hg

/-- Finding: the settings of the environment (PGTZ, PGDATESTYLE, PGCLIENTENCODING, PGGEQO, PGOPTIONS) are not used. -/
theorem C47_env_settings (W : World) (environ : List (Str × Str)) (hs : PyDict.get "PGSERVICE".toList environ = none) (p : Params)
    (h : collect W { environ := some environ, resolve := false } = .ok p) (k : Str) : value p (.setting k) = none := by
  rw [C47_collect_partial W _ ⟨by simp [IsDict], fun d hd => by cases hd⟩ rfl p h (.setting k) (by simp [Key.Proper])]
  unfold serviceSays
  dsimp only
  rw [show ("PG".toList ++ "SERVICE".toList) = "PGSERVICE".toList from by decide +kernel, hs]
  rfl

/-- Finding: with PGREQUIRESSL=1 alone the SSL mode is a pair, not a mode. -/
theorem C47_requiressl (W : World) (environ : List (Str × Str)) (hs : PyDict.get "PGSERVICE".toList environ = none) (hm : PyDict.get "PGSSLMODE".toList environ = none)
    (hr : PyDict.get "PGREQUIRESSL".toList environ = some ['1']) (p : Params) (h : collect W { environ := some environ, resolve := false } = .ok p) :
    value p (.param "sslmode".toList) = some (.val (.pair "require".toList "PGREQUIRESSL=1".toList)) := by
  have hstrip : PyStr.strip W.E.U ['1'] = ['1'] := by
    have : W.E.U.isSpace '1' = false := by rw [W.E.U.space_ascii '1' (by decide)]; decide
    simp [PyStr.strip, PyStr.lstrip, PyStr.rstrip, this]
  rw [C47_collect_partial W _ ⟨by simp [IsDict], fun d hd => by cases hd⟩ rfl p h _ (by decide +kernel)]
  unfold serviceSays envSays
  dsimp only [Option.bind_some]
  rw [show ("PG".toList ++ "SERVICE".toList) = "PGSERVICE".toList from by decide +kernel, hs,
    show variableOf "sslmode".toList = some "SSLMODE".toList from by decide +kernel,
    show ("PG".toList ++ "REQUIRESSL".toList) = "PGREQUIRESSL".toList from by decide +kernel, hr]
  rw [Option.bind_some, show ("PG".toList ++ "SSLMODE".toList) = "PGSSLMODE".toList from by decide +kernel, hm, if_neg (by decide +kernel),
    if_pos ⟨rfl, by rw [Option.map_some, hstrip]⟩]
  rfl

/-- With a prompt title, `collect` finds the password, too. -/
theorem C47_collect_password (W : World) (c : Collect) (p : Params) (h : collect W { c with resolve := true } = .ok p) :
    ∃ q, collect W { c with resolve := false } = .ok q ∧ resolvePassword W q = .ok p := by
  unfold collect at h
  cases hg : gather W c with
  | error e => rw [show gather W { c with resolve := true } = gather W c from rfl, hg] at h; cases h
  | ok q =>
    rw [show gather W { c with resolve := true } = gather W c from rfl, hg] at h
    refine ⟨q, ?_, h⟩
    unfold collect
    rw [show gather W { c with resolve := false } = gather W c from rfl, hg]
    rfl

/-! ### An example -/

/-- A user with a password file and a file of services. -/
def world : World where
  E := { U := Unicode.ascii, repl := fun s => .ok s, repl_plain := fun _ _ => rfl, str := fun _ => [] }
  user := "jo".toList
  home := fun u => "/home/".toList ++ u
  pathExists := fun f => f = "/home/jo/.pgpass".toList ∨ f = "/home/jo/.pg_service.conf".toList
  service := fun f n => .ok (if f = "/home/jo/.pg_service.conf".toList ∧ n = "prod".toList then
    some [("HostAddr".toList, "10.0.0.7".toList), ("dbname".toList, "shop".toList), ("geqo".toList, "off".toList)] else none)
  passfile := fun f => if f = .val (.text "/home/jo/.pgpass".toList) then some ["10.0.0.7:*:*:jo:secret\n".toList] else none
  stdin := .line "typed\n".toList
  str := fun _ => "5432".toList
  inet6 := fun h => h = "::1".toList
  inet4 := fun h => h = "10.0.0.7".toList

/-- A text. -/
def t (s : String) : Arg := .val (.text s.toList)

-- The environment is stronger than the defaults, the service stronger than the environment, the options of the command line stronger than both.
example : (collect world {
      environ := some [("PGSERVICE".toList, "prod".toList), ("PGUSER".toList, "ann".toList), ("PGHOST".toList, "elsewhere".toList)]
      options := some [.database "a".toList, .setting "x=1=2".toList, .database "b".toList]
      resolve := false }).toOption.map
    (fun p => [value p (.param "user".toList), value p (.param "host".toList), value p (.param "port".toList), value p (.param "database".toList),
      value p (.setting "geqo".toList), value p (.setting "x".toList), value p (.param "pgpassfile".toList), value p (.param "sslcrtfile".toList)]) =
    some [some (t "ann"), some (t "10.0.0.7"), some (.val (.int 5432)), some (t "b"), some (t "off"), some (t "1=2"), some (t "/home/jo/.pgpass"), none] := by decide +kernel

-- The password is the one of the file.
example : (collect world { environ := some [("PGSERVICE".toList, "prod".toList)] }).toOption.map (fun p => (value p (.param "password".toList), value p (.param "pgpassfile".toList))) =
    some (some (t "secret"), none) := by decide +kernel

-- The password is the one typed.
example : (collect world { environ := some [("PGSERVICE".toList, "prod".toList)], options := some [.password] }).toOption.map (fun p => value p (.param "password".toList)) =
    some (some (t "typed")) := by decide +kernel

-- A service that is not there: the hypotheses of `C47_missing_service` hold.
example (p : Params) : collect world { environ := some [("PGSERVICE".toList, "dev".toList)] } ≠ .ok p :=
  C47_missing_service world _ [("PGSERVICE".toList, "dev".toList)] rfl "dev".toList (by decide +kernel) (by decide +kernel) p

-- PGTZ is not used; PGREQUIRESSL gives a pair.
example : (collect world { environ := some [("PGTZ".toList, "UTC".toList), ("PGREQUIRESSL".toList, "1".toList)], resolve := false }).toOption.map
    (fun p => (value p (.setting "timezone".toList), value p (.param "sslmode".toList))) =
    some (none, some (.val (.pair "require".toList "PGREQUIRESSL=1".toList))) := by decide +kernel

end PG.Props.ClientParams
