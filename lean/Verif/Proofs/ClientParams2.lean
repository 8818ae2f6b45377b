import Verif.Proofs.ClientParams
/-!
# Lemmas for `Props/ClientParams`: the sources
-/
namespace PG.Props.ClientParams
open PG PG.ClientParams PG.Spec.ClientParams
open PG.Proofs.ConfigFile (mem_keys_set nodup_set)

/-! ### `extrapolate` -/

/-- The configuration after some items. -/
def configAfter : List (Str × Str) → List Item → List (Str × Str)
  | c, [] => c
  | c, .config k v :: l => configAfter (PyDict.set k v c) l
  | c, .flat _ :: l => configAfter c l
  | c, .named _ _ :: l => configAfter c l

theorem map_map' {α β γ : Type} (f : α → β) (g : β → γ) (x : Except Err α) : (x.map f).map g = x.map (g ∘ f) := by cases x <;> rfl

theorem extrapolate_append (W : World) : ∀ (a : List Item) (c : List (Str × Str)) (b : List Item),
    extrapolate W c (a ++ b) = match extrapolate W c a with
      | .error e => .error e
      | .ok x => (extrapolate W (configAfter c a) b).map fun r => x ++ r
  | [], c, b => by
    simp only [List.nil_append, extrapolate, configAfter]
    cases extrapolate W c b <;> rfl
  | .flat f :: a, c, b => by
    simp only [List.cons_append, extrapolate, configAfter]
    rw [extrapolate_append W a c b]
    cases extrapolate W c a with
    | error e => rfl
    | ok x => simp only [Except.map]; cases extrapolate W (configAfter c a) b <;> rfl
  | .config k v :: a, c, b => by
    simp only [List.cons_append, extrapolate, configAfter]
    rw [extrapolate_append W a _ b]
  | .named k v :: a, c, b => by
    simp only [List.cons_append, extrapolate, configAfter]
    cases callback W c k v with
    | none => dsimp only; rw [extrapolate_append W a c b]
    | some r =>
      cases r with
      | error e => rfl
      | ok x =>
        dsimp only
        rw [extrapolate_append W a c b]
        cases extrapolate W c a with
        | error e => rfl
        | ok y => simp only [Except.map]; cases extrapolate W (configAfter c a) b <;> simp [List.append_assoc]

theorem configAfter_append : ∀ (a b : List Item) (c : List (Str × Str)), configAfter c (a ++ b) = configAfter (configAfter c a) b
  | [], _, _ => rfl
  | .flat _ :: a, b, c => configAfter_append a b c
  | .named _ _ :: a, b, c => configAfter_append a b c
  | .config _ _ :: a, b, _ => configAfter_append a b _

theorem extrapolate_flats (W : World) (c : List (Str × Str)) : ∀ l : List Flat, extrapolate W c (l.map .flat) = .ok l ∧ configAfter c (l.map .flat) = c
  | [] => ⟨rfl, rfl⟩
  | f :: l => by
    obtain ⟨h1, h2⟩ := extrapolate_flats W c l
    constructor
    · simp only [List.map_cons, extrapolate]; rw [h1]; rfl
    · simp only [List.map_cons, configAfter]; exact h2

/-! ### The environment -/

/-- The parameters of the environment. -/
def envFlats (environ : List (Str × Str)) (pre : Str) (m : List (Str × Str)) : List Flat :=
  m.flatMap fun e => ((PyDict.get (pre ++ e.1) environ).map fun v => Flat.top e.2 (.val (.text v))).toList

theorem envMap_flats (environ : List (Str × Str)) (pre : Str) (m : List (Str × Str)) :
    m.flatMap (fun e => envItem environ (pre ++ e.1) fun v => Item.flat (.top e.2 (.val (.text v)))) = (envFlats environ pre m).map .flat := by
  induction m with
  | nil => rfl
  | cons e m ih =>
    unfold envFlats at ih ⊢
    rw [List.flatMap_cons, List.flatMap_cons, List.map_append, ih]
    congr 1
    unfold envItem
    cases PyDict.get (pre ++ e.1) environ <;> rfl

theorem says_envFlats (environ : List (Str × Str)) (pre : Str) (k : Str) : ∀ (m : List (Str × Str)), (m.map Prod.snd).Nodup →
    says (envFlats environ pre m) (.param k) = (m.find? fun e => e.2 = k).bind fun e => (PyDict.get (pre ++ e.1) environ).map fun v => .val (.text v)
  | [], _ => rfl
  | e :: m, h => by
    have hn := List.nodup_cons.1 h
    have ih := says_envFlats environ pre k m hn.2
    unfold envFlats at ih ⊢
    rw [List.flatMap_cons, says_append, ih, List.find?_cons]
    by_cases hk : e.2 = k
    · have hf : m.find? (fun e => decide (e.2 = k)) = none := by
        rw [List.find?_eq_none]
        intro x hx
        simp only [decide_eq_true_eq]
        intro hxk
        exact hn.1 (List.mem_map.2 ⟨x, hx, by rw [hxk, hk]⟩)
      rw [hf]
      simp only [hk, decide_true]
      cases hg : PyDict.get (pre ++ e.1) environ with
      | none => simp [hg, says_nil]
      | some v => simp [hg, says_one, gives_top]
    · simp only [hk, decide_false]
      have : says (((PyDict.get (pre ++ e.1) environ).map fun v => Flat.top e.2 (.val (.text v))).toList) (.param k) = none := by
        cases PyDict.get (pre ++ e.1) environ with
        | none => rfl
        | some v => simp only [Option.map_some, Option.toList, says_one, gives_top, if_neg hk]
      rw [this, Option.or_none]

theorem find_chain (a b k : Str) (m : List (Str × Str)) : (((a, b) :: m).find? fun e => e.2 = k).map Prod.fst =
    if k = b then some a else (m.find? fun e => e.2 = k).map Prod.fst := by
  rw [List.find?_cons]
  by_cases h : b = k
  · simp [h]
  · rw [if_neg (fun e => h e.symm)]
    simp [h]

theorem find_variable (k : Str) : (envvarMap.find? fun e => e.2 = k).map Prod.fst = variableOf k := by
  unfold envvarMap
  iterate 11 rw [find_chain]
  rfl

theorem envvarMap_nodup : (envvarMap.map Prod.snd).Nodup := by decide +kernel

theorem says_envMap (environ : List (Str × Str)) (pre k : Str) : says (envFlats environ pre envvarMap) (.param k) =
    (variableOf k).bind fun n => (PyDict.get (pre ++ n) environ).map fun v => .val (.text v) := by
  rw [says_envFlats _ _ _ _ envvarMap_nodup, ← find_variable]
  cases envvarMap.find? fun e => decide (e.2 = k) <;> rfl

theorem says_tops {l : List Flat} (h : ∀ f ∈ l, ∃ k v, f = .top k v) (sk : Str) : says l (.setting sk) = none := by
  apply says_none
  intro f hf
  obtain ⟨k, v, rfl⟩ := h f hf
  simp [keyOf]

theorem envFlats_tops (environ : List (Str × Str)) (pre : Str) (m : List (Str × Str)) : ∀ f ∈ envFlats environ pre m, ∃ k v, k ∈ m.map Prod.snd ∧ f = .top k v := by
  intro f hf
  unfold envFlats at hf
  obtain ⟨e, he, hf⟩ := List.mem_flatMap.1 hf
  cases hg : PyDict.get (pre ++ e.1) environ with
  | none => rw [hg] at hf; cases hf
  | some v =>
    rw [hg] at hf
    simp at hf
    exact ⟨e.2, _, List.mem_map.2 ⟨e, he, rfl⟩, hf⟩

/-- The parameters of the environment but for the service. -/
def reqssl (W : World) (environ : List (Str × Str)) (pre : Str) : List Flat :=
  match PyDict.get (pre ++ "REQUIRESSL".toList) environ with
  | some v => if PyStr.strip W.E.U v = ['1'] then [.top "sslmode".toList (.val (.pair "require".toList (pre ++ "REQUIRESSL".toList ++ "=1".toList)))] else []
  | none => []

def hostaddr (environ : List (Str × Str)) (pre : Str) : List Flat :=
  ((PyDict.get (pre ++ "HOSTADDR".toList) environ).map fun v => Flat.top "host".toList (.val (.text v))).toList

def envPart (W : World) (environ : List (Str × Str)) (pre : Str) : List Flat :=
  reqssl W environ pre ++ envFlats environ pre envvarMap ++ hostaddr environ pre

/-- The rest of the environment. -/
def envRest (environ : List (Str × Str)) (pre : Str) : List Item :=
  envItem environ "PGSYSCONFDIR".toList (fun v => .config "pg_sysconfdir".toList v)
  ++ envItem environ "PGSERVICEFILE".toList (fun v => .config "pg_service_file".toList v)
  ++ envItem environ (pre ++ "SERVICE".toList) (fun v => .named "pg_service".toList (.val (.text v)))

theorem envvars_parts (W : World) (environ : List (Str × Str)) (pre : Str) :
    envvars W environ pre = (envPart W environ pre).map .flat ++ envRest environ pre := by
  unfold envvars envPart envRest
  rw [envMap_flats, List.map_append, List.map_append, ← List.append_assoc, ← List.append_assoc]
  congr 3
  congr 1
  · congr 1
    unfold reqssl
    cases PyDict.get (pre ++ "REQUIRESSL".toList) environ with
    | none => rfl
    | some v => dsimp only; by_cases h : PyStr.strip W.E.U v = ['1'] <;> simp only [h, if_true, if_false] <;> rfl
  · unfold hostaddr envItem
    cases PyDict.get (pre ++ "HOSTADDR".toList) environ <;> rfl

theorem envPart_fine (W : World) (environ : List (Str × Str)) (pre : Str) : ∀ f ∈ envPart W environ pre, ∃ k v, k ≠ "settings".toList ∧ f = .top k v := by
  intro f hf
  unfold envPart at hf
  rcases List.mem_append.1 hf with hf | hf
  · rcases List.mem_append.1 hf with hf | hf
    · unfold reqssl at hf
      cases hg : PyDict.get (pre ++ "REQUIRESSL".toList) environ with
      | none => rw [hg] at hf; cases hf
      | some v =>
        rw [hg] at hf
        dsimp only at hf
        by_cases h : PyStr.strip W.E.U v = ['1']
        · rw [if_pos h] at hf
          exact ⟨_, _, by decide, List.mem_singleton.1 hf⟩
        · rw [if_neg h] at hf; cases hf
    · obtain ⟨k, v, hk, rfl⟩ := envFlats_tops _ _ _ f hf
      refine ⟨k, v, ?_, rfl⟩
      have : ∀ k ∈ envvarMap.map Prod.snd, k ≠ "settings".toList := by decide +kernel
      exact this k hk
  · unfold hostaddr at hf
    cases hg : PyDict.get (pre ++ "HOSTADDR".toList) environ with
    | none => rw [hg] at hf; cases hf
    | some v =>
      rw [hg] at hf
      simp at hf
      exact ⟨_, _, by decide, hf⟩

theorem says_reqssl (W : World) (environ : List (Str × Str)) (pre k : Str) : says (reqssl W environ pre) (.param k) =
    if k = "sslmode".toList ∧ (PyDict.get (pre ++ "REQUIRESSL".toList) environ).map (PyStr.strip W.E.U) = some ['1'] then
        some (.val (.pair "require".toList (pre ++ "REQUIRESSL=1".toList))) else none := by
  unfold reqssl
  cases PyDict.get (pre ++ "REQUIRESSL".toList) environ with
  | none => rw [if_neg (by simp)]; rfl
  | some v =>
    dsimp only
    rw [Option.map_some]
    by_cases h : PyStr.strip W.E.U v = ['1']
    · rw [if_pos h, says_one, gives_top, List.append_assoc]
      by_cases e : k = "sslmode".toList
      · rw [if_pos e.symm, if_pos ⟨e, by rw [h]⟩]; rfl
      · rw [if_neg (fun x => e x.symm), if_neg (fun x => e x.1)]
    · rw [if_neg h, if_neg (fun x => h (Option.some.inj x.2))]; rfl

theorem says_hostaddr (environ : List (Str × Str)) (pre k : Str) : says (hostaddr environ pre) (.param k) =
    if k = "host".toList then (PyDict.get (pre ++ "HOSTADDR".toList) environ).map (fun v => .val (.text v)) else none := by
  unfold hostaddr
  cases PyDict.get (pre ++ "HOSTADDR".toList) environ with
  | none => simp [says_nil]
  | some v =>
    rw [Option.map_some, Option.toList, says_one, gives_top]
    by_cases e : k = "host".toList
    · rw [if_pos e.symm, if_pos e]; rfl
    · rw [if_neg (fun x => e x.symm), if_neg e]

theorem says_envPart (W : World) (environ : List (Str × Str)) (pre : Str) (key : Key) : says (envPart W environ pre) key = envSays W environ pre key := by
  cases key with
  | setting sk =>
    apply says_tops
    intro f hf
    obtain ⟨k, v, -, rfl⟩ := envPart_fine W environ pre f hf
    exact ⟨k, v, rfl⟩
  | param k =>
    unfold envPart
    rw [says_append, says_append, says_envMap, says_reqssl, says_hostaddr]
    unfold envSays strongest
    simp only [List.findSome?_cons, List.findSome?_nil, id_eq]
    generalize (if k = "host".toList then (PyDict.get (pre ++ "HOSTADDR".toList) environ).map (fun v => Arg.val (.text v)) else none) = a
    generalize ((variableOf k).bind fun n => (PyDict.get (pre ++ n) environ).map fun v => Arg.val (.text v)) = b
    generalize (if k = "sslmode".toList ∧ (PyDict.get (pre ++ "REQUIRESSL".toList) environ).map (PyStr.strip W.E.U) = some ['1'] then
        some (Arg.val (.pair "require".toList (pre ++ "REQUIRESSL=1".toList))) else none) = c
    cases a <;> cases b <;> cases c <;> rfl

end PG.Props.ClientParams
