import Verif.Props.ClientParams
/-!
# C47: `postgresql.open`, `dbapi20.connect`, and the kind of connector
-/
namespace PG.Props.ClientParams
open PG PG.ClientParams PG.Spec.ClientParams
open PG.Proofs.ConfigFile (mem_keys_set nodup_set)

theorem ok_nil : Ok [] := ⟨by simp [IsDict], fun d hd => by cases hd⟩

theorem erase_dict {α : Type} (k : Str) (d : List (Str × α)) (h : IsDict d) : IsDict (PyDict.erase k d) := by
  unfold IsDict PyDict.erase at *
  exact List.Sublist.nodup (List.Sublist.map _ List.filter_sublist) h

theorem ok_erase (k : Str) (hk : k ≠ "settings".toList) (p : Params) (h : Ok p) :
    Ok (PyDict.erase k p) ∧ ∀ key, value (PyDict.erase k p) key = if key = .param k then none else value p key := by
  have hs : PyDict.get "settings".toList (PyDict.erase k p) = PyDict.get "settings".toList p := by rw [PyDict.get_erase, if_neg hk]
  refine ⟨⟨erase_dict k p h.keys, fun d hd => h.settings d (by rw [← hs, hd])⟩, fun key => ?_⟩
  cases key with
  | param k' =>
    dsimp only [value]
    rw [PyDict.get_erase]
    by_cases e : k = k'
    · rw [if_pos e, if_pos (by rw [e])]
    · rw [if_neg e, if_neg (by intro h; cases h; exact e rfl)]
  | setting k' =>
    rw [if_neg (by intro h; cases h)]
    dsimp only [value]
    rw [hs]

theorem good_erase (k : Str) (hk : k ≠ "settings".toList) (p : Params) (h : Good p) : Good (PyDict.erase k p) :=
  ⟨erase_dict k p h.keys, fun d hd => h.settings d (by rw [PyDict.get_erase, if_neg hk] at hd; exact hd)⟩

theorem openIri_ok (W : World) (iri : Option Str) (amp : Bool) (ip : Params) (h : openIri W iri = .ok (amp, ip)) :
    Ok ip ∧ (∀ key, value ip key = iriSays W iri key) ∧ (amp = true ↔ ∃ s, iri = some ('&' :: s)) ∧ PyDict.get "prompt_password".toList ip ≠ some (.val (.bool true)) := by
  cases iri with
  | none =>
    cases h
    refine ⟨ok_nil, fun key => ?_, by simp, by simp [PyDict.get_nil]⟩
    unfold iriSays
    cases key <;> simp [value, PyDict.get_nil]
  | some s =>
    unfold openIri at h
    dsimp only at h
    have hb : (if s.head? = some '&' then (true, s.drop 1) else (false, s)) = (decide (s.head? = some '&'), bare s) := by
      unfold bare; split <;> simp_all
    rw [hb] at h
    dsimp only at h
    cases hp : iriParams W (bare s) with
    | error e => rw [hp] at h; cases h
    | ok p =>
      rw [hp] at h
      have h' := Except.ok.inj h
      have ha : decide (s.head? = some '&') = amp := congrArg Prod.fst h'
      have hi : PyDict.erase "path".toList p = ip := congrArg Prod.snd h'
      obtain ⟨o1, o2⟩ := iriParams_ok W (bare s) p hp
      obtain ⟨e1, e2⟩ := ok_erase "path".toList (by decide) p o1
      rw [hi] at e1 e2
      refine ⟨e1, fun key => ?_, ?_, ?_⟩
      · rw [e2]
        unfold iriSays
        dsimp only
        rw [hp]
      · rw [← ha, decide_eq_true_eq]
        cases s with
        | nil => simp
        | cons c s => simp
      · rw [← hi, PyDict.get_erase, if_neg (by decide)]
        intro hg
        rcases o2 _ _ hg with ⟨_, h⟩ | ⟨_, h⟩ | ⟨_, h⟩ <;> cases h

theorem withoutAddress_ok (p : Params) (h : Good p) :
    Good (withoutAddress p) ∧ ∀ key, value (withoutAddress p) key = if key = .param "host".toList ∨ key = .param "port".toList then none else value p key := by
  unfold withoutAddress
  have g1 := good_erase "host".toList (by decide) p h
  refine ⟨good_erase "port".toList (by decide) _ g1, fun key => ?_⟩
  rw [(ok_erase "port".toList (by decide) _ g1.ok).2, (ok_erase "host".toList (by decide) _ h.ok).2]
  by_cases h1 : key = .param "port".toList
  · rw [if_pos h1, if_pos (.inr h1)]
  · rw [if_neg h1]
    by_cases h2 : key = .param "host".toList
    · rw [if_pos h2, if_pos (.inl h2)]
    · rw [if_neg h2, if_neg (fun h => h.elim h2 h1)]

theorem collect_good (W : World) (environ : List (Str × Str)) (std : Params) (h : collect W { environ := some environ, resolve := false } = .ok std) : Good std := by
  unfold collect at h
  cases hg : gather W { environ := some environ, resolve := false } with
  | error e => rw [hg] at h; cases h
  | ok q =>
    rw [hg] at h
    have : q = std := Except.ok.inj h
    subst this
    exact (gather_says W _ ok_nil q hg).1

/-- `open`: a keyword is stronger than the IRI, which is stronger than what `collect` gives without the host and port if a socket in the file system is given;
then the password is resolved (`C47_password`). Settings are merged one by one. The connector itself is returned exactly if the IRI starts with `&`. -/
theorem C47_open (W : World) (environ : List (Str × Str)) (iri : Option Str) (kw : Params) (hkw : Ok kw) (amp : Bool) (p : Params)
    (h : openParams W environ iri kw = .ok (amp, p)) :
    (amp = true ↔ ∃ s, iri = some ('&' :: s)) ∧
    ∃ std m, collect W { environ := some environ, resolve := false } = .ok std ∧ resolvePassword W m = .ok p ∧
      ∀ key, key.Proper → value m key = strongest [value kw key, iriSays W iri key,
        if (value kw (.param "unix".toList) ≠ none ∨ iriSays W iri (.param "unix".toList) ≠ none) ∧ (key = .param "host".toList ∨ key = .param "port".toList) then none
        else value std key] := by
  unfold openParams at h
  cases hi : openIri W iri with
  | error e => rw [hi] at h; cases h
  | ok r =>
    obtain ⟨a, ip⟩ := r
    rw [hi] at h
    dsimp only at h
    obtain ⟨i1, i2, i3, -⟩ := openIri_ok W iri a ip hi
    cases hc : collect W { environ := some environ, resolve := false } with
    | error e => rw [hc] at h; cases h
    | ok std =>
      rw [hc] at h
      dsimp only at h
      have hstd := collect_good W environ std hc
      cases hm : merge [if PyDict.get "unix".toList kw ≠ none ∨ PyDict.get "unix".toList ip ≠ none then withoutAddress std else std, ip, kw] with
      | error e => rw [hm] at h; cases h
      | ok m =>
        rw [hm] at h
        dsimp only at h
        cases hr : resolvePassword W m with
        | error e => rw [hr] at h; cases h
        | ok q =>
          rw [hr] at h
          have h' := Except.ok.inj h
          have ha : a = amp := congrArg Prod.fst h'
          have hq : q = p := congrArg Prod.snd h'
          subst ha; subst hq
          refine ⟨i3, std, m, rfl, hr, fun key hk => ?_⟩
          have hu : PyDict.get "unix".toList ip = iriSays W iri (.param "unix".toList) := i2 (.param "unix".toList)
          have hv : PyDict.get "unix".toList kw = value kw (.param "unix".toList) := rfl
          rw [hu, hv] at hm
          obtain ⟨s1, s2⟩ := withoutAddress_ok std hstd
          by_cases hx : value kw (.param "unix".toList) ≠ none ∨ iriSays W iri (.param "unix".toList) ≠ none
          · rw [if_pos hx] at hm
            rw [(merge_ok _ (by
              intro x hx
              simp only [List.mem_cons, List.not_mem_nil, or_false] at hx
              rcases hx with rfl | rfl | rfl
              · exact s1.ok
              · exact i1
              · exact hkw) m hm).2 key hk]
            simp only [List.reverse_cons, List.reverse_nil, List.nil_append, List.cons_append, List.map_cons, List.map_nil]
            rw [i2, s2]
            by_cases hy : key = .param "host".toList ∨ key = .param "port".toList
            · rw [if_pos hy, if_pos ⟨hx, hy⟩]
            · rw [if_neg hy, if_neg (fun h => hy h.2)]
          · rw [if_neg hx] at hm
            rw [(merge_ok _ (by
              intro x hx
              simp only [List.mem_cons, List.not_mem_nil, or_false] at hx
              rcases hx with rfl | rfl | rfl
              · exact hstd.ok
              · exact i1
              · exact hkw) m hm).2 key hk]
            simp only [List.reverse_cons, List.reverse_nil, List.nil_append, List.cons_append, List.map_cons, List.map_nil]
            rw [i2, if_neg (fun h => hx h.1)]

/-- `dbapi20.connect`: a keyword is stronger than what `collect` gives. -/
theorem C47_connect (W : World) (environ : List (Str × Str)) (kw : Params) (hkw : Ok kw) (p : Params) (h : connectParams W environ kw = .ok p) :
    ∃ std m, collect W { environ := some environ, resolve := false } = .ok std ∧ resolvePassword W m = .ok p ∧
      ∀ key, key.Proper → value m key = strongest [value kw key, value std key] := by
  unfold connectParams at h
  cases hc : collect W { environ := some environ, resolve := false } with
  | error e => rw [hc] at h; cases h
  | ok std =>
    rw [hc] at h
    dsimp only at h
    have hstd := collect_good W environ std hc
    cases hm : merge [std, kw] with
    | error e => rw [hm] at h; cases h
    | ok m =>
      rw [hm] at h
      refine ⟨std, m, rfl, h, fun key hk => ?_⟩
      rw [(merge_ok _ (by
        intro x hx
        simp only [List.mem_cons, List.not_mem_nil, or_false] at hx
        rcases hx with rfl | rfl
        · exact hstd.ok
        · exact hkw) m hm).2 key hk]
      rfl

/-! ### The kind of connector -/

theorem given_some (x : Arg) (h : x ≠ .val .none) : Given (some x) := ⟨by simp, by simpa using h⟩

theorem given_eq (k : Str) (p : Params) : given k p = if Given (PyDict.get k p) then PyDict.get k p else none := by
  unfold given
  cases PyDict.get k p with
  | none => rw [if_neg (fun h : Given _ => h.1 rfl)]
  | some x =>
    cases x with
    | dict d => rw [if_pos (given_some _ (by simp))]
    | val y => cases y with
      | none => rw [if_neg (fun h : Given _ => h.2 rfl)]
      | _ => rw [if_pos (given_some _ (by simp))]

/-- The parameters but those of the address are kept. -/
def Kept (p args : Params) : Prop := ∀ k, k ∉ ["unix".toList, "host".toList, "port".toList] → PyDict.get k args = PyDict.get k p

theorem kept_erase (p : Params) : Kept p (PyDict.erase "port".toList (PyDict.erase "host".toList (PyDict.erase "unix".toList p))) := by
  intro k hk
  simp only [List.mem_cons, List.not_mem_nil, or_false, not_or] at hk
  rw [PyDict.get_erase, PyDict.get_erase, PyDict.get_erase, if_neg (fun e => hk.2.2 e.symm), if_neg (fun e => hk.2.1 e.symm), if_neg (fun e => hk.1 e.symm)]

theorem kept_cons {p args : Params} (h : Kept p args) (k : Str) (v : Arg) (hk : k ∈ ["unix".toList, "host".toList, "port".toList]) : Kept p ((k, v) :: args) := by
  intro k' hk'
  rw [get_tail _ _ (fun e => hk' (by rw [← e]; exact hk)), h k' hk']

/-- A socket in the file system is exclusive with host and port; else both are needed, and the kind of connector is by the form of the host. All else is kept. -/
theorem C47_fit (W : World) (p : Params) :
    (Given (PyDict.get "unix".toList p) → (Given (PyDict.get "host".toList p) ∨ Given (PyDict.get "port".toList p)) → fit W p = .error .typeError) ∧
    (Given (PyDict.get "unix".toList p) → ¬ Given (PyDict.get "host".toList p) → ¬ Given (PyDict.get "port".toList p) →
      ∃ args, fit W p = .ok (.unix, args) ∧ PyDict.get "unix".toList args = PyDict.get "unix".toList p ∧ Kept p args) ∧
    (¬ Given (PyDict.get "unix".toList p) → ¬ (Given (PyDict.get "host".toList p) ∧ Given (PyDict.get "port".toList p)) → fit W p = .error .typeError) ∧
    (¬ Given (PyDict.get "unix".toList p) → ∀ h, PyDict.get "host".toList p = some (.val (.text h)) → Given (PyDict.get "port".toList p) →
      ∃ args, fit W p = .ok (if ':' ∈ h ∧ W.inet6 h then .ip6 else if W.inet4 h then .ip4 else .host, args) ∧
        PyDict.get "host".toList args = PyDict.get "host".toList p ∧ PyDict.get "port".toList args = PyDict.get "port".toList p ∧ Kept p args) := by
  unfold fit
  dsimp only
  rw [given_eq "unix".toList, given_eq "host".toList, given_eq "port".toList]
  refine ⟨fun hu ho => ?_, fun hu hh hp => ?_, fun hu ho => ?_, fun hu h hh hp => ?_⟩
  · obtain ⟨u, hu'⟩ := Option.ne_none_iff_exists'.1 hu.1
    rw [if_pos hu, hu']
    dsimp only
    by_cases hh : Given (PyDict.get "host".toList p)
    · rw [if_pos hh, if_pos hh.1]
    · rw [if_neg hh, if_neg (by simp)]
      have hp := ho.resolve_left hh
      rw [if_pos hp, if_pos hp.1]
  · obtain ⟨u, hu'⟩ := Option.ne_none_iff_exists'.1 hu.1
    rw [if_pos hu, if_neg hh, if_neg hp, hu']
    dsimp only
    rw [if_neg (by simp), if_neg (by simp)]
    exact ⟨_, rfl, get_head _ _ _, kept_cons (kept_erase p) _ _ (by simp)⟩
  · rw [if_neg hu]
    dsimp only
    by_cases hh : Given (PyDict.get "host".toList p)
    · have hp : ¬ Given (PyDict.get "port".toList p) := fun hp => ho ⟨hh, hp⟩
      rw [if_neg hp, if_pos hh]
      cases PyDict.get "host".toList p with
      | none => rfl
      | some x => cases x with
        | dict d => rfl
        | val y => cases y <;> rfl
    · rw [if_neg hh]
  · have hg : Given (PyDict.get "host".toList p) := by rw [hh]; exact ⟨by simp, by simp⟩
    obtain ⟨port, hp'⟩ := Option.ne_none_iff_exists'.1 hp.1
    rw [if_neg hu, if_pos hg, if_pos hp, hh, hp']
    dsimp only
    refine ⟨("host".toList, .val (.text h)) :: ("port".toList, port) :: PyDict.erase "port".toList (PyDict.erase "host".toList (PyDict.erase "unix".toList p)), ?_, ?_, ?_, ?_⟩
    · by_cases h1 : ':' ∈ h ∧ W.inet6 h = true
      · rw [if_pos h1, if_pos ⟨List.contains_iff_mem.2 h1.1, h1.2⟩]
      · rw [if_neg h1, if_neg (fun x => h1 ⟨List.contains_iff_mem.1 x.1, x.2⟩)]
        split <;> rfl
    · exact get_head _ _ _
    · rw [get_tail _ _ (by decide)]; exact get_head _ _ _
    · exact kept_cons (kept_cons (kept_erase p) _ _ (by simp)) _ _ (by simp)

/-! ### Prompting -/

theorem serviceItems_stdin (W : World) (s : Stdin) : ∀ es, serviceItems { W with stdin := s } es = serviceItems W es
  | [] => rfl
  | e :: es => by
    rw [serviceItems, serviceItems, serviceItems_stdin W s es]

theorem serviceSearch_stdin (W : World) (s : Stdin) (name : Str) : ∀ fs, serviceSearch { W with stdin := s } name fs = serviceSearch W name fs
  | [] => rfl
  | f :: fs => by
    rw [serviceSearch, serviceSearch, serviceSearch_stdin W s name fs]
    simp only [serviceItems_stdin]

theorem callback_stdin (W : World) (s : Stdin) (c : List (Str × Str)) (k : Str) (v : Arg) : callback { W with stdin := s } c k v = callback W c k v := by
  unfold callback xService
  simp only [serviceSearch_stdin]
  rfl

theorem extrapolate_stdin (W : World) (s : Stdin) : ∀ (l : List Item) (c : List (Str × Str)), extrapolate { W with stdin := s } c l = extrapolate W c l
  | [], _ => rfl
  | .flat f :: l, c => by rw [extrapolate, extrapolate, extrapolate_stdin W s l]
  | .config k v :: l, c => by rw [extrapolate, extrapolate, extrapolate_stdin W s l]
  | .named k v :: l, c => by rw [extrapolate, extrapolate, extrapolate_stdin W s l, callback_stdin]

theorem collect_stdin (W : World) (s : Stdin) (c : Collect) (h : c.resolve = false) : collect { W with stdin := s } c = collect W c := by
  unfold collect gather
  rw [show sources { W with stdin := s } c = sources W c from rfl]
  cases sources W c with
  | error e => rfl
  | ok l =>
    simp only [extrapolate_stdin, h]
    rfl

theorem std_no_prompt (W : World) (environ : List (Str × Str)) (std : Params) (h : collect W { environ := some environ, resolve := false } = .ok std) :
    value std (.param "prompt_password".toList) = none := by
  rw [C47_collect_partial W _ ok_nil rfl std h _ (by decide +kernel)]
  have hs : serviceSays W { environ := some environ, resolve := false } (.param "prompt_password".toList) = none := by
    unfold serviceSays
    dsimp only
    split
    · rfl
    · split
      · unfold entriesSay
        have : ∀ es : List (Str × Str), (es.filter fun e => decide (W.E.U.lower e.1 ≠ "pg_service".toList ∧ entryFor W e.1 = .param "prompt_password".toList)) = [] := by
          intro es
          rw [List.filter_eq_nil_iff]
          intro e _ he
          have he := (of_decide_eq_true he).2
          unfold entryFor at he
          dsimp only at he
          split at he
          · exact absurd he (by decide +kernel)
          · split at he
            · exact absurd he (by decide +kernel)
            · split at he
              · rename_i hm
                have : W.E.U.lower e.1 = "prompt_password".toList := Key.param.inj he
                rw [this] at hm
                exact absurd hm (by decide +kernel)
              · cases he
        rw [this]; rfl
      · rfl
  rw [hs]
  have he : envSays W environ "PG".toList (.param "prompt_password".toList) = none := by
    unfold envSays
    dsimp only
    rw [show variableOf "prompt_password".toList = none from by decide +kernel, if_neg (by decide +kernel), if_neg (fun h => absurd h.1 (by decide +kernel))]
    rfl
  dsimp only [Option.bind_some]
  rw [he]
  have hd : defaultSays W (.param "prompt_password".toList) = none := by
    unfold defaultSays
    dsimp only
    rw [if_neg (by decide +kernel), if_neg (by decide +kernel), if_neg (by decide +kernel)]
    unfold defaultFile
    dsimp only
    rw [if_neg (by decide +kernel), if_neg (by decide +kernel), if_neg (by decide +kernel), if_neg (by decide +kernel), if_neg (by decide +kernel)]
    rfl
  rw [show (if ({ environ := some environ, resolve := false } : Collect).noDefaults = true then none else defaultSays W (.param "prompt_password".toList)) = none from hd]
  rfl

/-- `open` does not look at the standard input, unless the keyword `prompt_password` asks for it. -/
theorem C47_no_prompt (W : World) (environ : List (Str × Str)) (iri : Option Str) (kw : Params) (hkw : Ok kw)
    (hp : value kw (.param "prompt_password".toList) ≠ some (.val (.bool true))) (s : Stdin) :
    openParams { W with stdin := s } environ iri kw = openParams W environ iri kw := by
  unfold openParams
  rw [show openIri { W with stdin := s } iri = openIri W iri from rfl, collect_stdin W s _ rfl]
  cases hi : openIri W iri with
  | error e => rfl
  | ok r =>
    obtain ⟨a, ip⟩ := r
    dsimp only
    obtain ⟨i1, i2, i3, i4⟩ := openIri_ok W iri a ip hi
    cases hc : collect W { environ := some environ, resolve := false } with
    | error e => rfl
    | ok std =>
      dsimp only
      have hstd := collect_good W environ std hc
      have hnone := std_no_prompt W environ std hc
      generalize hs' : (if PyDict.get "unix".toList kw ≠ none ∨ PyDict.get "unix".toList ip ≠ none then withoutAddress std else std) = std'
      have g' : Ok std' ∧ value std' (.param "prompt_password".toList) = none := by
        subst hs'
        split
        · obtain ⟨s1, s2⟩ := withoutAddress_ok std hstd
          refine ⟨s1.ok, ?_⟩
          rw [s2, if_neg (by decide +kernel), hnone]
        · exact ⟨hstd.ok, hnone⟩
      cases hm : merge [std', ip, kw] with
      | error e => rfl
      | ok m =>
        dsimp only
        have hv := (merge_ok _ (by
              intro x hx
              simp only [List.mem_cons, List.not_mem_nil, or_false] at hx
              rcases hx with rfl | rfl | rfl
              · exact g'.1
              · exact i1
              · exact hkw) m hm).2 (.param "prompt_password".toList) (by decide +kernel)
        have hne : PyDict.get "prompt_password".toList m ≠ some (.val (.bool true)) := by
          intro he
          have he : value m (.param "prompt_password".toList) = some (.val (.bool true)) := he
          rw [hv] at he
          simp only [List.reverse_cons, List.reverse_nil, List.nil_append, List.cons_append, List.map_cons, List.map_nil, strongest, List.findSome?_cons, List.findSome?_nil, id_eq,
            g'.2] at he
          cases hk : value kw (.param "prompt_password".toList) with
          | some x => rw [hk] at he; exact hp (by rw [hk, ← he])
          | none =>
            rw [hk] at he
            dsimp only at he
            cases hj : value ip (.param "prompt_password".toList) with
            | some x => rw [hj] at he; exact i4 (by rw [← he]; exact hj)
            | none => rw [hj] at he; cases he
        have : resolvePassword { W with stdin := s } m = resolvePassword W m := by
          unfold resolvePassword
          dsimp only
          rw [if_neg hne, if_neg hne]
          rfl
        rw [this]

/-! ### Sockets in the file system -/

/-- `open` with a socket in the file system, and no host or port in the keywords and the IRI, makes a connector for it: whatever the environment, the service and the defaults
say of host and port. -/
theorem C47_unix (W : World) (environ : List (Str × Str)) (iri : Option Str) (kw : Params) (hkw : Ok kw) (amp : Bool) (p : Params)
    (h : openParams W environ iri kw = .ok (amp, p)) (u : Str) (hu : strongest [value kw (.param "unix".toList), iriSays W iri (.param "unix".toList)] = some (.val (.text u)))
    (hh : value kw (.param "host".toList) = none ∧ iriSays W iri (.param "host".toList) = none)
    (hp : value kw (.param "port".toList) = none ∧ iriSays W iri (.param "port".toList) = none) :
    ∃ args, open_ W environ iri kw = .ok (amp, .unix, args) ∧ PyDict.get "unix".toList args = some (.val (.text u)) := by
  obtain ⟨-, std, m, hc, hr, hv⟩ := C47_open W environ iri kw hkw amp p h
  have hx : value kw (.param "unix".toList) ≠ none ∨ iriSays W iri (.param "unix".toList) ≠ none := by
    by_cases h1 : value kw (.param "unix".toList) = none
    · right
      intro h2
      rw [h1, h2] at hu
      cases hu
    · exact .inl h1
  have keys := (C47_password W m p hr).1
  have vhost : PyDict.get "host".toList p = none := by
    rw [keys _ (by decide) (by decide +kernel), show PyDict.get "host".toList m = value m (.param "host".toList) from rfl, hv _ (by decide +kernel), hh.1, hh.2,
      if_pos ⟨hx, .inl rfl⟩]
    rfl
  have vport : PyDict.get "port".toList p = none := by
    rw [keys _ (by decide) (by decide +kernel), show PyDict.get "port".toList m = value m (.param "port".toList) from rfl, hv _ (by decide +kernel), hp.1, hp.2,
      if_pos ⟨hx, .inr rfl⟩]
    rfl
  have vunix : PyDict.get "unix".toList p = some (.val (.text u)) := by
    rw [keys _ (by decide) (by decide +kernel), show PyDict.get "unix".toList m = value m (.param "unix".toList) from rfl, hv _ (by decide +kernel)]
    unfold strongest at hu ⊢
    simp only [List.findSome?_cons, List.findSome?_nil, id_eq] at hu ⊢
    cases h1 : value kw (.param "unix".toList) with
    | some x => rw [h1] at hu; exact hu
    | none =>
      rw [h1] at hu
      dsimp only at hu ⊢
      cases h2 : iriSays W iri (.param "unix".toList) with
      | some x => rw [h2] at hu; exact hu
      | none => rw [h2] at hu; cases hu
  obtain ⟨args, f1, f2, -⟩ := (C47_fit W p).2.1 (by rw [vunix]; exact ⟨by simp, by simp⟩) (by rw [vhost]; simp [Given]) (by rw [vport]; simp [Given])
  refine ⟨args, ?_, by rw [f2, vunix]⟩
  unfold open_
  rw [h]
  dsimp only
  rw [f1]

/-- Finding: but with a password file that exists, and no password, `open` of a socket in the file system always fails: the file is asked for the host, which is not there. -/
theorem C47_unix_passfile (W : World) (environ : List (Str × Str)) (iri : Option Str) (kw : Params) (hkw : Ok kw)
    (hx : value kw (.param "unix".toList) ≠ none ∨ iriSays W iri (.param "unix".toList) ≠ none)
    (hh : value kw (.param "host".toList) = none ∧ iriSays W iri (.param "host".toList) = none)
    (hq : value kw (.param "prompt_password".toList) = none ∧ iriSays W iri (.param "prompt_password".toList) = none)
    (std : Params) (hc : collect W { environ := some environ, resolve := false } = .ok std)
    (hw : strongest [value kw (.param "password".toList), iriSays W iri (.param "password".toList), value std (.param "password".toList)] = none)
    (f : Arg) (hf : strongest [value kw (.param "pgpassfile".toList), iriSays W iri (.param "pgpassfile".toList), value std (.param "pgpassfile".toList)] = some f)
    (hg : Given (some f)) (lines : List Str) (he : W.passfile f = some lines) (r : Bool × Params) : openParams W environ iri kw ≠ .ok r := by
  intro h
  obtain ⟨amp, p⟩ := r
  obtain ⟨-, std', m, hc', hr, hv⟩ := C47_open W environ iri kw hkw amp p h
  have : std' = std := Except.ok.inj (hc'.symm.trans hc)
  subst this
  have notAddr : ∀ k : Str, k ≠ "host".toList → k ≠ "port".toList → ∀ P : Prop, ¬ (P ∧ (Key.param k = .param "host".toList ∨ Key.param k = .param "port".toList)) := by
    intro k h1 h2 P h
    rcases h.2 with h | h
    · exact h1 (Key.param.inj h)
    · exact h2 (Key.param.inj h)
  have vhost : PyDict.get "host".toList m = none := by
    rw [show PyDict.get "host".toList m = value m (.param "host".toList) from rfl, hv _ (by decide +kernel), hh.1, hh.2, if_pos ⟨hx, .inl rfl⟩]
    rfl
  have vpw : PyDict.get "password".toList m = none := by
    rw [show PyDict.get "password".toList m = value m (.param "password".toList) from rfl, hv _ (by decide +kernel), if_neg (notAddr _ (by decide) (by decide) _), hw]
  have vpf : PyDict.get "pgpassfile".toList m = some f := by
    rw [show PyDict.get "pgpassfile".toList m = value m (.param "pgpassfile".toList) from rfl, hv _ (by decide +kernel), if_neg (notAddr _ (by decide) (by decide) _), hf]
  have vpr : PyDict.get "prompt_password".toList m = none := by
    rw [show PyDict.get "prompt_password".toList m = value m (.param "prompt_password".toList) from rfl, hv _ (by decide +kernel), hq.1, hq.2,
      if_neg (notAddr _ (by decide) (by decide) _), std_no_prompt W environ std' hc]
    rfl
  obtain ⟨w, hl, -⟩ := ((C47_password W m p hr).2.2.2 (by rw [vpr]; simp)).2 (by rw [vpw]; simp [Given]) f vpf hg
  rw [← conf_entry, he] at hl
  unfold PgPass.lookupPgpass conf at hl
  rw [vhost] at hl
  dsimp only at hl
  cases hu : (PyDict.get "user".toList m).map (strOf W) with
  | none => rw [hu] at hl; cases hl
  | some x => rw [hu] at hl; cases hl

/-! ### Examples -/

theorem ok_example : Ok [("database".toList, t "d3"), ("settings".toList, .dict [("x".toList, .text "2".toList)])] := by
  refine ⟨by unfold IsDict; decide +kernel, fun d hd => ?_⟩
  have : d = [("x".toList, .text "2".toList)] := by
    rw [show PyDict.get "settings".toList [("database".toList, t "d3"), ("settings".toList, .dict [("x".toList, .text "2".toList)])] =
      some (.dict [("x".toList, .text "2".toList)]) from by decide +kernel] at hd
    injection hd with hd; injection hd with hd; exact hd.symm
  rw [this]
  unfold IsDict
  decide +kernel

-- The keywords are stronger than the IRI, the IRI stronger than the service.
example : (open_ world [("PGSERVICE".toList, "prod".toList)] (some "&pq://ann@h2/d2?geqo=on&x=1".toList)
      [("database".toList, t "d3"), ("settings".toList, .dict [("x".toList, .text "2".toList)])]).toOption.map
    (fun r => (r.1, r.2.1, [value r.2.2 (.param "user".toList), value r.2.2 (.param "host".toList), value r.2.2 (.param "database".toList), value r.2.2 (.setting "geqo".toList),
      value r.2.2 (.setting "x".toList)])) =
    some (true, .host, [some (t "ann"), some (t "h2"), some (t "d3"), some (t "on"), some (t "2")]) := by decide +kernel

example : (connectParams world [("PGSERVICE".toList, "prod".toList)] [("database".toList, t "d3")]).toOption.map
    (fun p => [value p (.param "host".toList), value p (.param "database".toList), value p (.param "password".toList)]) =
    some [some (t "10.0.0.7"), some (t "d3"), some (t "secret")] := by decide +kernel

-- The kinds of connectors.
example : (fit world [("host".toList, t "::1"), ("port".toList, .val (.int 1))]).toOption.map Prod.fst = some .ip6 ∧
    (fit world [("host".toList, t "10.0.0.7"), ("port".toList, .val (.int 1))]).toOption.map Prod.fst = some .ip4 ∧
    (fit world [("host".toList, t "h"), ("port".toList, .val (.int 1))]).toOption.map Prod.fst = some .host ∧
    (fit world [("host".toList, t "h"), ("port".toList, .val .none)]).toOption.map Prod.fst = none ∧
    (fit world [("unix".toList, t "/s"), ("host".toList, .val .none)]).toOption.map Prod.fst = some .unix := by decide +kernel

-- A socket in the file system: with a password, and without one.
example : (open_ world [("PGSERVICE".toList, "prod".toList)] none [("unix".toList, t "/tmp/s"), ("password".toList, t "x")]).toOption.map
    (fun r => (r.1, r.2.1, value r.2.2 (.param "unix".toList), value r.2.2 (.param "host".toList))) = some (false, .unix, some (t "/tmp/s"), none) ∧
  open_ world [("PGSERVICE".toList, "prod".toList)] none [("unix".toList, t "/tmp/s")] = .error .keyError := by decide +kernel

-- Finding: an IRI whose parameter is the name `settings`, percent-encoded, gets by the check for it, and fails later.
example : openParams world [] (some "pq://h/d?[%73ettings]=x".toList) [] = .error .valueError ∧
    (openIri world (some "pq://h/d?[%73ettings]=x".toList)).toOption.isSome := by decide +kernel

end PG.Props.ClientParams
