import Verif.Proofs.ClientParams3
/-!
# Lemmas for `Props/ClientParams`: options, defaults, all together
-/
namespace PG.Props.ClientParams
open PG PG.ClientParams PG.Spec.ClientParams
open PG.Proofs.ConfigFile (mem_keys_set nodup_set)

theorem iriParams_ok (W : World) (s : Str) (p : Params) (h : iriParams W s = .ok p) :
    Ok p ∧ ∀ k v, PyDict.get k p = some v → (∃ s, v = .val (.text s)) ∨ (∃ l, v = .val (.list l)) ∨ ∃ d, v = .dict d := by
  unfold iriParams at h
  cases hp : Iri.parse W.E RiParse.unescape s with
  | error e => rw [hp] at h; cases h
  | ok q =>
    rw [hp] at h
    have hq := Except.ok.inj h
    obtain ⟨h1, h2, h3⟩ := iri_parse_ok _ _ _ _ hp
    have hget : ∀ k, PyDict.get k p = (PyDict.get k q).map ofPVal := fun k => by rw [← hq]; exact get_map ofPVal k q
    refine ⟨⟨?_, ?_⟩, ?_⟩
    · rw [← hq]; exact isDict_map ofPVal q h1
    · intro d hd
      rw [hget] at hd
      cases hs : PyDict.get "settings".toList q with
      | none => rw [hs] at hd; cases hd
      | some v =>
        rw [hs] at hd
        rcases h2 _ _ hs with ⟨s, rfl⟩ | ⟨l, rfl⟩ | ⟨d', rfl⟩
        · cases hd
        · cases hd
        · have := Option.some.inj hd
          cases this
          exact isDict_map ofSVal d' (h3 d' hs)
    · intro k v hv
      rw [hget] at hv
      cases hs : PyDict.get k q with
      | none => rw [hs] at hv; cases hv
      | some w =>
        rw [hs] at hv
        have := Option.some.inj hv
        subst this
        rcases h2 _ _ hs with ⟨s, rfl⟩ | ⟨l, rfl⟩ | ⟨d', rfl⟩
        · exact .inl ⟨s, rfl⟩
        · exact .inr (.inl ⟨l, rfl⟩)
        · exact .inr (.inr ⟨_, rfl⟩)

/-! ### Options -/

theorem splitMax_zero (v : Str) : PyStr.splitMax '=' 0 v = [v] := by cases v <;> rfl

theorem splitMax_one : ∀ (v : Str), ('=' ∈ v → PyStr.splitMax '=' 1 v = [v.takeWhile (· ≠ '='), (v.dropWhile (· ≠ '=')).drop 1]) ∧
    ('=' ∉ v → PyStr.splitMax '=' 1 v = [v])
  | [] => ⟨fun h => absurd h (by simp), fun _ => rfl⟩
  | c :: v => by
    obtain ⟨h1, h2⟩ := splitMax_one v
    rw [PyStr.splitMax]
    by_cases hc : c = '='
    · subst hc
      refine ⟨fun _ => ?_, fun h => absurd (by simp) h⟩
      rw [if_pos rfl, splitMax_zero]; simp
    · rw [if_neg hc]
      constructor
      · intro h
        have : '=' ∈ v := by
          rcases List.mem_cons.1 h with e | h
          · exact absurd e.symm hc
          · exact h
        rw [h1 this]
        simp [PyStr.consHead, hc]
      · intro h
        rw [h2 (fun h' => h (by simp [h']))]
        rfl

/-- A single option that is well-formed. -/
theorem option_ok (W : World) (o : Opt) (i : Item) (h : optItem o = .ok i) (c : List (Str × Str)) (l : List Flat) (hl : extrapolate W c [i] = .ok l) :
    configAfter c [i] = c ∧ (∀ f ∈ l, Fine f) ∧ ∀ key, key.Proper → says l key = optionSays W o key := by
  have simple : ∀ (k : Str) (v : Arg), k ≠ "settings".toList → i = .flat (.top k v) →
      configAfter c [i] = c ∧ (∀ f ∈ l, Fine f) ∧ ∀ key, says l key = if key = .param k then some v else none := by
    intro k v hk hi
    subst hi
    have := Except.ok.inj hl
    subst this
    refine ⟨rfl, ?_, fun key => ?_⟩
    · intro f hf
      rw [List.mem_singleton.1 hf]; exact hk
    · rw [says_one]
      cases key with
      | param k' =>
        rw [gives_top]
        by_cases e : k = k'
        · rw [if_pos e, if_pos (by rw [e])]
        · rw [if_neg e, if_neg (by intro h; cases h; exact e rfl)]
      | setting k' => rw [gives_top_setting, if_neg (by intro h; cases h)]
  have three : ∀ (k : Str) (v : Arg), k ≠ "settings".toList → i = .flat (.top k v) → (∀ key, optionSays W o key = if key = .param k then some v else none) →
      configAfter c [i] = c ∧ (∀ f ∈ l, Fine f) ∧ ∀ key, key.Proper → says l key = optionSays W o key := by
    intro k v hk hi ho
    obtain ⟨a, b, d⟩ := simple k v hk hi
    exact ⟨a, b, fun key _ => by rw [d, ho]⟩
  cases o with
  | username v => exact three _ _ (by decide) (Except.ok.inj h).symm (fun _ => rfl)
  | database v => exact three _ _ (by decide) (Except.ok.inj h).symm (fun _ => rfl)
  | password => exact three _ _ (by decide) (Except.ok.inj h).symm (fun _ => rfl)
  | host v => exact three _ _ (by decide) (Except.ok.inj h).symm (fun _ => rfl)
  | port v => exact three _ _ (by decide) (Except.ok.inj h).symm (fun _ => rfl)
  | unix v => exact three _ _ (by decide) (Except.ok.inj h).symm (fun _ => rfl)
  | sslmode v => exact three _ _ (by decide) (Except.ok.inj h).symm (fun _ => rfl)
  | setting v =>
    unfold optItem at h
    dsimp only at h
    by_cases hv : '=' ∈ v
    · rw [(splitMax_one v).1 hv] at h
      have hi := (Except.ok.inj h).symm
      subst hi
      have := Except.ok.inj hl
      subst this
      refine ⟨rfl, ?_, fun key _ => ?_⟩
      · intro f hf
        rw [List.mem_singleton.1 hf]; exact rfl
      · rw [says_one]
        unfold optionSays
        cases key with
        | param k' => rw [gives_sub_param]; exact (if_neg (by intro h; cases h)).symm
        | setting k' =>
          rw [gives_sub]
          dsimp only
          by_cases e : v.takeWhile (· ≠ '=') = k'
          · rw [if_pos e, if_pos (by rw [e])]
          · rw [if_neg e, if_neg (by intro h; cases h; exact e rfl)]
    · rw [(splitMax_one v).2 hv] at h
      cases h
  | iri s =>
    have hi := (Except.ok.inj h).symm
    subst hi
    rw [extrapolate, show callback W c "pq_iri".toList (.val (.text s)) = some (xIri W (.val (.text s))) from by
      unfold callback; rw [if_neg (by decide), if_pos rfl]] at hl
    unfold xIri at hl
    dsimp only at hl
    cases hp : iriParams W s with
    | error e => rw [hp] at hl; cases hl
    | ok p =>
      rw [hp] at hl
      dsimp only at hl
      cases hd : denormalize p with
      | error e => rw [hd] at hl; cases hl
      | ok a =>
        rw [hd] at hl
        have : l = a := by
          have := Except.ok.inj hl
          rw [← this]; simp
        subst this
        obtain ⟨h2, h3⟩ := denormalize_ok p l (iriParams_ok W s p hp).1 hd
        refine ⟨rfl, h2, fun key hk => ?_⟩
        rw [h3 key hk]
        unfold optionSays
        dsimp only
        rw [hp]

theorem options_ok (W : World) : ∀ (os : List Opt) (is : List Item) (c : List (Str × Str)) (l : List Flat), optItems os = .ok is → extrapolate W c is = .ok l →
    (∀ f ∈ l, Fine f) ∧ ∀ key, key.Proper → says l key = optionsSay W os key
  | [], is, c, l, h, hl => by
    cases h; cases hl
    exact ⟨by simp, fun _ _ => rfl⟩
  | o :: os, is, c, l, h, hl => by
    rw [optItems] at h
    cases hi : optItem o with
    | error e => rw [hi] at h; cases h
    | ok i =>
      rw [hi] at h
      cases hs : optItems os with
      | error e => rw [hs] at h; cases h
      | ok is' =>
        rw [hs] at h
        have := Except.ok.inj h
        subst this
        replace hl : extrapolate W c ([i] ++ is') = .ok l := hl
        rw [extrapolate_append] at hl
        cases ha : extrapolate W c [i] with
        | error e => rw [ha] at hl; cases hl
        | ok a =>
          rw [ha] at hl
          obtain ⟨c1, a1, a2⟩ := option_ok W o i hi c a ha
          dsimp only at hl
          rw [c1] at hl
          cases hb : extrapolate W c is' with
          | error e => rw [hb] at hl; cases hl
          | ok b =>
            rw [hb] at hl
            have := Except.ok.inj hl
            subst this
            obtain ⟨b1, b2⟩ := options_ok W os is' c b hs hb
            refine ⟨?_, fun key hk => ?_⟩
            · intro f hf
              rcases List.mem_append.1 hf with hf | hf
              · exact a1 f hf
              · exact b1 f hf
            · rw [says_append, a2 key hk, b2 key hk]
              unfold optionsSay
              rw [List.reverse_cons, List.findSome?_append]
              simp

/-! ### Defaults -/

theorem get_cons_chain (k' k f : Str) (l : List (Str × Str)) : PyDict.get k ((k', f) :: l) = if k = k' then some f else PyDict.get k l := by
  rw [PyDict.get_cons]
  by_cases h : k' = k
  · rw [if_pos h, if_pos h.symm]
  · rw [if_neg h, if_neg (fun e => h e.symm)]

theorem get_defaultFiles (W : World) (k : Str) : PyDict.get k (defaultFiles W) = defaultFile W k := by
  unfold defaultFiles defaultFile
  dsimp only
  iterate 5 rw [get_cons_chain]
  rfl

theorem says_files (W : World) (k : Str) : ∀ (l : List (Str × Str)), IsDict l →
    says (l.filterMap fun e => if W.pathExists e.2 then some (Flat.top e.1 (.val (.text e.2))) else none) (.param k) =
      (PyDict.get k l).bind fun f => if W.pathExists f then some (.val (.text f)) else none
  | [], _ => rfl
  | e :: l, h => by
    have hn := List.nodup_cons.1 h
    have ih := says_files W k l hn.2
    rw [PyDict.get_cons, List.filterMap_cons]
    by_cases hk : e.1 = k
    · have : PyDict.get k l = none := PyDict.get_none.2 fun x hx he => hn.1 (List.mem_map.2 ⟨x, hx, by rw [he, hk]⟩)
      rw [this] at ih
      rw [if_pos hk, Option.bind_some]
      by_cases he : W.pathExists e.2 = true
      · simp only [he, if_true]
        rw [says_cons, ih, gives_top, if_pos hk]; rfl
      · simp only [he]
        rw [show (if (false : Bool) = true then some (Flat.top e.1 (Arg.val (Val.text e.2))) else none) = none from rfl]
        exact ih
    · rw [if_neg hk]
      by_cases he : W.pathExists e.2 = true
      · simp only [he, if_true]
        rw [says_cons, ih, gives_top, if_neg hk, Option.or_none]
      · simp only [he]
        exact ih

theorem defaultFiles_keys (W : World) : (defaultFiles W).map Prod.fst =
    ["sslcrtfile".toList, "sslkeyfile".toList, "sslrootcrtfile".toList, "sslrootcrlfile".toList, "pgpassfile".toList] := rfl

theorem defaults_tops (W : World) : ∀ f ∈ defaults W, ∃ k v, k ∈ "user".toList :: "host".toList :: "port".toList :: (defaultFiles W).map Prod.fst ∧ f = .top k v := by
  intro f hf
  unfold defaults at hf
  rcases List.mem_append.1 hf with hf | hf
  · simp only [List.mem_cons, List.not_mem_nil, or_false] at hf
    rcases hf with rfl | rfl | rfl
    · exact ⟨_, _, .head _, rfl⟩
    · exact ⟨_, _, .tail _ (.head _), rfl⟩
    · exact ⟨_, _, .tail _ (.tail _ (.head _)), rfl⟩
  · obtain ⟨e, he, hf⟩ := List.mem_filterMap.1 hf
    by_cases hx : W.pathExists e.2 = true
    · rw [if_pos hx] at hf
      exact ⟨e.1, _, .tail _ (.tail _ (.tail _ (List.mem_map.2 ⟨e, he, rfl⟩))), (Option.some.inj hf).symm⟩
    · rw [if_neg hx] at hf; cases hf

theorem defaults_fine (W : World) : ∀ f ∈ defaults W, Fine f := by
  intro f hf
  obtain ⟨k, v, hk, rfl⟩ := defaults_tops W f hf
  rw [defaultFiles_keys] at hk
  have : ∀ k ∈ "user".toList :: "host".toList :: "port".toList ::
      ["sslcrtfile".toList, "sslkeyfile".toList, "sslrootcrtfile".toList, "sslrootcrlfile".toList, "pgpassfile".toList], k ≠ "settings".toList := by decide +kernel
  exact this k hk

theorem says_defaults (W : World) (key : Key) : says (defaults W) key = defaultSays W key := by
  cases key with
  | setting sk =>
    apply says_tops
    intro f hf
    obtain ⟨k, v, -, rfl⟩ := defaults_tops W f hf
    exact ⟨k, v, rfl⟩
  | param k =>
    unfold defaults
    rw [says_append, says_files W k _ (by unfold IsDict; rw [defaultFiles_keys]; decide +kernel), get_defaultFiles]
    rw [says_cons, says_cons, says_one, gives_top, gives_top, gives_top]
    unfold defaultSays
    dsimp only
    have hd : ∀ k, k ∉ ["sslcrtfile".toList, "sslkeyfile".toList, "sslrootcrtfile".toList, "sslrootcrlfile".toList, "pgpassfile".toList] → defaultFile W k = none := by
      intro k hk
      rw [← get_defaultFiles]
      apply PyDict.get_none.2
      intro e he hek
      apply hk
      rw [← defaultFiles_keys W]
      exact List.mem_map.2 ⟨e, he, hek⟩
    by_cases h1 : k = "user".toList
    · subst h1
      rw [hd _ (by decide +kernel), if_neg (by decide), if_neg (by decide), if_pos rfl, if_pos rfl]; rfl
    · rw [if_neg h1, if_neg (fun e : "user".toList = k => h1 e.symm)]
      by_cases h2 : k = "host".toList
      · subst h2
        rw [hd _ (by decide +kernel), if_neg (by decide), if_pos rfl, if_pos rfl]; rfl
      · rw [if_neg h2, if_neg (fun e : "host".toList = k => h2 e.symm)]
        by_cases h3 : k = "port".toList
        · subst h3
          rw [hd _ (by decide +kernel), if_pos rfl, if_pos rfl]; rfl
        · rw [if_neg h3, if_neg (fun e : "port".toList = k => h3 e.symm)]
          simp

end PG.Props.ClientParams
