import Verif.Proofs.ClientParams2
/-!
# Lemmas for `Props/ClientParams`: services, IRIs, options, defaults
-/
namespace PG.Props.ClientParams
open PG PG.ClientParams PG.Spec.ClientParams
open PG.Proofs.ConfigFile (mem_keys_set nodup_set)

/-! ### Services -/

/-- The denormalized parameter of an entry. -/
def entryFlat (W : World) (e : Str × Str) : Flat :=
  let k := W.E.U.lower e.1
  if k = "hostaddr".toList then .top "host".toList (.val (.text e.2))
  else if k = "dbname".toList then .top "database".toList (.val (.text e.2))
  else if k ∉ serviceDriverParameters then .sub "settings".toList k (.text e.2)
  else .top k (.val (.text e.2))

theorem entryFlat_key (W : World) (e : Str × Str) : keyOf (entryFlat W e) = entryFor W e.1 ∧ valOf (entryFlat W e) = .val (.text e.2) ∧ Fine (entryFlat W e) := by
  unfold entryFlat entryFor
  rw [show driverParameters = serviceDriverParameters from rfl]
  dsimp only
  by_cases h1 : W.E.U.lower e.1 = "hostaddr".toList
  · simp only [if_pos h1]; exact ⟨rfl, rfl, by simp [Fine]⟩
  · simp only [if_neg h1]
    by_cases h2 : W.E.U.lower e.1 = "dbname".toList
    · simp only [if_pos h2]; exact ⟨rfl, rfl, by simp [Fine]⟩
    · simp only [if_neg h2]
      by_cases h3 : W.E.U.lower e.1 ∈ serviceDriverParameters
      · rw [if_neg (fun h => h h3), if_pos h3]
        refine ⟨rfl, rfl, ?_⟩
        have : ∀ k ∈ serviceDriverParameters, k ≠ "settings".toList := by decide +kernel
        exact this _ h3
      · rw [if_pos h3, if_neg h3]
        exact ⟨rfl, rfl, rfl⟩

theorem serviceItems_ok (W : World) : ∀ (es : List (Str × Str)) (l : List Flat), serviceItems W es = .ok l →
    l = (es.filter fun e => W.E.U.lower e.1 ≠ "pg_service".toList).map (entryFlat W)
  | [], l, h => by cases h; rfl
  | e :: es, l, h => by
    rw [serviceItems] at h
    dsimp only at h
    by_cases h1 : W.E.U.lower e.1 = "ldap".toList
    · rw [if_pos h1] at h; cases h
    · rw [if_neg h1] at h
      by_cases h2 : W.E.U.lower e.1 = "pg_service".toList
      · rw [if_pos h2] at h
        rw [serviceItems_ok W es l h, List.filter_cons, if_neg (fun h => (of_decide_eq_true h : W.E.U.lower e.1 ≠ "pg_service".toList) h2)]
      · rw [if_neg h2] at h
        cases hs : serviceItems W es with
        | error x => rw [hs] at h; cases h
        | ok r =>
          rw [hs] at h
          rw [List.filter_cons, if_pos (decide_eq_true h2), List.map_cons, ← serviceItems_ok W es r hs]
          exact (Except.ok.inj h).symm

theorem says_entries (W : World) (key : Key) : ∀ (es : List (Str × Str)),
    says (es.map (entryFlat W)) key = ((es.filter fun e => entryFor W e.1 = key).getLast?).map fun e => .val (.text e.2)
  | [] => rfl
  | e :: es => by
    rw [List.map_cons, says_cons, says_entries W key es, List.filter_cons]
    unfold gives
    rw [(entryFlat_key W e).1, (entryFlat_key W e).2.1]
    by_cases h : entryFor W e.1 = key
    · rw [if_pos h, if_pos (by simp [h]), List.getLast?_cons]
      cases (es.filter fun e => entryFor W e.1 = key).getLast? <;> rfl
    · rw [if_neg h, if_neg (by simp [h]), Option.or_none]

theorem serviceSearch_ok (W : World) (name : Str) : ∀ (files : List Str) (l : List Flat), serviceSearch W name files = .ok l →
    ∃ es, serviceIn W name files = some es ∧ serviceItems W es = .ok l
  | [], l, h => by cases h
  | f :: fs, l, h => by
    rw [serviceSearch] at h
    unfold serviceIn
    rw [List.findSome?_cons]
    by_cases he : W.pathExists f = true
    · rw [if_pos he] at h
      rw [if_pos he]
      cases hs : W.service f name with
      | error e => rw [hs] at h; cases h
      | ok s =>
        rw [hs] at h
        cases s with
        | none => exact serviceSearch_ok W name fs l h
        | some es => exact ⟨es, rfl, h⟩
    · rw [if_neg he] at h
      rw [if_neg he]
      exact serviceSearch_ok W name fs l h

theorem serviceSearch_none (W : World) (name : Str) : ∀ (files : List Str), serviceIn W name files = none → ∀ l, serviceSearch W name files ≠ .ok l := by
  intro files h l hl
  obtain ⟨es, h1, -⟩ := serviceSearch_ok W name files l hl
  rw [h] at h1; cases h1

theorem says_service (W : World) (name : Str) (files : List Str) (l : List Flat) (h : serviceSearch W name files = .ok l) :
    (∀ f ∈ l, Fine f) ∧ ∃ es, serviceIn W name files = some es ∧ ∀ key, says l key = entriesSay W es key := by
  obtain ⟨es, h1, h2⟩ := serviceSearch_ok W name files l h
  have h3 := serviceItems_ok W es l h2
  refine ⟨?_, es, h1, fun key => ?_⟩
  · intro f hf
    rw [h3] at hf
    obtain ⟨e, -, rfl⟩ := List.mem_map.1 hf
    exact (entryFlat_key W e).2.2
  · rw [h3, says_entries, List.filter_filter]
    unfold entriesSay
    congr 3
    funext e
    rw [Bool.decide_and, Bool.and_comm]

/-! ### IRIs -/

theorem get_map {α β : Type} (f : α → β) (k : Str) : ∀ d : List (Str × α), PyDict.get k (d.map fun e => (e.1, f e.2)) = (PyDict.get k d).map f
  | [] => rfl
  | e :: d => by
    rw [List.map_cons, PyDict.get_cons, PyDict.get_cons, get_map f k d]
    by_cases h : e.1 = k
    · rw [if_pos h, if_pos h]; rfl
    · rw [if_neg h, if_neg h]

theorem isDict_map {α β : Type} (f : α → β) (d : List (Str × α)) (h : IsDict d) : IsDict (d.map fun e => (e.1, f e.2)) := by
  unfold IsDict at h ⊢
  rw [List.map_map]
  exact h

/-- What `structure` builds: no key twice, no settings yet, and texts or lists as values. -/
structure Cpd (p : Iri.Params) : Prop where
  keys : IsDict p
  vals : ∀ e ∈ p, (∃ s, e.2 = .text s) ∨ ∃ l, e.2 = .list l

theorem cpd_set {p : Iri.Params} (h : Cpd p) (k s : Str) : Cpd (PyDict.set k (.text s) p) := by
  refine ⟨nodup_set _ _ _ h.keys, ?_⟩
  have key : ∀ (p : Iri.Params), (∀ e ∈ p, (∃ s, e.2 = Iri.PVal.text s) ∨ ∃ l, e.2 = Iri.PVal.list l) →
      ∀ e ∈ PyDict.set k (Iri.PVal.text s) p, (∃ s, e.2 = Iri.PVal.text s) ∨ ∃ l, e.2 = Iri.PVal.list l := by
    intro p
    induction p with
    | nil => intro _ e he; rw [PyDict.set] at he; rw [List.mem_singleton.1 he]; exact .inl ⟨s, rfl⟩
    | cons x p ih =>
      intro hp e he
      rw [PyDict.set] at he
      by_cases hx : x.1 = k
      · simp only [hx, if_true] at he
        rcases List.mem_cons.1 he with rfl | he
        · exact .inl ⟨s, rfl⟩
        · exact hp e (by simp [he])
      · simp only [hx, if_false] at he
        rcases List.mem_cons.1 he with rfl | he
        · exact hp e (by simp)
        · exact ih (fun y hy => hp y (by simp [hy])) e he
  exact key p h.vals

theorem queryLoop_ok (fp : Str → Str) : ∀ (q : List (Str × Option Str)) (p : Iri.Params) (st : List (Str × Iri.SVal)) (p' : Iri.Params) (st' : List (Str × Iri.SVal)),
    Cpd p → IsDict st → Iri.queryLoop fp p st q = .ok (p', st') → Cpd p' ∧ IsDict st'
  | [], p, st, p', st', hp, hs, h => by
    rw [Iri.queryLoop] at h; cases h; exact ⟨hp, hs⟩
  | (k, v) :: q, p, st, p', st', hp, hs, h => by
    rw [Iri.queryLoop] at h
    cases hq : Iri.queryStep fp p st k v with
    | error e => rw [hq] at h; cases h
    | ok r =>
      obtain ⟨p1, s1⟩ := r
      rw [hq] at h
      have : Cpd p1 ∧ IsDict s1 := by
        unfold Iri.queryStep at hq
        split at hq
        · split at hq
          · cases v with
            | none => cases hq
            | some v => cases hq; exact ⟨cpd_set hp _ _, hs⟩
          · cases hq; exact ⟨hp, hs⟩
        · split at hq
          · cases v with
            | none => cases hq
            | some v => cases hq; exact ⟨hp, nodup_set _ _ _ hs⟩
          · cases hq; exact ⟨hp, hs⟩
      exact queryLoop_ok fp q p1 s1 p' st' this.1 this.2 h

theorem cpd_start (fp : Str → Str) (d : RiParse.Dict) :
    Cpd (Iri.item "user".toList (d.user.map fp) ++ Iri.item "password".toList (d.password.map fp) ++ Iri.item "port".toList (d.port.map fp)
      ++ Iri.hostItem fp d.host ++ Iri.pathItems d.path) := by
  have hitem : ∀ (k : Str) (v : Option Str), ∃ o : List Str, Iri.item k v = o.map (fun s => (k, Iri.PVal.text s)) ∧ o.length ≤ 1 := by
    intro k v; cases v with
    | none => exact ⟨[], rfl, by simp⟩
    | some s => exact ⟨[s], rfl, by simp⟩
  have hhost : ∃ (k : Str) (o : List Str), (k = "unix".toList ∨ k = "host".toList) ∧ Iri.hostItem fp d.host = o.map (fun s => (k, Iri.PVal.text s)) ∧ o.length ≤ 1 := by
    unfold Iri.hostItem
    cases d.host with
    | none => exact ⟨_, [], .inl rfl, rfl, by simp⟩
    | some h =>
      dsimp only
      split
      · split
        · exact ⟨_, [_], .inl rfl, rfl, by simp⟩
        · exact ⟨_, [_], .inr rfl, rfl, by simp⟩
      · exact ⟨_, [_], .inr rfl, rfl, by simp⟩
  have hpath : ∃ (o : List Str) (l : List (List Str)), Iri.pathItems d.path = o.map (fun s => ("database".toList, Iri.PVal.text s)) ++ l.map (fun x => ("path".toList, Iri.PVal.list x))
      ∧ o.length ≤ 1 ∧ l.length ≤ 1 := by
    unfold Iri.pathItems
    cases d.path with
    | none => exact ⟨[], [], rfl, by simp, by simp⟩
    | some p => cases p with
      | nil => exact ⟨[], [], rfl, by simp, by simp⟩
      | cons a l =>
        refine ⟨if a = [] then [] else [a], if l = [] then [] else [l], ?_, ?_, ?_⟩
        · dsimp only; by_cases h1 : a = [] <;> by_cases h2 : l = [] <;> simp [h1, h2]
        · split <;> simp
        · split <;> simp
  obtain ⟨o1, h1, n1⟩ := hitem "user".toList (d.user.map fp)
  obtain ⟨o2, h2, n2⟩ := hitem "password".toList (d.password.map fp)
  obtain ⟨o3, h3, n3⟩ := hitem "port".toList (d.port.map fp)
  obtain ⟨k, o4, hk, h4, n4⟩ := hhost
  obtain ⟨o5, o6, h5, n5, n6⟩ := hpath
  rw [h1, h2, h3, h4, h5]
  have one : ∀ {α : Type} (o : List α), o.length ≤ 1 → o = [] ∨ ∃ a, o = [a] := by
    intro α o h
    match o, h with
    | [], _ => exact .inl rfl
    | [a], _ => exact .inr ⟨a, rfl⟩
  constructor
  · unfold IsDict
    have e1 := one o1 n1; have e2 := one o2 n2; have e3 := one o3 n3; have e4 := one o4 n4; have e5 := one o5 n5; have e6 := one o6 n6
    rcases hk with rfl | rfl <;>
    rcases e1 with rfl | ⟨_, rfl⟩ <;> rcases e2 with rfl | ⟨_, rfl⟩ <;> rcases e3 with rfl | ⟨_, rfl⟩ <;> rcases e4 with rfl | ⟨_, rfl⟩ <;>
      rcases e5 with rfl | ⟨_, rfl⟩ <;> rcases e6 with rfl | ⟨_, rfl⟩ <;> simp <;> done
  · intro e he
    simp only [List.mem_append, List.mem_map] at he
    rcases he with (((⟨a, -, rfl⟩ | ⟨a, -, rfl⟩) | ⟨a, -, rfl⟩) | ⟨a, -, rfl⟩) | (⟨a, -, rfl⟩ | ⟨a, -, rfl⟩)
    all_goals first | exact .inl ⟨_, rfl⟩ | exact .inr ⟨_, rfl⟩

theorem fragSettings_dict (fp : Str → Str) (frag : Option Str) (st : List (Str × Iri.SVal)) (h : IsDict st) : IsDict (Iri.fragSettings fp frag st) := by
  unfold Iri.fragSettings
  split
  · exact h
  · exact h
  · exact nodup_set _ _ _ h

/-- Texts, lists, and a dictionary for the settings. -/
theorem iri_parse_ok (E : Iri.Env) (fp : Str → Str) (s : Str) (p : Iri.Params) (h : Iri.parse E fp s = .ok p) :
    IsDict p ∧ (∀ k v, PyDict.get k p = some v → (∃ s, v = .text s) ∨ (∃ l, v = .list l) ∨ ∃ d, v = .dict d) ∧
      ∀ d, PyDict.get "settings".toList p = some (.dict d) → IsDict d := by
  unfold Iri.parse Iri.structure_ at h
  by_cases hs : Iri.schemeOk E.U (RiParse.parse id s).scheme = true
  · rw [if_pos hs] at h
    dsimp only at h
    cases hq : Iri.queryLoop fp (Iri.item "user".toList ((RiParse.parse id s).user.map fp) ++ Iri.item "password".toList ((RiParse.parse id s).password.map fp)
        ++ Iri.item "port".toList ((RiParse.parse id s).port.map fp) ++ Iri.hostItem fp (RiParse.parse id s).host ++ Iri.pathItems (RiParse.parse id s).path) []
        ((RiParse.parse id s).query.getD []) with
    | error e => rw [hq] at h; cases h
    | ok r =>
      obtain ⟨c, st⟩ := r
      rw [hq] at h
      dsimp only at h
      obtain ⟨hc, hst⟩ := queryLoop_ok fp _ _ _ _ _ (cpd_start fp (RiParse.parse id s)) (by simp [IsDict]) hq
      have hv : ∀ k v, PyDict.get k c = some v → (∃ s, v = .text s) ∨ (∃ l, v = .list l) ∨ ∃ d, v = .dict d := by
        intro k v hg
        rcases hc.vals _ (PyDict.get_mem hg) with ⟨s, hs⟩ | ⟨l, hl⟩
        · exact .inl ⟨s, hs⟩
        · exact .inr (.inl ⟨l, hl⟩)
      have hd : ∀ k d, PyDict.get k c ≠ some (.dict d) := by
        intro k d hg
        rcases hc.vals _ (PyDict.get_mem hg) with ⟨s, hs⟩ | ⟨l, hl⟩
        · cases hs
        · cases hl
      cases h
      split
      · exact ⟨hc.keys, hv, fun d hg => absurd hg (hd _ d)⟩
      · refine ⟨nodup_set _ _ _ hc.keys, fun k v hg => ?_, fun d hg => ?_⟩
        · rw [PyDict.get_set] at hg
          split at hg
          · cases hg; exact .inr (.inr ⟨_, rfl⟩)
          · exact hv k v hg
        · rw [PyDict.get_set, if_pos rfl] at hg
          cases hg
          exact fragSettings_dict _ _ _ hst
  · rw [if_neg hs] at h; cases h

end PG.Props.ClientParams
