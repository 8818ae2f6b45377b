import Verif.Spec.Connector
import Verif.Props.PgString
import Verif.Props.Iri
import Verif.Proofs.ConfigFile2
/-!
# C54: what a connection tells the server, and where it goes
-/
namespace PG.Props.Connector
open PG PG.Connector PG.Spec.Connector PG.Spec.PgString
open PG.Proofs.ConfigFile (mem_keys_set nodup_set set_new)

/-! ### Dictionaries -/

theorem update_get {κ β : Type} [DecidableEq κ] (k : κ) : ∀ (l d : List (κ × β)),
    PyDict.get k (update d l) = match (l.filter fun e => e.1 = k).getLast? with | some e => some e.2 | none => PyDict.get k d
  | [], d => rfl
  | e :: l, d => by
    show PyDict.get k (update (PyDict.set e.1 e.2 d) l) = _
    rw [update_get k l]
    by_cases h : e.1 = k
    · rw [List.filter_cons_of_pos (by simpa using h), List.getLast?_cons]
      cases (l.filter fun e => e.1 = k).getLast? with
      | some x => rfl
      | none => rw [PyDict.get_set, if_pos h]; rfl
    · rw [List.filter_cons_of_neg (by simpa using h)]
      cases (l.filter fun e => e.1 = k).getLast? with
      | some x => rfl
      | none => rw [PyDict.get_set, if_neg h]

theorem update_dict {κ β : Type} [DecidableEq κ] : ∀ (l d : List (κ × β)), IsDict d → IsDict (update d l)
  | [], _, h => h
  | e :: l, d, h => update_dict l _ (nodup_set e.1 e.2 d h)

/-- Of a dictionary, the last item for a key is the item for it. -/
theorem last_of_dict {κ β : Type} [DecidableEq κ] (k : κ) : ∀ (l : List (κ × β)), IsDict l → ((l.filter fun e => e.1 = k).getLast?).map Prod.snd = PyDict.get k l
  | [], _ => rfl
  | e :: l, h => by
    have hn := List.nodup_cons.1 h
    rw [PyDict.get_cons]
    by_cases he : e.1 = k
    · rw [if_pos he, List.filter_cons_of_pos (by simpa using he)]
      have : (l.filter fun e => e.1 = k) = [] := by
        rw [List.filter_eq_nil_iff]
        intro x hx hk
        exact hn.1 (List.mem_map.2 ⟨x, hx, by rw [of_decide_eq_true hk, he]⟩)
      rw [this]; rfl
    · rw [if_neg he, List.filter_cons_of_neg (by simpa using he)]
      exact last_of_dict k l hn.2

/-- A dictionary of a dictionary's items is the same. -/
theorem update_id {κ β : Type} [DecidableEq κ] : ∀ (l d : List (κ × β)), IsDict (d ++ l) → update d l = d ++ l
  | [], d, _ => (List.append_nil d).symm
  | e :: l, d, h => by
    show update (PyDict.set e.1 e.2 d) l = _
    have : PyDict.set e.1 e.2 d = d ++ [e] := by
      refine set_new e.1 e.2 d ?_
      unfold IsDict at h
      rw [List.map_append, List.map_cons, List.nodup_append] at h
      intro hm
      exact h.2.2 _ hm _ (List.mem_cons_self ..) rfl
    rw [this, update_id l (d ++ [e]) (by rw [List.append_assoc]; exact h), List.append_assoc]
    rfl

/-! ### The search path -/

theorem name_quoted (x rest : Str) (hx : x ≠ []) (hr : rest.head? ≠ some '"') (v r : Str) : Name (PgString.quoteIdent x ++ rest) v r ↔ v = x ∧ r = rest := by
  constructor
  · intro h
    cases h with
    | quoted h => exact (PG.Props.PgString.C27_ident x rest hx hr v r).1 h
    | word h =>
      exfalso
      have : PgString.quoteIdent x ++ rest = '"' :: (PyStr.double '"' x ++ ['"'] ++ rest) := by simp [PgString.quoteIdent]
      rw [this] at h
      unfold lexWord at h
      dsimp only at h
      rw [if_neg (by decide)] at h
      cases h
  · rintro ⟨rfl, rfl⟩
    exact .quoted ((PG.Props.PgString.C27_ident v r hx hr v r).2 ⟨rfl, rfl⟩)

/-- A list of quoted names, separated by commas, is read as this list, and no other. -/
theorem names_quoted : ∀ (l : List Str), l ≠ [] → (∀ x ∈ l, x ≠ []) → ∀ names, Names (PyStr.join [','] (l.map PgString.quoteIdent)) names ↔ names = l
  | [], h, _, _ => absurd rfl h
  | [x], _, hx, names => by
    have hx := hx x (List.mem_cons_self ..)
    show Names (PgString.quoteIdent x) names ↔ _
    rw [← List.append_nil (PgString.quoteIdent x)]
    constructor
    · intro h
      cases h with
      | one h => rw [((name_quoted x [] hx (by simp) _ _).1 h).1]
      | cons h t => exact absurd ((name_quoted x [] hx (by simp) _ _).1 h).2 (by simp)
    · rintro rfl
      exact .one ((name_quoted x [] hx (by simp) _ _).2 ⟨rfl, rfl⟩)
  | x :: y :: l, _, hx, names => by
    have hx1 := hx x (List.mem_cons_self ..)
    have ih := names_quoted (y :: l) (by simp) (fun z hz => hx z (List.mem_cons_of_mem _ hz))
    have ht : PyStr.join [','] ((x :: y :: l).map PgString.quoteIdent) = PgString.quoteIdent x ++ ',' :: PyStr.join [','] ((y :: l).map PgString.quoteIdent) := by
      simp [PyStr.join]
    rw [ht]
    have hn := fun v r => name_quoted x (',' :: PyStr.join [','] ((y :: l).map PgString.quoteIdent)) hx1 (by simp) v r
    constructor
    · intro h
      cases h with
      | one h => exact absurd ((hn _ _).1 h).2 (by simp)
      | cons h t =>
        obtain ⟨h1, h2⟩ := (hn _ _).1 h
        injection h2 with _ h2
        subst h1; subst h2
        rw [(ih _).1 t]
    · rintro rfl
      exact .cons ((hn _ _).2 ⟨rfl, rfl⟩) ((ih _).2 rfl)

/-! ### The parameters -/

theorem encodingOf_eq (c : Args) : encodingOf c = encoding c := by
  unfold encodingOf encoding
  cases c.serverEncoding with
  | none => rfl
  | some s => cases s <;> simp

theorem encoded_of (E : Env) (se : Str) : ∀ (d : List (Str × Val)) (l : List (Bytes × Bytes)), d.mapM (encodeItem E se) = .ok l → Encoded E se d l
  | [], l, h => by
    have : l = [] := (Except.ok.inj h).symm
    subst this; exact .nil
  | (k, v) :: d, l, h => by
    rw [List.mapM_cons] at h
    unfold encodeItem at h
    cases hk : E.encode "utf-8".toList k with
    | error e => simp only [hk] at h; cases h
    | ok kb =>
      simp only [hk] at h
      have fin : ∀ b, (do let ys ← d.mapM (encodeItem E se); pure ((kb, b) :: ys)) = Except.ok l → ∃ l', l = (kb, b) :: l' ∧ Encoded E se d l' := by
        intro b hb
        cases hd : d.mapM (encodeItem E se) with
        | error e => rw [hd] at hb; cases hb
        | ok l' => rw [hd] at hb; exact ⟨l', (Except.ok.inj hb).symm, encoded_of E se d l' hd⟩
      by_cases ht : ∃ s, v = .text s
      · obtain ⟨s, rfl⟩ := ht
        cases hv : E.encode se s with
        | error e => simp only [hv] at h; cases h
        | ok b =>
          simp only [hv] at h
          obtain ⟨l', rfl, t⟩ := fin b h
          exact .text hk hv t
      · have ht : ∀ s, v ≠ .text s := fun s e => ht ⟨s, e⟩
        have hm : (match v with | .text s => E.encode se s | v => E.encode "utf-8".toList (pyStr E v)) = E.encode "utf-8".toList (pyStr E v) := by
          cases v with
          | text s => exact absurd rfl (ht s)
          | _ => rfl
        cases hv : E.encode "utf-8".toList (pyStr E v) with
        | error e => simp only [hv] at h; cases h
        | ok b =>
          simp only [hv] at h
          obtain ⟨l', rfl, t⟩ := fin b h
          exact .other ht hk hv t

/-- What `settingsOf` gives: a dictionary that says what the settings say, with a search path that is a list of names written out. -/
theorem settingsOf_ok (st : Settings) (hd : ∀ d, st = .dict d → IsDict d) (s : List (Str × Val)) (st' : Settings) (h : settingsOf st = .ok (s, st')) :
    IsDict s ∧ (∀ k, k ≠ "search_path".toList → PyDict.get k s = settingSays st k) ∧
    (∀ d l, st = .dict d → PyDict.get "search_path".toList d = some (.names l) → PyDict.get "search_path".toList s = some (.text (PyStr.join [','] (l.map PgString.quoteIdent)))) ∧
    ((∀ d l, st = .dict d → PyDict.get "search_path".toList d ≠ some (.names l)) → PyDict.get "search_path".toList s = settingSays st "search_path".toList) := by
  cases st with
  | none =>
    cases h
    exact ⟨by simp [IsDict], fun k _ => rfl, fun d l h => (by cases h), fun _ => rfl⟩
  | pairs l =>
    cases h
    have hg : ∀ k, PyDict.get k (update [] l) = settingSays (.pairs l) k := by
      intro k
      rw [update_get]
      show _ = ((l.filter fun e => e.1 = k).getLast?).map Prod.snd
      cases (l.filter fun e => e.1 = k).getLast? <;> rfl
    exact ⟨update_dict l [] (by simp [IsDict]), fun k _ => hg k, fun d l h => (by cases h), fun _ => hg _⟩
  | dict d =>
    have hd := hd d rfl
    unfold settingsOf at h
    dsimp only at h
    cases hg : PyDict.get "search_path".toList d with
    | none =>
      rw [hg] at h; cases h
      exact ⟨hd, fun k _ => rfl, fun d' l h hl => (by cases h; rw [hg] at hl; cases hl), fun _ => rfl⟩
    | some v =>
      rw [hg] at h
      cases v with
      | none =>
        cases h
        exact ⟨hd, fun k _ => rfl, fun d' l h hl => (by cases h; rw [hg] at hl; cases hl), fun _ => rfl⟩
      | text t =>
        cases h
        exact ⟨hd, fun k _ => rfl, fun d' l h hl => (by cases h; rw [hg] at hl; cases hl), fun _ => rfl⟩
      | other t => cases h
      | names l =>
        have h := Prod.mk.inj (Except.ok.inj h)
        rw [← h.1]
        refine ⟨nodup_set _ _ d hd, fun k hk => by rw [PyDict.get_set, if_neg (fun e => hk e.symm)]; rfl, fun d' l' h' hl => ?_, fun hn => absurd hg (hn d l rfl)⟩
        cases h'
        rw [hg] at hl
        cases hl
        rw [PyDict.get_set, if_pos rfl]

theorem keywords_gen (u db cm : Str) (hdu : db ≠ u) (user w : Val) (s : List (Str × Val)) (hs : IsDict s) (g : Val) :
    let d := PyDict.set u user (update [(cm, w)] s)
    let d' := match g with | .none => d | v => PyDict.set db v d
    IsDict d' ∧ ∀ k, PyDict.get k d' = if k = u then some user else if k = db ∧ g ≠ .none then some g
      else match PyDict.get k s with | some v => some v | none => if k = cm then some w else none := by
  dsimp only
  have h1 : IsDict (update [(cm, w)] s) := update_dict s _ (by simp [IsDict])
  have h2 := nodup_set u user _ h1
  have g2 : ∀ k, PyDict.get k (PyDict.set u user (update [(cm, w)] s)) =
      if k = u then some user else match PyDict.get k s with | some v => some v | none => if k = cm then some w else none := by
    intro k
    rw [PyDict.get_set]
    by_cases hk : k = u
    · rw [if_pos hk.symm, if_pos hk]
    · rw [if_neg (fun e => hk e.symm), if_neg hk, update_get, ← last_of_dict k s hs]
      cases (s.filter fun e => e.1 = k).getLast? with
      | some e => rfl
      | none =>
        dsimp only [Option.map_none]
        rw [PyDict.get_cons, PyDict.get_nil]
        by_cases hc : k = cm
        · rw [if_pos hc.symm, if_pos hc]
        · rw [if_neg (fun e => hc e.symm), if_neg hc]
  have key : ∀ v, v ≠ .none → IsDict (PyDict.set db v (PyDict.set u user (update [(cm, w)] s))) ∧
      ∀ k, PyDict.get k (PyDict.set db v (PyDict.set u user (update [(cm, w)] s))) = if k = u then some user else if k = db ∧ v ≠ .none then some v
        else match PyDict.get k s with | some v => some v | none => if k = cm then some w else none := by
    intro v hn
    refine ⟨nodup_set _ _ _ h2, fun k => ?_⟩
    rw [PyDict.get_set, g2]
    by_cases hk : k = db
    · rw [if_pos hk.symm, if_neg (by rw [hk]; exact hdu), if_pos ⟨hk, hn⟩]
    · rw [if_neg (fun e => hk e.symm), if_neg (fun h : k = db ∧ v ≠ .none => hk h.1)]
  cases g with
  | none =>
    refine ⟨h2, fun k => ?_⟩
    rw [g2, if_neg (c := k = db ∧ Val.none ≠ Val.none) (fun h => h.2 rfl)]
  | text t => exact key _ (by simp)
  | names t => exact key _ (by simp)
  | other t => exact key _ (by simp)

theorem keywords_ok (c : Args) (s : List (Str × Val)) (hs : IsDict s) : IsDict (keywords c s) ∧
    ∀ k, PyDict.get k (keywords c s) = if k = "user".toList then some c.user else if k = "database".toList ∧ c.database ≠ .none then some c.database
      else match PyDict.get k s with | some v => some v | none => if k = "client_min_messages".toList then some (.text "WARNING".toList) else none :=
  keywords_gen "user".toList "database".toList "client_min_messages".toList (by decide) c.user (.text "WARNING".toList) s hs c.database

/-- C54: the parameters of a connection are the ones wanted, each once: the user and the database, the settings, and `client_min_messages`, encoded;
a search path given as a list of names is written such that the server reads this list. The password is the one given, or empty. -/
theorem C54_parameters (E : Env) (c : Args) (hs : ∀ d, c.settings = .dict d → IsDict d) (r : Started) (h : startup E c = .ok r) :
    (∃ d, IsDict d ∧ Encoded E (encoding c) d r.parameters ∧ (∀ k, k ≠ "search_path".toList → PyDict.get k d = wanted c k) ∧
      (∀ st l, c.settings = .dict st → PyDict.get "search_path".toList st = some (.names l) →
        ∃ text, PyDict.get "search_path".toList d = some (.text text) ∧ (l ≠ [] → (∀ x ∈ l, x ≠ []) → ∀ names, Names text names ↔ names = l)) ∧
      ((∀ st l, c.settings = .dict st → PyDict.get "search_path".toList st ≠ some (.names l)) → PyDict.get "search_path".toList d = wanted c "search_path".toList)) ∧
    (∀ s, c.password = .text s → E.encode (encoding c) s = .ok r.password) ∧ (c.password = .none → E.encode (encoding c) [] = .ok r.password) := by
  unfold startup at h
  split at h
  · cases h
  · obtain ⟨⟨s, st'⟩, hst, h⟩ := Element3.bind_eq_ok h
    obtain ⟨ps, hp, h⟩ := Element3.bind_eq_ok h
    obtain ⟨pw, hw, h⟩ := Element3.bind_eq_ok h
    have := Except.ok.inj h
    subst this
    dsimp only at hp ⊢
    obtain ⟨s1, s2, s3, s4⟩ := settingsOf_ok c.settings hs s st' hst
    obtain ⟨k1, k2⟩ := keywords_ok c s s1
    have hsp : PyDict.get "search_path".toList (keywords c s) = PyDict.get "search_path".toList s := by
      rw [k2, if_neg (by decide), if_neg (fun h => absurd h.1 (by decide)), if_neg (by decide)]
      cases PyDict.get "search_path".toList s <;> rfl
    refine ⟨⟨keywords c s, k1, ?_, ?_, ?_, ?_⟩, ?_, ?_⟩
    · rw [← encodingOf_eq]; exact encoded_of E _ _ _ hp
    · intro k hk
      rw [k2]
      unfold wanted
      rw [s2 k hk]
      rfl
    · intro st l h1 h2
      refine ⟨_, by rw [hsp, s3 st l h1 h2], fun h3 h4 => names_quoted l h3 h4⟩
    · intro hn
      rw [hsp, s4 hn]
      unfold wanted
      rw [if_neg (by decide), if_neg (fun h => absurd h.1 (by decide)), if_neg (by decide)]
      cases settingSays c.settings "search_path".toList <;> rfl
    · intro t ht
      rw [ht] at hw
      rw [← encodingOf_eq]; exact hw
    · intro ht
      rw [ht] at hw
      rw [← encodingOf_eq]; exact hw

/-! ### The message -/

theorem cstring_ok : ∀ (s r : Bytes), (0 : UInt8) ∉ s → cstring (s ++ 0 :: r) = some (s, r)
  | [], r, _ => by simp [cstring]
  | b :: s, r, h => by
    rw [List.mem_cons, not_or] at h
    rw [List.cons_append, cstring, if_neg (fun e => h.1 e.symm), cstring_ok s r h.2]
    rfl

/-- An item the message can carry. -/
def Plain (p : Bytes × Bytes) : Prop := p.1 ≠ [] ∧ (0 : UInt8) ∉ p.1 ∧ (0 : UInt8) ∉ p.2

theorem server_reads : ∀ (l : List (Bytes × Bytes)), (∀ p ∈ l, Plain p) → ServerReads (Element3.startupItems (l.map fun e => (e.1, some e.2)) ++ [0]) l
  | [], _ => .done
  | (k, v) :: l, h => by
    obtain ⟨h1, h2, h3⟩ := h (k, v) (List.mem_cons_self ..)
    have : Element3.startupItems (((k, v) :: l).map fun e => (e.1, some e.2)) ++ [0] =
        k ++ 0 :: (v ++ 0 :: (Element3.startupItems (l.map fun e => (e.1, some e.2)) ++ [0])) := by
      simp [Element3.startupItems]
    rw [this]
    exact .item (cstring_ok k _ h2) h1 (cstring_ok v _ h3) (server_reads l fun p hp => h p (List.mem_cons_of_mem _ hp))

theorem reads_functional : ∀ (b : Bytes) (l m : List (Bytes × Bytes)), ServerReads b l → ServerReads b m → l = m := by
  intro b l m h
  induction h generalizing m with
  | done =>
    intro h'
    cases h' with
    | done => rfl
    | item hk hne _ _ => simp [cstring] at hk; exact absurd hk.1 hne
  | item hk hne hv t ih =>
    intro h'
    cases h' with
    | done => simp [cstring] at hk; exact absurd hk.1 hne
    | item hk' _ hv' t' =>
      rw [hk] at hk'
      cases hk'
      rw [hv] at hv'
      cases hv'
      rw [ih _ t']

theorem encoded_keys (E : Env) (se : Str) {d : List (Str × Val)} {l : List (Bytes × Bytes)} (h : Encoded E se d l) :
    ∀ kb ∈ l.map Prod.fst, ∃ k ∈ d.map Prod.fst, E.encode "utf-8".toList k = .ok kb := by
  induction h with
  | nil => intro kb h; cases h
  | text hk _ _ ih =>
    intro x hx
    rcases List.mem_cons.1 hx with rfl | hx
    · exact ⟨_, List.mem_cons_self .., hk⟩
    · obtain ⟨k, h1, h2⟩ := ih x hx; exact ⟨k, List.mem_cons_of_mem _ h1, h2⟩
  | other _ hk _ _ ih =>
    intro x hx
    rcases List.mem_cons.1 hx with rfl | hx
    · exact ⟨_, List.mem_cons_self .., hk⟩
    · obtain ⟨k, h1, h2⟩ := ih x hx; exact ⟨k, List.mem_cons_of_mem _ h1, h2⟩

theorem encoded_dict (E : Env) (se : Str) {d : List (Str × Val)} {l : List (Bytes × Bytes)} (h : Encoded E se d l) (hd : IsDict d) : IsDict l := by
  have step : ∀ (k : Str) (kb : Bytes) (d : List (Str × Val)) (l : List (Bytes × Bytes)), E.encode "utf-8".toList k = .ok kb → Encoded E se d l → k ∉ d.map Prod.fst → kb ∉ l.map Prod.fst := by
    intro k kb d l hk t hn hm
    obtain ⟨k', h1, h2⟩ := encoded_keys E se t kb hm
    rw [E.utf8_inj _ _ _ hk h2] at hn
    exact hn h1
  induction h with
  | nil => exact List.nodup_nil
  | text hk _ t ih =>
    have hd := List.nodup_cons.1 hd
    exact List.nodup_cons.2 ⟨step _ _ _ _ hk t hd.1, ih hd.2⟩
  | other _ hk _ t ih =>
    have hd := List.nodup_cons.1 hd
    exact List.nodup_cons.2 ⟨step _ _ _ _ hk t hd.1, ih hd.2⟩

/-- C54: the server reads the startup message as the parameters of the connection, these and no others, in order: if there is no NUL in them and no name is empty. -/
theorem C54_message (E : Env) (c : Args) (hs : ∀ d, c.settings = .dict d → IsDict d) (r : Started) (h : startup E c = .ok r) (hp : ∀ p ∈ r.parameters, Plain p)
    (m : Bytes) (hm : message r.parameters = .ok m) : Message m r.parameters ∧ ∀ l, Message m l → l = r.parameters := by
  obtain ⟨⟨d, hd, he, -⟩, -⟩ := C54_parameters E c hs r h
  have hu : update [] r.parameters = r.parameters := by
    have := update_id r.parameters [] (by simpa using encoded_dict E _ he hd)
    simpa using this
  unfold message at hm
  rw [hu] at hm
  obtain ⟨data, h1, hm⟩ := Element3.bind_eq_ok hm
  obtain ⟨n, h2, hm⟩ := Element3.bind_eq_ok hm
  have hm : n ++ data = m := Except.ok.inj hm
  have h1 : Element3.v3Code ++ Element3.startupItems (r.parameters.map fun e => (e.1, some e.2)) ++ [0] = data := Except.ok.inj h1
  generalize hb : Element3.startupItems (r.parameters.map fun e => (e.1, some e.2)) ++ [0] = body at *
  have hdata : data = [0, 3, 0, 0] ++ body := by rw [← h1, List.append_assoc, hb]; rfl
  have hlen : data.length + 4 = body.length + 8 := by rw [hdata]; simp
  have hn : n = beEnc 4 (body.length + 8) := by
    unfold packU at h2
    split at h2
    · have := Except.ok.inj h2
      rw [← this]
      congr 1
    · cases h2
  have hm' : m = beEnc 4 (body.length + 8) ++ [0, 3, 0, 0] ++ body := by rw [← hm, hn, hdata, List.append_assoc]
  have hr : ServerReads body r.parameters := by rw [← hb]; exact server_reads _ hp
  refine ⟨⟨body, hm', by rw [hm']; simp; omega, hr⟩, ?_⟩
  rintro l ⟨body', e1, e2, e3⟩
  have : body' = body := by
    have hd := congrArg (List.drop 8) (hm'.symm.trans e1)
    rw [List.drop_left' (by simp), List.drop_left' (by simp)] at hd
    exact hd.symm
  rw [this] at e3
  exact reads_functional body l r.parameters e3 hr

/-! ### The user's settings -/

/-- C54: making a connector leaves the settings it was given as they are, but for a search path that is `None`. -/
theorem C54_settings_kept (E : Env) (c : Args) (r : Started) (h : startup E c = .ok r)
    (hn : ∀ d, c.settings = .dict d → PyDict.get "search_path".toList d ≠ some .none) : r.settings = c.settings := by
  unfold startup at h
  split at h
  · cases h
  · obtain ⟨⟨s, st'⟩, hst, h⟩ := Element3.bind_eq_ok h
    obtain ⟨ps, hp, h⟩ := Element3.bind_eq_ok h
    obtain ⟨pw, hw, h⟩ := Element3.bind_eq_ok h
    have := Except.ok.inj h
    subst this
    show st' = c.settings
    cases hc : c.settings with
    | none => rw [hc] at hst; cases hst; rfl
    | pairs l => rw [hc] at hst; cases hst; rfl
    | dict d =>
      rw [hc] at hst
      unfold settingsOf at hst
      dsimp only at hst
      cases hg : PyDict.get "search_path".toList d with
      | none => rw [hg] at hst; cases hst; rfl
      | some v =>
        rw [hg] at hst
        cases v with
        | none => exact absurd hg (hn d hc)
        | text t => cases hst; rfl
        | other t => cases hst
        | names l => cases hst; rfl

/-- Finding: a search path `None` is taken out of the user's dictionary, but sent all the same, as the text `None`. -/
theorem C54_search_path_none (E : Env) (c : Args) (d : List (Str × Val)) (hc : c.settings = .dict d) (hd : IsDict d) (hn : PyDict.get "search_path".toList d = some .none)
    (r : Started) (h : startup E c = .ok r) :
    r.settings = .dict (PyDict.erase "search_path".toList d) ∧
    ∃ kb b, E.encode "utf-8".toList "search_path".toList = .ok kb ∧ E.encode "utf-8".toList "None".toList = .ok b ∧ (kb, b) ∈ r.parameters := by
  obtain ⟨⟨t, t1, t2, t3, t4, t5⟩, -⟩ := C54_parameters E c (fun d' h' => by rw [hc] at h'; cases h'; exact hd) r h
  constructor
  · unfold startup at h
    split at h
    · cases h
    · obtain ⟨⟨s, st'⟩, hst, h⟩ := Element3.bind_eq_ok h
      obtain ⟨ps, hp, h⟩ := Element3.bind_eq_ok h
      obtain ⟨pw, hw, h⟩ := Element3.bind_eq_ok h
      have := Except.ok.inj h
      subst this
      show st' = _
      rw [hc] at hst
      unfold settingsOf at hst
      dsimp only at hst
      rw [hn] at hst
      cases hst; rfl
  · have hg : PyDict.get "search_path".toList t = some .none := by
      rw [t5 (fun st l h1 h2 => by rw [hc] at h1; cases h1; rw [hn] at h2; cases h2)]
      unfold wanted
      rw [hc, if_neg (by decide), if_neg (fun h => absurd h.1 (by decide))]
      show (match PyDict.get "search_path".toList d with | some v => some v | none => _) = _
      rw [hn]
    have hm := PyDict.get_mem hg
    clear t1 t3 t4 t5 hg h
    generalize r.parameters = ps at t2
    induction t2 with
    | nil => cases hm
    | text hk hv _ ih =>
      rcases List.mem_cons.1 hm with h | h
      · cases h
      · obtain ⟨kb, b, h1, h2, h3⟩ := ih h; exact ⟨kb, b, h1, h2, List.mem_cons_of_mem _ h3⟩
    | other _ hk hv _ ih =>
      rcases List.mem_cons.1 hm with h | h
      · cases h; exact ⟨_, _, hk, hv, List.mem_cons_self ..⟩
      · obtain ⟨kb, b, h1, h2, h3⟩ := ih h; exact ⟨kb, b, h1, h2, List.mem_cons_of_mem _ h3⟩

/-- C54: without a user there is no connector. -/
theorem C54_user (E : Env) (c : Args) (r : Started) (h : startup E c = .ok r) : c.user ≠ .none := by
  intro hu
  unfold startup at h
  rw [if_pos hu] at h
  cases h

/-! ### Addresses -/

/-- C54: a connector for an IP address goes to this address, with this protocol, and the port as a number; it is refused without host or port, with a port that is no number, and
with another IP version. -/
theorem C54_ip (host : Option Str) (port : Option Num) (ipv : Option (Option Num)) (l : List Address) :
    (ip4 host port ipv = .ok l ↔ ∃ h p n, host = some h ∧ port = some p ∧ toInt p = .ok n ∧ (ipv = none ∨ ipv = some (some (.int 4))) ∧ l = [.ip .inet h n]) ∧
    (ip6 host port ipv = .ok l ↔ ∃ h p n, host = some h ∧ port = some p ∧ toInt p = .ok n ∧ (ipv = none ∨ ipv = some (some (.int 6))) ∧ l = [.ip .inet6 h n]) := by
  have gen : ∀ v f, ipAddresses v f host port ipv = .ok l ↔ ∃ h p n, host = some h ∧ port = some p ∧ toInt p = .ok n ∧ (ipv = none ∨ ipv = some (some (.int v))) ∧ l = [.ip f h n] := by
    intro v f
    have hv : ipv.getD (some (.int v)) = some (.int v) ↔ (ipv = none ∨ ipv = some (some (.int v))) := by
      cases ipv with
      | none => simp
      | some x => simp
    unfold ipAddresses
    by_cases h : ipv.getD (some (.int v)) = some (.int v)
    · rw [if_neg (fun h' => h' h)]
      have hv := hv.1 h
      cases host with
      | none => simp
      | some a =>
        cases port with
        | none => simp
        | some p =>
          dsimp only
          cases hp : toInt p with
          | error e => simp [Except.map, hp]
          | ok n =>
            simp only [Except.map, Except.ok.injEq, Option.some.injEq]
            constructor
            · rintro rfl
              exact ⟨a, p, n, rfl, rfl, hp, hv, rfl⟩
            · rintro ⟨h', p', n', rfl, rfl, h3, -, rfl⟩
              rw [hp] at h3
              cases h3
              rfl
    · rw [if_pos h]
      constructor
      · intro h'; cases h'
      · rintro ⟨_, _, _, _, _, _, h', _⟩
        exact absurd (hv.2 h') h
  exact ⟨gen 4 .inet, gen 6 .inet6⟩

/-- C54: a connector for a host name asks for the addresses of the family wanted (all of them, if none is), and tries all addresses it is told, in this order;
an IP version other than 4 and 6, and an IP version together with a family are refused. -/
theorem C54_host (resolve : Str → Num → Family → Except Err (List (Family × Str × Int))) (host : Option Str) (port : Option Num) (ipv : Option Num) (family : Option Family) :
    (∀ f, hostFamily host port ipv family = .ok f ↔ host ≠ none ∧ port ≠ none ∧
      ((ipv = none ∧ family = none ∧ f = .unspec) ∨ (ipv = none ∧ family = some f) ∨ (family = none ∧ ipv = some (.int 4) ∧ f = .inet) ∨ (family = none ∧ ipv = some (.int 6) ∧ f = .inet6))) ∧
    (∀ h p f l, resolve h p f = .ok l → hostAddresses resolve h p f = .ok (l.map fun x => .ip x.1 x.2.1 x.2.2)) := by
  refine ⟨fun f => ?_, fun h p f l hl => by unfold hostAddresses; rw [hl]; rfl⟩
  unfold hostFamily
  cases host with
  | none => simp
  | some a =>
    cases port with
    | none => simp
    | some p =>
      rw [if_neg (by simp), if_neg (by simp)]
      cases ipv with
      | none =>
        rw [if_neg (by simp)]
        cases family with
        | none => simp [eq_comm]
        | some g => simp
      | some v =>
        cases family with
        | some g => simp
        | none =>
          rw [if_neg (by simp)]
          dsimp only
          by_cases h4 : v = .int 4
          · simp [h4, eq_comm]
          · by_cases h6 : v = .int 6
            · simp [h6, eq_comm]
            · simp [h4, h6]

/-- C54: a connector for a socket in the file system goes to it. -/
theorem C54_unix (p : Option Str) (l : List Address) : unix p = .ok l ↔ ∃ s, p = some s ∧ l = [.path s] := by
  cases p <;> simp [unix, eq_comm]

/-! ### What is shown -/

theorem filter_set_key {β : Type} (f : Str → Bool) (k : Str) (v : β) (hf : f k = true) : ∀ d : List (Str × β),
    (PyDict.set k v d).filter (fun e => f e.1) = PyDict.set k v (d.filter fun e => f e.1)
  | [] => by simp [PyDict.set, hf]
  | e :: d => by
    rw [PyDict.set]
    by_cases h : e.1 = k
    · rw [if_pos h, List.filter_cons_of_pos (by simpa using hf), List.filter_cons_of_pos (by rw [h]; exact hf), PyDict.set, if_pos h]
    · rw [if_neg h]
      by_cases hfe : f e.1 = true
      · rw [List.filter_cons_of_pos (p := fun e : Str × β => f e.1) hfe, List.filter_cons_of_pos (p := fun e : Str × β => f e.1) hfe, PyDict.set, if_neg h, filter_set_key f k v hf d]
      · rw [List.filter_cons_of_neg (p := fun e : Str × β => f e.1) hfe, List.filter_cons_of_neg (p := fun e : Str × β => f e.1) hfe, filter_set_key f k v hf d]

/-- C54: the IRI that is shown for a connector, as in messages, does not depend on the password. -/
theorem C54_hidden (E : Iri.Env) (attributes : Iri.Params) (p p' : Iri.PVal) :
    pqIri E (PyDict.set "password".toList p attributes) = pqIri E (PyDict.set "password".toList p' attributes) := by
  unfold pqIri
  have key : ∀ q : Iri.PVal, (PyDict.set "password".toList q attributes).filter (fun e => decide (e.1.head? ≠ some '_' ∧ e.1 ≠ "driver".toList ∧ e.1 ≠ "category".toList)) =
      PyDict.set "password".toList q (attributes.filter fun e => decide (e.1.head? ≠ some '_' ∧ e.1 ≠ "driver".toList ∧ e.1 ≠ "category".toList)) :=
    fun q => filter_set_key (fun k => decide (k.head? ≠ some '_' ∧ k ≠ "driver".toList ∧ k ≠ "category".toList)) "password".toList q (by decide) attributes
  rw [key p, key p']
  exact PG.Props.Iri.C32_obscured E _ p p'

/-- Finding: `repr()` of a connector shows the password. -/
theorem C54_repr : repr "postgresql.driver.pq3".toList "Host".toList (fun v => match v with | .text s => ['\''] ++ s ++ ['\''] | _ => [])
    [("user".toList, .text "jo".toList), ("password".toList, .text "secret".toList)] =
    "postgresql.driver.pq3.Host(\n user = 'jo',\n password = 'secret')".toList := by decide +kernel

/-! ### An example -/

/-- Codecs for ASCII. -/
def asciiEncode (s : Str) : Except Err Bytes := if s.all (fun c => c.toNat < 128) then .ok (s.map fun c => UInt8.ofNat c.toNat) else .error .valueError

theorem ascii_inj (a b : Str) (x : Bytes) (ha : asciiEncode a = .ok x) (hb : asciiEncode b = .ok x) : a = b := by
  unfold asciiEncode at ha hb
  split at ha
  · rename_i h1
    split at hb
    · rename_i h2
      replace ha := Except.ok.inj ha
      replace hb := Except.ok.inj hb
      rw [← hb] at ha
      clear hb
      induction a generalizing b with
      | nil => cases b with
        | nil => rfl
        | cons => cases ha
      | cons c a ih => cases b with
        | nil => cases ha
        | cons d b =>
          simp only [List.all_cons, Bool.and_eq_true, decide_eq_true_eq] at h1 h2
          rw [List.map_cons, List.map_cons] at ha
          injection ha with e1 e2
          have := congrArg UInt8.toNat e1
          rw [UInt8.toNat_ofNat', UInt8.toNat_ofNat'] at this
          have : c.toNat = d.toNat := by omega
          rw [Char.toNat_inj.1 this, ih b h1.2 h2.2 e2]
    · cases hb
  · cases ha

def ascii : Env where
  encode _ s := asciiEncode s
  utf8_inj := ascii_inj
  showNames _ := "['a', 'b']".toList

def a (s : String) : Bytes := s.toList.map fun c => UInt8.ofNat c.toNat

-- Settings, a search path, and no database.
example : (startup ascii { user := .text "jo".toList, password := .text "x".toList, settings := .dict [("search_path".toList, .names ["a".toList, "b\"c".toList]),
      ("geqo".toList, .other "True".toList)] }).toOption.map (fun r => (r.parameters, r.password)) =
    some ([(a "client_min_messages", a "WARNING"), (a "search_path", a "\"a\",\"b\"\"c\""), (a "geqo", a "True"), (a "user", a "jo")], a "x") := by decide +kernel

-- Pairs: the last one counts, and the user of the settings does not; the list of names is not written as a search path.
example : (startup ascii { user := .text "jo".toList, database := .text "d".toList, settings := .pairs [("x".toList, .text "1".toList), ("x".toList, .text "2".toList),
      ("user".toList, .text "root".toList), ("search_path".toList, .names ["a".toList, "b".toList])] }).toOption.map (fun r => r.parameters) =
    some [(a "client_min_messages", a "WARNING"), (a "x", a "2"), (a "user", a "jo"), (a "search_path", a "['a', 'b']"), (a "database", a "d")] := by decide +kernel

-- A message.
example : message [(a "user", a "jo"), (a "database", a "d")] = .ok ([0, 0, 0, 28, 0, 3, 0, 0] ++ a "user\x00jo\x00database\x00d\x00" ++ [0]) := by decide +kernel

example : Plain (a "user", a "jo") ∧ Plain (a "database", a "") := by unfold Plain; decide +kernel

/-- Finding: with a NUL in the name of the database the server reads another parameter. -/
theorem C54_nul : ∃ r m, startup ascii { user := .text "jo".toList, database := .text "d\x00options\x00-c x=y".toList } = .ok r ∧ message r.parameters = .ok m ∧
    Message m [(a "client_min_messages", a "WARNING"), (a "user", a "jo"), (a "database", a "d"), (a "options", a "-c x=y")] := by
  refine ⟨⟨[(a "client_min_messages", a "WARNING"), (a "user", a "jo"), (a "database", a "d\x00options\x00-c x=y")], a "", .none⟩,
    [0, 0, 0, 71, 0, 3, 0, 0] ++ (a "client_min_messages\x00WARNING\x00user\x00jo\x00database\x00d\x00options\x00-c x=y\x00" ++ [0]), ?_, by decide +kernel, ?_⟩
  · decide +kernel
  · refine ⟨a "client_min_messages\x00WARNING\x00user\x00jo\x00database\x00d\x00options\x00-c x=y\x00" ++ [0], by decide +kernel, by decide +kernel, ?_⟩
    exact .item (k := a "client_min_messages") (v := a "WARNING") rfl (by decide) rfl (.item (k := a "user") (v := a "jo") rfl (by decide) rfl
      (.item (k := a "database") (v := a "d") rfl (by decide) rfl (.item (k := a "options") (v := a "-c x=y") rfl (by decide) rfl .done)))

-- Addresses.
example : ip4 (some "127.0.0.1".toList) (some (.text "5432".toList)) none = .ok [.ip .inet "127.0.0.1".toList 5432] ∧
    ip6 (some "::1".toList) (some (.int 5432)) (some (some (.int 4))) = .error .typeError ∧
    hostFamily (some "h".toList) (some (.int 1)) (some (.int 6)) none = .ok .inet6 ∧
    hostFamily (some "h".toList) (some (.int 1)) (some (.text "6".toList)) none = .error .typeError := by decide +kernel

end PG.Props.Connector
