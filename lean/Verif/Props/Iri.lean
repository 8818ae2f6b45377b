import Verif.Props.RiParse
import Verif.Spec.Iri
import Verif.Proofs.Element3
/-!
# C32: connection IRIs
-/
namespace PG.Props.Iri
open PG PG.PyStr PG.RiParse PG.Spec.RiParse PG.Proofs.RiParse PG.Props.RiParse PG.Iri PG.Spec.Iri PG.PyDict

/-! ## The obscured password -/

theorem filter_set {p : Str × PVal → Bool} {k : Str} (hp : ∀ v, p (k, v) = false) (v v' : PVal) : ∀ x : Params, (PyDict.set k v x).filter p = (PyDict.set k v' x).filter p
  | [] => by simp [PyDict.set, hp]
  | e :: x => by
    rw [PyDict.set, PyDict.set]
    by_cases h : e.1 = k
    · rw [if_pos h, if_pos h, List.filter_cons_of_neg (by simp [hp]), List.filter_cons_of_neg (by simp [hp])]
    · rw [if_neg h, if_neg h, List.filter_cons, List.filter_cons, filter_set hp v v' x]

/-- With the password obscured, the IRI does not depend on it. -/
theorem C32_obscured (E : Env) (x : Params) (p p' : PVal) :
    Iri.serialize E true (PyDict.set "password".toList p x) = Iri.serialize E true (PyDict.set "password".toList p' x) := by
  have hg : ∀ (k : Str), k ≠ "password".toList → get k (PyDict.set "password".toList p x) = get k (PyDict.set "password".toList p' x) := by
    intro k hk; rw [get_set, get_set, if_neg (Ne.symm hk), if_neg (Ne.symm hk)]
  have hd : driverParams E (PyDict.set "password".toList p x) = driverParams E (PyDict.set "password".toList p' x) := by
    unfold driverParams
    rw [filter_set (p := fun e => !notDriver.contains e.1) (k := "password".toList) (fun v => show (!notDriver.contains "password".toList) = false by decide) p p' x]
  have hpw : shownPassword true (get "password".toList (PyDict.set "password".toList p x)) = shownPassword true (get "password".toList (PyDict.set "password".toList p' x)) := by
    rw [get_set, get_set, if_pos rfl, if_pos rfl]; rfl
  have hh : Iri.hostText (PyDict.set "password".toList p x) = Iri.hostText (PyDict.set "password".toList p' x) := by
    unfold Iri.hostText
    rw [hg "unix".toList (by decide), hg "host".toList (by decide)]
  unfold Iri.serialize Iri.construct
  rw [hg "settings".toList (by decide), hh, hg "database".toList (by decide), hg "path".toList (by decide), hg "user".toList (by decide), hpw,
    hg "ssl".toList (by decide), hg "port".toList (by decide), hd]

/-- It is the IRI of the same parameters with three stars for a password. -/
theorem C32_stars (E : Env) (x : Params) (p : PVal) :
    Iri.serialize E true (PyDict.set "password".toList p x) = Iri.serialize E false (PyDict.set "password".toList (.text "***".toList) x) := by
  rw [C32_obscured E x p (.text "***".toList)]
  unfold Iri.serialize Iri.construct
  have : ∀ b, shownPassword b (get "password".toList (PyDict.set "password".toList (.text "***".toList) x)) = some (.text "***".toList) := by
    intro b; rw [get_set, if_pos rfl]; cases b <;> rfl
  rw [this, this]

/-! ## Round trip -/

theorem split_unsplit (r : Ri) (x : Str) (hs : r.scheme = some x) (hx : ∀ c ∈ x, c.isAlphanum = true ∨ c = '-' ∨ c = '.' ∨ c = '+') (hn : r.netloc ≠ some [])
    (hnc : ∀ x, r.netloc = some x → '/' ∉ x ∧ '?' ∉ x ∧ '#' ∉ x) (hp : ∀ x, r.path = some x → '?' ∉ x ∧ '#' ∉ x) (hq : ∀ x, r.query = some x → '#' ∉ x) :
    RiParse.split (unsplit r) = r := by
  refine C31_split_unique (s := unsplit r) (a := r.scheme) (b := r.netloc) (c := r.path) (d := r.query) (e := r.fragment) ⟨?_, ?_, ?_, hn, hnc, hp, hq⟩
  · obtain ⟨a, b, c, d, e⟩ := r
    cases a <;> cases b <;> cases c <;> cases d <;> cases e <;> simp [unsplit, marked, leading]
  · intro y hy; rw [hs] at hy; cases hy; exact hx
  · intro h; rw [hs] at h; cases h

theorem item_raw (kv : Str × Option Str) : queryItem id (itemText kv) = (escapeQueryKey kv.1, kv.2.map escapeQueryValue) := by
  obtain ⟨k, v⟩ := kv
  have hk : '=' ∉ escapeQueryKey k := not_mem_escape (by decide) (.inl (by decide)) (by decide) (by decide)
  unfold queryItem
  cases v with
  | none => simp only [itemText]; rw [splitMax_miss 0 _ hk]; simp
  | some v =>
    simp only [itemText, List.append_assoc, List.cons_append, List.nil_append]
    rw [splitMax_hit 0 _ _ hk, splitMax_zero]; simp

theorem query_raw (q : List (Str × Option Str)) (hq : q ≠ []) (hq2 : q ≠ [([], none)]) :
    (if constructQuery q = [] then [] else (PyStr.split '&' (constructQuery q)).map (queryItem id)) = q.map fun kv => (escapeQueryKey kv.1, kv.2.map escapeQueryValue) := by
  rw [constructQuery_eq]
  rw [if_neg, split_of_join '&' _ (by simpa using hq), List.map_map]
  · exact List.map_congr_left fun kv _ => item_raw kv
  · intro x hx
    rw [List.mem_map] at hx
    obtain ⟨y, _, rfl⟩ := hx
    exact item_no '&' (.inl rfl) y
  · intro h
    rcases join_nil (by simp) h with h | h
    · exact hq (by simpa using h)
    · cases q with
      | nil => exact hq rfl
      | cons kv q =>
        obtain ⟨k, v⟩ := kv
        cases v with
        | none => simp [itemText] at h; exact hq2 (by rw [escape_nil h.1, h.2])
        | some v => simp [itemText] at h

theorem escape_head {X : List Char} {c : Char} (hc : c ≠ '%') {s : Str} (h : (escapeWith X s).head? = some c) : s.head? = some c := by
  cases s with
  | nil => exact h
  | cons d s =>
    rw [escapeWith_cons] at h
    split at h
    · simp [pctEncode] at h; exact absurd h.symm hc
    · simpa using h

theorem escape_append (X : List Char) (a b : Str) : escapeWith X (a ++ b) = escapeWith X a ++ escapeWith X b := by simp [escapeWith]

theorem escape_last {X : List Char} {c : Char} (hc : c ∉ "0123456789ABCDEF".toList) {s : Str} (h : (escapeWith X s).getLast? = some c) : s.getLast? = some c := by
  rcases List.eq_nil_or_concat s with rfl | ⟨s', d, rfl⟩
  · exact h
  · rw [List.concat_eq_append, escape_append, List.getLast?_append, escapeWith_cons] at h
    rw [List.concat_eq_append, List.getLast?_concat]
    split at h
    · rename_i hu
      simp [pctEncode, escapeWith] at h
      exact absurd (h ▸ hexDigit_safe _ (by omega)) hc
    · simpa [escapeWith] using h

theorem not_bracketed {k : Str} (h : ¬ (k.head? = some '[' ∧ k.getLast? = some ']')) : bracketed (escapeQueryKey k) = false := by
  unfold bracketed
  apply Bool.eq_false_iff.mpr
  intro hb
  simp only [Bool.and_eq_true, decide_eq_true_eq] at hb
  exact h ⟨escape_head (by decide) hb.1, escape_last (by decide) hb.2⟩

theorem bracketed_wrap (k : Str) : bracketed ('[' :: k ++ [']']) = true ∧ inner ('[' :: k ++ [']']) = k := by
  constructor
  · unfold bracketed; rw [List.getLast?_concat]; rfl
  · unfold inner; simp

/-- The driver parameters, read. -/
theorem drivers_read (rest : List (Str × Option Str)) (st : List (Str × SVal)) : ∀ (dp : List (Str × Str)) (cpd : Params), (dp.map Prod.fst).Nodup →
    (∀ e ∈ dp, e.1 ≠ "settings".toList ∧ get e.1 cpd = none ∧ ∀ c ∈ e.1, c ≠ '%' ∧ 32 < c.toNat ∧ c ∉ ['&', '=', '#']) →
    ∃ cpd', queryLoop unescape cpd st (dp.map (fun e => (escapeQueryKey ('[' :: e.1 ++ [']']), some (escapeQueryValue e.2))) ++ rest) = queryLoop unescape cpd' st rest ∧
      ∀ k, get k cpd' = match get k dp with | some v => some (.text v) | none => get k cpd
  | [], cpd, _, _ => ⟨cpd, rfl, fun k => rfl⟩
  | e :: dp, cpd, hn, h => by
    rw [List.map_cons, List.nodup_cons] at hn
    obtain ⟨h1, h2, h3⟩ := h e List.mem_cons_self
    have hid : escapeQueryKey ('[' :: e.1 ++ [']']) = '[' :: e.1 ++ [']'] := by
      apply escape_id
      intro c hc
      simp only [List.cons_append, List.mem_cons, List.mem_append, List.not_mem_nil, or_false] at hc
      rcases hc with rfl | hc | rfl
      · decide
      · exact h3 c hc
      · decide
    have hid2 : unescape e.1 = e.1 := by
      have h4 : escapeQueryKey e.1 = e.1 := escape_id _ h3
      have h5 : unescape (escapeQueryKey e.1) = e.1 := unescape_escape (by decide) _
      rw [h4] at h5; exact h5
    have hv : unescape (escapeQueryValue e.2) = e.2 := unescape_escape (by decide) _
    obtain ⟨hb1, hb2⟩ := bracketed_wrap e.1
    have step : queryStep unescape cpd st (escapeQueryKey ('[' :: e.1 ++ [']'])) (some (escapeQueryValue e.2)) = .ok (PyDict.set e.1 (.text e.2) cpd, st) := by
      unfold queryStep
      rw [hid, if_pos hb1, hb2, if_pos ⟨h1, h2⟩, hid2]
      dsimp only; rw [hv]
    obtain ⟨cpd', k1, k2⟩ := drivers_read rest st dp (PyDict.set e.1 (.text e.2) cpd) hn.2 (fun e' he' => by
      obtain ⟨g1, g2, g3⟩ := h e' (List.mem_cons_of_mem _ he')
      refine ⟨g1, ?_, g3⟩
      rw [get_set, if_neg, g2]
      intro hee
      exact hn.1 (List.mem_map.mpr ⟨e', he', hee.symm⟩))
    refine ⟨cpd', ?_, ?_⟩
    · rw [List.map_cons, List.cons_append, queryLoop, step]; exact k1
    · intro k
      rw [k2, get_cons]
      by_cases hk : e.1 = k
      · subst hk
        have : get e.1 dp = none := get_none.mpr (fun e' he' hee => hn.1 (List.mem_map.mpr ⟨e', he', hee⟩))
        rw [if_pos rfl, this, get_set, if_pos rfl]
      · rw [if_neg hk, get_set, if_neg hk]

/-- The settings, read. -/
theorem settings_read (cpd : Params) : ∀ (ss : List (Str × Str)) (st : List (Str × SVal)), (ss.map Prod.fst).Nodup →
    (∀ e ∈ ss, e.1 ≠ [] ∧ ¬ (e.1.head? = some '[' ∧ e.1.getLast? = some ']')) →
    ∃ st', queryLoop unescape cpd st (ss.map (fun e => (escapeQueryKey e.1, some (escapeQueryValue e.2)))) = .ok (cpd, st') ∧
      ∀ k, get k st' = match get k ss with | some v => some (.text v) | none => get k st
  | [], st, _, _ => ⟨st, rfl, fun k => rfl⟩
  | e :: ss, st, hn, h => by
    rw [List.map_cons, List.nodup_cons] at hn
    obtain ⟨h1, h2⟩ := h e List.mem_cons_self
    have hk : unescape (escapeQueryKey e.1) = e.1 := unescape_escape (by decide) _
    have hv : unescape (escapeQueryValue e.2) = e.2 := unescape_escape (by decide) _
    have step : queryStep unescape cpd st (escapeQueryKey e.1) (some (escapeQueryValue e.2)) = .ok (cpd, PyDict.set e.1 (.text e.2) st) := by
      unfold queryStep
      rw [not_bracketed h2]
      have hne : escapeQueryKey e.1 ≠ [] := fun e' => h1 (escape_nil e')
      rw [if_neg (by simp), if_pos hne, hk]
      dsimp only; rw [hv]
    obtain ⟨st', k1, k2⟩ := settings_read cpd ss (PyDict.set e.1 (.text e.2) st) hn.2 (fun e' he' => h e' (List.mem_cons_of_mem _ he'))
    refine ⟨st', ?_, ?_⟩
    · rw [List.map_cons, queryLoop, step]; exact k1
    · intro k
      rw [k2, get_cons]
      by_cases hk : e.1 = k
      · subst hk
        have : get e.1 ss = none := get_none.mpr (fun e' he' hee => hn.1 (List.mem_map.mpr ⟨e', he', hee⟩))
        rw [if_pos rfl, this, get_set, if_pos rfl]
      · rw [if_neg hk, get_set, if_neg hk]

theorem get_perm {β : Type} {a b : List (Str × β)} (hn : (a.map Prod.fst).Nodup) (h : a.Perm b) (k : Str) : get k a = get k b := by
  cases ha : get k a with
  | some v =>
    exact (get_of_mem ((h.map Prod.fst).nodup_iff.mp hn) (h.mem_iff.mp (get_mem ha))).symm
  | none =>
    symm
    rw [get_none] at ha ⊢
    intro e he; exact ha e (h.mem_iff.mpr he)

/-- The driver parameters are those of the dictionary, bracketed. -/
theorem driverParams_eq (E : Env) (x : Params) : ∃ dp : List (Str × Str), driverParams E x = dp.map (fun e => ('[' :: e.1 ++ [']'], e.2)) ∧
    dp.Perm ((x.filter fun e => !notDriver.contains e.1).map fun e => (e.1, strOf E e.2)) := by
  have hperm := List.mergeSort_perm ((x.filter fun e => !notDriver.contains e.1).map fun e => ('[' :: e.1 ++ [']'], strOf E e.2)) (fun a b => decide (¬ b.1 < a.1))
  refine ⟨(driverParams E x).map (fun e => (inner e.1, e.2)), ?_, ?_⟩
  · rw [List.map_map]
    symm
    rw [PG.Props.PgString.map_id_iff]
    intro e he
    have := hperm.mem_iff.mp he
    rw [List.mem_map] at this
    obtain ⟨e', _, rfl⟩ := this
    show ('[' :: inner ('[' :: e'.1 ++ [']']) ++ [']'], strOf E e'.2) = _
    rw [(bracketed_wrap e'.1).2]
  · have := hperm.map (fun e : Str × Str => (inner e.1, e.2))
    rw [List.map_map] at this
    refine this.trans (List.Perm.of_eq ?_)
    apply List.map_congr_left
    intro e _
    show (inner ('[' :: e.1 ++ [']']), strOf E e.2) = _
    rw [(bracketed_wrap e.1).2]

theorem get_filter_map (E : Env) (p : Str → Bool) (k : Str) : ∀ x : Params, get k ((x.filter fun e => p e.1).map fun e => (e.1, strOf E e.2)) = if p k then (get k x).map (strOf E) else none
  | [] => by simp [get_nil]
  | e :: x => by
    have ih := get_filter_map E p k x
    rw [List.filter_cons]
    by_cases hp : p e.1
    · rw [if_pos hp, List.map_cons, get_cons, get_cons, ih]
      by_cases hk : e.1 = k
      · subst hk; simp [hp]
      · simp [hk]
    · rw [if_neg hp, ih, get_cons]
      by_cases hk : e.1 = k
      · subst hk; simp [hp]
      · simp [hk]

/-- The host, written and read. -/
theorem host_back (x : Params) (hx : Carried x) : ∃ nh, Iri.hostText x = .ok nh ∧ (∀ h, nh = some h → HostOk h) ∧
    (nh = none → get "unix".toList x = none ∧ get "host".toList x = none) ∧ (nh = some [] → get "port".toList x ≠ none) ∧
    (get "user".toList x = none → ∀ h, nh = some h → '@' ∉ h) ∧
    ∀ k, get k (hostItem unescape (nh.map (fun h => if h.head? = some '[' then h else escapeHost h))) =
      if k = "host".toList then get "host".toList x else if k = "unix".toList then get "unix".toList x else none := by
  unfold Iri.hostText
  cases hu : get "unix".toList x with
  | some v =>
    obtain ⟨⟨u, rfl, hs, hat⟩, hh⟩ := hx.unix v hu
    have ho : HostOk ("[unix:".toList ++ (u.map fun c => if c = '/' then ':' else c) ++ [']']) := by
      refine .inr ⟨"unix:".toList ++ (u.map fun c => if c = '/' then ':' else c), rfl, ?_, ?_⟩
      · intro h
        rw [List.mem_append, List.mem_map] at h
        rcases h with h | ⟨c, hc, h⟩
        · revert h; decide
        · split at h
          · cases h
          · exact (hs c hc).2.2.1 h
      · intro c h
        rw [List.mem_append, List.mem_map] at h
        rcases h with h | ⟨d, hd, h⟩
        · revert c; decide
        · split at h
          · subst h; decide
          · rename_i hne
            subst h
            have := hs d hd
            exact ⟨this.1.1, this.1.2, hne, this.2.2.2.1, this.2.2.2.2⟩
    have hbi := bracketed_wrap ("unix:".toList ++ (u.map fun c => if c = '/' then ':' else c))
    refine ⟨_, rfl, fun h e => by cases e; exact ho, (nofun), (nofun), fun hn h e => ?_, ?_⟩
    · cases e
      intro hm
      rw [List.mem_append, List.mem_append, List.mem_map] at hm
      rcases hm with (hm | ⟨d, hd, hm⟩) | hm
      · revert hm; decide
      · split at hm
        · cases hm
        · subst hm; exact hat hn hd
      · revert hm; decide
    · intro k
      have e : ("[unix:".toList ++ (u.map fun c => if c = '/' then ':' else c) ++ [']']) = '[' :: ("unix:".toList ++ (u.map fun c => if c = '/' then ':' else c)) ++ [']'] := rfl
      rw [Option.map_some, e, if_pos (show ('[' :: ("unix:".toList ++ (u.map fun c => if c = '/' then ':' else c)) ++ [']']).head? = some '[' from rfl), hostItem, if_pos hbi.1, hbi.2, if_pos (by rw [List.isPrefixOf_iff_prefix]; exact List.prefix_append _ _)]
      have e2 : (List.drop 5 ("unix:".toList ++ (u.map fun c => if c = '/' then ':' else c))).map (fun c => if c = ':' then '/' else c) = u := by
        rw [List.drop_left' (by rfl), List.map_map]
        rw [PG.Props.PgString.map_id_iff]
        intro c hc
        have := hs c hc
        simp only [Function.comp_apply]
        by_cases h : c = '/'
        · subst h; rfl
        · rw [if_neg h, if_neg this.2.1]
      rw [e2, get_cons, get_nil, hh]
      by_cases hk : k = "host".toList
      · subst hk; rw [if_pos rfl, if_neg (show "unix".toList ≠ "host".toList by decide)]
      · rw [if_neg hk]
        by_cases hk2 : k = "unix".toList
        · subst hk2; rfl
        · rw [if_neg hk2, if_neg (Ne.symm hk2)]
  | none =>
    cases hh : get "host".toList x with
    | none =>
      refine ⟨none, rfl, (nofun), fun _ => ⟨rfl, rfl⟩, (nofun), (nofun), fun k => ?_⟩
      simp [hostItem, get_nil]
    | some v =>
      obtain ⟨h, rfl, hn, hp, hat⟩ := hx.host v hh
      dsimp only
      rcases hn with ⟨h1, h2⟩ | ⟨h1, h2, h3⟩
      · rw [if_neg (by simpa using h1)]
        refine ⟨some h, rfl, fun y e => by cases e; exact .inl ⟨h1, h2⟩, (nofun), fun e => hp (by cases e; rfl), fun hn y e => by cases e; exact hat hn, ?_⟩
        intro k
        have hb : bracketed (escapeHost h) = false := by
          unfold bracketed
          apply Bool.eq_false_iff.mpr
          intro hb
          simp only [Bool.and_eq_true, decide_eq_true_eq] at hb
          exact h2 (escape_head (by decide) hb.1)
        rw [Option.map_some, if_neg h2, hostItem, hb, if_neg (by simp), show unescape (escapeHost h) = h from unescape_escape (by decide) h, get_cons, get_nil]
        by_cases hk : k = "host".toList
        · subst hk; rfl
        · rw [if_neg hk, if_neg (Ne.symm hk)]; simp
      · rw [if_pos (by simpa using h1)]
        have ho : HostOk ('[' :: h ++ [']']) := .inr ⟨h, rfl, fun hm => (h3 _ hm).2.1 rfl, fun c hc => by
          have := h3 c hc; exact ⟨this.1.1, this.1.2, this.2.2.1, this.2.2.2.1, this.2.2.2.2⟩⟩
        refine ⟨_, rfl, fun y e => by cases e; exact ho, (nofun), (nofun), fun hn y e => ?_, ?_⟩
        · cases e
          have := hat hn
          simp [this]
        · intro k
          have hbi := bracketed_wrap h
          rw [Option.map_some, if_pos (show ('[' :: h ++ [']']).head? = some '[' from rfl), hostItem, if_pos hbi.1, hbi.2, if_neg (by rw [List.isPrefixOf_iff_prefix]; exact h2), get_cons, get_nil]
          by_cases hk : k = "host".toList
          · subst hk; rfl
          · rw [if_neg hk, if_neg (Ne.symm hk)]; simp

theorem pathText_plain (E : Env) : ∀ l : List Str, (∀ s ∈ l, '\\' ∉ s) → pathText E l = .ok l
  | [], _ => rfl
  | c :: l, h => by
    rw [pathText, E.repl_plain c (h c List.mem_cons_self), pathText_plain E l (fun s hs => h s (List.mem_cons_of_mem _ hs))]

theorem get_item (k k' : Str) (v : Option Str) : get k (item k' v) = if k' = k then v.map .text else none := by
  cases v with
  | none => simp [item, get_nil]
  | some v => simp [item, get_cons, get_nil]

theorem settingItems_text : ∀ (d : List (Str × SVal)), (∀ e ∈ d, ∃ s, e.2 = .text s) → ∃ ss : List (Str × Str),
    settingItems d = .ok (ss.map fun e => (e.1, some e.2)) ∧ d = ss.map fun e => (e.1, SVal.text e.2)
  | [], _ => ⟨[], rfl, rfl⟩
  | (k, v) :: d, h => by
    obtain ⟨ss, h1, h2⟩ := settingItems_text d (fun e he => h e (List.mem_cons_of_mem _ he))
    obtain ⟨s, hs⟩ := h (k, v) List.mem_cons_self
    dsimp only at hs
    subst hs
    refine ⟨(k, s) :: ss, ?_, ?_⟩
    · simp only [settingItems, h1]; rfl
    · rw [List.map_cons, ← h2]

theorem get_map_text (k : Str) : ∀ ss : List (Str × Str), get k (ss.map fun e => (e.1, SVal.text e.2)) = (get k ss).map SVal.text
  | [] => rfl
  | e :: ss => by
    rw [List.map_cons, get_cons, get_cons, get_map_text k ss]
    by_cases h : e.1 = k <;> simp [h]

theorem get_filter {β : Type} (p : Str → Bool) (k : Str) : ∀ d : List (Str × β), get k (d.filter fun e => p e.1) = if p k then get k d else none
  | [] => by simp [get_nil]
  | e :: d => by
    have ih := get_filter p k d
    rw [List.filter_cons]
    by_cases hp : p e.1
    · rw [if_pos hp, get_cons, get_cons, ih]
      by_cases hk : e.1 = k
      · subst hk; simp [hp]
      · simp [hk]
    · rw [if_neg hp, ih, get_cons]
      by_cases hk : e.1 = k
      · subst hk; simp [hp]
      · simp [hk]

theorem constructPath_back (l : List Str) (h1 : l ≠ []) (h2 : l ≠ [[]]) : constructPath l ≠ [] ∧ (PyStr.split ',' (constructPath l)).map unescape = l := by
  unfold constructPath
  constructor
  · intro h
    rcases join_nil (by simp) h with h | h
    · exact h1 (by simpa using h)
    · cases l with
      | nil => exact h1 rfl
      | cons x l => simp at h; exact h2 (by rw [escape_nil h.1, h.2])
  · rw [split_of_join ',' _ (by simpa using h1), List.map_map]
    · have : (unescape ∘ escapeWith [',']) = id := funext fun s => unescape_escape (X := [',']) (by decide) s
      rw [this, List.map_id]
    · intro x hx
      rw [List.mem_map] at hx
      obtain ⟨y, _, rfl⟩ := hx
      exact not_mem_escape (by decide) (.inl (by decide)) (by decide) (by decide)

/-- What the settings are written as, and that they are read back. -/
theorem settings_back (E : Env) (x : Params) (hx : Carried x) : ∃ (d0 : List (Str × SVal)) (osp : Option SVal) (sp : Option (List Str)) (ss : List (Str × Str)),
    splitSettings (get "settings".toList x) = .ok (d0, osp) ∧ searchPath E osp = .ok sp ∧ settingItems d0 = .ok (ss.map fun e => (e.1, some e.2)) ∧
    (ss.map Prod.fst).Nodup ∧ (∀ e ∈ ss, e.1 ≠ [] ∧ ¬ (e.1.head? = some '[' ∧ e.1.getLast? = some ']')) ∧
    ∀ st, (∀ k, get k st = match get k ss with | some v => some (.text v) | none => none) →
      (fragSettings unescape (sp.map constructPath) st = [] ∧ get "settings".toList x = none) ∨
      (fragSettings unescape (sp.map constructPath) st ≠ [] ∧ ∃ d, get "settings".toList x = some (.dict d) ∧ ∀ k, get k (fragSettings unescape (sp.map constructPath) st) = get k d) := by
  cases hs : get "settings".toList x with
  | none =>
    refine ⟨[], none, none, [], rfl, rfl, rfl, by simp, by simp, fun st h => .inl ⟨?_, rfl⟩⟩
    show st = []
    cases st with
    | nil => rfl
    | cons e st => have := h e.1; rw [get_cons, if_pos rfl] at this; cases this
  | some v =>
    obtain ⟨d, rfl, hd⟩ := hx.settings v hs
    have hsub : ∀ e ∈ d.filter (fun e => e.1 ≠ "search_path".toList), ∃ s, e.2 = .text s := by
      intro e he
      rw [List.mem_filter] at he
      rcases hd.vals e.1 e.2 he.1 with ⟨h1, _⟩ | ⟨_, _, _, h⟩
      · have := he.2; simp [h1] at this
      · exact h
    obtain ⟨ss, hss1, hss2⟩ := settingItems_text _ hsub
    have hfst : (d.filter (fun e => e.1 ≠ "search_path".toList)).map Prod.fst = ss.map Prod.fst := by
      rw [hss2, List.map_map]; rfl
    have hnod : (ss.map Prod.fst).Nodup := by
      rw [← hfst]
      exact hd.keys.sublist (List.Sublist.map Prod.fst (List.filter_sublist ..))
    have hget : ∀ k, (get k ss).map SVal.text = if k ≠ "search_path".toList then get k d else none := by
      intro k
      rw [← get_map_text, ← hss2]
      have := get_filter (fun k => decide (k ≠ "search_path".toList)) k d
      simp only [decide_eq_true_eq] at this
      rw [← this]
    have hmem : ∀ e ∈ ss, e.1 ≠ [] ∧ ¬ (e.1.head? = some '[' ∧ e.1.getLast? = some ']') := by
      intro e he
      have : (e.1, SVal.text e.2) ∈ d.filter (fun e => e.1 ≠ "search_path".toList) := by
        rw [hss2]; exact List.mem_map.mpr ⟨e, he, rfl⟩
      rw [List.mem_filter] at this
      rcases hd.vals _ _ this.1 with ⟨h1, _⟩ | ⟨_, h2, h3, _⟩
      · have h2 := this.2; simp [h1] at h2
      · exact ⟨h2, h3⟩
    cases hsp : get "search_path".toList d with
    | none =>
      refine ⟨_, _, none, ss, by rw [splitSettings, hsp], rfl, hss1, hnod, hmem, fun st h => .inr ?_⟩
      have hall : ∀ k, get k st = get k d := by
        intro k
        have h1 := h k
        have h2 := hget k
        by_cases hk : k = "search_path".toList
        · subst hk
          rw [if_neg (by simp)] at h2
          rw [Option.map_eq_none_iff] at h2
          rw [h2] at h1
          rw [h1, hsp]
        · rw [if_pos hk] at h2
          rw [h1, ← h2]; cases get k ss <;> rfl
      refine ⟨?_, d, rfl, fun k => hall k⟩
      show st ≠ []
      intro hn
      subst hn
      cases d with
      | nil => exact hd.some rfl
      | cons e d => have := hall e.1; rw [get_cons, if_pos rfl] at this; cases this
    | some w =>
      rcases hd.vals _ w (get_mem hsp) with ⟨_, l, rfl, hl1, hl2⟩ | ⟨h, _⟩
      · obtain ⟨c1, c2⟩ := constructPath_back l hl1 hl2
        refine ⟨_, _, some l, ss, by rw [splitSettings, hsp], rfl, hss1, hnod, hmem, fun st h => .inr ?_⟩
        have hf : fragSettings unescape ((some l).map constructPath) st = PyDict.set "search_path".toList (.list l) st := by
          rw [Option.map_some]
          cases hc : constructPath l with
          | nil => exact absurd hc c1
          | cons a b => rw [fragSettings, ← hc, c2]; simp
        rw [hf]
        refine ⟨?_, d, rfl, fun k => ?_⟩
        · cases st with
          | nil => simp [PyDict.set]
          | cons e st => rw [PyDict.set]; split <;> simp
        · rw [get_set]
          have h1 := h k
          have h2 := hget k
          by_cases hk : k = "search_path".toList
          · subst hk; rw [if_pos rfl, hsp]
          · rw [if_neg (Ne.symm hk), h1, ← if_pos (c := k ≠ "search_path".toList) (t := get k d) (e := none) hk, ← h2]; cases get k ss <;> rfl
      · exact absurd rfl h

theorem get_or {β : Type} (k : Str) (a b : List (Str × β)) : get k (a ++ b) = (get k a).or (get k b) := by
  rw [get_append]; cases get k a <;> rfl

theorem base_get (x : Params) (user pw port : Option Str) (H P : Params)
    (hH : ∀ k, get k H = if k = "host".toList then get "host".toList x else if k = "unix".toList then get "unix".toList x else none)
    (hP : ∀ k, get k P = if k = "database".toList then get "database".toList x else if k = "path".toList then get "path".toList x else none) (k : Str) :
    get k (item "user".toList user ++ item "password".toList pw ++ item "port".toList port ++ H ++ P) =
      if k = "user".toList then user.map .text else if k = "password".toList then pw.map .text else if k = "port".toList then port.map .text
      else if k = "host".toList then get "host".toList x else if k = "unix".toList then get "unix".toList x
      else if k = "database".toList then get "database".toList x else if k = "path".toList then get "path".toList x else none := by
  rw [get_or, get_or, get_or, get_or, get_item, get_item, get_item, hH, hP]
  by_cases h0 : k = "user".toList
  · subst h0
    rw [if_pos rfl, if_pos rfl, if_neg (show "password".toList ≠ "user".toList by decide), if_neg (show "port".toList ≠ "user".toList by decide), if_neg (show "user".toList ≠ "host".toList by decide), if_neg (show "user".toList ≠ "unix".toList by decide), if_neg (show "user".toList ≠ "database".toList by decide), if_neg (show "user".toList ≠ "path".toList by decide)]
    simp
  rw [if_neg (Ne.symm h0), if_neg h0]
  by_cases h1 : k = "password".toList
  · subst h1
    rw [if_pos rfl, if_pos rfl, if_neg (show "port".toList ≠ "password".toList by decide), if_neg (show "password".toList ≠ "host".toList by decide), if_neg (show "password".toList ≠ "unix".toList by decide), if_neg (show "password".toList ≠ "database".toList by decide), if_neg (show "password".toList ≠ "path".toList by decide)]
    simp
  rw [if_neg (Ne.symm h1), if_neg h1]
  by_cases h2 : k = "port".toList
  · subst h2
    rw [if_pos rfl, if_pos rfl, if_neg (show "port".toList ≠ "host".toList by decide), if_neg (show "port".toList ≠ "unix".toList by decide), if_neg (show "port".toList ≠ "database".toList by decide), if_neg (show "port".toList ≠ "path".toList by decide)]
    simp
  rw [if_neg (Ne.symm h2), if_neg h2]
  rw [Option.none_or, Option.none_or, Option.none_or]
  by_cases h3 : k = "host".toList
  · subst h3
    rw [if_pos rfl, if_pos rfl, if_neg (show "host".toList ≠ "database".toList by decide), if_neg (show "host".toList ≠ "path".toList by decide)]
    simp
  rw [if_neg h3, if_neg h3]
  by_cases h4 : k = "unix".toList
  · subst h4
    rw [if_pos rfl, if_pos rfl, if_neg (show "unix".toList ≠ "database".toList by decide), if_neg (show "unix".toList ≠ "path".toList by decide)]
    simp
  rw [if_neg h4, if_neg h4, Option.none_or]

theorem path_get (db : Option Str) (more : List Str) (h1 : ∀ s, db = some s → s ≠ []) (h2 : more ≠ [] → db ≠ none) (k : Str) :
    get k (pathItems (if db.toList ++ more = [] then none else some (db.toList ++ more))) =
      if k = "database".toList then db.map .text else if k = "path".toList then (if more = [] then none else some (.list more)) else none := by
  cases db with
  | none =>
    have : more = [] := Classical.byContradiction fun h => h2 h rfl
    subst this
    show none = _
    rw [if_pos rfl]
    split
    · rfl
    · split <;> rfl
  | some s =>
    have e : (if (some s : Option Str).toList ++ more = [] then none else some ((some s : Option Str).toList ++ more)) = some (s :: more) := by
      have h : ¬ ((some s : Option Str).toList ++ more = []) := List.cons_ne_nil s more
      simp only [h, if_false]
      rfl
    rw [e, pathItems, if_neg (h1 s rfl)]
    have hne : "database".toList ≠ "path".toList := by decide
    generalize "database".toList = D at hne ⊢
    generalize "path".toList = P at hne ⊢
    rw [get_append, get_cons, get_nil]
    dsimp only
    by_cases hk : k = D
    · subst hk; rw [if_pos rfl, if_pos rfl]; rfl
    · rw [if_neg (Ne.symm hk), if_neg hk]
      dsimp only
      by_cases hm : more = []
      · rw [if_pos hm, if_pos hm, get_nil]
        split <;> rfl
      · rw [if_neg hm, if_neg hm, get_cons, get_nil]
        dsimp only
        by_cases hk2 : k = P
        · subst hk2; rw [if_pos rfl]
        · rw [if_neg (Ne.symm hk2), if_neg hk2]

/-- What a PQ IRI can carry comes back from the IRI made of it. -/
theorem C32_parse_serialize (E : Env) (x : Params) (hx : Carried x) :
    ∃ s y, Iri.serialize E false x = .ok s ∧ Iri.parse E unescape s = .ok y ∧ Same y x := by
  -- the fields
  obtain ⟨user, hu⟩ : ∃ u : Option Str, get "user".toList x = u.map .text := by
    cases h : get "user".toList x with
    | none => exact ⟨none, rfl⟩
    | some v => obtain ⟨s, rfl⟩ := hx.user v h; exact ⟨some s, rfl⟩
  obtain ⟨pw, hpw⟩ : ∃ u : Option Str, get "password".toList x = u.map .text := by
    cases h : get "password".toList x with
    | none => exact ⟨none, rfl⟩
    | some v => obtain ⟨⟨s, rfl⟩, _⟩ := hx.password v h; exact ⟨some s, rfl⟩
  have hpwu : user = none → pw = none := by
    intro h
    cases hp : pw with
    | none => rfl
    | some p =>
      rw [hp] at hpw
      exact absurd (by rw [hu, h]; rfl) (hx.password _ hpw).2
  obtain ⟨nh, hnh, hok, hnone, hempty, hat, hhost⟩ := host_back x hx
  obtain ⟨db, hdb⟩ : ∃ u : Option Str, get "database".toList x = u.map .text := by
    cases h : get "database".toList x with
    | none => exact ⟨none, rfl⟩
    | some v => obtain ⟨s, rfl, _⟩ := hx.database v h; exact ⟨some s, rfl⟩
  have hdbp : ∀ s, db = some s → s ≠ [] ∧ PlainPath s := by
    intro s hs; rw [hs] at hdb
    obtain ⟨s', e, h⟩ := hx.database _ hdb
    cases e; exact h
  obtain ⟨more, hmore, hmorep, hmored⟩ : ∃ l : List Str, get "path".toList x = (if l = [] then none else some (.list l)) ∧ (∀ s ∈ l, PlainPath s) ∧ (l ≠ [] → db ≠ none) := by
    cases h : get "path".toList x with
    | none => exact ⟨[], rfl, by simp, by simp⟩
    | some v =>
      obtain ⟨⟨l, rfl, h1, h2⟩, h3⟩ := hx.path v h
      exact ⟨l, by rw [if_neg h1], h2, fun _ h4 => h3 (by rw [hdb, h4]; rfl)⟩
  obtain ⟨d0, osp, sp, ss, hs1, hs2, hs3, hs4, hs5, hs6⟩ := settings_back E x hx
  obtain ⟨dp, hdp1, hdp2⟩ := driverParams_eq E x
  have hport : ∀ v, get "port".toList x = some v → ∃ s, strOf E v = s ∧ Written v s ∧ (get "user".toList x = none → '@' ∉ s) := by
    intro v hv
    obtain ⟨⟨s, h1, h2⟩, _⟩ := hx.port v hv
    refine ⟨s, ?_, h1, h2⟩
    rcases h1 with rfl | rfl <;> rfl
  have hnok : NetlocOk user pw nh ((get "port".toList x).map (strOf E)) := by
    refine ⟨hpwu, ?_, ?_, hok, ?_, ?_⟩
    · intro h
      cases hp : get "port".toList x with
      | none => rfl
      | some v =>
        have h1 := hnone h
        rcases (hx.port v hp).2 with h2 | h2
        · exact absurd h1.2 h2
        · exact absurd h1.1 h2
    · intro h h2; exact hempty h (by simpa using h2)
    · intro h; exact hat (by rw [hu, h]; rfl)
    · intro h p hp
      rw [Option.map_eq_some_iff] at hp
      obtain ⟨v, hv, rfl⟩ := hp
      obtain ⟨s, h1, _, h2⟩ := hport v hv
      rw [h1]; exact h2 (by rw [hu, h]; rfl)
  generalize hpo : (get "port".toList x).map (strOf E) = port at hnok
  have hL : ∀ s ∈ db.toList ++ more, PlainPath s := by
    intro s h
    rw [List.mem_append] at h
    rcases h with h | h
    · rw [Option.mem_toList] at h; exact (hdbp s h).2
    · exact hmorep s h
  -- the text
  let r : Ri := Ri.mk (some "pq".toList) (unsplitNetloc ⟨user, pw, nh, port⟩)
    (if db.toList ++ more = [] then none else some (join ['/'] (db.toList ++ more)))
    (queryText (driverParams E x) (ss.map fun e => (e.1, some e.2))) (sp.map constructPath)
  have hcon : Iri.construct E false x = .ok r := by
    unfold Iri.construct
    have h1 : textOf (get "database".toList x) = .ok db := by rw [hdb]; cases db <;> rfl
    have h2 : pathOf (get "path".toList x) = .ok more := by
      rw [hmore]; split
      · rename_i h; rw [h]; rfl
      · rfl
    have h3 : textOf (get "user".toList x) = .ok user := by rw [hu]; cases user <;> rfl
    have h4 : textOf (if user = none then none else shownPassword false (get "password".toList x)) = .ok pw := by
      rw [hpw]
      by_cases h : user = none
      · rw [if_pos h, hpwu h]; rfl
      · rw [if_neg h]; cases pw <;> rfl
    have h5 : pathText E (db.toList ++ more) = .ok (db.toList ++ more) := pathText_plain E _ (fun s hs => (hL s hs).2.2.2)
    simp only [hs1, hs2, hnh, h1, h2, h3, h4, h5, hs3, hpo, hx.ssl, PG.Element3.bind_ok]
    rfl
  have hsplit : RiParse.split (unsplit r) = r := by
    refine split_unsplit r "pq".toList rfl (by decide) ?_ ?_ ?_ ?_
    · show unsplitNetloc _ ≠ _
      intro h
      have := C31_netloc user pw nh port hnok [] h
      have e : splitNetloc unescape [] = ⟨none, none, none, none⟩ := by decide
      rw [e] at this
      simp only [Netloc.mk.injEq] at this
      rw [unsplitNetloc_eq, if_pos ⟨this.1.symm, this.2.2.1.symm⟩] at h
      cases h
    · intro y hy
      have hy : unsplitNetloc _ = some y := hy
      rw [unsplitNetloc_eq] at hy
      split at hy
      · cases hy
      · cases hy
        exact ⟨netloc_no _ (.inl rfl) _ _ _ _, netloc_no _ (.inr (.inl rfl)) _ _ _ _, netloc_no _ (.inr (.inr rfl)) _ _ _ _⟩
    · intro y hy
      have hy : (if db.toList ++ more = [] then none else some (join ['/'] (db.toList ++ more))) = some y := hy
      split at hy
      · cases hy
      · cases hy
        exact ⟨not_mem_join (by decide) _ (fun s hs => (hL s hs).2.1), not_mem_join (by decide) _ (fun s hs => (hL s hs).2.2.1)⟩
    · intro y hy
      have hy : queryText (driverParams E x) (ss.map fun e => (e.1, some e.2)) = some y := hy
      unfold queryText at hy
      dsimp only at hy
      split at hy
      · cases hy
      · cases hy
        exact not_mem_join (by decide) _ (fun y hy => by
          rw [List.mem_map] at hy; obtain ⟨z, _, rfl⟩ := hy; exact item_no '#' (.inr rfl) z)
  -- what is read
  have hnet : structNetloc id r.netloc = ⟨user.map escapeUser, pw.map escapePassword, nh.map (fun h => if h.head? = some '[' then h else escapeHost h), port.map escapePort⟩ := by
    cases h : r.netloc with
    | some y => exact netloc_fields id user pw nh port hnok y h
    | none =>
      have h : unsplitNetloc _ = none := h
      rw [unsplitNetloc_eq] at h
      split at h
      · rename_i hn
        have h1 := hnok.no_user hn.1
        have h2 := hnok.no_host hn.2
        dsimp only at hn
        rw [h1, h2, hn.1, hn.2]; rfl
      · cases h
  have hpath : (r.path.map fun p => if p = [] then [] else (PyStr.split '/' p).map id) = if db.toList ++ more = [] then none else some (db.toList ++ more) := by
    show (if db.toList ++ more = [] then none else some (join ['/'] (db.toList ++ more))).map _ = _
    split
    · rfl
    · rename_i hne
      rw [Option.map_some, if_neg, split_of_join '/' _ hne (fun s hs => (hL s hs).1), List.map_id]
      intro h
      rcases join_nil (by simp) h with h | h
      · exact hne h
      · cases hd : db with
        | some s => rw [hd] at h; simp at h; exact (hdbp s hd).1 h.1
        | none =>
          rw [hd] at h
          exact hmored (by rw [show more = [[]] from h]; simp) hd
  have hquery : ((r.query.map fun q => if q = [] then [] else (PyStr.split '&' q).map (queryItem id)).getD []) =
      dp.map (fun e => (escapeQueryKey ('[' :: e.1 ++ [']']), some (escapeQueryValue e.2))) ++ ss.map (fun e => (escapeQueryKey e.1, some (escapeQueryValue e.2))) := by
    show ((queryText (driverParams E x) (ss.map fun e => (e.1, some e.2))).map _).getD [] = _
    unfold queryText
    dsimp only
    rw [hdp1]
    split
    · rename_i h
      simp at h
      simp [h.1, h.2]
    · rename_i h
      rw [Option.map_some, Option.getD_some, query_raw _ h]
      · simp [List.map_map, Function.comp_def]
      · intro h2
        have : (([] : Str), (none : Option Str)) ∈ List.map (fun e => (e.1, some e.2)) (List.map (fun e => ('[' :: e.1 ++ [']'], e.2)) dp) ++ List.map (fun e => (e.1, some e.2)) ss := by
          rw [h2]; simp
        simp at this
  have hparse : RiParse.parse id (unsplit r) = ⟨some "pq".toList, user.map escapeUser, pw.map escapePassword, nh.map (fun h => if h.head? = some '[' then h else escapeHost h), port.map escapePort,
      if db.toList ++ more = [] then none else some (db.toList ++ more),
      r.query.map fun q => if q = [] then [] else (PyStr.split '&' q).map (queryItem id), sp.map constructPath⟩ := by
    unfold RiParse.parse
    rw [hsplit]
    unfold RiParse.structure_
    dsimp only
    rw [hpath, hnet]
    congr 1
    show (sp.map constructPath).map id = _
    simp
  have e1 : (user.map escapeUser).map unescape = user := by
    cases user with
    | none => rfl
    | some u => rw [Option.map_some, Option.map_some, show unescape (escapeUser u) = u from unescape_escape (by decide) u]
  have e2 : (pw.map escapePassword).map unescape = pw := by
    cases pw with
    | none => rfl
    | some u => rw [Option.map_some, Option.map_some, show unescape (escapePassword u) = u from unescape_escape (by decide) u]
  have e3 : (port.map escapePort).map unescape = port := by
    cases port with
    | none => rfl
    | some u => rw [Option.map_some, Option.map_some, show unescape (escapePort u) = u from unescape_escape (by decide) u]
  -- the fields that are not parameters of the query
  generalize hB : item "user".toList user ++ item "password".toList pw ++ item "port".toList port ++
    hostItem unescape (nh.map (fun h => if h.head? = some '[' then h else escapeHost h)) ++ pathItems (if db.toList ++ more = [] then none else some (db.toList ++ more)) = B
  have hpi : ∀ k, get k (pathItems (if db.toList ++ more = [] then none else some (db.toList ++ more))) =
      if k = "database".toList then get "database".toList x else if k = "path".toList then get "path".toList x else none := by
    intro k
    rw [hdb, hmore]
    exact path_get db more (fun s hs => (hdbp s hs).1) hmored k
  have hBget : ∀ k, get k B = if k = "user".toList then user.map .text else if k = "password".toList then pw.map .text else if k = "port".toList then port.map .text
      else if k = "host".toList then get "host".toList x else if k = "unix".toList then get "unix".toList x
      else if k = "database".toList then get "database".toList x else if k = "path".toList then get "path".toList x else none := by
    intro k
    rw [← hB]
    exact base_get x user pw port _ _ hhost hpi k
  have hdpn : (dp.map Prod.fst).Nodup := by
    rw [(hdp2.map Prod.fst).nodup_iff, List.map_map]
    exact hx.keys.sublist (List.Sublist.map Prod.fst (List.filter_sublist ..))
  have hdpm : ∀ e ∈ dp, ∃ v, (e.1, v) ∈ x ∧ e.1 ∉ notDriver ∧ e.2 = strOf E v := by
    intro e he
    have := hdp2.mem_iff.mp he
    rw [List.mem_map] at this
    obtain ⟨e', he', rfl⟩ := this
    rw [List.mem_filter] at he'
    exact ⟨e'.2, he'.1, by simpa using he'.2, rfl⟩
  have hdpg : ∀ k, get k dp = if k ∈ notDriver then none else (get k x).map (strOf E) := by
    intro k
    rw [get_perm hdpn hdp2 k]
    have := get_filter_map E (fun k => !notDriver.contains k) k x
    rw [this]
    by_cases h : k ∈ notDriver <;> simp [h]
  obtain ⟨cpd, q1, q2⟩ := drivers_read (ss.map fun e => (escapeQueryKey e.1, some (escapeQueryValue e.2))) [] dp B hdpn (fun e he => by
    obtain ⟨v, h1, h2, h3⟩ := hdpm e he
    obtain ⟨_, h4⟩ := hx.driver e.1 v h1 h2
    have hne : ∀ k ∈ notDriver, e.1 ≠ k := fun k hk heq => h2 (heq ▸ hk)
    refine ⟨hne _ (by decide), ?_, fun c hc => ?_⟩
    · rw [hBget, if_neg (hne _ (by decide)), if_neg (hne _ (by decide)), if_neg (hne _ (by decide)), if_neg (hne _ (by decide)), if_neg (hne _ (by decide)),
        if_neg (hne _ (by decide)), if_neg (hne _ (by decide))]
    · obtain ⟨g1, g2, g3, g4⟩ := h4 c hc
      exact ⟨g1.1, g1.2, by simp [g2, g3, g4]⟩)
  obtain ⟨st, q3, q4⟩ := settings_read cpd ss [] hs4 hs5
  have hloop : queryLoop unescape B [] ((r.query.map fun q => if q = [] then [] else (PyStr.split '&' q).map (queryItem id)).getD []) = .ok (cpd, st) := by
    rw [hquery, q1, q3]
  have hscheme : schemeOk E.U (some "pq".toList) = true := by
    unfold schemeOk
    rw [Option.getD_some, E.U.lower_ascii _ (by decide)]
    decide
  have hfin : Iri.parse E unescape (unsplit r) = .ok (if fragSettings unescape (sp.map constructPath) st = [] then cpd else PyDict.set "settings".toList (.dict (fragSettings unescape (sp.map constructPath) st)) cpd) := by
    unfold Iri.parse Iri.structure_
    rw [hparse]
    dsimp only
    rw [if_pos hscheme, e1, e2, e3, hB, hloop]
  refine ⟨unsplit r, _, by unfold Iri.serialize; rw [hcon]; rfl, hfin, ?_⟩
  -- the keys
  have hcpd : ∀ k, k ≠ "settings".toList → (get k cpd = none ∧ get k x = none) ∨ ∃ v w, get k cpd = some v ∧ get k x = some w ∧ SameVal v w := by
    intro k hk
    rw [q2, hdpg]
    by_cases hd : k ∈ notDriver
    · rw [if_pos hd]
      dsimp only
      rw [hBget]
      by_cases h1 : k = "user".toList
      · subst h1; rw [if_pos rfl, hu]
        cases user with
        | none => exact .inl ⟨rfl, rfl⟩
        | some u => exact .inr ⟨_, _, rfl, rfl, .text u⟩
      rw [if_neg h1]
      by_cases h2 : k = "password".toList
      · subst h2; rw [if_pos rfl, hpw]
        cases pw with
        | none => exact .inl ⟨rfl, rfl⟩
        | some u => exact .inr ⟨_, _, rfl, rfl, .text u⟩
      rw [if_neg h2]
      by_cases h3 : k = "port".toList
      · subst h3; rw [if_pos rfl, ← hpo]
        cases hp : get "port".toList x with
        | none => exact .inl ⟨rfl, rfl⟩
        | some v =>
          obtain ⟨s, g1, g2, _⟩ := hport v hp
          refine .inr ⟨_, _, rfl, rfl, ?_⟩
          rcases g2 with rfl | rfl
          · exact .text s
          · exact .obj s
      rw [if_neg h3]
      by_cases h4 : k = "host".toList
      · subst h4; rw [if_pos rfl]
        cases hp : get "host".toList x with
        | none => exact .inl ⟨rfl, rfl⟩
        | some v => obtain ⟨s, rfl, _⟩ := hx.host v hp; exact .inr ⟨_, _, rfl, rfl, .text s⟩
      rw [if_neg h4]
      by_cases h5 : k = "unix".toList
      · subst h5; rw [if_pos rfl]
        cases hp : get "unix".toList x with
        | none => exact .inl ⟨rfl, rfl⟩
        | some v => obtain ⟨⟨s, rfl, _⟩, _⟩ := hx.unix v hp; exact .inr ⟨_, _, rfl, rfl, .text s⟩
      rw [if_neg h5]
      by_cases h6 : k = "database".toList
      · subst h6; rw [if_pos rfl, hdb]
        cases db with
        | none => exact .inl ⟨rfl, rfl⟩
        | some u => exact .inr ⟨_, _, rfl, rfl, .text u⟩
      rw [if_neg h6]
      by_cases h7 : k = "path".toList
      · subst h7; rw [if_pos rfl, hmore]
        by_cases hm : more = []
        · rw [if_pos hm]; exact .inl ⟨rfl, rfl⟩
        · rw [if_neg hm]; exact .inr ⟨_, _, rfl, rfl, .list more⟩
      rw [if_neg h7]
      refine .inl ⟨rfl, ?_⟩
      unfold notDriver at hd
      simp only [List.mem_cons, List.not_mem_nil, or_false] at hd
      rcases hd with h | h | h | h | h | h | h | h | h | h
      · exact absurd h h1
      · exact absurd h h2
      · exact absurd h h3
      · exact absurd h h6
      · rw [h]; exact hx.ssl
      · exact absurd h h7
      · exact absurd h h4
      · exact absurd h h5
      · rw [h]; exact hx.ipv
      · exact absurd h hk
    · rw [if_neg hd]
      cases hg : get k x with
      | none =>
        refine .inl ⟨?_, rfl⟩
        have hne : ∀ k' ∈ notDriver, k ≠ k' := fun k' hk' heq => hd (heq ▸ hk')
        show get k B = none
        rw [hBget, if_neg (hne _ (by decide)), if_neg (hne _ (by decide)), if_neg (hne _ (by decide)), if_neg (hne _ (by decide)), if_neg (hne _ (by decide)),
          if_neg (hne _ (by decide)), if_neg (hne _ (by decide))]
      | some v =>
        obtain ⟨⟨s, hs⟩, _⟩ := hx.driver k v (get_mem hg) hd
        refine .inr ⟨_, _, rfl, rfl, ?_⟩
        rcases hs with rfl | rfl
        · exact .text s
        · exact .obj s
  intro k
  rcases hs6 st q4 with ⟨h1, h2⟩ | ⟨h1, d, h2, h3⟩
  · rw [if_pos h1]
    by_cases hk : k = "settings".toList
    · subst hk
      refine .inl ⟨?_, h2⟩
      rw [q2, hdpg, if_pos (by decide)]
      show get _ B = none
      rw [hBget]; rfl
    · exact hcpd k hk
  · rw [if_neg h1, get_set]
    by_cases hk : k = "settings".toList
    · subst hk
      rw [if_pos rfl]
      exact .inr ⟨_, _, rfl, h2, .dict _ _ h3⟩
    · rw [if_neg (Ne.symm hk)]; exact hcpd k hk

/-- Parameters of a usual kind. -/
def sample : Params :=
  [("user".toList, .text "me@x".toList), ("password".toList, .text "p/w".toList), ("host".toList, .text "::1".toList), ("port".toList, .obj "5432".toList),
   ("database".toList, .text "my db".toList), ("path".toList, .list ["a".toList, []]), ("connect_timeout".toList, .obj "10".toList),
   ("settings".toList, .dict [("search_path".toList, .list ["public".toList, "a,b".toList]), ("work&mem".toList, .text "1=2".toList)])]

example : Carried sample := by
  refine ⟨by decide, ?_, ?_, ?_, ?_, ?_, ?_, ?_, by decide, by decide, ?_, ?_⟩
  · intro v h; cases h; exact ⟨_, rfl⟩
  · intro v h; cases h; exact ⟨⟨_, rfl⟩, by decide⟩
  · intro v h; exact absurd h (by rw [show get "unix".toList sample = none by decide]; simp)
  · intro v h; cases h
    refine ⟨_, rfl, .inr ⟨by decide, by decide, ?_⟩, by decide, by decide⟩
    unfold Bare; decide
  · intro v h; cases h; exact ⟨⟨_, .inr rfl, by decide⟩, .inl (by decide)⟩
  · intro v h; cases h; refine ⟨_, rfl, by decide, ?_⟩; unfold PlainPath; decide
  · intro v h; cases h; refine ⟨⟨_, rfl, by decide, ?_⟩, by decide⟩; unfold PlainPath; decide
  · intro v h; cases h
    refine ⟨_, rfl, by decide, by decide, ?_⟩
    intro k v hm
    simp only [List.mem_cons, Prod.mk.injEq, List.not_mem_nil, or_false] at hm
    rcases hm with ⟨rfl, rfl⟩ | ⟨rfl, rfl⟩
    · exact .inl ⟨rfl, _, rfl, by decide, by decide⟩
    · exact .inr ⟨by decide, by decide, by decide, _, rfl⟩
  · intro k v hm hn
    unfold sample at hm
    simp only [List.mem_cons, Prod.mk.injEq, List.not_mem_nil, or_false] at hm
    rcases hm with ⟨rfl, rfl⟩ | ⟨rfl, rfl⟩ | ⟨rfl, rfl⟩ | ⟨rfl, rfl⟩ | ⟨rfl, rfl⟩ | ⟨rfl, rfl⟩ | ⟨rfl, rfl⟩ | ⟨rfl, rfl⟩
    · exact absurd (by decide) hn
    · exact absurd (by decide) hn
    · exact absurd (by decide) hn
    · exact absurd (by decide) hn
    · exact absurd (by decide) hn
    · exact absurd (by decide) hn
    · refine ⟨⟨_, .inr rfl⟩, ?_⟩; unfold Bare; decide
    · exact absurd (by decide) hn

example (E : Env) : ∃ dp, driverParams E sample = [dp] ∧ Iri.serialize E false sample = .ok "pq://me%40x:p%2Fw@[::1]:5432/my db/a/?[connect_timeout]=10&work%26mem=1=2#public,a%2Cb".toList := by
  have h1 : driverParams E sample = [("[connect_timeout]".toList, "10".toList)] := by
    have : (sample.filter fun e => !notDriver.contains e.1) = [("connect_timeout".toList, .obj "10".toList)] := by decide
    unfold driverParams
    rw [this, List.map_cons, List.map_nil, List.mergeSort_singleton]
    rfl
  refine ⟨_, h1, ?_⟩
  have hp : pathText E ["my db".toList, "a".toList, []] = .ok ["my db".toList, "a".toList, []] := pathText_plain E _ (by decide)
  unfold Iri.serialize Iri.construct
  rw [h1]
  have e1 : get "settings".toList sample = some (.dict [("search_path".toList, .list ["public".toList, "a,b".toList]), ("work&mem".toList, .text "1=2".toList)]) := by decide
  have e2 : Iri.hostText sample = .ok (some "[::1]".toList) := by decide
  have e3 : textOf (get "database".toList sample) = .ok (some "my db".toList) := by decide
  have e4 : pathOf (get "path".toList sample) = .ok ["a".toList, []] := by decide
  have e5 : textOf (get "user".toList sample) = .ok (some "me@x".toList) := by decide
  have e6 : get "password".toList sample = some (.text "p/w".toList) := by decide
  have e7 : (get "port".toList sample).map (strOf E) = some "5432".toList := by
    rw [show get "port".toList sample = some (.obj "5432".toList) by decide]; rfl
  have e8 : get "ssl".toList sample = none := by decide
  rw [e1, e2, e3, e4, e5, e6, e7, e8]
  show (do let path ← pathText E ["my db".toList, "a".toList, []]; _) >>= _ = _
  rw [hp]
  decide +kernel

theorem noDrivers (E : Env) {x : Params} (h : (x.filter fun e => !notDriver.contains e.1) = []) : driverParams E x = [] := by
  unfold driverParams; rw [h, List.map_nil, List.mergeSort_nil]

/-- Findings. Encryption that is asked for is written as a scheme that is refused when read; a slash in the name of a database is not escaped, so that
the name is read as another; the search path of settings given as pairs is lost; a blank in the path of a socket comes back escaped. -/
theorem C32_not_carried (E : Env) :
    (∃ s, Iri.serialize E false [("host".toList, .text "h".toList), ("ssl".toList, .yes)] = .ok s ∧ Iri.parse E unescape s = .error .valueError) ∧
    (∃ s, Iri.serialize E false [("host".toList, .text "h".toList), ("database".toList, .text "a/b".toList)] = .ok s ∧
      Iri.parse E unescape s = .ok [("host".toList, .text "h".toList), ("database".toList, .text "a".toList), ("path".toList, .list ["b".toList])]) ∧
    (∃ s, Iri.serialize E false [("host".toList, .text "h".toList), ("settings".toList, .pairs [("search_path".toList, .text "x".toList)])] = .ok s ∧
      Iri.parse E unescape s = .ok [("host".toList, .text "h".toList)]) ∧
    (∃ s, Iri.serialize E false [("unix".toList, .text "/a b".toList)] = .ok s ∧
      Iri.parse E unescape s = .ok [("unix".toList, .text "/a%20b".toList)]) := by
  have hpq : schemeOk E.U (some "pq".toList) = true := by
    unfold schemeOk; rw [Option.getD_some, E.U.lower_ascii _ (by decide)]; decide
  have hpqs : schemeOk E.U (some "pqs".toList) = false := by
    unfold schemeOk; rw [Option.getD_some, E.U.lower_ascii _ (by decide)]; decide
  have hab : pathText E ["a/b".toList] = .ok ["a/b".toList] := pathText_plain E _ (by decide)
  have back : ∀ s d, RiParse.parse id s = d → d.scheme = some "pq".toList → Iri.parse E unescape s =
      (match queryLoop unescape (item "user".toList (d.user.map unescape) ++ item "password".toList (d.password.map unescape) ++ item "port".toList (d.port.map unescape)
        ++ hostItem unescape d.host ++ pathItems d.path) [] (d.query.getD []) with
        | .error e => .error e
        | .ok (cpd, settings) => .ok (if fragSettings unescape d.fragment settings = [] then cpd else PyDict.set "settings".toList (.dict (fragSettings unescape d.fragment settings)) cpd)) := by
    intro s d h h2
    unfold Iri.parse Iri.structure_
    rw [h, h2, if_pos hpq]
    rfl
  refine ⟨⟨"pqs://h".toList, ?_, ?_⟩, ⟨"pq://h/a/b".toList, ?_, ?_⟩, ⟨"pq://h".toList, ?_, ?_⟩, ⟨"pq://[unix::a%20b]".toList, ?_, ?_⟩⟩
  · unfold Iri.serialize Iri.construct
    rw [noDrivers E (by decide)]; rfl
  · unfold Iri.parse Iri.structure_
    rw [show RiParse.parse id "pqs://h".toList = ⟨some "pqs".toList, none, none, some "h".toList, none, none, none, none⟩ by decide +kernel]
    dsimp only
    rw [hpqs]; rfl
  · unfold Iri.serialize Iri.construct
    rw [noDrivers E (by decide)]
    show (do let path ← pathText E ["a/b".toList]; _) >>= _ = _
    rw [hab]; rfl
  · rw [back _ _ rfl (by decide +kernel)]; decide +kernel
  · unfold Iri.serialize Iri.construct
    rw [noDrivers E (by decide)]; rfl
  · rw [back _ _ rfl (by decide +kernel)]; decide +kernel
  · unfold Iri.serialize Iri.construct
    rw [noDrivers E (by decide)]; rfl
  · rw [back _ _ rfl (by decide +kernel)]; decide +kernel

end PG.Props.Iri
