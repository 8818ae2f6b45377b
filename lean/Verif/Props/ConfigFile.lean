import Verif.Proofs.ConfigFile2
/-!
# C33: configuration files
-/
namespace PG.Props.ConfigFile
open PG PG.PyStr PG.ConfigFile PG.Spec.ConfigFile PG.Proofs.ConfigFile
variable {U : Unicode}

/-! ## Lines -/

/-- A line is recognized exactly when it has the parts of the grammar, and the slices are those of key and value. -/
theorem C33_parse (l : Str) (sl : Slices) : parseLine U l = some sl ↔ ∃ before key gap between value after, Parts U l before key gap between value after ∧
    sl.kstart = before.length ∧ sl.kstop = (before ++ key).length ∧ sl.vstart = (before ++ key ++ gap ++ '=' :: between).length ∧
    sl.vstop = (before ++ key ++ gap ++ '=' :: between ++ value).length := by
  have e : ∀ a k b p v : Str, sl = slicesOf a k b p v ↔ sl.kstart = a.length ∧ sl.kstop = (a ++ k).length ∧ sl.vstart = (a ++ k ++ b ++ '=' :: p).length ∧ sl.vstop = (a ++ k ++ b ++ '=' :: p ++ v).length := by
    intro a k b p v
    unfold slicesOf
    constructor
    · rintro rfl; simp; omega
    · rintro ⟨h1, h2, h3, h4⟩
      obtain ⟨x1, x2, x3, x4⟩ := sl
      simp at h1 h2 h3 h4 ⊢
      omega
  constructor
  · intro h
    obtain ⟨a, k, b, p, v, t, hp, hs⟩ := parts_of_parse h
    exact ⟨a, k, b, p, v, t, hp, (e a k b p v).mp hs⟩
  · rintro ⟨a, k, b, p, v, t, hp, hs⟩
    rw [(e a k b p v).mpr hs]; exact parse_parts hp

/-- There is one way to divide a line. -/
theorem C33_parts_unique {l a k b p v t a' k' b' p' v' t' : Str} (h : Parts U l a k b p v t) (h' : Parts U l a' k' b' p' v' t') :
    a = a' ∧ k = k' ∧ b = b' ∧ p = p' ∧ v = v' ∧ t = t' := by
  have e1 := parse_parts h
  rw [parse_parts h'] at e1
  have e := Option.some.inj e1
  have c := cut_parts h []
  have c' := cut_parts h' []
  rw [e] at c'
  have hab : '=' ∉ a ++ k ++ b := parts_head h
  have hab' : '=' ∉ a' ++ k' ++ b' := parts_head h'
  have ea := c.1.symm.trans c'.1
  have ek := c.2.1.symm.trans c'.2.1
  have ev := c.2.2.2.1.symm.trans c'.2.2.2.1
  have et : t = t' := by have := c.2.2.2.2.symm.trans c'.2.2.2.2; simpa using this
  subst ea ek ev et
  have w := h.whole.symm.trans h'.whole
  have hl : (a ++ k ++ b).length = (a ++ k ++ b').length := by
    have s1 : PyStr.splitMax '=' 1 (a ++ k ++ b ++ '=' :: (p ++ v ++ t)) = PyStr.splitMax '=' 1 (a ++ k ++ b' ++ '=' :: (p' ++ v ++ t)) := by
      congr 1; simpa using w
    rw [Props.RiParse.splitMax_hit 0 _ _ hab, Props.RiParse.splitMax_hit 0 _ _ hab'] at s1
    exact congrArg List.length (List.cons.inj s1).1
  have hb : b.length = b'.length := by simp at hl; omega
  have eb : b = b' := by
    have : b ++ ('=' :: p ++ v ++ t) = b' ++ ('=' :: p' ++ v ++ t) := by simpa using w
    exact (List.append_inj this hb).1
  subst eb
  refine ⟨rfl, rfl, rfl, ?_, rfl, rfl⟩
  have : p ++ (v ++ t) = p' ++ (v ++ t) := by simpa using w
  exact List.append_cancel_right this

theorem setting_iff {l k w : Str} : setting U l = some (k, w) ↔ ∃ v, Sets U l k v ∧ w = unquote U v := by
  constructor
  · intro h
    cases hp : parseLine U l with
    | none => rw [setting_none hp] at h; cases h
    | some sl =>
      obtain ⟨a, k', b, p, v, t, hp, _⟩ := parts_of_parse hp
      rw [setting_parts hp] at h
      split at h
      · cases h
      · rename_i ha
        cases h
        exact ⟨v, ⟨a, b, p, t, hp, ha⟩, rfl⟩
  · rintro ⟨v, ⟨a, b, p, t, hp, ha⟩, rfl⟩
    rw [setting_parts hp, if_neg ha]

/-- What a line sets is one key with one value. -/
theorem sets_unique {l k k' v v' : Str} (h : Sets U l k v) (h' : Sets U l k' v') : k = k' ∧ v = v' := by
  obtain ⟨a, b, p, t, hp, _⟩ := h
  obtain ⟨a', b', p', t', hp', _⟩ := h'
  have := C33_parts_unique hp hp'
  exact ⟨this.2.1, this.2.2.2.2.1⟩

/-- A quoted value is its text; a value without quotes is itself. -/
theorem C33_unquote (v : Str) : unquote U (quote v) = v ∧ ∀ t, Value U v t → '\'' ∉ v → unquote U v = v := by
  refine ⟨unquote_quoted v, ?_⟩
  intro t hv hq
  have ns : ∀ c ∈ v, U.isSpace c = false := by
    intro c hc
    induction hv with
    | stop => simp at hc
    | plain h1 h2 h3 _ ih =>
      rcases List.mem_cons.mp hc with rfl | hc
      · exact h3
      · exact ih (fun h => hq (List.mem_cons_of_mem _ h)) hc
    | quoted => simp at hq
    | unended => simp at hq
  unfold unquote
  rw [strip_no (fun c h => ns c (List.mem_of_mem_head? h)) (fun c h => ns c (List.mem_of_mem_getLast? h))]
  cases v with
  | nil => rfl
  | cons c v => dsimp only; rw [if_neg]; rintro rfl; simp at hq

/-! ## Reading -/

/-- What a line sets a key to. -/
def valueFor (U : Unicode) (k l : Str) : Option Str := (setting U l).bind fun e => if e.1 = k then some e.2 else none

theorem valueFor_some {k l w : Str} : valueFor U k l = some w ↔ setting U l = some (k, w) := by
  unfold valueFor
  rw [Option.bind_eq_some_iff]
  constructor
  · rintro ⟨⟨k', w'⟩, h1, h2⟩
    dsimp only at h2
    split at h2
    · rename_i e; cases h2; rw [h1, ← e]
    · cases h2
  · intro h; exact ⟨_, h, by simp⟩

theorem read_fold (sel : Str → Bool) (k : Str) (hk : sel k = true) : ∀ (L : List Str) (d : List (Str × Str)),
    PyDict.get k (L.foldl (readStep U sel) d) =
      match (L.filterMap (valueFor U k)).getLast? with | some v => some v | none => PyDict.get k d
  | [], d => rfl
  | l :: L, d => by
    rw [List.foldl_cons, read_fold sel k hk L, List.filterMap_cons]
    unfold readStep
    cases hs : setting U l with
    | none =>
      have : valueFor U k l = none := by unfold valueFor; rw [hs]; rfl
      rw [this]
    | some e =>
      obtain ⟨k', v⟩ := e
      by_cases e : k' = k
      · subst e
        have : valueFor U k' l = some v := valueFor_some.mpr hs
        rw [this]
        dsimp only
        rw [hk, if_pos rfl, PyDict.get_set, if_pos rfl, List.getLast?_cons]
        cases (L.filterMap (valueFor U k')).getLast? <;> rfl
      · have : valueFor U k l = none := by unfold valueFor; rw [hs]; simp [e]
        rw [this]
        dsimp only
        by_cases hsel : sel k' = true
        · rw [if_pos hsel, PyDict.get_set, if_neg e]
        · rw [if_neg hsel]

theorem read_get (sel : Str → Bool) (k : Str) (hk : sel k = true) (L : List Str) : PyDict.get k (readConfig U sel L) = (L.filterMap (valueFor U k)).getLast? := by
  unfold readConfig
  rw [read_fold sel k hk L []]
  cases (L.filterMap (valueFor U k)).getLast? <;> rfl

/-- The last line that sets a key counts; others do not matter. -/
theorem C33_read (sel : Str → Bool) (k : Str) (hk : sel k = true) :
    (∀ A l B v, Sets U l k v → (∀ x ∈ B, ∀ w, ¬ Sets U x k w) → PyDict.get k (readConfig U sel (A ++ l :: B)) = some (unquote U v)) ∧
    (∀ L, (∀ x ∈ L, ∀ w, ¬ Sets U x k w) → PyDict.get k (readConfig U sel L) = none) := by
  have none_of : ∀ L : List Str, (∀ x ∈ L, ∀ w, ¬ Sets U x k w) → L.filterMap (valueFor U k) = [] := by
    intro L h
    rw [List.filterMap_eq_nil_iff]
    intro x hx
    cases hv : valueFor U k x with
    | none => rfl
    | some w =>
      obtain ⟨v, hs, _⟩ := setting_iff.mp (valueFor_some.mp hv)
      exact absurd hs (h x hx v)
  constructor
  · intro A l B v hs hB
    rw [read_get sel k hk, List.filterMap_append, List.filterMap_cons, none_of B hB, valueFor_some.mpr (setting_iff.mpr ⟨v, hs, rfl⟩)]
    simp
  · intro L h
    rw [read_get sel k hk, none_of L h]; rfl

/-- A key that is not selected is not read. -/
theorem C33_selector (sel : Str → Bool) (k : Str) (hk : sel k = false) (L : List Str) : PyDict.get k (readConfig U sel L) = none := by
  have : ∀ (L : List Str) (d : List (Str × Str)), PyDict.get k d = none →
      PyDict.get k (L.foldl (readStep U sel) d) = none := by
    intro L
    induction L with
    | nil => intro d h; exact h
    | cons l L ih =>
      intro d h
      rw [List.foldl_cons]
      refine ih _ ?_
      unfold readStep
      split
      · exact h
      · rename_i k' v _
        split
        · rename_i hs
          rw [PyDict.get_set, if_neg]
          · exact h
          · rintro rfl; rw [hk] at hs; cases hs
        · exact h
  exact this L [] rfl

/-! ## Altering -/

/-- Maps of settings: names of parameters, no two the same but for case. -/
structure MapOk (U : Unicode) (map : Map) : Prop where
  names : ∀ e ∈ map, (∀ c ∈ e.1, U.isAlpha c = true ∨ U.isDigit c = true ∨ c = '_') ∧ strip U (U.lower e.1) = U.lower e.1
  distinct : (map.map fun e => U.lower e.1).Nodup

theorem pkeys_eq {map : Map} (h : MapOk U map) : pkeys U map = map.map fun e => (U.lower e.1, e) := by
  have : ∀ (m : Map) (d : List (Str × (Str × Option Str))), (∀ e ∈ m, strip U (U.lower e.1) = U.lower e.1) → (m.map fun e => U.lower e.1).Nodup →
      (∀ e ∈ m, U.lower e.1 ∉ d.map Prod.fst) → m.foldl (fun d e => PyDict.set (strip U (U.lower e.1)) e d) d = d ++ m.map fun e => (U.lower e.1, e) := by
    intro m
    induction m with
    | nil => intro d _ _ _; simp
    | cons e m ih =>
      intro d h1 h2 h3
      rw [List.map_cons, List.nodup_cons] at h2
      rw [List.foldl_cons, h1 e List.mem_cons_self, set_new _ _ _ (h3 e List.mem_cons_self), ih _ (fun x hx => h1 x (List.mem_cons_of_mem _ hx)) h2.2]
      · simp
      · intro x hx
        rw [List.map_append, List.mem_append, not_or]
        refine ⟨h3 x (List.mem_cons_of_mem _ hx), ?_⟩
        simp
        intro hh
        exact h2.1 (List.mem_map.mpr ⟨x, hx, hh⟩)
  have := this map [] (fun e he => (h.names e he).2) h.distinct (by simp)
  simpa [pkeys] using this

theorem pkeys_keys {map : Map} (h : MapOk U map) : (pkeys U map).map Prod.fst = map.map fun e => U.lower e.1 := by
  rw [pkeys_eq h, List.map_map]; rfl

theorem pkeys_get {map : Map} (h : MapOk U map) {k : Str} {v : Option Str} (hk : (k, v) ∈ map) : PyDict.get (U.lower k) (pkeys U map) = some (k, v) := by
  refine PyDict.get_of_mem (by rw [pkeys_keys h]; exact h.distinct) ?_
  rw [pkeys_eq h]; exact List.mem_map.mpr ⟨(k, v), hk, rfl⟩

theorem pkeys_none {map : Map} (h : MapOk U map) {ck : Str} : PyDict.get ck (pkeys U map) = none ↔ ∀ e ∈ map, U.lower e.1 ≠ ck := by
  rw [PyDict.get_none, pkeys_eq h]
  constructor
  · intro h e he; exact h _ (List.mem_map.mpr ⟨e, he, rfl⟩)
  · intro h e he
    obtain ⟨e', he', rfl⟩ := List.mem_map.mp he
    exact h e' he'

theorem pkeys_some {map : Map} (h : MapOk U map) {ck : Str} {e : Str × Option Str} (hg : PyDict.get ck (pkeys U map) = some e) : e ∈ map ∧ U.lower e.1 = ck := by
  have := PyDict.get_mem hg
  rw [pkeys_eq h, List.mem_map] at this
  obtain ⟨e', h1, h2⟩ := this
  cases h2; exact ⟨h1, rfl⟩

/-- What `alter_config` makes of each line. -/
structure Altered (U : Unicode) (map : Map) (L R L' : List Str) : Prop where
  nl : Nl (L ++ newLines (candidates U (pkeys U map) L) (pkeys U map)) R
  len : L'.length = R.length
  found : ∀ ck e, PyDict.get ck (pkeys U map) = some e → candsIn U ck L ≠ [] → Outcome U e.2 (candsIn U ck L) R L'
  others : ∀ j, (L.length ≤ j ∨ ∀ ck, keyOf U (lineAt L j) = some ck → PyDict.get ck (pkeys U map) = none) → lineAt L' j = lineAt R j

theorem altered' {map : Map} {L L' : List Str} (h : alterConfig U map L = .ok L') : ∃ R, appendMissing (candidates U (pkeys U map) L) (pkeys U map) L = .ok R ∧ Altered U map L R L' := by
  unfold alterConfig at h
  obtain ⟨R, h1, h2⟩ := Element3.bind_eq_ok h
  have h2 : alterAll U (pkeys U map) (candidates U (pkeys U map) L) R = L' := Except.ok.inj h2
  have hnl := append_spec _ _ _ _ h1
  have hlen : L.length ≤ R.length := by rw [hnl.1, List.length_append]; omega
  have hnd : ((candidates U (pkeys U map) L).map Prod.fst).Nodup := cands_nodup _ _ _ (by simp)
  have hent : ∀ e ∈ candidates U (pkeys U map) L, (PyDict.get e.1 (pkeys U map)).isSome ∧ candsIn U e.1 L ≠ [] ∧ e.2 = candsIn U e.1 L := by
    rintro ⟨ck, cs⟩ he
    have := PyDict.get_of_mem hnd he
    rw [get_candidates] at this
    split at this
    · rename_i hh; cases this; exact ⟨hh.1, hh.2, rfl⟩
    · cases this
  have hgood : ∀ e ∈ candidates U (pkeys U map) L, e.2 ≠ [] ∧ e.2.Pairwise (fun a b => a.1 < b.1) ∧ ∀ c ∈ e.2, c.1 < R.length := by
    intro e he
    obtain ⟨_, a, b⟩ := hent e he
    rw [b]
    refine ⟨a, candsIn_sorted _ _, ?_⟩
    rintro ⟨i, sl⟩ hc
    have := (mem_candsIn.mp hc).1
    show i < _; omega
  have hdis : (candidates U (pkeys U map) L).Pairwise (fun x y => ∀ c ∈ x.2, ∀ d ∈ y.2, c.1 ≠ d.1) := by
    have hp : (candidates U (pkeys U map) L).Pairwise fun x y => x.1 ≠ y.1 := List.pairwise_map.mp hnd
    refine hp.imp_of_mem ?_
    rintro x y hx hy hxy ⟨i, s1⟩ hc ⟨j, s2⟩ hd (e : i = j)
    rw [(hent x hx).2.2] at hc
    rw [(hent y hy).2.2] at hd
    have a := (mem_candsIn.mp hc).2.2
    have b := (mem_candsIn.mp hd).2.2
    rw [e, b] at a
    exact hxy (Option.some.inj a).symm
  obtain ⟨a1, a2, a3⟩ := alterAll_spec (U := U) (pkeys U map) _ R hgood hdis
  rw [h2] at a1 a2 a3
  refine ⟨R, h1, hnl, a1, ?_, ?_⟩
  · intro ck e hg hne
    have hc : PyDict.get ck (candidates U (pkeys U map) L) = some (candsIn U ck L) := by
      rw [get_candidates, if_pos]; rw [hg]; exact ⟨rfl, hne⟩
    have := a2 _ (PyDict.get_mem hc)
    dsimp only at this
    rw [hg] at this; exact this
  · intro j hj
    refine a3 j ?_
    rintro e he ⟨i, sl⟩ hc (rfl : i = j)
    obtain ⟨b1, b2, b3⟩ := hent e he
    rw [b3, mem_candsIn] at hc
    rcases hj with hj | hj
    · omega
    · rw [hj _ hc.2.2] at b1; cases b1

theorem altered {map : Map} {L L' : List Str} (h : alterConfig U map L = .ok L') : ∃ R, Altered U map L R L' := by
  obtain ⟨R, _, h⟩ := altered' h; exact ⟨R, h⟩

section pointwise
variable {map : Map} {L R L' : List Str}

theorem R_old (h : Altered U map L R L') {i : Nat} (hi : i < L.length) : lineAt R i = lineAt L i ∨ (lineAt R i = lineAt L i ++ ['\n'] ∧ (lineAt L i).getLast? ≠ some '\n') := by
  have e : ∀ N : List Str, lineAt (L ++ N) i = lineAt L i := fun N => by rw [lineAt_append, if_pos hi]
  rcases h.nl.2 i with a | ⟨a, b, _⟩
  · rw [e] at a; exact .inl a
  · rw [e] at a b; exact .inr ⟨a, b⟩

/-- The newline added, if any. -/
theorem R_old' (h : Altered U map L R L') {i : Nat} (hi : i < L.length) : ∃ e, (e = [] ∨ e = ['\n']) ∧ lineAt R i = lineAt L i ++ e := by
  rcases R_old h hi with a | ⟨a, _⟩
  · exact ⟨[], .inl rfl, by rw [a, List.append_nil]⟩
  · exact ⟨['\n'], .inr rfl, a⟩

theorem R_setting (h : Altered U map L R L') {i : Nat} (hi : i < L.length) : setting U (lineAt R i) = setting U (lineAt L i) := by
  rcases R_old h hi with a | ⟨a, _⟩
  · rw [a]
  · rw [a, setting_nl]

theorem lost_setting (h : Altered U map L R L') {i : Nat} {sl : Slices} (hi : i < L.length) (hp : parseLine U (lineAt L i) = some sl) : setting U (lost (lineAt R i) sl) = none := by
  unfold lost
  split
  · rename_i hc
    obtain ⟨a, k, b, p, v, t, hparts, rfl⟩ := parts_of_parse hp
    obtain ⟨e, _, he⟩ := R_old' h hi
    rw [he, commented_parts hparts] at hc
    rw [R_setting h hi, setting_parts hparts, if_pos (by simpa using hc)]
  · exact setting_hash _

theorem won_sets (h : Altered U map L R L') {i : Nat} {sl : Slices} {ck : Str} (hi : (i, sl) ∈ candsIn U ck L) (v : Str) :
    ∃ k, Sets U (rewritten U v (commented (lineAt R i) sl) sl (lineAt R i)) k (quote v) ∧ U.lower k = ck ∧ Mentions U (lineAt L i) k := by
  obtain ⟨h1, h2, h3⟩ := mem_candsIn.mp hi
  obtain ⟨a, k, b, p, w, t, hparts, rfl⟩ := parts_of_parse h2
  obtain ⟨e, he, hR⟩ := R_old' h h1
  rw [hR, commented_parts hparts]
  refine ⟨k, ⟨_, _, _, _, (rewritten_parts hparts v e he).2, ?_⟩, ?_⟩
  · split
    · simp
    · rename_i hh; simpa using hh
  · unfold keyOf at h3
    rw [h2] at h3
    have := (cut_parts hparts []).2.1
    rw [List.append_nil] at this
    simp only [Option.map_some, this] at h3
    exact ⟨Option.some.inj h3, _, _, _, _, _, hparts⟩

theorem key_of_setting {l k w : Str} (h : setting U l = some (k, w)) : keyOf U l = some (U.lower k) := by
  obtain ⟨v, ⟨a, b, p, t, hp, _⟩, _⟩ := setting_iff.mp h
  unfold keyOf
  have := (cut_parts hp []).2.1
  rw [List.append_nil] at this
  rw [parse_parts hp, Option.map_some, this]

/-- Where a setting in the altered file comes from. -/
theorem origin (hm : MapOk U map) (h : Altered U map L R L') {j : Nat} (hj : j < L'.length) {k w : Str} (hs : setting U (lineAt L' j) = some (k, w)) :
    (j < L.length ∧ keyOf U (lineAt L j) = some (U.lower k)) ∨
    (L.length ≤ j ∧ ∃ h : j - L.length < (newEntries (candidates U (pkeys U map) L) (pkeys U map)).length, (newEntries (candidates U (pkeys U map) L) (pkeys U map))[j - L.length].1 = U.lower k ∧
      PyDict.get (U.lower k) (candidates U (pkeys U map) L) = none) := by
  by_cases hl : j < L.length
  · left; refine ⟨hl, ?_⟩
    cases hk : keyOf U (lineAt L j) with
    | none =>
      rw [h.others j (.inr (by rw [hk]; intro ck hck; cases hck)), R_setting h hl] at hs
      rw [← hk]; exact key_of_setting hs
    | some ck =>
      cases hg : PyDict.get ck (pkeys U map) with
      | none =>
        rw [h.others j (.inr (by rw [hk]; intro ck' hck; cases hck; exact hg)), R_setting h hl] at hs
        rw [← hk]; exact key_of_setting hs
      | some e =>
        obtain ⟨sl, hp, _⟩ := Option.map_eq_some_iff.mp hk
        have hmem : (j, sl) ∈ candsIn U ck L := mem_candsIn.mpr ⟨hl, hp, hk⟩
        have ho := h.found ck e hg (List.ne_nil_of_mem hmem)
        obtain ⟨key, val⟩ := e
        cases val with
        | none =>
          have : lineAt L' j = lost (lineAt R j) sl := ho _ hmem
          rw [this, lost_setting h hl hp] at hs; cases hs
        | some v =>
          obtain ⟨⟨i0, sl0⟩, hw, h1, h2, _⟩ := ho
          by_cases hi : j = i0
          · subst hi
            obtain ⟨k', hk', hlow, hment⟩ := won_sets h hw v
            dsimp only at h1
            rw [← h1] at hk'
            have := setting_iff.mpr ⟨_, hk', rfl⟩
            rw [hs] at this
            cases this
            rw [hlow]
          · have : lineAt L' j = lost (lineAt R j) sl := h2 _ hmem hi
            rw [this, lost_setting h hl hp] at hs; cases hs
  · right
    have hl : L.length ≤ j := by omega
    refine ⟨hl, ?_⟩
    have hlen := h.nl.1
    rw [h.len] at hj
    rw [hlen, List.length_append] at hj
    have hn : j - L.length < (newEntries (candidates U (pkeys U map) L) (pkeys U map)).length := by
      unfold newLines at hj; rw [List.length_map] at hj; omega
    refine ⟨hn, ?_⟩
    generalize he : (newEntries (candidates U (pkeys U map) L) (pkeys U map))[j - L.length] = e
    have hmem : e ∈ newEntries (candidates U (pkeys U map) L) (pkeys U map) := by rw [← he]; exact List.getElem_mem hn
    obtain ⟨ck, key, v⟩ := e
    obtain ⟨m1, m2⟩ := mem_newEntries.mp hmem
    rw [pkeys_eq hm, List.mem_map] at m1
    obtain ⟨e', m3, m4⟩ := m1
    cases m4
    have hline : lineAt (L ++ newLines (candidates U (pkeys U map) L) (pkeys U map)) j = newLine (U.lower key, key, v) := by
      rw [lineAt_append, if_neg (by omega)]
      unfold lineAt newLines
      rw [List.getD_eq_getElem?_getD, List.getElem?_map, List.getElem?_eq_getElem hn, he]; rfl
    have hset : setting U (lineAt L' j) = some (key, v) := by
      rw [h.others j (.inl hl)]
      have key_ok : ∀ c ∈ key, keyChar U c = true := fun c hc => (keyChar_iff c).mpr ((hm.names _ m3).1 c hc)
      rcases h.nl.2 j with a | ⟨a, _⟩
      · rw [a, hline]; exact setting_new key v key_ok
      · rw [a, hline, setting_nl]; exact setting_new key v key_ok
    rw [hset] at hs
    cases hs
    exact ⟨rfl, m2⟩

theorem lineAt_mem {L : List Str} {x : Str} (h : x ∈ L) : ∃ j, j < L.length ∧ lineAt L j = x := by
  obtain ⟨j, hj, e⟩ := List.mem_iff_getElem.mp h
  exact ⟨j, hj, by unfold lineAt; rw [List.getD_eq_getElem?_getD, List.getElem?_eq_getElem hj, e]; rfl⟩

theorem lineAt_in {L : List Str} {i : Nat} (h : i < L.length) : lineAt L i ∈ L := by
  unfold lineAt; rw [List.getD_eq_getElem?_getD, List.getElem?_eq_getElem h]; exact List.getElem_mem h

theorem lineAt_split {L : List Str} {i : Nat} (h : i < L.length) : L = L.take i ++ lineAt L i :: L.drop (i + 1) := by
  have : lineAt L i = L[i] := by unfold lineAt; rw [List.getD_eq_getElem?_getD, List.getElem?_eq_getElem h]; rfl
  rw [this, ← List.drop_eq_getElem_cons h, List.take_append_drop]

theorem lineAt_other {L : List Str} {i : Nat} {x : Str} (h : x ∈ L.take i ++ L.drop (i + 1)) : ∃ j, j < L.length ∧ j ≠ i ∧ lineAt L j = x := by
  rw [List.mem_append] at h
  rcases h with h | h
  · obtain ⟨j, hj, e⟩ := List.mem_iff_getElem.mp h
    rw [List.length_take] at hj
    refine ⟨j, by omega, by omega, ?_⟩
    rw [List.getElem_take] at e
    unfold lineAt; rw [List.getD_eq_getElem?_getD, List.getElem?_eq_getElem (by omega), e]; rfl
  · obtain ⟨j, hj, e⟩ := List.mem_iff_getElem.mp h
    rw [List.length_drop] at hj
    refine ⟨i + 1 + j, by omega, by omega, ?_⟩
    rw [List.getElem_drop] at e
    unfold lineAt; rw [List.getD_eq_getElem?_getD, List.getElem?_eq_getElem (by omega), e]; rfl

end pointwise

/-- After a key is set, exactly one line sets it, in whatever case, and to that value. -/
theorem C33_set (map : Map) (hm : MapOk U map) (L L' : List Str) (h : alterConfig U map L = .ok L') (k v : Str) (hk : (k, some v) ∈ map) :
    ∃ A l B k', L' = A ++ l :: B ∧ Sets U l k' (quote v) ∧ U.lower k' = U.lower k ∧ ((∀ x ∈ L, ∀ s, Mentions U x s → U.lower s = U.lower k → s = k) → k' = k) ∧
      ∀ x ∈ A ++ B, ∀ k'' w, Sets U x k'' w → U.lower k'' ≠ U.lower k := by
  obtain ⟨R, ha⟩ := altered h
  have hg := pkeys_get hm hk
  have hR : R.length = L.length + (newEntries (candidates U (pkeys U map) L) (pkeys U map)).length := by
    rw [ha.nl.1, List.length_append]; unfold newLines; rw [List.length_map]
  suffices ∃ i k', i < L'.length ∧ Sets U (lineAt L' i) k' (quote v) ∧ U.lower k' = U.lower k ∧ ((∀ x ∈ L, ∀ s, Mentions U x s → U.lower s = U.lower k → s = k) → k' = k) ∧
      ∀ j, j < L'.length → j ≠ i → ∀ k'' w, setting U (lineAt L' j) = some (k'', w) → U.lower k'' ≠ U.lower k by
    obtain ⟨i, k', hi, h1, h2, h4, h3⟩ := this
    refine ⟨L'.take i, lineAt L' i, L'.drop (i + 1), k', lineAt_split hi, h1, h2, h4, ?_⟩
    intro x hx k'' w hs
    obtain ⟨j, hj, hne, rfl⟩ := lineAt_other hx
    exact h3 j hj hne k'' _ (setting_iff.mpr ⟨w, hs, rfl⟩)
  by_cases hc : candsIn U (U.lower k) L = []
  · -- the key was not there
    have hnc : PyDict.get (U.lower k) (candidates U (pkeys U map) L) = none := by
      rw [get_candidates, if_neg]; rintro ⟨_, h2⟩; exact h2 hc
    have hmem : (U.lower k, k, v) ∈ newEntries (candidates U (pkeys U map) L) (pkeys U map) := mem_newEntries.mpr ⟨PyDict.get_mem hg, hnc⟩
    obtain ⟨n, hn, hen⟩ := List.mem_iff_getElem.mp hmem
    have hline : lineAt (L ++ newLines (candidates U (pkeys U map) L) (pkeys U map)) (L.length + n) = newLine (U.lower k, k, v) := by
      rw [lineAt_append, if_neg (by omega), Nat.add_sub_cancel_left]
      unfold lineAt newLines
      rw [List.getD_eq_getElem?_getD, List.getElem?_map, List.getElem?_eq_getElem hn, hen]; rfl
    have key_ok : ∀ c ∈ k, keyChar U c = true := fun c hc => (keyChar_iff c).mpr ((hm.names _ hk).1 c hc)
    have hsets : Sets U (lineAt L' (L.length + n)) k (quote v) := by
      rw [ha.others _ (.inl (by omega))]
      have base : Sets U (newLine (U.lower k, k, v)) k (quote v) := by
        obtain ⟨w, hw, _⟩ := setting_iff.mp (setting_new (U := U) k v key_ok)
        have : w = quote v := by
          obtain ⟨a, b, p, t, hp, _⟩ := hw
          by_cases h0 : k = []
          · subst h0
            have hq : Parts U ([] ++ " = ".toList ++ quoted v) [' '] [] [] [' '] (quoted v) [] :=
              ⟨by simp, by intro c hc; simp at hc; subst hc; exact .inl (blank_space U), by simp, by simp, by simp,
                by intro c hc; simp at hc; subst hc; exact ⟨blank_space U, by decide, by decide⟩, quoted_head v [], value_quoted v [] (by simp)⟩
            exact (C33_parts_unique hp hq).2.2.2.2.1
          · have hq : Parts U (k ++ " = ".toList ++ quoted v) [] k [' '] [' '] (quoted v) [] :=
              ⟨by simp, by simp, fun c hc => (keyChar_iff c).mp (key_ok c hc), by intro c hc; simp at hc; subst hc; exact blank_space U, fun h => absurd h h0,
                by intro c hc; simp at hc; subst hc; exact ⟨blank_space U, by decide, by decide⟩, quoted_head v [], value_quoted v [] (by simp)⟩
            exact (C33_parts_unique hp hq).2.2.2.2.1
        rw [this] at hw; exact hw
      rcases ha.nl.2 (L.length + n) with a | ⟨a, _⟩
      · rw [a, hline]; exact base
      · rw [a, hline]
        obtain ⟨a', b, p, t, hp, hh⟩ := base
        rcases parts_nl hp with h2 | h2
        · exact ⟨a', b, p, _, h2, hh⟩
        · -- a quoted value is not unended
          exfalso
          have hv1 := valLen_value h2.value_is
          have hv2 : Value U (quote v) (['\n']) := value_quoted v ['\n'] (by intro c hc; simp at hc; subst hc; exact .inl (nl_space U))
          have hv3 := valLen_value hv2
          rw [List.append_nil] at hv1
          rw [hv1] at hv3; simp at hv3
    refine ⟨L.length + n, k, by rw [ha.len, hR]; omega, hsets, rfl, fun _ => rfl, ?_⟩
    intro j hj hne k'' w hs hlow
    rcases origin hm ha hj hs with ⟨o1, o2⟩ | ⟨o1, o2, o3, _⟩
    · obtain ⟨sl, hp, _⟩ := Option.map_eq_some_iff.mp o2
      have : (j, sl) ∈ candsIn U (U.lower k) L := mem_candsIn.mpr ⟨o1, hp, by rw [o2, hlow]⟩
      rw [hc] at this; simp at this
    · have pw := List.pairwise_iff_getElem.mp (newEntries_nodup (candidates U (pkeys U map) L) (pk := pkeys U map) (by rw [pkeys_keys hm]; exact hm.distinct))
      have e1 : (newEntries (candidates U (pkeys U map) L) (pkeys U map))[n].1 = U.lower k := by rw [hen]
      rcases Nat.lt_trichotomy (j - L.length) n with c | c | c
      · exact pw _ _ o2 hn c (by rw [o3, e1, hlow])
      · omega
      · exact pw _ _ hn o2 c (by rw [o3, e1, hlow])
  · obtain ⟨⟨i0, sl0⟩, hw, h1, h2, _⟩ := ha.found _ _ hg hc
    obtain ⟨k', hk', hlow, hment⟩ := won_sets ha hw v
    dsimp only at h1
    rw [← h1] at hk'
    have hi0 := (mem_candsIn.mp hw).1
    refine ⟨i0, k', by rw [ha.len, hR]; omega, hk', hlow, ?_, ?_⟩
    · intro hno
      exact hno _ (lineAt_in hi0) k' hment hlow
    · intro j hj hne k'' w hs hl2
      rcases origin hm ha hj hs with ⟨o1, o2⟩ | ⟨o1, o2, o3, o4⟩
      · obtain ⟨sl, hp, _⟩ := Option.map_eq_some_iff.mp o2
        have hmem : (j, sl) ∈ candsIn U (U.lower k) L := mem_candsIn.mpr ⟨o1, hp, by rw [o2, hl2]⟩
        have : lineAt L' j = lost (lineAt R j) sl := h2 _ hmem hne
        rw [this, lost_setting ha o1 hp] at hs; cases hs
      · rw [hl2, get_candidates, if_pos] at o4
        · cases o4
        · rw [hg]; exact ⟨rfl, hc⟩

/-- After a key is set to None, no line sets it. -/
theorem C33_unset (map : Map) (hm : MapOk U map) (L L' : List Str) (h : alterConfig U map L = .ok L') (k : Str) (hk : (k, none) ∈ map) :
    ∀ x ∈ L', ∀ k' w, Sets U x k' w → U.lower k' ≠ U.lower k := by
  obtain ⟨R, ha⟩ := altered h
  have hg := pkeys_get hm hk
  intro x hx k' w hs hlow
  obtain ⟨j, hj, rfl⟩ := lineAt_mem hx
  have hset := setting_iff.mpr ⟨w, hs, rfl⟩
  rcases origin hm ha hj hset with ⟨o1, o2⟩ | ⟨o1, o2, o3, _⟩
  · obtain ⟨sl, hp, _⟩ := Option.map_eq_some_iff.mp o2
    have hmem : (j, sl) ∈ candsIn U (U.lower k) L := mem_candsIn.mpr ⟨o1, hp, by rw [o2, hlow]⟩
    have : lineAt L' j = lost (lineAt R j) sl := ha.found _ _ hg (List.ne_nil_of_mem hmem) _ hmem
    rw [this, lost_setting ha o1 hp] at hset; cases hset
  · have hmem := List.getElem_mem o2
    generalize (newEntries (candidates U (pkeys U map) L) (pkeys U map))[j - L.length] = e at hmem o3
    obtain ⟨ck, key, v⟩ := e
    obtain ⟨m1, _⟩ := mem_newEntries.mp hmem
    have e1 := PyDict.get_of_mem (by rw [pkeys_keys hm]; exact hm.distinct) m1
    dsimp only at o3
    rw [o3, hlow, hg] at e1
    cases e1

/-- Reading back what was set: when the file spells the key as the map does, or does not have it. -/
theorem C33_set_read (map : Map) (hm : MapOk U map) (L L' : List Str) (h : alterConfig U map L = .ok L') (k v : Str) (hk : (k, some v) ∈ map)
    (hs : ∀ x ∈ L, ∀ s, Mentions U x s → U.lower s = U.lower k → s = k) (sel : Str → Bool) (hsel : sel k = true) : PyDict.get k (readConfig U sel L') = some v := by
  obtain ⟨A, l, B, k', rfl, h1, h2, h3, h4⟩ := C33_set map hm L L' h k v hk
  cases h3 hs
  rw [(C33_read sel k hsel).1 A l B (quote v) h1 (fun x hx w hw => h4 x (List.mem_append_right _ hx) k w hw rfl), (C33_unquote v).1]

/-- Reading back what was set to None. -/
theorem C33_unset_read (map : Map) (hm : MapOk U map) (L L' : List Str) (h : alterConfig U map L = .ok L') (k : Str) (hk : (k, none) ∈ map) (sel : Str → Bool)
    (hsel : sel k = true) : PyDict.get k (readConfig U sel L') = none :=
  (C33_read sel k hsel).2 L' fun x hx w hw => C33_unset map hm L L' h k hk x hx k w hw rfl

/-- Other keys keep their values. -/
theorem C33_others (map : Map) (hm : MapOk U map) (L L' : List Str) (h : alterConfig U map L = .ok L') (k : Str) (hk : ∀ e ∈ map, U.lower e.1 ≠ U.lower k) (sel : Str → Bool) :
    PyDict.get k (readConfig U sel L') = PyDict.get k (readConfig U sel L) := by
  cases hsel : sel k with
  | false => rw [C33_selector sel k hsel, C33_selector sel k hsel]
  | true =>
    rw [read_get sel k hsel, read_get sel k hsel]
    congr 1
    obtain ⟨R, ha⟩ := altered h
    have hlen : L.length ≤ L'.length := by rw [ha.len, ha.nl.1, List.length_append]; omega
    have hg : PyDict.get (U.lower k) (pkeys U map) = none := (pkeys_none hm).mpr hk
    have point : ∀ j, j < L.length → valueFor U k (lineAt L' j) = valueFor U k (lineAt L j) := by
      intro j hj
      by_cases hko : keyOf U (lineAt L j) = some (U.lower k)
      · have e : lineAt L' j = lineAt R j := ha.others j (.inr (by intro ck hck; rw [hko] at hck; cases hck; exact hg))
        unfold valueFor
        rw [e, R_setting ha hj]
      · have n1 : valueFor U k (lineAt L j) = none := by
          cases hv : valueFor U k (lineAt L j) with
          | none => rfl
          | some w => exact absurd (key_of_setting (valueFor_some.mp hv)) hko
        have n2 : valueFor U k (lineAt L' j) = none := by
          cases hv : valueFor U k (lineAt L' j) with
          | none => rfl
          | some w =>
            rcases origin hm ha (by omega) (valueFor_some.mp hv) with ⟨_, o2⟩ | ⟨o1, _⟩
            · exact absurd o2 hko
            · omega
        rw [n1, n2]
    have e : L' = L'.take L.length ++ L'.drop L.length := (List.take_append_drop _ _).symm
    have hdrop : (L'.drop L.length).filterMap (valueFor U k) = [] := by
      rw [List.filterMap_eq_nil_iff]
      intro x hx
      cases hv : valueFor U k x with
      | none => rfl
      | some w =>
        obtain ⟨j, hj, rfl⟩ := List.mem_iff_getElem.mp hx
        rw [List.length_drop] at hj
        have hl : lineAt L' (L.length + j) = (L'.drop L.length)[j] := by
          unfold lineAt
          rw [List.getD_eq_getElem?_getD, List.getElem?_eq_getElem (by omega), List.getElem_drop]; rfl
        rw [← hl] at hv
        rcases origin hm ha (by omega) (valueFor_some.mp hv) with ⟨o1, _⟩ | ⟨o1, o2, o3, _⟩
        · omega
        · have hmem := List.getElem_mem o2
          generalize (newEntries (candidates U (pkeys U map) L) (pkeys U map))[L.length + j - L.length] = e at hmem o3
          obtain ⟨ck, key, v⟩ := e
          obtain ⟨m1, _⟩ := mem_newEntries.mp hmem
          have e1 := PyDict.get_of_mem (by rw [pkeys_keys hm]; exact hm.distinct) m1
          dsimp only at o3
          rw [o3, hg] at e1
          cases e1
    rw [e, List.filterMap_append, hdrop, List.append_nil]
    have fm : ∀ X : List Str, X.filterMap (valueFor U k) = (X.map (valueFor U k)).filterMap id := by
      intro X; rw [List.filterMap_map]; rfl
    rw [fm, fm]
    congr 1
    refine List.ext_getElem (by rw [List.length_map, List.length_map, List.length_take]; omega) ?_
    intro j h1 h2
    rw [List.length_map] at h2
    have := point j h2
    rw [List.getElem_map, List.getElem_map, List.getElem_take]
    unfold lineAt at this
    rw [List.getD_eq_getElem?_getD, List.getD_eq_getElem?_getD, List.getElem?_eq_getElem (by omega), List.getElem?_eq_getElem h2] at this
    exact this

theorem keyOf_mentions {l : Str} {sl : Slices} {ck : Str} (h2 : parseLine U l = some sl) (h3 : keyOf U l = some ck) :
    ∃ a s b p w t, Parts U l a s b p w t ∧ U.lower s = ck ∧ sl = slicesOf a s b p w := by
  obtain ⟨a, s, b, p, w, t, hparts, rfl⟩ := parts_of_parse h2
  refine ⟨a, s, b, p, w, t, hparts, ?_, rfl⟩
  unfold keyOf at h3
  rw [h2] at h3
  have := (cut_parts hparts []).2.1
  rw [List.append_nil] at this
  simp only [Option.map_some, this] at h3
  exact Option.some.inj h3

theorem postVal_cases (s : Str) : postVal U s = s ∨ ∃ x y, s = x ++ y ∧ y ≠ [] ∧ (∀ c ∈ x, U.isSpace c = true) ∧ postVal U s = x ++ '#' :: y := by
  unfold postVal
  dsimp only
  split
  · exact .inl rfl
  · split
    · exact .inl rfl
    · rename_i h1 h2
      refine .inr ⟨s.takeWhile U.isSpace, lstrip U s, List.takeWhile_append_dropWhile.symm, h1, ?_, rfl⟩
      intro c hc; exact List.all_eq_true.mp List.all_takeWhile c hc

/-- Nothing else is done to the lines of the file: lines about other things stay as they are, those about the keys are made comments or get
the value; new lines come at the end. -/
theorem C33_edits (map : Map) (hm : MapOk U map) (L L' : List Str) (h : alterConfig U map L = .ok L') :
    (∀ i (hi : i < L.length), ∃ (hi' : i < L'.length) (e : Str), (e = [] ∨ (e = ['\n'] ∧ (L[i]).getLast? ≠ some '\n')) ∧ Edit U map L[i] e L'[i]) ∧
    (∀ i (hi : i < L'.length), L.length ≤ i → ∃ k v e, (k, some v) ∈ map ∧ (∀ l ∈ L, ∀ s, Mentions U l s → U.lower s ≠ U.lower k) ∧ (e = [] ∨ e = ['\n']) ∧
      L'[i] = k ++ " = ".toList ++ quote v ++ e) := by
  obtain ⟨R, ha⟩ := altered h
  have at_eq : ∀ (X : List Str) (i : Nat) (hi : i < X.length), X[i] = lineAt X i := by
    intro X i hi; unfold lineAt; rw [List.getD_eq_getElem?_getD, List.getElem?_eq_getElem hi]; rfl
  have hlen : L'.length = L.length + (newEntries (candidates U (pkeys U map) L) (pkeys U map)).length := by
    rw [ha.len, ha.nl.1, List.length_append]; unfold newLines; rw [List.length_map]
  constructor
  · intro i hi
    refine ⟨by omega, ?_⟩
    rw [at_eq, at_eq]
    obtain ⟨e, he, hR, heq⟩ : ∃ e, (e = [] ∨ (e = ['\n'] ∧ (lineAt L i).getLast? ≠ some '\n')) ∧ lineAt R i = lineAt L i ++ e ∧ (e = [] ∨ e = ['\n']) := by
      rcases R_old ha hi with a | ⟨a, b⟩
      · exact ⟨[], .inl rfl, by rw [a, List.append_nil], .inl rfl⟩
      · exact ⟨['\n'], .inr ⟨rfl, b⟩, a, .inr rfl⟩
    refine ⟨e, he, ?_⟩
    cases hk : keyOf U (lineAt L i) with
    | none =>
      rw [ha.others i (.inr (by rw [hk]; intro ck hck; cases hck)), hR]; exact .none
    | some ck =>
      cases hg : PyDict.get ck (pkeys U map) with
      | none => rw [ha.others i (.inr (by rw [hk]; intro ck' hck; cases hck; exact hg)), hR]; exact .none
      | some m =>
        obtain ⟨hmem, hlow⟩ := pkeys_some hm hg
        obtain ⟨key, val⟩ := m
        obtain ⟨sl, hp, _⟩ := Option.map_eq_some_iff.mp hk
        have hc : (i, sl) ∈ candsIn U ck L := mem_candsIn.mpr ⟨hi, hp, hk⟩
        obtain ⟨a, s, b, p, w, t, hparts, hs, rfl⟩ := keyOf_mentions hp hk
        have lost_edit : Edit U map (lineAt L i) e (lost (lineAt R i) (slicesOf a s b p w)) := by
          unfold lost
          split
          · rw [hR]; exact .none
          · rw [hR]; exact .comment hmem ⟨_, _, _, _, _, hparts⟩ (hs.trans hlow.symm)
        have ho := ha.found ck _ hg (List.ne_nil_of_mem hc)
        cases val with
        | none =>
          have : lineAt L' i = _ := ho _ hc
          rw [this]; exact lost_edit
        | some v =>
          obtain ⟨⟨i0, sl0⟩, hw, h1, h2, _⟩ := ho
          by_cases hi0 : i = i0
          · subst hi0
            have : sl0 = slicesOf a s b p w := by
              have := (mem_candsIn.mp hw).2.1
              rw [hp] at this; exact (Option.some.inj this).symm
            subst this
            dsimp only at h1
            rw [h1, hR, commented_parts hparts, (rewritten_parts hparts v e heq).1]
            have ea : (if a.contains '#' = true then ([] : Str) else a) = if '#' ∈ a then [] else a := by simp
            rw [ea]
            rcases postVal_cases (U := U) (t ++ e) with hpv | ⟨x, y, hxy, _, hx, hpv⟩
            · rw [hpv]; exact .value hmem hparts (hs.trans hlow.symm)
            · rw [hpv, ← List.append_assoc]; exact .value_comment hmem hparts (hs.trans hlow.symm) hxy hx
          · have : lineAt L' i = _ := h2 _ hc hi0
            rw [this]; exact lost_edit
  · intro i hi hl
    have hn : i - L.length < (newEntries (candidates U (pkeys U map) L) (pkeys U map)).length := by omega
    have hmem := List.getElem_mem hn
    have hline : lineAt (L ++ newLines (candidates U (pkeys U map) L) (pkeys U map)) i = newLine (newEntries (candidates U (pkeys U map) L) (pkeys U map))[i - L.length] := by
      rw [lineAt_append, if_neg (by omega)]
      unfold lineAt newLines
      rw [List.getD_eq_getElem?_getD, List.getElem?_map, List.getElem?_eq_getElem hn]; rfl
    generalize (newEntries (candidates U (pkeys U map) L) (pkeys U map))[i - L.length] = e at hmem hline
    obtain ⟨ck, key, v⟩ := e
    obtain ⟨m1, m2⟩ := mem_newEntries.mp hmem
    have hg := PyDict.get_of_mem (by rw [pkeys_keys hm]; exact hm.distinct) m1
    obtain ⟨m3, m4⟩ := pkeys_some hm hg
    dsimp only at m4
    subst m4
    have hno : ∀ l ∈ L, ∀ s, Mentions U l s → U.lower s ≠ U.lower key := by
      rintro l hl s ⟨a, b, p, w, t, hp⟩ hs
      obtain ⟨j, hj, rfl⟩ := lineAt_mem hl
      have hk : keyOf U (lineAt L j) = some (U.lower key) := by
        unfold keyOf
        have := (cut_parts hp []).2.1
        rw [List.append_nil] at this
        rw [parse_parts hp, Option.map_some, this, hs]
      have : (j, slicesOf a s b p w) ∈ candsIn U (U.lower key) L := mem_candsIn.mpr ⟨hj, parse_parts hp, hk⟩
      rw [get_candidates, if_pos ⟨by rw [hg]; rfl, List.ne_nil_of_mem this⟩] at m2
      cases m2
    rw [at_eq, ha.others i (.inl hl)]
    rcases ha.nl.2 i with a | ⟨a, _⟩
    · exact ⟨key, v, [], m3, hno, .inl rfl, by rw [a, hline, List.append_nil]; rfl⟩
    · exact ⟨key, v, ['\n'], m3, hno, .inr rfl, by rw [a, hline]; rfl⟩

/-- When a line sets the key to the value already, such a line stays in effect. -/
theorem C33_already (map : Map) (hm : MapOk U map) (L L' : List Str) (h : alterConfig U map L = .ok L') (k v : Str) (hk : (k, some v) ∈ map)
    (x s w : Str) (hx : x ∈ L) (hs : Sets U x s w) (hl : U.lower s = U.lower k) (hv : unquote U w = v) :
    ∃ i, ∃ (hi : i < L.length) (hi' : i < L'.length), ∃ s' w', Sets U L[i] s' w' ∧ unquote U w' = v ∧ Sets U L'[i] s' (quote v) := by
  obtain ⟨R, ha⟩ := altered h
  have at_eq : ∀ (X : List Str) (i : Nat) (hi : i < X.length), X[i] = lineAt X i := by
    intro X i hi; unfold lineAt; rw [List.getD_eq_getElem?_getD, List.getElem?_eq_getElem hi]; rfl
  have hg := pkeys_get hm hk
  obtain ⟨j, hj, rfl⟩ := lineAt_mem hx
  obtain ⟨a, b, p, t, hparts, hna⟩ := hs
  have hkj : keyOf U (lineAt L j) = some (U.lower k) := by
    unfold keyOf
    have := (cut_parts hparts []).2.1
    rw [List.append_nil] at this
    rw [parse_parts hparts, Option.map_some, this, hl]
  have hc : (j, slicesOf a s b p w) ∈ candsIn U (U.lower k) L := mem_candsIn.mpr ⟨hj, parse_parts hparts, hkj⟩
  obtain ⟨⟨i, sl⟩, hw, h1, _, h3⟩ := ha.found _ _ hg (List.ne_nil_of_mem hc)
  obtain ⟨hi, hp, hki⟩ := mem_candsIn.mp hw
  obtain ⟨a', s', b', p', w', t', hparts', hs', rfl⟩ := keyOf_mentions hp hki
  have hi' : i < L'.length := by rw [ha.len, ha.nl.1, List.length_append]; omega
  refine ⟨i, hi, hi', s', w', ?_⟩
  rw [at_eq, at_eq]
  obtain ⟨e, he, hR⟩ := R_old' ha hj
  obtain ⟨e', he', hR'⟩ := R_old' ha hi
  have sc : score U v (lineAt R j) (slicesOf a s b p w) = 3 := by
    unfold score
    rw [hR, commented_parts hparts, (cut_parts hparts e).2.2.2.1, if_pos hv]
    rw [if_neg (by simpa using hna)]
  have hle := h3 _ hc
  dsimp only at hle
  rw [sc] at hle
  unfold score at hle
  rw [hR', commented_parts hparts', (cut_parts hparts' e').2.2.2.1] at hle
  have c1 : '#' ∉ a' := by
    intro hh
    rw [if_pos (by simpa using hh)] at hle
    split at hle <;> omega
  have c2 : unquote U w' = v := by
    refine Decidable.byContradiction fun hh => ?_
    rw [if_neg hh] at hle
    split at hle <;> omega
  refine ⟨⟨_, _, _, _, hparts', c1⟩, c2, ?_⟩
  dsimp only at h1
  rw [h1, hR', commented_parts hparts']
  refine ⟨_, _, _, _, (rewritten_parts hparts' v e' he').2, ?_⟩
  split
  · simp
  · exact c1

/-- Altering fails only when a new key is to be put into a file without lines. -/
theorem C33_empty (map : Map) (hm : MapOk U map) (L : List Str) : (((L = [] → ∀ k v, (k, some v) ∉ map) ∧ ∃ L', alterConfig U map L = .ok L')) ∨ (L = [] ∧ (∃ k v, (k, some v) ∈ map) ∧ alterConfig U map L = .error .indexError) := by
  have app : ∀ (cands : List (Str × List Cand)) (pk : List (Str × (Str × Option Str))) (M : List Str), M ≠ [] → ∃ R, appendMissing cands pk M = .ok R := by
    intro cands pk
    induction pk with
    | nil => intro M _; exact ⟨M, rfl⟩
    | cons e pk ih =>
      obtain ⟨k, key, val⟩ := e
      intro M hM
      unfold appendMissing
      split
      · rcases endLast_cases M with ⟨h, _⟩ | ⟨A, l, h, h2⟩
        · exact absurd h hM
        · rw [h2]; exact ih _ (by simp)
      · exact ih M hM
  have app0 : ∀ (pk : List (Str × (Str × Option Str))), ((∀ k key v, (k, key, some v) ∉ pk) ∧ ∃ R, appendMissing [] pk [] = .ok R) ∨ ((∃ k key v, (k, key, some v) ∈ pk) ∧ appendMissing [] pk [] = .error .indexError) := by
    intro pk
    induction pk with
    | nil => exact .inl ⟨by simp, [], rfl⟩
    | cons e pk ih =>
      obtain ⟨k, key, val⟩ := e
      cases val with
      | none =>
        have : appendMissing [] ((k, key, none) :: pk) [] = appendMissing [] pk [] := rfl
        rw [this]
        rcases ih with ⟨h0, h⟩ | ⟨⟨k', key', v', h⟩, h2⟩
        · refine .inl ⟨?_, h⟩
          intro k' key' v' hh
          rcases List.mem_cons.mp hh with hh | hh
          · cases hh
          · exact h0 _ _ _ hh
        · exact .inr ⟨⟨k', key', v', List.mem_cons_of_mem _ h⟩, h2⟩
      | some v => exact .inr ⟨⟨k, key, v, List.mem_cons_self⟩, rfl⟩
  unfold alterConfig
  dsimp only
  by_cases hL : L = []
  · subst hL
    have e : candidates U (pkeys U map) [] = [] := rfl
    rw [e]
    rcases app0 (pkeys U map) with ⟨h0, R, h⟩ | ⟨⟨k, key, v, h⟩, h2⟩
    · left; rw [h]
      refine ⟨fun _ k v hh => h0 (U.lower k) k v ?_, _, rfl⟩
      rw [pkeys_eq hm]; exact List.mem_map.mpr ⟨_, hh, rfl⟩
    · right
      refine ⟨rfl, ⟨key, v, ?_⟩, by rw [h2]; rfl⟩
      rw [pkeys_eq hm, List.mem_map] at h
      obtain ⟨e, h3, h4⟩ := h
      cases h4; exact h3
  · left
    obtain ⟨R, h⟩ := app (candidates U (pkeys U map) L) (pkeys U map) L hL
    rw [h]; exact ⟨fun h => absurd h hL, _, rfl⟩

end PG.Props.ConfigFile
