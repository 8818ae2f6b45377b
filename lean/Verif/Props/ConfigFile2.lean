import Verif.Props.ConfigFile
/-!
# C33: configuration files as files
-/
namespace PG.Props.ConfigFile
open PG PG.PyStr PG.ConfigFile PG.Spec.ConfigFile PG.Proofs.ConfigFile
variable {U : Unicode}

/-! ## Lines of a text -/

theorem linesOf_line (x s : Str) (h : '\n' ∉ x) : linesOf (x ++ '\n' :: s) = (x ++ ['\n']) :: linesOf s := by
  induction x with
  | nil => simp [linesOf]
  | cons c x ih =>
    have hc : c ≠ '\n' := fun e => h (by simp [e])
    rw [List.cons_append, linesOf, if_neg hc, ih (fun e => h (by simp [e]))]; rfl

theorem linesOf_last (x : Str) (h : '\n' ∉ x) (hne : x ≠ []) : linesOf x = [x] := by
  induction x with
  | nil => exact absurd rfl hne
  | cons c x ih =>
    have hc : c ≠ '\n' := fun e => h (by simp [e])
    rw [linesOf, if_neg hc]
    cases x with
    | nil => rfl
    | cons d x => rw [ih (fun e => h (by simp [e])) (by simp)]; rfl

/-- Lines written one after the other are read as they were. -/
theorem linesOf_flatten {L : List Str} (h : Wf L) : linesOf L.flatten = L := by
  obtain ⟨A, rest, rfl, hA, hr⟩ := h
  induction A with
  | nil =>
    rcases hr with rfl | ⟨x, rfl, h1, h2⟩
    · rfl
    · simp; exact linesOf_last x h2.1 h1
  | cons l A ih =>
    obtain ⟨x, rfl, hx⟩ := hA l List.mem_cons_self
    have := ih (fun l hl => hA l (List.mem_cons_of_mem _ hl))
    rw [List.cons_append, List.flatten_cons, List.append_assoc]
    show linesOf (x ++ '\n' :: (A ++ rest).flatten) = _
    rw [linesOf_line x _ hx.1, this]

theorem translate_id : ∀ (s : Str), '\r' ∉ s → translate s = s := by
  intro s
  fun_induction translate s with
  | case1 => intro _; rfl
  | case2 s ih => intro h; simp at h
  | case3 s _ ih => intro h; simp at h
  | case4 c s _ _ ih => intro h; rw [ih (fun e => h (List.mem_cons_of_mem _ e))]

theorem translate_cr (s : Str) : '\r' ∉ translate s := by
  fun_induction translate s with
  | case1 => simp
  | case2 s ih => simp [ih]
  | case3 s _ ih => simp [ih]
  | case4 c s h1 h2 ih =>
    simp only [List.mem_cons, not_or]
    exact ⟨fun e => h2 e.symm, ih⟩

theorem linesOf_wf : ∀ s : Str, '\r' ∉ s → Wf (linesOf s)
  | [], _ => ⟨[], [], rfl, by simp, .inl rfl⟩
  | c :: s, h => by
    have hs : '\r' ∉ s := fun e => h (List.mem_cons_of_mem _ e)
    have hc : c ≠ '\r' := fun e => h (by simp [e])
    obtain ⟨A, rest, e, hA, hr⟩ := linesOf_wf s hs
    by_cases hn : c = '\n'
    · subst hn
      refine ⟨['\n'] :: A, rest, by rw [linesOf, if_pos rfl, e]; rfl, ?_, hr⟩
      intro l hl
      rcases List.mem_cons.mp hl with rfl | hl
      · exact ⟨[], rfl, by simp [OneLine]⟩
      · exact hA l hl
    · rw [linesOf, if_neg hn, e]
      cases A with
      | cons l A =>
        obtain ⟨x, rfl, hx⟩ := hA l List.mem_cons_self
        refine ⟨(c :: (x ++ ['\n'])) :: A, rest, rfl, ?_, hr⟩
        intro l hl
        rcases List.mem_cons.mp hl with rfl | hl
        · exact ⟨c :: x, rfl, by have h1 := hx.1; have h2 := hx.2; simp [OneLine, Ne.symm hn, Ne.symm hc, h1, h2]⟩
        · exact hA l (List.mem_cons_of_mem _ hl)
      | nil =>
        rcases hr with rfl | ⟨x, rfl, h1, h2⟩
        · exact ⟨[], [[c]], rfl, by simp, .inr ⟨[c], rfl, by simp, by simp [OneLine, Ne.symm hn, Ne.symm hc]⟩⟩
        · exact ⟨[], [c :: x], rfl, by simp, .inr ⟨c :: x, rfl, by simp, by have h3 := h2.1; have h4 := h2.2; simp [OneLine, Ne.symm hn, Ne.symm hc, h3, h4]⟩⟩

theorem readLines_wf (file : Str) : Wf (readLines file) := linesOf_wf _ (translate_cr file)

theorem flatten_cr {L : List Str} (h : Wf L) : '\r' ∉ L.flatten := by
  obtain ⟨A, rest, rfl, hA, hr⟩ := h
  intro hm
  rw [List.mem_flatten] at hm
  obtain ⟨l, hl, hc⟩ := hm
  rw [List.mem_append] at hl
  rcases hl with hl | hl
  · obtain ⟨x, rfl, hx⟩ := hA l hl
    have := hx.2
    simp [this] at hc
  · rcases hr with rfl | ⟨x, rfl, h1, h2⟩
    · simp at hl
    · simp at hl; subst hl; exact h2.2 hc

theorem readLines_save {L : List Str} (h : Wf L) : readLines (save L) = L := by
  unfold readLines save
  rw [translate_id _ (flatten_cr h), linesOf_flatten h]

/-! ## Altered lines are lines -/

/-- A line with its newline. -/
def Full (l : Str) : Prop := ∃ x, l = x ++ ['\n'] ∧ OneLine x
/-- A last line without one. -/
def Bare (l : Str) : Prop := l ≠ [] ∧ OneLine l

theorem oneLine_append {x y : Str} : OneLine (x ++ y) ↔ OneLine x ∧ OneLine y := by
  unfold OneLine
  simp [not_or]
  constructor
  · rintro ⟨⟨a, b⟩, c, d⟩; exact ⟨⟨a, c⟩, b, d⟩
  · rintro ⟨⟨a, c⟩, b, d⟩; exact ⟨⟨a, b⟩, c, d⟩

theorem full_hash {l : Str} (h : Full l) : Full ('#' :: l) := by
  obtain ⟨x, rfl, h⟩ := h
  exact ⟨'#' :: x, rfl, by have h1 := h.1; have h2 := h.2; simp [OneLine, h1, h2]⟩

theorem bare_hash {l : Str} (h : Bare l) : Bare ('#' :: l) := by
  refine ⟨by simp, ?_⟩
  have h1 := h.2.1; have h2 := h.2.2; simp [OneLine, h1, h2]

theorem oneLine_double {v : Str} (h : OneLine v) : OneLine (double '\'' v) := by
  have : ∀ c, c ∈ double '\'' v → c ∈ v := by
    intro c hc
    unfold double at hc
    rw [List.mem_flatMap] at hc
    obtain ⟨d, hd, hc⟩ := hc
    split at hc
    · rename_i e; subst e; simp at hc; subst hc; exact hd
    · simp at hc; subst hc; exact hd
  exact ⟨fun hc => h.1 (this _ hc), fun hc => h.2 (this _ hc)⟩

theorem oneLine_quoted {v : Str} (h : OneLine v) : OneLine (quoted v) := by
  have := oneLine_double h
  unfold quoted
  have h1 := this.1; have h2 := this.2
  simp [OneLine, h1, h2]

theorem oneLine_postVal {s : Str} (h : OneLine s) : OneLine (postVal U s) := by
  rcases postVal_cases (U := U) s with e | ⟨x, y, rfl, _, _, e⟩
  · rw [e]; exact h
  · rw [e]
    rw [oneLine_append] at h ⊢
    refine ⟨h.1, ?_⟩
    have h1 := h.2.1; have h2 := h.2.2
    simp [OneLine, h1, h2]

theorem full_postVal {s : Str} (h : Full s) : Full (postVal U s) := by
  rcases postVal_cases (U := U) s with e | ⟨x, y, hs, hne, _, e⟩
  · rw [e]; exact h
  · rw [e]
    obtain ⟨z, hz, ho⟩ := h
    rcases List.eq_nil_or_concat y with rfl | ⟨y', c, rfl⟩
    · exact absurd rfl hne
    · rw [hz, List.concat_eq_append, ← List.append_assoc] at hs
      have h2 := List.append_inj' hs rfl
      have hc : c = '\n' := by have := h2.2; simp at this; exact this.symm
      subst hc
      refine ⟨x ++ '#' :: y', by simp, ?_⟩
      rw [h2.1, oneLine_append] at ho
      rw [oneLine_append]
      refine ⟨ho.1, ?_⟩
      have h1 := ho.2.1; have h3 := ho.2.2
      simp [OneLine, h1, h3]

theorem rewritten_full {l a k b p v t : Str} (h : Parts U l a k b p v t) (w e : Str) (hw : OneLine w) (hv : '\n' ∉ v) (he : e = [] ∨ e = ['\n']) (hf : Full (l ++ e)) :
    Full (rewritten U w (a.contains '#') (slicesOf a k b p v) (l ++ e)) := by
  rw [(rewritten_parts h w e he).1]
  obtain ⟨x, hx, ho⟩ := hf
  have hl : l ++ e = a ++ k ++ b ++ '=' :: p ++ v ++ (t ++ e) := by rw [h.whole]; simp
  have hte : t ++ e ≠ [] := by
    intro h0
    rw [h0, List.append_nil, hx] at hl
    rcases List.eq_nil_or_concat v with rfl | ⟨v', c, rfl⟩
    · rw [List.append_nil] at hl
      rcases List.eq_nil_or_concat p with rfl | ⟨p', c, rfl⟩
      · have := (List.append_inj' hl rfl).2; simp at this
      · have e1 : a ++ k ++ b ++ '=' :: p'.concat c = (a ++ k ++ b ++ '=' :: p') ++ [c] := by simp
        rw [e1] at hl
        have := (List.append_inj' hl rfl).2
        simp at this
        exact (h.between_chars c (by simp)).2.1 this.symm
    · rw [List.concat_eq_append, ← List.append_assoc] at hl
      have := (List.append_inj' hl rfl).2
      simp at this
      subst this; simp at hv
  rcases List.eq_nil_or_concat (t ++ e) with h0 | ⟨t', c, h0⟩
  · exact absurd h0 hte
  · rw [hx, h0, List.concat_eq_append, ← List.append_assoc] at hl
    obtain ⟨i1, i2⟩ := List.append_inj' hl rfl
    have hc : c = '\n' := by simp at i2; exact i2.symm
    subst hc
    rw [i1] at ho
    rw [oneLine_append, oneLine_append, oneLine_append, oneLine_append, oneLine_append] at ho
    obtain ⟨⟨⟨⟨⟨o1, o2⟩, o3⟩, o4⟩, o5⟩, o6⟩ := ho
    obtain ⟨y, hy, hoy⟩ := full_postVal (U := U) (s := t ++ e) ⟨t', by rw [h0, List.concat_eq_append], o6⟩
    rw [hy]
    refine ⟨(if a.contains '#' then [] else a) ++ k ++ b ++ '=' :: p ++ quoted w ++ y, by simp, ?_⟩
    rw [oneLine_append, oneLine_append, oneLine_append, oneLine_append, oneLine_append]
    refine ⟨⟨⟨⟨⟨?_, o2⟩, o3⟩, o4⟩, oneLine_quoted hw⟩, hoy⟩
    split
    · simp [OneLine]
    · exact o1

theorem rewritten_bare {l a k b p v t : Str} (h : Parts U l a k b p v t) (w e : Str) (hw : OneLine w) (he : e = [] ∨ e = ['\n']) (hf : Bare (l ++ e)) :
    Bare (rewritten U w (a.contains '#') (slicesOf a k b p v) (l ++ e)) := by
  rw [(rewritten_parts h w e he).1]
  have hl : l ++ e = a ++ k ++ b ++ '=' :: p ++ v ++ (t ++ e) := by rw [h.whole]; simp
  have ho := hf.2
  rw [hl, oneLine_append, oneLine_append, oneLine_append, oneLine_append, oneLine_append] at ho
  obtain ⟨⟨⟨⟨⟨o1, o2⟩, o3⟩, o4⟩, o5⟩, o6⟩ := ho
  refine ⟨by simp [quoted], ?_⟩
  rw [oneLine_append, oneLine_append, oneLine_append, oneLine_append, oneLine_append]
  refine ⟨⟨⟨⟨⟨?_, o2⟩, o3⟩, o4⟩, oneLine_quoted hw⟩, oneLine_postVal o6⟩
  split
  · simp [OneLine]
  · exact o1

theorem full_last {l : Str} (h : Full l) : l.getLast? = some '\n' := by obtain ⟨x, rfl, _⟩ := h; simp

theorem bare_last {l : Str} (h : Bare l) : l.getLast? ≠ some '\n' := fun e => h.2.1 (List.mem_of_mem_getLast? e)

theorem endLast_wf {L M : List Str} (hw : Wf L) (h : endLast L = .ok M) : ∀ l ∈ M, Full l := by
  obtain ⟨A, rest, rfl, hA, hr⟩ := hw
  rcases endLast_cases (A ++ rest) with ⟨e, h2⟩ | ⟨B, l, e, h2⟩
  · rw [h2] at h; cases h
  · rw [h2] at h; cases h
    rcases hr with rfl | ⟨x, rfl, h1, h3⟩
    · rw [List.append_nil] at e
      subst e
      have hl := hA l (by simp)
      rw [if_pos (full_last hl)]
      exact hA
    · have := List.append_inj' e rfl
      obtain ⟨rfl, e2⟩ := this
      cases e2
      rw [if_neg (bare_last ⟨h1, h3⟩)]
      intro y hy
      rw [List.mem_append] at hy
      rcases hy with hy | hy
      · exact hA y hy
      · simp at hy; subst hy; exact ⟨_, rfl, h3⟩

theorem append_wf (cands : List (Str × List Cand)) : ∀ (pk : List (Str × (Str × Option Str))) (L R : List Str), (∀ e ∈ pk, OneLine e.2.1 ∧ ∀ v, e.2.2 = some v → OneLine v) →
    Wf L → appendMissing cands pk L = .ok R → Wf R
  | [], L, R, _, hw, h => by cases h; exact hw
  | (k, key, val) :: rest, L, R, hpk, hw, h => by
    have hrest : ∀ e ∈ rest, OneLine e.2.1 ∧ ∀ v, e.2.2 = some v → OneLine v := fun e he => hpk e (List.mem_cons_of_mem _ he)
    have hcase : (PyDict.get k cands = none ∧ ∃ v, val = some v) ∨ (PyDict.get k cands ≠ none ∨ val = none) := by
      cases PyDict.get k cands <;> cases val <;> simp
    rcases hcase with ⟨hg, v, rfl⟩ | hx
    · have e2 : appendMissing cands ((k, key, some v) :: rest) L = (do let L1 ← endLast L; appendMissing cands rest (L1 ++ [key ++ " = ".toList ++ quoted v])) := by
        conv => lhs; unfold appendMissing
        rw [hg]
      rw [e2] at h
      obtain ⟨L1, h1, h2⟩ := Element3.bind_eq_ok h
      refine append_wf cands rest _ R hrest ?_ h2
      refine ⟨L1, _, rfl, endLast_wf hw h1, .inr ⟨_, rfl, by simp, ?_⟩⟩
      obtain ⟨o1, o2⟩ := hpk _ List.mem_cons_self
      rw [oneLine_append, oneLine_append]
      exact ⟨⟨o1, by unfold OneLine; decide⟩, oneLine_quoted (o2 v rfl)⟩
    · have e2 : appendMissing cands ((k, key, val) :: rest) L = appendMissing cands rest L := by
        conv => lhs; unfold appendMissing
        rcases hx with hx | rfl
        · cases hg : PyDict.get k cands with
          | none => exact absurd hg hx
          | some y => rfl
        · cases hg : PyDict.get k cands <;> rfl
      rw [e2] at h
      exact append_wf cands rest L R hrest hw h

theorem key_oneLine {k : Str} (h : ∀ c ∈ k, U.isAlpha c = true ∨ U.isDigit c = true ∨ c = '_') : OneLine k := by
  have : ∀ c ∈ k, U.isSpace c = false := fun c hc => key_not_space ((keyChar_iff c).mpr (h c hc))
  constructor
  · intro hc; have := this _ hc; rw [nl_space] at this; cases this
  · intro hc
    have := this _ hc
    rw [U.space_ascii _ (by decide)] at this
    exact absurd this (by decide)

/-- The lines after an edit, written and read, are those lines: provided the values fit on a line, and no line about the keys has a quote
that is not closed before the end of the line. -/
theorem C33_written (map : Map) (hm : MapOk U map) (L L' : List Str) (hL : Wf L) (h : alterConfig U map L = .ok L') (hv : ∀ k v, (k, some v) ∈ map → OneLine v)
    (hq : ∀ l ∈ L, ∀ a s b p w t, Parts U l a s b p w t → (∃ e ∈ map, U.lower s = U.lower e.1) → '\n' ∉ w) : Wf L' := by
  obtain ⟨R, h1, ha⟩ := altered' h
  have hR : Wf R := by
    refine append_wf _ _ L R ?_ hL h1
    intro e he
    rw [pkeys_eq hm, List.mem_map] at he
    obtain ⟨m, hmm, rfl⟩ := he
    refine ⟨key_oneLine (hm.names m hmm).1, ?_⟩
    intro v hv2
    exact hv m.1 v (by rw [← hv2]; exact hmm)
  have point : ∀ i, i < R.length → (Full (lineAt R i) → Full (lineAt L' i)) ∧ (Bare (lineAt R i) → Bare (lineAt L' i)) := by
    intro i hi
    by_cases hl : i < L.length
    · cases hk : keyOf U (lineAt L i) with
      | none => rw [ha.others i (.inr (by rw [hk]; intro ck hck; cases hck))]; exact ⟨id, id⟩
      | some ck =>
        cases hg : PyDict.get ck (pkeys U map) with
        | none => rw [ha.others i (.inr (by rw [hk]; intro ck' hck; cases hck; exact hg))]; exact ⟨id, id⟩
        | some m =>
          obtain ⟨hmem, hlow⟩ := pkeys_some hm hg
          obtain ⟨key, val⟩ := m
          obtain ⟨sl, hp, _⟩ := Option.map_eq_some_iff.mp hk
          have hc : (i, sl) ∈ candsIn U ck L := mem_candsIn.mpr ⟨hl, hp, hk⟩
          have lost_ok : (Full (lineAt R i) → Full (lost (lineAt R i) sl)) ∧ (Bare (lineAt R i) → Bare (lost (lineAt R i) sl)) := by
            unfold lost
            split
            · exact ⟨id, id⟩
            · exact ⟨full_hash, bare_hash⟩
          have ho := ha.found ck _ hg (List.ne_nil_of_mem hc)
          cases val with
          | none =>
            have : lineAt L' i = _ := ho _ hc
            rw [this]; exact lost_ok
          | some v =>
            obtain ⟨⟨i0, sl0⟩, hw, e1, e2, _⟩ := ho
            by_cases hi0 : i = i0
            · subst hi0
              have : sl0 = sl := by
                have := (mem_candsIn.mp hw).2.1
                rw [hp] at this; exact (Option.some.inj this).symm
              subst this
              obtain ⟨a, s, b, p, w, t, hparts, hs, rfl⟩ := keyOf_mentions hp hk
              obtain ⟨e, he, hRe⟩ := R_old' ha hl
              dsimp only at e1
              rw [e1, hRe, commented_parts hparts]
              have hnv := hq _ (lineAt_in hl) _ _ _ _ _ _ hparts ⟨_, hmem, by rw [hs, hlow]⟩
              exact ⟨rewritten_full hparts v e (hv key v hmem) hnv he, rewritten_bare hparts v e (hv key v hmem) he⟩
            · have : lineAt L' i = _ := e2 _ hc hi0
              rw [this]; exact lost_ok
    · rw [ha.others i (.inl (by omega))]; exact ⟨id, id⟩
  obtain ⟨A, rest, rfl, hA, hr⟩ := hR
  have at_eq : ∀ (X : List Str) (i : Nat) (hi : i < X.length), X[i] = lineAt X i := by
    intro X i hi; unfold lineAt; rw [List.getD_eq_getElem?_getD, List.getElem?_eq_getElem hi]; rfl
  have hlen := ha.len
  rw [List.length_append] at hlen
  refine ⟨L'.take A.length, L'.drop A.length, (List.take_append_drop _ _).symm, ?_, ?_⟩
  · intro l hl
    obtain ⟨i, hi, rfl⟩ := List.mem_iff_getElem.mp hl
    rw [List.length_take] at hi
    rw [List.getElem_take, at_eq]
    refine (point i (by rw [List.length_append]; omega)).1 ?_
    rw [lineAt_append, if_pos (by omega), ← at_eq A i (by omega)]
    exact hA _ (List.getElem_mem _)
  · rcases hr with rfl | ⟨x, rfl, h3, h4⟩
    · left; rw [List.drop_eq_nil_iff]; simp at hlen; omega
    · right
      have hl : A.length < L'.length := by simp at hlen; omega
      refine ⟨lineAt L' A.length, ?_, ?_⟩
      · rw [List.drop_eq_getElem_cons hl, at_eq]
        have : L'.drop (A.length + 1) = [] := by rw [List.drop_eq_nil_iff]; simp at hlen; omega
        rw [this]
      · refine (point A.length (by simp)).2 ?_
        rw [lineAt_append, if_neg (by omega), Nat.sub_self]
        exact ⟨h3, h4⟩

/-- The conditions on an update of a file. -/
structure UpdateOk (U : Unicode) (map : Map) (file : Str) : Prop where
  map_ok : MapOk U map
  values : ∀ k v, (k, some v) ∈ map → OneLine v
  /-- in lines about the keys, quotes are closed -/
  closed : ∀ l ∈ readLines file, ∀ a s b p w t, Parts U l a s b p w t → (∃ e ∈ map, U.lower s = U.lower e.1) → '\n' ∉ w

/-- The file after an update has the altered lines. -/
theorem C33_update (map : Map) (file file' : Str) (hok : UpdateOk U map file) (h : update U map file = .ok file') :
    ∃ L', alterConfig U map (readLines file) = .ok L' ∧ readLines file' = L' := by
  unfold update at h
  cases ha : alterConfig U map (readLines file) with
  | error e => rw [ha] at h; cases h
  | ok L' =>
    rw [ha] at h
    cases h
    exact ⟨L', rfl, readLines_save (C33_written map hok.map_ok _ L' (readLines_wf file) ha hok.values hok.closed)⟩

/-- A value set is the value got. -/
theorem C33_update_get (map : Map) (file file' : Str) (hok : UpdateOk U map file) (h : update U map file = .ok file') (k v : Str) (hk : (k, some v) ∈ map)
    (hs : ∀ x ∈ readLines file, ∀ s, Mentions U x s → U.lower s = U.lower k → s = k) : get U k none file' = some v ∧ getItem U k file' = .ok v := by
  obtain ⟨L', ha, hr⟩ := C33_update map file file' hok h
  have := C33_set_read map hok.map_ok _ L' ha k v hk hs (fun x => x = k) (by simp)
  unfold ConfigFile.get getItem
  rw [hr, this]
  exact ⟨rfl, rfl⟩

/-- A value set to None is gone. -/
theorem C33_update_none (map : Map) (file file' : Str) (hok : UpdateOk U map file) (h : update U map file = .ok file') (k : Str) (hk : (k, none) ∈ map) (alt : Option Str) :
    get U k alt file' = alt ∧ getItem U k file' = .error .keyError := by
  obtain ⟨L', ha, hr⟩ := C33_update map file file' hok h
  have := C33_unset_read map hok.map_ok _ L' ha k hk (fun x => x = k) (by simp)
  unfold ConfigFile.get getItem
  rw [hr, this]
  exact ⟨rfl, rfl⟩

/-- Other values are as before. -/
theorem C33_update_others (map : Map) (file file' : Str) (hok : UpdateOk U map file) (h : update U map file = .ok file') (k : Str) (hk : ∀ e ∈ map, U.lower e.1 ≠ U.lower k)
    (alt : Option Str) : get U k alt file' = get U k alt file ∧ getItem U k file' = getItem U k file ∧ PyDict.get k (items U file') = PyDict.get k (items U file) := by
  obtain ⟨L', ha, hr⟩ := C33_update map file file' hok h
  have h1 := C33_others map hok.map_ok _ L' ha k hk (fun x => x = k)
  have h2 := C33_others map hok.map_ok _ L' ha k hk (fun _ => true)
  unfold ConfigFile.get getItem items
  rw [hr, h1, h2]
  exact ⟨rfl, rfl, rfl⟩

/-- `items` and `get` agree. -/
theorem C33_items (k : Str) (file : Str) : get U k none file = PyDict.get k (items U file) := by
  unfold ConfigFile.get items
  rw [read_get _ k (by simp), read_get _ k rfl]
  cases ((readLines file).filterMap (valueFor U k)).getLast? <;> rfl

/-- `getset` has every key asked for, with its value or None. -/
theorem C33_getset (keys : List Str) (k : Str) (file : Str) : PyDict.get k (getset U keys file) = if k ∈ keys then some (get U k none file) else none := by
  have gm : ∀ d : List (Str × Str), PyDict.get k (d.map fun e => (e.1, some e.2)) = (PyDict.get k d).map some := by
    intro d
    induction d with
    | nil => rfl
    | cons e d ih => rw [List.map_cons, PyDict.get_cons, PyDict.get_cons, ih]; split <;> rfl
  have fold : ∀ (ks : List Str) (d : List (Str × Option Str)), PyDict.get k (ks.foldl (fun d k => PyDict.set k none d) d) = if k ∈ ks then some none else PyDict.get k d := by
    intro ks
    induction ks with
    | nil => intro d; simp
    | cons x ks ih =>
      intro d
      rw [List.foldl_cons, ih, PyDict.get_set]
      by_cases h1 : k ∈ ks
      · simp [h1]
      · by_cases h2 : x = k
        · simp [h2]
        · simp [h1, h2, Ne.symm h2]
  unfold getset
  dsimp only
  rw [fold]
  simp only [List.mem_filter, gm]
  by_cases hk : k ∈ keys
  · have : get U k none file = PyDict.get k (readConfig U (fun k => keys.contains k) (readLines file)) := by
      rw [C33_items]; unfold items
      rw [read_get _ k rfl, read_get _ k (by simpa using hk)]
    rw [this]
    cases hg : PyDict.get k (readConfig U (fun k => keys.contains k) (readLines file)) <;> simp [hk]
  · have : PyDict.get k (readConfig U (fun k => keys.contains k) (readLines file)) = none := C33_selector _ _ (by simpa using hk) _
    rw [this]; simp [hk]

/-- `del` always fails, and the file stays. -/
theorem C33_delete_fails (k : Str) (file : Str) : delItem U k file = .error .typeError := by
  have : ∃ L', alterConfig U [(k, none)] (readLines file) = .ok L' := by
    unfold alterConfig
    dsimp only
    have e : pkeys U [(k, none)] = [(strip U (U.lower k), (k, none))] := rfl
    rw [e]
    have : ∀ cands L, appendMissing cands [(strip U (U.lower k), (k, none))] L = .ok L := by
      intro cands L
      unfold appendMissing
      cases PyDict.get (strip U (U.lower k)) cands <;> rfl
    rw [this]
    exact ⟨_, rfl⟩
  obtain ⟨L', h⟩ := this
  unfold delItem
  rw [h]; rfl

/-- What `write_config` writes is read back, when the values are written as values. -/
theorem C33_write_read (map : List (Str × Str)) (hd : (map.map Prod.fst).Nodup) (hn : ∀ e ∈ map, ∀ c ∈ e.1, U.isAlpha c = true ∨ U.isDigit c = true ∨ c = '_')
    (hv : ∀ e ∈ map, Value U e.2 ['\n'] ∧ ∀ c, e.2.head? = some c → U.isSpace c = false) (k : Str) :
    ∃ L, writeConfig map none = .ok L ∧ PyDict.get k (readConfig U (fun _ => true) L) = (PyDict.get k map).map (unquote U) := by
  have hw : writeConfig map none = .ok (map.map fun e => e.1 ++ ['='] ++ e.2 ++ ['\n']) := by
    unfold writeConfig
    have : ∀ (m : List (Str × Str)), (∀ e ∈ m, PyDict.get e.1 map = some e.2) →
        (m.map Prod.fst).mapM (fun k => match PyDict.get k map with | some v => (.ok (k ++ ['='] ++ v ++ ['\n']) : Except Err Str) | none => .error .keyError) =
          .ok (m.map fun e => e.1 ++ ['='] ++ e.2 ++ ['\n']) := by
      intro m
      induction m with
      | nil => intro _; rfl
      | cons e m ih =>
        intro h
        rw [List.map_cons, List.mapM_cons, h e List.mem_cons_self, ih (fun x hx => h x (List.mem_cons_of_mem _ hx))]
        rfl
    exact this map (fun e he => PyDict.get_of_mem hd he)
  refine ⟨_, hw, ?_⟩
  have hset : ∀ e ∈ map, setting U (e.1 ++ ['='] ++ e.2 ++ ['\n']) = some (e.1, unquote U e.2) := by
    intro e he
    have hp : Parts U (e.1 ++ ['='] ++ e.2 ++ ['\n']) [] e.1 [] [] e.2 ['\n'] := by
      refine ⟨by simp, by simp, hn e he, by simp, by simp, by simp, ?_, (hv e he).1⟩
      intro c hc hs
      cases h2 : e.2 with
      | nil => rw [h2] at hc; simp at hc; exact .inl hc.symm
      | cons d r =>
        have : U.isSpace c = false := (hv e he).2 c (by rw [h2] at hc ⊢; exact hc)
        rw [this] at hs; cases hs
    rw [setting_parts hp, if_neg (by simp)]
  rw [read_get _ k rfl, List.filterMap_map]
  have : ∀ (m : List (Str × Str)), (m.map Prod.fst).Nodup → (∀ e ∈ m, setting U (e.1 ++ ['='] ++ e.2 ++ ['\n']) = some (e.1, unquote U e.2)) →
      (m.filterMap ((valueFor U k) ∘ fun e => e.1 ++ ['='] ++ e.2 ++ ['\n'])) = ((PyDict.get k m).map (unquote U)).toList := by
    intro m
    induction m with
    | nil => intro _ _; rfl
    | cons e m ih =>
      intro hd hs
      rw [List.map_cons, List.nodup_cons] at hd
      have ih := ih hd.2 (fun x hx => hs x (List.mem_cons_of_mem _ hx))
      rw [List.filterMap_cons, ih, PyDict.get_cons]
      have h1 : ((valueFor U k) ∘ fun e => e.1 ++ ['='] ++ e.2 ++ ['\n']) e = if e.1 = k then some (unquote U e.2) else none := by
        show valueFor U k (e.1 ++ ['='] ++ e.2 ++ ['\n']) = _
        unfold valueFor; rw [hs e List.mem_cons_self]; rfl
      rw [h1]
      by_cases hk : e.1 = k
      · have : PyDict.get k m = none := by
          rw [PyDict.get_none]
          intro x hx hxk
          exact hd.1 (List.mem_map.mpr ⟨x, hx, by rw [hxk, hk]⟩)
        rw [if_pos hk, if_pos hk, this]; rfl
      · rw [if_neg hk, if_neg hk]
  rw [this map hd hset]
  cases PyDict.get k map <;> rfl

/-! ## Examples -/

/-- For examples: the parts are those of the slices. -/
theorem parts_slices {l a k b p v t : Str} (h : Parts U l a k b p v t) : ∃ sl, parseLine U l = some sl ∧ k = slice l sl.kstart sl.kstop ∧ v = slice l sl.vstart sl.vstop := by
  have c := cut_parts h []
  rw [List.append_nil] at c
  exact ⟨_, parse_parts h, c.2.1.symm, c.2.2.2.1.symm⟩

/-- A configuration file. -/
def sample : Str := "# settings\n#port = 5432 # the port\n  shared_buffers = '1''GB'junk more\nPort2=3\nport = 'x'\nport = 99".toList

/-- New settings. -/
def sampleMap : Map := [("port".toList, some "it's".toList), ("shared_buffers".toList, some "8".toList), ("port2".toList, none), ("new".toList, some "x y".toList)]

theorem sample_ok : UpdateOk Unicode.ascii sampleMap sample := by
  refine ⟨⟨by decide +kernel, by decide +kernel⟩, ?_, ?_⟩
  · have : ∀ e ∈ sampleMap, ∀ v ∈ e.2, '\n' ∉ v ∧ '\r' ∉ v := by decide +kernel
    intro k v h
    exact this _ h v rfl
  · intro l hl a s b p w t hp _
    obtain ⟨sl, h1, _, h3⟩ := parts_slices hp
    have : ∀ l ∈ readLines sample, ∀ sl ∈ parseLine Unicode.ascii l, '\n' ∉ slice l sl.vstart sl.vstop := by decide +kernel
    rw [h3]
    exact this l hl sl h1

example : update Unicode.ascii sampleMap sample =
    .ok "# settings\n#port = 5432 # the port\n  shared_buffers = '8' #more\n#Port2=3\nport = 'it''s'\n#port = 99\nnew = 'x y'".toList := by decide +kernel

example : get Unicode.ascii "port".toList none "# settings\n#port = 5432 # the port\n  shared_buffers = '8' #more\n#Port2=3\nport = 'it''s'\n#port = 99\nnew = 'x y'".toList = some "it's".toList := by
  have hu : update Unicode.ascii sampleMap sample = .ok "# settings\n#port = 5432 # the port\n  shared_buffers = '8' #more\n#Port2=3\nport = 'it''s'\n#port = 99\nnew = 'x y'".toList := by decide +kernel
  refine (C33_update_get sampleMap sample _ sample_ok hu "port".toList "it's".toList (by decide +kernel) ?_).1
  rintro x hx s ⟨a, b, p, w, t, hp⟩ hs
  obtain ⟨sl, h1, h2, _⟩ := parts_slices hp
  have : ∀ l ∈ readLines sample, ∀ sl ∈ parseLine Unicode.ascii l, Unicode.ascii.lower (slice l sl.kstart sl.kstop) = Unicode.ascii.lower "port".toList → slice l sl.kstart sl.kstop = "port".toList := by decide +kernel
  rw [h2]; exact this x hx sl h1 (by rw [← h2]; exact hs)

/-- Finding: the file is edited whatever the case of the key in it, but read with the case given. -/
theorem C33_case : update Unicode.ascii [("port".toList, some "2".toList)] "Port = 1\n".toList = .ok "Port = '2'\n".toList ∧
    get Unicode.ascii "port".toList none "Port = '2'\n".toList = none := by decide +kernel

/-- Finding: keys with a dot, as extensions have them, are written and never read, and appended again by every update. -/
theorem C33_dotted : update Unicode.ascii [("a.b".toList, some "2".toList)] "a.b = '1'\n".toList = .ok "a.b = '1'\na.b = '2'".toList ∧
    get Unicode.ascii "a.b".toList none "a.b = '1'\na.b = '2'".toList = none := by decide +kernel

/-- Finding: nothing can be set in an empty file. -/
theorem C33_empty_file : update Unicode.ascii [("port".toList, some "2".toList)] [] = .error .indexError := by decide +kernel

/-- Finding: when the line to be edited has a quote that is not closed, its newline is lost, and with it the next setting. -/
theorem C33_unclosed : update Unicode.ascii [("port".toList, some "2".toList)] "port = 'x\nfsync = off\n".toList = .ok "port = '2'fsync = off\n".toList ∧
    get Unicode.ascii "fsync".toList none "port = '2'fsync = off\n".toList = none ∧ get Unicode.ascii "fsync".toList none "port = 'x\nfsync = off\n".toList = some "off".toList ∧
    get Unicode.ascii "port".toList none "port = '2'fsync = off\n".toList = some "2'fsyn".toList := by decide +kernel

example : ∃ L, writeConfig [("a".toList, "1".toList), ("b".toList, "'x y'".toList)] none = .ok L ∧ PyDict.get "b".toList (readConfig Unicode.ascii (fun _ => true) L) = some "x y".toList := by
  obtain ⟨L, h1, h2⟩ := C33_write_read (U := Unicode.ascii) [("a".toList, "1".toList), ("b".toList, "'x y'".toList)] (by decide +kernel) (by decide +kernel) (by
    intro e he
    have h0 : ∀ c, (['\n'] : Str).head? = some c → Unicode.ascii.isSpace c = true ∨ c = '#' := by
      intro c hc; simp at hc; subst hc; left; decide
    simp at he
    rcases he with rfl | rfl
    · exact ⟨.plain (by decide) (by decide) (by decide) (.stop h0), by decide⟩
    · exact ⟨value_quoted "x y".toList _ h0, by decide⟩) "b".toList
  exact ⟨L, h1, by rw [h2]; decide +kernel⟩

end PG.Props.ConfigFile
