import Verif.Proofs.ConfigFile
import Verif.Proofs.Element3c
/-!
# What becomes of each line
-/
namespace PG.Proofs.ConfigFile
open PG PG.PyStr PG.ConfigFile PG.Spec.ConfigFile

variable {U : Unicode}

/-! ## Lists and dictionaries -/

theorem lineAt_set (L : List Str) (i j : Nat) (x : Str) (h : i < L.length) : lineAt (L.set i x) j = if i = j then x else lineAt L j := by
  unfold lineAt
  rw [List.getD_eq_getElem?_getD, List.getD_eq_getElem?_getD, List.getElem?_set]
  by_cases e : i = j
  · subst e; simp [h]
  · simp [e]

theorem mem_keys_set {κ β : Type} [DecidableEq κ] (k : κ) (v : β) : ∀ (d : List (κ × β)) (x : κ), x ∈ (PyDict.set k v d).map Prod.fst ↔ x = k ∨ x ∈ d.map Prod.fst
  | [], x => by simp [PyDict.set]
  | e :: d, x => by
    rw [PyDict.set]
    by_cases h : e.1 = k
    · rw [if_pos h]; simp [h]
    · rw [if_neg h, List.map_cons, List.mem_cons, mem_keys_set k v d x, List.map_cons, List.mem_cons]
      constructor
      · rintro (h | h | h)
        · exact .inr (.inl h)
        · exact .inl h
        · exact .inr (.inr h)
      · rintro (h | h | h)
        · exact .inr (.inl h)
        · exact .inl h
        · exact .inr (.inr h)

theorem nodup_set {κ β : Type} [DecidableEq κ] (k : κ) (v : β) : ∀ (d : List (κ × β)), (d.map Prod.fst).Nodup → ((PyDict.set k v d).map Prod.fst).Nodup
  | [], _ => by simp [PyDict.set]
  | e :: d, h => by
    rw [List.map_cons, List.nodup_cons] at h
    rw [PyDict.set]
    by_cases he : e.1 = k
    · rw [if_pos he, List.map_cons, List.nodup_cons, ← he]; exact h
    · rw [if_neg he, List.map_cons, List.nodup_cons, mem_keys_set]
      exact ⟨by rintro (h2 | h2); exact he h2; exact h.1 h2, nodup_set k v d h.2⟩

theorem set_new {κ β : Type} [DecidableEq κ] (k : κ) (v : β) : ∀ (d : List (κ × β)), k ∉ d.map Prod.fst → PyDict.set k v d = d ++ [(k, v)]
  | [], _ => rfl
  | e :: d, h => by
    rw [List.map_cons, List.mem_cons, not_or] at h
    rw [PyDict.set, if_neg (Ne.symm h.1), set_new k v d h.2]; rfl

/-! ## Candidates -/

/-- The key of a line, in lower case. -/
def keyOf (U : Unicode) (l : Str) : Option Str := (parseLine U l).map fun sl => U.lower (slice l sl.kstart sl.kstop)

/-- The candidates for a key among numbered lines. -/
def candsFor (U : Unicode) (ck : Str) (xs : List (Nat × Str)) : List Cand :=
  xs.filterMap fun il => (parseLine U il.2).bind fun sl => if U.lower (slice il.2 sl.kstart sl.kstop) = ck then some (il.1, sl) else none

/-- What the list of candidates becomes with more of them. -/
def more (o : Option (List Cand)) (n : List Cand) : Option (List Cand) := if n = [] then o else some (o.getD [] ++ n)

theorem more_more (o : Option (List Cand)) (a b : List Cand) : more (more o a) b = more o (a ++ b) := by
  unfold more
  by_cases ha : a = [] <;> by_cases hb : b = [] <;> simp [ha, hb]

theorem cands_fold (pk : List (Str × (Str × Option Str))) (ck : Str) : ∀ (xs : List (Nat × Str)) (acc : List (Str × List Cand)),
    PyDict.get ck (xs.foldl (candStep U pk) acc) = if (PyDict.get ck pk).isSome then more (PyDict.get ck acc) (candsFor U ck xs) else PyDict.get ck acc
  | [], acc => by simp [candsFor, more]
  | x :: xs, acc => by
    rw [List.foldl_cons, cands_fold pk ck xs]
    have e : candsFor U ck (x :: xs) = candsFor U ck [x] ++ candsFor U ck xs := by
      unfold candsFor; rw [← List.filterMap_append]; rfl
    have key : PyDict.get ck (candStep U pk acc x) = if (PyDict.get ck pk).isSome then more (PyDict.get ck acc) (candsFor U ck [x]) else PyDict.get ck acc := by
      unfold candStep
      cases hp : parseLine U x.2 with
      | none => simp [candsFor, hp, more]
      | some sl =>
        dsimp only
        by_cases hk : U.lower (slice x.2 sl.kstart sl.kstop) = ck
        · rw [hk]
          cases hg : PyDict.get ck pk with
          | none => simp
          | some y =>
            dsimp only
            rw [PyDict.get_set, if_pos rfl]
            simp [candsFor, hp, hk, more]
        · have hn : candsFor U ck [x] = [] := by simp [candsFor, hp, hk]
          rw [hn]
          cases hg : PyDict.get (U.lower (slice x.2 sl.kstart sl.kstop)) pk with
          | none => simp [more]
          | some y =>
            dsimp only
            rw [PyDict.get_set, if_neg hk]; simp [more]
    rw [key, e]
    by_cases h : (PyDict.get ck pk).isSome = true
    · rw [if_pos h, if_pos h, if_pos h, more_more]
    · rw [if_neg h, if_neg h, if_neg h]

theorem cands_nodup (pk : List (Str × (Str × Option Str))) : ∀ (xs : List (Nat × Str)) (acc : List (Str × List Cand)), (acc.map Prod.fst).Nodup →
    ((xs.foldl (candStep U pk) acc).map Prod.fst).Nodup
  | [], acc, h => h
  | x :: xs, acc, h => by
    rw [List.foldl_cons]
    refine cands_nodup pk xs _ ?_
    unfold candStep
    split
    · exact h
    · dsimp only; split
      · exact h
      · exact nodup_set _ _ _ h

theorem mem_numbered : ∀ (L : List Str) (i n : Nat) (l : Str), (n, l) ∈ numbered i L ↔ i ≤ n ∧ L[n - i]? = some l
  | [], i, n, l => by simp [numbered]
  | x :: L, i, n, l => by
    rw [numbered, List.mem_cons, mem_numbered L (i + 1) n l]
    constructor
    · rintro (h | ⟨h1, h2⟩)
      · cases h; simp
      · refine ⟨by omega, ?_⟩
        rw [show n - i = (n - (i + 1)) + 1 by omega, List.getElem?_cons_succ]; exact h2
    · rintro ⟨h1, h2⟩
      by_cases e : n = i
      · subst e; simp at h2; left; rw [h2]
      · right
        rw [show n - i = (n - (i + 1)) + 1 by omega, List.getElem?_cons_succ] at h2
        exact ⟨by omega, h2⟩

theorem numbered_sorted : ∀ (L : List Str) (i : Nat), (numbered i L).Pairwise fun a b => a.1 < b.1
  | [], _ => .nil
  | x :: L, i => by
    rw [numbered, List.pairwise_cons]
    refine ⟨?_, numbered_sorted L (i + 1)⟩
    rintro ⟨n, l⟩ h
    rw [mem_numbered] at h
    show i < n; omega

/-- The candidates of the file. -/
def candsIn (U : Unicode) (ck : Str) (L : List Str) : List Cand := candsFor U ck (numbered 0 L)

theorem mem_candsIn {ck : Str} {L : List Str} {i : Nat} {sl : Slices} : (i, sl) ∈ candsIn U ck L ↔ i < L.length ∧ parseLine U (lineAt L i) = some sl ∧ keyOf U (lineAt L i) = some ck := by
  have at_eq : ∀ l, L[i]? = some l → lineAt L i = l := by
    intro l h; unfold lineAt; rw [List.getD_eq_getElem?_getD, h]; rfl
  unfold candsIn candsFor
  rw [List.mem_filterMap]
  constructor
  · rintro ⟨⟨n, l⟩, h1, h2⟩
    rw [mem_numbered] at h1
    rw [Option.bind_eq_some_iff] at h2
    obtain ⟨sl', h3, h4⟩ := h2
    split at h4
    · rename_i hk
      obtain ⟨rfl, rfl⟩ : n = i ∧ sl' = sl := by simpa using h4
      have h5 : L[n]? = some l := h1.2
      rw [at_eq l h5]
      refine ⟨(List.getElem?_eq_some_iff.mp h5).1, h3, ?_⟩
      unfold keyOf; rw [h3]; exact congrArg some hk
    · cases h4
  · rintro ⟨h1, h2, h3⟩
    have h4 : L[i]? = some (lineAt L i) := by
      unfold lineAt; rw [List.getD_eq_getElem?_getD, List.getElem?_eq_getElem h1]; rfl
    refine ⟨(i, lineAt L i), (mem_numbered _ _ _ _).mpr ⟨by omega, h4⟩, ?_⟩
    unfold keyOf at h3
    rw [h2] at h3
    dsimp only
    rw [h2]
    have := Option.some.inj h3
    simp [this]

theorem candsIn_sorted (ck : Str) (L : List Str) : (candsIn U ck L).Pairwise fun a b => a.1 < b.1 := by
  unfold candsIn candsFor
  rw [List.pairwise_filterMap]
  refine (numbered_sorted L 0).imp ?_
  intro a b h x hx y hy
  have f : ∀ (il : Nat × Str) (c : Cand), ((parseLine U il.2).bind fun sl => if U.lower (slice il.2 sl.kstart sl.kstop) = ck then some (il.1, sl) else none) = some c → c.1 = il.1 := by
    intro il c hc
    rw [Option.bind_eq_some_iff] at hc
    obtain ⟨sl, _, h2⟩ := hc
    split at h2
    · cases h2; rfl
    · cases h2
  rw [f a x hx, f b y hy]; exact h

/-- The dictionary of candidates. -/
theorem get_candidates (pk : List (Str × (Str × Option Str))) (L : List Str) (ck : Str) : PyDict.get ck (candidates U pk L) =
    if (PyDict.get ck pk).isSome ∧ candsIn U ck L ≠ [] then some (candsIn U ck L) else none := by
  unfold candidates
  rw [cands_fold]
  unfold more candsIn
  by_cases h : (PyDict.get ck pk).isSome = true <;> by_cases h2 : candsFor U ck (numbered 0 L) = [] <;> simp [h, h2, PyDict.get_nil]

/-! ## One key -/

/-- A line that loses. -/
def lost (l : Str) (sl : Slices) : Str := if commented l sl then l else '#' :: l

/-- The score of a candidate. -/
def score (U : Unicode) (v : Str) (l : Str) (sl : Slices) : Nat := (if commented l sl then 0 else 1) + (if unquote U (slice l sl.vstart sl.vstop) = v then 2 else 0)

/-- What becomes of the candidates of a key. -/
def Outcome (U : Unicode) (val : Option Str) (cs : List Cand) (M M' : List Str) : Prop :=
  match val with
  | none => ∀ c ∈ cs, lineAt M' c.1 = lost (lineAt M c.1) c.2
  | some v => ∃ w ∈ cs, lineAt M' w.1 = rewritten U v (commented (lineAt M w.1) w.2) w.2 (lineAt M w.1) ∧
      (∀ c ∈ cs, c.1 ≠ w.1 → lineAt M' c.1 = lost (lineAt M c.1) c.2) ∧ ∀ c ∈ cs, score U v (lineAt M c.1) c.2 ≤ score U v (lineAt M w.1) w.2

theorem commentOut_fold : ∀ (cs : List Cand) (M : List Str), cs.Pairwise (fun a b => a.1 < b.1) → (∀ c ∈ cs, c.1 < M.length) →
    (cs.foldl commentOut M).length = M.length ∧ (∀ c ∈ cs, lineAt (cs.foldl commentOut M) c.1 = lost (lineAt M c.1) c.2) ∧
    ∀ j, (∀ c ∈ cs, c.1 ≠ j) → lineAt (cs.foldl commentOut M) j = lineAt M j
  | [], M, _, _ => by simp
  | c :: cs, M, hs, hl => by
    rw [List.pairwise_cons] at hs
    rw [List.foldl_cons]
    have hc := hl c List.mem_cons_self
    have h1 : (commentOut M c).length = M.length := by unfold commentOut; split <;> simp
    have h2 : ∀ j, lineAt (commentOut M c) j = if c.1 = j then lost (lineAt M c.1) c.2 else lineAt M j := by
      intro j
      unfold commentOut lost
      split
      · split
        · rename_i e; rw [e]
        · rfl
      · rw [lineAt_set _ _ _ _ hc]
    obtain ⟨i1, i2, i3⟩ := commentOut_fold cs (commentOut M c) hs.2 (fun d hd => by rw [h1]; exact hl d (List.mem_cons_of_mem _ hd))
    refine ⟨by rw [i1, h1], ?_, ?_⟩
    · intro d hd
      rcases List.mem_cons.mp hd with rfl | hd
      · rw [i3 _ (fun x hx => by have := hs.1 x hx; omega), h2, if_pos rfl]
      · rw [i2 d hd, h2, if_neg (by have := hs.1 d hd; omega)]
    · intro j hj
      rw [i3 j (fun x hx => hj x (List.mem_cons_of_mem _ hx)), h2, if_neg (hj c List.mem_cons_self)]

/-- The state of the election: the candidates looked at, the file, the winner. -/
structure Elected (U : Unicode) (v : Str) (M : List Str) (done : List Cand) (M' : List Str) (w : Winner) : Prop where
  len : M'.length = M.length
  mem : w.cl ∈ done
  com : w.commented = commented (lineAt M w.cl.1) w.cl.2
  sc : w.score = score U v (lineAt M w.cl.1) w.cl.2
  best : ∀ c ∈ done, score U v (lineAt M c.1) c.2 ≤ w.score
  kept : lineAt M' w.cl.1 = lineAt M w.cl.1
  losers : ∀ c ∈ done, c.1 ≠ w.cl.1 → lineAt M' c.1 = lost (lineAt M c.1) c.2
  rest : ∀ j, (∀ c ∈ done, c.1 ≠ j) → lineAt M' j = lineAt M j

theorem sorted_unique : ∀ {l : List Cand}, l.Pairwise (fun a b => a.1 < b.1) → ∀ {a b : Cand}, a ∈ l → b ∈ l → a.1 = b.1 → a = b
  | c :: l, h, a, b, ha, hb, e => by
    rw [List.pairwise_cons] at h
    rcases List.mem_cons.mp ha with ha | ha
    · rcases List.mem_cons.mp hb with hb | hb
      · rw [ha, hb]
      · have := h.1 b hb; rw [ha] at e; omega
    · rcases List.mem_cons.mp hb with hb | hb
      · have := h.1 a ha; rw [hb] at e; omega
      · exact sorted_unique h.2 ha hb e

theorem elect_step (v : Str) (M : List Str) (done : List Cand) (M' : List Str) (w : Winner) (c : Cand) (h : Elected U v M done M' w) (hd : ∀ d ∈ done, d.1 < c.1)
    (hl : ∀ d ∈ done, d.1 < M.length) (hc : c.1 < M.length) (hp : done.Pairwise fun a b => a.1 < b.1) :
    ∃ M'' w', elect U v (M', some w) c = (M'', some w') ∧ Elected U v M (done ++ [c]) M'' w' := by
  have hcl : lineAt M' c.1 = lineAt M c.1 := h.rest c.1 (fun d hdd => by have := hd d hdd; omega)
  have hw : w.cl.1 < c.1 := hd _ h.mem
  have hwl : w.cl.1 < M'.length := by rw [h.len]; exact hl _ h.mem
  have hcM : c.1 < M'.length := by rw [h.len]; exact hc
  unfold elect
  dsimp only
  rw [hcl]
  have es : (if commented (lineAt M c.1) c.2 = true then 0 else 1) + (if unquote U (slice (lineAt M c.1) c.2.vstart c.2.vstop) = v then 2 else 0) = score U v (lineAt M c.1) c.2 := rfl
  rw [es]
  by_cases hs : w.score < score U v (lineAt M c.1) c.2
  · rw [if_pos hs]
    refine ⟨_, _, rfl, ?_⟩
    have hM : ∀ j, lineAt (if w.commented = false then M'.set w.cl.1 ('#' :: lineAt M' w.cl.1) else M') j = if w.cl.1 = j then lost (lineAt M w.cl.1) w.cl.2 else lineAt M' j := by
      intro j
      unfold lost
      rw [← h.com]
      cases hwc : w.commented with
      | false =>
        rw [if_pos rfl, lineAt_set _ _ _ _ hwl, h.kept]
        simp
      | true =>
        rw [if_neg (by decide)]
        split
        · rename_i e; rw [← e, h.kept]; simp
        · rfl
    constructor
    · split
      · rw [List.length_set, h.len]
      · exact h.len
    · simp
    · rfl
    · rfl
    · intro d hdd
      rw [List.mem_append] at hdd
      rcases hdd with hdd | hdd
      · have := h.best d hdd; dsimp only; omega
      · simp at hdd; subst hdd; exact Nat.le_refl _
    · dsimp only; rw [hM, if_neg (by omega), hcl]
    · intro d hdd hne
      rw [List.mem_append] at hdd
      rcases hdd with hdd | hdd
      · rw [hM]
        split
        · rename_i e
          rw [sorted_unique hp h.mem hdd e]
        · rename_i e; exact h.losers d hdd (fun x => e x.symm)
      · simp at hdd; subst hdd; exact absurd rfl hne
    · intro j hj
      rw [hM, if_neg (hj w.cl (by simp [h.mem]))]
      exact h.rest j (fun d hdd => hj d (by simp [hdd]))
  · rw [if_neg hs]
    have hM : ∀ j, lineAt (if commented (lineAt M c.1) c.2 = false then M'.set c.1 ('#' :: lineAt M c.1) else M') j = if c.1 = j then lost (lineAt M c.1) c.2 else lineAt M' j := by
      intro j
      unfold lost
      cases hwc : commented (lineAt M c.1) c.2 with
      | false =>
        rw [if_pos rfl, lineAt_set _ _ _ _ hcM]
        simp
      | true =>
        rw [if_neg (by decide)]
        split
        · rename_i e; rw [← e, hcl]; simp
        · rfl
    have key : ∃ M'', (if commented (lineAt M c.1) c.2 = false then (M'.set c.1 ('#' :: lineAt M c.1), some w) else (M', some w)) = (M'', some w) ∧ M''.length = M.length ∧
        ∀ j, lineAt M'' j = if c.1 = j then lost (lineAt M c.1) c.2 else lineAt M' j := by
      refine ⟨_, ?_, ?_, hM⟩
      · split <;> rfl
      · split
        · rw [List.length_set, h.len]
        · exact h.len
    obtain ⟨M'', e, hl2, hM''⟩ := key
    refine ⟨M'', w, e, ?_⟩
    constructor
    · exact hl2
    · simp [h.mem]
    · exact h.com
    · exact h.sc
    · intro d hdd
      rw [List.mem_append] at hdd
      rcases hdd with hdd | hdd
      · exact h.best d hdd
      · simp at hdd; subst hdd; omega
    · rw [hM'', if_neg (by omega), h.kept]
    · intro d hdd hne
      rw [List.mem_append] at hdd
      rcases hdd with hdd | hdd
      · have := hd d hdd
        rw [hM'', if_neg (by omega)]; exact h.losers d hdd hne
      · simp at hdd; subst hdd; rw [hM'', if_pos rfl]
    · intro j hj
      rw [hM'', if_neg (hj c (by simp))]
      exact h.rest j (fun d hdd => hj d (by simp [hdd]))

theorem elect_fold (v : Str) (M : List Str) : ∀ (cs done : List Cand) (M' : List Str) (w : Winner), Elected U v M done M' w → (done ++ cs).Pairwise (fun a b => a.1 < b.1) →
    (∀ d ∈ done ++ cs, d.1 < M.length) → ∃ M'' w', cs.foldl (elect U v) (M', some w) = (M'', some w') ∧ Elected U v M (done ++ cs) M'' w'
  | [], done, M', w, h, _, _ => ⟨M', w, rfl, by rw [List.append_nil]; exact h⟩
  | c :: cs, done, M', w, h, hp, hl => by
    have hp' := hp
    rw [List.pairwise_append] at hp
    obtain ⟨M1, w1, e1, h1⟩ := elect_step v M done M' w c h (fun d hd => hp.2.2 d hd c List.mem_cons_self) (fun d hd => hl d (by simp [hd])) (hl c (by simp)) hp.1
    rw [List.foldl_cons, e1]
    have e2 : done ++ c :: cs = done ++ [c] ++ cs := by simp
    rw [e2] at hp' hl ⊢
    exact elect_fold v M cs (done ++ [c]) M1 w1 h1 hp' hl

/-- What `alterKey` does. -/
theorem alterKey_spec (val : Option Str) (M : List Str) (cs : List Cand) (hne : cs ≠ []) (hp : cs.Pairwise fun a b => a.1 < b.1) (hl : ∀ c ∈ cs, c.1 < M.length) :
    (alterKey U val M cs).length = M.length ∧ Outcome U val cs M (alterKey U val M cs) ∧ ∀ j, (∀ c ∈ cs, c.1 ≠ j) → lineAt (alterKey U val M cs) j = lineAt M j := by
  cases val with
  | none => exact commentOut_fold cs M hp hl
  | some v =>
    cases cs with
    | nil => exact absurd rfl hne
    | cons c cs =>
      have h0 : Elected U v M [c] M ⟨score U v (lineAt M c.1) c.2, commented (lineAt M c.1) c.2, c⟩ := by
        constructor
        · rfl
        · simp
        · rfl
        · rfl
        · intro d hd; simp at hd; subst hd; exact Nat.le_refl _
        · rfl
        · intro d hd hn; simp at hd; subst hd; exact absurd rfl hn
        · intro j _; rfl
      obtain ⟨M', w, e, h⟩ := elect_fold v M cs [c] M _ h0 hp hl
      have e2 : alterKey U (some v) M (c :: cs) = M'.set w.cl.1 (rewritten U v w.commented w.cl.2 (lineAt M' w.cl.1)) := by
        unfold alterKey
        have : (c :: cs).foldl (elect U v) (M, none) = (M', some w) := e
        dsimp only
        rw [this]; rfl
      have hwl : w.cl.1 < M'.length := by rw [h.len]; exact hl _ h.mem
      rw [e2]
      refine ⟨by rw [List.length_set, h.len], ⟨w.cl, h.mem, ?_, ?_, ?_⟩, ?_⟩
      · rw [lineAt_set _ _ _ _ hwl, if_pos rfl, h.kept, h.com]
      · intro d hd hn
        rw [lineAt_set _ _ _ _ hwl, if_neg (Ne.symm hn)]; exact h.losers d hd hn
      · intro d hd; rw [← h.sc]; exact h.best d hd
      · intro j hj
        rw [lineAt_set _ _ _ _ hwl, if_neg (hj _ h.mem)]; exact h.rest j hj

/-! ## All keys -/

theorem Outcome.congr {val : Option Str} {cs : List Cand} {M M' N N' : List Str} (h : Outcome U val cs M M') (h1 : ∀ c ∈ cs, lineAt N c.1 = lineAt M c.1) (h2 : ∀ c ∈ cs, lineAt N' c.1 = lineAt M' c.1) :
    Outcome U val cs N N' := by
  cases val with
  | none => intro c hc; rw [h1 c hc, h2 c hc]; exact h c hc
  | some v =>
    obtain ⟨w, hw, a, b, d⟩ := h
    refine ⟨w, hw, ?_, ?_, ?_⟩
    · rw [h1 w hw, h2 w hw]; exact a
    · intro c hc hn; rw [h1 c hc, h2 c hc]; exact b c hc hn
    · intro c hc; rw [h1 c hc, h1 w hw]; exact d c hc

theorem alterAll_spec (pk : List (Str × (Str × Option Str))) : ∀ (es : List (Str × List Cand)) (M : List Str),
    (∀ e ∈ es, e.2 ≠ [] ∧ e.2.Pairwise (fun a b => a.1 < b.1) ∧ ∀ c ∈ e.2, c.1 < M.length) →
    es.Pairwise (fun x y => ∀ c ∈ x.2, ∀ d ∈ y.2, c.1 ≠ d.1) →
    (alterAll U pk es M).length = M.length ∧ (∀ e ∈ es, Outcome U ((PyDict.get e.1 pk).bind Prod.snd) e.2 M (alterAll U pk es M)) ∧
    ∀ j, (∀ e ∈ es, ∀ c ∈ e.2, c.1 ≠ j) → lineAt (alterAll U pk es M) j = lineAt M j
  | [], M, _, _ => by simp [alterAll]
  | (k, cs) :: es, M, h, hd => by
    rw [List.pairwise_cons] at hd
    obtain ⟨h1, h2, h3⟩ := h (k, cs) List.mem_cons_self
    obtain ⟨a1, a2, a3⟩ := alterKey_spec (U := U) ((PyDict.get k pk).bind Prod.snd) M cs h1 h2 h3
    rw [alterAll]
    generalize hM1 : alterKey U ((PyDict.get k pk).bind Prod.snd) M cs = M1 at a1 a2 a3
    obtain ⟨b1, b2, b3⟩ := alterAll_spec pk es M1 (fun e he => by rw [a1]; exact h e (List.mem_cons_of_mem _ he)) hd.2
    refine ⟨by rw [b1, a1], ?_, ?_⟩
    · intro e he
      rcases List.mem_cons.mp he with rfl | he
      · exact a2.congr (fun _ _ => rfl) (fun c hc => b3 c.1 (fun e he d hdd => Ne.symm (hd.1 e he c hc d hdd)))
      · exact (b2 e he).congr (fun c hc => (a3 c.1 (fun d hdd => hd.1 e he d hdd c hc)).symm) (fun _ _ => rfl)
    · intro j hj
      rw [b3 j (fun e he => hj e (List.mem_cons_of_mem _ he)), a3 j (hj (k, cs) List.mem_cons_self)]

/-! ## New lines -/

/-- The entries of keys without candidates. -/
def newEntries (cands : List (Str × List Cand)) (pk : List (Str × (Str × Option Str))) : List (Str × Str × Str) :=
  pk.filterMap fun e =>
    match PyDict.get e.1 cands, e.2.2 with
    | none, some v => some (e.1, e.2.1, v)
    | _, _ => none

/-- The line of a new entry. -/
def newLine (e : Str × Str × Str) : Str := e.2.1 ++ " = ".toList ++ quoted e.2.2

/-- The lines to be appended. -/
def newLines (cands : List (Str × List Cand)) (pk : List (Str × (Str × Option Str))) : List Str := (newEntries cands pk).map newLine

theorem mem_newEntries {cands : List (Str × List Cand)} {pk : List (Str × (Str × Option Str))} {k key v : Str} :
    (k, key, v) ∈ newEntries cands pk ↔ (k, key, some v) ∈ pk ∧ PyDict.get k cands = none := by
  unfold newEntries
  rw [List.mem_filterMap]
  constructor
  · rintro ⟨⟨k', key', val⟩, h1, h2⟩
    dsimp only at h2
    cases hg : PyDict.get k' cands with
    | some _ => rw [hg] at h2; cases h2
    | none =>
      cases val with
      | none => rw [hg] at h2; cases h2
      | some w => rw [hg] at h2; cases h2; exact ⟨h1, hg⟩
  · rintro ⟨h1, h2⟩
    exact ⟨_, h1, by dsimp only; rw [h2]⟩

theorem newEntries_nodup (cands : List (Str × List Cand)) {pk : List (Str × (Str × Option Str))} (h : (pk.map Prod.fst).Nodup) : (newEntries cands pk).Pairwise fun a b => a.1 ≠ b.1 := by
  unfold newEntries
  rw [List.pairwise_filterMap]
  have : pk.Pairwise fun a b => a.1 ≠ b.1 := List.pairwise_map.mp h
  refine this.imp ?_
  intro a b hab x hx y hy
  have f : ∀ (e : Str × (Str × Option Str)) (z : Str × Str × Str), (match PyDict.get e.1 cands, e.2.2 with | none, some v => some (e.1, e.2.1, v) | _, _ => none) = some z → z.1 = e.1 := by
    intro e z hz
    split at hz
    · cases hz; rfl
    · cases hz
  rw [f a x hx, f b y hy]; exact hab

/-- The same lines, up to newlines where they are missing. -/
def Nl (A B : List Str) : Prop := B.length = A.length ∧ ∀ i, lineAt B i = lineAt A i ∨ (lineAt B i = lineAt A i ++ ['\n'] ∧ (lineAt A i).getLast? ≠ some '\n' ∧ i < A.length)

theorem Nl.rfl (A : List Str) : Nl A A := ⟨Eq.refl _, fun _ => .inl (Eq.refl _)⟩

theorem Nl.trans {A B C : List Str} (h1 : Nl A B) (h2 : Nl B C) : Nl A C := by
  refine ⟨h2.1.trans h1.1, ?_⟩
  intro i
  rcases h1.2 i with a | ⟨a, b, c⟩
  · rcases h2.2 i with d | ⟨d, e, f⟩
    · exact .inl (d.trans a)
    · right; rw [← a]; exact ⟨d, e, by rw [← h1.1]; exact f⟩
  · rcases h2.2 i with d | ⟨d, e, f⟩
    · exact .inr ⟨d.trans a, b, c⟩
    · rw [a] at e; simp at e

theorem lineAt_append (A B : List Str) (i : Nat) : lineAt (A ++ B) i = if i < A.length then lineAt A i else lineAt B (i - A.length) := by
  unfold lineAt
  rw [List.getD_eq_getElem?_getD, List.getElem?_append]
  split <;> rw [List.getD_eq_getElem?_getD]

theorem Nl.append {A B : List Str} (h : Nl A B) (C : List Str) : Nl (A ++ C) (B ++ C) := by
  refine ⟨by rw [List.length_append, List.length_append, h.1], ?_⟩
  intro i
  rw [lineAt_append, lineAt_append, h.1]
  split
  · rename_i hi
    rcases h.2 i with a | ⟨a, b, c⟩
    · exact .inl a
    · exact .inr ⟨a, b, by rw [List.length_append]; omega⟩
  · exact .inl (Eq.refl _)

theorem endLast_cases (L : List Str) : (L = [] ∧ endLast L = .error .indexError) ∨ (∃ A l, L = A ++ [l] ∧ endLast L = .ok (A ++ [if l.getLast? = some '\n' then l else l ++ ['\n']])) := by
  rcases List.eq_nil_or_concat L with rfl | ⟨A, l, rfl⟩
  · exact .inl ⟨Eq.refl _, Eq.refl _⟩
  · refine .inr ⟨A, l, by simp, ?_⟩
    unfold endLast
    rw [List.concat_eq_append, List.getLast?_concat]
    dsimp only
    split
    · simp
    · simp

theorem endLast_nl {L R : List Str} (h : endLast L = .ok R) : Nl L R := by
  rcases endLast_cases L with ⟨e, h2⟩ | ⟨A, l, e, h2⟩
  · rw [h2] at h; cases h
  · rw [h2] at h; cases h
    subst e
    refine ⟨by simp, ?_⟩
    intro i
    rw [lineAt_append, lineAt_append]
    split
    · exact .inl (Eq.refl _)
    · rename_i hi
      by_cases h0 : i - A.length = 0
      · rw [h0]
        show (if l.getLast? = some '\n' then l else l ++ ['\n']) = l ∨ ((if l.getLast? = some '\n' then l else l ++ ['\n']) = l ++ ['\n'] ∧ l.getLast? ≠ some '\n' ∧ _)
        split
        · exact .inl (Eq.refl _)
        · rename_i h3; exact .inr ⟨Eq.refl _, h3, by simp; omega⟩
      · obtain ⟨m, hm⟩ := Nat.exists_eq_succ_of_ne_zero h0
        rw [hm]; exact .inl (Eq.refl _)

theorem append_spec (cands : List (Str × List Cand)) : ∀ (pk : List (Str × (Str × Option Str))) (L R : List Str), appendMissing cands pk L = .ok R → Nl (L ++ newLines cands pk) R
  | [], L, R, h => by cases h; simp [newLines, newEntries]; exact Nl.rfl L
  | (k, key, val) :: rest, L, R, h => by
    have e : newLines cands ((k, key, val) :: rest) = newLines cands [(k, key, val)] ++ newLines cands rest := by
      unfold newLines newEntries; rw [← List.map_append, ← List.filterMap_append]; rfl
    have hcase : (PyDict.get k cands = none ∧ ∃ v, val = some v) ∨ (PyDict.get k cands ≠ none ∨ val = none) := by
      cases PyDict.get k cands <;> cases val <;> simp
    rcases hcase with ⟨hg, v, rfl⟩ | hx
    · have e2 : appendMissing cands ((k, key, some v) :: rest) L = (do let L1 ← endLast L; appendMissing cands rest (L1 ++ [key ++ " = ".toList ++ quoted v])) := by
        conv => lhs; unfold appendMissing
        rw [hg]
      rw [e2] at h
      rcases Element3.bind_eq_ok h with ⟨L1, h1, h2⟩
      have := append_spec cands rest _ R h2
      have e1 : newLines cands [(k, key, some v)] = [key ++ " = ".toList ++ quoted v] := by
        unfold newLines newEntries; simp [hg, newLine]
      rw [e, e1, ← List.append_assoc]
      exact Nl.trans (((endLast_nl h1).append _).append _) this
    · have e2 : appendMissing cands ((k, key, val) :: rest) L = appendMissing cands rest L := by
        conv => lhs; unfold appendMissing
        rcases hx with hx | rfl
        · cases hg : PyDict.get k cands with
          | none => exact absurd hg hx
          | some y => rfl
        · cases hg : PyDict.get k cands <;> rfl
      have e1 : newLines cands [(k, key, val)] = [] := by
        unfold newLines newEntries
        rw [List.map_eq_nil_iff, List.filterMap_cons, List.filterMap_nil]
        dsimp only
        rcases hx with hx | rfl
        · cases hg : PyDict.get k cands with
          | none => exact absurd hg hx
          | some y => rfl
        · cases hg : PyDict.get k cands <;> rfl
      rw [e2] at h
      rw [e, e1, List.nil_append]
      exact append_spec cands rest L R h

end PG.Proofs.ConfigFile
