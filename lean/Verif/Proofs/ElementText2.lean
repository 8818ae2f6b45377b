import Verif.Proofs.ElementText
/-! # Proofs for C81: texts, recursive objects, errors -/
namespace PG.Proofs.ElementText
open PG PG.PyStr PG.Installation PG.ElementText PG.Spec.ElementText

variable {U : Unicode} {heap : List Obj}

/-! ## Loops -/

def textOr (r : Except Ex Str) : Str := match r with | .ok t => t | .error _ => []

theorem each_ok {α : Type} {f : α → Except Ex Str} : ∀ {xs : List α} {ys : List Str}, each f xs = .ok ys → ys = xs.map (fun x => textOr (f x)) ∧ ∀ x ∈ xs, f x = .ok (textOr (f x))
  | [], ys, h => by cases h; exact ⟨rfl, fun _ h => by cases h⟩
  | x :: xs, ys, h => by
    rw [each] at h
    cases hx : f x with
    | error e => rw [hx] at h; cases h
    | ok y =>
      rw [hx] at h; dsimp only at h
      cases hs : each f xs with
      | error e => rw [hs] at h; cases h
      | ok zs =>
        rw [hs] at h; cases h
        obtain ⟨h1, h2⟩ := each_ok hs
        refine ⟨by rw [List.map_cons, hx, ← h1]; rfl, fun z hz => ?_⟩
        rcases List.mem_cons.1 hz with rfl | hz
        · rw [hx]; rfl
        · exact h2 z hz

theorem each_error {α β : Type} {f : α → Except Ex β} {e : Ex} : ∀ {xs : List α}, each f xs = .error e → ∃ x ∈ xs, f x = .error e
  | [], h => by cases h
  | x :: xs, h => by
    rw [each] at h
    cases hx : f x with
    | error e' => rw [hx] at h; cases h; exact ⟨x, by simp, hx⟩
    | ok y =>
      rw [hx] at h; dsimp only at h
      cases hs : each f xs with
      | error e' =>
        rw [hs] at h; cases h
        obtain ⟨z, hz, h⟩ := each_error hs
        exact ⟨z, by simp [hz], h⟩
      | ok zs => rw [hs] at h; cases h

theorem factors_ok {rec : Nat → Except Ex Str} : ∀ {fs : List (Str × Option Nat)} {ys : List (Str × Str)}, each (factorOf rec) fs = .ok ys →
    ys = fs.filterMap (fun f => f.2.map fun j => (f.1, textOr (rec j))) ∧ (∀ name, (name, none) ∉ fs) ∧ ∀ name j, (name, some j) ∈ fs → rec j = .ok (textOr (rec j))
  | [], ys, h => by cases h; exact ⟨rfl, (fun _ h => by cases h), (fun _ _ h => by cases h)⟩
  | (n, x) :: fs, ys, h => by
    rw [each] at h
    cases hx : factorOf rec (n, x) with
    | error e => rw [hx] at h; cases h
    | ok y =>
      rw [hx] at h; dsimp only at h
      cases hs : each (factorOf rec) fs with
      | error e => rw [hs] at h; cases h
      | ok zs =>
        rw [hs] at h; cases h
        obtain ⟨h1, h2, h3⟩ := factors_ok hs
        cases x with
        | none => cases hx
        | some j =>
          unfold factorOf at hx; dsimp only at hx
          cases hr : rec j with
          | error e => rw [hr] at hx; cases hx
          | ok t =>
            rw [hr] at hx; cases hx
            refine ⟨?_, fun name hm => ?_, fun name k hm => ?_⟩
            · rw [h1, List.filterMap_cons]; show _ = (n, textOr (rec j)) :: _; rw [hr]; rfl
            · rcases List.mem_cons.1 hm with hm | hm
              · cases hm
              · exact h2 name hm
            · rcases List.mem_cons.1 hm with hm | hm
              · cases hm; rw [hr]; rfl
              · exact h3 name k hm

/-! ## Texts -/

/-- What an element's formatting needs. -/
theorem format_element_ok {depth : Nat} {cov : List Nat} {i : Nat} {label metas factors text}
    (he : heap[i]? = some (.element label metas factors)) (h : format U heap (depth + 1) cov i = .ok text) :
    ∃ ms, metas = .ok ms ∧ (∀ name, (name, none) ∉ factors.drop 1) ∧
      (∀ name j, (name, some j) ∈ factors → format U heap depth (cov ++ [i]) j = .ok (textOr (format U heap depth (cov ++ [i]) j))) ∧
      primeText U heap (format U heap depth (cov ++ [i])) (ownText U label ms (others (fun j => textOr (format U heap depth (cov ++ [i]) j)) factors)) factors = .ok text := by
  rw [format] at h
  split at h
  · cases h
  rw [he] at h; dsimp only at h
  cases metas with
  | error e => cases h
  | ok ms =>
    dsimp only at h
    cases hs : each (factorOf (format U heap depth (cov ++ [i]))) (factors.drop 1) with
    | error e => rw [hs] at h; cases h
    | ok fs =>
      rw [hs] at h; dsimp only at h
      obtain ⟨h1, h2, h3⟩ := factors_ok hs
      refine ⟨ms, rfl, h2, fun name j hm => ?_, by rw [show others _ factors = fs from h1.symm]; exact h⟩
      cases factors with
      | nil => cases hm
      | cons f factors =>
        rcases List.mem_cons.1 hm with hf | hm
        · subst hf
          unfold primeText at h; dsimp only at h
          cases hr : format U heap depth (cov ++ [i]) j with
          | error e => rw [hr] at h; cases h
          | ok t => rfl
        · exact h3 name j hm

theorem labelled_iff (heap : List Obj) (j : Nat) : labelled heap j = true ↔ OwnLabel heap j := by
  unfold labelled OwnLabel
  cases heap[j]? with
  | none => simp
  | some o => cases o <;> simp

theorem describes (hU : Spaces U) : ∀ (depth : Nat) (cov : List Nat) (i : Nat) (text : Str), format U heap depth cov i = .ok text → Describes U heap i text
  | 0, _, _, _, h => by cases h
  | depth + 1, cov, i, text, h => by
    have h0 := h
    cases hi : heap[i]? with
    | none =>
      rw [format] at h; split at h
      · cases h
      rw [hi] at h; cases h; exact .nothing hi
    | some o =>
      cases o with
      | none =>
        rw [format] at h; split at h
        · cases h
        rw [hi] at h; cases h; exact .none hi
      | plain s =>
        rw [format] at h; split at h
        · cases h
        rw [hi] at h; dsimp only at h; subst h; exact .plain hi
      | set members =>
        rw [format] at h; split at h
        · cases h
        rw [hi] at h; dsimp only at h
        cases hs : each (format U heap depth []) members with
        | error e => rw [hs] at h; cases h
        | ok texts =>
          rw [hs] at h; dsimp only at h; cases h
          obtain ⟨h1, h2⟩ := each_ok hs
          refine .set (fun j => textOr (format U heap depth [] j)) hi (fun j hj => describes hU depth [] j _ (h2 j hj)) ?_
          rw [shown_own hU, h1]
          unfold setMetas setLabel
          rw [List.length_map, List.flatMap_map]
      | element label metas factors =>
        obtain ⟨ms, rfl, h2, h3, h4⟩ := format_element_ok hi h0
        refine .element (fun j => textOr (format U heap depth (cov ++ [i]) j)) hi (fun name j hm => describes hU depth _ j _ (h3 name j hm)) h2 ?_
        unfold primeText at h4
        split at h4
        · cases h4; rw [shown_own hU]; simp [below]
        · cases h4; rw [shown_nl, shown_own hU, shown_factor]; rfl
        · rename_i name j fs
          rw [h3 name j (by simp)] at h4; dsimp only at h4; cases h4
          rw [shown_nl, shown_own hU]
          unfold below
          dsimp only
          by_cases hl : labelled heap j = true
          · rw [if_pos hl, if_pos ((labelled_iff heap j).mp hl)]
          · rw [if_neg hl, if_neg (fun h => hl ((labelled_iff heap j).mpr h)), shown_factor]

/-! ## Objects that are composed of themselves -/

theorem factor_ok {depth : Nat} {cov : List Nat} {i j : Nat} {text : Str} (h : format U heap (depth + 1) cov i = .ok text) (hf : Factor heap i j) :
    ∃ t, format U heap depth (cov ++ [i]) j = .ok t := by
  obtain ⟨label, metas, factors, name, hi, hm⟩ := hf
  obtain ⟨_, _, _, h3, _⟩ := format_element_ok hi h
  exact ⟨_, h3 name j hm⟩

theorem ok_depth {cov : List Nat} {i : Nat} {text : Str} : ∀ {depth : Nat}, format U heap depth cov i = .ok text → ∃ d, depth = d + 1
  | 0, h => by cases h
  | d + 1, _ => ⟨d, rfl⟩

theorem ok_not_covered {depth : Nat} {cov : List Nat} {i : Nat} {text : Str} (h : format U heap depth cov i = .ok text) : i ∉ cov := by
  obtain ⟨d, rfl⟩ := ok_depth h
  intro hm
  rw [format, if_pos (by simpa using hm)] at h
  cases h

theorem ok_reaches {i j : Nat} (hr : Reaches heap i j) : ∀ {depth : Nat} {cov : List Nat} {text : Str}, format U heap depth cov i = .ok text →
    ∃ d c t, format U heap d c j = .ok t ∧ i ∈ c ∧ ∀ k ∈ cov, k ∈ c := by
  induction hr with
  | one hf =>
    intro depth cov text h
    obtain ⟨d, rfl⟩ := ok_depth h
    obtain ⟨t, ht⟩ := factor_ok h hf
    exact ⟨d, _, t, ht, by simp, fun k hk => by simp [hk]⟩
  | more hf _ ih =>
    intro depth cov text h
    obtain ⟨d, rfl⟩ := ok_depth h
    obtain ⟨t, ht⟩ := factor_ok h hf
    obtain ⟨d', c, t', h1, _, h3⟩ := ih ht
    exact ⟨d', c, t', h1, h3 _ (by simp), fun k hk => h3 k (by simp [hk])⟩

theorem ok_not_recursive {depth : Nat} {cov : List Nat} {i : Nat} {text : Str} (h : format U heap depth cov i = .ok text) : ¬ Recursive heap i := by
  rintro ⟨j, hij, hjj⟩
  have : ∃ d c t, format U heap d c j = .ok t := by
    rcases hij with rfl | hr
    · exact ⟨_, _, _, h⟩
    · obtain ⟨d, c, t, h, _⟩ := ok_reaches hr h; exact ⟨d, c, t, h⟩
  obtain ⟨d, c, t, h⟩ := this
  obtain ⟨d', c', t', h', hm, _⟩ := ok_reaches hjj h
  exact ok_not_covered h' hm

/-- No sets of elements. -/
def NoSets (heap : List Obj) : Prop := ∀ (i : Nat) (members : List Nat), heap[i]? ≠ some (Obj.set members)

/-- `str()` and `_e_metas` do not raise, and the attributes are there. -/
def Sound (heap : List Obj) : Prop :=
  (∀ (i : Nat) (s : Except Ex Str), heap[i]? = some (Obj.plain s) → ∃ t, s = .ok t) ∧
  ∀ (i : Nat) label metas factors, heap[i]? = some (Obj.element label metas factors) → (∃ ms, metas = .ok ms) ∧ ∀ name, (name, none) ∉ factors.drop 1

theorem factorOf_error {rec : Nat → Except Ex Str} {f : Str × Option Nat} {e : Ex} (h : factorOf rec f = .error e) (hf : f.2 ≠ none) : ∃ j, f.2 = some j ∧ rec j = .error e := by
  unfold factorOf at h
  cases hx : f.2 with
  | none => exact absurd hx hf
  | some j =>
    rw [hx] at h; dsimp only at h
    cases hr : rec j with
    | error e' => rw [hr] at h; cases h; exact ⟨j, rfl, hr⟩
    | ok t => rw [hr] at h; cases h

/-- Where an exception comes from. -/
theorem format_error (hn : NoSets heap) (hs : Sound heap) {depth : Nat} {cov : List Nat} {i : Nat} {e : Ex} (h : format U heap (depth + 1) cov i = .error e) :
    (e = .recursiveFactor ∧ i ∈ cov) ∨ (i ∉ cov ∧ i < heap.length ∧ ∃ j, Factor heap i j ∧ format U heap depth (cov ++ [i]) j = .error e) := by
  rw [format] at h
  by_cases hc : cov.contains i = true
  · rw [if_pos hc] at h; cases h; exact .inl ⟨rfl, by simpa using hc⟩
  rw [if_neg hc] at h
  refine .inr ⟨by simpa using hc, ?_⟩
  cases hi : heap[i]? with
  | none => rw [hi] at h; cases h
  | some o =>
    refine ⟨(List.getElem?_eq_some_iff.1 hi).1, ?_⟩
    rw [hi] at h
    cases o with
    | none => cases h
    | plain s => obtain ⟨t, rfl⟩ := hs.1 i s hi; cases h
    | set members => exact absurd hi (hn i members)
    | element label metas factors =>
      obtain ⟨⟨ms, rfl⟩, hp⟩ := hs.2 i label metas factors hi
      dsimp only at h
      cases hx : each (factorOf (format U heap depth (cov ++ [i]))) (factors.drop 1) with
      | error e' =>
        rw [hx] at h; cases h
        obtain ⟨f, hf, hfe⟩ := each_error hx
        obtain ⟨n, v⟩ := f
        obtain ⟨j, hj, he⟩ := factorOf_error hfe (fun hv => hp n (by dsimp only at hv; rw [← hv]; exact hf))
        dsimp only at hj; subst hj
        exact ⟨j, ⟨label, _, factors, n, hi, List.mem_of_mem_drop hf⟩, he⟩
      | ok fs =>
        rw [hx] at h; dsimp only at h
        unfold primeText at h
        split at h
        · cases h
        · cases h
        · rename_i name j fs'
          cases hr : format U heap depth (cov ++ [i]) j with
          | error e' => rw [hr] at h; cases h; exact ⟨j, ⟨label, _, _, name, hi, by simp⟩, hr⟩
          | ok t => rw [hr] at h; cases h

theorem recursive_of_factor {i j : Nat} (h : Factor heap i j) : Recursive heap j → Recursive heap i := by
  rintro ⟨k, hk, hkk⟩
  refine ⟨k, .inr ?_, hkk⟩
  rcases hk with rfl | hk
  · exact .one h
  · exact .more h hk

theorem error_recursive (hn : NoSets heap) (hs : Sound heap) : ∀ (depth : Nat) (cov : List Nat) (i : Nat), format U heap depth cov i = .error .recursiveFactor →
    (∃ k ∈ cov, i = k ∨ Reaches heap i k) ∨ Recursive heap i
  | 0, _, _, h => by cases h
  | depth + 1, cov, i, h => by
    rcases format_error hn hs h with ⟨_, hc⟩ | ⟨_, _, j, hf, hj⟩
    · exact .inl ⟨i, hc, .inl rfl⟩
    · rcases error_recursive hn hs depth _ j hj with ⟨k, hk, hr⟩ | hr
      · have hik : Reaches heap i k := by
          rcases hr with rfl | hr
          · exact .one hf
          · exact .more hf hr
        rcases List.mem_append.1 hk with hk | hk
        · exact .inl ⟨k, hk, .inr hik⟩
        · have : k = i := by simpa using hk
          subst this
          exact .inr ⟨k, .inl rfl, hik⟩
      · exact .inr (recursive_of_factor hf hr)

theorem nodup_le {n : Nat} : ∀ {l : List Nat}, l.Nodup → (∀ x ∈ l, x < n) → l.length ≤ n := by
  induction n with
  | zero =>
    intro l _ h
    cases l with
    | nil => simp
    | cons x l => exact absurd (h x (by simp)) (by omega)
  | succ n ih =>
    intro l hn h
    have h1 : (l.erase n).length ≤ n := ih (hn.erase n) fun x hx => by
      have := h x (List.mem_of_mem_erase hx)
      have : x ≠ n := fun he => by subst he; exact (List.Nodup.not_mem_erase hn) hx
      omega
    have := List.length_erase (a := n) (l := l)
    split at this <;> omega

/-- The stack is not used up, and the only exception is the one about recursion. -/
theorem format_ends (hn : NoSets heap) (hs : Sound heap) : ∀ (depth : Nat) (cov : List Nat) (i : Nat), cov.Nodup → (∀ x ∈ cov, x < heap.length) → heap.length < depth + cov.length →
    ∀ e, format U heap depth cov i = .error e → e = .recursiveFactor
  | 0, cov, i, hc, hl, hd, _, _ => by
    have := nodup_le hc hl
    omega
  | depth + 1, cov, i, hc, hl, hd, e, h => by
    rcases format_error hn hs h with ⟨he, _⟩ | ⟨hi, hlt, j, _, hj⟩
    · exact he
    · refine format_ends hn hs depth (cov ++ [i]) j ?_ ?_ (by simp; omega) e hj
      · rw [List.nodup_append]
        refine ⟨hc, by simp, fun a ha b hb => ?_⟩
        have : b = i := by simpa using hb
        subst this
        exact fun he => hi (he ▸ ha)
      · intro x hx
        rcases List.mem_append.1 hx with hx | hx
        · exact hl x hx
        · have : x = i := by simpa using hx
          omega

/-! ## Errors -/

theorem shown_rows (t : Str) : ∀ (ls : List Str), Shown U ("\n  ".toList ++ join "\n  ".toList ls ++ '\n' :: t) = (ls.flatMap fun l => Shown U (' ' :: ' ' :: l)) ++ Shown U t
  | [] => by
    rw [shown_nl]
    have : Shown U ("\n  ".toList ++ join "\n  ".toList []) = [] := by
      rw [show "\n  ".toList ++ join "\n  ".toList [] = [] ++ '\n' :: ([] ++ [' ', ' ']) from rfl, shown_nl, shown_space (by simp [blank_space])]
      rfl
    rw [this]; rfl
  | [l] => by
    rw [shown_nl, show "\n  ".toList ++ join "\n  ".toList [l] = [] ++ '\n' :: ' ' :: ' ' :: l from rfl, shown_nl]
    simp [Shown, lines]
  | l :: k :: r => by
    have ih := shown_rows t (k :: r)
    rw [show "\n  ".toList ++ join "\n  ".toList (l :: k :: r) ++ '\n' :: t = ([] ++ '\n' :: ' ' :: ' ' :: l) ++ ("\n  ".toList ++ join "\n  ".toList (k :: r) ++ '\n' :: t) by simp [join]]
    rw [show "\n  ".toList ++ join "\n  ".toList (k :: r) ++ '\n' :: t = '\n' :: ([' ', ' '] ++ join "\n  ".toList (k :: r) ++ '\n' :: t) from rfl] at ih ⊢
    generalize [' ', ' '] ++ join "\n  ".toList (k :: r) ++ '\n' :: t = z at ih ⊢
    rw [shown_nl, shown_nl, List.flatMap_cons]
    rw [show '\n' :: z = [] ++ '\n' :: z from rfl, shown_nl] at ih
    rw [show Shown U [] = [] from rfl, List.nil_append] at ih ⊢
    rw [ih, List.append_assoc]

theorem shown_rows' (ls : List Str) : Shown U ("\n  ".toList ++ join "\n  ".toList ls) = ls.flatMap fun l => Shown U (' ' :: ' ' :: l) := by
  have h := shown_rows (U := U) [] ls
  rw [shown_nl] at h
  simpa [Shown, lines] using h

end PG.Proofs.ElementText
