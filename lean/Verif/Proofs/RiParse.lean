import Verif.Model.RiParse
import Verif.Spec.RiParse
import Verif.Props.PgString
/-!
# Lemmas on `riparse.split`
-/
namespace PG.Proofs.RiParse
open PG PG.PyStr PG.RiParse PG.Spec.RiParse

theorem find_hit {c : Char} (pre x y : Str) (h : c ∉ x) : find c (pre ++ (x ++ c :: y)) pre.length = some (pre.length + x.length) := by
  unfold find
  rw [List.drop_left, List.findIdx?_append]
  have : x.findIdx? (· = c) = none := by
    rw [List.findIdx?_eq_none_iff]; intro a ha; simp; intro e; subst e; exact h ha
  simp [this, List.findIdx?_cons]
  omega

theorem find_past {c : Char} (pre x y : Str) (h : c ∉ x) :
    find c (pre ++ (x ++ y)) pre.length = none ∨ ∃ k, find c (pre ++ (x ++ y)) pre.length = some k ∧ pre.length + x.length ≤ k ∧ (pre ++ (x ++ y))[k]? = some c := by
  cases hf : find c (pre ++ (x ++ y)) pre.length with
  | none => exact .inl rfl
  | some k =>
    right
    have := PG.Props.PgString.find_lt hf
    refine ⟨k, rfl, ?_, this.2.2⟩
    have h2 := this.2.2
    apply Classical.byContradiction
    intro hn
    rw [List.getElem?_append_right this.1, List.getElem?_append_left (by omega)] at h2
    exact h (List.mem_of_getElem? h2)

theorem find_past' {c d : Char} (hcd : d ≠ c) (pre x y : Str) (h : c ∉ x) :
    find c (pre ++ (x ++ d :: y)) pre.length = none ∨ ∃ k, find c (pre ++ (x ++ d :: y)) pre.length = some k ∧ pre.length + x.length < k := by
  rcases find_past pre x (d :: y) h with h1 | ⟨k, h1, h2, h3⟩
  · exact .inl h1
  · refine .inr ⟨k, h1, ?_⟩
    rcases Nat.lt_or_ge (pre.length + x.length) k with h4 | h4
    · exact h4
    · have : k = pre.length + x.length := by omega
      subst this
      rw [List.getElem?_append_right (by omega), List.getElem?_append_right (by omega)] at h3
      simp at h3
      exact absurd h3 hcd

theorem find_none {c : Char} (pre x : Str) (h : c ∉ x) : find c (pre ++ x) pre.length = none := by
  unfold find
  rw [List.drop_left]
  have : x.findIdx? (· = c) = none := by
    rw [List.findIdx?_eq_none_iff]; intro a ha; simp; intro e; subst e; exact h ha
  rw [this]; rfl

/-- Cutting a text at the first of a character. -/
theorem cut_at (c : Char) : ∀ s : Str, ∃ (a : Str) (b : Option Str), s = a ++ marked [c] b ∧ c ∉ a
  | [] => ⟨[], none, rfl, by simp⟩
  | d :: s => by
    by_cases h : d = c
    · exact ⟨[], some s, by simp [marked, h], by simp⟩
    · obtain ⟨a, b, h1, h2⟩ := cut_at c s
      refine ⟨d :: a, b, by rw [h1]; rfl, ?_⟩
      simp [h2, Ne.symm h]

/-- Every text has the parts. -/
theorem decompose (r : Str) : ∃ (n : Str) (p q f : Option Str), r = n ++ marked ['/'] p ++ marked ['?'] q ++ marked ['#'] f ∧
    ('/' ∉ n ∧ '?' ∉ n ∧ '#' ∉ n) ∧ (∀ x, p = some x → '?' ∉ x ∧ '#' ∉ x) ∧ (∀ x, q = some x → '#' ∉ x) := by
  obtain ⟨a, f, ha, ha2⟩ := cut_at '#' r
  obtain ⟨b, q, hb, hb2⟩ := cut_at '?' a
  obtain ⟨n, p, hn, hn2⟩ := cut_at '/' b
  refine ⟨n, p, q, f, by rw [ha, hb, hn], ⟨hn2, ?_, ?_⟩, ?_, ?_⟩
  · intro h; exact hb2 (by rw [hn]; simp [h])
  · intro h; exact ha2 (by rw [hb, hn]; simp [h])
  · intro x hx; subst hx
    exact ⟨fun h => hb2 (by rw [hn]; simp [marked, h]), fun h => ha2 (by rw [hb, hn]; simp [marked, h])⟩
  · intro x hx; subst hx
    exact fun h => ha2 (by rw [hb]; simp [marked, h])

theorem slice_of {a b : Nat} (s pre x y : Str) (hs : s = pre ++ x ++ y) (ha : a = pre.length) (hb : b = pre.length + x.length) : slice s a b = x := by
  subst hs ha hb
  simp [slice]

theorem orPos_some {n e : Nat} {l : List (Option Nat)} (h : 0 < n) : orPos (some n :: l) e = n := by
  cases n with
  | zero => omega
  | succ n => rfl

theorem netloc_eq (pre n y : Str) (e : Nat) (he : e = pre.length + n.length) :
    (if e ≠ pre.length then some (slice (pre ++ (n ++ y)) pre.length e) else none) = present n := by
  subst he
  unfold present
  cases n with
  | nil => simp
  | cons c n => simp [slice]

theorem wq_keep {q p e : Nat} (h : ¬ q < p) : withQuery (some q) (some p) e = (some p, e) := by simp [withQuery, h]
theorem wf_keep {f q p e : Nat} (h : ¬ f < q) (h2 : ¬ f < p) : withFragment (some f) (some q) (some p) e = (some q, some p, e) := by
  simp [withFragment, dropQuery, dropPath, h, h2]
theorem wf_drop {f q p e : Nat} (h : f < q) (h2 : ¬ f < p) : withFragment (some f) (some q) (some p) e = (none, some p, e) := by
  simp [withFragment, dropQuery, dropPath, h, h2]
theorem wf_none {f p e : Nat} (h2 : ¬ f < p) : withFragment (some f) none (some p) e = (none, some p, e) := by
  simp [withFragment, dropQuery, dropPath, h2]

/-- What the places are when all is known. -/
theorem split_of (pre n : Str) (p q f : Option Str) (sch : Option Str) (s : Str) (hs : s = pre ++ (n ++ marked ['/'] p ++ marked ['?'] q ++ marked ['#'] f))
    (hsp : splitScheme s = (sch, pre.length)) (hn : '/' ∉ n ∧ '?' ∉ n ∧ '#' ∉ n) (hp : ∀ x, p = some x → '?' ∉ x ∧ '#' ∉ x)
    (hq : ∀ x, q = some x → '#' ∉ x) : RiParse.split s = ⟨sch, present n, p, q, f⟩ := by
  unfold RiParse.split
  rw [hsp]
  dsimp only
  obtain ⟨hn1, hn2, hn3⟩ := hn
  have key : ∀ (path0 query0 frag : Option Nat),
      (path0 = find '/' s pre.length) → (query0 = find '?' s pre.length) → (frag = find '#' s pre.length) →
      ∃ e, withFragment frag query0 (withQuery query0 path0 (path0.getD s.length)).1 (withQuery query0 path0 (path0.getD s.length)).2 =
        (q.map (fun _ => pre.length + n.length + (marked ['/'] p).length), p.map (fun _ => pre.length + n.length), e) ∧ e = pre.length + n.length ∧
        frag = f.map (fun _ => pre.length + n.length + (marked ['/'] p).length + (marked ['?'] q).length) := by
    intro path0 query0 frag e1 e2 e3
    have hfrag : frag = f.map (fun _ => pre.length + n.length + (marked ['/'] p).length + (marked ['?'] q).length) := by
      have hx : '#' ∉ n ++ marked ['/'] p ++ marked ['?'] q := by
        cases p with
        | none => cases q with
          | none => simpa [marked] using hn3
          | some q => have := hq q rfl; simp [marked, hn3, this]
        | some p => 
          have := (hp p rfl).2
          cases q with
          | none => simp [marked, hn3, this]
          | some q => have h2 := hq q rfl; simp [marked, hn3, this, h2]
      cases f with
      | none =>
        rw [e3, hs]; simp only [marked, List.append_nil]; exact find_none _ _ (by simpa [marked] using hx)
      | some f =>
        rw [e3, hs]
        have := find_hit (c := '#') pre (n ++ marked ['/'] p ++ marked ['?'] q) f hx
        simp only [marked] at this ⊢
        simp only [List.cons_append, List.nil_append] at this ⊢
        rw [this]
        simp; omega
    clear e3
    subst hfrag
    cases p with
    | some p =>
      have h1 : path0 = some (pre.length + n.length) := by
        rw [e1, hs]; simp only [marked, List.append_assoc, List.cons_append, List.nil_append]; exact find_hit _ _ _ hn1
      subst h1
      have hx : '?' ∉ n ++ '/' :: p := by simp [hn2, (hp p rfl).1]
      cases q with
      | some q =>
        have h2 : query0 = some (pre.length + n.length + (p.length + 1)) := by
          rw [e2, hs]
          have := find_hit (c := '?') pre (n ++ '/' :: p) (q ++ marked ['#'] f) hx
          simp only [marked, List.append_assoc, List.cons_append, List.nil_append] at this ⊢
          rw [this]; simp; omega
        subst h2
        cases f with
        | none => rw [wq_keep (by omega)]; simp [withFragment, marked]
        | some f =>
          rw [wq_keep (by omega), Option.map_some, wf_keep (by simp [marked]) (by simp [marked]; try omega)]
          simp [marked]
      | none =>
        cases f with
        | none =>
          have h2 : query0 = none := by
            rw [e2, hs]; simp only [marked, List.append_assoc, List.cons_append, List.nil_append, List.append_nil]; exact find_none _ _ hx
          subst h2
          simp [withQuery, withFragment]
        | some f =>
          have h2 := find_past' (c := '?') (d := '#') (by decide) pre (n ++ '/' :: p) f hx
          have e : pre ++ (n ++ '/' :: p ++ '#' :: f) = s := by rw [hs]; simp [marked]
          rw [e, ← e2] at h2
          rcases h2 with h2 | ⟨k, h2, hk⟩ <;> subst h2
          · simp only [withQuery, Option.map_some]
            rw [wf_none (by simp [marked])]; simp [marked]
          · simp at hk
            rw [wq_keep (by omega), Option.map_some, wf_drop (by simp [marked]; omega) (by simp [marked])]; simp [marked]
    | none =>
      cases q with
      | some q =>
        have h2 : query0 = some (pre.length + n.length) := by
          rw [e2, hs]; simp only [marked, List.append_assoc, List.cons_append, List.nil_append]; exact find_hit _ _ _ hn2
        subst h2
        have h1 := find_past' (c := '/') (d := '?') (by decide) pre n (q ++ marked ['#'] f) hn1
        have e : pre ++ (n ++ '?' :: (q ++ marked ['#'] f)) = s := by rw [hs]; simp [marked]
        rw [e, ← e1] at h1
        have hw : withQuery (some (pre.length + n.length)) path0 (path0.getD s.length) = (none, pre.length + n.length) := by
          rcases h1 with h1 | ⟨k, h1, hk⟩ <;> subst h1
          · rfl
          · simp [withQuery]; omega
        rw [hw]
        cases f with
        | none => simp [withFragment, marked]
        | some f => simp [withFragment, marked, dropQuery, dropPath]
      | none =>
        cases f with
        | none =>
          have es : s = pre ++ n := by rw [hs]; simp [marked]
          rw [es, find_none _ _ hn1] at e1
          rw [es, find_none _ _ hn2] at e2
          subst e1 e2
          simp [withQuery, withFragment, es]
        | some f =>
          have e : pre ++ (n ++ '#' :: f) = s := by rw [hs]; simp [marked]
          have h1 := find_past' (c := '/') (d := '#') (by decide) pre n f hn1
          have h2 := find_past' (c := '?') (d := '#') (by decide) pre n f hn2
          rw [e, ← e1] at h1
          rw [e, ← e2] at h2
          rcases h1 with h1 | ⟨k, h1, hk⟩ <;> subst h1 <;> rcases h2 with h2 | ⟨j, h2, hj⟩ <;> subst h2
          · simp [withFragment, withQuery, marked, dropQuery, dropPath]
          · simp [withFragment, withQuery, marked, dropQuery, dropPath, hj]
          · simp [withFragment, withQuery, marked, dropQuery, dropPath, hk]
          · by_cases hjk : j < k
            · simp [withFragment, withQuery, marked, dropQuery, dropPath, hk, hj, hjk]
            · simp [withFragment, withQuery, marked, dropQuery, dropPath, hk, hj, hjk]
  obtain ⟨e, k1, k2, k3⟩ := key _ _ _ rfl rfl rfl
  rw [k1, k3]
  dsimp only
  have hnet : (if e ≠ pre.length then some (slice s pre.length e) else none) = present n := by
    have := netloc_eq pre n (marked ['/'] p ++ marked ['?'] q ++ marked ['#'] f) e k2
    rw [hs]
    simpa using this
  rw [hnet]
  congr 1
  · cases p with
    | none => rfl
    | some p =>
      rw [Option.map_some, Option.map_some, Option.some_inj]
      apply slice_of s (pre ++ n ++ ['/']) p (marked ['?'] q ++ marked ['#'] f) (by rw [hs]; simp [marked]) (by simp; omega)
      cases q with
      | some q => rw [Option.map_some, orPos_some (by simp [marked]; omega)]; simp [marked]; omega
      | none =>
        cases f with
        | none => simp [orPos, marked, hs]; omega
        | some f => 
          show orPos (some _ :: _) _ = _
          rw [orPos_some (by simp [marked]; omega)]; simp [marked]; omega
  · cases q with
    | none => rfl
    | some q =>
      rw [Option.map_some, Option.map_some, Option.some_inj]
      apply slice_of s (pre ++ n ++ marked ['/'] p ++ ['?']) q (marked ['#'] f) (by rw [hs]; simp [marked]) (by simp; omega)
      cases f with
      | none => simp [orPos, marked, hs]; omega
      | some f => rw [Option.map_some, orPos_some (by simp [marked]; omega)]; simp [marked]; omega
  · cases f with
    | none => rfl
    | some f =>
      rw [Option.map_some, Option.map_some, Option.some_inj]
      apply slice_of s (pre ++ n ++ marked ['/'] p ++ marked ['?'] q ++ ['#']) f [] (by rw [hs]; simp [marked]) (by simp; omega)
      rw [hs]; simp [marked]; omega

end PG.Proofs.RiParse
