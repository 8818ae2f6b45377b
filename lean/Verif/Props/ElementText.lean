import Verif.Proofs.ElementText2
/-!
# C81: texts of elements and errors

`format_element` shows an element with its details and factors, and raises an exception for what is composed of itself; the text of an error shows its message, each detail and the object.
-/
namespace PG.Props.ElementText
open PG PG.PyStr PG.Installation PG.ElementText PG.Spec.ElementText PG.Proofs.ElementText

/-- A Python in which these characters are white space. -/
def python : Unicode where
  isAlnum c := decide (c.toNat < 128) && c.isAlphanum
  isAlpha c := decide (c.toNat < 128) && c.isAlpha
  isDigit c := decide (c.toNat < 128) && c.isDigit
  isDecimal c := decide (c.toNat < 128) && c.isDigit
  isSpace c := decide ((9 ≤ c.toNat ∧ c.toNat ≤ 13) ∨ (28 ≤ c.toNat ∧ c.toNat ≤ 32)) || [133, 8232, 8233].contains c.toNat
  isWord := Unicode.ascii.isWord
  lower := Unicode.ascii.lower
  alnum_not_space := fun c h => by
    have h' := Unicode.ascii.alnum_not_space c
    have h1 : c.toNat < 128 := by simp only [Bool.and_eq_true, decide_eq_true_eq] at h; exact h.1
    have h2 : Unicode.ascii.isAlnum c = true := by
      rw [Unicode.ascii.alnum_ascii c h1]; simp only [Bool.and_eq_true] at h; exact h.2
    have h3 := h' h2
    rw [Unicode.ascii.space_ascii c h1] at h3
    rw [h3, Bool.false_or]
    simp; omega
  alpha_ascii := fun c h => by simp [h]
  digit_ascii := fun c h => by simp [h]
  alpha_not_space := fun c h => by
    have h' := Unicode.ascii.alpha_not_space c
    have h1 : c.toNat < 128 := by simp only [Bool.and_eq_true, decide_eq_true_eq] at h; omega
    have h3 := h' (by
      rw [Unicode.ascii.alpha_ascii c h1, Unicode.ascii.digit_ascii c h1]
      simp only [Bool.and_eq_true] at h
      rcases h with h | h
      · exact .inl h.2
      · exact .inr h.2)
    rw [Unicode.ascii.space_ascii c h1] at h3
    rw [h3, Bool.false_or]
    simp; omega
  alnum_ascii := fun c h => by simp [h]
  decimal_ascii := fun c h => by simp [h]
  space_ascii := fun c h => by
    have : [133, 8232, 8233].contains c.toNat = false := by simp; omega
    rw [this, Bool.or_false]
  word_ascii := Unicode.ascii.word_ascii
  lower_ascii := Unicode.ascii.lower_ascii

theorem python_spaces : Spaces python := by
  intro c h
  simp [isBreak] at h
  show (_ || _) = true
  simp
  omega

/-- The text of an object is one the specification allows: nothing is left out, nothing is repeated, all at their place. -/
theorem C81_text {U : Unicode} (hU : Spaces U) {heap : List Obj} {depth i : Nat} {text : Str} (h : format U heap depth [] i = .ok text) : Describes U heap i text :=
  describes hU depth [] i text h

/-- A statement, which was made by a connection, with a cursor; not recursive. -/
def demo : List Obj := [
  .element "STATEMENT".toList (.ok [(none, "SELECT 1".toList), (some "title".toList, "a\nb".toList)]) [("creator".toList, some 1), ("cursor".toList, some 2)],
  .element "CONNECTION".toList (.ok [(none, "[idle]".toList)]) [("connector".toList, none)],
  .plain (.ok "c1".toList),
  .element "A".toList (.ok []) [("x".toList, some 4)],
  .element "B".toList (.ok []) [("p".toList, some 2), ("y".toList, some 3)]]

set_option maxRecDepth 100000 in
example : format python demo 6 [] 0 = .ok "STATEMENT: SELECT 1\n  title:\n    a\n    b\n  cursor: c1\nCONNECTION: [idle]\nconnector: None".toList := by decide +kernel

set_option maxRecDepth 100000 in
example : own python "STATEMENT".toList [(none, "SELECT 1".toList), (some "title".toList, "a\nb".toList)] [("cursor".toList, "c1".toList)] =
    ["STATEMENT: SELECT 1".toList, "  title:".toList, "    a".toList, "    b".toList, "  cursor: c1".toList] := by decide +kernel

theorem demo_ok : NoSets demo ∧ Sound demo := by
  refine ⟨fun i m h => ?_, fun i s h => ?_, fun i l m f h => ?_⟩
  · have := List.mem_of_getElem? h
    simp [demo] at this
  · have := List.mem_of_getElem? h
    simp [demo] at this
    exact ⟨_, this⟩
  · have := List.mem_of_getElem? h
    simp [demo] at this
    rcases this with h | h | h | h <;> obtain ⟨_, rfl, rfl⟩ := h <;> simp

/-- What is composed of itself has no text, whatever the stack, with sets or without. -/
theorem C81_recursive_no_text {U : Unicode} {heap : List Obj} {i : Nat} (h : Recursive heap i) (depth : Nat) (text : Str) : format U heap depth [] i ≠ .ok text :=
  fun hf => ok_not_recursive hf h

/-- Missing: sets of elements (`C81_set_unprotected`).  A stack as deep as the number of objects is enough: if nothing is composed of itself there is a text, otherwise `RecursiveFactor` is raised. -/
theorem C81_recursive_partial {U : Unicode} {heap : List Obj} (hn : NoSets heap) (hs : Sound heap) {depth : Nat} (hd : heap.length < depth) (i : Nat) :
    (¬ Recursive heap i → ∃ text, format U heap depth [] i = .ok text) ∧ (Recursive heap i → format U heap depth [] i = .error .recursiveFactor) := by
  have he : ∀ e, format U heap depth [] i = .error e → e = .recursiveFactor := format_ends hn hs depth [] i (by simp) (by simp) (by simpa using hd)
  cases hf : format U heap depth [] i with
  | ok t => exact ⟨fun _ => ⟨t, rfl⟩, fun hr => absurd hr (ok_not_recursive hf)⟩
  | error e =>
    have := he e hf
    subst this
    refine ⟨fun hr => ?_, fun _ => rfl⟩
    rcases error_recursive hn hs depth [] i hf with ⟨k, hk, _⟩ | hr'
    · cases hk
    · exact absurd hr' hr

theorem demo_recursive : Recursive demo 3 :=
  ⟨3, .inl rfl, .more (j := 4) ⟨"A".toList, _, _, "x".toList, rfl, by simp⟩ (.one ⟨"B".toList, _, _, "y".toList, rfl, by simp⟩)⟩

example : format python demo 6 [] 3 = .error .recursiveFactor := (C81_recursive_partial demo_ok.1 demo_ok.2 (by decide) 3).2 demo_recursive

/-- An element and a set that contains it. -/
def looped : List Obj := [.element "A".toList (.ok []) [("members".toList, some 1)], .set [0]]

/-- The code: sets forget what came before, so a loop through a set ends only with the stack. -/
theorem C81_set_unprotected {U : Unicode} (depth : Nat) : (∀ cov, 0 ∉ cov → 1 ∉ cov → format U looped depth cov 0 = .error .recursionError) ∧ ∀ cov, 1 ∉ cov → format U looped depth cov 1 = .error .recursionError := by
  induction depth with
  | zero => exact ⟨fun _ _ _ => rfl, fun _ _ => rfl⟩
  | succ d ih =>
    refine ⟨fun cov h0 h1 => ?_, fun cov h1 => ?_⟩
    · rw [format, if_neg (by simpa using h0)]
      have h := ih.2 (cov ++ [0]) (by simpa using h1)
      simp only [looped, List.getElem?_cons_zero, List.drop_succ_cons, List.drop_zero, each, primeText] at h ⊢
      rw [h]
    · rw [format, if_neg (by simpa using h1)]
      have h := ih.1 [] (by simp) (by simp)
      simp only [looped, List.getElem?_cons_succ, List.getElem?_cons_zero, each] at h ⊢
      rw [h]

/-! ## Errors -/

/-- The text of an error: the message, the details, and the text of the object that made it, or the exception raised for it: formatting an error never fails. -/
theorem C81_error {U : Unicode} (heap : List Obj) (depth : Nat) (trace : Ex → Str) (message : Str) (metas : List (Str × Str)) (creator : Option Nat) :
    Shown U (errformat U heap depth trace message metas creator) = report U message metas (match creator with
      | none => []
      | some i => match format U heap depth [] i with
        | .ok t => Shown U t
        | .error e => inner (Shown U (trace e))) := by
  unfold errformat report
  have hm : ∀ t, Shown U (message ++ "\n  ".toList ++ t) = Shown U message ++ Shown U ("\n  ".toList ++ t) := by
    intro t
    rw [show message ++ "\n  ".toList ++ t = message ++ '\n' :: (' ' :: ' ' :: t) by simp, shown_nl, show "\n  ".toList ++ t = [] ++ '\n' :: (' ' :: ' ' :: t) by simp, shown_nl]
    simp [Shown, lines]
  have hr : (metas.map fun m => m.1 ++ ": ".toList ++ m.2).flatMap (fun l => Shown U (' ' :: ' ' :: l)) = metas.flatMap (fun d => Shown U ("  ".toList ++ d.1 ++ ": ".toList ++ d.2)) := by
    rw [List.flatMap_map]
    congr 1
  have ha : ∀ t, Shown U (message ++ "\n  ".toList ++ join "\n  ".toList (metas.map fun m => m.1 ++ ": ".toList ++ m.2) ++ '\n' :: t) =
      Shown U message ++ metas.flatMap (fun d => Shown U ("  ".toList ++ d.1 ++ ": ".toList ++ d.2)) ++ Shown U t := by
    intro t
    rw [List.append_assoc (message ++ "\n  ".toList), hm, ← List.append_assoc, shown_rows, hr, List.append_assoc]
  cases creator with
  | none => dsimp only; rw [List.append_nil, List.append_nil, hm, shown_rows', hr]
  | some i =>
    dsimp only
    cases format U heap depth [] i with
    | ok t => exact ha t
    | error e =>
      dsimp only
      rw [ha]
      congr 1
      have := shown_rstrip (U := U) [] (indent U (trace e))
      rw [List.nil_append, List.nil_append] at this
      rw [this, shown_indent']

set_option maxRecDepth 100000 in
example : errformat python demo 6 (fun _ => "T".toList) "no such table".toList [("CODE".toList, "42P01".toList), ("HINT".toList, "x".toList)] (some 3) =
    "no such table\n  CODE: 42P01\n  HINT: x\n  T".toList := by decide +kernel

theorem leStr_before : ∀ (s t : Str), leStr s t = true ↔ Before s t
  | [], t => ⟨fun _ => .inl ⟨t, rfl⟩, fun _ => by cases t <;> rfl⟩
  | a :: s, [] => by
    refine ⟨fun h => (by cases h), fun h => ?_⟩
    rcases h with ⟨r, h⟩ | ⟨p, a', s', b, t', _, h, _⟩
    · cases h
    · simp at h
  | a :: s, b :: t => by
    rw [leStr]
    by_cases hab : a = b
    · subst hab
      rw [if_pos rfl, leStr_before s t]
      constructor
      · rintro (⟨r, rfl⟩ | ⟨p, x, s', y, t', rfl, rfl, h⟩)
        · exact .inl ⟨r, rfl⟩
        · exact .inr ⟨a :: p, x, s', y, t', rfl, rfl, h⟩
      · rintro (⟨r, h⟩ | ⟨p, x, s', y, t', h1, h2, h⟩)
        · exact .inl ⟨r, by simpa using h⟩
        · cases p with
          | nil =>
            simp at h1 h2
            rw [← h1.1, ← h2.1] at h
            omega
          | cons c p =>
            simp at h1 h2
            exact .inr ⟨p, x, s', y, t', h1.2, h2.2, h⟩
    · rw [if_neg hab]
      constructor
      · intro h
        exact .inr ⟨[], a, s, b, t, rfl, rfl, by simpa using h⟩
      · rintro (⟨r, h⟩ | ⟨p, x, s', y, t', h1, h2, h⟩)
        · simp at h; exact absurd h.1.symm hab
        · cases p with
          | nil =>
            simp at h1 h2
            rw [h1.1, h2.1]
            simpa using h
          | cons c p =>
            simp at h1 h2
            exact absurd (h1.1.trans h2.1.symm) hab

theorem leStr_total : ∀ (s t : Str), leStr s t = false → leStr t s = true
  | [], _, h => by simp [leStr] at h
  | _ :: _, [], _ => rfl
  | a :: s, b :: t, h => by
    rw [leStr] at h ⊢
    by_cases hab : a = b
    · subst hab; rw [if_pos rfl] at h ⊢; exact leStr_total s t h
    · rw [if_neg hab] at h
      rw [if_neg (Ne.symm hab)]
      have : a.toNat ≠ b.toNat := fun h' => hab (Char.toNat_inj.1 h')
      simp at h ⊢
      omega

theorem leStr_trans : ∀ (s t u : Str), leStr s t = true → leStr t u = true → leStr s u = true
  | [], _, u, _, _ => by cases u <;> rfl
  | _ :: _, [], _, h, _ => by cases h
  | _ :: _, _ :: _, [], _, h => by cases h
  | a :: s, b :: t, c :: u, h1, h2 => by
    rw [leStr] at h1 h2 ⊢
    by_cases hab : a = b
    · subst hab
      rw [if_pos rfl] at h1
      by_cases hac : a = c
      · subst hac; rw [if_pos rfl] at h2 ⊢; exact leStr_trans s t u h1 h2
      · rw [if_neg hac] at h2 ⊢; exact h2
    · rw [if_neg hab] at h1
      by_cases hbc : b = c
      · subst hbc; rw [if_neg hab]; exact h1
      · rw [if_neg hbc] at h2
        have : a ≠ c := fun h => by subst h; simp at h1 h2; omega
        rw [if_neg this]
        simp at h1 h2 ⊢
        omega

theorem insertBy_perm (x : Str × Str) : ∀ l, (insertBy x l).Perm (x :: l)
  | [] => .refl _
  | y :: l => by
    rw [insertBy]
    split
    · exact .refl _
    · exact ((insertBy_perm x l).cons y).trans (.swap x y l)

theorem sortItems_perm : ∀ l, (sortItems l).Perm l
  | [] => .refl _
  | x :: l => (insertBy_perm x _).trans ((sortItems_perm l).cons x)

theorem insertBy_sorted (x : Str × Str) : ∀ l, l.Pairwise (fun a b => leStr a.1 b.1 = true) → (insertBy x l).Pairwise (fun a b => leStr a.1 b.1 = true)
  | [], _ => by simp [insertBy]
  | y :: l, h => by
    rw [insertBy]
    rw [List.pairwise_cons] at h
    split
    · rename_i hxy
      rw [List.pairwise_cons, List.pairwise_cons]
      refine ⟨fun z hz => ?_, h⟩
      rcases List.mem_cons.1 hz with rfl | hz
      · exact hxy
      · exact leStr_trans _ _ _ hxy (h.1 z hz)
    · rename_i hxy
      rw [List.pairwise_cons]
      refine ⟨fun z hz => ?_, insertBy_sorted x l h.2⟩
      rcases List.mem_cons.1 ((insertBy_perm x l).mem_iff.1 hz) with rfl | hz
      · exact leStr_total _ _ (by simpa using hxy)
      · exact h.1 z hz

theorem sortItems_sorted : ∀ l, (sortItems l).Pairwise (fun a b => leStr a.1 b.1 = true)
  | [] => .nil
  | x :: l => insertBy_sorted x _ (sortItems_sorted l)

/-- The details of a message: the code unless it is that of success, where it comes from, and all the other details, each once, in the order of their names. -/
theorem C81_message_details (upper repr : Str → Str) (code source : Str) (details : List (Str × Str)) :
    ∃ rest : List (Str × Str), messageMetas upper repr code source details =
        (if code = [] ∨ code = "00000".toList then [] else [("CODE".toList, code)]) ++ ("LOCATION".toList, location repr source details) :: rest.map (fun d => (upper d.1, d.2)) ∧
      (∃ others, (rest ++ others).Perm details ∧ (∀ d ∈ rest, Other d) ∧ ∀ d ∈ others, ¬ Other d) ∧
      rest.Pairwise fun a b => Before a.1 b.1 := by
  refine ⟨(sortItems details).filter (fun d => !standard.contains d.1), ?_, ⟨(sortItems details).filter (fun d => !(!standard.contains d.1)), ?_, ?_, ?_⟩, ?_⟩
  · unfold messageMetas
    have h1 : (if code ≠ [] ∧ code ≠ "00000".toList then [("CODE".toList, code)] else []) = if code = [] ∨ code = "00000".toList then [] else [("CODE".toList, code)] := by
      by_cases h : code = [] ∨ code = "00000".toList
      · rw [if_pos h, if_neg]
        rintro ⟨h1, h2⟩
        rcases h with h | h
        · exact h1 h
        · exact h2 h
      · rw [if_neg h, if_pos ⟨fun h' => h (.inl h'), fun h' => h (.inr h')⟩]
    have h2 : (if locationString repr details ≠ [] then locationString repr details ++ " from ".toList ++ source else source) = location repr source details := by
      unfold locationString location
      have hf : ∀ k, (PyDict.get k details).getD ['?'] = field details k := fun k => rfl
      simp only [hf]
      by_cases h : field details "file".toList = ['?'] ∧ field details "line".toList = ['?'] ∧ field details "function".toList = ['?']
      · rw [if_pos h, if_pos h]; rfl
      · rw [if_neg h, if_neg h, if_pos (by simp)]
    rw [h1, h2]
  · exact (List.filter_append_perm _ _).trans (sortItems_perm details)
  · intro d hd
    have := (List.mem_filter.1 hd).2
    simpa [Other, standard] using this
  · intro d hd
    have := (List.mem_filter.1 hd).2
    simp [standard] at this
    simp only [Other, Classical.not_not]
    simpa using this
  · exact ((sortItems_sorted details).filter _).imp fun h => (leStr_before _ _).1 h

/-- Every other detail of a server's error is in the error's text. -/
theorem C81_details_shown {U : Unicode} (upper repr : Str → Str) (heap : List Obj) (depth : Nat) (trace : Ex → Str) (message code source : Str) (details : List (Str × Str)) (creator : Option Nat)
    {d : Str × Str} (hd : d ∈ details) (ho : Other d) :
    ∀ l ∈ Shown U ("  ".toList ++ upper d.1 ++ ": ".toList ++ d.2), l ∈ Shown U (errformat U heap depth trace message (messageMetas upper repr code source details) creator) := by
  intro l hl
  rw [C81_error]
  obtain ⟨rest, h, ⟨others, hp, _, ho'⟩, _⟩ := C81_message_details upper repr code source details
  have hm : d ∈ rest := by
    rcases List.mem_append.1 (hp.mem_iff.2 hd) with h | h
    · exact h
    · exact absurd ho (ho' d h)
  unfold report
  rw [h]
  refine List.mem_append.2 (.inl (List.mem_append.2 (.inr ?_)))
  exact List.mem_flatMap.2 ⟨(upper d.1, d.2), List.mem_append.2 (.inr (List.mem_cons.2 (.inr (List.mem_map.2 ⟨d, hm, rfl⟩)))), hl⟩

/-- The details a server sends. -/
def sent : List (Str × Str) := [("severity".toList, "ERROR".toList), ("position".toList, "15".toList), ("hint".toList, "Perhaps".toList), ("file".toList, "parse.c".toList), ("line".toList, "10".toList)]

example : Other ("hint".toList, "Perhaps".toList) ∧ ¬ Other ("file".toList, "parse.c".toList) := by simp [Other]

set_option maxRecDepth 100000 in
example : messageMetas (fun s => s.map Char.toUpper) (fun s => ['\''] ++ s ++ ['\'']) "42703".toList "SERVER".toList sent =
    [("CODE".toList, "42703".toList), ("LOCATION".toList, "File 'parse.c', line 10, in ? from SERVER".toList), ("HINT".toList, "Perhaps".toList), ("POSITION".toList, "15".toList)] := by decide +kernel

end PG.Props.ElementText
