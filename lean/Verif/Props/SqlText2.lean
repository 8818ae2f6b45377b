import Verif.Props.SqlText
/-!
# C59, continued: transactions, LISTEN and UNLISTEN
-/
namespace PG.Props.SqlText
open PG PG.PyStr PG.PgString PG.SqlText PG.Spec.PgString PG.Spec.SqlText PG.Props.PgString PG.Proofs.SqlText

/-! ## Savepoints -/

/-- The name of the savepoint of a transaction. -/
def savepointName (id : Str) : Str := "xact(".toList ++ id ++ ")".toList

theorem double_append (c : Char) (a b : Str) : double c (a ++ b) = double c a ++ double c b := by simp [double]

theorem quote_name (id : Str) : quoteIdent (savepointName id) = '"' :: ("xact(".toList ++ double '"' id ++ ")\"".toList) := by
  unfold quoteIdent savepointName
  rw [double_append, double_append, show double '"' "xact(".toList = "xact(".toList by decide, show double '"' ")".toList = ")".toList by decide]
  rw [show ")\"".toList = ")".toList ++ ['"'] by decide]
  generalize "xact(".toList = a
  generalize ")".toList = b
  simp

theorem name_ne (id : Str) : savepointName id ≠ [] := by
  unfold savepointName
  rw [show "xact(".toList = 'x' :: "act(".toList by decide]
  simp

theorem xact_piece {w : Str} {t : List Tok} (h : Piece (fun _ => True) (w ++ [' ']) t) (id : Str) :
    Piece (fun _ => True) (w ++ [' '] ++ quoteIdent (savepointName id) ++ [';']) (t ++ [.ident (savepointName id)] ++ [.sym ';']) :=
  (h.append (piece_ident (name_ne id)) (fun _ _ => trivial)).append piece_semi (fun r _ => by simp)

/-- **C59 (savepoints).** Setting, releasing and rolling back to the savepoint of a transaction are commands about the same savepoint, whatever the identifier of the transaction is, and nothing else is asked for. -/
theorem C59_savepoint (id : Str) :
    Reads (savepointText id) [[kw "savepoint", .ident (savepointName id)]] ∧
    Reads (releaseText id) [[kw "release", .ident (savepointName id)]] ∧
    Reads (rollbackText id) [[kw "rollback", kw "to", .ident (savepointName id)], [kw "release", .ident (savepointName id)]] := by
  have hs : Piece (fun _ => True) ("SAVEPOINT".toList ++ [' ']) [kw "savepoint"] := piece_kw (by decide) (by decide)
  have hr : Piece (fun _ => True) ("RELEASE".toList ++ [' ']) [kw "release"] := piece_kw (by decide) (by decide)
  have hb : Piece (fun _ => True) ("ROLLBACK".toList ++ [' '] ++ ("TO".toList ++ [' '])) ([kw "rollback"] ++ [kw "to"]) :=
    (piece_kw (by decide) (by decide)).append (piece_kw (by decide) (by decide)) (fun _ _ => trivial)
  have hsp : Piece (fun _ => True) ([' '] ++ ("RELEASE".toList ++ [' '])) ([] ++ [kw "release"]) := piece_space.append hr (fun _ _ => trivial)
  have e1 : savepointText id = "SAVEPOINT".toList ++ [' '] ++ quoteIdent (savepointName id) ++ [';'] := by
    rw [quote_name]
    unfold savepointText
    rw [show "SAVEPOINT \"xact(".toList = "SAVEPOINT".toList ++ [' '] ++ '"' :: "xact(".toList by decide, show ")\";".toList = ")\"".toList ++ [';'] by decide]
    generalize "SAVEPOINT".toList = a
    generalize "xact(".toList = b
    generalize ")\"".toList = c
    simp
  have e2 : releaseText id = "RELEASE".toList ++ [' '] ++ quoteIdent (savepointName id) ++ [';'] := by
    rw [quote_name]
    unfold releaseText
    rw [show "RELEASE \"xact(".toList = "RELEASE".toList ++ [' '] ++ '"' :: "xact(".toList by decide, show ")\";".toList = ")\"".toList ++ [';'] by decide]
    generalize "RELEASE".toList = a
    generalize "xact(".toList = b
    generalize ")\"".toList = c
    simp
  have e3 : rollbackText id = ("ROLLBACK".toList ++ [' '] ++ "TO".toList ++ [' '] ++ quoteIdent (savepointName id) ++ [';']) ++ ([' '] ++ "RELEASE".toList ++ [' '] ++ quoteIdent (savepointName id) ++ [';']) := by
    rw [quote_name]
    unfold rollbackText
    rw [show "ROLLBACK TO \"xact(".toList = "ROLLBACK".toList ++ [' '] ++ "TO".toList ++ [' '] ++ '"' :: "xact(".toList by decide, show ")\";".toList = ")\"".toList ++ [';'] by decide,
      show ")\"; RELEASE \"xact(".toList = ")\"".toList ++ [';'] ++ [' '] ++ "RELEASE".toList ++ [' '] ++ '"' :: "xact(".toList by decide]
    generalize "ROLLBACK".toList = a
    generalize "TO".toList = a'
    generalize "RELEASE".toList = a''
    generalize "xact(".toList = b
    generalize ")\"".toList = c
    simp
  refine ⟨?_, ?_, ?_⟩
  · rw [e1]
    exact (xact_piece hs id).reads trivial (statements_end (l := [kw "savepoint", .ident (savepointName id)]) ⟨by simp, by simp [kw]⟩)
  · rw [e2]
    exact (xact_piece hr id).reads trivial (statements_end (l := [kw "release", .ident (savepointName id)]) ⟨by simp, by simp [kw]⟩)
  · rw [e3]
    have h := ((hb.append (piece_ident (name_ne id)) (fun _ _ => trivial)).append piece_semi (fun r _ => by simp)).append
      ((hsp.append (piece_ident (name_ne id)) (fun _ _ => trivial)).append piece_semi (fun r _ => by simp)) (fun _ _ => trivial)
    simp only [List.append_assoc] at h ⊢
    refine h.reads trivial ?_
    show statements ([kw "rollback", kw "to", .ident (savepointName id)] ++ .sym ';' :: ([kw "release", .ident (savepointName id)] ++ [.sym ';'])) = _
    rw [statements_cons ⟨by simp, by simp [kw]⟩, statements_end ⟨by simp, by simp [kw]⟩]

/-- A concrete case. -/
example : rollbackText "0x7f".toList = "ROLLBACK TO \"xact(0x7f)\"; RELEASE \"xact(0x7f)\";".toList := by decide

/-! ## START TRANSACTION -/

theorem lexQuoted_suffix {q : Char} : ∀ (s v r : Str), lexQuoted q s = some (v, r) → (∃ p, s = p ++ r) ∧ v.length + v.count q + 1 + r.length = s.length
  | [], v, r, h => by cases h
  | [c], v, r, h => by
    unfold lexQuoted at h
    by_cases hc : c = q
    · rw [if_pos hc] at h; cases h; exact ⟨⟨[c], rfl⟩, rfl⟩
    · rw [if_neg hc] at h; cases h
  | c :: d :: s, v, r, h => by
    rw [lexQuoted] at h
    by_cases hc : c = q
    · rw [if_pos hc] at h
      by_cases hd : d = q
      · rw [if_pos hd, Option.map_eq_some_iff] at h
        obtain ⟨⟨v', r'⟩, h1, h2⟩ := h
        cases h2
        obtain ⟨⟨p, hp⟩, hl⟩ := lexQuoted_suffix s _ _ h1
        refine ⟨⟨c :: d :: p, by simp [← hp]⟩, ?_⟩
        simp only [List.length_cons, List.count_cons, beq_self_eq_true, if_true]
        omega
      · rw [if_neg hd] at h
        cases h
        exact ⟨⟨[c], rfl⟩, by simp [Nat.add_comm]⟩
    · rw [if_neg hc, Option.map_eq_some_iff] at h
      obtain ⟨⟨v', r'⟩, h1, h2⟩ := h
      cases h2
      obtain ⟨⟨p, hp⟩, hl⟩ := lexQuoted_suffix (d :: s) _ _ h1
      refine ⟨⟨c :: p, by rw [List.cons_append, ← hp]⟩, ?_⟩
      have : (c == q) = false := by simpa using hc
      simp only [List.length_cons, List.count_cons, this] at hl ⊢
      simp
      omega

theorem lexWord_eq {s w r : Str} (h : lexWord s = some (w, r)) : s = w ++ r ∧ IsWord w := by
  unfold lexWord at h
  cases s with
  | nil => cases h
  | cons c s =>
    dsimp only at h
    by_cases hc : identStart c = true
    · rw [if_pos hc] at h
      cases h
      refine ⟨by rw [List.cons_append, List.takeWhile_append_dropWhile], ⟨⟨c, _, rfl, hc⟩, ?_⟩⟩
      intro x hx
      rw [List.mem_cons] at hx
      rcases hx with rfl | hx
      · unfold identCont; simp [hc]
      · exact (List.all_eq_true.1 (List.all_takeWhile (p := identCont))) x hx
    · rw [if_neg hc] at h; cases h

theorem literal_suffix {s v r : Str} (h : Literal s v r) : ∃ p, s = p ++ r := by
  induction h with
  | stop body v rest h1 _ =>
    obtain ⟨⟨p, hp⟩, _⟩ := lexQuoted_suffix _ _ _ h1
    exact ⟨'\'' :: p, by rw [List.cons_append, ← hp]⟩
  | more body v w m v' rest h1 _ _ ih =>
    obtain ⟨⟨p, hp⟩, _⟩ := lexQuoted_suffix _ _ _ h1
    obtain ⟨p', hp'⟩ := ih
    exact ⟨'\'' :: (p ++ (w ++ p')), by rw [hp, hp']; simp⟩

theorem token_suffix {s r : Str} {t : Tok} (h : Token s t r) : ∃ p, s = p ++ r := by
  cases h
  case word w _ _ h => exact ⟨w, (lexWord_eq h).1⟩
  case ident v h =>
    obtain ⟨b, rfl, h, _⟩ := h
    obtain ⟨⟨p, hp⟩, _⟩ := lexQuoted_suffix _ _ _ h
    exact ⟨'"' :: p, by rw [List.cons_append, ← hp]⟩
  case lit v h => exact literal_suffix h
  case num c s _ _ => exact ⟨c :: s.takeWhile Char.isDigit, by rw [List.cons_append, List.takeWhile_append_dropWhile]⟩
  case sym c _ _ _ => exact ⟨[c], rfl⟩
  case param c s _ _ => exact ⟨'$' :: c :: s.takeWhile Char.isDigit, by rw [List.cons_append, List.cons_append, List.takeWhile_append_dropWhile]⟩

/-- A semicolon among the tokens is one in the text, and the tokens after it are those of the text after it. -/
theorem lex_semi {s : Str} {l : List Tok} (h : Lex s l) : ∀ l1 l2, l = l1 ++ .sym ';' :: l2 → ∃ s1 s2, s = s1 ++ ';' :: s2 ∧ Lex s2 l2 := by
  induction h with
  | nil => intro l1 l2 e; simp at e
  | space c s l _ _ ih =>
    intro l1 l2 e
    obtain ⟨s1, s2, rfl, h⟩ := ih l1 l2 e
    exact ⟨c :: s1, s2, rfl, h⟩
  | comment t n s l _ _ _ _ ih =>
    intro l1 l2 e
    obtain ⟨s1, s2, rfl, h⟩ := ih l1 l2 e
    exact ⟨'-' :: '-' :: (t ++ n :: s1), s2, by simp, h⟩
  | lastComment t => intro l1 l2 e; simp at e
  | token s t rest l h1 h2 ih =>
    intro l1 l2 e
    cases l1 with
    | nil =>
      injection e with e1 e2
      subst e1 e2
      cases h1
      exact ⟨[], rest, rfl, h2⟩
    | cons t' l1 =>
      injection e with e1 e2
      obtain ⟨s1, s2, e3, h⟩ := ih l1 l2 e2
      obtain ⟨p, hp⟩ := token_suffix h1
      exact ⟨p ++ s1, s2, by rw [hp, e3]; simp, h⟩

/-- If the only semicolon is at the end, what is read is one statement. -/
theorem one_statement {a : Str} (ha : ';' ∉ a) {l : List Tok} (h : Lex (a ++ [';']) l) : Tok.sym ';' ∉ l ∨ ∃ l1, l = l1 ++ [.sym ';'] ∧ Tok.sym ';' ∉ l1 := by
  by_cases hm : Tok.sym ';' ∈ l
  · right
    obtain ⟨l1, l2, e⟩ := List.append_of_mem hm
    obtain ⟨s1, s2, e2, h2⟩ := lex_semi h l1 l2 e
    have hs2 : s2 = [] := by
      cases hs : s2.reverse with
      | nil => simpa using hs
      | cons x y =>
        exfalso
        have hx : s2 = y.reverse ++ [x] := by rw [← List.reverse_reverse s2, hs]; simp
        rw [hx] at e2
        have : a ++ [';'] = (s1 ++ ';' :: y.reverse) ++ [x] := by rw [e2]; simp
        have := List.append_inj_left' this rfl
        exact ha (by rw [this]; simp)
    subst hs2
    have hl2 := (lex_nil _).1 h2
    subst hl2
    refine ⟨l1, e, ?_⟩
    intro hm1
    obtain ⟨m1, m2, em⟩ := List.append_of_mem hm1
    obtain ⟨s1', s2', e2', h2'⟩ := lex_semi h m1 (m2 ++ [.sym ';']) (by rw [e, em]; simp)
    have : s2' = [] := by
      cases hs : s2'.reverse with
      | nil => simpa using hs
      | cons x y =>
        exfalso
        have hx : s2' = y.reverse ++ [x] := by rw [← List.reverse_reverse s2', hs]; simp
        rw [hx] at e2'
        have : a ++ [';'] = (s1' ++ ';' :: y.reverse) ++ [x] := by rw [e2']; simp
        have := List.append_inj_left' this rfl
        exact ha (by rw [this]; simp)
    subst this
    have := (lex_nil _).1 h2'
    simp at this
  · exact .inl hm

theorem start_shape {isolation mode : Option Str} {t : Str} (h : startText isolation mode = some t) :
    ∃ a, t = "START".toList ++ ' ' :: ("TRANSACTION".toList ++ (a ++ [';'])) ∧ ';' ∉ a ∧ (a = [] ∨ ∃ r, a = ' ' :: r) := by
  unfold startText at h
  split at h
  · cases h
  · rename_i hn
    injection h with h
    rw [Bool.or_eq_true, not_or] at hn
    obtain ⟨hi, hm⟩ := hn
    have hm' : ';' ∉ modePart mode ∧ (modePart mode = [] ∨ ∃ r, modePart mode = ' ' :: r) := by
      cases mode with
      | none => exact ⟨by simp [modePart], .inl rfl⟩
      | some x => exact ⟨by simpa [modePart] using hm, .inr ⟨x, rfl⟩⟩
    have hi' : ';' ∉ isolationPart isolation ∧
        (isolationPart isolation = [] ∨ ∃ r, isolationPart isolation = ' ' :: r) := by
      cases isolation with
      | none => exact ⟨(fun h => by cases h), .inl rfl⟩
      | some x =>
        refine ⟨?_, .inr ⟨_, rfl⟩⟩
        show ';' ∉ " ISOLATION LEVEL ".toList ++ x
        rw [List.mem_append, not_or]
        exact ⟨by decide, by simpa using hi⟩
    rw [show "START TRANSACTION".toList = "START".toList ++ ' ' :: "TRANSACTION".toList by decide] at h
    generalize modePart mode = m at h hm'
    generalize isolationPart isolation = i at h hi'
    refine ⟨i ++ m, ?_, by rw [List.mem_append, not_or]; exact ⟨hi'.1, hm'.1⟩, ?_⟩
    · rw [← h]
      generalize "START".toList = a
      generalize "TRANSACTION".toList = b
      simp
    · rcases hi'.2 with e | ⟨r, e⟩
      · subst e
        exact hm'.2
      · exact .inr ⟨r ++ m, by rw [e]; rfl⟩

/-- **C59 (transaction options cannot add statements).** However `isolation` and `mode` are chosen: either ValueError, or the text, in whatever way it is read, is one statement, and that is START TRANSACTION. -/
theorem C59_start_one {isolation mode : Option Str} {t : Str} {l : List Tok} (h : startText isolation mode = some t) (hl : Lex t l) :
    ∃ r, statements l = [kw "start" :: kw "transaction" :: r] := by
  obtain ⟨a, e, ha, hs⟩ := start_shape h
  subst e
  have hafter : After (a ++ [';']) := by
    rcases hs with rfl | ⟨r, rfl⟩
    · exact after_cons (by decide)
    · exact after_space _
  have h1 := one_statement (a := "START".toList ++ ' ' :: ("TRANSACTION".toList ++ a)) (by
    intro hm
    have h1 : ';' ∉ "START".toList := by decide
    have h2 : ';' ∉ "TRANSACTION".toList := by decide
    simp only [List.mem_append, List.mem_cons] at hm
    rcases hm with hm | hm | hm | hm
    · exact h1 hm
    · cases hm
    · exact h2 hm
    · exact ha hm) (l := l) (by rw [List.append_assoc, List.cons_append, List.append_assoc]; exact hl)
  rw [lex_word (isWord_of (by decide)) (after_space _)] at hl
  obtain ⟨l1, e1, hl⟩ := hl
  rw [lex_space (by decide), lex_word (isWord_of (by decide)) hafter] at hl
  obtain ⟨l2, e2, _⟩ := hl
  subst e2
  have e3 : l = kw "start" :: kw "transaction" :: l2 := e1
  clear e1
  subst e3
  rcases h1 with h1 | ⟨l', e', h1⟩
  · exact ⟨l2, statements_last ⟨by simp, h1⟩⟩
  · cases l' with
    | nil => cases e'
    | cons x l' =>
      injection e' with ex e'
      cases l' with
      | nil => cases e'
      | cons y l' =>
        injection e' with ey e'
        subst ex ey e'
        exact ⟨l', statements_end (l := kw "start" :: kw "transaction" :: l') ⟨by simp, h1⟩⟩

/-- ValueError exactly if there is a semicolon. -/
theorem C59_start_rejects (isolation mode : Option Str) : startText isolation mode = none ↔ (∃ x ∈ isolation, ';' ∈ x) ∨ ∃ x ∈ mode, ';' ∈ x := by
  unfold startText
  cases isolation <;> cases mode <;> simp <;> exact Decidable.or_iff_not_imp_left.symm

/-- Words with a blank before each. -/
def spaced (ws : List Str) : Str := ws.flatMap (' ' :: ·)

theorem spaced_piece : ∀ ws : List Str, (∀ w ∈ ws, IsWord w) → Piece (fun r => r = [] ∨ ∃ c r', r = c :: r' ∧ (c = ' ' ∨ c = ';')) (spaced ws) (ws.map fun w => .word (foldCase w))
  | [], _ => piece_nil.weaken fun _ _ => trivial
  | w :: ws, h => by
    have hw := piece_space.append (piece_word (h w (by simp))) (fun _ _ => trivial)
    refine hw.append (spaced_piece ws fun x hx => h x (by simp [hx])) ?_
    intro r hr
    cases ws with
    | nil =>
      rcases hr with rfl | ⟨c, r', rfl, rfl | rfl⟩
      · exact after_nil
      · exact after_space _
      · exact after_cons (by decide)
    | cons y ys => exact after_space _

/-- **C59 (transaction options).** With options that are words separated by single blanks, the statement asks for just these. -/
theorem C59_start {isolation mode : List Str} (hi : ∀ w ∈ isolation, lexWord w = some (w, [])) (hm : ∀ w ∈ mode, lexWord w = some (w, [])) (hi0 : isolation ≠ []) (hm0 : mode ≠ []) :
    (∃ t, startText none none = some t ∧ Reads t [[kw "start", kw "transaction"]]) ∧
    (∃ t, startText (some ((spaced isolation).drop 1)) none = some t ∧ Reads t [[kw "start", kw "transaction", kw "isolation", kw "level"] ++ isolation.map fun w => .word (foldCase w)]) ∧
    (∃ t, startText none (some ((spaced mode).drop 1)) = some t ∧ Reads t [[kw "start", kw "transaction"] ++ mode.map fun w => .word (foldCase w)]) ∧
    (∃ t, startText (some ((spaced isolation).drop 1)) (some ((spaced mode).drop 1)) = some t ∧
      Reads t [[kw "start", kw "transaction", kw "isolation", kw "level"] ++ (isolation.map fun w => .word (foldCase w)) ++ mode.map fun w => .word (foldCase w)]) := by
  have word : ∀ w : Str, lexWord w = some (w, []) → IsWord w := fun w h => (lexWord_eq h).2
  have hsp : ∀ ws : List Str, ws ≠ [] → ' ' :: (spaced ws).drop 1 = spaced ws := by
    intro ws h
    cases ws with
    | nil => exact absurd rfl h
    | cons w ws => rfl
  have hns : ∀ ws : List Str, (∀ w ∈ ws, lexWord w = some (w, [])) → ((spaced ws).drop 1).contains ';' = false := by
    intro ws h
    cases hc : ((spaced ws).drop 1).contains ';' with
    | false => rfl
    | true =>
      exfalso
      have hc := List.contains_iff_mem.1 hc
      have := List.mem_of_mem_drop hc
      unfold spaced at this
      rw [List.mem_flatMap] at this
      obtain ⟨w, hw, hm⟩ := this
      rw [List.mem_cons] at hm
      rcases hm with hm | hm
      · cases hm
      · have := (word w (h w hw)).2 _ hm
        revert this
        decide
  have kwW : ∀ {w : Str}, wordB w = true → lexWord w = some (w, []) := by
    intro w h
    have := lexWord_append (isWord_of h) (rest := []) (fun _ h => by cases h)
    rw [List.append_nil] at this
    exact this
  have main : ∀ ws : List Str, (∀ w ∈ ws, lexWord w = some (w, [])) → Reads ("START".toList ++ (spaced ("TRANSACTION".toList :: ws) ++ [';'])) [kw "start" :: ("TRANSACTION".toList :: ws).map fun w => .word (foldCase w)] := by
    intro ws h
    have h2 := (spaced_piece ("TRANSACTION".toList :: ws) (by
      intro w hw
      rw [List.mem_cons] at hw
      rcases hw with rfl | hw
      · exact isWord_of (by decide)
      · exact word w (h w hw))).append piece_semi (fun r _ => .inr ⟨_, _, rfl, .inr rfl⟩)
    have h3 := (piece_word (w := "START".toList) (isWord_of (by decide))).append h2 (fun r _ => after_space _)
    refine h3.reads trivial ?_
    rw [← List.append_assoc]
    refine statements_end (l := [Tok.word (foldCase "START".toList)] ++ ("TRANSACTION".toList :: ws).map fun w => .word (foldCase w)) ⟨by simp, ?_⟩
    intro hm
    rw [List.mem_append, List.mem_map] at hm
    rcases hm with hm | ⟨w, _, hm⟩
    · simp at hm
    · cases hm
  have e0 : "START TRANSACTION".toList = "START".toList ++ ' ' :: "TRANSACTION".toList := by decide
  have e1 : " ISOLATION LEVEL ".toList = ' ' :: "ISOLATION".toList ++ ' ' :: "LEVEL".toList ++ [' '] := by decide
  have il : ∀ w ∈ "ISOLATION".toList :: "LEVEL".toList :: isolation, lexWord w = some (w, []) := by
    intro w hw
    rw [List.mem_cons, List.mem_cons] at hw
    rcases hw with rfl | rfl | hw
    · exact kwW (by decide)
    · exact kwW (by decide)
    · exact hi w hw
  refine ⟨⟨_, rfl, ?_⟩, ?_, ?_, ?_⟩
  · have := main [] (fun _ h => by cases h)
    exact this
  · unfold startText
    rw [if_neg (by simp only [Option.any_some, Option.any_none, hns _ hi]; simp)]
    refine ⟨_, rfl, ?_⟩
    have := main _ il
    have e : "START".toList ++ (spaced ("TRANSACTION".toList :: "ISOLATION".toList :: "LEVEL".toList :: isolation) ++ [';']) = "START TRANSACTION".toList ++ (" ISOLATION LEVEL ".toList ++ (spaced isolation).drop 1) ++ [] ++ [';'] := by
      rw [e0, e1]
      conv => lhs; unfold spaced; simp only [List.flatMap_cons]
      show _ ++ (_ ++ (_ ++ (_ ++ spaced isolation)) ++ _) = _
      rw [← hsp isolation hi0]
      generalize "START".toList = a
      generalize "TRANSACTION".toList = b
      generalize "ISOLATION".toList = c
      generalize "LEVEL".toList = d
      simp
    rw [e] at this
    exact this
  · unfold startText
    rw [if_neg (by simp only [Option.any_some, Option.any_none, hns _ hm]; simp)]
    refine ⟨_, rfl, ?_⟩
    have := main mode hm
    have e : "START".toList ++ (spaced ("TRANSACTION".toList :: mode) ++ [';']) = "START TRANSACTION".toList ++ [] ++ (' ' :: (spaced mode).drop 1) ++ [';'] := by
      rw [e0, hsp mode hm0]
      conv => lhs; unfold spaced; simp only [List.flatMap_cons]
      show _ ++ (_ ++ spaced mode ++ _) = _
      generalize "START".toList = a
      generalize "TRANSACTION".toList = b
      simp
    rw [e] at this
    exact this
  · unfold startText
    rw [if_neg (by simp only [Option.any_some, hns _ hm, hns _ hi]; simp)]
    refine ⟨_, rfl, ?_⟩
    have := main ("ISOLATION".toList :: "LEVEL".toList :: (isolation ++ mode)) (by
      intro w hw
      rw [List.mem_cons, List.mem_cons, List.mem_append, ← or_assoc, ← or_assoc] at hw
      rcases hw with hw | hw
      · exact il w (by rw [List.mem_cons, List.mem_cons, ← or_assoc]; exact hw)
      · exact hm w hw)
    have e : "START".toList ++ (spaced ("TRANSACTION".toList :: "ISOLATION".toList :: "LEVEL".toList :: (isolation ++ mode)) ++ [';']) =
        "START TRANSACTION".toList ++ (" ISOLATION LEVEL ".toList ++ (spaced isolation).drop 1) ++ (' ' :: (spaced mode).drop 1) ++ [';'] := by
      rw [e0, e1, hsp mode hm0]
      conv => lhs; unfold spaced; simp only [List.flatMap_cons, List.flatMap_append]
      show _ ++ (_ ++ (_ ++ (_ ++ (spaced isolation ++ spaced mode))) ++ _) = _
      rw [← hsp isolation hi0]
      generalize "START".toList = a
      generalize "TRANSACTION".toList = b
      generalize "ISOLATION".toList = c
      generalize "LEVEL".toList = d
      simp
    rw [e] at this
    have e2 : [kw "start", kw "transaction", kw "isolation", kw "level"] ++ (isolation.map fun w => Tok.word (foldCase w)) ++ (mode.map fun w => Tok.word (foldCase w)) =
        [kw "start", kw "transaction", kw "isolation", kw "level"] ++ (isolation ++ mode).map fun w => Tok.word (foldCase w) := by
      rw [List.map_append, List.append_assoc]
    rw [e2]
    exact this

/-- Concrete cases. -/
example : startText (some ((spaced ["READ".toList, "COMMITTED".toList]).drop 1)) (some ((spaced ["READ".toList, "ONLY".toList]).drop 1)) = some "START TRANSACTION ISOLATION LEVEL READ COMMITTED READ ONLY;".toList ∧
    startText (some "SERIALIZABLE; DROP TABLE t".toList) none = none ∧ startText (some "SERIALIZABLE --".toList) (some "'".toList) ≠ none := by decide

/-! ## LISTEN and UNLISTEN -/

/-- A name that may be written without quotes: a word in lower case. (Not the key words that PostgreSQL reserves.) -/
def Bare (x : Str) : Prop := lexWord x = some (x, []) ∧ foldCase x = x

theorem double_id {x : Str} (h : '"' ∉ x) : double '"' x = x := by
  unfold double
  induction x with
  | nil => rfl
  | cons c x ih =>
    rw [List.flatMap_cons, if_neg (by intro e; exact h (by simp [e])), ih (fun hm => h (by simp [hm]))]
    rfl

theorem word_no_quote {x : Str} (h : IsWord x) : '"' ∉ x := fun hm => by
  have := h.2 _ hm
  revert this
  decide

theorem bare_word {x : Str} (h : Bare x) : IsWord x := (lexWord_eq h.1).2

/-- What comes after a name in the text: the next command, or nothing. -/
def Semi (r : Str) : Prop := r = [] ∨ ∃ r', r = ';' :: r'

theorem listen_piece {command c : Str} (hw : wordB command = true) (hc : foldCase command = c) : ∀ xs : List Str, (∀ x ∈ xs, Bare x) →
    Piece Semi (xs.flatMap fun x => "; ".toList ++ command ++ ' ' :: double '"' x) (xs.flatMap fun x => [.sym ';', .word c, .word x])
  | [], _ => piece_nil.weaken fun _ _ => trivial
  | x :: xs, h => by
    have hx := h x (by simp)
    have hxw := bare_word hx
    have h1 := ((piece_semi.append piece_space (fun _ _ => trivial)).append (piece_kw hw hc) (fun _ _ => trivial)).append (piece_word hxw) (fun _ _ => trivial)
    rw [hx.2] at h1
    have h2 : Piece After ("; ".toList ++ command ++ ' ' :: double '"' x) [.sym ';', .word c, .word x] := by
      rw [double_id (word_no_quote hxw)]
      have e : "; ".toList ++ command ++ ' ' :: x = [';'] ++ [' '] ++ (command ++ [' ']) ++ x := by
        rw [show "; ".toList = [';', ' '] by decide]; simp
      rw [e]
      exact h1
    rw [List.flatMap_cons, List.flatMap_cons]
    refine h2.append (listen_piece hw hc xs fun y hy => h y (by simp [hy])) ?_
    intro r hr
    cases xs with
    | nil =>
      rcases hr with rfl | ⟨r', rfl⟩
      · exact after_nil
      · exact after_cons (by decide)
    | cons y ys => exact after_cons (by decide)

theorem listen_statements (c : Str) : ∀ xs : List Str, statements (xs.flatMap fun x => [.sym ';', .word c, .word x]) = xs.map fun x => [.word c, .word x]
  | [] => rfl
  | [x] => by
    show statements (.sym ';' :: [.word c, .word x]) = _
    rw [statements_skip, statements_last ⟨by simp, by simp⟩]
    rfl
  | x :: y :: xs => by
    have ih := listen_statements c (y :: xs)
    rw [List.flatMap_cons] at ih ⊢
    rw [List.flatMap_cons]
    show statements (.sym ';' :: ([.word c, .word x] ++ .sym ';' :: (.word c :: .word y :: _))) = _
    rw [statements_skip, statements_cons ⟨by simp, by simp⟩]
    have ih' : statements (.sym ';' :: (.word c :: .word y :: (xs.flatMap fun x => [.sym ';', .word c, .word x]))) = _ := ih
    rw [statements_skip] at ih'
    exact congrArg (_ :: ·) ih'

/-- **C59 (`listen`, `unlisten`), the part that holds.** For names that are words in lower case of at most 63 characters, the server is asked to listen, or not to listen, to exactly these channels. -/
theorem C59_listen_partial (channels : List Str) (h : ∀ x ∈ channels, Bare x ∧ x.length ≤ 63) :
    (∃ t, listenText channels = some t ∧ Reads t (channels.map fun x => [kw "listen", .word x])) ∧
    (∃ t, unlistenText channels = some t ∧ Reads t (channels.map fun x => [kw "unlisten", .word x])) := by
  have hl : (channels.any fun x => x.length > 63) = false := by
    rw [List.any_eq_false]
    intro x hx
    have := (h x hx).2
    simp
    omega
  have key : ∀ (command c : Str), wordB command = true → foldCase command = c → ∃ t, listenWith command channels = some t ∧ Reads t (channels.map fun x => [.word c, .word x]) := by
    intro command c hw hc
    refine ⟨_, by unfold listenWith; rw [if_neg (by rw [hl]; simp)], ?_⟩
    exact (listen_piece hw hc channels fun x hx => (h x hx).1).reads (.inl rfl) (listen_statements c channels)
  exact ⟨key _ _ (by decide) (by decide), key _ _ (by decide) (by decide)⟩

theorem lex_first {s : Str} {l : List Tok} (h : Lex s l) : ∀ t l', l = t :: l' → ∃ p s' r, s = p ++ s' ∧ Token s' t r := by
  induction h with
  | nil => intro t l' e; cases e
  | space c s l _ _ ih =>
    intro t l' e
    obtain ⟨p, s', r, rfl, h⟩ := ih t l' e
    exact ⟨c :: p, s', r, rfl, h⟩
  | comment u n s l _ _ _ _ ih =>
    intro t l' e
    obtain ⟨p, s', r, rfl, h⟩ := ih t l' e
    exact ⟨'-' :: '-' :: (u ++ n :: p), s', r, by simp, h⟩
  | lastComment u => intro t l' e; cases e
  | token s t rest l h1 _ _ =>
    intro t' l' e
    cases e
    exact ⟨[], s, rest, rfl, h1⟩

theorem double_length (x : Str) : (double '"' x).length = x.length + x.count '"' := by
  unfold double
  induction x with
  | nil => rfl
  | cons c x ih =>
    rw [List.flatMap_cons, List.length_append, ih, List.count_cons, List.length_cons]
    by_cases h : c = '"'
    · subst h; simp; omega
    · have : (c == '"') = false := by simpa using h
      rw [if_neg h, this]; simp; omega

theorem toLower_not_quote {c : Char} (h : c ≠ '"') : c.toLower ≠ '"' := by
  by_cases hu : c.isUpper = false
  · rw [(toLower_id c).2 hu]; exact h
  · simp only [Bool.not_eq_false] at hu
    intro e
    have hu' := hu
    unfold Char.isUpper at hu'
    simp only [ge_iff_le, decide_eq_true_eq] at hu'
    unfold Char.toLower at e
    rw [dif_pos hu'] at e
    have := congrArg Char.val e
    dsimp only at this
    have h1 := UInt32.le_iff_toNat_le.1 hu'.1
    have h2 := UInt32.le_iff_toNat_le.1 hu'.2
    have h3 := congrArg UInt32.toNat this
    rw [UInt32.toNat_add] at h3
    have a1 : 'A'.val.toNat = 65 := rfl
    have a2 : 'Z'.val.toNat = 90 := rfl
    have a3 : ('a'.val - 'A'.val).toNat = 32 := rfl
    have a4 : '"'.val.toNat = 34 := rfl
    rw [a3, a4] at h3
    omega

/-- **C59 (`listen`), exactly.** A channel can be listened to by its name if and only if the name is a word in lower case of at most 63 characters. -/
theorem C59_listen_iff (x : Str) :
    (∃ t l tok, listenText [x] = some t ∧ Lex t l ∧ statements l = [[kw "listen", tok]] ∧ names tok x) ↔ Bare x ∧ x.length ≤ 63 := by
  constructor
  · rintro ⟨t, l, tok, h1, h2, h3, h4⟩
    unfold listenText listenWith at h1
    split at h1
    · cases h1
    · rename_i hn
      have hlen : x.length ≤ 63 := by simpa using hn
      injection h1 with h1
      subst h1
      have e : ([x].flatMap fun x => "; ".toList ++ "LISTEN".toList ++ ' ' :: double '"' x) = ([';'] ++ [' '] ++ ("LISTEN".toList ++ [' '])) ++ double '"' x := by
        rw [show "; ".toList = [';', ' '] by decide]
        generalize "LISTEN".toList = a
        simp
      rw [e] at h2
      have hp : Piece (fun _ => True) ([';'] ++ [' '] ++ ("LISTEN".toList ++ [' '])) ([.sym ';'] ++ [] ++ [kw "listen"]) :=
        (piece_semi.append piece_space (fun _ _ => trivial)).append (piece_kw (by decide) (by decide)) (fun _ _ => trivial)
      obtain ⟨l', rfl, hx⟩ := (hp _ trivial _).1 h2
      have h3 : statements (.sym ';' :: kw "listen" :: l') = [[kw "listen", tok]] := h3
      rw [statements_skip] at h3
      have hl' : ∃ l'', l' = tok :: l'' := by
        unfold statements at h3
        rw [cutStatements, if_neg (by simp [kw])] at h3
        cases l' with
        | nil => simp [cutStatements] at h3
        | cons t l'' =>
          by_cases ht : t = .sym ';'
          · exfalso
            rw [cutStatements, if_pos ht] at h3
            dsimp only at h3
            rw [List.filter_cons_of_pos (by simp)] at h3
            injection h3 with h3 _
            simp at h3
          · rw [cutStatements, if_neg ht] at h3
            cases hc : cutStatements l'' with
            | nil => exact absurd hc (cut_ne _)
            | cons a b =>
              rw [hc] at h3
              dsimp only at h3
              rw [List.filter_cons_of_pos (by simp)] at h3
              injection h3 with h3 _
              injection h3 with _ h3
              injection h3 with h3 _
              exact ⟨l'', by rw [h3]⟩
      obtain ⟨l'', rfl⟩ := hl'
      obtain ⟨p, s', r, e, ht⟩ := lex_first hx tok l'' rfl
      have hd := double_length x
      rw [e, List.length_append] at hd
      rcases h4 with rfl | rfl
      · exfalso
        cases ht
        case ident h =>
          obtain ⟨b, rfl, hq, _⟩ := h
          have := (lexQuoted_suffix _ _ _ hq).2
          rw [List.length_cons] at hd
          omega
      · generalize ew : Tok.word x = tw at ht
        cases ht
        case word w _ _ h =>
          injection ew with ew
          obtain ⟨hs, hw⟩ := lexWord_eq h
          have hq : '"' ∉ x := by
            rw [ew]
            intro hm
            unfold foldCase at hm
            obtain ⟨c, hc, hce⟩ := List.mem_map.1 hm
            exact toLower_not_quote (fun e => word_no_quote hw (e ▸ hc)) hce
          have hlw : x.length = w.length := by rw [ew]; simp [foldCase]
          rw [List.count_eq_zero_of_not_mem hq, hs, List.length_append] at hd
          have hr : r = [] := List.eq_nil_of_length_eq_zero (by omega)
          have hp0 : p = [] := List.eq_nil_of_length_eq_zero (by omega)
          rw [double_id hq, hp0, hs, hr] at e
          simp at e
          subst e
          rw [hs, hr, List.append_nil] at h
          exact ⟨⟨h, ew.symm⟩, hlen⟩
        all_goals cases ew
  · rintro ⟨h1, h2⟩
    obtain ⟨⟨t, ht, l, hl, _, hs⟩, _⟩ := C59_listen_partial [x] (by simpa using ⟨h1, h2⟩)
    exact ⟨t, l, .word x, ht, hl, hs, .inr rfl⟩

/-- Finding: a channel name is not quoted, and can be a command of its own: `listen('a; DROP TABLE t')` asks for two things. -/
theorem C59_listen_injects : ∃ t, listenText ["a; DROP TABLE t".toList] = some t ∧ Reads t [[kw "listen", kw "a"], [kw "drop", kw "table", kw "t"]] := by
  refine ⟨"; LISTEN a; DROP TABLE t".toList, by decide, ?_⟩
  have h := (((((((piece_semi.append piece_space (fun _ _ => trivial)).append (piece_kw (w := "LISTEN".toList) (t := "listen".toList) (by decide) (by decide)) (fun _ _ => trivial)).append
    (piece_word (w := "a".toList) (isWord_of (by decide))) (fun _ _ => trivial)).append (piece_semi.append piece_space (fun _ _ => trivial)) (fun _ _ => after_cons (by decide))).append
    (piece_kw (w := "DROP".toList) (t := "drop".toList) (by decide) (by decide)) (fun _ _ => trivial)).append (piece_kw (w := "TABLE".toList) (t := "table".toList) (by decide) (by decide)) (fun _ _ => trivial))).append
    (piece_word (w := "t".toList) (isWord_of (by decide))) (fun _ _ => trivial)
  exact (show Piece After "; LISTEN a; DROP TABLE t".toList _ from h).reads after_nil (by decide)

/-- Finding: `listen('Foo')` listens to `foo`, `notify('Foo')` notifies `Foo`: the notification is not received. -/
theorem C59_listen_folds : (∃ t, listenText ["Foo".toList] = some t ∧ Reads t [[kw "listen", kw "foo"]]) ∧ Reads (notifyText [.channel "Foo".toList] []) [[kw "notify", .ident "Foo".toList]] := by
  refine ⟨⟨"; LISTEN Foo".toList, by decide, ?_⟩, C59_notify [.channel "Foo".toList] [] (by decide) (by decide)⟩
  have h := ((piece_semi.append piece_space (fun _ _ => trivial)).append (piece_kw (w := "LISTEN".toList) (t := "listen".toList) (by decide) (by decide)) (fun _ _ => trivial)).append
    (piece_word (w := "Foo".toList) (isWord_of (by decide))) (fun _ _ => trivial)
  exact (show Piece After "; LISTEN Foo".toList _ from h).reads after_nil (by decide)

/-- The full claim for `listen`, that every name is listened to, fails: of a name with a blank nothing is. -/
theorem C59_listen_not_all : ¬ ∀ x : Str, x ≠ [] → x.length ≤ 63 → ∃ t l tok, listenText [x] = some t ∧ Lex t l ∧ statements l = [[kw "listen", tok]] ∧ names tok x := by
  intro h
  have := (C59_listen_iff _).1 (h "my channel".toList (by decide) (by decide))
  have := this.1.1
  revert this
  decide

/-- A concrete case. -/
example : Bare "jobs_2".toList ∧ listenText ["jobs_2".toList, "x".toList] = some "; LISTEN jobs_2; LISTEN x".toList ∧ listenText [List.replicate 64 'a'] = none := by
  refine ⟨⟨by decide, by decide⟩, by decide, by decide⟩

end PG.Props.SqlText
