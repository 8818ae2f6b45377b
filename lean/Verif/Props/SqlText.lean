import Verif.Proofs.SqlText
/-!
# C59: the SQL text the driver composes says what was asked for

`Reads text stmts` (in the specification): PostgreSQL's lexer reads the text as these statements and in no other way.
-/
namespace PG.Props.SqlText
open PG PG.PyStr PG.PgString PG.SqlText PG.Spec.PgString PG.Spec.SqlText PG.Props.PgString PG.Proofs.SqlText

/-! ## Pieces -/

/-- For `decide`. -/
def wordB : Str → Bool
  | [] => false
  | c :: r => identStart c && (c :: r).all identCont

theorem isWord_of {w : Str} (h : wordB w = true) : IsWord w := by
  cases w with
  | nil => cases h
  | cons c r =>
    simp only [wordB, Bool.and_eq_true, List.all_eq_true] at h
    exact ⟨⟨c, r, rfl, h.1⟩, h.2⟩

theorem after_cons {c : Char} {r : Str} (h : identCont c = false ∧ c ≠ '\'' ∧ c ≠ '&') : After (c :: r) := by
  intro d hd
  injection hd with hd
  subst hd
  exact h

theorem after_space (r : Str) : After (' ' :: r) := after_cons (by decide)

theorem after_nil : After [] := fun _ h => by cases h

/-- A key word and a blank. -/
theorem piece_kw {w : Str} (hw : wordB w = true) {t : Str} (ht : foldCase w = t) : Piece (fun _ => True) (w ++ [' ']) [.word t] := by
  have := (piece_word (isWord_of hw)).append piece_space (fun r _ => after_space r)
  rw [ht] at this
  exact this

/-- A blank and a key word. -/
theorem piece_sp {w : Str} (hw : wordB w = true) {t : Str} (ht : foldCase w = t) : Piece After (' ' :: w) [.word t] := by
  have := piece_space.append (piece_word (isWord_of hw)) (fun _ _ => trivial)
  rw [ht] at this
  exact this

theorem not_continues {c : Char} {r : Str} (h : c ∉ [' ', '\t', '\x0b', '\x0c', '\n', '\r', '-']) : ¬ Continues (c :: r) := by
  rintro ⟨w, m, ⟨hz, n, l, h1, h2, h3, rfl⟩, e⟩
  cases h1 with
  | nil =>
    injection e with e _
    subst e
    simp only [List.mem_cons, List.not_mem_nil, or_false] at h2
    rcases h2 with rfl | rfl <;> simp at h
  | space d s hd hs =>
    injection e with e _
    subst e
    simp only [List.mem_cons, List.not_mem_nil, or_false] at hd
    rcases hd with rfl | rfl | rfl | rfl <;> simp at h
  | comment t =>
    injection e with e _
    subst e
    simp at h

/-! ## Statements -/

/-- No semicolon. -/
def Whole (l : List Tok) : Prop := l ≠ [] ∧ Tok.sym ';' ∉ l

theorem cut_ne (l : List Tok) : cutStatements l ≠ [] := by
  cases l with
  | nil => simp [cutStatements]
  | cons t l =>
    unfold cutStatements
    split
    · simp
    · split <;> simp

theorem cut_whole : ∀ (l r : List Tok), Tok.sym ';' ∉ l → cutStatements (l ++ .sym ';' :: r) = l :: cutStatements r
  | [], r, _ => by rw [List.nil_append, cutStatements, if_pos rfl]
  | t :: l, r, h => by
    rw [List.cons_append, cutStatements, if_neg (fun e => h (by simp [e])), cut_whole l r (fun e => h (by simp [e]))]

theorem cut_last : ∀ (l : List Tok), Tok.sym ';' ∉ l → cutStatements l = [l]
  | [], _ => rfl
  | t :: l, h => by
    rw [cutStatements, if_neg (fun e => h (by simp [e])), cut_last l (fun e => h (by simp [e]))]

theorem statements_cons {l : List Tok} (h : Whole l) (r : List Tok) : statements (l ++ .sym ';' :: r) = l :: statements r := by
  unfold statements
  rw [cut_whole l r h.2, List.filter_cons_of_pos (by simpa using h.1)]

theorem statements_skip (r : List Tok) : statements (.sym ';' :: r) = statements r := by
  unfold statements
  rw [cutStatements, if_pos rfl, List.filter_cons_of_neg (by simp)]

theorem statements_last {l : List Tok} (h : Whole l) : statements l = [l] := by
  unfold statements
  rw [cut_last l h.2, List.filter_cons_of_pos (by simpa using h.1)]
  rfl

theorem statements_nil : statements [] = [] := rfl

theorem statements_end {l : List Tok} (h : Whole l) : statements (l ++ [.sym ';']) = [l] := by
  rw [statements_cons h, statements_nil]

theorem statements_flat : ∀ (ls : List (List Tok)) (r : List Tok), (∀ l ∈ ls, Whole l) → statements (ls.flatMap (· ++ [.sym ';']) ++ r) = ls ++ statements r
  | [], r, _ => rfl
  | l :: ls, r, h => by
    have := statements_cons (h l (by simp)) (ls.flatMap (· ++ [Tok.sym ';']) ++ r)
    rw [List.flatMap_cons, List.append_assoc, List.append_assoc, List.cons_append, List.nil_append, this, statements_flat ls r (fun x hx => h x (by simp [hx]))]
    rfl

/-! ## `notify` -/

/-- What an argument of `notify` asks for. -/
def meant : Notify → List Tok
  | .channel c => notification c none
  | .payload c p => notification c (some p)

/-- The channel of an argument. -/
def channelOf : Notify → Str
  | .channel c => c
  | .payload c _ => c

theorem meant_whole (x : Notify) : Whole (meant x) := by
  cases x <;> exact ⟨by simp [meant, notification], by simp [meant, notification, kw]⟩

theorem notify_one (x : Notify) (hx : channelOf x ≠ []) : Piece (fun _ => True) (notifyOne x ++ [';']) (meant x ++ [.sym ';']) := by
  have hn : Piece (fun _ => True) ("NOTIFY".toList ++ [' ']) [kw "notify"] := piece_kw (by decide) (by decide)
  have hs : Piece (fun _ => True) [';'] [.sym ';'] := piece_sym (by decide) (by decide) (by decide)
  cases x with
  | channel c =>
    have h1 := (hn.append (piece_ident hx) (fun _ _ => trivial)).append hs (fun r _ => by simp)
    have e : notifyOne (.channel c) = "NOTIFY".toList ++ [' '] ++ quoteIdent c := by
      unfold notifyOne quoteIdent
      rw [show "NOTIFY \"".toList = "NOTIFY".toList ++ [' '] ++ ['"'] by decide]
      generalize "NOTIFY".toList = k
      simp
    rw [e]
    exact h1
  | payload c p =>
    have hc : Piece (fun _ => True) [','] [.sym ','] := piece_sym (by decide) (by decide) (by decide)
    have h1 := (((hn.append (piece_ident hx) (fun _ _ => trivial)).append hc (fun r _ => by simp)).append (piece_lit p) (fun _ _ => trivial)).append hs
      (fun r _ => ⟨by simp, not_continues (by decide)⟩)
    have e : notifyOne (.payload c p) = "NOTIFY".toList ++ [' '] ++ quoteIdent c ++ [','] ++ quoteLiteral p := by
      unfold notifyOne quoteIdent quoteLiteral
      rw [show "NOTIFY \"".toList = "NOTIFY".toList ++ [' '] ++ ['"'] by decide, show "\",'".toList = ['"', ',', '\''] by decide]
      generalize "NOTIFY".toList = k
      simp
    rw [e]
    exact h1

theorem joinSemi_end : ∀ l : List Str, l ≠ [] → joinSemi l ++ [';'] = l.flatMap (· ++ [';'])
  | [], h => absurd rfl h
  | [x], _ => by simp [joinSemi]
  | x :: y :: l, _ => by
    have := joinSemi_end (y :: l) (by simp)
    rw [joinSemi, List.append_assoc, List.cons_append, this]
    simp

theorem piece_flat {α : Type} (f : α → Str) (g : α → List Tok) : ∀ l : List α, (∀ x ∈ l, Piece (fun _ => True) (f x) (g x)) → Piece (fun _ => True) (l.flatMap f) (l.flatMap g)
  | [], _ => piece_nil
  | x :: l, h => by
    rw [List.flatMap_cons, List.flatMap_cons]
    exact (h x (by simp)).append (piece_flat f g l fun y hy => h y (by simp [hy])) (fun _ _ => trivial)

theorem notifyText_flat (cs : List Notify) (ks : List (Str × Str)) :
    notifyText cs ks = (cs ++ ks.map fun x => Notify.payload x.1 x.2).flatMap (fun x => notifyOne x ++ [';']) := by
  have key : ∀ l : List Notify, (if l = [] then [] else joinSemi (l.map notifyOne) ++ [';']) = l.flatMap (fun x => notifyOne x ++ [';']) := by
    intro l
    by_cases h : l = []
    · subst h; rfl
    · rw [if_neg h, joinSemi_end _ (by simpa using h), List.flatMap_map]
  have k1 := key cs
  have k2 := key (ks.map fun x => Notify.payload x.1 x.2)
  unfold notifyText
  rw [List.flatMap_append, ← k1, ← k2]
  congr 1
  by_cases h : ks = []
  · subst h; rfl
  · rw [if_neg h, if_neg (by simpa using h), List.map_map]
    rfl

/-- **C59 (`notify`).** Whatever the channels and payloads contain, the server is asked for exactly these notifications, in this order: the positional ones, then the keyword ones. No channel name may be
empty. -/
theorem C59_notify (channels : List Notify) (keywords : List (Str × Str)) (h : ∀ x ∈ channels, channelOf x ≠ []) (hk : ∀ x ∈ keywords, x.1 ≠ []) :
    Reads (notifyText channels keywords) (channels.map meant ++ keywords.map fun x => notification x.1 (some x.2)) := by
  rw [notifyText_flat]
  have hp : Piece (fun _ => True) ((channels ++ keywords.map fun x => Notify.payload x.1 x.2).flatMap (fun x => notifyOne x ++ [';']))
      ((channels ++ keywords.map fun x => Notify.payload x.1 x.2).flatMap (fun x => meant x ++ [.sym ';'])) := by
    refine piece_flat _ _ _ ?_
    intro x hx
    refine notify_one x ?_
    rw [List.mem_append] at hx
    rcases hx with hx | hx
    · exact h x hx
    · obtain ⟨y, hy, rfl⟩ := List.mem_map.1 hx
      exact hk y hy
  refine hp.reads trivial ?_
  have := statements_flat ((channels ++ keywords.map fun x => Notify.payload x.1 x.2).map meant) [] (by
    intro l hl
    obtain ⟨x, _, rfl⟩ := List.mem_map.1 hl
    exact meant_whole x)
  rw [List.append_nil, List.flatMap_map, statements_nil, List.append_nil] at this
  rw [this, List.map_append, List.map_map]
  rfl

/-- A concrete case: hostile names and payloads. -/
example : Reads (notifyText [.channel "a\"; DROP TABLE t; --".toList, .payload "b".toList "it's".toList] [("k".toList, "'; DELETE".toList)])
    [[kw "notify", .ident "a\"; DROP TABLE t; --".toList], [kw "notify", .ident "b".toList, .sym ',', .lit "it's".toList], [kw "notify", .ident "k".toList, .sym ',', .lit "'; DELETE".toList]] :=
  C59_notify _ _ (by decide) (by decide)

/-- Finding: with an empty channel name the text cannot be read: none of the notifications is sent. -/
theorem C59_notify_empty (l : List Tok) : ¬ Lex (notifyText [.channel []] []) l := by
  have e : notifyText [.channel []] [] = "NOTIFY".toList ++ (' ' :: (quoteIdent [] ++ [';'])) := by decide
  rw [e, lex_word (isWord_of (by decide)) (after_space _)]
  rintro ⟨l', _, h⟩
  rw [lex_space (by decide)] at h
  generalize ex : quoteIdent [] ++ [';'] = x at h
  cases h with
  | nil => cases ex
  | space c s l hc => cases ex; revert hc; decide
  | comment => cases ex
  | lastComment => cases ex
  | token s t rest l ht =>
    subst ex
    cases ht
    case word w a b h => have := lexWord_start h; revert this; decide
    case ident v h => exact C27_empty_ident _ _ _ (by simp) h
    case lit v h => cases h
    case num => exact absurd ‹Char.isDigit _ = true› (by decide)
    case sym => exact absurd ‹isSym _ = true› (by decide)

/-! ## `do` -/

theorem piece_semi : Piece (fun _ => True) [';'] [.sym ';'] := piece_sym (by decide) (by decide) (by decide)

theorem not_continues_language (r : Str) : ¬ Continues (' ' :: 'L' :: r) := by
  rintro ⟨w, m, ⟨hz, n, l, h1, h2, h3, rfl⟩, e⟩
  cases h1 with
  | nil =>
    injection e with e _
    subst e
    revert h2
    decide
  | space d s hd hs =>
    injection e with _ e
    cases hs with
    | nil =>
      injection e with e _
      subst e
      revert h2
      decide
    | space d' s' hd' _ =>
      injection e with e _
      subst e
      revert hd'
      decide
    | comment t => injection e with e _; cases e
  | comment t => injection e with e _; cases e

/-- **C59 (`do`).** Whatever the source contains, the server is asked to run exactly this source in this language. -/
theorem C59_do (language source : Str) (h : language ≠ []) : Reads (doText language source) [[kw "do", .lit source, kw "language", .ident language]] := by
  have h1 : Piece (fun _ => True) ("DO".toList ++ [' ']) [kw "do"] := piece_kw (by decide) (by decide)
  have h2 : Piece (fun _ => True) (' ' :: ("LANGUAGE".toList ++ [' '])) [kw "language"] := piece_space.append (piece_kw (w := "LANGUAGE".toList) (by decide) (by decide)) (fun _ _ => trivial)
  have h3 := (((h1.append (piece_lit source) (fun _ _ => trivial)).append h2 (fun r _ => ⟨by simp, not_continues_language _⟩)).append (piece_ident h) (fun _ _ => trivial)).append piece_semi (fun r _ => by simp)
  refine (show Piece (fun _ => True) (doText language source) _ from h3).reads trivial ?_
  exact statements_end (l := [kw "do", .lit source, kw "language", .ident language]) ⟨by simp, by simp [kw]⟩

/-- A concrete case. -/
example : Reads (doText "plpgsql".toList "BEGIN RAISE NOTICE 'x'; END'; DROP TABLE t; --".toList)
    [[kw "do", .lit "BEGIN RAISE NOTICE 'x'; END'; DROP TABLE t; --".toList, kw "language", .ident "plpgsql".toList]] := C59_do _ _ (by decide)

/-! ## Cursors -/

theorem quotedCursor_eq (id : Str) : quotedCursor id = quoteIdent id := by simp [quotedCursor, quoteIdent]

/-- What ends a word here. -/
theorem after_word_sp {w r : Str} : After (' ' :: w ++ r) := after_space _

theorem piece_opt {b : Bool} {w : Str} {t : List Tok} (h : Piece After (' ' :: w) t) : Piece (fun r => ∃ r', r = ' ' :: r') (if b then ' ' :: w else []) (if b then t else []) := by
  cases b with
  | true => exact h.weaken fun r hr => by obtain ⟨r', rfl⟩ := hr; exact after_space r'
  | false => exact piece_nil.weaken fun _ _ => trivial

theorem opt_space (b : Bool) (w r : Str) (h : ∃ r', r = ' ' :: r') : ∃ r', (if b then ' ' :: w else []) ++ r = ' ' :: r' := by
  cases b with
  | true => exact ⟨w ++ r, rfl⟩
  | false => exact h

theorem declare_piece (id : Str) (hid : id ≠ []) (insensitive scroll hold : Bool) :
    Piece (fun _ => True) (declareText (quotedCursor id) [] insensitive scroll hold) (declared id insensitive scroll hold) := by
  have sp {w : Str} {t : Str} (hw : wordB w = true) (ht : foldCase w = t) : Piece (fun r => ∃ r', r = ' ' :: r') (' ' :: w) [.word t] :=
    (piece_sp hw ht).weaken fun r hr => by obtain ⟨r', rfl⟩ := hr; exact after_space r'
  have h1 : Piece (fun _ => True) ("DECLARE".toList ++ [' ']) [kw "declare"] := piece_kw (by decide) (by decide)
  have h2 := h1.append (piece_ident hid) (fun _ _ => trivial)
  have h3 := h2.append (piece_opt (b := insensitive) (piece_sp (w := "INSENSITIVE".toList) (t := "insensitive".toList) (by decide) (by decide)))
    (fun r hr => by obtain ⟨r', hr'⟩ := opt_space insensitive "INSENSITIVE".toList r hr; rw [hr']; simp)
  have h4 := h3.append (piece_opt (b := scroll) (piece_sp (w := "SCROLL".toList) (t := "scroll".toList) (by decide) (by decide))) (fun r hr => opt_space scroll "SCROLL".toList r hr)
  have h5 := h4.append (sp (w := "CURSOR".toList) (t := "cursor".toList) (by decide) (by decide)) (fun r _ => ⟨_, rfl⟩)
  have hh : Piece (fun r => ∃ r', r = ' ' :: r') (if hold then " WITH HOLD".toList else " WITHOUT HOLD".toList) (if hold then [kw "with", kw "hold"] else [kw "without", kw "hold"]) := by
    cases hold with
    | true => exact (sp (w := "WITH".toList) (t := "with".toList) (by decide) (by decide)).append (sp (w := "HOLD".toList) (t := "hold".toList) (by decide) (by decide)) (fun r _ => ⟨_, rfl⟩)
    | false => exact (sp (w := "WITHOUT".toList) (t := "without".toList) (by decide) (by decide)).append (sp (w := "HOLD".toList) (t := "hold".toList) (by decide) (by decide)) (fun r _ => ⟨_, rfl⟩)
  have h6 := h5.append hh (fun r _ => by cases hold <;> exact ⟨_, rfl⟩)
  have hf : Piece (fun _ => True) (' ' :: ("FOR".toList ++ [' '])) [kw "for"] := piece_space.append (piece_kw (w := "FOR".toList) (by decide) (by decide)) (fun _ _ => trivial)
  have h7 := h6.append hf (fun r _ => ⟨_, rfl⟩)
  rw [← quotedCursor_eq] at h7
  have e : declareText (quotedCursor id) [] insensitive scroll hold = "DECLARE".toList ++ [' '] ++ quotedCursor id ++ (if insensitive then ' ' :: "INSENSITIVE".toList else []) ++
      (if scroll then ' ' :: "SCROLL".toList else []) ++ ' ' :: "CURSOR".toList ++ (if hold then " WITH HOLD".toList else " WITHOUT HOLD".toList) ++ ' ' :: ("FOR".toList ++ [' ']) := by
    unfold declareText
    rw [List.append_nil]
    rfl
  rw [e]
  exact h7

/-- **C59 (DECLARE).** Whatever the name of the cursor, the text declares a cursor of this name with these options for the statement: its tokens are those of the declaration and then those of the statement. -/
theorem C59_declare (id statement : Str) (hid : id ≠ []) (insensitive scroll hold : Bool) (l : List Tok) :
    Lex (declareText (quotedCursor id) statement insensitive scroll hold) l ↔ ∃ l', l = declared id insensitive scroll hold ++ l' ∧ Lex statement l' := by
  have := declare_piece id hid insensitive scroll hold statement trivial l
  rw [show declareText (quotedCursor id) [] insensitive scroll hold ++ statement = declareText (quotedCursor id) statement insensitive scroll hold by unfold declareText; rw [List.append_nil]] at this
  exact this

/-- The text that is sent for a cursor: insensitive, scrollable, held. -/
theorem C59_declareCursor (id statement : Str) (hid : id ≠ []) (l : List Tok) :
    Lex (declareCursor id statement) l ↔ ∃ l', l = [kw "declare", .ident id, kw "insensitive", kw "scroll", kw "cursor", kw "with", kw "hold", kw "for"] ++ l' ∧ Lex statement l' :=
  C59_declare id statement hid true true true l

/-- A concrete case. -/
example : Lex (declareCursor "my \"c\"".toList "VALUES (1)".toList)
    [kw "declare", .ident "my \"c\"".toList, kw "insensitive", kw "scroll", kw "cursor", kw "with", kw "hold", kw "for", kw "values", .sym '(', .num 1, .sym ')'] := by
  rw [C59_declareCursor _ _ (by decide)]
  refine ⟨[kw "values", .sym '(', .num 1, .sym ')'], rfl, ?_⟩
  have h := (((piece_kw (w := "VALUES".toList) (t := "values".toList) (by decide) (by decide)).append (piece_sym (c := '(') (by decide) (by decide) (by decide)) (fun _ _ => trivial)).append (piece_num 1) (fun _ _ => trivial)).append
    (piece_sym (c := ')') (by decide) (by decide) (by decide)) (fun r _ c hc => by injection hc with hc; subst hc; decide)
  exact (h.lex trivial _).2 rfl

/-! ## FETCH and MOVE -/

/-- The tokens of a number. -/
def intToks (n : Int) : List Tok := if n < 0 then [.sym '-', .num n.natAbs] else [.num n.natAbs]

theorem signed_int (n : Int) (l : List Tok) : signed (intToks n ++ l) = some (n, l) := by
  unfold intToks
  by_cases h : n < 0
  · rw [if_pos h]
    show some (-(n.natAbs : Int), l) = _
    rw [show -(n.natAbs : Int) = n by omega]
  · rw [if_neg h]
    show some ((n.natAbs : Int), l) = _
    rw [show (n.natAbs : Int) = n by omega]

theorem toDigits_head (n : Nat) (r : Str) : (Nat.toDigits 10 n ++ r).head? ≠ some '-' := by
  cases hd : Nat.toDigits 10 n with
  | nil => exact absurd hd Nat.toDigits_ne_nil
  | cons c s =>
    intro h
    have : c.isDigit = true := Nat.isDigit_of_mem_toDigits (by decide) (by decide) (hd ▸ (by simp : c ∈ c :: s))
    injection h with h
    subst h
    revert this
    decide

theorem piece_int (n : Int) : Piece (fun r => ∃ r', r = ' ' :: r') (intText n) (intToks n) := by
  have hn : Piece (fun r => ∃ r', r = ' ' :: r') (Nat.toDigits 10 n.natAbs) [.num n.natAbs] := (piece_num n.natAbs).weaken fun r hr => by
    obtain ⟨r', rfl⟩ := hr
    intro c hc
    injection hc with hc
    subst hc
    decide
  unfold intText intToks
  by_cases h : n < 0
  · rw [if_pos h, if_pos h]
    exact piece_minus.append hn (fun r _ => toDigits_head _ r)
  · rw [if_neg h, if_neg h]
    exact hn

/-- A blank follows. -/
def Sp (r : Str) : Prop := ∃ r', r = ' ' :: r'

theorem piece_in (id : Str) (hid : id ≠ []) : Piece (fun r => r.head? ≠ some '"') (" IN ".toList ++ quotedCursor id) [kw "in", .ident id] := by
  have h : Piece (fun _ => True) (' ' :: ("IN".toList ++ [' '])) [kw "in"] := piece_space.append (piece_kw (w := "IN".toList) (by decide) (by decide)) (fun _ _ => trivial)
  rw [quotedCursor_eq]
  exact h.append (piece_ident hid) (fun _ _ => trivial)

theorem move_reads {id position whence w : Str} {pt : List Tok} (hid : id ≠ []) (hw : wordB whence = true) (hf : foldCase whence = w) (hp : Piece Sp position pt) (hpt : Tok.sym ';' ∉ pt) :
    Reads (moveText id position whence) [kw "move" :: .word w :: (pt ++ [kw "in", .ident id])] := by
  have h1 : Piece (fun _ => True) ("MOVE".toList ++ [' ']) [kw "move"] := piece_kw (by decide) (by decide)
  have h2 := ((h1.append (piece_kw hw hf) (fun _ _ => trivial)).append hp (fun _ _ => trivial)).append (piece_in id hid) (fun r _ => ⟨_, rfl⟩)
  have e : moveText id position whence = "MOVE".toList ++ [' '] ++ (whence ++ [' ']) ++ position ++ (" IN ".toList ++ quotedCursor id) := by
    unfold moveText
    rw [show "MOVE ".toList = "MOVE".toList ++ [' '] by decide]
    generalize "MOVE".toList = a
    generalize " IN ".toList = b
    simp
  rw [← e] at h2
  refine h2.reads (by simp) ?_
  refine statements_last (l := kw "move" :: .word w :: (pt ++ [kw "in", .ident id])) ⟨by simp, ?_⟩
  simp [kw, hpt]

theorem int_no_semi (n : Int) : Tok.sym ';' ∉ intToks n := by
  unfold intToks
  split <;> simp

theorem quantity_int (n : Int) (l : List Tok) : quantity (intToks n ++ l) = some (some n, l) := by
  have h := signed_int n l
  unfold intToks at h ⊢
  by_cases hn : n < 0
  · rw [if_pos hn] at h ⊢
    show (signed ([Tok.sym '-', Tok.num n.natAbs] ++ l)).map (fun x => (some x.1, x.2)) = _
    rw [h]; rfl
  · rw [if_neg hn] at h ⊢
    show (signed ([Tok.num n.natAbs] ++ l)).map (fun x => (some x.1, x.2)) = _
    rw [h]; rfl

theorem ask_forward (n : Int) (l : List Tok) : ask (.word "forward".toList :: (intToks n ++ l)) = some (.forward (some n), l) := by
  show (quantity (intToks n ++ l)).map _ = _
  rw [quantity_int]; rfl

theorem ask_backward (n : Int) (l : List Tok) : ask (.word "backward".toList :: (intToks n ++ l)) = some (.backward (some n), l) := by
  show (quantity (intToks n ++ l)).map _ = _
  rw [quantity_int]; rfl

theorem ask_absolute (n : Int) (l : List Tok) : ask (.word "absolute".toList :: (intToks n ++ l)) = some (.absolute n, l) := by
  show (signed (intToks n ++ l)).map _ = _
  rw [signed_int]; rfl

theorem ask_relative (n : Int) (l : List Tok) : ask (.word "relative".toList :: (intToks n ++ l)) = some (.relative n, l) := by
  show (signed (intToks n ++ l)).map _ = _
  rw [signed_int]; rfl

theorem asks_of {verb : String} {id : Str} {l : List Tok} {a : Ask} (h : ask l = some (a, [kw "in", .ident id])) : asks verb (kw verb :: l) = some (a, id) := by
  unfold asks kw
  dsimp only
  rw [if_pos rfl, h]
  unfold kw
  dsimp only
  rw [if_pos rfl]

/-- The server's part: what it does with its cursor, as in the model of cursors; the rows of a FETCH. (Rows for the forms that only MOVE is used with are left out.) -/
def serve {α : Type} (c : Cursor.Cur α) : Ask → List α × Cursor.Cur α
  | .forward n => Cursor.go c true n
  | .backward n => Cursor.go c false n
  | .absolute n => ([], Cursor.moveAbsolute c n)
  | .relative n => ([], (Cursor.go c true (some n)).2)
  | .next => ([], (Cursor.go c true (some 1)).2)
  | .last => ([], Cursor.moveAbsolute c (-1))

/-- What it does with its cursor for one after another. -/
def served {α : Type} (c : Cursor.Cur α) (as : List Ask) : Cursor.Cur α := as.foldl (fun c a => (serve c a).2) c

theorem asked_one {verb : String} {id t : Str} {toks : List Tok} {a : Ask} (hr : Reads t [kw verb :: toks]) (ha : ask toks = some (a, [kw "in", .ident id])) : Asked verb id [t] [a] :=
  .cons t [] _ a [] hr (asks_of ha) .nil

theorem move_int {id whence w : Str} {a : Ask} (n : Int) (hid : id ≠ []) (hw : wordB whence = true) (hf : foldCase whence = w)
    (ha : ∀ l, ask (.word w :: (intToks n ++ l)) = some (a, l)) : Asked "move" id [moveText id (intText n) whence] [a] :=
  asked_one (move_reads hid hw hf (piece_int n) (int_no_semi n)) (ha _)

theorem asked_append {verb : String} {id : Str} {t1 t2 : List Str} {a1 a2 : List Ask} (h1 : Asked verb id t1 a1) (h2 : Asked verb id t2 a2) : Asked verb id (t1 ++ t2) (a1 ++ a2) := by
  induction h1 with
  | nil => exact h2
  | cons t ts toks a as hr ha _ ih => exact .cons t _ toks a _ hr ha ih

theorem seek_texts {α : Type} (c : Cursor.Cur α) (id : Str) (hid : id ≠ []) (offset : Int) (w : Cursor.Whence) : ∃ as, Asked "move" id (seekTexts id offset w) as ∧ served c as = Cursor.moved c offset w := by
  have hb (n : Int) := move_int (id := id) (whence := "BACKWARD".toList) n hid (by decide) rfl (ask_backward n)
  have hf (n : Int) := move_int (id := id) (whence := "FORWARD".toList) n hid (by decide) rfl (ask_forward n)
  have hr (n : Int) := move_int (id := id) (whence := "RELATIVE".toList) n hid (by decide) rfl (ask_relative n)
  have ha (n : Int) := move_int (id := id) (whence := "ABSOLUTE".toList) n hid (by decide) rfl (ask_absolute n)
  have hemp : Piece Sp [] [] := piece_nil.weaken fun _ _ => trivial
  cases w with
  | absolute => exact ⟨_, ha offset, rfl⟩
  | relative =>
    unfold seekTexts Cursor.moved
    by_cases h : offset < 0
    · simp only [if_pos h]; exact ⟨_, hb (-offset), rfl⟩
    · simp only [if_neg h]; exact ⟨_, hr offset, rfl⟩
  | forward =>
    unfold seekTexts Cursor.moved
    by_cases h : offset < 0
    · simp only [if_pos h]; exact ⟨_, hb (-offset), rfl⟩
    · simp only [if_neg h]; exact ⟨_, hf offset, rfl⟩
  | backward =>
    unfold seekTexts Cursor.moved
    by_cases h : offset < 0
    · simp only [if_pos h]; exact ⟨_, hb (-offset), rfl⟩
    · simp only [if_neg h]; exact ⟨_, hb offset, rfl⟩
  | fromEnd =>
    have hl : Asked "move" id [moveText id [] "LAST".toList] [.last] := asked_one (move_reads hid (w := "last".toList) (by decide) rfl hemp (by simp)) rfl
    have hn : Asked "move" id [moveText id [] "NEXT".toList] [.next] := asked_one (move_reads hid (w := "next".toList) (by decide) rfl hemp (by simp)) rfl
    exact ⟨_, asked_append hl (asked_append hn (hb offset)), rfl⟩

/-- **C59 (`seek`).** Whatever the name of the cursor, the commands of a `seek` read as MOVE statements for this cursor, and together they move it to where `seek` (as proved of the model of cursors) says. -/
theorem C59_seek {α : Type} (c : Cursor.Cur α) (id : Str) (hid : id ≠ []) (offset : Int) (w : Cursor.Whence) :
    ∃ as, Asked "move" id (seekCommands id c.dir offset w) as ∧ served c as = Cursor.seek c offset w :=
  seek_texts c id hid _ _

theorem all_piece : Piece Sp "ALL".toList [kw "all"] := (piece_word (isWord_of (by decide))).weaken fun r hr => by obtain ⟨r', rfl⟩ := hr; exact after_space r'

/-- **C59 (`seek('ALL')`).** Likewise. -/
theorem C59_seek_all {α : Type} (c : Cursor.Cur α) (id : Str) (hid : id ≠ []) (w : Cursor.Whence) :
    ∃ a, Asked "move" id [seekAllText id c.dir w] [a] ∧ (serve c a).2 = Cursor.seekAll c w := by
  have hf : Asked "move" id [moveText id "ALL".toList "FORWARD".toList] [.forward none] := asked_one (move_reads hid (w := "forward".toList) (by decide) rfl all_piece (by decide)) rfl
  have hb : Asked "move" id [moveText id "ALL".toList "BACKWARD".toList] [.backward none] := asked_one (move_reads hid (w := "backward".toList) (by decide) rfl all_piece (by decide)) rfl
  have hd : ∃ a, Asked "move" id [moveText id "ALL".toList (if c.dir then "FORWARD".toList else "BACKWARD".toList)] [a] ∧ (serve c a).2 = (Cursor.go c c.dir none).2 := by
    cases h : c.dir with
    | true => exact ⟨_, hf, rfl⟩
    | false => exact ⟨_, hb, rfl⟩
  cases w with
  | forward => exact ⟨_, hf, rfl⟩
  | backward => exact ⟨_, hb, rfl⟩
  | absolute => exact hd
  | relative => exact hd
  | fromEnd => exact hd

theorem fetch_asked (id : Str) (hid : id ≠ []) (direction : Bool) (quantity : Option Int) :
    Asked "fetch" id [fetchText id direction quantity] [if direction then .forward quantity else .backward quantity] := by
  have h1 : Piece (fun _ => True) ("FETCH".toList ++ [' ']) [kw "fetch"] := piece_kw (by decide) (by decide)
  have h2 : Piece (fun _ => True) (if direction then "FORWARD".toList ++ [' '] else "BACKWARD".toList ++ [' ']) [if direction then kw "forward" else kw "backward"] := by
    cases direction with
    | true => exact piece_kw (by decide) (by decide)
    | false => exact piece_kw (by decide) (by decide)
  have h3 := h1.append h2 (fun _ _ => trivial)
  have key : ∀ (p : Str) (pt : List Tok), Piece Sp p pt → Tok.sym ';' ∉ pt → (∀ l, ask (kw "forward" :: (pt ++ l)) = some (.forward quantity, l)) → (∀ l, ask (kw "backward" :: (pt ++ l)) = some (.backward quantity, l)) →
      fetchText id direction quantity = "FETCH".toList ++ [' '] ++ (if direction then "FORWARD".toList ++ [' '] else "BACKWARD".toList ++ [' ']) ++ p ++ (" IN ".toList ++ quotedCursor id) →
      Asked "fetch" id [fetchText id direction quantity] [if direction then .forward quantity else .backward quantity] := by
    intro p pt hp hn hf hb e
    have h4 := (h3.append hp (fun _ _ => trivial)).append (piece_in id hid) (fun r _ => ⟨_, rfl⟩)
    rw [← e] at h4
    have h5 : Reads (fetchText id direction quantity) [kw "fetch" :: (if direction then kw "forward" else kw "backward") :: (pt ++ [kw "in", .ident id])] := by
      refine h4.reads (by simp) ?_
      refine statements_last (l := kw "fetch" :: (if direction then kw "forward" else kw "backward") :: (pt ++ [kw "in", .ident id])) ⟨by simp, ?_⟩
      cases direction <;> simp [kw, hn]
    refine asked_one h5 ?_
    cases direction with
    | true => exact hf _
    | false => exact hb _
  cases quantity with
  | none =>
    refine key "ALL".toList [kw "all"] all_piece (by decide) (fun _ => rfl) (fun _ => rfl) ?_
    cases direction <;> (unfold fetchText; rfl)
  | some n =>
    refine key (intText n) (intToks n) (piece_int n) (int_no_semi n) (ask_forward n) (ask_backward n) ?_
    have e1 : "FETCH ".toList = "FETCH".toList ++ [' '] := by decide
    have e2 : "FORWARD ".toList = "FORWARD".toList ++ [' '] := by decide
    have e3 : "BACKWARD ".toList = "BACKWARD".toList ++ [' '] := by decide
    unfold fetchText
    rw [e1, e2, e3]
    dsimp only
    rw [List.append_assoc (intText n), ← List.append_assoc (_ ++ _) (intText n)]

/-- **C59 (`read`).** Whatever the name of the cursor, `read` sends nothing if no rows are asked for, and otherwise one FETCH for this cursor that returns the rows `read` returns (as proved of the model of cursors). -/
theorem C59_read {α : Type} (c : Cursor.Cur α) (id : Str) (hid : id ≠ []) (quantity : Option Int) (direction : Option Bool) :
    (readCommands id c.dir quantity direction = [] ∧ Cursor.read c quantity direction = ([], c)) ∨
    ∃ a, Asked "fetch" id (readCommands id c.dir quantity direction) [a] ∧ serve c a = Cursor.read c quantity direction := by
  unfold readCommands Cursor.read
  by_cases h : quantity = some 0
  · rw [if_pos h, if_pos h]; exact .inl ⟨rfl, rfl⟩
  · rw [if_neg h, if_neg h]
    refine .inr ⟨_, fetch_asked id hid _ quantity, ?_⟩
    cases Cursor.whichWay c.dir direction <;> rfl

/-- Concrete cases. -/
example : seekCommands "a\"b".toList true (-2) .absolute = ["MOVE ABSOLUTE -2 IN \"a\"\"b\"".toList] ∧ readCommands "c".toList false none none = ["FETCH BACKWARD ALL IN \"c\"".toList] ∧
    seekCommands "c".toList false 1 .absolute = ["MOVE LAST  IN \"c\"".toList, "MOVE NEXT  IN \"c\"".toList, "MOVE BACKWARD 1 IN \"c\"".toList] := by decide

end PG.Props.SqlText
