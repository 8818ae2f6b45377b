import Verif.Model.SqlText
import Verif.Spec.SqlText
import Verif.Props.PgString
/-!
# Reading text token by token
-/
namespace PG.Proofs.SqlText
open PG PG.PyStr PG.PgString PG.Spec.PgString PG.Spec.SqlText PG.Props.PgString

theorem lexWord_start {c : Char} {s w r : Str} (h : lexWord (c :: s) = some (w, r)) : identStart c = true := by
  unfold lexWord at h
  by_cases hc : identStart c = true
  · exact hc
  · simp [hc] at h

theorem token_head {c : Char} {s r : Str} {t : Tok} (h : Token (c :: s) t r) : identStart c = true ∨ c = '"' ∨ c = '\'' ∨ c.isDigit = true ∨ isSym c = true ∨ c = '$' := by
  cases h
  case word w h2 h3 h1 => exact .inl (lexWord_start h1)
  case ident v h1 => obtain ⟨b, e, _⟩ := h1; exact .inr (.inl (List.cons.inj e).1)
  case lit v h1 => cases h1 <;> exact .inr (.inr (.inl rfl))
  case num h1 h2 => exact .inr (.inr (.inr (.inl h1)))
  case sym h1 h2 h3 => exact .inr (.inr (.inr (.inr (.inl h1))))
  case param => exact .inr (.inr (.inr (.inr (.inr rfl))))

theorem token_ne {s r : Str} {t : Tok} (h : Token s t r) : s ≠ [] := by
  rintro rfl
  cases h
  case word w h2 h3 h1 => simp [lexWord] at h1
  case ident v h1 => obtain ⟨b, e, _⟩ := h1; cases e
  case lit v h1 => cases h1

/-- White space is skipped. -/
theorem lex_space {c : Char} (hc : isSpace c = true) (s : Str) (l : List Tok) : Lex (c :: s) l ↔ Lex s l := by
  constructor
  · intro h
    generalize e : c :: s = x at h
    cases h with
    | nil => cases e
    | space c' s' l' _ h => injection e with _ e; exact e ▸ h
    | comment => injection e with e _; subst e; exact absurd hc (by decide)
    | lastComment => injection e with e _; subst e; exact absurd hc (by decide)
    | token s' t rest l' h1 h2 =>
      subst e
      exfalso
      have := token_head h1
      simp only [isSpace, List.contains_eq_mem, List.mem_cons, List.not_mem_nil, or_false, decide_eq_true_eq] at hc
      rcases hc with rfl | rfl | rfl | rfl | rfl | rfl <;> revert this <;> decide
  · exact fun h => .space _ _ _ hc h

theorem lex_nil (l : List Tok) : Lex [] l ↔ l = [] := by
  constructor
  · intro h
    generalize e : ([] : Str) = x at h
    cases h with
    | nil => rfl
    | space => cases e
    | comment => cases e
    | lastComment => cases e
    | token s t rest l' h1 h2 => exact absurd e.symm (token_ne h1)
  · rintro rfl; exact .nil

/-- If the text begins with a token and this is the only way, that is how it is read. -/
theorem lex_token {c : Char} {s rest : Str} {t : Tok} (hs : isSpace c = false) (hd : ¬ (c = '-' ∧ s.head? = some '-')) (h : ∀ t' r', Token (c :: s) t' r' ↔ t' = t ∧ r' = rest) (l : List Tok) :
    Lex (c :: s) l ↔ ∃ l', l = t :: l' ∧ Lex rest l' := by
  constructor
  · intro h'
    generalize e : c :: s = x at h'
    cases h' with
    | nil => cases e
    | space c' s' l' hc _ => injection e with e _; subst e; rw [hs] at hc; cases hc
    | comment => injection e with e e2; subst e e2; exact absurd ⟨rfl, rfl⟩ hd
    | lastComment => injection e with e e2; subst e e2; exact absurd ⟨rfl, rfl⟩ hd
    | token s' t' r' l' h1 h2 =>
      subst e
      obtain ⟨rfl, rfl⟩ := (h t' r').1 h1
      exact ⟨l', rfl, h2⟩
  · rintro ⟨l', rfl, h2⟩
    exact .token _ _ _ _ ((h _ _).2 ⟨rfl, rfl⟩) h2

/-- A word: begins as one, and all characters are those of words. -/
def IsWord (w : Str) : Prop := (∃ c r, w = c :: r ∧ identStart c = true) ∧ ∀ c ∈ w, identCont c = true

/-- What may follow a word. -/
def After (rest : Str) : Prop := ∀ c, rest.head? = some c → identCont c = false ∧ c ≠ '\'' ∧ c ≠ '&'

theorem lexWord_append {w rest : Str} (hw : IsWord w) (hr : ∀ c, rest.head? = some c → identCont c = false) : lexWord (w ++ rest) = some (w, rest) := by
  obtain ⟨⟨c, r, rfl, hc⟩, hall⟩ := hw
  have h1 : ∀ x ∈ r, identCont x = true := fun x hx => hall x (by simp [hx])
  rw [List.cons_append]
  unfold lexWord
  dsimp only
  rw [if_pos hc]
  rw [List.takeWhile_append_of_pos h1, List.dropWhile_append_of_pos h1]
  cases rest with
  | nil => simp
  | cons d rest =>
    have := hr d rfl
    simp [List.takeWhile, List.dropWhile, this]

theorem start_class {c : Char} (h : identStart c = true) : isSpace c = false ∧ c ≠ '-' ∧ c ≠ '"' ∧ c ≠ '\'' ∧ c.isDigit = false ∧ isSym c = false ∧ c ≠ '$' := by
  have hne : ∀ d : Char, identStart d = false → c ≠ d := fun d hd e => by subst e; rw [h] at hd; cases hd
  refine ⟨?_, hne _ (by decide), hne _ (by decide), hne _ (by decide), ?_, ?_, hne _ (by decide)⟩
  · cases hb : isSpace c with
    | false => rfl
    | true =>
      simp only [isSpace, List.contains_eq_mem, List.mem_cons, List.not_mem_nil, or_false, decide_eq_true_eq] at hb
      rcases hb with rfl | rfl | rfl | rfl | rfl | rfl <;> revert h <;> decide
  · cases hb : c.isDigit with
    | false => rfl
    | true =>
      exfalso
      simp only [identStart, Bool.or_eq_true, decide_eq_true_eq, Char.isAlpha, Char.isUpper, Char.isLower, Bool.and_eq_true] at h
      simp only [Char.isDigit, Bool.and_eq_true, decide_eq_true_eq, ge_iff_le] at hb
      obtain ⟨_, h2⟩ := hb
      have h2 := UInt32.le_iff_toNat_le.1 h2
      have h57 : c.toNat ≤ 57 := h2
      rcases h with ((⟨h, _⟩ | ⟨h, _⟩) | rfl) | h
      · have h : 65 ≤ c.toNat := UInt32.le_iff_toNat_le.1 h
        omega
      · have h : 97 ≤ c.toNat := UInt32.le_iff_toNat_le.1 h
        omega
      · revert h57; decide
      · omega
  · cases hb : isSym c with
    | false => rfl
    | true =>
      simp only [isSym, List.contains_eq_mem, List.mem_cons, List.not_mem_nil, or_false, decide_eq_true_eq] at hb
      exfalso
      rcases hb with rfl | rfl | rfl | rfl | rfl | rfl | rfl | rfl | rfl | rfl | rfl | rfl | rfl | rfl | rfl | rfl | rfl | rfl | rfl | rfl | rfl | rfl | rfl | rfl | rfl <;> revert h <;> decide

theorem token_word {w rest : Str} (hw : IsWord w) (hr : After rest) (t' : Tok) (r' : Str) : Token (w ++ rest) t' r' ↔ t' = .word (foldCase w) ∧ r' = rest := by
  have hl := lexWord_append hw fun c hc => (hr c hc).1
  obtain ⟨⟨c, r, e, hc⟩, _⟩ := id hw
  obtain ⟨h1, h2, h3, h4, h5, h6, h7⟩ := start_class hc
  constructor
  · intro h
    generalize ex : w ++ rest = x at h hl
    cases h
    case word w' a b h =>
      rw [hl] at h
      cases h
      exact ⟨rfl, rfl⟩
    case ident v h =>
      obtain ⟨b, e', _⟩ := h
      subst e' e
      exact absurd (List.cons.inj ex).1 h3
    case lit v h =>
      subst e
      cases h <;> exact absurd (List.cons.inj ex).1 h4
    case num a b =>
      subst e
      rw [← (List.cons.inj ex).1, h5] at a
      cases a
    case sym a b d =>
      subst e
      rw [← (List.cons.inj ex).1, h6] at a
      cases a
    case param a b =>
      subst e
      exact absurd (List.cons.inj ex).1 h7
  · rintro ⟨rfl, rfl⟩
    exact .word _ _ _ hl (fun h => (hr _ h).2.1 rfl) (fun h => (hr _ h).2.2 rfl)

/-- A word is read. -/
theorem lex_word {w rest : Str} (hw : IsWord w) (hr : After rest) (l : List Tok) : Lex (w ++ rest) l ↔ ∃ l', l = .word (foldCase w) :: l' ∧ Lex rest l' := by
  have ht := token_word hw hr
  obtain ⟨⟨c, r, e, hc⟩, _⟩ := id hw
  obtain ⟨h1, h2, _⟩ := start_class hc
  subst e
  exact lex_token h1 (fun h => h2 h.1) ht l

/-- A quoted identifier is read. -/
theorem lex_ident {s rest : Str} (hs : s ≠ []) (h : rest.head? ≠ some '"') (l : List Tok) : Lex (quoteIdent s ++ rest) l ↔ ∃ l', l = .ident s :: l' ∧ Lex rest l' := by
  have hi := C27_ident s rest hs h
  refine lex_token (c := '"') (s := double '"' s ++ ['"'] ++ rest) (by decide) (fun h => by cases h.1) ?_ l
  intro t' r'
  constructor
  · intro hT
    generalize ex : '"' :: (double '"' s ++ ['"'] ++ rest) = x at hT
    cases hT
    case word w a b h => subst ex; have := lexWord_start h; exfalso; revert this; decide
    case ident v h =>
      subst ex
      obtain ⟨rfl, rfl⟩ := (hi v r').1 h
      exact ⟨rfl, rfl⟩
    case lit v h => cases h <;> cases ex
    case num a b => exfalso; cases (List.cons.inj ex).1; revert a; decide
    case sym a b d => exfalso; cases (List.cons.inj ex).1; revert a; decide
    case param a b => cases (List.cons.inj ex).1
  · rintro ⟨rfl, rfl⟩
    exact .ident _ _ _ ((hi _ _).2 ⟨rfl, rfl⟩)

/-- A string constant is read. -/
theorem lex_lit {s rest : Str} (h : rest.head? ≠ some '\'') (hc : ¬ Continues rest) (l : List Tok) : Lex (quoteLiteral s ++ rest) l ↔ ∃ l', l = .lit s :: l' ∧ Lex rest l' := by
  have hi := C27_literal s rest h hc
  refine lex_token (c := '\'') (s := double '\'' s ++ ['\''] ++ rest) (by decide) (fun h => by cases h.1) ?_ l
  intro t' r'
  constructor
  · intro hT
    generalize ex : '\'' :: (double '\'' s ++ ['\''] ++ rest) = x at hT
    cases hT
    case word w a b h => subst ex; have := lexWord_start h; exfalso; revert this; decide
    case ident v h => obtain ⟨b, e, _⟩ := h; subst e; cases ex
    case lit v h =>
      subst ex
      obtain ⟨rfl, rfl⟩ := (hi v r').1 h
      exact ⟨rfl, rfl⟩
    case num a b => exfalso; cases (List.cons.inj ex).1; revert a; decide
    case sym a b d => exfalso; cases (List.cons.inj ex).1; revert a; decide
    case param a b => cases (List.cons.inj ex).1
  · rintro ⟨rfl, rfl⟩
    exact .lit _ _ _ ((hi _ _).2 ⟨rfl, rfl⟩)

theorem sym_class {c : Char} (h : isSym c = true) : isSpace c = false ∧ identStart c = false ∧ c ≠ '"' ∧ c ≠ '\'' ∧ c.isDigit = false ∧ c ≠ '$' := by
  simp only [isSym, List.contains_eq_mem, List.mem_cons, List.not_mem_nil, or_false, decide_eq_true_eq] at h
  rcases h with rfl | rfl | rfl | rfl | rfl | rfl | rfl | rfl | rfl | rfl | rfl | rfl | rfl | rfl | rfl | rfl | rfl | rfl | rfl | rfl | rfl | rfl | rfl | rfl | rfl <;> decide

/-- A symbol is read. -/
theorem lex_sym {c : Char} {rest : Str} (h : isSym c = true) (h1 : ¬ (c = '-' ∧ rest.head? = some '-')) (h2 : ¬ (c = '/' ∧ rest.head? = some '*')) (l : List Tok) :
    Lex (c :: rest) l ↔ ∃ l', l = .sym c :: l' ∧ Lex rest l' := by
  obtain ⟨a1, a2, a3, a4, a5, a7⟩ := sym_class h
  refine lex_token a1 h1 ?_ l
  intro t' r'
  constructor
  · intro hT
    generalize ex : c :: rest = x at hT
    cases hT
    case word w a b h => subst ex; have := lexWord_start h; rw [a2] at this; cases this
    case ident v h => obtain ⟨b, e, _⟩ := h; subst e; exact absurd (List.cons.inj ex).1 a3
    case lit v h => cases h <;> exact absurd (List.cons.inj ex).1 a4
    case num a b => rw [← (List.cons.inj ex).1, a5] at a; cases a
    case sym a b d => cases ex; exact ⟨rfl, rfl⟩
    case param a b => exact absurd (List.cons.inj ex).1 a7
  · rintro ⟨rfl, rfl⟩
    exact .sym _ _ h h1 h2

theorem digit_class {c : Char} (h : c.isDigit = true) : isSpace c = false ∧ identStart c = false ∧ c ≠ '"' ∧ c ≠ '\'' ∧ isSym c = false ∧ c ≠ '-' ∧ c ≠ '$' := by
  have hne : ∀ d : Char, d.isDigit = false → c ≠ d := fun d hd e => by subst e; rw [h] at hd; cases hd
  refine ⟨?_, ?_, hne _ (by decide), hne _ (by decide), ?_, hne _ (by decide), hne _ (by decide)⟩
  · cases hb : isSpace c with
    | false => rfl
    | true =>
      simp only [isSpace, List.contains_eq_mem, List.mem_cons, List.not_mem_nil, or_false, decide_eq_true_eq] at hb
      rcases hb with rfl | rfl | rfl | rfl | rfl | rfl <;> revert h <;> decide
  · cases hb : identStart c with
    | false => rfl
    | true => rw [(start_class hb).2.2.2.2.1] at h; cases h
  · cases hb : isSym c with
    | false => rfl
    | true => rw [(sym_class hb).2.2.2.2.1] at h; cases h

/-- A number is read. -/
theorem lex_num (n : Nat) {rest : Str} (hr : ∀ c, rest.head? = some c → c.isDigit = false ∧ identStart c = false ∧ c ≠ '.') (l : List Tok) :
    Lex (Nat.toDigits 10 n ++ rest) l ↔ ∃ l', l = .num n :: l' ∧ Lex rest l' := by
  cases hd : Nat.toDigits 10 n with
  | nil => exact absurd hd (Nat.toDigits_ne_nil)
  | cons c s =>
    have hall : ∀ x ∈ c :: s, x.isDigit = true := fun x hx => Nat.isDigit_of_mem_toDigits (by decide) (by decide) (hd ▸ hx)
    have hs : ∀ x ∈ s, x.isDigit = true := fun x hx => hall x (by simp [hx])
    have hc := hall c (by simp)
    have ht : (s ++ rest).takeWhile Char.isDigit = s ∧ (s ++ rest).dropWhile Char.isDigit = rest := by
      rw [List.takeWhile_append_of_pos hs, List.dropWhile_append_of_pos hs]
      cases rest with
      | nil => simp
      | cons d r => have := (hr d rfl).1; simp [List.takeWhile, List.dropWhile, this]
    have hv : Nat.ofDigitChars 10 (c :: s) 0 = n := by rw [← hd]; exact Nat.ofDigitChars_ten_toDigits
    obtain ⟨a1, a2, a3, a4, a5, a6, a7⟩ := digit_class hc
    refine lex_token a1 (fun h => a6 h.1) ?_ l
    intro t' r'
    constructor
    · intro hT
      generalize ex : c :: (s ++ rest) = x at hT
      cases hT
      case word w a b h => subst ex; have := lexWord_start h; rw [a2] at this; cases this
      case ident v h => obtain ⟨b, e, _⟩ := h; subst e; exact absurd (List.cons.inj ex).1 a3
      case lit v h => cases h <;> exact absurd (List.cons.inj ex).1 a4
      case num a b => cases ex; rw [ht.1, ht.2, hv]; exact ⟨rfl, rfl⟩
      case sym a b d => rw [← (List.cons.inj ex).1, a5] at a; cases a
      case param a b => exact absurd (List.cons.inj ex).1 a7
    · rintro ⟨rfl, e⟩
      rw [e]
      have := Token.num c (s ++ rest) hc (by rw [ht.2]; intro d hd; exact (hr d hd).2)
      rw [ht.1, ht.2, hv] at this
      exact this

/-- A parameter is read. -/
theorem lex_param (n : Nat) {rest : Str} (hr : ∀ c, rest.head? = some c → c.isDigit = false ∧ identStart c = false) (l : List Tok) :
    Lex ('$' :: (Nat.toDigits 10 n ++ rest)) l ↔ ∃ l', l = .param n :: l' ∧ Lex rest l' := by
  cases hd : Nat.toDigits 10 n with
  | nil => exact absurd hd (Nat.toDigits_ne_nil)
  | cons c s =>
    have hall : ∀ x ∈ c :: s, x.isDigit = true := fun x hx => Nat.isDigit_of_mem_toDigits (by decide) (by decide) (hd ▸ hx)
    have hs : ∀ x ∈ s, x.isDigit = true := fun x hx => hall x (by simp [hx])
    have hc := hall c (by simp)
    have ht : (s ++ rest).takeWhile Char.isDigit = s ∧ (s ++ rest).dropWhile Char.isDigit = rest := by
      rw [List.takeWhile_append_of_pos hs, List.dropWhile_append_of_pos hs]
      cases rest with
      | nil => simp
      | cons d r => have := (hr d rfl).1; simp [List.takeWhile, List.dropWhile, this]
    have hv : Nat.ofDigitChars 10 (c :: s) 0 = n := by rw [← hd]; exact Nat.ofDigitChars_ten_toDigits
    refine lex_token (c := '$') (s := c :: (s ++ rest)) (by decide) (fun h => by cases h.1) ?_ l
    intro t' r'
    constructor
    · intro hT
      generalize ex : '$' :: c :: (s ++ rest) = x at hT
      cases hT
      case word w a b h => subst ex; have := lexWord_start h; exfalso; revert this; decide
      case ident v h => obtain ⟨b, e, _⟩ := h; subst e; cases ex
      case lit v h => cases h <;> cases ex
      case num a b => exfalso; cases (List.cons.inj ex).1; revert a; decide
      case sym a b d => exfalso; cases (List.cons.inj ex).1; revert a; decide
      case param a b => cases ex; rw [ht.1, ht.2, hv]; exact ⟨rfl, rfl⟩
    · rintro ⟨rfl, e⟩
      rw [e]
      have := Token.param c (s ++ rest) hc (by rw [ht.2]; intro d hd; exact (hr d hd).2)
      rw [ht.1, ht.2, hv] at this
      exact this

/-! ## Texts put together -/

/-- Before a text that `ok` holds of, `p` reads as the tokens `ts`. -/
def Piece (ok : Str → Prop) (p : Str) (ts : List Tok) : Prop := ∀ rest, ok rest → ∀ l, Lex (p ++ rest) l ↔ ∃ l', l = ts ++ l' ∧ Lex rest l'

theorem Piece.append {ok ok' : Str → Prop} {p p' : Str} {ts ts' : List Tok} (h : Piece ok p ts) (h' : Piece ok' p' ts') (hok : ∀ rest, ok' rest → ok (p' ++ rest)) :
    Piece ok' (p ++ p') (ts ++ ts') := by
  intro rest hr l
  rw [List.append_assoc, h _ (hok _ hr)]
  constructor
  · rintro ⟨l', rfl, h1⟩
    obtain ⟨l'', rfl, h2⟩ := (h' _ hr _).1 h1
    exact ⟨l'', by simp, h2⟩
  · rintro ⟨l', rfl, h1⟩
    exact ⟨ts' ++ l', by simp, (h' _ hr _).2 ⟨l', rfl, h1⟩⟩

theorem Piece.weaken {ok ok' : Str → Prop} {p : Str} {ts : List Tok} (h : Piece ok p ts) (hok : ∀ rest, ok' rest → ok rest) : Piece ok' p ts := fun _ hr => h _ (hok _ hr)

theorem piece_word {w : Str} (hw : IsWord w) : Piece After w [.word (foldCase w)] := fun _ hr l => lex_word hw hr l
theorem piece_ident {s : Str} (hs : s ≠ []) : Piece (fun r => r.head? ≠ some '"') (quoteIdent s) [.ident s] := fun _ hr l => lex_ident hs hr l
theorem piece_lit (s : Str) : Piece (fun r => r.head? ≠ some '\'' ∧ ¬ Continues r) (quoteLiteral s) [.lit s] := fun _ hr l => lex_lit hr.1 hr.2 l
theorem piece_sym {c : Char} (h : isSym c = true) (h1 : c ≠ '-') (h2 : c ≠ '/') : Piece (fun _ => True) [c] [.sym c] :=
  fun _ _ l => lex_sym h (fun h => h1 h.1) (fun h => h2 h.1) l
theorem piece_minus : Piece (fun r => r.head? ≠ some '-') ['-'] [.sym '-'] := fun _ hr l => lex_sym (by decide) (fun h => hr h.2) (fun h => by cases h.1) l
theorem piece_space : Piece (fun _ => True) [' '] [] := fun rest _ l => by
  rw [List.cons_append, List.nil_append, lex_space (by decide)]
  simp
theorem piece_num (n : Nat) : Piece (fun r => ∀ c, r.head? = some c → c.isDigit = false ∧ identStart c = false ∧ c ≠ '.') (Nat.toDigits 10 n) [.num n] := fun _ hr l => lex_num n hr l
theorem piece_param (n : Nat) : Piece (fun r => ∀ c, r.head? = some c → c.isDigit = false ∧ identStart c = false) ('$' :: Nat.toDigits 10 n) [.param n] := fun _ hr l => lex_param n hr l
theorem piece_nil : Piece (fun _ => True) [] [] := fun _ _ l => by simp

/-- A text that is a piece to its end reads as its tokens, and in no other way. -/
theorem Piece.lex {ok : Str → Prop} {p : Str} {ts : List Tok} (h : Piece ok p ts) (hok : ok []) (l : List Tok) : Lex p l ↔ l = ts := by
  have := h [] hok l
  rw [List.append_nil] at this
  rw [this]
  constructor
  · rintro ⟨l', rfl, h1⟩
    rw [(lex_nil _).1 h1, List.append_nil]
  · rintro rfl
    exact ⟨[], by simp, .nil⟩

theorem Piece.reads {ok : Str → Prop} {p : Str} {ts : List Tok} {ss : List (List Tok)} (h : Piece ok p ts) (hok : ok []) (hs : statements ts = ss) : Reads p ss :=
  ⟨ts, (h.lex hok ts).2 rfl, fun l' hl => (h.lex hok l').1 hl, hs⟩

end PG.Proofs.SqlText
