import Verif.Spec.ElementText
/-! # Proofs for C81: what a text shows -/
namespace PG.Proofs.ElementText
open PG PG.PyStr PG.Installation PG.ElementText PG.Spec.ElementText

/-- Line breaks are white space. -/
def Spaces (U : Unicode) : Prop := ∀ c, isBreak c = true → U.isSpace c = true

variable {U : Unicode}

theorem blank_space : U.isSpace ' ' = true := by rw [U.space_ascii _ (by decide)]; decide

/-! ## Stripping -/

theorem rstrip_append (a b : Str) : rstrip U (a ++ b) = if rstrip U b = [] then rstrip U a else a ++ rstrip U b := by
  unfold rstrip
  rw [List.reverse_append, List.dropWhile_append]
  by_cases h : List.dropWhile U.isSpace b.reverse = []
  · simp [h]
  · simp [h]

theorem rstrip_nil_iff {s : Str} : rstrip U s = [] ↔ ∀ c ∈ s, U.isSpace c = true := by
  unfold rstrip
  rw [List.reverse_eq_nil_iff]
  constructor
  · intro h c hc
    have key : ∀ l : Str, l.dropWhile U.isSpace = [] → ∀ c ∈ l, U.isSpace c = true := by
      intro l
      induction l with
      | nil => intro _ c hc; cases hc
      | cons d l ih =>
        intro h c hc
        rw [List.dropWhile_cons] at h
        split at h
        · rcases List.mem_cons.1 hc with rfl | hc
          · assumption
          · exact ih h c hc
        · cases h
    exact key _ h c (List.mem_reverse.2 hc)
  · intro h
    have key : ∀ l : Str, (∀ c ∈ l, U.isSpace c = true) → l.dropWhile U.isSpace = [] := by
      intro l
      induction l with
      | nil => intro _; rfl
      | cons d l ih =>
        intro h
        rw [List.dropWhile_cons, if_pos (h d (by simp))]
        exact ih fun c hc => h c (by simp [hc])
    exact key _ fun c hc => h c (List.mem_reverse.1 hc)

theorem rstrip_space {a : Str} {w : Str} (hw : ∀ c ∈ w, U.isSpace c = true) : rstrip U (a ++ w) = rstrip U a := by
  rw [rstrip_append, if_pos (rstrip_nil_iff.2 hw)]

/-- What is stripped. -/
theorem rstrip_split (s : Str) : ∃ w, s = rstrip U s ++ w ∧ ∀ c ∈ w, U.isSpace c = true := by
  refine ⟨(s.reverse.takeWhile U.isSpace).reverse, ?_, fun c hc => ?_⟩
  · unfold rstrip
    rw [← List.reverse_append, List.takeWhile_append_dropWhile, List.reverse_reverse]
  · have := List.mem_reverse.1 hc
    exact List.all_eq_true.1 (List.all_takeWhile (l := s.reverse) (p := U.isSpace)) c this

theorem rstrip_idem (s : Str) : rstrip U (rstrip U s) = rstrip U s := by
  obtain ⟨w, h, hw⟩ := rstrip_split (U := U) s
  conv => rhs; rw [h, rstrip_space hw]

/-! ## Pieces -/

/-- Cut at every character that ends a line. -/
def pieces : Str → List Str
  | [] => [[]]
  | c :: s => if isBreak c then [] :: pieces s else consHead c (pieces s)

def clean (U : Unicode) (ls : List Str) : List Str := (ls.map (rstrip U)).filter (· ≠ [])

theorem clean_append (a b : List Str) : clean U (a ++ b) = clean U a ++ clean U b := by simp [clean]
theorem clean_cons (a : Str) (b : List Str) : clean U (a :: b) = clean U [a] ++ clean U b := by rw [← clean_append]; rfl
theorem clean_one (a : Str) : clean U [a] = if rstrip U a = [] then [] else [rstrip U a] := by
  unfold clean
  by_cases h : rstrip U a = [] <;> simp [h]
theorem rstrip_nil : rstrip U [] = [] := rfl
theorem clean_nil_cons (b : List Str) : clean U ([] :: b) = clean U b := by
  rw [clean_cons, clean_one, rstrip_nil]; rfl

theorem pieces_cons_ex (s : Str) : ∃ y q, pieces s = y :: q := by
  cases s with
  | nil => exact ⟨[], [], rfl⟩
  | cons c s =>
    unfold pieces
    split
    · exact ⟨_, _, rfl⟩
    · cases pieces s with
      | nil => exact ⟨_, _, rfl⟩
      | cons => exact ⟨_, _, rfl⟩

theorem pieces_plain {c : Char} {s y : Str} {q : List Str} (hc : isBreak c = false) (h : pieces s = y :: q) : pieces (c :: s) = (c :: y) :: q := by
  unfold pieces; rw [hc, h]; rfl

theorem lines_pieces : ∀ (s : Str), s ≠ [] → ∃ y ys q, lines s = y :: ys ∧ pieces s = y :: q ∧ clean U ys = clean U q
  | [], h => absurd rfl h
  | [c], _ => by
    cases hc : isBreak c with
    | true => exact ⟨[], [], [[]], by simp [lines, hc], by simp [pieces, hc], by rw [clean_nil_cons]⟩
    | false => exact ⟨[c], [], [], by simp [lines, hc], by simp [pieces, hc, consHead], rfl⟩
  | c :: d :: s, _ => by
    by_cases hr : c = '\r' ∧ d = '\n'
    · obtain ⟨rfl, rfl⟩ := hr
      refine ⟨[], lines s, [] :: pieces s, by simp [lines], by simp [pieces, (by decide : isBreak '\r' = true), (by decide : isBreak '\n' = true)], ?_⟩
      rw [clean_nil_cons]
      cases s with
      | nil => simp [lines, pieces, clean_nil_cons]
      | cons e s =>
        obtain ⟨y, ys, q, h1, h2, h3⟩ := lines_pieces (e :: s) (by simp)
        rw [h1, h2, clean_cons, h3, ← clean_cons]
    · obtain ⟨y, ys, q, h1, h2, h3⟩ := lines_pieces (d :: s) (by simp)
      have hl : lines (c :: d :: s) = if isBreak c then [] :: lines (d :: s) else consHead c (lines (d :: s)) := by
        rw [lines, if_neg hr]
      cases hc : isBreak c with
      | true =>
        refine ⟨[], lines (d :: s), pieces (d :: s), by rw [hl, hc]; rfl, by rw [pieces, hc]; rfl, ?_⟩
        rw [h1, h2, clean_cons, h3, ← clean_cons]
      | false =>
        exact ⟨c :: y, ys, q, by rw [hl, hc, h1]; rfl, pieces_plain hc h2, h3⟩

theorem shown_pieces (s : Str) : Shown U s = clean U (pieces s) := by
  cases s with
  | nil => rw [show pieces [] = [[]] from rfl, clean_nil_cons]; rfl
  | cons c s =>
    obtain ⟨y, ys, q, h1, h2, h3⟩ := lines_pieces (U := U) (c :: s) (by simp)
    show clean U (lines (c :: s)) = _
    rw [h1, h2, clean_cons, h3, ← clean_cons]

/-- Where two texts meet. -/
theorem pieces_append {a b y : Str} {q : List Str} (hb : pieces b = y :: q) : ∃ p x, pieces a = p ++ [x] ∧ pieces (a ++ b) = p ++ (x ++ y) :: q := by
  induction a with
  | nil => exact ⟨[], [], rfl, hb⟩
  | cons c a ih =>
    obtain ⟨p, x, h1, h2⟩ := ih
    cases hc : isBreak c with
    | true => exact ⟨[] :: p, x, by rw [pieces, hc, h1]; rfl, by rw [List.cons_append, pieces, hc, h2]; rfl⟩
    | false =>
      cases p with
      | nil => exact ⟨[], c :: x, pieces_plain hc h1, by rw [List.cons_append]; exact pieces_plain hc h2⟩
      | cons z p => exact ⟨(c :: z) :: p, x, by rw [List.cons_append] at h1; exact pieces_plain hc h1, by rw [List.cons_append]; exact pieces_plain hc h2⟩

theorem pieces_mem {s : Str} : ∀ x ∈ pieces s, ∀ c ∈ x, c ∈ s ∧ isBreak c = false := by
  induction s with
  | nil => intro x hx c hc; simp [pieces] at hx; subst hx; cases hc
  | cons d s ih =>
    obtain ⟨y, q, h⟩ := pieces_cons_ex s
    intro x hx c hc
    cases hd : isBreak d with
    | true =>
      rw [pieces, hd] at hx
      simp only [if_true] at hx
      rcases List.mem_cons.1 hx with rfl | hx
      · cases hc
      · exact ⟨by simp [(ih x hx c hc).1], (ih x hx c hc).2⟩
    | false =>
      rw [pieces_plain hd h] at hx
      rw [h] at ih
      rcases List.mem_cons.1 hx with rfl | hx
      · rcases List.mem_cons.1 hc with rfl | hc
        · exact ⟨by simp, hd⟩
        · have := ih y (by simp) c hc
          exact ⟨by simp [this.1], this.2⟩
      · have := ih x (by simp [hx]) c hc
        exact ⟨by simp [this.1], this.2⟩

theorem pieces_plain_text {s : Str} (h : ∀ c ∈ s, isBreak c = false) : pieces s = [s] := by
  induction s with
  | nil => rfl
  | cons c s ih => exact pieces_plain (h c (by simp)) (ih fun d hd => h d (by simp [hd]))

theorem clean_all_space {ls : List Str} (h : ∀ x ∈ ls, ∀ c ∈ x, U.isSpace c = true) : clean U ls = [] := by
  unfold clean
  rw [List.filter_eq_nil_iff]
  intro y hy
  obtain ⟨x, hx, rfl⟩ := List.mem_map.1 hy
  simp [rstrip_nil_iff.2 (h x hx)]

/-! ## What texts show -/

/-- Two texts, a line break between them. -/
theorem shown_nl (a b : Str) : Shown U (a ++ '\n' :: b) = Shown U a ++ Shown U b := by
  have hb : pieces ('\n' :: b) = [] :: pieces b := rfl
  obtain ⟨p, x, h1, h2⟩ := pieces_append (a := a) hb
  rw [shown_pieces, shown_pieces, shown_pieces, h2, h1, List.append_nil, clean_append, clean_cons x (pieces b), clean_append, List.append_assoc]

/-- White space at the end is not shown. -/
theorem shown_space {a w : Str} (hw : ∀ c ∈ w, U.isSpace c = true) : Shown U (a ++ w) = Shown U a := by
  obtain ⟨y, q, hq⟩ := pieces_cons_ex w
  obtain ⟨p, x, h1, h2⟩ := pieces_append (a := a) hq
  have hy : ∀ c ∈ y, U.isSpace c = true := fun c hc => hw c (pieces_mem y (by rw [hq]; simp) c hc).1
  have hqs : clean U q = [] := clean_all_space fun z hz c hc => hw c (pieces_mem z (by rw [hq]; simp [hz]) c hc).1
  rw [shown_pieces, shown_pieces, h1, h2, clean_append, clean_append, clean_cons (x ++ y) q, hqs, clean_one, clean_one, rstrip_space hy]
  simp

theorem shown_rstrip (a s : Str) : Shown U (a ++ rstrip U s) = Shown U (a ++ s) := by
  obtain ⟨w, h, hw⟩ := rstrip_split (U := U) s
  conv => rhs; rw [h, ← List.append_assoc, shown_space hw]

/-- White space at the beginning. -/
theorem shown_lstrip (hU : Spaces U) (s : Str) : Shown U (lstrip U s) = match Shown U s with | [] => [] | x :: xs => lstrip U x :: xs := by
  induction s with
  | nil => rfl
  | cons c s ih =>
    obtain ⟨y, q, hq⟩ := pieces_cons_ex s
    cases hs : U.isSpace c with
    | true =>
      rw [show lstrip U (c :: s) = lstrip U s by unfold lstrip; rw [List.dropWhile_cons, hs]; rfl, ih]
      cases hc : isBreak c with
      | true => rw [shown_pieces (c :: s), pieces, hc, if_pos rfl, clean_nil_cons, ← shown_pieces]
      | false =>
        rw [shown_pieces (c :: s), shown_pieces s, pieces_plain hc hq, hq, clean_cons (c :: y), clean_cons y q, clean_one (c :: y), clean_one y, show c :: y = [c] ++ y from rfl, rstrip_append]
        by_cases hy : rstrip U y = []
        · have : rstrip U [c] = [] := rstrip_nil_iff.2 (by simpa using hs)
          simp [hy, this]
        · simp only [hy, if_false, reduceCtorEq, List.cons_append, List.nil_append]
          rw [show lstrip U (c :: rstrip U y) = lstrip U (rstrip U y) by unfold lstrip; rw [List.dropWhile_cons, hs]; rfl]
    | false =>
      have hc : isBreak c = false := by
        cases hc : isBreak c with
        | false => rfl
        | true => rw [hU c hc] at hs; cases hs
      rw [show lstrip U (c :: s) = c :: s by unfold lstrip; rw [List.dropWhile_cons, hs]; rfl]
      rw [shown_pieces, pieces_plain hc hq, clean_cons (c :: y) q, clean_one (c :: y), show c :: y = [c] ++ y from rfl, rstrip_append]
      have h1 : rstrip U [c] = [c] := by
        have : rstrip U ([] ++ [c]) = [] ++ rstrip U [c] := by simp
        unfold rstrip; simp [hs]
      by_cases hy : rstrip U y = []
      · simp only [hy, if_true, h1, reduceCtorEq, if_false, List.cons_append, List.nil_append]
        rw [show lstrip U [c] = [c] by unfold lstrip; rw [List.dropWhile_cons, hs]; rfl]
      · simp only [hy, if_false, reduceCtorEq, List.cons_append, List.nil_append]
        rw [show lstrip U (c :: rstrip U y) = c :: rstrip U y by unfold lstrip; rw [List.dropWhile_cons, hs]; rfl]

/-- A text that does not begin with white space, after another one. -/
theorem shown_after (hU : Spaces U) {t : Str} (p : Str) (ht : ∀ c s, t = c :: s → U.isSpace c = false) :
    Shown U (p ++ t) = match Shown U t with | [] => Shown U p | x :: xs => Shown U (p ++ x) ++ xs := by
  cases t with
  | nil =>
    rw [show Shown U ([] : Str) = [] from rfl, List.append_nil]
  | cons c s =>
    have hs := ht c s rfl
    have hc : isBreak c = false := by
      cases hc : isBreak c with
      | false => rfl
      | true => rw [hU c hc] at hs; cases hs
    obtain ⟨y, q, hq⟩ := pieces_cons_ex s
    have hp := pieces_plain hc hq
    obtain ⟨r, x, h1, h2⟩ := pieces_append (a := p) hp
    have hne : rstrip U (c :: y) ≠ [] := fun h => by
      have := rstrip_nil_iff.1 h c (by simp)
      rw [hs] at this; cases this
    have hst : Shown U (c :: s) = rstrip U (c :: y) :: clean U q := by
      rw [shown_pieces, hp, clean_cons (c :: y) q, clean_one, if_neg hne]; rfl
    rw [hst]
    dsimp only
    rw [shown_pieces, h2]
    have hpl : ∀ d ∈ rstrip U (c :: y), isBreak d = false := by
      intro d hd
      obtain ⟨w, hw, _⟩ := rstrip_split (U := U) (c :: y)
      exact (pieces_mem (s := c :: s) (c :: y) (by rw [hp]; simp) d (by rw [hw]; simp [hd])).2
    obtain ⟨r', x', h1', h2'⟩ := pieces_append (a := p) (pieces_plain_text hpl)
    have hrx : r' = r ∧ x' = x := by
      rw [h1] at h1'
      have := List.append_inj' h1' rfl
      exact ⟨this.1.symm, by simpa using this.2.symm⟩
    obtain ⟨rfl, rfl⟩ := hrx
    rw [shown_pieces (p ++ _), h2', clean_append, clean_append, clean_cons (_ ++ (c :: y)) q, clean_one, clean_one, rstrip_append, rstrip_append, rstrip_idem, if_neg hne, List.append_assoc]

/-! ## Indented texts -/

theorem lines_plain_text (s : Str) : ∀ x ∈ lines s, ∀ c ∈ x, isBreak c = false := by
  have key : ∀ n, ∀ s : Str, s.length ≤ n → ∀ x ∈ lines s, ∀ c ∈ x, isBreak c = false := by
    intro n
    induction n with
    | zero =>
      intro s hs x hx
      cases s with
      | nil => cases hx
      | cons => simp at hs
    | succ n ih =>
      intro s hs x hx c hc
      match s, hs, hx with
      | [], _, hx => cases hx
      | [d], _, hx =>
        cases hd : isBreak d with
        | true => simp [lines, hd] at hx; subst hx; cases hc
        | false => simp [lines, hd] at hx; subst hx; simp at hc; rw [hc]; exact hd
      | d :: e :: s, hs, hx =>
        rw [lines] at hx
        split at hx
        · rcases List.mem_cons.1 hx with rfl | hx
          · cases hc
          · exact ih s (by simp at hs; omega) x hx c hc
        · split at hx
          · rcases List.mem_cons.1 hx with rfl | hx
            · cases hc
            · exact ih (e :: s) (by simp at hs ⊢; omega) x hx c hc
          · rename_i hd
            have ih' := ih (e :: s) (by simp at hs ⊢; omega)
            cases hl : lines (e :: s) with
            | nil =>
              rw [hl] at hx
              simp [consHead] at hx
              subst hx
              simp at hc; rw [hc]; simpa using hd
            | cons y ys =>
              rw [hl] at hx ih'
              simp only [consHead] at hx
              rcases List.mem_cons.1 hx with rfl | hx
              · rcases List.mem_cons.1 hc with rfl | hc
                · simpa using hd
                · exact ih' y (by simp) c hc
              · exact ih' x (by simp [hx]) c hc
  exact key s.length s (Nat.le_refl _)

theorem rstrip_indent (x : Str) : rstrip U (' ' :: ' ' :: x) = if rstrip U x = [] then [] else ' ' :: ' ' :: rstrip U x := by
  rw [show ' ' :: ' ' :: x = [' ', ' '] ++ x from rfl, rstrip_append]
  have : rstrip U [' ', ' '] = [] := rstrip_nil_iff.2 (by simp [blank_space])
  rw [this]; rfl

theorem shown_indent_lines (b : Str) : ∀ (ls : List Str), (∀ x ∈ ls, ∀ c ∈ x, isBreak c = false) → Shown U ((ls.flatMap fun x => rstrip U (' ' :: ' ' :: x) ++ ['\n']) ++ b) = inner (clean U ls) ++ Shown U b
  | [], _ => rfl
  | x :: ls, h => by
    have hx : Shown U (rstrip U (' ' :: ' ' :: x)) = inner (clean U [x]) := by
      have := shown_rstrip (U := U) [] (' ' :: ' ' :: x)
      rw [List.nil_append, List.nil_append] at this
      have hp : ∀ c ∈ ' ' :: ' ' :: x, isBreak c = false := by
        intro c hc
        rcases List.mem_cons.1 hc with rfl | hc
        · decide
        · rcases List.mem_cons.1 hc with rfl | hc
          · decide
          · exact h x (by simp) c hc
      rw [this, shown_pieces, pieces_plain_text hp, clean_one, clean_one, rstrip_indent]
      by_cases hr : rstrip U x = [] <;> simp [hr, inner]
    rw [List.flatMap_cons, List.append_assoc, List.append_assoc, List.singleton_append, shown_nl, hx, shown_indent_lines b ls fun y hy => h y (by simp [hy]), clean_cons x ls]
    simp [inner, List.append_assoc]

theorem shown_indent (s b : Str) : Shown U (indent U s ++ b) = inner (Shown U s) ++ Shown U b := shown_indent_lines b (lines s) (lines_plain_text s)

theorem shown_indent' (s : Str) : Shown U (indent U s) = inner (Shown U s) := by
  have := shown_indent (U := U) s []
  rw [List.append_nil] at this
  rw [this]; simp [Shown, lines]

theorem shown_join (ls : List Str) : Shown U (join ['\n'] ls) = ls.flatMap (Shown U) := by
  induction ls with
  | nil => rfl
  | cons a ls ih =>
    cases ls with
    | nil => simp [join]
    | cons b r =>
      rw [show join ['\n'] (a :: b :: r) = a ++ '\n' :: join ['\n'] (b :: r) by simp [join], shown_nl, ih]
      rfl

theorem isLong_iff (s : Str) : isLong s = true ↔ s.length > 70 ∨ '\n' ∈ s := by simp [isLong]

theorem shown_factor (att t : Str) : Shown U (factorText U att t) = named U att t := by
  unfold factorText named
  by_cases h : t.length > 70 ∨ '\n' ∈ t
  · rw [if_pos ((isLong_iff t).2 h), if_pos h, show att ++ ':' :: '\n' :: indent U t = (att ++ [':']) ++ '\n' :: indent U t by simp, shown_nl, shown_indent']
  · rw [if_neg (fun h' => h ((isLong_iff t).1 h')), if_neg h]
    simp

theorem shown_meta (m : Option Str × Str) : Shown U (metaText U m) = detail U m := by
  obtain ⟨k, v⟩ := m
  cases k with
  | none => exact shown_rstrip [] v
  | some k =>
    show Shown U (metaText U (some k, v)) = named U k v
    rw [← shown_factor]
    unfold metaText factorText
    dsimp only
    by_cases h : isLong v = true
    · rw [if_pos h, if_pos h, show k ++ ':' :: '\n' :: rstrip U (indent U v) = (k ++ [':', '\n']) ++ rstrip U (indent U v) by simp, shown_rstrip]; simp
    · rw [if_neg h, if_neg h, show k ++ ':' :: ' ' :: rstrip U v = (k ++ [':', ' ']) ++ rstrip U v by simp, shown_rstrip]; simp

theorem indent_nil : indent U [] = [] := rfl
theorem or_indent (s : Str) : (if s = [] then s else indent U s) = indent U s := by
  split
  · rename_i h; rw [h]; rfl
  · rfl

theorem shown_own (hU : Spaces U) (label : Str) (metas : List (Option Str × Str)) (fs : List (Str × Str)) : Shown U (ownText U label metas fs) = own U label metas fs := by
  unfold ownText own
  simp only [or_indent]
  have hbody : Shown U (indent U (join ['\n'] (metas.map (metaText U))) ++ indent U (join ['\n'] (fs.map fun f => factorText U f.1 f.2))) =
      inner (metas.flatMap (detail U) ++ fs.flatMap fun f => named U f.1 f.2) := by
    rw [shown_indent, shown_indent', shown_join, shown_join]
    simp only [List.flatMap_map, shown_meta, shown_factor]
    simp [inner]
  generalize indent U (join ['\n'] (metas.map (metaText U))) ++ indent U (join ['\n'] (fs.map fun f => factorText U f.1 f.2)) = s at hbody
  have hiff : (metas.any fun m => m.1.isNone) = true ↔ ∃ m ∈ metas, m.1 = none := by simp
  rw [show ∀ z : Str, label ++ ':' :: z = (label ++ [':']) ++ z by simp, shown_rstrip]
  by_cases hn : ∃ m ∈ metas, m.1 = none
  · rw [if_pos (hiff.2 hn), if_pos hn, show label ++ [':'] ++ ' ' :: lstrip U s = (label ++ ": ".toList) ++ lstrip U s by simp]
    rw [shown_after hU _ (t := lstrip U s) (fun c r h => by
      have := List.head?_dropWhile_not U.isSpace s
      rw [show s.dropWhile U.isSpace = lstrip U s from rfl, h] at this
      simpa using this)]
    rw [shown_lstrip hU, hbody]
    cases inner (metas.flatMap (detail U) ++ fs.flatMap fun f => named U f.1 f.2) with
    | nil =>
      dsimp only
      rw [show label ++ ": ".toList = label ++ [':'] ++ [' '] by simp, shown_space (by simp [blank_space])]
    | cons x xs => rfl
  · rw [if_neg (fun h => hn (hiff.1 h)), if_neg hn, shown_nl, hbody]

end PG.Proofs.ElementText
