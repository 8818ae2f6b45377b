import Verif.Props.PgString
/-!
# C29: splitting SQL
-/
namespace PG.Props.SqlSplit
open PG PG.PyStr PG.PgString PG.Spec.PgString PG.Props.PgString

/-! ## What a match is -/

theorem scanE_split (s : Str) : (scanE s).1 ++ (scanE s).2 = s := by
  fun_induction scanE s <;> first | (rename_i r ih; simp only [r, List.cons_append, ih]) | (rename_i r _ _ ih; simp only [r, List.cons_append, ih]) | simp

theorem scanE_ne (s : Str) (h : s ≠ []) : (scanE s).1 ≠ [] := by
  fun_cases scanE s <;> simp_all

theorem scanQ_split (q : Char) (s : Str) : (scanQ q s).1 ++ (scanQ q s).2 = s := by
  fun_induction scanQ q s <;> first | (rename_i r ih; simp only [r, List.cons_append, ih]) | simp

theorem scanWord_spec (U : Unicode) : ∀ (s w r : Str), scanWord U s = some (w, r) → s = w ++ '$' :: r ∧ '$' ∉ w
  | [], _, _, h => by simp [scanWord] at h
  | c :: s, w, r, h => by
    rw [scanWord] at h
    by_cases hc : c = '$'
    · rw [if_pos hc] at h; cases h; simp [hc]
    · rw [if_neg hc] at h
      split at h
      · rw [Option.map_eq_some_iff] at h
        obtain ⟨⟨w', r'⟩, h1, h2⟩ := h
        cases h2
        obtain ⟨e, hn⟩ := scanWord_spec U s w' r' h1
        refine ⟨by rw [e]; rfl, ?_⟩
        simp only [List.mem_cons, not_or]
        exact ⟨fun hh => hc hh.symm, hn⟩
      · cases h

theorem scanTag_spec (U : Unicode) (s tag r : Str) (h : scanTag U s = some (tag, r)) : s = tag ++ r ∧ ∃ name, tag = '$' :: (name ++ ['$']) ∧ '$' ∉ name := by
  unfold scanTag at h
  split at h
  · rename_i c s'
    by_cases hc : c = '$'
    · rw [if_pos hc] at h; cases h; subst hc; exact ⟨rfl, [], rfl, by simp⟩
    · rw [if_neg hc] at h
      split at h
      · cases h
      · rw [Option.map_eq_some_iff] at h
        obtain ⟨⟨w, r'⟩, h1, h2⟩ := h
        cases h2
        obtain ⟨e, hn⟩ := scanWord_spec U _ _ _ h1
        refine ⟨by rw [e]; simp, c :: w, by simp, ?_⟩
        simp only [List.mem_cons, not_or]
        exact ⟨fun hh => hc hh.symm, hn⟩
  · cases h

theorem scanBody_spec (tag : Str) : ∀ (s y r : Str), scanBody tag s = some (y, r) → s = y ++ r ∧ ((∃ c, y = c ++ tag) ∨ r = [] ∨ r = ['\n'])
  | [], y, r, h => by rw [scanBody] at h; cases h; exact ⟨rfl, .inr (.inl rfl)⟩
  | c :: s, y, r, h => by
    rw [scanBody] at h
    by_cases hp : tag.isPrefixOf (c :: s) = true
    · rw [if_pos hp] at h
      cases h
      obtain ⟨t, ht⟩ := List.isPrefixOf_iff_prefix.1 hp
      exact ⟨by rw [← ht]; simp, .inl ⟨[], by simp⟩⟩
    · rw [if_neg hp] at h
      by_cases hn : c = '\n'
      · rw [if_pos hn] at h
        split at h
        · rename_i hs; cases h; subst hs; subst hn; exact ⟨rfl, .inr (.inr rfl)⟩
        · cases h
      · rw [if_neg hn, Option.map_eq_some_iff] at h
        obtain ⟨⟨y', r'⟩, h1, h2⟩ := h
        cases h2
        obtain ⟨e, hh⟩ := scanBody_spec tag s y' r' h1
        refine ⟨by rw [e]; rfl, ?_⟩
        rcases hh with ⟨d, hd⟩ | hh
        · exact .inl ⟨c :: d, by rw [hd]; rfl⟩
        · exact .inr hh

theorem matchAt_cases (U : Unicode) (s : Str) (m : Match) (h : matchAt U s = some m) :
    (∃ t, s = 'E' :: '\'' :: t ∧ m = ⟨'E' :: '\'' :: (scanE t).1, none, (scanE t).2⟩) ∨
    (∃ q t, (q = '\'' ∨ q = '"') ∧ s = q :: t ∧ m = ⟨q :: (scanQ q t).1, none, (scanQ q t).2⟩) ∨
    ∃ tag s' y r, scanTag U s = some (tag, s') ∧ scanBody tag s' = some (y, r) ∧ m = ⟨tag ++ y, some tag, r⟩ := by
  unfold matchAt at h
  split at h
  · cases h; exact .inl ⟨_, rfl, rfl⟩
  · cases h; exact .inr (.inl ⟨_, _, .inl rfl, rfl, rfl⟩)
  · cases h; exact .inr (.inl ⟨_, _, .inr rfl, rfl, rfl⟩)
  · split at h
    · cases h
    · rename_i tag s' ht
      rw [Option.map_eq_some_iff] at h
      obtain ⟨⟨y, r⟩, h1, h2⟩ := h
      cases h2
      exact .inr (.inr ⟨_, _, _, _, ht, h1, rfl⟩)

/-- The texts `split` and `unsplit` do not bring back: those that end in an escape string just opened, or in a dollar quote closed by a part
of its own opening. -/
def Overlap (s : Str) : Prop :=
  (∃ pre, s = pre ++ ['E', '\'']) ∨
  ∃ pre name nl, '$' ∉ name ∧ (nl = [] ∨ nl = ['\n']) ∧ s = pre ++ '$' :: (name ++ '$' :: (name ++ '$' :: nl))

theorem overlap_suffix {a s : Str} (h : Overlap s) : Overlap (a ++ s) := by
  rcases h with ⟨pre, rfl⟩ | ⟨pre, name, nl, h1, h2, rfl⟩
  · exact .inl ⟨a ++ pre, by simp⟩
  · exact .inr ⟨a ++ pre, name, nl, h1, h2, by simp⟩

/-- If `tag ++ y` ends with `tag` and `y` is shorter than the tag and not empty, `y` is all of the tag but its first `$`. -/
theorem tag_overlap (name y : Str) (hn : '$' ∉ name) (hlen : y.length < name.length + 2) (hy : y ≠ [])
    (he : ('$' :: (name ++ ['$']) ++ y).drop y.length = '$' :: (name ++ ['$'])) : y = name ++ ['$'] := by
  have hylen : 0 < y.length := List.length_pos_iff.2 hy
  have h1 : ('$' :: (name ++ ['$']) ++ y)[y.length]? = some '$' := by
    have := congrArg List.head? he
    rw [List.head?_drop] at this
    simpa using this
  have h2 : y.length = name.length + 1 := by
    obtain ⟨k, hk⟩ : ∃ k, y.length = k + 1 := ⟨y.length - 1, by omega⟩
    rw [hk] at h1
    simp only [List.cons_append, List.getElem?_cons_succ, List.append_assoc] at h1
    by_cases hkn : k < name.length
    · rw [List.getElem?_append_left hkn] at h1
      exact absurd (List.mem_of_getElem? h1) hn
    · omega
  have h3 : ('$' :: (name ++ ['$']) ++ y).drop y.length = '$' :: y := by
    rw [h2]
    simp
  rw [h3] at he
  injection he

theorem matchAt_split (U : Unicode) (s : Str) (m : Match) (h : matchAt U s = some m) : s = m.text ++ m.rest ∧ (∃ b, m.text = (mechanism m).1 ++ b) ∧ m.text ≠ [] := by
  rcases matchAt_cases U s m h with ⟨t, rfl, rfl⟩ | ⟨q, t, hq, rfl, rfl⟩ | ⟨tag, s', y, r, ht, hb, rfl⟩
  · exact ⟨by simp [scanE_split], ⟨_, rfl⟩, by simp⟩
  · refine ⟨by simp [scanQ_split], ?_, by simp⟩
    rcases hq with rfl | rfl <;> exact ⟨_, rfl⟩
  · obtain ⟨e, name, hname, _⟩ := scanTag_spec U _ _ _ ht
    obtain ⟨e2, _⟩ := scanBody_spec _ _ _ _ hb
    refine ⟨by rw [e, e2]; simp, ⟨y, rfl⟩, by simp [hname]⟩

theorem not_runaway {m : Match} (h : runaway m = false) :
    m.text.drop (m.text.length - (mechanism m).2.length) = (mechanism m).2 ∧ m.text.length - (mechanism m).2.length ≠ 0 := by
  unfold runaway at h
  simpa using h

theorem match_good (U : Unicode) (s : Str) (m : Match) (h : matchAt U s = some m) (hr : runaway m = false) :
    Overlap s ∨ ∃ c, m.text = (mechanism m).1 ++ c ++ (mechanism m).2 ∧ endq (mechanism m).1 = (mechanism m).2 := by
  obtain ⟨h1, h2⟩ := not_runaway hr
  have hcut : m.text = m.text.take (m.text.length - (mechanism m).2.length) ++ (mechanism m).2 := by
    rw [← h1, List.length_drop]
    have : m.text.length - (m.text.length - (m.text.length - (mechanism m).2.length)) = m.text.length - (mechanism m).2.length := by omega
    rw [this, List.take_append_drop]
  rcases matchAt_cases U s m h with ⟨t, rfl, rfl⟩ | ⟨q, t, hq, rfl, rfl⟩ | ⟨tag, s', y, r, ht, hb, rfl⟩
  · by_cases htn : t = []
    · subst htn; exact .inl (.inl ⟨[], rfl⟩)
    · have hne := scanE_ne t htn
      refine .inr ⟨(scanE t).1.dropLast, ?_, rfl⟩
      have hl := List.dropLast_concat_getLast hne
      have h3 : (scanE t).1.getLast hne = '\'' := by
        have hc := congrArg List.getLast? hcut
        have hm : (mechanism ⟨'E' :: '\'' :: (scanE t).1, none, (scanE t).2⟩).2 = ['\''] := rfl
        rw [hm] at hc
        simp only [List.getLast?_append, List.getLast?_singleton, Option.some_or] at hc
        rw [show 'E' :: '\'' :: (scanE t).1 = ['E', '\''] ++ (scanE t).1 from rfl, List.getLast?_append, List.getLast?_eq_some_getLast hne] at hc
        simpa using hc
      rw [h3] at hl
      show 'E' :: '\'' :: (scanE t).1 = ['E', '\''] ++ (scanE t).1.dropLast ++ ['\'']
      rw [List.append_assoc, hl]
      rfl
  · refine .inr ?_
    have hm : mechanism ⟨q :: (scanQ q t).1, none, (scanQ q t).2⟩ = ([q], [q]) := by rcases hq with rfl | rfl <;> rfl
    rw [hm] at h1 h2 hcut ⊢
    simp only [List.length_cons, List.length_nil, Nat.zero_add, Nat.add_sub_cancel] at h1 h2 hcut
    refine ⟨((q :: (scanQ q t).1).take (scanQ q t).1.length).drop 1, ?_, ?_⟩
    · show q :: (scanQ q t).1 = [q] ++ _ ++ [q]
      obtain ⟨k, hk⟩ : ∃ k, (scanQ q t).1.length = k + 1 := ⟨(scanQ q t).1.length - 1, by omega⟩
      rw [hk, List.take_succ_cons] at hcut ⊢
      simpa using hcut
    · rcases hq with rfl | rfl <;> rfl
  · obtain ⟨e, name, rfl, hn⟩ := scanTag_spec U _ _ _ ht
    obtain ⟨e2, hy⟩ := scanBody_spec _ _ _ _ hb
    have hend : endq ('$' :: (name ++ ['$'])) = '$' :: (name ++ ['$']) := by
      unfold endq
      rw [if_neg (by simp)]
    rcases hy with ⟨c, rfl⟩ | hr
    · exact .inr ⟨c, by simp [mechanism], hend⟩
    · simp only [mechanism] at h1 h2 hcut ⊢
      by_cases hlt : y.length < name.length + 2
      · left; right
        have hyl : ('$' :: (name ++ ['$']) ++ y).length - ('$' :: (name ++ ['$'])).length = y.length := by simp only [List.length_append]; omega
        rw [hyl] at h1 h2
        have := tag_overlap name y hn hlt (by intro hc; simp [hc] at h2) h1
        refine ⟨[], name, r, hn, hr, ?_⟩
        rw [e, e2, this]
        simp
      · right
        have hyl : ('$' :: (name ++ ['$']) ++ y).length - ('$' :: (name ++ ['$'])).length = y.length := by simp only [List.length_append]; omega
        rw [hyl] at h1 hcut
        have hlen : ('$' :: (name ++ ['$'])).length ≤ y.length := by simp; omega
        rw [List.take_append, List.take_of_length_le hlen] at hcut
        rw [List.append_assoc, List.append_cancel_left_eq] at hcut
        refine ⟨y.take (y.length - ('$' :: (name ++ ['$'])).length), ?_, hend⟩
        rw [List.append_assoc]
        exact congrArg _ hcut

theorem search_split (U : Unicode) : ∀ (s pre : Str) (m : Match), search U s = some (pre, m) → s = pre ++ m.text ++ m.rest ∧ matchAt U (m.text ++ m.rest) = some m ∧ m.text ≠ []
  | [], _, _, h => by simp [search] at h
  | c :: s, pre, m, h => by
    rw [search] at h
    split at h
    · rename_i m' hm
      cases h
      obtain ⟨h1, _, h3⟩ := matchAt_split U _ _ hm
      exact ⟨h1, by rw [← h1]; exact hm, h3⟩
    · rw [Option.map_eq_some_iff] at h
      obtain ⟨⟨p, m'⟩, h1, h2⟩ := h
      cases h2
      obtain ⟨e, h3, h4⟩ := search_split U s p m' h1
      exact ⟨by rw [e]; rfl, h3, h4⟩

theorem splitLoop_unsplit (U : Unicode) : ∀ (fuel : Nat) (s e : Str), s.length < fuel → unsplitLoop e (splitLoop U fuel s) = .ok (e ++ s) ∨ Overlap s
  | 0, _, _, h => by omega
  | fuel + 1, s, e, h => by
    rw [splitLoop]
    cases hs : search U s with
    | none => exact .inl rfl
    | some r =>
      obtain ⟨pre, m⟩ := r
      obtain ⟨h1, h2, h3⟩ := search_split U s pre m hs
      obtain ⟨_, ⟨b, hb⟩, _⟩ := matchAt_split U _ m h2
      simp only
      by_cases hr : runaway m = true
      · rw [if_pos hr]
        left
        rw [unsplitLoop, unsplitLoop, h1, hb]
        simp [pure, Except.pure, bind, Except.bind]
      · rw [if_neg hr]
        have hr : runaway m = false := by simpa using hr
        have hpos : 0 < m.text.length := List.length_pos_iff.2 h3
        have hlen : m.rest.length < fuel := by
          rw [h1] at h
          simp only [List.length_append] at h
          omega
        rcases match_good U _ m h2 hr with ho | ⟨c, hc, he⟩
        · right
          rw [h1, List.append_assoc]
          exact overlap_suffix ho
        · rcases splitLoop_unsplit U fuel m.rest (endq (mechanism m).1) hlen with ih | ho
          · left
            rw [unsplitLoop, ih, h1, he]
            have hcont : (m.text.take (m.text.length - (mechanism m).2.length)).drop (mechanism m).1.length = c := by
              have : m.text.length - (mechanism m).2.length = ((mechanism m).1 ++ c).length := by rw [hc]; simp only [List.length_append]; omega
              rw [this, hc, List.take_left, List.drop_left]
            rw [hcont, hc]
            simp [pure, Except.pure, bind, Except.bind]
          · right
            rw [h1]
            exact overlap_suffix ho

/-- C29: re-assembling the parts of any text gives the text, unless it ends in `E'` or in a dollar quote closed by a part of its own opening
(`$x$x$`), which the split takes for complete. -/
theorem C29_unsplit_partial (U : Unicode) (s : Str) : unsplit (PgString.split U s) = .ok s ∨ Overlap s := by
  have := splitLoop_unsplit U (s.length + 1) s [] (by omega)
  simpa [unsplit, PgString.split] using this

/-- Findings: an escape string just opened, a dollar quote closed by a part of its opening. -/
theorem C29_overlap_fails (U : Unicode) : unsplit (PgString.split U "E'".toList) = .ok "E''".toList ∧ unsplit (PgString.split U "$$$".toList) = .ok "$$$$".toList := by
  constructor <;> rfl

/-- Finding: a dollar quote with a line break in it is not recognized, and its end is taken for the beginning of a quotation. -/
theorem C29_newline_in_dollar_quote (U : Unicode) : PgString.split U "$$\n;$$ x".toList = [.text "$$\n;".toList, .quoted "$$".toList " x".toList] := by
  have h : U.isWord ';' = false := by rw [U.word_ascii _ (by decide)]; decide
  simp [PgString.split, splitLoop, search, matchAt, scanTag, scanBody, scanWord, h, runaway, mechanism]

/-! ## Statements -/

/-- The text of parts that end with a quotation, and what will close it. -/
def openText : Str → List Item → Option (Str × Str)
  | e, [] => some ([], e)
  | e, .text x :: .quoted q t :: l => (openText (endq q) l).map fun r => (e ++ x ++ q ++ t ++ r.1, r.2)
  | _, _ => none

theorem openText_snoc : ∀ (cur : List Item) (e t e' : Str) (x q c : Str), openText e cur = some (t, e') →
    openText e (cur ++ [.text x, .quoted q c]) = some (t ++ e' ++ x ++ q ++ c, endq q)
  | [], e, t, e', x, q, c, h => by
    simp only [openText] at h
    cases h
    simp [openText]
  | .text y :: .quoted q' c' :: cur, e, t, e', x, q, c, h => by
    simp only [openText, Option.map_eq_some_iff] at h
    obtain ⟨⟨t', e''⟩, h1, h2⟩ := h
    cases h2
    have := openText_snoc cur _ _ _ x q c h1
    simp only [List.cons_append, openText, this]
    simp

/-- Once the parts end with a quotation, `unsplit` goes on with its end. -/
theorem openText_unsplit : ∀ (cur : List Item) (e t e' : Str) (l : List Item) (r : Str), openText e cur = some (t, e') → l ≠ [] → unsplitLoop e' l = .ok r →
    unsplitLoop e (cur ++ l) = .ok (t ++ r)
  | [], e, t, e', l, r, h, _, hr => by
    simp only [openText] at h
    cases h
    simpa using hr
  | .text y :: .quoted q c :: cur, e, t, e', l, r, h, hl, hr => by
    simp only [openText, Option.map_eq_some_iff] at h
    obtain ⟨⟨t', e''⟩, h1, h2⟩ := h
    cases h2
    have := openText_unsplit cur _ _ _ l r h1 hl hr
    simp only [List.cons_append]
    rw [unsplitLoop, this]
    simp [pure, Except.pure, bind, Except.bind]

theorem openText_unsplit_end : ∀ (cur : List Item) (e t e' : Str), openText e cur = some (t, e') → cur ≠ [] → unsplitLoop e cur = .ok t
  | [], _, _, _, _, h => absurd rfl h
  | .text y :: .quoted q c :: cur, e, t, e', h, _ => by
    simp only [openText, Option.map_eq_some_iff] at h
    obtain ⟨⟨t', e''⟩, h1, h2⟩ := h
    cases h2
    rw [unsplitLoop]
    cases hc : cur with
    | nil =>
      rw [hc] at h1
      simp only [openText] at h1
      cases h1
      simp [unsplitLoop, pure, Except.pure, bind, Except.bind]
    | cons i l =>
      rw [← hc, openText_unsplit_end cur _ _ _ h1 (by simp [hc])]
      simp [pure, Except.pure, bind, Except.bind]

/-- What `split` yields: text and quotations in turn, beginning with text. -/
def Turns : List Item → Prop
  | [] => True
  | [.text _] => True
  | .text _ :: .quoted _ _ :: l => Turns l
  | _ => False

theorem splitLoop_turns (U : Unicode) : ∀ (fuel : Nat) (s : Str), Turns (splitLoop U fuel s) ∧ (0 < fuel → splitLoop U fuel s ≠ [])
  | 0, _ => ⟨trivial, by omega⟩
  | fuel + 1, s => by
    rw [splitLoop]
    split
    · exact ⟨trivial, by simp⟩
    · split
      · exact ⟨trivial, by simp⟩
      · exact ⟨(splitLoop_turns U fuel _).1, by simp⟩

theorem split_join (sep : Char) : ∀ s : Str, join [sep] (PyStr.split sep s) = s ∧ (∀ x ∈ PyStr.split sep s, sep ∉ x) ∧ PyStr.split sep s ≠ []
  | [] => by simp [PyStr.split, join]
  | c :: s => by
    obtain ⟨h1, h2, h3⟩ := split_join sep s
    rw [PyStr.split]
    by_cases hc : c = sep
    · rw [if_pos hc]
      cases hs : PyStr.split sep s with
      | nil => exact absurd hs h3
      | cons h t =>
        rw [hs] at h1 h2
        refine ⟨?_, ?_, by simp⟩
        · rw [join, h1, hc]; rfl
          simp
        · intro x hx
          rcases List.mem_cons.1 hx with rfl | hx
          · simp
          · exact h2 x hx
    · rw [if_neg hc]
      cases hs : PyStr.split sep s with
      | nil => exact absurd hs h3
      | cons h t =>
        rw [hs] at h1 h2
        refine ⟨?_, ?_, by simp [consHead]⟩
        · simp only [consHead]
          cases t with
          | nil => simpa [join] using h1
          | cons x t =>
            rw [join] at h1 ⊢
            · rw [← h1]; simp
            · simp
            · simp
        · intro x hx
          simp only [consHead, List.mem_cons] at hx
          rcases hx with rfl | hx
          · simp only [List.mem_cons, not_or]
            exact ⟨fun hh => hc hh.symm, h2 h List.mem_cons_self⟩
          · exact h2 x (List.mem_cons_of_mem _ hx)

theorem join_cons {sep x : Str} {l : List Str} (h : l ≠ []) : join sep (x :: l) = x ++ sep ++ join sep l := by
  cases l with
  | nil => exact absurd rfl h
  | cons y l => rw [join]; simp

theorem join_append {sep : Str} : ∀ (a b : List Str), a ≠ [] → b ≠ [] → join sep (a ++ b) = join sep a ++ sep ++ join sep b
  | [], _, h, _ => absurd rfl h
  | [x], b, _, hb => by rw [show [x] ++ b = x :: b from rfl, join_cons hb]; rfl
  | x :: y :: a, b, _, hb => by
    rw [show x :: y :: a ++ b = x :: (y :: a ++ b) from rfl, join_cons (by simp), join_append (y :: a) b (by simp) hb, join_cons (x := x) (l := y :: a) (by simp)]
    simp

/-- The quotations among parts. -/
def quotations (l : List Item) : List Item := l.filter fun i => match i with | .quoted .. => true | _ => false

/-- What one part does to the statement being put together. -/
theorem sqlPart_spec (sep : Char) (cur : List Item) (t e part : Str) (hcur : openText [] cur = some (t, e)) :
    ∃ (ls : List Str) (pre : List Item) (last t' e' : Str), (sqlPart cur (PyStr.split sep part) part).2 = pre ++ [.text last] ∧
      (sqlPart cur (PyStr.split sep part) part).1.mapM unsplit = .ok ls ∧ openText [] pre = some (t', e') ∧
      (if ls = [] then t' ++ e' ++ last else join [sep] ls ++ sep :: (t' ++ e' ++ last)) = t ++ e ++ part ∧
      (∀ st ∈ (sqlPart cur (PyStr.split sep part) part).1, ∀ x, .text x ∈ st → sep ∉ x ∨ .text x ∈ cur) ∧ sep ∉ last ∧ (∀ i ∈ pre, i ∈ cur) ∧
      quotations ((sqlPart cur (PyStr.split sep part) part).1.flatten ++ pre) = quotations cur := by
  obtain ⟨h1, h2, h3⟩ := split_join sep part
  unfold sqlPart
  cases hs : PyStr.split sep part with
  | nil => exact absurd hs h3
  | cons s0 r =>
    rw [hs] at h1 h2
    cases r with
    | nil =>
      simp only [join] at h1
      subst h1
      exact ⟨[], cur, s0, t, e, rfl, rfl, hcur, by simp, by simp, h2 s0 (by simp), fun i hi => hi, by simp⟩
    | cons s1 r =>
      simp only
      have hm : ∀ l : List Str, (l.map fun x => [Item.text x]).mapM unsplit = .ok l := by
        intro l
        induction l with
        | nil => rfl
        | cons x l ih =>
          rw [List.map_cons, List.mapM_cons, ih]
          simp [unsplit, unsplitLoop, pure, Except.pure, bind, Except.bind]
      obtain ⟨ini, lst, hL⟩ : ∃ (ini : List Str) (lst : Str), s1 :: r = ini ++ [lst] := ⟨_, _, (List.dropLast_concat_getLast (l := s1 :: r) (by simp)).symm⟩
      have hj : join [sep] (s0 :: s1 :: r) = s0 ++ [sep] ++ join [sep] (s1 :: r) := join_cons (by simp)
      rw [hj] at h1
      rw [hL] at h1 h2 ⊢
      rw [List.dropLast_concat, List.getLast?_concat, Option.getD_some]
      refine ⟨(t ++ (e ++ s0)) :: ini, [], lst, [], [], rfl, ?_, rfl, ?_, ?_, ?_, by simp, ?_⟩
      · rw [List.mapM_cons, hm]
        have : unsplit (cur ++ [Item.text s0]) = .ok (t ++ (e ++ s0)) := by
          unfold unsplit
          exact openText_unsplit cur [] t e [.text s0] (e ++ s0) hcur (by simp) rfl
        rw [this]
        rfl
      · rw [if_neg (by simp)]
        rw [← h1]
        by_cases hne : ini = []
        · rw [hne]
          simp [join]
        · rw [join_cons hne, join_append _ _ hne (by simp)]
          simp [join]
      · intro st hst x hx
        rcases List.mem_cons.1 hst with rfl | hst
        · rcases List.mem_append.1 hx with hx | hx
          · exact .inr hx
          · simp only [List.mem_singleton, Item.text.injEq] at hx
            subst hx
            exact .inl (h2 x List.mem_cons_self)
        · obtain ⟨y, hy, rfl⟩ := List.mem_map.1 hst
          simp only [List.mem_singleton, Item.text.injEq] at hx
          subst hx
          exact .inl (h2 x (List.mem_cons_of_mem _ (List.mem_append_left _ hy)))
      · exact h2 _ (List.mem_cons_of_mem _ (by simp))
      · have : ∀ l : List Str, quotations ((l.map fun x => [Item.text x]).flatten) = [] := by
          intro l
          induction l with
          | nil => rfl
          | cons x l ih => simp [quotations]
        simp only [List.flatten_cons, List.append_nil]
        have h4 := this ini
        unfold quotations at h4 ⊢
        rw [List.filter_append, List.filter_append, h4]
        simp

theorem mapM_append' {α β : Type} (f : α → Except Err β) (a b : List α) (x y : List β) (h1 : a.mapM f = .ok x) (h2 : b.mapM f = .ok y) : (a ++ b).mapM f = .ok (x ++ y) := by
  rw [List.mapM_append, h1, h2]
  rfl

theorem splitSqlLoop_spec (sep : Char) : ∀ (items cur : List Item) (t e r : Str), Turns items → openText [] cur = some (t, e) → (cur ≠ [] ∨ items ≠ []) →
    unsplitLoop e items = .ok r → (∀ x, .text x ∈ cur → sep ∉ x) →
    ∃ (stmts : List (List Item)) (ls : List Str), splitSqlLoop sep cur items = .ok stmts ∧ stmts.mapM unsplit = .ok ls ∧ ls ≠ [] ∧ join [sep] ls = t ++ r ∧
      (∀ st ∈ stmts, ∀ x, .text x ∈ st → sep ∉ x) ∧ quotations stmts.flatten = quotations (cur ++ items)
  | [], cur, t, e, r, _, hcur, hne, hr, hsep => by
    have hc : cur ≠ [] := by simpa using hne
    rw [unsplitLoop] at hr
    cases hr
    refine ⟨[cur], [t], by rw [splitSqlLoop, if_neg hc], ?_, by simp, by simp [join], ?_, by simp⟩
    · rw [List.mapM_cons]
      unfold unsplit
      rw [openText_unsplit_end cur [] t e hcur hc]
      rfl
    · intro st hst x hx
      simp only [List.mem_singleton] at hst
      subst hst
      exact hsep x hx
  | [.text part], cur, t, e, r, _, hcur, _, hr, hsep => by
    obtain ⟨ls, pre, last, t', e', h1, h2, h3, h4, h5, h6, h7, h8⟩ := sqlPart_spec sep cur t e part hcur
    rw [unsplitLoop] at hr
    cases hr
    refine ⟨(sqlPart cur (PyStr.split sep part) part).1 ++ [pre ++ [.text last]], ls ++ [t' ++ (e' ++ last)], ?_, ?_, by simp, ?_, ?_, ?_⟩
    · rw [splitSqlLoop, h1]
    · refine mapM_append' _ _ _ _ _ h2 ?_
      rw [List.mapM_cons]
      unfold unsplit
      rw [openText_unsplit pre [] t' e' [.text last] (e' ++ last) h3 (by simp) rfl]
      rfl
    · by_cases hl : ls = []
      · rw [if_pos hl] at h4
        rw [hl]
        simp only [List.nil_append, join]
        rw [← List.append_assoc, h4]
        simp
      · rw [if_neg hl] at h4
        rw [join_append _ _ hl (by simp)]
        simp only [join]
        rw [← List.append_assoc t e part, ← h4]
        simp
    · intro st hst x hx
      rcases List.mem_append.1 hst with hst | hst
      · rcases h5 st hst x hx with hh | hh
        · exact hh
        · exact hsep x hh
      · simp only [List.mem_singleton] at hst
        subst hst
        rcases List.mem_append.1 hx with hx | hx
        · exact hsep x (h7 _ hx)
        · simp only [List.mem_singleton, Item.text.injEq] at hx
          subst hx
          exact h6
    · have : quotations [Item.text last] = [] := rfl
      have h9 : quotations [Item.text part] = [] := rfl
      unfold quotations at *
      simp only [List.flatten_append, List.flatten_cons, List.flatten_nil, List.append_nil, List.filter_append, this, h9] at h8 ⊢
      exact h8
  | .text part :: .quoted q c :: l, cur, t, e, r, ht, hcur, _, hr, hsep => by
    obtain ⟨ls, pre, last, t', e', h1, h2, h3, h4, h5, h6, h7, h8⟩ := sqlPart_spec sep cur t e part hcur
    rw [unsplitLoop] at hr
    cases hu : unsplitLoop (endq q) l with
    | error er => rw [hu] at hr; cases hr
    | ok r' =>
      rw [hu] at hr
      have hr' : r = e ++ part ++ q ++ c ++ r' := by
        simp only [pure, Except.pure, bind, Except.bind, Except.ok.injEq] at hr
        exact hr.symm
      have hopen := openText_snoc pre [] t' e' last q c h3
      obtain ⟨stmts, ls2, g1, g2, g2', g3, g4, g5⟩ := splitSqlLoop_spec sep l (pre ++ [.text last, .quoted q c]) _ _ r' ht hopen (.inl (by simp)) hu (by
        intro x hx
        rcases List.mem_append.1 hx with hx | hx
        · exact hsep x (h7 _ hx)
        · simp only [List.mem_cons, Item.text.injEq, reduceCtorEq, List.not_mem_nil, or_false] at hx
          subst hx
          exact h6)
      refine ⟨(sqlPart cur (PyStr.split sep part) part).1 ++ stmts, ls ++ ls2, ?_, mapM_append' _ _ _ _ _ h2 g2, by simp [g2'], ?_, ?_, ?_⟩
      · rw [splitSqlLoop, h1, List.append_assoc]
        simp only [List.cons_append, List.nil_append]
        rw [g1]
        rfl
      · by_cases hl : ls = []
        · rw [if_pos hl] at h4
          rw [hl, List.nil_append, g3, h4, hr']
          simp
        · rw [if_neg hl] at h4
          rw [join_append _ _ hl g2', g3, hr']
          have : t ++ (e ++ part ++ q ++ c ++ r') = (t ++ e ++ part) ++ (q ++ c ++ r') := by simp
          rw [this, ← h4]
          simp
      · intro st hst x hx
        rcases List.mem_append.1 hst with hst | hst
        · rcases h5 st hst x hx with hh | hh
          · exact hh
          · exact hsep x hh
        · exact g4 st hst x hx
      · have h9 : quotations [Item.text last, Item.quoted q c] = [Item.quoted q c] := rfl
        have h10 : quotations (Item.text part :: Item.quoted q c :: l) = Item.quoted q c :: quotations l := rfl
        unfold quotations at *
        simp only [List.flatten_append, List.filter_append, h9, h10] at h8 g5 ⊢
        rw [g5, ← List.append_assoc, ← List.append_assoc, h8]
        simp
  | .quoted _ _ :: l, _, _, _, _, ht, _, _, _, _ => by cases l <;> exact False.elim ht

/-- C29: `split_sql_str` cuts a script that `unsplit(split())` brings back into statements that, joined with the separator, are the script;
the parts of the statements outside quotations have no separator in them, and the quotations are those of the script, in order. -/
theorem C29_split_sql (U : Unicode) (sql : Str) (sep : Char) (h : ¬ Overlap sql) : ∃ (stmts : List (List Item)) (ls : List Str),
    splitSql U sql sep = .ok stmts ∧ splitSqlStr U sql sep = .ok ls ∧ ls ≠ [] ∧ join [sep] ls = sql ∧
    (∀ st ∈ stmts, ∀ x, .text x ∈ st → sep ∉ x) ∧ quotations stmts.flatten = quotations (PgString.split U sql) := by
  have hu := (C29_unsplit_partial U sql).resolve_right h
  obtain ⟨ht, hne⟩ := splitLoop_turns U (sql.length + 1) sql
  obtain ⟨stmts, ls, h1, h2, h2', h3, h4, h5⟩ := splitSqlLoop_spec sep (PgString.split U sql) [] [] [] sql ht rfl (.inr (hne (by omega))) hu (by simp)
  refine ⟨stmts, ls, h1, ?_, h2', h3, h4, by simpa using h5⟩
  unfold splitSqlStr splitSql
  rw [h1]
  exact h2

/-! ## Readable scripts -/

theorem matchAt_plain (U : Unicode) (c : Char) (s : Str) (h1 : c ≠ '\'') (h2 : c ≠ '"') (h3 : c = 'E' → s.head? ≠ some '\'')
    (h4 : c = '$' → ∃ d t, s = d :: t ∧ '0' ≤ d ∧ d ≤ '9') : matchAt U (c :: s) = none := by
  have ht : scanTag U (c :: s) = none := by
    unfold scanTag
    split
    · rename_i d t he
      injection he with e1 e2
      subst e2
      obtain ⟨d', t', hd, h5, h6⟩ := h4 e1
      injection hd with hd _
      subst hd
      have hne : d ≠ '$' := by rintro rfl; exact absurd h5 (by decide)
      rw [if_neg hne, if_pos ⟨h5, h6⟩]
    · rfl
  unfold matchAt
  split
  · rename_i t he
    injection he with e1 e2
    subst e2
    exact absurd rfl (h3 e1)
  · rename_i t he
    injection he with e1 e2
    exact absurd e1 h1
  · rename_i t he
    injection he with e1 e2
    exact absurd e1 h2
  · rw [ht]

theorem search_plain (U : Unicode) (rest : Str) (m : Match) (hm : matchAt U rest = some m) (hr : rest ≠ []) : ∀ (p : Str), Plain p →
    (p.getLast? = some 'E' → rest.head? ≠ some '\'') → search U (p ++ rest) = some (p, m)
  | [], _, _ => by
    cases rest with
    | nil => exact absurd rfl hr
    | cons c s => rw [List.nil_append, search, hm]
  | c :: p, ⟨h1, h2, h3, h4⟩, hE => by
    rw [List.cons_append, search, matchAt_plain U c (p ++ rest) h1 h2, search_plain U rest m hm hr p h4]
    · rfl
    · intro hl
      refine hE ?_
      rw [List.getLast?_cons, hl]
      rfl
    · intro hc
      cases p with
      | nil => exact hE (by rw [hc]; rfl)
      | cons d p => simpa using h4.1
    · intro hc
      obtain ⟨d, t, e, h⟩ := h3 hc
      exact ⟨d, t ++ rest, by rw [e]; rfl, h⟩

theorem search_none (U : Unicode) : ∀ (p : Str), Plain p → search U p = none
  | [], _ => rfl
  | c :: p, ⟨h1, h2, h3, h4⟩ => by
    rw [search, matchAt_plain U c p h1 h2, search_none U p h4]
    · rfl
    · intro _
      cases p with
      | nil => simp
      | cons d p => simpa using h4.1
    · exact h3

theorem scanQ_ne {q c : Char} (h : c ≠ q) (s : Str) : scanQ q (c :: s) = (c :: (scanQ q s).1, (scanQ q s).2) := by
  cases s with
  | nil => simp [scanQ]
  | cons d s => rw [scanQ, if_neg h]

theorem scanQ_double (q : Char) (rest : Str) (h : rest.head? ≠ some q) : ∀ v : Str, scanQ q (double q v ++ q :: rest) = (double q v ++ [q], rest)
  | [] => by
    show scanQ q (q :: rest) = _
    cases rest with
    | nil => simp [scanQ, double]
    | cons d s =>
      rw [scanQ, if_pos rfl, if_neg (by intro hd; exact h (by simp [hd]))]
      rfl
  | c :: v => by
    have ih := scanQ_double q rest h v
    by_cases hc : c = q
    · subst hc
      have : double c (c :: v) = c :: c :: double c v := by simp [double]
      rw [this]
      show scanQ c (c :: c :: (double c v ++ c :: rest)) = _
      rw [scanQ, if_pos rfl, if_pos rfl, ih]
      rfl
    · have : double q (c :: v) = c :: double q v := by simp [double, hc]
      rw [this]
      show scanQ q (c :: (double q v ++ q :: rest)) = _
      rw [scanQ_ne hc, ih]
      rfl

theorem scanE_ok (rest : Str) (h : rest.head? ≠ some '\'') : ∀ (s t : Str), lexEscaped s = some t → ∀ c, s = c ++ '\'' :: t → t = [] →
    scanE (c ++ '\'' :: rest) = (c ++ ['\''], rest)
  | s, t, hl, [], hs, ht => by
    cases rest with
    | nil => simp [scanE]
    | cons d r =>
      have : d ≠ '\'' := fun hd => h (by simp [hd])
      show scanE ('\'' :: d :: r) = _
      rw [scanE]
      · rfl
      · rintro s' he
        injection he with he _
        exact this he
  | s, t, hl, [x], hs, ht => by
    subst ht
    subst hs
    simp only [List.singleton_append, lexEscaped] at hl
    by_cases hx : x = '\\'
    · rw [if_pos hx] at hl; cases hl
    · rw [if_neg hx] at hl
      by_cases hq : x = '\''
      · rw [if_pos hq, if_pos trivial] at hl; cases hl
      · show scanE (x :: '\'' :: rest) = _
        rw [scanE]
        · have := scanE_ok rest h ['\''] [] (by decide) [] rfl rfl
          rw [List.nil_append] at this
          rw [this]
          rfl
        · rintro s' he _; exact hq he
        · intro hh; exact hq hh
        · rintro c' s' he _; exact hx he
  | s, t, hl, x :: y :: c, hs, ht => by
    subst ht
    subst hs
    simp only [List.cons_append] at hl ⊢
    rw [lexEscaped] at hl
    by_cases hx : x = '\\'
    · rw [if_pos hx] at hl
      subst hx
      rw [scanE, scanE_ok rest h _ _ hl c rfl rfl]
    · rw [if_neg hx] at hl
      by_cases hq : x = '\''
      · subst hq
        rw [if_pos rfl] at hl
        by_cases hy : y = '\''
        · rw [if_pos hy] at hl
          subst hy
          rw [scanE, scanE_ok rest h _ _ hl c rfl rfl]
        · rw [if_neg hy] at hl
          simp at hl
      · rw [if_neg hq] at hl
        rw [scanE]
        · have := scanE_ok rest h _ _ hl (y :: c) rfl rfl
          rw [List.cons_append] at this
          rw [this]
          rfl
        · rintro s' he _; exact hq he
        · intro hh; exact hq hh
        · rintro c' s' he _; exact hx he

theorem scanWord_ok (U : Unicode) (rest : Str) : ∀ w : Str, (∀ x ∈ w, U.isWord x = true) → scanWord U (w ++ '$' :: rest) = some (w, rest)
  | [], _ => by simp [scanWord]
  | c :: w, h => by
    have hc : c ≠ '$' := by
      rintro rfl
      have := h _ List.mem_cons_self
      rw [U.word_ascii _ (by decide)] at this
      exact absurd this (by decide)
    rw [List.cons_append, scanWord, if_neg hc, if_pos (h c List.mem_cons_self), scanWord_ok U rest w fun x hx => h x (List.mem_cons_of_mem _ hx)]
    rfl

theorem scanTag_ok (U : Unicode) (rest : Str) : ∀ name : Str, TagName U.isWord name → scanTag U ('$' :: (name ++ '$' :: rest)) = some ('$' :: (name ++ ['$']), rest)
  | [], _ => by simp [scanTag]
  | c :: r, ⟨h1, h2, h3⟩ => by
    simp only [List.cons_append, scanTag]
    rw [if_neg h1, if_neg h2, scanWord_ok U rest r h3]
    simp

theorem scanBody_ok (tag rest : Str) (ht : tag ≠ []) : ∀ c : Str, '\n' ∉ c → (∀ k < c.length, ¬ tag <+: (c ++ tag).drop k) → scanBody tag (c ++ tag ++ rest) = some (c ++ tag, rest)
  | [], _, _ => by
    cases tag with
    | nil => exact absurd rfl ht
    | cons x tag =>
      show scanBody (x :: tag) (x :: (tag ++ rest)) = _
      rw [scanBody, if_pos]
      · simp
      · rw [List.isPrefixOf_iff_prefix]
        exact ⟨rest, rfl⟩
  | x :: c, hn, hk => by
    have ih := scanBody_ok tag rest ht c (fun hm => hn (List.mem_cons_of_mem _ hm)) (fun k hk' => by
      have := hk (k + 1) (by simpa using hk')
      simpa using this)
    simp only [List.cons_append]
    rw [scanBody, if_neg, if_neg, ih]
    · rfl
    · intro hx; exact hn (by simp [hx])
    · rw [List.isPrefixOf_iff_prefix]
      rintro ⟨t, ht'⟩
      have h0 := hk 0 (by simp)
      apply h0
      rw [List.drop_zero]
      have hlen : tag.length ≤ (x :: c ++ tag).length := by simp; omega
      have : tag = ((x :: c ++ tag) ++ rest).take tag.length := by
        rw [show (x :: c ++ tag) ++ rest = tag ++ t from ht'.symm]
        simp
      rw [List.take_append_of_le_length hlen] at this
      refine ⟨(x :: c ++ tag).drop tag.length, ?_⟩
      have h5 := List.take_append_drop tag.length (x :: c ++ tag)
      rw [← this] at h5
      exact h5

theorem lit_form {q : Char} {c : Str} (h : ∃ v, lexQuoted q (c ++ [q]) = some (v, [])) : ∃ v, c = double q v := by
  obtain ⟨v, hv⟩ := h
  have := lexQuoted_inv q _ _ _ hv
  exact ⟨v, List.append_cancel_right this⟩

theorem quotation_match (U : Unicode) (t : Quotation) (rest : Str) (hok : t.Ok U.isWord) (hf : ∀ q, t.closing = [q] → rest.head? ≠ some q) :
    ∃ dq, matchAt U (t.opening ++ t.content ++ t.closing ++ rest) = some ⟨t.opening ++ t.content ++ t.closing, dq, rest⟩ ∧
      mechanism ⟨t.opening ++ t.content ++ t.closing, dq, rest⟩ = (t.opening, t.closing) := by
  cases t with
  | lit c =>
    obtain ⟨v, rfl⟩ := lit_form hok
    have := scanQ_double '\'' rest (hf '\'' rfl) v
    refine ⟨none, ?_, rfl⟩
    show matchAt U ('\'' :: (double '\'' v ++ ['\''] ++ rest)) = _
    rw [List.append_assoc]
    simp only [matchAt, List.singleton_append, this]
    rfl
  | ident c =>
    obtain ⟨v, rfl⟩ := lit_form hok
    have := scanQ_double '"' rest (hf '"' rfl) v
    refine ⟨none, ?_, rfl⟩
    show matchAt U ('"' :: (double '"' v ++ ['"'] ++ rest)) = _
    rw [List.append_assoc]
    simp only [matchAt, List.singleton_append, this]
    rfl
  | estr c =>
    have := scanE_ok rest (hf '\'' rfl) _ _ hok c rfl rfl
    refine ⟨none, ?_, rfl⟩
    show matchAt U ('E' :: '\'' :: (c ++ ['\''] ++ rest)) = _
    rw [List.append_assoc]
    simp only [matchAt, List.singleton_append, this]
    rfl
  | dollar name c =>
    obtain ⟨h1, h2, h3⟩ := hok
    refine ⟨some ('$' :: (name ++ ['$'])), ?_, rfl⟩
    have ht := scanTag_ok U (c ++ '$' :: (name ++ ['$']) ++ rest) name h1
    have hb := scanBody_ok ('$' :: (name ++ ['$'])) rest (by simp) c h2 h3
    have he : Quotation.opening (.dollar name c) ++ Quotation.content (.dollar name c) ++ Quotation.closing (.dollar name c) ++ rest =
        '$' :: (name ++ '$' :: (c ++ '$' :: (name ++ ['$']) ++ rest)) := by
      simp [Quotation.opening, Quotation.content, Quotation.closing]
    rw [he]
    have hd : ∀ t : Str, matchAt U ('$' :: t) = match scanTag U ('$' :: t) with
        | none => none
        | some (tag, s') => (scanBody tag s').map fun r => ⟨tag ++ r.1, some tag, r.2⟩ := by
      intro t
      rw [matchAt]
      · cases scanTag U ('$' :: t) <;> rfl
      all_goals intro s' he; injection he with he; exact absurd he (by decide)
    rw [hd, ht]
    simp only [hb, Option.map_some]
    simp [Quotation.opening, Quotation.content, Quotation.closing]

/-- The parts of a script. -/
def parts (p : Str) : List (Quotation × Str) → List Item
  | [] => [.text p]
  | (t, p') :: l => .text p :: .quoted t.opening t.content :: parts p' l

theorem splitLoop_script (U : Unicode) : ∀ (l : List (Quotation × Str)) (p : Str) (fuel : Nat), Readable U.isWord p l → (script p l).length < fuel →
    splitLoop U fuel (script p l) = parts p l
  | _, _, 0, _, h => by omega
  | [], p, fuel + 1, h, _ => by
    rw [script, splitLoop, search_none U p h]
    rfl
  | (t, p') :: l, p, fuel + 1, ⟨h1, h2, h3, h4, h5⟩, hf => by
    obtain ⟨dq, hm, hmech⟩ := quotation_match U t (script p' l) h2 h4
    have hne : t.opening ++ t.content ++ t.closing ++ script p' l ≠ [] := by cases t <;> simp [Quotation.opening]
    have hs := search_plain U _ _ hm hne p h1 (by
      intro hE
      cases t with
      | lit c => exact absurd hE (h3 c rfl)
      | ident c => simp [Quotation.opening]
      | estr c => simp [Quotation.opening]
      | dollar n c => simp [Quotation.opening])
    have hrun : runaway ⟨t.opening ++ t.content ++ t.closing, dq, script p' l⟩ = false := by
      unfold runaway
      simp only [hmech, List.length_append]
      have e : t.opening.length + t.content.length + t.closing.length - t.closing.length = (t.opening ++ t.content).length := by simp
      rw [e, List.drop_left]
      have : 0 < t.opening.length := by cases t <;> simp [Quotation.opening]
      simp
      intro ho
      rw [ho] at this
      simp at this
    have hlen : (script p' l).length < fuel := by
      simp only [script, List.length_append] at hf
      have : 0 < t.opening.length := by cases t <;> simp [Quotation.opening]
      omega
    rw [script, splitLoop, hs]
    simp only [hrun, hmech]
    rw [if_neg (by simp), splitLoop_script U l p' fuel h5 hlen, parts]
    congr 2
    have e : (t.opening ++ t.content ++ t.closing).length - t.closing.length = (t.opening ++ t.content).length := by simp; omega
    rw [e, List.take_left, List.drop_left]

/-- C29: a script made of plain text and quotations is split into exactly those. -/
theorem C29_quotations (U : Unicode) (p : Str) (l : List (Quotation × Str)) (h : Readable U.isWord p l) : PgString.split U (script p l) = parts p l :=
  splitLoop_script U l p _ h (by omega)

/-- C29 and C27: a quoted literal in a script is one part of it, whatever it quotes: a separator in it does not end the statement. -/
theorem C29_literal_in_script (U : Unicode) (p s p' : Str) (hp : Plain p) (hE : p.getLast? ≠ some 'E') (hp' : Plain p') :
    PgString.split U (p ++ quoteLiteral s ++ p') = [.text p, .quoted ['\''] (escapeLiteral s), .text p'] := by
  have hh : p'.head? ≠ some '\'' := by cases p' with
    | nil => simp
    | cons c r => simpa using hp'.1
  have := C29_quotations U p [(.lit (double '\'' s), p')] ⟨hp, ⟨s, lexQuoted_double '\'' [] (by simp) s⟩, fun _ _ => hE, fun q hq => by
    cases hq
    exact hh, hp'⟩
  simpa [script, quoteLiteral, escapeLiteral, parts, Quotation.opening, Quotation.content, Quotation.closing] using this

/-- A concrete case. -/
example (U : Unicode) : Readable U.isWord "SELECT $1, ".toList [(.lit "it''s;".toList, " AS ".toList), (.dollar "a".toList "x;".toList, ";".toList)] := by
  refine ⟨by simp [Plain], ⟨"it's;".toList, by decide⟩, by simp, ?_, by simp [Plain], ?_, by simp, by simp [Quotation.closing], by simp [Readable, Plain]⟩
  · intro q hq
    simp [Quotation.closing] at hq
    subst hq
    simp [script]
  · exact ⟨⟨by decide, by decide, by simp⟩, by decide, by decide⟩

example : ¬ Overlap "SELECT 'a;b'; SELECT 2".toList := by
  rintro (⟨pre, h⟩ | ⟨pre, name, nl, _, hn, h⟩)
  · have := congrArg List.getLast? h
    rw [List.getLast?_append] at this
    simp at this
  · have h2 := congrArg (fun s => '$' ∈ s) h
    simp at h2

end PG.Props.SqlSplit
