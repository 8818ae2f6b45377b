import Verif.Props.Installation3
/-!
# C68: output with other line ends, options without quotes, no installation
-/
namespace PG.Props.Installation
open PG PG.PyStr PG.Installation PG.Spec.Installation

theorem lines_crlf (s : Str) : lines ('\r' :: '\n' :: s) = [] :: lines s := by
  rw [lines, if_pos ⟨rfl, rfl⟩]

theorem lines_line_crlf : ∀ {x : Str}, (∀ c ∈ x, isBreak c = false) → ∀ rest, lines (x ++ '\r' :: '\n' :: rest) = x :: lines rest
  | [], _, rest => lines_crlf rest
  | c :: x, h, rest => by
    rw [List.cons_append, lines_cons (h c (List.mem_cons_self ..)), lines_line_crlf (fun d hd => h d (List.mem_cons_of_mem _ hd))]
    rfl

theorem lines_printed_crlf : ∀ {l : List Str}, (∀ x ∈ l, ∀ c ∈ x, isBreak c = false) → lines (l.flatMap (· ++ ['\r', '\n'])) = l
  | [], _ => rfl
  | x :: l, h => by
    rw [List.flatMap_cons, List.append_assoc]
    show lines (x ++ '\r' :: '\n' :: l.flatMap (· ++ ['\r', '\n'])) = _
    rw [lines_line_crlf (h x (List.mem_cons_self ..)), lines_printed_crlf fun y hy => h y (List.mem_cons_of_mem _ hy)]

/-- C68: the output of a `pg_config.exe`, with a carriage return and a line feed at the end of each line, gives the same dictionary. -/
theorem C68_dictionary_crlf (U : Unicode) (P : Program) (rows : List Row) (h : ∀ r ∈ rows, r.Ok isBreak U.isSpace) (hp : P [] = .text (rows.flatMap fun r => r.text ++ ['\r', '\n'])) :
    ∃ d, pgConfigDictionary U P = .ok d ∧ ∀ k, PyDict.get k d = said rows k := by
  unfold pgConfigDictionary commandOutput
  rw [List.map_nil, hp]
  refine ⟨_, rfl, fun k => ?_⟩
  have e : lines (rows.flatMap fun r => r.text ++ ['\r', '\n']) = rows.map Row.text := by
    have e : (rows.flatMap fun r => r.text ++ ['\r', '\n']) = (rows.map Row.text).flatMap (· ++ ['\r', '\n']) := by
      rw [List.flatMap_map]
    rw [e, lines_printed_crlf]
    intro x hx
    obtain ⟨r, hr, rfl⟩ := List.mem_map.mp hx
    exact row_oneLine (h r hr)
  rw [e, get_rows U k h]
  cases said rows k <;> rfl

/-! ## Options without quotes -/

open PG.Spec.PgString in
theorem cut_bare : ∀ (t : Str), '\'' ∉ t → ' ' ∉ t → cut '\'' ' ' none false t = [t]
  | [], _, _ => rfl
  | c :: t, h1, h2 => by
    have hc : c ≠ '\'' := fun e => h1 (by rw [e]; exact List.mem_cons_self ..)
    have hs : c ≠ ' ' := fun e => h2 (by rw [e]; exact List.mem_cons_self ..)
    rw [cut, if_neg (fun e => hs e.1), if_neg hc, cut_bare t (fun g => h1 (List.mem_cons_of_mem _ g)) (fun g => h2 (List.mem_cons_of_mem _ g))]

open PG.Spec.PgString in
theorem cut_bare_more : ∀ (t rest : Str), '\'' ∉ t → ' ' ∉ t → cut '\'' ' ' none false (t ++ ' ' :: rest) = t :: cut '\'' ' ' none false rest
  | [], rest, _, _ => by
    show cut '\'' ' ' none false (' ' :: rest) = _
    rw [cut, if_pos (by simp)]
    rfl
  | c :: t, rest, h1, h2 => by
    have hc : c ≠ '\'' := fun e => h1 (by rw [e]; exact List.mem_cons_self ..)
    have hs : c ≠ ' ' := fun e => h2 (by rw [e]; exact List.mem_cons_self ..)
    rw [List.cons_append, cut, if_neg (fun e => hs e.1), if_neg hc, cut_bare_more t rest (fun g => h1 (List.mem_cons_of_mem _ g)) (fun g => h2 (List.mem_cons_of_mem _ g))]

open PG.Spec.PgString in
theorem cut_join : ∀ {l : List Str}, l ≠ [] → (∀ t ∈ l, '\'' ∉ t ∧ ' ' ∉ t) → cut '\'' ' ' none false (join [' '] l) = l
  | [], h, _ => absurd rfl h
  | [t], _, h => cut_bare t (h t (List.mem_cons_self ..)).1 (h t (List.mem_cons_self ..)).2
  | t :: u :: l, _, h => by
    have e : join [' '] (t :: u :: l) = t ++ ' ' :: join [' '] (u :: l) := by
      show t ++ [' '] ++ join [' '] (u :: l) = _
      simp
    rw [e, cut_bare_more t _ (h t (List.mem_cons_self ..)).1 (h t (List.mem_cons_self ..)).2, cut_join (by simp) fun x hx => h x (List.mem_cons_of_mem _ hx)]

theorem dropWhile_ne {p : Char → Bool} {c : Char} (hp : p c = false) : ∀ {s : Str}, c ∈ s → s.dropWhile p ≠ []
  | x :: s, hc, hd => by
    by_cases hx : p x = true
    · rw [List.dropWhile_cons_of_pos hx] at hd
      rcases List.mem_cons.mp hc with rfl | hc
      · rw [hp] at hx; cases hx
      · exact dropWhile_ne hp hc hd
    · rw [List.dropWhile_cons_of_neg hx] at hd
      cases hd

theorem optionOf_bare {a : Arg} (h : a.Ok) : optionOf '\'' a.text = some (underscored a.name, inPython a.value) := by
  obtain ⟨c, r, hn, hc1, hc2⟩ := h.first
  have hne : a.text ≠ [] := by
    unfold Arg.text
    rw [hn]
    simp
  have e : stripDashQuotes (undouble '\'' (quoted a)) = stripDashQuotes (undouble '\'' a.text) := by
    unfold quoted
    rw [undouble_quoted (arg_noquote h) hne, undouble_id (arg_noquote h)]
    unfold stripDashQuotes
    rw [List.cons_append, List.dropWhile_cons_of_pos (by decide)]
    have : ∀ (p : Char → Bool) (s : Str), p '\'' = true → (s.dropWhile p ≠ []) → ((s ++ ['\'']).dropWhile p).reverse.dropWhile p = (s.dropWhile p).reverse.dropWhile p := by
      intro p s hp hs
      have e2 : (s ++ ['\'']).dropWhile p = s.dropWhile p ++ ['\''] := by
        induction s with
        | nil => exact absurd rfl hs
        | cons x s ih =>
          by_cases hx : p x = true
          · rw [List.cons_append, List.dropWhile_cons_of_pos hx, List.dropWhile_cons_of_pos hx]
            apply ih
            rwa [List.dropWhile_cons_of_pos hx] at hs
          · rw [List.cons_append, List.dropWhile_cons_of_neg hx, List.dropWhile_cons_of_neg hx]
            rfl
      rw [e2, List.reverse_append]
      show ('\'' :: (s.dropWhile p).reverse).dropWhile p = _
      rw [List.dropWhile_cons_of_pos hp]
    rw [this _ _ (by decide)]
    refine dropWhile_ne (c := c) ?_ (by unfold Arg.text; rw [hn]; simp)
    have hc3 : c ≠ '\'' := fun e => h.name.1 (by rw [hn, e]; exact List.mem_cons_self ..)
    simp [hc1, hc2, hc3]
  have := optionOf_quoted h
  unfold optionOf at this ⊢
  rw [← e]
  exact this

/-- C68: options printed without quotes, as by some `pg_config.exe`, are found too, as long as they have no blanks. -/
theorem C68_unquoted (l : List Arg) (hl : l ≠ []) (h : ∀ a ∈ l, a.Ok) (hb : ∀ a ∈ l, ' ' ∉ a.text) :
    parseConfigure (join [' '] (l.map Arg.text)) = l.map fun a => (underscored a.name, inPython a.value) := by
  have hno : ∀ t ∈ l.map Arg.text, '\'' ∉ t ∧ ' ' ∉ t := by
    intro t ht
    obtain ⟨a, ha, rfl⟩ := List.mem_map.mp ht
    exact ⟨arg_noquote (h a ha), hb a ha⟩
  have first : ∀ a, Arg.Ok a → ∃ c r, a.text = c :: r ∧ c ≠ '\'' ∧ c ≠ '"' := by
    intro a ha
    obtain ⟨c, r, hn, hc1, hc2⟩ := ha.first
    unfold Arg.text
    cases a.dashes with
    | true => exact ⟨'-', _, rfl, by decide, by decide⟩
    | false => exact ⟨c, _, by rw [hn]; rfl, fun e => ha.name.1 (by rw [hn, e]; exact List.mem_cons_self ..), hc2⟩
  have last : ∀ (l : List Arg), (∀ a ∈ l, a.Ok) → ∀ z, (join [' '] (l.map Arg.text)).getLast? = some z → z ≠ '\'' ∧ z ≠ '"' := by
    intro l
    induction l with
    | nil => intro _ z hz; cases hz
    | cons a l ih =>
      intro h z hz
      cases l with
      | nil =>
        have hz : a.text.getLast? = some z := hz
        exact ⟨fun e => arg_noquote (h a (List.mem_cons_self ..)) (by rw [← e]; exact List.mem_of_getLast? hz), ((h a (List.mem_cons_self ..)).last z hz).2⟩
      | cons b l =>
        apply ih (fun x hx => h x (List.mem_cons_of_mem _ hx)) z
        have hz : (a.text ++ [' '] ++ join [' '] ((b :: l).map Arg.text)).getLast? = some z := hz
        rw [List.getLast?_append] at hz
        cases hj : (join [' '] ((b :: l).map Arg.text)).getLast? with
        | some y => rw [hj] at hz; exact hz
        | none =>
          exfalso
          obtain ⟨c, r, hc, _⟩ := first b (h b (List.mem_cons_of_mem _ (List.mem_cons_self ..)))
          have hj := List.getLast?_eq_none_iff.mp hj
          cases l with
          | nil =>
            have : b.text = [] := hj
            rw [hc] at this; cases this
          | cons d l =>
            have : b.text ++ [' '] ++ join [' '] ((d :: l).map Arg.text) = [] := hj
            rw [hc] at this; cases this
  have hq : quoteOf (join [' '] (l.map Arg.text)) = some '\'' := by
    have hlast := last l h
    obtain ⟨c, r, hc, n1, n2⟩ : ∃ c r, join [' '] (l.map Arg.text) = c :: r ∧ c ≠ '\'' ∧ c ≠ '"' := by
      cases l with
      | nil => exact absurd rfl hl
      | cons a l =>
        obtain ⟨c, r, hc, n⟩ := first a (h a (List.mem_cons_self ..))
        cases l with
        | nil => exact ⟨c, r, hc, n⟩
        | cons b l =>
          refine ⟨c, r ++ [' '] ++ join [' '] ((b :: l).map Arg.text), ?_, n⟩
          show a.text ++ [' '] ++ join [' '] ((b :: l).map Arg.text) = _
          rw [hc]
          rfl
    rw [hc] at hlast ⊢
    unfold quoteOf
    dsimp only
    rw [if_neg (fun e => e.elim n1 n2)]
    cases hz : (c :: r).getLast? with
    | none => rfl
    | some z =>
      dsimp only
      rw [if_neg (fun e => e.elim (hlast z hz).1 (hlast z hz).2)]
  unfold parseConfigure
  rw [hq]
  dsimp only
  rw [Props.PgString.C28_split_using _ _ _ (by decide)]
  have e : Props.PgString.limit (-1) = none := rfl
  rw [e, cut_join (by simpa using hl) hno, List.filterMap_map]
  clear hq e hl hno last hb
  induction l with
  | nil => rfl
  | cons a l ih =>
    rw [List.filterMap_cons_some (f := optionOf '\'' ∘ Arg.text) (optionOf_bare (h a (List.mem_cons_self ..))), ih fun x hx => h x (List.mem_cons_of_mem _ hx)]
    rfl

/-! ## The default installation -/

/-- C68: `default` gives None exactly when there is no `pg_config`; otherwise the installation is the one its `pg_config` describes, or the error met there. -/
theorem C68_default_installation (U : Unicode) (S : System) (programs : Str → Program) :
    (Installation.default U S programs = .ok none ↔ defaultPgConfig S = none) ∧
    (∀ p, defaultPgConfig S = some p → ∀ i, Installation.default U S programs = .ok (some i) ↔ ∃ info, pgConfigDictionary U (programs p) = .ok info ∧ installation U S info = .ok i) ∧
    (∀ p, defaultPgConfig S = some p → ∀ e, Installation.default U S programs = .error e ↔
      pgConfigDictionary U (programs p) = .error e ∨ ∃ info, pgConfigDictionary U (programs p) = .ok info ∧ installation U S info = .error e) := by
  refine ⟨?_, ?_, ?_⟩
  · unfold Installation.default
    cases hd : defaultPgConfig S with
    | none => simp
    | some p =>
      dsimp only
      cases pgConfigDictionary U (programs p) with
      | error e => simp
      | ok info =>
        dsimp only
        cases installation U S info <;> simp
  · intro p hd i
    unfold Installation.default
    rw [hd]
    dsimp only
    cases pgConfigDictionary U (programs p) with
    | error e => simp
    | ok info =>
      dsimp only
      cases h : installation U S info <;> simp [h]
  · intro p hd e
    unfold Installation.default
    rw [hd]
    dsimp only
    cases pgConfigDictionary U (programs p) with
    | error e => simp
    | ok info =>
      dsimp only
      cases h : installation U S info <;> simp [h]

/-- An installation without `pg_config`. -/
example : (match Installation.default Unicode.ascii ⟨[("PATH".toList, "/usr/bin:/bin".toList)], fun _ => false⟩ (fun _ _ => .missing) with | .ok none => true | _ => false) = true := by decide +kernel
/-- Options without quotes. -/
example : parseConfigure "--with-perl --enable-nls=de".toList = [("with_perl".toList, .given), ("enable_nls".toList, .text "de".toList)] := by decide +kernel
example : join [' '] ([⟨true, "with-perl".toList, none⟩, ⟨true, "enable-nls".toList, some "de".toList⟩].map Arg.text) = "--with-perl --enable-nls=de".toList := by decide +kernel
/-- Lines of Windows. -/
example : lines "A = 1\r\nB = 2\r\n".toList = ["A = 1".toList, "B = 2".toList] := by decide +kernel

end PG.Props.Installation
