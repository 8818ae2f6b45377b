import Verif.Model.Marker
import Verif.Spec.Marker
/-! # Proofs for C79 -/
namespace PG.Proofs.Marker
open PG PG.PyStr PG.Installation PG.Marker PG.Spec.Marker

theorem plain_cons {c : Char} {s : Str} : Plain (c :: s) ↔ isBreak c = false ∧ Plain s := by
  unfold Plain; simp

/-- Not a `\n` at the beginning. -/
def NoNl (x : Str) : Prop := ¬ ∃ r, x = '\n' :: r

theorem noNl_of_plain_append {a x : Str} (h : Plain a) (hx : NoNl x) : NoNl (a ++ x) := by
  cases a with
  | nil => exact hx
  | cons c a =>
    rintro ⟨r, h'⟩
    rw [List.cons_append] at h'
    injection h' with h1 h2
    subst h1
    have := h '\n' (by simp)
    revert this; decide

theorem lines_break {s rest : Str} (h : Break s rest) : lines (s ++ rest) = [] :: lines rest := by
  rcases h with rfl | ⟨c, rfl, hc, hr⟩
  · simp [lines]
  · cases rest with
    | nil => simp [lines, hc]
    | cons d r =>
      have : ¬ (c = '\r' ∧ d = '\n') := by
        rintro ⟨rfl, rfl⟩
        exact hr ⟨rfl, r, rfl⟩
      simp [lines, this, hc]

theorem lines_cons {c : Char} {x : Str} (hc : isBreak c = false) (hx : x ≠ []) : lines (c :: x) = consHead c (lines x) := by
  cases x with
  | nil => exact absurd rfl hx
  | cons d x =>
    have : c ≠ '\r' := by rintro rfl; revert hc; decide
    simp [lines, this, hc]

theorem lines_plain_break {l s rest : Str} (hl : Plain l) (h : Break s rest) : lines (l ++ s ++ rest) = l :: lines rest := by
  induction l with
  | nil => exact lines_break h
  | cons c l ih =>
    obtain ⟨hc, hl⟩ := plain_cons.1 hl
    have hne : l ++ s ++ rest ≠ [] := by
      rcases h with rfl | ⟨c, rfl, _⟩ <;> simp
    rw [List.cons_append, List.cons_append, lines_cons hc hne, ih hl]
    rfl

theorem lines_plain {l : Str} (hl : Plain l) (hne : l ≠ []) : lines l = [l] := by
  induction l with
  | nil => exact absurd rfl hne
  | cons c l ih =>
    obtain ⟨hc, hl⟩ := plain_cons.1 hl
    by_cases hx : l = []
    · subst hx; simp [lines, hc]
    · rw [lines_cons hc hx, ih hl hx]
      rfl

theorem break_append {s t x : Str} (h : Break s t) (hx : t = [] → NoNl x) : Break s (t ++ x) := by
  rcases h with rfl | ⟨c, rfl, hc, hr⟩
  · exact .inl rfl
  · refine .inr ⟨c, rfl, hc, ?_⟩
    rintro ⟨hc', r, h⟩
    cases t with
    | nil => exact hx rfl ⟨r, h⟩
    | cons d t =>
      rw [List.cons_append] at h
      injection h with h1 h2
      subst h1
      exact hr ⟨hc', t, rfl⟩

theorem lines_full {t : Str} {ls : List Str} (h : Full t ls) {x : Str} (hx : NoNl x) : lines (t ++ x) = ls ++ lines x := by
  induction h with
  | nil => rfl
  | @line l s t ls hl hs _ ih =>
    have := lines_plain_break hl (break_append (x := x) hs fun _ => hx)
    rw [show l ++ s ++ t ++ x = l ++ s ++ (t ++ x) by simp [List.append_assoc], this, ih, List.cons_append]

/-- The lines in front, each with a `\n`. -/
def head (ls : List Str) : Str := ls.flatMap fun l => l ++ ['\n']

theorem join_head (ls : List Str) (l : Str) (ms : List Str) : join ['\n'] (ls ++ l :: ms) = head ls ++ join ['\n'] (l :: ms) := by
  induction ls with
  | nil => rfl
  | cons a ls ih =>
    have : ls ++ l :: ms ≠ [] := by simp
    cases hq : ls ++ l :: ms with
    | nil => exact absurd hq this
    | cons b r =>
      rw [List.cons_append, hq]
      show a ++ ['\n'] ++ join ['\n'] (b :: r) = _
      rw [← hq, ih]
      simp [head, List.append_assoc]

theorem join_cons (l : Str) (ms : List Str) : ∃ tail, join ['\n'] (l :: ms) = l ++ tail ∧ (tail = [] ∨ ∃ r, tail = '\n' :: r) := by
  cases ms with
  | nil => exact ⟨[], by simp [join], .inl rfl⟩
  | cons m ms => exact ⟨'\n' :: join ['\n'] (m :: ms), by simp [join, List.append_assoc], .inr ⟨_, rfl⟩⟩

theorem head_plain {t : Str} {ls : List Str} (h : Full t ls) : ∀ l ∈ ls, Plain l := by
  induction h with
  | nil => intro l hl; cases hl
  | line hl _ _ ih =>
    intro m hm
    rcases List.mem_cons.1 hm with rfl | hm
    · exact hl
    · exact ih m hm

theorem plain_no_nl {l : Str} (h : Plain l) : '\n' ∉ l := fun hm => by
  have := h '\n' hm
  revert this; decide

theorem count_head {ls : List Str} (h : ∀ l ∈ ls, Plain l) {a : Str} (ha : Plain a) : ((head ls ++ a).filter (· = '\n')).length = ls.length := by
  have h0 : ∀ {l : Str}, Plain l → l.filter (fun x => decide (x = '\n')) = [] := fun {l} hl => by
    rw [List.filter_eq_nil_iff]
    intro c hc hd
    have : c = '\n' := by simpa using hd
    subst this
    exact plain_no_nl hl hc
  rw [List.filter_append, h0 ha, List.append_nil]
  induction ls with
  | nil => rfl
  | cons l ls ih =>
    have hl := h0 (h l (by simp))
    simp only [head, List.flatMap_cons, List.filter_append, List.length_append, List.length_cons] at ih ⊢
    rw [hl]
    simp only [List.length_nil, Nat.zero_add]
    rw [ih fun m hm => h m (by simp [hm])]
    simp
    omega

/-- The last `\n` before the line is the end of the head. -/
theorem rfind_head {ls : List Str} {a rest : Str} (ha : '\n' ∉ a) :
    lineStart (head ls ++ a ++ rest) (head ls ++ a).length = (head ls).length := by
  unfold lineStart rfindIn
  rw [List.take_left' rfl, List.reverse_append]
  have hn : a.reverse.findIdx? (· = '\n') = none := by
    rw [List.findIdx?_eq_none_iff]
    intro c hc
    simp only [decide_eq_false_iff_not]
    rintro rfl
    exact ha (List.mem_reverse.1 hc)
  rw [List.findIdx?_append, hn]
  rcases List.eq_nil_or_concat ls with rfl | ⟨l, x, rfl⟩
  · simp [head]
  · rw [List.concat_eq_append]
    have : (head (l ++ [x])).reverse = '\n' :: (head l ++ x).reverse := by simp [head, List.flatMap_append]
    rw [this]
    have hl : (head (l ++ [x])).length = (head l ++ x).length + 1 := by
      simp [head, List.flatMap_append]; omega
    simp only [List.findIdx?_cons, List.length_append, List.length_reverse, decide_true, if_true, Option.map_some, Option.none_or, hl] at *
    simp

theorem untab_length (s : Str) : (untab s).length = s.length := by simp [untab]
theorem untab_append (a b : Str) : untab (a ++ b) = untab a ++ untab b := by simp [untab]
theorem untab_head (ls : List Str) : untab (head ls) = head (ls.map untab) := by
  induction ls with
  | nil => rfl
  | cons l ls ih =>
    rw [show head (l :: ls) = l ++ ['\n'] ++ head ls from rfl, untab_append, untab_append, ih]
    rfl
theorem untab_plain {s : Str} (h : Plain s) : Plain (untab s) := by
  intro c hc
  obtain ⟨d, hd, rfl⟩ := List.mem_map.1 hc
  split
  · decide
  · exact h d hd
theorem untab_nl {s : Str} (h : '\n' ∉ s) : '\n' ∉ untab s := by
  intro hm
  obtain ⟨d, hd, he⟩ := List.mem_map.1 hm
  split at he
  · revert he; decide
  · exact h (he ▸ hd)

theorem find_tail {p l tail : Str} {n : Nat} (hl : '\n' ∉ l) (hn : n ≤ l.length) (ht : tail = [] ∨ ∃ r, tail = '\n' :: r) :
    lineEnd (p ++ l ++ tail) (p.length + n) = (p ++ l).length := by
  unfold lineEnd find
  have hd : (p ++ l ++ tail).drop (p.length + n) = l.drop n ++ tail := by
    rw [List.append_assoc, ← List.drop_drop, List.drop_left' rfl, List.drop_append_of_le_length hn]
  have hf : (l.drop n).findIdx? (· = '\n') = none := by
    rw [List.findIdx?_eq_none_iff]
    intro c hc
    simp only [decide_eq_false_iff_not]
    rintro rfl
    exact hl (List.mem_of_mem_drop hc)
  rw [hd, List.findIdx?_append, hf]
  rcases ht with rfl | ⟨r, rfl⟩
  · simp
  · simp only [List.findIdx?_cons, decide_true, if_true, Option.none_or, Option.map_some, List.length_append, List.length_drop]
    show 0 + (l.length - n) + (p.length + n) = p.length + l.length
    omega

theorem after_lines {l b : Str} (hl : Plain l) (hne : l ≠ []) (hb : After b) : ∃ ms, lines (l ++ b) = l :: ms := by
  rcases hb with rfl | ⟨s, r, rfl, hs⟩
  · exact ⟨[], by rw [List.append_nil, lines_plain hl hne]⟩
  · exact ⟨lines r, by rw [← List.append_assoc, lines_plain_break hl hs]⟩

theorem after_noNl {l b : Str} (hl : Plain l) (hne : l ≠ []) : NoNl (l ++ b) := by
  cases l with
  | nil => exact absurd rfl hne
  | cons c l =>
    rintro ⟨r, h⟩
    rw [List.cons_append] at h
    injection h with h1 _
    subst h1
    have := hl '\n' (by simp)
    revert this; decide

/-- The line, if the position as it is computed is `n` characters into it. -/
theorem lineMeta_spec {q t l b : Str} {ls : List Str} {pos n : Nat} (hq : q = t ++ (l ++ b)) (ht : Full t ls) (hl : Plain l) (hne : l ≠ []) (hb : After b) (hn : n ≤ l.length)
    (hp : (join ['\n'] (lines (q.take pos))).length = (head ls).length + n) :
    lineMeta q pos = untab l ++ '\n' :: (List.replicate (n - 1) ' ' ++ '^' :: where_ (ls.length + 1) n) := by
  obtain ⟨ms, hms⟩ := after_lines hl hne hb
  have hql : lines q = ls ++ l :: ms := by rw [hq, lines_full ht (after_noNl hl hne), hms]
  obtain ⟨tail, htail, hcase⟩ := join_cons l ms
  have hqj : join ['\n'] (lines q) = head ls ++ l ++ tail := by rw [hql, join_head, htail, List.append_assoc]
  have hpl := head_plain ht
  unfold lineMeta
  simp only [hp, hqj]
  have htake : (head ls ++ l ++ tail).take ((head ls).length + n) = head ls ++ l.take n := by
    rw [List.append_assoc, List.take_append, List.take_of_length_le (by omega)]
    congr 1
    rw [show (head ls).length + n - (head ls).length = n by omega, List.take_append_of_le_length hn]
  rw [htake, count_head hpl (fun c hc => hl c (List.mem_of_mem_take hc))]
  have hu : (head ls ++ l ++ tail).map (fun c => if c = '\t' then ' ' else c) = head (ls.map untab) ++ untab l ++ untab tail := by
    show untab (head ls ++ l ++ tail) = _
    rw [untab_append, untab_append, untab_head]
  have hlen : (head (ls.map untab)).length = (head ls).length := by rw [← untab_head, untab_length]
  rw [hu]
  have hul := untab_plain hl
  have hbov : lineStart (head (ls.map untab) ++ untab l ++ untab tail) ((head ls).length + n) = (head ls).length := by
    have := rfind_head (ls := ls.map untab) (a := (untab l).take n) (rest := (untab l).drop n ++ untab tail) (fun hm => plain_no_nl hul (List.mem_of_mem_take hm))
    rw [hlen, List.append_assoc (head (ls.map untab)) ((untab l).take n), ← List.append_assoc ((untab l).take n), List.take_append_drop, ← List.append_assoc, List.length_append, List.length_take, hlen, untab_length, Nat.min_eq_left hn] at this
    exact this
  have hct : untab tail = [] ∨ ∃ r, untab tail = '\n' :: r := by
    rcases hcase with rfl | ⟨r, rfl⟩
    · exact .inl rfl
    · exact .inr ⟨untab r, rfl⟩
  have heov := find_tail (p := head (ls.map untab)) (l := untab l) (tail := untab tail) (n := n) (plain_no_nl hul) (by rw [untab_length]; exact hn) hct
  rw [hlen] at heov
  rw [hbov, heov]
  have hview : ((head (ls.map untab) ++ untab l ++ untab tail).take (head (ls.map untab) ++ untab l).length).drop (head ls).length = untab l := by
    rw [List.take_left' rfl, ← hlen, List.drop_left' rfl]
  rw [hview, lines_plain hul (by intro h; exact hne (List.length_eq_zero_iff.1 (by rw [← untab_length, h]; rfl)))]
  rw [show (head ls).length + n - (head ls).length = n by omega]
  simp [join]

theorem take_position {t l b : Str} {ls : List Str} {n : Nat} (ht : Full t ls) (hl : Plain l) (hn : 0 < n) (hle : n ≤ l.length) :
    (join ['\n'] (lines ((t ++ (l ++ b)).take (t.length + n)))).length = (head ls).length + n := by
  have : (t ++ (l ++ b)).take (t.length + n) = t ++ l.take n := by
    rw [List.take_append, List.take_of_length_le (by omega)]
    congr 1
    rw [show t.length + n - t.length = n by omega, List.take_append_of_le_length hle]
  have hpl : Plain (l.take n) := fun c hc => hl c (List.mem_of_mem_take hc)
  have hne : l.take n ≠ [] := by
    intro h
    have := congrArg List.length h
    rw [List.length_take, Nat.min_eq_left hle] at this
    simp at this
    omega
  have hno := after_noNl (b := []) hpl hne
  rw [List.append_nil] at hno
  rw [this, lines_full ht hno, lines_plain hpl hne, join_head]
  simp [join, Nat.min_eq_left hle]

end PG.Proofs.Marker
