import Verif.Spec.VersionString
/-! # C43: version strings -/
namespace PG.Props.VersionString
open PG PG.VersionString PG.Spec.VersionString

theorem digit_iff (c : Char) : digit c = true ↔ c.isDigit = true := by
  simp only [digit, Char.isDigit, Bool.and_eq_true, decide_eq_true_eq]
  rfl

theorem digit_spec (c : Char) : digit c = true ↔ isDigit c := by
  constructor
  · intro h
    simp only [digit, decide_eq_true_eq] at h
    obtain ⟨h1, h2⟩ := h
    have h1 : 48 ≤ c.toNat := h1
    have h2 : c.toNat ≤ 57 := h2
    have e : c = Char.ofNat c.toNat := (Char.ofNat_toNat c).symm
    have : c.toNat = 48 ∨ c.toNat = 49 ∨ c.toNat = 50 ∨ c.toNat = 51 ∨ c.toNat = 52 ∨ c.toNat = 53 ∨ c.toNat = 54 ∨ c.toNat = 55 ∨ c.toNat = 56 ∨ c.toNat = 57 := by omega
    rcases this with h | h | h | h | h | h | h | h | h | h <;> rw [h] at e <;> subst e <;> unfold isDigit <;> decide
  · intro h
    have : ∀ c ∈ "0123456789".toList, digit c = true := by decide
    exact this c h

theorem digit_facts {c : Char} (h : digit c = true) : PyInt.baseDigit 10 c = some (c.toNat - '0'.toNat) ∧ c ≠ '_' ∧ c ≠ '-' ∧ c ≠ '+' ∧ c ≠ '.' ∧ TypesLib.isSpace c = false := by
  have h := (digit_spec c).1 h
  have : ∀ c ∈ "0123456789".toList, PyInt.baseDigit 10 c = some (c.toNat - '0'.toNat) ∧ c ≠ '_' ∧ c ≠ '-' ∧ c ≠ '+' ∧ c ≠ '.' ∧ TypesLib.isSpace c = false := by decide
  exact this c h

theorem scan_digits : ∀ (l : Str) (acc : Nat), (∀ c ∈ l, digit c = true) → PyInt.scan 10 acc l = some (Nat.ofDigitChars 10 l acc)
  | [], acc, _ => by rw [PyInt.scan, Nat.ofDigitChars_nil]
  | c :: l, acc, h => by
    have hc := digit_facts (h c (by simp))
    have e : PyInt.scan 10 acc (c :: l) = PyInt.scan 10 (acc * 10 + (c.toNat - '0'.toNat)) l := by
      rw [PyInt.scan.eq_def]
      split
      · rename_i h'; cases h'
      · rename_i h'; injection h' with h' _; exact absurd h' hc.2.1
      · rename_i h'; injection h' with h1 h2; subst h1 h2; rw [hc.1]
    rw [e, scan_digits l _ (fun x hx => h x (by simp [hx])), Nat.ofDigitChars_cons]
    rw [Nat.mul_comm]

theorem strip_head {c : Char} {l : Str} (h : TypesLib.isSpace c = false) (r : Str) (d : Char) (e : c :: l = r ++ [d]) (hd : TypesLib.isSpace d = false) :
    TypesLib.strip (c :: l) = c :: l := by
  unfold TypesLib.strip
  rw [List.dropWhile_cons_of_neg (by simp [h]), e, List.reverse_append]
  simp [hd]

theorem snoc (l : Str) (c : Char) : ∃ r d, c :: l = r ++ [d] := by
  rcases List.eq_nil_or_concat (c :: l) with h | ⟨r, d, h⟩
  · cases h
  · exact ⟨r, d, by rw [h, List.concat_eq_append]⟩

theorem pyInt_digits (l : Str) (hne : l ≠ []) (h : ∀ c ∈ l, digit c = true) : PyInt.pyInt 10 l = .ok (Nat.ofDigitChars 10 l 0 : Nat) := by
  obtain ⟨c, l, rfl⟩ := List.exists_cons_of_ne_nil hne
  have hc := digit_facts (h c (by simp))
  obtain ⟨r, d, e⟩ := snoc l c
  have hd := digit_facts (h d (by rw [e]; simp))
  have hs := strip_head hc.2.2.2.2.2 r d e hd.2.2.2.2.2
  have hu : PyInt.unsigned 10 (c :: l) = some (Nat.ofDigitChars 10 (c :: l) 0) := by
    have hp : PyInt.dropPrefix 10 (c :: l) = c :: l := by
      rw [PyInt.dropPrefix.eq_def]
      split
      · rw [if_neg (by omega)]; simp_all
      · rfl
    unfold PyInt.unsigned
    rw [hp]
    simp only [hc.1]
    rw [scan_digits l _ (fun x hx => h x (by simp [hx])), Nat.ofDigitChars_cons]
    simp
  unfold PyInt.pyInt
  rw [hs]
  split
  · rename_i h'; injection h' with h' _; exact absurd h' hc.2.2.1
  · rename_i h'; injection h' with h' _; exact absurd h' hc.2.2.2.1
  · rw [hu]

theorem decimal_digits (n : Nat) : ∀ c ∈ decimal n, digit c = true := fun c hc =>
  (digit_iff c).2 (Nat.isDigit_of_mem_toDigits (by decide) (by decide) hc)

theorem decimal_ne (n : Nat) : decimal n ≠ [] := Nat.toDigits_ne_nil

theorem pyInt_decimal (n : Nat) : PyInt.pyInt 10 (decimal n) = .ok (n : Int) := by
  rw [pyInt_digits _ (decimal_ne n) (decimal_digits n)]
  unfold decimal
  rw [Nat.ofDigitChars_ten_toDigits]

theorem number_decimal (n : Nat) : number (decimal n) = .ok (.int n) := by
  unfold number
  rw [if_neg (decimal_ne n), pyInt_decimal]; rfl

theorem numbers_decimal : ∀ l : List Nat, numbers (l.map decimal) = .ok (l.map fun n : Nat => Item.int n)
  | [] => rfl
  | n :: l => by
    show numbers (decimal n :: l.map decimal) = _
    rw [numbers, number_decimal, numbers_decimal l]; rfl

/-! ### Cutting at the dots -/

theorem split_none : ∀ (a : Str), '.' ∉ a → PyStr.split '.' a = [a]
  | [], _ => rfl
  | c :: a, h => by
    have hc : c ≠ '.' := fun e => h (by simp [e])
    rw [PyStr.split, if_neg hc, split_none a (fun hx => h (by simp [hx]))]; rfl

theorem split_dot : ∀ (a b : Str), '.' ∉ a → PyStr.split '.' (a ++ '.' :: b) = a :: PyStr.split '.' b
  | [], b, _ => by rw [List.nil_append, PyStr.split, if_pos rfl]
  | c :: a, b, h => by
    have hc : c ≠ '.' := fun e => h (by simp [e])
    rw [List.cons_append, PyStr.split, if_neg hc, split_dot a b (fun hx => h (by simp [hx]))]; rfl

theorem decimal_nodot (n : Nat) : '.' ∉ decimal n := fun h => (digit_facts (decimal_digits n _ h)).2.2.2.2.1 rfl

theorem split_nums : ∀ (l : List Nat) (n : Nat) (suf : Str), '.' ∉ suf →
    PyStr.split '.' (decimal n ++ l.flatMap (fun n => '.' :: decimal n) ++ suf) =
      ((n :: l).dropLast.map decimal) ++ [decimal ((n :: l).getLast (by simp)) ++ suf]
  | [], n, suf, h => by
    simp only [List.flatMap_nil, List.append_nil]
    rw [split_none _ (by simp only [List.mem_append, not_or]; exact ⟨decimal_nodot n, h⟩)]; rfl
  | m :: l, n, suf, h => by
    have ih := split_nums l m suf h
    simp only [List.flatMap_cons, List.append_assoc, List.cons_append]
    rw [split_dot _ _ (decimal_nodot n)]
    simp only [List.append_assoc] at ih
    rw [ih]
    simp [List.dropLast_cons_of_ne_nil]

/-! ### The last component -/

theorem dropWhile_append {p : Char → Bool} : ∀ (a b : Str), (∀ c ∈ a, p c = true) → (a ++ b).dropWhile p = b.dropWhile p
  | [], b, _ => rfl
  | c :: a, b, h => by
    rw [List.cons_append, List.dropWhile_cons_of_pos (h c (by simp)), dropWhile_append a b (fun x hx => h x (by simp [hx]))]

theorem stripDigits_all (a : Str) (h : ∀ c ∈ a, digit c = true) : stripDigits a = [] := by
  have := dropWhile_append a [] h
  rw [List.append_nil] at this
  unfold stripDigits; rw [this]; rfl

theorem stripDigits_mid {a b s : Str} (ha : ∀ c ∈ a, digit c = true) (hb : ∀ c ∈ b, digit c = true) (h1 : ∃ c r, s = c :: r ∧ digit c = false)
    (h2 : ∃ r c, s = r ++ [c] ∧ digit c = false) : stripDigits (a ++ s ++ b) = s := by
  obtain ⟨c, r, e, hc⟩ := h1
  obtain ⟨r', d, e', hd⟩ := h2
  unfold stripDigits
  rw [List.append_assoc, dropWhile_append a _ ha]
  have e1 : (s ++ b).dropWhile digit = s ++ b := by
    subst e; rw [List.cons_append, List.dropWhile_cons_of_neg (by simp [hc])]
  rw [e1, List.reverse_append, dropWhile_append _ _ (fun c hc => hb c (by simpa using hc)), e', List.reverse_append]
  simp [hd]

theorem splitStr_digits : ∀ (b acc s : Str), (∃ c r, s = c :: r ∧ digit c = false) → (∀ c ∈ b, digit c = true) → splitStr s acc 0 b = [acc ++ b]
  | [], acc, s, _, _ => by simp [splitStr]
  | x :: b, acc, s, h1, hb => by
    have hn : s.isPrefixOf (x :: b) = false := by
      obtain ⟨c, r, e, hc⟩ := h1
      subst e
      simp only [List.isPrefixOf, Bool.and_eq_false_iff]
      left
      have := hb x (by simp)
      cases hcx : (c == x)
      · rfl
      · rw [eq_of_beq hcx, this] at hc; cases hc
    rw [splitStr, hn, if_neg (by decide), splitStr_digits b _ s h1 (fun c hc => hb c (by simp [hc]))]
    simp

theorem splitStr_skip : ∀ (a b acc s : Str), splitStr s acc a.length (a ++ b) = splitStr s acc 0 b
  | [], b, acc, s => rfl
  | c :: a, b, acc, s => by
    rw [List.length_cons, List.cons_append, splitStr, splitStr_skip a b acc s]

theorem splitStr_mid : ∀ (a acc : Str) {b s : Str}, (∃ c r, s = c :: r ∧ digit c = false) → (∀ c ∈ a, digit c = true) → (∀ c ∈ b, digit c = true) →
    splitStr s acc 0 (a ++ s ++ b) = [acc ++ a, b]
  | [], acc, b, s, h1, _, hb => by
    obtain ⟨c, r, e, hc⟩ := h1
    have hp : s.isPrefixOf (s ++ b) = true := by
      rw [List.isPrefixOf_iff_prefix]; exact List.prefix_append s b
    have h1 : ∃ c r, s = c :: r ∧ digit c = false := ⟨c, r, e, hc⟩
    rw [List.nil_append]
    have e2 : s ++ b = c :: (r ++ b) := by rw [e]; rfl
    have e3 : s.length - 1 = r.length := by rw [e]; simp
    rw [e2, splitStr, ← e2, if_pos hp, e3, splitStr_skip, splitStr_digits b [] s h1 hb]
    simp
  | x :: a, acc, b, s, h1, ha, hb => by
    have hn : s.isPrefixOf (x :: (a ++ s ++ b)) = false := by
      obtain ⟨c, r, e, hc⟩ := h1
      rw [e]
      simp only [List.isPrefixOf, Bool.and_eq_false_iff]
      left
      have := ha x (by simp)
      cases hcx : (c == x)
      · rfl
      · rw [eq_of_beq hcx, this] at hc; cases hc
    rw [List.cons_append, List.cons_append, splitStr, hn, if_neg (by decide), splitStr_mid a _ h1 (fun c hc => ha c (by simp [hc])) hb]
    simp

/-- White space around a version. -/
theorem strip_blanks {a t b : Str} (ha : ∀ c ∈ a, TypesLib.isSpace c = true) (hb : ∀ c ∈ b, TypesLib.isSpace c = true) (h1 : ∃ c r, t = c :: r ∧ TypesLib.isSpace c = false)
    (h2 : ∃ r c, t = r ++ [c] ∧ TypesLib.isSpace c = false) : TypesLib.strip (a ++ t ++ b) = t := by
  obtain ⟨c, r, e, hc⟩ := h1
  obtain ⟨r', d, e', hd⟩ := h2
  unfold TypesLib.strip
  rw [List.append_assoc, dropWhile_append a _ ha]
  have e1 : (t ++ b).dropWhile TypesLib.isSpace = t ++ b := by
    subst e; rw [List.cons_append, List.dropWhile_cons_of_neg (by simp [hc])]
  rw [e1, List.reverse_append, dropWhile_append _ _ (fun c hc => hb c (by simpa using hc)), e', List.reverse_append]
  simp [hd]

/-- What follows the numbers. -/
def suffix (v : Version) : Str :=
  match v.state with
  | none => []
  | some (s, none) => s
  | some (s, some n) => s ++ decimal n

theorem text_eq (v : Version) : v.text = decimal v.major ++ v.rest.flatMap (fun n => '.' :: decimal n) ++ suffix v := rfl

theorem suffix_nodot {v : Version} (h : v.Ok) : '.' ∉ suffix v := by
  unfold suffix
  split
  · simp
  · rename_i s e; exact (h s none e).nodot
  · rename_i s n e
    simp only [List.mem_append, not_or]
    exact ⟨(h s _ e).nodot, decimal_nodot n⟩

theorem snoc_dec (n : Nat) : ∃ r d, decimal n = r ++ [d] ∧ digit d = true := by
  obtain ⟨c, l, e⟩ := List.exists_cons_of_ne_nil (decimal_ne n)
  obtain ⟨r, d, e'⟩ := snoc l c
  exact ⟨r, d, by rw [e, e'], decimal_digits n d (by rw [e, e']; simp)⟩

theorem nums_last : ∀ (l : List Nat) (n : Nat), ∃ r d, decimal n ++ l.flatMap (fun n => '.' :: decimal n) = r ++ [d] ∧ digit d = true
  | [], n => by
    obtain ⟨r, d, e, h⟩ := snoc_dec n
    exact ⟨r, d, by simp [e], h⟩
  | m :: l, n => by
    obtain ⟨r, d, e, h⟩ := nums_last l m
    refine ⟨decimal n ++ '.' :: r, d, ?_, h⟩
    rw [List.flatMap_cons, List.cons_append, e]; simp

theorem text_first (v : Version) : ∃ c r, v.text = c :: r ∧ TypesLib.isSpace c = false := by
  obtain ⟨c, l, e⟩ := List.exists_cons_of_ne_nil (decimal_ne v.major)
  refine ⟨c, l ++ v.rest.flatMap (fun n => '.' :: decimal n) ++ suffix v, ?_, (digit_facts (decimal_digits v.major c (by rw [e]; simp))).2.2.2.2.2⟩
  rw [text_eq, e]; rfl

theorem text_last {v : Version} (h : v.Ok) : ∃ r c, v.text = r ++ [c] ∧ TypesLib.isSpace c = false := by
  rw [text_eq]
  unfold suffix
  split
  · obtain ⟨r, d, e, hd⟩ := nums_last v.rest v.major
    exact ⟨r, d, by rw [List.append_nil, e], (digit_facts hd).2.2.2.2.2⟩
  · rename_i s e
    obtain ⟨r, c, e', h1, h2⟩ := (h s none e).last
    exact ⟨decimal v.major ++ v.rest.flatMap (fun n => '.' :: decimal n) ++ r, c, by rw [e', List.append_assoc _ r], h2 rfl⟩
  · rename_i s n e
    obtain ⟨r, d, e', hd⟩ := snoc_dec n
    exact ⟨decimal v.major ++ v.rest.flatMap (fun n => '.' :: decimal n) ++ s ++ r, d, by rw [e']; simp only [List.append_assoc], (digit_facts hd).2.2.2.2.2⟩

theorem stateOk {s : Str} {l : Option Nat} (h : StateOk s l) : (∃ c r, s = c :: r ∧ digit c = false) ∧ (∃ r c, s = r ++ [c] ∧ digit c = false) := by
  obtain ⟨c, r, e, hc⟩ := h.first
  obtain ⟨r', d, e', hd, -⟩ := h.last
  refine ⟨⟨c, r, e, ?_⟩, ⟨r', d, e', ?_⟩⟩
  · cases hx : digit c
    · rfl
    · exact absurd ((digit_spec c).1 hx) hc
  · cases hx : digit d
    · rfl
    · exact absurd ((digit_spec d).1 hx) hd

theorem nums_split (v : Version) : (v.nums.dropLast.map fun n : Nat => Item.int n) ++ [Item.int (v.nums.getLast (by simp [Version.nums]) : Nat)] = v.nums.map fun n : Nat => Item.int n := by
  have := List.dropLast_concat_getLast (l := v.nums) (by simp [Version.nums])
  conv => rhs; rw [← this]
  rw [List.map_append]; rfl

theorem pad_eq : ∀ (l : List Nat), l ≠ [] → (l.map fun n : Nat => Item.int n) ++ List.replicate (3 - l.length) Item.none =
    [numberAt l 0, numberAt l 1, numberAt l 2] ++ (l.drop 3).map (fun n : Nat => Item.int n)
  | [], h => absurd rfl h
  | [a], _ => rfl
  | [a, b], _ => rfl
  | a :: b :: c :: l, _ => by simp [numberAt]

theorem splitLast_state {v : Version} {s : Str} {l : Option Nat} (hs : v.state = some (s, l)) (h : v.Ok) :
    splitLast (v.nums.dropLast.map decimal) (decimal (v.nums.getLast (by simp [Version.nums])) ++ suffix v) = .ok v.tuple := by
  obtain ⟨h1, h2⟩ := stateOk (h s l hs)
  generalize hg : v.nums.getLast (by simp [Version.nums]) = g
  have hn := nums_split v
  rw [hg] at hn
  have hlen : (v.nums.map fun n : Nat => Item.int n).length = v.nums.length := List.length_map ..
  have key : ∀ b, (∀ c ∈ b, digit c = true) → ∀ lv, levelOf b = .ok lv →
      splitLast (v.nums.dropLast.map decimal) (decimal g ++ s ++ b) = .ok ((v.nums.map fun n : Nat => Item.int n) ++ List.replicate (3 - v.nums.length) Item.none ++ [.text s, lv]) := by
    intro b hb lv hlv
    have hne : s ≠ [] := by obtain ⟨c, r, e, -⟩ := h1; rw [e]; simp
    unfold splitLast
    rw [stripDigits_mid (decimal_digits g) hb h1 h2]
    dsimp only
    rw [if_pos hne, splitStr_mid _ _ h1 (decimal_digits g) hb]
    dsimp only
    rw [hlv]
    dsimp only
    rw [numbers_decimal]
    dsimp only
    rw [List.nil_append, if_neg (decimal_ne g), pyInt_decimal]
    simp only [Except.map]
    rw [hn, hlen]
  cases l with
  | none =>
    have e : suffix v = s ++ [] := by unfold suffix; rw [hs, List.append_nil]
    rw [e, ← List.append_assoc, key [] (by simp) .none rfl, pad_eq _ (by simp [Version.nums])]
    unfold Version.tuple
    rw [hs]
  | some n =>
    have e : suffix v = s ++ decimal n := by unfold suffix; rw [hs]
    have hl : levelOf (decimal n) = .ok (.int n) := by
      unfold levelOf; rw [if_neg (decimal_ne n), pyInt_decimal]; rfl
    rw [e, ← List.append_assoc, key _ (decimal_digits n) _ hl, pad_eq _ (by simp [Version.nums])]
    unfold Version.tuple
    rw [hs]

theorem splitLast_release {v : Version} (hs : v.state = none) :
    splitLast (v.nums.dropLast.map decimal) (decimal (v.nums.getLast (by simp [Version.nums])) ++ suffix v) =
      .ok ((v.nums.map fun n : Nat => Item.int n) ++ List.replicate (5 - v.nums.length) Item.none) := by
  have e : suffix v = [] := by unfold suffix; rw [hs]
  rw [e, List.append_nil]
  unfold splitLast
  rw [stripDigits_all _ (decimal_digits _)]
  dsimp only
  rw [if_neg (by simp)]
  have e2 : v.nums.dropLast.map decimal ++ [decimal (v.nums.getLast (by simp [Version.nums]))] = v.nums.map decimal := by
    conv => rhs; rw [← List.dropLast_concat_getLast (l := v.nums) (by simp [Version.nums])]
    rw [List.map_append]; rfl
  rw [e2, numbers_decimal]
  dsimp only
  rw [List.length_map]

theorem split_text {v : Version} (h : v.Ok) {a b : Str} (ha : ∀ c ∈ a, TypesLib.isSpace c = true) (hb : ∀ c ∈ b, TypesLib.isSpace c = true) :
    split (a ++ v.text ++ b) = splitLast (v.nums.dropLast.map decimal) (decimal (v.nums.getLast (by simp [Version.nums])) ++ suffix v) := by
  unfold split
  rw [strip_blanks ha hb (text_first v) (text_last h), text_eq, split_nums _ _ _ (suffix_nodot h)]
  simp [Version.nums]

/-- C43: a version of up to three numbers, or one with a state, is split into the documented tuple; white space around it does not matter. -/
theorem C43_split (v : Version) (h : v.Ok) (hn : v.nums.length ≤ 3 ∨ v.state ≠ none) (a b : Str) (ha : ∀ c ∈ a, TypesLib.isSpace c = true)
    (hb : ∀ c ∈ b, TypesLib.isSpace c = true) : split (a ++ v.text ++ b) = .ok v.tuple := by
  rw [split_text h ha hb]
  cases hs : v.state with
  | some p =>
    obtain ⟨s, l⟩ := p
    exact splitLast_state hs h
  | none =>
    have hn : v.nums.length ≤ 3 := hn.resolve_right (by simp [hs])
    rw [splitLast_release hs]
    unfold Version.tuple
    rw [hs]
    have e : List.replicate (5 - v.nums.length) Item.none = List.replicate (3 - v.nums.length) Item.none ++ [.none, .none] := by
      have : 5 - v.nums.length = (3 - v.nums.length) + 2 := by omega
      rw [this, ← List.replicate_append_replicate]; rfl
    rw [e, ← List.append_assoc, pad_eq _ (by simp [Version.nums])]

theorem reverse_two {α} (l : List α) (a b : α) : (l ++ [a, b]).reverse = b :: a :: l.reverse := by simp

theorem parts_two (l : List Item) (a b : Item) : parts (l ++ [a, b]) = .ok (l, a, b) := by
  unfold parts; rw [reverse_two]; simp

theorem tuple_shape (v : Version) : v.tuple = (v.nums.map fun n : Nat => Item.int n) ++ List.replicate (3 - v.nums.length) Item.none ++
    (match v.state with
    | none => [.none, .none]
    | some (s, none) => [.text s, .none]
    | some (s, some n) => [.text s, .int n]) := by
  rw [pad_eq _ (by simp [Version.nums])]; rfl

theorem filter_head (l : List Nat) (k : Nat) : ((l.map fun n : Nat => Item.int n) ++ List.replicate k Item.none).filter (· ≠ Item.none) = l.map fun n : Nat => Item.int n := by
  rw [List.filter_append]
  have h1 : (l.map fun n : Nat => Item.int n).filter (· ≠ Item.none) = l.map fun n : Nat => Item.int n := by
    rw [List.filter_eq_self]; intro a ha; simp only [List.mem_map] at ha; obtain ⟨n, -, rfl⟩ := ha; rfl
  have h2 : (List.replicate k Item.none).filter (· ≠ Item.none) = [] := by
    rw [List.filter_eq_nil_iff]; intro a ha; rw [List.mem_replicate] at ha; rw [ha.2]; decide
  rw [h1, h2, List.append_nil]

theorem join_nums : ∀ (l : List Nat) (n : Nat), PyStr.join ['.'] (((n :: l).map fun n : Nat => Item.int n).map pyStr) = decimal n ++ l.flatMap (fun n => '.' :: decimal n)
  | [], n => by simp [PyStr.join, pyStr, decimal]
  | m :: l, n => by
    have ih := join_nums l m
    simp only [List.map_cons] at ih ⊢
    rw [PyStr.join, ih]
    · simp [pyStr, decimal]
    · simp

/-- C43: the tuple of a version is joined to the original text, if the version has no state, or a state with a level. -/
theorem C43_unsplit_partial (v : Version) (hs : ∀ s, v.state ≠ some (s, none)) : unsplit v.tuple = .ok v.text := by
  rw [tuple_shape]
  unfold unsplit
  rw [text_eq]
  unfold suffix
  cases e : v.state with
  | none =>
    simp only [parts_two]
    rw [filter_head]
    unfold Version.nums
    rw [join_nums, List.append_nil]
  | some p =>
    obtain ⟨s, l⟩ := p
    cases l with
    | none => exact absurd e (hs s)
    | some n =>
      simp only [parts_two]
      rw [filter_head]
      unfold Version.nums
      rw [join_nums]
      simp [pyStr, decimal]

/-- C43, what is missing in `C43_unsplit_partial`: a state without a level is given the level `None`; the text is another one than the original. -/
theorem C43_unsplit_no_level (v : Version) (s : Str) (hs : v.state = some (s, none)) : unsplit v.tuple = .ok (v.text ++ "None".toList) := by
  rw [tuple_shape]
  unfold unsplit
  rw [text_eq]
  unfold suffix
  rw [hs]
  simp only [parts_two]
  rw [filter_head]
  unfold Version.nums
  rw [join_nums]
  simp [pyStr, List.append_assoc]

/-- C43: the normalized tuple of a version. -/
theorem C43_normalize (v : Version) (h : v.Ok) : normalize v.tuple = .ok v.normal := by
  rw [tuple_shape]
  unfold normalize Version.normal
  have hh : ((v.nums.map fun n : Nat => Item.int n) ++ List.replicate (3 - v.nums.length) Item.none).map orZero =
      [.int (v.nums.getD 0 0 : Nat), .int (v.nums.getD 1 0 : Nat), .int (v.nums.getD 2 0 : Nat)] ++ (v.nums.drop 3).map (fun n : Nat => Item.int n) := by
    unfold Version.nums
    generalize v.rest = r
    match r with
    | [] => rfl
    | [a] => rfl
    | a :: b :: r =>
      have e : 3 - (v.major :: a :: b :: r).length = 0 := by simp
      rw [e]
      simp [orZero]
  have hz : ∀ n : Nat, (if truth (.int n) then Item.int n else .int 0) = .int n := by
    intro n
    unfold truth
    by_cases hn : n = 0
    · subst hn; rfl
    · rw [if_pos]; simp; omega
  cases e : v.state with
  | none =>
    simp only [parts_two]
    rw [hh]; rfl
  | some p =>
    obtain ⟨s, l⟩ := p
    have hne : s ≠ [] := by
      obtain ⟨c, r, e', -⟩ := (h s l e).first
      rw [e']; simp
    have ht : truth (.text s) = true := by simp [truth, hne]
    cases l with
    | none =>
      simp only [parts_two]
      rw [hh, if_pos ht]; rfl
    | some n =>
      simp only [parts_two]
      rw [hh, if_pos ht, hz]; rfl

/-- C43, a finding: a release of more than three numbers loses its state fields; its fourth number is taken for the state. -/
theorem C43_four_numbers (v : Version) (hs : v.state = none) (hn : v.nums.length = 4) :
    split v.text = .ok ((v.nums.map fun n : Nat => Item.int n) ++ [.none]) ∧
    unsplit ((v.nums.map fun n : Nat => Item.int n) ++ [.none]) = .error .typeError := by
  have hok : v.Ok := by intro s l e; rw [hs] at e; cases e
  constructor
  · have := split_text hok (a := []) (b := []) (by simp) (by simp)
    rw [List.nil_append, List.append_nil] at this
    rw [this, splitLast_release hs, hn]; rfl
  · revert hn
    unfold Version.nums
    match v.rest with
    | [] => simp
    | [a] => simp
    | [a, b] => simp
    | [a, b, c] => intro; rfl
    | a :: b :: c :: d :: r => simp

/-- C43, a finding: the version of a server with a packager's suffix cannot be read; connecting to such a server raises `ValueError`. -/
theorem C43_packaged : split "10.5 (Debian 10.5-1.pgdg90+1)".toList = .error .valueError ∧ split "9.6.2 (Ubuntu 9.6.2-1)".toList = .error .valueError := by
  decide +kernel

/-! ### Examples -/

example : (⟨9, [5], some ("beta".toList, some 2)⟩ : Version).text = "9.5beta2".toList := by decide +kernel
example : split " 9.5beta2\n".toList = .ok [.int 9, .int 5, .none, .text "beta".toList, .int 2] := by decide +kernel
example : split "8.0.1".toList = .ok [.int 8, .int 0, .int 1, .none, .none] := by decide +kernel
example : split "10devel".toList = .ok [.int 10, .none, .none, .text "devel".toList, .none] := by decide +kernel
example : unsplit [.int 10, .none, .none, .text "devel".toList, .none] = .ok "10develNone".toList := by decide +kernel
/-- A version that meets the hypotheses of `C43_split`. -/
example : (⟨9, [5], some ("beta".toList, some 2)⟩ : Version).Ok := by
  intro s l h
  cases h
  exact ⟨⟨'b', "eta".toList, rfl, by unfold isDigit; decide⟩, ⟨"bet".toList, 'a', rfl, by unfold isDigit; decide, by intro h; cases h⟩, by decide⟩
example : normalize [.int 9, .int 5, .none, .text "beta".toList, .int 2] = .ok [.int 9, .int 5, .int 0, .text "beta".toList, .int 2] := by decide +kernel

end PG.Props.VersionString
