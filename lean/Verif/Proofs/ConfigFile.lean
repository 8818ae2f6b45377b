import Verif.Model.ConfigFile
import Verif.Spec.ConfigFile
import Verif.Props.PgString
import Verif.Props.RiParse
/-!
# Lines of configuration files: how they are parsed
-/
namespace PG.Proofs.ConfigFile
open PG PG.PyStr PG.ConfigFile PG.Spec.ConfigFile
open PG.Props.PgString (undouble_double)
open PG.Props.RiParse (splitMax_hit splitMax_miss splitMax_zero)

variable {U : Unicode}

theorem eq_space (U : Unicode) : U.isSpace '=' = false := by rw [U.space_ascii _ (by decide)]; decide
theorem quote_space (U : Unicode) : U.isSpace '\'' = false := by rw [U.space_ascii _ (by decide)]; decide
theorem hash_space (U : Unicode) : U.isSpace '#' = false := by rw [U.space_ascii _ (by decide)]; decide
theorem bar_space (U : Unicode) : U.isSpace '_' = false := by rw [U.space_ascii _ (by decide)]; decide
theorem blank_space (U : Unicode) : U.isSpace ' ' = true := by rw [U.space_ascii _ (by decide)]; decide
theorem nl_space (U : Unicode) : U.isSpace '\n' = true := by rw [U.space_ascii _ (by decide)]; decide
theorem eq_key (U : Unicode) : keyChar U '=' = false := by
  unfold keyChar; rw [U.alpha_ascii _ (by decide), U.digit_ascii _ (by decide)]; decide
theorem hash_key (U : Unicode) : keyChar U '#' = false := by
  unfold keyChar; rw [U.alpha_ascii _ (by decide), U.digit_ascii _ (by decide)]; decide

theorem keyChar_iff (c : Char) : keyChar U c = true ↔ U.isAlpha c = true ∨ U.isDigit c = true ∨ c = '_' := by
  simp [keyChar, or_assoc]

theorem preKeyChar_iff (c : Char) : preKeyChar U c = true ↔ U.isSpace c = true ∨ c = '#' := by
  simp [preKeyChar]

theorem preValChar_iff (c : Char) : preValChar U c = true ↔ U.isSpace c = true ∧ c ≠ '\n' ∧ c ≠ '\r' := by
  simp [preValChar]

theorem key_not_space {c : Char} (h : keyChar U c = true) : U.isSpace c = false := by
  rw [keyChar_iff, ← or_assoc] at h
  rcases h with h | h
  · exact U.alpha_not_space c h
  · subst h; exact bar_space U

theorem key_not_pre {c : Char} (h : keyChar U c = true) : preKeyChar U c = false := by
  cases hp : preKeyChar U c with
  | false => rfl
  | true =>
    rw [preKeyChar_iff] at hp
    rcases hp with hp | hp
    · rw [key_not_space h] at hp; cases hp
    · subst hp; rw [hash_key] at h; cases h

/-! ## Values -/

theorem double_cons (q c : Char) (s : Str) : double q (c :: s) = (if c = q then [q, q] else [c]) ++ double q s := rfl

theorem valLen_plain {c : Char} (h : c ≠ '\'') (inq esc : Bool) (s : Str) (hs : inq = true ∨ (U.isSpace c = false ∧ c ≠ '#')) :
    valLen U inq esc (c :: s) = 1 + valLen U inq esc s := by
  conv => lhs; unfold valLen
  rw [if_neg h, if_neg]
  rintro ⟨h1, h2⟩
  subst h1
  rcases hs with hs | ⟨h3, h4⟩
  · cases hs
  · simp [h3, h4] at h2

theorem valLen_body (v t : Str) (h : (v ++ t).head? ≠ some '\'') : ∀ q : Str,
    valLen U true false (double '\'' q ++ '\'' :: (v ++ t)) = (double '\'' q).length + 1 + valLen U false false (v ++ t)
  | [] => by
    show valLen U true false ('\'' :: (v ++ t)) = _
    conv => lhs; unfold valLen
    rw [if_pos rfl, if_neg (by decide), if_pos rfl, if_neg h]
    simp [double]
  | c :: q => by
    rw [double_cons]
    by_cases hc : c = '\''
    · subst hc
      rw [if_pos rfl]
      have ih := valLen_body v t h q
      have e1 : valLen U true false ('\'' :: '\'' :: (double '\'' q ++ '\'' :: (v ++ t))) = 1 + (1 + valLen U true false (double '\'' q ++ '\'' :: (v ++ t))) := by
        conv => lhs; unfold valLen
        simp only [if_true, Bool.true_eq_false, if_false, List.head?_cons]
        congr 1
      show valLen U true false ('\'' :: '\'' :: (double '\'' q ++ '\'' :: (v ++ t))) = _
      rw [e1, ih]; simp <;> omega
    · rw [if_neg hc]
      show valLen U true false (c :: (double '\'' q ++ '\'' :: (v ++ t))) = _
      rw [valLen_plain hc _ _ _ (.inl rfl), valLen_body v t h q]
      simp; omega

theorem valLen_unended : ∀ q : Str, valLen U true false (double '\'' q) = (double '\'' q).length
  | [] => by simp [double, valLen]
  | c :: q => by
    rw [double_cons]
    by_cases hc : c = '\''
    · subst hc
      rw [if_pos rfl]
      have e1 : valLen U true false ('\'' :: '\'' :: (double '\'' q)) = 1 + (1 + valLen U true false (double '\'' q)) := by
        conv => lhs; unfold valLen
        simp only [if_true, Bool.true_eq_false, if_false, List.head?_cons]
        congr 1
      show valLen U true false ('\'' :: '\'' :: (double '\'' q)) = _
      rw [e1, valLen_unended q]; simp <;> omega
    · rw [if_neg hc]
      show valLen U true false (c :: (double '\'' q)) = _
      rw [valLen_plain hc _ _ _ (.inl rfl), valLen_unended q]
      simp; omega

theorem valLen_open (s : Str) : valLen U false false ('\'' :: s) = 1 + valLen U true false s := by
  conv => lhs; unfold valLen
  simp

/-- The scanned length is that of the value. -/
theorem valLen_value {v t : Str} (h : Value U v t) : valLen U false false (v ++ t) = v.length := by
  induction h with
  | stop ht =>
    rename_i t
    cases t with
    | nil => rfl
    | cons c t =>
      have := ht c rfl
      have hq : c ≠ '\'' := by
        rintro rfl
        rcases this with h | h
        · rw [quote_space] at h; cases h
        · exact absurd h (by decide)
      show valLen U false false (c :: t) = 0
      unfold valLen
      rw [if_neg hq, if_pos]
      exact ⟨rfl, by simpa using this⟩
  | plain h1 h2 h3 _ ih =>
    rw [List.cons_append, valLen_plain h1 _ _ _ (.inr ⟨h3, h2⟩), ih]; simp; omega
  | quoted hh hv ih =>
    rename_i q v t
    have e : '\'' :: double '\'' q ++ '\'' :: v ++ t = '\'' :: (double '\'' q ++ '\'' :: (v ++ t)) := by simp
    rw [e, valLen_open, valLen_body v t hh, ih]; simp; omega
  | unended =>
    rename_i q
    rw [List.append_nil, valLen_open, valLen_unended]; simp; omega

/-- After an opening quote there is a closing one, or not. -/
theorem body_cases : ∀ s : Str, (∃ q r, s = double '\'' q ++ '\'' :: r ∧ r.head? ≠ some '\'') ∨ (∃ q, s = double '\'' q)
  | [] => .inr ⟨[], rfl⟩
  | [c] => by
    by_cases hc : c = '\''
    · subst hc; exact .inl ⟨[], [], rfl, by simp⟩
    · exact .inr ⟨[c], by simp [double, hc]⟩
  | c :: d :: s => by
    by_cases hc : c = '\''
    · subst hc
      by_cases hd : d = '\''
      · subst hd
        rcases body_cases s with ⟨q, r, h1, h2⟩ | ⟨q, h⟩
        · exact .inl ⟨'\'' :: q, r, by rw [double_cons, h1]; simp, h2⟩
        · exact .inr ⟨'\'' :: q, by rw [double_cons, h]; simp⟩
      · exact .inl ⟨[], d :: s, rfl, by simpa using hd⟩
    · rcases body_cases (d :: s) with ⟨q, r, h1, h2⟩ | ⟨q, h⟩
      · exact .inl ⟨c :: q, r, by rw [double_cons, if_neg hc, h1]; simp, h2⟩
      · exact .inr ⟨c :: q, by rw [double_cons, if_neg hc, h]; simp⟩

/-- Every text begins with a value. -/
theorem value_exists : ∀ (n : Nat) (s : Str), s.length ≤ n → ∃ v t, s = v ++ t ∧ Value U v t
  | _, [], _ => ⟨[], [], rfl, .stop (by simp)⟩
  | 0, c :: s, h => by simp at h
  | n + 1, c :: s, h => by
    have h : s.length ≤ n := by simpa using h
    by_cases hq : c = '\''
    · subst hq
      rcases body_cases s with ⟨q, r, h1, h2⟩ | ⟨q, h1⟩
      · have hl : r.length ≤ n := by rw [h1] at h; simp at h; omega
        obtain ⟨v, t, e, hv⟩ := value_exists n r hl
        exact ⟨'\'' :: double '\'' q ++ '\'' :: v, t, by rw [h1, e]; simp, .quoted (by rw [← e]; exact h2) hv⟩
      · exact ⟨'\'' :: double '\'' q, [], by rw [h1]; simp, .unended⟩
    · by_cases hs : U.isSpace c = true ∨ c = '#'
      · exact ⟨[], c :: s, rfl, .stop (by intro d hd; cases hd; exact hs)⟩
      · obtain ⟨v, t, e, hv⟩ := value_exists n s h
        rw [not_or] at hs
        exact ⟨c :: v, t, by rw [e]; simp, .plain hq hs.2 (by simpa using hs.1) hv⟩

theorem value_after {v t : Str} (h : Value U v t) : ∀ c, t.head? = some c → U.isSpace c = true ∨ c = '#' := by
  induction h with
  | stop ht => exact ht
  | plain _ _ _ _ ih => exact ih
  | quoted _ _ ih => exact ih
  | unended => intro c h; cases h

/-! ## Lines -/

theorem takeWhile_app {p : Char → Bool} (a b : Str) (ha : ∀ c ∈ a, p c = true) (hb : ∀ c, b.head? = some c → p c = false) : (a ++ b).takeWhile p = a := by
  rw [List.takeWhile_append_of_pos ha]
  cases b with
  | nil => simp
  | cons c b => rw [List.takeWhile_cons_of_neg (by rw [hb c rfl]; simp)]; simp

theorem dropWhile_all {p : Char → Bool} : ∀ (a : Str), (∀ c ∈ a, p c = true) → a.dropWhile p = []
  | [], _ => rfl
  | c :: a, h => by rw [List.dropWhile_cons_of_pos (h c List.mem_cons_self)]; exact dropWhile_all a fun d hd => h d (List.mem_cons_of_mem _ hd)

theorem dropWhile_nil {p : Char → Bool} : ∀ {a : Str}, a.dropWhile p = [] → ∀ c ∈ a, p c = true
  | [], _ => by simp
  | c :: a, h => by
    by_cases hc : p c = true
    · rw [List.dropWhile_cons_of_pos hc] at h
      intro d hd
      rcases List.mem_cons.mp hd with rfl | hd
      · exact hc
      · exact dropWhile_nil h d hd
    · rw [List.dropWhile_cons_of_neg hc] at h; cases h

theorem lstrip_nil {s : Str} : lstrip U s = [] ↔ ∀ c ∈ s, U.isSpace c = true := ⟨dropWhile_nil, dropWhile_all s⟩

theorem dropWhile_head {p : Char → Bool} : ∀ {a : Str} {c : Char}, (a.dropWhile p).head? = some c → p c = false
  | [], c, h => by cases h
  | d :: a, c, h => by
    by_cases hd : p d = true
    · rw [List.dropWhile_cons_of_pos hd] at h; exact dropWhile_head h
    · rw [List.dropWhile_cons_of_neg hd] at h; cases h; simpa using hd

theorem strip_nil {s : Str} : strip U s = [] ↔ ∀ c ∈ s, U.isSpace c = true := by
  unfold strip rstrip
  rw [List.reverse_eq_nil_iff]
  constructor
  · intro h
    have h1 := dropWhile_nil h
    rw [← lstrip_nil]
    cases hl : lstrip U s with
    | nil => rfl
    | cons c r =>
      have h2 : U.isSpace c = false := dropWhile_head (a := s) (by show (lstrip U s).head? = some c; rw [hl]; rfl)
      have h3 := h1 c (by rw [hl]; simp)
      rw [h2] at h3; cases h3
  · intro h
    have : lstrip U s = [] := lstrip_nil.mpr h
    rw [this]; rfl

/-- The line without its '='. -/
theorem no_eq {l : Str} (h : '=' ∉ l) : parseLine U l = none := by
  unfold parseLine
  rw [splitMax_miss 0 l h]

/-- The line parsed, given its '='. -/
theorem parse_eq (key val : Str) (h : '=' ∉ key) : parseLine U (key ++ '=' :: val) =
    (if strip U (key.drop ((key.takeWhile (preKeyChar U)).length + ((key.drop (key.takeWhile (preKeyChar U)).length).takeWhile (keyChar U)).length)) ≠ [] then none
    else some ⟨(key.takeWhile (preKeyChar U)).length, ((key.drop (key.takeWhile (preKeyChar U)).length).takeWhile (keyChar U)).length + (key.takeWhile (preKeyChar U)).length,
      key.length + 1 + (val.takeWhile (preValChar U)).length,
      key.length + 1 + (val.takeWhile (preValChar U)).length + valLen U false false (val.drop (val.takeWhile (preValChar U)).length)⟩) := by
  unfold parseLine
  rw [splitMax_hit 0 key val h, splitMax_zero]

theorem eq_cut {l : Str} (h : '=' ∈ l) : ∃ key val, l = key ++ '=' :: val ∧ '=' ∉ key := by
  have : ∀ l : Str, '=' ∈ l → ∃ key val, l = key ++ '=' :: val ∧ '=' ∉ key := by
    intro l
    induction l with
    | nil => simp
    | cons c l ih =>
      intro h
      by_cases hc : c = '='
      · subst hc; exact ⟨[], l, rfl, by simp⟩
      · obtain ⟨k, v, e, hk⟩ := ih (by simpa [Ne.symm hc] using h)
        exact ⟨c :: k, v, by rw [e]; rfl, by simp [Ne.symm hc, hk]⟩
  exact this l h

/-- The slices of the parts. -/
def slicesOf (a k b p v : Str) : Slices := ⟨a.length, k.length + a.length, (a ++ k ++ b).length + 1 + p.length, (a ++ k ++ b).length + 1 + p.length + v.length⟩

theorem parts_head {l a k b p v t : Str} (h : Parts U l a k b p v t) : '=' ∉ a ++ k ++ b := by
  rw [List.mem_append, List.mem_append]
  rintro ((h1 | h1) | h1)
  · rcases h.before_chars _ h1 with h2 | h2
    · rw [eq_space] at h2; cases h2
    · exact absurd h2 (by decide)
  · have := (keyChar_iff (U := U) _).mpr (h.key_chars _ h1)
    rw [eq_key] at this; cases this
  · have h2 := h.gap_chars _ h1
    rw [eq_space] at h2; cases h2

/-- A line in parts is parsed into them. -/
theorem parse_parts {l a k b p v t : Str} (h : Parts U l a k b p v t) : parseLine U l = some (slicesOf a k b p v) := by
  have e : l = (a ++ k ++ b) ++ '=' :: (p ++ v ++ t) := by rw [h.whole]; simp
  rw [e, parse_eq _ _ (parts_head h)]
  have h1 : (a ++ k ++ b).takeWhile (preKeyChar U) = a := by
    rw [List.append_assoc]
    refine takeWhile_app a _ (fun c hc => (preKeyChar_iff c).mpr (h.before_chars c hc)) ?_
    intro c hc
    cases k with
    | nil => rw [h.gap_key rfl] at hc; cases hc
    | cons d k => cases hc; exact key_not_pre ((keyChar_iff c).mpr (h.key_chars c List.mem_cons_self))
  have h2 : ((a ++ k ++ b).drop a.length).takeWhile (keyChar U) = k := by
    rw [List.append_assoc, List.drop_left]
    refine takeWhile_app k b (fun c hc => (keyChar_iff c).mpr (h.key_chars c hc)) ?_
    intro c hc
    have hs := h.gap_chars c (List.mem_of_mem_head? hc)
    cases hk : keyChar U c with
    | false => rfl
    | true => rw [key_not_space hk] at hs; cases hs
  have h3 : (a ++ k ++ b).drop (a.length + k.length) = b := by
    rw [show a.length + k.length = (a ++ k).length by simp, List.drop_left]
  have h4 : (p ++ v ++ t).takeWhile (preValChar U) = p := by
    rw [List.append_assoc]
    refine takeWhile_app p _ (fun c hc => (preValChar_iff c).mpr (h.between_chars c hc)) ?_
    intro c hc
    cases hp : preValChar U c with
    | false => rfl
    | true =>
      rw [preValChar_iff] at hp
      rcases h.between_all c hc hp.1 with h5 | h5
      · exact absurd h5 hp.2.1
      · exact absurd h5 hp.2.2
  rw [h1, h2, h3, h4, if_neg]
  · congr 1
    rw [show (p ++ v ++ t).drop p.length = v ++ t by rw [List.append_assoc, List.drop_left], valLen_value h.value_is]
    rfl
  · rw [Decidable.not_not]
    exact strip_nil.mpr h.gap_chars

/-- A line that is parsed has these parts. -/
theorem parts_of_parse {l : Str} {sl : Slices} (h : parseLine U l = some sl) : ∃ a k b p v t, Parts U l a k b p v t ∧ sl = slicesOf a k b p v := by
  by_cases he : '=' ∈ l
  · obtain ⟨key, val, e, hk⟩ := eq_cut he
    have hp := parse_eq (U := U) key val hk
    rw [← e, h] at hp
    split at hp
    · cases hp
    · rename_i hs
      rw [Decidable.not_not, strip_nil] at hs
      have ea : key = key.takeWhile (preKeyChar U) ++ key.dropWhile (preKeyChar U) := List.takeWhile_append_dropWhile.symm
      generalize ha : key.takeWhile (preKeyChar U) = a at ea hs
      generalize hr : key.dropWhile (preKeyChar U) = r at ea
      have ek : r = r.takeWhile (keyChar U) ++ r.dropWhile (keyChar U) := List.takeWhile_append_dropWhile.symm
      have hdr : key.drop a.length = r := by rw [ea, List.drop_left]
      rw [hdr] at hs
      generalize hk' : r.takeWhile (keyChar U) = k at ek hs
      generalize hb : r.dropWhile (keyChar U) = b at ek
      have hdr2 : key.drop (a.length + k.length) = b := by
        rw [ea, ek, ← List.append_assoc, show a.length + k.length = (a ++ k).length by simp, List.drop_left]
      rw [hdr2] at hs
      have ev : val = val.takeWhile (preValChar U) ++ val.dropWhile (preValChar U) := List.takeWhile_append_dropWhile.symm
      generalize hpv : val.takeWhile (preValChar U) = p at ev
      generalize hw : val.dropWhile (preValChar U) = w at ev
      obtain ⟨v, t, ew, hv⟩ := value_exists (U := U) w.length w (Nat.le_refl _)
      have hpt : Parts U l a k b p v t := by
        refine ⟨by rw [e, ea, ek, ev, ew]; simp, ?_, ?_, hs, ?_, ?_, ?_, hv⟩
        · intro c hc; rw [← ha] at hc; exact (preKeyChar_iff c).mp (List.all_eq_true.mp List.all_takeWhile c hc)
        · intro c hc; rw [← hk'] at hc; exact (keyChar_iff c).mp (List.all_eq_true.mp List.all_takeWhile c hc)
        · intro hk0
          cases hb0 : b with
          | nil => rfl
          | cons c b' =>
            have h1 : r.head? = some c := by rw [ek, hk0, hb0]; rfl
            have h2 : preKeyChar U c = false := dropWhile_head (a := key) (by rw [hr]; exact h1)
            have h3 := hs c (by rw [hb0]; simp)
            have h4 := (preKeyChar_iff (U := U) c).mpr (.inl h3)
            rw [h2] at h4; cases h4
        · intro c hc; rw [← hpv] at hc; exact (preValChar_iff c).mp (List.all_eq_true.mp List.all_takeWhile c hc)
        · intro c hc hsp
          rw [← ew] at hc
          have h2 : preValChar U c = false := dropWhile_head (a := val) (by rw [hw]; exact hc)
          by_cases h5 : c = '\n'
          · exact .inl h5
          · by_cases h6 : c = '\r'
            · exact .inr h6
            · have := (preValChar_iff (U := U) c).mpr ⟨hsp, h5, h6⟩
              rw [h2] at this; cases this
      refine ⟨a, k, b, p, v, t, hpt, ?_⟩
      have := parse_parts hpt
      rw [h] at this
      exact Option.some.inj this
  · rw [no_eq he] at h; cases h

theorem slice_mid {α : Type} (x y z : List α) : slice (x ++ y ++ z) x.length (x.length + y.length) = y := by
  unfold slice
  rw [List.append_assoc, List.drop_left, Nat.add_sub_cancel_left, List.take_left]

/-- The slices cut the parts out, also when something is put at the end. -/
theorem cut_parts {l a k b p v t : Str} (h : Parts U l a k b p v t) (e : Str) :
    (l ++ e).take (slicesOf a k b p v).kstart = a ∧
    slice (l ++ e) (slicesOf a k b p v).kstart (slicesOf a k b p v).kstop = k ∧
    slice (l ++ e) (slicesOf a k b p v).kstart (slicesOf a k b p v).vstart = k ++ b ++ '=' :: p ∧
    slice (l ++ e) (slicesOf a k b p v).vstart (slicesOf a k b p v).vstop = v ∧
    (l ++ e).drop (slicesOf a k b p v).vstop = t ++ e := by
  have hl : l ++ e = a ++ k ++ b ++ '=' :: p ++ v ++ (t ++ e) := by rw [h.whole]; simp
  have n1 : (slicesOf a k b p v).vstart = a.length + (k ++ b ++ '=' :: p).length := by simp [slicesOf]; omega
  have n2 : (slicesOf a k b p v).vstart = (a ++ k ++ b ++ '=' :: p).length := by simp [slicesOf]; omega
  have n3 : (slicesOf a k b p v).vstop = (a ++ k ++ b ++ '=' :: p).length + v.length := by simp [slicesOf]; omega
  refine ⟨?_, ?_, ?_, ?_, ?_⟩
  · rw [hl]; simp [slicesOf]
  · rw [hl, show a ++ k ++ b ++ '=' :: p ++ v ++ (t ++ e) = a ++ k ++ (b ++ '=' :: p ++ v ++ (t ++ e)) by simp]
    have := slice_mid a k (b ++ '=' :: p ++ v ++ (t ++ e))
    rw [Nat.add_comm] at this; exact this
  · rw [hl, show a ++ k ++ b ++ '=' :: p ++ v ++ (t ++ e) = a ++ (k ++ b ++ '=' :: p) ++ (v ++ (t ++ e)) by simp, n1]
    exact slice_mid a (k ++ b ++ '=' :: p) _
  · rw [hl, n3, n2]
    exact slice_mid (a ++ k ++ b ++ '=' :: p) v (t ++ e)
  · rw [hl, n3, ← List.length_append, List.drop_left]

theorem commented_parts {l a k b p v t : Str} (h : Parts U l a k b p v t) (e : Str) : commented (l ++ e) (slicesOf a k b p v) = a.contains '#' := by
  unfold commented; rw [(cut_parts h e).1]

/-- What a line in parts sets. -/
theorem setting_parts {l a k b p v t : Str} (h : Parts U l a k b p v t) : setting U l = if '#' ∈ a then none else some (k, unquote U v) := by
  have c := cut_parts h []
  have cm := commented_parts h []
  rw [List.append_nil] at c cm
  unfold setting
  rw [parse_parts h]
  dsimp only
  rw [cm, c.2.1, c.2.2.2.1]
  simp

theorem setting_none {l : Str} (h : parseLine U l = none) : setting U l = none := by unfold setting; rw [h]

/-- A line with a '#' in front sets nothing. -/
theorem setting_hash (l : Str) : setting U ('#' :: l) = none := by
  cases h : parseLine U ('#' :: l) with
  | none => exact setting_none h
  | some sl =>
    obtain ⟨a, k, b, p, v, t, hp, _⟩ := parts_of_parse h
    rw [setting_parts hp, if_pos]
    cases a with
    | cons c a => have := hp.whole; simp at this; rw [← this.1]; simp
    | nil =>
      cases k with
      | cons c k =>
        have := hp.whole; simp at this
        have h2 := (keyChar_iff (U := U) _).mpr (hp.key_chars c List.mem_cons_self)
        rw [← this.1, hash_key] at h2; cases h2
      | nil =>
        have := hp.whole; rw [hp.gap_key rfl] at this; simp at this

theorem parts_hash {l a k b p v t : Str} (h : Parts U l a k b p v t) : Parts U ('#' :: l) ('#' :: a) k b p v t :=
  ⟨by rw [h.whole]; simp, by
    intro c hc
    rcases List.mem_cons.mp hc with rfl | hc
    · exact .inr rfl
    · exact h.before_chars c hc, h.key_chars, h.gap_chars, h.gap_key, h.between_chars, h.between_all, h.value_is⟩

theorem strip_nl (s : Str) : strip U (s ++ ['\n']) = strip U s := by
  by_cases h : lstrip U s = []
  · rw [strip_nil.mpr (lstrip_nil.mp h), strip_nil]
    intro c hc
    rw [List.mem_append] at hc
    rcases hc with hc | hc
    · exact lstrip_nil.mp h c hc
    · simp at hc; subst hc; exact nl_space U
  · have e : lstrip U (s ++ ['\n']) = lstrip U s ++ ['\n'] := by
      unfold lstrip at h ⊢
      rw [List.dropWhile_append]
      rw [if_neg]; simpa using h
    unfold strip rstrip
    rw [e]
    simp [nl_space]

theorem unquote_nl (s : Str) : unquote U (s ++ ['\n']) = unquote U s := by unfold unquote; rw [strip_nl]

theorem value_nl {v t : Str} (h : Value U v t) : Value U v (t ++ ['\n']) ∨ (t = [] ∧ Value U (v ++ ['\n']) []) := by
  induction h with
  | stop ht =>
    rename_i t
    left; refine .stop ?_
    cases t with
    | nil => intro c hc; simp at hc; subst hc; exact .inl (nl_space U)
    | cons d t => intro c hc; exact ht c hc
  | plain h1 h2 h3 _ ih =>
    rcases ih with ih | ⟨e, ih⟩
    · exact .inl (.plain h1 h2 h3 ih)
    · exact .inr ⟨e, .plain h1 h2 h3 ih⟩
  | quoted hh hv ih =>
    rename_i q v t
    rcases ih with ih | ⟨e, ih⟩
    · left; refine .quoted ?_ ih
      rw [← List.append_assoc]
      cases hvt : v ++ t with
      | nil => simp
      | cons d r => rw [hvt] at hh; exact hh
    · refine .inr ⟨e, ?_⟩
      have : '\'' :: double '\'' q ++ '\'' :: v ++ ['\n'] = '\'' :: double '\'' q ++ '\'' :: (v ++ ['\n']) := by simp
      rw [this]
      refine .quoted ?_ ih
      subst e
      rw [List.append_nil] at hh ⊢
      cases v with
      | nil => simp
      | cons d r => exact hh
  | unended =>
    rename_i q
    refine .inr ⟨rfl, ?_⟩
    have : '\'' :: double '\'' q ++ ['\n'] = '\'' :: double '\'' (q ++ ['\n']) := by simp [double]
    rw [this]; exact .unended

theorem parts_nl {l a k b p v t : Str} (h : Parts U l a k b p v t) : Parts U (l ++ ['\n']) a k b p v (t ++ ['\n']) ∨ Parts U (l ++ ['\n']) a k b p (v ++ ['\n']) [] := by
  have hb : ∀ c, (v ++ t ++ ['\n']).head? = some c → U.isSpace c = true → c = '\n' ∨ c = '\r' := by
    intro c hc hs
    cases hvt : v ++ t with
    | nil => rw [hvt] at hc; simp at hc; exact .inl hc.symm
    | cons d r => rw [hvt] at hc; exact h.between_all c (by rw [hvt]; exact hc) hs
  rcases value_nl h.value_is with hv | ⟨e, hv⟩
  · left
    exact ⟨by rw [h.whole]; simp, h.before_chars, h.key_chars, h.gap_chars, h.gap_key, h.between_chars, by rw [← List.append_assoc]; exact hb, hv⟩
  · right; subst e
    exact ⟨by rw [h.whole]; simp, h.before_chars, h.key_chars, h.gap_chars, h.gap_key, h.between_chars, by simpa using hb, hv⟩

theorem parse_none_nl {l : Str} (h : parseLine U l = none) : parseLine U (l ++ ['\n']) = none := by
  by_cases he : '=' ∈ l
  · obtain ⟨key, val, e, hk⟩ := eq_cut he
    rw [e, parse_eq _ _ hk] at h
    rw [e, List.append_assoc, List.cons_append, parse_eq _ _ hk]
    split at h
    · rename_i h2; rw [if_pos h2]
    · cases h
  · exact no_eq (by simp [he])

/-- A newline at the end of a line changes nothing. -/
theorem setting_nl (l : Str) : setting U (l ++ ['\n']) = setting U l := by
  cases h : parseLine U l with
  | none => rw [setting_none h, setting_none (parse_none_nl h)]
  | some sl =>
    obtain ⟨a, k, b, p, v, t, hp, _⟩ := parts_of_parse h
    rw [setting_parts hp]
    rcases parts_nl hp with h2 | h2
    · rw [setting_parts h2]
    · rw [setting_parts h2, unquote_nl]

theorem strip_no {s : Str} (h : ∀ c, s.head? = some c → U.isSpace c = false) (h2 : ∀ c, s.getLast? = some c → U.isSpace c = false) : strip U s = s := by
  have e : lstrip U s = s := by
    unfold lstrip
    cases s with
    | nil => rfl
    | cons c s => rw [List.dropWhile_cons_of_neg (by rw [h c rfl]; simp)]
  unfold strip rstrip
  rw [e]
  have : s.reverse.dropWhile U.isSpace = s.reverse := by
    cases hr : s.reverse with
    | nil => rfl
    | cons c r => rw [List.dropWhile_cons_of_neg (by rw [h2 c (by rw [List.getLast?_eq_head?_reverse, hr]; rfl)]; simp)]
  rw [this, List.reverse_reverse]

theorem unquote_quoted (v : Str) : unquote U (quoted v) = v := by
  unfold unquote
  have : strip U (quoted v) = quoted v := by
    refine strip_no ?_ ?_
    · intro c h; unfold quoted at h; cases h; exact quote_space U
    · intro c h; unfold quoted at h; rw [List.getLast?_append] at h; cases h; exact quote_space U
  rw [this]
  show (if '\'' = '\'' then undouble '\'' (double '\'' v ++ ['\'']).dropLast else _) = v
  rw [if_pos rfl, List.dropLast_concat, undouble_double]

theorem postVal_head (p : Str) (h : ∀ c, p.head? = some c → U.isSpace c = true ∨ c = '#') : ∀ c, (postVal U p).head? = some c → U.isSpace c = true ∨ c = '#' := by
  unfold postVal
  dsimp only
  split
  · exact h
  · split
    · exact h
    · intro c hc
      cases p with
      | nil => rename_i h1 _; exact absurd rfl h1
      | cons d p =>
        by_cases hd : U.isSpace d = true
        · rw [List.takeWhile_cons_of_pos hd] at hc; cases hc; exact .inl hd
        · rw [List.takeWhile_cons_of_neg hd] at hc; cases hc; exact .inr rfl

theorem value_quoted (v t : Str) (h : ∀ c, t.head? = some c → U.isSpace c = true ∨ c = '#') : Value U (quoted v) t := by
  have : quoted v = '\'' :: double '\'' v ++ '\'' :: [] := rfl
  rw [this]
  refine .quoted ?_ (.stop h)
  intro hh
  rcases h _ hh with h2 | h2
  · rw [quote_space] at h2; cases h2
  · exact absurd h2 (by decide)

theorem quoted_head (w t : Str) : ∀ c, (quoted w ++ t).head? = some c → U.isSpace c = true → c = '\n' ∨ c = '\r' := by
  intro c hc hs
  have : c = '\'' := by simp [quoted] at hc; exact hc.symm
  subst this; rw [quote_space] at hs; cases hs

/-- The line of the winner, rewritten. -/
theorem rewritten_parts {l a k b p v t : Str} (h : Parts U l a k b p v t) (w e : Str) (he : e = [] ∨ e = ['\n']) :
    rewritten U w (a.contains '#') (slicesOf a k b p v) (l ++ e) = (if a.contains '#' then [] else a) ++ k ++ b ++ '=' :: p ++ quoted w ++ postVal U (t ++ e) ∧
    Parts U (rewritten U w (a.contains '#') (slicesOf a k b p v) (l ++ e)) (if a.contains '#' then [] else a) k b p (quoted w) (postVal U (t ++ e)) := by
  have c := cut_parts h e
  have e1 : rewritten U w (a.contains '#') (slicesOf a k b p v) (l ++ e) = (if a.contains '#' then [] else a) ++ k ++ b ++ '=' :: p ++ quoted w ++ postVal U (t ++ e) := by
    unfold rewritten
    rw [c.1, c.2.2.1, c.2.2.2.2]; simp
  refine ⟨e1, ⟨e1, ?_, h.key_chars, h.gap_chars, h.gap_key, h.between_chars, ?_, ?_⟩⟩
  · intro c hc
    split at hc
    · simp at hc
    · exact h.before_chars c hc
  · exact quoted_head w _
  · refine value_quoted w _ (postVal_head _ ?_)
    intro d hc
    cases t with
    | nil =>
      rcases he with rfl | rfl
      · cases hc
      · simp at hc; subst hc; exact .inl (nl_space U)
    | cons d' t => exact value_after h.value_is d hc

/-- It sets the value. -/
theorem setting_rewritten {l a k b p v t : Str} (h : Parts U l a k b p v t) (w e : Str) (he : e = [] ∨ e = ['\n']) :
    setting U (rewritten U w (a.contains '#') (slicesOf a k b p v) (l ++ e)) = some (k, w) := by
  rw [setting_parts (rewritten_parts h w e he).2, if_neg, unquote_quoted]
  split
  · simp
  · rename_i h2; simpa using h2

/-- The line of a key that was not there. -/
theorem setting_new (key w : Str) (hk : ∀ c ∈ key, keyChar U c = true) : setting U (key ++ " = ".toList ++ quoted w) = some (key, w) := by
  by_cases h0 : key = []
  · subst h0
    have h : Parts U ([] ++ " = ".toList ++ quoted w) [' '] [] [] [' '] (quoted w) [] :=
      ⟨by simp, by intro c hc; simp at hc; subst hc; exact .inl (blank_space U), by simp, by simp, by simp,
        by intro c hc; simp at hc; subst hc; exact ⟨blank_space U, by decide, by decide⟩,
        quoted_head w [],
        value_quoted w [] (by simp)⟩
    rw [setting_parts h, if_neg (by decide), unquote_quoted]
  · have h : Parts U (key ++ " = ".toList ++ quoted w) [] key [' '] [' '] (quoted w) [] :=
      ⟨by simp, by simp, fun c hc => (keyChar_iff c).mp (hk c hc), by intro c hc; simp at hc; subst hc; exact blank_space U, fun h => absurd h h0,
        by intro c hc; simp at hc; subst hc; exact ⟨blank_space U, by decide, by decide⟩,
        quoted_head w [],
        value_quoted w [] (by simp)⟩
    rw [setting_parts h, if_neg (by simp), unquote_quoted]

end PG.Proofs.ConfigFile
