import Verif.Proofs.RiParse2
/-!
# C31: resource identifiers
-/
namespace PG.Props.RiParse
open PG PG.PyStr PG.RiParse PG.Spec.RiParse PG.Proofs.RiParse

theorem present_getD (n : Str) : (present n).getD [] = n := by
  unfold present; split
  · rename_i h; simp [h]
  · rfl

/-- Every text is divided as the RI syntax says. -/
theorem C31_split (s : Str) : Parts s (RiParse.split s).scheme (RiParse.split s).netloc (RiParse.split s).path (RiParse.split s).query (RiParse.split s).fragment := by
  have main : ∀ (sch : Option Str) (pre r : Str), s = pre ++ r → splitScheme s = (sch, pre.length) → pre = leading sch →
      (∀ x, sch = some x → ∀ c ∈ x, schemeChar c = true) → (sch = none → ∀ x r, s = x ++ "://".toList ++ r → ∃ c ∈ x, ¬ schemeChar c = true) →
      Parts s (RiParse.split s).scheme (RiParse.split s).netloc (RiParse.split s).path (RiParse.split s).query (RiParse.split s).fragment := by
    intro sch pre r hs hsp hpre hc1 hc2
    obtain ⟨n, p, q, f, hr, hn, hp, hq⟩ := decompose r
    have := split_of pre n p q f sch s (by rw [hs, hr]) hsp hn hp hq
    rw [this]
    refine ⟨?_, ?_, ?_, ?_, ?_, hp, hq⟩
    · dsimp only
      rw [present_getD, ← hpre, hs, hr]; simp
    · intro x hx c hc; exact (schemeChar_iff c).mp (hc1 x hx c hc)
    · intro hx x r h
      obtain ⟨c, hc, hb⟩ := hc2 hx x r h
      exact ⟨c, hc, fun h => hb ((schemeChar_iff c).mpr h)⟩
    · dsimp only; unfold present; split
      · simp
      · rename_i h; simpa using h
    · intro x hx
      have hx : present n = some x := hx
      unfold present at hx; split at hx
      · cases hx
      · cases hx; exact hn
  rcases splitScheme_cases s with ⟨x, r, h1, h2, h3⟩ | ⟨h1, h2⟩
  · exact main (some x) (x ++ "://".toList) r h2 (by rw [h1]; simp) rfl (fun y hy => by cases hy; exact h3) (fun h => nomatch h)
  · exact main none [] s rfl h1 rfl (fun y hy => nomatch hy) (fun _ => h2)

/-- Taking a text apart and putting it together changes nothing. -/
theorem C31_unsplit_split (s : Str) : unsplit (RiParse.split s) = s := by
  have h := (C31_split s).whole
  generalize RiParse.split s = t at h
  rw [h]
  obtain ⟨a, b, c, d, e⟩ := t
  cases a <;> cases b <;> cases c <;> cases d <;> cases e <;> simp [unsplit, marked, leading]

/-- The division is the only one the syntax allows. -/
theorem C31_split_unique {s : Str} {a b c d e : Option Str} (h : Parts s a b c d e) : RiParse.split s = ⟨a, b, c, d, e⟩ := by
  have hn : '/' ∉ b.getD [] ∧ '?' ∉ b.getD [] ∧ '#' ∉ b.getD [] := by
    cases b with
    | none => simp
    | some x => exact h.netloc_chars x rfl
  have hb : present (b.getD []) = b := by
    cases b with
    | none => rfl
    | some x => unfold present; rw [if_neg]; rfl; intro hx; exact h.netloc_present (by simpa using hx)
  have hsp : splitScheme s = (a, (leading a).length) := by
    cases a with
    | some x =>
      have := h.whole
      simp only [List.append_assoc] at this
      rw [this]
      show splitScheme (x ++ "://".toList ++ _) = _
      rw [splitScheme_of (fun c hc => (schemeChar_iff c).mpr (h.scheme_chars x rfl c hc))]
      simp [leading]
    | none =>
      rcases splitScheme_cases s with ⟨x, r, h1, h2, h3⟩ | ⟨h1, _⟩
      · obtain ⟨c, hc, hb⟩ := h.no_scheme rfl x r h2
        exact absurd ((schemeChar_iff c).mp (h3 c hc)) hb
      · rw [h1]; rfl
  have := split_of _ (b.getD []) c d e a s (by rw [← List.append_assoc, ← List.append_assoc, ← List.append_assoc]; exact h.whole) hsp hn h.path_chars h.query_chars
  rw [this, hb]

/-- Escaping loses nothing, whatever characters are escaped besides the percent sign, blanks and controls. -/
theorem C31_unescape_escape (X : List Char) (hX : ∀ c ∈ X, c.toNat < 256) (s : Str) : unescape (escapeWith X s) = s := unescape_escape hX s

theorem hex_lt {c : Char} {n : Nat} (h : HexDigit c n) : n < 16 := by
  rcases h with h | h
  · exact (List.getElem?_eq_some_iff.mp h).1
  · exact (List.getElem?_eq_some_iff.mp h).1

theorem hex_val {c : Char} {n : Nat} (h : HexDigit c n) : hexVal c = some n := by
  have hn := hex_lt h
  have h1 : ∀ n < 16, ∀ c ∈ "0123456789ABCDEF".toList[n]?, hexVal c = some n := by decide
  have h2 : ∀ n < 16, ∀ c ∈ "0123456789abcdef".toList[n]?, hexVal c = some n := by decide
  rcases h with h | h
  · exact h1 n hn c h
  · exact h2 n hn c h

theorem char_nat (c : Char) : Char.ofNat c.toNat = c := by simp

theorem val_hex {c : Char} {n : Nat} (h : hexVal c = some n) : HexDigit c n := by
  have k1 : ∀ (a b : Char), a ≤ b ↔ a.toNat ≤ b.toNat := fun _ _ => Iff.rfl
  have e : c = Char.ofNat c.toNat := (char_nat c).symm
  unfold hexVal at h
  simp only [k1] at h
  unfold HexDigit
  have t1 : ∀ k < 10, "0123456789ABCDEF".toList[k]? = some (Char.ofNat (k + 48)) := by decide
  have t2 : ∀ k < 6, "0123456789ABCDEF".toList[k + 10]? = some (Char.ofNat (k + 65)) := by decide
  have t3 : ∀ k < 6, "0123456789abcdef".toList[k + 10]? = some (Char.ofNat (k + 97)) := by decide
  have v0 : '0'.toNat = 48 := rfl
  have v9 : '9'.toNat = 57 := rfl
  have vA : 'A'.toNat = 65 := rfl
  have vF : 'F'.toNat = 70 := rfl
  have va : 'a'.toNat = 97 := rfl
  have vf : 'f'.toNat = 102 := rfl
  rw [v0, v9, vA, vF, va, vf] at h
  split at h
  · cases h
    left; rw [t1 _ (by omega)]; rw [show c.toNat - 48 + 48 = c.toNat by omega, ← e]
  · split at h
    · cases h
      left; rw [show c.toNat - 55 = (c.toNat - 65) + 10 by omega, t2 _ (by omega), show c.toNat - 65 + 65 = c.toNat by omega, ← e]
    · split at h
      · cases h
        right; rw [show c.toNat - 87 = (c.toNat - 97) + 10 by omega, t3 _ (by omega), show c.toNat - 97 + 97 = c.toNat by omega, ← e]
      · cases h

theorem percentEscape_some {a b : Char} {v : Nat} (h : percentEscape a b = some v) : ∃ x y, HexDigit a x ∧ HexDigit b y ∧ v = 16 * x + y := by
  unfold percentEscape at h
  split at h
  · rename_i x y hx hy
    cases h
    exact ⟨x, y, val_hex hx, val_hex hy, by omega⟩
  · cases h

theorem percentEscape_hex {a b : Char} {x y : Nat} (hx : HexDigit a x) (hy : HexDigit b y) : percentEscape a b = some (x * 16 + y) := by
  unfold percentEscape; rw [hex_val hx, hex_val hy]

/-- What `unescape` makes of any text. -/
theorem C31_unescape (s : Str) : Decodes s (unescape s) := by
  fun_induction unescape s with
  | case1 => exact .nil
  | case2 a b t v h ih =>
    obtain ⟨x, y, hx, hy, e⟩ := percentEscape_some h
    subst e; exact .escape hx hy ih
  | case3 a b t h ih =>
    refine .bare ?_ ih
    rintro a' b' r x y e hx hy
    cases e
    rw [percentEscape_hex hx hy] at h; cases h
  | case4 s h ih =>
    refine .bare ?_ ih
    rintro a' b' r x y e hx hy
    exact h _ _ _ e
  | case5 c s h ih => exact .plain h ih

/-- A text is written by only one text. -/
theorem C31_decodes_unique {s t : Str} (h : Decodes s t) : t = unescape s := by
  induction h with
  | nil => rfl
  | plain hc _ ih => rw [unesc_ne hc, ih]
  | escape hx hy _ ih =>
    rename_i a b s t x y _
    have : unescape ('%' :: a :: b :: s) = Char.ofNat (x * 16 + y) :: unescape s := by
      conv => lhs; unfold unescape
      simp [percentEscape_hex hx hy]
    rw [this, ih, Nat.mul_comm]
  | bare hb _ ih =>
    rename_i s t _
    have : unescape ('%' :: s) = '%' :: unescape s := by
      conv => lhs; unfold unescape
      match s, hb with
      | [], _ => rfl
      | [a], _ => rfl
      | a :: b :: r, hb =>
        cases h : percentEscape a b with
        | none => simp [h]
        | some v =>
          obtain ⟨x, y, hx, hy, _⟩ := percentEscape_some h
          exact absurd hy (hb a b r x y rfl hx)
    rw [this, ih]

example : unescape "100%%41%zz%4a%e9%4".toList = "100%A%zzJé%4".toList := by decide +kernel

/-- Escaped text holds none of the delimiters. -/
theorem C31_escape_free (X : List Char) (hX : ∀ c ∈ X, c.toNat < 128 ∧ c.isAlphanum = false ∧ c ≠ '%') (s : Str) (c : Char) (hc : c ∈ X ∨ c.toNat ≤ 32) : c ∉ escapeWith X s := by
  refine not_mem_escape (fun c hc => by have := (hX c hc).1; omega) (by rcases hc with h | h; exact .inl h; exact .inr (.inl (by omega))) ?_ ?_
  · rintro rfl
    rcases hc with h | h
    · exact (hX _ h).2.2 rfl
    · exact absurd h (by decide)
  · intro h
    have h2 : c.isAlphanum = true ∧ ¬ c.toNat ≤ 32 := by
      have : ∀ d ∈ "0123456789ABCDEF".toList, d.isAlphanum = true ∧ ¬ d.toNat ≤ 32 := by decide
      exact this c h
    rcases hc with h' | h'
    · have := (hX _ h').2.1; rw [h2.1] at this; cases this
    · exact h2.2 h'

/-! ## Net locations -/

theorem splitMax_hit {c : Char} (n : Nat) : ∀ (x y : Str), c ∉ x → splitMax c (n + 1) (x ++ c :: y) = x :: splitMax c n y
  | [], y, _ => by simp [splitMax]
  | d :: x, y, h => by
    have hd : d ≠ c := fun e => h (by simp [e])
    have hx : c ∉ x := fun e => h (by simp [e])
    rw [List.cons_append, splitMax, if_neg hd, splitMax_hit n x y hx]; rfl

theorem splitMax_miss {c : Char} (n : Nat) : ∀ (x : Str), c ∉ x → splitMax c (n + 1) x = [x]
  | [], _ => rfl
  | d :: x, h => by
    have hd : d ≠ c := fun e => h (by simp [e])
    have hx : c ∉ x := fun e => h (by simp [e])
    rw [splitMax, if_neg hd, splitMax_miss n x hx]; rfl

theorem splitMax_zero (c : Char) (x : Str) : splitMax c 0 x = [x] := by cases x <;> rfl

theorem find_start {c : Char} (x y : Str) (h : c ∉ x) : find c (x ++ c :: y) 0 = some x.length := by
  have := find_hit (c := c) [] x y h
  simpa using this

/-- The text of the password. -/
def pwText : Option Str → Str
  | some p => ':' :: escapePassword p
  | none => []

/-- The text of the port. -/
def portText : Option Str → Str
  | some p => ':' :: escapePort p
  | none => []

/-- The text of user and password before the host. -/
def userText (user password : Option Str) : Str :=
  match user with
  | some u => escapeUser u ++ pwText password ++ ['@']
  | none => []

/-- The text of host and port. -/
def hostText (host port : Option Str) : Str :=
  match host with
  | some h => escapeHost h ++ portText port
  | none => []

theorem unsplitNetloc_eq (t : Netloc) : unsplitNetloc t = if t.user = none ∧ t.host = none then none else some (userText t.user t.password ++ hostText t.host t.port) := by
  obtain ⟨a, b, c, d⟩ := t
  cases a <;> cases b <;> cases c <;> cases d <;> rfl

theorem lt256 : ∀ c ∈ [':', '@', '/', '?', '#', '&', '='], c.toNat < 256 := by decide

/-- A host as the RI syntax can carry it: no colon, no opening bracket in front; or a bracketed address that needs no escapes. -/
def HostOk (h : Str) : Prop :=
  (':' ∉ h ∧ h.head? ≠ some '[') ∨
  (∃ a, h = '[' :: a ++ [']'] ∧ ']' ∉ a ∧ ∀ c ∈ a, c ≠ '%' ∧ 32 < c.toNat ∧ c ≠ '/' ∧ c ≠ '?' ∧ c ≠ '#')

/-- What a net location can carry. -/
structure NetlocOk (user password host port : Option Str) : Prop where
  /-- there is no password without a user -/
  no_user : user = none → password = none
  /-- there is no port without a host -/
  no_host : host = none → port = none
  /-- an empty host is shown by its port -/
  empty_host : host = some [] → port ≠ none
  host_ok : ∀ h, host = some h → HostOk h
  /-- without a user, an at sign would be taken for the end of one -/
  host_at : user = none → ∀ h, host = some h → '@' ∉ h
  port_at : user = none → ∀ p, port = some p → '@' ∉ p

theorem escape_id {X : List Char} : ∀ (s : Str), (∀ c ∈ s, c ≠ '%' ∧ 32 < c.toNat ∧ c ∉ X) → escapeWith X s = s
  | [], _ => rfl
  | c :: s, h => by
    rw [escapeWith_cons, escape_id s (fun d hd => h d (List.mem_cons_of_mem _ hd)), if_neg]
    · rfl
    · have := h c List.mem_cons_self
      simp [unescapedChar_iff, this]; omega

theorem netlocUser_of (f : Str → Str) (user password : Option Str) (hpw : user = none → password = none) (y : Str) (hy : user = none → '@' ∉ y) :
    netlocUser f (userText user password ++ y) = (user.map (fun x => f (escapeUser x)), password.map (fun x => f (escapePassword x)), (userText user password).length) := by
  unfold netlocUser
  cases user with
  | none =>
    cases hpw rfl
    show (match find '@' ([] ++ y) 0 with | none => _ | some pos => _) = _
    have : find '@' ([] ++ y) 0 = none := find_none [] y (hy rfl)
    rw [this]; rfl
  | some u =>
    have hat : '@' ∉ escapeUser u ++ pwText password := by
      intro h
      rw [List.mem_append] at h
      rcases h with h | h
      · exact not_mem_escape (fun c hc => lt256 c (by revert hc; revert c; decide)) (.inl (by decide)) (by decide) (by decide) h
      · cases password with
        | none => simp [pwText] at h
        | some p =>
          simp [pwText] at h
          exact not_mem_escape (fun c hc => lt256 c (by revert hc; revert c; decide)) (.inl (by decide)) (by decide) (by decide) h
    have e : userText (some u) password ++ y = (escapeUser u ++ pwText password) ++ '@' :: y := by
      simp [userText]
    rw [e, find_start _ _ hat]
    dsimp only
    rw [List.take_left]
    have hcol : ':' ∉ escapeUser u := not_mem_escape (fun c hc => lt256 c (by revert hc; revert c; decide)) (.inl (by decide)) (by decide) (by decide)
    cases password with
    | none =>
      rw [pwText, List.append_nil, splitMax_miss 0 _ hcol]
      simp [userText, pwText]
    | some p =>
      rw [pwText, splitMax_hit 0 _ _ hcol, splitMax_zero]
      simp [userText, pwText]; omega

theorem netlocHost_of (f : Str → Str) (pre : Str) (h : Str) (port : Option Str) (hok : HostOk h) :
    netlocHost f (pre ++ hostText (some h) port) pre.length = (some (if h.head? = some '[' then h else f (escapeHost h)), port.map (fun x => f (escapePort x))) := by
  unfold netlocHost
  rcases hok with ⟨h1, h2⟩ | ⟨a, rfl, ha, hc⟩
  · have hcol : ':' ∉ escapeHost h := not_mem_escape (by decide) (.inr (.inr h1)) (by decide) (by decide)
    have hb : (pre ++ hostText (some h) port)[pre.length]? ≠ some '[' := by
      rw [List.getElem?_append_right (Nat.le_refl _), Nat.sub_self]
      cases h with
      | nil => cases port <;> simp [hostText, escapeHost, escapeWith, portText]
      | cons c h =>
        have hc : c ≠ '[' := by simpa using h2
        simp only [hostText, escapeHost, escapeWith_cons]
        split
        · simp [pctEncode]
        · simpa using hc
    rw [if_neg hb, if_neg h2]
    cases port with
    | none =>
      have : find ':' (pre ++ hostText (some h) none) pre.length = none := find_none pre _ (by simpa [hostText, portText] using hcol)
      rw [this]
      dsimp only
      rw [List.drop_left]
      simp [hostText, portText]
    | some p =>
      have hf : find ':' (pre ++ hostText (some h) (some p)) pre.length = some (pre.length + (escapeHost h).length) := find_hit pre _ _ hcol
      rw [hf]
      dsimp only
      rw [slice_of _ pre (escapeHost h) (':' :: escapePort p) (by simp [hostText, portText]) rfl rfl]
      have : List.drop (pre.length + (escapeHost h).length + 1) (pre ++ hostText (some h) (some p)) = escapePort p := by
        have e : pre ++ hostText (some h) (some p) = (pre ++ escapeHost h ++ [':']) ++ escapePort p := by simp [hostText, portText]
        rw [e, List.drop_left' (by simp; omega)]
      rw [this]; rfl
  · have hid : escapeHost ('[' :: a ++ [']']) = '[' :: a ++ [']'] := by
      apply escape_id
      intro c hm
      simp at hm
      rcases hm with h | h | h
      · subst h; decide
      · have := hc c h; refine ⟨this.1, this.2.1, ?_⟩; simp [this]
      · subst h; decide
    have e : ∀ t : Str, pre ++ (('[' :: a ++ [']']) ++ t) = pre ++ ('[' :: a ++ ']' :: t) := by intro t; simp
    have key : ∀ t : Str, (pre ++ (('[' :: a ++ [']']) ++ t))[pre.length]? = some '[' ∧ find ']' (pre ++ (('[' :: a ++ [']']) ++ t)) pre.length = some (pre.length + (a.length + 1)) := by
      intro t
      constructor
      · simp
      · rw [e, find_hit pre ('[' :: a) t (by simp [ha])]; simp
    have ht : hostText (some ('[' :: a ++ [']'])) port = ('[' :: a ++ [']']) ++ portText port := by
      simp only [hostText, hid]
    rw [ht]
    obtain ⟨k1, k2⟩ := key (portText port)
    rw [if_pos k1, k2, if_pos (show ('[' :: a ++ [']']).head? = some '[' from rfl)]
    simp only [Option.getD_some]
    rw [slice_of _ pre ('[' :: a ++ [']']) (portText port) (by simp) rfl (by simp; omega)]
    congr 1
    cases port with
    | none =>
      have := find_none (c := ':') (pre ++ ('[' :: a ++ [']'])) [] (by simp)
      simp only [List.append_nil, portText] at this ⊢
      have e2 : pre.length + (a.length + 1) + 1 = (pre ++ ('[' :: a ++ [']'])).length := by simp; omega
      rw [e2, this]; rfl
    | some p =>
      have := find_hit (c := ':') (pre ++ ('[' :: a ++ [']'])) [] (escapePort p) (by simp)
      have e2 : pre.length + (a.length + 1) + 1 = (pre ++ ('[' :: a ++ [']'])).length := by simp; omega
      rw [e2, ← List.append_assoc, portText]
      rw [List.nil_append] at this
      rw [this, Option.map_some, List.drop_append, List.drop_of_length_le (by simp)]
      simp

/-- What the net location is divided into, whatever is done with the fields. -/
theorem netloc_fields (f : Str → Str) (user password host port : Option Str) (hok : NetlocOk user password host port) (s : Str)
    (h : unsplitNetloc ⟨user, password, host, port⟩ = some s) :
    splitNetloc f s = ⟨user.map (fun x => f (escapeUser x)), password.map (fun x => f (escapePassword x)),
      host.map (fun h => if h.head? = some '[' then h else f (escapeHost h)), port.map (fun x => f (escapePort x))⟩ := by
  rw [unsplitNetloc_eq] at h
  split at h
  · cases h
  · rename_i hne
    simp only [Option.some.injEq] at h
    subst h
    unfold splitNetloc
    have hy : user = none → '@' ∉ hostText host port := by
      intro hu
      cases host with
      | none => simp [hostText]
      | some x =>
        have h1 : '@' ∉ escapeHost x := not_mem_escape (by decide) (.inr (.inr (hok.host_at hu x rfl))) (by decide) (by decide)
        cases port with
        | none => simpa [hostText, portText] using h1
        | some p =>
          have h2 : '@' ∉ escapePort p := not_mem_escape (by decide) (.inr (.inr (hok.port_at hu p rfl))) (by decide) (by decide)
          simp [hostText, h1, h2, portText]
    simp only [netlocUser_of f user password hok.no_user _ hy]
    cases host with
    | none =>
      cases hok.no_host rfl
      rw [if_pos (by simp [hostText])]; rfl
    | some x =>
      have hlen : hostText (some x) port ≠ [] := by
        cases port with
        | some p => simp [hostText, portText]
        | none =>
          cases x with
          | nil => exact absurd rfl (hok.empty_host rfl)
          | cons c x =>
            simp only [hostText, escapeHost, escapeWith_cons]
            split <;> simp [pctEncode]
      have : 0 < (hostText (some x) port).length := List.length_pos_iff.mpr hlen
      rw [if_neg (by simp; omega), netlocHost_of f _ x port (hok.host_ok x rfl)]; rfl

/-- Net locations: parameters a net location can carry come back. -/
theorem C31_netloc (user password host port : Option Str) (hok : NetlocOk user password host port) (s : Str)
    (h : unsplitNetloc ⟨user, password, host, port⟩ = some s) : splitNetloc unescape s = ⟨user, password, host, port⟩ := by
  rw [netloc_fields unescape user password host port hok s h]
  have e1 : ∀ x, unescape (escapeUser x) = x := unescape_escape (by decide)
  have e2 : ∀ x, unescape (escapePassword x) = x := unescape_escape (by decide)
  have e3 : ∀ x, unescape (escapeHost x) = x := unescape_escape (by decide)
  have e4 : ∀ x, unescape (escapePort x) = x := unescape_escape (by decide)
  cases user <;> cases password <;> cases host <;> cases port <;> simp [e1, e2, e3, e4]

/-! ## Dictionaries -/

/-- What an RI can carry. -/
structure DictOk (d : Dict) : Prop where
  scheme : ∀ x, d.scheme = some x → ∀ c ∈ x, c.isAlphanum = true ∨ c = '-' ∨ c = '.' ∨ c = '+'
  /-- without a scheme, a net location that ends in a colon could be taken for one -/
  no_scheme : d.scheme = none → d.port ≠ some []
  netloc : NetlocOk d.user d.password d.host d.port
  path : d.path ≠ some [[]]
  query : d.query ≠ some [([], none)]

theorem not_mem_join {sep : Str} {c : Char} (hs : c ∉ sep) : ∀ l : List Str, (∀ x ∈ l, c ∉ x) → c ∉ join sep l
  | [], _ => by simp [join]
  | [x], h => by simpa [join] using h x
  | x :: y :: l, h => by
    have ih := not_mem_join hs (y :: l) (fun z hz => h z (List.mem_cons_of_mem _ hz))
    have := h x List.mem_cons_self
    rw [join]
    · simp [hs, ih, this]
    · simp

theorem split_miss (sep : Char) : ∀ x : Str, sep ∉ x → PyStr.split sep x = [x]
  | [], _ => rfl
  | c :: x, h => by
    have hc : c ≠ sep := fun e => h (by simp [e])
    rw [PyStr.split, if_neg hc, split_miss sep x (fun e => h (by simp [e]))]; rfl

theorem split_hit (sep : Char) : ∀ x y : Str, sep ∉ x → PyStr.split sep (x ++ sep :: y) = x :: PyStr.split sep y
  | [], y, _ => by simp [PyStr.split]
  | c :: x, y, h => by
    have hc : c ≠ sep := fun e => h (by simp [e])
    rw [List.cons_append, PyStr.split, if_neg hc, split_hit sep x y (fun e => h (by simp [e]))]; rfl

theorem split_of_join (sep : Char) : ∀ l : List Str, l ≠ [] → (∀ x ∈ l, sep ∉ x) → PyStr.split sep (join [sep] l) = l
  | [], h, _ => absurd rfl h
  | [x], _, h => by rw [join]; exact split_miss sep x (h x List.mem_cons_self)
  | x :: y :: l, _, h => by
    have ih := split_of_join sep (y :: l) (by simp) (fun z hz => h z (List.mem_cons_of_mem _ hz))
    rw [PG.Props.SqlSplit.join_cons (by simp)]
    simp only [List.append_assoc, List.cons_append, List.nil_append]
    rw [split_hit sep x _ (h x List.mem_cons_self), ih]

theorem escape_nil {X : List Char} {s : Str} (h : escapeWith X s = []) : s = [] := by
  cases s with
  | nil => rfl
  | cons c s =>
    rw [escapeWith_cons] at h
    split at h <;> simp [pctEncode] at h

theorem join_nil {sep : Str} (hs : sep ≠ []) {l : List Str} (h : join sep l = []) : l = [] ∨ l = [[]] := by
  match l with
  | [] => exact .inl rfl
  | [x] => rw [join] at h; exact .inr (by rw [h])
  | x :: y :: l => rw [PG.Props.SqlSplit.join_cons (by simp)] at h; simp at h; exact absurd h.2.1 hs

theorem path_back (p : List Str) (hp : p ≠ [[]]) :
    (if join ['/'] (p.map escapePath) = [] then [] else (PyStr.split '/' (join ['/'] (p.map escapePath))).map unescape) = p := by
  by_cases hn : p = []
  · subst hn; rfl
  · rw [if_neg, split_of_join '/' _ (by simpa using hn), List.map_map]
    · have : (unescape ∘ escapePath) = id := funext fun s => unescape_escape (X := ['/', '?', '#']) (by decide) s
      rw [this, List.map_id]
    · intro x hx
      rw [List.mem_map] at hx
      obtain ⟨y, _, rfl⟩ := hx
      exact not_mem_escape (by decide) (.inl (by decide)) (by decide) (by decide)
    · intro h
      rcases join_nil (by simp) h with h | h
      · exact hn (by simpa using h)
      · cases p with
        | nil => exact hn rfl
        | cons x p =>
          simp at h
          exact hp (by rw [escape_nil h.1, h.2])

/-- One parameter of the query, as text. -/
def itemText (kv : Str × Option Str) : Str :=
  match kv.2 with
  | some v => escapeQueryKey kv.1 ++ ['='] ++ escapeQueryValue v
  | none => escapeQueryKey kv.1

theorem constructQuery_eq (x : List (Str × Option Str)) : constructQuery x = join ['&'] (x.map itemText) := rfl

theorem item_back (kv : Str × Option Str) : queryItem unescape (itemText kv) = kv := by
  obtain ⟨k, v⟩ := kv
  have hk : '=' ∉ escapeQueryKey k := not_mem_escape (by decide) (.inl (by decide)) (by decide) (by decide)
  have e1 : unescape (escapeQueryKey k) = k := unescape_escape (by decide) k
  unfold queryItem
  cases v with
  | none => simp only [itemText]; rw [splitMax_miss 0 _ hk]; simp [e1]
  | some v =>
    have e2 : unescape (escapeQueryValue v) = v := unescape_escape (by decide) v
    simp only [itemText, List.append_assoc, List.cons_append, List.nil_append]
    rw [splitMax_hit 0 _ _ hk, splitMax_zero]; simp [e1, e2]

theorem item_no (c : Char) (hc : c = '&' ∨ c = '#') (kv : Str × Option Str) : c ∉ itemText kv := by
  have h1 : c ∉ escapeQueryKey kv.1 := not_mem_escape (by decide) (.inl (by rcases hc with rfl | rfl <;> decide)) (by rcases hc with rfl | rfl <;> decide) (by rcases hc with rfl | rfl <;> decide)
  unfold itemText
  split
  · rename_i v _
    have h2 : c ∉ escapeQueryValue v := not_mem_escape (by decide) (.inl (by rcases hc with rfl | rfl <;> decide)) (by rcases hc with rfl | rfl <;> decide) (by rcases hc with rfl | rfl <;> decide)
    simp [h1, h2]; rcases hc with rfl | rfl <;> decide
  · exact h1

theorem query_back (q : List (Str × Option Str)) (hq : q ≠ [([], none)]) :
    (if constructQuery q = [] then [] else (PyStr.split '&' (constructQuery q)).map (queryItem unescape)) = q := by
  rw [constructQuery_eq]
  by_cases hn : q = []
  · subst hn; rfl
  · rw [if_neg, split_of_join '&' _ (by simpa using hn), List.map_map]
    · have : (queryItem unescape ∘ itemText) = id := funext fun s => item_back s
      rw [this, List.map_id]
    · intro x hx
      rw [List.mem_map] at hx
      obtain ⟨y, _, rfl⟩ := hx
      exact item_no '&' (.inl rfl) y
    · intro h
      rcases join_nil (by simp) h with h | h
      · exact hn (by simpa using h)
      · cases q with
        | nil => exact hn rfl
        | cons kv q =>
          obtain ⟨k, v⟩ := kv
          cases v with
          | none => simp [itemText] at h; exact hq (by rw [escape_nil h.1, h.2])
          | some v => simp [itemText] at h

theorem netloc_no (c : Char) (hc : c = '/' ∨ c = '?' ∨ c = '#') (user password host port : Option Str) : c ∉ userText user password ++ hostText host port := by
  have hne : ∀ (X : List Char) (s : Str), (∀ d ∈ X, d.toNat < 256) → c ∈ X → c ∉ escapeWith X s := fun X s h h2 =>
    not_mem_escape h (.inl h2) (by rcases hc with rfl | rfl | rfl <;> decide) (by rcases hc with rfl | rfl | rfl <;> decide)
  have h1 : ∀ u, c ∉ escapeUser u := fun u => hne _ u (by decide) (by rcases hc with rfl | rfl | rfl <;> decide)
  have h2 : ∀ u, c ∉ escapePassword u := fun u => hne _ u (by decide) (by rcases hc with rfl | rfl | rfl <;> decide)
  have h3 : ∀ u, c ∉ escapeHost u := fun u => hne _ u (by decide) (by rcases hc with rfl | rfl | rfl <;> decide)
  have h4 : ∀ u, c ∉ escapePort u := fun u => hne _ u (by decide) (by rcases hc with rfl | rfl | rfl <;> decide)
  have c1 : c ≠ ':' := by rcases hc with rfl | rfl | rfl <;> decide
  have c2 : c ≠ '@' := by rcases hc with rfl | rfl | rfl <;> decide
  cases user <;> cases password <;> cases host <;> cases port <;> simp [userText, hostText, pwText, portText, h1, h2, h3, h4, c1, c2]

/-- The text of the net location does not look like a scheme and a colon. -/
theorem netloc_end (user password host port : Option Str) (hok : NetlocOk user password host port) (hp : port ≠ some []) (x : Str)
    (h : userText user password ++ hostText host port = x ++ [':']) : ':' ∈ x := by
  have h' := congrArg List.getLast? h
  rw [List.getLast?_concat] at h'
  cases host with
  | none =>
    cases user with
    | none => simp [userText, hostText] at h'
    | some u => simp [userText, hostText] at h'
  | some y =>
    cases port with
    | some p =>
      have hpe : escapePort p ≠ [] := fun e => hp (by rw [escape_nil e])
      have h2 := congrArg List.dropLast h
      rw [List.dropLast_concat] at h2
      rw [← h2]
      simp only [hostText, portText]
      rw [← List.append_assoc, List.dropLast_append_of_ne_nil (by simp), List.dropLast_cons_of_ne_nil hpe]
      simp
    | none =>
      exfalso
      rcases hok.host_ok y rfl with ⟨h1, _⟩ | ⟨a, rfl, _, hc⟩
      · have hcol : ':' ∉ escapeHost y := not_mem_escape (by decide) (.inr (.inr h1)) (by decide) (by decide)
        have hne : escapeHost y ≠ [] := fun e => by
          have := escape_nil e; subst this; exact hok.empty_host rfl rfl
        rw [hostText, portText, List.append_nil, List.getLast?_append] at h'
        cases hl : (escapeHost y).getLast? with
        | none => rw [List.getLast?_eq_none_iff] at hl; exact hne hl
        | some z => rw [hl] at h'; simp at h'; subst h'; exact hcol (List.mem_of_getLast? hl)
      · have hid : escapeHost ('[' :: a ++ [']']) = '[' :: a ++ [']'] := by
          apply escape_id
          intro c hm
          simp at hm
          rcases hm with h | h | h
          · subst h; decide
          · have := hc c h; refine ⟨this.1, this.2.1, ?_⟩; simp [this]
          · subst h; decide
        rw [hostText, hid, portText, List.append_nil, ← List.append_assoc, List.getLast?_concat] at h'
        cases h'

theorem scheme_not (c : Char) (hc : c = ':' ∨ c = '/' ∨ c = '?' ∨ c = '#') : ¬ (c.isAlphanum = true ∨ c = '-' ∨ c = '.' ∨ c = '+') := by
  rcases hc with rfl | rfl | rfl | rfl <;> decide

/-- No scheme is seen in the text of parameters without one. -/
theorem no_scheme_seen (N R : Str) (hN : '/' ∉ N) (hend : ∀ x, N = x ++ [':'] → ':' ∈ x) (hR : R = [] ∨ ∃ c R', R = c :: R' ∧ (c = '/' ∨ c = '?' ∨ c = '#'))
    (x r : Str) (h : N ++ R = x ++ "://".toList ++ r) : ∃ c ∈ x, ¬ (c.isAlphanum = true ∨ c = '-' ∨ c = '.' ∨ c = '+') := by
  have e : "://".toList = [':', '/', '/'] := rfl
  rw [e, List.append_assoc] at h
  rw [List.append_eq_append_iff] at h
  rcases h with ⟨a, h1, h2⟩ | ⟨a, h1, h2⟩
  · -- the net location ends within `x`
    rcases hR with hR | ⟨c, R', hR, hc⟩
    · rw [hR] at h2; simp at h2
    · cases a with
      | nil =>
        rw [hR] at h2; simp at h2
        rw [h2.1] at hc; rcases hc with h | h | h <;> cases h
      | cons d a =>
        rw [hR] at h2; simp at h2
        exact ⟨c, by rw [h1, h2.1]; simp, scheme_not c (.inr hc)⟩
  · match a, h2 with
    | [], h2 =>
      simp at h2
      rcases hR with hR | ⟨c, R', hR, hc⟩
      · rw [hR] at h2; cases h2
      · rw [hR] at h2; simp at h2
        rw [← h2.1] at hc; rcases hc with h | h | h <;> cases h
    | [d], h2 =>
      simp at h2
      exact ⟨':', hend x (by rw [h1, ← h2.1]), scheme_not ':' (.inl rfl)⟩
    | d :: d' :: a, h2 =>
      simp at h2
      exact absurd (by rw [h1, ← h2.2.1]; simp) hN

/-- Parameters an RI can carry come back from the text made of them. -/
theorem C31_parse_serialize (d : Dict) (hok : DictOk d) : parse unescape (serialize d) = d := by
  have hq : ∀ x, (construct d).query = some x → '#' ∉ x := by
    intro x hx
    have hx : d.query.map constructQuery = some x := hx
    rw [Option.map_eq_some_iff] at hx
    obtain ⟨q, _, rfl⟩ := hx
    exact not_mem_join (by decide) _ (fun y hy => by
      rw [List.mem_map] at hy; obtain ⟨z, _, rfl⟩ := hy; exact item_no '#' (.inr rfl) z)
  have hp : ∀ x, (construct d).path = some x → '?' ∉ x ∧ '#' ∉ x := by
    intro x hx
    have hx : d.path.map (fun p => join ['/'] (p.map escapePath)) = some x := hx
    rw [Option.map_eq_some_iff] at hx
    obtain ⟨p, _, rfl⟩ := hx
    constructor <;> refine not_mem_join (by decide) _ (fun y hy => ?_) <;> rw [List.mem_map] at hy <;> obtain ⟨z, _, rfl⟩ := hy
    · exact not_mem_escape (by decide) (.inl (by decide)) (by decide) (by decide)
    · exact not_mem_escape (by decide) (.inl (by decide)) (by decide) (by decide)
  have hnl : (construct d).netloc = if d.user = none ∧ d.host = none then none else some (userText d.user d.password ++ hostText d.host d.port) := unsplitNetloc_eq _
  have hN : ∀ c, (c = '/' ∨ c = '?' ∨ c = '#') → c ∉ (construct d).netloc.getD [] := by
    intro c hc
    rw [hnl]; split
    · simp
    · exact netloc_no c hc _ _ _ _
  have hNne : (construct d).netloc ≠ some [] := by
    rw [hnl]; split
    · simp
    · rename_i hne
      intro h
      simp only [Option.some.injEq, List.append_eq_nil_iff] at h
      have := C31_netloc d.user d.password d.host d.port hok.netloc [] (by rw [unsplitNetloc_eq]; simp [hne, h])
      have e : splitNetloc unescape [] = ⟨none, none, none, none⟩ := by decide
      rw [e] at this
      simp only [Netloc.mk.injEq] at this
      exact hne ⟨this.1.symm, this.2.2.1.symm⟩
  have hparts : Parts (serialize d) (construct d).scheme (construct d).netloc (construct d).path (construct d).query (construct d).fragment := by
    refine ⟨?_, hok.scheme, ?_, hNne, ?_, hp, hq⟩
    · unfold serialize
      generalize construct d = t
      obtain ⟨a, b, c, e, f⟩ := t
      cases a <;> cases b <;> cases c <;> cases e <;> cases f <;> simp [unsplit, marked, leading]
    · intro hs x r h
      refine no_scheme_seen ((construct d).netloc.getD []) (marked ['/'] (construct d).path ++ marked ['?'] (construct d).query ++ marked ['#'] (construct d).fragment)
        (hN '/' (.inl rfl)) ?_ ?_ x r ?_
      · intro x hx
        rw [hnl] at hx
        split at hx
        · cases x <;> simp at hx
        · exact netloc_end _ _ _ _ hok.netloc (hok.no_scheme hs) x hx
      · generalize (construct d).path = a
        generalize (construct d).query = b
        generalize (construct d).fragment = c
        cases a <;> cases b <;> cases c <;> simp [marked]
      · rw [← h]
        unfold serialize
        generalize construct d = t at hs ⊢
        obtain ⟨a, b, c, e, f⟩ := t
        cases hs
        cases b <;> cases c <;> cases e <;> cases f <;> simp [unsplit, marked]
    · intro x hx
      have : (construct d).netloc.getD [] = x := by rw [hx]; rfl
      rw [← this]
      exact ⟨hN _ (.inl rfl), hN _ (.inr (.inl rfl)), hN _ (.inr (.inr rfl))⟩
  unfold parse
  rw [C31_split_unique hparts]
  have hnet : structNetloc unescape (construct d).netloc = ⟨d.user, d.password, d.host, d.port⟩ := by
    cases h : (construct d).netloc with
    | some x => exact C31_netloc _ _ _ _ hok.netloc x h
    | none =>
      rw [hnl] at h
      split at h
      · rename_i hn
        rw [structNetloc, hok.netloc.no_user hn.1, hok.netloc.no_host hn.2, hn.1, hn.2]
      · cases h
  have hpath : ((construct d).path.map fun p => if p = [] then [] else (PyStr.split '/' p).map unescape) = d.path := by
    show (d.path.map _).map _ = _
    cases h : d.path with
    | none => rfl
    | some p => simp only [Option.map_some]; rw [path_back p (fun e => hok.path (by rw [h, e]))]
  have hquery : ((construct d).query.map fun q => if q = [] then [] else (PyStr.split '&' q).map (queryItem unescape)) = d.query := by
    show (d.query.map _).map _ = _
    cases h : d.query with
    | none => rfl
    | some p => simp only [Option.map_some]; rw [query_back p (fun e => hok.query (by rw [h, e]))]
  have hfrag : (construct d).fragment.map unescape = d.fragment := by
    show (d.fragment.map _).map _ = _
    cases h : d.fragment with
    | none => rfl
    | some p => simp only [Option.map_some]; rw [show unescape (escapeAny p) = p from unescape_escape (by simp) p]
  unfold structure_
  dsimp only
  rw [hpath, hquery, hfrag, hnet]
  rfl

example : DictOk ⟨some "pq".toList, some "me@x".toList, some "p:w/d".toList, some "[::1]".toList, some "5432".toList, some ["a/b".toList, []],
    some [("k=".toList, some "v&".toList), ("n".toList, none)], some "f%".toList⟩ ∧
    serialize ⟨some "pq".toList, some "me@x".toList, some "p:w/d".toList, some "[::1]".toList, some "5432".toList, some ["a/b".toList, []],
      some [("k=".toList, some "v&".toList), ("n".toList, none)], some "f%".toList⟩ = "pq://me%40x:p:w%2Fd@[::1]:5432/a%2Fb/?k%3D=v%26&n#f%25".toList := by
  refine ⟨⟨?_, ?_, ⟨?_, ?_, ?_, ?_, ?_, ?_⟩, ?_, ?_⟩, by decide⟩
  · intro x hx; cases hx; decide
  · intro h; cases h
  · intro h; cases h
  · intro h; cases h
  · intro h; exact absurd (Option.some.inj h) (by decide)
  · intro h hh; cases hh; exact .inr ⟨"::1".toList, by decide⟩
  · intro h; cases h
  · intro h; cases h
  · decide
  · decide

example : Parts "x+y://u@h/p?q?/#f#".toList (some "x+y".toList) (some "u@h".toList) (some "p".toList) (some "q?/".toList) (some "f#".toList) := by
  have := C31_split "x+y://u@h/p?q?/#f#".toList
  have e : RiParse.split "x+y://u@h/p?q?/#f#".toList = ⟨some "x+y".toList, some "u@h".toList, some "p".toList, some "q?/".toList, some "f#".toList⟩ := by decide
  rw [e] at this; exact this

/-- Findings: what the conditions on parameters leave out is lost: a password without a user, a port without a host, an at sign in a host without
a user; and parameters without a scheme may be read back with one. -/
theorem C31_not_carried :
    parse unescape (serialize ⟨none, none, some "secret".toList, some "h".toList, none, none, none, none⟩) = ⟨none, none, none, some "h".toList, none, none, none, none⟩ ∧
    parse unescape (serialize ⟨none, some "u".toList, none, none, some "5432".toList, none, none, none⟩) = ⟨none, some "u".toList, none, none, none, none, none, none⟩ ∧
    parse unescape (serialize ⟨none, none, none, some "a@b".toList, none, none, none, none⟩) = ⟨none, some "a".toList, none, some "b".toList, none, none, none, none⟩ ∧
    parse unescape (serialize ⟨none, none, none, some "h".toList, some [], some [[], "x".toList], none, none⟩) = ⟨some "h".toList, none, none, some "x".toList, none, none, none, none⟩ := by
  decide

end PG.Props.RiParse
