import Verif.Model.Bytea
import Verif.Spec.Bytea
import Verif.Proofs.TypesLib
/-!
# C23: the `bytea` codec
-/
namespace PG.Props.Bytea
open PG PG.Spec PG.Spec.Format PG.Spec.Bytea PG.Bytea PG.PyInt PG.TypesLib PG.Element3

theorem octVal_char {c : Char} {n : Nat} (h : octVal c = some n) : n < 8 ∧ c = Char.ofNat (48 + n) := by
  unfold octVal at h
  split at h
  · rename_i hc
    have h1 : 48 ≤ c.toNat := hc.1
    have h2 : c.toNat ≤ 55 := hc.2
    have := Option.some.inj h
    refine ⟨by omega, ?_⟩
    rw [← this, show 48 + (c.toNat - 48) = c.toNat by omega]
    exact (Char.ofNat_toNat c).symm
  · cases h

theorem octVal_ofNat : ∀ n < 8, octVal (Char.ofNat (48 + n)) = some n := by decide

/-- The three digits are read as the octal number. -/
theorem pyInt8_oct : ∀ x < 8, ∀ y < 8, ∀ z < 8,
    pyInt 8 [Char.ofNat (48 + x), Char.ofNat (48 + y), Char.ofNat (48 + z)] = .ok ((x * 64 + y * 8 + z : Nat) : Int) ∧
      isDigit (Char.ofNat (48 + x)) = true ∧ Char.ofNat (48 + x) ≠ '\\' := by decide +kernel

theorem packBytes_iff (l : List Int) (b : Bytes) : packBytes l = .ok b ↔ l = b.map fun x => (x.toNat : Int) := by
  induction l generalizing b with
  | nil =>
    cases b with
    | nil => exact ⟨fun _ => rfl, fun _ => rfl⟩
    | cons x b => exact ⟨fun h => (by cases h), fun h => (by cases h)⟩
  | cons x l ih =>
    rw [packBytes]
    constructor
    · intro h
      obtain ⟨a, ha, h⟩ := bind_eq_ok h
      obtain ⟨t, ht, h⟩ := bind_eq_ok h
      cases h
      have hd := beDec_packU ha
      have hl := length_packU ha
      match a, hl with
      | [c], _ =>
        rw [(ih t).1 ht]
        have : beDec [c] = c.toNat := by simp [beDec]
        rw [this] at hd
        simp [← hd]
    · intro h
      cases b with
      | nil => cases h
      | cons c b =>
        rw [List.map_cons] at h
        injection h with h1 h
        subst h1
        have hlt : c.toNat < 256 := c.toNat_lt
        have : packU 1 (c.toNat : Int) = .ok [c] := by
          rw [packU_nat (by simpa using hlt)]
          simp [beEnc]
        rw [this, bind_ok, (ih b).2 h, bind_ok]
        rfl

theorem encodeLoop_esc (r : Str) : encodeLoop ('\\' :: '\\' :: r) = (encodeLoop r >>= fun t => pure (92 :: t)) := by
  rw [encodeLoop]

theorem encodeLoop_oct {x y z : Nat} (hx : x < 8) (hy : y < 8) (hz : z < 8) (r : Str) :
    encodeLoop ('\\' :: Char.ofNat (48 + x) :: Char.ofNat (48 + y) :: Char.ofNat (48 + z) :: r) =
      (encodeLoop r >>= fun t => pure (((x * 64 + y * 8 + z : Nat) : Int) :: t)) := by
  obtain ⟨h1, h2, h3⟩ := pyInt8_oct x hx y hy z hz
  rw [encodeLoop]
  · rw [if_pos h2, h1, bind_ok]
  · intro h; exact h3 h

theorem encodeLoop_lit {c : Char} (hc : c ≠ '\\') (r : Str) :
    encodeLoop (c :: r) = (encodeLoop r >>= fun t => pure ((c.toNat : Int) :: t)) := by
  rw [encodeLoop] <;> intro h <;> first | exact absurd h hc | (intro h2; exact absurd h hc) | (intros; contradiction)

/-- C23: text PostgreSQL reads as `b` in its escape format is encoded to `b`. -/
theorem C23_encode_agrees (s : Str) (b : Bytes) (h : byteain s = some b) : encode s = .ok b := by
  have key : ∀ (n : Nat) (s : Str) (b : Bytes), s.length ≤ n → byteain s = some b → encodeLoop s = .ok (b.map fun x => (x.toNat : Int)) := by
    intro n
    induction n with
    | zero =>
      intro s b hs h
      have := List.length_eq_zero_iff.1 (Nat.le_zero.1 hs)
      subst this
      rw [byteain] at h
      cases h; rfl
    | succ n ih =>
      intro s b hs h
      match s with
      | [] => rw [byteain] at h; cases h; rfl
      | c :: r =>
        by_cases hc : c = '\\'
        · subst hc
          match r with
          | [] => simp [byteain] at h
          | d :: r =>
            by_cases hd : d = '\\'
            · subst hd
              rw [byteain] at h
              obtain ⟨b', hb, rfl⟩ := Option.map_eq_some_iff.1 h
              rw [encodeLoop_esc, ih r b' (by simp only [List.length_cons] at hs; omega) hb]
              rfl
            · match r with
              | [] => rw [byteain] at h <;> simp_all
              | [e] => rw [byteain] at h <;> simp_all
              | e :: f :: r =>
                rw [byteain] at h
                · simp only [Option.bind_eq_bind, Option.bind_eq_some_iff] at h
                  obtain ⟨x, hx, y, hy, z, hz, h⟩ := h
                  split at h
                  · cases h
                  · obtain ⟨b', hb, rfl⟩ := Option.map_eq_some_iff.1 h
                    obtain ⟨x1, rfl⟩ := octVal_char hx
                    obtain ⟨y1, rfl⟩ := octVal_char hy
                    obtain ⟨z1, rfl⟩ := octVal_char hz
                    rw [encodeLoop_oct x1 y1 z1, ih r b' (by simp only [List.length_cons] at hs; omega) hb, bind_ok]
                    simp only [pure_ok, List.map_cons, UInt8.toNat_ofNat', Except.ok.injEq, List.cons.injEq, and_true]
                    omega
                · exact hd
        · rw [byteain] at h
          · split at h
            · cases h
            · rename_i hn
              obtain ⟨b', hb, rfl⟩ := Option.map_eq_some_iff.1 h
              rw [encodeLoop_lit hc, ih r b' (by simp only [List.length_cons] at hs; omega) hb, bind_ok]
              have : c.toNat < 256 := by
                apply Nat.lt_of_not_le
                intro h; exact hn (Or.inr h)
              simp only [pure_ok, List.map_cons, UInt8.toNat_ofNat', Except.ok.injEq, List.cons.injEq, and_true]
              omega
          · intro r h; exact absurd h hc
          · intro a b c r h; exact absurd h hc
  unfold encode
  rw [key s.length s b (Nat.le_refl _) h, bind_ok]
  exact (packBytes_iff _ _).2 rfl

theorem byteain_lit {c : Char} (hc : c ≠ '\\') (h : c.toNat < 256) (r : Str) : byteain (c :: r) = (byteain r).map (UInt8.ofNat c.toNat :: ·) := by
  rw [byteain]
  · rw [if_neg]
    intro hh
    rcases hh with hh | hh
    · exact hc hh
    · omega
  · intro r h; exact absurd h hc
  · intro a b c r h; exact absurd h hc

theorem byteain_oct {x y z : Nat} (hx : x < 4) (hy : y < 8) (hz : z < 8) (r : Str) :
    byteain ('\\' :: Char.ofNat (48 + x) :: Char.ofNat (48 + y) :: Char.ofNat (48 + z) :: r) =
      (byteain r).map (UInt8.ofNat (x * 64 + y * 8 + z) :: ·) := by
  rw [byteain]
  · rw [octVal_ofNat x (by omega), octVal_ofNat y hy, octVal_ofNat z hz]
    show (if 3 < x then none else _) = _
    rw [if_neg (by omega)]
  · intro h
    exact (pyInt8_oct x (by omega) 0 (by omega) 0 (by omega)).2.2 h

theorem char_lit : ∀ i < 256, 32 < i ∧ i < 126 → i ≠ 92 → (Char.ofNat i).toNat = i ∧ Char.ofNat i ≠ '\\' := by decide +kernel

/-- C23: the text made of any bytes is read by PostgreSQL's `byteain` as these bytes. -/
theorem C23_decode_agrees (b : Bytes) : byteain (decode b) = some b := by
  induction b with
  | nil => rfl
  | cons x b ih =>
    have e : decode (x :: b) = ordToSeq x.toNat ++ decode b := rfl
    have hx : x.toNat < 256 := x.toNat_lt
    rw [e]
    unfold ordToSeq
    split
    · show byteain ('\\' :: Char.ofNat (48 + x.toNat / 64) :: Char.ofNat (48 + x.toNat / 8 % 8) :: Char.ofNat (48 + x.toNat % 8) :: decode b) = _
      rw [byteain_oct (by omega) (by omega) (by omega), ih, show x.toNat / 64 * 64 + x.toNat / 8 % 8 * 8 + x.toNat % 8 = x.toNat by omega]
      simp
    · rename_i hp
      split
      · rename_i h92
        show byteain ('\\' :: '\\' :: decode b) = _
        rw [byteain, ih]
        have : x = 92 := UInt8.toNat_inj.1 h92
        rw [this]; rfl
      · rename_i h92
        obtain ⟨h1, h2⟩ := char_lit x.toNat hx (Decidable.not_not.1 hp) h92
        show byteain (Char.ofNat x.toNat :: decode b) = _
        rw [byteain_lit h2 (by omega), ih, h1]
        simp

/-- C23: decoding any bytes to text and encoding the text returns the bytes. -/
theorem C23_round_trip (b : Bytes) : encode (decode b) = .ok b := C23_encode_agrees _ _ (C23_decode_agrees b)

/-- C23: the text is printable ASCII without spaces. -/
theorem C23_decode_printable (b : Bytes) : ∀ c ∈ decode b, 32 < c.toNat ∧ c.toNat < 126 := by
  intro c hc
  unfold decode at hc
  obtain ⟨x, _, hx⟩ := List.mem_flatMap.1 hc
  have key : ∀ i < 256, ∀ c ∈ ordToSeq i, 32 < c.toNat ∧ c.toNat < 126 := by decide +kernel
  exact key x.toNat x.toNat_lt c hx

/-- C23: a backslash at the end, one followed by something that is neither a digit nor a backslash, and one followed by a digit but less
than three characters are refused with ValueError, wherever they are. -/
theorem C23_malformed_refused (s t : Str) (b : Bytes) (hs : byteain s = some b)
    (ht : t = [] ∨ (∃ c r, t = c :: r ∧ c ≠ '\\' ∧ ¬ ('0' ≤ c ∧ c ≤ '9')) ∨ (∃ c, t = [c] ∧ c ≠ '\\') ∨ (∃ c d, t = [c, d] ∧ c ≠ '\\')) :
    encode (s ++ '\\' :: t) = .error .valueError := by
  have base : encodeLoop ('\\' :: t) = .error .valueError := by
    rcases ht with rfl | ⟨c, r, rfl, h1, h2⟩ | ⟨c, rfl, h1⟩ | ⟨c, d, rfl, h1⟩
    · rfl
    · match r with
      | [] => rw [encodeLoop]; intro h; exact h1 h
      | [d] => rw [encodeLoop]; intro h; exact h1 h
      | d :: e :: r =>
        rw [encodeLoop]
        · rw [if_neg (by simpa [isDigit] using h2)]
        · intro h; exact h1 h
    · rw [encodeLoop]; intro h; exact h1 h
    · rw [encodeLoop]; intro h; exact h1 h
  have key : ∀ (n : Nat) (s : Str) (b : Bytes), s.length ≤ n → byteain s = some b → encodeLoop (s ++ '\\' :: t) = .error .valueError := by
    intro n
    induction n with
    | zero =>
      intro s b hs h
      have := List.length_eq_zero_iff.1 (Nat.le_zero.1 hs)
      subst this
      exact base
    | succ n ih =>
      intro s b hs h
      match s with
      | [] => exact base
      | c :: r =>
        by_cases hc : c = '\\'
        · subst hc
          match r with
          | [] => simp [byteain] at h
          | d :: r =>
            by_cases hd : d = '\\'
            · subst hd
              rw [byteain] at h
              obtain ⟨b', hb, rfl⟩ := Option.map_eq_some_iff.1 h
              simp only [List.cons_append]
              rw [encodeLoop_esc, ih r b' (by simp only [List.length_cons] at hs; omega) hb]
              rfl
            · match r with
              | [] => rw [byteain] at h <;> simp_all
              | [e] => rw [byteain] at h <;> simp_all
              | e :: f :: r =>
                rw [byteain] at h
                · simp only [Option.bind_eq_bind, Option.bind_eq_some_iff] at h
                  obtain ⟨x, hx, y, hy, z, hz, h⟩ := h
                  split at h
                  · cases h
                  · obtain ⟨b', hb, rfl⟩ := Option.map_eq_some_iff.1 h
                    obtain ⟨x1, rfl⟩ := octVal_char hx
                    obtain ⟨y1, rfl⟩ := octVal_char hy
                    obtain ⟨z1, rfl⟩ := octVal_char hz
                    simp only [List.cons_append]
                    rw [encodeLoop_oct x1 y1 z1, ih r b' (by simp only [List.length_cons] at hs; omega) hb]
                    rfl
                · exact hd
        · rw [byteain] at h
          · split at h
            · cases h
            · obtain ⟨b', hb, rfl⟩ := Option.map_eq_some_iff.1 h
              rw [List.cons_append, encodeLoop_lit hc, ih r b' (by simp only [List.length_cons] at hs; omega) hb]
              rfl
          · intro r h; exact absurd h hc
          · intro a b c r h; exact absurd h hc
  unfold encode
  rw [key s.length s b (Nat.le_refl _) hs]
  rfl

/-- C23, findings: escapes that PostgreSQL refuses but `int(.., 8)` accepts: a space or an underscore among the digits, a `0o`
prefix. -/
theorem C23_malformed_accepted :
    encode "\\12 ".toList = .ok [10] ∧ encode "\\1_2".toList = .ok [10] ∧ encode "\\0o7".toList = .ok [7] ∧
    byteain "\\12 ".toList = none ∧ byteain "\\1_2".toList = none ∧ byteain "\\0o7".toList = none := by decide +kernel

/-- Non-vacuity: text with each kind of sequence; refused text. -/
example : decode [0, 65, 92, 255] = "\\000A\\\\\\377".toList ∧ byteain "\\000A\\\\\\377".toList = some [0, 65, 92, 255] ∧
    encode "\\400".toList = .error .structError ∧ encode "\\088".toList = .error .valueError := by decide +kernel

end PG.Props.Bytea
