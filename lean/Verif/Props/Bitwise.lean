import Verif.Model.Bitwise
import Verif.Spec.Bytea
import Verif.Props.Types
/-!
# C24: bit string values
-/
namespace PG.Props.Bitwise
open PG PG.Spec PG.Spec.Format PG.Spec.Bytea PG.Bitwise PG.PyInt PG.TypesLib PG.Element3

/-- The bit of a byte. -/
def bitN (b : Bool) : Nat := if b then 1 else 0

/-- The number eight bits stand for. -/
def num8 (a b c d e f g h : Bool) : Nat :=
  bitN a * 128 + bitN b * 64 + bitN c * 32 + bitN d * 16 + bitN e * 8 + bitN f * 4 + bitN g * 2 + bitN h

theorem eight (a b c d e f g h : Bool) :
    pyInt 2 (bitText [a, b, c, d, e, f, g, h]) = .ok (num8 a b c d e f g h : Int) ∧ num8 a b c d e f g h < 256 ∧
      bin8 (UInt8.ofNat (num8 a b c d e f g h)) = bitText [a, b, c, d, e, f, g, h] := by
  revert a b c d e f g h
  decide +kernel

theorem byteOf_nat {n : Nat} (h : n < 256) : byteOf (n : Int) = .ok (UInt8.ofNat n) := by
  unfold byteOf
  rw [if_neg (by omega)]
  simp

/-- A list padded to eight. -/
def pad8 (l : List Bool) : List Bool := l ++ List.replicate (8 - l.length) false

theorem length_eight {l : List Bool} (h : l.length = 8) : ∃ a b c d e f g i, l = [a, b, c, d, e, f, g, i] := by
  match l, h with
  | [a, b, c, d, e, f, g, i], _ => exact ⟨a, b, c, d, e, f, g, i, rfl⟩

/-- The byte of at most eight bits. -/
def byte1 (l : List Bool) : UInt8 :=
  UInt8.ofNat (((List.range 8).map fun j => if l.getD j false then 2 ^ (7 - j) else 0).foldl (· + ·) 0)

theorem byte1_eight (a b c d e f g h : Bool) : byte1 [a, b, c, d, e, f, g, h] = UInt8.ofNat (num8 a b c d e f g h) := by
  revert a b c d e f g h
  decide +kernel

theorem getD_pad (l : List Bool) (j n : Nat) : (l ++ List.replicate n false).getD j false = l.getD j false := by
  simp only [List.getD_eq_getElem?_getD, List.getElem?_append]
  split
  · rfl
  · rename_i h
    rw [List.getElem?_eq_none (by omega : l.length ≤ j), List.getElem?_replicate]
    split <;> rfl

theorem byte1_pad (l : List Bool) (n : Nat) : byte1 (l ++ List.replicate n false) = byte1 l := by
  unfold byte1
  simp only [getD_pad]

theorem bitBytes_nil : bitBytes [] = [] := rfl

theorem bitBytes_step {l : List Bool} (h : l ≠ []) : bitBytes l = byte1 (l.take 8) :: bitBytes (l.drop 8) := by
  have hp : 0 < l.length := List.length_pos_iff.2 h
  unfold bitBytes
  rw [show (l.length + 7) / 8 = ((l.drop 8).length + 7) / 8 + 1 by rw [List.length_drop]; omega,
    List.range_succ_eq_map (n := ((l.drop 8).length + 7) / 8), List.map_cons, List.map_map]
  congr 1
  · unfold byte1
    congr 2
    apply List.map_congr_left
    intro j hj
    have hj : j < 8 := List.mem_range.1 hj
    simp only [List.getD_eq_getElem?_getD, List.getElem?_take, Nat.mul_zero, Nat.zero_add, hj, if_true]
  · apply List.map_congr_left
    intro k _
    simp only [Function.comp]
    congr 2
    apply List.map_congr_left
    intro j _
    simp only [List.getD_eq_getElem?_getD, List.getElem?_drop]
    rw [show 8 * (k + 1) + j = 8 + (8 * k + j) by omega]

theorem bitText_append (a b : List Bool) : bitText (a ++ b) = bitText a ++ bitText b := by simp [bitText]
theorem bitText_take (l : List Bool) (n : Nat) : bitText (l.take n) = (bitText l).take n := by simp [bitText, List.map_take]
theorem bitText_drop (l : List Bool) (n : Nat) : bitText (l.drop n) = (bitText l).drop n := by simp [bitText, List.map_drop]
theorem length_bitText (l : List Bool) : (bitText l).length = l.length := by simp [bitText]
theorem bitText_zeros (n : Nat) : bitText (List.replicate n false) = List.replicate n '0' := by simp [bitText]

theorem length_bitBytes (l : List Bool) : (bitBytes l).length = (l.length + 7) / 8 := by simp [bitBytes]

/-- A padded block is read as its byte, and the byte is printed as the block. -/
theorem block {l : List Bool} (h : l.length ≤ 8) :
    (pyInt 2 (bitText l ++ List.replicate (8 - l.length) '0') >>= byteOf) = .ok (byte1 l) ∧
      (bin8 (byte1 l)).take l.length = bitText l ∧ (l.length = 8 → bin8 (byte1 l) = bitText l) := by
  have hl : (l ++ List.replicate (8 - l.length) false).length = 8 := by simp; omega
  obtain ⟨a, b, c, d, e, f, g, i, he⟩ := length_eight hl
  obtain ⟨h1, h2, h3⟩ := eight a b c d e f g i
  rw [← byte1_eight, ← he, byte1_pad] at h3
  refine ⟨?_, ?_, ?_⟩
  · rw [← bitText_zeros, ← bitText_append, he, h1, bind_ok, byteOf_nat h2, ← byte1_eight, ← he, byte1_pad]
  · rw [h3, bitText_append, ← length_bitText l, List.take_left]
  · intro hq
    rw [h3, hq]
    simp

theorem byteLoop_bits (fuel : Nat) : ∀ l : List Bool, l.length < fuel → byteLoop fuel (bitText l) = .ok (bitBytes l) := by
  induction fuel with
  | zero => intro l h; omega
  | succ fuel ih =>
    intro l h
    rw [byteLoop]
    by_cases hl : l = []
    · subst hl; rfl
    · have hp : 0 < l.length := List.length_pos_iff.2 hl
      rw [if_neg (by intro hc; exact hl (by simpa [bitText] using hc)), bitBytes_step hl]
      have hb := (block (l := l.take 8) (by simp; omega)).1
      rw [length_bitText, ← bitText_take, ← bitText_drop]
      have he : 8 - (l.take 8).length = 8 - l.length := by rw [List.length_take]; omega
      rw [he] at hb
      obtain ⟨n, hn, hb⟩ := bind_eq_ok hb
      rw [hn, bind_ok, hb, bind_ok, ih _ (by rw [List.length_drop]; omega), bind_ok]
      rfl

/-- What the constructor makes of the bits `l`. -/
def val (l : List Bool) : Varbit := ⟨bitBytes l, l.length⟩

theorem fromBits_val (l : List Bool) : fromBits (l.length : Int) (bitBytes l) = .ok (val l) := by
  unfold fromBits
  split
  · rename_i h
    have h : l.length = 1 := by omega
    match l, h with
    | [true], _ => rfl
    | [false], _ => rfl
  · rfl

/-- C24: text made of 0 and 1 gives the value with these bits: as many as the text is long, packed as PostgreSQL packs them. -/
theorem C24_of_text (l : List Bool) :
    ∃ v, ofStr (bitText l) = .ok v ∧ v.bits = l.length ∧ v.data = bitBytes l ∧ len v = .ok l.length := by
  refine ⟨val l, ?_, rfl, rfl, ?_⟩
  · unfold ofStr
    rw [length_bitText, byteLoop_bits _ _ (Nat.lt_succ_self _), bind_ok, fromBits_val]
  · unfold len val
    rw [if_neg (by simp)]
    simp

theorem ofStr_val (l : List Bool) : ofStr (bitText l) = .ok (val l) := by
  obtain ⟨v, h, h1, h2, _⟩ := C24_of_text l
  rw [h]
  cases v
  simp only at h1 h2
  rw [h1, h2, val]

/-- The blocks but the last are full. -/
theorem print_blocks (n : Nat) : ∀ l : List Bool, l.length ≤ n → l ≠ [] → ∃ x, (bitBytes l).getLast? = some x ∧
    (bitBytes l).dropLast.flatMap bin8 ++ (bin8 x).take (if l.length % 8 ≠ 0 then l.length % 8 else 8) = bitText l := by
  induction n with
  | zero => intro l h hl; exact absurd (List.length_eq_zero_iff.1 (by omega)) hl
  | succ n ih =>
    intro l h hl
    have hp : 0 < l.length := List.length_pos_iff.2 hl
    rw [bitBytes_step hl]
    by_cases hd : l.drop 8 = []
    · have h8 : l.length ≤ 8 := List.drop_eq_nil_iff.1 hd
      rw [hd, bitBytes_nil, List.take_of_length_le h8]
      refine ⟨byte1 l, rfl, ?_⟩
      obtain ⟨_, b2, b3⟩ := block h8
      by_cases h9 : l.length = 8
      · rw [h9, b3 h9]
        have := length_bitText l
        rw [h9] at this
        simp only [List.dropLast, List.flatMap_nil, List.nil_append]
        exact List.take_of_length_le (by simp [this])
      · rw [Nat.mod_eq_of_lt (by omega), if_pos (by omega), b2]
        rfl
    · obtain ⟨x, hx, he⟩ := ih (l.drop 8) (by rw [List.length_drop]; omega) hd
      have hgt : 8 < l.length := by
        rcases Nat.lt_or_ge 8 l.length with h | h
        · exact h
        · exact absurd (List.drop_eq_nil_iff.2 h) hd
      have hne : bitBytes (l.drop 8) ≠ [] := by intro hc; rw [hc] at hx; cases hx
      have ht : (l.take 8).length = 8 := by rw [List.length_take]; omega
      refine ⟨x, by rw [List.getLast?_cons, hx]; rfl, ?_⟩
      rw [List.length_drop, show (l.length - 8) % 8 = l.length % 8 by omega] at he
      rw [List.dropLast_cons_of_ne_nil hne, List.flatMap_cons, List.append_assoc, he,
        (block (l := l.take 8) (by omega)).2.2 ht, ← bitText_append, List.take_append_drop]

theorem last_bits (n : Nat) : (if (n : Int) % 8 ≠ 0 then ((n : Int) % 8).toNat else 8) = if n % 8 ≠ 0 then n % 8 else 8 := by
  by_cases hm : n % 8 ≠ 0
  · rw [if_pos hm, if_pos (by omega)]; omega
  · rw [if_neg hm, if_neg (by omega)]

theorem str_val (l : List Bool) : str (val l) = .ok (bitText l) := by
  unfold str
  by_cases h1 : l.length = 1
  · match l, h1 with
    | [true], _ => rfl
    | [false], _ => rfl
  · rw [if_neg (by simp only [val]; omega)]
    by_cases h0 : l = []
    · subst h0; rfl
    · have hp : 0 < l.length := List.length_pos_iff.2 h0
      rw [if_pos (by simp only [val]; omega)]
      obtain ⟨x, hx, he⟩ := print_blocks _ l (Nat.le_refl _) h0
      simp only [val, hx]
      rw [← he]
      congr 3
      exact last_bits _

/-- C24: printing what was made from the text gives the text. -/
theorem C24_text_round_trip (l : List Bool) : (ofStr (bitText l) >>= str) = .ok (bitText l) := by
  rw [ofStr_val, bind_ok, str_val]

/-- C24: the values made from two texts are concatenated like the texts, and their lengths add up. -/
theorem C24_concat (l r : List Bool) : ∃ a b c, ofStr (bitText l) = .ok a ∧ ofStr (bitText r) = .ok b ∧ add a b = .ok c ∧
    ofStr (bitText (l ++ r)) = .ok c ∧ str c = .ok (bitText l ++ bitText r) ∧ len c = .ok (l.length + r.length) := by
  refine ⟨_, _, val (l ++ r), ofStr_val l, ofStr_val r, ?_, ofStr_val _, ?_, ?_⟩
  · unfold add
    rw [str_val, str_val, bind_ok, bind_ok, ← bitText_append, ofStr_val]
  · rw [str_val, bitText_append]
  · unfold len val
    rw [if_neg (by simp only [List.length_append]; omega)]
    simp only [List.length_append]
    rfl

/-- C24: repetition is that of the text (an integer below one gives the empty bit string). -/
theorem C24_repeat (l : List Bool) (n : Int) : ∃ a c, ofStr (bitText l) = .ok a ∧ mul a n = .ok c ∧
    str c = .ok (bitText (List.replicate n.toNat l).flatten) ∧ len c = .ok (n.toNat * l.length) := by
  refine ⟨_, val (List.replicate n.toNat l).flatten, ofStr_val l, ?_, str_val _, ?_⟩
  · unfold mul
    rw [str_val, bind_ok, ← ofStr_val]
    congr 1
    simp [bitText, List.map_flatten]
  · unfold len val
    have : (List.replicate n.toNat l).flatten.length = n.toNat * l.length := by simp
    rw [if_neg (by simp only []; omega)]
    simp only [this]
    rfl

/-- C24: different texts give different values. -/
theorem C24_injective (l r : List Bool) (h : ofStr (bitText l) = ofStr (bitText r)) : l = r := by
  rw [ofStr_val, ofStr_val] at h
  have h := congrArg (fun x => x >>= str) h
  simp only [bind_ok, str_val] at h
  have h := Except.ok.inj h
  refine (List.map_inj_right ?_).1 h
  intro a b
  cases a <;> cases b <;> simp

/-- The bits of bytes. -/
def bitsOf (d : Bytes) : List Bool := d.flatMap fun x => (List.range 8).map fun j => x.toNat.testBit (7 - j)

theorem bits_byte (x : UInt8) : byte1 ((List.range 8).map fun j => x.toNat.testBit (7 - j)) = x := by
  have : ∀ n < 256, byte1 ((List.range 8).map fun j => n.testBit (7 - j)) = UInt8.ofNat n := by decide +kernel
  rw [this _ x.toNat_lt]
  simp

theorem bitBytes_bitsOf (d : Bytes) : bitBytes (bitsOf d) = d := by
  induction d with
  | nil => rfl
  | cons x d ih =>
    have hne : bitsOf (x :: d) ≠ [] := by simp [bitsOf]
    have hc : bitsOf (x :: d) = ((List.range 8).map fun j => x.toNat.testBit (7 - j)) ++ bitsOf d := rfl
    have hl : ((List.range 8).map fun j => x.toNat.testBit (7 - j)).length = 8 := by simp
    rw [bitBytes_step hne, hc, List.take_left' hl, List.drop_left' hl, ih, bits_byte]

theorem length_bitsOf (d : Bytes) : (bitsOf d).length = d.length * 8 := by
  induction d with
  | nil => rfl
  | cons x d ih => simp only [bitsOf, List.flatMap_cons, List.length_append, List.length_map, List.length_range, List.length_cons] at ih ⊢; omega

/-- C24: a value made from bytes has eight bits for each of them, and prints each as its binary digits, highest first. -/
theorem C24_of_bytes (d : Bytes) : ∃ v, ofBytes d = .ok v ∧ v.data = d ∧ len v = .ok (d.length * 8) ∧
    str v = .ok (bitText (d.flatMap fun x => (List.range 8).map fun j => x.toNat.testBit (7 - j))) := by
  refine ⟨val (bitsOf d), ?_, bitBytes_bitsOf d, ?_, str_val _⟩
  · unfold ofBytes
    rw [← fromBits_val, bitBytes_bitsOf, length_bitsOf]
    simp
  · unfold len val
    rw [if_neg (by simp only []; omega)]
    simp only [length_bitsOf]
    rfl

/-- C24: on the wire, a bit string is its number of bits and its packed bytes, and reading that gives the value back. -/
theorem C24_wire (l : List Bool) (h : l.length < 2 ^ 31) : ∃ v, ofStr (bitText l) = .ok v ∧
    ioPack v = .ok (digits 4 l.length ++ bitBytes l) ∧ ioUnpack (digits 4 l.length ++ bitBytes l) = .ok v := by
  obtain ⟨hp, hu⟩ := Props.Types.C18_varbit l.length (bitBytes l) h
  refine ⟨_, ofStr_val l, hp, ?_⟩
  unfold ioUnpack
  rw [hu, bind_ok]
  exact fromBits_val l

/-- C24: values with the same number of bits, one or not, compare equal exactly if their texts are equal. -/
theorem C24_eq_same_kind (l r : List Bool) (h : l.length = 1 ↔ r.length = 1) : ∃ a b, ofStr (bitText l) = .ok a ∧
    ofStr (bitText r) = .ok b ∧ eq a b = .ok (decide (l = r)) := by
  refine ⟨_, _, ofStr_val l, ofStr_val r, ?_⟩
  unfold eq
  rw [if_neg (by simp only [val]; omega)]
  congr 1
  rw [decide_eq_decide]
  constructor
  · intro hv
    apply C24_injective
    rw [ofStr_val, ofStr_val]
    have : val l = val r := by
      have h1 : (val l).bits = (val r).bits := hv.1
      have h2 : (val l).data = (val r).data := hv.2
      cases hl : val l
      cases hr : val r
      rw [hl, hr] at h1 h2
      simp only at h1 h2
      rw [h1, h2]
    rw [this]
  · intro hv
    subst hv
    exact ⟨rfl, rfl⟩

/-- Finding: comparing a bit string of one bit with one of any other length raises ValueError instead of answering no. -/
theorem C24_eq_single_raises (b : Bool) (l : List Bool) (h : l.length ≠ 1) : ∃ a c, ofStr (bitText [b]) = .ok a ∧
    ofStr (bitText l) = .ok c ∧ eq a c = .error .valueError ∧ eq c a = .error .valueError := by
  refine ⟨_, _, ofStr_val [b], ofStr_val l, ?_, ?_⟩
  · unfold eq
    rw [if_pos (Or.inl ⟨rfl, by simp only [val]; omega⟩)]
  · unfold eq
    rw [if_pos (Or.inr ⟨by simp only [val]; omega, rfl⟩)]

/-- Finding: no bit can be read by its index; inside the bit string TypeError is raised, outside IndexError. -/
theorem C24_getbit_never (l : List Bool) (i : Int) : ∃ v, ofStr (bitText l) = .ok v ∧
    getbit v i = .error (if -(l.length : Int) ≤ i ∧ i < l.length then .typeError else .indexError) := by
  refine ⟨_, ofStr_val l, ?_⟩
  have hb : (bitBytes l).length = (l.length + 7) / 8 := length_bitBytes l
  unfold getbit
  simp only [val, hb]
  by_cases hi : -(l.length : Int) ≤ i ∧ i < l.length
  · rw [if_pos hi]
    by_cases hn : i < 0
    · rw [if_pos hn, if_neg (by omega), if_neg (by omega)]
    · rw [if_neg hn, if_neg (by omega), if_neg (by omega)]
  · rw [if_neg hi]
    by_cases hn : i < 0
    · rw [if_pos hn, if_pos (by omega)]
    · rw [if_neg hn, if_pos (by omega)]

/-- A concrete case: ten bits, two bytes. -/
example : ofStr ("0010110011".toList) = .ok ⟨[44, 192], 10⟩ ∧ str ⟨[44, 192], 10⟩ = .ok "0010110011".toList ∧
    bitText [false, false, true, false, true, true, false, false, true, true] = "0010110011".toList := by decide +kernel

end PG.Props.Bitwise
