import Verif.Model.OptStruct
import Verif.Props.OptElement3
/-!
# C97: integers packed and unpacked in C

`short_pack`, `long_unpack` and so on of `python/structlib.py`, when they are functions of `port/_optimized/structlib.c`, against the same names made with `struct.Struct`
(`Model/Struct`), on hosts of both byte orders and with a `long` of four or eight bytes.
-/
namespace PG.Props.OptStruct
open PG PG.OptBuffer PG.OptStruct PG.Props.OptElement3

/-- A host Python runs on. -/
def Real (h : Host) : Prop := h.long = 4 ∨ h.long = 8

theorem swap_reverse (b : Bytes) (h : b.length = 2 ∨ b.length = 4 ∨ b.length = 8) : swap b = b.reverse := by
  match b, h with
  | [], h => rcases h with h | h | h <;> cases h
  | [_], h => rcases h with h | h | h <;> cases h
  | [_, _], _ => rfl
  | [_, _, _], h => rcases h with h | h | h <;> cases h
  | [_, _, _, _], _ => rfl
  | [_, _, _, _, _], h => rcases h with h | h | h <;> cases h
  | [_, _, _, _, _, _], h => rcases h with h | h | h <;> cases h
  | [_, _, _, _, _, _, _], h => rcases h with h | h | h <;> cases h
  | [_, _, _, _, _, _, _, _], _ => rfl
  | _ :: _ :: _ :: _ :: _ :: _ :: _ :: _ :: _ :: _, h =>
    simp only [List.length_cons] at h
    omega

/-- What is written is in network order on every host. -/
theorem store_network (h : Host) (k : Nat) (n : Int) (hk : k = 2 ∨ k = 4 ∨ k = 8) :
    (if h.little then swap (store h k n) else store h k n) = beEnc k (n % (256 ^ k : Int)).toNat := by
  unfold store
  cases h.little with
  | false => rfl
  | true =>
    rw [if_pos rfl, if_pos rfl, swap_reverse _ (by rw [List.length_reverse, beEnc_length]; exact hk), List.reverse_reverse]

theorem load_network (h : Host) (k : Nat) (b : Bytes) (hk : k = 2 ∨ k = 4 ∨ k = 8) (hb : ¬ b.length < k) :
    load h (if h.little then swap (b.take k) else b.take k) = beDec (b.take k) := by
  unfold load
  cases h.little with
  | false => rfl
  | true =>
    rw [if_pos rfl, if_pos rfl, swap_reverse _ (by rw [List.length_take]; omega), List.reverse_reverse]

/-- Both give the same bytes, or C raises OverflowError where `struct` raises its own exception. -/
def SamePack (c : Except CErr Bytes) (p : Except Err Bytes) : Prop :=
  (∃ b, c = .ok b ∧ p = .ok b) ∨ (c = .error .overflow ∧ p = .error .structError)

/-- Both give the same number, or C raises ValueError where `struct` raises its own exception. -/
def SameUnpack (c : Except CErr Int) (p : Except Err Int) : Prop :=
  (∃ n, c = .ok n ∧ p = .ok n) ∨ (c = .error .value ∧ p = .error .structError)

/-- **C97** `short_pack`. -/
theorem C97_short_pack (h : Host) (hh : Real h) (n : Int) : SamePack (OptStruct.shortPack h n) (PG.shortPack n) := by
  unfold OptStruct.shortPack int2Pack PG.shortPack packS asSigned
  have e2 : (256 : Int) ^ 2 = 65536 := by decide
  have hl : (256 : Int) ^ h.long ≥ 4294967296 := by rcases hh with e | e <;> rw [e] <;> decide
  by_cases hn : -32768 ≤ n ∧ n ≤ 32767
  · rw [if_pos ⟨by omega, by omega⟩, if_pos (by rw [e2]; omega)]
    show SamePack (if n > 32767 ∨ n < -32768 then _ else _) _
    rw [if_neg (by omega)]
    exact .inl ⟨_, congrArg Except.ok (store_network h 2 n (.inl rfl)), rfl⟩
  · refine .inr ⟨?_, if_neg (by rw [e2]; omega)⟩
    split
    · show (if n > 32767 ∨ n < -32768 then _ else _) = _
      rw [if_pos (by omega)]
    · rfl

/-- **C97** `long_pack`. -/
theorem C97_long_pack (h : Host) (hh : Real h) (n : Int) : SamePack (OptStruct.longPack h n) (PG.longPack n) := by
  unfold OptStruct.longPack int4Pack PG.longPack packS asSigned
  have e2 : (256 : Int) ^ 4 = 4294967296 := by decide
  have hl : (256 : Int) ^ h.long ≥ 4294967296 := by rcases hh with e | e <;> rw [e] <;> decide
  by_cases hn : -2147483648 ≤ n ∧ n ≤ 2147483647
  · rw [if_pos ⟨by omega, by omega⟩, if_pos (by rw [e2]; omega)]
    show SamePack (if ¬ (n ≤ 0x7FFFFFFF ∧ n ≥ -0x80000000) then _ else _) _
    rw [if_neg (by omega)]
    exact .inl ⟨_, congrArg Except.ok (store_network h 4 n (.inr (.inl rfl))), rfl⟩
  · refine .inr ⟨?_, if_neg (by rw [e2]; omega)⟩
    split
    · show (if ¬ (n ≤ 0x7FFFFFFF ∧ n ≥ -0x80000000) then _ else _) = _
      rw [if_pos (by omega)]
    · rfl

theorem mod_nat {n m : Int} (h1 : 0 ≤ n) (h2 : n < m) : n % m = n := Int.emod_eq_of_lt h1 h2

/-- **C97** `ushort_pack`. -/
theorem C97_ushort_pack (h : Host) (hh : Real h) (n : Int) : SamePack (OptStruct.ushortPack h n) (PG.ushortPack n) := by
  unfold OptStruct.ushortPack uint2Pack PG.ushortPack packU asSigned
  have e2 : (256 : Int) ^ 2 = 65536 := by decide
  have hl : (256 : Int) ^ h.long ≥ 4294967296 := by rcases hh with e | e <;> rw [e] <;> decide
  by_cases hn : 0 ≤ n ∧ n ≤ 65535
  · rw [if_pos ⟨by omega, by omega⟩, if_pos (by rw [e2]; omega)]
    show SamePack (if n > 65535 ∨ n < 0 then _ else _) _
    rw [if_neg (by omega)]
    refine .inl ⟨_, congrArg Except.ok (store_network h 2 n (.inl rfl)), ?_⟩
    rw [e2, mod_nat (by omega) (by omega)]
  · refine .inr ⟨?_, if_neg (by rw [e2]; omega)⟩
    split
    · show (if n > 65535 ∨ n < 0 then _ else _) = _
      rw [if_pos (by omega)]
    · rfl

/-- **C97** `ulong_pack`. -/
theorem C97_ulong_pack (h : Host) (hh : Real h) (n : Int) : SamePack (OptStruct.ulongPack h n) (PG.ulongPack n) := by
  unfold OptStruct.ulongPack uint4Pack PG.ulongPack packU asUnsigned
  have e2 : (256 : Int) ^ 4 = 4294967296 := by decide
  have hl : (256 : Int) ^ h.long ≥ 4294967296 := by rcases hh with e | e <;> rw [e] <;> decide
  by_cases hn : 0 ≤ n ∧ n ≤ 4294967295
  · rw [if_pos ⟨by omega, by omega⟩, if_pos (by rw [e2]; omega)]
    show SamePack (if n > 0xFFFFFFFF then _ else _) _
    rw [if_neg (by omega)]
    refine .inl ⟨_, congrArg Except.ok (store_network h 4 n (.inr (.inl rfl))), ?_⟩
    rw [e2, mod_nat (by omega) (by omega)]
  · refine .inr ⟨?_, if_neg (by rw [e2]; omega)⟩
    split
    · show (if n > 0xFFFFFFFF then _ else _) = _
      rw [if_pos (by omega)]
    · rfl

/-- **C97** `longlong_pack`. -/
theorem C97_longlong_pack (h : Host) (n : Int) : SamePack (longlongPack h n) (packS 8 n) := by
  unfold longlongPack int8Pack packS asSigned
  split
  · exact .inl ⟨_, congrArg Except.ok (store_network h 8 n (.inr (.inr rfl))), rfl⟩
  · exact .inr ⟨rfl, rfl⟩

/-- **C97** `ulonglong_pack`. -/
theorem C97_ulonglong_pack (h : Host) (n : Int) : SamePack (ulonglongPack h n) (packU 8 n) := by
  unfold ulonglongPack uint8Pack packU asUnsigned
  split
  · rename_i hn
    refine .inl ⟨_, congrArg Except.ok (store_network h 8 n (.inr (.inr rfl))), ?_⟩
    rw [mod_nat hn.1 hn.2]
  · exact .inr ⟨rfl, rfl⟩

/-- **C97** the signed unpack functions, of 2, 4 and 8 bytes; what follows the number is ignored by both. -/
theorem C97_unpack_signed (h : Host) (k : Nat) (hk : k = 2 ∨ k = 4 ∨ k = 8) (b : Bytes) : SameUnpack (OptStruct.unpackS h k b) (unpackFromS k b) := by
  unfold OptStruct.unpackS intUnpack unpackFromS
  by_cases hb : b.length < k
  · rw [if_pos hb, if_pos hb]; exact .inr ⟨rfl, rfl⟩
  · rw [if_neg hb, if_neg hb, load_network h k b hk hb]; exact .inl ⟨_, rfl, rfl⟩

/-- **C97** the unsigned ones. -/
theorem C97_unpack_unsigned (h : Host) (k : Nat) (hk : k = 2 ∨ k = 4 ∨ k = 8) (b : Bytes) : SameUnpack (OptStruct.unpackU h k b) (unpackFromU k b) := by
  unfold OptStruct.unpackU uintUnpack unpackFromU
  by_cases hb : b.length < k
  · rw [if_pos hb, if_pos hb]; exact .inr ⟨rfl, rfl⟩
  · rw [if_neg hb, if_neg hb, load_network h k b hk hb]; exact .inl ⟨_, rfl, rfl⟩

/-- **C97** so what is packed on one host is unpacked to the same number on any other. -/
theorem C97_round_trip (h h' : Host) (hh : Real h) (n : Int) (b rest : Bytes) (e : OptStruct.longPack h n = .ok b) :
    OptStruct.unpackS h' 4 (b ++ rest) = .ok n := by
  have hp : PG.longPack n = .ok b := by
    rcases C97_long_pack h hh n with ⟨b', h1, h2⟩ | ⟨h1, _⟩
    · rw [e] at h1; cases h1; exact h2
    · rw [e] at h1; cases h1
  have hu := unpackFromS_packS hp
  have hlen : b.length = 4 := by
    unfold PG.longPack packS at hp
    split at hp
    · cases hp; exact beEnc_length _ _
    · cases hp
  rcases C97_unpack_signed h' 4 (.inr (.inl rfl)) (b ++ rest) with ⟨m, h1, h2⟩ | ⟨_, h2⟩
  · rw [h1]
    unfold unpackFromS at hu h2
    rw [if_neg (by omega)] at hu
    rw [if_neg (by rw [List.length_append]; omega), List.take_append_of_le_length (by omega)] at h2
    rw [hu] at h2
    cases h2
    rfl
  · unfold unpackFromS at h2
    rw [if_neg (by rw [List.length_append]; omega)] at h2
    cases h2

/-- Non-vacuity: a little-endian host and a big-endian one. -/
example : Real ⟨true, 8⟩ ∧ Real ⟨false, 4⟩ ∧ OptStruct.longPack ⟨true, 8⟩ (-2) = .ok [255, 255, 255, 254] ∧ OptStruct.longPack ⟨false, 4⟩ (-2) = .ok [255, 255, 255, 254] ∧
    OptStruct.shortPack ⟨true, 8⟩ 32768 = .error .overflow ∧ OptStruct.ulongPack ⟨true, 4⟩ (-1) = .error .overflow ∧
    OptStruct.unpackS ⟨true, 8⟩ 8 [255, 255, 255, 255, 255, 255, 255, 0, 9] = .ok (-256) ∧ OptStruct.unpackU ⟨true, 8⟩ 2 [1] = .error .value := by
  refine ⟨.inr rfl, .inl rfl, by decide +kernel, by decide +kernel, by decide +kernel, by decide +kernel, by decide +kernel, by decide +kernel⟩

end PG.Props.OptStruct
