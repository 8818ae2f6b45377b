import Verif.Proofs.TypesLib3
/-!
# C18 (fixed-width values) and C20 (records and arrays)
-/
namespace PG.Props.Types
open PG PG.Spec PG.Spec.Format PG.Spec.Types PG.Element3 PG.TypesLib

/-! ## C18 -/

/-- C18: `bool` values round trip and nothing else is unpacked as one. -/
theorem C18_bool (x : Bool) (b : Bytes) :
    boolUnpack (boolPack x) = .ok x ∧ (boolUnpack b = .ok x → b = boolPack x) := by
  refine ⟨by cases x <;> rfl, ?_⟩
  intro h
  unfold boolUnpack at h
  split at h
  · cases x <;> simp_all [boolPack]
  · split at h
    · cases x <;> simp_all [boolPack]
    · cases h

theorem inS_iff (k : Nat) (n : Int) : InS k n ↔ -(256 ^ k : Int) ≤ 2 * n ∧ 2 * n < 256 ^ k := Iff.rfl

theorem signed (k : Nat) (n : Int) :
    (InS k n → packS k n = .ok (digits k n) ∧ unpackFromS k (digits k n) = .ok n) ∧ (¬ InS k n → packS k n = .error .structError) := by
  refine ⟨fun h => ⟨packS_digits h, ?_⟩, packS_error⟩
  have := unpackFromS_digits h []
  rw [List.append_nil] at this
  exact this

/-- C18: `int2`: in range, two bytes in network order are sent and read back; out of range, an error. -/
theorem C18_int2 (n : Int) :
    (-2 ^ 15 ≤ n ∧ n < 2 ^ 15 → int2Pack n = .ok (digits 2 n) ∧ int2Unpack (digits 2 n) = .ok n) ∧
    (¬ (-2 ^ 15 ≤ n ∧ n < 2 ^ 15) → int2Pack n = .error .structError) := by
  have e : InS 2 n ↔ -2 ^ 15 ≤ n ∧ n < 2 ^ 15 := by
    rw [inS_iff, show (256 : Int) ^ 2 = 65536 by decide, show (-2 ^ 15 : Int) = -32768 by decide, show (2 ^ 15 : Int) = 32768 by decide]
    omega
  rw [← e]; exact signed 2 n

/-- C18: `int4`. -/
theorem C18_int4 (n : Int) :
    (-2 ^ 31 ≤ n ∧ n < 2 ^ 31 → int4Pack n = .ok (digits 4 n) ∧ int4Unpack (digits 4 n) = .ok n) ∧
    (¬ (-2 ^ 31 ≤ n ∧ n < 2 ^ 31) → int4Pack n = .error .structError) := by
  rw [← inS4_iff]; exact signed 4 n

/-- C18: `int8`. -/
theorem C18_int8 (n : Int) :
    (-2 ^ 63 ≤ n ∧ n < 2 ^ 63 → int8Pack n = .ok (digits 8 n) ∧ int8Unpack (digits 8 n) = .ok n) ∧
    (¬ (-2 ^ 63 ≤ n ∧ n < 2 ^ 63) → int8Pack n = .error .structError) := by
  have e : InS 8 n ↔ -2 ^ 63 ≤ n ∧ n < 2 ^ 63 := by
    rw [inS_iff, show (256 : Int) ^ 8 = 18446744073709551616 by decide, show (-2 ^ 63 : Int) = -9223372036854775808 by decide, show (2 ^ 63 : Int) = 9223372036854775808 by decide]
    omega
  rw [← e]; exact signed 8 n

/-- C18: `oid` (also `xid`, `cid`). -/
theorem C18_oid (n : Int) :
    (0 ≤ n ∧ n < 2 ^ 32 → oidPack n = .ok (digits 4 n) ∧ oidUnpack (digits 4 n) = .ok n) ∧
    (¬ (0 ≤ n ∧ n < 2 ^ 32) → oidPack n = .error .structError) := by
  rw [← inU4_iff]
  refine ⟨fun h => ⟨packU_digits h, ?_⟩, packU_error⟩
  have := unpackFromU_digits h []
  rw [List.append_nil] at this
  exact this

/-- C18: `tid`: block and offset. -/
theorem C18_tid (block offset : Int) :
    (0 ≤ block ∧ block < 2 ^ 32 ∧ 0 ≤ offset ∧ offset < 2 ^ 16 →
      tidPack (block, offset) = .ok (digits 4 block ++ digits 2 offset) ∧
      tidUnpack (digits 4 block ++ digits 2 offset) = .ok (block, offset)) ∧
    (¬ (0 ≤ block ∧ block < 2 ^ 32 ∧ 0 ≤ offset ∧ offset < 2 ^ 16) → tidPack (block, offset) = .error .structError) := by
  have e2 : InU 2 offset ↔ 0 ≤ offset ∧ offset < 2 ^ 16 := by
    unfold InU; rw [show (256 : Int) ^ 2 = 2 ^ 16 by decide]
  constructor
  · rintro ⟨h1, h2, h3, h4⟩
    have u1 := (inU4_iff block).mpr ⟨h1, h2⟩
    have u2 := e2.mpr ⟨h3, h4⟩
    refine ⟨by simp only [tidPack, packU_digits u1, packU_digits u2, bind_ok, pure_ok], ?_⟩
    unfold tidUnpack
    have L4 : (digits 4 block).length = 4 := length_digits ..
    have L2 : (digits 2 offset).length = 2 := length_digits ..
    rw [if_neg (by simp only [List.length_append, L4, L2]; omega), List.take_left' L4, List.drop_left' L4,
      List.take_of_length_le (by omega), beDec_packU (packU_digits u1), beDec_packU (packU_digits u2)]
  · intro h
    simp only [tidPack]
    by_cases u1 : InU 4 block
    · have u2 : ¬ InU 2 offset := fun u2 => h ⟨((inU4_iff _).mp u1).1, ((inU4_iff _).mp u1).2, (e2.mp u2).1, (e2.mp u2).2⟩
      rw [packU_digits u1, packU_error u2]; rfl
    · rw [packU_error u1]; rfl

/-- C18: points, segments, circles: the floats come back bit for bit. -/
theorem C18_geometry (x y z w : Dbl) :
    pointUnpack (pointPack (x, y)) = .ok (x, y) ∧
    lsegUnpack (lsegPack ((x, y), (z, w))) = .ok ((x, y), (z, w)) ∧
    circleUnpack (circlePack ((x, y), z)) = .ok ((x, y), z) := by
  refine ⟨?_, ?_, ?_⟩
  · have := dblsUnpack_pack [x, y]
    simp only [pointUnpack, pointPack]
    rw [show (2 : Nat) = [x, y].length from rfl, this]; rfl
  · have := dblsUnpack_pack [x, y, z, w]
    simp only [lsegUnpack, lsegPack]
    rw [show (4 : Nat) = [x, y, z, w].length from rfl, this]; rfl
  · have := dblsUnpack_pack [x, y, z]
    simp only [circleUnpack, circlePack]
    rw [show (3 : Nat) = [x, y, z].length from rfl, this]; rfl

/-- C18: bit strings: the number of bits and the data come back. -/
theorem C18_varbit (bits : Nat) (data : Bytes) (h : bits < 2 ^ 31) :
    varbitPack (bits, data) = .ok (digits 4 bits ++ data) ∧ varbitUnpack (digits 4 bits ++ data) = .ok ((bits : Int), data) := by
  have hS := inS4_nat h
  have L4 : (digits 4 (bits : Int)).length = 4 := length_digits ..
  constructor
  · simp only [varbitPack, longPack, packS_digits hS, bind_ok, pure_ok]
  · have hu : longUnpack (digits 4 (bits : Int)) = .ok (bits : Int) := by
      have := unpackFromS_digits hS []
      rw [List.append_nil] at this
      exact this
    simp only [varbitUnpack, List.take_left' L4, List.drop_left' L4, hu, bind_ok, pure_ok]

theorem netPack_ok (v : Nat) (f : Nat) (hv : v = 4 ∧ f = 2 ∨ v = 6 ∧ f = 3) (mask : Option Nat) (hm : mask.getD 0 < 256) (data : Bytes) (hd : data.length < 256) :
    netPack v (mask.map Int.ofNat) data = .ok (UInt8.ofNat f :: UInt8.ofNat (mask.getD 0) :: (if mask.isNone then 0 else 1) :: UInt8.ofNat data.length :: data) := by
  have hb := bytesOf_ok [f, mask.getD 0, if mask.isNone then 0 else 1, data.length] (by
    intro x hx
    simp only [List.mem_cons, List.not_mem_nil, or_false] at hx
    rcases hx with rfl | rfl | rfl | rfl
    · rcases hv with ⟨-, rfl⟩ | ⟨-, rfl⟩ <;> omega
    · exact hm
    · split <;> omega
    · exact hd)
  cases mask with
  | none =>
    rcases hv with ⟨rfl, rfl⟩ | ⟨rfl, rfl⟩ <;>
    · simp only [List.map_cons, List.map_nil] at hb
      simp only [netPack, Option.map_none, Option.getD_none, Option.isNone_none, if_true, pure_ok, bind_ok] at hb ⊢
      erw [hb]
      simp
  | some m =>
    rcases hv with ⟨rfl, rfl⟩ | ⟨rfl, rfl⟩ <;>
    · simp only [List.map_cons, List.map_nil] at hb
      simp only [netPack, Option.map_some, Option.getD_some, Option.isNone_some, pure_ok, bind_ok] at hb ⊢
      erw [hb]
      simp

/-- C18: the library's functions for network addresses: version, mask and bytes come back (no mask as 0). -/
theorem C18_net (v : Nat) (hv : v = 4 ∨ v = 6) (mask : Option Nat) (hm : mask.getD 0 < 256) (data : Bytes) (hd : data.length < 256) :
    ∃ b, netPack v (mask.map Int.ofNat) data = .ok b ∧ netUnpack b = .ok (v, mask.getD 0, data) := by
  have e : (UInt8.ofNat (mask.getD 0)).toNat = mask.getD 0 := by rw [UInt8.toNat_ofNat', Nat.mod_eq_of_lt (by omega)]
  rcases hv with rfl | rfl
  · refine ⟨_, netPack_ok 4 2 (.inl ⟨rfl, rfl⟩) mask hm data hd, ?_⟩
    unfold netUnpack
    rw [← e]
    simp
  · refine ⟨_, netPack_ok 6 3 (.inr ⟨rfl, rfl⟩) mask hm data hd, ?_⟩
    unfold netUnpack
    rw [← e]
    simp

example : netPack 6 (some 64) [1, 2] = .ok [3, 64, 1, 2, 1, 2] ∧ netUnpack [3, 64, 1, 2, 1, 2] = .ok (6, 64, [1, 2]) := by decide

/-- C18: `inet` addresses of both versions come back. -/
theorem C18_inet (a : IPAddress) (h : AddressOk a) : ∃ b, inetPack a = .ok b ∧ inetUnpack b = .ok a := by
  have hp := ipAddress_packed a h
  rcases h with ⟨hv, -⟩ | ⟨hv, -⟩
  · have hl : a.packed.length = 4 := by rw [packed_length, hv]; rfl
    have := netPack_ok a.version 2 (.inl ⟨hv, rfl⟩) none (by decide) a.packed (by omega)
    refine ⟨_, this, ?_⟩
    simp [inetUnpack, netUnpack, hp]
  · have hl : a.packed.length = 16 := by rw [packed_length, hv]; rfl
    have := netPack_ok a.version 3 (.inr ⟨hv, rfl⟩) none (by decide) a.packed (by omega)
    refine ⟨_, this, ?_⟩
    simp [inetUnpack, netUnpack, hp]

/-- C18, a finding about `inet`: the prefix length sent for an address is 0, although an address without a prefix has full
length (32 for version 4), so the server is told "a.b.c.d/0". -/
theorem C18_inet_prefix_is_zero (a : IPAddress) (h : AddressOk a) : ∃ f r, inetPack a = .ok (f :: 0 :: 0 :: r) := by
  rcases h with ⟨hv, -⟩ | ⟨hv, -⟩
  · have hl : a.packed.length = 4 := by rw [packed_length, hv]; rfl
    exact ⟨_, _, netPack_ok a.version 2 (.inl ⟨hv, rfl⟩) none (by decide) a.packed (by omega)⟩
  · have hl : a.packed.length = 16 := by rw [packed_length, hv]; rfl
    exact ⟨_, _, netPack_ok a.version 3 (.inr ⟨hv, rfl⟩) none (by decide) a.packed (by omega)⟩

theorem supernet_id (a : IPAddress) (m : Nat) (h1 : m ≤ bitsOf a.version) (h2 : a.num % 2 ^ (bitsOf a.version - m) = 0) :
    supernet a m = .ok ⟨a, m⟩ := by
  unfold supernet
  rw [if_neg (by omega)]
  dsimp only
  rw [Nat.div_mul_cancel (Nat.dvd_of_mod_eq_zero h2)]

/-- C18: `cidr` networks come back with their prefix length, which is sent. -/
theorem C18_cidr (n : IPNetwork) (h : NetworkOk n) :
    ∃ f r, cidrPack n = .ok (f :: UInt8.ofNat n.prefixlen :: 1 :: r) ∧ cidrUnpack (f :: UInt8.ofNat n.prefixlen :: 1 :: r) = .ok n := by
  obtain ⟨ha, h⟩ := h
  have hp := ipAddress_packed n.addr ha
  rcases h with ⟨hv, h1, h2⟩ | ⟨hv, h1, h2⟩
  · have hl : n.addr.packed.length = 4 := by rw [packed_length, hv]; rfl
    have := netPack_ok n.addr.version 2 (.inl ⟨hv, rfl⟩) (some n.prefixlen) (by simp; omega) n.addr.packed (by omega)
    refine ⟨_, _, this, ?_⟩
    have hs := supernet_id n.addr n.prefixlen (by rw [hv]; exact h1) (by rw [hv]; exact h2)
    have hm : n.prefixlen % 256 = n.prefixlen := by omega
    simp [cidrUnpack, netUnpack, hp, hm, hs]
  · have hl : n.addr.packed.length = 16 := by rw [packed_length, hv]; rfl
    have := netPack_ok n.addr.version 3 (.inr ⟨hv, rfl⟩) (some n.prefixlen) (by simp; omega) n.addr.packed (by omega)
    refine ⟨_, _, this, ?_⟩
    have hs := supernet_id n.addr n.prefixlen (by rw [hv]; exact h1) (by rw [hv]; exact h2)
    have hm : n.prefixlen % 256 = n.prefixlen := by omega
    simp [cidrUnpack, netUnpack, hp, hm, hs]

example : NetworkOk ⟨⟨4, 10 * 2 ^ 24⟩, 8⟩ ∧ cidrPack ⟨⟨4, 10 * 2 ^ 24⟩, 8⟩ = .ok [2, 8, 1, 4, 10, 0, 0, 0] := by
  refine ⟨⟨Or.inl ⟨rfl, by decide⟩, Or.inl ⟨rfl, by decide, by decide⟩⟩, by decide⟩

theorem hexBytes_length (l : List Str) (b : Bytes) (h : HexBytes l b) : l.length = b.length := by
  induction l generalizing b with
  | nil => cases b with
    | nil => rfl
    | cons => exact h.elim
  | cons p l ih => cases b with
    | nil => exact h.elim
    | cons c b => simp [ih b h.2]

/-- C18: MAC addresses in each of the six accepted spellings, in either case, are the six bytes. -/
theorem C18_macaddr_formats (p q r s t u : Str) (b : Bytes) (h : HexBytes [p, q, r, s, t, u] b) (text : Str)
    (ht : text = p ++ [':'] ++ q ++ [':'] ++ r ++ [':'] ++ s ++ [':'] ++ t ++ [':'] ++ u ∨
      text = p ++ ['-'] ++ q ++ ['-'] ++ r ++ ['-'] ++ s ++ ['-'] ++ t ++ ['-'] ++ u ∨
      text = p ++ q ++ r ++ [':'] ++ s ++ t ++ u ∨ text = p ++ q ++ r ++ ['-'] ++ s ++ t ++ u ∨
      text = p ++ q ++ ['.'] ++ r ++ s ++ ['.'] ++ t ++ u ∨ text = p ++ q ++ r ++ s ++ t ++ u) :
    macPack text = .ok b := by
  have key : ∀ t', macParts t' = some [p, q, r, s, t, u] → macPack t' = .ok b := by
    intro t' e
    unfold macPack
    rw [e]
    exact pack_hex _ _ h
  apply key
  obtain ⟨b1, b2, b3, b4, b5, b6, rfl⟩ : ∃ b1 b2 b3 b4 b5 b6, b = [b1, b2, b3, b4, b5, b6] := by
    have hl : b.length = 6 := (hexBytes_length _ _ h).symm
    match b, hl with
    | [b1, b2, b3, b4, b5, b6], _ => exact ⟨_, _, _, _, _, _, rfl⟩
  obtain ⟨h1, h2, h3, h4, h5, h6, -⟩ := h
  obtain ⟨p1, p2, p3, p4⟩ := hexByte_free h1
  obtain ⟨q1, q2, q3, q4⟩ := hexByte_free h2
  obtain ⟨r1, r2, r3, r4⟩ := hexByte_free h3
  obtain ⟨s1, s2, s3, s4⟩ := hexByte_free h4
  obtain ⟨t1, t2, t3, t4⟩ := hexByte_free h5
  obtain ⟨u1, u2, u3, u4⟩ := hexByte_free h6
  rcases ht with rfl | rfl | rfl | rfl | rfl | rfl
  · have c : splitAll ':' (p ++ [':'] ++ q ++ [':'] ++ r ++ [':'] ++ s ++ [':'] ++ t ++ [':'] ++ u) = [p, q, r, s, t, u] := by
      rw [← splitAll_join (sep := ':') [p, q, r, s, t, u] (by simp) (by simp [*])]
      simp [joinWith]
    unfold macParts
    dsimp only
    rw [c]
    rfl
  · have c : splitAll ':' (p ++ ['-'] ++ q ++ ['-'] ++ r ++ ['-'] ++ s ++ ['-'] ++ t ++ ['-'] ++ u) = [p ++ ['-'] ++ q ++ ['-'] ++ r ++ ['-'] ++ s ++ ['-'] ++ t ++ ['-'] ++ u] :=
      splitAll_none (by simp [*])
    have d : splitAll '-' (p ++ ['-'] ++ q ++ ['-'] ++ r ++ ['-'] ++ s ++ ['-'] ++ t ++ ['-'] ++ u) = [p, q, r, s, t, u] := by
      rw [← splitAll_join (sep := '-') [p, q, r, s, t, u] (by simp) (by simp [*])]
      simp [joinWith]
    unfold macParts
    dsimp only
    rw [c, d]
    rfl
  · have c : splitAll ':' (p ++ q ++ r ++ [':'] ++ s ++ t ++ u) = [p ++ q ++ r, s ++ t ++ u] := by
      rw [← splitAll_join (sep := ':') [p ++ q ++ r, s ++ t ++ u] (by simp) (by simp [*])]
      simp [joinWith]
    have d : splitAll '-' (p ++ q ++ r ++ [':'] ++ s ++ t ++ u) = [p ++ q ++ r ++ [':'] ++ s ++ t ++ u] := splitAll_none (by simp [*])
    unfold macParts
    dsimp only
    rw [c, d]
    simp [List.drop_append, *]
  · have c : splitAll ':' (p ++ q ++ r ++ ['-'] ++ s ++ t ++ u) = [p ++ q ++ r ++ ['-'] ++ s ++ t ++ u] := splitAll_none (by simp [*])
    have d : splitAll '-' (p ++ q ++ r ++ ['-'] ++ s ++ t ++ u) = [p ++ q ++ r, s ++ t ++ u] := by
      rw [← splitAll_join (sep := '-') [p ++ q ++ r, s ++ t ++ u] (by simp) (by simp [*])]
      simp [joinWith]
    unfold macParts
    dsimp only
    rw [c, d]
    simp [List.drop_append, *]
  · have c : splitAll ':' (p ++ q ++ ['.'] ++ r ++ s ++ ['.'] ++ t ++ u) = [p ++ q ++ ['.'] ++ r ++ s ++ ['.'] ++ t ++ u] := splitAll_none (by simp [*])
    have d : splitAll '-' (p ++ q ++ ['.'] ++ r ++ s ++ ['.'] ++ t ++ u) = [p ++ q ++ ['.'] ++ r ++ s ++ ['.'] ++ t ++ u] := splitAll_none (by simp [*])
    have e : splitAll '.' (p ++ q ++ ['.'] ++ r ++ s ++ ['.'] ++ t ++ u) = [p ++ q, r ++ s, t ++ u] := by
      rw [← splitAll_join (sep := '.') [p ++ q, r ++ s, t ++ u] (by simp) (by simp [*])]
      simp [joinWith]
    unfold macParts
    dsimp only
    rw [c, d, e]
    simp [*]
  · have c : splitAll ':' (p ++ q ++ r ++ s ++ t ++ u) = [p ++ q ++ r ++ s ++ t ++ u] := splitAll_none (by simp [*])
    have d : splitAll '-' (p ++ q ++ r ++ s ++ t ++ u) = [p ++ q ++ r ++ s ++ t ++ u] := splitAll_none (by simp [*])
    have e : splitAll '.' (p ++ q ++ r ++ s ++ t ++ u) = [p ++ q ++ r ++ s ++ t ++ u] := splitAll_none (by simp [*])
    unfold macParts
    dsimp only
    rw [c, d, e]
    have dn : ∀ (l : Str) (n : Nat), l.length = 2 → 2 ≤ n → l.drop n = [] := fun l n h h' => List.drop_eq_nil_of_le (by omega)
    simp [List.drop_append, dn p _ p4, dn q _ q4, dn r _ r4, dn s _ s4, *]

theorem hexByte_hex2 (b : UInt8) : HexByte (hex2 b) b := by
  have hlt := b.toNat_lt
  have hd : ∀ n, n < 16 → IsHex (hexDigit n) n := by
    intro n hn
    refine ⟨hn, Or.inl ?_⟩
    have : n = 0 ∨ n = 1 ∨ n = 2 ∨ n = 3 ∨ n = 4 ∨ n = 5 ∨ n = 6 ∨ n = 7 ∨ n = 8 ∨ n = 9 ∨ n = 10 ∨ n = 11 ∨ n = 12 ∨ n = 13 ∨
      n = 14 ∨ n = 15 := by omega
    rcases this with rfl | rfl | rfl | rfl | rfl | rfl | rfl | rfl | rfl | rfl | rfl | rfl | rfl | rfl | rfl | rfl <;> decide
  exact ⟨b.toNat / 16, b.toNat % 16, _, _, rfl, hd _ (by omega), hd _ (by omega), by omega⟩

/-- C18: a MAC address is printed as text that packs to the same six bytes; other sizes are refused. -/
theorem C18_macaddr (b : Bytes) :
    (b.length = 6 → ∃ s, macUnpack b = .ok s ∧ macPack s = .ok b) ∧ (b.length ≠ 6 → macUnpack b = .error .valueError) := by
  constructor
  · intro h
    match b, h with
    | [b1, b2, b3, b4, b5, b6], _ =>
      refine ⟨_, rfl, ?_⟩
      apply C18_macaddr_formats (hex2 b1) (hex2 b2) (hex2 b3) (hex2 b4) (hex2 b5) (hex2 b6)
      · exact ⟨hexByte_hex2 _, hexByte_hex2 _, hexByte_hex2 _, hexByte_hex2 _, hexByte_hex2 _, hexByte_hex2 _, trivial⟩
      · left; simp [joinWith]
  · intro h
    unfold macUnpack
    rw [if_pos h]

example : macUnpack [8, 0, 43, 1, 2, 255] = .ok "08:00:2b:01:02:ff".toList ∧
    macPack "08002B.0102fF".toList = .error .valueError ∧ macPack "0800.2B01.02fF".toList = .ok [8, 0, 43, 1, 2, 255] := by decide

/-! ## C20 -/

/-- C20: a record is packed in the server's format and unpacks to itself, NULLs included. -/
theorem C20_record_round_trip (r : List (Int × Option Bytes)) (h : RecordOk r) :
    recordPack r = .ok (encs (recordFields r)) ∧ recordUnpack (encs (recordFields r)) = .ok r := by
  obtain ⟨h1, h2⟩ := h
  have hS := inS4_nat h1
  have e : encs (recordFields r) = digits 4 (r.length : Int) ++ encs (r.flatMap attFields) := by
    rw [recordFields, encs_cons]; rfl
  have L4 : (digits 4 (r.length : Int)).length = 4 := length_digits ..
  have hp : longPack (r.length : Int) = .ok (digits 4 (r.length : Int)) := packS_digits hS
  refine ⟨by simp only [recordPack, hp, recordAtts_spec r h2, bind_ok, pure_ok, e], ?_⟩
  have hu : longUnpack (encs (recordFields r)) = .ok (r.length : Int) := by rw [e]; exact unpackFromS_digits hS _
  have hl := (recordLoop_iff r.length (digits 4 (r.length : Int)) (encs (r.flatMap attFields)) r (encs (recordFields r)).length).mpr
    ⟨[], by simp, rfl, h2, by rw [e]; simp⟩
  rw [L4, ← e] at hl
  simp only [recordUnpack, hu, bind_ok, Int.toNat_natCast, hl]
  rw [if_neg (by omega)]; rfl

/-- C20: nothing but a record's own wire form unpacks to it: truncated data, trailing data, sizes that do not fit are refused.
(The exception: four bytes announcing a negative number of columns unpack as the empty record.) -/
theorem C20_record_unpack_exact (data : Bytes) (r : List (Int × Option Bytes)) (h : recordUnpack data = .ok r) :
    (RecordOk r ∧ data = encs (recordFields r)) ∨ (r = [] ∧ data.length = 4 ∧ ∃ n, n < 0 ∧ data = digits 4 n) := by
  simp only [recordUnpack] at h
  obtain ⟨cols, hc, h⟩ := bind_eq_ok h
  obtain ⟨⟨l, o⟩, hl, h⟩ := bind_eq_ok h
  by_cases ho : (data.length : Int) - o ≠ 0
  · simp only [if_pos ho] at h; cases h
  · simp only [if_neg ho] at h
    injection h with h
    subst h
    have h4 : 4 ≤ data.length := by
      unfold longUnpack unpackFromS at hc
      split at hc
      · cases hc
      · omega
    have hsplit : data = data.take 4 ++ data.drop 4 := (List.take_append_drop ..).symm
    have hc2 : longUnpack (data.take 4) = .ok cols := by
      unfold longUnpack unpackFromS at hc ⊢
      rw [if_neg (by simp; omega), List.take_take]
      rw [if_neg (by omega)] at hc
      exact hc
    obtain ⟨hd, hS⟩ := (unpackFromS_iff (by simp; omega)).mp hc2
    have ht4 : (data.take 4).length = 4 := by simp; omega
    generalize data.take 4 = pre at *
    generalize data.drop 4 = rest at *
    subst hsplit
    rw [← ht4] at hl
    obtain ⟨tail, e1, e2, e3, e4⟩ := (recordLoop_iff _ _ _ _ _).mp hl
    have htail : tail = [] := by
      apply List.length_eq_zero_iff.mp
      omega
    subst htail
    rw [List.append_nil] at e1
    by_cases hneg : cols < 0
    · right
      have : l = [] := List.length_eq_zero_iff.mp (by rw [e2]; omega)
      subst this
      simp at e1
      subst e1
      refine ⟨rfl, by simpa using ht4, cols, hneg, by rw [List.append_nil]; exact hd⟩
    · left
      have hb := ((inS4_iff _).mp hS).2
      have hcols : cols = (l.length : Int) := by omega
      refine ⟨⟨?_, e3⟩, ?_⟩
      · rw [show (2 ^ 31 : Int) = 2147483648 by decide] at hb
        rw [show (2 ^ 31 : Nat) = 2147483648 by decide]
        omega
      · rw [recordFields, encs_cons, enc, ← hcols, ← hd, e1]

/-- C20: cutting a record's wire form short, or adding anything to it, makes it be refused. -/
theorem C20_record_truncated_or_extended (r : List (Int × Option Bytes)) (h : RecordOk r) (hr : r ≠ []) (k : Nat)
    (hk : k < (encs (recordFields r)).length) (extra : Bytes) (he : extra ≠ []) :
    (∃ e, recordUnpack ((encs (recordFields r)).take k) = .error e) ∧
    (∃ e, recordUnpack (encs (recordFields r) ++ extra) = .error e) := by
  have main : ∀ data : Bytes, data ≠ encs (recordFields r) → (∃ t, data <+: t ∧ encs (recordFields r) <+: t ∧ (data.length ≥ 4 → data.take 4 = (encs (recordFields r)).take 4)) →
      ∃ e, recordUnpack data = .error e := by
    intro data hne ⟨t, hp1, hp2, h4⟩
    cases hd : recordUnpack data with
    | error e => exact ⟨e, rfl⟩
    | ok r' =>
      exfalso
      have e0 : encs (recordFields r) = digits 4 (r.length : Int) ++ encs (r.flatMap attFields) := by
        rw [recordFields, encs_cons]; rfl
      have L4 (n : Int) : (digits 4 n).length = 4 := length_digits ..
      rcases C20_record_unpack_exact data r' hd with ⟨hok, e⟩ | ⟨-, hl, n, hn, e⟩
      · -- same prefix of the same text: the attribute loop gives the same attributes
        have e1 : encs (recordFields r') = digits 4 (r'.length : Int) ++ encs (r'.flatMap attFields) := by
          rw [recordFields, encs_cons]; rfl
        have hge : data.length ≥ 4 := by rw [e, e1, List.length_append, L4]; omega
        have h4 := h4 hge
        rw [e, e1, e0, List.take_left' (L4 _), List.take_left' (L4 _)] at h4
        have i1 := unpackFromS_digits (inS4_nat hok.1) []
        have i2 := unpackFromS_digits (inS4_nat h.1) []
        rw [h4, i2] at i1
        have hlen : r.length = r'.length := by have := Except.ok.inj i1; omega
        obtain ⟨s1, hs1⟩ := hp1
        obtain ⟨s2, hs2⟩ := hp2
        have a1 := (recordLoop_iff r'.length (digits 4 (r'.length : Int)) (encs (r'.flatMap attFields) ++ s1) r' (data.length)).mpr
          ⟨s1, rfl, rfl, hok.2, by rw [e, e1]; simp only [List.length_append]; omega⟩
        have a2 := (recordLoop_iff r.length (digits 4 (r.length : Int)) (encs (r.flatMap attFields) ++ s2) r (encs (recordFields r)).length).mpr
          ⟨s2, rfl, rfl, h.2, by rw [e0]; simp only [List.length_append]; omega⟩
        rw [← List.append_assoc, ← e1, ← e, hs1, L4] at a1
        rw [← List.append_assoc, ← e0, hs2, L4, hlen, a1] at a2
        have a2 := Except.ok.inj a2
        injection a2 with a2 _
        subst a2
        exact hne e
      · have h4 := h4 (by omega)
        rw [List.take_of_length_le (by omega), e, e0, List.take_left' (L4 _)] at h4
        have i2 := unpackFromS_digits (inS4_nat h.1) []
        rw [← h4] at i2
        have hr' : unpackFromS 4 (digits 4 n ++ []) = .ok n := by
          have hd' : longUnpack data = .ok n ∨ True := Or.inr trivial
          simp only [recordUnpack] at hd
          obtain ⟨cols, hc, hd⟩ := bind_eq_ok hd
          have : cols = (r.length : Int) := by
            rw [e, ← List.append_nil (digits 4 n)] at hc
            change longUnpack (digits 4 n ++ []) = _ at i2
            rw [hc] at i2
            exact Except.ok.inj i2
          subst this
          -- a positive count needs at least the first attribute, which is not there
          obtain ⟨⟨l, o⟩, hl', hd⟩ := bind_eq_ok hd
          rw [Int.toNat_natCast, ← List.append_nil data, ← hl] at hl'
          obtain ⟨tail, q1, q2, -, -⟩ := (recordLoop_iff _ _ _ _ _).mp hl'
          cases l with
          | nil => exact absurd (List.length_eq_zero_iff.mp q2.symm) hr
          | cons p l =>
            rw [List.flatMap_cons, encs_append, encs_att] at q1
            have := congrArg List.length q1
            simp only [List.length_append, L4, List.length_nil] at this
            omega
        rw [hr'] at i2
        have := Except.ok.inj i2
        omega
  have hL4 : 4 ≤ (encs (recordFields r)).length := by
    rw [recordFields, encs_cons, List.length_append]
    have : (enc (.int32 (r.length : Int))).length = 4 := length_digits ..
    omega
  constructor
  · apply main
    · intro e
      have := congrArg List.length e
      simp at this
      omega
    · refine ⟨encs (recordFields r), List.take_prefix .., List.prefix_rfl, ?_⟩
      intro hge
      rw [List.take_take, Nat.min_eq_left]
      simp at hge
      omega
  · apply main
    · intro e
      have := congrArg List.length e
      simp at this
      exact he this
    · refine ⟨encs (recordFields r) ++ extra, List.prefix_rfl, List.prefix_append .., ?_⟩
      intro _
      rw [List.take_append, Nat.sub_eq_zero_of_le hL4]
      simp

example : RecordOk [(23, some [0, 0, 0, 7]), (25, none)] ∧
    encs (recordFields [(23, some [0, 0, 0, 7]), (25, none)]) = [0, 0, 0, 2, 0, 0, 0, 23, 0, 0, 0, 4, 0, 0, 0, 7, 0, 0, 0, 25, 255, 255, 255, 255] := by
  refine ⟨⟨by decide, ?_⟩, by decide⟩
  intro p hp
  simp only [List.mem_cons, List.not_mem_nil, or_false] at hp
  rcases hp with rfl | rfl
  · exact ⟨by decide, fun d hd => by injection hd with hd; subst hd; decide⟩
  · exact ⟨by decide, fun d hd => by cases hd⟩

/-- C20: an array is packed in the server's format and unpacks to itself (the elements are read to their end). -/
theorem C20_array_round_trip (a : RawArray) (h : ArrayOk a) :
    arrayPack a = .ok (encs (arrayFields a)) ∧ ∀ fuel, a.elements.length ≤ fuel → arrayUnpack fuel (encs (arrayFields a)) = some (.ok a) :=
  ⟨arrayPack_spec a h, fun fuel hf => arrayUnpack_spec a h fuel hf⟩

example : ArrayOk ⟨0, 23, [2], [1], [some [0, 0, 0, 7], none]⟩ := by
  refine ⟨rfl, by decide, ⟨by decide, by decide⟩, by decide, ?_, ?_, ?_⟩
  · intro d hd; simp at hd; subst hd; exact ⟨by decide, by decide⟩
  · intro d hd; simp at hd; subst hd; exact ⟨by decide, by decide⟩
  · intro x hx d hd
    simp only [List.mem_cons, List.not_mem_nil, or_false] at hx
    rcases hx with rfl | rfl
    · injection hd with hd; subst hd; decide
    · cases hd

/-- C20 is false for arrays as stated: an element size of -4 makes the unpacking of the elements go on for ever. -/
theorem C20_array_unpack_never_ends (fuel : Nat) : arrayUnpack fuel [0, 0, 0, 0, 0, 0, 0, 0, 0, 0, 0, 23, 255, 255, 255, 252] = none := by
  have h : ∀ fuel, elementsUnpack [0, 0, 0, 0, 0, 0, 0, 0, 0, 0, 0, 23, 255, 255, 255, 252] fuel 12 = none := by
    intro fuel
    induction fuel with
    | zero => decide
    | succ fuel ih =>
      rw [elementsUnpack, if_neg (by decide)]
      dsimp only
      rw [if_neg (by decide)]
      have : longUnpack (pySlice [0, 0, 0, 0, 0, 0, 0, 0, 0, 0, 0, 23, 255, 255, 255, 252] 12 (12 + 4)) = .ok (-4) := by decide
      rw [this]
      dsimp only
      rw [show (12 + 4 + -4 : Int) = 12 by decide, ih]
      rfl
  have e : arrayUnpack fuel [0, 0, 0, 0, 0, 0, 0, 0, 0, 0, 0, 23, 255, 255, 255, 252] =
      (elementsUnpack [0, 0, 0, 0, 0, 0, 0, 0, 0, 0, 0, 23, 255, 255, 255, 252] fuel 12).map fun r => r.map fun els => ⟨0, 23, [], [], els⟩ := by
    have e1 : toSigned 4 (beDec (List.take 4 [0, 0, 0, 0, 0, 0, 0, 0, 0, 0, 0, 23, 255, 255, 255, 252])) = 0 := by decide
    have e2 : toSigned 4 (beDec (slice [0, 0, 0, 0, 0, 0, 0, 0, 0, 0, 0, 23, 255, 255, 255, 252] 4 8)) = 0 := by decide
    have e3 : beDec (slice [0, 0, 0, 0, 0, 0, 0, 0, 0, 0, 0, 23, 255, 255, 255, 252] 8 12) = 23 := by decide
    unfold arrayUnpack
    rw [if_neg (by decide)]
    dsimp only
    rw [e1, e2, e3]
    rfl
  rw [e, h]; rfl

/-- ... and an element whose size overruns the data is silently shortened. -/
theorem C20_array_truncation_accepted :
    arrayUnpack 1 [0, 0, 0, 1, 0, 0, 0, 0, 0, 0, 0, 23, 0, 0, 0, 1, 0, 0, 0, 1, 0, 0, 0, 4, 7] = some (.ok ⟨0, 23, [1], [1], [some [7]]⟩) := by decide +kernel

theorem elementsUnpack_ends (data : Bytes) (hn : ∀ i n, longUnpack (slice data i (i + 4)) = .ok n → -1 ≤ n) (fuel off : Nat)
    (hf : data.length ≤ fuel + off) : ∃ r, elementsUnpack data fuel off = some r := by
  induction fuel generalizing off with
  | zero => exact ⟨_, by rw [elementsUnpack, if_pos (by omega)]⟩
  | succ fuel ih =>
    rw [elementsUnpack]
    split
    · exact ⟨_, rfl⟩
    · dsimp only
      have e4 : (off : Int) + 4 = ((off + 4 : Nat) : Int) := by omega
      rw [e4, pySlice_nat]
      split
      · obtain ⟨r, hr⟩ := ih (off + 4) (by omega)
        exact ⟨_, by rw [hr]; rfl⟩
      · rename_i hne
        cases hl : longUnpack (slice data off (off + 4)) with
        | error e => exact ⟨_, rfl⟩
        | ok n =>
          have h1 := hn _ _ hl
          dsimp only
          by_cases h0 : n < 0
          · have : n = -1 := by omega
            subst this
            obtain ⟨hd, -⟩ := (unpackFromS_iff (by simp; omega)).mp hl
            rw [hd, digits_neg1] at hne
            exact absurd rfl hne
          · have e5 : ((off + 4 : Nat) : Int) + n = ((off + 4 + n.toNat : Nat) : Int) := by omega
            obtain ⟨r, hr⟩ := ih (off + 4 + n.toNat) (by omega)
            rw [e5]
            exact ⟨_, by rw [hr]; rfl⟩

/-- C20, what does hold of termination: unpacking an array ends, after at most as many elements as there are bytes, unless a
size below -1 is in the data.
Missing for the full property: termination and rejection in that case (`C20_array_unpack_never_ends`) and rejection of
truncated elements (`C20_array_truncation_accepted`). -/
theorem C20_array_unpack_ends_partial (data : Bytes) (hn : ∀ i n, longUnpack (slice data i (i + 4)) = .ok n → -1 ≤ n) :
    ∃ r, arrayUnpack data.length data = some r := by
  unfold arrayUnpack
  split
  · exact ⟨_, rfl⟩
  · dsimp only
    split
    · exact ⟨_, rfl⟩
    · split
      · exact ⟨_, rfl⟩
      · split
        · exact ⟨_, rfl⟩
        · obtain ⟨r, hr⟩ := elementsUnpack_ends data hn data.length (8 * (toSigned 4 (beDec (data.take 4))).toNat + 12) (by omega)
          exact ⟨_, by rw [hr]; rfl⟩

end PG.Props.Types
