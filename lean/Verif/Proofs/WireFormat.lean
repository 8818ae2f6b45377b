import Verif.Spec.WireFormat
import Verif.Proofs.Element3c
namespace PG.Spec.Format
open PG PG.Element3 PG.Spec

theorem div_emod_mul (n M : Int) : n % (256 * M) / 256 = n / 256 % M := by
  rw [Int.emod_def n (256 * M), Int.emod_def (n / 256) M, ← Int.ediv_ediv_of_nonneg (by decide), Int.mul_assoc]
  generalize M * (n / 256 / M) = t
  omega

theorem digits_succ (k : Nat) (n : Int) : digits (k + 1) n = digits k (n / 256) ++ [UInt8.ofNat (n % 256).toNat] := by
  simp only [digits, List.range_succ, List.map_append, List.map_cons, List.map_nil]
  congr 1
  · apply List.map_congr_left
    intro i hi
    have hi := List.mem_range.mp hi
    have e : k + 1 - 1 - i = (k - 1 - i) + 1 := by omega
    rw [e, Int.pow_succ, Int.mul_comm, ← Int.ediv_ediv_of_nonneg (by decide)]
  · simp

theorem uint8_mod (n : Nat) : UInt8.ofNat (n % 256) = UInt8.ofNat n := by
  apply UInt8.toNat_inj.mp
  simp

theorem digits_eq (k : Nat) (n : Int) : digits k n = beEnc k (n % (256 ^ k : Int)).toNat := by
  induction k generalizing n with
  | zero => rfl
  | succ k ih =>
    have hM : (0 : Int) < 256 ^ k := Int.pow_pos (by decide)
    have hp : (256 : Int) ^ (k + 1) = 256 * 256 ^ k := by rw [Int.pow_succ, Int.mul_comm]
    rw [digits_succ, ih, beEnc, hp, ← div_emod_mul n]
    have hnn : 0 ≤ n % (256 * 256 ^ k) := Int.emod_nonneg _ (by omega)
    have hmod : (n % (256 * 256 ^ k)) % 256 = n % 256 := Int.emod_emod_of_dvd _ ⟨_, rfl⟩
    generalize n % (256 * 256 ^ k) = z at *
    congr 2
    · omega
    · rw [← uint8_mod z.toNat]
      congr 1
      omega

theorem packU_digits {k : Nat} {n : Int} (h : InU k n) : packU k n = .ok (digits k n) := by
  unfold InU at h; rw [packU, if_pos h, digits_eq, Int.emod_eq_of_lt h.1 h.2]

theorem packS_digits {k : Nat} {n : Int} (h : InS k n) : packS k n = .ok (digits k n) := by
  unfold InS at h; rw [packS, if_pos h, digits_eq]

theorem packU_len {k n : Nat} (h : n < 256 ^ k) : packU k (n : Int) = .ok (digits k n) :=
  packU_digits (inU_of_nat h)

theorem encs_append (a b : List Field) : encs (a ++ b) = encs a ++ encs b := by simp [encs]
theorem encs_cons (a : Field) (b : List Field) : encs (a :: b) = enc a ++ encs b := by simp [encs]
@[simp] theorem encs_nil : encs [] = [] := rfl

theorem encs_bytes (l : List Bytes) : encs (l.map .bytes) = l.flatten := by
  induction l with
  | nil => rfl
  | cons a l ih => rw [List.map_cons, encs_cons, ih]; simp [enc]

theorem packAll4 (l : List Int) (h : ∀ x ∈ l, InU 4 x) : packAll ulongPack l = .ok (encs (l.map .int32)) := by
  induction l with
  | nil => rfl
  | cons a l ih =>
    simp only [packAll, ulongPack, packU_digits (h a (by simp)), ih fun x hx => h x (by simp [hx]), bind_ok, pure_ok,
      List.map_cons, encs_cons, enc]

theorem packAll2 (l : List Int) (h : ∀ x ∈ l, InU 2 x) : packAll ushortPack l = .ok (encs (l.map .int16)) := by
  induction l with
  | nil => rfl
  | cons a l ih =>
    simp only [packAll, ushortPack, packU_digits (h a (by simp)), ih fun x hx => h x (by simp [hx]), bind_ok, pure_ok,
      List.map_cons, encs_cons, enc]

theorem digits_neg1 : digits 4 (-1) = nullSeq := by decide

theorem packTuple_encs (l : List (Option Bytes)) (h : ∀ x ∈ l, ∀ d, x = some d → d.length < 2 ^ 32 - 1) :
    packTupleData l = .ok (encs (l.flatMap value)) := by
  induction l with
  | nil => rfl
  | cons a l ih =>
    have ih := ih fun x hx => h x (by simp [hx])
    cases a with
    | none => simp only [packTupleData, ih, bind_ok, pure_ok, List.flatMap_cons, value, encs_append, encs_cons, enc, digits_neg1, encs_nil, List.append_nil]
    | some d =>
      have := packU_len (k := 4) (n := d.length) (Nat.lt_of_lt_of_le (h _ (by simp) d rfl) (by decide))
      simp only [packTupleData, ulongPack, this, ih, bind_ok, pure_ok, List.flatMap_cons, value, encs_append, encs_cons, enc, encs_nil, List.append_nil, List.append_assoc]

theorem packCols_encs (l : List ColDesc) (h : ∀ c ∈ l, ColOk c) : packCols l = .ok (encs (l.flatMap column)) := by
  induction l with
  | nil => rfl
  | cons c l ih =>
    have ih := ih fun x hx => h x (by simp [hx])
    obtain ⟨-, h1, h2, h3, h4, h5, h6⟩ := h c (by simp)
    simp only [packCols, packCol, packU_digits h1, packS_digits h2, packU_digits h3, packS_digits h4, packS_digits h5,
      packS_digits h6, ih, bind_ok, pure_ok, List.flatMap_cons, column, encs_append, encs_cons, enc, encs_nil, List.append_nil, List.append_assoc]

theorem startup_encs (fs : List (Bytes × Option Bytes)) : encs (fs.flatMap parameter) = startupItems fs := by
  induction fs with
  | nil => rfl
  | cons p fs ih =>
    obtain ⟨k, v⟩ := p
    rw [List.flatMap_cons, encs_append, ih]
    cases v <;> simp [startupItems, parameter, encs, enc]

theorem digits_zero : digits 1 0 = [0] := by decide

/-- All but notices and errors are written in the documented format. -/
theorem serialize_format (m : Elem) (h : Representable m) (hn : m.kind ≠ .notice ∧ m.kind ≠ .error) :
    serialize m = .ok (encs (body m)) := by
  cases m <;> simp only [Representable, Elem.kind, ne_eq, reduceCtorEq, not_true_eq_false, and_false, false_and] at h hn <;>
    simp only [serialize, body, encs_cons, encs_append, enc, encs_nil, List.append_nil]
  case notify => simp only [ulongPack, packU_digits h.1, bind_ok, pure_ok, List.append_assoc]
  case showOption => simp
  case functionResult r =>
    cases r with
    | none => simp [value, encs_cons, enc, digits_neg1]
    | some d =>
      simp only [ulongPack, packU_len (k := 4) (n := d.length) (h d rfl), bind_ok, pure_ok, value, encs_cons, enc, encs_nil, List.append_nil]
  case attributeTypes l => 
    simp only [ushortPack, packU_len (k := 2) (n := l.length) h.1, packAll4 l h.2, bind_ok, pure_ok]
  case tupleDescriptor l => 
    simp only [ushortPack, packU_len (k := 2) (n := l.length) h.1, packCols_encs l h.2, bind_ok, pure_ok]
  case tuple l => 
    simp only [ushortPack, packU_len (k := 2) (n := l.length) h.1, packTuple_encs l h.2, bind_ok, pure_ok]
  case killInformation => simp only [packU_digits h.1, packU_digits h.2, bind_ok, pure_ok]
  case cancelRequest => 
    have : cancelCode = digits 4 80877102 := by decide
    simp only [packU_digits h.1, packU_digits h.2, bind_ok, pure_ok, this]
  case negotiateSSL => decide
  case startup fs =>
    have : v3Code = digits 4 196608 := by decide
    rw [startup_encs, this, digits_zero]
  case authentication => simp only [ulongPack, packU_digits h, bind_ok, pure_ok]
  case str k d =>
    have hS : digits 1 83 = [83] := by decide
    have hP : digits 1 80 = [80] := by decide
    cases k <;> simp [StrKind.subtype, encs_cons, enc, hS, hP]
  case parse n s l =>
    simp only [ushortPack, packU_len (k := 2) (n := l.length) h.2.2.1, packAll4 l h.2.2.2, bind_ok, pure_ok, List.append_assoc]
  case bind n s afs args rfs =>
    obtain ⟨-, -, h1, h2, h3, h4⟩ := h
    simp only [ushortPack, packU_len (k := 2) (n := args.length) h2.1, packTuple_encs args h2.2,
      packU_len (k := 2) (n := rfs.length) h3.1, bind_ok, pure_ok, encs_bytes, h4, List.append_assoc]
  case execute => simp only [ulongPack, packU_digits h.2, bind_ok, pure_ok, List.append_assoc]
  case function o afs args r =>
    obtain ⟨h0, h1, h2, h4⟩ := h
    simp only [ushortPack, ulongPack, packU_digits h0, packU_len (k := 2) (n := args.length) h2.1, packTuple_encs args h2.2, bind_ok, pure_ok, encs_bytes, h4, List.append_assoc]
  case copyToBegin f fs =>
    simp only [packU_digits h.1, packU_len (k := 2) (n := fs.length) h.2.1, packAll2 fs h.2.2, bind_ok, pure_ok, List.append_assoc]
  case copyFromBegin f fs =>
    simp only [packU_digits h.1, packU_len (k := 2) (n := fs.length) h.2.1, packAll2 fs h.2.2, bind_ok, pure_ok, List.append_assoc]

theorem notice_encs (fs : List (Bytes × Option Bytes)) (h : FieldsOk fs) :
    encs (fs.flatMap noticeItem) = (noticeFields fs).flatMap (· ++ [0]) := by
  obtain ⟨-, h⟩ := h
  induction fs with
  | nil => rfl
  | cons f fs ih =>
    have ih := ih fun x hx => h x (by simp [hx])
    obtain ⟨⟨c, hc, hc0⟩, v, hv, hvn⟩ := h f (by simp)
    obtain ⟨fk, fv⟩ := f
    simp only at hc hv
    subst hc; subst hv
    rw [List.flatMap_cons, encs_append, ih]
    simp [noticeFields, noticeItem, encs, enc]

theorem flatMap_join (l : List Bytes) : l.flatMap (· ++ [0]) ++ [0] = joinWith [0] (l ++ [[], []]) := by
  induction l with
  | nil => rfl
  | cons a l ih => rw [List.cons_append, joinWith_cons _ _ (by simp), ← ih]; simp

theorem parseNotice_format (fs : List (Bytes × Option Bytes)) (h : FieldsOk fs) :
    parseNotice (encs (fs.flatMap noticeItem ++ [.int8 0])) = fs := by
  obtain ⟨parts, h1, h2, h3, h4⟩ := noticeFields_ok fs h
  have e : encs (fs.flatMap noticeItem ++ [.int8 0]) = joinWith [0] (parts ++ [[], []]) := by
    rw [encs_append, notice_encs fs h, h1, encs_cons, encs_nil, enc, digits_zero, List.append_nil, flatMap_join]
  rw [e, parseNotice, splitAll_join _ (by simp) (by
      intro q hq
      rcases List.mem_append.mp hq with hq | hq
      · exact h3 q hq
      · simp at hq; simp [hq])]
  rw [List.filterMap_append, h4]
  have e2 : List.filterMap noticeField [[], []] = [] := rfl
  rw [e2, List.append_nil]
  exact dictOf_nodup fs h.1

/-- What a server sends according to the documentation is parsed as the element. -/
theorem parse_format (m : Elem) (h : Representable m) : parseK m.kind (encs (body m)) = .ok m := by
  by_cases hn : m.kind ≠ .notice ∧ m.kind ≠ .error
  · obtain ⟨b, h1, h2⟩ := round_trip m h
    rw [serialize_format m h hn] at h1
    rw [Except.ok.inj h1]; exact h2
  · cases m <;> simp [Elem.kind] at hn
    · simp only [Elem.kind, parseK, body, parseNotice_format _ h]
    · simp only [Elem.kind, parseK, body, parseNotice_format _ h]

theorem letter_typ (m : Elem) :
    m.kind.typ = if letter m = '\x00' then none else some (UInt8.ofNat (letter m).toNat) := by
  cases m <;> try rfl
  · rename_i k; cases k <;> rfl
  · rename_i k _; cases k <;> rfl

theorem inU4_len {n : Nat} (h : n + 4 < 2 ^ 32) : InU 4 ((n : Int) + 4) := by
  have hb : n + 4 < 256 ^ 4 := Nat.lt_of_lt_of_le h (by decide)
  have := inU_of_nat (k := 4) hb
  rw [Int.natCast_add] at this
  exact this

theorem msgBytes_format (m : Elem) (h : Representable m) (hn : m.kind ≠ .notice ∧ m.kind ≠ .error)
    (hl : (encs (body m)).length + 4 < 2 ^ 32) : msgBytes m = .ok (message m) := by
  have hu := inU4_len hl
  have hp := packU_digits hu
  have hs := serialize_format m h hn
  have ht := letter_typ m
  unfold message
  unfold msgBytes
  rw [hs, bind_ok]
  rw [hp, bind_ok]
  rw [ht]
  by_cases h0 : letter m = '\x00'
  · rw [if_pos h0, if_pos h0]; rfl
  · rw [if_neg h0, if_neg h0]; rfl

end PG.Spec.Format
