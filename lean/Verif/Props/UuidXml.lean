import Verif.Model.UuidXml
import Verif.Spec.UuidXml
import Verif.Proofs.Py
/-!
# C84: UUIDs, XML, paths and vectors
-/
namespace PG.UuidXml
open PG PG.Spec.UuidXml

/-! ## uuid -/

theorem digit_facts : ∀ d ∈ hexDigits, PyInt.baseDigit 16 d.1 = some d.2 ∧ d.2 < 16 ∧ d.1 ≠ '_' ∧ d.1 ≠ '-' ∧ d.1 ≠ '+' ∧ d.1 ≠ 'x' ∧ d.1 ≠ 'X' ∧ d.1 ≠ 'u' ∧ brace d.1 = false ∧
    TypesLib.isSpace d.1 = false := by decide

/-- The number of a list of digits. -/
def number (a : Nat) (vs : List Nat) : Nat := vs.foldl (fun a v => a * 16 + v) a

theorem scan_digits : ∀ (ds : List (Char × Nat)) (a : Nat), (∀ d ∈ ds, d ∈ hexDigits) → PyInt.scan 16 a (ds.map Prod.fst) = some (number a (ds.map Prod.snd))
  | [], a, _ => by rw [List.map_nil, PyInt.scan]; rfl
  | d :: ds, a, h => by
    obtain ⟨h1, _, h2, _⟩ := digit_facts d (h d List.mem_cons_self)
    rw [List.map_cons, PyInt.scan.eq_3 _ _ _ _ (by intro c r e _; exact h2 e)]
    rw [h1]
    exact scan_digits ds _ fun x hx => h x (List.mem_cons_of_mem _ hx)

theorem strip_id (s : Str) (h : ∀ c ∈ s, TypesLib.isSpace c = false) : TypesLib.strip s = s := by
  unfold TypesLib.strip
  have h1 : ∀ t : Str, (∀ c ∈ t, TypesLib.isSpace c = false) → t.dropWhile TypesLib.isSpace = t := by
    intro t ht
    cases t with
    | nil => rfl
    | cons c t => rw [List.dropWhile_cons_of_neg (by rw [ht c List.mem_cons_self]; simp)]
  rw [h1 s h, h1 _ (fun c hc => h c (List.mem_reverse.mp hc)), List.reverse_reverse]

theorem pyInt_digits (d : Char × Nat) (ds : List (Char × Nat)) (h : ∀ x ∈ d :: ds, x ∈ hexDigits) :
    PyInt.pyInt 16 ((d :: ds).map Prod.fst) = .ok (number 0 ((d :: ds).map Prod.snd) : Nat) := by
  have hs : TypesLib.strip ((d :: ds).map Prod.fst) = (d :: ds).map Prod.fst := strip_id _ fun c hc => by
    obtain ⟨x, hx, rfl⟩ := List.mem_map.mp hc
    exact (digit_facts x (h x hx)).2.2.2.2.2.2.2.2.2
  obtain ⟨h1, _, h2, h3, h4, _⟩ := digit_facts d (h d List.mem_cons_self)
  have hun : PyInt.unsigned 16 ((d :: ds).map Prod.fst) = some (number 0 ((d :: ds).map Prod.snd)) := by
    have hp : PyInt.dropPrefix 16 ((d :: ds).map Prod.fst) = (d :: ds).map Prod.fst := by
      cases ds with
      | nil =>
        unfold PyInt.dropPrefix
        split
        · rename_i hh; simp at hh
        · rfl
      | cons e ds =>
        obtain ⟨_, _, _, _, _, h5, h6, _⟩ := digit_facts e (h e (List.mem_cons_of_mem _ List.mem_cons_self))
        unfold PyInt.dropPrefix
        split
        · rename_i p r hh
          rw [List.map_cons, List.map_cons] at hh
          injection hh with a1 a2
          injection a2 with a2 a3
          rw [if_neg (by rw [← a2]; simp [h5, h6]), List.map_cons, List.map_cons, a1, a2, a3]
        · rfl
    unfold PyInt.unsigned
    rw [hp, List.map_cons]
    dsimp only
    rw [h1]
    dsimp only
    rw [scan_digits ds _ fun x hx => h x (List.mem_cons_of_mem _ hx)]
    show some (number d.2 _) = some (number 0 (d.2 :: _))
    unfold number
    rw [List.foldl_cons, Nat.zero_mul, Nat.zero_add]
  unfold PyInt.pyInt
  rw [hs]
  split
  · rename_i r hh; rw [List.map_cons] at hh; injection hh with a1; exact absurd a1 h3
  · rename_i r hh; rw [List.map_cons] at hh; injection hh with a1; exact absurd a1 h4
  · rw [hun]

theorem removeAll_none (p : Char) (pat : Str) : ∀ s : Str, p ∉ s → removeAll (p :: pat) 0 s = s
  | [], _ => rfl
  | c :: s, h => by
    rw [removeAll, if_neg, removeAll_none p pat s fun hm => h (List.mem_cons_of_mem _ hm)]
    intro he
    have : p = c := by
      rw [List.isPrefixOf, Bool.and_eq_true] at he
      exact eq_of_beq he.1
    exact h (this ▸ List.mem_cons_self)

theorem dropWhile_braces (o : Str) (ho : ∀ c ∈ o, brace c = true) (c : Char) (hc : brace c = false) (s : Str) : (o ++ c :: s).dropWhile brace = c :: s := by
  induction o with
  | nil => exact List.dropWhile_cons_of_neg (by rw [hc]; simp)
  | cons x o ih =>
    rw [List.cons_append, List.dropWhile_cons_of_pos (ho x List.mem_cons_self)]
    exact ih fun c hc => ho c (List.mem_cons_of_mem _ hc)

theorem stripBraces_ok (o b c : Str) (ho : ∀ x ∈ o, brace x = true) (hc : ∀ x ∈ c, brace x = true) (hb : ∀ x ∈ b, brace x = false) (hne : b ≠ []) : stripBraces (o ++ b ++ c) = b := by
  unfold stripBraces
  cases b with
  | nil => exact absurd rfl hne
  | cons x b =>
    rw [List.append_assoc, List.cons_append, dropWhile_braces o ho x (hb x List.mem_cons_self)]
    rw [← List.cons_append, List.reverse_append]
    cases hr : (x :: b).reverse with
    | nil => simp at hr
    | cons y r =>
      have hy : brace y = false := hb y (List.mem_reverse.mp (by rw [hr]; exact List.mem_cons_self))
      rw [dropWhile_braces c.reverse (fun z hz => hc z (List.mem_reverse.mp hz)) y hy, ← hr, List.reverse_reverse]

theorem number_pairs : ∀ (vs : List Nat) (a : Nat), (∀ v ∈ vs, v < 16) → vs.length % 2 = 0 → (pairs vs).foldl (fun a x => a * 256 + x.toNat) a = number a vs
  | [], a, _, _ => rfl
  | [x], a, _, h => by simp at h
  | x :: y :: vs, a, hv, h => by
    have hx := hv x List.mem_cons_self
    have hy := hv y (List.mem_cons_of_mem _ List.mem_cons_self)
    rw [pairs, List.foldl_cons, number_pairs vs _ (fun v hm => hv v (List.mem_cons_of_mem _ (List.mem_cons_of_mem _ hm))) (by simp at h; omega)]
    show number (a * 256 + (UInt8.ofNat (16 * x + y)).toNat) vs = number ((a * 16 + x) * 16 + y) vs
    congr 1
    rw [UInt8.toNat_ofNat', Nat.mod_eq_of_lt (by omega)]
    omega

theorem pairs_length : ∀ (n : Nat) (vs : List Nat), vs.length = 2 * n → (pairs vs).length = n
  | 0, [], _ => rfl
  | 0, _ :: _, h => by simp at h
  | n + 1, [], h => by simp at h
  | n + 1, [_], h => by simp at h; omega
  | n + 1, x :: y :: vs, h => by
    rw [pairs, List.length_cons, pairs_length n vs (by simp at h; omega)]

theorem beEnc_pairs (vs : List Nat) (hv : ∀ v ∈ vs, v < 16) (hl : vs.length = 32) : beEnc 16 (number 0 vs) = pairs vs ∧ number 0 vs < 2 ^ 128 := by
  have h1 := number_pairs vs 0 hv (by omega)
  have h2 := pairs_length 16 vs (by omega)
  have h3 := beEnc_beDec (pairs vs)
  rw [h2] at h3
  unfold beDec at h3
  rw [h1] at h3
  refine ⟨h3, ?_⟩
  have := beDec_lt (pairs vs)
  unfold beDec at this
  rw [h1, h2] at this
  exact this

/-- **C84** A `uuid.UUID` comes back as it was given; every 16 bytes the server sends are a UUID, which packs into the same bytes; it is not read from any other number of bytes. -/
theorem C84_uuid : (∀ n, n < 2 ^ 128 → ∃ b, uuidPack (.uuid n) = .ok b ∧ b.length = 16 ∧ uuidUnpack b = .ok n) ∧
    (∀ b : Bytes, b.length = 16 → ∃ n, n < 2 ^ 128 ∧ uuidUnpack b = .ok n ∧ uuidPack (.uuid n) = .ok b) ∧ (∀ b : Bytes, b.length ≠ 16 → uuidUnpack b = .error .valueError) := by
  refine ⟨fun n hn => ⟨beEnc 16 n, rfl, length_beEnc 16 n, ?_⟩, fun b hb => ⟨beDec b, ?_, ?_, ?_⟩, fun b hb => ?_⟩
  · unfold uuidUnpack
    rw [if_neg (by rw [length_beEnc]; simp), beDec_beEnc_of_lt (Nat.lt_of_lt_of_le hn (by decide))]
  · have := beDec_lt b
    rw [hb] at this
    exact this
  · unfold uuidUnpack; rw [if_neg (by omega)]
  · have := beEnc_beDec b
    rw [hb] at this
    rw [uuidPack, this]
  · unfold uuidUnpack; rw [if_pos hb]

/-- **C84** A text of 32 hexadecimal digits in either case, with hyphens anywhere between them, in braces or not, after `urn:uuid:` or not, is sent as the 16 bytes of its pairs of digits. -/
theorem C84_uuid_text (pre o body c : Str) (ds : List (Char × Nat)) (hpre : pre ∈ ["".toList, "urn:uuid:".toList, "uuid:".toList, "urn:".toList]) (ho : ∀ x ∈ o, x = '{' ∨ x = '}')
    (hc : ∀ x ∈ c, x = '{' ∨ x = '}') (hd : ∀ d ∈ ds, d ∈ hexDigits) (hl : ds.length = 32) (hb : body.filter (· ≠ '-') = ds.map Prod.fst) :
    uuidPack (.text (pre ++ (o ++ body ++ c))) = .ok (pairs (ds.map Prod.snd)) := by
  have hbo : ∀ x ∈ body, x = '-' ∨ ∃ d ∈ ds, d.1 = x := by
    intro x hx
    by_cases hm : x = '-'
    · exact Or.inl hm
    · have : x ∈ body.filter (· ≠ '-') := List.mem_filter.mpr ⟨hx, by simpa using hm⟩
      rw [hb] at this
      obtain ⟨d, h1, h2⟩ := List.mem_map.mp this
      exact Or.inr ⟨d, h1, h2⟩
  have hbr : ∀ {l : Str}, (∀ x ∈ l, x = '{' ∨ x = '}') → ∀ x ∈ l, brace x = true := by
    intro l h x hx
    rcases h x hx with rfl | rfl <;> rfl
  have hbb : ∀ x ∈ body, brace x = false := by
    intro x hx
    rcases hbo x hx with rfl | ⟨d, h1, rfl⟩
    · rfl
    · exact (digit_facts d (hd d h1)).2.2.2.2.2.2.2.2.1
  have hu : 'u' ∉ o ++ body ++ c := by
    intro hm
    simp only [List.mem_append] at hm
    rcases hm with (hm | hm) | hm
    · rcases ho _ hm with h | h <;> cases h
    · rcases hbo _ hm with h | ⟨d, h1, h2⟩
      · cases h
      · exact (digit_facts d (hd d h1)).2.2.2.2.2.2.2.1 h2
    · rcases hc _ hm with h | h <;> cases h
  have hne : body ≠ [] := by
    intro e
    rw [e] at hb
    have := congrArg List.length hb
    simp [hl] at this
  have hrem : removeAll "uuid:".toList 0 (removeAll "urn:".toList 0 (pre ++ (o ++ body ++ c))) = o ++ body ++ c := by
    have e1 : removeAll "urn:".toList 0 (o ++ body ++ c) = o ++ body ++ c := removeAll_none 'u' ['r', 'n', ':'] _ hu
    have e2 : removeAll "uuid:".toList 0 (o ++ body ++ c) = o ++ body ++ c := removeAll_none 'u' ['u', 'i', 'd', ':'] _ hu
    simp only [List.mem_cons, List.not_mem_nil, or_false] at hpre
    generalize o ++ body ++ c = t at e1 e2 ⊢
    rcases hpre with rfl | rfl | rfl | rfl
    · rw [show "".toList ++ t = t from rfl, e1, e2]
    · rw [show removeAll "urn:".toList 0 ("urn:uuid:".toList ++ t) = "uuid:".toList ++ removeAll "urn:".toList 0 t from rfl, e1]
      rw [show removeAll "uuid:".toList 0 ("uuid:".toList ++ t) = removeAll "uuid:".toList 0 t from rfl, e2]
    · rw [show removeAll "urn:".toList 0 ("uuid:".toList ++ t) = "uuid:".toList ++ removeAll "urn:".toList 0 t from rfl, e1]
      rw [show removeAll "uuid:".toList 0 ("uuid:".toList ++ t) = removeAll "uuid:".toList 0 t from rfl, e2]
    · rw [show removeAll "urn:".toList 0 ("urn:".toList ++ t) = removeAll "urn:".toList 0 t from rfl, e1, e2]
  obtain ⟨e1, e2⟩ := beEnc_pairs (ds.map Prod.snd) (by
    intro v hv
    obtain ⟨d, h1, rfl⟩ := List.mem_map.mp hv
    exact (digit_facts d (hd d h1)).2.1) (by rw [List.length_map, hl])
  have key : uuidOf (pre ++ (o ++ body ++ c)) = .ok (number 0 (ds.map Prod.snd)) := by
    unfold uuidOf
    dsimp only
    rw [hrem, stripBraces_ok o body c (hbr ho) (hbr hc) hbb hne, hb, if_neg (by rw [List.length_map, hl]; simp)]
    cases ds with
    | nil => cases hl
    | cons d ds =>
      rw [pyInt_digits d ds hd]
      dsimp only
      rw [if_pos ⟨Int.natCast_nonneg _, by exact_mod_cast e2⟩, Int.toNat_natCast]
  unfold uuidPack
  dsimp only
  rw [key]
  dsimp only
  rw [e1]

theorem hexByte_digits : ∀ b : UInt8, ∃ x y, (x ∈ hexDigits ∧ y ∈ hexDigits) ∧ hexByte b = [x.1, y.1] ∧ UInt8.ofNat (16 * x.2 + y.2) = b := by
  intro b
  have h : ∀ n < 256, (hexDigits[n / 16]! ∈ hexDigits ∧ hexDigits[n % 16]! ∈ hexDigits) ∧ hexByte (UInt8.ofNat n) = [hexDigits[n / 16]!.1, hexDigits[n % 16]!.1] ∧
      UInt8.ofNat (16 * hexDigits[n / 16]!.2 + hexDigits[n % 16]!.2) = UInt8.ofNat n := by decide +kernel
  have hb := h b.toNat (UInt8.toNat_lt b)
  rw [show UInt8.ofNat b.toNat = b by simp] at hb
  exact ⟨_, _, hb⟩

theorem hexBytes_digits : ∀ b : Bytes, ∃ ds : List (Char × Nat), (∀ d ∈ ds, d ∈ hexDigits) ∧ ds.length = 2 * b.length ∧ b.flatMap hexByte = ds.map Prod.fst ∧ pairs (ds.map Prod.snd) = b
  | [] => ⟨[], by simp, rfl, rfl, rfl⟩
  | x :: b => by
    obtain ⟨d, e, ⟨h1, h2⟩, h3, h4⟩ := hexByte_digits x
    obtain ⟨ds, g1, g2, g3, g4⟩ := hexBytes_digits b
    refine ⟨d :: e :: ds, ?_, by simp [g2]; omega, ?_, ?_⟩
    · intro z hz
      simp only [List.mem_cons] at hz
      rcases hz with rfl | rfl | hz
      · exact h1
      · exact h2
      · exact g1 z hz
    · rw [List.flatMap_cons, h3, g3]; rfl
    · rw [List.map_cons, List.map_cons, pairs, h4, g4]

theorem filter_digits (b : Bytes) : (b.flatMap hexByte).filter (· ≠ '-') = b.flatMap hexByte := by
  rw [List.filter_eq_self]
  intro c hc
  obtain ⟨ds, g1, _, g3, _⟩ := hexBytes_digits b
  rw [g3] at hc
  obtain ⟨d, h1, rfl⟩ := List.mem_map.mp hc
  simpa using (digit_facts d (g1 d h1)).2.2.2.1

/-- **C84** The standard text of a UUID (as `str()` of one) is sent as the bytes of that UUID. -/
theorem C84_uuid_standard (b : Bytes) (h : b.length = 16) : uuidPack (.text (standard b)) = .ok b := by
  obtain ⟨ds, g1, g2, g3, g4⟩ := hexBytes_digits b
  have := C84_uuid_text [] [] (standard b) [] ds (by simp) (by simp) (by simp) g1 (by omega) (by
    unfold standard
    have hdash : ∀ s : Str, ('-' :: s).filter (· ≠ '-') = s.filter (· ≠ '-') := fun s => by rw [List.filter_cons_of_neg (by simp)]
    simp only [List.filter_append, hdash, filter_digits]
    rw [← g3, ← List.flatMap_append, ← List.flatMap_append, ← List.flatMap_append, ← List.flatMap_append]
    congr 1
    have e4 : (b.drop 8).take 2 ++ b.drop 10 = b.drop 8 := by
      have := List.take_append_drop 2 (b.drop 8); rwa [List.drop_drop] at this
    have e3 : (b.drop 6).take 2 ++ b.drop 8 = b.drop 6 := by
      have := List.take_append_drop 2 (b.drop 6); rwa [List.drop_drop] at this
    have e2 : (b.drop 4).take 2 ++ b.drop 6 = b.drop 4 := by
      have := List.take_append_drop 2 (b.drop 4); rwa [List.drop_drop] at this
    rw [e4, e3, e2, List.take_append_drop])
  rw [g4] at this
  simpa using this

example : uuidPack (.text "{A0EEBC99-9c0b-4ef8-bb6d-6bb9bd380a11}".toList) = .ok [160, 238, 188, 153, 156, 11, 78, 248, 187, 109, 107, 185, 189, 56, 10, 17] := by decide +kernel
example : standard [160, 238, 188, 153, 156, 11, 78, 248, 187, 109, 107, 185, 189, 56, 10, 17] = "a0eebc99-9c0b-4ef8-bb6d-6bb9bd380a11".toList := by decide +kernel

/-- Texts that are no UUIDs are taken as well: Python reads the 32 characters as a number. -/
theorem C84_uuid_loose : uuidPack (.text "0x000000000000000000000000000001".toList) = .ok (List.replicate 15 0 ++ [1]) ∧
    uuidPack (.text "+0_0_0_0_0_0_0_0_0_0_0_0_0_0_01f".toList) = .ok (List.replicate 15 0 ++ [31]) ∧
    uuidPack (.text " 000000000000000000000000000000a".toList) = .ok (List.replicate 15 0 ++ [10]) ∧
    uuidPack (.text "-0-1".toList) = .error .valueError := by decide +kernel

/-! ## Paths and vectors -/

theorem eights_flatten : ∀ (data : List Bytes), (∀ d ∈ data, d.length = 8) → eights data.length data.flatten = data
  | [], _ => rfl
  | d :: data, h => by
    have hd := h d List.mem_cons_self
    rw [List.length_cons, List.flatten_cons, eights, List.take_left' hd, List.drop_left' hd, eights_flatten data fun x hx => h x (List.mem_cons_of_mem _ hx)]

theorem flatten_length : ∀ (data : List Bytes), (∀ d ∈ data, d.length = 8) → data.flatten.length = 8 * data.length
  | [], _ => rfl
  | d :: data, h => by
    rw [List.flatten_cons, List.length_append, flatten_length data fun x hx => h x (List.mem_cons_of_mem _ hx), h d List.mem_cons_self, List.length_cons]
    omega

/-- The numbers of a path come back. -/
theorem C84_path (data : List Bytes) (h : ∀ d ∈ data, d.length = 8) (hl : data.length < 2 ^ 31) : ∃ b, pathPack data = .ok b ∧ pathUnpack b = .ok data ∧ b.length = 4 + 8 * data.length := by
  have hS : packS 4 (data.length : Int) = .ok (beEnc 4 data.length) := by
    unfold packS
    rw [if_pos (by constructor <;> omega)]
    congr 2
    omega
  refine ⟨beEnc 4 data.length ++ data.flatten, ?_, ?_, ?_⟩
  · unfold pathPack; rw [hS]; rfl
  · unfold pathUnpack
    rw [List.take_left' (length_beEnc 4 _)]
    have hu : unpackS 4 (beEnc 4 data.length) = .ok (data.length : Int) := by
      unfold unpackS
      rw [if_pos (length_beEnc 4 _), beDec_beEnc_of_lt (by omega)]
      unfold toSigned
      rw [if_pos (by omega)]
    rw [hu]
    simp only [bind, Except.bind]
    rw [if_neg (by omega), if_neg (by rw [List.length_append, length_beEnc, flatten_length data h]; simp), List.drop_left' (length_beEnc 4 _)]
    show Except.ok (eights (Int.toNat data.length) data.flatten) = _
    rw [Int.toNat_natCast, eights_flatten data h]
  · rw [List.length_append, length_beEnc, flatten_length data h]

theorem eights_spec : ∀ (n : Nat) (b : Bytes), b.length = 8 * n → (eights n b).flatten = b ∧ (eights n b).length = n ∧ ∀ d ∈ eights n b, d.length = 8
  | 0, b, h => by
    have : b = [] := List.eq_nil_of_length_eq_zero (by omega)
    subst this
    exact ⟨rfl, rfl, by simp [eights]⟩
  | n + 1, b, h => by
    obtain ⟨h1, h2, h3⟩ := eights_spec n (b.drop 8) (by rw [List.length_drop]; omega)
    refine ⟨?_, ?_, ?_⟩
    · rw [eights, List.flatten_cons, h1, List.take_append_drop]
    · rw [eights, List.length_cons, h2]
    · intro d hd
      rw [eights] at hd
      rcases List.mem_cons.mp hd with rfl | hd
      · rw [List.length_take]; omega
      · exact h3 d hd

/-- Only what is a packed path is read: nothing is left over, nothing is missing. -/
theorem C84_path_exact (b : Bytes) (data : List Bytes) (h : pathUnpack b = .ok data) : pathPack data = .ok b ∧ ∀ d ∈ data, d.length = 8 := by
  unfold pathUnpack at h
  cases hu : unpackS 4 (b.take 4) with
  | error e => rw [hu] at h; cases h
  | ok n =>
    rw [hu] at h
    simp only [bind, Except.bind] at h
    split at h
    · cases h
    · rename_i hn
      split at h
      · cases h
      · rename_i hl
        obtain ⟨e1, e2, e3⟩ := eights_spec n.toNat (b.drop 4) (by rw [List.length_drop]; omega)
        obtain rfl : eights n.toNat (b.drop 4) = data := Except.ok.inj h
        refine ⟨?_, e3⟩
        have hb4 : (b.take 4).length = 4 := by rw [List.length_take]; omega
        have hp : packS 4 n = .ok (b.take 4) := by
          unfold unpackS at hu
          rw [if_pos hb4] at hu
          have hu' := Except.ok.inj hu
          unfold toSigned at hu'
          have hlt : beDec (b.take 4) < 256 ^ 4 := by have := beDec_lt (b.take 4); rw [hb4] at this; exact this
          unfold packS
          split at hu'
          · rename_i hh
            rw [if_pos (by omega)]
            congr 1
            have : (n % (256 ^ 4 : Int)).toNat = beDec (b.take 4) := by omega
            rw [this]
            have := beEnc_beDec (b.take 4)
            rw [hb4] at this
            exact this
          · omega
        unfold pathPack
        rw [e2, Int.toNat_of_nonneg (by omega), hp]
        show Except.ok (b.take 4 ++ (eights n.toNat (b.drop 4)).flatten) = _
        rw [e1, List.take_append_drop]

example : pathUnpack [0, 0, 0, 1, 1, 2, 3, 4, 5, 6, 7, 8] = .ok [[1, 2, 3, 4, 5, 6, 7, 8]] := by decide +kernel
example : pathUnpack [0, 0, 0, 1, 1, 2, 3, 4, 5, 6, 7, 8, 9] = .error .structError := by decide +kernel

/-- But the number sent is that of the coordinates, where the server expects that of the points: they agree for the empty polygon only. -/
theorem C84_polygon_count (data : List Bytes) (h : data.length < 2 ^ 31) (points : Nat) (hp : data.length = 2 * points) :
    ∃ b, pathPack data = .ok b ∧ (beDec (b.take 4) = points ↔ points = 0) := by
  have hS : packS 4 (data.length : Int) = .ok (beEnc 4 data.length) := by
    unfold packS
    rw [if_pos (by constructor <;> omega)]
    congr 2
    omega
  refine ⟨beEnc 4 data.length ++ data.flatten, ?_, ?_⟩
  · unfold pathPack; rw [hS]; rfl
  · rw [List.take_left' (length_beEnc 4 _), beDec_beEnc_of_lt (by omega)]
    omega

/-- No vector is ever packed. -/
theorem C84_vectors_never (seq : List Int) (b : Bytes) : oidvectorPack seq ≠ .ok b ∧ int2vectorPack seq ≠ .ok b := by
  constructor
  · unfold oidvectorPack
    cases seq.mapM (packU 4) <;> (intro h; cases h)
  · unfold int2vectorPack
    cases seq.mapM (packS 2) <;> (intro h; cases h)

example : oidvectorPack [1, 2] = .error .typeError := by decide

/-! ## xml -/

/-- XML content: text, then elements each followed by text. -/
def contentText {ν : Type} (L : Lib ν) (lead : Str) (l : List (ν × Str)) : Str := L.escape lead ++ l.flatMap fun x => L.ser x.1 ++ L.escape x.2

/-- The library reads what it writes; a text is a document if it is one element with nothing but white space around it. -/
structure Lib.Ok {ν : Type} (L : Lib ν) : Prop where
  content : ∀ lead l, L.content (contentText L lead l) = some (lead, l)
  document : ∀ lead e tail, blank lead = true → blank tail = true → L.doc (contentText L lead [(e, tail)]) = some e
  noDocument : ∀ lead l, (∀ e tail, l = [(e, tail)] → blank lead = false ∨ blank tail = false) → L.doc (contentText L lead l) = none
  empty : L.escape [] = []

/-- **C84** Elements packed as a tuple come back as a tuple of the same elements, each with the text after it; unless it is one element with nothing but white space after it, which comes back as an element. -/
theorem C84_xml_partial {ν : Type} (L : Lib ν) (hL : L.Ok) (C : Codec) (decode : Bytes → Option Str) (hutf : C.encoding = "utf-8".toList) (hdec : ∀ t, decode (C.utf8 t) = some t)
    (l : List (ν × Str)) : ∃ b t, xmlPack L C (.tuple (l.map fun x => .elem x.1 x.2)) = some b ∧ decode b = some t ∧
      xmlUnpack L t = some (match l with
        | [(e, tail)] => if blank tail then .element e else .tuple [(e, tail)]
        | l => .tuple l) := by
  have ht : (l.map fun x => Item.elem x.1 x.2).flatMap (Item.text L) = contentText L [] l := by
    unfold contentText
    rw [hL.empty, List.nil_append, List.flatMap_map]
    rfl
  refine ⟨C.utf8 (contentText L [] l), contentText L [] l, ?_, hdec _, ?_⟩
  · rw [xmlPack, ht, finish, if_pos (Or.inr hutf)]
  · have hno : (∀ e tail, l = [(e, tail)] → blank [] = false ∨ blank tail = false) → xmlUnpack L (contentText L [] l) = some (.tuple l) := by
      intro h
      unfold xmlUnpack
      rw [hL.noDocument [] l h]
      dsimp only
      rw [hL.content]
    match l with
    | [] => exact hno (by intro e t h; cases h)
    | [(e, tail)] =>
      dsimp only
      cases hb : blank tail with
      | true =>
        unfold xmlUnpack
        rw [hL.document [] e tail rfl hb]
        rfl
      | false => exact hno (by intro e' t' h; cases h; exact Or.inr hb)
    | x :: y :: r => exact hno (by intro e' t' h; cases h)

/-- What is missing: text before the first element is lost when content is read, and with it all of content without elements. -/
theorem C84_xml_text_lost {ν : Type} (L : Lib ν) (hL : L.Ok) (lead : Str) (l : List (ν × Str)) (h : l.length ≠ 1) :
    xmlUnpack L (contentText L lead l) = some (.tuple l) ∧ xmlUnpack L (contentText L lead []) = some (.tuple []) := by
  have key : ∀ l : List (ν × Str), l.length ≠ 1 → xmlUnpack L (contentText L lead l) = some (.tuple l) := by
    intro l h
    unfold xmlUnpack
    rw [hL.noDocument lead l (by intro e t he; rw [he] at h; simp at h)]
    dsimp only
    rw [hL.content]
  exact ⟨key l h, key [] (by simp)⟩

/-- Other ways: bytes are sent as they are, a text in the encoding of the connection; elements are sent in UTF-8 if that is the encoding and re-encoded if it is another one. -/
theorem C84_xml_other {ν : Type} (L : Lib ν) (C : Codec) (e : ν) (tail s : Str) (b : Bytes) :
    xmlPack L C (.bytes b) = some b ∧ xmlPack L C (.str s) = C.encode s ∧ xmlPack L C (.elem e tail) = xmlPack L C (.tuple [.elem e tail]) ∧
    (C.encoding ≠ "utf8".toList → C.encoding ≠ "utf-8".toList → xmlPack L C (.tuple [.str s, .elem e tail]) = C.encode (s ++ (L.ser e ++ L.escape tail))) := by
  refine ⟨rfl, rfl, ?_, ?_⟩
  · rw [xmlPack, xmlPack]; simp [Item.text]
  · intro h1 h2
    rw [xmlPack, finish, if_neg (by rintro (h | h); exact h1 h; exact h2 h)]
    simp [Item.text]

/-! A library, to show that there are some: elements are numbers, written as that many letters `e` and an `E`; a `t` is before each character of a text. -/

/-- Reads content; `n`: letters `e` seen. -/
def sampleContent : Nat → Str → Option (Str × List (Nat × Str))
  | 0, [] => some ([], [])
  | 0, 't' :: c :: s => (sampleContent 0 s).map fun r => (c :: r.1, r.2)
  | n, 'e' :: s => sampleContent (n + 1) s
  | n, 'E' :: s => (sampleContent 0 s).map fun r => ([], (n, r.1) :: r.2)
  | _, _ => none

/-- The library. -/
def sample : Lib Nat where
  doc s := match sampleContent 0 s with
    | some (lead, [(e, tail)]) => if blank lead && blank tail then some e else none
    | _ => none
  content s := sampleContent 0 s
  ser n := List.replicate n 'e' ++ ['E']
  escape s := s.flatMap fun c => ['t', c]

theorem sample_escape : ∀ (t rest : Str) (l : List (Nat × Str)) (t' : Str), sampleContent 0 rest = some (t', l) → sampleContent 0 (sample.escape t ++ rest) = some (t ++ t', l)
  | [], _, _, _, h => h
  | c :: t, rest, l, t', h => by
    show sampleContent 0 ('t' :: c :: (sample.escape t ++ rest)) = _
    rw [sampleContent, sample_escape t rest l t' h]
    rfl

theorem sample_ser (rest : Str) (l : List (Nat × Str)) (t' : Str) (h : sampleContent 0 rest = some (t', l)) :
    ∀ (n m : Nat), sampleContent m (List.replicate n 'e' ++ 'E' :: rest) = some ([], (m + n, t') :: l)
  | 0, m => by
    show sampleContent m ('E' :: rest) = _
    have : sampleContent m ('E' :: rest) = (sampleContent 0 rest).map fun r => ([], (m, r.1) :: r.2) := by
      cases m <;> simp [sampleContent]
    rw [this, h]
    rfl
  | n + 1, m => by
    show sampleContent m ('e' :: (List.replicate n 'e' ++ 'E' :: rest)) = _
    have : ∀ x, sampleContent m ('e' :: x) = sampleContent (m + 1) x := by
      intro x; cases m <;> simp [sampleContent]
    rw [this, sample_ser rest l t' h n (m + 1), Nat.add_assoc, Nat.add_comm 1 n]

theorem sample_elements : ∀ l : List (Nat × Str), sampleContent 0 (l.flatMap fun x => sample.ser x.1 ++ sample.escape x.2) = some ([], l)
  | [] => rfl
  | (n, t) :: l => by
    rw [List.flatMap_cons, List.append_assoc]
    show sampleContent 0 ((List.replicate n 'e' ++ ['E']) ++ _) = _
    rw [List.append_assoc]
    have h := sample_ser _ l t (by have := sample_escape t _ l [] (sample_elements l); rwa [List.append_nil] at this) n 0
    rw [Nat.zero_add] at h
    exact h

theorem sample_content (lead : Str) (l : List (Nat × Str)) : sampleContent 0 (contentText sample lead l) = some (lead, l) := by
  have := sample_escape lead _ l [] (sample_elements l)
  rwa [List.append_nil] at this

/-- The hypotheses about the library hold of this one. -/
theorem sample_ok : sample.Ok where
  content := sample_content
  document lead e tail h1 h2 := by
    show (match sampleContent 0 (contentText sample lead [(e, tail)]) with | some (lead, [(e, tail)]) => if blank lead && blank tail then some e else none | _ => none) = _
    rw [sample_content]
    dsimp only
    rw [h1, h2]
    rfl
  noDocument lead l h := by
    show (match sampleContent 0 (contentText sample lead l) with | some (lead, [(e, tail)]) => if blank lead && blank tail then some e else none | _ => none) = _
    rw [sample_content]
    match l with
    | [] => rfl
    | [(e, tail)] =>
      dsimp only
      rcases h e tail rfl with h | h <;> simp [h]
    | _ :: _ :: _ => rfl
  empty := rfl

example : xmlUnpack sample (contentText sample "ab".toList [(2, "x".toList), (1, [])]) = some (.tuple [(2, "x".toList), (1, [])]) :=
  (C84_xml_text_lost sample sample_ok "ab".toList [(2, "x".toList), (1, [])] (by decide)).1
example : xmlUnpack sample (contentText sample [] [(2, " ".toList)]) = some (.element 2) := by decide +kernel
example : ∃ b t, xmlPack sample ⟨"utf-8".toList, fun _ => none, fun t => t.map fun c => UInt8.ofNat c.toNat⟩ (.tuple [.elem 3 ['x'], .elem 0 []]) = some b ∧ t = b ∧ b.length = 7 := ⟨_, _, rfl, rfl, by decide +kernel⟩

end PG.UuidXml
