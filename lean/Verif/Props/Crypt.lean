import Verif.Proofs.Crypt4
/-!
# C71: `crypt` is the `crypt(3)` of Unix

`Spec/Crypt` is DES as FIPS 46 publishes it (permutations bit by bit, S-boxes by row and column), perturbed by the salt and iterated 25 times on the zero block.
`resolved/crypt.py` works on whole words with precomputed tables; here it gives the same digits for every password and every salt of the 64 digits.
-/
namespace PG.Props.Crypt
open PG PG.Crypt PG.Proofs.Crypt

/-- The byte of an ASCII character. -/
def byte (c : Char) : UInt8 := UInt8.ofNat c.toNat

/-- C71: for every password and every salt that begins with two of the 64 digits (what follows is ignored), the result is that of the textbook algorithm. -/
theorem C71_crypt (password rest : Bytes) {a b : Char} (ha : a ∈ Spec.Crypt.digits) (hb : b ∈ Spec.Crypt.digits) :
    crypt password (byte a :: byte b :: rest) = (Spec.Crypt.crypt password a b).map byte := by
  have ta := List.all_eq_true.1 salt_tables a ha
  have tb := List.all_eq_true.1 salt_tables b hb
  simp only [Bool.and_eq_true, decide_eq_true_eq] at ta tb
  have h := body_digits (salt_digits ta.2 tb.2) password
  rw [← ta.1, ← tb.1] at h
  exact congrArg (fun t => byte a :: byte b :: t) h

/-- C71: a missing salt is 'AA', a single character is completed by 'A'. -/
theorem C71_salt (password : Bytes) : crypt password [] = (Spec.Crypt.crypt password 'A' 'A').map byte ∧
    ∀ a ∈ Spec.Crypt.digits, crypt password [byte a] = (Spec.Crypt.crypt password a 'A').map byte := by
  constructor
  · exact C71_crypt password [] (a := 'A') (b := 'A') (by decide) (by decide)
  · intro a ha
    exact C71_crypt password [] ha (by decide : 'A' ∈ Spec.Crypt.digits)

/-- C71: of the salt only the first two bytes matter, be they digits or not. -/
theorem C71_salt_two (password rest : Bytes) (x y : UInt8) : crypt password (x :: y :: rest) = crypt password [x, y] := rfl

/-- C71: the hash is the salt and eleven digits, 13 bytes, whatever the bytes of the password and of the salt. -/
theorem C71_length (password salt : Bytes) : (crypt password salt).length = 13 ∧
    (∀ x y rest, salt = x :: y :: rest → (crypt password salt).take 2 = [x, y]) ∧ ∀ x ∈ (crypt password salt).drop 2, ∃ c ∈ Spec.Crypt.digits, x = byte c := by
  have hs : (fullSalt salt).take 2 = [(fullSalt salt).getD 0 0, (fullSalt salt).getD 1 0] := by
    match salt with
    | [] => rfl
    | [_] => rfl
    | _ :: _ :: _ => rfl
  have hc : ∀ i < 64, ∃ c ∈ Spec.Crypt.digits, UInt8.ofNat (cov2char.getD i ' ').toNat = byte c := by
    intro i hi
    refine ⟨Spec.Crypt.digits.getD i '?', ?_, digits_cov i hi⟩
    have : ∀ i < 64, Spec.Crypt.digits.getD i '?' ∈ Spec.Crypt.digits := by decide +kernel
    exact this i hi
  have hx : ∀ o1 o2, ∀ i ∈ sixes o1 o2, i < 64 := by
    intro o1 o2 i hi
    unfold sixes at hi
    simp only [List.mem_cons, List.not_mem_nil, or_false] at hi
    rcases hi with rfl | rfl | rfl | rfl | rfl | rfl | rfl | rfl | rfl | rfl | rfl <;> exact six_lt _
  unfold crypt
  dsimp only
  refine ⟨?_, ?_, ?_⟩
  · rw [hs, List.length_append, List.length_map]
    rfl
  · rintro x y rest rfl
    rfl
  · intro x h
    rw [hs] at h
    replace h : x ∈ List.map _ _ := h
    rw [List.mem_map] at h
    obtain ⟨i, h1, rfl⟩ := h
    exact hc i (hx _ _ i h1)

/-- C71: a hash verifies the password it was made of, whatever the salt. -/
theorem C71_verify (password salt : Bytes) : crypt password (crypt password salt) = crypt password salt := by
  match salt with
  | [] => rfl
  | [_] => rfl
  | _ :: _ :: _ => rfl

/-- C71: of the password only the first eight bytes matter, and of each only the seven low bits. -/
theorem C71_eight (p q salt : Bytes)
    (h : ∀ i < 8, ((p ++ List.replicate 8 0).getD i 0).toNat % 128 = ((q ++ List.replicate 8 0).getD i 0).toNat % 128) : crypt p salt = crypt q salt := by
  have hw : ∀ i, i = 0 ∨ i = 4 → (word ((p ++ [0, 0, 0, 0, 0, 0, 0, 0]).take 8) i &&& 0x7f7f7f7f) <<< 1 = (word ((q ++ [0, 0, 0, 0, 0, 0, 0, 0]).take 8) i &&& 0x7f7f7f7f) <<< 1 := by
    intro i hi
    congr 1
    apply Nat.eq_of_testBit_eq
    intro n
    rw [Nat.testBit_and, Nat.testBit_and, word_testBit, word_testBit]
    by_cases hn : n < 32
    · have hm : ∀ n < 32, (0x7f7f7f7f).testBit n = decide (n % 8 < 7) := by decide
      rw [hm n hn]
      by_cases h7 : n % 8 < 7
      · have e : ∀ r : Bytes, ((r ++ [0, 0, 0, 0, 0, 0, 0, 0]).take 8).getD (i + n / 8) 0 = (r ++ List.replicate 8 0).getD (i + n / 8) 0 := by
          intro r
          rw [List.getD_eq_getElem?_getD, List.getD_eq_getElem?_getD, List.getElem?_take, if_pos (by omega)]
          rfl
        have h' := congrArg (fun x => x.testBit (n % 8)) (h (i + n / 8) (by omega))
        simp only [show 128 = 2 ^ 7 from rfl, Nat.testBit_mod_two_pow, decide_eq_true h7, Bool.true_and] at h'
        rw [e, e, h']
      · rw [decide_eq_false h7, Bool.and_false, Bool.and_false]
    · rw [decide_eq_false hn, Bool.false_and]; rfl
  have hk : startKey ((p ++ [0, 0, 0, 0, 0, 0, 0, 0]).take 8) = startKey ((q ++ [0, 0, 0, 0, 0, 0, 0, 0]).take 8) := by
    unfold startKey
    rw [hw 0 (.inl rfl), hw 4 (.inr rfl)]
  unfold crypt setKey
  rw [hk]

/-- The example of the documentation. -/
example : crypt ("AlOtBsOl".toList.map byte) ("cE".toList.map byte) = "cEpWz5IUCShqM".toList.map byte := by decide +kernel

/-- So the textbook algorithm gives it too. -/
example : (Spec.Crypt.crypt ("AlOtBsOl".toList.map byte) 'c' 'E').map byte = "cEpWz5IUCShqM".toList.map byte := by
  rw [← C71_crypt ("AlOtBsOl".toList.map byte) [] (a := 'c') (b := 'E') (by decide) (by decide)]
  decide +kernel

/-- Other passwords have other hashes, here. -/
example : crypt ("IaLaIoK".toList.map byte) ("cE".toList.map byte) ≠ "cEpWz5IUCShqM".toList.map byte := by decide +kernel

/-- A salt that is not of the digits does not give the hash of the digits it stands for elsewhere, but the hash still begins with it. -/
example : (crypt ("password".toList.map byte) ("$1".toList.map byte)).take 2 = "$1".toList.map byte := by decide +kernel

/-- Only eight bytes matter. -/
example : crypt ("AlOtBsOlAndMore".toList.map byte) ("cE".toList.map byte) = crypt ("AlOtBsOl".toList.map byte) ("cE".toList.map byte) :=
  C71_eight _ _ _ (by decide)

end PG.Props.Crypt
