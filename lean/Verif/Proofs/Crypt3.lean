import Verif.Proofs.Crypt2
/-!
# The rounds
-/
namespace PG.Proofs.Crypt
open PG PG.Crypt

/-- The bit of a half of a block that is bit `n` of its word. -/
def rho (n : Nat) : Nat := if n = 0 then 32 else n

/-- The tables. -/
def sp : List (List Nat) := [sp0, sp1, sp2, sp3, sp4, sp5, sp6, sp7]

/-- Entry `i` of table `k` is the value of selection function `k` for the bits of `i`, where P puts it. -/
def spRight (k : Nat) : Bool := upTo 64 fun i =>
  let v := Spec.Crypt.value k (i.testBit 0) (i.testBit 1) (i.testBit 2) (i.testBit 3) (i.testBit 4) (i.testBit 5)
  let x := at_ (sp.getD k []) i
  decide (x < 2 ^ 32) && upTo 32 fun n =>
    let q := Spec.Crypt.p.getD (rho n - 1) 0
    x.testBit n == (decide ((q - 1) / 4 = k) && v.testBit (3 - (q - 1) % 4))

theorem sp_right : upTo 8 spRight = true := by decide +kernel

theorem sp_testBit {k i n : Nat} (hk : k < 8) (hi : i < 64) (hn : n < 32) : (at_ (sp.getD k []) i).testBit n =
    (decide ((Spec.Crypt.p.getD (rho n - 1) 0 - 1) / 4 = k) && (Spec.Crypt.value k (i.testBit 0) (i.testBit 1) (i.testBit 2) (i.testBit 3) (i.testBit 4) (i.testBit 5)).testBit
      (3 - (Spec.Crypt.p.getD (rho n - 1) 0 - 1) % 4)) := by
  have h := upTo_spec (upTo_spec sp_right hk) hi
  rw [Bool.and_eq_true] at h
  exact eq_of_beq (upTo_spec h.2 hn)

theorem sp_lt {k i : Nat} (hk : k < 8) (hi : i < 64) : at_ (sp.getD k []) i < 2 ^ 32 := by
  have h := upTo_spec (upTo_spec sp_right hk) hi
  rw [Bool.and_eq_true] at h
  exact of_decide_eq_true h.1

/-- A half of a block and its word. -/
def Word (b : Spec.Crypt.Block) (r : Nat) : Prop := r < 2 ^ 32 ∧ ∀ n < 32, r.testBit n = b (rho n)

theorem mixed_testBit {e r k c : Nat} (he : e < 2 ^ 16) (hc : c < 32) : (mixed e r k).testBit c =
    ((if e.testBit (c % 16) then r.testBit ((c + 16) % 32) else r.testBit c) ^^ k.testBit c) := by
  unfold mixed
  simp only [Nat.testBit_xor, Nat.testBit_and, Nat.testBit_shiftLeft, Nat.testBit_shiftRight]
  rw [mask_testBit (k := 16) (m := 0xffff) (by decide), mask_testBit (k := 16) (m := 0xffff) (by decide)]
  congr 1
  by_cases h : c < 16
  · rw [decide_eq_true h, decide_eq_false (show ¬ c ≥ 16 by omega), show c % 16 = c by omega, show (c + 16) % 32 = 16 + c by omega]
    cases e.testBit c <;> cases r.testBit c <;> cases r.testBit (16 + c) <;> rfl
  · rw [decide_eq_false h, decide_eq_true (show c ≥ 16 by omega), decide_eq_true (show c - 16 < 16 by omega), testBit_ge he (show 16 ≤ c by omega), show 16 + (c - 16) = c by omega,
      show c % 16 = c - 16 by omega, show (c + 16) % 32 = c - 16 by omega]
    simp only [Bool.and_false, Bool.true_and, Bool.and_true]
    cases e.testBit (c - 16) <;> cases r.testBit c <;> cases r.testBit (c - 16) <;> rfl

/-- The rotation of `t`. -/
def turned (t : Nat) : Nat := ((t >>> 4) &&& 0x0fffffff) ||| (t <<< 28)

theorem turned_testBit (t : Nat) {c : Nat} (hc : c < 32) : (turned t).testBit c = t.testBit ((c + 4) % 32) := by
  unfold turned
  rw [Nat.testBit_or, Nat.testBit_and, Nat.testBit_shiftLeft, Nat.testBit_shiftRight, mask_testBit (k := 28) (m := 0x0fffffff) (by decide)]
  by_cases h : c < 28
  · rw [decide_eq_true h, decide_eq_false (show ¬ c ≥ 28 by omega), show (c + 4) % 32 = 4 + c by omega]; simp
  · rw [decide_eq_false h, decide_eq_true (show c ≥ 28 by omega), show (c + 4) % 32 = c - 28 by omega]; simp

/-- The numbers made of the salt: `e0` of bits 1 to 6, `e1` of bits 7 to 12. -/
def Salt (salt : Spec.Crypt.Block) (e0 e1 : Nat) : Prop := e0 < 2 ^ 16 ∧ e1 < 2 ^ 16 ∧
  ∀ w < 2, ∀ j < 6, e0.testBit (8 * w + j) = salt (12 * w + j + 1) ∧ e1.testBit ((8 * w + j + 4) % 16) = salt (12 * w + 6 + j + 1)

/-- Where E takes its bits from. -/
theorem e_tables : upTo 4 (fun w => upTo 6 fun j => Spec.Crypt.e.getD (12 * w + j) 0 = rho (8 * w + j) && Spec.Crypt.e.getD (12 * w + 6 + j) 0 = rho ((8 * w + j + 4) % 32)) = true := by decide +kernel

theorem e_odd {w j : Nat} (hw : w < 4) (hj : j < 6) : Spec.Crypt.e.getD (12 * w + j) 0 = rho (8 * w + j) := by
  have := upTo_spec (upTo_spec e_tables hw) hj
  rw [Bool.and_eq_true] at this
  exact of_decide_eq_true this.1

theorem e_even {w j : Nat} (hw : w < 4) (hj : j < 6) : Spec.Crypt.e.getD (12 * w + 6 + j) 0 = rho ((8 * w + j + 4) % 32) := by
  have := upTo_spec (upTo_spec e_tables hw) hj
  rw [Bool.and_eq_true] at this
  exact of_decide_eq_true this.2

/-- The 48 bits the selection functions are given. -/
def given (salt r k : Spec.Crypt.Block) : Spec.Crypt.Block := Spec.Crypt.xor (Spec.Crypt.salted salt (Spec.Crypt.select Spec.Crypt.e r)) k

theorem salted_eq (salt b : Spec.Crypt.Block) {i : Nat} (hi : i < 48) :
    Spec.Crypt.salted salt b (i + 1) = if salt (i % 24 + 1) then b ((i + 24) % 48 + 1) else b (i + 1) := by
  unfold Spec.Crypt.salted
  by_cases h : i < 24
  · rw [if_pos (show i + 1 ≤ 24 by omega), show i % 24 = i by omega, show (i + 24) % 48 + 1 = i + 1 + 24 by omega]
  · rw [if_neg (show ¬ i + 1 ≤ 24 by omega), show i % 24 + 1 = i + 1 - 24 by omega, show (i + 24) % 48 + 1 = i + 1 - 24 by omega]

theorem mixed_odd {salt b k : Spec.Crypt.Block} {e0 e1 r : Nat} {ws : Nat × Nat} (hs : Salt salt e0 e1) (hr : Word b r) (hk : Key k ws) {w j : Nat} (hw : w < 4) (hj : j < 6) :
    (mixed e0 r ws.1).testBit (8 * w + j) = given salt b k (12 * w + j + 1) := by
  rw [mixed_testBit hs.1 (by omega), (hk w hw j hj).1]
  show _ = (_ ^^ _)
  congr 1
  rw [salted_eq _ _ (show 12 * w + j < 48 by omega), show (12 * w + j) % 24 + 1 = 12 * (w % 2) + j + 1 by omega, ← (hs.2.2 (w % 2) (by omega) j hj).1,
    show (8 * w + j) % 16 = 8 * (w % 2) + j by omega, hr.2 _ (by omega), hr.2 _ (by omega)]
  show _ = if _ then b (Spec.Crypt.e.getD ((12 * w + j + 24) % 48) 0) else b (Spec.Crypt.e.getD (12 * w + j) 0)
  rw [e_odd hw hj, show (12 * w + j + 24) % 48 = 12 * ((w + 2) % 4) + j by omega, e_odd (show (w + 2) % 4 < 4 by omega) hj, show 8 * ((w + 2) % 4) + j = (8 * w + j + 16) % 32 by omega]

theorem mixed_even {salt b k : Spec.Crypt.Block} {e0 e1 r : Nat} {ws : Nat × Nat} (hs : Salt salt e0 e1) (hr : Word b r) (hk : Key k ws) {w j : Nat} (hw : w < 4) (hj : j < 6) :
    (turned (mixed e1 r ws.2)).testBit (8 * w + j) = given salt b k (12 * w + 6 + j + 1) := by
  rw [turned_testBit _ (by omega), mixed_testBit hs.2.1 (by omega), (hk w hw j hj).2]
  show _ = (_ ^^ _)
  congr 1
  rw [salted_eq _ _ (show 12 * w + 6 + j < 48 by omega), show (12 * w + 6 + j) % 24 + 1 = 12 * (w % 2) + 6 + j + 1 by omega, ← (hs.2.2 (w % 2) (by omega) j hj).2,
    show (8 * w + j + 4) % 32 % 16 = (8 * (w % 2) + j + 4) % 16 by omega, hr.2 _ (by omega), hr.2 _ (by omega)]
  show _ = if _ then b (Spec.Crypt.e.getD ((12 * w + 6 + j + 24) % 48) 0) else b (Spec.Crypt.e.getD (12 * w + 6 + j) 0)
  rw [e_even hw hj, show (12 * w + 6 + j + 24) % 48 = 12 * ((w + 2) % 4) + 6 + j by omega, e_even (show (w + 2) % 4 < 4 by omega) hj,
    show (8 * ((w + 2) % 4) + j + 4) % 32 = ((8 * w + j + 4) % 32 + 16) % 32 by omega]

/-- What selection function `k` gives of bits `g`, in bit `n` of the word. -/
def chosen (g : Spec.Crypt.Block) (k n : Nat) : Bool :=
  decide ((Spec.Crypt.p.getD (rho n - 1) 0 - 1) / 4 = k) && Spec.Crypt.substitute g (Spec.Crypt.p.getD (rho n - 1) 0)

theorem window (u w j : Nat) (hj : j < 6) : ((u >>> (8 * w)) &&& 0x3f).testBit j = u.testBit (8 * w + j) := by
  rw [bit_of_six, decide_eq_true hj, Bool.true_and, Nat.testBit_shiftRight]

theorem sp_chosen {g : Spec.Crypt.Block} {k w u n : Nat} (hk : k < 8) (hn : n < 32) (h : ∀ j < 6, u.testBit (8 * w + j) = g (6 * k + j + 1)) :
    (at_ (sp.getD k []) ((u >>> (8 * w)) &&& 0x3f)).testBit n = chosen g k n := by
  rw [sp_testBit hk (six_lt _) hn, window _ _ 0 (by decide), window _ _ 1 (by decide), window _ _ 2 (by decide), window _ _ 3 (by decide), window _ _ 4 (by decide), window _ _ 5 (by decide),
    h 0 (by decide), h 1 (by decide), h 2 (by decide), h 3 (by decide), h 4 (by decide), h 5 (by decide)]
  unfold chosen
  by_cases e : (Spec.Crypt.p.getD (rho n - 1) 0 - 1) / 4 = k
  · rw [decide_eq_true e, Bool.true_and, Bool.true_and]
    unfold Spec.Crypt.substitute
    dsimp only
    rw [e]
  · rw [decide_eq_false e, Bool.false_and, Bool.false_and]

theorem p_range : upTo 32 (fun n => (Spec.Crypt.p.getD (rho n - 1) 0 - 1) / 4 < 8) = true := by decide +kernel

theorem chosen_all (g : Spec.Crypt.Block) {n : Nat} (hn : n < 32) :
    (chosen g 1 n ^^ chosen g 3 n ^^ chosen g 5 n ^^ chosen g 7 n ^^ chosen g 0 n ^^ chosen g 2 n ^^ chosen g 4 n ^^ chosen g 6 n) =
      Spec.Crypt.select Spec.Crypt.p (Spec.Crypt.substitute g) (rho n) := by
  have h := of_decide_eq_true (upTo_spec p_range hn)
  unfold chosen Spec.Crypt.select
  generalize (Spec.Crypt.p.getD (rho n - 1) 0 - 1) / 4 = q at h
  have : q = 0 ∨ q = 1 ∨ q = 2 ∨ q = 3 ∨ q = 4 ∨ q = 5 ∨ q = 6 ∨ q = 7 := by omega
  rcases this with rfl | rfl | rfl | rfl | rfl | rfl | rfl | rfl <;> simp

/-- A round of the code is one of the standard. -/
theorem round_word {salt b b' k : Spec.Crypt.Block} {e0 e1 l r : Nat} {ws : Nat × Nat} (hs : Salt salt e0 e1) (hl : Word b l) (hr : Word b' r) (hk : Key k ws) :
    Word (Spec.Crypt.round salt (b, b') k).1 (round e0 e1 (l, r) ws).1 ∧ Word (Spec.Crypt.round salt (b, b') k).2 (round e0 e1 (l, r) ws).2 := by
  refine ⟨hr, ?_⟩
  have odd : ∀ w < 4, ∀ n < 32, (at_ (sp.getD (2 * w) []) ((mixed e0 r ws.1 >>> (8 * w)) &&& 0x3f)).testBit n = chosen (given salt b' k) (2 * w) n := by
    intro w hw n hn
    refine sp_chosen (by omega) hn fun j hj => ?_
    rw [mixed_odd hs hr hk hw hj, show 6 * (2 * w) + j + 1 = 12 * w + j + 1 by omega]
  have even : ∀ w < 4, ∀ n < 32, (at_ (sp.getD (2 * w + 1) []) ((turned (mixed e1 r ws.2) >>> (8 * w)) &&& 0x3f)).testBit n = chosen (given salt b' k) (2 * w + 1) n := by
    intro w hw n hn
    refine sp_chosen (by omega) hn fun j hj => ?_
    rw [mixed_even hs hr hk hw hj, show 6 * (2 * w + 1) + j + 1 = 12 * w + 6 + j + 1 by omega]
  show Word _ (at_ (sp.getD (2 * 0 + 1) []) ((turned (mixed e1 r ws.2) >>> (8 * 0)) &&& 0x3f) ^^^ at_ (sp.getD (2 * 1 + 1) []) ((turned (mixed e1 r ws.2) >>> (8 * 1)) &&& 0x3f) ^^^
    at_ (sp.getD (2 * 2 + 1) []) ((turned (mixed e1 r ws.2) >>> (8 * 2)) &&& 0x3f) ^^^ at_ (sp.getD (2 * 3 + 1) []) ((turned (mixed e1 r ws.2) >>> (8 * 3)) &&& 0x3f) ^^^
    at_ (sp.getD (2 * 0) []) ((mixed e0 r ws.1 >>> (8 * 0)) &&& 0x3f) ^^^ at_ (sp.getD (2 * 1) []) ((mixed e0 r ws.1 >>> (8 * 1)) &&& 0x3f) ^^^
    at_ (sp.getD (2 * 2) []) ((mixed e0 r ws.1 >>> (8 * 2)) &&& 0x3f) ^^^ at_ (sp.getD (2 * 3) []) ((mixed e0 r ws.1 >>> (8 * 3)) &&& 0x3f) ^^^ l)
  constructor
  · exact Nat.xor_lt_two_pow (Nat.xor_lt_two_pow (Nat.xor_lt_two_pow (Nat.xor_lt_two_pow (Nat.xor_lt_two_pow (Nat.xor_lt_two_pow (Nat.xor_lt_two_pow (Nat.xor_lt_two_pow
      (sp_lt (by decide) (six_lt _)) (sp_lt (by decide) (six_lt _))) (sp_lt (by decide) (six_lt _))) (sp_lt (by decide) (six_lt _))) (sp_lt (by decide) (six_lt _)))
      (sp_lt (by decide) (six_lt _))) (sp_lt (by decide) (six_lt _))) (sp_lt (by decide) (six_lt _))) hl.1
  · intro n hn
    rw [Nat.testBit_xor, Nat.testBit_xor, Nat.testBit_xor, Nat.testBit_xor, Nat.testBit_xor, Nat.testBit_xor, Nat.testBit_xor, Nat.testBit_xor,
      odd 0 (by decide) n hn, odd 1 (by decide) n hn, odd 2 (by decide) n hn, odd 3 (by decide) n hn, even 0 (by decide) n hn, even 1 (by decide) n hn, even 2 (by decide) n hn, even 3 (by decide) n hn,
      hl.2 n hn]
    rw [chosen_all (given salt b' k) hn]
    show _ = (_ ^^ _)
    rw [Bool.xor_comm]
    rfl

/-- The rounds of the code are those of the standard. -/
theorem foldl_word {salt : Spec.Crypt.Block} {e0 e1 : Nat} (hs : Salt salt e0 e1) : ∀ {ks : List Spec.Crypt.Block} {ws : List (Nat × Nat)} {bs : Spec.Crypt.Block × Spec.Crypt.Block} {lr : Nat × Nat},
    Keys ks ws → Word bs.1 lr.1 → Word bs.2 lr.2 →
    Word (ks.foldl (Spec.Crypt.round salt) bs).1 (ws.foldl (round e0 e1) lr).1 ∧ Word (ks.foldl (Spec.Crypt.round salt) bs).2 (ws.foldl (round e0 e1) lr).2
  | [], [], _, _, _, hl, hr => ⟨hl, hr⟩
  | k :: ks, w :: ws, (b, b'), (l, r), h, hl, hr =>
    foldl_word hs (ks := ks) (ws := ws) (bs := Spec.Crypt.round salt (b, b') k) (lr := round e0 e1 (l, r) w) h.2 (round_word hs hl hr h.1).1 (round_word hs hl hr h.1).2

end PG.Proofs.Crypt
