import Verif.Model.Numeric
import Verif.Spec.Numeric
import Verif.Proofs.TypesLib2
namespace PG.Numeric
open PG PG.Spec PG.Spec.Format PG.Spec.Numeric PG.TypesLib PG.Element3

theorem foldl_number (b : Nat) (l : List Nat) (a : Nat) : l.foldl (fun a d => a * b + d) a = a * b ^ l.length + number b l := by
  induction l generalizing a with
  | nil => simp [number]
  | cons x l ih =>
    have h1 := ih (a * b + x)
    have h2 := ih x
    unfold number
    rw [List.foldl_cons, List.foldl_cons, h1, Nat.zero_mul, Nat.zero_add, h2, List.length_cons, Nat.pow_succ]
    rw [Nat.add_mul, Nat.mul_assoc, Nat.mul_comm b, Nat.add_assoc]

theorem number_append (b : Nat) (l m : List Nat) : number b (l ++ m) = number b l * b ^ m.length + number b m := by
  unfold number
  rw [List.foldl_append, foldl_number]; rfl

theorem number_cons (b x : Nat) (l : List Nat) : number b (x :: l) = x * b ^ l.length + number b l := by
  have := number_append b [x] l
  rw [List.singleton_append] at this
  rw [this]; simp [number]

theorem number_zeros (b n : Nat) : number b (List.replicate n 0) = 0 := by
  induction n with
  | zero => rfl
  | succ n ih => rw [List.replicate_succ, number_cons, ih]; simp

theorem number_append_zeros (b : Nat) (l : List Nat) (n : Nat) : number b (l ++ List.replicate n 0) = number b l * b ^ n := by
  rw [number_append, number_zeros, List.length_replicate, Nat.add_zero]

theorem number_zeros_append (b : Nat) (l : List Nat) (n : Nat) : number b (List.replicate n 0 ++ l) = number b l := by
  rw [number_append, number_zeros, Nat.zero_mul, Nat.zero_add]

theorem number_lt (b : Nat) (l : List Nat) (h : ∀ d ∈ l, d < b) : number b l < b ^ l.length := by
  induction l with
  | nil => simp [number]
  | cons x l ih =>
    rw [number_cons, List.length_cons, Nat.pow_succ]
    have h1 := ih fun d hd => h d (List.mem_cons_of_mem _ hd)
    have h2 := h x (List.mem_cons_self ..)
    have h3 : (x + 1) * b ^ l.length ≤ b * b ^ l.length := Nat.mul_le_mul_right _ h2
    rw [Nat.add_mul, Nat.one_mul] at h3
    rw [Nat.mul_comm (b ^ l.length)]
    omega

/-! ## decimal digits -/

theorem decDigits_small {n : Nat} (h : n < 10) : decDigits n = [n] := by rw [decDigits, dif_pos h]
theorem decDigits_big {n : Nat} (h : ¬ n < 10) : decDigits n = decDigits (n / 10) ++ [n % 10] := by rw [decDigits, dif_neg h]

theorem decDigits_spec (n : Nat) : number 10 (decDigits n) = n ∧ (∀ d ∈ decDigits n, d < 10) ∧ ∀ k, n < 10 ^ k → 0 < k → (decDigits n).length ≤ k := by
  induction n using Nat.strongRecOn with
  | _ n ih =>
    by_cases h : n < 10
    · rw [decDigits_small h]
      refine ⟨by simp [number], by simpa using h, fun k _ hk => ?_⟩
      simp only [List.length_singleton]; omega
    · rw [decDigits_big h]
      obtain ⟨h1, h2, h3⟩ := ih (n / 10) (by omega)
      refine ⟨?_, ?_, ?_⟩
      · rw [number_append, h1]; simp [number]; omega
      · intro d hd
        rcases List.mem_append.1 hd with hd | hd
        · exact h2 d hd
        · have := List.mem_singleton.1 hd; omega
      · intro k hk hk0
        rw [List.length_append]
        obtain ⟨j, rfl⟩ : ∃ j, k = j + 1 := ⟨k - 1, by omega⟩
        rw [Nat.pow_succ] at hk
        have hj : 0 < j := by
          rcases Nat.eq_zero_or_pos j with rfl | hj
          · simp at hk; omega
          · exact hj
        have := h3 j (Nat.div_lt_of_lt_mul (by rw [Nat.mul_comm]; exact hk)) hj
        simp only [List.length_cons, List.length_nil]; omega

theorem normal_pos {l : List Nat} (hd : l.head? ≠ some 0) (hne : l ≠ []) : 1 ≤ number 10 l := by
  cases l with
  | nil => exact absurd rfl hne
  | cons x l =>
    rw [number_cons]
    have hx : 1 ≤ x := by
      rcases Nat.eq_zero_or_pos x with rfl | h
      · exact absurd rfl hd
      · exact h
    have : 1 ≤ 10 ^ l.length := Nat.pos_of_ne_zero (by simp)
    have : 1 * 1 ≤ x * 10 ^ l.length := Nat.mul_le_mul hx this
    omega

theorem decDigits_number' (l : List Nat) (hne : l ≠ []) (h10 : ∀ d ∈ l, d < 10) (hd : l.head? ≠ some 0) :
    decDigits (number 10 l) = l := by
  obtain ⟨n, hn⟩ : ∃ n, l.length = n := ⟨_, rfl⟩
  induction n generalizing l with
  | zero => exact absurd (List.length_eq_zero_iff.1 hn) hne
  | succ n ih =>
    obtain ⟨i, x, rfl⟩ : ∃ i x, l = i ++ [x] := ⟨l.dropLast, l.getLast hne, (List.dropLast_concat_getLast hne).symm⟩
    have hx := h10 x (List.mem_append_right _ (List.mem_singleton.2 rfl))
    by_cases hi : i = []
    · subst hi
      rw [List.nil_append]
      have : number 10 [x] = x := by simp [number]
      rw [this, decDigits_small hx]
    · have hhd : i.head? ≠ some 0 := by
        cases i with
        | nil => exact absurd rfl hi
        | cons a i => simpa using hd
      have h1 := normal_pos hhd hi
      have hnum : number 10 (i ++ [x]) = number 10 i * 10 + x := by
        rw [number_append]; simp [number]
      rw [hnum, decDigits_big (by omega), show (number 10 i * 10 + x) / 10 = number 10 i by omega,
        show (number 10 i * 10 + x) % 10 = x by omega,
        ih i hi (fun d hd => h10 d (List.mem_append_left _ hd)) hhd (by rw [List.length_append] at hn; simpa using hn)]

theorem decDigits_number (l : List Nat) (hne : l ≠ []) (h10 : ∀ d ∈ l, d < 10) (hd : l.head? ≠ some 0 ∨ l = [0]) :
    decDigits (number 10 l) = l := by
  by_cases h0 : l = [0]
  · subst h0; decide +kernel
  · exact decDigits_number' l hne h10 (hd.resolve_right h0)

theorem strip_spec (l : List Nat) (h10 : ∀ d ∈ l, d < 10) :
    (if l.dropWhile (· = 0) = [] then [0] else l.dropWhile (· = 0)) = decDigits (number 10 l) := by
  have key : ∀ l : List Nat, number 10 (l.dropWhile (· = 0)) = number 10 l ∧ ((l.dropWhile (· = 0)).head? ≠ some 0) ∧
      ∀ d ∈ l.dropWhile (· = 0), d ∈ l := by
    intro l
    induction l with
    | nil => exact ⟨rfl, by simp, fun d h => h⟩
    | cons x l ih =>
      by_cases hx : x = 0
      · subst hx
        rw [List.dropWhile_cons_of_pos (by simp), ih.1, number_cons]
        exact ⟨by simp, ih.2.1, fun d hd => List.mem_cons_of_mem _ (ih.2.2 d hd)⟩
      · rw [List.dropWhile_cons_of_neg (by simpa using hx)]
        exact ⟨rfl, by simpa using hx, fun d h => h⟩
  obtain ⟨h1, h2, h3⟩ := key l
  rw [← h1]
  by_cases he : l.dropWhile (· = 0) = []
  · rw [if_pos he, he]; decide +kernel
  · rw [if_neg he]
    exact (decDigits_number _ he (fun d hd => h10 d (h3 d hd)) (Or.inl h2)).symm

theorem mkDecimal_spec (s : Int) (hs : s = 0 ∨ s = 1) (l : List Nat) (h10 : ∀ d ∈ l, d < 10) (e : Int) :
    mkDecimal s l e = .ok ⟨s, decDigits (number 10 l), .int e⟩ := by
  unfold mkDecimal
  rw [if_neg (by omega)]
  dsimp only
  rw [strip_spec l h10]

/-! ## groups -/

theorem groups_spec (n : Nat) (l : List Nat) (hl : l.length = 4 * n) (h10 : ∀ d ∈ l, d < 10) :
    number 10000 (groups l) = number 10 l ∧ (groups l).length = n ∧ ∀ d ∈ groups l, d < 10000 := by
  induction n generalizing l with
  | zero =>
    have := List.length_eq_zero_iff.1 hl
    subst this
    exact ⟨rfl, rfl, fun d h => by cases h⟩
  | succ n ih =>
    match l, hl, h10 with
    | a :: b :: c :: d :: r, hl, h10 =>
      have hr : r.length = 4 * n := by simp only [List.length_cons] at hl; omega
      obtain ⟨h1, h2, h3⟩ := ih r hr fun d hd => h10 d (List.mem_cons_of_mem _ (List.mem_cons_of_mem _ (List.mem_cons_of_mem _ (List.mem_cons_of_mem _ hd))))
      have ha := h10 a (by simp)
      have hb := h10 b (by simp)
      have hc := h10 c (by simp)
      have hd := h10 d (by simp)
      refine ⟨?_, by simp [groups, h2], ?_⟩
      · rw [groups, number_cons, h1, h2, number_cons, number_cons, number_cons, number_cons, hr]
        simp only [List.length_cons, hr]
        rw [show (10000 : Nat) = 10 ^ 4 by decide, ← Nat.pow_mul]
        rw [show 4 * n + 1 + 1 + 1 = 3 + 4 * n by omega, show 4 * n + 1 + 1 = 2 + 4 * n by omega, show 4 * n + 1 = 1 + 4 * n by omega,
          Nat.pow_add, Nat.pow_add, Nat.pow_add]
        simp only [Nat.add_mul, Nat.mul_assoc, show (10 : Nat) ^ 3 = 1000 by decide, show (10 : Nat) ^ 2 = 100 by decide, Nat.pow_one]
        omega
      · intro x hx
        rw [groups] at hx
        rcases List.mem_cons.1 hx with rfl | hx
        · omega
        · exact h3 x hx
    | [a, b, c], hl, _ => simp at hl; omega
    | [a, b], hl, _ => simp at hl; omega
    | [a], hl, _ => simp at hl; omega
    | [], hl, _ => simp at hl

theorem strDigits_nat (n : Nat) : strDigits (Int.ofNat n) = .ok (decDigits n) := by
  unfold strDigits
  rw [if_neg (by simp)]; rfl

theorem rjust_spec (n : Nat) (h : n < 10000) : number 10 (List.replicate (4 - (decDigits n).length) 0 ++ decDigits n) = n ∧
    (List.replicate (4 - (decDigits n).length) 0 ++ decDigits n).length = 4 ∧
    ∀ d ∈ List.replicate (4 - (decDigits n).length) 0 ++ decDigits n, d < 10 := by
  obtain ⟨h1, h2, h3⟩ := decDigits_spec n
  have := h3 4 h (by omega)
  refine ⟨by rw [number_zeros_append, h1], by rw [List.length_append, List.length_replicate]; omega, ?_⟩
  intro d hd
  rcases List.mem_append.1 hd with hd | hd
  · rw [List.eq_of_mem_replicate hd]; omega
  · exact h2 d hd

theorem convertRest_spec (ds : List Nat) (h : ∀ d ∈ ds, d < 10000) :
    ∃ l, convertRest (ds.map (Int.ofNat ·)) = .ok l ∧ number 10 l = number 10000 ds ∧ l.length = 4 * ds.length ∧ ∀ d ∈ l, d < 10 := by
  induction ds with
  | nil => exact ⟨[], rfl, rfl, rfl, fun d h => by cases h⟩
  | cons x ds ih =>
    obtain ⟨l, h1, h2, h3, h4⟩ := ih fun d hd => h d (List.mem_cons_of_mem _ hd)
    obtain ⟨r1, r2, r3⟩ := rjust_spec x (h x (List.mem_cons_self ..))
    refine ⟨List.replicate (4 - (decDigits x).length) 0 ++ decDigits x ++ l, ?_, ?_, ?_, ?_⟩
    · simp only [List.map_cons, convertRest, strDigits_nat, h1, bind_ok, pure_ok]
    · rw [number_append, r1, h2, h3, number_cons, Nat.pow_mul]
    · rw [List.length_append, r2, h3, List.length_cons]; omega
    · intro d hd
      rcases List.mem_append.1 hd with hd | hd
      · exact r3 d hd
      · exact h4 d hd

theorem convertDigits_spec (ds : List Nat) (h : ∀ d ∈ ds, d < 10000) :
    ∃ l, convertDigits (ds.map (Int.ofNat ·)) = .ok l ∧ number 10 l = number 10000 ds ∧ ∀ d ∈ l, d < 10 := by
  cases ds with
  | nil => exact ⟨[], rfl, rfl, fun d h => by cases h⟩
  | cons x ds =>
    obtain ⟨l, h1, h2, h3, h4⟩ := convertRest_spec ds fun d hd => h d (List.mem_cons_of_mem _ hd)
    obtain ⟨r1, r2, r3⟩ := decDigits_spec x
    refine ⟨decDigits x ++ l, ?_, ?_, ?_⟩
    · simp only [List.map_cons, convertDigits, strDigits_nat, h1, bind_ok, pure_ok]
    · rw [number_append, r1, h2, h3, number_cons, Nat.pow_mul]
    · intro d hd
      rcases List.mem_append.1 hd with hd | hd
      · exact r2 d hd
      · exact h4 d hd

theorem number_take (l : List Nat) (h10 : ∀ d ∈ l, d < 10) (k : Nat) : number 10 (l.take (l.length - k)) = number 10 l / 10 ^ k := by
  by_cases hk : k ≤ l.length
  · have e : number 10 l = number 10 (l.take (l.length - k) ++ l.drop (l.length - k)) := by rw [List.take_append_drop]
    rw [number_append, List.length_drop, show l.length - (l.length - k) = k by omega] at e
    have hlt := number_lt 10 (l.drop (l.length - k)) fun d hd => h10 d (List.mem_of_mem_drop hd)
    rw [List.length_drop, show l.length - (l.length - k) = k by omega] at hlt
    rw [e, Nat.add_comm, Nat.add_mul_div_right _ _ (Nat.pos_of_ne_zero (by simp)), Nat.div_eq_of_lt hlt, Nat.zero_add]
  · have hlt := number_lt 10 l h10
    have : 10 ^ l.length ≤ 10 ^ k := Nat.pow_le_pow_right (by omega) (by omega)
    rw [show l.length - k = 0 by omega, Nat.div_eq_of_lt (by omega)]
    rfl

/-- `ofWire` for digits in range. -/
theorem ofWire_spec (ds : List Nat) (h : ∀ d ∈ ds, d < 10000) (nd weight sign dscale : Int) (hs : sign = 0 ∨ sign = 16384)
    (c : Nat) (npad : Int) (hn : npad = dscale - (nd - (weight + 1)) * 4)
    (hc : (0 ≤ npad → c = number 10000 ds * 10 ^ npad.toNat) ∧ (npad < 0 → number 10000 ds = c * 10 ^ (-npad).toNat)) :
    ofWire ⟨nd, weight, sign, dscale, ds.map (Int.ofNat ·)⟩ =
      .ok ⟨if sign = 16384 then 1 else 0, decDigits c, .int (-dscale)⟩ := by
  obtain ⟨l, h1, h2, h3⟩ := convertDigits_spec ds h
  have hu : ofWire ⟨nd, weight, sign, dscale, ds.map (Int.ofNat ·)⟩ = (convertDigits (ds.map (Int.ofNat ·)) >>= fun l =>
      mkDecimal (if sign = 16384 then 1 else sign) (if 0 ≤ dscale - (nd - (weight + 1)) * 4 then
        l ++ List.replicate (dscale - (nd - (weight + 1)) * 4).toNat 0
        else l.take (l.length - (-(dscale - (nd - (weight + 1)) * 4)).toNat)) (-dscale)) := rfl
  rw [hu, ← hn, h1, bind_ok]
  have hsg : (if sign = 16384 then (1 : Int) else sign) = if sign = 16384 then 1 else 0 := by
    rcases hs with rfl | rfl <;> rfl
  rw [hsg]
  have hs' : (if sign = 16384 then (1 : Int) else 0) = 0 ∨ (if sign = 16384 then (1 : Int) else 0) = 1 := by
    rcases hs with rfl | rfl
    · exact Or.inl rfl
    · exact Or.inr rfl
  by_cases hp : 0 ≤ npad
  · rw [if_pos hp, mkDecimal_spec _ hs' _ ?_ _, number_append_zeros, h2, hc.1 hp]
    intro d hd
    rcases List.mem_append.1 hd with hd | hd
    · exact h3 d hd
    · rw [List.eq_of_mem_replicate hd]; omega
  · rw [if_neg hp, mkDecimal_spec _ hs' _ (fun d hd => h3 d (List.mem_of_mem_take hd)) _, number_take l h3, h2, hc.2 (by omega),
      Nat.mul_div_cancel _ (Nat.pos_of_ne_zero (by simp))]

/-! ## packing -/

theorem padOf_spec (n : Int) : padOf n < 4 ∧ (n + padOf n) % 4 = 0 := by
  unfold padOf
  dsimp only
  split <;> omega

theorem trailingZeros_spec (l : List Nat) (e : Int) :
    trailingZeros l e ≤ l.length ∧ (trailingZeros l e : Nat) ≤ (-e).toNat ∧
      l = l.take (l.length - trailingZeros l e) ++ List.replicate (trailingZeros l e) 0 := by
  have key : ∀ (m : List Nat) (k : Nat), ((m.take k).takeWhile (· = 0)).length ≤ k ∧ ((m.take k).takeWhile (· = 0)).length ≤ m.length ∧
      m = List.replicate ((m.take k).takeWhile (· = 0)).length 0 ++ m.drop ((m.take k).takeWhile (· = 0)).length := by
    intro m
    induction m with
    | nil => intro k; simp
    | cons x m ih =>
      intro k
      cases k with
      | zero => simp
      | succ k =>
        rw [List.take_succ_cons]
        by_cases hx : x = 0
        · subst hx
          rw [List.takeWhile_cons_of_pos (by simp)]
          obtain ⟨h1, h2, h3⟩ := ih k
          refine ⟨by rw [List.length_cons]; omega, by simp only [List.length_cons]; omega, ?_⟩
          rw [List.length_cons, List.replicate_succ, List.cons_append, List.drop_succ_cons, ← h3]
        · rw [List.takeWhile_cons_of_neg (by simpa using hx)]; simp
  obtain ⟨h1, h2, h3⟩ := key l.reverse (min l.length (-e).toNat)
  have ht : ((l.reverse.take (min l.length (-e).toNat)).takeWhile (· = 0)).length = trailingZeros l e := rfl
  rw [ht] at h1 h2 h3
  rw [List.length_reverse] at h2
  refine ⟨h2, by omega, ?_⟩
  have h4 := congrArg List.reverse h3
  rw [List.reverse_reverse, List.reverse_append, List.reverse_replicate] at h4
  rw [List.drop_reverse, List.reverse_reverse] at h4
  exact h4

theorem wireOf_spec (s : Int) (digits : List Nat) (h10 : ∀ d ∈ digits, d < 10) (weight ldigits rdigits : Int) (hw : weight % 4 = 0) (rpad : Nat)
    (hr : (rdigits + rpad) % 4 = 0) (hl : (digits.length : Int) = ldigits + rdigits) (dscale : Int) :
    ∃ ds : List Nat, (wireOf s digits weight ldigits rdigits rpad dscale).digits = ds.map (Int.ofNat ·) ∧ (∀ d ∈ ds, d < 10000) ∧
      (wireOf s digits weight ldigits rdigits rpad dscale).ndigits = ds.length ∧ (ds.length : Int) * 4 = digits.length + padOf ldigits + rpad ∧
      number 10000 ds = number 10 digits * 10 ^ rpad ∧
      ((wireOf s digits weight ldigits rdigits rpad dscale).weight + 1) * 4 = weight + (ldigits + padOf ldigits) := by
  obtain ⟨p1, p2⟩ := padOf_spec ldigits
  obtain ⟨n, hn⟩ : ∃ n : Nat, padOf ldigits + digits.length + rpad = 4 * n := ⟨(padOf ldigits + digits.length + rpad) / 4, by omega⟩
  obtain ⟨g1, g2, g3⟩ := groups_spec n (List.replicate (padOf ldigits) 0 ++ digits ++ List.replicate rpad 0)
    (by simp only [List.length_append, List.length_replicate]; exact hn) (by
      intro d hd
      rcases List.mem_append.1 hd with hd | hd
      · rcases List.mem_append.1 hd with hd | hd
        · rw [List.eq_of_mem_replicate hd]; omega
        · exact h10 d hd
      · rw [List.eq_of_mem_replicate hd]; omega)
  refine ⟨_, rfl, g3, ?_, ?_, ?_, ?_⟩
  · simp only [wireOf, g2]; omega
  · rw [g2]; omega
  · rw [g1, number_append_zeros, number_zeros_append]
  · simp only [wireOf]; omega

theorem toWire_spec (s : Int) (x : List Nat) (h10 : ∀ d ∈ x, d < 10) (e : Int) :
    ∃ (ds : List Nat) (weight : Int), toWire s x e = ⟨ds.length, weight, if s = 1 then 16384 else s, if e < 0 then -e else 0, ds.map (Int.ofNat ·)⟩ ∧
      (∀ d ∈ ds, d < 10000) ∧
      (∃ a b : Nat, number 10000 ds * 10 ^ a = number 10 x * 10 ^ b ∧ (a : Int) - b = wireExponent weight ds - e) ∧
      (ds.length : Int) * 4 ≤ x.length + 6 ∧ x.length + e ≤ (weight + 1) * 4 ∧ (weight + 1) * 4 ≤ x.length + e + 3 := by
  have fin : ∀ (digits : List Nat) (weight ldigits rdigits : Int) (rpad : Nat) (dscale : Int) (nd : Nat) (ds : List Nat),
      (wireOf s digits weight ldigits rdigits rpad dscale).digits = ds.map (Int.ofNat ·) → 
      (wireOf s digits weight ldigits rdigits rpad dscale).ndigits = nd →
      wireOf s digits weight ldigits rdigits rpad dscale = ⟨nd, (wireOf s digits weight ldigits rdigits rpad dscale).weight,
        if s = 1 then 16384 else s, dscale, ds.map (Int.ofNat ·)⟩ := by
    intro digits weight ldigits rdigits rpad dscale nd ds h1 h2
    rw [← h1, ← h2]; rfl
  unfold toWire
  by_cases he : e < 0
  · rw [if_pos he]
    obtain ⟨t1, t2, t3⟩ := trailingZeros_spec x e
    generalize trailingZeros x e = tz at t1 t2 t3 ⊢
    dsimp only
    have hd : (if tz ≠ 0 then x.take (x.length - tz) else x) = x.take (x.length - tz) := by
      split
      · rfl
      · rename_i h; rw [Decidable.not_not.1 h, Nat.sub_zero, List.take_length]
    rw [hd]
    generalize hg : x.take (x.length - tz) = digits at t3
    have hlen : digits.length = x.length - tz := by rw [← hg, List.length_take]; omega
    have hd10 : ∀ d ∈ digits, d < 10 := fun d hd => h10 d (List.mem_of_mem_take (by rw [hg]; exact hd))
    obtain ⟨p1, p2⟩ := padOf_spec (-(e + tz))
    obtain ⟨ds, w1, w2, w3, w4, w5, w6⟩ := wireOf_spec s digits hd10 0 (digits.length - -(e + tz)) (-(e + tz)) (by decide) (padOf (-(e + tz))) p2 (by omega) (-e)
    have hp := padOf_spec (digits.length - -(e + tz))
    refine ⟨ds, _, (by rw [if_pos he]; exact fin _ _ _ _ _ _ _ ds w1 w3), w2, ⟨tz, padOf (-(e + tz)), ?_, ?_⟩, ?_, ?_, ?_⟩
    · rw [w5, t3, number_append_zeros, Nat.mul_assoc, Nat.mul_assoc, Nat.mul_comm (10 ^ tz)]
    · unfold wireExponent; omega
    · omega
    · omega
    · omega
  · rw [if_neg he]
    by_cases hr : e ≠ 0 ∧ e % 4 ≠ 0
    · rw [if_pos hr]
      have hd10 : ∀ d ∈ x ++ List.replicate (e % 4).toNat 0, d < 10 := by
        intro d hd
        rcases List.mem_append.1 hd with hd | hd
        · exact h10 d hd
        · rw [List.eq_of_mem_replicate hd]; omega
      have hlen : (x ++ List.replicate (e % 4).toNat 0).length = x.length + (e % 4).toNat := by
        rw [List.length_append, List.length_replicate]
      obtain ⟨ds, w1, w2, w3, w4, w5, w6⟩ := wireOf_spec s (x ++ List.replicate (e % 4).toNat 0) hd10 (e - e % 4)
        (x ++ List.replicate (e % 4).toNat 0).length 0 (by omega) 0 (by decide) (by omega) 0
      have hp := padOf_spec ((x ++ List.replicate (e % 4).toNat 0).length)
      refine ⟨ds, _, (by rw [if_neg he]; exact fin _ _ _ _ _ _ _ ds w1 w3), w2, ⟨0, (e % 4).toNat, ?_, ?_⟩, ?_, ?_, ?_⟩
      · rw [w5, number_append_zeros, Nat.pow_zero, Nat.mul_one, Nat.mul_one]
      · unfold wireExponent; omega
      · omega
      · omega
      · omega
    · rw [if_neg hr]
      obtain ⟨ds, w1, w2, w3, w4, w5, w6⟩ := wireOf_spec s x h10 e x.length 0 (by omega) 0 (by decide) (by omega) 0
      have hp := padOf_spec (x.length)
      refine ⟨ds, _, (by rw [if_neg he]; exact fin _ _ _ _ _ _ _ ds w1 w3), w2, ⟨0, 0, ?_, ?_⟩, ?_, ?_, ?_⟩
      · rw [w5, Nat.pow_zero, Nat.mul_one]
      · unfold wireExponent; omega
      · omega
      · omega
      · omega

/-! ## values -/

theorem sameValue_of {A B a b : Nat} {f e : Int} (h : A * 10 ^ a = B * 10 ^ b) (hab : (a : Int) - b = f - e) : SameValue A f B e := by
  unfold SameValue
  by_cases hfe : e ≤ f
  · rw [Int.min_eq_right hfe, show e - e = 0 by omega]
    obtain ⟨k, hk⟩ : ∃ k : Nat, f - e = k := ⟨(f - e).toNat, by omega⟩
    rw [hk, Int.toNat_natCast]
    rw [show a = k + b by omega, Nat.pow_add, ← Nat.mul_assoc] at h
    simpa using Nat.eq_of_mul_eq_mul_right (Nat.pos_of_ne_zero (by simp)) h
  · rw [Int.min_eq_left (by omega), show f - f = 0 by omega]
    obtain ⟨k, hk⟩ : ∃ k : Nat, e - f = k := ⟨(e - f).toNat, by omega⟩
    rw [hk, Int.toNat_natCast]
    rw [show b = k + a by omega, Nat.pow_add, ← Nat.mul_assoc] at h
    simpa using Nat.eq_of_mul_eq_mul_right (Nat.pos_of_ne_zero (by simp)) h

theorem sameValue_cases {A B : Nat} {f e : Int} (h : SameValue A f B e) :
    (0 ≤ f - e → B = A * 10 ^ (f - e).toNat) ∧ (f - e < 0 → A = B * 10 ^ (-(f - e)).toNat) := by
  unfold SameValue at h
  constructor
  · intro hfe
    rw [Int.min_eq_right (by omega), show e - e = 0 by omega] at h
    simpa using h.symm
  · intro hfe
    rw [Int.min_eq_left (by omega), show f - f = 0 by omega] at h
    rw [show -(f - e) = e - f by omega]
    simpa using h

theorem sameValue_shift {A B : Nat} {f e g : Int} (h : SameValue A f B e) (hg : g ≤ e) : SameValue A f (B * 10 ^ (e - g).toNat) g := by
  have hc := sameValue_cases h
  by_cases hfe : e ≤ f
  · have := hc.1 (by omega)
    refine sameValue_of (a := (f - e).toNat + (e - g).toNat) (b := 0) ?_ (by omega)
    rw [this, Nat.pow_add, Nat.mul_assoc, Nat.pow_zero, Nat.mul_one, Nat.mul_assoc]
  · have := hc.2 (by omega)
    refine sameValue_of (a := (e - g).toNat) (b := (-(f - e)).toNat) ?_ (by omega)
    rw [this, Nat.mul_assoc, Nat.mul_assoc, Nat.mul_comm (10 ^ (e - g).toNat)]

/-! ## bytes -/

theorem shortsPack_iff (l : List Int) (b : Bytes) : shortsPack l = .ok b ↔ (∀ x ∈ l, InS 2 x) ∧ b = encs (l.map .int16) := by
  induction l generalizing b with
  | nil =>
    constructor
    · intro h; exact ⟨fun x hx => (by cases hx), (Except.ok.inj h).symm⟩
    · intro h; rw [h.2]; rfl
  | cons x l ih =>
    rw [shortsPack]
    constructor
    · intro h
      obtain ⟨a, ha, h⟩ := bind_eq_ok h
      obtain ⟨t, ht, h⟩ := bind_eq_ok h
      obtain ⟨a1, a2⟩ := packS_iff.1 ha
      obtain ⟨t1, t2⟩ := (ih t).1 ht
      cases h
      refine ⟨?_, by rw [a2, t2]; rfl⟩
      intro y hy
      rcases List.mem_cons.1 hy with rfl | hy
      · exact a1
      · exact t1 y hy
    · intro ⟨h1, h2⟩
      rw [packS_digits (h1 x (List.mem_cons_self ..)), bind_ok, (ih _).2 ⟨fun y hy => h1 y (List.mem_cons_of_mem _ hy), rfl⟩, bind_ok, h2]
      rfl

theorem shortsDec_spec (l : List Int) (h : ∀ x ∈ l, InS 2 x) (r : Bytes) : shortsDec l.length (encs (l.map .int16) ++ r) = l := by
  induction l with
  | nil => rfl
  | cons x l ih =>
    have hx := h x (List.mem_cons_self ..)
    have e1 : encs ((x :: l).map .int16) = digits 2 x ++ encs (l.map .int16) := rfl
    have hu := unpackFromS_digits hx []
    rw [List.append_nil, unpackFromS, length_digits, if_neg (by omega), List.take_of_length_le (by rw [length_digits]; omega)] at hu
    rw [List.length_cons, shortsDec, e1, List.append_assoc, List.take_left' (length_digits ..), List.drop_left' (length_digits ..),
      ih fun y hy => h y (List.mem_cons_of_mem _ hy), Except.ok.inj hu]

theorem length_encs16 (l : List Int) : (encs (l.map .int16)).length = 2 * l.length := by
  induction l with
  | nil => rfl
  | cons x l ih =>
    have e1 : encs ((x :: l).map .int16) = digits 2 x ++ encs (l.map .int16) := rfl
    rw [e1, List.length_append, length_digits, ih, List.length_cons]; omega

theorem libUnpack_spec (a b c d : Int) (l : List Int) (h : ∀ x ∈ a :: b :: c :: d :: l, InS 2 x) :
    libUnpack (encs ((a :: b :: c :: d :: l).map .int16)) = .ok ⟨a, b, c, d, l⟩ := by
  have hlen := length_encs16 (a :: b :: c :: d :: l)
  simp only [List.length_cons] at hlen
  have hsplit : encs ((a :: b :: c :: d :: l).map .int16) = encs ([a, b, c, d].map .int16) ++ encs (l.map .int16) := by
    rw [← encs_append, ← List.map_append]; rfl
  have h4 : shortsDec 4 (encs ((a :: b :: c :: d :: l).map .int16)) = [a, b, c, d] := by
    rw [hsplit]
    exact shortsDec_spec [a, b, c, d] (fun x hx => h x (List.mem_append_left l hx)) _
  have hdrop : (encs ((a :: b :: c :: d :: l).map .int16)).drop 8 = encs (l.map .int16) := by
    rw [hsplit, List.drop_left' (i := 8) (length_encs16 [a, b, c, d])]
  unfold libUnpack
  rw [if_neg (by omega), if_neg (by omega), h4, hdrop, show ((encs ((a :: b :: c :: d :: l).map .int16)).length - 8) / 2 = l.length by omega]
  have := shortsDec_spec l (fun x hx => h x (List.mem_cons_of_mem _ (List.mem_cons_of_mem _ (List.mem_cons_of_mem _ (List.mem_cons_of_mem _ hx))))) []
  rw [List.append_nil] at this
  dsimp only
  rw [this]

end PG.Numeric
