import Verif.Proofs.Numeric
/-!
# C19: NUMERIC
-/
namespace PG.Props.Numeric
open PG PG.Spec PG.Spec.Format PG.Spec.Numeric PG.Numeric PG.TypesLib PG.Element3

theorem inS2_iff (n : Int) : InS 2 n ↔ -32768 ≤ n ∧ n < 32768 := by
  unfold InS
  rw [show (256 : Int) ^ 2 = 65536 by decide]
  omega

theorem fields_eq (weight sign dscale : Int) (ds : List Nat) :
    numericFields weight sign dscale ds = ((ds.length : Int) :: weight :: sign :: dscale :: ds.map (Int.ofNat ·)).map Field.int16 := by
  unfold numericFields
  simp [Function.comp_def]

theorem libPack_spec (weight sign dscale : Int) (ds : List Nat)
    (h : ∀ x ∈ (ds.length : Int) :: weight :: sign :: dscale :: ds.map (Int.ofNat ·), InS 2 x) :
    libPack ⟨ds.length, weight, sign, dscale, ds.map (Int.ofNat ·)⟩ = .ok (encs (numericFields weight sign dscale ds)) := by
  unfold libPack
  have h1 : shortsPack [(ds.length : Int), weight, sign, dscale] = .ok _ :=
    (shortsPack_iff _ _).2 ⟨fun x hx => h x (List.mem_append_left (ds.map (Int.ofNat ·)) hx), rfl⟩
  have h2 : shortsPack (ds.map (Int.ofNat ·)) = .ok _ :=
    (shortsPack_iff _ _).2 ⟨fun x hx => h x (List.mem_append_right [(ds.length : Int), weight, sign, dscale] hx), rfl⟩
  simp only [h1, h2, bind_ok, pure_ok]
  rw [← encs_append, ← List.map_append, fields_eq]
  rfl

/-- C19: what is received from the server: any numeric in the documented format whose digits after the shown scale are zero comes
out as the decimal with its sign, its value and its scale. -/
theorem C19_unpack_value (weight sign dscale : Int) (ds : List Nat) (hds : ∀ d ∈ ds, d < 10000) (hlen : ds.length < 32768)
    (hw : -32768 ≤ weight ∧ weight < 32768) (hsign : sign = 0 ∨ sign = 0x4000) (hscale : 0 ≤ dscale ∧ dscale < 32768)
    (c : Nat) (hc : SameValue (number 10000 ds) (wireExponent weight ds) c (-dscale)) :
    ∃ cs, Normal cs ∧ number 10 cs = c ∧
      numericUnpack (encs (numericFields weight sign dscale ds)) = .ok ⟨if sign = 0 then 0 else 1, cs, .int (-dscale)⟩ := by
  have hall : ∀ x ∈ (ds.length : Int) :: weight :: sign :: dscale :: ds.map (Int.ofNat ·), InS 2 x := by
    intro x hx
    rw [inS2_iff]
    simp only [List.mem_cons, List.mem_map] at hx
    rcases hx with rfl | rfl | rfl | rfl | ⟨d, hd, rfl⟩
    · omega
    · omega
    · omega
    · omega
    · have := hds d hd
      simp only [Int.ofNat_eq_natCast]; omega
  refine ⟨decDigits c, ?_, (decDigits_spec c).1, ?_⟩
  · obtain ⟨h1, h2, _⟩ := decDigits_spec c
    by_cases h10 : c < 10
    · rw [decDigits_small h10]
      refine ⟨by simp, by simpa using h10, ?_⟩
      intro h; simpa using h
    · have hs := strip_spec (decDigits c) h2
      rw [h1] at hs
      refine ⟨by rw [decDigits_big h10]; simp, h2, ?_⟩
      intro h0
      exfalso
      cases hc' : decDigits c with
      | nil => rw [hc'] at h0; cases h0
      | cons a l =>
        rw [hc'] at h0 hs
        have ha : a = 0 := by simpa using h0
        subst ha
        rw [List.dropWhile_cons_of_pos (by simp)] at hs
        have hl : (l.dropWhile (· = 0)).length ≤ l.length := by
          exact (List.dropWhile_sublist _).length_le
        split at hs
        · have e : l = [] := by simpa using (List.cons.inj hs).2.symm
          subst e
          rw [hc'] at h1
          have : c = 0 := by simpa [number] using h1.symm
          omega
        · have := congrArg List.length hs
          simp only [List.length_cons] at this
          omega
  · unfold numericUnpack
    rw [fields_eq, libUnpack_spec _ _ _ _ _ hall, bind_ok]
    rw [ofWire_spec ds hds _ _ _ _ hsign c _ rfl]
    · rcases hsign with rfl | rfl <;> rfl
    · have := sameValue_cases hc
      have e : dscale - ((ds.length : Int) - (weight + 1)) * 4 = wireExponent weight ds - -dscale := by unfold wireExponent; omega
      rw [e]
      exact this

/-- C19: every finite decimal whose size fits the format is sent as a numeric of the same sign, the same value and the scale of the
decimal (none for positive exponents), in the documented format. -/
theorem C19_pack_value (sign : Int) (x : List Nat) (e : Int) (hsign : sign = 0 ∨ sign = 1) (hx : ∀ d ∈ x, d < 10)
    (he : -32768 < e) (hsize : x.length + e < 131066) (hlen : x.length < 131066) :
    ∃ (weight : Int) (ds : List Nat), numericPack ⟨sign, x, .int e⟩ =
        .ok (encs (numericFields weight (if sign = 0 then 0 else 0x4000) (if e < 0 then -e else 0) ds)) ∧
      (∀ d ∈ ds, d < 10000) ∧ SameValue (number 10000 ds) (wireExponent weight ds) (number 10 x) e ∧
      ds.length < 32768 ∧ -32768 ≤ weight ∧ weight < 32768 := by
  obtain ⟨ds, weight, h1, h2, ⟨a, b, h3, h4⟩, h5, h6, h7⟩ := toWire_spec sign x hx e
  have hs : (if sign = 1 then (16384 : Int) else sign) = if sign = 0 then 0 else 16384 := by
    rcases hsign with rfl | rfl <;> rfl
  have hs2 : (if sign = 0 then (0 : Int) else 16384) = 0 ∨ (if sign = 0 then (0 : Int) else 16384) = 16384 := by
    rcases hsign with rfl | rfl
    · exact Or.inl rfl
    · exact Or.inr rfl
  rw [hs] at h1
  refine ⟨weight, ds, ?_, h2, sameValue_of h3 h4, by omega, by omega, by omega⟩
  show libPack (toWire sign x e) = _
  rw [h1]
  generalize (if sign = 0 then (0 : Int) else 16384) = sg at hs2
  have hsc : 0 ≤ (if e < 0 then -e else 0) ∧ (if e < 0 then -e else 0) < 32768 := by split <;> omega
  generalize (if e < 0 then -e else 0) = sc at hsc
  apply libPack_spec
  intro y hy
  rw [inS2_iff]
  simp only [List.mem_cons, List.mem_map] at hy
  rcases hy with rfl | rfl | rfl | rfl | ⟨d, hd, rfl⟩
  · omega
  · omega
  · omega
  · omega
  · have := h2 d hd
    simp only [Int.ofNat_eq_natCast]; omega

/-- C19: every finite decimal whose size fits the format comes back: with exponent 0 or less as itself, the trailing zeros of the
scale included; with a positive exponent as the equal integer. -/
theorem C19_round_trip (sign : Int) (x : List Nat) (e : Int) (hsign : sign = 0 ∨ sign = 1) (hx : Normal x)
    (he : -32768 < e) (hsize : x.length + e < 131066) (hlen : x.length < 131066) :
    ∃ b, numericPack ⟨sign, x, .int e⟩ = .ok b ∧
      ∃ y, numericUnpack b = .ok ⟨sign, y, .int (min e 0)⟩ ∧ Normal y ∧ number 10 y = number 10 x * 10 ^ e.toNat ∧ (e ≤ 0 → y = x) := by
  obtain ⟨weight, ds, h1, h2, h3, h4, h5, h6⟩ := C19_pack_value sign x e hsign hx.2.1 he hsize hlen
  refine ⟨_, h1, ?_⟩
  have hsc : (if e < 0 then -e else (0 : Int)) = -(min e 0) := by split <;> omega
  have hv := sameValue_shift h3 (show min e 0 ≤ e by omega)
  rw [show (e - min e 0).toNat = e.toNat by omega] at hv
  obtain ⟨cs, c1, c2, c3⟩ := C19_unpack_value weight (if sign = 0 then 0 else 0x4000) (if e < 0 then -e else 0) ds h2 h4 ⟨h5, h6⟩
    (by rcases hsign with rfl | rfl; exact Or.inl rfl; exact Or.inr rfl) (by split <;> omega)
    (number 10 x * 10 ^ e.toNat) (by rw [hsc, Int.neg_neg]; exact hv)
  refine ⟨cs, ?_, c1, c2, ?_⟩
  · rw [c3]
    have e1 : (if (if sign = 0 then (0 : Int) else 16384) = 0 then (0 : Int) else 1) = sign := by rcases hsign with rfl | rfl <;> rfl
    rw [e1, show -(if e < 0 then -e else (0 : Int)) = min e 0 by rw [hsc]; omega]
  · intro he0
    rw [show e.toNat = 0 by omega, Nat.pow_zero, Nat.mul_one] at c2
    have k1 := decDigits_number cs c1.1 c1.2.1 (by by_cases h : cs.head? = some 0; exact Or.inr (c1.2.2 h); exact Or.inl h)
    have k2 := decDigits_number x hx.1 hx.2.1 (by by_cases h : x.head? = some 0; exact Or.inr (hx.2.2 h); exact Or.inl h)
    rw [← k1, ← k2, c2]

/-- C19: infinities and NaNs are refused in both directions. -/
theorem C19_special_refused (sign : Int) (x : List Nat) :
    numericPack ⟨sign, x, .inf⟩ = .error .valueError ∧ numericPack ⟨sign, x, .nan⟩ = .error .typeError ∧
    ∀ (weight dscale : Int) (ds : List Nat), (∀ d ∈ ds, d < 10000) → (∀ y ∈ (ds.length : Int) :: weight :: (-16384) :: dscale :: ds.map (Int.ofNat ·), InS 2 y) →
      numericUnpack (encs (numericFields weight (-16384) dscale ds)) = .error .valueError := by
  refine ⟨rfl, rfl, ?_⟩
  intro weight dscale ds hds h
  unfold numericUnpack
  rw [fields_eq, libUnpack_spec _ _ _ _ _ h, bind_ok]
  obtain ⟨l, h1, _⟩ := convertDigits_spec ds hds
  unfold ofWire
  simp only [h1, bind_ok]
  rfl

/-- C19: a decimal with more than 32767 digits after the point is refused. -/
theorem C19_scale_limit (sign : Int) (x : List Nat) (hx : ∀ d ∈ x, d < 10) (e : Int) (he : e ≤ -32768) :
    numericPack ⟨sign, x, .int e⟩ = .error .structError := by
  obtain ⟨ds, weight, h1, _⟩ := toWire_spec sign x hx e
  show libPack (toWire sign x e) = _
  rw [h1, if_pos (show e < 0 by omega)]
  have key : ∀ l : List Int, (∃ y ∈ l, ¬ InS 2 y) → shortsPack l = .error .structError := by
    intro l
    induction l with
    | nil => intro ⟨y, hy, _⟩; cases hy
    | cons a l ih =>
      intro ⟨y, hy, hn⟩
      rw [shortsPack]
      by_cases ha : InS 2 a
      · rw [packS_digits ha, bind_ok]
        rcases List.mem_cons.1 hy with rfl | hy
        · exact absurd ha hn
        · rw [ih ⟨y, hy, hn⟩]; rfl
      · rw [packS_error ha]; rfl
  unfold libPack
  dsimp only
  rw [key [(ds.length : Int), weight, if sign = 1 then 16384 else sign, -e] ⟨-e, by simp, by rw [inS2_iff]; omega⟩]
  rfl

/-- Non-vacuity: -0.00123400 (trailing zeros), 12E+5, 0.00. -/
example : Normal [1, 2, 3, 4, 0, 0] ∧
    numericPack ⟨1, [1, 2, 3, 4, 0, 0], .int (-8)⟩ = .ok [0, 2, 255, 255, 64, 0, 0, 8, 0, 12, 13, 72] ∧
    numericUnpack [0, 2, 255, 255, 64, 0, 0, 8, 0, 12, 13, 72] = .ok ⟨1, [1, 2, 3, 4, 0, 0], .int (-8)⟩ ∧
    numericPack ⟨0, [1, 2], .int 5⟩ = .ok [0, 1, 0, 1, 0, 0, 0, 0, 0, 120] ∧
    numericUnpack [0, 1, 0, 1, 0, 0, 0, 0, 0, 120] = .ok ⟨0, [1, 2, 0, 0, 0, 0, 0], .int 0⟩ ∧
    numericPack ⟨0, [0], .int (-2)⟩ = .ok [0, 1, 255, 255, 0, 0, 0, 2, 0, 0] ∧
    numericUnpack [0, 1, 255, 255, 0, 0, 0, 2, 0, 0] = .ok ⟨0, [0], .int (-2)⟩ := by
  refine ⟨⟨by decide, by decide, by decide⟩, by decide +kernel, by decide +kernel, by decide +kernel, by decide +kernel, by decide +kernel, by decide +kernel⟩

end PG.Props.Numeric
