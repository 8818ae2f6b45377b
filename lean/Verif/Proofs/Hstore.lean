import Verif.Model.Hstore
import Verif.Spec.Hstore
import Verif.Proofs.TypesLib2
namespace PG.Hstore
open PG PG.Spec PG.Spec.Format PG.Spec.Hstore PG.Itertools PG.TypesLib PG.Element3

theorem nat_lt_inU {n : Nat} (h : n < 4294967296) : InU 4 (n : Int) := by
  rw [inU4_iff]
  rw [show (2 ^ 32 : Int) = 4294967296 by decide]
  omega

theorem len_lt {n : Nat} : n < 2 ^ 32 - 1 ↔ n < 4294967295 := Iff.rfl

theorem unpackFromU_lt {k : Nat} {v : Bytes} {l : Int} (h : unpackFromU k v = .ok l) : k ≤ v.length ∧ l = beDec (v.take k) := by
  unfold unpackFromU at h
  split at h
  · cases h
  · exact ⟨by omega, (Except.ok.inj h).symm⟩

theorem nullSeq_digits : nullSeq = digits 4 ((4294967295 : Nat) : Int) := by decide

theorem unpackFromU4 {n : Nat} (h : n < 4294967296) (r : Bytes) : unpackFromU 4 (digits 4 (n : Int) ++ r) = .ok (n : Int) := by
  have := unpackFromU_digits (nat_lt_inU h) r
  simpa using this

theorem digits_unpack {v : Bytes} {l : Int} (h : unpackFromU 4 v = .ok l) : v = digits 4 l ++ v.drop 4 := by
  obtain ⟨h1, rfl⟩ := unpackFromU_lt h
  have hl : (v.take 4).length = 4 := by rw [List.length_take]; omega
  have := digits_beDec (v.take 4)
  rw [hl] at this
  rw [this, List.take_append_drop]

def ItemsOk (l : List (Option Bytes)) : Prop := ∀ x ∈ l, ∀ d, x = some d → d.length < 4294967295

/-- The generator ends without an exception exactly on well-formed data. -/
theorem splitSized_iff (fuel : Nat) (v : Bytes) (l : List (Option Bytes)) (hf : v.length < fuel) :
    splitSized fuel v = (l, none) ↔ v = encs (l.flatMap value) ∧ ItemsOk l := by
  induction fuel generalizing v l with
  | zero => omega
  | succ fuel ih =>
    rw [splitSized]
    by_cases hv : v = []
    · subst hv
      rw [if_pos rfl]
      constructor
      · intro h
        have := (Prod.mk.inj h).1
        subst this
        exact ⟨rfl, fun _ h => by cases h⟩
      · intro ⟨h, _⟩
        cases l with
        | nil => rfl
        | cons x l =>
          have := congrArg List.length h
          cases x <;> simp [value, encs, enc, length_digits] at this <;> omega
    · rw [if_neg hv]
      cases hu : unpackFromU 4 v with
      | error e =>
        dsimp only
        constructor
        · intro h; cases (Prod.mk.inj h).2
        · intro ⟨h, hok⟩
          exfalso
          cases l with
          | nil => exact hv h
          | cons x l =>
            rw [List.flatMap_cons, encs_append] at h
            cases x with
            | none => rw [encs_value_none, nullSeq_digits] at h; rw [h, unpackFromU4 (by omega)] at hu; cases hu
            | some d =>
              have := hok _ (List.mem_cons_self ..) d rfl
              rw [encs_value_some, List.append_assoc] at h; rw [h, unpackFromU4 (by omega)] at hu; cases hu
      | ok m =>
        obtain ⟨n, rfl⟩ : ∃ n : Nat, m = (n : Int) := ⟨_, (unpackFromU_lt hu).2⟩
        simp only [Int.toNat_natCast]
        have h4 := (unpackFromU_lt hu).1
        have hvs := digits_unpack hu
        by_cases hn : (n : Int) = 0xFFFFFFFF
        · rw [if_pos hn]
          have ih' := ih (v.drop 4)
          constructor
          · intro h
            have h1 := Prod.mk.inj h
            obtain ⟨e1, e2⟩ := h1
            obtain ⟨e3, e4⟩ := (ih' (splitSized fuel (v.drop 4)).1 (by rw [List.length_drop]; omega)).1 (by rw [← e2])
            rw [← e1]
            refine ⟨?_, ?_⟩
            · rw [List.flatMap_cons, encs_append, ← e3, encs_value_none, nullSeq_digits, show (4294967295 : Nat) = n by omega]; exact hvs
            · intro x hx d hd
              rcases List.mem_cons.1 hx with hx | hx
              · rw [hx] at hd; cases hd
              · exact e4 x hx d hd
          · intro ⟨h, hok⟩
            cases l with
            | nil => exact absurd h hv
            | cons x l =>
              rw [List.flatMap_cons, encs_append] at h
              cases x with
              | none =>
                have hd : v.drop 4 = encs (l.flatMap value) := by
                  rw [h, encs_value_none, nullSeq_digits, List.drop_left' (length_digits ..)]
                rw [(ih' l (by rw [List.length_drop]; omega)).2 ⟨hd, fun x hx => hok x (List.mem_cons_of_mem _ hx)⟩]
              | some d =>
                exfalso
                have hlt := hok _ (List.mem_cons_self ..) d rfl
                rw [encs_value_some, List.append_assoc] at h; rw [h, unpackFromU4 (by omega)] at hu
                have := Except.ok.inj hu
                omega
        · rw [if_neg hn]
          by_cases hd : (slice v 4 (n + 4)).length < n
          · rw [if_pos hd]
            constructor
            · intro h; cases (Prod.mk.inj h).2
            · intro ⟨h, hok⟩
              exfalso
              cases l with
              | nil => exact hv h
              | cons x l =>
                rw [List.flatMap_cons, encs_append] at h
                cases x with
                | none =>
                  rw [encs_value_none, nullSeq_digits] at h; rw [h, unpackFromU4 (by omega)] at hu
                  exact hn (Except.ok.inj hu).symm
                | some d =>
                  have hlt := hok _ (List.mem_cons_self ..) d rfl
                  rw [encs_value_some, List.append_assoc] at h; rw [h, unpackFromU4 (by omega)] at hu
                  have e := Except.ok.inj hu
                  rw [length_slice, h] at hd
                  simp only [List.length_append, length_digits] at hd
                  omega
          · rw [if_neg hd]
            have ih' := ih (v.drop (n + 4))
            rw [length_slice] at hd
            constructor
            · intro h
              obtain ⟨e1, e2⟩ := Prod.mk.inj h
              obtain ⟨e3, e4⟩ := (ih' (splitSized fuel (v.drop (n + 4))).1 (by rw [List.length_drop]; omega)).1 (by rw [← e2])
              have hbound : n < 4294967296 := by
                have := beDec_lt (v.take 4)
                rw [← Int.ofNat.inj (unpackFromU_lt hu).2, List.length_take, Nat.min_eq_left h4] at this
                exact this
              have hsl : (slice v 4 (n + 4)).length = n := by rw [length_slice]; omega
              rw [← e1]
              refine ⟨?_, ?_⟩
              · rw [List.flatMap_cons, encs_append, ← e3, encs_value_some, hsl, List.append_assoc]
                have : slice v 4 (n + 4) ++ v.drop (n + 4) = v.drop 4 := by
                  unfold slice
                  rw [show n + 4 - 4 = n by omega, show n + 4 = 4 + n by omega, ← List.drop_drop, List.take_append_drop]
                rw [this]; exact hvs
              · intro x hx d hd
                rcases List.mem_cons.1 hx with hx | hx
                · rw [hx] at hd
                  have := Option.some.inj hd
                  rw [← this, hsl]; omega
                · exact e4 x hx d hd
            · intro ⟨h, hok⟩
              cases l with
              | nil => exact absurd h hv
              | cons x l =>
                rw [List.flatMap_cons, encs_append] at h
                cases x with
                | none =>
                  exfalso
                  rw [encs_value_none, nullSeq_digits] at h; rw [h, unpackFromU4 (by omega)] at hu
                  exact hn (Except.ok.inj hu).symm
                | some d =>
                  have hlt := hok _ (List.mem_cons_self ..) d rfl
                  rw [encs_value_some, List.append_assoc] at h
                  have hu' := hu
                  rw [h, unpackFromU4 (by omega)] at hu'
                  have e := Except.ok.inj hu'
                  have hdrop : v.drop (n + 4) = encs (l.flatMap value) := by
                    rw [h, ← List.append_assoc, List.drop_left' (by simp only [List.length_append, length_digits]; omega)]
                  have hsl : slice v 4 (n + 4) = d := by
                    have hs := slice_at (digits 4 (d.length : Int)) d (encs (l.flatMap value)) n (by omega)
                    rw [length_digits, Nat.add_comm] at hs
                    rw [h]; exact hs
                  rw [(ih' l (by rw [List.length_drop]; omega)).2 ⟨hdrop, fun x hx => hok x (List.mem_cons_of_mem _ hx)⟩, hsl]

variable {τ : Type} [DecidableEq τ] (encode : τ → Except Err Bytes) (decode : Bytes → Except Err τ)

def flat (ps : List (Bytes × Option Bytes)) : List (Option Bytes) := ps.flatMap fun p => [some p.1, p.2]

theorem comprehension_iff (fuel : Nat) (l : List (Option Bytes)) (hf : l.length < fuel) (d r : List (τ × Option τ)) :
    comprehension decode (chunkLoop 2 fuel l) d = .ok r ↔
      ∃ ps qs, l = flat ps ∧ Pairwise decode ps qs ∧ r = qs.foldl (fun d p => dictSet d p.1 p.2) d := by
  induction fuel generalizing l d with
  | zero => omega
  | succ fuel ih =>
    match l with
    | [] =>
      rw [show chunkLoop 2 (fuel + 1) ([] : List (Option Bytes)) = [[]] from rfl]
      simp only [comprehension]
      constructor
      · intro h
        exact ⟨[], [], rfl, trivial, (Except.ok.inj h).symm⟩
      · intro ⟨ps, qs, h1, h2, h3⟩
        cases ps with
        | cons p ps => cases h1
        | nil =>
          cases qs with
          | nil => rw [h3]; rfl
          | cons q qs => exact h2.elim
    | [a] =>
      rw [show chunkLoop 2 (fuel + 1) [a] = [[a]] from rfl]
      simp only [comprehension]
      constructor
      · intro h
        obtain ⟨x, _, hx⟩ := bind_eq_ok h
        cases hx
      · intro ⟨ps, qs, h1, _⟩
        cases ps with
        | nil => cases h1
        | cons p ps => simp [flat] at h1
    | a :: b :: l =>
      rw [show chunkLoop 2 (fuel + 1) (a :: b :: l) = [a, b] :: chunkLoop 2 fuel l from rfl]
      simp only [comprehension]
      have hl : l.length < fuel := by simp only [List.length_cons] at hf; omega
      constructor
      · intro h
        obtain ⟨x, hx, h⟩ := bind_eq_ok h
        obtain ⟨y, hy, h⟩ := bind_eq_ok h
        obtain ⟨ps, qs, h1, h2, h3⟩ := (ih l hl _).1 h
        cases a with
        | none => cases hx
        | some k =>
          refine ⟨(k, b) :: ps, (x, y) :: qs, by rw [h1]; rfl, ?_, h3⟩
          cases b with
          | none => cases hy; exact ⟨hx, h2⟩
          | some v =>
            obtain ⟨z, hz, hz2⟩ := bind_eq_ok hy
            cases hz2
            exact ⟨hx, hz, h2⟩
      · intro ⟨ps, qs, h1, h2, h3⟩
        cases ps with
        | nil => cases h1
        | cons p ps =>
          obtain ⟨k, v⟩ := p
          rw [show flat ((k, v) :: ps) = some k :: v :: flat ps from rfl] at h1
          injection h1 with ea h1
          injection h1 with eb h1
          subst eb; subst ea
          cases qs with
          | nil => cases b <;> exact h2.elim
          | cons q qs =>
            obtain ⟨x, y⟩ := q
            cases b with
            | none =>
              cases y with
              | some y => exact h2.elim
              | none =>
                obtain ⟨e1, e2⟩ := h2
                simp only [decodeOpt, mapOpt, e1, bind_ok, pure_ok]
                exact (ih l hl _).2 ⟨ps, qs, h1, e2, h3⟩
            | some v =>
              cases y with
              | none => exact h2.elim
              | some y =>
                obtain ⟨e1, e2, e3⟩ := h2
                simp only [decodeOpt, mapOpt, e1, e2, bind_ok, pure_ok]
                exact (ih l hl _).2 ⟨ps, qs, h1, e3, h3⟩

theorem encs_flat (ps : List (Bytes × Option Bytes)) : encs ((flat ps).flatMap value) = encs (pairFields ps) := by
  induction ps with
  | nil => rfl
  | cons p ps ih =>
    have e1 : flat (p :: ps) = some p.1 :: p.2 :: flat ps := rfl
    have e2 : pairFields (p :: ps) = value (some p.1) ++ value p.2 ++ pairFields ps := rfl
    rw [e1, e2, List.flatMap_cons, List.flatMap_cons]
    simp only [encs_append, ih, List.append_assoc]

theorem itemsOk_flat (ps : List (Bytes × Option Bytes)) : ItemsOk (flat ps) ↔ SizesOk ps := by
  simp only [ItemsOk, SizesOk, flat, List.mem_flatMap, len_lt]
  constructor
  · intro h p hp
    exact ⟨h _ ⟨p, hp, List.mem_cons_self ..⟩ _ rfl, fun v hv => h _ ⟨p, hp, List.mem_cons_of_mem _ (List.mem_cons_self ..)⟩ v hv⟩
  · intro h x ⟨p, hp, hx⟩ d hd
    obtain ⟨h1, h2⟩ := h p hp
    simp only [List.mem_cons, List.not_mem_nil, or_false] at hx
    rcases hx with rfl | rfl
    · cases hd; exact h1
    · exact h2 d hd

/-- `unpack_hstore`, exactly. -/
theorem unpackHstore_iff (b : Bytes) (r : List (τ × Option τ)) :
    unpackHstore decode b = .ok r ↔
      ∃ ps qs, b = encs (hstoreFields r.length ps) ∧ r.length < 4294967296 ∧ SizesOk ps ∧ Pairwise decode ps qs ∧ r = dictOf qs := by
  unfold unpackHstore
  constructor
  · intro h
    obtain ⟨n, hn, h⟩ := bind_eq_ok h
    dsimp only at h
    obtain ⟨r', h', h⟩ := bind_eq_ok h
    split at h
    · cases h
    · rename_i hlen
      cases h
      cases hs : (splitSizedData (List.drop 4 b)).2 with
      | some e =>
        rw [hs] at h'
        obtain ⟨_, _, h'⟩ := bind_eq_ok h'
        cases h'
      | none =>
        rw [hs] at h'
        obtain ⟨ps, qs, h1, h2, h3⟩ := (comprehension_iff decode _ _ (Nat.lt_succ_self _) _ _).1 h'
        obtain ⟨h4, h5⟩ := (splitSized_iff _ (List.drop 4 b) (splitSizedData (List.drop 4 b)).1 (Nat.lt_succ_self _)).1 (by rw [← hs]; rfl)
        refine ⟨ps, qs, ?_, ?_, ?_, h2, h3⟩
        · rw [hstoreFields, encs_cons, ← encs_flat, ← h1, ← h4]
          have := digits_unpack hn
          rw [show enc (.int32 (r.length : Int)) = digits 4 (r.length : Int) from rfl]
          rw [show (r.length : Int) = n by omega]; exact this
        · have h6 := unpackFromU_lt hn
          have := beDec_lt (b.take 4)
          rw [List.length_take, Nat.min_eq_left h6.1] at this
          have h7 : beDec (b.take 4) < 4294967296 := this
          omega
        · rw [← itemsOk_flat, ← h1]; exact h5
  · intro ⟨ps, qs, hb, hr, hsz, hp, hd⟩
    rw [hstoreFields, encs_cons, show enc (.int32 (r.length : Int)) = digits 4 (r.length : Int) from rfl] at hb
    have hdrop : b.drop 4 = encs ((flat ps).flatMap value) := by
      rw [hb, List.drop_left' (length_digits ..), encs_flat]
    have hs : splitSizedData (b.drop 4) = (flat ps, none) :=
      (splitSized_iff _ _ _ (Nat.lt_succ_self _)).2 ⟨hdrop, (itemsOk_flat ps).2 hsz⟩
    have hc : comprehension decode (chunk (flat ps) 2) [] = .ok r :=
      (comprehension_iff decode _ _ (Nat.lt_succ_self _) _ _).2 ⟨ps, qs, rfl, hp, hd⟩
    have hu : unpackFromU 4 b = .ok (r.length : Int) := by rw [hb]; exact unpackFromU4 hr _
    simp only [hu, hs, consume, hc, bind_ok, pure_ok, ne_eq, not_true_eq_false, if_false]

omit [DecidableEq τ] in
/-- The encoding comprehension. -/
theorem encodePairs_iff (x : List (τ × Option τ)) (ps : List (Bytes × Option Bytes)) :
    encodePairs encode x = .ok ps ↔ Pairwise encode x ps := by
  induction x generalizing ps with
  | nil =>
    cases ps with
    | nil => exact ⟨fun _ => trivial, fun _ => rfl⟩
    | cons p ps => exact ⟨fun h => (by cases h), fun h => h.elim⟩
  | cons p x ih =>
    obtain ⟨k, v⟩ := p
    simp only [encodePairs]
    constructor
    · intro h
      obtain ⟨a, ha, h⟩ := bind_eq_ok h
      obtain ⟨b, hb, h⟩ := bind_eq_ok h
      obtain ⟨l, hl, h⟩ := bind_eq_ok h
      cases h
      cases v with
      | none => cases hb; exact ⟨ha, (ih l).1 hl⟩
      | some w =>
        obtain ⟨c, hc, hc2⟩ := bind_eq_ok hb
        cases hc2
        exact ⟨ha, hc, (ih l).1 hl⟩
    · intro h
      cases ps with
      | nil => cases v <;> exact h.elim
      | cons q ps =>
        obtain ⟨a, b⟩ := q
        cases v with
        | none =>
          cases b with
          | some b => exact h.elim
          | none =>
            obtain ⟨e1, e2⟩ := h
            simp only [mapOpt, e1, (ih ps).2 e2, bind_ok, pure_ok]
        | some w =>
          cases b with
          | none => exact h.elim
          | some b =>
            obtain ⟨e1, e2, e3⟩ := h
            simp only [mapOpt, e1, e2, (ih ps).2 e3, bind_ok, pure_ok]

theorem joinPairs_spec (ps : List (Bytes × Option Bytes)) (h : SizesOk ps) : joinPairs ps = .ok (encs (pairFields ps)) := by
  induction ps with
  | nil => rfl
  | cons p ps ih =>
    obtain ⟨k, v⟩ := p
    have hk := (h _ (List.mem_cons_self ..)).1
    have ih := ih fun p hp => h p (List.mem_cons_of_mem _ hp)
    replace hk : k.length < 4294967295 := hk
    have e2 : pairFields ((k, v) :: ps) = value (some k) ++ value v ++ pairFields ps := rfl
    cases v with
    | none =>
      simp only [joinPairs, packU_digits (nat_lt_inU (show k.length < 4294967296 by omega)), ih, bind_ok, pure_ok]
      rw [e2, encs_append, encs_append, encs_value_some, encs_value_none]
      simp only [List.append_assoc]; rfl
    | some v =>
      have hv := (h _ (List.mem_cons_self ..)).2 v rfl
      replace hv : v.length < 4294967295 := hv
      simp only [joinPairs, packU_digits (nat_lt_inU (show k.length < 4294967296 by omega)),
        packU_digits (nat_lt_inU (show v.length < 4294967296 by omega)), ih, bind_ok, pure_ok]
      rw [e2, encs_append, encs_append, encs_value_some, encs_value_some]
      simp only [List.append_assoc]

theorem pairwise_length {α β : Type} {f : α → Except Err β} {x : List (α × Option α)} {y : List (β × Option β)}
    (h : Pairwise f x y) : x.length = y.length := by
  induction x generalizing y with
  | nil => cases y <;> first | rfl | exact h.elim
  | cons p x ih =>
    obtain ⟨k, v⟩ := p
    cases y with
    | nil => cases v <;> exact h.elim
    | cons q y =>
      obtain ⟨a, b⟩ := q
      cases v <;> cases b
      · simp only [List.length_cons, ih h.2]
      · exact h.elim
      · exact h.elim
      · simp only [List.length_cons, ih h.2.2]

theorem pairwise_inv {α β : Type} {f : α → Except Err β} {g : β → Except Err α} (hfg : ∀ a b, f a = .ok b → g b = .ok a)
    {x : List (α × Option α)} {y : List (β × Option β)} (h : Pairwise f x y) : Pairwise g y x := by
  induction x generalizing y with
  | nil => cases y <;> first | trivial | exact h.elim
  | cons p x ih =>
    obtain ⟨k, v⟩ := p
    cases y with
    | nil => cases v <;> exact h.elim
    | cons q y =>
      obtain ⟨a, b⟩ := q
      cases v <;> cases b
      · exact ⟨hfg _ _ h.1, ih h.2⟩
      · exact h.elim
      · exact h.elim
      · exact ⟨hfg _ _ h.1, hfg _ _ h.2.1, ih h.2.2⟩

theorem enc_int32 (n : Int) : enc (.int32 n) = digits 4 n := rfl

omit [DecidableEq τ] in
theorem packHstore_spec (x : List (τ × Option τ)) (ps : List (Bytes × Option Bytes)) (hp : Pairwise encode x ps) (hs : SizesOk ps)
    (hl : InU 4 (x.length : Int)) : packHstore encode x = .ok (encs (hstoreFields x.length ps)) := by
  unfold packHstore
  rw [pairwise_length hp] at hl ⊢
  rw [(encodePairs_iff encode x ps).2 hp, bind_ok, packU_digits hl, bind_ok, joinPairs_spec ps hs, bind_ok, hstoreFields, encs_cons, enc_int32]
  rfl

theorem dictGet_foldl (ps d : List (τ × Option τ)) (k : τ) :
    dictGet (ps.foldl (fun d p => dictSet d p.1 p.2) d) k = (lastValue k ps).or (dictGet d k) := by
  induction ps generalizing d with
  | nil => rfl
  | cons p ps ih =>
    rw [List.foldl_cons, ih, dictGet_dictSet, lastValue]
    cases lastValue k ps with
    | some v => rfl
    | none =>
      simp only [Option.or]
      by_cases h : p.1 = k
      · simp [h]
      · simp [h]

theorem dictGet_dictOf (ps : List (τ × Option τ)) (k : τ) : dictGet (dictOf ps) k = lastValue k ps := by
  unfold dictOf
  rw [dictGet_foldl]
  cases lastValue k ps <;> rfl

end PG.Hstore
