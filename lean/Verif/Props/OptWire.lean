import Verif.Model.OptWire
import Verif.Props.CopyMan
/-!
# C99: the wire state in C
-/
namespace PG.OptWire
open PG PG.OptBuffer PG.CopyMan PG.Spec PG.Spec.Copy PG.Props.CopyMan PG.Element3

/-- The states that come about: of a header there are less than four bytes. -/
def Sane (s : CWS) : Prop := ∀ f, s.continuation = some f → f.length < 4

/-! ## What C gives, Python gives -/

theorem inside_same (view : Bytes) (rem n : Nat) : inside view view.length rem n =
    ((insideC view rem n).1, ((insideC view rem n).1.length : Int), ((insideC view rem n).2.1 : Int), (insideC view rem n).2.2) := by
  unfold insideC
  by_cases h0 : 0 < rem
  · rw [if_pos h0]
    by_cases hl : view.length < rem
    · rw [if_pos hl, inside, if_pos (by omega)]
      simp only
      rw [if_neg (by omega), Int.toNat_natCast, List.drop_eq_nil_of_le (by omega)]
      simp only [List.length_nil, Prod.mk.injEq, and_true, true_and]
      exact ⟨rfl, by omega⟩
    · rw [if_neg hl, inside_full h0 view (by omega)]
      rfl
  · rw [if_neg h0, show rem = 0 by omega]
    exact inside_zero view _ n

theorem u32_add (l : Nat) (h : l < 2 ^ 32) (h5 : ¬ u32 (l + 1) < 5) : u32 (l + 1) = l + 1 := by
  unfold u32 at *
  rw [Nat.mod_eq_of_lt]
  rcases Nat.lt_or_ge (l + 1) (2 ^ 32) with h' | h'
  · exact h'
  · exfalso; apply h5
    rw [show l + 1 = 2 ^ 32 by omega]; decide

theorem beDec4_lt (r : Bytes) : beDec (r.take 4) < 2 ^ 32 := by
  have := beDec_lt (r.take 4)
  have hl : (r.take 4).length ≤ 4 := by rw [List.length_take]; omega
  refine Nat.lt_of_lt_of_le this (Nat.le_trans (Nat.pow_le_pow_right (by decide) hl) (by decide))

theorem loop_same : ∀ (fuel : Nat) (view : Bytes) (rem n : Nat) (s : CWS) (m : Nat), loopC fuel view rem n = .ok (s, m) →
    loop fuel view view.length rem [] n = .ok ⟨s.attributes.remaining, s.attributes.fragment, s.attributes.final, m⟩ := by
  intro fuel
  induction fuel with
  | zero => intro view rem n s m h; cases h
  | succ fuel ih =>
    intro view rem n s m h
    rw [loopC] at h
    rw [loop, inside_same]
    generalize insideC view rem n = w at h ⊢
    obtain ⟨v, r', n'⟩ := w
    cases v with
    | nil => cases h; rfl
    | cons x r =>
      simp only at h ⊢
      by_cases hx : x ≠ copyType
      · rw [if_pos hx] at h ⊢
        cases h; rfl
      · rw [if_neg hx] at h ⊢
        by_cases hl : r.length + 1 < 5
        · rw [if_pos hl] at h
          rw [if_pos (by rw [List.length_cons]; omega)]
          cases h; rfl
        · rw [if_neg hl] at h
          rw [if_neg (by rw [List.length_cons]; omega)]
          by_cases h5 : u32 (beDec (r.take 4) + 1) < 5
          · rw [if_pos h5] at h; cases h
          · rw [if_neg h5, u32_add _ (beDec4_lt r) h5] at h
            have := ih _ _ _ _ _ h
            rw [← this]
            congr 1

theorem loop_sane : ∀ (fuel : Nat) (view : Bytes) (rem n : Nat) (s : CWS) (m : Nat), loopC fuel view rem n = .ok (s, m) → Sane s := by
  intro fuel
  induction fuel with
  | zero => intro view rem n s m h; cases h
  | succ fuel ih =>
    intro view rem n s m h
    rw [loopC] at h
    generalize insideC view rem n = w at h
    obtain ⟨v, r', n'⟩ := w
    cases v with
    | nil => cases h; intro f hf; cases hf
    | cons x r =>
      simp only at h
      by_cases hx : x ≠ copyType
      · rw [if_pos hx] at h
        cases h; intro f hf; cases hf
      · rw [if_neg hx] at h
        by_cases hl : r.length + 1 < 5
        · rw [if_pos hl] at h
          cases h; intro f hf; cases hf; omega
        · rw [if_neg hl] at h
          by_cases h5 : u32 (beDec (r.take 4) + 1) < 5
          · rw [if_pos h5] at h; cases h
          · rw [if_neg h5] at h
            exact ih _ _ _ _ _ h

/-- What `update` in C does between the end of a stream and the loop. -/
theorem updateC_some (f : Bytes) (rem : Nat) (view : Bytes) (hv : view ≠ []) : updateC ⟨some f, rem, none⟩ view =
    if (f ++ view.take (4 - f.length)).length = 4 then
      if beDec (f ++ view.take (4 - f.length)) < 4 then .error .value
      else loopC (view.length + 2) view (beDec (f ++ view.take (4 - f.length)) - f.length) (if beDec (f ++ view.take (4 - f.length)) - f.length = 0 then 1 else 0)
    else .ok (⟨some (f ++ view.take (4 - f.length)), rem, none⟩, 0) := by
  unfold updateC
  rw [if_neg hv]; rfl

theorem updateC_none (rem : Nat) (view : Bytes) (hv : view ≠ []) : updateC ⟨none, rem, none⟩ view = loopC (view.length + 2) view rem 0 := by
  unfold updateC
  rw [if_neg hv]; rfl

theorem updateC_nil (s : CWS) : updateC s [] = .ok (s, 0) := rfl

theorem updateC_dead (s : CWS) (view : Bytes) (hv : view ≠ []) (hf : s.final ≠ none) : updateC s view = .error .runtime := by
  unfold updateC
  rw [if_neg hv, if_pos (by cases h : s.final with | none => exact absurd h hf | some => rfl)]

theorem update_of_loop {rem : Nat} {view : Bytes} {s : CWS} {n : Nat} (h : loopC (view.length + 2) view rem 0 = .ok (s, n)) :
    update ⟨rem, [], none⟩ view = .ok (s.attributes, n) := by
  rw [loop_ok_update (s := ⟨rem, [], none⟩) rfl rfl rfl (Int.natCast_nonneg _) (loop_same _ _ _ _ _ _ h)]

/-- **C99 (same as Python).** When `update` in C returns, that of Python gives the same count, and leaves the same attributes, as long as the state has not ended or the view is
not empty. -/
theorem C99_same (s s' : CWS) (view : Bytes) (n : Nat) (hs : Sane s) (h : updateC s view = .ok (s', n)) (he : view ≠ [] ∨ s.final = none) :
    update s.attributes view = .ok (s'.attributes, n) ∧ Sane s' := by
  obtain ⟨cont, rem, fin⟩ := s
  by_cases hv : view = []
  · subst hv
    rw [updateC_nil] at h
    cases h
    have hf : fin = none := he.resolve_left (fun h => h rfl)
    subst hf
    refine ⟨?_, hs⟩
    cases cont with
    | none =>
      refine update_of_loop (s := ⟨none, rem, none⟩) ?_
      show loopC 2 [] rem 0 = .ok (⟨none, rem, none⟩, 0)
      cases rem <;> rfl
    | some f =>
      have hl := hs f rfl
      have hc : carry ⟨-1, f, none⟩ [] = (-1, f) := by
        rw [carry, if_pos rfl]
        simp only [List.take_nil, List.append_nil]
        rw [if_neg (by omega)]
      show update ⟨-1, f, none⟩ [] = _
      unfold update
      rw [hc]; rfl
  · cases fin with
    | some x => rw [updateC_dead _ _ hv (by simp)] at h; cases h
    | none =>
      cases cont with
      | none =>
        rw [updateC_none _ _ hv] at h
        exact ⟨update_of_loop h, loop_sane _ _ _ _ _ _ h⟩
      | some f =>
        have hl := hs f rfl
        rw [updateC_some _ _ _ hv] at h
        show update ⟨-1, f, none⟩ view = _ ∧ _
        generalize hg : f ++ view.take (4 - f.length) = g at h
        by_cases h4 : g.length = 4
        · rw [if_pos h4] at h
          by_cases hL : beDec g < 4
          · rw [if_pos hL] at h; cases h
          · rw [if_neg hL, if_neg (by omega)] at h
            refine ⟨?_, loop_sane _ _ _ _ _ _ h⟩
            have hb : beEnc 4 (beDec g) = g := by rw [← h4]; exact beEnc_beDec g
            have hlt : beDec g < 2 ^ 32 := by
              have := beDec_lt g
              rw [h4] at this; exact this
            rw [update_header hl (by rw [hb]; exact hg) (by omega) hlt (loop_same _ _ _ _ _ _ h)]
        · rw [if_neg h4] at h
          cases h
          have hc : carry ⟨-1, f, none⟩ view = (-1, g) := by
            rw [carry, if_pos rfl]
            simp only [hg]
            rw [if_neg h4]
          refine ⟨?_, ?_⟩
          · unfold update
            rw [hc]; rfl
          · intro f' hf'
            cases hf'
            have : g.length ≤ 4 := by rw [← hg, List.length_append, List.length_take]; omega
            omega

/-! ## Streams of messages of proper lengths -/

/-- The number in the length word is not the largest one. -/
def RowShort (row : Bytes) : Prop := row.length + 5 < 2 ^ 32

/-- Of a row that has begun, too. -/
def RestShort (r : Bytes) : Prop := ∀ t, r ≠ 100 :: ([255, 255, 255, 255] ++ t)

theorem largest : beEnc 4 (2 ^ 32 - 1) = [255, 255, 255, 255] := by decide +kernel

theorem rest_short {r : Bytes} (h : RestShort r) {L : Nat} {t : Bytes} (hr : r = 100 :: (beEnc 4 L ++ t)) (hL : L < 2 ^ 32) : L + 1 < 2 ^ 32 := by
  rcases Nat.lt_or_ge (L + 1) (2 ^ 32) with h' | h'
  · exact h'
  · exfalso
    rw [show L = 2 ^ 32 - 1 by omega, largest] at hr
    exact h t hr

/-- What is left of a part of a stream. -/
theorem short_prefix {q t r : Bytes} {rows : List Bytes} (hp : Position (q ++ t) rows r) (hr : ∀ row ∈ rows, RowShort row) (hs : RestShort r) : RestShort q := by
  intro u hu
  obtain ⟨he, hf, _⟩ := hp
  cases rows with
  | nil =>
    rw [copyFrames_nil, List.nil_append, hu] at he
    exact hs (u ++ t) he.symm
  | cons row rows =>
    have h1 := hr row (List.mem_cons_self ..)
    unfold RowShort at h1
    rw [copyFrames_cons, hu] at he
    have he2 : [255, 255, 255, 255] ++ (u ++ t) = beEnc 4 (row.length + 4) ++ (row ++ (copyFrames rows ++ r)) := by
      have := congrArg List.tail he
      simpa using this
    have h4 := congrArg (List.take 4) he2
    rw [List.take_left' (by rfl), List.take_left' (length_beEnc _ _), ← largest] at h4
    have := beEnc_inj (by decide) (by rw [show (256 ^ 4 : Nat) = 2 ^ 32 by decide]; omega) h4
    omega

theorem loopC_skip {fuel n k : Nat} (hk : 0 < k) (view : Bytes) (h : k ≤ view.length) :
    loopC (fuel + 1) view k n = loopC (fuel + 1) (view.drop k) 0 (n + 1) := by
  have h1 : insideC view k n = (view.drop k, 0, n + 1) := by unfold insideC; rw [if_pos hk, if_neg (by omega)]
  have h2 : insideC (view.drop k) 0 (n + 1) = (view.drop k, 0, n + 1) := rfl
  rw [loopC, loopC, h1, h2]

theorem loopC_short {fuel n k : Nat} (view : Bytes) (h : view.length < k) : loopC (fuel + 1) view k n = .ok (⟨none, k - view.length, none⟩, n) := by
  have h1 : insideC view k n = ([], k - view.length, n) := by unfold insideC; rw [if_pos (by omega), if_pos h]
  rw [loopC, h1]

theorem loopC_header {fuel n L : Nat} (h4 : 4 ≤ L) (hL : L + 1 < 2 ^ 32) (t : Bytes) :
    loopC (fuel + 1) (100 :: (beEnc 4 L ++ t)) 0 n = loopC fuel (100 :: (beEnc 4 L ++ t)) (L + 1) n := by
  have h1 : insideC (100 :: (beEnc 4 L ++ t)) 0 n = (100 :: (beEnc 4 L ++ t), 0, n) := rfl
  have hu : u32 (L + 1) = L + 1 := Nat.mod_eq_of_lt hL
  rw [loopC, h1]
  simp only
  rw [if_neg (by simp [copyType]), if_neg (by rw [List.length_append, length_beEnc]; omega), head4 (by omega), hu, if_neg (by omega)]

theorem loopC_rest {r : Bytes} (h : Rest r) (hs : RestShort r) (fuel n : Nat) : ∃ s m, loopC (fuel + 2) r 0 n = .ok (s, m) := by
  rcases h with rfl | ⟨f, rfl, hf⟩ | ⟨k, hk, part, rfl, hl⟩ | ⟨x, t, rfl, hx⟩
  · exact ⟨_, _, rfl⟩
  · refine ⟨⟨some f, 0, none⟩, n, ?_⟩
    have h1 : insideC (100 :: f) 0 n = (100 :: f, 0, n) := rfl
    rw [loopC, h1]
    simp only
    rw [if_neg (by simp [copyType]), if_pos (by omega)]
  · have := rest_short hs rfl hl
    rw [loopC_header (by omega) (by omega), loopC_short _ (by simp only [List.length_cons, List.length_append, length_beEnc]; omega)]
    exact ⟨_, _, rfl⟩
  · refine ⟨⟨none, 0, some (x :: t)⟩, n, ?_⟩
    have h1 : insideC (x :: t) 0 n = (x :: t, 0, n) := rfl
    rw [loopC, h1]
    show (if x ≠ 100 then _ else _) = _
    rw [if_pos hx]

theorem loopC_frames {r : Bytes} (h : Rest r) (hs : RestShort r) : ∀ (rows : List Bytes) (fuel n : Nat), (∀ row ∈ rows, RowShort row) → rows.length ≤ fuel →
    ∃ s m, loopC (fuel + 2) (copyFrames rows ++ r) 0 n = .ok (s, m) := by
  intro rows
  induction rows with
  | nil => intro fuel n _ _; exact loopC_rest h hs fuel n
  | cons row rows ih =>
    intro fuel n hr hf
    obtain ⟨fuel, rfl⟩ : ∃ k, fuel = k + 1 := ⟨fuel - 1, by rw [List.length_cons] at hf; omega⟩
    have h1 := hr row (List.mem_cons_self ..)
    unfold RowShort at h1
    rw [copyFrames_cons, List.cons_append, List.cons_append, List.append_assoc, List.append_assoc, loopC_header (by omega) (by omega),
      loopC_skip (by omega) _ (by simp only [List.length_cons, List.length_append, length_beEnc]; omega)]
    have hd : (100 :: (beEnc 4 (row.length + 4) ++ (row ++ (copyFrames rows ++ r)))).drop (row.length + 4 + 1) = copyFrames rows ++ r := by
      rw [List.drop_succ_cons, ← List.append_assoc, List.drop_left' (by simp; omega)]
    rw [hd]
    exact ih fuel (n + 1) (fun y hy => hr y (List.mem_cons_of_mem _ hy)) (by rw [List.length_cons] at hf; omega)

theorem attributes_none {s : CWS} {k : Nat} (h : s.attributes = ⟨k, [], none⟩) : s = ⟨none, k, none⟩ := by
  obtain ⟨c, r, f⟩ := s
  cases c with
  | none =>
    have h1 : (r : Int) = k := congrArg WS.remaining h
    have h2 : f = none := congrArg WS.final h
    rw [h2, Int.ofNat_inj.1 h1]
  | some x =>
    have h1 : (-1 : Int) = (k : Int) := congrArg WS.remaining h
    omega

theorem attributes_some {s : CWS} {f : Bytes} (h : s.attributes = ⟨-1, f, none⟩) : s = ⟨some f, s.remaining, none⟩ := by
  obtain ⟨c, r, x⟩ := s
  cases c with
  | none =>
    have h1 : (r : Int) = -1 := congrArg WS.remaining h
    omega
  | some y =>
    have h1 : y = f := congrArg WS.fragment h
    have h2 : x = none := congrArg WS.final h
    rw [h1, h2]

/-- In a stream of messages of proper lengths, `update` in C does not raise. -/
theorem updateC_ok {r c q : Bytes} {rows : List Bytes} {s : CWS} (ha : At r s.attributes) (hn : ¬ Foreign r) (hp : Position (r ++ c) rows q)
    (hr : ∀ row ∈ rows, RowShort row) (hq : RestShort q) : ∃ s' n, updateC s c = .ok (s', n) := by
  by_cases hc : c = []
  · subst hc; exact ⟨_, _, rfl⟩
  rcases ha with ⟨rfl, hs⟩ | ⟨f, ⟨rfl, hfl⟩, hs⟩ | ⟨k, hk, hs⟩ | ⟨hF, _⟩
  · rw [attributes_none (k := 0) hs, updateC_none _ _ hc]
    obtain ⟨he, hf, hR⟩ := hp
    rw [List.nil_append] at he
    rw [he]
    exact loopC_frames hR hq rows _ 0 hr (by have := length_copyFrames rows; simp; omega)
  · rw [attributes_some hs, updateC_some _ _ _ hc]
    by_cases hl : f.length + c.length < 4
    · rw [if_neg (by rw [List.length_append, List.length_take]; omega)]
      exact ⟨_, _, rfl⟩
    · rw [if_pos (by rw [List.length_append, List.length_take]; omega)]
      have htake : (f ++ c).take 4 = f ++ c.take (4 - f.length) := by
        rw [List.take_append, List.take_of_length_le (by omega)]
      obtain ⟨he, hf, hR⟩ := hp
      cases rows with
      | nil =>
        rw [copyFrames_nil, List.nil_append] at he
        subst he
        rcases hR with h | ⟨f', h, hl'⟩ | ⟨k, hk, part, h, hl'⟩ | h
        · simp at h
        · have := congrArg List.length h
          simp at this
          omega
        · have h' := h
          rw [List.cons_append] at h
          injection h with _ h
          have hL : f ++ c.take (4 - f.length) = beEnc 4 (part.length + k + 4) := by
            rw [← htake, h, List.take_left' (length_beEnc _ _)]
          have hlen := congrArg List.length h
          simp only [List.length_append, length_beEnc] at hlen
          rw [hL, beDec_beEnc_of_lt (by simpa using hl'), if_neg (by omega), loopC_short _ (by omega)]
          exact ⟨_, _, rfl⟩
        · exact (hn (by obtain ⟨x, t, h, hx⟩ := h; exact ⟨100, f, rfl, by rw [List.cons_append] at h; injection h with h _; exact (hx h.symm).elim⟩)).elim
      | cons row rows =>
        have hfr := hf row (List.mem_cons_self ..)
        rw [copyFrames_cons, List.cons_append, List.cons_append, List.cons_append] at he
        injection he with _ he
        have hL : f ++ c.take (4 - f.length) = beEnc 4 (row.length + 4) := by
          rw [← htake, he, List.append_assoc, List.append_assoc, List.take_left' (length_beEnc _ _)]
        have hlen := congrArg List.length he
        simp only [List.length_append, length_beEnc] at hlen
        have hd : c.drop (row.length + 4 - f.length) = copyFrames rows ++ q := by
          have := congrArg (List.drop (row.length + 4)) he
          rw [List.drop_append, List.drop_eq_nil_of_le (by omega), List.nil_append, List.append_assoc (beEnc 4 (row.length + 4) ++ row),
            List.drop_left' (by simp; omega)] at this
          exact this
        rw [hL, beDec_beEnc_of_lt (by simpa [RowFits] using hfr), if_neg (by omega), loopC_skip (by omega) _ (by omega), hd]
        exact loopC_frames hR hq rows _ _ (fun y hy => hr y (List.mem_cons_of_mem _ hy)) (by have := length_copyFrames rows; omega)
  · rw [attributes_none hs, updateC_none _ _ hc]
    have hkp := hk.1
    by_cases hl : c.length < k
    · rw [loopC_short _ hl]; exact ⟨_, _, rfl⟩
    · have hkc : k ≤ c.length := by omega
      obtain ⟨h0, part, rfl, hl2⟩ := hk
      have hfit : RowFits (part ++ c.take k) := by
        unfold RowFits
        rw [List.length_append, List.length_take, Nat.min_eq_left hkc]
        exact hl2
      have hsp : 100 :: (beEnc 4 (part.length + k + 4) ++ part) ++ c = fr (part ++ c.take k) ++ c.drop k := by
        unfold fr
        rw [List.length_append, List.length_take, Nat.min_eq_left hkc]
        simp
      rw [hsp] at hp
      obtain ⟨rows', rfl, hp'⟩ := position_fr hfit hp
      obtain ⟨he', hf', hR⟩ := hp'
      rw [loopC_skip hkp _ hkc, he']
      exact loopC_frames hR hq rows' _ _ (fun y hy => hr y (List.mem_cons_of_mem _ hy))
          (by have := length_copyFrames rows'; have := congrArg List.length he'; simp only [List.length_append, List.length_drop] at this; omega)
  · exact (hn hF).elim

theorem trackC_at (chunks : List Bytes) : ∀ {q : Bytes} {s : CWS} {rows : List Bytes} {r : Bytes}, At q s.attributes → Sane s → ¬ Foreign q →
    Position (q ++ chunks.flatten) rows r → ¬ Foreign r → (∀ row ∈ rows, RowShort row) → RestShort r →
    ∃ s', trackC s chunks = .ok (s', rows.length) ∧ track s.attributes chunks = .ok (s'.attributes, rows.length) ∧ At r s'.attributes ∧ Sane s' := by
  induction chunks with
  | nil =>
    intro q s rows r ha hs hn hp hr h1 h2
    obtain ⟨s', ht, ha'⟩ := track_at [] ha hn hp hr
    have ht' : (s.attributes, 0) = (s', rows.length) := Except.ok.inj ht
    obtain ⟨rfl, h0⟩ := Prod.mk.inj ht'
    exact ⟨s, by rw [← h0]; rfl, by rw [← h0]; rfl, ha', hs⟩
  | cons c cs ih =>
    intro q s rows r ha hs hn hp hr hrs hr2
    rw [List.flatten_cons, ← List.append_assoc] at hp
    obtain ⟨rows1, q1, rows2, rfl, h1, h2⟩ := position_prefix hp
    have hn1 : ¬ Foreign q1 := fun hF => hr (foreign_append hF h2)
    have hrs1 : ∀ row ∈ rows1, RowShort row := fun y hy => hrs y (List.mem_append_left _ hy)
    have hrs2 : ∀ row ∈ rows2, RowShort row := fun y hy => hrs y (List.mem_append_right _ hy)
    obtain ⟨s1, n, hu⟩ := updateC_ok ha hn h1 hrs1 (short_prefix h2 hrs2 hr2)
    have hf : s.final = none := by
      rcases ha with ⟨_, h⟩ | ⟨f, _, h⟩ | ⟨k, _, h⟩ | ⟨hF, _⟩
      · exact congrArg WS.final h
      · exact congrArg WS.final h
      · exact congrArg WS.final h
      · exact absurd hF hn
    obtain ⟨hu', hs1⟩ := C99_same s s1 c n hs hu (Or.inr hf)
    obtain ⟨s0, hu0, ha1⟩ := update_position ha hn h1
    rw [hu'] at hu0
    obtain ⟨rfl, rfl⟩ := Prod.mk.inj (Except.ok.inj hu0)
    obtain ⟨s2, ht, ht', ha2, hs2⟩ := ih ha1 hs1 hn1 h2 hr hrs2 hr2
    refine ⟨s2, ?_, ?_, ha2, hs2⟩
    · rw [trackC, hu, bind_ok]
      simp only
      rw [ht, bind_ok, List.length_append]; rfl
    · rw [track, hu', bind_ok]
      simp only
      rw [ht', bind_ok, List.length_append]; rfl

/-- **C99 (position).** However a stream of COPY data is cut into chunks, the state in C counts as many messages as it holds, its attributes say exactly what is left of the
stream, and they and the count are those of the state in Python. -/
theorem C99_position (chunks : List Bytes) (rows : List Bytes) (r : Bytes) (h : Position chunks.flatten rows r) (hr : ¬ Foreign r)
    (hrows : ∀ row ∈ rows, row.length + 5 < 2 ^ 32) (hs : ∀ t, r ≠ 100 :: ([255, 255, 255, 255] ++ t)) :
    ∃ s, trackC CWS.init chunks = .ok (s, rows.length) ∧ Describes r s.attributes ∧ track WS.init chunks = .ok (s.attributes, rows.length) := by
  obtain ⟨s, h1, h2, h3, _⟩ := trackC_at chunks (q := []) (s := CWS.init) (Or.inl ⟨rfl, rfl⟩) (fun f hf => by cases hf) not_foreign_nil h hr hrows hs
  exact ⟨s, h1, describes_of_at h3, h2⟩

theorem trackC_append (a : List Bytes) (c : Bytes) : ∀ (s s1 s2 : CWS) (n m : Nat), trackC s a = .ok (s1, n) → updateC s1 c = .ok (s2, m) →
    trackC s (a ++ [c]) = .ok (s2, n + m) := by
  induction a with
  | nil =>
    intro s s1 s2 n m h1 h2
    cases h1
    rw [List.nil_append, trackC, h2, bind_ok]
    show Except.ok (s2, m + 0) = _
    rw [Nat.zero_add]; rfl
  | cons x a ih =>
    intro s s1 s2 n m h1 h2
    rw [trackC] at h1
    rw [List.cons_append, trackC]
    cases hu : updateC s x with
    | error e => rw [hu] at h1; cases h1
    | ok p =>
      obtain ⟨s3, k⟩ := p
      rw [hu, bind_ok] at h1
      simp only at h1
      cases ht : trackC s3 a with
      | error e => rw [ht] at h1; cases h1
      | ok w =>
        obtain ⟨s4, j⟩ := w
        rw [ht, bind_ok] at h1
        cases h1
        rw [bind_ok]
        simp only
        rw [ih s3 _ _ _ _ ht h2, bind_ok]
        show Except.ok (s2, k + (j + m)) = _
        rw [Nat.add_assoc]

/-- **C99 (the end).** The chunk in which something other than COPY data begins leaves the complete messages counted and the foreign data as the final view, as in Python; after
that the state refuses data, but an empty view is taken, which Python refuses. -/
theorem C99_foreign (chunks : List Bytes) (c : Bytes) (rows1 rows : List Bytes) (q r : Bytes) (h1 : Position chunks.flatten rows1 q)
    (hq : ¬ Foreign q) (h : Position (chunks.flatten ++ c) rows r) (hr : Foreign r) (hrows : ∀ row ∈ rows, row.length + 5 < 2 ^ 32) :
    ∃ s, trackC CWS.init (chunks ++ [c]) = .ok (s, rows.length) ∧ s.attributes = ⟨0, [], some r⟩ ∧
      track WS.init (chunks ++ [c]) = .ok (s.attributes, rows.length) ∧
      (∀ v, v ≠ [] → updateC s v = .error .runtime) ∧ updateC s [] = .ok (s, 0) ∧ ∀ v, update s.attributes v = .error .runtimeError := by
  obtain ⟨hpy, _⟩ := C34_foreign chunks c rows1 rows q r h1 hq h hr
  obtain ⟨rowsA, q', rowsB, rfl, hA, hB⟩ := position_prefix h
  obtain ⟨rfl, rfl⟩ := position_unique h1 hA
  have hrs1 : ∀ row ∈ rows1, RowShort row := fun y hy => hrows y (List.mem_append_left _ hy)
  have hrs2 : ∀ row ∈ rowsB, RowShort row := fun y hy => hrows y (List.mem_append_right _ hy)
  have hsr : RestShort r := by
    intro t ht
    obtain ⟨x, u, hx, hxn⟩ := hr
    rw [hx] at ht
    injection ht with ht _
    exact hxn ht
  obtain ⟨s, t1, t2, ha, hs⟩ := trackC_at chunks (q := []) (s := CWS.init) (Or.inl ⟨rfl, rfl⟩) (fun f hf => by cases hf) not_foreign_nil h1 hq hrs1
    (short_prefix hB hrs2 hsr)
  obtain ⟨s', n, hu⟩ := updateC_ok ha hq hB hrs2 hsr
  have hf : s.final = none := by
    rcases ha with ⟨_, h⟩ | ⟨f, _, h⟩ | ⟨k, _, h⟩ | ⟨hF, _⟩
    · exact congrArg WS.final h
    · exact congrArg WS.final h
    · exact congrArg WS.final h
    · exact absurd hF hq
  obtain ⟨hu', hs1⟩ := C99_same s s' c n hs hu (Or.inr hf)
  obtain ⟨s0, hu0, ha1⟩ := update_position ha hq hB
  rw [hu'] at hu0
  obtain ⟨rfl, rfl⟩ := Prod.mk.inj (Except.ok.inj hu0)
  have hat : s'.attributes = ⟨0, [], some r⟩ := by
    rcases ha1 with ⟨e, _⟩ | ⟨f, hf, _⟩ | ⟨k, hk, _⟩ | ⟨_, h⟩
    · exact absurd (e ▸ hr) not_foreign_nil
    · exact absurd hr (not_foreign_header hf)
    · exact absurd hr (not_foreign_row hk)
    · exact h
  have hfin : s'.final = some r := congrArg WS.final hat
  refine ⟨s', ?_, hat, ?_, fun v hv => updateC_dead s' v hv (by rw [hfin]; simp), rfl, fun v => ?_⟩
  · rw [trackC_append chunks c _ _ _ _ _ t1 hu, List.length_append]
  · rw [hpy, hat]
  · rw [hat]; exact C34_dead _ r v rfl

/-! ## Lengths that are not proper -/

theorem bad_partial (t : List Bytes) : ∀ (f w u : Bytes) (rem : Nat), w.length = 4 → beDec w < 4 → f.length < 4 → f ++ t.flatten = w ++ u →
    trackC ⟨some f, rem, none⟩ t = .error .value := by
  induction t with
  | nil =>
    intro f w u rem hw _ hf h
    have := congrArg List.length h
    simp only [List.flatten_nil, List.append_nil, List.length_append] at this
    omega
  | cons c t ih =>
    intro f w u rem hw hb hf h
    rw [List.flatten_cons] at h
    rw [trackC]
    by_cases hc : c = []
    · subst hc
      rw [updateC_nil, bind_ok]
      simp only
      rw [ih f w u rem hw hb hf (by simpa using h)]; rfl
    · rw [updateC_some _ _ _ hc]
      by_cases hl : f.length + c.length < 4
      · rw [if_neg (by rw [List.length_append, List.length_take]; omega), bind_ok]
        simp only
        rw [ih _ w u rem hw hb (by rw [List.length_append, List.length_take]; omega)
          (by rw [List.take_of_length_le (by omega), List.append_assoc]; exact h)]; rfl
      · have hg : f ++ c.take (4 - f.length) = w := by
          have := congrArg (List.take 4) h
          rw [List.take_left' hw, List.take_append, List.take_of_length_le (by omega), List.take_append,
            show 4 - f.length - c.length = 0 by omega, List.take_zero, List.append_nil] at this
          exact this
        rw [hg, if_pos hw, if_pos hb]; rfl

/-- **C99 (short lengths).** A message whose length word is less than four is refused in C however the stream is cut. In Python it is not, and the count depends on the cut
(`C34_short_length`). -/
theorem C99_short_length (chunks : List Bytes) (w u : Bytes) (hw : w.length = 4) (hb : beDec w < 4) (h : chunks.flatten = 100 :: (w ++ u)) :
    trackC CWS.init chunks = .error .value := by
  induction chunks with
  | nil => cases h
  | cons c t ih =>
    rw [List.flatten_cons] at h
    rw [trackC]
    cases c with
    | nil => rw [updateC_nil, bind_ok]; simp only; rw [ih (by simpa using h)]; rfl
    | cons x r =>
      rw [List.cons_append] at h
      injection h with hx h
      subst hx
      show (do let p ← updateC ⟨none, 0, none⟩ (100 :: r); let q ← trackC p.1 t; return (q.1, p.2 + q.2)) = _
      rw [updateC_none _ _ (by simp), List.length_cons, loopC, show insideC (100 :: r) 0 0 = (100 :: r, 0, 0) from rfl]
      simp only
      rw [if_neg (by simp [copyType])]
      by_cases hl : r.length + 1 < 5
      · rw [if_pos hl, bind_ok]
        simp only
        rw [bad_partial t r w u 0 hw hb (by omega) h]; rfl
      · rw [if_neg hl]
        have hg : r.take 4 = w := by
          have := congrArg (List.take 4) h
          rw [List.take_left' hw, List.take_append, show 4 - r.length = 0 by omega, List.take_zero, List.append_nil] at this
          exact this
        rw [hg, if_pos (by unfold u32; rw [Nat.mod_eq_of_lt (by omega)]; omega)]; rfl

/-- **C99 (the largest length).** A message with the largest length word is refused in C when its header comes in one piece, and taken when it does not: the addition of one overflows. -/
theorem C99_largest : updateC CWS.init (100 :: [255, 255, 255, 255]) = .error .value ∧
    trackC CWS.init [[100], [255, 255, 255, 255]] = .ok (⟨none, 2 ^ 32 - 5, none⟩, 0) ∧
    track WS.init [[100, 255, 255, 255, 255]] = .ok (⟨2 ^ 32 - 5, [], none⟩, 0) := ⟨by decide +kernel, by decide +kernel, by decide +kernel⟩

theorem loopC_total : ∀ (fuel : Nat) (view : Bytes) (rem n : Nat), view.length + (if rem = 0 then 2 else 1) ≤ fuel → loopC fuel view rem n ≠ .error .undefined := by
  intro fuel
  induction fuel with
  | zero => intro view rem n h; split at h <;> omega
  | succ fuel ih =>
    intro view rem n h
    rw [loopC]
    have hi : (insideC view rem n).1 = [] ∨ (insideC view rem n).1.length + 1 ≤ fuel := by
      unfold insideC
      by_cases h0 : 0 < rem
      · rw [if_neg (by omega)] at h
        rw [if_pos h0]
        by_cases hl : view.length < rem
        · rw [if_pos hl]; exact Or.inl rfl
        · rw [if_neg hl]
          by_cases hz : view.length - rem = 0
          · exact Or.inl (List.drop_eq_nil_of_le (by omega))
          · refine Or.inr ?_
            show (view.drop rem).length + 1 ≤ fuel
            rw [List.length_drop]; omega
      · rw [if_neg h0]
        rw [if_pos (by omega)] at h
        exact Or.inr (by show view.length + 1 ≤ fuel; omega)
    generalize insideC view rem n = w at hi ⊢
    obtain ⟨v, r', n'⟩ := w
    cases v with
    | nil => intro h; cases h
    | cons x r =>
      simp only at hi ⊢
      by_cases hx : x ≠ copyType
      · rw [if_pos hx]; intro h; cases h
      · rw [if_neg hx]
        by_cases hl : r.length + 1 < 5
        · rw [if_pos hl]; intro h; cases h
        · rw [if_neg hl]
          by_cases h5 : u32 (beDec (r.take 4) + 1) < 5
          · rw [if_pos h5]; intro h; cases h
          · rw [if_neg h5]
            refine ih _ _ _ ?_
            rw [if_neg (by omega)]
            rcases hi with h | h
            · cases h
            · exact h

/-- **C99** `update` in C always ends, and what it can raise is RuntimeError after the end, and ValueError. -/
theorem C99_total (s : CWS) (view : Bytes) : updateC s view ≠ .error .undefined := by
  have hl : ∀ rem n, loopC (view.length + 2) view rem n ≠ .error .undefined := fun rem n => loopC_total _ _ _ _ (by split <;> omega)
  unfold updateC
  by_cases hv : view = []
  · rw [if_pos hv]; intro h; cases h
  · rw [if_neg hv]
    by_cases hf : s.final.isSome
    · rw [if_pos hf]; intro h; cases h
    · rw [if_neg hf]
      cases s.continuation with
      | none => exact hl _ _
      | some f =>
        simp only
        by_cases h4 : (f ++ view.take (4 - f.length)).length = 4
        · rw [if_pos h4]
          by_cases hb : beDec (f ++ view.take (4 - f.length)) < 4
          · rw [if_pos hb]; intro h; cases h
          · rw [if_neg hb]; exact hl _ _
        · rw [if_neg h4]; intro h; cases h

/-- The hypotheses of `C99_position` and `C99_foreign` are met: two rows and a half, cut in the header; and then an error message. -/
example : trackC CWS.init [[100, 0, 0], [0, 6, 65, 66, 100, 0, 0, 0, 4, 100, 0, 0, 0, 7, 65]] = .ok (⟨none, 2, none⟩, 2) ∧
    Position [100, 0, 0, 0, 6, 65, 66, 100, 0, 0, 0, 4, 100, 0, 0, 0, 7, 65] [[65, 66], []] [100, 0, 0, 0, 7, 65] := by
  refine ⟨by decide +kernel, by decide +kernel, ?_, Or.inr (Or.inr (Or.inl ⟨2, by decide, [65], by decide +kernel, by decide⟩))⟩
  intro row hrow
  simp only [List.mem_cons, List.not_mem_nil, or_false] at hrow
  rcases hrow with rfl | rfl <;> exact (by unfold RowFits; decide)
example : trackC CWS.init [[100, 0, 0], [0, 6, 65, 66, 69, 1]] = .ok (⟨none, 0, some [69, 1]⟩, 1) ∧ Foreign [69, 1] := ⟨by decide +kernel, 69, [1], rfl, by decide⟩

end PG.OptWire
