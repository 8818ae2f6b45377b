import Verif.Model.OptBuffer
import Verif.Proofs.PBuffer
/-! Helper lemmas for the message stream in C: refinement to the unread bytes. -/
namespace PG.OptBuffer
open PG PG.Spec

/-- The unread bytes. -/
def unread (p : Place) : Bytes := p.list.flatten.drop p.offset

/-- Representation invariant: no item is empty, and the offset is inside of the first one. -/
def Inv (p : Place) : Prop := (∀ c ∈ p.list, c ≠ []) ∧ (match p.list with | [] => p.offset = 0 | c :: _ => p.offset < c.length)

/-- Everything in the list can be counted with 32 bits, and each item with 31. -/
def Small (p : Place) : Prop := p.list.flatten.length < 2 ^ 32 ∧ ∀ c ∈ p.list, c.length < 2 ^ 31

theorem small_write {p : Place} (h : Inv p) (hs : Small p) {d : Bytes} (hd : d.length < 2 ^ 31) (hu : (unread p).length + d.length < 2 ^ 31) : Small (write p d) := by
  obtain ⟨list, offset⟩ := p
  unfold write
  by_cases h0 : 0 < d.length
  · rw [if_pos h0]
    refine ⟨?_, fun c hc => ?_⟩
    · show (list ++ [d]).flatten.length < 2 ^ 32
      rw [List.flatten_append, List.flatten_singleton, List.length_append]
      have hul : (unread ⟨list, offset⟩).length = list.flatten.length - offset := by simp [unread]
      rw [hul] at hu
      cases list with
      | nil => simp; omega
      | cons c cs =>
        have ho : offset < c.length := h.2
        have hc : c.length < 2 ^ 31 := hs.2 c (List.mem_cons_self ..)
        omega
    · rcases List.mem_append.mp hc with hc | hc
      · exact hs.2 c hc
      · rw [List.mem_singleton.mp hc]; exact hd
  · rw [if_neg h0]; exact hs

theorem u32_eq {n : Nat} (h : n < 2 ^ 32) : u32 n = n := Nat.mod_eq_of_lt h

theorem inv_init : Inv {} := ⟨by simp, rfl⟩

theorem copyLoop_eq : ∀ (list : List Bytes) (left offset : Nat), (∀ c cs, list = c :: cs → offset ≤ c.length) →
    copyLoop left list offset = (list.flatten.drop offset).take left
  | [], left, offset, _ => by simp [copyLoop]
  | c :: cs, left, offset, h => by
    have ho : offset ≤ c.length := h c cs rfl
    unfold copyLoop
    by_cases h0 : left = 0
    · rw [if_pos h0, h0]; simp
    · rw [if_neg h0, copyLoop_eq cs _ 0 (fun _ _ _ => Nat.zero_le _), List.flatten_cons, List.drop_append_of_le_length ho, List.drop_zero]
      rw [List.take_append, List.length_drop]
      congr 2
      omega

theorem memcpy_eq (p : Place) (h : Inv p) (n : Nat) : memcpy p n = (unread p).take n := by
  refine copyLoop_eq _ _ _ fun c cs e => ?_
  have := h.2
  rw [e] at this
  exact Nat.le_of_lt this

theorem unread_length (p : Place) : (unread p).length = p.list.flatten.length - p.offset := by simp [unread]

theorem nonempty_pos {c : Bytes} (h : c ≠ []) : 0 < c.length := List.length_pos_iff.mpr h

theorem seekLoop_spec : ∀ (list : List Bytes) (left offset : Nat), Inv ⟨list, offset⟩ → Small ⟨list, offset⟩ →
    Inv (seekLoop left list offset).1 ∧ Small (seekLoop left list offset).1 ∧
      unread (seekLoop left list offset).1 = (unread ⟨list, offset⟩).drop left ∧
      (seekLoop left list offset).2 = left - (unread ⟨list, offset⟩).length
  | [], left, offset, h, hs => by
    have : offset = 0 := h.2
    subst this
    exact ⟨inv_init, ⟨by simp [seekLoop], by simp [seekLoop]⟩, by simp [seekLoop, unread], by simp [seekLoop, unread]⟩
  | c :: cs, left, offset, h, hs => by
    have ho : offset < c.length := h.2
    have hc : c.length < 2 ^ 32 := by
      have : (c :: cs).flatten.length < 2 ^ 32 := hs.1
      rw [List.flatten_cons, List.length_append] at this
      omega
    unfold seekLoop
    by_cases h0 : left = 0
    · rw [if_pos h0]
      subst h0
      exact ⟨h, hs, rfl, by simp⟩
    · rw [if_neg h0]
      by_cases h1 : left < c.length - offset
      · rw [if_pos h1, u32_eq (by omega)]
        refine ⟨⟨h.1, ?_⟩, hs, ?_, ?_⟩
        · show offset + left < c.length; omega
        · show List.drop (offset + left) _ = _
          unfold unread
          rw [List.drop_drop]
        · rw [unread_length]
          show 0 = left - ((c :: cs).flatten.length - offset)
          rw [List.flatten_cons, List.length_append]
          omega
      · rw [if_neg h1]
        have hi : Inv ⟨cs, 0⟩ := by
          refine ⟨fun x hx => h.1 x (List.mem_cons_of_mem _ hx), ?_⟩
          cases cs with
          | nil => rfl
          | cons d ds => exact nonempty_pos (h.1 d (by simp))
        have hs' : Small ⟨cs, 0⟩ := by
          have : (c :: cs).flatten.length < 2 ^ 32 := hs.1
          rw [List.flatten_cons, List.length_append] at this
          exact ⟨by show cs.flatten.length < 2 ^ 32; omega, fun x hx => hs.2 x (List.mem_cons_of_mem _ hx)⟩
        obtain ⟨a1, a2, a3, a4⟩ := seekLoop_spec cs (left - (c.length - offset)) 0 hi hs'
        refine ⟨a1, a2, ?_, ?_⟩
        · rw [a3]
          unfold unread
          show List.drop _ (List.drop 0 cs.flatten) = List.drop left (List.drop offset (c :: cs).flatten)
          rw [List.drop_zero, List.flatten_cons, List.drop_append_of_le_length (Nat.le_of_lt ho), List.drop_append, List.length_drop,
            show List.drop left (List.drop offset c) = [] from List.drop_eq_nil_of_le (by rw [List.length_drop]; omega), List.nil_append]
        · rw [a4, unread_length, unread_length]
          show _ - (cs.flatten.length - 0) = left - ((c :: cs).flatten.length - offset)
          rw [List.flatten_cons, List.length_append]
          omega

theorem seek_spec (p : Place) (h : Inv p) (hs : Small p) (n : Nat) :
    Inv (seek p n).1 ∧ Small (seek p n).1 ∧ unread (seek p n).1 = (unread p).drop n ∧ (seek p n).2 = min n (unread p).length := by
  obtain ⟨list, offset⟩ := p
  cases list with
  | nil =>
    have : offset = 0 := h.2
    subst this
    exact ⟨h, hs, by simp [seek, unread], by simp [seek, unread]⟩
  | cons c cs =>
    have ho : offset < c.length := h.2
    unfold seek
    dsimp only
    rw [if_neg (by omega)]
    obtain ⟨a1, a2, a3, a4⟩ := seekLoop_spec (c :: cs) n offset h hs
    refine ⟨a1, a2, a3, ?_⟩
    dsimp only
    rw [a4]
    omega

theorem atLeastFrom_spec (amount : Nat) : ∀ (list : List Bytes) (current : Nat), current < amount → current + list.flatten.length < 2 ^ 32 →
    atLeastFrom amount current list = decide (amount ≤ current + list.flatten.length)
  | [], current, h, _ => by simp [atLeastFrom, h]
  | c :: cs, current, h, hs => by
    rw [List.flatten_cons, List.length_append] at hs
    unfold atLeastFrom
    rw [u32_eq (by omega), List.flatten_cons, List.length_append]
    by_cases hle : amount ≤ current + c.length
    · rw [if_pos hle]; symm; exact decide_eq_true (by omega)
    · rw [if_neg hle, atLeastFrom_spec amount cs _ (by omega) (by omega)]
      congr 1
      rw [Nat.add_assoc]

theorem atLeast_spec (p : Place) (h : Inv p) (hs : Small p) (n : Nat) : atLeast p n = decide (n ≤ (unread p).length) := by
  obtain ⟨list, offset⟩ := p
  cases list with
  | nil =>
    have : offset = 0 := h.2
    subst this
    simp [atLeast, unread]
  | cons c cs =>
    have ho : offset < c.length := h.2
    have hs' : (c :: cs).flatten.length < 2 ^ 32 := hs.1
    rw [List.flatten_cons, List.length_append] at hs'
    unfold atLeast
    dsimp only
    rw [u32_eq (by omega), unread_length]
    show _ = decide (n ≤ (c :: cs).flatten.length - offset)
    rw [List.flatten_cons, List.length_append]
    by_cases hle : n ≤ c.length - offset
    · rw [if_pos hle]; symm; exact decide_eq_true (by omega)
    · rw [if_neg hle, atLeastFrom_spec n cs _ (by omega) (by omega)]
      congr 1
      rw [eq_iff_iff]
      omega

/-- The header of five bytes, seen in the unread bytes. -/
theorem header_eq (t a b c d : UInt8) (r : Bytes) : beDec (slice ((t :: a :: b :: c :: d :: r).take 5) 1 5) = len32 a b c d := by
  simp [slice, beDec, len32]
  omega

theorem build_spec (signed : Bool) (p : Place) (h : Inv p) (hs : Small p) (ht : signed = true → ∀ m rest, view (unread p) = .msg m rest → m.1.toNat < 128) :
    match view (unread p) with
    | .msg m rest => (build signed p).1 = .ok (some m) ∧ Inv (build signed p).2 ∧ Small (build signed p).2 ∧ unread (build signed p).2 = rest
    | .incomplete => (build signed p).1 = .ok none
    | .bad => (build signed p).1 = .error .value := by
  unfold build
  dsimp only
  rw [memcpy_eq p h]
  by_cases h5 : (unread p).length < 5
  · rw [PBuffer.length_lt_five h5]
    dsimp only
    rw [if_pos (by rw [List.length_take]; omega)]
  · obtain ⟨t, a, b, c, d, r, e⟩ := PBuffer.exists_five h5
    have hl : (List.take 5 (unread p)).length = 5 := by rw [List.length_take]; omega
    obtain ⟨i1, s1, u1, _⟩ := seek_spec p h hs 5
    rw [e] at hl u1 ht ⊢
    have u1' : unread (seek p 5).1 = r := by rw [u1]; rfl
    rw [PBuffer.view_cons] at ht ⊢
    have hl5 : ¬ (List.take 5 (t :: a :: b :: c :: d :: r)).length < 5 := by rw [hl]; omega
    rw [if_neg hl5, header_eq]
    have hh : (List.take 5 (t :: a :: b :: c :: d :: r)).headD 0 = t := rfl
    rw [hh]
    generalize (seek p 5).1 = q at i1 s1 u1' ⊢
    generalize len32 a b c d = n at ht ⊢
    by_cases h4 : n < 4
    · rw [if_pos h4, if_pos h4]
    · rw [if_neg h4, if_neg h4, atLeast_spec q i1 s1, u1', memcpy_eq q i1, u1']
      by_cases hlt : r.length < n - 4
      · rw [if_pos hlt, if_pos]
        rw [decide_eq_false (by omega)]; rfl
      · rw [if_neg hlt, if_neg (by rw [decide_eq_true (by omega)]; simp)]
        obtain ⟨i2, s2, u2, _⟩ := seek_spec q i1 s1 (n - 4)
        have hb : (if 0 < n - 4 then List.take (n - 4) r else []) = List.take (n - 4) r := by
          split
          · rfl
          · rw [show n - 4 = 0 by omega]; rfl
        have hbl : ¬ (List.take (n - 4) r).length ≠ n - 4 := by rw [List.length_take]; omega
        rw [hb, if_neg hbl]
        have hsg : ¬ ((signed && decide (128 ≤ t.toNat)) = true) := by
          cases signed with
          | false => simp
          | true =>
            have := ht rfl (t, r.take (n - 4)) (r.drop (n - 4)) (by rw [if_neg h4, if_neg hlt])
            simp only [Bool.true_and, decide_eq_true_eq]
            exact Nat.not_le.mpr this
        rw [if_neg hsg]
        refine ⟨rfl, ?_⟩
        by_cases h0 : 0 < n - 4
        · rw [if_pos h0]
          exact ⟨i2, s2, by rw [u2, u1']⟩
        · rw [if_neg h0]
          exact ⟨i1, s1, by rw [u1', show n - 4 = 0 by omega]; rfl⟩

/-- What is asked for with a signed `char`: only types that index the tuple of types. -/
def Plain (signed : Bool) (u : Bytes) : Prop := signed = true → ∀ m ∈ (parse u).1, m.1.toNat < 128

theorem plain_head {signed : Bool} {u rest : Bytes} {m : PBuffer.Msg} (h : Plain signed u) (hv : view u = .msg m rest) :
    (signed = true → ∀ m' rest', View.msg m rest = .msg m' rest' → m'.1.toNat < 128) ∧ Plain signed rest := by
  unfold Plain at h ⊢
  rw [PBuffer.parse_eq, hv] at h
  refine ⟨fun hs m' rest' e => ?_, fun hs m' hm => h hs m' (List.mem_cons_of_mem _ hm)⟩
  injection e with e1 e2
  subst e1
  exact h hs _ (List.mem_cons_self ..)

theorem plain_view {signed : Bool} {u : Bytes} (h : Plain signed u) : signed = true → ∀ m rest, view u = .msg m rest → m.1.toNat < 128 :=
  fun hs m rest hv => (plain_head h hv).1 hs m rest rfl

theorem nextMessage_spec (signed : Bool) (p : Place) (h : Inv p) (hs : Small p) (ht : Plain signed (unread p)) :
    match view (unread p) with
    | .msg m rest => (nextMessage signed p).1 = .ok (some m) ∧ Inv (nextMessage signed p).2 ∧ Small (nextMessage signed p).2 ∧ unread (nextMessage signed p).2 = rest
    | .incomplete => nextMessage signed p = (.ok none, p)
    | .bad => nextMessage signed p = (.error .value, p) := by
  have := build_spec signed p h hs (plain_view ht)
  unfold nextMessage
  generalize build signed p = r at this ⊢
  obtain ⟨o, q⟩ := r
  generalize view (unread p) = v at this ⊢
  cases v with
  | msg m rest =>
    dsimp only at this ⊢
    obtain ⟨e, a, b, c⟩ := this
    subst e
    exact ⟨rfl, a, b, c⟩
  | incomplete => dsimp only at this ⊢; subst this; rfl
  | bad => dsimp only at this ⊢; subst this; rfl

theorem next_spec (signed : Bool) (p : Place) (h : Inv p) (hs : Small p) (ht : Plain signed (unread p)) :
    match view (unread p) with
    | .msg m rest => (next signed p).1 = .ok m ∧ Inv (next signed p).2 ∧ Small (next signed p).2 ∧ unread (next signed p).2 = rest
    | .incomplete => next signed p = (.error .stopIteration, p)
    | .bad => next signed p = (.error .value, p) := by
  have := build_spec signed p h hs (plain_view ht)
  unfold next
  generalize build signed p = r at this ⊢
  obtain ⟨o, q⟩ := r
  generalize view (unread p) = v at this ⊢
  cases v with
  | msg m rest =>
    dsimp only at this ⊢
    obtain ⟨e, a, b, c⟩ := this
    subst e
    exact ⟨rfl, a, b, c⟩
  | incomplete => dsimp only at this ⊢; subst this; rfl
  | bad => dsimp only at this ⊢; subst this; rfl

theorem hasMessage_spec (p : Place) (h : Inv p) (hs : Small p) :
    hasMessage p = match view (unread p) with
      | .msg _ _ => .ok true
      | .incomplete => .ok false
      | .bad => .error .value := by
  unfold hasMessage
  dsimp only
  rw [memcpy_eq p h]
  by_cases h5 : (unread p).length < 5
  · rw [PBuffer.length_lt_five h5]
    dsimp only
    rw [if_pos (by rw [List.length_take]; omega)]
  · obtain ⟨t, a, b, c, d, r, e⟩ := PBuffer.exists_five h5
    have hl : (List.take 5 (unread p)).length = 5 := by rw [List.length_take]; omega
    obtain ⟨i1, s1, u1, _⟩ := seek_spec p h hs 5
    rw [e] at hl u1 ⊢
    have u1' : unread (seek p 5).1 = r := by rw [u1]; rfl
    rw [PBuffer.view_cons]
    have hl5 : ¬ (List.take 5 (t :: a :: b :: c :: d :: r)).length < 5 := by rw [hl]; omega
    rw [if_neg hl5, header_eq]
    generalize (seek p 5).1 = q at i1 s1 u1' ⊢
    generalize len32 a b c d = n
    by_cases h4 : n < 4
    · rw [if_pos h4, if_pos h4]
    · rw [if_neg h4, if_neg h4, atLeast_spec q i1 s1, u1']
      by_cases hlt : r.length < n - 4
      · rw [if_pos hlt, decide_eq_false (by omega)]
      · rw [if_neg hlt, decide_eq_true (by omega)]

theorem lenLoop_spec : ∀ (fuel : Nat) (p : Place) (count : Nat), Inv p → Small p → (unread p).length < fuel →
    lenLoop fuel p count = if (parse (unread p)).2.2 then .error .value else .ok (count + (parse (unread p)).1.length) := by
  intro fuel
  induction fuel with
  | zero => intro p count _ _ hf; omega
  | succ fuel ih =>
    intro p count h hs hf
    unfold lenLoop
    dsimp only
    by_cases hn : p.list = []
    · rw [if_pos hn]
      have : unread p = [] := by unfold unread; rw [hn]; simp
      have hp : parse [] = ([], [], false) := by rw [PBuffer.parse_eq]; rfl
      rw [this, hp]
      rfl
    rw [if_neg hn, memcpy_eq p h]
    by_cases h5 : (unread p).length < 5
    · have hp : parse (unread p) = ([], unread p, false) := by rw [PBuffer.parse_eq, PBuffer.length_lt_five h5]
      have hl : (List.take 5 (unread p)).length < 5 := by rw [List.length_take]; omega
      rw [hp, if_pos hl]
      rfl
    · obtain ⟨t, a, b, c, d, r, e⟩ := PBuffer.exists_five h5
      have hl : (List.take 5 (unread p)).length = 5 := by rw [List.length_take]; omega
      obtain ⟨i1, s1, u1, _⟩ := seek_spec p h hs 5
      have hv := PBuffer.view_cons t a b c d r
      rw [← e] at hv
      have hh := header_eq t a b c d r
      rw [← e] at hh
      have u1' : unread (seek p 5).1 = r := by rw [u1, e]; rfl
      have hlen : r.length < fuel := by rw [e] at hf; simp only [List.length_cons] at hf; omega
      have hl5 : ¬ (List.take 5 (unread p)).length < 5 := by rw [hl]; omega
      rw [if_neg hl5, hh]
      generalize (seek p 5).1 = q at i1 s1 u1' ⊢
      generalize len32 a b c d = n at hv ⊢
      by_cases h4 : n < 4
      · rw [if_pos h4] at hv
        have hp : parse (unread p) = ([], unread p, true) := by rw [PBuffer.parse_eq, hv]
        rw [if_pos h4, hp]
        rfl
      · rw [if_neg h4] at hv
        rw [if_neg h4]
        obtain ⟨i2, s2, u2, k2⟩ := seek_spec q i1 s1 (n - 4)
        rw [u1'] at u2 k2
        rw [k2]
        by_cases hlt : r.length < n - 4
        · rw [if_pos hlt] at hv
          have hp : parse (unread p) = ([], unread p, false) := by rw [PBuffer.parse_eq, hv]
          have hm : min (n - 4) r.length < n - 4 := by omega
          rw [if_pos hm, hp]
          rfl
        · rw [if_neg hlt] at hv
          have hm : ¬ min (n - 4) r.length < n - 4 := by omega
          rw [if_neg hm, ih _ _ i2 s2 (by rw [u2, List.length_drop]; omega), u2]
          generalize List.drop (n - 4) r = rest at hv ⊢
          have hp : parse (unread p) = ((t, List.take (n - 4) r) :: (parse rest).1, (parse rest).2.1, (parse rest).2.2) := by rw [PBuffer.parse_eq, hv]
          rw [hp]
          generalize parse rest = z
          obtain ⟨l, u, bad⟩ := z
          dsimp only
          rw [List.length_cons, Nat.add_right_comm, Nat.add_assoc]

theorem len_spec (p : Place) (h : Inv p) (hs : Small p) :
    len p = if (parse (unread p)).2.2 then .error .value else .ok (parse (unread p)).1.length := by
  unfold len
  rw [lenLoop_spec _ p 0 h hs (by rw [unread_length]; omega), Nat.zero_add]

theorem readLoop_spec (signed : Bool) : ∀ (k : Nat) (p : Place), Inv p → Small p → Plain signed (unread p) → k ≤ (parse (unread p)).1.length →
    (readLoop signed k p).1 = .ok ((parse (unread p)).1.take k) ∧ Inv (readLoop signed k p).2 ∧ Small (readLoop signed k p).2 ∧
      unread p = frames ((parse (unread p)).1.take k) ++ unread (readLoop signed k p).2
  | 0, p, h, hs, _, _ => ⟨by rw [List.take_zero]; rfl, h, hs, by rw [List.take_zero]; rfl⟩
  | k + 1, p, h, hs, ht, hk => by
    have hb := build_spec signed p h hs (plain_view ht)
    unfold readLoop
    cases hv : view (unread p) with
    | msg m rest =>
      have hpp : parse (unread p) = (m :: (parse rest).1, (parse rest).2.1, (parse rest).2.2) := by rw [PBuffer.parse_eq, hv]
      rw [hv] at hb
      dsimp only at hb
      obtain ⟨e, a, b, c⟩ := hb
      have hk' : k ≤ (parse (unread (build signed p).2)).1.length := by
        rw [c]; rw [hpp] at hk
        generalize parse rest = z at hk ⊢
        exact Nat.le_of_succ_le_succ hk
      have ih := readLoop_spec signed k (build signed p).2 a b (by rw [c]; exact (plain_head ht hv).2) hk'
      generalize build signed p = r at e a b c ih ⊢
      obtain ⟨o, q⟩ := r
      have e' : o = .ok (some m) := e
      subst e'
      replace c : unread q = rest := c
      replace ih := ih
      rw [show ((Except.ok (some m), q) : Except CErr (Option PBuffer.Msg) × Place).2 = q from rfl, c] at ih
      obtain ⟨i1, i2, i3, i4⟩ := ih
      have hf := (PBuffer.frame_view hv).1
      rw [hpp]
      generalize parse rest = w at i1 i4 ⊢
      rw [List.take_succ_cons]
      show (match readLoop signed k q with | (.error e, p) => (.error e, p) | (.ok l, p) => (.ok (m :: l), p) : Except CErr (List PBuffer.Msg) × Place).1 = _ ∧
        Inv (match readLoop signed k q with | (.error e, p) => (.error e, p) | (.ok l, p) => (.ok (m :: l), p) : Except CErr (List PBuffer.Msg) × Place).2 ∧
        Small (match readLoop signed k q with | (.error e, p) => (.error e, p) | (.ok l, p) => (.ok (m :: l), p) : Except CErr (List PBuffer.Msg) × Place).2 ∧
        _ = _ ++ unread (match readLoop signed k q with | (.error e, p) => (.error e, p) | (.ok l, p) => (.ok (m :: l), p) : Except CErr (List PBuffer.Msg) × Place).2
      generalize readLoop signed k q = z at i1 i2 i3 i4 ⊢
      obtain ⟨o2, q2⟩ := z
      have i1' : o2 = .ok (List.take k w.1) := i1
      subst i1'
      refine ⟨rfl, i2, i3, ?_⟩
      show _ = _ ++ unread q2
      replace i4 : rest = frames (List.take k w.1) ++ unread q2 := i4
      rw [hf]
      show _ = (frame m ++ frames _) ++ _
      rw [List.append_assoc, ← i4]
    | incomplete =>
      have hpp : parse (unread p) = ([], unread p, false) := by rw [PBuffer.parse_eq, hv]
      rw [hpp] at hk
      exact absurd hk (Nat.not_succ_le_zero k)
    | bad =>
      have hpp : parse (unread p) = ([], unread p, true) := by rw [PBuffer.parse_eq, hv]
      rw [hpp] at hk
      exact absurd hk (Nat.not_succ_le_zero k)

theorem read_spec (signed : Bool) (p : Place) (h : Inv p) (hs : Small p) (ht : Plain signed (unread p)) (hok : (parse (unread p)).2.2 = false) (count : Int)
    (hc : -1 ≤ count) :
    let k := if count = -1 then (parse (unread p)).1.length else count.toNat
    (read signed p count).1 = .ok ((parse (unread p)).1.take k) ∧ Inv (read signed p count).2 ∧ Small (read signed p count).2 ∧
      unread p = frames ((parse (unread p)).1.take k) ++ unread (read signed p count).2 := by
  intro k
  unfold read
  rw [len_spec p h hs, hok]
  simp only [Bool.false_eq_true, if_false]
  generalize hn : (parse (unread p)).1.length = n
  have hk0 : ¬ (if count < (n : Int) ∧ count ≠ -1 then count else (n : Int)) < 0 := by split <;> omega
  rw [if_neg hk0]
  have hkk : (parse (unread p)).1.take k = (parse (unread p)).1.take (if count < (n : Int) ∧ count ≠ -1 then count else (n : Int)).toNat := by
    show (parse (unread p)).1.take (if count = -1 then (parse (unread p)).1.length else count.toNat) = _
    by_cases h1 : count = -1
    · rw [if_pos h1, if_neg (by omega), hn]; rfl
    · rw [if_neg h1]
      by_cases h2 : count < n
      · rw [if_pos ⟨h2, h1⟩]
      · rw [if_neg (by omega), List.take_of_length_le (by omega), List.take_of_length_le (by omega)]
  rw [hkk]
  have := readLoop_spec signed (if count < (n : Int) ∧ count ≠ -1 then count else (n : Int)).toNat p h hs ht (by split <;> omega)
  generalize readLoop signed _ p = z at this ⊢
  obtain ⟨o, q⟩ := z
  dsimp only at this
  obtain ⟨a, b, c, d⟩ := this
  subst a
  exact ⟨rfl, b, c, d⟩

theorem getvalue_spec (p : Place) (h : Inv p) : getvalue p = unread p := by
  obtain ⟨list, offset⟩ := p
  cases list with
  | nil => simp [getvalue, unread]
  | cons c cs =>
    have ho : offset < c.length := h.2
    show c.drop offset ++ cs.flatten = List.drop offset (c :: cs).flatten
    rw [List.flatten_cons, List.drop_append_of_le_length (Nat.le_of_lt ho)]

theorem write_spec (p : Place) (h : Inv p) (d : Bytes) : Inv (write p d) ∧ unread (write p d) = unread p ++ d := by
  obtain ⟨list, offset⟩ := p
  unfold write
  by_cases hd : 0 < d.length
  · rw [if_pos hd]
    refine ⟨⟨fun c hc => ?_, ?_⟩, ?_⟩
    · rcases List.mem_append.mp hc with hc | hc
      · exact h.1 c hc
      · rw [List.mem_singleton.mp hc]; exact List.length_pos_iff.mp hd
    · cases list with
      | nil => have : offset = 0 := h.2; subst this; exact hd
      | cons c cs => exact h.2
    · show List.drop offset (list ++ [d]).flatten = List.drop offset list.flatten ++ d
      rw [List.flatten_append, List.flatten_singleton]
      refine List.drop_append_of_le_length ?_
      cases list with
      | nil => have : offset = 0 := h.2; subst this; exact Nat.zero_le _
      | cons c cs =>
        have : offset < c.length := h.2
        rw [List.flatten_cons, List.length_append]
        omega
  · rw [if_neg hd]
    have : d = [] := List.length_eq_zero_iff.mp (by omega)
    subst this
    exact ⟨h, by simp⟩

end PG.OptBuffer
