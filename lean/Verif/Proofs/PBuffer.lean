import Verif.Model.PBuffer
import Verif.Spec.Framing
import Verif.Proofs.Py
/-! Helper lemmas for the message stream: refinement to the unread bytes. -/
namespace PG.PBuffer
open PG PG.Spec

/-- The unread bytes. -/
def unread (s : Stream) : Bytes := s.strio.buf.drop s.start

/-- Representation invariant. -/
def Inv (s : Stream) : Prop := s.start ≤ s.strio.buf.length

theorem rtruncLoop_spec (B : Bytes) (a : Nat) (ha : a ≤ B.length) :
    ∀ (fuel t : Nat) (p : Nat), B.length - (t + a) < fuel → t + a ≤ B.length →
    ∃ p', rtruncLoop fuel ⟨(B.drop a).take t ++ B.drop t, p⟩ t (t + a) = some ⟨B.drop a ++ B.drop (B.length - a), p'⟩ := by
  intro fuel
  induction fuel with
  | zero => intro t p h; omega
  | succ fuel ih =>
    intro t p hf ht
    have htl : ((B.drop a).take t).length = t := by simp; omega
    have hd : slice ((B.drop a).take t ++ B.drop t) (t + a) (t + a + block) = (B.drop (t + a)).take block := by
      simp only [slice, Nat.add_sub_cancel_left]
      rw [List.drop_append, htl]
      have h1 : t + a - t = a := by omega
      rw [h1, List.drop_drop, List.drop_eq_nil_of_le (by omega), List.nil_append]
    unfold rtruncLoop
    simp only [BytesIO.seek, hd]
    generalize hdata : (B.drop (t + a)).take block = data
    have hlen : data.length = min block (B.length - (t + a)) := by rw [← hdata]; simp
    have hw : ((⟨(B.drop a).take t ++ B.drop t, t⟩ : BytesIO).write data) =
        ⟨(B.drop a).take (t + data.length) ++ B.drop (t + data.length), t + data.length⟩ := by
      unfold BytesIO.write
      split
      · rename_i h; subst h; simp
      · have hbl : ((B.drop a).take t ++ B.drop t).length = B.length := by simp; omega
        simp only [BytesIO.mk.injEq, and_true]
        rw [hbl, Nat.sub_eq_zero_of_le (by omega : t ≤ B.length)]
        simp only [List.replicate_zero, List.append_nil]
        rw [List.take_append_of_le_length (by omega), List.take_take, Nat.min_self]
        have e1 : List.drop (t + data.length) ((B.drop a).take t ++ B.drop t) = B.drop (t + data.length) := by
          rw [List.drop_append, htl, List.drop_eq_nil_of_le (by omega)]
          rw [List.drop_drop]; simp
        rw [e1]
        congr 1
        rw [List.take_add, List.drop_drop, Nat.add_comm a t, hlen, ← hdata]
        congr 1
        rw [← List.length_drop, ← List.take_eq_take_min]
    rw [hw]
    by_cases hb : data.length = block
    · rw [if_neg (by simpa using hb)]
      have h2 : t + a + data.length = (t + data.length) + a := by omega
      simp only [h2]
      apply ih <;> have : block = 512 := rfl
      · omega
      · omega
    · rw [if_pos hb]
      have h3 : t + data.length = B.length - a := by omega
      refine ⟨t + data.length, ?_⟩
      rw [h3, List.take_of_length_le (by simp)]

theorem rtruncate_spec (f : BytesIO) (a : Nat) (ha : a ≤ f.buf.length) :
    ∃ p, rtruncate f a = some ⟨f.buf.drop a, p⟩ := by
  unfold rtruncate
  simp only [BytesIO.seekEnd]
  by_cases h : f.buf.length = a
  · rw [if_pos h]; exact ⟨f.buf.length, by simp [BytesIO.truncate, ← h]⟩
  · rw [if_neg h]
    obtain ⟨p', h⟩ := rtruncLoop_spec f.buf a ha (f.buf.length + 1) 0 f.buf.length (by omega) (by omega)
    simp only [List.take_zero, List.nil_append, List.drop_zero, Nat.zero_add] at h
    rw [h]
    refine ⟨p', ?_⟩
    simp only [Option.map_some, BytesIO.truncate]
    rw [List.take_append_of_le_length (by simp), List.take_of_length_le (by simp)]

theorem compact_spec (s : Stream) (h : Inv s) : Inv (compact s) ∧ unread (compact s) = unread s := by
  unfold compact
  split
  · obtain ⟨p, hp⟩ := rtruncate_spec s.strio s.start h
    rw [hp]
    simp [Inv, unread]
  · exact ⟨h, rfl⟩

theorem xlUnpack_eq (t a b c d : UInt8) (r : Bytes) :
    xlUnpack (List.take 5 (t :: a :: b :: c :: d :: r)) =
      len32 a b c d := by
  simp [xlUnpack, slice, beDec, len32]
  omega

attribute [local irreducible] xlUnpack beDec len32

theorem view_cons (t a b c d : UInt8) (rest : Bytes) : view (t :: a :: b :: c :: d :: rest) =
    if len32 a b c d < 4 then .bad
    else if rest.length < len32 a b c d - 4 then .incomplete
    else .msg (t, rest.take (len32 a b c d - 4)) (rest.drop (len32 a b c d - 4)) := rfl

theorem length_lt_five {u : Bytes} (h : u.length < 5) : view u = .incomplete := by
  unfold view
  split
  · simp at h; omega
  · rfl

theorem exists_five {u : Bytes} (h : ¬ u.length < 5) : ∃ t a b c d r, u = t :: a :: b :: c :: d :: r := by
  match u, h with
  | t :: a :: b :: c :: d :: r, _ => exact ⟨t, a, b, c, d, r, rfl⟩
  | [], h | [_], h | [_,_], h | [_,_,_], h | [_,_,_,_], h => simp at h

/-- `_get_message` at position `p` is the specification's view of the bytes from `p` on. -/
theorem getMessage_spec (B : Bytes) (p : Nat) (hp : p ≤ B.length) :
    match view (B.drop p) with
    | .msg m rest => ∃ q, getMessage ⟨B, p⟩ = (.ok (some m), ⟨B, q⟩) ∧ q ≤ B.length ∧ B.drop q = rest ∧
        q = p + (5 + m.2.length)
    | .incomplete => ∃ q, getMessage ⟨B, p⟩ = (.ok none, ⟨B, q⟩)
    | .bad => ∃ q, getMessage ⟨B, p⟩ = (.error .valueError, ⟨B, q⟩) := by
  have hs : slice B p (p + 5) = (B.drop p).take 5 := by simp [slice]
  have hul : (B.drop p).length = B.length - p := by simp
  by_cases h5 : (B.drop p).length < 5
  · rw [length_lt_five h5]
    have : ((B.drop p).take 5).length < 5 := by rw [List.length_take]; omega
    simp only [getMessage, hs, if_pos this]
    exact ⟨_, rfl⟩
  · obtain ⟨t, a, b, c, d, r, hu⟩ := exists_five h5
    have hr : r.length + 5 = B.length - p := by rw [← hul, hu]; simp
    have hdr : B.drop (p + 5) = r := by rw [← List.drop_drop, hu]; simp
    have hl5 : ((B.drop p).take 5).length = 5 := by rw [List.length_take]; omega
    simp only [getMessage, hs, hl5, Nat.lt_irrefl, if_false]
    rw [hu, xlUnpack_eq, view_cons]
    generalize len32 a b c d = n
    by_cases hn : n < 4
    · simp [hn]
    · simp only [if_neg hn]
      have hb : slice B (p + 5) (p + 5 + (n - 4)) = r.take (n - 4) := by
        simp only [slice]; rw [hdr]; congr 1; omega
      rw [hb]
      by_cases hlt : r.length < n - 4
      · have : (List.take (n - 4) r).length < n - 4 := by rw [List.length_take]; omega
        simp only [if_pos hlt, if_pos this]
        exact ⟨_, rfl⟩
      · have hlen : (List.take (n - 4) r).length = n - 4 := by rw [List.length_take]; omega
        simp only [if_neg hlt, hlen, Nat.lt_irrefl, if_false]
        refine ⟨p + 5 + (n - 4), by simp, by omega, ?_, by omega⟩
        rw [← List.drop_drop, hdr]

/-- `next_message` refines the view of the unread bytes. -/
theorem nextMessage_spec (s : Stream) (h : Inv s) :
    Inv (nextMessage s).2 ∧
    match view (unread s) with
    | .msg m rest => (nextMessage s).1 = .ok (some m) ∧ unread (nextMessage s).2 = rest
    | .incomplete => (nextMessage s).1 = .ok none ∧ unread (nextMessage s).2 = unread s
    | .bad => (nextMessage s).1 = .error .valueError ∧ unread (nextMessage s).2 = unread s := by
  obtain ⟨hi, hu⟩ := compact_spec s h
  rw [← hu]
  unfold nextMessage
  generalize compact s = s' at *
  have hg := getMessage_spec s'.strio.buf s'.start hi
  have he : unread s' = s'.strio.buf.drop s'.start := rfl
  rw [← he] at hg
  simp only [BytesIO.seek]
  cases hv : view (unread s') with
  | msg m rest =>
    rw [hv] at hg
    obtain ⟨q, hq, hql, hqd, _⟩ := hg
    rw [hq]; exact ⟨hql, rfl, hqd⟩
  | incomplete =>
    rw [hv] at hg
    obtain ⟨q, hq⟩ := hg
    rw [hq]; exact ⟨hi, rfl, rfl⟩
  | bad =>
    rw [hv] at hg
    obtain ⟨q, hq⟩ := hg
    rw [hq]; exact ⟨hi, rfl, rfl⟩

theorem next_spec (s : Stream) (h : Inv s) :
    Inv (next s).2 ∧
    match view (unread s) with
    | .msg m rest => (next s).1 = .ok m ∧ unread (next s).2 = rest
    | .incomplete => (next s).1 = .error .stopIteration ∧ unread (next s).2 = unread s
    | .bad => (next s).1 = .error .valueError ∧ unread (next s).2 = unread s := by
  obtain ⟨hi, hu⟩ := compact_spec s h
  rw [← hu]
  unfold next
  generalize compact s = s' at *
  have hg := getMessage_spec s'.strio.buf s'.start hi
  have he : unread s' = s'.strio.buf.drop s'.start := rfl
  rw [← he] at hg
  simp only [BytesIO.seek]
  cases hv : view (unread s') with
  | msg m rest =>
    rw [hv] at hg
    obtain ⟨q, hq, hql, hqd, _⟩ := hg
    rw [hq]; exact ⟨hql, rfl, hqd⟩
  | incomplete =>
    rw [hv] at hg
    obtain ⟨q, hq⟩ := hg
    rw [hq]; exact ⟨hi, rfl, rfl⟩
  | bad =>
    rw [hv] at hg
    obtain ⟨q, hq⟩ := hg
    rw [hq]; exact ⟨hi, rfl, rfl⟩

theorem parse_eq (u : Bytes) : parse u = match view u with
    | .msg m rest => (m :: (parse rest).1, (parse rest).2.1, (parse rest).2.2)
    | .incomplete => ([], u, false)
    | .bad => ([], u, true) := by
  rw [parse]
  split <;> rename_i h <;> simp [h]

theorem beEnc4_view (n : Nat) (h : n < 2 ^ 32) : ∃ a b c d : UInt8, beEnc 4 n = [a, b, c, d] ∧
    len32 a b c d = n := by
  refine ⟨UInt8.ofNat (n / 256 / 256 / 256), UInt8.ofNat (n / 256 / 256), UInt8.ofNat (n / 256), UInt8.ofNat n, rfl, ?_⟩
  simp [len32]
  omega

/-- Looking at framed data gives the message. -/
theorem view_frame (m : UInt8 × Bytes) (hm : Fits m) (rest : Bytes) : view (frame m ++ rest) = .msg m rest := by
  unfold Fits at hm
  obtain ⟨a, b, c, d, h, hn⟩ := beEnc4_view (m.2.length + 4) hm
  unfold frame
  rw [h]
  simp only [List.cons_append, List.nil_append, view_cons, hn, Nat.add_sub_cancel, List.length_append]
  rw [if_neg (by omega), if_neg (by omega)]
  simp

theorem beDec4 (a b c d : UInt8) : beDec [a,b,c,d] = len32 a b c d := by
  simp only [beDec, len32, List.foldl_cons, List.foldl_nil]; omega

theorem view_msg_inv {t a b c d : UInt8} {r rest : Bytes} {m} (h : view (t :: a :: b :: c :: d :: r) = .msg m rest) :
    ∃ n, len32 a b c d = n ∧ 4 ≤ n ∧ n - 4 ≤ r.length ∧ m = (t, r.take (n - 4)) ∧ rest = r.drop (n - 4) := by
  rw [view_cons] at h
  refine ⟨_, rfl, ?_⟩
  split at h
  · cases h
  · rename_i h4
    split at h
    · cases h
    · rename_i hlt
      injection h with h1 h2
      exact ⟨Nat.le_of_not_lt h4, Nat.le_of_not_lt hlt, h1.symm, h2.symm⟩

/-- Whatever `view` returns as a message is framed data. -/
theorem frame_view {u m rest} (h : view u = .msg m rest) : u = frame m ++ rest ∧ Fits m := by
  by_cases h5 : u.length < 5
  · rw [length_lt_five h5] at h; cases h
  · obtain ⟨t, a, b, c, d, r, rfl⟩ := exists_five h5
    obtain ⟨n, hn, h4, hle, rfl, rfl⟩ := view_msg_inv h
    have hl := beEnc_beDec [a, b, c, d]
    have hnlt := beDec_lt [a,b,c,d]
    rw [beDec4, hn] at hl hnlt
    have hlen : (List.take (n - 4) r).length + 4 = n := by rw [List.length_take]; omega
    have hl' : beEnc 4 n = [a, b, c, d] := hl
    have hnlt' : n < 256 ^ 4 := hnlt
    constructor
    · unfold frame
      simp only [hlen, hl']
      simp
    · unfold Fits
      simp only [hlen]
      omega

theorem parse_frames (ms : List (UInt8 × Bytes)) (hm : ∀ m ∈ ms, Fits m) (rest : Bytes) :
    parse (frames ms ++ rest) = (ms ++ (parse rest).1, (parse rest).2.1, (parse rest).2.2) := by
  induction ms with
  | nil => simp [frames]
  | cons m ms ih =>
    have h1 : frames (m :: ms) ++ rest = frame m ++ (frames ms ++ rest) := by simp [frames]
    rw [h1, parse_eq, view_frame m (hm m (by simp))]
    dsimp only
    rw [ih (fun m h => hm m (by simp [h]))]
    simp

/-- The parse loses nothing. -/
theorem parse_concat (u : Bytes) : u = frames (parse u).1 ++ (parse u).2.1 ∧ (∀ m ∈ (parse u).1, Fits m) ∧
    view (parse u).2.1 = (if (parse u).2.2 then .bad else .incomplete) := by
  induction h : u.length using Nat.strongRecOn generalizing u with
  | ind n ih =>
    rw [parse_eq]
    cases hv : view u with
    | incomplete => simp [frames, hv]
    | bad => simp [frames, hv]
    | msg m rest =>
      have hlt := view_lt hv
      obtain ⟨h1, h2, h3⟩ := ih rest.length (by omega) rest rfl
      obtain ⟨hf, hfit⟩ := frame_view hv
      refine ⟨?_, ?_, ?_⟩
      · simp only [frames, List.flatMap_cons, List.append_assoc]
        unfold frames at h1
        rw [← h1]; exact hf
      · simp only [List.mem_cons]
        rintro m' (rfl | hm)
        · exact hfit
        · exact h2 m' hm
      · exact h3

theorem readLoop_spec (B : Bytes) : ∀ (num p : Nat) (l : List Msg), p ≤ B.length →
    let r := parse (B.drop p)
    if num ≤ r.1.length ∨ r.2.2 = false then
      ∃ q p', readLoop num ⟨B, p⟩ l p = (.ok (l ++ r.1.take num, q), ⟨B, p'⟩) ∧ q ≤ B.length ∧
        B.drop p = frames (r.1.take num) ++ B.drop q
    else ∃ p', readLoop num ⟨B, p⟩ l p = (.error .valueError, ⟨B, p'⟩) := by
  intro num
  induction num with
  | zero =>
    intro p l hp
    simp [readLoop, frames, hp]
  | succ num ih =>
    intro p l hp
    have hg := getMessage_spec B p hp
    dsimp only
    rw [parse_eq]
    cases hv : view (B.drop p) with
    | incomplete =>
      rw [hv] at hg
      obtain ⟨q, hq⟩ := hg
      simp [readLoop, hq, frames, hp]
    | bad =>
      rw [hv] at hg
      obtain ⟨q, hq⟩ := hg
      simp [readLoop, hq]
    | msg m rest =>
      rw [hv] at hg
      obtain ⟨q, hq, hql, hqd, hqe⟩ := hg
      have h := ih q (l ++ [m]) hql
      dsimp only at h
      rw [hqd] at h
      simp only [readLoop, hq, ← hqe, List.length_cons, Nat.add_le_add_iff_right]
      split at h
      · rename_i hc
        rw [if_pos hc]
        obtain ⟨q', p', h1, h2, h3⟩ := h
        refine ⟨q', p', ?_, h2, ?_⟩
        · rw [h1]; simp
        · rw [(frame_view hv).1]
          simp only [frames, List.take_succ_cons, List.flatMap_cons, List.append_assoc]
          exact congrArg (frame m ++ ·) h3
      · rename_i hc
        rw [if_neg hc]
        exact h

/-- `read(num)` refines the parse of the unread bytes. -/
theorem read_spec (s : Stream) (h : Inv s) (num : Nat) :
    Inv (read s num).2 ∧
    let r := parse (unread s)
    if num ≤ r.1.length ∨ r.2.2 = false then
      (read s num).1 = .ok (r.1.take num) ∧ unread s = frames (r.1.take num) ++ unread (read s num).2
    else (read s num).1 = .error .valueError ∧ unread (read s num).2 = unread s := by
  obtain ⟨hi, hu⟩ := compact_spec s h
  rw [← hu]
  unfold read
  generalize compact s = s' at *
  have hr := readLoop_spec s'.strio.buf num s'.start [] hi
  have he : unread s' = s'.strio.buf.drop s'.start := rfl
  rw [← he] at hr
  dsimp only at hr ⊢
  simp only [BytesIO.seek]
  split at hr
  · rename_i hc
    obtain ⟨q, p', h1, h2, h3⟩ := hr
    rw [h1]
    refine ⟨h2, ?_⟩
    rw [if_pos hc]
    exact ⟨by simp, h3⟩
  · rename_i hc
    obtain ⟨p', h1⟩ := hr
    rw [h1]
    refine ⟨hi, ?_⟩
    rw [if_neg hc]
    exact ⟨rfl, rfl⟩

theorem write_spec (s : Stream) (h : Inv s) (d : Bytes) :
    Inv (write s d) ∧ unread (write s d) = unread s ++ d := by
  unfold write BytesIO.write BytesIO.seekEnd
  unfold Inv at *
  split
  · rename_i hd; subst hd; simp [unread, h]
  · have : (List.drop (s.strio.buf.length + d.length) s.strio.buf) = [] := List.drop_eq_nil_of_le (by omega)
    simp [unread, this]
    constructor
    · omega
    · rw [List.drop_append_of_le_length h]

theorem getvalue_spec (s : Stream) (h : Inv s) :
    (getvalue s).1 = unread s ∧ Inv (getvalue s).2 ∧ unread (getvalue s).2 = unread s := by
  exact ⟨rfl, h, rfl⟩

theorem hasMessage_spec (s : Stream) (h : Inv s) :
    hasMessage s = match view (unread s) with
      | .msg _ _ => .ok true
      | .incomplete => .ok false
      | .bad => .error .valueError := by
  have hs : slice s.strio.buf s.start (s.start + 5) = (unread s).take 5 := by simp [slice, unread]
  have hul : (unread s).length = s.strio.buf.length - s.start := by simp [unread]
  unfold Inv at h
  simp only [hasMessage, hs]
  by_cases h5 : (unread s).length < 5
  · rw [length_lt_five h5, if_pos (by rw [List.length_take]; omega)]
  · rw [if_neg (by rw [List.length_take]; omega)]
    obtain ⟨t, a, b, c, d, r, hu⟩ := exists_five h5
    have hr : r.length + 5 = s.strio.buf.length - s.start := by rw [← hul, hu]; simp
    rw [hu, xlUnpack_eq, view_cons]
    generalize len32 a b c d = n
    by_cases hn : n < 4
    · simp [hn]
    · simp only [if_neg hn]
      by_cases hlt : r.length < n - 4
      · simp only [if_pos hlt]
        congr 1; simp; omega
      · simp only [if_neg hlt]
        congr 1; simp; omega

theorem lenLoop_spec (B : Bytes) : ∀ (fuel p count : Nat), p ≤ B.length → B.length - p < fuel →
    let r := parse (B.drop p)
    lenLoop fuel ⟨B, p⟩ count = if r.2.2 then .error .valueError else .ok (count + r.1.length) := by
  intro fuel
  induction fuel with
  | zero => intro p count _ h; omega
  | succ fuel ih =>
    intro p count hp hf
    have hs : slice B p (p + 5) = (B.drop p).take 5 := by simp [slice]
    have hul : (B.drop p).length = B.length - p := by simp
    dsimp only
    rw [parse_eq]
    by_cases h5 : (B.drop p).length < 5
    · rw [length_lt_five h5]
      have : ((B.drop p).take 5).length < 5 := by rw [List.length_take]; omega
      simp only [lenLoop, hs, if_pos this]
      simp
    · obtain ⟨t, a, b, c, d, r, hu⟩ := exists_five h5
      have hr : r.length + 5 = B.length - p := by rw [← hul, hu]; simp
      have hdr : B.drop (p + 5) = r := by rw [← List.drop_drop, hu]; simp
      have hl5 : ((B.drop p).take 5).length = 5 := by rw [List.length_take]; omega
      obtain ⟨n, hx, hv⟩ : ∃ n, xlUnpack ((B.drop p).take 5) = n ∧ view (B.drop p) = (if n < 4 then .bad
          else if r.length < n - 4 then .incomplete else .msg (t, r.take (n - 4)) (r.drop (n - 4))) := by
        refine ⟨len32 a b c d, ?_, ?_⟩
        · rw [hu]; exact xlUnpack_eq ..
        · rw [hu]; exact view_cons ..
      rw [hv]
      simp only [lenLoop, hs, hl5, Nat.lt_irrefl, if_false, hx]
      clear hx hv hu
      by_cases hn : n < 4
      · simp [hn]
      · simp only [if_neg hn]
        have hpos : (((p + 5 : Nat) : Int) + ((n : Int) - 4 - 1)).toNat = p + n := by omega
        rw [hpos]
        have hl1 : (slice B (p + n) (p + n + 1)).length = min 1 (B.length - (p + n)) := by simp
        by_cases hlt : r.length < n - 4
        · have h0 : (slice B (p + n) (p + n + 1)).length = 0 := by rw [hl1]; omega
          simp only [if_pos hlt, h0]
          simp
        · have h0 : (slice B (p + n) (p + n + 1)).length = 1 := by rw [hl1]; omega
          simp only [if_neg hlt, h0]
          have := ih (p + n + 1) (count + 1) (by omega) (by omega)
          dsimp only at this
          have hdd : B.drop (p + n + 1) = r.drop (n - 4) := by
            rw [← hdr, List.drop_drop]; congr 1; omega
          rw [hdd] at this
          simp only [ne_eq, not_true_eq_false, if_false, this, List.length_cons]
          split
          · rfl
          · congr 1; omega

theorem len_spec (s : Stream) (h : Inv s) :
    len s = if (parse (unread s)).2.2 then .error .valueError else .ok (parse (unread s)).1.length := by
  have := lenLoop_spec s.strio.buf (s.strio.buf.length + 1) s.start 0 h (by omega)
  dsimp only at this
  rw [Nat.zero_add] at this
  exact this

theorem truncate_spec (s : Stream) : Inv (truncate s) ∧ unread (truncate s) = [] := by
  simp [truncate, BytesIO.truncate, Inv, unread]

theorem inv_init : Inv {} := by simp [Inv]

end PG.PBuffer
