import Verif.Proofs.PBuffer
/-!
# C01-C05: the message stream

Statements are about histories of API calls on a fresh `pq_message_stream`.
-/
namespace PG.Props.Stream
open PG PG.Spec PG.PBuffer

/-- One API call on the stream. -/
inductive Op where
  | write (d : Bytes)
  | nextMessage
  | next          -- `__next__`
  | read (n : Nat)
  | hasMessage
  | len
  | getvalue
  | truncate
  deriving Repr

/-- A history: the stream, the bytes written so far and the messages handed out so far (both since the last
`truncate`). -/
structure Hist where
  s : Stream := {}
  written : Bytes := []
  handed : List Msg := []

/-- Run one call and record what the caller wrote and got. -/
def step (h : Hist) : Op → Hist
  | .write d => { s := write h.s d, written := h.written ++ d, handed := h.handed }
  | .nextMessage =>
    { h with s := (nextMessage h.s).2
             handed := h.handed ++ (match (nextMessage h.s).1 with | .ok (some m) => [m] | _ => []) }
  | .next =>
    { h with s := (next h.s).2
             handed := h.handed ++ (match (next h.s).1 with | .ok m => [m] | _ => []) }
  | .read n =>
    { h with s := (read h.s n).2
             handed := h.handed ++ (match (read h.s n).1 with | .ok l => l | _ => []) }
  | .hasMessage => h          -- `has_message` only moves the file position, which every call sets first
  | .len => h
  | .getvalue => { h with s := (getvalue h.s).2 }
  | .truncate => { s := truncate h.s, written := [], handed := [] }

/-- Run a list of calls on a fresh stream. -/
def run (ops : List Op) : Hist := ops.foldl step {}

/-- The history invariant: what was written is what was handed out plus what is unread. -/
def HInv (h : Hist) : Prop :=
  Inv h.s ∧ h.written = frames h.handed ++ unread h.s ∧ ∀ m ∈ h.handed, Fits m

theorem step_inv (h : Hist) (hi : HInv h) (op : Op) : HInv (step h op) := by
  obtain ⟨h1, h2, h3⟩ := hi
  cases op with
  | write d =>
    obtain ⟨a, b⟩ := write_spec h.s h1 d
    exact ⟨a, by simp only [step]; rw [h2, b, List.append_assoc], h3⟩
  | nextMessage =>
    obtain ⟨a, b⟩ := nextMessage_spec h.s h1
    refine ⟨a, ?_⟩
    simp only [step]
    cases hv : view (unread h.s) with
    | msg m rest =>
      rw [hv] at b
      obtain ⟨f1, f2⟩ := frame_view hv
      rw [b.1, b.2]
      dsimp only
      refine ⟨by rw [h2, f1]; simp [frames], ?_⟩
      intro m' hm'
      rcases List.mem_append.mp hm' with hm' | hm'
      · exact h3 _ hm'
      · rw [List.mem_singleton.mp hm']; exact f2
    | incomplete =>
      rw [hv] at b
      rw [b.1, b.2]
      exact ⟨by simpa using h2, by simpa using h3⟩
    | bad =>
      rw [hv] at b
      rw [b.1, b.2]
      exact ⟨by simpa using h2, by simpa using h3⟩
  | next =>
    obtain ⟨a, b⟩ := next_spec h.s h1
    refine ⟨a, ?_⟩
    simp only [step]
    cases hv : view (unread h.s) with
    | msg m rest =>
      rw [hv] at b
      obtain ⟨f1, f2⟩ := frame_view hv
      rw [b.1, b.2]
      dsimp only
      refine ⟨by rw [h2, f1]; simp [frames], ?_⟩
      intro m' hm'
      rcases List.mem_append.mp hm' with hm' | hm'
      · exact h3 _ hm'
      · rw [List.mem_singleton.mp hm']; exact f2
    | incomplete =>
      rw [hv] at b
      rw [b.1, b.2]
      exact ⟨by simpa using h2, by simpa using h3⟩
    | bad =>
      rw [hv] at b
      rw [b.1, b.2]
      exact ⟨by simpa using h2, by simpa using h3⟩
  | read n =>
    obtain ⟨a, b⟩ := read_spec h.s h1 n
    refine ⟨a, ?_⟩
    simp only [step]
    dsimp only at b
    split at b
    · rw [b.1]
      dsimp only
      refine ⟨?_, ?_⟩
      · rw [h2]
        have hb := b.2
        simp only [frames, List.flatMap_append, List.append_assoc] at hb ⊢
        rw [← hb]
      · intro m' hm'
        rcases List.mem_append.mp hm' with hm' | hm'
        · exact h3 _ hm'
        · exact (parse_concat (unread h.s)).2.1 _ (List.mem_of_mem_take hm')
    · rw [b.1, b.2]
      exact ⟨by simpa using h2, by simpa using h3⟩
  | hasMessage => exact ⟨h1, h2, h3⟩
  | len => exact ⟨h1, h2, h3⟩
  | getvalue =>
    obtain ⟨_, a, b⟩ := getvalue_spec h.s h1
    exact ⟨a, by simp only [step]; rw [b]; exact h2, h3⟩
  | truncate =>
    obtain ⟨a, b⟩ := truncate_spec h.s
    exact ⟨a, by simp only [step]; rw [b]; simp [frames], by simp [step]⟩

theorem run_inv (ops : List Op) : HInv (run ops) := by
  have : ∀ (ops : List Op) (h : Hist), HInv h → HInv (ops.foldl step h) := by
    intro ops
    induction ops with
    | nil => intro h hi; exact hi
    | cons op ops ih => intro h hi; exact ih _ (step_inv h hi op)
  exact this ops {} ⟨inv_init, by simp [frames, unread], by simp⟩

/-! ## C01 -/

/-- C01: after any history, the messages handed out are a prefix of the messages obtained by parsing the concatenation of
everything written, once; what a further call hands out continues that list; and when a further `next_message` hands out
nothing the list is complete. -/
theorem C01_reads_independent_of_chunking (ops : List Op) :
    ∃ later, (parse (run ops).written).1 = (run ops).handed ++ later ∧
      (nextMessage (run ops).s).1 =
        (match later with
         | m :: _ => .ok (some m)
         | [] => if (parse (run ops).written).2.2 then .error .valueError else .ok none) := by
  obtain ⟨h1, h2, h3⟩ := run_inv ops
  have hp := parse_frames (run ops).handed h3 (unread (run ops).s)
  rw [← h2] at hp
  refine ⟨(parse (unread (run ops).s)).1, by rw [hp], ?_⟩
  obtain ⟨_, b⟩ := nextMessage_spec _ h1
  rw [hp]
  rw [parse_eq]
  cases hv : view (unread (run ops).s) <;> rw [hv] at b <;> simp [b.1]

/-- C01, two schedules: if two histories wrote the same bytes in total (cut differently, read at different moments, with
different calls) and both have been drained, they handed out the same messages and hold the same unread bytes. -/
theorem C01_two_schedules_agree (ops ops' : List Op) (hw : (run ops).written = (run ops').written)
    (hd : hasMessage (run ops).s ≠ .ok true) (hd' : hasMessage (run ops').s ≠ .ok true) :
    (run ops).handed = (run ops').handed ∧ (getvalue (run ops).s).1 = (getvalue (run ops').s).1 := by
  have key : ∀ ops, hasMessage (run ops).s ≠ .ok true →
      (run ops).handed = (parse (run ops).written).1 ∧ unread (run ops).s = (parse (run ops).written).2.1 := by
    intro ops hd
    obtain ⟨h1, h2, h3⟩ := run_inv ops
    have hp := parse_frames (run ops).handed h3 (unread (run ops).s)
    rw [← h2, parse_eq (unread _)] at hp
    rw [hasMessage_spec _ h1] at hd
    cases hv : view (unread (run ops).s) with
    | msg m rest => rw [hv] at hd; exact absurd rfl hd
    | incomplete => rw [hv] at hp; rw [hp]; simp
    | bad => rw [hv] at hp; rw [hp]; simp
  obtain ⟨a1, a2⟩ := key ops hd
  obtain ⟨b1, b2⟩ := key ops' hd'
  refine ⟨by rw [a1, b1, hw], ?_⟩
  rw [(getvalue_spec _ (run_inv ops).1).1, (getvalue_spec _ (run_inv ops').1).1, a2, b2, hw]

/-- Non-vacuity: a message cut in the middle of its header and body, read in between, versus written whole. -/
example : (run [.write [65, 0], .nextMessage, .write [0, 0, 6, 1], .read 3, .write [2, 66], .next]).written =
      (run [.write [65, 0, 0, 0, 6, 1, 2, 66], .read 9]).written ∧
    hasMessage (run [.write [65, 0, 0, 0, 6, 1, 2, 66], .read 9]).s ≠ .ok true ∧
    (run [.write [65, 0, 0, 0, 6, 1, 2, 66], .read 9]).handed = [(65, [1, 2])] := by decide

/-! ## C02 -/

/-- C02: writing the wire form of a list of messages, followed by a proper prefix of a further message, and reading, gives
back exactly the list and leaves the incomplete message buffered. -/
theorem C02_framing_inverted (ms : List Msg) (hf : ∀ m ∈ ms, Fits m) (m : Msg) (hm : Fits m) (k : Nat)
    (hk : k < (frame m).length) (n : Nat) (hn : ms.length ≤ n) :
    let s := write {} (frames ms ++ (frame m).take k)
    (read s n).1 = .ok ms ∧ (getvalue (read s n).2).1 = (frame m).take k := by
  have hv : view ((frame m).take k) = .incomplete := by
    cases hv : view ((frame m).take k) with
    | incomplete => rfl
    | msg m' rest =>
      obtain ⟨h1, h2⟩ := frame_view hv
      have h3 : frame m = frame m' ++ (rest ++ (frame m).drop k) := by
        rw [← List.append_assoc, ← h1, List.take_append_drop]
      have h4 := view_frame m hm []
      rw [List.append_nil, h3, view_frame m' h2] at h4
      injection h4 with h5 h6
      have := congrArg List.length h6
      simp at this
      omega
    | bad =>
      by_cases h5 : ((frame m).take k).length < 5
      · rw [length_lt_five h5] at hv; cases hv
      · obtain ⟨t, a, b, c, d, r, hu⟩ := exists_five h5
        have h4 := view_frame m hm []
        rw [List.append_nil, ← List.take_append_drop k (frame m), hu] at h4
        rw [hu, view_cons] at hv
        simp only [List.cons_append] at h4
        rw [view_cons] at h4
        split at hv
        · rename_i hlt; rw [if_pos hlt] at h4; cases h4
        · split at hv <;> cases hv
  have hp : parse (frames ms ++ (frame m).take k) = (ms, (frame m).take k, false) := by
    rw [parse_frames ms hf, parse_eq, hv]; simp
  obtain ⟨w1, w2⟩ := write_spec {} inv_init (frames ms ++ (frame m).take k)
  have hu0 : unread {} = [] := rfl
  rw [hu0, List.nil_append] at w2
  obtain ⟨a, b⟩ := read_spec _ w1 n
  dsimp only at b ⊢
  rw [w2, hp] at b
  simp only [or_true, if_true] at b
  rw [List.take_of_length_le hn] at b
  refine ⟨b.1, ?_⟩
  rw [(getvalue_spec _ a).1]
  exact (List.append_cancel_left b.2).symm

example : Fits (65, [1, 2, 3]) ∧ 4 < (frame (65, [1, 2, 3])).length := by decide

/-! ## C03 -/

/-- C03: in every reachable state, `len` is the number of messages `read()` returns, `has_message` is true exactly when
`next_message` returns a message (each raises exactly when the other does). -/
theorem C03_len_has_next_agree (ops : List Op) (n : Nat)
    (hn : ∀ l, len (run ops).s = .ok l → l ≤ n) :
    (∀ l, len (run ops).s = .ok l → ∃ ms, (read (run ops).s n).1 = .ok ms ∧ ms.length = l) ∧
    (hasMessage (run ops).s = .ok true ↔ ∃ m, (nextMessage (run ops).s).1 = .ok (some m)) ∧
    (hasMessage (run ops).s = .ok false ↔ (nextMessage (run ops).s).1 = .ok none) ∧
    (hasMessage (run ops).s = .error .valueError ↔ (nextMessage (run ops).s).1 = .error .valueError) := by
  obtain ⟨h1, -, -⟩ := run_inv ops
  generalize (run ops).s = s at *
  obtain ⟨-, b⟩ := nextMessage_spec s h1
  have c := hasMessage_spec s h1
  refine ⟨?_, ?_⟩
  · intro l hl
    have hl' := hn l hl
    rw [len_spec s h1] at hl
    obtain ⟨-, r⟩ := read_spec s h1 n
    dsimp only at r
    split at hl
    · cases hl
    · rename_i hb
      injection hl with hl
      rw [if_pos (Or.inr (by simpa using hb))] at r
      exact ⟨_, r.1, by rw [List.length_take]; omega⟩
  · rw [c]
    cases hv : view (unread s) <;> rw [hv] at b <;> simp [b.1]

/-- C03: `len`, `has_message` and `getvalue` do not change what is read later: histories with and without them hand out the
same messages. -/
theorem C03_queries_have_no_effect (ops : List Op) :
    (run ops).handed = (run (ops.filter fun | .hasMessage | .len | .getvalue => false | _ => true)).handed ∧
    (getvalue (run ops).s).1 =
      (getvalue (run (ops.filter fun | .hasMessage | .len | .getvalue => false | _ => true)).s).1 := by
  have abs_eq : ∀ (op : Op) (h h' : Hist), Inv h.s → Inv h'.s → unread h.s = unread h'.s → h.handed = h'.handed →
      unread (step h op).s = unread (step h' op).s ∧ (step h op).handed = (step h' op).handed := by
    intro op h h' i i' hu hh
    cases op with
    | write d =>
      exact ⟨by simp only [step]; rw [(write_spec _ i d).2, (write_spec _ i' d).2, hu], hh⟩
    | nextMessage =>
      obtain ⟨-, b⟩ := nextMessage_spec _ i
      obtain ⟨-, b'⟩ := nextMessage_spec _ i'
      rw [hu] at b
      simp only [step]
      cases hv : view (unread h'.s) <;> rw [hv] at b b' <;> simp [b.1, b'.1, b.2, b'.2, hh]
    | next =>
      obtain ⟨-, b⟩ := next_spec _ i
      obtain ⟨-, b'⟩ := next_spec _ i'
      rw [hu] at b
      simp only [step]
      cases hv : view (unread h'.s) <;> rw [hv] at b b' <;> simp [b.1, b'.1, b.2, b'.2, hh]
    | read n =>
      obtain ⟨-, b⟩ := read_spec _ i n
      obtain ⟨-, b'⟩ := read_spec _ i' n
      rw [hu] at b
      simp only [step]
      dsimp only at b b'
      split at b
      · rename_i hc
        rw [if_pos hc] at b'
        rw [b.1, b'.1]
        exact ⟨List.append_cancel_left (b.2.symm.trans b'.2), by rw [hh]⟩
      · rename_i hc
        rw [if_neg hc] at b'
        rw [b.1, b'.1, b.2, b'.2]
        exact ⟨rfl, by rw [hh]⟩
    | hasMessage => exact ⟨hu, hh⟩
    | len => exact ⟨hu, hh⟩
    | getvalue => exact ⟨hu, hh⟩
    | truncate =>
      simp only [step]
      exact ⟨by rw [(truncate_spec _).2, (truncate_spec _).2], trivial⟩
  have main : ∀ (ops : List Op) (h h' : Hist), HInv h → HInv h' → unread h.s = unread h'.s → h.handed = h'.handed →
      let r' := (ops.filter fun | .hasMessage | .len | .getvalue => false | _ => true).foldl step h'
      (ops.foldl step h).handed = r'.handed ∧ unread (ops.foldl step h).s = unread r'.s ∧
        Inv (ops.foldl step h).s ∧ Inv r'.s := by
    intro ops
    induction ops with
    | nil => intro h h' i i' hu hh; exact ⟨hh, hu, i.1, i'.1⟩
    | cons op ops ih =>
      intro h h' i i' hu hh
      have q := abs_eq op h h' i.1 i'.1 hu hh
      have iv := step_inv h i op
      have iv' := step_inv h' i' op
      cases op with
      | hasMessage => exact ih _ _ i i' hu hh
      | len => exact ih _ _ i i' hu hh
      | getvalue => exact ih _ _ iv i' (q.1.trans rfl) hh
      | write d => exact ih _ _ iv iv' q.1 q.2
      | nextMessage => exact ih _ _ iv iv' q.1 q.2
      | next => exact ih _ _ iv iv' q.1 q.2
      | read n => exact ih _ _ iv iv' q.1 q.2
      | truncate => exact ih _ _ iv iv' q.1 q.2
  have i0 : HInv {} := run_inv []
  obtain ⟨a, b, c, d⟩ := main ops {} {} i0 i0 rfl rfl
  refine ⟨a, ?_⟩
  rw [show (getvalue (run ops).s).1 = _ from (getvalue_spec _ c).1]
  rw [show (getvalue (run (ops.filter fun | .hasMessage | .len | .getvalue => false | _ => true)).s).1 = _ from
    (getvalue_spec _ d).1]
  exact b

example : len (run [.write [65, 0, 0, 0, 5, 9, 66, 0, 0, 0, 4, 67, 0]]).s = .ok 2 := by decide

/-! ## C04 -/

/-- C04: after any history, what was written is exactly the wire form of the messages handed out followed by what
`getvalue` returns; compaction is invisible. -/
theorem C04_nothing_lost_or_duplicated (ops : List Op) :
    (run ops).written = frames (run ops).handed ++ (getvalue (run ops).s).1 := by
  obtain ⟨h1, h2, -⟩ := run_inv ops
  rw [(getvalue_spec _ h1).1]; exact h2

/-- Non-vacuity: a state in which compaction actually happens (the consumed amount exceeds the limit). -/
example : (compact { strio := { buf := List.replicate 3000 7, pos := 0 }, start := 2100 }).start = 0 := by
  decide +kernel

/-! ## C05 -/

/-- C05: if the next five unread bytes announce a length below four, every reading call raises, returns nothing and leaves
the unread bytes as they are. -/
theorem C05_bad_length_reported (ops : List Op) (t a b c d : UInt8) (rest : Bytes)
    (hu : (getvalue (run ops).s).1 = t :: a :: b :: c :: d :: rest)
    (hlen : a.toNat * 2 ^ 24 + b.toNat * 2 ^ 16 + c.toNat * 2 ^ 8 + d.toNat < 4) :
    (nextMessage (run ops).s).1 = .error .valueError ∧
    (next (run ops).s).1 = .error .valueError ∧
    (∀ n, 0 < n → (read (run ops).s n).1 = .error .valueError) ∧
    hasMessage (run ops).s = .error .valueError ∧ len (run ops).s = .error .valueError ∧
    (getvalue (nextMessage (run ops).s).2).1 = (getvalue (run ops).s).1 ∧
    (getvalue (next (run ops).s).2).1 = (getvalue (run ops).s).1 ∧
    ∀ n, 0 < n → (getvalue (read (run ops).s n).2).1 = (getvalue (run ops).s).1 := by
  obtain ⟨h1, -, -⟩ := run_inv ops
  generalize (run ops).s = s at *
  rw [(getvalue_spec _ h1).1] at hu ⊢
  have hv : view (unread s) = .bad := by rw [hu, view_cons, if_pos (by unfold len32; exact hlen)]
  have hp : parse (unread s) = ([], unread s, true) := by rw [parse_eq, hv]
  obtain ⟨i1, b1⟩ := nextMessage_spec s h1
  obtain ⟨i2, b2⟩ := next_spec s h1
  rw [hv] at b1 b2
  have hr : ∀ n, 0 < n → (read s n).1 = .error .valueError ∧ (getvalue (read s n).2).1 = unread s := by
    intro n hn
    obtain ⟨i, r⟩ := read_spec s h1 n
    dsimp only at r
    rw [hp] at r
    rw [if_neg (by simp; omega)] at r
    exact ⟨r.1, by rw [(getvalue_spec _ i).1]; exact r.2⟩
  refine ⟨b1.1, b2.1, fun n hn => (hr n hn).1, ?_, ?_, ?_, ?_, fun n hn => (hr n hn).2⟩
  · rw [hasMessage_spec s h1, hv]
  · rw [len_spec s h1, hp]; rfl
  · rw [(getvalue_spec _ i1).1]; exact b1.2
  · rw [(getvalue_spec _ i2).1]; exact b2.2

/-- Incomplete data yields no message (and no error) and stays buffered. -/
theorem C05_incomplete_yields_nothing (ops : List Op)
    (hu : (getvalue (run ops).s).1.length < 5) :
    (nextMessage (run ops).s).1 = .ok none ∧
    (getvalue (nextMessage (run ops).s).2).1 = (getvalue (run ops).s).1 := by
  obtain ⟨h1, -, -⟩ := run_inv ops
  rw [(getvalue_spec _ h1).1] at hu ⊢
  obtain ⟨i, b⟩ := nextMessage_spec _ h1
  rw [length_lt_five hu] at b
  exact ⟨b.1, by rw [(getvalue_spec _ i).1]; exact b.2⟩

example : (getvalue (run [.write [65, 0, 0, 0, 3, 1]]).s).1 = [65, 0, 0, 0, 3, 1] := by decide

end PG.Props.Stream
