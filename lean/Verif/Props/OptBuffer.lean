import Verif.Proofs.OptBuffer
/-!
# C94: the message stream in C does what the one in Python does

`protocol/buffer.py` takes the class of `port/_optimized/buffer.c` in place of `pbuffer.pq_message_stream` when the extension could be compiled. The same calls are made
on both, and what they give is compared.
-/
namespace PG.Props.OptBuffer
open PG PG.Spec

/-- A call of a method of the stream. -/
inductive Call where
  | write (d : Bytes)
  | nextMessage
  | next
  | readAll          -- `read()`
  | read (n : Nat)
  | hasMessage
  | len
  | getvalue
  | truncate
  deriving Repr

/-- What a call gives. -/
inductive Gives where
  | nothing
  | message (m : Option (UInt8 × Bytes))
  | messages (l : List (UInt8 × Bytes))
  | truth (b : Bool)
  | number (n : Nat)
  | data (d : Bytes)
  | valueError | stopIteration
  | raises           -- another exception, or no defined outcome
  deriving DecidableEq, Repr

/-- The exceptions of the Python class. -/
def pyExc : Err → Gives
  | .valueError => .valueError
  | .stopIteration => .stopIteration
  | _ => .raises

/-- The exceptions of the C class. -/
def cExc : OptBuffer.CErr → Gives
  | .value => .valueError
  | .stopIteration => .stopIteration
  | _ => .raises

/-- What a call of the Python class gives when it does not raise. -/
def pyGives {α : Type} (f : α → Gives) : Except Err α → Gives
  | .ok a => f a
  | .error e => pyExc e

def cGives {α : Type} (f : α → Gives) : Except OptBuffer.CErr α → Gives
  | .ok a => f a
  | .error e => cExc e

/-- A call on the stream of `pbuffer.py`. -/
def pyCall (s : PBuffer.Stream) : Call → Gives × PBuffer.Stream
  | .write d => (.nothing, PBuffer.write s d)
  | .nextMessage => (pyGives .message (PBuffer.nextMessage s).1, (PBuffer.nextMessage s).2)
  | .next => (pyGives (fun m => .message (some m)) (PBuffer.next s).1, (PBuffer.next s).2)
  | .readAll => (pyGives .messages (PBuffer.read s).1, (PBuffer.read s).2)
  | .read n => (pyGives .messages (PBuffer.read s n).1, (PBuffer.read s n).2)
  | .hasMessage => (pyGives .truth (PBuffer.hasMessage s), s)
  | .len => (pyGives .number (PBuffer.len s), s)
  | .getvalue => (.data (PBuffer.getvalue s).1, (PBuffer.getvalue s).2)
  | .truncate => (.nothing, PBuffer.truncate s)

/-- The same call on the stream of `buffer.c`. -/
def cCall (signed : Bool) (p : OptBuffer.Place) : Call → Gives × OptBuffer.Place
  | .write d => (.nothing, OptBuffer.write p d)
  | .nextMessage => (cGives .message (OptBuffer.nextMessage signed p).1, (OptBuffer.nextMessage signed p).2)
  | .next => (cGives (fun m => .message (some m)) (OptBuffer.next signed p).1, (OptBuffer.next signed p).2)
  | .readAll => (cGives .messages (OptBuffer.read signed p (-1)).1, (OptBuffer.read signed p (-1)).2)
  | .read n => (cGives .messages (OptBuffer.read signed p n).1, (OptBuffer.read signed p n).2)
  | .hasMessage => (cGives .truth (OptBuffer.hasMessage p), p)
  | .len => (cGives .number (OptBuffer.len p), p)
  | .getvalue => (.data (OptBuffer.getvalue p), p)
  | .truncate => (.nothing, OptBuffer.truncate p)

/-- What a history of calls gives, on a new stream. -/
def pyRun : PBuffer.Stream → List Call → List Gives
  | _, [] => []
  | s, c :: cs => (pyCall s c).1 :: pyRun (pyCall s c).2 cs

def cRun (signed : Bool) : OptBuffer.Place → List Call → List Gives
  | _, [] => []
  | p, c :: cs => (cCall signed p c).1 :: cRun signed (cCall signed p c).2 cs

/-- What must hold of the bytes that are unread when the call is made: that they, with what is written, are less than 2^31; with a signed `char`, that no type of
a complete message is 128 or more; and for `read`, that they do not contain a length below four where a message would begin. -/
def Sane (signed : Bool) (u : Bytes) (c : Call) : Prop :=
  u.length < 2 ^ 31 ∧ (signed = true → ∀ m ∈ (parse u).1, m.1.toNat < 128) ∧
  (match c with
   | .write d => u.length + d.length < 2 ^ 31
   | .readAll | .read _ => (parse u).2.2 = false
   | _ => True)

/-- Every call of the history meets it, the unread bytes being those of the Python stream. -/
def SaneRun (signed : Bool) : PBuffer.Stream → List Call → Prop
  | _, [] => True
  | s, c :: cs => Sane signed (PBuffer.getvalue s).1 c ∧ SaneRun signed (pyCall s c).2 cs

/-- The two streams hold the same unread bytes. -/
def Same (p : OptBuffer.Place) (s : PBuffer.Stream) : Prop :=
  OptBuffer.Inv p ∧ OptBuffer.Small p ∧ PBuffer.Inv s ∧ OptBuffer.unread p = PBuffer.unread s

theorem frames_cancel {u a b l : Bytes} (h1 : u = l ++ a) (h2 : u = l ++ b) : a = b := List.append_cancel_left (h1.symm.trans h2)

theorem parse_length (u : Bytes) : (parse u).1.length ≤ u.length := by
  obtain ⟨h, _, _⟩ := PBuffer.parse_concat u
  have : ∀ l : List (UInt8 × Bytes), l.length ≤ (frames l).length := by
    intro l
    induction l with
    | nil => exact Nat.zero_le _
    | cons m l ih =>
      show l.length + 1 ≤ (frame m ++ frames l).length
      rw [List.length_append]
      have : 1 ≤ (frame m).length := by unfold frame; simp
      omega
  have h1 := this (parse u).1
  have h2 := congrArg List.length h
  rw [List.length_append] at h2
  omega

theorem read_same (signed : Bool) (p : OptBuffer.Place) (s : PBuffer.Stream) (h : Same p s)
    (ht : OptBuffer.Plain signed (PBuffer.unread s)) (hm : (parse (PBuffer.unread s)).2.2 = false) (num : Nat) (count : Int) (hc : -1 ≤ count)
    (hk : (parse (PBuffer.unread s)).1.take num = (parse (PBuffer.unread s)).1.take (if count = -1 then (parse (PBuffer.unread s)).1.length else count.toNat)) :
    cGives .messages (OptBuffer.read signed p count).1 = pyGives .messages (PBuffer.read s num).1 ∧ Same (OptBuffer.read signed p count).2 (PBuffer.read s num).2 := by
  obtain ⟨hi, hs, hj, he⟩ := h
  have hp := PBuffer.read_spec s hj num
  have hc := OptBuffer.read_spec signed p hi hs (by rw [he]; exact ht) (by rw [he]; exact hm) count hc
  dsimp only at hp hc
  rw [if_pos (Or.inr hm)] at hp
  rw [he, ← hk] at hc
  obtain ⟨a, b, c⟩ := hp
  obtain ⟨d, e, f, g⟩ := hc
  rw [d, b]
  exact ⟨rfl, e, f, a, frames_cancel g c⟩

theorem call_same (signed : Bool) (p : OptBuffer.Place) (s : PBuffer.Stream) (h : Same p s) (c : Call) (hc : Sane signed (PBuffer.unread s) c) :
    (cCall signed p c).1 = (pyCall s c).1 ∧ Same (cCall signed p c).2 (pyCall s c).2 := by
  have h0 := h
  obtain ⟨hi, hs, hj, he⟩ := h
  obtain ⟨hu, ht, hx⟩ := hc
  have htc : OptBuffer.Plain signed (OptBuffer.unread p) := by rw [he]; exact ht
  cases c with
  | write d =>
    replace hx : (PBuffer.unread s).length + d.length < 2 ^ 31 := hx
    obtain ⟨a, b⟩ := PBuffer.write_spec s hj d
    obtain ⟨x, y⟩ := OptBuffer.write_spec p hi d
    exact ⟨rfl, x, OptBuffer.small_write hi hs (by omega) (by rw [he]; exact hx), a, by
      show OptBuffer.unread (OptBuffer.write p d) = PBuffer.unread (PBuffer.write s d)
      rw [b, y, he]⟩
  | nextMessage =>
    obtain ⟨a, b⟩ := PBuffer.nextMessage_spec s hj
    have x := OptBuffer.nextMessage_spec signed p hi hs htc
    rw [he] at x
    unfold cCall pyCall
    dsimp only
    generalize view (PBuffer.unread s) = v at b x
    cases v with
    | msg m rest =>
      obtain ⟨b1, b2⟩ := b
      obtain ⟨x1, x2, x3, x4⟩ := x
      rw [b1, x1]
      exact ⟨rfl, x2, x3, a, by rw [x4, b2]⟩
    | incomplete =>
      obtain ⟨b1, b2⟩ := b
      rw [x, b1]
      exact ⟨rfl, hi, hs, a, by rw [b2]; exact he⟩
    | bad =>
      obtain ⟨b1, b2⟩ := b
      rw [x, b1]
      exact ⟨rfl, hi, hs, a, by rw [b2]; exact he⟩
  | next =>
    obtain ⟨a, b⟩ := PBuffer.next_spec s hj
    have x := OptBuffer.next_spec signed p hi hs htc
    rw [he] at x
    unfold cCall pyCall
    dsimp only
    generalize view (PBuffer.unread s) = v at b x
    cases v with
    | msg m rest =>
      obtain ⟨b1, b2⟩ := b
      obtain ⟨x1, x2, x3, x4⟩ := x
      rw [b1, x1]
      exact ⟨rfl, x2, x3, a, by rw [x4, b2]⟩
    | incomplete =>
      obtain ⟨b1, b2⟩ := b
      rw [x, b1]
      exact ⟨rfl, hi, hs, a, by rw [b2]; exact he⟩
    | bad =>
      obtain ⟨b1, b2⟩ := b
      rw [x, b1]
      exact ⟨rfl, hi, hs, a, by rw [b2]; exact he⟩
  | readAll =>
    refine read_same signed p s h0 ht hx 0xFFFFFFFF (-1) (by omega) ?_
    have := parse_length (PBuffer.unread s)
    rw [if_pos rfl, List.take_of_length_le (by omega), List.take_of_length_le (Nat.le_refl _)]
  | read n =>
    refine read_same signed p s h0 ht hx n n (by omega) ?_
    rw [if_neg (by omega)]
    rfl
  | hasMessage =>
    have a := PBuffer.hasMessage_spec s hj
    have x := OptBuffer.hasMessage_spec p hi hs
    rw [he] at x
    unfold cCall pyCall
    dsimp only
    rw [a, x]
    generalize view (PBuffer.unread s) = v
    cases v with
    | msg m rest => exact ⟨rfl, h0⟩
    | incomplete => exact ⟨rfl, h0⟩
    | bad => exact ⟨rfl, h0⟩
  | len =>
    have a := PBuffer.len_spec s hj
    have x := OptBuffer.len_spec p hi hs
    rw [he] at x
    unfold cCall pyCall
    dsimp only
    rw [a, x]
    generalize parse (PBuffer.unread s) = z
    cases z.2.2 with
    | true => exact ⟨rfl, h0⟩
    | false => exact ⟨rfl, h0⟩
  | getvalue =>
    obtain ⟨a, b, c⟩ := PBuffer.getvalue_spec s hj
    have x := OptBuffer.getvalue_spec p hi
    unfold cCall pyCall
    dsimp only
    rw [a, x, he]
    exact ⟨rfl, hi, hs, b, by rw [c]; exact he⟩
  | truncate =>
    obtain ⟨a, b⟩ := PBuffer.truncate_spec s
    exact ⟨rfl, OptBuffer.inv_init, ⟨Nat.two_pow_pos 32, fun c hc => nomatch hc⟩, a, by
      show OptBuffer.unread (OptBuffer.truncate p) = PBuffer.unread (PBuffer.truncate s)
      rw [b]; rfl⟩

theorem run_same (signed : Bool) : ∀ (calls : List Call) (p : OptBuffer.Place) (s : PBuffer.Stream), Same p s → SaneRun signed s calls →
    cRun signed p calls = pyRun s calls
  | [], _, _, _, _ => rfl
  | c :: cs, p, s, h, hc => by
    obtain ⟨a, b⟩ := call_same signed p s h c hc.1
    unfold cRun pyRun
    rw [a, run_same signed cs _ _ b hc.2]

/-- **C94** (partly: within the bounds of `Sane`; what happens outside of them is below) every history of calls gives the same with the stream in C as with the
stream in Python, however the bytes are cut into writes: the same messages, the same truths and numbers, and the same exceptions. -/
theorem C94_same_results_partial (signed : Bool) (calls : List Call) (h : SaneRun signed {} calls) : cRun signed {} calls = pyRun {} calls :=
  run_same signed calls {} {} ⟨OptBuffer.inv_init, ⟨by decide, by simp⟩, PBuffer.inv_init, rfl⟩ h

/-- A message cut in the middle of its header, one that is complete, and one whose length is malformed. -/
def cut : List Call :=
  [.write [68, 0, 0], .hasMessage, .nextMessage, .next, .write [0, 6, 1], .hasMessage, .write [2, 90, 0, 0, 0, 5], .len, .write [73], .len, .read 1, .getvalue, .readAll,
   .readAll, .write [90, 0, 0, 0, 3], .nextMessage, .hasMessage, .len, .truncate, .getvalue, .len]

set_option maxRecDepth 100000 in
example : cRun true {} cut = [.nothing, .truth false, .message none, .stopIteration, .nothing, .truth false, .nothing, .number 1, .nothing, .number 2, .messages [(68, [1, 2])],
    .data [90, 0, 0, 0, 5, 73], .messages [(90, [73])], .messages [], .nothing, .valueError, .valueError, .valueError, .nothing, .data [], .number 0] := by
  decide +kernel

/-- The hypothesis is met by a history that writes, counts and reads. -/
example : SaneRun true {} [.write [68, 0, 0], .nextMessage, .write [0, 6, 1, 2], .readAll] := by
  have hp0 : parse [] = ([], [], false) := by rw [PBuffer.parse_eq]; rfl
  have hp1 : parse [68, 0, 0] = ([], [68, 0, 0], false) := by rw [PBuffer.parse_eq]; rfl
  have hv : view [68, 0, 0, 0, 6, 1, 2] = .msg (68, [1, 2]) [] := by decide +kernel
  have hp2 : parse [68, 0, 0, 0, 6, 1, 2] = ([(68, [1, 2])], [], false) := by rw [PBuffer.parse_eq, hv]; dsimp only; rw [hp0]
  refine ⟨⟨by decide +kernel, fun _ m hm => ?_, by show _ < _; decide +kernel⟩, ⟨by decide +kernel, fun _ m hm => ?_, trivial⟩, ⟨by decide +kernel, fun _ m hm => ?_, by show _ < _; decide +kernel⟩,
    ⟨by decide +kernel, fun _ m hm => ?_, ?_⟩, trivial⟩
  · rw [show (PBuffer.getvalue {}).1 = [] from rfl, hp0] at hm; cases hm
  · have : (PBuffer.getvalue (pyCall {} (.write [68, 0, 0])).2).1 = [68, 0, 0] := by decide +kernel
    rw [this, hp1] at hm; cases hm
  · have : (PBuffer.getvalue (pyCall (pyCall {} (.write [68, 0, 0])).2 .nextMessage).2).1 = [68, 0, 0] := by decide +kernel
    rw [this, hp1] at hm; cases hm
  · have : (PBuffer.getvalue (pyCall (pyCall (pyCall {} (.write [68, 0, 0])).2 .nextMessage).2 (.write [0, 6, 1, 2])).2).1 = [68, 0, 0, 0, 6, 1, 2] := by decide +kernel
    rw [this, hp2, List.mem_singleton] at hm
    rw [hm]; decide
  · have : (PBuffer.getvalue (pyCall (pyCall (pyCall {} (.write [68, 0, 0])).2 .nextMessage).2 (.write [0, 6, 1, 2])).2).1 = [68, 0, 0, 0, 6, 1, 2] := by decide +kernel
    show (parse _).2.2 = false
    rw [this, hp2]

/-! ## Outside of the bounds -/

/-- **C94** with a malformed length anywhere in what is unread, `read` of the C stream raises SystemError, whatever was asked for, and nothing is taken: the messages before it cannot
be had from `read`. -/
theorem C94_read_malformed (signed : Bool) (p : OptBuffer.Place) (h : OptBuffer.Inv p) (hs : OptBuffer.Small p) (hm : (parse (OptBuffer.unread p)).2.2 = true) (count : Int) :
    OptBuffer.read signed p count = (.error .system, p) := by
  unfold OptBuffer.read
  rw [OptBuffer.len_spec p h hs, hm]
  rfl

/-- **C94** so does a negative number of messages other than -1, with well-formed bytes. -/
theorem C94_read_negative (signed : Bool) (p : OptBuffer.Place) (h : OptBuffer.Inv p) (hs : OptBuffer.Small p) (count : Int) (hn : count < -1) :
    OptBuffer.read signed p count = (.error .system, p) := by
  unfold OptBuffer.read
  rw [OptBuffer.len_spec p h hs]
  cases (parse (OptBuffer.unread p)).2.2 with
  | true => rfl
  | false =>
    simp only [Bool.false_eq_true, if_false]
    rw [if_pos (by rw [if_pos (by omega)]; omega)]

set_option maxRecDepth 100000 in
/-- **C94** the unrestricted claim is false: a complete message, and after it a malformed length; the Python stream gives the message when one is asked for. -/
theorem C94_not_the_same : cRun false {} [.write [90, 0, 0, 0, 4, 90, 0, 0, 0, 3], .read 1] = [.nothing, .raises] ∧
    pyRun {} [.write [90, 0, 0, 0, 4, 90, 0, 0, 0, 3], .read 1] = [.nothing, .messages [(90, [])]] := by
  decide +kernel

set_option maxRecDepth 100000 in
/-- **C94** with a signed `char`, a message of a type of 128 or more has no defined outcome; the Python stream gives it. -/
theorem C94_signed : cRun true {} [.write [200, 0, 0, 0, 4], .nextMessage] = [.nothing, .raises] ∧
    cRun false {} [.write [200, 0, 0, 0, 4], .nextMessage] = pyRun {} [.write [200, 0, 0, 0, 4], .nextMessage] ∧
    pyRun {} [.write [200, 0, 0, 0, 4], .nextMessage] = [.nothing, .message (some (200, []))] := by
  decide +kernel

/-- **C94** without the bound: with 2^32 bytes in the first item of the list, a message that is complete is not seen. -/
theorem C94_wraps (d : Bytes) (n : Nat) (hd : d.length = 2 ^ 32) (hn : 0 < n) (hle : n < 2 ^ 32) :
    OptBuffer.atLeast ⟨[d], 0⟩ n = false ∧ n ≤ (OptBuffer.unread ⟨[d], 0⟩).length := by
  constructor
  · unfold OptBuffer.atLeast OptBuffer.u32
    dsimp only
    rw [hd, Nat.sub_zero, Nat.mod_self, if_neg (by omega)]
    rfl
  · unfold OptBuffer.unread
    simp only [List.flatten_cons, List.flatten_nil, List.append_nil, List.drop_zero]
    omega

end PG.Props.OptBuffer
