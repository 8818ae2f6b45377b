import Verif.Model.Py
/-!
# Specification: PQ v3 message framing

A message is a type byte, a 32-bit big-endian length that counts itself and the body, and the body.
Independent of the stream model.
-/
namespace PG.Spec
open PG

/-- The wire form of a message. -/
def frame (m : UInt8 × Bytes) : Bytes := m.1 :: (beEnc 4 (m.2.length + 4) ++ m.2)

/-- The wire form of a message list. -/
def frames (ms : List (UInt8 × Bytes)) : Bytes := ms.flatMap frame

/-- A body is representable iff its length field fits in 32 bits. -/
abbrev Fits (m : UInt8 × Bytes) : Prop := m.2.length + 4 < 2 ^ 32

/-- What the beginning of a byte string is. -/
inductive View where
  | msg (m : UInt8 × Bytes) (rest : Bytes)
  | incomplete
  | bad
  deriving DecidableEq, Repr

/-- A big-endian 32-bit length. -/
def len32 (a b c d : UInt8) : Nat := a.toNat * 2 ^ 24 + b.toNat * 2 ^ 16 + c.toNat * 2 ^ 8 + d.toNat

/-- Look at the first message of a byte string: five header bytes, a length below four is malformed, and the body has
to be there completely. -/
def view : Bytes → View
  | t :: a :: b :: c :: d :: rest =>
    let n := len32 a b c d
    if n < 4 then .bad
    else if rest.length < n - 4 then .incomplete
    else .msg (t, rest.take (n - 4)) (rest.drop (n - 4))
  | _ => .incomplete

theorem view_lt {u m rest} (h : view u = .msg m rest) : rest.length < u.length := by
  unfold view at h
  split at h
  · dsimp only at h
    split at h
    · cases h
    · split at h
      · cases h
      · cases h; simp; omega
  · cases h

/-- All complete messages at the beginning of a byte string, what remains, and whether the remainder is malformed
(as opposed to merely incomplete). -/
def parse (u : Bytes) : List (UInt8 × Bytes) × Bytes × Bool :=
  match h : view u with
  | .msg m rest =>
    have := view_lt h
    let r := parse rest
    (m :: r.1, r.2.1, r.2.2)
  | .incomplete => ([], u, false)
  | .bad => ([], u, true)
termination_by u.length

end PG.Spec
