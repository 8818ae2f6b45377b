import Verif.Spec.Framing
/-!
# Specification: positions in a stream of COPY data messages
-/
namespace PG.Spec.Copy
open PG PG.Spec

/-- The messages of rows on the wire: CopyData is type 'd'. -/
def copyFrames (rows : List Bytes) : Bytes := frames (rows.map fun r => ((100 : UInt8), r))

/-- The length word can carry the row. -/
def RowFits (row : Bytes) : Prop := row.length + 4 < 2 ^ 32

/-- A part of the header of a COPY data message: its type and less than four bytes of its length. -/
def InHeader (r fragment : Bytes) : Prop := r = 100 :: fragment ∧ fragment.length < 4

/-- A COPY data message of which the header is there but `missing` bytes of the row are not. -/
def InRow (r : Bytes) (missing : Nat) : Prop :=
  0 < missing ∧ ∃ part, r = 100 :: (beEnc 4 (part.length + missing + 4) ++ part) ∧ part.length + missing + 4 < 2 ^ 32

/-- The beginning of something that is not COPY data. -/
def Foreign (r : Bytes) : Prop := ∃ x t, r = x :: t ∧ x ≠ 100

/-- What can be left of a stream after its complete COPY data messages. -/
def Rest (r : Bytes) : Prop := r = [] ∨ (∃ f, InHeader r f) ∨ (∃ k, InRow r k) ∨ Foreign r

/-- The stream is the messages of the rows, and then `r`. -/
def Position (s : Bytes) (rows : List Bytes) (r : Bytes) : Prop := s = copyFrames rows ++ r ∧ (∀ row ∈ rows, RowFits row) ∧ Rest r

end PG.Spec.Copy
