import Verif.Spec.Framing
/-!
# Specification: the messages of loading COPY lines, as (type, body) pairs

From the protocol documentation; independent of the model.
-/
namespace PG.Spec.CopyLoad
open PG PG.Spec

/-- Bind the prepared statement `stmt` to the unnamed portal: no formats, no parameters, no result formats. -/
def bindMsg (stmt : Bytes) : UInt8 × Bytes := (66, 0 :: stmt ++ [0] ++ [0, 0, 0, 0, 0, 0])
/-- Execute the unnamed portal, at most one row. -/
def executeMsg : UInt8 × Bytes := (69, [0, 0, 0, 0, 1])
def syncMsg : UInt8 × Bytes := (83, [])
/-- One line of data. -/
def copyData (line : Bytes) : UInt8 × Bytes := (100, line)
/-- The data is complete. -/
def copyDone : UInt8 × Bytes := (99, [])
/-- The data is to be thrown away: "invalid termination". -/
def copyFail : UInt8 × Bytes :=
  (102, [105, 110, 118, 97, 108, 105, 100, 32, 116, 101, 114, 109, 105, 110, 97, 116, 105, 111, 110, 0])

/-- Running the COPY, and its data. -/
def upload (stmt : Bytes) (lines : List Bytes) : Bytes := frames ([bindMsg stmt, executeMsg, syncMsg] ++ lines.map copyData)

/-- One of the two is the beginning of the other. -/
def Begins (a b : Bytes) : Prop := a <+: b ∨ b <+: a

end PG.Spec.CopyLoad
