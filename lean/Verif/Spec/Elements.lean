import Verif.Model.Element3
/-!
# Specification: which elements the wire format can represent

Integer fields within their field width, C strings without NUL, sizes that fit, two-byte format codes, one format per
argument, single-character distinct field keys.
-/
namespace PG.Spec
open PG PG.Element3

/-- A C string: no NUL byte inside. -/
def NulFree (b : Bytes) : Prop := (0 : UInt8) ∉ b

instance (b : Bytes) : Decidable (NulFree b) := inferInstanceAs (Decidable (¬ _))

/-- Unsigned `k`-byte range. -/
def InU (k : Nat) (n : Int) : Prop := 0 ≤ n ∧ n < 256 ^ k
instance (k n) : Decidable (InU k n) := inferInstanceAs (Decidable (_ ∧ _))

/-- Signed `k`-byte range. -/
def InS (k : Nat) (n : Int) : Prop := -(256 ^ k : Int) ≤ 2 * n ∧ 2 * n < 256 ^ k
instance (k n) : Decidable (InS k n) := inferInstanceAs (Decidable (_ ∧ _))

/-- Attribute values: NULL or data whose size is below the NULL marker 0xFFFFFFFF. -/
def AttsOk (l : List (Option Bytes)) : Prop := l.length < 2 ^ 16 ∧ ∀ x ∈ l, ∀ d, x = some d → d.length < 2 ^ 32 - 1

/-- Format codes are two bytes each. -/
def FmtsOk (l : List Bytes) : Prop := l.length < 2 ^ 16 ∧ ∀ x ∈ l, x.length = 2

/-- A column description within the field widths. -/
def ColOk (c : ColDesc) : Prop :=
  NulFree c.name ∧ InU 4 c.relId ∧ InS 2 c.colNum ∧ InU 4 c.typId ∧ InS 2 c.typLen ∧ InS 4 c.typMod ∧ InS 2 c.fmt

/-- Notice/Error fields: a one-byte non-NUL code, a NUL-free value, codes distinct. -/
def FieldsOk (fs : List (Bytes × Option Bytes)) : Prop :=
  (fs.map (·.1)).Nodup ∧ ∀ f ∈ fs, (∃ c, f.1 = [c] ∧ c ≠ 0) ∧ ∃ v, f.2 = some v ∧ NulFree v

/-- Start-up parameters: NUL-free names and values, names distinct. -/
def ParamsOk (fs : List (Bytes × Option Bytes)) : Prop :=
  (fs.map (·.1)).Nodup ∧ ∀ f ∈ fs, NulFree f.1 ∧ ∃ v, f.2 = some v ∧ NulFree v

/-- Representable elements. -/
def Representable : Elem → Prop
  | .notify pid ch pl => InU 4 pid ∧ NulFree ch ∧ NulFree pl
  | .showOption n v => NulFree n ∧ NulFree v
  | .complete d => NulFree d
  | .empty _ => True
  | .ready d => d = [73] ∨ d = [69] ∨ d = [84]
  | .notice fs => FieldsOk fs
  | .error fs => FieldsOk fs
  | .functionResult r => ∀ d, r = some d → d.length < 2 ^ 32
  | .attributeTypes l => l.length < 2 ^ 16 ∧ ∀ x ∈ l, InU 4 x
  | .tupleDescriptor cs => cs.length < 2 ^ 16 ∧ ∀ c ∈ cs, ColOk c
  | .tuple l => AttsOk l
  | .killInformation p k => InU 4 p ∧ InU 4 k
  | .cancelRequest p k => InU 4 p ∧ InU 4 k
  | .negotiateSSL => True
  | .startup fs => ParamsOk fs
  | .authentication r _ => InU 4 r
  | .str _ _ => True
  | .parse n s l => NulFree n ∧ NulFree s ∧ l.length < 2 ^ 16 ∧ ∀ x ∈ l, InU 4 x
  | .bind n s afs args rfs => NulFree n ∧ NulFree s ∧ FmtsOk afs ∧ AttsOk args ∧ FmtsOk rfs ∧ afs.length = args.length
  | .execute n m => NulFree n ∧ InU 4 m
  | .function o afs args _ => InU 4 o ∧ FmtsOk afs ∧ AttsOk args ∧ afs.length = args.length
  | .copyToBegin f fs => InU 1 f ∧ fs.length < 2 ^ 16 ∧ ∀ x ∈ fs, InU 2 x
  | .copyFromBegin f fs => InU 1 f ∧ fs.length < 2 ^ 16 ∧ ∀ x ∈ fs, InU 2 x
  | .copyData _ => True

/-- The (type, body) message an item stands for on the wire; `Void` stands for none. -/
def itemMsg : Item → Except Err (List (UInt8 × Bytes))
  | .msg m => do
    let b ← serialize m
    match m.kind.typ with
    | some t => return [(t, b)]
    | none => throw .valueError
  | .raw d => .ok [(100, d)]
  | .row t => do
    let b ← serialize (.tuple t)
    return [(68, b)]
  | .void => .ok []

/-- The messages of a sequence of items. -/
def itemsMsgs : List Item → Except Err (List (UInt8 × Bytes))
  | [] => .ok []
  | x :: r => do
    let h ← itemMsg x
    let t ← itemsMsgs r
    return h ++ t

/-- The elements a server sends. -/
def FromServer : Kind → Bool
  | .notify | .showOption | .complete | .ready | .notice | .error | .functionResult | .attributeTypes | .tupleDescriptor
  | .tuple | .killInformation | .authentication | .copyToBegin | .copyFromBegin | .copyData => true
  | .empty k => match k with
    | .null | .noData | .parseComplete | .bindComplete | .closeComplete | .suspension | .copyDone => true
    | _ => false
  | _ => false

/-- The elements a client sends. -/
def FromClient : Kind → Bool
  | .cancelRequest | .negotiateSSL | .startup | .str _ | .parse | .bind | .execute | .function | .copyData => true
  | .empty k => match k with
    | .disconnect | .flush | .synchronize | .copyDone => true
    | _ => false
  | _ => false

end PG.Spec
