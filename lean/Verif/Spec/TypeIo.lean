import Verif.Model.TypeIo
/-!
# The routines of a type, without history; formats

`Is env n t io`: `io` are the routines of type `t`, found in at most `n` steps down through attributes, elements and base types.
-/
namespace PG.Spec.TypeIo
open PG.TypeIo

mutual
/-- The routines of a type. -/
inductive Is (env : Env) : Nat → Nat → Io → Prop
  | initial {n t} : t ∈ initialOids → Is env (n + 1) t (.str t)
  | builtin {n t} : t ∉ initialOids → env.builtin t = true → Is env (n + 1) t (.builtin t)
  | unknown {n t} : t ∉ initialOids → env.builtin t = false → env.cat t = none → Is env (n + 1) t (.str t)
  | other {n t} : t ∉ initialOids → env.builtin t = false → env.cat t = some .other → Is env (n + 1) t (.str t)
  | anonymous {n t} : t ∉ initialOids → env.builtin t = false → env.cat t = some .anonymous → Is env (n + 1) t (.anonymous t)
  | domain {n t io} : t ∉ initialOids → env.builtin t = false → env.cat t = some .domain → Is env n (env.base t) io → Is env (n + 1) t io
  | array {n t el io i o} : t ∉ initialOids → env.builtin t = false → env.cat t = some (.array el i o) → Is env n el io → Is env (n + 1) t (.array t io i o)
  | composite {n t fs ios} : t ∉ initialOids → env.builtin t = false → env.cat t = some (.composite fs) → Are env n fs ios → Is env (n + 1) t (.record t ios)

/-- The routines of the attributes. -/
inductive Are (env : Env) : Nat → List (Nat × Bool) → List Io → Prop
  | nil {n} : Are env n [] []
  | cons {n t dom fs io ios} : Is env n (if dom then env.base t else t) io → Are env n fs ios → Are env n ((t, dom) :: fs) (io :: ios)
end

/-- The bytes that packing with the routines makes are what the server expects in the binary format; `textual` says for which types the binary format is the text (text, varchar, name, enums, ...). Elements of arrays and attributes of records are always binary. -/
inductive BinaryIn (textual : Nat → Prop) : Io → Prop
  | str {t} : textual t → BinaryIn textual (.str t)
  | builtin {t} : BinaryIn textual (.builtin t)
  | array {t io o} : BinaryIn textual io → BinaryIn textual (.array t io true o)
  | record {t ios} : (∀ io ∈ ios, BinaryIn textual io) → BinaryIn textual (.record t ios)

/-- Values are encoded as text: strings, anonymous records, and arrays whose type has no binary input. -/
def Texts : Io → Prop
  | .str _ => True
  | .anonymous _ => True
  | .array _ _ i _ => i = false
  | .builtin _ => False
  | .record _ _ => False

/-- The bytes that packing makes are what the server expects in a format. -/
def RightIn (textual : Nat → Prop) (io : Io) : Fmt → Prop
  | .binary => BinaryIn textual io
  | .text => Texts io

/-- The bytes of a column in the binary format are what unpacking expects. -/
inductive BinaryOut (textual : Nat → Prop) : Io → Prop
  | str {t} : textual t → BinaryOut textual (.str t)
  | builtin {t} : BinaryOut textual (.builtin t)
  | anonymous {t} : BinaryOut textual (.anonymous t)
  | array {t io i} : BinaryOut textual io → BinaryOut textual (.array t io i true)
  | record {t ios} : (∀ io ∈ ios, BinaryOut textual io) → BinaryOut textual (.record t ios)

/-- What is in a container. -/
def inside : Io → List Io
  | .array _ io _ _ => [io]
  | .record _ ios => ios
  | _ => []

end PG.Spec.TypeIo
