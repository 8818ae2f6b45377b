import Verif.Model.Convert
import Verif.Spec.Types
/-!
# Specification of C78: how a value is sent, and what is read back

`Sent W t v b v'`: a value `v` of the type `t` is `b` in the server's format, and what is read from `b` is `v'`: by the routines of the types inside, or, if a type has none, as text; arrays and composites
are sent in the format of the server (`arrayFields`, `recordFields`), with what their elements are sent as; what is read has, at the same places, what is read of the elements, and NULL where there was None.
-/
namespace PG.Spec.RoundTrip
open PG PG.TypesLib PG.Spec.Types PG.Spec.Format PG.Convert

/-- None at the same places. -/
def SameNulls {A B : Type} (xs : List (Option A)) (ys : List (Option B)) : Prop := ys.length = xs.length ∧ ∀ i : Nat, xs[i]? = some none ↔ ys[i]? = some none

inductive Sent {V : Type} (W : World V) : Ty V → V → Bytes → V → Prop where
  /-- by a routine, or as text -/
  | base {p u v b v'} (hp : p.getD W.encode v = .ok b) (hu : u.getD W.decode b = .ok v') : Sent W (.base p u) v b v'
  /-- arrays of types that have no binary form: as text -/
  | text {t el v b v'} (hp : W.encode v = .ok b) (hu : W.decode b = .ok v') : Sent W (.array t el false false) v b v'
  /-- arrays -/
  | array {t : Nat} {el v es dims lbs bs es' v'} (hp : W.parts v = .ok (es, dims, lbs)) (hb : SameNulls es bs) (hr : SameNulls es es')
      (he : ∀ (i : Nat) x b x', es[i]? = some (some x) → bs[i]? = some (some b) → es'[i]? = some (some x') → Sent W el x b x')
      (ok : ArrayOk ⟨0, t, dims, lbs, bs⟩) (made : W.fromParts es' dims lbs = .ok v') : Sent W (.array t el true true) v (encs (arrayFields ⟨0, t, dims, lbs, bs⟩)) v'
  /-- composites -/
  | record {n typids fields v xs bs xs'} (hp : W.attrs n.atts v = .ok xs) (hl : xs.length = fields.length) (ht : typids.length = fields.length) (hb : SameNulls xs bs) (hr : SameNulls xs xs')
      (he : ∀ (i : Nat) c x b x', fields[i]? = some c → xs[i]? = some (some x) → bs[i]? = some (some b) → xs'[i]? = some (some x') → Sent W c x b x')
      (ok : RecordOk (typids.zip bs)) : Sent W (.record n typids fields) v (encs (recordFields (typids.zip bs))) (W.row n.atts xs')

/-- What an array is made of makes an array again, with other elements, and that is made of them; a row has the values it is made of. -/
structure Faithful {V : Type} (W : World V) : Prop where
  bounds : ∀ v es dims lbs, W.parts v = .ok (es, dims, lbs) → dims.length = lbs.length
  array : ∀ v es dims lbs, W.parts v = .ok (es, dims, lbs) → ∀ es' : List (Option V), es'.length = es.length → ∃ v', W.fromParts es' dims lbs = .ok v' ∧ W.parts v' = .ok (es', dims, lbs)
  row : ∀ names xs, W.attrs names (W.row names xs) = .ok xs

/-- What the routines of a type pack they unpack. -/
inductive Symmetric {V : Type} (W : World V) : Ty V → Prop where
  | base {p u} (h : ∀ v b, p.getD W.encode v = .ok b → ∃ v', u.getD W.decode b = .ok v') : Symmetric W (.base p u)
  | text {t el} (h : ∀ v b, W.encode v = .ok b → ∃ v', W.decode b = .ok v') : Symmetric W (.array t el false false)
  | array {t : Nat} {el} (h : Symmetric W el) : Symmetric W (.array t el true true)
  | record {n typids fields} (ht : typids.length = fields.length) (h : ∀ (i : Nat) c, fields[i]? = some c → Symmetric W c) : Symmetric W (.record n typids fields)

/-- The values are alike: of a type with routines, one is what is read when the other was sent; arrays have the same dimensions and lower bounds, and elements that are alike; composites have attributes that are alike;
None is None. -/
inductive Alike {V : Type} (W : World V) : Ty V → V → V → Prop where
  | base {p u v b v'} (hp : p.getD W.encode v = .ok b) (hu : u.getD W.decode b = .ok v') : Alike W (.base p u) v v'
  | text {t el v b v'} (hp : W.encode v = .ok b) (hu : W.decode b = .ok v') : Alike W (.array t el false false) v v'
  | array {t el v es dims lbs es' v'} (h : W.parts v = .ok (es, dims, lbs)) (h' : W.parts v' = .ok (es', dims, lbs)) (hn : SameNulls es es')
      (he : ∀ (i : Nat) x x', es[i]? = some (some x) → es'[i]? = some (some x') → Alike W el x x') : Alike W (.array t el true true) v v'
  | record {n typids fields v v' xs xs'} (h : W.attrs n.atts v = .ok xs) (h' : W.attrs n.atts v' = .ok xs') (hl : xs.length = fields.length) (hn : SameNulls xs xs')
      (he : ∀ (i : Nat) c x x', fields[i]? = some c → xs[i]? = some (some x) → xs'[i]? = some (some x') → Alike W c x x') : Alike W (.record n typids fields) v v'

end PG.Spec.RoundTrip
