import Verif.Model.PgArray
/-!
# Model of `postgresql/types/__init__.py`: `Row`, `postgresql/python/functools.py`: `process_tuple`, and the record part of `TypeIO` in
`postgresql/driver/pq3.py`
-/
namespace PG.Row
open PG PG.TypesLib PG.PgArray

variable {κ α : Type} [DecidableEq κ]

/-- types/__init__.py:552-568: the values and the map of names to positions, a `dict` (in its order, each name once). -/
structure Row (κ α : Type) where
  vals : List α
  keymap : List (κ × Nat)

/-- `d.get(k)`. -/
def lookup {β : Type} (k : κ) (d : List (κ × β)) : Option β := (d.find? fun e => e.1 = k).map Prod.snd

/-- `sorted(d.items(), key = get1)`. -/
def byPosition (d : List (κ × Nat)) : List (κ × Nat) := d.mergeSort fun a b => a.2 ≤ b.2

/-- types/__init__.py:554-561 `from_mapping`; missing names are None. -/
def fromMapping (keymap : List (κ × Nat)) (m : List (κ × α)) : Row κ (Option α) :=
  ⟨(byPosition keymap).map fun e => lookup e.1 m, keymap⟩

/-- types/__init__.py:563-567 `from_sequence`. -/
def fromSequence (keymap : List (κ × Nat)) (seq : List α) : Row κ α := ⟨seq, keymap⟩

/-- types/__init__.py:569-573 `__getitem__` with an integer. -/
def getInt (r : Row κ α) (i : Int) : Except Err α := pyGet r.vals i

/-- types/__init__.py:569-573 `__getitem__` with a name. -/
def getKey (r : Row κ α) (k : κ) : Except Err α :=
  match lookup k r.keymap with
  | none => .error .keyError
  | some i => pyGet r.vals i

/-- types/__init__.py:575-584 `get` with an integer; `none` is None. -/
def optInt (r : Row κ α) (i : Int) : Except Err (Option α) :=
  if -(r.vals.length : Int) < i ∧ i < r.vals.length then (pyGet r.vals i).map some else .ok none

/-- types/__init__.py:575-584 `get` with a name. -/
def optKey (r : Row κ α) (k : κ) : Except Err (Option α) :=
  match lookup k r.keymap with
  | none => .ok none
  | some i => (pyGet r.vals i).map some

/-- types/__init__.py:586-587 `keys`. -/
def keys (r : Row κ α) : List κ := r.keymap.map Prod.fst

/-- types/__init__.py:604-608 `column_names`. -/
def columnNames (r : Row κ α) : List κ := (byPosition r.keymap).map Prod.fst

/-- types/__init__.py:592-593 `items`. -/
def rowItems (r : Row κ α) : List (κ × α) := (columnNames r).zip r.vals

/-- types/__init__.py:595-596 `index_from_key`. -/
def indexFromKey (r : Row κ α) (k : κ) : Option Nat := lookup k r.keymap

/-- types/__init__.py:598-602 `key_from_index`. -/
def keyFromIndex (r : Row κ α) (i : Nat) : Option κ := (r.keymap.find? fun e => e.2 = i).map Prod.fst

/-- types/__init__.py:631-636: the positional part of `transform`. -/
def transformArgs (orig : List α) : List (Option (α → Except Err α)) → Nat → List α → Except Err (List α)
  | [], _, r => .ok r
  | none :: args, i, r => transformArgs orig args (i + 1) r
  | some f :: args, i, r => do
    let x ← pyGet orig i
    let y ← f x
    if i < r.length then transformArgs orig args (i + 1) (r.set i y) else .error .indexError

/-- types/__init__.py:637-642: the named part. -/
def transformKw (row : Row κ α) : List (κ × Option (α → Except Err α)) → List α → Except Err (List α)
  | [], r => .ok r
  | (_, none) :: kw, r => transformKw row kw r
  | (k, some f) :: kw, r =>
    match indexFromKey row k with
    | none => .error .keyError
    | some i => do
      let x ← getKey row k
      let y ← f x
      if i < r.length then transformKw row kw (r.set i y) else .error .indexError

/-- types/__init__.py:610-643 `transform`. -/
def transform (row : Row κ α) (args : List (Option (α → Except Err α))) (kw : List (κ × Option (α → Except Err α))) : Except Err (Row κ α) := do
  let r ← transformArgs row.vals args 0 row.vals
  let r ← transformKw row kw r
  return fromSequence row.keymap r

/-! ## python/functools.py:37-66 -/

/-- How `process_tuple` ends if it raises: TypeError, or the handler called with the cause and the index of the item. -/
inductive PErr where | mismatch | handler (cause : Err) (i : Nat)
  deriving DecidableEq, Repr

/-- python/functools.py:53-63: the loop, from item `i`. -/
def processLoop {β γ : Type} : List (β → Except Err γ) → List (Option β) → Nat → Except PErr (List (Option γ))
  | f :: procs, some x :: tup, i =>
    match f x with
    | .error e => .error (.handler e i)
    | .ok y => (processLoop procs tup (i + 1)).map (some y :: ·)
  | _ :: procs, none :: tup, i => (processLoop procs tup (i + 1)).map (none :: ·)
  | _, _, _ => .ok []

/-- python/functools.py:37-66 `process_tuple`. -/
def processTuple {β γ : Type} (procs : List (β → Except Err γ)) (tup : List (Option β)) : Except PErr (List (Option γ)) :=
  if tup.length ≠ procs.length then .error .mismatch else processLoop procs tup 0

/-- python/functools.py:68-69 `process_chunk`. -/
def processChunk {β γ : Type} (procs : List (β → Except Err γ)) : List (List (Option β)) → Except PErr (List (List (Option γ)))
  | [] => .ok []
  | t :: l => do
    let h ← processTuple procs t
    let r ← processChunk procs l
    return h :: r

/-! ## driver/pq3.py: records -/

/-- How packing or unpacking a record fails. -/
inductive RErr where | tuple (e : PErr) | wire (e : Err)
  deriving DecidableEq, Repr

/-- The value or the error of `process_tuple`. -/
def liftP {β : Type} : Except PErr β → Except RErr β
  | .ok x => .ok x
  | .error e => .error (.tuple e)
/-- The value or the error of the wire format. -/
def liftW {β : Type} : Except Err β → Except RErr β
  | .ok x => .ok x
  | .error e => .error (.wire e)

/-- driver/pq3.py:461-473 `pack_a_record` for a sequence. -/
def packRecord (typids : List Nat) (fpack : List (α → Except Err Bytes)) (data : List (Option α)) : Except RErr Bytes := do
  let t ← liftP (processTuple fpack data)
  liftW (recordPack ((typids.map Int.ofNat).zip t))

/-- driver/pq3.py:465-466: a `dict` is put in the order of the attributes first. -/
def packRecordDict (typids : List Nat) (fpack : List (α → Except Err Bytes)) (attmap : List (κ × Nat)) (data : List (κ × Option α)) : Except RErr Bytes :=
  packRecord typids fpack ((byPosition attmap).map fun e => (lookup e.1 data).join)

/-- driver/pq3.py:452-458 `unpack_a_record`. -/
def unpackRecord (funpack : List (Bytes → Except Err α)) (attmap : List (κ × Nat)) (data : Bytes) : Except RErr (Row κ (Option α)) := do
  let l ← liftW (recordUnpack data)
  let t ← liftP (processTuple funpack (l.map Prod.snd))
  return fromSequence attmap t

end PG.Row
