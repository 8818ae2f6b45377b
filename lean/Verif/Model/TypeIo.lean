import Verif.Model.Py
/-!
# Model of the resolution of types in `postgresql/driver/pq3.py`: `TypeIO.resolve`, and the formats of `Statement._fini`

The server's catalog is a parameter; it does not change. I/O routines are represented by how they are made.
Not modelled: names of types and attributes (only used in texts of errors and as keys of rows), `identify()`, errors of the catalog queries.
-/
namespace PG.TypeIo

/-- What `sys.lookup_type` (lib/libsys.sql:6-26) and the queries after it say about a type. -/
inductive Info where
  /-- `typrelid` is set; the attributes: type, whether it is a domain (`lookup_composite`) -/
  | composite (fields : List (Nat × Bool))
  /-- `ae_typid` is not NULL: element type, and whether its receive and send functions exist -/
  | array (elem : Nat) (hasIn hasOut : Bool)
  /-- `typtype` is `d` -/
  | domain
  /-- the pseudo-type `pg_catalog.record` -/
  | anonymous
  | other
  deriving DecidableEq, Repr

/-- The catalog, the base types of domains (`lookup_domain_basetype`, 151-165), and which types have I/O routines in `types.io`. -/
structure Env where
  cat : Nat → Option Info
  base : Nat → Nat
  builtin : Nat → Bool

/-- An I/O triple. `str` is `strio`, `(None, None, str)`; the number is the type it was resolved for. -/
inductive Io where
  | str (typid : Nat)
  | builtin (typid : Nat)
  | array (typid : Nat) (elem : Io) (hasIn hasOut : Bool)
  | record (typid : Nat) (fields : List Io)
  | anonymous (typid : Nat)
  deriving Repr

/-- The dictionary `_cache` (pq3.py:128). -/
abbrev Cache := List (Nat × Io)

/-- Lookup in the dictionary `_cache`; the entry set last is in front. -/
def Cache.get : Cache → Nat → Option Io
  | [], _ => none
  | (k, v) :: c, t => if k = t then some v else Cache.get c t

/-- pq3.py:127-140: the types that are strings from the beginning. -/
def initialOids : List Nat := [1033, 19, 1042, 1043, 2275, 25, 2206, 24, 2202, 2203, 2204, 2205]

/-- pq3.py:123-142 `__init__`. -/
def initialCache : Cache := initialOids.map fun t => (t, .str t)

/-- The exceptions of `resolve` (pq3.py:229-325). -/
inductive Err where
  /-- "type is already being looked up" -/
  | typeError
  /-- the recursion goes on (never: see the properties) -/
  | recursion
  deriving DecidableEq, Repr

/-- pq3.py:267-281: the attributes of a composite type, one after the other; `rec` resolves. -/
def resolveFields (base : Nat → Nat) (rec : Cache → Nat → Except Err Io × Cache) : Cache → List (Nat × Bool) → Except Err (List Io) × Cache
  | c, [] => (.ok [], c)
  | c, (t, dom) :: fs =>
    match rec c (if dom then base t else t) with
    | (.error e, c) => (.error e, c)
    | (.ok io, c) =>
      match resolveFields base rec c fs with
      | (.error e, c) => (.error e, c)
      | (.ok ios, c) => (.ok (io :: ios), c)

/-- pq3.py:229-325 `resolve`; `fuel` bounds the depth of the recursion. A domain's routines are those of its base type; an entry for the domain is made too. -/
def resolve (env : Env) : Nat → List Nat → Cache → Nat → Except Err Io × Cache
  | 0, _, c, _ => (.error .recursion, c)
  | fuel + 1, from_, c, t =>
    if from_.contains t then (.error .typeError, c)
    else
      match Cache.get c t with
      | some io => (.ok io, c)
      | none =>
        if env.builtin t then (.ok (.builtin t), (t, .builtin t) :: c)
        else
          match env.cat t with
          | none => (.ok (.str t), c)
          | some (.composite fs) =>
            match resolveFields env.base (resolve env fuel (from_ ++ [t])) c fs with
            | (.error e, c) => (.error e, c)
            | (.ok ios, c) => (.ok (.record t ios), (t, .record t ios) :: c)
          | some (.array el i o) =>
            match resolve env fuel (from_ ++ [t]) c el with
            | (.error e, c) => (.error e, c)
            | (.ok io, c) => (.ok (.array t io i o), (t, .array t io i o) :: c)
          | some .domain =>
            match resolve env fuel (from_ ++ [t]) c (env.base t) with
            | (.error e, c) => (.error e, c)
            | (.ok io, c) => (.ok io, (t, io) :: c)
          | some .anonymous => (.ok (.anonymous t), (t, .anonymous t) :: c)
          | some .other => (.ok (.str t), (t, .str t) :: c)

/-! ## Formats -/

/-- A format code. -/
inductive Fmt where
  | text
  | binary
  deriving DecidableEq, Repr

/-- The first item of the triple is not None: `array_io_factory` (358-401), `record_io_factory` (409-472), `anon_record_io_factory` (474-499). -/
def Io.packs : Io → Bool
  | .str _ => false
  | .builtin _ => true
  | .array _ _ i _ => i
  | .record .. => true
  | .anonymous _ => false

/-- The second one. -/
def Io.unpacks : Io → Bool
  | .str _ => false
  | .builtin _ => true
  | .array _ _ _ o => o
  | .record .. => true
  | .anonymous _ => true

/-- pq3.py:1539-1546: the formats in which the columns are asked for. -/
def outputFormat (io : Io) : Fmt := if io.unpacks then .binary else .text

/-- pq3.py:1548-1558: the formats in which the parameters are declared; what is tested is the type's number, not the packer. -/
def inputFormat (typid : Option Nat) (_io : Io) : Fmt := if typid.isNone then .text else .binary

end PG.TypeIo
