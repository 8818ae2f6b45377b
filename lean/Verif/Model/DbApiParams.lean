import Verif.Model.PgString
import Verif.Model.PyDict
/-!
# Model of `postgresql/driver/dbapi20.py`: parameters of DB-API queries

`%` formatting is modelled for the directives `%%`, `%s` and `%(key)s`; for any other (`%d`, `%5s`, a `%` at the end, ...) the model says
`Err.runtimeError`, which stands for whatever Python does with it (mostly TypeError or ValueError).
-/
namespace PG.DbApi
open PG PG.PyStr PG.PgString

/-- What `parameters_re` finds: `%s` or `%(key)s`. -/
inductive Found where
  | s
  | key (k : Str)
  deriving DecidableEq, Repr

/-- dbapi20.py:29: `[^)]*[)]s` at the start of the text: the key and the rest. -/
def keyAt (s : Str) : Option (Str × Str) :=
  match s.dropWhile (· ≠ ')') with
  | ')' :: 's' :: r => some (s.takeWhile (· ≠ ')'), r)
  | _ => none

/-- dbapi20.py:28-33 `percent_parameters`: the matches of `(?:%%)+|%(s|[(][^)]*[)]s)` from left to right, without those of the first alternative.
A run of `%%` is matched a pair at a time here, which makes no difference as these matches are dropped. -/
def findParams : Nat → Str → List Found
  | 0, _ => []
  | _, [] => []
  | fuel + 1, c :: s =>
    if c ≠ '%' then findParams fuel s
    else
      match s with
      | '%' :: s => findParams fuel s
      | 's' :: s => .s :: findParams fuel s
      | '(' :: s =>
        match keyAt s with
        | some (k, r) => .key k :: findParams fuel r
        | none => findParams fuel s
      | s => findParams fuel s

/-- `part % params` for a tuple of strings. -/
def formatTuple : Str → List Str → Except Err Str
  | [], [] => .ok []
  | [], _ :: _ => .error .typeError
  | c :: s, a =>
    if c ≠ '%' then do
      let r ← formatTuple s a
      return c :: r
    else
      match s with
      | '%' :: s => do
        let r ← formatTuple s a
        return '%' :: r
      | 's' :: s =>
        match a with
        | [] => .error .typeError
        | x :: a => do
          let r ← formatTuple s a
          return x ++ r
      | '(' :: _ => .error .typeError
      | _ => .error .runtimeError

/-- The key after `%(`, in which parentheses nest: the key and the rest. -/
def nestedKey : Nat → Str → Option (Str × Str)
  | _, [] => none
  | n, c :: s =>
    if c = ')' then (match n with
      | 0 => some ([], s)
      | n + 1 => (nestedKey n s).map fun r => (c :: r.1, r.2))
    else (nestedKey (if c = '(' then n + 1 else n) s).map fun r => (c :: r.1, r.2)

/-- `part % kmap` for a dictionary of strings. -/
def formatMap (kmap : List (Str × Str)) : Nat → Str → Except Err Str
  | 0, _ => .ok []
  | _, [] => .ok []
  | fuel + 1, c :: s =>
    if c ≠ '%' then do
      let r ← formatMap kmap fuel s
      return c :: r
    else
      match s with
      | '%' :: s => do
        let r ← formatMap kmap fuel s
        return '%' :: r
      | '(' :: s =>
        match nestedKey 0 s with
        | none => .error .valueError
        | some (k, r) =>
          match PyDict.get k kmap with
          | none => .error .keyError
          | some v =>
            match r with
            | 's' :: r => do
              let t ← formatMap kmap fuel r
              return v ++ t
            | _ => .error .runtimeError
      | _ => .error .runtimeError

/-- `'$' + str(n)`. -/
def dollar (n : Nat) : Str := '$' :: Nat.toDigits 10 n

/-- The variables of `_convert_query`. -/
structure Conv where
  count : Nat
  keys : List Str
  kmap : List (Str × Str)

/-- dbapi20.py:225-233: the loop over the parameters of a part: the number of `%s`, the keys and their numbers. -/
def collect : List Found → Nat → List Str → List (Str × Str) → Nat × List Str × List (Str × Str)
  | [], p, keys, kmap => (p, keys, kmap)
  | .s :: l, p, keys, kmap => collect l (p + 1) keys kmap
  | .key k :: l, p, keys, kmap =>
    if k ∈ keys then collect l p keys kmap else collect l p (keys ++ [k]) (PyDict.set k (dollar (keys.length + 1)) kmap)

/-- dbapi20.py:224-247: one part of the query. -/
def convPart (st : Conv) (part : Str) : Except Err (Str × Conv) :=
  let r := findParams (part.length + 1) part
  let c := collect r 0 st.keys st.kmap
  if r ≠ [] then
    (if c.1 ≠ 0 then do
      let t ← formatTuple part ((List.range c.1).map fun i => dollar (st.count + i + 1))
      return (t, ⟨st.count + c.1, c.2.1, c.2.2⟩)
    else do
      let t ← formatMap c.2.2 (part.length + 1) part
      return (t, ⟨st.count, c.2.1, c.2.2⟩))
  else .ok (part, ⟨st.count, c.2.1, c.2.2⟩)

/-- dbapi20.py:219-247: the loop over the parts. -/
def convParts : Conv → List Item → Except Err (List Item × Conv)
  | st, [] => .ok ([], st)
  | st, .quoted q t :: l => do
    let r ← convParts st l
    return (.quoted q t :: r.1, r.2)
  | st, .text p :: l => do
    let (t, st) ← convPart st p
    let r ← convParts st l
    return (.text t :: r.1, r.2)

/-- What `_convert_query` makes of the arguments: a tuple of them, or the values of the keys (`convert_keywords`). -/
inductive Transformer where
  | tuple
  | keywords (keys : List Str)
  deriving DecidableEq, Repr

/-- dbapi20.py:211-257 `Cursor._convert_query`. -/
def convertQuery (U : Unicode) (string : Str) : Except Err (Str × Transformer × Nat) := do
  let (rparts, st) ← convParts ⟨0, [], []⟩ (PgString.split U string)
  let (tr, count) ← (if st.keys ≠ [] then
      (if st.count ≠ 0 then .error .typeError else .ok (.keywords st.keys, st.keys.length))
    else .ok (Transformer.tuple, st.count) : Except Err (Transformer × Nat))
  let sql ← if rparts ≠ [] then unsplit rparts else .ok string
  return (sql, tr, count)

/-- The arguments of a query: a sequence or a mapping. -/
inductive Params (α : Type) where
  | seq (l : List α)
  | map (d : List (Str × α))

/-- `len(parameters)`. -/
def Params.len {α : Type} : Params α → Nat
  | .seq l => l.length
  | .map d => d.length

/-- dbapi20.py:35-36 `convert_keywords`, and `tuple`; `tuple` of a mapping is the tuple of its keys, which are not values: not modelled unless the
mapping is empty. -/
def transform {α : Type} : Transformer → Params α → Except Err (List α)
  | .tuple, .seq l => .ok l
  | .tuple, .map d => if d = [] then .ok [] else .error .runtimeError
  | .keywords keys, .map d => keys.mapM fun k => match PyDict.get k d with
    | some v => .ok v
    | none => .error .keyError
  | .keywords _, .seq _ => .error .typeError

/-- dbapi20.py:259-272: the beginning of `Cursor.execute`: the statement prepared and the arguments it is executed with. -/
def executeArgs {α : Type} (U : Unicode) (statement : Str) (parameters : Params α) : Except Err (Str × List α) := do
  let (sql, pxf, nparams) ← convertQuery U statement
  if parameters.len ≠ nparams then .error .typeError
  else do
    let args ← transform pxf parameters
    return (sql, args)

end PG.DbApi
