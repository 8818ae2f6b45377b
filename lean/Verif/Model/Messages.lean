import Verif.Model.Element3
import Verif.Model.Exceptions
/-!
# Server messages as exceptions and messages (postgresql/driver/pq3.py:46-68, 501-615; postgresql/message.py)

The decoder of the client encoding is a parameter; it gives nothing where Python raises `UnicodeDecodeError`. `creator`, `database` and `__cause__`,
which are handed through to the exception, are not modelled.
-/
namespace PG.Messages
open PG PG.Exceptions

/-- The names of the fields (pq3.py:48-61, the values). -/
inductive Field where
  | severity | code | message | detail | hint | context | position | internal_position | internal_query | file | line | function
  deriving DecidableEq, Repr

/-- `notice_field_to_name.get(k)` (pq3.py:48-61). -/
def fieldOf : Bytes → Option Field
  | [83] => some .severity           -- 49  b'S'
  | [67] => some .code               -- 50  b'C'
  | [77] => some .message            -- 51  b'M'
  | [68] => some .detail             -- 52  b'D'
  | [72] => some .hint               -- 53  b'H'
  | [87] => some .context            -- 54  b'W'
  | [80] => some .position           -- 55  b'P'
  | [112] => some .internal_position -- 56  b'p'
  | [113] => some .internal_query    -- 57  b'q'
  | [70] => some .file               -- 58  b'F'
  | [76] => some .line               -- 59  b'L'
  | [82] => some .function           -- 60  b'R'
  | _ => none

/-- A hexadecimal digit of `bytes.__repr__`. -/
def hexDigit (n : Nat) : Char := if n < 10 then Char.ofNat (48 + n) else Char.ofNat (87 + n)

/-- A byte in `bytes.__repr__`, between quotes of a kind. -/
def reprByte (quote : Char) (b : UInt8) : Str :=
  let c := Char.ofNat b.toNat
  if c = quote ∨ c = '\\' then ['\\', c]
  else if c = '\t' then ['\\', 't']
  else if c = '\n' then ['\\', 'n']
  else if c = '\r' then ['\\', 'r']
  else if b.toNat < 32 ∨ 127 ≤ b.toNat then ['\\', 'x', hexDigit (b.toNat / 16), hexDigit (b.toNat % 16)]
  else [c]

/-- `repr(v)[2:-1]` for bytes (pq3.py:563): double quotes are used if there is a single one, and no double one. -/
def reprInner (v : Bytes) : Str := v.flatMap (reprByte (if 39 ∈ v ∧ 34 ∉ v then '"' else '\''))

mutual
/-- `_decode_failsafe`'s outer loop (pq3.py:548-563). -/
def failsafeOuter (dec : Bytes → Option Str) : List (Bytes × Bytes) → List (Bytes × Str)
  | [] => []
  | (k, v) :: l => match dec v with
    | some s => (k, s) :: failsafeInner dec l
    | none => (k, reprInner v) :: failsafeOuter dec l
/-- The inner loop (pq3.py:555-557); what cannot be decoded leads back to the outer one. -/
def failsafeInner (dec : Bytes → Option Str) : List (Bytes × Bytes) → List (Bytes × Str)
  | [] => []
  | (k, v) :: l => match dec v with
    | some s => (k, s) :: failsafeInner dec l
    | none => (k, reprInner v) :: failsafeOuter dec l
end

/-- One item of the comprehension: a known field is put into the dictionary (pq3.py:568-571). -/
def addField (d : List (Field × Str)) (p : Bytes × Str) : List (Field × Str) :=
  match fieldOf p.1 with
  | some f => PyDict.set f p.2 d
  | none => d

/-- The dictionary of the known fields (pq3.py:567-572). -/
def named (l : List (Bytes × Str)) : List (Field × Str) := l.foldl addField []

/-- `decode_notice(notice)` (pq3.py:565-572). The values of a parsed notice are bytes, never `None`. -/
def decodeNotice (dec : Bytes → Option Str) (notice : List (Bytes × Option Bytes)) : List (Field × Str) :=
  named (failsafeOuter dec (notice.filterMap fun p => p.2.map fun v => (p.1, v)))

/-- An exception or a message: the class, and the attributes `message`, `code`, `details`, `source`. -/
structure Obj where
  /-- `none` for the plain `Message`. -/
  cls : Option Cls
  message : Str
  code : Str
  details : List (Field × Str)
  fromServer : Bool
  deriving DecidableEq

/-- The `code` of an instance after `Message.__init__` (message.py:74-75): the class attribute is shadowed if it is another one. -/
def instanceCode (c : Cls) (given : Str) : Str := if Exceptions.code c ≠ some given then given else (Exceptions.code c).getD []

/-- `d.pop(k)`. -/
def pop (k : Field) (d : List (Field × Str)) : Except Err (Str × List (Field × Str)) :=
  match PyDict.get k d with
  | some v => .ok (v, PyDict.erase k d)
  | none => .error .keyError

/-- What `raise_server_error(error_message)` raises (pq3.py:524-534): `.error` stands for another exception on the way. -/
def raiseServerError (dec : Bytes → Option Str) (error : List (Bytes × Option Bytes)) : Except Err Obj :=
  match pop .code (decodeNotice dec error) with
  | .error e => .error e
  | .ok (c, m) => match pop .message m with
    | .error e => .error e
    | .ok (ms, m) => .ok { cls := some (errorLookup c), message := ms, code := instanceCode (errorLookup c) c, details := m, fromServer := true }

/-- `Error.fatal` (exceptions.py:102-105). -/
def fatal (o : Obj) : Option Bool := (PyDict.get .severity o.details).map fun s => s = "PANIC".toList ∨ s = "FATAL".toList

/-- The message `emit_server_message(message)` makes (pq3.py:574-588); `upper` is `str.upper`. -/
def serverMessage (dec : Bytes → Option Str) (upper : Str → Str) (notice : List (Bytes × Option Bytes)) : Except Err Obj :=
  match pop .message (decodeNotice dec notice) with
  | .error e => .error e
  | .ok (m, fields) => match pop .code fields with
    | .error e => .error e
    | .ok (c, fields) => match PyDict.get .severity fields with
      | none => .error .keyError
      | some s =>
        if upper s = "WARNING".toList then
          .ok { cls := some (warningLookup c), message := m, code := instanceCode (warningLookup c) c, details := fields, fromServer := true }
        else .ok { cls := none, message := m, code := instanceCode .Message c, details := fields, fromServer := true }

/-! ### Emitting -/

/-- What a message hook does: it returns a true or a false value, or raises. -/
inductive Hook where
  | returns (b : Bool)
  | raises
  deriving DecidableEq

/-- What happens in `emit`: the hooks called, by their place among the factors, and how it ends. -/
structure Emitted where
  called : List Nat
  /-- The place of the factor that is returned; `none` for `None`, with the library's own hook called. -/
  trapped : Option Nat
  sysCalled : Bool
  raised : Bool
  deriving DecidableEq

/-- `emit` (message.py:122-144). `factors` is the creator, its prime factor, the prime factor of that, and so on; `none` for one without `msghook`.
The line of prime factors is taken as finite. -/
def emit (i : Nat) (called : List Nat) : List (Option Hook) → Emitted
  | [] => { called := called, trapped := none, sysCalled := true, raised := false }
  | none :: l => emit (i + 1) called l
  | some (.returns true) :: _ => { called := called ++ [i], trapped := some i, sysCalled := false, raised := false }
  | some (.returns false) :: l => emit (i + 1) (called ++ [i]) l
  | some .raises :: _ => { called := called ++ [i], trapped := none, sysCalled := false, raised := true }

end PG.Messages
