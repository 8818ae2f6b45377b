import Verif.Model.Element3
/-!
# Model of `postgresql/protocol/xact3.py`: `Instruction`

Object identity: a batch of received messages carries an identity `id` (Python `is` / `id(messages)`); identity 0 is the
empty tuple `()`, which CPython shares and which `initial_state` uses.  `completed[-1]` always belongs to the batch kept alive
in `last[0]`, so an `id` is never reused while it matters; the model therefore uses one identity per batch object.
Exceptions: `put` returns the mutated object together with the raised error or the returned count.
Not modelled: the optional C function `consume_tuple_messages` (the pure Python fallback, 657-679, is modelled), `__repr__`,
the text of the client generated error messages.
-/
namespace PG.Xact3
open PG PG.Element3

/-- A received message: type byte and body. -/
abbrev Msg := UInt8 × Bytes

/-- A batch object (`messages` argument). -/
structure Batch where
  id : Nat
  msgs : List Msg
  deriving DecidableEq, Repr

/-- The callable in a hook entry: a `parse` classmethod or `return_arg` (xact3.py:37-38). -/
inductive Path where
  | parse (k : Kind)
  | arg
  deriving DecidableEq, Repr

/-- What a path returns: a message object (rows are `Elem.tuple`, a Python tuple) or raw `bytes` (COPY lines). -/
inductive Proc where
  | elem (e : Elem)
  | raw (d : Bytes)
  deriving DecidableEq, Repr

/-- `path(x[1])`. -/
def Path.call : Path → Bytes → Except Err Proc
  | .parse k, d => (parseK k d).map .elem
  | .arg, d => .ok (.raw d)

/-- One step of a command: message type ↦ (path, next_step). -/
abbrev Table := List (UInt8 × Path × Option Nat)

/-- xact3.py:293-389 `hook`.  `none`: the key is missing; `some none`: the value is `None` (Flush). -/
def hook : UInt8 → Option (Option (List Table))
  | 81 => some (some [                                          -- Query, 294-321
      [(84, .parse .tupleDescriptor, some 3), (73, .parse (.empty .null), some 0), (67, .parse .complete, some 0),
       (72, .parse .copyToBegin, some 2), (71, .parse .copyFromBegin, some 1), (90, .parse .ready, none)],
      [(67, .parse .complete, some 0)],
      [(100, .arg, some 2), (99, .parse (.empty .copyDone), some 1)],
      [(68, .parse .tuple, some 3), (67, .parse .complete, some 0), (90, .parse .ready, none)]])
  | 70 => some (some [                                          -- Function, 323-326
      [(86, .parse .functionResult, some 1)],
      [(90, .parse .ready, none)]])
  | 80 => some (some [[(49, .parse (.empty .parseComplete), none)]])        -- Parse, 329-331
  | 66 => some (some [[(50, .parse (.empty .bindComplete), none)]])         -- Bind, 333-335
  | 68 => some (some [                                          -- Describe, 337-352
      [(116, .parse .attributeTypes, some 1), (84, .parse .tupleDescriptor, none)],
      [(110, .parse (.empty .noData), none), (84, .parse .tupleDescriptor, none)]])
  | 67 => some (some [[(51, .parse (.empty .closeComplete), none)]])        -- Close, 354-356
  | 69 => some (some [                                          -- Execute, 358-382
      [(68, .parse .tuple, some 1), (72, .parse .copyToBegin, some 2), (71, .parse .copyFromBegin, some 3),
       (73, .parse (.empty .null), none), (67, .parse .complete, none)],
      [(68, .parse .tuple, some 1), (115, .parse (.empty .suspension), none), (67, .parse .complete, none)],
      [(100, .arg, some 2), (99, .parse (.empty .copyDone), some 3)],
      [(67, .parse .complete, none)]])
  | 83 => some (some [[(90, .parse .ready, none)]])                          -- Synchronize, 384-386
  | 72 => some none                                                         -- Flush, 388
  | _ => none

/-- `cmd.type in self.hook` / `HOOK[cmd.type]`; types `b''` are never keys. -/
def hookOf (c : Elem) : Option (Option (List Table)) :=
  match c.kind.typ with
  | some t => hook t
  | none => none

/-- `paths[current_step].get(x[0], (None, None))`: the first entry of that type. -/
def Table.find (t : Table) (ty : UInt8) : Option (Path × Option Nat) := (List.find? (fun e => e.1 == ty) t).map (·.2)

/-- (request position, response position): offset into the commands, step inside the current command. -/
structure Pos where
  offset : Nat
  step : Nat
  deriving DecidableEq, Repr

/-- `error_message`: the server's Error, or the client's protocol violation (expected types, received type). -/
inductive ErrMsg where
  | server (fields : List (Bytes × Option Bytes))
  | violation (expected : List UInt8) (received : UInt8)
  deriving DecidableEq, Repr

/-- The receiving operations. -/
inductive ROp where | standardPut | putCopydata | putTupledata
  deriving DecidableEq, Repr
/-- The sending operations. -/
inductive SOp where | standardSent | sentFromStdin
  deriving DecidableEq, Repr
/-- `state` (xact3.py:27-29). -/
inductive XState where
  | sending (op : SOp)
  | receiving (op : ROp)
  | complete
  deriving DecidableEq, Repr

/-- The object bound to `messages`: `list(commands)`, `()`, `CopyDoneSequence`, `CopyFailSequence`, or whatever the user
assigned (COPY data). -/
inductive Out where
  | commands | empty | copyDone | copyFail
  | data (l : List Item)
  deriving DecidableEq, Repr

/-- An `Instruction` object. -/
structure Inst where
  commands : List Elem
  completed : List (Nat × List Proc)
  /-- `last[0]` (its identity), `last[1]`, `last[2]`. -/
  lastId : Nat
  last1 : Pos
  last2 : Pos
  messages : Out
  /-- the commands after the one starting a COPY FROM, stored in `CopyDoneSequence`/`CopyFailSequence`. -/
  copyTail : List Elem
  state : XState
  fatal : Option Bool
  errorMessage : Option ErrMsg
  lastReady : Option Bytes
  asyncs : List Msg
  /-- the messages `asynchook` has been called with. -/
  hookCalls : List Elem
  deriving DecidableEq, Repr

/-- xact3.py:391-426 `__init__`. -/
def init (commands : List Elem) : Except Err Inst :=
  if commands.all (fun c => (hookOf c).isSome) then
    .ok { commands := commands, completed := [], lastId := 0, last1 := ⟨0, 0⟩, last2 := ⟨0, 0⟩, messages := .commands,
          copyTail := [], state := .sending .standardSent, fatal := none, errorMessage := none, lastReady := none,
          asyncs := [], hookCalls := [] }
  else .error .typeError

/-- xact3.py:31-35: the keys of `AsynchronousMap`. -/
def asyncKind : UInt8 → Option Kind
  | 78 => some .notice
  | 65 => some .notify
  | 83 => some .showOption
  | _ => none

/-- `bytes.upper()` on one byte. -/
def upperB (b : UInt8) : UInt8 := if 97 ≤ b ∧ b ≤ 122 then b - 32 else b

/-- `b'ERROR'`. -/
def ERROR : Bytes := [69, 82, 82, 79, 82]

/-- The local variables of `standard_put` that the loop updates. -/
structure Loc where
  offset : Nat
  step : Nat
  cmd : Elem
  paths : Option (List Table)
  processed : List Proc
  count : Nat
  deriving DecidableEq, Repr

/-- xact3.py:509-516: `for offset in range(offset, NCOMMANDS): if COMMANDS[offset] is SynchronizeMessage: break`.
The Synchronize message is a singleton (element3.py:186-187), so identity is equality. -/
def findSync : List Elem → Nat → Option Nat
  | [], _ => none
  | c :: r, i => if c = .empty .synchronize then some i else findSync r (i + 1)

/-- xact3.py:563-574: the `while paths is None` loop, over the commands after the current one. -/
def advance : List Elem → Nat → Except Err (Nat × Option (Elem × List Table))
  | [], o => .ok (o, none)
  | c :: r, o => match hookOf c with
    | none => .error .keyError
    | some none => advance r (o + 1)
    | some (some p) => .ok (o, some (c, p))

/-- What the loop body of `standard_put` does with one message. -/
inductive React where
  | violation (expected : List UInt8)                                   -- 536-549
  | fatal (em : List (Bytes × Option Bytes))                            -- 493-501
  | lost (em : List (Bytes × Option Bytes))                             -- 505-516 no Synchronize follows
  | skip (em : List (Bytes × Option Bytes)) (offset : Nat) (cmd : Elem) (paths : Option (List Table))   -- 517-524
  | async (k : Kind)                                                    -- 525-535
  | take (r : Proc) (step : Nat)                                        -- 551-556
  | next (r : Proc) (ready : Option Bytes) (offset : Nat) (cmd : Elem) (paths : List Table)  -- 557-577
  | last (r : Proc) (ready : Option Bytes) (offset : Nat)               -- 578-580
  deriving DecidableEq, Repr

/-- `r.type == READY_TYPE` and `r.xact_state` (559-560). -/
def readyState : Proc → Option Bytes
  | .elem (.ready d) => some d
  | _ => none

/-- xact3.py:485-580: the decision made by the loop body for message `x`. -/
def react (commands : List Elem) (offset step : Nat) (cmd : Elem) (paths : Option (List Table)) (x : Msg) :
    Except Err React :=
  match paths with
  | none => .error .typeError                                           -- `None[current_step]`
  | some tables => match tables[step]? with
    | none => .error .indexError
    | some t => match t.find x.1 with
      | none =>
        if x.1 = 69 then                                                -- Error.type
          match parseK .error x.2 with
          | .ok (.error em) => match dictGet em [83] with               -- em[b'S']
            | none => .error .keyError
            | some none => .error .attributeError
            | some (some sev) =>
              if sev.map upperB ≠ ERROR then .ok (.fatal em)
              else if cmd.kind.typ = some 70 ∨ cmd.kind.typ = some 81 then
                match commands[offset]? with
                | none => .error .indexError
                | some c => match hookOf c with
                  | none => .error .keyError
                  | some p => .ok (.skip em offset c p)
              else match findSync (commands.drop offset) offset with
                | none => .ok (.lost em)
                | some o => match commands[o]? with
                  | none => .error .indexError
                  | some c => match hookOf c with
                    | none => .error .keyError
                    | some p => .ok (.skip em o c p)
          | .ok _ => .error .typeError
          | .error e => .error e
        else match asyncKind x.1 with
          | some k => .ok (.async k)
          | none => .ok (.violation (t.map (·.1)))
      | some (path, nextStep) => match path.call x.2 with
        | .error e => .error e
        | .ok r => match nextStep with
          | some n => .ok (.take r n)
          | none => match advance (commands.drop (offset + 1)) (offset + 1) with
            | .error e => .error e
            | .ok (o, none) => .ok (.last r (readyState r) o)
            | .ok (o, some (c, p)) => .ok (.next r (readyState r) o c p)

/-- xact3.py:525-535: an asynchronous message is given to the hook unless an equal one of the same batch was. -/
def handleAsync (s : Inst) (k : Kind) (x : Msg) : Except Err Inst :=
  if x ∈ s.asyncs then .ok s
  else match parseK k x.2 with
    | .ok m => .ok { s with hookCalls := s.hookCalls ++ [m], asyncs := s.asyncs ++ [x] }
    | .error e => .error e

/-- How the loop ended: `early` is one of the `return count` statements inside it. -/
structure Done where
  early : Bool
  loc : Loc
  deriving DecidableEq, Repr

/-- `self.last_ready = r.xact_state` when there is one. -/
def setReady (s : Inst) : Option Bytes → Inst
  | none => s
  | some d => { s with lastReady := some d }

/-- xact3.py:485-580: the loop over the messages of the batch. -/
def loop (s : Inst) (l : Loc) : List Msg → Inst × Except Err Done
  | [] => (s, .ok ⟨false, l⟩)
  | x :: xs =>
    let l := { l with count := l.count + 1 }
    match react s.commands l.offset l.step l.cmd l.paths x with
    | .error e => (s, .error e)
    | .ok (.violation ex) =>
      ({ s with fatal := some true, errorMessage := some (.violation ex x.1), state := .complete }, .ok ⟨true, l⟩)
    | .ok (.fatal em) =>
      ({ s with fatal := some true, errorMessage := some (.server em), state := .complete }, .ok ⟨true, l⟩)
    | .ok (.lost em) =>
      ({ s with fatal := some false, errorMessage := some (.server em), state := .complete }, .ok ⟨true, l⟩)
    | .ok (.skip em o c p) =>
      loop { s with fatal := some false, errorMessage := some (.server em) }
        { l with offset := o, cmd := c, paths := p, step := 0 } xs
    | .ok (.async k) => match handleAsync s k x with
      | .error e => (s, .error e)
      | .ok s => loop s l xs
    | .ok (.take r n) => loop s { l with processed := l.processed ++ [r], step := n } xs
    | .ok (.next r rd o c p) =>
      loop (setReady s rd) { l with processed := l.processed ++ [r], step := 0, offset := o, cmd := c, paths := some p } xs
    | .ok (.last r rd o) =>
      (setReady s rd, .ok ⟨false, { l with processed := l.processed ++ [r], step := 0, offset := o, paths := none }⟩)

/-- xact3.py:584-585: push the processed messages unless this batch was already pushed. -/
def pushCompleted (c : List (Nat × List Proc)) (id : Nat) (p : List Proc) : List (Nat × List Proc) :=
  if (c.getLast?.map (·.1)) = some id then c else c ++ [(id, p)]

/-- xact3.py:590-614: the state switch at the end of `standard_put`. -/
def switchState (s : Inst) (l : Loc) : Inst :=
  if l.offset = s.commands.length then { s with state := .complete }
  else if l.cmd.kind.typ = some 69 ∨ l.cmd.kind.typ = some 81 then
    match l.processed.getLast? with
    | none => s
    | some (.raw _) => { s with state := .receiving .putCopydata }
    | some (.elem (.tuple _)) => { s with state := .receiving .putTupledata }
    | some (.elem (.copyFromBegin _ _)) =>
      { s with copyTail := s.commands.drop (l.offset + 1), state := .sending .sentFromStdin }
    | some (.elem (.copyToBegin _ _)) => { s with state := .receiving .putCopydata }
    | some (.elem _) => s
  else s

/-- xact3.py:473-479: where to start, and whether the record of asynchronous messages is cleared. -/
def startPos (s : Inst) (b : Batch) : Pos := if b.id = s.lastId then s.last1 else s.last2

/-- xact3.py:473-483: the set up of `standard_put`. -/
def startLoop (s : Inst) (b : Batch) : Inst × Except Err Loc :=
  let p := startPos s b
  let s := if b.id = s.lastId then s else { s with asyncs := [] }
  match s.commands[p.offset]? with
  | none => (s, .error .indexError)
  | some c => match hookOf c with
    | none => (s, .error .keyError)
    | some t => (s, .ok ⟨p.offset, p.step, c, t, [], 0⟩)

/-- xact3.py:582-615: what `standard_put` does after its loop ended without returning. -/
def finish (s : Inst) (b : Batch) (l : Loc) : Inst :=
  let s := { s with completed := pushCompleted s.completed b.id l.processed }
  let s := { s with lastId := b.id, last1 := s.last2, last2 := ⟨l.offset, l.step⟩ }
  switchState s l

/-- xact3.py:454-615 `standard_put`. -/
def standardPut (s : Inst) (b : Batch) : Inst × Except Err Nat :=
  match startLoop s b with
  | (s, .error e) => (s, .error e)
  | (s, .ok l) => match loop s l b.msgs with
    | (s, .error e) => (s, .error e)
    | (s, .ok ⟨true, l⟩) => (s, .ok l.count)
    | (s, .ok ⟨false, l⟩) => (finish s b l, .ok l.count)

/-- Parse every row of a batch: `[p(x[1]) for x in messages if x[0] == t]` (671). -/
def parseRows : List Msg → Except Err (List Proc)
  | [] => .ok []
  | x :: xs =>
    if x.1 = 68 then
      match parseK .tuple x.2 with
      | .error e => .error e
      | .ok m => match parseRows xs with
        | .error e => .error e
        | .ok r => .ok (.elem m :: r)
    else parseRows xs

/-- The common tail of the fast paths (635-638, 676-679). -/
def fastPush (s : Inst) (b : Batch) (p : List Proc) : Inst × Except Err Nat :=
  ({ s with completed := pushCompleted s.completed b.id p, lastId := b.id, last1 := s.last2, last2 := s.last2 },
   .ok b.msgs.length)

/-- xact3.py:617-638 `put_copydata`. -/
def putCopydata (s : Inst) (b : Batch) : Inst × Except Err Nat :=
  match b.msgs.getLast? with
  | none => (s, .error .indexError)
  | some x =>
    let lines := (b.msgs.filter (fun x => x.1 = 100)).map (fun x => Proc.raw x.2)
    if x.1 ≠ 100 ∨ lines.length ≠ b.msgs.length then standardPut { s with state := .receiving .standardPut } b
    else fastPush s b lines

/-- xact3.py:657-679 `put_tupledata`.  Line 667 compares the type with `is not`: the message types are interned one-byte
strings (pbuffer.py / message_types), so identity is equality. -/
def putTupledata (s : Inst) (b : Batch) : Inst × Except Err Nat :=
  match b.msgs.getLast? with
  | none => (s, .error .indexError)
  | some x =>
    if x.1 ≠ 68 then standardPut { s with state := .receiving .standardPut } b
    else match parseRows b.msgs with
      | .error e => (s, .error e)
      | .ok rows =>
        if rows.length ≠ b.msgs.length then standardPut { s with state := .receiving .standardPut } b
        else fastPush s b rows

/-- `state[1](messages)` in a receiving state; other states do not receive (client3.py:411-429, 455-465). -/
def deliver (s : Inst) (b : Batch) : Inst × Except Err Nat :=
  match s.state with
  | .receiving .standardPut => standardPut s b
  | .receiving .putCopydata => putCopydata s b
  | .receiving .putTupledata => putTupledata s b
  | _ => (s, .error .runtimeError)

/-- xact3.py:681-716 `standard_sent` and `sent_from_stdin`: `state[1]()` in a sending state. -/
def sent (s : Inst) : Inst :=
  match s.state with
  | .sending .standardSent => { s with messages := .empty, state := .receiving .standardPut }
  | .sending .sentFromStdin =>
    if s.messages = .copyDone ∨ s.messages = .copyFail then
      { s with messages := .empty, state := .receiving .standardPut }
    else { s with messages := .copyFail }
  | _ => s

/-- The items put on the wire for `messages` (`cat_messages`, client3.py:417, 464). -/
def outItems (s : Inst) : List Item :=
  match s.messages with
  | .commands => s.commands.map .msg
  | .empty => []
  | .copyDone => (Elem.empty .copyDone :: s.copyTail).map .msg                              -- 609-610
  | .copyFail => (Elem.str .copyFail [105, 110, 118, 97, 108, 105, 100, 32, 116, 101, 114, 109, 105, 110, 97, 116, 105, 111,
      110] :: s.copyTail).map .msg                                                          -- 287, 607-608
  | .data l => l

/-- xact3.py:436-440 `messages_received`. -/
def messagesReceived (s : Inst) : List Proc := s.completed.flatMap (·.2)

end PG.Xact3
