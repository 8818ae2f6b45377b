import Verif.Model.Struct
/-!
# Model of `postgresql/protocol/element3.py`: message elements

Each class becomes a constructor of `Elem`; `serialize` and the per-class `parse` follow the Python methods.  Integers are
Python ints (`Int`), so the range checks of `struct` are part of the model.  Not modelled: `__repr__`, `WireMessage`
(its `serialize` refers to `self[1]`, which does not exist), `ClientNotice`/`ClientError` (they refuse to serialize).
-/
namespace PG.Element3
open PG

/-- element3.py:17-27 `pack_tuple_data` (also 42-47). -/
def packTupleData : List (Option Bytes) → Except Err Bytes
  | [] => .ok []
  | none :: r => do
    let t ← packTupleData r
    return nullSeq ++ t
  | some x :: r => do
    let h ← ulongPack x.length
    let t ← packTupleData r
    return h ++ x ++ t

/-- Pack a list of numbers with a given pack function: `b''.join([pack(x) for x in l])`. -/
def packAll (f : Int → Except Err Bytes) : List Int → Except Err Bytes
  | [] => .ok []
  | x :: r => do
    let h ← f x
    let t ← packAll f r
    return h ++ t

/-- `struct.unpack('!%dL' % n, b)` / `'!%dH'`: `n` unsigned fields of `k` bytes from exactly `n*k` bytes (the callers check
the length first). -/
def unpackAllU (k : Nat) : Nat → Bytes → List Int
  | 0, _ => []
  | n + 1, b => (beDec (b.take k) : Int) :: unpackAllU k n (b.drop k)

/-- element3.py:768 `unpack("2s" * n, b)`: exactly `2*n` bytes are needed. -/
def unpack2s : Nat → Bytes → Except Err (List Bytes)
  | 0, [] => .ok []
  | n + 1, a :: b :: r => do
    let t ← unpack2s n r
    return [a, b] :: t
  | _, _ => .error .structError

/-- element3.py:494-506 = 774-786 = 907-919: the attribute loop of `Tuple.parse`, `Bind.parse`, `Function.parse`.
Returns the attributes and the final offset. -/
def attLoop (data : Bytes) : Nat → Nat → Except Err (List (Option Bytes) × Nat)
  | 0, offset => .ok ([], offset)
  | natts + 1, offset =>
    let size := slice data offset (offset + 4)
    let offset := offset + 4
    if size = nullSeq then do
      let (l, o) ← attLoop data natts offset
      return (none :: l, o)
    else do
      let al ← ulongUnpack size
      let att := slice data offset (offset + al.toNat)
      let (l, o) ← attLoop data natts (offset + al.toNat)
      return (some att :: l, o)

/-- A column of a row description: name, relation oid, column number, type oid, type length, type modifier, format
(element3.py:445 struct "!LhLhlh"). -/
structure ColDesc where
  name : Bytes
  relId : Int
  colNum : Int
  typId : Int
  typLen : Int
  typMod : Int
  fmt : Int
  deriving DecidableEq, Repr

/-- element3.py:453: `x[0] + b'\x00' + struct.pack(*x[1:])`. -/
def packCol (c : ColDesc) : Except Err Bytes := do
  let a ← packU 4 c.relId
  let b ← packS 2 c.colNum
  let d ← packU 4 c.typId
  let e ← packS 2 c.typLen
  let f ← packS 4 c.typMod
  let g ← packS 2 c.fmt
  return c.name ++ [0] ++ (a ++ b ++ d ++ e ++ f ++ g)

/-- element3.py:452: the joined column data. -/
def packCols : List ColDesc → Except Err Bytes
  | [] => .ok []
  | c :: r => do
    let h ← packCol c
    let t ← packCols r
    return h ++ t

/-- element3.py:463-471: the loop of `TupleDescriptor.parse`. -/
def parseCols : Nat → Bytes → Except Err (List ColDesc)
  | 0, _ => .ok []
  | n + 1, data =>
    match breakOn 0 data with
    | (_, none) => .error .valueError       -- `data.index` raises ValueError
    | (name, some data) => do
      let d := data.take 18
      if d.length ≠ 18 then throw .structError
      let a ← unpackU 4 (slice d 0 4)
      let b ← unpackS 2 (slice d 4 6)
      let c ← unpackU 4 (slice d 6 10)
      let e ← unpackS 2 (slice d 10 12)
      let f ← unpackS 4 (slice d 12 16)
      let g ← unpackS 2 (slice d 16 18)
      let r ← parseCols n (data.drop 18)
      return ⟨name, a, b, c, e, f, g⟩ :: r

/-- The empty messages (EmptyMessage subclasses, element3.py:268-320, 670-695, 979-983). -/
inductive EmptyKind where
  | null | noData | parseComplete | bindComplete | closeComplete | suspension | disconnect | flush | synchronize | copyDone
  deriving DecidableEq, Repr

/-- StringMessage subclasses with the default `serialize`/`parse` (element3.py:663-668, 697-702, 975-977) and the
subtyped ones (834-840, 862-874). -/
inductive StrKind where
  | password | query | copyFail | describeStatement | describePortal | closeStatement | closePortal
  deriving DecidableEq, Repr

/-- All message elements. -/
inductive Elem where
  | notify (pid : Int) (channel payload : Bytes)                      -- element3.py:198-219
  | showOption (name value : Bytes)                                   -- 221-237
  | complete (data : Bytes)                                           -- 239-248
  | empty (k : EmptyKind)                                             -- 179-196
  | ready (xactState : Bytes)                                         -- 322-340
  | notice (fields : List (Bytes × Option Bytes))                     -- 342-365
  | error (fields : List (Bytes × Option Bytes))                      -- 377-382
  | functionResult (result : Option Bytes)                            -- 394-420
  | attributeTypes (oids : List Int)                                  -- 422-438
  | tupleDescriptor (cols : List ColDesc)                             -- 440-472
  | tuple (atts : List (Option Bytes))                                -- 474-507
  | killInformation (pid key : Int)                                   -- 514-531
  | cancelRequest (pid key : Int)                                     -- 533-555
  | negotiateSSL                                                      -- 557-580
  | startup (fields : List (Bytes × Option Bytes))                    -- 583-616
  | authentication (request : Int) (salt : Bytes)                     -- 645-661
  | str (k : StrKind) (data : Bytes)                                  -- 93-120, 663-668, 697-702, 814-874, 975-977
  | parse (name statement : Bytes) (argtypes : List Int)              -- 704-730
  | bind (name statement : Bytes) (aformats : List Bytes) (arguments : List (Option Bytes)) (rformats : List Bytes) -- 732-793
  | execute (name : Bytes) (max : Int)                                -- 795-812
  | function (oid : Int) (aformats : List Bytes) (arguments : List (Option Bytes)) (rformat : Bytes) -- 876-921
  | copyToBegin (format : Int) (formats : List Int)                   -- 923-952
  | copyFromBegin (format : Int) (formats : List Int)                 -- 954-959
  | copyData (data : Bytes)                                           -- 961-973
  deriving DecidableEq, Repr

/-- Which class an element belongs to (to select the `parse` classmethod). -/
inductive Kind where
  | notify | showOption | complete | empty (k : EmptyKind) | ready | notice | error | functionResult | attributeTypes
  | tupleDescriptor | tuple | killInformation | cancelRequest | negotiateSSL | startup | authentication | str (k : StrKind)
  | parse | bind | execute | function | copyToBegin | copyFromBegin | copyData
  deriving DecidableEq, Repr

/-- The class of an element. -/
def Elem.kind : Elem → Kind
  | .notify .. => .notify | .showOption .. => .showOption | .complete .. => .complete | .empty k => .empty k
  | .ready .. => .ready | .notice .. => .notice | .error .. => .error | .functionResult .. => .functionResult
  | .attributeTypes .. => .attributeTypes | .tupleDescriptor .. => .tupleDescriptor | .tuple .. => .tuple
  | .killInformation .. => .killInformation | .cancelRequest .. => .cancelRequest | .negotiateSSL => .negotiateSSL
  | .startup .. => .startup | .authentication .. => .authentication | .str k _ => .str k | .parse .. => .parse
  | .bind .. => .bind | .execute .. => .execute | .function .. => .function | .copyToBegin .. => .copyToBegin
  | .copyFromBegin .. => .copyFromBegin | .copyData .. => .copyData

/-- The type byte of the empty messages (element3.py:272, 281, 290, 299, 308, 317, 674, 683, 692, 980). -/
def EmptyKind.typ : EmptyKind → UInt8
  | .null => 73 | .noData => 110 | .parseComplete => 49 | .bindComplete => 50 | .closeComplete => 51
  | .suspension => 115 | .disconnect => 88 | .flush => 72 | .synchronize => 83 | .copyDone => 99

/-- The type byte of the string messages (element3.py:667, 701, 976, 818, 846). -/
def StrKind.typ : StrKind → UInt8
  | .password => 112 | .query => 81 | .copyFail => 102
  | .describeStatement => 68 | .describePortal => 68 | .closeStatement => 67 | .closePortal => 67

/-- The subtype prefix of `Describe*`/`Close*` (element3.py:835, 839, 866, 873). -/
def StrKind.subtype : StrKind → Bytes
  | .describeStatement => [83] | .describePortal => [80] | .closeStatement => [83] | .closePortal => [80]
  | _ => []

/-- `type` class attribute; `none` where it is `b''` (CancelRequest, NegotiateSSL, Startup). -/
def Kind.typ : Kind → Option UInt8
  | .notify => some 65 | .showOption => some 83 | .complete => some 67 | .empty k => some k.typ | .ready => some 90
  | .notice => some 78 | .error => some 69 | .functionResult => some 86 | .attributeTypes => some 116
  | .tupleDescriptor => some 84 | .tuple => some 68 | .killInformation => some 75 | .cancelRequest => none
  | .negotiateSSL => none | .startup => none | .authentication => some 82 | .str k => some k.typ | .parse => some 80
  | .bind => some 66 | .execute => some 69 | .function => some 70 | .copyToBegin => some 72 | .copyFromBegin => some 71
  | .copyData => some 100

/-- version.py:34-35, 44-47 `Version.bytes`: "!HH". -/
def versionBytes (major minor : Nat) : Bytes := beEnc 2 major ++ beEnc 2 minor
/-- element3.py:538-539. -/
def cancelCode : Bytes := versionBytes 1234 5678
/-- element3.py:562-563. -/
def sslCode : Bytes := versionBytes 1234 5679
/-- element3.py:588-589. -/
def v3Code : Bytes := versionBytes 3 0

/-- element3.py:353-357 `Notice.serialize`: the joined fields with non-empty keys and values that are not None. -/
def noticeFields (fs : List (Bytes × Option Bytes)) : List Bytes :=
  fs.filterMap fun (k, v) => match v with
    | some v => if k = [] then none else some (k ++ v)
    | none => none

/-- element3.py:594-598: the items of `Startup.serialize`. -/
def startupItems (fs : List (Bytes × Option Bytes)) : Bytes :=
  fs.flatMap fun (k, v) => match v with
    | some v => k ++ [0] ++ v ++ [0]
    | none => []

/-- The `serialize` methods. -/
def serialize : Elem → Except Err Bytes
  | .notify pid ch pl => do                                     -- 210-213
    let p ← ulongPack pid
    return p ++ ch ++ [0] ++ pl ++ [0]
  | .showOption n v => .ok (n ++ [0] ++ v ++ [0])               -- 232-233
  | .complete d => .ok (d ++ [0])                               -- 113-114
  | .empty _ => .ok []                                          -- 189-190
  | .ready d => .ok d                                           -- 339-340
  | .notice fs => .ok (joinWith [0] (noticeFields fs) ++ [0])   -- 353-357
  | .error fs => .ok (joinWith [0] (noticeFields fs) ++ [0])
  | .functionResult none => .ok nullSeq                         -- 404-406
  | .functionResult (some d) => do
    let h ← ulongPack d.length
    return h ++ d
  | .attributeTypes l => do                                     -- 429-430
    let h ← ushortPack l.length
    let t ← packAll ulongPack l
    return h ++ t
  | .tupleDescriptor cs => do                                   -- 451-455
    let h ← ushortPack cs.length
    let t ← packCols cs
    return h ++ t
  | .tuple atts => do                                           -- 481-482
    let h ← ushortPack atts.length
    let t ← packTupleData atts
    return h ++ t
  | .killInformation pid key => do                              -- 526-527
    let a ← packU 4 pid
    let b ← packU 4 key
    return a ++ b
  | .cancelRequest pid key => do                                -- 542-545
    let a ← packU 4 pid
    let b ← packU 4 key
    return cancelCode ++ (a ++ b)
  | .negotiateSSL => .ok sslCode                                -- 573-574
  | .startup fs => .ok (v3Code ++ startupItems fs ++ [0])       -- 593-598
  | .authentication r salt => do                                -- 656-657
    let h ← ulongPack r
    return h ++ salt
  | .str k d => .ok (k.subtype ++ d ++ [0])                     -- 113-114, 821-822, 849-850
  | .parse n s ats => do                                        -- 726-730
    let ac ← ushortPack ats.length
    let t ← packAll ulongPack ats
    return n ++ [0] ++ s ++ [0] ++ ac ++ t
  | .bind n s afs args rfs => do                                -- 754-761
    let ac ← ushortPack args.length
    let ad ← packTupleData args
    let rc ← ushortPack rfs.length
    return n ++ [0] ++ s ++ [0] ++ ac ++ afs.flatten ++ ac ++ ad ++ rc ++ rfs.flatten
  | .execute n m => do                                          -- 806-807
    let h ← ulongPack m
    return n ++ [0] ++ h
  | .function oid afs args rf => do                             -- 889-893
    let ac ← ushortPack args.length
    let o ← ulongPack oid
    let ad ← packTupleData args
    return o ++ ac ++ afs.flatten ++ ac ++ ad ++ rf
  | .copyToBegin f fs => do                                     -- 932-935
    let a ← packU 1 f
    let b ← packU 2 fs.length
    let t ← packAll ushortPack fs
    return a ++ b ++ t
  | .copyFromBegin f fs => do
    let a ← packU 1 f
    let b ← packU 2 fs.length
    let t ← packAll ushortPack fs
    return a ++ b ++ t
  | .copyData d => .ok d                                        -- 968-969

/-- `data.rstrip(b'\x00')`. -/
def rstrip0 (d : Bytes) : Bytes := (d.reverse.dropWhile (· == 0)).reverse

/-- element3.py:362-364: one NUL-separated piece: `(msgtypes[x[0]], x[1:])`, empty pieces are dropped. -/
def noticeField : Bytes → Option (Bytes × Option Bytes)
  | [] => none
  | c :: v => some ([c], some v)

/-- element3.py:360-365 `Notice.parse`. -/
def parseNotice (d : Bytes) : List (Bytes × Option Bytes) := dictOf ((splitAll 0 d).filterMap noticeField)

/-- element3.py:608-615: the pairing loop of `Startup.parse`. -/
def startupPairs (kw : List (Bytes × Option Bytes)) (key : Option Bytes) : List Bytes → List (Bytes × Option Bytes)
  | [] => kw
  | v :: r => match key with
    | none => startupPairs kw (some v) r
    | some k => startupPairs (dictSet kw k (some v)) none r

/-- The `parse` classmethods. -/
def parseK : Kind → Bytes → Except Err Elem
  | .notify, data => do                                          -- 216-219
    let pid ← ulongUnpack data
    match splitMax 0 2 (data.drop 4) with
    | [ch, pl, _] => return .notify pid ch pl
    | _ => throw .valueError                                     -- unpacking needs exactly three
  | .showOption, data =>                                         -- 236-237
    match (splitMax 0 2 data).take 2 with
    | [n, v] => .ok (.showOption n v)
    | _ => .error .typeError                                     -- missing constructor argument
  | .complete, data => .ok (.complete (rstrip0 data))            -- 247-248
  | .empty k, data => if data = [] then .ok (.empty k) else .error .valueError   -- 193-196
  | .ready, data =>                                              -- 90-91, 334-337
    if data = [73] ∨ data = [69] ∨ data = [84] then .ok (.ready data) else .error .valueError
  | .notice, data => .ok (.notice (parseNotice data))
  | .error, data => .ok (.error (parseNotice data))
  | .functionResult, data =>                                     -- 409-420
    if data = nullSeq then .ok (.functionResult none)
    else do
      let size ← ulongUnpack (data.take 4)
      let d := data.drop 4
      if size ≠ d.length then throw .valueError
      return .functionResult (some d)
  | .attributeTypes, data => do                                  -- 433-438
    let ac ← ushortUnpack (data.take 2)
    let args := data.drop 2
    if (args.length : Int) ≠ ac * 4 then throw .valueError
    return .attributeTypes (unpackAllU 4 ac.toNat args)
  | .tupleDescriptor, data => do                                 -- 458-472
    let ac ← ushortUnpack (data.take 2)
    let cs ← parseCols ac.toNat (data.drop 2)
    return .tupleDescriptor cs
  | .tuple, data => do                                           -- 485-507
    let natts ← ushortUnpack (data.take 2)
    let (l, _) ← attLoop data natts.toNat 2
    return .tuple l
  | .killInformation, data =>                                    -- 530-531 (struct.unpack: exactly 8 bytes)
    if data.length ≠ 8 then .error .structError
    else .ok (.killInformation (beDec (data.take 4)) (beDec (data.drop 4)))
  | .cancelRequest, data =>                                      -- 552-555
    if data.take 4 ≠ cancelCode then .error .valueError
    else if (data.drop 4).length ≠ 8 then .error .structError
    else .ok (.cancelRequest (beDec ((data.drop 4).take 4)) (beDec ((data.drop 4).drop 4)))
  | .negotiateSSL, data => if data ≠ sslCode then .error .valueError else .ok .negotiateSSL   -- 577-580
  | .startup, data =>                                            -- 605-616
    if data.take 4 ≠ v3Code then .error .indexError              -- "{1}".format(one argument) raises IndexError
    else
      let parts := splitAll 0 (data.drop 4)
      .ok (.startup (startupPairs [] none (parts.take (parts.length - 2))))
  | .authentication, data => do                                  -- 660-661
    let r ← ulongUnpack (data.take 4)
    return .authentication r (data.drop 4)
  | .str k, data =>                                              -- 117-120, 825-832, 853-860
    if data.take k.subtype.length ≠ k.subtype then .error .valueError
    else
      let d := data.drop k.subtype.length
      if d.getLast? ≠ some 0 then .error .valueError
      else .ok (.str k d.dropLast)
  | .parse, data =>                                              -- 717-724
    match splitMax 0 2 data with
    | [name, statement, args] => do
      let ac ← ushortUnpack (args.take 2)
      let args := args.drop 2
      if (args.length : Int) ≠ ac * 4 then throw .valueError
      return .parse name statement (unpackAllU 4 ac.toNat args)
    | _ => .error .valueError
  | .bind, msg =>                                                -- 764-793
    match splitMax 0 2 msg with
    | [name, statement, data] => do
      let ac ← ushortUnpack (data.take 2)
      let offset := 2 + 2 * ac.toNat
      let afs ← unpack2s ac.toNat (slice data 2 offset)
      let natts ← ushortUnpack (slice data offset (offset + 2))
      let offset := offset + 2
      let (args, offset) ← attLoop data natts.toNat offset
      let rfc ← ushortUnpack (slice data offset (offset + 2))
      let ao := offset + 2
      let rfs ← unpack2s rfc.toNat (slice data ao (ao + 2 * rfc.toNat))
      return .bind name statement afs args rfs
    | _ => .error .valueError
  | .execute, data =>                                            -- 810-812
    match splitMax 0 1 data with
    | [name, mx] => do
      let m ← ulongUnpack mx
      return .execute name m
    | _ => .error .valueError
  | .function, data => do                                        -- 896-921
    let oid ← ulongUnpack (data.take 4)
    let ac ← ushortUnpack (slice data 4 6)
    let offset := 6 + 2 * ac.toNat
    let afs ← unpack2s ac.toNat (slice data 6 offset)
    let natts ← ushortUnpack (slice data offset (offset + 2))
    let offset := offset + 2
    let (args, offset) ← attLoop data natts.toNat offset
    return .function oid afs args (data.drop offset)
  | .copyToBegin, data => do                                     -- 938-945
    let (f, fs) ← copyBegin data
    return .copyToBegin f fs
  | .copyFromBegin, data => do
    let (f, fs) ← copyBegin data
    return .copyFromBegin f fs
  | .copyData, data => .ok (.copyData data)                      -- 972-973
where
  /-- element3.py:938-945 `CopyBegin.parse`. -/
  copyBegin (data : Bytes) : Except Err (Int × List Int) := do
    if (data.take 3).length ≠ 3 then throw .structError
    let f := beDec (data.take 1)
    let natts := beDec (slice data 1 3)
    let s := data.drop 3
    if s.length ≠ natts * 2 then throw .valueError
    return ((f : Int), unpackAllU 2 natts s)

/-- element3.py:85-87 `Message.bytes` (and 547-549, 569-571, 600-602 for the untyped start-up messages). -/
def msgBytes (m : Elem) : Except Err Bytes := do
  let data ← serialize m
  let l ← packU 4 (data.length + 4)
  match m.kind.typ with
  | some t => return t :: (l ++ data)
  | none => return l ++ data

/-- What `cat_messages` is given: message objects, raw `bytes` (COPY lines), `tuple`s (rows), and the `Void` message. -/
inductive Item where
  | msg (m : Elem)
  | raw (d : Bytes)
  | row (t : List (Option Bytes))
  | void
  deriving DecidableEq, Repr

/-- element3.py:34-62: one item of `cat_messages`; `Void.bytes` is empty (element3.py:143-144). -/
def itemBytes : Item → Except Err Bytes
  | .msg m => msgBytes m
  | .raw d => do
    let l ← longPack (d.length + 4)
    return 100 :: (l ++ d)
  | .row t => do
    let r ← packTupleData t
    let h ← packS 4 (r.length + 6)
    let c ← packU 2 t.length
    return 68 :: (h ++ c ++ r)
  | .void => .ok []

/-- element3.py:50-62 `cat_messages`. -/
def catMessages : List Item → Except Err Bytes
  | [] => .ok []
  | x :: r => do
    let h ← itemBytes x
    let t ← catMessages r
    return h ++ t

end PG.Element3
