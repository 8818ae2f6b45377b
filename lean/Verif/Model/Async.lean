import Verif.Spec.Xact
import Verif.Model.Encodings
import Verif.Model.Messages
/-!
# Model of `Connection._receive_async` (pq3.py:2638-2663) and of what gives it messages

A protocol transaction calls its hook with every asynchronous message (`Model/Xact3`, `hookCalls`).  Here is what the connection does with them: parameter changes go to the encoding
and to the settings, notices are emitted, notifications are kept in `_notifies`.  Not modelled: the creator of a notice (`_controller`), so the hooks a message finds are given by the world;
exceptions that are not an `Exception`.
-/
namespace PG.Async
open PG PG.PyStr PG.Element3 PG.Xact3 PG.Encodings PG.Messages

/-- Python and the user's code: `codecs.lookup`, the codecs, `str.upper`, the message hooks a message finds on the way, and which callbacks raise when called with a setting. -/
structure World (C : Type) where
  U : Unicode
  lookup : Str → Option C
  decode : C → Bytes → Option Str
  upper : Str → Str
  hooks : Obj → List (Option Hook)
  raises : Nat → Str → Str → Bool

/-- The exceptions of the hook: of `bytes.decode`, `codecs.lookup`, a callback, a message hook, or another one. -/
inductive Exn where
  | undecodable | noCodec | callback | msghook
  | py (e : Err)
  deriving DecidableEq, Repr

/-- The connection: the encoding in use, `settings.cache`, `settings._subscriptions`, the callbacks called, the messages emitted (and what happened to them), `_notifies`,
and the exceptions given to `sys.excepthook`; the records with the oldest first. -/
structure Db (C : Type) where
  coding : Coding C
  cache : List (Str × Str) := []
  subs : List (Option Str × List Nat) := []
  calls : List (Nat × Str × Str) := []
  notices : List (Obj × Emitted) := []
  notifies : List Elem := []
  reported : List Exn := []

variable {C : Type}

/-- `value.decode('ascii')`. -/
def asciiDecode (b : Bytes) : Option Str := if b.all (· < 128) then some (b.map fun x => Char.ofNat x.toNat) else none

/-- pq3.py:2062-2066: the callbacks, up to the first that raises. -/
def callAll (w : World C) (k v : Str) : List Nat → List (Nat × Str × Str) × Bool
  | [] => ([], false)
  | f :: fs => if w.raises f k v then ([(f, k, v)], true) else ((f, k, v) :: (callAll w k v fs).1, (callAll w k v fs).2)

/-- pq3.py:2057-2067 `Settings._notify`. -/
def notify (w : World C) (db : Db C) (name value : Bytes) : Db C × Option Exn :=
  match w.decode db.coding.codec name with
  | none => (db, some .undecodable)
  | some k => match w.decode db.coding.codec value with
    | none => (db, some .undecodable)
    | some v => match callAll w k v ((PyDict.get (some k) db.subs).getD [] ++ (PyDict.get none db.subs).getD []) with
      | (calls, true) => ({ db with calls := db.calls ++ calls }, some .callback)
      | (calls, false) => ({ db with calls := db.calls ++ calls, cache := PyDict.set k v db.cache }, none)

/-- `b'client_encoding'` (pq3.py:2647). -/
def CLIENT_ENCODING : Bytes := [99, 108, 105, 101, 110, 116, 95, 101, 110, 99, 111, 100, 105, 110, 103]

/-- pq3.py:2647-2648: the encoding follows. -/
def follow (w : World C) (db : Db C) (name value : Bytes) : Db C × Option Exn :=
  if name = CLIENT_ENCODING then
    match asciiDecode value with
    | none => (db, some .undecodable)
    | some v => match setEncoding w.U w.lookup db.coding v with
      | (c, true) => ({ db with coding := c }, none)
      | (c, false) => ({ db with coding := c }, some .noCodec)
  else (db, none)

/-- pq3.py:2638-2663 `_receive_async`.  The last case does not occur: only these three kinds are given to it. -/
def receive (w : World C) (db : Db C) : Elem → Db C × Option Exn
  | .showOption name value => match follow w db name value with
    | (db, some e) => (db, some e)
    | (db, none) => notify w db name value
  | .notice fields => match serverMessage (w.decode db.coding.codec) w.upper fields with
    | .error e => (db, some (.py e))
    | .ok m =>
      ({ db with notices := db.notices ++ [(m, emit 0 [] (w.hooks m))] }, if (emit 0 [] (w.hooks m)).raised then some .msghook else none)
  | .notify pid channel payload => ({ db with notifies := db.notifies ++ [.notify pid channel payload] }, none)
  | _ => (db, none)

/-- xact3.py:528-533: an exception of the hook is given to `sys.excepthook`. -/
def hooked (w : World C) (db : Db C) (m : Elem) : Db C :=
  match receive w db m with
  | (db, none) => db
  | (db, some e) => { db with reported := db.reported ++ [e] }

/-- The hook a transaction was made with: the connection's (pq3.py:666, 1507, 1677, 1745, 1810, 2314), or the one by default, which does nothing (xact3.py:397; client3.py:379). -/
inductive HookOf where | database | returnArg
  deriving DecidableEq, Repr

/-- The calls of the hook. -/
def called (w : World C) (h : HookOf) (db : Db C) (es : List Elem) : Db C :=
  match h with
  | .database => es.foldl (hooked w) db
  | .returnArg => db

/-- A transaction receives these batches (client3.py:411-421, 455-457): the transaction, what came of it, and the connection. -/
def serve (w : World C) (h : HookOf) (db : Db C) (s : Inst) (bs : List Batch) : Inst × Except Err Nat × Db C :=
  match Spec.Xact.feed s bs with
  | (a, r, _) => (a, r, called w h db (a.hookCalls.drop s.hookCalls.length))

/-- client3.py:365-380: the transaction of `take_out_trash`. -/
def closing (cursors statements : List Bytes) : List Elem := cursors.map (Elem.str .closePortal) ++ statements.map (Elem.str .closeStatement) ++ [.empty .synchronize]

/-- pq3.py:2519-2522: what the server said before the connection was ready; exceptions are not caught. -/
def greeted (w : World C) (db : Db C) : List Elem → Db C × Option Exn
  | [] => (db, none)
  | m :: ms => if m.kind = .showOption then
      match receive w db m with
      | (db, none) => greeted w db ms
      | (db, some e) => (db, some e)
    else greeted w db ms

end PG.Async
