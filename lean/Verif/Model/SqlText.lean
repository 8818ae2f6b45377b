import Verif.Model.PgString
import Verif.Model.Cursor
/-!
# Model of the SQL text that `postgresql/driver/pq3.py` composes

Text is a list of characters; encoding it is elsewhere.  Not modelled: the text of error messages; `id` of a transaction (any text here).
-/
namespace PG.SqlText
open PG PG.PyStr PG.PgString

/-! ## Notifications -/

/-- An argument of `notify`: the name of a channel, or the name with a payload (a tuple). -/
inductive Notify where
  | channel (c : Str)
  | payload (c p : Str)
  deriving DecidableEq, Repr

/-- pq3.py:2674-2679, 2684-2685: one command. -/
def notifyOne : Notify → Str
  | .channel c => "NOTIFY \"".toList ++ double '"' c ++ ['"']
  | .payload c p => "NOTIFY \"".toList ++ double '"' c ++ "\",'".toList ++ double '\'' p ++ ['\'']

/-- `';'.join(...)`. -/
def joinSemi : List Str → Str
  | [] => []
  | [x] => x
  | x :: y :: l => x ++ ';' :: joinSemi (y :: l)

/-- pq3.py:2670-2690 `notify`: the text that is executed; the channels, then the keywords. -/
def notifyText (channels : List Notify) (keywords : List (Str × Str)) : Str :=
  (if channels = [] then [] else joinSemi (channels.map notifyOne) ++ [';']) ++
  (if keywords = [] then [] else joinSemi (keywords.map fun x => notifyOne (.payload x.1 x.2)) ++ [';'])

/-- pq3.py:2698-2716: the loop of `listen` and of `unlisten`; `none` is the ValueError for a name of more than 63 characters. -/
def listenWith (command : Str) (channels : List Str) : Option Str :=
  if channels.any (fun x => x.length > 63) then none else some (channels.flatMap fun x => "; ".toList ++ command ++ ' ' :: double '"' x)

/-- pq3.py:2698-2705 `listen`. -/
def listenText (channels : List Str) : Option Str := listenWith "LISTEN".toList channels

/-- pq3.py:2707-2714 `unlisten`. -/
def unlistenText (channels : List Str) : Option Str := listenWith "UNLISTEN".toList channels

/-! ## `do` -/

/-- pq3.py:2319-2324 `do`. -/
def doText (language source : Str) : Str := "DO ".toList ++ quoteLiteral source ++ " LANGUAGE ".toList ++ quoteIdent language ++ [';']

/-! ## Cursors -/

/-- pq3.py:656: `_quoted_cursor_id`. -/
def quotedCursor (id : Str) : Str := '"' :: (double '"' id ++ ['"'])

/-- pq3.py:79-97 `declare_statement_string`. -/
def declareText (cursor statement : Str) (insensitive scroll hold : Bool) : Str :=
  "DECLARE ".toList ++ cursor ++ (if insensitive then " INSENSITIVE".toList else []) ++ (if scroll then " SCROLL".toList else []) ++ " CURSOR".toList ++
    (if hold then " WITH HOLD".toList else " WITHOUT HOLD".toList) ++ " FOR ".toList ++ statement

/-- pq3.py:694-701: with the defaults. -/
def declareCursor (id statement : Str) : Str := declareText (quotedCursor id) statement true true true

/-- `str(n)` of an int. -/
def intText (n : Int) : Str := if n < 0 then '-' :: Nat.toDigits 10 n.natAbs else Nat.toDigits 10 n.natAbs

/-- pq3.py:715-723: the text of `_pq_xp_fetch`. -/
def fetchText (id : Str) (direction : Bool) (quantity : Option Int) : Str :=
  "FETCH ".toList ++ (if direction then "FORWARD ".toList else "BACKWARD ".toList) ++
    (match quantity with
    | none => "ALL IN ".toList ++ quotedCursor id
    | some n => intText n ++ " IN ".toList ++ quotedCursor id)

/-- pq3.py:731-735: the text of `_pq_xp_move`. -/
def moveText (id position whence : Str) : Str := "MOVE ".toList ++ whence ++ ' ' :: (position ++ " IN ".toList ++ quotedCursor id)

/-- `str(rwhence)`. -/
def whenceText : Cursor.Whence → Str
  | .absolute => "ABSOLUTE".toList
  | .relative => "RELATIVE".toList
  | .fromEnd => "FROM_END".toList
  | .forward => "FORWARD".toList
  | .backward => "BACKWARD".toList

/-- pq3.py:1188-1209: the commands for an offset. -/
def seekTexts (id : Str) (offset : Int) : Cursor.Whence → List Str
  | .absolute => [moveText id (intText offset) "ABSOLUTE".toList]
  | .fromEnd => [moveText id [] "LAST".toList, moveText id [] "NEXT".toList, moveText id (intText offset) "BACKWARD".toList]
  | w => if offset < 0 then [moveText id (intText (-offset)) "BACKWARD".toList] else [moveText id (intText offset) (whenceText w)]

/-- pq3.py:1160-1209 `seek`: the commands sent. -/
def seekCommands (id : Str) (dir : Bool) (offset : Int) (w : Cursor.Whence) : List Str :=
  seekTexts id (Cursor.directed dir (Cursor.turned offset w).1 (Cursor.turned offset w).2).1 (Cursor.directed dir (Cursor.turned offset w).1 (Cursor.turned offset w).2).2

/-- pq3.py:1169-1171, 1189-1192: the command of `seek('ALL', whence)`. -/
def seekAllText (id : Str) (dir : Bool) : Cursor.Whence → Str
  | .forward => moveText id "ALL".toList "FORWARD".toList
  | .backward => moveText id "ALL".toList "BACKWARD".toList
  | _ => moveText id "ALL".toList (if dir then "FORWARD".toList else "BACKWARD".toList)

/-- pq3.py:1143-1158: the commands of `read`. -/
def readCommands (id : Str) (dir : Bool) (quantity : Option Int) (direction : Option Bool) : List Str :=
  if quantity = some 0 then [] else [fetchText id (Cursor.whichWay dir direction) quantity]

/-! ## Transactions -/

/-- pq3.py:2158-2161: what `isolation` adds. -/
def isolationPart : Option Str → Str
  | some x => " ISOLATION LEVEL ".toList ++ x
  | none => []

/-- pq3.py:2162-2165: what `mode` adds. -/
def modePart : Option Str → Str
  | some x => ' ' :: x
  | none => []

/-- pq3.py:2156-2166 `_start_xact_string`; `none` is ValueError. -/
def startText (isolation mode : Option Str) : Option Str :=
  if (isolation.any fun x => x.contains ';') || (mode.any fun x => x.contains ';') then none
  else some ("START TRANSACTION".toList ++ isolationPart isolation ++ modePart mode ++ [';'])

/-- pq3.py:2169-2170 `_savepoint_xact_string`. -/
def savepointText (id : Str) : Str := "SAVEPOINT \"xact(".toList ++ double '"' id ++ ")\";".toList

/-- pq3.py:2207-2209 `_release_string`. -/
def releaseText (id : Str) : Str := "RELEASE \"xact(".toList ++ double '"' id ++ ")\";".toList

/-- pq3.py:2230-2231 `_rollback_to_string`. -/
def rollbackText (id : Str) : Str := "ROLLBACK TO \"xact(".toList ++ double '"' id ++ ")\"; RELEASE \"xact(".toList ++ double '"' id ++ ")\";".toList

end PG.SqlText
