import Verif.Model.Async
/-!
# Specification of C76: the asynchronous messages of what was received, and the settings they report
-/
namespace PG.Spec.Async
open PG PG.Element3 PG.Xact3 PG.Spec.Xact PG.Async

/-- An asynchronous message, parsed: a notice (`N`), a notification (`A`) or a parameter's status (`S`). -/
def parsed (x : Msg) : Option Elem :=
  match (if x.1 = 78 then parseK .notice x.2 else if x.1 = 65 then parseK .notify x.2 else if x.1 = 83 then parseK .showOption x.2 else .error .valueError) with
  | .ok m => some m
  | .error _ => none

/-- The messages that were consumed, batch by batch: the first `n`. -/
def taken : Nat → List Batch → List (List Msg)
  | _, [] => []
  | n, b :: bs => b.msgs.take n :: taken (n - b.msgs.length) bs

/-- A list without repetitions: the first occurrences. -/
def firsts : List Msg → List Msg
  | [] => []
  | x :: xs => x :: (firsts xs).filter (· ≠ x)

/-- No two equal asynchronous messages in a batch. -/
def Distinct (bs : List Batch) : Prop := ∀ b ∈ bs, (asyncsOf b.msgs).Nodup

/-- The parameters reported by messages. -/
def options (es : List Elem) : List (Bytes × Bytes) := es.filterMap fun | .showOption n v => some (n, v) | _ => none

/-- Bytes read as ASCII. -/
def text (b : Bytes) : Str := b.map fun x => Char.ofNat x.toNat
def Ascii (b : Bytes) : Prop := ∀ x ∈ b, x < 128

/-- The value reported last for a parameter. -/
def lastValue (k : Bytes) (l : List (Bytes × Bytes)) : Option Bytes := ((l.filter fun e => e.1 = k).getLast?).map (·.2)

/-- The codecs agree with ASCII, and no callback raises. -/
structure Usual {C : Type} (w : World C) : Prop where
  ascii : ∀ c b, Ascii b → w.decode c b = some (text b)
  calm : ∀ f k v, w.raises f k v = false

/-- What is reported is ASCII, and Python has the encodings. -/
def Known {C : Type} (w : World C) (l : List (Bytes × Bytes)) : Prop :=
  ∀ e ∈ l, Ascii e.1 ∧ Ascii e.2 ∧ (e.1 = CLIENT_ENCODING → ∃ c, w.lookup (Encodings.codecName w.U (text e.2)) = some c)

/-- The callbacks subscribed for a parameter: by its name, and for all. -/
def subscribed {C : Type} (db : Db C) (k : Str) : List Nat := (PyDict.get (some k) db.subs).getD [] ++ (PyDict.get none db.subs).getD []

end PG.Spec.Async
