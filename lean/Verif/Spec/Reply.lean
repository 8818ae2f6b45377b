import Verif.Spec.Xact
/-!
# What a server answers: the message flow of the PostgreSQL protocol, version 3

Written from the protocol's documentation, without reference to the tables in xact3.py: which sequences of messages answer a
command, and which answer a sequence of commands, with errors.  Asynchronous messages may appear anywhere and are left out
(`strip`).
-/
namespace PG.Spec.Reply
open PG PG.Element3 PG.Xact3 PG.Spec.Xact

/-- A well formed message of class `k`. -/
def Is (k : Kind) (x : Msg) : Prop := k.typ = some x.1 ∧ ∃ e, parseK k x.2 = .ok e

/-- A line of COPY data. -/
def IsLine (x : Msg) : Prop := x.1 = 100

/-- The commands a transaction can consist of (xact3.py:272-284). -/
def IsCommand : Elem → Prop
  | .str .query _ | .str .describeStatement _ | .str .describePortal _ | .str .closeStatement _ | .str .closePortal _ => True
  | .function .. | .parse .. | .bind .. | .execute .. => True
  | .empty .synchronize | .empty .flush => True
  | _ => False

/-- What one SQL statement of a simple query answers. -/
inductive Stmt : List Msg → Prop
  | command {x} : Is .complete x → Stmt [x]
  | null {x} : Is (.empty .null) x → Stmt [x]
  | rows {t rs x} : Is .tupleDescriptor t → (∀ r ∈ rs, Is .tuple r) → Is .complete x → Stmt (t :: rs ++ [x])
  | copyOut {h ls d x} : Is .copyToBegin h → (∀ r ∈ ls, IsLine r) → Is (.empty .copyDone) d → Is .complete x →
      Stmt (h :: ls ++ [d, x])
  | copyIn {g x} : Is .copyFromBegin g → Is .complete x → Stmt [g, x]

/-- What the server answers to a command that succeeds.
The alternative `queryCut` is not in the documentation: the client also accepts a result set without its completion tag. -/
inductive Ans : Elem → List Msg → Prop
  | query {q z} {ss : List (List Msg)} : (∀ s ∈ ss, Stmt s) → Is .ready z → Ans (.str .query q) (ss.flatten ++ [z])
  | queryCut {q t rs z} {ss : List (List Msg)} : (∀ s ∈ ss, Stmt s) → Is .tupleDescriptor t → (∀ r ∈ rs, Is .tuple r) → Is .ready z →
      Ans (.str .query q) (ss.flatten ++ (t :: rs) ++ [z])
  | function {o a b r v z} : Is .functionResult v → Is .ready z → Ans (.function o a b r) [v, z]
  | parse {n s a x} : Is (.empty .parseComplete) x → Ans (.parse n s a) [x]
  | bind {n s a b r x} : Is (.empty .bindComplete) x → Ans (.bind n s a b r) [x]
  | describeRow {k d x} : k = .describeStatement ∨ k = .describePortal → Is .tupleDescriptor x → Ans (.str k d) [x]
  | describeArgs {k d t x} : k = .describeStatement ∨ k = .describePortal → Is .attributeTypes t →
      Is .tupleDescriptor x ∨ Is (.empty .noData) x → Ans (.str k d) [t, x]
  | close {k d x} : k = .closeStatement ∨ k = .closePortal → Is (.empty .closeComplete) x → Ans (.str k d) [x]
  | execute {n m rs x} : (∀ r ∈ rs, Is .tuple r) → Is .complete x → Ans (.execute n m) (rs ++ [x])
  | executeSuspended {n m rs x} : rs ≠ [] → (∀ r ∈ rs, Is .tuple r) → Is (.empty .suspension) x → Ans (.execute n m) (rs ++ [x])
  | executeNull {n m x} : Is (.empty .null) x → Ans (.execute n m) [x]
  | executeCopyOut {n m h ls d x} : Is .copyToBegin h → (∀ r ∈ ls, IsLine r) → Is (.empty .copyDone) d → Is .complete x →
      Ans (.execute n m) (h :: ls ++ [d, x])
  | executeCopyIn {n m g x} : Is .copyFromBegin g → Is .complete x → Ans (.execute n m) [g, x]
  | sync {z} : Is .ready z → Ans (.empty .synchronize) [z]
  | flush : Ans (.empty .flush) []

/-- The beginning of an answer that is not over yet. -/
def Begun (c : Elem) (p : List Msg) : Prop := ∃ q, q ≠ [] ∧ Ans c (p ++ q)

/-- An error message with the given severity field. -/
def IsError (x : Msg) (sev : Bytes) : Prop := x.1 = 69 ∧ ∃ em, parseK .error x.2 = .ok (.error em) ∧ dictGet em [83] = some (some sev)

/-- An error that leaves the session alive. -/
def IsPlainError (x : Msg) : Prop := ∃ sev, IsError x sev ∧ sev.map upperB = ERROR

/-- The command is a simple query or a function call: they end with a ready message of their own, even on errors. -/
def SelfSync (c : Elem) : Prop := c.kind.typ = some 81 ∨ c.kind.typ = some 70

/-- The complete reply to a sequence of commands.  After an error the server ignores commands up to the next Synchronize and
goes on there; a simple query is finished by its own ready message; without a Synchronize nothing more comes. -/
inductive Reply : List Elem → List Msg → Prop
  | nil : Reply [] []
  | answer {c cs a r} : Ans c a → Reply cs r → Reply (c :: cs) (a ++ r)
  | error {c cs p x r} : ¬ SelfSync c → Begun c p → IsPlainError x → .empty .synchronize ∈ c :: cs →
      Reply ((c :: cs).dropWhile (· ≠ .empty .synchronize)) r → Reply (c :: cs) (p ++ x :: r)
  | lost {c cs p x} : ¬ SelfSync c → Begun c p → IsPlainError x → .empty .synchronize ∉ c :: cs → Reply (c :: cs) (p ++ [x])
  | queryError {q cs p x r} : Begun (.str .query q) p → IsPlainError x → Reply (.str .query q :: cs) r →
      Reply (.str .query q :: cs) (p ++ x :: r)

/-- Leave out the asynchronous messages. -/
def strip (ms : List Msg) : List Msg := ms.filter (fun x => (asyncKind x.1).isNone)

/-- The asynchronous messages are well formed. -/
def AsyncsParse (ms : List Msg) : Prop := ∀ x ∈ ms, ∀ k, asyncKind x.1 = some k → ∃ m, parseK k x.2 = .ok m

end PG.Spec.Reply
