import Verif.Model.Negotiation
import Verif.Spec.Reply
/-!
# Histories of a connection negotiation
-/
namespace PG.Spec.Negotiation
open PG PG.Element3 PG.Xact3 PG.Negotiation PG.Spec.Reply

/-- The histories of a negotiation: when it wants to send, its messages are written to the server; when it waits, it is given
some messages of the server (any at all) and consumes some.  `wire`: what was written; `seen`: what was consumed. -/
inductive Hist (c : Crypto) (startup : List (Bytes × Option Bytes)) (password : Bytes) : Neg → List Elem → List Msg → Prop
  | start : Hist c startup password (init startup password) [] []
  | write {n wire seen} : Hist c startup password n wire seen → n.state = .sending →
      Hist c startup password (sent n) (wire ++ n.messages) seen
  | read {n wire seen b n' k} : Hist c startup password n wire seen → n.state = .receiving → put c n b = (n', .ok k) →
      Hist c startup password n' wire (seen ++ b.msgs.take k)

/-- Message `x` is an authentication request with the given code and salt. -/
def IsRequest (x : Msg) (req : Int) (salt : Bytes) : Prop := x.1 = 82 ∧ parseK .authentication x.2 = .ok (.authentication req salt)

/-- The protocol's answers to the requests for a password: as it is, encrypted with `crypt`, or as MD5 digest. -/
inductive Answers (c : Crypto) (startup : List (Bytes × Option Bytes)) (password : Bytes) : Int → Bytes → Bytes → Prop
  | cleartext {salt} : Answers c startup password 3 salt password
  | crypt {salt pw} : c.crypt password salt = .ok pw → Answers c startup password 4 salt pw
  | md5 {salt user} : dictGet startup [117, 115, 101, 114] = some (some user) →
      Answers c startup password 5 salt ([109, 100, 53] ++ c.md5hex (c.md5hex (password ++ user) ++ salt))

end PG.Spec.Negotiation
