import Verif.Proofs.CopyReceiver5
import Verif.Props.CopyLoad
/-!
# C73: receiving into a COPY
-/
namespace PG.Props.CopyReceiver
open PG PG.Element3 PG.Xact3 PG.Client3 PG.Lifecycle PG.CopyLoad PG.CopyReceiver PG.Spec PG.Spec.Client PG.Spec.Lifecycle PG.Spec.CopyLoad PG.Props.Lifecycle PG.Props.Status PG.Props.CopyLoad

/-- What entering does. -/
theorem entered {f : Finalizers} {n : Nat} {stmt : Bytes} {db : Db} {c : Conn Y} {r1 : Rcv} (hc : db.pq = .conn c) (hb : B c)
    (h : enter f n stmt { db := db } = (r1, .ok)) :
    r1.view = [] ∧ r1.xact = some c.nextId ∧ ∃ d, r1.db.pq = .conn d ∧ B d ∧
      (Pend d ∨ ∃ pre, c.wire <+: pre ∧ (c.xact = none → c.garbageStatements = [] → c.garbageCursors = [] → pre = c.wire ++ c.messageData) ∧
        In c.nextId stmt (pre ++ upload stmt []) d ∧
        (∀ after : List Call, (∀ a ∈ after, others a = true) → ∀ (db2 : Db) (evs : List SendEv), db2.pq = .conn { d with sends := evs } →
          ∃ suf, wire (calls db2 after).1 = pre ++ upload stmt [] ++ suf ∧ (Begins suf (frames [copyFail, syncMsg]) ∨ Begins suf (frames [syncMsg])))) := by
  unfold enter at h
  rw [hc] at h
  dsimp only at h
  cases hs : sendChunks f n stmt [] db c.nextId with
  | mk db1 o =>
    rw [hs] at h
    cases o with
    | dbError b m => cases h
    | raised e => cases h
    | blocked => cases h
    | ok =>
      cases h
      refine ⟨rfl, rfl, ?_⟩
      obtain ⟨d, e1, g⟩ := sendChunks_spec hc hb hs
      have hbd : B d := by
        obtain ⟨d', k1, k2, _⟩ := has_send (f := f) (n := n) (k := c.nextId) (stmt := stmt) (items := []) (db := db) ⟨c, hc, hb, trivial⟩
        rw [hs] at k1
        have k1 : db1.pq = .conn d' := k1
        rw [e1] at k1
        cases k1
        exact k2
      refine ⟨d, e1, hbd, ?_⟩
      rcases g with hp | ⟨c1, U, p0, hid, hU, hlast, hi, ho⟩
      · exact .inl hp
      · right
        obtain ⟨x, hx, hk, hcm, hr⟩ := id ho
        have hcl := hr.clean
        have hser : ∀ m ∈ squeeze c1.log ++ [objC c.nextId stmt] ++ [objU] ++ U, Serializable m = true := by
          rw [← hr.log]; exact hcl.2.2
        have hw : d.wire = (squeeze c1.log ++ [objC c.nextId stmt] ++ [objU] ++ U).flatMap bytesOf := by
          rw [← hr.log]; exact hcl.2.1
        have hall := all_bytes (chunks := []) hU hser
        refine ⟨(squeeze c1.log).flatMap bytesOf, p0.pre.trans (W_pre p0.b.i.1), ?_, ?_, ?_⟩
        · intro q1 q2 q3
          have hv := hid q1 q2 q3
          have h1 : c1.wire = c.wire := (congrArg (·.1) hv :)
          have h2 : c1.messageData = c.messageData := (congrArg (·.2.1) hv :)
          rw [← h1, ← h2]
          obtain ⟨g, g1, g2, g3, g4⟩ := p0.b.i.1
          rcases g4 with ⟨g4, _⟩ | ⟨b, r, g4, g5, _⟩
          · rw [g4, g2]
          · have := hser b (by rw [g4]; simp)
            rw [g5] at this
            cases this
        · have := in_of_ready hi hlast ho
          rw [hw, hall] at this
          exact this
        · intro after ha db2 evs h2
          have hb2 : B { d with sends := evs } := ⟨I_congr (c := d) rfl rfl hbd.i, hbd.ids, hbd.own⟩
          have hA : A (squeeze c1.log ++ [objC c.nextId stmt] ++ [objU] ++ U) c.nextId ((squeeze c1.log ++ [objC c.nextId stmt] ++ [objU] ++ U).flatMap bytesOf) { d with sends := evs } := by
            refine ⟨I_congr (c := d) rfl rfl hi, by dsimp only; rw [hw]; exact List.prefix_rfl, .inr ⟨hr.log, _, hx, .inl ⟨?_, .inl ?_⟩⟩⟩
            · show dirOf x.inst = .sending
              unfold dirOf; rw [hr.asked.state]
            · exact ready_messages hk hr
          obtain ⟨d2, k1, _, k3⟩ := calls_keeps (a_keeps hlast) after db2 (fun a h => by have := ha a h; cases a <;> first | trivial | cases this) ⟨_, h2, hb2, hA⟩
          obtain ⟨suf, k4, k5⟩ := a_wire k3
          exact ⟨suf, by rw [wire_of k1, k4, hall]; rfl, begins_cases k5⟩

theorem pend_ops {r r' : Rcv} {c : Conn Y} {evs : List SendEv} {w : Bytes} (h : r'.db = { r.db with pq := .conn { c with sends := evs, wire := w } }) (hp : Pend c) :
    ∃ e, r'.db.pq = .conn e ∧ Pend e := ⟨{ c with sends := evs, wire := w }, by rw [h], hp⟩

/-- **C73 (the server gets all the data, as it was given).** Whatever happened to the connection before and however the socket behaves:
when the receiver has transmitted, the bytes the server got are what it got earlier (and what was pending), Bind, Execute and Sync, and then all the
data the receiver was given, in order: nothing else.  Unless a failure of the transaction is still unreported. -/
theorem C73_transmitted (s : List SendEv) (r : List RecvEv) (st : Bytes) (before : List Call) (f : Finalizers) (n : Nat) (stmt : Bytes) (r1 r2 : Rcv) (ops : List Op)
    (h1 : enter f n stmt { db := (calls (established s r st) before).1 } = (r1, .ok)) (hp : Prompt r1 ops)
    (h2 : transmit (ops.foldl apply r1) = (r2, .ret ())) :
    Unreported r1.db ∨ ∃ pre, wire (calls (established s r st) before).1 <+: pre ∧ wire r2.db = pre ++ upload stmt [] ++ accepted ops ∧
      (Idle (calls (established s r st) before).1 → NoGarbage (calls (established s r st) before).1 →
        pre = wire (calls (established s r st) before).1 ++ unsent (calls (established s r st) before).1) := by
  obtain ⟨c, hc, hb⟩ := history_conn s r st before
  generalize (calls (established s r st) before).1 = db at *
  obtain ⟨a1, a2, d, a3, _, a5⟩ := entered hc hb h1
  rcases a5 with ⟨y, hy, hf⟩ | ⟨pre, p1, p2, p3, _⟩
  · exact .inl ⟨d, y, by unfold connOf; rw [a3], hy, hf⟩
  · right
    obtain ⟨evs, w, b1, b2, b3⟩ := ops_spec ops r1 a3 hp
    have hco : connOf db = some c := by unfold connOf; rw [hc]
    have hu : unsent db = c.messageData := by unfold unsent; rw [hco]
    refine ⟨pre, by rw [wire_of hc]; exact p1, ?_, fun hi hg => by rw [wire_of hc, hu]; exact p2 (hi c hco) (hg c hco).2 (hg c hco).1⟩
    generalize ops.foldl apply r1 = ro at *
    unfold transmit at h2
    rw [b1] at h2
    dsimp only at h2
    obtain ⟨q1, q2⟩ := sendLoop_spec (plug r1.db.socket { d with sends := evs, wire := d.wire ++ w }).sends ro.view (d.wire ++ w)
    generalize sendLoop (plug r1.db.socket { d with sends := evs, wire := d.wire ++ w }).sends ro.view (d.wire ++ w) = z at h2 q1 q2
    obtain ⟨e, v, y, q⟩ := z
    cases h2
    have := q2 rfl
    dsimp only at this q1
    rw [this, List.append_nil, List.append_assoc, b3, a1, List.nil_append, p3.wire] at q1
    exact (wire_of rfl).trans q1

/-- **C73 (success).** When leaving the receiver without an exception returns, everything it was given having been transmitted: then the
server got all the data, and after it CopyDone and Sync. -/
theorem C73_success (s : List SendEv) (r : List RecvEv) (st : Bytes) (before : List Call) (f : Finalizers) (n : Nat) (stmt : Bytes) (r1 r2 : Rcv) (ops : List Op) (m : Nat)
    (h1 : enter f n stmt { db := (calls (established s r st) before).1 } = (r1, .ok)) (hp : Prompt r1 ops)
    (hv : (ops.foldl apply r1).view = []) (h2 : exit m .none (ops.foldl apply r1) = (r2, .ok)) :
    ∃ pre, wire (calls (established s r st) before).1 <+: pre ∧ wire r2.db = pre ++ upload stmt [] ++ accepted ops ++ frames [copyDone, syncMsg] ∧
      (Idle (calls (established s r st) before).1 → NoGarbage (calls (established s r st) before).1 →
        pre = wire (calls (established s r st) before).1 ++ unsent (calls (established s r st) before).1) := by
  obtain ⟨c, hc, hb⟩ := history_conn s r st before
  generalize (calls (established s r st) before).1 = db at *
  obtain ⟨a1, a2, d, a3, _, a5⟩ := entered hc hb h1
  obtain ⟨evs, w, b1, b2, b3⟩ := ops_spec ops r1 a3 hp
  generalize ops.foldl apply r1 = ro at *
  unfold exit at h2
  rw [b2, a2] at h2
  dsimp only at h2
  rw [if_neg (by rw [hv]; simp)] at h2
  cases hz : pqComplete m (give c.nextId none ro.db) with
  | mk db2 o =>
    rw [hz] at h2
    cases h2
    rcases a5 with hpend | ⟨pre, p1, p2, p3, _⟩
    · obtain ⟨e, he, hpe⟩ := pend_ops b1 hpend
      obtain ⟨e2, he2, hpe2⟩ := pend_give (k := c.nextId) (m := none) he hpe
      exact absurd hz (pend_complete he2 hpe2)
    · have hco : connOf db = some c := by unfold connOf; rw [hc]
      have hu : unsent db = c.messageData := by unfold unsent; rw [hco]
      refine ⟨pre, by rw [wire_of hc]; exact p1, ?_, fun hi hg => by rw [wire_of hc, hu]; exact p2 (hi c hco) (hg c hco).2 (hg c hco).1⟩
      obtain ⟨e2, he2, ho⟩ := out_done (db := ro.db) (c := { d with sends := evs, wire := d.wire ++ w }) (by rw [b1]) (in_sent p3 evs w)
      obtain ⟨g, g1, _, g3⟩ := complete_out (objE_ser _) he2 ho hz
      rw [hv, List.append_nil, a1, List.nil_append] at b3
      rw [wire_of g1, g3 (.inl rfl), b3, objE_bytes]

/-- **C73 (failure never commits).** Leaving with an exception, or with an unfinished message (which is sent to the end, so that the server can
read on): what goes to the server after the data is CopyFail and Sync, and nothing else; all of it is sent, unless the connection is lost or
the socket raises. -/
theorem C73_failed (s : List SendEv) (r : List RecvEv) (st : Bytes) (before : List Call) (f : Finalizers) (n : Nat) (stmt : Bytes) (r1 r2 : Rcv) (ops : List Op) (m : Nat)
    (t : Typ) (o : Outcome) (h1 : enter f n stmt { db := (calls (established s r st) before).1 } = (r1, .ok)) (hp : Prompt r1 ops)
    (hv : t = .exception ∨ (ops.foldl apply r1).view ≠ []) (h2 : exit m t (ops.foldl apply r1) = (r2, o)) :
    Unreported r1.db ∨ ∃ pre, wire (calls (established s r st) before).1 <+: pre ∧
      wire r2.db <+: pre ++ upload stmt [] ++ accepted ops ++ frames [copyFail, syncMsg] ∧
      (o = .ok ∨ (∃ e, o = .dbError false e) → wire r2.db = pre ++ upload stmt [] ++ accepted ops ++ frames [copyFail, syncMsg]) ∧
      (Idle (calls (established s r st) before).1 → NoGarbage (calls (established s r st) before).1 →
        pre = wire (calls (established s r st) before).1 ++ unsent (calls (established s r st) before).1) := by
  obtain ⟨c, hc, hb⟩ := history_conn s r st before
  generalize (calls (established s r st) before).1 = db at *
  obtain ⟨a1, a2, d, a3, _, a5⟩ := entered hc hb h1
  obtain ⟨evs, w, b1, b2, b3⟩ := ops_spec ops r1 a3 hp
  generalize ops.foldl apply r1 = ro at *
  rcases a5 with ⟨y, hy, hf⟩ | ⟨pre, p1, p2, p3, _⟩
  · exact .inl ⟨d, y, by unfold connOf; rw [a3], hy, hf⟩
  · right
    have hz : ∃ db2, pqComplete m (handBack ro) = (db2, o) ∧ r2.db = db2 := by
      unfold exit at h2
      rw [b2, a2] at h2
      dsimp only at h2
      by_cases hn : ro.view ≠ []
      · rw [if_pos hn] at h2
        cases hq : pqComplete m (handBack ro) with
        | mk db2 q => rw [hq] at h2; cases h2; exact ⟨db2, rfl, rfl⟩
      · rw [if_neg hn] at h2
        have ht : t = .exception := hv.resolve_right hn
        subst ht
        dsimp only at h2
        have : handBack ro = ro.db := by
          unfold handBack
          have := p3.data
          rw [b1, show ro.view = [] from Classical.not_not.1 hn]
          dsimp only
          rw [← this]
        rw [this]
        cases hq : pqComplete m ro.db with
        | mk db2 q => rw [hq] at h2; cases h2; exact ⟨db2, rfl, rfl⟩
    obtain ⟨db2, hz, hr2⟩ := hz
    rw [hr2]
    have hco : connOf db = some c := by unfold connOf; rw [hc]
    have hu : unsent db = c.messageData := by unfold unsent; rw [hco]
    have hh : (handBack ro).pq = .conn { d with sends := evs, wire := d.wire ++ w, messageData := ro.view } := by
      unfold handBack
      rw [b1]
    obtain ⟨g, g1, g2, g3⟩ := complete_out (objF_ser _) hh (out_fail ro.view (in_sent p3 evs w)) hz
    rw [a1, List.nil_append] at b3
    have e : pre ++ upload stmt [] ++ w ++ ro.view = pre ++ upload stmt [] ++ accepted ops := by rw [← b3]; simp
    rw [e, objF_bytes] at g2 g3
    exact ⟨pre, by rw [wire_of hc]; exact p1, by rw [wire_of g1]; exact g2, fun h => by rw [wire_of g1]; exact g3 h,
      fun hi hg => by rw [wire_of hc, hu]; exact p2 (hi c hco) (hg c hco).2 (hg c hco).1⟩

/-- **C73 (an interrupt never commits).** Leaving because of an interrupt, between two messages, does nothing at all; and whatever is done with the
connection later, what follows the data on the wire is CopyFail (or a Sync, of a forced synchronization): never CopyDone. -/
theorem C73_interrupted (s : List SendEv) (r : List RecvEv) (st : Bytes) (before : List Call) (f : Finalizers) (n : Nat) (stmt : Bytes) (r1 : Rcv) (ops : List Op)
    (h1 : enter f n stmt { db := (calls (established s r st) before).1 } = (r1, .ok)) (hp : Prompt r1 ops) (hv : (ops.foldl apply r1).view = []) :
    (∀ m, exit m .base (ops.foldl apply r1) = (ops.foldl apply r1, .ok)) ∧
    (Unreported r1.db ∨ ∃ pre, wire (calls (established s r st) before).1 <+: pre ∧ wire (ops.foldl apply r1).db = pre ++ upload stmt [] ++ accepted ops ∧
      ∀ after : List Call, (∀ a ∈ after, others a = true) → ∃ suf, wire (calls (ops.foldl apply r1).db after).1 = pre ++ upload stmt [] ++ accepted ops ++ suf ∧
        (Begins suf (frames [copyFail, syncMsg]) ∨ Begins suf (frames [syncMsg]))) := by
  obtain ⟨c, hc, hb⟩ := history_conn s r st before
  generalize (calls (established s r st) before).1 = db at *
  obtain ⟨a1, a2, d, a3, _, a5⟩ := entered hc hb h1
  obtain ⟨evs, w, b1, b2, b3⟩ := ops_spec ops r1 a3 hp
  generalize ops.foldl apply r1 = ro at *
  rw [hv, List.append_nil, a1, List.nil_append] at b3
  subst b3
  constructor
  · intro m
    unfold exit
    rw [b2, a2]
    dsimp only
    rw [if_neg (by rw [hv]; simp)]
  · rcases a5 with ⟨y, hy, hf⟩ | ⟨pre, p1, p2, p3, p4⟩
    · exact .inl ⟨d, y, by unfold connOf; rw [a3], hy, hf⟩
    · right
      refine ⟨pre, by rw [wire_of hc]; exact p1, ?_, ?_⟩
      · rw [b1, wire_of rfl]
        dsimp only
        rw [p3.wire]
      · intro after ha
        obtain ⟨suf, k1, k2⟩ := p4 after ha { r1.db with pq := .conn { d with sends := evs } } evs rfl
        refine ⟨suf, ?_, k2⟩
        have base := calls_shift d.wire after { r1.db with pq := .conn { d with sends := evs, wire := [] } } (c := { d with sends := evs, wire := [] }) rfl
        have base2 := calls_shift (d.wire ++ accepted ops) after { r1.db with pq := .conn { d with sends := evs, wire := [] } } (c := { d with sends := evs, wire := [] }) rfl
        obtain ⟨g1, e, ge⟩ := base
        have g2 := base2.1
        have i1 : preDb d.wire { r1.db with pq := .conn { d with sends := evs, wire := [] } } = { r1.db with pq := .conn { d with sends := evs } } := by
          unfold preDb onConn CopyReceiver.pre; simp
        have i2 : preDb (d.wire ++ accepted ops) { r1.db with pq := .conn { d with sends := evs, wire := [] } } = ro.db := by
          rw [b1]; unfold preDb onConn CopyReceiver.pre; simp
        rw [i1] at g1
        rw [i2] at g2
        rw [g1, preDb_conn ge, wire_of rfl] at k1
        rw [g2, preDb_conn ge, wire_of rfl]
        unfold CopyReceiver.pre at k1 ⊢
        dsimp only at k1 ⊢
        rw [p3.wire] at k1 ⊢
        have k1 := List.append_cancel_left k1
        rw [k1]

/-! ## The hypotheses are met -/

/-- A server that runs a COPY; the socket accepts the data in pieces. -/
def takes (last : RecvEv) : Db := established ([.sent 999, .sent 3, .sent 999, .sent 999] ++ List.replicate 9 (.sent 999))
  [.data [50, 0, 0, 0, 4, 71, 0, 0, 0, 7, 0, 0, 0], last, .data [90, 0, 0, 0, 5, 73]] [73]
/-- One CopyData message with a line, transmitted; another. -/
def given : List Op := [.accept [100, 0, 0, 0, 6, 97, 10], .transmit, .accept [100, 0, 0, 0, 6, 98, 10], .transmit]
/-- The receiver after entering. -/
def inCopy (last : RecvEv) : Rcv := (enter {} 20 [115] { db := takes last }).1

/-- It is in the COPY, and no failure is unreported. -/
example : enter {} 20 [115] { db := (calls (takes copied) []).1 } = (inCopy copied, .ok) ∧ ¬ Unreported (inCopy copied).db ∧
    Idle (calls (takes copied) []).1 ∧ NoGarbage (calls (takes copied) []).1 := by
  refine ⟨Prod.ext rfl (show (enter {} 20 [115] { db := takes copied }).2 = .ok by decide +kernel), ?_, ?_, ?_⟩
  · rintro ⟨c, x, h1, h2, h3⟩
    have : ((connOf (inCopy copied).db).bind (·.xact)).bind fatalOf = none := by decide +kernel
    rw [h1, Option.bind_some, h2] at this
    exact h3 this
  · intro c hc; cases hc; rfl
  · intro c hc; cases hc; exact ⟨rfl, rfl⟩

/-- `C73_transmitted`, `C73_success` and `C73_interrupted`: its data are sent, it leaves. -/
example : Prompt (inCopy copied) given ∧ (given.foldl apply (inCopy copied)).view = [] ∧
    (transmit ((given.dropLast).foldl apply (inCopy copied))).2 = .ret () ∧ Prompt (inCopy copied) given.dropLast ∧
    (exit 20 .none (given.foldl apply (inCopy copied))).2 = .ok ∧
    wire (exit 20 .none (given.foldl apply (inCopy copied))).1.db = upload [115] [[97, 10], [98, 10]] ++ frames [copyDone, syncMsg] :=
  ⟨⟨by decide +kernel, by decide +kernel, trivial⟩, by decide +kernel, by decide +kernel, ⟨by decide +kernel, by decide +kernel, trivial⟩, by decide +kernel, by decide +kernel⟩

/-- `C73_failed`: with an exception, and with an unfinished message. -/
example : (exit 20 .exception (given.foldl apply (inCopy refused))).2 = .dbError false (some (.server [([83], some [69, 82, 82, 79, 82])])) ∧
    wire (exit 20 .exception (given.foldl apply (inCopy refused))).1.db = upload [115] [[97, 10], [98, 10]] ++ frames [copyFail, syncMsg] ∧
    (given.dropLast.foldl apply (inCopy refused)).view ≠ [] ∧
    (exit 20 .base (given.dropLast.foldl apply (inCopy refused))).2 = .dbError false (some (.server [([83], some [69, 82, 82, 79, 82])])) ∧
    wire (exit 20 .base (given.dropLast.foldl apply (inCopy refused))).1.db = upload [115] [[97, 10], [98, 10]] ++ frames [copyFail, syncMsg] := by decide +kernel

/-! ## Findings -/

/-- A socket that accepts three bytes of the data, and then raises. -/
def breaks : Db := established ([.sent 999, .sent 3, .err .other] ++ List.replicate 9 (.sent 999))
  [.data [50, 0, 0, 0, 4, 71, 0, 0, 0, 7, 0, 0, 0], refused, .data [90, 0, 0, 0, 5, 73]] [73]

/-- **C73 (a finding: a fault in the middle of a message).** When the socket raises in the middle of a message, the manager drops the
receiver and never leaves it; the next operation on its connection sends CopyFail in the middle of the message, where the server takes it
for the rest of the message (here three of its seven bytes had been sent). -/
theorem C73_torn_message : ∃ (r1 : Rcv) (d : Bytes), enter {} 20 [115] { db := breaks } = (r1, .ok) ∧ d.length = 7 ∧
    wire (call ([Op.accept d, .transmit].foldl apply r1).db (.push {} 20 [.str .query [120]])).1 = upload [115] [] ++ d.take 3 ++ frames [copyFail, syncMsg] :=
  ⟨(enter {} 20 [115] { db := breaks }).1, [100, 0, 0, 0, 6, 97, 10], Prod.ext rfl (show (enter {} 20 [115] { db := breaks }).2 = .ok by decide +kernel), rfl, by decide +kernel⟩

/-- **C73 (a finding: a failed COPY can be left as a success).** When something else is done with the destination's connection during the
COPY, and its error is caught, the COPY has failed (CopyFail was sent); leaving the receiver without an exception still returns. -/
theorem C73_success_without_commit : ∃ (r1 : Rcv) (b : Bool) (e : Option ErrMsg), enter {} 20 [115] { db := takes refused } = (r1, .ok) ∧
    (call (given.foldl apply r1).db (.push {} 20 [.str .query [120]])).2 = .dbError b e ∧
    (exit 20 .none { given.foldl apply r1 with db := (call (given.foldl apply r1).db (.push {} 20 [.str .query [120]])).1 }).2 = .ok ∧
    wire (exit 20 .none { given.foldl apply r1 with db := (call (given.foldl apply r1).db (.push {} 20 [.str .query [120]])).1 }).1.db =
      upload [115] [[97, 10], [98, 10]] ++ frames [copyFail, syncMsg] :=
  ⟨inCopy refused, false, some (.server [([83], some [69, 82, 82, 79, 82])]),
    Prod.ext rfl (show (enter {} 20 [115] { db := takes refused }).2 = .ok by decide +kernel), by decide +kernel, by decide +kernel, by decide +kernel⟩

end PG.Props.CopyReceiver
