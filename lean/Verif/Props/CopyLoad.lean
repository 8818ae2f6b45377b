import Verif.Proofs.CopyLoad7
import Verif.Spec.CopyLoad
import Verif.Props.Status
/-!
# C52: loading COPY lines
-/
namespace PG.Props.CopyLoad
open PG PG.Element3 PG.Xact3 PG.Client3 PG.Lifecycle PG.CopyLoad PG.Spec PG.Spec.Client PG.Spec.Lifecycle PG.Spec.CopyLoad PG.Props.Lifecycle PG.Props.Status

/-- The user's chunks of lines, as the driver sees them. -/
def asItems (chunks : List (List Bytes)) : List (List Item) := chunks.map (·.map .raw)

/-- What was serialized but not handed to the socket yet. -/
def unsent (db : Db) : Bytes := match connOf db with | some c => c.messageData | none => []

/-- No protocol transaction is running. -/
def Idle (db : Db) : Prop := ∀ c, connOf db = some c → c.xact = none

theorem objC_bytes {k : Nat} {stmt : Bytes} (h : Serializable (objC k stmt) = true) : bytesOf (objC k stmt) = frames [bindMsg stmt, executeMsg, syncMsg] := by
  rw [serializable_iff] at h
  obtain ⟨ms, h1, h2, _⟩ := catMessages_frames (objC k stmt).items (by
    intro m hm
    unfold objC commands at hm
    simp only [List.map_cons, List.map_nil, List.mem_cons, Item.msg.injEq, List.not_mem_nil, or_false] at hm
    rcases hm with rfl | rfl | rfl <;> rfl) h
  have h3 : itemsMsgs (objC k stmt).items = .ok [bindMsg stmt, executeMsg, syncMsg] := by
    show itemsMsgs _ = Except.ok [(66, 0 :: stmt ++ [0] ++ [0, 0, 0, 0, 0, 0]), executeMsg, syncMsg]
    have e : (0 :: stmt ++ [0] ++ [0, 0, 0, 0, 0, 0] : Bytes) = [] ++ [0] ++ stmt ++ [0] ++ [0, 0] ++ [] ++ [0, 0] ++ [] ++ [0, 0] ++ [] := by simp
    rw [e]
    rfl
  rw [h1] at h3
  cases h3
  exact h2

theorem objU_bytes : bytesOf objU = [] := by decide +kernel
theorem objE_bytes (k : Nat) : bytesOf (objE k) = frames [copyDone, syncMsg] := by
  show bytesOf (objE 0) = _
  decide +kernel
theorem objS_bytes (k : Nat) : bytesOf (objS k) = frames [syncMsg] := by
  show bytesOf (objS 0) = _
  decide +kernel
theorem objF_bytes (k : Nat) : bytesOf (objF k) = frames [copyFail, syncMsg] := by
  show bytesOf (objF 0) = _
  decide +kernel

theorem itemsMsgs_raw (l : List Bytes) : itemsMsgs (l.map .raw) = .ok (l.map copyData) := by
  induction l with
  | nil => rfl
  | cons a l ih =>
    rw [List.map_cons, itemsMsgs, ih]
    rfl

theorem lines_bytes (U : List Obj) (chunks : List (List Bytes)) (h : U.map (·.items) = asItems chunks) (hs : ∀ m ∈ U, Serializable m = true) :
    U.flatMap bytesOf = frames (chunks.flatten.map copyData) := by
  induction U generalizing chunks with
  | nil =>
    cases chunks with
    | nil => rfl
    | cons _ _ => cases h
  | cons u U ih =>
    cases chunks with
    | nil => cases h
    | cons l chunks =>
      unfold asItems at h
      rw [List.map_cons, List.map_cons] at h
      injection h with h1 h2
      have hser := serializable_iff.1 (hs u List.mem_cons_self)
      obtain ⟨ms, e1, e2, _⟩ := catMessages_frames u.items (by
        intro m hm
        rw [h1] at hm
        simp at hm) hser
      rw [h1, itemsMsgs_raw] at e1
      cases e1
      rw [List.flatMap_cons, e2, ih chunks h2 (fun m hm => hs m (List.mem_cons_of_mem _ hm)), List.flatten_cons, List.map_append]
      unfold frames
      rw [List.flatMap_append]

theorem all_bytes {S U : List Obj} {k : Nat} {stmt : Bytes} {chunks : List (List Bytes)} (h : U.map (·.items) = asItems chunks)
    (hs : ∀ m ∈ S ++ [objC k stmt] ++ [objU] ++ U, Serializable m = true) :
    (S ++ [objC k stmt] ++ [objU] ++ U).flatMap bytesOf = S.flatMap bytesOf ++ upload stmt chunks.flatten := by
  simp only [List.flatMap_append, List.flatMap_cons, List.flatMap_nil, List.append_nil]
  rw [objC_bytes (k := k) (stmt := stmt) (hs _ (by simp)), objU_bytes, List.append_nil, lines_bytes U chunks h (fun m hm => hs m (by simp [hm]))]
  unfold upload frames
  rw [List.flatMap_append, List.append_assoc]

theorem history_conn (s : List SendEv) (r : List RecvEv) (st : Bytes) (before : List Call) :
    ∃ c, (calls (established s r st) before).1.pq = .conn c ∧ B c := by
  obtain ⟨c, hc, hb, _⟩ := calls_keeps true_keeps before (established s r st) (fun _ _ => trivial) ⟨_, rfl, B_established s r st, trivial⟩
  exact ⟨c, hc, hb⟩

theorem wire_of {db : Db} {c : Conn Y} (h : db.pq = .conn c) : wire db = c.wire := by unfold wire connOf; rw [h]

/-- **C52 (the server gets every line, once, in order, and then CopyDone).** Whatever happened to the connection before and however
the socket behaves: when loading the chunks returns, the bytes the server got are what it got earlier (and what was pending),
then the messages Bind, Execute and Sync, then one CopyData for every line of every chunk in order, then CopyDone and Sync; and,
when the connection is still open, the Sync of the final synchronization: nothing else. -/
theorem C52_load_all (s : List SendEv) (r : List RecvEv) (st : Bytes) (before : List Call) (f : Finalizers) (n : Nat) (stmt : Bytes)
    (chunks : List (List Bytes)) (db' : Db) (h : load f n stmt (asItems chunks) none (calls (established s r st) before).1 = (db', .ok)) :
    ∃ pre suf, wire (calls (established s r st) before).1 <+: pre ∧
      wire db' = pre ++ upload stmt chunks.flatten ++ frames [copyDone, syncMsg] ++ suf ∧
      suf <+: frames [syncMsg] ∧ (closed db' = false → suf = frames [syncMsg]) := by
  obtain ⟨c, hc, hb⟩ := history_conn s r st before
  generalize (calls (established s r st) before).1 = db at *
  obtain ⟨d, S, U, suf, e1, e2, _, e4, e5, e6, e7, e8⟩ := load_spec hc hb h
  refine ⟨S.flatMap bytesOf, suf, by rw [wire_of hc]; exact e2, ?_, by rw [← objS_bytes 0]; exact e7, by rw [← objS_bytes 0]; exact e8⟩
  rw [wire_of e1, e6, List.flatMap_append, all_bytes e4 (fun m hm => e5 m (List.mem_append_left _ hm)), List.flatMap_cons, List.flatMap_nil, List.append_nil, objE_bytes]

/-- **C52 (nothing comes between).** On a connection that is idle and has nothing to clean up, the load is sent right after what was
sent or pending before. -/
theorem C52_load_exact (s : List SendEv) (r : List RecvEv) (st : Bytes) (before : List Call) (f : Finalizers) (n : Nat) (stmt : Bytes)
    (chunks : List (List Bytes)) (db' : Db) (h : load f n stmt (asItems chunks) none (calls (established s r st) before).1 = (db', .ok))
    (hi : Idle (calls (established s r st) before).1) (hg : NoGarbage (calls (established s r st) before).1) (ho : closed db' = false) :
    wire db' = wire (calls (established s r st) before).1 ++ unsent (calls (established s r st) before).1 ++ upload stmt chunks.flatten ++
      frames [copyDone, syncMsg, syncMsg] := by
  obtain ⟨c, hc, hb⟩ := history_conn s r st before
  generalize (calls (established s r st) before).1 = db at *
  obtain ⟨d, S, U, suf, e1, _, e3, e4, e5, e6, _, e8⟩ := load_spec hc hb h
  have hco : connOf db = some c := by unfold connOf; rw [hc]
  have hu : unsent db = c.messageData := by unfold unsent; rw [hco]
  rw [wire_of e1, e6, e8 ho, List.flatMap_append, all_bytes e4 (fun m hm => e5 m (List.mem_append_left _ hm)), List.flatMap_cons, List.flatMap_nil, List.append_nil,
    objE_bytes, objS_bytes, e3 (hi c hco) (hg c hco).2 (hg c hco).1, wire_of hc, hu]
  simp [frames]

/-! ## Giving up -/

theorem has_give {k : Nat} {m : Option (List Item)} {db : Db} (h : Has (fun _ => True) db) : Has (fun _ => True) (give k m db) := by
  obtain ⟨c, hc, hb, _⟩ := id h
  unfold give
  rw [hc]
  dsimp only
  cases hx : c.xact with
  | none => exact h
  | some y =>
    cases y with
    | closing b => exact h
    | inst x =>
      dsimp only
      split
      · have hown := hb.own (.inst x) x.oid hx rfl
        cases m with
        | none => exact ⟨_, rfl, B_xact hb _ (fun k hk => by cases hk; exact hown), trivial⟩
        | some l =>
          refine ⟨_, rfl, ⟨⟨W_congr (c := c) rfl hb.i.1, ⟨hb.i.2.inv, hb.i.2.bytes, hb.i.2.fits, hb.i.2.data, Nat.lt_succ_of_lt hb.i.2.ids⟩⟩,
            fun m hm j hj => Nat.lt_succ_of_lt (hb.ids m hm j hj), fun z j hz hj => ?_⟩, trivial⟩
          dsimp only at hz
          cases hz
          cases hj
          exact Nat.lt_succ_of_lt hown
      · exact h

theorem has_step {db : Db} (h : Has (fun _ => True) db) : Has (fun _ => True) (pqStep db).1 := call_keeps true_keeps .step trivial db h

theorem has_start {k : Nat} : ∀ (n : Nat) (db : Db), Has (fun _ => True) db → Has (fun _ => True) (start k n db).1
  | 0, _, h => h
  | n + 1, db, h => by
    rw [start]
    split
    · exact h
    · have h1 := has_step h
      cases hs : pqStep db with
      | mk d o =>
        rw [hs] at h1
        cases o with
        | ok =>
          dsimp only
          split
          · exact h1
          · exact has_start n d h1
        | dbError _ _ => exact h1
        | raised _ => exact h1
        | blocked => exact h1

theorem has_flush {k : Nat} : ∀ (n : Nat) (db : Db), Has (fun _ => True) db → Has (fun _ => True) (flush k n db).1
  | 0, _, h => h
  | n + 1, db, h => by
    rw [flush]
    split
    · exact h
    · have h1 := has_step h
      cases hs : pqStep db with
      | mk d o =>
        rw [hs] at h1
        cases o with
        | ok => exact has_flush n d h1
        | dbError _ _ => exact h1
        | raised _ => exact h1
        | blocked => exact h1

theorem has_feed {k n : Nat} : ∀ (ls : List (List Item)) (db : Db), Has (fun _ => True) db → Has (fun _ => True) (feed k n ls db).1
  | [], _, h => h
  | l :: ls, db, h => by
    rw [feed]
    have h1 := has_flush (k := k) n _ (has_give (k := k) (m := some l) h)
    cases hs : flush k n (give k (some l) db) with
    | mk d o =>
      rw [hs] at h1
      cases o with
      | ok => exact has_feed ls d h1
      | dbError _ _ => exact h1
      | raised _ => exact h1
      | blocked => exact h1

theorem has_send {f : Finalizers} {n k : Nat} {stmt : Bytes} {items : List (List Item)} {db : Db} (h : Has (fun _ => True) db) :
    Has (fun _ => True) (sendChunks f n stmt items db k).1 := by
  unfold sendChunks
  have h1 : Has (fun _ => True) (pqStart f n db (commands stmt)).1 := call_keeps true_keeps (.push f n (commands stmt)) trivial db h
  cases hs : pqStart f n db (commands stmt) with
  | mk d o =>
    rw [hs] at h1
    cases o with
    | ok =>
      dsimp only
      have h2 := has_start (k := k) n d h1
      cases ht : start k n d with
      | mk e o =>
        rw [ht] at h2
        cases o with
        | ok => exact has_feed items e h2
        | dbError _ _ => exact h2
        | raised _ => exact h2
        | blocked => exact h2
    | dbError _ _ => exact h1
    | raised _ => exact h1
    | blocked => exact h1

theorem ready_messages {k : Nat} {stmt : Bytes} {G : List Obj} {d : Conn Y} {x : IX} (hk : x.oid = k) (hr : Ready G stmt d x.inst) :
    dbOps.messages (.inst x) = objF k := by
  show (⟨x.oidOf, outItems x.inst⟩ : Obj) = objF k
  unfold IX.oidOf outItems objF
  rw [hr.fail]
  dsimp only
  rw [hk, hr.asked.pos, hr.asked.tail]
  rfl

/-- The calls of others: they do not touch the data of the load. -/
def others (a : Call) : Bool := match a with | .give _ => false | _ => true

/-- Both beginnings of what ends the COPY, other than in success. -/
theorem begins_cases {suf : Bytes} (h : suf <+: bytesOf (objF 0) ∨ bytesOf (objF 0) <+: suf ∨ suf <+: bytesOf (objS 0) ∨ bytesOf (objS 0) <+: suf) :
    Begins suf (frames [copyFail, syncMsg]) ∨ Begins suf (frames [syncMsg]) := by
  rw [objF_bytes, objS_bytes] at h
  rcases h with h | h | h | h
  · exact .inl (.inl h)
  · exact .inl (.inr h)
  · exact .inr (.inl h)
  · exact .inr (.inr h)

/-- **C52 (an interrupted load never commits).** When the iterable of chunks raises `e` after `chunks`, whose lines were sent: the load
raises `e`, the server got just these lines, and whatever is done with the connection later, what follows the lines on the wire
is CopyFail (or a Sync, of a forced synchronization): never CopyDone.  Unless a failure of the transaction is still unreported. -/
theorem C52_interrupted_never_commits (s : List SendEv) (r : List RecvEv) (st : Bytes) (before : List Call) (f : Finalizers) (n : Nat) (stmt : Bytes)
    (chunks : List (List Bytes)) (e : Err) (db' : Db) (c : Conn Y) (hc : connOf (calls (established s r st) before).1 = some c)
    (h : sendChunks f n stmt (asItems chunks) (calls (established s r st) before).1 c.nextId = (db', .ok)) :
    load f n stmt (asItems chunks) (some e) (calls (established s r st) before).1 = (db', .raised (.py e)) ∧
    (Unreported db' ∨ ∃ pre, wire (calls (established s r st) before).1 <+: pre ∧ wire db' = pre ++ upload stmt chunks.flatten ∧
      ∀ after : List Call, (∀ a ∈ after, others a = true) → ∃ suf, wire (calls db' after).1 = pre ++ upload stmt chunks.flatten ++ suf ∧
        (Begins suf (frames [copyFail, syncMsg]) ∨ Begins suf (frames [syncMsg]))) := by
  obtain ⟨c0, hc0, hb⟩ := history_conn s r st before
  generalize (calls (established s r st) before).1 = db at *
  have : c0 = c := by unfold connOf at hc; rw [hc0] at hc; exact Option.some.inj hc
  subst this
  constructor
  · unfold load
    rw [hc0]
    dsimp only
    rw [h]
  · obtain ⟨d, e1, g⟩ := sendChunks_spec hc0 hb h
    have hd : connOf db' = some d := by unfold connOf; rw [e1]
    rcases g with hp | ⟨c1, U, p0, _, hU, hlast, hi, x, hx, hk, hcm, hr⟩
    · obtain ⟨y, h1, h2⟩ := hp
      exact .inl ⟨d, y, hd, h1, h2⟩
    · right
      have hcl := hr.clean
      have hser : ∀ m ∈ squeeze c1.log ++ [objC c0.nextId stmt] ++ [objU] ++ U, Serializable m = true := by
        rw [← hr.log]; exact hcl.2.2
      have hw : d.wire = (squeeze c1.log ++ [objC c0.nextId stmt] ++ [objU] ++ U).flatMap bytesOf := by
        rw [← hr.log]; exact hcl.2.1
      have hall := all_bytes hU hser
      refine ⟨(squeeze c1.log).flatMap bytesOf, by rw [wire_of hc0]; exact p0.pre.trans (W_pre p0.b.i.1), by rw [wire_of e1, hw, hall], ?_⟩
      intro after ha
      have hbd : B d := by
        obtain ⟨d', k1, k2, _⟩ := has_send (f := f) (n := n) (k := c0.nextId) (stmt := stmt) (items := asItems chunks) (db := db) ⟨c0, hc0, hb, trivial⟩
        rw [h] at k1
        have k1 : db'.pq = .conn d' := k1
        rw [e1] at k1
        cases k1
        exact k2
      have hA : A (squeeze c1.log ++ [objC c0.nextId stmt] ++ [objU] ++ U) c0.nextId ((squeeze c1.log ++ [objC c0.nextId stmt] ++ [objU] ++ U).flatMap bytesOf) d := by
        refine ⟨hi, by rw [hw]; exact List.prefix_rfl, .inr ⟨hr.log, _, hx, .inl ⟨?_, .inl ?_⟩⟩⟩
        · show dirOf x.inst = .sending
          unfold dirOf; rw [hr.asked.state]
        · exact ready_messages hk hr
      obtain ⟨d2, k1, _, k3⟩ := calls_keeps (a_keeps hlast) after db' (fun a h => by have := ha a h; cases a <;> first | trivial | cases this) ⟨d, e1, hbd, hA⟩
      obtain ⟨suf, k4, k5⟩ := a_wire k3
      exact ⟨suf, by rw [wire_of k1, k4, hall], begins_cases k5⟩

/-! ## The hypotheses are met -/

/-- A server that runs a COPY; the socket accepts the data in pieces. -/
def copies (last : RecvEv) : Db := established [.sent 999, .sent 3, .sent 999, .err .tryAgain, .sent 999, .sent 999, .sent 999, .sent 999, .sent 999, .sent 999]
  [.data [50, 0, 0, 0, 4, 71, 0, 0, 0, 7, 0, 0, 0], last, .data [90, 0, 0, 0, 5, 73]] [73]
/-- `COPY 3`, and ready. -/
def copied : RecvEv := .data [67, 0, 0, 0, 11, 67, 79, 80, 89, 32, 51, 0, 90, 0, 0, 0, 5, 73]
/-- An error, and ready. -/
def refused : RecvEv := .data [69, 0, 0, 0, 12, 83, 69, 82, 82, 79, 82, 0, 0, 90, 0, 0, 0, 5, 73]
/-- Two chunks with three lines. -/
def lines : List (List Bytes) := [[[97, 10], [98, 10]], [[99, 10]]]

/-- `C52_load_all` and `C52_load_exact`: the load returns, the connection is open. -/
example : (load {} 20 [115] (asItems lines) none (calls (copies copied) []).1).2 = .ok ∧
    closed (load {} 20 [115] (asItems lines) none (calls (copies copied) []).1).1 = false ∧
    wire (load {} 20 [115] (asItems lines) none (calls (copies copied) []).1).1 =
      upload [115] [[97, 10], [98, 10], [99, 10]] ++ frames [copyDone, syncMsg, syncMsg] := by decide +kernel
example : Idle (calls (copies copied) []).1 ∧ NoGarbage (calls (copies copied) []).1 := by
  constructor
  · intro c hc; cases hc; rfl
  · intro c hc; cases hc; exact ⟨rfl, rfl⟩

/-- `C52_interrupted_never_commits`: the lines are sent, and the next operation sends CopyFail, and gets the error of the server for it. -/
example : (sendChunks {} 20 [115] (asItems lines) (copies refused) 1).2 = .ok ∧ (connOf (copies refused)).map (·.nextId) = some 1 ∧
    (call (sendChunks {} 20 [115] (asItems lines) (copies refused) 1).1 (.push {} 20 [.empty .synchronize])).2 = .dbError false (some (.server [([83], some [69, 82, 82, 79, 82])])) ∧
    wire (call (sendChunks {} 20 [115] (asItems lines) (copies refused) 1).1 (.push {} 20 [.empty .synchronize])).1 =
      upload [115] [[97, 10], [98, 10], [99, 10]] ++ frames [copyFail, syncMsg] := by decide +kernel

/-- **C52 (a finding: refused only after it was run).** Loading lines with a statement that is not a COPY raises the client's error, but only
after the server has run the statement (here it answered `INSERT 0 1` and is ready): its effects stay. -/
theorem C52_not_copy_is_run : ∃ db : Db,
    (load {} 20 [115] (asItems lines) none db).2 = .dbError false none ∧
    wire (load {} 20 [115] (asItems lines) none db).1 = upload [115] [] ∧ received (load {} 20 [115] (asItems lines) none db).1 = 
      frames [(50, []), (67, [73, 78, 83, 69, 82, 84, 32, 48, 32, 49, 0]), (90, [73])] :=
  ⟨established [.sent 999] [.data [50, 0, 0, 0, 4, 67, 0, 0, 0, 15, 73, 78, 83, 69, 82, 84, 32, 48, 32, 49, 0, 90, 0, 0, 0, 5, 73]] [73], by decide +kernel⟩

/-- **C52 (a finding: the error comes with the wrong operation).** After an iterable of chunks raised, the failure of the COPY is reported by
the next operation on the connection, which is not carried out: an unrelated one. -/
theorem C52_next_operation_fails : ∃ db : Db, ∃ f m,
    (load {} 20 [115] (asItems lines) (some .typeError) db).2 = .raised (.py .typeError) ∧
    (call (load {} 20 [115] (asItems lines) (some .typeError) db).1 (.push {} 20 [.str .query [120]])).2 = .dbError f m ∧
    wire (call (load {} 20 [115] (asItems lines) (some .typeError) db).1 (.push {} 20 [.str .query [120]])).1 = upload [115] lines.flatten ++ frames [copyFail, syncMsg] :=
  ⟨copies refused, false, some (.server [([83], some [69, 82, 82, 79, 82])]), by decide +kernel, by decide +kernel, by decide +kernel⟩

end PG.Props.CopyLoad
