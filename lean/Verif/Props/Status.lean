import Verif.Proofs.Status
import Verif.Props.Lifecycle
/-!
# C56: errors of the server are never swallowed; C57: the reported status is the one the server told last
-/
namespace PG.Props.Status
open PG PG.Element3 PG.Xact3 PG.Client3 PG.Lifecycle PG.Spec.Lifecycle PG.Spec.Status PG.Props.Lifecycle

/-! ## Errors -/

/-- The failed transaction is still the current one: nothing else can be done before it is completed. -/
def Unreported (db : Db) : Prop := ∃ c x, connOf db = some c ∧ c.xact = some x ∧ fatalOf x ≠ none

/-- Nothing waits to be closed on the server. -/
def NoGarbage (db : Db) : Prop := ∀ c, connOf db = some c → c.garbageCursors = [] ∧ c.garbageStatements = []

theorem start_few {s : List SendEv} {r : List RecvEv} {st : Bytes} {before : List Call} (hg : NoGarbage (calls (established s r st) before).1) :
    ∃ c, (calls (established s r st) before).1.pq = .conn c ∧ Few (errors (taken (calls (established s r st) before).1) + 1) c := by
  obtain ⟨c, hc, _⟩ := calls_keeps true_keeps before (established s r st) (fun _ _ => trivial) ⟨_, rfl, B_established s r st, trivial⟩
  have hco : connOf (calls (established s r st) before).1 = some c := by unfold connOf; rw [hc]
  refine ⟨c, hc, hg c hco, .inl ?_⟩
  unfold taken
  rw [hco]
  exact Nat.lt_succ_self _

theorem calls_cons (db : Db) (a : Call) (as : List Call) :
    (calls db (a :: as)).1 = (calls (call db a).1 as).1 ∧ (calls db (a :: as)).2 = (a, (call db a).2) :: (calls (call db a).1 as).2 := ⟨rfl, rfl⟩

/-- **C56 (no error is swallowed).** Whatever happened to a connection before, as long as nothing is left to be closed on the
server: if some call processes an ErrorResponse, then this call or a later one raises an error of a transaction, or else the failed
transaction is still the current one.  The calls: starting, stepping and completing transactions, COPY data, `connect()`, and any
behaviour of the socket. -/
theorem C56_errors_reported (s : List SendEv) (r : List RecvEv) (st : Bytes) (before : List Call) (a : Call) (after : List Call)
    (hg : NoGarbage (calls (established s r st) before).1) (hp : ∀ b ∈ a :: after, plainCall b = true)
    (hE : errors (taken (calls (established s r st) before).1) < errors (taken (call (calls (established s r st) before).1 a).1)) :
    (∃ b o, (b, o) ∈ (calls (calls (established s r st) before).1 (a :: after)).2 ∧ ∃ fatal m, o = .dbError fatal m) ∨
    Unreported (calls (calls (established s r st) before).1 (a :: after)).1 := by
  obtain ⟨c, hc, hf⟩ := start_few hg
  generalize (calls (established s r st) before).1 = db at *
  rw [(calls_cons db a after).1, (calls_cons db a after).2]
  by_cases h : ∃ p ∈ (a, (call db a).2) :: (calls (call db a).1 after).2, ∃ fatal m, p.2 = .dbError fatal m
  · obtain ⟨p, h1, h2⟩ := h
    exact .inl ⟨p.1, p.2, h1, h2⟩
  · have hno : ∀ p ∈ (a, (call db a).2) :: (calls (call db a).1 after).2, ∀ b m, p.2 ≠ .dbError b m := fun p hp b m e => h ⟨p, hp, b, m, e⟩
    refine .inr ?_
    obtain ⟨d, e1, e2⟩ := few_call a (hp a List.mem_cons_self) hc hf (fun b m => hno _ List.mem_cons_self b m)
    have hpd : Pend d := by
      rcases e2.few with e2 | e2
      · have ht : taken (call db a).1 = d.taken := by unfold taken connOf; rw [e1]
        rw [ht] at hE
        omega
      · exact e2
    obtain ⟨e, g1, g2⟩ := few_calls (n := 0) after (fun b hb => hp b (List.mem_cons_of_mem _ hb)) e1 ⟨e2.clean, .inr hpd⟩
      (fun p hp => hno p (List.mem_cons_of_mem _ hp))
    rcases g2.few with g2 | ⟨x, h1, h2⟩
    · exact absurd g2 (Nat.not_lt_zero _)
    · exact ⟨e, x, by unfold connOf; rw [g1], h1, h2⟩

/-- **C56 (success means there was no error)**: when completing a transaction returns, no ErrorResponse was processed by the call. -/
theorem C56_success_no_error (s : List SendEv) (r : List RecvEv) (st : Bytes) (before : List Call) (n : Nat)
    (hg : NoGarbage (calls (established s r st) before).1) (ho : (call (calls (established s r st) before).1 (.complete n)).2 = .ok) :
    errors (taken (call (calls (established s r st) before).1 (.complete n)).1) ≤ errors (taken (calls (established s r st) before).1) := by
  by_cases h : errors (taken (calls (established s r st) before).1) < errors (taken (call (calls (established s r st) before).1 (.complete n)).1)
  · exfalso
    rcases C56_errors_reported s r st before (.complete n) [] hg (fun b hb => by cases hb with | head => rfl | tail _ h => cases h) h with ⟨b, o, h1, f, m, h2⟩ | hu
    · rw [(calls_cons _ _ _).2] at h1
      cases h1 with
      | head => rw [ho] at h2; cases h2
      | tail _ h => cases h
    · obtain ⟨c, x, h1, h2, _⟩ := hu
      rw [(calls_cons _ _ _).1] at h1
      have h1 : connOf (pqComplete n (calls (established s r st) before).1).1 = some c := h1
      have ho : (pqComplete n (calls (established s r st) before).1).2 = .ok := ho
      generalize (calls (established s r st) before).1 = db at *
      unfold pqComplete at h1 ho
      cases hp : db.pq with
      | absent => rw [hp] at ho; cases ho
      | none => rw [hp] at ho; cases ho
      | conn c0 =>
        rw [hp] at h1 ho
        dsimp only at h1 ho
        cases hx0 : (plug db.socket c0).xact with
        | none =>
          have hc0 : c0.xact = none := by rw [← hx0]; cases db.socket <;> rfl
          rw [hx0] at h1
          dsimp only at h1
          unfold connOf at h1
          rw [hp] at h1
          cases h1
          rw [hc0] at h2
          cases h2
        | some y =>
          rw [hx0] at h1 ho
          dsimp only at h1 ho
          have hr := drive_ret dbOps_lawful n (plug db.socket c0) (drive dbOps n (plug db.socket c0)).1
          generalize drive dbOps n (plug db.socket c0) = z at h1 ho hr
          obtain ⟨d, r⟩ := z
          cases r with
          | raised e => cases ho
          | blocked => cases ho
          | ret u =>
            cases u
            obtain ⟨x', hx', hd⟩ := hr rfl
            dsimp only at ho h1 hx'
            rw [hx'] at ho h1
            dsimp only [Option.bind_some] at ho h1
            cases hf : fatalOf x' with
            | some b => rw [hf] at ho; cases ho
            | none =>
              rw [hf] at h1
              have hnone : (settle dbOps d).xact = none := by
                unfold settle
                rw [hx']
                dsimp only
                rw [if_neg (by rw [fatal_iff, hf]; simp)]
              cases hco : db.controller <;> rw [hco] at h1 <;> cases h1 <;> rw [hnone] at h2 <;> cases h2
  · exact Nat.le_of_not_lt h

/-- A query that the server rejects: Parse, Sync; answered by ErrorResponse and ReadyForQuery.  Then another transaction. -/
def rejected : Db := established [.sent 5, .sent 5] [.data ([69, 0, 0, 0, 12, 83, 69, 82, 82, 79, 82, 0, 0] ++ [90, 0, 0, 0, 5, 73])] [73]

/-- The hypotheses of `C56_errors_reported` are met: the call processes an error; it is raised, when stepping only by the last step. -/
example : NoGarbage (calls rejected [.push {} 3 [.empty .synchronize]]).1 ∧
    errors (taken (calls rejected [.push {} 3 [.empty .synchronize]]).1) < errors (taken (call (calls rejected [.push {} 3 [.empty .synchronize]]).1 .step).1) ∧
    (calls (calls rejected [.push {} 3 [.empty .synchronize]]).1 [.step]).2.map (·.2) = [.dbError false (some (.server [([83], some [69, 82, 82, 79, 82])]))] := by
  refine ⟨fun c hc => ?_, by decide +kernel, by decide +kernel⟩
  have : (c.garbageCursors, c.garbageStatements) = ([], []) := by
    have h : (connOf (calls rejected [.push {} 3 [.empty .synchronize]]).1).map (fun c => (c.garbageCursors, c.garbageStatements)) = some ([], []) := by decide +kernel
    rw [hc] at h
    exact Option.some.inj h
  exact ⟨congrArg Prod.fst this, congrArg Prod.snd this⟩

/-- The error comes before the status: the call that processes it raises nothing yet, the transaction is left as failed. -/
def late : Db := established [.sent 5, .sent 5] [.data [69, 0, 0, 0, 12, 83, 69, 82, 82, 79, 82, 0, 0], .data [90, 0, 0, 0, 5, 73]] [73]
example : (calls late [.push {} 3 [.empty .synchronize], .step]).2.map (·.2) = [.ok, .ok] ∧
    errors (taken (calls late [.push {} 3 [.empty .synchronize], .step]).1) = 1 ∧
    (calls late [.push {} 3 [.empty .synchronize], .step, .complete 9]).2.map (·.2) =
      [.ok, .ok, .dbError false (some (.server [([83], some [69, 82, 82, 79, 82])]))] := by decide +kernel
/-- The hypotheses of `C56_success_no_error` are met. -/
example : (call (calls ex [.push {} 3 [.empty .synchronize]]).1 (.complete 9)).2 = .ok := by decide +kernel

/-- **C56 (the finding: `close()` swallows errors).** A transaction is running whose error arrives while `close()` completes it:
`close()` returns and the error is lost. -/
theorem C56_close_swallows : ∃ (s : List SendEv) (r : List RecvEv) (before : List Call), let db := (calls (established s r [73]) before).1
    errors (taken db) = 0 ∧ errors (taken (call db (.close {} 9)).1) = 1 ∧ (call db (.close {} 9)).2 = .ok :=
  ⟨[.sent 5, .sent 5], [.data ([69, 0, 0, 0, 12, 83, 69, 82, 82, 79, 82, 0, 0] ++ [90, 0, 0, 0, 5, 73])], [.push {} 3 [.empty .synchronize]],
    by decide +kernel, by decide +kernel, by decide +kernel⟩

/-- **C56 (the finding: `synchronize()` swallows errors).** The same for the forced synchronization, whose errors, and those of the
transaction it completes, nobody looks at. -/
theorem C56_synchronize_swallows : ∃ (s : List SendEv) (r : List RecvEv) (before : List Call), let db := (calls (established s r [73]) before).1
    errors (taken db) = 0 ∧ errors (taken (call db (.synchronize 9)).1) = 1 ∧ (call db (.synchronize 9)).2 = .ok ∧ ¬ Unreported (call db (.synchronize 9)).1 :=
  ⟨[.sent 5, .sent 5], [.data ([69, 0, 0, 0, 12, 83, 69, 82, 82, 79, 82, 0, 0] ++ [90, 0, 0, 0, 5, 73]), .data [90, 0, 0, 0, 5, 73]], [.push {} 3 [.empty .synchronize]],
    by decide +kernel, by decide +kernel, by decide +kernel, by
      rintro ⟨c, x, h1, h2, _⟩
      have h : (connOf (call (calls (established [.sent 5, .sent 5] [.data ([69, 0, 0, 0, 12, 83, 69, 82, 82, 79, 82, 0, 0] ++ [90, 0, 0, 0, 5, 73]), .data [90, 0, 0, 0, 5, 73]] [73])
        [.push {} 3 [.empty .synchronize]]).1 (.synchronize 9)).1).map (fun c => c.xact.isSome) = some false := by decide +kernel
      rw [h1] at h
      have h : c.xact.isSome = false := Option.some.inj h
      rw [h2] at h
      cases h⟩

/-- **C56 (the finding: errors of closing cursors are swallowed)**: why nothing may wait to be closed.  The next transaction first
closes the cursor that was left; an error of this is lost, and the push returns. -/
theorem C56_trash_swallows : ∃ (s : List SendEv) (r : List RecvEv) (before : List Call), let db := (calls (established s r [73]) before).1
    errors (taken db) = 0 ∧ errors (taken (call db (.push {} 9 [.empty .synchronize])).1) = 1 ∧ (call db (.push {} 9 [.empty .synchronize])).2 = .ok ∧
      ¬ Unreported (call db (.push {} 9 [.empty .synchronize])).1 :=
  ⟨[.sent 13, .sent 5], [.data ([69, 0, 0, 0, 12, 83, 69, 82, 82, 79, 82, 0, 0] ++ [90, 0, 0, 0, 5, 73]), .data [90, 0, 0, 0, 5, 73]], [.trashCursor [65]],
    by decide +kernel, by decide +kernel, by decide +kernel, by
      rintro ⟨c, x, h1, h2, h3⟩
      have h : (connOf (call (calls (established [.sent 13, .sent 5] [.data ([69, 0, 0, 0, 12, 83, 69, 82, 82, 79, 82, 0, 0] ++ [90, 0, 0, 0, 5, 73]), .data [90, 0, 0, 0, 5, 73]] [73])
        [.trashCursor [65]]).1 (.push {} 9 [.empty .synchronize])).1).map (fun c => c.xact.bind fatalOf) = some none := by decide +kernel
      rw [h1] at h
      have h : c.xact.bind fatalOf = none := Option.some.inj h
      rw [h2] at h
      exact h3 h⟩

/-! ## Status -/

theorem call_failures (db : Db) (a : Call) (hc : ∃ c, db.pq = .conn c) : (call db a).1.failures = db.failures := by
  obtain ⟨c, hc⟩ := hc
  have hpush : ∀ (f : Finalizers) (n : Nat) (db : Db) (y : Y), (pqPush f n db y).1.failures = db.failures := by
    intro f n db y
    unfold pqPush
    cases db.pq with
    | absent => rfl
    | none => rfl
    | conn c =>
      dsimp only
      generalize plug db.socket c = p
      cases p.xact with
      | none => rfl
      | some x =>
        dsimp only
        generalize drive dbOps n p = z
        obtain ⟨d, r⟩ := z
        cases r with
        | raised e => rfl
        | blocked => rfl
        | ret u =>
          cases u
          dsimp only
          cases d.xact with
          | none => rfl
          | some x => dsimp only; cases fatalOf x <;> rfl
  cases a with
  | sock s r => unfold call onConn; rw [hc]
  | push f n cmds =>
    unfold call pqStart
    dsimp only
    rw [hc]
    dsimp only
    cases Xact3.init cmds with
    | error e => rfl
    | ok i => exact hpush f n _ _
  | complete n =>
    show (pqComplete n db).1.failures = db.failures
    unfold pqComplete
    rw [hc]
    dsimp only
    generalize plug db.socket c = p
    cases p.xact with
    | none => rfl
    | some x =>
      dsimp only
      generalize drive dbOps n p = z
      obtain ⟨d, r⟩ := z
      cases r with
      | raised e => rfl
      | blocked => rfl
      | ret u =>
        cases u
        dsimp only
        cases d.xact.bind fatalOf with
        | none => dsimp only; split <;> rfl
        | some b => rfl
  | step =>
    show (pqStep db).1.failures = db.failures
    unfold pqStep
    rw [hc]
    dsimp only
    generalize plug db.socket c = p
    cases p.xact with
    | none => rfl
    | some x =>
      dsimp only
      generalize stepRaw dbOps p = z
      obtain ⟨d, fin, r⟩ := z
      cases r with
      | raised e => rfl
      | blocked => rfl
      | ret u =>
        cases u
        dsimp only
        cases d.xact with
        | none => rfl
        | some x =>
          dsimp only
          split
          · cases fatalOf x with
            | none => dsimp only; split <;> rfl
            | some b => rfl
          · rfl
  | synchronize n =>
    show (pqSynchronize n db).1.failures = db.failures
    unfold pqSynchronize
    rw [hc]
  | give m =>
    show (pqGive m db).failures = db.failures
    unfold pqGive
    rw [hc]
    dsimp only
    cases c.xact with
    | none => rfl
    | some y =>
      cases y with
      | closing b => rfl
      | inst x =>
        dsimp only
        split
        · cases m <;> rfl
        · rfl
  | trashCursor i => unfold call onConn; rw [hc]
  | trashStatement i => unfold call onConn; rw [hc]
  | close f n =>
    show (close f n db).1.failures = db.failures
    unfold close
    rw [hc]
    dsimp only
    split
    · rfl
    · generalize closeFirst n c = z
      obtain ⟨d, r⟩ := z
      cases r with
      | raised e => rfl
      | blocked => rfl
      | ret u =>
        cases u
        dsimp only
        generalize closeSecond f n d = z
        obtain ⟨d, r⟩ := z
        cases r with
        | raised e => rfl
        | blocked => rfl
        | ret u => cases u; rfl
  | connect r =>
    show (connect r db).1.failures = db.failures
    rw [connect_pq r db hc]

theorem calls_failures : ∀ (as : List Call) (db : Db), Has (fun _ => True) db → (calls db as).1.failures = db.failures
  | [], db, _ => rfl
  | a :: as, db, h => by
    obtain ⟨c, hc, _⟩ := id h
    rw [(calls_cons db a as).1, calls_failures as _ (call_keeps true_keeps a trivial db h)]
    exact call_failures db a ⟨c, hc⟩

/-- **C57 (the status is the server's).** After any history of calls, of a connection without a running transaction: the status
it has is the one in the last ReadyForQuery processed, or the one it was connected with if there was none. -/
theorem C57_status (s : List SendEv) (r : List RecvEv) (st : Bytes) (as : List Call) (c : Conn Y)
    (hc : connOf (calls (established s r st) as).1 = some c) (hx : c.xact = none) :
    c.state = (lastStatus (taken (calls (established s r st) as).1)).getD st := by
  obtain ⟨d, h1, h2⟩ := status_calls s r st as
  have ht : taken (calls (established s r st) as).1 = c.taken := by unfold taken; rw [hc]
  unfold connOf at hc
  rw [h1] at hc
  cases hc
  rw [ht]
  rcases h2.status with ⟨y, h1, _⟩ | ⟨y, h1, _⟩ | ⟨y, h1, _⟩ | hs
  · rw [hx] at h1; cases h1
  · rw [hx] at h1; cases h1
  · rw [hx] at h1; cases h1
  · exact hs.idle hx

/-- **C57 (what the user sees).** After any history of calls, while no transaction is running, the name of the state is the meaning
of the last status the server sent: outside of a block, in a block, or in a failed block; and what was sent is one of these. -/
theorem C57_state (s : List SendEv) (r : List RecvEv) (st : Bytes) (as : List Call) (c : Conn Y)
    (hc : connOf (calls (established s r st) as).1 = some c) (hx : c.xact = none) (z : Bytes)
    (hz : lastStatus (taken (calls (established s r st) as).1) = some z) :
    (z = [73] ∧ state (calls (established s r st) as).1 = "idle") ∨ (z = [84] ∧ state (calls (established s r st) as).1 = "idle in block") ∨
    (z = [69] ∧ state (calls (established s r st) as).1 = "failed block") := by
  have h := C57_status s r st as c hc hx
  have hf : (calls (established s r st) as).1.failures = false := calls_failures as _ ⟨_, rfl, B_established s r st, trivial⟩
  obtain ⟨_, _, s3, s4, s5⟩ := C55_state _ c hc hf
  have hv : z = [73] ∨ z = [69] ∨ z = [84] := by
    obtain ⟨d, h1, h2⟩ := status_calls s r st as
    have ht : taken (calls (established s r st) as).1 = c.taken := by unfold taken; rw [hc]
    unfold connOf at hc
    rw [h1] at hc
    cases hc
    rw [ht] at hz
    rcases h2.status with ⟨y, h1, _⟩ | ⟨y, h1, _⟩ | ⟨y, h1, _⟩ | hs
    · rw [hx] at h1; cases h1
    · rw [hx] at h1; cases h1
    · rw [hx] at h1; cases h1
    · exact hs.valid z hz
  rw [hz] at h
  have h : c.state = z := h
  rcases hv with rfl | rfl | rfl
  · exact .inl ⟨rfl, s4.2 ⟨hx, h⟩⟩
  · exact .inr (.inr ⟨rfl, s3.2 ⟨hx, h⟩⟩)
  · exact .inr (.inl ⟨rfl, s5.2 ⟨hx, by rw [h]; decide, by rw [h]; decide⟩⟩)

/-- The hypotheses are met: the server is in a block after the first transaction, in a failed block after the second, and outside
after the third; an EAGAIN and a partial message in between. -/
def walk : Db := established [.sent 5, .err .tryAgain, .sent 2, .sent 3, .sent 5] [.data [90, 0, 0, 0, 5, 84], .data [90, 0, 0],
  .data ([0, 5, 69] ++ [90, 0, 0, 0, 5, 73])] [73]
example : [1, 2].map (fun k => state (calls walk ((List.replicate k used).flatten)).1) = ["idle in block", "failed block"] ∧
    (connOf (calls walk ((List.replicate 2 used).flatten)).1).map (fun c => c.xact.isSome) = some false ∧
    lastStatus (taken (calls walk ((List.replicate 2 used).flatten)).1) = some [69] := by decide +kernel

/-- **C57 (while a transaction is running, or lost, the status is not shown)**: "busy" or "closed". -/
theorem C57_busy (s : List SendEv) (r : List RecvEv) (st : Bytes) (as : List Call) (c : Conn Y)
    (hc : connOf (calls (established s r st) as).1 = some c) (hx : c.xact ≠ none) :
    state (calls (established s r st) as).1 = "busy" ∨ state (calls (established s r st) as).1 = "closed" := by
  have hf : (calls (established s r st) as).1.failures = false := calls_failures as _ ⟨_, rfl, B_established s r st, trivial⟩
  obtain ⟨s1, s2, _⟩ := C55_state _ c hc hf
  cases hcl : closed (calls (established s r st) as).1 with
  | true => exact .inr (s1.2 hcl)
  | false => exact .inl (s2.2 ⟨hcl, hx⟩)
example : state (calls walk [.push {} 3 [.empty .synchronize]]).1 = "busy" := by decide +kernel

end PG.Props.Status
