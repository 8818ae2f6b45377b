import Verif.Proofs.Lifecycle4
/-!
# C55: opening, closing and losing a connection
-/
namespace PG.Props.Lifecycle
open PG PG.Element3 PG.Xact3 PG.Client3 PG.Lifecycle PG.Spec.Lifecycle

/-! ## Closing -/

/-- Closed, without a socket, and nothing was exchanged since. -/
def Shut (w r : Bytes) (db : Db) : Prop := ∃ c, db.pq = .conn c ∧ B c ∧ Dead c ∧ db.socket = false ∧ c.wire = w ∧ c.received = r

theorem closeFirst_ret {n : Nat} {c d : Conn Y} (h : closeFirst n c = (d, .ret ())) :
    d.xact = none ∨ Dead d ∨ (d = c ∧ ∃ x, c.xact = some x ∧ fatalOf x = some true) := by
  unfold closeFirst at h
  cases hx : c.xact with
  | none => rw [hx] at h; cases h; exact .inl hx
  | some x =>
    rw [hx] at h
    dsimp only at h
    by_cases hf : fatalOf x = some true
    · rw [if_neg (fun h => h hf)] at h
      cases h
      exact .inr (.inr ⟨rfl, x, rfl, hf⟩)
    · rw [if_pos hf] at h
      rcases complete_dead h with h | h
      · exact .inl h
      · exact .inr (.inl h)

theorem complete_none {n : Nat} {c d : Conn Y} (h : complete dbOps n c = (d, .ret ())) (hn : c.xact = none) : False := by
  cases n with
  | zero => cases h
  | succ n => unfold complete at h; rw [hn] at h; cases h

theorem finishClosing_ret {n : Nat} {c d : Conn Y} (h : finishClosing n c = (d, .ret ())) : Dead d := by
  unfold finishClosing plainComplete at h
  cases hz : complete dbOps n c with
  | mk e r =>
    rw [hz] at h
    cases r with
    | raised e => cases h
    | blocked => cases h
    | ret u =>
      cases u
      dsimp only at h
      rcases complete_dead hz with he | he
      · exact (complete_none h he).elim
      · have := (complete_isDead (n := n) he).1
        rw [h] at this
        exact this

theorem closeSecond_ret {f : Finalizers} {n : Nat} {c d : Conn Y} (h : closeSecond f n c = (d, .ret ())) (hn : c.xact = none) : Dead d := by
  unfold closeSecond at h
  rw [hn] at h
  dsimp only at h
  cases hz : push dbOps f n c (.closing false) with
  | mk e r =>
    rw [hz] at h
    cases r with
    | raised e => cases h
    | blocked => cases h
    | ret u => cases u; exact finishClosing_ret h

theorem closeSecond_some {f : Finalizers} {n : Nat} {c : Conn Y} {x : Y} (hx : c.xact = some x) : closeSecond f n c = (c, .ret ()) := by
  unfold closeSecond; rw [hx]

theorem close_ret {f : Finalizers} {n : Nat} {db db' : Db} (h : close f n db = (db', .ok)) {c : Conn Y} (hc : db.pq = .conn c)
    (hs : db.socket = true) (hh : ¬ HalfFailed db) : ∃ d, db'.pq = .conn d ∧ Dead d ∧ db'.socket = false := by
  unfold close at h
  rw [hc] at h
  dsimp only at h
  rw [if_neg (by rw [hs]; simp)] at h
  cases hz : closeFirst n c with
  | mk d r =>
    rw [hz] at h
    cases r with
    | raised e => cases h
    | blocked => cases h
    | ret u =>
      cases u
      dsimp only at h
      cases hy : closeSecond f n d with
      | mk e r =>
        rw [hy] at h
        cases r with
        | raised e => cases h
        | blocked => cases h
        | ret u =>
          cases u
          cases h
          refine ⟨e, rfl, ?_, rfl⟩
          rcases closeFirst_ret hz with hn | hd | ⟨rfl, x, hx, hf⟩
          · exact closeSecond_ret hy hn
          · obtain ⟨x, hx, _⟩ := id hd
            rw [closeSecond_some hx] at hy
            cases hy
            exact hd
          · rw [closeSecond_some hx] at hy
            cases hy
            refine ⟨x, hx, ?_, hf⟩
            cases hdir : dbOps.dir x with
            | complete => rfl
            | sending => exact (hh ⟨_, x, by unfold connOf; rw [hc], hx, hf, by rw [hdir]; simp⟩).elim
            | receiving => exact (hh ⟨_, x, by unfold connOf; rw [hc], hx, hf, by rw [hdir]; simp⟩).elim

theorem pqStart_dead (f : Finalizers) (n : Nat) (db : Db) (cmds : List Elem) {c : Conn Y} (hc : db.pq = .conn c) (hd : Dead c) :
    Still db (pqStart f n db cmds) ∧ (pqStart f n db cmds).2 ≠ .ok := by
  unfold pqStart
  rw [hc]
  dsimp only
  cases Xact3.init cmds with
  | error e => exact ⟨⟨c, c, hc, hc, hd, rfl, rfl, id⟩, by simp⟩
  | ok i =>
    obtain ⟨⟨c', d, h1, h2, h3, h4, h5, h6⟩, h7⟩ := pqPush_dead f n { db with pq := .conn { c with nextId := c.nextId + 1 } } (.inst { inst := i, oid := c.nextId }) rfl hd
    cases h1
    exact ⟨⟨c, d, hc, h2, h3, h4, h5, h6⟩, h7⟩

theorem call_shut (a : Call) {db : Db} {w r : Bytes} (h : Shut w r db) :
    Shut w r (call db a).1 ∧ (needsServer a = true → (call db a).2 ≠ .ok) := by
  obtain ⟨c, hc, hb, hd, hs, hw, hr⟩ := h
  have hk := call_keeps true_keeps a trivial db ⟨c, hc, hb, trivial⟩
  have fin : Still db (call db a) → Shut w r (call db a).1 := by
    rintro ⟨c', d, h1, h2, h3, h4, h5, h6⟩
    obtain ⟨d', h7, h8, _⟩ := hk
    rw [hc] at h1
    cases h1
    rw [h2] at h7
    cases h7
    exact ⟨d, h2, h8, h3, h6 hs, h4.trans hw, h5.trans hr⟩
  cases a with
  | sock s r' =>
    refine ⟨fin ⟨c, { c with sends := c.sends ++ s, recvs := c.recvs ++ r' }, hc, ?_, hd, rfl, rfl, ?_⟩, fun h => by cases h⟩
    · unfold call onConn; rw [hc]
    · unfold call onConn; rw [hc]; exact id
  | push f n cmds => exact ⟨fin (pqStart_dead f n db cmds hc hd).1, fun _ => (pqStart_dead f n db cmds hc hd).2⟩
  | complete n => exact ⟨fin (pqComplete_dead n db hc hd).1, fun _ => (pqComplete_dead n db hc hd).2⟩
  | step => exact ⟨fin (pqStep_dead db hc hd).1, fun _ => (pqStep_dead db hc hd).2⟩
  | synchronize n =>
    obtain ⟨d, h1, h2, _, h4, h5, h6⟩ := pqSynchronize_dead n db hs hc hd (old_of_B hb)
    exact ⟨fin ⟨c, d, hc, h1, h2, h4, h5, fun _ => h6⟩, fun h => by cases h⟩
  | give m =>
    refine ⟨fin ⟨c, c, hc, ?_, hd, rfl, rfl, ?_⟩, fun h => by cases h⟩
    · unfold call; dsimp only; rw [pqGive_dead m db hc hd]; exact hc
    · unfold call; dsimp only; rw [pqGive_dead m db hc hd]; exact id
  | trashCursor i =>
    refine ⟨fin ⟨c, trashCursor c i, hc, ?_, hd, rfl, rfl, ?_⟩, fun h => by cases h⟩
    · unfold call onConn; rw [hc]
    · unfold call onConn; rw [hc]; exact id
  | trashStatement i =>
    refine ⟨fin ⟨c, trashStatement c i, hc, ?_, hd, rfl, rfl, ?_⟩, fun h => by cases h⟩
    · unfold call onConn; rw [hc]
    · unfold call onConn; rw [hc]; exact id
  | close f n => exact ⟨fin (close_dead f n db hc hd).1, fun h => by cases h⟩
  | connect r' =>
    refine ⟨fin ⟨c, c, hc, ?_, hd, rfl, rfl, ?_⟩, fun _ => (connect_dead r' db hc hd).2⟩
    · unfold call; rw [(connect_dead r' db hc hd).1]; exact hc
    · unfold call; rw [(connect_dead r' db hc hd).1]; exact id

theorem calls_shut : ∀ (as : List Call) {db : Db} {w r : Bytes}, Shut w r db →
    Shut w r (calls db as).1 ∧ ∀ a o, (a, o) ∈ (calls db as).2 → needsServer a = true → o ≠ .ok
  | [], db, w, r, h => ⟨h, fun a o hm => by cases hm⟩
  | a :: as, db, w, r, h => by
    obtain ⟨h1, h2⟩ := call_shut a h
    obtain ⟨h3, h4⟩ := calls_shut as h1
    refine ⟨h3, ?_⟩
    intro b o hm hn
    have hm : (b, o) ∈ (a, (call db a).2) :: (calls (call db a).1 as).2 := hm
    rcases List.mem_cons.1 hm with e | hm
    · cases e; exact h2 hn
    · exact h4 b o hm hn

theorem reached (s : List SendEv) (r : List RecvEv) (st : Bytes) (as : List Call) : Has (fun _ => True) (calls (established s r st) as).1 :=
  calls_keeps true_keeps as _ (fun _ _ => trivial) ⟨_, rfl, B_established s r st, trivial⟩

theorem shut_facts {db : Db} {w r : Bytes} (h : Shut w r db) : closed db = true ∧ db.socket = false ∧ wire db = w ∧ received db = r := by
  obtain ⟨c, hc, hb, hd, hs, hw, hr⟩ := h
  refine ⟨closed_dead db hc hd, hs, ?_, ?_⟩
  · unfold wire connOf; rw [hc]; exact hw
  · unfold received connOf; rw [hc]; exact hr

/-- **C55 (closed for good).** Take any history of a connection after its negotiation, in which its socket was not given up and no
step left a half-failed transaction.  Once `close()` returned: it is closed, its socket is gone, and whatever is called
afterwards, any number of times, it stays so, nothing is sent to the server or taken from it, and every call that needs the
server — starting, continuing or completing a transaction, connecting again — raises. -/
theorem C55_closed_for_good (s : List SendEv) (r : List RecvEv) (st : Bytes) (before after : List Call) (f : Finalizers) (n : Nat) (db' : Db)
    (hs : (calls (established s r st) before).1.socket = true) (hh : ¬ HalfFailed (calls (established s r st) before).1)
    (hcl : close f n (calls (established s r st) before).1 = (db', .ok)) :
    closed db' = true ∧ db'.socket = false ∧ closed (calls db' after).1 = true ∧ (calls db' after).1.socket = false ∧
      wire (calls db' after).1 = wire db' ∧ received (calls db' after).1 = received db' ∧
      ∀ a o, (a, o) ∈ (calls db' after).2 → needsServer a = true → o ≠ .ok := by
  obtain ⟨c, hc, hb, _⟩ := reached s r st before
  have hk := call_keeps true_keeps (.close f n) trivial _ ⟨c, hc, hb, trivial⟩
  obtain ⟨d, hd, hdead, hsock⟩ := close_ret hcl hc hs hh
  have hsh : Shut (wire db') (received db') db' := by
    refine ⟨d, hd, ?_, hdead, hsock, ?_, ?_⟩
    · obtain ⟨d', h1, h2, _⟩ := hk
      have : (call (calls (established s r st) before).1 (.close f n)).1 = db' := by
        show (close f n _).1 = db'
        rw [hcl]
      rw [this, hd] at h1
      cases h1
      exact h2
    · unfold wire connOf; rw [hd]
    · unfold received connOf; rw [hd]
  obtain ⟨h1, h2⟩ := calls_shut after hsh
  obtain ⟨a1, a2, _⟩ := shut_facts hsh
  obtain ⟨b1, b2, b3, b4⟩ := shut_facts h1
  exact ⟨a1, a2, b1, b2, b3, b4, h2⟩

/-- **C55 (closing a lost or closed connection).** Closing a connection whose transaction failed fatally (so also one that was
closed) always succeeds, sends nothing, and gives up the socket. -/
theorem C55_close_lost (f : Finalizers) (n : Nat) (db : Db) (hc : closed db = true) (hp : ∃ c, connOf db = some c) (hh : ¬ HalfFailed db) :
    (close f n db).2 = .ok ∧ closed (close f n db).1 = true ∧ (close f n db).1.socket = false ∧ wire (close f n db).1 = wire db := by
  obtain ⟨c, hp⟩ := hp
  have hpq : db.pq = .conn c := by
    unfold connOf at hp
    cases h : db.pq <;> rw [h] at hp <;> cases hp
    rfl
  have hd : Dead c := by
    unfold closed at hc
    rw [hpq] at hc
    dsimp only at hc
    cases hx : c.xact with
    | none => rw [hx] at hc; cases hc
    | some x =>
      rw [hx] at hc
      have hf : fatalOf x = some true := by simpa using hc
      refine ⟨x, hx, ?_, hf⟩
      cases hdir : dbOps.dir x with
      | complete => rfl
      | sending => exact (hh ⟨_, x, hp, hx, hf, by rw [hdir]; simp⟩).elim
      | receiving => exact (hh ⟨_, x, hp, hx, hf, by rw [hdir]; simp⟩).elim
  obtain ⟨_, h1, h2, h3⟩ := close_dead f n db hpq hd
  refine ⟨h1, ?_, h2, ?_⟩
  · exact closed_dead _ (h3.trans hpq) hd
  · unfold wire connOf; rw [h3]

/-! ## Nothing fails in the middle of a step -/

theorem reachedJ {s : List SendEv} (hs : SendEv.err .fatal ∉ s) (r : List RecvEv) (st : Bytes) (as : List Call)
    (hq : ∀ a ∈ as, ∀ s' r', a = .sock s' r' → SendEv.err .fatal ∉ s') : Has J (calls (established s r st) as).1 := by
  refine calls_keeps J_keeps as _ (fun a ha => ?_) ⟨_, rfl, B_established s r st, J_established hs r st⟩
  cases a <;> first | exact hq _ ha _ _ rfl | trivial

/-- A history in which no send failed with a fatal error of the socket leaves no half-failed transaction. -/
theorem C55_never_half_failed (s : List SendEv) (r : List RecvEv) (st : Bytes) (before : List Call) (hs : SendEv.err .fatal ∉ s)
    (hq : ∀ a ∈ before, ∀ s' r', a = .sock s' r' → SendEv.err .fatal ∉ s') : ¬ HalfFailed (calls (established s r st) before).1 := by
  obtain ⟨c, hc, _, hj⟩ := reachedJ hs r st before hq
  rintro ⟨c', x, h1, h2, h3, h4⟩
  unfold connOf at h1
  rw [hc] at h1
  cases h1
  exact h4 (hj.whole x h2 h3)

/-! ## The Terminate message -/

theorem connOf_eq {db : Db} {c : Conn Y} (h : connOf db = some c) : db.pq = .conn c := by
  unfold connOf at h
  cases hp : db.pq <;> rw [hp] at h <;> cases h
  rfl

/-- **C55 (goodbye).** Take any history in which no send failed with a fatal error of the socket, that left the connection idle with nothing
to be closed on the server.  If `close()` returns, and the sends it made did not fail (other than to be tried again), exactly
the Terminate message was sent, complete, and nothing else. -/
theorem C55_terminate (s : List SendEv) (r : List RecvEv) (st : Bytes) (before : List Call) (f : Finalizers) (n : Nat) (db' : Db) (c : Conn Y)
    (hs : SendEv.err .fatal ∉ s) (hq : ∀ a ∈ before, ∀ s' r', a = .sock s' r' → SendEv.err .fatal ∉ s')
    (hc : connOf (calls (established s r st) before).1 = some c) (hx : c.xact = none) (hg : c.garbageCursors = [] ∧ c.garbageStatements = [])
    (ho : SendEv.err .other ∉ c.sends) (hso : (calls (established s r st) before).1.socket = true)
    (hcl : close f n (calls (established s r st) before).1 = (db', .ok)) :
    wire db' = wire (calls (established s r st) before).1 ++ terminate := by
  obtain ⟨c', hc', _, hj⟩ := reachedJ hs r st before hq
  have hpq := connOf_eq hc
  rw [hc'] at hpq
  cases hpq
  unfold close at hcl
  rw [hc'] at hcl
  dsimp only at hcl
  rw [if_neg (by rw [hso]; simp)] at hcl
  have h1 : closeFirst n c = (c, .ret ()) := by unfold closeFirst; rw [hx]
  rw [h1] at hcl
  dsimp only at hcl
  cases hy : closeSecond f n c with
  | mk e r =>
    rw [hy] at hcl
    cases r with
    | raised e => cases hcl
    | blocked => cases hcl
    | ret u =>
      cases u
      cases hcl
      have hk : K c.wire c := ⟨hj, ⟨hj.quiet, ho⟩, fun y h => by rw [hx] at h; (cases h), List.prefix_rfl⟩
      rcases closeSecond_gone hk hx hy with ⟨g, h1, h2, h3⟩ | ⟨_, _, h3⟩
      · unfold wire
        rw [hc]
        show e.wire = c.wire ++ terminate
        rw [h1.wire, h3 hg.2 hg.1]
      · exact absurd ⟨hg.2, hg.1⟩ h3

/-- **C55 (goodbye, busy).** The same for a connection with a running transaction and garbage, in a history without an earlier `close()`:
if `close()` returns, either what had been sent, then whatever finished the running transaction and closed the garbage, then
the complete Terminate message was sent and nothing else; or the transaction that had to be finished failed fatally, and the
connection keeps it. -/
theorem C55_terminate_busy (s : List SendEv) (r : List RecvEv) (st : Bytes) (before : List Call) (f : Finalizers) (n : Nat) (db' : Db) (c : Conn Y)
    (hs : SendEv.err .fatal ∉ s) (hq : ∀ a ∈ before, ∀ s' r', a = .sock s' r' → SendEv.err .fatal ∉ s')
    (hnc : ∀ a ∈ before, ∀ f n, a ≠ .close f n)
    (hc : connOf (calls (established s r st) before).1 = some c) (ho : SendEv.err .other ∉ c.sends)
    (hso : (calls (established s r st) before).1.socket = true) (hcl : close f n (calls (established s r st) before).1 = (db', .ok)) :
    (∃ pre, c.wire <+: pre ∧ wire db' = pre ++ terminate) ∨
    (∃ d x, connOf db' = some d ∧ d.xact = some (.inst x) ∧ fatalOf (.inst x) = some true) := by
  have hp : Has (fun c => J c ∧ Plain c) (calls (established s r st) before).1 := by
    refine calls_keeps plain_keeps before _ (fun a ha => ?_) ⟨_, rfl, B_established s r st, J_established hs r st, fun y hy => by cases hy⟩
    cases a <;> first | exact hq _ ha _ _ rfl | exact (hnc _ ha _ _ rfl).elim | trivial
  obtain ⟨c', hc', _, hj, hpl⟩ := hp
  have hpq := connOf_eq hc
  rw [hc'] at hpq
  cases hpq
  unfold close at hcl
  rw [hc'] at hcl
  dsimp only at hcl
  rw [if_neg (by rw [hso]; simp)] at hcl
  have hk : K c.wire c := ⟨hj, ⟨hj.quiet, ho⟩, hpl, List.prefix_rfl⟩
  have hk1 := closeFirst_keeps (K_pres c.wire).toPres n c hk
  cases hz : closeFirst n c with
  | mk d r =>
    rw [hz] at hcl hk1
    cases r with
    | raised e => cases hcl
    | blocked => cases hcl
    | ret u =>
      cases u
      dsimp only at hcl hk1
      cases hy : closeSecond f n d with
      | mk e r =>
        rw [hy] at hcl
        cases r with
        | raised e => cases hcl
        | blocked => cases hcl
        | ret u =>
          cases u
          cases hcl
          have lost : Dead e → Plain e → ∃ d x, connOf { (calls (established s r st) before).1 with pq := .conn e, socket := false } = some d ∧
              d.xact = some (.inst x) ∧ fatalOf (.inst x) = some true := by
            rintro ⟨x, h1, _, h2⟩ h3
            obtain ⟨x', rfl⟩ := h3 x h1
            exact ⟨e, x', rfl, h1, h2⟩
          have keep : ∀ x, d.xact = some x → fatalOf x = some true → ∃ d x, connOf { (calls (established s r st) before).1 with pq := .conn e, socket := false } = some d ∧
              d.xact = some (.inst x) ∧ fatalOf (.inst x) = some true := by
            intro x h1 h2
            rw [closeSecond_some h1] at hy
            cases hy
            obtain ⟨x', rfl⟩ := hk1.plain x h1
            exact ⟨d, x', rfl, h1, h2⟩
          rcases closeFirst_ret hz with hn | ⟨x, h1, _, h2⟩ | ⟨rfl, x, h1, h2⟩
          · rcases closeSecond_gone hk1 hn hy with ⟨g, h1, h2, h3⟩ | ⟨h1, h2, _⟩
            · exact .inl ⟨_, h2, h1.wire⟩
            · exact .inr (lost h1 h2)
          · exact .inr (keep x h1 h2)
          · exact .inr (keep x h1 h2)

/-! ## Losing the connection -/

theorem step_fin {p d : Conn Y} {x0 x : Y} (h : stepRaw dbOps p = (d, false, .ret ())) (hx : p.xact = some x0) (hx' : d.xact = some x)
    (hd : dbOps.dir x = .complete) : fatalOf x = some true := by
  have hh : ∀ (c : Conn Y) (e : CErr), SameOrFailed dbOps p c → dbOps.dir x0 ≠ .complete →
      (match stepHandler c e with | (c, r) => ((c, false, r) : Conn Y × Bool × Res Unit)) = (d, false, .ret ()) → fatalOf x = some true := by
    intro c e hs h0 he
    have : d = c := by
      cases e with
      | py e => cases he
      | sock k => cases k <;> cases he <;> rfl
    subst this
    rcases hs with hs | hs <;> rw [hs, hx] at hx' <;> cases hx'
    · exact absurd hd h0
    · exact (fatal_iff _).1 (dbOps_lawful.fail_fatal x0)
  unfold stepRaw at h
  rw [hx] at h
  dsimp only at h
  cases hdir : dbOps.dir x0 with
  | complete => rw [hdir] at h; cases h
  | sending =>
    rw [hdir] at h
    dsimp only at h
    have hw := writeMessages_same dbOps p (dbOps.messages x0)
    cases hz : writeMessages dbOps p (dbOps.messages x0) with
    | mk q r =>
      rw [hz] at h hw
      cases r with
      | ret b => cases h
      | blocked => cases h
      | raised e => exact hh q e hw (by rw [hdir]; simp) h
  | receiving =>
    rw [hdir] at h
    dsimp only at h
    have hw := readMessages_same dbOps p
    cases hz : readMessages dbOps p with
    | mk q r =>
      rw [hz] at h hw
      cases r with
      | blocked => cases h
      | raised e => exact hh q e hw (by rw [hdir]; simp) h
      | ret b =>
        dsimp only at h
        have hp : ∀ r, (putRead dbOps q x0 (q.xact.getD x0)).2 = .raised r → ∃ e, r = .py e := by
          unfold putRead
          generalize dbOps.put x0 (q.xact.getD x0) q.read = z
          obtain ⟨y, r⟩ := z
          intro r' h
          cases r with
          | error e => cases h; exact ⟨e, rfl⟩
          | ok k => cases h
        generalize putRead dbOps q x0 (q.xact.getD x0) = z at h hp
        obtain ⟨q', r⟩ := z
        cases r with
        | ret u => cases u; cases h
        | blocked => cases h
        | raised e =>
          obtain ⟨e', rfl⟩ := hp e rfl
          cases h

/-- The calls that can raise the error of a transaction. -/
def drives : Call → Bool
  | .push _ _ _ | .complete _ | .step => true
  | _ => false

theorem push_error {f : Finalizers} {n : Nat} {db db' : Db} {y : Y} {b : Bool} {m : Option ErrMsg} (h : pqPush f n db y = (db', .dbError b m)) :
    ∃ d, db'.pq = .conn d ∧ if b then Dead d else d.xact = none := by
  unfold pqPush at h
  cases hp : db.pq with
  | absent => rw [hp] at h; cases h
  | none => rw [hp] at h; cases h
  | conn c =>
    rw [hp] at h
    dsimp only at h
    have go : ∀ e : Conn Y, ∀ d : Db, (({ d with pq := .conn (push dbOps f n e y).1, controller := true } : Db), outOf (push dbOps f n e y).2) ≠ (db', .dbError b m) := by
      intro e d h
      have := congrArg Prod.snd h
      dsimp only at this
      generalize (push dbOps f n e y).2 = r at this
      cases r <;> cases this
    cases hx : (plug db.socket c).xact with
    | none => rw [hx] at h; exact (go _ _ h).elim
    | some x0 =>
      rw [hx] at h
      dsimp only at h
      have hr := drive_ret dbOps_lawful n (plug db.socket c) (drive dbOps n (plug db.socket c)).1
      generalize drive dbOps n (plug db.socket c) = z at h hr
      obtain ⟨d, r⟩ := z
      cases r with
      | raised e => cases h
      | blocked => cases h
      | ret u =>
        cases u
        obtain ⟨x, hx', hd⟩ := hr rfl
        dsimp only at h hx' hd
        rw [hx'] at h
        dsimp only at h
        cases hf : fatalOf x with
        | none => rw [hf] at h; exact (go _ _ h).elim
        | some b' =>
          rw [hf] at h
          cases h
          refine ⟨_, rfl, ?_⟩
          cases b with
          | true => rw [if_pos rfl, settle_dead ⟨x, hx', hd, hf⟩]; exact ⟨x, hx', hd, hf⟩
          | false =>
            rw [if_neg (by simp)]
            unfold settle
            rw [hx']
            dsimp only
            rw [if_neg]
            intro h
            rw [(fatal_iff x).1 h] at hf
            cases hf

theorem drives_error {a : Call} {db db' : Db} {b : Bool} {m : Option ErrMsg} (ha : drives a = true) (h : call db a = (db', .dbError b m)) :
    ∃ d, db'.pq = .conn d ∧ if b then Dead d else d.xact = none := by
  cases a with
  | push f n cmds =>
    have h : pqStart f n db cmds = (db', .dbError b m) := h
    unfold pqStart at h
    split at h
    · split at h
      · cases h
      · exact push_error h
    · cases h
  | complete n =>
    have h : pqComplete n db = (db', .dbError b m) := h
    unfold pqComplete at h
    cases hp : db.pq with
    | absent => rw [hp] at h; cases h
    | none => rw [hp] at h; cases h
    | conn c =>
      rw [hp] at h
      dsimp only at h
      cases hx : (plug db.socket c).xact with
      | none => rw [hx] at h; cases h
      | some x0 =>
        rw [hx] at h
        dsimp only at h
        have hr := drive_ret dbOps_lawful n (plug db.socket c) (drive dbOps n (plug db.socket c)).1
        generalize drive dbOps n (plug db.socket c) = z at h hr
        obtain ⟨d, r⟩ := z
        cases r with
        | raised e => cases h
        | blocked => cases h
        | ret u =>
          cases u
          obtain ⟨x, hx', hd⟩ := hr rfl
          dsimp only at h hx' hd
          rw [hx'] at h
          dsimp only [Option.bind_some] at h
          cases hf : fatalOf x with
          | none =>
            rw [hf] at h
            dsimp only at h
            split at h <;> cases h
          | some b' =>
            rw [hf] at h
            cases h
            refine ⟨_, rfl, ?_⟩
            cases b with
            | true => rw [if_pos rfl, settle_dead ⟨x, hx', hd, hf⟩]; exact ⟨x, hx', hd, hf⟩
            | false =>
              rw [if_neg (by simp)]
              unfold settle
              rw [hx']
              dsimp only
              rw [if_neg]
              intro h
              rw [(fatal_iff x).1 h] at hf
              cases hf
  | step =>
    have h : pqStep db = (db', .dbError b m) := h
    unfold pqStep at h
    cases hp : db.pq with
    | absent => rw [hp] at h; cases h
    | none => rw [hp] at h; cases h
    | conn c =>
      rw [hp] at h
      dsimp only at h
      generalize plug db.socket c = p at h
      cases hx : p.xact with
      | none => rw [hx] at h; cases h
      | some x0 =>
        rw [hx] at h
        dsimp only at h
        cases hz : stepRaw dbOps p with
        | mk d q =>
          obtain ⟨fin, r⟩ := q
          rw [hz] at h
          cases r with
          | raised e => cases h
          | blocked => cases h
          | ret u =>
            cases u
            dsimp only at h
            cases hx' : d.xact with
            | none => rw [hx'] at h; cases h
            | some x =>
              rw [hx'] at h
              dsimp only at h
              by_cases hd : dbOps.dir x = .complete
              · rw [if_pos hd] at h
                cases hf : fatalOf x with
                | none =>
                  rw [hf] at h
                  dsimp only at h
                  split at h <;> cases h
                | some b' =>
                  rw [hf] at h
                  cases h
                  refine ⟨_, rfl, ?_⟩
                  cases b with
                  | true =>
                    rw [if_pos (rfl : true = true)]
                    cases fin with
                    | false => rw [if_neg (by simp)]; exact ⟨x, hx', hd, hf⟩
                    | true =>
                      rw [if_pos (rfl : true = true)]
                      unfold stepEnd
                      rw [hx']
                      dsimp only
                      rw [if_neg (fun h => by rw [(fatal_iff x).2 hf] at h; cases h.2)]
                      exact ⟨x, hx', hd, hf⟩
                  | false =>
                    rw [if_neg (show ¬ (false = true) by simp)]
                    cases fin with
                    | false =>
                      rw [step_fin hz hx hx' hd] at hf
                      cases hf
                    | true =>
                      rw [if_pos (rfl : true = true)]
                      unfold stepEnd
                      rw [hx']
                      dsimp only
                      rw [if_pos]
                      refine ⟨hd, ?_⟩
                      cases hb : dbOps.fatal x with
                      | false => rfl
                      | true => rw [(fatal_iff x).1 hb] at hf; cases hf
              · rw [if_neg hd] at h
                cases h
  | _ => cases ha

theorem call_still (a : Call) {db : Db} {c : Conn Y} (hc : db.pq = .conn c) (hd : Dead c) (hn : ∀ n, a ≠ .synchronize n) :
    Still db (call db a) ∧ (needsServer a = true → (call db a).2 ≠ .ok) := by
  cases a with
  | sock s r' =>
    refine ⟨⟨c, { c with sends := c.sends ++ s, recvs := c.recvs ++ r' }, hc, ?_, hd, rfl, rfl, ?_⟩, fun h => by cases h⟩
    · unfold call onConn; rw [hc]
    · unfold call onConn; rw [hc]; exact id
  | push f n cmds => exact ⟨(pqStart_dead f n db cmds hc hd).1, fun _ => (pqStart_dead f n db cmds hc hd).2⟩
  | complete n => exact ⟨(pqComplete_dead n db hc hd).1, fun _ => (pqComplete_dead n db hc hd).2⟩
  | step => exact ⟨(pqStep_dead db hc hd).1, fun _ => (pqStep_dead db hc hd).2⟩
  | synchronize n => exact (hn n rfl).elim
  | give m =>
    refine ⟨⟨c, c, hc, ?_, hd, rfl, rfl, ?_⟩, fun h => by cases h⟩
    · unfold call; dsimp only; rw [pqGive_dead m db hc hd]; exact hc
    · unfold call; dsimp only; rw [pqGive_dead m db hc hd]; exact id
  | trashCursor i =>
    refine ⟨⟨c, trashCursor c i, hc, ?_, hd, rfl, rfl, ?_⟩, fun h => by cases h⟩
    · unfold call onConn; rw [hc]
    · unfold call onConn; rw [hc]; exact id
  | trashStatement i =>
    refine ⟨⟨c, trashStatement c i, hc, ?_, hd, rfl, rfl, ?_⟩, fun h => by cases h⟩
    · unfold call onConn; rw [hc]
    · unfold call onConn; rw [hc]; exact id
  | close f n => exact ⟨(close_dead f n db hc hd).1, fun h => by cases h⟩
  | connect r' =>
    refine ⟨⟨c, c, hc, ?_, hd, rfl, rfl, ?_⟩, fun _ => (connect_dead r' db hc hd).2⟩
    · unfold call; rw [(connect_dead r' db hc hd).1]; exact hc
    · unfold call; rw [(connect_dead r' db hc hd).1]; exact id

theorem calls_still : ∀ (as : List Call) {db : Db} {c : Conn Y}, db.pq = .conn c → Dead c → (∀ a ∈ as, ∀ n, a ≠ .synchronize n) →
    (∃ d, (calls db as).1.pq = .conn d ∧ Dead d ∧ d.wire = c.wire ∧ d.received = c.received) ∧
    ∀ a o, (a, o) ∈ (calls db as).2 → needsServer a = true → o ≠ .ok
  | [], db, c, hc, hd, _ => ⟨⟨c, hc, hd, rfl, rfl⟩, fun a o hm => by cases hm⟩
  | a :: as, db, c, hc, hd, hn => by
    obtain ⟨⟨c', d, h1, h2, h3, h4, h5, _⟩, h6⟩ := call_still a hc hd (hn a List.mem_cons_self)
    rw [hc] at h1
    cases h1
    obtain ⟨⟨e, a1, a2, a3, a4⟩, a5⟩ := calls_still as h2 h3 (fun b hb => hn b (List.mem_cons_of_mem _ hb))
    refine ⟨⟨e, a1, a2, a3.trans h4, a4.trans h5⟩, ?_⟩
    intro b o hm hb
    have hm : (b, o) ∈ (a, (call db a).2) :: (calls (call db a).1 as).2 := hm
    rcases List.mem_cons.1 hm with e | hm
    · cases e; exact h6 hb
    · exact a5 b o hm hb

/-- **C55 (a fatal error is final).** When starting, continuing or completing a transaction raised an error that is fatal to the
connection (a protocol violation, an error of the server that is not of severity ERROR, a lost socket): the connection is closed,
and stays so whatever is called afterwards but a forced synchronization; nothing more is sent or taken, and every call that
needs the server raises. -/
theorem C55_fatal_is_final (db db' : Db) (a : Call) (m : Option ErrMsg) (after : List Call) (ha : drives a = true)
    (h : call db a = (db', .dbError true m)) (hn : ∀ b ∈ after, ∀ n, b ≠ .synchronize n) :
    closed db' = true ∧ closed (calls db' after).1 = true ∧ wire (calls db' after).1 = wire db' ∧ received (calls db' after).1 = received db' ∧
      ∀ b o, (b, o) ∈ (calls db' after).2 → needsServer b = true → o ≠ .ok := by
  obtain ⟨d, h1, h2⟩ := drives_error ha h
  rw [if_pos rfl] at h2
  obtain ⟨⟨e, a1, a2, a3, a4⟩, a5⟩ := calls_still after h1 h2 hn
  refine ⟨closed_dead _ h1 h2, closed_dead _ a1 a2, ?_, ?_, a5⟩
  · unfold wire connOf; rw [h1, a1]; exact a3
  · unfold received connOf; rw [h1, a1]; exact a4

/-- **C55 (other errors leave it usable).** When the error is not fatal, the connection is not closed and idle: it can be used
for the next transaction. -/
theorem C55_error_keeps_open (db db' : Db) (a : Call) (m : Option ErrMsg) (ha : drives a = true) (h : call db a = (db', .dbError false m)) :
    closed db' = false ∧ ∃ c, connOf db' = some c ∧ c.xact = none := by
  obtain ⟨d, h1, h2⟩ := drives_error ha h
  rw [if_neg (by simp)] at h2
  refine ⟨?_, d, by unfold connOf; rw [h1], h2⟩
  unfold closed
  rw [h1]
  dsimp only
  rw [h2]

/-! ## Connecting and the names of the states -/

/-- **C55 (connecting an open connection)** does nothing. -/
theorem C55_connect_open (r : Established) (db : Db) (h : closed db = false) : connect r db = (db, .ok) := by
  unfold connect; rw [if_pos h]

/-- **C55 (connecting)**: a new connection object is closed, and after a successful `connect()` it is not; nothing was sent yet
by it but the negotiation. -/
theorem C55_connect (c : Conn Y) : closed { pq := .absent } = true ∧ (connect (.connected c) { pq := .absent }).2 = .ok ∧
    closed (connect (.connected c) { pq := .absent }).1 = false := by
  refine ⟨rfl, ?_, ?_⟩ <;> rfl

/-- **C55 (the finding: no second attempt).** After a `connect()` that could not reach the server, every further `connect()`
raises an AttributeError instead of trying: the attribute `pq` is `None`, and `connect()` looks for its transaction. -/
theorem C55_connect_again_fails (r : Established) : (connect .cannotConnect { pq := .absent }).2 = .dbError true none ∧
    connect r (connect .cannotConnect { pq := .absent }).1 = ((connect .cannotConnect { pq := .absent }).1, .raised (.py .attributeError)) :=
  ⟨rfl, rfl⟩

/-- **C55 (the names of the states)**: of a connection that was opened: closed or lost, a transaction is running, or none is and the
server said it is in a failed block, outside of a block, or (anything else) in a block. -/
theorem C55_state (db : Db) (c : Conn Y) (hc : connOf db = some c) (hf : db.failures = false) :
    (state db = "closed" ↔ closed db = true) ∧
    (state db = "busy" ↔ closed db = false ∧ c.xact ≠ none) ∧
    (state db = "failed block" ↔ c.xact = none ∧ c.state = [69]) ∧
    (state db = "idle" ↔ c.xact = none ∧ c.state = [73]) ∧
    (state db = "idle in block" ↔ c.xact = none ∧ c.state ≠ [69] ∧ c.state ≠ [73]) := by
  have hp := connOf_eq hc
  have hst : state db = if closed db then "closed" else match c.xact with
      | none => if c.state = [69] then "failed block" else if c.state ≠ [73] then "idle in block" else "idle"
      | some _ => "busy" := by
    unfold state
    rw [hp]
    dsimp only
    rw [hf, if_neg (by simp)]
    cases c.xact <;> rfl
  have hcl : c.xact = none → closed db = false := by
    intro hx
    unfold closed
    rw [hp]
    dsimp only
    rw [hx]
  rw [hst]
  cases hd : closed db with
  | true =>
    rw [if_pos rfl]
    have hx : c.xact ≠ none := fun hx => by rw [hcl hx] at hd; cases hd
    simp [hx]
  | false =>
    rw [if_neg (by simp)]
    cases hx : c.xact with
    | some x => simp
    | none =>
      dsimp only
      by_cases h1 : c.state = [69]
      · rw [if_pos h1, h1]; simp
      · rw [if_neg h1]
        by_cases h2 : c.state = [73]
        · rw [if_neg (fun h => h h2), h2]; simp
        · rw [if_pos h2]; simp [h1, h2]

/-! ## Cases -/

/-- A transaction with a Synchronize, answered by ReadyForQuery (outside of a block). -/
def used : List Call := [.push {} 3 [.empty .synchronize], .complete 9]
/-- The socket of the example: two sends of five bytes, of which the second is interrupted once by EAGAIN. -/
def ex : Db := established [.sent 5, .err .tryAgain, .sent 2, .sent 3] [.data [90, 0, 0, 0, 5, 73]] [73]

/-- The hypotheses of `C55_closed_for_good` and `C55_terminate` are met: the history uses the connection, closing it succeeds
after an EAGAIN; the server got a Synchronize and the Terminate. -/
example : (calls ex used).1.socket = true ∧ (calls ex used).2.map (·.2) = [.ok, .ok] ∧ (close {} 9 (calls ex used).1).2 = .ok ∧
    wire (close {} 9 (calls ex used).1).1 = [83, 0, 0, 0, 4] ++ terminate ∧ state (calls ex used).1 = "idle" := by decide +kernel
example : SendEv.err .fatal ∉ [SendEv.sent 5, .err .tryAgain, .sent 2, .sent 3] := by decide
/-- After that, everything that needs the server raises. -/
example : (calls (close {} 9 (calls ex used).1).1 [.push {} 3 [.empty .synchronize], .complete 4, .close {} 9, .synchronize 5, .connect .cannotConnect]).2.map (·.2)
    = [.dbError true none, .dbError true none, .ok, .ok, .dbError true none] := by decide +kernel
/-- A connection closed while a transaction is running. -/
example : (close {} 9 (calls ex [.push {} 3 [.empty .synchronize]]).1).2 = .ok ∧
    wire (close {} 9 (calls ex [.push {} 3 [.empty .synchronize]]).1).1 = [83, 0, 0, 0, 4] ++ terminate := by decide +kernel

/-- The server answers with something unexpected: fatal. -/
def odd : Db := established [.sent 5, .sent 5] [.data [68, 0, 0, 0, 6, 0, 0], .data [90, 0, 0, 0, 5, 73]] [73]
/-- The hypotheses of `C55_fatal_is_final` are met. -/
example : (calls odd used).2.map (·.2) = [.ok, .dbError true (some (.violation [90] 68))] ∧ closed (calls odd used).1 = true := by decide +kernel

/-- An error of the server that is not fatal: the hypotheses of `C55_error_keeps_open` are met. -/
def err : Db := established [.sent 5, .sent 5] [.data ([69, 0, 0, 0, 12, 83, 69, 82, 82, 79, 82, 0, 0] ++ [90, 0, 0, 0, 5, 73])] [73]
example : (calls err used).2.map (·.2) = [.ok, .dbError false (some (.server [([83], some [69, 82, 82, 79, 82])]))] ∧
    closed (calls err used).1 = false := by decide +kernel

/-- **C55 (the finding: a forced synchronization reopens).** A connection that raised a fatal error, here a violation of the
protocol, and is closed, is open again after `synchronize()`, since its failed transaction is replaced: this is why that call is
excluded in `C55_fatal_is_final`. -/
theorem C55_synchronize_reopens : ∃ db : Db, closed db = true ∧ (call db (.synchronize 9)).2 = .ok ∧ closed (call db (.synchronize 9)).1 = false :=
  ⟨(calls odd used).1, by decide +kernel, by decide +kernel, by decide +kernel⟩

/-- **C55 (the finding: an interrupted `close()`).** When a send raises a KeyboardInterrupt during `close()`, or an error that
cannot be explained, `close()` raises it and the connection remains open, with its socket. -/
theorem C55_close_interrupted : ∃ db : Db, (close {} 9 db).2 = .raised (.sock .interrupt) ∧ closed (close {} 9 db).1 = false ∧
    (close {} 9 db).1.socket = true :=
  ⟨established [.err .interrupt] [] [73], by decide +kernel, by decide +kernel, by decide +kernel⟩

/-- **C55 (the finding: goodbye is not always said).** If the sending of the Terminate message fails, `close()` returns all the
same. -/
theorem C55_no_goodbye : ∃ db : Db, (close {} 9 db).2 = .ok ∧ closed (close {} 9 db).1 = true ∧ wire (close {} 9 db).1 = [88, 0] :=
  ⟨established [.sent 2, .err .tryAgain, .err .fatal] [] [73], by decide +kernel, by decide +kernel, by decide +kernel⟩

end PG.Props.Lifecycle
