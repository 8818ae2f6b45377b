import Verif.Proofs.CopyTo3
import Verif.Proofs.Fetch2
import Verif.Spec.Reply
import Verif.Model.FetchWire
import Verif.Spec.FetchWire
/-!
# Lemmas: from the bytes of the socket to the rows
-/
namespace PG.FetchWire
open PG
open PG.PBuffer hiding Msg
open PG.Element3 PG.Xact3 PG.Client3 PG.Fetch PG.Spec PG.Spec.Xact PG.Spec.Fetch PG.Spec.FetchWire

/-- What has still to be read is these messages. -/
structure Wire (s : PBuffer.Stream) (evs : List RecvEv) (M : List Msg) : Prop where
  inv : Inv s
  calm : Calm evs
  bytes : unread s ++ bytesOf evs = frames M
  fits : ∀ m ∈ M, Fits m

/-- `d` is `c` after reading from the socket. -/
structure After (c d : Conn IX) : Prop where
  xact : d.xact = c.xact
  nextId : d.nextId = c.nextId
  read : d.read = c.read
  data : d.readData = none
  recvs : d.recvs.length ≤ c.recvs.length

theorem readIntoLoop_wire {M : List Msg} (hne : M ≠ []) : ∀ (evs : List RecvEv) (c : Conn IX), c.readData = none → Wire c.stream evs M →
    (∃ d, readIntoLoop instOps c evs = (d, .raised (.sock .tryAgain)) ∧ Wire d.stream d.recvs M ∧ d.xact = c.xact ∧ d.nextId = c.nextId ∧ d.read = c.read ∧ d.readData = none ∧ d.recvs.length < evs.length) ∨
    (∃ d, readIntoLoop instOps c evs = (d, .ret true) ∧ Wire d.stream d.recvs M ∧ d.xact = c.xact ∧ d.nextId = c.nextId ∧ d.read = c.read ∧ d.readData = none ∧ d.recvs.length ≤ evs.length ∧
      ∃ m rest, view (unread d.stream) = .msg m rest)
  | [], c, hrd, hw => by
    obtain ⟨hi, hp, hb, hf⟩ := hw
    obtain ⟨h1, h2⟩ := CopyTo.view_frames hf hb
    have hm := hasMessage_spec c.stream hi
    rw [readIntoLoop]
    cases hv : view (unread c.stream) with
    | bad => exact absurd hv h1
    | incomplete => exact absurd hv (h2 hne rfl)
    | msg m rest =>
      rw [hv] at hm
      rw [hm]
      exact .inr ⟨_, rfl, ⟨hi, hp, hb, hf⟩, rfl, rfl, rfl, hrd, Nat.le_refl _, m, rest, hv⟩
  | ev :: evs, c, hrd, hw => by
    obtain ⟨hi, hp, hb, hf⟩ := hw
    obtain ⟨h1, h2⟩ := CopyTo.view_frames hf hb
    have hm := hasMessage_spec c.stream hi
    have hp' : Calm evs := fun e he => hp e (List.mem_cons_of_mem _ he)
    unfold readIntoLoop
    cases hv : view (unread c.stream) with
    | bad => exact absurd hv h1
    | msg m rest =>
      rw [hv] at hm
      rw [hm]
      exact .inr ⟨_, rfl, ⟨hi, hp, hb, hf⟩, rfl, rfl, rfl, hrd, Nat.le_refl _, m, rest, hv⟩
    | incomplete =>
      rw [hv] at hm
      rw [hm]
      rcases hp ev List.mem_cons_self with rfl | ⟨d, rfl, hd⟩
      · exact .inl ⟨_, rfl, ⟨hi, hp', hb, hf⟩, rfl, rfl, rfl, hrd, Nat.lt_succ_self _⟩
      · cases d with
        | nil => exact absurd rfl hd
        | cons x xs =>
          dsimp only
          obtain ⟨wi, wu⟩ := write_spec c.stream hi (x :: xs)
          have hw' : Wire (PBuffer.write c.stream (x :: xs)) evs M := ⟨wi, hp', by rw [wu, List.append_assoc]; exact hb, hf⟩
          rcases readIntoLoop_wire hne evs { c with stream := PBuffer.write c.stream (x :: xs), received := c.received ++ (x :: xs) } hrd hw' with
            ⟨d, e1, e2, e3, e4, e5, e6, e7⟩ | ⟨d, e1, e2, e3, e4, e5, e6, e7, e8⟩
          · exact .inl ⟨d, e1, e2, e3, e4, e5, e6, Nat.lt_succ_of_lt e7⟩
          · exact .inr ⟨d, e1, e2, e3, e4, e5, e6, Nat.le_succ_of_le e7, e8⟩

theorem readInto_wire {M : List Msg} (hne : M ≠ []) {c : Conn IX} (hrd : c.readData = none) (hw : Wire c.stream c.recvs M) :
    (∃ d, readInto instOps c = (d, .raised (.sock .tryAgain)) ∧ Wire d.stream d.recvs M ∧ After c d ∧ d.recvs.length < c.recvs.length) ∨
    (∃ d, readInto instOps c = (d, .ret true) ∧ Wire d.stream d.recvs M ∧ After c d ∧ ∃ m rest, view (unread d.stream) = .msg m rest) := by
  obtain ⟨h1, h2⟩ := CopyTo.view_frames hw.fits hw.bytes
  have hm := hasMessage_spec c.stream hw.inv
  unfold readInto
  cases hv : view (unread c.stream) with
  | bad => exact absurd hv h1
  | msg m rest =>
    rw [hv] at hm
    rw [hm]
    exact .inr ⟨c, rfl, hw, ⟨rfl, rfl, rfl, hrd, Nat.le_refl _⟩, m, rest, hv⟩
  | incomplete =>
    rw [hv] at hm
    rw [hm, hrd]
    dsimp only
    rcases readIntoLoop_wire hne c.recvs c hrd hw with ⟨d, e1, e2, e3, e4, e5, e6, e7⟩ | ⟨d, e1, e2, e3, e4, e5, e6, e7, e8⟩
    · exact .inl ⟨d, e1, e2, ⟨e3, e4, e5, e6, Nat.le_of_lt e7⟩, e7⟩
    · exact .inr ⟨d, e1, e2, ⟨e3, e4, e5, e6, e7⟩, e8⟩

/-- A call of `read_messages`: try again, or some messages. -/
theorem readMessages_wire {M : List Msg} (hne : M ≠ []) {c : Conn IX} (hrd : c.readData = none) (hr : c.read.msgs = []) (hw : Wire c.stream c.recvs M) :
    (∃ d, Client3.readMessages instOps c = (d, .raised (.sock .tryAgain)) ∧ Wire d.stream d.recvs M ∧ After c d ∧ d.recvs.length < c.recvs.length) ∨
    (∃ d ms M2, Client3.readMessages instOps c = (d, .ret true) ∧ Wire d.stream d.recvs M2 ∧ d.read = ⟨c.nextId, ms⟩ ∧ d.nextId = c.nextId + 1 ∧ ms ≠ [] ∧ M = ms ++ M2 ∧ d.xact = c.xact ∧ d.readData = none ∧
      d.recvs.length ≤ c.recvs.length) := by
  unfold Client3.readMessages
  rw [if_neg (by rw [hr]; exact fun h => h rfl)]
  rcases readInto_wire hne hrd hw with ⟨d, e1, e2, e3, e4⟩ | ⟨d, e1, e2, e3, m, rest, hv⟩
  · rw [e1]
    exact .inl ⟨d, rfl, e2, e3, e4⟩
  · rw [e1]
    dsimp only
    right
    obtain ⟨hi, hp, hb, hf⟩ := e2
    obtain ⟨ri, rs⟩ := read_spec d.stream hi 0xFFFFFFFF
    dsimp only at rs
    have hpe := parse_eq (unread d.stream)
    rw [hv] at hpe
    dsimp only at hpe
    obtain ⟨pc1, pc2, pc3⟩ := parse_concat (unread d.stream)
    have hnb : (parse (unread d.stream)).2.2 = false := by
      cases hb2 : (parse (unread d.stream)).2.2 with
      | false => rfl
      | true =>
        rw [hb2, if_pos rfl] at pc3
        have h5 : frames (parse (unread d.stream)).1 ++ ((parse (unread d.stream)).2.1 ++ bytesOf d.recvs) = frames M := by rw [← List.append_assoc, ← pc1]; exact hb
        obtain ⟨M2, h6, h7⟩ := CopyTo.take_frames _ hf pc2 h5
        exact absurd pc3 (CopyTo.view_frames (fun y hy => hf y (by rw [h6]; exact List.mem_append_right _ hy)) h7).1
    rw [if_pos (.inr hnb)] at rs
    obtain ⟨r1, r2⟩ := rs
    generalize hms : (parse (unread d.stream)).1.take 0xFFFFFFFF = ms at r1 r2
    have hmsne : ms ≠ [] := by
      rw [← hms, hpe]
      exact fun h => by simp at h
    have hmsf : ∀ m ∈ ms, Fits m := fun y hy => pc2 y (by rw [← hms] at hy; exact List.mem_of_mem_take hy)
    have h5 : frames ms ++ (unread (PBuffer.read d.stream).2 ++ bytesOf d.recvs) = frames M := by rw [← List.append_assoc, ← r2]; exact hb
    obtain ⟨M2, h6, h7⟩ := CopyTo.take_frames _ hf hmsf h5
    have hrd2 : PBuffer.read d.stream = (.ok ms, (PBuffer.read d.stream).2) := Prod.ext r1 rfl
    rw [hrd2]
    exact ⟨_, ms, M2, rfl, ⟨ri, hp, h7, fun y hy => hf y (by rw [h6]; exact List.mem_append_right _ hy)⟩, by rw [e3.nextId], by rw [← e3.nextId], hmsne, h6, e3.xact, e3.data, e3.recvs⟩

/-! ## A step -/

/-- The transaction is the connection's, and waits for these messages. -/
structure Linked (s : Held) (M : List Msg) : Prop where
  xact : ∃ x, s.conn.xact = some x ∧ x.inst = s.obj
  recv : Receiving s.obj
  data : s.conn.readData = none
  read : s.conn.read.msgs = []
  wire : Wire s.conn.stream s.conn.recvs M

theorem putAs_deliver (i : Inst) (b : Batch) (h : Receiving i) : putAs i.state i b = deliver i b := by
  obtain ⟨op, h⟩ := h
  unfold putAs deliver
  rw [h]
  cases op <;> rfl

theorem pqStep_linked {s : Held} {M : List Msg} (h : Linked s M) (hne : M ≠ []) :
    (∃ s', pqStep s = (s', .fine) ∧ Linked s' M ∧ s'.obj = s.obj ∧ s'.conn.nextId = s.conn.nextId ∧ s'.conn.recvs.length < s.conn.recvs.length) ∨
    (∃ ms M2, ms ≠ [] ∧ M = ms ++ M2 ∧ ∀ i' n, deliver s.obj ⟨s.conn.nextId, ms⟩ = (i', .ok n) → i'.fatal = none → (i'.state ≠ .complete → Receiving i' ∧ n = ms.length) →
      ∃ s', pqStep s = (s', .fine) ∧ s'.obj = i' ∧ s'.conn.nextId = s.conn.nextId + 2 ∧ s'.conn.recvs.length ≤ s.conn.recvs.length ∧ (i'.state ≠ .complete → Linked s' M2)) := by
  obtain ⟨⟨x, hx, hxo⟩, hrecv, hd, hr, hw⟩ := h
  have hdir : instOps.dir x = .receiving := by
    show dirOf x.inst = .receiving
    obtain ⟨op, e⟩ := hrecv
    unfold dirOf
    rw [hxo, e]
  rcases readMessages_wire hne hd hr hw with ⟨d, e1, e2, e3, e4⟩ | ⟨d, ms, M2, e1, e2, e3, e4, e5, e6, e7, e8, e9⟩
  · left
    have hs : stepOpen instOps s.conn = (d, .ret false) := by
      unfold stepOpen
      rw [hx]
      dsimp only
      rw [hdir]
      dsimp only
      rw [e1]
    have hnc : ¬ (x.inst.state = .complete ∧ x.inst.fatal ≠ none) := by
      rintro ⟨a, _⟩
      obtain ⟨op, e⟩ := hrecv
      rw [hxo, e] at a
      cases a
    refine ⟨⟨d, x.inst⟩, ?_, ⟨⟨x, by rw [e3.xact, hx], rfl⟩, by rw [hxo]; exact hrecv, e3.data, by rw [e3.read]; exact hr, e2⟩, hxo, e3.nextId, e4⟩
    unfold pqStep
    rw [hx]
    dsimp only
    rw [hs]
    dsimp only
    rw [e3.xact, hx]
    simp only [Option.getD_some]
    rw [if_neg hnc]
    rfl
  · right
    refine ⟨ms, M2, e5, e6, fun i' n hdel hfat hlive => ?_⟩
    have hput : instOps.put x x d.read = ({ x with inst := i' }, .ok n) := by
      show (match putAs x.inst.state x.inst d.read with | (i, r) => (({ x with inst := i } : IX), r)) = _
      rw [hxo, putAs_deliver _ _ hrecv, e3, hdel]
    have hpr : putRead instOps d x x = ({ d with xact := some { x with inst := i' }, taken := d.taken ++ d.read.msgs.take n, read := ⟨d.nextId, d.read.msgs.drop n⟩, nextId := d.nextId + 1 }, .ret ()) := by
      unfold putRead
      rw [hput]
    obtain ⟨c', hc'⟩ : ∃ c', c' = noteReady instOps ({ d with xact := some { x with inst := i' }, taken := d.taken ++ d.read.msgs.take n, read := ⟨d.nextId, d.read.msgs.drop n⟩, nextId := d.nextId + 1 } : Conn IX) { x with inst := i' } := ⟨_, rfl⟩
    have hs : stepOpen instOps s.conn = (c', .ret true) := by
      unfold stepOpen
      rw [hx]
      dsimp only
      rw [hdir]
      dsimp only
      rw [e1]
      dsimp only
      rw [e7, hx]
      simp only [Option.getD_some]
      rw [hpr]
      dsimp only
      rw [hc']
      rfl
    have hcx : c'.xact = some { x with inst := i' } := by rw [hc']; rfl
    have hst : pqStep s = (⟨stepEnd instOps c', i'⟩, .fine) := by
      unfold pqStep
      rw [hx]
      dsimp only
      rw [hs]
      dsimp only
      rw [hcx]
      simp only [Option.getD_some, if_true]
      rw [if_neg (by rintro ⟨_, q⟩; exact q hfat)]
    have hend : stepEnd instOps c' = c' ∨ stepEnd instOps c' = { c' with xact := none } := by
      unfold stepEnd
      rw [hcx]
      dsimp only
      split
      · exact .inr rfl
      · exact .inl rfl
    refine ⟨_, hst, rfl, ?_, ?_, fun hnc => ?_⟩
    · have : (stepEnd instOps c').nextId = c'.nextId := by rcases hend with q | q <;> rw [q]
      show (stepEnd instOps c').nextId = _
      rw [this, hc']
      show d.nextId + 1 = _
      omega
    · have : (stepEnd instOps c').recvs = c'.recvs := by rcases hend with q | q <;> rw [q]
      show (stepEnd instOps c').recvs.length ≤ _
      rw [this, hc']
      exact e9
    · obtain ⟨hrec', hn⟩ := hlive hnc
      have hkeep : stepEnd instOps c' = c' := by
        unfold stepEnd
        rw [hcx]
        dsimp only
        rw [if_neg]
        rintro ⟨q, _⟩
        have q : dirOf i' = .complete := q
        obtain ⟨op, e⟩ := hrec'
        unfold dirOf at q
        rw [e] at q
        cases q
      rw [hkeep]
      refine ⟨⟨_, hcx, rfl⟩, hrec', ?_, ?_, ?_⟩
      · show c'.readData = none
        rw [hc']
        exact e8
      · show c'.read.msgs = []
        rw [hc']
        show d.read.msgs.drop n = []
        rw [e3, hn]
        exact List.drop_length
      · show Wire c'.stream c'.recvs M2
        rw [hc']
        exact e2

/-! ## What is still to come -/

/-- These messages, in batches that are new objects. -/
structure Batches (k : Nat) (M : List Msg) (bs : List Batch) : Prop where
  msgs : allMsgs bs = M
  new : ∀ b ∈ bs, b.msgs ≠ [] ∧ k ≤ b.id
  nodup : (bs.map (·.id)).Nodup

theorem batches_some (k : Nat) (M : List Msg) : ∃ bs, Batches k M bs := by
  cases M with
  | nil => exact ⟨[], rfl, by simp, by simp⟩
  | cons m M => exact ⟨[⟨k, m :: M⟩], by simp [allMsgs], by simp, by simp⟩

theorem batches_cons {k : Nat} {ms M : List Msg} {bs : List Batch} (hne : ms ≠ []) (h : Batches (k + 2) M bs) : Batches k (ms ++ M) (⟨k, ms⟩ :: bs) := by
  obtain ⟨h1, h2, h3⟩ := h
  refine ⟨by simp only [allMsgs, List.flatMap_cons]; rw [← h1]; rfl, ?_, ?_⟩
  · intro b hb
    rcases List.mem_cons.mp hb with rfl | hb
    · exact ⟨hne, Nat.le_refl _⟩
    · exact ⟨(h2 b hb).1, by have := (h2 b hb).2; omega⟩
  · simp only [List.map_cons, List.nodup_cons, List.mem_map, not_exists, not_and]
    exact ⟨fun b hb e => by have := (h2 b hb).2; omega, h3⟩

/-- The identities that the transaction knows are old. -/
structure Old (i : Inst) (k : Nat) : Prop where
  last : i.lastId < k
  completed : ∀ c ∈ i.completed, c.1 < k

theorem batches_fresh {i : Inst} {k : Nat} {M : List Msg} {bs : List Batch} (h : Batches k M bs) (ho : Old i k) : Fresh i bs :=
  ⟨h.nodup, fun b hb => ⟨(h.new b hb).1, by have := (h.new b hb).2; have := ho.last; omega, fun c hc e => by have := (h.new b hb).2; have := ho.completed c hc; omega⟩⟩

/-- The transaction is going to give `R`: `f` bounds the steps, `t` the batches. -/
structure Gives (s : Held) (R : List Proc) (f t : Nat) : Prop where
  fatal : s.obj.fatal = none
  old : Old s.obj s.conn.nextId
  rest : (s.obj.state = .complete ∧ R = got s.obj ∧ s.obj.completed.length ≤ t) ∨
    (s.obj.state ≠ .complete ∧ ∃ M R', Linked s M ∧ R = got s.obj ++ R' ∧ (∀ bs, Batches s.conn.nextId M bs → due s.obj bs = some R') ∧ s.conn.recvs.length + M.length ≤ f ∧ s.obj.completed.length + M.length ≤ t)

theorem due_complete {i : Inst} {bs : List Batch} {R : List Proc} (h : due i bs = some R) (hc : i.state = .complete) : R = [] := by
  unfold due at h
  cases bs with
  | nil => dsimp only at h; rw [if_pos hc] at h; exact (Option.some.inj h).symm
  | cons b bs => dsimp only at h; rw [if_pos hc] at h; exact (Option.some.inj h).symm

theorem due_nonempty {i : Inst} {bs : List Batch} {R : List Proc} (h : due i bs = some R) (hc : i.state ≠ .complete) : Receiving i ∧ bs ≠ [] := by
  unfold due at h
  cases bs with
  | nil => dsimp only at h; rw [if_neg hc] at h; cases h
  | cons b bs =>
    dsimp only at h
    rw [if_neg hc] at h
    refine ⟨?_, by simp⟩
    cases hd : deliver i b with
    | mk i' r =>
      rw [hd] at h
      cases r with
      | error e => cases h
      | ok n => exact deliver_receiving hd

/-- There are messages to wait for. -/
theorem more {i : Inst} {k : Nat} {M : List Msg} {R : List Proc} (h : ∀ bs, Batches k M bs → due i bs = some R) (hc : i.state ≠ .complete) : Receiving i ∧ M ≠ [] := by
  obtain ⟨bs, hb⟩ := batches_some k M
  refine ⟨(due_nonempty (h bs hb) hc).1, ?_⟩
  rintro rfl
  exact (due_nonempty (h [] ⟨rfl, by simp, by simp⟩) hc).2 rfl

/-- One step. -/
theorem gives_step {s : Held} {R : List Proc} {f t : Nat} (h : Gives s R f t) (hc : s.obj.state ≠ .complete) :
    ∃ s' f', pqStep s = (s', .fine) ∧ Gives s' R f' t ∧ f' < f ∧ (Run s.obj → Run s'.obj) := by
  obtain ⟨hfat, hold, hrest⟩ := h
  rcases hrest with ⟨e, _⟩ | ⟨_, M, R', hl, hR, hdue, hf, ht⟩
  · exact absurd e hc
  · obtain ⟨hrecv, hne⟩ := more hdue hc
    rcases pqStep_linked hl hne with ⟨s', e1, e2, e3, e4, e5⟩ | ⟨ms, M2, hms, hM, hstep⟩
    · exact ⟨s', s'.conn.recvs.length + M.length, e1, ⟨by rw [e3]; exact hfat, by rw [e3, e4]; exact hold, .inr ⟨by rw [e3]; exact hc, M, R', e2, by rw [e3]; exact hR, by rw [e3, e4]; exact hdue, Nat.le_refl _, by rw [e3]; exact ht⟩⟩, by omega, fun h => by rw [e3]; exact h⟩
    · subst hM
      obtain ⟨bs0, hb0⟩ := batches_some (s.conn.nextId + 2) M2
      have hb1 := batches_cons hms hb0
      obtain ⟨i', n, p, R2, d1, d2, d3, d4, d5, d6, d7⟩ := due_cons (batches_fresh hb1 hold) hc (hdue _ hb1)
      have hfr1 := fresh_head (batches_fresh hb1 hold)
      obtain ⟨p', q1, q2, q3, q4, q5⟩ := deliver_data hrecv hfr1 d1 d2
      have hall : ∀ bs, Batches (s.conn.nextId + 2) M2 bs → due i' bs = some R2 := by
        intro bs hb
        have hb2 := batches_cons hms hb
        obtain ⟨i2, n2, p2, R3, g1, g2, g3, g4, g5, g6, _⟩ := due_cons (batches_fresh hb2 hold) hc (hdue _ hb2)
        rw [d1] at g1
        obtain ⟨rfl, h2⟩ := Prod.mk.inj g1
        have : p2 = p := by
          rw [d4] at g4
          have := List.append_cancel_left g4
          injection this with h1 h2
          injection h1 with h3 h4
          exact h4.symm
        subst this
        rw [d6] at g6
        rw [g3, List.append_cancel_left g6]
      obtain ⟨s', e1, e2, e3, e4, e5⟩ := hstep i' n d1 d2 (fun hnc => ⟨(more hall hnc).1, q4 hnc⟩)
      have hlen : 0 < ms.length := List.length_pos_iff.mpr hms
      rw [List.length_append] at hf ht
      have hold' : Old s'.obj s'.conn.nextId := by
        rw [e2, e3]
        refine ⟨by rw [q5]; show s.conn.nextId < _; omega, fun c hcm => ?_⟩
        rw [d4] at hcm
        rcases List.mem_append.mp hcm with hcm | hcm
        · have := hold.completed c hcm; omega
        · rw [List.mem_singleton.mp hcm]; show s.conn.nextId < _; omega
      have hR2 : R = got i' ++ R2 := by rw [hR, d6, got_append s.obj i' _ _ d4, List.append_assoc]
      have hcl : i'.completed.length = s.obj.completed.length + 1 := by rw [d4]; simp
      refine ⟨s', s'.conn.recvs.length + M2.length, e1, ⟨by rw [e2]; exact d2, hold', ?_⟩, by omega, fun hrun => by rw [e2]; exact (deliver_run hrun hfr1 d1 d2).1⟩
      by_cases hst : i'.state = .complete
      · left
        rw [e2]
        refine ⟨hst, by rw [hR2, due_complete (hall bs0 hb0) hst, List.append_nil], by omega⟩
      · right
        refine ⟨by rw [e2]; exact hst, M2, R2, e5 hst, by rw [e2]; exact hR2, by rw [e2, e3]; exact hall, Nat.le_refl _, by rw [e2]; omega⟩

theorem Gives.mono {s : Held} {R : List Proc} {f f' t : Nat} (h : Gives s R f t) (hf : f ≤ f') : Gives s R f' t := by
  obtain ⟨h1, h2, h3⟩ := h
  refine ⟨h1, h2, ?_⟩
  rcases h3 with h3 | ⟨a, M, R', b, c, d, e, g⟩
  · exact .inl h3
  · exact .inr ⟨a, M, R', b, c, d, by omega, g⟩

/-- A loop of steps. -/
theorem gives_steps (stop : Inst → Bool) : ∀ (fuel : Nat) {s : Held} {R : List Proc} {f t : Nat}, Gives s R f t → f < fuel →
    ∃ s', steps stop fuel s = (s', .fine) ∧ Gives s' R f t ∧ (s'.obj.state = .complete ∨ stop s'.obj = true)
  | 0, _, _, _, _, _, h => absurd h (Nat.not_lt_zero _)
  | fuel + 1, s, R, f, t, hg, hf => by
    unfold steps
    by_cases hc : s.obj.state = .complete ∨ stop s.obj = true
    · rw [if_pos hc]
      exact ⟨s, rfl, hg, hc⟩
    · rw [if_neg hc]
      obtain ⟨s1, f1, e1, e2, e3, _⟩ := gives_step hg (fun e => hc (.inl e))
      rw [e1]
      dsimp only
      obtain ⟨s', k1, k2, k3⟩ := gives_steps stop fuel e2 (by omega)
      exact ⟨s', k1, k2.mono (by omega), k3⟩

/-- The same, for the stream. -/
def GivesAll (a : All) (R : List Proc) (f t : Nat) : Prop := if a.live then Gives a.held R f t else R = []

theorem gives_empty {s : Held} {R : List Proc} {f t : Nat} {copy : Bool} (h : Gives s R f t) (hr : Run s.obj) (hs : firstSeen copy (messagesReceived s.obj) = .null ∨ ∃ p, firstSeen copy (messagesReceived s.obj) = .complete p) : R = [] := by
  obtain ⟨g1, g2⟩ := no_data_at_end hr hs
  rcases h.rest with ⟨_, e, _⟩ | ⟨_, M, R', _, e, hd, _⟩
  · rw [e, g1]
  · obtain ⟨bs, hb⟩ := batches_some s.conn.nextId M
    rw [e, g1, due_after bs s.obj R' hr g2 (batches_fresh hb h.old) (hd bs hb)]
    rfl

theorem init_gives (copy : Bool) : ∀ (fuel : Nat) {s : Held} {R : List Proc} {f t : Nat} {a : All}, Gives s R f t → Run s.obj → init copy fuel s = (.fine, a) → GivesAll a R f t
  | 0, _, _, _, _, _, _, _, h => by unfold init at h; cases (Prod.mk.inj h).1
  | fuel + 1, s, R, f, t, a, hg, hr, h => by
    unfold init at h
    by_cases hc : s.obj.state = .complete
    · rw [if_pos hc] at h
      obtain ⟨_, rfl⟩ := Prod.mk.inj h
      exact hg
    · rw [if_neg hc] at h
      obtain ⟨s1, f1, e1, e2, e3, e4⟩ := gives_step hg hc
      rw [e1] at h
      dsimp only at h
      have hr1 := e4 hr
      cases hs : firstSeen copy (messagesReceived s1.obj) with
      | noise =>
        rw [hs] at h
        have := init_gives copy fuel e2 hr1 h
        unfold GivesAll at this ⊢
        split
        · rename_i hl; rw [if_pos hl] at this; exact this.mono (by omega)
        · rename_i hl; rw [if_neg hl] at this; exact this
      | data =>
        rw [hs] at h
        obtain ⟨_, rfl⟩ := Prod.mk.inj h
        exact e2.mono (by omega)
      | null =>
        rw [hs] at h
        obtain ⟨_, rfl⟩ := Prod.mk.inj h
        exact gives_empty e2 hr1 (.inl hs)
      | complete p =>
        rw [hs] at h
        obtain ⟨_, rfl⟩ := Prod.mk.inj h
        exact gives_empty e2 hr1 (.inr ⟨p, hs⟩)
      | unexpected =>
        rw [hs] at h
        cases (Prod.mk.inj h).1

/-- The loop of steps of `next`, and what is taken then. -/
theorem gives_pop {s : Held} {R : List Proc} {f t k : Nat} {ms : List Proc} {rest : List (Nat × List Proc)} (h : Gives s R f t) (hc : s.obj.completed = (k, ms) :: rest) :
    ∃ R' t', t = t' + 1 ∧ R = ms.filter isData ++ R' ∧ Gives { conn := { s.conn with xact := s.conn.xact.map (fun x => { x with inst := { x.inst with completed := rest } }) }, obj := { s.obj with completed := rest } } R' f t' := by
  have hgot : got s.obj = ms.filter isData ++ got { s.obj with completed := rest } := by
    simp [got, messagesReceived, hc]
  have hold : Old { s.obj with completed := rest } s.conn.nextId := ⟨h.old.last, fun c hcm => h.old.completed c (by rw [hc]; exact List.mem_cons_of_mem _ hcm)⟩
  have hlen : s.obj.completed.length = rest.length + 1 := by rw [hc]; rfl
  rcases h.rest with ⟨e1, e2, e3⟩ | ⟨e1, M, R', hl, hR, hd, hf, ht⟩
  · refine ⟨got { s.obj with completed := rest }, t - 1, by omega, by rw [e2, hgot], h.fatal, hold, .inl ⟨e1, rfl, ?_⟩⟩
    show rest.length ≤ _
    omega
  · refine ⟨got { s.obj with completed := rest } ++ R', t - 1, by omega, by rw [hR, hgot, List.append_assoc], h.fatal, hold, .inr ⟨e1, M, R', ?_, rfl, fun bs hb => ?_, hf, ?_⟩⟩
    · obtain ⟨⟨x, hx, hxo⟩, l2, l3, l4, l5⟩ := hl
      refine ⟨⟨_, by show Option.map _ s.conn.xact = _; rw [hx]; rfl, ?_⟩, l2, l3, l4, l5⟩
      show ({ x.inst with completed := rest } : Inst) = { s.obj with completed := rest }
      rw [hxo]
    · have hfr := batches_fresh hb h.old
      show due { s.obj with completed := rest } bs = some R'
      rw [due_swap bs s.obj rest hfr fun x hx y hy => (hfr.2 x hx).2.2 y (by rw [hc]; exact List.mem_cons_of_mem _ hy)]
      exact hd bs hb
    · show rest.length + M.length ≤ _
      omega

theorem next_gives {β : Type} (decode : List Proc → Option (List β)) {fuel : Nat} {a : All} {R : List Proc} {f t : Nat} (h : GivesAll a R f t) (hf : f < fuel) :
    ((next decode fuel a).1 = .stop ∧ R = [] ∧ (next decode fuel a).2.live = false) ∨
    (∃ c R' t', R = c ++ R' ∧ t = t' + 1 ∧ ((∃ r, decode c = some r ∧ (next decode fuel a).1 = .chunk r ∧ GivesAll (next decode fuel a).2 R' f t') ∨
      (decode c = none ∧ (next decode fuel a).1 = .raised ∧ GivesAll (next decode fuel a).2 R f t))) := by
  unfold GivesAll at h
  by_cases hl : a.live = true
  · rw [if_pos hl] at h
    obtain ⟨s', e1, e2, e3⟩ := gives_steps (fun x => !x.completed.isEmpty) fuel h hf
    have hn : next decode fuel a = match s'.obj.completed with
        | [] => (.stop, { a with held := s', live := false })
        | (_, ms) :: rest =>
          match decode (ms.filter isData) with
          | none => (.raised, { a with held := s' })
          | some r => (.chunk r, ⟨{ conn := { s'.conn with xact := s'.conn.xact.map (fun x => { x with inst := { x.inst with completed := rest } }) }, obj := { s'.obj with completed := rest } },
              true, ((ms.drop (ms.length - 3)).filter isComplete).getLast?.or a.complete⟩) := by
      unfold next
      rw [if_pos hl, e1]
      dsimp only
      rw [if_neg (by rw [e2.fatal]; simp)]
      cases s'.obj.completed with
      | nil => rfl
      | cons m rest => dsimp only; cases decode (m.2.filter isData) <;> rfl
    rw [hn]
    cases hcomp : s'.obj.completed with
    | nil =>
      left
      refine ⟨rfl, ?_, rfl⟩
      have hst : s'.obj.state = .complete := by
        rcases e3 with e | e
        · exact e
        · rw [hcomp] at e; cases e
      rcases e2.rest with ⟨_, e, _⟩ | ⟨e, _⟩
      · rw [e]; simp [got, messagesReceived, hcomp]
      · exact absurd hst e
    | cons m rest =>
      obtain ⟨k, ms⟩ := m
      dsimp only
      right
      obtain ⟨R', t', p1, p2, p3⟩ := gives_pop e2 hcomp
      refine ⟨ms.filter isData, R', t', p2, p1, ?_⟩
      cases hdec : decode (ms.filter isData) with
      | some r =>
        left
        refine ⟨r, rfl, rfl, ?_⟩
        unfold GivesAll
        rw [if_pos rfl]
        exact p3
      | none =>
        right
        refine ⟨rfl, rfl, ?_⟩
        unfold GivesAll
        rw [if_pos (show ({ a with held := s' } : All).live = true from hl)]
        exact e2
  · rw [if_neg hl] at h
    left
    unfold next
    rw [if_neg hl]
    exact ⟨rfl, h, by cases hb : a.live with | true => exact absurd hb hl | false => rfl⟩

end PG.FetchWire
