import Verif.Proofs.FetchWire
import Verif.Props.Fetch
/-!
# Lemmas: the connection is lost before the answer is complete
-/
namespace PG.FetchWire
open PG
open PG.PBuffer hiding Msg
open PG.Element3 PG.Xact3 PG.Client3 PG.Fetch PG.Spec PG.Spec.Xact PG.Spec.Fetch PG.Spec.Reply PG.Spec.FetchWire

theorem frames_append (a b : List Msg) : frames (a ++ b) = frames a ++ frames b := CopyTo.frames_append a b

/-- The socket gives these messages and the beginning of another one, and then nothing. -/
structure Cut (s : PBuffer.Stream) (evs : List RecvEv) (M : List Msg) (m0 : Msg) (q : Bytes) : Prop where
  inv : Inv s
  events : ∃ pre d post, evs = pre ++ d :: post ∧ Calm pre ∧ (d = .data [] ∨ d = .err .fatal) ∧ unread s ++ bytesOf pre ++ q = frames (M ++ [m0])
  tail : q ≠ [] ∧ q.length ≤ (frame m0).length
  fits : ∀ m ∈ M ++ [m0], Fits m

/-- The unread bytes of a cut answer. -/
theorem cut_view {M : List Msg} {m0 : Msg} {u r q : Bytes} (hf : ∀ m ∈ M ++ [m0], Fits m) (hq : q ≠ []) (hl : q.length ≤ (frame m0).length) (h : u ++ r ++ q = frames (M ++ [m0])) :
    view u ≠ .bad ∧ (M ≠ [] → r = [] → ∃ m rest, view u = .msg m rest) ∧ (M = [] → view u = .incomplete) := by
  have hb := (CopyTo.view_frames hf (u := u) (r := r ++ q) (by rw [← List.append_assoc]; exact h)).1
  refine ⟨hb, fun hne hr => ?_, fun hM => ?_⟩
  · subst hr
    cases M with
    | nil => exact absurd rfl hne
    | cons m M =>
      rw [List.append_nil, List.cons_append, CopyTo.frames_cons, frames_append] at h
      have hfm : frames [m0] = frame m0 := by simp [frames]
      rw [hfm] at h
      have : frame m <+: u := by
        have h1 : frame m <+: u ++ q := ⟨frames M ++ frame m0, by rw [h]⟩
        refine List.prefix_of_prefix_length_le h1 (List.prefix_append _ _) ?_
        have := congrArg List.length h
        simp only [List.length_append] at this
        omega
      obtain ⟨t, rfl⟩ := this
      exact ⟨m, t, view_frame m (hf m (List.mem_append_left _ List.mem_cons_self)) t⟩
  · subst hM
    cases hv : view u with
    | bad => exact absurd hv hb
    | incomplete => rfl
    | msg m rest =>
      exfalso
      obtain ⟨h1, h2⟩ := frame_view hv
      subst h1
      have h3 : frames [m] ++ (rest ++ r ++ q) = frames ([] ++ [m0]) := by rw [← h]; simp [frames]
      obtain ⟨M2, k1, k2⟩ := CopyTo.take_frames [m] hf (by intro y hy; rw [List.mem_singleton.mp hy]; exact h2) h3
      have : M2 = [] := by
        have := congrArg List.length k1
        simp only [List.length_append, List.length_cons, List.length_nil] at this
        exact List.length_eq_zero_iff.mp (by omega)
      subst this
      exact hq (List.append_eq_nil_iff.mp k2).2

theorem readIntoLoop_cut {M : List Msg} {m0 : Msg} {q : Bytes} (d : RecvEv) (post : List RecvEv) (hd : d = .data [] ∨ d = .err .fatal) (hq : q ≠ []) (hl : q.length ≤ (frame m0).length) (hf : ∀ m ∈ M ++ [m0], Fits m) :
    ∀ (pre : List RecvEv) (c : Conn IX), c.readData = none → Inv c.stream → Calm pre → unread c.stream ++ bytesOf pre ++ q = frames (M ++ [m0]) →
    (∃ e, readIntoLoop instOps c (pre ++ d :: post) = (e, .raised (.sock .tryAgain)) ∧ Cut e.stream e.recvs M m0 q ∧ e.xact = c.xact ∧ e.nextId = c.nextId ∧ e.read = c.read ∧ e.readData = none ∧
      e.recvs.length < (pre ++ d :: post).length) ∨
    (∃ e, readIntoLoop instOps c (pre ++ d :: post) = (e, .ret true) ∧ Cut e.stream e.recvs M m0 q ∧ e.xact = c.xact ∧ e.nextId = c.nextId ∧ e.read = c.read ∧ e.readData = none ∧
      e.recvs.length ≤ (pre ++ d :: post).length ∧ (∃ m rest, view (unread e.stream) = .msg m rest)) ∨
    (M = [] ∧ ∃ e, readIntoLoop instOps c (pre ++ d :: post) = (e, .ret false) ∧ e.xact = c.xact.map instOps.fail ∧ e.nextId = c.nextId ∧ Inv e.stream ∧ view (unread e.stream) = .incomplete)
  | [], c, hrd, hi, hp, hb => by
    obtain ⟨h1, h2, h3⟩ := cut_view hf hq hl hb
    have hm := hasMessage_spec c.stream hi
    unfold readIntoLoop
    cases hv : view (unread c.stream) with
    | bad => exact absurd hv h1
    | msg m rest =>
      rw [hv] at hm
      dsimp only [List.nil_append]
      rw [hm]
      exact .inr (.inl ⟨_, rfl, ⟨hi, ⟨[], d, post, rfl, hp, hd, hb⟩, ⟨hq, hl⟩, hf⟩, rfl, rfl, rfl, hrd, Nat.le_refl _, m, rest, hv⟩)
    | incomplete =>
      rw [hv] at hm
      have hM : M = [] := by
        cases M with
        | nil => rfl
        | cons m M =>
          obtain ⟨m', rest, e⟩ := h2 (by simp) rfl
          rw [hv] at e
          cases e
      right; right
      refine ⟨hM, ?_⟩
      rcases hd with rfl | rfl <;> dsimp only [List.nil_append] <;> rw [hm] <;> exact ⟨_, rfl, rfl, rfl, hi, hv⟩
  | ev :: pre, c, hrd, hi, hp, hb => by
    obtain ⟨h1, h2, h3⟩ := cut_view hf hq hl hb
    have hm := hasMessage_spec c.stream hi
    have hp' : Calm pre := fun e he => hp e (List.mem_cons_of_mem _ he)
    unfold readIntoLoop
    dsimp only [List.cons_append]
    cases hv : view (unread c.stream) with
    | bad => exact absurd hv h1
    | msg m rest =>
      rw [hv] at hm
      rw [hm]
      exact .inr (.inl ⟨_, rfl, ⟨hi, ⟨ev :: pre, d, post, rfl, hp, hd, hb⟩, ⟨hq, hl⟩, hf⟩, rfl, rfl, rfl, hrd, Nat.le_refl _, m, rest, hv⟩)
    | incomplete =>
      rw [hv] at hm
      rw [hm]
      rcases hp ev List.mem_cons_self with rfl | ⟨x, rfl, hx⟩
      · exact .inl ⟨_, rfl, ⟨hi, ⟨pre, d, post, rfl, hp', hd, hb⟩, ⟨hq, hl⟩, hf⟩, rfl, rfl, rfl, hrd, Nat.lt_succ_self _⟩
      · cases x with
        | nil => exact absurd rfl hx
        | cons y ys =>
          dsimp only
          obtain ⟨wi, wu⟩ := write_spec c.stream hi (y :: ys)
          have hb' : unread (PBuffer.write c.stream (y :: ys)) ++ bytesOf pre ++ q = frames (M ++ [m0]) := by
            rw [wu, ← hb]
            simp [bytesOf]
          rcases readIntoLoop_cut d post hd hq hl hf pre { c with stream := PBuffer.write c.stream (y :: ys), received := c.received ++ (y :: ys) } hrd wi hp' hb' with
            ⟨e, e1, e2, e3, e4, e5, e6, e7⟩ | ⟨e, e1, e2, e3, e4, e5, e6, e7, e8⟩ | ⟨e1, e, e2, e3, e4, e5⟩
          · exact .inl ⟨e, e1, e2, e3, e4, e5, e6, Nat.lt_succ_of_lt e7⟩
          · exact .inr (.inl ⟨e, e1, e2, e3, e4, e5, e6, Nat.le_succ_of_le e7, e8⟩)
          · exact .inr (.inr ⟨e1, e, e2, e3, e4, e5⟩)

theorem readInto_cut {M : List Msg} {m0 : Msg} {q : Bytes} {c : Conn IX} (hrd : c.readData = none) (hw : Cut c.stream c.recvs M m0 q) :
    (∃ d, readInto instOps c = (d, .raised (.sock .tryAgain)) ∧ Cut d.stream d.recvs M m0 q ∧ After c d ∧ d.recvs.length < c.recvs.length) ∨
    (∃ d, readInto instOps c = (d, .ret true) ∧ Cut d.stream d.recvs M m0 q ∧ After c d ∧ ∃ m rest, view (unread d.stream) = .msg m rest) ∨
    (M = [] ∧ ∃ d, readInto instOps c = (d, .ret false) ∧ d.xact = c.xact.map instOps.fail ∧ d.nextId = c.nextId ∧ Inv d.stream ∧ view (unread d.stream) = .incomplete) := by
  obtain ⟨hi, ⟨pre, d, post, he, hp, hd, hb⟩, ⟨hq, hl⟩, hf⟩ := hw
  have hm := hasMessage_spec c.stream hi
  unfold readInto
  cases hv : view (unread c.stream) with
  | bad => exact absurd hv (cut_view hf hq hl hb).1
  | msg m rest =>
    rw [hv] at hm
    rw [hm]
    exact .inr (.inl ⟨c, rfl, ⟨hi, ⟨pre, d, post, he, hp, hd, hb⟩, ⟨hq, hl⟩, hf⟩, ⟨rfl, rfl, rfl, hrd, Nat.le_refl _⟩, m, rest, hv⟩)
  | incomplete =>
    rw [hv] at hm
    rw [hm, hrd]
    dsimp only
    rw [he]
    rcases readIntoLoop_cut d post hd hq hl hf pre c hrd hi hp hb with ⟨e, e1, e2, e3, e4, e5, e6, e7⟩ | ⟨e, e1, e2, e3, e4, e5, e6, e7, e8⟩ | h
    · exact .inl ⟨e, e1, e2, ⟨e3, e4, e5, e6, by rw [he]; exact Nat.le_of_lt e7⟩, e7⟩
    · exact .inr (.inl ⟨e, e1, e2, ⟨e3, e4, e5, e6, by rw [he]; exact e7⟩, e8⟩)
    · exact .inr (.inr h)

/-- A call of `read_messages`: try again, some messages, or the connection is lost. -/
theorem readMessages_cut {M : List Msg} {m0 : Msg} {q : Bytes} {c : Conn IX} (hrd : c.readData = none) (hr : c.read.msgs = []) (hw : Cut c.stream c.recvs M m0 q) :
    (∃ d, Client3.readMessages instOps c = (d, .raised (.sock .tryAgain)) ∧ Cut d.stream d.recvs M m0 q ∧ After c d ∧ d.recvs.length < c.recvs.length) ∨
    (∃ d ms M2, Client3.readMessages instOps c = (d, .ret true) ∧ Cut d.stream d.recvs M2 m0 q ∧ d.read = ⟨c.nextId, ms⟩ ∧ d.nextId = c.nextId + 1 ∧ ms ≠ [] ∧ M = ms ++ M2 ∧ d.xact = c.xact ∧ d.readData = none ∧
      d.recvs.length ≤ c.recvs.length) ∨
    (M = [] ∧ ∃ d, Client3.readMessages instOps c = (d, .ret false) ∧ d.xact = c.xact.map instOps.fail ∧ d.read = ⟨c.nextId, []⟩) := by
  unfold Client3.readMessages
  rw [if_neg (by rw [hr]; exact fun h => h rfl)]
  rcases readInto_cut hrd hw with ⟨d, e1, e2, e3, e4⟩ | ⟨d, e1, e2, e3, m, rest, hv⟩ | ⟨hM, d, e1, e2, e3, e4, hv⟩
  · rw [e1]
    exact .inl ⟨d, rfl, e2, e3, e4⟩
  · rw [e1]
    dsimp only
    right; left
    obtain ⟨hi, ⟨pre, dd, post, he, hp, hd, hb⟩, ⟨hq, hl⟩, hf⟩ := e2
    obtain ⟨ri, rs⟩ := read_spec d.stream hi 0xFFFFFFFF
    dsimp only at rs
    have hpe := parse_eq (unread d.stream)
    rw [hv] at hpe
    dsimp only at hpe
    obtain ⟨pc1, pc2, pc3⟩ := parse_concat (unread d.stream)
    have hnb : (parse (unread d.stream)).2.2 = false := by
      cases hb2 : (parse (unread d.stream)).2.2 with
      | false => rfl
      | true =>
        rw [hb2, if_pos rfl] at pc3
        have h5 : frames (parse (unread d.stream)).1 ++ ((parse (unread d.stream)).2.1 ++ (bytesOf pre ++ q)) = frames (M ++ [m0]) := by
          rw [← List.append_assoc, ← pc1, ← List.append_assoc]; exact hb
        obtain ⟨M2, h6, h7⟩ := CopyTo.take_frames _ hf pc2 h5
        exact absurd pc3 (CopyTo.view_frames (fun y hy => hf y (by rw [h6]; exact List.mem_append_right _ hy)) h7).1
    rw [if_pos (.inr hnb)] at rs
    obtain ⟨r1, r2⟩ := rs
    generalize hms : (parse (unread d.stream)).1.take 0xFFFFFFFF = ms at r1 r2
    have hmsne : ms ≠ [] := by
      rw [← hms, hpe]
      exact fun h => by simp at h
    have hmsf : ∀ m ∈ ms, Fits m := fun y hy => pc2 y (by rw [← hms] at hy; exact List.mem_of_mem_take hy)
    have h5 : frames ms ++ (unread (PBuffer.read d.stream).2 ++ bytesOf pre ++ q) = frames (M ++ [m0]) := by
      rw [← hb]
      conv => rhs; rw [r2]
      simp only [List.append_assoc]
    obtain ⟨M2, h6, h7⟩ := CopyTo.take_frames _ hf hmsf h5
    have hM2 : M2 ≠ [] := by
      rintro rfl
      exact hq (List.append_eq_nil_iff.mp h7).2
    obtain ⟨M3, z, rfl⟩ : ∃ M3 z, M2 = M3 ++ [z] := ⟨M2.dropLast, M2.getLast hM2, (List.dropLast_concat_getLast hM2).symm⟩
    rw [← List.append_assoc] at h6
    obtain ⟨h8, h9⟩ := List.append_inj' h6 rfl
    cases h9
    have hrd2 : PBuffer.read d.stream = (.ok ms, (PBuffer.read d.stream).2) := Prod.ext r1 rfl
    rw [hrd2]
    refine ⟨_, ms, M3, rfl, ⟨ri, ⟨pre, dd, post, he, hp, hd, h7⟩, ⟨hq, hl⟩, fun y hy => hf y ?_⟩, by rw [e3.nextId], by rw [← e3.nextId], hmsne, h8, e3.xact, e3.data, e3.recvs⟩
    rw [h6, List.append_assoc]
    exact List.mem_append_right _ hy
  · rw [e1]
    dsimp only
    right; right
    refine ⟨hM, ?_⟩
    obtain ⟨ri, rs⟩ := read_spec d.stream e4 0xFFFFFFFF
    dsimp only at rs
    have hpe := parse_eq (unread d.stream)
    rw [hv] at hpe
    dsimp only at hpe
    rw [hpe] at rs
    dsimp only at rs
    rw [if_pos (.inr rfl)] at rs
    have hrd2 : PBuffer.read d.stream = (.ok [], (PBuffer.read d.stream).2) := Prod.ext (by rw [rs.1]; rfl) rfl
    rw [hrd2]
    exact ⟨_, rfl, e2, by rw [e3]⟩

/-! ## A step -/

theorem startLoop_fields (s : Inst) (b : Batch) : (startLoop s b).1.state = s.state ∧ (startLoop s b).1.fatal = s.fatal ∧ ∀ l, (startLoop s b).2 = .ok l → l.processed = [] ∧ l.offset ≠ (startLoop s b).1.commands.length := by
  unfold startLoop
  dsimp only
  have hcm : (if b.id = s.lastId then s else { s with asyncs := [] }).commands = s.commands := by split <;> rfl
  have hst : (if b.id = s.lastId then s else { s with asyncs := [] }).state = s.state := by split <;> rfl
  have hfa : (if b.id = s.lastId then s else { s with asyncs := [] }).fatal = s.fatal := by split <;> rfl
  generalize (if b.id = s.lastId then s else { s with asyncs := [] }) = s' at hcm hst hfa ⊢
  cases hc : s'.commands[(startPos s b).offset]? with
  | none => exact ⟨hst, hfa, fun l h => by cases h⟩
  | some c =>
    dsimp only
    cases hookOf c with
    | none => exact ⟨hst, hfa, fun l h => by cases h⟩
    | some t =>
      refine ⟨hst, hfa, fun l h => ?_⟩
      cases h
      refine ⟨rfl, fun e => ?_⟩
      have e : (startPos s b).offset = s'.commands.length := e
      rw [e] at hc
      rw [List.getElem?_eq_none (Nat.le_refl _)] at hc
      cases hc

/-- Nothing is put into a transaction that failed: it stays failed. -/
theorem putAs_dead (st : XState) (i : Inst) (k : Nat) (hc : i.state = .complete) (hf : i.fatal = some true) :
    (∃ e, (putAs st i ⟨k, []⟩).2 = .error e) ∨ ((∃ n, (putAs st i ⟨k, []⟩).2 = .ok n) ∧ (putAs st i ⟨k, []⟩).1.state = .complete ∧ (putAs st i ⟨k, []⟩).1.fatal = some true) := by
  unfold putAs
  split
  · unfold standardPut
    obtain ⟨h1, h2, h3⟩ := startLoop_fields i ⟨k, []⟩
    generalize startLoop i ⟨k, []⟩ = w at h1 h2 h3
    obtain ⟨s, r⟩ := w
    dsimp only at h1 h2 h3 ⊢
    cases r with
    | error e => exact .inl ⟨e, rfl⟩
    | ok l =>
      obtain ⟨h4, h5⟩ := h3 l rfl
      right
      dsimp only [loop]
      refine ⟨⟨_, rfl⟩, ?_⟩
      unfold finish switchState
      dsimp only
      rw [if_neg h5, h4]
      split
      · exact ⟨by rw [← hc, ← h1]; rfl, by rw [← hf, ← h2]; rfl⟩
      · exact ⟨by rw [← hc, ← h1], by rw [← hf, ← h2]⟩
  · exact .inl ⟨_, rfl⟩
  · exact .inl ⟨_, rfl⟩
  · exact .inl ⟨_, rfl⟩

/-- The transaction is the connection's, and waits. -/
structure Bound (s : Held) : Prop where
  xact : ∃ x, s.conn.xact = some x ∧ x.inst = s.obj
  recv : Receiving s.obj
  data : s.conn.readData = none
  read : s.conn.read.msgs = []

theorem dir_receiving {x : IX} {i : Inst} (h : x.inst = i) (hr : Receiving i) : instOps.dir x = .receiving := by
  show dirOf x.inst = .receiving
  obtain ⟨op, e⟩ := hr
  unfold dirOf
  rw [h, e]

theorem pqStep_again {s : Held} {d : Conn IX} (h : Bound s) (e : Client3.readMessages instOps s.conn = (d, .raised (.sock .tryAgain))) (hd : d.xact = s.conn.xact) : pqStep s = (⟨d, s.obj⟩, .fine) := by
  obtain ⟨⟨x, hx, hxo⟩, hrecv, _, _⟩ := h
  have hdir := dir_receiving hxo hrecv
  have hs : stepOpen instOps s.conn = (d, .ret false) := by
    unfold stepOpen
    rw [hx]
    dsimp only
    rw [hdir]
    dsimp only
    rw [e]
  unfold pqStep
  rw [hx]
  dsimp only
  rw [hs]
  dsimp only
  rw [hd, hx]
  simp only [Option.getD_some]
  have hnc : ¬ (x.inst.state = .complete ∧ x.inst.fatal ≠ none) := by
    rintro ⟨a, _⟩
    obtain ⟨op, e⟩ := hrecv
    rw [hxo, e] at a
    cases a
  rw [if_neg hnc]
  show ((⟨d, x.inst⟩ : Held), Stepped.fine) = _
  rw [hxo]

theorem pqStep_batch {s : Held} {d : Conn IX} {ms : List Msg} {i' : Inst} (h : Bound s) (e : Client3.readMessages instOps s.conn = (d, .ret true)) (hd : d.xact = s.conn.xact) (hr : d.read = ⟨s.conn.nextId, ms⟩)
    (hdata : d.readData = none) (hdel : deliver s.obj ⟨s.conn.nextId, ms⟩ = (i', .ok ms.length)) (hfat : i'.fatal = none) (hrec' : Receiving i') :
    ∃ e, pqStep s = (⟨e, i'⟩, .fine) ∧ Bound ⟨e, i'⟩ ∧ e.nextId = d.nextId + 1 ∧ e.recvs = d.recvs ∧ e.stream = d.stream := by
  obtain ⟨⟨x, hx, hxo⟩, hrecv, _, _⟩ := h
  have hdir := dir_receiving hxo hrecv
  have hput : instOps.put x x d.read = ({ x with inst := i' }, .ok ms.length) := by
    show (match putAs x.inst.state x.inst d.read with | (i, r) => (({ x with inst := i } : IX), r)) = _
    rw [hxo, putAs_deliver _ _ hrecv, hr, hdel]
  have hpr : putRead instOps d x x = ({ d with xact := some { x with inst := i' }, taken := d.taken ++ d.read.msgs.take ms.length, read := ⟨d.nextId, d.read.msgs.drop ms.length⟩, nextId := d.nextId + 1 }, .ret ()) := by
    unfold putRead
    rw [hput]
  obtain ⟨c', hc'⟩ : ∃ c', c' = noteReady instOps ({ d with xact := some { x with inst := i' }, taken := d.taken ++ d.read.msgs.take ms.length, read := ⟨d.nextId, d.read.msgs.drop ms.length⟩, nextId := d.nextId + 1 } : Conn IX) { x with inst := i' } := ⟨_, rfl⟩
  have hs : stepOpen instOps s.conn = (c', .ret true) := by
    unfold stepOpen
    rw [hx]
    dsimp only
    rw [hdir]
    dsimp only
    rw [e]
    dsimp only
    rw [hd, hx]
    simp only [Option.getD_some]
    rw [hpr]
    dsimp only
    rw [hc']
    rfl
  have hcx : c'.xact = some { x with inst := i' } := by rw [hc']; rfl
  have hkeep : stepEnd instOps c' = c' := by
    unfold stepEnd
    rw [hcx]
    dsimp only
    rw [if_neg]
    rintro ⟨q, _⟩
    have q : dirOf i' = .complete := q
    obtain ⟨op, e⟩ := hrec'
    unfold dirOf at q
    rw [e] at q
    cases q
  refine ⟨c', ?_, ⟨⟨_, hcx, rfl⟩, hrec', ?_, ?_⟩, by rw [hc']; rfl, by rw [hc']; rfl, by rw [hc']; rfl⟩
  · unfold pqStep
    rw [hx]
    dsimp only
    rw [hs]
    dsimp only
    rw [hcx]
    simp only [Option.getD_some, if_true]
    rw [if_neg (by rintro ⟨_, q⟩; exact q hfat), hkeep]
  · rw [hc']; exact hdata
  · rw [hc']
    show d.read.msgs.drop ms.length = []
    rw [hr]
    exact List.drop_length

theorem pqStep_dead {s : Held} {d : Conn IX} (h : Bound s) (e : Client3.readMessages instOps s.conn = (d, .ret false)) (hd : d.xact = s.conn.xact.map instOps.fail) (hr : d.read = ⟨s.conn.nextId, []⟩) :
    ∃ s', pqStep s = (s', .raised) := by
  obtain ⟨⟨x, hx, hxo⟩, hrecv, _, _⟩ := h
  have hdir := dir_receiving hxo hrecv
  have hdx : d.xact = some (instOps.fail x) := by rw [hd, hx]; rfl
  have hput : instOps.put x (instOps.fail x) d.read = (match putAs x.inst.state (instOps.fail x).inst d.read with | (i, r) => (({ x with inst := i } : IX), r)) := rfl
  have hso : stepOpen instOps s.conn = match putRead instOps d x (instOps.fail x) with
        | (c, .ret ()) => (noteReady instOps c (c.xact.getD x), .ret true)
        | (c, .raised (.sock .tryAgain)) => (c, .ret false)
        | (c, .raised e) => (c, .raised e)
        | (c, .blocked) => (c, .blocked) := by
    unfold stepOpen
    rw [hx]
    dsimp only
    rw [hdir]
    dsimp only
    rw [e]
    dsimp only
    rw [hdx]
    rfl
  have hpr : putRead instOps d x (instOps.fail x) = match instOps.put x (instOps.fail x) d.read with
      | (x, .error e) => ({ d with xact := some x }, .raised (.py e))
      | (x, .ok n) => ({ d with xact := some x, taken := d.taken ++ d.read.msgs.take n, read := ⟨d.nextId, d.read.msgs.drop n⟩, nextId := d.nextId + 1 }, .ret ()) := by
    unfold putRead
    generalize instOps.put x (instOps.fail x) d.read = w
    obtain ⟨w, r⟩ := w
    cases r <;> rfl
  rw [hput] at hpr
  have hdead := putAs_dead x.inst.state (instOps.fail x).inst s.conn.nextId rfl rfl
  rw [hr] at hpr
  generalize putAs x.inst.state (instOps.fail x).inst ⟨s.conn.nextId, []⟩ = w at hpr hdead
  obtain ⟨i, r⟩ := w
  dsimp only at hpr hdead
  unfold pqStep
  rw [hx]
  dsimp only
  rw [hso, hpr]
  cases r with
  | error er => exact ⟨_, rfl⟩
  | ok n =>
    rcases hdead with ⟨e, h⟩ | ⟨_, h1, h2⟩
    · cases h
    · dsimp only
      refine ⟨_, Prod.ext rfl ?_⟩
      dsimp only
      rw [if_pos]
      refine ⟨h1, ?_⟩
      show i.fatal ≠ none
      rw [h2]
      simp

/-! ## What is still to come -/

/-- The answer that goes on with `M` is a complete one. -/
def Full (i : Inst) (k : Nat) (M : List Msg) : Prop :=
  ∀ bs, Batches k M bs → ∃ m, (feed i bs).2.1 = .ok m ∧ (feed i bs).1.state = .complete ∧ (feed i bs).1.fatal = none ∧ strip (M.take m) = strip M

theorem full_fatal {i : Inst} {k : Nat} {M : List Msg} (h : Full i k M) : i.fatal = none := by
  obtain ⟨bs, hb⟩ := batches_some k M
  obtain ⟨m, _, _, h3, _⟩ := h bs hb
  exact feed_fatal_mono bs i h3

theorem strip_take_le {A B : List Msg} {n : Nat} (hn : n ≤ A.length) (h : strip ((A ++ B).take n) = strip (A ++ B)) : strip B = [] := by
  rw [List.take_append_of_le_length hn] at h
  unfold strip at *
  rw [List.filter_append] at h
  have h1 := congrArg List.length h
  rw [List.length_append] at h1
  have h2 : ((A.take n).filter (fun x => (asyncKind x.1).isNone)).length ≤ (A.filter (fun x => (asyncKind x.1).isNone)).length := ((List.take_sublist n A).filter _).length_le
  exact List.length_eq_zero_iff.mp (by omega)

/-- The transaction waits as long as something that is not asynchronous is missing. -/
theorem full_open {i : Inst} {k : Nat} {M : List Msg} (h : Full i k M) (hM : strip M ≠ []) : Receiving i := by
  obtain ⟨bs, hb⟩ := batches_some k M
  obtain ⟨m, h1, _, _, h4⟩ := h bs hb
  refine Decidable.byContradiction fun hn => hM ?_
  rw [feed_stop hn] at h1
  cases h1
  rw [← h4]
  rfl

theorem full_next {i : Inst} {k : Nat} {ms M : List Msg} (h : Full i k (ms ++ M)) (ho : Old i k) (hms : ms ≠ []) (hM : strip M ≠ []) :
    ∃ i' p, deliver i ⟨k, ms⟩ = (i', .ok ms.length) ∧ i'.fatal = none ∧ Full i' (k + 2) M ∧ Old i' (k + 2) ∧ i'.completed = i.completed ++ [(k, p)] ∧ p.filter isData = rowsOf ms ∧ (Run i → Run i') := by
  have hrecv : Receiving i := full_open h (by
    intro e
    unfold strip at e hM
    rw [List.filter_append] at e
    exact hM (List.append_eq_nil_iff.mp e).2)
  have key : ∀ bs, Batches (k + 2) M bs → ∃ i' n m, deliver i ⟨k, ms⟩ = (i', .ok n) ∧ (feed i' bs).2.1 = .ok m ∧ (feed i' bs).1.state = .complete ∧ (feed i' bs).1.fatal = none ∧ strip ((ms ++ M).take (n + m)) = strip (ms ++ M) := by
    intro bs hb
    obtain ⟨m, h1, h2, h3, h4⟩ := h _ (batches_cons hms hb)
    unfold feed at h1 h2 h3
    rw [if_pos hrecv] at h1 h2 h3
    cases hd : deliver i ⟨k, ms⟩ with
    | mk i' r =>
      rw [hd] at h1 h2 h3
      cases r with
      | error e => cases h1
      | ok n =>
        dsimp only at h1 h2 h3
        cases hr : (feed i' bs).2.1 with
        | error e => rw [hr] at h1; cases h1
        | ok q =>
          rw [hr] at h1
          cases h1
          exact ⟨i', n, q, rfl, hr, h2, h3, h4⟩
  obtain ⟨bs0, hb0⟩ := batches_some (k + 2) M
  obtain ⟨i', n, m, h1, h2, h3, h4, h5⟩ := key bs0 hb0
  have hfat := feed_fatal_mono bs0 i' h4
  have hfr : Fresh i [⟨k, ms⟩] := ⟨by simp, fun x hx => by
    rw [List.mem_singleton.mp hx]
    exact ⟨hms, by have := ho.last; show k ≠ _; omega, fun c hc e => by have := ho.completed c hc; have e : c.1 = k := e; omega⟩⟩
  obtain ⟨p, q1, q2, q3, q4, q5⟩ := deliver_data hrecv hfr h1 hfat
  have hrec' : Receiving i' := by
    refine Decidable.byContradiction fun hn => hM ?_
    rw [feed_stop hn] at h2
    cases h2
    rw [Nat.add_zero] at h5
    exact strip_take_le q3 h5
  have hn : n = ms.length := q4 (by obtain ⟨op, e⟩ := hrec'; rw [e]; simp)
  subst hn
  refine ⟨i', p, h1, hfat, ?_, ⟨by rw [q5]; show k < _; omega, fun c hc => ?_⟩, q1, by rw [q2, List.take_length], fun hr => (deliver_run hr hfr h1 hfat).1⟩
  · intro bs hb
    obtain ⟨i2, n2, m2, g1, g2, g3, g4, g5⟩ := key bs hb
    rw [h1] at g1
    obtain ⟨rfl, g1⟩ := Prod.mk.inj g1
    cases g1
    refine ⟨m2, g2, g3, g4, ?_⟩
    rw [List.take_length_add_append] at g5
    unfold strip at g5 ⊢
    rw [List.filter_append, List.filter_append] at g5
    exact List.append_cancel_left g5
  · rw [q1] at hc
    rcases List.mem_append.mp hc with hc | hc
    · have := ho.completed c hc; omega
    · rw [List.mem_singleton.mp hc]; show k < _; omega

/-- The stream has `R` to give before the connection is lost: `f` bounds the steps, `t` the batches. -/
structure Loses (s : Held) (R : List Proc) (f t : Nat) : Prop where
  old : Old s.obj s.conn.nextId
  bound : Bound s
  rest : ∃ M M2 m0 q, Cut s.conn.stream s.conn.recvs M m0 q ∧ Full s.obj s.conn.nextId (M ++ M2) ∧ strip M2 ≠ [] ∧ R = got s.obj ++ rowsOf M ∧ s.conn.recvs.length + M.length ≤ f ∧ s.obj.completed.length + M.length ≤ t

theorem Loses.fatal {s : Held} {R : List Proc} {f t : Nat} (h : Loses s R f t) : s.obj.fatal = none := by
  obtain ⟨_, _, _, _, _, h2, _⟩ := h.rest
  exact full_fatal h2

theorem Loses.open_ {s : Held} {R : List Proc} {f t : Nat} (h : Loses s R f t) : s.obj.state ≠ .complete := by
  obtain ⟨op, e⟩ := h.bound.recv
  rw [e]
  simp

theorem Loses.mono {s : Held} {R : List Proc} {f f' t : Nat} (h : Loses s R f t) (hf : f ≤ f') : Loses s R f' t := by
  obtain ⟨h1, h2, M, M2, m0, q, a, b, c, d, e, g⟩ := h
  exact ⟨h1, h2, M, M2, m0, q, a, b, c, d, by omega, g⟩

theorem loses_step {s : Held} {R : List Proc} {f t : Nat} (h : Loses s R f t) :
    (R = got s.obj ∧ ∃ s', pqStep s = (s', .raised)) ∨ (∃ s' f', pqStep s = (s', .fine) ∧ Loses s' R f' t ∧ f' < f) := by
  obtain ⟨hold, hb, M, M2, m0, q, hcut, hfull, hM2, hR, hf, ht⟩ := h
  rcases readMessages_cut hb.data hb.read hcut with ⟨d, e1, e2, e3, e4⟩ | ⟨d, ms, M3, e1, e2, e3, e4, e5, e6, e7, e8, e9⟩ | ⟨hM, d, e1, e2, e3⟩
  · right
    refine ⟨⟨d, s.obj⟩, d.recvs.length + M.length, pqStep_again hb e1 e3.xact, ⟨by rw [e3.nextId]; exact hold, ⟨?_, hb.recv, e3.data, by rw [e3.read]; exact hb.read⟩, M, M2, m0, q, e2, by rw [e3.nextId]; exact hfull, hM2, hR, Nat.le_refl _, ht⟩, by omega⟩
    obtain ⟨x, hx, hxo⟩ := hb.xact
    exact ⟨x, by rw [e3.xact, hx], hxo⟩
  · right
    subst e6
    rw [List.append_assoc] at hfull
    obtain ⟨i', p, g1, g2, g3, g4, g5, g6, _⟩ := full_next hfull hold e5 (by
      intro e
      unfold strip at e hM2
      rw [List.filter_append] at e
      exact hM2 (List.append_eq_nil_iff.mp e).2)
    have hrec' := full_open g3 (by
      intro e
      unfold strip at e hM2
      rw [List.filter_append] at e
      exact hM2 (List.append_eq_nil_iff.mp e).2)
    obtain ⟨e, k1, k2, k3, k4, k5⟩ := pqStep_batch hb e1 e7 e3 e8 g1 g2 hrec'
    have hid : e.nextId = s.conn.nextId + 2 := by omega
    have hlen : 0 < ms.length := List.length_pos_iff.mpr e5
    have hcl : i'.completed.length = s.obj.completed.length + 1 := by rw [g5]; simp
    rw [List.length_append] at hf ht
    refine ⟨⟨e, i'⟩, e.recvs.length + M3.length, k1, ⟨by rw [hid]; exact g4, k2, M3, M2, m0, q, by rw [k4, k5]; exact e2, by rw [hid]; exact g3, hM2, ?_, Nat.le_refl _, ?_⟩, by rw [k4]; omega⟩
    · rw [hR, got_append s.obj i' _ _ g5, g6, List.append_assoc]
      simp [rowsOf]
    · dsimp only
      omega
  · left
    subst hM
    exact ⟨by rw [hR]; simp [rowsOf], pqStep_dead hb e1 e2 e3⟩

theorem loses_steps (stop : Inst → Bool) : ∀ (fuel : Nat) {s : Held} {R : List Proc} {f t : Nat}, Loses s R f t → f < fuel →
    (∃ s', steps stop fuel s = (s', .fine) ∧ Loses s' R f t ∧ stop s'.obj = true) ∨ (∃ (s' s1 : Held), steps stop fuel s = (s', .raised) ∧ stop s1.obj = false ∧ R = got s1.obj)
  | 0, _, _, _, _, _, h => absurd h (Nat.not_lt_zero _)
  | fuel + 1, s, R, f, t, hg, hf => by
    unfold steps
    have hc := hg.open_
    by_cases hst : stop s.obj = true
    · rw [if_pos (.inr hst)]
      exact .inl ⟨s, rfl, hg, hst⟩
    · rw [if_neg (by rintro (e | e); exact hc e; exact hst e)]
      rcases loses_step hg with ⟨e1, s', e2⟩ | ⟨s1, f1, e1, e2, e3⟩
      · rw [e2]
        exact .inr ⟨s', s, rfl, by simpa using hst, e1⟩
      · rw [e1]
        dsimp only
        rcases loses_steps stop fuel e2 (by omega) with ⟨s', k1, k2, k3⟩ | h
        · exact .inl ⟨s', k1, k2.mono (by omega), k3⟩
        · exact .inr h

theorem init_loses (copy : Bool) : ∀ (fuel : Nat) {s : Held} {R : List Proc} {f t : Nat} {a : All}, Loses s R f t → f < fuel → init copy fuel s = (.fine, a) → a.live = true ∧ Loses a.held R f t
  | 0, _, _, _, _, _, _, h, _ => absurd h (Nat.not_lt_zero _)
  | fuel + 1, s, R, f, t, a, hg, hf, h => by
    unfold init at h
    rw [if_neg hg.open_] at h
    rcases loses_step hg with ⟨e1, s', e2⟩ | ⟨s1, f1, e1, e2, e3⟩
    · rw [e2] at h
      cases (Prod.mk.inj h).1
    · rw [e1] at h
      dsimp only at h
      have hno : (steps (fun _ => false) fuel s1).2 ≠ .fine := by
        rcases loses_steps (fun _ => false) fuel e2 (by omega) with ⟨s', _, _, k3⟩ | ⟨s', _, k1, _⟩
        · cases k3
        · rw [k1]; simp
      cases hs : firstSeen copy (messagesReceived s1.obj) with
      | noise =>
        rw [hs] at h
        obtain ⟨k1, k2⟩ := init_loses copy fuel e2 (by omega) h
        exact ⟨k1, k2.mono (by omega)⟩
      | data =>
        rw [hs] at h
        obtain ⟨_, rfl⟩ := Prod.mk.inj h
        exact ⟨rfl, e2.mono (by omega)⟩
      | null =>
        rw [hs] at h
        exact absurd (Prod.mk.inj h).1 hno
      | complete p =>
        rw [hs] at h
        exact absurd (Prod.mk.inj h).1 hno
      | unexpected =>
        rw [hs] at h
        cases (Prod.mk.inj h).1

theorem next_loses {β : Type} (decode : List Proc → Option (List β)) {fuel : Nat} {a : All} {R : List Proc} {f t : Nat} (hl : a.live = true) (h : Loses a.held R f t) (hf : f < fuel) :
    ((next decode fuel a).1 = .raised ∧ R = []) ∨
    (∃ c R' t', R = c ++ R' ∧ t = t' + 1 ∧ ((∃ r, decode c = some r ∧ (next decode fuel a).1 = .chunk r ∧ (next decode fuel a).2.live = true ∧ Loses (next decode fuel a).2.held R' f t') ∨
      (decode c = none ∧ (next decode fuel a).1 = .raised))) := by
  unfold next
  rw [if_pos hl]
  rcases loses_steps (fun x => !x.completed.isEmpty) fuel h hf with ⟨s', e1, e2, e3⟩ | ⟨s', s1, e1, e2, e3⟩
  · right
    rw [e1]
    dsimp only
    rw [if_neg (by rw [e2.fatal]; simp)]
    cases hcomp : s'.obj.completed with
    | nil => rw [hcomp] at e3; cases e3
    | cons m rest =>
      obtain ⟨k, ms⟩ := m
      dsimp only
      have hgot : got s'.obj = ms.filter isData ++ got { s'.obj with completed := rest } := by simp [got, messagesReceived, hcomp]
      have hlen : s'.obj.completed.length = rest.length + 1 := by rw [hcomp]; rfl
      obtain ⟨hold, hb, M, M2, m0, q, hcut, hfull, hM2, hR, hf', ht⟩ := e2
      refine ⟨ms.filter isData, got { s'.obj with completed := rest } ++ rowsOf M, t - 1, by rw [hR, hgot, List.append_assoc], by omega, ?_⟩
      cases hdec : decode (ms.filter isData) with
      | none => exact .inr ⟨rfl, rfl⟩
      | some r =>
        left
        refine ⟨r, rfl, rfl, rfl, ⟨hold.last, fun c hc => hold.completed c (by rw [hcomp]; exact List.mem_cons_of_mem _ hc)⟩, ?_, M, M2, m0, q, hcut, ?_, hM2, rfl, hf', ?_⟩
        · obtain ⟨⟨x, hx, hxo⟩, l2, l3, l4⟩ := hb
          refine ⟨⟨_, by show Option.map _ s'.conn.xact = _; rw [hx]; rfl, ?_⟩, l2, l3, l4⟩
          show ({ x.inst with completed := rest } : Inst) = { s'.obj with completed := rest }
          rw [hxo]
        · intro bs hbs
          obtain ⟨m, g1, g2, g3, g4⟩ := hfull bs hbs
          have hfr := batches_fresh hbs hold
          have hf0 : ∀ b ∈ bs, ∀ x ∈ s'.obj.completed, x.1 ≠ b.id := fun b hb' => (hfr.2 b hb').2.2
          have hf1 : ∀ b ∈ bs, ∀ x ∈ rest, x.1 ≠ b.id := fun b hb' x hx => hf0 b hb' x (by rw [hcomp]; exact List.mem_cons_of_mem _ hx)
          have h1 : (feed { s'.obj with completed := rest } bs).2.1 = .ok m := by
            rw [feed_swap bs s'.obj rest hfr.1 hf0 hf1]; exact g1
          have hdue : due { s'.obj with completed := rest } bs = some (rowsOf ((allMsgs bs).take m)) := by
            rw [due_swap bs s'.obj rest hfr hf1]
            exact (feed_due bs _ m hfr g1 g2 g3).1
          obtain ⟨d1, d2, _⟩ := due_feed bs { s'.obj with completed := rest } _ (show s'.obj.fatal = none from full_fatal hfull) hdue
          exact ⟨m, h1, d1, d2, g4⟩
        · show rest.length + M.length ≤ t - 1
          omega
  · left
    rw [e1]
    refine ⟨rfl, ?_⟩
    have : s1.obj.completed = [] := by
      cases hcc : s1.obj.completed with
      | nil => rfl
      | cons m r => rw [hcc] at e2; cases e2
    rw [e3]
    simp [got, messagesReceived, this]

theorem iterate_loses {β : Type} (f : Proc → Option β) {fuel : Nat} : ∀ (turns : Nat) {a : All} {R : List Proc} {k t : Nat} {out : List β}, a.live = true → Loses a.held R k t → k < fuel → t < turns → R.mapM f = some out →
    (iterate (perRow f) fuel turns a).1.flatten = out ∧ (iterate (perRow f) fuel turns a).2.1 = .raised
  | 0, _, _, _, _, _, _, _, _, h, _ => absurd h (Nat.not_lt_zero _)
  | turns + 1, a, R, k, t, out, hl, hg, hk, ht, hm => by
    unfold iterate
    rcases next_loses (perRow f) hl hg hk with ⟨k1, k2⟩ | ⟨c, R', t', rfl, k1, ⟨r, k2, k3, k4, k5⟩ | ⟨k2, _⟩⟩
    · subst k2
      cases hm
      generalize next (perRow f) fuel a = p at k1
      obtain ⟨o, a1⟩ := p
      dsimp only at k1
      subst k1
      exact ⟨rfl, rfl⟩
    · obtain ⟨x, y, m1, m2, rfl⟩ := mapM_append_some hm
      have : x = r := by unfold perRow at k2; rw [m1] at k2; exact Option.some.inj k2
      subst this
      generalize next (perRow f) fuel a = p at k3 k4 k5
      obtain ⟨o, a1⟩ := p
      dsimp only at k3 k4 k5
      subst k3
      obtain ⟨i1, i2⟩ := iterate_loses f turns k4 k5 hk (by omega) m2
      dsimp only
      exact ⟨by rw [List.flatten_cons, i1], i2⟩
    · exfalso
      obtain ⟨x, y, m1, m2, rfl⟩ := mapM_append_some hm
      unfold perRow at k2
      rw [m1] at k2
      cases k2

end PG.FetchWire
