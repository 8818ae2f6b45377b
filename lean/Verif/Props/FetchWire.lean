import Verif.Proofs.FetchWire3
import Verif.Proofs.FetchWire4
import Verif.Proofs.Client3
import Verif.Props.Fetch
import Verif.Props.ReplyBatches
/-!
# From the bytes of the socket to the rows (C101)

A `FetchAll` whose commands are sent, on a connection whose socket gives the bytes of the server's answer in any pieces, with any number of failing calls that are to be tried again in between.
-/
namespace PG.FetchWire
open PG
open PG.PBuffer hiding Msg
open PG.Element3 PG.Xact3 PG.Client3 PG.Fetch PG.Spec PG.Spec.Xact PG.Spec.Fetch PG.Spec.Reply PG.Spec.FetchWire

theorem rowsOf_strip (ms : List Msg) : rowsOf (strip ms) = rowsOf ms := by
  induction ms with
  | nil => rfl
  | cons x ms ih =>
    unfold rowsOf strip at *
    rw [List.filter_cons]
    cases h : asyncKind x.1 with
    | none => simp only [Option.isNone_none, if_true, List.filterMap_cons, ih]
    | some k => rw [if_neg (by simp), List.filterMap_cons, async_no_data h]; exact ih

theorem three_reply {cs : List Elem} (h : Three cs) {w : List Msg} (hr : Reply cs w) : w ≠ [] := by
  obtain ⟨c, hc, hk⟩ := h.bind
  cases hr with
  | nil => cases hc
  | @answer c' cs' a r ha _ =>
    cases hc
    intro e
    obtain ⟨rfl, _⟩ := List.append_eq_nil_iff.mp e
    generalize hz : ([] : List Msg) = z at ha
    cases ha <;> first | (simp at hz; done) | (simp [Elem.kind, Kind.typ, EmptyKind.typ] at hk; done)
  | error => simp
  | lost => simp
  | queryError => simp

theorem three_head {cs : List Elem} (h : Three cs) : cs ≠ [] ∧ cs.head? ≠ some (.empty .flush) := by
  obtain ⟨c, hc, hk⟩ := h.bind
  cases cs with
  | nil => cases hc
  | cons d cs =>
    cases hc
    refine ⟨by simp, fun e => ?_⟩
    cases e
    cases hk

/-- The answer as it is due. -/
theorem due_reply {cs : List Elem} {s0 : Inst} {ms : List Msg} {k : Nat} (h3 : Three cs) (h0 : Xact3.init cs = .ok s0) (hcs : ∀ c ∈ cs, IsCommand c) (ha : AsyncsParse ms) (hr : Reply cs (strip ms))
    (he : ∀ x ∈ ms, x.1 ≠ 69 ∧ x.1 ≠ 71) (hk : Old (sent s0) k) (bs : List Batch) (hb : Batches k ms bs) : due (sent s0) bs = some (rowsOf ms) := by
  obtain ⟨h1, h2⟩ := three_head h3
  have hbs : bs ≠ [] := by
    rintro rfl
    have := hb.msgs
    rw [← this] at hr
    exact three_reply h3 hr rfl
  have hf := batches_fresh hb hk
  have hm := hb.msgs
  subst hm
  obtain ⟨m, g1, g2, g3, g4, g5⟩ := Props.ReplyBatches.C12_batched_completes h0 hcs h1 h2 hf ha hr (fun x hx => (he x hx).2) hbs
  rw [(feed_due bs _ m hf g1 g2 (g5 fun x hx => (he x hx).1)).1, ← rowsOf_strip, g4, rowsOf_strip]

theorem gives_start {cs : List Elem} {s0 : Inst} {ms : List Msg} {c : Conn IX} (h3 : Three cs) (h0 : Xact3.init cs = .ok s0) (hcs : ∀ c ∈ cs, IsCommand c) (hc : Asked c s0) (hev : Calm c.recvs)
    (hb : bytesOf c.recvs = frames ms) (hfit : ∀ m ∈ ms, Fits m) (ha : AsyncsParse ms) (hr : Reply cs (strip ms)) (he : ∀ x ∈ ms, x.1 ≠ 69 ∧ x.1 ≠ 71) :
    Gives ⟨c, sent s0⟩ (rowsOf ms) (c.recvs.length + ms.length) ms.length := by
  obtain ⟨⟨oid, user, hx⟩, c2, c3, c4, c5, c6⟩ := hc
  obtain ⟨r1, r2, r3, r4⟩ := start_run h3 h0
  have hst : (sent s0).state = .receiving .standardPut ∧ (sent s0).lastId = 0 := by
    unfold Xact3.init at h0
    split at h0
    · cases h0; exact ⟨rfl, rfl⟩
    · cases h0
  have hold : Old (sent s0) c.nextId := ⟨by rw [hst.2]; exact c6, fun x hx => by rw [r4] at hx; cases hx⟩
  have hdue := due_reply h3 h0 hcs ha hr he hold
  refine ⟨r2, hold, .inr ⟨by rw [hst.1]; simp, ms, rowsOf ms, ⟨⟨_, hx, rfl⟩, ⟨_, hst.1⟩, c3, c2, c4, hev, ?_, hfit⟩, by rw [r3]; rfl, hdue, Nat.le_refl _, ?_⟩⟩
  · show c.stream.strio.buf.drop c.stream.start ++ _ = _
    rw [c5, hb]
    rfl
  · show (sent s0).completed.length + ms.length ≤ ms.length
    rw [r4]
    simp

theorem iterate_gives {β : Type} (f : Proc → Option β) {fuel : Nat} : ∀ (turns : Nat) {a : All} {R : List Proc} {k t : Nat} {out : List β}, GivesAll a R k t → k < fuel → t < turns → R.mapM f = some out →
    (iterate (perRow f) fuel turns a).1.flatten = out ∧ (iterate (perRow f) fuel turns a).2.1 = .stop
  | 0, _, _, _, _, _, _, _, h, _ => absurd h (Nat.not_lt_zero _)
  | turns + 1, a, R, k, t, out, hg, hk, ht, hm => by
    unfold iterate
    rcases next_gives (perRow f) hg hk with ⟨k1, k2, _⟩ | ⟨c, R', t', rfl, k1, ⟨r, k2, k3, k4⟩ | ⟨k2, _⟩⟩
    · subst k2
      cases hm
      generalize next (perRow f) fuel a = p at k1
      obtain ⟨o, a1⟩ := p
      dsimp only at k1
      subst k1
      exact ⟨rfl, rfl⟩
    · obtain ⟨x, y, m1, m2, rfl⟩ := mapM_append_some hm
      have : x = r := by unfold perRow at k2; rw [m1] at k2; exact Option.some.inj k2
      subst this
      generalize next (perRow f) fuel a = p at k3 k4
      obtain ⟨o, a1⟩ := p
      dsimp only at k3 k4
      subst k3
      obtain ⟨i1, i2⟩ := iterate_gives f turns k4 hk (by omega) m2
      dsimp only
      exact ⟨by rw [List.flatten_cons, i1], i2⟩
    · exfalso
      obtain ⟨x, y, m1, m2, rfl⟩ := mapM_append_some hm
      unfold perRow at k2
      rw [m1] at k2
      cases k2

/-- **C101 (every row of the answer, once, in order).** The commands of a `FetchAll` are sent (`Asked`). The socket gives the bytes of the messages `ms` in any pieces, with calls to be tried again anywhere (`Calm`). The messages are a reply to the commands, with
well formed asynchronous messages anywhere in it, without an error and without a request for COPY data. Then iteration gives exactly the decoded rows of the reply, in order, and ends. -/
theorem C101_rows {β : Type} {cs : List Elem} {s0 : Inst} {ms : List Msg} {c : Conn IX} {fuel : Nat} {a : All} (h3 : Three cs) (h0 : Xact3.init cs = .ok s0) (hcs : ∀ c ∈ cs, IsCommand c) (hc : Asked c s0)
    (hev : Calm c.recvs) (hb : bytesOf c.recvs = frames ms) (hfit : ∀ m ∈ ms, Fits m) (ha : AsyncsParse ms) (hr : Reply cs (strip ms)) (he : ∀ x ∈ ms, x.1 ≠ 69 ∧ x.1 ≠ 71)
    (hfuel : c.recvs.length + ms.length < fuel) (copy : Bool) (hi : init copy fuel ⟨c, sent s0⟩ = (.fine, a))
    (f : Proc → Option β) (out : List β) (hm : (rowsOf ms).mapM f = some out) (turns : Nat) (ht : ms.length < turns) :
    (iterate (perRow f) fuel turns a).1.flatten = out ∧ (iterate (perRow f) fuel turns a).2.1 = .stop :=
  iterate_gives f turns (init_gives copy fuel (gives_start h3 h0 hcs hc hev hb hfit ha hr he) (start_run h3 h0).1 hi) hfuel ht hm

/-- **C101 (how the bytes arrive does not matter).** Two connections that ask the same and whose sockets give the same bytes, in different pieces and with different failing calls: the same rows. -/
theorem C101_pieces {β : Type} {cs : List Elem} {s0 : Inst} {ms : List Msg} {c d : Conn IX} {fuel : Nat} {a b : All} (h3 : Three cs) (h0 : Xact3.init cs = .ok s0) (hcs : ∀ c ∈ cs, IsCommand c) (hc : Asked c s0) (hd : Asked d s0)
    (hev : Calm c.recvs) (hdv : Calm d.recvs) (hb : bytesOf c.recvs = frames ms) (hsame : bytesOf d.recvs = bytesOf c.recvs) (hfit : ∀ m ∈ ms, Fits m) (ha : AsyncsParse ms) (hr : Reply cs (strip ms))
    (he : ∀ x ∈ ms, x.1 ≠ 69 ∧ x.1 ≠ 71) (hfuel : c.recvs.length + ms.length < fuel ∧ d.recvs.length + ms.length < fuel) (copy : Bool)
    (hi : init copy fuel ⟨c, sent s0⟩ = (.fine, a)) (hj : init copy fuel ⟨d, sent s0⟩ = (.fine, b)) (f : Proc → Option β) (hm : (rowsOf ms).mapM f ≠ none) (turns : Nat) (ht : ms.length < turns) :
    (iterate (perRow f) fuel turns a).1.flatten = (iterate (perRow f) fuel turns b).1.flatten := by
  cases ho : (rowsOf ms).mapM f with
  | none => exact absurd ho hm
  | some out =>
    rw [(C101_rows h3 h0 hcs hc hev hb hfit ha hr he hfuel.1 copy hi f out ho turns ht).1,
      (C101_rows h3 h0 hcs hd hdv (by rw [hsame, hb]) hfit ha hr he hfuel.2 copy hj f out ho turns ht).1]

/-- **C101 (a row that cannot be decoded).** Each turn gives a part of the rows that are still due, decoded as it is, or raises and nothing is lost, or ends the iteration when nothing is due. (`GivesAll a R k t`: the stream `a` has the rows `R` still to give; `C101_start`
says that it has all rows of the answer at the beginning.) -/
theorem C101_turn {β : Type} (decode : List Proc → Option (List β)) {fuel : Nat} {a : All} {R : List Proc} {k t : Nat} (h : GivesAll a R k t) (hk : k < fuel) :
    ((next decode fuel a).1 = .stop ∧ R = []) ∨ (∃ l r R', R = l ++ R' ∧ decode l = some r ∧ (next decode fuel a).1 = .chunk r ∧ ∃ t', GivesAll (next decode fuel a).2 R' k t') ∨
      ((∃ l R', R = l ++ R' ∧ decode l = none) ∧ (next decode fuel a).1 = .raised ∧ GivesAll (next decode fuel a).2 R k t) := by
  rcases next_gives decode h hk with ⟨k1, k2, _⟩ | ⟨c, R', t', e, _, ⟨r, k2, k3, k4⟩ | ⟨k2, k3, k4⟩⟩
  · exact .inl ⟨k1, k2⟩
  · exact .inr (.inl ⟨c, r, R', e, k2, k3, t', k4⟩)
  · exact .inr (.inr ⟨⟨c, R', e, k2⟩, k3, k4⟩)

/-- **C101 (what is due at the beginning).** -/
theorem C101_start {cs : List Elem} {s0 : Inst} {ms : List Msg} {c : Conn IX} {fuel : Nat} {a : All} (h3 : Three cs) (h0 : Xact3.init cs = .ok s0) (hcs : ∀ c ∈ cs, IsCommand c) (hc : Asked c s0)
    (hev : Calm c.recvs) (hb : bytesOf c.recvs = frames ms) (hfit : ∀ m ∈ ms, Fits m) (ha : AsyncsParse ms) (hr : Reply cs (strip ms)) (he : ∀ x ∈ ms, x.1 ≠ 69 ∧ x.1 ≠ 71)
    (copy : Bool) (hi : init copy fuel ⟨c, sent s0⟩ = (.fine, a)) : GivesAll a (rowsOf ms) (c.recvs.length + ms.length) ms.length :=
  init_gives copy fuel (gives_start h3 h0 hcs hc hev hb hfit ha hr he) (start_run h3 h0).1 hi

theorem init_blocked (copy : Bool) : ∀ (fuel : Nat) {s : Held} {R : List Proc} {f t : Nat}, Gives s R f t → f < fuel → (init copy fuel s).1 ≠ .blocked
  | 0, _, _, _, _, _, h => absurd h (Nat.not_lt_zero _)
  | fuel + 1, s, R, f, t, hg, hf => by
    unfold init
    by_cases hc : s.obj.state = .complete
    · rw [if_pos hc]; simp
    · rw [if_neg hc]
      obtain ⟨s1, f1, e1, e2, e3, _⟩ := gives_step hg hc
      rw [e1]
      dsimp only
      obtain ⟨s2, k1, _⟩ := gives_steps (fun _ => false) fuel e2 (by omega)
      cases firstSeen copy (messagesReceived s1.obj) with
      | noise => exact init_blocked copy fuel e2 (by omega)
      | data => simp
      | null => dsimp only; rw [k1]; simp
      | complete p => dsimp only; rw [k1]; simp
      | unexpected => simp

/-- **C101 (the constructor does not wait for more than the answer).** -/
theorem C101_constructor {cs : List Elem} {s0 : Inst} {ms : List Msg} {c : Conn IX} {fuel : Nat} (h3 : Three cs) (h0 : Xact3.init cs = .ok s0) (hcs : ∀ c ∈ cs, IsCommand c) (hc : Asked c s0)
    (hev : Calm c.recvs) (hb : bytesOf c.recvs = frames ms) (hfit : ∀ m ∈ ms, Fits m) (ha : AsyncsParse ms) (hr : Reply cs (strip ms)) (he : ∀ x ∈ ms, x.1 ≠ 69 ∧ x.1 ≠ 71)
    (hfuel : c.recvs.length + ms.length < fuel) (copy : Bool) : (init copy fuel ⟨c, sent s0⟩).1 ≠ .blocked :=
  init_blocked copy fuel (gives_start h3 h0 hcs hc hev hb hfit ha hr he) hfuel

/-- **C101 (the step is that of the connection).** `step` (C14, C15) is `stepOpen`, and removing the transaction if nothing was to be tried again. -/
theorem C101_step (c : Conn IX) : step instOps c = match stepOpen instOps c with
    | (d, .ret true) => (stepEnd instOps d, .ret ())
    | (d, .ret false) => (d, .ret ())
    | (d, .raised e) => (d, .raised e)
    | (d, .blocked) => (d, .blocked) := by
  unfold step stepOpen
  cases c.xact with
  | none => rfl
  | some x =>
    dsimp only
    cases instOps.dir x with
    | complete => rfl
    | sending =>
      dsimp only
      generalize writeMessages instOps c (instOps.messages x) = w
      obtain ⟨d, r⟩ := w
      cases r with
      | ret b => rfl
      | blocked => rfl
      | raised e => cases e with
        | py e => rfl
        | sock k => cases k <;> rfl
    | receiving =>
      dsimp only
      generalize Client3.readMessages instOps c = w
      obtain ⟨d, r⟩ := w
      cases r with
      | blocked => rfl
      | raised e => cases e with
        | py e => rfl
        | sock k => cases k <;> rfl
      | ret b =>
        dsimp only
        generalize putRead instOps d x (d.xact.getD x) = w
        obtain ⟨d, r⟩ := w
        cases r with
        | ret b => rfl
        | blocked => rfl
        | raised e => cases e with
          | py e => rfl
          | sock k => cases k <;> rfl

/-! ### The connection is lost -/

theorem full_reply {cs : List Elem} {s0 : Inst} {ms : List Msg} {k : Nat} (h3 : Three cs) (h0 : Xact3.init cs = .ok s0) (hcs : ∀ c ∈ cs, IsCommand c) (ha : AsyncsParse ms) (hr : Reply cs (strip ms))
    (he : ∀ x ∈ ms, x.1 ≠ 69 ∧ x.1 ≠ 71) (hk : Old (sent s0) k) : Full (sent s0) k ms := by
  intro bs hb
  obtain ⟨h1, h2⟩ := three_head h3
  have hbs : bs ≠ [] := by
    rintro rfl
    have := hb.msgs
    rw [← this] at hr
    exact three_reply h3 hr rfl
  have hf := batches_fresh hb hk
  have hm := hb.msgs
  subst hm
  obtain ⟨m, g1, g2, g3, g4, g5⟩ := Props.ReplyBatches.C12_batched_completes h0 hcs h1 h2 hf ha hr (fun x hx => (he x hx).2) hbs
  exact ⟨m, g1, g2, g5 fun x hx => (he x hx).1, g4⟩

/-- **C101 (a lost connection is not taken for the end).** The answer is `seen ++ m0 :: missing`, but after the messages `seen` and some bytes of `m0` (`cut`; none perhaps) the peer closes the connection, or the socket fails for good. Something that is not asynchronous is missing.
Then iteration gives exactly the decoded rows that came, in order, and raises; it does not end as it would after a complete answer. -/
theorem C101_lost {β : Type} {cs : List Elem} {s0 : Inst} {seen missing : List Msg} {m0 : Msg} {cut q : Bytes} {pre post : List RecvEv} {d : RecvEv} {c : Conn IX} {fuel : Nat} {a : All} (h3 : Three cs) (h0 : Xact3.init cs = .ok s0)
    (hcs : ∀ c ∈ cs, IsCommand c) (hc : Asked c s0) (hev : c.recvs = pre ++ d :: post) (hpre : Calm pre) (hd : d = .data [] ∨ d = .err .fatal) (hb : bytesOf pre = frames seen ++ cut) (hcut : cut ++ q = frame m0) (hq : q ≠ [])
    (hfit : ∀ m ∈ seen ++ m0 :: missing, Fits m) (ha : AsyncsParse (seen ++ m0 :: missing)) (hr : Reply cs (strip (seen ++ m0 :: missing))) (he : ∀ x ∈ seen ++ m0 :: missing, x.1 ≠ 69 ∧ x.1 ≠ 71) (hmiss : strip (m0 :: missing) ≠ [])
    (hfuel : c.recvs.length + seen.length < fuel) (copy : Bool) (hi : init copy fuel ⟨c, sent s0⟩ = (.fine, a)) (f : Proc → Option β) (out : List β) (hm : (rowsOf seen).mapM f = some out) (turns : Nat) (ht : seen.length < turns) :
    (iterate (perRow f) fuel turns a).1.flatten = out ∧ (iterate (perRow f) fuel turns a).2.1 = .raised := by
  obtain ⟨⟨oid, user, hx⟩, c2, c3, c4, c5, c6⟩ := hc
  obtain ⟨r1, r2, r3, r4⟩ := start_run h3 h0
  have hst : (sent s0).state = .receiving .standardPut ∧ (sent s0).lastId = 0 := by
    unfold Xact3.init at h0
    split at h0
    · cases h0; exact ⟨rfl, rfl⟩
    · cases h0
  have hold : Old (sent s0) c.nextId := ⟨by rw [hst.2]; exact c6, fun x hx => by rw [r4] at hx; cases hx⟩
  have hl : Loses ⟨c, sent s0⟩ (rowsOf seen) (c.recvs.length + seen.length) seen.length := by
    refine ⟨hold, ⟨⟨_, hx, rfl⟩, ⟨_, hst.1⟩, c3, c2⟩, seen, m0 :: missing, m0, q, ⟨c4, ⟨pre, d, post, hev, hpre, hd, ?_⟩, ⟨hq, ?_⟩, fun m hm => hfit m ?_⟩, full_reply h3 h0 hcs ha hr he hold, hmiss, by rw [r3]; rfl, Nat.le_refl _, ?_⟩
    · show c.stream.strio.buf.drop c.stream.start ++ _ ++ _ = _
      rw [c5, hb, List.nil_append, List.append_assoc, hcut, frames_append]
      simp [frames]
    · rw [← hcut, List.length_append]
      omega
    · rcases List.mem_append.mp hm with h | h
      · exact List.mem_append_left _ h
      · rw [List.mem_singleton.mp h]
        exact List.mem_append_right _ List.mem_cons_self
    · show (sent s0).completed.length + seen.length ≤ seen.length
      rw [r4]
      simp
  obtain ⟨k1, k2⟩ := init_loses copy fuel hl hfuel hi
  exact iterate_loses f turns k1 k2 hfuel ht hm

/-- **C101 (errors are not forgotten).** A stream whose transaction failed raises, every time it is asked. -/
theorem C101_failed {β : Type} (decode : List Proc → Option (List β)) (fuel : Nat) (a : All) (hl : a.live = true) (hc : a.held.obj.state = .complete) (hf : a.held.obj.fatal ≠ none) :
    next decode (fuel + 1) a = (.raised, a) := by
  unfold next steps
  rw [if_pos hl, if_pos (.inl hc)]
  dsimp only
  rw [if_pos hf]

theorem start_says {cs : List Elem} {s0 : Inst} {ms : List Msg} {c : Conn IX} {copy : Bool} (h3 : Three cs) (h0 : Xact3.init cs = .ok s0) (hcs : ∀ c ∈ cs, IsCommand c) (hc : Asked c s0) (hev : Calm c.recvs)
    (hb : bytesOf c.recvs = frames ms) (hfit : ∀ m ∈ ms, Fits m) (ha : AsyncsParse ms) (hr : Reply cs (strip ms)) (he : ∀ x ∈ ms, x.1 ≠ 69 ∧ x.1 ≠ 71) (h72 : copy = false → ∀ x ∈ ms, x.1 ≠ 72) : Says copy ⟨c, sent s0⟩ := by
  obtain ⟨⟨oid, user, hx⟩, c2, c3, c4, c5, c6⟩ := hc
  obtain ⟨r1, r2, r3, r4⟩ := start_run h3 h0
  have hst : (sent s0).state = .receiving .standardPut ∧ (sent s0).lastId = 0 := by
    unfold Xact3.init at h0
    split at h0
    · cases h0; exact ⟨rfl, rfl⟩
    · cases h0
  have hold : Old (sent s0) c.nextId := ⟨by rw [hst.2]; exact c6, fun x hx => by rw [r4] at hx; cases hx⟩
  intro _
  have hfull := full_reply h3 h0 hcs ha hr he hold
  obtain ⟨n, s, fi, ps, fo, nm, mx, rfl⟩ := three_commands h3 hcs
  have hmem : ∀ x ∈ strip ms, x ∈ ms := fun x hx => (List.mem_filter.mp hx).1
  obtain ⟨b, w, z, hw, hbi, hans, _⟩ := Props.Statement.reply_three hr fun x hx => (he x (hmem x hx)).1
  have hwm : ∀ x ∈ w, x ∈ ms := fun x hx => hmem x (by rw [hw]; simp [hx])
  have hseen := Props.Statement.seen_answer copy hbi hans (z := z) (fun x hx => (he x (hwm x hx)).2) (fun e x hx => h72 e x (hwm x hx))
  refine ⟨ms, ⟨⟨_, hx, rfl⟩, ⟨_, hst.1⟩, c3, c2, c4, hev, ?_, hfit⟩, hfull, full_ne hfull (by rw [hst.1]; simp), ?_⟩
  · show c.stream.strio.buf.drop c.stream.start ++ _ = _
    rw [c5, hb]
    rfl
  · show firstSeen copy (messagesReceived (sent s0) ++ Spec.Received.meaning ms) ≠ _
    have : messagesReceived (sent s0) = [] := by unfold messagesReceived; rw [r4]; rfl
    rw [this, List.nil_append, ← Statement.meaning_strip, hw]
    rcases hseen with ⟨_, _, _, _, e⟩ | ⟨_, _, e⟩ | ⟨_, _, _, _, e⟩ <;> (rw [e]; simp)

/-- **C101 (the constructor does not raise).** As `C101_rows`; if the answer begins a COPY, the object is one that expects it. The constructor ends normally. -/
theorem C101_fine {cs : List Elem} {s0 : Inst} {ms : List Msg} {c : Conn IX} {fuel : Nat} (h3 : Three cs) (h0 : Xact3.init cs = .ok s0) (hcs : ∀ c ∈ cs, IsCommand c) (hc : Asked c s0)
    (hev : Calm c.recvs) (hb : bytesOf c.recvs = frames ms) (hfit : ∀ m ∈ ms, Fits m) (ha : AsyncsParse ms) (hr : Reply cs (strip ms)) (he : ∀ x ∈ ms, x.1 ≠ 69 ∧ x.1 ≠ 71)
    (hfuel : c.recvs.length + ms.length < fuel) (copy : Bool) (h72 : copy = false → ∀ x ∈ ms, x.1 ≠ 72) : (init copy fuel ⟨c, sent s0⟩).1 = .fine := by
  refine init_says copy fuel (gives_start h3 h0 hcs hc hev hb hfit ha hr he) (start_says h3 h0 hcs hc hev hb hfit ha hr he h72) hfuel ?_
  have : messagesReceived (sent s0) = [] := by unfold messagesReceived; rw [(start_run h3 h0).2.2.2]; rfl
  show firstSeen copy (messagesReceived (sent s0)) ≠ _
  rw [this]
  simp [firstSeen]

/-- **C101 (from the commands to the end).** The constructor ends normally, and iteration gives exactly the decoded rows of the answer, and ends. -/
theorem C101_fetch {β : Type} {cs : List Elem} {s0 : Inst} {ms : List Msg} {c : Conn IX} {fuel : Nat} (h3 : Three cs) (h0 : Xact3.init cs = .ok s0) (hcs : ∀ c ∈ cs, IsCommand c) (hc : Asked c s0)
    (hev : Calm c.recvs) (hb : bytesOf c.recvs = frames ms) (hfit : ∀ m ∈ ms, Fits m) (ha : AsyncsParse ms) (hr : Reply cs (strip ms)) (he : ∀ x ∈ ms, x.1 ≠ 69 ∧ x.1 ≠ 71)
    (hfuel : c.recvs.length + ms.length < fuel) (copy : Bool) (h72 : copy = false → ∀ x ∈ ms, x.1 ≠ 72) (f : Proc → Option β) (out : List β) (hm : (rowsOf ms).mapM f = some out) (turns : Nat) (ht : ms.length < turns) :
    ∃ a, init copy fuel ⟨c, sent s0⟩ = (.fine, a) ∧ (iterate (perRow f) fuel turns a).1.flatten = out ∧ (iterate (perRow f) fuel turns a).2.1 = .stop := by
  have hfine := C101_fine h3 h0 hcs hc hev hb hfit ha hr he hfuel copy h72
  refine ⟨(init copy fuel ⟨c, sent s0⟩).2, Prod.ext hfine rfl, ?_⟩
  exact C101_rows h3 h0 hcs hc hev hb hfit ha hr he hfuel copy (Prod.ext hfine rfl) f out hm turns ht

/-- **C101 (a stream that ends has ended well).** Whatever the socket does and whatever bytes the server sends: if the constructor ends normally and iteration ends without an exception, then the transaction is complete, nothing failed, and none of the
messages that were taken from the connection is an error message (type `E`, 69). -/
theorem C101_end {β : Type} {s0 : Inst} {c : Conn IX} {fuel turns : Nat} {a : All} (decode : List Proc → Option (List β)) (hx : ∃ oid user, c.xact = some ⟨sent s0, oid, user⟩) (ht : c.taken = []) (hf : (sent s0).fatal = none) (copy : Bool)
    (hi : init copy fuel ⟨c, sent s0⟩ = (.fine, a)) (hstop : (iterate decode fuel turns a).2.1 = .stop) :
    let z := (iterate decode fuel turns a).2.2.held
    z.obj.state = .complete ∧ z.obj.fatal = none ∧ ∀ m ∈ z.conn.taken, m.1 ≠ 69 := by
  obtain ⟨oid, user, hx⟩ := hx
  have h0 : Aware ⟨c, sent s0⟩ := by
    refine ⟨fun _ m hm => ?_, fun x h => ?_⟩
    · rw [show (⟨c, sent s0⟩ : Held).conn.taken = [] from ht] at hm
      cases hm
    · have h : c.xact = some x := h
      rw [hx] at h
      cases h
      rfl
  obtain ⟨⟨k1, k2, _⟩, k3⟩ := iterate_aware decode turns (init_aware copy fuel h0 (fun _ => hf) hi) hstop
  exact ⟨k3, k2 k3, k1.error (k2 k3)⟩

theorem pqStep_conn (s : Held) : (pqStep s).1.conn = s.conn ∨ (pqStep s).1.conn = (step instOps s.conn).1 := by
  unfold pqStep
  cases s.conn.xact with
  | none => exact .inl rfl
  | some x =>
    right
    rw [C101_step]
    dsimp only
    generalize stepOpen instOps s.conn = w
    obtain ⟨d, r⟩ := w
    cases r with
    | raised e => rfl
    | blocked => rfl
    | ret b => cases b <;> rfl

theorem pqStep_I {s : Held} (h : I s.conn) : I (pqStep s).1.conn := by
  rcases pqStep_conn s with e | e <;> rw [e]
  · exact h
  · exact step_I instOps s.conn h

theorem steps_I (stop : Inst → Bool) : ∀ (fuel : Nat) (s : Held), I s.conn → I (steps stop fuel s).1.conn
  | 0, _, h => h
  | fuel + 1, s, h => by
    unfold steps
    split
    · exact h
    · have hp := pqStep_I h
      generalize pqStep s = w at hp ⊢
      obtain ⟨s1, r⟩ := w
      cases r with
      | fine => exact steps_I stop fuel s1 hp
      | raised => exact hp
      | blocked => exact hp

theorem init_I' (copy : Bool) : ∀ (fuel : Nat) (s : Held), I s.conn → I (init copy fuel s).2.held.conn
  | 0, _, h => h
  | fuel + 1, s, h => by
    unfold init
    split
    · exact h
    · have hp := pqStep_I h
      generalize pqStep s = w at hp ⊢
      obtain ⟨s1, r⟩ := w
      cases r with
      | raised => exact hp
      | blocked => exact hp
      | fine =>
        dsimp only
        cases firstSeen copy (messagesReceived s1.obj) with
        | noise => exact init_I' copy fuel s1 hp
        | data => exact hp
        | null => exact steps_I _ fuel s1 hp
        | complete p => exact steps_I _ fuel s1 hp
        | unexpected => exact steps_I _ fuel s1 hp

theorem next_I {β : Type} (decode : List Proc → Option (List β)) (fuel : Nat) (a : All) (h : I a.held.conn) : I (next decode fuel a).2.held.conn := by
  unfold next
  split
  · have hp := steps_I (fun x => !x.completed.isEmpty) fuel a.held h
    generalize steps (fun x => !x.completed.isEmpty) fuel a.held = w at hp ⊢
    obtain ⟨s, r⟩ := w
    cases r with
    | blocked => exact hp
    | raised => exact hp
    | fine =>
      dsimp only
      split
      · exact hp
      · split
        · exact hp
        · split
          · exact hp
          · exact I_congr (c := s.conn) rfl rfl hp
  · exact h

theorem iterate_I {β : Type} (decode : List Proc → Option (List β)) (fuel : Nat) : ∀ (turns : Nat) (a : All), I a.held.conn → I (iterate decode fuel turns a).2.2.held.conn
  | 0, _, h => h
  | turns + 1, a, h => by
    unfold iterate
    have hp := next_I decode fuel a h
    generalize next decode fuel a = w at hp ⊢
    obtain ⟨o, a'⟩ := w
    cases o with
    | chunk r => exact iterate_I decode fuel turns a' hp
    | stop => exact hp
    | raised => exact hp
    | blocked => exact hp

/-- **C101 (what was taken is what came).** Whatever the socket does and whatever bytes the server sends, and however the constructor and the iteration end: the bytes received are those of the messages that were taken, and of those that were read but not taken, and a rest. So
the messages `C101_end` speaks of are the beginning of what the server sent, none left out. -/
theorem C101_source {β : Type} {s0 : Inst} {x : IX} {ops : List (Client.Op IX)} {fuel turns : Nat} (decode : List Proc → Option (List β)) (copy : Bool) :
    let z := (iterate decode fuel turns (init copy fuel ⟨Client.run instOps x ops, sent s0⟩).2).2.2.held.conn
    ∃ rest, z.received = frames (z.taken ++ z.read.msgs) ++ rest :=
  ⟨_, (iterate_I decode fuel turns _ (init_I' copy fuel ⟨Client.run instOps x ops, sent s0⟩ (run_I instOps x ops))).2.bytes⟩

/-! ### A concrete answer -/

/-- Three rows, a notification in between. -/
def demoMsgs : List Msg := [(50, []), Props.Xact.row 1, Props.Xact.note, Props.Xact.row 2, Props.Xact.row 3, (67, [67, 0]), (90, [73])]

/-- The bytes, in pieces of 9, with failing calls in between. -/
def demoEvents : List RecvEv :=
  [.data ((frames demoMsgs).take 9), .err .tryAgain, .data (((frames demoMsgs).drop 9).take 9), .data (((frames demoMsgs).drop 18).take 30), .err .tryAgain, .err .tryAgain, .data ((frames demoMsgs).drop 48)]

def demoInst : Inst := { Props.Xact.demo with commands := demoCommands, messages := .commands, state := .sending .standardSent }

def demoConn : Conn IX := { xact := some ⟨sent demoInst, 0, 0⟩, recvs := demoEvents }

theorem demo_asked : Asked demoConn demoInst := ⟨⟨0, 0, rfl⟩, rfl, rfl, by decide, by decide, by decide⟩

theorem demo_calm : Calm demoConn.recvs := by
  intro e he
  simp only [demoConn, demoEvents, List.mem_cons, List.not_mem_nil, or_false] at he
  rcases he with rfl | rfl | rfl | rfl | rfl | rfl | rfl
  · exact .inr ⟨_, rfl, by decide +kernel⟩
  · exact .inl rfl
  · exact .inr ⟨_, rfl, by decide +kernel⟩
  · exact .inr ⟨_, rfl, by decide +kernel⟩
  · exact .inl rfl
  · exact .inl rfl
  · exact .inr ⟨_, rfl, by decide +kernel⟩

theorem demo_bytes : bytesOf demoConn.recvs = frames demoMsgs := by decide +kernel

theorem demo_commands : ∀ c ∈ demoCommands, IsCommand c := by
  intro c hc
  simp only [demoCommands, List.mem_cons, List.not_mem_nil, or_false] at hc
  rcases hc with rfl | rfl | rfl <;> trivial

/-- What the example asks for. -/
example : Three demoCommands ∧ Xact3.init demoCommands = .ok demoInst ∧ (∀ c ∈ demoCommands, IsCommand c) ∧ Asked demoConn demoInst ∧ Calm demoConn.recvs ∧ bytesOf demoConn.recvs = frames demoMsgs ∧ (∀ m ∈ demoMsgs, Fits m) ∧
    AsyncsParse demoMsgs ∧ Reply demoCommands (strip demoMsgs) ∧ (∀ x ∈ demoMsgs, x.1 ≠ 69 ∧ x.1 ≠ 71) ∧ (∀ x ∈ demoMsgs, x.1 ≠ 72) ∧ (init false 20 ⟨demoConn, sent demoInst⟩).1 = .fine ∧ (rowsOf demoMsgs).mapM demoDecode = some [some [1], some [2], some [3]] ∧
    (iterate (perRow demoDecode) 20 8 (init false 20 ⟨demoConn, sent demoInst⟩).2).1.flatten = [some [1], some [2], some [3]] := by
  refine ⟨⟨rfl, ⟨_, rfl, by decide⟩, ⟨_, rfl, by decide⟩, ⟨_, rfl, by decide⟩⟩, demo_init, ?_, demo_asked, demo_calm, demo_bytes, by decide, ?_, ?_, by decide, by decide, by decide +kernel, by decide, by decide +kernel⟩
  · intro c hc
    simp only [demoCommands, List.mem_cons, List.not_mem_nil, or_false] at hc
    rcases hc with rfl | rfl | rfl <;> trivial
  · intro x hx k hk
    simp only [demoMsgs, List.mem_cons, List.not_mem_nil, or_false] at hx
    rcases hx with rfl | rfl | rfl | rfl | rfl | rfl | rfl <;> first | cases hk | skip
    exact ⟨.notify 1 [99] [112], by decide⟩
  · have hb : Is (.empty .bindComplete) (50, []) := ⟨rfl, _, rfl⟩
    have hz : Is .ready (90, [73]) := ⟨rfl, _, rfl⟩
    have hrow : ∀ r ∈ [Props.Xact.row 1, Props.Xact.row 2, Props.Xact.row 3], Is .tuple r := by
      intro r hr
      simp only [List.mem_cons, List.not_mem_nil, or_false] at hr
      rcases hr with rfl | rfl | rfl
      · exact ⟨rfl, .tuple [some [1]], by decide⟩
      · exact ⟨rfl, .tuple [some [2]], by decide⟩
      · exact ⟨rfl, .tuple [some [3]], by decide⟩
    have hc : Is .complete (67, [67, 0]) := ⟨rfl, .complete [67], by decide⟩
    exact .answer (a := [(50, [])]) (.bind hb) (.answer (a := [Props.Xact.row 1, Props.Xact.row 2, Props.Xact.row 3] ++ [(67, [67, 0])]) (.execute hrow hc) (.answer (a := [(90, [73])]) (.sync hz) .nil))

/-- What `C101_end` asks for and says, in the example. -/
example : demoConn.taken = [] ∧ (sent demoInst).fatal = none ∧ (init false 20 ⟨demoConn, sent demoInst⟩).1 = .fine ∧ (iterate (perRow demoDecode) 20 8 (init false 20 ⟨demoConn, sent demoInst⟩).2).2.1 = .stop ∧
    (iterate (perRow demoDecode) 20 8 (init false 20 ⟨demoConn, sent demoInst⟩).2).2.2.held.conn.taken = demoMsgs := ⟨rfl, rfl, by decide +kernel, by decide +kernel, by decide +kernel⟩

/-- The connection of the example is one that `C101_source` speaks of, and it takes all that came. -/
example : demoConn = Client.run instOps ⟨sent demoInst, 0, 0⟩ [.sock [] demoEvents] ∧ (iterate (perRow demoDecode) 20 8 (init false 20 ⟨demoConn, sent demoInst⟩).2).2.2.held.conn.received = frames demoMsgs := ⟨rfl, by decide +kernel⟩

/-- An answer with an error after its first row. -/
def errMsgs : List Msg := [(50, []), Props.Xact.row 1, Props.Xact.errorMsg [69, 82, 82, 79, 82], (90, [73])]

/-- Iteration over it gives the row of an earlier batch, and raises. -/
example : let e : Conn IX := { demoConn with recvs := [.data ((frames errMsgs).take 18), .err .tryAgain, .data ((frames errMsgs).drop 18)] }
    (init false 20 ⟨e, sent demoInst⟩).1 = .fine ∧ (iterate (perRow demoDecode) 20 8 (init false 20 ⟨e, sent demoInst⟩).2).2.1 = .raised ∧
    (iterate (perRow demoDecode) 20 8 (init false 20 ⟨e, sent demoInst⟩).2).1.flatten = [some [1]] := by decide +kernel

/-- The same answer, cut in its fourth message. -/
def lostEvents : List RecvEv := [.data ((frames demoMsgs).take 20), .err .tryAgain, .data (((frames demoMsgs).drop 20).take 17), .data []]

def lostConn : Conn IX := { demoConn with recvs := lostEvents }

/-- What `C101_lost` asks for, besides the above, and what it says. -/
example : Asked lostConn demoInst ∧ lostConn.recvs = lostEvents.take 3 ++ .data [] :: [] ∧ bytesOf (lostEvents.take 3) = frames (demoMsgs.take 3) ++ ((frames demoMsgs).drop 30).take 7 ∧
    ((frames demoMsgs).drop 30).take 7 ++ ((frames demoMsgs).drop 37).take 5 = frame (Props.Xact.row 2) ∧ strip (Props.Xact.row 2 :: demoMsgs.drop 4) ≠ [] ∧ (init false 20 ⟨lostConn, sent demoInst⟩).1 = .fine ∧
    (rowsOf (demoMsgs.take 3)).mapM demoDecode = some [some [1]] ∧ (iterate (perRow demoDecode) 20 8 (init false 20 ⟨lostConn, sent demoInst⟩).2).1.flatten = [some [1]] ∧
    (iterate (perRow demoDecode) 20 8 (init false 20 ⟨lostConn, sent demoInst⟩).2).2.1 = .raised :=
  ⟨⟨⟨0, 0, rfl⟩, rfl, rfl, by decide, by decide, by decide⟩, rfl, by decide +kernel, by decide +kernel, by decide +kernel, by decide +kernel, by decide, by decide +kernel, by decide +kernel⟩

/-- The stream of the lost connection, asked again: `C101_failed` applies. -/
example : let a := (iterate (perRow demoDecode) 20 8 (init false 20 ⟨lostConn, sent demoInst⟩).2).2.2
    a.live = true ∧ a.held.obj.state = .complete ∧ a.held.obj.fatal ≠ none := by decide +kernel

end PG.FetchWire
