import Verif.Proofs.CopyTo8
/-!
# C72: `COPY ... TO STDOUT` through a `StatementProducer`

The commands are Bind, Execute, Sync.  `recvs` are the pieces that the coming receive calls on the socket return.
-/
namespace PG.Props.CopyTo
open PG
open PG.PBuffer hiding Msg next
open PG.Element3 PG.Xact3 PG.Spec PG.Spec.Copy PG.Spec.CopyTo PG.CopyTo

/-- The socket returns the answer of the server in some pieces: none of them is empty, together they are the messages. -/
structure Arrives (recvs : List Bytes) (reply : List Msg) : Prop where
  pieces : ∀ d ∈ recvs, d ≠ []
  whole : recvs.flatten = frames reply
  fits : ∀ m ∈ reply, Fits m

/-- The row can be put into a message by the client (`struct` packs the length as a signed number). -/
def Small (row : Bytes) : Prop := row.length + 4 < 2147483648

/-- Bind, Execute, Sync. -/
def commands (name statement : Bytes) (af : List Bytes) (args : List (Option Bytes)) (rf : List Bytes) (portal : Bytes) (max : Int) : List Elem :=
  [.bind name statement af args rf, .execute portal max, .empty .synchronize]

/-- Everything that the server has sent has been read, and the transaction on the connection has ended. -/
def Clean (p : SP) : Prop := unread p.pq.stream = [] ∧ p.pq.recvs = [] ∧ p.pq.read.msgs = [] ∧ p.pq.readData = none ∧ ∀ i, p.xact = some i → i.state = .complete

theorem cmds_commands (name statement : Bytes) (af : List Bytes) (args : List (Option Bytes)) (rf : List Bytes) (portal : Bytes) (max : Int) :
    Cmds (commands name statement af args rf portal max) := ⟨⟨_, _, rfl, rfl, rfl⟩⟩

theorem wire_nil {q : Pq} (h : Wire q []) : unread q.stream = [] ∧ q.recvs = [] ∧ q.read.msgs = [] ∧ q.readData = none := by
  have hb := h.bytes
  rw [show frames ([] : List Msg) = [] from rfl] at hb
  obtain ⟨h1, h2⟩ := List.append_eq_nil_iff.1 hb
  refine ⟨h1, ?_, h.read, h.data⟩
  cases hr : q.recvs with
  | nil => rfl
  | cons d ds =>
    rw [hr, List.flatten_cons] at h2
    exact absurd (List.append_eq_nil_iff.1 h2).1 (h.pieces d (by rw [hr]; exact List.mem_cons_self ..))

theorem clean_of {p : SP} (h : AtRest p) : Clean p := by
  obtain ⟨a, b, c, d⟩ := wire_nil h.wire
  exact ⟨a, b, c, d, h.xact⟩

variable {name statement : Bytes} {af : List Bytes} {args : List (Option Bytes)} {rf : List Bytes} {portal : Bytes} {max : Int}
variable {recvs : List Bytes} {reply : List Msg} {rows : List Bytes} {e : Bool}

theorem start (hy : Says .bind reply rows e) (ha : Arrives recvs reply) :
    ∃ r p, enter (commands name statement af args rf portal max) recvs = .ok (r, p) ∧ (r = .fine ∨ (r = .raised ∧ e = true ∧ Clean p)) ∧ ∃ t, Ok (commands name statement af args rf portal max) p [] rows e t := by
  obtain ⟨r, p, i, g, e0, M, h1, h2, h3, h4, h5⟩ := enter_ok (cmds_commands name statement af args rf portal max) hy ha.pieces ha.whole ha.fits
  refine ⟨r, p, h1, ?_, _, .inl ⟨⟨i, g, e0, M, rows, [], h4, rfl, rfl, by rw [h2]; exact ⟨rfl, rfl, rfl⟩, Nat.le_refl _⟩, h3, by rw [h2]; exact .inl rfl⟩⟩
  rcases h5 with h | ⟨h, rfl, he⟩
  · exact .inl h
  · refine .inr ⟨h, he, clean_of ⟨fun j hj => ?_, ?_⟩⟩
    · rw [h4.xact] at hj; cases hj; exact h4.stands.over rfl
    · obtain ⟨rM, eM, hy', _, _⟩ := h4.says
      obtain ⟨rfl, _, _⟩ := says_over hy'
      exact h4.wire

/-- C72: whatever pieces the answer arrives in, iterating over the producer publishes the COPY data messages of all rows, in order and nothing else, and then
stops; the totals are those of what was published; everything has been read and the connection is free. -/
theorem C72_copied (hy : Says .bind reply rows false) (ha : Arrives recvs reply) (hr : ∀ row ∈ rows, Small row) :
    ∃ p, enter (commands name statement af args rf portal max) recvs = .ok (.fine, p) ∧
      ∃ n0, ∀ n ≥ n0, ∃ p', run n p = (copyFrames rows, .stop, p') ∧ Clean p' ∧ p'.prod.totalMessages = rows.length ∧ p'.prod.totalBytes = (copyFrames rows).length := by
  obtain ⟨r, p, h1, h2, t, h3⟩ := start (name := name) (statement := statement) (af := af) (args := args) (rf := rf) (portal := portal) (max := max) hy ha
  have hr0 : r = .fine := by rcases h2 with h | ⟨_, h, _⟩ <;> first | exact h | cases h
  subst hr0
  refine ⟨p, h1, t + 1, fun n hn => ?_⟩
  rcases run_ok (cmds_commands ..) hr n h3 with ⟨p', t', k1, k2, k3⟩ | ⟨p', k1, k2, k3⟩ | ⟨p', t', k1, k2, k3⟩
  · omega
  · rw [List.nil_append] at k3
    obtain ⟨w1, w2, w3, w4⟩ := wire_nil k3.wire
    refine ⟨p', by rw [k1, k3.all], ⟨w1, w2, w3, w4, fun i hi => by rw [k3.xact] at hi; cases hi⟩, k3.counts.messages, by rw [k3.counts.bytes, k3.all]⟩
  · cases k2

/-- C72: at every moment what has been published is a beginning of the messages of the rows, and the totals are the number of the rows of which
everything has been published and the number of the bytes; the producer never waits for more than the server sends; it stops only when all rows were
published and there was no error, and raises only if there was one. -/
theorem C72_prefix (hy : Says .bind reply rows e) (ha : Arrives recvs reply) (hr : ∀ row ∈ rows, Small row) :
    ∃ r p, enter (commands name statement af args rf portal max) recvs = .ok (r, p) ∧ (r = .fine ∨ (r = .raised ∧ e = true ∧ Clean p)) ∧
      (r = .fine → ∀ n, ∃ pub res p', run n p = (pub, res, p') ∧ pub <+: copyFrames rows ∧ res ≠ .blocked ∧ (res = .stop → e = false ∧ pub = copyFrames rows) ∧ (res = .raised → e = true) ∧
        p'.prod.totalBytes = pub.length ∧ ∃ done, done <+: rows ∧ p'.prod.totalMessages = done.length ∧ copyFrames done <+: pub ∧
          ∀ more, done ++ [more] <+: rows → ¬ copyFrames (done ++ [more]) <+: pub) := by
  obtain ⟨r, p, h1, h2, t, h3⟩ := start (name := name) (statement := statement) (af := af) (args := args) (rf := rf) (portal := portal) (max := max) hy ha
  refine ⟨r, p, h1, h2, fun _ n => ?_⟩
  rcases run_ok (cmds_commands ..) hr n h3 with ⟨p', t', k1, k2, k3⟩ | ⟨p', k1, k2, k3⟩ | ⟨p', t', k1, k2, k3⟩
  · rw [List.nil_append] at k2
    obtain ⟨a, done, b, c, d, f⟩ := ok_prefix k2
    exact ⟨_, _, p', k1, a, by simp, fun h => (by cases h), fun h => (by cases h), c.bytes, done, b, c.messages, d, f⟩
  · rw [List.nil_append] at k3
    refine ⟨_, _, p', k1, by rw [k3.all]; exact List.prefix_refl _, by simp, fun _ => ⟨k2, k3.all⟩, fun h => (by cases h), k3.counts.bytes, rows, List.prefix_refl _, k3.counts.messages, by rw [k3.all]; exact List.prefix_refl _, ?_⟩
    intro more hm
    have := hm.length_le
    rw [List.length_append, List.length_singleton] at this
    omega
  · rw [List.nil_append] at k3
    obtain ⟨a, done, b, c, d, f⟩ := ok_prefix (.inl k3)
    exact ⟨_, _, p', k1, a, by simp, fun h => (by cases h), fun _ => k2, c.bytes, done, b, c.messages, d, f⟩

/-- C72: an error of the server is raised, at the beginning or in the iteration; afterwards the end of the `with` block leaves a clean connection. -/
theorem C72_error (hy : Says .bind reply rows true) (ha : Arrives recvs reply) (hr : ∀ row ∈ rows, Small row) :
    ∃ r p, enter (commands name statement af args rf portal max) recvs = .ok (r, p) ∧ ((r = .raised ∧ Clean p) ∨
      (r = .fine ∧ ∃ n0, ∀ n ≥ n0, (run n p).2.1 = .raised ∧ (exit (run n p).2.2).1 ≠ .blocked ∧ Clean (exit (run n p).2.2).2)) := by
  obtain ⟨r, p, h1, h2, t, h3⟩ := start (name := name) (statement := statement) (af := af) (args := args) (rf := rf) (portal := portal) (max := max) hy ha
  refine ⟨r, p, h1, ?_⟩
  rcases h2 with h2 | ⟨h2, _, h4⟩
  · refine .inr ⟨h2, t + 1, fun n hn => ?_⟩
    rcases run_ok (cmds_commands ..) hr n h3 with ⟨p', t', k1, k2, k3⟩ | ⟨p', k1, k2, k3⟩ | ⟨p', t', k1, k2, ⟨i, g, e0, M, rest, done, hl, _⟩, _, _⟩
    · omega
    · cases k2
    · rw [k1]
      dsimp only
      obtain ⟨rM, eM, hy', _, _⟩ := hl.says
      obtain ⟨r', p'', x1, x2, x3⟩ := exit_live (cmds_commands ..) hl.xact hl.stands hy' hl.wire
      rw [x1]
      exact ⟨rfl, by rcases x3 with h | ⟨h, _⟩ <;> rw [h] <;> simp, clean_of x2⟩
  · exact .inl ⟨h2, h4⟩

/-- C72: when the iteration is given up after any number of turns, realignment completes for the receivers the message that they have a part of (one last
view), and then the end of the `with` block reads all that the server still sends, up to its ReadyForQuery, whatever it is: the connection is clean. -/
theorem C72_interrupted (hy : Says .bind reply rows e) (ha : Arrives recvs reply) (hr : ∀ row ∈ rows, Small row) (p : SP)
    (hp : enter (commands name statement af args rf portal max) recvs = .ok (.fine, p)) (n : Nat) (pub : Bytes) (v : Bytes) (p' : SP) (hrun : run n p = (pub, .view v, p')) :
    ∃ p1 fill, realigned p' = .ok p1 ∧ p1.mode = .views (if fill = [] then [] else [fill]) ∧
      (∃ done last, pub ++ fill = copyFrames (done ++ last) ∧ last.length ≤ 1 ∧ done <+: rows ∧ copyFrames done <+: pub) ∧
      (exit p1).1 ≠ .blocked ∧ ((exit p1).1 = .raised → e = true) ∧ Clean (exit p1).2 := by
  obtain ⟨r, p0, h1, h2, t, h3⟩ := start (name := name) (statement := statement) (af := af) (args := args) (rf := rf) (portal := portal) (max := max) hy ha
  rw [h1] at hp
  injection hp with hp
  injection hp with hr0 hp0
  subst hp0
  rcases run_ok (cmds_commands ..) hr n h3 with ⟨p2, t', k1, k2, k3⟩ | ⟨p2, k1, k2, k3⟩ | ⟨p2, t', k1, k2, k3⟩
  · rw [k1] at hrun
    injection hrun with e1 e2
    injection e2 with e2 e3
    subst e3
    rw [e1, List.nil_append] at k2
    obtain ⟨p1, fill, l1, l2, l3, r', p'', l4, l5, l6⟩ := leave_ok (cmds_commands ..) k2
    refine ⟨p1, fill, l1, l2, l3, ?_, ?_, ?_⟩
    · rw [l4]; rcases l6 with h | ⟨h, _⟩ <;> rw [h] <;> simp
    · rw [l4]; rcases l6 with h | ⟨_, h⟩
      · rw [h]; exact fun h => (by cases h)
      · exact fun _ => h
    · rw [l4]; exact clean_of l5
  · rw [k1] at hrun; injection hrun with _ e2; injection e2 with e2 _; cases e2
  · rw [k1] at hrun; injection hrun with _ e2; injection e2 with e2 _; cases e2

/-! ## Cases -/

/-- Two rows, with a notice in between. -/
def twoRows : List Msg := [(50, []), (72, [0, 0, 0]), (100, [49, 10]), (78, [0]), (100, [50, 10]), (99, []), (67, [67, 79, 80, 89, 0]), (90, [73])]

set_option maxRecDepth 100000 in
theorem twoRows_says : Says .bind twoRows [[49, 10], [50, 10]] false := by
  refine .bound (.begins ⟨_, rfl⟩ (.row (.async (by decide) ⟨.notice, _, rfl, rfl⟩ (.row (.copyDone (.completed (.ready (.inl rfl) .over)))))))

/-- A row, an error in the middle. -/
def oneError : List Msg := [(50, []), (72, [0, 0, 0]), (100, [49, 10]), (69, [83, 69, 82, 82, 79, 82, 0, 0]), (90, [69])]

set_option maxRecDepth 100000 in
theorem oneError_says : Says .bind oneError [[49, 10]] true := by
  refine .bound (.begins ⟨_, rfl⟩ (.row (.error (by decide) ?_ (.ready (.inr (.inl rfl)) .over))))
  exact ⟨rfl, _, _, rfl, rfl, by decide +kernel⟩

/-- A byte at a time. -/
def bytewise (b : Bytes) : List Bytes := b.map fun x => [x]

example : Arrives (bytewise (frames twoRows)) twoRows := by
  refine ⟨fun d hd => ?_, by decide +kernel, fun m hm => ?_⟩
  · obtain ⟨x, _, rfl⟩ := List.mem_map.1 hd; simp
  · simp only [twoRows, List.mem_cons, List.not_mem_nil, or_false] at hm
    rcases hm with rfl | rfl | rfl | rfl | rfl | rfl | rfl | rfl <;> (unfold Fits; decide)

def cmds0 : List Elem := commands [] [] [] [] [] [] 0

def outcome (recvs : List Bytes) (n : Nat) : Option (Fetch.Stepped × Bytes × Res) :=
  match enter cmds0 recvs with
  | .ok (r, p) => some (r, (run n p).1, (run n p).2.1)
  | .error _ => none

example : outcome [frames twoRows] 9 = some (.fine, copyFrames [[49, 10], [50, 10]], .stop) := by decide +kernel
example : outcome (bytewise (frames twoRows)) 99 = some (.fine, copyFrames [[49, 10], [50, 10]], .stop) := by decide +kernel
example : outcome (bytewise (frames oneError)) 99 = some (.fine, copyFrames [[49, 10]], .raised) := by decide +kernel
example : outcome [frames oneError] 99 = some (.raised, [], .raised) := by decide +kernel

/-! ## What is after the answer -/

/-- That the beginning of an asynchronous message after the answer does no harm. -/
def TrailingOk : Prop := ∀ (recvs : List Bytes) (reply : List Msg) (rows : List Bytes) (m : Msg) (a b : Bytes), Says .bind reply rows false → IsAsync m → frame m = a ++ b →
  (∀ d ∈ recvs, d ≠ []) → recvs.flatten = frames reply ++ a → (∀ x ∈ reply, Fits x) → (∀ row ∈ rows, Small row) → ∀ n p, enter cmds0 recvs = .ok (.fine, p) → (run n p).2.1 ≠ .raised

/-- C72: it does: when the last rows, ReadyForQuery and a part of a later message arrive together, the rows are not published; an AttributeError is raised by the
check that there is nothing else (`_state` is None then). -/
theorem C72_trailing_incomplete : ¬ TrailingOk := by
  intro h
  refine h [frames twoRows ++ [78]] twoRows [[49, 10], [50, 10]] (78, [0]) [78] [0, 0, 0, 5, 0] twoRows_says ⟨.notice, _, rfl, rfl⟩ (by decide) (by simp) (by simp) ?_ ?_ 1
    (match enter cmds0 [frames twoRows ++ [78]] with | .ok (_, p) => p | .error _ => ⟨{}, none, none, ⟨none, 0, 0, none⟩, .confiscate⟩) (by decide +kernel) (by decide +kernel)
  · intro m hm
    simp only [twoRows, List.mem_cons, List.not_mem_nil, or_false] at hm
    rcases hm with rfl | rfl | rfl | rfl | rfl | rfl | rfl | rfl <;> (unfold Fits; decide)
  · intro row hr
    simp only [List.mem_cons, List.not_mem_nil, or_false] at hr
    rcases hr with rfl | rfl <;> (unfold Small; decide)

end PG.Props.CopyTo
