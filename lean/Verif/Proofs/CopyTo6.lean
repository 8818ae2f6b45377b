import Verif.Proofs.CopyTo5
/-!
# `next` on a `StatementProducer`
-/
namespace PG.CopyTo
open PG
open PG.PBuffer hiding Msg next
open PG.CopyMan PG.Props.CopyMan
open PG.Element3 PG.Xact3 PG.Spec PG.Spec.Copy PG.Spec.CopyTo

/-- The counts of what was published. -/
structure Counts (pr : Prod) (pub : Bytes) (done : List Bytes) : Prop where
  none : pr.recovered = none
  messages : pr.totalMessages = done.length
  bytes : pr.totalBytes = pub.length

/-- The connection has the COPY: `pub` was published, the rows are `rows`, `e`: there is an error. -/
structure InConf (cs : List Elem) (p : SP) (pub : Bytes) (rows : List Bytes) (e : Bool) (t : Nat) : Prop where
  ex : ∃ i g e0 M rest done, Live cs p i g e0 M rest e ∧ pub = copyFrames done ∧ rows = done ++ rest ∧ Counts p.prod pub done ∧ (frames M).length + 2 * (M.length + i.completed.length) ≤ t
  mode : p.mode = .confiscate
  state : p.prod.state = none ∨ p.prod.state = some WS.init

/-- The producer reads from the socket itself. -/
structure InRecv (cs : List Elem) (p : SP) (pub : Bytes) (rows : List Bytes) (e : Bool) (t : Nat) : Prop where
  ex : ∃ i g M rest done q s, p.xact = some i ∧ Stands cs i g false p.pq.nextId ∧ g ≠ .over ∧ i.completed = [] ∧ Says g M rest e ∧ (∀ m ∈ M, Fits m) ∧
    q ++ p.pq.recvs.flatten = frames M ∧ p.prod.state = some s ∧ At q s ∧ ¬ Foreign q ∧ pub = copyFrames done ++ q ∧ rows = done ++ rest ∧ Counts p.prod pub done ∧
    p.pq.recvs.flatten.length + 2 * M.length + 1 ≤ t
  mode : p.mode = .recvView
  inv : Inv p.pq.stream
  unread : unread p.pq.stream = []
  read : p.pq.read.msgs = []
  data : p.pq.readData = none
  pieces : Pieces p.pq.recvs

/-- A producer in use. -/
def Ok (cs : List Elem) (p : SP) (pub : Bytes) (rows : List Bytes) (e : Bool) (t : Nat) : Prop := InConf cs p pub rows e t ∨ InRecv cs p pub rows e t

theorem rows_split {l R : List Bytes} {M M2 : List Msg} (h : rowMsgs l ++ M = rowMsgs R ++ M2) :
    (∃ R', R = l ++ R' ∧ M = rowMsgs R' ++ M2) ∨ (∃ x l', l = R ++ x :: l' ∧ M2 = rowMsgs (x :: l') ++ M) := by
  induction l generalizing R with
  | nil => exact .inl ⟨R, rfl, h⟩
  | cons x l ih =>
    cases R with
    | nil => exact .inr ⟨x, l, rfl, h.symm⟩
    | cons y R =>
      injection h with h1 h2
      injection h1 with _ h1
      subst h1
      rcases ih h2 with ⟨R', rfl, h⟩ | ⟨z, l', rfl, h⟩
      · exact .inl ⟨R', rfl, h⟩
      · exact .inr ⟨z, l', rfl, h⟩

theorem copyFrames_no_rest {x : Bytes} {l : List Bytes} {u q : Bytes} (hx : RowFits x) (hq : Rest q) (h : copyFrames (x :: l) ++ u = q) : False := by
  rw [copyFrames_cons', List.append_assoc] at h
  rw [← h] at hq
  exact rest_no_fr hx hq

theorem suffix_frames {M M' : List Msg} (h : M' <:+ M) : (frames M').length ≤ (frames M).length := by
  obtain ⟨A, rfl⟩ := h
  rw [frames_append, List.length_append]
  omega

theorem suffix_rows (R : List Bytes) (M : List Msg) : M <:+ rowMsgs R ++ M := List.suffix_append ..

theorem wire_back {q : Pq} {M : List Msg} {x : Bytes} (hi : Inv q.stream) (hu : unread q.stream = []) (hr : q.read.msgs = []) (hd : q.readData = none) (hp : Pieces q.recvs)
    (hb : x ++ q.recvs.flatten = frames M) (hf : ∀ m ∈ M, Fits m) : Wire { q with stream := write q.stream x } M := by
  obtain ⟨wi, wu⟩ := write_spec q.stream hi x
  exact ⟨wi, hr, hd, hp, by dsimp only; rw [wu, hu, List.nil_append]; exact hb, hf⟩

/-- `recv_view`. -/
theorem recvView_ok {cs : List Elem} {p : SP} {pub : Bytes} {rows : List Bytes} {e : Bool} {t : Nat} (h : InRecv cs p pub rows e t) :
    ∃ v p' t', recvView p = (.view v, p') ∧ Ok cs p' (pub ++ v) rows e t' ∧ t' < t := by
  obtain ⟨⟨i, g, M, rest, done, q, s, hx, hs, hg, hc, hy, hf, hb, hst, ha, hn, hpub, hrows, hcnt, ht⟩, hm, hi, hu, hr, hd, hp⟩ := h
  have hq0 : p.pq.recvs ≠ [] := by
    intro h0
    rw [h0] at hb
    have hb : q = frames M := by simpa using hb
    have hM : M ≠ [] := by rintro rfl; exact hg (says_nil hy)
    obtain ⟨R, M2, h1, h2⟩ := frames_position M hf
    have hrq := rest_of_at ha
    rw [hb] at hrq
    obtain ⟨rfl, _⟩ := position_rest hrq h2
    cases M with
    | nil => exact hM rfl
    | cons m M =>
      rw [frames_cons] at hb
      obtain ⟨t, ht⟩ := frame_head m (frames M)
      rcases hrq with h | ⟨f, h⟩ | ⟨k, h⟩ | h
      · rw [frames_cons, ht] at h; cases h
      · have h1 : q = 100 :: f := hb.trans (by rw [← frames_cons]; exact h.1)
        have h2 := length_lt_five (u := q) (by rw [h1, List.length_cons]; have := h.2; omega)
        rw [hb, view_frame m (hf m (List.mem_cons_self ..))] at h2
        cases h2
      · obtain ⟨c, row, h3, h4, h5⟩ := inRow_fr h
        have h6 := view_frame m (hf m (List.mem_cons_self ..)) (frames M ++ c)
        rw [← List.append_assoc, ← frames_cons, h5] at h6
        have h7 := view_frame (100, row) h4 []
        rw [List.append_nil] at h7
        have h8 : fr row = frame (100, row) := rfl
        rw [h8, h7] at h6
        injection h6 with h6 h9
        have := (List.append_eq_nil_iff.1 h9.symm).2
        rw [this] at h3
        have := h.1
        simp at h3
        omega
      · exact hn (by rw [hb, ← frames_cons]; exact h)
  cases hrv : p.pq.recvs with
  | nil => exact absurd hrv hq0
  | cons d ds =>
    have hdne : d ≠ [] := hp d (by rw [hrv]; exact List.mem_cons_self ..)
    rw [hrv, List.flatten_cons, ← List.append_assoc] at hb
    obtain ⟨R, M2, q1, v, rfl, hb2, hcase⟩ := processCopyData_frames hst ha hn hf hb
    obtain ⟨rest2, hy2, rfl⟩ := says_rows R hy
    have hpr : recvView p = match processCopyData p.prod d with
        | .error _ => (.raised, { p with pq := { p.pq with recvs := ds } })
        | .ok (v, prod) => (.view v, recovered { p with pq := { p.pq with recvs := ds }, prod := prod }) := by
      unfold recvView
      rw [hrv]
      cases d with
      | nil => exact absurd rfl hdne
      | cons x xs => rfl
    have hps : Pieces ds := fun x hx => hp x (by rw [hrv]; exact List.mem_cons_of_mem _ hx)
    have hlen : 0 < d.length := List.length_pos_iff.2 hdne
    rw [hrv, List.flatten_cons, List.length_append] at ht
    have hM2 : ((rowMsgs R ++ M2).length) = R.length + M2.length := by rw [List.length_append]; unfold rowMsgs; rw [List.length_map]
    rcases hcase with ⟨hF, hc1, hq1, hres⟩ | ⟨hF, rfl, hq1, s', hs', hres⟩
    · rw [hpr, hres]
      dsimp only
      refine ⟨v, _, (frames M2).length + 2 * (M2.length + i.completed.length), rfl, .inl ⟨⟨i, g, false, M2, rest2, done ++ R, ?_, ?_, ?_, ?_, Nat.le_refl _⟩, rfl, .inl rfl⟩, ?_⟩
      · refine ⟨hx, hs, ?_, ⟨rest2, e, hy2, ?_, rfl⟩, ?_⟩
        · exact wire_back (q := { p.pq with recvs := ds }) hi hu hr hd hps hb2 (frames_fits_rows hf)
        · unfold held; rw [hc]; rfl
        · rw [hc]; intro x hx; cases hx
      · rw [hpub, List.append_assoc, hq1, copyFrames_append]
      · rw [hrows, List.append_assoc]
      · refine ⟨rfl, ?_, ?_⟩
        · show p.prod.totalMessages + R.length = _; rw [hcnt.messages, List.length_append]
        · show p.prod.totalBytes + v.length = _; rw [hcnt.bytes, List.length_append]
      · rw [hc, ← hb2, List.length_append, List.length_nil]
        rw [hc1, List.length_append] at ht
        omega
    · rw [hpr, hres]
      dsimp only
      refine ⟨v, { p with pq := { p.pq with recvs := ds }, prod := { p.prod with state := some s', totalMessages := p.prod.totalMessages + R.length, totalBytes := p.prod.totalBytes + v.length } },
        ds.flatten.length + 2 * M2.length + 1, ?_, .inr ⟨⟨i, g, M2, rest2, done ++ R, q1, s', hx, hs, hg, hc, hy2, frames_fits_rows hf, hb2, rfl, hs', hF, ?_, ?_, ?_, Nat.le_refl _⟩, hm, hi, hu, hr, hd, hps⟩, ?_⟩
      · unfold recovered
        dsimp only
        rw [hcnt.none]
      · rw [hpub, List.append_assoc, hq1, copyFrames_append, List.append_assoc]
      · rw [hrows, List.append_assoc]
      · refine ⟨hcnt.none, ?_, ?_⟩
        · show p.prod.totalMessages + R.length = _; rw [hcnt.messages, List.length_append]
        · show p.prod.totalBytes + v.length = _; rw [hcnt.bytes, List.length_append]
      · omega

theorem recovered_none {p : SP} (h : p.prod.recovered = none) : recovered p = p := by unfold recovered; rw [h]

theorem confiscated_go {v : Bytes} {p : SP} (h : p.xact.any (fun i => decide (i.state = .complete)) = false) : confiscated v p = (.view v, p) := by
  unfold confiscated; rw [if_neg (by rw [h]; decide)]

/-- `confiscate`. -/
theorem confiscate_ok {cs : List Elem} (hcs : Cmds cs) {p : SP} {pub : Bytes} {rows : List Bytes} {e : Bool} {t : Nat} (h : InConf cs p pub rows e t) (hrf : ∀ row ∈ rows, row.length + 4 < 2147483648) :
    (∃ v p' t', confiscate p = (.view v, p') ∧ Ok cs p' (pub ++ v) rows e t' ∧ t' < t) ∨
    (∃ p', confiscate p = (.stop, p') ∧ e = false ∧ pub = copyFrames rows ∧ p'.xact = none ∧ Wire p'.pq [] ∧ Counts p'.prod pub rows ∧ (p'.prod.state = none ∨ p'.prod.state = some WS.init)) ∨
    (∃ p' t', confiscate p = (.raised, p') ∧ e = true ∧ InConf cs p' pub rows e t') := by
  obtain ⟨⟨i, g, e0, M, rest, done, hl, hpub, hrows, hcnt, ht⟩, hm, hst⟩ := h
  have hfuel : M.length + i.completed.length < (p.xact.map (·.completed.length)).getD 0 + fuelOf p.pq := by
    have := hl.wire.fuel
    rw [hl.xact]
    show _ < i.completed.length + _
    omega
  rcases taken_ok hcs _ hl hfuel with ⟨q', c, h1, h2, h3, h4⟩ | ⟨i', q', c, g', M', h1, h2, h3⟩ | ⟨l, i', q', c, g', M', rest', h1, h2, h3, h4, h5, h6, h7⟩
  · right; left
    refine ⟨{ p with xact := none, pq := q', complete := c }, by unfold confiscate; rw [h1], h3, ?_, rfl, h4, ?_, hst⟩
    · rw [hpub, hrows, h2, List.append_nil]
    · rw [hrows, h2, List.append_nil]; exact hcnt
  · right; right
    exact ⟨{ p with xact := some i', pq := q', complete := c }, _, by unfold confiscate; rw [h1], h2, ⟨i', g', true, M', rest, done, h3, hpub, hrows, hcnt, Nat.le_refl _⟩, hm, hst⟩
  · left
    subst h2
    have hlf : ∀ row ∈ l, row.length + 4 < 2147483648 := fun r hr => hrf r (by rw [hrows]; exact List.mem_append_right _ (List.mem_append_left _ hr))
    obtain ⟨b, hb⟩ := PG.Props.CopyManager.catMessages_fits l hlf
    obtain ⟨rfl, hrowfits⟩ := catMessages_rows l b hb
    obtain ⟨_, hs, hw, ⟨rM, eM, hy, hrest, he⟩, ho⟩ := h4
    have hrest : rest' = rM := by rw [hrest]; unfold held; rw [h5]; rfl
    subst hrest
    have he : e = eM := by rw [he]; rfl
    subst he
    obtain ⟨tri, tru⟩ := truncate_spec (getvalue q'.stream).2
    obtain ⟨gv, _, _⟩ := getvalue_spec q'.stream hw.inv
    have hMf : ∀ m ∈ rowMsgs l ++ M', Fits m := by
      intro m hm
      rcases List.mem_append.1 hm with hm | hm
      · obtain ⟨r, hr, rfl⟩ := List.mem_map.1 hm; exact hrowfits r hr
      · exact hw.fits m hm
    have hbytes : [] ++ (copyFrames l ++ unread q'.stream) ++ q'.recvs.flatten = frames (rowMsgs l ++ M') := by
      rw [List.nil_append, frames_rowMsgs, List.append_assoc]
      congr 1
      exact hw.bytes
    obtain ⟨R, M2, q1, v, hsp, hb2, hcase⟩ := processCopyData_frames (pr := { p.prod with state := some WS.init }) rfl (.inl ⟨rfl, rfl⟩) not_foreign_nil hMf hbytes
    have hcR : copyFrames l ++ unread q'.stream = copyFrames R ++ q1 ∧ Rest q1 := by
      rcases hcase with ⟨hF, hc1, hq1, _⟩ | ⟨_, hv, hq1, s', hs', _⟩
      · rw [List.nil_append] at hq1; exact ⟨by rw [hc1, hq1], .inr (.inr (.inr hF))⟩
      · rw [List.nil_append, hv] at hq1; exact ⟨hq1, rest_of_at hs'⟩
    obtain ⟨R', rfl, rfl⟩ : ∃ R', R = l ++ R' ∧ M' = rowMsgs R' ++ M2 := by
      rcases rows_split hsp with h | ⟨x, l', rfl, _⟩
      · exact h
      · exfalso
        have h8 := hcR.1
        rw [copyFrames_append, List.append_assoc] at h8
        exact copyFrames_no_rest (hrowfits x (by simp)) hcR.2 (List.append_cancel_left h8)
    obtain ⟨rest2, hy2, rfl⟩ := says_rows R' hy
    have hM2suf : M2 <:+ M := (suffix_rows R' M2).trans h7
    have hM2len : M2.length ≤ (rowMsgs R' ++ M2).length := (suffix_rows R' M2).length_le
    have hbt := suffix_frames hM2suf
    have hx : confiscate p = match trackState p.prod (copyFrames l ++ unread q'.stream) with
        | .error _ => (.raised, { p with xact := some i', pq := { q' with readData := none, stream := truncate (getvalue q'.stream).2 }, complete := c, mode := .recvView })
        | .ok (v, prod) => confiscated v (recovered { p with xact := some i', pq := { q' with readData := none, stream := truncate (getvalue q'.stream).2 }, complete := c, prod := prod, mode := .recvView }) := by
      unfold confiscate
      rw [h1]
      dsimp only
      rw [hb]
      dsimp only
      rw [hw.data, gv, Option.getD_none, List.append_nil]
      rfl
    rw [hx]
    unfold trackState
    rcases hcase with ⟨hF, hc1, hq1, hres⟩ | ⟨hF, rfl, hq1, s', hs', hres⟩
    · -- something else follows the rows: the transaction is not complete
      have hg : g' ≠ .over := by
        rintro rfl
        obtain ⟨h8, _, _⟩ := says_over hy2
        subst h8
        rw [show frames ([] : List Msg) = [] from rfl] at hb2
        rw [(List.append_eq_nil_iff.1 hb2).1] at hF
        exact not_foreign_nil hF
      rw [hres]
      dsimp only
      rw [confiscated_go]
      · refine ⟨v, _, (frames M2).length + 2 * (M2.length + i'.completed.length), rfl, .inl ⟨⟨i', g', false, M2, rest2, done ++ (l ++ R'), ?_, ?_, ?_, ?_, Nat.le_refl _⟩, rfl, .inl rfl⟩, ?_⟩
        · refine ⟨rfl, hs, ?_, ⟨rest2, e, hy2, ?_, rfl⟩, ?_⟩
          · exact wire_back (q := { q' with readData := none, stream := truncate (getvalue q'.stream).2 }) tri tru hw.read rfl hw.pieces hb2 (frames_fits_rows hw.fits)
          · unfold held; rw [h5]; rfl
          · rw [h5]; intro x hx; cases hx
        · rw [hpub, copyFrames_append, ← hq1, List.nil_append]
        · rw [hrows, List.append_assoc, List.append_assoc]
        · refine ⟨rfl, ?_, ?_⟩
          · show p.prod.totalMessages + (l ++ R').length = _; rw [hcnt.messages, List.length_append (as := done)]
          · show p.prod.totalBytes + v.length = _; rw [hcnt.bytes, List.length_append (as := pub)]
        · rw [h5, List.length_nil]
          omega
      · show decide (i'.state = .complete) = false
        exact decide_eq_false (fun h => hg ((stands_complete hs).1 h))
    · rw [hres]
      dsimp only
      rw [recovered_none (by exact hcnt.none)]
      have hcnt' : Counts { p.prod with state := some s', totalMessages := p.prod.totalMessages + (l ++ R').length, totalBytes := p.prod.totalBytes + (copyFrames l ++ unread q'.stream).length } (pub ++ (copyFrames l ++ unread q'.stream)) (done ++ (l ++ R')) := by
        refine ⟨hcnt.none, ?_, ?_⟩
        · show p.prod.totalMessages + (l ++ R').length = _; rw [hcnt.messages, List.length_append (as := done)]
        · show p.prod.totalBytes + (copyFrames l ++ unread q'.stream).length = _; rw [hcnt.bytes, List.length_append (as := pub)]
      rw [List.nil_append] at hq1
      by_cases hg : g' = .over
      · subst hg
        obtain ⟨rfl, rfl, rfl⟩ := says_over hy2
        rw [show frames ([] : List Msg) = [] from rfl] at hb2
        obtain ⟨rfl, hfl⟩ := List.append_eq_nil_iff.1 hb2
        have hs0 : s' = WS.init := by
          rcases hs' with ⟨_, h⟩ | ⟨f, hf, _⟩ | ⟨k, hk, _⟩ | ⟨h, _⟩
          · exact h
          · cases hf.1
          · obtain ⟨_, _, h, _⟩ := hk; cases h
          · exact absurd h not_foreign_nil
        subst hs0
        have hxc : (some i').any (fun i => decide (i.state = .complete)) = true := decide_eq_true (hs.over rfl)
        refine ⟨copyFrames l ++ unread q'.stream, { p with xact := some i', pq := { q' with readData := none, stream := truncate (getvalue q'.stream).2 }, complete := c, prod := _, mode := .confiscate }, (frames []).length + 2 * (0 + i'.completed.length), ?_,
          .inl ⟨⟨i', .over, false, [], [], done ++ (l ++ R'), ?_, ?_, ?_, hcnt', Nat.le_refl _⟩, rfl, .inr rfl⟩, ?_⟩
        · unfold confiscated
          dsimp only
          rw [if_pos hxc]
          rfl
        · refine ⟨rfl, hs, ⟨tri, hw.read, rfl, hw.pieces, ?_, fun m hm => (by cases hm)⟩, ⟨[], false, hy2, ?_, rfl⟩, ?_⟩
          · dsimp only; rw [tru]; exact hfl
          · unfold held; rw [h5]; rfl
          · rw [h5]; intro x hx; cases hx
        · rw [hpub, copyFrames_append, hq1, List.append_nil]
        · rw [hrows]; simp
        · rw [h5, List.length_nil, show frames ([] : List Msg) = [] from rfl, List.length_nil]
          omega
      · rw [confiscated_go]
        · refine ⟨_, _, q'.recvs.flatten.length + 2 * M2.length + 1, rfl, .inr ⟨⟨i', g', M2, rest2, done ++ (l ++ R'), q1, s', rfl, hs, hg, h5, hy2, frames_fits_rows hw.fits, hb2, rfl, hs', hF, ?_, ?_, hcnt', Nat.le_refl _⟩, rfl, tri, tru, hw.read, rfl, hw.pieces⟩, ?_⟩
          · rw [hpub, hq1, copyFrames_append done, List.append_assoc]
          · rw [hrows]; simp
          · rw [← hb2, List.length_append] at hbt
            omega
        · show decide (i'.state = .complete) = false
          exact decide_eq_false (fun h => hg ((stands_complete hs).1 h))

end PG.CopyTo
