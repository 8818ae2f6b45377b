import Verif.Proofs.CopyTo6
/-!
# A whole run of a `StatementProducer`, its beginning and its end
-/
namespace PG.CopyTo
open PG
open PG.PBuffer hiding Msg next
open PG.CopyMan PG.Props.CopyMan
open PG.Element3 PG.Xact3 PG.Spec PG.Spec.Copy PG.Spec.CopyTo

/-- After the last `next`. -/
structure Ended (p : SP) (pub : Bytes) (rows : List Bytes) : Prop where
  all : pub = copyFrames rows
  xact : p.xact = none
  wire : Wire p.pq []
  counts : Counts p.prod pub rows
  state : p.prod.state = none ∨ p.prod.state = some WS.init

theorem next_ok {cs : List Elem} (hcs : Cmds cs) {p : SP} {pub : Bytes} {rows : List Bytes} {e : Bool} {t : Nat} (h : Ok cs p pub rows e t) (hrf : ∀ row ∈ rows, row.length + 4 < 2147483648) :
    (∃ v p' t', next p = (.view v, p') ∧ Ok cs p' (pub ++ v) rows e t' ∧ t' < t) ∨
    (∃ p', next p = (.stop, p') ∧ e = false ∧ Ended p' pub rows) ∨
    (∃ p' t', next p = (.raised, p') ∧ e = true ∧ InConf cs p' pub rows e t') := by
  rcases h with h | h
  · unfold next
    rw [h.mode]
    dsimp only
    rcases confiscate_ok hcs h hrf with h | ⟨p', h1, h2, h3, h4, h5, h6, h7⟩ | h
    · exact .inl h
    · exact .inr (.inl ⟨p', h1, h2, h3, h4, h5, h6, h7⟩)
    · exact .inr (.inr h)
  · unfold next
    rw [h.mode]
    exact .inl (recvView_ok h)

theorem run_ok {cs : List Elem} (hcs : Cmds cs) {rows : List Bytes} {e : Bool} (hrf : ∀ row ∈ rows, row.length + 4 < 2147483648) : ∀ (n : Nat) {p : SP} {pub : Bytes} {t : Nat}, Ok cs p pub rows e t →
    (∃ p' t', run n p = ((run n p).1, .view [], p') ∧ Ok cs p' (pub ++ (run n p).1) rows e t' ∧ t' + n ≤ t) ∨
    (∃ p', run n p = ((run n p).1, .stop, p') ∧ e = false ∧ Ended p' (pub ++ (run n p).1) rows) ∨
    (∃ p' t', run n p = ((run n p).1, .raised, p') ∧ e = true ∧ InConf cs p' (pub ++ (run n p).1) rows e t') := by
  intro n
  induction n with
  | zero => intro p pub t h; exact .inl ⟨p, t, rfl, by rw [run, List.append_nil]; exact h, Nat.le_refl _⟩
  | succ n ih =>
    intro p pub t h
    rcases next_ok hcs h hrf with ⟨v, p', t', h1, h2, h3⟩ | ⟨p', h1, h2, h3⟩ | ⟨p', t', h1, h2, h3⟩
    · have hr : run (n + 1) p = (v ++ (run n p').1, (run n p').2) := by rw [run, h1]
      rw [hr]
      dsimp only
      rw [← List.append_assoc]
      rcases ih h2 with ⟨p2, t2, k1, k2, k3⟩ | ⟨p2, k1, k2⟩ | ⟨p2, t2, k1, k2⟩
      · exact .inl ⟨p2, t2, by rw [k1], k2, by omega⟩
      · exact .inr (.inl ⟨p2, by rw [k1], k2⟩)
      · exact .inr (.inr ⟨p2, t2, by rw [k1], k2⟩)
    · have hr : run (n + 1) p = ([], .stop, p') := by rw [run, h1]
      rw [hr]
      dsimp only
      rw [List.append_nil]
      exact .inr (.inl ⟨p', rfl, h2, h3⟩)
    · have hr : run (n + 1) p = ([], .raised, p') := by rw [run, h1]
      rw [hr]
      dsimp only
      rw [List.append_nil]
      exact .inr (.inr ⟨p', t', rfl, h2, h3⟩)

/-! ## What has been published is a beginning of the rows -/

theorem first_row {q b : Bytes} {M : List Msg} (hq : q ≠ []) (hn : ¬ Foreign q) (h : q ++ b = frames M) : ∃ r M', M = (100, r) :: M' := by
  cases M with
  | nil => exact absurd (List.append_eq_nil_iff.1 h).1 hq
  | cons m M =>
    obtain ⟨t, ht⟩ := frame_head m (frames M)
    rw [frames_cons, ht] at h
    cases q with
    | nil => exact absurd rfl hq
    | cons x q =>
      injection h with h1 _
      obtain ⟨a, r⟩ := m
      dsimp only at h1
      by_cases hx : x = 100
      · exact ⟨r, M, by rw [← h1, hx]⟩
      · exact absurd ⟨x, q, rfl, hx⟩ hn

theorem part_row {q b r : Bytes} {M : List Msg} (hq : Rest q) (hr : RowFits r) (h : q ++ b = frames ((100, r) :: M)) : q <+: fr r := by
  have h1 : q <+: frames ((100, r) :: M) := ⟨b, h⟩
  have h2 : fr r <+: frames ((100, r) :: M) := ⟨frames M, by rw [frames_cons]; rfl⟩
  rcases List.prefix_or_prefix_of_prefix h1 h2 with h | ⟨z, hz⟩
  · exact h
  · rw [← hz] at hq
    exact (rest_no_fr hr hq).elim

theorem ok_prefix {cs : List Elem} {p : SP} {pub : Bytes} {rows : List Bytes} {e : Bool} {t : Nat} (h : Ok cs p pub rows e t) :
    pub <+: copyFrames rows ∧ ∃ done, done <+: rows ∧ Counts p.prod pub done ∧ copyFrames done <+: pub ∧ (∀ more, done ++ [more] <+: rows → ¬ copyFrames (done ++ [more]) <+: pub) := by
  rcases h with ⟨⟨i, g, e0, M, rest, done, hl, rfl, rfl, hc, _⟩, _, _⟩ | ⟨⟨i, g, M, rest, done, q, s, _, _, _, _, hy, hf, hb, _, ha, hn, rfl, rfl, hc, _⟩, _⟩
  · refine ⟨⟨copyFrames rest, (copyFrames_append ..).symm⟩, done, List.prefix_append .., hc, List.prefix_refl _, fun more _ hp => ?_⟩
    have := hp.length_le
    rw [copyFrames_append, List.length_append, copyFrames_cons', List.length_append, length_fr] at this
    omega
  · by_cases hq : q = []
    · subst hq
      rw [List.append_nil] at hc ⊢
      refine ⟨⟨copyFrames rest, (copyFrames_append ..).symm⟩, done, List.prefix_append .., hc, List.prefix_refl _, fun more _ hp => ?_⟩
      have := hp.length_le
      rw [copyFrames_append, List.length_append, copyFrames_cons', List.length_append, length_fr] at this
      omega
    · obtain ⟨r, M', rfl⟩ := first_row hq hn hb
      obtain ⟨rfl, rest2, hy2, rfl⟩ := says_row hy
      have hr := (fits_iff _).1 (hf _ (List.mem_cons_self ..))
      obtain ⟨z, hz⟩ := part_row (rest_of_at ha) hr hb
      refine ⟨⟨z ++ copyFrames rest2, ?_⟩, done, List.prefix_append .., hc, List.prefix_append .., fun more hm hp => ?_⟩
      · rw [copyFrames_append, copyFrames_cons', ← hz]; simp
      · have hm' : more = r := by
          obtain ⟨w, hw⟩ := hm
          rw [List.append_assoc] at hw
          have := List.append_cancel_left hw
          injection this
        subst hm'
        obtain ⟨w, hw⟩ := hp
        rw [copyFrames_append, List.append_assoc] at hw
        have := List.append_cancel_left hw
        rw [copyFrames_cons', copyFrames_nil, List.append_nil] at this
        have hrest := rest_of_at ha
        rw [← this] at hrest
        exact rest_no_fr hr hrest

/-! ## The end of the transaction -/

theorem stepsX_end {cs : List Elem} (hc : Cmds cs) : ∀ (fuel : Nat) {i : Inst} {q : Pq} {g : Stage} {e eM : Bool} {M : List Msg} {rows : List Bytes}, Stands cs i g e q.nextId → g ≠ .over →
    Says g M rows eM → Wire q M → M.length + 1 < fuel + 1 → 
    ∃ i' q', stepsX (fun _ => false) fuel i q = (i', q', if (e || eM) = true then .raised else .fine) ∧ Stands cs i' .over (e || eM) q'.nextId ∧ Wire q' [] := by
  intro fuel
  induction fuel with
  | zero => intro i q g e eM M rows _ _ _ _ h; omega
  | succ fuel ih =>
    intro i q g e eM M rows hs hg hy hw hf
    obtain ⟨i', q', g1, ms, M2, ps, e1, rows2, e2, k, h1, h2, h3, h4, h5, rfl, h7, rfl, rfl, h10⟩ := stepX_ok hc hs hg hy hw
    have hl := List.length_pos_iff.2 h7
    rw [List.length_append] at hf
    rw [stepsX, if_neg (by rintro (h | h); exact hg ((stands_complete hs).1 h); cases h), h1]
    by_cases ho : g1 = .over
    · subst ho
      obtain ⟨rfl, rfl, rfl⟩ := says_over h4
      rw [Bool.or_false] at *
      by_cases he : (e || e1) = true
      · rw [if_pos ⟨rfl, he⟩, if_pos he]
        exact ⟨i', q', rfl, h2, h5⟩
      · rw [if_neg (fun h => he h.2), if_neg he]
        dsimp only
        obtain ⟨f, rfl⟩ : ∃ f, fuel = f + 1 := ⟨fuel - 1, by omega⟩
        rw [stepsX, if_pos (.inl (h2.over rfl))]
        exact ⟨i', q', rfl, h2, h5⟩
    · rw [if_neg (fun h => ho h.1)]
      dsimp only
      rw [← Bool.or_assoc]
      exact ih h2 ho h4 h5 (by omega)

theorem at_unique {q : Bytes} {s s' : WS} (hn : ¬ Foreign q) (h : At q s) (h' : At q s') : s = s' := by
  rcases h with ⟨rfl, rfl⟩ | ⟨f, hf, rfl⟩ | ⟨k, hk, rfl⟩ | ⟨hF, _⟩
  · rcases h' with ⟨_, rfl⟩ | ⟨f, hf, _⟩ | ⟨k, hk, _⟩ | ⟨hF, _⟩
    · rfl
    · cases hf.1
    · obtain ⟨_, _, h, _⟩ := hk; cases h
    · exact absurd hF hn
  · rcases h' with ⟨rfl, _⟩ | ⟨f', hf', rfl⟩ | ⟨k, hk, _⟩ | ⟨hF, _⟩
    · cases hf.1
    · have := hf.1.symm.trans hf'.1
      injection this with _ h
      rw [h]
    · exact (header_not_row hf hk).elim
    · exact absurd hF hn
  · rcases h' with ⟨rfl, _⟩ | ⟨f', hf', _⟩ | ⟨k', hk', rfl⟩ | ⟨hF, _⟩
    · obtain ⟨_, _, h, _⟩ := hk; cases h
    · exact (header_not_row hf' hk).elim
    · rw [inRow_inj hk hk']
    · exact absurd hF hn
  · exact absurd hF hn

/-- What `realign` gives back to the connection goes on as the messages of the server did. -/
theorem realign_frames {q b : Bytes} {s : WS} {g : Stage} {M : List Msg} {rows : List Bytes} {e : Bool} (ha : At q s) (hn : ¬ Foreign q) (hy : Says g M rows e) (hf : ∀ m ∈ M, Fits m) (h : q ++ b = frames M) :
    ∃ back fill, realign (some s) = .ok (back, fill) ∧ (∃ last : List Bytes, q ++ fill = copyFrames last ∧ last.length ≤ 1 ∧ (last = [] ↔ q = [])) ∧
      ∃ M' rows', Says g M' rows' e ∧ (∀ m ∈ M', Fits m) ∧ back ++ b = frames M' := by
  have hp0 : Position [q].flatten [] q := ⟨by simp [copyFrames_nil], fun r hr => (by cases hr), rest_of_at ha⟩
  obtain ⟨s', n, back, fill, h1, h2, ⟨last, h3, h4, h5, _⟩, h6⟩ := C34_realign [q] [] q hp0 hn
  obtain ⟨s2, h7, h8⟩ := track_at [q] (q := []) (s := WS.init) (Or.inl ⟨rfl, rfl⟩) not_foreign_nil hp0 hn
  rw [h1] at h7
  injection h7 with h7
  injection h7 with h7 _
  subst h7
  have := at_unique hn ha h8
  subst this
  refine ⟨back, fill, h2, ⟨last, by simpa using h3, h4, h5⟩, ?_⟩
  by_cases hq : q = []
  · subst hq
    rcases ha with ⟨_, rfl⟩ | ⟨f, hf, _⟩ | ⟨k, hk, _⟩ | ⟨hF, _⟩
    · have h9 : realign (some ⟨0, [], none⟩) = .ok ([], []) := rfl
      rw [h9] at h2
      cases h2
      exact ⟨M, rows, hy, hf, h⟩
    · cases hf.1
    · obtain ⟨_, _, h, _⟩ := hk; cases h
    · exact absurd hF hn
  · obtain ⟨r, M1, rfl⟩ := first_row hq hn h
    obtain ⟨R, M2, h9, hp⟩ := frames_position ((100, r) :: M1) hf
    have hR : R ≠ [] := by
      rintro rfl
      have hp2 := hp.2.2
      rw [hp.1, copyFrames_nil, List.nil_append] at h
      have h9 : M2 = (100, r) :: M1 := h9.symm
      rw [h9, frames_cons] at hp2
      exact rest_no_fr ((fits_iff _).1 (hf _ (List.mem_cons_self ..))) hp2
    rw [← h] at hp
    obtain ⟨R', hp', hl, _⟩ := h6 b R (frames M2) (by simpa using hp)
    rw [if_neg hR] at hp'
    rw [h9] at hy hf
    obtain ⟨rows', hy'⟩ := says_other R hl hy
    refine ⟨rowMsgs R' ++ M2, rows', hy', ?_, by rw [frames_rowMsgs]; exact hp'.1⟩
    intro m hm
    rcases List.mem_append.1 hm with hm | hm
    · obtain ⟨x, hx, rfl⟩ := List.mem_map.1 hm; exact hp'.2.1 x hx
    · exact hf m (List.mem_append_right _ hm)

/-- The transaction has ended and everything the server sent has been read. -/
structure AtRest (p : SP) : Prop where
  xact : ∀ i, p.xact = some i → i.state = .complete
  wire : Wire p.pq []

/-- The end of the `with` block, for a transaction that stands anywhere. -/
theorem exit_live {cs : List Elem} (hc : Cmds cs) {p : SP} {i : Inst} {g : Stage} {e0 eM : Bool} {M : List Msg} {rows : List Bytes} (hx : p.xact = some i) (hs : Stands cs i g e0 p.pq.nextId)
    (hy : Says g M rows eM) (hw : Wire p.pq M) : ∃ r p', exit p = (r, p') ∧ AtRest p' ∧ (r = .fine ∨ (r = .raised ∧ (e0 || eM) = true)) := by
  unfold exit
  rw [hx]
  dsimp only
  by_cases hg : g = .over
  · subst hg
    rw [if_pos (hs.over rfl)]
    obtain ⟨rfl, _, _⟩ := says_over hy
    exact ⟨_, _, rfl, ⟨fun j hj => by rw [hx] at hj; cases hj; exact hs.over rfl, hw⟩, .inl rfl⟩
  · rw [if_neg (fun h => hg ((stands_complete hs).1 h))]
    obtain ⟨i', q', h1, h2, h3⟩ := stepsX_end hc (fuelOf p.pq) hs hg hy hw (by have := hw.fuel; omega)
    rw [h1]
    dsimp only
    refine ⟨_, _, rfl, ⟨fun j hj => by cases hj; exact h2.over rfl, h3⟩, ?_⟩
    cases he : (e0 || eM) with
    | true => right; rw [if_pos rfl, if_neg (fun h => by cases h.2)]; exact ⟨rfl, rfl⟩
    | false =>
      left
      rw [he] at h2
      rw [if_neg (fun h => (by have := (stands_fatal h2).1 h.1; cases this))]
      rfl

/-- Realignment and the end of the `with` block, from any point. -/
theorem leave_ok {cs : List Elem} (hc : Cmds cs) {p : SP} {pub : Bytes} {rows : List Bytes} {e : Bool} {t : Nat} (h : Ok cs p pub rows e t) :
    ∃ p1 fill, realigned p = .ok p1 ∧ p1.mode = .views (if fill = [] then [] else [fill]) ∧
      (∃ done last : List Bytes, pub ++ fill = copyFrames (done ++ last) ∧ last.length ≤ 1 ∧ done <+: rows ∧ copyFrames done <+: pub) ∧
      ∃ r p', exit p1 = (r, p') ∧ AtRest p' ∧ (r = .fine ∨ (r = .raised ∧ e = true)) := by
  rcases h with ⟨⟨i, g, e0, M, rest, done, hl, rfl, rfl, hcn, _⟩, hm, hst⟩ | ⟨⟨i, g, M, rest, done, q, s, hx, hs, hg, hcc, hy, hf, hb, hst, ha, hn, rfl, rfl, hcn, _⟩, hm, hi, hu, hr, hd, hps⟩
  · obtain ⟨rM, eM, hy, _, rfl⟩ := hl.says
    rcases hst with hst | hst
    · refine ⟨{ p with mode := .views [] }, [], by unfold realigned; rw [hst], rfl, ⟨done, [], by simp, by simp, List.prefix_append .., List.prefix_refl _⟩, ?_⟩
      exact exit_live hc (p := { p with mode := .views [] }) hl.xact hl.stands hy hl.wire
    · refine ⟨{ p with pq := { p.pq with stream := write p.pq.stream [] }, mode := .views [] }, [], by unfold realigned; rw [hst]; rfl, rfl, ⟨done, [], by simp, by simp, List.prefix_append .., List.prefix_refl _⟩, ?_⟩
      obtain ⟨wi, wu⟩ := write_spec p.pq.stream hl.wire.inv []
      exact exit_live hc (p := { p with pq := { p.pq with stream := write p.pq.stream [] }, mode := .views [] }) hl.xact hl.stands hy
        ⟨wi, hl.wire.read, hl.wire.data, hl.wire.pieces, by dsimp only; rw [wu, List.append_nil]; exact hl.wire.bytes, hl.wire.fits⟩
  · obtain ⟨back, fill, h1, ⟨last, h2, h3, h4⟩, M', rows', hy', hf', hb'⟩ := realign_frames ha hn hy hf hb
    refine ⟨{ p with pq := { p.pq with stream := write p.pq.stream back }, mode := .views (if fill = [] then [] else [fill]) }, fill, by unfold realigned; rw [hst]; dsimp only; rw [h1], rfl,
      ⟨done, last, by rw [List.append_assoc, h2, copyFrames_append], h3, List.prefix_append .., List.prefix_append ..⟩, ?_⟩
    obtain ⟨r, p', h5, h6, h7⟩ := exit_live hc (p := { p with pq := { p.pq with stream := write p.pq.stream back }, mode := .views (if fill = [] then [] else [fill]) }) hx hs hy'
      (wire_back hi hu hr hd hps hb' hf')
    exact ⟨r, p', h5, h6, by rw [Bool.false_or] at h7; exact h7⟩

end PG.CopyTo
