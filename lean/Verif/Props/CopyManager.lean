import Verif.Proofs.CopyManager
import Verif.Props.CopyMan
/-!
# C35: COPY transfers deliver all data to every live receiver
-/
namespace PG.Props.CopyManager
open PG PG.Spec PG.Spec.Copy PG.CopyMan PG.Element3 PG.PBuffer

/-- The receiver with index `i` has, or holds, everything. -/
structure Up (m : Mgr) (i : Nat) (hd : List Msg) (r : Rcv) : Prop where
  mi : MInv m hd
  at_ : m.rcvs[i]? = some r
  proto : r.proto ∈ m.protocols
  has : Has m.src m.log hd r
  idle : r.active = true → Idle r

theorem idle_transmit {r : Rcv} (hn : r.proto ≠ .pq → r.view = []) (hl : r.proto ≠ .chunks → r.lines = none) (h : (transmit r).1 = true) :
    Idle (transmit r).2 := by
  obtain ⟨_, _, _, _, h5, h6, h7⟩ := transmit_spec r
  obtain ⟨h8, h9⟩ := h5 h
  constructor
  · by_cases hp : r.proto = .pq
    · exact h8 hp
    · rw [h6 hp]; exact hn hp
  · by_cases hp : r.proto = .chunks
    · exact h9 hp
    · rw [h7 hp]; exact hl hp

theorem idle_ok {r : Rcv} (h : Idle r) : (transmit r).1 = true := by
  obtain ⟨h1, h2⟩ := h
  unfold transmit
  split
  · rw [h1]; cases r.sends <;> rfl
  · rw [h2]
  · rfl

/-- What the receivers that are not idle look like. -/
def Ready (r : Rcv) : Prop := (r.proto ≠ .pq → r.view = []) ∧ (r.proto ≠ .chunks → r.lines = none)

theorem serve_spec {r : Rcv} (h : r.active = true) (hr : Ready r) : (serve r).proto = r.proto ∧ holds (serve r) = holds r ∧
    calls (serve r) = calls r ∧ ((serve r).active = (transmit r).1) ∧ ((serve r).active = true → Idle (serve r)) ∧ Ready (serve r) ∧
    ((transmit r).1 = true → serve r = (transmit r).2) := by
  obtain ⟨h1, h2, h3, h4, _, h6, h7⟩ := transmit_spec r
  have hid := @idle_transmit r hr.1 hr.2
  have hready : Ready (transmit r).2 :=
    ⟨fun hp => by rw [h6 (h3 ▸ hp)]; exact hr.1 (h3 ▸ hp), fun hp => by rw [h7 (h3 ▸ hp)]; exact hr.2 (h3 ▸ hp)⟩
  unfold serve
  rw [if_pos h]
  generalize transmit r = t at *
  obtain ⟨b, r'⟩ := t
  cases b with
  | true =>
    dsimp only at *
    exact ⟨h3, h1, h2, by rw [h4, h], fun _ => hid rfl, hready, fun _ => rfl⟩
  | false =>
    dsimp only at *
    exact ⟨h3, h1, h2, rfl, fun h => (by cases h), hready, fun h => (by cases h)⟩

theorem step_of_ok {m m1 : Mgr} (h : serviceProducer m = (.ok, m1)) : step m = serviceReceivers m1 := by unfold step; rw [h]
theorem step_of_not {m m1 : Mgr} {res : Res} (h : serviceProducer m = (res, m1)) (hr : res ≠ .ok) : step m = (res, m1) := by
  unfold step
  rw [h]
  cases res <;> first | rfl | exact absurd rfl hr

/-- A step with the receiver in the set. -/
theorem step_up {m : Mgr} {i : Nat} {hd : List Msg} {r : Rcv} (h : Up m i hd r) (hrd : Ready r) (ha : r.active = true) :
    ∃ hd' r', Up (step m).2 i hd' r' ∧ Ready r' ∧ r'.proto = r.proto := by
  generalize hsp : serviceProducer m = sp
  obtain ⟨res, m1⟩ := sp
  by_cases hres : res = .ok
  · subst hres
    rw [step_of_ok hsp]
    obtain ⟨d, s, l, f, hs, hs1, hl1, hp1, hsrc1, hm1, hr1, hf⟩ := serviceProducer_ok h.mi hsp
    obtain ⟨f1, f2, f3, f4, f5, f6, f7, f8⟩ := hf r ha h.proto (h.idle ha) h.has
    have hready : Ready (f r) := ⟨fun hp => by rw [f7 (f3 ▸ hp)]; exact hrd.1 (f3 ▸ hp), fun hp => by rw [f8 (f3 ▸ hp)]; exact hrd.2 (f3 ▸ hp)⟩
    have hat : m1.rcvs[i]? = some (f r) := by rw [hr1, List.getElem?_map, h.at_]; simp [ha]
    obtain ⟨s1, s2, s3, s4, s5, s6, _⟩ := serve_spec f2 hready
    have hup : Up { m1 with rcvs := m1.rcvs.map serve } i (hd ++ l) (serve (f r)) := by
      refine ⟨⟨hm1.inv, hm1.bytes, hm1.fits, hm1.rest, hm1.typed⟩, ?_, ?_, ?_, s5⟩
      · simp only [List.getElem?_map, hat, Option.map_some]
      · show (serve (f r)).proto ∈ m1.protocols
        rw [s1, f3, hp1]; exact h.proto
      · exact ⟨fun hp => by rw [s2]; exact f1.pq (s1 ▸ hp), fun hp hs => by rw [s3]; exact f1.chunks (s1 ▸ hp) hs,
          fun hp hs => by rw [s3]; exact f1.parsed (s1 ▸ hp) hs⟩
    have hsnd : (serviceReceivers m1).2 = { m1 with rcvs := m1.rcvs.map serve } := by unfold serviceReceivers; dsimp only; split <;> rfl
    rw [hsnd]
    exact ⟨_, _, hup, s6, s1.trans f3⟩
  · obtain ⟨h1, h2, h3, h4, h5, pre, hpre⟩ := serviceProducer_not_ok hsp hres
    rw [step_of_not hsp hres]
    refine ⟨hd, r, ⟨⟨h3 ▸ h.mi.inv, ?_, h.mi.fits, ?_, ?_⟩, ?_, ?_, ?_, h.idle⟩, hrd, rfl⟩
    · dsimp only; rw [h4, h5, h2, h3]; exact h.mi.bytes
    · dsimp only; rw [h4, h5, h3]; exact h.mi.rest
    · dsimp only; intro d hd'; rw [h4]; exact h.mi.typed d (by rw [hpre]; exact List.mem_append_right _ hd')
    · dsimp only; rw [h1]; exact h.at_
    · dsimp only; rw [h5]; exact h.proto
    · dsimp only; rw [h4, h2]; exact h.has

theorem reconcile_up {m : Mgr} {i j : Nat} {hd : List Msg} {r : Rcv} (h : Up m i hd r) (hrd : Ready r) :
    ∃ r', Up (reconcile m j).2 i hd r' ∧ Ready r' ∧ r'.proto = r.proto := by
  have hkeep : ∀ rcvs : List Rcv, rcvs[i]? = some r → Up { m with rcvs := rcvs } i hd r :=
    fun rcvs hat => ⟨⟨h.mi.inv, h.mi.bytes, h.mi.fits, h.mi.rest, h.mi.typed⟩, hat, h.proto, h.has, h.idle⟩
  unfold reconcile
  cases hj : m.rcvs[j]? with
  | none => exact ⟨r, h, hrd, rfl⟩
  | some q =>
    dsimp only
    split
    · rename_i hpr
      by_cases hij : j = i
      · subst hij
        have hq : q = r := Option.some.inj (hj.symm.trans h.at_)
        subst hq
        have hlt : j < m.rcvs.length := (List.getElem?_eq_some_iff.1 hj).1
        obtain ⟨h1, h2, h3, h4, _, h6, h7⟩ := transmit_spec q
        have hid := @idle_transmit q hrd.1 hrd.2
        have hhas := has_of_transmit h.has
        have hready : Ready (transmit q).2 :=
          ⟨fun hp => by rw [h6 (h3 ▸ hp)]; exact hrd.1 (h3 ▸ hp), fun hp => by rw [h7 (h3 ▸ hp)]; exact hrd.2 (h3 ▸ hp)⟩
        generalize ht : transmit q = t at *
        obtain ⟨b, r'⟩ := t
        cases b with
        | true =>
          dsimp only at *
          refine ⟨{ r' with active := true }, ⟨⟨h.mi.inv, h.mi.bytes, h.mi.fits, h.mi.rest, h.mi.typed⟩, ?_, ?_, has_active hhas, fun _ => hid rfl⟩, hready, h3⟩
          · simp only [List.getElem?_set_self hlt]
          · dsimp only; rw [h3]; exact h.proto
        | false =>
          dsimp only at *
          refine ⟨r', ⟨⟨h.mi.inv, h.mi.bytes, h.mi.fits, h.mi.rest, h.mi.typed⟩, ?_, ?_, hhas, ?_⟩, hready, h3⟩
          · simp only [List.getElem?_set_self hlt]
          · dsimp only; rw [h3]; exact h.proto
          · intro hact
            -- transmitting with nothing pending does not raise
            have := idle_ok (h.idle (h4 ▸ hact))
            rw [ht] at this
            cases this
      · split
        · exact ⟨r, hkeep _ (by rw [List.getElem?_set_ne hij]; exact h.at_), hrd, rfl⟩
        · exact ⟨r, hkeep _ (by rw [List.getElem?_set_ne hij]; exact h.at_), hrd, rfl⟩
    · exact ⟨r, h, hrd, rfl⟩

/-- A receiver nothing has been given to. -/
def Fresh (r : Rcv) : Prop := r.view = [] ∧ r.lines = none ∧ r.sent = [] ∧ r.got = [] ∧ r.active = true

/-- No step is made while the receiver is out of the set: the user adds a receiver that failed back before going on. -/
def Prompt (i : Nat) : Mgr → List Op → Prop
  | _, [] => True
  | m, .next :: ops => (∃ r, m.rcvs[i]? = some r ∧ r.active = true) ∧ Prompt i (apply m .next) ops
  | m, .reconcile j :: ops => Prompt i (apply m (.reconcile j)) ops

theorem ops_up (ops : List Op) : ∀ {m : Mgr} {i : Nat} {hd : List Msg} {r : Rcv}, Up m i hd r → Ready r → Prompt i m ops →
    ∃ hd' r', Up (ops.foldl apply m) i hd' r' ∧ r'.proto = r.proto := by
  induction ops with
  | nil => intro m i hd r h _ _; exact ⟨hd, r, h, rfl⟩
  | cons op ops ih =>
    intro m i hd r h hrd hp
    cases op with
    | next =>
      obtain ⟨⟨q, hq, ha⟩, hp⟩ := hp
      have : q = r := Option.some.inj (hq.symm.trans h.at_)
      subst this
      obtain ⟨hd', r', h', hr', hpr⟩ := step_up h hrd ha
      obtain ⟨hd2, r2, h2, hpr2⟩ := ih (m := apply m .next) h' hr' hp
      exact ⟨hd2, r2, h2, hpr2.trans hpr⟩
    | reconcile j =>
      obtain ⟨r', h', hr', hpr⟩ := reconcile_up (j := j) h hrd
      obtain ⟨hd2, r2, h2, hpr2⟩ := ih (m := apply m (.reconcile j)) h' hr' hp
      exact ⟨hd2, r2, h2, hpr2.trans hpr⟩

theorem parse_nil : (parse (unread {})).1 = [] := by
  have h : unread ({} : Stream) = [] := rfl
  rw [h, parse_eq]
  rfl

theorem new_up {src : Proto} {script : List PEvent} {rcvs : List Rcv} {i : Nat} {r : Rcv}
    (hty : ∀ d, .data d ∈ script → Typed src d) (hi : rcvs[i]? = some r) (hf : Fresh r) : Up (Mgr.new src script rcvs) i [] r ∧ Ready r := by
  obtain ⟨h1, h2, h3, h4, h5⟩ := hf
  refine ⟨⟨⟨inv_init, fun _ _ => by simp [Mgr.new, frames, unread], by simp, fun _ _ => Or.inl parse_nil, hty⟩, hi, ?_, ⟨fun _ => ?_, fun _ _ => ?_, fun _ _ => ?_⟩, fun _ => ⟨h1, h2⟩⟩,
    fun _ => h1, fun _ => h2⟩
  · exact List.mem_map_of_mem (List.mem_of_getElem? hi)
  · simp [holds, h1, h3, Mgr.new]
  · simp [calls, h2, h4, Mgr.new]
  · simp [calls, h2, h4]

/-- C35: whatever a user of the manager does (steps and re-adding of failed receivers in any order, whatever the sockets and callables do),
a receiver that is added back before the next step whenever it failed has got exactly what was produced, in order and once: for a
receiver of protocol data, what went through its socket and what it still holds is the produced data on the wire; for a receiver of rows the
calls are the produced lists of rows, or, if the producer gives protocol data, the rows of the complete messages in it (at most 2 ^ 32 - 1
messages are taken from one piece of data, hence the condition).  As long as it is in the set it
holds nothing back. -/
theorem C35_delivery (src : Proto) (script : List PEvent) (rcvs : List Rcv) (i : Nat) (r : Rcv) (ops : List Op)
    (hty : ∀ d, .data d ∈ script → Typed src d) (hi : rcvs[i]? = some r) (hf : Fresh r) (hp : Prompt i (Mgr.new src script rcvs) ops) :
    ∃ r', (ops.foldl apply (Mgr.new src script rcvs)).rcvs[i]? = some r' ∧ r'.proto = r.proto ∧
      (r.proto = .pq → r'.sent ++ r'.view = (ops.foldl apply (Mgr.new src script rcvs)).log.flatMap wireOf) ∧
      (r.proto = .chunks → src = .chunks → r'.got ++ r'.lines.toList = (ops.foldl apply (Mgr.new src script rcvs)).log.map rowsOf) ∧
      (r.proto = .chunks → src = .pq → (parse ((ops.foldl apply (Mgr.new src script rcvs)).log.flatMap wireOf)).1.length < 0xFFFFFFFF →
        (r'.got ++ r'.lines.toList).flatten = (parse ((ops.foldl apply (Mgr.new src script rcvs)).log.flatMap wireOf)).1.map Prod.snd) ∧
      (r'.active = true → r'.view = [] ∧ r'.lines = none) := by
  obtain ⟨hup, hrd⟩ := new_up hty hi hf
  obtain ⟨hd, r', h, hpr⟩ := ops_up ops hup hrd hp
  have hsrc : ∀ (ops : List Op) (m : Mgr), (ops.foldl apply m).src = m.src ∧ (ops.foldl apply m).protocols = m.protocols := by
    intro ops
    induction ops with
    | nil => intro m; exact ⟨rfl, rfl⟩
    | cons op ops ih =>
      intro m
      obtain ⟨h1, h2⟩ := ih (apply m op)
      rw [List.foldl_cons, h1, h2]
      cases op with
      | next =>
        show (step m).2.src = _ ∧ (step m).2.protocols = _
        generalize hsp : serviceProducer m = sp
        obtain ⟨res, m1⟩ := sp
        have hkeep : m1.src = m.src ∧ m1.protocols = m.protocols := by
          unfold serviceProducer at hsp
          split at hsp
          · cases hsp; exact ⟨rfl, rfl⟩
          · split at hsp
            · cases hsp; exact ⟨rfl, rfl⟩
            · cases hsp; exact ⟨rfl, rfl⟩
            · cases hsp; exact ⟨rfl, rfl⟩
            · dsimp only at hsp
              split at hsp <;> (cases hsp; exact ⟨rfl, rfl⟩)
        by_cases hres : res = .ok
        · subst hres
          rw [step_of_ok hsp]
          unfold serviceReceivers
          dsimp only
          split <;> exact hkeep
        · rw [step_of_not hsp hres]; exact hkeep
      | reconcile j =>
        show (reconcile m j).2.src = _ ∧ (reconcile m j).2.protocols = _
        unfold reconcile
        split
        · exact ⟨rfl, rfl⟩
        · split
          · split <;> exact ⟨rfl, rfl⟩
          · exact ⟨rfl, rfl⟩
  have hsrc' : (ops.foldl apply (Mgr.new src script rcvs)).src = src := (hsrc ops _).1
  have hpro : (ops.foldl apply (Mgr.new src script rcvs)).protocols = rcvs.map Rcv.proto := (hsrc ops _).2
  refine ⟨r', h.at_, hpr, fun hq => h.has.pq (hpr.trans hq), fun hq hs => h.has.chunks (hpr.trans hq) (hsrc'.trans hs), fun hq hs hlt => ?_, h.idle⟩
  have hmem : Proto.chunks ∈ (ops.foldl apply (Mgr.new src script rcvs)).protocols := by
    rw [hpro, ← hq]
    exact List.mem_map_of_mem (List.mem_of_getElem? hi)
  have hpf := congrArg Prod.fst (parse_frames hd h.mi.fits (unread (ops.foldl apply (Mgr.new src script rcvs)).buf))
  rw [← h.mi.bytes (hsrc'.trans hs) hmem] at hpf
  simp only at hpf
  have hrest : (parse (unread (ops.foldl apply (Mgr.new src script rcvs)).buf)).1 = [] := by
    rcases h.mi.rest (hsrc'.trans hs) hmem with h | h
    · exact h
    · rw [hpf, List.length_append] at hlt
      omega
  rw [hpf, hrest, List.append_nil]
  exact h.has.parsed (hpr.trans hq) (hsrc'.trans hs)

/-- All receivers are in the set and have everything. -/
structure All (m : Mgr) (hd : List Msg) : Prop where
  mi : MInv m hd
  each : ∀ r ∈ m.rcvs, r.active = true ∧ r.proto ∈ m.protocols ∧ Has m.src m.log hd r ∧ Idle r

theorem idle_ready {r : Rcv} (h : Idle r) : Ready r := ⟨fun _ => h.1, fun _ => h.2⟩

theorem step_ok_all {m m1 : Mgr} {hd : List Msg} (h : All m hd) (hs : step m = (.ok, m1)) :
    ∃ d l, m.script = .data d :: m1.script ∧ m1.log = m.log ++ [d] ∧ m1.rcvs.length = m.rcvs.length ∧ m1.src = m.src ∧ m1.protocols = m.protocols ∧
      m1.rcvs.map Rcv.proto = m.rcvs.map Rcv.proto ∧ All m1 (hd ++ l) := by
  generalize hsp : serviceProducer m = sp at *
  obtain ⟨res, m2⟩ := sp
  by_cases hres : res = .ok
  · subst hres
    rw [step_of_ok hsp] at hs
    obtain ⟨d, s, l, f, hs0, hs1, hl1, hp1, hsrc1, hm1, hr1, hf⟩ := serviceProducer_ok h.mi hsp
    have hrm : m2.rcvs = m.rcvs.map f := by
      rw [hr1]
      apply List.map_congr_left
      intro r hr
      rw [if_pos (h.each r hr).1]
    unfold serviceReceivers at hs
    dsimp only at hs
    split at hs
    · cases hs
    · rename_i hany
      injection hs with _ hs
      subst hs
      have hall : ∀ r ∈ m2.rcvs, r.active = true → (transmit r).1 = true := by
        intro r hr ha
        cases ht : (transmit r).1 with
        | true => rfl
        | false => exact absurd (List.any_eq_true.2 ⟨r, hr, by rw [ha, ht]; rfl⟩) hany
      have hproto : ∀ r ∈ m.rcvs, (serve (f r)).proto = r.proto := by
        intro r hr
        obtain ⟨e1, e2, e3, e4⟩ := h.each r hr
        obtain ⟨f1, f2, f3, f4, f5, f6, f7, f8⟩ := hf r e1 e2 e4 e3
        obtain ⟨s1, _⟩ := serve_spec f2 ⟨fun hp => by rw [f7 (f3 ▸ hp)]; exact e4.1, fun hp => by rw [f8 (f3 ▸ hp)]; exact e4.2⟩
        exact s1.trans f3
      refine ⟨d, l, by rw [hs0, hs1], hl1, by simp [hrm], hsrc1, hp1, ?_, ⟨⟨hm1.inv, hm1.bytes, hm1.fits, hm1.rest, hm1.typed⟩, ?_⟩⟩
      · simp only [hrm, List.map_map]
        exact List.map_congr_left hproto
      · intro r' hr'
        obtain ⟨r2, hr2, rfl⟩ := List.mem_map.1 hr'
        have hr2' := hr2
        rw [hrm] at hr2
        obtain ⟨r, hr, rfl⟩ := List.mem_map.1 hr2
        obtain ⟨e1, e2, e3, e4⟩ := h.each r hr
        obtain ⟨f1, f2, f3, f4, f5, f6, f7, f8⟩ := hf r e1 e2 e4 e3
        obtain ⟨s1, s2, s3, s4, s5, s6, _⟩ := serve_spec f2 ⟨fun hp => by rw [f7 (f3 ▸ hp)]; exact e4.1, fun hp => by rw [f8 (f3 ▸ hp)]; exact e4.2⟩
        have hact : (serve (f r)).active = true := s4.trans (hall _ hr2' f2)
        refine ⟨hact, ?_, ⟨fun hp => by rw [s2]; exact f1.pq (s1 ▸ hp), fun hp hs => by rw [s3]; exact f1.chunks (s1 ▸ hp) hs,
          fun hp hs => by rw [s3]; exact f1.parsed (s1 ▸ hp) hs⟩, s5 hact⟩
        show _ ∈ m2.protocols
        rw [s1, f3, hp1]
        exact e2
  · rw [step_of_not hsp hres] at hs
    injection hs with hs _
    exact absurd hs hres

/-- A step that ends the loop. -/
theorem step_stop {m m1 : Mgr} (h : step m = (.stop, m1)) (ha : ∀ r ∈ m.rcvs, r.active = true) (hne : m.rcvs ≠ []) :
    m1.rcvs = m.rcvs ∧ m1.log = m.log ∧ m1.src = m.src ∧ m1.protocols = m.protocols ∧ m1.buf = m.buf ∧ m1.seen = true ∧
      (m.script = [] ∨ ∃ t, m.script = .stop :: t) := by
  generalize hsp : serviceProducer m = sp at *
  obtain ⟨res, m2⟩ := sp
  by_cases hres : res = .ok
  · subst hres
    rw [step_of_ok hsp] at h
    unfold serviceReceivers at h
    dsimp only at h
    split at h <;> cases h
  · rw [step_of_not hsp hres] at h
    injection h with h1 h2
    subst h1 h2
    unfold serviceProducer at hsp
    split at hsp
    · rename_i hall
      obtain ⟨r, hr⟩ := List.exists_mem_of_ne_nil _ hne
      have := List.all_eq_true.1 hall r hr
      rw [ha r hr] at this
      cases this
    · split at hsp
      · rename_i hs; cases hsp; exact ⟨rfl, rfl, rfl, rfl, rfl, rfl, Or.inl hs⟩
      · rename_i s hs; cases hsp; exact ⟨rfl, rfl, rfl, rfl, rfl, rfl, Or.inr ⟨s, hs⟩⟩
      · cases hsp
      · dsimp only at hsp
        split at hsp <;> cases hsp

theorem runLoop_stop (fuel : Nat) : ∀ {m m1 : Mgr} {hd : List Msg}, All m hd → m.rcvs ≠ [] → runLoop fuel m = (.stop, m1) →
    ∃ pre post hd', m.script = pre.map PEvent.data ++ post ∧ (post = [] ∨ ∃ t, post = .stop :: t) ∧ m1.log = m.log ++ pre ∧ m1.seen = true ∧
      m1.rcvs.map Rcv.proto = m.rcvs.map Rcv.proto ∧ m1.src = m.src ∧ m1.protocols = m.protocols ∧ MInv { m1 with script := [] } hd' ∧
      ∀ r ∈ m1.rcvs, r.active = true ∧ r.proto ∈ m1.protocols ∧ Has m1.src m1.log hd' r ∧ Idle r := by
  induction fuel with
  | zero => intro m m1 hd _ _ h; cases h
  | succ fuel ih =>
    intro m m1 hd hall hne h
    rw [runLoop] at h
    generalize hst : step m = st at h
    obtain ⟨res, m2⟩ := st
    cases res with
    | ok =>
      obtain ⟨d, l, h1, h2, h3, h4, h5, h6, h7⟩ := step_ok_all hall hst
      obtain ⟨pre, post, hd', g1, g2, g3, g4, g5, g6, g7, g8, g9⟩ := ih h7 (by intro hc; rw [hc] at h3; exact hne (List.length_eq_zero_iff.1 h3.symm)) h
      exact ⟨d :: pre, post, hd', by rw [h1, g1]; rfl, g2, by rw [g3, h2]; simp, g4, g5.trans h6, g6.trans h4, g7.trans h5, g8, g9⟩
    | stop =>
      injection h with _ h
      subst h
      obtain ⟨h1, h2, h3, h4, h5, h6, h7⟩ := step_stop hst (fun r hr => (hall.each r hr).1) hne
      refine ⟨[], m.script, hd, rfl, h7, by simp [h2], h6, by rw [h1], h3, h4, ?_, ?_⟩
      · refine ⟨h5 ▸ hall.mi.inv, ?_, hall.mi.fits, ?_, by simp⟩
        · dsimp only; rw [h3, h4, h2, h5]; exact hall.mi.bytes
        · dsimp only; rw [h3, h4, h5]; exact hall.mi.rest
      · rw [h1, h4, h3, h2]
        exact hall.each
    | producerFault => injection h with h _; cases h
    | receiverFault => injection h with h _; cases h
    | error e => injection h with h _; cases h
    | copyFail => injection h with h _; cases h

/-- What the manager's last call of the producer may change: only what receivers hold, not what they have taken. -/
theorem serviceProducer_taken (m : Mgr) : ∃ f : Rcv → Rcv, (serviceProducer m).2.rcvs = m.rcvs.map f ∧
    ∀ r, (f r).sent = r.sent ∧ (f r).got = r.got ∧ (f r).active = r.active ∧ (f r).proto = r.proto := by
  have hid : ∃ f : Rcv → Rcv, m.rcvs = m.rcvs.map f ∧ ∀ r, (f r).sent = r.sent ∧ (f r).got = r.got ∧ (f r).active = r.active ∧ (f r).proto = r.proto :=
    ⟨id, by simp, fun r => ⟨rfl, rfl, rfl, rfl⟩⟩
  unfold serviceProducer
  split
  · exact hid
  · split
    · exact hid
    · exact hid
    · exact hid
    · dsimp only
      split
      · exact hid
      · rename_i a b buf _
        refine ⟨_, rfl, ?_⟩
        intro r
        split
        · unfold accept
          split <;> exact ⟨rfl, rfl, rfl, rfl⟩
        · exact ⟨rfl, rfl, rfl, rfl⟩

theorem realignStep_false {m m' : Mgr} {pe : ProdExit} (h : realignStep m pe = (false, m')) : pe.realignRaises = false ∧ pe.exitRaises = false ∧
    ∃ f : Rcv → Rcv, m'.rcvs = m.rcvs.map f ∧ ∀ r, (f r).sent = r.sent ∧ (f r).got = r.got ∧ (f r).active = r.active ∧ (f r).proto = r.proto := by
  unfold realignStep at h
  split at h
  · cases h
  · rename_i hrr
    obtain ⟨f, hf1, hf2⟩ := serviceProducer_taken { m with script := pe.realigned.getD m.script }
    generalize serviceProducer { m with script := pe.realigned.getD m.script } = sp at *
    obtain ⟨res, m3⟩ := sp
    refine ⟨by simpa using hrr, ?_⟩
    cases res <;> first | cases h; done | (injection h with h1 h2; subst h2; exact ⟨h1, f, hf1, hf2⟩)

theorem leave_ok {m m' : Mgr} {pe : ProdExit} {exc : Bool} (h : leave m pe exc = (.ok, m')) : exc = false ∧ pe.realignRaises = false ∧
    pe.exitRaises = false ∧ (∃ r ∈ m'.rcvs, r.active = true) ∧ (∀ r ∈ m'.rcvs, r.active = true → r.exitRaises = false) ∧ m'.seen = true ∧
    ∃ f : Rcv → Rcv, m'.rcvs = m.rcvs.map f ∧ ∀ r, (f r).sent = r.sent ∧ (f r).got = r.got ∧ (f r).active = r.active ∧ (f r).proto = r.proto := by
  unfold leave at h
  generalize hpm : realignStep m pe = pm at h
  obtain ⟨profail, m2⟩ := pm
  dsimp only at h
  split at h
  · cases h
  · rename_i hact
    split at h
    · cases h
    · rename_i hcond
      injection h with _ h
      subst h
      simp only [Bool.or_eq_true, Bool.not_eq_true', not_or, Bool.not_eq_false, Bool.not_eq_true] at hcond
      obtain ⟨⟨⟨c1, c2⟩, c3⟩, c4⟩ := hcond
      subst c3
      obtain ⟨r1, r2, f, r3, r4⟩ := realignStep_false hpm
      refine ⟨c1, r1, r2, ?_, ?_, c4, f, r3, r4⟩
      · have := mt List.all_eq_true.2 hact
        simp only [Classical.not_forall] at this
        obtain ⟨r, hr, ha⟩ := this
        exact ⟨r, hr, by simpa using ha⟩
      · intro r hr ha
        cases he : r.exitRaises with
        | false => rfl
        | true =>
          rw [List.any_eq_false] at c2
          have := c2 r hr
          rw [ha, he] at this
          exact absurd rfl this

/-- C35: `run` returns without CopyFail only if the producer came to its end without raising and every receiver is still there and has
taken all that was produced before, in order and once. -/
theorem C35_success (src : Proto) (script : List PEvent) (rcvs : List Rcv) (pe : ProdExit) (m' : Mgr)
    (hty : ∀ d, .data d ∈ script → Typed src d) (hf : ∀ r ∈ rcvs, Fresh r) (h : run (Mgr.new src script rcvs) pe = (.ok, m')) :
    ∃ (pre : List Data) (post : List PEvent), script = pre.map PEvent.data ++ post ∧ (post = [] ∨ ∃ t, post = .stop :: t) ∧ rcvs ≠ [] ∧
      m'.rcvs.map Rcv.proto = rcvs.map Rcv.proto ∧ ∀ r ∈ m'.rcvs, r.active = true ∧ (r.proto = .pq → r.sent = pre.flatMap wireOf) ∧
        (r.proto = .chunks → src = .chunks → r.got = pre.map rowsOf) ∧
        (r.proto = .chunks → src = .pq → (parse (pre.flatMap wireOf)).1.length < 0xFFFFFFFF →
          r.got.flatten = (parse (pre.flatMap wireOf)).1.map Prod.snd) := by
  unfold run at h
  split at h
  · have := (leave_ok h).1
    cases this
  · split at h
    · rename_i m1 hloop
      obtain ⟨_, _, _, ⟨r0, hr0, _⟩, _, _, f, hf1, hf2⟩ := leave_ok h
      have hne1 : m1.rcvs ≠ [] := by intro hc; rw [hf1, hc] at hr0; cases hr0
      by_cases hne : rcvs = []
      · exfalso
        subst hne
        have h1 : runLoop ((Mgr.new src script []).script.length + 1) (Mgr.new src script []) = (.stop, Mgr.new src script []) := rfl
        rw [h1] at hloop
        injection hloop with _ hloop
        exact hne1 (by rw [← hloop]; rfl)
      · have hall : All (Mgr.new src script rcvs) [] := by
          refine ⟨⟨inv_init, fun _ _ => by simp [Mgr.new, frames, unread], by simp, fun _ _ => Or.inl parse_nil, hty⟩, ?_⟩
          intro r hr
          obtain ⟨i, hi⟩ := List.getElem?_of_mem (show r ∈ rcvs from hr)
          have hup := (new_up hty hi (hf r hr)).1
          exact ⟨(hf r hr).2.2.2.2, hup.proto, hup.has, hup.idle (hf r hr).2.2.2.2⟩
        obtain ⟨pre, post, hd', g1, g2, g3, g4, g5, g6, g7, g8, g9⟩ := runLoop_stop _ hall hne hloop
        have g3 : m1.log = pre := by rw [g3]; rfl
        have g6 : m1.src = src := g6
        refine ⟨pre, post, g1, g2, hne, ?_, ?_⟩
        · rw [hf1, List.map_map]
          have : m1.rcvs.map (Rcv.proto ∘ f) = m1.rcvs.map Rcv.proto := List.map_congr_left fun r _ => (hf2 r).2.2.2
          rw [this]
          exact g5
        · intro r' hr'
          rw [hf1] at hr'
          obtain ⟨r, hr, rfl⟩ := List.mem_map.1 hr'
          obtain ⟨e1, e2, e3, e4⟩ := g9 r hr
          obtain ⟨k1, k2, k3, k4⟩ := hf2 r
          rw [g3, g6] at e3
          refine ⟨k3.trans e1, fun hp => ?_, fun hp hs => ?_, fun hp hs hlt => ?_⟩
          · have := e3.pq (k4 ▸ hp)
            rw [holds, e4.1, List.append_nil] at this
            rw [k1, this]
          · have := e3.chunks (k4 ▸ hp) hs
            rw [calls, e4.2] at this
            rw [k2, ← this]
            simp
          · have := e3.parsed (k4 ▸ hp) hs
            rw [calls, e4.2] at this
            simp only [Option.toList, List.append_nil] at this
            have hmem : Proto.chunks ∈ m1.protocols := by rw [← hp, k4]; exact e2
            have hb := g8.bytes (g6.trans hs) hmem
            dsimp only at hb
            rw [g3] at hb
            have hpf := congrArg Prod.fst (parse_frames hd' g8.fits (unread m1.buf))
            rw [← hb] at hpf
            simp only at hpf
            have hrest : (parse (unread m1.buf)).1 = [] := by
              rcases g8.rest (g6.trans hs) hmem with h | h
              · exact h
              · rw [hpf, List.length_append] at hlt; omega
            rw [hpf, hrest, List.append_nil, k2, this]
    · cases h
    · have := (leave_ok h).1
      cases this


/-- C35: what is delivered is what the producer gave, in its order: the data that went through is taken from the front of the producer's
script. -/
theorem C35_order (src : Proto) (script : List PEvent) (rcvs : List Rcv) (ops : List Op) :
    ∃ used, script = used ++ (ops.foldl apply (Mgr.new src script rcvs)).script ∧
      ((ops.foldl apply (Mgr.new src script rcvs)).log.map PEvent.data).Sublist used := by
  have key : ∀ (ops : List Op) (m : Mgr), ∃ used new, m.script = used ++ (ops.foldl apply m).script ∧ (ops.foldl apply m).log = m.log ++ new ∧
      (new.map PEvent.data).Sublist used := by
    intro ops
    induction ops with
    | nil => intro m; exact ⟨[], [], rfl, (List.append_nil _).symm, List.Sublist.refl _⟩
    | cons op ops ih =>
      intro m
      have hstep : ∃ used new, m.script = used ++ (apply m op).script ∧ (apply m op).log = m.log ++ new ∧ (new.map PEvent.data).Sublist used := by
        cases op with
        | next =>
          show ∃ used new, m.script = used ++ (step m).2.script ∧ (step m).2.log = m.log ++ new ∧ _
          have hsp : ∃ used new, m.script = used ++ (serviceProducer m).2.script ∧ (serviceProducer m).2.log = m.log ++ new ∧
              (new.map PEvent.data).Sublist used := by
            unfold serviceProducer
            split
            · exact ⟨[], [], rfl, (List.append_nil _).symm, List.Sublist.refl _⟩
            · split
              · exact ⟨[], [], rfl, (List.append_nil _).symm, List.Sublist.refl _⟩
              · rename_i s hs; exact ⟨[.stop], [], hs, (List.append_nil _).symm, List.nil_sublist _⟩
              · rename_i s hs; exact ⟨[.fault], [], hs, (List.append_nil _).symm, List.nil_sublist _⟩
              · rename_i d s hs
                dsimp only
                split
                · exact ⟨[.data d], [], hs, (List.append_nil _).symm, List.nil_sublist _⟩
                · exact ⟨[.data d], [d], hs, rfl, List.Sublist.refl _⟩
          generalize hg : serviceProducer m = sp at hsp
          obtain ⟨res, m1⟩ := sp
          by_cases hres : res = .ok
          · subst hres
            rw [step_of_ok hg]
            have hsnd : (serviceReceivers m1).2 = { m1 with rcvs := m1.rcvs.map serve } := by unfold serviceReceivers; dsimp only; split <;> rfl
            rw [hsnd]
            exact hsp
          · rw [step_of_not hg hres]
            exact hsp
        | reconcile j =>
          show ∃ used new, m.script = used ++ (reconcile m j).2.script ∧ (reconcile m j).2.log = m.log ++ new ∧ _
          have : (reconcile m j).2.script = m.script ∧ (reconcile m j).2.log = m.log := by
            unfold reconcile
            split
            · exact ⟨rfl, rfl⟩
            · split
              · split <;> exact ⟨rfl, rfl⟩
              · exact ⟨rfl, rfl⟩
          rw [this.1, this.2]
          exact ⟨[], [], rfl, (List.append_nil _).symm, List.Sublist.refl _⟩
      obtain ⟨u1, n1, a1, b1, c1⟩ := hstep
      obtain ⟨u2, n2, a2, b2, c2⟩ := ih (apply m op)
      refine ⟨u1 ++ u2, n1 ++ n2, ?_, ?_, ?_⟩
      · rw [List.foldl_cons, List.append_assoc, ← a2, ← a1]
      · rw [List.foldl_cons, b2, b1, List.append_assoc]
      · rw [List.map_append]; exact c1.append c2
  obtain ⟨used, new, h1, h2, h3⟩ := key ops (Mgr.new src script rcvs)
  refine ⟨used, h1, ?_⟩
  rw [h2]
  exact h3

/-- Nothing goes wrong with a receiver. -/
def Sound (r : Rcv) : Prop := r.active = true ∧ (∀ s ∈ r.sends, s ≠ .fault) ∧ (∀ b ∈ r.calls, b = false) ∧ r.exitRaises = false

theorem sendLoop_sound (s : List Send) : ∀ v sent, (∀ x ∈ s, x ≠ Send.fault) → (sendLoop s v sent).1 = true ∧ ∀ x ∈ (sendLoop s v sent).2.1, x ≠ Send.fault := by
  induction s with
  | nil => intro v sent _; cases v <;> simp [sendLoop]
  | cons x s ih =>
    intro v sent h
    cases v with
    | nil => exact ⟨by cases x <;> rfl, by cases x <;> exact h⟩
    | cons y v =>
      cases x with
      | took n => exact ih _ _ fun z hz => h z (List.mem_cons_of_mem _ hz)
      | fault => exact absurd rfl (h .fault (List.mem_cons_self ..))

theorem sound_serve {r : Rcv} (h : Sound r) : (transmit r).1 = true ∧ Sound (serve r) := by
  obtain ⟨proto, view, lines, sends, cs, sent, got, active, en, ex⟩ := r
  obtain ⟨h1, h2, h3, h4⟩ := h
  dsimp only at h1 h2 h3 h4
  subst h1
  cases proto with
  | pq =>
    obtain ⟨k1, k2⟩ := sendLoop_sound sends view sent h2
    unfold serve transmit
    dsimp only
    rw [if_pos rfl]
    generalize sendLoop sends view sent = q at *
    obtain ⟨ok, s, v, st⟩ := q
    dsimp only at *
    subst k1
    exact ⟨rfl, rfl, k2, h3, h4⟩
  | chunks =>
    cases lines with
    | none => exact ⟨rfl, rfl, h2, h3, h4⟩
    | some l =>
      cases cs with
      | nil => exact ⟨rfl, rfl, h2, h3, h4⟩
      | cons b c =>
        have hb := h3 b (List.mem_cons_self ..)
        subst hb
        exact ⟨rfl, rfl, h2, fun x hx => h3 x (List.mem_cons_of_mem _ hx), h4⟩
  | null => exact ⟨rfl, rfl, h2, h3, h4⟩

theorem sound_accept {r : Rcv} (d : Data) (h : Sound r) : Sound (accept r d) := by
  unfold accept
  split <;> exact h

theorem catMessages_fits (l : List Bytes) (h : ∀ row ∈ l, row.length + 4 < 2147483648) : ∃ b, catMessages (l.map Item.raw) = .ok b := by
  induction l with
  | nil => exact ⟨_, rfl⟩
  | cons row l ih =>
    obtain ⟨t, ht⟩ := ih fun x hx => h x (List.mem_cons_of_mem _ hx)
    have hr := h row (List.mem_cons_self ..)
    have hc : ((256 : Int) ^ 4) = 4294967296 := by decide
    have hp : ∃ w, packS 4 ((row.length : Int) + 4) = .ok w := by
      unfold packS
      rw [hc, if_pos (by omega)]
      exact ⟨_, rfl⟩
    obtain ⟨w, hw⟩ := hp
    have hw' : longPack ((row.length : Int) + 4) = .ok w := hw
    refine ⟨100 :: (w ++ row) ++ t, ?_⟩
    rw [List.map_cons, catMessages, itemBytes, hw', bind_ok, pure_ok, bind_ok, ht, bind_ok, pure_ok]

/-- The manager's transformer has no reason to raise. -/
def Easy (src : Proto) (protocols : List Proto) (d : Data) : Prop :=
  (src = .pq ∧ .chunks ∉ protocols) ∨ (src = .chunks ∧ ∃ l, d = .rows l ∧ ∀ row ∈ l, row.length + 4 < 2147483648)

theorem transform_easy {m : Mgr} {d : Data} (h : Easy m.src m.protocols d) : ∃ t, transform m d = .ok t := by
  unfold transform forTarget
  rcases h with ⟨hs, hp⟩ | ⟨hs, l, rfl, hl⟩
  · rw [if_neg hp, hs]
    by_cases hq : Proto.pq ∈ m.protocols
    · rw [if_pos hq]
      cases d <;> exact ⟨_, rfl⟩
    · rw [if_neg hq]
      exact ⟨_, rfl⟩
  · obtain ⟨b, hb⟩ := catMessages_fits l hl
    have h1 : transformTo m.src (.rows l) m.buf .pq = .ok (.bytes b, m.buf) := by
      rw [hs]; simp only [transformTo]; rw [hb, bind_ok, pure_ok]
    have h2 : transformTo m.src (.rows l) m.buf .chunks = .ok (.rows l, m.buf) := by rw [hs]; rfl
    rw [h1, h2]
    by_cases hq : Proto.pq ∈ m.protocols <;> by_cases hq2 : Proto.chunks ∈ m.protocols <;>
      (first | rw [if_pos hq] | rw [if_neg hq]) <;> (first | rw [if_pos hq2] | rw [if_neg hq2]) <;> exact ⟨_, rfl⟩

theorem step_easy {m : Mgr} {d : Data} {s : List PEvent} (hne : m.rcvs ≠ []) (hs : ∀ r ∈ m.rcvs, Sound r) (hsc : m.script = .data d :: s)
    (he : Easy m.src m.protocols d) :
    ∃ m1, step m = (.ok, m1) ∧ m1.script = s ∧ m1.src = m.src ∧ m1.protocols = m.protocols ∧ m1.rcvs ≠ [] ∧ ∀ r ∈ m1.rcvs, Sound r := by
  obtain ⟨⟨a, b, buf⟩, ht⟩ := @transform_easy { m with script := s } d he
  have hact : ¬ (m.rcvs.all (fun r => !r.active) = true) := by
    intro hall
    obtain ⟨r, hr⟩ := List.exists_mem_of_ne_nil _ hne
    have := List.all_eq_true.1 hall r hr
    rw [(hs r hr).1] at this
    cases this
  have hsp : serviceProducer m = (.ok, { m with script := s, buf := buf, log := m.log ++ [d], rcvs := m.rcvs.map fun r => if r.active then accept r (forRcv a b r) else r }) := by
    unfold serviceProducer
    rw [if_neg hact, hsc]
    dsimp only
    rw [ht]
  have hs2 : ∀ r ∈ m.rcvs.map (fun r => if r.active then accept r (forRcv a b r) else r), Sound r := by
    intro r hr
    obtain ⟨q, hq, rfl⟩ := List.mem_map.1 hr
    split
    · exact sound_accept _ (hs q hq)
    · exact hs q hq
  have hany : ¬ ((m.rcvs.map fun r => if r.active then accept r (forRcv a b r) else r).any (fun r => r.active && !(transmit r).1) = true) := by
    intro hany
    obtain ⟨r, hr, hx⟩ := List.any_eq_true.1 hany
    rw [(sound_serve (hs2 r hr)).1] at hx
    simp at hx
  refine ⟨{ m with script := s, buf := buf, log := m.log ++ [d], rcvs := (m.rcvs.map fun r => if r.active then accept r (forRcv a b r) else r).map serve },
    by rw [step_of_ok hsp]; unfold serviceReceivers; dsimp only; rw [if_neg hany], rfl, rfl, rfl, ?_, ?_⟩
  · simpa using hne
  · intro r hr
    obtain ⟨q, hq, rfl⟩ := List.mem_map.1 hr
    exact (sound_serve (hs2 q hq)).2

theorem runLoop_easy (pre : List Data) : ∀ (fuel : Nat) (m : Mgr), pre.length < fuel → m.rcvs ≠ [] → (∀ r ∈ m.rcvs, Sound r) →
    m.script = pre.map PEvent.data ++ [.stop] → (∀ d ∈ pre, Easy m.src m.protocols d) →
    ∃ m1, runLoop fuel m = (.stop, m1) ∧ m1.script = [] ∧ m1.seen = true ∧ m1.rcvs ≠ [] ∧ ∀ r ∈ m1.rcvs, Sound r := by
  induction pre with
  | nil =>
    intro fuel m hf hne hs hsc _
    obtain ⟨fuel, rfl⟩ : ∃ k, fuel = k + 1 := ⟨fuel - 1, by simp at hf; omega⟩
    have hact : ¬ (m.rcvs.all (fun r => !r.active) = true) := by
      intro hall
      obtain ⟨r, hr⟩ := List.exists_mem_of_ne_nil _ hne
      have := List.all_eq_true.1 hall r hr
      rw [(hs r hr).1] at this
      cases this
    have hsp : serviceProducer m = (.stop, { m with seen := true, script := [] }) := by
      unfold serviceProducer
      rw [if_neg hact, hsc]
      rfl
    refine ⟨{ m with seen := true, script := [] }, ?_, rfl, rfl, hne, hs⟩
    rw [runLoop, step_of_not hsp (by decide)]
  | cons d pre ih =>
    intro fuel m hf hne hs hsc he
    obtain ⟨fuel, rfl⟩ : ∃ k, fuel = k + 1 := ⟨fuel - 1, by simp at hf; omega⟩
    obtain ⟨m1, h1, h2, h3, h4, h5, h6⟩ := step_easy hne hs hsc (he d (List.mem_cons_self ..))
    obtain ⟨m2, g1, g2⟩ := ih fuel m1 (by simp at hf; omega) h5 h6 h2 (by rw [h3, h4]; exact fun x hx => he x (List.mem_cons_of_mem _ hx))
    exact ⟨m2, by rw [runLoop, h1]; exact g1, g2⟩

/-- C35: when nothing goes wrong, `run` completes, however many bytes each send takes (with `C35_success`: every receiver has everything). -/
theorem C35_completes (src : Proto) (pre : List Data) (rcvs : List Rcv) (hne : rcvs ≠ []) (hs : ∀ r ∈ rcvs, Sound r ∧ r.enterRaises = false)
    (he : ∀ d ∈ pre, Easy src (rcvs.map Rcv.proto) d) :
    ∃ m', run (Mgr.new src (pre.map PEvent.data ++ [.stop]) rcvs) {} = (.ok, m') := by
  obtain ⟨m1, h1, h2, h3, h4, h5⟩ := runLoop_easy pre ((Mgr.new src (pre.map PEvent.data ++ [.stop]) rcvs).script.length + 1)
    (Mgr.new src (pre.map PEvent.data ++ [.stop]) rcvs) (by simp [Mgr.new]; omega) hne (fun r hr => (hs r hr).1) rfl he
  have hact : ¬ (m1.rcvs.all (fun r => !r.active) = true) := by
    intro hall
    obtain ⟨r, hr⟩ := List.exists_mem_of_ne_nil _ h4
    have := List.all_eq_true.1 hall r hr
    rw [(h5 r hr).1] at this
    cases this
  have hen : ¬ (enterFails (Mgr.new src (pre.map PEvent.data ++ [.stop]) rcvs) = true) := by
    intro hx
    obtain ⟨r, hr, hx⟩ := List.any_eq_true.1 hx
    rw [(hs r hr).2] at hx
    cases hx
  unfold run
  rw [if_neg hen, h1]
  dsimp only
  have hre : realignStep m1 {} = (false, { m1 with seen := true, script := [] }) := by
    unfold realignStep
    rw [if_neg (by decide)]
    have : serviceProducer { m1 with script := ({} : ProdExit).realigned.getD m1.script } = (.stop, { m1 with seen := true, script := [] }) := by
      unfold serviceProducer
      rw [if_neg hact]
      dsimp only [Option.getD]
      rw [h2]
    rw [this]
  unfold leave
  rw [hre]
  dsimp only
  rw [if_neg hact, if_neg ?_]
  · exact ⟨_, rfl⟩
  · intro hx
    simp only [Bool.or_false, Bool.not_true, Bool.false_or] at hx
    obtain ⟨r, hr, hx⟩ := List.any_eq_true.1 hx
    rw [(h5 r hr).2.2.2] at hx
    simp at hx

/-- Finding: a receiver added back only after a further step has lost what was produced in between (here `[2]`), and nothing says so: the
COPY goes on and completes. -/
theorem C35_late_reconcile : ∃ (rcvs : List Rcv) (ops : List Op) (r : Rcv),
    (ops.foldl apply (Mgr.new .pq [.data (.bytes [1]), .data (.bytes [2]), .data (.bytes [3]), .stop] rcvs)).rcvs[0]? = some r ∧
    r.active = true ∧ r.sent = [1, 3] ∧
    (leave (ops.foldl apply (Mgr.new .pq [.data (.bytes [1]), .data (.bytes [2]), .data (.bytes [3]), .stop] rcvs)) {} false).1 = .ok :=
  ⟨[{ proto := .pq, sends := [.fault] }, { proto := .pq }], [.next, .next, .reconcile 0, .next, .next], _, rfl, by decide +kernel⟩

/-- Finding: leaving the block early, between two messages, without an exception, counts as a success: realigning makes the producer end, and that is
taken for the end of its data.  Here one of two messages was delivered, the COPY is reported as complete, and the receivers are told to commit. -/
theorem C35_early_leave : ∃ (rcvs : List Rcv) (ops : List Op) (pe : ProdExit) (d : Data) (s : List PEvent),
    pe.realigned = some [] ∧
    (ops.foldl apply (Mgr.new .pq [.data (.bytes [100, 0, 0, 0, 5, 1]), .data (.bytes [100, 0, 0, 0, 5, 2]), .stop] rcvs)).script = .data d :: s ∧
    (ops.foldl apply (Mgr.new .pq [.data (.bytes [100, 0, 0, 0, 5, 1]), .data (.bytes [100, 0, 0, 0, 5, 2]), .stop] rcvs)).rcvs.map Rcv.sent = [[100, 0, 0, 0, 5, 1]] ∧
    (leave (ops.foldl apply (Mgr.new .pq [.data (.bytes [100, 0, 0, 0, 5, 1]), .data (.bytes [100, 0, 0, 0, 5, 2]), .stop] rcvs)) pe false).1 = .ok :=
  ⟨[{ proto := .pq }], [.next], { realigned := some [] }, .bytes [100, 0, 0, 0, 5, 2], [.stop], rfl, by decide +kernel, by decide +kernel, by decide +kernel⟩

/-- A concrete case: a receiver of protocol data whose socket takes a byte and fails, and a receiver of rows; the first is added back and
both have everything. -/
example : ∃ (rcvs : List Rcv) (ops : List Op), (∀ r ∈ rcvs, Fresh r) ∧ (∃ r, rcvs[0]? = some r ∧ r.sends = [.took 1, .fault]) ∧
    Prompt 0 (Mgr.new .chunks [.data (.rows [[65]]), .data (.rows [[66]]), .stop] rcvs) ops ∧
    (ops.foldl apply (Mgr.new .chunks [.data (.rows [[65]]), .data (.rows [[66]]), .stop] rcvs)).rcvs.map Rcv.sent
      = [[100, 0, 0, 0, 5, 65, 100, 0, 0, 0, 5, 66], []] ∧
    (ops.foldl apply (Mgr.new .chunks [.data (.rows [[65]]), .data (.rows [[66]]), .stop] rcvs)).rcvs.map Rcv.got = [[], [[[65]], [[66]]]] := by
  refine ⟨[{ proto := .pq, sends := [.took 1, .fault] }, { proto := .chunks }], [.next, .reconcile 0, .next, .next], ?_, ⟨_, rfl, rfl⟩, ?_,
    by decide +kernel, by decide +kernel⟩
  · intro r hr
    simp only [List.mem_cons, List.not_mem_nil, or_false] at hr
    rcases hr with rfl | rfl <;> exact ⟨rfl, rfl, rfl, rfl, rfl⟩
  · refine ⟨⟨_, rfl, rfl⟩, ⟨_, rfl, by decide +kernel⟩, ⟨_, rfl, by decide +kernel⟩, trivial⟩

/-- A concrete case of a run that completes. -/
example : (run (Mgr.new .chunks [.data (.rows [[65]]), .data (.rows [[66]]), .stop] [{ proto := .pq, sends := [.took 1, .took 3] }, { proto := .null }]) {}).1 = .ok := by
  decide +kernel


theorem leave_snd (m : Mgr) (pe : ProdExit) (exc : Bool) : (leave m pe exc).2 = (realignStep m pe).2 := by
  unfold leave
  generalize realignStep m pe = q
  obtain ⟨a, b⟩ := q
  dsimp only
  split
  · rfl
  · split <;> rfl

theorem apply_const (op : Op) (m : Mgr) : (apply m op).src = m.src ∧ (apply m op).protocols = m.protocols := by
  cases op with
  | next =>
    show (step m).2.src = _ ∧ (step m).2.protocols = _
    have hkeep : (serviceProducer m).2.src = m.src ∧ (serviceProducer m).2.protocols = m.protocols := by
      unfold serviceProducer
      split
      · exact ⟨rfl, rfl⟩
      · split
        · exact ⟨rfl, rfl⟩
        · exact ⟨rfl, rfl⟩
        · exact ⟨rfl, rfl⟩
        · dsimp only
          split <;> exact ⟨rfl, rfl⟩
    generalize hsp : serviceProducer m = sp at hkeep
    obtain ⟨res, m1⟩ := sp
    by_cases hres : res = .ok
    · subst hres
      rw [step_of_ok hsp]
      unfold serviceReceivers
      dsimp only
      split <;> exact hkeep
    · rw [step_of_not hsp hres]; exact hkeep
  | reconcile j =>
    show (reconcile m j).2.src = _ ∧ (reconcile m j).2.protocols = _
    unfold reconcile
    split
    · exact ⟨rfl, rfl⟩
    · split
      · split <;> exact ⟨rfl, rfl⟩
      · exact ⟨rfl, rfl⟩

theorem ops_const (ops : List Op) : ∀ m : Mgr, (ops.foldl apply m).src = m.src ∧ (ops.foldl apply m).protocols = m.protocols := by
  induction ops with
  | nil => intro m; exact ⟨rfl, rfl⟩
  | cons op ops ih =>
    intro m
    rw [List.foldl_cons, (ih _).1, (ih _).2]
    exact apply_const op m

/-- C35: when the COPY is left anywhere in the stream, what realigning the producer adds puts every receiver of protocol data that is
still in the set on a message boundary: it has, or holds for its connection, the messages that were complete and at most one more. -/
theorem C35_aligned (script : List PEvent) (rcvs : List Rcv) (i : Nat) (r : Rcv) (ops : List Op) (exc : Bool) (chunks rows : List Bytes) (rest : Bytes)
    (hty : ∀ d, .data d ∈ script → Typed .pq d) (hi : rcvs[i]? = some r) (hf : Fresh r) (hq : r.proto = .pq)
    (hnc : Proto.chunks ∉ rcvs.map Rcv.proto)
    (hp : Prompt i (Mgr.new .pq script rcvs) ops)
    (hact : ∃ r', (ops.foldl apply (Mgr.new .pq script rcvs)).rcvs[i]? = some r' ∧ r'.active = true)
    (hlog : (ops.foldl apply (Mgr.new .pq script rcvs)).log = chunks.map Data.bytes)
    (hpos : Position chunks.flatten rows rest) (hr : ¬ Foreign rest) :
    ∃ s n back fill r' last, track WS.init chunks = .ok (s, n) ∧ realign (some s) = .ok (back, fill) ∧
      (leave (ops.foldl apply (Mgr.new .pq script rcvs)) { realigned := some (if fill = [] then [] else [.data (.bytes fill)]) } exc).2.rcvs[i]? = some r' ∧
      r'.sent ++ r'.view = copyFrames (rows ++ last) ∧ last.length ≤ 1 ∧ (∀ row ∈ last, RowFits row) := by
  obtain ⟨hup, hrd⟩ := new_up hty hi hf
  obtain ⟨hd, q, h, hpr⟩ := ops_up ops hup hrd hp
  obtain ⟨q', hq', ha⟩ := hact
  obtain rfl : q' = q := Option.some.inj (hq'.symm.trans h.at_)
  obtain ⟨hsrc, hproto⟩ := ops_const ops (Mgr.new .pq script rcvs)
  obtain ⟨s, n, back, fill, ht, hre, ⟨last, hl, hl1, _, hl3⟩, _⟩ := PG.Props.CopyMan.C34_realign chunks rows rest hpos hr
  generalize ops.foldl apply (Mgr.new .pq script rcvs) = m at *
  have hidle := h.idle ha
  have hhas : q'.sent = chunks.flatten := by
    have := h.has.pq (hpr.trans hq)
    rw [holds, hidle.1, List.append_nil, hlog] at this
    rw [this, List.flatMap_map]
    simp [wireOf, List.flatMap_id']
  have hnot : ¬ (m.rcvs.all (fun r => !r.active) = true) := by
    intro hall
    have := List.all_eq_true.1 hall q' (List.mem_of_getElem? h.at_)
    rw [ha] at this
    cases this
  by_cases hfe : fill = []
  · subst hfe
    refine ⟨s, n, back, [], q', last, ht, hre, ?_, ?_, hl1, hl3⟩
    · rw [leave_snd, if_pos rfl]
      unfold realignStep
      rw [if_neg (by simp)]
      have : serviceProducer { m with script := (some ([] : List PEvent)).getD m.script } = (.stop, { m with script := [], seen := true }) := by
        unfold serviceProducer
        rw [if_neg hnot]
        rfl
      dsimp only
      rw [this]
      exact h.at_
    · rw [hhas, hidle.1, ← hl]
  · refine ⟨s, n, back, fill, { q' with view := fill }, last, ht, hre, ?_, ?_, hl1, hl3⟩
    · rw [leave_snd, if_neg hfe]
      unfold realignStep
      rw [if_neg (by simp)]
      have hpm : Proto.pq ∈ m.protocols := by
        have := h.proto
        rwa [hpr, hq] at this
      have htr : ∀ m' : Mgr, m'.src = m.src → m'.protocols = m.protocols → transform m' (.bytes fill) = .ok (.bytes fill, .nothing, m'.buf) := by
        intro m' h1 h2
        unfold transform forTarget
        rw [h2, if_pos hpm, if_neg (by rw [hproto]; exact hnc), h1, hsrc]
        rfl
      have : serviceProducer { m with script := (some [PEvent.data (.bytes fill)]).getD m.script } = (.ok, { m with script := [], log := m.log ++ [.bytes fill], rcvs := m.rcvs.map fun r => if r.active then accept r (forRcv (.bytes fill) .nothing r) else r }) := by
        unfold serviceProducer
        rw [if_neg hnot]
        dsimp only [Option.getD]
        rw [htr { m with script := [] } rfl rfl]
      dsimp only
      rw [this]
      dsimp only
      rw [List.getElem?_map, h.at_]
      obtain ⟨proto, view, lines, sends, cs, sent, got, active, en, ex⟩ := q'
      dsimp only at ha
      subst ha
      have hpp : proto = .pq := hpr.trans hq
      subst hpp
      rfl
    · dsimp only
      rw [hhas, ← hl]

end PG.Props.CopyManager
