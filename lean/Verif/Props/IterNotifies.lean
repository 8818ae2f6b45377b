import Verif.Model.IterNotifies
import Verif.Props.NotifyMan2
/-! # Timeouts, and `Connection.iternotifies` (C39) -/
namespace PG.NotifyMan
open PG
variable {α β : Type}

/-! ## Timeouts -/

/-- **C39 (timeout).** `settimeout` accepts `None` and numbers that are not negative, and then `gettimeout` gives what was set; a negative number raises, and nothing changes. -/
theorem C39_timeouts (st : State α β) (t : Option Int) : ((settimeout st t).1 = true ↔ ∀ x, t = some x → 0 ≤ x) ∧
    ((settimeout st t).1 = true → (gettimeout (settimeout st t).2).map Int.ofNat = t ∧ (settimeout st t).2 = { st with timeout := (settimeout st t).2.timeout }) ∧
    ((settimeout st t).1 = false → (settimeout st t).2 = st) := by
  unfold settimeout gettimeout
  cases t with
  | none => simp
  | some x =>
    by_cases hx : x < 0
    · simp [hx]
    · have : 0 ≤ x := by omega
      have e : max x 0 = x := by omega
      simp [hx, this, e]

example : (settimeout (init [0] none fun _ => []) (some (-1)) : Bool × State Nat Nat).1 = false ∧ gettimeout (settimeout (init [0] none fun _ => [] : State Nat Nat) (some 7)).2 = some 7 := by decide

/-! ## One connection -/

/-- The manager has only the one connection, and nothing is queued. -/
structure Quiet (st : State α β) : Prop where
  conns : ∀ i ∈ st.connections, i = 0
  pulled : st.pulled = []
  incoming : st.incoming = none ∨ st.incoming = some []

/-- The same, or one event of this connection is queued. -/
structure Ready (st : State α β) : Prop where
  conns : ∀ i ∈ st.connections, i = 0
  pulled : st.pulled = []
  incoming : st.incoming = none ∨ st.incoming = some [] ∨ ∃ l, st.incoming = some [(0, l)]

theorem Quiet.ready {st : State α β} (h : Quiet st) : Ready st := ⟨h.conns, h.pulled, h.incoming.imp_right .inl⟩

theorem pull_one (dec : α → Option β) : ∀ (order : List Nat) (st : State α β), (∀ i ∈ order, i = 0) → st.pulled = [] →
    ((pull dec st order).1 = true ∧ ((pull dec st order).2.pulled = [] ∨ ∃ l, (pull dec st order).2.pulled = [(0, l)])) ∨ pull dec st order = (false, st)
  | [], st, _, hp => Or.inl ⟨rfl, Or.inl hp⟩
  | db :: order, st, h, hp => by
    obtain rfl : db = 0 := h db (by simp)
    have ho : ∀ i ∈ order, i = 0 := fun i hi => h i (by simp [hi])
    unfold pull
    split
    · exact pull_one dec order st ho hp
    · split
      · exact Or.inr rfl
      · rename_i l hl
        left
        rw [pull_nil]
        · refine ⟨rfl, Or.inr ⟨l, ?_⟩⟩
          show queue st.pulled 0 l = _
          rw [hp]
          rfl
        · intro i hi
          obtain rfl := ho i hi
          dsimp only
          rw [if_pos rfl]
          have := congrArg List.length (mapM_some dec _ _ hl)
          simp only [List.length_map] at this
          simp [this]

theorem wired_conns (s : State α β) (c : Bool) (p : Pass α) : (∀ i ∈ (wired s c p).connections, i ∈ s.connections) ∧ (wired s c p).pulled = s.pulled ∧ (wired s c p).incoming = s.incoming := by
  unfold wired
  split
  · exact ⟨fun i => (wait_sub s p i).1, rfl, rfl⟩
  · exact ⟨fun _ h => h, rfl, rfl⟩

theorem front_ready {st : State α β} (h : Ready st) : (∀ r, front st = .inl r → Quiet r.2 ∧ ∀ db l, r.1 = .event db l → db = 0) ∧
    ∀ s, front st = .inr s → Quiet s ∧ s.incoming = none := by
  constructor
  · intro r hr
    rcases front_inl hr with ⟨db, l, rest, hi, rfl⟩ | ⟨hi, _, rfl⟩
    · rcases h.incoming with h' | h' | ⟨l', h'⟩
      · rw [hi] at h'; simp at h'
      · rw [hi] at h'; simp at h'
      · rw [hi] at h'
        obtain ⟨⟨rfl, rfl⟩, rfl⟩ : (db = 0 ∧ l = l') ∧ rest = [] := by simpa using h'
        refine ⟨⟨h.conns, h.pulled, Or.inr rfl⟩, ?_⟩
        intro db l' e
        injection e with e1 _
        exact e1.symm
    · exact ⟨⟨h.conns, h.pulled, Or.inl rfl⟩, by simp⟩
  · intro s hs
    obtain ⟨rfl, _⟩ := front_inr hs
    exact ⟨⟨h.conns, h.pulled, Or.inl rfl⟩, rfl⟩

theorem body_ready (dec : α → Option β) {st : State α β} (h : Quiet st) (hi : st.incoming = none) (c : Bool) (p : Pass α) :
    (∀ r, body dec st c p = .inl r → Quiet r.2) ∧ ∀ r, body dec st c p = .inr r → Ready r.2 := by
  have key : (timedout st p.now).1 = false → Quiet (wired (timedout st p.now).2 c p) ∧ (wired (timedout st p.now).2 c p).incoming = none := by
    intro ht
    obtain ⟨w1, w2, w3⟩ := wired_conns (timedout st p.now).2 c p
    rw [timedout_false ht] at w1 w2 w3 ⊢
    exact ⟨⟨fun i hi' => h.conns i (w1 i hi'), w2.trans h.pulled, Or.inl (w3.trans hi)⟩, w3.trans hi⟩
  constructor
  · intro r hr
    rcases body_inl hr with ⟨rfl, _⟩ | ⟨ht, hf, rfl⟩
    · exact ⟨h.conns, h.pulled, h.incoming⟩
    · obtain ⟨k1, k2⟩ := key ht
      generalize wired (timedout st p.now).2 c p = s at hf k1
      rcases pull_one dec (p.order.filter (· ∈ s.connections)) s (fun i hi' => k1.conns i (by simpa using (List.mem_filter.mp hi').2)) k1.pulled with ⟨e, _⟩ | e
      · rw [e] at hf; cases hf
      · dsimp only
        rw [e]
        exact k1
  · intro r hr
    obtain ⟨ht, _, rfl⟩ := body_inr hr
    obtain ⟨k1, k2⟩ := key ht
    generalize wired (timedout st p.now).2 c p = s at k1 k2
    obtain ⟨f1, f2, f3, f4, f5, f6⟩ := pull_frame dec (p.order.filter (· ∈ s.connections)) s
    have hp := pull_one dec (p.order.filter (· ∈ s.connections)) s (fun i hi' => k1.conns i (by simpa using (List.mem_filter.mp hi').2)) k1.pulled
    generalize pull dec s (p.order.filter (· ∈ s.connections)) = q at f1 f2 f3 f4 f5 f6 hp
    have hq : q.2.pulled = [] ∨ ∃ l, q.2.pulled = [(0, l)] := by
      rcases hp with ⟨_, e⟩ | e
      · exact e
      · rw [e]; exact Or.inl k1.pulled
    dsimp only
    refine ⟨?_, (queueNext_frame q.2).2.2.2.2.2.2, ?_⟩
    · rw [(queueNext_frame q.2).2.2.1, f3]
      exact k1.conns
    · have hn := f5.trans k2
      rcases hq with e | ⟨l, e⟩
      · rw [queueNext_nil e hn]
        exact Or.inr (Or.inl rfl)
      · right; right
        refine ⟨l, ?_⟩
        unfold queueNext
        rw [if_pos (by simp [e]), hn]
        exact congrArg some e

theorem loop_ready (dec : α → Option β) : ∀ (ps : List (Pass α)) (st : State α β) (c : Bool), Ready st →
    Quiet (loop dec st c ps).2 ∧ ∀ db l, (loop dec st c ps).1 = .event db l → db = 0
  | [], st, c, h => by
    obtain ⟨h1, h2⟩ := front_ready h
    unfold loop
    split
    · rename_i r hr
      exact h1 r hr
    · rename_i s hs
      exact ⟨(h2 s hs).1, by simp⟩
  | p :: ps, st, c, h => by
    obtain ⟨h1, h2⟩ := front_ready h
    unfold loop
    split
    · rename_i r hr
      exact h1 r hr
    · rename_i s hs
      obtain ⟨g1, g2⟩ := body_ready dec (h2 s hs).1 (h2 s hs).2 c p
      split
      · rename_i r hr
        refine ⟨g1 r hr, ?_⟩
        intro db l e
        rcases body_inl hr with ⟨rfl, _⟩ | ⟨_, _, rfl⟩ <;> cases e
      · rename_i c' s' hr
        exact loop_ready dec ps s' c' (g2 _ hr)

theorem Quiet.queued {st : State α β} (h : Quiet st) (i : Nat) : st.queued i = [] := by
  unfold State.queued
  rw [h.pulled]
  rcases h.incoming with e | e <;> rw [e] <;> rfl

/-! ## The generator -/

/-- The notifications among what the generator gave. -/
def notifications : List (Given β) → List β
  | [] => []
  | .notify x :: l => x :: notifications l
  | _ :: l => notifications l

/-- What the connection ever received. -/
def Gen.received : Gen α β → List α
  | .fresh _ before => before
  | .at st _ => st.received 0
  | .ended r _ => r

/-- What lies at the connection. -/
def Gen.notifies : Gen α β → List α
  | .fresh _ before => before
  | .at st _ => st.notifies 0
  | .ended _ n => n

/-- What the generator has taken from the connection and not given yet. -/
def Gen.left : Gen α β → List β
  | .at _ left => left
  | _ => []

/-- `given` has been given. -/
def Sound (dec : α → Option β) (given : List β) : Gen α β → Prop
  | .fresh _ _ => given = []
  | .at st left => Quiet st ∧ ∃ D, Inv dec D st ∧ D 0 = given ++ left
  | .ended r n => ∃ taken, r = taken ++ n ∧ taken.map dec = given.map some

theorem Sound.account {dec : α → Option β} {given : List β} {g : Gen α β} (h : Sound dec given g) : ∃ taken, g.received = taken ++ g.notifies ∧ taken.map dec = (given ++ g.left).map some := by
  cases g with
  | fresh t b => exact ⟨[], rfl, by rw [show given = [] from h]; rfl⟩
  | «at» st left =>
    obtain ⟨hq, D, hD, e⟩ := h
    obtain ⟨t, h1, h2⟩ := hD.account 0
    rw [hq.queued 0, List.append_nil, e] at h2
    exact ⟨t, h1, h2⟩
  | ended r n =>
    obtain ⟨t, h1, h2⟩ := h
    exact ⟨t, h1, by rw [h2]; simp [Gen.left]⟩

theorem sound_ended {dec : α → Option β} {D : Nat → List β} {st : State α β} {given : List β} (h : Inv dec D st) (hq : Quiet st) (e : D 0 = given) : Sound dec given (.ended (st.received 0) (st.notifies 0) : Gen α β) := by
  obtain ⟨t, h1, h2⟩ := h.account 0
  rw [hq.queued 0, List.append_nil, e] at h2
  exact ⟨t, h1, h2⟩

theorem sound_resume (dec : α → Option β) {given : List β} : ∀ (pss : List (List (Pass α))) {st : State α β} {D : Nat → List β}, Quiet st → Inv dec D st → D 0 = given →
    Sound dec (given ++ notifications [(resume dec st pss).1]) (resume dec st pss).2
  | [], st, D, hq, h, e => by
    show Sound dec (given ++ []) _
    rw [List.append_nil]
    exact ⟨hq, D, h, by rw [e]; simp⟩
  | ps :: pss, st, D, hq, h, e => by
    obtain ⟨i1, i2⟩ := inv_loop dec ps true h
    obtain ⟨q1, q2⟩ := loop_ready dec ps st true hq.ready
    rw [show loop dec st true ps = next dec st ps from rfl] at i1 i2 q1 q2
    unfold resume
    generalize hr : next dec st ps = r at i1 i2 q1 q2
    obtain ⟨o, s⟩ := r
    dsimp only at i1 i2 q1 q2
    cases o with
    | event db l =>
      obtain rfl := q2 db l rfl
      cases l with
      | nil => exact absurd rfl (i2 0 [] rfl)
      | cons y ys =>
        refine ⟨q1, _, i1, ?_⟩
        show D 0 ++ delivered 0 [Out.event 0 (y :: ys)] = given ++ [y] ++ ys
        rw [e]
        simp [delivered]
    | idle =>
      rw [plus_none _ _ (by simp)] at i1
      exact ⟨q1, D, i1, by rw [e]; simp [notifications]⟩
    | waiting =>
      rw [plus_none _ _ (by simp)] at i1
      exact ⟨q1, D, i1, by rw [e]; simp [notifications]⟩
    | stop =>
      rw [plus_none _ _ (by simp)] at i1
      exact sound_ended i1 q1 (by rw [e]; simp [notifications])
    | raised =>
      rw [plus_none _ _ (by simp)] at i1
      exact sound_ended i1 q1 (by rw [e]; simp [notifications])

theorem quiet_init (t : Option Nat) (before : Nat → List α) : Quiet (init [0] t before : State α β) := ⟨by simp [init], rfl, Or.inl rfl⟩

theorem sound_give (dec : α → Option β) {given : List β} (pss : List (List (Pass α))) {g : Gen α β} (h : Sound dec given g) :
    Sound dec (given ++ notifications [(give dec pss g).1]) (give dec pss g).2 := by
  cases g with
  | fresh t b =>
    have hg : given = [] := h
    subst hg
    unfold give
    split
    · exact sound_resume dec pss (quiet_init _ _) (inv_init dec _ _ _) rfl
    · rename_i e
      cases e
      split
      · exact ⟨[], rfl, rfl⟩
      · exact sound_resume dec pss (quiet_init _ _) (inv_init dec _ _ _) rfl
    · rename_i e; cases e
    · rename_i e; cases e
    · rename_i e; cases e
  | «at» st left =>
    obtain ⟨hq, D, hD, e⟩ := h
    cases left with
    | nil => exact sound_resume dec pss hq hD (by simpa using e)
    | cons y ys => exact ⟨hq, D, hD, by rw [e]; show _ = given ++ [y] ++ ys; simp⟩
  | ended r n => simpa [give, notifications] using h

theorem sound_collect {dec : α → Option β} {given : List β} (l : List α) {g : Gen α β} (h : Sound dec given g) : Sound dec given (collect l g) := by
  cases g with
  | fresh t b => exact h
  | «at» st left =>
    obtain ⟨hq, D, hD, e⟩ := h
    refine ⟨⟨hq.conns, hq.pulled, hq.incoming⟩, D, ⟨fun i => ?_, hD.nodup, hD.full⟩, e⟩
    obtain ⟨t, h1, h2⟩ := hD.account i
    refine ⟨t, ?_, h2⟩
    dsimp only
    by_cases hi : i = 0
    · subst hi; rw [if_pos rfl, if_pos rfl, h1, List.append_assoc]
    · rw [if_neg hi, if_neg hi, h1]
  | ended r n =>
    obtain ⟨t, h1, h2⟩ := h
    exact ⟨t, by rw [h1, List.append_assoc], h2⟩

theorem notifications_cons (x : Given β) (l : List (Given β)) : notifications (x :: l) = notifications [x] ++ notifications l := by
  cases x <;> rfl

theorem sound_uses (dec : α → Option β) : ∀ (us : List (Use α)) {given : List β} {g : Gen α β}, Sound dec given g →
    Sound dec (given ++ notifications (uses dec us g).1) (uses dec us g).2
  | [], given, g, h => by simpa [uses, notifications] using h
  | .take pss :: us, given, g, h => by
    have := sound_uses dec us (sound_give dec pss h)
    rw [List.append_assoc, ← notifications_cons] at this
    exact this
  | .collects l :: us, given, g, h => sound_uses dec us (sound_collect l h)

/-- **C39 (iternotifies).** Whatever timeout is given, whatever the program does with the connection between the items, whatever arrives when: the notifications that the connection received
are, in order, those that the generator gave (decoded), those it has taken and not given yet, and those that are still at the connection. -/
theorem C39_iter (dec : α → Option β) (timeout : Option Int) (before : List α) (program : List (Use α)) :
    let r := uses dec program (.fresh timeout before : Gen α β)
    ∃ given left, r.2.received = given ++ left ++ r.2.notifies ∧ given.map dec = (notifications r.1).map some ∧ left.map dec = r.2.left.map some := by
  obtain ⟨t, h1, h2⟩ := (sound_uses dec program (g := (.fresh timeout before : Gen α β)) (given := []) rfl).account
  rw [List.nil_append, List.map_append] at h2
  refine ⟨t.take (notifications (uses dec program (.fresh timeout before : Gen α β)).1).length, t.drop (notifications (uses dec program (.fresh timeout before : Gen α β)).1).length, ?_, ?_, ?_⟩
  · rw [List.take_append_drop]; exact h1
  · rw [List.map_take, h2]; simp
  · rw [List.map_drop, h2]; simp

/-- The generator has returned or was left by an exception. -/
def Gen.Done (g : Gen α β) : Prop := ∃ r n, g = .ended r n

/-- **C39 (iternotifies ends).** The generator is done exactly after StopIteration or an exception; then it gives StopIteration for ever and takes nothing, and what it took before has all been given. A negative
timeout raises at the first item, before anything is taken. -/
theorem C39_iter_done (dec : α → Option β) (pss : List (List (Pass α))) (g : Gen α β) :
    ((give dec pss g).2.Done ↔ (give dec pss g).1 = .stop ∨ (give dec pss g).1 = .valueError ∨ (give dec pss g).1 = .raised) ∧
    (g.Done → give dec pss g = (.stop, g) ∧ g.left = []) ∧
    ((give dec pss g).1 = .valueError ↔ ∃ t before, g = .fresh (some t) before ∧ t < 0) ∧ ((give dec pss g).1 = .valueError → (give dec pss g).2.notifies = g.notifies) := by
  have hr : ∀ (pss : List (List (Pass α))) (st : State α β), ((resume dec st pss).2.Done ↔ (resume dec st pss).1 = .stop ∨ (resume dec st pss).1 = .valueError ∨ (resume dec st pss).1 = .raised) ∧ (resume dec st pss).1 ≠ .valueError := by
    intro pss
    induction pss with
    | nil => intro st; simp [resume, Gen.Done]
    | cons ps pss ih =>
      intro st
      unfold resume
      generalize next dec st ps = r
      obtain ⟨o, s⟩ := r
      cases o with
      | event db l =>
        cases l with
        | nil => exact ih s
        | cons y ys => simp [Gen.Done]
      | _ => simp [Gen.Done]
  have hd : ∀ r n, (Gen.ended r n : Gen α β).Done := fun r n => ⟨r, n, rfl⟩
  cases g with
  | fresh t b =>
    have hn : ¬ (Gen.fresh t b : Gen α β).Done := by rintro ⟨_, _, e⟩; cases e
    cases t with
    | none =>
      obtain ⟨a, c⟩ := hr pss (init [0] none fun _ => b)
      exact ⟨a, fun h => absurd h hn, ⟨fun h => absurd h c, by rintro ⟨_, _, e, _⟩; cases e⟩, fun h => absurd h c⟩
    | some t =>
      by_cases ht : t < 0
      · have e : give dec pss (.fresh (some t) b : Gen α β) = (.valueError, .ended b b) := if_pos ht
        rw [e]
        exact ⟨⟨fun _ => Or.inr (Or.inl rfl), fun _ => hd _ _⟩, fun h => absurd h hn, ⟨fun _ => ⟨t, b, rfl, ht⟩, fun _ => rfl⟩, fun _ => rfl⟩
      · have e : give dec pss (.fresh (some t) b : Gen α β) = resume dec (init [0] (some t.toNat) fun _ => b) pss := if_neg ht
        rw [e]
        obtain ⟨a, c⟩ := hr pss (init [0] (some t.toNat) fun _ => b)
        exact ⟨a, fun h => absurd h hn, ⟨fun h => absurd h c, by rintro ⟨t', _, e, h⟩; cases e; exact absurd h ht⟩, fun h => absurd h c⟩
  | «at» st left =>
    have hn : ¬ (Gen.at st left : Gen α β).Done := by rintro ⟨_, _, e⟩; cases e
    cases left with
    | nil =>
      obtain ⟨a, c⟩ := hr pss st
      exact ⟨a, fun h => absurd h hn, ⟨fun h => absurd h c, by rintro ⟨_, _, e, _⟩; cases e⟩, fun h => absurd h c⟩
    | cons y ys =>
      refine ⟨⟨(by rintro ⟨_, _, e⟩; cases e), (by rintro (e | e | e) <;> cases e)⟩, fun h => absurd h hn, ⟨(by intro e; cases e), by rintro ⟨_, _, e, _⟩; cases e⟩, by intro e; cases e⟩
  | ended r n => exact ⟨⟨fun _ => Or.inl rfl, fun _ => hd _ _⟩, fun _ => ⟨rfl, rfl⟩, ⟨(by intro e; cases e), by rintro ⟨_, _, e, _⟩; cases e⟩, by intro e; cases e⟩

/-! ## It does not end by itself -/

/-- The connection is watched. -/
def Watched (st : State α β) : Prop := 0 ∈ st.connections ∧ 0 ∉ st.garbage

theorem watched_wait {st : State α β} {p : Pass α} (h : Watched st) (ha : p.Alive 0) : Watched (waitOnWires st p) := by
  refine ⟨(wait_conn st p 0 h.1 h.2 ha).1, ?_⟩
  obtain ⟨h1, h2, h3⟩ := ha
  simp only [waitOnWires, trash, mem_union, List.mem_append, List.mem_filter, mem_minus]
  simp [h.2, h1, h2, h3]

theorem watched_loop (dec : α → Option β) : ∀ (ps : List (Pass α)) (st : State α β) (c : Bool), (∀ p ∈ ps, p.Alive 0) → Watched st →
    Watched (loop dec st c ps).2 ∧ (loop dec st c ps).2.timeout = st.timeout
  | ps, st, c, ha, h => by
    have hf : ∀ r, front st = .inl r → Watched r.2 ∧ r.2.timeout = st.timeout := by
      intro r hr
      rcases front_inl hr with ⟨_, _, _, _, rfl⟩ | ⟨_, _, rfl⟩ <;> exact ⟨h, rfl⟩
    have hf' : ∀ s, front st = .inr s → Watched s ∧ s.timeout = st.timeout := by
      intro s hs
      obtain ⟨rfl, _⟩ := front_inr hs
      exact ⟨h, rfl⟩
    cases ps with
    | nil =>
      unfold loop
      split
      · rename_i r hr; exact hf r hr
      · rename_i s hs; exact hf' s hs
    | cons p ps =>
      unfold loop
      split
      · rename_i r hr; exact hf r hr
      · rename_i s hs
        obtain ⟨w, wt⟩ := hf' s hs
        have hw : (timedout s p.now).1 = false → Watched (wired (timedout s p.now).2 c p) ∧ (wired (timedout s p.now).2 c p).timeout = st.timeout := by
          intro ht
          rw [wired_timeout, timedout_false ht]
          refine ⟨?_, wt⟩
          unfold wired
          split
          · exact watched_wait w (ha p (by simp))
          · exact w
        split
        · rename_i r hr
          rcases body_inl hr with ⟨rfl, _⟩ | ⟨ht, _, rfl⟩
          · exact ⟨w, wt⟩
          · obtain ⟨k1, k2⟩ := hw ht
            generalize wired (timedout s p.now).2 c p = s2 at k1 k2
            obtain ⟨f1, f2, f3, f4, f5, f6⟩ := pull_frame dec (p.order.filter (· ∈ s2.connections)) s2
            refine ⟨?_, f1.trans k2⟩
            unfold Watched
            dsimp only
            rw [f3, f4]
            exact k1
        · rename_i c' s' hr
          obtain ⟨ht, _, hr'⟩ := body_inr hr
          obtain ⟨-, rfl⟩ : c' = _ ∧ s' = _ := by simpa using hr'
          obtain ⟨k1, k2⟩ := hw ht
          generalize wired (timedout s p.now).2 c p = s2 at k1 k2
          obtain ⟨f1, f2, f3, f4, f5, f6⟩ := pull_frame dec (p.order.filter (· ∈ s2.connections)) s2
          generalize pull dec s2 (p.order.filter (· ∈ s2.connections)) = q at f1 f2 f3 f4 f5 f6
          have hq := queueNext_frame q.2
          obtain ⟨r1, r2⟩ := watched_loop dec ps (queueNext q.2) c' (fun p' hp' => ha p' (by simp [hp'])) (by unfold Watched; rw [hq.2.2.1, hq.2.2.2.1, f3, f4]; exact k1)
          exact ⟨r1, r2.trans (hq.1.trans (f1.trans k2))⟩

/-- The generator watches the connection, with this timeout. -/
def Live (timeout : Option Nat) : Gen α β → Prop
  | .fresh t _ => t = timeout.map Int.ofNat
  | .at st _ => Quiet st ∧ Watched st ∧ st.timeout = timeout
  | .ended _ _ => False

theorem live_resume (dec : α → Option β) {timeout : Option Nat} (ht : timeout ≠ some 0) : ∀ (pss : List (List (Pass α))) (st : State α β), (∀ ps ∈ pss, ∀ p ∈ ps, p.Alive 0) → Quiet st → Watched st → st.timeout = timeout →
    (resume dec st pss).1 = .raised ∨ ((resume dec st pss).1 ≠ .stop ∧ Live timeout (resume dec st pss).2)
  | [], st, _, hq, hw, e => Or.inr ⟨by simp [resume], hq, hw, e⟩
  | ps :: pss, st, ha, hq, hw, e => by
    have hstop := C39_stop dec ps st true (fun _ => hq.pulled)
    obtain ⟨w1, w2⟩ := watched_loop dec ps st true (ha ps (by simp)) hw
    obtain ⟨q1, q2⟩ := loop_ready dec ps st true hq.ready
    rw [show loop dec st true ps = next dec st ps from rfl] at hstop w1 w2 q1 q2
    unfold resume
    generalize next dec st ps = r at hstop w1 w2 q1 q2
    obtain ⟨o, s⟩ := r
    dsimp only at hstop w1 w2 q1 q2
    have hl : ∀ left, Live timeout (.at s left : Gen α β) := fun left => ⟨q1, w1, w2.trans e⟩
    cases o with
    | event db l =>
      cases l with
      | nil => exact live_resume dec ht pss s (fun ps' h => ha ps' (by simp [h])) q1 w1 (w2.trans e)
      | cons y ys => exact Or.inr ⟨by simp, hl ys⟩
    | idle => exact Or.inr ⟨by simp, hl []⟩
    | waiting => exact Or.inr ⟨by simp, hl []⟩
    | raised => exact Or.inl rfl
    | stop =>
      exfalso
      rcases (hstop rfl).1 with h | h
      · exact ht (e.symm.trans h)
      · have := w1.1
        rw [h] at this
        cases this

theorem live_give (dec : α → Option β) {timeout : Option Nat} (ht : timeout ≠ some 0) (pss : List (List (Pass α))) (g : Gen α β) (ha : ∀ ps ∈ pss, ∀ p ∈ ps, p.Alive 0) (h : Live timeout g) :
    (give dec pss g).1 = .raised ∨ ((give dec pss g).1 ≠ .stop ∧ Live timeout (give dec pss g).2) := by
  cases g with
  | fresh t b =>
    have e : t = timeout.map Int.ofNat := h
    subst e
    cases timeout with
    | none => exact live_resume dec ht pss _ ha (quiet_init _ _) ⟨by simp [init], by simp [init]⟩ rfl
    | some n =>
      have e : give dec pss (.fresh ((some n).map Int.ofNat) b : Gen α β) = resume dec (init [0] (some n) fun _ => b) pss := by
        show (if (n : Int) < 0 then (Given.valueError, Gen.ended b b) else resume dec (init [0] (some (n : Int).toNat) fun _ => b) pss) = _
        rw [if_neg (by omega)]
        rfl
      rw [e]
      exact live_resume dec ht pss _ ha (quiet_init _ _) ⟨by simp [init], by simp [init]⟩ rfl
  | «at» st left =>
    obtain ⟨hq, hw, e⟩ := h
    cases left with
    | nil => exact live_resume dec ht pss st ha hq hw e
    | cons y ys => exact Or.inr ⟨by simp [give], hq, hw, e⟩
  | ended r n => exact h.elim

theorem live_uses (dec : α → Option β) {timeout : Option Nat} (ht : timeout ≠ some 0) : ∀ (program : List (Use α)) (g : Gen α β),
    (∀ pss, Use.take pss ∈ program → ∀ ps ∈ pss, ∀ p ∈ ps, p.Alive 0) → Live timeout g → Given.stop ∈ (uses dec program g).1 → Given.raised ∈ (uses dec program g).1
  | [], g, _, _, h => by cases h
  | .take pss :: us, g, ha, hl, h => by
    rcases live_give dec ht pss g (ha pss (by simp)) hl with e | ⟨e, hl'⟩
    · exact List.mem_cons.mpr (Or.inl e.symm)
    · rcases List.mem_cons.mp h with h | h
      · exact absurd h.symm e
      · exact List.mem_cons_of_mem _ (live_uses dec ht us _ (fun pss' h' => ha pss' (by simp [h'])) hl' h)
  | .collects l :: us, g, ha, hl, h => by
    refine live_uses dec ht us (collect l g) (fun pss' h' => ha pss' (by simp [h'])) ?_ h
    cases g with
    | fresh t b => exact hl
    | «at» st left => exact ⟨⟨hl.1.conns, hl.1.pulled, hl.1.incoming⟩, hl.2.1, hl.2.2⟩
    | ended r n => exact hl

/-- **C39 (iternotifies goes on).** With no timeout, or one above zero, as long as the connection is neither closed nor failing, the generator does not end by itself: it gives StopIteration only after it raised
for a notification that cannot be decoded. -/
theorem C39_iter_goes_on (dec : α → Option β) (timeout : Option Nat) (ht : timeout ≠ some 0) (before : List α) (program : List (Use α))
    (ha : ∀ pss, Use.take pss ∈ program → ∀ ps ∈ pss, ∀ p ∈ ps, p.Alive 0) (h : Given.stop ∈ (uses dec program (.fresh (timeout.map Int.ofNat) before : Gen α β)).1) :
    Given.raised ∈ (uses dec program (.fresh (timeout.map Int.ofNat) before : Gen α β)).1 :=
  live_uses dec ht program _ ha rfl h

/-! ## What is there is given -/

theorem loop_received (dec : α → Option β) (i : Nat) : ∀ (ps : List (Pass α)) (st : State α β) (c : Bool), ∃ t, (loop dec st c ps).2.received i = st.received i ++ t
  | ps, st, c => by
    have hf : ∀ r, front st = .inl r → r.2.received = st.received := by
      intro r hr
      rcases front_inl hr with ⟨_, _, _, _, rfl⟩ | ⟨_, _, rfl⟩ <;> rfl
    have hf' : ∀ s, front st = .inr s → s.received = st.received := by
      intro s hs
      obtain ⟨rfl, _⟩ := front_inr hs
      rfl
    cases ps with
    | nil =>
      unfold loop
      split
      · rename_i r hr; exact ⟨[], by rw [hf r hr]; simp⟩
      · rename_i s hs; exact ⟨[], by rw [hf' s hs]; simp⟩
    | cons p ps =>
      unfold loop
      split
      · rename_i r hr; exact ⟨[], by rw [hf r hr]; simp⟩
      · rename_i s hs
        have hw : ∃ t, (wired (timedout s p.now).2 c p).received i = st.received i ++ t := by
          obtain ⟨lt, e⟩ := timedout_frame s p.now
          rw [e, ← hf' s hs]
          unfold wired
          split
          · simp only [waitOnWires, trash]
            split
            · exact ⟨_, rfl⟩
            · exact ⟨[], by simp⟩
          · exact ⟨[], by simp⟩
        obtain ⟨t, hw⟩ := hw
        split
        · rename_i r hr
          rcases body_inl hr with ⟨rfl, _⟩ | ⟨_, _, rfl⟩
          · exact ⟨[], by rw [← hf' s hs]; simp⟩
          · refine ⟨t, ?_⟩
            dsimp only
            rw [(pull_frame dec _ _).2.2.2.2.2, hw]
        · rename_i c' s' hr
          obtain ⟨_, _, hr'⟩ := body_inr hr
          obtain ⟨-, rfl⟩ : c' = _ ∧ s' = _ := by simpa using hr'
          obtain ⟨t', h'⟩ := loop_received dec i ps (queueNext (pull dec (wired (timedout s p.now).2 c p) (p.order.filter (· ∈ (wired (timedout s p.now).2 c p).connections))).2) c'
          exact ⟨t ++ t', by rw [h', (queueNext_frame _).2.2.2.2.1, (pull_frame dec _ _).2.2.2.2.2, hw, List.append_assoc]⟩

theorem resume_first (dec : α → Option β) (timeout : Option Nat) (before : List α) (p : Pass α) (ps : List (Pass α)) (pss : List (List (Pass α))) (hp : 0 ∈ p.order) (a : α) (hdec : ∀ x ∈ a :: before, dec x ≠ none) :
    ∃ b, dec a = some b ∧ (resume dec (init [0] timeout fun _ => a :: before) ((p :: ps) :: pss)).1 = .notify b := by
  obtain ⟨db, l, hn⟩ := next_pending dec (init [0] timeout fun _ => a :: before : State α β) p ps 0 rfl (by simp [init]) hp (by simp [init]) (fun i _ x hx => hdec x hx) rfl
  obtain ⟨i1, i2⟩ := inv_loop dec (p :: ps) true (inv_init dec [0] timeout fun _ => a :: before)
  obtain ⟨q1, q2⟩ := loop_ready dec (p :: ps) (init [0] timeout fun _ => a :: before : State α β) true (quiet_init _ _).ready
  rw [show loop dec (init [0] timeout fun _ => a :: before : State α β) true (p :: ps) = next dec (init [0] timeout fun _ => a :: before) (p :: ps) from rfl] at i1 i2 q1 q2
  have hsub : ∃ t, (next dec (init [0] timeout fun _ => a :: before : State α β) (p :: ps)).2.received 0 = (a :: before) ++ t := loop_received dec 0 (p :: ps) _ true
  unfold resume
  generalize next dec (init [0] timeout fun _ => a :: before : State α β) (p :: ps) = r at i1 i2 q1 q2 hn hsub
  obtain ⟨o, s⟩ := r
  dsimp only at hn i1 i2 q1 q2 hsub
  subst hn
  obtain rfl := q2 db l rfl
  cases l with
  | nil => exact absurd rfl (i2 0 [] rfl)
  | cons y ys =>
    obtain ⟨t, h1, h2⟩ := i1.account 0
    rw [q1.queued 0, List.append_nil] at h2
    have h2 : t.map dec = (y :: ys).map some := by rw [h2]; simp [plus, delivered]
    obtain ⟨t', ht'⟩ := hsub
    rw [ht'] at h1
    cases t with
    | nil => cases h2
    | cons x t =>
      injection h1 with e1 _
      subst e1
      injection h2 with e2 _
      exact ⟨y, e2, rfl⟩

/-- **C39 (iternotifies gives what is there).** When notifications lie at the connection, and they can be decoded, the first item is the first of them, without waiting; and while an event has more, the next item is the next of them, without looking at
the connection or the clock. -/
theorem C39_iter_first (dec : α → Option β) (timeout : Option Nat) (a : α) (before : List α) (p : Pass α) (ps : List (Pass α)) (pss : List (List (Pass α))) (hp : 0 ∈ p.order) (hdec : ∀ x ∈ a :: before, dec x ≠ none) :
    (∃ b, dec a = some b ∧ (give dec ((p :: ps) :: pss) (.fresh (timeout.map Int.ofNat) (a :: before) : Gen α β)).1 = .notify b) ∧
    ∀ (g : Gen α β) (y : β) (ys : List β), g.left = y :: ys → ∀ pss', (give dec pss' g).1 = .notify y ∧ (give dec pss' g).2.left = ys ∧ (give dec pss' g).2.notifies = g.notifies := by
  constructor
  · obtain ⟨b, h1, h2⟩ := resume_first dec timeout before p ps pss hp a hdec
    refine ⟨b, h1, ?_⟩
    cases timeout with
    | none => exact h2
    | some n =>
      show (if (n : Int) < 0 then (Given.valueError, Gen.ended (a :: before) (a :: before)) else resume dec (init [0] (some (n : Int).toNat) fun _ => a :: before) _).1 = _
      rw [if_neg (by omega)]
      exact h2
  · intro g y ys hg pss'
    cases g with
    | fresh t b => cases hg
    | «at» st left =>
      have : left = y :: ys := hg
      subst this
      exact ⟨rfl, rfl, rfl⟩
    | ended r n => cases hg

/-! ## Instances -/

/-- Three items of two events, an idle event, and the end with an undecodable one: 9. -/
def iterProgram : List (Use Nat) := [.take [[quiet 0 [0]]], .collects [4], .take [], .take [[quiet 1 [0]]], .take [[quiet 2 [0], quiet 3 [0], quiet 9 [0]]], .collects [0], .take [[quiet 10 [0]]], .take []]

def iterDec : Nat → Option Nat := fun n => if n = 0 then none else some (n + 10)

example : let r := uses iterDec iterProgram (.fresh (some 5) [1, 2] : Gen Nat Nat)
    r.1 = [.notify 11, .notify 12, .notify 14, .idle, .raised, .stop] ∧ r.2.received = [1, 2, 4, 0] ∧ r.2.notifies = [0] ∧ notifications r.1 = [11, 12, 14] := by decide

example : Given.raised ∈ (uses iterDec iterProgram (.fresh (some 5) [1, 2] : Gen Nat Nat)).1 :=
  C39_iter_goes_on iterDec (some 5) (by simp) [1, 2] iterProgram (by
    intro pss h ps hps p hp
    have h : pss ∈ [[[quiet 0 [0]]], [], [[quiet 1 [0]]], [[quiet 2 [0], quiet 3 [0], quiet 9 [0]]], [[quiet 10 [0]]], []] := by simpa [iterProgram] using h
    simp only [List.mem_cons, List.not_mem_nil, or_false] at h
    rcases h with rfl | rfl | rfl | rfl | rfl | rfl <;> simp at hps <;> subst hps <;> simp at hp <;> rcases hp with rfl | rfl | rfl <;> exact ⟨rfl, rfl, rfl⟩) (by decide)

example : (uses iterDec [.take [], .take []] (.fresh (some (-1)) [1, 2] : Gen Nat Nat)).1 = [.valueError, .stop] := by decide

example : ∃ b, iterDec 1 = some b ∧ (give iterDec [[quiet 0 [0]]] (.fresh (some 5) [1, 2] : Gen Nat Nat)).1 = .notify b :=
  (C39_iter_first iterDec (some 5) 1 [2] (quiet 0 [0]) [] [] (by simp [quiet]) (by simp [iterDec])).1

end PG.NotifyMan
