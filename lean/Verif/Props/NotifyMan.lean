import Verif.Model.NotifyMan
import Verif.Proofs.ConfigFile2
/-! # Notifications (C39) -/
namespace PG.NotifyMan
open PG
variable {α β : Type}

/-- What a sequence of `(connection, notifications)` has for a connection. -/
def forConn (i : Nat) (l : List (Nat × List β)) : List β := (l.filter fun e => e.1 = i).flatMap Prod.snd

/-- What `__next__` gave for a connection. -/
def delivered (i : Nat) (outs : List (Out β)) : List β := outs.flatMap fun o => match o with | .event db l => if db = i then l else [] | _ => []

/-- What the manager has taken from a connection and not given yet. -/
def State.queued (st : State α β) (i : Nat) : List β := forConn i (st.incoming.getD []) ++ forConn i st.pulled

theorem forConn_append (i : Nat) (a b : List (Nat × List β)) : forConn i (a ++ b) = forConn i a ++ forConn i b := by
  simp [forConn]

theorem forConn_cons (i : Nat) (e : Nat × List β) (b : List (Nat × List β)) : forConn i (e :: b) = (if e.1 = i then e.2 else []) ++ forConn i b := by
  unfold forConn
  by_cases h : e.1 = i
  · rw [List.filter_cons_of_pos (by simpa using h), if_pos h]; rfl
  · rw [List.filter_cons_of_neg (by simpa using h), if_neg h]; rfl

theorem forConn_none {i : Nat} {d : List (Nat × List β)} (h : ∀ e ∈ d, e.1 ≠ i) : forConn i d = [] := by
  unfold forConn
  rw [List.filter_eq_nil_iff.mpr]
  · rfl
  · intro e he; simpa using h e he

theorem forConn_get : ∀ {d : List (Nat × List β)}, (d.map Prod.fst).Nodup → ∀ i, forConn i d = (PyDict.get i d).getD []
  | [], _, i => rfl
  | e :: d, h, i => by
    rw [List.map_cons, List.nodup_cons] at h
    rw [forConn_cons, PyDict.get_cons]
    by_cases hi : e.1 = i
    · rw [if_pos hi, if_pos hi, forConn_none, List.append_nil]; rfl
      intro x hx hxi
      exact h.1 (by rw [hi, ← hxi]; exact List.mem_map_of_mem hx)
    · rw [if_neg hi, if_neg hi, forConn_get h.2 i]; rfl

theorem queue_nodup (d : List (Nat × List β)) (db : Nat) (l : List β) (h : (d.map Prod.fst).Nodup) : ((queue d db l).map Prod.fst).Nodup := by
  unfold queue
  split
  · exact Proofs.ConfigFile.nodup_set _ _ _ h
  · exact Proofs.ConfigFile.nodup_set _ _ _ h

theorem queue_forConn (d : List (Nat × List β)) (db : Nat) (l : List β) (h : (d.map Prod.fst).Nodup) (i : Nat) :
    forConn i (queue d db l) = forConn i d ++ if i = db then l else [] := by
  rw [forConn_get (queue_nodup d db l h), forConn_get h]
  unfold queue
  cases hg : PyDict.get db d with
  | some old =>
    dsimp only
    rw [PyDict.get_set]
    by_cases hi : db = i
    · subst hi; simp [hg]
    · rw [if_neg hi, if_neg (fun g => hi g.symm), List.append_nil]
  | none =>
    dsimp only
    rw [PyDict.get_set]
    by_cases hi : db = i
    · subst hi; simp [hg]
    · rw [if_neg hi, if_neg (fun g => hi g.symm), List.append_nil]

theorem mapM_some (dec : α → Option β) : ∀ (l : List α) (r : List β), l.mapM dec = some r → l.map dec = r.map some
  | [], r, h => by simp at h; subst h; rfl
  | a :: l, r, h => by
    rw [List.mapM_cons] at h
    cases ha : dec a with
    | none => rw [ha] at h; simp at h
    | some b =>
      rw [ha] at h
      cases hl : l.mapM dec with
      | none => rw [hl] at h; simp at h
      | some t =>
        rw [hl] at h
        simp at h
        subst h
        rw [List.map_cons, List.map_cons, ha, mapM_some dec l t hl]

theorem mapM_none (dec : α → Option β) : ∀ (l : List α), l.mapM dec = none → ∃ a ∈ l, dec a = none
  | [], h => by simp at h
  | a :: l, h => by
    rw [List.mapM_cons] at h
    cases ha : dec a with
    | none => exact ⟨a, by simp, ha⟩
    | some b =>
      rw [ha] at h
      cases hl : l.mapM dec with
      | none => obtain ⟨x, hx, hd⟩ := mapM_none dec l hl; exact ⟨x, by simp [hx], hd⟩
      | some t => rw [hl] at h; simp at h

/-! ## Accounting -/

/-- Every notification received so far is in exactly one place, in order: given (`D`), queued, or still at its connection. -/
structure Inv (dec : α → Option β) (D : Nat → List β) (st : State α β) : Prop where
  account : ∀ i, ∃ taken, st.received i = taken ++ st.notifies i ∧ taken.map dec = (D i ++ st.queued i).map some
  nodup : (st.pulled.map Prod.fst).Nodup
  full : ∀ e ∈ st.incoming.getD [] ++ st.pulled, e.2 ≠ []

theorem Inv.congr {dec : α → Option β} {D : Nat → List β} {st st' : State α β} (h : Inv dec D st) (h1 : st'.received = st.received) (h2 : st'.notifies = st.notifies)
    (h3 : st'.incoming.getD [] = st.incoming.getD []) (h4 : st'.pulled = st.pulled) : Inv dec D st' := by
  obtain ⟨a, b, c⟩ := h
  refine ⟨fun i => ?_, by rw [h4]; exact b, by rw [h3, h4]; exact c⟩
  unfold State.queued
  rw [h1, h2, h3, h4]
  exact a i

theorem inv_timedout {dec : α → Option β} {D : Nat → List β} {st : State α β} (h : Inv dec D st) (now : Int) : Inv dec D (timedout st now).2 := by
  unfold timedout
  split
  · exact h.congr rfl rfl rfl rfl
  · split
    · split
      · exact h.congr rfl rfl rfl rfl
      · exact h.congr rfl rfl rfl rfl
    · exact h.congr rfl rfl rfl rfl

theorem inv_wait {dec : α → Option β} {D : Nat → List β} {st : State α β} (h : Inv dec D st) (p : Pass α) : Inv dec D (waitOnWires st p) := by
  obtain ⟨a, b, c⟩ := h
  refine ⟨fun i => ?_, b, c⟩
  obtain ⟨t, h1, h2⟩ := a i
  refine ⟨t, ?_, h2⟩
  unfold waitOnWires trash
  dsimp only
  split
  · rw [h1, List.append_assoc]
  · exact h1

theorem inv_pull (dec : α → Option β) {D : Nat → List β} : ∀ (order : List Nat) {st : State α β}, Inv dec D st → Inv dec D (pull dec st order).2
  | [], st, h => h
  | db :: order, st, h => by
    unfold pull
    split
    · exact inv_pull dec order h
    · split
      · exact h
      · rename_i hne _ l hl
        refine inv_pull dec order ?_
        have hm := mapM_some dec _ _ hl
        obtain ⟨a, b, c⟩ := h
        refine ⟨fun i => ?_, queue_nodup _ _ _ b, ?_⟩
        · obtain ⟨t, h1, h2⟩ := a i
          unfold State.queued at h2 ⊢
          dsimp only
          rw [queue_forConn _ _ _ b]
          have hlen : l.length = (st.notifies db).length := by
            have := congrArg List.length hm
            simpa using this.symm
          by_cases hi : i = db
          · subst hi
            refine ⟨t ++ st.notifies i, ?_, ?_⟩
            · rw [if_pos rfl, hlen, List.drop_length, List.append_nil, h1]
            · rw [if_pos rfl, List.map_append, h2, hm]
              simp
          · refine ⟨t, ?_, ?_⟩
            · rw [if_neg hi, h1]
            · rw [if_neg hi, List.append_nil, h2]
        · have hl0 : l ≠ [] := by
            rintro rfl
            apply hne
            have := congrArg List.length hm
            simpa using this
          intro e he
          rcases List.mem_append.mp he with he | he
          · exact c e (by simp [he])
          · dsimp only at he
            obtain ⟨k, v⟩ := e
            have hg := PyDict.get_of_mem (queue_nodup _ db l b) he
            unfold queue at hg
            cases hgo : PyDict.get db st.pulled with
            | some old =>
              rw [hgo] at hg
              dsimp only at hg
              rw [PyDict.get_set] at hg
              by_cases hk : db = k
              · rw [if_pos hk] at hg
                cases hg
                simp [hl0]
              · rw [if_neg hk] at hg
                exact c (k, v) (by simp [PyDict.get_mem hg])
            | none =>
              rw [hgo] at hg
              dsimp only at hg
              rw [PyDict.get_set] at hg
              by_cases hk : db = k
              · rw [if_pos hk] at hg
                cases hg
                exact hl0
              · rw [if_neg hk] at hg
                exact c (k, v) (by simp [PyDict.get_mem hg])

theorem inv_queueNext {dec : α → Option β} {D : Nat → List β} {st : State α β} (h : Inv dec D st) : Inv dec D (queueNext st) := by
  obtain ⟨a, b, c⟩ := h
  unfold queueNext
  split
  · split
    · rename_i rest hr
      refine ⟨fun i => ?_, by simp, ?_⟩
      · have := a i
        unfold State.queued at this ⊢
        rw [hr] at this
        simpa [forConn_append, forConn, List.append_assoc] using this
      · rw [hr] at c
        simpa using c
    · rename_i hr
      refine ⟨fun i => ?_, by simp, ?_⟩
      · have := a i
        unfold State.queued at this ⊢
        rw [hr] at this
        simpa [forConn] using this
      · rw [hr] at c
        simpa using c
  · rename_i hp
    have hp : st.pulled = [] := by simpa using hp
    split
    · rename_i hn
      have hn : st.incoming = none := by simpa using hn
      exact Inv.congr ⟨a, b, c⟩ rfl rfl (by rw [hn]; rfl) (by rw [hp])
    · exact ⟨a, b, c⟩

/-- Adding what an outcome delivers. -/
def plus (D : Nat → List β) (o : Out β) : Nat → List β := fun i => D i ++ delivered i [o]

theorem plus_none (D : Nat → List β) (o : Out β) (h : ∀ db l, o ≠ .event db l) : plus D o = D := by
  funext i
  unfold plus delivered
  cases o with
  | event db l => exact absurd rfl (h db l)
  | _ => simp

theorem inv_front {dec : α → Option β} {D : Nat → List β} {st : State α β} (h : Inv dec D st) :
    (∀ r, front st = .inl r → Inv dec (plus D r.1) r.2 ∧ ∀ db l, r.1 = .event db l → l ≠ []) ∧ ∀ st', front st = .inr st' → Inv dec D st' := by
  unfold front
  split
  · rename_i db l rest hin
    refine ⟨fun r hr => ?_, fun st' hs => by simp at hs⟩
    obtain rfl : _ = r := by simpa using hr
    obtain ⟨a, b, c⟩ := h
    rw [hin] at c
    refine ⟨⟨fun i => ?_, b, ?_⟩, fun db' l' h' => ?_⟩
    · obtain ⟨t, h1, h2⟩ := a i
      refine ⟨t, h1, ?_⟩
      unfold State.queued at h2 ⊢
      rw [hin] at h2
      rw [h2]
      dsimp only
      simp only [Option.getD_some, forConn_cons, plus, delivered, List.flatMap_cons, List.flatMap_nil, List.append_nil]
      simp [List.append_assoc]
    · intro e he
      refine c e ?_
      simp at he ⊢
      exact Or.inr he
    · simp at h'
      obtain ⟨rfl, rfl⟩ := h'
      exact c (db, l) (by simp)
  · rename_i hin
    split
    · refine ⟨fun r hr => ?_, fun st' hs => by simp at hs⟩
      obtain rfl : _ = r := by simpa using hr
      refine ⟨?_, fun db l h => by simp at h⟩
      rw [plus_none _ _ (by simp)]
      exact h.congr rfl rfl (by rw [hin]; rfl) rfl
    · refine ⟨fun r hr => by simp at hr, fun st' hs => ?_⟩
      obtain rfl : _ = st' := by simpa using hs
      exact h.congr rfl rfl (by rw [hin]; rfl) rfl
  · refine ⟨fun r hr => by simp at hr, fun st' hs => ?_⟩
    obtain rfl : _ = st' := by simpa using hs
    exact h

theorem inv_body {dec : α → Option β} {D : Nat → List β} {st : State α β} (h : Inv dec D st) (checked : Bool) (p : Pass α) :
    (∀ r, body dec st checked p = .inl r → (∀ db l, r.1 ≠ .event db l) ∧ Inv dec D r.2) ∧ ∀ r, body dec st checked p = .inr r → Inv dec D r.2 := by
  unfold body
  have h1 := inv_timedout h p.now
  dsimp only
  split
  · refine ⟨fun r hr => ?_, fun r hr => by simp at hr⟩
    obtain rfl : _ = r := by simpa using hr
    exact ⟨by simp, h1⟩
  · generalize (timedout st p.now).2 = s1 at h1
    have h2 : Inv dec D (wired s1 checked p) := by
      unfold wired
      split
      · exact inv_wait h1 p
      · exact h1
    generalize wired s1 checked p = s2 at h2
    have h3 := inv_pull dec (p.order.filter (· ∈ s2.connections)) h2
    generalize pull dec s2 (p.order.filter (· ∈ s2.connections)) = r3 at h3
    split
    · refine ⟨fun r hr => by simp at hr, fun r hr => ?_⟩
      obtain rfl : _ = r := by simpa using hr
      exact inv_queueNext h3
    · refine ⟨fun r hr => ?_, fun r hr => by simp at hr⟩
      obtain rfl : _ = r := by simpa using hr
      exact ⟨by simp, h3⟩

theorem inv_loop (dec : α → Option β) {D : Nat → List β} : ∀ (ps : List (Pass α)) {st : State α β} (checked : Bool), Inv dec D st →
    Inv dec (plus D (loop dec st checked ps).1) (loop dec st checked ps).2 ∧ ∀ db l, (loop dec st checked ps).1 = .event db l → l ≠ []
  | [], st, checked, h => by
    obtain ⟨h1, h2⟩ := inv_front h
    unfold loop
    split
    · rename_i r hr
      exact h1 r hr
    · rename_i s hs
      rw [plus_none _ _ (by simp)]
      exact ⟨h2 s hs, by simp⟩
  | p :: ps, st, checked, h => by
    obtain ⟨h1, h2⟩ := inv_front h
    unfold loop
    split
    · rename_i r hr
      exact h1 r hr
    · rename_i s hs
      obtain ⟨g1, g2⟩ := inv_body (h2 s hs) checked p
      split
      · rename_i r hr
        rw [plus_none _ _ (g1 r hr).1]
        exact ⟨(g1 r hr).2, fun db l hdl => absurd hdl ((g1 r hr).1 db l)⟩
      · rename_i c s' hr
        exact inv_loop dec ps c (g2 _ hr)

theorem delivered_append (i : Nat) (a b : List (Out β)) : delivered i (a ++ b) = delivered i a ++ delivered i b := by
  simp [delivered]

theorem inv_run (dec : α → Option β) : ∀ (os : List (Op α)) {D : Nat → List β} {st : State α β}, Inv dec D st →
    Inv dec (fun i => D i ++ delivered i (run dec st os).1) (run dec st os).2 ∧ ∀ db l, Out.event db l ∈ (run dec st os).1 → l ≠ []
  | [], D, st, h => by
    refine ⟨?_, by simp [run]⟩
    simp only [run, delivered, List.flatMap_nil, List.append_nil]
    exact h
  | o :: os, D, st, h => by
    have key : Inv dec (fun i => D i ++ delivered i (step dec st o).1) (step dec st o).2 ∧ ∀ db l, Out.event db l ∈ (step dec st o).1 → l ≠ [] := by
      cases o with
      | next ps =>
        obtain ⟨h1, h2⟩ := inv_loop dec ps true h
        refine ⟨h1, fun db l hm => ?_⟩
        have : Out.event db l = (next dec st ps).1 := by simpa [step] using hm
        exact h2 db l this.symm
      | arrive db l =>
        refine ⟨?_, by simp [step]⟩
        obtain ⟨a, b, c⟩ := h
        refine ⟨fun i => ?_, b, c⟩
        obtain ⟨t, h1, h2⟩ := a i
        refine ⟨t, ?_, ?_⟩
        · simp only [step]
          by_cases hi : i = db
          · subst hi; rw [if_pos rfl, if_pos rfl, h1, List.append_assoc]
          · rw [if_neg hi, if_neg hi, h1]
        · simp only [step, delivered, List.flatMap_nil, List.append_nil]
          exact h2
      | settimeout t =>
        have e : (fun i => D i ++ delivered i (step dec st (.settimeout t)).1) = D := by funext i; simp [step, delivered]
        rw [e]
        refine ⟨?_, by simp [step]⟩
        simp only [step, settimeout]
        split
        · exact h.congr rfl rfl rfl rfl
        · split
          · exact h
          · exact h.congr rfl rfl rfl rfl
      | add db =>
        have e : (fun i => D i ++ delivered i (step dec st (.add db)).1) = D := by funext i; simp [step, delivered]
        rw [e]
        exact ⟨h.congr rfl rfl rfl rfl, by simp [step]⟩
      | discard db =>
        have e : (fun i => D i ++ delivered i (step dec st (.discard db)).1) = D := by funext i; simp [step, delivered]
        rw [e]
        exact ⟨h.congr rfl rfl rfl rfl, by simp [step]⟩
    obtain ⟨h1, h2⟩ := inv_run dec os key.1
    refine ⟨?_, fun db l hm => ?_⟩
    · simp only [run]
      have e : (fun i => D i ++ delivered i ((step dec st o).1 ++ (run dec (step dec st o).2 os).1)) =
          fun i => D i ++ delivered i (step dec st o).1 ++ delivered i (run dec (step dec st o).2 os).1 := by
        funext i
        rw [delivered_append, List.append_assoc]
      rw [e]
      exact h1
    · rcases List.mem_append.mp hm with hm | hm
      · exact key.2 db l hm
      · exact h2 db l hm

theorem inv_init (dec : α → Option β) (conns : List Nat) (timeout : Option Nat) (before : Nat → List α) : Inv dec (fun _ => []) (init conns timeout before) :=
  ⟨fun i => ⟨[], rfl, rfl⟩, by simp [init], by simp [init]⟩

/-- **C39.** For any connections, any timeouts, any program that uses the manager and the connections, whatever arrives when, whatever `select`, the clock and
the servers do: for every connection the notifications it received are, in order, first those given by the manager (decoded), then those in its queue, then
those still at the connection. So each is given at most once, none is skipped, none is invented, the order is kept. No event is empty. -/
theorem C39_once_in_order (dec : α → Option β) (conns : List Nat) (timeout : Option Nat) (before : Nat → List α) (program : List (Op α)) :
    let r := run dec (init conns timeout before) program
    (∀ db, ∃ given queued : List α, r.2.received db = given ++ queued ++ r.2.notifies db ∧ given.map dec = (delivered db r.1).map some ∧ queued.map dec = (r.2.queued db).map some) ∧
    ∀ db l, Out.event db l ∈ r.1 → l ≠ [] := by
  obtain ⟨h1, h2⟩ := inv_run dec program (inv_init dec conns timeout before)
  refine ⟨fun db => ?_, h2⟩
  obtain ⟨t, g1, g2⟩ := h1.account db
  simp only [List.nil_append] at g2
  rw [List.map_append] at g2
  refine ⟨t.take (delivered db (run dec (init conns timeout before) program).1).length, t.drop (delivered db (run dec (init conns timeout before) program).1).length, ?_, ?_, ?_⟩
  · rw [List.take_append_drop]; exact g1
  · rw [List.map_take, g2]; simp
  · rw [List.map_drop, g2]; simp

/-! ## What is decodable is given -/

/-- All that lies at these connections can be decoded. -/
def Decodable (dec : α → Option β) (st : State α β) : Prop := ∀ i ∈ st.connections, ∀ a ∈ st.notifies i, dec a ≠ none

theorem pull_ok (dec : α → Option β) : ∀ (order : List Nat) (st : State α β), (∀ i ∈ order, ∀ a ∈ st.notifies i, dec a ≠ none) →
    (pull dec st order).1 = true ∧ (st.pulled ≠ [] → (pull dec st order).2.pulled ≠ []) ∧ (∀ db ∈ order, st.notifies db ≠ [] → (pull dec st order).2.pulled ≠ []) ∧
    (pull dec st order).2.incoming = st.incoming
  | [], st, h => ⟨rfl, id, by simp, rfl⟩
  | db :: order, st, h => by
    unfold pull
    by_cases hn : st.notifies db = []
    · rw [if_pos hn]
      obtain ⟨g1, g2, g3, g4⟩ := pull_ok dec order st (fun i hi => h i (by simp [hi]))
      refine ⟨g1, g2, fun i hi hne => ?_, g4⟩
      rcases List.mem_cons.mp hi with rfl | hi
      · exact absurd hn hne
      · exact g3 i hi hne
    · rw [if_neg hn]
      cases hm : (st.notifies db).mapM dec with
      | none =>
        obtain ⟨a, ha, hd⟩ := mapM_none dec _ hm
        exact absurd hd (h db (by simp) a ha)
      | some l =>
        dsimp only
        have hq : queue st.pulled db l ≠ [] := by
          unfold queue
          split <;> · cases st.pulled <;> simp [PyDict.set]; try split <;> simp
        have := pull_ok dec order { st with pulled := queue st.pulled db l, notifies := fun i => if i = db then (st.notifies db).drop l.length else st.notifies i } (by
          intro i hi a ha
          dsimp only at ha
          by_cases hidb : i = db
          · rw [if_pos hidb] at ha
            exact h db (by simp) a (List.drop_subset _ _ ha)
          · rw [if_neg hidb] at ha
            exact h i (by simp [hi]) a ha)
        obtain ⟨g1, g2, g3, g4⟩ := this
        exact ⟨g1, fun _ => g2 hq, fun _ _ _ => g2 hq, g4⟩

theorem timedout_frame (st : State α β) (now : Int) : ∃ l, (timedout st now).2 = { st with lastTime := l } := by
  unfold timedout
  split
  · exact ⟨_, rfl⟩
  · split
    · split <;> exact ⟨_, rfl⟩
    · exact ⟨_, rfl⟩

theorem front_none {st : State α β} (h : st.incoming = none) : front st = .inr st := by unfold front; rw [h]

theorem loop_front {dec : α → Option β} {s : State α β} {r : Out β × State α β} (h : front s = .inl r) (c : Bool) (ps : List (Pass α)) : loop dec s c ps = r := by
  cases ps <;> unfold loop <;> rw [h]

theorem front_queueNext {s : State α β} (hp : s.pulled ≠ []) (hi : s.incoming = none) : ∃ i l s', front (queueNext s) = .inl (.event i l, s') := by
  have hq : (queueNext s).incoming = some s.pulled := by
    unfold queueNext
    rw [if_pos hp, hi]
  obtain ⟨⟨i, l⟩, rest, hrest⟩ := List.exists_cons_of_ne_nil hp
  refine ⟨i, l, { queueNext s with incoming := some rest }, ?_⟩
  unfold front
  rw [hq, hrest]

/-- The first look at the connections finds what is pending. -/
theorem next_pending (dec : α → Option β) (st : State α β) (p : Pass α) (ps : List (Pass α)) (db : Nat) (hst : st.incoming = none) (hdb : db ∈ st.connections)
    (hp : db ∈ p.order) (hne : st.notifies db ≠ []) (hdec : Decodable dec st) (ht : (timedout st p.now).1 = false) : ∃ db' l, (next dec st (p :: ps)).1 = .event db' l := by
  unfold next loop
  rw [front_none hst]
  dsimp only
  unfold body
  obtain ⟨lt, hlt⟩ := timedout_frame st p.now
  dsimp only
  rw [if_neg (by simp [ht]), hlt]
  have hw : ∀ s : State α β, wired s true p = s := fun s => by simp [wired, checkWires]
  rw [hw]
  dsimp only
  obtain ⟨g1, _, g3, g4⟩ := pull_ok dec (p.order.filter (· ∈ st.connections)) { st with lastTime := lt } (by
    intro i hi a ha
    have hi' := List.mem_filter.mp hi
    exact hdec i (by simpa using hi'.2) a ha)
  rw [if_pos g1]
  dsimp only
  have hpn := g3 db (List.mem_filter.mpr ⟨hp, by simpa using hdb⟩) hne
  obtain ⟨i, l, s', hs'⟩ := front_queueNext hpn (g4.trans hst)
  exact ⟨i, l, by rw [loop_front hs']⟩

/-- **C39 (pending notifications are given).** When a call of `__next__` has nothing queued, a connection has notifications, and they can be decoded: then it returns an event at the
first look, without waiting, or the idle event if that is due. -/
theorem C39_pending (dec : α → Option β) (st : State α β) (p : Pass α) (ps : List (Pass α)) (db : Nat) (hst : st.incoming = none) (hdb : db ∈ st.connections)
    (hp : db ∈ p.order) (hne : st.notifies db ≠ []) (hdec : Decodable dec st) :
    (next dec st (p :: ps)).1 = .idle ∨ ∃ db' l, (next dec st (p :: ps)).1 = .event db' l := by
  cases ht : (timedout st p.now).1 with
  | false => exact Or.inr (next_pending dec st p ps db hst hdb hp hne hdec ht)
  | true =>
    left
    unfold next loop
    rw [front_none hst]
    dsimp only
    unfold body
    dsimp only
    rw [if_pos ht]

theorem front_inr {st s : State α β} (h : front st = .inr s) : s = { st with incoming := none } ∧ (st.incoming = none ∨ st.incoming = some [] ∧ ¬ (st.timeout = some 0 ∨ st.connections = [])) := by
  unfold front at h
  split at h
  · cases h
  · split at h
    · cases h
    · rename_i hi hn
      obtain rfl : _ = s := by simpa using h
      exact ⟨rfl, Or.inr ⟨hi, hn⟩⟩
  · rename_i hi
    obtain rfl : st = s := by simpa using h
    refine ⟨?_, Or.inl hi⟩
    cases st
    simp_all

theorem front_inl {st : State α β} {r : Out β × State α β} (h : front st = .inl r) :
    (∃ db l rest, st.incoming = some ((db, l) :: rest) ∧ r = (.event db l, { st with incoming := some rest })) ∨
    (st.incoming = some [] ∧ (st.timeout = some 0 ∨ st.connections = []) ∧ r = (.stop, { st with incoming := none })) := by
  unfold front at h
  split at h
  · rename_i db l rest hi
    obtain rfl : _ = r := by simpa using h
    exact Or.inl ⟨db, l, rest, hi, rfl⟩
  · split at h
    · rename_i hi hn
      obtain rfl : _ = r := by simpa using h
      exact Or.inr ⟨hi, hn, rfl⟩
    · cases h
  · cases h

theorem timedout_true {st : State α β} {now : Int} (h : (timedout st now).1 = true) :
    ∃ l t, st.lastTime = some l ∧ st.timeout = some t ∧ 0 < t ∧ l + t ≤ now ∧ (timedout st now).2 = { st with lastTime := none } := by
  unfold timedout at h ⊢
  split at h
  · simp at h
  · rename_i l hl
    split at h
    · rename_i t ht
      split at h
      · rename_i hn
        refine ⟨l, t + 1, hl, ht, by omega, by simpa using hn, ?_⟩
        rw [if_pos hn]
      · simp at h
    · simp at h

/-- What `_timedout` makes of the time noted, when it does not say so. -/
def toggled (lastTime : Option Int) (now : Int) : Option Int := match lastTime with | none => some now | some _ => none

theorem timedout_false {st : State α β} {now : Int} (h : (timedout st now).1 = false) :
    (timedout st now).2 = { st with lastTime := toggled st.lastTime now } := by
  unfold toggled
  unfold timedout at h ⊢
  cases hl : st.lastTime with
  | none => rfl
  | some l =>
    rw [hl] at h
    dsimp only at h ⊢
    split at h
    · split at h
      · simp at h
      · rename_i h2
        rw [if_neg h2]
    · rfl

theorem body_inl {dec : α → Option β} {st : State α β} {c : Bool} {p : Pass α} {r : Out β × State α β} (h : body dec st c p = .inl r) :
    (r = (.idle, { st with lastTime := none }) ∧ (timedout st p.now).1 = true) ∨
    ((timedout st p.now).1 = false ∧ (pull dec (wired (timedout st p.now).2 c p) (p.order.filter (· ∈ (wired (timedout st p.now).2 c p).connections))).1 = false ∧
      r = (.raised, (pull dec (wired (timedout st p.now).2 c p) (p.order.filter (· ∈ (wired (timedout st p.now).2 c p).connections))).2)) := by
  unfold body at h
  dsimp only at h
  by_cases ht : (timedout st p.now).1 = true
  · rw [if_pos ht] at h
    obtain ⟨_, _, _, _, _, _, e⟩ := timedout_true ht
    rw [e] at h
    obtain rfl : _ = r := by simpa using h
    exact Or.inl ⟨rfl, ht⟩
  · rw [if_neg ht] at h
    by_cases hp : (pull dec (wired (timedout st p.now).2 c p) (p.order.filter (· ∈ (wired (timedout st p.now).2 c p).connections))).1 = true
    · rw [if_pos hp] at h
      cases h
    · rw [if_neg hp] at h
      obtain rfl : _ = r := by simpa using h
      exact Or.inr ⟨by simpa using ht, by simpa using hp, rfl⟩

theorem body_inr {dec : α → Option β} {st : State α β} {c : Bool} {p : Pass α} {r : Bool × State α β} (h : body dec st c p = .inr r) :
    (timedout st p.now).1 = false ∧ (pull dec (wired (timedout st p.now).2 c p) (p.order.filter (· ∈ (wired (timedout st p.now).2 c p).connections))).1 = true ∧
    r = (checkWires (timedout st p.now).2 c, queueNext (pull dec (wired (timedout st p.now).2 c p) (p.order.filter (· ∈ (wired (timedout st p.now).2 c p).connections))).2) := by
  unfold body at h
  dsimp only at h
  by_cases ht : (timedout st p.now).1 = true
  · rw [if_pos ht] at h
    cases h
  · rw [if_neg ht] at h
    by_cases hp : (pull dec (wired (timedout st p.now).2 c p) (p.order.filter (· ∈ (wired (timedout st p.now).2 c p).connections))).1 = true
    · rw [if_pos hp] at h
      obtain rfl : _ = r := by simpa using h
      exact ⟨by simpa using ht, hp, rfl⟩
    · rw [if_neg hp] at h
      cases h

theorem wired_timeout (s : State α β) (c : Bool) (p : Pass α) : (wired s c p).timeout = s.timeout := by
  unfold wired
  split <;> rfl

theorem wired_lastTime (s : State α β) (c : Bool) (p : Pass α) : (wired s c p).lastTime = s.lastTime ∨ s.lastTime = none ∧ (wired s c p).lastTime = some p.later := by
  unfold wired
  split
  · simp only [waitOnWires, trash]
    split
    · exact Or.inl rfl
    · cases s.lastTime with
      | none => exact Or.inr ⟨rfl, rfl⟩
      | some l => exact Or.inl rfl
  · exact Or.inl rfl

theorem pull_frame (dec : α → Option β) : ∀ (order : List Nat) (st : State α β), (pull dec st order).2.timeout = st.timeout ∧ (pull dec st order).2.lastTime = st.lastTime ∧
    (pull dec st order).2.connections = st.connections ∧ (pull dec st order).2.garbage = st.garbage ∧ (pull dec st order).2.incoming = st.incoming ∧
    (pull dec st order).2.received = st.received
  | [], st => ⟨rfl, rfl, rfl, rfl, rfl, rfl⟩
  | db :: order, st => by
    unfold pull
    split
    · exact pull_frame dec order st
    · split
      · exact ⟨rfl, rfl, rfl, rfl, rfl, rfl⟩
      · exact pull_frame dec order _

theorem queueNext_frame (st : State α β) : (queueNext st).timeout = st.timeout ∧ (queueNext st).lastTime = st.lastTime ∧
    (queueNext st).connections = st.connections ∧ (queueNext st).garbage = st.garbage ∧ (queueNext st).received = st.received ∧ (queueNext st).notifies = st.notifies ∧
    (queueNext st).pulled = [] := by
  unfold queueNext
  split
  · split <;> exact ⟨rfl, rfl, rfl, rfl, rfl, rfl, rfl⟩
  · rename_i h
    have h : st.pulled = [] := by simpa using h
    split
    · exact ⟨rfl, rfl, rfl, rfl, rfl, rfl, rfl⟩
    · exact ⟨rfl, rfl, rfl, rfl, rfl, rfl, h⟩

/-- The idle event leaves the manager ready to look at the connections first. -/
theorem loop_idle (dec : α → Option β) : ∀ (ps : List (Pass α)) (st : State α β) (checked : Bool), (loop dec st checked ps).1 = .idle →
    (loop dec st checked ps).2.lastTime = none ∧ (loop dec st checked ps).2.incoming = none
  | [], st, checked, h => by
    exfalso
    unfold loop at h
    split at h
    · rename_i r hr
      rcases front_inl hr with ⟨_, _, _, _, rfl⟩ | ⟨_, _, rfl⟩ <;> simp at h
    · simp at h
  | p :: ps, st, checked, h => by
    unfold loop at h ⊢
    split
    · rename_i r hr
      exfalso
      rw [hr] at h
      rcases front_inl hr with ⟨_, _, _, _, rfl⟩ | ⟨_, _, rfl⟩ <;> simp at h
    · rename_i s hs
      rw [hs] at h
      dsimp only at h
      split
      · rename_i r hr
        rw [hr] at h
        dsimp only at h
        rcases body_inl hr with ⟨rfl, _⟩ | ⟨_, _, rfl⟩
        · rw [(front_inr hs).1]
          exact ⟨rfl, rfl⟩
        · simp at h
      · rename_i c s' hr
        rw [hr] at h
        exact loop_idle dec ps s' c h

theorem C39_after_idle (dec : α → Option β) (st : State α β) (ps : List (Pass α)) (h : (next dec st ps).1 = .idle) :
    (next dec st ps).2.lastTime = none ∧ (next dec st ps).2.incoming = none := loop_idle dec ps st true h

/-- **C39 (no starvation).** The manager does not give two idle events in a row while a connection has notifications, however short the timeout: after an idle event a call of `__next__`
with something pending gives it. -/
theorem C39_no_starvation (dec : α → Option β) (st : State α β) (ps : List (Pass α)) (h : (next dec st ps).1 = .idle) (arrived : Nat → List α) (p : Pass α) (qs : List (Pass α)) (db : Nat)
    (st' : State α β) (hst : st' = { (next dec st ps).2 with notifies := fun i => (next dec st ps).2.notifies i ++ arrived i })
    (hdb : db ∈ st'.connections) (hp : db ∈ p.order) (hne : st'.notifies db ≠ []) (hdec : Decodable dec st') :
    ∃ db' l, (next dec st' (p :: qs)).1 = .event db' l := by
  obtain ⟨h1, h2⟩ := C39_after_idle dec st ps h
  have hi : st'.incoming = none := by rw [hst]; exact h2
  have hl : st'.lastTime = none := by rw [hst]; exact h1
  exact next_pending dec st' p qs db hi hdb hp hne hdec (by unfold timedout; rw [hl])

/-- **C39 (idle events are due).** An idle event is given only with a timeout that is not zero, and only when it has passed since the clock was read before: in an earlier call, or
earlier in this one; and only when nothing was queued. -/
theorem C39_idle_due (dec : α → Option β) : ∀ (ps : List (Pass α)) (st : State α β) (checked : Bool), (loop dec st checked ps).1 = .idle →
    ∃ t l p, st.timeout = some t ∧ 0 < t ∧ p ∈ ps ∧ l + t ≤ p.now ∧ (st.lastTime = some l ∨ ∃ q ∈ ps, l = q.now ∨ l = q.later)
  | [], st, checked, h => by
    exfalso
    unfold loop at h
    split at h
    · rename_i r hr
      rcases front_inl hr with ⟨_, _, _, _, rfl⟩ | ⟨_, _, rfl⟩ <;> simp at h
    · simp at h
  | p :: ps, st, checked, h => by
    unfold loop at h
    split at h
    · rename_i r hr
      exfalso
      rcases front_inl hr with ⟨_, _, _, _, rfl⟩ | ⟨_, _, rfl⟩ <;> simp at h
    · rename_i s hs
      have hs' := (front_inr hs).1
      split at h
      · rename_i r hr
        rcases body_inl hr with ⟨_, ht⟩ | ⟨_, _, rfl⟩
        · obtain ⟨l, t, h1, h2, h3, h4, _⟩ := timedout_true ht
          rw [hs'] at h1 h2
          exact ⟨t, l, p, h2, h3, by simp, h4, Or.inl h1⟩
        · simp at h
      · rename_i c s' hr
        obtain ⟨t, l, q, h1, h2, h3, h4, h5⟩ := C39_idle_due dec ps s' c h
        obtain ⟨ht, _, hr'⟩ := body_inr hr
        have key : s'.timeout = st.timeout ∧ ∀ l, s'.lastTime = some l → l = p.now ∨ l = p.later := by
          obtain ⟨-, rfl⟩ : c = _ ∧ s' = _ := by simpa using hr'
          rw [(queueNext_frame _).1, (queueNext_frame _).2.1, (pull_frame dec _ _).1, (pull_frame dec _ _).2.1, timedout_false ht, hs']
          refine ⟨wired_timeout _ _ _, fun l hl => ?_⟩
          rcases wired_lastTime { st with incoming := none, lastTime := toggled st.lastTime p.now } checked p with h | ⟨_, h⟩
          · rw [h] at hl
            unfold toggled at hl
            cases hst : st.lastTime with
            | none => rw [hst] at hl; simp at hl; exact Or.inl hl.symm
            | some l0 => rw [hst] at hl; simp at hl
          · rw [h] at hl
            simp at hl
            exact Or.inr hl.symm
        refine ⟨t, l, q, key.1 ▸ h1, h2, by simp [h3], h4, Or.inr ?_⟩
        rcases h5 with h5 | ⟨q', hq', h5⟩
        · exact ⟨p, by simp, key.2 l h5⟩
        · exact ⟨q', by simp [hq'], h5⟩

/-- **C39 (the end).** `StopIteration` is raised only with timeout 0 or when no connection is left, and only when nothing is queued. -/
theorem C39_stop (dec : α → Option β) : ∀ (ps : List (Pass α)) (st : State α β) (checked : Bool), (st.incoming ≠ none → st.pulled = []) → (loop dec st checked ps).1 = .stop →
    (st.timeout = some 0 ∨ (loop dec st checked ps).2.connections = []) ∧ ∀ db, (loop dec st checked ps).2.queued db = []
  | ps, st, checked, hp, h => by
    have hf : ∀ r, front st = .inl r → r.1 = .stop → (st.timeout = some 0 ∨ r.2.connections = []) ∧ ∀ db, r.2.queued db = [] := by
      intro r hr h
      rcases front_inl hr with ⟨_, _, _, _, rfl⟩ | ⟨hi, hc, rfl⟩
      · simp at h
      · refine ⟨hc, fun db => ?_⟩
        unfold State.queued
        dsimp only
        rw [hp (by rw [hi]; simp)]
        rfl
    cases ps with
    | nil =>
      unfold loop at h ⊢
      split
      · rename_i r hr
        rw [hr] at h
        exact hf r hr h
      · rename_i hr
        rw [hr] at h
        simp at h
    | cons p ps =>
      unfold loop at h ⊢
      split
      · rename_i r hr
        rw [hr] at h
        exact hf r hr h
      · rename_i s hs
        rw [hs] at h
        dsimp only at h
        split
        · rename_i r hr
          rw [hr] at h
          rcases body_inl hr with ⟨rfl, _⟩ | ⟨_, _, rfl⟩ <;> simp at h
        · rename_i c s' hr
          rw [hr] at h
          obtain ⟨ht, _, hr'⟩ := body_inr hr
          obtain ⟨-, rfl⟩ : c = _ ∧ s' = _ := by simpa using hr'
          have := C39_stop dec ps _ c (fun _ => (queueNext_frame _).2.2.2.2.2.2) h
          have htime : (queueNext (pull dec (wired (timedout s p.now).2 checked p) (p.order.filter (· ∈ (wired (timedout s p.now).2 checked p).connections))).2).timeout = st.timeout := by
            rw [(queueNext_frame _).1, (pull_frame dec _ _).1, wired_timeout, timedout_false ht, (front_inr hs).1]
          rw [htime] at this
          exact this

/-! ## Discarded connections -/

theorem mem_union (l : List Nat) : ∀ (s : List Nat) (i : Nat), i ∈ union s l ↔ i ∈ s ∨ i ∈ l := by
  induction l with
  | nil => simp [union]
  | cons a l ih =>
    intro s i
    have := ih (if a ∈ s then s else s ++ [a]) i
    unfold union at this ⊢
    rw [List.foldl_cons, this]
    by_cases ha : a ∈ s
    · rw [if_pos ha]
      simp only [List.mem_cons]
      constructor
      · rintro (h | h)
        · exact Or.inl h
        · exact Or.inr (Or.inr h)
      · rintro (h | rfl | h)
        · exact Or.inl h
        · exact Or.inl ha
        · exact Or.inr h
    · rw [if_neg ha]
      simp only [List.mem_append, List.mem_cons, List.not_mem_nil, or_false, or_assoc]

theorem nodup_union (l : List Nat) : ∀ (s : List Nat), s.Nodup → (union s l).Nodup := by
  induction l with
  | nil => exact fun _ h => h
  | cons a l ih =>
    intro s hs
    have := ih (if a ∈ s then s else s ++ [a])
    unfold union at this ⊢
    rw [List.foldl_cons]
    apply this
    split
    · exact hs
    · rename_i ha
      rw [List.nodup_append]
      refine ⟨hs, by simp, fun x hx y hy => ?_⟩
      have : y = a := by simpa using hy
      subst this
      rintro rfl
      exact ha hx

theorem mem_minus (s l : List Nat) (i : Nat) : i ∈ minus s l ↔ i ∈ s ∧ i ∉ l := by simp [minus]

/-- The connections are either in use or discarded, and none is both. -/
structure Split (all : List Nat) (st : State α β) : Prop where
  all : ∀ i, i ∈ all ↔ i ∈ st.connections ∨ i ∈ st.garbage
  disjoint : ∀ i ∈ st.connections, i ∉ st.garbage
  nodup : st.garbage.Nodup

theorem Split.congr {all : List Nat} {st st' : State α β} (h : Split all st) (h1 : st'.connections = st.connections) (h2 : st'.garbage = st.garbage) : Split all st' := by
  obtain ⟨a, b, c⟩ := h
  exact ⟨by rw [h1, h2]; exact a, by rw [h1, h2]; exact b, by rw [h2]; exact c⟩

theorem split_trash {all : List Nat} {st : State α β} (h : Split all st) (l : List Nat) (hl : ∀ i ∈ l, i ∈ all) : Split all (trash st l) := by
  obtain ⟨a, b, c⟩ := h
  refine ⟨fun i => ?_, fun i hi => ?_, nodup_union _ _ c⟩
  · simp only [trash, mem_union, mem_minus]
    constructor
    · intro hi
      by_cases hil : i ∈ l
      · exact Or.inr (Or.inr hil)
      · rcases (a i).mp hi with h | h
        · exact Or.inl ⟨h, hil⟩
        · exact Or.inr (Or.inl h)
    · rintro (h | h | h)
      · exact (a i).mpr (Or.inl h.1)
      · exact (a i).mpr (Or.inr h)
      · exact hl i h
  · simp only [trash, mem_union, mem_minus] at hi ⊢
    rintro (h | h)
    · exact b i hi.1 h
    · exact hi.2 h

theorem split_wait {all : List Nat} {st : State α β} (h : Split all st) (p : Pass α) : Split all (waitOnWires st p) ∧
    (∀ i ∈ (waitOnWires st p).connections, i ∈ st.connections) ∧ ∀ i ∈ st.garbage, i ∈ (waitOnWires st p).garbage := by
  unfold waitOnWires
  dsimp only
  have h1 := split_trash h ((minus st.connections st.garbage).filter p.closed) (by
    intro i hi
    exact (h.all i).mpr (Or.inl ((mem_minus _ _ _).mp (List.mem_filter.mp hi).1).1))
  refine ⟨split_trash ?_ _ ?_, ?_, ?_⟩
  · exact h1.congr rfl rfl
  · intro i hi
    refine (h.all i).mpr (Or.inl ?_)
    simp only [List.mem_append, List.mem_filter, mem_minus] at hi
    rcases hi with hi | hi
    · exact hi.1.1.1
    · exact hi.1.1.1.1
  · intro i hi
    simp only [trash, mem_minus] at hi
    exact hi.1.1
  · intro i hi
    simp only [trash, mem_union]
    exact Or.inl (Or.inl hi)

theorem split_loop (dec : α → Option β) {all : List Nat} : ∀ (ps : List (Pass α)) {st : State α β} (checked : Bool), Split all st → Split all (loop dec st checked ps).2 ∧
    (∀ i ∈ (loop dec st checked ps).2.connections, i ∈ st.connections) ∧ ∀ i ∈ st.garbage, i ∈ (loop dec st checked ps).2.garbage
  | ps, st, checked, h => by
    have hf : ∀ r, front st = .inl r → Split all r.2 ∧ (∀ i ∈ r.2.connections, i ∈ st.connections) ∧ ∀ i ∈ st.garbage, i ∈ r.2.garbage := by
      intro r hr
      rcases front_inl hr with ⟨_, _, _, _, rfl⟩ | ⟨_, _, rfl⟩
      · exact ⟨h.congr rfl rfl, fun _ h => h, fun _ h => h⟩
      · exact ⟨h.congr rfl rfl, fun _ h => h, fun _ h => h⟩
    cases ps with
    | nil =>
      unfold loop
      split
      · rename_i r hr
        exact hf r hr
      · rename_i s hs
        rw [(front_inr hs).1]
        exact ⟨h.congr rfl rfl, fun _ h => h, fun _ h => h⟩
    | cons p ps =>
      unfold loop
      split
      · rename_i r hr
        exact hf r hr
      · rename_i s hs
        rw [(front_inr hs).1]
        have hw : ∀ c l, Split all (wired { st with incoming := none, lastTime := l } c p) ∧ (∀ i ∈ (wired { st with incoming := none, lastTime := l } c p).connections, i ∈ st.connections) ∧
            ∀ i ∈ st.garbage, i ∈ (wired { st with incoming := none, lastTime := l } c p).garbage := by
          intro c l
          unfold wired
          split
          · exact split_wait (h.congr (st' := { st with incoming := none, lastTime := l }) rfl rfl) p
          · exact ⟨h.congr rfl rfl, fun _ h => h, fun _ h => h⟩
        split
        · rename_i r hr
          rcases body_inl hr with ⟨rfl, _⟩ | ⟨ht, _, rfl⟩
          · exact ⟨h.congr rfl rfl, fun _ h => h, fun _ h => h⟩
          · rw [timedout_false ht]
            dsimp only
            rw [(pull_frame dec _ _).2.2.1, (pull_frame dec _ _).2.2.2.1]
            obtain ⟨w1, w2, w3⟩ := hw checked (toggled st.lastTime p.now)
            exact ⟨w1.congr (pull_frame dec _ _).2.2.1 (pull_frame dec _ _).2.2.2.1, w2, w3⟩
        · rename_i c s' hr
          obtain ⟨ht, _, hr'⟩ := body_inr hr
          have hs' : s' = _ := (Prod.mk.inj hr').2
          have e1 : s'.connections = (wired { st with incoming := none, lastTime := toggled st.lastTime p.now } checked p).connections := by
            rw [hs', (queueNext_frame _).2.2.1, (pull_frame dec _ _).2.2.1, timedout_false ht]
          have e2 : s'.garbage = (wired { st with incoming := none, lastTime := toggled st.lastTime p.now } checked p).garbage := by
            rw [hs', (queueNext_frame _).2.2.2.1, (pull_frame dec _ _).2.2.2.1, timedout_false ht]
          obtain ⟨w1, w2, w3⟩ := hw checked (toggled st.lastTime p.now)
          obtain ⟨g1, g2, g3⟩ := split_loop dec ps c (w1.congr (st' := s') e1 e2)
          refine ⟨g1, fun i hi => w2 i ?_, fun i hi => g3 i ?_⟩
          · rw [← e1]; exact g2 i hi
          · rw [e2]; exact w3 i hi

theorem split_run (dec : α → Option β) {all : List Nat} : ∀ (os : List (Op α)) {st : State α β}, (∀ o ∈ os, ∀ db, o ≠ .add db ∧ o ≠ .discard db) → Split all st →
    Split all (run dec st os).2 ∧ (∀ i ∈ (run dec st os).2.connections, i ∈ st.connections) ∧ ∀ i ∈ st.garbage, i ∈ (run dec st os).2.garbage
  | [], st, _, h => ⟨h, fun _ h => h, fun _ h => h⟩
  | o :: os, st, ho, h => by
    have key : Split all (step dec st o).2 ∧ (∀ i ∈ (step dec st o).2.connections, i ∈ st.connections) ∧ ∀ i ∈ st.garbage, i ∈ (step dec st o).2.garbage := by
      cases o with
      | next ps => exact split_loop dec ps true h
      | arrive db l => exact ⟨h.congr rfl rfl, fun _ h => h, fun _ h => h⟩
      | settimeout t =>
        simp only [step, settimeout]
        split
        · exact ⟨h.congr rfl rfl, fun _ h => h, fun _ h => h⟩
        · split
          · exact ⟨h, fun _ h => h, fun _ h => h⟩
          · exact ⟨h.congr rfl rfl, fun _ h => h, fun _ h => h⟩
      | add db => exact absurd rfl (ho _ (by simp) db).1
      | discard db => exact absurd rfl (ho _ (by simp) db).2
    obtain ⟨a, b, c⟩ := split_run dec os (fun o' ho' => ho o' (by simp [ho'])) key.1
    exact ⟨a, fun i hi => key.2.1 i (b i hi), fun i hi => c i (key.2.2 i hi)⟩

/-- **C39 (failed connections).** At any time every connection is either in `connections` or once in `garbage`, not in both; it never comes back from `garbage` (unless the program puts it back). -/
theorem C39_discard (dec : α → Option β) (conns : List Nat) (timeout : Option Nat) (before : Nat → List α) (a b : List (Op α))
    (h : ∀ o ∈ a ++ b, ∀ db, o ≠ .add db ∧ o ≠ .discard db) :
    let st := (run dec (init conns timeout before) a).2
    let st' := (run dec st b).2
    (∀ i, i ∈ conns ↔ i ∈ st.connections ∨ i ∈ st.garbage) ∧ (∀ i, i ∈ st.connections → i ∉ st.garbage) ∧ st.garbage.Nodup ∧
    (∀ i ∈ st.garbage, i ∈ st'.garbage ∧ i ∉ st'.connections) := by
  have h0 : Split conns (init conns timeout before : State α β) := ⟨by simp [init], by simp [init], by simp [init]⟩
  obtain ⟨s1, _, _⟩ := split_run dec a (fun o ho => h o (by simp [ho])) h0
  obtain ⟨s2, _, k⟩ := split_run dec b (fun o ho => h o (by simp [ho])) s1
  exact ⟨s1.all, s1.disjoint, s1.nodup, fun i hi => ⟨k i hi, fun hc => s2.disjoint i hc (k i hi)⟩⟩

end PG.NotifyMan
