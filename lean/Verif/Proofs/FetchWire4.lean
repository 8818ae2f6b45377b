import Verif.Proofs.FetchWire2
import Verif.Proofs.Xact3f
/-! # Errors and the end of a stream -/
namespace PG.FetchWire
open PG
open PG.Element3 PG.Xact3 PG.Client3 PG.Fetch

/-- `d` is `c`, but perhaps the transaction failed. -/
structure Frame (c d : Conn IX) : Prop where
  taken : d.taken = c.taken
  xact : d.xact = c.xact ∨ d.xact = c.xact.map instOps.fail

theorem fail_twice (x : IX) : instOps.fail (instOps.fail x) = instOps.fail x := rfl

theorem Frame.trans {c d e : Conn IX} (h : Frame c d) (k : Frame d e) : Frame c e := by
  refine ⟨k.taken.trans h.taken, ?_⟩
  rcases h.xact with h | h <;> rcases k.xact with k | k
  · exact .inl (k.trans h)
  · exact .inr (by rw [k, h])
  · exact .inr (k.trans h)
  · refine .inr ?_
    rw [k, h]
    cases c.xact <;> rfl

theorem Frame.refl (c : Conn IX) : Frame c c := ⟨rfl, .inl rfl⟩

theorem frame_send (c : Conn IX) : Frame c (sendMessageData instOps c).1 := by
  unfold sendMessageData
  generalize sendLoop c.sends c.messageData c.wire = w
  obtain ⟨evs, d, w, r⟩ := w
  dsimp only
  cases r with
  | ret _ => exact ⟨rfl, .inl rfl⟩
  | blocked => exact ⟨rfl, .inl rfl⟩
  | raised e => cases e with
    | py e => exact ⟨rfl, .inl rfl⟩
    | sock k => cases k <;> first | exact ⟨rfl, .inl rfl⟩ | exact ⟨rfl, .inr rfl⟩

theorem frame_cat {c d : Conn IX} (h : catWriting c = .ok d) : Frame c d := by
  unfold catWriting at h
  split at h
  · cases h; exact Frame.refl c
  · split at h
    · cases h; exact Frame.refl c
    · split at h
      · cases h
      · cases h; exact ⟨rfl, .inl rfl⟩

theorem frame_write (c : Conn IX) (m : Obj) : Frame c (writeMessages instOps c m).1 := by
  unfold writeMessages
  dsimp only
  cases hw : catWriting { c with log := c.log ++ [m] } with
  | error e => exact ⟨rfl, .inl rfl⟩
  | ok d =>
    have h1 : Frame c d := Frame.trans (d := { c with log := c.log ++ [m] }) ⟨rfl, .inl rfl⟩ (frame_cat hw)
    dsimp only
    split
    · exact h1.trans (frame_send d)
    · cases hm : catMessages m.items with
      | error e => exact h1.trans ⟨rfl, .inl rfl⟩
      | ok b => exact h1.trans (Frame.trans (d := { d with writing := some m, messageData := d.messageData ++ b, written := some m }) ⟨rfl, .inl rfl⟩ (frame_send _))

theorem frame_loop : ∀ (evs : List RecvEv) (c : Conn IX), Frame c (readIntoLoop instOps c evs).1
  | [], c => by
    unfold readIntoLoop
    split <;> exact ⟨rfl, .inl rfl⟩
  | ev :: evs, c => by
    unfold readIntoLoop
    split
    · exact ⟨rfl, .inl rfl⟩
    · exact ⟨rfl, .inl rfl⟩
    · split
      · exact ⟨rfl, .inr rfl⟩
      · exact ⟨rfl, .inl rfl⟩
      · exact ⟨rfl, .inr rfl⟩
      · rename_i x xs
        exact Frame.trans (d := { c with stream := PBuffer.write c.stream (x :: xs), received := c.received ++ (x :: xs) }) ⟨rfl, .inl rfl⟩ (frame_loop evs _)

theorem frame_into (c : Conn IX) : Frame c (readInto instOps c).1 := by
  unfold readInto
  split
  · exact Frame.refl c
  · exact Frame.refl c
  · split
    · rename_i d _
      exact Frame.trans (d := { c with stream := PBuffer.write c.stream d, readData := none }) ⟨rfl, .inl rfl⟩ (frame_loop _ _)
    · exact frame_loop _ _

theorem frame_read (c : Conn IX) : Frame c (Client3.readMessages instOps c).1 := by
  unfold Client3.readMessages
  split
  · exact Frame.refl c
  · have h := frame_into c
    generalize readInto instOps c = w at h ⊢
    obtain ⟨d, r⟩ := w
    dsimp only at h ⊢
    cases r with
    | raised e => exact h
    | blocked => exact h
    | ret b =>
      dsimp only
      generalize PBuffer.read d.stream = q
      obtain ⟨r, s⟩ := q
      cases r <;> exact h.trans ⟨rfl, .inl rfl⟩

/-- A put that succeeds does not forget an error, and notices those it takes. -/
theorem put_notices (st : XState) (s s' : Inst) (b : Batch) (n : Nat) (h : putAs st s b = (s', .ok n)) : (s.fatal ≠ none → s'.fatal ≠ none) ∧ ((∃ m ∈ b.msgs.take n, m.1 = 69) → s'.fatal ≠ none) := by
  have std : ∀ t : Inst, t.fatal = s.fatal → standardPut t b = (s', .ok n) → (s.fatal ≠ none → s'.fatal ≠ none) ∧ ((∃ m ∈ b.msgs.take n, m.1 = 69) → s'.fatal ≠ none) := by
    intro t ht e
    have := (standardPut_seen t b).1 s' n e
    exact ⟨by rw [← ht]; exact this.kept, this.error⟩
  unfold putAs at h
  split at h
  · exact std s rfl h
  · unfold putCopydata at h
    split at h
    · cases h
    · dsimp only at h
      split at h
      · exact std { s with state := .receiving .standardPut } rfl h
      · rename_i hc
        rw [not_or] at hc
        obtain ⟨_, hc⟩ := hc
        rw [List.length_map] at hc
        have hall := filter_all (Decidable.not_not.1 hc)
        cases h
        refine ⟨id, fun ⟨m, hm, h69⟩ => ?_⟩
        have := hall m (List.mem_of_mem_take hm)
        have h100 : m.1 = 100 := by simpa using this
        rw [h100] at h69
        cases h69
  · unfold putTupledata at h
    split at h
    · cases h
    · split at h
      · exact std { s with state := .receiving .standardPut } rfl h
      · split at h
        · cases h
        · rename_i rows hrows
          split at h
          · exact std { s with state := .receiving .standardPut } rfl h
          · rename_i hc
            have hall := parseRows_all _ _ hrows (Decidable.not_not.1 hc)
            cases h
            refine ⟨id, fun ⟨m, hm, h69⟩ => ?_⟩
            rw [hall m (List.mem_of_mem_take hm)] at h69
            cases h69
  · cases h

/-- No error among the messages that were taken, unless it is known. -/
structure Aware (s : Held) : Prop where
  error : s.obj.fatal = none → ∀ m ∈ s.conn.taken, m.1 ≠ 69
  xact : ∀ x, s.conn.xact = some x → x.inst = s.obj

/-- A failed transaction would have raised. -/
def Quiet (s : Held) : Prop := s.obj.state = .complete → s.obj.fatal = none

theorem fail_fatal (x : IX) : (instOps.fail x).inst.fatal = some true := rfl

theorem sentAs_fatal (st : XState) (s : Inst) : (sentAs st s).fatal = s.fatal := by
  unfold sentAs
  split
  · rfl
  · split <;> rfl
  · rfl

theorem frame_some {c d : Conn IX} {x : IX} (h : Frame c d) (hx : c.xact = some x) : d.xact = some x ∨ d.xact = some (instOps.fail x) := by
  rcases h.xact with k | k
  · exact .inl (k.trans hx)
  · exact .inr (by rw [k, hx]; rfl)

/-- What a step that does not raise leaves. -/
theorem open_aware {c d : Conn IX} {x : IX} {b : Bool} (hx : c.xact = some x) (ha : x.inst.fatal = none → ∀ m ∈ c.taken, m.1 ≠ 69) (h : stepOpen instOps c = (d, .ret b)) :
    ∃ y, d.xact = some y ∧ (y.inst.fatal = none → ∀ m ∈ d.taken, m.1 ≠ 69) := by
  have keep : ∀ e : Conn IX, Frame c e → ∃ y, e.xact = some y ∧ (y.inst.fatal = none → ∀ m ∈ e.taken, m.1 ≠ 69) := by
    intro e he
    rcases frame_some he hx with k | k
    · exact ⟨x, k, by rw [he.taken]; exact ha⟩
    · exact ⟨_, k, fun q => by rw [fail_fatal] at q; cases q⟩
  unfold stepOpen at h
  rw [hx] at h
  dsimp only at h
  cases hd : instOps.dir x with
  | complete => rw [hd] at h; cases h
  | sending =>
    rw [hd] at h
    dsimp only at h
    have hf := frame_write c (instOps.messages x)
    generalize writeMessages instOps c (instOps.messages x) = w at h hf
    obtain ⟨e, r⟩ := w
    dsimp only at h hf
    obtain ⟨y, k1, k2⟩ := keep e hf
    cases r with
    | ret b =>
      cases h
      refine ⟨instOps.sent x y, by dsimp only; rw [k1]; rfl, fun q => k2 ?_⟩
      rw [← q]
      exact (sentAs_fatal _ _).symm
    | blocked => cases h
    | raised e => cases e with
      | py e => cases h
      | sock k => cases k <;> first | (cases h; exact ⟨y, k1, k2⟩) | cases h
  | receiving =>
    rw [hd] at h
    dsimp only at h
    have hf := frame_read c
    generalize Client3.readMessages instOps c = w at h hf
    obtain ⟨e, r⟩ := w
    dsimp only at h hf
    obtain ⟨y, k1, k2⟩ := keep e hf
    cases r with
    | blocked => cases h
    | raised e => cases e with
      | py e => cases h
      | sock k => cases k <;> first | (cases h; exact ⟨y, k1, k2⟩) | cases h
    | ret b =>
      dsimp only at h
      rw [k1, Option.getD_some] at h
      unfold putRead at h
      have hput : instOps.put x y e.read = (⟨(putAs x.inst.state y.inst e.read).1, y.oid, y.user⟩, (putAs x.inst.state y.inst e.read).2) := rfl
      rw [hput] at h
      have hn := put_notices x.inst.state y.inst
      cases hp : putAs x.inst.state y.inst e.read with
      | mk i r =>
        rw [hp] at h
        cases r with
        | error er => cases h
        | ok n =>
          obtain ⟨n1, n2⟩ := hn _ _ _ hp
          cases h
          refine ⟨_, rfl, fun q m hm h69 => ?_⟩
          have q : i.fatal = none := q
          have hm : m ∈ e.taken ++ e.read.msgs.take n := hm
          rcases List.mem_append.mp hm with hm | hm
          · refine k2 ?_ m hm h69
            exact Classical.byContradiction fun z => n1 z q
          · exact n2 ⟨m, hm, h69⟩ q

theorem step_aware {s s' : Held} (h : Aware s) (hq : Quiet s) (e : pqStep s = (s', .fine)) : Aware s' ∧ Quiet s' := by
  unfold pqStep at e
  cases hx : s.conn.xact with
  | none => rw [hx] at e; cases e; exact ⟨h, hq⟩
  | some x =>
    rw [hx] at e
    dsimp only at e
    have hxo := h.xact x hx
    cases hs : stepOpen instOps s.conn with
    | mk d r =>
      rw [hs] at e
      cases r with
      | blocked => cases e
      | raised er => cases e
      | ret b =>
        obtain ⟨y, k1, k2⟩ := open_aware hx (by rw [hxo]; exact h.error) hs
        dsimp only at e
        rw [k1, Option.getD_some] at e
        obtain ⟨rfl, e2⟩ := Prod.mk.inj e
        have hend : (if b then stepEnd instOps d else d).taken = d.taken ∧ ((if b then stepEnd instOps d else d).xact = some y ∨ (if b then stepEnd instOps d else d).xact = none) := by
          cases b
          · exact ⟨rfl, .inl k1⟩
          · show (stepEnd instOps d).taken = _ ∧ ((stepEnd instOps d).xact = _ ∨ (stepEnd instOps d).xact = _)
            unfold stepEnd
            rw [k1]
            dsimp only
            split
            · exact ⟨rfl, .inr rfl⟩
            · exact ⟨rfl, .inl k1⟩
        refine ⟨⟨?_, fun z hz => ?_⟩, fun hc => ?_⟩
        · show y.inst.fatal = none → ∀ m ∈ (if b then stepEnd instOps d else d).taken, _
          rw [hend.1]
          exact k2
        · have hz : (if b then stepEnd instOps d else d).xact = some z := hz
          rcases hend.2 with k | k <;> rw [k] at hz <;> cases hz
          rfl
        · refine Classical.byContradiction fun hf => ?_
          rw [if_pos ⟨hc, hf⟩] at e2
          cases e2

theorem steps_aware (stop : Inst → Bool) : ∀ (fuel : Nat) {s s' : Held}, Aware s → Quiet s → steps stop fuel s = (s', .fine) → Aware s' ∧ Quiet s' ∧ (s'.obj.state = .complete ∨ stop s'.obj = true)
  | 0, s, s', _, _, e => by unfold steps at e; cases (Prod.mk.inj e).2
  | fuel + 1, s, s', h, hq, e => by
    unfold steps at e
    split at e
    · rename_i hc
      cases e
      exact ⟨h, hq, hc⟩
    · cases hs : pqStep s with
      | mk s1 r =>
        rw [hs] at e
        cases r with
        | fine =>
          obtain ⟨k1, k2⟩ := step_aware h hq hs
          exact steps_aware stop fuel k1 k2 e
        | raised => cases e
        | blocked => cases e

/-- The same of a stream; if it has let go of the transaction, this one is complete. -/
def AllAware (a : All) : Prop := Aware a.held ∧ Quiet a.held ∧ (a.live = false → a.held.obj.state = .complete)

theorem init_aware (copy : Bool) : ∀ (fuel : Nat) {s : Held} {a : All}, Aware s → Quiet s → init copy fuel s = (.fine, a) → AllAware a
  | 0, s, a, _, _, e => by unfold init at e; cases (Prod.mk.inj e).1
  | fuel + 1, s, a, h, hq, e => by
    unfold init at e
    split at e
    · cases e
      exact ⟨h, hq, fun z => by cases z⟩
    · cases hs : pqStep s with
      | mk s1 r =>
        rw [hs] at e
        cases r with
        | raised => cases e
        | blocked => cases e
        | fine =>
          obtain ⟨k1, k2⟩ := step_aware h hq hs
          dsimp only at e
          have fin : ∀ p, (steps (fun _ => false) fuel s1).2 = .fine → AllAware ⟨(steps (fun _ => false) fuel s1).1, false, p⟩ := by
            intro p hp
            obtain ⟨q1, q2, q3⟩ := steps_aware (fun _ => false) fuel k1 k2 (Prod.ext rfl hp : steps (fun _ => false) fuel s1 = (_, .fine))
            exact ⟨q1, q2, fun _ => q3.resolve_right (by simp)⟩
          cases hz : firstSeen copy (messagesReceived s1.obj) with
          | noise => rw [hz] at e; exact init_aware copy fuel k1 k2 e
          | data => rw [hz] at e; cases e; exact ⟨k1, k2, fun z => by cases z⟩
          | null =>
            rw [hz] at e
            obtain ⟨e1, rfl⟩ := Prod.mk.inj e
            exact fin _ e1
          | complete p =>
            rw [hz] at e
            obtain ⟨e1, rfl⟩ := Prod.mk.inj e
            exact fin _ e1
          | unexpected => rw [hz] at e; cases (Prod.mk.inj e).1

theorem next_aware {β : Type} (decode : List Proc → Option (List β)) {fuel : Nat} {a a' : All} {o : Out β} (h : AllAware a) (e : next decode fuel a = (o, a')) :
    (o = .stop → AllAware a' ∧ a'.held.obj.state = .complete) ∧ (∀ r, o = .chunk r → AllAware a') := by
  obtain ⟨h1, h2, h3⟩ := h
  unfold next at e
  split at e
  · cases hs : steps (fun x => !x.completed.isEmpty) fuel a.held with
    | mk s r =>
      rw [hs] at e
      cases r with
      | blocked => cases e; exact ⟨fun z => (by cases z), fun r z => by cases z⟩
      | raised => cases e; exact ⟨fun z => (by cases z), fun r z => by cases z⟩
      | fine =>
        obtain ⟨k1, k2, k3⟩ := steps_aware _ fuel h1 h2 hs
        dsimp only at e
        split at e
        · cases e; exact ⟨fun z => (by cases z), fun r z => by cases z⟩
        · split at e
          · rename_i hcomp
            cases e
            have hc : s.obj.state = .complete := k3.resolve_right (by rw [hcomp]; simp)
            exact ⟨fun _ => ⟨⟨k1, k2, fun _ => hc⟩, hc⟩, fun r z => by cases z⟩
          · split at e
            · cases e; exact ⟨fun z => (by cases z), fun r z => by cases z⟩
            · cases e
              refine ⟨fun z => (by cases z), fun r _ => ⟨⟨k1.error, fun x hx => ?_⟩, k2, fun z => by cases z⟩⟩
              have hx : s.conn.xact.map _ = some x := hx
              cases hz : s.conn.xact with
              | none => rw [hz] at hx; cases hx
              | some y =>
                rw [hz] at hx
                cases hx
                dsimp only
                rw [k1.xact y hz]
  · rename_i hl
    cases e
    have hl : a.live = false := by simpa using hl
    exact ⟨fun _ => ⟨⟨h1, h2, h3⟩, h3 hl⟩, fun r z => by cases z⟩

theorem iterate_aware {β : Type} (decode : List Proc → Option (List β)) {fuel : Nat} : ∀ (turns : Nat) {a : All}, AllAware a → (iterate decode fuel turns a).2.1 = .stop →
    AllAware (iterate decode fuel turns a).2.2 ∧ (iterate decode fuel turns a).2.2.held.obj.state = .complete
  | 0, a, _, e => by unfold iterate at e; cases e
  | turns + 1, a, h, e => by
    unfold iterate at e ⊢
    cases hn : next decode fuel a with
    | mk o a' =>
      obtain ⟨k1, k2⟩ := next_aware decode h hn
      rw [hn] at e
      cases o with
      | chunk r => exact iterate_aware decode turns (k2 r rfl) e
      | stop => exact k1 rfl
      | raised => cases e
      | blocked => cases e

end PG.FetchWire
