import Verif.Model.Lifecycle
import Verif.Proofs.Client3b
/-!
# A principle for invariants of a connection

An invariant that is kept by the elementary changes is kept by the methods.
-/
namespace PG.Client3
open PG PG.Element3 PG.Xact3 PG.Spec.Client PG.Lifecycle

variable {X : Type}

/-- The connection noted the status the transaction saw last. -/
def Noted (o : Ops X) (c : Conn X) (x : X) : Prop := (o.lastReady x).getD c.state = c.state

/-- Sending does not complete a transaction that is not lost. -/
def Sends (o : Ops X) : Prop := ∀ x y, o.dir x = .sending → (y = x ∨ y = o.fail x) → o.dir (o.sent x y) = .complete → o.fatal (o.sent x y) = true

/-- `P` is kept by the elementary changes of a connection, but for the removal of a transaction. -/
structure Pres0 (o : Ops X) (P : Conn X → Prop) : Prop where
  wrote : ∀ c x d, P c → c.xact = some x → o.dir x = .sending → writeMessages o c (o.messages x) = (d, .ret true) →
    P { d with xact := some (o.sent x x) }
  writeLost : ∀ c x d, P c → c.xact = some x → o.dir x = .sending → writeMessages o c (o.messages x) = (d, .ret false) →
    P d ∧ P { d with xact := some (o.sent x (o.fail x)) }
  writeOther : ∀ c x d r, P c → c.xact = some x → o.dir x = .sending → writeMessages o c (o.messages x) = (d, r) → (∀ b, r ≠ .ret b) → P d
  read : ∀ c x d r, P c → c.xact = some x → o.dir x = .receiving → readMessages o c = (d, r) → P d
  put : ∀ c x d, P c → c.xact = some x → o.dir x = .receiving → readMessages o c = (d, .ret true) → P (putRead o d x x).1
  putLost : ∀ c x d, P c → c.xact = some x → o.dir x = .receiving → readMessages o c = (d, .ret false) → P (putRead o d x (o.fail x)).1
  fail : ∀ c, P c → c.xact ≠ none → P (failXact o { c with state := [] })
  note : ∀ c x, P c → c.xact = some x → P (noteReady o c x)

/-- `P` is kept by the elementary changes of a connection. -/
structure Pres (o : Ops X) (P : Conn X → Prop) : Prop extends Pres0 o P where
  drop : ∀ c x, P c → c.xact = some x → o.dir x = .complete → o.fatal x = false → Noted o c x → P { c with xact := none }

theorem handler_pres {o : Ops X} {P : Conn X → Prop} (h : Pres0 o P) (c : Conn X) (e : CErr) (hc : P c) (hx : (handler o c e).1.xact ≠ none) :
    P (handler o c e).1 := by
  have hn : (failXact o { c with state := [] }).xact ≠ none → c.xact ≠ none := by
    intro h1 h2
    apply h1
    unfold failXact
    dsimp only
    rw [h2]
    rfl
  cases e with
  | py e => exact h.fail c hc (hn hx)
  | sock k => cases k <;> first | exact hc | exact h.fail c hc (hn hx)

theorem readIntoLoop_xact (o : Ops X) : ∀ (evs : List RecvEv) (c : Conn X),
    ((readIntoLoop o c evs).2 = .ret true → (readIntoLoop o c evs).1.xact = c.xact) ∧
    ((readIntoLoop o c evs).2 = .ret false → (readIntoLoop o c evs).1.xact = c.xact.map o.fail) := by
  intro evs
  induction evs with
  | nil =>
    intro c
    unfold readIntoLoop
    split
    · exact ⟨fun h => (by cases h), fun h => (by cases h)⟩
    · exact ⟨fun _ => rfl, fun h => by simp at h⟩
    · exact ⟨fun h => (by cases h), fun h => (by cases h)⟩
  | cons ev evs ih =>
    intro c
    unfold readIntoLoop
    split
    · exact ⟨fun h => (by cases h), fun h => (by cases h)⟩
    · exact ⟨fun _ => rfl, fun h => by simp at h⟩
    · split
      · exact ⟨fun h => by simp at h, fun _ => rfl⟩
      · exact ⟨fun h => (by cases h), fun h => (by cases h)⟩
      · exact ⟨fun h => by simp at h, fun _ => rfl⟩
      · exact ih _

theorem readMessages_xact (o : Ops X) (c : Conn X) :
    ((readMessages o c).2 = .ret true → (readMessages o c).1.xact = c.xact) ∧
    ((readMessages o c).2 = .ret false → (readMessages o c).1.xact = c.xact.map o.fail) := by
  have hi : ((readInto o c).2 = .ret true → (readInto o c).1.xact = c.xact) ∧
      ((readInto o c).2 = .ret false → (readInto o c).1.xact = c.xact.map o.fail) := by
    unfold readInto
    split
    · exact ⟨fun h => (by cases h), fun h => (by cases h)⟩
    · exact ⟨fun _ => rfl, fun h => by simp at h⟩
    · split
      · exact readIntoLoop_xact o _ _
      · exact readIntoLoop_xact o _ _
  unfold readMessages
  split
  · exact ⟨fun _ => rfl, fun h => by simp at h⟩
  · generalize readInto o c = z at hi
    obtain ⟨d, r⟩ := z
    cases r with
    | blocked => exact ⟨fun h => (by cases h), fun h => (by cases h)⟩
    | raised e => exact ⟨fun h => (by cases h), fun h => (by cases h)⟩
    | ret b =>
      dsimp only
      generalize PBuffer.read d.stream = z
      obtain ⟨res, s⟩ := z
      cases res with
      | error e => exact ⟨fun h => (by cases h), fun h => (by cases h)⟩
      | ok ms => exact hi

theorem writeMessages_xact (o : Ops X) (c : Conn X) (m : Obj) :
    ((writeMessages o c m).2 = .ret true → (writeMessages o c m).1.xact = c.xact) ∧
    ((writeMessages o c m).2 = .ret false → (writeMessages o c m).1.xact = c.xact.map o.fail) := by
  have hs : ∀ d : Conn X, ((sendMessageData o d).2 = .ret true → (sendMessageData o d).1.xact = d.xact) ∧
      ((sendMessageData o d).2 = .ret false → (sendMessageData o d).1.xact = d.xact.map o.fail) := fun d =>
    ⟨fun h => ((sendMessageData_spec o d).2.2.2.2.2.1 h).2, (sendMessageData_spec o d).2.2.2.2.2.2.1⟩
  unfold writeMessages
  dsimp only
  split
  · exact ⟨fun h => (by cases h), fun h => (by cases h)⟩
  · rename_i d hd
    have hdx : d.xact = c.xact := by
      unfold catWriting at hd
      split at hd
      · cases hd; rfl
      · split at hd
        · cases hd; rfl
        · split at hd
          · cases hd
          · cases hd; rfl
    split
    · rw [← hdx]; exact hs d
    · split
      · exact ⟨fun h => (by cases h), fun h => (by cases h)⟩
      · have := hs { d with messageData := d.messageData ++ (by assumption : Bytes), writing := some m, written := some m }
        rw [← hdx]
        exact this

theorem completePass_pres {o : Ops X} {P : Conn X → Prop} (h : Pres0 o P) (c : Conn X) (x : X) (hx : c.xact = some x) (hc : P c) :
    P (completePass o c x).1 := by
  have hsm : (completePass o c x).1.xact ≠ none := completePass_some o c x hx
  unfold completePass at hsm ⊢
  cases hd : o.dir x with
  | complete => exact h.note c x hc hx
  | receiving =>
    rw [hd] at hsm
    dsimp only at hsm ⊢
    have h1 := h.read c x
    have h2 := h.put c x
    cases hz : readMessages o c with
    | mk d r =>
      have hp := h1 d r hc hx hd hz
      rw [hz] at hsm
      cases r with
      | blocked => exact hp
      | raised e => exact handler_pres h d e hp hsm
      | ret b =>
        cases b with
        | false => exact hp
        | true =>
          have hq := h2 d hc hx hd hz
          dsimp only at hsm ⊢
          generalize putRead o d x x = z at hq hsm
          obtain ⟨d', r⟩ := z
          cases r with
          | blocked => exact hq
          | raised e => exact handler_pres h d' e hq hsm
          | ret u => cases u; exact hq
  | sending =>
    rw [hd] at hsm
    dsimp only at hsm ⊢
    cases hz : writeMessages o c (o.messages x) with
    | mk d r =>
      rw [hz] at hsm
      cases r with
      | blocked => exact h.writeOther c x d _ hc hx hd hz (by simp)
      | raised e => exact handler_pres h d e (h.writeOther c x d _ hc hx hd hz (by simp)) hsm
      | ret b =>
        cases b with
        | false => exact (h.writeLost c x d hc hx hd hz).1
        | true => exact h.wrote c x d hc hx hd hz

theorem drive_pres {o : Ops X} {P : Conn X → Prop} (h : Pres0 o P) : ∀ (n : Nat) (c : Conn X), P c → P (drive o n c).1
  | 0, c, hc => hc
  | n + 1, c, hc => by
    unfold drive
    cases hx : c.xact with
    | none => exact hc
    | some x =>
      dsimp only
      have hp := completePass_pres h c x hx hc
      generalize completePass o c x = z at hp
      obtain ⟨d, r⟩ := z
      cases r with
      | again => exact drive_pres h n d hp
      | done => exact hp
      | raised e => exact hp
      | blocked => exact hp

theorem drive_noted {o : Ops X} (hl : Lawful o) : ∀ (n : Nat) (c d : Conn X), drive o n c = (d, .ret ()) →
    ∀ x, d.xact = some x → o.fatal x = false → Noted o d x
  | 0, c, d, h => by cases h
  | n + 1, c, d, h => by
    have hh : ∀ (c : Conn X) (e : CErr), handler o c e = (d, .done) → ∀ x, d.xact = some x → o.fatal x = false → Noted o d x := by
      intro c e h x hx hf
      have hd : d = failXact o { c with state := [] } := by
        cases e with
        | py e => cases h; rfl
        | sock k => cases k <;> cases h; rfl
      subst hd
      unfold failXact at hx
      dsimp only at hx
      cases hc : c.xact with
      | none => rw [hc] at hx; cases hx
      | some y => rw [hc] at hx; cases hx; rw [hl.fail_fatal y] at hf; cases hf
    unfold drive at h
    cases hx : c.xact with
    | none => rw [hx] at h; cases h
    | some x =>
      rw [hx] at h
      dsimp only at h
      cases hz : completePass o c x with
      | mk d1 r =>
        rw [hz] at h
        cases r with
        | again => exact drive_noted hl n d1 d h
        | raised e => cases h
        | blocked => cases h
        | done =>
          cases h
          unfold completePass at hz
          cases hd : o.dir x with
          | complete =>
            rw [hd] at hz
            cases hz
            intro y hy hf
            have hy : c.xact = some y := hy
            rw [hx] at hy
            cases hy
            unfold Noted noteReady
            dsimp only
            cases o.lastReady x <;> rfl
          | receiving =>
            rw [hd] at hz
            dsimp only at hz
            generalize readMessages o c = w at hz
            obtain ⟨q, r⟩ := w
            cases r with
            | blocked => cases hz
            | raised e => exact hh q e hz
            | ret b =>
              cases b with
              | false => cases hz
              | true =>
                dsimp only at hz
                generalize putRead o q x x = w at hz
                obtain ⟨q', r⟩ := w
                cases r with
                | blocked => cases hz
                | raised e => exact hh q' e hz
                | ret u => cases hz
          | sending =>
            rw [hd] at hz
            dsimp only at hz
            generalize writeMessages o c (o.messages x) = w at hz
            obtain ⟨q, r⟩ := w
            cases r with
            | blocked => cases hz
            | raised e => exact hh q e hz
            | ret b => cases b <;> cases hz

theorem settle_pres {o : Ops X} {P : Conn X → Prop} (h : Pres o P) (c : Conn X) (hc : P c) (hd : ∀ x, c.xact = some x → o.dir x = .complete)
    (hn : ∀ x, c.xact = some x → o.fatal x = false → Noted o c x) : P (settle o c) := by
  unfold settle
  cases hx : c.xact with
  | none => exact hc
  | some x =>
    dsimp only
    split
    · exact hc
    · rename_i hf
      exact h.drop c x hc hx (hd x hx) (by simpa using hf) (hn x hx (by simpa using hf))

theorem stepEnd_pres {o : Ops X} {P : Conn X → Prop} (h : Pres o P) (c : Conn X) (hc : P c)
    (hn : ∀ x, c.xact = some x → o.dir x = .complete → o.fatal x = false → Noted o c x) : P (stepEnd o c) := by
  unfold stepEnd
  cases hx : c.xact with
  | none => exact hc
  | some x =>
    dsimp only
    split
    · rename_i hf
      exact h.drop c x hc hx hf.1 hf.2 (hn x hx hf.1 hf.2)
    · exact hc

theorem stepHandler_pres {P : Conn X → Prop} (c : Conn X) (e : CErr) (hc : P c) : P (stepHandler c e).1 := by
  cases e with
  | py e => exact hc
  | sock k => cases k <;> exact hc

theorem stepRaw_pres {o : Ops X} {P : Conn X → Prop} (h : Pres0 o P) (c : Conn X) (hc : P c) : P (stepRaw o c).1 := by
  unfold stepRaw
  cases hx : c.xact with
  | none => exact hc
  | some x =>
    dsimp only
    cases hd : o.dir x with
    | complete => exact hc
    | sending =>
      dsimp only
      have hw := writeMessages_xact o c (o.messages x)
      cases hz : writeMessages o c (o.messages x) with
      | mk d r =>
        rw [hz] at hw
        cases r with
        | blocked => exact h.writeOther c x d _ hc hx hd hz (by simp)
        | raised e => exact stepHandler_pres d e (h.writeOther c x d _ hc hx hd hz (by simp))
        | ret b =>
          dsimp only at hw ⊢
          cases b with
          | false =>
            rw [hw.2 rfl, hx]
            exact (h.writeLost c x d hc hx hd hz).2
          | true =>
            rw [hw.1 rfl, hx]
            exact h.wrote c x d hc hx hd hz
    | receiving =>
      dsimp only
      have hw := readMessages_xact o c
      cases hz : readMessages o c with
      | mk d r =>
        rw [hz] at hw
        have hp := h.read c x d r hc hx hd hz
        cases r with
        | blocked => exact hp
        | raised e => exact stepHandler_pres d e hp
        | ret b =>
          dsimp only at hw ⊢
          have hq : P (putRead o d x (d.xact.getD x)).1 := by
            cases b with
            | true =>
              rw [hw.1 rfl, hx]
              exact h.put c x d hc hx hd hz
            | false =>
              rw [hw.2 rfl, hx]
              exact h.putLost c x d hc hx hd hz
          have hsm : ∀ y, (putRead o d x y).1.xact ≠ none := by
            intro y
            unfold putRead
            generalize o.put x y d.read = w
            obtain ⟨y', r⟩ := w
            cases r <;> simp
          have hsm := hsm (d.xact.getD x)
          generalize putRead o d x (d.xact.getD x) = z at hq hsm
          obtain ⟨d', r⟩ := z
          cases r with
          | blocked => exact hq
          | raised e => exact stepHandler_pres d' e hq
          | ret u =>
            cases u
            dsimp only at hq hsm ⊢
            cases hy : d'.xact with
            | none => exact absurd hy hsm
            | some y => exact h.note d' y hq hy

/-- The last statement of `step()`, if it is reached. -/
def endStep (o : Ops X) (r : Conn X × Bool × Res Unit) : Conn X × Res Unit := (if r.2.1 then stepEnd o r.1 else r.1, r.2.2)

theorem step_stepRaw (o : Ops X) (c : Conn X) : step o c = endStep o (stepRaw o c) := by
  unfold step stepRaw
  cases c.xact with
  | none => rfl
  | some x =>
    dsimp only
    cases o.dir x with
    | complete => rfl
    | sending =>
      dsimp only
      generalize writeMessages o c (o.messages x) = z
      obtain ⟨d, r⟩ := z
      cases r with
      | blocked => rfl
      | raised e => rfl
      | ret b => rfl
    | receiving =>
      dsimp only
      generalize readMessages o c = z
      obtain ⟨d, r⟩ := z
      cases r with
      | blocked => rfl
      | raised e => rfl
      | ret b =>
        dsimp only
        generalize putRead o d x (d.xact.getD x) = z
        obtain ⟨d', r⟩ := z
        cases r with
        | blocked => rfl
        | raised e => rfl
        | ret u => cases u; rfl

theorem stepRaw_noted {o : Ops X} (hs : Sends o) (c d : Conn X) (r : Res Unit) (h : stepRaw o c = (d, true, r)) :
    ∀ x, d.xact = some x → o.dir x = .complete → o.fatal x = false → Noted o d x := by
  unfold stepRaw at h
  cases hx : c.xact with
  | none => rw [hx] at h; cases h
  | some x =>
    rw [hx] at h
    dsimp only at h
    cases hd : o.dir x with
    | complete => rw [hd] at h; cases h
    | sending =>
      rw [hd] at h
      dsimp only at h
      have hw := writeMessages_xact o c (o.messages x)
      generalize writeMessages o c (o.messages x) = w at h hw
      obtain ⟨q, r⟩ := w
      cases r with
      | blocked => cases h
      | raised e => cases h
      | ret b =>
        cases h
        intro y hy hyd hyf
        dsimp only at hy hw
        have : ∃ z, (z = x ∨ z = o.fail x) ∧ y = o.sent x z := by
          cases b with
          | true => rw [hw.1 rfl, hx] at hy; cases hy; exact ⟨x, .inl rfl, rfl⟩
          | false => rw [hw.2 rfl, hx] at hy; cases hy; exact ⟨o.fail x, .inr rfl, rfl⟩
        obtain ⟨z, hz, rfl⟩ := this
        rw [hs x z hd hz hyd] at hyf
        cases hyf
    | receiving =>
      rw [hd] at h
      dsimp only at h
      generalize readMessages o c = w at h
      obtain ⟨q, r⟩ := w
      cases r with
      | blocked => cases h
      | raised e => cases h
      | ret b =>
        dsimp only at h
        generalize putRead o q x (q.xact.getD x) = w at h
        obtain ⟨q', r⟩ := w
        cases r with
        | blocked => cases h
        | raised e => cases h
        | ret u =>
          cases u
          cases h
          intro y hy _ _
          have hy : q'.xact = some y := hy
          unfold Noted noteReady
          dsimp only
          rw [hy]
          dsimp only [Option.getD_some]
          cases o.lastReady y <;> rfl

theorem step_pres {o : Ops X} (hs : Sends o) {P : Conn X → Prop} (h : Pres o P) (c : Conn X) (hc : P c) : P (step o c).1 := by
  rw [step_stepRaw]
  unfold endStep
  dsimp only
  have hr := stepRaw_pres h.toPres0 c hc
  have hn := stepRaw_noted hs c (stepRaw o c).1 (stepRaw o c).2.2
  generalize stepRaw o c = z at hr hn
  obtain ⟨d, fin, r⟩ := z
  dsimp only at hr hn ⊢
  cases fin with
  | false => rw [if_neg (by simp)]; exact hr
  | true => rw [if_pos rfl]; exact stepEnd_pres h d hr (hn rfl)

theorem complete_drive {X : Type} (o : Ops X) : ∀ (n : Nat) (c : Conn X),
    complete o n c = match drive o n c with | (d, .ret ()) => (settle o d, .ret ()) | (d, .raised e) => (d, .raised e) | (d, .blocked) => (d, .blocked)
  | 0, c => rfl
  | n + 1, c => by
    unfold complete drive
    cases c.xact with
    | none => rfl
    | some x =>
      dsimp only
      generalize completePass o c x = z
      obtain ⟨d, r⟩ := z
      cases r with
      | again => exact complete_drive o n d
      | done => rfl
      | raised e => rfl
      | blocked => rfl

theorem drive_ret {X : Type} {o : Ops X} (hl : Lawful o) : ∀ (n : Nat) (c d : Conn X), drive o n c = (d, .ret ()) →
    ∃ x, d.xact = some x ∧ o.dir x = .complete
  | 0, c, d, h => by cases h
  | n + 1, c, d, h => by
    unfold drive at h
    cases hx : c.xact with
    | none => rw [hx] at h; cases h
    | some x =>
      rw [hx] at h
      dsimp only at h
      have hdn := completePass_done hl c (completePass o c x).1 x hx
      have hsm := completePass_some o c x hx
      generalize completePass o c x = z at h hdn hsm
      obtain ⟨d1, r⟩ := z
      cases r with
      | again => exact drive_ret hl n d1 d h
      | raised e => cases h
      | blocked => cases h
      | done =>
        cases h
        cases hy : d.xact with
        | none => exact absurd hy hsm
        | some y => exact ⟨y, rfl, hdn rfl y hy⟩

theorem drive_some {X : Type} (o : Ops X) : ∀ (n : Nat) (c : Conn X), c.xact ≠ none → (drive o n c).1.xact ≠ none
  | 0, c, h => h
  | n + 1, c, h => by
    unfold drive
    cases hx : c.xact with
    | none => exact absurd hx h
    | some x =>
      dsimp only
      have hsm := completePass_some o c x hx
      generalize completePass o c x = z at hsm
      obtain ⟨d1, r⟩ := z
      cases r with
      | again => exact drive_some o n d1 hsm
      | raised e => exact hsm
      | blocked => exact hsm
      | done => exact hsm

/-- `P` is kept when transactions are made. -/
structure PresNew (o : Ops X) (P : Conn X → Prop) : Prop extends Pres o P where
  trash : ∀ c f, P c → c.xact = none → P (takeOutTrash o f c)

theorem complete_pres {o : Ops X} (hl : Lawful o) {P : Conn X → Prop} (h : Pres o P) (n : Nat) (c : Conn X) (hc : P c) : P (complete o n c).1 := by
  rw [complete_drive]
  have hp := drive_pres h.toPres0 n c hc
  have hr := drive_ret hl n c (drive o n c).1
  have hn := drive_noted hl n c (drive o n c).1
  generalize drive o n c = z at hp hr hn
  obtain ⟨d, r⟩ := z
  cases r with
  | raised e => exact hp
  | blocked => exact hp
  | ret u =>
    cases u
    obtain ⟨x, hx, hd⟩ := hr rfl
    exact settle_pres h d hp (fun y hy => by rw [hx] at hy; cases hy; exact hd) (hn rfl)

theorem Pres0.and {o : Ops X} {P R : Conn X → Prop} (h : Pres0 o P) (k : Pres0 o R) : Pres0 o (fun c => P c ∧ R c) where
  wrote c x d hc hx hd hw := ⟨h.wrote c x d hc.1 hx hd hw, k.wrote c x d hc.2 hx hd hw⟩
  writeLost c x d hc hx hd hw := ⟨⟨(h.writeLost c x d hc.1 hx hd hw).1, (k.writeLost c x d hc.2 hx hd hw).1⟩,
    ⟨(h.writeLost c x d hc.1 hx hd hw).2, (k.writeLost c x d hc.2 hx hd hw).2⟩⟩
  writeOther c x d r hc hx hd hw hr := ⟨h.writeOther c x d r hc.1 hx hd hw hr, k.writeOther c x d r hc.2 hx hd hw hr⟩
  read c x d r hc hx hd hw := ⟨h.read c x d r hc.1 hx hd hw, k.read c x d r hc.2 hx hd hw⟩
  put c x d hc hx hd hw := ⟨h.put c x d hc.1 hx hd hw, k.put c x d hc.2 hx hd hw⟩
  putLost c x d hc hx hd hw := ⟨h.putLost c x d hc.1 hx hd hw, k.putLost c x d hc.2 hx hd hw⟩
  fail c hc hn := ⟨h.fail c hc.1 hn, k.fail c hc.2 hn⟩
  note c x hc hx := ⟨h.note c x hc.1 hx, k.note c x hc.2 hx⟩

theorem Pres.and {o : Ops X} {P R : Conn X → Prop} (h : Pres o P) (k : Pres o R) : Pres o (fun c => P c ∧ R c) where
  toPres0 := h.toPres0.and k.toPres0
  drop c x hc hx hd hf hn := ⟨h.drop c x hc.1 hx hd hf hn, k.drop c x hc.2 hx hd hf hn⟩

theorem PresNew.and {o : Ops X} {P R : Conn X → Prop} (h : PresNew o P) (k : PresNew o R) : PresNew o (fun c => P c ∧ R c) where
  toPres := h.toPres.and k.toPres
  trash c f hc hx := ⟨h.trash c f hc.1 hx, k.trash c f hc.2 hx⟩

theorem push_pres {o : Ops X} (hl : Lawful o) (hse : Sends o) {P : Conn X → Prop} (h : PresNew o P) (f : Finalizers) (n : Nat) (c : Conn X) (x : X) (hc : P c)
    (hs : ∀ d, P d → d.xact = none → P { d with xact := some x }) : P (push o f n c x).1 := by
  unfold push
  split
  · exact hc
  · have h1 : P (if c.xact.isSome then complete o n c else (c, Res.ret ())).1 := by
      split
      · exact complete_pres hl h.toPres n c hc
      · exact hc
    generalize (if c.xact.isSome then complete o n c else (c, Res.ret ())) = z at h1
    obtain ⟨d, r⟩ := z
    cases r with
    | raised e => exact h1
    | blocked => exact h1
    | ret u =>
      cases u
      dsimp only at h1 ⊢
      split
      · exact h1
      · rename_i hn
        have hn : d.xact = none := by simpa using hn
        have h2 : P (if d.garbageStatements ≠ [] ∨ d.garbageCursors ≠ [] then complete o n (takeOutTrash o f d) else (d, Res.ret ())).1 := by
          split
          · exact complete_pres hl h.toPres n _ (h.trash d f h1 hn)
          · exact h1
        generalize (if d.garbageStatements ≠ [] ∨ d.garbageCursors ≠ [] then complete o n (takeOutTrash o f d) else (d, Res.ret ())) = z at h2
        obtain ⟨e, r⟩ := z
        cases r with
        | raised e => exact h2
        | blocked => exact h2
        | ret u =>
          cases u
          dsimp only at h2 ⊢
          split
          · exact h2
          · rename_i hn
            exact step_pres hse h.toPres _ (hs e h2 (by simpa using hn))

end PG.Client3
