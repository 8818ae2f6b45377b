import Verif.Model.CopyReceiver
import Verif.Proofs.CopyLoad7
/-!
# Receiving into a COPY: the transaction after the data, and how the connection completes it
-/
namespace PG.CopyReceiver
open PG PG.Element3 PG.Xact3 PG.Client3 PG.Lifecycle PG.CopyLoad PG.Spec.Client

/-- A server error after the data: the transaction waits for the end of the synchronization. -/
theorem skip_end {stmt : Bytes} {l : Loc} {x : Msg} {em o c p} (hl : LocOk (commands stmt) l) (he : Ending l)
    (h : react (commands stmt) l.offset l.step l.cmd l.paths x = .ok (.skip em o c p)) : o = 2 := by
  have key : findSync ((commands stmt).drop l.offset) l.offset = some 2 ∧ l.cmd.kind.typ ≠ some 70 ∧ l.cmd.kind.typ ≠ some 81 := by
    rcases he with ⟨h1, _⟩ | ⟨h1, _⟩
    · have hcmd : l.cmd = .execute [] 1 := by have := hl.1; rw [h1] at this; exact (Option.some.inj this).symm
      rw [h1, hcmd]
      exact ⟨rfl, by decide, by decide⟩
    · have hcmd : l.cmd = .empty .synchronize := by have := hl.1; rw [h1] at this; exact (Option.some.inj this).symm
      rw [h1, hcmd]
      exact ⟨rfl, by decide, by decide⟩
  obtain ⟨k1, k2, k3⟩ := key
  unfold react at h
  split at h
  · cases h
  · split at h
    · cases h
    · split at h
      · split at h
        · split at h
          · split at h
            · cases h
            · cases h
            · split at h
              · cases h
              · rw [if_neg (show ¬ (l.cmd.kind.typ = some 70 ∨ l.cmd.kind.typ = some 81) by rintro (h | h); exact k2 h; exact k3 h), k1] at h
                dsimp only at h
                split at h
                · cases h
                · split at h
                  · cases h
                  · cases h; rfl
          · cases h
          · cases h
        · split at h <;> cases h
      · split at h
        · cases h
        · split at h
          · cases h
          · split at h <;> cases h

theorem loop_end {stmt : Bytes} : ∀ (ms : List Msg) (s : Inst) (l : Loc), s.commands = commands stmt → LocOk (commands stmt) l → Ending l →
    ∀ s' d, loop s l ms = (s', .ok d) → (d.early = true ∧ s'.commands = commands stmt ∧ s'.state = .complete) ∨
      (d.early = false ∧ s'.state = s.state ∧ (d.loc.offset = (commands stmt).length ∨ (LocOk (commands stmt) d.loc ∧ Ending d.loc)))
  | [], s, l, _, hl, hp, s', d, h => by cases h; exact .inr ⟨rfl, rfl, .inr ⟨hl, hp⟩⟩
  | x :: xs, s, l, hc, hl, hp, s', d, h => by
    rw [loop_cons] at h
    cases hr : react (commands stmt) l.offset l.step l.cmd l.paths x with
    | error e => rw [show react s.commands l.offset l.step l.cmd l.paths x = _ from hc ▸ hr] at h; cases h
    | ok a =>
      rw [show react s.commands l.offset l.step l.cmd l.paths x = _ from hc ▸ hr] at h
      obtain ⟨i, j, k⟩ := react_ok hr
      cases a with
      | violation ex => cases h; exact .inl ⟨rfl, hc, rfl⟩
      | fatal em => cases h; exact .inl ⟨rfl, hc, rfl⟩
      | lost em => cases h; exact .inl ⟨rfl, hc, rfl⟩
      | skip em o c p =>
        dsimp only at h
        obtain ⟨i1, i2⟩ := i em o c p rfl
        have ho := skip_end hl hp hr
        rcases loop_end xs { s with fatal := some false, errorMessage := some (.server em) }
          { l with count := l.count + 1, offset := o, cmd := c, paths := p, step := 0 } hc ⟨i1, i2⟩ (.inr ⟨ho, rfl⟩) s' d h with g | g
        · exact .inl g
        · exact .inr g
      | async ak =>
        dsimp only at h
        cases ha : handleAsync s ak x with
        | error e => rw [ha] at h; cases h
        | ok t =>
          rw [ha] at h
          have htc : t.commands = commands stmt ∧ t.state = s.state := by
            unfold handleAsync at ha
            split at ha
            · cases ha; exact ⟨hc, rfl⟩
            · split at ha
              · cases ha; exact ⟨hc, rfl⟩
              · cases ha
          rcases loop_end xs t { l with count := l.count + 1 } htc.1 hl hp s' d h with g | ⟨g1, g2, g3⟩
          · exact .inl g
          · exact .inr ⟨g1, g2.trans htc.2, g3⟩
      | take r n => exact (ending_take l x r n hl hp hr).elim
      | next r rd o c p =>
        have := j r rd o c p rfl
        have htc : (setReady s rd).commands = commands stmt ∧ (setReady s rd).state = s.state := by cases rd <;> exact ⟨hc, rfl⟩
        rcases loop_end xs _ { l with count := l.count + 1, processed := l.processed ++ [r], step := 0, offset := o, cmd := c, paths := some p } htc.1
          ⟨this.1, this.2⟩ (ending_next l x r rd o c p hp hr) s' d h with g | ⟨g1, g2, g3⟩
        · exact .inl g
        · exact .inr ⟨g1, g2.trans htc.2, g3⟩
      | last r rd o =>
        cases h
        exact .inr ⟨rfl, by cases rd <;> rfl, .inl (k r rd o (loc_lt hl) rfl)⟩

/-- Whatever the server answers to the end of the data, nothing more is sent for the transaction. -/
theorem put_ended {stmt : Bytes} {s i : Inst} {b : Batch} {n : Nat} (he : Ended stmt s) (hs : dirOf s = .receiving) (hid : b.id ≠ s.lastId)
    (h : putAs s.state s b = (i, .ok n)) : Ended stmt i ∧ (i.state = .complete ∨ i.lastId = b.id) ∧ i.lastId ≤ max s.lastId b.id := by
  have hst : s.state = .receiving .standardPut := by
    rcases he.state with h | h
    · exact h
    · unfold dirOf at hs; rw [h] at hs; cases hs
  rw [hst] at h
  have h : standardPut s b = (i, .ok n) := h
  have hpos : startPos s b = ⟨1, 3⟩ ∨ startPos s b = ⟨2, 0⟩ := by
    unfold startPos
    rw [if_neg hid]
    rcases he.pos with h | h
    · rw [h] at hst; cases hst
    · exact h
  obtain ⟨a, _, e1, e2⟩ := startLoop_spec s b
  have e3 := startLoop_snd s b
  unfold standardPut at h
  generalize startLoop s b = z at h e1 e2 e3
  obtain ⟨s1, r⟩ := z
  cases r with
  | error e => cases h
  | ok l =>
    dsimp only at h e1 e2 e3
    have hl := (e2 l rfl).1
    rw [he.cmds] at hl
    have hp : Ending l := by
      cases hc : s.commands[(startPos s b).offset]? with
      | none => rw [hc] at e3; cases e3
      | some c =>
        rw [hc] at e3
        dsimp only at e3
        cases hh : hookOf c with
        | none => rw [hh] at e3; cases e3
        | some p =>
          rw [hh] at e3
          cases e3
          rcases hpos with h | h <;> rw [h]
          · exact .inl ⟨rfl, rfl, rfl⟩
          · exact .inr ⟨rfl, rfl⟩
    have hf := loop_frame0 b.msgs s1 l
    have hs1 : s1.commands = commands stmt ∧ s1.state = s.state ∧ s1.lastId = s.lastId := by rw [e1]; exact ⟨he.cmds, rfl, rfl⟩
    cases hz : loop s1 l b.msgs with
    | mk t r =>
      rw [hz] at h hf
      cases r with
      | error e => cases h
      | ok d =>
        have g := loop_end b.msgs s1 l hs1.1 hl hp t d hz
        obtain ⟨f1, _, f3, _⟩ := frame0_fields hf.1
        obtain ⟨early, l'⟩ := d
        cases early with
        | true =>
          cases h
          rcases g with ⟨_, g1, g2⟩ | ⟨g1, _⟩
          · exact ⟨⟨g1, .inr g2, .inl g2⟩, .inl g2, by rw [f3, hs1.2.2]; exact Nat.le_max_left _ _⟩
          · cases g1
        | false =>
          cases h
          rcases g with ⟨g1, _⟩ | ⟨_, g2, g3⟩
          · cases g1
          · obtain ⟨k1, k2⟩ := finish_end (b := b) (f1.trans hs1.1) (g2.trans (hs1.2.1.trans hst)) g3
            exact ⟨k1, .inr k2, by rw [k2]; exact Nat.le_max_right _ _⟩

end PG.CopyReceiver
