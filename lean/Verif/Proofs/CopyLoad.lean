import Verif.Model.CopyLoad
import Verif.Proofs.Status
/-!
# Loading COPY lines: the transaction
-/
namespace PG.CopyLoad
open PG PG.Element3 PG.Xact3 PG.Client3 PG.Lifecycle PG.Spec.Client

/-- An invariant of the positions in the loop, unless the transaction fails. -/
theorem loop_inv (cs : List Elem) (P : Loc → Prop) (hcount : ∀ l n, P l → P { l with count := n })
    (htake : ∀ l x r n, LocOk cs l → P l → react cs l.offset l.step l.cmd l.paths x = .ok (.take r n) →
      P { l with processed := l.processed ++ [r], step := n })
    (hnext : ∀ l x r rd o c p, LocOk cs l → P l → react cs l.offset l.step l.cmd l.paths x = .ok (.next r rd o c p) →
      P { l with processed := l.processed ++ [r], step := 0, offset := o, cmd := c, paths := some p }) :
    ∀ (ms : List Msg) (s : Inst) (l : Loc), s.commands = cs → LocOk cs l → P l → ∀ s' d, loop s l ms = (s', .ok d) →
      s'.fatal ≠ none ∨ (d.early = false ∧ (d.loc.offset = cs.length ∨ (LocOk cs d.loc ∧ P d.loc)))
  | [], s, l, _, hl, hp, s', d, h => by cases h; exact .inr ⟨rfl, .inr ⟨hl, hp⟩⟩
  | x :: xs, s, l, hc, hl, hp, s', d, h => by
    rw [loop_cons] at h
    cases hr : react cs l.offset l.step l.cmd l.paths x with
    | error e => rw [show react s.commands l.offset l.step l.cmd l.paths x = _ from hc ▸ hr] at h; cases h
    | ok a =>
      rw [show react s.commands l.offset l.step l.cmd l.paths x = _ from hc ▸ hr] at h
      obtain ⟨i, j, k⟩ := react_ok hr
      cases a with
      | violation ex => cases h; exact .inl (by simp)
      | fatal em => cases h; exact .inl (by simp)
      | lost em => cases h; exact .inl (by simp)
      | skip em o c p =>
        dsimp only at h
        left
        obtain ⟨i1, i2⟩ := i em o c p rfl
        obtain ⟨_, h2⟩ := loop_seen xs { s with fatal := some false, errorMessage := some (.server em) }
          { l with count := l.count + 1, offset := o, cmd := c, paths := p, step := 0 } (by show LocOk s.commands _; rw [hc]; exact ⟨i1, i2⟩)
        obtain ⟨_, _, _, h3, _⟩ := h2 s' d h
        exact h3.kept (by simp)
      | async ak =>
        dsimp only at h
        cases ha : handleAsync s ak x with
        | error e => rw [ha] at h; cases h
        | ok t =>
          rw [ha] at h
          have htc : t.commands = cs := by
            unfold handleAsync at ha
            split at ha
            · cases ha; exact hc
            · split at ha
              · cases ha; exact hc
              · cases ha
          exact loop_inv cs P hcount htake hnext xs t { l with count := l.count + 1 } htc hl (hcount l _ hp) s' d h
      | take r n =>
        exact loop_inv cs P hcount htake hnext xs s { l with count := l.count + 1, processed := l.processed ++ [r], step := n } hc hl (hcount { l with processed := l.processed ++ [r], step := n } _ (htake l x r n hl hp hr)) s' d h
      | next r rd o c p =>
        have := j r rd o c p rfl
        have htc : (setReady s rd).commands = cs := by cases rd <;> exact hc
        exact loop_inv cs P hcount htake hnext xs _ _ htc ⟨this.1, this.2⟩ (hcount { l with processed := l.processed ++ [r], step := 0, offset := o, cmd := c, paths := some p } _ (hnext l x r rd o c p hl hp hr)) s' d h
      | last r rd o =>
        cases h
        exact .inr ⟨rfl, .inl (k r rd o (loc_lt hl) rfl)⟩

/-- The same for `standard_put`: how it ended. -/
theorem standardPut_inv (P : Loc → Prop) {s i : Inst} {b : Batch} {n : Nat} (hcount : ∀ l n, P l → P { l with count := n })
    (htake : ∀ l x r n, LocOk s.commands l → P l → react s.commands l.offset l.step l.cmd l.paths x = .ok (.take r n) →
      P { l with processed := l.processed ++ [r], step := n })
    (hnext : ∀ l x r rd o c p, LocOk s.commands l → P l → react s.commands l.offset l.step l.cmd l.paths x = .ok (.next r rd o c p) →
      P { l with processed := l.processed ++ [r], step := 0, offset := o, cmd := c, paths := some p })
    (hstart : ∀ c p, s.commands[(startPos s b).offset]? = some c → hookOf c = some p → P ⟨(startPos s b).offset, (startPos s b).step, c, p, [], 0⟩)
    (h : standardPut s b = (i, .ok n)) :
    i.fatal ≠ none ∨ ∃ t l, frame0 t = frame0 s ∧ t.state = s.state ∧ t.fatal = i.fatal ∧ i = finish t b l ∧
      (l.offset = s.commands.length ∨ (LocOk s.commands l ∧ P l)) := by
  obtain ⟨a, _, e1, e2⟩ := startLoop_spec s b
  have e3 := startLoop_snd s b
  unfold standardPut at h
  generalize startLoop s b = z at h e1 e2 e3
  obtain ⟨s1, r⟩ := z
  cases r with
  | error e => cases h
  | ok l =>
    dsimp only at h e1 e2 e3
    have hl := (e2 l rfl).1
    have hp : P l := by
      cases hc : s.commands[(startPos s b).offset]? with
      | none => rw [hc] at e3; cases e3
      | some c =>
        rw [hc] at e3
        dsimp only at e3
        cases hh : hookOf c with
        | none => rw [hh] at e3; cases e3
        | some p => rw [hh] at e3; cases e3; exact hstart c p hc hh
    have hf := loop_frame0 b.msgs s1 l
    have hi := loop_inv s.commands P hcount htake hnext b.msgs s1 l (by rw [e1]) hl hp
    cases hz : loop s1 l b.msgs with
    | mk t r =>
      rw [hz] at h hf
      cases r with
      | error e => cases h
      | ok d =>
        obtain ⟨early, l'⟩ := d
        have := hi t ⟨early, l'⟩ hz
        cases early with
        | true =>
          cases h
          rcases this with h1 | ⟨h1, _⟩
          · exact .inl h1
          · cases h1
        | false =>
          cases h
          rcases this with h1 | ⟨_, h1⟩
          · left; rw [finish_fatal]; exact h1
          · right
            refine ⟨t, l', ?_, ?_, ?_, rfl, h1⟩
            · rw [hf.1, e1]; rfl
            · rw [hf.2.1 (fun l' hh => by cases hh), e1]
            · rw [finish_fatal]

/-! ## The commands of a COPY -/

/-- Where COPY data is asked for, in the tables. -/
def entryCopy (ct : UInt8) (e : UInt8 × Path × Option Nat) : Bool :=
  e.2.1 != .parse .copyFromBegin || e.2.2 == some (if ct = 69 then 3 else 1)

theorem hook_copy {ct : UInt8} {ts : List Table} (h : hook ct = some (some ts)) : ∀ tb ∈ ts, ∀ e ∈ tb, entryCopy ct e = true := by
  unfold hook at h
  split at h <;> first | (cases h; decide) | cases h

theorem call_kind {path : Path} {d : Bytes} {f : Int} {l : List Int} (h : path.call d = .ok (.elem (.copyFromBegin f l))) :
    path = .parse .copyFromBegin := by
  cases path with
  | arg => cases h
  | parse k =>
    have hk : (parseK k d).map Proc.elem = .ok (Proc.elem (.copyFromBegin f l)) := h
    cases hp : parseK k d with
    | error e => rw [hp] at hk; cases hk
    | ok m =>
      rw [hp] at hk
      cases hk
      have := parseK_kind hp
      rw [← this]
      rfl

/-- In the loop: COPY data is asked for in step 3 of an Execute. -/
def Asks (l : Loc) : Prop := l.cmd.kind.typ = some 69 → ∀ f fs, l.processed.getLast? = some (.elem (.copyFromBegin f fs)) → l.step = 3

theorem asks_take {cs : List Elem} (l : Loc) (x : Msg) (r : Proc) (n : Nat) (hl : LocOk cs l)
    (h : react cs l.offset l.step l.cmd l.paths x = .ok (.take r n)) : Asks { l with processed := l.processed ++ [r], step := n } := by
  intro ht f fs hlast
  dsimp only at ht hlast ⊢
  rw [List.getLast?_append] at hlast
  have hr : r = .elem (.copyFromBegin f fs) := by simpa using hlast
  subst hr
  obtain ⟨ts, tb, path, e1, e2, e3, e4⟩ := (react_processed h).1 _ _ rfl
  have hp := call_kind e4
  subst hp
  obtain ⟨t, h1, h2⟩ := hookOf_typ hl.2
  rw [h1] at ht
  cases ht
  rw [e1] at h2
  have := hook_copy h2 tb (List.mem_of_getElem? e2) _ (find_mem e3)
  unfold entryCopy at this
  simpa using this

theorem asks_next {cs : List Elem} (l : Loc) (x : Msg) (r : Proc) (rd) (o : Nat) (c : Elem) (p : List Table) (hl : LocOk cs l)
    (h : react cs l.offset l.step l.cmd l.paths x = .ok (.next r rd o c p)) :
    Asks { l with processed := l.processed ++ [r], step := 0, offset := o, cmd := c, paths := some p } := by
  intro _ f fs hlast
  dsimp only at hlast ⊢
  rw [List.getLast?_append] at hlast
  have hr : r = .elem (.copyFromBegin f fs) := by simpa using hlast
  subst hr
  obtain ⟨ts, tb, path, e1, e2, e3, e4, _⟩ := (react_processed h).2.1 _ _ _ _ _ rfl
  have hp := call_kind e4
  subst hp
  obtain ⟨t, h1, h2⟩ := hookOf_typ hl.2
  rw [e1] at h2
  have := hook_copy h2 tb (List.mem_of_getElem? e2) _ (find_mem e3)
  unfold entryCopy at this
  simp at this

theorem execute_at {stmt : Bytes} {o : Nat} {c : Elem} (h : (commands stmt)[o]? = some c) (ht : c.kind.typ = some 69) : o = 1 := by
  match o, h with
  | 0, h => cases h; cases ht
  | 1, _ => rfl
  | 2, h => cases h; cases ht
  | n + 3, h => cases h

theorem no_query {stmt : Bytes} {o : Nat} {c : Elem} (h : (commands stmt)[o]? = some c) (ht : c.kind.typ = some 81) : False := by
  match o, h with
  | 0, h => cases h; cases ht
  | 1, h => cases h; cases ht
  | 2, h => cases h; cases ht
  | n + 3, h => cases h

/-- What a transaction at the beginning of a COPY is like. -/
structure Asked (stmt : Bytes) (i : Inst) : Prop where
  cmds : i.commands = commands stmt
  state : i.state = .sending .sentFromStdin
  pos : i.last2 = ⟨1, 3⟩
  tail : i.copyTail = [.empty .synchronize]

theorem finish_start {stmt : Bytes} {t : Inst} {b : Batch} {l : Loc} (hc : t.commands = commands stmt) (hd : dirOf t = .receiving)
    (hl : l.offset = (commands stmt).length ∨ (LocOk (commands stmt) l ∧ Asks l)) :
    (finish t b l).commands = commands stmt ∧ (finish t b l).messages = t.messages ∧
    (dirOf (finish t b l) ≠ .sending ∨ (Asked stmt (finish t b l) ∧ (finish t b l).lastId = b.id)) := by
  have hst : dirOf t ≠ .sending := by rw [hd]; simp
  unfold finish switchState
  dsimp only
  split
  · exact ⟨hc, rfl, .inl (by simp [dirOf])⟩
  · rename_i hne
    split
    · rename_i htyp
      split
      · exact ⟨hc, rfl, .inl hst⟩
      · exact ⟨hc, rfl, .inl (by simp [dirOf])⟩
      · exact ⟨hc, rfl, .inl (by simp [dirOf])⟩
      · rename_i f fs hlast
        rcases hl with hl | ⟨hl, ha⟩
        · rw [hc] at hne; exact absurd hl hne
        · rcases htyp with htyp | htyp
          · have ho := execute_at hl.1 htyp
            have hs := ha htyp f fs hlast
            refine ⟨hc, rfl, .inr ⟨⟨hc, rfl, ?_, ?_⟩, rfl⟩⟩
            · show (⟨l.offset, l.step⟩ : Pos) = _
              rw [ho, hs]
            · show t.commands.drop (l.offset + 1) = _
              rw [hc, ho]; rfl
          · exact (no_query hl.1 htyp).elim
      · exact ⟨hc, rfl, .inl (by simp [dirOf])⟩
      · exact ⟨hc, rfl, .inl hst⟩
    · exact ⟨hc, rfl, .inl hst⟩

/-- A put before COPY data is asked for. -/
theorem put_start {stmt : Bytes} {s i : Inst} {b : Batch} {n : Nat} (hc : s.commands = commands stmt) (hd : dirOf s = .receiving)
    (h : putAs s.state s b = (i, .ok n)) :
    i.fatal ≠ none ∨ (i.commands = commands stmt ∧ i.messages = s.messages ∧
      (dirOf i ≠ .sending ∨ (Asked stmt i ∧ i.lastId = b.id))) := by
  have std : ∀ s : Inst, s.commands = commands stmt → dirOf s = .receiving → ∀ i, standardPut s b = (i, .ok n) →
      i.fatal ≠ none ∨ (i.commands = commands stmt ∧ i.messages = s.messages ∧ (dirOf i ≠ .sending ∨ (Asked stmt i ∧ i.lastId = b.id))) := by
    intro s hc hd i h
    rcases standardPut_inv Asks (fun l n h => h) (fun l x r n hl _ h => asks_take l x r n hl h)
      (fun l x r rd o c p hl _ h => asks_next l x r rd o c p hl h) (fun c p _ _ _ f fs hh => by cases hh) h with h1 | ⟨t, l, h1, h2, h3, h4, h5⟩
    · exact .inl h1
    · right
      obtain ⟨f1, _, _, _, _, f6, _⟩ := frame0_fields h1
      rw [hc] at h5
      have := finish_start (b := b) (t := t) (f1.trans hc) (by unfold dirOf at hd ⊢; rw [h2]; exact hd) h5
      rw [h4, ← f6]
      exact this
  have fast : ∀ p, fastPush s b p = (i, .ok n) → i.fatal ≠ none ∨ (i.commands = commands stmt ∧ i.messages = s.messages ∧
      (dirOf i ≠ .sending ∨ (Asked stmt i ∧ i.lastId = b.id))) := by
    intro p h
    unfold fastPush at h
    cases h
    right
    refine ⟨hc, rfl, .inl ?_⟩
    show dirOf s ≠ _
    rw [hd]; simp
  unfold putAs at h
  split at h
  · exact std s hc hd i h
  · unfold putCopydata at h
    split at h
    · cases h
    · dsimp only at h
      split at h
      · exact std { s with state := .receiving .standardPut } hc rfl i h
      · exact fast _ h
  · unfold putTupledata at h
    split at h
    · cases h
    · split at h
      · exact std { s with state := .receiving .standardPut } hc rfl i h
      · split at h
        · cases h
        · split at h
          · exact std { s with state := .receiving .standardPut } hc rfl i h
          · exact fast _ h
  · cases h

/-! ## After the data -/

/-- In the loop: nothing asks for COPY data any more. -/
def Ending (l : Loc) : Prop := (l.offset = 1 ∧ l.step = 3 ∧ l.processed = []) ∨ (l.offset = 2 ∧ l.step = 0)

theorem ending_take {stmt : Bytes} (l : Loc) (x : Msg) (r : Proc) (n : Nat) (hl : LocOk (commands stmt) l) (he : Ending l)
    (h : react (commands stmt) l.offset l.step l.cmd l.paths x = .ok (.take r n)) : False := by
  obtain ⟨ts, tb, path, e1, e2, e3, e4⟩ := (react_processed h).1 _ _ rfl
  have hm := find_mem e3
  rcases he with ⟨h1, h2, _⟩ | ⟨h1, h2⟩
  · have hcmd : l.cmd = .execute [] 1 := by have := hl.1; rw [h1] at this; exact (Option.some.inj this).symm
    have hh := hl.2
    rw [hcmd, e1] at hh
    have hh : hook 69 = some (some ts) := hh
    rw [h2] at e2
    cases hh
    cases e2
    simp at hm
  · have hcmd : l.cmd = .empty .synchronize := by have := hl.1; rw [h1] at this; exact (Option.some.inj this).symm
    have hh := hl.2
    rw [hcmd, e1] at hh
    have hh : hook 83 = some (some ts) := hh
    rw [h2] at e2
    cases hh
    cases e2
    simp at hm

theorem ending_next {stmt : Bytes} (l : Loc) (x : Msg) (r : Proc) (rd) (o : Nat) (c : Elem) (p : List Table) (he : Ending l)
    (h : react (commands stmt) l.offset l.step l.cmd l.paths x = .ok (.next r rd o c p)) :
    Ending { l with processed := l.processed ++ [r], step := 0, offset := o, cmd := c, paths := some p } := by
  obtain ⟨_, _, _, _, _, _, _, _, ha⟩ := (react_processed h).2.1 _ _ _ _ _ rfl
  rcases he with ⟨h1, h2, _⟩ | ⟨h1, h2⟩
  · rw [h1] at ha
    have ha : (Except.ok (2, some (Elem.empty .synchronize, syncTables)) : Except Err _) = .ok (o, some (c, p)) := ha
    cases ha
    exact .inr ⟨rfl, rfl⟩
  · rw [h1] at ha
    have ha : (Except.ok (3, none) : Except Err (Nat × Option (Elem × List Table))) = .ok (o, some (c, p)) := ha
    cases ha

/-- A transaction after its COPY data. -/
structure Ended (stmt : Bytes) (i : Inst) : Prop where
  cmds : i.commands = commands stmt
  state : i.state = .receiving .standardPut ∨ i.state = .complete
  pos : i.state = .complete ∨ i.last2 = ⟨1, 3⟩ ∨ i.last2 = ⟨2, 0⟩

theorem finish_end {stmt : Bytes} {t : Inst} {b : Batch} {l : Loc} (hc : t.commands = commands stmt) (hs : t.state = .receiving .standardPut)
    (hl : l.offset = (commands stmt).length ∨ (LocOk (commands stmt) l ∧ Ending l)) :
    Ended stmt (finish t b l) ∧ (finish t b l).lastId = b.id := by
  unfold finish switchState
  dsimp only
  split
  · exact ⟨⟨hc, .inr rfl, .inl rfl⟩, rfl⟩
  · rename_i hne
    rcases hl with hl | ⟨hl, ha⟩
    · rw [hc] at hne; exact absurd hl hne
    · have hpos : (⟨l.offset, l.step⟩ : Pos) = ⟨1, 3⟩ ∨ (⟨l.offset, l.step⟩ : Pos) = ⟨2, 0⟩ := by
        rcases ha with ⟨h1, h2, _⟩ | ⟨h1, h2⟩ <;> rw [h1, h2]
        · exact .inl rfl
        · exact .inr rfl
      split
      · rename_i htyp
        rcases ha with ⟨h1, h2, h3⟩ | ⟨h1, h2⟩
        · rw [h3]
          exact ⟨⟨hc, .inl hs, .inr hpos⟩, rfl⟩
        · have hcmd : l.cmd = .empty .synchronize := by have := hl.1; rw [h1] at this; exact (Option.some.inj this).symm
          rw [hcmd] at htyp
          rcases htyp with h | h <;> cases h
      · exact ⟨⟨hc, .inl hs, .inr hpos⟩, rfl⟩

theorem put_end {stmt : Bytes} {s i : Inst} {b : Batch} {n : Nat} (he : Ended stmt s) (hs : dirOf s = .receiving) (hid : b.id ≠ s.lastId)
    (h : putAs s.state s b = (i, .ok n)) : i.fatal ≠ none ∨ (Ended stmt i ∧ i.lastId = b.id) := by
  have hst : s.state = .receiving .standardPut := by
    rcases he.state with h | h
    · exact h
    · unfold dirOf at hs; rw [h] at hs; cases hs
  rw [hst] at h
  have h : standardPut s b = (i, .ok n) := h
  have hpos : startPos s b = ⟨1, 3⟩ ∨ startPos s b = ⟨2, 0⟩ := by
    unfold startPos
    rw [if_neg hid]
    rcases he.pos with h | h
    · rw [h] at hst; cases hst
    · exact h
  rcases standardPut_inv (s := s) Ending (fun l n h => h) (fun l x r n hl ha h => by rw [he.cmds] at hl h; exact (ending_take l x r n hl ha h).elim)
    (fun l x r rd o c p hl ha h => by rw [he.cmds] at h; exact ending_next l x r rd o c p ha h)
    (fun c p _ _ => by
      rcases hpos with h | h <;> rw [h]
      · exact .inl ⟨rfl, rfl, rfl⟩
      · exact .inr ⟨rfl, rfl⟩) h with h1 | ⟨t, l, h1, h2, h3, h4, h5⟩
  · exact .inl h1
  · right
    obtain ⟨f1, _, _, _, _, f6, _⟩ := frame0_fields h1
    rw [he.cmds] at h5
    rw [h4]
    exact finish_end (f1.trans he.cmds) (h2.trans hst) h5

end PG.CopyLoad
