import Verif.Proofs.CopyLoad
import Verif.Proofs.Lifecycle4
/-!
# Loading COPY lines: steps of the connection
-/
namespace PG.CopyLoad
open PG PG.Element3 PG.Xact3 PG.Client3 PG.Lifecycle PG.Spec.Client

/-! ## A failed transaction stays failed -/

theorem pend_same {c d : Conn Y} (h : Pend c) (hs : SameOrFailed dbOps c d) : Pend d := by
  obtain ⟨x, hx, hf⟩ := h
  rcases hs with e | e
  · exact ⟨x, e.trans hx, hf⟩
  · rw [hx] at e; exact pend_fail e

theorem pend_put {d : Conn Y} {x y : Y} (hd : dbOps.dir x = .receiving) (hy : fatalOf y ≠ none) (hyx : ∃ i, y = .inst i) :
    Pend (putRead dbOps d x y).1 := by
  obtain ⟨ix, rfl⟩ := closing_receiving hd
  obtain ⟨iy, rfl⟩ := hyx
  exact ⟨_, putRead_xact dbOps d (.inst ix) (.inst iy), putAs_kept ix.inst.state iy.inst d.read hy⟩

theorem pend_pres : Pres0 dbOps Pend where
  wrote c x d h hx hd hw := by
    obtain ⟨y, hy, hf⟩ := h
    rw [hx] at hy
    cases hy
    refine ⟨_, rfl, ?_⟩
    rcases fatalOf_sent x x with e | e <;> rw [e]
    · exact hf
    · simp
  writeLost c x d h hx hd hw := by
    have hxd := (writeMessages_xact dbOps c (dbOps.messages x)).2
    rw [hw] at hxd
    have hxd := hxd rfl
    rw [hx] at hxd
    refine ⟨pend_fail hxd, _, rfl, ?_⟩
    rcases fatalOf_sent x (dbOps.fail x) with e | e <;> rw [e]
    · rw [fatalOf_fail]; simp
    · simp
  writeOther c x d r h hx hd hw hr := by
    have hs := writeMessages_same dbOps c (dbOps.messages x)
    rw [hw] at hs
    exact pend_same h hs
  read c x d r h hx hd hw := by
    have hs := readMessages_same dbOps c
    rw [hw] at hs
    exact pend_same h hs
  put c x d h hx hd hw := by
    obtain ⟨y, hy, hf⟩ := h
    rw [hx] at hy
    cases hy
    exact pend_put hd hf (closing_receiving hd)
  putLost c x d h hx hd hw := by
    obtain ⟨i, rfl⟩ := closing_receiving hd
    exact pend_put hd (by rw [fatalOf_fail]; simp) ⟨_, rfl⟩
  fail c h hx := by
    obtain ⟨y, hy, hf⟩ := h
    refine pend_fail (x := y) ?_
    unfold failXact
    dsimp only
    rw [hy]
    rfl
  note c x h hx := h

/-! ## One step -/

/-- A step of a sending transaction. -/
theorem send_step {c d : Conn Y} {x : IX} {fin : Bool} (hi : I c) (hx : c.xact = some (.inst x)) (hd : dirOf x.inst = .sending)
    (h : stepRaw dbOps c = (d, fin, .ret ())) :
    I d ∧ d.read = c.read ∧ d.nextId = c.nextId ∧ d.log = c.log ++ [⟨x.oidOf, outItems x.inst⟩] ∧
    ((d.xact = some (.inst { x with inst := sentAs x.inst.state x.inst }) ∧ Clean d) ∨ Pend d ∨ d.xact = c.xact) := by
  have hd' : dbOps.dir (.inst x) = .sending := hd
  unfold stepRaw at h
  rw [hx] at h
  dsimp only at h
  rw [hd'] at h
  dsimp only at h
  obtain ⟨_, a2, a3, a4, a5, a6⟩ := writeMessages_W dbOps c (dbOps.messages (.inst x)) hi.1
  have hiw := write_I dbOps c (dbOps.messages (.inst x)) hi
  generalize writeMessages dbOps c (dbOps.messages (.inst x)) = w at h a2 a3 a4 a5 a6 hiw
  obtain ⟨q, r⟩ := w
  dsimp only at a2 a3 a4 a5 a6 hiw
  have h1 : q.read = c.read := (congrArg (·.2.2.1) a3 :)
  have h2 : q.nextId = c.nextId := (congrArg (·.2.2.2.2.2) a3 :)
  cases r with
  | blocked => cases h
  | raised e =>
    have hq : q = d := by
      cases e with
      | py e => cases h
      | sock k => cases k <;> cases h <;> rfl
    subst hq
    exact ⟨hiw, h1, h2, a2, .inr (.inr (a6 (by simp)))⟩
  | ret b =>
    cases h
    refine ⟨I_congr (c := q) rfl rfl hiw, h1, h2, a2, ?_⟩
    cases b with
    | true =>
      left
      obtain ⟨b1, b2, b3, b4⟩ := a4 rfl
      refine ⟨?_, b1, ?_, ?_⟩
      · show q.xact.map _ = _
        rw [b2, hx]
        rfl
      · show q.wire = (squeeze q.log).flatMap bytesOf
        rw [b3, a2]
      · show ∀ x ∈ squeeze q.log, _
        rw [a2]; exact b4
    | false =>
      right; left
      refine ⟨dbOps.sent (.inst x) (dbOps.fail (.inst x)), ?_, ?_⟩
      · show q.xact.map _ = _
        rw [a5 rfl, hx]
        rfl
      · rcases fatalOf_sent (.inst x) (dbOps.fail (.inst x)) with e | e <;> rw [e]
        · rw [fatalOf_fail]; simp
        · simp

/-- A step of a receiving transaction. -/
theorem recv_step {c d : Conn Y} {x : IX} {fin : Bool} (hi : I c) (hx : c.xact = some (.inst x)) (hd : dirOf x.inst = .receiving)
    (h : stepRaw dbOps c = (d, fin, .ret ())) :
    I d ∧ wv d = wv c ∧ c.nextId ≤ d.nextId ∧
    (Pend d ∨ d.xact = c.xact ∨ ∃ b n i, b.id < d.read.id ∧ putAs x.inst.state x.inst b = (i, .ok n) ∧ d.xact = some (.inst { x with inst := i })) := by
  have hd' : dbOps.dir (.inst x) = .receiving := hd
  unfold stepRaw at h
  rw [hx] at h
  dsimp only at h
  rw [hd'] at h
  dsimp only at h
  obtain ⟨a1, a2, _, a3, a4, a5, a6, a7⟩ := readMessages_spec dbOps c hi.2
  have hir := read_I dbOps c hi
  have hsf := readMessages_same dbOps c
  generalize readMessages dbOps c = w at h a1 a2 a3 a4 a5 a6 a7 hir hsf
  obtain ⟨q, r⟩ := w
  dsimp only at a1 a2 a3 a4 a5 a6 a7 hir hsf
  have same : ∀ d : Conn Y, d.xact = q.xact → Pend d ∨ d.xact = c.xact := by
    intro d he
    rcases hsf with e | e
    · exact .inr (he.trans e)
    · left; rw [hx] at e; exact pend_fail (he.trans e)
  cases r with
  | blocked => cases h
  | raised e =>
    have hq : q = d := by
      cases e with
      | py e => cases h
      | sock k => cases k <;> cases h <;> rfl
    subst hq
    refine ⟨hir, a2, a3, ?_⟩
    rcases same q rfl with h | h
    · exact .inl h
    · exact .inr (.inl h)
  | ret b =>
    dsimp only at h
    cases b with
    | false =>
      have hxq := (a5 rfl).1
      rw [hx] at hxq
      have hxq : q.xact = some (dbOps.fail (.inst x)) := hxq
      rw [hxq] at h
      dsimp only [Option.getD] at h
      have hp : Pend (putRead dbOps q (.inst x) (dbOps.fail (.inst x))).1 := pend_put hd' (by rw [fatalOf_fail]; simp) ⟨_, rfl⟩
      have hip := put_I dbOps q (.inst x) (dbOps.fail (.inst x)) hir
      obtain ⟨_, b2, b3⟩ := putRead_spec dbOps q (.inst x) (dbOps.fail (.inst x)) hir.2
      generalize putRead dbOps q (.inst x) (dbOps.fail (.inst x)) = z at h hp hip b2 b3
      obtain ⟨z, zr⟩ := z
      dsimp only at hp hip b2 b3
      cases zr with
      | blocked => cases h
      | raised e =>
        have hq : z = d := by
          cases e with
          | py e => cases h
          | sock k => cases k <;> cases h <;> rfl
        subst hq
        exact ⟨hip, b2.trans a2, Nat.le_trans a3 b3, .inl hp⟩
      | ret u =>
        cases h
        exact ⟨I_congr (c := z) rfl rfl hip, b2.trans a2, Nat.le_trans a3 b3, .inl hp⟩
    | true =>
      have hxq : q.xact = some (.inst x) := (a4 rfl).1.trans hx
      rw [hxq] at h
      dsimp only [Option.getD] at h
      have hip := put_I dbOps q (.inst x) (.inst x) hir
      obtain ⟨_, b2, b3⟩ := putRead_spec dbOps q (.inst x) (.inst x) hir.2
      have hput : dbOps.put (.inst x) (.inst x) q.read = (.inst { x with inst := (putAs x.inst.state x.inst q.read).1 }, (putAs x.inst.state x.inst q.read).2) := rfl
      unfold putRead at h hip b2 b3
      rw [hput] at h hip b2 b3
      cases hz : putAs x.inst.state x.inst q.read with
      | mk i r =>
        rw [hz] at h hip b2 b3
        cases r with
        | error e => cases h
        | ok n =>
          cases h
          refine ⟨noteReady_I dbOps _ _ hip, b2.trans a2, Nat.le_trans a3 b3, .inr (.inr ⟨q.read, n, i, ?_, hz, rfl⟩)⟩
          exact hir.2.ids

/-- What `_pq_step` leaves when it returns. -/
theorem pqStep_ok {db db' : Db} {c : Conn Y} (hc : db.pq = .conn c) (hx : c.xact ≠ none) (h : pqStep db = (db', .ok)) :
    ∃ d fin, stepRaw dbOps (plug db.socket c) = (d, fin, .ret ()) ∧
      ((d.xact = none ∧ db'.pq = .conn d) ∨ ∃ y, d.xact = some y ∧ ((dbOps.dir y ≠ .complete ∧ db'.pq = .conn d) ∨
        (dbOps.dir y = .complete ∧ fatalOf y = none ∧ ∃ e, db'.pq = .conn e ∧ (e = d ∨ e = { d with xact := none })))) := by
  unfold pqStep at h
  rw [hc] at h
  dsimp only at h
  have hpx : (plug db.socket c).xact = c.xact := (plug_wire db.socket c).2.2.1
  cases hx' : c.xact with
  | none => exact absurd hx' hx
  | some x =>
    rw [hpx, hx'] at h
    dsimp only at h
    generalize stepRaw dbOps (plug db.socket c) = z at h ⊢
    obtain ⟨d, fin, r⟩ := z
    cases r with
    | raised e => cases h
    | blocked => cases h
    | ret u =>
      cases u
      refine ⟨d, fin, rfl, ?_⟩
      dsimp only at h
      have hse : ∀ y, d.xact = some y → (if fin = true then stepEnd dbOps d else d) = d ∨
          ((if fin = true then stepEnd dbOps d else d) = { d with xact := none } ∧ dbOps.dir y = .complete) := by
        intro y hy
        split
        · unfold stepEnd
          rw [hy]
          dsimp only
          split
          · rename_i hh; exact .inr ⟨rfl, hh.1⟩
          · exact .inl rfl
        · exact .inl rfl
      have hse0 : d.xact = none → (if fin = true then stepEnd dbOps d else d) = d := by
        intro hy
        split
        · unfold stepEnd; rw [hy]
        · rfl
      generalize (if fin = true then stepEnd dbOps d else d) = e at h hse hse0
      cases hy : d.xact with
      | none =>
        rw [hy] at h
        cases h
        exact .inl ⟨rfl, by rw [hse0 hy]⟩
      | some y =>
        rw [hy] at h
        dsimp only at h
        right
        refine ⟨y, rfl, ?_⟩
        by_cases hcy : dbOps.dir y = .complete
        · rw [if_pos hcy] at h
          right
          cases hf : fatalOf y with
          | some b => rw [hf] at h; cases h
          | none =>
            rw [hf] at h
            dsimp only at h
            refine ⟨hcy, rfl, e, ?_, ?_⟩
            · split at h
              · cases h; rfl
              · cases h
            · rcases hse y hy with e | e
              · exact .inl e
              · exact .inr e.1
        · rw [if_neg hcy] at h
          cases h
          refine .inl ⟨hcy, ?_⟩
          rcases hse y hy with e | e
          · rw [e]
          · exact absurd e.2 hcy

theorem pend_step {db db' : Db} {c : Conn Y} (hc : db.pq = .conn c) (hp : Pend c) (h : pqStep db = (db', .ok)) : ∃ d, db'.pq = .conn d ∧ Pend d := by
  have hx : c.xact ≠ none := by obtain ⟨x, hx, _⟩ := hp; rw [hx]; simp
  obtain ⟨d, fin, hs, h2⟩ := pqStep_ok hc hx h
  have hp' : Pend (plug db.socket c) := by obtain ⟨x, hx, hf⟩ := hp; exact ⟨x, (plug_wire _ _).2.2.1.trans hx, hf⟩
  have hpd := stepRaw_pres pend_pres _ hp'
  rw [hs] at hpd
  obtain ⟨y, hy, hf⟩ := id hpd
  rcases h2 with ⟨h1, _⟩ | ⟨z, hz, ⟨_, h3⟩ | ⟨_, h3, _⟩⟩
  · have hy : d.xact = some y := hy
    rw [h1] at hy; cases hy
  · exact ⟨d, h3, hpd⟩
  · have hy : d.xact = some y := hy
    rw [hy] at hz; cases hz; exact absurd h3 hf

end PG.CopyLoad
