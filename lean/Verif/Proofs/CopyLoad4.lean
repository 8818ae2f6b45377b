import Verif.Proofs.CopyLoad3
/-!
# Loading COPY lines: the end of the data
-/
namespace PG.CopyLoad
open PG PG.Element3 PG.Xact3 PG.Client3 PG.Lifecycle PG.Spec.Client

/-- A lost connection is noticed. -/
theorem lost {c d : Conn Y} {x : Y} (hx : c.xact = some x) (hw : writeMessages dbOps c (dbOps.messages x) = (d, .ret false)) :
    Pend d ∧ Pend { d with xact := some (dbOps.sent x (dbOps.fail x)) } := by
  have hxd := (writeMessages_xact dbOps c (dbOps.messages x)).2
  rw [hw] at hxd
  have hxd := hxd rfl
  rw [hx] at hxd
  refine ⟨pend_fail hxd, _, rfl, ?_⟩
  rcases fatalOf_sent x (dbOps.fail x) with e | e <;> rw [e]
  · rw [fatalOf_fail]; simp
  · simp

theorem readIntoLoop_read (o : Ops Y) : ∀ (evs : List RecvEv) (c : Conn Y), (readIntoLoop o c evs).1.read = c.read ∧ (readIntoLoop o c evs).1.nextId = c.nextId := by
  intro evs
  induction evs with
  | nil =>
    intro c
    unfold readIntoLoop
    split <;> exact ⟨rfl, rfl⟩
  | cons ev evs ih =>
    intro c
    unfold readIntoLoop
    split
    · exact ⟨rfl, rfl⟩
    · exact ⟨rfl, rfl⟩
    · split
      · exact ⟨rfl, rfl⟩
      · exact ⟨rfl, rfl⟩
      · exact ⟨rfl, rfl⟩
      · exact ih _

/-- What is there to be processed after reading: what was there, or a new batch. -/
theorem readMessages_read (c : Conn Y) : (readMessages dbOps c).1.read = c.read ∨ (readMessages dbOps c).1.read.id = c.nextId := by
  unfold readMessages
  split
  · exact .inl rfl
  · have h1 : (readInto dbOps c).1.read = c.read ∧ (readInto dbOps c).1.nextId = c.nextId := by
      unfold readInto
      split
      · exact ⟨rfl, rfl⟩
      · exact ⟨rfl, rfl⟩
      · split
        · exact readIntoLoop_read _ _ _
        · exact readIntoLoop_read _ _ _
    generalize readInto dbOps c = z at h1
    obtain ⟨d, r⟩ := z
    cases r with
    | raised e => exact .inl h1.1
    | blocked => exact .inl h1.1
    | ret b =>
      dsimp only
      cases PBuffer.read d.stream with
      | mk a s =>
        cases a with
        | error e => exact .inl h1.1
        | ok ms => exact .inr h1.2

theorem standardPut_error {s i : Inst} {b : Batch} {e : Err} (h : standardPut s b = (i, .error e)) : frame0 i = frame0 s ∧ i.state = s.state := by
  obtain ⟨_, _, e1, _⟩ := startLoop_spec s b
  unfold standardPut at h
  generalize startLoop s b = z at h e1
  obtain ⟨s1, r⟩ := z
  dsimp only at e1
  have hs1 : frame0 s1 = frame0 s ∧ s1.state = s.state := by rw [e1]; exact ⟨rfl, rfl⟩
  cases r with
  | error e => cases h; exact hs1
  | ok l =>
    dsimp only at h
    obtain ⟨f1, f2, _⟩ := loop_frame0 b.msgs s1 l
    generalize loop s1 l b.msgs = w at h f1 f2
    obtain ⟨t, r⟩ := w
    cases r with
    | error e => cases h; exact ⟨f1.trans hs1.1, (f2 (fun l' hh => by cases hh)).trans hs1.2⟩
    | ok d =>
      obtain ⟨early, l'⟩ := d
      cases early <;> cases h

/-- What is known while the data is being ended: written up to `G`, then the CopyDone. -/
def Fin (G : List Obj) (k : Nat) (stmt : Bytes) (c : Conn Y) : Prop :=
  I c ∧ (Pend c ∨ Ours k stmt c (fun x => Fresh c x.inst ∧ (
    (Asked stmt x.inst ∧ x.inst.messages = .copyDone ∧ (squeeze c.log = G ∨ squeeze c.log = G ++ [objE k])) ∨
    (Ended stmt x.inst ∧ Clean c ∧ squeeze c.log = G ++ [objE k]))))

theorem asked_obj {k : Nat} {stmt : Bytes} {x : IX} (hk : x.oid = k) (ha : Asked stmt x.inst) (hm : x.inst.messages = .copyDone) :
    dbOps.messages (.inst x) = objE k := by
  show (⟨x.oidOf, outItems x.inst⟩ : Obj) = _
  unfold IX.oidOf outItems objE
  rw [hm, hk, ha.pos, ha.tail]
  rfl

theorem fin_read {G : List Obj} {k : Nat} {stmt : Bytes} {c d : Conn Y} {x : Y} {r : Res Bool} (h : Fin G k stmt c) (hx : c.xact = some x)
    (hd : dbOps.dir x = .receiving) (hw : readMessages dbOps c = (d, r)) :
    Fin G k stmt d ∧ (Pend d ∨ d.xact ≠ c.xact ∨ ∃ ix, x = .inst ix ∧ ix.oid = k ∧ ix.inst.commands = commands stmt ∧ Fresh d ix.inst ∧ Ended stmt ix.inst ∧ Clean d ∧ squeeze d.log = G ++ [objE k]) := by
  obtain ⟨hi, h⟩ := h
  have hir := read_I dbOps c hi
  obtain ⟨_, a2, _, a4, _⟩ := readMessages_spec dbOps c hi.2
  have hsf := readMessages_same dbOps c
  have hrr := readMessages_read c
  rw [hw] at hir a2 a4 hsf hrr
  dsimp only at hir a2 a4 hsf hrr
  have hlog : d.log = c.log := (congrArg (·.2.2.2.2) a2 :)
  rcases h with hp | ⟨ix, hix, hk, hc, hf, h⟩
  · have := pend_same hp hsf
    exact ⟨⟨hir, .inl this⟩, .inl this⟩
  · rw [hx] at hix
    cases hix
    rcases h with ⟨ha, _⟩ | ⟨he, hcl, hl⟩
    · have hd : dirOf ix.inst = .receiving := hd
      unfold dirOf at hd; rw [ha.state] at hd; cases hd
    · have hfd : Fresh d ix.inst := by
        refine ⟨Nat.lt_of_lt_of_le hf.1 a4, ?_⟩
        rcases hrr with e | e
        · rw [e]; exact hf.2
        · right; rw [e]; have := hf.1; omega
      have hcd : Clean d := Clean_congr a2.symm hcl
      rcases hsf with e | e
      · exact ⟨⟨hir, .inr ⟨ix, e.trans hx, hk, hc, hfd, .inr ⟨he, hcd, by rw [hlog]; exact hl⟩⟩⟩, .inr (.inr ⟨ix, rfl, hk, hc, hfd, he, hcd, by rw [hlog]; exact hl⟩)⟩
      · rw [hx] at e
        exact ⟨⟨hir, .inl (pend_fail e)⟩, .inl (pend_fail e)⟩

theorem fin_put {G : List Obj} {k : Nat} {stmt : Bytes} {d : Conn Y} {x : IX} (hi : I d) (hd : dirOf x.inst = .receiving) (hk : x.oid = k) (hc : x.inst.commands = commands stmt)
    (hf : Fresh d x.inst) (he : Ended stmt x.inst) (hcl : Clean d) (hl : squeeze d.log = G ++ [objE k]) (hne : d.read.msgs ≠ []) :
    Fin G k stmt (putRead dbOps d (.inst x) (.inst x)).1 := by
  have hip := put_I dbOps d (.inst x) (.inst x) hi
  refine ⟨hip, ?_⟩
  have hput : dbOps.put (.inst x) (.inst x) d.read = (.inst { x with inst := (putAs x.inst.state x.inst d.read).1 }, (putAs x.inst.state x.inst d.read).2) := rfl
  have hid : d.read.id ≠ x.inst.lastId := by
    rcases hf.2 with h | h
    · exact absurd h hne
    · exact h
  have hst : x.inst.state = .receiving .standardPut := by
    rcases he.state with h | h
    · exact h
    · unfold dirOf at hd; rw [h] at hd; cases hd
  unfold putRead at hip ⊢
  rw [hput] at hip ⊢
  cases hz : putAs x.inst.state x.inst d.read with
  | mk i r =>
    rw [hz] at hip
    cases r with
    | error e =>
      dsimp only
      right
      rw [hst] at hz
      obtain ⟨f1, f2⟩ := standardPut_error (s := x.inst) hz
      obtain ⟨g1, g2, g3, g4, g5, g6, g7⟩ := frame0_fields f1
      refine ⟨_, rfl, hk, g1.trans hc, ?_, .inr ⟨⟨g1.trans hc, ?_, ?_⟩, hcl, hl⟩⟩
      · unfold Fresh; rw [show _ = x.inst.lastId from g3]; exact hf
      · show i.state = _ ∨ i.state = _
        rw [f2]; exact he.state
      · show i.state = _ ∨ i.last2 = _ ∨ i.last2 = _
        rw [f2, g5]; exact he.pos
    | ok n =>
      dsimp only
      have hcm : i.commands = commands stmt := by
        have := putAs_commands x.inst.state x.inst d.read
        rw [hz] at this
        exact this.trans hc
      rcases put_end he hd hid hz with h | ⟨h1, h2⟩
      · exact .inl ⟨_, rfl, h⟩
      · right
        have hids : d.read.id < d.nextId := hi.2.ids
        refine ⟨_, rfl, hk, hcm, ⟨?_, .inr ?_⟩, .inr ⟨h1, hcl, hl⟩⟩
        · show i.lastId < d.nextId + 1
          rw [h2]; omega
        · show d.nextId ≠ i.lastId
          rw [h2]; omega

theorem fin_pres {G : List Obj} {k : Nat} {stmt : Bytes} (hG : G.getLast?.map (·.id) ≠ some (objE k).id) : Pres0 dbOps (Fin G k stmt) where
  wrote c x d h hx hd hw := by
    obtain ⟨hi, h⟩ := h
    obtain ⟨_, a2, a3, a4, a5, a6⟩ := writeMessages_W dbOps c (dbOps.messages x) hi.1
    have hiw := write_I dbOps c (dbOps.messages x) hi
    rw [hw] at a2 a3 a4 hiw
    dsimp only at a2 a3 a4 hiw
    refine ⟨I_congr (c := d) rfl rfl hiw, ?_⟩
    rcases h with hp | ⟨ix, hix, hk, hc, hf, h⟩
    · exact .inl (pend_pres.wrote c x d hp hx hd hw)
    · rw [hx] at hix
      cases hix
      have hd : dirOf ix.inst = .sending := hd
      rcases h with ⟨ha, hm, hl⟩ | ⟨he, _⟩
      · right
        rw [asked_obj hk ha hm] at a2 a4
        have hlog : squeeze d.log = G ++ [objE k] := by rw [a2]; exact sq_next hG hl
        obtain ⟨b1, _, b3, b4⟩ := a4 rfl
        have hs : sentAs ix.inst.state ix.inst = { ix.inst with messages := .empty, state := .receiving .standardPut } := by
          rw [ha.state]; unfold sentAs; dsimp only; rw [if_pos (.inl hm)]
        have hr : d.read = c.read := (congrArg (·.2.2.1) a3 :)
        have hn : d.nextId = c.nextId := (congrArg (·.2.2.2.2.2) a3 :)
        refine ⟨{ ix with inst := sentAs ix.inst.state ix.inst }, rfl, hk, by rw [hs]; exact hc, ?_, .inr ⟨?_, ?_, hlog⟩⟩
        · rw [hs]; unfold Fresh; dsimp only; rw [hr, hn]; exact hf
        · rw [hs]; exact ⟨hc, .inl rfl, .inr (.inl ha.pos)⟩
        · refine ⟨b1, ?_, ?_⟩
          · show d.wire = (squeeze d.log).flatMap bytesOf; rw [b3, a2]
          · show ∀ x ∈ squeeze d.log, _; rw [a2]; exact b4
      · unfold dirOf at hd
        rcases he.state with e | e <;> rw [e] at hd <;> cases hd
  writeLost c x d h hx hd hw := by
    have hiw := write_I dbOps c (dbOps.messages x) h.1
    rw [hw] at hiw
    obtain ⟨h1, h2⟩ := lost hx hw
    exact ⟨⟨hiw, .inl h1⟩, ⟨I_congr (c := d) rfl rfl hiw, .inl h2⟩⟩
  writeOther c x d r h hx hd hw hr := by
    obtain ⟨hi, h⟩ := h
    obtain ⟨_, a2, a3, a4, a5, a6⟩ := writeMessages_W dbOps c (dbOps.messages x) hi.1
    have hiw := write_I dbOps c (dbOps.messages x) hi
    rw [hw] at a2 a3 a6 hiw
    dsimp only at a2 a3 a6 hiw
    refine ⟨hiw, ?_⟩
    have hxd := a6 hr
    rcases h with hp | ⟨ix, hix, hk, hc, hf, h⟩
    · exact .inl (pend_same hp (.inl hxd))
    · rw [hx] at hix
      cases hix
      have hd : dirOf ix.inst = .sending := hd
      rcases h with ⟨ha, hm, hl⟩ | ⟨he, _⟩
      · right
        rw [asked_obj hk ha hm] at a2
        have hrd : d.read = c.read := (congrArg (·.2.2.1) a3 :)
        have hn : d.nextId = c.nextId := (congrArg (·.2.2.2.2.2) a3 :)
        exact ⟨ix, hxd.trans hx, hk, hc, by unfold Fresh; rw [hrd, hn]; exact hf, .inl ⟨ha, hm, .inr (by rw [a2]; exact sq_next hG hl)⟩⟩
      · unfold dirOf at hd
        rcases he.state with e | e <;> rw [e] at hd <;> cases hd
  read c x d r h hx hd hw := (fin_read h hx hd hw).1
  put c x d h hx hd hw := by
    obtain ⟨_, _, _, _, a5, _⟩ := readMessages_spec dbOps c h.1.2
    rw [hw] at a5
    obtain ⟨b1, b2, _⟩ := a5 rfl
    obtain ⟨hf, hcase⟩ := fin_read h hx hd hw
    rcases hcase with hp | hn | ⟨ix, rfl, hk, hc, hfr, he, hcl, hl⟩
    · obtain ⟨y, hy, hfy⟩ := hp
      have hyx : y = x := by have b1 : d.xact = c.xact := b1; rw [b1, hx] at hy; exact (Option.some.inj hy).symm
      subst hyx
      exact ⟨put_I dbOps d y y hf.1, .inl (pend_put hd hfy (closing_receiving hd))⟩
    · exact absurd b1 hn
    · exact fin_put hf.1 hd hk hc hfr he hcl hl b2
  putLost c x d h hx hd hw := by
    obtain ⟨i, rfl⟩ := closing_receiving hd
    have hir := read_I dbOps c h.1
    rw [hw] at hir
    exact ⟨put_I dbOps d _ _ hir, .inl (pend_put hd (by rw [fatalOf_fail]; simp) ⟨_, rfl⟩)⟩
  fail c h hx := by
    refine ⟨I_congr (c := c) rfl rfl h.1, .inl ?_⟩
    obtain ⟨y, hy⟩ := Option.ne_none_iff_exists'.1 hx
    refine pend_fail (x := y) ?_
    unfold failXact
    dsimp only
    rw [hy]
    rfl
  note c x h hx := ⟨I_congr (c := c) rfl rfl h.1, h.2⟩

theorem fin_plug {G : List Obj} {k : Nat} {stmt : Bytes} {c : Conn Y} (b : Bool) (h : Fin G k stmt c) : Fin G k stmt (plug b c) := by
  cases b
  · exact ⟨I_plug false h.1, h.2⟩
  · exact h

/-- Completing after the data: everything is written. -/
theorem complete_spec {G : List Obj} {k : Nat} {stmt : Bytes} {n : Nat} {db db' : Db} {c : Conn Y} (hG : G.getLast?.map (·.id) ≠ some (objE k).id)
    (hc : db.pq = .conn c) (h : Fin G k stmt c) (hx : c.xact ≠ none) (he : pqComplete n db = (db', .ok)) :
    ∃ d, db'.pq = .conn d ∧ I d ∧ d.xact = none ∧ Clean d ∧ squeeze d.log = G ++ [objE k] := by
  unfold pqComplete at he
  rw [hc] at he
  dsimp only at he
  have hp := fin_plug db.socket h
  have hxp : (plug db.socket c).xact ≠ none := by rw [(plug_wire db.socket c).2.2.1]; exact hx
  generalize plug db.socket c = p at he hp hxp
  cases hx : p.xact with
  | none => exact absurd hx hxp
  | some x =>
    rw [hx] at he
    dsimp only at he
    have h1 := drive_pres (fin_pres hG) n p hp
    have h2 := drive_ret dbOps_lawful n p (drive dbOps n p).1
    generalize drive dbOps n p = z at h1 h2 he
    obtain ⟨d, r⟩ := z
    cases r with
    | raised e => cases he
    | blocked => cases he
    | ret u =>
      cases u
      obtain ⟨x', hx', hd⟩ := h2 rfl
      dsimp only at hx' he h1
      rw [hx'] at he
      dsimp only [Option.bind_some] at he
      cases hf : fatalOf x' with
      | some b => rw [hf] at he; cases he
      | none =>
        rw [hf] at he
        dsimp only at he
        have hs : settle dbOps d = { d with xact := none } := by
          unfold settle
          rw [hx']
          dsimp only
          rw [if_neg]
          intro hh
          have := (fatal_iff x').1 hh
          rw [hf] at this; cases this
        have hdb : db'.pq = .conn (settle dbOps d) := by
          split at he
          · cases he; rfl
          · cases he
        rw [hs] at hdb
        refine ⟨_, hdb, I_congr (c := d) rfl rfl h1.1, rfl, ?_⟩
        rcases h1.2 with ⟨y, hy, hfy⟩ | ⟨ix, hix, _, _, _, hcase⟩
        · rw [hx'] at hy; cases hy; exact absurd hf hfy
        · rw [hx'] at hix
          cases hix
          rcases hcase with ⟨ha, _⟩ | ⟨_, h3, h4⟩
          · have hd : dirOf ix.inst = .complete := hd
            unfold dirOf at hd; rw [ha.state] at hd; cases hd
          · exact ⟨Clean_congr (c := d) rfl h3, h4⟩

end PG.CopyLoad
