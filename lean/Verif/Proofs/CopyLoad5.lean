import Verif.Proofs.CopyLoad4
/-!
# Loading COPY lines: the last synchronization, and the beginning
-/
namespace PG.CopyLoad
open PG PG.Element3 PG.Xact3 PG.Client3 PG.Lifecycle PG.Spec.Client

/-! ## A transaction without COPY never sends again -/

theorem finish_nocopy {t : Inst} {b : Batch} {l : Loc} (hs : dirOf t ≠ .sending) (hl : l.offset = t.commands.length ∨ LocOk t.commands l)
    (hn : ∀ c ∈ t.commands, c.kind.typ ≠ some 69 ∧ c.kind.typ ≠ some 81) : dirOf (finish t b l) ≠ .sending := by
  unfold finish switchState
  dsimp only
  split
  · unfold dirOf; simp
  · rename_i hne
    rcases hl with hl | hl
    · exact absurd hl hne
    · have hm := List.mem_of_getElem? hl.1
      rw [if_neg (by rintro (h | h); exact (hn _ hm).1 h; exact (hn _ hm).2 h)]
      exact hs

theorem standardPut_nocopy {s : Inst} (b : Batch) (hs : dirOf s ≠ .sending) (hn : ∀ c ∈ s.commands, c.kind.typ ≠ some 69 ∧ c.kind.typ ≠ some 81) :
    dirOf (standardPut s b).1 ≠ .sending := by
  cases hz : standardPut s b with
  | mk i r =>
    cases r with
    | error e =>
      have := (standardPut_error hz).2
      unfold dirOf at hs ⊢
      rw [show _ = s.state from this]
      exact hs
    | ok n =>
      obtain ⟨_, _, e1, e2⟩ := startLoop_spec s b
      unfold standardPut at hz
      generalize startLoop s b = z at hz e1 e2
      obtain ⟨s1, r⟩ := z
      dsimp only at e1 e2
      cases r with
      | error e => cases hz
      | ok l =>
        dsimp only at hz
        have hl := (e2 l rfl).1
        have hc1 : s1.commands = s.commands := by rw [e1]
        obtain ⟨f1, f2, f3⟩ := loop_frame0 b.msgs s1 l
        have hlo := loop_locOk b.msgs s1 l
        generalize loop s1 l b.msgs = w at hz f1 f2 f3 hlo
        obtain ⟨t, r⟩ := w
        have hct : t.commands = s.commands := (frame0_fields f1).1.trans hc1
        cases r with
        | error e => cases hz
        | ok d =>
          obtain ⟨early, l'⟩ := d
          cases early with
          | true =>
            cases hz
            have := f3 l' rfl
            unfold dirOf
            rw [show _ = XState.complete from this]
            simp
          | false =>
            cases hz
            have hst : t.state = s.state := by
              have := f2 (fun l' hh => by cases hh)
              rw [show t.state = s1.state from this, e1]
            apply finish_nocopy
            · unfold dirOf at hs ⊢; rw [hst]; exact hs
            · have := hlo l' (by rw [hc1]; exact hl) rfl
              rw [hct]
              rw [hc1] at this
              rcases this with h | h
              · exact .inl (by first | exact h | exact h.1)
              · exact .inr (by first | exact h | exact h.1)
            · rw [hct]; exact hn

theorem putAs_nocopy {s : Inst} (st : XState) (b : Batch) (hs : dirOf s ≠ .sending) (hn : ∀ c ∈ s.commands, c.kind.typ ≠ some 69 ∧ c.kind.typ ≠ some 81) :
    dirOf (putAs st s b).1 ≠ .sending := by
  have std : dirOf (standardPut { s with state := .receiving .standardPut } b).1 ≠ .sending := standardPut_nocopy b (by unfold dirOf; simp) hn
  unfold putAs
  split
  · exact standardPut_nocopy b hs hn
  · unfold putCopydata
    split
    · exact hs
    · dsimp only
      split
      · exact std
      · exact hs
  · unfold putTupledata
    split
    · exact hs
    · split
      · exact std
      · split
        · exact hs
        · split
          · exact std
          · exact hs
  · exact hs

/-! ## The last synchronization -/

/-- The messages of a synchronization. -/
def objS (n : Nat) : Obj := ⟨.commands n, [.msg (.empty .synchronize)]⟩

/-- What is known of a transaction that synchronizes. -/
def SyX (n : Nat) (x : IX) : Prop := x.oid = n ∧ x.inst.commands = [.empty .synchronize] ∧
  (dirOf x.inst = .sending → x.inst.messages = .commands ∧ x.inst.state = .sending .standardSent)

/-- What is known while synchronizing. -/
structure Sy (G : List Obj) (w : Bytes) (n : Nat) (c : Conn Y) : Prop where
  i : I c
  pre : w <+: c.wire
  log : squeeze c.log = G ∨ squeeze c.log = G ++ [objS n]
  own : ∃ x, c.xact = some (.inst x) ∧ SyX n x
  done : ∀ x, c.xact = some x → dbOps.dir x = .sending ∨ squeeze c.log = G ++ [objS n] ∨ (dbOps.dir x = .complete ∧ fatalOf x = some true)

theorem syx_fail {n : Nat} {x : IX} (h : SyX n x) : SyX n (instOps.fail x) := ⟨h.1, h.2.1, fun hd => by cases hd⟩

theorem syx_sent {n : Nat} {x y : IX} (h : SyX n x) (hd : dirOf x.inst = .sending) (hy : SyX n y) : SyX n (instOps.sent x y) := by
  have hs : instOps.sent x y = { y with inst := { y.inst with messages := .empty, state := .receiving .standardPut } } := by
    show ({ y with inst := sentAs x.inst.state y.inst } : IX) = _
    rw [(h.2.2 hd).2]
    rfl
  rw [hs]
  exact ⟨hy.1, hy.2.1, fun hd => by cases hd⟩

theorem syx_put {n : Nat} {x y : IX} (b : Batch) (h : SyX n y) (hd : dirOf y.inst ≠ .sending) : SyX n (instOps.put x y b).1 := by
  have hs : (instOps.put x y b).1 = { y with inst := (putAs x.inst.state y.inst b).1 } := rfl
  rw [hs]
  refine ⟨h.1, (putAs_commands _ _ _).trans h.2.1, fun hh => ?_⟩
  refine absurd hh (putAs_nocopy _ _ hd ?_)
  rw [h.2.1]
  intro c hc
  rw [List.mem_singleton] at hc
  subst hc
  exact ⟨by decide, by decide⟩

theorem sy_write {G : List Obj} {w : Bytes} {n : Nat} (hG : G.getLast?.map (·.id) ≠ some (.commands n)) {c d : Conn Y} {x : IX} {r : Res Bool} (h : Sy G w n c)
    (hx : c.xact = some (.inst x)) (hd : dirOf x.inst = .sending) (hw : writeMessages dbOps c (dbOps.messages (.inst x)) = (d, r)) :
    SyX n x ∧ I d ∧ w <+: d.wire ∧ squeeze d.log = G ++ [objS n] := by
  obtain ⟨y, hy, hs⟩ := h.own
  rw [hx] at hy
  cases hy
  obtain ⟨_, a2, a3, _⟩ := writeMessages_W dbOps c (dbOps.messages (.inst x)) h.i.1
  have hiw := write_I dbOps c (dbOps.messages (.inst x)) h.i
  have hpre := writeMessages_pre dbOps c (dbOps.messages (.inst x))
  rw [hw] at a2 hiw hpre
  dsimp only at a2 hiw hpre
  have hobj : dbOps.messages (.inst x) = objS n := by
    show (⟨x.oidOf, outItems x.inst⟩ : Obj) = _
    unfold IX.oidOf outItems objS
    rw [(hs.2.2 hd).1, hs.1, hs.2.1]
    rfl
  rw [hobj] at a2
  exact ⟨hs, hiw, h.pre.trans hpre, by rw [a2]; exact sq_next hG h.log⟩

theorem sy_done {G : List Obj} {w : Bytes} {n : Nat} {c : Conn Y} {x : Y} (h : Sy G w n c) (hx : c.xact = some x) (hd : dbOps.dir x = .receiving) :
    squeeze c.log = G ++ [objS n] := by
  rcases h.done x hx with e | e | e
  · rw [hd] at e; cases e
  · exact e
  · rw [hd] at e; cases e.1

theorem sy_pres {G : List Obj} {w : Bytes} {n : Nat} (hG : G.getLast?.map (·.id) ≠ some (.commands n)) : Pres0 dbOps (Sy G w n) where
  wrote c x d h hx hd hw := by
    obtain ⟨y, hy, _⟩ := id h.own
    rw [hx] at hy
    cases hy
    obtain ⟨h1, h2, h3, h4⟩ := sy_write hG h hx hd hw
    exact ⟨I_congr (c := d) rfl rfl h2, h3, .inr h4, ⟨_, rfl, syx_sent h1 hd h1⟩, fun _ _ => .inr (.inl h4)⟩
  writeLost c x d h hx hd hw := by
    obtain ⟨y, hy, _⟩ := id h.own
    rw [hx] at hy
    cases hy
    obtain ⟨h1, h2, h3, h4⟩ := sy_write hG h hx hd hw
    have hxd := (writeMessages_xact dbOps c (dbOps.messages (.inst y))).2
    rw [hw] at hxd
    have hxd := hxd rfl
    rw [hx] at hxd
    exact ⟨⟨h2, h3, .inr h4, ⟨_, hxd, syx_fail h1⟩, fun _ _ => .inr (.inl h4)⟩, I_congr (c := d) rfl rfl h2, h3, .inr h4, ⟨_, rfl, syx_sent h1 hd (syx_fail h1)⟩, fun _ _ => .inr (.inl h4)⟩
  writeOther c x d r h hx hd hw hr := by
    obtain ⟨y, hy, _⟩ := id h.own
    rw [hx] at hy
    cases hy
    obtain ⟨h1, h2, h3, h4⟩ := sy_write hG h hx hd hw
    obtain ⟨_, _, _, _, _, a6⟩ := writeMessages_W dbOps c (dbOps.messages (.inst y)) h.i.1
    rw [hw] at a6
    exact ⟨h2, h3, .inr h4, ⟨_, (a6 hr).trans hx, h1⟩, fun _ _ => .inr (.inl h4)⟩
  read c x d r h hx hd hw := by
    obtain ⟨_, a2, _⟩ := readMessages_spec dbOps c h.i.2
    have hir := read_I dbOps c h.i
    have hsf := readMessages_same dbOps c
    rw [hw] at a2 hir hsf
    dsimp only at a2 hir hsf
    have hlog : d.log = c.log := (congrArg (·.2.2.2.2) a2 :)
    have hwire : d.wire = c.wire := (congrArg (·.1) a2 :)
    refine ⟨hir, by rw [hwire]; exact h.pre, by rw [hlog]; exact h.log, ?_, fun _ _ => .inr (.inl (by rw [hlog]; exact sy_done h hx hd))⟩
    obtain ⟨y, hy, hs⟩ := h.own
    rcases hsf with e | e <;> rw [hy] at e
    · exact ⟨_, e, hs⟩
    · exact ⟨_, e, syx_fail hs⟩
  put c x d h hx hd hw := by
    obtain ⟨y, hy, hs⟩ := id h.own
    rw [hx] at hy
    cases hy
    obtain ⟨_, a2, _⟩ := readMessages_spec dbOps c h.i.2
    have hir := read_I dbOps c h.i
    rw [hw] at a2 hir
    dsimp only at a2 hir
    obtain ⟨_, b2, _⟩ := putRead_spec dbOps d (.inst y) (.inst y) hir.2
    have b2 := b2.trans a2
    refine ⟨put_I dbOps d _ _ hir, ?_, ?_, ?_, fun _ _ => .inr (.inl ?_)⟩
    · have e := (congrArg (·.1) b2 :)
      unfold wv at e; dsimp only at e; rw [e]; exact h.pre
    · have e := (congrArg (·.2.2.2.2) b2 :)
      unfold wv at e; dsimp only at e; rw [e]; exact h.log
    · exact ⟨_, putRead_xact dbOps d (.inst y) (.inst y), syx_put d.read hs (by rw [show dirOf y.inst = .receiving from hd]; simp)⟩
    · have e := (congrArg (·.2.2.2.2) b2 :)
      unfold wv at e; dsimp only at e; rw [e]; exact sy_done h hx hd
  putLost c x d h hx hd hw := by
    obtain ⟨y, hy, hs⟩ := id h.own
    rw [hx] at hy
    cases hy
    obtain ⟨_, a2, _⟩ := readMessages_spec dbOps c h.i.2
    have hir := read_I dbOps c h.i
    rw [hw] at a2 hir
    dsimp only at a2 hir
    obtain ⟨_, b2, _⟩ := putRead_spec dbOps d (.inst y) (dbOps.fail (.inst y)) hir.2
    have b2 := b2.trans a2
    refine ⟨put_I dbOps d _ _ hir, ?_, ?_, ?_, fun _ _ => .inr (.inl ?_)⟩
    · have e := (congrArg (·.1) b2 :)
      unfold wv at e; dsimp only at e; rw [e]; exact h.pre
    · have e := (congrArg (·.2.2.2.2) b2 :)
      unfold wv at e; dsimp only at e; rw [e]; exact h.log
    · exact ⟨_, putRead_xact dbOps d (.inst y) (dbOps.fail (.inst y)), syx_put d.read (syx_fail hs) (by show dirOf (instOps.fail y).inst ≠ _; unfold dirOf; simp [instOps])⟩
    · have e := (congrArg (·.2.2.2.2) b2 :)
      unfold wv at e; dsimp only at e; rw [e]; exact sy_done h hx hd
  fail c h hx := by
    obtain ⟨y, hy, hs⟩ := h.own
    have hf : (failXact dbOps { c with state := [] }).xact = some (dbOps.fail (.inst y)) := by
      unfold failXact
      dsimp only
      rw [hy]
      rfl
    refine ⟨I_congr (c := c) rfl rfl h.i, h.pre, h.log, ⟨instOps.fail y, hf, syx_fail hs⟩, fun z hz => .inr (.inr ?_)⟩
    rw [hf] at hz
    cases hz
    exact ⟨rfl, rfl⟩
  note c x h hx := ⟨I_congr (c := c) rfl rfl h.i, h.pre, h.log, h.own, h.done⟩

/-- What a synchronization writes. -/
theorem sync_spec {G : List Obj} {n : Nat} {db db' : Db} {c : Conn Y} (hG : ∀ j, G.getLast?.map (·.id) ≠ some (.commands j)) (hc : db.pq = .conn c) (hi : I c)
    (hx : c.xact = none) (hcl0 : Clean c) (hl : squeeze c.log = G) (h : pqSynchronize n db = (db', .ok)) :
    ∃ d suf, db'.pq = .conn d ∧ d.wire = G.flatMap bytesOf ++ suf ∧ suf <+: bytesOf (objS 0) ∧ (closed db' = false → suf = bytesOf (objS 0)) := by
  unfold pqSynchronize at h
  rw [hc] at h
  dsimp only at h
  obtain ⟨hw1, _, hw3, _, hw5, hw6⟩ := plug_wire db.socket c
  have hip := I_plug db.socket hi
  generalize plug db.socket c = p at h hw1 hw3 hw5 hw6 hip
  unfold synchronize at h
  rw [hw3, hx] at h
  dsimp only [Option.isSome] at h
  rw [if_neg (by simp)] at h
  dsimp only at h
  have h0 : Sy G c.wire p.nextId { p with xact := some (dbOps.instruction p.nextId [.empty .synchronize]), nextId := p.nextId + 1 } := by
    refine ⟨⟨W_congr (c := p) rfl hip.1, ⟨hip.2.inv, hip.2.bytes, hip.2.fits, hip.2.data, Nat.lt_succ_of_lt hip.2.ids⟩⟩, ?_, ?_, ?_, ?_⟩
    · show c.wire <+: p.wire
      rw [hw1]; exact List.prefix_rfl
    · show squeeze p.log = _ ∨ _
      rw [hw6]; exact .inl hl
    · exact ⟨_, rfl, rfl, rfl, fun _ => ⟨rfl, rfl⟩⟩
    · intro x hx
      cases hx
      exact .inl rfl
  have hclean := complete_clean dbOps_lawful n { p with xact := some (dbOps.instruction p.nextId [.empty .synchronize]), nextId := p.nextId + 1 }
    (complete dbOps n { p with xact := some (dbOps.instruction p.nextId [.empty .synchronize]), nextId := p.nextId + 1 }).1 h0.i (by intro x hx; cases hx; exact .inl rfl)
  rw [complete_drive] at h hclean
  have h1 := drive_pres (sy_pres (w := c.wire) (hG p.nextId)) n _ h0
  have hdr := drive_ret dbOps_lawful n { p with xact := some (dbOps.instruction p.nextId [.empty .synchronize]), nextId := p.nextId + 1 }
  generalize drive dbOps n { p with xact := some (dbOps.instruction p.nextId [.empty .synchronize]), nextId := p.nextId + 1 } = z at h h1 hclean hdr
  obtain ⟨d, r⟩ := z
  cases r with
  | raised e => cases h
  | blocked => cases h
  | ret u =>
    cases u
    dsimp only at h h1
    have hdb : db'.pq = .conn (settle dbOps d) := by cases h; rfl
    have hwd : (settle dbOps d).wire = d.wire := by
      unfold settle
      split
      · rfl
      · split <;> rfl
    obtain ⟨suf, hsuf⟩ := h1.pre
    have hG' : ∀ m ∈ G, Serializable m = true := by rw [← hl]; exact hcl0.2.2
    have hfull : closed db' = false → Clean (settle dbOps d) ∧ squeeze (settle dbOps d).log = G ++ [objS p.nextId] := by
      intro hcl
      obtain ⟨x, hx, hdx⟩ := hdr d rfl
      have hset : settle dbOps d = if dbOps.fatal x then d else { d with xact := none } := by unfold settle; rw [hx]
      by_cases hf : dbOps.fatal x = true
      · rw [if_pos hf] at hset
        unfold closed at hcl
        rw [hdb, hset] at hcl
        dsimp only at hcl
        rw [hx] at hcl
        have := (fatal_iff x).1 hf
        dsimp only at hcl
        rw [this] at hcl
        simp at hcl
      · rw [if_neg hf] at hset
        refine ⟨hclean rfl (by show (settle dbOps d).xact = none; rw [hset]), ?_⟩
        rw [hset]
        rcases h1.done x hx with e | e | ⟨_, e⟩
        · rw [hdx] at e; cases e
        · exact e
        · exact absurd ((fatal_iff x).2 e) hf
    refine ⟨_, suf, hdb, ?_, ?_, ?_⟩
    · rw [hwd, ← hsuf, hcl0.2.1, hl]
    · obtain ⟨g, g1, g2, _, g4⟩ := h1.i.1
      have hcw : c.wire = G.flatMap bytesOf := by rw [hcl0.2.1, hl]
      have hser : Serializable (objS p.nextId) = true := by
        unfold Serializable objS
        rw [show catMessages [Item.msg (.empty .synchronize)] = .ok [83, 0, 0, 0, 4] by decide +kernel]
        rfl
      have hby : bytesOf (objS p.nextId) = bytesOf (objS 0) := rfl
      rcases g4 with ⟨g5, _⟩ | ⟨b, r, g5, g6, _⟩
      · rw [← hsuf, hcw] at g2
        rcases h1.log with e | e
        · rw [e] at g5
          subst g5
          rw [List.append_assoc] at g2
          have := List.append_cancel_left (bs := suf ++ d.messageData) (cs := []) (by rw [g2]; simp)
          have : suf = [] := (List.append_eq_nil_iff.1 this).1
          rw [this]
          exact List.nil_prefix
        · rw [e] at g5
          subst g5
          rw [List.append_assoc, List.flatMap_append] at g2
          have := List.append_cancel_left g2
          rw [List.flatMap_cons, List.flatMap_nil, List.append_nil, hby] at this
          exact ⟨_, this⟩
      · exfalso
        have hb : b ∈ squeeze d.log := by rw [g5]; simp
        have : Serializable b = true := by
          rcases h1.log with e | e <;> rw [e] at hb
          · exact hG' b hb
          · rw [List.mem_append, List.mem_singleton] at hb
            rcases hb with hb | rfl
            · exact hG' b hb
            · exact hser
        rw [this] at g6; cases g6
    · intro hcl
      obtain ⟨⟨_, k2, _⟩, k3⟩ := hfull hcl
      rw [k3, hwd, List.flatMap_append, ← hsuf, hcl0.2.1, hl] at k2
      have := List.append_cancel_left k2
      rw [this, List.flatMap_cons, List.flatMap_nil, List.append_nil]
      rfl

end PG.CopyLoad
