import Verif.Proofs.CopyLoad2
/-!
# Loading COPY lines: what is written
-/
namespace PG.CopyLoad
open PG PG.Element3 PG.Xact3 PG.Client3 PG.Lifecycle PG.Spec.Client

theorem sq_next {l G : List Obj} {m : Obj} (hm : G.getLast?.map (·.id) ≠ some m.id) (h : squeeze l = G ∨ squeeze l = G ++ [m]) :
    squeeze (l ++ [m]) = G ++ [m] := by
  rw [squeeze_snoc]
  rcases h with h | h
  · rw [h, if_neg hm]
  · rw [h, if_pos (by simp)]

theorem I_plug {c : Conn Y} (b : Bool) (h : I c) : I (plug b c) := by
  cases b
  · exact I_congr (c := c) rfl rfl h
  · exact h

/-- The identities at hand are new to the transaction. -/
def Fresh (c : Conn Y) (i : Inst) : Prop := i.lastId < c.nextId ∧ (c.read.msgs = [] ∨ c.read.id ≠ i.lastId)

/-- The objects of a load: the commands, and the empty tuple that is sent when COPY data is asked for. -/
def objC (k : Nat) (stmt : Bytes) : Obj := ⟨.commands k, (commands stmt).map .msg⟩
def objU : Obj := ⟨.unit, []⟩
def objE (k : Nat) : Obj := ⟨.copyDone k 1, [.msg (.empty .copyDone), .msg (.empty .synchronize)]⟩

/-- Before the COPY. -/
inductive Before (S : List Obj) (k : Nat) (stmt : Bytes) (c : Conn Y) (i : Inst) : Prop
  | sending (h1 : i.state = .sending .standardSent) (h2 : i.messages = .commands) (h3 : squeeze c.log = S ∨ squeeze c.log = S ++ [objC k stmt])
  | receiving (h1 : dirOf i = .receiving) (h2 : i.messages = .empty) (h3 : squeeze c.log = S ++ [objC k stmt])
  | asked (h1 : Asked stmt i) (h2 : i.messages = .empty) (h3 : squeeze c.log = S ++ [objC k stmt] ∨ squeeze c.log = S ++ [objC k stmt] ++ [objU]) (h4 : Fresh c i)

/-- The transaction is ours. -/
def Ours (k : Nat) (stmt : Bytes) (c : Conn Y) (P : IX → Prop) : Prop :=
  ∃ x, c.xact = some (.inst x) ∧ x.oid = k ∧ x.inst.commands = commands stmt ∧ P x

/-- Ready for data, after having written `G`. -/
structure Ready (G : List Obj) (stmt : Bytes) (c : Conn Y) (i : Inst) : Prop where
  asked : Asked stmt i
  fail : i.messages = .copyFail
  log : squeeze c.log = G
  fresh : Fresh c i
  clean : Clean c

theorem sent_standard {i : Inst} (h : i.state = .sending .standardSent) : sentAs i.state i = { i with messages := .empty, state := .receiving .standardPut } := by
  rw [h]; rfl

theorem sent_asked {stmt : Bytes} {i : Inst} (h : Asked stmt i) (hm : i.messages ≠ .copyDone ∧ i.messages ≠ .copyFail) : sentAs i.state i = { i with messages := .copyFail } := by
  rw [h.state]
  unfold sentAs
  dsimp only
  rw [if_neg (by rintro (h | h); exact hm.1 h; exact hm.2 h), h.state]

/-- One step before the COPY. -/
theorem before_step {S : List Obj} {k : Nat} {stmt : Bytes} {p d : Conn Y} {fin : Bool} (hi : I p) (hS : S.getLast?.map (·.id) ≠ some (.commands k))
    (hb : Ours k stmt p (fun x => Before S k stmt p x.inst)) (h : stepRaw dbOps p = (d, fin, .ret ())) :
    I d ∧ p.nextId ≤ d.nextId ∧ (Pend d ∨ (Ours k stmt d (fun x => Before S k stmt d x.inst ∨ (dirOf x.inst = .complete ∧ x.inst.messages = .empty) ∨
      Ready (S ++ [objC k stmt] ++ [objU]) stmt d x.inst))) := by
  obtain ⟨x, hx, hk, hc, hb⟩ := hb
  cases hb with
  | sending h1 h2 h3 =>
    have hd : dirOf x.inst = .sending := by unfold dirOf; rw [h1]
    obtain ⟨a1, a2, a3, a4, a5⟩ := send_step hi hx hd h
    refine ⟨a1, by omega, ?_⟩
    have hobj : (⟨x.oidOf, outItems x.inst⟩ : Obj) = objC k stmt := by
      unfold IX.oidOf outItems objC
      rw [h2, hk, hc]
    rw [hobj] at a4
    have hlog : squeeze d.log = S ++ [objC k stmt] := by rw [a4]; exact sq_next hS h3
    rcases a5 with ⟨a5, acl⟩ | a5 | a5
    · right
      exact ⟨_, a5, hk, by rw [sent_standard h1]; exact hc, .inl (.receiving (by rw [sent_standard h1]; rfl) (by rw [sent_standard h1]) hlog)⟩
    · exact .inl a5
    · exact .inr ⟨x, a5.trans hx, hk, hc, .inl (.sending h1 h2 (.inr hlog))⟩
  | receiving h1 h2 h3 =>
    obtain ⟨a1, a2, a3, a5⟩ := recv_step hi hx h1 h
    refine ⟨a1, a3, ?_⟩
    have hl : d.log = p.log := (congrArg (·.2.2.2.2) a2 :)
    rcases a5 with a5 | a5 | ⟨b, n, i, a6, a7, a8⟩
    · exact .inl a5
    · exact .inr ⟨x, a5.trans hx, hk, hc, .inl (.receiving h1 h2 (by rw [hl]; exact h3))⟩
    · rcases put_start hc h1 a7 with e | ⟨e1, e2, e3⟩
      · exact .inl ⟨_, a8, e⟩
      · right
        refine ⟨_, a8, hk, e1, ?_⟩
        rcases e3 with e3 | ⟨e3, e4⟩
        · cases hdi : dirOf i with
          | sending => exact absurd hdi e3
          | receiving => exact .inl (.receiving hdi (e2.trans h2) (by rw [hl]; exact h3))
          | complete => exact .inr (.inl ⟨rfl, e2.trans h2⟩)
        · refine .inl (.asked e3 (e2.trans h2) (.inl (by rw [hl]; exact h3)) ⟨?_, .inr ?_⟩)
          · have := a1.2.ids; rw [show _ = b.id from e4]; omega
          · rw [show _ = b.id from e4]; omega
  | asked h1 h2 h3 h4 =>
    have hd : dirOf x.inst = .sending := by unfold dirOf; rw [h1.state]
    obtain ⟨a1, a2, a3, a4, a5⟩ := send_step hi hx hd h
    refine ⟨a1, by omega, ?_⟩
    have hobj : (⟨x.oidOf, outItems x.inst⟩ : Obj) = objU := by
      unfold IX.oidOf outItems objU
      rw [h2]
    rw [hobj] at a4
    have hlog : squeeze d.log = S ++ [objC k stmt] ++ [objU] := by rw [a4]; exact sq_next (by simp [objC, objU]) h3
    have hfr : ∀ i, i.lastId = x.inst.lastId → Fresh d i := by
      intro i hi
      unfold Fresh at h4 ⊢
      rw [a2, a3, hi]; exact h4
    rcases a5 with ⟨a5, acl⟩ | a5 | a5
    · right
      have hs := sent_asked h1 (by rw [h2]; simp)
      refine ⟨_, a5, hk, by rw [hs]; exact hc, .inr (.inr ?_)⟩
      rw [hs]
      exact ⟨⟨h1.cmds, h1.state, h1.pos, h1.tail⟩, rfl, hlog, hfr _ rfl, acl⟩
    · exact .inl a5
    · exact .inr ⟨x, a5.trans hx, hk, hc, .inl (.asked h1 h2 (.inr hlog) (hfr _ rfl))⟩

theorem ready_iff {k : Nat} {db : Db} {c : Conn Y} {x : IX} (hc : db.pq = .conn c) (hx : c.xact = some (.inst x)) (hk : x.oid = k) :
    ready k db = decide (x.inst.messages = .copyFail) := by
  unfold ready mine
  rw [hc]
  dsimp only
  rw [hx]
  dsimp only
  rw [if_pos hk]

theorem finished_iff {k : Nat} {db : Db} {c : Conn Y} {x : IX} (hc : db.pq = .conn c) (hx : c.xact = some (.inst x)) (hk : x.oid = k) :
    finished k db = decide (x.inst.state = .complete) := by
  unfold finished
  rw [hc]
  dsimp only
  rw [hx]
  dsimp only
  rw [if_pos hk]

theorem before_messages {S : List Obj} {k : Nat} {stmt : Bytes} {c : Conn Y} {i : Inst} (h : Before S k stmt c i) : i.messages ≠ .copyFail := by
  cases h with
  | sending _ h2 => rw [h2]; simp
  | receiving _ h2 => rw [h2]; simp
  | asked _ h2 => rw [h2]; simp

theorem pend_start {k : Nat} : ∀ (n : Nat) {db db' : Db} {c : Conn Y}, db.pq = .conn c → Pend c → start k n db = (db', .ok) → ∃ d, db'.pq = .conn d ∧ Pend d
  | 0, _, _, _, _, _, h => by cases h
  | n + 1, db, db', c, hc, hp, h => by
    unfold start at h
    split at h
    · cases h
    · cases hs : pqStep db with
      | mk e r =>
        rw [hs] at h
        cases r with
        | ok =>
          obtain ⟨d, h1, h2⟩ := pend_step hc hp hs
          dsimp only at h
          split at h
          · cases h; exact ⟨d, h1, h2⟩
          · exact pend_start n h1 h2 h
        | dbError b m => cases h
        | raised e => cases h
        | blocked => cases h

/-- What is known when the COPY has started. -/
def Started (S : List Obj) (k : Nat) (stmt : Bytes) (m : Nat) (c : Conn Y) : Prop :=
  I c ∧ m ≤ c.nextId ∧ (Pend c ∨ Ours k stmt c (fun x => Ready S stmt c x.inst))

theorem start_spec {S : List Obj} {k : Nat} {stmt : Bytes} (hS : S.getLast?.map (·.id) ≠ some (.commands k)) :
    ∀ (n : Nat) {db db' : Db} {c : Conn Y}, db.pq = .conn c → I c → Ours k stmt c (fun x => Before S k stmt c x.inst) → start k n db = (db', .ok) →
      ∃ d, db'.pq = .conn d ∧ (Pend d ∨ Started (S ++ [objC k stmt] ++ [objU]) k stmt c.nextId d)
  | 0, _, _, _, _, _, _, h => by cases h
  | n + 1, db, db', c, hc, hi, hb, h => by
    obtain ⟨hw1, _, hw3, _, hw5, hw6⟩ := plug_wire db.socket c
    have hpr : (plug db.socket c).read = c.read := by cases db.socket <;> rfl
    have hb' : Ours k stmt (plug db.socket c) (fun x => Before S k stmt (plug db.socket c) x.inst) := by
      obtain ⟨x, hx, hk, hcm, hb⟩ := hb
      refine ⟨x, hw3.trans hx, hk, hcm, ?_⟩
      cases hb with
      | sending h1 h2 h3 => exact .sending h1 h2 (by rw [hw6]; exact h3)
      | receiving h1 h2 h3 => exact .receiving h1 h2 (by rw [hw6]; exact h3)
      | asked h1 h2 h3 h4 => exact .asked h1 h2 (by rw [hw6]; exact h3) (by unfold Fresh at h4 ⊢; rw [hw5, hpr]; exact h4)
    have hxne : c.xact ≠ none := by obtain ⟨x, hx, _⟩ := hb; rw [hx]; simp
    unfold start at h
    split at h
    · cases h
    · cases hs : pqStep db with
      | mk e r =>
        rw [hs] at h
        cases r with
        | dbError b m => cases h
        | raised e => cases h
        | blocked => cases h
        | ok =>
          dsimp only at h
          obtain ⟨d, fin, hr, h2⟩ := pqStep_ok hc hxne hs
          obtain ⟨a1, a2, a3⟩ := before_step (I_plug _ hi) hS hb' hr
          rw [hw5] at a2
          rcases a3 with a3 | ⟨x, hx, hk, hcm, a3⟩
          · -- failed
            obtain ⟨y, hy, hf⟩ := id a3
            have hed : e.pq = .conn d := by
              rcases h2 with ⟨h1, _⟩ | ⟨z, hz, ⟨_, h3⟩ | ⟨_, h3, _⟩⟩
              · rw [h1] at hy; cases hy
              · exact h3
              · rw [hy] at hz; cases hz; exact absurd h3 hf
            split at h
            · cases h; exact ⟨d, hed, .inl a3⟩
            · obtain ⟨d', g1, g2⟩ := pend_start n hed a3 h
              exact ⟨d', g1, .inl g2⟩
          · rcases h2 with ⟨h1, _⟩ | ⟨z, hz, ⟨hdir, hed⟩ | ⟨hdir, hf, e', he', hee⟩⟩
            · rw [h1] at hx; cases hx
            · rw [hx] at hz
              cases hz
              rcases a3 with a3 | a3 | a3
              · rw [ready_iff hed hx hk, decide_eq_false (before_messages a3)] at h
                obtain ⟨d', g1, g2⟩ := start_spec hS n hed a1 ⟨x, hx, hk, hcm, a3⟩ h
                refine ⟨d', g1, ?_⟩
                rcases g2 with g2 | ⟨g2, g3, g4⟩
                · exact .inl g2
                · exact .inr ⟨g2, Nat.le_trans a2 g3, g4⟩
              · exact absurd a3.1 hdir
              · rw [ready_iff hed hx hk, a3.fail] at h
                have h : (e, Outcome.ok) = (db', Outcome.ok) := h
                cases h
                exact ⟨d, hed, .inr ⟨a1, a2, .inr ⟨x, hx, hk, hcm, a3⟩⟩⟩
            · -- completed: not a COPY
              rw [hx] at hz
              cases hz
              have hnr : ready k e = false := by
                rcases hee with rfl | rfl
                · rw [ready_iff he' hx hk]
                  rcases a3 with a3 | a3 | a3
                  · exact decide_eq_false (before_messages a3)
                  · rw [a3.2]; rfl
                  · have : dirOf x.inst = .sending := by unfold dirOf; rw [a3.asked.state]
                    have hdir : dirOf x.inst = .complete := hdir
                    rw [this] at hdir; cases hdir
                · unfold ready mine; rw [he']
              have hfin : finished k e = true := by
                rcases hee with rfl | rfl
                · rw [finished_iff he' hx hk]
                  have hdir : dirOf x.inst = .complete := hdir
                  unfold dirOf at hdir
                  cases hst : x.inst.state <;> rw [hst] at hdir <;> first | rfl | cases hdir
                · unfold finished; rw [he']
              rw [hnr] at h
              cases n with
              | zero => cases h
              | succ n =>
                have h : start k (n + 1) e = (db', .ok) := h
                unfold start at h
                rw [hfin] at h
                cases h

/-! ## The data -/

/-- Data is being written. -/
structure Giving (G : List Obj) (m : Obj) (stmt : Bytes) (c : Conn Y) (x : IX) : Prop where
  asked : Asked stmt x.inst
  data : x.inst.messages = .data m.items
  user : m.id = .user x.user
  log : squeeze c.log = G ∨ squeeze c.log = G ++ [m]
  fresh : Fresh c x.inst

theorem giving_step {G : List Obj} {m : Obj} {k : Nat} {stmt : Bytes} {p d : Conn Y} {fin : Bool} (hi : I p) (hm : G.getLast?.map (·.id) ≠ some m.id)
    (hb : Ours k stmt p (Giving G m stmt p)) (h : stepRaw dbOps p = (d, fin, .ret ())) :
    I d ∧ p.nextId ≤ d.nextId ∧ (Pend d ∨ Ours k stmt d (Giving G m stmt d) ∨ Ours k stmt d (fun x => Ready (G ++ [m]) stmt d x.inst)) := by
  obtain ⟨x, hx, hk, hc, hb⟩ := hb
  have hd : dirOf x.inst = .sending := by unfold dirOf; rw [hb.asked.state]
  obtain ⟨a1, a2, a3, a4, a5⟩ := send_step hi hx hd h
  refine ⟨a1, by omega, ?_⟩
  have hobj : (⟨x.oidOf, outItems x.inst⟩ : Obj) = m := by
    obtain ⟨mi, ml⟩ := m
    have h1 := hb.user
    have h2 := hb.data
    dsimp only at h1 h2
    unfold IX.oidOf outItems
    rw [h2, h1]
  rw [hobj] at a4
  have hlog : squeeze d.log = G ++ [m] := by rw [a4]; exact sq_next hm hb.log
  have hfr : ∀ i, i.lastId = x.inst.lastId → Fresh d i := by
    intro i hi
    have := hb.fresh
    unfold Fresh at this ⊢
    rw [a2, a3, hi]; exact this
  rcases a5 with ⟨a5, acl⟩ | a5 | a5
  · right; right
    have hs := sent_asked hb.asked (by rw [hb.data]; simp)
    refine ⟨_, a5, hk, by rw [hs]; exact hc, ?_⟩
    rw [hs]
    exact ⟨⟨hb.asked.cmds, hb.asked.state, hb.asked.pos, hb.asked.tail⟩, rfl, hlog, hfr _ rfl, acl⟩
  · exact .inl a5
  · exact .inr (.inl ⟨x, a5.trans hx, hk, hc, hb.asked, hb.data, hb.user, .inr hlog, hfr _ rfl⟩)

theorem pend_flush {k : Nat} : ∀ (n : Nat) {db db' : Db} {c : Conn Y}, db.pq = .conn c → Pend c → flush k n db = (db', .ok) → ∃ d, db'.pq = .conn d ∧ Pend d
  | 0, _, _, _, _, _, h => by cases h
  | n + 1, db, db', c, hc, hp, h => by
    unfold flush at h
    split at h
    · cases h; exact ⟨c, hc, hp⟩
    · cases hs : pqStep db with
      | mk e r =>
        rw [hs] at h
        cases r with
        | ok =>
          obtain ⟨d, h1, h2⟩ := pend_step hc hp hs
          exact pend_flush n h1 h2 h
        | dbError b m => cases h
        | raised e => cases h
        | blocked => cases h

theorem ready_flush {k n : Nat} {db db' : Db} (hr : ready k db = true) (h : flush k n db = (db', .ok)) : db' = db := by
  cases n with
  | zero => cases h
  | succ n =>
    unfold flush at h
    rw [hr] at h
    cases h
    rfl

theorem flush_spec {G : List Obj} {m : Obj} {k : Nat} {stmt : Bytes} (hm : G.getLast?.map (·.id) ≠ some m.id) :
    ∀ (n : Nat) {db db' : Db} {c : Conn Y}, db.pq = .conn c → I c → Ours k stmt c (Giving G m stmt c) → flush k n db = (db', .ok) →
      ∃ d, db'.pq = .conn d ∧ (Pend d ∨ Started (G ++ [m]) k stmt c.nextId d)
  | 0, _, _, _, _, _, _, h => by cases h
  | n + 1, db, db', c, hc, hi, hb, h => by
    obtain ⟨hw1, _, hw3, _, hw5, hw6⟩ := plug_wire db.socket c
    have hpr : (plug db.socket c).read = c.read := by cases db.socket <;> rfl
    have hb' : Ours k stmt (plug db.socket c) (Giving G m stmt (plug db.socket c)) := by
      obtain ⟨x, hx, hk, hcm, hb⟩ := hb
      exact ⟨x, hw3.trans hx, hk, hcm, hb.asked, hb.data, hb.user, by rw [hw6]; exact hb.log, by
        have := hb.fresh; unfold Fresh at this ⊢; rw [hw5, hpr]; exact this⟩
    have hnr : ready k db = false := by
      obtain ⟨x, hx, hk, hcm, hb⟩ := hb
      rw [ready_iff hc hx hk, hb.data]
      simp
    have hxne : c.xact ≠ none := by obtain ⟨x, hx, _⟩ := hb; rw [hx]; simp
    unfold flush at h
    rw [hnr] at h
    cases hs : pqStep db with
    | mk e r =>
      rw [hs] at h
      cases r with
      | dbError b m => cases h
      | raised e => cases h
      | blocked => cases h
      | ok =>
        have h : flush k n e = (db', .ok) := h
        obtain ⟨d, fin, hr, h2⟩ := pqStep_ok hc hxne hs
        obtain ⟨a1, a2, a3⟩ := giving_step (I_plug _ hi) hm hb' hr
        rw [hw5] at a2
        rcases a3 with a3 | a3 | a3
        · obtain ⟨y, hy, hf⟩ := id a3
          have hed : e.pq = .conn d := by
            rcases h2 with ⟨h1, _⟩ | ⟨z, hz, ⟨_, h3⟩ | ⟨_, h3, _⟩⟩
            · rw [h1] at hy; cases hy
            · exact h3
            · rw [hy] at hz; cases hz; exact absurd h3 hf
          obtain ⟨d', g1, g2⟩ := pend_flush n hed a3 h
          exact ⟨d', g1, .inl g2⟩
        · have hed : e.pq = .conn d := by
            obtain ⟨x, hx, _, _, hb⟩ := id a3
            rcases h2 with ⟨h1, _⟩ | ⟨z, hz, ⟨_, h3⟩ | ⟨h3, _⟩⟩
            · rw [h1] at hx; cases hx
            · exact h3
            · rw [hx] at hz; cases hz
              have h3 : dirOf x.inst = .complete := h3
              unfold dirOf at h3; rw [hb.asked.state] at h3; cases h3
          obtain ⟨d', g1, g2⟩ := flush_spec hm n hed a1 a3 h
          refine ⟨d', g1, ?_⟩
          rcases g2 with g2 | ⟨g2, g3, g4⟩
          · exact .inl g2
          · exact .inr ⟨g2, Nat.le_trans a2 g3, g4⟩
        · obtain ⟨x, hx, hk, hcm, hb⟩ := id a3
          have hed : e.pq = .conn d := by
            rcases h2 with ⟨h1, _⟩ | ⟨z, hz, ⟨_, h3⟩ | ⟨h3, _⟩⟩
            · rw [h1] at hx; cases hx
            · exact h3
            · rw [hx] at hz; cases hz
              have h3 : dirOf x.inst = .complete := h3
              unfold dirOf at h3; rw [hb.asked.state] at h3; cases h3
          have hre : ready k e = true := by rw [ready_iff hed hx hk, hb.fail]; rfl
          have := ready_flush hre h
          subst this
          exact ⟨d, hed, .inr ⟨a1, a2, .inr a3⟩⟩

theorem pend_give {k : Nat} {m : Option (List Item)} {db : Db} {c : Conn Y} (hc : db.pq = .conn c) (h : Pend c) : ∃ d, (give k m db).pq = .conn d ∧ Pend d := by
  obtain ⟨y, hy, hf⟩ := id h
  unfold give
  rw [hc]
  dsimp only
  rw [hy]
  cases y with
  | closing b => exact ⟨c, hc, h⟩
  | inst x =>
    dsimp only
    split
    · cases m with
      | none => exact ⟨_, rfl, _, rfl, hf⟩
      | some l => exact ⟨_, rfl, _, rfl, hf⟩
    · exact ⟨c, hc, h⟩

theorem pend_feed {k n : Nat} : ∀ (ls : List (List Item)) {db db' : Db} {c : Conn Y}, db.pq = .conn c → Pend c → feed k n ls db = (db', .ok) →
    ∃ d, db'.pq = .conn d ∧ Pend d
  | [], db, db', c, hc, hp, h => by cases h; exact ⟨c, hc, hp⟩
  | l :: ls, db, db', c, hc, hp, h => by
    unfold feed at h
    obtain ⟨d, h1, h2⟩ := pend_give (k := k) (m := some l) hc hp
    cases hs : flush k n (give k (some l) db) with
    | mk e r =>
      rw [hs] at h
      cases r with
      | dbError b m => cases h
      | raised e => cases h
      | blocked => cases h
      | ok =>
        obtain ⟨d', g1, g2⟩ := pend_flush n h1 h2 hs
        exact pend_feed ls g1 g2 h

/-- The last object written is the empty tuple or an older list of the user. -/
def Last (G : List Obj) (n : Nat) : Prop := G.getLast?.map (·.id) = some .unit ∨ ∃ j, j < n ∧ G.getLast?.map (·.id) = some (.user j)

theorem Last.mono {G : List Obj} {n m : Nat} (h : Last G n) (hnm : n ≤ m) : Last G m := by
  rcases h with h | ⟨j, h1, h2⟩
  · exact .inl h
  · exact .inr ⟨j, by omega, h2⟩

theorem feed_spec {k n : Nat} {stmt : Bytes} : ∀ (ls : List (List Item)) {G : List Obj} {db db' : Db} {c : Conn Y}, db.pq = .conn c → Started G k stmt 0 c →
    Last G c.nextId → feed k n ls db = (db', .ok) →
    ∃ d, db'.pq = .conn d ∧ (Pend d ∨ ∃ U : List Obj, U.map (·.items) = ls ∧ Started (G ++ U) k stmt 0 d ∧ Last (G ++ U) d.nextId)
  | [], G, db, db', c, hc, hs, hl, h => by cases h; exact ⟨c, hc, .inr ⟨[], rfl, by rw [List.append_nil]; exact hs, by rw [List.append_nil]; exact hl⟩⟩
  | l :: ls, G, db, db', c, hc, ⟨hi, _, hs⟩, hl, h => by
    rcases hs with hp | ⟨x, hx, hk, hcm, hr⟩
    · obtain ⟨d, h1, h2⟩ := pend_feed _ hc hp h
      exact ⟨d, h1, .inl h2⟩
    · unfold feed at h
      have hg : give k (some l) db = { db with pq := .conn { c with nextId := c.nextId + 1, xact := some (.inst { x with inst := { x.inst with messages := .data l }, user := c.nextId }) } } := by
        unfold give
        rw [hc]
        dsimp only
        rw [hx]
        dsimp only
        rw [if_pos hk]
      cases hf : flush k n (give k (some l) db) with
      | mk e r =>
        rw [hf] at h
        cases r with
        | dbError b m => cases h
        | raised e => cases h
        | blocked => cases h
        | ok =>
          dsimp only at h
          rw [hg] at hf
          have hm : G.getLast?.map (·.id) ≠ some (⟨.user c.nextId, l⟩ : Obj).id := by
            rcases hl with hl | ⟨j, hj, hl⟩ <;> rw [hl] <;> simp
            omega
          obtain ⟨d, g1, g2⟩ := flush_spec (m := ⟨.user c.nextId, l⟩) (k := k) (stmt := stmt) hm n (db := { db with pq := .conn { c with nextId := c.nextId + 1, xact := some (.inst { x with inst := { x.inst with messages := .data l }, user := c.nextId }) } }) rfl
            (by exact ⟨W_congr (c := c) rfl hi.1, ⟨hi.2.inv, hi.2.bytes, hi.2.fits, hi.2.data, Nat.lt_succ_of_lt hi.2.ids⟩⟩)
            ⟨_, rfl, hk, hcm, ⟨hr.asked.cmds, hr.asked.state, hr.asked.pos, hr.asked.tail⟩, rfl, rfl, .inl hr.log, Nat.lt_succ_of_lt hr.fresh.1, hr.fresh.2⟩ hf
          rcases g2 with g2 | ⟨g2, g3, g4⟩
          · obtain ⟨d', k1, k2⟩ := pend_feed _ g1 g2 h
            exact ⟨d', k1, .inl k2⟩
          · have hlast : Last (G ++ [(⟨.user c.nextId, l⟩ : Obj)]) d.nextId := .inr ⟨c.nextId, g3, by simp⟩
            obtain ⟨d', k1, k2⟩ := feed_spec ls g1 ⟨g2, Nat.zero_le _, g4⟩ hlast h
            refine ⟨d', k1, ?_⟩
            rcases k2 with k2 | ⟨U, u1, u2, u3⟩
            · exact .inl k2
            · right
              refine ⟨⟨.user c.nextId, l⟩ :: U, by rw [List.map_cons, u1], ?_, ?_⟩
              · rw [List.append_cons]; exact u2
              · rw [List.append_cons]; exact u3

end PG.CopyLoad
