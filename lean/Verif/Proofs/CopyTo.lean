import Verif.Model.CopyTo
import Verif.Spec.CopyTo
import Verif.Proofs.Xact3b
import Verif.Proofs.Xact3d
/-!
# The protocol transaction of a COPY TO STDOUT, message by message
-/
namespace PG.CopyTo
open PG PG.Element3 PG.Xact3 PG.Spec.CopyTo

/-- One message of the answer: the stage it leads to, what the transaction keeps of it, whether it is an error. -/
inductive One : Stage → Msg → Stage → List Proc → Bool → Prop where
  | bound : One .bind (50, []) .execute [.elem (.empty .bindComplete)] false
  | begins {d x} : parseK .copyToBegin d = .ok x → One .execute (72, d) .copy [.elem x] false
  | row {d} : One .copy (100, d) .copy [.raw d] false
  | copyDone : One .copy (99, []) .done [.elem (.empty .copyDone)] false
  | completed {d} : One .done (67, d) .sync [.elem (.complete (rstrip0 d))] false
  | ready {d} : (d = [73] ∨ d = [69] ∨ d = [84]) → One .sync (90, d) .over [.elem (.ready d)] false
  | async {g m} : g ≠ .over → IsAsync m → One g m g [] false
  | error {g m} : g ≠ .over → IsError m → One g m .sync [] true

/-- Messages of the answer that are consecutive. -/
inductive Walk : Stage → List Msg → Stage → List Proc → Bool → Prop where
  | nil {g} : Walk g [] g [] false
  | cons {g m g1 ps e ms g2 qs f} : One g m g1 ps e → Walk g1 ms g2 qs f → Walk g (m :: ms) g2 (ps ++ qs) (e || f)

theorem lines_append (a b : List Proc) : lines (a ++ b) = lines a ++ lines b := by simp [lines]

theorem says_cons {g : Stage} {m : Msg} {ms : List Msg} {rows : List Bytes} {e : Bool} (h : Says g (m :: ms) rows e) :
    ∃ g1 ps e1 rows1 e2, One g m g1 ps e1 ∧ Says g1 ms rows1 e2 ∧ rows = lines ps ++ rows1 ∧ e = (e1 || e2) := by
  cases h with
  | bound h => exact ⟨_, _, _, _, _, .bound, h, rfl, rfl⟩
  | begins hx h => obtain ⟨x, hx⟩ := hx; exact ⟨_, _, _, _, _, .begins hx, h, rfl, rfl⟩
  | row h => exact ⟨_, _, _, _, _, .row, h, rfl, rfl⟩
  | copyDone h => exact ⟨_, _, _, _, _, .copyDone, h, rfl, rfl⟩
  | completed h => exact ⟨_, _, _, _, _, .completed, h, rfl, rfl⟩
  | ready hd h => exact ⟨_, _, _, _, _, .ready hd, h, rfl, rfl⟩
  | async hg hm h => exact ⟨_, _, _, _, _, .async hg hm, h, rfl, rfl⟩
  | error hg hm h => exact ⟨_, _, _, _, _, .error hg hm, h, rfl, rfl⟩

theorem says_over {ms : List Msg} {rows : List Bytes} {e : Bool} (h : Says .over ms rows e) : ms = [] ∧ rows = [] ∧ e = false := by
  cases h with
  | over => exact ⟨rfl, rfl, rfl⟩
  | async hg => exact absurd rfl hg
  | error hg => exact absurd rfl hg

theorem says_nil {g : Stage} {rows : List Bytes} {e : Bool} (h : Says g [] rows e) : g = .over := by cases h; rfl

theorem says_split (a : List Msg) : ∀ {g : Stage} {b : List Msg} {rows : List Bytes} {e : Bool}, Says g (a ++ b) rows e →
    ∃ g1 ps e1 rows1 e2, Walk g a g1 ps e1 ∧ Says g1 b rows1 e2 ∧ rows = lines ps ++ rows1 ∧ e = (e1 || e2) := by
  induction a with
  | nil => intro g b rows e h; exact ⟨g, [], false, rows, e, .nil, h, rfl, rfl⟩
  | cons m a ih =>
    intro g b rows e h
    obtain ⟨g1, ps, e1, rows1, e2, h1, h2, rfl, rfl⟩ := says_cons h
    obtain ⟨g2, qs, e3, rows2, e4, h3, h4, rfl, rfl⟩ := ih h2
    exact ⟨g2, ps ++ qs, e1 || e3, rows2, e4, .cons h1 h3, h4, by rw [lines_append, List.append_assoc], by rw [Bool.or_assoc]⟩

theorem one_from_over {m : Msg} {g : Stage} {ps : List Proc} {e : Bool} : ¬ One .over m g ps e := by
  intro h
  cases h with
  | async hg => exact hg rfl
  | error hg => exact hg rfl

theorem walk_from_over {ms : List Msg} {g : Stage} {ps : List Proc} {e : Bool} (h : Walk .over ms g ps e) : ms = [] := by
  cases h with
  | nil => rfl
  | cons h _ => exact (one_from_over h).elim

/-- Where the transaction is in its commands. -/
def pos : Stage → Pos
  | .bind => ⟨0, 0⟩
  | .execute => ⟨1, 0⟩
  | .copy => ⟨1, 2⟩
  | .done => ⟨1, 3⟩
  | .sync => ⟨2, 0⟩
  | .over => ⟨3, 0⟩

/-- Bind, Execute, Sync. -/
structure Cmds (cs : List Elem) : Prop where
  is : ∃ c0 c1, cs = [c0, c1, .empty .synchronize] ∧ c0.kind.typ = some 66 ∧ c1.kind.typ = some 69

/-- The local variables of the loop at a stage. -/
structure AtLoc (cs : List Elem) (g : Stage) (l : Loc) : Prop where
  offset : l.offset = (pos g).offset
  step : l.step = (pos g).step
  ok : g ≠ .over → LocOk cs l

def execTables : List Table := [
      [(68, .parse .tuple, some 1), (72, .parse .copyToBegin, some 2), (71, .parse .copyFromBegin, some 3),
       (73, .parse (.empty .null), none), (67, .parse .complete, none)],
      [(68, .parse .tuple, some 1), (115, .parse (.empty .suspension), none), (67, .parse .complete, none)],
      [(100, .arg, some 2), (99, .parse (.empty .copyDone), some 3)],
      [(67, .parse .complete, none)]]
def bindTables : List Table := [[(50, .parse (.empty .bindComplete), none)]]
def syncTables' : List Table := [[(90, .parse .ready, none)]]

/-- The table at a stage. -/
def tablesOf : Stage → List Table
  | .bind => bindTables
  | .execute => execTables
  | .copy => execTables
  | .done => execTables
  | .sync => syncTables'
  | .over => []

theorem loc_paths {cs : List Elem} {g : Stage} {l : Loc} (hc : Cmds cs) (h : AtLoc cs g l) (hg : g ≠ .over) :
    l.paths = some (tablesOf g) ∧ (g = .sync → l.cmd = .empty .synchronize) ∧
      (l.cmd.kind.typ = some 66 ∨ l.cmd.kind.typ = some 69 ∨ l.cmd.kind.typ = some 83) ∧
      (l.cmd.kind.typ = some 69 ↔ g = .execute ∨ g = .copy ∨ g = .done) := by
  obtain ⟨c0, c1, rfl, h0, h1⟩ := hc.is
  obtain ⟨hl, hh⟩ := h.ok hg
  rw [h.offset] at hl
  cases g with
  | over => exact absurd rfl hg
  | bind =>
    have : c0 = l.cmd := by simpa [pos] using hl
    subst this
    rw [hookOf_of_typ h0] at hh
    injection hh with hh
    exact ⟨hh.symm, fun h => (by cases h), .inl h0, by rw [h0]; simp⟩
  | execute =>
    have : c1 = l.cmd := by simpa [pos] using hl
    subst this
    rw [hookOf_of_typ h1] at hh
    injection hh with hh
    exact ⟨hh.symm, fun h => (by cases h), .inr (.inl h1), by rw [h1]; simp⟩
  | copy =>
    have : c1 = l.cmd := by simpa [pos] using hl
    subst this
    rw [hookOf_of_typ h1] at hh
    injection hh with hh
    exact ⟨hh.symm, fun h => (by cases h), .inr (.inl h1), by rw [h1]; simp⟩
  | done =>
    have : c1 = l.cmd := by simpa [pos] using hl
    subst this
    rw [hookOf_of_typ h1] at hh
    injection hh with hh
    exact ⟨hh.symm, fun h => (by cases h), .inr (.inl h1), by rw [h1]; simp⟩
  | sync =>
    have : Elem.empty .synchronize = l.cmd := by simpa [pos] using hl
    rw [← this] at hh ⊢
    injection hh with hh
    exact ⟨hh.symm, fun _ => rfl, .inr (.inr rfl), by decide⟩

/-- What a message does to the transaction's record. -/
structure Evolves (s : Inst) (e : Bool) (t : Inst) : Prop where
  frame : frame0 t = frame0 s
  state : t.state = s.state
  fatal : t.fatal = if e then some false else s.fatal
  asyncs : AsyncsOk t

theorem Evolves.refl {s : Inst} (h : AsyncsOk s) : Evolves s false s := ⟨rfl, rfl, rfl, h⟩
theorem Evolves.trans {s t u : Inst} {e f : Bool} (h : Evolves s e t) (k : Evolves t f u) : Evolves s (e || f) u := by
  refine ⟨k.frame.trans h.frame, k.state.trans h.state, ?_, k.asyncs⟩
  rw [k.fatal, h.fatal]
  cases e <;> cases f <;> rfl

theorem setReady_evolves {s : Inst} (h : AsyncsOk s) (r : Option Bytes) : Evolves s false (setReady s r) := by
  refine ⟨(setReady_frame s r).1, (setReady_frame s r).2, ?_, ?_⟩ <;> cases r <;> first | rfl | exact h

theorem async_find {g : Stage} {m : Msg} {k : Kind} (hg : g ≠ .over) (hk : asyncKind m.1 = some k) :
    ∃ t, (tablesOf g)[(pos g).step]? = some t ∧ t.find m.1 = none ∧ m.1 ≠ 69 := by
  have hm : m.1 = 78 ∨ m.1 = 65 ∨ m.1 = 83 := by
    unfold asyncKind at hk
    split at hk
    · rename_i h; exact .inl h
    · rename_i h; exact .inr (.inl h)
    · rename_i h; exact .inr (.inr h)
    · cases hk
  rcases hm with hm | hm | hm <;> rw [hm] <;> cases g <;> first | exact absurd rfl hg | exact ⟨_, rfl, by decide, by decide⟩

theorem error_find {g : Stage} (hg : g ≠ .over) : ∃ t, (tablesOf g)[(pos g).step]? = some t ∧ t.find 69 = none := by
  cases g <;> first | exact absurd rfl hg | exact ⟨_, rfl, by decide⟩

theorem cmds_sync {cs : List Elem} (hc : Cmds cs) {g : Stage} (hg : g ≠ .over) : findSync (cs.drop (pos g).offset) (pos g).offset = some 2 ∧ cs[2]? = some (.empty .synchronize) := by
  obtain ⟨c0, c1, rfl, h0, h1⟩ := hc.is
  have n0 : c0 ≠ .empty .synchronize := by rintro rfl; revert h0; decide
  have n1 : c1 ≠ .empty .synchronize := by rintro rfl; revert h1; decide
  refine ⟨?_, rfl⟩
  cases g with
  | over => exact absurd rfl hg
  | bind => show findSync [c0, c1, .empty .synchronize] 0 = _; rw [findSync, if_neg n0, findSync, if_neg n1, findSync, if_pos rfl]
  | execute => show findSync [c1, .empty .synchronize] 1 = _; rw [findSync, if_neg n1, findSync, if_pos rfl]
  | copy => show findSync [c1, .empty .synchronize] 1 = _; rw [findSync, if_neg n1, findSync, if_pos rfl]
  | done => show findSync [c1, .empty .synchronize] 1 = _; rw [findSync, if_neg n1, findSync, if_pos rfl]
  | sync => show findSync [.empty .synchronize] 2 = _; rw [findSync, if_pos rfl]

theorem react_take {cs : List Elem} {o st n : Nat} {cmd : Elem} {ts : List Table} {t : Table} {x : Msg} {path : Path} {r : Proc} (ht : ts[st]? = some t)
    (hf : t.find x.1 = some (path, some n)) (hc : path.call x.2 = .ok r) : react cs o st cmd (some ts) x = .ok (.take r n) := by
  unfold react
  dsimp only
  rw [ht]
  dsimp only
  rw [hf]
  dsimp only
  rw [hc]

theorem react_next {cs : List Elem} {o st o' : Nat} {cmd c : Elem} {ts p : List Table} {t : Table} {x : Msg} {path : Path} {r : Proc} (ht : ts[st]? = some t)
    (hf : t.find x.1 = some (path, none)) (hc : path.call x.2 = .ok r) (ha : advance (cs.drop (o + 1)) (o + 1) = .ok (o', some (c, p))) :
    react cs o st cmd (some ts) x = .ok (.next r (readyState r) o' c p) := by
  unfold react
  dsimp only
  rw [ht]
  dsimp only
  rw [hf]
  dsimp only
  rw [hc]
  dsimp only
  rw [ha]

theorem react_last {cs : List Elem} {o st o' : Nat} {cmd : Elem} {ts : List Table} {t : Table} {x : Msg} {path : Path} {r : Proc} (ht : ts[st]? = some t)
    (hf : t.find x.1 = some (path, none)) (hc : path.call x.2 = .ok r) (ha : advance (cs.drop (o + 1)) (o + 1) = .ok (o', none)) :
    react cs o st cmd (some ts) x = .ok (.last r (readyState r) o') := by
  unfold react
  dsimp only
  rw [ht]
  dsimp only
  rw [hf]
  dsimp only
  rw [hc]
  dsimp only
  rw [ha]

/-- One message in the loop. -/
theorem loop_one {cs : List Elem} (hc : Cmds cs) {g g1 : Stage} {m : Msg} {ps : List Proc} {e : Bool} (h : One g m g1 ps e) {s : Inst} {l : Loc}
    (hs : s.commands = cs) (ha : AsyncsOk s) (hl : AtLoc cs g l) (ms : List Msg) :
    ∃ s1 l1, Evolves s e s1 ∧ AtLoc cs g1 l1 ∧ l1.processed = l.processed ++ ps ∧ l1.count = l.count + 1 ∧
      loop s l (m :: ms) = if g1 = .over then (s1, .ok ⟨false, l1⟩) else loop s1 l1 ms := by
  have hg : g ≠ .over := by rintro rfl; exact one_from_over h
  obtain ⟨hp, hsy, hty, hty69⟩ := loc_paths hc hl hg
  have ho := hl.offset
  have hst := hl.step
  have hok := hl.ok hg
  cases h with
  | bound =>
    obtain ⟨c0, c1, rfl, h0, h1⟩ := hc.is
    have hr : react s.commands l.offset l.step l.cmd l.paths (50, []) = .ok (.next (.elem (.empty .bindComplete)) none 1 c1 execTables) := by
      rw [hs, ho, hst, hp]
      have : advance [c1, .empty .synchronize] 1 = .ok (1, some (c1, execTables)) := by rw [advance, hookOf_of_typ h1]; rfl
      exact react_next (path := .parse (.empty .bindComplete)) rfl rfl rfl this
    rw [loop_cons, hr]; dsimp only
    refine ⟨_, _, Evolves.refl ha, ⟨?_, ?_, fun _ => ⟨?_, ?_⟩⟩, ?_, ?_, (if_neg (c := Stage.execute = Stage.over) (by decide)).symm⟩ <;> first | rfl | skip
    exact hookOf_of_typ h1
  | begins hx =>
    rename_i d x
    have hr : react s.commands l.offset l.step l.cmd l.paths (72, d) = .ok (.take (.elem x) 2) := by
      rw [hs, ho, hst, hp]
      exact react_take (path := .parse .copyToBegin) rfl rfl (by unfold Path.call; dsimp only; rw [hx]; rfl)
    rw [loop_cons, hr]; dsimp only
    exact ⟨s, { l with count := l.count + 1, processed := l.processed ++ [.elem x], step := 2 }, Evolves.refl ha, ⟨ho, rfl, fun _ => hok⟩, rfl, rfl, (if_neg (c := Stage.copy = Stage.over) (by decide)).symm⟩
  | row =>
    rename_i d
    have hr : react s.commands l.offset l.step l.cmd l.paths (100, d) = .ok (.take (.raw d) 2) := by
      rw [hs, ho, hst, hp]
      exact react_take (path := .arg) rfl rfl rfl
    rw [loop_cons, hr]; dsimp only
    exact ⟨s, { l with count := l.count + 1, processed := l.processed ++ [.raw d], step := 2 }, Evolves.refl ha, ⟨ho, rfl, fun _ => hok⟩, rfl, rfl, (if_neg (c := Stage.copy = Stage.over) (by decide)).symm⟩
  | copyDone =>
    have hr : react s.commands l.offset l.step l.cmd l.paths (99, []) = .ok (.take (.elem (.empty .copyDone)) 3) := by
      rw [hs, ho, hst, hp]
      exact react_take (path := .parse (.empty .copyDone)) rfl rfl rfl
    rw [loop_cons, hr]; dsimp only
    exact ⟨s, { l with count := l.count + 1, processed := l.processed ++ [.elem (.empty .copyDone)], step := 3 }, Evolves.refl ha, ⟨ho, rfl, fun _ => hok⟩, rfl, rfl, (if_neg (c := Stage.done = Stage.over) (by decide)).symm⟩
  | completed =>
    rename_i d
    obtain ⟨c0, c1, rfl, h0, h1⟩ := hc.is
    have hr : react s.commands l.offset l.step l.cmd l.paths (67, d) = .ok (.next (.elem (.complete (rstrip0 d))) none 2 (.empty .synchronize) syncTables') := by
      rw [hs, ho, hst, hp]
      exact react_next (path := .parse .complete) rfl rfl rfl rfl
    rw [loop_cons, hr]; dsimp only
    exact ⟨_, _, Evolves.refl ha, ⟨rfl, rfl, fun _ => ⟨rfl, rfl⟩⟩, rfl, rfl, (if_neg (c := Stage.sync = Stage.over) (by decide)).symm⟩
  | ready hd =>
    rename_i d
    obtain ⟨c0, c1, rfl, h0, h1⟩ := hc.is
    have hr : react s.commands l.offset l.step l.cmd l.paths (90, d) = .ok (.last (.elem (.ready d)) (some d) 3) := by
      rw [hs, ho, hst, hp]
      rcases hd with rfl | rfl | rfl <;> exact react_last (path := .parse .ready) rfl rfl rfl rfl
    rw [loop_cons, hr]; dsimp only
    exact ⟨_, _, setReady_evolves ha (some d), ⟨rfl, rfl, fun h => absurd rfl h⟩, rfl, rfl, (if_pos rfl).symm⟩
  | async _ hm =>
    obtain ⟨k, el, hk, hpk⟩ := hm
    obtain ⟨t, ht, hf, h69⟩ := async_find hg hk
    have hr : react s.commands l.offset l.step l.cmd l.paths m = .ok (.async k) := by
      rw [hst, hp]
      unfold react
      dsimp only
      rw [ht]
      dsimp only
      rw [hf]
      dsimp only
      rw [if_neg h69, hk]
    rw [loop_cons, hr]; dsimp only
    have h1 := handleAsync_ok hk ha (s := s) (x := m)
    have hframe := @handleAsync_frame s k m
    cases hh : handleAsync s k m with
    | error er => rw [(h1.1 er).1 hh] at hpk; cases hpk
    | ok s1 =>
      dsimp only
      obtain ⟨a1, a2, a3, a4, a5⟩ := h1.2 s1 hh
      obtain ⟨f1, f2⟩ := hframe hh
      exact ⟨s1, { l with count := l.count + 1 }, ⟨f1, f2, a3, a1⟩, ⟨ho, hst, fun _ => hok⟩, (List.append_nil _).symm, rfl, (if_neg hg).symm⟩
  | error _ hm =>
    obtain ⟨h69, em, sev, hpe, hdg, hsev⟩ := hm
    obtain ⟨t, ht, hf⟩ := error_find hg
    obtain ⟨hfs, h2⟩ := cmds_sync hc hg
    have hr : react s.commands l.offset l.step l.cmd l.paths m = .ok (.skip em 2 (.empty .synchronize) (some syncTables')) := by
      rw [hs, ho, hst, hp]
      unfold react
      dsimp only
      rw [ht]
      dsimp only
      rw [h69, hf]
      dsimp only
      rw [if_pos rfl, hpe]
      dsimp only
      rw [hdg]
      dsimp only
      rw [if_neg (by rw [hsev]; simp), if_neg (by rcases hty with h | h | h <;> rw [h] <;> decide), hfs]
      dsimp only
      rw [h2]
      rfl
    rw [loop_cons, hr]; dsimp only
    refine ⟨{ s with fatal := some false, errorMessage := some (.server em) }, { l with count := l.count + 1, offset := 2, cmd := .empty .synchronize, paths := some syncTables', step := 0 },
      ⟨rfl, rfl, rfl, ha⟩, ⟨rfl, rfl, fun _ => ⟨h2, rfl⟩⟩, (List.append_nil _).symm, rfl, (if_neg (c := Stage.sync = Stage.over) (by decide)).symm⟩

theorem loop_walk {cs : List Elem} (hc : Cmds cs) {ms : List Msg} : ∀ {g g1 : Stage} {ps : List Proc} {e : Bool} {s : Inst} {l : Loc}, Walk g ms g1 ps e →
    s.commands = cs → AsyncsOk s → AtLoc cs g l → g ≠ .over →
    ∃ s1 l1, Evolves s e s1 ∧ AtLoc cs g1 l1 ∧ l1.processed = l.processed ++ ps ∧ l1.count = l.count + ms.length ∧ loop s l ms = (s1, .ok ⟨false, l1⟩) := by
  induction ms with
  | nil =>
    intro g g1 ps e s l h hs ha hl hg
    cases h
    exact ⟨s, l, .refl ha, hl, (List.append_nil _).symm, rfl, rfl⟩
  | cons m ms ih =>
    intro g g1 ps e s l h hs ha hl hg
    cases h with
    | cons h1 h2 =>
      rename_i g2 ps1 e1 ps2 e2
      obtain ⟨s1, l1, v1, hl1, hp1, hn1, he⟩ := loop_one hc h1 hs ha hl ms
      by_cases ho : g2 = .over
      · subst ho
        rw [if_pos rfl] at he
        have := walk_from_over h2
        subst this
        cases h2
        exact ⟨s1, l1, by rw [Bool.or_false]; exact v1, hl1, by rw [hp1, List.append_nil], hn1, he⟩
      · rw [if_neg ho] at he
        have hs1 : s1.commands = cs := (frame0_fields v1.frame).1.trans hs
        obtain ⟨s2, l2, v2, hl2, hp2, hn2, he2⟩ := ih h2 hs1 v1.asyncs hl1 ho
        exact ⟨s2, l2, v1.trans v2, hl2, by rw [hp2, hp1, List.append_assoc], by rw [hn2, hn1, List.length_cons]; omega, he.trans he2⟩

/-- Where the transaction stands between two batches of messages; `e`: it has seen an error. -/
structure Stands (cs : List Elem) (i : Inst) (g : Stage) (e : Bool) (next : Nat) : Prop where
  cmds : i.commands = cs
  wait : g ≠ .over → i.state = .receiving .standardPut ∨ (i.state = .receiving .putCopydata ∧ g = .copy)
  over : g = .over → i.state = .complete
  at_ : i.last2 = pos g
  fatal : i.fatal = if e then some false else none
  asyncs : AsyncsOk i
  last : i.lastId < next
  ids : ∀ x ∈ i.completed, x.1 < next

theorem walk_append {a : List Msg} : ∀ {b : List Msg} {g g1 g2 : Stage} {ps qs : List Proc} {e f : Bool}, Walk g a g1 ps e → Walk g1 b g2 qs f → Walk g (a ++ b) g2 (ps ++ qs) (e || f) := by
  induction a with
  | nil => intro b g g1 g2 ps qs e f h1 h2; cases h1; exact h2
  | cons m a ih =>
    intro b g g1 g2 ps qs e f h1 h2
    cases h1 with
    | cons h1 h3 => rw [List.append_assoc, Bool.or_assoc]; exact .cons h1 (ih h3 h2)

/-- A walk whose last kept message is a row or the beginning of the COPY is still in the COPY, unless there was an error. -/
theorem walk_last {a : List Msg} : ∀ {g g1 : Stage} {ps : List Proc} {e : Bool}, Walk g a g1 ps e → (∀ p ∈ ps.getLast?, (∃ d, p = .raw d) ∨ ∃ x, p = .elem x ∧ x.kind = .copyToBegin) →
    ps ≠ [] → g1 = .copy ∨ g1 = .sync := by
  induction a with
  | nil => intro g g1 ps e h hl hne; cases h; exact absurd rfl hne
  | cons m a ih =>
    intro g g1 ps e h hl hne
    cases h with
    | cons h1 h2 =>
      rename_i g2 ps1 e1 ps2 e2
      by_cases hq : ps2 = []
      · subst hq
        rw [List.append_nil] at hl hne
        have h3 : g2 = .copy ∨ g2 = .sync := by
          cases h1 with
          | bound => rcases hl _ rfl with ⟨d, h⟩ | ⟨x, h, hk⟩ <;> cases h; cases hk
          | begins _ => exact .inl rfl
          | row => exact .inl rfl
          | copyDone => rcases hl _ rfl with ⟨d, h⟩ | ⟨x, h, hk⟩ <;> cases h; cases hk
          | completed => exact .inr rfl
          | ready _ => rcases hl _ rfl with ⟨d, h⟩ | ⟨x, h, hk⟩ <;> cases h; cases hk
          | async _ _ => exact absurd rfl hne
          | error _ _ => exact absurd rfl hne
        clear h1
        revert h3
        generalize hz : ([] : List Proc) = z at h2
        clear ih hl hne
        induction h2 with
        | nil => exact id
        | cons k1 k2 ih2 =>
          rename_i ga ma gb pa ea msa gc qa fa
          intro h3
          obtain ⟨hpa, hqa⟩ : pa = [] ∧ qa = [] := by simpa using hz.symm
          subst hpa hqa
          apply ih2 rfl
          cases k1 with
          | async _ _ => exact h3
          | error _ _ => exact .inr rfl
      · refine ih h2 (fun p hp => hl p ?_) hq
        rw [List.getLast?_append]
        cases hps : ps2.getLast? with
        | none => rw [hps] at hp; cases hp
        | some y => rw [hps] at hp; exact hp

theorem walk_over_last {a : List Msg} {g : Stage} {ps : List Proc} {e : Bool} (h : Walk g a .over ps e) (hg : g ≠ .over) : ps ≠ [] := by
  generalize ho : Stage.over = o at h
  induction h with
  | nil => exact absurd ho.symm hg
  | cons k1 k2 ih =>
    subst ho
    rename_i ga ma gb pa ea msa qa fa
    by_cases hb : gb = .over
    · subst hb
      cases k1 with
      | ready _ => simp
      | async h _ => exact absurd rfl h
    · intro hz
      exact ih hb rfl (by simpa using (List.append_eq_nil_iff.1 hz).2)

end PG.CopyTo
