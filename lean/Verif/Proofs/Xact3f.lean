import Verif.Spec.Status
import Verif.Proofs.Xact3c
/-!
# What an `Instruction` remembers of the errors and the status it was told
-/
namespace PG.Xact3
open PG PG.Element3 PG.Spec.Status

theorem lastStatus_append (a b : List Msg) : lastStatus (a ++ b) = (lastStatus b).or (lastStatus a) := by
  unfold lastStatus
  rw [List.filter_append, List.getLast?_append]
  cases (b.filter (fun m => decide (m.1 = 90))).getLast? <;> rfl

theorem lastStatus_cons (x : Msg) (b : List Msg) : lastStatus (x :: b) = (lastStatus b).or (if x.1 = 90 then some x.2 else none) := by
  rw [← List.singleton_append, lastStatus_append]
  congr 1
  unfold lastStatus
  by_cases h : x.1 = 90 <;> simp [h]

/-- Facts about the entries of the hook table for errors and status. -/
def entryOk2 (e : UInt8 × Path × Option Nat) : Bool :=
  e.1 != 69 && (e.1 != 90 || (e.2.1 == .parse .ready && e.2.2 == none)) && (e.1 == 90 || e.2.1 != .parse .ready)

theorem hook_entries2 {ct : UInt8} {ts : List Table} (h : hook ct = some (some ts)) :
    ∀ tb ∈ ts, ∀ e ∈ tb, entryOk2 e = true := by
  unfold hook at h
  split at h <;> first | (cases h; decide) | cases h

theorem parse_ready {d : Bytes} {e : Elem} (h : parseK .ready d = .ok e) : e = .ready d := by
  simp only [parseK] at h
  split at h
  · cases h; rfl
  · cases h

theorem parse_ready_valid {d : Bytes} {e : Elem} (h : parseK .ready d = .ok e) : d = [73] ∨ d = [69] ∨ d = [84] := by
  simp only [parseK] at h
  split at h
  · assumption
  · cases h

/-- The status a message reports, if it is a ReadyForQuery. -/
def zOf (x : Msg) : Option Bytes := if x.1 = 90 then some x.2 else none

/-- No status, or one of the three of the protocol. -/
def ValidZ (o : Option Bytes) : Prop := ∀ z, o = some z → z = [73] ∨ z = [69] ∨ z = [84]

theorem valid_none : ValidZ none := fun _ h => (by cases h)

theorem valid_or {a b : Option Bytes} (ha : ValidZ a) (hb : ValidZ b) : ValidZ (a.or b) := by
  cases a with
  | none => exact hb
  | some z => exact ha

theorem entry2 {cmd : Elem} {p} (hh : hookOf cmd = some p) {ts : List Table} {tb : Table} {st : Nat} (hp : p = some ts)
    (ht : ts[st]? = some tb) {x : Msg} {path nx} (hf : tb.find x.1 = some (path, nx)) : entryOk2 (x.1, path, nx) = true := by
  subst hp
  obtain ⟨t, _, h⟩ := hookOf_typ hh
  exact hook_entries2 h tb (List.mem_of_getElem? ht) _ (find_mem hf)

theorem call_ready {x : Msg} {path : Path} {r : Proc} {nx} (he : entryOk2 (x.1, path, nx) = true) (hc : path.call x.2 = .ok r) :
    readyState r = zOf x ∧ x.1 ≠ 69 ∧ (nx ≠ none → x.1 ≠ 90) ∧ ValidZ (zOf x) := by
  unfold entryOk2 at he
  simp only [Bool.and_eq_true, Bool.or_eq_true, bne_iff_ne, beq_iff_eq, ne_eq] at he
  obtain ⟨⟨h1, h2⟩, h3⟩ := he
  refine ⟨?_, h1, fun hn h90 => ?_, fun z hz => ?_⟩
  · unfold zOf
    by_cases h : x.1 = 90
    · rw [if_pos h]
      rcases h2 with h2 | ⟨rfl, _⟩
      · exact absurd h h2
      · obtain ⟨e, rfl, hp, _⟩ := call_parse hc
        rw [parse_ready hp]
        rfl
    · rw [if_neg h]
      rcases h3 with h3 | h3
      · exact absurd h3 h
      · cases path with
        | arg => cases hc; rfl
        | parse k =>
          obtain ⟨e, rfl, _, hk⟩ := call_parse hc
          cases e <;> first | rfl | (exact absurd (by rw [← hk]; rfl) h3)
  · rcases h2 with h2 | ⟨_, h2⟩
    · exact h2 h90
    · exact hn h2
  · unfold zOf at hz
    split at hz
    · rename_i h
      cases hz
      rcases h2 with h2 | ⟨rfl, _⟩
      · exact absurd h h2
      · obtain ⟨e, rfl, hp, _⟩ := call_parse hc
        exact parse_ready_valid hp
    · cases hz

/-- What the decision about a message says of the message. -/
theorem react_seen {cs o st cmd p} {x : Msg} {a : React} (hh : hookOf cmd = some p) (h : react cs o st cmd p x = .ok a) :
    (∀ em o' c q, a = .skip em o' c q → x.1 = 69) ∧ (∀ em, a = .lost em → x.1 = 69) ∧
    (∀ k, a = .async k → x.1 ≠ 69 ∧ x.1 ≠ 90) ∧ (∀ r n, a = .take r n → x.1 ≠ 69 ∧ x.1 ≠ 90) ∧
    (∀ r rd o' c q, a = .next r rd o' c q → x.1 ≠ 69 ∧ rd = zOf x ∧ ValidZ (zOf x)) ∧ (∀ r rd o', a = .last r rd o' → x.1 ≠ 69 ∧ rd = zOf x ∧ ValidZ (zOf x)) := by
  obtain ⟨h1, h2, h3⟩ := react_processed h
  refine ⟨?_, ?_, ?_, ?_, ?_, ?_⟩
  · intro em o' c q e
    subst e
    unfold react at h
    split at h
    · cases h
    split at h
    · cases h
    split at h
    · split at h
      · assumption
      · split at h <;> cases h
    · split at h
      · cases h
      · split at h
        · cases h
        · split at h <;> cases h
  · intro em e
    subst e
    unfold react at h
    split at h
    · cases h
    split at h
    · cases h
    split at h
    · split at h
      · assumption
      · split at h <;> cases h
    · split at h
      · cases h
      · split at h
        · cases h
        · split at h <;> cases h
  · intro k e
    subst e
    have := (react_async_kind h)
    constructor <;> intro h' <;> rw [h'] at this <;> simp [asyncKind] at this
  · intro r n e
    obtain ⟨ts, tb, path, e1, e2, e3, e4⟩ := h1 r n e
    have := call_ready (entry2 hh e1 e2 e3) e4
    exact ⟨this.2.1, this.2.2.1 (by simp)⟩
  · intro r rd o' c q e
    obtain ⟨ts, tb, path, e1, e2, e3, e4, e5, _⟩ := h2 r rd o' c q e
    have := call_ready (entry2 hh e1 e2 e3) e4
    exact ⟨this.2.1, e5.trans this.1, this.2.2.2⟩
  · intro r rd o' e
    obtain ⟨ts, tb, path, e1, e2, e3, e4, e5, _⟩ := h3 r rd o' e
    have := call_ready (entry2 hh e1 e2 e3) e4
    exact ⟨this.2.1, e5.trans this.1, this.2.2.2⟩

/-- The status is remembered. -/
def Stat (s : Inst) (ms : List Msg) (s' : Inst) : Prop := s'.lastReady = (lastStatus ms).or s.lastReady ∧ ValidZ (lastStatus ms)

/-- What remains of errors and status after a put of `ms`. -/
structure Seen (s : Inst) (ms : List Msg) (s' : Inst) : Prop where
  kept : s.fatal ≠ none → s'.fatal ≠ none
  error : (∃ m ∈ ms, m.1 = 69) → s'.fatal ≠ none
  status : (s'.fatal = some true ∧ s'.state = .complete) ∨ Stat s ms s'

theorem Stat.cons {s t u : Inst} {x : Msg} {b : List Msg} (h : t.lastReady = (zOf x).or s.lastReady ∧ ValidZ (zOf x)) (k : Stat t b u) :
    Stat s (x :: b) u := by
  unfold Stat
  rw [k.1, h.1, lastStatus_cons]
  refine ⟨?_, valid_or k.2 h.2⟩
  unfold zOf
  cases lastStatus b <;> rfl

theorem Seen.cons {s t u : Inst} {x : Msg} {b : List Msg} (h1 : s.fatal ≠ none → t.fatal ≠ none) (h2 : x.1 = 69 → t.fatal ≠ none)
    (h3 : t.lastReady = (zOf x).or s.lastReady ∧ ValidZ (zOf x)) (k : Seen t b u) : Seen s (x :: b) u := by
  refine ⟨fun hf => k.kept (h1 hf), ?_, ?_⟩
  · rintro ⟨m, hm, h69⟩
    rcases List.mem_cons.1 hm with rfl | hm
    · exact k.kept (h2 h69)
    · exact k.error ⟨m, hm, h69⟩
  · rcases k.status with h | h
    · exact .inl h
    · exact .inr (Stat.cons h3 h)

theorem Seen.refl (s : Inst) : Seen s [] s := ⟨id, fun ⟨_, h, _⟩ => (by cases h), .inr ⟨rfl, valid_none⟩⟩

theorem handleAsync_seen {s k x s'} (h : handleAsync s k x = .ok s') : s'.fatal = s.fatal ∧ s'.lastReady = s.lastReady := by
  unfold handleAsync at h
  split at h
  · cases h; exact ⟨rfl, rfl⟩
  · split at h
    · cases h; exact ⟨rfl, rfl⟩
    · cases h

theorem setReady_seen (s : Inst) (r) : (setReady s r).fatal = s.fatal ∧ (setReady s r).lastReady = r.or s.lastReady := by
  cases r <;> exact ⟨rfl, rfl⟩

theorem zOf_none {x : Msg} (h : x.1 ≠ 90) : zOf x = none := if_neg h

/-- The loop over messages. -/
theorem loop_seen : ∀ (ms : List Msg) (s : Inst) (l : Loc), LocOk s.commands l →
    (∀ s' e, loop s l ms = (s', .error e) → s.fatal ≠ none → s'.fatal ≠ none) ∧
    (∀ s' d, loop s l ms = (s', .ok d) → ∃ k, k ≤ ms.length ∧ d.loc.count = l.count + k ∧ Seen s (ms.take k) s' ∧
      (d.early = false → Stat s (ms.take k) s'))
  | [], s, l, _ => ⟨fun s' e h => (by cases h), fun s' d h => by cases h; exact ⟨0, Nat.le_refl _, rfl, Seen.refl s, fun _ => ⟨rfl, valid_none⟩⟩⟩
  | x :: xs, s, l, hl => by
    rw [loop_cons]
    cases hr : react s.commands l.offset l.step l.cmd l.paths x with
    | error e => exact ⟨fun s' e h => (by cases h; exact id), fun s' d h => (by cases h)⟩
    | ok a =>
      obtain ⟨i, j, _⟩ := react_ok hr
      obtain ⟨a1, a2, a3, a4, a5, a6⟩ := react_seen hl.2 hr
      have goOn : ∀ (t : Inst) (l' : Loc), LocOk t.commands l' → l'.count = l.count + 1 → (s.fatal ≠ none → t.fatal ≠ none) →
          (x.1 = 69 → t.fatal ≠ none) → t.lastReady = (zOf x).or s.lastReady ∧ ValidZ (zOf x) →
          (∀ s' e, loop t l' xs = (s', .error e) → s.fatal ≠ none → s'.fatal ≠ none) ∧
          (∀ s' d, loop t l' xs = (s', .ok d) → ∃ k, k ≤ (x :: xs).length ∧ d.loc.count = l.count + k ∧ Seen s ((x :: xs).take k) s' ∧
            (d.early = false → Stat s ((x :: xs).take k) s')) := by
        intro t l' hl' hcnt h1 h2 h3
        obtain ⟨b1, b2⟩ := loop_seen xs t l' hl'
        refine ⟨fun s' e h hf => b1 s' e h (h1 hf), fun s' d h => ?_⟩
        obtain ⟨k, hk, hc, hs, he⟩ := b2 s' d h
        refine ⟨k + 1, Nat.succ_le_succ hk, by rw [hc, hcnt]; omega, Seen.cons h1 h2 h3 hs, fun h => ?_⟩
        exact Stat.cons h3 (he h)
      have stop : ∀ (t : Inst) (d0 : Done), d0.loc.count = l.count + 1 → Seen s [x] t → (d0.early = false → Stat s [x] t) →
          (∀ s' e, (t, Except.ok d0) = (s', (.error e : Except Err Done)) → s.fatal ≠ none → s'.fatal ≠ none) ∧
          (∀ s' d, (t, (Except.ok d0 : Except Err Done)) = (s', .ok d) → ∃ k, k ≤ (x :: xs).length ∧ d.loc.count = l.count + k ∧ Seen s ((x :: xs).take k) s' ∧
            (d.early = false → Stat s ((x :: xs).take k) s')) := by
        intro t d0 hc hs he
        refine ⟨fun s' e h => (by cases h), fun s' d h => ?_⟩
        cases h
        exact ⟨1, by simp, hc, by simpa using hs, by simpa using he⟩
      cases a with
      | violation ex => exact stop _ _ rfl ⟨fun _ => by simp, fun _ => by simp, .inl ⟨rfl, rfl⟩⟩ (fun h => (by cases h))
      | fatal em => exact stop _ _ rfl ⟨fun _ => by simp, fun _ => by simp, .inl ⟨rfl, rfl⟩⟩ (fun h => (by cases h))
      | lost em =>
        refine stop _ _ rfl ⟨fun _ => by simp, fun _ => by simp, .inr ?_⟩ (fun h => (by cases h))
        unfold Stat
        rw [lastStatus_cons, if_neg (by rw [a2 em rfl]; decide)]
        exact ⟨rfl, valid_none⟩
      | skip em o c p =>
        exact goOn _ _ (i _ _ _ _ rfl) rfl (fun _ => by simp) (fun _ => by simp) (by rw [zOf_none (by rw [a1 _ _ _ _ rfl]; decide)]; exact ⟨rfl, valid_none⟩)
      | async k =>
        dsimp only
        obtain ⟨c1, c2⟩ := a3 k rfl
        cases ha : handleAsync s k x with
        | error e => exact ⟨fun s' e h => (by cases h; exact id), fun s' d h => (by cases h)⟩
        | ok t =>
          obtain ⟨d1, d2⟩ := handleAsync_seen ha
          have hf := (frame0_fields (handleAsync_frame ha).1).1
          exact goOn t _ (by rw [hf]; exact hl) rfl (fun h => by rw [d1]; exact h) (fun h => absurd h c1) (by rw [zOf_none c2, d2]; exact ⟨rfl, valid_none⟩)
      | take r n =>
        obtain ⟨c1, c2⟩ := a4 r n rfl
        exact goOn s _ hl rfl id (fun h => absurd h c1) (by rw [zOf_none c2]; exact ⟨rfl, valid_none⟩)
      | next r rd o c p =>
        obtain ⟨c1, c2, c3⟩ := a5 _ _ _ _ _ rfl
        obtain ⟨d1, d2⟩ := setReady_seen s rd
        have hf := (frame0_fields (setReady_frame s rd).1).1
        exact goOn (setReady s rd) _ (by rw [hf]; exact j _ _ _ _ _ rfl) rfl (fun h => by rw [d1]; exact h) (fun h => absurd h c1)
          (by rw [d2, c2]; exact ⟨rfl, c3⟩)
      | last r rd o =>
        obtain ⟨c1, c2, c3⟩ := a6 _ _ _ rfl
        obtain ⟨d1, d2⟩ := setReady_seen s rd
        have hz : Stat s [x] (setReady s rd) := by
          unfold Stat
          rw [d2, c2, lastStatus_cons]
          exact ⟨rfl, c3⟩
        refine stop _ _ rfl ⟨fun h => by rw [d1]; exact h, fun ⟨m, hm, h⟩ => ?_, .inr hz⟩ (fun _ => hz)
        cases List.mem_singleton.1 hm; exact absurd h c1

theorem finish_seen (s : Inst) (b : Batch) (l : Loc) : (finish s b l).fatal = s.fatal ∧ (finish s b l).lastReady = s.lastReady ∧
    (finish s b l).asyncs = s.asyncs := by
  unfold finish switchState
  dsimp only
  split
  · exact ⟨rfl, rfl, rfl⟩
  · split
    · split <;> exact ⟨rfl, rfl, rfl⟩
    · exact ⟨rfl, rfl, rfl⟩

theorem loop_asyncs_mono : ∀ (ms : List Msg) (s : Inst) (l : Loc), ∀ x ∈ s.asyncs, x ∈ (loop s l ms).1.asyncs
  | [], s, l => fun _ h => h
  | x :: xs, s, l => by
    rw [loop_cons]
    split
    · exact fun _ h => h
    · exact fun _ h => h
    · exact fun _ h => h
    · exact fun _ h => h
    · rename_i em o c p _
      exact loop_asyncs_mono xs { s with fatal := some false, errorMessage := some (.server em) } _
    · split
      · exact fun _ h => h
      · rename_i t ht
        intro y hy
        apply loop_asyncs_mono xs t _ y
        unfold handleAsync at ht
        split at ht
        · cases ht; exact hy
        · split at ht
          · cases ht; exact List.mem_append_left _ hy
          · cases ht
    · exact loop_asyncs_mono xs _ _
    · rename_i rd _ _ _ _
      intro y hy
      apply loop_asyncs_mono xs _ _ y
      cases rd <;> exact hy
    · rename_i rd _ _
      intro y hy
      cases rd <;> exact hy

/-- What stopped the loop once stops it again. -/
theorem loop_stuck : ∀ (ms : List Msg) (s s' : Inst) (l : Loc) (e : Err), loop s l ms = (s', .error e) →
    ∀ t : Inst, t.commands = s.commands → (∀ x ∈ t.asyncs, x ∈ s'.asyncs) → ∃ e', (loop t l ms).2 = .error e'
  | [], s, s', l, e, h => (by cases h)
  | x :: xs, s, s', l, e, h => by
    intro t ht hsub
    rw [loop_cons] at h ⊢
    cases hr : react s.commands l.offset l.step l.cmd l.paths x with
    | error e => rw [ht, hr]; exact ⟨e, rfl⟩
    | ok a =>
      have hr' : react t.commands l.offset l.step l.cmd l.paths x = .ok a := by rw [ht]; exact hr
      rw [hr] at h
      rw [hr']
      cases a with
      | violation ex => cases h
      | fatal em => cases h
      | lost em => cases h
      | skip em o c p => exact loop_stuck xs _ s' _ e h { t with fatal := some false, errorMessage := some (.server em) } ht hsub
      | take r n => exact loop_stuck xs _ s' _ e h t ht hsub
      | last r rd o => cases h
      | next r rd o c p =>
        refine loop_stuck xs _ s' _ e h (setReady t rd) ?_ ?_
        · cases rd <;> exact ht
        · intro y hy; apply hsub; cases rd <;> exact hy
      | async k =>
        dsimp only at h ⊢
        cases ha : handleAsync s k x with
        | error e1 =>
          rw [ha] at h
          cases h
          unfold handleAsync at ha ⊢
          split at ha
          · cases ha
          · rename_i hx
            rw [if_neg (fun hm => hx (hsub x hm))]
            split at ha
            · cases ha
            · rename_i e2 he
              exact ⟨e2, rfl⟩
        | ok s1 =>
          rw [ha] at h
          dsimp only at h
          have hmono := loop_asyncs_mono xs s1 { l with count := l.count + 1 }
          rw [h] at hmono
          cases hb : handleAsync t k x with
          | error e2 => exact ⟨e2, rfl⟩
          | ok t1 =>
            have hc1 := (frame0_fields (handleAsync_frame ha).1).1
            have hc2 := (frame0_fields (handleAsync_frame hb).1).1
            refine loop_stuck xs s1 s' _ e h t1 (by rw [hc2, hc1, ht]) ?_
            intro y hy
            have hx1 : x ∈ s1.asyncs := by
              unfold handleAsync at ha
              split at ha
              · cases ha; assumption
              · split at ha
                · cases ha; simp
                · cases ha
            unfold handleAsync at hb
            split at hb
            · cases hb; exact hsub y hy
            · split at hb
              · cases hb
                rcases List.mem_append.1 hy with hy | hy
                · exact hsub y hy
                · cases List.mem_singleton.1 hy
                  exact hmono _ hx1
              · cases hb

theorem startLoop_spec (s : Inst) (b : Batch) : ∃ a, (a = s.asyncs ∨ a = []) ∧ (startLoop s b).1 = { s with asyncs := a } ∧
    (∀ l, (startLoop s b).2 = .ok l → LocOk s.commands l ∧ l.count = 0) := by
  unfold startLoop
  dsimp only
  by_cases h : b.id = s.lastId
  · rw [if_pos h]
    refine ⟨s.asyncs, .inl rfl, ?_, ?_⟩
    · split
      · rfl
      · split <;> rfl
    · intro l
      split
      · intro h; cases h
      · rename_i hc
        split
        · intro h; cases h
        · rename_i hp
          intro h
          cases h
          exact ⟨⟨hc, hp⟩, rfl⟩
  · rw [if_neg h]
    refine ⟨[], .inr rfl, ?_, ?_⟩
    · split
      · rfl
      · split <;> rfl
    · intro l
      split
      · intro h; cases h
      · rename_i hc
        split
        · intro h; cases h
        · rename_i hp
          intro h
          cases h
          exact ⟨⟨hc, hp⟩, rfl⟩

theorem startLoop_snd (s : Inst) (b : Batch) : (startLoop s b).2 = match s.commands[(startPos s b).offset]? with
    | none => .error .indexError
    | some c => match hookOf c with
      | none => .error .keyError
      | some t => .ok ⟨(startPos s b).offset, (startPos s b).step, c, t, [], 0⟩ := by
  unfold startLoop
  dsimp only
  have hs : (if b.id = s.lastId then s else { s with asyncs := [] }).commands = s.commands := by split <;> rfl
  generalize (if b.id = s.lastId then s else { s with asyncs := [] }) = u at hs
  rw [hs]
  cases s.commands[(startPos s b).offset]? with
  | none => rfl
  | some c =>
    dsimp only
    cases hookOf c <;> rfl

theorem startLoop_congr {s t : Inst} (b : Batch) (h1 : s.commands = t.commands) (h2 : s.lastId = t.lastId) (h3 : s.last1 = t.last1) (h4 : s.last2 = t.last2) :
    (startLoop s b).2 = (startLoop t b).2 := by
  rw [startLoop_snd, startLoop_snd]
  have : startPos s b = startPos t b := by unfold startPos; rw [h2, h3, h4]
  rw [this, h1]

/-- What a put does to the memory of errors and status. -/
theorem standardPut_seen (s : Inst) (b : Batch) :
    (∀ s' n, standardPut s b = (s', .ok n) → Seen s (b.msgs.take n) s') ∧
    (∀ s' e, standardPut s b = (s', .error e) → (s.fatal ≠ none → s'.fatal ≠ none) ∧ s'.state = s.state ∧ ∃ e', (standardPut s' b).2 = .error e') := by
  obtain ⟨a, ha, e1, e2⟩ := startLoop_spec s b
  unfold standardPut
  cases hz : startLoop s b with
  | mk s1 r =>
    rw [hz] at e1 e2
    dsimp only at e1 e2
    cases r with
    | error e =>
      refine ⟨fun s' n h => (by cases h), fun s' e h => ?_⟩
      cases h
      refine ⟨by rw [e1]; exact id, by rw [e1], ?_⟩
      have : (startLoop s1 b).2 = .error e := by
        rw [startLoop_congr (s := s1) (t := s) b (by rw [e1]) (by rw [e1]) (by rw [e1]) (by rw [e1]), hz]
      generalize startLoop s1 b = w at this
      obtain ⟨w1, w2⟩ := w
      cases this
      exact ⟨e, rfl⟩
    | ok l =>
      obtain ⟨hl, hc⟩ := e2 l rfl
      have hl1 : LocOk s1.commands l := by rw [e1]; exact hl
      obtain ⟨b1, b2⟩ := loop_seen b.msgs s1 l hl1
      have hfr := loop_frame0 b.msgs s1 l
      dsimp only
      cases hv : loop s1 l b.msgs with
      | mk s2 r =>
        rw [hv] at hfr
        cases r with
        | ok d =>
          refine ⟨fun s' n h => ?_, fun s' e h => ?_⟩
          · obtain ⟨k, hk, hkc, hs, hse⟩ := b2 s2 d hv
            have hs0 : Seen s (b.msgs.take k) s2 := by
              rw [e1] at hs
              exact ⟨hs.kept, hs.error, hs.status⟩
            obtain ⟨ea, l1⟩ := d
            have hk1 : l1.count = k := by
              have : l1.count = l.count + k := hkc
              omega
            cases ea with
            | true => cases h; rw [hk1]; exact hs0
            | false =>
              cases h
              rw [hk1]
              obtain ⟨f1, f2, _⟩ := finish_seen s2 b l1
              refine ⟨by rw [f1]; exact hs0.kept, by rw [f1]; exact hs0.error, ?_⟩
              unfold Stat
              rw [f2]
              have := hse rfl
              rw [e1] at this
              exact .inr this
          · obtain ⟨ea, l1⟩ := d
            cases ea <;> cases h
        | error e =>
          refine ⟨fun s' n h => (by cases h), fun s' e h => ?_⟩
          cases h
          obtain ⟨f1, f2, f3, f4, f5, _⟩ := frame0_fields hfr.1
          refine ⟨fun hf => b1 _ _ hv (by rw [e1]; exact hf), ?_, ?_⟩
          · rw [hfr.2.1 (fun l' hl' => by cases hl'), e1]
          · obtain ⟨a', ha', g1, _⟩ := startLoop_spec s2 b
            have g2 : (startLoop s2 b).2 = .ok l := by
              rw [startLoop_congr (s := s2) (t := s) b (by rw [f1, e1]) (by rw [f3, e1]) (by rw [f4, e1]) (by rw [f5, e1]), hz]
            obtain ⟨e', he'⟩ := loop_stuck b.msgs s1 s2 l e hv (startLoop s2 b).1 (by rw [g1]; exact f1) (by
              rw [g1]
              intro y hy
              rcases ha' with rfl | rfl
              · exact hy
              · cases hy)
            generalize startLoop s2 b = w at g2 he'
            obtain ⟨w1, w2⟩ := w
            cases g2
            dsimp only at he' ⊢
            generalize loop w1 l b.msgs = v at he'
            obtain ⟨v1, v2⟩ := v
            cases he'
            exact ⟨e', rfl⟩

theorem parseRows_all : ∀ (ms : List Msg) (rows : List Proc), parseRows ms = .ok rows → rows.length = ms.length → ∀ m ∈ ms, m.1 = 68
  | [], _, _, _ => fun m h => (by cases h)
  | x :: xs, rows, h, hl => by
    have hle : ∀ (ms : List Msg) (rows : List Proc), parseRows ms = .ok rows → rows.length ≤ ms.length := by
      intro ms
      induction ms with
      | nil => intro rows h; cases h; exact Nat.le_refl _
      | cons x xs ih =>
        intro rows h
        unfold parseRows at h
        split at h
        · split at h
          · cases h
          · split at h
            · cases h
            · rename_i r hr
              cases h
              exact Nat.succ_le_succ (ih _ hr)
        · exact Nat.le_succ_of_le (ih _ h)
    unfold parseRows at h
    split at h
    · rename_i h68
      split at h
      · cases h
      · split at h
        · cases h
        · rename_i r hr
          cases h
          intro m hm
          rcases List.mem_cons.1 hm with rfl | hm
          · exact h68
          · exact parseRows_all xs r hr (by simpa using hl) m hm
    · have := hle _ _ h
      rw [hl] at this
      simp at this
      omega

theorem plain_seen {s s' : Inst} {ms : List Msg} (h : ∀ m ∈ ms, m.1 ≠ 69 ∧ m.1 ≠ 90) (h1 : s'.fatal = s.fatal) (h2 : s'.lastReady = s.lastReady) :
    Seen s ms s' := by
  refine ⟨by rw [h1]; exact id, fun ⟨m, hm, h69⟩ => absurd h69 (h m hm).1, .inr ?_⟩
  have : lastStatus ms = none := by
    unfold lastStatus
    rw [List.filter_eq_nil_iff.2 (fun m hm => by simpa using (h m hm).2)]
    rfl
  unfold Stat
  rw [this, h2]
  exact ⟨rfl, valid_none⟩

theorem filter_all {α : Type} {p : α → Bool} : ∀ {l : List α}, (l.filter p).length = l.length → ∀ x ∈ l, p x = true
  | l, h => by
    have := List.length_filter_eq_length_iff.1 h
    exact this

/-- The batch cannot be put. -/
def Fails (s : Inst) (b : Batch) : Prop := ∃ e', (PG.Client3.putAs s.state s b).2 = .error e'

open PG.Client3 in
/-- What the receiving callables do to the memory of errors and status. -/
theorem putAs_seen (st : XState) (s : Inst) (b : Batch) (hst : s.state = st) (hd : dirOf s = .receiving) :
    (∀ s' n, putAs st s b = (s', .ok n) → Seen s (b.msgs.take n) s') ∧
    (∀ s' e, putAs st s b = (s', .error e) → (s.fatal ≠ none → s'.fatal ≠ none) ∧ dirOf s' = .receiving ∧
      Fails s' b) := by
  have std : (∀ s' n, standardPut { s with state := .receiving .standardPut } b = (s', .ok n) → Seen s (b.msgs.take n) s') ∧
      (∀ s' e, standardPut { s with state := .receiving .standardPut } b = (s', .error e) → (s.fatal ≠ none → s'.fatal ≠ none) ∧ dirOf s' = .receiving ∧
      Fails s' b) := by
    obtain ⟨h1, h2⟩ := standardPut_seen { s with state := .receiving .standardPut } b
    refine ⟨fun s' n h => ?_, fun s' e h => ?_⟩
    · have := h1 s' n h
      exact ⟨this.kept, this.error, this.status⟩
    · obtain ⟨a1, a2, a3⟩ := h2 s' e h
      refine ⟨a1, by unfold dirOf; rw [a2], ?_⟩
      unfold Fails
      rw [a2]
      exact a3
  subst hst
  unfold putAs
  split
  · rename_i hst
    have : { s with state := .receiving .standardPut } = s := by rw [← hst]
    rw [this] at std
    exact std
  · rename_i hst
    unfold putCopydata
    split
    · rename_i hl
      refine ⟨fun s' n h => (by cases h), fun s' e h => ?_⟩
      cases h
      refine ⟨id, hd, ?_⟩
      unfold Fails
      rw [hst]
      unfold putAs putCopydata
      rw [hl]
      exact ⟨_, rfl⟩
    · dsimp only
      split
      · exact std
      · rename_i hc
        rw [not_or] at hc
        obtain ⟨_, hc⟩ := hc
        rw [List.length_map] at hc
        have hall := filter_all (Decidable.not_not.1 hc)
        refine ⟨fun s' n h => ?_, fun s' e h => (by cases h)⟩
        cases h
        refine plain_seen (fun m hm => ?_) rfl rfl
        have := hall m (List.mem_of_mem_take hm)
        have h100 : m.1 = 100 := by simpa using this
        rw [h100]
        decide
  · rename_i hst
    unfold putTupledata
    split
    · rename_i hl
      refine ⟨fun s' n h => (by cases h), fun s' e h => ?_⟩
      cases h
      refine ⟨id, hd, ?_⟩
      unfold Fails
      rw [hst]
      unfold putAs putTupledata
      rw [hl]
      exact ⟨_, rfl⟩
    · rename_i x hl
      split
      · exact std
      · rename_i h68
        split
        · rename_i e0 he0
          refine ⟨fun s' n h => (by cases h), fun s' e h => ?_⟩
          cases h
          refine ⟨id, hd, ?_⟩
          unfold Fails
          rw [hst]
          unfold putAs putTupledata
          rw [hl]
          dsimp only
          rw [if_neg h68, he0]
          exact ⟨_, rfl⟩
        · rename_i rows hrows
          split
          · exact std
          · rename_i hc
            have hall := parseRows_all _ _ hrows (Decidable.not_not.1 hc)
            refine ⟨fun s' n h => ?_, fun s' e h => (by cases h)⟩
            cases h
            refine plain_seen (fun m hm => ?_) rfl rfl
            rw [hall m (List.mem_of_mem_take hm)]
            decide
  · rename_i h1 h2 h3
    unfold dirOf at hd
    cases hs : s.state with
    | sending o => rw [hs] at hd; cases hd
    | complete => rw [hs] at hd; cases hd
    | receiving o => cases o <;> simp_all

/-! ## A lone Synchronize -/

/-- The tables of Synchronize. -/
def syncTables : List Table := [[(90, .parse .ready, none)]]

theorem react_sync {x : Msg} {a : React} (h : react [.empty .synchronize] 0 0 (.empty .synchronize) (some syncTables) x = .ok a) :
    (∃ ex, a = .violation ex) ∨ (∃ em, a = .fatal em) ∨ (∃ em, a = .skip em 0 (.empty .synchronize) (some syncTables)) ∨
    (∃ k, a = .async k) ∨ (∃ r d, a = .last r (some d) 1) := by
  have hh : hookOf (.empty .synchronize) = some (some syncTables) := rfl
  obtain ⟨p1, p2, p3⟩ := react_processed h
  obtain ⟨q1, q2, q3, q4, q5, q6⟩ := react_seen hh h
  obtain ⟨k1, _, k3⟩ := react_ok h
  cases a with
  | violation ex => exact .inl ⟨ex, rfl⟩
  | fatal em => exact .inr (.inl ⟨em, rfl⟩)
  | async k => exact .inr (.inr (.inr (.inl ⟨k, rfl⟩)))
  | take r n =>
    obtain ⟨ts, tb, path, e1, e2, e3, _⟩ := p1 r n rfl
    cases e1
    cases e2
    have := find_mem e3
    simp at this
  | next r rd o c q =>
    obtain ⟨_, _, _, _, _, _, _, _, e⟩ := p2 r rd o c q rfl
    cases e
  | last r rd o =>
    obtain ⟨ts, tb, path, e1, e2, e3, _⟩ := p3 r rd o rfl
    cases e1
    cases e2
    have hm := find_mem e3
    simp at hm
    refine .inr (.inr (.inr (.inr ⟨r, x.2, ?_⟩)))
    rw [k3 r rd o (by simp) rfl, (q6 r rd o rfl).2.1]
    unfold zOf
    rw [if_pos hm.1]
    rfl
  | lost em =>
    exfalso
    have h69 := q2 em rfl
    unfold react at h
    dsimp only at h
    have e : syncTables[0]? = some [(90, .parse .ready, none)] := rfl
    rw [e] at h
    have e2 : Table.find [(90, .parse .ready, none)] x.1 = none := by rw [h69]; rfl
    dsimp only at h
    rw [e2] at h
    dsimp only at h
    rw [if_pos h69] at h
    split at h
    · split at h
      · cases h
      · cases h
      · split at h
        · cases h
        · split at h
          · split at h
            · cases h
            · split at h <;> cases h
          · have : findSync (List.drop 0 [Elem.empty .synchronize]) 0 = some 0 := rfl
            rw [this] at h
            dsimp only at h
            split at h
            · cases h
            · split at h <;> cases h
    · cases h
    · cases h
  | skip em o c p =>
    obtain ⟨k1, k1'⟩ := k1 em o c p rfl
    have ho : o = 0 := by
      cases o with
      | zero => rfl
      | succ n => simp at k1
    subst ho
    cases k1
    have : some (some syncTables) = some p := k1'
    cases this
    exact .inr (.inr (.inl ⟨em, rfl⟩))

/-- At the Synchronize. -/
def AtSync (l : Loc) : Prop := l.offset = 0 ∧ l.step = 0 ∧ l.cmd = .empty .synchronize ∧ l.paths = some syncTables

theorem loop_sync : ∀ (ms : List Msg) (s : Inst) (l : Loc), s.commands = [.empty .synchronize] → AtSync l →
    ∀ s' d, loop s l ms = (s', .ok d) → (d.early = true ∧ s'.fatal = some true ∧ s'.state = .complete) ∨
      (d.early = false ∧ d.loc.offset = 1 ∧ s'.lastReady ≠ none) ∨ (d.early = false ∧ AtSync d.loc ∧ s'.lastReady = s.lastReady)
  | [], s, l, _, hl => fun s' d h => by cases h; exact .inr (.inr ⟨rfl, hl, rfl⟩)
  | x :: xs, s, l, hc, hl => by
    intro s' d h
    rw [loop_cons] at h
    have hre : react s.commands l.offset l.step l.cmd l.paths x = react [.empty .synchronize] 0 0 (.empty .synchronize) (some syncTables) x := by
      obtain ⟨h1, h2, h3, h4⟩ := hl
      rw [hc, h1, h2, h3, h4]
    rw [hre] at h
    cases hr : react [.empty .synchronize] 0 0 (.empty .synchronize) (some syncTables) x with
    | error e => rw [hr] at h; cases h
    | ok a =>
      rw [hr] at h
      rcases react_sync hr with ⟨ex, rfl⟩ | ⟨em, rfl⟩ | ⟨em, rfl⟩ | ⟨k, rfl⟩ | ⟨r, z, rfl⟩
      · cases h; exact .inl ⟨rfl, rfl, rfl⟩
      · cases h; exact .inl ⟨rfl, rfl, rfl⟩
      · exact loop_sync xs { s with fatal := some false, errorMessage := some (.server em) } _ hc ⟨rfl, rfl, rfl, rfl⟩ s' d h
      · dsimp only at h
        cases ha : handleAsync s k x with
        | error e => rw [ha] at h; cases h
        | ok t =>
          rw [ha] at h
          rw [← (handleAsync_seen ha).2]
          exact loop_sync xs t { l with count := l.count + 1 } (by rw [(frame0_fields (handleAsync_frame ha).1).1]; exact hc) hl s' d h
      · cases h
        exact .inr (.inl ⟨rfl, rfl, by simp [setReady]⟩)

/-- A lone Synchronize that waits for its status. -/
structure Waits (s : Inst) : Prop where
  commands : s.commands = [.empty .synchronize]
  none : s.lastReady = none
  last1 : s.last1 = ⟨0, 0⟩
  last2 : s.last2 = ⟨0, 0⟩
  state : s.state = .sending .standardSent ∨ s.state = .receiving .standardPut

theorem standardPut_sync {s s' : Inst} {b : Batch} {n : Nat} (hs : Waits s) (hst : s.state = .receiving .standardPut) (h : standardPut s b = (s', .ok n)) :
    (s'.fatal = some true ∧ s'.state = .complete) ∨ s'.lastReady ≠ none ∨ Waits s' := by
  obtain ⟨a, ha, e1, e2⟩ := startLoop_spec s b
  have hpos : startPos s b = ⟨0, 0⟩ := by unfold startPos; rw [hs.last1, hs.last2]; split <;> rfl
  have e3 := startLoop_snd s b
  rw [hpos, hs.commands] at e3
  have e4 : (startLoop s b).2 = .ok ⟨0, 0, .empty .synchronize, some syncTables, [], 0⟩ := e3
  unfold standardPut at h
  generalize startLoop s b = z at h e1 e4
  obtain ⟨s1, r⟩ := z
  cases e4
  dsimp only at h e1
  subst e1
  have hfr := loop_frame0 b.msgs { s with asyncs := a } ⟨0, 0, .empty .synchronize, some syncTables, [], 0⟩
  have hlp := loop_sync b.msgs { s with asyncs := a } ⟨0, 0, .empty .synchronize, some syncTables, [], 0⟩ hs.commands ⟨rfl, rfl, rfl, rfl⟩
  generalize loop { s with asyncs := a } ⟨0, 0, .empty .synchronize, some syncTables, [], 0⟩ b.msgs = w at h hlp hfr
  obtain ⟨s2, r⟩ := w
  cases r with
  | error e => cases h
  | ok d =>
    obtain ⟨ea, l⟩ := d
    rcases hlp s2 ⟨ea, l⟩ rfl with ⟨h1, h2, h3⟩ | ⟨h1, h2, h3⟩ | ⟨h1, h2, h3⟩
    · cases h1; cases h; exact .inl ⟨h2, h3⟩
    · cases h1
      cases h
      exact .inr (.inl (by rw [(finish_seen s2 b l).2.1]; exact h3))
    · cases h1
      cases h
      obtain ⟨f1, f2, f3, f4, f5, _⟩ := frame0_fields hfr.1
      have f6 := hfr.2.1 (fun l' hl' => by cases hl')
      dsimp only at f1 f5 f6 h2 h3
      refine .inr (.inr ?_)
      obtain ⟨g1, g2, g3, g4⟩ := h2
      unfold finish switchState
      dsimp only
      rw [if_neg (by rw [g1, f1, hs.commands]; decide), if_neg (by rw [g3]; decide)]
      exact ⟨f1.trans hs.commands, h3.trans hs.none, f5.trans hs.last2, by dsimp only; rw [g1, g2], .inr (f6.trans hst)⟩

end PG.Xact3
