import Verif.Proofs.Xact3b
/-!
# The fast paths, and the invariant of reachable transactions
-/
namespace PG.Xact3
open PG PG.Element3 PG.Spec.Xact

/-- `parse` of a class returns an element of the class. -/
theorem parseK_kind {k : Kind} {d : Bytes} {e : Elem} (h : parseK k d = .ok e) : e.kind = k := by
  cases k <;> simp only [parseK] at h
  case notify =>
    obtain ⟨p, _, h⟩ := bind_eq_ok h
    split at h
    · cases h; rfl
    · cases h
  case showOption => split at h <;> cases h; rfl
  case complete => cases h; rfl
  case empty k => split at h <;> cases h; rfl
  case ready => split at h <;> cases h; rfl
  case notice => cases h; rfl
  case error => cases h; rfl
  case functionResult =>
    split at h
    · cases h; rfl
    · obtain ⟨p, _, h⟩ := bind_eq_ok h
      split at h
      · cases h
      · cases h; rfl
  case attributeTypes =>
    obtain ⟨p, _, h⟩ := bind_eq_ok h
    split at h
    · cases h
    · cases h; rfl
  case tupleDescriptor =>
    obtain ⟨p, _, h⟩ := bind_eq_ok h
    obtain ⟨p, _, h⟩ := bind_eq_ok h
    cases h; rfl
  case tuple =>
    obtain ⟨p, _, h⟩ := bind_eq_ok h
    obtain ⟨p, _, h⟩ := bind_eq_ok h
    cases h; rfl
  case killInformation => split at h <;> cases h; rfl
  case cancelRequest =>
    split at h
    · cases h
    · split at h <;> cases h; rfl
  case negotiateSSL => split at h <;> cases h; rfl
  case startup => split at h <;> cases h; rfl
  case authentication =>
    obtain ⟨p, _, h⟩ := bind_eq_ok h
    cases h; rfl
  case str k =>
    split at h
    · cases h
    · split at h <;> cases h; rfl
  case parse =>
    split at h
    · obtain ⟨p, _, h⟩ := bind_eq_ok h
      split at h
      · cases h
      · cases h; rfl
    · cases h
  case bind =>
    split at h
    · obtain ⟨p, _, h⟩ := bind_eq_ok h
      obtain ⟨p, _, h⟩ := bind_eq_ok h
      obtain ⟨p, _, h⟩ := bind_eq_ok h
      obtain ⟨p, _, h⟩ := bind_eq_ok h
      obtain ⟨p, _, h⟩ := bind_eq_ok h
      obtain ⟨p, _, h⟩ := bind_eq_ok h
      cases h; rfl
    · cases h
  case execute =>
    split at h
    · obtain ⟨p, _, h⟩ := bind_eq_ok h
      cases h; rfl
    · cases h
  case function =>
    obtain ⟨p, _, h⟩ := bind_eq_ok h
    obtain ⟨p, _, h⟩ := bind_eq_ok h
    obtain ⟨p, _, h⟩ := bind_eq_ok h
    obtain ⟨p, _, h⟩ := bind_eq_ok h
    obtain ⟨p, _, h⟩ := bind_eq_ok h
    cases h; rfl
  case copyToBegin =>
    obtain ⟨p, _, h⟩ := bind_eq_ok h
    cases h; rfl
  case copyFromBegin =>
    obtain ⟨p, _, h⟩ := bind_eq_ok h
    cases h; rfl
  case copyData => cases h; rfl

theorem call_parse {k : Kind} {d : Bytes} {r : Proc} (h : Path.call (.parse k) d = .ok r) :
    ∃ e, r = .elem e ∧ parseK k d = .ok e ∧ e.kind = k := by
  change (parseK k d).map Proc.elem = .ok r at h
  cases hp : parseK k d with
  | error e => rw [hp] at h; cases h
  | ok e => rw [hp] at h; cases h; exact ⟨e, rfl, rfl, parseK_kind hp⟩

theorem find_mem {t : Table} {ty : UInt8} {y} (h : t.find ty = some y) : (ty, y) ∈ t := by
  unfold Table.find at h
  rw [Option.map_eq_some_iff] at h
  obtain ⟨a, ha, e⟩ := h
  have h1 := List.mem_of_find?_eq_some ha
  have h2 := List.find?_some ha
  have h3 : a.1 = ty := by simpa using h2
  rw [← h3, ← e]
  exact h1

/-- Facts about the entries of the hook table used by the fast paths. -/
def entryOk (ct : UInt8) (e : UInt8 × Path × Option Nat) : Bool :=
  (e.2.2 != none || match e.2.1 with
    | .arg => false
    | .parse k => k != .tuple && k != .copyToBegin && k != .copyFromBegin) &&
  (ct != 69 || ((e.2.1 != .parse .tuple || e.2.2 == some 1) &&
    ((e.2.1 != .parse .copyToBegin && e.2.1 != .arg) || e.2.2 == some 2))) &&
  (ct != 81 || ((e.2.1 != .parse .tuple || e.2.2 == some 3) &&
    ((e.2.1 != .parse .copyToBegin && e.2.1 != .arg) || e.2.2 == some 2)))

theorem hook_entries {ct : UInt8} {ts : List Table} (h : hook ct = some (some ts)) :
    ∀ tb ∈ ts, ∀ e ∈ tb, entryOk ct e = true := by
  unfold hook at h
  split at h <;> first | (cases h; decide) | cases h

theorem hookOf_typ {c : Elem} {p} (h : hookOf c = some p) : ∃ t, c.kind.typ = some t ∧ hook t = some p := by
  unfold hookOf at h
  split at h
  · rename_i t ht; exact ⟨t, ht, h⟩
  · cases h

/-- How `react` came to process a message. -/
theorem react_processed {cs o st cmd p} {x : Msg} {a : React} (h : react cs o st cmd p x = .ok a) :
    (∀ r n, a = .take r n → ∃ ts tb path, p = some ts ∧ ts[st]? = some tb ∧ tb.find x.1 = some (path, some n) ∧
      path.call x.2 = .ok r) ∧
    (∀ r rd o' c q, a = .next r rd o' c q → ∃ ts tb path, p = some ts ∧ ts[st]? = some tb ∧
      tb.find x.1 = some (path, none) ∧ path.call x.2 = .ok r ∧ rd = readyState r ∧
      advance (cs.drop (o + 1)) (o + 1) = .ok (o', some (c, q))) ∧
    (∀ r rd o', a = .last r rd o' → ∃ ts tb path, p = some ts ∧ ts[st]? = some tb ∧
      tb.find x.1 = some (path, none) ∧ path.call x.2 = .ok r ∧ rd = readyState r ∧
      advance (cs.drop (o + 1)) (o + 1) = .ok (o', none)) := by
  unfold react at h
  split at h
  · cases h
  rename_i ts
  split at h
  · cases h
  rename_i tb htb
  split at h
  · have : (∀ r n, a ≠ .take r n) ∧ (∀ r rd o' c q, a ≠ .next r rd o' c q) ∧ (∀ r rd o', a ≠ .last r rd o') := by
      split at h
      · split at h
        · split at h
          · cases h
          · cases h
          · split at h
            · cases h; simp
            · split at h
              · split at h
                · cases h
                · split at h
                  · cases h
                  · cases h; simp
              · split at h
                · cases h; simp
                · split at h
                  · cases h
                  · split at h
                    · cases h
                    · cases h; simp
        · cases h
        · cases h
      · split at h
        · cases h; simp
        · cases h; simp
    exact ⟨fun r n e => absurd e (this.1 r n), fun r rd o' c q e => absurd e (this.2.1 r rd o' c q),
      fun r rd o' e => absurd e (this.2.2 r rd o')⟩
  · rename_i path ns hf
    split at h
    · cases h
    · rename_i r hr
      split at h
      · rename_i n
        cases h
        refine ⟨fun r' n' e => ?_, fun _ _ _ _ _ e => (nomatch e), fun _ _ _ e => (nomatch e)⟩
        cases e
        exact ⟨ts, tb, path, rfl, htb, hf, hr⟩
      · split at h
        · cases h
        · rename_i o' ha
          cases h
          refine ⟨fun _ _ e => (nomatch e), fun _ _ _ _ _ e => (nomatch e), fun r' rd o'' e => ?_⟩
          cases e
          exact ⟨ts, tb, path, rfl, htb, hf, hr, rfl, ha⟩
        · rename_i o' c q ha
          cases h
          refine ⟨fun _ _ e => (nomatch e), fun r' rd o'' c' q' e => ?_, fun _ _ _ e => (nomatch e)⟩
          cases e
          exact ⟨ts, tb, path, rfl, htb, hf, hr, rfl, ha⟩

/-- A row. -/
def isRow : Proc → Bool
  | .elem (.tuple _) => true
  | _ => false
/-- A COPY line or the announcement of COPY lines. -/
def isCopy : Proc → Bool
  | .raw _ => true
  | .elem (.copyToBegin _ _) => true
  | _ => false

theorem call_row {path : Path} {d r} (h : path.call d = .ok r) (hr : isRow r) : path = .parse .tuple := by
  cases path with
  | arg => cases h; cases hr
  | parse k =>
    obtain ⟨e, rfl, _, hk⟩ := call_parse h
    cases e <;> first | cases hr | skip
    rw [← hk]; rfl

theorem call_copy {path : Path} {d r} (h : path.call d = .ok r) (hr : isCopy r) :
    path = .arg ∨ path = .parse .copyToBegin := by
  cases path with
  | arg => exact .inl rfl
  | parse k =>
    obtain ⟨e, rfl, _, hk⟩ := call_parse h
    cases e <;> first | cases hr | skip
    rw [← hk]; exact .inr rfl

/-- The step of the current command is the one the last processed message leads to. -/
def J (l : Loc) : Prop := ∀ r, l.processed.getLast? = some r →
  (l.cmd.kind.typ = some 69 → (isRow r → l.step = 1) ∧ (isCopy r → l.step = 2)) ∧
  (l.cmd.kind.typ = some 81 → (isRow r → l.step = 3 ∨ l.step = 0) ∧ (isCopy r → l.step = 2 ∨ l.step = 0))

theorem entry_at {cmd : Elem} {p} (hh : hookOf cmd = some p) {ts : List Table} {tb : Table} {st : Nat} (hp : p = some ts)
    (hst : ts[st]? = some tb) {ty y} (hf : Table.find tb ty = some y) :
    ∃ ct, cmd.kind.typ = some ct ∧ entryOk ct (ty, y) = true := by
  subst hp
  obtain ⟨ct, h1, h2⟩ := hookOf_typ hh
  exact ⟨ct, h1, hook_entries h2 tb (List.mem_of_getElem? hst) _ (find_mem hf)⟩

theorem loop_J : ∀ (ms : List Msg) (s : Inst) (l l' : Loc), LocOk s.commands l → J l →
    (loop s l ms).2 = .ok ⟨false, l'⟩ → l'.offset ≠ s.commands.length → J l'
  | [], s, l, l', _, hj, h, _ => by cases h; exact hj
  | x :: xs, s, l, l', hl, hj, h, hne => by
    rw [loop_cons] at h
    cases hr : react s.commands l.offset l.step l.cmd l.paths x with
    | error e => rw [hr] at h; cases h
    | ok r =>
      rw [hr] at h
      obtain ⟨i, j, k⟩ := react_ok hr
      obtain ⟨i2, j2, k2⟩ := react_processed hr
      cases r with
      | violation ex => cases h
      | fatal em => cases h
      | lost em => cases h
      | skip em o c p =>
        dsimp only at h
        refine loop_J xs { s with fatal := some false, errorMessage := some (.server em) }
          { l with count := l.count + 1, offset := o, cmd := c, paths := p, step := 0 } l' (i _ _ _ _ rfl) ?_ h hne
        intro r hlast
        have hj' := hj r hlast
        rcases react_skip_cmd hr hl.1 with ⟨a, _, hq⟩ | a
        · subst a
          rcases hq with hq | hq
          · exact ⟨fun e => (by rw [hq] at e; cases e), fun e => (by rw [hq] at e; cases e)⟩
          · exact ⟨fun e => (by rw [hq] at e; cases e), fun _ => ⟨fun _ => .inr rfl, fun _ => .inr rfl⟩⟩
        · subst a
          exact ⟨fun e => (by cases e), fun e => (by cases e)⟩
      | async kk =>
        dsimp only at h
        cases ha : handleAsync s kk x with
        | error e => rw [ha] at h; cases h
        | ok s' =>
          rw [ha] at h
          have hf := (frame0_fields (handleAsync_frame ha).1).1
          exact loop_J xs s' { l with count := l.count + 1 } l' (by rw [hf]; exact hl) hj h (by rw [hf]; exact hne)
      | take r n =>
        dsimp only at h
        refine loop_J xs s { l with count := l.count + 1, processed := l.processed ++ [r], step := n } l' hl ?_ h hne
        obtain ⟨ts, tb, path, hp, hst, hf, hcall⟩ := i2 r n rfl
        obtain ⟨ct, hct, he⟩ := entry_at hl.2 hp hst hf
        intro r' hlast
        simp only [List.getLast?_append, List.getLast?_singleton, Option.some_or, Option.some.injEq] at hlast
        subst hlast
        refine ⟨fun e => ?_, fun e => ?_⟩
        · rw [hct] at e
          cases e
          refine ⟨fun hrow => ?_, fun hcp => ?_⟩
          · rw [call_row hcall hrow] at he
            simpa [entryOk] using he
          · rcases call_copy hcall hcp with e | e
            · rw [e] at he; simpa [entryOk] using he
            · rw [e] at he; simpa [entryOk] using he
        · rw [hct] at e
          cases e
          refine ⟨fun hrow => .inl ?_, fun hcp => .inl ?_⟩
          · rw [call_row hcall hrow] at he
            simpa [entryOk] using he
          · rcases call_copy hcall hcp with e | e
            · rw [e] at he; simpa [entryOk] using he
            · rw [e] at he; simpa [entryOk] using he
      | next r rd o c p =>
        dsimp only at h
        have hf := (frame0_fields (setReady_frame s rd).1).1
        refine loop_J xs (setReady s rd)
          { l with count := l.count + 1, processed := l.processed ++ [r], step := 0, offset := o, cmd := c, paths := some p }
          l' (by rw [hf]; exact j _ _ _ _ _ rfl) ?_ h (by rw [hf]; exact hne)
        obtain ⟨ts, tb, path, hp, hst, hf, hcall, _⟩ := j2 _ _ _ _ _ rfl
        obtain ⟨ct, hct, he⟩ := entry_at hl.2 hp hst hf
        intro r' hlast
        simp only [List.getLast?_append, List.getLast?_singleton, Option.some_or, Option.some.injEq] at hlast
        subst hlast
        have nrow : ¬ isRow r := fun hrow => by
          rw [call_row hcall hrow] at he
          simp [entryOk] at he
        have ncp : ¬ isCopy r := fun hcp => by
          rcases call_copy hcall hcp with e | e
          · rw [e] at he; simp [entryOk] at he
          · rw [e] at he; simp [entryOk] at he
        exact ⟨fun _ => ⟨fun q => absurd q nrow, fun q => absurd q ncp⟩, fun _ => ⟨fun q => absurd q nrow, fun q => absurd q ncp⟩⟩
      | last r rd o =>
        dsimp only at h
        cases h
        exact absurd (k _ _ _ (loc_lt hl) rfl) hne

/-- The invariant of a transaction that waits with a fast path installed. -/
def Good (s : Inst) : Prop :=
  (s.state = .receiving .putTupledata → ∃ c, s.commands[s.last2.offset]? = some c ∧
    ((c.kind.typ = some 69 ∧ s.last2.step = 1) ∨ (c.kind.typ = some 81 ∧ (s.last2.step = 3 ∨ s.last2.step = 0)))) ∧
  (s.state = .receiving .putCopydata → ∃ c, s.commands[s.last2.offset]? = some c ∧
    ((c.kind.typ = some 69 ∧ s.last2.step = 2) ∨ (c.kind.typ = some 81 ∧ (s.last2.step = 2 ∨ s.last2.step = 0)))) ∧
  (s.state ≠ .complete → ¬ Violated s)

theorem violated_of_error {s t : Inst} (h : s.errorMessage = t.errorMessage) : Violated s ↔ Violated t := by
  unfold Violated; rw [h]

/-- A run that does not return early finds no violation. -/
theorem loop_violated : ∀ (ms : List Msg) (s : Inst) (l : Loc) (s1 : Inst) (l1 : Loc),
    loop s l ms = (s1, .ok ⟨false, l1⟩) → Violated s1 → Violated s
  | [], s, l, s1, l1, h, hv => by cases h; exact hv
  | x :: xs, s, l, s1, l1, h, hv => by
    rw [loop_cons] at h
    split at h
    · cases h
    · cases h
    · cases h
    · cases h
    · have := loop_violated xs _ _ _ _ h hv
      obtain ⟨_, _, h⟩ := this
      cases h
    · split at h
      · cases h
      · rename_i kk hr s' hs'
        have := loop_violated xs _ _ _ _ h hv
        refine (violated_of_error ?_).mp this
        unfold handleAsync at hs'
        split at hs'
        · cases hs'; rfl
        · split at hs'
          · cases hs'; rfl
          · cases hs'
    · have := loop_violated xs _ _ _ _ h hv
      exact this
    · rename_i rd _ _ _ _
      have := loop_violated xs _ _ _ _ h hv
      cases rd <;> exact this
    · rename_i rd _ _
      cases h
      cases rd <;> exact hv

theorem startAt_loc {s : Inst} {l} (h : startAt s = (s, .ok l)) :
    LocOk s.commands l ∧ l.offset = s.last2.offset ∧ l.step = s.last2.step ∧ l.processed = [] ∧ l.count = 0 := by
  unfold startAt at h
  split at h
  · cases h
  · split at h
    · cases h
    · rename_i hc _ _ hp
      cases h
      exact ⟨⟨hc, hp⟩, rfl, rfl, rfl, rfl⟩

/-- A `put` that returns without an exception, decomposed. -/
theorem standardPut_ok {s a : Inst} {b : Batch} {n : Nat} (hid : b.id ≠ s.lastId) (h : standardPut s b = (a, .ok n)) :
    ∃ l s1 d, startAt { s with asyncs := [] } = ({ s with asyncs := [] }, .ok l) ∧
      loop { s with asyncs := [] } l b.msgs = (s1, .ok d) ∧ n = d.loc.count ∧
      ((d.early = true ∧ a = s1) ∨ (d.early = false ∧ a = finish s1 b d.loc)) := by
  unfold standardPut at h
  rw [startLoop_fresh hid] at h
  have hst : startAt { s with asyncs := [] } = ({ s with asyncs := [] }, (startAt { s with asyncs := [] }).2) := by
    unfold startAt
    split
    · rfl
    · split <;> rfl
  rw [hst] at h
  cases hx : (startAt { s with asyncs := [] }).2 with
  | error e => rw [hx] at h; cases h
  | ok l =>
    rw [hx] at h hst
    dsimp only at h
    cases hv : loop { s with asyncs := [] } l b.msgs with
    | mk s1 r =>
      rw [hv] at h
      cases r with
      | error e => cases h
      | ok d =>
        obtain ⟨ea, l1⟩ := d
        cases ea with
        | true => cases h; exact ⟨l, _, _, hst, hv, rfl, .inl ⟨rfl, rfl⟩⟩
        | false => cases h; exact ⟨l, _, _, hst, hv, rfl, .inr ⟨rfl, rfl⟩⟩

theorem standardPut_good {s a : Inst} {b : Batch} {n : Nat} (hs : s.state = .receiving .standardPut) (hid : b.id ≠ s.lastId)
    (hnv : ¬ Violated s) (h : standardPut s b = (a, .ok n)) : Good a := by
  obtain ⟨l, s1, ⟨ea, l1⟩, hst, hv, _, hd⟩ := standardPut_ok hid h
  obtain ⟨g1, g2, g3, g4, g5⟩ := startAt_loc hst
  obtain ⟨f1, f2, f3⟩ := loop_frame0 b.msgs { s with asyncs := [] } l
  rw [hv] at f1 f2 f3
  dsimp only at f1 f2 f3 hd
  rcases hd with ⟨rfl, rfl⟩ | ⟨rfl, rfl⟩
  · have := f3 _ rfl
    exact ⟨fun e => (by rw [this] at e; cases e), fun e => (by rw [this] at e; cases e), fun e => absurd this e⟩
  · have hst1 := f2 (fun _ h => by cases h)
    have hcs : s1.commands = s.commands := (frame0_fields f1).1
    have hj : l1.offset ≠ s.commands.length → J l1 := by
      refine loop_J b.msgs { s with asyncs := [] } l l1 g1 ?_ (by rw [hv])
      intro r hr
      rw [g4] at hr
      cases hr
    have hlk := loop_locOk b.msgs { s with asyncs := [] } l l1 g1 (by rw [hv])
    have nv : ¬ Violated s1 := fun e => hnv (show Violated s from loop_violated _ { s with asyncs := [] } _ _ _ hv e)
    unfold finish
    dsimp only
    unfold switchState
    dsimp only
    rw [hcs]
    by_cases h1 : l1.offset = s.commands.length
    · rw [if_pos h1]
      exact ⟨fun e => (by cases e), fun e => (by cases e), fun e => absurd rfl e⟩
    · rw [if_neg h1]
      have J1 := hj h1
      have hl1 : LocOk s.commands l1 := by
        rcases hlk with e | e
        · exact absurd e h1
        · exact e.1
      have std : ∀ u : Inst, u.errorMessage = s1.errorMessage → u.state = .receiving .standardPut → Good u := fun u he hu =>
        ⟨fun e => (by rw [hu] at e; cases e), fun e => (by rw [hu] at e; cases e),
          fun _ h => nv ((violated_of_error he).mp h)⟩
      split
      · rename_i hc
        split
        · exact std _ rfl (by dsimp only; rw [hst1]; exact hs)
        · rename_i d hlast
          refine ⟨fun e => (by cases e), fun _ => ⟨l1.cmd, hl1.1, ?_⟩, fun _ => nv⟩
          rcases hc with hc | hc
          · exact .inl ⟨hc, ((J1 _ hlast).1 hc).2 rfl⟩
          · exact .inr ⟨hc, ((J1 _ hlast).2 hc).2 rfl⟩
        · rename_i d hlast
          refine ⟨fun _ => ⟨l1.cmd, hl1.1, ?_⟩, fun e => (by cases e), fun _ => nv⟩
          rcases hc with hc | hc
          · exact .inl ⟨hc, ((J1 _ hlast).1 hc).1 rfl⟩
          · exact .inr ⟨hc, ((J1 _ hlast).2 hc).1 rfl⟩
        · exact ⟨fun e => (by cases e), fun e => (by cases e), fun _ => nv⟩
        · rename_i f fs hlast
          refine ⟨fun e => (by cases e), fun _ => ⟨l1.cmd, hl1.1, ?_⟩, fun _ => nv⟩
          rcases hc with hc | hc
          · exact .inl ⟨hc, ((J1 _ hlast).1 hc).2 rfl⟩
          · exact .inr ⟨hc, ((J1 _ hlast).2 hc).2 rfl⟩
        · exact std _ rfl (by dsimp only; rw [hst1]; exact hs)
      · exact std _ rfl (by dsimp only; rw [hst1]; exact hs)

theorem fastPush_good {s : Inst} {b : Batch} {p} (h : Good s) : Good (fastPush s b p).1 := h

/-- Which of the three things `put` does in a waiting state. -/
theorem deliver_cases (s : Inst) (b : Batch) (hs : Receiving s) :
    deliver s b = standardPut { s with state := .receiving .standardPut } b ∨
    (s.state = .receiving .putCopydata ∧ (∀ x ∈ b.msgs, x.1 = 100) ∧
      deliver s b = fastPush s b (b.msgs.map (fun x => Proc.raw x.2))) ∨
    (s.state = .receiving .putTupledata ∧ (∀ x ∈ b.msgs, x.1 = 68) ∧ ∃ rows, parseRows b.msgs = .ok rows ∧
      rows.length = b.msgs.length ∧ deliver s b = fastPush s b rows) ∨
    (∃ e, deliver s b = (s, .error e) ∧ (b.msgs = [] ∨
      (s.state = .receiving .putTupledata ∧ parseRows b.msgs = .error e))) := by
  obtain ⟨op, ho⟩ := hs
  unfold deliver
  rw [ho]
  cases op with
  | standardPut =>
    left
    dsimp only
    congr 1
    cases s; cases ho; rfl
  | putCopydata =>
    dsimp only
    unfold putCopydata
    cases hl : b.msgs.getLast? with
    | none => right; right; right; exact ⟨_, rfl, .inl (List.getLast?_eq_none_iff.mp hl)⟩
    | some x =>
      dsimp only
      by_cases hc : x.1 ≠ 100 ∨ ((b.msgs.filter (fun x => x.1 = 100)).map (fun x => Proc.raw x.2)).length ≠ b.msgs.length
      · rw [if_pos hc]; exact .inl rfl
      · rw [if_neg hc]
        right; left
        rw [not_or, Decidable.not_not, Decidable.not_not, List.length_map, List.length_filter_eq_length_iff] at hc
        have hall : ∀ x ∈ b.msgs, x.1 = 100 := fun x hx => by simpa using hc.2 x hx
        refine ⟨rfl, hall, ?_⟩
        rw [List.filter_eq_self.mpr hc.2]
  | putTupledata =>
    dsimp only
    unfold putTupledata
    cases hl : b.msgs.getLast? with
    | none => right; right; right; exact ⟨_, rfl, .inl (List.getLast?_eq_none_iff.mp hl)⟩
    | some x =>
      dsimp only
      by_cases hc : x.1 ≠ 68
      · rw [if_pos hc]; exact .inl rfl
      · rw [if_neg hc]
        cases hp : parseRows b.msgs with
        | error e => right; right; right; exact ⟨_, rfl, .inr ⟨rfl, rfl⟩⟩
        | ok rows =>
          dsimp only
          by_cases hc2 : rows.length ≠ b.msgs.length
          · rw [if_pos hc2]; exact .inl rfl
          · rw [if_neg hc2]
            right; right; left
            rw [Decidable.not_not] at hc2
            refine ⟨rfl, ?_, rows, rfl, hc2, rfl⟩
            have key : ∀ (ms : List Msg) (rows : List Proc), parseRows ms = .ok rows → rows.length ≤ ms.length ∧
                (rows.length = ms.length → ∀ x ∈ ms, x.1 = 68) := by
              intro ms
              induction ms with
              | nil => intro rows h; cases h; exact ⟨Nat.le_refl _, fun _ x hx => by cases hx⟩
              | cons y ys ih =>
                intro rows h
                unfold parseRows at h
                split at h
                · rename_i hy
                  split at h
                  · cases h
                  · split at h
                    · cases h
                    · rename_i r hr
                      cases h
                      obtain ⟨a, c⟩ := ih r hr
                      refine ⟨by simpa using a, fun e x hx => ?_⟩
                      rcases List.mem_cons.mp hx with e' | e'
                      · rw [e']; exact hy
                      · exact c (by simpa using e) x e'
                · obtain ⟨a, c⟩ := ih rows h
                  refine ⟨by simp only [List.length_cons]; omega, fun e => ?_⟩
                  simp only [List.length_cons] at e
                  omega
            exact (key _ _ hp).2 hc2

theorem parseRows_ok {ms : List Msg} (h : RowsOk ms) : ∃ rows, parseRows ms = .ok rows := by
  induction ms with
  | nil => exact ⟨[], rfl⟩
  | cons x xs ih =>
    obtain ⟨r, hr⟩ := ih (fun y hy => h y (List.mem_cons_of_mem _ hy))
    unfold parseRows
    by_cases hx : x.1 = 68
    · obtain ⟨m, hm⟩ := h x List.mem_cons_self hx
      rw [if_pos hx, hm, hr]
      exact ⟨_, rfl⟩
    · rw [if_neg hx]; exact ⟨r, hr⟩

end PG.Xact3
