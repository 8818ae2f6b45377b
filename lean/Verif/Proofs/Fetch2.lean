import Verif.Proofs.Fetch
import Verif.Spec.Reply
/-! # After the completion of a statement nothing follows but the ready message -/
namespace PG.Fetch
open PG PG.Element3 PG.Xact3 PG.Spec.Xact PG.Spec.Fetch

/-- The end of a statement: a completion tag, or the answer to an empty query. -/
def isEnd : Proc → Bool
  | .elem (.complete _) => true
  | .elem (.empty .null) => true
  | _ => false

theorem end_no_data {r : Proc} (h : isEnd r = true) : isData r = false := by
  cases r with
  | raw d => cases h
  | elem e => cases e <;> first | rfl | cases h

/-- The entries of the tables of Bind, Execute and Synchronize. -/
def stageEntry (ct : UInt8) (e : UInt8 × Path × Option Nat) : Bool :=
  (ct != 66 || e.2.1 == .parse (.empty .bindComplete)) &&
  (ct != 69 || e.2.2 == none || (e.2.1 != .parse .complete && e.2.1 != .parse (.empty .null))) &&
  (ct != 83 || e.2.1 == .parse .ready)

theorem hook_stage {ct : UInt8} {ts : List Table} (h : hook ct = some (some ts)) : ∀ tb ∈ ts, ∀ e ∈ tb, stageEntry ct e = true := by
  unfold hook at h
  split at h <;> first | (cases h; decide) | cases h

theorem call_end {path : Path} {d r} (h : path.call d = .ok r) (hr : isEnd r = true) : path = .parse .complete ∨ path = .parse (.empty .null) := by
  cases path with
  | arg => cases h; cases hr
  | parse k =>
    obtain ⟨e, rfl, _, hk⟩ := call_parse h
    clear h
    rw [← hk]
    clear hk
    cases e with
    | complete c => exact .inl rfl
    | empty k' => cases k' <;> first | exact .inr rfl | cases hr
    | _ => cases hr

theorem call_empty {path : Path} {d r k} (h : path.call d = .ok r) (hp : path = .parse (.empty k)) : r = .elem (.empty k) := by
  subst hp
  obtain ⟨e, rfl, _, hk⟩ := call_parse h
  cases e <;> first | cases hk | skip
  rfl

theorem call_ready {path : Path} {d r} (h : path.call d = .ok r) (hp : path = .parse .ready) : isData r = false := by
  subst hp
  obtain ⟨e, rfl, _, hk⟩ := call_parse h
  exact isData_elem (by rw [hk]; simp)

/-- What is collected: first nothing that ends the statement, then no data; while the statement is running, only the first. -/
def Form (ms : List Proc) (o : Nat) : Prop :=
  ∃ pre post, ms = pre ++ post ∧ (∀ r ∈ pre, isEnd r = false) ∧ (∀ r ∈ post, isData r = false) ∧ (o ≤ 1 → post = [])

theorem form_add {cs : List Elem} (h3 : Three cs) {ms : List Proc} {o : Nat} {cmd : Elem} {p : Option (List Table)} (hl : cs[o]? = some cmd) (hh : hookOf cmd = some p) {ts : List Table} {tb : Table} {st : Nat} (hp : p = some ts)
    (hst : ts[st]? = some tb) {x : Msg} {path ns} (hf : Table.find tb x.1 = some (path, ns)) {r} (hr : path.call x.2 = .ok r) (hm : Form ms o) {o' : Nat} (ho : (ns = none → o + 1 ≤ o') ∧ o ≤ o') :
    Form (ms ++ [r]) o' ∧ (2 ≤ o → isData r = false) := by
  subst hp
  obtain ⟨ct, t1, t2⟩ := hookOf_typ hh
  have he := hook_stage t2 tb (List.mem_of_getElem? hst) _ (find_mem hf)
  unfold stageEntry at he
  simp only [Bool.and_eq_true, Bool.or_eq_true] at he
  obtain ⟨⟨e1, e2⟩, e3⟩ := he
  have hlt : o < 3 := by
    have := (List.getElem?_eq_some_iff.mp hl).1
    rw [h3.len] at this
    exact this
  have hct : (o = 0 → ct = 66) ∧ (o = 1 → ct = 69) ∧ (o = 2 → ct = 83) := by
    obtain ⟨c0, a0, b0⟩ := h3.bind
    obtain ⟨c1, a1, b1⟩ := h3.execute
    obtain ⟨c2, a2, b2⟩ := h3.sync
    refine ⟨?_, ?_, ?_⟩
    · rintro rfl; rw [a0] at hl; cases hl; rw [b0] at t1; exact (Option.some.inj t1).symm
    · rintro rfl; rw [a1] at hl; cases hl; rw [b1] at t1; exact (Option.some.inj t1).symm
    · rintro rfl; rw [a2] at hl; cases hl; rw [b2] at t1; exact (Option.some.inj t1).symm
  obtain ⟨pre, post, rfl, h1, h2, h4⟩ := hm
  have hdata : 2 ≤ o → isData r = false := by
    intro h
    have : ct = 83 := hct.2.2 (by omega)
    subst this
    exact call_ready hr (by simpa using e3)
  refine ⟨?_, hdata⟩
  by_cases h2o : 2 ≤ o
  · refine ⟨pre, post ++ [r], by rw [List.append_assoc], h1, ?_, fun h => absurd h (by have := ho.2; omega)⟩
    intro q hq
    rcases List.mem_append.mp hq with hq | hq
    · exact h2 q hq
    · rw [List.mem_singleton.mp hq]; exact hdata h2o
  · have hpost := h4 (by omega)
    subst hpost
    by_cases hend : isEnd r = true
    · have ho1 : o = 1 := by
        rcases Nat.lt_or_ge o 1 with h | h
        · exfalso
          have : ct = 66 := hct.1 (by omega)
          subst this
          have := call_empty hr (by simpa using e1)
          rw [this] at hend
          cases hend
        · omega
      have hns : ns = none := by
        have : ct = 69 := hct.2.1 ho1
        subst this
        rcases e2 with (e2 | e2) | e2
        · simp at e2
        · simpa using e2
        · rcases call_end hr hend with e | e <;> simp [e] at e2
      refine ⟨pre, [r], by simp, h1, ?_, fun h => absurd h (by have := ho.1 hns; omega)⟩
      intro q hq
      rw [List.mem_singleton.mp hq]
      exact end_no_data hend
    · refine ⟨pre ++ [r], [], by simp, ?_, by simp, fun _ => rfl⟩
      intro q hq
      rcases List.mem_append.mp hq with hq | hq
      · exact h1 q hq
      · rw [List.mem_singleton.mp hq]; simpa using hend

/-- The loop keeps the form, and after the statement collects no data. -/
theorem loop_form (D : List Proc) : ∀ (ms : List Msg) (s : Inst) (l l' : Loc) (s' : Inst), Three s.commands → LocOk s.commands l → loop s l ms = (s', .ok ⟨false, l'⟩) → s'.fatal = none → Form (D ++ l.processed) l.offset →
    Form (D ++ l'.processed) l'.offset ∧ (2 ≤ l.offset → 2 ≤ l'.offset ∧ l'.processed.filter isData = l.processed.filter isData)
  | [], s, l, l', s', _, _, h, _, hm => by
    cases h
    exact ⟨hm, fun h => ⟨h, rfl⟩⟩
  | x :: xs, s, l, l', s', h3, hl, h, hf, hm => by
    rw [loop_cons] at h
    cases hr : react s.commands l.offset l.step l.cmd l.paths x with
    | error e => rw [hr] at h; cases h
    | ok r =>
      rw [hr] at h
      obtain ⟨i, j, k⟩ := react_ok hr
      obtain ⟨p1, p2, p3⟩ := react_processed hr
      cases r with
      | violation ex => cases h
      | fatal em => cases h
      | lost em => cases h
      | skip em o c p =>
        exfalso
        have := loop_fatal_mono xs { s with fatal := some false, errorMessage := some (.server em) } { l with count := l.count + 1, offset := o, cmd := c, paths := p, step := 0 } (by
          have e := congrArg Prod.fst h
          dsimp only at e
          rw [e]; exact hf)
        cases this
      | async kk =>
        dsimp only at h
        cases ha : handleAsync s kk x with
        | error e => rw [ha] at h; cases h
        | ok s1 =>
          rw [ha] at h
          have hc := (frame0_fields (handleAsync_frame ha).1).1
          exact loop_form D xs s1 { l with count := l.count + 1 } l' s' (by rw [hc]; exact h3) (by rw [hc]; exact hl) h hf hm
      | take r n =>
        obtain ⟨ts, tb, path, e1, e2, e3, e4⟩ := p1 _ _ rfl
        obtain ⟨f1, f2⟩ := form_add h3 hl.1 hl.2 e1 e2 e3 e4 hm (o' := l.offset) ⟨(nomatch ·), Nat.le_refl _⟩
        obtain ⟨g1, g2⟩ := loop_form D xs s { l with count := l.count + 1, processed := l.processed ++ [r], step := n } l' s' h3 hl h hf (by rw [← List.append_assoc]; exact f1)
        refine ⟨g1, fun h2 => ⟨(g2 h2).1, ?_⟩⟩
        rw [(g2 h2).2]
        simp [f2 h2]
      | next r rd o c p =>
        obtain ⟨ts, tb, path, e1, e2, e3, e4, _, e6⟩ := p2 _ _ _ _ _ rfl
        have hadv := ((advance_spec _ _ s.commands rfl).2 _ _ _ e6).2.2
        obtain ⟨f1, f2⟩ := form_add h3 hl.1 hl.2 e1 e2 e3 e4 hm (o' := o) ⟨fun _ => hadv, by omega⟩
        have hc := (frame0_fields (setReady_frame s rd).1).1
        obtain ⟨g1, g2⟩ := loop_form D xs (setReady s rd) { l with count := l.count + 1, processed := l.processed ++ [r], step := 0, offset := o, cmd := c, paths := some p } l' s' (by rw [hc]; exact h3) (by rw [hc]; exact j _ _ _ _ _ rfl) h hf
          (by rw [← List.append_assoc]; exact f1)
        refine ⟨g1, fun h2 => ?_⟩
        have h2' : 2 ≤ o := by omega
        refine ⟨(g2 h2').1, ?_⟩
        rw [(g2 h2').2]
        simp [f2 h2]
      | last r rd o =>
        obtain ⟨ts, tb, path, e1, e2, e3, e4, _, e6⟩ := p3 _ _ _ rfl
        have hadv := (advance_spec _ _ s.commands rfl).1 _ e6
        obtain ⟨f1, f2⟩ := form_add h3 hl.1 hl.2 e1 e2 e3 e4 hm (o' := o) ⟨fun _ => by omega, by omega⟩
        cases h
        refine ⟨by rw [← List.append_assoc]; exact f1, fun h2 => ⟨by dsimp only; omega, ?_⟩⟩
        simp [f2 h2]

/-- The invariant of the transaction of a `FetchAll`. -/
structure Run (i : Inst) : Prop where
  three : Three i.commands
  good : Good i
  form : Form (messagesReceived i) i.last2.offset

theorem switchState_last2 (s : Inst) (l : Loc) : (switchState s l).last2 = s.last2 := by
  unfold switchState
  split
  · rfl
  · split
    · split <;> rfl
    · rfl

theorem received_append (i i' : Inst) (k : Nat) (p : List Proc) (h : i'.completed = i.completed ++ [(k, p)]) : messagesReceived i' = messagesReceived i ++ p := by
  unfold messagesReceived
  rw [h]
  simp

theorem row_not_end {r : Proc} (h : isData r = true) : isEnd r = false := by
  cases r with
  | raw d => rfl
  | elem e => cases e <;> first | rfl | cases h

theorem parseRows_all : ∀ (ms : List Msg) (rows : List Proc), parseRows ms = .ok rows → ∀ r ∈ rows, isData r = true
  | [], rows, h, r, hr => by cases h; cases hr
  | x :: xs, rows, h, r, hr => by
    unfold parseRows at h
    split at h
    · split at h
      · cases h
      · rename_i m hm
        split at h
        · cases h
        · rename_i q hq
          cases h
          rcases List.mem_cons.mp hr with rfl | hr
          · exact isData_tuple (parseK_kind hm)
          · exact parseRows_all xs q hq r hr
    · exact parseRows_all xs rows h r hr

/-- While a fast path is installed the statement is running. -/
theorem fast_running {i : Inst} (hr : Run i) (h : i.state = .receiving .putTupledata ∨ i.state = .receiving .putCopydata) : i.last2.offset ≤ 1 := by
  have key : ∀ c, i.commands[i.last2.offset]? = some c → c.kind.typ = some 69 ∨ c.kind.typ = some 81 → i.last2.offset ≤ 1 := by
    intro c hc ht
    have hlt := (List.getElem?_eq_some_iff.mp hc).1
    rw [hr.three.len] at hlt
    rcases Nat.lt_or_ge i.last2.offset 2 with h | h
    · omega
    · exfalso
      have : i.last2.offset = 2 := by omega
      rw [this] at hc
      obtain ⟨c2, a2, b2⟩ := hr.three.sync
      rw [a2] at hc
      cases hc
      rw [b2] at ht
      rcases ht with h | h <;> cases h
  rcases h with h | h
  · obtain ⟨c, h1, h2⟩ := hr.good.1 h
    exact key c h1 (h2.elim (fun e => .inl e.1) fun e => .inr e.1)
  · obtain ⟨c, h1, h2⟩ := hr.good.2.1 h
    exact key c h1 (h2.elim (fun e => .inl e.1) fun e => .inr e.1)

theorem form_rows {ms rows : List Proc} {o : Nat} (ho : o ≤ 1) (hm : Form ms o) (h : ∀ r ∈ rows, isData r = true) : Form (ms ++ rows) o := by
  obtain ⟨pre, post, rfl, h1, h2, h4⟩ := hm
  have := h4 ho
  subst this
  refine ⟨pre ++ rows, [], by simp, ?_, by simp, fun _ => rfl⟩
  intro q hq
  rcases List.mem_append.mp hq with hq | hq
  · exact h1 q hq
  · exact row_not_end (h q hq)

/-- A delivery keeps the invariant. -/
theorem deliver_run {i i' : Inst} {b : Batch} {n : Nat} (hr : Run i) (hf : Fresh i [b]) (h : deliver i b = (i', .ok n)) (hn : i'.fatal = none) :
    Run i' ∧ (2 ≤ i.last2.offset → 2 ≤ i'.last2.offset ∧ got i' = got i) := by
  have hw := deliver_receiving h
  obtain ⟨hne, hid, hc⟩ := hf.2 b List.mem_cons_self
  have hgood := deliver_good hr.good hw hid h
  have hcm : i'.commands = i.commands := by have := deliver_keep i b; rw [h] at this; exact this
  have h3 : Three i'.commands := by rw [hcm]; exact hr.three
  rcases deliver_cases i b hw with e | ⟨hst, h100, e⟩ | ⟨hst, h68, rows, hrows, _, e⟩ | ⟨er, e, _⟩
  · rw [e] at h
    obtain ⟨l, s1, d, h1, h2, h3', h4⟩ := standardPut_ok (s := { i with state := .receiving .standardPut }) (b := b) hid h
    obtain ⟨early, l1⟩ := d
    rcases h4 with ⟨e1, e2⟩ | ⟨e1, e2⟩
    · dsimp only at e1
      subst e1
      exfalso
      have := loop_early b.msgs _ l l1 (by rw [h2])
      rw [h2, ← e2] at this
      exact this hn
    · dsimp only at e1
      subst e1
      have hloc := startAt_loc h1
      have hsf : s1.fatal = none := by
        rw [e2] at hn
        unfold finish at hn
        rw [(switchState_completed _ _).2.1] at hn
        exact hn
      have hoff : l.offset = i.last2.offset := hloc.2.1
      obtain ⟨g1, g2⟩ := loop_form (messagesReceived i) b.msgs { i with state := .receiving .standardPut, asyncs := [] } l l1 s1 hr.three hloc.1 h2 hsf (by rw [hloc.2.2.2.1, List.append_nil, hoff]; exact hr.form)
      have hfr := loop_frame0 b.msgs { i with state := .receiving .standardPut, asyncs := [] } l
      rw [h2] at hfr
      have hcomp : s1.completed = i.completed := (frame0_fields hfr.1).2.1
      have hadd : i'.completed = i.completed ++ [(b.id, l1.processed)] := by
        rw [e2]
        unfold finish
        rw [(switchState_completed _ _).1]
        dsimp only
        rw [hcomp, pushCompleted_fresh hc]
      have hl2 : i'.last2.offset = l1.offset := by
        rw [e2]
        unfold finish
        rw [switchState_last2]
      refine ⟨⟨h3, hgood, ?_⟩, fun h => ?_⟩
      · rw [received_append i i' _ _ hadd, hl2]; exact g1
      · rw [← hoff] at h
        rw [hl2]
        refine ⟨(g2 h).1, ?_⟩
        rw [got_append i i' _ _ hadd, (g2 h).2, hloc.2.2.2.1]
        simp
  · have hoff := fast_running hr (.inr hst)
    rw [e] at h
    cases h
    refine ⟨⟨h3, hgood, ?_⟩, fun h => absurd h (by omega)⟩
    have hadd : (fastPush i b (b.msgs.map fun x => Proc.raw x.2)).1.completed = i.completed ++ [(b.id, b.msgs.map fun x => Proc.raw x.2)] := by
      unfold fastPush; dsimp only; rw [pushCompleted_fresh hc]
    have e2 := received_append i (fastPush i b (b.msgs.map fun x => Proc.raw x.2)).1 _ _ hadd
    unfold fastPush at e2
    dsimp only at e2 ⊢
    rw [e2]
    exact form_rows hoff hr.form (by intro r hm; obtain ⟨x, _, rfl⟩ := List.mem_map.mp hm; rfl)
  · have hoff := fast_running hr (.inl hst)
    rw [e] at h
    cases h
    refine ⟨⟨h3, hgood, ?_⟩, fun h => absurd h (by omega)⟩
    have hadd : (fastPush i b rows).1.completed = i.completed ++ [(b.id, rows)] := by
      unfold fastPush; dsimp only; rw [pushCompleted_fresh hc]
    have e2 := received_append i (fastPush i b rows).1 _ _ hadd
    unfold fastPush at e2
    dsimp only at e2 ⊢
    rw [e2]
    exact form_rows hoff hr.form (parseRows_all _ _ hrows)
  · rw [e] at h
    cases h

/-- After the end of the statement nothing more is due. -/
theorem due_after : ∀ (bs : List Batch) (i : Inst) (R : List Proc), Run i → 2 ≤ i.last2.offset → Fresh i bs → due i bs = some R → R = []
  | [], i, R, _, _, _, h => by
    unfold due at h
    split at h
    · exact (Option.some.inj h).symm
    · cases h
  | b :: bs, i, R, hr, ho, hf, h => by
    by_cases hc : i.state = .complete
    · unfold due at h
      rw [if_pos hc] at h
      exact (Option.some.inj h).symm
    · obtain ⟨i', n, p, R', e1, e2, e3, e4, _, e6, e7⟩ := due_cons hf hc h
      obtain ⟨g1, g2⟩ := deliver_run hr (fresh_head hf) e1 e2
      obtain ⟨g3, g4⟩ := g2 ho
      rw [e6, due_after bs i' R' g1 g3 e7 e3, List.append_nil]
      rw [got_append i i' _ _ e4] at g4
      simpa using g4

theorem firstSeen_end {copy : Bool} : ∀ {ms : List Proc}, (firstSeen copy ms = .null ∨ ∃ p, firstSeen copy ms = .complete p) → ∃ pre r post, ms = pre ++ r :: post ∧ isEnd r = true ∧ ∀ q ∈ pre, isData q = false ∧ isEnd q = false
  | [], h => by rcases h with h | ⟨p, h⟩ <;> cases h
  | m :: ms, h => by
    unfold firstSeen at h
    cases hs : seen copy m with
    | noise =>
      rw [hs] at h
      obtain ⟨pre, r, post, h1, h2, h3⟩ := firstSeen_end h
      have hm : isData m = false ∧ isEnd m = false := by
        cases m with
        | raw d => cases hs
        | elem e =>
          cases e with
          | tuple _ => cases hs
          | complete _ => cases hs
          | empty k => cases k <;> first | exact ⟨rfl, rfl⟩ | cases hs
          | _ => exact ⟨rfl, rfl⟩
      refine ⟨m :: pre, r, post, by rw [h1]; rfl, h2, ?_⟩
      intro q hq
      rcases List.mem_cons.mp hq with rfl | hq
      · exact hm
      · exact h3 q hq
    | data => rw [hs] at h; rcases h with h | ⟨p, h⟩ <;> cases h
    | unexpected => rw [hs] at h; rcases h with h | ⟨p, h⟩ <;> cases h
    | null =>
      refine ⟨[], m, ms, rfl, ?_, by simp⟩
      cases m with
      | raw d => cases hs
      | elem e =>
        cases e with
        | empty k => cases k <;> first | rfl | cases hs
        | copyToBegin a b => cases copy <;> cases hs
        | _ => cases hs
    | complete p =>
      refine ⟨[], m, ms, rfl, ?_, by simp⟩
      cases m with
      | raw d => cases hs
      | elem e =>
        cases e with
        | empty k => cases k <;> cases hs
        | copyToBegin a b => cases copy <;> cases hs
        | complete c => rfl
        | _ => cases hs

/-- When the end is seen before any data there is none. -/
theorem no_data_at_end {i : Inst} {copy : Bool} (hr : Run i) (h : firstSeen copy (messagesReceived i) = .null ∨ ∃ p, firstSeen copy (messagesReceived i) = .complete p) : got i = [] ∧ 2 ≤ i.last2.offset := by
  obtain ⟨pre, r, post, h1, h2, h3⟩ := firstSeen_end h
  obtain ⟨a, z, k1, k2, k3, k4⟩ := hr.form
  have hoff : 2 ≤ i.last2.offset := by
    apply Decidable.byContradiction
    intro hlt
    have := k4 (by omega)
    subst this
    rw [List.append_nil] at k1
    have : isEnd r = false := k2 r (by rw [← k1, h1]; simp)
    rw [this] at h2
    cases h2
  refine ⟨?_, hoff⟩
  unfold got
  rw [List.filter_eq_nil_iff]
  intro q hq hqd
  have hqa : q ∈ a := by
    rw [k1] at hq
    rcases List.mem_append.mp hq with hq | hq
    · exact hq
    · rw [k3 q hq] at hqd; cases hqd
  -- `a` is a prefix of `pre`
  have hlen : a.length ≤ pre.length := by
    apply Decidable.byContradiction
    intro hlt
    have hle : pre.length < a.length := by omega
    have e : (a ++ z)[pre.length]? = some r := by rw [← k1, h1]; simp
    rw [List.getElem?_append_left hle] at e
    have := k2 r (List.mem_of_getElem? e)
    rw [this] at h2
    cases h2
  have hpre : q ∈ pre := by
    have e : a = pre.take a.length := by
      have e1 : (a ++ z).take a.length = a := by simp
      have e2 : (pre ++ r :: post).take a.length = pre.take a.length := List.take_append_of_le_length hlen
      rw [← e2, ← h1, k1, e1]
    rw [e] at hqa
    exact List.mem_of_mem_take hqa
  rw [(h3 q hpre).1] at hqd
  cases hqd

end PG.Fetch
