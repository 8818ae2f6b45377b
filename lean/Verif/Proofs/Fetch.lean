import Verif.Spec.Fetch
import Verif.Proofs.Xact3e
/-! # Lemmas about result streams -/
namespace PG.Fetch
open PG PG.Element3 PG.Xact3 PG.Spec.Xact PG.Spec.Fetch

/-! ## What the loop collects -/

/-- The hook table sends rows and lines, and nothing else, to the paths that make rows and lines. -/
def dataEntry (e : UInt8 × Path × Option Nat) : Bool :=
  if e.1 = 68 then e.2.1 = .parse .tuple
  else if e.1 = 100 then e.2.1 = .arg
  else match e.2.1 with
    | .arg => false
    | .parse k => k ≠ .tuple

theorem hook_data {ct : UInt8} {ts : List Table} (h : hook ct = some (some ts)) : ∀ tb ∈ ts, ∀ e ∈ tb, dataEntry e = true := by
  unfold hook at h
  split at h <;> first | (cases h; decide) | cases h

theorem isData_elem {e : Elem} (h : e.kind ≠ .tuple) : isData (.elem e) = false := by
  cases e <;> first | rfl | exact absurd rfl h

theorem isData_tuple {e : Elem} (h : e.kind = .tuple) : isData (.elem e) = true := by
  cases e <;> first | rfl | cases h

/-- A processed message is data exactly if it is a row or a line. -/
theorem call_data {cmd : Elem} {p : Option (List Table)} (hh : hookOf cmd = some p) {ts : List Table} {tb : Table} {st : Nat} (hp : p = some ts) (hst : ts[st]? = some tb) {x : Msg} {path ns}
    (hf : Table.find tb x.1 = some (path, ns)) {r} (hr : path.call x.2 = .ok r) : [r].filter isData = [x].filterMap dataOf := by
  subst hp
  obtain ⟨ct, _, h2⟩ := hookOf_typ hh
  have he := hook_data h2 tb (List.mem_of_getElem? hst) _ (find_mem hf)
  unfold dataEntry at he
  dsimp only at he
  unfold dataOf
  split at he
  · rename_i h68
    have : path = .parse .tuple := by simpa using he
    subst this
    obtain ⟨e, rfl, h3, h4⟩ := call_parse hr
    simp only [List.filter_cons, isData_tuple h4, if_true, List.filter_nil, List.filterMap_cons, h68, h3, List.filterMap_nil]
  · rename_i h68
    split at he
    · rename_i h100
      have : path = .arg := by simpa using he
      subst this
      cases hr
      simp [isData, h100]
    · rename_i h100
      split at he
      · cases he
      · rename_i k
        have hk : k ≠ .tuple := by simpa using he
        obtain ⟨e, rfl, h3, h4⟩ := call_parse hr
        have : isData (.elem e) = false := isData_elem (by rw [h4]; exact hk)
        simp [this, h68, h100]

theorem async_no_data {x : Msg} {k} (h : asyncKind x.1 = some k) : dataOf x = none := by
  unfold asyncKind at h
  unfold dataOf
  split at h
  · rename_i e; simp [e]
  · rename_i e; simp [e]
  · rename_i e; simp [e]
  · cases h

theorem handleAsync_fatal {s k x s'} (h : handleAsync s k x = .ok s') : s'.fatal = s.fatal := by
  unfold handleAsync at h
  split at h
  · cases h; rfl
  · split at h
    · cases h; rfl
    · cases h

theorem setReady_fatal (s : Inst) (rd) : (setReady s rd).fatal = s.fatal := by cases rd <;> rfl

/-- Once an error is noted it stays. -/
theorem loop_fatal_mono : ∀ (ms : List Msg) (s : Inst) (l : Loc), (loop s l ms).1.fatal = none → s.fatal = none
  | [], s, l, h => h
  | x :: xs, s, l, h => by
    rw [loop_cons] at h
    cases hr : react s.commands l.offset l.step l.cmd l.paths x with
    | error e => rw [hr] at h; exact h
    | ok r =>
      rw [hr] at h
      cases r with
      | violation ex => cases h
      | fatal em => cases h
      | lost em => cases h
      | skip em o c p => exact absurd (loop_fatal_mono xs _ _ h) (by simp)
      | async kk =>
        dsimp only at h
        cases ha : handleAsync s kk x with
        | error e => rw [ha] at h; exact h
        | ok s' => rw [ha] at h; rw [← handleAsync_fatal ha]; exact loop_fatal_mono xs _ _ h
      | take r n => exact loop_fatal_mono xs _ _ h
      | next r rd o c p => rw [← setReady_fatal s rd]; exact loop_fatal_mono xs _ _ h
      | last r rd o => rw [← setReady_fatal s rd]; exact h

/-- The loop ends early only with an error. -/
theorem loop_early : ∀ (ms : List Msg) (s : Inst) (l l' : Loc), (loop s l ms).2 = .ok ⟨true, l'⟩ → (loop s l ms).1.fatal ≠ none
  | [], s, l, l', h => by cases h
  | x :: xs, s, l, l', h => by
    rw [loop_cons] at h ⊢
    cases hr : react s.commands l.offset l.step l.cmd l.paths x with
    | error e => rw [hr] at h; cases h
    | ok r =>
      rw [hr] at h
      cases r with
      | violation ex => simp
      | fatal em => simp
      | lost em => simp
      | skip em o c p => exact loop_early xs _ _ _ h
      | async kk =>
        dsimp only at h ⊢
        cases ha : handleAsync s kk x with
        | error e => rw [ha] at h; cases h
        | ok s' => rw [ha] at h; exact loop_early xs _ _ _ h
      | take r n => exact loop_early xs _ _ _ h
      | next r rd o c p => exact loop_early xs _ _ _ h
      | last r rd o => cases h

theorem cons_take_data {x : Msg} {xs : List Msg} {n : Nat} {P : List Proc} {r : Proc} (h : [r].filter isData = [x].filterMap dataOf) :
    (P ++ [r]).filter isData ++ (xs.take n).filterMap dataOf = P.filter isData ++ ((x :: xs).take (n + 1)).filterMap dataOf := by
  rw [List.filter_append, h, List.take_succ_cons, List.append_assoc, ← List.filterMap_append]
  rfl

/-- What the loop collects are the rows and lines of what it consumes. -/
theorem loop_data : ∀ (ms : List Msg) (s : Inst) (l l' : Loc) (s' : Inst), LocOk s.commands l → loop s l ms = (s', .ok ⟨false, l'⟩) → s'.fatal = none →
    ∃ n, l'.count = l.count + n ∧ n ≤ ms.length ∧ l'.processed.filter isData = l.processed.filter isData ++ rowsOf (ms.take n)
  | [], s, l, l', s', _, h, _ => by
    cases h
    exact ⟨0, rfl, Nat.le_refl _, by simp [rowsOf]⟩
  | x :: xs, s, l, l', s', hl, h, hf => by
    rw [loop_cons] at h
    cases hr : react s.commands l.offset l.step l.cmd l.paths x with
    | error e => rw [hr] at h; cases h
    | ok r =>
      rw [hr] at h
      obtain ⟨i, j, k⟩ := react_ok hr
      obtain ⟨p1, p2, p3⟩ := react_processed hr
      cases r with
      | violation ex => cases h
      | fatal em => cases h
      | lost em => cases h
      | skip em o c p =>
        exfalso
        have := loop_fatal_mono xs { s with fatal := some false, errorMessage := some (.server em) } { l with count := l.count + 1, offset := o, cmd := c, paths := p, step := 0 } (by
          have e := congrArg Prod.fst h
          dsimp only at e
          rw [e]; exact hf)
        cases this
      | async kk =>
        dsimp only at h
        cases ha : handleAsync s kk x with
        | error e => rw [ha] at h; cases h
        | ok s1 =>
          rw [ha] at h
          have hc := (frame0_fields (handleAsync_frame ha).1).1
          obtain ⟨n, h1, h2, h3⟩ := loop_data xs s1 { l with count := l.count + 1 } l' s' (by rw [hc]; exact hl) h hf
          refine ⟨n + 1, by rw [h1]; dsimp only; omega, by simpa using h2, ?_⟩
          rw [h3, List.take_succ_cons]
          unfold rowsOf
          rw [List.filterMap_cons_none (async_no_data (react_async_kind hr))]
      | take r n =>
        obtain ⟨ts, tb, path, e1, e2, e3, e4⟩ := p1 _ _ rfl
        obtain ⟨m, h1, h2, h3⟩ := loop_data xs s { l with count := l.count + 1, processed := l.processed ++ [r], step := n } l' s' hl h hf
        refine ⟨m + 1, by rw [h1]; dsimp only; omega, by simpa using h2, ?_⟩
        rw [h3]
        exact cons_take_data (call_data hl.2 e1 e2 e3 e4)
      | next r rd o c p =>
        obtain ⟨ts, tb, path, e1, e2, e3, e4, _⟩ := p2 _ _ _ _ _ rfl
        have hc := (frame0_fields (setReady_frame s rd).1).1
        obtain ⟨m, h1, h2, h3⟩ := loop_data xs (setReady s rd) { l with count := l.count + 1, processed := l.processed ++ [r], step := 0, offset := o, cmd := c, paths := some p } l' s' (by rw [hc]; exact j _ _ _ _ _ rfl) h hf
        refine ⟨m + 1, by rw [h1]; dsimp only; omega, by simpa using h2, ?_⟩
        rw [h3]
        exact cons_take_data (call_data hl.2 e1 e2 e3 e4)
      | last r rd o =>
        obtain ⟨ts, tb, path, e1, e2, e3, e4, _⟩ := p3 _ _ _ rfl
        cases h
        refine ⟨1, rfl, by simp, ?_⟩
        have := cons_take_data (xs := xs) (n := 0) (P := l.processed) (call_data hl.2 e1 e2 e3 e4)
        simpa [rowsOf] using this

/-! ## Deliveries -/

theorem switchState_completed (s : Inst) (l : Loc) : (switchState s l).completed = s.completed ∧ (switchState s l).fatal = s.fatal ∧ (switchState s l).lastId = s.lastId := by
  unfold switchState
  split
  · exact ⟨rfl, rfl, rfl⟩
  · split
    · split <;> exact ⟨rfl, rfl, rfl⟩
    · exact ⟨rfl, rfl, rfl⟩

theorem parseRows_data : ∀ (ms : List Msg) (rows : List Proc), parseRows ms = .ok rows → (∀ x ∈ ms, x.1 = 68) → rows.filter isData = rowsOf ms
  | [], rows, h, _ => by cases h; rfl
  | x :: xs, rows, h, hx => by
    have h68 := hx x List.mem_cons_self
    unfold parseRows at h
    rw [if_pos h68] at h
    split at h
    · cases h
    · rename_i m hm
      split at h
      · cases h
      · rename_i r hr
        cases h
        have ih := parseRows_data xs r hr fun y hy => hx y (List.mem_cons_of_mem _ hy)
        have hd : isData (.elem m) = true := isData_tuple (parseK_kind hm)
        simp only [List.filter_cons, hd, if_true, ih, rowsOf, List.filterMap_cons, dataOf, h68, hm]

theorem lines_data : ∀ (ms : List Msg), (∀ x ∈ ms, x.1 = 100) → (ms.map fun x => Proc.raw x.2).filter isData = rowsOf ms
  | [], _ => rfl
  | x :: xs, h => by
    have ih := lines_data xs fun y hy => h y (List.mem_cons_of_mem _ hy)
    have h1 := h x List.mem_cons_self
    have hd : isData (.raw x.2) = true := rfl
    simp only [List.map_cons, List.filter_cons, hd, if_true, ih, rowsOf, List.filterMap_cons, dataOf, h1]
    simp

/-- **A delivery** that is not an error adds one entry, with the rows and lines of the messages it consumed. -/
theorem deliver_data {s s' : Inst} {b : Batch} {n : Nat} (hw : Receiving s) (hf : Fresh s [b]) (h : deliver s b = (s', .ok n)) (hn : s'.fatal = none) :
    ∃ p, s'.completed = s.completed ++ [(b.id, p)] ∧ p.filter isData = rowsOf (b.msgs.take n) ∧ n ≤ b.msgs.length ∧ (s'.state ≠ .complete → n = b.msgs.length) ∧ s'.lastId = b.id := by
  obtain ⟨hne, hid, hc⟩ := hf.2 b List.mem_cons_self
  rcases deliver_cases s b hw with e | ⟨_, h100, e⟩ | ⟨_, h68, rows, hrows, _, e⟩ | ⟨er, e, _⟩
  · rw [e] at h
    obtain ⟨l, s1, d, h1, h2, h3, h4⟩ := standardPut_ok (s := { s with state := .receiving .standardPut }) (b := b) hid h
    obtain ⟨early, l1⟩ := d
    rcases h4 with ⟨e1, e2⟩ | ⟨e1, e2⟩
    · dsimp only at e1
      subst e1
      exfalso
      have := loop_early b.msgs _ l l1 (by rw [h2])
      rw [h2, ← e2] at this
      exact this hn
    · dsimp only at e1
      subst e1
      have hloc := startAt_loc h1
      have hsf : s1.fatal = none := by
        rw [e2] at hn
        unfold finish at hn
        rw [(switchState_completed _ _).2.1] at hn
        exact hn
      obtain ⟨m, k1, k2, k3⟩ := loop_data b.msgs _ l l1 s1 (by exact hloc.1) h2 hsf
      have hfr := loop_frame0 b.msgs { s with state := .receiving .standardPut, asyncs := [] } l
      rw [h2] at hfr
      have hcomp : s1.completed = s.completed := (frame0_fields hfr.1).2.1
      refine ⟨l1.processed, ?_, ?_, ?_, ?_, by rw [e2]; unfold finish; rw [(switchState_completed _ _).2.2]⟩
      · rw [e2]
        unfold finish
        rw [(switchState_completed _ _).1]
        dsimp only
        rw [hcomp, pushCompleted_fresh hc]
      · have hm : n = m := by rw [h3]; dsimp only; rw [k1, hloc.2.2.2.2]; omega
        rw [k3, hloc.2.2.2.1, hm]
        rfl
      · rw [h3]; dsimp only; rw [k1, hloc.2.2.2.2]; omega
      · intro hst
        have hk := loop_locOk b.msgs { s with state := .receiving .standardPut, asyncs := [] } l l1 hloc.1 (by rw [h2])
        rcases hk with hk | ⟨_, hk⟩
        · exfalso
          apply hst
          rw [e2]
          unfold finish switchState
          dsimp only
          have hcm : s1.commands = s.commands := (frame0_fields hfr.1).1
          rw [if_pos (by rw [hcm]; exact hk)]
        · rw [h3, hk, hloc.2.2.2.2]; omega
  · rw [e] at h
    cases h
    refine ⟨b.msgs.map fun x => Proc.raw x.2, ?_, ?_, Nat.le_refl _, fun _ => rfl, rfl⟩
    · dsimp only
      rw [pushCompleted_fresh hc]
    · rw [List.take_length]
      exact lines_data _ h100
  · rw [e] at h
    cases h
    refine ⟨rows, ?_, ?_, Nat.le_refl _, fun _ => rfl, rfl⟩
    · dsimp only
      rw [pushCompleted_fresh hc]
    · rw [List.take_length]
      exact parseRows_data _ _ hrows h68
  · rw [e] at h
    cases h

/-! ## Deliveries do not look at what was collected before -/

theorem loop_swap (c : List (Nat × List Proc)) : ∀ (ms : List Msg) (s : Inst) (l : Loc), loop { s with completed := c } l ms = ({ (loop s l ms).1 with completed := c }, (loop s l ms).2)
  | [], s, l => rfl
  | x :: xs, s, l => by
    rw [loop_cons, loop_cons]
    dsimp only
    cases hr : react s.commands l.offset l.step l.cmd l.paths x with
    | error e => rfl
    | ok r =>
      cases r with
      | violation ex => rfl
      | fatal em => rfl
      | lost em => rfl
      | skip em o c p => exact loop_swap _ xs { s with fatal := some false, errorMessage := some (.server em) } _
      | async k =>
        dsimp only
        have : handleAsync { s with completed := c } k x = (handleAsync s k x).map (fun u => { u with completed := c }) := by
          unfold handleAsync
          dsimp only
          split
          · rfl
          · cases parseK k x.2 <;> rfl
        rw [this]
        cases ha : handleAsync s k x with
        | error e => rfl
        | ok s' => exact loop_swap c xs s' _
      | take r n => exact loop_swap c xs s _
      | next r rd o c p =>
        cases rd with
        | none => exact loop_swap _ xs s _
        | some d => exact loop_swap _ xs { s with lastReady := some d } _
      | last r rd o => cases rd <;> rfl

theorem switchState_swap (c : List (Nat × List Proc)) (s : Inst) (l : Loc) : switchState { s with completed := c } l = { switchState s l with completed := c } := by
  unfold switchState
  dsimp only
  split
  · rfl
  · split
    · split <;> rfl
    · rfl

theorem finish_swap (c : List (Nat × List Proc)) (s : Inst) (b : Batch) (l : Loc) (hs : ∀ x ∈ s.completed, x.1 ≠ b.id) (hc : ∀ x ∈ c, x.1 ≠ b.id) :
    (finish s b l).completed = s.completed ++ [(b.id, l.processed)] ∧ finish { s with completed := c } b l = { finish s b l with completed := c ++ [(b.id, l.processed)] } := by
  unfold finish
  dsimp only
  rw [pushCompleted_fresh hs, pushCompleted_fresh hc]
  refine ⟨(switchState_completed _ _).1, ?_⟩
  exact switchState_swap (c ++ [(b.id, l.processed)]) { s with completed := s.completed ++ [(b.id, l.processed)], lastId := b.id, last1 := s.last2, last2 := ⟨l.offset, l.step⟩ } l

theorem standardPut_swap (c : List (Nat × List Proc)) (s : Inst) (b : Batch) (hs : ∀ x ∈ s.completed, x.1 ≠ b.id) (hc : ∀ x ∈ c, x.1 ≠ b.id) :
    ∃ new, (standardPut s b).1.completed = s.completed ++ new ∧ (∀ x ∈ new, x.1 = b.id) ∧ standardPut { s with completed := c } b = ({ (standardPut s b).1 with completed := c ++ new }, (standardPut s b).2) := by
  have hst : ∀ s : Inst, (startLoop s b).1.completed = s.completed ∧ startLoop { s with completed := c } b = ({ (startLoop s b).1 with completed := c }, (startLoop s b).2) := by
    intro s
    unfold startLoop startPos
    dsimp only
    by_cases hid : b.id = s.lastId
    · simp only [if_pos hid]
      cases s.commands[s.last1.offset]? with
      | none => exact ⟨rfl, rfl⟩
      | some c => dsimp only; cases hookOf c <;> exact ⟨rfl, rfl⟩
    · simp only [if_neg hid]
      cases s.commands[s.last2.offset]? with
      | none => exact ⟨rfl, rfl⟩
      | some c => dsimp only; cases hookOf c <;> exact ⟨rfl, rfl⟩
  obtain ⟨k1, k2⟩ := hst s
  unfold standardPut
  rw [k2]
  generalize startLoop s b = p at k1 ⊢
  obtain ⟨s0, r⟩ := p
  dsimp only at k1
  cases r with
  | error e => exact ⟨[], by simpa using k1, by simp, by simp⟩
  | ok l =>
    dsimp only
    rw [loop_swap c b.msgs s0 l]
    have hfr := loop_frame0 b.msgs s0 l
    have hcomp : (loop s0 l b.msgs).1.completed = s.completed := ((frame0_fields hfr.1).2.1).trans k1
    generalize loop s0 l b.msgs = q at hcomp ⊢
    obtain ⟨s1, r⟩ := q
    dsimp only at hcomp
    cases r with
    | error e => exact ⟨[], by simpa using hcomp, by simp, by simp⟩
    | ok d =>
      obtain ⟨early, l1⟩ := d
      cases early with
      | true => exact ⟨[], by simpa using hcomp, by simp, by simp⟩
      | false =>
        obtain ⟨f1, f2⟩ := finish_swap c s1 b l1 (by rw [hcomp]; exact hs) hc
        refine ⟨[(b.id, l1.processed)], by dsimp only; rw [f1, hcomp], by simp, ?_⟩
        dsimp only
        rw [f2]

theorem deliver_swap (c : List (Nat × List Proc)) (s : Inst) (b : Batch) (hs : ∀ x ∈ s.completed, x.1 ≠ b.id) (hc : ∀ x ∈ c, x.1 ≠ b.id) :
    ∃ new, (deliver s b).1.completed = s.completed ++ new ∧ (∀ x ∈ new, x.1 = b.id) ∧ deliver { s with completed := c } b = ({ (deliver s b).1 with completed := c ++ new }, (deliver s b).2) := by
  have hfast : ∀ p, ∃ new, (fastPush s b p).1.completed = s.completed ++ new ∧ (∀ x ∈ new, x.1 = b.id) ∧ fastPush { s with completed := c } b p = ({ (fastPush s b p).1 with completed := c ++ new }, (fastPush s b p).2) := by
    intro p
    refine ⟨[(b.id, p)], ?_, by simp, ?_⟩
    · unfold fastPush; dsimp only; rw [pushCompleted_fresh hs]
    · unfold fastPush; dsimp only; rw [pushCompleted_fresh hc]
  have herr : ∀ e : Err, ∃ new : List (Nat × List Proc), (s, (Except.error e : Except Err Nat)).1.completed = s.completed ++ new ∧ (∀ x ∈ new, x.1 = b.id) ∧ (({ s with completed := c } : Inst), (Except.error e : Except Err Nat)) = ({ s with completed := c ++ new }, .error e) :=
    fun e => ⟨[], by simp, by simp, by simp⟩
  have hstd := standardPut_swap c { s with state := .receiving .standardPut } b hs hc
  have hsame := standardPut_swap c s b hs hc
  unfold deliver
  dsimp only
  obtain ⟨cm, co, li, l1, l2, me, ct, st, fa, em, lr, as, hk⟩ := s
  cases st with
  | sending op => exact herr _
  | complete => exact herr _
  | receiving op =>
    cases op with
    | standardPut => exact hsame
    | putCopydata =>
      dsimp only
      unfold putCopydata
      cases b.msgs.getLast? with
      | none => exact herr _
      | some x =>
        dsimp only
        by_cases hq : x.1 ≠ 100 ∨ ((b.msgs.filter (fun x => x.1 = 100)).map (fun x => Proc.raw x.2)).length ≠ b.msgs.length
        · rw [if_pos hq, if_pos hq]; exact hstd
        · rw [if_neg hq, if_neg hq]; exact hfast _
    | putTupledata =>
      dsimp only
      unfold putTupledata
      cases b.msgs.getLast? with
      | none => exact herr _
      | some x =>
        dsimp only
        by_cases hq : x.1 ≠ 68
        · rw [if_pos hq, if_pos hq]; exact hstd
        · rw [if_neg hq, if_neg hq]
          cases parseRows b.msgs with
          | error e => exact herr _
          | ok rows =>
            dsimp only
            by_cases hq : rows.length ≠ b.msgs.length
            · rw [if_pos hq, if_pos hq]; exact hstd
            · rw [if_neg hq, if_neg hq]; exact hfast _

/-! ## What is still to come -/

/-- The rows and lines that the wire is going to give; `none` if the transaction fails, or is not complete at the end. -/
def due (i : Inst) : List Batch → Option (List Proc)
  | [] => if i.state = .complete then some [] else none
  | b :: bs =>
    if i.state = .complete then some []
    else
      match deliver i b with
      | (_, .error _) => none
      | (i', .ok n) => if i'.fatal = none then (due i' bs).map (rowsOf (b.msgs.take n) ++ ·) else none

theorem deliver_receiving {s s' : Inst} {b : Batch} {n : Nat} (h : deliver s b = (s', .ok n)) : Receiving s := by
  unfold deliver at h
  split at h
  · rename_i e; exact ⟨_, e⟩
  · rename_i e; exact ⟨_, e⟩
  · rename_i e; exact ⟨_, e⟩
  · cases h

/-- The rest of the batches is new to the transaction that received the first. -/
theorem fresh_next {s s' : Inst} {b : Batch} {bs : List Batch} {p : List Proc} (h : Fresh s (b :: bs)) (hid : s'.lastId = b.id) (hc : s'.completed = s.completed ++ [(b.id, p)]) : Fresh s' bs := by
  obtain ⟨h1, h2⟩ := h
  simp only [List.map_cons, List.nodup_cons, List.mem_map, not_exists, not_and] at h1
  refine ⟨h1.2, fun x hx => ?_⟩
  obtain ⟨k1, k2, k3⟩ := h2 x (List.mem_cons_of_mem _ hx)
  refine ⟨k1, ?_, ?_⟩
  · rw [hid]; exact h1.1 x hx
  · intro c hcm
    rw [hc] at hcm
    rcases List.mem_append.mp hcm with hcm | hcm
    · exact k3 c hcm
    · rw [List.mem_singleton.mp hcm]; exact fun e => h1.1 x hx e.symm

theorem fresh_head {s : Inst} {b : Batch} {bs : List Batch} (h : Fresh s (b :: bs)) : Fresh s [b] :=
  ⟨by simp, fun x hx => by rw [List.mem_singleton.mp hx]; exact h.2 b List.mem_cons_self⟩

/-- One batch of a reply that is going to be complete. -/
theorem due_cons {i : Inst} {b : Batch} {bs : List Batch} {R : List Proc} (hf : Fresh i (b :: bs)) (hc : i.state ≠ .complete) (h : due i (b :: bs) = some R) :
    ∃ i' n p R', deliver i b = (i', .ok n) ∧ i'.fatal = none ∧ due i' bs = some R' ∧ i'.completed = i.completed ++ [(b.id, p)] ∧ p.filter isData = rowsOf (b.msgs.take n) ∧ R = p.filter isData ++ R' ∧ Fresh i' bs := by
  unfold due at h
  rw [if_neg hc] at h
  cases hd : deliver i b with
  | mk i' r =>
    rw [hd] at h
    cases r with
    | error e => cases h
    | ok n =>
      dsimp only at h
      split at h
      · rename_i hfat
        obtain ⟨p, h1, h2, h3, h4, h5⟩ := deliver_data (deliver_receiving hd) (fresh_head hf) hd hfat
        rw [Option.map_eq_some_iff] at h
        obtain ⟨R', e1, e2⟩ := h
        exact ⟨i', n, p, R', rfl, hfat, e1, h1, h2, by rw [h2, ← e2], fresh_next hf h5 h1⟩
      · cases h

/-- What was collected before does not matter. -/
theorem due_swap : ∀ (bs : List Batch) (i : Inst) (c : List (Nat × List Proc)), Fresh i bs → (∀ b ∈ bs, ∀ x ∈ c, x.1 ≠ b.id) → due { i with completed := c } bs = due i bs
  | [], i, c, _, _ => rfl
  | b :: bs, i, c, hf, hc => by
    unfold due
    dsimp only
    by_cases hst : i.state = .complete
    · rw [if_pos hst, if_pos hst]
    · rw [if_neg hst, if_neg hst]
      obtain ⟨new, k1, k2, k3⟩ := deliver_swap c i b (hf.2 b List.mem_cons_self).2.2 (hc b List.mem_cons_self)
      rw [k3]
      cases hd : deliver i b with
      | mk i' r =>
        rw [hd] at k1
        dsimp only at k1
        cases r with
        | error e => rfl
        | ok n =>
          dsimp only
          by_cases hfat : i'.fatal = none
          · rw [if_pos hfat, if_pos hfat]
            obtain ⟨p, h1, h2, h3, h4, h5⟩ := deliver_data (deliver_receiving hd) (fresh_head hf) hd hfat
            rw [due_swap bs i' (c ++ new) (fresh_next hf h5 h1) ?_]
            intro x hx y hy
            have hnd := hf.1
            simp only [List.map_cons, List.nodup_cons, List.mem_map, not_exists, not_and] at hnd
            rcases List.mem_append.mp hy with hy | hy
            · exact hc x (List.mem_cons_of_mem _ hx) y hy
            · rw [k2 y hy]; exact fun e => hnd.1 x hx e.symm
          · rw [if_neg hfat, if_neg hfat]

/-- The rows and lines collected. -/
def got (i : Inst) : List Proc := (messagesReceived i).filter isData

/-- The state of a stream that is going to give `R`. -/
def Ready (a : All) (R : List Proc) : Prop :=
  match a.xact with
  | none => R = []
  | some i => i.fatal = none ∧ Fresh i a.wire ∧ ∃ R', due i a.wire = some R' ∧ R = got i ++ R'

/-- The number of turns that are enough. -/
def size (a : All) : Nat :=
  match a.xact with
  | none => 0
  | some i => i.completed.length + a.wire.length

theorem got_append (i i' : Inst) (k : Nat) (p : List Proc) (h : i'.completed = i.completed ++ [(k, p)]) : got i' = got i ++ p.filter isData := by
  unfold got messagesReceived
  rw [h]
  simp

/-- A loop of steps keeps what is going to be given. -/
theorem steps_ready (stop : Inst → Bool) : ∀ (bs : List Batch) (i : Inst) (R : List Proc), i.fatal = none → Fresh i bs → due i bs = some R →
    ∃ i' w R', steps stop i bs = (i', w, .fine) ∧ i'.fatal = none ∧ Fresh i' w ∧ due i' w = some R' ∧ got i ++ R = got i' ++ R' ∧ (i'.state = .complete ∨ stop i' = true) ∧ i'.completed.length + w.length ≤ i.completed.length + bs.length
  | [], i, R, hfat, hf, hd => by
    have hc : i.state = .complete := by
      unfold due at hd
      split at hd
      · assumption
      · cases hd
    refine ⟨i, [], R, ?_, hfat, hf, hd, rfl, .inl hc, Nat.le_refl _⟩
    unfold steps
    rw [if_pos (.inl hc)]
  | b :: bs, i, R, hfat, hf, hd => by
    unfold steps
    by_cases hc : i.state = .complete ∨ stop i = true
    · rw [if_pos hc]
      exact ⟨i, b :: bs, R, rfl, hfat, hf, hd, rfl, hc, Nat.le_refl _⟩
    · rw [if_neg hc]
      obtain ⟨i1, n, p, R1, e1, e2, e3, e4, _, e6, e7⟩ := due_cons hf (fun e => hc (.inl e)) hd
      rw [e1]
      dsimp only
      rw [if_neg (by rintro ⟨_, h⟩; exact h e2)]
      obtain ⟨i', w, R', k1, k2, k3, k4, k5, k6, k7⟩ := steps_ready stop bs i1 R1 e2 e7 e3
      refine ⟨i', w, R', k1, k2, k3, k4, ?_, k6, ?_⟩
      · rw [← k5, got_append i i1 b.id p e4, e6, List.append_assoc]
      · rw [e4] at k7
        simp only [List.length_append, List.length_cons, List.length_nil] at k7 ⊢
        omega

theorem interfere_ready {a : All} {R : List Proc} (h : Ready a R) : Ready (interfere a) R ∧ size (interfere a) ≤ size a := by
  unfold interfere
  cases hx : a.xact with
  | none => exact ⟨h, Nat.le_refl _⟩
  | some i =>
    unfold Ready at h
    rw [hx] at h
    obtain ⟨h1, h2, R0, h3, h4⟩ := h
    obtain ⟨i', w, R', k1, k2, k3, k4, k5, _, k7⟩ := steps_ready (fun _ => false) a.wire i R0 h1 h2 h3
    dsimp only
    rw [k1]
    refine ⟨⟨k2, k3, R', k4, by rw [h4, k5]⟩, ?_⟩
    simp only [size, hx]
    exact k7

/-- One turn. -/
theorem next_ready {β : Type} (decode : List Proc → Option (List β)) {a : All} {R : List Proc} (h : Ready a R) :
    ((next decode a).1 = .stop ∧ R = [] ∧ (next decode a).2.xact = none) ∨
    (∃ c R', R = c ++ R' ∧ ((∃ r, decode c = some r ∧ (next decode a).1 = .chunk r ∧ Ready (next decode a).2 R' ∧ size (next decode a).2 < size a) ∨
      (decode c = none ∧ (next decode a).1 = .raised ∧ Ready (next decode a).2 R ∧ next decode (next decode a).2 = next decode a))) := by
  unfold Ready at h
  cases hx : a.xact with
  | none =>
    rw [hx] at h
    left
    unfold next
    rw [hx]
    exact ⟨rfl, h, hx⟩
  | some i =>
    rw [hx] at h
    obtain ⟨h1, h2, R0, h3, h4⟩ := h
    obtain ⟨i', w, R', k1, k2, k3, k4, k5, k6, k7⟩ := steps_ready (fun x => !x.completed.isEmpty) a.wire i R0 h1 h2 h3
    have hn : next decode a = match i'.completed with
        | [] => (.stop, { a with xact := none, wire := w })
        | (_, ms) :: rest =>
          match decode (ms.filter isData) with
          | none => (.raised, { a with xact := some i', wire := w })
          | some r => (.chunk r, { xact := some { i' with completed := rest }, wire := w, complete := ((ms.drop (ms.length - 3)).filter isComplete).getLast?.or a.complete }) := by
      unfold next
      rw [hx]
      dsimp only
      rw [k1]
      dsimp only
      rw [if_neg (by rw [k2]; simp)]
      cases i'.completed with
      | nil => rfl
      | cons m rest => dsimp only; cases decode (m.2.filter isData) <;> rfl
    cases hcomp : i'.completed with
    | nil =>
      rw [hcomp] at hn
      left
      rw [hn]
      refine ⟨rfl, ?_, rfl⟩
      have hst : i'.state = .complete := by
        rcases k6 with e | e
        · exact e
        · rw [hcomp] at e; cases e
      have hR' : R' = [] := by
        unfold due at k4
        cases w with
        | nil => dsimp only at k4; rw [if_pos hst] at k4; exact (Option.some.inj k4).symm
        | cons b bs => dsimp only at k4; rw [if_pos hst] at k4; exact (Option.some.inj k4).symm
      rw [h4, k5, hR']
      simp [got, messagesReceived, hcomp]
    | cons m rest =>
      obtain ⟨id, ms⟩ := m
      rw [hcomp] at hn
      dsimp only at hn
      right
      have hgot : got i' = ms.filter isData ++ got { i' with completed := rest } := by
        simp [got, messagesReceived, hcomp]
      refine ⟨ms.filter isData, got { i' with completed := rest } ++ R', by rw [h4, k5, hgot, List.append_assoc], ?_⟩
      cases hdec : decode (ms.filter isData) with
      | some r =>
        left
        rw [hdec] at hn
        dsimp only at hn
        rw [hn]
        have hfr : Fresh { i' with completed := rest } w := ⟨k3.1, fun x hx => ⟨(k3.2 x hx).1, (k3.2 x hx).2.1, fun c hc => (k3.2 x hx).2.2 c (by rw [hcomp]; exact List.mem_cons_of_mem _ hc)⟩⟩
        refine ⟨r, rfl, rfl, ⟨k2, hfr, R', ?_, rfl⟩, ?_⟩
        · dsimp only
          rw [due_swap w i' rest k3 fun x hx y hy => (k3.2 x hx).2.2 y (by rw [hcomp]; exact List.mem_cons_of_mem _ hy), k4]
        · simp only [size, hx]
          rw [hcomp] at k7
          simp only [List.length_cons] at k7
          omega
      | none =>
        right
        rw [hdec] at hn
        dsimp only at hn
        rw [hn]
        refine ⟨rfl, rfl, ⟨k2, k3, R', k4, by rw [h4, k5]⟩, ?_⟩
        unfold next
        dsimp only
        have hs : steps (fun x => !x.completed.isEmpty) i' w = (i', w, .fine) := by
          have hstop : (!i'.completed.isEmpty) = true := by rw [hcomp]; rfl
          cases w with
          | nil => unfold steps; rw [if_pos (.inr hstop)]
          | cons b bs => unfold steps; rw [if_pos (.inr hstop)]
        rw [hs]
        dsimp only
        rw [if_neg (by rw [k2]; simp), hcomp]
        dsimp only
        rw [hdec]

end PG.Fetch
