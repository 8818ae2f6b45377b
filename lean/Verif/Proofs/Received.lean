import Verif.Spec.Received
import Verif.Props.Fetch
/-! # What a transaction collects -/
namespace PG.Received
open PG PG.Element3 PG.Xact3 PG.Spec.Xact PG.Spec.Received PG.Fetch

/-- The hook table reads every message as what it is. -/
def plainEntry (e : UInt8 × Path × Option Nat) : Bool :=
  match e.2.1 with
  | .arg => e.1 = 100
  | .parse k => e.1 ≠ 100 && kindOf e.1 = some k

theorem hook_plain {ct : UInt8} {ts : List Table} (h : hook ct = some (some ts)) : ∀ tb ∈ ts, ∀ e ∈ tb, plainEntry e = true := by
  unfold hook at h
  split at h <;> first | (cases h; decide) | cases h

theorem call_proc {cmd : Elem} {p : Option (List Table)} (hh : hookOf cmd = some p) {ts : List Table} {tb : Table} {st : Nat} (hp : p = some ts) (hst : ts[st]? = some tb) {x : Msg} {path ns}
    (hf : Table.find tb x.1 = some (path, ns)) {r} (hr : path.call x.2 = .ok r) : procOf x = some r := by
  subst hp
  obtain ⟨ct, _, h2⟩ := hookOf_typ hh
  have he := hook_plain h2 tb (List.mem_of_getElem? hst) _ (find_mem hf)
  unfold plainEntry at he
  dsimp only at he
  unfold procOf
  cases path with
  | arg =>
    rw [if_pos (by simpa using he)]
    cases hr
    rfl
  | parse k =>
    have : x.1 ≠ 100 ∧ kindOf x.1 = some k := by simpa using he
    rw [if_neg this.1, this.2]
    obtain ⟨e, rfl, h3, h4⟩ := call_parse hr
    dsimp only
    rw [h3]

theorem async_no_proc {x : Msg} {k} (h : asyncKind x.1 = some k) : procOf x = none := by
  unfold asyncKind at h
  unfold procOf kindOf
  split at h
  · rename_i e; simp [e]
  · rename_i e; simp [e]
  · rename_i e; simp [e]
  · cases h

theorem loop_all : ∀ (ms : List Msg) (s : Inst) (l l' : Loc) (s' : Inst), LocOk s.commands l → loop s l ms = (s', .ok ⟨false, l'⟩) → s'.fatal = none →
    ∃ n, l'.count = l.count + n ∧ n ≤ ms.length ∧ l'.processed = l.processed ++ meaning (ms.take n)
  | [], s, l, l', s', _, h, _ => by
    cases h
    exact ⟨0, rfl, Nat.le_refl _, by simp [meaning]⟩
  | x :: xs, s, l, l', s', hl, h, hf => by
    rw [loop_cons] at h
    cases hr : react s.commands l.offset l.step l.cmd l.paths x with
    | error e => rw [hr] at h; cases h
    | ok r =>
      rw [hr] at h
      obtain ⟨i, j, k⟩ := react_ok hr
      obtain ⟨p1, p2, p3⟩ := react_processed hr
      cases r with
      | violation ex => cases h
      | fatal em => cases h
      | lost em => cases h
      | skip em o c p =>
        exfalso
        have := loop_fatal_mono xs { s with fatal := some false, errorMessage := some (.server em) } { l with count := l.count + 1, offset := o, cmd := c, paths := p, step := 0 } (by
          have e := congrArg Prod.fst h
          dsimp only at e
          rw [e]; exact hf)
        cases this
      | async kk =>
        dsimp only at h
        cases ha : handleAsync s kk x with
        | error e => rw [ha] at h; cases h
        | ok s1 =>
          rw [ha] at h
          have hc := (frame0_fields (handleAsync_frame ha).1).1
          obtain ⟨n, h1, h2, h3⟩ := loop_all xs s1 { l with count := l.count + 1 } l' s' (by rw [hc]; exact hl) h hf
          refine ⟨n + 1, by rw [h1]; dsimp only; omega, by simpa using h2, ?_⟩
          rw [h3, List.take_succ_cons]
          unfold meaning
          rw [List.filterMap_cons_none (async_no_proc (react_async_kind hr))]
      | take r n =>
        obtain ⟨ts, tb, path, e1, e2, e3, e4⟩ := p1 _ _ rfl
        obtain ⟨m, h1, h2, h3⟩ := loop_all xs s { l with count := l.count + 1, processed := l.processed ++ [r], step := n } l' s' hl h hf
        refine ⟨m + 1, by rw [h1]; dsimp only; omega, by simpa using h2, ?_⟩
        rw [h3, List.take_succ_cons]
        unfold meaning
        rw [List.filterMap_cons_some (call_proc hl.2 e1 e2 e3 e4), List.append_assoc]
        rfl
      | next r rd o c p =>
        obtain ⟨ts, tb, path, e1, e2, e3, e4, _⟩ := p2 _ _ _ _ _ rfl
        have hc := (frame0_fields (setReady_frame s rd).1).1
        obtain ⟨m, h1, h2, h3⟩ := loop_all xs (setReady s rd) { l with count := l.count + 1, processed := l.processed ++ [r], step := 0, offset := o, cmd := c, paths := some p } l' s' (by rw [hc]; exact j _ _ _ _ _ rfl) h hf
        refine ⟨m + 1, by rw [h1]; dsimp only; omega, by simpa using h2, ?_⟩
        rw [h3, List.take_succ_cons]
        unfold meaning
        rw [List.filterMap_cons_some (call_proc hl.2 e1 e2 e3 e4), List.append_assoc]
        rfl
      | last r rd o =>
        obtain ⟨ts, tb, path, e1, e2, e3, e4, _⟩ := p3 _ _ _ rfl
        cases h
        refine ⟨1, rfl, by simp, ?_⟩
        rw [List.take_succ_cons]
        unfold meaning
        rw [List.filterMap_cons_some (call_proc hl.2 e1 e2 e3 e4)]
        simp

theorem parseRows_all2 : ∀ (ms : List Msg) (rows : List Proc), parseRows ms = .ok rows → (∀ x ∈ ms, x.1 = 68) → rows = meaning ms
  | [], rows, h, _ => by cases h; rfl
  | x :: xs, rows, h, hx => by
    have h68 := hx x List.mem_cons_self
    unfold parseRows at h
    rw [if_pos h68] at h
    split at h
    · cases h
    · rename_i m hm
      split at h
      · cases h
      · rename_i r hr
        cases h
        have ih := parseRows_all2 xs r hr fun y hy => hx y (List.mem_cons_of_mem _ hy)
        unfold meaning
        rw [List.filterMap_cons_some (b := .elem m) (by unfold procOf; rw [h68, if_neg (by decide)]; show (match parseK Kind.tuple x.2 with | .ok m => some (Proc.elem m) | .error _ => none) = _; rw [hm])]
        rw [ih]
        rfl

theorem lines_all : ∀ (ms : List Msg), (∀ x ∈ ms, x.1 = 100) → (ms.map fun x => Proc.raw x.2) = meaning ms
  | [], _ => rfl
  | x :: xs, h => by
    have ih := lines_all xs fun y hy => h y (List.mem_cons_of_mem _ hy)
    have h1 := h x List.mem_cons_self
    unfold meaning
    rw [List.filterMap_cons_some (b := .raw x.2) (by unfold procOf; rw [if_pos h1]), List.map_cons, ih]
    rfl

/-- **A delivery** that is not an error adds one entry: what the messages it consumed mean. -/
theorem deliver_all {s s' : Inst} {b : Batch} {n : Nat} (hw : Receiving s) (hf : Fresh s [b]) (h : deliver s b = (s', .ok n)) (hn : s'.fatal = none) :
    s'.completed = s.completed ++ [(b.id, meaning (b.msgs.take n))] := by
  obtain ⟨hne, hid, hc⟩ := hf.2 b List.mem_cons_self
  rcases deliver_cases s b hw with e | ⟨_, h100, e⟩ | ⟨_, h68, rows, hrows, _, e⟩ | ⟨er, e, _⟩
  · rw [e] at h
    obtain ⟨l, s1, d, h1, h2, h3, h4⟩ := standardPut_ok (s := { s with state := .receiving .standardPut }) (b := b) hid h
    obtain ⟨early, l1⟩ := d
    rcases h4 with ⟨e1, e2⟩ | ⟨e1, e2⟩
    · dsimp only at e1
      subst e1
      exfalso
      have := loop_early b.msgs _ l l1 (by rw [h2])
      rw [h2, ← e2] at this
      exact this hn
    · dsimp only at e1
      subst e1
      have hloc := startAt_loc h1
      have hsf : s1.fatal = none := by
        rw [e2] at hn
        unfold finish at hn
        rw [(switchState_completed _ _).2.1] at hn
        exact hn
      obtain ⟨m, k1, k2, k3⟩ := loop_all b.msgs _ l l1 s1 (by exact hloc.1) h2 hsf
      have hfr := loop_frame0 b.msgs { s with state := .receiving .standardPut, asyncs := [] } l
      rw [h2] at hfr
      have hcomp : s1.completed = s.completed := (frame0_fields hfr.1).2.1
      have hm : n = m := by rw [h3]; dsimp only; rw [k1, hloc.2.2.2.2]; omega
      rw [e2]
      unfold finish
      rw [(switchState_completed _ _).1]
      dsimp only
      rw [hcomp, pushCompleted_fresh hc, k3, hloc.2.2.2.1, hm, List.nil_append]
  · rw [e] at h
    cases h
    dsimp only
    rw [pushCompleted_fresh hc, List.take_length, lines_all _ h100]
  · rw [e] at h
    cases h
    dsimp only
    rw [pushCompleted_fresh hc, List.take_length, parseRows_all2 _ _ hrows h68]
  · rw [e] at h
    cases h

theorem received_append (i i' : Inst) (k : Nat) (p : List Proc) (h : i'.completed = i.completed ++ [(k, p)]) : messagesReceived i' = messagesReceived i ++ p := by
  unfold messagesReceived
  rw [h, List.flatMap_append]
  simp

/-- **What a reply that completes the transaction without an error gives**: what its messages mean, however it was divided into batches. -/
theorem feed_all : ∀ (bs : List Batch) (s : Inst) (n : Nat), Fresh s bs → (feed s bs).2.1 = .ok n → (feed s bs).1.fatal = none →
    messagesReceived (feed s bs).1 = messagesReceived s ++ meaning ((allMsgs bs).take n)
  | [], s, n, _, hn, _ => by
    cases hn
    show messagesReceived s = _
    simp [meaning]
  | b :: bs, s, n, hf, hn, hft => by
    unfold feed at hn hft ⊢
    by_cases hw : Receiving s
    · rw [if_pos hw] at hn hft ⊢
      cases hd : deliver s b with
      | mk s1 r =>
        rw [hd] at hn hft
        cases r with
        | error e => cases hn
        | ok m =>
          dsimp only at hn hft ⊢
          have hfat := Fetch.feed_fatal_mono bs s1 hft
          obtain ⟨p, h1, h2, h3, h4, h5⟩ := deliver_data hw (fresh_head hf) hd hfat
          have ha := deliver_all hw (fresh_head hf) hd hfat
          cases hr : (feed s1 bs).2.1 with
          | error e => rw [hr] at hn; cases hn
          | ok k =>
            rw [hr] at hn
            cases hn
            rw [feed_all bs s1 k (fresh_next hf h5 h1) hr hft, received_append s s1 _ _ ha, List.append_assoc]
            have hall : allMsgs (b :: bs) = b.msgs ++ allMsgs bs := by simp [allMsgs]
            rw [hall]
            congr 1
            by_cases hs1 : Receiving s1
            · have hc : s1.state ≠ .complete := by obtain ⟨op, e⟩ := hs1; rw [e]; simp
              have := h4 hc
              subst this
              rw [List.take_length_add_append, List.take_length]
              simp [meaning]
            · have hk : k = 0 := by
                rw [feed_stop hs1] at hr
                cases hr
                rfl
              subst hk
              dsimp only
              rw [Nat.add_zero, List.take_append_of_le_length h3]
              simp [meaning]
    · rw [if_neg hw] at hn hft ⊢
      cases hn
      simp [meaning]

end PG.Received
