import Verif.Proofs.Reply
/-!
# The loop accepts exactly the replies: soundness
-/
namespace PG.Xact3
open PG PG.Element3 PG.Spec.Xact PG.Spec.Reply

/-- How `react` came to handle an error message. -/
theorem react_err {cs o st cmd p} {x : Msg} {a : React} (h : react cs o st cmd p x = .ok a) (hl : cs[o]? = some cmd)
    (hp : hookOf cmd = some p) :
    (∀ em, a = .lost em → IsPlainError x ∧ ¬ SelfSync cmd ∧ findSync (cs.drop o) o = none) ∧
    (∀ em o' c q, a = .skip em o' c q → IsPlainError x ∧ hookOf c = some q ∧
      ((SelfSync cmd ∧ o' = o ∧ c = cmd) ∨ (¬ SelfSync cmd ∧ findSync (cs.drop o) o = some o' ∧ c = .empty .synchronize))) := by
  unfold react at h
  split at h
  · cases h
  split at h
  · cases h
  split at h
  · split at h
    · rename_i h69
      split at h
      · rename_i em hem
        split at h
        · cases h
        · cases h
        · rename_i sev hsev
          split at h
          · cases h; exact ⟨fun _ e => (nomatch e), fun _ _ _ _ e => (nomatch e)⟩
          · rename_i hup
            have hpe : IsPlainError x := ⟨sev, ⟨h69, em, hem, hsev⟩, Decidable.not_not.mp hup⟩
            split at h
            · rename_i hss
              have hss' : SelfSync cmd := hss.symm
              rw [hl] at h
              dsimp only at h
              rw [hp] at h
              cases h
              refine ⟨fun _ e => (nomatch e), fun em' o' c q e => ?_⟩
              cases e
              exact ⟨hpe, hp, .inl ⟨hss', rfl, rfl⟩⟩
            · rename_i hss
              have hss' : ¬ SelfSync cmd := fun e => hss e.symm
              split at h
              · rename_i hfs
                cases h
                exact ⟨fun em' e => ⟨hpe, hss', hfs⟩, fun _ _ _ _ e => (nomatch e)⟩
              · rename_i o' hfs
                obtain ⟨hsy, _, _⟩ := (findSync_spec _ o cs rfl).1 o' hfs
                rw [hsy] at h
                cases h
                refine ⟨fun _ e => (nomatch e), fun em' o'' c q e => ?_⟩
                cases e
                exact ⟨hpe, rfl, .inr ⟨hss', hfs, rfl⟩⟩
      · cases h
      · cases h
    · split at h <;> cases h <;> exact ⟨fun _ e => (nomatch e), fun _ _ _ _ e => (nomatch e)⟩
  · split at h
    · cases h
    · split at h
      · cases h; exact ⟨fun _ e => (nomatch e), fun _ _ _ _ e => (nomatch e)⟩
      · split at h
        · cases h
        · cases h; exact ⟨fun _ e => (nomatch e), fun _ _ _ _ e => (nomatch e)⟩
        · cases h; exact ⟨fun _ e => (nomatch e), fun _ _ _ _ e => (nomatch e)⟩

/-- `findSync` and the specification's way of finding the next Synchronize. -/
theorem findSync_dropWhile : ∀ (r : List Elem) (o : Nat) (cs : List Elem), cs.drop o = r →
    (∀ o', findSync r o = some o' → .empty .synchronize ∈ r ∧ cs.drop o' = r.dropWhile (· ≠ .empty .synchronize)) ∧
    (findSync r o = none → .empty .synchronize ∉ r)
  | [], o, cs, h => ⟨fun o' h => (nomatch h), fun _ => by simp⟩
  | c :: r, o, cs, h => by
    have hd : cs.drop (o + 1) = r := by rw [← List.drop_drop, h]; rfl
    obtain ⟨i, j⟩ := findSync_dropWhile r (o + 1) cs hd
    unfold findSync
    by_cases e : c = .empty .synchronize
    · rw [if_pos e]
      refine ⟨fun o' h' => ?_, fun h => (nomatch h)⟩
      cases h'
      refine ⟨by rw [e]; exact List.mem_cons_self, ?_⟩
      rw [List.dropWhile_cons_of_neg (by simp [e]), h]
    · rw [if_neg e]
      refine ⟨fun o' h' => ?_, fun h' hm => ?_⟩
      · obtain ⟨a, b⟩ := i o' h'
        refine ⟨List.mem_cons_of_mem _ a, ?_⟩
        rw [List.dropWhile_cons_of_pos (by simpa using e)]
        exact b
      · rcases List.mem_cons.mp hm with h1 | h1
        · exact e h1.symm
        · exact j h' h1

theorem hook_none {c : Elem} (hc : IsCommand c) (h : hookOf c = some none) : c = .empty .flush := by
  cases c with
  | str k d => cases k <;> first | cases h | cases hc
  | empty k => cases k <;> first | rfl | cases h | cases hc
  | parse | bind | execute | function => cases h
  | tuple | copyData | complete | error | copyToBegin | notify | showOption | ready | notice | functionResult | attributeTypes
  | tupleDescriptor | killInformation | cancelRequest | negotiateSSL | startup | authentication | copyFromBegin => cases hc

theorem hook_some {c : Elem} (hc : IsCommand c) : ∃ p, hookOf c = some p := by
  cases c with
  | str k d => cases k <;> first | exact ⟨_, rfl⟩ | cases hc
  | empty k => cases k <;> first | exact ⟨_, rfl⟩ | cases hc
  | parse | bind | execute | function => exact ⟨_, rfl⟩
  | tuple | copyData | complete | error | copyToBegin | notify | showOption | ready | notice | functionResult | attributeTypes
  | tupleDescriptor | killInformation | cancelRequest | negotiateSSL | startup | authentication | copyFromBegin => cases hc

/-- Going to the next command skips Flush messages only. -/
theorem advance_reply : ∀ (r : List Elem) (o : Nat) (cs : List Elem), cs.drop o = r → (∀ c ∈ r, IsCommand c) →
    (∀ o', advance r o = .ok (o', none) → Reply r []) ∧
    (∀ o' c p w, advance r o = .ok (o', some (c, p)) → Reply (cs.drop o') w → Reply r w)
  | [], o, cs, _, _ => ⟨fun o' h => .nil, fun o' c p w h => by cases h⟩
  | c :: r, o, cs, h, hcm => by
    have hd : cs.drop (o + 1) = r := by rw [← List.drop_drop, h]; rfl
    obtain ⟨i, j⟩ := advance_reply r (o + 1) cs hd (fun c hc => hcm c (List.mem_cons_of_mem _ hc))
    unfold advance
    cases hk : hookOf c with
    | none => exact ⟨fun _ e => (nomatch e), fun _ _ _ _ e => (nomatch e)⟩
    | some q =>
      cases q with
      | none =>
        have hfl := hook_none (hcm c List.mem_cons_self) hk
        subst hfl
        exact ⟨fun o' e => .answer (a := []) .flush (i o' e), fun o' c p w e hw => .answer (a := []) .flush (j o' c p w e hw)⟩
      | some p =>
        refine ⟨fun _ e => (nomatch e), fun o' c' p' w e hw => ?_⟩
        cases e
        rw [h] at hw
        exact hw

/-- The command is not a function call. -/
def NoFunction (c : Elem) : Prop := c.kind.typ ≠ some 70

theorem selfSync_query {c : Elem} (hc : IsCommand c) (hf : NoFunction c) (h : SelfSync c) : ∃ q, c = .str .query q := by
  rcases h with h | h
  · cases c with
    | str k d => cases k <;> first | exact ⟨_, rfl⟩ | cases h
    | empty k => cases k <;> first | cases h | cases hc
    | parse | bind | execute | function => cases h
    | tuple | copyData | complete | error | copyToBegin | notify | showOption | ready | notice | functionResult | attributeTypes
    | tupleDescriptor | killInformation | cancelRequest | negotiateSSL | startup | authentication | copyFromBegin => cases hc
  · exact absurd h hf

theorem strip_cons_async {x : Msg} {xs : List Msg} {k} (h : asyncKind x.1 = some k) : strip (x :: xs) = strip xs := by
  unfold strip
  rw [List.filter_cons_of_neg]
  rw [h]; simp

theorem strip_cons_other {x : Msg} {xs : List Msg} (h : asyncKind x.1 = none) : strip (x :: xs) = x :: strip xs := by
  unfold strip
  rw [List.filter_cons_of_pos]
  rw [h]; rfl

/-- Facts about all tables: the steps they lead to exist, the types they list are neither error nor asynchronous. -/
theorem hook_wf {ty : UInt8} {ts : List Table} (h : hook ty = some (some ts)) :
    (∀ tb ∈ ts, ∀ e ∈ tb, (∀ n, e.2.2 = some n → n < ts.length) ∧ asyncKind e.1 = none ∧ e.1 ≠ 69) ∧ 0 < ts.length := by
  have dec : ∀ ts : List Table, (ts.all (fun tb => tb.all (fun e => (match e.2.2 with | some n => decide (n < ts.length) | none => true) &&
      (asyncKind e.1).isNone && e.1 != 69)) && decide (0 < ts.length)) = true →
      (∀ tb ∈ ts, ∀ e ∈ tb, (∀ n, e.2.2 = some n → n < ts.length) ∧ asyncKind e.1 = none ∧ e.1 ≠ 69) ∧ 0 < ts.length := by
    intro ts h
    rw [Bool.and_eq_true, List.all_eq_true] at h
    refine ⟨fun tb htb e he => ?_, by simpa using h.2⟩
    have := List.all_eq_true.mp (h.1 tb htb) e he
    simp only [Bool.and_eq_true, Option.isNone_iff_eq_none, bne_iff_ne] at this
    refine ⟨fun n hn => ?_, this.1.2, this.2⟩
    have h1 := this.1.1
    rw [hn] at h1
    simpa using h1
  unfold hook at h
  split at h <;> first | (cases h; exact dec _ (by decide)) | cases h

theorem hookOf_wf {c : Elem} {ts : List Table} (h : hookOf c = some (some ts)) :
    (∀ tb ∈ ts, ∀ e ∈ tb, (∀ n, e.2.2 = some n → n < ts.length) ∧ asyncKind e.1 = none ∧ e.1 ≠ 69) ∧ 0 < ts.length := by
  unfold hookOf at h
  split at h
  · exact hook_wf h
  · cases h

theorem find_mem' {t : Table} {ty : UInt8} {y} (h : t.find ty = some y) : ∃ e ∈ t, e.1 = ty ∧ e.2 = y := by
  unfold Table.find at h
  cases hf : List.find? (fun e => e.1 == ty) t with
  | none => rw [hf] at h; cases h
  | some e =>
    rw [hf] at h
    cases h
    have h1 := List.find?_some hf
    exact ⟨e, List.mem_of_find?_eq_some hf, by simpa using h1, rfl⟩

theorem find_not_async {c : Elem} {ts : List Table} {tb : Table} {st : Nat} {x : Msg} {y} (hh : hookOf c = some (some ts)) (ht : ts[st]? = some tb)
    (hf : tb.find x.1 = some y) : asyncKind x.1 = none := by
  obtain ⟨e, he, h1, _⟩ := find_mem' hf
  rw [← h1]
  exact ((hookOf_wf hh).1 tb (List.mem_of_getElem? ht) e he).2.1

/-- How a delivery ends when the whole reply came without a fatal error. -/
def GoodEnd (N : Nat) (a : Inst) (d : Done) : Prop :=
  (d.early = true ∧ a.fatal = some false) ∨ (d.early = false ∧ d.loc.offset = N)

theorem isErr_type {x : Msg} (h : IsPlainError x) : asyncKind x.1 = none := by
  obtain ⟨_, h, _⟩ := h
  rw [h.1]; rfl

/-- What the loop accepts is a reply. -/
theorem loop_sound {cs : List Elem} (hcm : ∀ c ∈ cs, IsCommand c ∧ NoFunction c) : ∀ (ms : List Msg) (s : Inst) (l : Loc)
    (p : List Msg) (ts : List Table) (a : Inst) (d : Done), s.commands = cs → cs[l.offset]? = some l.cmd →
    hookOf l.cmd = some (some ts) → l.paths = some ts → Steps l.cmd p l.step → loop s l ms = (a, .ok d) → GoodEnd cs.length a d →
    ∃ n, n ≤ ms.length ∧ d.loc.count = l.count + n ∧ Reply (cs.drop l.offset) (p ++ strip (ms.take n))
  | [], s, l, p, ts, a, d, hs, hl, hh, hp, hst, h, hg => by
    cases h
    rcases hg with ⟨h1, _⟩ | ⟨_, h2⟩
    · cases h1
    · dsimp only at h2
      rw [h2, List.getElem?_eq_none (Nat.le_refl _)] at hl
      cases hl
  | x :: xs, s, l, p, ts, a, d, hs, hl, hh, hp, hst, h, hg => by
    rw [loop_cons] at h
    have hmem : l.cmd ∈ cs := List.mem_of_getElem? hl
    obtain ⟨hic, hnf⟩ := hcm _ hmem
    have hnfl : l.cmd ≠ .empty .flush := by intro e; rw [e] at hh; cases hh
    have hlt : l.offset < cs.length := by
      rcases Nat.lt_or_ge l.offset cs.length with h | h
      · exact h
      · rw [List.getElem?_eq_none h] at hl; cases hl
    have hdrop : cs.drop l.offset = l.cmd :: cs.drop (l.offset + 1) := by
      rw [List.drop_eq_getElem_cons hlt]
      rw [List.getElem?_eq_getElem hlt] at hl
      rw [Option.some.inj hl]
    cases hr : react s.commands l.offset l.step l.cmd l.paths x with
    | error e => rw [hr] at h; cases h
    | ok r =>
      rw [hr] at h
      rw [hs] at hr
      obtain ⟨eL, eS⟩ := react_err hr hl (by rw [hp]; exact hh)
      obtain ⟨pT, pN, pL⟩ := react_processed hr
      cases r with
      | violation ex =>
        cases h
        rcases hg with ⟨_, h2⟩ | ⟨h1, _⟩
        · cases h2
        · cases h1
      | fatal em =>
        cases h
        rcases hg with ⟨_, h2⟩ | ⟨h1, _⟩
        · cases h2
        · cases h1
      | lost em =>
        cases h
        obtain ⟨hx, hns, hfs⟩ := eL em rfl
        refine ⟨1, by simp, rfl, ?_⟩
        have hno := (findSync_dropWhile _ l.offset cs rfl).2 hfs
        rw [hdrop] at hno ⊢
        have : strip ((x :: xs).take 1) = [x] := by
          rw [List.take_succ_cons, strip_cons_other (isErr_type hx)]; rfl
        rw [this]
        exact .lost hns (steps_begun hic hnfl hst) hx hno
      | skip em o c q =>
        dsimp only at h
        obtain ⟨hx, hhq, hcase⟩ := eS em o c q rfl
        rcases hcase with ⟨hss, rfl, rfl⟩ | ⟨hns, hfs, rfl⟩
        · rw [hh] at hhq
          cases hhq
          obtain ⟨n, hn, hcnt, hrep⟩ := loop_sound hcm xs { s with fatal := some false, errorMessage := some (.server em) }
            { l with count := l.count + 1, offset := l.offset, cmd := l.cmd, paths := some ts, step := 0 } [] ts a d hs hl hh rfl .nil h hg
          refine ⟨n + 1, by simpa using hn, by rw [hcnt]; dsimp only; omega, ?_⟩
          obtain ⟨q, hq⟩ := selfSync_query hic hnf hss
          rw [List.take_succ_cons, strip_cons_other (isErr_type hx)]
          dsimp only at hrep
          rw [hdrop] at hrep ⊢
          have hb := steps_begun hic hnfl hst
          rw [hq] at hb hrep ⊢
          exact .queryError hb hx hrep
        · cases hhq
          obtain ⟨hsy, _, _⟩ := (findSync_spec _ l.offset cs rfl).1 o hfs
          obtain ⟨n, hn, hcnt, hrep⟩ := loop_sound hcm xs { s with fatal := some false, errorMessage := some (.server em) }
            { l with count := l.count + 1, offset := o, cmd := .empty .synchronize, paths := some [[(90, .parse .ready, none)]], step := 0 } [] _ a d hs hsy rfl rfl .nil h hg
          refine ⟨n + 1, by simpa using hn, by rw [hcnt]; dsimp only; omega, ?_⟩
          obtain ⟨h1, h2⟩ := (findSync_dropWhile _ l.offset cs rfl).1 o hfs
          rw [List.take_succ_cons, strip_cons_other (isErr_type hx)]
          dsimp only at hrep
          rw [h2] at hrep
          rw [hdrop] at h1 hrep ⊢
          exact .error hns (steps_begun hic hnfl hst) hx h1 hrep
      | async k =>
        have hk := react_async_kind hr
        dsimp only at h
        cases ha : handleAsync s k x with
        | error e => rw [ha] at h; cases h
        | ok s' =>
          rw [ha] at h
          dsimp only at h
          have hs' : s'.commands = cs := by
            unfold handleAsync at ha
            split at ha
            · cases ha; exact hs
            · split at ha
              · cases ha; exact hs
              · cases ha
          obtain ⟨n, hn, hcnt, hrep⟩ := loop_sound hcm xs s' { l with count := l.count + 1 } p ts a d hs' hl hh hp hst h hg
          refine ⟨n + 1, by simpa using hn, by rw [hcnt]; dsimp only; omega, ?_⟩
          rw [List.take_succ_cons, strip_cons_async hk]
          exact hrep
      | take r n =>
        dsimp only at h
        obtain ⟨ts', tb, path, e1, e2, e3, e4⟩ := pT r n rfl
        rw [hp] at e1
        cases e1
        obtain ⟨m, hm, hcnt, hrep⟩ := loop_sound hcm xs s { l with count := l.count + 1, processed := l.processed ++ [r], step := n }
          (p ++ [x]) ts a d hs hl hh hp (.snoc hst hh e2 e3 e4) h hg
        refine ⟨m + 1, by simpa using hm, by rw [hcnt]; dsimp only; omega, ?_⟩
        rw [List.take_succ_cons, strip_cons_other (find_not_async hh e2 e3)]
        simpa using hrep
      | next r rd o c q =>
        dsimp only at h
        obtain ⟨ts', tb, path, e1, e2, e3, e4, _, e6⟩ := pN r rd o c q rfl
        rw [hp] at e1
        cases e1
        obtain ⟨hco, hhc, _⟩ := (advance_spec _ (l.offset + 1) cs rfl).2 _ _ _ e6
        have hsr : (setReady s rd).commands = cs := by cases rd <;> exact hs
        obtain ⟨m, hm, hcnt, hrep⟩ := loop_sound hcm xs (setReady s rd)
          { l with count := l.count + 1, processed := l.processed ++ [r], step := 0, offset := o, cmd := c, paths := some q }
          [] q a d hsr hco hhc rfl .nil h hg
        refine ⟨m + 1, by simpa using hm, by rw [hcnt]; dsimp only; omega, ?_⟩
        have hrest := (advance_reply _ (l.offset + 1) cs rfl (fun c hc => (hcm c (List.mem_of_mem_drop hc)).1)).2 _ _ _ _ e6 hrep
        rw [List.take_succ_cons, strip_cons_other (find_not_async hh e2 e3), hdrop]
        have := Reply.answer (final_ans hic (.mk hst hh e2 e3 e4)) hrest
        simpa using this
      | last r rd o =>
        cases h
        obtain ⟨ts', tb, path, e1, e2, e3, e4, _, e6⟩ := pL r rd o rfl
        rw [hp] at e1
        cases e1
        refine ⟨1, by simp, rfl, ?_⟩
        have hrest := (advance_reply _ (l.offset + 1) cs rfl (fun c hc => (hcm c (List.mem_of_mem_drop hc)).1)).1 _ e6
        rw [List.take_succ_cons, strip_cons_other (find_not_async hh e2 e3), hdrop]
        have := Reply.answer (final_ans hic (.mk hst hh e2 e3 e4)) hrest
        simpa [strip] using this

end PG.Xact3
