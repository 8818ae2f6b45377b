import Verif.Proofs.Reply2
/-!
# The loop accepts exactly the replies: completeness
-/
namespace PG.Xact3
open PG PG.Element3 PG.Spec.Xact PG.Spec.Reply

/-- `loop s l ms` goes on as `loop s' l' ms'`, with `n` messages consumed. -/
structure Goes (s : Inst) (l : Loc) (ms : List Msg) (s' : Inst) (l' : Loc) (ms' : List Msg) : Prop where
  eq : loop s l ms = loop s' l' ms'
  commands : s'.commands = s.commands
  count : l'.count + ms'.length = l.count + ms.length
  suffix : ms' <:+ ms

theorem Goes.refl {s l ms} : Goes s l ms s l ms := ⟨rfl, rfl, rfl, List.suffix_refl _⟩
theorem Goes.trans {s l ms s' l' ms' s'' l'' ms''} (h : Goes s l ms s' l' ms') (h' : Goes s' l' ms' s'' l'' ms'') :
    Goes s l ms s'' l'' ms'' :=
  ⟨h.eq.trans h'.eq, h'.commands.trans h.commands, h'.count.trans h.count, h'.suffix.trans h.suffix⟩

/-- The same place in the command, some more messages counted. -/
def SameLoc (l l' : Loc) : Prop := l'.offset = l.offset ∧ l'.cmd = l.cmd ∧ l'.paths = l.paths

theorem handleAsync_parse {s : Inst} {k : Kind} {x : Msg} {m} (h : parseK k x.2 = .ok m) :
    ∃ s', handleAsync s k x = .ok s' ∧ s'.commands = s.commands := by
  unfold handleAsync
  split
  · exact ⟨_, rfl, rfl⟩
  · rw [h]; exact ⟨_, rfl, rfl⟩

/-- Asynchronous messages are passed over. -/
theorem goes_asyncs {ts : List Table} {tb : Table} : ∀ (ms : List Msg) (s : Inst) (l : Loc) (x : Msg) (rest : List Msg),
    l.paths = some ts → ts[l.step]? = some tb → hookOf l.cmd = some (some ts) → AsyncsParse ms → strip ms = x :: rest →
    ∃ s' l' ms', Goes s l ms s' l' (x :: ms') ∧ SameLoc l l' ∧ l'.step = l.step ∧ strip ms' = rest ∧ AsyncsParse ms'
  | [], s, l, x, rest, _, _, _, _, h => by cases h
  | y :: ms, s, l, x, rest, hp, ht, hh, ha, h => by
    have ha' : AsyncsParse ms := fun z hz => ha z (List.mem_cons_of_mem _ hz)
    cases hk : asyncKind y.1 with
    | none =>
      rw [strip_cons_other hk] at h
      cases h
      exact ⟨s, l, ms, .refl, ⟨rfl, rfl, rfl⟩, rfl, rfl, ha'⟩
    | some k =>
      rw [strip_cons_async hk] at h
      obtain ⟨m, hm⟩ := ha y List.mem_cons_self k hk
      obtain ⟨s1, hs1, hc1⟩ := handleAsync_parse (s := s) hm
      have hf : tb.find y.1 = none := by
        cases hf : tb.find y.1 with
        | none => rfl
        | some z => rw [find_not_async hh ht hf] at hk; cases hk
      have h69 : y.1 ≠ 69 := by intro e; rw [e] at hk; cases hk
      have hr : react s.commands l.offset l.step l.cmd l.paths y = .ok (.async k) := by
        unfold react
        rw [hp]
        dsimp only
        rw [ht]
        dsimp only
        rw [hf]
        dsimp only
        rw [if_neg h69, hk]
      obtain ⟨s', l', ms', hg, ⟨h1, h2, h3⟩, h4, h5, h6⟩ := goes_asyncs ms s1 { l with count := l.count + 1 } x rest hp ht hh ha' h
      refine ⟨s', l', ms', Goes.trans ⟨?_, hc1, ?_, List.suffix_cons _ _⟩ hg, ⟨h1, h2, h3⟩, h4, h5, h6⟩
      · rw [loop_cons, hr]
        dsimp only
        rw [hs1]
      · simp only [List.length_cons]; omega

theorem Steps.valid {c : Elem} {ts : List Table} (hh : hookOf c = some (some ts)) {p st} (h : Steps c p st) :
    ∃ tb, ts[st]? = some tb := by
  have hlt : st < ts.length := by
    cases h with
    | nil => exact (hookOf_wf hh).2
    | snoc _ hh' ht hf _ =>
      rw [hh] at hh'
      cases hh'
      obtain ⟨e, he, _, h2⟩ := find_mem' hf
      exact ((hookOf_wf hh).1 _ (List.mem_of_getElem? ht) e he).1 _ (by rw [h2])
  exact ⟨_, List.getElem?_eq_getElem hlt⟩

/-- The loop follows the beginning of an answer. -/
theorem goes_steps {ts : List Table} {c : Elem} (hh : hookOf c = some (some ts)) {p st} (h : Steps c p st) :
    ∀ (ms : List Msg) (s : Inst) (l : Loc) (rest : List Msg), l.cmd = c → l.paths = some ts → l.step = 0 → AsyncsParse ms →
    strip ms = p ++ rest →
    ∃ s' l' ms', Goes s l ms s' l' ms' ∧ SameLoc l l' ∧ l'.step = st ∧ strip ms' = rest ∧ AsyncsParse ms' := by
  induction h with
  | nil =>
    intro ms s l rest hc hp h0 ha hs
    exact ⟨s, l, ms, .refl, ⟨rfl, rfl, rfl⟩, h0, hs, ha⟩
  | @snoc p st ts' tb x path n r hst hh' ht hf hcall ih =>
    rw [hh] at hh'
    cases hh'
    intro ms s l rest hc hp h0 ha hs
    obtain ⟨s1, l1, ms1, g1, ⟨a1, a2, a3⟩, b1, c1, d1⟩ := ih ms s l (x :: rest) hc hp h0 ha (by rw [hs]; simp)
    have hp1 : l1.paths = some ts := a3.trans hp
    have hc1 : l1.cmd = c := a2.trans hc
    obtain ⟨s2, l2, ms2, g2, ⟨e1, e2, e3⟩, e4, e5, e6⟩ := goes_asyncs (tb := tb) ms1 s1 l1 x rest hp1 (by rw [b1]; exact ht) (by rw [hc1]; exact hh) d1 c1
    have hr : react s2.commands l2.offset l2.step l2.cmd l2.paths x = .ok (.take r n) := by
      unfold react
      rw [e3, hp1]
      dsimp only
      rw [e4, b1, ht]
      dsimp only
      rw [hf]
      dsimp only
      rw [hcall]
    refine ⟨s2, { l2 with count := l2.count + 1, processed := l2.processed ++ [r], step := n }, ms2, (g1.trans g2).trans ⟨?_, rfl, ?_, List.suffix_cons _ _⟩,
      ⟨e1.trans a1, e2.trans a2, e3.trans a3⟩, rfl, e5, e6⟩
    · rw [loop_cons, hr]
    · simp only [List.length_cons]; omega

/-- The loop ends well, having consumed `ms.take n`, which is `w` and asynchronous messages. -/
def Ends (s : Inst) (l : Loc) (ms : List Msg) (w : List Msg) : Prop :=
  ∃ a d n, loop s l ms = (a, .ok d) ∧ GoodEnd s.commands.length a d ∧ d.loc.count = l.count + n ∧ n ≤ ms.length ∧ strip (ms.take n) = w

theorem strip_append (a b : List Msg) : strip (a ++ b) = strip a ++ strip b := List.filter_append ..

/-- Prefix the part already gone. -/
theorem Goes.ends {s l ms s' l' ms' w p} (h : Goes s l ms s' l' ms') (he : Ends s' l' ms' w) (hp : strip ms = p ++ strip ms') :
    Ends s l ms (p ++ w) := by
  obtain ⟨a, d, n, h1, h2, h3, h4, h5⟩ := he
  obtain ⟨ms0, hms⟩ := h.suffix
  have hcnt := h.count
  subst hms
  rw [List.length_append] at hcnt
  refine ⟨a, d, ms0.length + n, h.eq.trans h1, by rw [← h.commands]; exact h2, by omega, by rw [List.length_append]; omega, ?_⟩
  rw [List.take_length_add_append, strip_append, h5]
  rw [strip_append] at hp
  rw [List.append_cancel_right hp]

theorem begun_not_flush {c p} (h : Begun c p) : c ≠ .empty .flush := by
  rintro rfl
  obtain ⟨q, hq, ha⟩ := h
  generalize hw : p ++ q = w at ha
  cases ha
  exact hq (List.append_eq_nil_iff.mp hw).2

theorem react_error {cs : List Elem} {o st : Nat} {cmd : Elem} {ts : List Table} {tb : Table} {x : Msg} {p : Option (List Table)}
    (hh : hookOf cmd = some (some ts)) (hp : p = some ts) (ht : ts[st]? = some tb) (hx : IsPlainError x) (hl : cs[o]? = some cmd) :
    (SelfSync cmd → ∃ em, react cs o st cmd p x = .ok (.skip em o cmd p)) ∧
    (¬ SelfSync cmd → ∀ o', findSync (cs.drop o) o = some o' →
      ∃ em, react cs o st cmd p x = .ok (.skip em o' (.empty .synchronize) (some [[(90, .parse .ready, none)]]))) ∧
    (¬ SelfSync cmd → findSync (cs.drop o) o = none → ∃ em, react cs o st cmd p x = .ok (.lost em)) := by
  obtain ⟨sev, ⟨h69, em, hem, hsev⟩, hup⟩ := hx
  have hf : tb.find x.1 = none := by
    cases hf : tb.find x.1 with
    | none => rfl
    | some z =>
      obtain ⟨e, he, h1, _⟩ := find_mem' hf
      exact absurd (h1.trans h69) ((hookOf_wf hh).1 tb (List.mem_of_getElem? ht) e he).2.2
  have key : react cs o st cmd p x =
      if cmd.kind.typ = some 70 ∨ cmd.kind.typ = some 81 then
        match cs[o]? with
        | none => .error .indexError
        | some c => match hookOf c with
          | none => .error .keyError
          | some p => .ok (.skip em o c p)
      else match findSync (cs.drop o) o with
        | none => .ok (.lost em)
        | some o => match cs[o]? with
          | none => .error .indexError
          | some c => match hookOf c with
            | none => .error .keyError
            | some p => .ok (.skip em o c p) := by
    unfold react
    rw [hp]
    dsimp only
    rw [ht]
    dsimp only
    rw [hf]
    dsimp only
    rw [if_pos h69, hem]
    dsimp only
    rw [hsev]
    dsimp only
    rw [if_neg (fun hne => hne hup)]
    rfl
  refine ⟨fun hs => ⟨em, ?_⟩, fun hs o' ho => ⟨em, ?_⟩, fun hs ho => ⟨em, ?_⟩⟩
  · rw [key, if_pos hs.symm, hl]
    dsimp only
    rw [hh, hp]
  · rw [key, if_neg (fun e => hs e.symm), ho]
    dsimp only
    rw [((findSync_spec _ o cs rfl).1 o' ho).1]
    rfl
  · rw [key, if_neg (fun e => hs e.symm), ho]

theorem findSync_none : ∀ (r : List Elem) (o : Nat), .empty .synchronize ∉ r → findSync r o = none
  | [], _, _ => rfl
  | c :: r, o, h => by
    unfold findSync
    rw [if_neg (by rintro rfl; exact h List.mem_cons_self)]
    exact findSync_none r (o + 1) (fun hm => h (List.mem_cons_of_mem _ hm))

theorem findSync_some (r : List Elem) (o : Nat) (h : .empty .synchronize ∈ r) : ∃ o', findSync r o = some o' := by
  cases hf : findSync r o with
  | some o' => exact ⟨o', rfl⟩
  | none =>
    have hr : ((List.replicate o (Elem.empty .flush)) ++ r).drop o = r := by
      simp
    exact absurd h ((findSync_dropWhile r o _ hr).2 hf)

/-- A reply is accepted. -/
theorem reply_ends {cs : List Elem} {D : List Elem} {w : List Msg} (h : Reply D w) : ∀ (o : Nat), cs.drop o = D →
    (∀ c ∈ D, IsCommand c) →
    (∀ o', advance D o = .ok (o', none) → w = []) ∧
    (∀ o' c pt, advance D o = .ok (o', some (c, pt)) → ∀ (s : Inst) (l : Loc) (ms : List Msg), s.commands = cs → l.offset = o' →
      l.step = 0 → l.cmd = c → l.paths = some pt → AsyncsParse ms → strip ms = w → Ends s l ms w) := by
  induction h with
  | nil =>
    intro o ho _
    exact ⟨fun _ _ => rfl, fun o' c pt e => by cases e⟩
  | @answer c D a r hans hrep ih =>
    intro o ho hcm
    have hd : cs.drop (o + 1) = D := by rw [← List.drop_drop, ho]; rfl
    obtain ⟨i1, i2⟩ := ih (o + 1) hd (fun c hc => hcm c (List.mem_cons_of_mem _ hc))
    by_cases hfl : c = .empty .flush
    · subst hfl
      cases hans
      exact ⟨fun o' e => i1 o' e, fun o' c pt e => i2 o' c pt e⟩
    · have hf := ans_final hans hfl
      cases hf with
      | @mk p st ts tb x path r' hst hh ht hfd hcall =>
        have hadv : advance (c :: D) o = .ok (o, some (c, ts)) := by
          unfold advance
          rw [hh]
        rw [hadv]
        refine ⟨fun o' e => (nomatch e), fun o' c' pt e s l ms hs hlo hl0 hlc hlp ha hstrip => ?_⟩
        cases e
        obtain ⟨s1, l1, ms1, g1, ⟨a1, a2, a3⟩, b1, c1, d1⟩ := goes_steps hh hst ms s l (x :: r) hlc hlp hl0 ha (by rw [hstrip]; simp)
        have hc1 : l1.cmd = c := a2.trans hlc
        obtain ⟨s2, l2, ms2, g2, ⟨e1, e2, e3⟩, e4, e5, e6⟩ := goes_asyncs (tb := tb) ms1 s1 l1 x r (a3.trans hlp) (by rw [b1]; exact ht)
          (by rw [hc1]; exact hh) d1 c1
        have g := g1.trans g2
        have hs2 : s2.commands = cs := g.commands.trans hs
        have hx : asyncKind x.1 = none := find_not_async hh ht hfd
        have hstr : strip ms = p ++ strip (x :: ms2) := by
          rw [strip_cons_other hx, e5, hstrip]; simp
        have ho2 : l2.offset = o := e1.trans (a1.trans hlo)
        rw [List.append_assoc]
        refine g.ends (p := p) ?_ hstr
        have hreact : react s2.commands l2.offset l2.step l2.cmd l2.paths x =
            match advance D (o + 1) with
            | .error e => .error e
            | .ok (o, none) => .ok (.last r' (readyState r') o)
            | .ok (o, some (c, p)) => .ok (.next r' (readyState r') o c p) := by
          unfold react
          rw [e3, a3, hlp]
          dsimp only
          rw [e4, b1, ht]
          dsimp only
          rw [hfd]
          dsimp only
          rw [hcall, hs2, ho2, hd]
          rfl
        cases hadv2 : advance D (o + 1) with
        | error e =>
          exfalso
          have : ∀ (D : List Elem) (o : Nat), (∀ c ∈ D, IsCommand c) → ∀ e, advance D o ≠ .error e := by
            intro D
            induction D with
            | nil => intro o _ e h; cases h
            | cons c D ih =>
              intro o hcm e h
              obtain ⟨p, hp⟩ := hook_some (hcm c List.mem_cons_self)
              unfold advance at h
              rw [hp] at h
              cases p with
              | none => exact ih (o + 1) (fun c hc => hcm c (List.mem_cons_of_mem _ hc)) e h
              | some p => cases h
          exact this D (o + 1) (fun c hc => hcm c (List.mem_cons_of_mem _ hc)) e hadv2
        | ok v =>
          obtain ⟨o2, nx⟩ := v
          rw [hadv2] at hreact
          cases nx with
          | none =>
            dsimp only at hreact
            have hr0 : r = [] := i1 o2 hadv2
            subst hr0
            have hlen := (advance_spec D (o + 1) cs hd).1 o2 hadv2
            have hol : o < cs.length := by
              rcases Nat.lt_or_ge o cs.length with h | h
              · exact h
              · rw [List.drop_eq_nil_iff.mpr h] at ho; cases ho
            refine ⟨setReady s2 (readyState r'), ⟨false, { l2 with count := l2.count + 1, processed := l2.processed ++ [r'], step := 0, offset := o2, paths := none }⟩, 1, ?_, .inr ⟨rfl, ?_⟩, rfl, by simp, ?_⟩
            · rw [loop_cons, hreact]
            · dsimp only
              rw [hlen, hs2, ← hd, List.length_drop]
              omega
            · rw [List.take_succ_cons, strip_cons_other hx]; rfl
          | some cp =>
            obtain ⟨c2, pt2⟩ := cp
            dsimp only at hreact
            have hsr : (setReady s2 (readyState r')).commands = s2.commands := by cases readyState r' <;> rfl
            have hend := i2 o2 c2 pt2 hadv2 (setReady s2 (readyState r'))
              { l2 with count := l2.count + 1, processed := l2.processed ++ [r'], step := 0, offset := o2, cmd := c2, paths := some pt2 }
              ms2 (hsr.trans hs2) rfl rfl rfl rfl e6 e5
            refine Goes.ends (s := s2) (l := l2) (p := [x]) ⟨?_, hsr, ?_, List.suffix_cons _ _⟩ hend (by rw [strip_cons_other hx]; rfl)
            · rw [loop_cons, hreact]
            · simp only [List.length_cons]; omega
  | @error c D p x r hns hb hx hm hrep ih =>
    intro o ho hcm
    have hfl := begun_not_flush hb
    obtain ⟨pp, hpp⟩ := hook_some (hcm c List.mem_cons_self)
    obtain ⟨ts, rfl⟩ : ∃ ts, pp = some ts := by
      cases pp with
      | none => exact absurd (hook_none (hcm c List.mem_cons_self) hpp) hfl
      | some ts => exact ⟨ts, rfl⟩
    have hadv : advance (c :: D) o = .ok (o, some (c, ts)) := by unfold advance; rw [hpp]
    rw [hadv]
    refine ⟨fun o' e => (nomatch e), fun o' c' pt e s l ms hs hlo hl0 hlc hlp ha hstrip => ?_⟩
    cases e
    obtain ⟨st, hst⟩ := begun_steps hb
    obtain ⟨tb, ht⟩ := hst.valid hpp
    obtain ⟨s1, l1, ms1, g1, ⟨a1, a2, a3⟩, b1, c1, d1⟩ := goes_steps hpp hst ms s l (x :: r) hlc hlp hl0 ha hstrip
    obtain ⟨s2, l2, ms2, g2, ⟨e1, e2, e3⟩, e4, e5, e6⟩ := goes_asyncs (tb := tb) ms1 s1 l1 x r (a3.trans hlp) (by rw [b1]; exact ht)
      (by rw [a2, hlc]; exact hpp) d1 c1
    have g := g1.trans g2
    have hs2 : s2.commands = cs := g.commands.trans hs
    have hxa := isErr_type hx
    refine g.ends (p := p) ?_ (by rw [strip_cons_other hxa, e5, hstrip])
    obtain ⟨oy, hoy⟩ := findSync_some (c :: D) o hm
    have hco : cs[o]? = some c := by
      have := congrArg (fun l => l[0]?) ho
      simpa using this
    obtain ⟨em, hreact⟩ := (react_error (cs := cs) (o := o) hpp rfl ht hx hco).2.1 hns oy (by rw [ho]; exact hoy)
    have hreact' : react s2.commands l2.offset l2.step l2.cmd l2.paths x = .ok (.skip em oy (.empty .synchronize) (some [[(90, .parse .ready, none)]])) := by
      rw [hs2, e1, a1, hlo, e4, b1, e2, a2, hlc, e3, a3, hlp]; exact hreact
    obtain ⟨_, hdw⟩ := (findSync_dropWhile (c :: D) o cs ho).1 oy hoy
    have hsy := ((findSync_spec (c :: D) o cs ho).1 oy hoy).1
    have hoylt : oy < cs.length := by
      rcases Nat.lt_or_ge oy cs.length with h | h
      · exact h
      · rw [List.getElem?_eq_none h] at hsy; cases hsy
    have hadv2 : advance ((c :: D).dropWhile (· ≠ .empty .synchronize)) oy = .ok (oy, some (.empty .synchronize, [[(90, .parse .ready, none)]])) := by
      rw [← hdw, List.drop_eq_getElem_cons hoylt]
      rw [List.getElem?_eq_getElem hoylt] at hsy
      rw [Option.some.inj hsy]
      rfl
    have hend := (ih oy hdw (fun c hc => hcm c ((List.dropWhile_sublist _).subset hc))).2 oy _ _ hadv2
      { s2 with fatal := some false, errorMessage := some (.server em) }
      { l2 with count := l2.count + 1, offset := oy, cmd := .empty .synchronize, paths := some [[(90, .parse .ready, none)]], step := 0 }
      ms2 hs2 rfl rfl rfl rfl e6 e5
    refine Goes.ends (s := s2) (l := l2) (s' := { s2 with fatal := some false, errorMessage := some (.server em) }) (p := [x]) ⟨?_, rfl, ?_, List.suffix_cons _ _⟩ hend (by rw [strip_cons_other hxa]; rfl)
    · rw [loop_cons, hreact']
    · simp only [List.length_cons]; omega
  | @lost c D p x hns hb hx hm =>
    intro o ho hcm
    have hfl := begun_not_flush hb
    obtain ⟨pp, hpp⟩ := hook_some (hcm c List.mem_cons_self)
    obtain ⟨ts, rfl⟩ : ∃ ts, pp = some ts := by
      cases pp with
      | none => exact absurd (hook_none (hcm c List.mem_cons_self) hpp) hfl
      | some ts => exact ⟨ts, rfl⟩
    have hadv : advance (c :: D) o = .ok (o, some (c, ts)) := by unfold advance; rw [hpp]
    rw [hadv]
    refine ⟨fun o' e => (nomatch e), fun o' c' pt e s l ms hs hlo hl0 hlc hlp ha hstrip => ?_⟩
    cases e
    obtain ⟨st, hst⟩ := begun_steps hb
    obtain ⟨tb, ht⟩ := hst.valid hpp
    obtain ⟨s1, l1, ms1, g1, ⟨a1, a2, a3⟩, b1, c1, d1⟩ := goes_steps hpp hst ms s l [x] hlc hlp hl0 ha hstrip
    obtain ⟨s2, l2, ms2, g2, ⟨e1, e2, e3⟩, e4, e5, e6⟩ := goes_asyncs (tb := tb) ms1 s1 l1 x [] (a3.trans hlp) (by rw [b1]; exact ht)
      (by rw [a2, hlc]; exact hpp) d1 c1
    have g := g1.trans g2
    have hs2 : s2.commands = cs := g.commands.trans hs
    have hxa := isErr_type hx
    refine g.ends (p := p) ?_ (by rw [strip_cons_other hxa, e5, hstrip])
    have hco : cs[o]? = some c := by
      have := congrArg (fun l => l[0]?) ho
      simpa using this
    obtain ⟨em, hreact⟩ := (react_error (cs := cs) (o := o) hpp rfl ht hx hco).2.2 hns (by rw [ho]; exact findSync_none _ _ hm)
    have hreact' : react s2.commands l2.offset l2.step l2.cmd l2.paths x = .ok (.lost em) := by
      rw [hs2, e1, a1, hlo, e4, b1, e2, a2, hlc, e3, a3, hlp]; exact hreact
    refine ⟨{ s2 with fatal := some false, errorMessage := some (.server em), state := .complete }, ⟨true, { l2 with count := l2.count + 1 }⟩, 1, ?_, .inl ⟨rfl, rfl⟩, rfl, by simp, ?_⟩
    · rw [loop_cons, hreact']
    · rw [List.take_succ_cons, strip_cons_other hxa]; rfl
  | @queryError q D p x r hb hx hrep ih =>
    intro o ho hcm
    have hadv : advance (.str .query q :: D) o = .ok (o, some (.str .query q, qTable)) := rfl
    rw [hadv]
    refine ⟨fun o' e => (nomatch e), fun o' c' pt e s l ms hs hlo hl0 hlc hlp ha hstrip => ?_⟩
    cases e
    obtain ⟨st, hst⟩ := begun_steps hb
    obtain ⟨tb, ht⟩ := hst.valid (ts := qTable) rfl
    obtain ⟨s1, l1, ms1, g1, ⟨a1, a2, a3⟩, b1, c1, d1⟩ := goes_steps (ts := qTable) rfl hst ms s l (x :: r) hlc hlp hl0 ha hstrip
    obtain ⟨s2, l2, ms2, g2, ⟨e1, e2, e3⟩, e4, e5, e6⟩ := goes_asyncs (tb := tb) ms1 s1 l1 x r (a3.trans hlp) (by rw [b1]; exact ht)
      (by rw [a2, hlc]; rfl) d1 c1
    have g := g1.trans g2
    have hs2 : s2.commands = cs := g.commands.trans hs
    have hxa := isErr_type hx
    refine g.ends (p := p) ?_ (by rw [strip_cons_other hxa, e5, hstrip])
    have hco : cs[o]? = some (.str .query q) := by
      have := congrArg (fun l => l[0]?) ho
      simpa using this
    obtain ⟨em, hreact⟩ := (react_error (cs := cs) (o := o) (cmd := .str .query q) (ts := qTable) rfl rfl ht hx hco).1 (.inl rfl)
    have hreact' : react s2.commands l2.offset l2.step l2.cmd l2.paths x = .ok (.skip em o (.str .query q) (some qTable)) := by
      rw [hs2, e1, a1, hlo, e4, b1, e2, a2, hlc, e3, a3, hlp]; exact hreact
    have hend := (ih o ho hcm).2 o _ _ hadv
      { s2 with fatal := some false, errorMessage := some (.server em) }
      { l2 with count := l2.count + 1, offset := o, cmd := .str .query q, paths := some qTable, step := 0 }
      ms2 hs2 rfl rfl rfl rfl e6 e5
    refine Goes.ends (s := s2) (l := l2) (s' := { s2 with fatal := some false, errorMessage := some (.server em) }) (p := [x]) ⟨?_, rfl, ?_, List.suffix_cons _ _⟩ hend (by rw [strip_cons_other hxa]; rfl)
    · rw [loop_cons, hreact']
    · simp only [List.length_cons]; omega

end PG.Xact3
