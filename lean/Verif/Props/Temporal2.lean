import Verif.Props.Temporal
/-!
# C67: sandboxes
-/
namespace PG.Props.Temporal
open PG PG.Temporal

theorem op_ok {W : World} {s s' : St} {a : Unit} (h : op W s = (.ok a, s')) : s' = { s with ops := s.ops + 1 } := by
  unfold op at h
  cases hw : W s.ops with
  | none => rw [hw] at h; cases h; rfl
  | some e => rw [hw] at h; cases h

theorem bind_ok {α β : Type} {m : M α} {k : α → M β} {W : World} {s s' : St} {b : β} (h : (m >>= k) W s = (.ok b, s')) : ∃ a t, m W s = (.ok a, t) ∧ k a W t = (.ok b, s') := by
  rw [bind_eq] at h
  cases hm : m W s with
  | mk e t =>
    rw [hm] at h
    cases e with
    | error e => cases h
    | ok a => exact ⟨a, t, rfl, h⟩

/-- A state after a context began. -/
def begun (s : St) (n : Nat) : St := { s with
  stack := ⟨locals s.conns, some s.conns, []⟩ :: bottom s
  builtins := update s.builtins (locals s.conns)
  kept := (s.conns, s.sandbox + 1) :: s.kept
  sandbox := s.sandbox + 1
  opened := s.conns :: s.opened
  schemas := (s.sandbox + 1) :: s.schemas
  paths := PyDict.set s.conns ((s.sandbox + 1) :: (PyDict.get s.conns s.paths).getD []) s.paths
  conns := s.conns + 1
  ops := n }

theorem connect_ok {W : World} {s s' : St} {c : Nat} (h : connect W s = (.ok c, s')) : c = s.conns ∧ s' = { s with conns := s.conns + 1, opened := s.conns :: s.opened, ops := s.ops + 1 } := by
  unfold connect at h
  obtain ⟨_, t, h1, h⟩ := bind_ok h
  rw [op_ok h1] at h
  cases h
  exact ⟨rfl, rfl⟩

theorem push_ok {W : World} {s s' : St} {a : Unit} (h : push W s = (.ok a, s')) : s' = { s with
    stack := ⟨locals s.conns, some s.conns, []⟩ :: bottom s
    builtins := update s.builtins (locals s.conns)
    kept := (s.conns, s.sandbox + 1) :: s.kept
    sandbox := s.sandbox + 1
    opened := s.conns :: s.opened
    conns := s.conns + 1
    ops := s.ops + 1 } := by
  unfold push at h
  obtain ⟨c, t, h1, h⟩ := bind_ok h
  obtain ⟨rfl, g1⟩ := connect_ok h1
  rw [g1] at h
  cases h
  rfl

theorem create_ok {W : World} {n : Nat} {s s' : St} {a : Unit} (h : createSchema n W s = (.ok a, s')) : n ∉ s.schemas ∧ s' = { s with schemas := n :: s.schemas, ops := s.ops + 1 } := by
  unfold createSchema at h
  obtain ⟨_, t, h1, h⟩ := bind_ok h
  rw [op_ok h1] at h
  obtain ⟨u, v, h2, h⟩ := bind_ok h
  cases h2
  by_cases g : s.schemas.contains n = true
  · rw [if_pos g] at h; cases h
  · rw [if_neg g] at h
    cases h
    exact ⟨fun m => g (List.contains_iff_mem.mpr m), rfl⟩

theorem setPath_ok {W : World} {c n : Nat} {s s' : St} {a : Unit} (h : setPath c n W s = (.ok a, s')) :
    s' = { s with paths := PyDict.set c (n :: (PyDict.get c s.paths).getD []) s.paths, ops := s.ops + 2 } := by
  unfold setPath at h
  obtain ⟨_, t, h1, h⟩ := bind_ok h
  rw [op_ok h1] at h
  obtain ⟨_, u, h2, h⟩ := bind_ok h
  rw [op_ok h2] at h
  cases h
  rfl

theorem enter_ok {W : World} {s s' : St} {a : Unit} (h : enter W s = (.ok a, s')) : s.sandbox + 1 ∉ s.schemas ∧ s' = begun s (s.ops + 5) := by
  unfold enter at h
  obtain ⟨_, t, h1, h⟩ := bind_ok h
  rw [op_ok h1] at h
  obtain ⟨_, u, h2, h⟩ := bind_ok h
  have h2 := push_ok h2
  obtain ⟨v, w, h3, h⟩ := bind_ok h
  cases h3
  unfold initOrPop at h
  cases hi : initC (current u) W u with
  | mk e x =>
    rw [hi] at h
    cases e with
    | ok _ =>
      cases h
      unfold initC at hi
      obtain ⟨y, z, h4, hi⟩ := bind_ok hi
      cases h4
      obtain ⟨_, q, h5, hi⟩ := bind_ok hi
      obtain ⟨c1, c2⟩ := create_ok h5
      have hp := setPath_ok hi
      rw [c2, h2] at hp
      rw [h2] at c1
      exact ⟨c1, hp⟩
    | error e =>
      cases e with
      | interrupt => cases h
      | exception =>
        dsimp only at h
        cases hq : pop (some .exception) W x with
        | mk y z => rw [hq] at h; cases y <;> cases h

/-! ## What happens when every operation is made -/

theorem op_fine {W : World} (hW : Fine W) (s : St) : op W s = (.ok (), { s with ops := s.ops + 1 }) := by
  unfold op
  rw [hW]

theorem connect_fine {W : World} (hW : Fine W) (s : St) : connect W s = (.ok s.conns, { s with conns := s.conns + 1, opened := s.conns :: s.opened, ops := s.ops + 1 }) := by
  unfold connect
  rw [bind_eq, op_fine hW]
  rfl

theorem setPath_fine {W : World} (hW : Fine W) (c n : Nat) (s : St) :
    setPath c n W s = (.ok (), { s with paths := PyDict.set c (n :: (PyDict.get c s.paths).getD []) s.paths, ops := s.ops + 2 }) := by
  unfold setPath
  rw [bind_eq, op_fine hW]
  show ((op >>= fun _ => modify _) : M Unit) W _ = _
  rw [bind_eq, op_fine hW]
  rfl

theorem shut_fine {W : World} (hW : Fine W) (c : Nat) (s : St) : ∃ n, shut c W s = (.ok (), { s with opened := s.opened.filter (· ≠ c), ops := n }) := by
  unfold shut
  rw [bind_eq]
  show ∃ n, ((if s.opened.contains c then op >>= fun _ => op >>= fun _ => modify _ else op >>= fun _ => modify _) : M Unit) W s = _
  by_cases h : s.opened.contains c = true
  · rw [if_pos h, bind_eq, op_fine hW]
    show ∃ n, ((op >>= fun _ => modify _) : M Unit) W _ = _
    rw [bind_eq, op_fine hW]
    exact ⟨_, rfl⟩
  · rw [if_neg h, bind_eq, op_fine hW]
    exact ⟨_, rfl⟩

theorem shutAll_fine {W : World} (hW : Fine W) : ∀ (l : List Nat) (s : St), ∃ n o, shutAll l W s = (.ok (), { s with opened := o, ops := n }) ∧ ∀ x, x ∈ o ↔ x ∈ s.opened ∧ x ∉ l
  | [], s => ⟨s.ops, s.opened, rfl, fun x => by simp⟩
  | c :: l, s => by
    obtain ⟨n, h⟩ := shut_fine hW c s
    obtain ⟨m, o, g1, g2⟩ := shutAll_fine hW l { s with opened := s.opened.filter (· ≠ c), ops := n }
    refine ⟨m, o, ?_, fun x => ?_⟩
    · show (shut c >>= fun _ => shutAll l) W s = _
      rw [bind_eq, h]
      exact g1
    · rw [g2]
      simp only [List.mem_filter, List.mem_cons, decide_eq_true_eq, not_or]
      exact and_assoc

theorem dropSandbox_fine {W : World} (hW : Fine W) (s : St) (h : s.sandbox + 1 ∈ s.schemas) (ho : ∀ x ∈ s.opened, x < s.conns) :
    ∃ n o, dropSandbox W s = (.ok (), { s with schemas := s.schemas.filter (· ≠ s.sandbox + 1), conns := s.conns + 1, opened := o, ops := n }) ∧ ∀ x, x ∈ o ↔ x ∈ s.opened := by
  refine ⟨s.ops + 2, (s.conns :: s.opened).filter (· ≠ s.conns), ?_, fun x => ?_⟩
  · unfold dropSandbox
    rw [bind_eq]
    show (connect >>= fun c => closing c (dropSchema (s.sandbox + 1))) W s = _
    rw [bind_eq, connect_fine hW]
    show closing s.conns (dropSchema (s.sandbox + 1)) W _ = _
    unfold closing dropSchema
    rw [bind_eq, op_fine hW]
    have c : s.schemas.contains (s.sandbox + 1) = true := List.contains_iff_mem.mpr h
    show (match (if s.schemas.contains (s.sandbox + 1) then modify _ else raise .exception : M Unit) W _ with
      | (r, t) => (r, { t with opened := t.opened.filter (· ≠ s.conns) })) = _
    rw [if_pos c]
    rfl
  · simp only [List.mem_filter, List.mem_cons, decide_eq_true_eq]
    constructor
    · rintro ⟨h | h, g⟩
      · exact absurd h g
      · exact h
    · intro h
      exact ⟨.inr h, fun e => Nat.lt_irrefl _ (e ▸ ho x h)⟩

theorem create_fine {W : World} (hW : Fine W) {n : Nat} {s : St} (h : n ∉ s.schemas) : createSchema n W s = (.ok (), { s with schemas := n :: s.schemas, ops := s.ops + 1 }) := by
  unfold createSchema
  rw [bind_eq, op_fine hW]
  show (if s.schemas.contains n then raise .exception else modify _ : M Unit) W _ = _
  rw [if_neg fun g => h (List.contains_iff_mem.mp g)]
  rfl

theorem enter_fine {W : World} (hW : Fine W) {s : St} (h : s.sandbox + 1 ∉ s.schemas) : enter W s = (.ok (), begun s (s.ops + 5)) := by
  unfold enter
  rw [bind_eq, op_fine hW]
  show (push >>= fun _ => get >>= fun s => initOrPop (current s)) W _ = _
  rw [bind_eq]
  have hp : push W { s with ops := s.ops + 1 } = (.ok (), { s with
      stack := ⟨locals s.conns, some s.conns, []⟩ :: bottom s
      builtins := update s.builtins (locals s.conns)
      kept := (s.conns, s.sandbox + 1) :: s.kept
      sandbox := s.sandbox + 1
      opened := s.conns :: s.opened
      conns := s.conns + 1
      ops := s.ops + 1 + 1 }) := by
    unfold push
    rw [bind_eq, connect_fine hW]
    rfl
  rw [hp]
  show initOrPop s.conns W _ = _
  unfold initOrPop initC
  rw [bind_eq]
  show (match (createSchema (s.sandbox + 1) >>= fun _ => setPath s.conns (s.sandbox + 1)) W _ with
    | (.ok (), t) => ((.ok (), t) : Except Exn Unit × St)
    | (.error .interrupt, t) => (.error .interrupt, t)
    | (.error .exception, t) => match pop (some .exception) W t with
      | (.ok (), t) => (.error .exception, t)
      | (.error e, t) => (.error e, t)) = _
  rw [bind_eq, create_fine hW]
  · dsimp only
    rw [setPath_fine hW]
    rfl
  · exact h

/-- Connections noted with the innermost context. -/
def extend (X : List Nat) : List Level → List Level
  | [] => []
  | l :: r => { l with extras := l.extras ++ X } :: r

structure Grew (s s' : St) (X : List Nat) : Prop where
  stack : s'.stack = extend X s.stack
  sandbox : s'.sandbox = s.sandbox
  schemas : s'.schemas = s.schemas
  conns : s.conns ≤ s'.conns
  fresh : ∀ x ∈ X, s.conns ≤ x ∧ x < s'.conns
  opened : ∀ x, x ∈ s'.opened ↔ x ∈ s.opened ∨ x ∈ X

/-- `new`, if it is that of a context, is that of the innermost. -/
def NewOk (s : St) : Prop := ∀ c n, PyDict.get "new" s.builtins = some (.attr c n) → ∃ l rest, s.stack = l :: rest ∧ l.conn = some c

theorem extend_contexts (X : List Nat) (l : List Level) : (extend X l).map (fun l => (l.names, l.conn)) = l.map fun l => (l.names, l.conn) := by
  cases l <;> rfl

theorem extend_extend (X Y : List Nat) (l : List Level) : extend Y (extend X l) = extend (X ++ Y) l := by
  cases l with
  | nil => rfl
  | cons a l => simp [extend]

theorem extend_nil (l : List Level) : extend [] l = l := by
  cases l with
  | nil => rfl
  | cons a l => simp [extend]

theorem grew_refl {s s' : St} (h1 : s'.stack = s.stack) (h2 : s'.sandbox = s.sandbox) (h3 : s'.schemas = s.schemas) (h4 : s.conns ≤ s'.conns) (h5 : ∀ x, x ∈ s'.opened ↔ x ∈ s.opened) :
    Grew s s' [] :=
  ⟨by rw [h1, extend_nil], h2, h3, h4, fun x h => (by cases h), fun x => by rw [h5]; simp⟩

theorem grew_trans {s t u : St} {X Y : List Nat} (h : Grew s t X) (g : Grew t u Y) : Grew s u (X ++ Y) := by
  refine ⟨by rw [g.stack, h.stack, extend_extend], g.sandbox.trans h.sandbox, g.schemas.trans h.schemas, Nat.le_trans h.conns g.conns, ?_, ?_⟩
  · intro x hx
    rcases List.mem_append.mp hx with hx | hx
    · exact ⟨(h.fresh x hx).1, Nat.lt_of_lt_of_le (h.fresh x hx).2 g.conns⟩
    · exact ⟨Nat.le_trans h.conns (g.fresh x hx).1, (g.fresh x hx).2⟩
  · intro x
    rw [g.opened, h.opened, List.mem_append, or_assoc]

theorem grew_inv {s t : St} {X : List Nat} (hI : Inv s) (h : Grew s t X) : Inv t :=
  inv_frame hI (by unfold contexts; rw [h.stack, extend_contexts]) h.sandbox

theorem grew_orderly {s t : St} {X : List Nat} (hO : Orderly s) (h : Grew s t X) : Orderly t := by
  refine ⟨?_, ?_, ?_, ?_⟩
  · intro x hx
    rcases (h.opened x).mp hx with g | g
    · exact Nat.lt_of_lt_of_le (hO.opened x g) h.conns
    · exact (h.fresh x g).2
  · intro l hl c hc
    rw [h.stack] at hl
    refine Nat.lt_of_lt_of_le ?_ h.conns
    cases hs : s.stack with
    | nil => rw [hs] at hl; cases hl
    | cons a r =>
      rw [hs] at hl
      rcases List.mem_cons.mp hl with rfl | hl
      · exact hO.conns a (by rw [hs]; exact List.mem_cons_self ..) c hc
      · exact hO.conns l (by rw [hs]; exact List.mem_cons_of_mem _ hl) c hc
  · rw [h.stack]
    have : (extend X s.stack).filterMap (·.conn) = s.stack.filterMap (·.conn) := by
      cases s.stack with
      | nil => rfl
      | cons a r => simp [extend, List.filterMap_cons]
    rw [this]
    exact hO.distinct
  · rw [h.schemas, h.sandbox]
    exact hO.schemas

theorem grew_newOk {s t : St} {X : List Nat} (hN : NewOk s) (h : Grew s t X) (hb : t.builtins = s.builtins) : NewOk t := by
  intro c n hc
  rw [hb] at hc
  obtain ⟨l, rest, h1, h2⟩ := hN c n hc
  rw [h.stack, h1]
  exact ⟨_, rest, rfl, h2⟩

theorem note_others {c x : Nat} : ∀ {l : List Level}, c ∉ l.filterMap (·.conn) → l.map (note c x) = l
  | [], _ => rfl
  | a :: l, h => by
    have h1 : a.conn ≠ some c := by
      intro e
      rw [List.filterMap_cons_some (f := fun l : Level => l.conn) e] at h
      exact h (List.mem_cons_self ..)
    have h2 : c ∉ l.filterMap (·.conn) := by
      intro g
      apply h
      rw [List.filterMap_cons]
      split
      · exact g
      · exact List.mem_cons_of_mem _ g
    rw [List.map_cons, note_others h2]
    congr 1
    unfold note
    rw [if_neg h1]

theorem renew_fine {W : World} (hW : Fine W) {s : St} (hO : Orderly s) (hN : NewOk s) :
    ∃ X r s', renew s W s = (r, s') ∧ Grew s s' X ∧ s'.builtins = s.builtins ∧ r ≠ .error .interrupt := by
  have none : ∃ X r s', (raise .exception : M Unit) W s = (r, s') ∧ Grew s s' X ∧ s'.builtins = s.builtins ∧ r ≠ .error .interrupt :=
    ⟨[], _, s, rfl, grew_refl rfl rfl rfl (Nat.le_refl _) (fun _ => Iff.rfl), rfl, fun h => (by cases h)⟩
  unfold renew
  cases hn : PyDict.get "new" s.builtins with
  | none => exact none
  | some v =>
    cases v with
    | other n => exact none
    | attr c n =>
      obtain ⟨l, rest, h1, h2⟩ := hN c n hn
      dsimp only
      unfold newConnection
      rw [bind_eq, connect_fine hW]
      show ∃ X r s', setPath s.conns _ W _ = (r, s') ∧ _
      rw [setPath_fine hW]
      refine ⟨[s.conns], _, _, rfl, ⟨?_, rfl, rfl, Nat.le_succ _, ?_, ?_⟩, rfl, fun h => (by cases h)⟩
      · show s.stack.map (note c s.conns) = _
        rw [h1, List.map_cons, note_others]
        · unfold note
          rw [if_pos h2]
          rfl
        · have := hO.distinct
          rw [h1, List.filterMap_cons_some (f := fun l : Level => l.conn) h2] at this
          exact (List.nodup_cons.mp this).1
      · intro x hx
        rw [List.mem_singleton.mp hx]
        exact ⟨Nat.le_refl _, Nat.lt_succ_self _⟩
      · intro x
        show x ∈ s.conns :: s.opened ↔ _
        rw [List.mem_cons, List.mem_singleton]
        exact or_comm

theorem bottom_conns (s : St) : (bottom s).filterMap (·.conn) = s.stack.filterMap (·.conn) := by
  unfold bottom
  cases s.stack with
  | nil => rfl
  | cons a r => rfl

theorem begun_pushed (s : St) (n : Nat) : Pushed s (begun s n) s.conns := ⟨rfl, rfl, rfl⟩

theorem begun_orderly {s : St} (hO : Orderly s) (n : Nat) : Orderly (begun s n) := by
  have lt : ∀ c ∈ s.stack.filterMap (·.conn), c < s.conns := by
    intro c hc
    obtain ⟨l, hl, h⟩ := List.mem_filterMap.mp hc
    exact hO.conns l hl c h
  refine ⟨?_, ?_, ?_, ?_⟩
  · intro x hx
    show x < s.conns + 1
    rcases List.mem_cons.mp hx with rfl | hx
    · exact Nat.lt_succ_self _
    · exact Nat.lt_succ_of_lt (hO.opened x hx)
  · intro l hl c hc
    show c < s.conns + 1
    rcases List.mem_cons.mp hl with rfl | hl
    · cases hc; exact Nat.lt_succ_self _
    · have : c ∈ (bottom s).filterMap (·.conn) := List.mem_filterMap.mpr ⟨l, hl, hc⟩
      rw [bottom_conns] at this
      exact Nat.lt_succ_of_lt (lt c this)
  · show ((⟨locals s.conns, some s.conns, []⟩ :: bottom s : List Level).filterMap (·.conn)).Nodup
    rw [List.filterMap_cons_some (f := fun l : Level => l.conn) rfl, bottom_conns]
    exact List.nodup_cons.mpr ⟨fun h => Nat.lt_irrefl _ (lt _ h), hO.distinct⟩
  · intro m hm
    show m ≤ s.sandbox + 1
    rcases List.mem_cons.mp hm with rfl | hm
    · exact Nat.le_refl _
    · exact Nat.le_succ_of_le (hO.schemas m hm)

theorem begun_newOk (s : St) (n : Nat) : NewOk (begun s n) := by
  intro c k h
  have h : PyDict.get "new" (update s.builtins (locals s.conns)) = some (.attr c k) := h
  rw [get_locals] at h
  have h : some (Val.attr s.conns "new") = some (.attr c k) := h
  cases h
  exact ⟨_, _, rfl, rfl⟩

/-- What is proved of programs when every operation is made. -/
def FineBody (W : World) (p : Prog) : Prop := ∀ s, Inv s → Orderly s → s.stack ≠ [] → NewOk s →
  ∃ X r s', exec p W s = (r, s') ∧ Grew s s' X ∧ NewOk s' ∧ r ≠ .error .interrupt

theorem restore_stack {s t : St} (hI : Inv s) {a : Level} (h : t.stack = a :: bottom s) : (restore t).stack = s.stack := by
  unfold bottom at h
  cases hs : s.stack with
  | nil =>
    rw [hs] at h
    unfold restore
    rw [h]
    rfl
  | cons x xs =>
    rw [hs] at h
    have h : t.stack = a :: x :: xs := h
    have two : xs ≠ [] := by
      rcases hI.shape with e | ⟨cs, b, h1, h2⟩
      · unfold contexts at e; rw [hs] at e; cases e
      · intro e
        unfold contexts at h2
        rw [hs, e] at h2
        cases cs with
        | nil => exact h1 rfl
        | cons d cs => have := congrArg List.length h2; simp at this
    cases xs with
    | nil => exact absurd rfl two
    | cons y ys =>
      unfold restore
      rw [h]

theorem restore_rest (t : St) : (restore t).schemas = t.schemas ∧ (restore t).conns = t.conns ∧ (restore t).opened = t.opened := by
  unfold restore
  split <;> exact ⟨rfl, rfl, rfl⟩

theorem pop_fine {W : World} (hW : Fine W) {s t : St} {n : Nat} {X : List Nat} (hI : Inv s) (hO : Orderly s) (hg : Grew (begun s n) t X) {exc : Option Exn} (he : exc ≠ some .interrupt) :
    ∃ t', pop exc W t = (.ok (), t') ∧ t'.stack = s.stack ∧ t'.sandbox = s.sandbox ∧ t'.schemas = s.schemas ∧ s.conns ≤ t'.conns ∧ ∀ x, x ∈ t'.opened ↔ x ∈ s.opened := by
  obtain ⟨z1, z2, z3⟩ := restore_rest t
  have hst : t.stack = ⟨locals s.conns, some s.conns, X⟩ :: bottom s := hg.stack
  have hsb : t.sandbox = s.sandbox + 1 := hg.sandbox
  have hsc : t.schemas = (s.sandbox + 1) :: s.schemas := hg.schemas
  have out : s.sandbox + 1 ∉ s.schemas := fun h => Nat.not_succ_le_self _ (hO.schemas _ h)
  obtain ⟨m, o, s1, s2⟩ := shutAll_fine hW (connections t.stack) { restore t with sandbox := t.sandbox - 1 }
  have mem : ∀ x, x ∈ o ↔ x ∈ s.opened := by
    intro x
    rw [s2]
    show x ∈ (restore t).opened ∧ _ ↔ _
    rw [z3, hg.opened, hst]
    show (x ∈ s.conns :: s.opened ∨ x ∈ X) ∧ x ∉ s.conns :: X ↔ _
    rw [List.mem_cons, List.mem_cons]
    constructor
    · rintro ⟨(h | h) | h, g⟩
      · exact absurd (.inl h) g
      · exact h
      · exact absurd (.inr h) g
    · intro h
      refine ⟨.inl (.inr h), ?_⟩
      rintro (e | e)
      · exact Nat.lt_irrefl _ (e ▸ hO.opened x h)
      · have := (hg.fresh x e).1
        have : s.conns + 1 ≤ x := this
        have := hO.opened x h
        omega
  have hc : s.conns + 1 ≤ t.conns := hg.conns
  obtain ⟨k, o', d1, d2⟩ := dropSandbox_fine hW { restore t with sandbox := t.sandbox - 1, opened := o, ops := m }
    (by show t.sandbox - 1 + 1 ∈ (restore t).schemas; rw [z1, hsc, hsb]; exact List.mem_cons_self ..)
    (by
      intro x hx
      show x < (restore t).conns
      rw [z2]
      have := hO.opened x ((mem x).mp hx)
      omega)
  refine ⟨{ restore t with sandbox := t.sandbox - 1, schemas := (restore t).schemas.filter (· ≠ t.sandbox - 1 + 1), conns := (restore t).conns + 1, opened := o', ops := k }, ?_, restore_stack hI hst, ?_, ?_, ?_, fun x => (d2 x).trans (mem x)⟩
  · show (if exc = some .interrupt then (pure () : M Unit) else shutAll (connections t.stack) >>= fun _ => dropSandbox) W { restore t with sandbox := t.sandbox - 1 } = _
    rw [if_neg he, bind_eq, s1]
    exact d1
  · show t.sandbox - 1 = _
    rw [hsb]; rfl
  · show (restore t).schemas.filter (· ≠ t.sandbox - 1 + 1) = _
    rw [z1, hsc, hsb]
    show ((s.sandbox + 1) :: s.schemas).filter (· ≠ s.sandbox + 1) = _
    rw [List.filter_cons_of_neg (by simp), List.filter_eq_self]
    intro a ha
    simp only [decide_eq_true_eq]
    exact fun e => out (e ▸ ha)
  · show s.conns ≤ (restore t).conns + 1
    rw [z2]
    omega

theorem within_fine {W : World} (hW : Fine W) {p : Prog} (hp : FineBody W p) {s : St} (hI : Inv s) (hO : Orderly s) :
    ∃ r u s', within (exec p) W s = (r, s') ∧ s'.stack = s.stack ∧ s'.sandbox = s.sandbox ∧ s'.schemas = s.schemas ∧ s.conns ≤ s'.conns ∧ (∀ x, x ∈ s'.opened ↔ x ∈ s.opened)
      ∧ r ≠ .error .interrupt ∧ exec p W (begun s (s.ops + 5)) = (r, u) := by
  have out : s.sandbox + 1 ∉ s.schemas := fun h => Nat.not_succ_le_self _ (hO.schemas _ h)
  obtain ⟨X, r, u, h1, h2, h3, h4⟩ := hp (begun s (s.ops + 5)) (pushed_inv hI (begun_pushed s _)) (begun_orderly hO _) (fun h => by cases h) (begun_newOk s _)
  unfold within
  rw [bind_eq, enter_fine hW out]
  show ∃ r u s', bodyThenPop (exec p) W (begun s (s.ops + 5)) = (r, s') ∧ _
  unfold bodyThenPop
  rw [h1]
  cases r with
  | ok a =>
    obtain ⟨t', g1, g2, g3, g4, g5, g6⟩ := pop_fine hW hI hO h2 (exc := none) (fun h => by cases h)
    exact ⟨.ok a, u, t', g1, g2, g3, g4, g5, g6, h4, rfl⟩
  | error e =>
    obtain ⟨t', g1, g2, g3, g4, g5, g6⟩ := pop_fine hW hI hO h2 (exc := some e) (fun h => h4 (by cases h; rfl))
    dsimp only
    rw [g1]
    exact ⟨.error e, u, t', rfl, g2, g3, g4, g5, g6, h4, rfl⟩

theorem fine_calm {W : World} (hW : Fine W) : Calm W := fun n h => by rw [hW n] at h; cases h

theorem fineBody {W : World} (hW : Fine W) : ∀ p : Prog, Prog.calm p → FineBody W p
  | .done none, _ => fun s _ _ _ hN => ⟨[], _, s, rfl, grew_refl rfl rfl rfl (Nat.le_refl _) (fun _ => Iff.rfl), hN, fun h => by cases h⟩
  | .done (some e), hc => fun s _ _ _ hN => ⟨[], _, s, rfl, grew_refl rfl rfl rfl (Nat.le_refl _) (fun _ => Iff.rfl), hN, fun h => hc (by cases h; rfl)⟩
  | .assign k v rest, hc => by
    intro s hI hO hs hN
    have hN' : NewOk { s with builtins := PyDict.set k (.other v) s.builtins } := by
      intro c n h
      have h : PyDict.get "new" (PyDict.set k (.other v) s.builtins) = some (.attr c n) := h
      rw [PyDict.get_set] at h
      by_cases e : k = "new"
      · rw [if_pos e] at h; cases h
      · rw [if_neg e] at h; exact hN c n h
    obtain ⟨X, r, s', h1, h2, h3, h4⟩ := fineBody hW rest hc { s with builtins := PyDict.set k (.other v) s.builtins } ⟨hI.shape, hI.count⟩
      ⟨hO.opened, hO.conns, hO.distinct, hO.schemas⟩ hs hN'
    exact ⟨X, r, s', h1, ⟨h2.stack, h2.sandbox, h2.schemas, h2.conns, h2.fresh, h2.opened⟩, h3, h4⟩
  | .fresh rest, hc => by
    intro s hI hO hs hN
    rw [exec_fresh]
    obtain ⟨X, r, t, h1, h2, h3, h4⟩ := renew_fine hW hO hN
    rw [h1]
    have hN' := grew_newOk hN h2 h3
    cases r with
    | error e => exact ⟨X, _, t, rfl, h2, hN', h4⟩
    | ok a =>
      dsimp only
      obtain ⟨Y, r, u, g1, g2, g3, g4⟩ := fineBody hW rest hc t (grew_inv hI h2) (grew_orderly hO h2) (by rw [h2.stack]; cases hx : s.stack with | nil => exact absurd hx hs | cons a b => exact fun h => by cases h) hN'
      exact ⟨X ++ Y, r, u, g1, grew_trans h2 g2, g3, g4⟩
  | .block inner caught rest, hc => by
    intro s hI hO hs hN
    rw [exec_block]
    obtain ⟨r, _, t, h1, h2, h3, h4, h5, h6, h7, _⟩ := within_fine hW (fineBody hW inner hc.1) hI hO
    have hg : Grew s t [] := grew_refl h2 h3 h4 h5 h6
    have hN' : NewOk t := by
      obtain ⟨_, _, hb⟩ := within_run (fine_calm hW) (frames_exec inner) hI h1
      rcases hb with hb | ⟨c, t0, u, _, _, hb⟩
      · exact grew_newOk hN hg hb
      · intro c' n h
        rw [hb] at h
        unfold ended at h
        rcases hI.shape with e | ⟨cs, b, e1, e2⟩
        · unfold contexts at e
          exact absurd (List.map_eq_nil_iff.mp e) hs
        · cases cs with
          | nil => exact absurd rfl e1
          | cons d cs =>
            rw [e2] at h
            have h : PyDict.get "new" (update u.builtins (locals d)) = some (.attr c' n) := h
            rw [get_locals] at h
            have h : some (Val.attr d "new") = some (.attr c' n) := h
            cases h
            rw [h2]
            unfold contexts at e2
            cases hx : s.stack with
            | nil => exact absurd hx hs
            | cons l rest' =>
              rw [hx] at e2
              exact ⟨l, rest', rfl, (congrArg Prod.snd (List.cons.inj e2).1 :)⟩
    unfold Temporal.guard
    rw [h1]
    have go : ∃ X r s', exec rest W t = (r, s') ∧ Grew s s' X ∧ NewOk s' ∧ r ≠ .error .interrupt := by
      obtain ⟨Y, r, u, g1, g2, g3, g4⟩ := fineBody hW rest hc.2 t (grew_inv hI hg) (grew_orderly hO hg) (by rw [h2]; exact hs) hN'
      exact ⟨[] ++ Y, r, u, g1, grew_trans hg g2, g3, g4⟩
    cases r with
    | ok a => exact go
    | error e =>
      dsimp only
      by_cases hce : (caught && decide (e = .exception)) = true
      · rw [if_pos hce]; exact go
      · rw [if_neg hce]; exact ⟨[], _, t, rfl, hg, hN', h7⟩

/-! ## C67: sandboxes -/

/-- A context that began has the names, for a new connection that is open; a schema that was not there was created, its own (those of the contexts around have smaller numbers), and the
connection looks for names in it first. -/
theorem C67_sandbox {W : World} {s s' : St} {a : Unit} (h : enter W s = (.ok a, s')) : InContext s' s.conns ∧ s.conns ∈ s'.opened ∧ s'.sandbox = s.sandbox + 1
    ∧ s'.sandbox ∉ s.schemas ∧ s'.schemas = s'.sandbox :: s.schemas ∧ ∃ more, PyDict.get s.conns s'.paths = some (s'.sandbox :: more) := by
  obtain ⟨h1, rfl⟩ := enter_ok h
  refine ⟨inContext_update _ _ s.builtins rfl, List.mem_cons_self .., rfl, h1, rfl, (PyDict.get s.conns s.paths).getD [], ?_⟩
  show PyDict.get s.conns (PyDict.set s.conns _ s.paths) = _
  rw [PyDict.get_set, if_pos rfl]
  rfl

/-- When every operation is made and nothing is interrupted, a context, with all it contains, leaves the schemas, the contexts and the open connections as it found them, also when its code
raises; and its outcome is that of its code, run in the context. -/
theorem C67_clean {W : World} (hW : Fine W) (p : Prog) (hp : Prog.calm p) {s : St} (hI : Inv s) (hO : Orderly s) :
    ∃ r t u s', within (exec p) W s = (r, s') ∧ enter W s = (.ok (), t) ∧ exec p W t = (r, u)
      ∧ s'.schemas = s.schemas ∧ (∀ x, x ∈ s'.opened ↔ x ∈ s.opened) ∧ s'.stack = s.stack ∧ s'.sandbox = s.sandbox ∧ Inv s' ∧ Orderly s' := by
  obtain ⟨r, u, s', h1, h2, h3, h4, h5, h6, _, h8⟩ := within_fine hW (fineBody hW p hp) hI hO
  have hg : Grew s s' [] := grew_refl h2 h3 h4 h5 h6
  exact ⟨r, begun s (s.ops + 5), u, s', h1, enter_fine hW (fun h => Nat.not_succ_le_self _ (hO.schemas _ h)), h8, h4, h6, h2, h3, grew_inv hI hg, grew_orderly hO hg⟩

/-! Non-vacuity, and findings. -/

/-- At the beginning there is nothing. -/
theorem start_inv : Inv {} ∧ Orderly {} := by
  refine ⟨⟨.inl rfl, rfl⟩, ⟨?_, ?_, ?_, ?_⟩⟩
  · intro x h; cases h
  · intro x h; cases h
  · exact List.nodup_nil
  · intro x h; cases h

/-- Contexts in contexts, with connections made by `new`, an assignment, and exceptions. -/
def demo : Prog := .fresh (.block (.fresh (.assign "db" 7 (.done (some .exception)))) true (.assign "mine" 8 (.fresh (.done none))))

example : Prog.calm demo ∧ Prog.leaves "yours" demo := by simp [demo, Prog.calm, Prog.leaves]
example : (within (exec demo) (fun _ => none) {}).1 = .ok () ∧ (within (exec demo) (fun _ => none) {}).2.schemas = [] ∧ (within (exec demo) (fun _ => none) {}).2.opened = []
    ∧ (within (exec demo) (fun _ => none) {}).2.conns = 7 := by decide +kernel
example : (enter (fun _ => none) {}).2.schemas = [1] ∧ ((enter (fun _ => none) (enter (fun _ => none) {}).2)).2.schemas = [2, 1] := by decide +kernel

/-- The statement of `C67_restored_partial` without its condition is false: a builtin `db` of someone else is gone. -/
theorem C67_previous_lost : let s : St := { builtins := [("db", .other 1)] }
    (within (exec (.done none)) (fun _ => none) s).1 = .ok () ∧ builtin (within (exec (.done none)) (fun _ => none) s).2 "db" = none := by decide +kernel

/-- `new` stays among the builtins, and connections made with it then are closed by nothing. -/
theorem C67_new_left : let t := (within (exec (.done none)) (fun _ => none) {}).2
    builtin {} "new" = none ∧ builtin t "new" = some (.attr 0 "new") ∧ (exec (.block (.done none) false (.done none)) (fun _ => none) (exec (.fresh (.done none)) (fun _ => none) t).2).2.opened ≠ [] := by
  decide +kernel

/-- An interrupt leaves the schema, and then the next context of the same depth cannot be entered (which drops it; the one after can). -/
theorem C67_interrupted : let t := (within (exec (.done (some .interrupt))) (fun _ => none) {}).2
    t.schemas = [1] ∧ t.opened = [0] ∧ (within (exec (.done none)) (fun _ => none) t).1 = .error .exception
    ∧ (within (exec (.done none)) (fun _ => none) (within (exec (.done none)) (fun _ => none) t).2).1 = .ok () := by decide +kernel

/-- An interrupt while the context is entered leaves its names behind, and a context on the stack. -/
theorem C67_entering_interrupted : let t := (within (exec (.done none)) (fun n => if n = 2 then some .interrupt else none) {}).2
    t.stack.length = 2 ∧ builtin t "db" = some (.attr 0 "db") := by decide +kernel

end PG.Props.Temporal
