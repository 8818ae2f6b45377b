import Verif.Model.Temporal
/-!
# C67: contexts of temporary clusters
-/
namespace PG.Props.Temporal
open PG PG.Temporal

/-! ## Specification -/

/-- No operation is interrupted (by `KeyboardInterrupt`, for example). -/
def Calm (W : World) : Prop := ∀ n, W n ≠ some .interrupt

/-- Every operation is made. -/
def Fine (W : World) : Prop := ∀ n, W n = none

/-- The code of a program is not interrupted. -/
def Prog.calm : Prog → Prop
  | .done e => e ≠ some .interrupt
  | .assign _ _ r => Prog.calm r
  | .fresh r => Prog.calm r
  | .block i _ r => Prog.calm i ∧ Prog.calm r

/-- A program does not set a builtin. -/
def Prog.leaves (k : String) : Prog → Prop
  | .done _ => True
  | .assign n _ r => n ≠ k ∧ Prog.leaves k r
  | .fresh r => Prog.leaves k r
  | .block i _ r => Prog.leaves k i ∧ Prog.leaves k r

/-- The value of a builtin. -/
def builtin (s : St) (k : String) : Option Val := PyDict.get k s.builtins

/-- The names a context makes (its documentation: `db`, `prepare`, `xact`, `sqlexec`, `do`, `settings`, `proc`, `connector`, and `new`), as those of a connection. -/
def InContext (s : St) (c : Nat) : Prop :=
  builtin s "db" = some (.attr c "db") ∧ builtin s "prepare" = some (.attr c "prepare") ∧ builtin s "xact" = some (.attr c "xact") ∧ builtin s "sqlexec" = some (.attr c "execute")
  ∧ builtin s "do" = some (.attr c "do") ∧ builtin s "settings" = some (.attr c "settings") ∧ builtin s "proc" = some (.attr c "proc")
  ∧ builtin s "connector" = some (.attr c "connector") ∧ builtin s "new" = some (.attr c "new")

/-- The contexts, without the connections noted. -/
def contexts (s : St) : List (List (String × Val) × Option Nat) := s.stack.map fun l => (l.names, l.conn)

/-- The states between programs: contexts of connections, the oldest builtins at the bottom, and the number of contexts. -/
structure Inv (s : St) : Prop where
  shape : contexts s = [] ∨ ∃ cs b, cs ≠ [] ∧ contexts s = cs.map (fun c => (locals c, some c)) ++ [(b, none)]
  count : s.sandbox = (contexts s).length - 1

/-- Connections are numbered in order; every context has its own; schemas belong to the contexts there are. -/
structure Orderly (s : St) : Prop where
  opened : ∀ x ∈ s.opened, x < s.conns
  conns : ∀ l ∈ s.stack, ∀ c, l.conn = some c → c < s.conns
  distinct : (s.stack.filterMap (·.conn)).Nodup
  schemas : ∀ n ∈ s.schemas, n ≤ s.sandbox

/-! ## Lemmas -/

/-- Leaves contexts, numbers and builtins alone. -/
def Quiet {α : Type} (m : M α) : Prop := ∀ W s r s', m W s = (r, s') → s'.stack = s.stack ∧ s'.sandbox = s.sandbox ∧ s'.builtins = s.builtins

theorem bind_eq {α β : Type} (m : M α) (k : α → M β) (W : World) (s : St) : (m >>= k) W s = match m W s with
    | (.ok a, s) => k a W s
    | (.error e, s) => (.error e, s) := rfl

theorem quiet_bind {α β : Type} {m : M α} {k : α → M β} (hm : Quiet m) (hk : ∀ a, Quiet (k a)) : Quiet (m >>= k) := by
  intro W s r s' h
  rw [bind_eq] at h
  cases hr : m W s with
  | mk e t =>
    rw [hr] at h
    obtain ⟨a1, a2, a3⟩ := hm W s e t hr
    cases e with
    | error e => cases h; exact ⟨a1, a2, a3⟩
    | ok a =>
      obtain ⟨b1, b2, b3⟩ := hk a W t r s' h
      exact ⟨b1.trans a1, b2.trans a2, b3.trans a3⟩

theorem quiet_pure {α : Type} (a : α) : Quiet (pure a : M α) := by
  intro W s r s' h; cases h; exact ⟨rfl, rfl, rfl⟩

theorem quiet_raise {α : Type} (e : Exn) : Quiet (raise e : M α) := by
  intro W s r s' h; cases h; exact ⟨rfl, rfl, rfl⟩

theorem quiet_get : Quiet get := by
  intro W s r s' h; cases h; exact ⟨rfl, rfl, rfl⟩

theorem quiet_modify {f : St → St} (h : ∀ s, (f s).stack = s.stack ∧ (f s).sandbox = s.sandbox ∧ (f s).builtins = s.builtins) : Quiet (modify f) := by
  intro W s r s' g; cases g; exact h s

theorem quiet_op : Quiet op := by
  intro W s r s' h
  unfold op at h
  cases hw : W s.ops with
  | none => rw [hw] at h; cases h; exact ⟨rfl, rfl, rfl⟩
  | some e => rw [hw] at h; cases h; exact ⟨rfl, rfl, rfl⟩

theorem quiet_connect : Quiet connect := quiet_bind quiet_op fun _ => quiet_bind quiet_get fun _ => quiet_bind (quiet_modify fun _ => ⟨rfl, rfl, rfl⟩) fun _ => quiet_pure _

theorem quiet_shut (c : Nat) : Quiet (shut c) := by
  refine quiet_bind quiet_get fun s => ?_
  by_cases h : s.opened.contains c = true
  · rw [if_pos h]
    exact quiet_bind quiet_op fun _ => quiet_bind quiet_op fun _ => quiet_modify fun _ => ⟨rfl, rfl, rfl⟩
  · rw [if_neg h]
    exact quiet_bind quiet_op fun _ => quiet_modify fun _ => ⟨rfl, rfl, rfl⟩

theorem quiet_shutAll : ∀ l, Quiet (shutAll l)
  | [] => quiet_pure _
  | c :: l => quiet_bind (quiet_shut c) fun _ => quiet_shutAll l

theorem quiet_create (n : Nat) : Quiet (createSchema n) := by
  refine quiet_bind quiet_op fun _ => quiet_bind quiet_get fun s => ?_
  by_cases h : s.schemas.contains n = true
  · rw [if_pos h]; exact quiet_raise _
  · rw [if_neg h]; exact quiet_modify fun _ => ⟨rfl, rfl, rfl⟩

theorem quiet_drop (n : Nat) : Quiet (dropSchema n) := by
  refine quiet_bind quiet_op fun _ => quiet_bind quiet_get fun s => ?_
  by_cases h : s.schemas.contains n = true
  · rw [if_pos h]; exact quiet_modify fun _ => ⟨rfl, rfl, rfl⟩
  · rw [if_neg h]; exact quiet_raise _

theorem quiet_dropSandbox : Quiet dropSandbox := by
  refine quiet_bind quiet_get fun s => quiet_bind quiet_connect fun c => ?_
  intro W t r t' h
  unfold closing at h
  cases hd : dropSchema (s.sandbox + 1) W t with
  | mk e u =>
    rw [hd] at h
    cases h
    exact quiet_drop _ W t _ u hd

theorem quiet_setPath (c n : Nat) : Quiet (setPath c n) := quiet_bind quiet_op fun _ => quiet_bind quiet_op fun _ => quiet_modify fun _ => ⟨rfl, rfl, rfl⟩

theorem quiet_initC (c : Nat) : Quiet (initC c) := quiet_bind quiet_get fun _ => quiet_bind (quiet_create _) fun _ => quiet_setPath _ _

/-- Operations raise what the world gives, or `Exception`. -/
def Tame {α : Type} (m : M α) : Prop := ∀ W, Calm W → ∀ s s', m W s ≠ (.error .interrupt, s')

theorem tame_bind {α β : Type} {m : M α} {k : α → M β} (hm : Tame m) (hk : ∀ a, Tame (k a)) : Tame (m >>= k) := by
  intro W hW s s' h
  rw [bind_eq] at h
  cases hr : m W s with
  | mk e t =>
    rw [hr] at h
    cases e with
    | error e => cases h; exact hm W hW s _ hr
    | ok a => exact hk a W hW t s' h

theorem tame_pure {α : Type} (a : α) : Tame (pure a : M α) := fun _ _ _ _ h => (by cases h)
theorem tame_get : Tame get := fun _ _ _ _ h => (by cases h)
theorem tame_modify (f : St → St) : Tame (modify f) := fun _ _ _ _ h => (by cases h)
theorem tame_raise {α : Type} : Tame (raise .exception : M α) := fun _ _ _ _ h => (by cases h)

theorem tame_op : Tame op := by
  intro W hW s s' h
  unfold op at h
  cases hw : W s.ops with
  | none => rw [hw] at h; cases h
  | some e => rw [hw] at h; cases h; exact hW _ hw

theorem tame_initC (c : Nat) : Tame (initC c) := by
  refine tame_bind tame_get fun s => tame_bind ?_ fun _ => tame_bind tame_op fun _ => tame_bind tame_op fun _ => tame_modify _
  refine tame_bind tame_op fun _ => tame_bind tame_get fun t => ?_
  by_cases h : t.schemas.contains s.sandbox = true
  · rw [if_pos h]; exact tame_raise
  · rw [if_neg h]; exact tame_modify _

theorem pop_run {exc : Option Exn} {W : World} {s s' : St} {r : Except Exn Unit} (h : pop exc W s = (r, s')) :
    s'.stack = (restore s).stack ∧ s'.sandbox = s.sandbox - 1 ∧ s'.builtins = (restore s).builtins := by
  have h : (if exc = some .interrupt then (pure () : M Unit) else do
      shutAll (connections s.stack)
      dropSandbox) W { restore s with sandbox := s.sandbox - 1 } = (r, s') := h
  have q : Quiet (if exc = some .interrupt then (pure () : M Unit) else do
      shutAll (connections s.stack)
      dropSandbox) := by
    split
    · exact quiet_pure _
    · exact quiet_bind (quiet_shutAll _) fun _ => quiet_dropSandbox
  obtain ⟨a, b, c⟩ := q W _ r s' h
  exact ⟨a, b, c⟩

/-- The state a context begins with. -/
def Pushed (s t : St) (c : Nat) : Prop := t.stack = ⟨locals c, some c, []⟩ :: bottom s ∧ t.sandbox = s.sandbox + 1 ∧ t.builtins = update s.builtins (locals c)

theorem push_run {W : World} {s s' : St} {r : Except Exn Unit} (h : push W s = (r, s')) :
    (∃ c, r = .ok () ∧ Pushed s s' c) ∨ (∃ e, r = .error e ∧ s'.stack = s.stack ∧ s'.sandbox = s.sandbox ∧ s'.builtins = s.builtins) := by
  unfold push at h
  rw [bind_eq] at h
  cases hc : connect W s with
  | mk e t =>
    rw [hc] at h
    obtain ⟨a1, a2, a3⟩ := quiet_connect W s e t hc
    cases e with
    | error e => cases h; exact .inr ⟨e, rfl, a1, a2, a3⟩
    | ok c =>
      cases h
      refine .inl ⟨c, rfl, ?_, ?_, ?_⟩
      · show _ :: bottom t = _
        unfold bottom
        rw [a1, a3]
      · show t.sandbox + 1 = _
        rw [a2]
      · show update t.builtins _ = _
        rw [a3]

theorem enter_run {W : World} (hW : Calm W) {s s' : St} {r : Except Exn Unit} (h : enter W s = (r, s')) :
    (∃ c, r = .ok () ∧ Pushed s s' c) ∨ (∃ e, r = .error e ∧ s'.stack = s.stack ∧ s'.sandbox = s.sandbox ∧ s'.builtins = s.builtins) ∨
    (∃ e c t x, r = .error e ∧ Pushed s t c ∧ pop (some .exception) W t = (x, s')) := by
  unfold enter at h
  rw [bind_eq] at h
  cases ho : op W s with
  | mk e t =>
    rw [ho] at h
    obtain ⟨a1, a2, a3⟩ := quiet_op W s e t ho
    cases e with
    | error e => cases h; exact .inr (.inl ⟨e, rfl, a1, a2, a3⟩)
    | ok _ =>
      dsimp only at h
      rw [bind_eq] at h
      cases hp : push W t with
      | mk e u =>
        rw [hp] at h
        rcases push_run hp with ⟨c, rfl, p1, p2, p3⟩ | ⟨e, rfl, b1, b2, b3⟩
        · have pu : Pushed s u c := by
            refine ⟨?_, by rw [p2, a2], by rw [p3, a3]⟩
            rw [p1]
            unfold bottom
            rw [a1, a3]
          have h : initOrPop (current u) W u = (r, s') := h
          have h : (match initC (current u) W u with
            | (.ok (), t) => (.ok (), t)
            | (.error .interrupt, t) => (.error .interrupt, t)
            | (.error .exception, t) => match pop (some .exception) W t with
              | (.ok (), t) => (.error .exception, t)
              | (.error e, t) => (.error e, t)) = (r, s') := h
          cases hi : initC (current u) W u with
          | mk e v =>
            rw [hi] at h
            obtain ⟨q1, q2, q3⟩ := quiet_initC _ W u e v hi
            have pv : Pushed s v c := ⟨q1.trans pu.1, q2.trans pu.2.1, q3.trans pu.2.2⟩
            cases e with
            | ok _ => cases h; exact .inl ⟨c, rfl, pv⟩
            | error e =>
              cases e with
              | interrupt => exact absurd hi (tame_initC _ W hW u v)
              | exception =>
                dsimp only at h
                cases hp : pop (some .exception) W v with
                | mk e w =>
                  rw [hp] at h
                  refine .inr (.inr ?_)
                  cases e with
                  | ok _ => cases h; exact ⟨_, c, v, _, rfl, pv, hp⟩
                  | error e => cases h; exact ⟨_, c, v, _, rfl, pv, hp⟩
        · cases h; exact .inr (.inl ⟨e, rfl, b1.trans a1, b2.trans a2, b3.trans a3⟩)

/-- What is left of the builtins when a context ends, by the contexts around it. -/
def ended (s : St) (d : List (String × Val)) : List (String × Val) :=
  match contexts s with
  | [] => keys.foldl (fun d k => PyDict.erase k d) d
  | x :: _ => update d x.1

/-- The end of a context that began in a state. -/
theorem restored {s t : St} {c : Nat} (hI : Inv s) (ht : contexts t = (locals c, some c) :: (bottom s).map fun l => (l.names, l.conn)) :
    (restore t).stack.map (fun l => (l.names, l.conn)) = contexts s ∧ (restore t).builtins = ended s t.builtins := by
  unfold contexts at ht
  unfold bottom at ht
  cases hs : s.stack with
  | nil =>
    rw [hs] at ht
    have ec : contexts s = [] := by unfold contexts; rw [hs]; rfl
    unfold ended
    rw [ec]
    have l2 : t.stack.length = 2 := by have := congrArg List.length ht; simpa using this
    unfold restore
    match hst : t.stack, l2 with
    | [a, b], _ => exact ⟨rfl, rfl⟩
  | cons x xs =>
    rw [hs] at ht
    have ht : t.stack.map (fun l => (l.names, l.conn)) = (locals c, some c) :: (x :: xs).map fun l => (l.names, l.conn) := ht
    have ec : contexts s = (x.names, x.conn) :: xs.map fun l => (l.names, l.conn) := by unfold contexts; rw [hs]; rfl
    have two : xs ≠ [] := by
      rcases hI.shape with h | ⟨cs, b, h1, h2⟩
      · rw [ec] at h; cases h
      · intro e
        rw [ec, e] at h2
        cases cs with
        | nil => exact h1 rfl
        | cons d cs => have := congrArg List.length h2; simp at this
    unfold restore
    match hst : t.stack with
    | [] => rw [hst] at ht; cases ht
    | [a] =>
      rw [hst] at ht
      have := congrArg List.length ht
      simp at this
    | [a, b] =>
      rw [hst] at ht
      have := congrArg List.length ht
      simp at this
      exact absurd this two
    | a :: b :: d :: rest =>
      rw [hst] at ht
      have ht := (List.cons.inj ht).2
      refine ⟨?_, ?_⟩
      · rw [ec]; exact ht
      · unfold ended
        rw [ec]
        have e : b.names = x.names := (congrArg Prod.fst (List.cons.inj ht).1 :)
        dsimp only
        rw [e]

/-- A program that leaves contexts as they were. -/
def Frames (m : M Unit) : Prop := ∀ W, Calm W → ∀ s r s', Inv s → m W s = (r, s') → contexts s' = contexts s ∧ s'.sandbox = s.sandbox

theorem inv_frame {s s' : St} (h : Inv s) (h1 : contexts s' = contexts s) (h2 : s'.sandbox = s.sandbox) : Inv s' :=
  ⟨by rw [h1]; exact h.shape, by rw [h1, h2]; exact h.count⟩

theorem pushed_contexts {s t : St} {c : Nat} (h : Pushed s t c) : contexts t = (locals c, some c) :: (bottom s).map fun l => (l.names, l.conn) := by
  unfold contexts
  rw [h.1]; rfl

theorem pushed_inv {s t : St} {c : Nat} (hI : Inv s) (h : Pushed s t c) : Inv t := by
  have hc := pushed_contexts h
  rcases hI.shape with e | ⟨cs, b, h1, h2⟩
  · have es : s.stack = [] := by unfold contexts at e; exact List.map_eq_nil_iff.mp e
    have eb : bottom s = [⟨s.builtins.filter fun e => keys.contains e.1, none, []⟩] := by unfold bottom; rw [es]; rfl
    rw [eb] at hc
    refine ⟨.inr ⟨[c], _, by simp, hc⟩, ?_⟩
    rw [hc, h.2.1, hI.count, e]; rfl
  · have es : s.stack ≠ [] := by
      intro e
      unfold contexts at h2
      rw [e] at h2
      cases cs <;> cases h2
    have eb : bottom s = s.stack := by
      unfold bottom
      rw [if_neg]
      intro e
      exact es (List.isEmpty_iff.mp e)
    rw [eb] at hc
    have hc : contexts t = (locals c, some c) :: contexts s := hc
    refine ⟨.inr ⟨c :: cs, b, by simp, by rw [hc, h2]; rfl⟩, ?_⟩
    rw [hc, h.2.1, hI.count, List.length_cons]
    have : 1 ≤ (contexts s).length := by rw [h2]; simp
    omega

/-- A context, in all its ways: it does not begin; it begins, its body is run or not, and it ends. -/
theorem within_run {W : World} (hW : Calm W) {body : M Unit} (hb : Frames body) {s s' : St} {r : Except Exn Unit} (hI : Inv s) (h : within body W s = (r, s')) :
    contexts s' = contexts s ∧ s'.sandbox = s.sandbox ∧ (s'.builtins = s.builtins ∨ ∃ c t u, Pushed s t c ∧ (u = t ∨ ∃ x, body W t = (x, u)) ∧ s'.builtins = ended s u.builtins) := by
  have fin : ∀ {c : Nat} {t u : St} {exc : Option Exn} {x : Except Exn Unit}, Pushed s t c → contexts u = contexts t → u.sandbox = t.sandbox → pop exc W u = (x, s') →
      contexts s' = contexts s ∧ s'.sandbox = s.sandbox ∧ s'.builtins = ended s u.builtins := by
    intro c t u exc x hp h1 h2 hq
    obtain ⟨q1, q2, q3⟩ := pop_run hq
    obtain ⟨r1, r2⟩ := restored hI (h1.trans (pushed_contexts hp))
    refine ⟨?_, ?_, q3.trans r2⟩
    · unfold contexts
      rw [q1]
      exact r1
    · rw [q2, h2, hp.2.1]; rfl
  unfold within at h
  rw [bind_eq] at h
  cases he : enter W s with
  | mk e t =>
    rw [he] at h
    rcases enter_run hW he with ⟨c, rfl, hp⟩ | ⟨e, rfl, a1, a2, a3⟩ | ⟨e, c, t0, x, rfl, hp, hq⟩
    · have h : (match body W t with
        | (.ok (), t) => pop none W t
        | (.error e, t) => match pop (some e) W t with
          | (.ok (), t) => (.error e, t)
          | (.error e', t) => (.error e', t)) = (r, s') := h
      cases hm : body W t with
      | mk e u =>
        rw [hm] at h
        obtain ⟨f1, f2⟩ := hb W hW t e u (pushed_inv hI hp) hm
        have key : ∃ exc x, pop exc W u = (x, s') := by
          cases e with
          | ok _ => exact ⟨none, _, h⟩
          | error e =>
            dsimp only at h
            cases hq : pop (some e) W u with
            | mk y v =>
              rw [hq] at h
              cases y with
              | ok _ => cases h; exact ⟨_, _, hq⟩
              | error e' => cases h; exact ⟨_, _, hq⟩
        obtain ⟨exc, x, hq⟩ := key
        obtain ⟨g1, g2, g3⟩ := fin hp f1 f2 hq
        exact ⟨g1, g2, .inr ⟨c, t, u, hp, .inr ⟨e, hm⟩, g3⟩⟩
    · cases h
      refine ⟨by unfold contexts; rw [a1], a2, .inl a3⟩
    · cases h
      obtain ⟨g1, g2, g3⟩ := fin hp rfl rfl hq
      exact ⟨g1, g2, .inr ⟨c, t0, t0, hp, .inl rfl, g3⟩⟩

theorem newConnection_run {c n : Nat} {W : World} {s s' : St} {r : Except Exn Unit} (h : newConnection c n W s = (r, s')) :
    contexts s' = contexts s ∧ s'.sandbox = s.sandbox ∧ s'.builtins = s.builtins := by
  unfold newConnection at h
  rw [bind_eq] at h
  cases hc : connect W s with
  | mk e t =>
    rw [hc] at h
    obtain ⟨a1, a2, a3⟩ := quiet_connect W s e t hc
    cases e with
    | error e => cases h; exact ⟨by unfold contexts; rw [a1], a2, a3⟩
    | ok x =>
      have h : setPath x n W { t with stack := t.stack.map (note c x) } = (r, s') := h
      obtain ⟨b1, b2, b3⟩ := quiet_setPath x n W _ r s' h
      refine ⟨?_, b2.trans a2, b3.trans a3⟩
      unfold contexts
      rw [b1, ← a1]
      show ((t.stack.map (note c x)).map fun l => (l.names, l.conn)) = _
      rw [List.map_map]
      apply List.map_congr_left
      intro l _
      show ((note c x l).names, (note c x l).conn) = _
      unfold note
      split <;> rfl

theorem renew_run {W : World} {s0 s s' : St} {r : Except Exn Unit} (h : renew s0 W s = (r, s')) : contexts s' = contexts s ∧ s'.sandbox = s.sandbox ∧ s'.builtins = s.builtins := by
  unfold renew at h
  cases hn : PyDict.get "new" s0.builtins with
  | none => rw [hn] at h; cases h; exact ⟨rfl, rfl, rfl⟩
  | some v =>
    rw [hn] at h
    cases v with
    | other n => cases h; exact ⟨rfl, rfl, rfl⟩
    | attr c x => exact newConnection_run h

theorem exec_fresh (rest : Prog) (W : World) (s : St) : exec (.fresh rest) W s = match renew s W s with
    | (.ok _, t) => exec rest W t
    | (.error e, t) => (.error e, t) := by
  rw [exec, bind_eq]
  show (renew s >>= fun _ => exec rest) W s = _
  rw [bind_eq]
  cases renew s W s with
  | mk e t => cases e <;> rfl

theorem exec_block (inner : Prog) (caught : Bool) (rest : Prog) (W : World) (s : St) : exec (.block inner caught rest) W s = match Temporal.guard caught (within (exec inner)) W s with
    | (.ok _, t) => exec rest W t
    | (.error e, t) => (.error e, t) := by
  rw [exec, bind_eq]
  cases Temporal.guard caught (within (exec inner)) W s with
  | mk e t => cases e <;> rfl

theorem guard_run {caught : Bool} {m : M Unit} {W : World} {s s' : St} {r : Except Exn Unit} (h : Temporal.guard caught m W s = (r, s')) : ∃ x, m W s = (x, s') := by
  unfold Temporal.guard at h
  cases hm : m W s with
  | mk e t =>
    rw [hm] at h
    cases e with
    | ok _ => cases h; exact ⟨_, rfl⟩
    | error e =>
      dsimp only at h
      split at h <;> cases h <;> exact ⟨_, rfl⟩

theorem frames_exec : ∀ p : Prog, Frames (exec p)
  | .done none => by intro W _ s r s' _ h; cases h; exact ⟨rfl, rfl⟩
  | .done (some e) => by intro W _ s r s' _ h; cases h; exact ⟨rfl, rfl⟩
  | .assign k v rest => by
    intro W hW s r s' hI h
    have h : exec rest W { s with builtins := PyDict.set k (.other v) s.builtins } = (r, s') := h
    exact frames_exec rest W hW { s with builtins := PyDict.set k (.other v) s.builtins } r s' ⟨hI.shape, hI.count⟩ h
  | .fresh rest => by
    intro W hW s r s' hI h
    rw [exec_fresh] at h
    cases hr : renew s W s with
    | mk e t =>
      rw [hr] at h
      obtain ⟨a1, a2, _⟩ := renew_run hr
      cases e with
      | error e => cases h; exact ⟨a1, a2⟩
      | ok _ =>
        obtain ⟨b1, b2⟩ := frames_exec rest W hW t r s' (inv_frame hI a1 a2) h
        exact ⟨b1.trans a1, b2.trans a2⟩
  | .block inner caught rest => by
    intro W hW s r s' hI h
    rw [exec_block] at h
    cases hg : Temporal.guard caught (within (exec inner)) W s with
    | mk e t =>
      rw [hg] at h
      obtain ⟨x, hx⟩ := guard_run hg
      obtain ⟨a1, a2, _⟩ := within_run hW (frames_exec inner) hI hx
      cases e with
      | error e => cases h; exact ⟨a1, a2⟩
      | ok _ =>
        obtain ⟨b1, b2⟩ := frames_exec rest W hW t r s' (inv_frame hI a1 a2) h
        exact ⟨b1.trans a1, b2.trans a2⟩

theorem get_update {k : String} : ∀ {e d : List (String × Val)}, (e.map (·.1)).Nodup → PyDict.get k (update d e) = match PyDict.get k e with
    | some v => some v
    | none => PyDict.get k d := by
  intro e
  induction e with
  | nil => intro d _; rfl
  | cons x e ih =>
    intro d h
    obtain ⟨h1, h2⟩ := List.nodup_cons.mp h
    show PyDict.get k (update (PyDict.set x.1 x.2 d) e) = _
    rw [ih h2, PyDict.get_cons, PyDict.get_set]
    by_cases hk : x.1 = k
    · rw [if_pos hk, if_pos hk]
      have : PyDict.get k e = none := by
        rw [PyDict.get_none]
        intro y hy hyk
        exact h1 (List.mem_map.mpr ⟨y, hy, hyk.trans hk.symm⟩)
      rw [this]
    · rw [if_neg hk, if_neg hk]

theorem locals_nodup (c : Nat) : ((locals c).map (·.1)).Nodup := by
  show (["db", "prepare", "xact", "sqlexec", "do", "settings", "proc", "connector", "new"]).Nodup
  decide

theorem get_locals {c : Nat} {k : String} {d : List (String × Val)} : PyDict.get k (update d (locals c)) = match PyDict.get k (locals c) with
    | some v => some v
    | none => PyDict.get k d := get_update (locals_nodup c)

theorem inContext_update (s : St) (c : Nat) (d : List (String × Val)) (h : s.builtins = update d (locals c)) : InContext s c := by
  unfold InContext builtin
  rw [h]
  simp only [get_locals]
  refine ⟨rfl, rfl, rfl, rfl, rfl, rfl, rfl, rfl, rfl⟩

theorem get_erased {k : String} : ∀ {ks : List String} {d : List (String × Val)}, PyDict.get k (ks.foldl (fun d k => PyDict.erase k d) d) = if k ∈ ks then none else PyDict.get k d := by
  intro ks
  induction ks with
  | nil => intro d; simp
  | cons x ks ih =>
    intro d
    rw [List.foldl_cons, ih, PyDict.get_erase]
    by_cases h1 : k ∈ ks
    · rw [if_pos h1, if_pos (List.mem_cons_of_mem _ h1)]
    · rw [if_neg h1]
      by_cases h2 : x = k
      · rw [if_pos h2, if_pos (h2 ▸ List.mem_cons_self ..)]
      · rw [if_neg h2, if_neg]
        intro h
        rcases List.mem_cons.mp h with h | h
        · exact h2 h.symm
        · exact h1 h

theorem get_locals_none {c : Nat} {k : String} (h1 : k ∉ keys) (h2 : k ≠ "new") : PyDict.get k (locals c) = none := by
  rw [PyDict.get_none]
  intro e he hk
  have all : ∀ n ∈ (locals c).map (·.1), n ∈ keys ∨ n = "new" := by
    show ∀ n ∈ ["db", "prepare", "xact", "sqlexec", "do", "settings", "proc", "connector", "new"], n ∈ keys ∨ n = "new"
    decide
  rcases all e.1 (List.mem_map_of_mem he) with h | h
  · exact h1 (hk ▸ h)
  · exact h2 (hk ▸ h)

theorem untouched_within {W : World} (hW : Calm W) {body : M Unit} (hb : Frames body) {k : String} (h1 : k ∉ keys) (h2 : k ≠ "new")
    (hk : ∀ s r s', Inv s → body W s = (r, s') → builtin s' k = builtin s k) {s s' : St} {r : Except Exn Unit} (hI : Inv s) (h : within body W s = (r, s')) :
    builtin s' k = builtin s k := by
  obtain ⟨_, _, h3⟩ := within_run hW hb hI h
  rcases h3 with h3 | ⟨c, t, u, hp, hu, h3⟩
  · unfold builtin; rw [h3]
  · have pt : builtin t k = builtin s k := by
      unfold builtin
      rw [hp.2.2, get_locals, get_locals_none h1 h2]
    have pu : builtin u k = builtin s k := by
      rcases hu with rfl | ⟨x, hx⟩
      · exact pt
      · rw [hk t x u (pushed_inv hI hp) hx, pt]
    rw [← pu]
    unfold builtin
    rw [h3]
    unfold ended
    rcases hI.shape with e | ⟨cs, b, e1, e2⟩
    · rw [e]
      dsimp only
      rw [get_erased, if_neg h1]
    · cases cs with
      | nil => exact absurd rfl e1
      | cons c' cs =>
        rw [e2]
        show PyDict.get k (update u.builtins (locals c')) = _
        rw [get_locals, get_locals_none h1 h2]

theorem untouched_exec {W : World} (hW : Calm W) {k : String} (h1 : k ∉ keys) (h2 : k ≠ "new") : ∀ (p : Prog) (s s' : St) (r : Except Exn Unit), Inv s → Prog.leaves k p →
    exec p W s = (r, s') → builtin s' k = builtin s k
  | .done none, s, s', r, _, _, h => by cases h; rfl
  | .done (some e), s, s', r, _, _, h => by cases h; rfl
  | .assign n v rest, s, s', r, hI, hl, h => by
    have h : exec rest W { s with builtins := PyDict.set n (.other v) s.builtins } = (r, s') := h
    rw [untouched_exec hW h1 h2 rest { s with builtins := PyDict.set n (.other v) s.builtins } s' r ⟨hI.shape, hI.count⟩ hl.2 h]
    unfold builtin
    rw [PyDict.get_set, if_neg hl.1]
  | .fresh rest, s, s', r, hI, hl, h => by
    rw [exec_fresh] at h
    cases hr : renew s W s with
    | mk e t =>
      rw [hr] at h
      obtain ⟨a1, a2, a3⟩ := renew_run hr
      have e0 : builtin t k = builtin s k := by unfold builtin; rw [a3]
      cases e with
      | error e => cases h; exact e0
      | ok _ => rw [untouched_exec hW h1 h2 rest t s' r (inv_frame hI a1 a2) hl h, e0]
  | .block inner caught rest, s, s', r, hI, hl, h => by
    rw [exec_block] at h
    cases hg : Temporal.guard caught (within (exec inner)) W s with
    | mk e t =>
      rw [hg] at h
      obtain ⟨x, hx⟩ := guard_run hg
      obtain ⟨a1, a2, _⟩ := within_run hW (frames_exec inner) hI hx
      have e0 := untouched_within hW (frames_exec inner) h1 h2 (fun s r s' hI h => untouched_exec hW h1 h2 inner s s' r hI hl.1 h) hI hx
      cases e with
      | error e => cases h; exact e0
      | ok _ => rw [untouched_exec hW h1 h2 rest t s' r (inv_frame hI a1 a2) hl.2 h, e0]

/-! ## C67: builtins -/

/-- In a nested context the names of the outer one are there again when it ends, whatever happened in it. -/
theorem C67_nested {W : World} (hW : Calm W) (p : Prog) {s s' : St} {r : Except Exn Unit} {c : Nat} {more : List (List (String × Val) × Option Nat)} (hI : Inv s)
    (hs : contexts s = (locals c, some c) :: more) (hc : InContext s c) (h : within (exec p) W s = (r, s')) : InContext s' c ∧ contexts s' = contexts s := by
  obtain ⟨h1, _, h3⟩ := within_run hW (frames_exec p) hI h
  refine ⟨?_, h1⟩
  rcases h3 with h3 | ⟨d, t, u, hp, hu, h3⟩
  · unfold InContext builtin at hc ⊢
    rw [h3]; exact hc
  · apply inContext_update s' c u.builtins
    rw [h3]
    unfold ended
    rw [hs]

/-- When none of the names was set before, none is when the outermost context ended, whatever happened in it. -/
theorem C67_restored_partial {W : World} (hW : Calm W) (p : Prog) {s s' : St} {r : Except Exn Unit} (hI : Inv s) (hs : s.stack = []) (hn : ∀ k ∈ keys, builtin s k = none)
    (h : within (exec p) W s = (r, s')) : (∀ k ∈ keys, builtin s' k = builtin s k) ∧ s'.stack = [] := by
  have e0 : contexts s = [] := by unfold contexts; rw [hs]; rfl
  obtain ⟨h1, _, h3⟩ := within_run hW (frames_exec p) hI h
  refine ⟨fun k hk => ?_, ?_⟩
  · rcases h3 with h3 | ⟨d, t, u, hp, hu, h3⟩
    · unfold builtin; rw [h3]
    · rw [hn k hk]
      unfold builtin
      rw [h3]
      unfold ended
      rw [e0]
      dsimp only
      rw [get_erased, if_pos hk]
  · rw [e0] at h1
    unfold contexts at h1
    exact List.map_eq_nil_iff.mp h1

/-- FINDING: names that were set before are not restored but removed. -/
theorem C67_lost {W : World} (hW : Calm W) (p : Prog) {s s' : St} (hI : Inv s) (hs : s.stack = []) (h : within (exec p) W s = (.ok (), s')) : ∀ k ∈ keys, builtin s' k = none := by
  have e0 : contexts s = [] := by unfold contexts; rw [hs]; rfl
  unfold within at h
  rw [bind_eq] at h
  cases he : enter W s with
  | mk e t =>
    rw [he] at h
    rcases enter_run hW he with ⟨c, rfl, hp⟩ | ⟨e, rfl, a1, a2, a3⟩ | ⟨e, c, t0, x, rfl, hp, hq⟩
    · have h : (match exec p W t with
        | (.ok (), t) => pop none W t
        | (.error e, t) => match pop (some e) W t with
          | (.ok (), t) => (.error e, t)
          | (.error e', t) => (.error e', t)) = (.ok (), s') := h
      cases hm : exec p W t with
      | mk e u =>
        rw [hm] at h
        obtain ⟨f1, f2⟩ := frames_exec p W hW t e u (pushed_inv hI hp) hm
        cases e with
        | ok _ =>
          obtain ⟨q1, q2, q3⟩ := pop_run h
          intro k hk
          unfold builtin
          rw [q3, (restored hI (f1.trans (pushed_contexts hp))).2]
          unfold ended
          rw [e0]
          dsimp only
          rw [get_erased, if_pos hk]
        | error e =>
          dsimp only at h
          cases hq : pop (some e) W u with
          | mk y v => rw [hq] at h; cases y <;> cases h
    · cases h
    · cases h

/-- Builtins of other names are left alone (but for `new`). -/
theorem C67_untouched {W : World} (hW : Calm W) (p : Prog) {k : String} (h1 : k ∉ keys) (h2 : k ≠ "new") {s s' : St} {r : Except Exn Unit} (hI : Inv s) (hl : Prog.leaves k p)
    (h : exec p W s = (r, s')) : builtin s' k = builtin s k := untouched_exec hW h1 h2 p s s' r hI hl h

/-- The contexts themselves are in balance after every program. -/
theorem C67_balanced {W : World} (hW : Calm W) (p : Prog) {s s' : St} {r : Except Exn Unit} (hI : Inv s) (h : exec p W s = (r, s')) : contexts s' = contexts s ∧ s'.sandbox = s.sandbox :=
  frames_exec p W hW s r s' hI h

end PG.Props.Temporal
