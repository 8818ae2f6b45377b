import Verif.Props.Temporal2
/-!
# C67: `new`
-/
namespace PG.Props.Temporal
open PG PG.Temporal

/-- Connections are numbered on, and what `new` of a connection has kept stays. -/
def Keeps {α : Type} (m : M α) : Prop := ∀ W s r s', m W s = (r, s') → s.conns ≤ s'.conns ∧ ∀ c, c < s.conns → PyDict.get c s'.kept = PyDict.get c s.kept

theorem keeps_bind {α β : Type} {m : M α} {k : α → M β} (hm : Keeps m) (hk : ∀ a, Keeps (k a)) : Keeps (m >>= k) := by
  intro W s r s' h
  rw [bind_eq] at h
  cases hr : m W s with
  | mk e t =>
    rw [hr] at h
    obtain ⟨a1, a2⟩ := hm W s e t hr
    cases e with
    | error e => cases h; exact ⟨a1, a2⟩
    | ok a =>
      obtain ⟨b1, b2⟩ := hk a W t r s' h
      exact ⟨Nat.le_trans a1 b1, fun c hc => (b2 c (Nat.lt_of_lt_of_le hc a1)).trans (a2 c hc)⟩

theorem keeps_pure {α : Type} (a : α) : Keeps (pure a : M α) := by
  intro W s r s' h; cases h; exact ⟨Nat.le_refl _, fun _ _ => rfl⟩

theorem keeps_raise {α : Type} (e : Exn) : Keeps (raise e : M α) := by
  intro W s r s' h; cases h; exact ⟨Nat.le_refl _, fun _ _ => rfl⟩

theorem keeps_get : Keeps get := by
  intro W s r s' h; cases h; exact ⟨Nat.le_refl _, fun _ _ => rfl⟩

theorem keeps_modify {f : St → St} (h : ∀ s, s.conns ≤ (f s).conns ∧ (f s).kept = s.kept) : Keeps (modify f) := by
  intro W s r s' g; cases g; exact ⟨(h s).1, fun c _ => by rw [(h s).2]⟩

theorem keeps_op : Keeps op := by
  intro W s r s' h
  unfold op at h
  cases hw : W s.ops with
  | none => rw [hw] at h; cases h; exact ⟨Nat.le_refl _, fun _ _ => rfl⟩
  | some e => rw [hw] at h; cases h; exact ⟨Nat.le_refl _, fun _ _ => rfl⟩

theorem keeps_connect : Keeps connect :=
  keeps_bind keeps_op fun _ => keeps_bind keeps_get fun _ => keeps_bind (keeps_modify fun _ => ⟨Nat.le_succ _, rfl⟩) fun _ => keeps_pure _

theorem connect_conns {W : World} {s s' : St} {c : Nat} (h : connect W s = (.ok c, s')) : c = s.conns ∧ s'.conns = s.conns + 1 := by
  obtain ⟨h1, h2⟩ := connect_ok h
  exact ⟨h1, by rw [h2]⟩

theorem keeps_push : Keeps push := by
  intro W s r s' h
  have hc := keeps_connect W s
  unfold push at h
  rw [bind_eq] at h
  cases hr : connect W s with
  | mk e t =>
    rw [hr] at h
    obtain ⟨a1, a2⟩ := hc e t hr
    cases e with
    | error e => cases h; exact ⟨a1, a2⟩
    | ok c =>
      obtain ⟨rfl, _⟩ := connect_conns hr
      cases h
      refine ⟨a1, fun x hx => ?_⟩
      show PyDict.get x ((s.conns, t.sandbox + 1) :: t.kept) = _
      rw [PyDict.get_cons, if_neg (fun e => Nat.lt_irrefl _ (e ▸ hx)), a2 x hx]

theorem keeps_shut (c : Nat) : Keeps (shut c) := by
  refine keeps_bind keeps_get fun s => ?_
  by_cases h : s.opened.contains c = true
  · rw [if_pos h]
    exact keeps_bind keeps_op fun _ => keeps_bind keeps_op fun _ => keeps_modify fun _ => ⟨Nat.le_refl _, rfl⟩
  · rw [if_neg h]
    exact keeps_bind keeps_op fun _ => keeps_modify fun _ => ⟨Nat.le_refl _, rfl⟩

theorem keeps_shutAll : ∀ l, Keeps (shutAll l)
  | [] => keeps_pure _
  | c :: l => keeps_bind (keeps_shut c) fun _ => keeps_shutAll l

theorem keeps_create (n : Nat) : Keeps (createSchema n) := by
  refine keeps_bind keeps_op fun _ => keeps_bind keeps_get fun s => ?_
  by_cases h : s.schemas.contains n = true
  · rw [if_pos h]; exact keeps_raise _
  · rw [if_neg h]; exact keeps_modify fun _ => ⟨Nat.le_refl _, rfl⟩

theorem keeps_drop (n : Nat) : Keeps (dropSchema n) := by
  refine keeps_bind keeps_op fun _ => keeps_bind keeps_get fun s => ?_
  by_cases h : s.schemas.contains n = true
  · rw [if_pos h]; exact keeps_modify fun _ => ⟨Nat.le_refl _, rfl⟩
  · rw [if_neg h]; exact keeps_raise _

theorem keeps_dropSandbox : Keeps dropSandbox := by
  refine keeps_bind keeps_get fun s => keeps_bind keeps_connect fun c => ?_
  intro W t r t' h
  unfold closing at h
  cases hd : dropSchema (s.sandbox + 1) W t with
  | mk e u =>
    rw [hd] at h
    cases h
    exact keeps_drop _ W t _ u hd

theorem keeps_setPath (c n : Nat) : Keeps (setPath c n) := keeps_bind keeps_op fun _ => keeps_bind keeps_op fun _ => keeps_modify fun _ => ⟨Nat.le_refl _, rfl⟩

theorem keeps_initC (c : Nat) : Keeps (initC c) := keeps_bind keeps_get fun _ => keeps_bind (keeps_create _) fun _ => keeps_setPath _ _

theorem restore_kept (t : St) : (restore t).conns = t.conns ∧ (restore t).kept = t.kept := by
  unfold restore
  split <;> exact ⟨rfl, rfl⟩

theorem keeps_pop (exc : Option Exn) : Keeps (pop exc) := by
  refine keeps_bind keeps_get fun s => keeps_bind (keeps_modify fun t => ⟨Nat.le_of_eq (restore_kept t).1.symm, (restore_kept t).2⟩) fun _ => ?_
  by_cases h : exc = some .interrupt
  · rw [if_pos h]; exact keeps_pure _
  · rw [if_neg h]; exact keeps_bind (keeps_shutAll _) fun _ => keeps_dropSandbox

/-- A result, and what `pop` makes of it. -/
theorem keeps_then {s t s' : St} (a : s.conns ≤ t.conns ∧ ∀ c, c < s.conns → PyDict.get c t.kept = PyDict.get c s.kept)
    (b : t.conns ≤ s'.conns ∧ ∀ c, c < t.conns → PyDict.get c s'.kept = PyDict.get c t.kept) : s.conns ≤ s'.conns ∧ ∀ c, c < s.conns → PyDict.get c s'.kept = PyDict.get c s.kept :=
  ⟨Nat.le_trans a.1 b.1, fun c hc => (b.2 c (Nat.lt_of_lt_of_le hc a.1)).trans (a.2 c hc)⟩

theorem keeps_initOrPop (c : Nat) : Keeps (initOrPop c) := by
  intro W s r s' h
  unfold initOrPop at h
  cases hi : initC c W s with
  | mk e t =>
    rw [hi] at h
    have a := keeps_initC c W s e t hi
    cases e with
    | ok u => cases h; exact a
    | error e =>
      cases e with
      | interrupt => cases h; exact a
      | exception =>
        dsimp only at h
        cases hp : pop (some .exception) W t with
        | mk e u =>
          rw [hp] at h
          have b := keeps_pop _ W t e u hp
          cases e <;> cases h <;> exact keeps_then a b

theorem keeps_enter : Keeps enter := keeps_bind keeps_op fun _ => keeps_bind keeps_push fun _ => keeps_bind keeps_get fun _ => keeps_initOrPop _

theorem keeps_newConnection (c n : Nat) : Keeps (newConnection c n) :=
  keeps_bind keeps_connect fun _ => keeps_bind (keeps_modify fun _ => ⟨Nat.le_refl _, rfl⟩) fun _ => keeps_setPath _ _

theorem keeps_renew (s : St) : Keeps (renew s) := by
  unfold renew
  split
  · exact keeps_newConnection _ _
  · exact keeps_raise _

theorem keeps_bodyThenPop {body : M Unit} (hb : Keeps body) : Keeps (bodyThenPop body) := by
  intro W s r s' h
  unfold bodyThenPop at h
  cases hi : body W s with
  | mk e t =>
    rw [hi] at h
    have a := hb W s e t hi
    cases e with
    | ok u => exact keeps_then a (keeps_pop _ W t r s' h)
    | error e =>
      dsimp only at h
      cases hp : pop (some e) W t with
      | mk x u =>
        rw [hp] at h
        have b := keeps_pop _ W t x u hp
        cases x <;> cases h <;> exact keeps_then a b

theorem keeps_exec : ∀ p : Prog, Keeps (exec p)
  | .done none => keeps_pure _
  | .done (some e) => keeps_raise _
  | .assign _ _ rest => keeps_bind (keeps_modify fun _ => ⟨Nat.le_refl _, rfl⟩) fun _ => keeps_exec rest
  | .fresh rest => keeps_bind keeps_get fun s => keeps_bind (keeps_renew s) fun _ => keeps_exec rest
  | .block inner caught rest => by
    refine keeps_bind ?_ fun _ => keeps_exec rest
    intro W s r s' h
    obtain ⟨x, hx⟩ := guard_run h
    exact keeps_bind keeps_enter (fun _ => keeps_bodyThenPop (keeps_exec inner)) W s x s' hx

theorem newConnection_ok {W : World} {c n : Nat} {s s' : St} {a : Unit} (h : newConnection c n W s = (.ok a, s')) :
    s.conns ∈ s'.opened ∧ ∃ more, PyDict.get s.conns s'.paths = some (n :: more) := by
  unfold newConnection at h
  obtain ⟨x, t, h1, h2⟩ := bind_ok h
  obtain ⟨rfl, rfl⟩ := connect_ok h1
  obtain ⟨_, t, h3, h4⟩ := bind_ok h2
  have h5 := setPath_ok h4
  cases h3
  rw [h5]
  refine ⟨List.mem_cons_self .., (PyDict.get s.conns s.paths).getD [], ?_⟩
  show PyDict.get s.conns (PyDict.set s.conns _ s.paths) = _
  rw [PyDict.get_set, if_pos rfl]

/-- `new()` in a context, also after any code with contexts of its own: as long as the builtin is that of the context, it opens a new connection that looks first in the schema of the context;
and so it is with every connection it opens. -/
theorem C67_new {W : World} {s t u v : St} {a b : Unit} {p : Prog} {r : Except Exn Unit} (ht : enter W s = (.ok a, t)) (hu : exec p W t = (r, u))
    (hn : builtin u "new" = some (.attr s.conns "new")) (h : exec (.fresh (.done none)) W u = (.ok b, v)) :
    s.conns < u.conns ∧ u.conns ∈ v.opened ∧ ∃ more, PyDict.get u.conns v.paths = some (t.sandbox :: more) := by
  obtain ⟨_, rfl⟩ := enter_ok ht
  obtain ⟨k1, k2⟩ := keeps_exec p W _ r u hu
  have k1 : s.conns + 1 ≤ u.conns := k1
  have k2 := k2 s.conns (Nat.lt_succ_self _)
  have k3 : PyDict.get s.conns (begun s (s.ops + 5)).kept = some (s.sandbox + 1) := by
    show PyDict.get s.conns ((s.conns, s.sandbox + 1) :: s.kept) = _
    rw [PyDict.get_cons, if_pos rfl]
  rw [k3] at k2
  rw [exec_fresh] at h
  have hr : renew u = newConnection s.conns (s.sandbox + 1) := by
    unfold renew
    have hn : PyDict.get "new" u.builtins = _ := hn
    rw [hn]
    dsimp only
    rw [k2]
    rfl
  rw [hr] at h
  cases hx : newConnection s.conns (s.sandbox + 1) W u with
  | mk e w =>
    rw [hx] at h
    cases e with
    | error e => cases h
    | ok c =>
      cases h
      exact ⟨k1, newConnection_ok hx⟩

/-! Non-vacuity: `new` in the outer context, after an inner one that made its own. -/
example : let W : World := fun _ => none
    let t := (enter W {}).2
    let u := (exec (.block (.fresh (.done none)) false (.done none)) W t).2
    let v := (exec (.fresh (.done none)) W u).2
    builtin u "new" = some (.attr 0 "new") ∧ v.opened = [4, 0] ∧ PyDict.get 4 v.paths = some [1] ∧ PyDict.get 2 v.paths = some [2] := by decide +kernel

end PG.Props.Temporal
