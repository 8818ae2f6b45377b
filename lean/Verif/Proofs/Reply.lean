import Verif.Proofs.Xact3e
import Verif.Spec.Reply
/-!
# The tables of `Instruction.hook` and the protocol's message flow
-/
namespace PG.Xact3
open PG PG.Element3 PG.Spec.Xact PG.Spec.Reply

/-- `p` leads command `c` to step `st` through its table. -/
inductive Steps (c : Elem) : List Msg → Nat → Prop
  | nil : Steps c [] 0
  | snoc {p st ts tb x path n r} : Steps c p st → hookOf c = some (some ts) → ts[st]? = some tb →
      tb.find x.1 = some (path, some n) → path.call x.2 = .ok r → Steps c (p ++ [x]) n

/-- `p` answers command `c` according to its table. -/
inductive Final (c : Elem) : List Msg → Prop
  | mk {p st ts tb x path r} : Steps c p st → hookOf c = some (some ts) → ts[st]? = some tb →
      tb.find x.1 = some (path, none) → path.call x.2 = .ok r → Final c (p ++ [x])

theorem call_is {k : Kind} {x : Msg} {r} (ht : k.typ = some x.1) (h : Path.call (.parse k) x.2 = .ok r) : Is k x := by
  dsimp only [Path.call] at h
  cases hp : parseK k x.2 with
  | error e => rw [hp] at h; cases h
  | ok e => exact ⟨ht, e, hp⟩

theorem is_call {k : Kind} {x : Msg} (h : Is k x) : ∃ r, Path.call (.parse k) x.2 = .ok r := by
  obtain ⟨_, e, he⟩ := h
  exact ⟨.elem e, by dsimp only [Path.call]; rw [he]; rfl⟩

/-! ## The commands with one-step answers -/

theorem find_cons {e : UInt8 × Path × Option Nat} {t : Table} {ty : UInt8} :
    Table.find (e :: t) ty = if e.1 = ty then some e.2 else Table.find t ty := by
  unfold Table.find
  rw [List.find?_cons]
  by_cases h : e.1 = ty
  · simp [h]
  · have : (e.1 == ty) = false := by simpa using h
    rw [this, if_neg h]

theorem find_nil {ty : UInt8} : Table.find [] ty = none := rfl

/-- Induction principle for runs. -/
theorem Steps.ind {c : Elem} {ts : List Table} (hh : hookOf c = some (some ts)) (I : List Msg → Nat → Prop) (h0 : I [] 0)
    (hs : ∀ p st tb x path n r, I p st → ts[st]? = some tb → tb.find x.1 = some (path, some n) → path.call x.2 = .ok r →
      I (p ++ [x]) n) : ∀ {p st}, Steps c p st → I p st := by
  intro p st h
  induction h with
  | nil => exact h0
  | snoc _ hk ht hf hc ih =>
    rw [hh] at hk
    cases hk
    exact hs _ _ _ _ _ _ _ ih ht hf hc

/-- The tables, as functions of the step. -/
def qStep (st : Nat) (p : List Msg) : Prop :=
  ∃ ss : List (List Msg), (∀ s ∈ ss, Stmt s) ∧
  ((st = 0 ∧ p = ss.flatten) ∨
   (st = 1 ∧ ∃ q, p = ss.flatten ++ q ∧ ∀ x, Is .complete x → Stmt (q ++ [x])) ∨
   (st = 2 ∧ ∃ h ls, p = ss.flatten ++ h :: ls ∧ Is .copyToBegin h ∧ ∀ r ∈ ls, IsLine r) ∨
   (st = 3 ∧ ∃ t rs, p = ss.flatten ++ t :: rs ∧ Is .tupleDescriptor t ∧ ∀ r ∈ rs, Is .tuple r))

def qTable : List Table := [
      [(84, .parse .tupleDescriptor, some 3), (73, .parse (.empty .null), some 0), (67, .parse .complete, some 0),
       (72, .parse .copyToBegin, some 2), (71, .parse .copyFromBegin, some 1), (90, .parse .ready, none)],
      [(67, .parse .complete, some 0)],
      [(100, .arg, some 2), (99, .parse (.empty .copyDone), some 1)],
      [(68, .parse .tuple, some 3), (67, .parse .complete, some 0), (90, .parse .ready, none)]]
def xTable : List Table := [
      [(68, .parse .tuple, some 1), (72, .parse .copyToBegin, some 2), (71, .parse .copyFromBegin, some 3),
       (73, .parse (.empty .null), none), (67, .parse .complete, none)],
      [(68, .parse .tuple, some 1), (115, .parse (.empty .suspension), none), (67, .parse .complete, none)],
      [(100, .arg, some 2), (99, .parse (.empty .copyDone), some 3)],
      [(67, .parse .complete, none)]]

theorem query_steps {q : Bytes} {p st} (h : Steps (.str .query q) p st) : qStep st p := by
  refine Steps.ind (ts := qTable) rfl (fun p st => qStep st p) ⟨[], by simp, .inl ⟨rfl, rfl⟩⟩ ?_ h
  intro p st tb x path n r hI ht hf hc
  obtain ⟨ss, hss, h0 | ⟨h1, q, hp, hq⟩ | ⟨h2, hd, ls, hp, hh, hl⟩ | ⟨h3, t, rs, hp, htd, hrs⟩⟩ := hI
  · obtain ⟨rfl, rfl⟩ := h0
    cases ht
    simp only [find_cons, find_nil] at hf
    split at hf
    · rename_i e; cases hf
      exact ⟨ss, hss, .inr (.inr (.inr ⟨rfl, x, [], by simp, call_is (by rw [← e]; rfl) hc, by simp⟩))⟩
    split at hf
    · rename_i e; cases hf
      exact ⟨ss ++ [[x]], by
        intro s hs
        rcases List.mem_append.mp hs with h | h
        · exact hss s h
        · rw [List.mem_singleton.mp h]; exact .null (call_is (by rw [← e]; rfl) hc), .inl ⟨rfl, by simp⟩⟩
    split at hf
    · rename_i e; cases hf
      exact ⟨ss ++ [[x]], by
        intro s hs
        rcases List.mem_append.mp hs with h | h
        · exact hss s h
        · rw [List.mem_singleton.mp h]; exact .command (call_is (by rw [← e]; rfl) hc), .inl ⟨rfl, by simp⟩⟩
    split at hf
    · rename_i e; cases hf
      exact ⟨ss, hss, .inr (.inr (.inl ⟨rfl, x, [], by simp, call_is (by rw [← e]; rfl) hc, by simp⟩))⟩
    split at hf
    · rename_i e; cases hf
      exact ⟨ss, hss, .inr (.inl ⟨rfl, [x], rfl, fun y hy => .copyIn (call_is (by rw [← e]; rfl) hc) hy⟩)⟩
    split at hf
    · cases hf
    · cases hf
  · subst h1
    cases ht
    simp only [find_cons, find_nil] at hf
    split at hf
    · rename_i e; cases hf
      refine ⟨ss ++ [q ++ [x]], ?_, .inl ⟨rfl, by simp [hp]⟩⟩
      intro s hs
      rcases List.mem_append.mp hs with h | h
      · exact hss s h
      · rw [List.mem_singleton.mp h]; exact hq x (call_is (by rw [← e]; rfl) hc)
    · cases hf
  · subst h2
    cases ht
    simp only [find_cons, find_nil] at hf
    split at hf
    · rename_i e; cases hf
      refine ⟨ss, hss, .inr (.inr (.inl ⟨rfl, hd, ls ++ [x], by simp [hp], hh, ?_⟩))⟩
      intro r hr
      rcases List.mem_append.mp hr with h | h
      · exact hl r h
      · rw [List.mem_singleton.mp h]; exact e.symm
    split at hf
    · rename_i e; cases hf
      refine ⟨ss, hss, .inr (.inl ⟨rfl, hd :: ls ++ [x], by simp [hp], fun y hy => ?_⟩)⟩
      have := Stmt.copyOut hh hl (call_is (k := .empty .copyDone) (x := x) (by rw [← e]; rfl) hc) hy
      simpa using this
    · cases hf
  · subst h3
    cases ht
    simp only [find_cons, find_nil] at hf
    split at hf
    · rename_i e; cases hf
      refine ⟨ss, hss, .inr (.inr (.inr ⟨rfl, t, rs ++ [x], by simp [hp], htd, ?_⟩))⟩
      intro r hr
      rcases List.mem_append.mp hr with h | h
      · exact hrs r h
      · rw [List.mem_singleton.mp h]; exact call_is (by rw [← e]; rfl) hc
    split at hf
    · rename_i e; cases hf
      refine ⟨ss ++ [t :: rs ++ [x]], ?_, .inl ⟨rfl, by simp [hp]⟩⟩
      intro s hs
      rcases List.mem_append.mp hs with h | h
      · exact hss s h
      · rw [List.mem_singleton.mp h]; exact .rows htd hrs (call_is (by rw [← e]; rfl) hc)
    split at hf
    · cases hf
    · cases hf

theorem query_final {q : Bytes} {p} (h : Final (.str .query q) p) : Ans (.str .query q) p := by
  cases h with
  | @mk p st ts tb x path r hst hh ht hf hc =>
    have : ts = qTable := by cases hh; rfl
    subst this
    obtain ⟨ss, hss, h0 | ⟨h1, q, hp, hq⟩ | ⟨h2, hd, ls, hp, hh, hl⟩ | ⟨h3, t, rs, hp, htd, hrs⟩⟩ := query_steps hst
    · obtain ⟨rfl, rfl⟩ := h0
      cases ht
      simp only [find_cons, find_nil] at hf
      iterate 5 (split at hf; · cases hf)
      split at hf
      · rename_i e; cases hf; exact .query hss (call_is (by rw [← e]; rfl) hc)
      · cases hf
    · subst h1
      cases ht
      simp only [find_cons, find_nil] at hf
      split at hf <;> cases hf
    · subst h2
      cases ht
      simp only [find_cons, find_nil] at hf
      split at hf
      · cases hf
      split at hf <;> cases hf
    · subst h3
      cases ht
      simp only [find_cons, find_nil] at hf
      iterate 2 (split at hf; · cases hf)
      split at hf
      · rename_i e; cases hf; rw [hp]; exact .queryCut hss htd hrs (call_is (by rw [← e]; rfl) hc)
      · cases hf


def xStep (st : Nat) (p : List Msg) : Prop :=
  (st = 0 ∧ p = []) ∨ (st = 1 ∧ p ≠ [] ∧ ∀ r ∈ p, Is .tuple r) ∨
  (st = 2 ∧ ∃ h ls, p = h :: ls ∧ Is .copyToBegin h ∧ ∀ r ∈ ls, IsLine r) ∨
  (st = 3 ∧ ∀ n m x, Is .complete x → Ans (.execute n m) (p ++ [x]))

theorem execute_steps {n m} {p st} (h : Steps (.execute n m) p st) : xStep st p := by
  refine Steps.ind (ts := xTable) rfl (fun p st => xStep st p) (.inl ⟨rfl, rfl⟩) ?_ h
  intro p st tb x path n r hI ht hf hc
  obtain h0 | ⟨h1, hp, hq⟩ | ⟨h2, hd, ls, hp, hh, hl⟩ | ⟨h3, _⟩ := hI
  · obtain ⟨rfl, rfl⟩ := h0
    cases ht
    simp only [find_cons, find_nil] at hf
    split at hf
    · rename_i e; cases hf
      refine .inr (.inl ⟨rfl, by simp, fun r hr => ?_⟩)
      rw [List.mem_singleton.mp hr]; exact call_is (by rw [← e]; rfl) hc
    split at hf
    · rename_i e; cases hf
      exact .inr (.inr (.inl ⟨rfl, x, [], rfl, call_is (by rw [← e]; rfl) hc, by simp⟩))
    split at hf
    · rename_i e; cases hf
      exact .inr (.inr (.inr ⟨rfl, fun n m y hy => .executeCopyIn (call_is (by rw [← e]; rfl) hc) hy⟩))
    iterate 2 (split at hf; · cases hf)
    cases hf
  · subst h1
    cases ht
    simp only [find_cons, find_nil] at hf
    split at hf
    · rename_i e; cases hf
      refine .inr (.inl ⟨rfl, by simp, fun r hr => ?_⟩)
      rcases List.mem_append.mp hr with h | h
      · exact hq r h
      · rw [List.mem_singleton.mp h]; exact call_is (by rw [← e]; rfl) hc
    iterate 2 (split at hf; · cases hf)
    cases hf
  · subst h2
    cases ht
    simp only [find_cons, find_nil] at hf
    split at hf
    · rename_i e; cases hf
      refine .inr (.inr (.inl ⟨rfl, hd, ls ++ [x], by simp [hp], hh, ?_⟩))
      intro r hr
      rcases List.mem_append.mp hr with h | h
      · exact hl r h
      · rw [List.mem_singleton.mp h]; exact e.symm
    split at hf
    · rename_i e; cases hf
      refine .inr (.inr (.inr ⟨rfl, fun n m y hy => ?_⟩))
      have := Ans.executeCopyOut (n := n) (m := m) hh hl (call_is (k := .empty .copyDone) (x := x) (by rw [← e]; rfl) hc) hy
      simpa [hp] using this
    · cases hf
  · subst h3
    cases ht
    simp only [find_cons, find_nil] at hf
    split at hf <;> cases hf

theorem execute_final {n m} {p} (h : Final (.execute n m) p) : Ans (.execute n m) p := by
  cases h with
  | @mk p st ts tb x path r hst hh ht hf hc =>
    have : ts = xTable := by cases hh; rfl
    subst this
    obtain h0 | ⟨h1, hp, hq⟩ | ⟨h2, hd, ls, hp, hh, hl⟩ | ⟨h3, h3'⟩ := execute_steps hst
    · obtain ⟨rfl, rfl⟩ := h0
      cases ht
      simp only [find_cons, find_nil] at hf
      iterate 3 (split at hf; · cases hf)
      split at hf
      · rename_i e; cases hf; exact .executeNull (call_is (by rw [← e]; rfl) hc)
      split at hf
      · rename_i e; cases hf; exact .execute (rs := []) (by simp) (call_is (by rw [← e]; rfl) hc)
      · cases hf
    · subst h1
      cases ht
      simp only [find_cons, find_nil] at hf
      split at hf
      · cases hf
      split at hf
      · rename_i e; cases hf; exact .executeSuspended hp hq (call_is (by rw [← e]; rfl) hc)
      split at hf
      · rename_i e; cases hf; exact .execute hq (call_is (by rw [← e]; rfl) hc)
      · cases hf
    · subst h2
      cases ht
      simp only [find_cons, find_nil] at hf
      iterate 2 (split at hf; · cases hf)
      cases hf
    · subst h3
      cases ht
      simp only [find_cons, find_nil] at hf
      split at hf
      · rename_i e; cases hf; exact h3' _ _ _ (call_is (by rw [← e]; rfl) hc)
      · cases hf

/-! ## The other commands -/

/-- A table of one step without continuation. -/
theorem single_steps {c : Elem} {t : Table} (hh : hookOf c = some (some [t])) (hn : ∀ ty y, t.find ty = some y → y.2 = none)
    {p st} (h : Steps c p st) : p = [] ∧ st = 0 := by
  refine Steps.ind hh (fun p st => p = [] ∧ st = 0) ⟨rfl, rfl⟩ ?_ h
  rintro p st tb x path n r ⟨rfl, rfl⟩ ht hf _
  cases ht
  have := hn _ _ hf
  cases this

theorem single_final {c : Elem} {k : Kind} {ty : UInt8} (hty : k.typ = some ty)
    (hh : hookOf c = some (some [[(ty, .parse k, none)]])) {p} (h : Final c p) : ∃ x, p = [x] ∧ Is k x := by
  have hn : ∀ t y, Table.find [(ty, Path.parse k, none)] t = some y → y.2 = none := by
    intro t y hy
    simp only [find_cons, find_nil] at hy
    split at hy
    · cases hy; rfl
    · cases hy
  cases h with
  | @mk p st ts tb x path r hst hh' ht hf hc =>
    rw [hh] at hh'
    cases hh'
    obtain ⟨rfl, rfl⟩ := single_steps hh hn hst
    cases ht
    simp only [find_cons, find_nil] at hf
    split at hf
    · rename_i e; cases hf
      exact ⟨x, rfl, call_is (by rw [hty, e]) hc⟩
    · cases hf

/-- The table of Describe. -/
def dTable : List Table := [
      [(116, .parse .attributeTypes, some 1), (84, .parse .tupleDescriptor, none)],
      [(110, .parse (.empty .noData), none), (84, .parse .tupleDescriptor, none)]]

theorem describe_steps {c : Elem} (hh : hookOf c = some (some dTable)) {p st} (h : Steps c p st) :
    (st = 0 ∧ p = []) ∨ (st = 1 ∧ ∃ t, p = [t] ∧ Is .attributeTypes t) := by
  refine Steps.ind hh (fun p st => (st = 0 ∧ p = []) ∨ (st = 1 ∧ ∃ t, p = [t] ∧ Is .attributeTypes t)) (.inl ⟨rfl, rfl⟩) ?_ h
  intro p st tb x path n r hI ht hf hc
  rcases hI with ⟨rfl, rfl⟩ | ⟨rfl, t, rfl, h1⟩
  · cases ht
    simp only [find_cons, find_nil] at hf
    split at hf
    · rename_i e; cases hf
      exact .inr ⟨rfl, x, rfl, call_is (by rw [← e]; rfl) hc⟩
    split at hf <;> cases hf
  · cases ht
    simp only [find_cons, find_nil] at hf
    iterate 2 (split at hf; · cases hf)
    cases hf

theorem describe_final {c : Elem} (hh : hookOf c = some (some dTable)) {p} (h : Final c p) :
    (∃ x, p = [x] ∧ Is .tupleDescriptor x) ∨
    (∃ t x, p = [t, x] ∧ Is .attributeTypes t ∧ (Is .tupleDescriptor x ∨ Is (.empty .noData) x)) := by
  cases h with
  | @mk p st ts tb x path r hst hh' ht hf hc =>
    rw [hh] at hh'
    cases hh'
    rcases describe_steps hh hst with ⟨rfl, rfl⟩ | ⟨rfl, t, rfl, h1⟩
    · cases ht
      simp only [find_cons, find_nil] at hf
      split at hf
      · cases hf
      split at hf
      · rename_i e; cases hf
        exact .inl ⟨x, rfl, call_is (by rw [← e]; rfl) hc⟩
      · cases hf
    · cases ht
      simp only [find_cons, find_nil] at hf
      split at hf
      · rename_i e; cases hf
        exact .inr ⟨t, x, rfl, h1, .inr (call_is (by rw [← e]; rfl) hc)⟩
      split at hf
      · rename_i e; cases hf
        exact .inr ⟨t, x, rfl, h1, .inl (call_is (by rw [← e]; rfl) hc)⟩
      · cases hf

def fTable : List Table := [[(86, .parse .functionResult, some 1)], [(90, .parse .ready, none)]]

theorem function_steps {c : Elem} (hh : hookOf c = some (some fTable)) {p st} (h : Steps c p st) :
    (st = 0 ∧ p = []) ∨ (st = 1 ∧ ∃ t, p = [t] ∧ Is .functionResult t) := by
  refine Steps.ind hh (fun p st => (st = 0 ∧ p = []) ∨ (st = 1 ∧ ∃ t, p = [t] ∧ Is .functionResult t)) (.inl ⟨rfl, rfl⟩) ?_ h
  intro p st tb x path n r hI ht hf hc
  rcases hI with ⟨rfl, rfl⟩ | ⟨rfl, t, rfl, h1⟩
  · cases ht
    simp only [find_cons, find_nil] at hf
    split at hf
    · rename_i e; cases hf
      exact .inr ⟨rfl, x, rfl, call_is (by rw [← e]; rfl) hc⟩
    cases hf
  · cases ht
    simp only [find_cons, find_nil] at hf
    split at hf <;> cases hf

/-- L1: what the tables accept is an answer. -/
theorem final_ans {c : Elem} {p : List Msg} (hcmd : IsCommand c) (h : Final c p) : Ans c p := by
  have hh : ∃ ts, hookOf c = some (some ts) := by cases h with | mk _ hh => exact ⟨_, hh⟩
  obtain ⟨ts, hh⟩ := hh
  cases c with
  | str k d =>
    cases k with
    | query => exact query_final h
    | describeStatement =>
      rcases describe_final rfl h with ⟨x, rfl, hx⟩ | ⟨t, x, rfl, ht, hx⟩
      · exact .describeRow (.inl rfl) hx
      · exact .describeArgs (.inl rfl) ht hx
    | describePortal =>
      rcases describe_final rfl h with ⟨x, rfl, hx⟩ | ⟨t, x, rfl, ht, hx⟩
      · exact .describeRow (.inr rfl) hx
      · exact .describeArgs (.inr rfl) ht hx
    | closeStatement => obtain ⟨x, rfl, hx⟩ := single_final (k := .empty .closeComplete) rfl rfl h; exact .close (.inl rfl) hx
    | closePortal => obtain ⟨x, rfl, hx⟩ := single_final (k := .empty .closeComplete) rfl rfl h; exact .close (.inr rfl) hx
    | password => cases hh
    | copyFail => cases hh
  | parse => obtain ⟨x, rfl, hx⟩ := single_final (k := .empty .parseComplete) rfl rfl h; exact .parse hx
  | bind => obtain ⟨x, rfl, hx⟩ := single_final (k := .empty .bindComplete) rfl rfl h; exact .bind hx
  | execute => exact execute_final h
  | empty k =>
    cases k with
    | synchronize => obtain ⟨x, rfl, hx⟩ := single_final (k := .ready) rfl rfl h; exact .sync hx
    | flush => cases hh
    | _ => cases hh
  | function =>
    cases h with
    | @mk p st ts tb x path r hst hh' ht hf hc =>
      cases hh'
      rcases function_steps rfl hst with ⟨rfl, rfl⟩ | ⟨rfl, t, rfl, h1⟩
      · cases ht
        simp only [find_cons, find_nil] at hf
        split at hf <;> cases hf
      · cases ht
        simp only [find_cons, find_nil] at hf
        split at hf
        · rename_i e; cases hf
          exact .function h1 (call_is (by rw [← e]; rfl) hc)
        · cases hf
  | tuple | copyData | complete | error | copyToBegin | notify | showOption | ready | notice | functionResult | attributeTypes
  | tupleDescriptor | killInformation | cancelRequest | negotiateSSL | startup | authentication | copyFromBegin => cases hcmd

/-! ## L2: answers are accepted -/

theorem Steps.one {c : Elem} {p st ts tb x k n} (h : Steps c p st) (hh : hookOf c = some (some ts)) (ht : ts[st]? = some tb)
    (hi : Is k x) (hf : ∀ ty, k.typ = some ty → tb.find ty = some (.parse k, some n)) : Steps c (p ++ [x]) n := by
  obtain ⟨r, hr⟩ := is_call hi
  exact .snoc h hh ht (hf _ hi.1) hr

theorem Final.one {c : Elem} {p st ts tb x k} (h : Steps c p st) (hh : hookOf c = some (some ts)) (ht : ts[st]? = some tb)
    (hi : Is k x) (hf : ∀ ty, k.typ = some ty → tb.find ty = some (.parse k, none)) : Final c (p ++ [x]) := by
  obtain ⟨r, hr⟩ := is_call hi
  exact .mk h hh ht (hf _ hi.1) hr

theorem Steps.many {c : Elem} {ts tb st} (hh : hookOf c = some (some ts)) (ht : ts[st]? = some tb) (P : Msg → Prop)
    (hP : ∀ x, P x → ∃ path r, tb.find x.1 = some (path, some st) ∧ path.call x.2 = .ok r) :
    ∀ (rs : List Msg) (p : List Msg), Steps c p st → (∀ r ∈ rs, P r) → Steps c (p ++ rs) st
  | [], p, h, _ => by simpa using h
  | x :: rs, p, h, hr => by
    obtain ⟨path, r, h1, h2⟩ := hP x (hr x List.mem_cons_self)
    have := Steps.many hh ht P hP rs (p ++ [x]) (.snoc h hh ht h1 h2) (fun y hy => hr y (List.mem_cons_of_mem _ hy))
    simpa using this

theorem is_path {k : Kind} {tb : Table} {n : Option Nat} (hf : ∀ ty, k.typ = some ty → tb.find ty = some (.parse k, n)) (x : Msg) (h : Is k x) :
    ∃ path r, tb.find x.1 = some (path, n) ∧ path.call x.2 = .ok r := by
  obtain ⟨r, hr⟩ := is_call h
  exact ⟨_, r, hf _ h.1, hr⟩

theorem query_stmt {q p s} (h : Steps (.str .query q) p 0) (hs : Stmt s) : Steps (.str .query q) (p ++ s) 0 := by
  cases hs with
  | command hx => exact h.one (ts := qTable) rfl rfl hx (fun ty e => by cases e; rfl)
  | null hx => exact h.one (ts := qTable) rfl rfl hx (fun ty e => by cases e; rfl)
  | @rows t rs x ht hr hx =>
    have h1 := h.one (ts := qTable) (n := 3) rfl rfl ht (fun ty e => by cases e; rfl)
    have h2 := Steps.many (ts := qTable) rfl rfl (Is .tuple) (is_path (fun ty e => by cases e; rfl)) rs _ h1 hr
    have h3 := h2.one (ts := qTable) (n := 0) rfl rfl hx (fun ty e => by cases e; rfl)
    simpa using h3
  | @copyOut t ls d x ht hl hd hx =>
    have h1 := h.one (ts := qTable) (n := 2) rfl rfl ht (fun ty e => by cases e; rfl)
    have h2 := Steps.many (ts := qTable) rfl rfl IsLine (fun y hy => ⟨.arg, _, by rw [show y.1 = 100 from hy]; rfl, rfl⟩) ls _ h1 hl
    have h3 := h2.one (ts := qTable) (n := 1) rfl rfl hd (fun ty e => by cases e; rfl)
    have h4 := h3.one (ts := qTable) (n := 0) rfl rfl hx (fun ty e => by cases e; rfl)
    simpa using h4
  | copyIn hg hx =>
    have h1 := h.one (ts := qTable) (n := 1) rfl rfl hg (fun ty e => by cases e; rfl)
    have h2 := h1.one (ts := qTable) (n := 0) rfl rfl hx (fun ty e => by cases e; rfl)
    simpa using h2

theorem query_stmts {q} : ∀ (ss : List (List Msg)) (p), Steps (.str .query q) p 0 → (∀ s ∈ ss, Stmt s) →
    Steps (.str .query q) (p ++ ss.flatten) 0
  | [], p, h, _ => by simpa using h
  | s :: ss, p, h, hs => by
    have := query_stmts ss (p ++ s) (query_stmt h (hs s List.mem_cons_self)) (fun y hy => hs y (List.mem_cons_of_mem _ hy))
    simpa using this

/-- L2: an answer to a command other than Flush is accepted by its table. -/
theorem ans_final {c : Elem} {p : List Msg} (h : Ans c p) (hne : c ≠ .empty .flush) : Final c p := by
  cases h with
  | @query q z ss hs hz =>
    have h1 := query_stmts ss [] (q := q) .nil hs
    exact Final.one (ts := qTable) (by simpa using h1) rfl rfl hz (fun ty e => by cases e; rfl)
  | @queryCut q t rs z ss hs ht hr hz =>
    have h1 := query_stmts ss [] (q := q) .nil hs
    have h2 := h1.one (ts := qTable) (n := 3) rfl rfl ht (fun ty e => by cases e; rfl)
    have h3 := Steps.many (ts := qTable) rfl rfl (Is .tuple) (is_path (fun ty e => by cases e; rfl)) rs _ h2 hr
    have h4 := Final.one (ts := qTable) h3 rfl rfl hz (fun ty e => by cases e; rfl)
    simpa using h4
  | @function o a b r v z hv hz =>
    have h1 := Steps.one (c := .function o a b r) (ts := fTable) (n := 1) .nil rfl rfl hv (fun ty e => by cases e; rfl)
    exact Final.one (ts := fTable) h1 rfl rfl hz (fun ty e => by cases e; rfl)
  | parse hx => exact Final.one (p := []) .nil rfl rfl hx (fun ty e => by cases e; rfl)
  | bind hx => exact Final.one (p := []) .nil rfl rfl hx (fun ty e => by cases e; rfl)
  | describeRow hk hx =>
    rcases hk with rfl | rfl <;> exact Final.one (p := []) (ts := dTable) .nil rfl rfl hx (fun ty e => by cases e; rfl)
  | @describeArgs k d t x hk ht hx =>
    rcases hk with rfl | rfl
    · have h1 := Steps.one (c := .str .describeStatement d) (ts := dTable) (n := 1) .nil rfl rfl ht (fun ty e => by cases e; rfl)
      rcases hx with hx | hx <;> exact Final.one (ts := dTable) h1 rfl rfl hx (fun ty e => by cases e; rfl)
    · have h1 := Steps.one (c := .str .describePortal d) (ts := dTable) (n := 1) .nil rfl rfl ht (fun ty e => by cases e; rfl)
      rcases hx with hx | hx <;> exact Final.one (ts := dTable) h1 rfl rfl hx (fun ty e => by cases e; rfl)
  | close hk hx => rcases hk with rfl | rfl <;> exact Final.one (p := []) .nil rfl rfl hx (fun ty e => by cases e; rfl)
  | @execute n m rs x hr hx =>
    cases rs with
    | nil => exact Final.one (p := []) (ts := xTable) .nil rfl rfl hx (fun ty e => by cases e; rfl)
    | cons r rs =>
      have h1 := Steps.one (c := .execute n m) (ts := xTable) (n := 1) .nil rfl rfl (hr r List.mem_cons_self) (fun ty e => by cases e; rfl)
      have h2 := Steps.many (ts := xTable) rfl rfl (Is .tuple) (is_path (fun ty e => by cases e; rfl)) rs _ h1
        (fun y hy => hr y (List.mem_cons_of_mem _ hy))
      exact Final.one (ts := xTable) h2 rfl rfl hx (fun ty e => by cases e; rfl)
  | @executeSuspended n m rs x hne' hr hx =>
    cases rs with
    | nil => exact absurd rfl hne'
    | cons r rs =>
      have h1 := Steps.one (c := .execute n m) (ts := xTable) (n := 1) .nil rfl rfl (hr r List.mem_cons_self) (fun ty e => by cases e; rfl)
      have h2 := Steps.many (ts := xTable) rfl rfl (Is .tuple) (is_path (fun ty e => by cases e; rfl)) rs _ h1
        (fun y hy => hr y (List.mem_cons_of_mem _ hy))
      exact Final.one (ts := xTable) h2 rfl rfl hx (fun ty e => by cases e; rfl)
  | executeNull hx => exact Final.one (p := []) (ts := xTable) .nil rfl rfl hx (fun ty e => by cases e; rfl)
  | @executeCopyOut n m t ls d x ht hl hd hx =>
    have h1 := Steps.one (c := .execute n m) (ts := xTable) (n := 2) .nil rfl rfl ht (fun ty e => by cases e; rfl)
    have h2 := Steps.many (ts := xTable) rfl rfl IsLine (fun y hy => ⟨.arg, _, by rw [show y.1 = 100 from hy]; rfl, rfl⟩) ls _ h1 hl
    have h3 := h2.one (ts := xTable) (n := 3) rfl rfl hd (fun ty e => by cases e; rfl)
    have h4 := Final.one (ts := xTable) h3 rfl rfl hx (fun ty e => by cases e; rfl)
    simpa using h4
  | @executeCopyIn n m g x hg hx =>
    have h1 := Steps.one (c := .execute n m) (ts := xTable) (n := 3) .nil rfl rfl hg (fun ty e => by cases e; rfl)
    exact Final.one (ts := xTable) h1 rfl rfl hx (fun ty e => by cases e; rfl)
  | sync hx => exact Final.one (p := []) .nil rfl rfl hx (fun ty e => by cases e; rfl)
  | flush => exact absurd rfl hne

/-- L4: the beginning of an answer leads somewhere in the table. -/
theorem begun_steps {c : Elem} {p : List Msg} (h : Begun c p) : ∃ st, Steps c p st := by
  obtain ⟨q, hq, ha⟩ := h
  by_cases hc : c = .empty .flush
  · subst hc
    generalize hw : p ++ q = w at ha
    cases ha
    exact absurd (List.append_eq_nil_iff.mp hw).2 hq
  have key : ∀ (q : List Msg), (∃ st, Steps c (p ++ q) st) → ∃ st, Steps c p st := by
    intro q
    induction hn : q.length generalizing q with
    | zero => rw [List.length_eq_zero_iff.mp hn]; simp
    | succ n ih =>
      rintro ⟨st, h⟩
      obtain ⟨q', x, rfl⟩ : ∃ q' x, q = q' ++ [x] := by
        have hne : q ≠ [] := by intro e; rw [e] at hn; cases hn
        exact ⟨q.dropLast, q.getLast hne, (List.dropLast_concat_getLast hne).symm⟩
      generalize hg : p ++ (q' ++ [x]) = w at h
      cases h with
      | nil => simp at hg
      | snoc h1 _ _ _ _ =>
        rw [← List.append_assoc] at hg
        obtain ⟨e, _⟩ := List.append_inj' hg rfl
        rw [← e] at h1
        exact ih q' (by simpa using hn) ⟨_, h1⟩
  have hf := ans_final ha hc
  obtain ⟨q', x, rfl⟩ : ∃ q' x, q = q' ++ [x] := ⟨q.dropLast, q.getLast hq, (List.dropLast_concat_getLast hq).symm⟩
  generalize hg : p ++ (q' ++ [x]) = w at hf
  cases hf with
  | mk h1 _ _ _ _ =>
    rw [← List.append_assoc] at hg
    obtain ⟨e, _⟩ := List.append_inj' hg rfl
    rw [← e] at h1
    exact key q' ⟨_, h1⟩

/-- Some well formed messages. -/
theorem some_complete : Is .complete (67, []) := ⟨rfl, _, rfl⟩
theorem some_ready : Is .ready (90, [73]) := ⟨rfl, _, rfl⟩
theorem some_copyDone : Is (.empty .copyDone) (99, []) := ⟨rfl, _, rfl⟩
theorem some_row : Is .tupleDescriptor (84, [0, 0]) := ⟨rfl, .tupleDescriptor [], by decide⟩

/-- L3: a run through the table is the beginning of an answer. -/
theorem steps_begun {c : Elem} {p : List Msg} {st : Nat} (hcmd : IsCommand c) (hne : c ≠ .empty .flush) (h : Steps c p st) : Begun c p := by
  have fin : ∀ q, q ≠ [] → Final c (p ++ q) → Begun c p := fun q hq hf => ⟨q, hq, final_ans hcmd hf⟩
  have single : ∀ {k : Kind} {ty : UInt8}, k.typ = some ty → hookOf c = some (some [[(ty, .parse k, none)]]) → (∃ x, Is k x) → Begun c p := by
    intro k ty hty hh ⟨x, hx⟩
    obtain ⟨rfl, rfl⟩ := single_steps hh (by
      intro t y hy
      simp only [find_cons, find_nil] at hy
      split at hy
      · cases hy; rfl
      · cases hy) h
    refine fin [x] (by simp) (Final.one (p := []) .nil hh rfl hx (fun t e => ?_))
    rw [hty] at e
    cases e
    simp [find_cons]
  have descr : hookOf c = some (some dTable) → Begun c p := by
    intro hh
    rcases describe_steps hh h with ⟨rfl, rfl⟩ | ⟨rfl, t, rfl, h1⟩
    · exact fin [(84, [0, 0])] (by simp) (Final.one h hh rfl some_row (fun ty e => by cases e; rfl))
    · exact fin [(84, [0, 0])] (by simp) (Final.one h hh rfl some_row (fun ty e => by cases e; rfl))
  cases c with
  | str k d =>
    cases k with
    | query =>
      obtain ⟨ss, hss, ⟨rfl, _⟩ | ⟨rfl, _⟩ | ⟨rfl, _⟩ | ⟨rfl, _⟩⟩ := query_steps h
      · exact fin [(90, [73])] (by simp) (Final.one (ts := qTable) h rfl rfl some_ready (fun ty e => by cases e; rfl))
      · have h1 := h.one (ts := qTable) (n := 0) rfl rfl some_complete (fun ty e => by cases e; rfl)
        have h2 := Final.one (ts := qTable) h1 rfl rfl some_ready (fun ty e => by cases e; rfl)
        exact fin [(67, []), (90, [73])] (by simp) (by simpa using h2)
      · have h0 := h.one (ts := qTable) (n := 1) rfl rfl some_copyDone (fun ty e => by cases e; rfl)
        have h1 := h0.one (ts := qTable) (n := 0) rfl rfl some_complete (fun ty e => by cases e; rfl)
        have h2 := Final.one (ts := qTable) h1 rfl rfl some_ready (fun ty e => by cases e; rfl)
        exact fin [(99, []), (67, []), (90, [73])] (by simp) (by simpa using h2)
      · exact fin [(90, [73])] (by simp) (Final.one (ts := qTable) h rfl rfl some_ready (fun ty e => by cases e; rfl))
    | describeStatement => exact descr rfl
    | describePortal => exact descr rfl
    | closeStatement => exact single (k := .empty .closeComplete) rfl rfl ⟨(51, []), rfl, _, rfl⟩
    | closePortal => exact single (k := .empty .closeComplete) rfl rfl ⟨(51, []), rfl, _, rfl⟩
    | password => cases hcmd
    | copyFail => cases hcmd
  | parse => exact single (k := .empty .parseComplete) rfl rfl ⟨(49, []), rfl, _, rfl⟩
  | bind => exact single (k := .empty .bindComplete) rfl rfl ⟨(50, []), rfl, _, rfl⟩
  | execute =>
    obtain ⟨rfl, _⟩ | ⟨rfl, _⟩ | ⟨rfl, _⟩ | ⟨rfl, _⟩ := execute_steps h
    · exact fin [(67, [])] (by simp) (Final.one (ts := xTable) h rfl rfl some_complete (fun ty e => by cases e; rfl))
    · exact fin [(67, [])] (by simp) (Final.one (ts := xTable) h rfl rfl some_complete (fun ty e => by cases e; rfl))
    · have h0 := h.one (ts := xTable) (n := 3) rfl rfl some_copyDone (fun ty e => by cases e; rfl)
      have h1 := Final.one (ts := xTable) h0 rfl rfl some_complete (fun ty e => by cases e; rfl)
      exact fin [(99, []), (67, [])] (by simp) (by simpa using h1)
    · exact fin [(67, [])] (by simp) (Final.one (ts := xTable) h rfl rfl some_complete (fun ty e => by cases e; rfl))
  | function =>
    rcases function_steps rfl h with ⟨rfl, rfl⟩ | ⟨rfl, t, rfl, h1⟩
    · have hv : Is .functionResult (86, [0, 0, 0, 0]) := ⟨rfl, .functionResult (some []), by decide⟩
      have h0 := h.one (ts := fTable) (n := 1) rfl rfl hv (fun ty e => by cases e; rfl)
      have h1 := Final.one (ts := fTable) h0 rfl rfl some_ready (fun ty e => by cases e; rfl)
      exact fin [(86, [0, 0, 0, 0]), (90, [73])] (by simp) (by simpa using h1)
    · exact fin [(90, [73])] (by simp) (Final.one (ts := fTable) h rfl rfl some_ready (fun ty e => by cases e; rfl))
  | empty k =>
    cases k with
    | synchronize => exact single (k := .ready) rfl rfl ⟨(90, [73]), some_ready⟩
    | flush => exact absurd rfl hne
    | _ => cases hcmd
  | tuple | copyData | complete | error | copyToBegin | notify | showOption | ready | notice | functionResult | attributeTypes
  | tupleDescriptor | killInformation | cancelRequest | negotiateSSL | startup | authentication | copyFromBegin => cases hcmd

end PG.Xact3
