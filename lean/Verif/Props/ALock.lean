import Verif.Model.ALock
/-! # Advisory locks (C38) -/
namespace PG.ALock
open PG

/-! ## The locks in a statement -/

theorem sqlKeys_ids (l : List Ident) : sqlKeys (idPairs l) (ids l) = l := by
  induction l with
  | nil => rfl
  | cons k l ih =>
    unfold sqlKeys idPairs ids at ih ⊢
    cases k <;> simp only [List.map_cons, List.zip_cons_cons, List.filterMap_cons, rowKey] <;> rw [ih]

theorem sqlKeys_reverse (l : List Ident) : sqlKeys (idPairs l).reverse (ids l).reverse = l.reverse := by
  have h1 : (idPairs l).reverse = idPairs l.reverse := by unfold idPairs; rw [List.map_reverse]
  have h2 : (ids l).reverse = ids l.reverse := by unfold ids; rw [List.map_reverse]
  rw [h1, h2, sqlKeys_ids]

theorem grants_held (m : Mode) : ∀ (l : List Ident) (s : Session) (k : Ident) (m' : Mode), (grants m s l).held k m' = s.held k m' + if m' = m then l.count k else 0
  | [], s, k, m' => by simp [grants]
  | a :: l, s, k, m' => by
    have := grants_held m l (s.grant m a) k m'
    unfold grants at this ⊢
    rw [List.foldl_cons, this]
    simp only [Session.grant]
    by_cases hm : m' = m
    · subst hm
      rw [List.count_cons]
      by_cases hk : k = a
      · subst hk; simp; omega
      · rw [if_neg (fun g => hk g.1), if_pos rfl, if_pos rfl, if_neg (by simpa using fun g => hk g.symm)]
        rfl
    · rw [if_neg (fun g => hm g.2), if_neg hm, if_neg hm]

theorem drops_held (m : Mode) : ∀ (l : List Ident) (s : Session) (k : Ident) (m' : Mode), (drops m s l).held k m' = s.held k m' - if m' = m then l.count k else 0
  | [], s, k, m' => by simp [drops]
  | a :: l, s, k, m' => by
    have := drops_held m l (s.drop m a) k m'
    unfold drops at this ⊢
    rw [List.foldl_cons, this]
    simp only [Session.drop]
    by_cases hm : m' = m
    · subst hm
      rw [List.count_cons]
      by_cases hk : k = a
      · subst hk; simp; omega
      · rw [if_neg (fun g => hk g.1), if_pos rfl, if_pos rfl, if_neg (by simpa using fun g => hk g.symm)]
        rfl
    · rw [if_neg (fun g => hm g.2), if_neg hm, if_neg hm]

theorem grants_closed (m : Mode) (l : List Ident) (s : Session) : (grants m s l).closed = s.closed := by
  induction l generalizing s with
  | nil => rfl
  | cons a l ih => exact ih (s.grant m a)

theorem drops_closed (m : Mode) (l : List Ident) (s : Session) : (drops m s l).closed = s.closed := by
  induction l generalizing s with
  | nil => rfl
  | cons a l ih => exact ih (s.drop m a)

theorem drops_log (m : Mode) (l : List Ident) (s : Session) : (drops m s l).log = s.log ++ l.map fun k => .unlock k m := by
  induction l generalizing s with
  | nil => simp [drops]
  | cons a l ih =>
    have := ih (s.drop m a)
    unfold drops at this ⊢
    rw [List.foldl_cons, this]
    simp [Session.drop]

theorem trySome_grants (m : Mode) : ∀ (l : List (Ident × Bool)) (s : Session), trySome m s l = grants m s ((l.filter Prod.snd).map Prod.fst)
  | [], s => rfl
  | (k, true) :: l, s => by
    have := trySome_grants m l (s.grant m k)
    simp only [trySome, if_true]
    rw [this]
    rfl
  | (k, false) :: l, s => by
    have := trySome_grants m l s
    simp only [trySome]
    rw [if_neg (by simp), this]
    rfl

theorem zip_swap : ∀ (l : List Ident) (t : List Bool), ((t.zip l).filter Prod.fst).map Prod.snd = ((l.zip t).filter Prod.snd).map Prod.fst
  | [], t => by simp
  | k :: l, [] => by simp
  | k :: l, b :: t => by
    have := zip_swap l t
    cases b <;> simp [this]

theorem granted_all : ∀ (l : List Ident) (t : List Bool), t.length = l.length → (((l.zip t).filter Prod.snd).map Prod.fst).length = l.length → ((l.zip t).filter Prod.snd).map Prod.fst = l
  | [], t, _, _ => by simp
  | k :: l, [], h, _ => by simp at h
  | k :: l, true :: t, h, h2 => by
    simp only [List.zip_cons_cons, List.filter_cons_of_pos, List.map_cons] at h2 ⊢
    rw [granted_all l t (by simpa using h) (by simpa using h2)]
  | k :: l, false :: t, h, h2 => by
    simp only [List.zip_cons_cons] at h2
    rw [List.filter_cons_of_neg (by simp), List.length_map] at h2
    have h3 : ((l.zip t).filter Prod.snd).length ≤ (l.zip t).length := List.length_filter_le ..
    rw [List.length_zip] at h3
    simp at h2 h
    omega

theorem granted_all_true (l : List Ident) : ∀ t : List Bool, t.length = l.length → (∀ b ∈ t, b = true) → ((l.zip t).filter Prod.snd).map Prod.fst = l := by
  induction l with
  | nil => intro t _ _; simp
  | cons k l ih =>
    intro t ht hb
    cases t with
    | nil => simp at ht
    | cons b t =>
      have : b = true := hb b (by simp)
      subst this
      simp only [List.zip_cons_cons, List.filter_cons_of_pos, List.map_cons]
      rw [ih t (by simpa using ht) (fun b hb' => hb b (by simp [hb']))]

/-- **C38 (a refused lock leaves nothing behind).** A non-blocking `acquire` that returns False has not changed what the session holds nor the object, whatever
the server granted; the locks it had been granted are given up last to first. -/
theorem C38_refused (l : Lock) (s : Session) (a : Answer) (h : (acquire l s false a).1 = .ret false) :
    (acquire l s false a).2.1 = l ∧ (∀ k m, (acquire l s false a).2.2.held k m = s.held k m) ∧ (acquire l s false a).2.2.closed = s.closed ∧
    ∃ granted : List Ident, (acquire l s false a).2.2.log = s.log ++ (granted.map fun k => .lock k l.mode) ++ (granted.reverse.map fun k => .unlock k l.mode) := by
  unfold acquire at h ⊢
  by_cases h0 : l.count = 0
  · rw [if_pos h0] at h ⊢
    by_cases hc : s.closed = true
    · rw [if_pos hc] at h; simp at h
    · rw [if_neg hc] at h ⊢
      rw [if_neg (by simp)] at h ⊢
      dsimp only at h ⊢
      rw [sqlKeys_ids] at h ⊢
      by_cases hr : (((a.tried.zip l.identifiers).filter Prod.fst).map Prod.snd).length ≠ l.identifiers.length
      · rw [if_pos hr] at h ⊢
        rw [zip_swap, sqlKeys_ids, trySome_grants]
        refine ⟨rfl, ?_, by rw [drops_closed, grants_closed], ⟨((l.identifiers.zip a.tried).filter Prod.snd).map Prod.fst, ?_⟩⟩
        · intro k m
          rw [drops_held, grants_held, List.count_reverse]
          omega
        · rw [drops_log]
          congr 1
          generalize ((l.identifiers.zip a.tried).filter Prod.snd).map Prod.fst = g
          clear h hc hr
          induction g generalizing s with
          | nil => simp [grants]
          | cons x g ih =>
            have := ih (s.grant l.mode x)
            unfold grants at this ⊢
            rw [List.foldl_cons, this]
            simp [Session.grant]
      · rw [if_neg hr] at h; simp at h
  · rw [if_neg h0] at h; simp at h

example : let l : Lock := ⟨.exclusive, [.int 1, .pair 0 2, .int 1, .int 4], 0⟩
    let r := acquire l ⟨fun _ _ => 0, [], false⟩ false ⟨[true, false, true, true], none⟩
    r.1 = .ret false ∧ r.2.2.log = [.lock (.int 1) .exclusive, .lock (.int 1) .exclusive, .lock (.int 4) .exclusive, .unlock (.int 4) .exclusive, .unlock (.int 1) .exclusive,
      .unlock (.int 1) .exclusive] := by decide

/-- A non-blocking `acquire` of a lock that is not held is refused exactly when the server refuses one of the locks. -/
theorem C38_try (l : Lock) (s : Session) (a : Answer) (h0 : l.count = 0) (hc : s.closed = false) (ht : a.tried.length = l.identifiers.length) :
    (acquire l s false a).1 = .ret true ↔ ∀ b ∈ a.tried, b = true := by
  unfold acquire
  rw [if_pos h0, if_neg (by simp [hc]), if_neg (by simp)]
  dsimp only
  rw [sqlKeys_ids, zip_swap]
  constructor
  · intro h
    by_cases hr : (((l.identifiers.zip a.tried).filter Prod.snd).map Prod.fst).length ≠ l.identifiers.length
    · rw [if_pos hr] at h; simp at h
    · have hr : (((l.identifiers.zip a.tried).filter Prod.snd).map Prod.fst).length = l.identifiers.length := by simpa using hr
      clear h
      revert ht hr
      generalize l.identifiers = i
      generalize a.tried = t
      intro ht hr b hb
      induction i generalizing t with
      | nil => simp at ht; subst ht; simp at hb
      | cons k i ih =>
        cases t with
        | nil => simp at hb
        | cons c t =>
          have hc : c = true := by
            cases c with
            | true => rfl
            | false =>
              simp only [List.zip_cons_cons] at hr
              rw [List.filter_cons_of_neg (by simp), List.length_map] at hr
              have h3 : ((i.zip t).filter Prod.snd).length ≤ (i.zip t).length := List.length_filter_le ..
              rw [List.length_zip] at h3
              simp at hr ht
              omega
          subst hc
          rcases List.mem_cons.mp hb with rfl | hb
          · rfl
          · exact ih t (by simpa using ht) (by simpa using hr) hb
  · intro h
    rw [granted_all_true _ _ ht h, if_neg (by simp)]

/-! ## Programs that do not nest -/

/-- What an object holds. -/
def Lock.holds (l : Lock) (k : Ident) (m : Mode) : Nat := if l.count > 0 ∧ l.mode = m then l.identifiers.count k else 0

/-- What all objects hold. -/
def total (ls : List Lock) (k : Ident) (m : Mode) : Nat := (ls.map fun l => l.holds k m).sum

/-- No object is acquired again before it is released, the server does not fail while waiting, and it answers for every lock. -/
def Flat (st : State) : List Op → Prop
  | [] => True
  | o :: os => (match o with
      | .acquire i b a => ∀ l, st.locks[i]? = some l → l.count = 0 ∧ (b = true → a.failAt = none) ∧ a.tried.length = l.identifiers.length
      | _ => True) ∧ Flat (step st o).2 os

/-- What holds between operations. -/
structure Inv (st : State) : Prop where
  open_ : st.session.closed = false → ∀ k m, st.session.held k m = total st.locks k m
  closed : st.session.closed = true → ∀ k m, st.session.held k m = 0
  count : ∀ l ∈ st.locks, l.count ≤ 1

theorem total_set (ls : List Lock) (i : Nat) (l l' : Lock) (k : Ident) (m : Mode) (h : ls[i]? = some l) : total (ls.set i l') k m + l.holds k m = total ls k m + l'.holds k m := by
  induction ls generalizing i with
  | nil => simp at h
  | cons a ls ih =>
    cases i with
    | zero =>
      simp at h
      subst h
      simp only [List.set_cons_zero, total, List.map_cons, List.sum_cons]
      omega
    | succ i =>
      have := ih i (by simpa using h)
      simp only [List.set_cons_succ, total, List.map_cons, List.sum_cons] at this ⊢
      omega

theorem total_ge (ls : List Lock) (i : Nat) (l : Lock) (k : Ident) (m : Mode) (h : ls[i]? = some l) : l.holds k m ≤ total ls k m := by
  induction ls generalizing i with
  | nil => simp at h
  | cons a ls ih =>
    cases i with
    | zero =>
      simp at h
      subst h
      simp [total]
    | succ i =>
      have := ih i (by simpa using h)
      simp only [total, List.map_cons, List.sum_cons] at this ⊢
      omega

theorem mem_set {ls : List Lock} {i : Nat} {l' : Lock} (h : ∀ l ∈ ls, l.count ≤ 1) (h' : l'.count ≤ 1) : ∀ l ∈ ls.set i l', l.count ≤ 1 := by
  intro l hl
  rcases List.mem_or_eq_of_mem_set hl with hl | rfl
  · exact h l hl
  · exact h'

theorem acquire_flat (l : Lock) (s : Session) (b : Bool) (a : Answer) (h0 : l.count = 0) (hf : b = true → a.failAt = none) (ht : a.tried.length = l.identifiers.length) :
    (acquire l s b a).2.2.closed = s.closed ∧ (s.closed = true → (acquire l s b a).2.1 = l ∧ (acquire l s b a).2.2 = s) ∧
    (acquire l s b a).2.1.count ≤ 1 ∧ ∀ k m, (acquire l s b a).2.2.held k m = s.held k m + (acquire l s b a).2.1.holds k m := by
  have hz : ∀ k m, l.holds k m = 0 := by intro k m; unfold Lock.holds; rw [if_neg (by omega)]
  have hone : ∀ k m, ({ l with count := l.count + 1 } : Lock).holds k m = if m = l.mode then l.identifiers.count k else 0 := by
    intro k m
    unfold Lock.holds
    by_cases hm : m = l.mode
    · rw [if_pos hm, if_pos ⟨by simp, hm.symm⟩]
    · rw [if_neg hm, if_neg (fun g => hm g.2.symm)]
  unfold acquire
  rw [if_pos h0]
  by_cases hc : s.closed = true
  · rw [if_pos hc]
    exact ⟨rfl, fun _ => ⟨rfl, rfl⟩, by dsimp only; omega, fun k m => by rw [hz]; rfl⟩
  · rw [if_neg hc, sqlKeys_ids]
    cases b with
    | true =>
      rw [if_pos rfl, hf rfl]
      refine ⟨grants_closed .., fun h => absurd h hc, by dsimp only; omega, fun k m => ?_⟩
      rw [hone]
      exact grants_held ..
    | false =>
      rw [if_neg (by simp)]
      dsimp only
      by_cases hr : (((a.tried.zip l.identifiers).filter Prod.fst).map Prod.snd).length ≠ l.identifiers.length
      · rw [if_pos hr, zip_swap, sqlKeys_ids, trySome_grants]
        refine ⟨by rw [drops_closed, grants_closed], fun h => absurd h hc, by dsimp only; omega, fun k m => ?_⟩
        rw [hz, drops_held, grants_held, List.count_reverse]
        omega
      · rw [if_neg hr, trySome_grants]
        rw [zip_swap] at hr
        rw [granted_all _ _ ht (by simpa using hr)]
        refine ⟨grants_closed .., fun h => absurd h hc, by dsimp only; omega, fun k m => ?_⟩
        rw [hone]
        exact grants_held ..

theorem step_acquire (st : State) (i : Nat) (b : Bool) (a : Answer) (l : Lock) (hl : st.locks[i]? = some l) :
    (step st (.acquire i b a)).2 = ⟨(acquire l st.session b a).2.2, st.locks.set i (acquire l st.session b a).2.1⟩ := by
  simp only [step, hl]

theorem step_release (st : State) (i : Nat) (l : Lock) (hl : st.locks[i]? = some l) :
    (step st (.release i)).2 = ⟨(release l st.session).2.2, st.locks.set i (release l st.session).2.1⟩ := by
  simp only [step, hl]

theorem inv_step (st : State) (o : Op) (os : List Op) (h : Inv st) (hf : Flat st (o :: os)) : Inv (step st o).2 := by
  obtain ⟨ho, hc, hn⟩ := h
  cases o with
  | acquire i b a =>
    cases hl : st.locks[i]? with
    | none => simp only [step, hl]; exact ⟨ho, hc, hn⟩
    | some l =>
      obtain ⟨h0, h1, h2⟩ := hf.1 l hl
      obtain ⟨g1, g2, g3, g4⟩ := acquire_flat l st.session b a h0 h1 h2
      rw [step_acquire st i b a l hl]
      have hz : ∀ k m, l.holds k m = 0 := by intro k m; unfold Lock.holds; rw [if_neg (by omega)]
      refine ⟨fun hcl k m => ?_, fun hcl k m => ?_, mem_set hn g3⟩
      · dsimp only at hcl ⊢
        rw [g1] at hcl
        rw [g4, ho hcl]
        have := total_set st.locks i l (acquire l st.session b a).2.1 k m hl
        rw [hz] at this
        omega
      · dsimp only at hcl ⊢
        rw [g1] at hcl
        rw [(g2 hcl).2]
        exact hc hcl k m
  | release i =>
    cases hl : st.locks[i]? with
    | none => simp only [step, hl]; exact ⟨ho, hc, hn⟩
    | some l =>
      have hln := hn l (List.mem_of_getElem? hl)
      rw [step_release st i l hl]
      unfold release
      by_cases h0 : l.count < 1
      · rw [if_pos h0]
        have : st.locks.set i l = st.locks := by
          obtain ⟨h, rfl⟩ := List.getElem?_eq_some_iff.mp hl
          rw [List.set_getElem_self]
        dsimp only
        rw [this]
        exact ⟨ho, hc, hn⟩
      · have h1 : l.count = 1 := by omega
        have hz : ∀ k m, ({ l with count := l.count - 1 } : Lock).holds k m = 0 := by
          intro k m; unfold Lock.holds; rw [if_neg (by simp [h1])]
        have hh : ∀ k m, l.holds k m = if m = l.mode then l.identifiers.count k else 0 := by
          intro k m
          unfold Lock.holds
          by_cases hm : m = l.mode
          · rw [if_pos hm, if_pos ⟨by omega, hm.symm⟩]
          · rw [if_neg hm, if_neg (fun g => hm g.2.symm)]
        rw [if_neg h0]
        by_cases hcl : st.session.closed = true
        · rw [if_neg (by simp [hcl])]
          exact ⟨fun h => by dsimp only at h; rw [hcl] at h; simp at h, hc, mem_set hn (by dsimp only; omega)⟩
        · have hcl : st.session.closed = false := by simpa using hcl
          rw [if_pos ⟨by simp [hcl], by omega⟩, sqlKeys_reverse]
          refine ⟨fun _ k m => ?_, fun h => ?_, mem_set hn (by dsimp only; omega)⟩
          · dsimp only
            rw [drops_held, List.count_reverse, ho hcl, ← hh]
            have := total_set st.locks i l { l with count := l.count - 1 } k m hl
            rw [hz] at this
            have := total_ge st.locks i l k m hl
            omega
          · dsimp only at h
            rw [drops_closed, hcl] at h
            simp at h
  | close =>
    exact ⟨fun h => by simp [step, Session.close] at h, fun _ _ _ => rfl, hn⟩

theorem inv_run : ∀ (os : List Op) (st : State), Inv st → Flat st os → Inv (run st os).2
  | [], _, h, _ => h
  | o :: os, st, h, hf => inv_run os (step st o).2 (inv_step st o os h hf) hf.2

theorem zero_sum {α : Type} : ∀ l : List α, 0 = (l.map fun _ => 0).sum
  | [] => rfl
  | _ :: l => by rw [List.map_cons, List.sum_cons, ← zero_sum l]

theorem inv_start (l : List (Mode × List Ident)) : Inv (start l) := by
  refine ⟨fun _ k m => ?_, fun h => by simp [start] at h, fun x hx => ?_⟩
  · unfold start total
    dsimp only
    rw [List.map_map]
    have : ((fun l : Lock => l.holds k m) ∘ fun x : Mode × List Ident => (⟨x.1, x.2, 0⟩ : Lock)) = fun _ => 0 := by
      funext x
      simp [Lock.holds]
    rw [this]
    exact zero_sum l
  · obtain ⟨y, _, rfl⟩ := List.mem_map.mp hx
    simp

/-- **C38, for programs that do not nest (partial).** The full property is that `locked()` is true exactly when the server holds the locks, also when an object
is acquired several times; that is false, see `C38_nested_release`. For any number of lock objects on one connection, any program that does not acquire
an object it has acquired, and whatever other sessions do: while the connection is open the session holds each lock exactly as often as it occurs in
objects that are `locked()`; when it is closed it holds nothing and no object is `locked()`. -/
theorem C38_flat_partial (objects : List (Mode × List Ident)) (program : List Op) (h : Flat (start objects) program) :
    let st := (run (start objects) program).2
    (∀ k m, st.session.held k m = (st.locks.map fun l => if locked l st.session = true ∧ l.mode = m then l.identifiers.count k else 0).sum) ∧
    ∀ l ∈ st.locks, locked l st.session = true → ∀ k ∈ l.identifiers, 0 < st.session.held k l.mode := by
  have hi := inv_run program (start objects) (inv_start objects) h
  generalize (run (start objects) program).2 = st at hi
  dsimp only
  have key : ∀ k m, st.session.held k m = (st.locks.map fun l => if locked l st.session = true ∧ l.mode = m then l.identifiers.count k else 0).sum := by
    intro k m
    cases hc : st.session.closed with
    | true =>
      rw [hi.closed hc]
      have : (fun l : Lock => if locked l st.session = true ∧ l.mode = m then l.identifiers.count k else 0) = fun _ => 0 := by
        funext l
        rw [if_neg]
        simp [locked, hc]
      rw [this]
      generalize st.locks = ls
      induction ls with
      | nil => rfl
      | cons a l ih => simpa using ih
    | false =>
      rw [hi.open_ hc]
      unfold total
      congr 2
      funext l
      unfold Lock.holds
      congr 1
      simp [locked, hc]
  refine ⟨key, fun l hl hlk k hk => ?_⟩
  have hc : st.session.closed = false := by
    unfold locked at hlk
    simp at hlk
    exact hlk.2
  have hcount : 0 < l.count := by
    unfold locked at hlk
    simp at hlk
    exact hlk.1
  obtain ⟨i, hi', rfl⟩ := List.mem_iff_getElem.mp hl
  rw [hi.open_ hc]
  have := total_ge st.locks i st.locks[i] k st.locks[i].mode (List.getElem?_eq_getElem hi')
  unfold Lock.holds at this
  rw [if_pos ⟨hcount, rfl⟩] at this
  have := List.count_pos_iff.mpr hk
  omega

example : Flat (start [(.exclusive, [.int 1, .pair 0 0]), (.share, [.int 1])]) [.acquire 0 false ⟨[true, false], none⟩, .acquire 0 true ⟨[true, true], none⟩, .acquire 1 true ⟨[true], none⟩,
    .release 0, .acquire 0 true ⟨[true, true], none⟩, .close, .release 0] := by
  simp [Flat, step, start, acquire, release, idPairs, ids, sqlKeys, rowKey, trySome, grants, drops, Session.grant, Session.drop]

/-- `release` gives the locks up last to first. -/
theorem C38_release_order (l : Lock) (s : Session) (h : 0 < l.count) (hc : s.closed = false) :
    (release l s).2.2.log = s.log ++ l.identifiers.reverse.map fun k => .unlock k l.mode := by
  unfold release
  rw [if_neg (by omega), if_pos ⟨by simp [hc], h⟩, sqlKeys_reverse, drops_log]

/-- A lock that is not held cannot be released. -/
theorem C38_not_held (l : Lock) (s : Session) (h : l.count = 0) : release l s = (.runtimeError, l, s) := by
  unfold release
  rw [if_pos (by omega)]

/-- **C38 fails for nested use.** Acquiring any object twice and releasing it once gives the locks up on the server, while `locked()` stays true: the
documentation says that a lock is released when it is released as often as it was acquired. -/
theorem C38_nested_release (mode : Mode) (k : Ident) (l : List Ident) (a b : Answer) (ha : a.failAt = none) :
    let st := (run (start [(mode, k :: l)]) [.acquire 0 true a, .acquire 0 true b, .release 0]).2
    (∃ o, st.locks = [o] ∧ locked o st.session = true) ∧ ∀ k' m, st.session.held k' m = 0 := by
  let g := grants mode ⟨fun _ _ => 0, [], false⟩ (k :: l)
  have hg : g.closed = false := grants_closed ..
  have e1 : acquire ⟨mode, k :: l, 0⟩ ⟨fun _ _ => 0, [], false⟩ true a = (.ret true, ⟨mode, k :: l, 1⟩, g) := by
    unfold acquire
    rw [if_pos rfl, if_neg (by simp), if_pos rfl, ha, sqlKeys_ids]
  have e2 : acquire ⟨mode, k :: l, 1⟩ g true b = (.ret true, ⟨mode, k :: l, 2⟩, g) := by
    unfold acquire
    rw [if_neg (by simp)]
  have e3 : release ⟨mode, k :: l, 2⟩ g = (.none, ⟨mode, k :: l, 1⟩, drops mode g (k :: l).reverse) := by
    unfold release
    rw [if_neg (by simp), if_pos ⟨by simp [hg], by simp⟩, sqlKeys_reverse]
    rfl
  have e : (run (start [(mode, k :: l)]) [.acquire 0 true a, .acquire 0 true b, .release 0]).2 = ⟨drops mode g (k :: l).reverse, [⟨mode, k :: l, 1⟩]⟩ := by
    simp only [run, step, start, List.map_cons, List.map_nil, List.getElem?_cons_zero, e1, e2, e3, List.set_cons_zero]
  rw [e]
  refine ⟨⟨⟨mode, k :: l, 1⟩, rfl, ?_⟩, fun k' m => ?_⟩
  · unfold locked
    rw [drops_closed, hg]
    rfl
  · dsimp only
    rw [drops_held, grants_held, List.count_reverse]
    dsimp only
    omega

/-- Nested use of one object takes a lock away from another object. -/
theorem C38_nested_steals : let st := (run (start [(.exclusive, [.int 1]), (.exclusive, [.int 1])])
      [.acquire 0 true ⟨[], none⟩, .acquire 0 true ⟨[], none⟩, .acquire 1 true ⟨[], none⟩, .release 0, .release 0]).2
    st.locks.map (fun l => locked l st.session) = [false, true] ∧ st.session.held (.int 1) .exclusive = 0 := by decide

/-- When the server fails while it waits for the second lock, the first stays held, though no object is `locked()` and none can be released. -/
theorem C38_failed_acquire : let r := run (start [(.exclusive, [.int 1, .int 2])]) [.acquire 0 true ⟨[], some 1⟩, .release 0]
    r.1 = [.raised, .runtimeError] ∧ r.2.session.held (.int 1) .exclusive = 1 := by decide

end PG.ALock
