import Verif.Model.DbApi
import Verif.Spec.DbApi
/-! # DB-API cursors (C36) -/
namespace PG.DbApi
open PG PG.Spec.DbApi

variable {ρ ε : Type}

/-- What a portal has still to deliver. -/
def Portal.left (p : Portal ρ ε) : List (Item ρ ε) := (p.buf.drop p.pos).map .row ++ result p.chunks

/-- A portal as it is after any call. -/
def Portal.Ok (p : Portal ρ ε) : Prop := p.pos ≤ p.buf.length

/-- What the user sees of the outcome of a call. -/
def outOf {β : Type} (f : β → Out ρ ε) : Except (Exc ε) β → Out ρ ε
  | .ok b => f b
  | .error .stop => .stopIteration
  | .error (.database e) => .failure e
  | .error .closed => .isClosed
  | .error .noPortal => .noResult

/-- A call by the user. -/
def call (c : Cursor ρ ε) : Op ρ ε → Out ρ ε × Cursor ρ ε
  | .fetchone => let r := c.fetchone; (outOf (fun | some r => .row r | none => .noRow) r.1, r.2)
  | .next => let r := c.next; (outOf .row r.1, r.2)
  | .fetchmany n => let r := c.fetchmany (n.map Int.ofNat); (outOf .rows r.1, r.2)
  | .fetchall => let r := c.fetchall; (outOf .rows r.1, r.2)
  | .nextset => let r := c.nextset; (outOf .sets r.1, r.2)
  | .execute rows => let r := c.executed rows; (outOf (fun _ => .done) r.1, r.2)
  | .setArraysize n => (.done, { c with arraysize := n })
  | .close => let r := c.close; (outOf (fun _ => .done) r.1, r.2)

/-- A sequence of calls by the user. -/
def calls (c : Cursor ρ ε) : List (Op ρ ε) → List (Out ρ ε) × Cursor ρ ε
  | [] => ([], c)
  | o :: os => ((call c o).1 :: (calls (call c o).2 os).1, (calls (call c o).2 os).2)

theorem untilFailure_rows (l : List ρ) (m : List (Item ρ ε)) : untilFailure (l.map .row ++ m) = (l ++ (untilFailure m).1, (untilFailure m).2) := by
  induction l with
  | nil => rfl
  | cons a l ih => simp only [List.map_cons, List.cons_append, untilFailure, ih]

theorem nextChunk_spec (stop : Out ρ ε) (g : ρ → Out ρ ε) (hg : ∀ r, g r = .row r) : ∀ (cs : List (Except ε (List ρ))) (buf : List ρ) (pos : Nat), pos = buf.length →
    (match nextChunk buf pos cs with
      | (.ok r, p') => one stop (result cs) = (g r, p'.left) ∧ p'.Ok
      | (.error .stop, p') => one stop (result cs) = (stop, p'.left) ∧ p'.Ok
      | (.error (.database e), p') => one stop (result cs) = (.failure e, p'.left) ∧ p'.Ok
      | _ => False)
  | [], buf, pos, h => by simp [nextChunk, result, one, Portal.left, Portal.Ok, h]
  | .error e :: cs, buf, pos, h => by simp [nextChunk, result, one, Portal.left, Portal.Ok, h]
  | .ok [] :: cs, buf, pos, h => by
    have := nextChunk_spec stop g hg cs [] 0 rfl
    simpa [nextChunk, result] using this
  | .ok (b :: bs) :: cs, buf, pos, h => by
    simp [nextChunk, result, one, Portal.left, Portal.Ok, hg]

theorem next_spec (stop : Out ρ ε) (p : Portal ρ ε) (h : p.Ok) :
    (match p.next with
      | (.ok r, p') => one stop p.left = (.row r, p'.left) ∧ p'.Ok
      | (.error .stop, p') => one stop p.left = (stop, p'.left) ∧ p'.Ok
      | (.error (.database e), p') => one stop p.left = (.failure e, p'.left) ∧ p'.Ok
      | _ => False) := by
  unfold Portal.next
  by_cases hl : p.pos < p.buf.length
  · rw [List.getElem?_eq_getElem hl]
    simp only [Portal.left, Portal.Ok]
    rw [List.drop_eq_getElem_cons hl]
    refine ⟨rfl, hl⟩
  · have he : p.pos = p.buf.length := by unfold Portal.Ok at h; omega
    rw [List.getElem?_eq_none (by omega)]
    have hx : p.left = result p.chunks := by unfold Portal.left; rw [he]; simp
    rw [hx]
    exact nextChunk_spec stop .row (fun _ => rfl) p.chunks p.buf p.pos he

theorem extendAll_spec : ∀ (cs : List (Except ε (List ρ))) (buf : List ρ),
    extendAll buf cs = (match untilFailure (result cs) with
      | (l, none) => (buf ++ l, [], none)
      | (l, some (e, _)) => (buf ++ l, (extendAll buf cs).2.1, some e)) ∧
    ∀ e m, (untilFailure (result cs)).2 = some (e, m) → result (extendAll buf cs).2.1 = m
  | [], buf => by simp [extendAll, result, untilFailure]
  | .error e :: cs, buf => by simp [extendAll, result, untilFailure]
  | .ok b :: cs, buf => by
    have ih := extendAll_spec cs (buf ++ b)
    simp only [extendAll, result, untilFailure_rows]
    generalize hr : untilFailure (result cs) = r at ih ⊢
    obtain ⟨l, o⟩ := r
    cases o with
    | none => simpa using ih.1
    | some em =>
      obtain ⟨e, m⟩ := em
      refine ⟨by simpa using ih.1, fun e' m' h => ih.2 e' m' ?_⟩
      exact h

theorem readall_spec (p : Portal ρ ε) : (outOf .rows p.readall.1, p.readall.2.left) = take none p.left ∧ p.readall.2.Ok := by
  have hs := extendAll_spec p.chunks (p.buf.drop p.pos)
  unfold Portal.readall take Portal.left
  rw [untilFailure_rows]
  generalize hr : untilFailure (result p.chunks) = r at hs ⊢
  obtain ⟨l, o⟩ := r
  cases o with
  | none => rw [hs.1]; simp [outOf, Portal.Ok, result]
  | some em =>
    obtain ⟨e, m⟩ := em
    have h2 := hs.2 e m rfl
    rw [hs.1]
    simp [outOf, Portal.Ok, h2]

theorem untilFailure_none : ∀ (m : List (Item ρ ε)) (l : List ρ), untilFailure m = (l, none) → m = l.map .row
  | [], l, h => by simp [untilFailure] at h; simp [h]
  | .failure e :: m, l, h => by simp [untilFailure] at h
  | .row r :: m, l, h => by
    simp only [untilFailure, Prod.mk.injEq] at h
    rw [← h.1, List.map_cons, ← untilFailure_none m (untilFailure m).1 (by rw [← h.2])]

theorem take_enough (a : List ρ) (m : List (Item ρ ε)) (n : Nat) (h : n ≤ a.length) :
    take (some n) (a.map .row ++ m) = (.rows (a.take n), (a.drop n).map .row ++ m) := by
  unfold take
  rw [untilFailure_rows]
  generalize hr : untilFailure m = r
  obtain ⟨l, o⟩ := r
  cases o with
  | none =>
    dsimp only
    rw [untilFailure_none m l hr, List.take_append_of_le_length h, List.drop_append_of_le_length h]
    simp
  | some em =>
    obtain ⟨e, k⟩ := em
    dsimp only
    rw [if_pos (by rw [List.length_append]; omega), List.take_append_of_le_length h, List.drop_append_of_le_length (by simpa using h)]
    simp

theorem take_short (a : List ρ) (n : Nat) (h : a.length < n) : take (some n) (a.map (Item.row (ε := ε))) = (.rows a, []) := by
  unfold take
  have := untilFailure_rows a ([] : List (Item ρ ε))
  rw [List.append_nil] at this
  rw [this]
  simp only [untilFailure, List.append_nil]
  rw [List.take_of_length_le (by omega), List.drop_eq_nil_of_le (by omega)]
  rfl

theorem extendTo_spec (n pos : Nat) : ∀ (cs : List (Except ε (List ρ))) (buf : List ρ), pos ≤ buf.length →
    let r := extendTo n pos buf cs
    pos ≤ r.1.length ∧
    (match r.2.2 with
      | none => n ≤ (r.1.drop pos).length ∧ (r.1.drop pos).map .row ++ result r.2.1 = (buf.drop pos).map .row ++ result cs
      | some .stop => (r.1.drop pos).length < n ∧ r.2.1 = [] ∧ (r.1.drop pos).map .row = (buf.drop pos).map .row ++ result cs
      | some (.database e) => (r.1.drop pos).length < n ∧ untilFailure ((buf.drop pos).map .row ++ result cs) = (r.1.drop pos, some (e, result r.2.1))
      | _ => False)
  | [], buf, h => by
    dsimp only
    unfold extendTo
    by_cases hl : (buf.length : Int) - pos < n
    · rw [if_pos hl]; simp [result]; omega
    · rw [if_neg hl]; simp; omega
  | .error e :: cs, buf, h => by
    dsimp only
    unfold extendTo
    by_cases hl : (buf.length : Int) - pos < n
    · rw [if_pos hl]
      dsimp only
      refine ⟨h, by rw [List.length_drop]; omega, ?_⟩
      rw [untilFailure_rows]
      simp [result, untilFailure]
    · rw [if_neg hl]; simp; omega
  | .ok b :: cs, buf, h => by
    dsimp only
    have ih := extendTo_spec n pos cs (buf ++ b) (by rw [List.length_append]; omega)
    dsimp only at ih
    unfold extendTo
    by_cases hl : (buf.length : Int) - pos < n
    · rw [if_pos hl]
      dsimp only
      refine ⟨ih.1, ?_⟩
      have ih2 := ih.2
      have hx : ((buf ++ b).drop pos).map Item.row ++ result cs = (buf.drop pos).map Item.row ++ result (.ok b :: cs) := by
        rw [List.drop_append_of_le_length h]; simp [result]
      rw [← hx]
      exact ih2
    · rw [if_neg hl]; simp; omega

theorem read_spec (p : Portal ρ ε) (n : Nat) (hn : 0 < n) (h : p.Ok) : (outOf .rows (p.read n).1, (p.read n).2.left) = take (some n) p.left ∧ (p.read n).2.Ok := by
  have hs := extendTo_spec n p.pos p.chunks p.buf h
  unfold Portal.read Portal.left
  generalize extendTo (n : Int) p.pos p.buf p.chunks = r at hs
  obtain ⟨buf, cs, o⟩ := r
  dsimp only at hs ⊢
  obtain ⟨h1, h2⟩ := hs
  match o, h2 with
  | none, ⟨h3, h4⟩ =>
    rw [List.length_drop] at h3
    have hb : bound buf.length ((p.pos : Int) + n) = p.pos + n := by
      unfold bound
      rw [if_neg (by omega)]
      omega
    simp only [cutBuf, hb]
    rw [← h4, take_enough _ _ _ (by rw [List.length_drop]; omega)]
    refine ⟨?_, ?_⟩
    · simp only [outOf, slice, List.drop_drop, Prod.mk.injEq]
      rw [show p.pos + n - p.pos = n by omega]
      exact ⟨rfl, rfl⟩
    · simp [Portal.Ok]
  | some .stop, ⟨h3, h4, h5⟩ =>
    have hb : bound buf.length (buf.length : Int) = buf.length := by
      unfold bound
      rw [if_neg (by omega)]
      omega
    simp only [cutBuf, hb]
    rw [← h5, take_short _ _ h3, h4]
    refine ⟨?_, ?_⟩
    · simp only [outOf, slice, List.drop_zero, Prod.mk.injEq, List.drop_length, List.map_nil, result, List.append_nil, and_true, Out.rows.injEq]
      rw [List.take_of_length_le (by rw [List.length_drop]; omega)]
    · simp [Portal.Ok]
  | some (.database e), ⟨h3, h4⟩ =>
    unfold take
    rw [h4]
    dsimp only
    rw [if_neg (by omega)]
    exact ⟨rfl, h1⟩

/-! ## Cursors -/

/-- A cursor and what it delivers. -/
structure Abs (c : Cursor ρ ε) (s : State ρ ε) : Prop where
  results : s.results = c.portals.map fun ps => ps.map Portal.left
  ok : ∀ ps, c.portals = some ps → ∀ p ∈ ps, p.Ok
  size : (s.arraysize : Int) = c.arraysize

theorem onTop_abs {c : Cursor ρ ε} {s : State ρ ε} (h : Abs c s) {β : Type} (f : Portal ρ ε → Except (Exc ε) β × Portal ρ ε)
    (f' : List (Item ρ ε) → Out ρ ε × List (Item ρ ε)) (o : Except (Exc ε) β → Out ρ ε) (ho1 : o (.error .closed) = .isClosed) (ho2 : o (.error .noPortal) = .noResult)
    (hf : ∀ p : Portal ρ ε, p.Ok → (o (f p).1, (f p).2.left) = f' p.left ∧ (f p).2.Ok) :
    o (onPortal c f).1 = (onTop s f').1 ∧ Abs (onPortal c f).2 (onTop s f').2 := by
  obtain ⟨hr, hok, hsz⟩ := h
  obtain ⟨portals, size⟩ := c
  obtain ⟨results, asize⟩ := s
  dsimp only at hr hok hsz
  subst hr
  unfold onPortal onTop Cursor.portal
  cases portals with
  | none => exact ⟨ho1, ⟨rfl, hok, hsz⟩⟩
  | some ps =>
    cases ps with
    | nil => exact ⟨ho2, ⟨rfl, hok, hsz⟩⟩
    | cons p ps =>
      have := hf p (hok _ rfl p (by simp))
      simp only [Option.map_some, List.map_cons]
      rw [← this.1]
      refine ⟨rfl, ⟨by simp, ?_, hsz⟩⟩
      intro qs hq q hm
      injection hq with hq
      subst hq
      rcases List.mem_cons.mp hm with rfl | hm
      · exact this.2
      · exact hok _ rfl q (by simp [hm])

theorem amount_eq (n : Option Nat) (a : Nat) : amountOf (n.map Int.ofNat) a = (amount n a : Int) ∧ 0 < amount n a := by
  unfold amountOf amount
  cases n with
  | none => simp only [Option.map_none]; split <;> omega
  | some k => cases k <;> simp only [Option.map_some] <;> split <;> (try split) <;> simp_all <;> omega

theorem fetchone_abs {c : Cursor ρ ε} {s : State ρ ε} (h : Abs c s) : (call c .fetchone).1 = (step s .fetchone).1 ∧ Abs (call c .fetchone).2 (step s .fetchone).2 := by
  have hx := onTop_abs h Portal.next (one .noRow) (fun | .error .stop => .noRow | r => outOf .row r) rfl rfl (fun p hp => by
    have := next_spec .noRow p hp
    generalize p.next = r at this ⊢
    obtain ⟨r, p'⟩ := r
    match r, this with
    | .ok r, this => exact ⟨this.1.symm, this.2⟩
    | .error .stop, this => exact ⟨this.1.symm, this.2⟩
    | .error (.database e), this => exact ⟨this.1.symm, this.2⟩)
  simp only [call, step, Cursor.fetchone]
  rw [← hx.1]
  generalize onPortal c Portal.next = r at hx ⊢
  obtain ⟨r, c'⟩ := r
  match r, hx with
  | .ok r, hx => exact ⟨rfl, hx.2⟩
  | .error .stop, hx => exact ⟨rfl, hx.2⟩
  | .error (.database e), hx => exact ⟨rfl, hx.2⟩
  | .error .closed, hx => exact ⟨rfl, hx.2⟩
  | .error .noPortal, hx => exact ⟨rfl, hx.2⟩

theorem call_abs {c : Cursor ρ ε} {s : State ρ ε} (h : Abs c s) (o : Op ρ ε) : (call c o).1 = (step s o).1 ∧ Abs (call c o).2 (step s o).2 := by
  cases o with
  | fetchone => exact fetchone_abs h
  | next =>
    refine onTop_abs h Portal.next (one .stopIteration) (outOf .row) rfl rfl (fun p hp => ?_)
    have := next_spec .stopIteration p hp
    generalize p.next = r at this ⊢
    obtain ⟨r, p'⟩ := r
    match r, this with
    | .ok r, this => exact ⟨this.1.symm, this.2⟩
    | .error .stop, this => exact ⟨this.1.symm, this.2⟩
    | .error (.database e), this => exact ⟨this.1.symm, this.2⟩
  | fetchmany n =>
    refine onTop_abs h _ _ (outOf .rows) rfl rfl (fun p hp => ?_)
    have := amount_eq n s.arraysize
    rw [← h.size, this.1]
    exact read_spec p _ this.2 hp
  | fetchall => exact onTop_abs h _ _ (outOf .rows) rfl rfl (fun p _ => readall_spec p)
  | setArraysize n => exact ⟨rfl, ⟨h.results, h.ok, rfl⟩⟩
  | nextset =>
    obtain ⟨hr, hok, hsz⟩ := h
    obtain ⟨portals, size⟩ := c
    obtain ⟨results, asize⟩ := s
    dsimp only at hr hok hsz
    subst hr
    simp only [call, step, Cursor.nextset]
    cases portals with
    | none => exact ⟨rfl, ⟨rfl, hok, hsz⟩⟩
    | some ps =>
      cases ps with
      | nil => exact ⟨rfl, ⟨rfl, hok, hsz⟩⟩
      | cons p ps =>
        simp only [Option.map_some, List.map_cons, outOf, List.length_map]
        refine ⟨by congr 1; by_cases h0 : ps.length = 0 <;> simp [h0], ⟨rfl, ?_, hsz⟩⟩
        intro qs hq q hm
        injection hq with hq
        subst hq
        exact hok _ rfl q (by simp [hm])
  | execute rows =>
    obtain ⟨hr, hok, hsz⟩ := h
    obtain ⟨portals, size⟩ := c
    obtain ⟨results, asize⟩ := s
    dsimp only at hr hok hsz
    subst hr
    simp only [call, step, Cursor.executed]
    cases portals with
    | none => exact ⟨rfl, ⟨rfl, hok, hsz⟩⟩
    | some ps =>
      cases rows with
      | none =>
        refine ⟨rfl, ⟨by simp, ?_, hsz⟩⟩
        intro qs hq q hm
        injection hq with hq
        subst hq
        exact hok _ rfl q (List.mem_of_mem_tail hm)
      | some cs =>
        refine ⟨rfl, ⟨by simp [Portal.left, Portal.new], ?_, hsz⟩⟩
        intro qs hq q hm
        injection hq with hq
        subst hq
        rcases List.mem_cons.mp hm with rfl | hm
        · simp [Portal.Ok, Portal.new]
        · exact hok _ rfl q hm
  | close =>
    obtain ⟨hr, hok, hsz⟩ := h
    obtain ⟨portals, size⟩ := c
    obtain ⟨results, asize⟩ := s
    dsimp only at hr hok hsz
    subst hr
    simp only [call, step, Cursor.close]
    cases portals with
    | none => exact ⟨rfl, ⟨rfl, hok, hsz⟩⟩
    | some ps => exact ⟨rfl, ⟨rfl, (fun _ h => by simp at h), hsz⟩⟩

theorem calls_abs {c : Cursor ρ ε} {s : State ρ ε} (h : Abs c s) : ∀ os : List (Op ρ ε), (calls c os).1 = (run s os).1 ∧ Abs (calls c os).2 (run s os).2 := by
  intro os
  induction os generalizing c s with
  | nil => exact ⟨rfl, h⟩
  | cons o os ih =>
    have h1 := call_abs h o
    have h2 := ih h1.2
    exact ⟨by simp only [calls, run]; rw [h1.1, h2.1], h2.2⟩

theorem new_abs : Abs (Cursor.new : Cursor ρ ε) new := ⟨rfl, (fun ps h p hp => by
  injection h with h
  subst h
  simp at hp), rfl⟩

/-- **C36 (DB-API cursors behave as sequences of rows).** Whatever the user calls, in whatever order, on a new cursor, and however the results come in
chunks: what the user sees is what fetching from plain sequences of rows gives. -/
theorem C36_refines (os : List (Op ρ ε)) : (calls Cursor.new os).1 = (run new os).1 := (calls_abs new_abs os).1

/-- Chunks of any sizes, an empty chunk, a failure of the database after the fourth row, `fetchmany` across chunks. -/
example : (calls (Cursor.new : Cursor Nat String) [.execute (some [.ok [1], .ok [], .ok [2, 3, 4], .error "lost", .ok [5]]), .fetchone, .fetchmany (some 2),
    .fetchmany (some 5), .fetchmany none, .fetchall, .fetchone, .next, .nextset, .fetchone, .close, .fetchall]).1 =
    [.done, .row 1, .rows [2, 3], .failure "lost", .rows [4], .rows [5], .noRow, .stopIteration, .sets none, .noResult, .done, .isClosed] := by decide

/-- The chunks a result comes in. -/
theorem C36_chunks (a b : List (Except ε (List ρ))) (h : result a = result b) (os : List (Op ρ ε)) :
    (calls Cursor.new (.execute (some a) :: os)).1 = (calls Cursor.new (.execute (some b) :: os)).1 := by
  rw [C36_refines, C36_refines]
  simp only [run, step, new]
  rw [h]

example : result ([.ok [1, 2], .ok [3]] : List (Except String (List Nat))) = result [.ok [1], .ok [], .ok [2, 3]] := by decide

/-! ## Consecutive pieces -/

theorem rowsOf_append (a b : List (Item ρ ε)) : rowsOf (a ++ b) = rowsOf a ++ rowsOf b := by simp [rowsOf, List.filterMap_append]
theorem rowsOf_rows (a : List ρ) : rowsOf (a.map (Item.row (ε := ε))) = a := by
  induction a with
  | nil => rfl
  | cons x a ih => simp only [rowsOf, List.map_cons, List.filterMap_cons] at ih ⊢; rw [ih]

theorem untilFailure_some : ∀ (m : List (Item ρ ε)) (l : List ρ) (e : ε) (k : List (Item ρ ε)), untilFailure m = (l, some (e, k)) → m = l.map .row ++ .failure e :: k
  | [], l, e, k, h => by simp [untilFailure] at h
  | .failure e' :: m, l, e, k, h => by simp [untilFailure] at h; simp [h]
  | .row r :: m, l, e, k, h => by
    simp only [untilFailure, Prod.mk.injEq] at h
    rw [← h.1, List.map_cons, List.cons_append, ← untilFailure_some m (untilFailure m).1 e k (by rw [← h.2])]

theorem take_rows (n : Option Nat) (l : List (Item ρ ε)) : (take n l).1.fetched ++ rowsOf (take n l).2 = rowsOf l := by
  unfold take
  generalize hr : untilFailure l = r
  obtain ⟨a, o⟩ := r
  cases o with
  | none =>
    have := untilFailure_none l a hr
    subst this
    cases n with
    | none => rw [rowsOf_rows]; exact List.append_nil a
    | some n => simp only [Out.fetched, rowsOf_rows, List.take_append_drop]
  | some ek =>
    obtain ⟨e, k⟩ := ek
    have := untilFailure_some l a e k hr
    subst this
    cases n with
    | none => simp only [Out.fetched, rowsOf_append, rowsOf_rows, List.nil_append]; rfl
    | some n =>
      dsimp only
      by_cases h : n ≤ a.length
      · rw [if_pos h, List.drop_append_of_le_length (by simpa using h), ← List.map_drop]
        simp only [Out.fetched, rowsOf_append, rowsOf_rows, ← List.append_assoc, List.take_append_drop]
      · rw [if_neg h]
        simp only [Out.fetched, rowsOf_append, rowsOf_rows, List.nil_append]; rfl

theorem one_rows (stop : Out ρ ε) (hs : stop.fetched = []) (l : List (Item ρ ε)) : (one stop l).1.fetched ++ rowsOf (one stop l).2 = rowsOf l := by
  match l with
  | [] => simp [one, hs]
  | .row r :: l => rfl
  | .failure e :: l => rfl

theorem run_rows (ls : List (List (Item ρ ε))) : ∀ (os : List (Op ρ ε)) (l : List (Item ρ ε)) (n : Nat), (∀ o ∈ os, o.fetches = true) →
    ∃ l' n', (run ⟨some (l :: ls), n⟩ os).2 = ⟨some (l' :: ls), n'⟩ ∧ ((run ⟨some (l :: ls), n⟩ os).1.map Out.fetched).flatten ++ rowsOf l' = rowsOf l
  | [], l, n, _ => ⟨l, n, rfl, rfl⟩
  | o :: os, l, n, h => by
    have ho := h o (by simp)
    have key : ∃ l1 n1, (step ⟨some (l :: ls), n⟩ o).2 = ⟨some (l1 :: ls), n1⟩ ∧ (step ⟨some (l :: ls), n⟩ o).1.fetched ++ rowsOf l1 = rowsOf l := by
      cases o with
      | fetchone => exact ⟨_, n, rfl, one_rows _ rfl l⟩
      | next => exact ⟨_, n, rfl, one_rows _ rfl l⟩
      | fetchmany k => exact ⟨_, n, rfl, take_rows _ l⟩
      | fetchall => exact ⟨_, n, rfl, take_rows _ l⟩
      | setArraysize k => exact ⟨l, k, rfl, rfl⟩
      | nextset => simp [Op.fetches] at ho
      | execute _ => simp [Op.fetches] at ho
      | close => simp [Op.fetches] at ho
    obtain ⟨l1, n1, h1, h2⟩ := key
    obtain ⟨l2, n2, h3, h4⟩ := run_rows ls os l1 n1 (fun o' ho' => h o' (by simp [ho']))
    refine ⟨l2, n2, ?_, ?_⟩
    · simp only [run]; rw [h1]; exact h3
    · simp only [run]
      rw [h1, List.map_cons, List.flatten_cons, List.append_assoc, h4, h2]

/-- **C36 (every row once and in order).** After a query on a new cursor, any calls of `fetchone`, `next`, `fetchmany` and `fetchall` together return
consecutive rows of the result from the first on, whether or not the database fails on the way; a `fetchall` that does not fail then returns the
rest. -/
theorem C36_once_in_order (cs : List (Except ε (List ρ))) (os : List (Op ρ ε)) (h : ∀ o ∈ os, o.fetches = true) :
    (∃ rest, ((calls Cursor.new (.execute (some cs) :: os)).1.map Out.fetched).flatten ++ rest = rowsOf (result cs)) ∧
    ∀ out, (calls Cursor.new (.execute (some cs) :: (os ++ [.fetchall]))).1.getLast? = some (.rows out) →
      ((calls Cursor.new (.execute (some cs) :: (os ++ [.fetchall]))).1.map Out.fetched).flatten = rowsOf (result cs) := by
  have hrun : ∀ (os : List (Op ρ ε)), run new (.execute (some cs) :: os) = (.done :: (run ⟨some [result cs], 1⟩ os).1, (run ⟨some [result cs], 1⟩ os).2) := fun _ => rfl
  refine ⟨?_, ?_⟩
  · obtain ⟨l', n', h1, h2⟩ := run_rows [] os (result cs) 1 h
    refine ⟨rowsOf l', ?_⟩
    rw [C36_refines, hrun]
    exact h2
  · intro out
    rw [C36_refines, hrun]
    have happ : ∀ (os : List (Op ρ ε)) (s : State ρ ε), run s (os ++ [.fetchall]) = ((run s os).1 ++ [(step (run s os).2 .fetchall).1], (step (run s os).2 .fetchall).2) := by
      intro os
      induction os with
      | nil => intro s; rfl
      | cons o os ih => intro s; simp only [List.cons_append, run, ih]
    obtain ⟨l', n', h1, h2⟩ := run_rows [] os (result cs) 1 h
    rw [happ, h1]
    intro hl
    simp only [step, onTop, List.getLast?_cons, List.getLast?_append, List.getLast?_nil] at hl
    have ht := take_rows none l'
    have hnil : rowsOf (take none l').2 = [] := by
      have he : (take none l').1 = .rows out := by simpa using hl
      revert he
      unfold take
      generalize untilFailure l' = r
      obtain ⟨a, o⟩ := r
      cases o with
      | none => intro _; rfl
      | some ek => intro he; simp at he
    rw [hnil, List.append_nil] at ht
    simp only [step, onTop, List.map_cons, List.map_append, List.flatten_cons, List.flatten_append, List.map_nil, List.flatten_nil, List.append_nil]
    rw [ht, h2]
    rfl

/-- Negative numbers of rows are taken for granted not to occur: `fetchmany(-1)` after two rows delivers nothing and puts the second row back. -/
theorem C36_negative_amount : let c : Cursor Nat String := ⟨some [⟨[], [1, 2, 3], 2⟩], 1⟩
    (c.fetchmany (some (-1))).1 = .ok [] ∧ ((c.fetchmany (some (-1))).2.fetchone).1 = .ok (some 2) := by decide

/-- That cursor has just delivered 1 and 2. -/
example : (calls (Cursor.new : Cursor Nat String) [.execute (some [.ok [1, 2, 3]]), .fetchone, .fetchone]) =
    ([.done, .row 1, .row 2], ⟨some [⟨[], [1, 2, 3], 2⟩], 1⟩) := by decide

/-- A query does not replace the result before it: after a query, a second query and a statement without a result, `fetchone` gives rows of the first
query. -/
theorem C36_stale_result : (calls (Cursor.new : Cursor Nat String) [.execute (some [.ok [1]]), .execute (some [.ok [2]]), .execute none, .fetchone]).1 =
    [.done, .done, .done, .row 1] := by decide

end PG.DbApi
