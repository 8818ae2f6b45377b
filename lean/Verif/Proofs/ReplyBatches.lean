import Verif.Props.Reply
import Verif.Proofs.Received
import Verif.Proofs.Xact3f
/-! # A reply in several batches -/
namespace PG.ReplyBatches
open PG PG.Element3 PG.Xact3 PG.Spec.Xact PG.Spec.Reply PG.Spec.Received

/-- A protocol violation makes the transaction fatal. -/
theorem loop_violation : ∀ (ms : List Msg) (s : Inst) (l : Loc) (a : Inst) (d : Done), loop s l ms = (a, .ok d) → ¬ Violated s → Violated a → a.fatal = some true
  | [], s, l, a, d, h, hs, ha => by cases h; exact absurd ha hs
  | x :: xs, s, l, a, d, h, hs, ha => by
    rw [loop_cons] at h
    cases hr : react s.commands l.offset l.step l.cmd l.paths x with
    | error e => rw [hr] at h; cases h
    | ok r =>
      rw [hr] at h
      cases r with
      | violation ex => cases h; rfl
      | fatal em => cases h; rfl
      | lost em => cases h; obtain ⟨_, _, e⟩ := ha; cases e
      | skip em o c p => exact loop_violation xs { s with fatal := some false, errorMessage := some (.server em) } _ a d h (by rintro ⟨_, _, e⟩; cases e) ha
      | async kk =>
        dsimp only at h
        cases hh : handleAsync s kk x with
        | error e => rw [hh] at h; cases h
        | ok s1 =>
          rw [hh] at h
          refine loop_violation xs s1 _ a d h (fun hv => hs ?_) ha
          unfold handleAsync at hh
          split at hh
          · cases hh; exact hv
          · split at hh
            · cases hh; exact hv
            · cases hh
      | take r n => exact loop_violation xs s _ a d h hs ha
      | next r rd o c p => exact loop_violation xs (setReady s rd) _ a d h (by cases rd <;> exact hs) ha
      | last r rd o => cases h; exact absurd ha (by cases rd <;> exact hs)

/-- Without an error message nothing makes it fail but a violation. -/
theorem loop_quiet : ∀ (ms : List Msg) (s : Inst) (l : Loc) (a : Inst) (d : Done), LocOk s.commands l → loop s l ms = (a, .ok d) → (∀ x ∈ ms, x.1 ≠ 69) → s.fatal = none → a.fatal = none ∨ a.fatal = some true
  | [], s, l, a, d, _, h, _, hf => by cases h; exact .inl hf
  | x :: xs, s, l, a, d, hl, h, hx, hf => by
    rw [loop_cons] at h
    have hxs : ∀ y ∈ xs, y.1 ≠ 69 := fun y hy => hx y (List.mem_cons_of_mem _ hy)
    cases hr : react s.commands l.offset l.step l.cmd l.paths x with
    | error e => rw [hr] at h; cases h
    | ok r =>
      rw [hr] at h
      obtain ⟨i, j, k⟩ := react_ok hr
      obtain ⟨q1, q2, _⟩ := react_seen hl.2 hr
      cases r with
      | violation ex => cases h; exact .inr rfl
      | fatal em => cases h; exact .inr rfl
      | lost em => exact absurd (q2 _ rfl) (hx x List.mem_cons_self)
      | skip em o c p => exact absurd (q1 _ _ _ _ rfl) (hx x List.mem_cons_self)
      | async kk =>
        dsimp only at h
        cases hh : handleAsync s kk x with
        | error e => rw [hh] at h; cases h
        | ok s1 =>
          rw [hh] at h
          have hc := (frame0_fields (handleAsync_frame hh).1).1
          refine loop_quiet xs s1 _ a d (by rw [hc]; exact hl) h hxs ?_
          unfold handleAsync at hh
          split at hh
          · cases hh; exact hf
          · split at hh
            · cases hh; exact hf
            · cases hh
      | take r n => exact loop_quiet xs s { l with count := l.count + 1, processed := l.processed ++ [r], step := n } a d hl h hxs hf
      | next r rd o c p =>
        have hc := (frame0_fields (setReady_frame s rd).1).1
        exact loop_quiet xs (setReady s rd) { l with count := l.count + 1, processed := l.processed ++ [r], step := 0, offset := o, cmd := c, paths := some p } a d
          (by rw [hc]; exact j _ _ _ _ _ rfl) h hxs (by cases rd <;> exact hf)
      | last r rd o => cases h; exact .inl (by cases rd <;> exact hf)

/-- What is processed comes from a message. -/
theorem loop_procs : ∀ (ms : List Msg) (s : Inst) (l : Loc) (a : Inst) (l' : Loc), LocOk s.commands l → loop s l ms = (a, .ok ⟨false, l'⟩) →
    ∀ p ∈ l'.processed, p ∈ l.processed ∨ ∃ x ∈ ms, procOf x = some p
  | [], s, l, a, l', _, h => by cases h; exact fun p hp => .inl hp
  | x :: xs, s, l, a, l', hl, h => by
    rw [loop_cons] at h
    have lift : ∀ (pr : List Proc) (r : Proc), procOf x = some r → (∀ p ∈ l'.processed, p ∈ l.processed ++ [r] ∨ ∃ y ∈ xs, procOf y = some p) →
        ∀ p ∈ l'.processed, p ∈ l.processed ∨ ∃ y ∈ x :: xs, procOf y = some p := by
      intro _ r hr hh p hp
      rcases hh p hp with h1 | ⟨y, hy, h1⟩
      · rcases List.mem_append.mp h1 with h1 | h1
        · exact .inl h1
        · rw [List.mem_singleton] at h1
          subst h1
          exact .inr ⟨x, List.mem_cons_self, hr⟩
      · exact .inr ⟨y, List.mem_cons_of_mem _ hy, h1⟩
    have lift0 : (∀ p ∈ l'.processed, p ∈ l.processed ∨ ∃ y ∈ xs, procOf y = some p) → ∀ p ∈ l'.processed, p ∈ l.processed ∨ ∃ y ∈ x :: xs, procOf y = some p := by
      intro hh p hp
      rcases hh p hp with h1 | ⟨y, hy, h1⟩
      · exact .inl h1
      · exact .inr ⟨y, List.mem_cons_of_mem _ hy, h1⟩
    cases hr : react s.commands l.offset l.step l.cmd l.paths x with
    | error e => rw [hr] at h; cases h
    | ok r =>
      rw [hr] at h
      obtain ⟨i, j, k⟩ := react_ok hr
      obtain ⟨p1, p2, p3⟩ := react_processed hr
      cases r with
      | violation ex => cases h
      | fatal em => cases h
      | lost em => cases h
      | skip em o c p =>
        exact lift0 (loop_procs xs { s with fatal := some false, errorMessage := some (.server em) } { l with count := l.count + 1, offset := o, cmd := c, paths := p, step := 0 } a l' (i _ _ _ _ rfl) h)
      | async kk =>
        dsimp only at h
        cases hh : handleAsync s kk x with
        | error e => rw [hh] at h; cases h
        | ok s1 =>
          rw [hh] at h
          have hc := (frame0_fields (handleAsync_frame hh).1).1
          exact lift0 (loop_procs xs s1 { l with count := l.count + 1 } a l' (by rw [hc]; exact hl) h)
      | take r n =>
        obtain ⟨ts, tb, path, e1, e2, e3, e4⟩ := p1 _ _ rfl
        exact lift [] r (Received.call_proc hl.2 e1 e2 e3 e4) (loop_procs xs s { l with count := l.count + 1, processed := l.processed ++ [r], step := n } a l' hl h)
      | next r rd o c p =>
        obtain ⟨ts, tb, path, e1, e2, e3, e4, _⟩ := p2 _ _ _ _ _ rfl
        have hc := (frame0_fields (setReady_frame s rd).1).1
        exact lift [] r (Received.call_proc hl.2 e1 e2 e3 e4)
          (loop_procs xs (setReady s rd) { l with count := l.count + 1, processed := l.processed ++ [r], step := 0, offset := o, cmd := c, paths := some p } a l' (by rw [hc]; exact j _ _ _ _ _ rfl) h)
      | last r rd o =>
        obtain ⟨ts, tb, path, e1, e2, e3, e4, _⟩ := p3 _ _ _ rfl
        cases h
        exact lift [] r (Received.call_proc hl.2 e1 e2 e3 e4) (fun p hp => .inl hp)

theorem procOf_copyIn {x : Msg} {a b} (h : procOf x = some (.elem (.copyFromBegin a b))) : x.1 = 71 := by
  unfold procOf at h
  split at h
  · cases h
  · split at h
    · rename_i k hk
      split at h
      · rename_i m hm
        cases h
        have := parseK_kind hm
        subst this
        unfold kindOf at hk
        split at hk <;> first | (rename_i e; exact e) | cases hk
      · cases h
    · cases h

/-- Nothing is left to deliver to a transaction that waits. -/
theorem feed_delivered : ∀ (bs : List Batch) (s : Inst) (n : Nat), (feed s bs).2.1 = .ok n → Receiving (feed s bs).1 → (feed s bs).2.2 = bs.length
  | [], s, n, _, _ => rfl
  | b :: bs, s, n, h, hw => by
    unfold feed at h hw ⊢
    by_cases hs : Receiving s
    · rw [if_pos hs] at h hw ⊢
      cases hd : deliver s b with
      | mk s1 r =>
        rw [hd] at h hw
        cases r with
        | error e => cases h
        | ok m =>
          dsimp only at h hw ⊢
          cases hr : (feed s1 bs).2.1 with
          | error e => rw [hr] at h; cases h
          | ok k => rw [feed_delivered bs s1 k hr hw]; rfl
    · rw [if_neg hs] at hw
      exact absurd hw hs

/-- The rows of a reply parse. -/
theorem is_rows {k : Kind} {x : Msg} (h : Is k x) (hk : k.typ = some 68 → k = .tuple) : x.1 = 68 → ∃ m, parseK .tuple x.2 = .ok m := by
  intro e
  obtain ⟨h1, m, h2⟩ := h
  rw [e] at h1
  rw [hk h1] at h2
  exact ⟨m, h2⟩

/-- Every row message parses. -/
def RowOk (x : Msg) : Prop := x.1 = 68 → ∃ m, parseK .tuple x.2 = .ok m

theorem line_rows {x : Msg} (h : IsLine x) : RowOk x := by
  intro e
  have h' : x.1 = 100 := h
  rw [e] at h'
  cases h'

theorem stmt_rows {w : List Msg} (h : Stmt w) : ∀ x ∈ w, RowOk x := by
  intro y hy
  cases h with
  | command h => rw [List.mem_singleton] at hy; subst hy; exact is_rows h (by decide)
  | null h => rw [List.mem_singleton] at hy; subst hy; exact is_rows h (by decide)
  | rows h1 h2 h3 =>
    simp only [List.cons_append, List.mem_cons, List.mem_append, List.not_mem_nil, or_false] at hy
    rcases hy with rfl | hy | rfl
    · exact is_rows h1 (by decide)
    · exact is_rows (h2 y hy) (fun _ => rfl)
    · exact is_rows h3 (by decide)
  | copyOut h1 h2 h3 h4 =>
    simp only [List.cons_append, List.mem_cons, List.mem_append, List.not_mem_nil, or_false] at hy
    rcases hy with rfl | hy | rfl | rfl
    · exact is_rows h1 (by decide)
    · exact line_rows (h2 y hy)
    · exact is_rows h3 (by decide)
    · exact is_rows h4 (by decide)
  | copyIn h1 h2 =>
    simp only [List.mem_cons, List.not_mem_nil, or_false] at hy
    rcases hy with rfl | rfl
    · exact is_rows h1 (by decide)
    · exact is_rows h2 (by decide)

theorem ans_rows {c : Elem} {w : List Msg} (h : Ans c w) : ∀ x ∈ w, RowOk x := by
  intro y hy
  cases h with
  | query h1 h2 =>
    rw [List.mem_append, List.mem_singleton] at hy
    rcases hy with hy | rfl
    · obtain ⟨s, hs, hy⟩ := List.mem_flatten.mp hy
      exact stmt_rows (h1 s hs) y hy
    · exact is_rows h2 (by decide)
  | queryCut h1 h2 h3 h4 =>
    simp only [List.mem_append, List.mem_cons, List.not_mem_nil, or_false] at hy
    rcases hy with (hy | rfl | hy) | rfl
    · obtain ⟨s, hs, hy⟩ := List.mem_flatten.mp hy
      exact stmt_rows (h1 s hs) y hy
    · exact is_rows h2 (by decide)
    · exact is_rows (h3 y hy) (fun _ => rfl)
    · exact is_rows h4 (by decide)
  | function h1 h2 =>
    simp only [List.mem_cons, List.not_mem_nil, or_false] at hy
    rcases hy with rfl | rfl
    · exact is_rows h1 (by decide)
    · exact is_rows h2 (by decide)
  | parse h => rw [List.mem_singleton] at hy; subst hy; exact is_rows h (by decide)
  | bind h => rw [List.mem_singleton] at hy; subst hy; exact is_rows h (by decide)
  | describeRow _ h => rw [List.mem_singleton] at hy; subst hy; exact is_rows h (by decide)
  | describeArgs _ h1 h2 =>
    simp only [List.mem_cons, List.not_mem_nil, or_false] at hy
    rcases hy with rfl | rfl
    · exact is_rows h1 (by decide)
    · rcases h2 with h2 | h2
      · exact is_rows h2 (by decide)
      · exact is_rows h2 (by decide)
  | close _ h => rw [List.mem_singleton] at hy; subst hy; exact is_rows h (by decide)
  | execute h1 h2 =>
    rw [List.mem_append, List.mem_singleton] at hy
    rcases hy with hy | rfl
    · exact is_rows (h1 y hy) (fun _ => rfl)
    · exact is_rows h2 (by decide)
  | executeSuspended _ h1 h2 =>
    rw [List.mem_append, List.mem_singleton] at hy
    rcases hy with hy | rfl
    · exact is_rows (h1 y hy) (fun _ => rfl)
    · exact is_rows h2 (by decide)
  | executeNull h => rw [List.mem_singleton] at hy; subst hy; exact is_rows h (by decide)
  | executeCopyOut h1 h2 h3 h4 =>
    simp only [List.cons_append, List.mem_cons, List.mem_append, List.not_mem_nil, or_false] at hy
    rcases hy with rfl | hy | rfl | rfl
    · exact is_rows h1 (by decide)
    · exact line_rows (h2 y hy)
    · exact is_rows h3 (by decide)
    · exact is_rows h4 (by decide)
  | executeCopyIn h1 h2 =>
    simp only [List.mem_cons, List.not_mem_nil, or_false] at hy
    rcases hy with rfl | rfl
    · exact is_rows h1 (by decide)
    · exact is_rows h2 (by decide)
  | sync h => rw [List.mem_singleton] at hy; subst hy; exact is_rows h (by decide)
  | flush => cases hy

theorem begun_rows {c : Elem} {p : List Msg} (h : Begun c p) : ∀ x ∈ p, RowOk x := by
  obtain ⟨q, _, hq⟩ := h
  exact fun x hx => ans_rows hq x (List.mem_append_left _ hx)

theorem error_rows {x : Msg} (h : IsPlainError x) : RowOk x := by
  intro e
  obtain ⟨_, ⟨h1, _⟩, _⟩ := h
  rw [e] at h1
  cases h1

theorem reply_rows {cs : List Elem} {w : List Msg} (h : Reply cs w) : ∀ x ∈ w, RowOk x := by
  induction h with
  | nil => intro x hx; cases hx
  | answer ha _ ih => intro x hx; rcases List.mem_append.mp hx with hx | hx; exact ans_rows ha x hx; exact ih x hx
  | error _ hb he _ _ ih =>
    intro x hx
    rw [List.mem_append, List.mem_cons] at hx
    rcases hx with hx | rfl | hx
    · exact begun_rows hb x hx
    · exact error_rows he
    · exact ih x hx
  | lost _ hb he _ =>
    intro x hx
    rw [List.mem_append, List.mem_singleton] at hx
    rcases hx with hx | rfl
    · exact begun_rows hb x hx
    · exact error_rows he
  | queryError hb he _ ih =>
    intro x hx
    rw [List.mem_append, List.mem_cons] at hx
    rcases hx with hx | rfl | hx
    · exact begun_rows hb x hx
    · exact error_rows he
    · exact ih x hx

theorem rows_of_strip {ms : List Msg} (h : ∀ x ∈ strip ms, RowOk x) : RowsOk ms := by
  intro x hx e
  refine h x ?_ e
  unfold strip
  rw [List.mem_filter]
  exact ⟨hx, by rw [e]; rfl⟩

end PG.ReplyBatches
