import Verif.Proofs.CopyTo7
/-!
# The beginning of a `StatementProducer`
-/
namespace PG.CopyTo
open PG
open PG.PBuffer hiding Msg next
open PG.CopyMan
open PG.Element3 PG.Xact3 PG.Spec PG.Spec.Copy PG.Spec.CopyTo

theorem firstSeen_append {a : List Proc} (h : Fetch.firstSeen true a = .noise) (b : List Proc) : Fetch.firstSeen true (a ++ b) = Fetch.firstSeen true b := by
  induction a with
  | nil => rfl
  | cons p a ih =>
    rw [Fetch.firstSeen] at h
    rw [List.cons_append, Fetch.firstSeen]
    split at h
    · exact ih h
    · rename_i s hs; exact absurd h hs

theorem begin_seen {d : Bytes} {x : Elem} (h : parseK .copyToBegin d = .ok x) : Fetch.seen true (.elem x) = .data := by
  have hk := kind_of_begin h
  cases x <;> first | rfl | cases hk

/-- After an error and before ReadyForQuery nothing is kept. -/
theorem walk_sync {ms : List Msg} : ∀ {g1 : Stage} {ps : List Proc} {e1 : Bool}, Walk .sync ms g1 ps e1 → (g1 = .sync ∧ ps = []) ∨ g1 = .over := by
  induction ms with
  | nil => intro g1 ps e1 h; cases h; exact .inl ⟨rfl, rfl⟩
  | cons m ms ih =>
    intro g1 ps e1 h
    cases h with
    | cons h1 h2 =>
      cases h1 with
      | ready _ =>
        have := walk_from_over h2
        subst this
        cases h2
        exact .inr rfl
      | async _ _ => exact ih h2
      | error _ _ => exact ih h2

/-- The first messages. -/
theorem walk_seen {ms : List Msg} : ∀ {g g1 : Stage} {ps : List Proc} {e1 : Bool}, g = .bind ∨ g = .execute → Walk g ms g1 ps e1 →
    (Fetch.firstSeen true ps = .noise ∧ lines ps = [] ∧ (g1 = .bind ∨ g1 = .execute ∨ (g1 = .sync ∧ e1 = true))) ∨ Fetch.firstSeen true ps = .data ∨ (g1 = .over ∧ e1 = true) := by
  induction ms with
  | nil => intro g g1 ps e1 hg h; cases h; exact .inl ⟨rfl, rfl, hg.elim .inl fun h => .inr (.inl h)⟩
  | cons m ms ih =>
    intro g g1 ps e1 hg h
    cases h with
    | cons h1 h2 =>
      rename_i g2 ps1 e2 ps2 e3
      cases h1 with
      | bound =>
        rcases ih (.inr rfl) h2 with ⟨a, b, c⟩ | h | h
        · exact .inl ⟨a, b, by rw [Bool.false_or]; exact c⟩
        · exact .inr (.inl h)
        · exact .inr (.inr (by rw [Bool.false_or]; exact h))
      | begins hx =>
        right; left
        rw [List.singleton_append, Fetch.firstSeen, begin_seen hx]
      | row => rcases hg with h | h <;> cases h
      | copyDone => rcases hg with h | h <;> cases h
      | completed => rcases hg with h | h <;> cases h
      | ready _ => rcases hg with h | h <;> cases h
      | async _ _ =>
        rcases ih hg h2 with ⟨a, b, c⟩ | h | h
        · exact .inl ⟨a, b, by rw [Bool.false_or]; exact c⟩
        · exact .inr (.inl h)
        · exact .inr (.inr (by rw [Bool.false_or]; exact h))
      | error _ _ =>
        rcases walk_sync h2 with ⟨rfl, rfl⟩ | rfl
        · exact .inl ⟨rfl, rfl, .inr (.inr ⟨rfl, rfl⟩)⟩
        · exact .inr (.inr ⟨rfl, rfl⟩)

/-- `_init`. -/
theorem initLoop_ok {cs : List Elem} (hc : Cmds cs) : ∀ (fuel : Nat) {i : Inst} {q : Pq} {g : Stage} {e eM : Bool} {M : List Msg} {rows : List Bytes}, Stands cs i g e q.nextId →
    (g = .bind ∨ g = .execute ∨ (g = .sync ∧ e = true)) → Says g M rows eM → Wire q M → (∀ x ∈ i.completed, lines x.2 = []) → Fetch.firstSeen true (messagesReceived i) = .noise → M.length < fuel →
    ∃ r i' q' g' e' M', initLoop fuel i q = (r, some i', none, q') ∧ Live cs ⟨q', some i', none, ⟨none, 0, 0, none⟩, .confiscate⟩ i' g' e' M' rows (e || eM) ∧
      (r = .fine ∨ (r = .raised ∧ g' = .over ∧ (e || eM) = true)) := by
  intro fuel
  induction fuel with
  | zero => intro i q g e eM M rows _ _ _ _ _ _ h; omega
  | succ fuel ih =>
    intro i q g e eM M rows hs hg hy hw hl hn hf
    have hgo : g ≠ .over := by rcases hg with rfl | rfl | ⟨rfl, _⟩ <;> decide
    obtain ⟨i', q', g1, ms, M2, ps, e1, rows2, e2, k, h1, h2, h3, h4, h5, rfl, h7, rfl, rfl, h10⟩ := stepX_ok hc hs hgo hy hw
    have hheld : held i' = lines ps := by
      unfold held
      rw [h10, List.flatMap_append, List.flatMap_cons, List.flatMap_nil, List.append_nil]
      rw [List.flatMap_eq_nil_iff.2 hl, List.nil_append]
    have hlive : Live cs ⟨q', some i', none, ⟨none, 0, 0, none⟩, .confiscate⟩ i' g1 (e || e1) M2 (lines ps ++ rows2) (e || (e1 || e2)) :=
      ⟨rfl, h2, h5, ⟨rows2, e2, h4, by rw [hheld], by rw [Bool.or_assoc]⟩, by rw [h10, List.dropLast_concat]; exact hl⟩
    have hmr : Fetch.firstSeen true (messagesReceived i') = Fetch.firstSeen true ps := by
      unfold messagesReceived at hn ⊢
      rw [h10, List.flatMap_append, firstSeen_append hn]
      simp
    rw [initLoop, if_neg (fun h => hgo ((stands_complete hs).1 h)), h1]
    by_cases hr : g1 = .over ∧ (e || e1) = true
    · rw [if_pos hr]
      exact ⟨.raised, i', q', g1, _, M2, rfl, hlive, .inr ⟨rfl, hr.1, by rw [← Bool.or_assoc, hr.2]; rfl⟩⟩
    · rw [if_neg hr]
      dsimp only
      rw [hmr]
      have cont : Fetch.firstSeen true ps = .noise → lines ps = [] → (g1 = .bind ∨ g1 = .execute ∨ (g1 = .sync ∧ (e || e1) = true)) →
          ∃ r i'' q'' g' e' M', initLoop fuel i' q' = (r, some i'', none, q'') ∧ Live cs ⟨q'', some i'', none, ⟨none, 0, 0, none⟩, .confiscate⟩ i'' g' e' M' (lines ps ++ rows2) (e || (e1 || e2)) ∧
            (r = .fine ∨ (r = .raised ∧ g' = .over ∧ (e || (e1 || e2)) = true)) := by
        intro a b c
        rw [b, List.nil_append, ← Bool.or_assoc]
        refine ih h2 c h4 h5 ?_ (hmr.trans a) ?_
        · intro x hx
          rw [h10] at hx
          rcases List.mem_append.1 hx with hx | hx
          · exact hl x hx
          · rw [List.mem_singleton.1 hx]; exact b
        · have := List.length_pos_iff.2 h7
          rw [List.length_append] at hf
          omega
      rcases hg with hg | hg | ⟨rfl, rfl⟩
      · rcases walk_seen (.inl hg) h3 with ⟨a, b, c⟩ | h | h
        · rw [a]
          exact cont a b (by rcases c with c | c | ⟨c, d⟩; exact .inl c; exact .inr (.inl c); exact .inr (.inr ⟨c, by rw [d, Bool.or_true]⟩))
        · rw [h]
          exact ⟨.fine, i', q', g1, _, M2, rfl, hlive, .inl rfl⟩
        · exact absurd ⟨h.1, by rw [h.2, Bool.or_true]⟩ hr
      · rcases walk_seen (.inr hg) h3 with ⟨a, b, c⟩ | h | h
        · rw [a]
          exact cont a b (by rcases c with c | c | ⟨c, d⟩; exact .inl c; exact .inr (.inl c); exact .inr (.inr ⟨c, by rw [d, Bool.or_true]⟩))
        · rw [h]
          exact ⟨.fine, i', q', g1, _, M2, rfl, hlive, .inl rfl⟩
        · exact absurd ⟨h.1, by rw [h.2, Bool.or_true]⟩ hr
      · rcases walk_sync h3 with ⟨rfl, rfl⟩ | rfl
        · exact cont rfl rfl (.inr (.inr ⟨rfl, rfl⟩))
        · exact absurd ⟨rfl, rfl⟩ hr

/-- `__enter__`. -/
theorem enter_ok {cs : List Elem} (hc : Cmds cs) {recvs : List Bytes} {reply : List Msg} {rows : List Bytes} {e : Bool} (hy : Says .bind reply rows e) (hp : Pieces recvs)
    (hb : recvs.flatten = frames reply) (hf : ∀ m ∈ reply, Fits m) :
    ∃ r p i g e0 M, enter cs recvs = .ok (r, p) ∧ p.prod = ⟨none, 0, 0, none⟩ ∧ p.mode = .confiscate ∧ Live cs p i g e0 M rows e ∧ (r = .fine ∨ (r = .raised ∧ g = .over ∧ e = true)) := by
  obtain ⟨c0, c1, hcs, h0, h1⟩ := hc.is
  have hhooks : cs.all (fun c => (hookOf c).isSome) = true := by
    rw [hcs]
    simp only [List.all_cons, List.all_nil, Bool.and_true, Bool.and_eq_true]
    rw [hookOf_of_typ h0, hookOf_of_typ h1]
    exact ⟨rfl, rfl, rfl⟩
  have hinit : Xact3.init cs = .ok { commands := cs, completed := [], lastId := 0, last1 := ⟨0, 0⟩, last2 := ⟨0, 0⟩, messages := .commands, copyTail := [], state := .sending .standardSent, fatal := none, errorMessage := none, lastReady := none, asyncs := [], hookCalls := [] } := by
    unfold Xact3.init; rw [if_pos hhooks]
  unfold enter
  rw [hinit]
  dsimp only
  have hw : Wire ({ recvs := recvs } : Pq) reply := ⟨inv_init, rfl, rfl, hp, hb, hf⟩
  obtain ⟨r, i', q', g', e', M', k1, k2, k3⟩ := initLoop_ok hc (fuelOf { recvs := recvs }) (i := sent { commands := cs, completed := [], lastId := 0, last1 := ⟨0, 0⟩, last2 := ⟨0, 0⟩, messages := .commands, copyTail := [], state := .sending .standardSent, fatal := none, errorMessage := none, lastReady := none, asyncs := [], hookCalls := [] })
    (q := { recvs := recvs }) (g := .bind) (e := false) ⟨rfl, fun _ => .inl rfl, fun h => (by cases h), rfl, rfl, fun x hx => (by cases hx), (by decide : 0 < 1), fun x hx => (by cases hx)⟩ (.inl rfl) hy hw (fun x hx => by cases hx) rfl
    (by have := hw.fuel; omega)
  rw [k1]
  exact ⟨r, _, i', g', e', M', rfl, rfl, rfl, k2, k3⟩

end PG.CopyTo
