import Verif.Proofs.CopyTo
/-!
# Batches of messages delivered to the transaction of a COPY TO STDOUT
-/
namespace PG.CopyTo
open PG PG.Element3 PG.Xact3 PG.Spec.CopyTo

theorem kind_of_begin {d : Bytes} {x : Elem} (h : parseK .copyToBegin d = .ok x) : x.kind = .copyToBegin := parseK_kind h

/-- What is kept of the messages. -/
theorem walk_kinds {a : List Msg} {g g1 : Stage} {ps : List Proc} {e : Bool} (h : Walk g a g1 ps e) :
    ∀ p ∈ ps, (∃ d, p = .raw d) ∨ ∃ x, p = .elem x ∧ (x.kind = .copyToBegin ∨ x.kind = .empty .bindComplete ∨ x.kind = .empty .copyDone ∨ x.kind = .complete ∨ x.kind = .ready) := by
  induction h with
  | nil => intro p hp; cases hp
  | cons h1 h2 ih =>
    intro p hp
    rcases List.mem_append.1 hp with hp | hp
    · cases h1 with
      | bound => cases List.mem_singleton.1 hp; exact .inr ⟨_, rfl, .inr (.inl rfl)⟩
      | begins hx => cases List.mem_singleton.1 hp; exact .inr ⟨_, rfl, .inl (kind_of_begin hx)⟩
      | row => cases List.mem_singleton.1 hp; exact .inl ⟨_, rfl⟩
      | copyDone => cases List.mem_singleton.1 hp; exact .inr ⟨_, rfl, .inr (.inr (.inl rfl))⟩
      | completed => cases List.mem_singleton.1 hp; exact .inr ⟨_, rfl, .inr (.inr (.inr (.inl rfl)))⟩
      | ready _ => cases List.mem_singleton.1 hp; exact .inr ⟨_, rfl, .inr (.inr (.inr (.inr rfl)))⟩
      | async _ _ => cases hp
      | error _ _ => cases hp
    · exact ih p hp

theorem cmds_at {cs : List Elem} (hc : Cmds cs) {g : Stage} (hg : g ≠ .over) : ∃ c t, cs[(pos g).offset]? = some c ∧ hookOf c = some t := by
  obtain ⟨c0, c1, rfl, h0, h1⟩ := hc.is
  cases g with
  | over => exact absurd rfl hg
  | bind => exact ⟨c0, _, rfl, (hookOf_of_typ h0).trans rfl⟩
  | execute => exact ⟨c1, _, rfl, (hookOf_of_typ h1).trans rfl⟩
  | copy => exact ⟨c1, _, rfl, (hookOf_of_typ h1).trans rfl⟩
  | done => exact ⟨c1, _, rfl, (hookOf_of_typ h1).trans rfl⟩
  | sync => exact ⟨_, _, rfl, rfl⟩

theorem cmds_length {cs : List Elem} (hc : Cmds cs) : cs.length = 3 := by obtain ⟨c0, c1, rfl, _, _⟩ := hc.is; rfl

theorem switchState_frame (s : Inst) (l : Loc) : (switchState s l).commands = s.commands ∧ (switchState s l).completed = s.completed ∧ (switchState s l).lastId = s.lastId ∧
    (switchState s l).last2 = s.last2 ∧ (switchState s l).fatal = s.fatal ∧ (switchState s l).asyncs = s.asyncs := by
  unfold switchState
  split
  · exact ⟨rfl, rfl, rfl, rfl, rfl, rfl⟩
  · split
    · split <;> exact ⟨rfl, rfl, rfl, rfl, rfl, rfl⟩
    · exact ⟨rfl, rfl, rfl, rfl, rfl, rfl⟩

/-- The state after a batch. -/
theorem switchState_walk {cs : List Elem} (hc : Cmds cs) {a : List Msg} {g g1 : Stage} {e : Bool} {l : Loc} {s : Inst} (h : Walk g a g1 l.processed e) (hs : s.commands = cs)
    (hst : s.state = .receiving .standardPut) (hl : AtLoc cs g1 l) :
    (g1 = .over → (switchState s l).state = .complete) ∧
    (g1 ≠ .over → (switchState s l).state = .receiving .standardPut ∨ ((switchState s l).state = .receiving .putCopydata ∧ g1 = .copy)) := by
  have hlen := cmds_length hc
  constructor
  · intro ho
    unfold switchState
    rw [if_pos (by rw [hs, hlen, hl.offset, ho]; rfl)]
  · intro ho
    obtain ⟨_, _, hty, h69⟩ := loc_paths hc hl ho
    unfold switchState
    rw [if_neg (by rw [hs, hlen, hl.offset]; cases g1 <;> first | exact absurd rfl ho | decide)]
    split
    · rename_i ht
      have ht : l.cmd.kind.typ = some 69 := by
        rcases ht with h | h
        · exact h
        · rcases hty with k | k | k <;> rw [k] at h <;> exact absurd h (by decide)
      have hg1 := h69.1 ht
      have hk := walk_kinds h
      have hw := @walk_last a g g1 l.processed e h
      split
      · exact .inl hst
      · rename_i d hd
        refine .inr ⟨rfl, ?_⟩
        rcases hw (fun p hp => by rw [hd] at hp; cases hp; exact .inl ⟨d, rfl⟩) (by intro hn; rw [hn] at hd; cases hd) with h | h
        · exact h
        · subst h; simp at hg1
      · rename_i t hd
        rcases hk _ (List.mem_of_getLast? hd) with ⟨d, h⟩ | ⟨x, h, h2⟩
        · cases h
        · cases h; rcases h2 with h | h | h | h | h <;> cases h
      · rename_i t u hd
        rcases hk _ (List.mem_of_getLast? hd) with ⟨d, h⟩ | ⟨x, h, h2⟩
        · cases h
        · cases h; rcases h2 with h | h | h | h | h <;> cases h
      · rename_i t u hd
        refine .inr ⟨rfl, ?_⟩
        rcases hw (fun p hp => by rw [hd] at hp; cases hp; exact .inr ⟨_, rfl, rfl⟩) (by intro hn; rw [hn] at hd; cases hd) with h | h
        · exact h
        · subst h; simp at hg1
      · exact .inl hst
    · exact .inl hst

theorem standardPut_walk {cs : List Elem} (hc : Cmds cs) {i : Inst} {g g1 : Stage} {e e1 : Bool} {n k : Nat} {ms : List Msg} {ps : List Proc} (h : Stands cs i g e n)
    (hst : i.state = .receiving .standardPut) (hg : g ≠ .over) (hk : n ≤ k) (hw : Walk g ms g1 ps e1) :
    ∃ i', standardPut i ⟨k, ms⟩ = (i', .ok ms.length) ∧ Stands cs i' g1 (e || e1) (k + 1) ∧ i'.completed = i.completed ++ [(k, ps)] := by
  obtain ⟨c, t, hcc, hh⟩ := cmds_at hc hg
  have hid : k ≠ i.lastId := by have := h.last; omega
  have hsl : startLoop i ⟨k, ms⟩ = ({ i with asyncs := [] }, .ok ⟨(pos g).offset, (pos g).step, c, t, [], 0⟩) := by
    unfold startLoop startPos
    dsimp only
    rw [if_neg hid, if_neg hid, h.at_]
    dsimp only
    rw [h.cmds, hcc]
    dsimp only
    rw [hh]
  obtain ⟨s1, l1, v, hl1, hp, hn, hloop⟩ := loop_walk hc (s := { i with asyncs := [] }) (l := ⟨(pos g).offset, (pos g).step, c, t, [], 0⟩) hw h.cmds
    (fun x hx => by cases hx) ⟨rfl, rfl, fun _ => ⟨hcc, hh⟩⟩ hg
  obtain ⟨f1, f2, f3, f4, f5, f6, f7⟩ := frame0_fields v.frame
  rw [List.nil_append] at hp
  rw [Nat.zero_add] at hn
  refine ⟨finish s1 ⟨k, ms⟩ l1, ?_, ?_⟩
  · unfold standardPut
    rw [hsl]
    dsimp only
    rw [hloop]
    dsimp only
    rw [hn]
  · have hfresh : pushCompleted s1.completed k l1.processed = i.completed ++ [(k, ps)] := by
      rw [hp, f2]
      exact pushCompleted_fresh (fun x hx => by have := h.ids x hx; omega)
    unfold finish
    dsimp only
    generalize hS : ({ s1 with completed := pushCompleted s1.completed k l1.processed, lastId := k, last1 := s1.last2, last2 := ⟨l1.offset, l1.step⟩ } : Inst) = S
    have c1 : S.commands = cs := by rw [← hS]; exact f1.trans h.cmds
    have c2 : S.state = .receiving .standardPut := by rw [← hS]; exact v.state.trans hst
    have c3 : S.completed = i.completed ++ [(k, ps)] := by rw [← hS]; exact hfresh
    have c4 : S.lastId = k := by rw [← hS]
    have c5 : S.last2 = pos g1 := by rw [← hS]; show Pos.mk _ _ = _; rw [hl1.offset, hl1.step]
    have c6 : S.fatal = if e || e1 then some false else none := by
      rw [← hS]
      show s1.fatal = _
      rw [v.fatal]
      show (if e1 = true then some false else i.fatal) = _
      rw [h.fatal]
      cases e <;> cases e1 <;> rfl
    have c7 : AsyncsOk S := by rw [← hS]; exact v.asyncs
    obtain ⟨d1, d2, d3, d4, d5, d6⟩ := switchState_frame S l1
    obtain ⟨o1, o2⟩ := switchState_walk hc (l := l1) (by rw [hp]; exact hw) c1 c2 hl1
    refine ⟨⟨d1.trans c1, o2, o1, d4.trans c5, d5.trans c6, ?_, ?_, ?_⟩, d2.trans c3⟩
    · intro x hx; rw [d6] at hx; exact c7 x hx
    · rw [d3, c4]; omega
    · intro x hx
      rw [d2, c3] at hx
      rcases List.mem_append.1 hx with hx | hx
      · have := h.ids x hx; omega
      · rw [List.mem_singleton.1 hx]; exact Nat.lt_succ_self k

/-- All messages are rows. -/
theorem walk_rows {ms : List Msg} : ∀ {g1 : Stage} {ps : List Proc} {e1 : Bool}, Walk .copy ms g1 ps e1 → (∀ m ∈ ms, m.1 = 100) →
    g1 = .copy ∧ ps = ms.map (fun m => .raw m.2) ∧ e1 = false := by
  induction ms with
  | nil => intro g1 ps e1 h _; cases h; exact ⟨rfl, rfl, rfl⟩
  | cons m ms ih =>
    intro g1 ps e1 h hm
    cases h with
    | cons h1 h2 =>
      have h100 := hm m (List.mem_cons_self ..)
      cases h1 with
      | row =>
        obtain ⟨a, b, c⟩ := ih h2 (fun x hx => hm x (List.mem_cons_of_mem _ hx))
        exact ⟨a, by rw [b]; rfl, by rw [c]; rfl⟩
      | copyDone => cases h100
      | async _ ha =>
        obtain ⟨k, x, hk, _⟩ := ha
        rw [h100] at hk
        cases hk
      | error _ he => rw [he.1] at h100; cases h100

theorem filter_length {α : Type} {p : α → Bool} {l : List α} (h : (l.filter p).length = l.length) : ∀ x ∈ l, p x = true :=
  fun x hx => by have := List.length_filter_eq_length_iff.1 h; exact this x hx

theorem deliver_walk {cs : List Elem} (hc : Cmds cs) {i : Inst} {g g1 : Stage} {e e1 : Bool} {n k : Nat} {ms : List Msg} {ps : List Proc} (h : Stands cs i g e n)
    (hg : g ≠ .over) (hk : n ≤ k) (hne : ms ≠ []) (hw : Walk g ms g1 ps e1) :
    ∃ i', deliver i ⟨k, ms⟩ = (i', .ok ms.length) ∧ Stands cs i' g1 (e || e1) (k + 1) ∧ i'.completed = i.completed ++ [(k, ps)] := by
  rcases h.wait hg with hst | ⟨hst, rfl⟩
  · obtain ⟨i', h1, h2, h3⟩ := standardPut_walk hc h hst hg hk hw
    exact ⟨i', by unfold deliver; rw [hst]; exact h1, h2, h3⟩
  · have hstd : Stands cs { i with state := .receiving .standardPut } .copy e n := ⟨h.cmds, fun _ => .inl rfl, fun h => (by cases h), h.at_, h.fatal, h.asyncs, h.last, h.ids⟩
    obtain ⟨i', h1, h2, h3⟩ := standardPut_walk hc hstd rfl hg hk hw
    unfold deliver
    rw [hst]
    dsimp only
    unfold putCopydata
    cases hl : ms.getLast? with
    | none => exact absurd (List.getLast?_eq_none_iff.1 hl) hne
    | some x =>
      dsimp only
      split
      · exact ⟨i', h1, h2, h3⟩
      · rename_i hcond
        have hcond : ¬ (x.1 ≠ 100) ∧ ¬ _ := not_or.1 hcond
        have hlen := Decidable.not_not.1 hcond.2
        rw [List.length_map] at hlen
        have hall : ∀ m ∈ ms, m.1 = 100 := fun m hm => by simpa using filter_length hlen m hm
        obtain ⟨rfl, rfl, rfl⟩ := walk_rows hw hall
        have hf : ms.filter (fun x => decide (x.1 = 100)) = ms := List.filter_eq_self.2 (fun m hm => by simp [hall m hm])
        rw [hf]
        unfold fastPush
        dsimp only
        have hfresh : pushCompleted i.completed k (ms.map fun x => Proc.raw x.2) = i.completed ++ [(k, ms.map fun m => .raw m.2)] :=
          pushCompleted_fresh (fun x hx => by have := h.ids x hx; omega)
        refine ⟨_, rfl, ⟨h.cmds, fun _ => .inr ⟨hst, rfl⟩, fun h => (by cases h), h.at_, by rw [Bool.or_false]; exact h.fatal, h.asyncs, Nat.lt_succ_self k, ?_⟩, hfresh⟩
        intro y hy
        dsimp only at hy
        rw [hfresh] at hy
        rcases List.mem_append.1 hy with hy | hy
        · have := h.ids y hy; omega
        · rw [List.mem_singleton.1 hy]; exact Nat.lt_succ_self k

end PG.CopyTo
