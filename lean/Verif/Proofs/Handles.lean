import Verif.Model.Handles
/-!
# Lemmas for C85
-/
namespace PG.Handles
open PG

/-! ## Identifiers -/

/-- The number of a text of digits. -/
def readHex (b : Bytes) : Nat := b.foldl (fun a d => a * 16 + (if d.toNat < 58 then d.toNat - 48 else d.toNat - 87)) 0

theorem digit_value : ∀ n < 16, (if (hexDigit n).toNat < 58 then (hexDigit n).toNat - 48 else (hexDigit n).toNat - 87) = n := by decide

theorem fold_split : ∀ (b : Bytes) (x : Nat), b.foldl (fun a d => a * 16 + (if d.toNat < 58 then d.toNat - 48 else d.toNat - 87)) x = x * 16 ^ b.length + readHex b
  | [], x => by simp [readHex]
  | d :: b, x => by
    unfold readHex
    rw [List.foldl_cons, List.foldl_cons, fold_split b, fold_split b (0 * 16 + _), List.length_cons, Nat.pow_succ, Nat.add_mul, Nat.zero_mul, Nat.zero_add, Nat.add_assoc, Nat.mul_assoc, Nat.mul_comm 16]

theorem readHex_cons (d : Nat) (hd : d < 16) (b : Bytes) : readHex (hexDigit d :: b) = d * 16 ^ b.length + readHex b := by
  show List.foldl _ (0 * 16 + _) b = _
  rw [fold_split, digit_value d hd]
  simp

theorem readHex_digits : ∀ (fuel n : Nat) (acc : Bytes), n < fuel → readHex (hexDigits fuel n acc) = n * 16 ^ acc.length + readHex acc
  | 0, _, _, h => absurd h (Nat.not_lt_zero _)
  | fuel + 1, n, acc, h => by
    rw [hexDigits]
    by_cases hn : n < 16
    · rw [if_pos hn, readHex_cons n hn]
    · rw [if_neg hn, readHex_digits fuel (n / 16) _ (by omega), readHex_cons _ (Nat.mod_lt _ (by omega)), List.length_cons, Nat.pow_succ]
      have : n * 16 ^ acc.length = (n / 16 * 16 + n % 16) * 16 ^ acc.length := by rw [Nat.div_add_mod']
      rw [this, Nat.add_mul, Nat.mul_assoc, Nat.mul_comm 16]
      omega

theorem idOf_inj {a b : Nat} (h : idOf a = idOf b) : a = b := by
  have h' := congrArg readHex (List.append_cancel_left h)
  rw [readHex_digits _ _ _ (Nat.lt_succ_self a), readHex_digits _ _ _ (Nat.lt_succ_self b)] at h'
  simpa [readHex] using h'

/-! ## The invariant -/

structure Inv (s : State) : Prop where
  nodup : ∀ o ∈ s.objs, ∀ p ∈ s.objs, o.addr = p.addr → o = p
  own : ∀ o ∈ s.objs, Generated o.id → o.id = idOf o.addr
  refs : ∀ k id a, (id, a) ∈ (s.side k).refs → id = idOf a ∧ ∃ o ∈ s.objs, o.addr = a ∧ o.kind = k ∧ o.id = id
  reg : ∀ o ∈ s.objs, Generated o.id → o.closed ≠ some true → (o.id, o.addr) ∈ (s.side o.kind).refs
  fresh : ∀ o ∈ s.objs, o.made = true → (o.id, o.addr) ∈ (s.side o.kind).refs → o.id ∉ (s.side o.kind).garbage ∧ o.closed ≠ some true
  served : ∀ k id, id ∈ (s.side k).server → Generated id → id ∈ (s.side k).garbage ∨ ∃ o ∈ s.objs, o.kind = k ∧ o.id = id ∧ o.made = true ∧ (id, o.addr) ∈ (s.side k).refs

@[simp] theorem side_setSide (s : State) (k j : Kind) (x : Side) : (s.setSide k x).side j = if j = k then x else s.side j := by
  cases k <;> cases j <;> rfl

@[simp] theorem objs_setSide (s : State) (k : Kind) (x : Side) : (s.setSide k x).objs = s.objs := by cases k <;> rfl

@[simp] theorem side_objs (s : State) (l : List Obj) (k : Kind) : ({ s with objs := l } : State).side k = s.side k := by cases k <;> rfl

theorem at?_some {s : State} {a : Nat} {o : Obj} (h : s.at? a = some o) : o ∈ s.objs ∧ o.addr = a := by
  unfold State.at? at h
  exact ⟨List.mem_of_find?_eq_some h, by simpa using List.find?_some h⟩

theorem at?_none {s : State} {a : Nat} (h : s.at? a = none) : ∀ o ∈ s.objs, o.addr ≠ a := by
  unfold State.at? at h
  intro o ho
  simpa using List.find?_eq_none.mp h o ho

theorem ref_generated {s : State} (h : Inv s) {k : Kind} {id : Bytes} {a : Nat} (hr : (id, a) ∈ (s.side k).refs) : Generated id := ⟨a, (h.refs k id a hr).1⟩

/-- Freeing one object: what changes. -/
theorem collect_inv {s : State} (h : Inv s) (a : Nat) : Inv (collect s a) := by
  unfold collect
  cases ha : s.at? a with
  | none => exact h
  | some o =>
    obtain ⟨ho, hoa⟩ := at?_some ha
    dsimp only
    have hin : ∀ p, p ∈ s.objs.filter (fun x => decide (x.addr ≠ a)) ↔ p ∈ s.objs ∧ p.addr ≠ a := by intro p; simp
    by_cases hr : (o.id, a) ∈ (s.side o.kind).refs
    · rw [side_objs, if_pos hr]
      have hid := (h.refs _ _ _ hr).1
      have hmem : ∀ k id b, (id, b) ∈ ((({ s with objs := s.objs.filter (fun x => decide (x.addr ≠ a)) } : State).setSide o.kind ((s.side o.kind).trash o.id)).side k).refs ↔
          (id, b) ∈ (s.side k).refs ∧ b ≠ a := by
        intro k id b
        rw [side_setSide, side_objs]
        by_cases hk : k = o.kind
        · rw [if_pos hk, hk]
          show (id, b) ∈ (s.side o.kind).refs.filter (fun x => decide (x.1 ≠ o.id)) ↔ _
          rw [List.mem_filter]
          constructor
          · rintro ⟨h1, h2⟩
            refine ⟨h1, fun e => ?_⟩
            have := (h.refs _ _ _ h1).1
            simp [this, e, hid] at h2
          · rintro ⟨h1, h2⟩
            refine ⟨h1, ?_⟩
            have := (h.refs _ _ _ h1).1
            simp only [ne_eq, decide_eq_true_eq]
            intro e
            exact h2 (idOf_inj (by rw [← this, e, hid]))
        · rw [if_neg hk]
          refine ⟨fun h1 => ⟨h1, fun e => ?_⟩, fun h1 => h1.1⟩
          obtain ⟨_, p, hp, hpa, hpk, _⟩ := h.refs _ _ _ h1
          have : p = o := h.nodup p hp o ho (by rw [hpa, hoa, e])
          exact hk (by rw [← hpk, this])
      have hgar : ∀ k x, x ∈ ((({ s with objs := s.objs.filter (fun x => decide (x.addr ≠ a)) } : State).setSide o.kind ((s.side o.kind).trash o.id)).side k).garbage ↔
          x ∈ (s.side k).garbage ∨ (k = o.kind ∧ x = o.id) := by
        intro k x
        rw [side_setSide, side_objs]
        by_cases hk : k = o.kind
        · rw [if_pos hk, hk]; simp [Side.trash]
        · rw [if_neg hk]; simp [hk]
      have hser : ∀ k, ((({ s with objs := s.objs.filter (fun x => decide (x.addr ≠ a)) } : State).setSide o.kind ((s.side o.kind).trash o.id)).side k).server = (s.side k).server := by
        intro k
        rw [side_setSide, side_objs]
        by_cases hk : k = o.kind
        · rw [if_pos hk, hk]; rfl
        · rw [if_neg hk, side_objs]
      constructor
      · intro p hp q hq e
        rw [objs_setSide] at hp hq
        exact h.nodup p ((hin p).mp hp).1 q ((hin q).mp hq).1 e
      · intro p hp hg
        rw [objs_setSide] at hp
        exact h.own p ((hin p).mp hp).1 hg
      · intro k id b hb
        obtain ⟨h1, h2⟩ := (hmem k id b).mp hb
        obtain ⟨g1, p, g2, g3, g4⟩ := h.refs k id b h1
        refine ⟨g1, p, ?_, g3, g4⟩
        rw [objs_setSide]
        exact (hin p).mpr ⟨g2, by rw [g3]; exact h2⟩
      · intro p hp hg hc
        rw [objs_setSide] at hp
        obtain ⟨p1, p2⟩ := (hin p).mp hp
        exact (hmem _ _ _).mpr ⟨h.reg p p1 hg hc, p2⟩
      · intro p hp hm hb
        rw [objs_setSide] at hp
        obtain ⟨p1, p2⟩ := (hin p).mp hp
        obtain ⟨b1, b2⟩ := (hmem _ _ _).mp hb
        obtain ⟨f1, f2⟩ := h.fresh p p1 hm b1
        refine ⟨fun e => ?_, f2⟩
        rcases (hgar _ _).mp e with e | ⟨_, e⟩
        · exact f1 e
        · exact b2 (idOf_inj (by rw [← (h.refs _ _ _ b1).1, e, hid]))
      · intro k id hs hg
        rw [hser] at hs
        rcases h.served k id hs hg with e | ⟨p, p1, p2, p3, p4, p5⟩
        · exact .inl ((hgar k id).mpr (.inl e))
        · by_cases hpa : p.addr = a
          · have : p = o := h.nodup p p1 o ho (by rw [hpa, hoa])
            exact .inl ((hgar k id).mpr (.inr ⟨by rw [← p2, this], by rw [← p3, this]⟩))
          · refine .inr ⟨p, ?_, p2, p3, p4, (hmem _ _ _).mpr ⟨p5, hpa⟩⟩
            rw [objs_setSide]
            exact (hin p).mpr ⟨p1, hpa⟩
    · rw [side_objs, if_neg hr]
      have hno : ∀ k id b, (id, b) ∈ (s.side k).refs → b ≠ a := by
        intro k id b hb e
        obtain ⟨_, p, hp, hpa, hpk, hpi⟩ := h.refs k id b hb
        have : p = o := h.nodup p hp o ho (by rw [hpa, hoa, e])
        apply hr
        rw [← this, hpi, hpk, ← e]
        exact hb
      constructor
      · intro p hp q hq e
        exact h.nodup p ((hin p).mp hp).1 q ((hin q).mp hq).1 e
      · intro p hp hg
        exact h.own p ((hin p).mp hp).1 hg
      · intro k id b hb
        rw [side_objs] at hb
        obtain ⟨g1, p, g2, g3, g4⟩ := h.refs k id b hb
        exact ⟨g1, p, (hin p).mpr ⟨g2, by rw [g3]; exact hno k id b hb⟩, g3, g4⟩
      · intro p hp hg hc
        rw [side_objs]
        exact h.reg p ((hin p).mp hp).1 hg hc
      · intro p hp hm hb
        rw [side_objs] at hb ⊢
        exact h.fresh p ((hin p).mp hp).1 hm hb
      · intro k id hs hg
        rw [side_objs] at hs ⊢
        rcases h.served k id hs hg with e | ⟨p, p1, p2, p3, p4, p5⟩
        · exact .inl e
        · exact .inr ⟨p, (hin p).mpr ⟨p1, hno k id p.addr p5⟩, p2, p3, p4, p5⟩

/-- What freeing objects leaves: what other objects have, what is on the server; garbage is added at the end, and comes from the objects freed. -/
structure Kept (s t : State) (l : List Nat) : Prop where
  inv : Inv t
  objs : ∀ o, o ∈ t.objs ↔ o ∈ s.objs ∧ (o.addr ∉ l)
  refs : ∀ k id a, a ∉ l → ((id, a) ∈ (t.side k).refs ↔ (id, a) ∈ (s.side k).refs)
  server : ∀ k, (t.side k).server = (s.side k).server
  garbage : ∀ k, ∃ ext, (t.side k).garbage = (s.side k).garbage ++ ext ∧ ∀ x ∈ ext, ∃ a ∈ l, x = idOf a

theorem kept_refl {s : State} (h : Inv s) : Kept s s [] :=
  ⟨h, by simp, by simp, fun _ => rfl, fun _ => ⟨[], by simp, by simp⟩⟩

theorem kept_trans {s t u : State} {l m : List Nat} (h : Kept s t l) (g : Kept t u m) : Kept s u (l ++ m) := by
  refine ⟨g.inv, ?_, ?_, ?_, ?_⟩
  · intro o; rw [g.objs, h.objs, List.mem_append]; constructor
    · rintro ⟨⟨a, b⟩, c⟩; exact ⟨a, fun e => e.elim b c⟩
    · rintro ⟨a, b⟩; exact ⟨⟨a, fun e => b (.inl e)⟩, fun e => b (.inr e)⟩
  · intro k id a ha; rw [List.mem_append] at ha
    rw [g.refs k id a (fun e => ha (.inr e)), h.refs k id a (fun e => ha (.inl e))]
  · intro k; rw [g.server, h.server]
  · intro k
    obtain ⟨e1, h1, h2⟩ := h.garbage k
    obtain ⟨e2, g1, g2⟩ := g.garbage k
    refine ⟨e1 ++ e2, by rw [g1, h1, List.append_assoc], ?_⟩
    intro x hx
    rcases List.mem_append.mp hx with hx | hx
    · obtain ⟨a, ha, e⟩ := h2 x hx; exact ⟨a, List.mem_append_left _ ha, e⟩
    · obtain ⟨a, ha, e⟩ := g2 x hx; exact ⟨a, List.mem_append_right _ ha, e⟩

theorem collect_kept {s : State} (h : Inv s) (a : Nat) : Kept s (collect s a) [a] := by
  refine ⟨collect_inv h a, ?_, ?_, ?_, ?_⟩
  all_goals
    unfold collect
    cases ha : s.at? a with
    | none => ?_
    | some o => ?_
  · intro o
    have := at?_none ha
    constructor
    · intro ho; exact ⟨ho, by simpa using this o ho⟩
    · exact fun ho => ho.1
  · intro p
    dsimp only
    split <;> simp
  · intros; rfl
  · intro k id b hb
    dsimp only
    rw [side_objs]
    split
    · rename_i hr
      rw [side_setSide, side_objs]
      by_cases hk : k = o.kind
      · rw [if_pos hk, hk]
        show (id, b) ∈ (s.side o.kind).refs.filter (fun x => decide (x.1 ≠ o.id)) ↔ _
        rw [List.mem_filter]
        refine ⟨fun x => x.1, fun x => ⟨x, ?_⟩⟩
        have e1 := (h.refs _ _ _ x).1
        have e2 := (h.refs _ _ _ hr).1
        simp only [ne_eq, decide_eq_true_eq]
        intro e
        exact hb (List.mem_singleton.mpr (idOf_inj (by rw [← e1, e, e2])))
      · rw [if_neg hk, side_objs]
    · rw [side_objs]
  · intros; rfl
  · intro k
    dsimp only
    rw [side_objs]
    split
    · rw [side_setSide, side_objs]
      by_cases hk : k = o.kind
      · rw [if_pos hk, hk]; rfl
      · rw [if_neg hk, side_objs]
    · rw [side_objs]
  · exact fun _ => ⟨[], by simp, by simp⟩
  · intro k
    dsimp only
    rw [side_objs]
    split
    · rename_i hr
      rw [side_setSide, side_objs]
      by_cases hk : k = o.kind
      · rw [if_pos hk, hk]
        exact ⟨[o.id], rfl, by intro x hx; rw [List.mem_singleton] at hx; exact ⟨a, List.mem_singleton.mpr rfl, by rw [hx]; exact (h.refs _ _ _ hr).1⟩⟩
      · rw [if_neg hk, side_objs]; exact ⟨[], by simp, by simp⟩
    · rw [side_objs]; exact ⟨[], by simp, by simp⟩

theorem collectAll_kept : ∀ (l : List Nat) {s : State}, Inv s → Kept s (collectAll s l) l
  | [], _, h => kept_refl h
  | a :: l, _, h => kept_trans (collect_kept h a) (collectAll_kept l (collect_inv h a))

theorem loop_kept (k : Kind) : ∀ (fs : List (List Nat)) {s : State} (i : Nat), Inv s → i ≤ (s.side k).garbage.length →
    ∃ l, (∀ a ∈ l, a ∈ fs.flatten) ∧ Kept s (loop k s i fs).2 l ∧ ((loop k s i fs).2.side k).garbage.drop i = (loop k s i fs).1
  | [], s, i, h, _ => ⟨[], by simp, kept_refl h, rfl⟩
  | f :: fs, s, i, h, hi => by
    have hk := collectAll_kept f h
    rw [loop]
    obtain ⟨ext, e1, _⟩ := hk.garbage k
    cases hx : ((collectAll s f).side k).garbage[i]? with
    | none =>
      dsimp only
      refine ⟨f, fun a ha => by rw [List.flatten_cons]; exact List.mem_append_left _ ha, hk, ?_⟩
      exact List.drop_eq_nil_of_le (List.getElem?_eq_none_iff.mp hx)
    | some x =>
      dsimp only
      have hlt : i < ((collectAll s f).side k).garbage.length := by
        rcases Nat.lt_or_ge i ((collectAll s f).side k).garbage.length with h | h
        · exact h
        · rw [List.getElem?_eq_none h] at hx; cases hx
      obtain ⟨l, l1, l2, l3⟩ := loop_kept k fs (i + 1) hk.inv hlt
      refine ⟨f ++ l, ?_, kept_trans hk l2, ?_⟩
      · intro a ha
        rw [List.flatten_cons]
        rcases List.mem_append.mp ha with ha | ha
        · exact List.mem_append_left _ ha
        · exact List.mem_append_right _ (l1 a ha)
      · obtain ⟨e, he, _⟩ := l2.garbage k
        have hget : ((loop k (collectAll s f) (i + 1) fs).2.side k).garbage[i]? = some x := by
          rw [he, List.getElem?_append_left hlt, hx]
        rw [← l3]
        have hlt' : i < ((loop k (collectAll s f) (i + 1) fs).2.side k).garbage.length := by rw [he, List.length_append]; omega
        rw [List.drop_eq_getElem_cons hlt']
        congr 1
        rw [List.getElem?_eq_getElem hlt'] at hget
        injection hget

/-- What `push` leaves before it sends: `l` are the objects freed meanwhile, `c` the identifiers closed. -/
structure Flushed (s t : State) (l : List Nat) (c : Kind → List Bytes) : Prop where
  inv : Inv t
  objs : ∀ o, o ∈ t.objs ↔ o ∈ s.objs ∧ (o.addr ∉ l)
  refs : ∀ k id a, a ∉ l → ((id, a) ∈ (t.side k).refs ↔ (id, a) ∈ (s.side k).refs)
  server : ∀ k x, x ∈ (t.side k).server ↔ x ∈ (s.side k).server ∧ x ∉ c k
  all : ∀ k x, x ∈ (s.side k).garbage → x ∈ c k
  only : ∀ k x, x ∈ c k → x ∈ (s.side k).garbage ∨ ∃ a ∈ l, x = idOf a
  garbage : ∀ k x, x ∈ (t.side k).garbage → ∃ a ∈ l, x = idOf a

theorem closed_inv {s : State} (h : Inv s) (cs ss r1 r2 : List Bytes) (h1 : s.cursors.garbage = cs ++ r1) (h2 : s.statements.garbage = ss ++ r2) :
    Inv { s with cursors := s.cursors.closed cs, statements := s.statements.closed ss } := by
  have hrefs : ∀ k, (({ s with cursors := s.cursors.closed cs, statements := s.statements.closed ss } : State).side k).refs = (s.side k).refs := by intro k; cases k <;> rfl
  have hg : ∀ k x, x ∈ (({ s with cursors := s.cursors.closed cs, statements := s.statements.closed ss } : State).side k).garbage → x ∈ (s.side k).garbage := by
    intro k x hx
    cases k
    · exact List.mem_of_mem_drop hx
    · exact List.mem_of_mem_drop hx
  have hs : ∀ k x, x ∈ (({ s with cursors := s.cursors.closed cs, statements := s.statements.closed ss } : State).side k).server → x ∈ (s.side k).server ∧
      (x ∈ (s.side k).garbage → x ∈ (({ s with cursors := s.cursors.closed cs, statements := s.statements.closed ss } : State).side k).garbage) := by
    intro k x hx
    cases k
    · have hx' : x ∈ s.cursors.server.filter (fun y => decide (y ∉ cs)) := hx
      rw [List.mem_filter, decide_eq_true_eq] at hx'
      refine ⟨hx'.1, fun e => ?_⟩
      show x ∈ s.cursors.garbage.drop cs.length
      have e' : x ∈ s.cursors.garbage := e
      rw [h1] at e' ⊢
      rw [List.drop_left]
      exact (List.mem_append.mp e').resolve_left hx'.2
    · have hx' : x ∈ s.statements.server.filter (fun y => decide (y ∉ ss)) := hx
      rw [List.mem_filter, decide_eq_true_eq] at hx'
      refine ⟨hx'.1, fun e => ?_⟩
      show x ∈ s.statements.garbage.drop ss.length
      have e' : x ∈ s.statements.garbage := e
      rw [h2] at e' ⊢
      rw [List.drop_left]
      exact (List.mem_append.mp e').resolve_left hx'.2
  constructor
  · exact h.nodup
  · exact h.own
  · intro k id a ha; rw [hrefs] at ha; exact h.refs k id a ha
  · intro o ho g c; rw [hrefs]; exact h.reg o ho g c
  · intro o ho m r
    rw [hrefs] at r
    obtain ⟨f1, f2⟩ := h.fresh o ho m r
    exact ⟨fun e => f1 (hg _ _ e), f2⟩
  · intro k id hx g
    obtain ⟨a, b⟩ := hs k id hx
    rcases h.served k id a g with e | ⟨o, o1, o2, o3, o4, o5⟩
    · exact .inl (b e)
    · exact .inr ⟨o, o1, o2, o3, o4, by rw [hrefs]; exact o5⟩

theorem flush_spec {s : State} (h : Inv s) (f : Freed) : ∃ l c, (∀ a ∈ l, a ∈ f.all) ∧ Flushed s (flush s f) l c := by
  unfold flush
  split
  · rename_i hne
    obtain ⟨l1, a1, k1, d1⟩ := loop_kept .cursor f.cursors 0 h (Nat.zero_le _)
    obtain ⟨l2, a2, k2, d2⟩ := loop_kept .statement f.statements 0 k1.inv (Nat.zero_le _)
    have k3 := collectAll_kept f.late k2.inv
    rw [List.drop_zero] at d1 d2
    unfold takeOutTrash
    obtain ⟨cs, s1, hl1⟩ : ∃ cs s1, loop .cursor s 0 f.cursors = (cs, s1) := ⟨_, _, rfl⟩
    rw [hl1] at k1 k2 k3 d1 d2 ⊢
    dsimp only at k1 k2 k3 d1 d2 ⊢
    obtain ⟨ss, s2, hl2⟩ : ∃ ss s2, loop .statement s1 0 f.statements = (ss, s2) := ⟨_, _, rfl⟩
    rw [hl2] at k2 k3 d2 ⊢
    dsimp only at k2 k3 d2 ⊢
    generalize collectAll s2 f.late = s3 at k3 ⊢
    have kk := kept_trans k1 (kept_trans k2 k3)
    obtain ⟨r1, e1, m1⟩ := (kept_trans k2 k3).garbage .cursor
    obtain ⟨r2, e2, m2⟩ := k3.garbage .statement
    obtain ⟨c1, g1, n1⟩ := k1.garbage .cursor
    obtain ⟨c2, g2, n2⟩ := (kept_trans k1 k2).garbage .statement
    rw [d1] at e1 g1
    rw [d2] at e2 g2
    have e1' : s3.cursors.garbage = cs ++ r1 := e1
    have e2' : s3.statements.garbage = ss ++ r2 := e2
    refine ⟨l1 ++ (l2 ++ f.late), fun k => match k with | .cursor => cs | .statement => ss, ?_, closed_inv kk.inv cs ss r1 r2 e1' e2', ?_, ?_, ?_, ?_, ?_, ?_⟩
    · intro a ha
      unfold Freed.all
      rw [List.append_assoc]
      rcases List.mem_append.mp ha with ha | ha
      · exact List.mem_append_left _ (a1 a ha)
      · rcases List.mem_append.mp ha with ha | ha
        · exact List.mem_append_right _ (List.mem_append_left _ (a2 a ha))
        · exact List.mem_append_right _ (List.mem_append_right _ ha)
    · exact kk.objs
    · intro k id a ha
      rw [← kk.refs k id a ha]
      cases k <;> rfl
    · intro k x
      rw [← kk.server k]
      cases k
      · show x ∈ s3.cursors.server.filter _ ↔ _
        rw [List.mem_filter, decide_eq_true_eq]; rfl
      · show x ∈ s3.statements.server.filter _ ↔ _
        rw [List.mem_filter, decide_eq_true_eq]; rfl
    · intro k x hx
      cases k
      · show x ∈ cs
        rw [g1]; exact List.mem_append_left _ hx
      · show x ∈ ss
        rw [g2]; exact List.mem_append_left _ hx
    · intro k x hx
      cases k
      · have hx' : x ∈ cs := hx
        rw [g1] at hx'
        rcases List.mem_append.mp hx' with hx' | hx'
        · exact .inl hx'
        · obtain ⟨a, ha, e⟩ := n1 x hx'
          exact .inr ⟨a, List.mem_append_left _ ha, e⟩
      · have hx' : x ∈ ss := hx
        rw [g2] at hx'
        rcases List.mem_append.mp hx' with hx' | hx'
        · exact .inl hx'
        · obtain ⟨a, ha, e⟩ := n2 x hx'
          refine .inr ⟨a, ?_, e⟩
          rw [← List.append_assoc]
          exact List.mem_append_left _ ha
    · intro k x hx
      cases k
      · have hx' : x ∈ s3.cursors.garbage.drop cs.length := hx
        rw [e1', List.drop_left] at hx'
        obtain ⟨a, ha, e⟩ := m1 x hx'
        exact ⟨a, List.mem_append_right _ ha, e⟩
      · have hx' : x ∈ s3.statements.garbage.drop ss.length := hx
        rw [e2', List.drop_left] at hx'
        obtain ⟨a, ha, e⟩ := m2 x hx'
        exact ⟨a, List.mem_append_right _ (List.mem_append_right _ ha), e⟩
  · rename_i hne
    have he : ∀ k, (s.side k).garbage = [] := by
      intro k
      cases k
      · exact Classical.byContradiction fun e => hne (.inr e)
      · exact Classical.byContradiction fun e => hne (.inl e)
    refine ⟨[], fun _ => [], by simp, h, by simp, by simp, by simp, ?_, by simp, ?_⟩
    · intro k x hx; rw [he] at hx; cases hx
    · intro k x hx; rw [he] at hx; cases hx

/-! ## Making -/

theorem registered_side (s : State) (k j : Kind) (a : Nat) (c : Option Bool) : (registered s k a c).side j = if j = k then (s.side k).register (idOf a) a else s.side j := by
  unfold registered
  rw [side_objs, side_setSide]

theorem registered_refs {s : State} (h : Inv s) {k : Kind} {a : Nat} (ha : s.at? a = none) (c : Option Bool) (j : Kind) (id : Bytes) (b : Nat) :
    (id, b) ∈ ((registered s k a c).side j).refs ↔ (id, b) ∈ (s.side j).refs ∨ (j = k ∧ id = idOf a ∧ b = a) := by
  rw [registered_side]
  have hno : ∀ j id b, (id, b) ∈ (s.side j).refs → id ≠ idOf a := by
    intro j id b hb e
    obtain ⟨e1, o, o1, o2, _⟩ := h.refs j id b hb
    exact at?_none ha o o1 (by rw [o2]; exact idOf_inj (by rw [← e1, e]))
  by_cases hj : j = k
  · rw [if_pos hj, hj]
    show (id, b) ∈ (idOf a, a) :: (s.side k).refs.filter _ ↔ _
    rw [List.mem_cons, List.mem_filter, Prod.mk.injEq]
    constructor
    · rintro (e | e)
      · exact .inr ⟨rfl, e⟩
      · exact .inl e.1
    · rintro (e | e)
      · exact .inr ⟨e, by simpa using hno k id b e⟩
      · exact .inl e.2
  · rw [if_neg hj]
    simp [hj]

theorem registered_garbage (s : State) (k j : Kind) (a : Nat) (c : Option Bool) : ((registered s k a c).side j).garbage = (s.side j).garbage := by
  rw [registered_side]; split
  · rename_i hj; rw [hj]; rfl
  · rfl

theorem registered_server (s : State) (k j : Kind) (a : Nat) (c : Option Bool) : ((registered s k a c).side j).server = (s.side j).server := by
  rw [registered_side]; split
  · rename_i hj; rw [hj]; rfl
  · rfl

theorem registered_objs (s : State) (k : Kind) (a : Nat) (c : Option Bool) : (registered s k a c).objs = ⟨a, k, idOf a, c, false⟩ :: s.objs := rfl

theorem registered_inv {s : State} (h : Inv s) {k : Kind} {a : Nat} (ha : s.at? a = none) (c : Option Bool) : Inv (registered s k a c) := by
  have hf := at?_none ha
  constructor
  · intro o ho p hp e
    rw [registered_objs, List.mem_cons] at ho hp
    rcases ho with rfl | ho <;> rcases hp with rfl | hp
    · rfl
    · exact absurd e.symm (hf p hp)
    · exact absurd e (hf o ho)
    · exact h.nodup o ho p hp e
  · intro o ho g
    rw [registered_objs, List.mem_cons] at ho
    rcases ho with rfl | ho
    · rfl
    · exact h.own o ho g
  · intro j id b hb
    rcases (registered_refs h ha c j id b).mp hb with e | ⟨rfl, rfl, rfl⟩
    · obtain ⟨e1, o, o1, o2⟩ := h.refs j id b e
      exact ⟨e1, o, List.mem_cons_of_mem _ o1, o2⟩
    · exact ⟨rfl, _, List.mem_cons_self, rfl, rfl, rfl⟩
  · intro o ho g hc
    rw [registered_objs, List.mem_cons] at ho
    rcases ho with rfl | ho
    · exact (registered_refs h ha c _ _ _).mpr (.inr ⟨rfl, rfl, rfl⟩)
    · exact (registered_refs h ha c _ _ _).mpr (.inl (h.reg o ho g hc))
  · intro o ho m r
    rw [registered_objs, List.mem_cons] at ho
    rcases ho with rfl | ho
    · cases m
    · rw [registered_garbage]
      rcases (registered_refs h ha c _ _ _).mp r with e | ⟨_, _, e⟩
      · exact h.fresh o ho m e
      · exact absurd e (hf o ho)
  · intro j id hs g
    rw [registered_server] at hs
    rw [registered_garbage]
    rcases h.served j id hs g with e | ⟨o, o1, o2, o3, o4, o5⟩
    · exact .inl e
    · exact .inr ⟨o, List.mem_cons_of_mem _ o1, o2, o3, o4, (registered_refs h ha c _ _ _).mpr (.inl o5)⟩

/-- When the command that makes the object is sent: the object is there, nothing on the server has its name, and its name is not in the garbage. -/
theorem sent_spec {s : State} (h : Inv s) {k : Kind} {a : Nat} (ha : s.at? a = none) (c : Option Bool) {f : Freed} (hf : a ∉ f.all) :
    Inv (flush (registered s k a c) f) ∧ (⟨a, k, idOf a, c, false⟩ ∈ (flush (registered s k a c) f).objs) ∧ (idOf a, a) ∈ ((flush (registered s k a c) f).side k).refs ∧
      (∀ j, idOf a ∉ ((flush (registered s k a c) f).side j).garbage) ∧ idOf a ∉ ((flush (registered s k a c) f).side k).server := by
  obtain ⟨l, cl, hl, F⟩ := flush_spec (registered_inv h ha (k := k) c) f
  have hal : a ∉ l := fun e => hf (hl a e)
  have hobj : (⟨a, k, idOf a, c, false⟩ : Obj) ∈ (flush (registered s k a c) f).objs := (F.objs _).mpr ⟨List.mem_cons_self, hal⟩
  have hgar : ∀ j, idOf a ∉ ((flush (registered s k a c) f).side j).garbage := by
    intro j e
    obtain ⟨b, hb, e'⟩ := F.garbage j _ e
    exact hal (by rw [idOf_inj e']; exact hb)
  refine ⟨F.inv, hobj, (F.refs k _ a hal).mpr ((registered_refs h ha c _ _ _).mpr (.inr ⟨rfl, rfl, rfl⟩)), hgar, ?_⟩
  intro hs
  rcases F.inv.served k _ hs ⟨a, rfl⟩ with e | ⟨o, o1, o2, o3, o4, o5⟩
  · exact hgar k e
  · have hoa : o.addr = a := idOf_inj (by rw [← F.inv.own o o1 ⟨a, o3⟩, o3])
    have := F.inv.nodup o o1 _ hobj hoa
    rw [this] at o4
    cases o4

theorem map_inv {s : State} (h : Inv s) (g : Obj → Obj) (hg : ∀ o, (g o).addr = o.addr ∧ (g o).kind = o.kind ∧ (g o).id = o.id) (hc : ∀ o ∈ s.objs, (g o).closed ≠ some true → o.closed ≠ some true)
    (hm : ∀ o ∈ s.objs, (g o).made = true → (o.id, o.addr) ∈ (s.side o.kind).refs → o.id ∉ (s.side o.kind).garbage ∧ (g o).closed ≠ some true) (hk : ∀ o ∈ s.objs, o.made = true → (g o).made = true) :
    Inv { s with objs := s.objs.map g } := by
  have hin : ∀ p, p ∈ ({ s with objs := s.objs.map g } : State).objs ↔ ∃ o ∈ s.objs, g o = p := fun p => List.mem_map
  constructor
  · intro o ho p hp e
    replace ho := (hin o).mp ho; obtain ⟨o, ho, rfl⟩ := ho
    replace hp := (hin p).mp hp; obtain ⟨p, hp, rfl⟩ := hp
    rw [(hg o).1, (hg p).1] at e
    rw [h.nodup o ho p hp e]
  · intro o ho gen
    replace ho := (hin o).mp ho; obtain ⟨o, ho, rfl⟩ := ho
    rw [(hg o).2.2] at gen ⊢
    rw [(hg o).1]
    exact h.own o ho gen
  · intro k id a ha
    rw [side_objs] at ha
    obtain ⟨e, o, o1, o2, o3, o4⟩ := h.refs k id a ha
    exact ⟨e, g o, (hin _).mpr ⟨o, o1, rfl⟩, by rw [(hg o).1, o2], by rw [(hg o).2.1, o3], by rw [(hg o).2.2, o4]⟩
  · intro o ho gen c
    replace ho := (hin o).mp ho; obtain ⟨o, ho, rfl⟩ := ho
    rw [side_objs, (hg o).1, (hg o).2.1, (hg o).2.2] at *
    exact h.reg o ho gen (hc o ho c)
  · intro o ho m r
    replace ho := (hin o).mp ho; obtain ⟨o, ho, rfl⟩ := ho
    rw [side_objs, (hg o).1, (hg o).2.1, (hg o).2.2] at *
    exact hm o ho m r
  · intro k id hs gen
    rw [side_objs] at *
    rcases h.served k id hs gen with e | ⟨o, o1, o2, o3, o4, o5⟩
    · exact .inl e
    · exact .inr ⟨g o, (hin _).mpr ⟨o, o1, rfl⟩, by rw [(hg o).2.1, o2], by rw [(hg o).2.2, o3], hk o o1 o4, by rw [(hg o).1]; exact o5⟩

/-- The server's part of one kind changes: fine if what is new is accounted for. -/
theorem server_inv {s : State} (h : Inv s) (k : Kind) (l : List Bytes)
    (hl : ∀ x ∈ l, Generated x → x ∈ (s.side k).server ∨ ∃ o ∈ s.objs, o.kind = k ∧ o.id = x ∧ o.made = true ∧ (x, o.addr) ∈ (s.side k).refs) :
    Inv (s.setSide k { s.side k with server := l }) := by
  have hr : ∀ j, ((s.setSide k { s.side k with server := l }).side j).refs = (s.side j).refs := by
    intro j; rw [side_setSide]; split
    · rename_i e; rw [e]
    · rfl
  have hg : ∀ j, ((s.setSide k { s.side k with server := l }).side j).garbage = (s.side j).garbage := by
    intro j; rw [side_setSide]; split
    · rename_i e; rw [e]
    · rfl
  constructor
  · rw [objs_setSide]; exact h.nodup
  · rw [objs_setSide]; exact h.own
  · intro j id a ha; rw [hr] at ha; rw [objs_setSide]; exact h.refs j id a ha
  · intro o ho; rw [objs_setSide] at ho; rw [hr]; exact h.reg o ho
  · intro o ho; rw [objs_setSide] at ho; rw [hr, hg]; exact h.fresh o ho
  · intro j id hs gen
    rw [hr, hg, objs_setSide]
    rw [side_setSide] at hs
    by_cases hj : j = k
    · rw [if_pos hj] at hs
      subst hj
      rcases hl id hs gen with e | e
      · exact h.served j id e gen
      · exact .inr e
    · rw [if_neg hj] at hs
      exact h.served j id hs gen

theorem create_inv {s : State} (h : Inv s) {k : Kind} {a : Nat} (ha : s.at? a = none) (out : Outcome) (i : Bool) {f : Freed} (hf : a ∉ f.all) : Inv (create s k a out i f) := by
  unfold create
  cases out with
  | refused => exact registered_inv h ha _
  | failed =>
    dsimp only
    obtain ⟨I, _⟩ := sent_spec h (k := k) ha (some (decide (k = .statement))) hf
    unfold Side.unmade
    split
    · have := server_inv I k ((flush (registered s k a (some (decide (k = .statement)))) f).side k).server (fun x hx _ => .inl hx)
      exact this
    · exact server_inv I k _ fun x hx _ => .inl (List.mem_filter.mp hx).1
  | done =>
    dsimp only
    generalize hc : (if k = .statement ∧ i then none else some false : Option Bool) = c
    have hc' : c ≠ some true := by rw [← hc]; split <;> simp
    obtain ⟨I, I1, I2, I3, I4⟩ := sent_spec h (k := k) ha c hf
    generalize flush (registered s k a c) f = t at *
    have J : Inv (made t a) := by
      refine map_inv I _ ?_ ?_ ?_ ?_
      · intro o; split <;> exact ⟨rfl, rfl, rfl⟩
      · intro o _; split <;> exact id
      · intro o ho m r
        split at m
        · rename_i e
          have : o = ⟨a, k, idOf a, c, false⟩ := I.nodup o ho _ I1 e
          rw [if_pos e, this]
          exact ⟨I3 k, hc'⟩
        · rename_i e; rw [if_neg e]; exact I.fresh o ho m r
      · intro o _ m; split
        · rfl
        · exact m
    have hs : ∀ j, (made t a).side j = t.side j := fun j => side_objs t _ j
    have key := server_inv J k (idOf a :: ((made t a).side k).server.filter (fun x => decide (x ≠ idOf a))) (by
      intro x hx _
      rcases List.mem_cons.mp hx with rfl | hx
      · refine .inr ⟨⟨a, k, idOf a, c, true⟩, ?_, rfl, rfl, rfl, ?_⟩
        · refine List.mem_map.mpr ⟨_, I1, ?_⟩
          rw [if_pos rfl]
        · rw [hs]; exact I2
      · exact .inl (List.mem_filter.mp hx).1)
    unfold Side.make
    rw [if_neg (by rw [hs]; exact fun e => I4 e.2)]
    exact key

theorem adopt_inv {s : State} (h : Inv s) {k : Kind} {a : Nat} (ha : s.at? a = none) {n : Bytes} (hn : ¬ Generated n) :
    Inv { s with objs := ⟨a, k, n, some false, true⟩ :: s.objs } := by
  have hf := at?_none ha
  constructor
  · intro o ho p hp e
    rcases List.mem_cons.mp ho with rfl | ho <;> rcases List.mem_cons.mp hp with rfl | hp
    · rfl
    · exact absurd e.symm (hf p hp)
    · exact absurd e (hf o ho)
    · exact h.nodup o ho p hp e
  · intro o ho g
    rcases List.mem_cons.mp ho with rfl | ho
    · exact absurd g hn
    · exact h.own o ho g
  · intro j id b hb
    rw [side_objs] at hb
    obtain ⟨e1, o, o1, o2⟩ := h.refs j id b hb
    exact ⟨e1, o, List.mem_cons_of_mem _ o1, o2⟩
  · intro o ho g hc
    rw [side_objs]
    rcases List.mem_cons.mp ho with rfl | ho
    · exact absurd g hn
    · exact h.reg o ho g hc
  · intro o ho m r
    rw [side_objs] at *
    rcases List.mem_cons.mp ho with rfl | ho
    · exact absurd (ref_generated h r) hn
    · exact h.fresh o ho m r
  · intro j id hs g
    rw [side_objs] at *
    rcases h.served j id hs g with e | ⟨o, o1, o2, o3, o4, o5⟩
    · exact .inl e
    · exact .inr ⟨o, List.mem_cons_of_mem _ o1, o2, o3, o4, o5⟩

/-- Trashing the identifier of an object that is then closed. -/
theorem close_inv {s : State} (h : Inv s) (a : Nat) (hok : ∀ o, s.at? a = some o → o.closed ≠ none) : Inv (close s a) := by
  unfold close
  cases ha : s.at? a with
  | none => exact h
  | some o =>
    obtain ⟨ho, hoa⟩ := at?_some ha
    dsimp only
    by_cases hc : o.closed = some false
    · rw [if_pos hc]
      have hin : ∀ p, p ∈ s.objs.map (fun x => if x.addr = a then { x with closed := some true } else x) ↔
          ∃ q ∈ s.objs, (if q.addr = a then { q with closed := some true } else q) = p := fun p => List.mem_map
      have hrefs : ∀ k id b, (id, b) ∈ ((s.setSide o.kind ((s.side o.kind).trash o.id)).side k).refs ↔ (id, b) ∈ (s.side k).refs ∧ ¬ (k = o.kind ∧ id = o.id) := by
        intro k id b
        rw [side_setSide]
        by_cases hk : k = o.kind
        · rw [if_pos hk, hk]
          show (id, b) ∈ (s.side o.kind).refs.filter _ ↔ _
          rw [List.mem_filter]
          simp
        · rw [if_neg hk]; simp [hk]
      have hgar : ∀ k x, x ∈ ((s.setSide o.kind ((s.side o.kind).trash o.id)).side k).garbage ↔ x ∈ (s.side k).garbage ∨ (k = o.kind ∧ x = o.id) := by
        intro k x
        rw [side_setSide]
        by_cases hk : k = o.kind
        · rw [if_pos hk, hk]; simp [Side.trash]
        · rw [if_neg hk]; simp [hk]
      have hser : ∀ k, ((s.setSide o.kind ((s.side o.kind).trash o.id)).side k).server = (s.side k).server := by
        intro k
        rw [side_setSide]
        by_cases hk : k = o.kind
        · rw [if_pos hk, hk]; rfl
        · rw [if_neg hk]
      have hsame : ∀ p ∈ s.objs, Generated p.id → p.id = o.id → p = o := by
        intro p hp g e
        refine h.nodup p hp o ho (idOf_inj ?_)
        rw [← h.own p hp g, e, h.own o ho (e ▸ g)]
      have hf : ∀ q : Obj, (if q.addr = a then { q with closed := some true } else q).addr = q.addr ∧ (if q.addr = a then { q with closed := some true } else q).kind = q.kind ∧
          (if q.addr = a then { q with closed := some true } else q).id = q.id ∧ (if q.addr = a then { q with closed := some true } else q).made = q.made := by
        intro q; split <;> exact ⟨rfl, rfl, rfl, rfl⟩
      constructor
      · intro p hp q hq e
        rw [objs_setSide] at hp hq
        replace hp := (hin p).mp hp; obtain ⟨p, hp, rfl⟩ := hp
        replace hq := (hin q).mp hq; obtain ⟨q, hq, rfl⟩ := hq
        rw [(hf p).1, (hf q).1] at e
        rw [h.nodup p hp q hq e]
      · intro p hp g
        rw [objs_setSide] at hp
        replace hp := (hin p).mp hp; obtain ⟨p, hp, rfl⟩ := hp
        rw [(hf p).2.2.1] at g ⊢
        rw [(hf p).1]
        exact h.own p hp g
      · intro k id b hb
        rw [side_objs] at hb
        obtain ⟨h1, h2⟩ := (hrefs k id b).mp hb
        obtain ⟨g1, p, g2, g3, g4, g5⟩ := h.refs k id b h1
        refine ⟨g1, _, ?_, by rw [(hf p).1]; exact g3, by rw [(hf p).2.1]; exact g4, by rw [(hf p).2.2.1]; exact g5⟩
        rw [objs_setSide]
        exact (hin _).mpr ⟨p, g2, rfl⟩
      · intro p hp g c
        rw [objs_setSide] at hp
        replace hp := (hin p).mp hp; obtain ⟨p, hp, rfl⟩ := hp
        rw [side_objs, (hf p).1, (hf p).2.1, (hf p).2.2.1] at *
        by_cases e : p.addr = a
        · rw [if_pos e] at c; exact absurd rfl c
        · rw [if_neg e] at c
          refine (hrefs _ _ _).mpr ⟨h.reg p hp g c, fun e' => e ?_⟩
          rw [hsame p hp g e'.2, hoa]
      · intro p hp m r
        rw [objs_setSide] at hp
        replace hp := (hin p).mp hp; obtain ⟨p, hp, rfl⟩ := hp
        rw [side_objs, (hf p).1, (hf p).2.1, (hf p).2.2.1, (hf p).2.2.2] at *
        obtain ⟨r1, r2⟩ := (hrefs _ _ _).mp r
        obtain ⟨f1, f2⟩ := h.fresh p hp m r1
        have hpo : ¬ p.addr = a := by
          intro e
          have : p = o := h.nodup p hp o ho (by rw [e, hoa])
          exact r2 ⟨by rw [this], by rw [this]⟩
        refine ⟨fun e => ?_, by rw [if_neg hpo]; exact f2⟩
        rcases (hgar _ _).mp e with e | e
        · exact f1 e
        · exact r2 e
      · intro k id hs g
        rw [side_objs, hser] at hs
        rw [side_objs]
        rcases h.served k id hs g with e | ⟨p, p1, p2, p3, p4, p5⟩
        · exact .inl ((hgar k id).mpr (.inl e))
        · by_cases e : k = o.kind ∧ id = o.id
          · exact .inl ((hgar k id).mpr (.inr e))
          · refine .inr ⟨_, ?_, by rw [(hf p).2.1]; exact p2, by rw [(hf p).2.2.1]; exact p3, by rw [(hf p).2.2.2]; exact p4, by rw [(hf p).1]; exact (hrefs _ _ _).mpr ⟨p5, e⟩⟩
            rw [objs_setSide]
            exact (hin _).mpr ⟨p, p1, rfl⟩
    · rw [if_neg hc]
      have hct : o.closed = some true := by
        have := hok o ha
        cases hcl : o.closed with
        | none => exact absurd hcl this
        | some b => cases b with
          | false => exact absurd hcl hc
          | true => rfl
      refine map_inv h _ ?_ ?_ ?_ ?_
      · intro p; split <;> exact ⟨rfl, rfl, rfl⟩
      · intro p _; split
        · intro e; exact absurd rfl e
        · exact id
      · intro p hp m r
        split at m
        · rename_i e
          have : p = o := h.nodup p hp o ho (by rw [e, hoa])
          exact absurd (this ▸ hct) (h.fresh p hp m r).2
        · rename_i e; rw [if_neg e]; exact h.fresh p hp m r
      · intro p _ m; split <;> exact m

theorem step_inv {s : State} (h : Inv s) {e : Event} (hok : e.Ok s) : Inv (step s e) := by
  cases e with
  | create k a o i f => exact create_inv h hok.1 o i hok.2
  | adopt k a n f =>
    obtain ⟨l, c, _, F⟩ := flush_spec (adopt_inv h (k := k) hok.1 hok.2.2) f
    exact F.inv
  | close a => exact close_inv h a hok
  | collect a => exact collect_inv h a
  | other f =>
    obtain ⟨l, c, _, F⟩ := flush_spec h f
    exact F.inv
  | drop k n => exact server_inv h k _ fun x hx _ => .inl (List.mem_filter.mp hx).1
  | sql k n =>
    refine server_inv h k _ fun x hx g => ?_
    rcases List.mem_cons.mp hx with rfl | hx
    · exact absurd g hok
    · exact .inl hx

theorem start_inv : Inv {} := by
  have hs : ∀ k, ({} : State).side k = {} := by intro k; cases k <;> rfl
  constructor
  · intro o ho; cases ho
  · intro o ho; cases ho
  · intro k id a ha; rw [hs] at ha; cases ha
  · intro o ho; cases ho
  · intro o ho; cases ho
  · intro k id ha; rw [hs] at ha; cases ha

theorem reach_inv {s : State} (h : Reach s) : Inv s := by
  induction h with
  | start => exact start_inv
  | step _ hok ih => exact step_inv ih hok

end PG.Handles
