import Verif.Proofs.Handles
import Verif.Spec.Handles
/-!
# C85: what is open on the server follows the client's objects
-/
namespace PG.Handles
open PG PG.Spec.Handles

/-- **C85** No leaks: whatever the server has under a name made by the client belongs to an object that is in use, or is going to be closed with the next thing that is sent. -/
theorem C85_no_leak {s : State} (h : Reach s) (k : Kind) (id : Bytes) (hs : id ∈ (s.side k).server) (hg : Generated id) : id ∈ (s.side k).garbage ∨ InUse s k id := by
  have I := reach_inv h
  rcases I.served k id hs hg with e | ⟨o, o1, o2, o3, o4, o5⟩
  · exact .inl e
  · refine .inr ⟨o, o1, o2, o3, (I.fresh o o1 o4 ?_).2⟩
    rw [o2, o3]; exact o5

/-- Whenever something is sent, what the server has afterwards was in use before it, or is what was just made. -/
theorem C85_closed_at_next {s : State} (h : Reach s) (e : Event) (hok : e.Ok s) (hsend : Sends e) (k : Kind) (id : Bytes) (hs : id ∈ ((step s e).side k).server) (hg : Generated id) :
    InUse s k id ∨ ∃ a i f, e = .create k a .done i f ∧ id = idOf a := by
  have I := reach_inv h
  have key : ∀ (t : State), Inv t → (∀ j, (t.side j).garbage = (s.side j).garbage) → (∀ j, (t.side j).server = (s.side j).server) → ∀ f, id ∈ ((flush t f).side k).server → InUse s k id := by
    intro t J hgar hser f hx
    obtain ⟨l, c, _, F⟩ := flush_spec J f
    obtain ⟨x1, x2⟩ := (F.server k id).mp hx
    rw [hser] at x1
    rcases C85_no_leak h k id x1 hg with e | e
    · exact absurd (F.all k id (by rw [hgar]; exact e)) x2
    · exact e
  cases e with
  | create j a o i f =>
    have kr : ∀ c, id ∈ ((flush (registered s j a c) f).side k).server → InUse s k id := fun c =>
      key _ (registered_inv I hok.1 c) (fun m => registered_garbage s j m a c) (fun m => registered_server s j m a c) f
    cases o with
    | refused => exact (hsend : False).elim
    | failed =>
      refine .inl (kr (some (decide (j = .statement))) ?_)
      have hs' : id ∈ ((create s j a .failed i f).side k).server := hs
      unfold create at hs'
      dsimp only at hs'
      rw [side_setSide] at hs'
      split at hs'
      · rename_i e
        rw [e]
        unfold Side.unmade at hs'
        split at hs'
        · exact hs'
        · exact (List.mem_filter.mp hs').1
      · exact hs'
    | done =>
      have hs' : id ∈ ((create s j a .done i f).side k).server := hs
      unfold create at hs'
      dsimp only at hs'
      generalize (if j = .statement ∧ i = true then none else some false : Option Bool) = c at hs'
      have hside : ∀ m, (made (flush (registered s j a c) f) a).side m = (flush (registered s j a c) f).side m := fun m => side_objs _ _ m
      rw [side_setSide] at hs'
      split at hs'
      · rename_i e
        subst e
        rw [hside] at hs'
        unfold Side.make at hs'
        split at hs'
        · exact .inl (kr c hs')
        · rcases List.mem_cons.mp hs' with e | e
          · exact .inr ⟨a, i, f, rfl, e⟩
          · exact .inl (kr c (List.mem_filter.mp e).1)
      · rw [hside] at hs'
        exact .inl (kr c hs')
  | adopt j a n f => exact .inl (key _ (adopt_inv I hok.1 hok.2.2) (fun m => by rw [side_objs]) (fun m => by rw [side_objs]) f hs)
  | other f => exact .inl (key s I (fun _ => rfl) (fun _ => rfl) f hs)
  | close a => exact (hsend : False).elim
  | collect a => exact (hsend : False).elim
  | drop j n => exact (hsend : False).elim
  | sql j n => exact (hsend : False).elim

/-- **C85** An address used again is no problem: when the command for a new object is sent, the server has nothing of its name, and no Close of that name is still to be sent. -/
theorem C85_no_duplicate {s : State} (h : Reach s) (k : Kind) (a : Nat) (c : Option Bool) (f : Freed) (ha : s.at? a = none) (hf : a ∉ f.all) :
    idOf a ∉ ((flush (registered s k a c) f).side k).server ∧ idOf a ∉ ((flush (registered s k a c) f).side k).garbage :=
  ⟨(sent_spec (reach_inv h) ha c hf).2.2.2.2, (sent_spec (reach_inv h) ha c hf).2.2.2.1 k⟩

theorem flush_keeps {s t : State} {l : List Nat} {c : Kind → List Bytes} (I : Inv s) (F : Flushed s t l c) {o : Obj} (ho : o ∈ s.objs) (hg : Generated o.id) (hm : o.made = true) (hc : o.closed = some false)
    (hs : o.id ∈ (s.side o.kind).server) (hl : o.addr ∉ l) : o ∈ t.objs ∧ o.id ∈ (t.side o.kind).server := by
  refine ⟨(F.objs o).mpr ⟨ho, hl⟩, (F.server _ _).mpr ⟨hs, fun e => ?_⟩⟩
  rcases F.only _ _ e with e | ⟨b, hb, e⟩
  · exact (I.fresh o ho hm (I.reg o ho hg (by rw [hc]; simp))).1 e
  · rw [I.own o ho hg] at e
    exact hl (by rw [idOf_inj e]; exact hb)

theorem keep_step {s : State} (I : Inv s) {e : Event} (hok : e.Ok s) {o : Obj} (ho : o ∈ s.objs) (hg : Generated o.id) (hm : o.made = true) (hc : o.closed = some false)
    (hs : o.id ∈ (s.side o.kind).server) (hn : ¬ LetsGo o.addr o.kind o.id e) : o ∈ (step s e).objs ∧ o.id ∈ ((step s e).side o.kind).server := by
  have hid := I.own o ho hg
  cases e with
  | create k a out i f =>
    have hne : o.addr ≠ a := at?_none hok.1 o ho
    have hne' : o.id ≠ idOf a := fun e => hne (idOf_inj (by rw [← hid, e]))
    have hreg : ∀ c, o ∈ (registered s k a c).objs ∧ o.id ∈ ((registered s k a c).side o.kind).server := fun c => ⟨List.mem_cons_of_mem _ ho, by rw [registered_server]; exact hs⟩
    have hfl : ∀ c, o ∈ (flush (registered s k a c) f).objs ∧ o.id ∈ ((flush (registered s k a c) f).side o.kind).server := by
      intro c
      obtain ⟨l, cl, hl, F⟩ := flush_spec (registered_inv I hok.1 (k := k) c) f
      exact flush_keeps (registered_inv I hok.1 c) F (hreg c).1 hg hm hc (hreg c).2 (fun e => hn (hl _ e))
    show o ∈ (create s k a out i f).objs ∧ o.id ∈ ((create s k a out i f).side o.kind).server
    unfold create
    cases out with
    | refused => exact hreg _
    | failed =>
      dsimp only
      refine ⟨by rw [objs_setSide]; exact (hfl _).1, ?_⟩
      rw [side_setSide]
      split
      · rename_i e
        subst e
        have := (hfl (some (decide (o.kind = .statement)))).2
        unfold Side.unmade
        split
        · exact this
        · exact List.mem_filter.mpr ⟨this, by simpa using hne'⟩
      · exact (hfl _).2
    | done =>
      dsimp only
      have hmd : ∀ t : State, o ∈ t.objs → o ∈ (made t a).objs := by
        intro t ht
        exact List.mem_map.mpr ⟨o, ht, by rw [if_neg hne]⟩
      have hside : ∀ (t : State) j, (made t a).side j = t.side j := fun t j => side_objs t _ j
      generalize (if k = .statement ∧ i = true then none else some false : Option Bool) = c
      refine ⟨by rw [objs_setSide]; exact hmd _ (hfl c).1, ?_⟩
      rw [side_setSide]
      split
      · rename_i e
        subst e
        have := (hfl c).2
        rw [hside]
        unfold Side.make
        split
        · exact this
        · exact List.mem_cons_of_mem _ (List.mem_filter.mpr ⟨this, by simpa using hne'⟩)
      · rw [hside]; exact (hfl _).2
  | adopt k a n f =>
    obtain ⟨l, cl, hl, F⟩ := flush_spec (adopt_inv I hok.1 (k := k) hok.2.2) f
    exact flush_keeps (adopt_inv I hok.1 hok.2.2) F (List.mem_cons_of_mem _ ho) hg hm hc (by rw [side_objs]; exact hs) (fun e => hn (hl _ e))
  | other f =>
    obtain ⟨l, cl, hl, F⟩ := flush_spec I f
    exact flush_keeps I F ho hg hm hc hs (fun e => hn (hl _ e))
  | close b =>
    have hb : o.addr ≠ b := fun e => hn e.symm
    show o ∈ (close s b).objs ∧ o.id ∈ ((close s b).side o.kind).server
    unfold close
    cases hp : s.at? b with
    | none => exact ⟨ho, hs⟩
    | some p =>
      dsimp only
      refine ⟨List.mem_map.mpr ⟨o, ?_, by rw [if_neg hb]⟩, ?_⟩
      · split
        · rw [objs_setSide]; exact ho
        · exact ho
      · rw [side_objs]
        split
        · rw [side_setSide]
          split
          · rename_i e; rw [← e]; exact hs
          · exact hs
        · exact hs
  | collect b =>
    have K := collect_kept I b
    refine ⟨(K.objs o).mpr ⟨ho, fun e => hn (List.mem_singleton.mp e).symm⟩, ?_⟩
    show o.id ∈ ((collect s b).side o.kind).server
    rw [K.server]; exact hs
  | drop k n =>
    show o ∈ (s.setSide k _).objs ∧ o.id ∈ ((s.setSide k _).side o.kind).server
    rw [objs_setSide, side_setSide]
    refine ⟨ho, ?_⟩
    split
    · rename_i e
      refine List.mem_filter.mpr ⟨by rw [← e]; exact hs, ?_⟩
      simpa using fun e' => hn ⟨e.symm, e'.symm⟩
    · exact hs
  | sql k n =>
    show o ∈ (s.setSide k _).objs ∧ o.id ∈ ((s.setSide k _).side o.kind).server
    rw [objs_setSide, side_setSide]
    refine ⟨ho, ?_⟩
    split
    · rename_i e; exact List.mem_cons_of_mem _ (by rw [← e]; exact hs)
    · exact hs

/-- **C85** Nothing in use is closed: a cursor or statement that is open on the server stays open, whatever else happens, until the user closes its object or gives it up, or the server removes it. -/
theorem C85_kept {s : State} (h : Reach s) (o : Obj) (ho : o ∈ s.objs) (hg : Generated o.id) (hm : o.made = true) (hc : o.closed = some false) (hs : o.id ∈ (s.side o.kind).server) :
    ∀ es, Possible s es → (∀ e ∈ es, ¬ LetsGo o.addr o.kind o.id e) → o ∈ (run s es).objs ∧ o.id ∈ ((run s es).side o.kind).server := by
  intro es
  induction es generalizing s with
  | nil => exact fun _ _ => ⟨ho, hs⟩
  | cons e es ih =>
    intro hp hn
    obtain ⟨k1, k2⟩ := keep_step (reach_inv h) hp.1 ho hg hm hc hs (hn e List.mem_cons_self)
    exact ih (Reach.step h hp.1) k1 k2 hp.2 fun e he => hn e (List.mem_cons_of_mem _ he)

/-- What was made stays, from the beginning. -/
theorem C85_made {s : State} (h : Reach s) (k : Kind) (a : Nat) (f : Freed) (hok : (Event.create k a .done false f).Ok s) (es : List Event)
    (hp : Possible (step s (.create k a .done false f)) es) (hn : ∀ e ∈ es, ¬ LetsGo a k (idOf a) e) : idOf a ∈ ((run s (.create k a .done false f :: es)).side k).server := by
  obtain ⟨_, I1, _, _, I4⟩ := sent_spec (reach_inv h) (k := k) hok.1 (if k = .statement ∧ false = true then none else some false) hok.2
  have e1 : (⟨a, k, idOf a, some false, true⟩ : Obj) ∈ (step s (.create k a .done false f)).objs := by
    show _ ∈ (create s k a .done false f).objs
    unfold create
    dsimp only
    rw [objs_setSide]
    refine List.mem_map.mpr ⟨_, I1, ?_⟩
    rw [if_pos rfl]
    simp
  have e2 : idOf a ∈ ((step s (.create k a .done false f)).side k).server := by
    show _ ∈ ((create s k a .done false f).side k).server
    unfold create
    dsimp only
    rw [side_setSide, if_pos rfl]
    generalize (if k = .statement ∧ false = true then none else some false : Option Bool) = c
    unfold Side.make
    split
    · rename_i e; exact e.2
    · exact List.mem_cons_self
  exact (C85_kept (Reach.step h hok) _ e1 ⟨a, rfl⟩ rfl rfl e2 es hp hn).2

theorem names_flush {s : State} (I : Inv s) {k : Kind} {n : Bytes} (hg : ¬ Generated n) (h1 : n ∈ (s.side k).server) (h2 : n ∉ (s.side k).garbage) (h3 : ∀ o ∈ s.objs, ¬ (o.kind = k ∧ o.id = n)) (f : Freed) :
    n ∈ ((flush s f).side k).server ∧ n ∉ ((flush s f).side k).garbage ∧ ∀ o ∈ (flush s f).objs, ¬ (o.kind = k ∧ o.id = n) := by
  obtain ⟨l, c, _, F⟩ := flush_spec I f
  refine ⟨(F.server k n).mpr ⟨h1, fun e => ?_⟩, fun e => ?_, fun o ho => h3 o ((F.objs o).mp ho).1⟩
  · rcases F.only k n e with e | ⟨a, _, e⟩
    · exact h2 e
    · exact hg ⟨a, e⟩
  · obtain ⟨a, _, e⟩ := F.garbage k n e
    exact hg ⟨a, e⟩

theorem names_step {s : State} (I : Inv s) {e : Event} (hok : e.Ok s) {k : Kind} {n : Bytes} (hg : ¬ Generated n) (h1 : n ∈ (s.side k).server) (h2 : n ∉ (s.side k).garbage)
    (h3 : ∀ o ∈ s.objs, ¬ (o.kind = k ∧ o.id = n)) (hn : ¬ Touches k n e) :
    n ∈ ((step s e).side k).server ∧ n ∉ ((step s e).side k).garbage ∧ ∀ o ∈ (step s e).objs, ¬ (o.kind = k ∧ o.id = n) := by
  cases e with
  | create j a out i f =>
    have hne : n ≠ idOf a := fun e => hg ⟨a, e⟩
    have h3' : ∀ c, ∀ o ∈ (registered s j a c).objs, ¬ (o.kind = k ∧ o.id = n) := by
      intro c o ho
      rcases List.mem_cons.mp ho with rfl | ho
      · exact fun e => hne e.2.symm
      · exact h3 o ho
    have hfl := fun c => names_flush (registered_inv I hok.1 (k := j) c) hg (by rw [registered_server]; exact h1) (by rw [registered_garbage]; exact h2) (h3' c) f
    show n ∈ ((create s j a out i f).side k).server ∧ n ∉ ((create s j a out i f).side k).garbage ∧ ∀ o ∈ (create s j a out i f).objs, ¬ (o.kind = k ∧ o.id = n)
    unfold create
    cases out with
    | refused => exact ⟨by rw [registered_server]; exact h1, by rw [registered_garbage]; exact h2, h3' _⟩
    | failed =>
      dsimp only
      obtain ⟨g1, g2, g3⟩ := hfl (some (decide (j = .statement)))
      rw [objs_setSide, side_setSide]
      refine ⟨?_, ?_, g3⟩
      · split
        · rename_i e; subst e
          unfold Side.unmade; split
          · exact g1
          · exact List.mem_filter.mpr ⟨g1, by simpa using hne⟩
        · exact g1
      · split
        · rename_i e; subst e
          unfold Side.unmade; split <;> exact g2
        · exact g2
    | done =>
      dsimp only
      obtain ⟨g1, g2, g3⟩ := hfl (if j = .statement ∧ i = true then none else some false)
      generalize flush (registered s j a (if j = .statement ∧ i = true then none else some false)) f = t at g1 g2 g3 ⊢
      have hside : ∀ j, (made t a).side j = t.side j := fun j => side_objs t _ j
      rw [objs_setSide, side_setSide]
      refine ⟨?_, ?_, ?_⟩
      · split
        · rename_i e; subst e
          rw [hside]
          unfold Side.make; split
          · exact g1
          · exact List.mem_cons_of_mem _ (List.mem_filter.mpr ⟨g1, by simpa using hne⟩)
        · rw [hside]; exact g1
      · split
        · rename_i e; subst e
          rw [hside]
          unfold Side.make; split <;> exact g2
        · rw [hside]; exact g2
      · intro o ho
        obtain ⟨p, hp, rfl⟩ := List.mem_map.mp ho
        have := g3 p hp
        split <;> exact this
  | adopt j a m f =>
    refine names_flush (adopt_inv I hok.1 hok.2.2) hg (by rw [side_objs]; exact h1) (by rw [side_objs]; exact h2) ?_ f
    intro o ho
    rcases List.mem_cons.mp ho with rfl | ho
    · exact hn
    · exact h3 o ho
  | other f => exact names_flush I hg h1 h2 h3 f
  | close b =>
    show n ∈ ((close s b).side k).server ∧ n ∉ ((close s b).side k).garbage ∧ ∀ o ∈ (close s b).objs, ¬ (o.kind = k ∧ o.id = n)
    unfold close
    cases hp : s.at? b with
    | none => exact ⟨h1, h2, h3⟩
    | some p =>
      have hp' := h3 p (at?_some hp).1
      dsimp only
      refine ⟨?_, ?_, ?_⟩
      · rw [side_objs]; split
        · rw [side_setSide]; split
          · rename_i e; rw [← e]; exact h1
          · exact h1
        · exact h1
      · rw [side_objs]; split
        · rw [side_setSide]; split
          · rename_i e
            intro hx
            rcases List.mem_append.mp hx with hx | hx
            · exact h2 (by rw [e]; exact hx)
            · exact hp' ⟨e.symm, (List.mem_singleton.mp hx).symm⟩
          · exact h2
        · exact h2
      · intro o ho
        obtain ⟨q, hq, rfl⟩ := List.mem_map.mp ho
        have : q ∈ s.objs := by
          split at hq
          · rw [objs_setSide] at hq; exact hq
          · exact hq
        have := h3 q this
        split <;> exact this
  | collect b =>
    have K := collect_kept I b
    refine ⟨?_, fun e => ?_, fun o ho => h3 o ((K.objs o).mp ho).1⟩
    · show n ∈ ((collect s b).side k).server
      rw [K.server]; exact h1
    · obtain ⟨ext, e1, e2⟩ := K.garbage k
      have e' : n ∈ ((collect s b).side k).garbage := e
      rw [e1] at e'
      rcases List.mem_append.mp e' with e' | e'
      · exact h2 e'
      · obtain ⟨a, _, e'⟩ := e2 n e'
        exact hg ⟨a, e'⟩
  | drop j m =>
    show n ∈ ((s.setSide j _).side k).server ∧ n ∉ ((s.setSide j _).side k).garbage ∧ ∀ o ∈ (s.setSide j _).objs, _
    rw [objs_setSide, side_setSide]
    refine ⟨?_, ?_, h3⟩
    · split
      · rename_i e; subst e
        exact List.mem_filter.mpr ⟨h1, by simpa using fun e' => hn ⟨rfl, e'.symm⟩⟩
      · exact h1
    · split
      · rename_i e; subst e; exact h2
      · exact h2
  | sql j m =>
    show n ∈ ((s.setSide j _).side k).server ∧ n ∉ ((s.setSide j _).side k).garbage ∧ ∀ o ∈ (s.setSide j _).objs, _
    rw [objs_setSide, side_setSide]
    refine ⟨?_, ?_, h3⟩
    · split
      · rename_i e; subst e; exact List.mem_cons_of_mem _ h1
      · exact h1
    · split
      · rename_i e; subst e; exact h2
      · exact h2

/-- **C85** What the user made with SQL under a name of his own is never closed by the client, unless an object is made for it. -/
theorem C85_names {s : State} (h : Reach s) (k : Kind) (n : Bytes) (hg : ¬ Generated n) (h1 : n ∈ (s.side k).server) (h2 : n ∉ (s.side k).garbage) (h3 : ∀ o ∈ s.objs, ¬ (o.kind = k ∧ o.id = n)) :
    ∀ es, Possible s es → (∀ e ∈ es, ¬ Touches k n e) → n ∈ ((run s es).side k).server := by
  intro es
  induction es generalizing s with
  | nil => exact fun _ _ => h1
  | cons e es ih =>
    intro hp hn
    obtain ⟨a, b, c⟩ := names_step (reach_inv h) hp.1 hg h1 h2 h3 (hn e List.mem_cons_self)
    exact ih (Reach.step h hp.1) a b c hp.2 fun e he => hn e (List.mem_cons_of_mem _ he)

/-- Closing twice, and giving up a closed object, add nothing. -/
theorem C85_once {s : State} (h : Reach s) (a : Nat) (o : Obj) (ho : s.at? a = some o) (hc : o.closed = some false) :
    close (close s a) a = close s a ∧ ∀ k, ((collect (close s a) a).side k).garbage = ((close s a).side k).garbage := by
  have I := reach_inv h
  obtain ⟨o1, o2⟩ := at?_some ho
  have I' := close_inv I a (by intro p hp; rw [ho] at hp; cases hp; rw [hc]; simp)
  have hat : ∃ p, (close s a).at? a = some p ∧ p.closed = some true ∧ p.kind = o.kind ∧ p.id = o.id := by
    have hex : (⟨o.addr, o.kind, o.id, some true, o.made⟩ : Obj) ∈ (close s a).objs := by
      unfold close
      rw [ho]
      dsimp only
      rw [if_pos hc, objs_setSide]
      exact List.mem_map.mpr ⟨o, o1, by rw [if_pos o2]⟩
    cases hp : (close s a).at? a with
    | none => exact (at?_none hp _ hex o2).elim
    | some p =>
      obtain ⟨p1, p2⟩ := at?_some hp
      have := I'.nodup p p1 _ hex (by rw [p2, o2])
      exact ⟨p, rfl, by rw [this], by rw [this], by rw [this]⟩
  obtain ⟨p, hp, hpc, hpk, hpi⟩ := hat
  constructor
  · generalize hcl : close s a = t at hp I' ⊢
    unfold close
    rw [hp]
    dsimp only
    rw [if_neg (by rw [hpc]; simp)]
    have : t.objs.map (fun x => if x.addr = a then { x with closed := some true } else x) = t.objs := by
      conv => rhs; rw [← List.map_id t.objs]
      apply List.map_congr_left
      intro x hx
      by_cases e : x.addr = a
      · rw [if_pos e]
        have : x = p := I'.nodup x hx p (at?_some hp).1 (by rw [e, (at?_some hp).2])
        rw [this, ← hpc]
        rfl
      · rw [if_neg e]; rfl
    rw [this]
  · intro k
    have hno : (p.id, a) ∉ ((close s a).side p.kind).refs := by
      unfold close
      rw [ho]
      dsimp only
      rw [if_pos hc, side_objs, side_setSide, if_pos hpk, hpi]
      intro e
      have := (List.mem_filter.mp e).2
      simp at this
    generalize close s a = t at hp hno I' ⊢
    unfold collect
    rw [hp]
    dsimp only
    rw [if_neg (by rw [side_objs]; exact hno), side_objs]

/-! A history: a cursor at address 31 is closed, forgotten, and another one is made at the same address, while a third one is freed; SQL has a cursor of its own. -/

/-- The history. -/
def sample : List Event :=
  [.sql .cursor [109], .create .statement 40 .done false {}, .create .cursor 31 .done false {}, .create .cursor 47 .done false {}, .close 31, .collect 31, .create .cursor 31 .done false { cursors := [[], [47]] }, .other {}]

example : idOf 31 = "py:0x1f".toUTF8.toList := by decide +kernel
example : (run {} sample).cursors.server = [idOf 31, [109]] ∧ (run {} sample).cursors.garbage = [] ∧ (run {} sample).statements.server = [idOf 40] := by decide +kernel
example : (run {} (sample.take 6)).cursors.server = [idOf 47, idOf 31, [109]] ∧ (run {} (sample.take 6)).cursors.garbage = [idOf 31] := by decide +kernel

theorem not_generated : ¬ Generated [109] := by
  rintro ⟨a, h⟩
  have := congrArg List.head? h
  cases this

theorem sample_possible : Possible {} sample := by
  refine ⟨not_generated, ⟨by decide +kernel, by decide⟩, ⟨by decide +kernel, by decide⟩, ⟨by decide +kernel, by decide⟩, ?_, trivial, ⟨by decide +kernel, by decide⟩, trivial, trivial⟩
  intro o ho
  have h : (step (step (step (step {} (.sql .cursor [109])) (.create .statement 40 .done false {})) (.create .cursor 31 .done false {})) (.create .cursor 47 .done false {})).at? 31 = some ⟨31, .cursor, idOf 31, some false, true⟩ := by
    decide +kernel
  rw [h] at ho
  cases ho
  simp

example : idOf 40 ∈ ((run {} sample).side .statement).server :=
  C85_made (s := step {} (.sql .cursor [109])) (Reach.step Reach.start sample_possible.1) .statement 40 {} sample_possible.2.1 (sample.drop 2) sample_possible.2.2
    (by intro e he; simp only [sample, List.drop, List.mem_cons, List.not_mem_nil, or_false] at he; rcases he with rfl | rfl | rfl | rfl | rfl | rfl <;> simp [LetsGo, Freed.all])

end PG.Handles
