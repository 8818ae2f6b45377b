import Verif.Props.Statement
import Verif.Proofs.Xact3f
import Verif.Spec.Prepare
import Verif.Props.Row
/-! # Preparing statements (C60) -/
namespace PG.Props.Prepare
open PG PG.Element3 PG.Xact3 PG.Fetch PG.Row PG.Statement PG.Prepare PG.Spec.Xact PG.Spec.Reply PG.Spec.Received PG.Spec.Fetch PG.Spec.Statement PG.Spec.Prepare PG.Received PG.Props.Statement

/-! ## What is asked for -/

/-- **C60 (what is asked for).** Whatever statements the server has, also one of the same name: after the commands it has the text under the name, the others are as before, and it was asked to describe this statement, once. -/
theorem C60_prepare_asks (id q : Bytes) (s : Server) : ∃ s', serve s (prepareCommands id (some q)) = some s' ∧
    s'.statements id = some q ∧ (∀ n, n ≠ id → s'.statements n = s.statements n) ∧ s'.described = s.described ++ [(id, some q)] := by
  refine ⟨⟨fun m => if m = id then some q else if m = id then none else s.statements m, s.described ++ [(id, some q)]⟩, ?_, if_pos rfl, ?_, rfl⟩
  · show serve s [.str .closeStatement id, .parse id q [], .str .describeStatement id, .empty .synchronize] = _
    simp [serve]
  · intro n hn
    show (if n = id then some q else if n = id then none else s.statements n) = s.statements n
    rw [if_neg hn, if_neg hn]

/-- **C60 (what is asked for, by name).** `statement_from_id` changes no statement and has this one described; it fails on the server if there is none of the name. -/
theorem C60_from_id_asks (id : Bytes) (s : Server) : serve s (prepareCommands id none) = if s.statements id = none then none else some { s with described := s.described ++ [(id, s.statements id)] } := by
  show serve s [.str .describeStatement id, .empty .synchronize] = _
  simp [serve]

example : (serve ⟨fun _ => some [1], []⟩ (prepareCommands [97] (some [2]))).isSome = true ∧ serve ⟨fun _ => some [1], []⟩ ((prepareCommands [97] (some [2])).tail) = none := by
  constructor
  · obtain ⟨s', h, _⟩ := C60_prepare_asks [97] [2] ⟨fun _ => some [1], []⟩
    rw [h]; rfl
  · rfl

/-! ## The reply -/

theorem commands_ok (id : Bytes) (q : Option Bytes) : (∃ s0, Xact3.init (prepareCommands id q) = .ok s0) ∧ (∀ c ∈ prepareCommands id q, IsCommand c) ∧
    prepareCommands id q ≠ [] ∧ (prepareCommands id q).head? ≠ some (.empty .flush) ∧ .empty .synchronize ∈ (prepareCommands id q).getLast? := by
  cases q with
  | none =>
    refine ⟨⟨_, rfl⟩, ?_, by simp [prepareCommands], by simp [prepareCommands], rfl⟩
    intro c hc
    simp only [prepareCommands, List.nil_append, List.mem_cons, List.not_mem_nil, or_false] at hc
    rcases hc with rfl | rfl <;> trivial
  | some q =>
    refine ⟨⟨_, rfl⟩, ?_, by simp [prepareCommands], by simp [prepareCommands], rfl⟩
    intro c hc
    simp only [prepareCommands, List.cons_append, List.nil_append, List.mem_cons, List.not_mem_nil, or_false] at hc
    rcases hc with rfl | rfl | rfl | rfl <;> trivial

theorem no_error {p : List Msg} {x : Msg} {r : List Msg} (hx : IsPlainError x) (hh : ∀ y ∈ p ++ x :: r, y.1 ≠ 69) : False := by
  obtain ⟨_, ⟨h1, _⟩, _⟩ := hx
  exact hh x (by simp) h1

/-- A reply without errors is made of the answers. -/
theorem reply_cons {c : Elem} {cs : List Elem} {w : List Msg} (h : Reply (c :: cs) w) (h69 : ∀ x ∈ w, x.1 ≠ 69) : ∃ a r, w = a ++ r ∧ Ans c a ∧ Reply cs r := by
  cases h with
  | answer ha hr => exact ⟨_, _, rfl, ha, hr⟩
  | error _ _ he _ _ => exact (no_error he h69).elim
  | lost _ _ he _ => exact (no_error he h69).elim
  | queryError _ he _ => exact (no_error he h69).elim

/-- The reply that describes. -/
theorem reply_two {id : Bytes} {w : List Msg} (h : Reply [.str .describeStatement id, .empty .synchronize] w) (h69 : ∀ x ∈ w, x.1 ≠ 69) :
    ∃ a z, w = a ++ [z] ∧ Ans (.str .describeStatement id) a ∧ Is .ready z := by
  obtain ⟨a, r, rfl, ha, hr⟩ := reply_cons h h69
  obtain ⟨b, r', rfl, hb, hr'⟩ := reply_cons hr (fun x hx => h69 x (List.mem_append_right _ hx))
  cases hr'
  cases hb with
  | sync hz => exact ⟨a, _, by simp, ha, hz⟩

/-- The reply to the commands: what comes first is not part of the description. -/
theorem reply_prepare {id : Bytes} {q : Option Bytes} {w : List Msg} (h : Reply (prepareCommands id q) w) (h69 : ∀ x ∈ w, x.1 ≠ 69) :
    ∃ p a z, w = p ++ (a ++ [z]) ∧ (∀ x ∈ p, x.1 = 51 ∨ x.1 = 49) ∧ Ans (.str .describeStatement id) a ∧ Is .ready z := by
  cases q with
  | none =>
    obtain ⟨a, z, e, ha, hz⟩ := reply_two h h69
    exact ⟨[], a, z, e, by simp, ha, hz⟩
  | some q =>
    have h : Reply (.str .closeStatement id :: .parse id q [] :: [.str .describeStatement id, .empty .synchronize]) w := h
    obtain ⟨c, r, rfl, hc, hr⟩ := reply_cons h h69
    have h69' : ∀ x ∈ r, x.1 ≠ 69 := fun x hx => h69 x (List.mem_append_right _ hx)
    obtain ⟨d, r', rfl, hd, hr'⟩ := reply_cons hr h69'
    have h69'' : ∀ x ∈ r', x.1 ≠ 69 := fun x hx => h69' x (List.mem_append_right _ hx)
    obtain ⟨a, z, rfl, ha, hz⟩ := reply_two hr' h69''
    refine ⟨c ++ d, a, z, by simp, ?_, ha, hz⟩
    have h1 : ∀ x ∈ c, x.1 = 51 := by
      cases hc with
      | close _ hx => intro x h; rw [List.mem_singleton] at h; subst h; exact is_kindOf hx 51 rfl
      | describeRow hk _ => rcases hk with hk | hk <;> cases hk
      | describeArgs hk _ _ => rcases hk with hk | hk <;> cases hk
    have h2 : ∀ x ∈ d, x.1 = 49 := by
      cases hd with
      | parse hx => intro x h; rw [List.mem_singleton] at h; subst h; exact is_kindOf hx 49 rfl
    intro x hx
    rcases List.mem_append.mp hx with hx | hx
    · exact .inl (h1 x hx)
    · exact .inr (h2 x hx)

theorem typesIn_other {x : Msg} (h : x.1 ≠ 116) : typesIn x = none := if_neg h
theorem columnsIn_other {x : Msg} (h : x.1 ≠ 84) : columnsIn x = none := if_neg h

theorem desc_strip {ms : List Msg} {ts cols} (h : Describes ms ts cols) : Describes (strip ms) ts cols := by
  have hty : ∀ t k, asyncKind t = some k → t ≠ 116 ∧ t ≠ 84 := by
    intro t k h
    constructor <;> (rintro rfl; cases h)
  refine ⟨?_, ?_⟩
  · rw [filterMap_strip _ (fun x k hk => typesIn_other (hty _ _ hk).1)]; exact h.types
  · rw [filterMap_strip _ (fun x k hk => columnsIn_other (hty _ _ hk).2)]; exact h.columns

theorem filterMap_nil {α γ : Type} (f : α → Option γ) (l : List α) (h : ∀ x ∈ l, f x = none) : l.filterMap f = [] := by
  rw [List.filterMap_eq_nil_iff]; exact h

/-- The last three messages of the reply. -/
theorem described {id : Bytes} {q : Option Bytes} {w : List Msg} {ts : List Int} {cols : Option (List ColDesc)} (h : Reply (prepareCommands id q) w) (h69 : ∀ x ∈ w, x.1 ≠ 69)
    (hd : Describes w ts cols) : ∃ pre z, meaning w = pre ++ [.elem (.attributeTypes ts), columnsMessage cols, z] := by
  obtain ⟨p, a, z, rfl, hp, ha, hz⟩ := reply_prepare h h69
  obtain ⟨h1, h2⟩ := hd
  have hzt : z.1 = 90 := is_kindOf hz 90 rfl
  obtain ⟨ze, hze, _⟩ := is_proc hz (by rw [hzt]; rfl)
  have e1 : p.filterMap typesIn = [] := filterMap_nil _ _ fun x hx => typesIn_other (by rcases hp x hx with e | e <;> rw [e] <;> decide)
  have e2 : p.filterMap columnsIn = [] := filterMap_nil _ _ fun x hx => columnsIn_other (by rcases hp x hx with e | e <;> rw [e] <;> decide)
  have e3 : [z].filterMap typesIn = [] := filterMap_nil _ _ fun x hx => by rw [List.mem_singleton] at hx; subst hx; exact typesIn_other (by rw [hzt]; decide)
  have e4 : [z].filterMap columnsIn = [] := filterMap_nil _ _ fun x hx => by rw [List.mem_singleton] at hx; subst hx; exact columnsIn_other (by rw [hzt]; decide)
  rw [List.filterMap_append, List.filterMap_append, e1, e3, List.nil_append, List.append_nil] at h1
  rw [List.filterMap_append, List.filterMap_append, e2, e4, List.nil_append, List.append_nil] at h2
  have hmz : meaning [z] = [.elem ze] := by unfold meaning; rw [List.filterMap_cons_some hze]; rfl
  cases ha with
  | describeRow _ hx =>
    exfalso
    have := is_kindOf hx 84 rfl
    rw [filterMap_nil _ _ (fun x hx => by rw [List.mem_singleton] at hx; subst hx; exact typesIn_other (by rw [this]; decide))] at h1
    cases h1
  | close hk _ => rcases hk with hk | hk <;> cases hk
  | @describeArgs _ _ t x _ ht hx =>
    refine ⟨meaning p, .elem ze, ?_⟩
    have htt : t.1 = 116 := is_kindOf ht 116 rfl
    obtain ⟨te, hte, htk⟩ := is_proc ht (by rw [htt]; rfl)
    have hxt : x.1 = 84 ∨ x.1 = 110 := hx.imp (fun h => is_kindOf h 84 rfl) (fun h => is_kindOf h 110 rfl)
    have k1 : typesIn x = none := typesIn_other (by rcases hxt with e | e <;> rw [e] <;> decide)
    have k2 : columnsIn t = none := columnsIn_other (by rw [htt]; decide)
    have hte' : te = .attributeTypes ts := by
      obtain ⟨_, e, he⟩ := ht
      have : typesIn t = match parseK .attributeTypes t.2 with | .ok (.attributeTypes t) => some t | _ => none := if_pos htt
      rw [he] at this
      unfold procOf at hte
      rw [if_neg (by rw [htt]; decide), htt] at hte
      have hte : (match parseK .attributeTypes t.2 with | .ok m => some (Proc.elem m) | .error _ => none) = some (.elem te) := hte
      rw [he] at hte
      cases hte
      cases hk : typesIn t with
      | none => rw [List.filterMap_cons_none hk, List.filterMap_cons_none k1] at h1; cases h1
      | some ts' =>
        rw [List.filterMap_cons_some hk, List.filterMap_cons_none k1] at h1
        cases h1
        rw [hk] at this
        cases te <;> first | (cases this; rfl) | cases this
    have hma : meaning [t, x] = .elem te :: meaning [x] := by unfold meaning; rw [List.filterMap_cons_some hte]
    have : meaning (p ++ ([t, x] ++ [z])) = meaning p ++ (meaning [t, x] ++ meaning [z]) := by unfold meaning; rw [List.filterMap_append, List.filterMap_append]
    rw [this, hmz, hma, hte']
    rw [List.filterMap_cons_none k2] at h2
    congr 1
    rw [List.cons_append]
    congr 1
    rcases hx with hx | hx
    · have hx84 := is_kindOf hx 84 rfl
      obtain ⟨xe, hxe, hxk⟩ := is_proc hx (by rw [hx84]; rfl)
      obtain ⟨_, e, he⟩ := hx
      have : columnsIn x = match parseK .tupleDescriptor x.2 with | .ok (.tupleDescriptor t) => some t | _ => none := if_pos hx84
      rw [he] at this
      have hxe' := hxe
      unfold procOf at hxe'
      rw [if_neg (by rw [hx84]; decide), hx84] at hxe'
      have hxe' : (match parseK .tupleDescriptor x.2 with | .ok m => some (Proc.elem m) | .error _ => none) = some (.elem xe) := hxe'
      rw [he] at hxe'
      cases hxe'
      unfold meaning
      rw [List.filterMap_cons_some hxe]
      cases xe with
      | tupleDescriptor cs =>
        dsimp only at this
        rw [List.filterMap_cons_some this] at h2
        cases cols with
        | none => cases h2
        | some cs' => cases h2; rfl
      | _ => cases hxk
    · have hx110 := is_kindOf hx 110 rfl
      rw [List.filterMap_cons_none (columnsIn_other (by rw [hx110]; decide))] at h2
      cases cols with
      | some cs => cases h2
      | none =>
        obtain ⟨_, e, he⟩ := hx
        have hxe : procOf x = some (.elem (.empty .noData)) := by
          unfold procOf
          rw [if_neg (by rw [hx110]; decide), hx110]
          show (match parseK (.empty .noData) x.2 with | .ok m => some (Proc.elem m) | .error _ => none) = _
          rw [he]
          have := parseK_kind he
          cases e with
          | empty k => cases this; rfl
          | _ => cases this
        unfold meaning
        rw [List.filterMap_cons_some hxe]
        rfl

/-- What `_fini` gets, when the server answers. -/
theorem prepare_answered {τ ν α β : Type} [DecidableEq ν] (T : Typio τ ν α β) {id : Bytes} {text : Option τ} {q : Option Bytes} {bs : List Batch} (he : encoded T text = .ok q)
    (ha : Answered (prepareCommands id q) bs) :
    prepare T id text bs = (prepareCommands id q, match fini T id (meaning (allMsgs bs)) with | .ok p => .prepared p | .error _ => .raised) := by
  obtain ⟨⟨s0, h0⟩, hcs, hne, hfl, hsy⟩ := commands_ok id q
  obtain ⟨hf, n, h1, h2, h3, h4⟩ := answered_feed h0 hcs hne hfl hsy ha
  unfold prepare
  rw [he]
  dsimp only
  rw [h0]
  dsimp only
  congr 1
  unfold finiRun
  obtain ⟨k1, k2⟩ := steps_feed bs (sent s0) n h1 h2 h3
  cases hst : steps (fun _ => false) (sent s0) bs with
  | mk i r =>
    obtain ⟨w, o⟩ := r
    rw [hst] at k1 k2
    dsimp only at k1 k2
    subst k1 k2
    dsimp only
    rw [if_neg (by rw [h3]; simp), feed_all bs (sent s0) n hf h1 h3]
    have : messagesReceived (sent s0) = [] := by rw [Props.Reply.start_eq h0]; rfl
    rw [this, List.nil_append, ← meaning_strip, h4, meaning_strip]
    cases fini T id (meaning (allMsgs bs)) <;> rfl

/-! ## What is prepared -/

theorem mapM_each {α β : Type} {f : α → Except Err β} : ∀ {l : List α} {m : List β}, Each (fun a b => f a = .ok b) l m → l.mapM f = .ok m
  | _, _, .nil => rfl
  | _, _, .cons h k => by
    rw [List.mapM_cons, h, mapM_each k]
    rfl

theorem each_mapM {α β : Type} {f : α → Except Err β} : ∀ {l : List α} {m : List β}, l.mapM f = .ok m → Each (fun a b => f a = .ok b) l m
  | [], m, h => by cases h; exact .nil
  | a :: l, m, h => by
    rw [List.mapM_cons] at h
    cases ha : f a with
    | error e => rw [ha] at h; cases h
    | ok b =>
      rw [ha] at h
      cases hl : l.mapM f with
      | error e => rw [hl] at h; cases h
      | ok m' =>
        rw [hl] at h
        cases h
        exact .cons ha (each_mapM hl)

theorem packs_mapM {τ ν α β : Type} {T : Typio τ ν α β} : ∀ {ts : List Int} {fs : List (α → Except Err Bytes)}, Each (Packs T) ts fs →
    ∃ ps, ts.mapM (packOf T) = .ok ps ∧ ps.map (fun p => p.getD T.encode) = fs
  | _, _, .nil => ⟨[], rfl, rfl⟩
  | _, _, .cons (a := t) (b := f) h k => by
    obtain ⟨ps, h1, h2⟩ := packs_mapM k
    have : ∃ p, packOf T t = .ok p ∧ p.getD T.encode = f := by
      unfold packOf
      cases h with
      | own h => exact ⟨some f, by rw [h]; rfl, rfl⟩
      | other h => exact ⟨none, by rw [h]; rfl, rfl⟩
      | unknown h => exact ⟨none, by rw [h]; rfl, rfl⟩
    obtain ⟨p, k1, k2⟩ := this
    exact ⟨p :: ps, by rw [List.mapM_cons, k1, h1]; rfl, by rw [List.map_cons, k2, h2]⟩

theorem mapM_packs {τ ν α β : Type} {T : Typio τ ν α β} : ∀ {ts : List Int} {ps : List (Option (α → Except Err Bytes))}, ts.mapM (packOf T) = .ok ps →
    Each (Packs T) ts (ps.map fun p => p.getD T.encode) := by
  intro ts ps h
  have := each_mapM h
  clear h
  induction this with
  | nil => exact .nil
  | @cons t p l m h _ ih =>
    refine .cons ?_ ih
    unfold packOf at h
    cases hr : T.resolve t with
    | error e => rw [hr] at h; cases h
    | ok io =>
      rw [hr] at h
      match io, h with
      | none, h => cases h; exact .unknown hr
      | some (none, u), h => cases h; exact .other hr
      | some (some f, u), h => cases h; exact .own hr

theorem unpacks_mapM {τ ν α β : Type} {T : Typio τ ν α β} : ∀ {cs : List ColDesc} {us : List ((Bytes → Except Err β) × Bytes)}, Each (Unpacks T) cs us →
    ∃ ps, cs.mapM (unpackOf T) = .ok ps ∧ ps.map (fun p => p.getD T.decode) = us.map Prod.fst ∧ ps.map outputFormatOf = us.map Prod.snd
  | _, _, .nil => ⟨[], rfl, rfl, rfl⟩
  | _, _, .cons (a := c) (b := u) h k => by
    obtain ⟨ps, h1, h2, h3⟩ := unpacks_mapM k
    have : ∃ p, unpackOf T c = .ok p ∧ p.getD T.decode = u.1 ∧ outputFormatOf p = u.2 := by
      unfold unpackOf
      cases h with
      | own h => exact ⟨some _, by rw [h]; rfl, rfl, rfl⟩
      | other h => exact ⟨none, by rw [h]; rfl, rfl, rfl⟩
      | unknown h => exact ⟨none, by rw [h]; rfl, rfl, rfl⟩
    obtain ⟨p, k1, k2, k3⟩ := this
    exact ⟨p :: ps, by rw [List.mapM_cons, k1, h1]; rfl, by rw [List.map_cons, List.map_cons, k2, h2], by rw [List.map_cons, List.map_cons, k3, h3]⟩

theorem mapM_unpacks {τ ν α β : Type} {T : Typio τ ν α β} : ∀ {cs : List ColDesc} {ps : List (Option (Bytes → Except Err β))}, cs.mapM (unpackOf T) = .ok ps →
    ∃ us, Each (Unpacks T) cs us ∧ ps.map (fun p => p.getD T.decode) = us.map Prod.fst ∧ ps.map outputFormatOf = us.map Prod.snd := by
  intro ts ps h
  have := each_mapM h
  clear h
  induction this with
  | nil => exact ⟨[], .nil, rfl, rfl⟩
  | @cons c p l m h _ ih =>
    obtain ⟨us, h1, h2, h3⟩ := ih
    have : ∃ u, Unpacks T c u ∧ p.getD T.decode = u.1 ∧ outputFormatOf p = u.2 := by
      unfold unpackOf at h
      cases hr : T.resolve c.typId with
      | error e => rw [hr] at h; cases h
      | ok io =>
        rw [hr] at h
        match io, h with
        | none, h => cases h; exact ⟨_, .unknown hr, rfl, rfl⟩
        | some (q, none), h => cases h; exact ⟨_, .other hr, rfl, rfl⟩
        | some (q, some f), h => cases h; exact ⟨_, .own hr, rfl, rfl⟩
    obtain ⟨u, k1, k2, k3⟩ := this
    exact ⟨u :: us, .cons k1 h1, by rw [List.map_cons, List.map_cons, k2, h2], by rw [List.map_cons, List.map_cons, k3, h3]⟩

theorem unpackReceived_last (pre : List Proc) (a b c : Proc) : unpackReceived (pre ++ [a, b, c]) = some (a, b) := by
  unfold unpackReceived
  rw [List.reverse_append]
  rfl

/-- **C60 (prepared).** The server describes the statement, and there are routines for what it describes: the prepared statement has the parameters and columns that the server told, in their order, each with the routine of its type;
the columns are asked for in the format their routines read. -/
theorem C60_prepared {τ ν α β : Type} [DecidableEq ν] {T : Typio τ ν α β} {id : Bytes} {text : Option τ} {q : Option Bytes} {bs : List Batch} {types columns packs unpacks names} (he : encoded T text = .ok q)
    (ha : Answered (prepareCommands id q) bs) (hd : Describes (allMsgs bs) types columns) (hn : Needs T types (columns.getD []) packs unpacks names) :
    ∃ p, prepare T id text bs = (prepareCommands id q, .prepared p) ∧ Made T id types columns packs unpacks names p := by
  rw [prepare_answered T he ha]
  have h69 : ∀ x ∈ strip (allMsgs bs), x.1 ≠ 69 := fun x hx => ha.noError x ((List.mem_filter.mp hx).1)
  obtain ⟨pre, z, hm⟩ := described ha.reply h69 (desc_strip hd)
  rw [meaning_strip] at hm
  rw [hm]
  unfold fini
  rw [unpackReceived_last]
  dsimp only
  obtain ⟨ps, h1, h2⟩ := packs_mapM hn.packs
  obtain ⟨us, k1, k2, k3⟩ := unpacks_mapM hn.unpacks
  have hk := mapM_each hn.names
  have hi : finiInput T (.elem (.attributeTypes types)) = .ok (types, ps) := by
    show (types.mapM (packOf T) >>= fun ps => pure (types, ps)) = _
    rw [h1]
    rfl
  cases columns with
  | none =>
    cases hn.unpacks
    cases hn.names
    cases k1
    rw [show finiOutput T (columnsMessage none) = .ok (none, [], []) from rfl, hi]
    exact ⟨_, rfl, rfl, rfl, h2, rfl, rfl, rfl, rfl, rfl, rfl⟩
  | some cs =>
    have ho : finiOutput T (columnsMessage (some cs)) = .ok (some cs, names, us) := by
      show (cs.mapM (fun c => T.decodeName c.name) >>= fun keys => cs.mapM (unpackOf T) >>= fun us => pure (some cs, keys, us)) = _
      rw [show cs.mapM (fun c => T.decodeName c.name) = .ok names from hk, show cs.mapM (unpackOf T) = .ok us from k1]
      rfl
    rw [ho, hi]
    exact ⟨_, rfl, rfl, rfl, h2, rfl, rfl, rfl, rfl, congrArg some k2, k3⟩

theorem last3 (ms : List Proc) (a b : Proc) (h : unpackReceived ms = some (a, b)) : ∃ pre z, ms = pre ++ [a, b, z] := by
  unfold unpackReceived at h
  split at h
  · rename_i z b' a' r hr
    cases h
    refine ⟨r.reverse, z, ?_⟩
    rw [← List.reverse_reverse ms, hr]
    simp
  · cases h

/-- The error messages of a reply that is taken without an error: none. -/
theorem feed_no_error : ∀ (bs : List Batch) (s : Inst) (n : Nat), Fresh s bs → (feed s bs).2.1 = .ok n → (feed s bs).1.fatal = none → ∀ x ∈ (allMsgs bs).take n, x.1 ≠ 69
  | [], s, n, _, hn, _ => by cases hn; intro x hx; simp at hx
  | b :: bs, s, n, hf, hn, hft => by
    unfold feed at hn hft
    by_cases hw : Receiving s
    · rw [if_pos hw] at hn hft
      cases hd : deliver s b with
      | mk s1 r =>
        rw [hd] at hn hft
        cases r with
        | error e => cases hn
        | ok m =>
          dsimp only at hn hft
          have hfat := Fetch.feed_fatal_mono bs s1 hft
          obtain ⟨p, h1, h2, h3, h4, h5⟩ := deliver_data hw (fresh_head hf) hd hfat
          have hno : ∀ x ∈ b.msgs.take m, x.1 ≠ 69 := by
            intro x hx h69
            have hdir : PG.Client3.dirOf s = .receiving := by obtain ⟨op, e⟩ := hw; unfold PG.Client3.dirOf; rw [e]
            have := (putAs_seen s.state s b rfl hdir).1 s1 m hd
            exact this.error ⟨x, hx, h69⟩ hfat
          cases hr : (feed s1 bs).2.1 with
          | error e => rw [hr] at hn; cases hn
          | ok k =>
            rw [hr] at hn
            cases hn
            have ih := feed_no_error bs s1 k (fresh_next hf h5 h1) hr hft
            have hall : allMsgs (b :: bs) = b.msgs ++ allMsgs bs := by simp [allMsgs]
            rw [hall]
            by_cases hs1 : Receiving s1
            · have hc : s1.state ≠ .complete := by obtain ⟨op, e⟩ := hs1; rw [e]; simp
              have := h4 hc
              subst this
              rw [List.take_length_add_append]
              intro x hx
              rcases List.mem_append.mp hx with hx | hx
              · exact hno x (by rw [List.take_length]; exact hx)
              · exact ih x hx
            · have hk : k = 0 := by
                rw [feed_stop hs1] at hr
                cases hr
                rfl
              subst hk
              dsimp only
              rw [Nat.add_zero, List.take_append_of_le_length h3]
              exact hno
    · rw [if_neg hw] at hn
      cases hn
      intro x hx; simp at hx

/-- **C60 (soundness).** Whatever the server sends, in whatever batches: if `prepare` returns a statement, then the part of it that was read has no error message, it ends with the description of parameters and columns,
and the statement is made of this description. -/
theorem C60_prepared_sound {τ ν α β : Type} [DecidableEq ν] {T : Typio τ ν α β} {id : Bytes} {text : Option τ} {bs : List Batch} {cs : List Elem} {p : Prepared ν α β}
    (hids : (bs.map (·.id)).Nodup) (hb : ∀ b ∈ bs, b.msgs ≠ [] ∧ b.id ≠ 0) (h : prepare T id text bs = (cs, .prepared p)) :
    ∃ q n pre z types columns packs unpacks names, encoded T text = .ok q ∧ cs = prepareCommands id q ∧
      (∀ x ∈ (allMsgs bs).take n, x.1 ≠ 69) ∧
      meaning ((allMsgs bs).take n) = pre ++ [.elem (.attributeTypes types), columnsMessage columns, z] ∧
      Needs T types (columns.getD []) packs unpacks names ∧ Made T id types columns packs unpacks names p := by
  unfold prepare at h
  cases he : encoded T text with
  | error e => rw [he] at h; cases h
  | ok q =>
    rw [he] at h
    dsimp only at h
    obtain ⟨⟨s0, h0⟩, hcs, hne, hfl, hsy⟩ := commands_ok id q
    rw [h0] at h
    dsimp only at h
    obtain ⟨hc, hp⟩ := Prod.mk.inj h
    have hS := Props.Reply.start_eq h0
    have hf : Fresh (sent s0) bs := ⟨hids, fun b h => ⟨(hb b h).1, by rw [hS]; exact (hb b h).2, by rw [hS]; exact fun c hc => by cases hc⟩⟩
    unfold finiRun at hp
    have key := steps_complete bs (sent s0) (by rw [hS])
    have k1 := fun n => steps_feed bs (sent s0) n
    cases hst : steps (fun _ => false) (sent s0) bs with
    | mk i r =>
      obtain ⟨w, o⟩ := r
      rw [hst] at hp key k1
      cases o with
      | blocked => cases hp
      | raised => cases hp
      | fine =>
        dsimp only at hp key k1
        by_cases hi : i.fatal = none
        · rw [if_neg (by rw [hi]; simp)] at hp
          obtain ⟨⟨n, g1⟩, g2, g3⟩ := key rfl hi
          have hi' := (k1 n g1 g2 g3).1
          subst hi'
          rw [feed_all bs (sent s0) n hf g1 g3] at hp
          have hm0 : messagesReceived (sent s0) = [] := by rw [hS]; rfl
          rw [hm0, List.nil_append] at hp
          cases hfin : fini T id (meaning ((allMsgs bs).take n)) with
          | error e => rw [hfin] at hp; cases hp
          | ok p' =>
            rw [hfin] at hp
            cases hp
            unfold fini at hfin
            cases hu : unpackReceived (meaning ((allMsgs bs).take n)) with
            | none => rw [hu] at hfin; cases hfin
            | some ab =>
              obtain ⟨a, b⟩ := ab
              rw [hu] at hfin
              dsimp only at hfin
              obtain ⟨pre, z, hpre⟩ := last3 _ _ _ hu
              cases ho : finiOutput T b with
              | error e => rw [ho] at hfin; cases hfin
              | ok out =>
                obtain ⟨columns, keys, us⟩ := out
                rw [ho] at hfin
                cases hin : finiInput T a with
                | error e => rw [hin] at hfin; cases hfin
                | ok inp =>
                  obtain ⟨types, ps⟩ := inp
                  rw [hin] at hfin
                  cases hfin
                  have ha : a = .elem (.attributeTypes types) ∧ types.mapM (packOf T) = .ok ps := by
                    unfold finiInput at hin
                    split at hin
                    · rename_i ts
                      have hin : (ts.mapM (packOf T) >>= fun ps => pure (ts, ps)) = Except.ok (types, ps) := hin
                      cases hm : ts.mapM (packOf T) with
                      | error e => rw [hm] at hin; cases hin
                      | ok ps' => rw [hm] at hin; cases hin; exact ⟨rfl, hm⟩
                    · cases hin
                  have hbb : b = columnsMessage columns ∧
                      (columns.getD []).mapM (fun c => T.decodeName c.name) = .ok keys ∧ (columns.getD []).mapM (unpackOf T) = .ok us := by
                    unfold finiOutput at ho
                    split at ho
                    · cases ho; exact ⟨rfl, rfl, rfl⟩
                    · rename_i cs
                      have ho : (cs.mapM (fun c => T.decodeName c.name) >>= fun keys => cs.mapM (unpackOf T) >>= fun us => pure (some cs, keys, us)) = Except.ok (columns, keys, us) := ho
                      cases hm : cs.mapM (fun c => T.decodeName c.name) with
                      | error e => rw [hm] at ho; cases ho
                      | ok ks =>
                        rw [hm] at ho
                        cases hm2 : cs.mapM (unpackOf T) with
                        | error e => rw [hm2] at ho; cases ho
                        | ok us' => rw [hm2] at ho; cases ho; exact ⟨rfl, hm, hm2⟩
                    · cases ho
                  obtain ⟨ups, u1, u2, u3⟩ := mapM_unpacks hbb.2.2
                  refine ⟨q, n, pre, z, types, columns, _, ups, keys, rfl, hc.symm, feed_no_error bs _ n hf g1 g3, by rw [hpre, ha.1, hbb.1], ⟨mapM_packs ha.2, u1, each_mapM hbb.2.1⟩, rfl, rfl, rfl, rfl, rfl, rfl, rfl, ?_, u3⟩
                  show columns.map (fun _ => us.map fun u => u.getD T.decode) = _
                  rw [u2]
        · rw [if_pos hi] at hp; cases hp

theorem steps_not_blocked : ∀ (bs : List Batch) (i : Inst) (n : Nat), (feed i bs).2.1 = .ok n → (feed i bs).1.state = .complete → (steps (fun _ => false) i bs).2.2 ≠ .blocked
  | [], i, n, _, hc => by
    unfold steps
    rw [if_pos (.inl hc)]
    simp
  | b :: bs, i, n, h, hc => by
    unfold steps
    by_cases hw : Receiving i
    · have hst : ¬ (i.state = .complete ∨ (fun _ => false) i = true) := by
        obtain ⟨op, e⟩ := hw
        rw [e]; simp
      rw [if_neg hst]
      unfold feed at h hc
      rw [if_pos hw] at h hc
      cases hd : deliver i b with
      | mk i1 r =>
        rw [hd] at h hc
        cases r with
        | error e => cases h
        | ok m =>
          dsimp only at h hc ⊢
          split
          · simp
          · cases hr : (feed i1 bs).2.1 with
            | error e => rw [hr] at h; cases h
            | ok k => exact steps_not_blocked bs i1 k hr hc
    · rw [feed_stop hw] at hc
      rw [if_pos (.inl hc)]
      simp

/-- **C60 (errors).** If the server answers with an error (and the reply is one to these commands), `prepare` raises. -/
theorem C60_prepare_error {τ ν α β : Type} [DecidableEq ν] {T : Typio τ ν α β} {id : Bytes} {text : Option τ} {q : Option Bytes} {bs : List Batch} (he : encoded T text = .ok q)
    (hids : (bs.map (·.id)).Nodup) (hb : ∀ b ∈ bs, b.msgs ≠ [] ∧ b.id ≠ 0) (hasync : AsyncsParse (allMsgs bs)) (hr : Reply (prepareCommands id q) (strip (allMsgs bs)))
    (hcopy : ∀ x ∈ allMsgs bs, x.1 ≠ 71) (herr : ∃ x ∈ allMsgs bs, x.1 = 69) : prepare T id text bs = (prepareCommands id q, .raised) := by
  obtain ⟨⟨s0, h0⟩, hcs, hne, hfl, hsy⟩ := commands_ok id q
  have hS := Props.Reply.start_eq h0
  have hf : Fresh (sent s0) bs := ⟨hids, fun b h => ⟨(hb b h).1, by rw [hS]; exact (hb b h).2, by rw [hS]; exact fun c hc => by cases hc⟩⟩
  have hbs : bs ≠ [] := by rintro rfl; obtain ⟨x, hx, _⟩ := herr; simp [allMsgs] at hx
  obtain ⟨m, k1, k2, k3, k4, _⟩ := Props.ReplyBatches.C12_batched_completes h0 hcs hne hfl hf hasync hr hcopy hbs
  have hfat : (feed (sent s0) bs).1.fatal ≠ none := by
    intro hn
    obtain ⟨x, hx, h69⟩ := herr
    have : x ∈ strip (allMsgs bs) := by
      unfold strip
      rw [List.mem_filter]
      exact ⟨hx, by rw [h69]; rfl⟩
    rw [← k4] at this
    exact feed_no_error bs _ m hf k1 hn x ((List.mem_filter.mp this).1) h69
  have hfin : finiRun T id (sent s0) bs = .raised := by
    unfold finiRun
    cases hst : steps (fun _ => false) (sent s0) bs with
    | mk i r =>
      obtain ⟨w, o⟩ := r
      cases o with
      | raised => rfl
      | blocked =>
        exfalso
        have := steps_not_blocked bs (sent s0) m k1 k2
        rw [hst] at this
        exact this rfl
      | fine =>
        dsimp only
        by_cases hi : i.fatal = none
        · exfalso
          have := steps_complete bs (sent s0) (by rw [hS]) (by rw [hst]) (by rw [hst]; exact hi)
          exact hfat this.2.2
        · rw [if_pos hi]
  unfold prepare
  rw [he]
  dsimp only
  rw [h0]
  dsimp only
  rw [hfin]

/-! ## Names of columns -/

theorem attmap_get {ν : Type} [DecidableEq ν] (k : ν) : ∀ (ns : List ν) (d : List (ν × Nat)) (i : Nat), PyDict.get k (attmapFrom d i ns) =
    match ns.reverse.findIdx? (· = k) with
    | some j => some (i + (ns.length - 1 - j))
    | none => PyDict.get k d
  | [], d, i => rfl
  | n :: ns, d, i => by
    rw [attmapFrom, attmap_get k ns, PyDict.get_set, List.reverse_cons, List.findIdx?_append]
    cases h : ns.reverse.findIdx? (· = k) with
    | some j =>
      have hj : j < ns.length := by
        have := (List.findIdx?_eq_some_iff_getElem.mp h).1
        rwa [List.length_reverse] at this
      show some _ = some _
      rw [List.length_cons]
      congr 1
      omega
    | none =>
      by_cases hk : n = k
      · subst hk
        rw [if_pos rfl, List.findIdx?_singleton]
        simp
      · rw [if_neg hk, List.findIdx?_singleton]
        simp [hk]

/-- Names that are all different. -/
theorem attmap_some {ν : Type} [DecidableEq ν] (k : ν) (ns : List ν) (i : Nat) : Row.lookup k (attmapFrom [] 0 ns) = some i ↔ ns[i]? = some k ∧ ∀ j, i < j → ns[j]? ≠ some k := by
  have h := attmap_get k ns [] 0
  rw [show Row.lookup k (attmapFrom [] 0 ns) = PyDict.get k (attmapFrom [] 0 ns) from rfl, h]
  cases hf : ns.reverse.findIdx? (· = k) with
  | none =>
    rw [List.findIdx?_eq_none_iff] at hf
    constructor
    · intro h; cases h
    · rintro ⟨h1, _⟩
      have := hf k (List.mem_reverse.mpr (List.mem_of_getElem? h1))
      simp at this
  | some j =>
    obtain ⟨h1, h2, h3⟩ := List.findIdx?_eq_some_iff_getElem.mp hf
    have hl : j < ns.length := by rwa [List.length_reverse] at h1
    rw [List.getElem_reverse] at h2
    have h2 : ns[ns.length - 1 - j] = k := by simpa using h2
    have hlast : ∀ m, ns.length - 1 - j < m → ns[m]? ≠ some k := by
      intro m hm e
      obtain ⟨hm', e⟩ := List.getElem?_eq_some_iff.mp e
      have := h3 (ns.length - 1 - m) (by omega)
      rw [List.getElem_reverse] at this
      have hh : ns.length - 1 - (ns.length - 1 - m) = m := by omega
      simp only [hh] at this
      exact this (by simpa using e)
    dsimp only
    rw [Nat.zero_add]
    constructor
    · intro h
      cases h
      exact ⟨by rw [List.getElem?_eq_getElem (by omega), h2], hlast⟩
    · rintro ⟨k1, k2⟩
      have ha : ¬ ns.length - 1 - j < i := fun h => hlast i h k1
      have hb : ¬ i < ns.length - 1 - j := fun h => k2 _ h (by rw [List.getElem?_eq_getElem (by omega), h2])
      congr 1
      omega

/-- **C60 (names).** A row is asked for a column by its name: it gives the value of the last column of this name; of the column of this name, if the names are different. -/
theorem C60_names {τ ν α β : Type} [DecidableEq ν] {T : Typio τ ν α β} {id : Bytes} {types columns packs unpacks} {names : List ν} {p : Prepared ν α β} (hm : Made T id types columns packs unpacks names p)
    (row : List (Option β)) (hrow : row.length = names.length) (k : ν) (v : Option β) :
    getKey ⟨row, p.attmap⟩ k = .ok v ↔ ∃ i : Nat, names[i]? = some k ∧ (∀ j : Nat, i < j → names[j]? ≠ some k) ∧ row[i]? = some v := by
  rw [hm.attmap]
  unfold getKey
  cases hl : Row.lookup k (attmapFrom [] 0 names) with
  | none =>
    constructor
    · intro h; cases h
    · rintro ⟨i, h1, h2, _⟩
      have := (attmap_some k names i).mpr ⟨h1, h2⟩
      rw [hl] at this
      cases this
  | some i =>
    obtain ⟨h1, h2⟩ := (attmap_some k names i).mp hl
    have hi : i < row.length := by rw [hrow]; exact (List.getElem?_eq_some_iff.mp h1).1
    have hg := Props.Row.pyGet_nat (l := row) (List.getElem?_eq_getElem hi)
    dsimp only
    rw [hg]
    constructor
    · intro h
      cases h
      exact ⟨i, h1, h2, List.getElem?_eq_getElem hi⟩
    · rintro ⟨i', k1, k2, k3⟩
      have := (attmap_some k names i').mpr ⟨k1, k2⟩
      rw [hl] at this
      cases this
      rw [List.getElem?_eq_getElem hi] at k3
      cases k3
      rfl

/-- **C60 (finding).** Of two columns of the same name, as in `SELECT a.id, b.id`, the first cannot be had by name. -/
theorem C60_names_repeated {τ ν α β : Type} [DecidableEq ν] {T : Typio τ ν α β} {id : Bytes} {types columns packs unpacks} {names a b : List ν} {p : Prepared ν α β} {k : ν}
    (hm : Made T id types columns packs unpacks names p) (hn : names = a ++ k :: b) (hk : k ∈ b) (row row' : List (Option β)) (hrow : row.length = names.length) (x : Option β)
    (h' : row' = row.set a.length x) : getKey ⟨row, p.attmap⟩ k = getKey ⟨row', p.attmap⟩ k := by
  have hl : row'.length = names.length := by rw [h', List.length_set, hrow]
  obtain ⟨c, d, rfl⟩ := List.append_of_mem hk
  rw [hm.attmap]
  unfold getKey
  cases hlk : Row.lookup k (attmapFrom [] 0 names) with
  | none => rfl
  | some i =>
    obtain ⟨h1, h2⟩ := (attmap_some k names i).mp hlk
    dsimp only
    have hi : i < row.length := by rw [hrow]; exact (List.getElem?_eq_some_iff.mp h1).1
    have hne : a.length ≠ i := by
      intro e
      refine h2 (a.length + 1 + c.length) (by omega) ?_
      rw [hn, List.getElem?_append_right (by omega), show a.length + 1 + c.length - a.length = c.length + 1 by omega, List.getElem?_cons_succ, List.getElem?_append_right (by omega)]
      simp
    rw [Props.Row.pyGet_nat (l := row) (List.getElem?_eq_getElem hi), Props.Row.pyGet_nat (l := row') (i := i) (x := row[i])]
    rw [h', List.getElem?_set_ne hne, List.getElem?_eq_getElem hi]

/-! ## From the text to the rows -/

/-- **C60 (`query`).** `db.query(text, …)`: the statement is prepared with the text, run with the packed parameters under the same name, and the rows of the reply are returned, in order, decoded with the routines of the columns' types. -/
theorem C60_query_rows {τ ν α β : Type} [DecidableEq ν] {T : Typio τ ν α β} {id q : Bytes} {text : τ} {bs bs' : List Batch} {types columns packs unpacks} {names : List ν} {params ps rs} (he : T.encodeText text = .ok q)
    (ha : Answered (prepareCommands id (some q)) bs) (hd : Describes (allMsgs bs) types (some columns)) (hn : Needs T types columns packs unpacks names)
    (hp : Decoded packs params ps) (ha' : Answered (callCommands id (types.map fun _ => [0, 1]) ps (unpacks.map Prod.snd)) bs') (hcopy : ∀ x ∈ allMsgs bs', x.1 ≠ 72 ∧ x.1 ≠ 100)
    (hr : AllDecoded (unpacks.map Prod.fst) (tuplesOf (allMsgs bs')) rs) :
    query T id text params bs bs' = (prepareCommands id (some q) ++ callCommands id (types.map fun _ => [0, 1]) ps (unpacks.map Prod.snd), .rows rs) := by
  have he' : encoded T (some text) = .ok (some q) := by show (T.encodeText text).map some = _; rw [he]; rfl
  obtain ⟨p, h1, hm⟩ := C60_prepared (columns := some columns) he' ha hd hn
  unfold query
  rw [h1]
  dsimp only
  unfold callPrepared
  rw [hm.id, hm.inputIo, hm.inputFormats, hm.outputIo, hm.outputFormats]
  rw [show (some columns).map (fun _ => unpacks.map Prod.fst) = some (unpacks.map Prod.fst) from rfl, C58_call_rows hp ha' hcopy hr]

/-- **C60 (`query`, command).** The same for a statement that returns no rows: the name of the command, and the count. -/
theorem C60_query_command {τ ν α β : Type} [DecidableEq ν] {T : Typio τ ν α β} {id q : Bytes} {text : τ} {bs bs' : List Batch} {types packs} {params ps} {d nm : Bytes} {n : Option Nat} {ts} (he : T.encodeText text = .ok q)
    (ha : Answered (prepareCommands id (some q)) bs) (hd : Describes (allMsgs bs) types none) (hn : Each (Packs T) types packs)
    (hp : Decoded packs params ps) (ha' : Answered (callCommands id (types.map fun _ => [0, 1]) ps []) bs') (hcopy : ∀ x ∈ allMsgs bs', x.1 ≠ 72)
    (hrows : tuplesOf (allMsgs bs') = []) (ht : tagsOf (allMsgs bs') = d :: ts) (hd' : IsTag d nm n) :
    query T id text params bs bs' = (prepareCommands id (some q) ++ callCommands id (types.map fun _ => [0, 1]) ps [], .command nm n) := by
  have he' : encoded T (some text) = .ok (some q) := by show (T.encodeText text).map some = _; rw [he]; rfl
  obtain ⟨p, h1, hm⟩ := C60_prepared (columns := none) (unpacks := []) (names := []) he' ha hd ⟨hn, .nil, .nil⟩
  unfold query
  rw [h1]
  dsimp only
  unfold callPrepared
  rw [hm.id, hm.inputIo, hm.inputFormats, hm.outputIo, hm.outputFormats]
  rw [show (none : Option (List ColDesc)).map (fun _ => ([] : List ((Bytes → Except Err β) × Bytes)).map Prod.fst) = none from rfl]
  rw [show ([] : List ((Bytes → Except Err β) × Bytes)).map Prod.snd = [] from rfl, C58_call_command hp ha' hcopy hrows ht hd']

/-- **C60 (`query.first`).** `db.query.first(text, …)` is `first` of the prepared statement (C58), with the routines of the types that the server told. -/
theorem C60_query_first {τ ν α β : Type} [DecidableEq ν] {T : Typio τ ν α β} {id q : Bytes} {text : τ} {bs : List Batch} (bs' : List Batch) {types columns packs unpacks} {names : List ν} (params : List (Option α)) (he : T.encodeText text = .ok q)
    (ha : Answered (prepareCommands id (some q)) bs) (hd : Describes (allMsgs bs) types columns) (hn : Needs T types (columns.getD []) packs unpacks names) :
    (queryFirst T id text params bs bs').2 = (first packs (unpacks.map Prod.fst) id (types.map fun _ => [0, 1]) (unpacks.map Prod.snd) params bs').2 := by
  have he' : encoded T (some text) = .ok (some q) := by show (T.encodeText text).map some = _; rw [he]; rfl
  obtain ⟨p, h1, hm⟩ := C60_prepared (columns := columns) he' ha hd hn
  unfold queryFirst
  rw [h1]
  dsimp only
  unfold firstPrepared
  rw [hm.id, hm.inputIo, hm.inputFormats, hm.outputIo, hm.outputFormats]
  have : (columns.map fun _ => unpacks.map Prod.fst).getD [] = unpacks.map Prod.fst := by
    cases columns with
    | some cs => rfl
    | none => cases hn.unpacks; rfl
  rw [this]

/-- **C60 (no leftovers).** If preparing raises, nothing is run. -/
theorem C60_query_raises {τ ν α β : Type} [DecidableEq ν] {T : Typio τ ν α β} {id : Bytes} {text : τ} {bs : List Batch} {cs : List Elem} (h : prepare T id (some text) bs = (cs, .raised)) (params : List (Option α)) (bs' : List Batch) :
    query T id text params bs bs' = (cs, .raised) ∧ queryFirst T id text params bs bs' = (cs, .raised) := by
  unfold query queryFirst
  rw [h]
  exact ⟨rfl, rfl⟩

/-! ## Non-vacuity -/

/-- Types: 23 has routines of its own; 25 is text; others cannot be resolved. Values and names are bytes. -/
def demoT : Typio Bytes Bytes UInt8 UInt8 where
  encodeText := fun t => .ok t
  decodeName := fun n => .ok n
  encode := fun b => .ok [b, b]
  decode := fun d => match d with | [b] => .ok b | _ => .error .valueError
  resolve := fun t => if t = 23 then .ok (some (some packByte, some oneByte)) else if t = 25 then .ok (some (none, none)) else .error .typeError

/-- A column of a descriptor: name, type. -/
def colBytes (n t : UInt8) : Bytes := [n, 0, 0, 0, 0, 0, 0, 0, 0, 0, 0, t, 0, 4, 255, 255, 255, 255, 0, 0]
def col (n : UInt8) (t : Int) : ColDesc := ⟨[n], 0, 0, t, 4, -1, 0⟩

/-- The reply: a parameter of type 23; columns `a` of type 23 and `b` of type 25. -/
def prepWire : List Batch := [⟨1, [(51, []), (49, []), (116, [0, 1, 0, 0, 0, 23])]⟩, ⟨2, [Props.Xact.note, (84, [0, 2] ++ colBytes 97 23 ++ colBytes 98 25), (90, [73])]⟩]

theorem prep_demo : Answered (prepareCommands [115] (some [113])) prepWire := by
  refine ⟨by decide, by decide, wire_asyncs (by decide), ?_, by decide, by decide⟩
  exact .answer (a := [(51, [])]) (.close (.inl rfl) ⟨rfl, _, rfl⟩) (.answer (a := [(49, [])]) (.parse ⟨rfl, _, rfl⟩)
    (.answer (a := [(116, [0, 1, 0, 0, 0, 23]), (84, [0, 2] ++ colBytes 97 23 ++ colBytes 98 25)])
      (.describeArgs (.inl rfl) ⟨rfl, .attributeTypes [23], by decide⟩ (.inl ⟨rfl, .tupleDescriptor [col 97 23, col 98 25], by decide +kernel⟩)) (.answer (a := [(90, [73])]) (.sync ⟨rfl, _, rfl⟩) .nil)))

theorem prep_describes : Describes (allMsgs prepWire) [23] (some [col 97 23, col 98 25]) := ⟨by decide +kernel, by decide +kernel⟩

theorem prep_needs : Needs demoT [23] [col 97 23, col 98 25] [packByte] [(oneByte, [0, 1]), (demoT.decode, [0, 0])] [[97], [98]] :=
  ⟨.cons (.own (by rfl)) .nil, .cons (.own (by rfl)) (.cons (.other (by rfl)) .nil), .cons rfl (.cons rfl .nil)⟩

example : ∃ p, prepare demoT [115] (some [113]) prepWire = (prepareCommands [115] (some [113]), .prepared p) ∧ p.input = [23] ∧ p.outputFormats = [[0, 1], [0, 0]] ∧ p.keys = [[97], [98]] := by
  obtain ⟨p, h, hm⟩ := C60_prepared (columns := some [col 97 23, col 98 25]) (text := some [113]) rfl prep_demo prep_describes prep_needs
  exact ⟨p, h, hm.input, hm.outputFormats, hm.keys⟩

/-- The reply to the call: the row `(7, 8)`. -/
def rowsWire : List Batch := [⟨1, [(50, []), (68, [0, 2, 0, 0, 0, 1, 7, 0, 0, 0, 1, 8])]⟩, ⟨2, [(67, [83, 69, 76, 69, 67, 84, 32, 49, 0]), (90, [73])]⟩]

theorem rows_demo (ps : List (Option Bytes)) : Answered (callCommands [115] [[0, 1]] ps [[0, 1], [0, 0]]) rowsWire := by
  refine ⟨by decide, by decide, wire_asyncs (by decide), ?_, by decide, by decide⟩
  exact .answer (a := [(50, [])]) (.bind ⟨rfl, _, rfl⟩) (.answer (a := [(68, [0, 2, 0, 0, 0, 1, 7, 0, 0, 0, 1, 8])] ++ [(67, [83, 69, 76, 69, 67, 84, 32, 49, 0])])
    (.execute (by intro r hr; rw [List.mem_singleton] at hr; subst hr; exact ⟨rfl, .tuple [some [7], some [8]], by decide⟩) ⟨rfl, .complete [83, 69, 76, 69, 67, 84, 32, 49], by decide⟩)
    (.answer (a := [(90, [73])]) (.sync ⟨rfl, _, rfl⟩) .nil))

example : (query demoT [115] [113] [some 5] prepWire rowsWire).2 = .rows [[some 7, some 8]] := by
  rw [C60_query_rows (names := [[97], [98]]) (packs := [packByte]) (unpacks := [(oneByte, [0, 1]), (demoT.decode, [0, 0])]) (columns := [col 97 23, col 98 25]) (types := [23]) (q := [113]) (rs := [[some 7, some 8]])
    (ps := [some [5]]) rfl prep_demo prep_describes prep_needs (.value rfl .nil) (rows_demo _) (by decide)
    (by rw [show tuplesOf (allMsgs rowsWire) = [[some [7], some [8]]] by decide]; exact .cons (.value rfl (.value rfl .nil)) .nil)]

/-- An error: `prepare` raises, nothing is run. -/
def errWire : List Batch := [⟨1, [(51, []), (69, [83, 69, 82, 82, 79, 82, 0, 0])]⟩, ⟨2, [(90, [73])]⟩]

example : prepare demoT [115] (some [113]) errWire = (prepareCommands [115] (some [113]), .raised) := by
  refine C60_prepare_error (q := some [113]) rfl (by decide) (by decide) (wire_asyncs (by decide)) ?_ (by decide) ⟨(69, [83, 69, 82, 82, 79, 82, 0, 0]), by decide, rfl⟩
  refine .answer (a := [(51, [])]) (.close (.inl rfl) ⟨rfl, _, rfl⟩) ?_
  refine .error (p := []) (x := (69, [83, 69, 82, 82, 79, 82, 0, 0])) (r := [(90, [73])]) (by rintro (h | h) <;> cases h) ⟨[(49, [])], by simp, .parse ⟨rfl, _, rfl⟩⟩ ⟨[69, 82, 82, 79, 82], ⟨rfl, _, rfl, rfl⟩, rfl⟩
    (by simp) ?_
  show Spec.Reply.Reply [.empty .synchronize] _
  exact .answer (a := [(90, [73])]) (.sync ⟨rfl, _, rfl⟩) .nil

example : getKey (⟨[some (1 : UInt8), some 2, some 3], attmapFrom [] 0 ["id", "x", "id"]⟩ : Row String (Option UInt8)) "id" = .ok (some 3) := by rfl

end PG.Props.Prepare
