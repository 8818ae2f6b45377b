import Verif.Proofs.Statement2
/-! # What calling a statement returns (C58) -/
namespace PG.Props.Statement
open PG PG.Element3 PG.Xact3 PG.Fetch PG.Row PG.Statement PG.Spec.Xact PG.Spec.Reply PG.Spec.Received PG.Spec.Fetch PG.Spec.Statement PG.Received

/-- What follows from an answer without an error. -/
theorem answered_feed {cs : List Elem} {s0 : Inst} {bs : List Batch} (h0 : Xact3.init cs = .ok s0) (hcs : ∀ c ∈ cs, IsCommand c) (hne : cs ≠ []) (hfl : cs.head? ≠ some (.empty .flush)) (hsync : .empty .synchronize ∈ cs.getLast?)
    (h : Answered cs bs) : Fresh (sent s0) bs ∧ ∃ n, (feed (sent s0) bs).2.1 = .ok n ∧ (feed (sent s0) bs).1.state = .complete ∧ (feed (sent s0) bs).1.fatal = none ∧ strip ((allMsgs bs).take n) = strip (allMsgs bs) := by
  have hS := Props.Reply.start_eq h0
  have hf : Fresh (sent s0) bs := ⟨h.ids, fun b hb => ⟨(h.batches b hb).1, by rw [hS]; exact (h.batches b hb).2, by rw [hS]; exact fun c hc => by cases hc⟩⟩
  have hbs : bs ≠ [] := by
    rintro rfl
    obtain ⟨pre, rfl⟩ : ∃ pre, cs = pre ++ [.empty .synchronize] := by
      obtain ⟨l, hl⟩ := List.getLast?_eq_some_iff.mp hsync
      exact ⟨l, hl⟩
    obtain ⟨w', z, hw, _⟩ := Props.Reply.C12_ready_is_last h.reply
    have : ([] : List Msg) = w' ++ [z] := hw
    simp at this
  obtain ⟨m, k1, k2, _, k4, k5⟩ := Props.ReplyBatches.C12_batched_completes h0 hcs hne hfl hf h.asyncs h.reply h.noCopyIn hbs
  exact ⟨hf, m, k1, k2, k5 h.noError, k4⟩

/-! ## `first` -/

theorem first_commands_ok (stmt : Bytes) (fi : List Bytes) (ps : List (Option Bytes)) (fo : List Bytes) :
    (∃ s0, Xact3.init (firstCommands stmt fi ps fo) = .ok s0) ∧ (∀ c ∈ firstCommands stmt fi ps fo, IsCommand c) := by
  refine ⟨⟨_, rfl⟩, ?_⟩
  intro c hc
  simp only [firstCommands, List.mem_cons, List.not_mem_nil, or_false] at hc
  rcases hc with rfl | rfl | rfl | rfl <;> trivial

/-- `first` when the server answers: the result is read from the messages of the reply. -/
theorem first_answered {α β : Type} {pack : List (α → Except Err Bytes)} (u : List (Bytes → Except Err β)) {stmt : Bytes} {fi fo : List Bytes} {params : List (Option α)} {ps : List (Option Bytes)} {bs : List Batch}
    (hp : Decoded pack params ps) (ha : Answered (firstCommands stmt fi ps fo) bs) :
    first pack u stmt fi fo params bs = (firstCommands stmt fi ps fo, firstOf u (meaning (allMsgs bs))) := by
  obtain ⟨⟨s0, h0⟩, hcs⟩ := first_commands_ok stmt fi ps fo
  obtain ⟨hf, n, h1, h2, h3, h4⟩ := answered_feed h0 hcs (by simp [firstCommands]) (by simp [firstCommands]) rfl ha
  unfold first
  rw [if_neg (by rw [decoded_length hp]; simp), processTuple_decoded hp]
  dsimp only
  rw [h0]
  dsimp only
  congr 1
  unfold firstRun
  obtain ⟨k1, k2⟩ := steps_feed bs (sent s0) n h1 h2 h3
  cases hst : steps (fun _ => false) (sent s0) bs with
  | mk i r =>
    obtain ⟨w, o⟩ := r
    rw [hst] at k1 k2
    dsimp only at k1 k2
    subst k1 k2
    dsimp only
    rw [if_neg (by rw [h3]; simp), feed_all bs (sent s0) n hf h1 h3]
    have : messagesReceived (sent s0) = [] := by rw [Props.Reply.start_eq h0]; rfl
    rw [this, List.nil_append, ← meaning_strip, h4, meaning_strip]

section
variable {α β : Type} {pack : List (α → Except Err Bytes)} {stmt : Bytes} {fi fo : List Bytes} {params : List (Option α)} {ps : List (Option Bytes)} {bs : List Batch}

theorem firstRow_none {u : List (Bytes → Except Err β)} {ms : List Msg} (h : tuplesOf ms = []) : firstRow u (meaning ms) = .none := by
  unfold firstRow
  rw [findSome_head, meaning_filterMap rowOf tupleOf rowOf_proc]
  unfold tuplesOf at h
  rw [h]
  rfl

theorem firstRow_some {ms : List Msg} {t ts} (h : tuplesOf ms = t :: ts) : (meaning ms).findSome? rowOf = some t := by
  rw [findSome_head, meaning_filterMap rowOf tupleOf rowOf_proc]
  unfold tuplesOf at h
  rw [h]
  rfl

/-- **C58 (`first`, no rows).** A statement with columns that returns no rows: `first` gives `None`. -/
theorem C58_first_none {u : List (Bytes → Except Err β)} (hp : Decoded pack params ps) (ha : Answered (firstCommands stmt fi ps fo) bs) (hu : u ≠ []) (ht : tuplesOf (allMsgs bs) = []) :
    first pack u stmt fi fo params bs = (firstCommands stmt fi ps fo, .none) := by
  rw [first_answered u hp ha]
  unfold firstOf
  rw [if_pos hu, firstRow_none ht]

/-- **C58 (`first`, several columns).** `first` gives the first row of the reply, every column decoded, NULL as `None`. -/
theorem C58_first_row {u : List (Bytes → Except Err β)} {t ts r} (hp : Decoded pack params ps) (ha : Answered (firstCommands stmt fi ps fo) bs) (hu : 1 < u.length)
    (ht : tuplesOf (allMsgs bs) = t :: ts) (hr : Decoded u t r) : first pack u stmt fi fo params bs = (firstCommands stmt fi ps fo, .row r) := by
  rw [first_answered u hp ha]
  unfold firstOf
  rw [if_pos (by rintro rfl; cases hu)]
  unfold firstRow
  rw [firstRow_some ht]
  dsimp only
  rw [if_pos hu, processTuple_decoded hr]

/-- **C58 (`first`, one column).** `first` gives the decoded value. -/
theorem C58_first_value {f : Bytes → Except Err β} {d ts v} (hp : Decoded pack params ps) (ha : Answered (firstCommands stmt fi ps fo) bs)
    (ht : tuplesOf (allMsgs bs) = [some d] :: ts) (hv : f d = .ok v) : first pack [f] stmt fi fo params bs = (firstCommands stmt fi ps fo, .value v) := by
  rw [first_answered _ hp ha]
  unfold firstOf
  rw [if_pos (by simp)]
  unfold firstRow
  rw [firstRow_some ht]
  dsimp only
  rw [if_neg (by simp)]
  show (firstCommands stmt fi ps fo, (match f d with | .ok v => First.value v | .error _ => .raised)) = _
  rw [hv]

/-- **C58 (finding).** With one column, a NULL in the first row and no row at all give the same result, `None`: the caller cannot tell them apart. -/
theorem C58_first_null {f : Bytes → Except Err β} {ts bs'} (hp : Decoded pack params ps) (ha : Answered (firstCommands stmt fi ps fo) bs)
    (ht : tuplesOf (allMsgs bs) = [none] :: ts) (ha' : Answered (firstCommands stmt fi ps fo) bs') (ht' : tuplesOf (allMsgs bs') = []) :
    first pack [f] stmt fi fo params bs = first pack [f] stmt fi fo params bs' := by
  rw [C58_first_none hp ha' (by simp) ht', first_answered _ hp ha]
  unfold firstOf
  rw [if_pos (by simp)]
  unfold firstRow
  rw [firstRow_some ht]
  rfl

/-- **C58 (`first`, undecodable).** A row that cannot be decoded is an error, not a result. -/
theorem C58_first_undecodable {u : List (Bytes → Except Err β)} {t ts} (hp : Decoded pack params ps) (ha : Answered (firstCommands stmt fi ps fo) bs) (hu : u ≠ [])
    (ht : tuplesOf (allMsgs bs) = t :: ts) (hl : t.length = u.length) (hr : ∀ r, ¬ Decoded u t r) : first pack u stmt fi fo params bs = (firstCommands stmt fi ps fo, .raised) := by
  rw [first_answered _ hp ha]
  unfold firstOf
  rw [if_pos hu]
  unfold firstRow
  rw [firstRow_some ht]
  dsimp only
  by_cases h1 : 1 < u.length
  · rw [if_pos h1]
    cases hpt : processTuple u t with
    | error e => rfl
    | ok r => exact absurd (processTuple_inv hpt) (hr r)
  · rw [if_neg h1]
    match u, t, hu, hl, h1 with
    | [f], [none], _, _, _ => exact absurd (.null .nil) (hr [none])
    | [f], [some d], _, _, _ =>
      dsimp only
      cases hf : f d with
      | ok v => exact absurd (.value hf .nil) (hr [some v])
      | error e => rfl
    | _ :: _ :: _, _, _, _, h1 => exact absurd (by simp) h1

/-- **C58 (`first`, no columns).** A statement that returns no rows: `first` gives the count of the completion tag, or the name of the command if there is none. -/
theorem C58_first_tag {d nm : Bytes} {n : Option Nat} {ts} (hp : Decoded pack params ps) (ha : Answered (firstCommands stmt fi ps fo) bs)
    (ht : tagsOf (allMsgs bs) = d :: ts) (hd : IsTag d nm n) :
    first (β := β) pack [] stmt fi fo params bs = (firstCommands stmt fi ps fo, match n with | some k => .count k | none => .command nm) := by
  rw [first_answered _ hp ha]
  unfold firstOf
  rw [if_neg (by simp)]
  unfold firstTag
  rw [find_tag, meaning_filterMap tagProc tagOf tag_proc]
  unfold tagsOf at ht
  rw [ht]
  obtain ⟨h1, h2⟩ := tag_read hd
  show (firstCommands stmt fi ps fo, (match extractCount d with | some n => First.count n | none => match extractCommand d with | some c => .command c | none => .none)) = _
  rw [h1, h2]
  cases n <;> rfl

end

/-- **C58 (`first` and `__call__`, parameters).** If a parameter cannot be packed, or there are too many or too few, nothing is sent. -/
theorem C58_bad_parameters {α β : Type} {pack : List (α → Except Err Bytes)} {params : List (Option α)} (h : ∀ ps, ¬ Decoded pack params ps) (u : List (Bytes → Except Err β)) (u' : Option (List (Bytes → Except Err β)))
    (stmt : Bytes) (fi fo : List Bytes) (bs : List Batch) : first pack u stmt fi fo params bs = ([], .raised) ∧ call pack u' stmt fi fo params bs = ([], .raised) := by
  unfold first call
  by_cases hl : params.length ≠ pack.length
  · rw [if_pos hl, if_pos hl]; exact ⟨rfl, rfl⟩
  · rw [if_neg hl, if_neg hl]
    cases hpt : processTuple pack params with
    | error e => exact ⟨rfl, rfl⟩
    | ok ps => exact absurd (processTuple_inv hpt) (h ps)

/-- **C58 (`first`, soundness).** Whenever `first` returns anything, the parameters were packed and sent, and the server's reply completed the transaction without an error. -/
theorem C58_first_sound {α β : Type} {pack : List (α → Except Err Bytes)} {u : List (Bytes → Except Err β)} {stmt : Bytes} {fi fo : List Bytes} {params : List (Option α)} {bs : List Batch}
    (h : (first pack u stmt fi fo params bs).2 ≠ .raised) (hb : (first pack u stmt fi fo params bs).2 ≠ .blocked) :
    ∃ ps s0, Decoded pack params ps ∧ (first pack u stmt fi fo params bs).1 = firstCommands stmt fi ps fo ∧ Xact3.init (firstCommands stmt fi ps fo) = .ok s0 ∧
      (∃ n, (feed (sent s0) bs).2.1 = .ok n) ∧ (feed (sent s0) bs).1.state = .complete ∧ (feed (sent s0) bs).1.fatal = none := by
  unfold first at h hb ⊢
  by_cases hl : params.length ≠ pack.length
  · rw [if_pos hl] at h; exact absurd rfl h
  · rw [if_neg hl] at h hb ⊢
    cases hpt : processTuple pack params with
    | error e => rw [hpt] at h; exact absurd rfl h
    | ok ps =>
      rw [hpt] at h hb
      dsimp only at h hb ⊢
      obtain ⟨⟨s0, h0⟩, _⟩ := first_commands_ok stmt fi ps fo
      rw [h0] at h hb ⊢
      dsimp only at h hb ⊢
      refine ⟨ps, s0, processTuple_inv hpt, rfl, h0, ?_⟩
      unfold firstRun at h hb
      have hS := Props.Reply.start_eq h0
      have hfat : (sent s0).fatal = none := by rw [hS]
      have key := steps_complete bs (sent s0) hfat
      cases hst : steps (fun _ => false) (sent s0) bs with
      | mk i r =>
        obtain ⟨w, o⟩ := r
        rw [hst] at h hb key
        cases o with
        | blocked => exact absurd rfl hb
        | raised => exact absurd rfl h
        | fine =>
          dsimp only at h key
          by_cases hi : i.fatal = none
          · exact key rfl hi
          · rw [if_pos hi] at h; exact absurd rfl h

/-! ## `__call__` -/

theorem call_commands_ok (stmt : Bytes) (fi : List Bytes) (ps : List (Option Bytes)) (fo : List Bytes) :
    (∃ s0, Xact3.init (callCommands stmt fi ps fo) = .ok s0) ∧ (∀ c ∈ callCommands stmt fi ps fo, IsCommand c) ∧ Three (callCommands stmt fi ps fo) := by
  refine ⟨⟨_, rfl⟩, ?_, ⟨rfl, ⟨_, rfl, rfl⟩, ⟨_, rfl, rfl⟩, ⟨_, rfl, rfl⟩⟩⟩
  intro c hc
  simp only [callCommands, List.mem_cons, List.not_mem_nil, or_false] at hc
  rcases hc with rfl | rfl | rfl <;> trivial

/-- The reply to the three commands, if there is no error in it. -/
theorem reply_three {n s : Bytes} {fi : List Bytes} {ps : List (Option Bytes)} {fo : List Bytes} {nm : Bytes} {mx : Int} {w : List Msg}
    (h : Reply [.bind n s fi ps fo, .execute nm mx, .empty .synchronize] w) (h69 : ∀ x ∈ w, x.1 ≠ 69) :
    ∃ b a z, w = b :: (a ++ [z]) ∧ Is (.empty .bindComplete) b ∧ Ans (.execute nm mx) a ∧ Is .ready z := by
  have bad : ∀ {p : List Msg} {x : Msg} {r : List Msg}, IsPlainError x → (∀ y ∈ p ++ x :: r, y.1 ≠ 69) → False := by
    intro p x r hx hh
    obtain ⟨_, ⟨h1, _⟩, _⟩ := hx
    exact hh x (by simp) h1
  cases h with
  | error _ _ he _ _ => exact (bad he h69).elim
  | lost _ _ he _ => exact (bad he h69).elim
  | answer ha hr =>
    cases ha with
    | bind hb =>
      have h69' : ∀ x : Msg, x ∈ _ → x.1 ≠ 69 := fun x hx => h69 x (List.mem_append_right _ hx)
      cases hr with
      | error _ _ he _ _ => exact (bad he h69').elim
      | lost _ _ he _ => exact (bad he h69').elim
      | answer ha2 hr2 =>
        have h69'' : ∀ x : Msg, x ∈ _ → x.1 ≠ 69 := fun x hx => h69' x (List.mem_append_right _ hx)
        cases hr2 with
        | error _ _ he _ _ => exact (bad he h69'').elim
        | lost _ _ he _ => exact (bad he h69'').elim
        | answer ha3 hr3 =>
          cases hr3
          cases ha3 with
          | sync hz => exact ⟨_, _, _, by simp, hb, ha2, hz⟩

/-- The meaning of a well formed message. -/
theorem is_proc {k : Kind} {x : Msg} (h : Is k x) (h1 : kindOf x.1 = some k) : ∃ e, procOf x = some (.elem e) ∧ e.kind = k := by
  obtain ⟨_, e, h2⟩ := h
  refine ⟨e, ?_, parseK_kind h2⟩
  unfold procOf
  rw [if_neg (by intro e; rw [e] at h1; cases h1), h1]
  dsimp only
  rw [h2]

theorem is_kindOf {k : Kind} {x : Msg} (h : Is k x) : ∀ t, k.typ = some t → x.1 = t := by
  intro t ht
  have := h.1
  rw [ht] at this
  exact (Option.some.inj this).symm

/-- What the first message that is not noise is, by the answer to Execute. -/
theorem seen_answer (copy : Bool) {nm : Bytes} {mx : Int} {b z : Msg} {a : List Msg} (hb : Is (.empty .bindComplete) b) (ha : Ans (.execute nm mx) a)
    (h71 : ∀ x ∈ a, x.1 ≠ 71) (h72 : copy = false → ∀ x ∈ a, x.1 ≠ 72) :
    (∃ d, a = [d] ∧ ∃ t, tagOf d = some t ∧ firstSeen copy (meaning (b :: (a ++ [z]))) = .complete (.elem (.complete t))) ∨
    (tagsOf a = [] ∧ rowsOf a = [] ∧ firstSeen copy (meaning (b :: (a ++ [z]))) = .null) ∨
    (∃ x xs, a = x :: xs ∧ (x.1 = 68 ∨ x.1 = 72) ∧ firstSeen copy (meaning (b :: (a ++ [z]))) = .data) := by
  have hbt : b.1 = 50 := is_kindOf hb 50 rfl
  obtain ⟨eb, hb1, hb2⟩ := is_proc hb (by rw [hbt]; rfl)
  have hbs : firstSeen copy (meaning (b :: (a ++ [z]))) = firstSeen copy (meaning (a ++ [z])) := by
    unfold meaning
    rw [List.filterMap_cons_some hb1, firstSeen]
    have : seen copy (.elem eb) = .noise := by
      cases eb <;> first | (cases hb2) | skip
      rfl
    rw [this]
  rw [hbs]
  have row : ∀ r : Msg, Is .tuple r → ∀ l : List Msg, firstSeen copy (meaning (r :: l)) = .data := by
    intro r hr l
    have ht : r.1 = 68 := is_kindOf hr 68 rfl
    obtain ⟨e, h1, h2⟩ := is_proc hr (by rw [ht]; rfl)
    unfold meaning
    rw [List.filterMap_cons_some h1, firstSeen]
    have : seen copy (.elem e) = .data := by
      cases e <;> first | (cases h2) | skip
      rfl
    rw [this]
  have tag : ∀ d : Msg, Is .complete d → ∀ l : List Msg, ∃ t, tagOf d = some t ∧ firstSeen copy (meaning (d :: l)) = .complete (.elem (.complete t)) := by
    intro d hd l
    have ht : d.1 = 67 := is_kindOf hd 67 rfl
    obtain ⟨e, h1, h2⟩ := is_proc hd (by rw [ht]; rfl)
    have h3 := tag_proc d
    rw [h1] at h3
    unfold meaning
    rw [List.filterMap_cons_some h1, firstSeen]
    cases e <;> first | (cases h2) | skip
    rename_i t
    exact ⟨t, h3.symm, rfl⟩
  cases ha with
  | @execute _ _ rs x hr hx =>
    cases rs with
    | nil =>
      obtain ⟨t, h1, h2⟩ := tag x hx [z]
      exact .inl ⟨x, rfl, t, h1, h2⟩
    | cons r rs => exact .inr (.inr ⟨r, rs ++ [x], rfl, .inl (is_kindOf (hr r List.mem_cons_self) 68 rfl), row r (hr r List.mem_cons_self) _⟩)
  | @executeSuspended _ _ rs x hne hr hx =>
    cases rs with
    | nil => exact absurd rfl hne
    | cons r rs => exact .inr (.inr ⟨r, rs ++ [x], rfl, .inl (is_kindOf (hr r List.mem_cons_self) 68 rfl), row r (hr r List.mem_cons_self) _⟩)
  | @executeNull _ _ x hx =>
    have ht : x.1 = 73 := is_kindOf hx 73 rfl
    obtain ⟨e, h1, h2⟩ := is_proc hx (by rw [ht]; rfl)
    refine .inr (.inl ⟨?_, ?_, ?_⟩)
    · unfold tagsOf
      rw [List.filterMap_cons_none (by unfold tagOf; rw [ht]; rfl)]
      rfl
    · unfold rowsOf
      rw [List.filterMap_cons_none (by unfold dataOf; rw [ht]; rfl)]
      rfl
    · unfold meaning
      rw [List.singleton_append, List.filterMap_cons_some h1, firstSeen]
      have : seen copy (.elem e) = .null := by
        cases e <;> first | (cases h2) | skip
        rfl
      rw [this]
  | @executeCopyOut _ _ hd ls dn x hh hl hdn hx =>
    have ht : hd.1 = 72 := is_kindOf hh 72 rfl
    cases copy with
    | false => exact absurd ht (h72 rfl hd (by simp))
    | true =>
      obtain ⟨e, h1, h2⟩ := is_proc hh (by rw [ht]; rfl)
      refine .inr (.inr ⟨hd, ls ++ [dn, x], rfl, .inr ht, ?_⟩)
      unfold meaning
      rw [List.cons_append, List.cons_append, List.filterMap_cons_some h1, firstSeen]
      have : seen true (.elem e) = .data := by
        cases e <;> first | (cases h2) | skip
        rfl
      rw [this]
  | @executeCopyIn _ _ g x hg hx => exact absurd (is_kindOf hg 71 rfl) (h71 g (by simp))

/-- Reading a stream to its end. -/
theorem extend_ready {β : Type} {f : Proc → Option β} {a : All} {R : List Proc} {out : List β} (h : Ready a R) (hm : R.mapM f = some out) : extend (perRow f) a = (out, .stop) := by
  have hs : Fetch.size a < (List.replicate (extend.size a + 2) false).length := by
    rw [List.length_replicate]
    unfold Fetch.size extend.size
    cases a.xact with
    | none => dsimp only; omega
    | some i => dsimp only; omega
  obtain ⟨h1, h2⟩ := iterate_ready f _ a R out h hs hm
  unfold extend
  cases hi : iterate (perRow f) (List.replicate (extend.size a + 2) false) a with
  | mk l r =>
    obtain ⟨o, a'⟩ := r
    rw [hi] at h1 h2
    dsimp only at h1 h2 ⊢
    rw [h1, h2]

section
variable {α β : Type} {pack : List (α → Except Err Bytes)} {stmt : Bytes} {fi fo : List Bytes} {params : List (Option α)} {ps : List (Option Bytes)} {bs : List Batch}

/-- The stream of an answered call. -/
theorem call_stream (copy : Bool) (ha : Answered (callCommands stmt fi ps fo) bs) (h72 : copy = false → ∀ x ∈ allMsgs bs, x.1 ≠ 72) :
    ∃ s0 a, Xact3.init (callCommands stmt fi ps fo) = .ok s0 ∧ Fetch.init copy (sent s0) bs = (.fine, a) ∧ Ready a (rowsOf (allMsgs bs)) ∧
      ((tuplesOf (allMsgs bs) = [] → (∀ x ∈ allMsgs bs, x.1 ≠ 72) → a.complete = (tagsOf (allMsgs bs)).head?.map fun t => Proc.elem (.complete t)) ∧
       ((∃ x ∈ allMsgs bs, x.1 = 72) → a.complete = none)) := by
  obtain ⟨⟨s0, h0⟩, hcs, h3⟩ := call_commands_ok stmt fi ps fo
  obtain ⟨hf, n, k1, k2, k3, k4⟩ := answered_feed h0 hcs (by simp [callCommands]) (by simp [callCommands]) rfl ha
  have hmem : ∀ x ∈ strip (allMsgs bs), x ∈ allMsgs bs := fun x hx => (List.mem_filter.mp hx).1
  obtain ⟨b, w, z, hw, hb, hans, hz⟩ := reply_three ha.reply fun x hx => ha.noError x (hmem x hx)
  have hwm : ∀ x ∈ w, x ∈ allMsgs bs := fun x hx => hmem x (by rw [hw]; simp [hx])
  have hrec : messagesReceived (sent s0) = [] := by rw [Props.Reply.start_eq h0]; rfl
  have hmean : meaning ((allMsgs bs).take n) = meaning (b :: (w ++ [z])) := by rw [← meaning_strip, k4, hw]
  have hseen := seen_answer copy hb hans (z := z) (fun x hx => ha.noCopyIn x (hwm x hx)) (fun e x hx => h72 e x (hwm x hx))
  have hne : firstSeen copy (messagesReceived (sent s0) ++ meaning ((allMsgs bs).take n)) ≠ .unexpected := by
    rw [hrec, List.nil_append, hmean]
    rcases hseen with ⟨_, _, _, _, e⟩ | ⟨_, _, e⟩ | ⟨_, _, _, _, e⟩ <;> (rw [e]; simp)
  obtain ⟨a, q1, q2⟩ := init_seen copy bs (sent s0) n _ hf k1 k2 k3 (by rw [hrec]; rfl) rfl hne
  obtain ⟨hr, hfat, hg, hcomp⟩ := start_run h3 h0
  have hrows : rowsOf ((allMsgs bs).take n) = rowsOf (allMsgs bs) := by rw [← rowsOf_strip, k4, rowsOf_strip]
  have hR : Ready ⟨some (sent s0), bs, none⟩ (rowsOf (allMsgs bs)) := ⟨hfat, hf, _, (feed_due bs _ n hf k1 k2 k3).1, by rw [hg, hrows]; rfl⟩
  refine ⟨s0, a, h0, q1, (init_ready copy bs _ _ a hr hR q1).1, ?_, ?_⟩
  · intro ht h72'
    rw [hrec, List.nil_append, hmean] at q2
    have hbt : b.1 = 50 := is_kindOf hb 50 rfl
    have hzt : z.1 = 90 := is_kindOf hz 90 rfl
    have htags : tagsOf (allMsgs bs) = tagsOf w := by
      rw [← tagsOf_strip, hw]
      unfold tagsOf
      rw [List.filterMap_cons_none (by unfold tagOf; rw [hbt]; rfl), List.filterMap_append]
      rw [List.filterMap_cons_none (a := z) (by unfold tagOf; rw [hzt]; rfl)]
      simp
    rw [htags]
    rcases hseen with ⟨d, rfl, t, e1, e⟩ | ⟨e1, _, e⟩ | ⟨x, xs, rfl, hx, e⟩
    · rw [e] at q2
      rw [q2]
      unfold tagsOf
      rw [List.filterMap_cons_some e1]
      rfl
    · rw [e] at q2
      rw [q2, e1]
      rfl
    · exfalso
      rcases hx with hx | hx
      · have hx1 : x ∈ allMsgs bs := hwm x List.mem_cons_self
        obtain ⟨m, hm⟩ := ReplyBatches.rows_of_strip (ReplyBatches.reply_rows ha.reply) x hx1 hx
        have hk := parseK_kind hm
        have hm2 : ∃ t, tupleOf x = some t := by
          unfold tupleOf
          rw [if_pos hx, hm]
          cases m <;> first | exact ⟨_, rfl⟩ | cases hk
        obtain ⟨t, ht2⟩ := hm2
        have : t ∈ tuplesOf (allMsgs bs) := List.mem_filterMap.mpr ⟨x, hx1, ht2⟩
        rw [ht] at this
        cases this
      · exact h72' x (hwm x List.mem_cons_self) hx
  · rintro ⟨x, hx, hx72⟩
    rw [hrec, List.nil_append, hmean] at q2
    rcases hseen with ⟨d, rfl, t, e1, e⟩ | ⟨e1, e2, e⟩ | ⟨y, ys, rfl, hy, e⟩
    · exfalso
      have hxs : x ∈ strip (allMsgs bs) := by
        unfold strip
        rw [List.mem_filter]
        exact ⟨hx, by rw [hx72]; rfl⟩
      rw [hw] at hxs
      simp only [List.cons_append, List.nil_append, List.mem_cons, List.not_mem_nil, or_false] at hxs
      rcases hxs with rfl | rfl | rfl
      · rw [is_kindOf hb 50 rfl] at hx72; cases hx72
      · unfold tagOf at e1; rw [hx72] at e1; cases e1
      · rw [is_kindOf hz 90 rfl] at hx72; cases hx72
    · rw [q2, e]
    · rw [q2, e]

/-- **C58 (`__call__`, rows).** Calling a statement with columns gives all rows of the reply, in order, every column decoded, NULL as `None`. -/
theorem C58_call_rows {u : List (Bytes → Except Err β)} {rs} (hp : Decoded pack params ps) (ha : Answered (callCommands stmt fi ps fo) bs) (hcopy : ∀ x ∈ allMsgs bs, x.1 ≠ 72 ∧ x.1 ≠ 100)
    (hr : AllDecoded u (tuplesOf (allMsgs bs)) rs) : call pack (some u) stmt fi fo params bs = (callCommands stmt fi ps fo, .rows rs) := by
  obtain ⟨s0, a, h0, h1, h2, _⟩ := call_stream false ha fun _ x hx => (hcopy x hx).1
  have hm : (rowsOf (allMsgs bs)).mapM (decodeRow u) = some rs := by
    rw [rowsOf_tuples fun x hx => (hcopy x hx).2]
    generalize tuplesOf (allMsgs bs) = ts at hr
    induction hr with
    | nil => rfl
    | cons hd _ ih =>
      rw [List.map_cons, List.mapM_cons, ih]
      unfold decodeRow rowOf
      dsimp only
      rw [processTuple_decoded hd]
      rfl
  unfold call
  rw [if_neg (by rw [decoded_length hp]; simp), processTuple_decoded hp]
  dsimp only
  rw [h0]
  dsimp only
  unfold callRun
  dsimp only
  rw [h1]
  dsimp only
  rw [extend_ready h2 hm]

/-- **C58 (`__call__`, command).** Calling a statement that returns no rows gives the name of the command and the count of the completion tag. -/
theorem C58_call_command {d nm : Bytes} {n : Option Nat} {ts} (hp : Decoded pack params ps) (ha : Answered (callCommands stmt fi ps fo) bs) (hcopy : ∀ x ∈ allMsgs bs, x.1 ≠ 72)
    (hrows : tuplesOf (allMsgs bs) = []) (ht : tagsOf (allMsgs bs) = d :: ts) (hd : IsTag d nm n) :
    call (β := β) pack none stmt fi fo params bs = (callCommands stmt fi ps fo, .command nm n) := by
  obtain ⟨s0, a, h0, h1, _, h2, _⟩ := call_stream true ha fun e => by cases e
  have h2 := h2 hrows hcopy
  rw [ht] at h2
  obtain ⟨t1, t2⟩ := tag_read hd
  unfold call
  rw [if_neg (by rw [decoded_length hp]; simp), processTuple_decoded hp]
  dsimp only
  rw [h0]
  dsimp only
  unfold callRun
  dsimp only
  rw [h1]
  dsimp only
  rw [h2]
  show (callCommands stmt fi ps fo, (match extractCommand d with | some c => Called.command c (extractCount d) | none => .raised)) = _
  rw [t1, t2]

theorem lines_mapM : ∀ l : List Bytes, (l.map Proc.raw).mapM decodeLine = some l
  | [] => rfl
  | x :: l => by rw [List.map_cons, List.mapM_cons, lines_mapM l]; rfl

/-- **C58 (`__call__`, COPY TO STDOUT).** Calling such a statement gives the lines of the reply, in order. -/
theorem C58_call_copy (hp : Decoded pack params ps) (ha : Answered (callCommands stmt fi ps fo) bs) (hcopy : ∃ x ∈ allMsgs bs, x.1 = 72) (hrows : ∀ x ∈ allMsgs bs, x.1 ≠ 68) :
    call (β := β) pack none stmt fi fo params bs = (callCommands stmt fi ps fo, .lines (linesOf (allMsgs bs))) := by
  obtain ⟨s0, a, h0, h1, h2, _, h3⟩ := call_stream true ha fun e => by cases e
  have h3 := h3 hcopy
  rw [rowsOf_lines hrows] at h2
  unfold call
  rw [if_neg (by rw [decoded_length hp]; simp), processTuple_decoded hp]
  dsimp only
  rw [h0]
  dsimp only
  unfold callRun
  dsimp only
  rw [h1]
  dsimp only
  rw [h3]
  dsimp only
  rw [extend_ready h2 (lines_mapM _)]

/-- **C58 (`__call__`, empty query).** An empty query string: the empty list. -/
theorem C58_call_empty (hp : Decoded pack params ps) (ha : Answered (callCommands stmt fi ps fo) bs) (hcopy : ∀ x ∈ allMsgs bs, x.1 ≠ 72 ∧ x.1 ≠ 100)
    (hrows : tuplesOf (allMsgs bs) = []) (ht : tagsOf (allMsgs bs) = []) : call (β := β) pack none stmt fi fo params bs = (callCommands stmt fi ps fo, .lines []) := by
  obtain ⟨s0, a, h0, h1, h2, h3, _⟩ := call_stream true ha fun e => by cases e
  have h3 := h3 hrows fun x hx => (hcopy x hx).1
  rw [ht] at h3
  rw [rowsOf_tuples fun x hx => (hcopy x hx).2, hrows] at h2
  unfold call
  rw [if_neg (by rw [decoded_length hp]; simp), processTuple_decoded hp]
  dsimp only
  rw [h0]
  dsimp only
  unfold callRun
  dsimp only
  rw [h1]
  dsimp only
  rw [h3]
  show (callCommands stmt fi ps fo, (match extend (perRow decodeLine) a with | (l, .stop) => Called.lines l | (_, .blocked) => .blocked | _ => .raised)) = _
  rw [extend_ready h2 (out := []) rfl]

end

theorem extend_stop {β : Type} {decode : List Proc → Option (List β)} {a : All} {l : List β} (h : extend decode a = (l, .stop)) : (iterate decode (List.replicate (extend.size a + 2) false) a).2.1 = .stop := by
  unfold extend at h
  cases hi : iterate decode (List.replicate (extend.size a + 2) false) a with
  | mk x y =>
    obtain ⟨o, a'⟩ := y
    rw [hi] at h
    exact (Prod.mk.inj h).2

/-- The stream of a call that ends says that the reply completed the transaction. -/
theorem run_sound {β : Type} {cs : List Elem} {s0 : Inst} {bs : List Batch} {a : All} {copy : Bool} (h3 : Three cs) (h0 : Xact3.init cs = .ok s0) (hf : Fresh (sent s0) bs) (hi : Fetch.init copy (sent s0) bs = (.fine, a))
    {decode : List Proc → Option (List β)} {l : List β} (h : extend decode a = (l, .stop)) : (∃ n, (feed (sent s0) bs).2.1 = .ok n) ∧ (feed (sent s0) bs).1.state = .complete ∧ (feed (sent s0) bs).1.fatal = none := by
  obtain ⟨k1, k2, k3⟩ := C42_stop h3 h0 hf copy hi decode _ (.inl fun t ht => (List.mem_replicate.mp ht).2) (extend_stop h)
  exact ⟨k3, k1, k2⟩

theorem init_complete {copy : Bool} : ∀ (bs : List Batch) (i : Inst) (a : All) (p : Proc), Fetch.init copy i bs = (.fine, a) → a.complete = some p → a.xact = none
  | [], i, a, p, h, hc => by
    unfold Fetch.init at h
    obtain ⟨_, rfl⟩ := Prod.mk.inj h
    cases hc
  | b :: bs, i, a, p, h, hc => by
    unfold Fetch.init at h
    split at h
    · obtain ⟨_, rfl⟩ := Prod.mk.inj h
      cases hc
    · split at h
      · cases (Prod.mk.inj h).1
      · rename_i i1 n hd
        split at h
        · cases (Prod.mk.inj h).1
        · cases hs : firstSeen copy (messagesReceived i1) with
          | noise => rw [hs] at h; exact init_complete bs i1 a p h hc
          | data => rw [hs] at h; obtain ⟨_, rfl⟩ := Prod.mk.inj h; cases hc
          | null => rw [hs] at h; obtain ⟨_, rfl⟩ := Prod.mk.inj h; rfl
          | complete q => rw [hs] at h; obtain ⟨_, rfl⟩ := Prod.mk.inj h; rfl
          | unexpected => rw [hs] at h; cases (Prod.mk.inj h).1

theorem extend_none {β : Type} {decode : List Proc → Option (List β)} {a : All} (h : a.xact = none) : extend decode a = ([], .stop) := by
  unfold extend
  rw [List.replicate_succ, iterate]
  have hn : next decode (if false then interfere a else a) = (.stop, a) := by
    unfold next
    rw [if_neg (by simp), h]
  rw [hn]
  rfl

/-- **C58 (`__call__`, soundness).** Whenever a call returns anything, the parameters were packed and sent, and the server's reply completed the transaction without an error. -/
theorem C58_call_sound {α β : Type} {pack : List (α → Except Err Bytes)} {u : Option (List (Bytes → Except Err β))} {stmt : Bytes} {fi fo : List Bytes} {params : List (Option α)} {bs : List Batch}
    (hids : (bs.map (·.id)).Nodup) (hbs : ∀ b ∈ bs, b.msgs ≠ [] ∧ b.id ≠ 0)
    (h : (call pack u stmt fi fo params bs).2 ≠ .raised) (hb : (call pack u stmt fi fo params bs).2 ≠ .blocked) :
    ∃ ps s0, Decoded pack params ps ∧ (call pack u stmt fi fo params bs).1 = callCommands stmt fi ps fo ∧ Xact3.init (callCommands stmt fi ps fo) = .ok s0 ∧
      (∃ n, (feed (sent s0) bs).2.1 = .ok n) ∧ (feed (sent s0) bs).1.state = .complete ∧ (feed (sent s0) bs).1.fatal = none := by
  unfold call at h hb ⊢
  by_cases hl : params.length ≠ pack.length
  · rw [if_pos hl] at h; exact absurd rfl h
  · rw [if_neg hl] at h hb ⊢
    cases hpt : processTuple pack params with
    | error e => rw [hpt] at h; exact absurd rfl h
    | ok ps =>
      rw [hpt] at h hb
      dsimp only at h hb ⊢
      obtain ⟨⟨s0, h0⟩, _, h3⟩ := call_commands_ok stmt fi ps fo
      rw [h0] at h hb ⊢
      dsimp only at h hb ⊢
      refine ⟨ps, s0, processTuple_inv hpt, rfl, h0, ?_⟩
      have hS := Props.Reply.start_eq h0
      have hf : Fresh (sent s0) bs := ⟨hids, fun b hb => ⟨(hbs b hb).1, by rw [hS]; exact (hbs b hb).2, by rw [hS]; exact fun c hc => by cases hc⟩⟩
      unfold callRun at h hb
      cases u with
      | none =>
        dsimp only at h hb
        cases hi : Fetch.init true (sent s0) bs with
        | mk o a =>
          rw [hi] at h hb
          cases o with
          | blocked => exact absurd rfl hb
          | raised => exact absurd rfl h
          | fine =>
            cases hac : a.complete with
            | some p => exact run_sound h3 h0 hf hi (extend_none (decode := perRow decodeLine) (init_complete bs _ a p hi hac))
            | none =>
              dsimp only at h hb
              rw [hac] at h hb
              dsimp only at h hb
              cases he : extend (perRow decodeLine) a with
              | mk l o =>
                rw [he] at h hb
                cases o with
                | stop => exact run_sound h3 h0 hf hi he
                | blocked => exact absurd rfl hb
                | raised => exact absurd rfl h
                | chunk c => exact absurd rfl h
      | some u =>
        dsimp only at h hb
        cases hi : Fetch.init false (sent s0) bs with
        | mk o a =>
          rw [hi] at h hb
          cases o with
          | blocked => exact absurd rfl hb
          | raised => exact absurd rfl h
          | fine =>
            dsimp only at h hb
            cases he : extend (perRow (decodeRow u)) a with
            | mk l o =>
              rw [he] at h hb
              cases o with
              | stop => exact run_sound h3 h0 hf hi he
              | blocked => exact absurd rfl hb
              | raised => exact absurd rfl h
              | chunk c => exact absurd rfl h

/-! ## `column` -/

/-- **C58 (`column`).** If every row has a first value that can be decoded, a chunk of the column is those values, in order. -/
theorem C58_column_values {β : Type} {f : Bytes → Except Err β} {fs : List (Bytes → Except Err β)} {vs : List β} : ∀ {ts : List (List (Option Bytes))},
    (ts.map fun t => (t.head?.join.bind fun d => (f d).toOption)) = vs.map some → columnChunk (f :: fs) (ts.map fun t => Proc.elem (.tuple t)) = .values vs := by
  intro ts h
  have : (ts.map fun t => Proc.elem (.tuple t)).mapM (decodeColumn (f :: fs)) = some vs := by
    induction ts generalizing vs with
    | nil => cases vs with
      | nil => rfl
      | cons _ _ => cases h
    | cons t ts ih =>
      cases vs with
      | nil => cases h
      | cons v vs =>
        rw [List.map_cons, List.map_cons] at h
        obtain ⟨h1, h2⟩ := List.cons.inj h
        rw [List.map_cons, List.mapM_cons, ih h2]
        have : decodeColumn (f :: fs) (.elem (.tuple t)) = some v := by
          match t with
          | [] => cases h1
          | none :: _ => cases h1
          | some d :: t' =>
            have h1 : (f d).toOption = some v := h1
            show (match f d with | .ok v => some v | .error _ => none) = some v
            cases hf : f d with
            | ok w => rw [hf] at h1; exact h1
            | error e => rw [hf] at h1; cases h1
        rw [this]
        rfl
  unfold columnChunk
  rw [this]

/-- **C58 (finding).** A NULL in the column, like any value that cannot be decoded, is TypeError ("'range' object is not an iterator"), neither `None` nor the error that names the column. -/
theorem C58_column_null {β : Type} (u : List (Bytes → Except Err β)) (a b : List (List (Option Bytes))) (t : List (Option Bytes)) :
    columnChunk u ((a ++ (none :: t) :: b).map fun t => Proc.elem (.tuple t)) = .typeError := by
  have : ((a ++ (none :: t) :: b).map fun t => Proc.elem (.tuple t)).mapM (decodeColumn u) = none := by
    induction a with
    | nil => rw [List.nil_append, List.map_cons, List.mapM_cons]; rfl
    | cons x a ih =>
      rw [List.cons_append, List.map_cons, List.mapM_cons, ih]
      cases decodeColumn u (.elem (.tuple x)) <;> rfl
  unfold columnChunk
  rw [this]

/-- **C58 (finding).** The error that names the column is never raised by `column`. -/
theorem C58_column_no_columnError {β : Type} (u : List (Bytes → Except Err β)) (l : List Proc) : columnChunk u l ≠ .columnError := by
  unfold columnChunk
  cases List.mapM (decodeColumn u) l <;> simp

/-! ## Non-vacuity -/

/-- A decoder that takes one byte. -/
def oneByte : Bytes → Except Err UInt8
  | [b] => .ok b
  | _ => .error .valueError

/-- The reply to `first`, in three batches: two rows, the tag `SELECT 2`. -/
def firstWire : List Batch := [⟨1, [(50, []), Props.Xact.row 1]⟩, ⟨2, [Props.Xact.note, Props.Xact.row 2, (67, [83, 69, 76, 69, 67, 84, 32, 50, 0])]⟩, ⟨3, [(51, []), (90, [73])]⟩]

theorem wire_asyncs {bs : List Batch} (h : ∀ x ∈ allMsgs bs, asyncKind x.1 = none ∨ x = Props.Xact.note) : AsyncsParse (allMsgs bs) := by
  intro x hx k hk
  rcases h x hx with e | rfl
  · rw [e] at hk; cases hk
  · cases hk; exact ⟨.notify 1 [99] [112], by decide⟩

theorem is_row (n : UInt8) (h : ∃ m, parseK .tuple (Props.Xact.row n).2 = .ok m) : Is .tuple (Props.Xact.row n) := ⟨rfl, h⟩

theorem first_demo (ps : List (Option Bytes)) : Answered (firstCommands [115] [] ps []) firstWire := by
  refine ⟨by decide, by decide, wire_asyncs (by decide), ?_, by decide, by decide⟩
  have hrow : ∀ r ∈ [Props.Xact.row 1, Props.Xact.row 2], Is .tuple r := by
    intro r hr
    simp only [List.mem_cons, List.not_mem_nil, or_false] at hr
    rcases hr with rfl | rfl
    · exact is_row 1 ⟨.tuple [some [1]], by decide⟩
    · exact is_row 2 ⟨.tuple [some [2]], by decide⟩
  exact .answer (a := [(50, [])]) (.bind ⟨rfl, _, rfl⟩) (.answer (a := [Props.Xact.row 1, Props.Xact.row 2] ++ [(67, [83, 69, 76, 69, 67, 84, 32, 50, 0])]) (.execute hrow ⟨rfl, .complete [83, 69, 76, 69, 67, 84, 32, 50], by decide⟩)
    (.answer (a := [(51, [])]) (.close (.inr rfl) ⟨rfl, _, rfl⟩) (.answer (a := [(90, [73])]) (.sync ⟨rfl, _, rfl⟩) .nil)))

/-- Packing a byte. -/
def packByte (b : UInt8) : Except Err Bytes := .ok [b]

theorem packed : Decoded [packByte] [some 7] [some [7]] := .value rfl .nil

example : tuplesOf (allMsgs firstWire) = [[some [1]], [some [2]]] ∧ (first [packByte] [oneByte] [115] [] [] [some 7] firstWire).2 = .value 1 := by
  refine ⟨by decide, ?_⟩
  rw [C58_first_value (pack := [packByte]) (params := [some 7]) (ps := [some [7]]) packed (first_demo _) (d := [1]) (ts := [[some [2]]]) (by decide) (f := oneByte) (v := 1) rfl]

example : IsTag [83, 69, 76, 69, 67, 84, 32, 50] [83, 69, 76, 69, 67, 84] (some 2) := by
  have : IsName [83, 69, 76, 69, 67, 84] := ⟨by decide, ⟨83, rfl, by decide⟩, ⟨84, rfl, by decide⟩⟩
  exact .counted (n := 2) this

/-- A reply with one row, NULL. -/
def nullWire : List Batch := [⟨1, [(50, []), (68, [0, 1, 255, 255, 255, 255])]⟩, ⟨2, [(67, [83, 69, 76, 69, 67, 84, 32, 49, 0]), (51, []), (90, [73])]⟩]

/-- A reply without rows. -/
def emptyWire : List Batch := [⟨1, [(50, []), (67, [83, 69, 76, 69, 67, 84, 32, 48, 0]), (51, []), (90, [73])]⟩]

theorem null_demo (ps : List (Option Bytes)) : Answered (firstCommands [115] [] ps []) nullWire := by
  refine ⟨by decide, by decide, wire_asyncs (by decide), ?_, by decide, by decide⟩
  exact .answer (a := [(50, [])]) (.bind ⟨rfl, _, rfl⟩) (.answer (a := [(68, [0, 1, 255, 255, 255, 255])] ++ [(67, [83, 69, 76, 69, 67, 84, 32, 49, 0])])
    (.execute (by intro r hr; rw [List.mem_singleton] at hr; subst hr; exact ⟨rfl, .tuple [none], by decide⟩) ⟨rfl, .complete [83, 69, 76, 69, 67, 84, 32, 49], by decide⟩)
    (.answer (a := [(51, [])]) (.close (.inr rfl) ⟨rfl, _, rfl⟩) (.answer (a := [(90, [73])]) (.sync ⟨rfl, _, rfl⟩) .nil)))

theorem empty_demo (ps : List (Option Bytes)) : Answered (firstCommands [115] [] ps []) emptyWire := by
  refine ⟨by decide, by decide, wire_asyncs (by decide), ?_, by decide, by decide⟩
  exact .answer (a := [(50, [])]) (.bind ⟨rfl, _, rfl⟩) (.answer (a := [] ++ [(67, [83, 69, 76, 69, 67, 84, 32, 48, 0])])
    (.execute (by simp) ⟨rfl, .complete [83, 69, 76, 69, 67, 84, 32, 48], by decide⟩)
    (.answer (a := [(51, [])]) (.close (.inr rfl) ⟨rfl, _, rfl⟩) (.answer (a := [(90, [73])]) (.sync ⟨rfl, _, rfl⟩) .nil)))

example : first [packByte] [oneByte] [115] [] [] [some 7] nullWire = first [packByte] [oneByte] [115] [] [] [some 7] emptyWire :=
  C58_first_null packed (null_demo _) (ts := []) (by decide) (empty_demo _) (by decide)

/-- `SELECT` without columns, 2 rows: `first` takes it for a statement without rows and gives the count. -/
example : (first (β := Nat) [packByte] [] [115] [] [] [some 7] firstWire).2 = .count 2 := by
  have hn : IsName [83, 69, 76, 69, 67, 84] := ⟨by decide, ⟨83, rfl, by decide⟩, ⟨84, rfl, by decide⟩⟩
  rw [C58_first_tag (pack := [packByte]) (params := [some 7]) (ps := [some [7]]) packed (first_demo _) (d := [83, 69, 76, 69, 67, 84, 32, 50]) (ts := []) (by decide) (.counted (n := 2) hn)]

/-- The reply to a call: the same rows. -/
def callWire : List Batch := [⟨1, [(50, []), Props.Xact.row 1]⟩, ⟨2, [Props.Xact.note, Props.Xact.row 2, (67, [83, 69, 76, 69, 67, 84, 32, 50, 0])]⟩, ⟨3, [(90, [73])]⟩]

/-- The reply to an INSERT of three rows. -/
def insertWire : List Batch := [⟨1, [(50, [])]⟩, ⟨2, [(67, [73, 78, 83, 69, 82, 84, 32, 48, 32, 51, 0]), (90, [73])]⟩]

/-- The reply to a COPY TO STDOUT of two lines. -/
def copyWire : List Batch := [⟨1, [(50, []), (72, [0, 0, 1, 0, 0]), (100, [97, 10])]⟩, ⟨2, [(100, [98, 10])]⟩, ⟨3, [(99, []), (67, [67, 79, 80, 89, 32, 50, 0]), (90, [73])]⟩]

theorem call_demo (ps : List (Option Bytes)) : Answered (callCommands [115] [] ps []) callWire := by
  refine ⟨by decide, by decide, wire_asyncs (by decide), ?_, by decide, by decide⟩
  have hrow : ∀ r ∈ [Props.Xact.row 1, Props.Xact.row 2], Is .tuple r := by
    intro r hr
    simp only [List.mem_cons, List.not_mem_nil, or_false] at hr
    rcases hr with rfl | rfl
    · exact is_row 1 ⟨.tuple [some [1]], by decide⟩
    · exact is_row 2 ⟨.tuple [some [2]], by decide⟩
  exact .answer (a := [(50, [])]) (.bind ⟨rfl, _, rfl⟩) (.answer (a := [Props.Xact.row 1, Props.Xact.row 2] ++ [(67, [83, 69, 76, 69, 67, 84, 32, 50, 0])]) (.execute hrow ⟨rfl, .complete [83, 69, 76, 69, 67, 84, 32, 50], by decide⟩)
    (.answer (a := [(90, [73])]) (.sync ⟨rfl, _, rfl⟩) .nil))

theorem insert_demo (ps : List (Option Bytes)) : Answered (callCommands [115] [] ps []) insertWire := by
  refine ⟨by decide, by decide, wire_asyncs (by decide), ?_, by decide, by decide⟩
  exact .answer (a := [(50, [])]) (.bind ⟨rfl, _, rfl⟩) (.answer (a := [] ++ [(67, [73, 78, 83, 69, 82, 84, 32, 48, 32, 51, 0])]) (.execute (by simp) ⟨rfl, .complete [73, 78, 83, 69, 82, 84, 32, 48, 32, 51], by decide⟩)
    (.answer (a := [(90, [73])]) (.sync ⟨rfl, _, rfl⟩) .nil))

theorem copy_demo (ps : List (Option Bytes)) : Answered (callCommands [115] [] ps []) copyWire := by
  refine ⟨by decide, by decide, wire_asyncs (by decide), ?_, by decide, by decide⟩
  exact .answer (a := [(50, [])]) (.bind ⟨rfl, _, rfl⟩)
    (.answer (a := (72, [0, 0, 1, 0, 0]) :: [(100, [97, 10]), (100, [98, 10])] ++ [(99, []), (67, [67, 79, 80, 89, 32, 50, 0])])
      (.executeCopyOut ⟨rfl, .copyToBegin 0 [0], by decide⟩ (by intro r hr; simp only [List.mem_cons, List.not_mem_nil, or_false] at hr; rcases hr with rfl | rfl <;> rfl) ⟨rfl, _, rfl⟩ ⟨rfl, .complete [67, 79, 80, 89, 32, 50], by decide⟩)
    (.answer (a := [(90, [73])]) (.sync ⟨rfl, _, rfl⟩) .nil))

example : (call [packByte] (some [oneByte]) [115] [] [] [some 7] callWire).2 = .rows [[some 1], [some 2]] := by
  rw [C58_call_rows (pack := [packByte]) (params := [some 7]) (ps := [some [7]]) packed (call_demo _) (by decide) (rs := [[some 1], [some 2]]) (by
    rw [show tuplesOf (allMsgs callWire) = [[some [1]], [some [2]]] by decide]
    exact .cons (.value rfl .nil) (.cons (.value rfl .nil) .nil))]

example : (call (β := Nat) [packByte] none [115] [] [] [some 7] insertWire).2 = .command [73, 78, 83, 69, 82, 84] (some 3) := by
  have hn : IsName [73, 78, 83, 69, 82, 84] := ⟨by decide, ⟨73, rfl, by decide⟩, ⟨84, rfl, by decide⟩⟩
  rw [C58_call_command (pack := [packByte]) (params := [some 7]) (ps := [some [7]]) packed (insert_demo _) (by decide) (by decide) (d := [73, 78, 83, 69, 82, 84, 32, 48, 32, 51]) (ts := []) (by decide) (.insert (o := 0) (n := 3) hn)]

example : (call (β := Nat) [packByte] none [115] [] [] [some 7] copyWire).2 = .lines [[97, 10], [98, 10]] := by
  rw [C58_call_copy (pack := [packByte]) (params := [some 7]) (ps := [some [7]]) packed (copy_demo _) (by decide) (by decide)]
  decide

/-- Too many parameters. -/
example : ∀ ps, ¬ Decoded [packByte] [some 7, some 8] ps := by
  intro ps h
  have := decoded_length h
  cases this

/-- **C58 (what `first` asks for).** With parameters that can be packed, the server is asked to run the statement once, with the packed parameters, in the formats of the statement, for all rows,
and to end the transaction. -/
theorem C58_first_asks {α β : Type} {pack : List (α → Except Err Bytes)} (u : List (Bytes → Except Err β)) {stmt : Bytes} {fi fo : List Bytes} {params : List (Option α)} {ps : List (Option Bytes)} (bs : List Batch)
    (hp : Decoded pack params ps) (portals : Bytes → Option Run) :
    runs portals (first pack u stmt fi fo params bs).1 = [⟨stmt, fi, ps, fo, none⟩] ∧ (first pack u stmt fi fo params bs).1.getLast? = some (.empty .synchronize) := by
  have hpt := processTuple_decoded hp
  obtain ⟨⟨s0, h0⟩, _⟩ := first_commands_ok stmt fi ps fo
  have : (first pack u stmt fi fo params bs).1 = firstCommands stmt fi ps fo := by
    unfold first
    rw [if_neg (by rw [decoded_length hp]; simp), hpt]
    dsimp only
    rw [h0]
  rw [this]
  exact ⟨by simp [firstCommands, runs, limitOf], rfl⟩

/-- A concrete case. -/
example : runs (fun _ => none) (first (β := UInt8) [packByte] [oneByte] [115] [] [] [some 7] []).1 = [⟨[115], [], [some [7]], [], none⟩] := (C58_first_asks _ [] packed _).1

/-- **C58 (what a call asks for).** Likewise. -/
theorem C58_call_asks {α β : Type} {pack : List (α → Except Err Bytes)} (u : Option (List (Bytes → Except Err β))) {stmt : Bytes} {fi fo : List Bytes} {params : List (Option α)} {ps : List (Option Bytes)} (bs : List Batch)
    (hp : Decoded pack params ps) (portals : Bytes → Option Run) :
    runs portals (call pack u stmt fi fo params bs).1 = [⟨stmt, fi, ps, fo, none⟩] ∧ (call pack u stmt fi fo params bs).1.getLast? = some (.empty .synchronize) := by
  have hpt := processTuple_decoded hp
  obtain ⟨⟨s0, h0⟩, _⟩ := call_commands_ok stmt fi ps fo
  have : (call pack u stmt fi fo params bs).1 = callCommands stmt fi ps fo := by
    unfold call
    rw [if_neg (by rw [decoded_length hp]; simp), hpt]
    dsimp only
    rw [h0]
  rw [this]
  exact ⟨by simp [callCommands, runs, limitOf], rfl⟩

/-- A concrete case. -/
example : runs (fun _ => none) (call (β := UInt8) [packByte] none [115] [] [] [some 7] []).1 = [⟨[115], [], [some [7]], [], none⟩] := (C58_call_asks _ [] packed _).1

end PG.Props.Statement
