import Verif.Proofs.Statement
/-! # Calling a statement: the transaction -/
namespace PG.Statement
open PG PG.Element3 PG.Xact3 PG.Fetch PG.Row PG.Spec.Xact PG.Spec.Reply PG.Spec.Received PG.Spec.Fetch PG.Spec.Statement PG.Received

/-- Completing a transaction delivers its reply. -/
theorem steps_feed : ∀ (bs : List Batch) (i : Inst) (n : Nat), (feed i bs).2.1 = .ok n → (feed i bs).1.state = .complete → (feed i bs).1.fatal = none →
    (steps (fun _ => false) i bs).1 = (feed i bs).1 ∧ (steps (fun _ => false) i bs).2.2 = .fine
  | [], i, n, _, hc, _ => by
    unfold steps feed
    rw [if_pos (.inl hc)]
    exact ⟨rfl, rfl⟩
  | b :: bs, i, n, h, hc, hf => by
    unfold steps
    by_cases hw : Receiving i
    · have hst : ¬ (i.state = .complete ∨ (fun _ => false) i = true) := by
        obtain ⟨op, e⟩ := hw
        rw [e]; simp
      rw [if_neg hst]
      unfold feed at h hc hf ⊢
      rw [if_pos hw] at h hc hf ⊢
      cases hd : deliver i b with
      | mk i1 r =>
        rw [hd] at h hc hf
        cases r with
        | error e => cases h
        | ok m =>
          dsimp only at h hc hf ⊢
          have hfat := Fetch.feed_fatal_mono bs i1 hf
          rw [if_neg (fun e => e.2 hfat)]
          cases hr : (feed i1 bs).2.1 with
          | error e => rw [hr] at h; cases h
          | ok k => exact steps_feed bs i1 k hr hc hf
    · rw [feed_stop hw] at hc ⊢
      rw [if_pos (.inl hc)]
      exact ⟨rfl, rfl⟩

/-- And conversely. -/
theorem steps_complete : ∀ (bs : List Batch) (i : Inst), i.fatal = none → (steps (fun _ => false) i bs).2.2 = .fine → (steps (fun _ => false) i bs).1.fatal = none →
    (∃ n, (feed i bs).2.1 = .ok n) ∧ (feed i bs).1.state = .complete ∧ (feed i bs).1.fatal = none
  | [], i, hi, h, _ => by
    unfold steps at h
    split at h
    · rename_i e
      exact ⟨⟨0, rfl⟩, e.resolve_right (by simp), hi⟩
    · cases h
  | b :: bs, i, hi, h, hf => by
    unfold steps at h hf
    split at h
    · rename_i e
      have hc := e.resolve_right (by simp)
      rw [feed_stop (by rintro ⟨op, e⟩; rw [hc] at e; cases e)]
      exact ⟨⟨0, rfl⟩, hc, hi⟩
    · rename_i hst
      rw [if_neg hst] at hf
      cases hd : deliver i b with
      | mk i1 r =>
        rw [hd] at h hf
        cases r with
        | error e => cases h
        | ok m =>
          dsimp only at h hf
          split at h
          · cases h
          · rename_i hcf
            rw [if_neg hcf] at hf
            have hw : Receiving i := deliver_receiving hd
            have hfat := steps_fatal_mono _ bs i1 hf
            obtain ⟨⟨k, k1⟩, k2, k3⟩ := steps_complete bs i1 hfat h hf
            unfold feed
            rw [if_pos hw, hd]
            dsimp only
            exact ⟨⟨m + k, by rw [k1]; rfl⟩, k2, k3⟩

theorem firstSeen_append (copy : Bool) : ∀ (a b : List Proc), firstSeen copy (a ++ b) = if firstSeen copy a = .noise then firstSeen copy b else firstSeen copy a
  | [], b => by simp [firstSeen]
  | p :: a, b => by
    have ih := firstSeen_append copy a b
    rw [List.cons_append, firstSeen, firstSeen]
    cases seen copy p with
    | noise => exact ih
    | data => rfl
    | null => rfl
    | complete _ => rfl
    | unexpected => rfl

/-- How the constructor of a result stream ends, by the first message of the reply that is not noise. -/
theorem init_seen (copy : Bool) : ∀ (bs : List Batch) (i : Inst) (n : Nat) (S : Seen), Fresh i bs → (feed i bs).2.1 = .ok n → (feed i bs).1.state = .complete → (feed i bs).1.fatal = none →
    firstSeen copy (messagesReceived i) = .noise → firstSeen copy (messagesReceived i ++ meaning ((allMsgs bs).take n)) = S → S ≠ .unexpected →
    ∃ a, Fetch.init copy i bs = (.fine, a) ∧ a.complete = (match S with | .complete p => some p | _ => none)
  | [], i, n, S, _, h, hc, _, hnoise, hS, _ => by
    cases h
    unfold Fetch.init
    rw [if_pos (show i.state = .complete from hc)]
    have : S = .noise := by rw [← hS]; simpa [meaning] using hnoise
    subst this
    exact ⟨_, rfl, rfl⟩
  | b :: bs, i, n, S, hf, h, hc, hft, hnoise, hS, hu => by
    unfold Fetch.init
    by_cases hw : Receiving i
    · have hst : i.state ≠ .complete := by obtain ⟨op, e⟩ := hw; rw [e]; simp
      rw [if_neg hst]
      unfold feed at h hc hft
      rw [if_pos hw] at h hc hft
      cases hd : deliver i b with
      | mk i1 r =>
        rw [hd] at h hc hft
        cases r with
        | error e => cases h
        | ok m =>
          dsimp only at h hc hft ⊢
          have hfat := Fetch.feed_fatal_mono bs i1 hft
          obtain ⟨p, h1, h2, h3, h4, h5⟩ := deliver_data hw (fresh_head hf) hd hfat
          have ha := deliver_all hw (fresh_head hf) hd hfat
          have hrec := Received.received_append i i1 _ _ ha
          have hf1 := fresh_next hf h5 h1
          rw [if_neg (fun e => e.2 hfat)]
          cases hr : (feed i1 bs).2.1 with
          | error e => rw [hr] at h; cases h
          | ok k =>
            rw [hr] at h
            cases h
            have hall : allMsgs (b :: bs) = b.msgs ++ allMsgs bs := by simp [allMsgs]
            have hsplit : messagesReceived i ++ meaning ((allMsgs (b :: bs)).take (m + k)) = messagesReceived i1 ++ meaning ((allMsgs bs).take k) := by
              rw [hrec, List.append_assoc]
              congr 1
              rw [hall]
              by_cases hs1 : Receiving i1
              · have hc : i1.state ≠ .complete := by obtain ⟨op, e⟩ := hs1; rw [e]; simp
                have := h4 hc
                subst this
                rw [List.take_length_add_append, List.take_length]
                simp [meaning]
              · have hk : k = 0 := by
                  rw [feed_stop hs1] at hr
                  cases hr
                  rfl
                subst hk
                rw [Nat.add_zero, List.take_append_of_le_length h3]
                simp [meaning]
            have hS' : firstSeen copy (messagesReceived i1 ++ meaning ((allMsgs bs).take k)) = S := by rw [← hsplit]; exact hS
            by_cases hn1 : firstSeen copy (messagesReceived i1) = .noise
            · rw [hn1]
              exact init_seen copy bs i1 k S hf1 hr hc hft hn1 hS' hu
            · have hS1 : firstSeen copy (messagesReceived i1) = S := by rw [firstSeen_append, if_neg hn1] at hS'; exact hS'
              obtain ⟨q1, q2⟩ := steps_feed bs i1 k hr hc hft
              rw [hS1]
              cases S with
              | noise => exact absurd hS1 hn1
              | data => exact ⟨_, rfl, rfl⟩
              | null => dsimp only; rw [q2]; exact ⟨_, rfl, rfl⟩
              | complete p => dsimp only; rw [q2]; exact ⟨_, rfl, rfl⟩
              | unexpected => exact absurd rfl hu
    · rw [feed_stop hw] at h hc
      cases h
      rw [if_pos (show i.state = .complete from hc)]
      have : S = .noise := by rw [← hS]; simpa [meaning] using hnoise
      subst this
      exact ⟨_, rfl, rfl⟩

/-! ## Messages -/

theorem meaning_strip (ms : List Msg) : meaning (strip ms) = meaning ms := by
  unfold meaning strip
  induction ms with
  | nil => rfl
  | cons x xs ih =>
    cases h : asyncKind x.1 with
    | none => rw [List.filter_cons_of_pos (by rw [h]; rfl), List.filterMap_cons, List.filterMap_cons, ih]
    | some k => rw [List.filter_cons_of_neg (by rw [h]; simp), List.filterMap_cons_none (async_no_proc h), ih]

theorem filterMap_strip {γ : Type} (f : Msg → Option γ) (hf : ∀ x k, asyncKind x.1 = some k → f x = none) (ms : List Msg) : (strip ms).filterMap f = ms.filterMap f := by
  unfold strip
  induction ms with
  | nil => rfl
  | cons x xs ih =>
    cases h : asyncKind x.1 with
    | none => rw [List.filter_cons_of_pos (by rw [h]; rfl), List.filterMap_cons, List.filterMap_cons, ih]
    | some k => rw [List.filter_cons_of_neg (by rw [h]; simp), List.filterMap_cons_none (hf x k h), ih]

theorem async_types {t : UInt8} {k} (h : asyncKind t = some k) : t ≠ 68 ∧ t ≠ 67 ∧ t ≠ 100 := by
  refine ⟨?_, ?_, ?_⟩ <;> (rintro rfl; cases h)

theorem tuplesOf_strip (ms : List Msg) : tuplesOf (strip ms) = tuplesOf ms :=
  filterMap_strip _ (fun x k h => by unfold tupleOf; rw [if_neg (async_types h).1]) ms

theorem tagsOf_strip (ms : List Msg) : tagsOf (strip ms) = tagsOf ms :=
  filterMap_strip _ (fun x k h => by unfold tagOf; rw [if_neg (async_types h).2.1]) ms

theorem rowsOf_strip (ms : List Msg) : rowsOf (strip ms) = rowsOf ms :=
  filterMap_strip _ (fun x k h => by unfold dataOf; rw [if_neg (async_types h).1, if_neg (async_types h).2.2]) ms

theorem rowOf_proc (x : Msg) : (procOf x).bind rowOf = tupleOf x := by
  unfold procOf tupleOf
  by_cases h : x.1 = 68
  · rw [h, if_neg (by decide), if_pos rfl]
    show ((match parseK Kind.tuple x.2 with | .ok m => some (Proc.elem m) | .error _ => none).bind rowOf) = _
    cases hp : parseK .tuple x.2 with
    | error e => rfl
    | ok m => cases m <;> rfl
  · rw [if_neg h]
    split
    · rfl
    · split
      · rename_i k hk
        split
        · rename_i m hm
          have hkm := parseK_kind hm
          show rowOf (.elem m) = none
          unfold rowOf
          split
          · rename_i e
            cases e
            have hkm' : Kind.tuple = k := hkm
            subst hkm'
            exfalso
            unfold kindOf at hk
            split at hk <;> first | (rename_i e; exact h e) | cases hk
          · rfl
        · rfl
      · rfl

/-- The completion tag in a message. -/
def tagProc : Proc → Option Bytes
  | .elem (.complete d) => some d
  | _ => none

theorem tag_proc (x : Msg) : (procOf x).bind tagProc = tagOf x := by
  unfold procOf tagOf
  by_cases h : x.1 = 67
  · rw [h, if_neg (by decide), if_pos rfl]
    show ((match parseK Kind.complete x.2 with | .ok m => some (Proc.elem m) | .error _ => none).bind tagProc) = _
    cases hp : parseK .complete x.2 with
    | error e => rfl
    | ok m => cases m <;> rfl
  · rw [if_neg h]
    split
    · rfl
    · split
      · rename_i k hk
        split
        · rename_i m hm
          have hkm := parseK_kind hm
          show tagProc (.elem m) = none
          unfold tagProc
          split
          · rename_i e
            cases e
            have hkm' : Kind.complete = k := hkm
            subst hkm'
            exfalso
            unfold kindOf at hk
            split at hk <;> first | (rename_i e; exact h e) | cases hk
          · rfl
        · rfl
      · rfl

theorem meaning_filterMap {γ : Type} (f : Proc → Option γ) (g : Msg → Option γ) (h : ∀ x, (procOf x).bind f = g x) (ms : List Msg) : (meaning ms).filterMap f = ms.filterMap g := by
  unfold meaning
  rw [List.filterMap_filterMap]
  congr 1
  exact funext h

theorem findSome_head {α γ : Type} (f : α → Option γ) (l : List α) : l.findSome? f = (l.filterMap f).head? := by
  rw [List.head?_filterMap]

theorem find_tag (ms : List Proc) : ms.find? isComplete = ((ms.filterMap tagProc).head?).map fun d => Proc.elem (.complete d) := by
  induction ms with
  | nil => rfl
  | cons p ps ih =>
    by_cases hp : isComplete p = true
    · rw [List.find?_cons_of_pos hp]
      unfold isComplete at hp
      split at hp
      · rfl
      · cases hp
    · rw [List.find?_cons_of_neg hp]
      have : tagProc p = none := by
        unfold tagProc
        split
        · exact absurd rfl hp
        · rfl
      rw [List.filterMap_cons_none this, ih]

theorem rowsOf_tuples {ms : List Msg} (h : ∀ x ∈ ms, x.1 ≠ 100) : rowsOf ms = (tuplesOf ms).map fun t => Proc.elem (.tuple t) := by
  unfold rowsOf tuplesOf
  induction ms with
  | nil => rfl
  | cons x xs ih =>
    have ih := ih fun y hy => h y (List.mem_cons_of_mem _ hy)
    have hx : dataOf x = (tupleOf x).map fun t => Proc.elem (.tuple t) := by
      unfold dataOf tupleOf
      split
      · cases hp : parseK .tuple x.2 with
        | error e => rfl
        | ok m =>
          have := parseK_kind hp
          cases m <;> first | rfl | cases this
      · rw [if_neg (h x List.mem_cons_self)]; rfl
    rw [List.filterMap_cons, List.filterMap_cons, hx, ih]
    cases tupleOf x <;> rfl

theorem rowsOf_lines {ms : List Msg} (h : ∀ x ∈ ms, x.1 ≠ 68) : rowsOf ms = (linesOf ms).map Proc.raw := by
  unfold rowsOf linesOf
  induction ms with
  | nil => rfl
  | cons x xs ih =>
    have ih := ih fun y hy => h y (List.mem_cons_of_mem _ hy)
    rw [List.filterMap_cons, List.filter_cons, ih]
    unfold dataOf
    rw [if_neg (h x List.mem_cons_self)]
    by_cases hx : x.1 = 100
    · rw [if_pos hx, if_pos (by simpa using hx)]; rfl
    · rw [if_neg hx, if_neg (by simpa using hx)]

end PG.Statement
