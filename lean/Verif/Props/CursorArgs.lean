import Verif.Model.CursorArgs
import Verif.Props.Cursor
/-! # The arguments of the methods of cursors (C100)

`upper` is Python's `str.upper`; nothing is assumed about it except where a theorem says so. -/
namespace PG.CursorArgs
open PG
variable {α : Type}

/-- What the documentation (driver.rst, Cursor Interface Points) allows as a direction, and what it stands for: `true` is forward. -/
inductive Direction (upper : Str → Str) : Val → Bool → Prop
  | yes : Direction upper (.bool true) true
  | no : Direction upper (.bool false) false
  | forward (s : Str) : upper s = "FORWARD".toList → Direction upper (.str s) true
  | backward (s : Str) : upper s = "BACKWARD".toList → Direction upper (.str s) false

/-- The exception for a value that is no direction. -/
def directionError : Val → Err
  | .str _ => .valueError
  | _ => .typeError

/-- The names of `whence`, in the order of their numbers. -/
def whences : List (Str × Cursor.Whence) :=
  [("ABSOLUTE".toList, .absolute), ("RELATIVE".toList, .relative), ("FROM_END".toList, .fromEnd), ("FORWARD".toList, .forward), ("BACKWARD".toList, .backward)]

/-- What is allowed as `whence`: a name in any case, or its number (True is 1, False is 0). -/
inductive Whence (upper : Str → Str) : Val → Cursor.Whence → Prop
  | name (s : Str) (w : Cursor.Whence) : (upper s, w) ∈ whences → Whence upper (.str s) w
  | number (n : Nat) (t : Str) (w : Cursor.Whence) : whences[n]? = some (t, w) → Whence upper (.int n) w
  | yes : Whence upper (.bool true) .relative
  | no : Whence upper (.bool false) .absolute

/-- The names are in capitals already. -/
def Capitals (upper : Str → Str) : Prop := ∀ p ∈ whences, upper p.1 = p.1

example : Capitals (fun s => s.map Char.toUpper) := by unfold Capitals; decide

/-- Directions: `direction_to_bool` gives exactly what is documented; anything else is ValueError for a str and TypeError otherwise. -/
theorem direction_cases (upper : Str → Str) (v : Val) : (∃ b, Direction upper v b ∧ directionToBool upper v = .ok b) ∨
    ((∀ b, ¬ Direction upper v b) ∧ directionToBool upper v = .error (directionError v)) := by
  cases v with
  | bool b =>
    cases b
    · exact .inl ⟨_, .no, rfl⟩
    · exact .inl ⟨_, .yes, rfl⟩
  | str s =>
    by_cases h1 : upper s = "FORWARD".toList
    · exact .inl ⟨_, .forward s h1, by show directionStrToBool upper s = _; unfold directionStrToBool; rw [if_pos h1]⟩
    · by_cases h2 : upper s = "BACKWARD".toList
      · exact .inl ⟨_, .backward s h2, by show directionStrToBool upper s = _; unfold directionStrToBool; rw [if_neg h1, if_pos h2]⟩
      · refine .inr ⟨?_, by show directionStrToBool upper s = _; unfold directionStrToBool; rw [if_neg h1, if_neg h2]; rfl⟩
        intro b hb
        cases hb with
        | forward _ h => exact h1 h
        | backward _ h => exact h2 h
  | none => exact .inr ⟨fun b hb => (by cases hb), rfl⟩
  | int n => exact .inr ⟨fun b hb => (by cases hb), rfl⟩
  | bytes n => exact .inr ⟨fun b hb => (by cases hb), rfl⟩
  | list => exact .inr ⟨fun b hb => (by cases hb), rfl⟩

/-- A value has one meaning. -/
theorem direction_unique {upper : Str → Str} {v : Val} {a b : Bool} (ha : Direction upper v a) (hb : Direction upper v b) : a = b := by
  have h : ∀ c, Direction upper v c → directionToBool upper v = .ok c := by
    intro c hc
    rcases direction_cases upper v with ⟨d, hd, h1⟩ | ⟨h1, _⟩
    · cases hc <;> cases hd <;> first | exact h1 | skip
      · rename_i h2 h3
        rw [h2] at h3
        exact absurd h3 (by decide)
      · rename_i h2 h3
        rw [h2] at h3
        exact absurd h3 (by decide)
    · exact absurd hc (h1 c)
  have := (h a ha).symm.trans (h b hb)
  exact Except.ok.inj this

/-- Names. -/
theorem named (s : Str) : (∃ w, (s, w) ∈ whences ∧ whenceNamed s = some w) ∨ ((∀ w, (s, w) ∉ whences) ∧ whenceNamed s = none) := by
  unfold whenceNamed
  by_cases h1 : s = "ABSOLUTE".toList
  · rw [if_pos h1]; exact .inl ⟨_, by rw [h1]; decide, rfl⟩
  rw [if_neg h1]
  by_cases h2 : s = "RELATIVE".toList
  · rw [if_pos h2]; exact .inl ⟨_, by rw [h2]; decide, rfl⟩
  rw [if_neg h2]
  by_cases h3 : s = "FROM_END".toList
  · rw [if_pos h3]; exact .inl ⟨_, by rw [h3]; decide, rfl⟩
  rw [if_neg h3]
  by_cases h4 : s = "FORWARD".toList
  · rw [if_pos h4]; exact .inl ⟨_, by rw [h4]; decide, rfl⟩
  rw [if_neg h4]
  by_cases h5 : s = "BACKWARD".toList
  · rw [if_pos h5]; exact .inl ⟨_, by rw [h5]; decide, rfl⟩
  rw [if_neg h5]
  refine .inr ⟨?_, rfl⟩
  intro w hw
  unfold whences at hw
  simp only [List.mem_cons, Prod.mk.injEq, List.not_mem_nil, or_false] at hw
  rcases hw with ⟨h, _⟩ | ⟨h, _⟩ | ⟨h, _⟩ | ⟨h, _⟩ | ⟨h, _⟩
  · exact h1 h
  · exact h2 h
  · exact h3 h
  · exact h4 h
  · exact h5 h

/-- The map holds the names under their numbers. -/
theorem map_number (n : Nat) : whenceMap (n : Int) = (whences[n]?).map Prod.fst := by
  match n with
  | 0 => rfl
  | 1 => rfl
  | 2 => rfl
  | 3 => rfl
  | 4 => rfl
  | n + 5 =>
    have h : whences[n + 5]? = none := by rfl
    rw [h]
    unfold whenceMap
    split <;> first | rfl | (exfalso; omega)

theorem map_negative (n : Int) (h : n < 0) : whenceMap n = none := by
  unfold whenceMap
  split <;> first | rfl | omega

/-- The exception for a `whence` that means nothing. -/
def whenceError : Val → Err
  | .int _ => .attributeError
  | _ => .typeError

theorem int_cases (upper : Str → Str) (hu : Capitals upper) (n : Int) : (∃ w, Whence upper (.int n) w ∧ whenceOfInt upper n = .ok w) ∨
    ((∀ w, ¬ Whence upper (.int n) w) ∧ whenceOfInt upper n = .error .attributeError) := by
  unfold whenceOfInt
  by_cases h : n < 0
  · rw [map_negative n h]
    refine .inr ⟨?_, rfl⟩
    intro w hw
    generalize hv : Val.int n = v at hw
    cases hw with
    | number m _ _ _ => have := Val.int.inj hv; omega
    | name => exact Val.noConfusion hv
    | yes => exact Val.noConfusion hv
    | no => exact Val.noConfusion hv
  · obtain ⟨m, rfl⟩ : ∃ m : Nat, n = m := ⟨n.toNat, by omega⟩
    rw [map_number]
    cases hm : whences[m]? with
    | none =>
      refine .inr ⟨?_, rfl⟩
      intro w hw
      generalize hv : Val.int (m : Int) = v at hw
      cases hw with
      | number k _ _ hk =>
        have : k = m := by have := Val.int.inj hv; omega
        rw [this, hm] at hk
        exact absurd hk (by simp)
      | name => exact Val.noConfusion hv
      | yes => exact Val.noConfusion hv
      | no => exact Val.noConfusion hv
    | some p =>
      obtain ⟨t, w⟩ := p
      refine .inl ⟨w, .number m t w hm, ?_⟩
      have hmem : (t, w) ∈ whences := List.mem_of_getElem? hm
      show whenceOfStr upper t = .ok w
      unfold whenceOfStr
      rw [show upper t = t from hu _ hmem]
      rcases named t with ⟨w', hw', h2⟩ | ⟨h1, _⟩
      · rw [h2]
        have : w' = w := by
          unfold whences at hmem hw'
          simp only [List.mem_cons, Prod.mk.injEq, List.not_mem_nil, or_false] at hmem hw'
          rcases hmem with ⟨h, rfl⟩ | ⟨h, rfl⟩ | ⟨h, rfl⟩ | ⟨h, rfl⟩ | ⟨h, rfl⟩ <;> subst h <;> simpa using hw'
        rw [this]
      · exact absurd hmem (h1 w)

/-- `whence`: exactly what is documented, and the exceptions for everything else. -/
theorem whence_cases (upper : Str → Str) (hu : Capitals upper) (v : Val) : (∃ w, Whence upper v w ∧ whenceOf upper v = .ok w) ∨ ((∀ w, ¬ Whence upper v w) ∧ whenceOf upper v = .error (whenceError v)) := by
  cases v with
  | none => exact .inr ⟨fun w hw => (by cases hw), rfl⟩
  | bytes b => exact .inr ⟨fun w hw => (by cases hw), rfl⟩
  | list => exact .inr ⟨fun w hw => (by cases hw), rfl⟩
  | int n => exact int_cases upper hu n
  | bool b =>
    cases b with
    | true =>
      refine .inl ⟨_, .yes, ?_⟩
      show whenceOfStr upper "RELATIVE".toList = _
      unfold whenceOfStr
      rw [show upper "RELATIVE".toList = "RELATIVE".toList from hu ("RELATIVE".toList, .relative) (by decide)]
      rfl
    | false =>
      refine .inl ⟨_, .no, ?_⟩
      show whenceOfStr upper "ABSOLUTE".toList = _
      unfold whenceOfStr
      rw [show upper "ABSOLUTE".toList = "ABSOLUTE".toList from hu ("ABSOLUTE".toList, .absolute) (by decide)]
      rfl
  | str s =>
    show (∃ w, Whence upper (.str s) w ∧ whenceOfStr upper s = .ok w) ∨ (_ ∧ whenceOfStr upper s = .error .typeError)
    unfold whenceOfStr
    rcases named (upper s) with ⟨w, h1, h2⟩ | ⟨h1, h2⟩
    · rw [h2]; exact .inl ⟨w, .name s w h1, rfl⟩
    · rw [h2]
      refine .inr ⟨?_, rfl⟩
      intro w hw
      cases hw with
      | name _ _ h => exact h1 w h

/-- **C100 (setting the direction).** Assigning to `direction` sets the direction that the value stands for and does nothing else (in particular sends nothing); a value that is no direction is refused, with ValueError for a str and TypeError for anything else, and nothing changes. -/
theorem C100_direction (upper : Str → Str) (s : State α) (v : Val) :
    (∃ b, Direction upper v b ∧ call upper s (.setDirection v) = (.ok [], { s with cur := { s.cur with dir := b } })) ∨
    ((∀ b, ¬ Direction upper v b) ∧ call upper s (.setDirection v) = (.error (directionError v), s)) := by
  rcases direction_cases upper v with ⟨b, h1, h2⟩ | ⟨h1, h2⟩
  · exact .inl ⟨b, h1, by show setDirection upper s v = _; unfold setDirection; rw [h2]⟩
  · exact .inr ⟨h1, by show setDirection upper s v = _; unfold setDirection; rw [h2]⟩

/-- **C100 (`read`).** A `read` of some rows without a direction or with a value that is one is the `read` of the model of cursors (C49) and sends its one FETCH; with anything else it is refused, and nothing changes or is sent. -/
theorem C100_read (upper : Str → Str) (s : State α) (q : Option Int) (hq : q ≠ some 0) (v : Val) :
    (∃ d : Option Bool, ((v = .none ∧ d = none) ∨ (∃ b, Direction upper v b ∧ d = some b)) ∧
      call upper s (.read q v) = (.ok (Cursor.step s.cur (.read q d)).1, { s with cur := (Cursor.step s.cur (.read q d)).2, sent := s.sent ++ SqlText.readCommands s.id s.cur.dir q d })) ∨
    (v ≠ .none ∧ (∀ b, ¬ Direction upper v b) ∧ call upper s (.read q v) = (.error (directionError v), s)) := by
  have step : call upper s (.read q v) = match givenDirection upper v with
    | .error e => (.error e, s)
    | .ok d => (.ok (Cursor.read s.cur q d).1, { s with cur := (Cursor.read s.cur q d).2, sent := s.sent ++ SqlText.readCommands s.id s.cur.dir q d }) := by
    show CursorArgs.read upper s q v = _
    unfold CursorArgs.read
    rw [if_neg hq]
    rfl
  by_cases hv : v = .none
  · subst hv
    exact .inl ⟨none, .inl ⟨rfl, rfl⟩, by rw [step]; rfl⟩
  · have hg : givenDirection upper v = (directionToBool upper v).map some := by
      cases v <;> first | rfl | exact absurd rfl hv
    rcases direction_cases upper v with ⟨b, h1, h2⟩ | ⟨h1, h2⟩
    · exact .inl ⟨some b, .inr ⟨b, h1, rfl⟩, by rw [step, hg, h2]; rfl⟩
    · exact .inr ⟨hv, h1, by rw [step, hg, h2]; rfl⟩

/-- **C100 (reading nothing).** `read(0, ...)` gives the empty list and sends nothing, whatever is given as the direction: a value that is no direction is not refused then. -/
theorem C100_zero (upper : Str → Str) (s : State α) (v : Val) : call upper s (.read (some 0) v) = (.ok [], s) := rfl

/-- **C100 (`next`).** Iterating is the `next` of the model of cursors: the row, or StopIteration if there is none, and one FETCH of one row in the direction set. -/
theorem C100_next (upper : Str → Str) (s : State α) :
    call upper s .next = ((if (Cursor.step s.cur .next).1 = [] then .error .stopIteration else .ok (Cursor.step s.cur .next).1),
      { s with cur := (Cursor.step s.cur .next).2, sent := s.sent ++ SqlText.readCommands s.id s.cur.dir (some 1) none }) := by
  show CursorArgs.next s = _
  unfold CursorArgs.next
  show _ = ((if (Cursor.next s.cur).1.toList = [] then Except.error Err.stopIteration else .ok (Cursor.next s.cur).1.toList), _)
  cases (Cursor.next s.cur).1 <;> rfl

/-- **C100 (`seek`).** With a `whence` that means something, `seek` of a number is the `seek` of the model of cursors (C49), `seek('ALL')` is its `seekAll`, and they send their commands. -/
theorem C100_seek (upper : Str → Str) (hu : Capitals upper) (s : State α) (v : Val) (w : Cursor.Whence) (hw : Whence upper v w) :
    (∀ n : Int, call upper s (.seek (.int n) v) = (.ok [], { s with cur := (Cursor.step s.cur (.seek n w)).2, sent := s.sent ++ SqlText.seekCommands s.id s.cur.dir n w })) ∧
    call upper s (.seek (.str "ALL".toList) v) = (.ok [], { s with cur := (Cursor.step s.cur (.seekAll w)).2, sent := s.sent ++ [SqlText.seekAllText s.id s.cur.dir w] }) ∧
    (∀ t, t ≠ "ALL".toList → call upper s (.seek (.str t) v) = (.error .typeError, s)) ∧ call upper s (.seek .none v) = (.error .typeError, s) := by
  have h : whenceOf upper v = .ok w := by
    rcases whence_cases upper hu v with ⟨w', h1, h2⟩ | ⟨h1, _⟩
    · have : w' = w := by
        cases hw with
        | yes => cases h1; rfl
        | no => cases h1; rfl
        | name t _ hm =>
          cases h1 with
          | name _ _ hm' =>
            unfold whences at hm hm'
            simp only [List.mem_cons, Prod.mk.injEq, List.not_mem_nil, or_false] at hm hm'
            rcases hm with ⟨h, rfl⟩ | ⟨h, rfl⟩ | ⟨h, rfl⟩ | ⟨h, rfl⟩ | ⟨h, rfl⟩ <;> rw [h] at hm' <;> simpa using hm'
        | number n t _ hm =>
          generalize hv : Val.int (n : Int) = v at h1
          cases h1 with
          | number k _ _ hk =>
            have : k = n := by have := Val.int.inj hv; omega
            rw [this, hm] at hk
            exact (congrArg Prod.snd (Option.some.inj hk)).symm
          | name => exact Val.noConfusion hv
          | yes => exact Val.noConfusion hv
          | no => exact Val.noConfusion hv
      rw [h2, this]
    · exact absurd hw (h1 w)
  have e : ∀ o, call upper s (.seek o v) = CursorArgs.seek upper s o v := fun _ => rfl
  refine ⟨fun n => ?_, ?_, fun t ht => ?_, ?_⟩
  · rw [e]; unfold CursorArgs.seek; rw [h]; rfl
  · rw [e]; unfold CursorArgs.seek; rw [h]; dsimp only; rw [if_pos rfl]; exact rfl
  · rw [e]; unfold CursorArgs.seek; rw [h]; dsimp only; rw [if_neg ht]
  · rw [e]; unfold CursorArgs.seek; rw [h]

/-- **C100 (`seek` with a bad `whence`).** A value that means nothing is refused before anything is sent, whatever the offset; but the exception is TypeError, as the code intends, only for values other than numbers: for those it is AttributeError. -/
theorem C100_bad_whence (upper : Str → Str) (hu : Capitals upper) (s : State α) (o : Offset) (v : Val) (hv : ∀ w, ¬ Whence upper v w) :
    call upper s (.seek o v) = (.error (whenceError v), s) := by
  show CursorArgs.seek upper s o v = _
  unfold CursorArgs.seek
  rcases whence_cases upper hu v with ⟨w, h1, _⟩ | ⟨_, h2⟩
  · exact absurd h1 (hv w)
  · rw [h2]

/-- **C100 (names in any case).** Texts which are the same in capitals can be used for one another: as direction and as `whence`. -/
theorem C100_case (upper : Str → Str) (s : State α) (a b : Str) (h : upper a = upper b) (q : Option Int) (o : Offset) :
    call upper s (.setDirection (.str a)) = call upper s (.setDirection (.str b)) ∧ call upper s (.read q (.str a)) = call upper s (.read q (.str b)) ∧
    call upper s (.seek o (.str a)) = call upper s (.seek o (.str b)) := by
  have h1 : directionToBool upper (.str a) = directionToBool upper (.str b) := by
    show directionStrToBool upper a = directionStrToBool upper b
    unfold directionStrToBool; rw [h]
  have h2 : whenceOf upper (.str a) = whenceOf upper (.str b) := by
    show whenceOfStr upper a = whenceOfStr upper b
    unfold whenceOfStr; rw [h]
  refine ⟨?_, ?_, ?_⟩
  · show CursorArgs.setDirection upper s _ = CursorArgs.setDirection upper s _
    unfold CursorArgs.setDirection; rw [h1]
  · show CursorArgs.read upper s q _ = CursorArgs.read upper s q _
    unfold CursorArgs.read
    have : givenDirection upper (.str a) = givenDirection upper (.str b) := by
      show (directionToBool upper (.str a)).map some = (directionToBool upper (.str b)).map some
      rw [h1]
    rw [this]
  · show CursorArgs.seek upper s o _ = CursorArgs.seek upper s o _
    unfold CursorArgs.seek; rw [h2]

/-- **C100 (numbers).** The numbers 0 to 4 are the names, in this order. -/
theorem C100_number (upper : Str → Str) (hu : Capitals upper) (s : State α) (o : Offset) (n : Nat) (t : Str) (w : Cursor.Whence) (h : whences[n]? = some (t, w)) :
    call upper s (.seek o (.int n)) = call upper s (.seek o (.str t)) := by
  have hm : (t, w) ∈ whences := List.mem_of_getElem? h
  have hn := C100_seek upper hu s _ w (.number n t w h)
  have ht := C100_seek upper hu s (.str t) w (.name t w (by rw [show upper t = t from hu _ hm]; exact hm))
  cases o with
  | none => rw [hn.2.2.2, ht.2.2.2]
  | int k => rw [hn.1 k, ht.1 k]
  | str x =>
    by_cases hx : x = "ALL".toList
    · subst hx; rw [hn.2.1, ht.2.1]
    · rw [hn.2.2.1 x hx, ht.2.2.1 x hx]

/-- A call is refused if it raises something other than the StopIteration at the end of the rows. -/
def refused : Except Err (List α) → Bool
  | .ok _ => false
  | .error e => e != .stopIteration

/-- **C100 (refused calls).** A call that is refused changes nothing: neither the direction nor the position, and nothing is sent. -/
theorem C100_refused (upper : Str → Str) (s : State α) (c : Call) (h : refused (call upper s c).1 = true) : (call upper s c).2 = s := by
  obtain ⟨e, he, hne⟩ : ∃ e, (call upper s c).1 = .error e ∧ e ≠ .stopIteration := by
    cases hr : (call upper s c).1 with
    | ok x => rw [hr] at h; exact Bool.noConfusion h
    | error e => rw [hr] at h; exact ⟨e, rfl, by simpa [refused] using h⟩
  cases c with
  | setDirection v =>
    change (setDirection upper s v).1 = _ at he
    show (setDirection upper s v).2 = s
    unfold setDirection at he ⊢
    split at he <;> first | rfl | exact absurd he (by simp)
  | read q d =>
    change (CursorArgs.read upper s q d).1 = _ at he
    show (CursorArgs.read upper s q d).2 = s
    unfold CursorArgs.read at he ⊢
    by_cases hq : q = some 0
    · rw [if_pos hq]
    · rw [if_neg hq] at he ⊢
      cases hg : givenDirection upper d with
      | error x => rfl
      | ok x => rw [hg] at he; exact absurd he (by simp)
  | next =>
    change (CursorArgs.next s).1 = _ at he
    unfold CursorArgs.next at he
    cases hx : (Cursor.next s.cur).1 with
    | none => rw [hx] at he; exact absurd (Except.error.inj he).symm hne
    | some x => rw [hx] at he; exact absurd he (by simp)
  | seek o v =>
    change (CursorArgs.seek upper s o v).1 = _ at he
    show (CursorArgs.seek upper s o v).2 = s
    unfold CursorArgs.seek at he ⊢
    cases hw : whenceOf upper v with
    | error x => rfl
    | ok w =>
      rw [hw] at he
      cases o with
      | none => rfl
      | int n => exact absurd he (by simp)
      | str t =>
        by_cases ht : t = "ALL".toList
        · dsimp only at he; rw [if_pos ht] at he; exact absurd he (by simp)
        · dsimp only; rw [if_neg ht]

/-- The calls of a history that are not refused. -/
def accepted (upper : Str → Str) (s : State α) : List Call → List Call
  | [] => []
  | c :: cs => if refused (call upper s c).1 then accepted upper s cs else c :: accepted upper (call upper s c).2 cs

/-- **C100 (histories).** Refused calls might as well not have been made: the other calls of a history give the same results without them, and leave the cursor and what was sent as they were. -/
theorem C100_history (upper : Str → Str) : ∀ (cs : List Call) (s : State α),
    (calls upper s (accepted upper s cs)).1 = (calls upper s cs).1.filter (fun r => !refused r) ∧ (calls upper s (accepted upper s cs)).2 = (calls upper s cs).2
  | [], s => ⟨rfl, rfl⟩
  | c :: cs, s => by
    by_cases h : refused (call upper s c).1 = true
    · have hs := C100_refused upper s c h
      obtain ⟨i1, i2⟩ := C100_history upper cs s
      have hc : calls upper s (c :: cs) = ((call upper s c).1 :: (calls upper s cs).1, (calls upper s cs).2) := by
        show ((call upper s c).1 :: (calls upper (call upper s c).2 cs).1, (calls upper (call upper s c).2 cs).2) = _
        rw [hs]
      have ha : accepted upper s (c :: cs) = accepted upper s cs := if_pos h
      rw [ha, hc, List.filter_cons_of_neg (by simpa using h)]
      exact ⟨i1, i2⟩
    · obtain ⟨i1, i2⟩ := C100_history upper cs (call upper s c).2
      unfold accepted
      rw [if_neg h]
      refine ⟨?_, ?_⟩
      · show (call upper s c).1 :: (calls upper (call upper s c).2 (accepted upper (call upper s c).2 cs)).1 = List.filter _ ((call upper s c).1 :: (calls upper (call upper s c).2 cs).1)
        rw [List.filter_cons_of_pos (by simpa using h), i1]
      · exact i2

/-- What every call keeps. -/
def Good (rows : List α) (id : Str) (s : State α) : Prop := s.cur.pos ≤ rows.length + 1 ∧ s.cur.rows = rows ∧ s.id = id

/-- **C100 (position).** Whatever is called with whatever arguments, the cursor stays within its rows, and commands already sent stay sent. -/
theorem C100_position (upper : Str → Str) (s : State α) (c : Call) (h : s.cur.pos ≤ s.cur.rows.length + 1) :
    Good s.cur.rows s.id (call upper s c).2 ∧ ∃ new, (call upper s c).2.sent = s.sent ++ new := by
  have same : Good s.cur.rows s.id s ∧ ∃ new, s.sent = s.sent ++ new := ⟨⟨h, rfl, rfl⟩, [], (List.append_nil _).symm⟩
  have key : ∀ o, (Cursor.step s.cur o).2.pos ≤ s.cur.rows.length + 1 ∧ (Cursor.step s.cur o).2.rows = s.cur.rows := fun o =>
    ⟨(Cursor.C49_position s.cur o h).1, (Cursor.C49_position s.cur o h).2.1⟩
  cases c with
  | setDirection v =>
    show Good _ _ (setDirection upper s v).2 ∧ ∃ new, (setDirection upper s v).2.sent = _
    unfold setDirection
    cases hd : directionToBool upper v with
    | error x => exact same
    | ok x => exact ⟨⟨h, rfl, rfl⟩, [], (List.append_nil _).symm⟩
  | read q d =>
    show Good _ _ (CursorArgs.read upper s q d).2 ∧ ∃ new, (CursorArgs.read upper s q d).2.sent = _
    unfold CursorArgs.read
    by_cases hq : q = some 0
    · rw [if_pos hq]; exact same
    · rw [if_neg hq]
      cases hg : givenDirection upper d with
      | error x => exact same
      | ok x => exact ⟨⟨(key (.read q x)).1, (key (.read q x)).2, rfl⟩, _, rfl⟩
  | next => exact ⟨⟨(key .next).1, (key .next).2, rfl⟩, _, rfl⟩
  | seek o v =>
    show Good _ _ (CursorArgs.seek upper s o v).2 ∧ ∃ new, (CursorArgs.seek upper s o v).2.sent = _
    unfold CursorArgs.seek
    cases hw : whenceOf upper v with
    | error x => exact same
    | ok w =>
      cases o with
      | none => exact same
      | int n => exact ⟨⟨(key (.seek n w)).1, (key (.seek n w)).2, rfl⟩, _, rfl⟩
      | str t =>
        by_cases ht : t = "ALL".toList
        · dsimp only; rw [if_pos ht]; exact ⟨⟨(key (.seekAll w)).1, (key (.seekAll w)).2, rfl⟩, _, rfl⟩
        · dsimp only; rw [if_neg ht]; exact same

/-- **C100 (the default direction).** Reading after the direction is set gives the same rows, leaves the cursor at the same place and sends the same FETCH as giving that direction to `read` on a forward cursor; and giving BACKWARD to `read` when BACKWARD is set reads forward. -/
theorem C100_default (upper : Str → Str) (s : State α) (hs : s.cur.dir = true) (q : Option Int) (v : Val) (b : Bool) (hv : Direction upper v b) :
    let set := (call upper s (.setDirection v)).2
    (call upper set (.read q .none)).1 = (call upper s (.read q v)).1 ∧ (call upper set (.read q .none)).2.cur.pos = (call upper s (.read q v)).2.cur.pos ∧
    (call upper set (.read q .none)).2.sent = (call upper s (.read q v)).2.sent ∧
    (b = false → (call upper set (.read q v)).1 = (call upper s (.read q .none)).1 ∧ (call upper set (.read q v)).2.cur.pos = (call upper s (.read q .none)).2.cur.pos ∧
      (call upper set (.read q v)).2.sent = (call upper s (.read q .none)).2.sent) := by
  intro set
  have hset : set = { s with cur := { s.cur with dir := b } } := by
    rcases C100_direction upper s v with ⟨b', h1, h2⟩ | ⟨h1, _⟩
    · rw [direction_unique hv h1]
      exact congrArg Prod.snd h2
    · exact absurd hv (h1 b)
  rw [hset]
  by_cases hq : q = some 0
  · subst hq
    exact ⟨rfl, rfl, rfl, fun _ => ⟨rfl, rfl, rfl⟩⟩
  · obtain ⟨⟨rows, pos, dir⟩, id, sent⟩ := s
    change dir = true at hs
    subst hs
    have hg : givenDirection upper v = .ok (some b) := by
      have : directionToBool upper v = .ok b := by
        rcases direction_cases upper v with ⟨b', h1, h2⟩ | ⟨h1, _⟩
        · rw [direction_unique hv h1, h2]
        · exact absurd hv (h1 b)
      have hg' : givenDirection upper v = (directionToBool upper v).map some := by cases hv <;> rfl
      rw [hg', this]; rfl
    have e1 : ∀ t : State α, call upper t (.read q .none) = (.ok (Cursor.read t.cur q none).1, { t with cur := (Cursor.read t.cur q none).2, sent := t.sent ++ SqlText.readCommands t.id t.cur.dir q none }) := by
      intro t
      show CursorArgs.read upper t q .none = _
      unfold CursorArgs.read; rw [if_neg hq]; rfl
    have e2 : ∀ t : State α, call upper t (.read q v) = (.ok (Cursor.read t.cur q (some b)).1, { t with cur := (Cursor.read t.cur q (some b)).2, sent := t.sent ++ SqlText.readCommands t.id t.cur.dir q (some b) }) := by
      intro t
      show CursorArgs.read upper t q v = _
      unfold CursorArgs.read; rw [if_neg hq, hg]
    rw [e1, e2, e1, e2]
    unfold Cursor.read SqlText.readCommands
    simp only [if_neg hq]
    have hpos : ∀ (w d d' : Bool), (Cursor.go (⟨rows, pos, d⟩ : Cursor.Cur α) w q).1 = (Cursor.go (⟨rows, pos, d'⟩ : Cursor.Cur α) w q).1 ∧
        (Cursor.go (⟨rows, pos, d⟩ : Cursor.Cur α) w q).2.pos = (Cursor.go (⟨rows, pos, d'⟩ : Cursor.Cur α) w q).2.pos := by
      intro w d d'
      cases q with
      | none => cases w <;> exact ⟨rfl, rfl⟩
      | some n =>
        simp only [Cursor.go]
        split <;> exact ⟨rfl, rfl⟩
    cases b
    · refine ⟨congrArg _ (hpos _ _ _).1, (hpos _ _ _).2, rfl, fun _ => ⟨congrArg _ (hpos _ _ _).1, (hpos _ _ _).2, rfl⟩⟩
    · refine ⟨congrArg _ (hpos _ _ _).1, (hpos _ _ _).2, rfl, fun h => Bool.noConfusion h⟩

/-- A concrete history: a refused direction, BACKWARD in small letters, seeks by number and by name, a number that is no `whence`, an offset that is no offset. -/
def history : List Call :=
  [.setDirection (.int 1), .setDirection (.str "sideways".toList), .setDirection (.str "backward".toList), .seek (.int 0) (.int 0), .read (some 2) .none, .seek (.int 1) (.int 7), .seek (.str "all".toList) (.str "forward".toList),
   .seek (.str "ALL".toList) (.bool true), .next, .read (some 1) (.str "Backward".toList)]

example : (calls (fun s => s.map Char.toUpper) (⟨⟨[1, 2, 3, 4], 0, true⟩, "c".toList, []⟩ : State Nat) history).1 =
    [.error .typeError, .error .valueError, .ok [], .ok [], .ok [4, 3], .error .attributeError, .error .typeError, .ok [], .error .stopIteration, .ok [1]] ∧
    accepted (fun s => s.map Char.toUpper) (⟨⟨[1, 2, 3, 4], 0, true⟩, "c".toList, []⟩ : State Nat) history ≠ history := by decide +kernel

end PG.CursorArgs
