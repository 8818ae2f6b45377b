import Verif.Spec.Messages
import Verif.Proofs.WireFormat
/-! # C53: the server's errors and notices, as the user sees them -/
namespace PG.Props.Messages
open PG PG.Exceptions PG.Messages PG.Spec PG.Spec.Messages PG.Element3

/-! ### Escapes -/

/-- What stands for a byte. -/
def Piece (b : UInt8) (p : Str) : Prop :=
  (∃ c, p = [c] ∧ c ≠ '\\' ∧ UInt8.ofNat c.toNat = b) ∨
  (∃ c, p = ['\\', c] ∧ ((c = 't' ∧ b = 9) ∨ (c = 'n' ∧ b = 10) ∨ (c = 'r' ∧ b = 13) ∨ ((c = '\\' ∨ c = '\'' ∨ c = '"') ∧ UInt8.ofNat c.toNat = b))) ∨
  (∃ x y m n, p = ['\\', 'x', x, y] ∧ hexValue x = some m ∧ hexValue y = some n ∧ UInt8.ofNat (m * 16 + n) = b)

/-- The check of a piece, computed. -/
def pieceOk (b : UInt8) : Str → Bool
  | [c] => c ≠ '\\' ∧ UInt8.ofNat c.toNat = b
  | ['\\', c] => (c = 't' ∧ b = 9) ∨ (c = 'n' ∧ b = 10) ∨ (c = 'r' ∧ b = 13) ∨ ((c = '\\' ∨ c = '\'' ∨ c = '"') ∧ UInt8.ofNat c.toNat = b)
  | ['\\', 'x', x, y] => match hexValue x, hexValue y with
    | some m, some n => UInt8.ofNat (m * 16 + n) = b
    | _, _ => false
  | _ => false

theorem piece_of_ok {b : UInt8} {p : Str} (h : pieceOk b p = true) : Piece b p := by
  unfold pieceOk at h
  split at h
  · rename_i c
    simp only [decide_eq_true_eq] at h
    exact .inl ⟨c, rfl, h⟩
  · rename_i c
    simp only [decide_eq_true_eq] at h
    exact .inr (.inl ⟨c, rfl, h⟩)
  · rename_i x y
    split at h
    · rename_i m n h1 h2
      simp only [decide_eq_true_eq] at h
      exact .inr (.inr ⟨x, y, m, n, rfl, h1, h2, h⟩)
    · cases h
  · cases h

theorem reprByte_ok (q : Char) (hq : q = '"' ∨ q = '\'') (b : UInt8) : Piece b (reprByte q b) ∧ ∀ c ∈ reprByte q b, 32 ≤ c.toNat ∧ c.toNat < 127 := by
  have : ∀ n < 256, ∀ q ∈ ['"', '\''], pieceOk (UInt8.ofNat n) (reprByte q (UInt8.ofNat n)) = true ∧ ∀ c ∈ reprByte q (UInt8.ofNat n), 32 ≤ c.toNat ∧ c.toNat < 127 := by
    decide +kernel
  have h := this b.toNat b.toNat_lt q (by simp [hq])
  rw [UInt8.ofNat_toNat] at h
  exact ⟨piece_of_ok h.1, h.2⟩

theorem unescape_piece {b : UInt8} {p : Str} (h : Piece b p) (r : Str) : unescape (p ++ r) = (unescape r).map (b :: ·) := by
  rcases h with ⟨c, rfl, hc, hb⟩ | ⟨c, rfl, h⟩ | ⟨x, y, m, n, rfl, hx, hy, hb⟩
  · rw [List.cons_append, List.nil_append, unescape.eq_def]
    split
    · rename_i e; cases e
    all_goals (rename_i e; try (injection e with e1 e2; exact absurd e1 hc))
    injection e with e1 e2; subst e1 e2
    rw [if_neg hc, hb]
  · rcases h with ⟨rfl, rfl⟩ | ⟨rfl, rfl⟩ | ⟨rfl, rfl⟩ | ⟨rfl | rfl | rfl, hb⟩
    · simp [unescape]
    · simp [unescape]
    · simp [unescape]
    · subst hb; simp [unescape]
    · subst hb; simp [unescape]
    · subst hb; simp [unescape]
  · subst hb; simp [unescape, hx, hy]

theorem unescape_repr (q : Char) (hq : q = '"' ∨ q = '\'') : ∀ v : Bytes, unescape (v.flatMap (reprByte q)) = some v
  | [] => by simp [unescape]
  | b :: v => by
    rw [List.flatMap_cons, unescape_piece (reprByte_ok q hq b).1, unescape_repr q hq v]; rfl

theorem shows_repr {dec : Bytes → Option Str} {v : Bytes} (h : dec v = none) : Shows dec v (reprInner v) := by
  refine .inr ⟨h, ?_, ?_⟩
  · unfold reprInner
    apply unescape_repr
    split <;> simp
  · intro c hc
    unfold reprInner at hc
    rw [List.mem_flatMap] at hc
    obtain ⟨b, -, hc⟩ := hc
    exact (reprByte_ok _ (by split <;> simp) b).2 c hc

/-! ### Fields -/

/-- The text of bytes. -/
def shown (dec : Bytes → Option Str) (v : Bytes) : Str := (dec v).getD (reprInner v)

theorem shows_shown (dec : Bytes → Option Str) (v : Bytes) : Shows dec v (shown dec v) := by
  unfold shown
  cases h : dec v with
  | some s => exact .inl h
  | none => exact shows_repr h

theorem failsafe_eq (dec : Bytes → Option Str) : ∀ l : List (Bytes × Bytes), failsafeOuter dec l = l.map (fun p => (p.1, shown dec p.2)) ∧
    failsafeInner dec l = l.map (fun p => (p.1, shown dec p.2))
  | [] => by simp [failsafeOuter, failsafeInner]
  | (k, v) :: l => by
    obtain ⟨h1, h2⟩ := failsafe_eq dec l
    constructor
    · rw [failsafeOuter, List.map_cons]
      unfold shown
      cases h : dec v with
      | some s => dsimp only; rw [h2]; simp [shown]
      | none => dsimp only; rw [h1]; simp [shown]
    · rw [failsafeInner, List.map_cons]
      unfold shown
      cases h : dec v with
      | some s => dsimp only; rw [h2]; simp [shown]
      | none => dsimp only; rw [h1]; simp [shown]

theorem fieldOf_iff (k : Bytes) (f : Field) : fieldOf k = some f ↔ k = [UInt8.ofNat (letter f).toNat] := by
  constructor
  · intro h
    unfold fieldOf at h
    split at h <;> first | (injection h with h; subst h; rfl) | cases h
  · rintro rfl
    cases f <;> rfl

theorem named_get (f : Field) : ∀ (l : List (Bytes × Str)) (d : List (Field × Str)), (l.map Prod.fst).Nodup →
    PyDict.get f (l.foldl addField d) =
      match l.find? fun p => p.1 = [UInt8.ofNat (letter f).toNat] with
      | some p => some p.2
      | none => PyDict.get f d
  | [], d, _ => rfl
  | p :: l, d, hn => by
    rw [List.map_cons, List.nodup_cons] at hn
    rw [List.foldl_cons, named_get f l _ hn.2, List.find?_cons]
    by_cases hp : p.1 = [UInt8.ofNat (letter f).toNat]
    · have hf : fieldOf p.1 = some f := (fieldOf_iff _ _).2 hp
      have hnone : (l.find? fun p => p.1 = [UInt8.ofNat (letter f).toNat]) = none := by
        rw [List.find?_eq_none]
        intro q hq hq'
        simp only [decide_eq_true_eq] at hq'
        exact hn.1 (List.mem_map.2 ⟨q, hq, by rw [hq', hp]⟩)
      rw [hnone]
      unfold addField
      rw [hf]
      simp [hp, PyDict.get_set]
    · have : PyDict.get f (addField d p) = PyDict.get f d := by
        unfold addField
        cases hf : fieldOf p.1 with
        | none => rfl
        | some g =>
          dsimp only
          rw [PyDict.get_set, if_neg]
          rintro rfl
          exact hp ((fieldOf_iff _ _).1 hf)
      rw [this]
      simp [hp]

theorem some_values {fs : List (Bytes × Option Bytes)} (h : FieldsOk fs) : ∃ l : List (Bytes × Bytes), fs = l.map (fun p => (p.1, some p.2)) ∧ (l.map Prod.fst).Nodup := by
  have : ∀ fs : List (Bytes × Option Bytes), (∀ f ∈ fs, ∃ v, f.2 = some v) → ∃ l : List (Bytes × Bytes), fs = l.map (fun p => (p.1, some p.2)) := by
    intro fs
    induction fs with
    | nil => intro _; exact ⟨[], rfl⟩
    | cons f fs ih =>
      intro h
      obtain ⟨l, hl⟩ := ih (fun f hf => h f (by simp [hf]))
      obtain ⟨v, hv⟩ := h f (by simp)
      exact ⟨(f.1, v) :: l, by rw [List.map_cons, ← hl, ← hv]⟩
  obtain ⟨l, hl⟩ := this fs (fun f hf => let ⟨v, hv, _⟩ := (h.2 f hf).2; ⟨v, hv⟩)
  refine ⟨l, hl, ?_⟩
  have := h.1
  rw [hl, List.map_map] at this
  exact this

theorem decode_get (dec : Bytes → Option Str) {fs : List (Bytes × Option Bytes)} (h : FieldsOk fs) (f : Field) :
    PyDict.get f (decodeNotice dec fs) = (sent fs f).map (shown dec) := by
  obtain ⟨l, rfl, hn⟩ := some_values h
  have e : (l.map fun p => ((p.1, some p.2) : Bytes × Option Bytes)).filterMap (fun p => p.2.map fun v => (p.1, v)) = l := by
    clear h hn
    induction l with
    | nil => rfl
    | cons a l ih => rw [List.map_cons, List.filterMap_cons]; dsimp only [Option.map_some]; rw [ih]
  unfold decodeNotice named
  rw [e, (failsafe_eq dec l).1, named_get f _ _ (by rw [List.map_map]; exact hn)]
  unfold sent
  rw [List.find?_map, List.find?_map]
  have e2 : (fun p : Bytes × Str => decide (p.1 = [UInt8.ofNat (letter f).toNat])) ∘ (fun p : Bytes × Bytes => (p.1, shown dec p.2)) =
    (fun p : Bytes × Option Bytes => decide (p.1 = [UInt8.ofNat (letter f).toNat])) ∘ (fun p : Bytes × Bytes => (p.1, some p.2)) := rfl
  rw [e2]
  cases List.find? _ l <;> rfl

theorem details_of (dec : Bytes → Option Str) {fs : List (Bytes × Option Bytes)} (h : FieldsOk fs) (d : List (Field × Str))
    (hd : ∀ f, PyDict.get f d = if f = .code ∨ f = .message then none else PyDict.get f (decodeNotice dec fs)) : Details dec fs d := by
  intro f
  rw [hd f]
  split
  · rfl
  · rw [decode_get dec h]
    cases sent fs f with
    | none => rfl
    | some v => exact ⟨shown dec v, rfl, shows_shown dec v⟩

theorem instanceCode_eq (c : Cls) (k : Str) : instanceCode c k = k := by
  unfold instanceCode
  split
  · rfl
  · rename_i h
    rw [Decidable.not_not] at h
    rw [h]; rfl

/-- C53: an error the server sent with a code and a message is raised with that code and message, as the class for the code, with all its other
fields in the details, and nothing else; what cannot be decoded is shown escaped. -/
theorem C53_error (dec : Bytes → Option Str) (fs : List (Bytes × Option Bytes)) (h : FieldsOk fs) (c m : Bytes) (hc : sent fs .code = some c) (hm : sent fs .message = some m) :
    ∃ o, raiseServerError dec (parseNotice (wire fs)) = .ok o ∧ Shows dec c o.code ∧ Shows dec m o.message ∧ o.cls = some (errorLookup o.code) ∧
      Details dec fs o.details ∧ o.fromServer = true := by
  have hw : parseNotice (wire fs) = fs := Format.parseNotice_format fs h
  rw [hw]
  have h1 := decode_get dec h .code
  have h2 := decode_get dec h .message
  rw [hc] at h1; rw [hm] at h2
  have h3 : PyDict.get .message (PyDict.erase .code (decodeNotice dec fs)) = some (shown dec m) := by
    rw [PyDict.get_erase, if_neg (by decide), h2]; rfl
  unfold raiseServerError pop
  rw [h1]
  dsimp only [Option.map_some]
  rw [h3]
  refine ⟨_, rfl, ?_, shows_shown dec m, ?_, ?_, rfl⟩
  · dsimp only; rw [instanceCode_eq]; exact shows_shown dec c
  · dsimp only; rw [instanceCode_eq]
  · apply details_of dec h
    intro f
    dsimp only
    rw [PyDict.get_erase, PyDict.get_erase]
    cases f <;> rfl

/-- C53, a finding: an error without a code, or without a message, is not raised as an `Error` but as `KeyError`. -/
theorem C53_missing (dec : Bytes → Option Str) (fs : List (Bytes × Option Bytes)) (h : FieldsOk fs) (hm : sent fs .code = none ∨ sent fs .message = none) :
    raiseServerError dec (parseNotice (wire fs)) = .error .keyError := by
  have hw : parseNotice (wire fs) = fs := Format.parseNotice_format fs h
  rw [hw]
  have h1 := decode_get dec h .code
  have h2 := decode_get dec h .message
  unfold raiseServerError pop
  cases hc : sent fs .code with
  | none => rw [hc] at h1; rw [h1]; rfl
  | some c =>
    rw [hc] at h1 hm
    have hm := hm.resolve_left (by simp)
    rw [hm] at h2
    rw [h1]
    dsimp only [Option.map_some]
    rw [PyDict.get_erase, if_neg (by decide), h2]; rfl

/-- C53: an error tells whether the session is over, by the severity the server sent. -/
theorem C53_fatal (dec : Bytes → Option Str) (fs : List (Bytes × Option Bytes)) (o : Obj) (hd : Details dec fs o.details) :
    (sent fs .severity = none → fatal o = none) ∧
    (∀ v s, sent fs .severity = some v → dec v = some s → (fatal o = some true ↔ s = "PANIC".toList ∨ s = "FATAL".toList)) := by
  have h := hd .severity
  rw [if_neg (by decide)] at h
  unfold fatal
  constructor
  · intro hs
    rw [hs] at h
    rw [show PyDict.get Field.severity o.details = none from h]; rfl
  · intro v s hs hv
    rw [hs] at h
    obtain ⟨t, ht, h⟩ := h
    rw [ht]
    rcases h with h | ⟨h, -⟩
    · rw [hv] at h; injection h with h; subst h
      simp
    · rw [hv] at h; cases h

/-- C53: a notice is delivered with its code, message and fields; it is a warning, of the class for its code, exactly if its severity is `WARNING` in any case. -/
theorem C53_notice (dec : Bytes → Option Str) (upper : Str → Str) (fs : List (Bytes × Option Bytes)) (h : FieldsOk fs) (c m s : Bytes) (hc : sent fs .code = some c)
    (hm : sent fs .message = some m) (hs : sent fs .severity = some s) :
    ∃ o t, serverMessage dec upper (parseNotice (wire fs)) = .ok o ∧ Shows dec c o.code ∧ Shows dec m o.message ∧ Details dec fs o.details ∧ o.fromServer = true ∧
      Shows dec s t ∧ o.cls = if upper t = "WARNING".toList then some (warningLookup o.code) else none := by
  have hw : parseNotice (wire fs) = fs := Format.parseNotice_format fs h
  rw [hw]
  have h1 := decode_get dec h .code
  have h2 := decode_get dec h .message
  have h3 := decode_get dec h .severity
  rw [hc] at h1; rw [hm] at h2; rw [hs] at h3
  have h4 : PyDict.get .code (PyDict.erase .message (decodeNotice dec fs)) = some (shown dec c) := by
    rw [PyDict.get_erase, if_neg (by decide), h1]; rfl
  have h5 : PyDict.get .severity (PyDict.erase .code (PyDict.erase .message (decodeNotice dec fs))) = some (shown dec s) := by
    rw [PyDict.get_erase, if_neg (by decide), PyDict.get_erase, if_neg (by decide), h3]; rfl
  have hdet : Details dec fs (PyDict.erase .code (PyDict.erase .message (decodeNotice dec fs))) := by
    apply details_of dec h
    intro f
    rw [PyDict.get_erase, PyDict.get_erase]
    cases f <;> rfl
  unfold serverMessage pop
  rw [h2]
  dsimp only [Option.map_some]
  rw [h4]
  dsimp only
  rw [h5]
  dsimp only
  by_cases hu : upper (shown dec s) = "WARNING".toList
  · rw [if_pos hu]
    refine ⟨_, shown dec s, rfl, ?_, shows_shown dec m, hdet, rfl, shows_shown dec s, ?_⟩
    · dsimp only; rw [instanceCode_eq]; exact shows_shown dec c
    · dsimp only; rw [instanceCode_eq, if_pos hu]
  · rw [if_neg hu]
    refine ⟨_, shown dec s, rfl, ?_, shows_shown dec m, hdet, rfl, shows_shown dec s, ?_⟩
    · dsimp only; rw [instanceCode_eq]; exact shows_shown dec c
    · dsimp only; rw [if_neg hu]

/-! ### Hooks -/

/-- The places of the factors that have a hook. -/
def places (i : Nat) (a : List (Option Hook)) : List Nat := (a.zipIdx i).filterMap fun p => p.1.map fun _ => p.2

theorem emit_append : ∀ (a l : List (Option Hook)) (i : Nat) (called : List Nat), (∀ x ∈ a, x = none ∨ x = some (.returns false)) →
    emit i called (a ++ l) = emit (i + a.length) (called ++ places i a) l
  | [], l, i, called, _ => by simp [places]
  | x :: a, l, i, called, h => by
    have ih := fun c => emit_append a l (i + 1) c (fun x hx => h x (by simp [hx]))
    have e : i + 1 + a.length = i + (a.length + 1) := by omega
    rcases h x (by simp) with rfl | rfl
    · rw [List.cons_append, emit, ih, List.length_cons, e]; simp [places]
    · rw [List.cons_append, emit, ih, List.length_cons, e]; simp [places]

/-- C53: a message goes to the hooks of its creator and of the creator's factors, in order, until one returns a true value; the library's own
hook is called if and only if none does. -/
theorem C53_hooks (a : List (Option Hook)) (h : ∀ x ∈ a, x = none ∨ x = some (.returns false)) :
    emit 0 [] a = { called := places 0 a, trapped := none, sysCalled := true, raised := false } ∧
    ∀ l, emit 0 [] (a ++ some (.returns true) :: l) = { called := places 0 a ++ [a.length], trapped := some a.length, sysCalled := false, raised := false } ∧
      emit 0 [] (a ++ some .raises :: l) = { called := places 0 a ++ [a.length], trapped := none, sysCalled := false, raised := true } := by
  refine ⟨?_, fun l => ⟨?_, ?_⟩⟩
  · have := emit_append a [] 0 [] h
    rw [List.append_nil] at this
    rw [this, emit]; simp
  · rw [emit_append a _ 0 [] h, emit]; simp
  · rw [emit_append a _ 0 [] h, emit]; simp

/-! ### Examples -/

/-- An error as a server sends it. -/
def sample : List (Bytes × Option Bytes) := [([83], some [69, 82, 82, 79, 82]), ([86], some [69]), ([67], some [52, 50, 80, 48, 49]), ([77], some [110, 111, 39, 255]), ([72], some [104])]

/-- ASCII. -/
def ascii (b : Bytes) : Option Str := if b.all (· < 128) then some (b.map fun x => Char.ofNat x.toNat) else none

example : FieldsOk sample ∧ sent sample .code = some [52, 50, 80, 48, 49] ∧ sent sample .message = some [110, 111, 39, 255] ∧ sent sample .hint = some [104] := by
  refine ⟨⟨by decide, ?_⟩, by decide, by decide, by decide⟩
  intro f hf
  simp only [sample, List.mem_cons, List.not_mem_nil, or_false] at hf
  rcases hf with rfl | rfl | rfl | rfl | rfl <;> exact ⟨⟨_, rfl, by decide⟩, _, rfl, by unfold NulFree; decide⟩
example : named (failsafeOuter ascii (sample.filterMap fun p => p.2.map fun v => (p.1, v))) =
    [(.severity, "ERROR".toList), (.code, "42P01".toList), (.message, "no'\\xff".toList), (.hint, "h".toList)] := by decide +kernel
example : emit 0 [] [none, some (.returns false), none, some (.returns true), some .raises] = { called := [1, 3], trapped := some 3, sysCalled := false, raised := false } := rfl

end PG.Props.Messages
