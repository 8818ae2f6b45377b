import Verif.Model.BitSlice
import Verif.Props.Bitwise
/-!
# C24: slices and the truth of bit strings
-/
namespace PG.Props.Bitwise
open PG PG.Spec PG.Spec.Format PG.Spec.Bytea PG.Bitwise PG.PyInt PG.TypesLib PG.Element3

theorem stepSlice_map {α β : Type} (f : α → β) (l : List α) (i j k : Option Int) : stepSlice (l.map f) i j k = (stepSlice l i j k).map (List.map f) := by
  unfold stepSlice
  dsimp only
  rw [List.length_map]
  split
  · rfl
  · show Except.ok _ = Except.ok _
    rw [List.map_filterMap]
    congr 1
    apply congrArg (fun g => List.filterMap g _)
    funext x
    rw [List.getElem?_map]

/-- The item at each index of an arithmetic progression that stays inside the list. -/
theorem sliceIdx_get {k : Nat} (hk : 0 < k) (fuel i j : Nat) (hf : j - i < fuel) (m : Nat) : (sliceIdx k fuel i j)[m]? = if i + m * k < j then some ((i + m * k : Nat) : Int) else none := by
  induction fuel generalizing i m with
  | zero => omega
  | succ fuel ih =>
    unfold sliceIdx
    by_cases hij : i < j
    · rw [if_pos (Or.inl ⟨by omega, by omega⟩)]
      cases m with
      | zero => simp [hij]
      | succ m =>
        rw [List.getElem?_cons_succ]
        have := ih (i + k) (by omega) m
        rw [show ((i : Int) + (k : Int)) = ((i + k : Nat) : Int) by omega, this, show i + k + m * k = i + (m + 1) * k by rw [Nat.succ_mul]; omega]
    · rw [if_neg (by omega), if_neg (by omega)]
      rfl

theorem filterMap_get {α : Type} (l : List α) : ∀ is : List Int, (∀ x ∈ is, x.toNat < l.length) → ∀ m : Nat, (is.filterMap fun x => l[x.toNat]?)[m]? = is[m]?.bind fun (x : Int) => l[x.toNat]?
  | [], _, m => by simp
  | x :: is, h, m => by
    have hx := h x List.mem_cons_self
    rw [List.filterMap_cons, List.getElem?_eq_getElem hx]
    cases m with
    | zero => simp [List.getElem?_eq_getElem hx]
    | succ m => exact filterMap_get l is (fun y hy => h y (List.mem_cons_of_mem _ hy)) m

/-- Python's slices with bounds inside the list and a positive step: every `k`-th item from `i` on, before `j`. -/
theorem stepSlice_get {α : Type} (l : List α) (i j k : Nat) (hk : 0 < k) (hi : i ≤ l.length) (hj : j ≤ l.length) : ∃ r, stepSlice l (some i) (some j) (some k) = .ok r ∧
    ∀ m, r[m]? = if i + m * k < j then l[i + m * k]? else none := by
  have hc : ∀ b : Nat, b ≤ l.length → clip l.length 0 l.length b = b := by
    intro b hb
    unfold clip
    rw [if_neg (by omega), if_neg (by omega)]
  unfold stepSlice
  dsimp only [Option.getD]
  rw [if_neg (by omega), if_pos (by omega), if_pos (by omega)]
  rw [hc i hi, hc j hj]
  refine ⟨_, rfl, fun m => ?_⟩
  have hg := sliceIdx_get hk (l.length + 1) i j (by omega)
  rw [filterMap_get, hg]
  · split
    · rfl
    · rfl
  · intro x hx
    obtain ⟨n, hn⟩ := List.getElem?_of_mem hx
    rw [hg] at hn
    split at hn
    · cases hn
      omega
    · cases hn

/-- A negative bound counts from the end. -/
theorem stepSlice_negative {α : Type} (l : List α) (a : Nat) (k : Nat) (ha : 0 < a) (hal : a ≤ l.length) (x : Option Int) :
    stepSlice l (some (-(a : Int))) x (some k) = stepSlice l (some ((l.length - a : Nat) : Int)) x (some k) ∧ stepSlice l x (some (-(a : Int))) (some k) = stepSlice l x (some ((l.length - a : Nat) : Int)) (some k) := by
  have hc : 0 < (k : Int) → clip l.length 0 l.length (-(a : Int)) = clip l.length 0 l.length ((l.length - a : Nat) : Int) := by
    intro _
    unfold clip
    rw [if_pos (by omega), if_neg (by omega), if_neg (by omega), if_neg (by omega)]
    omega
  unfold stepSlice
  dsimp only [Option.getD]
  by_cases hk : (k : Int) = 0
  · rw [if_pos hk, if_pos hk, if_pos hk, if_pos hk]
    exact ⟨rfl, rfl⟩
  · have h1 : 0 < (k : Int) := by omega
    simp only [if_pos h1, if_neg hk, hc h1]
    exact ⟨trivial, trivial⟩

/-- **C24 (slices).** A slice of a bit string, with any bounds and step, has the bits that Python's slice of the sequence of its bits has. (The bit string does not have just one bit, see `C24_slice_bit`.) -/
theorem C24_slice (l : List Bool) (h : l.length ≠ 1) (i j k : Option Int) : ∃ v, ofStr (bitText l) = .ok v ∧
    getSlice v i j k = (match stepSlice l i j k with | .ok r => ofStr (bitText r) | .error e => .error e) := by
  refine ⟨_, ofStr_val l, ?_⟩
  unfold getSlice
  rw [str_val, bind_ok]
  unfold bitText
  rw [stepSlice_map]
  cases stepSlice l i j k with
  | error e => rfl
  | ok r =>
    show (if (val l).bits = 1 then _ else _) = _
    rw [if_neg (by simp only [val]; omega)]

/-- **C24 (slices with a positive step).** `v[i:j:k]` has every `k`-th bit from `i` on, before `j`. -/
theorem C24_slice_bits (l : List Bool) (h : l.length ≠ 1) (i j k : Nat) (hk : 0 < k) (hi : i ≤ l.length) (hj : j ≤ l.length) : ∃ v r w, ofStr (bitText l) = .ok v ∧
    getSlice v (some i) (some j) (some k) = .ok w ∧ str w = .ok (bitText r) ∧ ∀ m, r[m]? = if i + m * k < j then l[i + m * k]? else none := by
  obtain ⟨v, h1, h2⟩ := C24_slice l h (some i) (some j) (some k)
  obtain ⟨r, h3, h4⟩ := stepSlice_get l i j k hk hi hj
  rw [h3] at h2
  exact ⟨v, r, _, h1, h2.trans (ofStr_val r), str_val r, h4⟩

/-- **C24 (finding).** A slice of a single bit is a bit string where it has one bit, and raises ValueError where it would be empty. -/
theorem C24_slice_bit (b : Bool) (i j k : Option Int) : ∃ v, ofStr (bitText [b]) = .ok v ∧
    getSlice v i j k = (match stepSlice [b] i j k with | .ok r => if r.length = 1 then ofStr (bitText r) else .error .valueError | .error e => .error e) := by
  refine ⟨_, ofStr_val [b], ?_⟩
  unfold getSlice
  rw [str_val, bind_ok]
  unfold bitText
  rw [stepSlice_map]
  cases stepSlice [b] i j k with
  | error e => rfl
  | ok r =>
    show bitOf (r.map _) = if r.length = 1 then ofStr (bitText r) else _
    match r with
    | [] => rfl
    | [c] => cases c <;> decide +kernel
    | c :: d :: r =>
      rw [if_neg (by simp)]
      unfold bitOf
      rw [if_neg (by simp), if_neg (by simp)]

/-- **C24 (finding).** Every bit string that is not empty counts as true, that of zeros only too; only the empty one counts as false. -/
theorem C24_truth (l : List Bool) : ∃ v, ofStr (bitText l) = .ok v ∧ truth v = .ok (decide (l ≠ [])) := by
  refine ⟨_, ofStr_val l, ?_⟩
  unfold truth len val
  dsimp only
  rw [if_neg (by omega)]
  cases l <;> simp [Except.map]

/-- **C24.** The single bits are made from the texts and from the truth values; every other text raises ValueError. -/
theorem C24_bit (b : Bool) (s : Str) : ofStr (bitText [b]) = .ok (bitOfBool b) ∧ bitOf (bitText [b]) = .ok (bitOfBool b) ∧ ((∀ c, s ≠ bitText [c]) → bitOf s = .error .valueError) := by
  refine ⟨?_, ?_, fun h => ?_⟩
  · cases b <;> decide +kernel
  · cases b <;> decide
  · unfold bitOf
    rw [if_neg (by intro e; exact h false (e.trans (by decide))), if_neg (by intro e; exact h true (e.trans (by decide)))]

/-- Concrete cases. -/
example : getSlice ⟨[44, 192], 10⟩ (some 2) (some (-1)) (some 3) = .ok ⟨[224], 3⟩ ∧ getSlice ⟨[44, 192], 10⟩ none none (some (-1)) = .ok ⟨[205, 0], 10⟩ ∧
    getSlice ⟨[44, 192], 10⟩ none none (some 0) = .error .valueError ∧ getSlice oneBit (some 1) none none = .error .valueError ∧ getSlice ⟨[44, 192], 10⟩ (some 4) (some 5) none = .ok oneBit ∧
    truth ⟨[0], 3⟩ = .ok true := by decide +kernel

end PG.Props.Bitwise
