import Verif.Model.Row
import Verif.Props.PgArray
/-!
# C26: rows
-/
namespace PG.Props.Row
open PG PG.Element3 PG.PgArray PG.Row PG.TypesLib PG.Spec.Types PG.Spec.Format

variable {κ α : Type} [DecidableEq κ]

/-- Every column has a name and every name is that of one column, as for results without repeated column names. -/
def Names (n : Nat) (keymap : List (κ × Nat)) : Prop := (keymap.map Prod.fst).Nodup ∧ (keymap.map Prod.snd).Perm (List.range n)

theorem lookup_iff {β : Type} {d : List (κ × β)} (h : (d.map Prod.fst).Nodup) {k : κ} {v : β} : lookup k d = some v ↔ (k, v) ∈ d := by
  induction d with
  | nil => simp [lookup]
  | cons e d ih =>
    obtain ⟨k', v'⟩ := e
    rw [List.map_cons, List.nodup_cons] at h
    unfold lookup at *
    rw [List.find?_cons]
    by_cases hk : k' = k
    · subst hk
      simp only [decide_true, Option.map_some, List.mem_cons, Prod.mk.injEq, true_and]
      constructor
      · intro h; exact Or.inl (Option.some.inj h).symm
      · rintro (rfl | hm)
        · rfl
        · exact (h.1 (List.mem_map.2 ⟨_, hm, rfl⟩)).elim
    · simp only [hk, decide_false, List.mem_cons, Prod.mk.injEq]
      rw [ih h.2]
      constructor
      · exact Or.inr
      · rintro (⟨rfl, _⟩ | hm)
        · exact (hk rfl).elim
        · exact hm

theorem lookup_none {β : Type} {d : List (κ × β)} {k : κ} : lookup k d = none ↔ ∀ v, (k, v) ∉ d := by
  unfold lookup
  rw [Option.map_eq_none_iff, List.find?_eq_none]
  constructor
  · intro h v hm; exact h _ hm (by simp)
  · intro h e he hk
    simp only [decide_eq_true_eq] at hk
    subst hk
    exact h e.2 he

theorem pyGet_nat {β : Type} {l : List β} {i : Nat} {x : β} (h : l[i]? = some x) : pyGet l (i : Int) = .ok x := by
  unfold pyGet
  simp only
  rw [if_neg (by omega), if_neg (by omega), Int.toNat_natCast, h]

theorem pyGet_of {β : Type} {l : List β} {i : Int} {j : Nat} {x : β} (h : (if i < 0 then i + l.length else i) = (j : Int)) (hx : l[j]? = some x) :
    pyGet l i = .ok x := by
  unfold pyGet
  simp only
  rw [h, if_neg (by omega), Int.toNat_natCast, hx]

/-- C26: the value of a column is the same by position, by name and by `get`. -/
theorem C26_access (r : Row κ α) (h : Names r.vals.length r.keymap) (k : κ) (i : Nat) (x : α) (hk : (k, i) ∈ r.keymap) (hx : r.vals[i]? = some x) :
    getKey r k = .ok x ∧ getInt r i = .ok x ∧ getInt r ((i : Int) - r.vals.length) = .ok x ∧ optKey r k = .ok (some x) ∧ optInt r i = .ok (some x) ∧
      indexFromKey r k = some i ∧ keyFromIndex r i = some k := by
  have hl := (lookup_iff h.1).2 hk
  have hi : i < r.vals.length := (List.getElem?_eq_some_iff.1 hx).1
  have hneg : getInt r ((i : Int) - r.vals.length) = .ok x := by
    refine pyGet_of ?_ hx
    rw [if_pos (by omega)]
    omega
  refine ⟨?_, pyGet_nat hx, hneg, ?_, ?_, hl, ?_⟩
  · unfold getKey; rw [hl]; exact pyGet_nat hx
  · unfold optKey; rw [hl]; simp only; rw [pyGet_nat hx]; rfl
  · unfold optInt; rw [if_pos (by omega), pyGet_nat hx]; rfl
  · unfold keyFromIndex
    cases hf : r.keymap.find? (fun e => e.2 = i) with
    | none => exact absurd (decide_eq_true (rfl : i = i)) (List.find?_eq_none.1 hf _ hk)
    | some e =>
      have h1 := List.mem_of_find?_eq_some hf
      have h2 : e.2 = i := by simpa using List.find?_some hf
      have hnd : (r.keymap.map Prod.snd).Nodup := h.2.nodup_iff.2 List.nodup_range
      have : e = (k, i) := by
        obtain ⟨a, ha⟩ := List.getElem?_of_mem h1
        obtain ⟨b, hb⟩ := List.getElem?_of_mem hk
        have hab : a = b := by
          have ea : (r.keymap.map Prod.snd)[a]? = some i := by rw [List.getElem?_map, ha]; simp [h2]
          have eb : (r.keymap.map Prod.snd)[b]? = some i := by rw [List.getElem?_map, hb]; rfl
          have hal := (List.getElem?_eq_some_iff.1 ea).1
          exact (List.getElem?_inj hal hnd).1 (ea.trans eb.symm)
        subst hab
        rw [ha] at hb
        exact Option.some.inj hb
      subst this
      rfl

/-- C26: what no column is called raises KeyError, and `get` gives None for it. -/
theorem C26_unknown (r : Row κ α) (k : κ) (hk : ∀ i, (k, i) ∉ r.keymap) : getKey r k = .error .keyError ∧ optKey r k = .ok none ∧ indexFromKey r k = none := by
  have hl := lookup_none.2 hk
  unfold getKey optKey indexFromKey
  rw [hl]
  exact ⟨rfl, rfl, rfl⟩

omit [DecidableEq κ] in
theorem byPosition_snd {n : Nat} {d : List (κ × Nat)} (h : (d.map Prod.snd).Perm (List.range n)) : (byPosition d).map Prod.snd = List.range n := by
  have hp : (byPosition d).Perm d := List.mergeSort_perm ..
  have hs : (byPosition d).Pairwise (fun a b => decide (a.2 ≤ b.2) = true) :=
    List.pairwise_mergeSort (fun a b c h1 h2 => by simp only [decide_eq_true_eq] at *; omega) (fun a b => by simp only [Bool.or_eq_true, decide_eq_true_eq]; omega) d
  apply List.Perm.eq_of_pairwise (le := (· ≤ ·))
  · intro a b _ _ h1 h2; omega
  · rw [List.pairwise_map]
    exact hs.imp fun h => by simpa using h
  · exact List.pairwise_lt_range.imp Nat.le_of_lt
  · exact (hp.map _).trans h

omit [DecidableEq κ] in
theorem byPosition_get {n : Nat} {d : List (κ × Nat)} (h : Names n d) {i : Nat} {k : κ} : ((byPosition d).map Prod.fst)[i]? = some k ↔ (k, i) ∈ d := by
  have hs := byPosition_snd h.2
  have hmem : (k, i) ∈ byPosition d ↔ (k, i) ∈ d := List.mem_mergeSort
  rw [← hmem]
  have hpos : ∀ (j : Nat) (e : κ × Nat), (byPosition d)[j]? = some e → e.2 = j := by
    intro j e he
    have h1 : ((byPosition d).map Prod.snd)[j]? = some e.2 := by rw [List.getElem?_map, he]; rfl
    rw [hs] at h1
    have hj := (List.getElem?_eq_some_iff.1 h1).1
    rw [List.length_range] at hj
    rw [List.getElem?_range hj] at h1
    exact (Option.some.inj h1).symm
  constructor
  · intro hg
    rw [List.getElem?_map, Option.map_eq_some_iff] at hg
    obtain ⟨e, he, rfl⟩ := hg
    have := hpos i e he
    subst this
    exact List.mem_of_getElem? he
  · intro hm
    obtain ⟨j, hj⟩ := List.getElem?_of_mem hm
    have := hpos j _ hj
    dsimp only at this
    subst this
    rw [List.getElem?_map, hj]
    rfl

/-- C26: `column_names` are the names in the order of the columns, and `items` pairs each with its value. -/
theorem C26_names (r : Row κ α) (h : Names r.vals.length r.keymap) : (columnNames r).length = r.vals.length ∧
    (∀ k i, (columnNames r)[i]? = some k ↔ (k, i) ∈ r.keymap) ∧
    (∀ k x, (k, x) ∈ rowItems r ↔ ∃ i, (k, i) ∈ r.keymap ∧ r.vals[i]? = some x) := by
  refine ⟨?_, fun k i => byPosition_get h, ?_⟩
  · have := congrArg List.length (byPosition_snd h.2)
    simpa [columnNames] using this
  · intro k x
    constructor
    · intro hm
      obtain ⟨i, hi⟩ := List.getElem?_of_mem hm
      unfold rowItems at hi
      rw [List.getElem?_zip_eq_some] at hi
      exact ⟨i, (byPosition_get h).1 hi.1, hi.2⟩
    · rintro ⟨i, hk, hx⟩
      have : (rowItems r)[i]? = some (k, x) := by
        unfold rowItems
        rw [List.getElem?_zip_eq_some]
        exact ⟨(byPosition_get h).2 hk, hx⟩
      exact List.mem_of_getElem? this

/-- C26: a row from a mapping has the mapping's values at their columns, and None where the mapping has none. -/
theorem C26_from_mapping (n : Nat) (keymap : List (κ × Nat)) (m : List (κ × α)) (h : Names n keymap) (k : κ) (i : Nat) (hk : (k, i) ∈ keymap) :
    (fromMapping keymap m).vals.length = n ∧ getKey (fromMapping keymap m) k = .ok (lookup k m) ∧ getInt (fromMapping keymap m) i = .ok (lookup k m) := by
  have hlen : (fromMapping keymap m).vals.length = n := by
    have := congrArg List.length (byPosition_snd h.2)
    simpa [fromMapping] using this
  have hx : (fromMapping keymap m).vals[i]? = some (lookup k m) := by
    have := (byPosition_get h).2 hk
    unfold fromMapping
    simp only
    rw [List.getElem?_map] at this ⊢
    rw [Option.map_eq_some_iff] at this
    obtain ⟨e, he, rfl⟩ := this
    rw [he]
    rfl
  obtain ⟨a1, a2, _⟩ := C26_access (fromMapping keymap m) (by rw [hlen]; exact h) k i _ hk hx
  exact ⟨hlen, a1, a2⟩

theorem transformArgs_spec (orig : List α) : ∀ (args : List (Option (α → Except Err α))) (i : Nat) (r r' : List α), r.length = orig.length →
    transformArgs orig args i r = .ok r' → r'.length = orig.length ∧ (∀ m, m < i → r'[m]? = r[m]?) ∧
      ∀ j, (∀ f, args[j]? = some (some f) → ∃ x y, orig[i + j]? = some x ∧ f x = .ok y ∧ r'[i + j]? = some y) ∧
        ((∀ f, args[j]? ≠ some (some f)) → r'[i + j]? = r[i + j]?) := by
  intro args
  induction args with
  | nil =>
    intro i r r' hl h
    cases h
    exact ⟨hl, fun _ _ => rfl, fun j => ⟨fun f hf => by simp at hf, fun _ => rfl⟩⟩
  | cons o args ih =>
    intro i r r' hl h
    cases o with
    | none =>
      rw [transformArgs] at h
      obtain ⟨h1, h2, h3⟩ := ih (i + 1) r r' hl h
      refine ⟨h1, fun m hm => h2 m (by omega), ?_⟩
      intro j
      cases j with
      | zero => exact ⟨fun f hf => by simp at hf, fun _ => h2 i (by omega)⟩
      | succ j =>
        have := h3 j
        rw [show i + 1 + j = i + (j + 1) by omega] at this
        simpa using this
    | some f =>
      rw [transformArgs] at h
      obtain ⟨x, hx, h⟩ := bind_eq_ok h
      obtain ⟨y, hy, h⟩ := bind_eq_ok h
      split at h
      · rename_i hlt
        have hxo : orig[i]? = some x := by
          unfold pyGet at hx
          simp only at hx
          rw [if_neg (by omega), if_neg (by omega), Int.toNat_natCast] at hx
          split at hx
          · rename_i z hz; cases hx; exact hz
          · cases hx
        obtain ⟨h1, h2, h3⟩ := ih (i + 1) (r.set i y) r' (by simpa using hl) h
        refine ⟨h1, ?_, ?_⟩
        · intro m hm
          rw [h2 m (by omega), List.getElem?_set_ne (by omega)]
        · intro j
          cases j with
          | zero =>
            refine ⟨?_, fun hne => absurd rfl (hne f)⟩
            intro g hg
            simp only [List.getElem?_cons_zero, Option.some.injEq] at hg
            subst hg
            exact ⟨x, y, hxo, hy, by rw [Nat.add_zero, h2 i (by omega), List.getElem?_set_self hlt]⟩
          | succ j =>
            have := h3 j
            rw [show i + 1 + j = i + (j + 1) by omega, List.getElem?_set_ne (by omega)] at this
            simpa using this
      · cases h

theorem transformKw_spec (row : Row κ α) (hn : Names row.vals.length row.keymap) : ∀ (kw : List (κ × Option (α → Except Err α))) (r r' : List α),
    (kw.map Prod.fst).Nodup → r.length = row.vals.length → transformKw row kw r = .ok r' → r'.length = row.vals.length ∧
      ∀ j, (∀ k f, (k, some f) ∈ kw → (k, j) ∈ row.keymap → ∃ x y, row.vals[j]? = some x ∧ f x = .ok y ∧ r'[j]? = some y) ∧
        ((∀ k f, (k, some f) ∈ kw → (k, j) ∉ row.keymap) → r'[j]? = r[j]?) := by
  intro kw
  induction kw with
  | nil =>
    intro r r' _ hl h
    cases h
    exact ⟨hl, fun j => ⟨fun k f hm => by simp at hm, fun _ => rfl⟩⟩
  | cons e kw ih =>
    intro r r' hnd hl h
    obtain ⟨k, o⟩ := e
    rw [List.map_cons, List.nodup_cons] at hnd
    cases o with
    | none =>
      rw [transformKw] at h
      obtain ⟨h1, h2⟩ := ih r r' hnd.2 hl h
      refine ⟨h1, fun j => ⟨fun k' f hm hk' => ?_, fun hno => (h2 j).2 fun k' f hm => hno k' f (List.mem_cons_of_mem _ hm)⟩⟩
      rcases List.mem_cons.1 hm with hm | hm
      · simp at hm
      · exact (h2 j).1 k' f hm hk'
    | some f =>
      rw [transformKw] at h
      cases hi : indexFromKey row k with
      | none => rw [hi] at h; cases h
      | some i =>
        rw [hi] at h
        simp only at h
        have hki : (k, i) ∈ row.keymap := (lookup_iff hn.1).1 hi
        obtain ⟨x, hx, h⟩ := bind_eq_ok h
        obtain ⟨y, hy, h⟩ := bind_eq_ok h
        split at h
        · rename_i hlt
          have hxv : row.vals[i]? = some x := by
            have hi' : i < row.vals.length := by omega
            have h0 : row.vals[i]? = some row.vals[i] := List.getElem?_eq_getElem hi'
            obtain ⟨h1, _⟩ := C26_access row hn k i _ hki h0
            rw [h1] at hx
            cases hx
            exact h0
          obtain ⟨h1, h2⟩ := ih (r.set i y) r' hnd.2 (by simpa using hl) h
          -- no other name is that of the same column
          have hother : ∀ k' g, (k', some g) ∈ kw → (k', i) ∉ row.keymap := by
            intro k' g hm hc
            have e1 := (C26_access row hn k' i x hc hxv).2.2.2.2.2.2
            have e2 := (C26_access row hn k i x hki hxv).2.2.2.2.2.2
            rw [e1] at e2
            cases Option.some.inj e2
            exact hnd.1 (List.mem_map.2 ⟨_, hm, rfl⟩)
          refine ⟨h1, fun j => ⟨?_, ?_⟩⟩
          · intro k' g hm hk'
            rcases List.mem_cons.1 hm with hm | hm
            · injection hm with e1 e2
              subst e1
              cases Option.some.inj e2
              have : j = i := Option.some.inj (((lookup_iff hn.1).2 hk').symm.trans hi)
              subst this
              exact ⟨x, y, hxv, hy, by rw [(h2 j).2 hother, List.getElem?_set_self hlt]⟩
            · exact (h2 j).1 k' g hm hk'
          · intro hno
            have hji : j ≠ i := by
              rintro rfl
              exact hno k f (List.mem_cons_self ..) hki
            rw [(h2 j).2 fun k' g hm => hno k' g (List.mem_cons_of_mem _ hm), List.getElem?_set_ne (Ne.symm hji)]
        · cases h

/-- C26: `transform` gives a row with the same columns in which a column named by keyword has its callable's result, a column with only a
positional callable that one's, and every other column its old value. -/
theorem C26_transform (row r' : Row κ α) (args : List (Option (α → Except Err α))) (kw : List (κ × Option (α → Except Err α)))
    (hn : Names row.vals.length row.keymap) (hk : (kw.map Prod.fst).Nodup) (h : transform row args kw = .ok r') :
    r'.keymap = row.keymap ∧ r'.vals.length = row.vals.length ∧ ∀ j x, row.vals[j]? = some x →
      (∀ k f, (k, some f) ∈ kw → (k, j) ∈ row.keymap → ∃ y, f x = .ok y ∧ r'.vals[j]? = some y) ∧
      ((∀ k f, (k, some f) ∈ kw → (k, j) ∉ row.keymap) →
        (∀ f, args[j]? = some (some f) → ∃ y, f x = .ok y ∧ r'.vals[j]? = some y) ∧
        ((∀ f, args[j]? ≠ some (some f)) → r'.vals[j]? = some x)) := by
  unfold transform at h
  obtain ⟨r1, h1, h⟩ := bind_eq_ok h
  obtain ⟨r2, h2, h⟩ := bind_eq_ok h
  cases h
  obtain ⟨a1, _, a3⟩ := transformArgs_spec row.vals args 0 row.vals r1 rfl h1
  obtain ⟨b1, b2⟩ := transformKw_spec row hn kw r1 r2 hk a1 h2
  refine ⟨rfl, b1, ?_⟩
  intro j x hx
  have a3 := a3 j
  rw [Nat.zero_add] at a3
  refine ⟨?_, ?_⟩
  · intro k f hm hkj
    obtain ⟨x', y, e1, e2, e3⟩ := (b2 j).1 k f hm hkj
    rw [hx] at e1
    cases e1
    exact ⟨y, e2, e3⟩
  · intro hno
    have e := (b2 j).2 hno
    refine ⟨?_, ?_⟩
    · intro f hf
      obtain ⟨x', y, e1, e2, e3⟩ := a3.1 f hf
      rw [hx] at e1
      cases e1
      exact ⟨y, e2, e.trans e3⟩
    · intro hne
      exact (e.trans (a3.2 hne)).trans hx

omit [DecidableEq κ] in
/-- C26: `get` with a position never raises: it gives the value for the positions and for the negative ones but the last of them, and None
for any other. -/
theorem C26_get_total (r : Row κ α) (i : Int) : optInt r i = .ok (if -(r.vals.length : Int) < i ∧ i < r.vals.length then
    r.vals[(if i < 0 then i + r.vals.length else i).toNat]? else none) := by
  unfold optInt
  by_cases h : -(r.vals.length : Int) < i ∧ i < r.vals.length
  · rw [if_pos h, if_pos h]
    obtain ⟨h1, h2⟩ := h
    have hj : (if i < 0 then i + (r.vals.length : Int) else i).toNat < r.vals.length := by split <;> omega
    have hc : (((if i < 0 then i + (r.vals.length : Int) else i).toNat : Nat) : Int) = if i < 0 then i + r.vals.length else i := by split <;> omega
    rw [List.getElem?_eq_getElem hj]
    rw [pyGet_of hc.symm (List.getElem?_eq_getElem hj)]
    rfl
  · rw [if_neg h, if_neg h]

/-- Finding: `get(-len)` is None although `row[-len]` is the first value. -/
theorem C26_get_first_from_the_end (x : α) (l : List α) (km : List (κ × Nat)) :
    optInt ⟨x :: l, km⟩ (-((x :: l).length : Int)) = .ok none ∧ getInt ⟨x :: l, km⟩ (-((x :: l).length : Int)) = .ok x := by
  constructor
  · unfold optInt
    rw [if_neg (by simp)]
  · refine pyGet_of (j := 0) ?_ rfl
    simp only [List.length_cons]
    rw [if_pos (by omega)]
    omega

/-- Finding: with a repeated column name (`SELECT 1 AS a, 2 AS a`: the map has the last) `items()` pairs the name with the first column's
value, while indexing by the name gives the second's. -/
theorem C26_repeated_name : rowItems (⟨[1, 2], [("a", 1)]⟩ : Row String Nat) = [("a", 1)] ∧ getKey (⟨[1, 2], [("a", 1)]⟩ : Row String Nat) "a" = .ok 2 := by
  constructor <;> decide +kernel

/-! ## process_tuple and records -/

theorem processLoop_spec {β γ : Type} : ∀ (procs : List (β → Except Err γ)) (tup : List (Option β)) (i : Nat) (r : List (Option γ)), tup.length = procs.length →
    (processLoop procs tup i = .ok r ↔ r.length = tup.length ∧ ∀ (j : Nat) (f : β → Except Err γ) (o : Option β), procs[j]? = some f → tup[j]? = some o →
      (o = none → r[j]? = some none) ∧ ∀ x, o = some x → ∃ y, f x = .ok y ∧ r[j]? = some (some y))
  | [], [], i, r, _ => by
    simp only [processLoop, List.length_nil]
    constructor
    · intro h; cases h; exact ⟨rfl, by simp⟩
    · rintro ⟨h, _⟩; rw [List.length_eq_zero_iff.1 h]
  | f :: procs, o :: tup, i, r, hl => by
    have hl' : tup.length = procs.length := by simpa using hl
    have ih := processLoop_spec procs tup (i + 1)
    have hmap : ∀ (z : Option γ), (processLoop procs tup (i + 1)).map (z :: ·) = .ok r ↔ ∃ t, processLoop procs tup (i + 1) = .ok t ∧ r = z :: t := by
      intro z
      cases processLoop procs tup (i + 1) with
      | error e => simp [Except.map]
      | ok t => simp [Except.map, eq_comm]
    have hcons : ∀ (z : Option γ) (t : List (Option γ)), r = z :: t → ((r.length = (o :: tup).length ∧ ∀ (j : Nat) (g : β → Except Err γ) (o' : Option β),
        (f :: procs)[j]? = some g → (o :: tup)[j]? = some o' → (o' = none → r[j]? = some none) ∧ ∀ x, o' = some x → ∃ y, g x = .ok y ∧ r[j]? = some (some y)) ↔
        ((o = none → z = none) ∧ (∀ x, o = some x → ∃ y, f x = .ok y ∧ z = some y)) ∧ (t.length = tup.length ∧ ∀ (j : Nat) (g : β → Except Err γ) (o' : Option β),
        procs[j]? = some g → tup[j]? = some o' → (o' = none → t[j]? = some none) ∧ ∀ x, o' = some x → ∃ y, g x = .ok y ∧ t[j]? = some (some y))) := by
      intro z t hr
      subst hr
      constructor
      · rintro ⟨h1, h2⟩
        refine ⟨?_, by simpa using h1, fun j g o' hg ho => by simpa using h2 (j + 1) g o' (by simpa using hg) (by simpa using ho)⟩
        have := h2 0 f o rfl rfl
        simpa using this
      · rintro ⟨⟨h0, h0'⟩, h1, h2⟩
        refine ⟨by simpa using h1, ?_⟩
        intro j g o' hg ho
        cases j with
        | zero =>
          cases hg
          cases ho
          simpa using ⟨h0, h0'⟩
        | succ j => simpa using h2 j g o' (by simpa using hg) (by simpa using ho)
    cases o with
    | none =>
      rw [processLoop, hmap]
      constructor
      · rintro ⟨t, ht, hr⟩
        exact (hcons none t hr).2 ⟨⟨fun _ => rfl, fun x hx => by cases hx⟩, (ih t hl').1 ht⟩
      · intro h
        cases r with
        | nil => simp at h
        | cons z t =>
          obtain ⟨⟨h0, _⟩, h2⟩ := (hcons z t rfl).1 h
          exact ⟨t, (ih t hl').2 h2, by rw [h0 rfl]⟩
    | some x =>
      rw [processLoop]
      cases hf : f x with
      | error e =>
        simp only
        constructor
        · intro h; cases h
        · rintro ⟨_, h2⟩
          obtain ⟨y, hy, _⟩ := (h2 0 f (some x) rfl rfl).2 x rfl
          rw [hf] at hy
          cases hy
      | ok y =>
        simp only
        rw [hmap]
        constructor
        · rintro ⟨t, ht, hr⟩
          exact (hcons (some y) t hr).2 ⟨⟨(fun h => by cases h), fun x' hx => by cases hx; exact ⟨y, hf, rfl⟩⟩, (ih t hl').1 ht⟩
        · intro h
          cases r with
          | nil => simp at h
          | cons z t =>
            obtain ⟨⟨_, h0⟩, h2⟩ := (hcons z t rfl).1 h
            obtain ⟨y', hy', hz⟩ := h0 x rfl
            rw [hf] at hy'
            cases hy'
            exact ⟨t, (ih t hl').2 h2, by rw [hz]⟩

/-- C26: the columns of a row are converted one by one: a tuple is processed exactly if it has as many items as there are processors and each
item that is not None is converted by the processor at its position; None stays None. -/
theorem C26_process_tuple {β γ : Type} (procs : List (β → Except Err γ)) (tup : List (Option β)) (r : List (Option γ)) :
    processTuple procs tup = .ok r ↔ tup.length = procs.length ∧ r.length = tup.length ∧
      ∀ (j : Nat) (f : β → Except Err γ) (o : Option β), procs[j]? = some f → tup[j]? = some o →
        (o = none → r[j]? = some none) ∧ ∀ x, o = some x → ∃ y, f x = .ok y ∧ r[j]? = some (some y) := by
  unfold processTuple
  by_cases hl : tup.length = procs.length
  · rw [if_neg (by simp [hl]), processLoop_spec procs tup 0 r hl]
    simp [hl]
  · rw [if_pos hl]
    simp [hl]

/-- C26: if it raises, the handler is told the first item that cannot be converted, and why. -/
theorem C26_process_tuple_fault {β γ : Type} (procs : List (β → Except Err γ)) (tup : List (Option β)) (i : Nat) (e : Err)
    (h : processTuple procs tup = .error (.handler e i)) :
    ∃ f x, procs[i]? = some f ∧ tup[i]? = some (some x) ∧ f x = .error e ∧
      ∀ j g y, j < i → procs[j]? = some g → tup[j]? = some (some y) → ∃ z, g y = .ok z := by
  have key : ∀ (procs : List (β → Except Err γ)) (tup : List (Option β)) (s : Nat), processLoop procs tup s = .error (.handler e i) →
      ∃ k f x, i = s + k ∧ procs[k]? = some f ∧ tup[k]? = some (some x) ∧ f x = .error e ∧
        ∀ j g y, j < k → procs[j]? = some g → tup[j]? = some (some y) → ∃ z, g y = .ok z := by
    intro procs
    induction procs with
    | nil => intro tup s h; simp [processLoop] at h
    | cons f procs ih =>
      intro tup s h
      cases tup with
      | nil => simp [processLoop] at h
      | cons o tup =>
        have hrec : ∀ z : Option γ, (processLoop procs tup (s + 1)).map (z :: ·) = .error (.handler e i) → processLoop procs tup (s + 1) = .error (.handler e i) := by
          intro z hz
          cases hp : processLoop procs tup (s + 1) with
          | ok t => rw [hp] at hz; cases hz
          | error e' => rw [hp] at hz; injection hz with hz; rw [hz]
        cases o with
        | none =>
          rw [processLoop] at h
          obtain ⟨k, g, x, e1, e2, e3, e4, e5⟩ := ih tup (s + 1) (hrec _ h)
          refine ⟨k + 1, g, x, by omega, by simpa using e2, by simpa using e3, e4, ?_⟩
          intro j g' y hj h1 h2
          cases j with
          | zero => simp at h2
          | succ j => exact e5 j g' y (by omega) (by simpa using h1) (by simpa using h2)
        | some x =>
          rw [processLoop] at h
          cases hf : f x with
          | error e' =>
            rw [hf] at h
            injection h with h
            injection h with h1 h2
            subst h1 h2
            exact ⟨0, f, x, rfl, rfl, rfl, hf, fun j _ _ hj => by omega⟩
          | ok y =>
            rw [hf] at h
            obtain ⟨k, g, x', e1, e2, e3, e4, e5⟩ := ih tup (s + 1) (hrec _ h)
            refine ⟨k + 1, g, x', by omega, by simpa using e2, by simpa using e3, e4, ?_⟩
            intro j g' y' hj h1 h2
            cases j with
            | zero =>
              simp only [List.getElem?_cons_zero, Option.some.injEq] at h1 h2
              subst h1 h2
              exact ⟨y, hf⟩
            | succ j => exact e5 j g' y' (by omega) (by simpa using h1) (by simpa using h2)
  unfold processTuple at h
  split at h
  · cases h
  · obtain ⟨k, f, x, e1, e2, e3, e4, e5⟩ := key procs tup 0 h
    rw [Nat.zero_add] at e1
    subst e1
    exact ⟨f, x, e2, e3, e4, e5⟩

theorem packed_columns (N : Nat) (fpack : List (α → Except Err Bytes)) (funpack : List (Bytes → Except Err α)) (data : List (Option α))
    (hp : fpack.length = data.length) (hu : funpack.length = data.length)
    (hrt : ∀ (j : Nat) (f : α → Except Err Bytes) (g : Bytes → Except Err α) (x : α), fpack[j]? = some f → funpack[j]? = some g → data[j]? = some (some x) →
      ∃ b, f x = .ok b ∧ g b = .ok x ∧ b.length < N) :
    ∃ t, processTuple fpack data = .ok t ∧ t.length = data.length ∧ ∀ (j : Nat) (o : Option α), data[j]? = some o →
      (o = none → t[j]? = some none) ∧ ∀ x, o = some x → ∃ b g, t[j]? = some (some b) ∧ funpack[j]? = some g ∧ g b = .ok x ∧ b.length < N := by
  cases hpt : processTuple fpack data with
  | error e =>
    exfalso
    cases e with
    | mismatch =>
      unfold processTuple at hpt
      rw [if_neg (by simp [hp])] at hpt
      have : ∀ (procs : List (α → Except Err Bytes)) (tup : List (Option α)) (i : Nat), processLoop procs tup i ≠ .error .mismatch := by
        intro procs
        induction procs with
        | nil => intro tup i h; simp [processLoop] at h
        | cons f procs ih =>
          intro tup i h
          cases tup with
          | nil => simp [processLoop] at h
          | cons o tup =>
            have ih := ih tup (i + 1)
            cases hp : processLoop procs tup (i + 1) with
            | ok t => cases o with
              | none => rw [processLoop, hp] at h; cases h
              | some x => rw [processLoop, hp] at h; cases hf : f x <;> rw [hf] at h <;> cases h
            | error e' =>
              have hne : e' ≠ .mismatch := fun hc => ih (by rw [hp, hc])
              cases o with
              | none => rw [processLoop, hp] at h; injection h with h; exact hne h
              | some x =>
                rw [processLoop, hp] at h
                cases hf : f x with
                | error e'' => rw [hf] at h; injection h with h; cases h
                | ok y => rw [hf] at h; injection h with h; exact hne h
      exact this _ _ _ hpt
    | handler e i =>
      obtain ⟨f, x, h1, h2, h3, _⟩ := C26_process_tuple_fault _ _ _ _ hpt
      have hi : i < funpack.length := by rw [hu]; exact (List.getElem?_eq_some_iff.1 h2).1
      obtain ⟨b, hb, _⟩ := hrt i f _ x h1 (List.getElem?_eq_getElem hi) h2
      rw [h3] at hb
      cases hb
  | ok t =>
    obtain ⟨_, hl, hspec⟩ := (C26_process_tuple _ _ _).1 hpt
    refine ⟨t, rfl, hl, ?_⟩
    intro j o ho
    have hj : j < data.length := (List.getElem?_eq_some_iff.1 ho).1
    have hf : fpack[j]? = some fpack[j] := List.getElem?_eq_getElem (by omega)
    have hg : funpack[j]? = some funpack[j] := List.getElem?_eq_getElem (by omega)
    obtain ⟨s1, s2⟩ := hspec j _ o hf ho
    refine ⟨s1, ?_⟩
    intro x hx
    obtain ⟨b, hb, htj⟩ := s2 x hx
    obtain ⟨b', hb', hgb, hlen⟩ := hrt j _ _ x hf hg (by rw [ho, hx])
    rw [hb] at hb'
    cases hb'
    exact ⟨b, _, htj, hg, hgb, hlen⟩

theorem record_fields (N M : Nat) (typids : List Nat) (funpack : List (Bytes → Except Err α)) (data : List (Option α)) (t : List (Option Bytes))
    (hoid : ∀ t ∈ typids, t < M) (ht2 : t.length = data.length)
    (ht3 : ∀ (j : Nat) (o : Option α), data[j]? = some o →
      (o = none → t[j]? = some none) ∧ ∀ x, o = some x → ∃ b g, t[j]? = some (some b) ∧ funpack[j]? = some g ∧ g b = .ok x ∧ b.length < N)
    (p : Int × Option Bytes) (hpm : p ∈ (typids.map Int.ofNat).zip t) : (∃ n : Nat, p.1 = n ∧ n < M) ∧ ∀ d, p.2 = some d → d.length < N := by
  obtain ⟨j, hj⟩ := List.getElem?_of_mem hpm
  rw [List.getElem?_zip_eq_some] at hj
  refine ⟨?_, ?_⟩
  · have := List.mem_of_getElem? hj.1
    obtain ⟨n, hnm, hne⟩ := List.mem_map.1 this
    exact ⟨n, hne.symm, hoid n hnm⟩
  · intro d hd
    have hjl : j < data.length := by have := (List.getElem?_eq_some_iff.1 hj.2).1; omega
    obtain ⟨s1, s2⟩ := ht3 j _ (List.getElem?_eq_getElem hjl)
    cases hdj : data[j] with
    | none =>
      have := s1 hdj
      rw [hj.2, hd] at this
      cases this
    | some x =>
      obtain ⟨b, g, e1, _, _, e4⟩ := s2 x hdj
      rw [hj.2, hd] at e1
      cases e1
      exact e4

theorem record_fields' (N M : Nat) (K : Int) (hK : (M : Int) = K) (typids : List Nat) (funpack : List (Bytes → Except Err α)) (data : List (Option α)) (t : List (Option Bytes))
    (hoid : ∀ t ∈ typids, t < M) (ht2 : t.length = data.length)
    (ht3 : ∀ (j : Nat) (o : Option α), data[j]? = some o →
      (o = none → t[j]? = some none) ∧ ∀ x, o = some x → ∃ b g, t[j]? = some (some b) ∧ funpack[j]? = some g ∧ g b = .ok x ∧ b.length < N) :
    ∀ p ∈ (typids.map Int.ofNat).zip t, (0 ≤ p.1 ∧ p.1 < K) ∧ ∀ d, p.2 = some d → d.length < N := by
  intro p hpm
  obtain ⟨⟨n, hn, hlt⟩, h2⟩ := record_fields _ _ typids funpack data t hoid ht2 ht3 p hpm
  exact ⟨⟨by omega, by omega⟩, h2⟩

theorem unpacked_columns (N : Nat) (funpack : List (Bytes → Except Err α)) (data : List (Option α)) (t : List (Option Bytes))
    (hu : funpack.length = data.length) (ht2 : t.length = data.length)
    (ht3 : ∀ (j : Nat) (o : Option α), data[j]? = some o →
      (o = none → t[j]? = some none) ∧ ∀ x, o = some x → ∃ b g, t[j]? = some (some b) ∧ funpack[j]? = some g ∧ g b = .ok x ∧ b.length < N) :
    processTuple funpack t = .ok data := by
  rw [C26_process_tuple]
  refine ⟨by omega, by omega, ?_⟩
  intro j f o hf ho
  have hjl : j < data.length := by have := (List.getElem?_eq_some_iff.1 ho).1; omega
  have hdj := List.getElem?_eq_getElem hjl
  obtain ⟨s1, s2⟩ := ht3 j _ hdj
  cases hd : data[j] with
  | none =>
    have := s1 hd
    rw [ho] at this
    cases this
    refine ⟨fun _ => by rw [hdj, hd], fun x hx => by cases hx⟩
  | some x =>
    obtain ⟨b, g, e1, e2, e3, _⟩ := s2 x hd
    rw [ho] at e1
    cases e1
    rw [hf] at e2
    cases e2
    refine ⟨fun h => (by cases h), fun b' hb' => ?_⟩
    cases hb'
    exact ⟨x, e3, by rw [hdj, hd]⟩

theorem liftP_ok {β : Type} (x : β) : liftP (.ok x) = .ok x := rfl
theorem liftW_ok {β : Type} (x : β) : liftW (.ok x) = .ok x := rfl

theorem record_wire_of (N : Nat) (typids : List Nat) (fpack : List (α → Except Err Bytes)) (funpack : List (Bytes → Except Err α)) (attmap : List (κ × Nat))
    (data : List (Option α)) (t : List (Option Bytes)) (ht : typids.length = data.length) (hu : funpack.length = data.length)
    (ht1 : processTuple fpack data = .ok t) (ht2 : t.length = data.length)
    (ht3 : ∀ (j : Nat) (o : Option α), data[j]? = some o →
      (o = none → t[j]? = some none) ∧ ∀ x, o = some x → ∃ b g, t[j]? = some (some b) ∧ funpack[j]? = some g ∧ g b = .ok x ∧ b.length < N)
    (hrt : recordPack ((typids.map Int.ofNat).zip t) = .ok (encs (recordFields ((typids.map Int.ofNat).zip t))) ∧
      recordUnpack (encs (recordFields ((typids.map Int.ofNat).zip t))) = .ok ((typids.map Int.ofNat).zip t)) :
    ∃ wire, packRecord typids fpack data = .ok wire ∧ unpackRecord funpack attmap wire = .ok ⟨data, attmap⟩ := by
  obtain ⟨w1, w2⟩ := hrt
  have hw : packRecord typids fpack data = .ok (encs (recordFields ((typids.map Int.ofNat).zip t))) := by
    unfold packRecord
    rw [ht1, liftP_ok, bind_ok, w1, liftW_ok]
  refine ⟨_, hw, ?_⟩
  generalize encs (recordFields ((typids.map Int.ofNat).zip t)) = wire at w2
  clear hw w1
  unfold unpackRecord
  rw [w2]
  rw [liftW_ok, bind_ok]
  have hsnd : ((typids.map Int.ofNat).zip t).map Prod.snd = t := (zip_fst _ _ (by simp [ht, ht2])).2
  rw [hsnd, unpacked_columns _ funpack data t hu ht2 ht3, liftP_ok, bind_ok]
  rfl

/-- C26: a record sent as a sequence and read back is a row with the same values under the attributes' names, if the values of every column
come back. -/
theorem C26_record_wire (typids : List Nat) (fpack : List (α → Except Err Bytes)) (funpack : List (Bytes → Except Err α)) (attmap : List (κ × Nat))
    (data : List (Option α)) (hn : data.length < 2 ^ 31) (ht : typids.length = data.length) (hoid : ∀ t ∈ typids, t < 2 ^ 32)
    (hp : fpack.length = data.length) (hu : funpack.length = data.length)
    (hrt : ∀ (j : Nat) (f : α → Except Err Bytes) (g : Bytes → Except Err α) (x : α), fpack[j]? = some f → funpack[j]? = some g → data[j]? = some (some x) →
      ∃ b, f x = .ok b ∧ g b = .ok x ∧ b.length < 2 ^ 31) :
    ∃ wire, packRecord typids fpack data = .ok wire ∧ unpackRecord funpack attmap wire = .ok ⟨data, attmap⟩ := by
  obtain ⟨t, ht1, ht2, ht3⟩ := packed_columns _ fpack funpack data hp hu hrt
  have hlz : ((typids.map Int.ofNat).zip t).length = data.length := by simp [ht, ht2]
  have hrec : RecordOk ((typids.map Int.ofNat).zip t) := by
    unfold RecordOk
    rw [hlz]
    exact ⟨hn, record_fields' (2 ^ 31) (2 ^ 32) (2 ^ 32) (by omega) typids funpack data t hoid ht2 ht3⟩
  exact record_wire_of _ typids fpack funpack attmap data t ht hu ht1 ht2 ht3 (PG.Props.Types.C20_record_round_trip _ hrec)

/-- C26: a record given as a `dict` is packed in the order of the attributes; missing attributes are NULL. -/
theorem C26_record_dict (n : Nat) (typids : List Nat) (fpack : List (α → Except Err Bytes)) (attmap : List (κ × Nat)) (data : List (κ × Option α))
    (h : Names n attmap) : ∃ seq : List (Option α), seq.length = n ∧ packRecordDict typids fpack attmap data = packRecord typids fpack seq ∧
      ∀ k i, (k, i) ∈ attmap → seq[i]? = some (lookup k data).join := by
  refine ⟨(byPosition attmap).map fun e => (lookup e.1 data).join, ?_, rfl, ?_⟩
  · have := congrArg List.length (byPosition_snd h.2)
    simpa using this
  · intro k i hk
    have := (byPosition_get h).2 hk
    rw [List.getElem?_map] at this ⊢
    rw [Option.map_eq_some_iff] at this
    obtain ⟨e, he, rfl⟩ := this
    rw [he]
    rfl

/-- A concrete case. -/
example : Names 2 [("b", 1), ("a", 0)] ∧ columnNames (⟨[10, 20], [("b", 1), ("a", 0)]⟩ : Row String Nat) = ["a", "b"] ∧
    (transform (⟨[10, 20], [("b", 1), ("a", 0)]⟩ : Row String Nat) [some fun x => .ok (x + 1)] [("b", some fun x => .ok (x * 2))]).toOption.map Row.vals = some [11, 40] := by
  refine ⟨⟨by decide, ?_⟩, by simp [columnNames, byPosition, List.mergeSort, List.MergeSort.Internal.splitInTwo], by decide +kernel⟩
  exact List.Perm.swap 0 1 []

end PG.Props.Row
