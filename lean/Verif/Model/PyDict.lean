import Verif.Model.Py
/-!
# Python dictionaries

A dictionary is the list of its items, in the order of first insertion.
-/
namespace PG.PyDict
variable {κ β : Type} [DecidableEq κ]

/-- `d.get(k)`. -/
def get (k : κ) (d : List (κ × β)) : Option β := (d.find? fun e => e.1 = k).map Prod.snd

/-- `d[k] = v`. -/
def set (k : κ) (v : β) : List (κ × β) → List (κ × β)
  | [] => [(k, v)]
  | e :: d => if e.1 = k then (k, v) :: d else e :: set k v d

/-- `del d[k]`, when there is one. -/
def erase (k : κ) (d : List (κ × β)) : List (κ × β) := d.filter fun e => e.1 ≠ k

theorem get_nil (k : κ) : get k ([] : List (κ × β)) = none := rfl

theorem get_cons (k : κ) (e : κ × β) (d : List (κ × β)) : get k (e :: d) = if e.1 = k then some e.2 else get k d := by
  unfold get
  rw [List.find?_cons]
  by_cases h : e.1 = k <;> simp [h]

theorem get_set (k k' : κ) (v : β) : ∀ d : List (κ × β), get k' (set k v d) = if k = k' then some v else get k' d
  | [] => by simp [set, get_cons, get_nil]
  | e :: d => by
    rw [set]
    by_cases h : e.1 = k
    · rw [if_pos h, get_cons, get_cons]
      by_cases h2 : k = k'
      · simp [h2]
      · rw [if_neg h2, if_neg h2, if_neg (by rw [h]; exact h2)]
    · rw [if_neg h, get_cons, get_cons, get_set k k' v d]
      by_cases h3 : e.1 = k'
      · rw [if_pos h3, if_pos h3, if_neg]; rintro rfl; exact h h3
      · rw [if_neg h3, if_neg h3]

theorem get_erase (k k' : κ) : ∀ d : List (κ × β), get k' (erase k d) = if k = k' then none else get k' d
  | [] => by simp [erase, get_nil]
  | e :: d => by
    have ih := get_erase k k' d
    unfold erase at ih ⊢
    by_cases h : e.1 = k
    · rw [List.filter_cons_of_neg (by simpa using h), ih, get_cons]
      by_cases h2 : k = k'
      · simp [h2]
      · rw [if_neg h2, if_neg h2, if_neg (by rw [h]; exact h2)]
    · rw [List.filter_cons_of_pos (by simpa using h), get_cons, get_cons, ih]
      by_cases h3 : e.1 = k'
      · rw [if_pos h3, if_pos h3, if_neg]; rintro rfl; exact h h3
      · rw [if_neg h3, if_neg h3]

theorem get_append (k : κ) : ∀ (a b : List (κ × β)), get k (a ++ b) = match get k a with | some v => some v | none => get k b
  | [], b => rfl
  | e :: a, b => by
    rw [List.cons_append, get_cons, get_cons, get_append k a b]
    by_cases h : e.1 = k <;> simp [h]

theorem get_mem {k : κ} {v : β} {d : List (κ × β)} (h : get k d = some v) : (k, v) ∈ d := by
  unfold get at h
  rw [Option.map_eq_some_iff] at h
  obtain ⟨e, he, rfl⟩ := h
  have := List.find?_some he
  simp at this
  rw [← this]
  exact List.mem_of_find?_eq_some he

theorem get_none {k : κ} {d : List (κ × β)} : get k d = none ↔ ∀ e ∈ d, e.1 ≠ k := by
  unfold get
  simp

/-- With distinct keys, an item is found under its key. -/
theorem get_of_mem {k : κ} {v : β} : ∀ {d : List (κ × β)}, (d.map Prod.fst).Nodup → (k, v) ∈ d → get k d = some v
  | e :: d, hn, h => by
    rw [List.map_cons, List.nodup_cons] at hn
    rw [get_cons]
    rcases List.mem_cons.mp h with h | h
    · subst h; simp
    · rw [if_neg, get_of_mem hn.2 h]
      rintro rfl
      exact hn.1 (List.mem_map.mpr ⟨(e.1, v), h, rfl⟩)

end PG.PyDict
