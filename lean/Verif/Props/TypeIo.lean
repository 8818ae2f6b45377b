import Verif.Proofs.TypeIo
/-! # C50: I/O routines of types, formats of parameters and columns -/
namespace PG.TypeIo
open PG.Spec.TypeIo

/-- The cache after some types were used, whether that raised or not. `depth` is a bound of the depth of the recursion. -/
def used (env : Env) (depth : Nat) (ts : List Nat) : Cache := ts.foldl (fun c t => (resolve env depth [] c t).2) initialCache

theorem initial_get (t : Nat) : Cache.get initialCache t = if t ∈ initialOids then some (.str t) else none := by
  have key : ∀ l : List Nat, Cache.get (l.map fun t => (t, Io.str t)) t = if t ∈ l then some (.str t) else none := by
    intro l
    induction l with
    | nil => rfl
    | cons a l ih =>
      rw [List.map_cons, Cache.get, ih]
      by_cases h : a = t
      · subst h; simp
      · have : t ≠ a := fun e => h e.symm
        simp [h, this]
  exact key initialOids

theorem initial_right (env : Env) : Right env initialCache := by
  refine ⟨fun t io h => ?_, fun t h => ?_⟩
  · rw [initial_get] at h
    split at h
    · rename_i ht; cases h; exact ⟨1, .initial ht⟩
    · cases h
  · rw [initial_get, if_pos h]; rfl

theorem used_right (env : Env) (depth : Nat) (ts : List Nat) : Right env (used env depth ts) := by
  unfold used
  have key : ∀ (ts : List Nat) (c : Cache), Right env c → Right env (ts.foldl (fun c t => (resolve env depth [] c t).2) c) := by
    intro ts
    induction ts with
    | nil => intro c h; exact h
    | cons t ts ih => intro c h; exact ih _ (resolve_sound depth [] c t h).1
  exact key ts _ (initial_right env)

/-- **C50 (resolution).** A finite catalog, any types used before: resolving a type ends; it gives the routines of the type if there are any, and "already being looked up" if the type contains itself. -/
theorem C50_resolve (env : Env) (ids : List Nat) (hfin : ∀ t, env.cat t ≠ none → t ∈ ids) (ts : List Nat) (t : Nat) :
    let r := (resolve env (ids.length + 1) [] (used env (ids.length + 1) ts) t).1
    (∀ io, r = .ok io ↔ ∃ n, Is env n t io) ∧ ((¬ ∃ n io, Is env n t io) ↔ r = .error .typeError) := by
  have hr := used_right env (ids.length + 1) ts
  have hend := resolve_ends hfin (ids.length + 1) [] (used env (ids.length + 1) ts) t (by simp) (by simp) (by simp)
  have hsound := (resolve_sound (ids.length + 1) [] (used env (ids.length + 1) ts) t hr).2
  have hcomp : ∀ n io, Is env n t io → (resolve env (ids.length + 1) [] (used env (ids.length + 1) ts) t).1 = .ok io := by
    intro n io h
    rcases resolve_complete n (ids.length + 1) [] (used env (ids.length + 1) ts) t io (by simp) hr h with h | h
    · exact h
    · exact absurd h hend
  refine ⟨fun io => ⟨fun h => hsound io h, fun ⟨n, h⟩ => hcomp n io h⟩, fun h => ?_, fun h => ?_⟩
  · cases hres : (resolve env (ids.length + 1) [] (used env (ids.length + 1) ts) t).1 with
    | ok io => obtain ⟨n, hn⟩ := hsound io hres; exact absurd ⟨n, io, hn⟩ h
    | error e =>
      cases e with
      | typeError => rfl
      | recursion => exact absurd hres hend
  · rintro ⟨n, io, hi⟩
    rw [hcomp n io hi] at h
    cases h

/-- **C50 (history).** The routines used for a type do not depend on the types used before. -/
theorem C50_history (env : Env) (ids : List Nat) (hfin : ∀ t, env.cat t ≠ none → t ∈ ids) (ts ts' : List Nat) (t : Nat) :
    (resolve env (ids.length + 1) [] (used env (ids.length + 1) ts) t).1 = (resolve env (ids.length + 1) [] (used env (ids.length + 1) ts') t).1 := by
  obtain ⟨h1, h2⟩ := C50_resolve env ids hfin ts t
  obtain ⟨k1, k2⟩ := C50_resolve env ids hfin ts' t
  cases hr : (resolve env (ids.length + 1) [] (used env (ids.length + 1) ts) t).1 with
  | ok io => exact ((k1 io).mpr ((h1 io).mp hr)).symm
  | error e =>
    have he : (resolve env (ids.length + 1) [] (used env (ids.length + 1) ts) t).1 = .error .typeError := by
      apply h2.mp
      rintro ⟨n, io, hi⟩
      have := (h1 io).mpr ⟨n, hi⟩
      rw [hr] at this
      cases this
    rw [← hr, he]
    exact (k2.mp (h2.mpr he)).symm

/-- A catalog: a composite type 100 of a text, a domain over an int and an array of text; its array type 101; a domain 102 over int4; a type 103 that is not known to the driver. -/
def demoEnv : Env where
  cat := fun t => if t = 100 then some (.composite [(25, false), (102, true), (1009, false)]) else if t = 101 then some (.array 100 true true) else if t = 102 then some .domain else if t = 103 then some .other else if t = 1009 then some (.array 25 true true) else none
  base := fun t => if t = 102 then 23 else t
  builtin := fun t => t = 23

theorem demo_finite : ∀ t, demoEnv.cat t ≠ none → t ∈ [100, 101, 102, 103, 1009] := by
  intro t h
  simp only [demoEnv] at h
  split at h
  · simp_all
  · split at h
    · simp_all
    · split at h
      · simp_all
      · split at h
        · simp_all
        · split at h
          · simp_all
          · exact absurd rfl h

example : (resolve demoEnv 6 [] (used demoEnv 6 [103, 1009]) 101).1 = .ok (.array 101 (.record 100 [.str 25, .builtin 23, .array 1009 (.str 25) true true]) true true) := by rfl

/-- **C50 (domains).** A domain has the routines of its base type. -/
theorem C50_domain (env : Env) (ids : List Nat) (hfin : ∀ t, env.cat t ≠ none → t ∈ ids) (ts : List Nat) (t : Nat) (h1 : t ∉ initialOids) (h2 : env.builtin t = false) (h3 : env.cat t = some .domain) :
    ∀ io, (resolve env (ids.length + 1) [] (used env (ids.length + 1) ts) t).1 = .ok io ↔ (resolve env (ids.length + 1) [] (used env (ids.length + 1) ts) (env.base t)).1 = .ok io := by
  intro io
  rw [(C50_resolve env ids hfin ts t).1, (C50_resolve env ids hfin ts (env.base t)).1]
  constructor
  · rintro ⟨n, h⟩
    cases h with
    | initial k => contradiction
    | builtin _ k => rw [h2] at k; cases k
    | unknown _ _ k => rw [h3] at k; cases k
    | other _ _ k => rw [h3] at k; cases k
    | anonymous _ _ k => rw [h3] at k; cases k
    | domain _ _ _ k => exact ⟨_, k⟩
    | array _ _ k _ => rw [h3] at k; cases k
    | composite _ _ k _ => rw [h3] at k; cases k
  · rintro ⟨n, h⟩
    exact ⟨n + 1, .domain h1 h2 h3 h⟩

example : (resolve demoEnv 6 [] (used demoEnv 6 []) 102).1 = .ok (.builtin 23) := by rfl

/-- Finding: a type that contains itself cannot be used at all, whatever was used before. PostgreSQL allows a table with a column that is an array of its own row type. -/
theorem C50_recursive_type (env : Env) (ids : List Nat) (hfin : ∀ t, env.cat t ≠ none → t ∈ ids) (ts : List Nat) (t : Nat) (h : Below env t t) :
    (resolve env (ids.length + 1) [] (used env (ids.length + 1) ts) t).1 = .error .typeError :=
  (C50_resolve env ids hfin ts t).2.mp fun ⟨n, io, hi⟩ => below_self h n io hi

/-- A tree: a composite type 200 of an int and an array of itself, 201. -/
def treeEnv : Env where
  cat := fun t => if t = 200 then some (.composite [(23, false), (201, false)]) else if t = 201 then some (.array 200 true true) else none
  base := id
  builtin := fun t => t = 23

example : Below treeEnv 200 200 := .more (t := 201) (.step ⟨by decide, rfl, .inl ⟨_, (201, false), rfl, by simp, rfl⟩⟩) ⟨by decide, rfl, .inr (.inl ⟨true, true, rfl⟩)⟩
example : (resolve treeEnv 3 [] (used treeEnv 3 []) 200).1 = .error .typeError := by rfl

/-! ## Formats -/

/-- **C50 (columns).** A column is asked for in the format that its routine reads: as text if it is decoded as text; in the binary format otherwise, and then, if what is inside of arrays and records can be read in the binary format, so can it. -/
theorem C50_output_partial (textual : Nat → Prop) (io : Io) (h : ∀ x ∈ inside io, BinaryOut textual x) : (outputFormat io = .text ∧ io.unpacks = false) ∨ (outputFormat io = .binary ∧ BinaryOut textual io) := by
  unfold outputFormat
  cases io with
  | str t => exact .inl ⟨rfl, rfl⟩
  | builtin t => exact .inr ⟨rfl, .builtin⟩
  | anonymous t => exact .inr ⟨rfl, .anonymous⟩
  | record t ios => exact .inr ⟨rfl, .record h⟩
  | array t io i o =>
    cases o with
    | true => exact .inr ⟨rfl, .array (h io (by simp [inside]))⟩
    | false => exact .inl ⟨rfl, rfl⟩

example : outputFormat (.array 1009 (.str 25) true true) = .binary ∧ BinaryOut (· = 25) (.array 1009 (.str 25) true true) := ⟨rfl, .array (.str rfl)⟩

/-- **C50 (parameters).** A parameter is declared to be in the binary format, always. That is right if the bytes made by packing are binary: for types with a packer, and for those whose binary format is the text. -/
theorem C50_input_partial (textual : Nat → Prop) (t : Nat) (io : Io) (h : BinaryIn textual io) : RightIn textual io (inputFormat (some t) io) := h

/-- **C50 (packers).** The types without a packer are those whose values are encoded as text. -/
theorem C50_packs (io : Io) : io.packs = false ↔ Texts io := by
  cases io <;> simp [Io.packs, Texts]

/-- Finding: parameters of all other types without a packer are encoded as text and declared as binary. -/
theorem C50_input_wrong (textual : Nat → Prop) (t : Nat) (io : Io) (h : Texts io) (ht : ∀ u, io = .str u → ¬ textual u) : ¬ RightIn textual io (inputFormat (some t) io) := by
  intro hr
  cases hr with
  | str hu => exact ht _ rfl hu
  | builtin => cases h
  | array _ => cases h
  | record _ => cases h

/-- The types whose binary format is the text among those that are strings from the beginning: name, bpchar, varchar, cstring, text. The others are `aclitem`, which has no binary format, and the `reg...` types, whose binary format is a four-byte number. -/
def textOids : List Nat := [19, 1042, 1043, 2275, 25]

/-- So a `regclass` parameter, say, is always sent wrongly: as text that the server reads as a number. (A text of four characters is taken without an error.) -/
theorem C50_regclass (env : Env) (ids : List Nat) (hfin : ∀ t, env.cat t ≠ none → t ∈ ids) (ts : List Nat) : ∀ t ∈ [1033, 2206, 24, 2202, 2203, 2204, 2205], ∃ io,
    (resolve env (ids.length + 1) [] (used env (ids.length + 1) ts) t).1 = .ok io ∧ ¬ RightIn (· ∈ textOids) io (inputFormat (some t) io) := by
  intro t ht
  refine ⟨.str t, ((C50_resolve env ids hfin ts t).1 _).mpr ⟨1, .initial ?_⟩, C50_input_wrong _ t _ trivial ?_⟩
  · revert ht t; decide
  · rintro u e
    cases e
    revert ht t; decide

/-- Inside of an array the mistake is made in both directions: `regclass[]` (2210) is asked for in the binary format, and its elements are decoded as text. -/
theorem C50_regclass_array : let io := Io.array 2210 (.str 2205) true true
    outputFormat io = .binary ∧ ¬ BinaryOut (· ∈ textOids) io ∧ ¬ RightIn (· ∈ textOids) io (inputFormat (some 2210) io) := by
  refine ⟨rfl, fun h => ?_, fun h => ?_⟩
  · cases h with | array h => cases h with | str h => revert h; decide
  · cases h with | array h => cases h with | str h => revert h; decide

end PG.TypeIo
