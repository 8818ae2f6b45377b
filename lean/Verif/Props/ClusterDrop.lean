import Verif.Model.ClusterDrop
/-!
# C64: removing the files of a cluster
-/
namespace PG.Props.ClusterDrop
open PG PG.ClusterDrop

/-! ## Specification -/

/-- The names of the entries of a directory. -/
def names : Tree → List Str
  | .nil => []
  | .file n t => n :: names t
  | .dirLink n t => n :: names t
  | .dir n _ t => n :: names t

/-- No directory has two entries of the same name. -/
def Distinct : Tree → Prop
  | .nil => True
  | .file n t => n ∉ names t ∧ Distinct t
  | .dirLink n t => n ∉ names t ∧ Distinct t
  | .dir n s t => n ∉ names t ∧ Distinct s ∧ Distinct t

/-- A file system in which the directory `p` has the entries `t`, and `out` is what there is outside of it. -/
def With (out : Fs) (p : Path) (t : Tree) : Fs := out ++ (p, .dir) :: flatten p t

/-- There is nothing of a directory outside of it. -/
def Outside (out : Fs) (p : Path) : Prop := ∀ e ∈ out, ¬ p <+: e.1

/-- Nowhere below is there a link to a directory. -/
def NoLinks (p : Path) (t : Tree) : Prop := ∀ q, (q, Kind.dirLink) ∉ flatten p t

/-! ## Lemmas -/

theorem flatten_below {p : Path} {t : Tree} : ∀ {e : Path × Kind}, e ∈ flatten p t → ∃ n ∈ names t, p ++ [n] <+: e.1 := by
  induction t generalizing p with
  | nil => intro e h; cases h
  | file n t ih =>
    intro e h
    rcases List.mem_cons.mp h with rfl | h
    · exact ⟨n, List.mem_cons_self .., List.prefix_rfl⟩
    · obtain ⟨m, h1, h2⟩ := ih h; exact ⟨m, List.mem_cons_of_mem _ h1, h2⟩
  | dirLink n t ih =>
    intro e h
    rcases List.mem_cons.mp h with rfl | h
    · exact ⟨n, List.mem_cons_self .., List.prefix_rfl⟩
    · obtain ⟨m, h1, h2⟩ := ih h; exact ⟨m, List.mem_cons_of_mem _ h1, h2⟩
  | dir n s t ihs iht =>
    intro e h
    rcases List.mem_cons.mp h with rfl | h
    · exact ⟨n, List.mem_cons_self .., List.prefix_rfl⟩
    · rcases List.mem_append.mp h with h | h
      · obtain ⟨m, _, h2⟩ := ihs h
        exact ⟨n, List.mem_cons_self .., (List.prefix_append _ _).trans h2⟩
      · obtain ⟨m, h1, h2⟩ := iht h; exact ⟨m, List.mem_cons_of_mem _ h1, h2⟩

theorem flatten_prefix {p : Path} {t : Tree} {e : Path × Kind} (h : e ∈ flatten p t) : p <+: e.1 ∧ p.length < e.1.length := by
  obtain ⟨n, _, h⟩ := flatten_below h
  refine ⟨(List.prefix_append _ _).trans h, ?_⟩
  have := h.length_le
  simp at this; omega

/-- The paths of a list of calls. -/
def paths (l : List Act) : List Path := l.map Act.path

/-- The calls for what lies below the entries of a directory. -/
def inner (p : Path) (t : Tree) : List Act := (subs p t).flatMap visit

theorem inner_dir (p : Path) (n : Str) (s t : Tree) : inner p (.dir n s t) = inner (p ++ [n]) s ++ visit (p ++ [n], dirs s, files s) ++ inner p t := by
  unfold inner
  show (subs (p ++ [n]) s ++ (p ++ [n], dirs s, files s) :: subs p t).flatMap visit = _
  rw [List.flatMap_append, List.flatMap_cons, List.append_assoc]

theorem removal_eq (p : Path) (t : Tree) : removal p t = inner p t ++ visit (p, dirs t, files t) ++ [.rmdir p] := by
  unfold removal walk inner
  rw [List.flatMap_append, List.flatMap_cons]
  simp

theorem mem_visit {p : Path} {t : Tree} {q : Path} : q ∈ paths (visit (p, dirs t, files t)) ↔ ∃ n ∈ names t, q = p ++ [n] := by
  have key : q ∈ paths (visit (p, dirs t, files t)) ↔ ∃ n, (n ∈ files t ∨ n ∈ dirs t) ∧ q = p ++ [n] := by
    unfold paths visit
    rw [List.map_append, List.mem_append, List.map_map, List.map_map, List.mem_map, List.mem_map]
    constructor
    · rintro (⟨n, h, rfl⟩ | ⟨n, h, rfl⟩)
      · exact ⟨n, .inl h, rfl⟩
      · exact ⟨n, .inr h, rfl⟩
    · rintro ⟨n, h | h, rfl⟩
      · exact .inl ⟨n, h, rfl⟩
      · exact .inr ⟨n, h, rfl⟩
  have split : ∀ n, (n ∈ files t ∨ n ∈ dirs t) ↔ n ∈ names t := by
    intro n
    clear key
    induction t with
    | nil => simp [files, dirs, names]
    | file m t ih => simp only [files, dirs, names, List.mem_cons, ← ih]; exact or_assoc
    | dirLink m t ih => simp only [files, dirs, names, List.mem_cons, ← ih]; exact or_left_comm
    | dir m s t _ ih => simp only [files, dirs, names, List.mem_cons, ← ih]; exact or_left_comm
  rw [key]
  constructor
  · rintro ⟨n, h, e⟩; exact ⟨n, (split n).mp h, e⟩
  · rintro ⟨n, h, e⟩; exact ⟨n, (split n).mpr h, e⟩

/-- The first level of a tree. -/
theorem mem_top {p : Path} {t : Tree} {n : Str} (h : n ∈ names t) : ∃ k, (p ++ [n], k) ∈ flatten p t := by
  induction t with
  | nil => cases h
  | file m t ih =>
    rcases List.mem_cons.mp h with rfl | h
    · exact ⟨_, List.mem_cons_self ..⟩
    · obtain ⟨k, hk⟩ := ih h; exact ⟨k, List.mem_cons_of_mem _ hk⟩
  | dirLink m t ih =>
    rcases List.mem_cons.mp h with rfl | h
    · exact ⟨_, List.mem_cons_self ..⟩
    · obtain ⟨k, hk⟩ := ih h; exact ⟨k, List.mem_cons_of_mem _ hk⟩
  | dir m s t _ ih =>
    rcases List.mem_cons.mp h with rfl | h
    · exact ⟨_, List.mem_cons_self ..⟩
    · obtain ⟨k, hk⟩ := ih h; exact ⟨k, List.mem_cons_of_mem _ (List.mem_append_right _ hk)⟩

/-- The calls for what lies below the entries name just that. -/
theorem mem_inner {p : Path} {t : Tree} {q : Path} : q ∈ paths (inner p t) ↔ (∃ k, (q, k) ∈ flatten p t) ∧ p.length + 1 < q.length := by
  induction t generalizing p with
  | nil => exact ⟨fun h => (by cases h), fun h => (by obtain ⟨⟨k, h⟩, _⟩ := h; cases h)⟩
  | file n t ih =>
    show q ∈ paths (inner p t) ↔ _
    rw [ih]
    constructor
    · rintro ⟨⟨k, h⟩, l⟩; exact ⟨⟨k, List.mem_cons_of_mem _ h⟩, l⟩
    · rintro ⟨⟨k, h⟩, l⟩
      rcases List.mem_cons.mp h with h | h
      · cases h; simp at l
      · exact ⟨⟨k, h⟩, l⟩
  | dirLink n t ih =>
    show q ∈ paths (inner p t) ↔ _
    rw [ih]
    constructor
    · rintro ⟨⟨k, h⟩, l⟩; exact ⟨⟨k, List.mem_cons_of_mem _ h⟩, l⟩
    · rintro ⟨⟨k, h⟩, l⟩
      rcases List.mem_cons.mp h with h | h
      · cases h; simp at l
      · exact ⟨⟨k, h⟩, l⟩
  | dir n s t ihs iht =>
    rw [inner_dir]
    unfold paths
    rw [List.map_append, List.map_append, List.mem_append, List.mem_append]
    show ((q ∈ paths _ ∨ q ∈ paths _) ∨ q ∈ paths _) ↔ _
    rw [ihs, iht, mem_visit]
    constructor
    · rintro ((⟨⟨k, h⟩, l⟩ | ⟨m, h, rfl⟩) | ⟨⟨k, h⟩, l⟩)
      · refine ⟨⟨k, List.mem_cons_of_mem _ (List.mem_append_left _ h)⟩, ?_⟩
        simp at l; omega
      · obtain ⟨k, hk⟩ := mem_top (p := p ++ [n]) h
        refine ⟨⟨k, List.mem_cons_of_mem _ (List.mem_append_left _ hk)⟩, ?_⟩
        simp
      · exact ⟨⟨k, List.mem_cons_of_mem _ (List.mem_append_right _ h)⟩, l⟩
    · rintro ⟨⟨k, h⟩, l⟩
      rcases List.mem_cons.mp h with h | h
      · cases h; simp at l
      · rcases List.mem_append.mp h with h | h
        · by_cases g : (p ++ [n]).length + 1 < q.length
          · exact .inl (.inl ⟨⟨k, h⟩, g⟩)
          · obtain ⟨m, hm, hp⟩ := flatten_below h
            refine .inl (.inr ⟨m, hm, ?_⟩)
            have hp : p ++ [n] ++ [m] <+: q := hp
            exact (hp.eq_of_length (by have := hp.length_le; simp at this g ⊢; omega)).symm
        · exact .inr ⟨⟨k, h⟩, l⟩

/-- The calls name the directory and all that is in it, nothing else. -/
theorem mem_removal {p : Path} {t : Tree} {q : Path} : q ∈ paths (removal p t) ↔ q = p ∨ ∃ k, (q, k) ∈ flatten p t := by
  rw [removal_eq]
  unfold paths
  rw [List.map_append, List.map_append, List.mem_append, List.mem_append]
  show ((q ∈ paths _ ∨ q ∈ paths _) ∨ q ∈ [p]) ↔ _
  rw [mem_inner, mem_visit, List.mem_singleton]
  constructor
  · rintro ((⟨h, _⟩ | ⟨n, h, rfl⟩) | h)
    · exact .inr h
    · exact .inr (mem_top h)
    · exact .inl h
  · rintro (h | ⟨k, h⟩)
    · exact .inr h
    · by_cases g : p.length + 1 < q.length
      · exact .inl (.inl ⟨⟨k, h⟩, g⟩)
      · obtain ⟨m, hm, hp⟩ := flatten_below h
        refine .inl (.inr ⟨m, hm, ?_⟩)
        have hp : p ++ [m] <+: q := hp
        exact (hp.eq_of_length (by have := hp.length_le; simp at this g ⊢; omega)).symm

/-- One call removes at most its own path. -/
theorem step_keeps {fs fs' : Fs} {a : Act} (h : step fs a = .ok fs') : fs' = without fs a.path := by
  cases a with
  | remove p =>
    have h : ClusterDrop.remove fs p = .ok fs' := h
    unfold ClusterDrop.remove at h
    cases hk : kindOf fs p with
    | none => rw [hk] at h; cases h
    | some k => rw [hk] at h; cases k <;> cases h <;> rfl
  | rmdir p =>
    have h : ClusterDrop.rmdir fs p = .ok fs' := h
    unfold ClusterDrop.rmdir at h
    cases hk : kindOf fs p with
    | none => rw [hk] at h; cases h
    | some k =>
      rw [hk] at h
      cases k with
      | dir =>
        dsimp only at h
        split at h
        · cases h
        · cases h; rfl
      | _ => cases h

theorem exec_keeps {l : List Act} : ∀ {fs : Fs} {e : Path × Kind}, e.1 ∉ paths l → (e ∈ (exec fs l).1 ↔ e ∈ fs) := by
  induction l with
  | nil => intro fs e _; exact Iff.rfl
  | cons a l ih =>
    intro fs e he
    have h1 : e.1 ≠ a.path := fun h => he (h ▸ List.mem_cons_self ..)
    have h2 : e.1 ∉ paths l := fun h => he (List.mem_cons_of_mem _ h)
    show e ∈ (match step fs a with | .ok fs' => exec fs' l | .error x => (fs, some x)).1 ↔ _
    cases hs : step fs a with
    | error x => exact Iff.rfl
    | ok fs' =>
      show e ∈ (exec fs' l).1 ↔ _
      rw [ih h2, step_keeps hs]
      unfold without
      rw [List.mem_filter]
      simp [h1]

theorem same {p : Path} {n m : Str} {q : Path} (h : p ++ [n] <+: q) (g : p ++ [m] <+: q) : n = m := by
  have e : p ++ [n] <+: p ++ [m] := List.prefix_of_prefix_length_le h g (by simp)
  have e := e.eq_of_length (by simp)
  simpa using e

theorem lone {p : Path} {n : Str} {t : Tree} {q : Path} {k : Kind} (hn : n ∉ names t) (hq : p ++ [n] <+: q) : (q, k) ∉ flatten p t := by
  intro h
  obtain ⟨m, hm, hp⟩ := flatten_below h
  exact hn (same hq hp ▸ hm)

/-- In a tree a path has one kind. -/
theorem functional {t : Tree} : ∀ {p q : Path} {k k' : Kind}, Distinct t → (q, k) ∈ flatten p t → (q, k') ∈ flatten p t → k = k' := by
  induction t with
  | nil => intro p q k k' _ h; cases h
  | file n t ih =>
    intro p q k k' d h h'
    rcases List.mem_cons.mp h with h | h
    · rcases List.mem_cons.mp h' with h' | h'
      · cases h; cases h'; rfl
      · cases h; exact absurd h' (lone d.1 List.prefix_rfl)
    · rcases List.mem_cons.mp h' with h' | h'
      · cases h'; exact absurd h (lone d.1 List.prefix_rfl)
      · exact ih d.2 h h'
  | dirLink n t ih =>
    intro p q k k' d h h'
    rcases List.mem_cons.mp h with h | h
    · rcases List.mem_cons.mp h' with h' | h'
      · cases h; cases h'; rfl
      · cases h; exact absurd h' (lone d.1 List.prefix_rfl)
    · rcases List.mem_cons.mp h' with h' | h'
      · cases h'; exact absurd h (lone d.1 List.prefix_rfl)
      · exact ih d.2 h h'
  | dir n s t ihs iht =>
    intro p q k k' d h h'
    have own : ∀ {q : Path} {k : Kind}, (q, k) ∈ flatten (p ++ [n]) s → p ++ [n] <+: q := fun h => (flatten_prefix h).1
    have proper : ∀ {k : Kind}, (p ++ [n], k) ∉ flatten (p ++ [n]) s := fun h => Nat.lt_irrefl _ (flatten_prefix h).2
    rcases List.mem_cons.mp h with h | h
    · rcases List.mem_cons.mp h' with h' | h'
      · cases h; cases h'; rfl
      · cases h
        rcases List.mem_append.mp h' with h' | h'
        · exact absurd h' proper
        · exact absurd h' (lone d.1 List.prefix_rfl)
    · rcases List.mem_cons.mp h' with h' | h'
      · cases h'
        rcases List.mem_append.mp h with h | h
        · exact absurd h proper
        · exact absurd h (lone d.1 List.prefix_rfl)
      · rcases List.mem_append.mp h with h | h
        · rcases List.mem_append.mp h' with h' | h'
          · exact ihs d.2.1 h h'
          · exact absurd h' (lone d.1 (own h))
        · rcases List.mem_append.mp h' with h' | h'
          · exact absurd h (lone d.1 (own h'))
          · exact iht d.2.2 h h'

/-- What is left once paths are gone. -/
def left (F : Fs) (done : List Path) : Fs := F.filter fun e => ! done.contains e.1

theorem mem_left {F : Fs} {done : List Path} {e : Path × Kind} : e ∈ left F done ↔ e ∈ F ∧ e.1 ∉ done := by
  unfold left
  rw [List.mem_filter]
  simp

theorem kindOf_left {F : Fs} {done : List Path} {q : Path} {k : Kind} (h1 : (q, k) ∈ F) (h2 : ∀ k', (q, k') ∈ F → k' = k) (h3 : q ∉ done) :
    kindOf (left F done) q = some k := by
  unfold kindOf
  cases hf : (left F done).find? fun e => e.1 = q with
  | none =>
    rw [List.find?_eq_none] at hf
    exact absurd (decide_eq_true rfl) (hf (q, k) (mem_left.mpr ⟨h1, h3⟩))
  | some e =>
    obtain ⟨a, b⟩ := e
    have hm := (mem_left.mp (List.mem_of_find?_eq_some hf)).1
    have he := List.find?_some hf
    have he : a = q := by simpa using he
    rw [he] at hm
    rw [← h2 b hm]
    rfl

theorem without_left {F : Fs} {done : List Path} {q : Path} : without (left F done) q = left F (done ++ [q]) := by
  unfold without left
  rw [List.filter_filter]
  apply List.filter_congr
  intro e _
  by_cases h : e.1 = q <;> simp [h]

/-- A call can be made when the paths `done` are gone. -/
def Possible (F : Fs) (done : List Path) : Act → Prop
  | .remove q => q ∉ done ∧ (q, .file) ∈ F ∧ ∀ k, (q, k) ∈ F → k = .file
  | .rmdir q => q ∉ done ∧ (q, .dir) ∈ F ∧ (∀ k, (q, k) ∈ F → k = .dir) ∧ ∀ e ∈ F, below q e.1 = true → e.1 ∈ done

def Valid (F : Fs) : List Path → List Act → Prop
  | _, [] => True
  | done, a :: l => Possible F done a ∧ Valid F (done ++ [a.path]) l

theorem valid_append {F : Fs} {l m : List Act} : ∀ {done : List Path}, Valid F done l → Valid F (done ++ paths l) m → Valid F done (l ++ m) := by
  induction l with
  | nil => intro done _ h; simpa [paths] using h
  | cons a l ih =>
    intro done h g
    refine ⟨h.1, ih h.2 ?_⟩
    have e : done ++ [a.path] ++ paths l = done ++ paths (a :: l) := by simp [paths]
    rw [e]; exact g

theorem step_possible {F : Fs} {done : List Path} {a : Act} (h : Possible F done a) : step (left F done) a = .ok (left F (done ++ [a.path])) := by
  cases a with
  | remove q =>
    obtain ⟨h1, h2, h3⟩ := h
    show ClusterDrop.remove (left F done) q = _
    unfold ClusterDrop.remove
    rw [kindOf_left h2 h3 h1]
    show Except.ok _ = _
    rw [without_left]; rfl
  | rmdir q =>
    obtain ⟨h1, h2, h3, h4⟩ := h
    show ClusterDrop.rmdir (left F done) q = _
    unfold ClusterDrop.rmdir
    rw [kindOf_left h2 h3 h1]
    dsimp only
    have none : ((left F done).any fun e => below q e.1) = false := by
      rw [Bool.eq_false_iff]
      intro h
      obtain ⟨e, he, hb⟩ := List.any_eq_true.mp h
      obtain ⟨g1, g2⟩ := mem_left.mp he
      exact g2 (h4 e g1 hb)
    rw [none, without_left]; rfl

theorem exec_valid {F : Fs} {l : List Act} : ∀ {done : List Path}, Valid F done l → exec (left F done) l = (left F (done ++ paths l), none) := by
  induction l with
  | nil => intro done _; simp [exec, paths]
  | cons a l ih =>
    intro done h
    show (match step (left F done) a with | .ok fs' => exec fs' l | .error x => (left F done, some x)) = _
    rw [step_possible h.1]
    show exec _ l = _
    rw [ih h.2]
    simp [paths]

/-- Removing the files of one directory, then its subdirectories. -/
theorem valid_removes {F : Fs} {p : Path} {l : List Str} : ∀ {done : List Path}, l.Nodup → (∀ n ∈ l, p ++ [n] ∉ done)
    → (∀ n ∈ l, (p ++ [n], Kind.file) ∈ F ∧ ∀ k, (p ++ [n], k) ∈ F → k = .file) → Valid F done (l.map fun n => .remove (p ++ [n])) := by
  induction l with
  | nil => intros; trivial
  | cons n l ih =>
    intro done hn hd hf
    obtain ⟨h1, h2⟩ := List.nodup_cons.mp hn
    refine ⟨⟨hd n (List.mem_cons_self ..), hf n (List.mem_cons_self ..)⟩, ih h2 ?_ fun m hm => hf m (List.mem_cons_of_mem _ hm)⟩
    intro m hm
    have := hd m (List.mem_cons_of_mem _ hm)
    have ne : m ≠ n := fun e => h1 (e ▸ hm)
    simp [Act.path, this, ne]

theorem valid_rmdirs {F : Fs} {p : Path} {l : List Str} : ∀ {done : List Path}, l.Nodup → (∀ n ∈ l, p ++ [n] ∉ done)
    → (∀ n ∈ l, (p ++ [n], Kind.dir) ∈ F ∧ ∀ k, (p ++ [n], k) ∈ F → k = .dir)
    → (∀ n ∈ l, ∀ e ∈ F, below (p ++ [n]) e.1 = true → e.1 ∈ done) → Valid F done (l.map fun n => .rmdir (p ++ [n])) := by
  induction l with
  | nil => intros; trivial
  | cons n l ih =>
    intro done hn hd hf hb
    obtain ⟨h1, h2⟩ := List.nodup_cons.mp hn
    refine ⟨⟨hd n (List.mem_cons_self ..), (hf n (List.mem_cons_self ..)).1, (hf n (List.mem_cons_self ..)).2, hb n (List.mem_cons_self ..)⟩,
      ih h2 ?_ (fun m hm => hf m (List.mem_cons_of_mem _ hm)) fun m hm e he g => List.mem_append_left _ (hb m (List.mem_cons_of_mem _ hm) e he g)⟩
    intro m hm
    have := hd m (List.mem_cons_of_mem _ hm)
    have ne : m ≠ n := fun e => h1 (e ▸ hm)
    simp [Act.path, this, ne]

theorem files_mem {p : Path} {t : Tree} {n : Str} (h : n ∈ files t) : (p ++ [n], Kind.file) ∈ flatten p t ∧ n ∈ names t := by
  induction t with
  | nil => cases h
  | file m t ih =>
    rcases List.mem_cons.mp h with rfl | h
    · exact ⟨List.mem_cons_self .., List.mem_cons_self ..⟩
    · exact ⟨List.mem_cons_of_mem _ (ih h).1, List.mem_cons_of_mem _ (ih h).2⟩
  | dirLink m t ih => exact ⟨List.mem_cons_of_mem _ (ih h).1, List.mem_cons_of_mem _ (ih h).2⟩
  | dir m s t _ ih => exact ⟨List.mem_cons_of_mem _ (List.mem_append_right _ (ih h).1), List.mem_cons_of_mem _ (ih h).2⟩

theorem dirs_mem {p : Path} {t : Tree} {n : Str} (h : n ∈ dirs t) :
    ((p ++ [n], Kind.dir) ∈ flatten p t ∨ (p ++ [n], Kind.dirLink) ∈ flatten p t) ∧ n ∈ names t := by
  induction t with
  | nil => cases h
  | file m t ih =>
    refine ⟨?_, List.mem_cons_of_mem _ (ih h).2⟩
    rcases (ih h).1 with g | g
    · exact .inl (List.mem_cons_of_mem _ g)
    · exact .inr (List.mem_cons_of_mem _ g)
  | dirLink m t ih =>
    rcases List.mem_cons.mp h with rfl | h
    · exact ⟨.inr (List.mem_cons_self ..), List.mem_cons_self ..⟩
    · refine ⟨?_, List.mem_cons_of_mem _ (ih h).2⟩
      rcases (ih h).1 with g | g
      · exact .inl (List.mem_cons_of_mem _ g)
      · exact .inr (List.mem_cons_of_mem _ g)
  | dir m s t _ ih =>
    rcases List.mem_cons.mp h with rfl | h
    · exact ⟨.inl (List.mem_cons_self ..), List.mem_cons_self ..⟩
    · refine ⟨?_, List.mem_cons_of_mem _ (ih h).2⟩
      rcases (ih h).1 with g | g
      · exact .inl (List.mem_cons_of_mem _ (List.mem_append_right _ g))
      · exact .inr (List.mem_cons_of_mem _ (List.mem_append_right _ g))

theorem nodups {t : Tree} (d : Distinct t) : (files t).Nodup ∧ (dirs t).Nodup := by
  induction t with
  | nil => exact ⟨List.nodup_nil, List.nodup_nil⟩
  | file m t ih => exact ⟨List.nodup_cons.mpr ⟨fun h => d.1 (files_mem (p := []) h).2, (ih d.2).1⟩, (ih d.2).2⟩
  | dirLink m t ih => exact ⟨(ih d.2).1, List.nodup_cons.mpr ⟨fun h => d.1 (dirs_mem (p := []) h).2, (ih d.2).2⟩⟩
  | dir m s t _ ih => exact ⟨(ih d.2.2).1, List.nodup_cons.mpr ⟨fun h => d.1 (dirs_mem (p := []) h).2, (ih d.2.2).2⟩⟩

theorem below_iff {p q : Path} : below p q = true ↔ p <+: q ∧ p.length < q.length := by
  unfold below
  rw [Bool.and_eq_true, List.isPrefixOf_iff_prefix, decide_eq_true_iff]
  constructor
  · rintro ⟨h1, h2⟩
    refine ⟨h1, ?_⟩
    rcases Nat.lt_or_ge p.length q.length with h | h
    · exact h
    · exact absurd (h1.eq_of_length (Nat.le_antisymm h1.length_le h)) h2
  · rintro ⟨h1, h2⟩
    exact ⟨h1, fun e => by rw [e] at h2; exact Nat.lt_irrefl _ h2⟩

/-- The files of a directory and its subdirectories can be removed when what the subdirectories had is gone. -/
theorem valid_visit {F : Fs} {p : Path} {t : Tree} {done : List Path} (d : Distinct t) (nl : NoLinks p t) (h1 : ∀ e ∈ flatten p t, e ∈ F)
    (h2 : ∀ n ∈ names t, ∀ e ∈ F, p ++ [n] <+: e.1 → e ∈ flatten p t) (h3 : ∀ n ∈ names t, p ++ [n] ∉ done) (h4 : ∀ q ∈ paths (inner p t), q ∈ done) :
    Valid F done (visit (p, dirs t, files t)) := by
  have fn : ∀ n ∈ names t, ∀ k k', (p ++ [n], k') ∈ flatten p t → (p ++ [n], k) ∈ F → k = k' :=
    fun n hn k k' g h => functional d (h2 n hn _ h List.prefix_rfl) g
  have dm : ∀ n ∈ dirs t, (p ++ [n], Kind.dir) ∈ flatten p t := by
    intro n hn
    rcases (dirs_mem (p := p) hn).1 with h | h
    · exact h
    · exact absurd h (nl _)
  unfold visit
  apply valid_append
  · apply valid_removes (nodups d).1
    · exact fun n hn => h3 n (files_mem (p := p) hn).2
    · intro n hn
      obtain ⟨g1, g2⟩ := files_mem (p := p) hn
      exact ⟨h1 _ g1, fun k hk => fn n g2 k _ g1 hk⟩
  · apply valid_rmdirs (nodups d).2
    · intro n hn h
      rcases List.mem_append.mp h with h | h
      · exact h3 n (dirs_mem (p := p) hn).2 h
      · unfold paths at h
        rw [List.map_map, List.mem_map] at h
        obtain ⟨m, hm, e⟩ := h
        have e : m = n := by simpa [Act.path] using e
        cases functional d (files_mem (p := p) hm).1 (e ▸ dm n hn)
    · intro n hn
      exact ⟨h1 _ (dm n hn), fun k hk => fn n (dirs_mem (p := p) hn).2 k _ (dm n hn) hk⟩
    · intro n hn e he hb
      obtain ⟨b1, b2⟩ := below_iff.mp hb
      apply List.mem_append_left
      apply h4
      rw [mem_inner]
      refine ⟨⟨e.2, h2 n (dirs_mem (p := p) hn).2 e he b1⟩, ?_⟩
      simpa using b2

theorem inner_below {p : Path} {t : Tree} {q : Path} (h : q ∈ paths (inner p t) ∨ q ∈ paths (visit (p, dirs t, files t))) : p <+: q := by
  rcases h with h | h
  · obtain ⟨⟨k, g⟩, _⟩ := mem_inner.mp h
    exact (flatten_prefix g).1
  · obtain ⟨n, _, rfl⟩ := mem_visit.mp h
    exact List.prefix_append ..

theorem valid_inner {F : Fs} {t : Tree} : ∀ {p : Path} {done : List Path}, Distinct t → NoLinks p t → (∀ e ∈ flatten p t, e ∈ F)
    → (∀ n ∈ names t, ∀ e ∈ F, p ++ [n] <+: e.1 → e ∈ flatten p t) → (∀ n ∈ names t, ∀ q ∈ done, ¬ p ++ [n] <+: q) → Valid F done (inner p t) := by
  have shrink : ∀ {p : Path} {n : Str} {t : Tree} {x : Path × Kind}, n ∉ names t → x.1 = p ++ [n]
      → (∀ m ∈ names t, ∀ e ∈ F, p ++ [m] <+: e.1 → e = x ∨ e ∈ flatten p t) → ∀ m ∈ names t, ∀ e ∈ F, p ++ [m] <+: e.1 → e ∈ flatten p t := by
    intro p n t x hn hx h m hm e he hp
    rcases h m hm e he hp with g | g
    · rw [g, hx] at hp
      exact absurd (same hp List.prefix_rfl ▸ hm) hn
    · exact g
  induction t with
  | nil => intros; trivial
  | file n t ih =>
    intro p done d nl h1 h2 h3
    exact ih d.2 (fun q h => nl q (List.mem_cons_of_mem _ h)) (fun e h => h1 e (List.mem_cons_of_mem _ h))
      (shrink d.1 rfl fun m hm e he hp => List.mem_cons.mp (h2 m (List.mem_cons_of_mem _ hm) e he hp)) fun m hm => h3 m (List.mem_cons_of_mem _ hm)
  | dirLink n t ih => intro p done d nl; exact absurd (List.mem_cons_self ..) (nl (p ++ [n]))
  | dir n s t ihs iht =>
    intro p done d nl h1 h2 h3
    have hn := List.mem_cons_self (a := n) (l := names t)
    have s1 : NoLinks (p ++ [n]) s := fun q h => nl q (List.mem_cons_of_mem _ (List.mem_append_left _ h))
    have s2 : ∀ e ∈ flatten (p ++ [n]) s, e ∈ F := fun e h => h1 e (List.mem_cons_of_mem _ (List.mem_append_left _ h))
    have s3 : ∀ m ∈ names s, ∀ e ∈ F, p ++ [n] ++ [m] <+: e.1 → e ∈ flatten (p ++ [n]) s := by
      intro m hm e he hp
      have hp' : p ++ [n] <+: e.1 := (List.prefix_append _ _).trans hp
      rcases List.mem_cons.mp (h2 n hn e he hp') with g | g
      · rw [g] at hp
        have := hp.length_le
        simp at this
      · rcases List.mem_append.mp g with g | g
        · exact g
        · exact absurd g (lone d.1 hp')
    rw [inner_dir]
    apply valid_append
    · apply valid_append
      · exact ihs d.2.1 s1 s2 s3 fun m hm q hq hp => h3 n hn q hq ((List.prefix_append _ _).trans hp)
      · refine valid_visit d.2.1 s1 s2 s3 ?_ fun q h => List.mem_append_right _ h
        intro m hm h
        rcases List.mem_append.mp h with h | h
        · exact h3 n hn _ h (List.prefix_append ..)
        · have := (mem_inner.mp h).2
          simp at this
    · apply iht d.2.2 (fun q h => nl q (List.mem_cons_of_mem _ (List.mem_append_right _ h)))
        (fun e h => h1 e (List.mem_cons_of_mem _ (List.mem_append_right _ h)))
      · intro m hm e he hp
        rcases List.mem_cons.mp (h2 m (List.mem_cons_of_mem _ hm) e he hp) with g | g
        · rw [g] at hp
          exact absurd (same hp List.prefix_rfl ▸ hm) d.1
        · rcases List.mem_append.mp g with g | g
          · exact absurd (same hp (flatten_prefix g).1 ▸ hm) d.1
          · exact g
      · intro m hm q hq hp
        rcases List.mem_append.mp hq with hq | hq
        · exact h3 m (List.mem_cons_of_mem _ hm) q hq hp
        · unfold paths at hq
          rw [List.map_append, List.mem_append] at hq
          exact absurd (same hp (inner_below hq) ▸ hm) d.1

theorem valid_removal {out : Fs} {p : Path} {t : Tree} (ho : Outside out p) (d : Distinct t) (nl : NoLinks p t) : Valid (With out p t) [] (removal p t) := by
  have h1 : ∀ e ∈ flatten p t, e ∈ With out p t := fun e h => List.mem_append_right _ (List.mem_cons_of_mem _ h)
  have h0 : ∀ e ∈ With out p t, p <+: e.1 → e = (p, .dir) ∨ e ∈ flatten p t := by
    intro e he hp
    rcases List.mem_append.mp he with g | g
    · exact absurd hp (ho e g)
    · exact List.mem_cons.mp g
  have h2 : ∀ n ∈ names t, ∀ e ∈ With out p t, p ++ [n] <+: e.1 → e ∈ flatten p t := by
    intro n _ e he hp
    rcases h0 e he ((List.prefix_append _ _).trans hp) with g | g
    · rw [g] at hp
      have := hp.length_le
      simp at this
      omega
    · exact g
  rw [removal_eq]
  apply valid_append
  · apply valid_append
    · exact valid_inner d nl h1 h2 fun _ _ _ h => (by cases h)
    · refine valid_visit d nl h1 h2 ?_ fun q h => List.mem_append_right _ h
      intro n _ h
      have := (mem_inner.mp h).2
      simp at this
  · refine ⟨⟨?_, List.mem_append_right _ (List.mem_cons_self ..), ?_, ?_⟩, trivial⟩
    · intro h
      have h : p ∈ paths (inner p t ++ visit (p, dirs t, files t)) := h
      unfold paths at h
      rw [List.map_append, List.mem_append] at h
      rcases h with h | h
      · have := (mem_inner.mp h).2; omega
      · obtain ⟨n, _, e⟩ := mem_visit.mp h
        have := congrArg List.length e
        simp at this
    · intro k hk
      rcases h0 _ hk List.prefix_rfl with g | g
      · cases g; rfl
      · exact absurd (flatten_prefix g).2 (Nat.lt_irrefl _)
    · intro e he hb
      obtain ⟨b1, b2⟩ := below_iff.mp hb
      rcases h0 e he b1 with g | g
      · rw [g] at b2; exact absurd b2 (Nat.lt_irrefl _)
      · show e.1 ∈ paths (inner p t ++ visit (p, dirs t, files t))
        have : e.1 ∈ paths (removal p t) := mem_removal.mpr (.inr ⟨e.2, g⟩)
        rw [removal_eq] at this
        unfold paths at this
        rw [List.map_append, List.mem_append] at this
        rcases this with h | h
        · exact h
        · have h : e.1 = p := List.mem_singleton.mp h
          rw [h] at b2; exact absurd b2 (Nat.lt_irrefl _)

/-! ## C64 -/

/-- What lies outside of the data directory is left as it is, whatever is in the directory and whether or not the removal fails. -/
theorem C64_outside (out : Fs) (p : Path) (t : Tree) (e : Path × Kind) (he : ¬ p <+: e.1) :
    e ∈ (exec (With out p t) (removal p t)).1 ↔ e ∈ out := by
  rw [exec_keeps]
  · unfold With
    rw [List.mem_append]
    constructor
    · rintro (g | g)
      · exact g
      · rcases List.mem_cons.mp g with rfl | g
        · exact absurd List.prefix_rfl he
        · exact absurd (flatten_prefix g).1 he
    · exact .inl
  · intro hm
    rcases mem_removal.mp hm with g | ⟨k, g⟩
    · rw [g] at he; exact he List.prefix_rfl
    · exact he (flatten_prefix g).1

/-- A data directory without links to directories is removed completely, and nothing else is. -/
theorem C64_removed_partial (out : Fs) (p : Path) (t : Tree) (ho : Outside out p) (d : Distinct t) (nl : NoLinks p t) :
    exec (With out p t) (removal p t) = (out, none) := by
  have e0 : With out p t = left (With out p t) [] := by
    unfold left
    rw [List.filter_eq_self.mpr]
    intro a _; rfl
  rw [e0, exec_valid (valid_removal ho d nl)]
  congr 1
  unfold left With
  rw [List.filter_append, List.filter_eq_self.mpr, List.filter_eq_nil_iff.mpr, List.append_nil]
  · intro e he
    have : e.1 ∈ paths (removal p t) := by
      rcases List.mem_cons.mp he with rfl | g
      · exact mem_removal.mpr (.inl rfl)
      · exact mem_removal.mpr (.inr ⟨e.2, g⟩)
    simp [this]
  · intro e he
    have : e.1 ∉ paths (removal p t) := by
      intro hm
      rcases mem_removal.mp hm with g | ⟨k, g⟩
      · exact ho e he (g ▸ List.prefix_rfl)
      · exact ho e he (flatten_prefix g).1
    simp [this]

/-- When all calls are made, each was possible on a part of the file system. -/
theorem exec_none {l : List Act} : ∀ {fs : Fs}, (exec fs l).2 = none → ∀ a ∈ l, ∃ g g', (∀ e ∈ g, e ∈ fs) ∧ step g a = .ok g' := by
  induction l with
  | nil => intro fs _ a h; cases h
  | cons b l ih =>
    intro fs h a ha
    have h : (match step fs b with | .ok fs' => exec fs' l | .error x => (fs, some x)).2 = none := h
    cases hs : step fs b with
    | error x => rw [hs] at h; cases h
    | ok fs' =>
      rw [hs] at h
      rcases List.mem_cons.mp ha with rfl | ha
      · exact ⟨fs, fs', fun e he => he, hs⟩
      · obtain ⟨g, g', h1, h2⟩ := ih h a ha
        refine ⟨g, g', fun e he => ?_, h2⟩
        have := h1 e he
        rw [step_keeps hs] at this
        exact (List.mem_filter.mp this).1

theorem link_called {t : Tree} : ∀ {p q : Path}, (q, Kind.dirLink) ∈ flatten p t →
    Act.rmdir q ∈ inner p t ∨ ∃ n ∈ dirs t, q = p ++ [n] := by
  induction t with
  | nil => intro p q h; cases h
  | file n t ih =>
    intro p q h
    rcases List.mem_cons.mp h with h | h
    · cases h
    · exact ih h
  | dirLink n t ih =>
    intro p q h
    rcases List.mem_cons.mp h with h | h
    · cases h; exact .inr ⟨n, List.mem_cons_self .., rfl⟩
    · rcases ih h with g | ⟨m, g, e⟩
      · exact .inl g
      · exact .inr ⟨m, List.mem_cons_of_mem _ g, e⟩
  | dir n s t ihs iht =>
    intro p q h
    rcases List.mem_cons.mp h with h | h
    · cases h
    · rw [inner_dir]
      rcases List.mem_append.mp h with h | h
      · rcases ihs h with g | ⟨m, g, e⟩
        · exact .inl (List.mem_append_left _ (List.mem_append_left _ g))
        · refine .inl (List.mem_append_left _ (List.mem_append_right _ ?_))
          unfold visit
          exact List.mem_append_right _ (List.mem_map.mpr ⟨m, g, by rw [e]⟩)
      · rcases iht h with g | ⟨m, g, e⟩
        · exact .inl (List.mem_append_right _ g)
        · exact .inr ⟨m, List.mem_cons_of_mem _ g, e⟩

theorem exec_append {l m : List Act} : ∀ {fs : Fs}, exec fs (l ++ m) = match exec fs l with
    | (fs', none) => exec fs' m
    | r => r := by
  induction l with
  | nil => intro fs; rfl
  | cons a l ih =>
    intro fs
    show (match step fs a with | .ok fs' => exec fs' (l ++ m) | .error x => (fs, some x)) = _
    rw [show exec fs (a :: l) = (match step fs a with | .ok fs' => exec fs' l | .error x => (fs, some x)) from rfl]
    cases step fs a with
    | error x => rfl
    | ok fs' => exact ih

/-- FINDING: a link to a directory anywhere in the data directory (every tablespace has one in `pg_tblspc`, `initdb --waldir` makes `pg_wal` one) makes `drop`
raise, and the directory stays. The full property would be `C64_removed_partial` without `NoLinks`. -/
theorem C64_links_fail (out : Fs) (p : Path) (t : Tree) (ho : Outside out p) (d : Distinct t) (q : Path) (hq : (q, Kind.dirLink) ∈ flatten p t) :
    (exec (With out p t) (removal p t)).2 ≠ none ∧ (p, Kind.dir) ∈ (exec (With out p t) (removal p t)).1 := by
  have call : Act.rmdir q ∈ inner p t ++ visit (p, dirs t, files t) := by
    rcases link_called hq with h | ⟨n, h, e⟩
    · exact List.mem_append_left _ h
    · refine List.mem_append_right _ ?_
      unfold visit
      exact List.mem_append_right _ (List.mem_map.mpr ⟨n, h, by rw [e]⟩)
  have fails : (exec (With out p t) (inner p t ++ visit (p, dirs t, files t))).2 ≠ none := by
    intro h
    obtain ⟨g, g', h1, h2⟩ := exec_none h _ call
    have h2 : ClusterDrop.rmdir g q = .ok g' := h2
    unfold ClusterDrop.rmdir at h2
    have only : ∀ k, (q, k) ∈ g → k = .dirLink := by
      intro k hk
      rcases List.mem_append.mp (h1 _ hk) with a | a
      · exact absurd (flatten_prefix hq).1 (ho (q, k) a)
      · rcases List.mem_cons.mp a with a | a
        · cases a; exact absurd (flatten_prefix hq).2 (Nat.lt_irrefl _)
        · exact functional d a hq
    cases hk : kindOf g q with
    | none => rw [hk] at h2; cases h2
    | some k =>
      have : k = .dirLink := by
        unfold kindOf at hk
        cases hf : g.find? fun e => e.1 = q with
        | none => rw [hf] at hk; cases hk
        | some e =>
          rw [hf] at hk
          cases hk
          have e1 := List.find?_some hf
          have e1 : e.1 = q := by simpa using e1
          exact only _ (e1 ▸ List.mem_of_find?_eq_some hf)
      rw [hk, this] at h2
      cases h2
  rw [removal_eq, exec_append]
  cases hx : exec (With out p t) (inner p t ++ visit (p, dirs t, files t)) with
  | mk fs' e =>
    cases e with
    | none => rw [hx] at fails; exact absurd rfl fails
    | some x =>
      refine ⟨fun h => (by cases h), ?_⟩
      show (p, Kind.dir) ∈ fs'
      have key : (p, Kind.dir) ∈ (exec (With out p t) (inner p t ++ visit (p, dirs t, files t))).1 := by
        rw [exec_keeps]
        · exact List.mem_append_right _ (List.mem_cons_self ..)
        · intro h
          unfold paths at h
          rw [List.map_append, List.mem_append] at h
          rcases h with h | h
          · have := (mem_inner.mp h).2
            dsimp only at this; omega
          · obtain ⟨n, _, e⟩ := mem_visit.mp h
            have := congrArg List.length e
            simp at this
      rw [hx] at key
      exact key

/-! Non-vacuity. -/

/-- A data directory: `PG_VERSION`, `base/1/112`, an empty `pg_tblspc`. -/
def data : Tree := .file ['V'] (.dir ['b'] (.dir ['1'] (.file ['x'] .nil) .nil) (.dir ['t'] .nil .nil))

/-- The same with a tablespace. -/
def spaced : Tree := .file ['V'] (.dir ['b'] (.dir ['1'] (.file ['x'] .nil) .nil) (.dir ['t'] (.dirLink ['7'] .nil) .nil))

/-- Beside it another directory, the target of the link, with a file. -/
def beside : Fs := [([['s']], .dir), ([['s'], ['f']], .file)]

example : Outside beside [['d']] ∧ Distinct data ∧ NoLinks [['d']] data ∧ removal [['d']] data = [.remove [['d'], ['b'], ['1'], ['x']], .rmdir [['d'], ['b'], ['1']],
    .remove [['d'], ['V']], .rmdir [['d'], ['b']], .rmdir [['d'], ['t']], .rmdir [['d']]]
    ∧ exec (With beside [['d']] data) (removal [['d']] data) = (beside, none) := by
  refine ⟨by unfold Outside; decide, by unfold data Distinct; simp [names, Distinct], ?_, by decide +kernel, by decide +kernel⟩
  intro q h
  simp [data, flatten] at h

/-- With a tablespace the table is gone and the rest is left. -/
example : Distinct spaced ∧ (([['d'], ['t'], ['7']], Kind.dirLink) ∈ flatten [['d']] spaced) ∧ exec (With beside [['d']] spaced) (removal [['d']] spaced)
    = (beside ++ [([['d']], .dir), ([['d'], ['V']], .file), ([['d'], ['b']], .dir), ([['d'], ['t']], .dir), ([['d'], ['t'], ['7']], .dirLink)], some .enotdir) := by
  refine ⟨by unfold spaced Distinct; simp [names, Distinct], by decide, by decide +kernel⟩

end PG.Props.ClusterDrop
