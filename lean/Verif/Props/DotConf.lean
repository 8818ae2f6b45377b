import Verif.Model.DotConf
import Verif.Props.ConfigFile2
/-!
# C88: `pg_dotconf` sets and unsets what its arguments say, and nothing else
-/
namespace PG.Props.DotConf
open PG PG.PyStr PG.ConfigFile PG.Spec.ConfigFile PG.DotConf PG.Props.ConfigFile PG.Proofs.ConfigFile
variable {U : Unicode}

/-- `p` is an argument about `name`: `name=value` (blanks around the name do not count), or the name alone. -/
inductive Says (U : Unicode) (p name : Str) : Option Str → Prop
  | set {k v} : '=' ∉ k → p = k ++ '=' :: v → strip U k = name → Says U p name (some v)
  | unset : '=' ∉ p → strip U p = name → Says U p name none

/-- The last argument about `name` says `v`. -/
def Wanted (U : Unicode) (ps : List Str) (name : Str) (v : Option Str) : Prop :=
  ∃ A p B, ps = A ++ p :: B ∧ Says U p name v ∧ ∀ q ∈ B, ∀ w, ¬ Says U q name w

theorem split_free : ∀ (s : Str) (n : Nat), '=' ∉ s → PyStr.splitMax '=' n s = [s]
  | [], n, _ => by cases n <;> rfl
  | c :: s, 0, _ => rfl
  | c :: s, n + 1, h => by
    have hc : c ≠ '=' := fun e => h (by simp [e])
    rw [PyStr.splitMax, if_neg hc, split_free s (n + 1) (fun e => h (by simp [e]))]; rfl

theorem split_at : ∀ (k v : Str), '=' ∉ k → PyStr.splitMax '=' 1 (k ++ '=' :: v) = [k, v]
  | [], v, _ => by
    show PyStr.splitMax '=' 1 ('=' :: v) = _
    rw [PyStr.splitMax, if_pos rfl]
    cases v <;> rfl
  | c :: k, v, h => by
    have hc : c ≠ '=' := fun e => h (by simp [e])
    rw [List.cons_append, PyStr.splitMax, if_neg hc, split_at k v (fun e => h (by simp [e]))]; rfl

theorem at_eq_sign : ∀ (p : Str), '=' ∈ p → ∃ k v, '=' ∉ k ∧ p = k ++ '=' :: v
  | [], h => by cases h
  | c :: p, h => by
    by_cases hc : c = '='
    · exact ⟨[], p, by simp, by rw [hc]; rfl⟩
    · obtain ⟨k, v, h1, h2⟩ := at_eq_sign p (by rcases List.mem_cons.mp h with e | e; exact absurd e.symm hc; exact e)
      exact ⟨c :: k, v, by simp [h1, Ne.symm hc], by rw [h2]; rfl⟩

/-- What an argument says is what is made of it. -/
theorem says_iff (p name : Str) (v : Option Str) : Says U p name v ↔ param U p = (name, v) := by
  unfold param
  by_cases h : '=' ∈ p
  · obtain ⟨k, w, h1, h2⟩ := at_eq_sign p h
    have e : PyStr.splitMax '=' 1 p = [k, w] := by rw [h2]; exact split_at k w h1
    rw [e]
    dsimp only
    constructor
    · intro hs
      cases hs with
      | @set k' v' a b c =>
        have : PyStr.splitMax '=' 1 p = [k', v'] := by rw [b]; exact split_at k' v' a
        rw [e] at this
        cases this
        rw [c]
      | unset a b => exact absurd h a
    · intro hs
      cases hs
      exact .set h1 h2 rfl
  · rw [split_free p 1 h]
    dsimp only
    constructor
    · intro hs
      cases hs with
      | set a b c => exact absurd (by rw [b]; simp) h
      | unset a b => rw [b]
    · intro hs
      cases hs
      exact .unset h rfl

theorem params_some : ∀ (ps : List Str) (d m : ConfigFile.Map), params U ps d = some m →
    (∀ p ∈ ps, (param U p).1 ≠ []) ∧ m = ps.foldl (fun d p => PyDict.set (param U p).1 (param U p).2 d) d
  | [], d, m, h => by cases h; exact ⟨by simp, rfl⟩
  | p :: ps, d, m, h => by
    unfold params at h
    dsimp only at h
    split at h
    · cases h
    · rename_i hne
      obtain ⟨h1, h2⟩ := params_some ps _ m h
      refine ⟨?_, h2⟩
      intro q hq
      rcases List.mem_cons.mp hq with e | e
      · subst e; exact hne
      · exact h1 q e

theorem params_ok : ∀ (ps : List Str) (d : ConfigFile.Map), (∀ p ∈ ps, (param U p).1 ≠ []) →
    params U ps d = some (ps.foldl (fun d p => PyDict.set (param U p).1 (param U p).2 d) d)
  | [], d, _ => rfl
  | p :: ps, d, h => by
    unfold params
    dsimp only
    rw [if_neg (h p List.mem_cons_self)]
    exact params_ok ps _ (fun q hq => h q (List.mem_cons_of_mem _ hq))

theorem params_bad (ps : List Str) (d : ConfigFile.Map) (p : Str) (hp : p ∈ ps) (h : (param U p).1 = []) : params U ps d = none := by
  cases hc : params U ps d with
  | none => rfl
  | some m => exact absurd h ((params_some ps d m hc).1 p hp)

/-- The settings of the arguments, as they come. -/
def asked (U : Unicode) (ps : List Str) : ConfigFile.Map := ps.foldl (fun d p => PyDict.set (param U p).1 (param U p).2 d) []

theorem get_foldl (k : Str) : ∀ (ps : List Str) (d : ConfigFile.Map), (∀ p ∈ ps, (param U p).1 ≠ k) →
    PyDict.get k (ps.foldl (fun d p => PyDict.set (param U p).1 (param U p).2 d) d) = PyDict.get k d
  | [], _, _ => rfl
  | p :: ps, d, h => by
    rw [List.foldl_cons, get_foldl k ps _ (fun q hq => h q (List.mem_cons_of_mem _ hq)), PyDict.get_set, if_neg (h p List.mem_cons_self)]

theorem wanted_get {ps : List Str} {k : Str} {v : Option Str} (h : Wanted U ps k v) : PyDict.get k (asked U ps) = some v := by
  obtain ⟨A, p, B, rfl, h1, h2⟩ := h
  unfold asked
  rw [List.foldl_append, List.foldl_cons, get_foldl]
  · rw [(says_iff p k v).mp h1, PyDict.get_set, if_pos rfl]
  · intro q hq e
    exact h2 q hq (param U q).2 ((says_iff _ _ _).mpr (by rw [← e]))

theorem set_keys (k : Str) (v : Option Str) : ∀ (d : ConfigFile.Map), (d.map Prod.fst).Nodup →
    ((PyDict.set k v d).map Prod.fst).Nodup ∧ ∀ e ∈ PyDict.set k v d, e ∈ d ∨ e = (k, v)
  | [], _ => by simp [PyDict.set]
  | e :: d, h => by
    rw [List.map_cons, List.nodup_cons] at h
    obtain ⟨h1, h2⟩ := set_keys k v d h.2
    unfold PyDict.set
    split
    · rename_i hk
      refine ⟨?_, ?_⟩
      · rw [List.map_cons, List.nodup_cons]; dsimp only; rw [← hk]; exact h
      · intro x hx
        rcases List.mem_cons.mp hx with hx | hx
        · right; rw [hx]
        · left; exact List.mem_cons_of_mem _ hx
    · rename_i hk
      refine ⟨?_, ?_⟩
      · rw [List.map_cons, List.nodup_cons]
        refine ⟨?_, h1⟩
        intro hm
        obtain ⟨x, hx, hx2⟩ := List.mem_map.mp hm
        rcases h2 x hx with hx' | hx'
        · exact h.1 (List.mem_map.mpr ⟨x, hx', hx2⟩)
        · rw [hx'] at hx2; exact hk hx2.symm
      · intro x hx
        rcases List.mem_cons.mp hx with hx | hx
        · left; rw [hx]; exact List.mem_cons_self
        · rcases h2 x hx with hx' | hx'
          · left; exact List.mem_cons_of_mem _ hx'
          · right; exact hx'

theorem foldl_keys : ∀ (ps : List Str) (d : ConfigFile.Map), (d.map Prod.fst).Nodup →
    ((ps.foldl (fun d p => PyDict.set (param U p).1 (param U p).2 d) d).map Prod.fst).Nodup ∧
    ∀ e ∈ ps.foldl (fun d p => PyDict.set (param U p).1 (param U p).2 d) d, e ∈ d ∨ ∃ p ∈ ps, param U p = e
  | [], d, h => ⟨h, fun e he => .inl he⟩
  | p :: ps, d, h => by
    obtain ⟨a, b⟩ := set_keys (param U p).1 (param U p).2 d h
    obtain ⟨a', b'⟩ := foldl_keys ps _ a
    refine ⟨a', ?_⟩
    intro e he
    rcases b' e he with h1 | ⟨q, h1, h2⟩
    · rcases b e h1 with h3 | h3
      · exact .inl h3
      · exact .inr ⟨p, List.mem_cons_self, h3.symm⟩
    · exact .inr ⟨q, List.mem_cons_of_mem _ h1, h2⟩

/-- The conditions on the arguments and the file: names are made of letters, digits and underscores and are not empty; two that differ in case only
are not given; values are on one line; in the lines of the file about those names, quotes are closed. -/
structure ArgsOk (U : Unicode) (ps : List Str) (file : Str) : Prop where
  named : ∀ p ∈ ps, ∀ k v, Says U p k v → k ≠ [] ∧ (∀ c ∈ k, U.isAlpha c = true ∨ U.isDigit c = true ∨ c = '_') ∧ strip U (U.lower k) = U.lower k
  cases : ∀ p ∈ ps, ∀ q ∈ ps, ∀ k k' v v', Says U p k v → Says U q k' v' → U.lower k = U.lower k' → k = k'
  values : ∀ p ∈ ps, ∀ k v, Says U p k (some v) → OneLine v
  closed : ∀ l ∈ readLines file, ∀ a s b c w t, Parts U l a s b c w t → (∃ p ∈ ps, ∃ k v, Says U p k v ∧ U.lower s = U.lower k) → '\n' ∉ w

theorem asked_says {ps : List Str} {e : Str × Option Str} (h : e ∈ asked U ps) : ∃ p ∈ ps, Says U p e.1 e.2 := by
  rcases (foldl_keys ps [] List.nodup_nil).2 e h with h | ⟨p, h1, h2⟩
  · cases h
  · exact ⟨p, h1, (says_iff _ _ _).mpr h2⟩

theorem nodup_lower : ∀ (m : ConfigFile.Map), (m.map Prod.fst).Nodup → (∀ x ∈ m, ∀ y ∈ m, U.lower x.1 = U.lower y.1 → x.1 = y.1) →
    (m.map fun e => U.lower e.1).Nodup
  | [], _, _ => List.nodup_nil
  | e :: m, h, hl => by
    rw [List.map_cons, List.nodup_cons] at h ⊢
    refine ⟨?_, nodup_lower m h.2 fun x hx y hy => hl x (List.mem_cons_of_mem _ hx) y (List.mem_cons_of_mem _ hy)⟩
    intro hm
    obtain ⟨x, hx, hx2⟩ := List.mem_map.mp hm
    exact h.1 (List.mem_map.mpr ⟨x, hx, hl x (List.mem_cons_of_mem _ hx) e List.mem_cons_self hx2⟩)

theorem args_update {ps : List Str} {file : Str} (h : ArgsOk U ps file) : UpdateOk U (asked U ps) file := by
  refine ⟨⟨?_, ?_⟩, ?_, ?_⟩
  · intro e he
    obtain ⟨p, hp, hs⟩ := asked_says he
    exact (h.named p hp _ _ hs).2
  · refine nodup_lower _ (foldl_keys ps [] List.nodup_nil).1 ?_
    intro x hx y hy hl
    obtain ⟨p, hp, hs⟩ := asked_says hx
    obtain ⟨q, hq, hs'⟩ := asked_says hy
    exact h.cases p hp q hq _ _ _ _ hs hs' hl
  · intro k v he
    obtain ⟨p, hp, hs⟩ := asked_says he
    exact h.values p hp k v hs
  · intro l hl a s b c w t hparts hex
    obtain ⟨e, he, hl2⟩ := hex
    obtain ⟨p, hp, hs⟩ := asked_says he
    exact h.closed l hl a s b c w t hparts ⟨p, hp, _, _, hs, hl2⟩

theorem args_params {ps : List Str} {file : Str} (h : ArgsOk U ps file) : params U ps [] = some (asked U ps) :=
  params_ok ps [] fun p hp => (h.named p hp _ _ ((says_iff p _ _).mpr rfl)).1

/-- A `-f` file that has no line with a setting, commented or not. -/
def NoSettings (U : Unicode) (f : Str) : Prop := ∀ l ∈ readLines f, ∀ k, ¬ Mentions U l k

theorem settingsFiles_none {files : List Str} (h : ∀ f ∈ files, NoSettings U f) : settingsFiles U files = none := by
  unfold settingsFiles
  rw [if_neg]
  intro hc
  obtain ⟨f, hf, hf2⟩ := List.any_eq_true.mp hc
  obtain ⟨l, hl, hl2⟩ := List.any_eq_true.mp hf2
  obtain ⟨sl, hsl⟩ := Option.isSome_iff_exists.mp hl2
  obtain ⟨a, k, b, p, v, t, hp, _⟩ := (C33_parse l sl).mp hsl
  exact h f hf l hl k ⟨a, b, p, v, t, hp⟩

/-- C88: with arguments that say settings (and a file that has lines, or nothing to set), the command succeeds and writes the file — or, asked to use
standard output, or given standard input, leaves the file and writes the same text there.  In that text, each setting has the value the last argument about it
gives, those named without a value are not set, and all others have the values they had. -/
theorem C88_sets (o : Options) (ps : List Str) (file : Str) (hf : ∀ f ∈ o.settings, NoSettings U f) (hp : o.params = some ps) (h : ArgsOk U ps file)
    (hne : file ≠ [] ∨ ∀ p ∈ ps, ∀ k v, ¬ Says U p k (some v)) :
    ∃ text, command U o file = (if o.stdout = true ∨ o.stdin = true then ⟨.status 0, file, text⟩ else ⟨.status 0, text, []⟩) ∧
      (∀ k v, Wanted U ps k (some v) → (∀ x ∈ readLines file, ∀ s, Mentions U x s → U.lower s = U.lower k → s = k) →
        ConfigFile.get U k none text = some v) ∧
      (∀ k, Wanted U ps k none → ConfigFile.get U k none text = none) ∧
      (∀ k, (∀ p ∈ ps, ∀ k' v, Says U p k' v → U.lower k' ≠ U.lower k) → ConfigFile.get U k none text = ConfigFile.get U k none file) := by
  have hok := args_update h
  have hlines : readLines file = [] → file = [] := by
    intro hr
    have hw := readLines_save (readLines_wf file)
    cases file with
    | nil => rfl
    | cons c s =>
      exfalso
      have : ∀ x : Str, x ≠ [] → linesOf x ≠ [] := by
        intro x hx
        cases x with
        | nil => exact absurd rfl hx
        | cons d y =>
          unfold linesOf
          split
          · simp
          · cases linesOf y <;> simp [consHead]
      have ht : translate (c :: s) ≠ [] := by
        unfold translate
        split <;> simp_all
      exact this _ ht hr
  have halter : ∃ L', alterConfig U (asked U ps) (readLines file) = .ok L' := by
    rcases C33_empty (asked U ps) hok.map_ok (readLines file) with ⟨_, h2⟩ | ⟨h1, ⟨k, v, hkv⟩, _⟩
    · exact h2
    · exfalso
      obtain ⟨p, hp', hs⟩ := asked_says hkv
      rcases hne with hne | hne
      · exact hne (hlines h1)
      · exact hne p hp' k v hs
  obtain ⟨L', hL⟩ := halter
  have hup : update U (asked U ps) file = .ok (save L') := by unfold update; rw [hL]; rfl
  refine ⟨save L', ?_, ?_, ?_, ?_⟩
  · unfold command
    rw [hp]
    dsimp only
    rw [settingsFiles_none hf]
    dsimp only
    rw [args_params h]
    dsimp only
    rw [hL]
    dsimp only
    cases o.stdout <;> cases o.stdin <;> rfl
  · intro k v hw hs
    exact (C33_update_get _ file _ hok hup k v (PyDict.get_mem (wanted_get hw)) hs).1
  · intro k hw
    exact (C33_update_none _ file _ hok hup k (PyDict.get_mem (wanted_get hw)) none).1
  · intro k hk
    refine (C33_update_others _ file _ hok hup k ?_ none).1
    intro e he
    obtain ⟨p, hp', hs⟩ := asked_says he
    exact hk p hp' _ _ hs

/-- C88: an argument without a name ends the command with status 1, and without arguments it does nothing; both leave the file. -/
theorem C88_refused (o : Options) (file : Str) :
    (o.params = none → command U o file = ⟨.status 0, file, []⟩) ∧
    (∀ ps, o.params = some ps → (∀ f ∈ o.settings, NoSettings U f) → (∃ p ∈ ps, ∃ v, Says U p [] v) → command U o file = ⟨.status 1, file, []⟩) := by
  constructor
  · intro h; unfold command; rw [h]
  · rintro ps h hf ⟨p, hp, v, hs⟩
    have := (says_iff p [] v).mp hs
    unfold command
    rw [h]
    dsimp only
    rw [settingsFiles_none hf]
    dsimp only
    rw [params_bad ps [] p hp (by rw [this])]

/-- C88: whatever happens that is not success, the file is as it was. -/
theorem C88_failed_leaves (o : Options) (file : Str) (h : (command U o file).result ≠ .status 0) : (command U o file).file = file ∧ (command U o file).out = [] := by
  unfold command at h ⊢
  split
  · exact ⟨rfl, rfl⟩
  · rename_i ps hps
    rw [hps] at h
    dsimp only at h
    split
    · exact ⟨rfl, rfl⟩
    · rename_i hsf
      rw [hsf] at h
      dsimp only at h
      split
      · exact ⟨rfl, rfl⟩
      · rename_i m hm
        rw [hm] at h
        dsimp only at h
        split
        · exact ⟨rfl, rfl⟩
        · rename_i L hL
          rw [hL] at h
          dsimp only at h
          split at h <;> exact absurd rfl h

/-- C88, a finding: the option `-f` does not work: a settings file with any setting in it, even a commented one, makes the command fail with NameError. -/
theorem C88_settings_file (o : Options) (ps : List Str) (file f l k : Str) (hp : o.params = some ps) (hf : f ∈ o.settings) (hl : l ∈ readLines f)
    (hm : Mentions U l k) : command U o file = ⟨.nameError, file, []⟩ := by
  obtain ⟨a, b, p, v, t, hparts⟩ := hm
  have hs := parse_parts hparts
  unfold command
  rw [hp]
  dsimp only
  have : settingsFiles U o.settings = some .nameError := by
    unfold settingsFiles
    rw [if_pos]
    exact List.any_eq_true.mpr ⟨f, hf, List.any_eq_true.mpr ⟨l, hl, by rw [hs]; rfl⟩⟩
  rw [this]

/-- C88, a finding: settings cannot be put into an empty file: IndexError. -/
theorem C88_empty_file : command Unicode.ascii ⟨[], false, false, some ["port=1".toList]⟩ [] = ⟨.err .indexError, [], []⟩ := by decide +kernel

/-! ## Examples -/

/-- Arguments for the examples. -/
def args : List Str := ["port=1".toList, " shared_buffers = 8".toList, "port=it's".toList, "port2".toList]

example : command Unicode.ascii ⟨[], false, false, some args⟩ sample =
    ⟨.status 0, "# settings\n#port = 5432 # the port\n  shared_buffers = ' 8' #more\n#Port2=3\nport = 'it''s'\n#port = 99".toList, []⟩ := by decide +kernel

theorem says_of {p k : Str} {v : Option Str} (h : param U p = (k, v)) : Says U p k v := (says_iff p k v).mpr h

/-- The hypotheses of `C88_sets` are met by these arguments and this file. -/
theorem args_ok : ArgsOk Unicode.ascii args sample := by
  have e : ∀ p k v, Says Unicode.ascii p k v → param Unicode.ascii p = (k, v) := fun p k v => (says_iff p k v).mp
  refine ⟨?_, ?_, ?_, ?_⟩
  · intro p hp k v hs
    have h1 : ∀ p ∈ args, (param Unicode.ascii p).1 ≠ [] ∧ (∀ c ∈ (param Unicode.ascii p).1, Unicode.ascii.isAlpha c = true ∨ Unicode.ascii.isDigit c = true ∨ c = '_') ∧
        strip Unicode.ascii (Unicode.ascii.lower (param Unicode.ascii p).1) = Unicode.ascii.lower (param Unicode.ascii p).1 := by decide +kernel
    have := h1 p hp
    rw [e p k v hs] at this
    exact this
  · intro p hp q hq k k' v v' hs hs' hl
    have h1 : ∀ p ∈ args, ∀ q ∈ args, Unicode.ascii.lower (param Unicode.ascii p).1 = Unicode.ascii.lower (param Unicode.ascii q).1 →
        (param Unicode.ascii p).1 = (param Unicode.ascii q).1 := by decide +kernel
    have := h1 p hp q hq
    rw [e p k v hs, e q k' v' hs'] at this
    exact this hl
  · intro p hp k v hs
    have h1 : ∀ p ∈ args, ∀ v ∈ (param Unicode.ascii p).2, '\n' ∉ v ∧ '\r' ∉ v := by decide +kernel
    have := h1 p hp v (by rw [e p k _ hs]; rfl)
    exact this
  · intro l hl a s b p w t hparts _
    obtain ⟨sl, h1, _, h3⟩ := parts_slices hparts
    have : ∀ l ∈ readLines sample, ∀ sl ∈ parseLine Unicode.ascii l, '\n' ∉ slice l sl.vstart sl.vstop := by decide +kernel
    rw [h3]
    exact this l hl sl h1

example : Wanted Unicode.ascii args "port".toList (some "it's".toList) :=
  ⟨args.take 2, args[2], args.drop 3, by decide +kernel, says_of (by decide +kernel), fun q hq w hs => by
    have : ∀ q ∈ args.drop 3, (param Unicode.ascii q).1 ≠ "port".toList := by decide +kernel
    exact this q hq (by rw [(says_iff q _ w).mp hs])⟩

example : ∃ text, command Unicode.ascii ⟨[], false, false, some args⟩ sample = ⟨.status 0, text, []⟩ ∧
    ConfigFile.get Unicode.ascii "port".toList none text = some "it's".toList ∧ ConfigFile.get Unicode.ascii "port2".toList none text = none := by
  refine ⟨_, rfl, ?_, ?_⟩ <;> decide +kernel

example : (command Unicode.ascii ⟨["# nothing\n".toList], true, false, some args⟩ sample).file = sample ∧
    (command Unicode.ascii ⟨["# nothing\n".toList], true, false, some args⟩ sample).out ≠ [] := by decide +kernel

example : command Unicode.ascii ⟨["#port = 1\n".toList], false, false, some []⟩ sample = ⟨.nameError, sample, []⟩ := by decide +kernel

example : command Unicode.ascii ⟨[], false, false, some ["=5".toList]⟩ sample = ⟨.status 1, sample, []⟩ := by decide +kernel

end PG.Props.DotConf
