import Verif.Props.Installation
import Verif.Proofs.SymLib2
/-!
# C68: the installation, its paths and versions; the default
-/
namespace PG.Props.Installation
open PG PG.PyStr PG.Installation PG.Spec.Installation PG.Spec.VersionString

/-! ## Words -/

theorem wordsFrom_word (U : Unicode) : ∀ {a : Str} (w rest : Str), (∀ c ∈ a, U.isSpace c = false) → wordsFrom U w (a ++ rest) = wordsFrom U (w ++ a) rest
  | [], w, rest, _ => by rw [List.append_nil]; rfl
  | c :: a, w, rest, h => by
    rw [List.cons_append, wordsFrom, if_neg (by rw [h c (List.mem_cons_self ..)]; simp), wordsFrom_word U _ _ fun d hd => h d (List.mem_cons_of_mem _ hd)]
    simp

theorem wordsFrom_space (U : Unicode) {w rest : Str} (h : w ≠ []) : wordsFrom U w (' ' :: rest) = w :: wordsFrom U [] rest := by
  rw [wordsFrom, if_pos (space_space U), if_neg h]

theorem words_two (U : Unicode) {a b : Str} (ha : a ≠ [] ∧ ∀ c ∈ a, U.isSpace c = false) (hb : b ≠ [] ∧ ∀ c ∈ b, U.isSpace c = false) : words U (a ++ ' ' :: b) = [a, b] := by
  unfold words
  rw [wordsFrom_word U _ _ ha.2, List.nil_append, wordsFrom_space U ha.1]
  have := wordsFrom_word U (a := b) [] [] hb.2
  rw [List.append_nil] at this
  rw [this, List.nil_append, wordsFrom, if_neg hb.1]

theorem wordsFrom_some (U : Unicode) : ∀ (s w : Str), (w ≠ [] ∨ ∃ c ∈ s, U.isSpace c = false) → wordsFrom U w s ≠ []
  | [], w, h => by
    rcases h with h | ⟨c, hc, _⟩
    · rw [wordsFrom, if_neg h]; simp
    · cases hc
  | c :: s, w, h => by
    rw [wordsFrom]
    by_cases hs : U.isSpace c = true
    · rw [if_pos hs]
      by_cases hw : w = []
      · rw [if_pos hw]
        apply wordsFrom_some U s
        rcases h with h | ⟨d, hd, hd'⟩
        · exact absurd hw h
        · rcases List.mem_cons.mp hd with rfl | hd
          · rw [hs] at hd'; cases hd'
          · exact .inr ⟨d, hd, hd'⟩
      · rw [if_neg hw]; simp
    · rw [if_neg hs]
      exact wordsFrom_some U s _ (.inl (by simp))

/-! ## C68: versions -/

/-- The type and the version, as numbers. -/
theorem C68_version (U : Unicode) (S : System) {info : List (Str × Str)} {kind : Str} {v : Version} (hv : v.Ok) (hn : v.nums.length ≤ 3 ∨ v.state ≠ none)
    (hk : kind ≠ [] ∧ ∀ c ∈ kind, U.isSpace c = false) (ht : ∀ c ∈ v.text, U.isSpace c = false) (h : PyDict.get "version".toList info = some (kind ++ ' ' :: v.text)) :
    ∃ i, installation U S info = .ok i ∧ i.version = kind ++ ' ' :: v.text ∧ i.kind = kind ∧ i.versionInfo = v.normal := by
  have hd : v.text ≠ [] := by
    unfold Version.text decimal
    intro e
    exact Nat.toDigits_ne_nil (List.append_eq_nil_iff.mp (List.append_eq_nil_iff.mp e).1).1
  unfold installation
  rw [h]
  dsimp only
  rw [words_two U hk ⟨hd, ht⟩]
  dsimp only
  have := Props.VersionString.C43_split v hv hn [] [] (fun c h => by cases h) (fun c h => by cases h)
  rw [List.nil_append, List.append_nil] at this
  rw [this]
  dsimp only
  rw [Props.VersionString.C43_normalize v hv]
  exact ⟨_, rfl, rfl, rfl, rfl⟩

/-- Finding: when something follows the version, as the packages of distributions have it, the installation cannot be used. -/
theorem C68_vendor (U : Unicode) (S : System) {info : List (Str × Str)} {kind vs extra : Str} (hk : kind ≠ [] ∧ ∀ c ∈ kind, U.isSpace c = false) (hv : vs ≠ [] ∧ ∀ c ∈ vs, U.isSpace c = false)
    (he : ∃ c ∈ extra, U.isSpace c = false) (h : PyDict.get "version".toList info = some (kind ++ ' ' :: (vs ++ ' ' :: extra))) :
    (installation U S info).toOption = none ∧ installation U S info = .error .value := by
  have hw : ∃ a r, words U (kind ++ ' ' :: (vs ++ ' ' :: extra)) = kind :: vs :: a :: r := by
    unfold words
    rw [wordsFrom_word U _ _ hk.2, List.nil_append, wordsFrom_space U hk.1, wordsFrom_word U _ _ hv.2, List.nil_append, wordsFrom_space U hv.1]
    cases hx : wordsFrom U [] extra with
    | nil => exact absurd hx (wordsFrom_some U extra [] (.inr he))
    | cons a r => exact ⟨a, r, rfl⟩
  obtain ⟨a, r, hw⟩ := hw
  have : installation U S info = .error .value := by
    unfold installation
    rw [h]
    dsimp only
    rw [hw]
  rw [this]
  exact ⟨rfl, rfl⟩

/-! ## C68: paths -/

theorem get_foldl {β : Type} (f : Str → β) (k : Str) : ∀ (l : List Str) (d : List (Str × β)), PyDict.get k (l.foldl (fun d k => PyDict.set k (f k) d) d) = if k ∈ l then some (f k) else PyDict.get k d
  | [], d => by rw [if_neg (by simp)]; rfl
  | x :: l, d => by
    rw [List.foldl_cons, get_foldl f k l, PyDict.get_set]
    by_cases h : k ∈ l
    · rw [if_pos h, if_pos (List.mem_cons_of_mem _ h)]
    · rw [if_neg h]
      by_cases e : x = k
      · rw [if_pos e, if_pos (by rw [e]; exact List.mem_cons_self ..), e]
      · rw [if_neg e, if_neg]
        intro g
        rcases List.mem_cons.mp g with g | g
        · exact e g.symm
        · exact h g

theorem exec_dir : ∀ k ∈ directories, k ∉ executables := by decide +kernel

theorem installation_paths {U : Unicode} {S : System} {info : List (Str × Str)} {i : Inst} (h : installation U S info = .ok i) : i.paths = pathsOf S info := by
  unfold installation at h
  split at h
  · cases h
  · split at h
    · split at h
      · cases h
      · split at h
        · cases h
        · cases h; rfl
    · cases h

theorem exec_name : ∀ k ∈ executables, k.head? ≠ some '/' := by decide +kernel

/-- Directories are those `pg_config` told of; programs are those that are in the directory of programs, and `None` if there is no such file. -/
theorem C68_paths {U : Unicode} {S : System} {info : List (Str × Str)} {i : Inst} (h : installation U S info = .ok i) :
    (∀ k ∈ directories, PyDict.get k i.paths = some (PyDict.get k info)) ∧
    (∀ b, PyDict.get "bindir".toList info = some b → b ≠ [] → b.getLast? ≠ some '/' → ∀ k ∈ executables, ∀ p, PyDict.get k i.paths = some (some p) ↔ p = b ++ '/' :: k ∧ S.fileExists p = true) ∧
    (PyDict.get "bindir".toList info = none → ∀ k ∈ executables, PyDict.get k i.paths = some none) := by
  rw [installation_paths h]
  unfold pathsOf
  refine ⟨?_, ?_, ?_⟩
  · intro k hk
    cases PyDict.get "bindir".toList info with
    | none =>
      dsimp only
      rw [get_foldl (fun _ => none), if_neg (exec_dir k hk), get_foldl (fun k => PyDict.get k info), if_pos hk]
    | some b =>
      dsimp only
      rw [get_foldl (executable S b), if_neg (exec_dir k hk), get_foldl (fun k => PyDict.get k info), if_pos hk]
  · intro b hb h1 h2 k hk p
    rw [hb]
    dsimp only
    rw [get_foldl (executable S b), if_pos hk]
    have e : pathJoin b k = b ++ '/' :: k := by
      unfold pathJoin
      rw [if_neg (exec_name k hk), if_neg]
      rintro (g | g)
      · exact h1 g
      · exact h2 g
    unfold executable
    rw [e]
    by_cases hx : S.fileExists (b ++ '/' :: k) = true
    · rw [if_pos hx]
      constructor
      · intro g; cases g; exact ⟨rfl, hx⟩
      · rintro ⟨rfl, _⟩; rfl
    · rw [if_neg hx]
      constructor
      · intro g; cases g
      · rintro ⟨rfl, g⟩; exact absurd g hx
  · intro hb k hk
    rw [hb]
    dsimp only
    rw [get_foldl (fun _ => none), if_pos hk]

/-! ## C68: from the output to the installation -/

/-- The value of the row of a name, when no two have the same. -/
theorem said_row {rows : List Row} (hd : (rows.map fun r => r.name.map Char.toLower).Nodup) {r : Row} (hr : r ∈ rows) : said rows (r.name.map Char.toLower) = some r.value := by
  have key : rows.filter (fun x => x.name.map Char.toLower = r.name.map Char.toLower) = [r] := by
    induction rows with
    | nil => cases hr
    | cons a rows ih =>
      rw [List.map_cons, List.nodup_cons] at hd
      rcases List.mem_cons.mp hr with rfl | hr
      · rw [List.filter_cons_of_pos (by simp), List.filter_eq_nil_iff.mpr]
        intro x hx g
        have g : x.name.map Char.toLower = r.name.map Char.toLower := by simpa using g
        exact hd.1 (List.mem_map.mpr ⟨x, hx, g⟩)
      · rw [List.filter_cons_of_neg, ih hd.2 hr]
        intro g
        have g : a.name.map Char.toLower = r.name.map Char.toLower := by simpa using g
        exact hd.1 (List.mem_map.mpr ⟨r, hr, g.symm⟩)
  unfold said
  rw [key]
  rfl

theorem said_none {rows : List Row} {k : Str} (h : ∀ r ∈ rows, r.name.map Char.toLower ≠ k) : said rows k = none := by
  unfold said
  rw [List.filter_eq_nil_iff.mpr]
  · rfl
  · intro r hr g
    exact h r hr (by simpa using g)

/-- PostgreSQL's `pg_config`, of any version without a suffix: the installation has the version, and the directories printed. Finding: but for `includedir_server`, which is always `None`,
as the name printed is `INCLUDEDIR-SERVER`. -/
theorem C68_installed (U : Unicode) (S : System) (P : Program) (rows : List Row) (hr : ∀ r ∈ rows, r.Ok isBreak U.isSpace) (hn : rows.map (·.name) = pgNames) (hp : P [] = .text (printed rows))
    {kind : Str} {v : Version} (hv : v.Ok) (hn' : v.nums.length ≤ 3 ∨ v.state ≠ none) (hk : kind ≠ [] ∧ ∀ c ∈ kind, U.isSpace c = false) (ht : ∀ c ∈ v.text, U.isSpace c = false)
    (hver : ⟨"VERSION".toList, kind ++ ' ' :: v.text⟩ ∈ rows) :
    ∃ info i, pgConfigDictionary U P = .ok info ∧ installation U S info = .ok i ∧ i.kind = kind ∧ i.versionInfo = v.normal
      ∧ (∀ k ∈ directories, k ≠ "includedir_server".toList → ∃ r ∈ rows, r.name.map Char.toLower = k ∧ PyDict.get k i.paths = some (some r.value))
      ∧ PyDict.get "includedir_server".toList i.paths = some none := by
  obtain ⟨info, h1, h2⟩ := C68_dictionary U P rows hr hp
  have hd : (rows.map fun r => r.name.map Char.toLower).Nodup := by
    have e : (rows.map fun r => r.name.map Char.toLower) = pgNames.map (·.map Char.toLower) := by rw [← hn, List.map_map]; rfl
    rw [e]
    decide +kernel
  have hvers : PyDict.get "version".toList info = some (kind ++ ' ' :: v.text) := by
    rw [h2]
    have := said_row hd hver
    rw [← this]
    congr 1
  obtain ⟨i, h3, _, h5, h6⟩ := C68_version U S hv hn' hk ht hvers
  obtain ⟨p1, _, _⟩ := C68_paths h3
  refine ⟨info, i, h1, h3, h5, h6, ?_, ?_⟩
  · intro k hk hne
    have key : ∀ k ∈ directories, k ≠ "includedir_server".toList → ∃ n ∈ pgNames, n.map Char.toLower = k := by decide +kernel
    obtain ⟨n, hn1, hn2⟩ := key k hk hne
    rw [← hn] at hn1
    obtain ⟨r, hr1, rfl⟩ := List.mem_map.mp hn1
    refine ⟨r, hr1, hn2, ?_⟩
    rw [p1 k hk, h2, ← hn2, said_row hd hr1]
  · rw [p1 _ (by decide +kernel), h2, said_none]
    intro r hr1 e
    have key : ∀ n ∈ pgNames, n.map Char.toLower ≠ "includedir_server".toList := by decide +kernel
    exact key r.name (by rw [← hn]; exact List.mem_map.mpr ⟨r, hr1, rfl⟩) e

/-! ## C68: the options of an installation -/

theorem get_pairs {β : Type} (k : Str) : ∀ (l : List (Str × β)) (d : List (Str × β)), PyDict.get k (l.foldl (fun d e => PyDict.set e.1 e.2 d) d) = match (l.filter (·.1 = k)).getLast? with
    | some e => some e.2
    | none => PyDict.get k d
  | [], _ => rfl
  | x :: l, d => by
    rw [List.foldl_cons, get_pairs k l, List.filter_cons, PyDict.get_set]
    by_cases e : x.1 = k
    · rw [if_pos e, if_pos (by simpa using e), List.getLast?_cons]
      cases (l.filter (·.1 = k)).getLast? <;> rfl
    · rw [if_neg e, if_neg (by simpa using e)]

theorem installation_configure {U : Unicode} {S : System} {info : List (Str × Str)} {i : Inst} (h : installation U S info = .ok i) :
    i.configure = (parseConfigure ((PyDict.get "configure".toList info).getD [])).foldl (fun d e => PyDict.set e.1 e.2 d) [] := by
  unfold installation at h
  split at h
  · cases h
  · split at h
    · split at h
      · cases h
      · split at h
        · cases h
        · cases h; rfl
    · cases h

/-- The value of an option is that of the last argument with its name; the others are not there. -/
theorem C68_options_partial {U : Unicode} {S : System} {info : List (Str × Str)} {i : Inst} (h : installation U S info = .ok i) (l : List Arg) (hl : ∀ a ∈ l, a.Ok)
    (hc : PyDict.get "configure".toList info = some (kept l)) (k : Str) : PyDict.get k i.configure = ((l.filter fun a => underscored a.name = k).getLast?).map fun a => inPython a.value := by
  rw [installation_configure h, hc]
  show PyDict.get k ((parseConfigure (kept l)).foldl _ []) = _
  rw [C68_configure_partial l hl, get_pairs, List.filter_map, List.getLast?_map]
  have e : (l.filter ((fun x : Str × Value => decide (x.1 = k)) ∘ fun a => (underscored a.name, inPython a.value))) = l.filter fun a => underscored a.name = k := rfl
  rw [e]
  cases (l.filter fun a => underscored a.name = k).getLast? <;> rfl

theorem mentions_iff : ∀ s : Str, mentionsSsl s = true ↔ "with_ssl".toList <:+: s
  | [] => by
    constructor
    · intro h; cases h
    · rintro ⟨a, b, h⟩
      have := congrArg List.length h
      simp at this
  | c :: s => by
    rw [mentionsSsl, Bool.or_eq_true, mentions_iff s, List.infix_cons_iff, List.isPrefixOf_iff_prefix]

theorem any_keys {β : Type} {p : Str → Bool} {l : List (Str × β)} : (l.foldl (fun d e => PyDict.set e.1 e.2 d) []).any (fun e => p e.1) = true ↔ ∃ e ∈ l, p e.1 = true := by
  have mem : ∀ k, (∃ v, (k, v) ∈ l.foldl (fun d e => PyDict.set e.1 e.2 d) ([] : List (Str × β))) ↔ ∃ e ∈ l, e.1 = k := by
    intro k
    have h1 : (∃ v, (k, v) ∈ l.foldl (fun d e => PyDict.set e.1 e.2 d) ([] : List (Str × β))) ↔ PyDict.get k (l.foldl (fun d e => PyDict.set e.1 e.2 d) ([] : List (Str × β))) ≠ none := by
      constructor
      · rintro ⟨v, hv⟩ g
        exact PyDict.get_none.mp g _ hv rfl
      · intro g
        obtain ⟨v, hv⟩ := Option.ne_none_iff_exists'.mp g
        exact ⟨v, PyDict.get_mem hv⟩
    rw [h1, get_pairs]
    constructor
    · intro g
      cases hx : (l.filter (·.1 = k)).getLast? with
      | none => rw [hx] at g; exact absurd rfl g
      | some e =>
        have := List.mem_filter.mp (List.mem_of_getLast? hx)
        exact ⟨e, this.1, by simpa using this.2⟩
    · rintro ⟨e, he, hk⟩
      cases hx : (l.filter (·.1 = k)).getLast? with
      | none =>
        have : l.filter (·.1 = k) = [] := List.getLast?_eq_none_iff.mp hx
        exact absurd (by simpa using hk) (List.filter_eq_nil_iff.mp this e he)
      | some x => simp
  rw [List.any_eq_true]
  constructor
  · rintro ⟨e, he, hp⟩
    obtain ⟨x, hx, e1⟩ := (mem e.1).mp ⟨e.2, he⟩
    exact ⟨x, hx, by rw [e1]; exact hp⟩
  · rintro ⟨e, he, hp⟩
    obtain ⟨v, hv⟩ := (mem e.1).mpr ⟨e, he, rfl⟩
    exact ⟨_, hv, hp⟩

/-- `ssl` says whether PostgreSQL was configured with `--with-openssl` or `--with-ssl`, with or without a value. -/
theorem C68_ssl_partial {U : Unicode} {S : System} {info : List (Str × Str)} {i : Inst} (h : installation U S info = .ok i) (l : List Arg) (hl : ∀ a ∈ l, a.Ok)
    (hc : PyDict.get "configure".toList info = some (kept l)) :
    ssl i = true ↔ ∃ a ∈ l, underscored a.name = "with_openssl".toList ∨ "with_ssl".toList <:+: underscored a.name := by
  unfold ssl
  rw [Bool.or_eq_true, C68_options_partial h l hl hc, installation_configure h, hc]
  show _ ∨ List.any ((parseConfigure (kept l)).foldl _ []) _ = true ↔ _
  rw [any_keys (p := mentionsSsl), C68_configure_partial l hl]
  constructor
  · rintro (g | ⟨e, he, g⟩)
    · rw [Option.isSome_map, Option.isSome_iff_exists] at g
      obtain ⟨a, ha⟩ := g
      have := List.mem_filter.mp (List.mem_of_getLast? ha)
      exact ⟨a, this.1, .inl (of_decide_eq_true this.2)⟩
    · obtain ⟨a, ha, rfl⟩ := List.mem_map.mp he
      exact ⟨a, ha, .inr ((mentions_iff _).mp g)⟩
  · rintro ⟨a, ha, g | g⟩
    · left
      rw [Option.isSome_map]
      cases hx : (l.filter fun a => underscored a.name = "with_openssl".toList).getLast? with
      | none => exact absurd (decide_eq_true g) (List.filter_eq_nil_iff.mp (List.getLast?_eq_none_iff.mp hx) a ha)
      | some _ => rfl
    · exact .inr ⟨_, List.mem_map.mpr ⟨a, ha, rfl⟩, (mentions_iff _).mpr g⟩

/-! ## C68: the default -/

theorem findFile_some {f : Str → Bool} {n p : Str} : ∀ {l : List Str}, findFile f n l = some p ↔ ∃ pre d post, l = pre ++ d :: post ∧ p = pathJoin d n ∧ f p = true ∧ ∀ x ∈ pre, f (pathJoin x n) = false
  | [] => by
    constructor
    · intro h; cases h
    · rintro ⟨pre, d, post, h, _⟩
      exact absurd h.symm (by simp)
  | x :: l => by
    rw [findFile]
    by_cases hx : f (pathJoin x n) = true
    · rw [if_pos hx]
      constructor
      · intro h
        cases h
        exact ⟨[], x, l, rfl, rfl, hx, fun _ h => by cases h⟩
      · rintro ⟨pre, d, post, h1, h2, h3, h4⟩
        cases pre with
        | nil => cases h1; rw [h2]
        | cons y pre =>
          cases h1
          have := h4 x (List.mem_cons_self ..)
          rw [hx] at this
          cases this
    · rw [if_neg hx, findFile_some]
      constructor
      · rintro ⟨pre, d, post, h1, h2, h3, h4⟩
        refine ⟨x :: pre, d, post, by rw [h1]; rfl, h2, h3, ?_⟩
        intro y hy
        rcases List.mem_cons.mp hy with rfl | hy
        · simpa using hx
        · exact h4 y hy
      · rintro ⟨pre, d, post, h1, h2, h3, h4⟩
        cases pre with
        | nil => cases h1; rw [h2] at h3; exact absurd h3 hx
        | cons y pre =>
          cases h1
          exact ⟨pre, d, post, rfl, h2, h3, fun z hz => h4 z (List.mem_cons_of_mem _ hz)⟩

/-- `PGINSTALLATION` is trusted when it is set and not empty; otherwise the first directory of `PATH` with a `pg_config` in it is chosen. -/
theorem C68_default (S : System) : (∀ p, PyDict.get "PGINSTALLATION".toList S.env = some p → p ≠ [] → defaultPgConfig S = some p) ∧
    (∀ dirs, PyDict.get "PGINSTALLATION".toList S.env = none ∨ PyDict.get "PGINSTALLATION".toList S.env = some [] → PyDict.get "PATH".toList S.env = some (join [':'] dirs) →
      dirs ≠ [] → (∀ d ∈ dirs, ':' ∉ d) →
      ∀ p, defaultPgConfig S = some p ↔ ∃ pre d post, dirs = pre ++ d :: post ∧ p = pathJoin d "pg_config".toList ∧ S.fileExists p = true
        ∧ ∀ x ∈ pre, S.fileExists (pathJoin x "pg_config".toList) = false) := by
  constructor
  · intro p hp hn
    unfold defaultPgConfig
    rw [hp]
    dsimp only
    rw [if_pos hn]
  · intro dirs h hp hd hc p
    have e : defaultPgConfig S = findExecutable S "pg_config".toList := by
      unfold defaultPgConfig
      rcases h with h | h
      · rw [h]
      · rw [h]; rfl
    rw [e]
    unfold findExecutable
    rw [hp]
    show findFile _ _ (PyStr.split ':' (join [':'] dirs)) = _ ↔ _
    rw [Proofs.SymLib.split_of_join ':' dirs hd hc, findFile_some]

end PG.Props.Installation
