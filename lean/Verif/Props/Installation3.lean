import Verif.Props.Installation2
/-!
# C68: old versions, failures, findings and examples
-/
namespace PG.Props.Installation
open PG PG.PyStr PG.Installation PG.Spec.Installation PG.Spec.VersionString

/-! ## C68: `pg_config` of old versions -/

/-- A line of `--help`: one with an option, or another without two dashes. -/
inductive HelpLine where
  | option (indent name rest : Str)
  | other (text : Str)

def HelpLine.text : HelpLine → Str
  | .option i n r => i ++ "--".toList ++ n ++ ' ' :: r
  | .other t => t

def HelpLine.name? : HelpLine → Option Str
  | .option _ n _ => some n
  | .other _ => none

def HelpLine.Ok : HelpLine → Prop
  | .option i n r => '-' ∉ i ∧ ' ' ∉ n ∧ ∀ c ∈ i ++ "--".toList ++ n ++ ' ' :: r, isBreak c = false
  | .other t => ¬ ['-', '-'] <:+: t ∧ ∀ c ∈ t, isBreak c = false

theorem findDashes_none : ∀ {t : Str}, ¬ ['-', '-'] <:+: t → findDashes t = none
  | [], _ => rfl
  | [_], _ => rfl
  | a :: b :: s, h => by
    rw [findDashes, if_neg, findDashes_none]
    · rfl
    · intro g
      exact h (List.infix_cons_iff.mpr (.inr g))
    · rintro ⟨rfl, rfl⟩
      exact h ⟨[], s, rfl⟩

theorem findDashes_some (t : Str) : ∀ {i : Str}, '-' ∉ i → findDashes (i ++ '-' :: '-' :: t) = some i.length
  | [], _ => by
    show findDashes ('-' :: '-' :: t) = _
    rw [findDashes, if_pos ⟨rfl, rfl⟩]
    rfl
  | [c], h => by
    show findDashes (c :: '-' :: '-' :: t) = _
    rw [findDashes, if_neg (fun e => h (by rw [← e.1]; exact List.mem_cons_self ..)), findDashes, if_pos ⟨rfl, rfl⟩]
    rfl
  | c :: d :: i, h => by
    show findDashes (c :: d :: (i ++ '-' :: '-' :: t)) = _
    rw [findDashes, if_neg (fun e => h (by rw [← e.1]; exact List.mem_cons_self ..))]
    show (findDashes ((d :: i) ++ '-' :: '-' :: t)).map (· + 1) = _
    rw [findDashes_some t fun g => h (List.mem_cons_of_mem _ g)]
    rfl

theorem helpOption_line {x : HelpLine} (h : x.Ok) : helpOption x.text = x.name? := by
  cases x with
  | other t => unfold helpOption HelpLine.text HelpLine.name?; rw [findDashes_none h.1]
  | option i n r =>
    have e : (HelpLine.option i n r).text = i ++ '-' :: '-' :: (n ++ ' ' :: r) := by
      show i ++ ['-', '-'] ++ n ++ ' ' :: r = _
      simp
    unfold helpOption
    rw [e, findDashes_some _ h.1]
    dsimp only
    have hf : find ' ' (i ++ '-' :: '-' :: (n ++ ' ' :: r)) i.length = some (i.length + (n.length + 2)) := by
      unfold find
      rw [List.drop_left]
      have : ('-' :: '-' :: (n ++ ' ' :: r)).findIdx? (· = ' ') = some (n.length + 2) := by
        rw [List.findIdx?_eq_some_iff_getElem]
        refine ⟨by simp, ?_, ?_⟩
        · simp
        · intro j hj
          rcases j with _ | _ | j
          · simp
          · simp
          · have hj : j < n.length := by omega
            simp only [List.getElem_cons_succ, List.getElem_append_left hj, decide_eq_true_eq]
            exact fun g => h.2.1 (by rw [← g]; exact List.getElem_mem hj)
      rw [this, Option.map_some, Nat.add_comm]
    rw [hf]
    show some (((i ++ '-' :: '-' :: (n ++ ' ' :: r)).take (i.length + (n.length + 2))).drop (i.length + 2)) = some n
    rw [List.take_length_add_append, ← List.drop_drop, List.drop_left]
    show some ((List.take (n.length + 1 + 1) ('-' :: '-' :: (n ++ ' ' :: r))).drop 2) = _
    rw [List.take_succ_cons, List.take_succ_cons, List.take_left]
    rfl

theorem help_oneLine {x : HelpLine} (h : x.Ok) : ∀ c ∈ x.text, isBreak c = false := by
  cases x with
  | other t => exact h.2
  | option i n r => exact h.2.2

theorem erase_filter {a : Str} : ∀ {l : List Str}, l.Nodup → l.erase a = l.filter (· ≠ a)
  | [], _ => rfl
  | x :: l, h => by
    rw [List.nodup_cons] at h
    by_cases e : x = a
    · rw [e, List.erase_cons_head, List.filter_cons_of_neg (by simp), List.filter_eq_self.mpr]
      intro b hb
      simp only [ne_eq, decide_not, Bool.not_eq_true', decide_eq_false_iff_not]
      rintro rfl
      exact h.1 (e ▸ hb)
    · rw [List.erase_cons_tail (by simpa using e), List.filter_cons_of_pos (by simpa using e), erase_filter h.2]

theorem get_zip {k v : Str} : ∀ {ks vs : List Str}, ks.Nodup → (k, v) ∈ ks.zip vs → (((ks.zip vs).filter (·.1 = k)).getLast?) = some (k, v)
  | [], _, _, h => by rw [List.zip_nil_left] at h; cases h
  | _ :: _, [], _, h => by rw [List.zip_nil_right] at h; cases h
  | x :: ks, y :: vs, hn, h => by
    rw [List.nodup_cons] at hn
    rw [List.zip_cons_cons] at h ⊢
    rcases List.mem_cons.mp h with h | h
    · cases h
      rw [List.filter_cons_of_pos (by simp), List.filter_eq_nil_iff.mpr]
      · rfl
      · intro e he g
        have g : e.1 = k := of_decide_eq_true g
        exact hn.1 (g ▸ (List.of_mem_zip (show (e.1, e.2) ∈ ks.zip vs from he)).1)
    · rw [List.filter_cons_of_neg, get_zip hn.2 h]
      intro g
      have g : x = k := of_decide_eq_true g
      exact hn.1 (g ▸ (List.of_mem_zip h).1)

/-- The options asked for: those of the help, without `help` and `version`. -/
def asked (help : List HelpLine) : List Str := (help.filterMap HelpLine.name?).filter fun n => n ≠ "help".toList ∧ n ≠ "version".toList

/-- A `pg_config` that does nothing without options: it is asked for every option of its help at once, the answers belong to them in order, and for the version by itself. -/
theorem C68_old (U : Unicode) (P : Program) (help : List HelpLine) (values : List Str) (ver : Str) (h0 : P [] = .failed) (hh : ∀ x ∈ help, x.Ok)
    (hd : (help.filterMap HelpLine.name?).Nodup) (hb : ∀ n ∈ help.filterMap HelpLine.name?, ∀ c ∈ n, U.isSpace c = false)
    (h1 : P ["--help".toList] = .text ((help.map HelpLine.text).flatMap (· ++ ['\n'])))
    (hv : ∀ v ∈ values, ∀ c ∈ v, isBreak c = false) (h2 : P ((asked help).map ("--".toList ++ ·)) = .text (values.flatMap (· ++ ['\n'])))
    (hver : ver ≠ [] ∧ (∀ c, ver.head? = some c → U.isSpace c = false) ∧ ∀ c, ver.getLast? = some c → U.isSpace c = false) (h3 : P ["--version".toList] = .text (ver ++ ['\n'])) :
    ∃ d, pgConfigDictionary U P = .ok d ∧ PyDict.get "version".toList d = some ver ∧ ∀ k v, (k, v) ∈ (asked help).zip values → PyDict.get k d = some v := by
  have word : ∀ n : Str, (∀ c ∈ n, U.isSpace c = false) → strip U n = n := fun n hn =>
    Proofs.ConfigFile.strip_no (fun c hc => hn c (List.mem_of_head? hc)) (fun c hc => hn c (List.mem_of_getLast? hc))
  have lower : ∀ s : String, (∀ c ∈ s.toList, 33 ≤ c.toNat ∧ c.toNat < 127) → strip U s.toList = s.toList := fun s hs => word _ fun c hc => graphic_space U (hs c hc)
  have e1 : commandOutput U P ["help".toList] = .ok (some ((help.map HelpLine.text).flatMap (· ++ ['\n']))) := by
    unfold commandOutput
    rw [List.map_cons, List.map_nil, lower "help" (by decide)]
    show (match P ["--help".toList] with | .text s => _ | .garbage => _ | .failed => _ | .stuck => _ | .missing => _) = _
    rw [h1]
  have e3 : commandOutput U P ["version".toList] = .ok (some (ver ++ ['\n'])) := by
    unfold commandOutput
    rw [List.map_cons, List.map_nil, lower "version" (by decide)]
    show (match P ["--version".toList] with | .text s => _ | .garbage => _ | .failed => _ | .stuck => _ | .missing => _) = _
    rw [h3]
  have eo : ((((help.map HelpLine.text).filterMap helpOption).erase "help".toList).erase "version".toList) = asked help := by
    rw [List.filterMap_map]
    have : help.filterMap (helpOption ∘ HelpLine.text) = help.filterMap HelpLine.name? := by
      clear h1 h2 hd hb e1 h3
      induction help with
      | nil => rfl
      | cons x help ih =>
        rw [List.filterMap_cons, List.filterMap_cons, ih fun y hy => hh y (List.mem_cons_of_mem _ hy)]
        have hx : (helpOption ∘ HelpLine.text) x = x.name? := helpOption_line (hh x (List.mem_cons_self ..))
        rw [hx]
    rw [this, erase_filter hd, erase_filter (hd.sublist List.filter_sublist), List.filter_filter]
    unfold asked
    apply List.filter_congr
    intro x _
    generalize "help".toList = p
    generalize "version".toList = q
    by_cases h1 : x = p <;> by_cases h2 : x = q <;> simp [h1, h2]
  have e2 : commandOutput U P (asked help) = .ok (some (values.flatMap (· ++ ['\n']))) := by
    unfold commandOutput
    have : (asked help).map (fun x => "--".toList ++ strip U x) = (asked help).map ("--".toList ++ ·) := by
      apply List.map_congr_left
      intro n hn
      rw [word n (hb n (List.mem_filter.mp hn).1)]
    rw [this, h2]
  have ev : strip U (ver ++ ['\n']) = ver := by
    have := Props.PgString.strip_pad U [] ver ['\n'] (fun c h => by cases h) (by intro c hc; rw [List.mem_singleton.mp hc, U.space_ascii '\n' (by decide)]; decide) hver.2.1 hver.2.2 hver.1
    exact this
  have key : oldDictionary U P = .ok (PyDict.set "version".toList ver (((asked help).zip values).foldl (fun d e => PyDict.set e.1 e.2 d) [])) := by
    unfold oldDictionary outputLines
    rw [e1]
    dsimp only
    rw [lines_printed (by intro x hx; obtain ⟨y, hy, rfl⟩ := List.mem_map.mp hx; exact help_oneLine (hh y hy)), eo, e2]
    dsimp only
    rw [lines_printed hv, e3]
    dsimp only
    rw [ev]
  refine ⟨PyDict.set "version".toList ver (((asked help).zip values).foldl (fun d e => PyDict.set e.1 e.2 d) []), ?_, ?_, ?_⟩
  · unfold pgConfigDictionary
    have : commandOutput U P [] = .ok none := by unfold commandOutput; rw [List.map_nil, h0]
    rw [this]
    exact key
  · rw [PyDict.get_set, if_pos rfl]
  · intro k v hkv
    have hk := (List.of_mem_zip hkv).1
    have hne : k ≠ "version".toList := (of_decide_eq_true (List.mem_filter.mp hk).2).2
    rw [PyDict.get_set, if_neg (fun e => hne e.symm), get_pairs, get_zip (ks := asked help) (hd.sublist List.filter_sublist) hkv]

/-! ## C68: findings -/

/-- Finding: a `pg_config` that fails, or is killed since it takes more than eight seconds, ends in an `AttributeError` of `None`. -/
theorem C68_failing (U : Unicode) (P : Program) (h0 : P [] = .failed) (h1 : P ["--help".toList] = .failed) : pgConfigDictionary U P = .error .attribute := by
  have lower : strip U "help".toList = "help".toList :=
    Proofs.ConfigFile.strip_no (fun c hc => graphic_space U ((by decide : ∀ c ∈ "help".toList, 33 ≤ c.toNat ∧ c.toNat < 127) c (List.mem_of_head? hc)))
      (fun c hc => graphic_space U ((by decide : ∀ c ∈ "help".toList, 33 ≤ c.toNat ∧ c.toNat < 127) c (List.mem_of_getLast? hc)))
  have e0 : commandOutput U P [] = .ok none := by unfold commandOutput; rw [List.map_nil, h0]
  have e1 : commandOutput U P ["help".toList] = .ok none := by
    unfold commandOutput
    rw [List.map_cons, List.map_nil, lower]
    show (match P ["--help".toList] with | .text s => _ | .garbage => _ | .failed => _ | .stuck => _ | .missing => _) = _
    rw [h1]
  unfold pgConfigDictionary
  rw [e0]
  show oldDictionary U P = _
  unfold oldDictionary outputLines
  rw [e1]

/-- Finding: dashes and double quotes at the end of an argument are lost. -/
theorem C68_configure_end : parseConfigure "'--with-extra-version=a-' 'CFLAGS=-DX=\"y\"'".toList = [("with_extra_version".toList, .text "a".toList), ("CFLAGS".toList, .text "-DX=\"y".toList)] := by
  decide +kernel

/-- Finding: an argument with single quotes (which `configure` writes `'\''`) is taken apart. -/
theorem C68_configure_quote : parseConfigure "'CFLAGS=-DX='\\''a b'\\'''".toList = [("CFLAGS".toList, .text "-DX='\\'a".toList), ("b'\\".toList, .given)] := by decide +kernel

/-! ## Examples -/

def demoRows : List Row :=
  [("BINDIR", "/usr/bin"), ("DOCDIR", "/d"), ("HTMLDIR", "/h"), ("INCLUDEDIR", "/i"), ("PKGINCLUDEDIR", "/pi"), ("INCLUDEDIR-SERVER", "/is"), ("LIBDIR", "/l"), ("PKGLIBDIR", "/pl"),
    ("LOCALEDIR", "/lo"), ("MANDIR", "/m"), ("SHAREDIR", "/s"), ("SYSCONFDIR", "/sy"), ("PGXS", "/px"), ("CONFIGURE", "'--with-openssl' '--prefix=/usr' 'CFLAGS=-O2 -g'"), ("CC", "gcc"),
    ("CPPFLAGS", "-D_GNU_SOURCE"), ("CFLAGS", "-O2"), ("CFLAGS_SL", ""), ("LDFLAGS", ""), ("LDFLAGS_EX", ""), ("LDFLAGS_SL", ""), ("LIBS", "-lz -lm"), ("VERSION", "PostgreSQL 9.6.2")].map
    fun e => ⟨e.1.toList, e.2.toList⟩

def demoVersion : Version := { major := 9, rest := [6, 2] }

def demoArgs : List Arg := [⟨true, "with-openssl".toList, none⟩, ⟨true, "prefix".toList, some "/usr".toList⟩, ⟨false, "CFLAGS".toList, some "-O2 -g".toList⟩]

example : demoRows.map (·.name) = pgNames ∧ (⟨"VERSION".toList, "PostgreSQL".toList ++ ' ' :: demoVersion.text⟩ : Row) ∈ demoRows := by decide +kernel
example : kept demoArgs = "'--with-openssl' '--prefix=/usr' 'CFLAGS=-O2 -g'".toList := by decide +kernel
example : ∀ a ∈ demoArgs, a.Ok := by
  intro a ha
  rcases List.mem_cons.mp ha with rfl | ha
  · exact ⟨⟨_, _, rfl, by decide, by decide⟩, by decide, (fun v h => by cases h), by decide +kernel⟩
  rcases List.mem_cons.mp ha with rfl | ha
  · exact ⟨⟨_, _, rfl, by decide, by decide⟩, by decide, (fun v h => by cases h; decide), by decide +kernel⟩
  rcases List.mem_cons.mp ha with rfl | ha
  · exact ⟨⟨_, _, rfl, by decide, by decide⟩, by decide, (fun v h => by cases h; decide), by decide +kernel⟩
  cases ha
example : ∀ r ∈ demoRows, r.name ≠ [] ∧ (∀ c ∈ r.name, 33 ≤ c.toNat ∧ c.toNat < 127 ∧ c ≠ '=') ∧ (∀ c ∈ r.value, isBreak c = false) ∧
    (∀ c ∈ r.value.head?, Unicode.ascii.isSpace c = false) ∧ ∀ c ∈ r.value.getLast?, Unicode.ascii.isSpace c = false := by decide +kernel

def demoSystem : System := ⟨[("PATH".toList, "/opt/bin:/usr/bin:/bin".toList)], fun p => p = "/usr/bin/pg_config".toList ∨ p = "/bin/pg_config".toList ∨ p = "/usr/bin/initdb".toList⟩

def demoResult : Option (Str × List VersionString.Item × Bool × List (Option (Option Str))) :=
  match Installation.default Unicode.ascii demoSystem (fun _ args => if args = [] then .text (printed demoRows) else .failed) with
  | .ok (some i) => some (i.kind, i.versionInfo, ssl i, ["initdb", "psql", "libdir", "includedir_server"].map fun k => PyDict.get k.toList i.paths)
  | _ => none

example : demoResult.map (·.1) = some "PostgreSQL".toList ∧ demoResult.map (·.2.1) = some [.int 9, .int 6, .int 2, .text "final".toList, .int 0] ∧ demoResult.map (·.2.2.1) = some true
    ∧ demoResult.map (·.2.2.2) = some [some (some "/usr/bin/initdb".toList), some none, some (some "/l".toList), some none] := by
  decide +kernel
example : defaultPgConfig demoSystem = some "/usr/bin/pg_config".toList := by decide +kernel
/-- The version of a Debian package. -/
example : (match installation Unicode.ascii demoSystem [("version".toList, "PostgreSQL 13.4 (Debian 13.4-1.pgdg100+1)".toList)] with | .error .value => true | _ => false) = true := by decide +kernel

def demoHelp : List HelpLine := [.other "Options:".toList, .option "  ".toList "bindir".toList "show location of user executables".toList, .option "  ".toList "configure".toList " show options".toList,
  .option "  ".toList "version".toList "show the version".toList, .option "  ".toList "help".toList " this".toList]

example : asked demoHelp = ["bindir".toList, "configure".toList] := by decide +kernel
example : (demoHelp.map HelpLine.text).flatMap (· ++ ['\n']) =
    "Options:\n  --bindir show location of user executables\n  --configure  show options\n  --version show the version\n  --help  this\n".toList := by decide +kernel

end PG.Props.Installation
