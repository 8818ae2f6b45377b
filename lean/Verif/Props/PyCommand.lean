import Verif.Spec.PyCommand
/-!
# C91: running programs with `pg_python` and `postgresql.python.command`
-/

namespace PG.Props.PyCommand
open PG.PyCommand PG.Spec.PyCommand

/-- The descriptor of a `-C` value. -/
def tagged (v : Str) : Str × Desc := (v, (findLoader v).getD .single)

theorem after7_append (p n : Str) (h : p.length = 7) : after7 p (p ++ n) = some n := by
  unfold after7
  rw [if_pos (List.isPrefixOf_iff_prefix.mpr (List.prefix_append p n)), List.drop_append]
  rw [List.drop_eq_nil_of_le (by omega), h]; simp

theorem after7_none {p x : Str} (h : ¬ p <+: x) : after7 p x = none := by
  unfold after7; rw [if_neg (fun e => h (List.isPrefixOf_iff_prefix.mp e))]

theorem not_module_file (p : Str) : after7 "module:".toList ("file://".toList ++ p) = none := by
  apply after7_none; rintro ⟨t, ht⟩; cases ht

theorem tagged_module (n : Str) : tagged ("module:".toList ++ n) = ("module:".toList ++ n, .module) := by
  have h : Desc.module.extract ("module:".toList ++ n) = some n := after7_append _ _ (by decide)
  unfold tagged findLoader
  rw [if_pos (by rw [h]; rfl)]; rfl

theorem tagged_file (n : Str) : tagged ("file://".toList ++ n) = ("file://".toList ++ n, .file) := by
  have h : Desc.module.extract ("file://".toList ++ n) = none := not_module_file n
  have h' : Desc.file.extract ("file://".toList ++ n) = some n := after7_append _ _ (by decide)
  unfold tagged findLoader
  rw [if_neg (by rw [h]; exact Bool.false_ne_true), if_pos (by rw [h']; rfl)]; rfl

theorem tagged_text {v : Str} (h1 : ¬ "module:".toList <+: v) (h2 : ¬ "file://".toList <+: v) : tagged v = (v, .single) := by
  have h : Desc.module.extract v = none := after7_none h1
  have h' : Desc.file.extract v = none := after7_none h2
  unfold tagged findLoader
  rw [if_neg (by rw [h]; exact Bool.false_ne_true), if_neg (by rw [h']; exact Bool.false_ne_true)]; rfl

theorem names_load {py : Py ρ} {w : World ρ} {v : Str} {c : Code ρ} {p f : Str} (h : Names py w v c p f) :
    (tagged v).2.extract v = some p ∧
    ∃ l, (tagged v).2.load py w p = .ok (some l) ∧ l.code py w p = .ok (some c) ∧ l.filename py p = some f := by
  cases h with
  | module n c h1 h2 =>
    rw [tagged_module]
    refine ⟨after7_append _ _ (by decide), .module p, ?_, h2, rfl⟩
    dsimp only [Desc.load]; rw [h1]
  | script q s c h1 h2 =>
    rw [tagged_file]
    refine ⟨after7_append _ _ (by decide), .script p none, rfl, ?_, ?_⟩
    · dsimp only [Loader.code]
      rw [if_neg (by simp), h1]; dsimp only; rw [h2]; rfl
    · dsimp only [Loader.filename]; rw [if_pos rfl]
  | text s' c h1 h2 h3 =>
    rw [tagged_text h1 h2]
    refine ⟨rfl, .single _, rfl, ?_, ?_⟩
    · dsimp only [Loader.code]; rw [if_pos rfl, h3]; rfl
    · dsimp only [Loader.filename]; rw [if_pos rfl]

/-- All contexts run: the rest goes on from there. -/
theorem contexts_all {py : Py ρ} : ∀ {vs : List Str} {w w' : World ρ} {ps : List Str}, AllRan py vs w w' ps →
    ∀ more, ∃ t, executed t = ps ∧
      contexts py (vs.map tagged ++ more) w = (match contexts py more w' with | (x, t', o) => (x, t ++ t', o)) := by
  intro vs w w' ps h
  induction h with
  | nil w => intro more; exact ⟨[], rfl, rfl⟩
  | cons v vs c p f w w₁ w₂ ps hn hc _ ih =>
    intro more
    obtain ⟨he, l, hl, hcode, hf⟩ := names_load hn
    obtain ⟨t, ht, hr⟩ := ih more
    refine ⟨.exec p l w.argv (some f) :: t, by simp only [executed, List.filterMap_cons] at ht ⊢; rw [ht], ?_⟩
    have hv : (tagged v).1 = v := rfl
    rw [List.map_cons, List.cons_append]
    generalize htag : tagged v = tv at he hl hv
    obtain ⟨v', d⟩ := tv
    dsimp only at hv he hl; subst hv
    generalize contexts py more w₂ = K at hr ⊢
    obtain ⟨k1, k2, k3⟩ := K
    unfold contexts
    rw [he]; dsimp only
    rw [hl]; dsimp only
    rw [hcode]; dsimp only [exec]
    rw [hf, hc]; dsimp only
    rw [hr]; rfl

theorem contexts_stop {py : Py ρ} {w w' : World ρ} {v : Str} {c : Code ρ} {p f : Str} {e : Exc} (hn : Names py w v c p f)
    (hc : c { w with file := some f } = (w', some e)) (more : List (Str × Desc)) :
    ∃ l, contexts py (tagged v :: more) w = (say w' [.trace e], [.exec p l w.argv (some f)], some (.ok (.int 1))) := by
  obtain ⟨he, l, hl, hcode, hf⟩ := names_load hn
  refine ⟨l, ?_⟩
  have hv : (tagged v).1 = v := rfl
  generalize htag : tagged v = tv at he hl hv
  obtain ⟨v', d⟩ := tv
  dsimp only at hv he hl; subst hv
  unfold contexts
  rw [he]; dsimp only
  rw [hl]; dsimp only
  rw [hcode]; dsimp only [exec]
  rw [hf, hc]

theorem parse_contexts (tl : List Str) : ∀ (vs : List Str) (p : Parsed),
    parse p (contextArgs vs ++ tl) = parse { p with context := p.context ++ vs.map tagged } tl
  | [], p => by
    show parse p tl = _
    congr 1; simp
  | v :: vs, p => by
    have hp : contextArgs (v :: vs) ++ tl = "-C".toList :: v :: (contextArgs vs ++ tl) := rfl
    rw [hp]
    have hs : parse p ("-C".toList :: v :: (contextArgs vs ++ tl)) = parse (appendContext p v) (contextArgs vs ++ tl) := rfl
    rw [hs, parse_contexts tl vs]
    congr 1
    simp [appendContext, tagged]

theorem status_of (r : Option Exc) : (match r.map fun e => (true, e) with
    | none => Except.ok (.int 0)
    | some (_, .systemExit c) => .ok c
    | some (true, _) => .ok (.int 1)
    | some (false, e) => .error e : Except Exc Exit) = .ok (status r) := by
  cases r with
  | none => rfl
  | some e => cases e <;> rfl

/-- The main program without a post mortem function. -/
theorem main_run {py : Py ρ} {args : List Str} {path f : Str} {l : Loader} {c : Code ρ} {w w' : World ρ} {r : Option Exc}
    (hf : l.filename py path = some f)
    (hcode : l.code py { w with file := some f, argv := some f :: args.map some } path = .ok (some c))
    (hc : c { w with file := some f, argv := some f :: args.map some } = (w', r)) :
    (runMain py args path l none w).result = .ok (status r) ∧
    (runMain py args path l none w).trace = [.exec path l (some f :: args.map some) (some f)] ∧
    (runMain py args path l none w).world.rest = w'.rest := by
  unfold runMain
  rw [hf]; dsimp only
  rw [hcode]; dsimp only [withPm, exec]
  rw [hc]; dsimp only
  cases r with
  | none => exact ⟨rfl, rfl, rfl⟩
  | some e => cases e <;> exact ⟨rfl, rfl, rfl⟩

/-- Whatever is common to the three kinds of main program. -/
theorem run_common {py : Py ρ} {vs ps : List Str} {w w₁ w₂ : World ρ} {x : Execution} {me : Nat} {path f : Str} {l : Loader}
    {c : Code ρ} {r : Option Exc} (interact : Code ρ)
    (hx : x.context = vs.map tagged) (hm : x.main = some (path, l))
    (hran : AllRan py vs { w with main := some (some me) } w₁ ps)
    (hf : l.filename py path = some f)
    (hcode : l.code py { w₁ with file := some f, argv := some f :: x.args.map some } path = .ok (some c))
    (hc : c { w₁ with file := some f, argv := some f :: x.args.map some } = (w₂, r)) :
    (call py x me interact none w).result = .ok (status r) ∧
    executed (call py x me interact none w).trace = ps ++ [path] ∧
    (call py x me interact none w).trace.getLast? = some (.exec path l (some f :: x.args.map some) (some f)) ∧
    (call py x me interact none w).world.rest = w₂.rest := by
  obtain ⟨t, ht, hctx⟩ := contexts_all hran []
  rw [List.append_nil] at hctx
  obtain ⟨h1, h2, h3⟩ := main_run hf hcode hc
  unfold call call'
  rw [hx, hctx]; dsimp only [contexts]
  rw [hm]; dsimp only
  rw [h1, h2, h3]
  refine ⟨rfl, ?_, ?_, rfl⟩
  · simp [executed] at ht ⊢; exact ht
  · simp

/-- **C91** `-c text`: the contexts run first, in order and in the namespace and state each leaves to the next; then the text is
compiled and run with `sys.argv` being `<command>` and all further arguments, options or not; the status is 0, the code of the
`SystemExit` it raised, or 1. -/
theorem C91_command {py : Py ρ} {vs ps args : List Str} {w w₁ w₂ : World ρ} {s prog : Str} {c : Code ρ} {r : Option Exc} (me : Nat)
    (stdin : Stdin) (interact : Code ρ)
    (hran : AllRan py vs { w with main := some (some me) } w₁ ps) (hs : py.compile s = .ok c)
    (hc : c { w₁ with file := some "<command>".toList, argv := (("<command>".toList) :: args).map some } = (w₂, r)) :
    let R := command py stdin (prog :: contextArgs vs ++ "-c".toList :: s :: args) me interact none w
    R.result = .ok (status r) ∧ executed R.trace = ps ++ [s] ∧ R.world.rest = w₂.rest := by
  intro R
  have hp : parse {} (contextArgs vs ++ "-c".toList :: s :: args) =
      .ok { context := vs.map tagged, main := some (s, .single), args := args } := by
    rw [parse_contexts]; rfl
  have hR : R = call py { args := args, context := vs.map tagged, main := some (s, .single s) } me interact none w := by
    show command _ _ _ _ _ _ _ = _
    unfold command
    rw [show (prog :: contextArgs vs ++ "-c".toList :: s :: args).tail = contextArgs vs ++ "-c".toList :: s :: args from rfl, hp]
    rfl
  have h := run_common (py := py) (x := { args := args, context := vs.map tagged, main := some (s, .single s) }) (path := s)
    (f := "<command>".toList) (l := .single s) (c := c) (r := r) (w := w) (w₁ := w₁) (w₂ := w₂) (me := me) interact rfl rfl hran
    (by dsimp only [Loader.filename]; rw [if_pos rfl]) (by dsimp only [Loader.code]; rw [if_pos rfl, hs]; rfl) hc
  rw [hR]
  exact ⟨h.1, h.2.1, h.2.2.2⟩

/-- **C91** a script: the first argument that is not an option names the file, whose text is read before anything runs; it sees
its name and all further arguments. -/
theorem C91_script {py : Py ρ} {vs ps args : List Str} {w w₁ w₂ : World ρ} {path s prog : Str} {c : Code ρ} {r : Option Exc}
    (me : Nat) (stdin : Stdin) (interact : Code ρ) (hpath : path.head? ≠ some '-')
    (hran : AllRan py vs { w with main := some (some me) } w₁ ps) (hread : py.read w path = .ok s) (hs : py.compile s = .ok c)
    (hc : c { w₁ with file := some path, argv := (path :: args).map some } = (w₂, r)) :
    let R := command py stdin (prog :: contextArgs vs ++ path :: args) me interact none w
    R.result = .ok (status r) ∧ executed R.trace = ps ++ [path] ∧ R.world.rest = w₂.rest := by
  intro R
  have hcl : classify path = .positional := by
    unfold classify
    split <;> first | rfl | exact absurd rfl hpath
  have hp : parse {} (contextArgs vs ++ path :: args) = .ok { context := vs.map tagged, main := none, args := path :: args } := by
    rw [parse_contexts]; unfold parse; rw [hcl]; rfl
  have hR : R = call py { args := args, context := vs.map tagged, main := some (path, .script path (some s)) } me interact none w := by
    show command _ _ _ _ _ _ _ = _
    unfold command
    rw [show (prog :: contextArgs vs ++ path :: args).tail = contextArgs vs ++ path :: args from rfl, hp]
    dsimp only [init]; rw [hread]
  have h := run_common (py := py) (x := { args := args, context := vs.map tagged, main := some (path, .script path (some s)) })
    (path := path) (f := path) (l := .script path (some s)) (c := c) (r := r) (w := w) (w₁ := w₁) (w₂ := w₂) (me := me) interact
    rfl rfl hran (by dsimp only [Loader.filename]; rw [if_pos rfl])
    (by dsimp only [Loader.code]; rw [if_neg (by simp), hs]; rfl) hc
  rw [hR]
  exact ⟨h.1, h.2.1, h.2.2.2⟩

/-- **C91** `-m name`: the module must be found before anything runs; its code is asked for after the contexts ran. -/
theorem C91_module {py : Py ρ} {vs ps args : List Str} {w w₁ w₂ : World ρ} {n prog : Str} {c : Code ρ} {r : Option Exc}
    (me : Nat) (stdin : Stdin) (interact : Code ρ)
    (hran : AllRan py vs { w with main := some (some me) } w₁ ps) (hfind : py.getLoader w n = .ok true)
    (hs : py.modCode { w₁ with file := some (py.modFile n), argv := (py.modFile n :: args).map some } n = .ok (some c))
    (hc : c { w₁ with file := some (py.modFile n), argv := (py.modFile n :: args).map some } = (w₂, r)) :
    let R := command py stdin (prog :: contextArgs vs ++ "-m".toList :: n :: args) me interact none w
    R.result = .ok (status r) ∧ executed R.trace = ps ++ [n] ∧ R.world.rest = w₂.rest := by
  intro R
  have hp : parse {} (contextArgs vs ++ "-m".toList :: n :: args) =
      .ok { context := vs.map tagged, main := some (n, .module), args := args } := by
    rw [parse_contexts]; rfl
  have hR : R = call py { args := args, context := vs.map tagged, main := some (n, .module n) } me interact none w := by
    show command _ _ _ _ _ _ _ = _
    unfold command
    rw [show (prog :: contextArgs vs ++ "-m".toList :: n :: args).tail = contextArgs vs ++ "-m".toList :: n :: args from rfl, hp]
    dsimp only [init, Desc.load]; rw [hfind]
  have h := run_common (py := py) (x := { args := args, context := vs.map tagged, main := some (n, .module n) })
    (path := n) (f := py.modFile n) (l := .module n) (c := c) (r := r) (w := w) (w₁ := w₁) (w₂ := w₂) (me := me) interact
    rfl rfl hran rfl hs hc
  rw [hR]
  exact ⟨h.1, h.2.1, h.2.2.2⟩

/-- **C91** the standard input is the program when there are no arguments and it is no terminal; otherwise the console is started,
after the contexts, and its status is 0 or that of its `SystemExit`. -/
theorem C91_stdin {py : Py ρ} {vs ps : List Str} {w w₁ w₂ : World ρ} {text prog : Str} {c : Code ρ} {r : Option Exc}
    (me : Nat) (interact : Code ρ)
    (hran : AllRan py vs { w with main := some (some me) } w₁ ps) (hs : py.compile text = .ok c)
    (hc : c { w₁ with file := some "<stdin>".toList, argv := [some "<stdin>".toList] } = (w₂, r)) :
    let R := command py { tty := false, text := text } (prog :: contextArgs vs) me interact none w
    R.result = .ok (status r) ∧ executed R.trace = ps ++ ["<stdin>".toList] ∧ R.world.rest = w₂.rest := by
  intro R
  have hp : parse {} (contextArgs vs) = .ok { context := vs.map tagged, main := none, args := [] } := by
    rw [← List.append_nil (contextArgs vs), parse_contexts]; rfl
  have hR : R = call py ⟨[], vs.map tagged, some ("<stdin>".toList, .script "<stdin>".toList (some text))⟩ me interact none w := by
    show command _ _ _ _ _ _ _ = _
    unfold command
    rw [show (prog :: contextArgs vs).tail = contextArgs vs from rfl, hp]
    rfl
  have h := run_common (py := py) (x := ⟨[], vs.map tagged, some ("<stdin>".toList, .script "<stdin>".toList (some text))⟩)
    (path := "<stdin>".toList) (f := "<stdin>".toList) (l := .script "<stdin>".toList (some text)) (c := c) (r := r) (w := w)
    (w₁ := w₁) (w₂ := w₂) (me := me) interact
    rfl rfl hran (by dsimp only [Loader.filename]; rw [if_pos rfl])
    (by dsimp only [Loader.code]; rw [if_neg (by simp), hs]; rfl) hc
  rw [hR]
  exact ⟨h.1, h.2.1, h.2.2.2⟩

/-- **C91** the console. -/
theorem C91_console {py : Py ρ} {vs ps : List Str} {w w₁ w₂ : World ρ} {text prog : Str} {r : Option Exc}
    (me : Nat) (interact : Code ρ) (pm : Option (PostMortem ρ))
    (hran : AllRan py vs { w with main := some (some me) } w₁ ps)
    (hc : interact { w₁ with argv := [some "<console>".toList] } = (w₂, r)) :
    let R := command py { tty := true, text := text } (prog :: contextArgs vs) me interact pm w
    R.result = consoleStatus r ∧
    executed R.trace = ps ∧ R.trace.getLast? = some (.console [some "<console>".toList]) ∧ R.world.rest = w₂.rest := by
  intro R
  have hp : parse {} (contextArgs vs) = .ok { context := vs.map tagged, main := none, args := [] } := by
    rw [← List.append_nil (contextArgs vs), parse_contexts]; rfl
  have hR : R = call py { args := [], context := vs.map tagged, main := none } me interact pm w := by
    show command _ _ _ _ _ _ _ = _
    unfold command
    rw [show (prog :: contextArgs vs).tail = contextArgs vs from rfl, hp]
    rfl
  rw [hR]
  obtain ⟨t, ht, hctx⟩ := contexts_all hran []
  rw [List.append_nil] at hctx
  unfold call call'
  dsimp only
  rw [hctx]; dsimp only [contexts, runConsole]
  rw [if_pos rfl, hc]
  have hex : ∀ a, executed ((t ++ []) ++ [.console a]) = ps := by
    intro a; simp [executed] at ht ⊢; exact ht
  have hl : ∀ a : List (Option Str), ((t ++ []) ++ [Ev.console a]).getLast? = some (.console a) := by intro a; simp
  cases r with
  | none => exact ⟨rfl, hex _, hl _, rfl⟩
  | some e => cases e <;> exact ⟨rfl, hex _, hl _, rfl⟩

/-- **C91** a context that raises, anything at all, ends the run with status 1: its exception is printed, and neither the
contexts after it nor the main program run. -/
theorem C91_context_raises {py : Py ρ} {vs ps more args : List Str} {w w₁ w₂ : World ρ} {v s prog p f : Str} {c : Code ρ} {e : Exc}
    (me : Nat) (stdin : Stdin) (interact : Code ρ) (pm : Option (PostMortem ρ))
    (hran : AllRan py vs { w with main := some (some me) } w₁ ps) (hv : Names py w₁ v c p f)
    (hc : c { w₁ with file := some f } = (w₂, some e)) :
    let R := command py stdin (prog :: contextArgs (vs ++ v :: more) ++ "-c".toList :: s :: args) me interact pm w
    R.result = .ok (.int 1) ∧ executed R.trace = ps ++ [p] ∧ R.world.err = w₂.err ++ [.trace e] ∧ R.world.rest = w₂.rest := by
  intro R
  have hp : parse {} (contextArgs (vs ++ v :: more) ++ "-c".toList :: s :: args) =
      .ok { context := (vs ++ v :: more).map tagged, main := some (s, .single), args := args } := by
    rw [parse_contexts]; rfl
  have hR : R = call py { args := args, context := (vs ++ v :: more).map tagged, main := some (s, .single s) } me interact pm w := by
    show command _ _ _ _ _ _ _ = _
    unfold command
    rw [show (prog :: contextArgs (vs ++ v :: more) ++ "-c".toList :: s :: args).tail
      = contextArgs (vs ++ v :: more) ++ "-c".toList :: s :: args from rfl, hp]
    rfl
  rw [hR]
  obtain ⟨l, hst⟩ := contexts_stop hv hc (more.map tagged)
  obtain ⟨t, ht, hctx⟩ := contexts_all hran (tagged v :: more.map tagged)
  rw [hst] at hctx
  have hmap : (vs ++ v :: more).map tagged = vs.map tagged ++ tagged v :: more.map tagged := by simp
  unfold call call'
  dsimp only
  rw [hmap, hctx]; dsimp only
  refine ⟨rfl, ?_, rfl, rfl⟩
  simp [executed] at ht ⊢; rw [ht]

/-- **C91** a program that does not compile, given as the first context: status 1, the error printed, nothing run. -/
theorem C91_context_text_broken {py : Py ρ} {more args : List Str} {w : World ρ} {v s prog : Str} {e : Exc}
    (me : Nat) (stdin : Stdin) (interact : Code ρ) (pm : Option (PostMortem ρ))
    (h1 : ¬ "module:".toList <+: v) (h2 : ¬ "file://".toList <+: v) (hv : py.compile v = .error e) :
    let R := command py stdin (prog :: contextArgs (v :: more) ++ "-c".toList :: s :: args) me interact pm w
    R.result = .ok (.int 1) ∧ R.trace = [] ∧ R.world.err = w.err ++ [.trace e] := by
  intro R
  have hp : parse {} (contextArgs (v :: more) ++ "-c".toList :: s :: args) =
      .ok { context := (v :: more).map tagged, main := some (s, .single), args := args } := by
    rw [parse_contexts]; rfl
  have ht : tagged v = (v, .single) := tagged_text h1 h2
  have hR : R = call py { args := args, context := (v :: more).map tagged, main := some (s, .single s) } me interact pm w := by
    show command _ _ _ _ _ _ _ = _
    unfold command
    rw [show (prog :: contextArgs (v :: more) ++ "-c".toList :: s :: args).tail
      = contextArgs (v :: more) ++ "-c".toList :: s :: args from rfl, hp]
    rfl
  rw [hR]
  unfold call call'
  dsimp only
  rw [List.map_cons, ht]
  unfold contexts
  dsimp only [Desc.extract, Desc.load, Loader.code]
  rw [if_pos rfl, hv]
  exact ⟨rfl, rfl, rfl⟩

/-- **C91** a module that is not there, given as the first context: status 1 and a message, nothing run. -/
theorem C91_context_module_missing {py : Py ρ} {more args : List Str} {w : World ρ} {n s prog : Str}
    (me : Nat) (stdin : Stdin) (interact : Code ρ) (pm : Option (PostMortem ρ))
    (hv : ∀ w, py.getLoader w n = .ok false) :
    let R := command py stdin (prog :: contextArgs (("module:".toList ++ n) :: more) ++ "-c".toList :: s :: args) me interact pm w
    R.result = .ok (.int 1) ∧ R.trace = [] ∧ R.world.err = w.err ++ [.missing "Python module".toList n] := by
  intro R
  have hp : parse {} (contextArgs (("module:".toList ++ n) :: more) ++ "-c".toList :: s :: args) =
      .ok { context := (("module:".toList ++ n) :: more).map tagged, main := some (s, .single), args := args } := by
    rw [parse_contexts]; rfl
  have ht : tagged ("module:".toList ++ n) = ("module:".toList ++ n, .module) := tagged_module n
  have hR : R = call py { args := args, context := (("module:".toList ++ n) :: more).map tagged, main := some (s, .single s) }
      me interact pm w := by
    show command _ _ _ _ _ _ _ = _
    unfold command
    rw [show (prog :: contextArgs (("module:".toList ++ n) :: more) ++ "-c".toList :: s :: args).tail
      = contextArgs (("module:".toList ++ n) :: more) ++ "-c".toList :: s :: args from rfl, hp]
    rfl
  rw [hR]
  unfold call call'
  dsimp only
  rw [List.map_cons, ht]
  unfold contexts
  dsimp only [Desc.extract, Desc.load]
  rw [after7_append _ _ (by decide)]
  dsimp only
  rw [hv]
  exact ⟨rfl, rfl, rfl⟩

/-- **C91** a main program that cannot be found or read is an exception before anything is run. -/
theorem C91_main_missing {py : Py ρ} {vs args : List Str} {w : World ρ} {n prog : Str} {e : Exc}
    (me : Nat) (stdin : Stdin) (interact : Code ρ) (pm : Option (PostMortem ρ)) :
    (py.getLoader w n = .ok false →
      let R := command py stdin (prog :: contextArgs vs ++ "-m".toList :: n :: args) me interact pm w
      R.result = .error .importError ∧ R.trace = [] ∧ R.world = w) ∧
    (n.head? ≠ some '-' → py.read w n = .error e →
      let R := command py stdin (prog :: contextArgs vs ++ n :: args) me interact pm w
      R.result = .error e ∧ R.trace = [] ∧ R.world = w) := by
  constructor
  · intro hf R
    have hp : parse {} (contextArgs vs ++ "-m".toList :: n :: args) =
        .ok { context := vs.map tagged, main := some (n, .module), args := args } := by
      rw [parse_contexts]; rfl
    have hR : R = { world := w, trace := [], result := .error .importError } := by
      show command _ _ _ _ _ _ _ = _
      unfold command
      rw [show (prog :: contextArgs vs ++ "-m".toList :: n :: args).tail = contextArgs vs ++ "-m".toList :: n :: args from rfl, hp]
      dsimp only [init, Desc.load]; rw [hf]
    rw [hR]; exact ⟨rfl, rfl, rfl⟩
  · intro hpath hf R
    have hcl : classify n = .positional := by
      unfold classify
      split <;> first | rfl | exact absurd rfl hpath
    have hp : parse {} (contextArgs vs ++ n :: args) = .ok { context := vs.map tagged, main := none, args := n :: args } := by
      rw [parse_contexts]; unfold parse; rw [hcl]; rfl
    have hR : R = { world := w, trace := [], result := .error e } := by
      show command _ _ _ _ _ _ _ = _
      unfold command
      rw [show (prog :: contextArgs vs ++ n :: args).tail = contextArgs vs ++ n :: args from rfl, hp]
      dsimp only [init]; rw [hf]
    rw [hR]; exact ⟨rfl, rfl, rfl⟩

/-- **C91** (part) whatever the programs do and however the run ends, `sys.argv`, the module `__main__` and the entries of
`os.environ` are what they were.  Missing: the environment child processes inherit, and `os.environ` being the object that changes
it, see `C91_environment_lost`. -/
theorem C91_restores_partial {py : Py ρ} (x : Execution) (me : Nat) (interact : Code ρ) (pm : Option (PostMortem ρ)) (w : World ρ) :
    (call py x me interact pm w).world.argv = w.argv ∧
    (call py x me interact pm w).world.main.get = w.main.get ∧
    (call py x me interact pm w).world.context.get = w.context.get ∧
    (call py x me interact pm w).world.environ.vars = w.environ.vars :=
  ⟨rfl, rfl, rfl, rfl⟩

/-- A run of the console that takes `os.environ['A'] = '1'`. -/
def setA : Code Unit := fun w =>
  ({ w with environ := { w.environ with vars := [("A".toList, "1".toList)] },
            procEnv := if w.environ.live then [("A".toList, "1".toList)] else w.procEnv }, none)

def quiet : Py Unit where
  compile s := if s = "A".toList then .ok setA else .ok fun w => (w, none)
  read _ _ := .error .fileNotFound
  getLoader _ _ := .ok false
  modCode _ _ := .ok none
  modFile n := n

def start : World Unit :=
  { argv := [some "prog".toList], main := some (some 7), context := none, environ := ⟨true, []⟩, procEnv := [], last := none,
    file := none, err := [], rest := () }

/-- The unrestricted claim fails: a variable the program sets is gone from `os.environ` but child processes still get it, and
afterwards setting `os.environ` does not reach child processes any more. -/
theorem C91_environment_lost :
    let R := command quiet { tty := true, text := [] } ["prog".toList, "-c".toList, "A".toList] 8 setA none start
    R.world.environ.vars = [] ∧ R.world.procEnv = [("A".toList, "1".toList)] ∧ R.world.environ.live = false := by
  decide +kernel

theorem contexts_no_mortem {py : Py ρ} : ∀ (cs : List (Str × Desc)) (w : World ρ), mortems (contexts py cs w).2.1 = []
  | [], _ => rfl
  | (path, d) :: cs, w => by
    unfold contexts
    cases d.extract path with
    | none => rfl
    | some r =>
      dsimp only
      cases d.load py w r with
      | error e => rfl
      | ok l =>
        cases l with
        | none => rfl
        | some l =>
          dsimp only
          cases l.code py w r with
          | error e => rfl
          | ok c =>
            dsimp only
            generalize exec c { w with file := l.filename py r } = o
            obtain ⟨w', e⟩ := o
            cases e with
            | some e => rfl
            | none => exact contexts_no_mortem cs w'

/-- **C91** a post mortem function, if finding it changes nothing, is called exactly when the program raises, a `SystemExit`
included; whatever it does, and whether or not it raises, status and programs run are the same as without (C91_command). -/
theorem C91_postmortem {py : Py ρ} {vs ps args : List Str} {w w₁ w₂ : World ρ} {s prog : Str} {c : Code ρ} {r : Option Exc} (me : Nat)
    (stdin : Stdin) (interact : Code ρ) (ob : Option (Code ρ))
    (hran : AllRan py vs { w with main := some (some me) } w₁ ps) (hs : py.compile s = .ok c)
    (hc : c { w₁ with file := some "<command>".toList, argv := (("<command>".toList) :: args).map some } = (w₂, r)) :
    let R := command py stdin (prog :: contextArgs vs ++ "-c".toList :: s :: args) me interact (some fun w => (w, .ok ob)) w
    R.result = .ok (status r) ∧ executed R.trace = ps ++ [s] ∧ mortems R.trace = r.toList := by
  intro R
  have hp : parse {} (contextArgs vs ++ "-c".toList :: s :: args) =
      .ok { context := vs.map tagged, main := some (s, .single), args := args } := by
    rw [parse_contexts]; rfl
  have hR : R = call py { args := args, context := vs.map tagged, main := some (s, .single s) } me interact
      (some fun w => (w, .ok ob)) w := by
    show command _ _ _ _ _ _ _ = _
    unfold command
    rw [show (prog :: contextArgs vs ++ "-c".toList :: s :: args).tail = contextArgs vs ++ "-c".toList :: s :: args from rfl, hp]
    rfl
  obtain ⟨t, ht, hctx⟩ := contexts_all hran []
  rw [List.append_nil] at hctx
  have hno := contexts_no_mortem (py := py) (vs.map tagged) { w with main := some (some me) }
  rw [hctx] at hno
  replace hno : mortems (t ++ []) = [] := hno
  have hmain : (runMain py args s (.single s) (some fun w => (w, .ok ob)) w₁).result = .ok (status r) ∧
      executed (runMain py args s (.single s) (some fun w => (w, .ok ob)) w₁).trace = [s] ∧
      mortems (runMain py args s (.single s) (some fun w => (w, .ok ob)) w₁).trace = r.toList := by
    have hf : (Loader.single s).filename py s = some "<command>".toList := by dsimp only [Loader.filename]; rw [if_pos rfl]
    have hcd : ∀ w, (Loader.single s).code py w s = .ok (some c) := by
      intro w; dsimp only [Loader.code]; rw [if_pos rfl, hs]; rfl
    have he : exec (some c) { w₁ with file := some "<command>".toList, argv := some "<command>".toList :: args.map some } = (w₂, r) := hc
    unfold runMain
    rw [hf]; dsimp only
    rw [hcd]; dsimp only [withPm]
    rw [he]
    cases r with
    | none => exact ⟨rfl, rfl, rfl⟩
    | some e =>
      dsimp only
      generalize exec ob { w₂ with last := some e } = o
      obtain ⟨w', e'⟩ := o
      cases e' <;> cases e <;> exact ⟨rfl, rfl, rfl⟩
  rw [hR]
  unfold call call'
  dsimp only
  rw [hctx]; dsimp only [contexts]
  obtain ⟨h1, h2, h3⟩ := hmain
  refine ⟨h1, ?_, ?_⟩
  · show executed _ = _
    unfold executed at ht h2 ⊢
    rw [List.filterMap_append, h2, List.append_nil, ht]
  · show mortems _ = _
    unfold mortems at hno h3 ⊢
    rw [List.filterMap_append, hno, h3]; rfl

/-- **C91** a post mortem function whose module cannot be imported keeps the program from running: the exception leaves the
command. -/
theorem C91_postmortem_missing {py : Py ρ} {args : List Str} {w : World ρ} {s prog : Str} {c : Code ρ} (me : Nat)
    (stdin : Stdin) (interact : Code ρ) (enter : PostMortem ρ) (hs : py.compile s = .ok c)
    (he : ∀ w, ∃ w', enter w = (w', .error .importError)) :
    let R := command py stdin (prog :: "-c".toList :: s :: args) me interact (some enter) w
    R.result = .error .importError ∧ R.trace = [] := by
  intro R
  have hR : R = call py { args := args, context := [], main := some (s, .single s) } me interact (some enter) w := rfl
  have hcd : ∀ w, (Loader.single s).code py w s = .ok (some c) := by
    intro w; dsimp only [Loader.code]; rw [if_pos rfl, hs]; rfl
  rw [hR]
  unfold call call' contexts
  dsimp only
  unfold runMain
  dsimp only
  rw [hcd]; dsimp only [withPm]
  generalize hw : ({ ({ w with main := some (some me) } : World ρ) with
      file := (Loader.single s).filename py s, argv := (Loader.single s).filename py s :: args.map some } : World ρ) = w0
  obtain ⟨w1, h1⟩ := he w0
  rw [h1]
  exact ⟨rfl, rfl⟩

/-! ### Examples -/

/-- An interpreter whose programs are single letters: `A` sets a variable, `E` exits with 3, `X` raises, others do nothing. -/
def letters : Py Unit where
  compile s :=
    if s = "A".toList then .ok setA
    else if s = "E".toList then .ok fun w => (w, some (.systemExit (.int 3)))
    else if s = "X".toList then .ok fun w => (w, some (.error 5))
    else if s = "(".toList then .error (.error 1)
    else .ok fun w => (w, none)
  read _ p := if p = "f.py".toList then .ok "E".toList else .error .fileNotFound
  getLoader _ n := .ok (n = "mod".toList)
  modCode _ _ := .ok (some fun w => (w, some (.error 9)))
  modFile n := n ++ ".py".toList

/-- Two contexts, a file and a text, then `-c E`: status 3. -/
example :
    (command letters ⟨true, []⟩ ["prog".toList, "-C".toList, "A".toList, "-C".toList, "p".toList, "-c".toList, "E".toList, "-x".toList]
      8 setA none start).result = .ok (.int 3) ∧
    executed (command letters ⟨true, []⟩ ["prog".toList, "-C".toList, "A".toList, "-C".toList, "p".toList, "-c".toList, "E".toList,
      "-x".toList] 8 setA none start).trace = ["A".toList, "p".toList, "E".toList] := by
  exact ⟨rfl, rfl⟩

/-- The hypotheses of `C91_command` hold with a context. -/
example : ∃ w₁ ps, AllRan letters ["A".toList] { start with main := some (some 8) } w₁ ps ∧ ps = ["A".toList] :=
  ⟨_, _, .cons _ _ setA "A".toList _ _ _ _ _ (.text _ _ (by decide) (by decide) (by rfl)) rfl (.nil _), rfl⟩

/-- A script, a module, standard input, the console. -/
example :
    (command letters ⟨true, []⟩ ["prog".toList, "f.py".toList, "-c".toList] 8 setA none start).result = .ok (.int 3) ∧
    (command letters ⟨true, []⟩ ["prog".toList, "-m".toList, "mod".toList] 8 setA none start).result = .ok (.int 1) ∧
    (command letters ⟨false, "E".toList⟩ ["prog".toList] 8 setA none start).result = .ok (.int 3) ∧
    (command letters ⟨true, []⟩ ["prog".toList] 8 setA none start).result = .ok (.int 0) := by
  exact ⟨rfl, rfl, rfl, rfl⟩

/-- Failures: a context that exits is a failure too, whatever its code. -/
example :
    (command letters ⟨true, []⟩ ["prog".toList, "-C".toList, "file://f.py".toList, "-c".toList, "A".toList] 8 setA none start).result
      = .ok (.int 1) ∧
    (command letters ⟨true, []⟩ ["prog".toList, "-C".toList, "(".toList, "-c".toList, "A".toList] 8 setA none start).result
      = .ok (.int 1) ∧
    (command letters ⟨true, []⟩ ["prog".toList, "-C".toList, "module:none".toList, "-c".toList, "A".toList] 8 setA none start).result
      = .ok (.int 1) ∧
    (command letters ⟨true, []⟩ ["prog".toList, "-m".toList, "none".toList] 8 setA none start).result = .error .importError ∧
    (command letters ⟨true, []⟩ ["prog".toList, "none.py".toList] 8 setA none start).result = .error .fileNotFound := by
  exact ⟨rfl, rfl, rfl, rfl, rfl⟩

/-- A post mortem function that raises. -/
example :
    (command letters ⟨true, []⟩ ["prog".toList, "-c".toList, "X".toList] 8 setA
      (some fun w => (w, .ok (some fun w => (w, some (.error 2))))) start).result = .ok (.int 1) ∧
    mortems (command letters ⟨true, []⟩ ["prog".toList, "-c".toList, "X".toList] 8 setA
      (some fun w => (w, .ok (some fun w => (w, some (.error 2))))) start).trace = [.error 5] := by
  exact ⟨rfl, rfl⟩

end PG.Props.PyCommand
