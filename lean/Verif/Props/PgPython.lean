import Verif.Model.PgPython
import Verif.Props.PyCommand
/-!
# C93: `pg_python`
-/

namespace PG.Props.PgPython
open PG.PgPython PG.Spec.PyCommand
open PG.PyCommand (Exc Exit World Code Py Execution PostMortem Stdin)

/-- An attempt failed because of the credentials. -/
def Refused (a : Attempt) : Prop := ∃ fs, a = .cannot fs ∧ true ∈ fs

theorem attempts_refused (try_ : Nat → Bool → Attempt) (k : Nat) : ∀ (n : Nat) (p : Bool) (fuel : Nat),
    (∀ i < k, Refused (try_ (n + i) (if i = 0 then p else true))) →
    attempts try_ (fuel + k) n p = (match attempts try_ fuel (n + k) (if k = 0 then p else true) with
      | (l, r) => ((List.range k).map (fun i => Ev.attempt (if i = 0 then p else true)) ++ l, r)) := by
  induction k with
  | zero => intro n p fuel _; simp
  | succ k ih =>
    intro n p fuel h
    obtain ⟨fs, hfs, ht⟩ := h 0 (by omega)
    simp only [Nat.add_zero, if_true] at hfs
    have ih' := ih (n + 1) true fuel (by
      intro i hi
      have := h (i + 1) (by omega)
      rw [if_neg (by omega)] at this
      rw [ite_self, Nat.add_assoc, Nat.add_comm 1 i]
      exact this)
    show attempts try_ ((fuel + k) + 1) n p = _
    have hany : fs.any id = true := List.any_eq_true.mpr ⟨true, ht, rfl⟩
    rw [attempts]
    rw [hfs]
    dsimp only
    rw [if_pos hany, ih']
    simp only [ite_self]
    rw [if_neg (by omega : ¬ k + 1 = 0), show n + 1 + k = n + (k + 1) by omega]
    generalize attempts try_ fuel (n + (k + 1)) true = o
    obtain ⟨l, r⟩ := o
    dsimp only
    rw [List.range_succ_eq_map]
    simp

/-- **C93** the attempts: as long as attempts are refused because of the credentials, another is made, and for every one after the
first the password is asked for; the first attempt that is not refused so decides: a connection, the exception, or, at the end of
the input, exit with 1. -/
theorem C93_attempts (try_ : Nat → Bool → Attempt) (k fuel : Nat) (hf : k < fuel)
    (hr : ∀ i < k, Refused (try_ i (i != 0))) (hk : ¬ Refused (try_ k (k != 0))) :
    (attempts try_ fuel 0 false).1 = (List.range (k + 1)).map (fun i => Ev.attempt (i != 0)) ∧
    (attempts try_ fuel 0 false).2 = some (match try_ k (k != 0) with
      | .connected => .ok ()
      | .cannot _ => .error cannotConnect
      | .eof => .error (.systemExit (.int 1))
      | .raised e => .error e) := by
  have hb : ∀ i : Nat, (if i = 0 then false else true) = (i != 0) := by intro i; cases i <;> rfl
  have h := attempts_refused try_ k 0 false (fuel - k) (by intro i hi; rw [Nat.zero_add, hb]; exact hr i hi)
  rw [Nat.sub_add_cancel (by omega), Nat.zero_add, hb] at h
  simp only [hb] at h
  obtain ⟨m, hm⟩ : ∃ m, fuel - k = m + 1 := ⟨fuel - k - 1, by omega⟩
  rw [hm] at h
  rw [attempts] at h
  generalize htry : try_ k (k != 0) = a at h hk ⊢
  rw [h, List.range_succ, List.map_append]
  cases a with
  | connected => exact ⟨rfl, rfl⟩
  | eof => exact ⟨rfl, rfl⟩
  | raised e => exact ⟨rfl, rfl⟩
  | cannot fs =>
    have : fs.any id = false := by
      rw [List.any_eq_false]
      intro b hb' hb''
      exact hk ⟨fs, rfl, by rw [id] at hb''; rwa [hb''] at hb'⟩
    dsimp only
    rw [this]
    exact ⟨rfl, rfl⟩

theorem get_update (n : Str) : ∀ (items d : List (Str × Option Nat)), (items.map Prod.fst).Nodup →
    PyDict.get n (update d items) = match PyDict.get n items with | some v => some v | none => PyDict.get n d
  | [], _, _ => rfl
  | kv :: items, d, h => by
    rw [List.map_cons, List.nodup_cons] at h
    show PyDict.get n (update (PyDict.set kv.1 kv.2 d) items) = _
    rw [get_update n items _ h.2, PyDict.get_cons, PyDict.get_set]
    by_cases e : kv.1 = n
    · rw [if_pos e, if_pos e]
      have : PyDict.get n items = none := by
        rw [← e]
        cases hg : PyDict.get kv.1 items with
        | none => rfl
        | some v =>
          exfalso; apply h.1
          unfold PyDict.get at hg
          cases hf : items.find? fun e => e.1 = kv.1 with
          | none => rw [hf] at hg; cases hg
          | some p =>
            have h1 := List.find?_some hf
            have h2 := List.mem_of_find?_eq_some hf
            simp only [decide_eq_true_eq] at h1
            exact List.mem_map.mpr ⟨p, h2, h1⟩
      rw [this]
    · rw [if_neg e, if_neg e]

theorem get_named (f : Str → Option Nat) (n : Str) : ∀ l : List Str,
    PyDict.get n (l.map fun k => (k, f k)) = if n ∈ l then some (f n) else none
  | [] => rfl
  | k :: l => by
    rw [List.map_cons, PyDict.get_cons, get_named f n l]
    by_cases e : k = n
    · subst e; simp
    · rw [if_neg e]
      have : n ∈ k :: l ↔ n ∈ l := by simp [List.mem_cons, show ¬ n = k from fun x => e x.symm]
      simp only [this]

theorem named_fst (f : Str → Option Nat) : (names.map fun k => (k, f k)).map Prod.fst = names := by
  rw [List.map_map]; exact List.map_id _

theorem names_nodup : names.Nodup := by decide

/-- The built-ins a program runs with. -/
theorem get_over (d : List (Str × Option Nat)) (val : Str → Nat) (n : Str) :
    PyDict.get n (update d (names.map fun k => (k, some (val k)))) = if n ∈ names then some (some (val n)) else PyDict.get n d := by
  rw [get_update _ _ _ (by rw [named_fst (fun k => some (val k))]; exact names_nodup), get_named (fun k => some (val k))]
  split <;> rename_i h <;> split at h <;> simp_all

theorem get_restored (d d' : List (Str × Option Nat)) (n : Str) :
    PyDict.get n (update d' (saved d)) = if n ∈ names then some ((PyDict.get n d).getD none) else PyDict.get n d' := by
  unfold saved
  rw [get_update _ _ _ (by rw [named_fst (fun k => (PyDict.get k d).getD none)]; exact names_nodup),
    get_named (fun k => (PyDict.get k d).getD none)]
  split <;> rename_i h <;> split at h <;> simp_all

/-- The state the program starts in. -/
def starting (w : World (Rest σ)) (libpath : List Str) (val : Str → Nat) : World (Rest σ) :=
  withBuiltins (withLibpath w (".".toList :: w.rest.libpath ++ libpath))
    (update w.rest.builtins (names.map fun k => (k, some (val k))))

theorem starting_builtins (w : World (Rest σ)) (libpath : List Str) (val : Str → Nat) (n : Str) :
    PyDict.get n (starting w libpath val).rest.builtins = if n ∈ names then some (some (val n)) else PyDict.get n w.rest.builtins :=
  get_over _ _ _

theorem command_connected {py : Py (Rest σ)} {try_ : Nat → Bool → Attempt} {libpath : List Str} {x : Execution} {val : Str → Nat}
    {me : Nat} {interact : Code (Rest σ)} {pm : Option (PostMortem (Rest σ))} {fuel : Nat} {w : World (Rest σ)} {db : List Ev}
    (hc : attempts try_ fuel 0 false = (db, some (.ok ()))) :
    command py try_ (.ok ()) libpath (.ok x) val me interact pm fuel w =
      some (connected py (.ok x) val me interact pm db (withLibpath w (".".toList :: w.rest.libpath ++ libpath))) := by
  unfold command; dsimp only; rw [hc]

/-- The built-ins afterwards. -/
theorem builtins_after {py : Py (Rest σ)} {x : Execution} {val : Str → Nat}
    {me : Nat} {interact : Code (Rest σ)} {pm : Option (PostMortem (Rest σ))} {w : World (Rest σ)} {db : List Ev} (libpath : List Str) :
    (connected py (.ok x) val me interact pm db (withLibpath w (".".toList :: w.rest.libpath ++ libpath))).world.rest.builtins =
      update (PyCommand.call py x me interact pm (starting w libpath val)).world.rest.builtins (saved w.rest.builtins) := by
  have hw : (withLibpath w (".".toList :: w.rest.libpath ++ libpath)).rest.builtins = w.rest.builtins := rfl
  unfold connected
  dsimp only
  rw [hw]
  show (match (PyCommand.call py x me interact pm (starting w libpath val)).result with
    | .ok rv => ({ world := _, db := _, result := _ } : Result σ)
    | .error e => failed _ _ _).world.rest.builtins = _
  cases (PyCommand.call py x me interact pm (starting w libpath val)).result with
  | ok rv => rfl
  | error e =>
    dsimp only
    unfold failed
    split <;> rfl

/-- **C93** (part) once connected, the program runs with the eight names bound to the connection's objects and all other built-ins
as they were; afterwards, whatever the program did and however it ended, those of the eight names that were bound before have their
old values, and all other built-ins are as the program left them.  Missing: names that were not bound before, see
`C93_builtins_left`. -/
theorem C93_builtins_partial {py : Py (Rest σ)} {try_ : Nat → Bool → Attempt} {libpath : List Str} {x : Execution} {val : Str → Nat}
    {me : Nat} {interact : Code (Rest σ)} {pm : Option (PostMortem (Rest σ))} {fuel : Nat} {w : World (Rest σ)} {db : List Ev}
    (hc : attempts try_ fuel 0 false = (db, some (.ok ()))) :
    ∃ (R : Result σ) (w₀ : World (Rest σ)), command py try_ (.ok ()) libpath (.ok x) val me interact pm fuel w = some R ∧
      (∀ n, PyDict.get n w₀.rest.builtins = if n ∈ names then some (some (val n)) else PyDict.get n w.rest.builtins) ∧
      (w₀.argv = w.argv ∧ w₀.environ = w.environ ∧ w₀.rest.other = w.rest.other) ∧
      (∀ n v, n ∈ names → PyDict.get n w.rest.builtins = some v → PyDict.get n R.world.rest.builtins = some v) ∧
      ∀ n, n ∉ names → PyDict.get n R.world.rest.builtins
        = PyDict.get n (PyCommand.call py x me interact pm w₀).world.rest.builtins := by
  refine ⟨_, starting w libpath val, command_connected hc, starting_builtins w libpath val, ⟨rfl, rfl, rfl⟩, ?_, ?_⟩
  · intro n v hn hv
    rw [builtins_after, get_restored, if_pos hn, hv]; rfl
  · intro n hn
    rw [builtins_after, get_restored, if_neg hn]

/-- The unrestricted claim fails for every run: a name of the eight that was not bound before is bound to `None` afterwards. -/
theorem C93_builtins_left {py : Py (Rest σ)} {try_ : Nat → Bool → Attempt} {libpath : List Str} {x : Execution} {val : Str → Nat}
    {me : Nat} {interact : Code (Rest σ)} {pm : Option (PostMortem (Rest σ))} {fuel : Nat} {w : World (Rest σ)} {db : List Ev}
    (hc : attempts try_ fuel 0 false = (db, some (.ok ()))) (n : Str) (hn : n ∈ names) (ha : PyDict.get n w.rest.builtins = none) :
    ∃ R : Result σ, command py try_ (.ok ()) libpath (.ok x) val me interact pm fuel w = some R ∧
      PyDict.get n R.world.rest.builtins = some none := by
  refine ⟨_, command_connected hc, ?_⟩
  rw [builtins_after, get_restored, if_pos hn, ha]; rfl

/-- Whether the server is told of the end of the session. -/
def farewell (r : Option Exc) : List Ev :=
  match r with
  | some (.systemExit .none) => [.close]
  | some (.systemExit (.int n)) => if n = 0 then [.close] else [.drop]
  | some (.systemExit (.text s)) => if s = [] then [.close] else [.drop]
  | some (.interrupt _) => [.drop]
  | _ => [.close]

theorem last_of_main {py : Py ρ} {args : List Str} {path f : Str} {l : PyCommand.Loader} {c : Code ρ} {w w' : World ρ} {e : Exc}
    (hf : l.filename py path = some f)
    (hcode : l.code py { w with file := some f, argv := some f :: args.map some } path = .ok (some c))
    (hc : c { w with file := some f, argv := some f :: args.map some } = (w', some e)) :
    (PyCommand.runMain py args path l none w).world.last = some e := by
  unfold PyCommand.runMain
  rw [hf]; dsimp only
  rw [hcode]; dsimp only [PyCommand.withPm, PyCommand.exec]
  rw [hc]; dsimp only
  cases e <;> rfl

/-- **C93** `pg_python -c text`: the contexts and the text run with the connection; the status is that of the program; the session
is closed unless the program ended by `SystemExit` with a status that is true, or by an interrupt: then the socket is dropped. -/
theorem C93_run {py : Py (Rest σ)} {try_ : Nat → Bool → Attempt} {libpath vs ps args : List Str} {val : Str → Nat}
    {me : Nat} {interact : Code (Rest σ)} {fuel : Nat} {w w₁ w₂ : World (Rest σ)} {db : List Ev} {s : Str} {c : Code (Rest σ)}
    {r : Option Exc}
    (hc : attempts try_ fuel 0 false = (db, some (.ok ())))
    (hran : AllRan py vs { starting w libpath val with main := some (some me) } w₁ ps) (hs : py.compile s = .ok c)
    (hr : c { w₁ with file := some "<command>".toList, argv := (("<command>".toList) :: args).map some } = (w₂, r)) :
    ∃ R : Result σ, command py try_ (.ok ()) libpath (.ok ⟨args, vs.map PyCommand.tagged, some (s, .single s)⟩) val me interact none fuel w
        = some R ∧
      R.result = .ok (status r) ∧ R.db = db ++ farewell r ∧ R.world.rest.other = w₂.rest.other ∧
      R.world.rest.libpath = w₂.rest.libpath := by
  have hf : (PyCommand.Loader.single s).filename py s = some "<command>".toList := by
    dsimp only [PyCommand.Loader.filename]; rw [if_pos rfl]
  have hcode : ∀ w, (PyCommand.Loader.single s).code py w s = .ok (some c) := by
    intro w; dsimp only [PyCommand.Loader.code]; rw [if_pos rfl, hs]; rfl
  have h := PyCommand.run_common (py := py) (x := ⟨args, vs.map PyCommand.tagged, some (s, .single s)⟩) (path := s)
    (f := "<command>".toList) (l := .single s) (c := c) (r := r) (w := starting w libpath val) (w₁ := w₁) (w₂ := w₂) (me := me)
    interact rfl rfl hran hf (hcode _) hr
  have hlast : ∀ e, r = some e →
      (PyCommand.call py ⟨args, vs.map PyCommand.tagged, some (s, .single s)⟩ me interact none (starting w libpath val)).world.last
        = some e := by
    intro e he
    subst he
    obtain ⟨t, ht, hctx⟩ := PyCommand.contexts_all hran []
    rw [List.append_nil] at hctx
    have hl := last_of_main (py := py) (args := args) (path := s) (l := .single s) hf (hcode _) hr
    unfold PG.PyCommand.call PG.PyCommand.call'
    dsimp only
    rw [hctx]; dsimp only [PG.PyCommand.contexts]
    exact hl
  refine ⟨_, command_connected hc, ?_⟩
  unfold connected
  dsimp only
  have hst : (withBuiltins (withLibpath w (".".toList :: w.rest.libpath ++ libpath))
      (update (withLibpath w (".".toList :: w.rest.libpath ++ libpath)).rest.builtins (names.map fun k => (k, some (val k)))))
      = starting w libpath val := rfl
  rw [hst]
  generalize PyCommand.call py ⟨args, vs.map PyCommand.tagged, some (s, .single s)⟩ me interact none (starting w libpath val) = K
    at h hlast ⊢
  obtain ⟨h1, _, _, h4⟩ := h
  rw [h1]
  dsimp only
  refine ⟨rfl, ?_, ?_, ?_⟩
  · congr 1
    unfold ending
    rw [h1]
    dsimp only
    cases r with
    | none =>
      cases K.world.last with
      | none => rfl
      | some e => rfl
    | some e =>
      rw [hlast e rfl]
      cases e with
      | systemExit c =>
        dsimp only [status, isException]
        cases c with
        | none => rfl
        | int n => by_cases h0 : n = 0 <;> simp [truth, farewell, h0]
        | text s => by_cases h0 : s = [] <;> simp [truth, farewell, h0]
      | _ => rfl
  · show K.world.rest.other = _; rw [h4]
  · show K.world.rest.libpath = _; rw [h4]

/-- **C93** whatever raises on the way, from the attempts on, the exception leaves the command, and the current directory is taken
out of the library path again (once), which keeps the directories of the options. -/
theorem C93_failure {py : Py (Rest σ)} {try_ : Nat → Bool → Attempt} {libpath : List Str} {exe : Except Exc Execution} {val : Str → Nat}
    {me : Nat} {interact : Code (Rest σ)} {pm : Option (PostMortem (Rest σ))} {fuel : Nat} {w : World (Rest σ)} {db : List Ev} {e : Exc}
    (h : attempts try_ fuel 0 false = (db, some (.error e)) ∨
      (attempts try_ fuel 0 false = (db, some (.ok ())) ∧ exe = .error e)) :
    ∃ R : Result σ, command py try_ (.ok ()) libpath exe val me interact pm fuel w = some R ∧
      R.result = .error e ∧ R.db = db ∧ R.world = withLibpath w (w.rest.libpath ++ libpath) := by
  have hf : ∀ db, failed (withLibpath w (".".toList :: w.rest.libpath ++ libpath)) db e
      = { world := withLibpath w (w.rest.libpath ++ libpath), db := db, result := .error e } := by
    intro db
    unfold failed
    rw [if_pos (by show ".".toList ∈ ".".toList :: w.rest.libpath ++ libpath; simp)]
    have he : (".".toList :: w.rest.libpath ++ libpath).erase ".".toList = w.rest.libpath ++ libpath := List.erase_cons_head ..
    show ({ world := withLibpath w ((".".toList :: w.rest.libpath ++ libpath).erase ".".toList), db := db, result := .error e } : Result σ) = _
    rw [he]
  rcases h with h | ⟨h, he⟩
  · refine ⟨{ world := withLibpath w (w.rest.libpath ++ libpath), db := db, result := .error e }, ?_, rfl, rfl, rfl⟩
    unfold command; dsimp only; rw [h]; dsimp only; rw [hf]
  · refine ⟨{ world := withLibpath w (w.rest.libpath ++ libpath), db := db, result := .error e }, ?_, rfl, rfl, rfl⟩
    unfold command; dsimp only; rw [h]; dsimp only
    rw [he]
    unfold connected
    dsimp only
    rw [hf]

/-- What is done with the session when the exception leaves it. -/
def parting : Exc → List Ev
  | .systemExit _ => []
  | .interrupt _ => []
  | _ => [.close]

/-- **C93** a program or console that leaves by an exception: the session is closed for an ordinary exception, and left alone
otherwise. -/
theorem C93_raised {py : Py (Rest σ)} {try_ : Nat → Bool → Attempt} {libpath : List Str} {x : Execution} {val : Str → Nat}
    {me : Nat} {interact : Code (Rest σ)} {pm : Option (PostMortem (Rest σ))} {fuel : Nat} {w : World (Rest σ)} {db : List Ev} {e : Exc}
    (hc : attempts try_ fuel 0 false = (db, some (.ok ())))
    (he : (PyCommand.call py x me interact pm (starting w libpath val)).result = .error e) :
    ∃ R : Result σ, command py try_ (.ok ()) libpath (.ok x) val me interact pm fuel w = some R ∧
      R.db = db ++ parting e ∧
      ∀ v, R.result ≠ .ok v := by
  refine ⟨_, command_connected hc, ?_⟩
  unfold connected
  dsimp only
  have hst : (withBuiltins (withLibpath w (".".toList :: w.rest.libpath ++ libpath))
      (update (withLibpath w (".".toList :: w.rest.libpath ++ libpath)).rest.builtins (names.map fun k => (k, some (val k)))))
      = starting w libpath val := rfl
  rw [hst]
  generalize PyCommand.call py x me interact pm (starting w libpath val) = K at he ⊢
  rw [he]
  dsimp only
  have hend : ending K = parting e := by
    unfold ending
    rw [he]
    dsimp only
    cases e <;> rfl
  rw [hend]
  unfold failed
  split
  · exact ⟨rfl, by simp⟩
  · exact ⟨rfl, by simp⟩

/-! ### Examples -/

/-- The password is refused twice, then accepted. -/
def thirdTime : Nat → Bool → Attempt := fun n _ => if n < 2 then .cannot [false, true] else .connected

example : attempts thirdTime 9 0 false = ([.attempt false, .attempt true, .attempt true], some (.ok ())) := rfl
example : (attempts (fun _ _ => .cannot [false]) 9 0 false) = ([.attempt false], some (.error cannotConnect)) := rfl
example : (∀ i < 2, Refused (thirdTime i (i != 0))) ∧ ¬ Refused (thirdTime 2 true) :=
  ⟨fun i hi => ⟨[false, true], by simp [thirdTime, hi], by simp⟩, by rintro ⟨fs, h, _⟩; simp [thirdTime] at h⟩

/-- An interpreter with a program that exits with 3, one that raises and one that does nothing. -/
def tiny : Py (Rest Unit) where
  compile s := if s = "E".toList then .ok fun w => (w, some (.systemExit (.int 3)))
    else if s = "X".toList then .ok fun w => (w, some (.error 5)) else .ok fun w => (w, none)
  read _ _ := .error .fileNotFound
  getLoader _ _ := .ok false
  modCode _ _ := .ok none
  modFile n := n

def begin_ : World (Rest Unit) :=
  { argv := [], main := none, context := none, environ := ⟨true, []⟩, procEnv := [], last := none, file := none, err := [],
    rest := { builtins := [("db".toList, some 7), ("len".toList, some 1)], libpath := [], other := () } }

/-- `db` was bound before and is again; `xact` was not and is `None`; after `exit(3)` the socket is dropped. -/
example : ∃ R, command tiny thirdTime (.ok ()) [] (.ok ⟨[], [], some ("E".toList, .single "E".toList)⟩) (fun _ => 99) 8 (fun w => (w, none))
      none 9 begin_ = some R ∧
    R.result = .ok (.int 3) ∧ R.db = [.attempt false, .attempt true, .attempt true, .drop] ∧
    PyDict.get "db".toList R.world.rest.builtins = some (some 7) ∧ PyDict.get "len".toList R.world.rest.builtins = some (some 1) ∧
    PyDict.get "xact".toList R.world.rest.builtins = some none ∧ R.world.rest.libpath = [".".toList] :=
  ⟨_, rfl, rfl, rfl, by decide +kernel, by decide +kernel, by decide +kernel, rfl⟩

/-- A script that is not there: the exception leaves the command, and the connection is not closed. -/
example : ∃ R, command tiny (fun _ _ => .connected) (.ok ()) [] (.error .fileNotFound) (fun _ => 99) 8 (fun w => (w, none)) none 9 begin_
      = some R ∧ R.result = .error .fileNotFound ∧ R.db = [.attempt false] ∧ R.world.rest.libpath = [] :=
  ⟨_, rfl, rfl, rfl, rfl⟩

end PG.Props.PgPython
