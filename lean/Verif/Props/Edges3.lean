import Verif.Props.Cluster
import Verif.Props.Fetch
import Verif.Props.Settings2
import Verif.Model.ClusterInit
import Verif.Model.ClusterDrop
import Verif.Model.ClientParams
import Verif.Model.Client3
import Verif.Model.Handles
import Verif.Model.Iri
import Verif.Model.Settings
import Verif.Model.SymLib
import Verif.Model.Installation
import Verif.Model.Prepare
/-!
# Yet more cases at the edges, found by editing the model: C32, C41, C42, C43, C46, C47, C60, C62, C64, C65, C68, C85
-/

namespace PG.Cluster

/-- **C62** `state` is one of three texts: `running` when `running()` is true, otherwise `stopped` when the directory of the cluster is there, otherwise `void`. -/
theorem C62_state (W : World) (s s' : St) (b : Bool) (h : running W s = (.ok b, s')) :
    (state W s).1 = .ok (if b then ['r', 'u', 'n', 'n', 'i', 'n', 'g']
      else if (W s'.trace.length).found then ['s', 't', 'o', 'p', 'p', 'e', 'd'] else ['v', 'o', 'i', 'd']) := by
  cases b with
  | true =>
    have : state W s = (.ok "running".toList, s') := by
      show (Bind.bind running _) W s = _
      simp only [Bind.bind, M.bind, h]; rfl
    rw [this]; rfl
  | false =>
    by_cases hf : (W s'.trace.length).found = true
    · have : (state W s).1 = .ok "stopped".toList := by
        show ((Bind.bind running _) W s).1 = _
        simp only [Bind.bind, M.bind, M.andThen, h, ask, Bool.false_eq_true, if_false, hf, if_true]; rfl
      rw [this, hf]; rfl
    · have hf' : (W s'.trace.length).found = false := by simpa using hf
      have : (state W s).1 = .ok "void".toList := by
        show ((Bind.bind running _) W s).1 = _
        simp only [Bind.bind, M.bind, M.andThen, h, ask, Bool.false_eq_true, if_false, hf']; rfl
      rw [this, hf']; rfl

open PG.Props.Cluster in
example : (running (demoW 0 9) mine).1 = .ok true ∧ (state (demoW 0 9) mine).1 = .ok "running".toList := by decide +kernel
open PG.Props.Cluster in
example : (running (demoW 9 9) mine).1 = .ok false ∧ (state (fun n => { down n with found := false }) mine).1 = .ok "void".toList := by decide +kernel

end PG.Cluster

namespace PG.ClusterInit

/-- **C65** the output of `initdb` goes to the `logfile` that was given, if it is a true value; `None` and an empty text are the pipe. -/
theorem C65_logfile (a : Option Arg) : logfile a = match a with
    | some (.text (c :: s)) => some (.text (c :: s))
    | some (.text []) => none
    | some .none => none
    | some x => if x.truth then some x else none
    | none => none := by
  cases a with
  | none => rfl
  | some x => cases x with
    | text s => cases s <;> rfl
    | _ => rfl

end PG.ClusterInit

namespace PG.ClusterDrop

/-- **C64** removing what is not there is reported as that, and a directory as a directory. -/
theorem C64_remove (fs : Fs) (p : Path) :
    (remove fs p = .error .enoent ↔ kindOf fs p = none) ∧ (remove fs p = .error .eisdir ↔ kindOf fs p = some .dir) := by
  unfold remove
  generalize kindOf fs p = k
  cases k with
  | none => simp
  | some k => cases k <;> simp

end PG.ClusterDrop

namespace PG.ClientParams

/-- **C47** `settings` that are a pair, or a text or list that is not empty, are refused with a `ValueError`; numbers and the like with a `TypeError`. -/
theorem C47_settings_shape (a b : Str) (c : Char) (s : Str) :
    xSettings (.val (.pair a b)) = .error .valueError ∧ xSettings (.val (.text (c :: s))) = .error .valueError ∧
    xSettings (.val (.text [])) = .ok [] := ⟨rfl, rfl, rfl⟩

end PG.ClientParams

namespace PG.Client3
variable {X : Type}

/-- **C43** an error of the operating system that is not to be tried again, one that is unclear and an interrupt are raised as they are, and do not end the transaction; every other one ends it, and is not raised. -/
theorem C43_handler (o : Ops X) (c : Conn X) :
    (handler o c (.sock .fatal)).2 = .raised (.sock .fatal) ∧ (handler o c (.sock .fatal)).1 = c ∧
    (handler o c (.sock .unclear)).2 = .raised (.sock .unclear) ∧ (handler o c (.sock .interrupt)).2 = .raised (.sock .interrupt) ∧
    (handler o c (.sock .tryAgain)).2 = .again ∧ (handler o c (.sock .other)).2 = .done := ⟨rfl, rfl, rfl, rfl, rfl, rfl⟩

end PG.Client3

namespace PG.Handles

/-- **C85** after the preparation of a statement that failed, the server has no statement of that identifier; one of a cursor leaves the cursors of the server as they were. -/
theorem C85_failed (x : Side) (id : Bytes) :
    id ∉ (x.unmade .statement id).server ∧ x.unmade .cursor id = x := by
  refine ⟨?_, rfl⟩
  unfold Side.unmade
  rw [if_neg (by simp)]
  simp

end PG.Handles

namespace PG.Iri

/-- **C32** a path given as a text is taken as the list of its letters. -/
theorem C32_path_text (s : Str) :
    pathOf (some (.text s)) = .ok (s.map fun c => [c]) ∧ pathOf none = .ok [] := ⟨rfl, rfl⟩

end PG.Iri

namespace PG.Settings

/-- **C41** a `KeyError` of an operation is caught by `try: ... except Exception:` and ends the block it is in. -/
theorem C41_key_error (g : Guc) (o : Op) (p q : Prog) (st : St) (h : (step g st o).1 = .keyError) :
    exec g (.tryExcept (.op o) q) st = exec g q (step g st o).2 ∧ exec g (.seq (.op o) p) st = (true, (step g st o).2) := by
  have he : exec g (.op o) st = (true, (step g st o).2) := by show ((step g st o).1.isRaise, _) = _; rw [h]; rfl
  constructor
  · show (if (exec g (.op o) st).1 then _ else _) = _
    rw [he]; rfl
  · show (if (exec g (.op o) st).1 then _ else _) = _
    rw [he]; rfl

example : (step small st0 (.getItem "nothing".toList)).1 = .keyError := by decide

end PG.Settings

namespace PG.SymLib

/-- **C46** the file looked for in a directory of the path: the separator is added unless the directory ends with it, or is empty. -/
theorem C46_join (p name : Str) : pathJoin (p ++ ['/']) name = p ++ ['/'] ++ name ∧ pathJoin [] name = name ∧
    (∀ c, c ≠ '/' → pathJoin (p ++ [c]) name = p ++ [c, '/'] ++ name) := by
  refine ⟨?_, rfl, ?_⟩
  · unfold pathJoin; rw [if_pos (Or.inr (by simp))]
  · intro c hc
    unfold pathJoin; rw [if_neg (by simp [hc])]; simp

end PG.SymLib

namespace PG.Prepare
open PG.Element3 PG.Xact3 PG.Fetch PG.Row PG.Statement

/-- **C60** while the answer has not come, `prepare` waits: it neither returns nor raises. -/
theorem C60_waits {τ ν α β : Type} [DecidableEq ν] (T : Typio τ ν α β) (id : Bytes) (i : Inst) (bs : List Batch)
    (h : (steps (fun _ => false) i bs).2.2 = .blocked) : finiRun T id i bs = .blocked := by
  unfold finiRun
  generalize steps (fun _ => false) i bs = r at h ⊢
  obtain ⟨a, b, c⟩ := r
  cases h; rfl

end PG.Prepare

namespace PG.Fetch

/-- **C42** while no rows have come, `__next__` waits: it neither returns nor raises. -/
theorem C42_waits {β : Type} (decode : List Xact3.Proc → Option (List β)) (i : Xact3.Inst) (w : List Xact3.Batch) (c : Option Xact3.Proc)
    (h : (steps (fun x => !x.completed.isEmpty) i w).2.2 = .blocked) : (next decode ⟨some i, w, c⟩).1 = .blocked := by
  unfold next
  show (match steps (fun x => !x.completed.isEmpty) i w with | _ => _ : Out β × All).1 = _
  generalize steps (fun x => !x.completed.isEmpty) i w = r at h ⊢
  obtain ⟨a, b, d⟩ := r
  cases h; rfl

/-- **C42** the messages that say nothing about rows, in whatever order, are passed over, also those of a statement without a name; data after them, and nothing, are seen. -/
theorem C42_noise (copy : Bool) (l : List Xact3.Proc) (p : Xact3.Proc)
    (h : ∀ x ∈ l, x = .elem (.empty .parseComplete) ∨ x = .elem (.empty .bindComplete)) : firstSeen copy (l ++ [p]) = seen copy p := by
  induction l with
  | nil =>
    show (match seen copy p with | .noise => Seen.noise | s => s) = seen copy p
    cases seen copy p <;> rfl
  | cons x l ih =>
    have ih := ih fun y hy => h y (List.mem_cons_of_mem _ hy)
    rw [← ih]
    rcases h x (List.mem_cons_self ..) with rfl | rfl <;> rfl

example : let s0 : Xact3.Inst := { Props.Xact.demo with commands := demoCommands, messages := .commands, state := .sending .standardSent }
    (steps (fun x => !x.completed.isEmpty) (Xact3.sent s0) []).2.2 = .blocked ∧ (steps (fun _ => false) (Xact3.sent s0) []).2.2 = .blocked := by decide

end PG.Fetch

namespace PG.Installation

/-- **C68** the programs that are looked for in the directory of the installation. -/
theorem C68_executables (k : Str) : k ∈ executables ↔ k ∈ ["clusterdb".toList, "createdb".toList, "createlang".toList, "createuser".toList, "droplang".toList, "dropuser".toList,
    "ecpg".toList, "initdb".toList, "ipcclean".toList, "pg_config".toList, "pg_controldata".toList, "pg_ctl".toList, "pg_dump".toList, "pg_dumpall".toList, "pg_resetxlog".toList,
    "pg_restore".toList, "postgres".toList, "postmaster".toList, "psql".toList, "reindexdb".toList, "vacuumdb".toList] :=
  ⟨fun h => (by decide +kernel : ∀ k ∈ executables, k ∈ _) k h, fun h => (by decide +kernel : ∀ k ∈ _, k ∈ executables) k h⟩

end PG.Installation
