import Verif.Model.PyCommand
/-!
# What running Python programs is to mean (C91)

Independent of the loaders and of the run: which program a `-C` value names, what it is to run programs one after another in one
namespace, and the exit status.
-/

namespace PG.Spec.PyCommand
open PG.PyCommand

/-- A `-C` value names a program and its file name: `module:name`, `file://path`, or the text of the program itself. -/
inductive Names (py : Py ρ) (w : World ρ) : Str → Code ρ → Str → Str → Prop where
  | module (n : Str) (c : Code ρ) : py.getLoader w n = .ok true → py.modCode w n = .ok (some c) →
      Names py w ("module:".toList ++ n) c n (py.modFile n)
  | script (p s : Str) (c : Code ρ) : py.read w p = .ok s → py.compile s = .ok c →
      Names py w ("file://".toList ++ p) c p p
  | text (s : Str) (c : Code ρ) : ¬ "module:".toList <+: s → ¬ "file://".toList <+: s → py.compile s = .ok c →
      Names py w s c s "<command>".toList

/-- The programs the values name run one after another, none raises, and the state changes from one to the other; with their
paths, in order. -/
inductive AllRan (py : Py ρ) : List Str → World ρ → World ρ → List Str → Prop where
  | nil (w : World ρ) : AllRan py [] w w []
  | cons (v : Str) (vs : List Str) (c : Code ρ) (p f : Str) (w w₁ w₂ : World ρ) (ps : List Str) :
      Names py w v c p f → c { w with file := some f } = (w₁, none) → AllRan py vs w₁ w₂ ps →
      AllRan py (v :: vs) w w₂ (p :: ps)

/-- The exit status of a program that ended this way. -/
def status : Option Exc → Exit
  | none => .int 0
  | some (.systemExit c) => c
  | some _ => .int 1

/-- The end of a console session: only `SystemExit` is turned into a status. -/
def consoleStatus : Option Exc → Except Exc Exit
  | none => .ok (.int 0)
  | some (.systemExit c) => .ok c
  | some e => .error e

/-- What was executed, in order: only the paths. -/
def executed (t : List Ev) : List Str := t.filterMap fun | .exec p _ _ _ => some p | _ => none

/-- The exceptions the post mortem function was called for. -/
def mortems (t : List Ev) : List Exc := t.filterMap fun | .postmortem e => some e | _ => none

/-- The arguments of `-C` options. -/
def contextArgs (vs : List Str) : List Str := vs.flatMap fun v => ["-C".toList, v]

end PG.Spec.PyCommand
