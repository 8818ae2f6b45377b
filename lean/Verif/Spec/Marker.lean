import Verif.Model.Installation
/-!
# Specification of C79: lines of a text

A text is made of lines; a line break is one of the characters Python takes for one, or `\r\n` together.
-/
namespace PG.Spec.Marker
open PG PG.Installation

/-- No line break in it. -/
def Plain (s : Str) : Prop := ∀ c ∈ s, isBreak c = false

/-- `s` is a line break, in front of `rest`: `\r` before `\n` is not one for itself. -/
def Break (s rest : Str) : Prop := s = ['\r', '\n'] ∨ ∃ c, s = [c] ∧ isBreak c = true ∧ ¬ (c = '\r' ∧ ∃ r, rest = '\n' :: r)

/-- Full lines: a text in which every line ends with a break, and its lines. -/
inductive Full : Str → List Str → Prop where
  | nil : Full [] []
  | line {l s t ls} (hl : Plain l) (hs : Break s t) (h : Full t ls) : Full (l ++ s ++ t) (l :: ls)

/-- What comes after a line: nothing, or a break and the rest. -/
def After (b : Str) : Prop := b = [] ∨ ∃ s r, b = s ++ r ∧ Break s r

/-- Tabs are shown as blanks. -/
def untab (s : Str) : Str := s.map fun c => if c = '\t' then ' ' else c

end PG.Spec.Marker
