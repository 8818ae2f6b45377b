import Verif.Model.Console
/-!
# C92: the console's backslash commands
-/

namespace PG.Props.Console
open PG.Console
open PG.PyCommand (Exc Exit)

/-- The lines given to Python. -/
def pythonLines (t : List Ev) : List Str := t.filterMap fun | .python l => some l | _ => none

/-- No backslash command makes the console touch the pending statement or give Python a line: what they leave. -/
structure Apart (s s' : Con) : Prop where
  buffer : s'.buffer = s.buffer
  lines : pythonLines s'.trace = pythonLines s.trace
  /-- temporary files keep their names -/
  temps : ∀ n p, PyDict.get n s.temps = some p → PyDict.get n s'.temps = some p
  /-- nothing that happened is undone -/
  grows : s.trace <+: s'.trace

theorem Apart.refl (s : Con) : Apart s s := ⟨rfl, rfl, fun _ _ h => h, List.prefix_rfl⟩

theorem Apart.trans {a b c : Con} (h : Apart a b) (k : Apart b c) : Apart a c :=
  ⟨k.buffer.trans h.buffer, k.lines.trans h.lines, fun n p e => k.temps n p (h.temps n p e), h.grows.trans k.grows⟩

theorem apart_log (s : Con) (l : List Ev) (h : pythonLines l = []) : Apart s (s.log l) := by
  refine ⟨rfl, ?_, fun _ _ h => h, List.prefix_append _ _⟩
  show pythonLines (s.trace ++ l) = _
  unfold pythonLines at h ⊢
  rw [List.filterMap_append, h, List.append_nil]

theorem apart_environ (s : Con) (e : List (Str × Str)) : Apart s { s with environ := e } :=
  ⟨rfl, rfl, fun _ _ h => h, List.prefix_rfl⟩

theorem apart_resolve (sh : Shell) (s : Con) (x : Str) : Apart s (resolve sh s x).1 := by
  unfold resolve
  split
  · cases hg : PyDict.get (key sh.U x) s.temps with
    | some p => exact Apart.refl s
    | none =>
      refine ⟨rfl, rfl, ?_, List.prefix_rfl⟩
      intro n p h
      show PyDict.get n (PyDict.set _ _ s.temps) = _
      rw [PyDict.get_set, if_neg]; exact h
      rintro rfl; rw [hg] at h; cases h
  · exact Apart.refl s

theorem apart_resolveAll (sh : Shell) : ∀ (l : List Str) (s : Con), Apart s (resolveAll sh s l).1
  | [], s => Apart.refl s
  | x :: l, s => (apart_resolve sh s x).trans (apart_resolveAll sh l (resolve sh s x).1)

theorem apart_execfile (sh : Shell) (s : Con) (p : Str) : Apart s (execfile sh s p).1 := by
  unfold execfile
  cases sh.run s.trace p with
  | unreadable e => exact Apart.refl s
  | broken e => exact apart_log s _ rfl
  | ran r => cases r <;> exact apart_log s _ rfl

theorem apart_execfiles (sh : Shell) : ∀ (l : List Str) (s : Con), Apart s (execfiles sh s l).1
  | [], s => Apart.refl s
  | p :: l, s => by
    have h := apart_execfile sh s p
    unfold execfiles
    generalize execfile sh s p = o at h ⊢
    obtain ⟨s', e⟩ := o
    cases e with
    | some e => exact h
    | none => exact h.trans (apart_execfiles sh l s')

theorem apart_setWord (s : Con) (x : Str) : Apart s (setWord s x).1 := by
  unfold setWord
  split
  · dsimp only
    split
    · exact Apart.refl s
    · exact (apart_environ s _).trans (apart_log _ _ rfl)
  · split
    · exact apart_log s _ rfl
    · exact Apart.refl s

theorem apart_setWords : ∀ (l : List Str) (s : Con), Apart s (setWords s l).1
  | [], s => Apart.refl s
  | x :: l, s => by
    have h := apart_setWord s x
    unfold setWords
    generalize setWord s x = o at h ⊢
    obtain ⟨s', e⟩ := o
    cases e with
    | some e => exact h
    | none => exact h.trans (apart_setWords l s')

theorem wrote_lines (l : List (Str × Str)) : pythonLines (l.map fun kv => Ev.wrote (assignment kv.1 kv.2)) = [] := by
  unfold pythonLines; rw [List.filterMap_map, List.filterMap_eq_nil_iff]; intro a _; rfl

theorem apart_slash (sh : Shell) (s : Con) (line : Str) : Apart s (execslash sh s line).1 := by
  unfold execslash
  dsimp only
  split; · exact apart_log s _ rfl
  split
  · unfold bsSet
    split
    · cases sh.split _ with
      | error e => exact Apart.refl s
      | ok l => exact apart_setWords l s
    · exact apart_log s _ (wrote_lines _)
  split
  · unfold bsEdit
    cases sh.split _ with
    | error e => exact Apart.refl s
    | ok l =>
      dsimp only
      exact (apart_resolveAll sh (orEmpty l) s).trans (apart_log _ _ rfl)
  split
  · unfold bsI
    cases sh.split _ with
    | error e => exact Apart.refl s
    | ok l => exact apart_execfiles sh _ s
  split
  · unfold bsEditExec
    cases sh.split _ with
    | error e => exact Apart.refl s
    | ok l =>
      have h := (apart_resolveAll sh (orEmpty l) s).trans (apart_log _ [.edit (resolveAll sh s (orEmpty l)).2] rfl)
      dsimp only [editfiles]
      cases sh.editor (resolveAll sh s (orEmpty l)).1.trace (resolveAll sh s (orEmpty l)).2 with
      | some e => exact h
      | none => exact h.trans (apart_execfiles sh _ _)
  split
  · unfold bsX
    cases sh.split _ with
    | error e => exact Apart.refl s
    | ok l =>
      dsimp only
      have h := apart_log s [.command ("\\x".toList :: l)] rfl
      cases sh.nested s.trace ("\\x".toList :: l) with
      | ok rv =>
        dsimp only
        cases returnValue rv with
        | ok t => exact h.trans (apart_log _ _ rfl)
        | error e => exact h
      | error e =>
        cases e with
        | systemExit rv =>
          dsimp only
          cases returnValue rv with
          | ok t => exact h.trans (apart_log _ _ rfl)
          | error e => exact h
        | _ => exact h
  · exact apart_log s _ rfl

/-- **C92** a line that begins with a backslash, while no statement is pending, is never given to Python, never raises, whatever the
command does, and leaves no pending statement. -/
theorem C92_backslash (sh : Shell) (s : Con) (line : Str) (hb : s.buffer = []) (hl : line.head? = some '\\') :
    (push sh s line).2 = none ∧ (push sh s line).1.buffer = [] ∧
    pythonLines (push sh s line).1.trace = pythonLines s.trace := by
  have h := apart_slash sh s line
  unfold push
  rw [if_pos ⟨hb, hl⟩]
  generalize execslash sh s line = o at h ⊢
  obtain ⟨s', e⟩ := o
  cases e with
  | none => exact ⟨rfl, h.buffer.trans hb, h.lines⟩
  | some e =>
    have h' := h.trans (apart_log s' [.printed e] rfl)
    exact ⟨rfl, h'.buffer.trans hb, h'.lines⟩

/-- **C92** every other line, also one that begins with a backslash within a statement, is given to Python as it is, once, and what
Python raises is raised. -/
theorem C92_python (sh : Shell) (s : Con) (line : Str) (h : s.buffer ≠ [] ∨ line.head? ≠ some '\\') :
    (push sh s line).1.trace = s.trace ++ [.python line] ∧ (push sh s line).2 = (sh.python s.trace s.buffer line).2 ∧
    (push sh s line).1.buffer = (sh.python s.trace s.buffer line).1 ∧ (push sh s line).1.environ = s.environ := by
  unfold push
  rw [if_neg (by rintro ⟨a, b⟩; exact h.elim (fun k => k a) (fun k => k b))]
  exact ⟨rfl, rfl, rfl, rfl⟩

theorem push_temps (sh : Shell) (s : Con) (line : Str) {n p : Str} (h : PyDict.get n s.temps = some p) :
    PyDict.get n (push sh s line).1.temps = some p := by
  unfold push
  split
  · have ha := apart_slash sh s line
    generalize execslash sh s line = o at ha ⊢
    obtain ⟨s', e⟩ := o
    cases e <;> exact ha.temps n p h
  · exact h

theorem session_temps (sh : Shell) {n p : Str} : ∀ (ls : List Str) (s : Con), PyDict.get n s.temps = some p →
    PyDict.get n (session sh s ls).temps = some p
  | [], _, h => h
  | l :: ls, s, h => by
    have hp := push_temps sh s l h
    unfold session
    generalize push sh s l = o at hp ⊢
    obtain ⟨s', e⟩ := o
    cases e with
    | none => exact session_temps sh ls s' hp
    | some e => exact hp

/-- The command and its argument. -/
def slash (c : Char) (arg : Str) : Str := '\\' :: c :: ' ' :: arg

theorem splitCmd_slash (U : Unicode) (c : Char) (arg : Str) (hc : c.isAlpha = true)
    (ha : ∀ x ∈ arg.head?, U.isSpace x = false) : splitCmd U (slash c arg) = (['\\', c], arg) := by
  have h1 : U.isSpace '\\' = false := by rw [U.space_ascii _ (by decide)]; decide
  have hlt : c.toNat < 128 := by
    simp only [Char.isAlpha, Char.isUpper, Char.isLower, Bool.or_eq_true, Bool.and_eq_true, decide_eq_true_eq] at hc
    have g2 : (c.val ≤ 'Z'.val) ↔ c.toNat ≤ 90 := Iff.rfl
    have g4 : (c.val ≤ 'z'.val) ↔ c.toNat ≤ 122 := Iff.rfl
    rw [g2, g4] at hc
    omega
  have h2 : U.isSpace c = false := U.alpha_not_space c (.inl (by rw [U.alpha_ascii c hlt]; exact hc))
  have h3 : U.isSpace ' ' = true := by rw [U.space_ascii _ (by decide)]; decide
  unfold splitCmd slash
  simp only [List.takeWhile_cons, List.dropWhile_cons, h1, h2, h3, Bool.not_false, Bool.not_true, if_true, Bool.false_eq_true, if_false]
  cases arg with
  | nil => rfl
  | cons x arg => simp [ha x rfl]

/-- What `push` leaves: an exception of the command is printed. -/
def told (s : Con) : Option Exc → Con
  | none => s
  | some e => s.log [.printed e]

theorem push_slash {sh : Shell} {s s' : Con} {c : Char} {arg : Str} {e : Option Exc} (hb : s.buffer = [])
    (h : execslash sh s (slash c arg) = (s', e)) :
    (push sh s (slash c arg)).1 = told s' e := by
  unfold push
  rw [if_pos ⟨hb, rfl⟩, h]
  cases e <;> rfl

theorem key_kept (sh : Shell) (s : Con) (a : Str) (ha : plain a = true) :
    PyDict.get (key sh.U a) (resolve sh s a).1.temps = some (resolve sh s a).2 := by
  unfold resolve
  rw [if_pos ha]
  cases hg : PyDict.get (key sh.U a) s.temps with
  | some p => exact hg
  | none => dsimp only; rw [PyDict.get_set, if_pos rfl]

/-- **C92** `\E name` makes up a temporary file for the name and edits it; from then on, after any session, `\i name`, in any
capitalisation and with any spaces around, executes that same file. -/
theorem C92_temporary (sh : Shell) (s : Con) (arg arg' a b : Str) (ls : List Str)
    (hb : s.buffer = [])
    (h1 : ∀ x ∈ arg.head?, sh.U.isSpace x = false) (h2 : ∀ x ∈ arg'.head?, sh.U.isSpace x = false)
    (hs1 : sh.split arg = .ok [a]) (hs2 : sh.split arg' = .ok [b])
    (ha : '/' ∉ a) (hb' : '/' ∉ b) (hk : key sh.U a = key sh.U b) :
    ∃ p, Ev.edit [p] ∈ (push sh s (slash 'E' arg)).1.trace ∧
      ∀ s', s' = session sh (push sh s (slash 'E' arg)).1 ls → s'.buffer = [] →
        sh.run s'.trace p = .ran none → (push sh s' (slash 'i' arg')).1.trace = s'.trace ++ [.exec p] := by
  have pa : plain a = true := by simp [plain, ha]
  have pb : plain b = true := by simp [plain, hb']
  have hE : execslash sh s (slash 'E' arg) = editfiles sh (resolve sh s a).1 [(resolve sh s a).2] := by
    unfold execslash
    rw [splitCmd_slash sh.U 'E' arg rfl h1]
    show bsEdit sh s arg = _
    unfold bsEdit; rw [hs1]; rfl
  refine ⟨(resolve sh s a).2, ?_, ?_⟩
  · rw [push_slash hb hE]
    cases sh.editor (resolve sh s a).1.trace [(resolve sh s a).2] <;> simp [told, Con.log]
  · intro s' hs' hb2 hrun
    have hg : PyDict.get (key sh.U a) s'.temps = some (resolve sh s a).2 := by
      rw [hs']
      refine session_temps sh ls _ ?_
      rw [push_slash hb hE]
      cases sh.editor (resolve sh s a).1.trace [(resolve sh s a).2] <;> exact key_kept sh s a pa
    have hI : execslash sh s' (slash 'i' arg') = (s'.log [.exec (resolve sh s a).2], none) := by
      unfold execslash
      rw [splitCmd_slash sh.U 'i' arg' rfl h2]
      show bsI sh s' arg' = _
      unfold bsI; rw [hs2]
      show execfiles sh s' [lookup sh s' b] = _
      have hl : lookup sh s' b = (resolve sh s a).2 := by
        unfold lookup; rw [if_pos pb, ← hk, hg]
      rw [hl]
      unfold execfiles execfile
      rw [hrun]; rfl
    rw [push_slash hb2 hI]
    rfl

/-- The temporary files, in the order they were made up. -/
def Made (sh : Shell) (s : Con) : Prop :=
  (s.temps.map Prod.fst).Nodup ∧ ∀ i n p, s.temps[i]? = some (n, p) → p = sh.mktemp i ("_console_".toList ++ n ++ "_".toList)

theorem set_fresh {k v : Str} : ∀ {d : List (Str × Str)}, PyDict.get k d = none → PyDict.set k v d = d ++ [(k, v)]
  | [], _ => rfl
  | e :: d, h => by
    rw [PyDict.get_cons] at h
    split at h
    · cases h
    · rename_i hne
      rw [PyDict.set, if_neg hne, set_fresh h]; rfl

theorem not_key {k : Str} : ∀ {d : List (Str × Str)}, PyDict.get k d = none → k ∉ d.map Prod.fst
  | [], _ => by simp
  | e :: d, h => by
    rw [PyDict.get_cons] at h
    split at h
    · cases h
    · rename_i hne
      simp only [List.map_cons, List.mem_cons, not_or]
      exact ⟨fun e' => hne e'.symm, not_key h⟩

theorem made_resolve {sh : Shell} {s : Con} (x : Str) (h : Made sh s) : Made sh (resolve sh s x).1 := by
  unfold resolve
  split
  · cases hg : PyDict.get (key sh.U x) s.temps with
    | some p => exact h
    | none =>
      show Made sh { s with temps := PyDict.set _ _ s.temps }
      unfold Made
      dsimp only
      rw [set_fresh hg]
      constructor
      · rw [List.map_append, List.nodup_append]
        refine ⟨h.1, by simp, ?_⟩
        intro a ha b hb
        simp only [List.map_cons, List.map_nil, List.mem_singleton] at hb
        subst hb
        intro e; subst e
        exact not_key hg ha
      · intro i n p hi
        rw [List.getElem?_append] at hi
        split at hi
        · exact h.2 i n p hi
        · rename_i hlt
          have hi0 : i - s.temps.length = 0 := by
            rcases Nat.eq_zero_or_pos (i - s.temps.length) with h0 | h0
            · exact h0
            · rw [List.getElem?_eq_none (by simp only [List.length_singleton]; omega)] at hi; cases hi
          rw [hi0] at hi
          have : i = s.temps.length := by omega
          simp only [List.getElem?_cons_zero, Option.some.injEq, Prod.mk.injEq] at hi
          rw [this, ← hi.2, ← hi.1]
  · exact h

theorem made_resolveAll {sh : Shell} : ∀ (l : List Str) {s : Con}, Made sh s → Made sh (resolveAll sh s l).1
  | [], _, h => h
  | x :: l, _, h => made_resolveAll l (made_resolve x h)

theorem temps_execfile (sh : Shell) (s : Con) (p : Str) : (execfile sh s p).1.temps = s.temps := by
  unfold execfile
  cases sh.run s.trace p with
  | unreadable e => rfl
  | broken e => rfl
  | ran r => cases r <;> rfl

theorem temps_execfiles (sh : Shell) : ∀ (l : List Str) (s : Con), (execfiles sh s l).1.temps = s.temps
  | [], _ => rfl
  | p :: l, s => by
    have h := temps_execfile sh s p
    unfold execfiles
    generalize execfile sh s p = o at h ⊢
    obtain ⟨s', e⟩ := o
    cases e with
    | some e => exact h
    | none => exact (temps_execfiles sh l s').trans h

theorem temps_setWord (s : Con) (x : Str) : (setWord s x).1.temps = s.temps := by
  unfold setWord
  split
  · dsimp only
    split <;> rfl
  · split <;> rfl

theorem temps_setWords : ∀ (l : List Str) (s : Con), (setWords s l).1.temps = s.temps
  | [], _ => rfl
  | x :: l, s => by
    have h := temps_setWord s x
    unfold setWords
    generalize setWord s x = o at h ⊢
    obtain ⟨s', e⟩ := o
    cases e with
    | some e => exact h
    | none => exact (temps_setWords l s').trans h

theorem made_slash {sh : Shell} {s : Con} (line : Str) (h : Made sh s) : Made sh (execslash sh s line).1 := by
  have eq_made : ∀ {t : Con}, t.temps = s.temps → Made sh t := by
    intro t e; unfold Made; rw [e]; exact h
  unfold execslash
  dsimp only
  split; · exact h
  split
  · unfold bsSet
    split
    · cases sh.split _ with
      | error e => exact h
      | ok l => exact eq_made (temps_setWords l s)
    · exact h
  split
  · unfold bsEdit
    cases sh.split _ with
    | error e => exact h
    | ok l => exact made_resolveAll (orEmpty l) h
  split
  · unfold bsI
    cases sh.split _ with
    | error e => exact h
    | ok l => exact eq_made (temps_execfiles sh _ s)
  split
  · unfold bsEditExec
    cases sh.split _ with
    | error e => exact h
    | ok l =>
      have hr := made_resolveAll (orEmpty l) h
      dsimp only [editfiles]
      cases sh.editor (resolveAll sh s (orEmpty l)).1.trace (resolveAll sh s (orEmpty l)).2 with
      | some e => exact hr
      | none =>
        dsimp only
        unfold Made
        rw [temps_execfiles]
        exact hr
  split
  · unfold bsX
    cases sh.split _ with
    | error e => exact h
    | ok l =>
      dsimp only
      cases sh.nested s.trace ("\\x".toList :: l) with
      | ok rv => dsimp only; cases returnValue rv <;> exact h
      | error e =>
        cases e with
        | systemExit rv => dsimp only; cases returnValue rv <;> exact h
        | _ => exact h
  · exact h

theorem made_session {sh : Shell} : ∀ (ls : List Str) {s : Con}, Made sh s → Made sh (session sh s ls)
  | [], _, h => h
  | l :: ls, s, h => by
    have hp : Made sh (push sh s l).1 := by
      unfold push
      split
      · have ha := made_slash l h
        generalize execslash sh s l = o at ha ⊢
        obtain ⟨s', e⟩ := o
        cases e <;> exact ha
      · exact h
    unfold session
    generalize push sh s l = o at hp ⊢
    obtain ⟨s', e⟩ := o
    cases e with
    | none => exact made_session ls hp
    | some e => exact hp

/-- **C92** if no two calls of `mktemp` give the same name, then after any session of a new console two different names have
different temporary files. -/
theorem C92_distinct (sh : Shell) (ls : List Str) (environ : List (Str × Str)) (n m p : Str)
    (hinj : ∀ i j x y, sh.mktemp i x = sh.mktemp j y → i = j)
    (hn : (n, p) ∈ (session sh { environ := environ } ls).temps) (hm : (m, p) ∈ (session sh { environ := environ } ls).temps) :
    n = m := by
  have h : Made sh (session sh { environ := environ } ls) := made_session ls ⟨by simp, by simp⟩
  obtain ⟨i, hi⟩ := List.getElem?_of_mem hn
  obtain ⟨j, hj⟩ := List.getElem?_of_mem hm
  have e : i = j := hinj i j _ _ ((h.2 i n p hi).symm.trans (h.2 j m p hj))
  subst e
  rw [hi] at hj
  exact (Prod.mk.inj (Option.some.inj hj)).1

/-- **C92** (part) a path with a separator is the file of that path, never a temporary one.  Missing: names without one that are no
temporary file, see `C92_i_lowercases`. -/
theorem C92_path_partial (sh : Shell) (s : Con) (arg a : Str) (hb : s.buffer = [])
    (h1 : ∀ x ∈ arg.head?, sh.U.isSpace x = false) (hs : sh.split arg = .ok [a]) (ha : '/' ∈ a) :
    (sh.run s.trace a = .ran none → (push sh s (slash 'i' arg)).1.trace = s.trace ++ [.exec a]) ∧
    (sh.editor s.trace [a] = none → (push sh s (slash 'E' arg)).1 = s.log [.edit [a]]) := by
  have pa : plain a = false := by simp [plain, ha]
  constructor
  · intro hrun
    have hI : execslash sh s (slash 'i' arg) = (s.log [.exec a], none) := by
      unfold execslash
      rw [splitCmd_slash sh.U 'i' arg rfl h1]
      show bsI sh s arg = _
      unfold bsI; rw [hs]
      show execfiles sh s [lookup sh s a] = _
      have hl : lookup sh s a = a := by unfold lookup; rw [pa]; rfl
      rw [hl]
      unfold execfiles execfile
      rw [hrun]; rfl
    rw [push_slash hb hI]; rfl
  · intro he
    have hE : execslash sh s (slash 'E' arg) = (s.log [.edit [a]], none) := by
      unfold execslash
      rw [splitCmd_slash sh.U 'E' arg rfl h1]
      show bsEdit sh s arg = _
      unfold bsEdit; rw [hs]
      show editfiles sh (resolve sh s a).1 [(resolve sh s a).2] = _
      have hl : resolve sh s a = (s, a) := by unfold resolve; rw [pa]; rfl
      rw [hl]
      unfold editfiles
      rw [he]
    rw [push_slash hb hE]; rfl

/-- The variables words of the form `name=value` set, one after another. -/
def assigned (environ : List (Str × Str)) (kvs : List (Str × Str)) : List (Str × Str) :=
  kvs.foldl (fun d kv => PyDict.set kv.1 kv.2 d) environ

theorem setWord_assign (s : Con) (k v : Str) (hk : k ≠ []) (he : '=' ∉ k) (h0 : '\x00' ∉ k ++ v) :
    setWord s (k ++ '=' :: v) = ({ s with environ := PyDict.set k v s.environ }.log [.wrote (assignment k v)], none) := by
  have ht : (k ++ '=' :: v).takeWhile (· ≠ '=') = k := by
    rw [List.takeWhile_append_of_pos (by intro a ha; simp; rintro rfl; exact he ha)]; simp
  have hd : (k ++ '=' :: v).dropWhile (· ≠ '=') = '=' :: v := by
    rw [List.dropWhile_append_of_pos (by intro a ha; simp; rintro rfl; exact he ha)]; simp
  unfold setWord
  rw [if_pos (by simp)]
  dsimp only
  rw [ht, hd]
  rw [if_neg]
  · rfl
  · rintro (h | h)
    · exact hk h
    · apply h0; simp at h ⊢
      exact h

/-- **C92** `\set` with words `name=value` sets those variables, one after another, and no others. -/
theorem C92_set (sh : Shell) (s : Con) (arg : Str) (kvs : List (Str × Str)) (hb : s.buffer = []) (hne : arg ≠ [])
    (h1 : ∀ x ∈ arg.head?, sh.U.isSpace x = false)
    (hs : sh.split arg = .ok (kvs.map fun kv => kv.1 ++ '=' :: kv.2))
    (hok : ∀ kv ∈ kvs, kv.1 ≠ [] ∧ '=' ∉ kv.1 ∧ '\x00' ∉ kv.1 ++ kv.2) :
    (push sh s ("\\set ".toList ++ arg)).1.environ = assigned s.environ kvs ∧
    (push sh s ("\\set ".toList ++ arg)).1.trace = s.trace ++ kvs.map fun kv : Str × Str => Ev.wrote (assignment kv.1 kv.2) := by
  have hcmd : splitCmd sh.U ("\\set ".toList ++ arg) = ("\\set".toList, arg) := by
    have a1 : sh.U.isSpace '\\' = false := by rw [sh.U.space_ascii _ (by decide)]; decide
    have a2 : sh.U.isSpace 's' = false := by rw [sh.U.space_ascii _ (by decide)]; decide
    have a3 : sh.U.isSpace 'e' = false := by rw [sh.U.space_ascii _ (by decide)]; decide
    have a4 : sh.U.isSpace 't' = false := by rw [sh.U.space_ascii _ (by decide)]; decide
    have a5 : sh.U.isSpace ' ' = true := by rw [sh.U.space_ascii _ (by decide)]; decide
    show splitCmd sh.U ('\\' :: 's' :: 'e' :: 't' :: ' ' :: arg) = _
    unfold splitCmd
    simp only [List.takeWhile_cons, List.dropWhile_cons, a1, a2, a3, a4, a5, Bool.not_false, Bool.not_true, if_true, Bool.false_eq_true, if_false]
    cases arg with
    | nil => rfl
    | cons x arg => simp [h1 x rfl]
  have hw : ∀ (kvs : List (Str × Str)) (s : Con), (∀ kv ∈ kvs, kv.1 ≠ [] ∧ '=' ∉ kv.1 ∧ '\x00' ∉ kv.1 ++ kv.2) →
      setWords s (kvs.map fun kv => kv.1 ++ '=' :: kv.2)
        = ({ s with environ := assigned s.environ kvs }.log (kvs.map fun kv : Str × Str => Ev.wrote (assignment kv.1 kv.2)), none) := by
    intro kvs
    induction kvs with
    | nil => intro s _; simp [setWords, assigned, Con.log]
    | cons kv kvs ih =>
      intro s hok
      obtain ⟨a, b, c⟩ := hok kv (by simp)
      rw [List.map_cons]
      unfold setWords
      rw [setWord_assign s kv.1 kv.2 a b c]
      dsimp only
      rw [ih _ (fun x hx => hok x (by simp [hx]))]
      simp [Con.log, assigned]
  have hx : execslash sh s ("\\set ".toList ++ arg)
      = ({ s with environ := assigned s.environ kvs }.log (kvs.map fun kv : Str × Str => Ev.wrote (assignment kv.1 kv.2)), none) := by
    unfold execslash
    rw [hcmd]
    show bsSet sh s arg = _
    unfold bsSet
    rw [if_pos hne, hs]
    exact hw kvs s hok
  unfold push
  rw [if_pos ⟨hb, rfl⟩, hx]
  exact ⟨rfl, rfl⟩

/-- The file a word means: the path itself if it has a separator, otherwise the temporary file of that name. -/
def Means (sh : Shell) (s : Con) (x p : Str) : Prop :=
  if '/' ∈ x then p = x else PyDict.get (key sh.U x) s.temps = some p

/-- The files executed. -/
def execs (t : List Ev) : List Str := t.filterMap fun | .exec p => some p | _ => none

theorem means_lookup {sh : Shell} {s : Con} {x p : Str} (h : Means sh s x p) : lookup sh s x = p := by
  unfold Means at h
  unfold lookup
  by_cases hx : '/' ∈ x
  · rw [if_pos hx] at h
    have : plain x = false := by simp [plain, hx]
    rw [this]; exact h.symm
  · rw [if_neg hx] at h
    have : plain x = true := by simp [plain, hx]
    rw [this, if_pos rfl, h]

theorem means_resolve (sh : Shell) (s : Con) (x : Str) : Means sh (resolve sh s x).1 x (resolve sh s x).2 := by
  unfold Means
  by_cases hx : '/' ∈ x
  · rw [if_pos hx]
    have : plain x = false := by simp [plain, hx]
    unfold resolve; rw [this]; rfl
  · rw [if_neg hx]
    exact key_kept sh s x (by simp [plain, hx])

theorem means_kept {sh : Shell} {s s' : Con} (h : ∀ n p, PyDict.get n s.temps = some p → PyDict.get n s'.temps = some p) {x p : Str}
    (hm : Means sh s x p) : Means sh s' x p := by
  unfold Means at hm ⊢
  split
  · rename_i hx; rw [if_pos hx] at hm; exact hm
  · rename_i hx; rw [if_neg hx] at hm; exact h _ _ hm

theorem means_resolveAll (sh : Shell) : ∀ (l : List Str) (s : Con), ∃ ws : List (Str × Str), ws.map Prod.fst = l ∧
    ws.map Prod.snd = (resolveAll sh s l).2 ∧ (∀ w ∈ ws, Means sh (resolveAll sh s l).1 w.1 w.2) ∧
    (resolveAll sh s l).1.trace = s.trace
  | [], s => ⟨[], rfl, rfl, by simp, rfl⟩
  | x :: l, s => by
    obtain ⟨ws, h1, h2, h3, h4⟩ := means_resolveAll sh l (resolve sh s x).1
    have ht : (resolve sh s x).1.trace = s.trace := by
      unfold resolve
      split
      · cases PyDict.get (key sh.U x) s.temps <;> rfl
      · rfl
    refine ⟨(x, (resolve sh s x).2) :: ws, ?_, ?_, ?_, h4.trans ht⟩
    · rw [List.map_cons, h1]
    · rw [List.map_cons, h2]; rfl
    · intro w hw
      rcases List.mem_cons.mp hw with h | h
      · rw [h]
        exact means_kept (fun n p e => (apart_resolveAll sh l (resolve sh s x).1).temps n p e) (means_resolve sh s x)
      · exact h3 w h

theorem execs_append (a b : List Ev) : execs (a ++ b) = execs a ++ execs b := List.filterMap_append

theorem execfiles_all (sh : Shell) (hr : ∀ t p, ∃ r, sh.run t p = .ran r) : ∀ (l : List Str) (s : Con),
    execs (execfiles sh s l).1.trace = execs s.trace ++ l ∧ (execfiles sh s l).2 = none
  | [], s => by simp [execfiles]
  | p :: l, s => by
    obtain ⟨r, h⟩ := hr s.trace p
    have he : ∃ s', execfile sh s p = (s', none) ∧ execs s'.trace = execs s.trace ++ [p] := by
      unfold execfile
      rw [h]
      cases r with
      | none => exact ⟨_, rfl, by show execs (_ ++ _) = _; rw [execs_append]; rfl⟩
      | some e => exact ⟨_, rfl, by show execs (_ ++ _) = _; rw [execs_append]; rfl⟩
    obtain ⟨s', h1, h2⟩ := he
    obtain ⟨h3, h4⟩ := execfiles_all sh hr l s'
    unfold execfiles
    rw [h1]; dsimp only
    rw [h3, h2]
    exact ⟨by simp, h4⟩

/-- **C92** `\i` executes all the files its words mean, in order, whatever they raise, as long as they can be read. -/
theorem C92_execute (sh : Shell) (s : Con) (arg : Str) (ws : List (Str × Str)) (hb : s.buffer = []) (hne : ws ≠ [])
    (h1 : ∀ x ∈ arg.head?, sh.U.isSpace x = false) (hs : sh.split arg = .ok (ws.map Prod.fst))
    (hm : ∀ w ∈ ws, Means sh s w.1 w.2) (hr : ∀ t p, ∃ r, sh.run t p = .ran r) :
    execs (push sh s (slash 'i' arg)).1.trace = execs s.trace ++ ws.map Prod.snd := by
  have hl : (orEmpty (ws.map Prod.fst)).map (lookup sh s) = ws.map Prod.snd := by
    unfold orEmpty
    rw [if_neg (by simpa using hne), List.map_map]
    exact List.map_congr_left fun w hw => means_lookup (hm w hw)
  obtain ⟨h2, h3⟩ := execfiles_all sh hr (ws.map Prod.snd) s
  have hI : execslash sh s (slash 'i' arg) = ((execfiles sh s (ws.map Prod.snd)).1, none) := by
    unfold execslash
    rw [splitCmd_slash sh.U 'i' arg rfl h1]
    show bsI sh s arg = _
    unfold bsI; rw [hs]
    show execfiles sh s ((orEmpty (ws.map Prod.fst)).map (lookup sh s)) = _
    rw [hl, ← h3]
  rw [push_slash hb hI]
  exact h2

/-- **C92** `\E` edits all the files its words mean afterwards, and nothing else happens; `\e` edits them and then executes them. -/
theorem C92_edit (sh : Shell) (s : Con) (arg : Str) (l : List Str) (hb : s.buffer = []) (hne : l ≠ [])
    (h1 : ∀ x ∈ arg.head?, sh.U.isSpace x = false) (hs : sh.split arg = .ok l) (he : ∀ t ps, sh.editor t ps = none)
    (hr : ∀ t p, ∃ r, sh.run t p = .ran r) :
    (∃ ws : List (Str × Str), ws.map Prod.fst = l ∧ (∀ w ∈ ws, Means sh (push sh s (slash 'E' arg)).1 w.1 w.2) ∧
      (push sh s (slash 'E' arg)).1.trace = s.trace ++ [.edit (ws.map Prod.snd)]) ∧
    (∃ ws : List (Str × Str), ws.map Prod.fst = l ∧ (∀ w ∈ ws, Means sh (push sh s (slash 'e' arg)).1 w.1 w.2) ∧
      (s.trace ++ [.edit (ws.map Prod.snd)]) <+: (push sh s (slash 'e' arg)).1.trace ∧
      execs (push sh s (slash 'e' arg)).1.trace = execs s.trace ++ ws.map Prod.snd) := by
  have ho : orEmpty l = l := by unfold orEmpty; rw [if_neg hne]
  obtain ⟨ws, w1, w2, w3, w4⟩ := means_resolveAll sh l s
  constructor
  · refine ⟨ws, w1, ?_⟩
    have hE : execslash sh s (slash 'E' arg) = ((resolveAll sh s l).1.log [.edit (ws.map Prod.snd)], none) := by
      unfold execslash
      rw [splitCmd_slash sh.U 'E' arg rfl h1]
      show bsEdit sh s arg = _
      unfold bsEdit; rw [hs]; dsimp only; rw [ho]
      dsimp only [editfiles]
      rw [he, w2]
    rw [push_slash hb hE]
    exact ⟨w3, by show _ ++ _ = _; rw [w4]⟩
  · refine ⟨ws, w1, ?_⟩
    have hr' := execfiles_all sh hr (ws.map Prod.snd) ((resolveAll sh s l).1.log [.edit (ws.map Prod.snd)])
    have ha := apart_execfiles sh (ws.map Prod.snd) ((resolveAll sh s l).1.log [.edit (ws.map Prod.snd)])
    have hE : execslash sh s (slash 'e' arg)
        = ((execfiles sh ((resolveAll sh s l).1.log [.edit (ws.map Prod.snd)]) (ws.map Prod.snd)).1, none) := by
      unfold execslash
      rw [splitCmd_slash sh.U 'e' arg rfl h1]
      show bsEditExec sh s arg = _
      unfold bsEditExec; rw [hs]; dsimp only; rw [ho]
      dsimp only [editfiles]
      rw [he, ← w2]
      dsimp only
      rw [← hr'.2]
    rw [push_slash hb hE]
    refine ⟨fun w hw => means_kept (fun n p e => ha.temps n p e) (w3 w hw), ?_, ?_⟩
    · refine List.IsPrefix.trans (by rw [← w4]; exact List.prefix_rfl) ha.grows
    · refine hr'.1.trans ?_
      show execs ((resolveAll sh s l).1.trace ++ _) ++ _ = _
      rw [w4, execs_append]
      simp [execs]

/-- **C92** `\x` runs the command with its words and writes its status, also when it exits. -/
theorem C92_command (sh : Shell) (s : Con) (arg : Str) (l : List Str) (n : Int) (hb : s.buffer = [])
    (h1 : ∀ x ∈ arg.head?, sh.U.isSpace x = false) (hs : sh.split arg = .ok l)
    (hn : sh.nested s.trace ("\\x".toList :: l) = .ok (.int n) ∨ sh.nested s.trace ("\\x".toList :: l) = .error (.systemExit (.int n))) :
    (push sh s (slash 'x' arg)).1.trace = s.trace ++ [.command ("\\x".toList :: l),
      .wrote ("[Return Value: ".toList ++ (toString n).toList ++ "]\n".toList)] := by
  have hX : execslash sh s (slash 'x' arg) = (s.log [.command ("\\x".toList :: l),
      .wrote ("[Return Value: ".toList ++ (toString n).toList ++ "]\n".toList)], none) := by
    unfold execslash
    rw [splitCmd_slash sh.U 'x' arg rfl h1]
    show bsX sh s arg = _
    unfold bsX; rw [hs]
    dsimp only
    rcases hn with hn | hn
    · rw [hn]; simp [returnValue, Con.log]
    · rw [hn]; simp [returnValue, Con.log]
  rw [push_slash hb hX]; rfl

/-! ### Examples -/

/-- A world in which words are separated by nothing, everything can be read, and the editor works. -/
def simple : Shell where
  U := Unicode.ascii
  split s := .ok (if s = [] then [] else [s])
  mktemp n x := (toString n).toList ++ x
  run _ _ := .ran none
  editor _ _ := none
  nested _ _ := .ok (.int 0)
  python _ _ _ := ([], none)

/-- `\E Work`, a statement, `\i work`: the file edited is executed; another name has another file. -/
example : (session simple {} ["\\E Work".toList, "x = 1".toList, "\\i work".toList, "\\e other".toList]).trace =
    [.edit ["0_console_work_".toList], .python "x = 1".toList, .exec "0_console_work_".toList,
     .edit ["1_console_other_".toList], .exec "1_console_other_".toList] := by decide +kernel

example : (session simple {} ["\\set A=b".toList, "\\set A".toList, "\\zz".toList, "\\i /tmp/X.py".toList]).trace =
    [.wrote "A=b\n".toList, .wrote "A=b\n".toList, .unknown "\\zz".toList, .exec "/tmp/X.py".toList] := by decide +kernel

/-- Two temporary files and a path are edited and executed; the hypotheses of `C92_edit` can be met. -/
example : (session { simple with split := fun _ => .ok ["b".toList, "/p".toList] } {} ["\\e x".toList]).trace =
    [.edit ["0_console_b_".toList, "/p".toList], .exec "0_console_b_".toList, .exec "/p".toList] := by decide +kernel

example : (push simple {} "\\x -c".toList).1.trace = [.command ["\\x".toList, "-c".toList], .wrote "[Return Value: 0]\n".toList] := by
  decide +kernel

/-- The full claim, that `\i` executes the file it names, fails: for a name that is no temporary file, the file of the lower-case
name is executed. -/
theorem C92_i_lowercases :
    (push simple {} "\\i Script.py".toList).1.trace = [.exec "script.py".toList] := by decide +kernel

end PG.Props.Console
