import Verif.Proofs.Marker
/-!
# C79: the place of an error in a statement

The server sends the number of the character (the first is 1); what is shown is that line of the statement, a caret under that character, and the numbers of the line and of the character in it.
-/
namespace PG.Props.Marker
open PG PG.PyStr PG.Installation PG.Marker PG.Spec.Marker PG.Proofs.Marker

theorem full_first {t : Str} {ls : List Str} (h : Full t ls) : (t = [] ∧ ls = []) ∨ ∃ l s t' ls', t = l ++ s ++ t' ∧ ls = l :: ls' ∧ Plain l ∧ Break s t' ∧ Full t' ls' := by
  cases h with
  | nil => exact .inl ⟨rfl, rfl⟩
  | line hl hs h => exact .inr ⟨_, _, _, _, rfl, rfl, hl, hs, h⟩

/-- Every text is full lines and the rest of a line. -/
theorem front (p : Str) : ∃ t ls a, p = t ++ a ∧ Full t ls ∧ Plain a := by
  induction p with
  | nil => exact ⟨[], [], [], rfl, .nil, fun c hc => by cases hc⟩
  | cons c p ih =>
    obtain ⟨t, ls, a, rfl, ht, ha⟩ := ih
    cases hc : isBreak c with
    | false =>
      rcases full_first ht with ⟨rfl, rfl⟩ | ⟨l, s, t', ls', rfl, rfl, hl, hs, h'⟩
      · exact ⟨[], [], c :: a, rfl, .nil, plain_cons.2 ⟨hc, ha⟩⟩
      · exact ⟨(c :: l) ++ s ++ t', (c :: l) :: ls', a, by simp, .line (plain_cons.2 ⟨hc, hl⟩) hs h', ha⟩
    | true =>
      by_cases hr : c = '\r' ∧ ∃ r, t = '\n' :: r
      · obtain ⟨rfl, r, hr⟩ := hr
        rcases full_first ht with ⟨rfl, rfl⟩ | ⟨l, s, t', ls', rfl, rfl, hl, hs, h'⟩
        · cases hr
        · have hl0 : l = [] := by
            cases l with
            | nil => rfl
            | cons d l =>
              rw [List.cons_append, List.cons_append] at hr
              injection hr with h1 _
              subst h1
              exact absurd (plain_cons.1 hl).1 (by decide)
          subst hl0
          rcases hs with rfl | ⟨d, rfl, hd, hd'⟩
          · exact absurd hr (by simp)
          · have : d = '\n' := by simp at hr; exact hr.1
            subst this
            exact ⟨[] ++ ['\r', '\n'] ++ t', [] :: ls', a, by simp, .line (fun c hc => by cases hc) (.inl rfl) h', ha⟩
      · exact ⟨[] ++ [c] ++ t, [] :: ls, a, by simp, .line (fun c hc => by cases hc) (.inr ⟨c, rfl, hc, hr⟩) ht, ha⟩

/-- Every text is the rest of a line and what comes after it. -/
theorem back (r : Str) : ∃ a b, r = a ++ b ∧ Plain a ∧ After b := by
  induction r with
  | nil => exact ⟨[], [], rfl, (fun c hc => by cases hc), .inl rfl⟩
  | cons c r ih =>
    cases hc : isBreak c with
    | false =>
      obtain ⟨a, b, rfl, ha, hb⟩ := ih
      exact ⟨c :: a, b, rfl, plain_cons.2 ⟨hc, ha⟩, hb⟩
    | true =>
      refine ⟨[], c :: r, rfl, (fun c hc => by cases hc), .inr ?_⟩
      by_cases hr : c = '\r' ∧ ∃ r', r = '\n' :: r'
      · obtain ⟨rfl, r', rfl⟩ := hr
        exact ⟨['\r', '\n'], r', rfl, .inl rfl⟩
      · exact ⟨[c], r, rfl, .inr ⟨c, rfl, hc, hr⟩⟩

/-- What is to be shown: the line, under it the caret in the column, the numbers. -/
def Shown (l : Str) (line column : Nat) : Str :=
  untab l ++ "\n".toList ++ List.replicate (column - 1) ' ' ++ "^ [line ".toList ++ Nat.toDigits 10 line ++ ", character ".toList ++ Nat.toDigits 10 column ++ "] ".toList

/-- Character number `pos` of `q` is character number `n` of the line `l`, and `k` lines are before that one. -/
def At (q : Str) (pos : Nat) (l : Str) (k n : Nat) : Prop :=
  ∃ t b ls, q = t ++ l ++ b ∧ Full t ls ∧ ls.length = k ∧ Plain l ∧ After b ∧ 1 ≤ n ∧ n ≤ l.length ∧ pos = t.length + n

/-- C79: the line in which the character is, the caret under the character, its numbers - whatever the line breaks of the statement are, and with tabs as blanks. -/
theorem C79_shown {q l : Str} {pos k n : Nat} (h : At q pos l k n) : lineMeta q pos = Shown l (k + 1) n := by
  obtain ⟨t, b, ls, rfl, ht, rfl, hl, hb, h1, hn, rfl⟩ := h
  have hne : l ≠ [] := by rintro rfl; simp at hn; omega
  rw [lineMeta_spec (by rw [List.append_assoc]) ht hl hne hb hn (by rw [List.append_assoc]; exact take_position ht hl h1 hn)]
  unfold Shown where_
  simp [List.append_assoc]

/-- C79: every character of a statement that is not a line break is in a line. -/
theorem C79_line {q : Str} {i : Nat} (hi : i < q.length) (hc : isBreak q[i] = false) :
    ∃ l k n, At q (i + 1) l k n ∧ l[n - 1]? = some q[i] := by
  obtain ⟨t, ls, a, hp, ht, ha⟩ := front (q.take i)
  obtain ⟨r1, b, hr, hr1, hb⟩ := back (q.drop (i + 1))
  have hq : q = t ++ (a ++ q[i] :: r1) ++ b := by
    conv => lhs; rw [← List.take_append_drop i q, List.drop_eq_getElem_cons hi, hp, hr]
    simp [List.append_assoc]
  have hlen : i = t.length + a.length := by
    have := congrArg List.length hp
    rw [List.length_take, Nat.min_eq_left (Nat.le_of_lt hi), List.length_append] at this
    exact this
  refine ⟨a ++ q[i] :: r1, ls.length, a.length + 1, ⟨t, b, ls, hq, ht, rfl, ?_, hb, by omega, by simp, by omega⟩, by simp⟩
  intro c hc'
  rcases List.mem_append.1 hc' with h | h
  · exact ha c h
  · rcases List.mem_cons.1 h with rfl | h
    · exact hc
    · exact hr1 c h

/-- C79: the same for what the error says: the position comes in decimal digits. -/
theorem C79_place {q l : Str} {pos k n : Nat} {p : Bytes} (hp : p ≠ []) (hd : ∀ b ∈ p, 48 ≤ b ∧ b ≤ 57) (hv : p.foldl (fun n b => 10 * n + (b.toNat - 48)) 0 = pos) (h : At q pos l k n) :
    placeMeta q (some (some p)) = some ("LINE".toList, Shown l (k + 1) n) := by
  have : p ≠ [] ∧ p.all (fun b => decide (48 ≤ b ∧ b ≤ 57)) = true := ⟨hp, by rw [List.all_eq_true]; intro b hb; exact decide_eq_true (hd b hb)⟩
  unfold placeMeta
  simp only
  rw [if_pos this, hv, C79_shown h]

/-- C79: no error, an error without a position, or a position that is not a number: nothing is shown. -/
theorem C79_nothing (q : Str) : placeMeta q none = none ∧ placeMeta q (some none) = none ∧ placeMeta q (some (some [])) = none ∧ ∀ p : Bytes, (∃ b ∈ p, b < 48 ∨ 57 < b) → placeMeta q (some (some p)) = none := by
  refine ⟨rfl, rfl, rfl, ?_⟩
  rintro p ⟨b, hb, h⟩
  unfold placeMeta
  simp only
  rw [if_neg]
  rintro ⟨_, ha⟩
  have := of_decide_eq_true (List.all_eq_true.1 ha b hb)
  rcases h with h | h
  · exact absurd (UInt8.lt_of_lt_of_le h this.1) (UInt8.lt_irrefl _)
  · exact absurd (UInt8.lt_of_lt_of_le h this.2) (UInt8.lt_irrefl _)

/-- C79, not so at the end: an error after the last character (the server says so when something is missing: one more than the length) is shown at the last character. -/
theorem C79_end {q : Str} {pos : Nat} (h : q.length ≤ pos) : lineMeta q pos = lineMeta q q.length := by
  unfold lineMeta
  rw [List.take_of_length_le h, List.take_of_length_le (Nat.le_refl _)]

/-- C79: `SELECT 1 FROM` with nothing after it: the caret is under the `M`, in character 13, though the server said 14. -/
theorem C79_end_example : lineMeta "SELECT 1 FROM".toList 14 = Shown "SELECT 1 FROM".toList 1 13 := by decide +kernel

/-- Two breaks of different kinds, a tab: the character is the first of `frm`. -/
theorem at_example : At "SELECT a\r\n\tfrm b\rWHERE".toList 12 "\tfrm b".toList 1 2 :=
  ⟨"SELECT a\r\n".toList, "\rWHERE".toList, ["SELECT a".toList], by decide, Full.line (l := "SELECT a".toList) (s := ['\r', '\n']) (t := []) (by unfold Plain; decide) (.inl rfl) .nil, rfl, by unfold Plain; decide, .inr ⟨['\r'], "WHERE".toList, by decide, .inr ⟨'\r', rfl, by decide, fun h => by obtain ⟨_, r, h⟩ := h; revert h; simp⟩⟩, by decide, by decide, by decide⟩

example : lineMeta "SELECT a\r\n\tfrm b\rWHERE".toList 12 = " frm b\n ^ [line 2, character 2] ".toList := by
  rw [C79_shown at_example]; decide +kernel
example : placeMeta "SELECT a\r\n\tfrm b\rWHERE".toList (some (some [49, 50])) = some ("LINE".toList, Shown "\tfrm b".toList 2 2) :=
  C79_place (by decide) (by decide) (by decide) at_example
example : ∃ l k n, At "SELECT a\r\n\tfrm b\rWHERE".toList 12 l k n ∧ l[n - 1]? = some 'f' := C79_line (i := 11) (by decide) (by decide)

end PG.Props.Marker
