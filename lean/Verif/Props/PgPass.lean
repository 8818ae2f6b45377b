import Verif.Model.PgPass
import Verif.Spec.PgPass
import Verif.Props.SqlSplit
/-!
# C30: password files
-/
namespace PG.Props.PgPass
open PG PG.PyStr PG.PgPass PG.Spec.PgPass PG.Props.PgString

/-- The fields the pieces between colons make. -/
def glue : List Str → List Str
  | [] => []
  | [x] => [undouble '\\' x]
  | x :: y :: l => if oddTrail x then appHead ((undouble '\\' x).dropLast ++ [':']) (glue (y :: l)) else undouble '\\' x :: glue (y :: l)

theorem splitLoop_glue : ∀ (l : List Str) (r : List Str) (b : Bool), (b = true → r ≠ [] ∧ l ≠ []) → splitLoop r b l =
    if b then r.dropLast ++ appHead ((r.getLast?.getD []).dropLast ++ [':']) (glue l) else r ++ glue l
  | [], r, b, h => by
    cases b with
    | true => exact absurd rfl (h rfl).2
    | false => simp [splitLoop, glue]
  | [x], r, b, h => by
    cases b <;> simp [splitLoop, glue, appHead]
  | x :: y :: l, r, b, h => by
    cases b with
    | true =>
      rw [splitLoop, splitLoop_glue (y :: l) _ _ (fun _ => ⟨by simp, by simp⟩), glue]
      by_cases ho : oddTrail x = true
      · rw [if_pos ho, if_pos ho, if_pos rfl]
        have hx : undouble '\\' x ≠ [] := by
          cases x with
          | nil => simp [oddTrail] at ho
          | cons c x =>
            cases x with
            | nil => simp [undouble]
            | cons d x => rw [undouble]; split <;> simp
        rw [List.dropLast_concat, List.getLast?_concat, Option.getD_some]
        obtain ⟨h, t, e⟩ : ∃ h t, glue (y :: l) = h :: t := by
          cases l with
          | nil => exact ⟨_, _, rfl⟩
          | cons z l =>
            rw [glue]
            split
            · cases hg : glue (z :: l) <;> exact ⟨_, _, rfl⟩
            · exact ⟨_, _, rfl⟩
        rw [e]
        simp only [appHead]
        rw [List.dropLast_append_of_ne_nil hx]
        simp
      · rw [if_neg ho, if_neg ho, if_pos rfl]
        simp [appHead]
    | false =>
      rw [splitLoop, splitLoop_glue (y :: l) _ _ (fun _ => ⟨by simp, by simp⟩), glue]
      by_cases ho : oddTrail x = true
      · rw [if_pos ho, if_pos ho, if_neg (by simp), List.dropLast_concat, List.getLast?_concat, Option.getD_some]
      · rw [if_neg ho, if_neg ho, if_neg (by simp)]
        simp

/-- The number of backslashes at the end. -/
theorem trail_cons (c : Char) (x : Str) (h : x.any (· ≠ '\\') = true ∨ c ≠ '\\') : oddTrail (c :: x) = oddTrail x := by
  have key : ((c :: x).reverse.dropWhile (· = '\\')).length = (x.reverse.dropWhile (· = '\\')).length + 1 := by
    rw [List.reverse_cons]
    have : ∀ y : Str, (y.any (· ≠ '\\') = true ∨ c ≠ '\\') → ((y ++ [c]).dropWhile (· = '\\')).length = (y.dropWhile (· = '\\')).length + 1 := by
      intro y hy
      induction y with
      | nil => simp at hy; simp [hy]
      | cons d y ih =>
        by_cases hd : d = '\\'
        · have hy' : y.any (· ≠ '\\') = true ∨ c ≠ '\\' := by simpa [hd] using hy
          simp [hd, ih hy']
        · simp [hd]
    exact this _ (by simpa using h)
  unfold oddTrail
  rw [key, List.length_cons]
  congr 2
  omega

theorem trail_two (x : Str) : oddTrail ('\\' :: '\\' :: x) = oddTrail x := by
  by_cases h : x.any (· ≠ '\\') = true
  · rw [trail_cons _ _ (.inl (by simpa using h)), trail_cons _ _ (.inl h)]
  · have hall : ∀ c ∈ x, c = '\\' := by simpa using h
    have he : ∀ y : Str, (∀ c ∈ y, c = '\\') → y.reverse.dropWhile (· = '\\') = [] := by
      intro y hy
      have : ∀ z : Str, (∀ c ∈ z, c = '\\') → z.dropWhile (· = '\\') = [] := by
        intro z hz
        induction z with
        | nil => rfl
        | cons c z ih => simp [hz c List.mem_cons_self, ih fun x hx => hz x (List.mem_cons_of_mem _ hx)]
      exact this _ fun c hc => hy c (List.mem_reverse.1 hc)
    unfold oddTrail
    rw [he x hall, he _ (by simpa using hall)]
    simp
    omega

theorem split_cons (sep : Char) (s : Str) : ∃ h t, PyStr.split sep s = h :: t := by
  cases hs : PyStr.split sep s with
  | nil => exact absurd hs (PG.Props.SqlSplit.split_join sep s).2.2
  | cons h t => exact ⟨h, t, rfl⟩

theorem glue_cons (l : List Str) (h : l ≠ []) : ∃ a t, glue l = a :: t := by
  cases l with
  | nil => exact absurd rfl h
  | cons x l =>
    cases l with
    | nil => exact ⟨_, _, rfl⟩
    | cons y l =>
      rw [glue]
      split
      · cases glue (y :: l) <;> exact ⟨_, _, rfl⟩
      · exact ⟨_, _, rfl⟩

theorem undouble_length (q : Char) : ∀ x : Str, x ≠ [] → undouble q x ≠ []
  | [], h => absurd rfl h
  | [c], _ => by simp [undouble]
  | c :: d :: x, _ => by rw [undouble]; split <;> simp

theorem oddTrail_ne {x : Str} (h : oddTrail x = true) : x ≠ [] := by
  rintro rfl
  simp [oddTrail] at h

/-- A prefix of the first piece that keeps its end and does not touch the rest goes over to the first field. -/
theorem glue_prefix (a b : Str) (x : Str) (l : List Str) (h1 : undouble '\\' (a ++ x) = b ++ undouble '\\' x) (h2 : l ≠ [] → oddTrail (a ++ x) = oddTrail x) :
    glue ((a ++ x) :: l) = appHead b (glue (x :: l)) := by
  cases l with
  | nil => simp [glue, appHead, h1]
  | cons y l =>
    rw [glue, glue, h2 (by simp), h1]
    by_cases ho : oddTrail x = true
    · rw [if_pos ho, if_pos ho, List.dropLast_append_of_ne_nil (undouble_length _ _ (oddTrail_ne ho))]
      obtain ⟨g, t, e⟩ := glue_cons (y :: l) (by simp)
      rw [e]
      simp [appHead]
    · rw [if_neg ho, if_neg ho]
      rfl

theorem fields_glue (s : Str) : fields s = glue (PyStr.split ':' s) := by
  have hsp : ∀ c s', c ≠ ':' → PyStr.split ':' (c :: s') = consHead c (PyStr.split ':' s') := by
    intro c s' hc
    rw [PyStr.split, if_neg hc]
  fun_induction fields s
  · rfl
  · rename_i s' ih
    rw [ih, hsp _ _ (by decide), hsp _ _ (by decide)]
    obtain ⟨h, t, e⟩ := split_cons ':' s'
    rw [e]
    simp only [consHead]
    rw [show '\\' :: '\\' :: h = ['\\', '\\'] ++ h from rfl, glue_prefix ['\\', '\\'] ['\\'] h t (by simp [undouble]) (fun _ => trail_two h)]
    cases glue (h :: t) <;> rfl
  · rename_i s' ih
    rw [ih, hsp _ _ (by decide), PyStr.split, if_pos rfl]
    obtain ⟨h, t, e⟩ := split_cons ':' s'
    rw [e]
    simp only [consHead]
    rw [glue, if_pos (by decide)]
    cases glue (h :: t) <;> rfl
  · rename_i s' ih
    rw [ih, PyStr.split, if_pos rfl]
    obtain ⟨h, t, e⟩ := split_cons ':' s'
    rw [e, glue, if_neg (by decide)]
    rfl
  · rename_i c s' h1 h2 h3 ih
    have hc : c ≠ ':' := fun hh => h3 hh
    rw [ih, hsp _ _ hc]
    obtain ⟨h, t, e⟩ := split_cons ':' s'
    rw [e]
    simp only [consHead]
    rw [show c :: h = [c] ++ h from rfl, glue_prefix [c] [c] h t]
    · cases glue (h :: t) <;> rfl
    · by_cases hb : c = '\\'
      · cases h with
        | nil => simp [undouble]
        | cons d h =>
          have hd : d ≠ '\\' := by
            rintro rfl
            cases s' with
            | nil => simp [PyStr.split] at e
            | cons x s' =>
              by_cases hx : x = ':'
              · simp [PyStr.split, hx] at e
              · rw [hsp _ _ hx] at e
                obtain ⟨h', t', e'⟩ := split_cons ':' s'
                rw [e'] at e
                simp only [consHead] at e
                injection e with e _
                injection e with e _
                subst e
                exact h1 s' hb rfl
          simp [undouble, hd]
      · exact undouble_ne hb h
    · intro ht
      refine trail_cons c h ?_
      by_cases hb : c = '\\'
      · left
        cases s' with
        | nil => simp [PyStr.split] at e; first | exact absurd e.2.symm ht | exact absurd e.2 ht
        | cons x s' =>
          by_cases hx : x = ':'
          · subst hx
            exact absurd rfl (h2 s' hb)
          · rw [hsp _ _ hx] at e
            obtain ⟨h', t', e'⟩ := split_cons ':' s'
            rw [e'] at e
            simp only [consHead] at e
            injection e with e _
            subst e
            have : x ≠ '\\' := by rintro rfl; exact h1 s' hb rfl
            simp [this]
      · exact .inr hb

/-- C30: every line that has five fields by the rules of the format, and no other, is an entry, with those fields. -/
theorem C30_split (U : Unicode) (line : Str) : PgPass.split U line =
    if strip U line = [] ∨ (fields (strip U line)).length ≠ 5 then none else some (fields (strip U line)) := by
  unfold PgPass.split
  simp only
  rw [splitLoop_glue _ _ _ (by simp), fields_glue]
  by_cases h : strip U line = []
  · simp [h]
  · simp [h]

theorem fields_escape (sep : Str) (hs : sep = [] ∨ ∃ t, sep = ':' :: t) : ∀ s : Str, fields (escape s ++ sep) = appHead s (fields sep)
  | [] => by
    show fields sep = _
    cases h : fields sep with
    | nil => rcases hs with rfl | ⟨t, rfl⟩ <;> simp [fields] at h
    | cons a l => simp [appHead]
  | c :: s => by
    have ih := fields_escape sep hs s
    by_cases hc : c = ':'
    · subst hc
      have : escape (':' :: s) = '\\' :: ':' :: escape s := by simp [escape]
      rw [this, List.cons_append, List.cons_append, fields, ih]
      cases fields sep <;> rfl
    · by_cases hb : c = '\\'
      · subst hb
        have : escape ('\\' :: s) = '\\' :: '\\' :: escape s := by simp [escape]
        rw [this, List.cons_append, List.cons_append, fields, ih]
        cases fields sep <;> rfl
      · have : escape (c :: s) = c :: escape s := by simp [escape, hc, hb]
        rw [this, List.cons_append, fields, ih]
        · cases fields sep <;> rfl
        · rintro s' hh _; exact hb hh
        · rintro s' hh _; exact hb hh
        · intro hh; exact hc hh

/-- C30: an entry written by the rules is read as that entry, whatever its fields, if its line does not begin or end with white space. -/
theorem C30_entry (U : Unicode) (e : Entry) (h : strip U e.line = e.line) : PgPass.split U e.line = some [e.host, e.port, e.database, e.user, e.password] := by
  have hf : fields e.line = [e.host, e.port, e.database, e.user, e.password] := by
    unfold Entry.line
    simp only [List.append_assoc, List.cons_append, List.nil_append]
    rw [fields_escape _ (.inr ⟨_, rfl⟩), fields, fields_escape _ (.inr ⟨_, rfl⟩), fields,
      fields_escape _ (.inr ⟨_, rfl⟩), fields, fields_escape _ (.inr ⟨_, rfl⟩), fields]
    have := fields_escape [] (.inl rfl) e.password
    rw [List.append_nil] at this
    rw [this]
    simp [appHead, fields]
  rw [C30_split, h, hf, if_neg]
  rintro (h0 | h0)
  · rw [h0] at hf; simp [fields] at hf
  · simp at h0

/-- An entry as `parse` gives it. -/
def row (e : Entry) : Str × List Str := (e.password, [e.host, e.port, e.database, e.user])

/-- C30: the password found is that of the first entry that is for the connection. -/
theorem C30_lookup (es : List Entry) (user host port database w : Str) : lookupPassword (es.map row) (user, host, port, database) = .ok (some w) ↔
    ∃ pre e post, es = pre ++ e :: post ∧ e.password = w ∧ e.Matches host port database user ∧ ∀ x ∈ pre, ¬ x.Matches host port database user := by
  unfold lookupPassword
  simp only
  induction es with
  | nil => simp [lookupLoop]
  | cons e es ih =>
    rw [List.map_cons, row, lookupLoop]
    have hcond : ((e.user = ['*'] ∨ e.user = user) ∧ (e.host = ['*'] ∨ e.host = host) ∧ (e.port = ['*'] ∨ e.port = port) ∧
        (e.database = ['*'] ∨ e.database = database)) ↔ e.Matches host port database user := by
      unfold Entry.Matches admits
      exact ⟨fun ⟨a, b, c, d⟩ => ⟨b, c, d, a⟩, fun ⟨b, c, d, a⟩ => ⟨a, b, c, d⟩⟩
    by_cases hm : e.Matches host port database user
    · rw [if_pos (hcond.2 hm)]
      constructor
      · intro h
        cases h
        exact ⟨[], e, es, rfl, rfl, hm, by simp⟩
      · rintro ⟨pre, x, post, h1, h2, h3, h4⟩
        cases pre with
        | nil => injection h1 with h1 _; rw [h1, h2]
        | cons y pre =>
          injection h1 with h1 _
          exact absurd (h1 ▸ hm) (h4 y List.mem_cons_self)
    · rw [if_neg (fun h => hm (hcond.1 h)), ih]
      constructor
      · rintro ⟨pre, x, post, h1, h2, h3, h4⟩
        refine ⟨e :: pre, x, post, by rw [h1]; rfl, h2, h3, ?_⟩
        intro y hy
        rcases List.mem_cons.1 hy with rfl | hy
        · exact hm
        · exact h4 y hy
      · rintro ⟨pre, x, post, h1, h2, h3, h4⟩
        cases pre with
        | nil => injection h1 with h1 _; exact absurd (h1 ▸ h3) hm
        | cons y pre =>
          injection h1 with _ h1
          exact ⟨pre, x, post, h1, h2, h3, fun z hz => h4 z (List.mem_cons_of_mem _ hz)⟩

/-- C30: if no entry is for the connection there is no password. -/
theorem C30_lookup_none (es : List Entry) (user host port database : Str) : lookupPassword (es.map row) (user, host, port, database) = .ok none ↔
    ∀ x ∈ es, ¬ x.Matches host port database user := by
  have htot : ∀ es : List Entry, ∃ o, lookupPassword (es.map row) (user, host, port, database) = .ok o := by
    intro es
    unfold lookupPassword
    simp only
    induction es with
    | nil => exact ⟨none, rfl⟩
    | cons e es ih =>
      rw [List.map_cons, row, lookupLoop]
      split
      · exact ⟨_, rfl⟩
      · exact ih
  obtain ⟨o, ho⟩ := htot es
  have hl := C30_lookup es user host port database
  rw [ho]
  constructor
  · intro h x hx hm
    cases h
    -- take the first match
    have : ∀ es : List Entry, x ∈ es → ∃ pre e post, es = pre ++ e :: post ∧ e.Matches host port database user ∧ ∀ y ∈ pre, ¬ y.Matches host port database user := by
      intro es
      induction es with
      | nil => simp
      | cons e es ih =>
        intro hx
        by_cases he : e.Matches host port database user
        · exact ⟨[], e, es, rfl, he, by simp⟩
        · rcases List.mem_cons.1 hx with rfl | hx
          · exact absurd hm he
          · obtain ⟨pre, f, post, h1, h2, h3⟩ := ih hx
            refine ⟨e :: pre, f, post, by rw [h1]; rfl, h2, ?_⟩
            intro y hy
            rcases List.mem_cons.1 hy with rfl | hy
            · exact he
            · exact h3 y hy
    obtain ⟨pre, e, post, h1, h2, h3⟩ := this es hx
    have := (hl e.password).2 ⟨pre, e, post, h1, rfl, h2, h3⟩
    rw [ho] at this
    cases this
  · intro h
    cases o with
    | none => rfl
    | some w =>
      obtain ⟨pre, e, post, h1, _, h3, _⟩ := (hl w).1 ho
      exact absurd h3 (h e (by rw [h1]; simp))

theorem parse_entries (U : Unicode) : ∀ lines : List Str, ∃ es : List Entry, parse U lines = es.map row ∧
    ∀ e ∈ es, ∃ l ∈ lines, PgPass.split U l = some [e.host, e.port, e.database, e.user, e.password]
  | [] => ⟨[], rfl, by simp⟩
  | l :: lines => by
    obtain ⟨es, h1, h2⟩ := parse_entries U lines
    unfold parse at h1 ⊢
    cases hs : PgPass.split U l with
    | none =>
      refine ⟨es, by rw [List.filterMap_cons, hs]; exact h1, ?_⟩
      intro e he
      obtain ⟨l', hl', h⟩ := h2 e he
      exact ⟨l', List.mem_cons_of_mem _ hl', h⟩
    | some r =>
      have h5 : r.length = 5 := by
        rw [C30_split] at hs
        split at hs
        · cases hs
        · rename_i h
          cases hs
          simp only [not_or, Decidable.not_not] at h
          exact h.2
      obtain ⟨a, b, c, d, f, rfl⟩ : ∃ a b c d f, r = [a, b, c, d, f] := by
        match r, h5 with
        | [a, b, c, d, f], _ => exact ⟨a, b, c, d, f, rfl⟩
      refine ⟨⟨a, b, c, d, f⟩ :: es, ?_, ?_⟩
      · rw [List.filterMap_cons, hs, List.map_cons, List.map_cons, h1]
        rfl
      · intro e he
        rcases List.mem_cons.1 he with rfl | he
        · exact ⟨l, List.mem_cons_self, hs⟩
        · obtain ⟨l', hl', h⟩ := h2 e he
          exact ⟨l', List.mem_cons_of_mem _ hl', h⟩

/-- C30: a file of entries is read entry by entry; lines that are not entries are skipped. -/
theorem C30_parse (U : Unicode) (ls : List (Str × Option Entry))
    (h : ∀ p ∈ ls, PgPass.split U p.1 = p.2.map fun e => [e.host, e.port, e.database, e.user, e.password]) : parse U (ls.map Prod.fst) = (ls.filterMap Prod.snd).map row := by
  unfold parse
  induction ls with
  | nil => rfl
  | cons p ls ih =>
    have ih := ih fun q hq => h q (List.mem_cons_of_mem _ hq)
    have hp := h p List.mem_cons_self
    rw [List.map_cons, List.filterMap_cons, hp]
    cases hs : p.2 with
    | none => rw [List.filterMap_cons, hs]; exact ih
    | some e =>
      rw [List.filterMap_cons, hs]
      simp only [Option.map_some, List.map_cons]
      rw [ih]
      rfl

/-- C30: looking a password up in any file never fails, and what is found is in a line that is for the connection; the database defaults to
the user. -/
theorem C30_lookup_file (U : Unicode) (lines : List Str) (user host port : Str) (database : Option Str) :
    ∃ o, lookupPgpass U ⟨some user, some host, some port, database⟩ (some lines) = .ok o ∧ ∀ w, o = some w →
      ∃ l ∈ lines, ∃ e : Entry, PgPass.split U l = some [e.host, e.port, e.database, e.user, e.password] ∧ e.password = w ∧
        e.Matches host port (database.getD user) user := by
  obtain ⟨es, h1, h2⟩ := parse_entries U lines
  unfold lookupPgpass lookupPasswordFile
  simp only
  rw [h1]
  cases hl : lookupPassword (es.map row) (user, host, port, database.getD user) with
  | error e =>
    exfalso
    have : ∀ es : List Entry, lookupPassword (es.map row) (user, host, port, database.getD user) ≠ .error e := by
      intro es
      unfold lookupPassword
      simp only
      induction es with
      | nil => simp [lookupLoop]
      | cons e es ih =>
        rw [List.map_cons, row, lookupLoop]
        split
        · simp
        · exact ih
    exact this es hl
  | ok o =>
    refine ⟨o, rfl, ?_⟩
    rintro w rfl
    obtain ⟨pre, e, post, h3, h4, h5, _⟩ := (C30_lookup es user host port (database.getD user) w).1 hl
    obtain ⟨l, hl', hs⟩ := h2 e (by rw [h3]; simp)
    exact ⟨l, hl', e, hs, h4, h5⟩

/-- C30: without a file there is no password. -/
theorem C30_no_file (U : Unicode) (d : Conf) : lookupPgpass U d none = .ok none := rfl

/-- Finding: comments are not recognized: a comment with four colons is an entry. -/
theorem C30_comment (U : Unicode) : PgPass.split U "#a:b:c:d:e".toList = some ["#a".toList, "b".toList, "c".toList, "d".toList, "e".toList] := by
  have hs : strip U "#a:b:c:d:e".toList = "#a:b:c:d:e".toList := by
    have := strip_pad U [] "#a:b:c:d:e".toList [] (by simp) (by simp) (by intro c hc; simp at hc; subst hc; rw [U.space_ascii _ (by decide)]; decide)
      (by intro c hc; simp at hc; subst hc; rw [U.space_ascii _ (by decide)]; decide) (by simp)
    simpa using this
  rw [C30_split, hs]
  decide

/-- A concrete case. -/
example : (⟨"h:1".toList, ['*'], "d\\".toList, "u".toList, "p".toList⟩ : Entry).line = "h\\:1:*:d\\\\:u:p".toList ∧
    (⟨"h:1".toList, ['*'], "d\\".toList, "u".toList, "p".toList⟩ : Entry).Matches "h:1".toList "5432".toList "d\\".toList "u".toList :=
  ⟨by decide, .inr rfl, .inl rfl, .inr rfl, .inr rfl⟩

end PG.Props.PgPass
