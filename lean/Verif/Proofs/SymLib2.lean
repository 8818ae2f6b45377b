import Verif.Proofs.SymLib
import Verif.Props.SqlSplit
import Verif.Proofs.Element3c
/-!
# Proofs about reading symbol libraries: sections and symbols
-/
namespace PG.Proofs.SymLib
open PG PG.SymLib PG.Spec.SymLib PG.PyStr

/-! ### Markers -/

theorem split_no (sep : Char) : ∀ a : Str, sep ∉ a → PyStr.split sep a = [a]
  | [], _ => rfl
  | x :: a, h => by
    rw [PyStr.split, if_neg (fun e => h (by simp [e])), split_no sep a (fun e => h (by simp [e]))]
    rfl

theorem split_at (sep : Char) : ∀ (a b : Str), sep ∉ a → PyStr.split sep (a ++ sep :: b) = a :: PyStr.split sep b
  | [], b, _ => by rw [List.nil_append, PyStr.split, if_pos rfl]
  | x :: a, b, h => by
    rw [List.cons_append, PyStr.split, if_neg (fun e => h (by simp [e])), split_at sep a b (fun e => h (by simp [e]))]
    rfl

theorem split_of_join (sep : Char) : ∀ fs : List Str, fs ≠ [] → (∀ f ∈ fs, sep ∉ f) → PyStr.split sep (join [sep] fs) = fs
  | [], h, _ => absurd rfl h
  | [f], _, h => by rw [join]; exact split_no sep f (h f (by simp))
  | f :: g :: fs, _, h => by
    rw [join, List.append_assoc, List.singleton_append, split_at sep f _ (h f (by simp)), split_of_join sep (g :: fs) (by simp) (fun x hx => h x (by simp [hx]))]
    simp

theorem components_iff (U : Unicode) (header : Str) (fs : List Str) : Components U header fs ↔ PyStr.split ':' (stripBrackets (strip U header)) = fs := by
  constructor
  · rintro ⟨a, b, ha, hb, h1, h2, h3⟩
    rw [(strip_iff U _ _).mp ha, (stripBrackets_iff _ _).mp hb, h3]
    exact split_of_join ':' fs h1 h2
  · intro h
    obtain ⟨h1, h2, h3⟩ := PG.Props.SqlSplit.split_join ':' (stripBrackets (strip U header))
    subst h
    exact ⟨_, _, (strip_iff U _ _).mpr rfl, (stripBrackets_iff _ _).mpr rfl, h3, h2, h1.symm⟩

theorem describe_spec (U : Unicode) (header : Str) : ∃ fs, Components U header fs ∧ fs.head? = some (describe U header).1 ∧ (describe U header).2.1 = fs[1]? ∧ (describe U header).2.2 = fs[2]? := by
  have hc := (components_iff U header _).mpr rfl
  have hn := (PG.Props.SqlSplit.split_join ':' (stripBrackets (strip U header))).2.2
  unfold describe
  generalize PyStr.split ':' (stripBrackets (strip U header)) = fs at *
  refine ⟨fs, hc, ?_⟩
  match fs with
  | [] => exact absurd rfl hn
  | [n] => exact ⟨rfl, rfl, rfl⟩
  | [n, t] => exact ⟨rfl, rfl, rfl⟩
  | n :: t :: m :: l => exact ⟨rfl, rfl, rfl⟩

theorem components_unique (U : Unicode) (header : Str) (fs gs : List Str) (h : Components U header fs) (h' : Components U header gs) : fs = gs :=
  ((components_iff U header fs).mp h).symm.trans ((components_iff U header gs).mp h')

/-! ### Bodies -/

/-- What is written, of an entry. -/
def written (e : Entry) : Written := ⟨e.name, e.isref, e.typ, e.exe, e.query⟩

theorem latest_find (syms : List Entry) (n : Str) : ∀ y, syms.find? (fun y => y.name = n) = some y ↔ Latest Entry.name syms n y := by
  intro y
  rw [List.find?_eq_some_iff_append]
  constructor
  · rintro ⟨h, a, b, e, ha⟩
    exact ⟨a, b, e, by simpa using h, fun z hz => by simpa using ha z hz⟩
  · rintro ⟨a, b, e, h, ha⟩
    exact ⟨by simpa using h, a, b, e, fun z hz => by simpa using ha z hz⟩

theorem latest_written {syms : List Entry} {n : Str} {w : Written} (h : Latest Written.name (syms.map written) n w) : ∃ y, Latest Entry.name syms n y ∧ written y = w := by
  obtain ⟨a, b, e, h1, h2⟩ := h
  obtain ⟨a', r, rfl, rfl, hr⟩ := List.map_eq_append_iff.mp e
  obtain ⟨y, b', rfl, rfl, rfl⟩ := List.map_eq_cons_iff.mp hr
  exact ⟨y, ⟨a', b', rfl, h1, fun z hz => h2 (written z) (List.mem_map.mpr ⟨z, hz, rfl⟩)⟩, rfl⟩

theorem written_latest {syms : List Entry} {n : Str} {y : Entry} (h : Latest Entry.name syms n y) : Latest Written.name (syms.map written) n (written y) := by
  obtain ⟨a, b, rfl, h1, h2⟩ := h
  refine ⟨a.map written, b.map written, by simp, h1, fun z hz => ?_⟩
  obtain ⟨x, hx, rfl⟩ := List.mem_map.mp hz
  exact h2 x hx

theorem reads_iff (syms : List Entry) : ∀ (body ts : List Str), (body.map bline).mapM (resolve syms) = .ok ts ↔ Reads (syms.map written) body ts
  | [], ts => by
    constructor
    · intro h; have h : ([] : List Str) = ts := Except.ok.inj h; subst h; exact .nil
    · intro h; cases h; rfl
  | x :: body, ts => by
    have ih := reads_iff syms body
    rw [List.map_cons, List.mapM_cons]
    cases hb : bline x with
    | text s =>
      obtain ⟨rfl, hn⟩ := bline_text_not x s hb
      constructor
      · intro h
        have h : ((body.map bline).mapM (resolve syms) >>= fun l => pure (s :: l)) = .ok ts := h
        obtain ⟨l, h1, h2⟩ := PG.Element3.bind_eq_ok h
        cases h2
        exact .plain hn ((ih l).mp h1)
      · intro h
        cases h with
        | plain _ hr => have := (ih _).mpr hr; show ((body.map bline).mapM (resolve syms) >>= fun l => pure (s :: l)) = _; rw [this]; rfl
        | ref hr => exact absurd hr (hn _ _)
    | ref n r =>
      have hr := (bline_ref x n r).mp hb
      constructor
      · intro h
        obtain ⟨q, h1, h⟩ := PG.Element3.bind_eq_ok h
        obtain ⟨l, h2, h3⟩ := PG.Element3.bind_eq_ok h
        cases h3
        unfold resolve at h1
        dsimp only at h1
        cases hf : syms.find? (fun y => y.name = n) with
        | none => rw [hf] at h1; cases h1
        | some y =>
          rw [hf] at h1
          cases h1
          exact .ref hr (written_latest ((latest_find syms n y).mp hf)) ((ih l).mp h2)
      · intro h
        cases h with
        | plain hn _ => exact absurd hr (hn _ _)
        | ref hr' hl hrest =>
          obtain ⟨e1, e2⟩ := split_unique _ _ _ _ hr.2 hr'.2 (by have := hr.1.symm.trans hr'.1; simpa using this)
          subst e1; subst e2
          obtain ⟨y, hy, rfl⟩ := latest_written hl
          have hf := (latest_find syms n y).mpr hy
          have := (ih _).mpr hrest
          show (resolve syms (.ref n r) >>= fun a => (body.map bline).mapM (resolve syms) >>= fun l => pure (a :: l)) = _
          rw [this]
          unfold resolve
          dsimp only
          rw [hf]
          rfl

theorem isComment_iff (x : Str) : isComment x = true ↔ Comment x := by
  unfold isComment Comment
  rw [decide_eq_true_iff]
  constructor
  · intro h
    exact ⟨x.drop 3, by have := List.take_append_drop 3 x; rw [h] at this; exact this.symm⟩
  · rintro ⟨s, rfl⟩; rfl

theorem statement_iff (t : Str) : ∀ (ts : List Str), Statement ts t ↔ (ts.dropWhile isComment).flatten = t
  | [] => by
    constructor
    · rintro ⟨c, r, e, -, -, ht⟩
      obtain ⟨rfl, rfl⟩ := List.append_eq_nil_iff.mp e.symm
      exact ht.symm
    · intro h; exact ⟨[], [], rfl, by simp, by simp, h.symm⟩
  | x :: ts => by
    by_cases hx : isComment x = true
    · rw [List.dropWhile_cons_of_pos hx, ← statement_iff t ts]
      have hC := (isComment_iff x).mp hx
      constructor
      · rintro ⟨c, r, e, h1, h2, h3⟩
        cases c with
        | nil => subst e; exact absurd hC (h2 x rfl)
        | cons y c =>
          obtain ⟨-, e⟩ := List.cons.inj e
          exact ⟨c, r, e, fun z hz => h1 z (by simp [hz]), h2, h3⟩
      · rintro ⟨c, r, e, h1, h2, h3⟩
        refine ⟨x :: c, r, by rw [e]; rfl, fun z hz => ?_, h2, h3⟩
        rcases List.mem_cons.mp hz with rfl | hz
        · exact hC
        · exact h1 z hz
    · rw [List.dropWhile_cons_of_neg hx]
      have hC : ¬ Comment x := fun h => hx ((isComment_iff x).mpr h)
      constructor
      · rintro ⟨c, r, e, h1, h2, h3⟩
        cases c with
        | nil => subst e; exact h3.symm
        | cons y c => obtain ⟨rfl, -⟩ := List.cons.inj e; exact absurd (h1 x (by simp)) hC
      · intro h
        exact ⟨[], x :: ts, rfl, by simp, fun y hy => by cases hy; exact hC, h.symm⟩

/-! ### Sections -/

/-- The text of a section's statement. -/
def textOf (U : Unicode) (typ : Option Str) (ts : List Str) : Str :=
  if typ = some "proc".toList then strip U (ts.dropWhile isComment).flatten else (ts.dropWhile isComment).flatten

/-- The entry made of it. -/
def entryOf (U : Unicode) (header : Str) (ts : List Str) : Entry :=
  match (describe U header).1 with
  | '&' :: n => ⟨n, true, (describe U header).2.1, (describe U header).2.2, ((ts.takeWhile isComment).map (List.drop 3)).flatten, textOf U (describe U header).2.1 ts⟩
  | n => ⟨n, false, (describe U header).2.1, (describe U header).2.2, ((ts.takeWhile isComment).map (List.drop 3)).flatten, textOf U (describe U header).2.1 ts⟩

theorem section_eq (U : Unicode) (syms : List Entry) (header : Str) (b : List BLine) :
    section_ U syms header b = (b.mapM (resolve syms)).map (entryOf U header) := by
  unfold section_
  cases b.mapM (resolve syms) with
  | error e => rfl
  | ok ts =>
    show Except.ok _ = Except.ok _
    unfold entryOf textOf
    rfl

theorem entryOf_spec (U : Unicode) (header : Str) (ts : List Str) :
    (∃ fs, Components U header fs ∧ fs.head? = some ((if (entryOf U header ts).isref then ['&'] else []) ++ (entryOf U header ts).name) ∧
      ((entryOf U header ts).isref = false → (entryOf U header ts).name.head? ≠ some '&') ∧ (entryOf U header ts).typ = fs[1]? ∧ (entryOf U header ts).exe = fs[2]?) ∧
    (entryOf U header ts).query = textOf U (entryOf U header ts).typ ts := by
  obtain ⟨fs, h1, h2, h3, h4⟩ := describe_spec U header
  unfold entryOf
  split
  · next n hn => exact ⟨⟨fs, h1, by rw [h2, hn]; rfl, by simp, h3, h4⟩, rfl⟩
  · next n hn =>
    refine ⟨⟨fs, h1, by rw [h2]; rfl, fun _ => ?_, h3, h4⟩, rfl⟩
    intro hh
    cases hd : (describe U header).1 with
    | nil => rw [hd] at hh; cases hh
    | cons c n' => rw [hd] at hh; cases hh; exact hn n' hd

theorem means_iff (U : Unicode) (syms : List Entry) (s : Section) (w : Written) :
    Means U (syms.map written) s w ↔ ∃ e, section_ U syms s.header (s.body.map bline) = .ok e ∧ written e = w := by
  rw [section_eq]
  constructor
  · rintro ⟨⟨fs, f1, f2, f3, f4, f5⟩, ts, t, t1, t2, t3, t4⟩
    rw [(reads_iff syms _ _).mpr t1]
    refine ⟨_, rfl, ?_⟩
    obtain ⟨⟨gs, g1, g2, g3, g4, g5⟩, hq⟩ := entryOf_spec U s.header ts
    have hfg := components_unique U _ _ _ f1 g1
    subst hfg
    have htyp : (entryOf U s.header ts).typ = w.typ := g4.trans f4.symm
    have ht := (statement_iff t ts).mp t2
    have htext : (entryOf U s.header ts).query = w.text := by
      rw [hq, htyp]
      unfold textOf
      rw [ht]
      by_cases hp : w.typ = some "proc".toList
      · rw [if_pos hp]; exact (strip_iff U _ _).mp (t4 hp)
      · rw [if_neg hp]; exact (t3 hp).symm
    have hn := Option.some.inj (f2.symm.trans g2)
    have : w.isref = (entryOf U s.header ts).isref ∧ w.name = (entryOf U s.header ts).name := by
      generalize entryOf U s.header ts = e at *
      cases hw : w.isref <;> cases he : e.isref <;> rw [hw] at hn f3 <;> rw [he] at hn g3
      · exact ⟨rfl, hn⟩
      · exact absurd (by have hn : w.name = '&' :: e.name := hn; rw [hn]; rfl) (f3 rfl)
      · exact absurd (by have hn : '&' :: w.name = e.name := hn; rw [← hn]; rfl) (g3 rfl)
      · exact ⟨rfl, (List.cons.inj hn).2⟩
    unfold written
    rw [← this.1, ← this.2, htyp, htext, g5, ← f5]
  · rintro ⟨e, h, rfl⟩
    cases hm : (s.body.map bline).mapM (resolve syms) with
    | error x => rw [hm] at h; cases h
    | ok ts =>
      rw [hm] at h
      have h : entryOf U s.header ts = e := Except.ok.inj h
      obtain ⟨hg, hq⟩ := entryOf_spec U s.header ts
      rw [h] at hg hq
      refine ⟨hg, ts, _, (reads_iff syms _ _).mp hm, (statement_iff _ ts).mpr rfl, ?_, ?_⟩
      · intro hp
        show e.query = _
        rw [hq, textOf, if_neg (show ¬ e.typ = _ from hp)]
      · intro hp
        rw [strip_iff]
        show _ = e.query
        rw [hq, textOf, if_pos (show e.typ = _ from hp)]

theorem sections_snoc (U : Unicode) : ∀ (l : List (Option Str × List BLine)) (syms : List Entry) (h : Option Str) (b : List BLine),
    sections U syms (l ++ [(h, b)]) = (sections U syms l >>= fun s => (section_ U s (h.getD []) b).map (· :: s))
  | [], syms, h, b => by
    rw [List.nil_append, sections, sections]
    show (section_ U syms (h.getD []) b >>= fun e => sections U (e :: syms) []) = (section_ U syms (h.getD []) b).map (· :: syms)
    cases section_ U syms (h.getD []) b with
    | error e => rfl
    | ok e => rfl
  | (h0, b0) :: l, syms, h, b => by
    rw [List.cons_append, sections, sections]
    cases hs : section_ U syms (h0.getD []) b0 with
    | error e => rfl
    | ok e => exact sections_snoc U l (e :: syms) h b

theorem symbols_iff (U : Unicode) (secs : List Section) : ∀ l, Symbols U secs l ↔ ∃ es, sections U [] (secs.map fun s => (some s.header, s.body.map bline)) = .ok es ∧ es.map written = l := by
  suffices H : ∀ (n : Nat) (secs : List Section), secs.length = n → ∀ l, Symbols U secs l ↔ ∃ es, sections U [] (secs.map fun s => (some s.header, s.body.map bline)) = .ok es ∧ es.map written = l from
    H _ secs rfl
  intro n
  induction n with
  | zero =>
    intro secs hn l
    have : secs = [] := List.eq_nil_of_length_eq_zero hn
    subst this
    constructor
    · intro h
      generalize hs : ([] : List Section) = x at h
      cases h with
      | nil => exact ⟨[], rfl, rfl⟩
      | snoc => exact absurd hs (by simp)
    · rintro ⟨es, h, rfl⟩
      have h : ([] : List Entry) = es := Except.ok.inj h
      subst h
      exact .nil
  | succ n ih =>
    intro secs hn l
    have hne : secs ≠ [] := by intro e; subst e; cases hn
    obtain ⟨secs', s, rfl⟩ : ∃ a b, secs = a ++ [b] := ⟨_, _, (List.dropLast_concat_getLast hne).symm⟩
    have hn' : secs'.length = n := by simpa using hn
    have ih' := ih secs' hn'
    rw [List.map_append, List.map_cons, List.map_nil, sections_snoc]
    constructor
    · intro h
      generalize hs : secs' ++ [s] = x at h
      cases h with
      | nil => exact absurd hs (by simp)
      | snoc h1 h2 =>
        obtain ⟨rfl, e⟩ := List.append_inj' hs rfl
        cases e
        obtain ⟨es, he, rfl⟩ := (ih' _).mp h1
        obtain ⟨e, k1, rfl⟩ := (means_iff U es s _).mp h2
        refine ⟨e :: es, ?_, rfl⟩
        rw [he]
        show Except.map _ (section_ U es s.header (s.body.map bline)) = _
        rw [k1]; rfl
    · rintro ⟨es, h, rfl⟩
      obtain ⟨es', h1, h2⟩ := PG.Element3.bind_eq_ok h
      cases hsec : section_ U es' s.header (s.body.map bline) with
      | error x => rw [show section_ U es' ((some s.header).getD []) (s.body.map bline) = .error x from hsec] at h2; cases h2
      | ok e =>
        rw [show section_ U es' ((some s.header).getD []) (s.body.map bline) = .ok e from hsec] at h2
        have h2 : e :: es' = es := Except.ok.inj h2
        subst h2
        exact .snoc ((ih' _).mpr ⟨es', h1, rfl⟩) ((means_iff U es' s _).mpr ⟨e, hsec, rfl⟩)

end PG.Proofs.SymLib
