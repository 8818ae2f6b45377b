import Verif.Proofs.SymLib2
/-!
# C46: symbol libraries, reading

What a symbol of a library is, for every file: the text between its section marker and the next, with references replaced and the comment on top left out.
-/
namespace PG.Props.SymLib
open PG PG.SymLib PG.Spec.SymLib PG.PyStr PG.Proofs.SymLib

/-! ### Collecting -/

theorem latest_cons {α : Type} (key : α → Str) (a x : α) (l : List α) (n : Str) : Latest key (a :: l) n x ↔ (key a = n ∧ x = a) ∨ (key a ≠ n ∧ Latest key l n x) := by
  constructor
  · rintro ⟨after, before, e, h1, h2⟩
    cases after with
    | nil => obtain ⟨rfl, rfl⟩ := List.cons.inj e; exact .inl ⟨h1, rfl⟩
    | cons y after =>
      obtain ⟨rfl, rfl⟩ := List.cons.inj e
      exact .inr ⟨h2 a (by simp), after, before, rfl, h1, fun z hz => h2 z (by simp [hz])⟩
  · rintro (⟨h, rfl⟩ | ⟨h, after, before, rfl, h1, h2⟩)
    · exact ⟨[], l, rfl, h, by simp⟩
    · refine ⟨a :: after, before, rfl, h1, fun z hz => ?_⟩
      rcases List.mem_cons.mp hz with rfl | hz
      · exact h
      · exact h2 z hz

theorem methodOf_spec (m : Option Str) :
    ((∀ x, m = some x → x ∈ methods.map String.toList) → methodOf m = .ok (if m = some [] ∨ m = some "all".toList then none else m)) ∧
    ((¬ ∀ x, m = some x → x ∈ methods.map String.toList) → methodOf m = .error .valueError) := by
  cases m with
  | none => exact ⟨fun _ => rfl, fun h => absurd (fun _ hx => by cases hx) h⟩
  | some x =>
    have key : (∀ y, some x = some y → y ∈ methods.map String.toList) ↔ ((x = [] ∨ x = "all".toList) ∨ x ∈ executionMethods) := by
      have : methods.map String.toList = [] :: "all".toList :: executionMethods := by decide
      rw [this]
      constructor
      · intro h
        have := h x rfl
        rw [List.mem_cons, List.mem_cons] at this
        rcases this with h | h | h
        · exact .inl (.inl h)
        · exact .inl (.inr h)
        · exact .inr h
      · rintro h y hy
        cases hy
        rw [List.mem_cons, List.mem_cons]
        rcases h with (h | h) | h
        · exact .inl h
        · exact .inr (.inl h)
        · exact .inr (.inr h)
    rw [key]
    unfold methodOf
    dsimp only
    have e : (some x = some ([] : Str) ∨ some x = some "all".toList) ↔ (x = [] ∨ x = "all".toList) := by rw [Option.some_inj, Option.some_inj]
    by_cases h : x = [] ∨ x = "all".toList
    · rw [if_pos h, if_pos (e.mpr h)]
      exact ⟨fun _ => rfl, fun hn => absurd (.inl h) hn⟩
    · rw [if_neg h, if_neg (fun h' => h (e.mp h'))]
      by_cases hm : x ∈ executionMethods
      · rw [if_neg (fun h => h hm)]
        exact ⟨fun _ => rfl, fun hn => absurd (.inr hm) hn⟩
      · rw [if_pos hm]
        exact ⟨fun hn => (hn.elim h hm).elim, fun _ => rfl⟩

theorem addSymbol_spec (L : Library) (e : Entry) :
    (Known (written e) → ∃ s, Made (written e) s ∧ ∃ pl, addSymbol L e = .ok { L with preload := pl, symbolsd := PyDict.set e.name s L.symbolsd } ∧
      ∀ n, n ∈ pl ↔ n ∈ L.preload ∨ (n = e.name ∧ e.typ = some "preload".toList)) ∧
    (¬ Known (written e) → addSymbol L e = .error .valueError) := by
  obtain ⟨m1, m2⟩ := methodOf_spec e.exe
  have hk : Known (written e) ↔ (∀ t, e.typ = some t → t ∈ types.map String.toList) ∧ (∀ m, e.exe = some m → m ∈ methods.map String.toList) := Iff.rfl
  rw [hk]
  unfold addSymbol
  cases ht : e.typ with
  | none =>
    dsimp only
    constructor
    · rintro ⟨-, h⟩
      rw [m1 h]
      exact ⟨_, ⟨rfl, rfl, rfl, ((if_neg (show ¬ (written e).typ = some "preload".toList from fun h => by rw [show (written e).typ = e.typ from rfl, ht] at h; cases h)).trans ht).symm, rfl⟩, _, rfl, by simp⟩
    · intro h
      rw [m2 (fun h' => h ⟨fun _ hx => (by cases hx), h'⟩)]
      rfl
  | some t =>
    dsimp only
    have key : (∀ y, some t = some y → y ∈ types.map String.toList) ↔ ¬ (t ≠ [] ∧ t ∉ symtypes) := by
      have : types.map String.toList = [] :: symtypes := by decide
      rw [this]
      constructor
      · rintro h ⟨h1, h2⟩
        rcases List.mem_cons.mp (h t rfl) with h | h
        · exact h1 h
        · exact h2 h
      · rintro h y hy
        cases hy
        rw [List.mem_cons]
        by_cases h1 : t = []
        · exact .inl h1
        · exact .inr (Classical.byContradiction fun h2 => h ⟨h1, h2⟩)
    rw [key]
    by_cases h : t ≠ [] ∧ t ∉ symtypes
    · rw [if_pos h]
      exact ⟨fun h' => absurd h h'.1, fun _ => rfl⟩
    · rw [if_neg h]
      by_cases hp : t = "preload".toList
      · rw [if_pos hp]
        constructor
        · rintro ⟨-, hm⟩
          rw [m1 hm]
          refine ⟨_, ⟨rfl, rfl, rfl, ?_, rfl⟩, _, rfl, ?_⟩
          · exact (if_pos (show (written e).typ = some "preload".toList from ht.trans (by rw [hp]))).symm
          · intro n
            rw [hp]
            by_cases hn : e.name ∈ L.preload
            · rw [if_pos hn]
              constructor
              · exact .inl
              · rintro (h | ⟨rfl, -⟩)
                · exact h
                · exact hn
            · rw [if_neg hn]; simp
        · intro hn
          rw [m2 (fun h' => hn ⟨h, h'⟩)]
          rfl
      · rw [if_neg hp]
        constructor
        · rintro ⟨-, hm⟩
          rw [m1 hm]
          refine ⟨_, ⟨rfl, rfl, rfl, ?_, rfl⟩, _, rfl, ?_⟩
          · exact ((if_neg (show ¬ (written e).typ = some "preload".toList from fun h => hp (Option.some.inj (ht.symm.trans h)))).trans ht).symm
          · intro n
            constructor
            · exact .inl
            · rintro (h | ⟨-, h⟩)
              · exact h
              · exact absurd (Option.some.inj h) hp
        · intro hn
          rw [m2 (fun h' => hn ⟨h, h'⟩)]
          rfl

theorem collect_snoc : ∀ (l : List Entry) (L : Library) (e : Entry), collect L (l ++ [e]) = (collect L l >>= fun L => addSymbol L e)
  | [], L, e => by
    rw [List.nil_append, collect, collect]
    show _ = addSymbol L e
    cases addSymbol L e <;> rfl
  | x :: l, L, e => by
    rw [List.cons_append, collect, collect]
    cases addSymbol L x with
    | error y => rfl
    | ok L' => exact collect_snoc l L' e

theorem made_iff {w : Written} {s s' : Symbol} (h : Made w s) : Made w s' ↔ s' = s := by
  constructor
  · intro h'
    cases s; cases s'
    obtain ⟨a1, a2, a3, a4, a5⟩ := h
    obtain ⟨b1, b2, b3, b4, b5⟩ := h'
    simp only at a1 a2 a3 a4 a5 b1 b2 b3 b4 b5
    rw [a1, a2, a3, a4, a5, b1, b2, b3, b4, b5]
  · rintro rfl; exact h

theorem collect_spec (preface : Str) : ∀ es : List Entry,
    ((∀ e ∈ es, Known (written e)) → ∃ L, collect { preface := preface } es.reverse = .ok L ∧ L.preface = preface ∧
      (∀ name s, PyDict.get name L.symbolsd = some s ↔ ∃ w, Latest Written.name (es.map written) name w ∧ Made w s) ∧
      ∀ name, name ∈ L.preload ↔ ∃ w ∈ es.map written, w.name = name ∧ w.typ = some "preload".toList) ∧
    ((¬ ∀ e ∈ es, Known (written e)) → collect { preface := preface } es.reverse = .error .valueError)
  | [] => by
    refine ⟨fun _ => ⟨_, rfl, rfl, fun name s => ?_, by simp⟩, fun h => absurd (by simp) h⟩
    constructor
    · intro h; cases h
    · rintro ⟨w, ⟨a, b, e, -⟩, -⟩; exact absurd e (by simp)
  | e :: es => by
    obtain ⟨ih1, ih2⟩ := collect_spec preface es
    rw [List.reverse_cons, collect_snoc]
    by_cases h : ∀ x ∈ es, Known (written x)
    · obtain ⟨L, k1, k2, k3, k4⟩ := ih1 h
      rw [k1]
      show (_ → ∃ L', addSymbol L e = .ok L' ∧ _) ∧ (_ → addSymbol L e = _)
      obtain ⟨a1, a2⟩ := addSymbol_spec L e
      constructor
      · intro hk
        obtain ⟨s, hs, pl, he, hpl⟩ := a1 (hk e (by simp))
        refine ⟨_, he, k2, fun name s' => ?_, fun name => ?_⟩
        · show PyDict.get name (PyDict.set e.name s L.symbolsd) = _ ↔ _
          rw [PyDict.get_set, List.map_cons]
          by_cases hn : e.name = name
          · rw [if_pos hn]
            constructor
            · intro h; cases h; exact ⟨written e, (latest_cons ..).mpr (.inl ⟨hn, rfl⟩), hs⟩
            · rintro ⟨w, hw, hm⟩
              rcases (latest_cons ..).mp hw with ⟨-, rfl⟩ | ⟨h, -⟩
              · rw [(made_iff hs).mp hm]
              · exact absurd hn h
          · rw [if_neg hn, k3]
            constructor
            · rintro ⟨w, hw, hm⟩; exact ⟨w, (latest_cons ..).mpr (.inr ⟨hn, hw⟩), hm⟩
            · rintro ⟨w, hw, hm⟩
              rcases (latest_cons ..).mp hw with ⟨h, -⟩ | ⟨-, h⟩
              · exact absurd h hn
              · exact ⟨w, h, hm⟩
        · rw [show (({ L with preload := pl, symbolsd := PyDict.set e.name s L.symbolsd } : Library).preload) = pl from rfl, hpl, k4, List.map_cons]
          constructor
          · rintro (⟨w, hw, h1, h2⟩ | ⟨rfl, h2⟩)
            · exact ⟨w, by simp [hw], h1, h2⟩
            · exact ⟨written e, by simp, rfl, h2⟩
          · rintro ⟨w, hw, h1, h2⟩
            rcases List.mem_cons.mp hw with rfl | hw
            · exact .inr ⟨h1.symm, h2⟩
            · exact .inl ⟨w, hw, h1, h2⟩
      · intro hk
        apply a2
        intro he
        exact hk (fun x hx => by rcases List.mem_cons.mp hx with rfl | hx; exact he; exact h x hx)
    · rw [ih2 h]
      exact ⟨fun hk => absurd (fun x hx => hk x (by simp [hx])) h, fun _ => rfl⟩

theorem preface_spec : ∀ pre : List Str,
    ((∀ x ∈ pre, ∀ n r, ¬ Refers x n r) → prefaceText (pre.map bline) = .ok pre.flatten) ∧ ((¬ ∀ x ∈ pre, ∀ n r, ¬ Refers x n r) → prefaceText (pre.map bline) = .error .typeError)
  | [] => ⟨fun _ => rfl, fun h => absurd (by simp) h⟩
  | x :: pre => by
    obtain ⟨ih1, ih2⟩ := preface_spec pre
    rw [List.map_cons]
    cases hb : bline x with
    | ref n r =>
      have hr := (bline_ref x n r).mp hb
      exact ⟨fun h => absurd hr (h x (by simp) n r), fun _ => rfl⟩
    | text s =>
      obtain ⟨rfl, hn⟩ := bline_text_not x s hb
      rw [prefaceText]
      constructor
      · intro h
        rw [ih1 (fun y hy => h y (by simp [hy]))]
        rfl
      · intro h
        rw [ih2 (fun h' => h (fun y hy => by rcases List.mem_cons.mp hy with rfl | hy; exact hn; exact h' y hy))]
        rfl

theorem bline_inj {a b : Str} (h : bline a = bline b) : a = b := by
  cases hb : bline b with
  | ref n r => rw [hb] at h; rw [((bline_ref a n r).mp h).1, ((bline_ref b n r).mp hb).1]
  | text s => rw [hb] at h; rw [← (bline_text_not a s h).1, ← (bline_text_not b s hb).1]

/-! ### The theorems -/

/-- C46: every text is a file, in exactly one way: a preface and sections. -/
theorem C46_file (U : Unicode) (lines : List Str) : (∃ pre secs, IsFile U lines pre secs) ∧
    ∀ pre secs pre' secs', IsFile U lines pre secs → IsFile U lines pre' secs' → pre = pre' ∧ secs = secs' := by
  refine ⟨isFile_exists U lines, fun pre secs pre' secs' h h' => ?_⟩
  have e := (blocks_file U lines pre secs h).symm.trans (blocks_file U lines pre' secs' h')
  obtain ⟨e1, e2⟩ := List.cons.inj e
  have inj : ∀ a b : List Str, a.map bline = b.map bline → a = b := fun a b => List.map_inj_right (fun _ _ => bline_inj) |>.mp
  refine ⟨inj _ _ (Prod.mk.inj e1).2, ?_⟩
  refine (List.map_inj_right ?_).mp e2
  rintro ⟨x, b⟩ ⟨y, c⟩ hxy
  obtain ⟨k1, k2⟩ := Prod.mk.inj hxy
  cases Option.some.inj k1
  rw [show b = c from inj _ _ k2]

/-- C46: the library of a file holds exactly the symbols that are written: the latest section of each name. It is made exactly if all references are to symbols before,
the preface has none, and all types and methods are known. -/
theorem C46_read (U : Unicode) (lines pre : List Str) (secs : List Section) (hf : IsFile U lines pre secs) :
    (∀ L, fromLines U lines = .ok L → ∃ l, Symbols U secs l ∧ (∀ w ∈ l, Known w) ∧ (∀ x ∈ pre, ∀ n r, ¬ Refers x n r) ∧ Holds L pre l) ∧
    (∀ l, Symbols U secs l → (∀ w ∈ l, Known w) → (∀ x ∈ pre, ∀ n r, ¬ Refers x n r) → ∃ L, fromLines U lines = .ok L ∧ Holds L pre l) := by
  unfold fromLines
  rw [blocks_file U lines pre secs hf]
  dsimp only
  obtain ⟨p1, p2⟩ := preface_spec pre
  constructor
  · intro L h
    obtain ⟨pt, h1, h⟩ := PG.Element3.bind_eq_ok h
    obtain ⟨es, h2, h3⟩ := PG.Element3.bind_eq_ok h
    have hpre : ∀ x ∈ pre, ∀ n r, ¬ Refers x n r := Classical.byContradiction fun hn => by rw [p2 hn] at h1; cases h1
    rw [p1 hpre] at h1
    cases h1
    obtain ⟨c1, c2⟩ := collect_spec pre.flatten es
    have hk : ∀ e ∈ es, Known (written e) := Classical.byContradiction fun hn => by rw [c2 hn] at h3; cases h3
    obtain ⟨L', hL, k1, k2, k3⟩ := c1 hk
    cases hL.symm.trans h3
    refine ⟨es.map written, (symbols_iff U secs _).mpr ⟨es, h2, rfl⟩, fun w hw => ?_, hpre, k1, k2, k3⟩
    obtain ⟨e, he, rfl⟩ := List.mem_map.mp hw
    exact hk e he
  · rintro l hs hk hpre
    obtain ⟨es, h2, rfl⟩ := (symbols_iff U secs l).mp hs
    obtain ⟨L, hL, k1, k2, k3⟩ := (collect_spec pre.flatten es).1 (fun e he => hk _ (List.mem_map.mpr ⟨e, he, rfl⟩))
    refine ⟨L, ?_, k1, k2, k3⟩
    rw [p1 hpre]
    show (sections U [] _ >>= fun syms => collect { preface := pre.flatten } syms.reverse) = _
    rw [h2]
    exact hL

theorem mapM_resolve_error (syms : List Entry) : ∀ (l : List BLine) (e : Err), l.mapM (resolve syms) = .error e → e = .typeError
  | [], e, h => by cases h
  | x :: l, e, h => by
    rw [List.mapM_cons] at h
    cases hx : resolve syms x with
    | error e' =>
      rw [hx] at h
      have h : e' = e := Except.error.inj h
      subst h
      unfold resolve at hx
      split at hx
      · cases hx
      · split at hx <;> cases hx; rfl
    | ok a =>
      rw [hx] at h
      cases hl : l.mapM (resolve syms) with
      | error e' =>
        rw [hl] at h
        have h : e' = e := Except.error.inj h
        subst h
        exact mapM_resolve_error syms l e' hl
      | ok b => rw [hl] at h; cases h

theorem sections_error (U : Unicode) : ∀ (l : List (Option Str × List BLine)) (syms : List Entry) (e : Err), sections U syms l = .error e → e = .typeError
  | [], syms, e, h => by cases h
  | (x, b) :: l, syms, e, h => by
    rw [sections, section_eq] at h
    cases hm : b.mapM (resolve syms) with
    | error e' =>
      rw [hm] at h
      have h : e' = e := Except.error.inj h
      subst h
      exact mapM_resolve_error syms b e' hm
    | ok ts =>
      rw [hm] at h
      exact sections_error U l _ e h

/-- C46: what a file is refused with: an unknown type or method with `ValueError`, a reference to a symbol that is not there with `TypeError`. -/
theorem C46_refused (U : Unicode) (lines pre : List Str) (secs : List Section) (hf : IsFile U lines pre secs) (hp : ∀ x ∈ pre, ∀ n r, ¬ Refers x n r) :
    ((¬ ∃ l, Symbols U secs l) → fromLines U lines = .error .typeError) ∧ (∀ l, Symbols U secs l → (¬ ∀ w ∈ l, Known w) → fromLines U lines = .error .valueError) := by
  unfold fromLines
  rw [blocks_file U lines pre secs hf]
  dsimp only
  rw [(preface_spec pre).1 hp]
  constructor
  · intro h
    show (sections U [] _ >>= fun syms => collect { preface := pre.flatten } syms.reverse) = _
    cases hs : sections U [] (secs.map fun s => (some s.header, s.body.map bline)) with
    | ok es => exact absurd ⟨_, (symbols_iff U secs _).mpr ⟨es, hs, rfl⟩⟩ h
    | error e => rw [sections_error U _ _ e hs]; rfl
  · intro l hl hk
    obtain ⟨es, h2, rfl⟩ := (symbols_iff U secs l).mp hl
    show (sections U [] _ >>= fun syms => collect { preface := pre.flatten } syms.reverse) = _
    rw [h2]
    exact (collect_spec pre.flatten es).2 (fun h => hk (fun w hw => by obtain ⟨e, he, rfl⟩ := List.mem_map.mp hw; exact h e he))

/-- C46: the components of a section marker `[name:type:method]`, or with fewer or more of them, with white space around it. -/
theorem C46_marker (U : Unicode) (l r : Str) (fs : List Str) (hl : ∀ c ∈ l, U.isSpace c = true) (hr : ∀ c ∈ r, U.isSpace c = true) (hne : fs ≠ [])
    (hc : ∀ f ∈ fs, ':' ∉ f ∧ '[' ∉ f ∧ ']' ∉ f) : Opens U (l ++ '[' :: join [':'] fs ++ ']' :: r) ∧ ∀ gs, Components U (l ++ '[' :: join [':'] fs ++ ']' :: r) gs ↔ gs = fs := by
  refine ⟨⟨l, _, r, rfl, hl, hr⟩, fun gs => ?_⟩
  have hb : ∀ (gs : List Str), (∀ f ∈ gs, ':' ∉ f ∧ '[' ∉ f ∧ ']' ∉ f) → ∀ c ∈ join [':'] gs, c ≠ '[' ∧ c ≠ ']' := by
    intro gs
    induction gs with
    | nil => intro _ c hc; cases hc
    | cons f gs ih =>
      intro h c hc
      have hf := h f (by simp)
      cases gs with
      | nil => exact ⟨fun e => hf.2.1 (e ▸ hc), fun e => hf.2.2 (e ▸ hc)⟩
      | cons g gs =>
        rw [join, List.mem_append, List.mem_append] at hc
        · rcases hc with (hc | hc) | hc
          · exact ⟨fun e => hf.2.1 (e ▸ hc), fun e => hf.2.2 (e ▸ hc)⟩
          · simp at hc; subst hc; decide
          · exact ih (fun x hx => h x (by simp [hx])) c hc
        · simp
  have hcomp : Components U (l ++ '[' :: join [':'] fs ++ ']' :: r) fs := by
    refine ⟨'[' :: join [':'] fs ++ [']'], join [':'] fs, ⟨l, r, by simp, hl, hr, ?_, ?_⟩, ⟨['['], [']'], rfl, by simp, by simp, ?_, ?_⟩, hne, fun f hf => (hc f hf).1, rfl⟩
    · intro c h; cases h; exact space_open U
    · intro c h; rw [List.getLast?_append] at h; cases h; exact space_close U
    · intro c h
      have := hb fs hc c (List.mem_of_mem_head? h)
      simp [this]
    · intro c h
      have := hb fs hc c (List.mem_of_getLast? h)
      simp [this]
  constructor
  · intro h; exact components_unique U _ _ _ h hcomp
  · rintro rfl; exact hcomp

/-! ### Files -/

/-- C46: the name of a library is what stands between `lib` and `.sql` in the name of its file. -/
theorem C46_name (n : Str) : (∀ bn, libName bn = some n ↔ n ≠ [] ∧ bn = "lib".toList ++ n ++ ".sql".toList) := by
  intro bn
  unfold libName
  constructor
  · intro h
    split at h
    · next hc =>
      obtain ⟨h1, h2, h3⟩ := hc
      have hn : (bn.take (bn.length - 4)).drop 3 = n ∧ n ≠ [] := by
        generalize (bn.take (bn.length - 4)).drop 3 = y at h
        cases y with
        | nil => cases h
        | cons a y => cases h; exact ⟨rfl, by simp⟩
      refine ⟨hn.2, ?_⟩
      have hlen : 3 ≤ bn.length - 4 := by
        have h7 := congrArg List.length hn.1
        have : 0 < n.length := List.length_pos_iff.mpr hn.2
        rw [List.length_drop, List.length_take] at h7
        omega
      have e1 : bn = bn.take (bn.length - 4) ++ bn.drop (bn.length - 4) := (List.take_append_drop _ bn).symm
      have e2 : bn.take (bn.length - 4) = (bn.take (bn.length - 4)).take 3 ++ (bn.take (bn.length - 4)).drop 3 := (List.take_append_drop 3 _).symm
      rw [List.take_take, Nat.min_eq_left hlen, h1, hn.1] at e2
      rw [e2, h2] at e1
      exact e1
    · cases h
  · rintro ⟨hn, rfl⟩
    have hl : ("lib".toList ++ n ++ ".sql".toList).length - 4 = ("lib".toList ++ n).length := by simp
    rw [if_pos]
    · rw [hl, List.take_left' rfl, show ("lib".toList ++ n).drop 3 = n from List.drop_left' rfl]
      cases n with
      | nil => exact absurd rfl hn
      | cons => rfl
    · refine ⟨by simp, ?_, by simp⟩
      rw [hl, List.drop_left' rfl]

/-- C46: of the directories the first with the file counts. -/
theorem C46_find (ex : Str → Bool) (path : List Str) (name x : Str) : findLib ex path name = .ok x ↔
    ∃ before p after, path = before ++ p :: after ∧ x = pathJoin p ("lib".toList ++ name ++ ".sql".toList) ∧ ex x = true ∧
      ∀ q ∈ before, ex (pathJoin q ("lib".toList ++ name ++ ".sql".toList)) = false := by
  unfold findLib
  generalize "lib".toList ++ name ++ ".sql".toList = f
  have key : ((path.map fun p => pathJoin p f).find? ex = some x ↔ ∃ before p after, path = before ++ p :: after ∧ x = pathJoin p f ∧ ex x = true ∧ ∀ q ∈ before, ex (pathJoin q f) = false) := by
    rw [List.find?_eq_some_iff_append]
    constructor
    · rintro ⟨h, a, b, e, ha⟩
      obtain ⟨a', r, rfl, rfl, hr⟩ := List.map_eq_append_iff.mp e
      obtain ⟨p, b', rfl, rfl, rfl⟩ := List.map_eq_cons_iff.mp hr
      exact ⟨a', p, b', rfl, rfl, h, fun q hq => by simpa using ha _ (List.mem_map.mpr ⟨q, hq, rfl⟩)⟩
    · rintro ⟨a, p, b, rfl, rfl, h, ha⟩
      refine ⟨h, a.map fun p => pathJoin p f, b.map fun p => pathJoin p f, by simp, fun q hq => ?_⟩
      obtain ⟨q', hq', rfl⟩ := List.mem_map.mp hq
      simp [ha q' hq']
  rw [← key]
  cases (path.map fun p => pathJoin p f).find? ex with
  | none => simp
  | some y => simp

/-! ### Examples -/

/-- A library as in the documentation. -/
def sample : List Str := ["About.\n", "[one::first]\n", "-- the one\n", "SELECT 1\n", "  [&both:preload] \n", "*[one] UNION\n", "SELECT 2\n", "[p:proc]\n", " f(int)\n", "\n", "[one:const:rows]\n", "SELECT 3\n"].map String.toList

/-- What it is read as. -/
def sampleLib : Library := { preface := "About.\n".toList, preload := ["both".toList], symbolsd := [("one".toList, ⟨"one".toList, "SELECT 3\n".toList, some "rows".toList, some "const".toList, false⟩),
    ("both".toList, ⟨"both".toList, "SELECT 1\n UNION\nSELECT 2\n".toList, none, none, true⟩), ("p".toList, ⟨"p".toList, "f(int)".toList, none, some "proc".toList, false⟩)] }

theorem sample_read : fromLines Unicode.ascii sample = .ok sampleLib := by decide +kernel

-- The hypotheses of `C46_read` and `C46_refused` can be met.
example : ∃ pre secs l, IsFile Unicode.ascii sample pre secs ∧ Symbols Unicode.ascii secs l ∧ (∀ w ∈ l, Known w) ∧ l.length = 4 := by
  obtain ⟨pre, secs, h⟩ := (C46_file Unicode.ascii sample).1
  obtain ⟨l, h1, h2, -, h4⟩ := (C46_read Unicode.ascii sample pre secs h).1 _ sample_read
  refine ⟨pre, secs, l, h, h1, h2, ?_⟩
  have e := blocks_file _ _ _ _ h
  have hl : (blocks Unicode.ascii none [] sample).length = 5 := by decide +kernel
  rw [e] at hl
  have : secs.length = 4 := by simpa using hl
  have gen : ∀ secs l, Symbols Unicode.ascii secs l → l.length = secs.length := by
    intro secs l h
    induction h with
    | nil => rfl
    | snoc _ _ ih => simp [ih]
  rw [gen _ _ h1, this]

example : fromLines Unicode.ascii (["[a]\n", "*[b]\n"].map String.toList) = .error .typeError ∧ fromLines Unicode.ascii (["[a:odd]\n"].map String.toList) = .error .valueError ∧
    fromLines Unicode.ascii (["[a::odd]\n"].map String.toList) = .error .valueError := by decide +kernel

example : Components Unicode.ascii "[get:preload:first]\n".toList ["get".toList, "preload".toList, "first".toList] :=
  ((C46_marker Unicode.ascii [] ['\n'] ["get".toList, "preload".toList, "first".toList] (by simp) (by decide) (by simp) (by decide)).2 _).mpr rfl

example : libName "libsys.sql".toList = some "sys".toList ∧ libName "lib.sql".toList = none ∧ libName "libsys.sq".toList = none := by decide +kernel

end PG.Props.SymLib
