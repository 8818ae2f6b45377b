import Verif.Model.ClusterInit
/-!
# C65: initializing a cluster
-/
namespace PG.Props.ClusterInit
open PG PG.ClusterInit

/-! ## Specification -/

/-- The temporary files there are after calls. -/
def existing : List Call → List Str
  | [] => []
  | l => l.foldl (fun fs c => match c with
    | .create n _ => n :: fs
    | .close n => fs.filter (· ≠ n)
    | _ => fs) []

/-- The commands run. -/
def spawned (l : List Call) : List (List Str) := l.filterMap fun c => match c with
  | .spawn cmd _ => some cmd
  | _ => none

/-- How the process ended, as the operating system told it last. -/
def ending (W : World) : Option (Int × Bytes) :=
  match W.first with
  | .ended r err => some (r, err)
  | .expired => W.second
  | .interrupted => none

/-- What an ending means for the caller. -/
def Means (W : World) (cmd : List Str) (r : Except Exn Unit) : Prop :=
  match ending W with
  | some (0, _) => r = .ok ()
  | some (n, err) => r = .error (.initdb n cmd err)
  | none => r = .error .interrupted

/-- The options of `initdb` that keywords stand for. -/
inductive Flag : Str → Str → Prop
  | encoding : Flag "encoding".toList "-E".toList
  | authentication : Flag "authentication".toList "-A".toList
  | user : Flag "user".toList "-U".toList

/-- The keywords known. -/
def Known (k : Str) : Prop := (∃ f, Flag k f) ∨ k = "logfile".toList ∨ k = "extra_arguments".toList

/-- The value wanted of an option: the one given, `utf-8` for the encoding otherwise. -/
def Wanted (kw : List (Str × Arg)) (k : Str) (v : Str) : Prop :=
  (k, Arg.text v) ∈ kw ∨ (k = "encoding".toList ∧ v = "utf-8".toList ∧ ∀ e ∈ kw, e.1 ≠ k)

/-- A dictionary has a key once. -/
def Dict (kw : List (Str × Arg)) : Prop := (kw.map (·.1)).Nodup

/-- The arguments added at the end. -/
def Extra (kw : List (Str × Arg)) (ext : List Str) : Prop :=
  (∃ l, ("extra_arguments".toList, Arg.items l) ∈ kw ∧ ext = l) ∨ (∃ s, ("extra_arguments".toList, Arg.text s) ∈ kw ∧ ext = s.map fun c => [c]) ∨
  (ext = [] ∧ ∀ e ∈ kw, e.1 ≠ "extra_arguments".toList)

/-! ## Lemmas -/

theorem run_cases (C : Config) (W : World) (prog : List Str) (opts : List Arg) (pw ext : List Str) (out : Option Arg) (timeout : Option Int) :
    (∃ e, run C W prog opts pw ext out timeout = (.error e, []) ∧ (e = .type ∨ e = .attribute ∨ ∃ n, e = .os n)) ∨
    ∃ o, texts opts = some o ∧ run C W prog opts pw ext out timeout =
      ((finish W (prog ++ ["-D".toList, C.dataDir] ++ o ++ pw ++ ext) timeout).1,
        .spawn (prog ++ ["-D".toList, C.dataDir] ++ o ++ pw ++ ext) out :: (finish W (prog ++ ["-D".toList, C.dataDir] ++ o ++ pw ++ ext) timeout).2) := by
  have tt : ∀ (l : List Str) (m : List Arg), texts (l.map .text ++ m) = (texts m).map (l ++ ·) := by
    intro l m
    induction l with
    | nil => simp
    | cons a l ih =>
      show (texts (l.map .text ++ m)).map (a :: ·) = _
      rw [ih]
      cases texts m <;> rfl
  have tp : ∀ (l m : List Arg), texts (l ++ m) = match texts l with
      | none => none
      | some a => (texts m).map (a ++ ·) := by
    intro l m
    induction l with
    | nil => show texts m = (texts m).map _; simp
    | cons a l ih =>
      cases a with
      | text s =>
        show (texts (l ++ m)).map (s :: ·) = match (texts l).map (s :: ·) with
          | none => none
          | some a => (texts m).map (a ++ ·)
        rw [ih]
        cases texts l with
        | none => rfl
        | some a => cases texts m <;> rfl
      | _ => rfl
  have te : ∀ l : List Str, texts (l.map .text) = some l := by
    intro l
    have := tt l []
    rwa [List.append_nil, show texts [] = some [] from rfl, Option.map_some, List.append_nil] at this
  have all : texts (prog.map .text ++ [.text "-D".toList, .text C.dataDir] ++ opts ++ pw.map .text ++ ext.map .text)
      = (texts opts).map fun o => prog ++ ["-D".toList, C.dataDir] ++ o ++ pw ++ ext := by
    rw [tp, tp, tp, tt, te, te]
    show (match (match (match some (prog ++ ["-D".toList, C.dataDir]) with
      | none => none
      | some a => (texts opts).map (a ++ ·)) with
      | none => none
      | some a => some (a ++ pw)) with
      | none => none
      | some a => some (a ++ ext)) = _
    cases texts opts <;> rfl
  unfold run popen
  rw [all]
  cases texts opts with
  | none => exact .inl ⟨.type, rfl, .inl rfl⟩
  | some o =>
    cases out with
    | none =>
      cases hs : W.spawn with
      | some e => exact .inl ⟨.os e, by simp, .inr (.inr ⟨e, rfl⟩)⟩
      | none => exact .inr ⟨o, rfl, rfl⟩
    | some a =>
      cases a with
      | text s => exact .inl ⟨.attribute, rfl, .inr (.inl rfl)⟩
      | items l => exact .inl ⟨.attribute, rfl, .inr (.inl rfl)⟩
      | none =>
        cases hs : W.spawn with
        | some e => exact .inl ⟨.os e, by simp, .inr (.inr ⟨e, rfl⟩)⟩
        | none => exact .inr ⟨o, rfl, rfl⟩
      | file n =>
        cases hs : W.spawn with
        | some e => exact .inl ⟨.os e, by simp, .inr (.inr ⟨e, rfl⟩)⟩
        | none => exact .inr ⟨o, rfl, rfl⟩

theorem finish_means (W : World) (cmd : List Str) (timeout : Option Int) : Means W cmd (finish W cmd timeout).1 := by
  unfold Means ending finish
  cases W.first with
  | interrupted => rfl
  | ended r err =>
    dsimp only
    by_cases h : r = 0
    · subst h; rfl
    · rw [if_pos h]
      split
      · rename_i e; cases e; exact absurd rfl h
      · rename_i e; cases e; rfl
      · rename_i e; cases e
  | expired =>
    dsimp only
    cases W.second with
    | none => rfl
    | some x =>
      obtain ⟨r, err⟩ := x
      dsimp only
      by_cases h : r = 0
      · subst h; rfl
      · rw [if_pos h]
        split
        · rename_i e; cases e; exact absurd rfl h
        · rename_i e; cases e; rfl
        · rename_i e; cases e

theorem finish_calls (W : World) (cmd : List Str) (timeout : Option Int) :
    (finish W cmd timeout).2 = (if W.first = .expired then [.wait timeout, .kill, .wait none] else [.wait timeout]) := by
  unfold finish
  cases h : W.first with
  | interrupted => rfl
  | ended r err => rfl
  | expired =>
    dsimp only
    cases W.second with
    | none => rfl
    | some x => rfl

/-- What `init` may come to. -/
inductive Shape (C : Config) (W : World) (password : Option Str) (timeout : Option Int) (kw : List (Str × Arg)) : Except Exn Unit × List Call → Prop
  /-- Nothing is run. -/
  | early (e : Exn) (t : List Call) (he : (∀ n c b, e ≠ .initdb n c b) ∧ e ≠ .interrupted)
      (ht : t = [] ∨ (∃ name enc, t = [.create name enc, .close name]) ∨ ∃ pw name enc, password = some pw ∧ t = [.create name enc, .write name pw, .close name]) :
      Shape C W password timeout kw (.error e, t)
  | plain (prog : List Str) (opts : List Arg) (o ext : List Str) (h1 : program C = some prog) (h2 : options (withEncoding kw) = some opts) (h3 : texts opts = some o)
      (h4 : extra (PyDict.get "extra_arguments".toList kw) = some ext) (h5 : password = none) (out : Option Arg) :
      Shape C W password timeout kw ((finish W (prog ++ ["-D".toList, C.dataDir] ++ o ++ [] ++ ext) timeout).1,
        .spawn (prog ++ ["-D".toList, C.dataDir] ++ o ++ [] ++ ext) out :: (finish W (prog ++ ["-D".toList, C.dataDir] ++ o ++ [] ++ ext) timeout).2)
  | secured (prog : List Str) (opts : List Arg) (o ext : List Str) (h1 : program C = some prog) (h2 : options (withEncoding kw) = some opts) (h3 : texts opts = some o)
      (h4 : extra (PyDict.get "extra_arguments".toList kw) = some ext) (pw name enc : Str) (h5 : password = some pw) (out : Option Arg) :
      Shape C W password timeout kw ((finish W (prog ++ ["-D".toList, C.dataDir] ++ o ++ ["--pwfile=".toList ++ name] ++ ext) timeout).1,
        .create name enc :: .write name pw :: (.spawn (prog ++ ["-D".toList, C.dataDir] ++ o ++ ["--pwfile=".toList ++ name] ++ ext) out ::
          (finish W (prog ++ ["-D".toList, C.dataDir] ++ o ++ ["--pwfile=".toList ++ name] ++ ext) timeout).2) ++ [.close name])

theorem shape (C : Config) (W : World) (password : Option Str) (timeout : Option Int) (kw : List (Str × Arg)) : Shape C W password timeout kw (init C W password timeout kw) := by
  have simple : ∀ {e : Exn}, (e = .noProgram ∨ e = .type ∨ e = .attribute ∨ e = .lookup ∨ e = .encode ∨ ∃ n, e = .os n) → (∀ n c b, e ≠ .initdb n c b) ∧ e ≠ .interrupted := by
    intro e h
    rcases h with rfl | rfl | rfl | rfl | rfl | ⟨n, rfl⟩ <;> exact ⟨fun _ _ _ h => (by cases h), fun h => (by cases h)⟩
  unfold init
  cases h1 : program C with
  | none => exact .early _ _ (simple (.inl rfl)) (.inl rfl)
  | some prog =>
    dsimp only
    cases h2 : options (withEncoding kw) with
    | none => exact .early _ _ (simple (.inr (.inl rfl))) (.inl rfl)
    | some opts =>
      dsimp only
      cases h4 : extra (PyDict.get "extra_arguments".toList kw) with
      | none => exact .early _ _ (simple (.inr (.inl rfl))) (.inl rfl)
      | some ext =>
        dsimp only
        unfold guarded
        cases password with
        | none =>
          dsimp only
          rcases run_cases C W prog opts [] ext (logfile (PyDict.get "logfile".toList (withEncoding kw))) timeout with ⟨e, h, he⟩ | ⟨o, h3, h⟩
          · rw [h]
            refine .early _ _ (simple ?_) (.inl rfl)
            rcases he with rfl | rfl | ⟨n, rfl⟩
            · exact .inr (.inl rfl)
            · exact .inr (.inr (.inl rfl))
            · exact .inr (.inr (.inr (.inr (.inr ⟨n, rfl⟩))))
          · rw [h]
            exact .plain prog opts o ext h1 h2 h3 h4 rfl _
        | some pw =>
          dsimp only
          cases hf : fileEncoding (PyDict.get "encoding".toList (withEncoding kw)) with
          | error e =>
            refine .early _ _ (simple ?_) (.inl rfl)
            unfold fileEncoding at hf
            split at hf
            · cases hf
            · cases hf; exact .inr (.inl rfl)
            · cases hf; exact .inr (.inr (.inl rfl))
          | ok enc =>
            dsimp only
            by_cases hc : W.codec enc = true
            · rw [if_pos hc]
              cases W.temp with
              | error e => exact .early _ _ (simple (.inr (.inr (.inr (.inr (.inr ⟨e, rfl⟩)))))) (.inl rfl)
              | ok name =>
                dsimp only
                by_cases hn : W.encodable enc pw = true
                · rw [if_pos hn]
                  cases W.writing with
                  | some e => exact .early _ _ (simple (.inr (.inr (.inr (.inr (.inr ⟨e, rfl⟩)))))) (.inr (.inl ⟨name, enc, rfl⟩))
                  | none =>
                    dsimp only
                    rcases run_cases C W prog opts ["--pwfile=".toList ++ name] ext (logfile (PyDict.get "logfile".toList (withEncoding kw))) timeout with ⟨e, h, he⟩ | ⟨o, h3, h⟩
                    · rw [h]
                      refine .early _ _ (simple ?_) (.inr (.inr ⟨pw, name, enc, rfl, rfl⟩))
                      rcases he with rfl | rfl | ⟨n, rfl⟩
                      · exact .inr (.inl rfl)
                      · exact .inr (.inr (.inl rfl))
                      · exact .inr (.inr (.inr (.inr (.inr ⟨n, rfl⟩))))
                    · rw [h]
                      exact .secured prog opts o ext h1 h2 h3 h4 pw name enc rfl _
                · rw [if_neg hn]
                  exact .early _ _ (simple (.inr (.inr (.inr (.inr (.inl rfl)))))) (.inr (.inl ⟨name, enc, rfl⟩))
            · rw [if_neg hc]
              exact .early _ _ (simple (.inr (.inr (.inr (.inl rfl))))) (.inl rfl)

theorem flag_iff {k f : Str} : PyDict.get k optionMap = some f ↔ Flag k f := by
  constructor
  · intro h
    have := PyDict.get_mem h
    rcases List.mem_cons.mp this with h | h
    · cases h; exact .encoding
    · rcases List.mem_cons.mp h with h | h
      · cases h; exact .authentication
      · cases List.mem_singleton.mp h; exact .user
  · intro h
    cases h <;> rfl

theorem flag_inj {k k' f : Str} (h : Flag k f) (h' : Flag k' f) : k = k' := by
  have inj : ∀ e ∈ optionMap, ∀ e' ∈ optionMap, e.2 = e'.2 → e.1 = e'.1 := by decide +kernel
  exact inj (k, f) (PyDict.get_mem (flag_iff.mpr h)) (k', f) (PyDict.get_mem (flag_iff.mpr h')) rfl

theorem options_known {kw : List (Str × Arg)} {opts : List Arg} (h : options kw = some opts) : ∀ e ∈ kw, Known e.1 := by
  induction kw generalizing opts with
  | nil => intro e he; cases he
  | cons x l ih =>
    obtain ⟨k, v⟩ := x
    intro e he
    have h : (if k = "logfile".toList || k = "extra_arguments".toList then options l
      else match PyDict.get k optionMap with
        | none => none
        | some o => (options l).map fun r => .text o :: v :: r) = some opts := h
    by_cases hk : (k = "logfile".toList || k = "extra_arguments".toList) = true
    · rw [if_pos hk] at h
      rcases List.mem_cons.mp he with rfl | he
      · rcases Bool.or_eq_true_iff.mp hk with g | g
        · exact .inr (.inl (of_decide_eq_true g))
        · exact .inr (.inr (of_decide_eq_true g))
      · exact ih h e he
    · rw [if_neg hk] at h
      cases hg : PyDict.get k optionMap with
      | none => rw [hg] at h; cases h
      | some o =>
        rw [hg] at h
        rcases List.mem_cons.mp he with rfl | he
        · exact .inl ⟨o, flag_iff.mp hg⟩
        · cases hl : options l with
          | none => rw [hl] at h; cases h
          | some r => exact ih hl e he

theorem options_pairs {kw : List (Str × Arg)} {opts : List Arg} {o : List Str} (h : options kw = some opts) (ht : texts opts = some o) (hd : Dict kw) :
    ∃ ps : List (Str × Str), o = ps.flatMap (fun p => [p.1, p.2]) ∧ (∀ f v, (f, v) ∈ ps ↔ ∃ k, Flag k f ∧ (k, Arg.text v) ∈ kw) ∧ (ps.map (·.1)).Nodup := by
  induction kw generalizing opts o with
  | nil =>
    cases h; cases ht
    exact ⟨[], rfl, fun f v => ⟨fun h => (by cases h), fun h => (by obtain ⟨_, _, h⟩ := h; cases h)⟩, List.nodup_nil⟩
  | cons x l ih =>
    obtain ⟨k, v⟩ := x
    obtain ⟨hd1, hd2⟩ := List.nodup_cons.mp hd
    have h : (if k = "logfile".toList || k = "extra_arguments".toList then options l
      else match PyDict.get k optionMap with
        | none => none
        | some o => (options l).map fun r => .text o :: v :: r) = some opts := h
    by_cases hk : (k = "logfile".toList || k = "extra_arguments".toList) = true
    · rw [if_pos hk] at h
      obtain ⟨ps, p1, p2, p3⟩ := ih h ht hd2
      refine ⟨ps, p1, fun f w => ?_, p3⟩
      rw [p2]
      constructor
      · rintro ⟨k', g1, g2⟩; exact ⟨k', g1, List.mem_cons_of_mem _ g2⟩
      · rintro ⟨k', g1, g2⟩
        rcases List.mem_cons.mp g2 with g2 | g2
        · cases g2
          cases g1 <;> (exfalso; revert hk; decide)
        · exact ⟨k', g1, g2⟩
    · rw [if_neg hk] at h
      cases hg : PyDict.get k optionMap with
      | none => rw [hg] at h; cases h
      | some fl =>
        rw [hg] at h
        cases hl : options l with
        | none => rw [hl] at h; cases h
        | some r =>
          rw [hl] at h
          cases h
          cases v with
          | text s =>
            have ht : ((texts r).map (s :: ·)).map (fl :: ·) = some o := ht
            cases hr : texts r with
            | none => rw [hr] at ht; cases ht
            | some o' =>
              rw [hr] at ht
              cases ht
              obtain ⟨ps, p1, p2, p3⟩ := ih hl hr hd2
              refine ⟨(fl, s) :: ps, by rw [p1]; rfl, fun f w => ?_, ?_⟩
              · constructor
                · intro hm
                  rcases List.mem_cons.mp hm with hm | hm
                  · cases hm; exact ⟨k, flag_iff.mp hg, List.mem_cons_self ..⟩
                  · obtain ⟨k', g1, g2⟩ := (p2 f w).mp hm
                    exact ⟨k', g1, List.mem_cons_of_mem _ g2⟩
                · rintro ⟨k', g1, g2⟩
                  rcases List.mem_cons.mp g2 with g2 | g2
                  · cases g2
                    have := flag_iff.mpr g1
                    rw [hg] at this
                    cases this
                    exact List.mem_cons_self ..
                  · exact List.mem_cons_of_mem _ ((p2 f w).mpr ⟨k', g1, g2⟩)
              · refine List.nodup_cons.mpr ⟨?_, p3⟩
                intro hm
                obtain ⟨⟨f', w⟩, hm1, hm2⟩ := List.mem_map.mp hm
                obtain ⟨k', g1, g2⟩ := (p2 f' w).mp hm1
                have hm2 : f' = fl := hm2
                rw [hm2] at g1
                have e := flag_inj g1 (flag_iff.mp hg)
                exact hd1 (List.mem_map.mpr ⟨_, g2, e⟩)
          | none => cases ht
          | items l => cases ht
          | file n => cases ht

theorem withEncoding_dict {kw : List (Str × Arg)} (hd : Dict kw) : Dict (withEncoding kw) := by
  unfold withEncoding
  cases h : PyDict.get "encoding".toList kw with
  | some _ => exact hd
  | none =>
    unfold Dict
    rw [List.map_append, List.nodup_append]
    refine ⟨hd, by simp, ?_⟩
    intro a ha b hb
    have hb : b = "encoding".toList := List.mem_singleton.mp hb
    obtain ⟨e, he, rfl⟩ := List.mem_map.mp ha
    rw [hb]
    exact PyDict.get_none.mp h e he

theorem withEncoding_wanted {kw : List (Str × Arg)} {k v : Str} : (k, Arg.text v) ∈ withEncoding kw ↔ Wanted kw k v := by
  unfold withEncoding Wanted
  cases h : PyDict.get "encoding".toList kw with
  | some a =>
    refine ⟨.inl, ?_⟩
    rintro (g | ⟨e, _, g⟩)
    · exact g
    · exact absurd e.symm (g _ (PyDict.get_mem h))
  | none =>
    dsimp only
    rw [List.mem_append, List.mem_singleton]
    constructor
    · rintro (g | g)
      · exact .inl g
      · cases g; exact .inr ⟨rfl, rfl, PyDict.get_none.mp h⟩
    · rintro (g | ⟨rfl, rfl, _⟩)
      · exact .inl g
      · exact .inr rfl

theorem extra_spec {kw : List (Str × Arg)} {ext : List Str} (h : extra (PyDict.get "extra_arguments".toList kw) = some ext) : Extra kw ext := by
  unfold Extra
  cases hg : PyDict.get "extra_arguments".toList kw with
  | none => rw [hg] at h; cases h; exact .inr (.inr ⟨rfl, PyDict.get_none.mp hg⟩)
  | some a =>
    rw [hg] at h
    cases a with
    | items l => cases h; exact .inl ⟨_, PyDict.get_mem hg, rfl⟩
    | text s => cases h; exact .inr (.inl ⟨_, PyDict.get_mem hg, rfl⟩)
    | none => cases h
    | file n => cases h

theorem finish_spawned (W : World) (cmd : List Str) (timeout : Option Int) (l : List Call) : spawned ((finish W cmd timeout).2 ++ l) = spawned l := by
  rw [finish_calls]
  split <;> rfl

theorem early_spawned {password : Option Str} {t : List Call} (ht : t = [] ∨ (∃ name enc, t = [.create name enc, .close name])
    ∨ ∃ pw name enc, password = some pw ∧ t = [.create name enc, .write name pw, .close name]) : spawned t = [] := by
  rcases ht with rfl | ⟨n, e, rfl⟩ | ⟨p, n, e, _, rfl⟩ <;> rfl

/-! ## C65 -/

/-- At most one program is run: `initdb` of the installation, or else `pg_ctl initdb`, for the data directory, with each option wanted once, with its value, no other option, the name of a file
if there is a password, and the additional arguments at the end. -/
theorem C65_command {C : Config} {W : World} {password : Option Str} {timeout : Option Int} {kw : List (Str × Arg)} (hd : Dict kw) {r : Except Exn Unit} {t : List Call}
    (h : init C W password timeout kw = (r, t)) : spawned t = [] ∨ ∃ (prog : List Str) (ps : List (Str × Str)) (pw ext : List Str), spawned t = [prog ++ ["-D".toList, C.dataDir] ++ ps.flatMap (fun p => [p.1, p.2]) ++ pw ++ ext]
      ∧ ((∃ i, C.initdb = some i ∧ prog = [i]) ∨ (C.initdb = none ∧ ∃ c, C.pgCtl = some c ∧ prog = [c, "initdb".toList]))
      ∧ (∀ f v, (f, v) ∈ ps ↔ ∃ k, Flag k f ∧ Wanted kw k v) ∧ (ps.map (·.1)).Nodup
      ∧ ((password = none ∧ pw = []) ∨ ∃ p name, password = some p ∧ pw = ["--pwfile=".toList ++ name]) ∧ Extra kw ext := by
  have hprog : ∀ {prog : List Str}, program C = some prog → (∃ i, C.initdb = some i ∧ prog = [i]) ∨ (C.initdb = none ∧ ∃ c, C.pgCtl = some c ∧ prog = [c, "initdb".toList]) := by
    intro prog hp
    unfold program at hp
    cases hi : C.initdb with
    | some i => rw [hi] at hp; cases hp; exact .inl ⟨i, rfl, rfl⟩
    | none =>
      rw [hi] at hp
      cases hc : C.pgCtl with
      | none => rw [hc] at hp; cases hp
      | some c => rw [hc] at hp; cases hp; exact .inr ⟨rfl, c, rfl, rfl⟩
  have hs := shape C W password timeout kw
  rw [h] at hs
  cases hs with
  | early e _ he ht => exact .inl (early_spawned ht)
  | plain prog opts o ext h1 h2 h3 h4 h5 out =>
    obtain ⟨ps, p1, p2, p3⟩ := options_pairs h2 h3 (withEncoding_dict hd)
    refine .inr ⟨prog, ps, [], ext, ?_, hprog h1, ?_, p3, .inl ⟨h5, rfl⟩, extra_spec h4⟩
    · have := finish_spawned W (prog ++ ["-D".toList, C.dataDir] ++ o ++ [] ++ ext) timeout []
      rw [List.append_nil] at this
      show (prog ++ ["-D".toList, C.dataDir] ++ o ++ [] ++ ext) :: spawned _ = _
      rw [this, ← p1]; rfl
    · intro f v
      rw [p2]
      constructor <;> rintro ⟨k, g1, g2⟩
      · exact ⟨k, g1, withEncoding_wanted.mp g2⟩
      · exact ⟨k, g1, withEncoding_wanted.mpr g2⟩
  | secured prog opts o ext h1 h2 h3 h4 pw name enc h5 out =>
    obtain ⟨ps, p1, p2, p3⟩ := options_pairs h2 h3 (withEncoding_dict hd)
    refine .inr ⟨prog, ps, ["--pwfile=".toList ++ name], ext, ?_, hprog h1, ?_, p3, .inr ⟨pw, name, h5, rfl⟩, extra_spec h4⟩
    · have := finish_spawned W (prog ++ ["-D".toList, C.dataDir] ++ o ++ ["--pwfile=".toList ++ name] ++ ext) timeout [.close name]
      show (prog ++ ["-D".toList, C.dataDir] ++ o ++ ["--pwfile=".toList ++ name] ++ ext) :: spawned (_ ++ [.close name]) = _
      rw [this, ← p1]; rfl
    · intro f v
      rw [p2]
      constructor <;> rintro ⟨k, g1, g2⟩
      · exact ⟨k, g1, withEncoding_wanted.mp g2⟩
      · exact ⟨k, g1, withEncoding_wanted.mpr g2⟩

/-- A keyword that is not known is refused, with `TypeError`, before anything is done (unless there is no program, which is found first). -/
theorem C65_unknown (C : Config) (W : World) (password : Option Str) (timeout : Option Int) (kw : List (Str × Arg)) (h : ∃ e ∈ kw, ¬ Known e.1) :
    init C W password timeout kw = (.error .type, []) ∨ (C.initdb = none ∧ C.pgCtl = none ∧ init C W password timeout kw = (.error .noProgram, [])) := by
  obtain ⟨e, he, hk⟩ := h
  have he' : e ∈ withEncoding kw := by
    unfold withEncoding
    cases PyDict.get "encoding".toList kw with
    | some _ => exact he
    | none => exact List.mem_append_left _ he
  unfold init
  cases hp : program C with
  | none =>
    refine .inr ?_
    unfold program at hp
    cases hi : C.initdb with
    | some i => rw [hi] at hp; cases hp
    | none =>
      rw [hi] at hp
      cases hc : C.pgCtl with
      | none => exact ⟨rfl, rfl, rfl⟩
      | some c => rw [hc] at hp; cases hp
  | some prog =>
    dsimp only
    cases ho : options (withEncoding kw) with
    | none => exact .inl rfl
    | some opts => exact absurd (options_known ho e he') hk

/-- `init` returns just when the program was run and ended with status 0; with another status it raises `InitDBError` with the status, command and output; otherwise something else is raised, and
without a program run neither. -/
theorem C65_outcome {C : Config} {W : World} {password : Option Str} {timeout : Option Int} {kw : List (Str × Arg)} {r : Except Exn Unit} {t : List Call}
    (h : init C W password timeout kw = (r, t)) : (∃ cmd, spawned t = [cmd] ∧ Means W cmd r) ∨ (spawned t = [] ∧ ∃ e, r = .error e ∧ ∀ n c b, e ≠ .initdb n c b) := by
  have hs := shape C W password timeout kw
  rw [h] at hs
  cases hs with
  | early e _ he ht => exact .inr ⟨early_spawned ht, e, rfl, he.1⟩
  | plain prog opts o ext h1 h2 h3 h4 h5 out =>
    refine .inl ⟨_, ?_, finish_means W _ timeout⟩
    have := finish_spawned W (prog ++ ["-D".toList, C.dataDir] ++ o ++ [] ++ ext) timeout []
    rw [List.append_nil] at this
    show (prog ++ ["-D".toList, C.dataDir] ++ o ++ [] ++ ext) :: spawned _ = _
    rw [this]; rfl
  | secured prog opts o ext h1 h2 h3 h4 pw name enc h5 out =>
    refine .inl ⟨_, ?_, finish_means W _ timeout⟩
    have := finish_spawned W (prog ++ ["-D".toList, C.dataDir] ++ o ++ ["--pwfile=".toList ++ name] ++ ext) timeout [.close name]
    show (prog ++ ["-D".toList, C.dataDir] ++ o ++ ["--pwfile=".toList ++ name] ++ ext) :: spawned (_ ++ [.close name]) = _
    rw [this]; rfl

/-- The file of the password is gone in the end, whatever `init` comes to. -/
theorem C65_password_gone (C : Config) (W : World) (password : Option Str) (timeout : Option Int) (kw : List (Str × Arg)) : existing (init C W password timeout kw).2 = [] := by
  have hs := shape C W password timeout kw
  generalize init C W password timeout kw = x at hs ⊢
  cases hs with
  | early e t he ht => rcases ht with rfl | ⟨n, e, rfl⟩ | ⟨p, n, e, _, rfl⟩ <;> simp [existing]
  | plain prog opts o ext h1 h2 h3 h4 h5 out =>
    dsimp only
    rw [finish_calls]
    split <;> simp [existing]
  | secured prog opts o ext h1 h2 h3 h4 pw name enc h5 out =>
    dsimp only
    rw [finish_calls]
    split <;> simp [existing]

/-- When the program is run with a password, there is exactly one file, which the command names, with exactly the password in it; without a password there is none. -/
theorem C65_password_there {C : Config} {W : World} {password : Option Str} {timeout : Option Int} {kw : List (Str × Arg)} {a b : List Call} {cmd : List Str} {out : Option Arg}
    (h : (init C W password timeout kw).2 = a ++ .spawn cmd out :: b) : (password = none ∧ a = []) ∨
      ∃ pw name enc, password = some pw ∧ a = [.create name enc, .write name pw] ∧ "--pwfile=".toList ++ name ∈ cmd := by
  have hs := shape C W password timeout kw
  generalize init C W password timeout kw = x at h hs
  have tail : ∀ (l : List Call), (∀ c ∈ l, ∀ d o, c ≠ .spawn d o) → ∀ {p q : List Call} {c : List Str} {o : Option Arg} {c' : List Str} {o' : Option Arg},
      Call.spawn c o :: l = p ++ .spawn c' o' :: q → p = [] ∧ c = c' := by
    intro l hl p q c o c' o' e
    cases p with
    | nil => cases e; exact ⟨rfl, rfl⟩
    | cons y p =>
      have e := (List.cons.inj e).2
      exact absurd rfl (hl (.spawn c' o') (by rw [e]; simp) c' o')
  have nos : ∀ c : List Str, ∀ x ∈ (finish W c timeout).2, ∀ d o, x ≠ Call.spawn d o := by
    intro c x hx d o e
    rw [finish_calls, e] at hx
    split at hx <;> simp at hx
  cases hs with
  | early e t he ht =>
    have h : t = a ++ .spawn cmd out :: b := h
    have hm : Call.spawn cmd out ∈ t := by rw [h]; simp
    rcases ht with rfl | ⟨n, e, rfl⟩ | ⟨p, n, e, _, rfl⟩ <;> simp at hm
  | plain prog opts o ext h1 h2 h3 h4 h5 out' => exact .inl ⟨h5, (tail _ (nos _) h).1⟩
  | secured prog opts o ext h1 h2 h3 h4 pw name enc h5 out' =>
    refine .inr ⟨pw, name, enc, h5, ?_⟩
    cases a with
    | nil => cases h
    | cons x a =>
      obtain ⟨e1, h⟩ := List.cons.inj h
      cases a with
      | nil => cases h
      | cons y a =>
        obtain ⟨e2, h⟩ := List.cons.inj h
        obtain ⟨g1, g2⟩ := tail _ (by
          intro c hc d o
          rcases List.mem_append.mp hc with hc | hc
          · exact nos _ c hc d o
          · rw [List.mem_singleton.mp hc]; exact fun h => (by cases h)) h
        rw [g1, ← e1, ← e2, ← g2]
        exact ⟨rfl, by simp⟩

/-- The command does not depend on the password, except for whether there is one and the encoding can have it. -/
theorem C65_password_secret (C : Config) (W : World) (pw pw' : Str) (timeout : Option Int) (kw : List (Str × Arg)) (h : ∀ enc, W.encodable enc pw = W.encodable enc pw') :
    spawned (init C W (some pw) timeout kw).2 = spawned (init C W (some pw') timeout kw).2 ∧ (init C W (some pw) timeout kw).1 = (init C W (some pw') timeout kw).1 := by
  unfold init
  cases program C with
  | none => exact ⟨rfl, rfl⟩
  | some prog =>
    dsimp only
    cases options (withEncoding kw) with
    | none => exact ⟨rfl, rfl⟩
    | some opts =>
      dsimp only
      cases extra (PyDict.get "extra_arguments".toList kw) with
      | none => exact ⟨rfl, rfl⟩
      | some ext =>
        dsimp only
        unfold guarded
        dsimp only
        cases fileEncoding (PyDict.get "encoding".toList (withEncoding kw)) with
        | error e => exact ⟨rfl, rfl⟩
        | ok enc =>
          dsimp only
          rw [h enc]
          by_cases hc : W.codec enc = true
          · rw [if_pos hc, if_pos hc]
            cases W.temp with
            | error e => exact ⟨rfl, rfl⟩
            | ok name =>
              dsimp only
              by_cases hn : W.encodable enc pw' = true
              · rw [if_pos hn, if_pos hn]
                cases W.writing with
                | some e => exact ⟨rfl, rfl⟩
                | none => exact ⟨rfl, rfl⟩
              · rw [if_neg hn, if_neg hn]; exact ⟨rfl, rfl⟩
          · rw [if_neg hc, if_neg hc]; exact ⟨rfl, rfl⟩

/-- A program run is killed just when the time is up, and its end is waited for then. -/
theorem C65_killed {C : Config} {W : World} {password : Option Str} {timeout : Option Int} {kw : List (Str × Arg)} {r : Except Exn Unit} {t : List Call}
    (h : init C W password timeout kw = (r, t)) : Call.kill ∈ t ↔ spawned t ≠ [] ∧ W.first = .expired := by
  have key : ∀ cmd, Call.kill ∈ (finish W cmd timeout).2 ↔ W.first = .expired := by
    intro cmd
    rw [finish_calls]
    split <;> simp_all
  have hs := shape C W password timeout kw
  rw [h] at hs
  cases hs with
  | early e _ he ht =>
    have := early_spawned ht
    rcases ht with rfl | ⟨n, e, rfl⟩ | ⟨p, n, e, _, rfl⟩ <;> simp [spawned]
  | plain prog opts o ext h1 h2 h3 h4 h5 out =>
    rw [List.mem_cons, key]
    refine ⟨fun g => ⟨fun g => (by cases g), ?_⟩, fun g => .inr g.2⟩
    rcases g with g | g
    · cases g
    · exact g
  | secured prog opts o ext h1 h2 h3 h4 pw name enc h5 out =>
    rw [List.mem_append, List.mem_cons, List.mem_cons, List.mem_cons, key]
    refine ⟨fun g => ⟨fun g => (by cases g), ?_⟩, fun g => .inl (.inr (.inr (.inr g.2)))⟩
    rcases g with (g | g | g | g) | g
    · cases g
    · cases g
    · cases g
    · exact g
    · cases List.mem_singleton.mp g

/-! Non-vacuity. -/

def demoC : Config := ⟨some ['i'], none, ['d']⟩
def demoW : World := ⟨.ok ['t'], fun n => n = "utf-8".toList || n = "ascii".toList, fun _ _ => true, none, none, .ended 0 [], none⟩
def demoKw : List (Str × Arg) := [("user".toList, .text ['u']), ("logfile".toList, .none), ("extra_arguments".toList, .items [['-', 'N']])]

example : Dict demoKw ∧ init demoC demoW (some ['p']) none demoKw = (.ok (), [.create ['t'] "utf-8".toList, .write ['t'] ['p'],
    .spawn [['i'], "-D".toList, ['d'], "-U".toList, ['u'], "-E".toList, "utf-8".toList, "--pwfile=t".toList, "-N".toList] none, .wait none, .close ['t']]) :=
  ⟨by unfold Dict; decide +kernel, by decide +kernel⟩
/-- The wait expires, the program is killed. -/
example : init demoC { demoW with first := .expired, second := some (-9, [1]) } none (some 5) [] =
    (.error (.initdb (-9) [['i'], "-D".toList, ['d'], "-E".toList, "utf-8".toList] [1]), [.spawn [['i'], "-D".toList, ['d'], "-E".toList, "utf-8".toList] none, .wait (some 5), .kill, .wait none]) := by
  decide +kernel
example : init demoC demoW none none [("locale".toList, .text ['C'])] = (.error .type, []) := by decide +kernel

/-- FINDING: with a password, an encoding named as PostgreSQL names it is not found (cluster.py:248 does not lower the name), though `initdb` knows it; without a password it is. -/
theorem C65_encoding_case : init demoC demoW (some ['p']) none [("encoding".toList, .text "SQL_ASCII".toList)] = (.error .lookup, []) ∧
    (init demoC demoW none none [("encoding".toList, .text "SQL_ASCII".toList)]).1 = .ok () ∧
    (init demoC demoW (some ['p']) none [("encoding".toList, .text "sql_ascii".toList)]).1 = .ok () := by decide +kernel

end PG.Props.ClusterInit
