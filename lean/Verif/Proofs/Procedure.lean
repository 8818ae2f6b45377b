import Verif.Model.Procedure
import Verif.Spec.Procedure
import Verif.Props.SqlText2
import Verif.Props.Prepare
import Verif.Props.Multi
import Verif.Props.TypeIo
/-!
# C61: stored procedures: the text
-/
namespace PG.Props.Procedure
open PG PG.PyStr PG.PgString PG.SqlText PG.Procedure PG.Spec.PgString PG.Spec.SqlText PG.Spec.Procedure PG.Proofs.SqlText PG.Props.SqlText

/-! ## The dictionaries -/

theorem fields_erase {base : Nat → Nat} {rec : Known → Nat → Except TypeIo.Err TypeIo.Io × Known} {rec' : TypeIo.Cache → Nat → Except TypeIo.Err TypeIo.Io × TypeIo.Cache}
    (h : ∀ k t, ((rec k t).1, (rec k t).2.cache) = rec' k.cache t) : ∀ (fs : List (Nat × Bool)) (k : Known),
    ((Procedure.resolveFields base rec k fs).1, (Procedure.resolveFields base rec k fs).2.cache) = TypeIo.resolveFields base rec' k.cache fs
  | [], _ => rfl
  | (t, dom) :: fs, k => by
    have h1 := h k (if dom then base t else t)
    unfold Procedure.resolveFields TypeIo.resolveFields
    rw [← h1]
    cases hr : rec k (if dom then base t else t) with
    | mk e k1 => cases e with
      | error e => rfl
      | ok io =>
        have h2 := fields_erase (base := base) h fs k1
        dsimp only
        rw [← h2]
        cases hr2 : Procedure.resolveFields base rec k1 fs with
        | mk e k2 => cases e <;> rfl

/-- What is resolved, and what is cached, is as in the model of type I/O (C50). -/
theorem resolve_erase (env : TypeIo.Env) (nm : Nat → Str × Str) : ∀ (fuel : Nat) (from_ : List Nat) (k : Known) (t : Nat),
    ((Procedure.resolve env nm fuel from_ k t).1, (Procedure.resolve env nm fuel from_ k t).2.cache) = TypeIo.resolve env fuel from_ k.cache t
  | 0, _, _, _ => rfl
  | fuel + 1, from_, k, t => by
    have ih := resolve_erase env nm fuel (from_ ++ [t])
    rw [Procedure.resolve, TypeIo.resolve]
    split
    · rfl
    · cases hg : k.cache.get t with
      | some io => rfl
      | none =>
        dsimp only
        split
        · rfl
        · cases hc : env.cat t with
          | none => rfl
          | some i => cases i with
            | composite fs =>
              dsimp only
              have := fields_erase (base := env.base) ih fs { k with typinfo := (t, nm t) :: k.typinfo }
              dsimp only at this
              rw [← this]
              generalize Procedure.resolveFields env.base (Procedure.resolve env nm fuel (from_ ++ [t])) { k with typinfo := (t, nm t) :: k.typinfo } fs = r
              obtain ⟨e, k2⟩ := r
              cases e <;> rfl
            | array el i o =>
              dsimp only
              have := ih { k with typinfo := (t, nm t) :: k.typinfo } el
              dsimp only at this
              rw [← this]
              generalize Procedure.resolve env nm fuel (from_ ++ [t]) { k with typinfo := (t, nm t) :: k.typinfo } el = r
              obtain ⟨e, k2⟩ := r
              cases e <;> rfl
            | domain =>
              dsimp only
              have := ih { k with typinfo := (t, nm t) :: k.typinfo } (env.base t)
              dsimp only at this
              rw [← this]
              generalize Procedure.resolve env nm fuel (from_ ++ [t]) { k with typinfo := (t, nm t) :: k.typinfo } (env.base t) = r
              obtain ⟨e, k2⟩ := r
              cases e <;> rfl
            | anonymous => rfl
            | other => rfl

/-- Why a name of the type is known. -/
def Covered (S : List Nat) (k : Known) (t : Nat) : Prop := t ∈ TypeIo.initialOids ∨ t ∈ builtinOids ∨ lookup k.typinfo t ≠ none ∨ t ∈ S

structure Inv (env : TypeIo.Env) (nm : Nat → Str × Str) (S : List Nat) (k : Known) : Prop where
  cached : ∀ t, k.cache.get t ≠ none → Covered S k t
  info : ∀ t x, lookup k.typinfo t = some x → x = nm t ∧ env.cat t ≠ none

/-- Nothing is forgotten. -/
def Grows (k k' : Known) : Prop := ∀ t, lookup k.typinfo t ≠ none → lookup k'.typinfo t ≠ none

theorem covered_grows {S : List Nat} {k k' : Known} {t : Nat} (h : Grows k k') (hc : Covered S k t) : Covered S k' t := by
  rcases hc with h1 | h1 | h1 | h1
  · exact .inl h1
  · exact .inr (.inl h1)
  · exact .inr (.inr (.inl (h t h1)))
  · exact .inr (.inr (.inr h1))

theorem lookup_cons {γ : Type} (d : List (Nat × γ)) (t u : Nat) (x : γ) : lookup ((t, x) :: d) u = if t = u then some x else lookup d u := by
  unfold lookup
  rw [List.find?_cons]
  by_cases h : t = u
  · simp [h]
  · simp [h]

theorem inv_note {env : TypeIo.Env} {nm : Nat → Str × Str} {S : List Nat} {k : Known} {t : Nat} (h : Inv env nm S k) (ht : env.cat t ≠ none) :
    Inv env nm S { k with typinfo := (t, nm t) :: k.typinfo } ∧ Grows k { k with typinfo := (t, nm t) :: k.typinfo } ∧ lookup ((t, nm t) :: k.typinfo) t ≠ none := by
  have hg : Grows k { k with typinfo := (t, nm t) :: k.typinfo } := by
    intro u hu
    show lookup ((t, nm t) :: k.typinfo) u ≠ none
    rw [lookup_cons]
    split
    · simp
    · exact hu
  refine ⟨⟨fun u hu => covered_grows hg (h.cached u hu), fun u x hx => ?_⟩, hg, by rw [lookup_cons, if_pos rfl]; simp⟩
  have hy : lookup ((t, nm t) :: k.typinfo) u = some x := hx
  rw [lookup_cons] at hy
  split at hy
  · rename_i e
    subst e
    exact ⟨(Option.some.inj hy).symm, ht⟩
  · exact h.info u x hy

theorem inv_put {env : TypeIo.Env} {nm : Nat → Str × Str} {S : List Nat} {k : Known} {t : Nat} (io : TypeIo.Io) (h : Inv env nm S k) (ht : Covered S k t) : Inv env nm S (k.put t io) := by
  refine ⟨fun u hu => ?_, fun u x hx => h.info u x hx⟩
  have hu : TypeIo.Cache.get ((t, io) :: k.cache) u ≠ none := hu
  rw [TypeIo.Cache.get] at hu
  split at hu
  · rename_i e
    subst e
    exact ht
  · exact h.cached u hu

/-- After a resolution: the invariant, nothing forgotten, and if it succeeded the type's name is known. -/
def Good (env : TypeIo.Env) (nm : Nat → Str × Str) (S : List Nat) (k : Known) (t : Nat) (r : Except TypeIo.Err TypeIo.Io × Known) : Prop :=
  Inv env nm S r.2 ∧ Grows k r.2 ∧ ((∃ io, r.1 = .ok io) → env.cat t ≠ none → Covered S r.2 t)

theorem fields_good {env : TypeIo.Env} {nm : Nat → Str × Str} {S : List Nat} {base : Nat → Nat} {rec : Known → Nat → Except TypeIo.Err TypeIo.Io × Known}
    (h : ∀ k t, Inv env nm S k → Good env nm S k t (rec k t)) : ∀ (fs : List (Nat × Bool)) (k : Known), Inv env nm S k →
    Inv env nm S (Procedure.resolveFields base rec k fs).2 ∧ Grows k (Procedure.resolveFields base rec k fs).2
  | [], k, hk => ⟨hk, fun _ h => h⟩
  | (t, dom) :: fs, k, hk => by
    have h1 := h k (if dom then base t else t) hk
    unfold Procedure.resolveFields
    generalize rec k (if dom then base t else t) = r at h1
    obtain ⟨e, k1⟩ := r
    cases e with
    | error e => exact ⟨h1.1, h1.2.1⟩
    | ok io =>
      have h2 := fields_good h fs k1 h1.1 (base := base)
      dsimp only
      generalize Procedure.resolveFields base rec k1 fs = r2 at h2
      obtain ⟨e, k2⟩ := r2
      cases e with
      | error e => exact ⟨h2.1, fun u hu => h2.2 u (h1.2.1 u hu)⟩
      | ok ios => exact ⟨h2.1, fun u hu => h2.2 u (h1.2.1 u hu)⟩

theorem resolve_good {env : TypeIo.Env} {nm : Nat → Str × Str} {S : List Nat} (hb : ∀ t, env.builtin t = true → t ∈ builtinOids) : ∀ (fuel : Nat) (from_ : List Nat) (k : Known) (t : Nat), Inv env nm S k →
    Good env nm S k t (Procedure.resolve env nm fuel from_ k t)
  | 0, _, k, _, hk => ⟨hk, fun _ h => h, fun ⟨_, h⟩ => by cases h⟩
  | fuel + 1, from_, k, t, hk => by
    rw [Procedure.resolve]
    split
    · exact ⟨hk, fun _ h => h, fun ⟨_, h⟩ => by cases h⟩
    · cases hg : k.cache.get t with
      | some io => exact ⟨hk, fun _ h => h, fun _ _ => hk.cached t (by rw [hg]; simp)⟩
      | none =>
        dsimp only
        split
        · rename_i hbt
          have hc : Covered S k t := .inr (.inl (hb t hbt))
          exact ⟨inv_put _ hk hc, fun _ h => h, fun _ _ => hc⟩
        · cases hc : env.cat t with
          | none => exact ⟨hk, fun _ h => h, fun _ h => absurd hc h⟩
          | some i =>
            have hne : env.cat t ≠ none := by rw [hc]; simp
            obtain ⟨hn, hg1, hl⟩ := inv_note hk hne
            have close : ∀ (k2 : Known) (io : TypeIo.Io), Inv env nm S k2 → Grows { k with typinfo := (t, nm t) :: k.typinfo } k2 →
                Inv env nm S (k2.put t io) ∧ Grows k (k2.put t io) ∧ Covered S (k2.put t io) t := by
              intro k2 io h1 h2
              have hcv : Covered S k2 t := .inr (.inr (.inl (h2 t hl)))
              exact ⟨inv_put io h1 hcv, fun u hu => h2 u (hg1 u hu), hcv⟩
            cases i with
            | composite fs =>
              dsimp only
              have h2 := fields_good (base := env.base) (fun k' t' hk' => resolve_good (nm := nm) hb fuel (from_ ++ [t]) k' t' hk') fs _ hn
              generalize Procedure.resolveFields env.base (Procedure.resolve env nm fuel (from_ ++ [t])) { k with typinfo := (t, nm t) :: k.typinfo } fs = r at h2
              obtain ⟨e, k2⟩ := r
              cases e with
              | error e => exact ⟨h2.1, fun u hu => h2.2 u (hg1 u hu), fun ⟨_, h⟩ => by cases h⟩
              | ok ios => obtain ⟨a, b, c⟩ := close k2 _ h2.1 h2.2; exact ⟨a, b, fun _ _ => c⟩
            | array el i o =>
              dsimp only
              have h2 := resolve_good (nm := nm) hb fuel (from_ ++ [t]) _ el hn
              generalize Procedure.resolve env nm fuel (from_ ++ [t]) { k with typinfo := (t, nm t) :: k.typinfo } el = r at h2
              obtain ⟨e, k2⟩ := r
              cases e with
              | error e => exact ⟨h2.1, fun u hu => h2.2.1 u (hg1 u hu), fun ⟨_, h⟩ => by cases h⟩
              | ok ios => obtain ⟨a, b, c⟩ := close k2 _ h2.1 h2.2.1; exact ⟨a, b, fun _ _ => c⟩
            | domain =>
              dsimp only
              have h2 := resolve_good (nm := nm) hb fuel (from_ ++ [t]) _ (env.base t) hn
              generalize Procedure.resolve env nm fuel (from_ ++ [t]) { k with typinfo := (t, nm t) :: k.typinfo } (env.base t) = r at h2
              obtain ⟨e, k2⟩ := r
              cases e with
              | error e => exact ⟨h2.1, fun u hu => h2.2.1 u (hg1 u hu), fun ⟨_, h⟩ => by cases h⟩
              | ok ios => obtain ⟨a, b, c⟩ := close k2 _ h2.1 h2.2.1; exact ⟨a, b, fun _ _ => c⟩
            | anonymous => obtain ⟨a, b, c⟩ := close _ (.anonymous t) hn (fun _ h => h); exact ⟨a, b, fun _ _ => c⟩
            | other => obtain ⟨a, b, c⟩ := close _ (.str t) hn (fun _ h => h); exact ⟨a, b, fun _ _ => c⟩

theorem all_good {env : TypeIo.Env} {nm : Nat → Str × Str} {S : List Nat} (hb : ∀ t, env.builtin t = true → t ∈ builtinOids) {fuel : Nat} : ∀ (ts : List Nat) (k : Known), Inv env nm S k →
    Inv env nm S (resolveAll env nm fuel k ts).2 ∧ Grows k (resolveAll env nm fuel k ts).2 ∧ ((resolveAll env nm fuel k ts).1 = .ok () → ∀ t ∈ ts, env.cat t ≠ none → Covered S (resolveAll env nm fuel k ts).2 t)
  | [], k, hk => ⟨hk, fun _ h => h, fun _ _ h => by cases h⟩
  | t :: ts, k, hk => by
    have h1 := resolve_good hb fuel [] k t hk
    unfold resolveAll
    generalize Procedure.resolve env nm fuel [] k t = r at h1
    obtain ⟨e, k1⟩ := r
    cases e with
    | error e => exact ⟨h1.1, h1.2.1, fun h => by cases h⟩
    | ok io =>
      dsimp only
      obtain ⟨a, b, c⟩ := all_good hb ts k1 h1.1 (fuel := fuel)
      refine ⟨a, fun u hu => b u (h1.2.1 u hu), fun h u hu hne => ?_⟩
      cases hu with
      | head => exact covered_grows b (h1.2.2 ⟨io, rfl⟩ hne)
      | tail _ hu => exact c h u hu hne

/-- What has been done with the connection's types. -/
inductive Op where
  | use (t : Nat)
  | identify (t : Nat)

/-- The dictionaries after it. -/
def after (env : TypeIo.Env) (nm : Nat → Str × Str) (fuel : Nat) : List Op → Known
  | [] => Known.initial
  | .use t :: ops => (Procedure.resolve env nm fuel [] (after env nm fuel ops) t).2
  | .identify t :: ops => Procedure.identify (after env nm fuel ops) t

/-- The types that `identify()` was used for. -/
def identified : List Op → List Nat
  | [] => []
  | .use _ :: ops => identified ops
  | .identify t :: ops => t :: identified ops

theorem inv_mono {env : TypeIo.Env} {nm : Nat → Str × Str} {S S' : List Nat} {k : Known} (h : Inv env nm S k) (hs : ∀ t ∈ S, t ∈ S') : Inv env nm S' k := by
  refine ⟨fun t ht => ?_, h.info⟩
  rcases h.cached t ht with h1 | h1 | h1 | h1
  · exact .inl h1
  · exact .inr (.inl h1)
  · exact .inr (.inr (.inl h1))
  · exact .inr (.inr (.inr (hs t h1)))

theorem after_inv {env : TypeIo.Env} {nm : Nat → Str × Str} (hb : ∀ t, env.builtin t = true → t ∈ builtinOids) (fuel : Nat) : ∀ ops : List Op, Inv env nm (identified ops) (after env nm fuel ops)
  | [] => by
    refine ⟨fun t ht => .inl ?_, fun t x hx => by cases hx⟩
    have ht : TypeIo.Cache.get TypeIo.initialCache t ≠ none := ht
    rw [TypeIo.initial_get] at ht
    split at ht
    · assumption
    · exact absurd rfl ht
  | .use t :: ops => (resolve_good hb fuel [] _ t (after_inv hb fuel ops)).1
  | .identify t :: ops => inv_put _ (inv_mono (after_inv hb fuel ops) fun _ h => List.mem_cons_of_mem _ h) (.inr (.inr (.inr (List.mem_cons_self ..))))

/-! ## Names of types -/

/-- The catalog: PostgreSQL's own types have their names; a type that can be looked up is found by its names, which are not empty. -/
structure Catalog (env : TypeIo.Env) (nm : Nat → Str × Str) (catalog : Str → Str → Option Nat) : Prop where
  own : ∀ e ∈ ownTypes, catalog "pg_catalog".toList e.2.toList = some e.1
  found : ∀ t, env.cat t ≠ none → catalog (nm t).1 (nm t).2 = some t
  named : ∀ t, env.cat t ≠ none → (nm t).1 ≠ [] ∧ (nm t).2 ≠ []

/-- What follows the name of a type: a comma or a parenthesis. -/
def Stop (r : Str) : Prop := ∃ c r', r = c :: r' ∧ (c = ',' ∨ c = ')')

theorem stop_after {r : Str} (h : Stop r) : After r := by
  obtain ⟨c, r', rfl, rfl | rfl⟩ := h <;> exact after_cons (by decide)

/-- Words with blanks between them. -/
theorem words_piece : ∀ (ws : List Str), ws ≠ [] → (∀ w ∈ ws, wordB w = true) → Piece After (Procedure.join [' '] ws) (ws.map fun w => .word (foldCase w))
  | [], h, _ => absurd rfl h
  | [w], _, hw => piece_word (isWord_of (hw w (by simp)))
  | w :: v :: ws, _, hw => by
    have ih := words_piece (v :: ws) (by simp) fun x hx => hw x (by simp [List.mem_cons.mp hx])
    exact (piece_kw (hw w (by simp)) rfl).append ih fun _ _ => trivial

/-- Cut at blanks, for `decide`. -/
def cutBlanks (w : Str) : Str → List Str
  | [] => [w]
  | c :: s => if c = ' ' then w :: cutBlanks [] s else cutBlanks (w ++ [c]) s

/-- The table of SQL names, checked: words, and those of the type. -/
def goodSql (e : Nat × String) : Bool :=
  let ws := cutBlanks [] e.2.toList
  ws ≠ [] && ws.all wordB && Procedure.join [' '] ws = e.2.toList && sqlTypes.any fun x => x.2.1 = e.1 && x.1.map (·.toList) = ws.map foldCase && (x.2.2 = none || e.1 = 1042)

theorem sql_good : ∀ e ∈ oidToSqlName, goodSql e = true := by decide +kernel

/-- The table of names, checked for the types that are not looked up. -/
def goodName (t : Nat) : Bool :=
  match lookup oidToSqlName t, lookup oidToName t with
  | some _, _ => true
  | none, some s => s ≠ "" && wordB s.toList && foldCase s.toList = s.toList && ownTypes.contains (t, s)
  | none, none => false

theorem name_good : ∀ t ∈ TypeIo.initialOids ++ builtinOids, goodName t = true := by decide +kernel

theorem lookup_mem {γ : Type} {d : List (Nat × γ)} {t : Nat} {x : γ} (h : lookup d t = some x) : (t, x) ∈ d := by
  unfold lookup at h
  cases hf : d.find? (fun e => e.1 = t) with
  | none => rw [hf] at h; cases h
  | some e =>
    rw [hf] at h
    have h1 := List.mem_of_find?_eq_some hf
    have h2 := List.find?_some hf
    obtain ⟨a, b⟩ := e
    have e1 : a = t := by simpa using h2
    have e2 : b = x := Option.some.inj h
    subst e1 e2
    exact h1

theorem sql_names {catalog : Str → Str → Option Nat} {t : Nat} {s : String} (h : lookup oidToSqlName t = some s) :
    ∃ toks n, Piece After s.toList toks ∧ Names catalog toks t n ∧ (t ≠ 1042 → n = none) ∧ Tok.sym ';' ∉ toks := by
  have hg := sql_good _ (lookup_mem h)
  unfold goodSql at hg
  simp only [Bool.and_eq_true, decide_eq_true_eq, List.all_eq_true, List.any_eq_true, Bool.or_eq_true] at hg
  obtain ⟨⟨⟨h1, h2⟩, h3⟩, ⟨ws, u, n⟩, hm, ⟨h4, h5⟩, h6⟩ := hg
  dsimp only at h4 h5 h6
  subst h4
  have hp := words_piece _ (by simpa using h1) h2
  rw [h3] at hp
  have e : (cutBlanks [] s.toList).map (fun w => Tok.word (foldCase w)) = ws.map kw := by
    have : ws.map kw = (ws.map (·.toList)).map Tok.word := by simp [kw, Function.comp_def]
    rw [this, h5]
    simp [Function.comp_def]
  rw [e] at hp
  refine ⟨ws.map kw, n, hp, .sql hm, fun hne => ?_, fun hm => ?_⟩
  · rcases h6 with h6 | h6
    · exact h6
    · exact absurd h6 hne
  · obtain ⟨x, _, hx⟩ := List.mem_map.mp hm
    cases hx

theorem quoted_piece {nsp name : Str} (h1 : nsp ≠ []) (h2 : name ≠ []) : Piece Stop (quoteIdent nsp ++ '.' :: quoteIdent name) [.ident nsp, .sym '.', .ident name] := by
  have a := (piece_ident h1).append (piece_sym (c := '.') (by decide) (by decide) (by decide)) (by intro r _; simp)
  have b := a.append (piece_ident h2) (fun _ _ => trivial)
  have hb : Piece Stop (quoteIdent nsp ++ ['.'] ++ quoteIdent name) ([.ident nsp] ++ [.sym '.'] ++ [.ident name]) := b.weaken fun r hr => by
    obtain ⟨c, r', rfl, rfl | rfl⟩ := hr <;> simp
  simpa using hb

theorem own_piece {s : Str} (h : wordB s = true) (hf : foldCase s = s) : Piece After ("pg_catalog.".toList ++ s) [kw "pg_catalog", .sym '.', .word s] := by
  have a := (piece_word (w := "pg_catalog".toList) (isWord_of (by decide))).append (piece_sym (c := '.') (by decide) (by decide) (by decide)) (by intro r _; exact after_cons (by decide))
  have b := a.append (piece_word (isWord_of h)) (fun _ _ => trivial)
  rw [hf] at b
  rw [show foldCase "pg_catalog".toList = "pg_catalog".toList by decide, show "pg_catalog".toList ++ ['.'] = "pg_catalog.".toList by decide] at b
  exact b

/-- A type whose name is known is named by its text. -/
theorem type_piece {env : TypeIo.Env} {nm : Nat → Str × Str} {catalog : Str → Str → Option Nat} {S : List Nat} {k : Known} {t : Nat} (hcat : Catalog env nm catalog) (hk : Inv env nm S k) (hc : Covered S k t) (hS : t ∉ S) :
    ∃ text toks n, sqlType k t = some text ∧ Piece Stop text toks ∧ Names catalog toks t n ∧ (t ≠ 1042 → n = none) ∧ Tok.sym ';' ∉ toks := by
  unfold sqlType
  cases h1 : lookup oidToSqlName t with
  | some s =>
    obtain ⟨toks, n, a, b, c, d⟩ := sql_names (catalog := catalog) h1
    exact ⟨_, toks, n, rfl, a.weaken fun _ => stop_after, b, c, d⟩
  | none =>
    dsimp only
    cases h2 : lookup k.typinfo t with
    | some x =>
      obtain ⟨nsp, name⟩ := x
      obtain ⟨e, hne⟩ := hk.info t _ h2
      have hf := hcat.found t hne
      obtain ⟨q1, q2⟩ := hcat.named t hne
      rw [← e] at hf q1 q2
      exact ⟨_, _, none, rfl, quoted_piece q1 q2, .qualified (.inl rfl) (.inl rfl) hf, fun _ => rfl, by simp⟩
    | none =>
      dsimp only
      have hm : t ∈ TypeIo.initialOids ++ builtinOids := by
        rcases hc with h | h | h | h
        · exact List.mem_append_left _ h
        · exact List.mem_append_right _ h
        · exact absurd h2 h
        · exact absurd h hS
      have hg := name_good t hm
      unfold goodName at hg
      rw [h1] at hg
      cases h3 : lookup oidToName t with
      | none => rw [h3] at hg; cases hg
      | some s =>
        rw [h3] at hg
        simp only [Bool.and_eq_true, decide_eq_true_eq, List.contains_eq_mem] at hg
        obtain ⟨⟨⟨g1, g2⟩, g3⟩, g4⟩ := hg
        dsimp only
        have g1' : s ≠ "" := by simpa using g1
        rw [if_neg g1']
        exact ⟨_, _, none, rfl, (own_piece g2 g3).weaken fun _ => stop_after, .qualified (.inr rfl) (.inr rfl) (hcat.own _ g4), fun _ => rfl, by simp [kw]⟩

/-! ## The text -/

/-- Before a closing parenthesis. -/
def Paren (r : Str) : Prop := ∃ r', r = ')' :: r'

theorem part_piece {w : Str} {t : Tok} (h : Part w t) : Piece (fun r => ∃ c r', r = c :: r' ∧ (c = '.' ∨ c = '(')) w [t] := by
  cases h with
  | bare h1 h2 =>
    have := piece_word (lexWord_eq h1).2
    rw [h2] at this
    exact this.weaken fun r hr => by obtain ⟨c, r', rfl, rfl | rfl⟩ := hr <;> exact after_cons (by decide)
  | @quoted v hv =>
    have h := piece_ident hv
    refine Piece.weaken (ok := fun r => r.head? ≠ some '"') h fun r hr => by obtain ⟨c, r', rfl, rfl | rfl⟩ := hr <;> simp

/-- The name of a function is read. -/
theorem function_name {text : Str} {toks : List Tok} (h : FunctionName text toks) : ReadsAs ['('] text toks ∧ Tok.sym ';' ∉ toks := by
  have hs : ∀ {w : Str} {t : Tok}, Part w t → t ≠ .sym ';' := fun h e => by subst e; cases h
  have key : Piece (fun r => ∃ r', r = '(' :: r') text toks := by
    cases h with
    | alone h => exact (part_piece h).weaken fun r ⟨r', hr⟩ => ⟨'(', r', hr, .inr rfl⟩
    | @qualified w t w' t' h h' =>
      have a := (part_piece h).append (piece_sym (c := '.') (by decide) (by decide) (by decide)) (by intro r _; exact ⟨'.', r, rfl, .inl rfl⟩)
      have b := a.append (part_piece h') fun _ _ => trivial
      have := b.weaken (ok' := fun r => ∃ r', r = '(' :: r') fun r ⟨r', hr⟩ => ⟨'(', r', hr, .inr rfl⟩
      simpa using this
  refine ⟨fun c hc rest l => ?_, ?_⟩
  · have e : c = '(' := by simpa using hc
    subst e
    exact key _ ⟨rest, rfl⟩ l
  · cases h with
    | alone h => simpa using fun e : Tok.sym ';' = _ => hs h e.symm
    | qualified h h' => simp only [List.mem_cons, List.not_mem_nil, or_false, not_or]; exact ⟨fun e => hs h e.symm, by simp, fun e => hs h' e.symm⟩

theorem arg_piece (n : Nat) {text : Str} {toks : List Tok} (h : Piece Stop text toks) : Piece Stop (argText n (some text)) (argument (n + 1) toks) := by
  have a := (piece_param (n + 1)).append (piece_sym (c := ':') (by decide) (by decide) (by decide)) (by intro r _ c hc; cases hc; decide)
  have b := a.append (piece_sym (c := ':') (by decide) (by decide) (by decide)) (fun _ _ => trivial)
  have c := b.append h fun _ _ => trivial
  simpa [argText, argument, percentS] using c

theorem args_piece : ∀ (ts : List (Option Str)) (tk : List (List Tok)) (n : Nat), Spec.Prepare.Each (fun t toks => ∃ s, t = some s ∧ Piece Stop s toks) ts tk →
    Piece Paren (Procedure.join ", ".toList (argTexts n ts)) (arguments (n + 1) tk)
  | [], _, n, h => by cases h; exact piece_nil.weaken fun _ _ => trivial
  | [t], _, n, h => by
    cases h with
    | cons h1 h2 =>
      cases h2
      obtain ⟨s, rfl, hp⟩ := h1
      exact (arg_piece n hp).weaken fun r ⟨r', hr⟩ => ⟨')', r', hr, .inr rfl⟩
  | t :: u :: ts, _, n, h => by
    cases h with
    | cons h1 h2 =>
      have ih := args_piece (u :: ts) _ (n + 1) h2
      cases h2 with
      | @cons _ b _ m h3 h4 =>
        obtain ⟨s, rfl, hp⟩ := h1
        have a := (arg_piece n hp).append (piece_sym (c := ',') (by decide) (by decide) (by decide)) (by intro r _; exact ⟨',', r, rfl, .inl rfl⟩)
        have b := (a.append piece_space fun _ _ => trivial).append ih fun _ _ => trivial
        have e : Procedure.join ", ".toList (argTexts n (some s :: u :: ts)) = argText n (some s) ++ [','] ++ [' '] ++ Procedure.join ", ".toList (argTexts (n + 1) (u :: ts)) := by
          show argText n (some s) ++ ", ".toList ++ Procedure.join ", ".toList (argText (n + 1) u :: argTexts (n + 1 + 1) ts) = _
          rw [show ", ".toList = [','] ++ [' '] by decide]
          simp [argTexts]
        rw [e]
        simpa [arguments] using b

theorem columns_piece : ∀ {ts : List Str} {cs : List (List Tok)}, Columns ts cs → Piece Paren (Procedure.join [','] ts) (commas cs) ∧ Tok.sym ';' ∉ commas cs
  | [], _, h => by cases h; exact ⟨piece_nil.weaken fun _ _ => trivial, by simp [commas]⟩
  | [t], _, h => by
    cases h with
    | cons h1 h2 h3 =>
      cases h3
      refine ⟨fun r hr l => ?_, h2⟩
      obtain ⟨r', rfl⟩ := hr
      exact h1 ')' (by simp) r' l
  | t :: u :: ts, _, h => by
    cases h with
    | @cons _ _ c _ h1 h2 h3 =>
      obtain ⟨ih, ih2⟩ := columns_piece h3
      cases h3 with
      | @cons _ _ d ds h4 h5 h6 =>
        have hc : Piece (fun r => ∃ r', r = ',' :: r') t c := fun r hr l => by obtain ⟨r', rfl⟩ := hr; exact h1 ',' (by simp) r' l
        have a := (hc.append (piece_sym (c := ',') (by decide) (by decide) (by decide)) (by intro r _; exact ⟨r, rfl⟩)).append ih fun _ _ => trivial
        refine ⟨by simpa [commas, Procedure.join] using a, ?_⟩
        simp only [commas, List.mem_append, List.mem_cons, not_or]
        exact ⟨h2, by simp, ih2⟩

theorem description_piece {ts : List Str} {cs : List (List Tok)} (h : Columns ts cs) : Piece (fun r => r = []) (" AS func".toList ++ descriptionText ts) (aliased cs) ∧ Tok.sym ';' ∉ aliased cs := by
  have a := piece_sp (w := "AS".toList) (by decide) rfl
  have b := piece_sp (w := "func".toList) (by decide) rfl
  have ab : Piece After " AS func".toList [kw "as", kw "func"] := a.append b fun _ _ => after_space _
  cases h with
  | nil =>
    refine ⟨?_, by simp [aliased, kw]⟩
    have := ab.weaken (ok' := fun r => r = []) fun r hr => by subst hr; exact after_nil
    simpa [descriptionText, aliased] using this
  | @cons t ts c cs h1 h2 h3 =>
    obtain ⟨p, q⟩ := columns_piece (Columns.cons h1 h2 h3)
    refine ⟨?_, by simp only [aliased]; simp [kw]; exact q⟩
    have a := ab.append (piece_sym (c := '(') (by decide) (by decide) (by decide)) (by intro r _; exact after_cons (by decide))
    have b := (a.append p fun _ _ => trivial).append (piece_sym (c := ')') (by decide) (by decide) (by decide)) (by intro r _; exact ⟨r, rfl⟩)
    have := b.weaken (ok' := fun r => r = []) fun _ _ => trivial
    simpa [descriptionText, aliased] using this

theorem semi_arguments : ∀ (tk : List (List Tok)) (n : Nat), (∀ t ∈ tk, Tok.sym ';' ∉ t) → Tok.sym ';' ∉ arguments n tk
  | [], _, _ => by simp [arguments]
  | [t], n, h => by have := h t (by simp); simp [arguments, argument, this]
  | t :: u :: l, n, h => by
    have h1 := h t (by simp)
    have := semi_arguments (u :: l) (n + 1) fun x hx => h x (by simp [List.mem_cons.mp hx])
    simp [arguments, argument, h1, this]

theorem text_reads {proid : Str} {fn : List Tok} {ts : List (Option Str)} {tk : List (List Tok)} {description : List Str} {cols : List (List Tok)} (hf : ReadsAs ['('] proid fn) (hf' : Tok.sym ';' ∉ fn)
    (ht : Spec.Prepare.Each (fun t toks => ∃ s, t = some s ∧ Piece Stop s toks) ts tk) (ht' : ∀ t ∈ tk, Tok.sym ';' ∉ t) (hd : Columns description cols) :
    Reads (procText proid ts description) [selects fn tk cols] := by
  obtain ⟨d1, d2⟩ := description_piece hd
  have k1 := piece_kw (w := "SELECT".toList) (by decide) (t := "select".toList) (by decide)
  have k2 := piece_sym (c := '*') (by decide) (by decide) (by decide)
  have k3 := piece_kw (w := "FROM".toList) (by decide) (t := "from".toList) (by decide)
  have kf : Piece (fun r => ∃ r', r = '(' :: r') proid fn := fun r hr l => by obtain ⟨r', rfl⟩ := hr; exact hf '(' (by simp) r' l
  have a := (((k1.append k2 fun _ _ => trivial).append piece_space fun _ _ => trivial).append k3 fun _ _ => trivial).append kf fun _ _ => trivial
  have b := (a.append (piece_sym (c := '(') (by decide) (by decide) (by decide)) fun r _ => ⟨r, rfl⟩).append (args_piece ts tk 0 ht) fun _ _ => trivial
  have c := (b.append (piece_sym (c := ')') (by decide) (by decide) (by decide)) fun r _ => ⟨r, rfl⟩).append d1 fun _ _ => trivial
  have hw : Whole (selects fn tk cols) := by
    refine ⟨by simp [selects], ?_⟩
    have := semi_arguments tk 1 ht'
    simp only [selects, List.mem_append, List.mem_cons, List.not_mem_nil, or_false, not_or]
    exact ⟨⟨⟨by simp [kw], by simp, by simp [kw]⟩, hf'⟩, by simp, this, by simp, d2⟩
  refine Piece.reads (ok := fun r => r = []) (ts := selects fn tk cols) ?_ rfl (statements_last hw)
  have e : procText proid ts description = "SELECT".toList ++ [' '] ++ ['*'] ++ [' '] ++ ("FROM".toList ++ [' ']) ++ proid ++ ['('] ++ Procedure.join ", ".toList (argTexts 0 ts) ++ [')'] ++ (" AS func".toList ++ descriptionText description) := by
    unfold procText
    rw [show "SELECT * FROM ".toList = "SELECT".toList ++ [' '] ++ ['*'] ++ [' '] ++ ("FROM".toList ++ [' ']) by decide, show ") AS func".toList = [')'] ++ " AS func".toList by decide]
    simp only [List.append_assoc, List.cons_append, List.nil_append]
  rw [e]
  simpa [selects, kw] using c

end PG.Props.Procedure
