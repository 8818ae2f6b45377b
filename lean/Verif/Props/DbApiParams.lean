import Verif.Model.DbApiParams
import Verif.Spec.DbApiParams
import Verif.Props.SqlSplit
/-! # Parameters of DB-API queries (C37) -/
namespace PG.DbApi
open PG PG.Spec.DbApi PG.Spec.PgString PG.PgString PG.Props.SqlSplit

/-! ## Finding the markers -/

def foundOf : Tok → Option Found
  | .marker => some .s
  | .named k => some (.key k)
  | _ => none

theorem keyAt_ok (k r : Str) (h : ')' ∉ k) : keyAt (k ++ ')' :: 's' :: r) = some (k, r) := by
  have h1 : (k ++ ')' :: 's' :: r).dropWhile (· ≠ ')') = ')' :: 's' :: r := by
    induction k with
    | nil => simp
    | cons a k ih =>
      have ha : a ≠ ')' := by rintro rfl; simp at h
      rw [List.cons_append, List.dropWhile_cons_of_pos (by simpa using ha), ih (by simp at h; exact h.2)]
  have h2 : (k ++ ')' :: 's' :: r).takeWhile (· ≠ ')') = k := by
    clear h1
    induction k with
    | nil => simp
    | cons a k ih =>
      have ha : a ≠ ')' := by rintro rfl; simp at h
      rw [List.cons_append, List.takeWhile_cons_of_pos (by simpa using ha), ih (by simp at h; exact h.2)]
  unfold keyAt
  rw [h1, h2]
  rfl

theorem findParams_source : ∀ (ts : List Tok) (fuel : Nat), (∀ t ∈ ts, t.Ok) → (source ts).length < fuel → findParams fuel (source ts) = ts.filterMap foundOf
  | [], fuel + 1, _, _ => by simp [source, findParams]
  | _, 0, _, h => by omega
  | t :: ts, fuel + 1, hok, hl => by
    have ht := hok t (by simp)
    have hrec : ∀ f, (source ts).length < f → findParams f (source ts) = ts.filterMap foundOf := fun f hf => findParams_source ts f (fun t' h' => hok t' (by simp [h'])) hf
    have hs : source (t :: ts) = t.source ++ source ts := by simp [source]
    rw [hs] at hl ⊢
    rw [List.length_append] at hl
    cases t with
    | chr c =>
      simp only [Tok.source, List.cons_append, List.nil_append, findParams]
      have ht' : c ≠ '%' := ht
      rw [if_pos ht', hrec fuel (by simp [Tok.source] at hl; omega)]
      rfl
    | percent =>
      simp only [Tok.source, List.cons_append, List.nil_append, findParams]
      rw [if_neg (by simp), hrec fuel (by simp [Tok.source] at hl; omega)]
      rfl
    | marker =>
      simp only [Tok.source, List.cons_append, List.nil_append, findParams]
      rw [if_neg (by simp), hrec fuel (by simp [Tok.source] at hl; omega)]
      rfl
    | named k =>
      simp only [Tok.source, List.cons_append, List.append_assoc, List.nil_append, findParams]
      rw [if_neg (by simp), keyAt_ok k _ ht.2]
      dsimp only
      rw [hrec fuel (by simp [Tok.source] at hl; omega)]
      rfl

/-! ## Formatting -/

theorem markers_cons (t : Tok) (ts : List Tok) : markers (t :: ts) = if t.isMarker then t :: markers ts else markers ts := by
  unfold markers
  rw [List.filter_cons]

theorem toks_chr {t : Tok} {s : Str} : (t.source ++ s).length = t.source.length + s.length := List.length_append

theorem formatTuple_named : ∀ (ts : List Tok) (a : List Str), (∀ t ∈ ts, t.Ok) → (∃ k, .named k ∈ ts) → formatTuple (source ts) a = .error .typeError
  | [], _, _, h => by simp at h
  | t :: ts, a, hok, h => by
    have ht := hok t (by simp)
    have hs : source (t :: ts) = t.source ++ source ts := by simp [source]
    rw [hs]
    have hrec : ∀ a, (∃ k, .named k ∈ ts) → formatTuple (source ts) a = .error .typeError := fun a h => formatTuple_named ts a (fun t' h' => hok t' (by simp [h'])) h
    cases t with
    | chr c =>
      simp only [Tok.source, List.cons_append, List.nil_append]
      rw [formatTuple.eq_def]
      dsimp only
      have ht' : c ≠ '%' := ht
      rw [if_pos ht', hrec a (by simpa using h)]
      rfl
    | percent =>
      simp only [Tok.source, List.cons_append, List.nil_append]
      rw [formatTuple.eq_def]
      dsimp only
      rw [if_neg (by simp)]
      show (do let r ← formatTuple (source ts) a; return '%' :: r) = _
      rw [hrec a (by simpa using h)]
      rfl
    | marker =>
      simp only [Tok.source, List.cons_append, List.nil_append]
      cases a with
      | nil => simp [formatTuple]
      | cons x a =>
        simp only [formatTuple]
        rw [if_neg (by simp), hrec a (by simpa using h)]
        rfl
    | named k =>
      simp only [Tok.source, List.cons_append, formatTuple]
      rw [if_neg (by simp)]

theorem formatTuple_ok : ∀ (ts : List Tok) (ns : List Nat), (∀ t ∈ ts, t.Ok) → (∀ k, .named k ∉ ts) → ns.length = (markers ts).length →
    formatTuple (source ts) (ns.map dollar) = .ok (refer ts ns)
  | [], ns, _, _, h => by
    have : ns = [] := by simpa [markers] using h
    subst this
    rfl
  | t :: ts, ns, hok, hn, hl => by
    have ht := hok t (by simp)
    have hs : source (t :: ts) = t.source ++ source ts := by simp [source]
    rw [hs]
    have hrec : ∀ ns, ns.length = (markers ts).length → formatTuple (source ts) (ns.map dollar) = .ok (refer ts ns) :=
      fun ns h => formatTuple_ok ts ns (fun t' h' => hok t' (by simp [h'])) (fun k h' => hn k (by simp [h'])) h
    cases t with
    | chr c =>
      simp only [Tok.source, List.cons_append, List.nil_append]
      rw [formatTuple.eq_def]
      dsimp only
      have ht' : c ≠ '%' := ht
      rw [if_pos ht', hrec ns (by simpa [markers_cons, Tok.isMarker] using hl)]
      rfl
    | percent =>
      simp only [Tok.source, List.cons_append, List.nil_append]
      rw [formatTuple.eq_def]
      dsimp only
      rw [if_neg (by simp)]
      show (do let r ← formatTuple (source ts) (ns.map dollar); return '%' :: r) = _
      rw [hrec ns (by simpa [markers_cons, Tok.isMarker] using hl)]
      rfl
    | marker =>
      simp only [Tok.source, List.cons_append, List.nil_append]
      cases ns with
      | nil => simp [markers_cons, Tok.isMarker] at hl
      | cons n ns =>
        simp only [formatTuple, List.map_cons]
        rw [if_neg (by simp), hrec ns (by simpa [markers_cons, Tok.isMarker] using hl)]
        rfl
    | named k => exact absurd (by simp) (hn k)

theorem nestedKey_ok (k r : Str) (h1 : '(' ∉ k) (h2 : ')' ∉ k) : nestedKey 0 (k ++ ')' :: r) = some (k, r) := by
  induction k with
  | nil => simp [nestedKey]
  | cons a k ih =>
    have ha : a ≠ ')' := by rintro rfl; simp at h2
    have hb : a ≠ '(' := by rintro rfl; simp at h1
    rw [List.cons_append, nestedKey, if_neg ha, if_neg hb, ih (by simp at h1; exact h1.2) (by simp at h2; exact h2.2)]
    rfl

theorem formatMap_ok (kmap : List (Str × Str)) (ix : Str → Nat) : ∀ (ts : List Tok) (fuel : Nat), (∀ t ∈ ts, t.Ok) → .marker ∉ ts →
    (∀ k, .named k ∈ ts → PyDict.get k kmap = some (dollar (ix k))) → (source ts).length < fuel →
    formatMap kmap fuel (source ts) = .ok (refer ts ((names ts).map ix))
  | [], fuel + 1, _, _, _, _ => rfl
  | _, 0, _, _, _, h => by omega
  | t :: ts, fuel + 1, hok, hn, hk, hl => by
    have ht := hok t (by simp)
    have hs : source (t :: ts) = t.source ++ source ts := by simp [source]
    rw [hs] at hl ⊢
    have hrec := fun f hf => formatMap_ok kmap ix ts f (fun t' h' => hok t' (by simp [h'])) (fun h' => hn (by simp [h'])) (fun k h' => hk k (by simp [h'])) hf
    cases t with
    | chr c =>
      simp only [Tok.source, List.cons_append, List.nil_append, formatMap]
      have ht' : c ≠ '%' := ht
      rw [if_pos ht', hrec fuel (by simp [Tok.source] at hl; omega)]
      rfl
    | percent =>
      simp only [Tok.source, List.cons_append, List.nil_append, formatMap]
      rw [if_neg (by simp), hrec fuel (by simp [Tok.source] at hl; omega)]
      rfl
    | marker => exact absurd (by simp) hn
    | named k =>
      simp only [Tok.source, List.cons_append, List.append_assoc, List.nil_append, formatMap]
      rw [if_neg (by simp), nestedKey_ok k _ ht.1 ht.2]
      dsimp only
      rw [hk k (by simp)]
      show (do let t ← formatMap kmap fuel (source ts); return dollar (ix k) ++ t) = _
      rw [hrec fuel (by simp [Tok.source] at hl; omega)]
      simp [names, refer, dollar, bind, Except.bind, pure, Except.pure]

/-! ## Collecting the keys -/

/-- The keys so far and their numbers. -/
structure KM (keys : List Str) (kmap : List (Str × Str)) : Prop where
  nodup : keys.Nodup
  num : ∀ k ∈ keys, PyDict.get k kmap = some (dollar (keys.idxOf k + 1))

theorem km_add {keys : List Str} {kmap : List (Str × Str)} (h : KM keys kmap) (k : Str) (hk : k ∉ keys) :
    KM (keys ++ [k]) (PyDict.set k (dollar (keys.length + 1)) kmap) := by
  refine ⟨?_, ?_⟩
  · rw [List.nodup_append]
    exact ⟨h.nodup, by simp, by rintro a ha b hb rfl; simp at hb; subst hb; exact hk ha⟩
  · intro k' hm
    rw [PyDict.get_set]
    by_cases he : k = k'
    · subst he
      rw [if_pos rfl, List.idxOf_append, if_neg hk]
      simp
    · rw [if_neg he]
      have hm' : k' ∈ keys := by
        rcases List.mem_append.mp hm with h | h
        · exact h
        · simp at h; exact absurd h.symm he
      rw [List.idxOf_append, if_pos hm']
      exact h.num k' hm'

theorem collect_spec : ∀ (ts : List Tok) (p : Nat) (keys : List Str) (kmap : List (Str × Str)), KM keys kmap →
    let c := collect (ts.filterMap foundOf) p keys kmap
    c.1 = p + ts.count .marker ∧ keys <+: c.2.1 ∧ (∀ k, k ∈ c.2.1 ↔ k ∈ keys ∨ .named k ∈ ts) ∧ KM c.2.1 c.2.2
  | [], p, keys, kmap, h => by simpa [collect] using h
  | t :: ts, p, keys, kmap, h => by
    cases t with
    | chr c => have := collect_spec ts p keys kmap h; simpa [List.filterMap_cons, foundOf] using this
    | percent => have := collect_spec ts p keys kmap h; simpa [List.filterMap_cons, foundOf] using this
    | marker =>
      have := collect_spec ts (p + 1) keys kmap h
      simp only [List.filterMap_cons, foundOf, collect] at this ⊢
      refine ⟨by rw [this.1, List.count_cons_self]; omega, this.2.1, ?_, this.2.2.2⟩
      intro k
      rw [this.2.2.1]
      simp
    | named k =>
      simp only [List.filterMap_cons, foundOf, collect]
      by_cases hk : k ∈ keys
      · rw [if_pos hk]
        have := collect_spec ts p keys kmap h
        dsimp only at this
        refine ⟨by rw [this.1]; simp, this.2.1, ?_, this.2.2.2⟩
        intro k'
        rw [this.2.2.1, List.mem_cons, Tok.named.injEq]
        constructor
        · rintro (h | h)
          · exact .inl h
          · exact .inr (.inr h)
        · rintro (h | h | h)
          · exact .inl h
          · exact .inl (h ▸ hk)
          · exact .inr h
      · rw [if_neg hk]
        have := collect_spec ts p (keys ++ [k]) _ (km_add h k hk)
        dsimp only at this
        refine ⟨by rw [this.1]; simp, (List.prefix_append keys [k]).trans this.2.1, ?_, this.2.2.2⟩
        intro k'
        rw [this.2.2.1, List.mem_cons, Tok.named.injEq, List.mem_append, List.mem_singleton]
        constructor
        · rintro ((h | h) | h)
          · exact .inl h
          · exact .inr (.inl h)
          · exact .inr (.inr h)
        · rintro (h | h | h)
          · exact .inl (.inl h)
          · exact .inl (.inr h)
          · exact .inr h

theorem collect_plain : ∀ (ts : List Tok) (p : Nat) (keys : List Str) (kmap : List (Str × Str)), (∀ k, .named k ∉ ts) →
    collect (ts.filterMap foundOf) p keys kmap = (p + ts.count .marker, keys, kmap)
  | [], p, keys, kmap, _ => by simp [collect]
  | t :: ts, p, keys, kmap, h => by
    have hr := fun p => collect_plain ts p keys kmap (fun k hk => h k (by simp [hk]))
    cases t with
    | chr c => simpa [List.filterMap_cons, foundOf] using hr p
    | percent => simpa [List.filterMap_cons, foundOf] using hr p
    | marker =>
      simp only [List.filterMap_cons, foundOf, collect]
      rw [hr, List.count_cons_self, show p + 1 + ts.count .marker = p + (ts.count .marker + 1) by omega]
    | named k => exact absurd (by simp) (h k)

/-! ## Parts -/

theorem markers_named {ts : List Tok} (h : .marker ∉ ts) : markers ts = (names ts).map .named := by
  induction ts with
  | nil => rfl
  | cons t ts ih =>
    have ih := ih (fun h' => h (by simp [h']))
    unfold markers names at ih ⊢
    cases t with
    | chr c => simpa [Tok.isMarker] using ih
    | percent => simpa [Tok.isMarker] using ih
    | marker => exact absurd (by simp) h
    | named k => rw [List.filter_cons_of_pos rfl, ih]; rfl

theorem markers_marker {ts : List Tok} (h : ∀ k, .named k ∉ ts) : markers ts = List.replicate (ts.count .marker) .marker := by
  induction ts with
  | nil => rfl
  | cons t ts ih =>
    have ih := ih (fun k h' => h k (by simp [h']))
    unfold markers at ih ⊢
    cases t with
    | chr c => simpa [Tok.isMarker] using ih
    | percent => simpa [Tok.isMarker] using ih
    | marker => rw [List.filter_cons_of_pos rfl, ih, List.count_cons_self]; rfl
    | named k => exact absurd (by simp) (h k)

theorem mem_names {k : Str} {ts : List Tok} : k ∈ names ts ↔ .named k ∈ ts := by
  unfold names
  rw [List.mem_filterMap]
  constructor
  · rintro ⟨t, ht, h⟩
    cases t <;> simp_all
  · intro h
    exact ⟨_, h, rfl⟩

theorem found_nil {ts : List Tok} : ts.filterMap foundOf = [] ↔ markers ts = [] := by
  unfold markers
  rw [List.filterMap_eq_nil_iff, List.filter_eq_nil_iff]
  constructor <;> intro h t ht <;> have := h t ht <;> cases t <;> simp_all [foundOf, Tok.isMarker]

theorem convPart_markers (st : Conv) (ts : List Tok) (hok : ∀ t ∈ ts, t.Ok) (hm : .marker ∈ ts) (hn : ∀ k, .named k ∉ ts) :
    convPart st (source ts) = .ok (converted ts (List.range' (st.count + 1) (markers ts).length), ⟨st.count + (markers ts).length, st.keys, st.kmap⟩) := by
  have hf := findParams_source ts ((source ts).length + 1) hok (by omega)
  have hlen : (markers ts).length = ts.count .marker := by rw [markers_marker hn]; simp
  have hpos : 0 < ts.count .marker := List.count_pos_iff.mpr hm
  have hne : markers ts ≠ [] := by intro h; rw [h] at hlen; simp at hlen; omega
  unfold convPart
  dsimp only
  rw [hf, if_pos (fun h => hne (found_nil.mp h)), collect_plain ts 0 st.keys st.kmap hn]
  dsimp only
  rw [if_pos (by omega), Nat.zero_add]
  have he : ((List.range (ts.count .marker)).map fun i => dollar (st.count + i + 1)) = (List.range' (st.count + 1) (ts.count .marker)).map dollar := by
    rw [List.range'_eq_map_range, List.map_map]
    apply List.map_congr_left
    intro i _
    simp only [Function.comp]
    congr 1
    omega
  rw [he, formatTuple_ok ts _ hok hn (by rw [List.length_range', hlen]), ← hlen]
  unfold converted
  rw [if_neg hne]
  rfl

theorem convPart_named (st : Conv) (ts : List Tok) (hok : ∀ t ∈ ts, t.Ok) (hm : .marker ∉ ts) (hk : KM st.keys st.kmap) :
    ∃ keys kmap, convPart st (source ts) = .ok (converted ts ((names ts).map fun k => keys.idxOf k + 1), ⟨st.count, keys, kmap⟩) ∧ KM keys kmap ∧ st.keys <+: keys ∧
      ∀ k, k ∈ keys ↔ k ∈ st.keys ∨ .named k ∈ ts := by
  have hf := findParams_source ts ((source ts).length + 1) hok (by omega)
  have hc := collect_spec ts 0 st.keys st.kmap hk
  dsimp only at hc
  obtain ⟨h1, h2, h3, h4⟩ := hc
  refine ⟨_, _, ?_, h4, h2, h3⟩
  unfold convPart
  dsimp only
  rw [hf]
  unfold converted
  by_cases hne : markers ts = []
  · rw [if_neg (by simpa using found_nil.mpr hne), if_pos hne]
  · rw [if_pos (fun h => hne (found_nil.mp h)), if_neg hne]
    rw [if_neg (by rw [h1, List.count_eq_zero.mpr hm]; simp)]
    rw [formatMap_ok _ (fun k => (collect (ts.filterMap foundOf) 0 st.keys st.kmap).2.1.idxOf k + 1) ts _ hok hm (fun k hk' => h4.num k ((h3 k).mpr (.inr hk'))) (by omega)]
    rfl

theorem convPart_mixed (st : Conv) (ts : List Tok) (hok : ∀ t ∈ ts, t.Ok) (hm : .marker ∈ ts) (hn : ∃ k, .named k ∈ ts) (hk : KM st.keys st.kmap) :
    convPart st (source ts) = .error .typeError := by
  have hf := findParams_source ts ((source ts).length + 1) hok (by omega)
  have hc := collect_spec ts 0 st.keys st.kmap hk
  dsimp only at hc
  have hne : markers ts ≠ [] := by
    unfold markers
    rw [Ne, List.filter_eq_nil_iff]
    intro h
    exact h .marker hm rfl
  have hpos : 0 < ts.count .marker := List.count_pos_iff.mpr hm
  unfold convPart
  dsimp only
  rw [hf, if_pos (fun h => hne (found_nil.mp h)), if_pos (by omega), formatTuple_named ts _ hok hn]
  rfl

/-! ## Queries -/

theorem refer_take : ∀ (ts : List Tok) (a b : List Nat), a.length = (markers ts).length → refer ts (a ++ b) = refer ts a
  | [], a, b, _ => rfl
  | t :: ts, a, b, h => by
    rw [markers_cons] at h
    cases t with
    | chr c => simp only [refer]; rw [refer_take ts a b (by simpa [Tok.isMarker] using h)]
    | percent => simp only [refer]; rw [refer_take ts a b (by simpa [Tok.isMarker] using h)]
    | marker =>
      cases a with
      | nil => simp [Tok.isMarker] at h
      | cons n a => simp only [List.cons_append, refer]; rw [refer_take ts a b (by simpa [Tok.isMarker] using h)]
    | named k =>
      cases a with
      | nil => simp [Tok.isMarker] at h
      | cons n a => simp only [List.cons_append, refer]; rw [refer_take ts a b (by simpa [Tok.isMarker] using h)]

theorem converted_take (ts : List Tok) (a b : List Nat) (h : a.length = (markers ts).length) : converted ts (a ++ b) = converted ts a := by
  unfold converted
  rw [refer_take ts a b h]

theorem unsplitLoop_parts : ∀ (l : List (Quotation × Str)) (p e : Str), unsplitLoop e (parts p l) = .ok (e ++ script p l)
  | [], p, e => by simp [parts, script, unsplitLoop]
  | (t, p') :: l, p, e => by
    have he : endq t.opening = t.closing := by
      cases t with
      | lit c => rfl
      | ident c => rfl
      | estr c => rfl
      | dollar n c => unfold endq; rw [if_neg (by simp [Quotation.opening])]; rfl
    simp only [parts, unsplitLoop]
    rw [he, unsplitLoop_parts l p' t.closing]
    simp [script, bind, Except.bind, pure, Except.pure]

theorem parts_ne (p : Str) (l : List (Quotation × Str)) : parts p l ≠ [] := by cases l <;> simp [parts]

/-- The source of the parts after the first. -/
def restSource (l : List (Quotation × List Tok)) : List (Quotation × Str) := l.map fun x => (x.1, source x.2)

/-- The number of markers in them. -/
def restCount (l : List (Quotation × List Tok)) : Nat := ((l.map fun x => markers x.2).flatten).length

theorem convParts_markers (keys : List Str) (kmap : List (Str × Str)) : ∀ (l : List (Quotation × List Tok)) (ts : List Tok) (n : Nat),
    (∀ t ∈ ts, t.Ok) → (∀ k, .named k ∉ ts) → (∀ x ∈ l, (∀ t ∈ x.2, t.Ok) ∧ ∀ k, .named k ∉ x.2) →
    convParts ⟨n, keys, kmap⟩ (parts (source ts) (restSource l)) =
      .ok (parts (converted ts (List.range' (n + 1) (markers ts).length)) (convertedRest l (List.range' (n + 1 + (markers ts).length) (restCount l))),
        ⟨n + (markers ts).length + restCount l, keys, kmap⟩) := by
  have hone : ∀ (ts : List Tok) (n : Nat), (∀ t ∈ ts, t.Ok) → (∀ k, .named k ∉ ts) →
      convPart ⟨n, keys, kmap⟩ (source ts) = .ok (converted ts (List.range' (n + 1) (markers ts).length), ⟨n + (markers ts).length, keys, kmap⟩) := by
    intro ts n hok hn
    by_cases hm : .marker ∈ ts
    · exact convPart_markers ⟨n, keys, kmap⟩ ts hok hm hn
    · have h0 : markers ts = [] := by rw [markers_marker hn, List.count_eq_zero.mpr hm]; rfl
      have hf := findParams_source ts ((source ts).length + 1) hok (by omega)
      unfold convPart
      dsimp only
      rw [hf, if_neg (by simpa using found_nil.mpr h0), collect_plain ts 0 keys kmap hn, h0]
      unfold converted
      rw [if_pos h0]
      rfl
  intro l
  induction l with
  | nil =>
    intro ts n hok hn _
    simp only [restSource, List.map_nil, parts, convParts, bind, Except.bind, pure, Except.pure]
    rw [hone ts n hok hn]
    simp [restCount, convertedRest, parts]
  | cons x l ih =>
    intro ts n hok hn hl
    obtain ⟨t, ts'⟩ := x
    have hx := hl (t, ts') (by simp)
    have := ih ts' (n + (markers ts).length) hx.1 hx.2 (fun y hy => hl y (by simp [hy]))
    simp only [restSource, List.map_cons, parts, convParts, bind, Except.bind, pure, Except.pure] at this ⊢
    rw [hone ts n hok hn]
    dsimp only
    rw [this]
    have hc : restCount ((t, ts') :: l) = (markers ts').length + restCount l := by simp [restCount]
    have hr : List.range' (n + 1 + (markers ts).length) (restCount ((t, ts') :: l)) =
        List.range' (n + 1 + (markers ts).length) (markers ts').length ++ List.range' (n + 1 + (markers ts).length + (markers ts').length) (restCount l) := by
      rw [hc, ← List.range'_append_1]
    simp only [convertedRest, parts]
    rw [hr, converted_take ts' _ _ (by simp), List.drop_left' (by simp), hc]
    rw [show n + 1 + (markers ts).length = n + (markers ts).length + 1 by omega]
    rw [show n + (markers ts).length + (markers ts').length + restCount l = n + (markers ts).length + ((markers ts').length + restCount l) by omega]

theorem idxOf_prefix {a b : List Str} (h : a <+: b) {k : Str} (hk : k ∈ a) : b.idxOf k = a.idxOf k := by
  obtain ⟨c, rfl⟩ := h
  rw [List.idxOf_append, if_pos hk]

/-- The names in the parts after the first. -/
def restNames (l : List (Quotation × List Tok)) : List Str := (l.map fun x => names x.2).flatten

theorem names_length {ts : List Tok} (h : .marker ∉ ts) : (names ts).length = (markers ts).length := by rw [markers_named h, List.length_map]

theorem convParts_named : ∀ (l : List (Quotation × List Tok)) (ts : List Tok) (st : Conv), (∀ t ∈ ts, t.Ok) → .marker ∉ ts →
    (∀ x ∈ l, (∀ t ∈ x.2, t.Ok) ∧ .marker ∉ x.2) → KM st.keys st.kmap →
    ∃ keys kmap, KM keys kmap ∧ st.keys <+: keys ∧ (∀ k, k ∈ keys ↔ k ∈ st.keys ∨ k ∈ names ts ∨ k ∈ restNames l) ∧
      convParts st (parts (source ts) (restSource l)) =
        .ok (parts (converted ts ((names ts).map fun k => keys.idxOf k + 1)) (convertedRest l ((restNames l).map fun k => keys.idxOf k + 1)), ⟨st.count, keys, kmap⟩)
  | [], ts, st, hok, hm, _, hk => by
    obtain ⟨keys, kmap, h1, h2, h3, h4⟩ := convPart_named st ts hok hm hk
    refine ⟨keys, kmap, h2, h3, ?_, ?_⟩
    · intro k; rw [h4, mem_names]; simp [restNames]
    · simp only [restSource, List.map_nil, parts, convParts, bind, Except.bind, pure, Except.pure]
      rw [h1]
      rfl
  | (t, ts') :: l, ts, st, hok, hm, hl, hk => by
    obtain ⟨keys1, kmap1, h1, h2, h3, h4⟩ := convPart_named st ts hok hm hk
    have hx := hl (t, ts') (by simp)
    obtain ⟨keys, kmap, g1, g2, g3, g4⟩ := convParts_named l ts' ⟨st.count, keys1, kmap1⟩ hx.1 hx.2 (fun y hy => hl y (by simp [hy])) h2
    dsimp only at g2 g3 g4
    refine ⟨keys, kmap, g1, h3.trans g2, ?_, ?_⟩
    · intro k
      rw [g3, h4, ← mem_names]
      simp only [restNames, List.map_cons, List.flatten_cons, List.mem_append]
      constructor
      · rintro ((h | h) | h | h)
        · exact .inl h
        · exact .inr (.inl h)
        · exact .inr (.inr (.inl h))
        · exact .inr (.inr (.inr h))
      · rintro (h | h | h | h)
        · exact .inl (.inl h)
        · exact .inl (.inr h)
        · exact .inr (.inl h)
        · exact .inr (.inr h)
    · simp only [restSource, List.map_cons, parts, convParts, bind, Except.bind, pure, Except.pure] at g4 ⊢
      rw [h1]
      dsimp only
      rw [g4]
      have he : (names ts).map (fun k => keys1.idxOf k + 1) = (names ts).map (fun k => keys.idxOf k + 1) := by
        apply List.map_congr_left
        intro k hk'
        rw [idxOf_prefix g2 ((h4 k).mpr (.inr (mem_names.mp hk')))]
      have hr : (restNames ((t, ts') :: l)).map (fun k => keys.idxOf k + 1) = (names ts').map (fun k => keys.idxOf k + 1) ++ (restNames l).map (fun k => keys.idxOf k + 1) := by
        simp [restNames]
      simp only [convertedRest, parts]
      rw [hr, converted_take ts' _ _ (by rw [List.length_map, names_length hx.2]), List.drop_left' (by rw [List.length_map, names_length hx.2]), he]

theorem convParts_mixed : ∀ (l : List (Quotation × List Tok)) (ts : List Tok) (st : Conv), (∀ t ∈ ts, t.Ok) → (∀ x ∈ l, ∀ t ∈ x.2, t.Ok) → KM st.keys st.kmap →
    convParts st (parts (source ts) (restSource l)) = .error .typeError ∨
    ∃ items st', convParts st (parts (source ts) (restSource l)) = .ok (items, st') ∧
      (st.count ≠ 0 ∨ .marker ∈ ts ∨ (∃ x ∈ l, .marker ∈ x.2) → st'.count ≠ 0) ∧
      (st.keys ≠ [] ∨ (∃ k, .named k ∈ ts) ∨ (∃ x ∈ l, ∃ k, .named k ∈ x.2) → st'.keys ≠ []) := by
  have hone : ∀ (ts : List Tok) (st : Conv), (∀ t ∈ ts, t.Ok) → KM st.keys st.kmap → convPart st (source ts) = .error .typeError ∨
      ∃ t st', convPart st (source ts) = .ok (t, st') ∧ KM st'.keys st'.kmap ∧ (st.count ≠ 0 ∨ .marker ∈ ts → st'.count ≠ 0) ∧ (st.keys ≠ [] ∨ (∃ k, .named k ∈ ts) → st'.keys ≠ []) := by
    intro ts st hok hk
    by_cases hm : .marker ∈ ts
    · by_cases hn : ∃ k, .named k ∈ ts
      · exact .inl (convPart_mixed st ts hok hm hn hk)
      · refine .inr ⟨_, _, convPart_markers st ts hok hm (fun k h => hn ⟨k, h⟩), hk, ?_, ?_⟩
        · intro _
          have : 0 < (markers ts).length := List.length_pos_iff.mpr (fun h => by
            unfold markers at h
            rw [List.filter_eq_nil_iff] at h
            exact h .marker hm rfl)
          dsimp only
          omega
        · rintro (h | h)
          · exact h
          · exact absurd h hn
    · obtain ⟨keys, kmap, h1, h2, h3, h4⟩ := convPart_named st ts hok hm hk
      refine .inr ⟨_, _, h1, h2, ?_, ?_⟩
      · rintro (h | h)
        · exact h
        · exact absurd h hm
      · rintro (h | ⟨k, h⟩) he
        · dsimp only at he
          rw [he] at h3
          exact h (List.prefix_nil.mp h3)
        · have := (h4 k).mpr (.inr h)
          dsimp only at he
          rw [he] at this
          simp at this
  intro l
  induction l with
  | nil =>
    intro ts st hok _ hk
    rcases hone ts st hok hk with h | ⟨t, st', h, h1, h2, h3⟩
    · left
      simp only [restSource, List.map_nil, parts, convParts, bind, Except.bind]
      rw [h]
    · right
      refine ⟨[.text t], st', ?_, by simpa using h2, by simpa using h3⟩
      simp only [restSource, List.map_nil, parts, convParts, bind, Except.bind, pure, Except.pure]
      rw [h]
  | cons x l ih =>
    intro ts st hok hl hk
    obtain ⟨t, ts'⟩ := x
    rcases hone ts st hok hk with h | ⟨u, st', h, h1, h2, h3⟩
    · left
      simp only [restSource, List.map_cons, parts, convParts, bind, Except.bind]
      rw [h]
    · rcases ih ts' st' (hl (t, ts') (by simp)) (fun y hy => hl y (by simp [hy])) h1 with g | ⟨items, st'', g, g1, g2⟩
      · left
        simp only [restSource, List.map_cons, parts, convParts, bind, Except.bind] at g ⊢
        rw [h]
        dsimp only
        rw [g]
      · right
        refine ⟨.text u :: .quoted t.opening t.content :: items, st'', ?_, ?_, ?_⟩
        · simp only [restSource, List.map_cons, parts, convParts, bind, Except.bind, pure, Except.pure] at g ⊢
          rw [h]
          dsimp only
          rw [g]
        · intro hh
          apply g1
          rcases hh with hh | hh | ⟨x, hx, hh⟩
          · exact .inl (h2 (.inl hh))
          · exact .inl (h2 (.inr hh))
          · rcases List.mem_cons.mp hx with rfl | hx
            · exact .inr (.inl hh)
            · exact .inr (.inr ⟨x, hx, hh⟩)
        · intro hh
          apply g2
          rcases hh with hh | hh | ⟨x, hx, hh⟩
          · exact .inl (h3 (.inl hh))
          · exact .inl (h3 (.inr hh))
          · rcases List.mem_cons.mp hx with rfl | hx
            · exact .inr (.inl hh)
            · exact .inr (.inr ⟨x, hx, hh⟩)

/-! ## The property -/

theorem mem_texts {q : Query} {ts : List Tok} : ts ∈ q.texts ↔ ts = q.first ∨ ∃ x ∈ q.rest, x.2 = ts := by
  unfold Query.texts
  rw [List.mem_cons, List.mem_map]

theorem marker_in {q : Query} {t : Tok} : t ∈ q.markers ↔ t.isMarker = true ∧ ∃ ts ∈ q.texts, t ∈ ts := by
  unfold Query.markers
  rw [List.mem_flatten]
  constructor
  · rintro ⟨l, hl, ht⟩
    obtain ⟨ts, hts, rfl⟩ := List.mem_map.mp hl
    unfold markers at ht
    rw [List.mem_filter] at ht
    exact ⟨ht.2, ts, hts, ht.1⟩
  · rintro ⟨h, ts, hts, ht⟩
    exact ⟨_, List.mem_map.mpr ⟨ts, hts, rfl⟩, by unfold markers; rw [List.mem_filter]; exact ⟨ht, h⟩⟩

theorem markers_count (q : Query) : q.markers.length = (markers q.first).length + restCount q.rest := by
  unfold Query.markers Query.texts restCount
  simp [List.map_map, Function.comp_def]

theorem convertQuery_of (U : Unicode) (q : Query) (hq : q.Ok U.isWord) : PgString.split U q.source = parts (source q.first) (restSource q.rest) :=
  C29_quotations U _ _ hq.2

theorem exec_ok {α : Type} {U : Unicode} {s sql : Str} {tr : Transformer} {n : Nat} {p : Params α} {args : List α} (h : convertQuery U s = .ok (sql, tr, n))
    (hl : p.len = n) (ht : transform tr p = .ok args) : executeArgs U s p = .ok (sql, args) := by
  unfold executeArgs
  rw [h]
  simp only [bind, Except.bind, pure, Except.pure]
  rw [if_neg (fun g => g hl), ht]

theorem exec_len {α : Type} {U : Unicode} {s sql : Str} {tr : Transformer} {n : Nat} {p : Params α} (h : convertQuery U s = .ok (sql, tr, n))
    (hl : p.len ≠ n) : executeArgs U s p = .error .typeError := by
  unfold executeArgs
  rw [h]
  simp only [bind, Except.bind]
  rw [if_pos hl]

theorem positional_query (U : Unicode) (q : Query) (hq : q.Ok U.isWord) (hm : ∀ t ∈ q.markers, t = .marker) :
    convertQuery U q.source = .ok (q.converted (List.range' 1 q.markers.length), .tuple, q.markers.length) := by
  have hn : ∀ ts ∈ q.texts, ∀ k, .named k ∉ ts := by
    intro ts hts k hk
    have := hm (.named k) (marker_in.mpr ⟨rfl, ts, hts, hk⟩)
    simp at this
  have hp := convParts_markers [] [] q.rest q.first 0 (hq.1 _ (mem_texts.mpr (.inl rfl))) (hn _ (mem_texts.mpr (.inl rfl)))
    (fun x hx => ⟨hq.1 _ (mem_texts.mpr (.inr ⟨x, hx, rfl⟩)), hn _ (mem_texts.mpr (.inr ⟨x, hx, rfl⟩))⟩)
  · unfold convertQuery
    rw [convertQuery_of U q hq, hp]
    simp only [bind, Except.bind, pure, Except.pure, ne_eq, not_true_eq_false, if_false]
    rw [if_pos (parts_ne _ _)]
    unfold unsplit
    rw [unsplitLoop_parts]
    dsimp only
    have hr : List.range' 1 q.markers.length = List.range' 1 (markers q.first).length ++ List.range' (1 + (markers q.first).length) (restCount q.rest) := by
      rw [markers_count, ← List.range'_append_1]
    unfold Query.converted
    rw [hr, converted_take _ _ _ (by simp), List.drop_left' (by simp), markers_count]
    simp

/-- **C37 (positional markers).** A query whose markers are all `%s` is executed with its markers replaced by `$1`, `$2`, ... in turn and with the
arguments as they are given, when there are as many arguments as markers; otherwise it is refused. Quotations stay as they are. -/
theorem C37_positional {α : Type} (U : Unicode) (q : Query) (hq : q.Ok U.isWord) (hm : ∀ t ∈ q.markers, t = .marker) (args : List α) :
    executeArgs U q.source (.seq args) =
      if args.length = q.markers.length then .ok (q.converted (List.range' 1 args.length), args) else .error .typeError := by
  have hc := positional_query U q hq hm
  by_cases h : args.length = q.markers.length
  · rw [if_pos h, exec_ok (p := .seq args) hc h rfl, h]
  · rw [if_neg h, exec_len (p := .seq args) hc h]

/-- No arguments may also be an empty mapping. -/
theorem C37_empty_mapping {α : Type} (U : Unicode) (q : Query) (hq : q.Ok U.isWord) (hm : ∀ t ∈ q.markers, t = .marker) :
    executeArgs U q.source (.map ([] : List (Str × α))) = executeArgs U q.source (.seq []) ∧ (q.markers = [] → executeArgs U q.source (.map ([] : List (Str × α))) = .ok (q.converted [], [])) := by
  have hc := positional_query U q hq hm
  constructor
  · by_cases h : 0 = q.markers.length
    · rw [exec_ok (p := .map ([] : List (Str × α))) hc h rfl, exec_ok (p := .seq ([] : List α)) hc h rfl]
    · rw [exec_len (p := .map ([] : List (Str × α))) hc h, exec_len (p := .seq ([] : List α)) hc h]
  · intro h
    rw [exec_ok (p := .map ([] : List (Str × α))) hc (by rw [h]; rfl) rfl, h]
    rfl

theorem mapM_keys {α : Type} (d : List (Str × α)) : ∀ keys : List Str, (∀ k ∈ keys, ∃ v, PyDict.get k d = some v) →
    ∃ args : List α, transform (.keywords keys) (.map d) = .ok args ∧ args.length = keys.length ∧ ∀ (i : Nat) (k : Str), keys[i]? = some k → args[i]? = PyDict.get k d
  | [], _ => ⟨[], rfl, rfl, fun i k h => by simp at h⟩
  | k :: keys, h => by
    obtain ⟨v, hv⟩ := h k (by simp)
    obtain ⟨args, h1, h2, h3⟩ := mapM_keys d keys (fun k' hk' => h k' (by simp [hk']))
    refine ⟨v :: args, ?_, by simp [h2], ?_⟩
    · unfold transform at h1 ⊢
      dsimp only at h1 ⊢
      rw [List.mapM_cons, hv]
      simp only [bind, Except.bind, pure, Except.pure] at h1 ⊢
      rw [h1]
    · intro i k' hk'
      cases i with
      | zero =>
        simp at hk'
        subst hk'
        simp [hv]
      | succ i =>
        simp at hk' ⊢
        exact h3 i k' hk'

theorem named_query (U : Unicode) (q : Query) (hq : q.Ok U.isWord) (hm : .marker ∉ q.markers) (hne : q.markers ≠ []) :
    ∃ keys : List Str, keys.Nodup ∧ (∀ k, k ∈ keys ↔ .named k ∈ q.markers) ∧ q.markers = (names q.first ++ restNames q.rest).map .named ∧
      convertQuery U q.source = .ok (q.converted ((names q.first ++ restNames q.rest).map fun k => keys.idxOf k + 1), .keywords keys, keys.length) := by
  have hn : ∀ ts ∈ q.texts, .marker ∉ ts := fun ts hts hk => hm (marker_in.mpr ⟨rfl, ts, hts, hk⟩)
  have hf := hn _ (mem_texts.mpr (.inl rfl))
  have hmk : q.markers = (names q.first ++ restNames q.rest).map .named := by
    unfold Query.markers Query.texts restNames
    rw [List.map_cons, List.flatten_cons, markers_named hf, List.map_append, List.map_flatten, List.map_map, List.map_map]
    congr 2
    apply List.map_congr_left
    intro x hx
    exact markers_named (hn _ (mem_texts.mpr (.inr ⟨x, hx, rfl⟩)))
  obtain ⟨keys, kmap, h1, h2, h3, h4⟩ := convParts_named q.rest q.first ⟨0, [], []⟩ (hq.1 _ (mem_texts.mpr (.inl rfl))) hf
    (fun x hx => ⟨hq.1 _ (mem_texts.mpr (.inr ⟨x, hx, rfl⟩)), hn _ (mem_texts.mpr (.inr ⟨x, hx, rfl⟩))⟩) ⟨by simp, by simp⟩
  have hk : ∀ k, k ∈ keys ↔ .named k ∈ q.markers := by
    intro k
    rw [h3, hmk]
    simp
  refine ⟨keys, h1.nodup, hk, hmk, ?_⟩
  have hkne : keys ≠ [] := by
    intro he
    rw [hmk] at hne
    cases hl : names q.first ++ restNames q.rest with
    | nil => rw [hl] at hne; exact hne rfl
    | cons a l =>
      have : a ∈ keys := (hk a).mpr (by rw [hmk, hl]; simp)
      rw [he] at this
      simp at this
  unfold convertQuery
  rw [convertQuery_of U q hq, h4]
  simp only [bind, Except.bind, pure, Except.pure]
  rw [if_pos hkne, if_neg (by simp)]
  dsimp only
  rw [if_pos (parts_ne _ _)]
  unfold unsplit
  rw [unsplitLoop_parts]
  unfold Query.converted
  rw [List.map_append, converted_take _ _ _ (by rw [List.length_map, names_length hf]), List.drop_left' (by rw [List.length_map, names_length hf])]
  rfl

theorem length_same {a b : List Str} (ha : a.Nodup) (hb : b.Nodup) (h : ∀ k, k ∈ a ↔ k ∈ b) : a.length = b.length :=
  ((List.perm_ext_iff_of_nodup ha hb).mpr (fun k => h k)).length_eq

/-- **C37 (named markers).** A query whose markers are all of the form `%(name)s`, with a mapping that has exactly the names for keys, is executed with a
reference in the place of every marker; the argument at that reference is the value of the name. There are as many arguments as names. -/
theorem C37_named {α : Type} (U : Unicode) (q : Query) (hq : q.Ok U.isWord) (hm : .marker ∉ q.markers) (hne : q.markers ≠ [])
    (d : List (Str × α)) (hd : (d.map Prod.fst).Nodup) (hk : ∀ k, k ∈ d.map Prod.fst ↔ .named k ∈ q.markers) :
    ∃ (refs : List Nat) (args : List α), executeArgs U q.source (.map d) = .ok (q.converted refs, args) ∧ refs.length = q.markers.length ∧ args.length = d.length ∧
      ∀ (j : Nat) (k : Str), q.markers[j]? = some (.named k) → ∃ n v, refs[j]? = some (n + 1) ∧ args[n]? = some v ∧ PyDict.get k d = some v := by
  obtain ⟨keys, h1, h2, h3, h4⟩ := named_query U q hq hm hne
  have hlen : d.length = keys.length := by
    rw [← List.length_map (f := Prod.fst)]
    exact length_same hd h1 (fun k => by rw [hk, h2])
  have hget : ∀ k ∈ keys, ∃ v, PyDict.get k d = some v := by
    intro k hkk
    have := (hk k).mpr ((h2 k).mp hkk)
    obtain ⟨e, he, rfl⟩ := List.mem_map.mp this
    cases hg : PyDict.get e.1 d with
    | some v => exact ⟨v, rfl⟩
    | none =>
      unfold PyDict.get at hg
      simp only [Option.map_eq_none_iff, List.find?_eq_none] at hg
      have := hg e he
      simp at this
  obtain ⟨args, g1, g2, g3⟩ := mapM_keys d keys hget
  refine ⟨(names q.first ++ restNames q.rest).map fun k => keys.idxOf k + 1, args, ?_, ?_, by rw [g2, hlen], ?_⟩
  · exact exec_ok h4 hlen g1
  · rw [h3, List.length_map, List.length_map]
  · intro j k hj
    rw [h3, List.getElem?_map] at hj
    obtain ⟨k', hk', he⟩ := Option.map_eq_some_iff.mp hj
    injection he with he
    subst he
    have hmem : k' ∈ keys := by
      rw [h2, h3]
      exact List.mem_map.mpr ⟨k', List.mem_of_getElem? hk', rfl⟩
    obtain ⟨v, hv⟩ := hget k' hmem
    refine ⟨keys.idxOf k', v, by rw [List.getElem?_map, hk']; rfl, ?_, hv⟩
    rw [g3 _ k' (by rw [List.getElem?_eq_getElem (List.idxOf_lt_length_of_mem hmem), List.getElem_idxOf]), hv]

/-- A mapping of another size is refused: also one that has a value for every name and one more. -/
theorem C37_named_size {α : Type} (U : Unicode) (q : Query) (hq : q.Ok U.isWord) (hm : .marker ∉ q.markers) (hne : q.markers ≠ [])
    (d : List (Str × α)) (hd : (d.map Prod.fst).Nodup) (hk : ∀ k, .named k ∈ q.markers → k ∈ d.map Prod.fst) (x : Str) (hx : x ∈ d.map Prod.fst) (hx' : .named x ∉ q.markers) :
    executeArgs U q.source (.map d) = .error .typeError := by
  obtain ⟨keys, h1, h2, h3, h4⟩ := named_query U q hq hm hne
  have hlen : d.length ≠ keys.length := by
    rw [← List.length_map (f := Prod.fst)]
    intro he
    have hp : ((d.map Prod.fst).filter fun k => decide (k ∈ keys)).length = keys.length := by
      refine length_same (hd.filter _) h1 (fun k => ?_)
      rw [List.mem_filter, decide_eq_true_eq]
      exact ⟨fun h => h.2, fun h => ⟨hk k ((h2 k).mp h), h⟩⟩
    have hlt : ((d.map Prod.fst).filter fun k => decide (k ∈ keys)).length < (d.map Prod.fst).length :=
      List.length_filter_lt_length_iff_exists.mpr ⟨x, hx, by simpa using fun h => hx' ((h2 x).mp h)⟩
    omega
  exact exec_len h4 hlen

/-- **C37 (mixing).** A query with both kinds of markers is refused whatever the arguments. -/
theorem C37_mixed {α : Type} (U : Unicode) (q : Query) (hq : q.Ok U.isWord) (h1 : .marker ∈ q.markers) (k : Str) (h2 : .named k ∈ q.markers) (args : Params α) :
    executeArgs U q.source args = .error .typeError := by
  have hc : convertQuery U q.source = .error .typeError := by
    unfold convertQuery
    rw [convertQuery_of U q hq]
    rcases convParts_mixed q.rest q.first ⟨0, [], []⟩ (hq.1 _ (mem_texts.mpr (.inl rfl))) (fun x hx => hq.1 _ (mem_texts.mpr (.inr ⟨x, hx, rfl⟩))) ⟨by simp, by simp⟩ with h | ⟨items, st, h, g1, g2⟩
    · rw [h]; rfl
    · rw [h]
      have c1 : st.count ≠ 0 := by
        apply g1
        obtain ⟨_, ts, hts, ht⟩ := marker_in.mp h1
        rcases mem_texts.mp hts with rfl | ⟨x, hx, rfl⟩
        · exact .inr (.inl ht)
        · exact .inr (.inr ⟨x, hx, ht⟩)
      have c2 : st.keys ≠ [] := by
        apply g2
        obtain ⟨_, ts, hts, ht⟩ := marker_in.mp h2
        rcases mem_texts.mp hts with rfl | ⟨x, hx, rfl⟩
        · exact .inr (.inl ⟨k, ht⟩)
        · exact .inr (.inr ⟨x, hx, k, ht⟩)
      simp only [bind, Except.bind]
      rw [if_pos c2, if_pos c1]
  unfold executeArgs
  rw [hc]
  rfl

/-! ## What the server reads -/

theorem references_digits : ∀ (w ds s : Str), (∀ c ∈ w, c.isDigit = true) → references false (some ds) (w ++ s) = references false (some (ds ++ w)) s
  | [], ds, s, _ => by simp
  | c :: w, ds, s, h => by
    rw [List.cons_append, references, if_pos (h c (by simp)), references_digits w (ds ++ [c]) s (fun x hx => h x (by simp [hx]))]
    simp

theorem digit_dollar : ('$' : Char).isDigit = false := by decide
theorem digit_percent : ('%' : Char).isDigit = false := by decide
theorem start_percent : identStart '%' = false := by decide
theorem start_cont {c : Char} (h : identCont c = false) : identStart c = false := by
  unfold identCont at h
  cases h' : identStart c <;> simp_all

/-- After a `$` and digits, or not, the rest is read as from the beginning, unless it begins with a digit. -/
theorem references_after (n : Nat) (s : Str) (h : ∀ c, s.head? = some c → c.isDigit = false) :
    references false none ('$' :: (Nat.toDigits 10 n ++ s)) = n :: references false none s := by
  have hd : ∀ c ∈ Nat.toDigits 10 n, c.isDigit = true := fun c hc => Nat.isDigit_of_mem_toDigits (by decide) (by decide) hc
  rw [references, if_pos ⟨rfl, rfl⟩, references_digits _ _ _ hd, List.nil_append]
  have hne : Nat.toDigits 10 n ≠ [] := Nat.toDigits_ne_nil
  have hnum : numberOf (Nat.toDigits 10 n) = [n] := by
    unfold numberOf
    rw [if_neg hne, Nat.ofDigitChars_ten_toDigits]
  cases s with
  | nil => simp only [references]; exact hnum
  | cons c s =>
    have hc := h c rfl
    have e1 : references false (some (Nat.toDigits 10 n)) (c :: s) =
        numberOf (Nat.toDigits 10 n) ++ (if c = '$' then references false (some []) s else references (identStart c) none s) := by
      rw [references, if_neg (by simp [hc])]
    rw [e1, hnum, references]
    by_cases h2 : c = '$'
    · rw [if_pos h2, if_pos ⟨rfl, h2⟩]; rfl
    · rw [if_neg h2, if_neg (fun g => h2 g.2)]; simp

/-- What comes of a token begins with a digit only when the token is a digit. -/
theorem head_refer (ts : List Tok) (ns : List Nat) (h : ∀ c, ts.head? = some (.chr c) → c.isDigit = false) (hl : (markers ts).length = ns.length) :
    ∀ c, (refer ts ns).head? = some c → c.isDigit = false := by
  intro c hc
  cases ts with
  | nil => simp [refer] at hc
  | cons t ts =>
    rw [markers_cons] at hl
    cases t with
    | chr d =>
      simp only [refer, List.head?_cons, Option.some.injEq] at hc
      exact hc ▸ h d rfl
    | percent =>
      simp only [refer, List.head?_cons, Option.some.injEq] at hc
      exact hc ▸ digit_percent
    | marker =>
      cases ns with
      | nil => simp [Tok.isMarker] at hl
      | cons n ns =>
        simp only [refer, List.head?_cons, Option.some.injEq] at hc
        exact hc ▸ digit_dollar
    | named k =>
      cases ns with
      | nil => simp [Tok.isMarker] at hl
      | cons n ns =>
        simp only [refer, List.head?_cons, Option.some.injEq] at hc
        exact hc ▸ digit_dollar

theorem references_refer : ∀ (ts : List Tok) (ns : List Nat) (word : Bool), Alone ts → (markers ts).length = ns.length →
    (word = true → ∀ t ∈ ts.head?, t.isMarker = false) → references word none (refer ts ns) = ns
  | [], ns, word, _, hl, _ => by
    have : ns = [] := by simpa [markers] using hl.symm
    subst this
    cases word <;> rfl
  | t :: ts, ns, word, ha, hl, hw => by
    rw [markers_cons] at hl
    cases t with
    | chr c =>
      obtain ⟨h1, h2, h3⟩ := ha
      simp only [refer]
      rw [references, if_neg (fun g => h1 g.2)]
      refine references_refer ts ns _ h3 (by simpa [Tok.isMarker] using hl) (fun hword => ?_)
      apply h2
      unfold identCont
      cases hs : identStart c
      · rw [hs] at hword
        have : word = true ∧ identCont c = true := by simpa using hword
        have h5 := this.2
        unfold identCont at h5
        rw [hs] at h5
        exact h5
      · simp
    | percent =>
      simp only [refer]
      rw [references, if_neg (by simp)]
      refine references_refer ts ns _ ha (by simpa [Tok.isMarker] using hl) (fun hword => ?_)
      exfalso
      have hc : identCont '%' = false := by decide
      rw [start_percent, hc] at hword
      simp at hword
    | marker =>
      cases ns with
      | nil => simp [Tok.isMarker] at hl
      | cons n ns =>
        have hl' : (markers ts).length = ns.length := by simpa [Tok.isMarker] using hl
        have hwf : word = false := by
          cases word with
          | false => rfl
          | true => have := hw rfl .marker (by simp); simp [Tok.isMarker] at this
        subst hwf
        simp only [refer]
        rw [references_after n _ (head_refer ts ns ha.1 hl'), references_refer ts ns false ha.2 hl' (by simp)]
    | named k =>
      cases ns with
      | nil => simp [Tok.isMarker] at hl
      | cons n ns =>
        have hl' : (markers ts).length = ns.length := by simpa [Tok.isMarker] using hl
        have hwf : word = false := by
          cases word with
          | false => rfl
          | true => have := hw rfl (.named k) (by simp); simp [Tok.isMarker] at this
        subst hwf
        simp only [refer]
        rw [references_after n _ (head_refer ts ns ha.1 hl'), references_refer ts ns false ha.2 hl' (by simp)]

theorem references_plain : ∀ (s : Str) (word : Bool), '$' ∉ s → references word none s = []
  | [], word, _ => by cases word <;> rfl
  | c :: s, word, h => by
    rw [references, if_neg (fun g => h (by rw [g.2]; simp)), references_plain s _ (fun g => h (by simp [g]))]

theorem source_plain : ∀ ts : List Tok, Alone ts → markers ts = [] → '$' ∉ source ts
  | [], _, _ => by simp [source]
  | t :: ts, ha, hm => by
    rw [markers_cons] at hm
    have hs : source (t :: ts) = t.source ++ source ts := by simp [source]
    rw [hs, List.mem_append]
    cases t with
    | chr c =>
      rintro (h | h)
      · simp [Tok.source] at h; exact ha.1 h.symm
      · exact source_plain ts ha.2.2 (by simpa [Tok.isMarker] using hm) h
    | percent =>
      rintro (h | h)
      · simp [Tok.source] at h
      · exact source_plain ts ha (by simpa [Tok.isMarker] using hm) h
    | marker => simp [Tok.isMarker] at hm
    | named k => simp [Tok.isMarker] at hm

/-- **C37 (the references are read as such).** In a text whose markers stand alone, the server finds exactly the references put in the place of the
markers, in their order. -/
theorem C37_references (ts : List Tok) (refs : List Nat) (h : Alone ts) (hl : refs.length = (markers ts).length) :
    references false none (converted ts refs) = refs := by
  unfold converted
  by_cases hm : markers ts = []
  · rw [if_pos hm, references_plain _ _ (source_plain ts h hm)]
    rw [hm] at hl
    cases refs with
    | nil => rfl
    | cons a l => simp at hl
  · rw [if_neg hm]
    exact references_refer ts refs false h hl.symm (by simp)

/-! ## Cases -/

def text (s : String) : List Tok := s.toList.map .chr

/-- `SELECT 'a%s', %s%%10 WHERE "it""s" = %s`: text in quotes is not touched. -/
def sampleQuery : Query := ⟨text "SELECT ", [(.lit "a%s".toList, text ", " ++ [.marker, .percent] ++ text "10 WHERE "),
  (.ident "it\"\"s".toList, text " = " ++ [.marker])]⟩

theorem tok_ok_text (s : String) (h : '%' ∉ s.toList) : ∀ t ∈ text s, t.Ok := by
  intro t ht
  obtain ⟨c, hc, rfl⟩ := List.mem_map.mp ht
  rintro rfl
  exact h hc

example : sampleQuery.source = "SELECT 'a%s', %s%%10 WHERE \"it\"\"s\" = %s".toList := by decide +kernel
example : sampleQuery.markers = [.marker, .marker] := by decide +kernel
example : sampleQuery.Ok Unicode.ascii.isWord := by
  refine ⟨by unfold Query.texts sampleQuery; simp only [List.map_cons, List.map_nil]; intro ts hts; simp [text] at hts; rcases hts with rfl | rfl | rfl <;> simp [Tok.Ok], ?_⟩
  refine ⟨?_, ⟨"a%s".toList, by decide +kernel⟩, fun _ _ => by decide +kernel, ?_, ?_, ⟨"it\"s".toList, by decide +kernel⟩, by simp, ?_, ?_⟩
  · simp [sampleQuery, source, text, Tok.source, Plain]
  · intro q hq; simp [Quotation.closing] at hq; subst hq; decide +kernel
  · simp [sampleQuery, source, text, Tok.source, Plain]
  · intro q hq; simp [Quotation.closing] at hq; subst hq; decide +kernel
  · simp [Readable, source, text, Tok.source, Plain]
example : executeArgs Unicode.ascii sampleQuery.source (.seq ["x", "y"]) = .ok ("SELECT 'a%s', $1%10 WHERE \"it\"\"s\" = $2".toList, ["x", "y"]) := by decide +kernel
example : executeArgs Unicode.ascii "%(b)s, %(a)s 'x', %(b)s".toList (.map [("a".toList, 1), ("b".toList, 2)]) = .ok ("$1, $2 'x', $1".toList, [2, 1]) := by decide +kernel
example : executeArgs Unicode.ascii "%(b)s '' %s".toList (.seq [1]) = .error .typeError := by decide +kernel
example : Alone (text ", " ++ [.marker, .percent] ++ text "10 WHERE ") := by simp [text, Alone, Tok.isMarker]; decide

/-- A marker before a digit becomes a reference to another parameter. -/
theorem C37_digit_after_marker : executeArgs Unicode.ascii "%s0".toList (.seq [1]) = .ok ("$10".toList, [1]) ∧ references false none "$10".toList = [10] := by decide +kernel

/-- A doubled percent sign is halved in a text with a marker, and stays doubled in a text without. -/
theorem C37_percent_per_text : executeArgs Unicode.ascii "5 %% 2, %s, 'x', 5 %% 2".toList (.seq [1]) = .ok ("5 % 2, $1, 'x', 5 %% 2".toList, [1]) := by decide +kernel

/-- An apostrophe in a comment hides the markers after it: the query asks for no argument, and is refused with one. -/
theorem C37_comment : executeArgs Unicode.ascii "-- don't\n%s".toList (.seq [1]) = .error .typeError ∧
    executeArgs Unicode.ascii "-- don't\n%s".toList (.seq ([] : List Nat)) = .ok ("-- don't\n%s".toList, []) := by decide +kernel

/-- A mapping with one key too many is refused. -/
theorem C37_extra_key : executeArgs Unicode.ascii "%(a)s".toList (.map [("a".toList, 1), ("b".toList, 2)]) = .error .typeError := by decide +kernel

end PG.DbApi
