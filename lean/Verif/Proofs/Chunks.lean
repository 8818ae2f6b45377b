import Verif.Spec.Chunks
/-! # Proofs for C86 -/
namespace PG.Chunks
open PG PG.Element3 PG.Spec.Chunks

variable {ω β : Type}

theorem exchange_sync (D : Db ω) (s0 : Srv ω) (names : List Bytes) (s : Srv ω) (es : List Elem) : exchange D s0 names s (.empty .synchronize :: es) = sync s names := by
  rw [exchange, if_pos rfl]

theorem exchange_ok (D : Db ω) (s0 : Srv ω) (names : List Bytes) (s : Srv ω) (e : Elem) (es : List Elem) {r : List Reply} {s' : Srv ω} (he : e ≠ .empty .synchronize) (h : one D s e = (r, s')) (hr : .failed ∉ r) :
    exchange D s0 names s (e :: es) = (r ++ (exchange D s0 (names ++ declares s e) s' es).1, (exchange D s0 (names ++ declares s e) s' es).2) := by
  rw [exchange, if_neg he, h]
  dsimp only
  rw [if_neg hr]

theorem exchange_bad (D : Db ω) (s0 : Srv ω) (names : List Bytes) (s : Srv ω) (e : Elem) (es : List Elem) {r : List Reply} {s' : Srv ω} (he : e ≠ .empty .synchronize) (h : one D s e = (r, s')) (hr : .failed ∈ r) :
    exchange D s0 names s (e :: es) = (r, undo s0 s') := by
  rw [exchange, if_neg he, h]
  dsimp only
  rw [if_pos hr]

/-- What an exchange does until it fails does not depend on what would be restored. -/
theorem exchange_from (D : Db ω) (s0 s0' : Srv ω) : ∀ (es : List Elem) (names : List Bytes) (s : Srv ω),
    (exchange D s0 names s es).1 = (exchange D s0' names s es).1 ∧ (.failed ∉ (exchange D s0' names s es).1 → (exchange D s0 names s es).2 = (exchange D s0' names s es).2)
  | [], _, _ => ⟨rfl, fun _ => rfl⟩
  | e :: es, names, s => by
    unfold exchange
    by_cases he : e = .empty .synchronize
    · rw [if_pos he, if_pos he]
      exact ⟨rfl, fun _ => rfl⟩
    · rw [if_neg he, if_neg he]
      obtain ⟨i1, i2⟩ := exchange_from D s0 s0' es (names ++ declares s e) (one D s e).2
      by_cases hf : Reply.failed ∈ (one D s e).1
      · rw [if_pos hf, if_pos hf]
        exact ⟨rfl, fun h => absurd hf h⟩
      · rw [if_neg hf, if_neg hf]
        dsimp only
        exact ⟨by rw [i1], fun h => i2 fun h' => h (List.mem_append_right _ h')⟩

theorem put_self {γ : Type} (f : Bytes → Option γ) (k : Bytes) (v : γ) : put f k v k = some v := if_pos rfl

theorem put_other {γ : Type} (f : Bytes → Option γ) {k x : Bytes} (v : γ) (h : x ≠ k) : put f k v x = f x := if_neg h

theorem bind_ok (D : Db ω) (s : Srv ω) {portal stmt text : Bytes} {i o : List Bytes} {ps : List (Option Bytes)} (h1 : s.block ≠ .aborted) (h2 : ¬ (portal ≠ [] ∧ (s.portals portal).isSome)) (h3 : s.statements stmt = some text) :
    one D s (.bind portal stmt i ps o) = bindText D s portal i ps o text := by
  show (if _ then _ else (match s.statements stmt with | none => _ | some text => _)) = _
  rw [if_neg (fun e => e.elim h1 h2), h3]

/-- The tuples of rows. -/
def tuples (D : Db ω) (formats : List Bytes) (l : List ω) : List Datum := l.map fun r => .tuple (D.wire formats r)

theorem data_tuples (D : Db ω) (formats : List Bytes) (p : Plan) : ∀ l : List ω, (l.map fun r => Reply.tuple (D.wire formats r)).filterMap (dataOf p) = tuples D formats l
  | [] => rfl
  | r :: l => by
    rw [List.map_cons, List.filterMap_cons]
    show Datum.tuple _ :: _ = _
    rw [data_tuples D formats p l]
    rfl

theorem failed_tuples (D : Db ω) (formats : List Bytes) (l : List ω) : Reply.failed ∉ l.map fun r => Reply.tuple (D.wire formats r) := by
  intro h
  obtain ⟨_, _, e⟩ := List.mem_map.mp h
  cases e

/-- What is received for at most `n` rows. -/
theorem rowsUpTo_spec (D : Db ω) (p : Plan) (formats : List Bytes) (rows : List ω) (fails : Bool) (n : Nat) :
    ((rowsUpTo D formats rows fails (some n)).1.filterMap (dataOf p) = tuples D formats (rows.take n)) ∧ (rowsUpTo D formats rows fails (some n)).2 = rows.drop n ∧
      (.failed ∈ (rowsUpTo D formats rows fails (some n)).1 ↔ fails = true ∧ rows.length < n) := by
  unfold rowsUpTo
  by_cases h : n ≤ rows.length
  · dsimp only
    rw [if_pos h]
    refine ⟨?_, rfl, ?_⟩
    · rw [List.filterMap_append, data_tuples]
      show _ ++ [] = _
      rw [List.append_nil]
    · constructor
      · intro e
        rcases List.mem_append.mp e with e | e
        · exact absurd e (failed_tuples D formats _)
        · simp at e
      · intro ⟨_, e⟩; omega
  · dsimp only
    rw [if_neg h]
    have ht : rows.take n = rows := List.take_of_length_le (by omega)
    refine ⟨?_, (List.drop_eq_nil_of_le (by omega)).symm, ?_⟩
    · rw [List.filterMap_append, data_tuples, ht]
      cases fails
      · show _ ++ [] = _
        rw [List.append_nil]
      · show _ ++ [] = _
        rw [List.append_nil]
    · constructor
      · intro e
        rcases List.mem_append.mp e with e | e
        · exact absurd e (failed_tuples D formats _)
        · cases fails
          · simp at e
          · exact ⟨rfl, by omega⟩
      · intro ⟨e, _⟩
        subst e
        simp

theorem rowsUpTo_all (D : Db ω) (p : Plan) (formats : List Bytes) (rows : List ω) (fails : Bool) :
    ((rowsUpTo D formats rows fails none).1.filterMap (dataOf p) = tuples D formats rows) ∧ (.failed ∈ (rowsUpTo D formats rows fails none).1 ↔ fails = true) ∧ .copyBegin ∉ (rowsUpTo D formats rows fails none).1 := by
  unfold rowsUpTo
  refine ⟨?_, ?_, ?_⟩
  · rw [List.filterMap_append, data_tuples]
    cases fails
    · show _ ++ [] = _
      rw [List.append_nil]
    · show _ ++ [] = _
      rw [List.append_nil]
  · constructor
    · intro e
      rcases List.mem_append.mp e with e | e
      · exact absurd e (failed_tuples D formats _)
      · cases fails
        · simp at e
        · rfl
    · intro e; subst e; simp
  · intro e
    rcases List.mem_append.mp e with e | e
    · obtain ⟨_, _, e⟩ := List.mem_map.mp e
      cases e
    · cases fails <;> simp at e

/-! ## The further exchanges -/

/-- What a further exchange has to do: `I` says what is left. -/
def Live (D : Db ω) (formats : List Bytes) (p : Plan) (fails : Bool) (again : List Elem) (I : List ω → Srv ω → Prop) : Prop :=
  ∀ rest s, I rest s → ((serve D s again).1.filterMap (dataOf p) = tuples D formats (rest.take chunksize)) ∧ (.failed ∈ (serve D s again).1 ↔ fails = true ∧ rest.length < chunksize) ∧
    (¬ (fails = true ∧ rest.length < chunksize) → I (rest.drop chunksize) (serve D s again).2)

theorem block_live (D : Db ω) (p : Plan) (formats : List Bytes) (fails held : Bool) (c : Bytes) :
    Live D formats p fails (executeCommands c) fun rest s => s.portals c = some (.query rest fails formats held) ∧ s.block = .inBlock := by
  rintro rest s ⟨h1, h2⟩
  obtain ⟨k1, k2, k3⟩ := rowsUpTo_spec D p formats rest fails chunksize
  have hl : limit (chunksize : Int) = some chunksize := by decide
  have ho : one D s (.execute c chunksize) = ((rowsUpTo D formats rest fails (some chunksize)).1, { s with portals := put s.portals c (.query (rest.drop chunksize) fails formats held) }) := by
    show executePortal D s c (limit (chunksize : Int)) (s.portals c) = _
    rw [h1, hl]
    unfold executePortal
    dsimp only
    rw [k2]
  by_cases hf : fails = true ∧ rest.length < chunksize
  · have : serve D s (executeCommands c) = _ := exchange_bad D s [] s _ _ (by simp) ho (k3.mpr hf)
    rw [this]
    exact ⟨k1, ⟨fun _ => hf, fun _ => k3.mpr hf⟩, fun e => absurd hf e⟩
  · have : serve D s (executeCommands c) = _ := exchange_ok D s [] s _ _ (by simp) ho (fun e => hf (k3.mp e))
    rw [this, exchange_sync]
    unfold sync
    rw [if_neg (by show s.block ≠ _; rw [h2]; simp)]
    dsimp only
    rw [List.append_nil]
    exact ⟨k1, ⟨fun e => k3.mp e, fun e => absurd e hf⟩, fun _ => ⟨put_self _ _ _, h2⟩⟩

theorem filter_suspended (p : Plan) : ∀ l : List Reply, (l.filter (· ≠ .suspended)).filterMap (dataOf p) = l.filterMap (dataOf p)
  | [] => rfl
  | x :: l => by
    have ih := filter_suspended p l
    rw [List.filter_cons]
    by_cases hx : x = .suspended
    · subst hx
      rw [if_neg (by simp), ih]
      rfl
    · rw [if_pos (by simp [hx]), List.filterMap_cons, List.filterMap_cons, ih]

/-- The commands of a FETCH. -/
def fetchOf (q : Bytes) (formats : List Bytes) : List Elem := [.parse [] q [], .bind [] [] [] [] formats, .execute [] 0xFFFFFFFF, .empty .synchronize]

/-- FETCH from a held cursor, in any exchange: `s1` is the session afterwards. -/
theorem fetch_spec (D : Db ω) (p : Plan) (formats : List Bytes) {c q : Bytes} (hc : c ≠ []) (hq : D.reads q = .fetch c chunksize) (s0 s : Srv ω) (names : List Bytes) {rest : List ω} {fails : Bool} {f : List Bytes}
    (h1 : s.portals c = some (.query rest fails f true)) (h2 : s.block ≠ .aborted) :
    let x := exchange D s0 names s (fetchOf q formats)
    ((fails = true ∧ rest.length < chunksize) → .failed ∈ x.1 ∧ x.1.filterMap (dataOf p) = tuples D formats (rest.take chunksize)) ∧
    (¬ (fails = true ∧ rest.length < chunksize) → ∃ (r : List Reply) (s1 : Srv ω), x = (r ++ (sync s1 names).1, (sync s1 names).2) ∧ .failed ∉ r ∧ r.filterMap (dataOf p) = tuples D formats (rest.take chunksize) ∧
      s1.portals c = some (.query (rest.drop chunksize) fails f true) ∧ s1.block = s.block ∧ (∀ k, k ≠ c → k ≠ [] → s1.portals k = s.portals k)) := by
  intro x
  obtain ⟨k1, k2, k3⟩ := rowsUpTo_spec D p formats rest fails chunksize
  let sa : Srv ω := { s with statements := put s.statements [] q }
  let sb : Srv ω := { sa with portals := put s.portals [] (.fetch c chunksize formats) }
  have e1 : one D s (.parse [] q []) = ([.noise], sa) := by
    show (if s.block = .aborted then _ else _) = _
    rw [if_neg h2]
  have e2 : one D sa (.bind [] [] [] [] formats) = ([.noise], sb) := by
    rw [bind_ok D sa (text := q) h2 (by simp) (put_self _ _ _)]
    unfold bindText
    rw [hq]
  have hb : sb.portals c = some (.query rest fails f true) := by
    show put s.portals [] _ c = _
    rw [put_other _ _ hc, h1]
  have x1 : x = ([.noise] ++ ([.noise] ++ (exchange D s0 names sb [.execute [] 0xFFFFFFFF, .empty .synchronize]).1), (exchange D s0 names sb [.execute [] 0xFFFFFFFF, .empty .synchronize]).2) := by
    show exchange D s0 names s (fetchOf q formats) = _
    unfold fetchOf
    rw [exchange_ok D s0 names s _ _ (by simp) e1 (by simp)]
    show _ = _
    rw [show names ++ declares s (.parse [] q []) = names from List.append_nil _, exchange_ok D s0 names sa _ _ (by simp) e2 (by simp), show names ++ declares sa (.bind [] [] [] [] formats) = names from List.append_nil _]
  have hd : names ++ declares sb (.execute [] 0xFFFFFFFF) = names := by
    show names ++ declaredBy (put s.portals [] (Portal.fetch c chunksize formats) []) = names
    rw [put_self]
    exact List.append_nil _
  by_cases hf : fails = true ∧ rest.length < chunksize
  · refine ⟨fun _ => ?_, fun e => absurd hf e⟩
    have e3 : one D sb (.execute [] 0xFFFFFFFF) = ((rowsUpTo D formats rest fails (some chunksize)).1, sb) := by
      show executePortal D sb [] (limit 0xFFFFFFFF) (put s.portals [] (Portal.fetch c chunksize formats) []) = _
      rw [put_self]
      show fetchFrom D sb c chunksize formats (sb.portals c) = _
      rw [hb]
      unfold fetchFrom
      dsimp only
      rw [if_pos (k3.mpr hf)]
    rw [x1, exchange_bad D s0 names sb _ _ (by simp) e3 (k3.mpr hf)]
    dsimp only
    exact ⟨by simp [k3.mpr hf], by simpa [List.filterMap_cons, dataOf] using k1⟩
  · refine ⟨fun e => absurd e hf, fun _ => ?_⟩
    have e3 : one D sb (.execute [] 0xFFFFFFFF) = ((rowsUpTo D formats rest fails (some chunksize)).1.filter (· ≠ .suspended) ++ [.complete], { sb with portals := put sb.portals c (.query (rest.drop chunksize) fails f true) }) := by
      show executePortal D sb [] (limit 0xFFFFFFFF) (put s.portals [] (Portal.fetch c chunksize formats) []) = _
      rw [put_self]
      show fetchFrom D sb c chunksize formats (sb.portals c) = _
      rw [hb]
      unfold fetchFrom
      dsimp only
      rw [if_neg (fun e => hf (k3.mp e)), k2]
    have hn : Reply.failed ∉ (rowsUpTo D formats rest fails (some chunksize)).1.filter (· ≠ .suspended) ++ [.complete] := by
      intro e
      rcases List.mem_append.mp e with e | e
      · exact hf (k3.mp (List.mem_filter.mp e).1)
      · simp at e
    refine ⟨[.noise] ++ ([.noise] ++ ((rowsUpTo D formats rest fails (some chunksize)).1.filter (· ≠ .suspended) ++ [.complete])), { sb with portals := put sb.portals c (.query (rest.drop chunksize) fails f true) }, ?_, ?_, ?_, put_self _ _ _, rfl, ?_⟩
    · rw [x1, exchange_ok D s0 names sb _ _ (by simp) e3 hn, hd, exchange_sync]
      simp only [List.append_assoc]
    · intro e
      rcases List.mem_append.mp e with e | e
      · simp at e
      · rcases List.mem_append.mp e with e | e
        · simp at e
        · exact hn e
    · rw [List.filterMap_append, List.filterMap_append, List.filterMap_append, filter_suspended, k1]
      show [] ++ ([] ++ (_ ++ [])) = _
      rw [List.append_nil, List.nil_append, List.nil_append]
    · intro k hk hk0
      show put (put s.portals [] _) c _ k = _
      rw [put_other _ _ hk, put_other _ _ hk0]

theorem hold_live (D : Db ω) (p : Plan) (formats : List Bytes) {c q : Bytes} (hc : c ≠ []) (hq : D.reads q = .fetch c chunksize) (f : List Bytes) :
    Live D formats p false (fetchOf q formats) fun rest s => s.portals c = some (.query rest false f true) ∧ s.block ≠ .aborted := by
  rintro rest s ⟨h1, h2⟩
  obtain ⟨_, hx⟩ := fetch_spec D p formats hc hq s s [] h1 h2
  obtain ⟨r, s1, e, e1, e2, e3, e4, _⟩ := hx (by simp)
  have hs : sync s1 [] = ([], (sync s1 []).2) ∧ (sync s1 []).2.portals c = some (.query (rest.drop chunksize) false f true) ∧ (sync s1 []).2.block = s1.block := by
    unfold sync
    split
    · rw [if_neg (by simp)]
      refine ⟨rfl, ?_, rfl⟩
      show (s1.portals c).filter keeps = _
      rw [e3]
      rfl
    · exact ⟨rfl, e3, rfl⟩
  show ((exchange D s [] s (fetchOf q formats)).1.filterMap _ = _) ∧ _
  unfold serve
  rw [e, hs.1]
  dsimp only
  rw [List.append_nil]
  exact ⟨e2, ⟨fun h => absurd h e1, fun h => by cases h.1⟩, fun _ => ⟨hs.2.1, by rw [hs.2.2, e4]; exact h2⟩⟩

/-! ## Iterating -/

theorem mapM_tuples {γ δ : Type} (g : Datum → Except Err γ) (k : γ → δ) (dec : ω → Except Err δ) (D : Db ω) (formats : List Bytes) (h : ∀ r, (g (.tuple (D.wire formats r))).map k = dec r) :
    ∀ l : List ω, ((tuples D formats l).mapM g).map (·.map k) = l.mapM dec
  | [] => rfl
  | r :: l => by
    have ih := mapM_tuples g k dec D formats h l
    rw [show tuples D formats (r :: l) = .tuple (D.wire formats r) :: tuples D formats l from rfl, List.mapM_cons, List.mapM_cons, ← h r, ← ih]
    cases g (.tuple (D.wire formats r)) with
    | error e => rfl
    | ok y => cases (tuples D formats l).mapM g with
      | error e => rfl
      | ok ys => rfl

/-- What `_process_chunk` makes of tuples. -/
theorem process_tuples (D : Db ω) (formats : List Bytes) {io : List (Bytes → Except Err β)} {m : Method} {pr : Processing} (l : List ω) (hl : l ≠ [])
    (hp : (m = .chunks ∧ pr = .tuples) ∨ (m = .rows ∧ pr = .rows) ∨ (m = .column ∧ pr = .column)) :
    process (some io) pr (tuples D formats l) = l.mapM (decoded D io formats m) := by
  rcases hp with ⟨rfl, rfl⟩ | ⟨rfl, rfl⟩ | ⟨rfl, rfl⟩
  · exact mapM_tuples _ _ _ D formats (fun r => rfl) l
  · exact mapM_tuples _ _ _ D formats (fun r => rfl) l
  · cases io with
    | nil =>
      cases l with
      | nil => exact absurd rfl hl
      | cons r l => rw [List.mapM_cons]; rfl
    | cons f io => exact mapM_tuples _ _ _ D formats (fun r => rfl) l

theorem mapM_split {γ δ : Type} {g : γ → Except Err δ} : ∀ {l r : List γ}, (l ++ r).mapM g = (do let a ← l.mapM g; let b ← r.mapM g; pure (a ++ b))
  | [], r => by
    show r.mapM g = _
    cases r.mapM g <;> rfl
  | x :: l, r => by
    rw [List.cons_append, List.mapM_cons, List.mapM_cons, mapM_split]
    cases g x with
    | error e => rfl
    | ok y => cases l.mapM g with
      | error e => rfl
      | ok a => cases r.mapM g with
        | error e => rfl
        | ok b => rfl

theorem mapM_len {γ δ : Type} {g : γ → Except Err δ} : ∀ {l : List γ} {out : List δ}, l.mapM g = .ok out → out.length = l.length
  | [], out, h => by cases h; rfl
  | x :: l, out, h => by
    rw [List.mapM_cons] at h
    cases hg : g x with
    | error e => rw [hg] at h; cases h
    | ok y => cases hl : l.mapM g with
      | error e => rw [hg, hl] at h; cases h
      | ok a =>
        rw [hg, hl] at h
        cases h
        rw [List.length_cons, List.length_cons, mapM_len hl]

/-- Iterating over a `hold` or `block` stream. -/
theorem drain_live (D : Db ω) (formats : List Bytes) {io : List (Bytes → Except Err β)} (m : Method) {fails : Bool} {I : List ω → Srv ω → Prop} {x : Stream} (hpl : x.plan = .hold ∨ x.plan = .block)
    (hL : Live D formats x.plan fails x.again I)
    (hp : (m = .chunks ∧ x.processing = .tuples) ∨ (m = .rows ∧ x.processing = .rows) ∨ (m = .column ∧ x.processing = .column)) :
    ∀ (ts : List (Srv ω → Srv ω)), (∀ t ∈ ts, ∀ rest s, I rest s → I rest (t s)) → ∀ (R : List ω) (r : List Reply) (s : Srv ω),
      x.pending = some r → r.filterMap (dataOf x.plan) = tuples D formats (R.take chunksize) → (.failed ∈ r ↔ fails = true ∧ R.length < chunksize) → (¬ (fails = true ∧ R.length < chunksize) → I (R.drop chunksize) s) →
      R.length / chunksize + 1 < ts.length →
      Delivered (decoded D io formats m) fails R (drain (some io) (serve D) ts x s).1 (drain (some io) (serve D) ts x s).2 := by
  intro ts
  induction ts generalizing x with
  | nil => intro _ R r s _ _ _ _ h; simp at h
  | cons t ts ih =>
    intro hts R r s h1 h2 h3 h4 hlen
    have hc0 : 0 < chunksize := by decide
    have hcs : chunksize = 4096 := rfl
    unfold drain
    unfold next
    rw [h1]
    dsimp only
    by_cases hf : fails = true ∧ R.length < chunksize
    · rw [if_pos (h3.mpr hf)]
      dsimp only
      exact ⟨by simp, rfl, by simp, fun _ e => (by rw [hf.1] at e; cases e), fun er e => (by cases e; exact .inl ⟨hf.1, rfl, by (have := hf.2; simpa [chunksize] using this)⟩), by simp⟩
    · rw [if_neg (fun e => hf (h3.mp e))]
      rw [if_pos hpl, h2]
      have hlenT : (tuples D formats (R.take chunksize)).length = min chunksize R.length := by
        unfold tuples; rw [List.length_map, List.length_take]
      by_cases hfull : chunksize ≤ R.length
      · rw [if_pos (by rw [hlenT]; omega)]
        have hne : R.take chunksize ≠ [] := by
          intro e
          have := congrArg List.length e
          rw [List.length_take, List.length_nil] at this
          omega
        rw [process_tuples D formats _ hne hp]
        cases hm : (R.take chunksize).mapM (decoded D io formats m) with
        | error e =>
          dsimp only [Next.of]
          have hR : R.mapM (decoded D io formats m) = .error e := by
            rw [← List.take_append_drop chunksize R, mapM_split, hm]; rfl
          exact ⟨by simp, rfl, by simp, fun _ _ e2 => (by rw [hR] at e2; cases e2), fun er e2 => (by cases e2; exact .inr hR), by simp⟩
        | ok items =>
          dsimp only [Next.of]
          have hI := hts t List.mem_cons_self _ _ (h4 hf)
          obtain ⟨l1, l2, l3⟩ := hL _ _ hI
          have hlen' : (R.drop chunksize).length / chunksize + 1 < ts.length := by
            rw [List.length_drop]
            have hd : R.length / chunksize = (R.length - chunksize) / chunksize + 1 := by
              conv => lhs; rw [show R.length = (R.length - chunksize) + chunksize by omega]
              exact Nat.add_div_right _ hc0
            rw [List.length_cons] at hlen
            omega
          have K := ih (x := { x with pending := some (serve D (t s) x.again).1 }) hpl hL hp (fun t' ht' => hts t' (List.mem_cons_of_mem _ ht')) (R.drop chunksize) (serve D (t s) x.again).1 (serve D (t s) x.again).2 rfl l1 l2 l3 hlen'
          have hil : items.length = chunksize := by
            rw [mapM_len hm, List.length_take]; omega
          generalize drain (some io) (serve D) ts { x with pending := some (serve D (t s) x.again).1 } (serve D (t s) x.again).2 = d at K
          obtain ⟨o, e⟩ := d
          dsimp only at K ⊢
          have hsplit : R.mapM (decoded D io formats m) = ((R.drop chunksize).mapM (decoded D io formats m)).map (items ++ ·) := by
            conv => lhs; rw [← List.take_append_drop chunksize R]
            rw [mapM_split, hm]
            cases (R.drop chunksize).mapM (decoded D io formats m) <;> rfl
          refine ⟨?_, ?_, ?_, ?_, ?_, K.more⟩
          · intro c hc
            rcases List.mem_cons.mp hc with rfl | hc
            · exact ⟨fun e => by (rw [e] at hil; simp at hil; omega), by omega⟩
            · exact K.sizes c hc
          · rw [List.flatten_cons, List.length_append, hil, List.take_add, mapM_split, hm, K.prefix_]
            rfl
          · intro he
            obtain ⟨a1, a2⟩ := K.stop he
            refine ⟨?_, a2⟩
            rw [List.flatten_cons, List.length_append, a1, List.length_drop]
            omega
          · intro its hfl hall
            cases hrest : (R.drop chunksize).mapM (decoded D io formats m) with
            | error er => rw [hsplit, hrest] at hall; cases hall
            | ok its' => exact K.done its' hfl hrest
          · intro er he
            rcases K.raised er he with ⟨a1, a2, a3⟩ | a
            · refine .inl ⟨a1, a2, ?_⟩
              rw [List.flatten_cons, List.length_append]
              rw [List.length_drop] at a3
              omega
            · right; rw [hsplit, a]; rfl
      · have htake : R.take chunksize = R := List.take_of_length_le (by omega)
        have hfls : fails = false := by
          cases fails with
          | false => rfl
          | true => exact absurd ⟨rfl, by omega⟩ hf
        rw [if_neg (by rw [hlenT]; omega), htake]
        cases R with
        | nil =>
          rw [if_pos (show tuples D formats [] = [] from rfl)]
          dsimp only
          exact ⟨by simp, rfl, fun _ => ⟨rfl, hfls⟩, fun _ _ _ => rfl, fun _ e => (by cases e), by simp⟩
        | cons r0 R0 =>
          rw [if_neg (by unfold tuples; simp), process_tuples D formats _ (by simp) hp]
          cases hm : (r0 :: R0).mapM (decoded D io formats m) with
          | error e =>
            dsimp only [Next.of]
            exact ⟨by simp, rfl, by simp, fun _ _ e2 => (by rw [hm] at e2; cases e2), fun er e2 => (by cases e2; exact .inr hm), by simp⟩
          | ok items =>
            dsimp only [Next.of]
            have hil := mapM_len hm
            obtain ⟨t2, ts2, rfl⟩ : ∃ t2 ts2, ts = t2 :: ts2 := by
              cases ts with
              | nil => simp at hlen
              | cons a b => exact ⟨a, b, rfl⟩
            have hd : drain (some io) (serve D) (t2 :: ts2) { x with pending := none } (t s) = ([], .stop) := by
              unfold drain next; rfl
            rw [hd]
            dsimp only
            refine ⟨?_, ?_, fun _ => ⟨?_, hfls⟩, fun _ _ _ => rfl, fun _ e => (by cases e), by simp⟩
            · intro c hc
              simp only [List.mem_singleton] at hc
              subst hc
              exact ⟨fun e => by (rw [e] at hil; simp at hil), by omega⟩
            · rw [List.flatten_cons, List.flatten_nil, List.append_nil, hil, List.take_length, hm]
            · rw [List.flatten_cons, List.flatten_nil, List.append_nil, hil]

end PG.Chunks
