import Verif.Proofs.Chunks
/-!
# C86: `chunks`, `rows` and `column` of a statement
-/
namespace PG.Chunks
open PG PG.Element3 PG.SqlText PG.Spec.Chunks

variable {ω α β : Type}

theorem parameters_ok {s : Stmt α β} {params : List (Option α)} {ps : List (Option Bytes)} (h : Row.processTuple s.inputIo params = .ok ps) : parameters s params = .ok ps := by
  unfold parameters; rw [h]; rfl

theorem params_length {s : Stmt α β} {params : List (Option α)} {ps : List (Option Bytes)} (h : Row.processTuple s.inputIo params = .ok ps) : params.length = s.inputIo.length := by
  unfold Row.processTuple at h
  split at h
  · cases h
  · rename_i e; exact Decidable.not_not.mp e

theorem run_ok {σ : Type} {enc : Str → Except Err Bytes} {sv : Serve σ} {cid : Str} {s : Stmt α β} {m : Method} {params : List (Option α)} {idle : Bool} {srv : σ} {c : Commands} {ps : List (Option Bytes)}
    (hp : Row.processTuple s.inputIo params = .ok ps) (hc : commands enc cid s params (plan s idle) = .ok c) (ts : List (σ → σ)) :
    all enc sv cid s m params idle srv ts = drain s.outputIo sv ts ⟨plan s idle, processing s m (plan s idle), c.again, some (sv srv c.first).1⟩ (sv srv c.first).2 := by
  unfold all run
  rw [if_neg (by rw [params_length hp]; simp), hc]

theorem processing_of {s : Stmt α β} {io : List (Bytes → Except Err β)} (ho : s.outputIo = some io) {m : Method} (hm : m = .rows → io ≠ []) {p : Plan} (hp : p = .hold ∨ p = .block) :
    (m = .chunks ∧ processing s m p = .tuples) ∨ (m = .rows ∧ processing s m p = .rows) ∨ (m = .column ∧ processing s m p = .column) := by
  cases m with
  | chunks => exact .inl ⟨rfl, by rcases hp with rfl | rfl <;> rfl⟩
  | rows =>
    refine .inr (.inl ⟨rfl, ?_⟩)
    unfold processing hasColumns
    rw [ho]
    cases io with
    | nil => exact absurd rfl (hm rfl)
    | cons f io => rfl
  | column => exact .inr (.inr ⟨rfl, rfl⟩)

/-- **C86 (in a transaction block).** The rows are asked for with the protocol's own limit, 4096 at a time; other things may be done in the block in between. Every row is given once, in order, and none before a failure is missed but those of its chunk. -/
theorem C86_block (D : Db ω) {enc : Str → Except Err Bytes} {cid : Str} {c : Bytes} {s : Stmt α β} {io : List (Bytes → Except Err β)} {m : Method} {params : List (Option α)} {ps : List (Option Bytes)} {srv : Srv ω}
    {text : Bytes} {l : List ω} {fails : Bool} (ho : s.outputIo = some io) (hm : m = .rows → io ≠ []) (hc : enc cid = .ok c) (hnew : srv.portals c = none) (hp : Row.processTuple s.inputIo params = .ok ps)
    (hb : srv.block = .inBlock) (hst : srv.statements s.id = some text) (hr : D.reads text = .other) (hev : D.eval text s.inFormats ps = .rows l fails)
    (ts : List (Srv ω → Srv ω)) (hts : ∀ t ∈ ts, Within c t) (hlen : l.length / 4096 + 1 < ts.length) :
    Delivered (decoded D io s.outFormats m) fails l (all enc (serve D) cid s m params false srv ts).1 (all enc (serve D) cid s m params false srv ts).2 := by
  have hpl : plan s false = .block := by unfold plan; rw [ho]; rfl
  have hcm : commands enc cid s params (plan s false) = .ok ⟨.bind c s.id s.inFormats ps s.outFormats :: executeCommands c, executeCommands c⟩ := by
    rw [hpl]; unfold commands; rw [hc, parameters_ok hp]; rfl
  rw [run_ok hp hcm, ho, hpl]
  let s1 : Srv ω := { srv with portals := put srv.portals c (.query l fails s.outFormats false) }
  have e1 : one D srv (.bind c s.id s.inFormats ps s.outFormats) = ([.noise], s1) := by
    rw [bind_ok D srv (by rw [hb]; simp) (by rw [hnew]; simp) hst]
    unfold bindText
    rw [hr]
    dsimp only
    rw [hev]
  have hI : s1.portals c = some (.query l fails s.outFormats false) ∧ s1.block = .inBlock := ⟨put_self _ _ _, hb⟩
  obtain ⟨k1, k2, k3⟩ := block_live D .block s.outFormats fails false c l s1 hI
  have hs : serve D srv (.bind c s.id s.inFormats ps s.outFormats :: executeCommands c) = ([.noise] ++ (exchange D srv [] s1 (executeCommands c)).1, (exchange D srv [] s1 (executeCommands c)).2) :=
    exchange_ok D srv [] srv _ _ (by simp) e1 (by simp)
  have hx := exchange_from D srv s1 (executeCommands c) [] s1
  refine drain_live D s.outFormats (x := ⟨.block, processing s m .block, executeCommands c, _⟩) m (.inr rfl) (block_live D .block s.outFormats fails false c) (processing_of ho hm (.inr rfl)) ts ?_ l _ _ rfl ?_ ?_ ?_ hlen
  · rintro t ht rest s2 ⟨a1, a2⟩
    obtain ⟨b1, b2⟩ := hts t ht s2
    exact ⟨by rw [b1, a1], b2 a2⟩
  · rw [hs, hx.1]; exact k1
  · rw [hs, hx.1]
    constructor
    · intro e
      rcases List.mem_append.mp e with e | e
      · simp at e
      · exact k2.mp e
    · intro e; exact List.mem_append_right _ (k2.mpr e)
  · intro e
    rw [hs, hx.2 (fun h => e (k2.mp h))]
    exact k3 e

/-- The commands of `hold`, once everything is encoded. -/
theorem hold_commands {enc : Str → Except Err Bytes} {cid q : Str} {c d f : Bytes} {s : Stmt α β} {params : List (Option α)} {ps : List (Option Bytes)} (hq : s.string = some q) (hc : enc cid = .ok c)
    (hd : enc (declareCursor cid q) = .ok d) (hf : enc (fetchText cid true (some 4096)) = .ok f) (hp : Row.processTuple s.inputIo params = .ok ps) :
    commands enc cid s params .hold = .ok ⟨[.parse [] d [], .bind [] [] s.inFormats ps [], .execute [] 1] ++ fetchOf f s.outFormats, fetchOf f s.outFormats⟩ := by
  unfold commands fetchCommands declareCommands
  rw [hc, parameters_ok hp, hq]
  have hf' : enc (fetchText cid true (some (chunksize : Int))) = .ok f := hf
  have hd' : enc (declareCursor cid ((some q).getD [])) = .ok d := hd
  dsimp only
  rw [hf', hd']
  rfl

/-- The first exchange of `hold`, up to the FETCH. -/
theorem hold_first (D : Db ω) {cq : Bytes} {c d : Bytes} {inFormats : List Bytes} {ps : List (Option Bytes)} {srv : Srv ω} {l : List ω} {fails : Bool} (hc0 : c ≠ []) (hb : srv.block = .idle) (hnew : srv.portals c = none)
    (hrd : D.reads d = .declare c cq) (hdec : D.declarable cq = true) (hev : D.eval cq inFormats ps = .rows l fails) (es : List Elem) :
    ∃ s1 : Srv ω, s1.portals c = some (.query l fails [] true) ∧ s1.block = .idle ∧
      serve D srv ([.parse [] d [], .bind [] [] inFormats ps [], .execute [] 1] ++ es) = ([.noise, .noise, .complete] ++ (exchange D srv [c] s1 es).1, (exchange D srv [c] s1 es).2) := by
  let sa : Srv ω := { srv with statements := put srv.statements [] d }
  let sb : Srv ω := { sa with portals := put srv.portals [] (.declare c cq inFormats ps) }
  let sc : Srv ω := { sb with portals := put sb.portals c (.query l fails [] true) }
  have ha : srv.block ≠ .aborted := by rw [hb]; simp
  have e1 : one D srv (.parse [] d []) = ([.noise], sa) := by
    show (if srv.block = .aborted then _ else _) = _
    rw [if_neg ha]
  have e2 : one D sa (.bind [] [] inFormats ps []) = ([.noise], sb) := by
    rw [bind_ok D sa (text := d) ha (by simp) (put_self _ _ _)]
    unfold bindText
    rw [hrd]
    dsimp only
    rw [if_pos hdec]
  have hbc : sb.portals c = none := by
    show put srv.portals [] _ c = _
    rw [put_other _ _ hc0, hnew]
  have e3 : one D sb (.execute [] 1) = ([.complete], sc) := by
    show executePortal D sb [] (limit 1) (put srv.portals [] (Portal.declare c cq inFormats ps) []) = _
    rw [put_self]
    show declareAs sb c (D.eval cq inFormats ps) = _
    rw [hev]
    unfold declareAs
    dsimp only
    rw [hbc, if_neg (by simp)]
  refine ⟨sc, put_self _ _ _, hb, ?_⟩
  have hn : ([] ++ declares srv (.parse [] d []) ++ declares sa (.bind [] [] inFormats ps [])) ++ declares sb (.execute [] 1) = [c] := by
    show ([] ++ [] ++ []) ++ declaredBy (put srv.portals [] (Portal.declare c cq inFormats ps) []) = [c]
    rw [put_self]
    rfl
  show exchange D srv [] srv (_ :: _ :: _ :: es) = _
  rw [exchange_ok D srv _ srv _ _ (by simp) e1 (by simp), exchange_ok D srv _ sa _ _ (by simp) e2 (by simp), exchange_ok D srv _ sb _ _ (by simp) e3 (by simp), hn]
  rfl

/-- **C86 (outside of a block, partial: the query can be declared as a cursor).** `DECLARE … WITH HOLD` and the first `FETCH` are one exchange; whatever happens on the connection in between (transactions that begin and end too), every row is given once, in order. If the query fails for any row,
nothing is given: the error is raised at once. Missing: `INSERT … RETURNING` and the like, see `C86_not_declarable`. -/
theorem C86_hold_partial (D : Db ω) {enc : Str → Except Err Bytes} {cid q : Str} {c cq d f : Bytes} {s : Stmt α β} {io : List (Bytes → Except Err β)} {m : Method} {params : List (Option α)} {ps : List (Option Bytes)} {srv : Srv ω}
    {l : List ω} {fails : Bool} (ho : s.outputIo = some io) (hm : m = .rows → io ≠ []) (hq : s.string = some q) (hc : enc cid = .ok c) (hc0 : c ≠ []) (hnew : srv.portals c = none)
    (hd : enc (declareCursor cid q) = .ok d) (hf : enc (fetchText cid true (some 4096)) = .ok f) (hrd : D.reads d = .declare c cq) (hrf : D.reads f = .fetch c 4096) (hp : Row.processTuple s.inputIo params = .ok ps)
    (hb : srv.block = .idle) (hdec : D.declarable cq = true) (hev : D.eval cq s.inFormats ps = .rows l fails)
    (ts : List (Srv ω → Srv ω)) (hts : ∀ t ∈ ts, Apart c t) (hlen : l.length / 4096 + 1 < ts.length) :
    (fails = false → Delivered (decoded D io s.outFormats m) false l (all enc (serve D) cid s m params true srv ts).1 (all enc (serve D) cid s m params true srv ts).2) ∧
      (fails = true → all enc (serve D) cid s m params true srv ts = ([], .raised .runtimeError)) := by
  have hpl : plan s true = .hold := by unfold plan; rw [ho, hq]; rfl
  have hcm := hold_commands hq hc hd hf hp
  rw [← hpl] at hcm
  rw [run_ok hp hcm, ho, hpl]
  obtain ⟨s1, p1, p2, hs⟩ := hold_first D hc0 hb hnew hrd hdec hev (fetchOf f s.outFormats)
  replace hrf : D.reads f = .fetch c chunksize := hrf
  have ha : s1.block ≠ .aborted := by rw [p2]; simp
  obtain ⟨x1, x2⟩ := fetch_spec D .hold s.outFormats hc0 hrf srv s1 [c] p1 ha
  constructor
  · intro hfl
    subst hfl
    obtain ⟨r, s2, y, y1, y2, y3, y4, _⟩ := x2 (by simp)
    have hsy : sync s2 [c] = ([], { s2 with portals := fun k => (s2.portals k).filter keeps }) := by
      unfold sync
      rw [if_pos (by rw [y4]; exact p2), if_neg (by simp [y3, bad])]
    rw [hs, y, hsy]
    refine drain_live D s.outFormats (x := ⟨.hold, processing s m .hold, fetchOf f s.outFormats, _⟩) m (.inl rfl) (hold_live D .hold s.outFormats hc0 hrf []) (processing_of ho hm (.inl rfl)) ts ?_ l _ _ rfl ?_ ?_ ?_ hlen
    · rintro t ht rest s3 ⟨a1, a2⟩
      obtain ⟨b1, b2⟩ := hts t ht s3
      exact ⟨by rw [b1, a1], b2 a2⟩
    · rw [List.filterMap_append, List.append_nil, y2]; rfl
    · constructor
      · intro e
        rw [List.append_nil] at e
        rcases List.mem_append.mp e with e | e
        · simp at e
        · exact absurd e y1
      · intro e; cases e.1
    · intro _
      refine ⟨?_, by show s2.block ≠ _; rw [y4]; exact ha⟩
      show (s2.portals c).filter keeps = _
      rw [y3]
      rfl
  · intro hfl
    subst hfl
    obtain ⟨t, ts, rfl⟩ : ∃ t ts', ts = t :: ts' := by
      cases ts with
      | nil => simp at hlen
      | cons a b => exact ⟨a, b, rfl⟩
    have hbad : .failed ∈ (serve D srv ([.parse [] d [], .bind [] [] s.inFormats ps [], .execute [] 1] ++ fetchOf f s.outFormats)).1 := by
      rw [hs]
      refine List.mem_append_right _ ?_
      by_cases hsh : l.length < chunksize
      · exact (x1 ⟨rfl, hsh⟩).1
      · obtain ⟨r, s2, y, _, _, y3, y4, _⟩ := x2 (fun e => hsh e.2)
        rw [y]
        refine List.mem_append_right _ ?_
        unfold sync
        rw [if_pos (by rw [y4]; exact p2), if_pos (by simp [y3, bad])]
        simp
    unfold drain next
    dsimp only
    rw [if_pos hbad]

/-- **C86 (finding).** Outside of a block, a statement that returns rows but cannot be declared as a cursor (`INSERT … RETURNING`) cannot be read with these methods: whatever it would give, the server's error is raised. In a block, or called, it can. -/
theorem C86_not_declarable (D : Db ω) {enc : Str → Except Err Bytes} {cid q : Str} {c cq d f : Bytes} {s : Stmt α β} {io : List (Bytes → Except Err β)} {m : Method} {params : List (Option α)} {ps : List (Option Bytes)} {srv : Srv ω}
    (ho : s.outputIo = some io) (hq : s.string = some q) (hc : enc cid = .ok c)
    (hd : enc (declareCursor cid q) = .ok d) (hf : enc (fetchText cid true (some 4096)) = .ok f) (hrd : D.reads d = .declare c cq) (hp : Row.processTuple s.inputIo params = .ok ps)
    (hb : srv.block = .idle) (hdec : D.declarable cq = false) (t : Srv ω → Srv ω) (ts : List (Srv ω → Srv ω)) :
    all enc (serve D) cid s m params true srv (t :: ts) = ([], .raised .runtimeError) := by
  have hpl : plan s true = .hold := by unfold plan; rw [ho, hq]; rfl
  have hcm := hold_commands hq hc hd hf hp
  rw [← hpl] at hcm
  rw [run_ok hp hcm]
  let sa : Srv ω := { srv with statements := put srv.statements [] d }
  have ha : srv.block ≠ .aborted := by rw [hb]; simp
  have e1 : one D srv (.parse [] d []) = ([.noise], sa) := by
    show (if srv.block = .aborted then _ else _) = _
    rw [if_neg ha]
  have e2 : one D sa (.bind [] [] s.inFormats ps []) = ([.failed], sa) := by
    rw [bind_ok D sa (text := d) ha (by simp) (put_self _ _ _)]
    unfold bindText
    rw [hrd]
    dsimp only
    rw [if_neg (by rw [hdec]; simp)]
  have hbad : .failed ∈ (serve D srv ([.parse [] d [], .bind [] [] s.inFormats ps [], .execute [] 1] ++ fetchOf f s.outFormats)).1 := by
    show _ ∈ (exchange D srv [] srv (_ :: _ :: _)).1
    rw [exchange_ok D srv _ srv _ _ (by simp) e1 (by simp), exchange_bad D srv _ sa _ _ (by simp) e2 (by simp)]
    simp
  unfold drain next
  dsimp only
  rw [if_pos hbad]

/-- The exchange of the plans that get everything at once. -/
theorem call_exchange (D : Db ω) {s : Stmt α β} {ps : List (Option Bytes)} {srv : Srv ω} {text : Bytes} (hb : srv.block ≠ .aborted) (hst : srv.statements s.id = some text) (hr : D.reads text = .other) :
    (serve D srv (Statement.callCommands s.id s.inFormats ps s.outFormats)).1 =
      (match D.eval text s.inFormats ps with
      | .rows l fails => .noise :: (rowsUpTo D s.outFormats l fails none).1
      | .copy l => .noise :: .copyBegin :: l.map .line ++ [.complete]
      | .nothing => [.noise, .complete]
      | .refused => [.failed]) := by
  have hl : limit 0xFFFFFFFF = none := by decide
  show (exchange D srv [] srv (_ :: _ :: _ :: [])).1 = _
  have e1 : one D srv (.bind [] s.id s.inFormats ps s.outFormats) = bindText D srv [] s.inFormats ps s.outFormats text := bind_ok D srv hb (by simp) hst
  unfold bindText at e1
  rw [hr] at e1
  dsimp only at e1
  have hsync : ∀ (t : Srv ω), sync t [] = ([], (sync t []).2) := by
    intro t; unfold sync; split
    · rw [if_neg (by simp)]
    · rfl
  have key : ∀ (P : Portal ω) (r : List Reply) (s2 : Srv ω), declaredBy (some P) = [] → one D srv (.bind [] s.id s.inFormats ps s.outFormats) = ([.noise], { srv with portals := put srv.portals [] P }) →
      executePortal D { srv with portals := put srv.portals [] P } [] none (some P) = (r, s2) → (exchange D srv [] srv [.bind [] s.id s.inFormats ps s.outFormats, .execute [] 0xFFFFFFFF, .empty .synchronize]).1 = .noise :: r := by
    intro P r s2 hP h1 h2
    rw [exchange_ok D srv _ srv _ _ (by simp) h1 (by simp)]
    have h3 : one D { srv with portals := put srv.portals [] P } (.execute [] 0xFFFFFFFF) = (r, s2) := by
      show executePortal D _ [] (limit 0xFFFFFFFF) (put srv.portals [] P []) = _
      rw [put_self, hl, h2]
    by_cases hf : Reply.failed ∈ r
    · rw [exchange_bad D srv _ _ _ _ (by simp) h3 hf]
      rfl
    · rw [exchange_ok D srv _ _ _ _ (by simp) h3 hf, exchange_sync]
      have : ([] ++ declares srv (.bind [] s.id s.inFormats ps s.outFormats)) ++ declares { srv with portals := put srv.portals [] P } (.execute [] 0xFFFFFFFF) = [] := by
        show ([] ++ []) ++ declaredBy (put srv.portals [] P []) = []
        rw [put_self, hP]
        rfl
      rw [this, hsync]
      simp
  cases hev : D.eval text s.inFormats ps with
  | rows l fails =>
    rw [hev] at e1
    exact key _ _ _ rfl e1 rfl
  | copy l =>
    rw [hev] at e1
    exact key _ _ _ rfl e1 rfl
  | nothing =>
    rw [hev] at e1
    exact key _ _ _ rfl e1 rfl
  | refused =>
    rw [hev] at e1
    rw [exchange_bad D srv _ srv _ _ (by simp) e1 (by simp)]

theorem call_run {enc : Str → Except Err Bytes} {sv : Serve (Srv ω)} {cid : Str} {s : Stmt α β} {m : Method} {params : List (Option α)} {idle : Bool} {srv : Srv ω} {ps : List (Option Bytes)} {pl : Plan} (hpl : plan s idle = pl) (h : pl = .copy ∨ pl = .whole)
    (hp : Row.processTuple s.inputIo params = .ok ps) (ts : List (Srv ω → Srv ω)) :
    all enc sv cid s m params idle srv ts = drain s.outputIo sv ts ⟨pl, processing s m pl, [], some (sv srv (Statement.callCommands s.id s.inFormats ps s.outFormats)).1⟩ (sv srv (Statement.callCommands s.id s.inFormats ps s.outFormats)).2 := by
  have hcm : commands enc cid s params (plan s idle) = .ok ⟨Statement.callCommands s.id s.inFormats ps s.outFormats, []⟩ := by
    rw [hpl]
    unfold commands
    rw [parameters_ok hp]
    rcases h with rfl | rfl <;> rfl
  rw [run_ok hp hcm, hpl]

/-- One chunk, and the end. -/
theorem drain_once {io : Option (List (Bytes → Except Err β))} {sv : Serve (Srv ω)} {pl : Plan} {pr : Processing} {r : List Reply} {srv : Srv ω} (h : pl = .copy ∨ pl = .whole) (hf : .failed ∉ r) (t u : Srv ω → Srv ω) (ts : List (Srv ω → Srv ω)) :
    drain io sv (t :: u :: ts) ⟨pl, pr, [], some r⟩ srv =
      if r.filterMap (dataOf pl) = [] ∧ .copyBegin ∉ r then ([], .stop)
      else match process io pr (r.filterMap (dataOf pl)) with
        | .ok l => ([l], .stop)
        | .error e => ([], .raised e) := by
  have hn : ¬ (pl = .hold ∨ pl = .block) := by rcases h with rfl | rfl <;> simp
  unfold drain next
  dsimp only
  rw [if_neg hf, if_neg hn]
  by_cases hz : r.filterMap (dataOf pl) = [] ∧ .copyBegin ∉ r
  · rw [if_pos hz, if_pos hz]
  · rw [if_neg hz, if_neg hz]
    cases process io pr (r.filterMap (dataOf pl)) with
    | error e => rfl
    | ok l =>
      dsimp only
      have : drain io sv (u :: ts) ⟨pl, pr, [], none⟩ (t srv) = ([], .stop) := by unfold drain next; rfl
      rw [this]

/-- **C86 (`statement_from_id` outside of a block).** The text is not known, so everything is received at once: `rows` and `column` give every row once, in order. -/
theorem C86_from_id (D : Db ω) {enc : Str → Except Err Bytes} {cid : Str} {s : Stmt α β} {io : List (Bytes → Except Err β)} {m : Method} {params : List (Option α)} {ps : List (Option Bytes)} {srv : Srv ω}
    {text : Bytes} {l : List ω} {items : List (Item β)} (ho : s.outputIo = some io) (hm : m ≠ .chunks) (hio : m = .rows → io ≠ []) (hq : s.string = none) (hp : Row.processTuple s.inputIo params = .ok ps)
    (hb : srv.block = .idle) (hst : srv.statements s.id = some text) (hr : D.reads text = .other) (hev : D.eval text s.inFormats ps = .rows l false) (hdec : l.mapM (decoded D io s.outFormats m) = .ok items)
    (t u : Srv ω → Srv ω) (ts : List (Srv ω → Srv ω)) :
    (all enc (serve D) cid s m params true srv (t :: u :: ts)).1.flatten = items ∧ (all enc (serve D) cid s m params true srv (t :: u :: ts)).2 = .stop := by
  have hpl : plan s true = .whole := by unfold plan; rw [ho, hq]; rfl
  obtain ⟨k1, k2, k3⟩ := rowsUpTo_all D .whole s.outFormats l false
  have hx := call_exchange D (s := s) (ps := ps) (by rw [hb]; simp) hst hr
  rw [hev] at hx
  dsimp only at hx
  rw [call_run hpl (.inr rfl) hp, hx, drain_once (.inr rfl) (by simp [k2])]
  have hpr : (m = .chunks ∧ processing s m .whole = .tuples) ∨ (m = .rows ∧ processing s m .whole = .rows) ∨ (m = .column ∧ processing s m .whole = .column) := by
    cases m with
    | chunks => exact absurd rfl hm
    | rows =>
      refine .inr (.inl ⟨rfl, ?_⟩)
      unfold processing hasColumns
      rw [ho]
      cases io with
      | nil => exact absurd rfl (hio rfl)
      | cons f io => rfl
    | column => exact .inr (.inr ⟨rfl, rfl⟩)
  have hd : (Reply.noise :: (rowsUpTo D s.outFormats l false none).1).filterMap (dataOf .whole) = tuples D s.outFormats l := by rw [List.filterMap_cons]; exact k1
  rw [hd, ho]
  cases l with
  | nil =>
    cases hdec
    rw [if_pos ⟨rfl, by simp [k3]⟩]
    exact ⟨rfl, rfl⟩
  | cons r l =>
    rw [if_neg (by unfold tuples; simp), process_tuples D s.outFormats _ (by simp) hpr, hdec]
    exact ⟨by simp, rfl⟩

/-- **C86 (finding).** `chunks` of such a statement raises AttributeError as soon as there is a row: the class has no `_process_chunk`. -/
theorem C86_from_id_chunks (D : Db ω) {enc : Str → Except Err Bytes} {cid : Str} {s : Stmt α β} {io : List (Bytes → Except Err β)} {params : List (Option α)} {ps : List (Option Bytes)} {srv : Srv ω}
    {text : Bytes} {l : List ω} (ho : s.outputIo = some io) (hq : s.string = none) (hp : Row.processTuple s.inputIo params = .ok ps)
    (hb : srv.block = .idle) (hst : srv.statements s.id = some text) (hr : D.reads text = .other) (hev : D.eval text s.inFormats ps = .rows l false) (hl : l ≠ [])
    (t u : Srv ω → Srv ω) (ts : List (Srv ω → Srv ω)) :
    all enc (serve D) cid s .chunks params true srv (t :: u :: ts) = ([], .raised .attributeError) := by
  have hpl : plan s true = .whole := by unfold plan; rw [ho, hq]; rfl
  obtain ⟨k1, k2, k3⟩ := rowsUpTo_all D .whole s.outFormats l false
  have hx := call_exchange D (s := s) (ps := ps) (by rw [hb]; simp) hst hr
  rw [hev] at hx
  dsimp only at hx
  have hd : (Reply.noise :: (rowsUpTo D s.outFormats l false none).1).filterMap (dataOf .whole) = tuples D s.outFormats l := by rw [List.filterMap_cons]; exact k1
  rw [call_run hpl (.inr rfl) hp, hx, drain_once (.inr rfl) (by simp [k2]), hd, if_neg (by cases l <;> simp_all [tuples])]
  rfl

/-- **C86 (partial: what is missing are the two findings).** One query, the same rows whatever the way: in a transaction block or not, prepared or taken from its identifier. -/
theorem C86_same_rows_partial (D : Db ω) {enc : Str → Except Err Bytes} {cid : Str} {c cq f : Bytes} {s : Stmt α β} {io : List (Bytes → Except Err β)} {m : Method} {params : List (Option α)} {ps : List (Option Bytes)} {srv : Srv ω}
    {l : List ω} {items : List (Item β)} (ho : s.outputIo = some io) (hio : m = .rows → io ≠ []) (hc : enc cid = .ok c) (hc0 : c ≠ []) (hnew : srv.portals c = none)
    (hst : srv.statements s.id = some cq) (hr : D.reads cq = .other) (hev : D.eval cq s.inFormats ps = .rows l false)
    (hq : ∀ q, s.string = some q → ∃ d, enc (declareCursor cid q) = .ok d ∧ D.reads d = .declare c cq) (hf : enc (fetchText cid true (some 4096)) = .ok f) (hrf : D.reads f = .fetch c 4096)
    (hp : Row.processTuple s.inputIo params = .ok ps) (hb : srv.block ≠ .aborted)
    (hmiss : srv.block = .idle → (if s.string.isSome then D.declarable cq = true else m ≠ .chunks))
    (hdec : l.mapM (decoded D io s.outFormats m) = .ok items)
    (ts : List (Srv ω → Srv ω)) (hts : ∀ t ∈ ts, Within c t ∧ Apart c t) (hlen : l.length / 4096 + 1 < ts.length) :
    (all enc (serve D) cid s m params (srv.block = .idle) srv ts).1.flatten = items ∧ (all enc (serve D) cid s m params (srv.block = .idle) srv ts).2 = .stop := by
  have fin : ∀ {o : List (List (Item β)) × End}, Delivered (decoded D io s.outFormats m) false l o.1 o.2 → o.1.flatten = items ∧ o.2 = .stop := by
    intro o hd
    have h1 := hd.done items rfl hdec
    refine ⟨?_, h1⟩
    have h2 := hd.prefix_
    rw [(hd.stop h1).1, List.take_length, hdec] at h2
    exact (Except.ok.inj h2).symm
  by_cases hi : srv.block = .idle
  · rw [decide_eq_true hi]
    have hmiss := hmiss hi
    cases hs : s.string with
    | none =>
      rw [hs] at hmiss
      obtain ⟨t, u, ts', rfl⟩ : ∃ t u ts', ts = t :: u :: ts' := by
        match ts, hlen with
        | [], h => simp at h
        | [_], h => simp at h
        | t :: u :: ts', _ => exact ⟨t, u, ts', rfl⟩
      exact C86_from_id D ho hmiss hio hs hp hi hst hr hev hdec t u ts'
    | some q =>
      rw [hs] at hmiss
      obtain ⟨d, hd, hrd⟩ := hq q hs
      exact fin ((C86_hold_partial D ho hio hs hc hc0 hnew hd hf hrd hrf hp hi hmiss hev ts (fun t ht => (hts t ht).2) hlen).1 rfl)
  · rw [decide_eq_false hi]
    have hin : srv.block = .inBlock := by
      cases hbb : srv.block with
      | idle => exact absurd hbb hi
      | inBlock => rfl
      | aborted => exact absurd hbb hb
    exact fin (C86_block D ho hio hc hnew hp hin hst hr hev ts (fun t ht => (hts t ht).1) hlen)

/-- **C86 (COPY).** The lines of a `COPY … TO STDOUT`, each once and in order, in a block or not; `rows` gives the same as `chunks`. -/
theorem C86_copy (D : Db ω) {enc : Str → Except Err Bytes} {cid : Str} {s : Stmt α β} {m : Method} {params : List (Option α)} {ps : List (Option Bytes)} {srv : Srv ω} {text : Bytes} {l : List Bytes}
    (ho : s.outputIo = none) (hm : m ≠ .column) (hp : Row.processTuple s.inputIo params = .ok ps) (hb : srv.block ≠ .aborted) (hst : srv.statements s.id = some text) (hr : D.reads text = .other)
    (hev : D.eval text s.inFormats ps = .copy l) (idle : Bool) (t u : Srv ω → Srv ω) (ts : List (Srv ω → Srv ω)) :
    all enc (serve D) cid s m params idle srv (t :: u :: ts) = ([l.map .line], .stop) := by
  have hpl : plan s idle = .copy := by unfold plan; rw [ho]; rfl
  have hx := call_exchange D (s := s) (ps := ps) hb hst hr
  rw [hev] at hx
  dsimp only at hx
  have hd : ∀ l : List Bytes, (l.map Reply.line ++ [Reply.complete]).filterMap (dataOf .copy) = l.map .line := by
    intro l
    induction l with
    | nil => rfl
    | cons d l ih =>
      rw [List.map_cons, List.cons_append, List.filterMap_cons, ih]
      rfl
  have hnf : Reply.failed ∉ Reply.noise :: Reply.copyBegin :: l.map Reply.line ++ [Reply.complete] := by simp
  have hpr : processing s m .copy = .lines := by
    cases m with
    | chunks => rfl
    | rows => unfold processing hasColumns; rw [ho]; rfl
    | column => exact absurd rfl hm
  rw [call_run hpl (.inl rfl) hp, hx, drain_once (.inl rfl) hnf, if_neg (by simp), hpr]
  have : (Reply.noise :: Reply.copyBegin :: l.map Reply.line ++ [Reply.complete]).filterMap (dataOf .copy) = l.map .line := hd l
  rw [this]
  have hl : ∀ l : List Bytes, (l.map Datum.line).filterMap (fun | .line d => some (Item.line (β := β) d) | .tuple _ => none) = l.map .line := by
    intro l
    induction l with
    | nil => rfl
    | cons d l ih => rw [List.map_cons, List.filterMap_cons, ih]; rfl
  show (([(l.map Datum.line).filterMap (fun | .line d => some (Item.line (β := β) d) | .tuple _ => none)], End.stop) : List (List (Item β)) × End) = _
  rw [hl]

/-- **C86 (finding).** `column` of a COPY raises TypeError (it indexes None), even if there are no lines. -/
theorem C86_copy_column (D : Db ω) {enc : Str → Except Err Bytes} {cid : Str} {s : Stmt α β} {params : List (Option α)} {ps : List (Option Bytes)} {srv : Srv ω} {text : Bytes} {l : List Bytes}
    (ho : s.outputIo = none) (hp : Row.processTuple s.inputIo params = .ok ps) (hb : srv.block ≠ .aborted) (hst : srv.statements s.id = some text) (hr : D.reads text = .other)
    (hev : D.eval text s.inFormats ps = .copy l) (idle : Bool) (t u : Srv ω → Srv ω) (ts : List (Srv ω → Srv ω)) :
    all enc (serve D) cid s .column params idle srv (t :: u :: ts) = ([], .raised .typeError) := by
  have hpl : plan s idle = .copy := by unfold plan; rw [ho]; rfl
  have hx := call_exchange D (s := s) (ps := ps) hb hst hr
  rw [hev] at hx
  dsimp only at hx
  have hnf : Reply.failed ∉ Reply.noise :: Reply.copyBegin :: l.map Reply.line ++ [Reply.complete] := by simp
  rw [call_run hpl (.inl rfl) hp, hx, drain_once (.inl rfl) hnf, if_neg (by simp), ho]
  rfl

/-- **C86 (commands).** A statement that gives nothing (an INSERT) is executed, and gives nothing. -/
theorem C86_nothing (D : Db ω) {enc : Str → Except Err Bytes} {cid : Str} {s : Stmt α β} {m : Method} {params : List (Option α)} {ps : List (Option Bytes)} {srv : Srv ω} {text : Bytes}
    (ho : s.outputIo = none) (hp : Row.processTuple s.inputIo params = .ok ps) (hb : srv.block ≠ .aborted) (hst : srv.statements s.id = some text) (hr : D.reads text = .other)
    (hev : D.eval text s.inFormats ps = .nothing) (idle : Bool) (t u : Srv ω → Srv ω) (ts : List (Srv ω → Srv ω)) :
    all enc (serve D) cid s m params idle srv (t :: u :: ts) = ([], .stop) := by
  have hpl : plan s idle = .copy := by unfold plan; rw [ho]; rfl
  have hx := call_exchange D (s := s) (ps := ps) hb hst hr
  rw [hev] at hx
  dsimp only at hx
  rw [call_run hpl (.inl rfl) hp, hx, drain_once (.inl rfl) (by simp), if_pos ⟨rfl, by simp⟩]

/-- **C86 (wrong parameters).** A wrong number of parameters is a TypeError, one that cannot be packed the client's error; nothing is sent: the exception does not depend on the server, whose state is not used. -/
theorem C86_before_sending {σ : Type} (enc : Str → Except Err Bytes) (sv : Serve σ) (cid : Str) (s : Stmt α β) (m : Method) (params : List (Option α)) (idle : Bool) (srv : σ) :
    (params.length ≠ s.inputIo.length → run enc sv cid s m params idle srv = .error .typeError) ∧
      (∀ cause i, params.length = s.inputIo.length → Row.processTuple s.inputIo params = .error (.handler cause i) → (∀ t, ∃ b, enc t = .ok b) → run enc sv cid s m params idle srv = .error .runtimeError) := by
  constructor
  · intro h
    unfold run
    rw [if_pos h]
  · intro cause i h hp henc
    unfold run
    rw [if_neg (by simp [h])]
    have hpar : parameters s params = .error .runtimeError := by unfold parameters; rw [hp]; rfl
    have hc : commands enc cid s params (plan s idle) = .error .runtimeError := by
      obtain ⟨c, hc⟩ := henc cid
      cases hpl : plan s idle with
      | hold =>
        obtain ⟨f, hf⟩ := henc (fetchText cid true (some (chunksize : Int)))
        obtain ⟨d, hd⟩ := henc (declareCursor cid (s.string.getD []))
        unfold commands fetchCommands declareCommands
        dsimp only
        rw [hc, hf, hd, hpar]
        rfl
      | block => unfold commands; rw [hc, hpar]; rfl
      | copy => unfold commands; rw [hpar]; rfl
      | whole => unfold commands; rw [hpar]; rfl
    rw [hc]

/-! ## Examples -/

/-- A server that has a query `Q` with 5000 rows, `R` (an INSERT … RETURNING), `C` (a COPY); rows are numbers, sent in two bytes. -/
def sampleDb (enc : Str → Except Err Bytes) (cid : Str) : Db Nat where
  reads t := if enc (declareCursor cid ['Q']) = .ok t then .declare [99] [81] else if enc (declareCursor cid ['R']) = .ok t then .declare [99] [82] else if enc (fetchText cid true (some 4096)) = .ok t then .fetch [99] 4096 else .other
  eval t _ _ := if t = [81] then .rows (List.range 5000) false else if t = [82] then .rows [7] false else if t = [67] then .copy [[1], [2]] else .refused
  declarable t := t = [81]
  wire _ r := [some [UInt8.ofNat (r / 256), UInt8.ofNat r]]

/-- ASCII. -/
def sampleEnc (t : Str) : Except Err Bytes := .ok (t.map fun c => UInt8.ofNat c.toNat)

/-- The statement `Q`: the column is decoded as a number. -/
def sampleStmt (string : Option Str) : Stmt Nat Nat := ⟨[1], string, [], [], [], some [fun b => .ok (beDec b)]⟩

/-- The session. -/
def sampleSrv (text : Bytes) (b : Block) : Srv Nat := ⟨fun k => if k = [1] then some text else none, fun _ => none, b⟩

theorem sample_decoded : ∀ l : List Nat, (∀ n ∈ l, n < 65536) → l.mapM (decoded (sampleDb sampleEnc ['c']) [fun b => .ok (beDec b)] [] .rows) = .ok (l.map fun n => .row [some n])
  | [], _ => rfl
  | n :: l, h => by
    rw [List.mapM_cons, sample_decoded l (fun m hm => h m (List.mem_cons_of_mem _ hm))]
    have h1 := h n List.mem_cons_self
    have : beDec [UInt8.ofNat (n / 256), UInt8.ofNat n] = n := by
      show (0 * 256 + (UInt8.ofNat (n / 256)).toNat) * 256 + (UInt8.ofNat n).toNat = n
      simp only [UInt8.toNat_ofNat']
      omega
    show Except.ok (Item.row [some (beDec [UInt8.ofNat (n / 256), UInt8.ofNat n])] :: _) = _
    rw [this]
    rfl

theorem range_lt (N : Nat) (l : List Nat) (h : l = List.range N) (n : Nat) (hn : n ∈ l) : n < N := by
  subst h; exact List.mem_range.mp hn

theorem sample_range (l : List Nat) (h : l = List.range 5000) : l.mapM (decoded (sampleDb sampleEnc ['c']) [fun b => .ok (beDec b)] [] .rows) = .ok (l.map fun n => .row [some n]) :=
  sample_decoded l fun n hn => Nat.lt_trans (range_lt _ l h n hn) (by decide)

/-- The hypotheses are met: 5000 rows, in a block and outside of one, prepared (with a cursor) and taken from its identifier. -/
example (b : Block) (hb : b ≠ .aborted) (string : Option Str) (hs : ∀ q, string = some q → q = ['Q']) :
    (all sampleEnc (serve (sampleDb sampleEnc ['c'])) ['c'] (sampleStmt string) .rows [] (b = .idle) (sampleSrv [81] b) [id, id, id]).1.flatten = (List.range 5000).map (fun n => .row [some n]) := by
  generalize hl : List.range 5000 = l
  have hmap := sample_range l hl.symm
  refine (C86_same_rows_partial (sampleDb sampleEnc ['c']) (s := sampleStmt string) (m := .rows) (srv := sampleSrv [81] b) (items := l.map fun n => .row [some n]) (c := [99]) (cq := [81]) (f := (fetchText ['c'] true (some 4096)).map fun c => UInt8.ofNat c.toNat) (io := [fun b => .ok (beDec b)]) (ps := []) (l := l) rfl (by simp) rfl (by simp) rfl rfl ?_ ?_ ?_ rfl ?_ rfl hb ?_ hmap [id, id, id] ?_ ?_).1
  · decide +kernel
  · rw [← hl]; rfl
  · intro q hq
    rw [hs q hq]
    exact ⟨_, rfl, by decide +kernel⟩
  · decide +kernel
  · intro _
    cases string with
    | none => show Method.rows ≠ .chunks; simp
    | some q => rfl
  · intro t ht
    have : t = id := by simpa using ht
    subst this
    exact ⟨fun s => ⟨rfl, fun h => h⟩, fun s => ⟨rfl, fun h => h⟩⟩
  · rw [← hl, List.length_range]; decide

/-- `INSERT … RETURNING`: in a block its row is given, outside of one the error is raised. -/
example : all sampleEnc (serve (sampleDb sampleEnc ['c'])) ['c'] (sampleStmt (some ['R'])) .rows [] false (sampleSrv [82] .inBlock) [id, id, id] = ([[.row [some 7]]], .stop) := by decide +kernel

example : all sampleEnc (serve (sampleDb sampleEnc ['c'])) ['c'] (sampleStmt (some ['R'])) .rows [] true (sampleSrv [82] .idle) [id, id, id] = ([], .raised .runtimeError) :=
  C86_not_declarable (sampleDb sampleEnc ['c']) (c := [99]) (cq := [82]) (ps := []) rfl rfl rfl rfl rfl (by decide +kernel) rfl rfl (by decide) id [id, id]

example : all sampleEnc (serve (sampleDb sampleEnc ['c'])) ['c'] (sampleStmt none) .chunks [] true (sampleSrv [82] .idle) [id, id, id] = ([], .raised .attributeError) :=
  C86_from_id_chunks (sampleDb sampleEnc ['c']) (ps := []) (text := [82]) (l := [7]) rfl rfl rfl rfl rfl (by decide +kernel) rfl (by simp) id id [id]

/-- A COPY, and a command. -/
example : all sampleEnc (serve (sampleDb sampleEnc ['c'])) ['c'] (⟨[1], some ['C'], [], [], [], none⟩ : Stmt Nat Nat) .rows [] true (sampleSrv [67] .idle) [id, id] = ([[.line [1], .line [2]]], .stop) :=
  C86_copy (sampleDb sampleEnc ['c']) (s := ⟨[1], some ['C'], [], [], [], none⟩) (m := .rows) (srv := sampleSrv [67] .idle) (text := [67]) (l := [[1], [2]]) (ps := []) rfl (by simp) rfl (by simp [sampleSrv]) rfl (by decide +kernel) rfl true id id []

end PG.Chunks
