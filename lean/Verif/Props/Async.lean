import Verif.Proofs.Async2
import Verif.Props.Xact
import Verif.Model.Client3
/-!
# C76: asynchronous messages end up where the user finds them

`serve w h db s bs`: the transaction `s`, made with the hook `h`, waits and receives the batches `bs` (new objects); the connection is `db`.
-/
namespace PG.Props.Async
open PG PG.Element3 PG.Xact3 PG.Async PG.Encodings PG.Messages PG.Spec.Xact PG.Spec.Async PG.Props.Xact

variable {C : Type} {w : World C} {db db' : Db C} {s a : Inst} {bs : List Batch} {n : Nat}

theorem served {h : HookOf} (hf : Fresh s bs) (hs : serve w h db s bs = (a, .ok n, db')) :
    ∃ es, a.hookCalls = s.hookCalls ++ es ∧ es.map some = ((taken n bs).flatMap fun ms => firsts (asyncsOf ms)).map parsed ∧ db' = called w h db es := by
  unfold serve at hs
  cases hfd : feed s bs with
  | mk x y =>
    obtain ⟨r, k⟩ := y
    rw [hfd] at hs
    injection hs with h1 hs
    injection hs with h2 h3
    subst h1 h2
    obtain ⟨es, e1, e2⟩ := feed_hooks bs s n hf.1 (fun b hb => (hf.2 b hb).2.1) (by rw [hfd])
    rw [hfd] at e1
    refine ⟨es, e1, e2, ?_⟩
    rw [← h3]
    dsimp only at e1
    rw [e1, List.drop_left]

theorem taken_distinct : ∀ {bs : List Batch} {n : Nat}, Distinct bs → ((taken n bs).flatMap fun ms => firsts (asyncsOf ms)) = asyncsOf ((allMsgs bs).take n)
  | [], n, _ => by simp [taken, allMsgs, asyncsOf]
  | b :: bs, n, h => by
    have ih := taken_distinct (bs := bs) (n := n - b.msgs.length) fun b' hb' => h b' (List.mem_cons_of_mem _ hb')
    unfold taken
    rw [List.flatMap_cons, ih, firsts_nodup]
    · have : allMsgs (b :: bs) = b.msgs ++ allMsgs bs := by simp [allMsgs]
      rw [this, List.take_append]
      unfold asyncsOf
      rw [List.filter_append]
    · exact List.Sublist.nodup (List.Sublist.filter _ (List.take_sublist _ _)) (h b List.mem_cons_self)

/-- **C76 (every asynchronous message is handed over, in order).** A transaction that takes in `n` of the messages it receives has called its hook with the asynchronous ones among them, in order;
of equal ones that came in the same batch, with the first. -/
theorem C76_delivered {h : HookOf} (hf : Fresh s bs) (hs : serve w h db s bs = (a, .ok n, db')) :
    ∃ es, a.hookCalls = s.hookCalls ++ es ∧ es.map some = ((taken n bs).flatMap fun ms => firsts (asyncsOf ms)).map parsed ∧
      (Distinct bs → es.map some = (asyncsOf ((allMsgs bs).take n)).map parsed) := by
  obtain ⟨es, h1, h2, _⟩ := served hf hs
  exact ⟨es, h1, h2, fun hd => by rw [h2, taken_distinct hd]⟩

theorem notify_type {x : Msg} {m : Elem} (h : parsed x = some m) : isNotify m = decide (x.1 = 65) := by
  unfold parsed at h
  by_cases h1 : x.1 = 78
  · rw [if_pos h1] at h
    unfold parseK at h
    cases h
    rw [h1]; rfl
  · rw [if_neg h1] at h
    by_cases h2 : x.1 = 65
    · rw [if_pos h2] at h
      rw [h2]
      cases hp : parseK .notify x.2 with
      | error e => rw [hp] at h; cases h
      | ok y =>
        rw [hp] at h; cases h
        have := parseK_kind hp
        cases m <;> first | rfl | cases this
    · rw [if_neg h2] at h
      by_cases h3 : x.1 = 83
      · rw [if_pos h3] at h
        cases hp : parseK .showOption x.2 with
        | error e => rw [hp] at h; cases h
        | ok y =>
          rw [hp] at h; cases h
          have := parseK_kind hp
          rw [h3]
          cases m <;> first | rfl | cases this
      · rw [if_neg h3] at h; cases h

theorem notifies_of : ∀ {es : List Elem} {ms : List Msg}, es.map some = ms.map parsed → (es.filter isNotify).map some = (ms.filter fun x => x.1 = 65).map parsed
  | [], [], _ => rfl
  | [], _ :: _, h => by cases h
  | _ :: _, [], h => by cases h
  | e :: es, x :: ms, h => by
    rw [List.map_cons, List.map_cons] at h
    injection h with h1 h2
    have ih := notifies_of h2
    have ht := notify_type h1.symm
    by_cases hx : x.1 = 65
    · rw [List.filter_cons_of_pos (by rw [ht]; exact decide_eq_true hx), List.filter_cons_of_pos (by simpa using hx), List.map_cons, List.map_cons, ih, h1]
    · rw [List.filter_cons_of_neg (by rw [ht]; simpa using hx), List.filter_cons_of_neg (by simpa using hx), ih]

/-- **C76 (no notification is lost, none is reordered).** The notifications a transaction took in, whatever else came between them and whatever callbacks and message hooks did, are at the end of
`_notifies`, in order.  Missing: batches with equal asynchronous messages (`C76_equal_dropped`), the transaction that closes discarded statements (`C76_closing_drops`). -/
theorem C76_notifications_partial (hf : Fresh s bs) (hd : Distinct bs) (hs : serve w .database db s bs = (a, .ok n, db')) :
    ∃ ns, db'.notifies = db.notifies ++ ns ∧ ns.map some = (((allMsgs bs).take n).filter fun x => x.1 = 65).map parsed := by
  obtain ⟨es, _, h2, rfl⟩ := served hf hs
  rw [taken_distinct hd] at h2
  refine ⟨es.filter isNotify, (called_notifies es db).1, ?_⟩
  rw [notifies_of h2]
  congr 1
  unfold asyncsOf
  rw [List.filter_filter]
  apply List.filter_congr
  intro x _
  by_cases hx : x.1 = 65
  · rw [hx]; rfl
  · rw [decide_eq_false hx]; rfl

/-- The parameters reported by the messages on the wire. -/
def reportedBy (ms : List Msg) : List (Bytes × Bytes) := options (ms.filterMap parsed)

theorem options_of {es : List Elem} {ms : List Msg} (h : es.map some = (asyncsOf ms).map parsed) : options es = reportedBy ms := by
  have h1 : es = (asyncsOf ms).filterMap parsed := by
    have := congrArg (List.filterMap id) h
    rw [List.filterMap_map, List.filterMap_map] at this
    simpa using this
  have h2 : ms.filterMap parsed = (asyncsOf ms).filterMap parsed := by
    clear h h1
    induction ms with
    | nil => rfl
    | cons x xs ih =>
      cases hk : asyncKind x.1 with
      | some k =>
        rw [asyncsOf_cons_async hk, List.filterMap_cons, List.filterMap_cons, ih]
      | none =>
        rw [asyncsOf_cons_other hk, List.filterMap_cons_none, ih]
        unfold parsed
        have h78 : x.1 ≠ 78 := fun e => by rw [e] at hk; cases hk
        have h65 : x.1 ≠ 65 := fun e => by rw [e] at hk; cases hk
        have h83 : x.1 ≠ 83 := fun e => by rw [e] at hk; cases hk
        rw [if_neg h78, if_neg h65, if_neg h83]
  unfold reportedBy
  rw [h2, ← h1]

/-- **C76 (the settings, their subscribers and the encoding follow the server).** After a transaction took in messages: `settings` has for each parameter the value the server reported last, if it
reported one; every callback subscribed was called with every report for its parameter, in order; and the codec in use is that of the last `client_encoding` reported.
Missing: as above; callbacks that raise, encodings unknown to Python (`C76_callback_stale`, `C76_unknown_encoding`). -/
theorem C76_settings_partial (hu : Usual w) (hf : Fresh s bs) (hd : Distinct bs) (hs : serve w .database db s bs = (a, .ok n, db')) (hk : Known w (reportedBy ((allMsgs bs).take n))) :
    (∀ k, PyDict.get (text k) db'.cache = ((lastValue k (reportedBy ((allMsgs bs).take n))).map text).or (PyDict.get (text k) db.cache)) ∧
    db'.calls = db.calls ++ (reportedBy ((allMsgs bs).take n)).flatMap (fun e => (subscribed db (text e.1)).map fun f => (f, text e.1, text e.2)) ∧
    (∀ v, lastValue CLIENT_ENCODING (reportedBy ((allMsgs bs).take n)) = some v → w.lookup (codecName w.U (text v)) = some db'.coding.codec) ∧
    (lastValue CLIENT_ENCODING (reportedBy ((allMsgs bs).take n)) = none → db'.coding.codec = db.coding.codec) := by
  obtain ⟨es, _, h2, rfl⟩ := served hf hs
  rw [taken_distinct hd] at h2
  rw [← options_of h2] at hk ⊢
  obtain ⟨h1, h2, h3⟩ := called_settings hu es db hk
  refine ⟨h1, h2, fun v hv => ?_, fun hv => by rw [h3]; unfold codecOf; rw [hv]⟩
  rw [h3]
  unfold codecOf
  rw [hv]
  dsimp only
  have : ∃ c, w.lookup (codecName w.U (text v)) = some c := by
    unfold lastValue at hv
    cases hg : ((options es).filter fun e => e.1 = CLIENT_ENCODING).getLast? with
    | none => rw [hg] at hv; cases hv
    | some e =>
      rw [hg] at hv
      cases hv
      have hm := List.mem_of_getLast? hg
      rw [List.mem_filter] at hm
      exact (hk e hm.1).2.2 (by simpa using hm.2)
  obtain ⟨c, hc⟩ := this
  rw [hc]; rfl

theorem notices_mono : ∀ (es : List Elem) (db : Db C), db.notices <+: (called w .database db es).notices ∧ db.reported <+: (called w .database db es).reported
  | [], db => ⟨List.prefix_rfl, List.prefix_rfl⟩
  | m :: es, db => by
    obtain ⟨h1, h2⟩ := notices_mono es (hooked w db m)
    have hr : db.reported <+: (hooked w db m).reported := by rw [(hooked_rest (w := w) db m).2.2]; exact List.prefix_append _ _
    have hn : db.notices <+: (hooked w db m).notices := by
      rw [(hooked_coding (w := w) db m).2.2.2]
      cases m with
      | showOption k v =>
        rw [receive_show]
        have := (follow_notifies (w := w) db k v).2.1
        cases hfl : follow w db k v with
        | mk d o =>
          rw [hfl] at this
          cases o with
          | some e => dsimp only at this ⊢; rw [this]; exact List.prefix_rfl
          | none => dsimp only at this ⊢; rw [(notify_notifies (w := w) d k v).2.1, this]; exact List.prefix_rfl
      | notice f =>
        rw [receive_notice]
        split
        · exact List.prefix_rfl
        · exact List.prefix_append _ _
      | _ => exact List.prefix_rfl
    exact ⟨hn.trans h1, hr.trans h2⟩

/-- **C76 (every notice is emitted).** A notice among the messages a transaction took in is emitted after those before it, as what it says in the encoding then in use; if that fails (a field is missing),
or a message hook raises, then that exception is reported, and the messages after it are processed all the same. -/
theorem C76_notices (hf : Fresh s bs) (hs : serve w .database db s bs = (a, .ok n, db')) {pre post : List Elem} {f : List (Bytes × Option Bytes)}
    (he : a.hookCalls = s.hookCalls ++ (pre ++ .notice f :: post)) :
    ∃ d : Db C, d = called w .database db pre ∧ match serverMessage (w.decode d.coding.codec) w.upper f with
      | .ok m => d.notices ++ [(m, emit 0 [] (w.hooks m))] <+: db'.notices ∧ ((emit 0 [] (w.hooks m)).raised = true → d.reported ++ [.msghook] <+: db'.reported)
      | .error e => d.reported ++ [.py e] <+: db'.reported := by
  obtain ⟨es, h1, _, rfl⟩ := served hf hs
  rw [h1] at he
  have := List.append_cancel_left he
  subst this
  refine ⟨_, rfl, ?_⟩
  rw [called_append]
  have step : called w .database (called w .database db pre) (.notice f :: post) = called w .database (hooked w (called w .database db pre) (.notice f)) post := rfl
  rw [step]
  generalize called w .database db pre = d
  obtain ⟨m1, m2⟩ := notices_mono (w := w) post (hooked w d (.notice f))
  have k1 := (hooked_coding (w := w) d (.notice f)).2.2.2
  have k2 := (hooked_rest (w := w) d (.notice f)).2.2
  rw [receive_notice] at k1 k2
  cases hm : serverMessage (w.decode d.coding.codec) w.upper f with
  | error e =>
    rw [hm] at k1 k2
    dsimp only at k1 k2 ⊢
    rw [← show (hooked w d (.notice f)).reported = d.reported ++ [Exn.py e] from k2]
    exact m2
  | ok m =>
    rw [hm] at k1 k2
    dsimp only at k1 k2 ⊢
    refine ⟨by rw [← k1]; exact m1, fun hr => ?_⟩
    rw [if_pos hr] at k2
    rw [← show (hooked w d (.notice f)).reported = d.reported ++ [Exn.msghook] from k2]
    exact m2

/-! ## One transaction after another -/

/-- The transactions of a connection, each with the batches it receives; `none` when one of them raises. -/
def serveAll (w : World C) (db : Db C) : List (Inst × List Batch) → Option (Db C × List Nat)
  | [] => some (db, [])
  | (s, bs) :: ts => match serve w .database db s bs with
    | (_, .error _, _) => none
    | (_, .ok n, db) => (serveAll w db ts).map fun r => (r.1, n :: r.2)

/-- What they took in. -/
def allTaken : List (Inst × List Batch) → List Nat → List Msg
  | (_, bs) :: ts, n :: ns => (allMsgs bs).take n ++ allTaken ts ns
  | _, _ => []

/-- **C76 (a session).** Over any number of transactions, `_notifies` is all notifications they took in, in order.  Missing: as above. -/
theorem C76_session_partial : ∀ {ts : List (Inst × List Batch)} {db db' : Db C} {ns : List Nat}, (∀ t ∈ ts, Fresh t.1 t.2 ∧ Distinct t.2) → serveAll w db ts = some (db', ns) →
    ∃ es, db'.notifies = db.notifies ++ es ∧ es.map some = ((allTaken ts ns).filter fun x => x.1 = 65).map parsed
  | [], db, db', ns, _, h => by
    cases h
    exact ⟨[], (List.append_nil _).symm, rfl⟩
  | (s, bs) :: ts, db, db', ns, ht, h => by
    unfold serveAll at h
    obtain ⟨hf, hd⟩ := ht _ List.mem_cons_self
    cases hs : serve w .database db s bs with
    | mk a y =>
      obtain ⟨r, d⟩ := y
      rw [hs] at h
      cases r with
      | error e => cases h
      | ok n =>
        dsimp only at h
        cases hr : serveAll w d ts with
        | none => rw [hr] at h; cases h
        | some z =>
          rw [hr] at h
          cases h
          obtain ⟨e1, k1, k2⟩ := C76_notifications_partial hf hd hs
          obtain ⟨e2, j1, j2⟩ := C76_session_partial (fun t hm => ht t (List.mem_cons_of_mem _ hm)) hr
          refine ⟨e1 ++ e2, by rw [j1, k1, List.append_assoc], ?_⟩
          unfold allTaken
          rw [List.map_append, k2, j2, List.filter_append, List.map_append]

/-! ## Connecting -/

def isShow (m : Elem) : Bool := m.kind = .showOption

theorem greeted_called (hu : Usual w) : ∀ (es : List Elem) (db : Db C), Known w (options es) → greeted w db es = (called w .database db (es.filter isShow), none)
  | [], _, _ => rfl
  | m :: es, db, hk => by
    have hsplit : options (m :: es) = options [m] ++ options es := by
      unfold options
      rw [← List.filterMap_append]; rfl
    rw [hsplit] at hk
    have ih := fun d => greeted_called hu es d fun e he => hk e (List.mem_append_right _ he)
    unfold greeted
    by_cases hm : m.kind = .showOption
    · rw [if_pos hm, List.filter_cons_of_pos (by simpa [isShow] using hm)]
      cases m with
      | showOption n v =>
        obtain ⟨h1, _⟩ := receive_option hu db (n := n) (v := v) (fun e he => hk e (List.mem_append_left _ he))
        have step : called w .database db (.showOption n v :: es.filter isShow) = called w .database (hooked w db (.showOption n v)) (es.filter isShow) := rfl
        rw [step]
        unfold hooked
        cases hr : receive w db (.showOption n v) with
        | mk d o =>
          rw [hr] at h1
          dsimp only at h1
          subst h1
          exact ih d
      | _ => cases hm
    · rw [if_neg hm, List.filter_cons_of_neg (by simpa [isShow] using hm)]
      exact ih db

theorem options_filter : ∀ es : List Elem, options (es.filter isShow) = options es
  | [] => rfl
  | m :: es => by
    have ih := options_filter es
    unfold options at ih ⊢
    cases m with
    | showOption n v =>
      rw [List.filter_cons_of_pos (by rfl), List.filterMap_cons, List.filterMap_cons, ih]
    | _ => rw [List.filter_cons_of_neg (by simp [isShow, Elem.kind]), List.filterMap_cons, ih]

/-- **C76 (what the server reports while the connection is established).** `connect()` does not raise because of it, `settings` has for each parameter the value reported last, and the codec is that of the
`client_encoding`. -/
theorem C76_connected (hu : Usual w) {es : List Elem} (hk : Known w (options es)) :
    (greeted w db es).2 = none ∧ (∀ k, PyDict.get (text k) (greeted w db es).1.cache = ((lastValue k (options es)).map text).or (PyDict.get (text k) db.cache)) ∧
    (∀ v, lastValue CLIENT_ENCODING (options es) = some v → w.lookup (codecName w.U (text v)) = some (greeted w db es).1.coding.codec) := by
  rw [greeted_called hu es db hk]
  obtain ⟨h1, _, h3⟩ := called_settings hu (es.filter isShow) db (by rw [options_filter]; exact hk)
  rw [options_filter] at h1 h3
  refine ⟨rfl, h1, fun v hv => ?_⟩
  dsimp only
  rw [h3]
  unfold codecOf
  rw [hv]
  dsimp only
  have : ∃ c, w.lookup (codecName w.U (text v)) = some c := by
    unfold lastValue at hv
    cases hg : ((options es).filter fun e => e.1 = CLIENT_ENCODING).getLast? with
    | none => rw [hg] at hv; cases hv
    | some e =>
      rw [hg] at hv
      cases hv
      have hm := List.mem_of_getLast? hg
      rw [List.mem_filter] at hm
      exact (hk e hm.1).2.2 (by simpa using hm.2)
  obtain ⟨c, hc⟩ := this
  rw [hc]; rfl

/-! ## The hypotheses are met -/

/-- Python with two codecs; callback 13 raises. -/
def world (calm : Bool) : World Str where
  U := Unicode.ascii
  lookup n := if n ∈ ["utf_8".toList, "ascii".toList] then some n else none
  decode _ := asciiDecode
  upper s := s.map Char.toUpper
  hooks _ := [some (.returns false), some .raises]
  raises f _ _ := !calm && f == 13

theorem usual : Usual (world true) := ⟨fun _ _ h => asciiDecode_text h, fun _ _ _ => rfl⟩

/-- A connection; callback 13 is subscribed to the parameter `x`. -/
def fresh : Db Str := { coding := ⟨"ascii".toList, "ascii".toList⟩, cache := [("x".toList, "1".toList)], subs := [(some "x".toList, [13])] }
/-- Another notification; `x` is 2; `client_encoding` is `unicode`, or `no`; a notice. -/
def note2 : Msg := (65, [0, 0, 0, 1, 99, 0, 113, 0])
def xIs2 : Msg := (83, [120, 0, 50, 0])
def unicode : Msg := (83, CLIENT_ENCODING ++ [0, 117, 110, 105, 99, 111, 100, 101, 0])
def nonesuch : Msg := (83, CLIENT_ENCODING ++ [0, 110, 111, 0])
def warn : Msg := (78, [83, 87, 65, 82, 78, 73, 78, 71, 0, 67, 48, 49, 48, 48, 48, 0, 77, 109, 0, 0])
/-- The answer to a statement, with asynchronous messages in between. -/
def answer : List Batch := [⟨1, [(49, []), note, xIs2]⟩, ⟨2, [unicode, (50, []), row 1, warn, row 2]⟩, ⟨3, [note2, note, (67, [67, 0]), (90, [73]), xIs2]⟩]

theorem fresh_of {s : Inst} {bs : List Batch} (h1 : (bs.map (·.id)).Nodup) (h2 : ∀ b ∈ bs, b.msgs ≠ [] ∧ b.id ≠ s.lastId) (h3 : s.completed = []) : Fresh s bs :=
  ⟨h1, fun b hb => ⟨(h2 b hb).1, (h2 b hb).2, fun c hc => by rw [h3] at hc; cases hc⟩⟩

/-- What came of it, in parts. -/
theorem parts {w : World Str} {h : HookOf} {db : Db Str} {s : Inst} {bs : List Batch} {r : Except Err Nat} (e : (serve w h db s bs).2.1 = r) :
    serve w h db s bs = ((serve w h db s bs).1, r, (serve w h db s bs).2.2) := by
  rw [← e]

/-- The hypotheses of all theorems above, and what they say here. -/
example : Fresh demo answer ∧ Distinct answer ∧ (serve (world true) .database fresh demo answer).2.1 = .ok 12 ∧ Known (world true) (reportedBy ((allMsgs answer).take 12)) ∧
    (serve (world true) .database fresh demo answer).2.2.notifies = [.notify 1 [99] [112], .notify 1 [99] [113], .notify 1 [99] [112]] ∧
    (serve (world true) .database fresh demo answer).2.2.cache = [("x".toList, "2".toList), ("client_encoding".toList, "unicode".toList)] ∧
    (serve (world true) .database fresh demo answer).2.2.calls = [(13, "x".toList, "2".toList)] ∧
    (serve (world true) .database fresh demo answer).2.2.coding.codec = "utf_8".toList ∧
    (serve (world true) .database fresh demo answer).2.2.notices.length = 1 ∧
    (serve (world true) .database fresh demo answer).2.2.reported = [.msghook] := by
  refine ⟨fresh_of (by decide) (by decide) rfl, ?_, by decide +kernel, ?_, by decide +kernel, by decide +kernel, by decide +kernel, by decide +kernel, by decide +kernel, by decide +kernel⟩
  · intro b hb
    revert b
    decide
  · have : reportedBy ((allMsgs answer).take 12) = [([120], [50]), (CLIENT_ENCODING, [117, 110, 105, 99, 111, 100, 101])] := by decide +kernel
    rw [this]
    intro e he
    rcases List.mem_cons.1 he with rfl | he
    · exact ⟨by unfold Ascii; decide, by unfold Ascii; decide, fun h => by exact absurd h (by decide)⟩
    · rw [List.mem_singleton.1 he]
      exact ⟨by unfold Ascii; decide, by unfold Ascii; decide, fun _ => ⟨"utf_8".toList, by decide +kernel⟩⟩

/-! ## Findings -/

/-- `C76_notifications_partial` without its condition on equal messages. -/
def EqualKept : Prop := ∀ (w : World Str) (db db' : Db Str) (s a : Inst) (bs : List Batch) (n : Nat), Fresh s bs → serve w .database db s bs = (a, .ok n, db') →
  ∃ ns, db'.notifies = db.notifies ++ ns ∧ ns.map some = (((allMsgs bs).take n).filter fun x => x.1 = 65).map parsed

/-- **C76 (a finding: equal notifications).** Of two equal notifications that arrive together one is dropped. -/
theorem C76_equal_dropped : ¬ EqualKept := by
  intro h
  obtain ⟨ns, h1, h2⟩ := h (world true) fresh _ demo _ [⟨1, [note, note]⟩] 2 (fresh_of (by decide) (by decide) rfl) (parts (by decide +kernel))
  have h3 : (serve (world true) .database fresh demo [⟨1, [note, note]⟩]).2.2.notifies = [.notify 1 [99] [112]] := by decide +kernel
  rw [h3] at h1
  have h4 : ns = [.notify 1 [99] [112]] := h1.symm
  subst h4
  exact absurd (congrArg List.length h2) (by decide)

/-- The transaction that closes discarded statements and cursors is this one (client3.py:365-380). -/
theorem closing_is {X : Type} (o : Client3.Ops X) (c : Client3.Conn X) :
    (Client3.takeOutTrash o {} c).closings = c.closings ++ [closing c.garbageCursors c.garbageStatements] := rfl

/-- That it, too, keeps notifications; it is made with the default hook. -/
def ClosingKeeps : Prop := ∀ (w : World Str) (db db' : Db Str) (cursors statements : List Bytes) (s a : Inst) (bs : List Batch) (n : Nat), init (closing cursors statements) = .ok s → Fresh (sent s) bs → Distinct bs →
  serve w .returnArg db (sent s) bs = (a, .ok n, db') → ∃ ns, db'.notifies = db.notifies ++ ns ∧ ns.map some = (((allMsgs bs).take n).filter fun x => x.1 = 65).map parsed

/-- Such a transaction, before it is sent. -/
def closed : Inst := match init (closing [] [[115]]) with | .ok s => s | .error _ => demo

/-- **C76 (a finding: notifications that arrive while discarded statements are closed).** They are dropped; so are parameter changes and notices. -/
theorem C76_closing_drops : ¬ ClosingKeeps := by
  intro h
  obtain ⟨ns, h1, h2⟩ := h (world true) fresh _ [] [[115]] closed _ [⟨1, [(51, []), note, (90, [73])]⟩] 3 rfl (fresh_of (by decide) (by decide) rfl) (by unfold Distinct; decide)
    (parts (by decide +kernel))
  have h3 : (serve (world true) .returnArg fresh (sent closed) [⟨1, [(51, []), note, (90, [73])]⟩]).2.2.notifies = [] := by decide +kernel
  rw [h3] at h1
  have h4 : ns = [] := by simpa [fresh] using h1.symm
  subst h4
  exact absurd (congrArg List.length h2) (by decide)

/-- `C76_settings_partial`, only for the cache, with callbacks that may raise. -/
def CacheAnyway : Prop := ∀ (w : World Str) (db db' : Db Str) (s a : Inst) (bs : List Batch) (n : Nat), (∀ c b, Ascii b → w.decode c b = some (text b)) → Fresh s bs → Distinct bs →
  serve w .database db s bs = (a, .ok n, db') → Known w (reportedBy ((allMsgs bs).take n)) →
  ∀ k, PyDict.get (text k) db'.cache = ((lastValue k (reportedBy ((allMsgs bs).take n))).map text).or (PyDict.get (text k) db.cache)

/-- **C76 (a finding: a callback that raises).** The callbacks are called before the new value is stored: when one raises, `settings` keeps the old value. -/
theorem C76_callback_stale : ¬ CacheAnyway := by
  intro h
  have hk : Known (world false) (reportedBy ((allMsgs [⟨1, [xIs2]⟩]).take 1)) := by
    have : reportedBy ((allMsgs [⟨1, [xIs2]⟩]).take 1) = [([120], [50])] := by decide +kernel
    rw [this]
    intro e he
    rw [List.mem_singleton.1 he]
    exact ⟨by unfold Ascii; decide, by unfold Ascii; decide, fun h => by exact absurd h (by decide)⟩
  have := h (world false) fresh _ demo _ [⟨1, [xIs2]⟩] 1 (fun _ _ h => asciiDecode_text h) (fresh_of (by decide) (by decide) rfl) (by unfold Distinct; decide)
    (parts (by decide +kernel)) hk [120]
  exact absurd this (by decide +kernel)

/-- `C76_settings_partial`, only for the cache, with encodings that Python may not have. -/
def CacheAnyEncoding : Prop := ∀ (w : World Str) (db db' : Db Str) (s a : Inst) (bs : List Batch) (n : Nat), Usual w → Fresh s bs → Distinct bs →
  serve w .database db s bs = (a, .ok n, db') → (∀ e ∈ reportedBy ((allMsgs bs).take n), Ascii e.1 ∧ Ascii e.2) →
  ∀ k, PyDict.get (text k) db'.cache = ((lastValue k (reportedBy ((allMsgs bs).take n))).map text).or (PyDict.get (text k) db.cache)

/-- **C76 (a finding: an encoding that Python does not have).** Then the change of `client_encoding` is not stored either, and its subscribers are not told. -/
theorem C76_unknown_encoding : ¬ CacheAnyEncoding := by
  intro h
  have := h (world true) fresh _ demo _ [⟨1, [nonesuch]⟩] 1 usual (fresh_of (by decide) (by decide) rfl) (by unfold Distinct; decide)
    (parts (by decide +kernel))
    (by
      have : reportedBy ((allMsgs [⟨1, [nonesuch]⟩]).take 1) = [(CLIENT_ENCODING, [110, 111])] := by decide +kernel
      rw [this]
      intro e he
      rw [List.mem_singleton.1 he]
      exact ⟨by unfold Ascii; decide, by unfold Ascii; decide⟩) CLIENT_ENCODING
  exact absurd this (by decide +kernel)

/-- **C76 (a finding: notices while connecting).** Of what the server says before the connection is ready, only parameters are looked at: notices are dropped. -/
theorem C76_greeting_notices (f : List (Bytes × Option Bytes)) : greeted w db [.notice f] = (db, none) := rfl

end PG.Props.Async
