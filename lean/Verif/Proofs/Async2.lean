import Verif.Proofs.Async
/-!
# What the connection does with asynchronous messages
-/
namespace PG.Async
open PG PG.Element3 PG.Xact3 PG.Spec.Xact PG.Spec.Async PG.Encodings PG.Messages

variable {C : Type} {w : World C}

/-- The notifications among messages. -/
def isNotify : Elem → Bool | .notify .. => true | _ => false

theorem callAll_calm (h : ∀ f k v, w.raises f k v = false) (k v : Str) : ∀ fs : List Nat, callAll w k v fs = (fs.map fun f => (f, k, v), false)
  | [] => rfl
  | f :: fs => by
    unfold callAll
    rw [if_neg (by rw [h]; simp), callAll_calm h k v fs]
    rfl

theorem notify_notifies (db : Db C) (n v : Bytes) : (notify w db n v).1.notifies = db.notifies ∧ (notify w db n v).1.notices = db.notices ∧ (notify w db n v).1.subs = db.subs ∧
    (notify w db n v).1.coding = db.coding ∧ (notify w db n v).1.reported = db.reported := by
  unfold notify
  split
  · exact ⟨rfl, rfl, rfl, rfl, rfl⟩
  · split
    · exact ⟨rfl, rfl, rfl, rfl, rfl⟩
    · split <;> exact ⟨rfl, rfl, rfl, rfl, rfl⟩

theorem follow_notifies (db : Db C) (n v : Bytes) : (follow w db n v).1.notifies = db.notifies ∧ (follow w db n v).1.notices = db.notices ∧ (follow w db n v).1.subs = db.subs ∧
    (follow w db n v).1.reported = db.reported := by
  unfold follow
  split
  · split
    · exact ⟨rfl, rfl, rfl, rfl⟩
    · split <;> exact ⟨rfl, rfl, rfl, rfl⟩
  · exact ⟨rfl, rfl, rfl, rfl⟩

theorem receive_show (db : Db C) (n v : Bytes) : receive w db (.showOption n v) = match follow w db n v with | (db, some e) => (db, some e) | (db, none) => notify w db n v := rfl
theorem receive_notice (db : Db C) (f : List (Bytes × Option Bytes)) : receive w db (.notice f) = match serverMessage (w.decode db.coding.codec) w.upper f with
    | .error e => (db, some (.py e))
    | .ok m => ({ db with notices := db.notices ++ [(m, emit 0 [] (w.hooks m))] }, if (emit 0 [] (w.hooks m)).raised then some .msghook else none) := rfl

/-- What `receive` leaves alone. -/
theorem receive_rest (db : Db C) (m : Elem) : (receive w db m).1.notifies = db.notifies ++ (if isNotify m then [m] else []) ∧ (receive w db m).1.subs = db.subs ∧ (receive w db m).1.reported = db.reported := by
  cases m with
  | showOption n v =>
    rw [receive_show]
    obtain ⟨h1, h2, h3, h4⟩ := follow_notifies (w := w) db n v
    cases hf : follow w db n v with
    | mk db' o =>
      rw [hf] at h1 h2 h3 h4
      dsimp only at h1 h2 h3 h4
      cases o with
      | some e => exact ⟨by rw [h1]; simp [isNotify], h3, h4⟩
      | none =>
        obtain ⟨k1, k2, k3, k4, k5⟩ := notify_notifies (w := w) db' n v
        exact ⟨by rw [k1, h1]; simp [isNotify], by rw [k3, h3], by rw [k5, h4]⟩
  | notice f =>
    rw [receive_notice]
    split
    · exact ⟨by simp [isNotify], rfl, rfl⟩
    · exact ⟨by simp [isNotify], rfl, rfl⟩
  | notify p c l => exact ⟨rfl, rfl, rfl⟩
  | _ => exact ⟨by simp [receive, isNotify], rfl, rfl⟩

theorem hooked_rest (db : Db C) (m : Elem) : (hooked w db m).notifies = db.notifies ++ (if isNotify m then [m] else []) ∧ (hooked w db m).subs = db.subs ∧
    (hooked w db m).reported = db.reported ++ (receive w db m).2.toList := by
  obtain ⟨h1, h2, h3⟩ := receive_rest (w := w) db m
  unfold hooked
  cases hr : receive w db m with
  | mk db' o =>
    rw [hr] at h1 h2 h3
    cases o with
    | none => exact ⟨h1, h2, by rw [show db'.reported = db.reported from h3]; simp⟩
    | some e => exact ⟨h1, h2, congrArg (· ++ [e]) (show db'.reported = db.reported from h3)⟩

theorem hooked_coding (db : Db C) (m : Elem) : (hooked w db m).coding = (receive w db m).1.coding ∧ (hooked w db m).cache = (receive w db m).1.cache ∧ (hooked w db m).calls = (receive w db m).1.calls ∧
    (hooked w db m).notices = (receive w db m).1.notices := by
  unfold hooked
  cases hr : receive w db m with
  | mk db' o => cases o <;> exact ⟨rfl, rfl, rfl, rfl⟩

theorem called_notifies : ∀ (es : List Elem) (db : Db C), (called w .database db es).notifies = db.notifies ++ es.filter isNotify ∧ (called w .database db es).subs = db.subs
  | [], db => ⟨(List.append_nil _).symm, rfl⟩
  | m :: es, db => by
    obtain ⟨h1, h2, _⟩ := hooked_rest (w := w) db m
    obtain ⟨k1, k2⟩ := called_notifies es (hooked w db m)
    refine ⟨?_, k2.trans h2⟩
    show (called w .database (hooked w db m) es).notifies = _
    rw [k1, h1, List.append_assoc]
    congr 1
    by_cases hm : isNotify m = true
    · rw [if_pos hm, List.filter_cons_of_pos hm]; rfl
    · rw [if_neg hm, List.filter_cons_of_neg hm]; rfl

theorem called_append (h : HookOf) (a b : List Elem) (db : Db C) : called w h db (a ++ b) = called w h (called w h db a) b := by
  cases h with
  | database => exact List.foldl_append ..
  | returnArg => rfl

/-! ## Settings -/

theorem asciiDecode_text {b : Bytes} (h : Ascii b) : asciiDecode b = some (text b) := by
  unfold asciiDecode
  rw [if_pos (by rw [List.all_eq_true]; intro x hx; exact decide_eq_true (h x hx))]
  rfl

/-- The codec after these parameters were reported. -/
def codecOf (w : World C) (c : C) (l : List (Bytes × Bytes)) : C := match lastValue CLIENT_ENCODING l with | some v => (w.lookup (codecName w.U (text v))).getD c | none => c

theorem receive_option (hu : Usual w) (db : Db C) {n v : Bytes} (hk : Known w [(n, v)]) :
    (receive w db (.showOption n v)).2 = none ∧
    (receive w db (.showOption n v)).1.cache = PyDict.set (text n) (text v) db.cache ∧
    (receive w db (.showOption n v)).1.calls = db.calls ++ (subscribed db (text n)).map (fun f => (f, text n, text v)) ∧
    (receive w db (.showOption n v)).1.notices = db.notices ∧
    (receive w db (.showOption n v)).1.coding.codec = (if n = CLIENT_ENCODING then (w.lookup (codecName w.U (text v))).getD db.coding.codec else db.coding.codec) := by
  obtain ⟨h1, h2, h3⟩ := hk _ List.mem_cons_self
  dsimp only at h1 h2 h3
  have nt : ∀ db' : Db C, db'.cache = db.cache → db'.calls = db.calls → db'.notices = db.notices → db'.subs = db.subs → (notify w db' n v).2 = none ∧ (notify w db' n v).1.cache = PyDict.set (text n) (text v) db.cache ∧
      (notify w db' n v).1.calls = db.calls ++ (subscribed db (text n)).map (fun f => (f, text n, text v)) ∧ (notify w db' n v).1.notices = db.notices ∧ (notify w db' n v).1.coding = db'.coding := by
    intro db' e1 e2 e3 e4
    unfold notify
    rw [hu.ascii _ n h1, hu.ascii _ v h2]
    dsimp only
    rw [callAll_calm hu.calm, e4]
    exact ⟨rfl, by rw [← e1], by rw [← e2]; rfl, e3, rfl⟩
  rw [receive_show]
  unfold follow
  by_cases hc : n = CLIENT_ENCODING
  · rw [if_pos hc, if_pos hc, asciiDecode_text h2]
    obtain ⟨c, hc⟩ := h3 hc
    unfold setEncoding
    dsimp only
    rw [hc]
    obtain ⟨a1, a2, a3, a4, a5⟩ := nt { db with coding := ⟨PyStr.strip w.U (w.U.lower (text v)), c⟩ } rfl rfl rfl rfl
    exact ⟨a1, a2, a3, a4, by rw [a5]; rfl⟩
  · rw [if_neg hc, if_neg hc]
    obtain ⟨a1, a2, a3, a4, a5⟩ := nt db rfl rfl rfl rfl
    exact ⟨a1, a2, a3, a4, by rw [a5]⟩

theorem text_inj {a b : Bytes} (h : text a = text b) : a = b := by
  unfold text at h
  have inj : ∀ x y : UInt8, Char.ofNat x.toNat = Char.ofNat y.toNat → x = y := by
    intro x y h
    have hv : ∀ z : UInt8, (Char.ofNat z.toNat).toNat = z.toNat := by
      intro z
      have hz := z.toNat_lt
      unfold Char.ofNat
      rw [dif_pos (by unfold Nat.isValidChar; omega)]
      rfl
    have := congrArg Char.toNat h
    rw [hv, hv] at this
    exact UInt8.toNat_inj.mp this
  revert b
  induction a with
  | nil => intro b h; cases b with | nil => rfl | cons y ys => cases h
  | cons x xs ih =>
    intro b h
    cases b with
    | nil => cases h
    | cons y ys =>
      rw [List.map_cons, List.map_cons] at h
      injection h with h1 h2
      rw [inj x y h1, ih h2]

theorem lastValue_cons (k : Bytes) (e : Bytes × Bytes) (l : List (Bytes × Bytes)) : lastValue k (e :: l) = (lastValue k l).or (if e.1 = k then some e.2 else none) := by
  unfold lastValue
  by_cases h : e.1 = k
  · rw [List.filter_cons_of_pos (by simpa using h), List.getLast?_cons, if_pos h]
    cases (l.filter fun e => e.1 = k).getLast? <;> rfl
  · rw [List.filter_cons_of_neg (by simpa using h), if_neg h, Option.or_none]

/-- What is not a parameter leaves the settings alone. -/
theorem receive_other (db : Db C) {m : Elem} (h : options [m] = []) : (receive w db m).1.cache = db.cache ∧ (receive w db m).1.calls = db.calls ∧ (receive w db m).1.coding = db.coding := by
  cases m with
  | showOption n v => cases h
  | notice f => rw [receive_notice]; split <;> exact ⟨rfl, rfl, rfl⟩
  | _ => exact ⟨rfl, rfl, rfl⟩

theorem called_settings (hu : Usual w) : ∀ (es : List Elem) (db : Db C), Known w (options es) →
    (∀ k, PyDict.get (text k) (called w .database db es).cache = ((lastValue k (options es)).map text).or (PyDict.get (text k) db.cache)) ∧
    (called w .database db es).calls = db.calls ++ (options es).flatMap (fun e => (subscribed db (text e.1)).map fun f => (f, text e.1, text e.2)) ∧
    (called w .database db es).coding.codec = codecOf w db.coding.codec (options es)
  | [], db, _ => ⟨fun k => rfl, (List.append_nil _).symm, rfl⟩
  | m :: es, db, hk => by
    have hsplit : options (m :: es) = options [m] ++ options es := by
      unfold options
      rw [← List.filterMap_append]; rfl
    rw [hsplit] at hk ⊢
    have ih := called_settings hu es (hooked w db m) fun e he => hk e (List.mem_append_right _ he)
    obtain ⟨i1, i2, i3⟩ := ih
    obtain ⟨c1, c2, c3, _⟩ := hooked_coding (w := w) db m
    have hs : (hooked w db m).subs = db.subs := (hooked_rest (w := w) db m).2.1
    have step : called w .database db (m :: es) = called w .database (hooked w db m) es := rfl
    rw [step]
    by_cases ho : options [m] = []
    · obtain ⟨o1, o2, o3⟩ := receive_other (w := w) db ho
      rw [ho, List.nil_append]
      refine ⟨fun k => ?_, ?_, ?_⟩
      · rw [i1 k, c2, o1]
      · rw [i2, c3, o2]; unfold subscribed; rw [hs]
      · rw [i3, c1, o3]
    · cases m with
      | showOption n v =>
        have he : options [Elem.showOption n v] = [(n, v)] := rfl
        rw [he] at hk ⊢
        rw [List.singleton_append]
        obtain ⟨_, r2, r3, _, r5⟩ := receive_option hu db (n := n) (v := v) (fun e he => hk e (List.mem_append_left _ he))
        refine ⟨fun k => ?_, ?_, ?_⟩
        · rw [i1 k, c2, r2, PyDict.get_set, lastValue_cons]
          dsimp only
          by_cases hn : n = k
          · rw [if_pos hn, if_pos (by rw [hn])]
            cases lastValue k (options es) <;> rfl
          · rw [if_neg hn, if_neg (fun h => hn (text_inj h)), Option.or_none]
        · rw [i2, c3, r3, List.flatMap_cons, List.append_assoc]; unfold subscribed; rw [hs]
        · rw [i3, c1, r5]
          unfold codecOf
          rw [lastValue_cons]
          dsimp only
          cases hl : lastValue CLIENT_ENCODING (options es) with
          | some x =>
            have : ∃ c, w.lookup (codecName w.U (text x)) = some c := by
              unfold lastValue at hl
              cases hg : ((options es).filter fun e => e.1 = CLIENT_ENCODING).getLast? with
              | none => rw [hg] at hl; cases hl
              | some e =>
                rw [hg] at hl
                cases hl
                have hm := List.mem_of_getLast? hg
                rw [List.mem_filter] at hm
                exact (hk e (List.mem_append_right _ hm.1)).2.2 (by simpa using hm.2)
            obtain ⟨c, hc⟩ := this
            dsimp only [Option.some_or]
            rw [hc]; rfl
          | none =>
            rw [Option.none_or]
            by_cases hn : n = CLIENT_ENCODING
            · rw [if_pos hn, if_pos hn]
            · rw [if_neg hn, if_neg hn]
      | _ => exact absurd rfl ho

end PG.Async
