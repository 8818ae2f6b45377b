import Verif.Spec.Client
import Verif.Proofs.PBuffer
/-!
# Proofs about the connection: the writer, the reader, histories
-/
namespace PG.Client3
open PG PG.Element3 PG.Xact3 PG.Spec.Client PG.Spec

variable {X : Type}

theorem sendLoop_spec : ∀ (evs : List SendEv) (d w : Bytes),
    (sendLoop evs d w).2.2.1 ++ (sendLoop evs d w).2.1 = w ++ d ∧
    ((sendLoop evs d w).2.2.2 = .ret () → (sendLoop evs d w).2.1 = []) := by
  intro evs
  induction evs with
  | nil =>
    intro d w
    cases d with
    | nil => exact ⟨rfl, fun _ => rfl⟩
    | cons x xs => exact ⟨rfl, fun h => by cases h⟩
  | cons ev evs ih =>
    intro d w
    cases d with
    | nil => cases ev <;> exact ⟨rfl, fun _ => rfl⟩
    | cons x xs =>
      cases ev with
      | sent n =>
        obtain ⟨h1, h2⟩ := ih ((x :: xs).drop n) (w ++ (x :: xs).take n)
        refine ⟨?_, h2⟩
        show (sendLoop evs ((x :: xs).drop n) (w ++ (x :: xs).take n)).2.2.1 ++ _ = _
        exact h1.trans (by rw [List.append_assoc, List.take_append_drop])
      | err k => exact ⟨rfl, fun h => by cases h⟩

theorem getLast?_cons_ne {α} {a : α} {l : List α} (h : l ≠ []) : (a :: l).getLast? = l.getLast? := by
  cases l with
  | nil => exact absurd rfl h
  | cons b l => simp [List.getLast?_cons]

/-- The identity before the next object. -/
def lastId (p : Option OId) (l : List Obj) : Option OId := (l.getLast?.map (·.id)).or p

theorem lastId_cons (p : Option OId) (a : Obj) (l : List Obj) : lastId p (a :: l) = lastId (some a.id) l := by
  unfold lastId
  cases l with
  | nil => rfl
  | cons b r =>
    rw [getLast?_cons_ne (List.cons_ne_nil b r)]
    cases hg : (b :: r).getLast? with
    | none => simp at hg
    | some z => rfl

theorem squeezeFrom_snoc (m : Obj) : ∀ (l : List Obj) (p : Option OId),
    squeezeFrom p (l ++ [m]) =
      if lastId p (squeezeFrom p l) = some m.id then squeezeFrom p l else squeezeFrom p l ++ [m] := by
  intro l
  induction l with
  | nil =>
    intro p
    show (if p = some m.id then squeezeFrom p [] else [m]) = if p = some m.id then [] else [m]
    rfl
  | cons a l ih =>
    intro p
    show (if p = some a.id then squeezeFrom p (l ++ [m]) else a :: squeezeFrom (some a.id) (l ++ [m])) = _
    by_cases hp : p = some a.id
    · rw [if_pos hp, ih p]
      have : squeezeFrom p (a :: l) = squeezeFrom p l := if_pos hp
      rw [this]
    · rw [if_neg hp, ih (some a.id)]
      have : squeezeFrom p (a :: l) = a :: squeezeFrom (some a.id) l := if_neg hp
      rw [this, lastId_cons]
      split <;> rfl

theorem squeeze_snoc (l : List Obj) (m : Obj) :
    squeeze (l ++ [m]) = if (squeeze l).getLast?.map (·.id) = some m.id then squeeze l else squeeze l ++ [m] := by
  unfold squeeze
  rw [squeezeFrom_snoc]
  unfold lastId
  rw [Option.or_none]

/-- The invariant of the writer. -/
def W (c : Conn X) : Prop := ∃ g : List Obj, (∀ m ∈ g, Serializable m = true) ∧ c.wire ++ c.messageData = g.flatMap bytesOf ∧
  c.written = g.getLast? ∧
  ((squeeze c.log = g ∧ c.writing = g.getLast?) ∨
   ∃ b r, squeeze c.log = g ++ b :: r ∧ Serializable b = false ∧ c.writing = some b ∧ g.getLast?.map (·.id) ≠ some b.id)

/-- What the writer's invariant is about. -/
def wv (c : Conn X) := (c.wire, c.messageData, c.writing, c.written, c.log)

theorem W_congr {c d : Conn X} (h : wv c = wv d) : W c → W d := by
  have h1 : c.wire = d.wire := (congrArg (·.1) h :)
  have h2 : c.messageData = d.messageData := (congrArg (·.2.1) h :)
  have h3 : c.writing = d.writing := (congrArg (·.2.2.1) h :)
  have h4 : c.written = d.written := (congrArg (·.2.2.2.1) h :)
  have h5 : c.log = d.log := (congrArg (·.2.2.2.2) h :)
  unfold W
  rw [h1, h2, h3, h4, h5]
  exact id

/-- What the reader's invariant is about. -/
def rv (c : Conn X) := (c.received, c.taken, c.read, c.stream, c.readData, c.nextId)

theorem failXact_wv (o : Ops X) (c : Conn X) : wv (failXact o c) = wv c := rfl
theorem failXact_rv (o : Ops X) (c : Conn X) : rv (failXact o c) = rv c := rfl

theorem sendMessageData_spec (o : Ops X) (c : Conn X) :
    (sendMessageData o c).1.wire ++ (sendMessageData o c).1.messageData = c.wire ++ c.messageData ∧
    (sendMessageData o c).1.writing = c.writing ∧ (sendMessageData o c).1.written = c.written ∧
    (sendMessageData o c).1.log = c.log ∧ rv (sendMessageData o c).1 = rv c ∧
    ((sendMessageData o c).2 = .ret true → (sendMessageData o c).1.messageData = [] ∧ (sendMessageData o c).1.xact = c.xact) ∧
    ((sendMessageData o c).2 = .ret false → (sendMessageData o c).1.xact = c.xact.map o.fail) ∧
    ((∀ r, (sendMessageData o c).2 ≠ .ret r) → (sendMessageData o c).1.xact = c.xact) := by
  obtain ⟨h1, h2⟩ := sendLoop_spec c.sends c.messageData c.wire
  unfold sendMessageData
  generalize sendLoop c.sends c.messageData c.wire = z at *
  obtain ⟨evs, d, w, r⟩ := z
  dsimp only at *
  cases r with
  | ret u => cases u; exact ⟨h1, rfl, rfl, rfl, rfl, fun _ => ⟨h2 rfl, rfl⟩, fun h => by simp at h, fun _ => rfl⟩
  | blocked => exact ⟨h1, rfl, rfl, rfl, rfl, fun h => (by cases h), fun h => (by cases h), fun _ => rfl⟩
  | raised e =>
    cases e with
    | py e => exact ⟨h1, rfl, rfl, rfl, rfl, fun h => (by cases h), fun h => (by cases h), fun _ => rfl⟩
    | sock k =>
      cases k with
      | fatal => exact ⟨h1, rfl, rfl, rfl, rfl, fun h => by simp at h, fun _ => rfl, fun h => absurd rfl (h false)⟩
      | tryAgain | unclear | other | interrupt =>
        exact ⟨h1, rfl, rfl, rfl, rfl, fun h => (by cases h), fun h => (by cases h), fun _ => rfl⟩

theorem serializable_iff {m : Obj} : Serializable m = true ↔ catMessages m.items = .ok (bytesOf m) := by
  unfold Serializable bytesOf
  cases catMessages m.items <;> simp [Except.isOk, Except.toBool]

/-- What `write_messages` does: the cases of a writer in order, and stuck at an object it could not serialize. -/
theorem writeMessages_W (o : Ops X) (c : Conn X) (m : Obj) (h : W c) :
    W (writeMessages o c m).1 ∧ (writeMessages o c m).1.log = c.log ++ [m] ∧ rv (writeMessages o c m).1 = rv c ∧
    ((writeMessages o c m).2 = .ret true → (writeMessages o c m).1.messageData = [] ∧ (writeMessages o c m).1.xact = c.xact ∧
      (writeMessages o c m).1.wire = (squeeze (c.log ++ [m])).flatMap bytesOf ∧
      ∀ x ∈ squeeze (c.log ++ [m]), Serializable x = true) ∧
    ((writeMessages o c m).2 = .ret false → (writeMessages o c m).1.xact = c.xact.map o.fail) ∧
    ((∀ r, (writeMessages o c m).2 ≠ .ret r) → (writeMessages o c m).1.xact = c.xact) := by
  obtain ⟨g, hg, hw, hwn, hcase⟩ := h
  have hsn := squeeze_snoc c.log m
  rcases hcase with ⟨hq, hwr⟩ | ⟨b, r, hq, hb, hwr, hne⟩
  · -- in order
    have hcat : catWriting { c with log := c.log ++ [m] } = .ok { c with log := c.log ++ [m] } := by
      unfold catWriting
      dsimp only
      rw [hwr, hwn]
      cases g.getLast? with
      | none => rfl
      | some z => simp
    unfold writeMessages
    dsimp only
    rw [hcat]
    dsimp only
    rw [hq] at hsn
    by_cases hid : c.writing.map (·.id) = some m.id
    · rw [if_pos hid]
      rw [hwr] at hid
      rw [if_pos hid] at hsn
      obtain ⟨a1, a2, a3, a4, a5, a6, a7, a8⟩ := sendMessageData_spec o { c with log := c.log ++ [m] }
      refine ⟨⟨g, hg, a1.trans hw, a3.trans hwn, .inl ⟨?_, a2.trans hwr⟩⟩, a4, a5, fun e => ?_, a7, a8⟩
      · rw [a4]; exact hsn
      · refine ⟨(a6 e).1, (a6 e).2, ?_, ?_⟩
        · rw [hsn, ← hw]
          have := a1
          rw [(a6 e).1, List.append_nil] at this
          exact this
        · rw [hsn]; exact hg
    · rw [if_neg hid]
      rw [hwr] at hid
      rw [if_neg hid] at hsn
      cases hm : catMessages m.items with
      | error e =>
        refine ⟨⟨g, hg, hw, hwn, .inr ⟨m, [], ?_, ?_, rfl, hid⟩⟩, rfl, rfl, fun e => (by cases e), fun e => (by cases e), fun _ => rfl⟩
        · exact hsn
        · cases hs : Serializable m with
          | false => rfl
          | true => rw [serializable_iff.1 hs] at hm; cases hm
      | ok d =>
        dsimp only
        have hs : Serializable m = true := by unfold Serializable; rw [hm]; rfl
        have hd : d = bytesOf m := by have := serializable_iff.1 hs; rw [hm] at this; exact (Except.ok.inj this)
        obtain ⟨a1, a2, a3, a4, a5, a6, a7, a8⟩ := sendMessageData_spec o { c with log := c.log ++ [m], writing := some m, messageData := c.messageData ++ d, written := some m }
        have hall : ∀ x ∈ g ++ [m], Serializable x = true := by
          intro x hx
          rcases List.mem_append.1 hx with hx | hx
          · exact hg x hx
          · cases List.mem_singleton.1 hx; exact hs
        have hbytes : c.wire ++ (c.messageData ++ d) = (g ++ [m]).flatMap bytesOf := by
          rw [← List.append_assoc, hw, List.flatMap_append, hd]; simp
        refine ⟨⟨g ++ [m], hall, a1.trans hbytes, a3.trans (by simp), .inl ⟨?_, a2.trans (by simp)⟩⟩, a4, a5, fun e => ?_, a7, a8⟩
        · rw [a4]; exact hsn
        · refine ⟨(a6 e).1, (a6 e).2, ?_, ?_⟩
          · rw [hsn, ← hbytes]
            have := a1
            rw [(a6 e).1, List.append_nil] at this
            exact this
          · rw [hsn]; exact hall
  · -- stuck
    have hm : ∃ e, catMessages b.items = .error e := by
      unfold Serializable at hb
      cases hb' : catMessages b.items with
      | error e => exact ⟨e, rfl⟩
      | ok d => rw [hb'] at hb; cases hb
    obtain ⟨e, hm⟩ := hm
    have hcat : catWriting { c with log := c.log ++ [m] } = .error e := by
      unfold catWriting
      dsimp only
      rw [hwr, hwn]
      dsimp only
      rw [if_neg hne, hm]
    unfold writeMessages
    dsimp only
    rw [hcat]
    refine ⟨⟨g, hg, hw, hwn, .inr ?_⟩, rfl, rfl, fun e => (by cases e), fun e => (by cases e), fun _ => rfl⟩
    rw [hq] at hsn
    by_cases hid : (g ++ b :: r).getLast?.map (·.id) = some m.id
    · rw [if_pos hid] at hsn
      exact ⟨b, r, hsn, hb, hwr, hne⟩
    · rw [if_neg hid] at hsn
      exact ⟨b, r ++ [m], by rw [hsn]; simp, hb, hwr, hne⟩

/-! ## The reader -/

/-- The invariant of the reader. -/
structure R (c : Conn X) : Prop where
  inv : PBuffer.Inv c.stream
  bytes : c.received = frames (c.taken ++ c.read.msgs) ++ PBuffer.unread c.stream
  fits : ∀ m ∈ c.taken ++ c.read.msgs, Fits m
  data : c.readData = none ∨ c.readData = some []
  ids : c.read.id < c.nextId

theorem R_congr {c d : Conn X} (h : rv c = rv d) : R c → R d := by
  have h1 : c.received = d.received := (congrArg (·.1) h :)
  have h2 : c.taken = d.taken := (congrArg (·.2.1) h :)
  have h3 : c.read = d.read := (congrArg (·.2.2.1) h :)
  have h4 : c.stream = d.stream := (congrArg (·.2.2.2.1) h :)
  have h5 : c.readData = d.readData := (congrArg (·.2.2.2.2.1) h :)
  have h6 : c.nextId = d.nextId := (congrArg (·.2.2.2.2.2) h :)
  intro r
  exact ⟨h4 ▸ r.inv, by rw [← h1, ← h2, ← h3, ← h4]; exact r.bytes, by rw [← h2, ← h3]; exact r.fits, h5 ▸ r.data,
    by rw [← h3, ← h6]; exact r.ids⟩

theorem parse_fits : ∀ (n : Nat) (u : Bytes), u.length = n → ∀ m ∈ (parse u).1, Fits m := by
  intro n
  induction n using Nat.strongRecOn with
  | _ n ih =>
    intro u hu m hm
    rw [PBuffer.parse_eq] at hm
    cases hv : view u with
    | incomplete => rw [hv] at hm; cases hm
    | bad => rw [hv] at hm; cases hm
    | msg m' rest =>
      rw [hv] at hm
      dsimp only at hm
      obtain ⟨h1, h2⟩ := PBuffer.frame_view hv
      rcases List.mem_cons.1 hm with rfl | hm
      · exact h2
      · refine ih rest.length ?_ rest rfl m hm
        rw [← hu, h1]
        simp [frame]
        omega

theorem readIntoLoop_spec (o : Ops X) : ∀ (evs : List RecvEv) (c : Conn X), R c →
    R (readIntoLoop o c evs).1 ∧ wv (readIntoLoop o c evs).1 = wv c ∧ (readIntoLoop o c evs).1.read = c.read ∧
    (readIntoLoop o c evs).1.taken = c.taken ∧ (readIntoLoop o c evs).1.nextId = c.nextId ∧
    ((readIntoLoop o c evs).2 = .ret true → (readIntoLoop o c evs).1.xact = c.xact ∧ PBuffer.hasMessage (readIntoLoop o c evs).1.stream = .ok true) ∧
    ((readIntoLoop o c evs).2 = .ret false → (readIntoLoop o c evs).1.xact = c.xact.map o.fail ∧
      PBuffer.hasMessage (readIntoLoop o c evs).1.stream = .ok false) ∧
    ((∀ r, (readIntoLoop o c evs).2 ≠ .ret r) → (readIntoLoop o c evs).1.xact = c.xact) := by
  intro evs
  induction evs with
  | nil =>
    intro c hr
    unfold readIntoLoop
    cases hh : PBuffer.hasMessage c.stream with
    | error e => exact ⟨R_congr (c := c) rfl hr, rfl, rfl, rfl, rfl, fun h => (by cases h), fun h => (by cases h), fun _ => rfl⟩
    | ok b =>
      cases b with
      | true => exact ⟨R_congr (c := c) rfl hr, rfl, rfl, rfl, rfl, fun _ => ⟨rfl, hh⟩, fun h => (by simp at h), fun _ => rfl⟩
      | false => exact ⟨R_congr (c := c) rfl hr, rfl, rfl, rfl, rfl, fun h => (by cases h), fun h => (by cases h), fun _ => rfl⟩
  | cons ev evs ih =>
    intro c hr
    unfold readIntoLoop
    cases hh : PBuffer.hasMessage c.stream with
    | error e => exact ⟨R_congr (c := c) rfl hr, rfl, rfl, rfl, rfl, fun h => (by cases h), fun h => (by cases h), fun _ => rfl⟩
    | ok b =>
      cases b with
      | true => exact ⟨R_congr (c := c) rfl hr, rfl, rfl, rfl, rfl, fun _ => ⟨rfl, hh⟩, fun h => (by simp at h), fun _ => rfl⟩
      | false =>
        dsimp only
        cases ev with
        | err k =>
          cases k with
          | fatal => exact ⟨R_congr (c := c) rfl hr, rfl, rfl, rfl, rfl, fun h => (by simp at h), fun _ => ⟨rfl, hh⟩, fun h => absurd rfl (h false)⟩
          | tryAgain | unclear | other | interrupt =>
            exact ⟨R_congr (c := c) rfl hr, rfl, rfl, rfl, rfl, fun h => (by cases h), fun h => (by cases h), fun _ => rfl⟩
        | data d =>
          cases d with
          | nil =>
            exact ⟨⟨hr.inv, hr.bytes, hr.fits, .inr rfl, hr.ids⟩, rfl, rfl, rfl, rfl, fun h => (by simp at h), fun _ => ⟨rfl, hh⟩,
              fun h => absurd rfl (h false)⟩
          | cons x xs =>
            obtain ⟨w1, w2⟩ := PBuffer.write_spec c.stream hr.inv (x :: xs)
            exact ih { c with stream := PBuffer.write c.stream (x :: xs), received := c.received ++ (x :: xs) }
              ⟨w1, by dsimp only; rw [w2, hr.bytes, List.append_assoc], hr.fits, hr.data, hr.ids⟩

theorem readInto_spec (o : Ops X) (c : Conn X) (hr : R c) :
    R (readInto o c).1 ∧ wv (readInto o c).1 = wv c ∧ (readInto o c).1.read = c.read ∧
    (readInto o c).1.taken = c.taken ∧ (readInto o c).1.nextId = c.nextId ∧
    ((readInto o c).2 = .ret true → (readInto o c).1.xact = c.xact ∧ PBuffer.hasMessage (readInto o c).1.stream = .ok true) ∧
    ((readInto o c).2 = .ret false → (readInto o c).1.xact = c.xact.map o.fail ∧
      PBuffer.hasMessage (readInto o c).1.stream = .ok false) ∧
    ((∀ r, (readInto o c).2 ≠ .ret r) → (readInto o c).1.xact = c.xact) := by
  unfold readInto
  cases hh : PBuffer.hasMessage c.stream with
  | error e => exact ⟨hr, rfl, rfl, rfl, rfl, fun h => (by cases h), fun h => (by cases h), fun _ => rfl⟩
  | ok b =>
    cases b with
    | true => exact ⟨hr, rfl, rfl, rfl, rfl, fun _ => ⟨rfl, hh⟩, fun h => (by simp at h), fun _ => rfl⟩
    | false =>
      dsimp only
      cases hd : c.readData with
      | none => exact readIntoLoop_spec o c.recvs c hr
      | some d =>
        have : d = [] := by rcases hr.data with h | h <;> rw [hd] at h <;> simp at h; exact h
        subst this
        obtain ⟨w1, w2⟩ := PBuffer.write_spec c.stream hr.inv []
        exact readIntoLoop_spec o c.recvs { c with stream := PBuffer.write c.stream [], readData := none }
          ⟨w1, by dsimp only; rw [w2, List.append_nil]; exact hr.bytes, hr.fits, .inl rfl, hr.ids⟩

theorem readMessages_spec (o : Ops X) (c : Conn X) (hr : R c) :
    R (readMessages o c).1 ∧ wv (readMessages o c).1 = wv c ∧ (readMessages o c).1.taken = c.taken ∧ c.nextId ≤ (readMessages o c).1.nextId ∧
    ((readMessages o c).2 = .ret true → (readMessages o c).1.xact = c.xact ∧ (readMessages o c).1.read.msgs ≠ [] ∧
      ((readMessages o c).1.read.id = c.read.id ∧ c.read.msgs ≠ [] ∨ c.nextId ≤ (readMessages o c).1.read.id)) ∧
    ((readMessages o c).2 = .ret false → (readMessages o c).1.xact = c.xact.map o.fail ∧ (readMessages o c).1.read.msgs = []) ∧
    (∀ e, (readMessages o c).2 = .raised e → (readMessages o c).1.xact = c.xact ∨ (readMessages o c).1.xact = c.xact.map o.fail) ∧
    ((readMessages o c).2 = .blocked → (readMessages o c).1.xact = c.xact) := by
  unfold readMessages
  split
  · rename_i hne
    exact ⟨hr, rfl, rfl, Nat.le_refl _, fun _ => ⟨rfl, hne, .inl ⟨rfl, hne⟩⟩, fun h => (by simp at h), fun _ h => (by cases h), fun h => (by cases h)⟩
  · rename_i hread
    have hread := Decidable.not_not.1 hread
    obtain ⟨a1, a2, a3, a4, a5, a6, a7, a8⟩ := readInto_spec o c hr
    generalize readInto o c = z at *
    obtain ⟨d, r⟩ := z
    dsimp only at a1 a2 a3 a4 a5 a6 a7 a8 ⊢
    cases r with
    | raised e => exact ⟨a1, a2, a4, by dsimp only; omega, fun h => (by cases h), fun h => (by cases h), fun _ _ => .inl (a8 (by simp)), fun h => (by cases h)⟩
    | blocked => exact ⟨a1, a2, a4, by dsimp only; omega, fun h => (by cases h), fun h => (by cases h), fun _ h => (by cases h), fun _ => a8 (by simp)⟩
    | ret r =>
      obtain ⟨b1, b2⟩ := PBuffer.read_spec d.stream a1.inv 0xFFFFFFFF
      dsimp only at b2
      have hx : d.xact = c.xact ∨ d.xact = c.xact.map o.fail := by
        cases r with
        | true => exact .inl (a6 rfl).1
        | false => exact .inr (a7 rfl).1
      have hpe := PBuffer.parse_eq (PBuffer.unread d.stream)
      have hhm := PBuffer.hasMessage_spec d.stream a1.inv
      generalize hrd : PBuffer.read d.stream = z at b1 b2
      dsimp only
      rw [hrd]
      obtain ⟨res, s⟩ := z
      split at b2
      · obtain ⟨c1, c2⟩ := b2
        dsimp only at c1 c2
        subst c1
        dsimp only
        have hbytes : d.received = frames (d.taken ++ (parse (PBuffer.unread d.stream)).1.take 4294967295) ++ PBuffer.unread s := by
          have := a1.bytes
          rw [a3, hread, List.append_nil] at this
          rw [this]
          unfold frames
          rw [List.flatMap_append, List.append_assoc]
          congr 1
        have hfits : ∀ m ∈ d.taken ++ (parse (PBuffer.unread d.stream)).1.take 4294967295, Fits m := by
          intro m hm
          rcases List.mem_append.1 hm with hm | hm
          · exact a1.fits m (by simp [hm])
          · exact parse_fits _ _ rfl m (List.mem_of_mem_take hm)
        refine ⟨⟨b1, hbytes, hfits, a1.data, Nat.lt_succ_self _⟩, a2, a4, by omega, fun h => ?_, fun h => ?_, fun _ h => (by cases h), fun h => (by cases h)⟩
        · cases h
          refine ⟨(a6 rfl).1, ?_, .inr (by omega)⟩
          rw [(a6 rfl).2] at hhm
          cases hv : view (PBuffer.unread d.stream) with
          | incomplete => rw [hv] at hhm; simp at hhm
          | bad => rw [hv] at hhm; simp at hhm
          | msg m rest => rw [hv] at hpe; rw [hpe]; simp
        · cases h
          refine ⟨(a7 rfl).1, ?_⟩
          rw [(a7 rfl).2] at hhm
          cases hv : view (PBuffer.unread d.stream) with
          | incomplete => rw [hv] at hpe; rw [hpe]; simp
          | bad => rw [hv] at hhm; simp at hhm
          | msg m rest => rw [hv] at hhm; simp at hhm
      · obtain ⟨c1, c2⟩ := b2
        dsimp only at c1 c2
        subst c1
        dsimp only
        refine ⟨⟨b1, ?_, a1.fits, a1.data, a1.ids⟩, a2, a4, by omega, fun h => (by cases h), fun h => (by cases h), fun _ _ => hx, fun h => (by cases h)⟩
        dsimp only
        rw [c2]; exact a1.bytes

theorem putRead_spec (o : Ops X) (c : Conn X) (op x : X) (hr : R c) :
    R (putRead o c op x).1 ∧ wv (putRead o c op x).1 = wv c ∧ c.nextId ≤ (putRead o c op x).1.nextId := by
  unfold putRead
  generalize o.put op x c.read = z
  obtain ⟨y, r⟩ := z
  cases r with
  | error e => exact ⟨R_congr (c := c) rfl hr, rfl, Nat.le_refl _⟩
  | ok n =>
    refine ⟨⟨hr.inv, ?_, ?_, hr.data, Nat.lt_succ_self _⟩, rfl, Nat.le_succ _⟩
    · dsimp only; rw [List.append_assoc, List.take_append_drop]; exact hr.bytes
    · dsimp only; rw [List.append_assoc, List.take_append_drop]; exact hr.fits

/-! ## The methods -/

/-- Both invariants. -/
def I (c : Conn X) : Prop := W c ∧ R c

theorem I_congr {c d : Conn X} (h : wv c = wv d) (h' : rv c = rv d) (hi : I c) : I d := ⟨W_congr h hi.1, R_congr h' hi.2⟩

theorem handler_I (o : Ops X) (c : Conn X) (e : CErr) (h : I c) : I (handler o c e).1 := by
  cases e with
  | py e => exact I_congr (c := c) rfl rfl h
  | sock k => cases k <;> exact I_congr (c := c) rfl rfl h

theorem write_I (o : Ops X) (c : Conn X) (m : Obj) (h : I c) : I (writeMessages o c m).1 := by
  obtain ⟨a, _, b, _⟩ := writeMessages_W o c m h.1
  exact ⟨a, R_congr b.symm h.2⟩

theorem read_I (o : Ops X) (c : Conn X) (h : I c) : I (readMessages o c).1 := by
  obtain ⟨a, b, _⟩ := readMessages_spec o c h.2
  exact ⟨W_congr b.symm h.1, a⟩

theorem put_I (o : Ops X) (c : Conn X) (op x : X) (h : I c) : I (putRead o c op x).1 := by
  obtain ⟨a, b, _⟩ := putRead_spec o c op x h.2
  exact ⟨W_congr b.symm h.1, a⟩

theorem noteReady_I (o : Ops X) (c : Conn X) (x : X) (h : I c) : I (noteReady o c x) := I_congr (c := c) rfl rfl h

theorem completePass_I (o : Ops X) (c : Conn X) (x : X) (h : I c) : I (completePass o c x).1 := by
  unfold completePass
  cases o.dir x with
  | complete => exact noteReady_I o c x h
  | receiving =>
    dsimp only
    have hr := read_I o c h
    generalize readMessages o c = z at hr
    obtain ⟨d, r⟩ := z
    cases r with
    | blocked => exact hr
    | raised e => exact handler_I o d e hr
    | ret b =>
      cases b with
      | false => exact hr
      | true =>
        dsimp only
        have hp := put_I o d x x hr
        generalize putRead o d x x = z at hp
        obtain ⟨d', r⟩ := z
        cases r with
        | blocked => exact hp
        | raised e => exact handler_I o d' e hp
        | ret u => cases u; exact hp
  | sending =>
    dsimp only
    have hw := write_I o c (o.messages x) h
    generalize writeMessages o c (o.messages x) = z at hw
    obtain ⟨d, r⟩ := z
    cases r with
    | blocked => exact hw
    | raised e => exact handler_I o d e hw
    | ret b => cases b <;> exact I_congr (c := d) rfl rfl hw

theorem settle_I (o : Ops X) (c : Conn X) (h : I c) : I (settle o c) := by
  unfold settle
  split
  · exact h
  · split
    · exact h
    · exact I_congr (c := c) rfl rfl h

theorem complete_I (o : Ops X) : ∀ (n : Nat) (c : Conn X), I c → I (complete o n c).1
  | 0, c, h => h
  | n + 1, c, h => by
    unfold complete
    cases hx : c.xact with
    | none => exact h
    | some x =>
      dsimp only
      have hp := completePass_I o c x h
      generalize completePass o c x = z at hp
      obtain ⟨d, r⟩ := z
      cases r with
      | again => exact complete_I o n d hp
      | done => exact settle_I o d hp
      | raised e => exact hp
      | blocked => exact hp

theorem stepHandler_I (c : Conn X) (e : CErr) (h : I c) : I (stepHandler c e).1 := by
  cases e with
  | py e => exact h
  | sock k => cases k <;> exact h

theorem stepEnd_I (o : Ops X) (c : Conn X) (h : I c) : I (stepEnd o c) := by
  unfold stepEnd
  split
  · exact h
  · split
    · exact I_congr (c := c) rfl rfl h
    · exact h

theorem step_I (o : Ops X) (c : Conn X) (h : I c) : I (step o c).1 := by
  unfold step
  cases hx : c.xact with
  | none => exact h
  | some x =>
    dsimp only
    cases o.dir x with
    | complete => exact h
    | sending =>
      dsimp only
      have hw := write_I o c (o.messages x) h
      generalize writeMessages o c (o.messages x) = z at hw
      obtain ⟨d, r⟩ := z
      cases r with
      | blocked => exact hw
      | raised e => exact stepHandler_I d e hw
      | ret b => exact stepEnd_I o _ (I_congr (c := d) rfl rfl hw)
    | receiving =>
      dsimp only
      have hr := read_I o c h
      generalize readMessages o c = z at hr
      obtain ⟨d, r⟩ := z
      cases r with
      | blocked => exact hr
      | raised e => exact stepHandler_I d e hr
      | ret b =>
        dsimp only
        have hp := put_I o d x (d.xact.getD x) hr
        generalize putRead o d x (d.xact.getD x) = z at hp
        obtain ⟨d', r⟩ := z
        cases r with
        | blocked => exact hp
        | raised e => exact stepHandler_I d' e hp
        | ret u => cases u; exact stepEnd_I o _ (noteReady_I o _ _ hp)

theorem takeOutTrash_I (o : Ops X) (f : Finalizers) (c : Conn X) (h : I c) : I (takeOutTrash o f c) :=
  ⟨W_congr (c := c) rfl h.1, ⟨h.2.inv, h.2.bytes, h.2.fits, h.2.data, Nat.lt_succ_of_lt h.2.ids⟩⟩

theorem push_I (o : Ops X) (f : Finalizers) (n : Nat) (c : Conn X) (x : X) (h : I c) : I (push o f n c x).1 := by
  unfold push
  split
  · exact h
  · have h1 : I (if c.xact.isSome then complete o n c else (c, .ret ())).1 := by
      split
      · exact complete_I o n c h
      · exact h
    generalize (if c.xact.isSome then complete o n c else (c, .ret ())) = z at h1
    obtain ⟨d, r⟩ := z
    cases r with
    | raised e => exact h1
    | blocked => exact h1
    | ret u =>
      cases u
      dsimp only at h1 ⊢
      split
      · exact h1
      · have h2 : I (if d.garbageStatements ≠ [] ∨ d.garbageCursors ≠ [] then complete o n (takeOutTrash o f d) else (d, .ret ())).1 := by
          split
          · exact complete_I o n _ (takeOutTrash_I o f d h1)
          · exact h1
        generalize (if d.garbageStatements ≠ [] ∨ d.garbageCursors ≠ [] then complete o n (takeOutTrash o f d) else (d, .ret ())) = z at h2
        obtain ⟨d', r⟩ := z
        cases r with
        | raised e => exact h2
        | blocked => exact h2
        | ret u =>
          cases u
          dsimp only at h2 ⊢
          split
          · exact h2
          · exact step_I o _ (I_congr (c := d') rfl rfl h2)

theorem synchronize_I (o : Ops X) (n : Nat) (c : Conn X) (h : I c) : I (synchronize o n c).1 := by
  unfold synchronize
  have h1 : I (if c.xact.isSome then complete o n c else (c, .ret ())).1 := by
    split
    · exact complete_I o n c h
    · exact h
  generalize (if c.xact.isSome then complete o n c else (c, .ret ())) = z at h1
  obtain ⟨d, r⟩ := z
  cases r with
  | raised e => exact h1
  | blocked => exact h1
  | ret u =>
    cases u
    exact complete_I o n _ ⟨W_congr (c := d) rfl h1.1, ⟨h1.2.inv, h1.2.bytes, h1.2.fits, h1.2.data, Nat.lt_succ_of_lt h1.2.ids⟩⟩

theorem apply_I (o : Ops X) (c : Conn X) (op : Op X) (h : I c) : I (apply o c op) := by
  cases op with
  | sock s r => exact I_congr (c := c) rfl rfl h
  | give x =>
    unfold apply
    dsimp only
    split
    · split
      · exact I_congr (c := c) rfl rfl h
      · exact h
    · exact h
  | push f n x => exact push_I o f n c x h
  | step => exact step_I o c h
  | complete n => exact complete_I o n c h
  | synchronize n => exact synchronize_I o n c h
  | trashCursor i => exact I_congr (c := c) rfl rfl h
  | trashStatement i => exact I_congr (c := c) rfl rfl h

theorem init_I (x : X) : I ({ xact := some x } : Conn X) := by
  refine ⟨⟨[], by simp, rfl, rfl, .inl ⟨rfl, rfl⟩⟩, ⟨PBuffer.inv_init, ?_, by simp, .inl rfl, Nat.zero_lt_one⟩⟩
  simp [frames, PBuffer.unread]

theorem foldl_I (o : Ops X) : ∀ (ops : List (Op X)) (c : Conn X), I c → I (ops.foldl (apply o) c)
  | [], _, h => h
  | op :: ops, c, h => foldl_I o ops _ (apply_I o c op h)

theorem run_I (o : Ops X) (x : X) (ops : List (Op X)) : I (run o x ops) := foldl_I o ops _ (init_I x)

/-! ## Completion -/

/-- Everything handed to the writer is on the wire. -/
def Clean (c : Conn X) : Prop := c.messageData = [] ∧ c.wire = (squeeze c.log).flatMap bytesOf ∧ ∀ x ∈ squeeze c.log, Serializable x = true

theorem Clean_congr {c d : Conn X} (h : wv c = wv d) : Clean c → Clean d := by
  have h1 : c.wire = d.wire := (congrArg (·.1) h :)
  have h2 : c.messageData = d.messageData := (congrArg (·.2.1) h :)
  have h5 : c.log = d.log := (congrArg (·.2.2.2.2) h :)
  unfold Clean
  rw [h1, h2, h5]
  exact id

/-- What holds while `complete()` runs. -/
def Q (o : Ops X) (c : Conn X) : Prop := ∀ x, c.xact = some x → o.dir x = .sending ∨ Clean c ∨ (o.dir x = .complete ∧ o.fatal x = true)

theorem Q_fail {o : Ops X} (hl : Lawful o) (c : Conn X) : Q o (failXact o c) := by
  intro x hx
  unfold failXact at hx
  dsimp only at hx
  cases hc : c.xact with
  | none => rw [hc] at hx; cases hx
  | some y =>
    rw [hc] at hx
    cases hx
    exact .inr (.inr ⟨hl.fail_complete y, hl.fail_fatal y⟩)

theorem handler_Q {o : Ops X} (hl : Lawful o) (c : Conn X) (e : CErr) (h : Q o c) : Q o (handler o c e).1 := by
  cases e with
  | py e => exact Q_fail hl c
  | sock k => cases k <;> first | exact h | exact Q_fail hl c

theorem completePass_Q {o : Ops X} (hl : Lawful o) (c : Conn X) (x : X) (hx : c.xact = some x) (hi : I c) (h : Q o c) :
    Q o (completePass o c x).1 := by
  unfold completePass
  cases hd : o.dir x with
  | complete => exact h
  | receiving =>
    dsimp only
    have hc : Clean c := by
      rcases h x hx with h | h | ⟨h, _⟩
      · rw [hd] at h; cases h
      · exact h
      · rw [hd] at h; cases h
    obtain ⟨_, hwv, _⟩ := readMessages_spec o c hi.2
    generalize readMessages o c = z at hwv
    obtain ⟨d, r⟩ := z
    have hcd : Clean d := Clean_congr hwv.symm hc
    cases r with
    | blocked => exact fun y _ => .inr (.inl hcd)
    | raised e => exact handler_Q hl d e (fun y _ => .inr (.inl hcd))
    | ret b =>
      cases b with
      | false => exact fun y _ => .inr (.inl hcd)
      | true =>
        dsimp only
        have hp : wv (putRead o d x x).1 = wv d := by
          unfold putRead
          generalize o.put x x d.read = z
          obtain ⟨y, r⟩ := z
          cases r <;> rfl
        generalize putRead o d x x = z at hp
        obtain ⟨d', r⟩ := z
        have hcd' : Clean d' := Clean_congr hp.symm hcd
        cases r with
        | blocked => exact fun y _ => .inr (.inl hcd')
        | raised e => exact handler_Q hl d' e (fun y _ => .inr (.inl hcd'))
        | ret u => cases u; exact fun y _ => .inr (.inl hcd')
  | sending =>
    dsimp only
    obtain ⟨_, l, _, t, f, e⟩ := writeMessages_W o c (o.messages x) hi.1
    generalize writeMessages o c (o.messages x) = z at l t f e
    obtain ⟨d, r⟩ := z
    have hs : d.xact = c.xact → Q o d := fun he y hy => by
      rw [he, hx] at hy
      cases hy
      exact .inl hd
    cases r with
    | blocked => exact hs (e (by simp))
    | raised e' => exact handler_Q hl d e' (hs (e (by simp)))
    | ret b =>
      cases b with
      | false =>
        intro y hy
        dsimp only at hy f
        rw [f rfl, hx] at hy
        cases hy
        exact .inr (.inr ⟨hl.fail_complete x, hl.fail_fatal x⟩)
      | true =>
        intro y _
        obtain ⟨t1, _, t3, t4⟩ := t rfl
        dsimp only at t1 t3 t4 l
        exact .inr (.inl ⟨t1, by dsimp only; rw [l]; exact t3, by dsimp only; rw [l]; exact t4⟩)

theorem completePass_done {o : Ops X} (hl : Lawful o) (c d : Conn X) (x : X) (hx : c.xact = some x) (h : completePass o c x = (d, .done)) :
    ∀ y, d.xact = some y → o.dir y = .complete := by
  have hh : ∀ (c : Conn X) (e : CErr) (d : Conn X), handler o c e = (d, .done) → ∀ y, d.xact = some y → o.dir y = .complete := by
    intro c e d h y hy
    have hf : d = failXact o { c with state := [] } := by
      cases e with
      | py e => cases h; rfl
      | sock k => cases k <;> cases h; rfl
    subst hf
    unfold failXact at hy
    dsimp only at hy
    cases hc : c.xact with
    | none => rw [hc] at hy; cases hy
    | some z =>
      rw [hc] at hy
      cases hy
      exact hl.fail_complete z
  unfold completePass at h
  cases hd : o.dir x with
  | complete =>
    rw [hd] at h
    cases h
    intro y hy
    replace hy : c.xact = some y := hy
    rw [hx] at hy
    cases hy
    exact hd
  | receiving =>
    rw [hd] at h
    dsimp only at h
    generalize readMessages o c = z at h
    obtain ⟨d1, r⟩ := z
    cases r with
    | blocked => cases h
    | raised e => exact hh d1 e d h
    | ret b =>
      cases b with
      | false => cases h
      | true =>
        dsimp only at h
        generalize putRead o d1 x x = z at h
        obtain ⟨d2, r⟩ := z
        cases r with
        | blocked => cases h
        | raised e => exact hh d2 e d h
        | ret u => cases u; cases h
  | sending =>
    rw [hd] at h
    dsimp only at h
    generalize writeMessages o c (o.messages x) = z at h
    obtain ⟨d1, r⟩ := z
    cases r with
    | blocked => cases h
    | raised e => exact hh d1 e d h
    | ret b => cases b <;> cases h

theorem completePass_some (o : Ops X) (c : Conn X) (x : X) (hx : c.xact = some x) (h : (completePass o c x).1.xact = none) : False := by
  have hh : ∀ (c : Conn X) (e : CErr), c.xact ≠ none → (handler o c e).1.xact ≠ none := by
    intro c e hc
    cases e with
    | py e => unfold handler failXact; dsimp only; simpa using hc
    | sock k => cases k <;> unfold handler <;> first | exact hc | (unfold failXact; dsimp only; simpa using hc)
  have hw : ∀ m, (writeMessages o c m).1.xact ≠ none := by
    have hs : ∀ c : Conn X, c.xact = some x → (sendMessageData o c).1.xact ≠ none := by
      intro c hx
      obtain ⟨_, _, _, _, _, a, b, e⟩ := sendMessageData_spec o c
      cases hr : (sendMessageData o c).2 with
      | ret r =>
        cases r with
        | true => rw [(a hr).2, hx]; simp
        | false => rw [b hr, hx]; simp
      | raised e' => rw [e (by rw [hr]; simp), hx]; simp
      | blocked => rw [e (by rw [hr]; simp), hx]; simp
    intro m
    unfold writeMessages
    dsimp only
    split
    · dsimp only; rw [hx]; simp
    · rename_i d hd
      have hdx : d.xact = some x := by
        unfold catWriting at hd
        split at hd
        · cases hd; exact hx
        · split at hd
          · cases hd; exact hx
          · split at hd
            · cases hd
            · cases hd; exact hx
      split
      · exact hs d hdx
      · split
        · dsimp only; rw [hdx]; simp
        · exact hs _ hdx
  have hr : (readMessages o c).1.xact ≠ none := by
    have hl : ∀ evs (c : Conn X), c.xact ≠ none → (readIntoLoop o c evs).1.xact ≠ none := by
      intro evs
      induction evs with
      | nil =>
        intro c hc
        unfold readIntoLoop
        split <;> exact hc
      | cons ev evs ih =>
        intro c hc
        unfold readIntoLoop
        split
        · exact hc
        · exact hc
        · split
          · unfold failXact; dsimp only; simpa using hc
          · exact hc
          · unfold failXact; dsimp only; simpa using hc
          · exact ih _ hc
    have hi : (readInto o c).1.xact ≠ none := by
      unfold readInto
      have hc : c.xact ≠ none := by rw [hx]; simp
      split
      · exact hc
      · exact hc
      · split
        · exact hl _ _ hc
        · exact hl _ _ hc
    unfold readMessages
    split
    · rw [hx]; simp
    · generalize readInto o c = z at hi
      obtain ⟨d, r⟩ := z
      cases r with
      | blocked => exact hi
      | raised e => exact hi
      | ret b =>
        dsimp only
        generalize PBuffer.read d.stream = z
        obtain ⟨res, s⟩ := z
        cases res <;> exact hi
  revert h
  unfold completePass
  cases o.dir x with
  | complete => intro h; replace h : c.xact = none := h; rw [hx] at h; cases h
  | receiving =>
    dsimp only
    generalize readMessages o c = z at hr
    obtain ⟨d, r⟩ := z
    cases r with
    | blocked => exact hr
    | raised e => exact hh d e hr
    | ret b =>
      cases b with
      | false => exact hr
      | true =>
        dsimp only
        have hp : (putRead o d x x).1.xact ≠ none := by
          unfold putRead
          generalize o.put x x d.read = z
          obtain ⟨y, r⟩ := z
          cases r <;> simp
        generalize putRead o d x x = z at hp
        obtain ⟨d', r⟩ := z
        cases r with
        | blocked => exact hp
        | raised e => exact hh d' e hp
        | ret u => cases u; exact hp
  | sending =>
    dsimp only
    have := hw (o.messages x)
    generalize writeMessages o c (o.messages x) = z at this
    obtain ⟨d, r⟩ := z
    cases r with
    | blocked => exact this
    | raised e => exact hh d e this
    | ret b => cases b <;> first | exact this | (intro h; cases h)

/-- When `complete()` returns and has removed the transaction, everything was sent. -/
theorem complete_clean {o : Ops X} (hl : Lawful o) : ∀ (n : Nat) (c d : Conn X), I c → Q o c → complete o n c = (d, .ret ()) →
    d.xact = none → Clean d
  | 0, c, d, _, _, h, _ => by cases h
  | n + 1, c, d, hi, hq, h, hn => by
    unfold complete at h
    cases hx : c.xact with
    | none => rw [hx] at h; cases h
    | some x =>
      rw [hx] at h
      dsimp only at h
      have hp := completePass_I o c x hi
      have hpq := completePass_Q hl c x hx hi hq
      have hdn := completePass_done hl c (completePass o c x).1 x hx
      generalize hz : completePass o c x = z at h hp hpq hdn
      obtain ⟨d1, r⟩ := z
      cases r with
      | again => exact complete_clean hl n d1 d hp hpq h hn
      | raised e => cases h
      | blocked => cases h
      | done =>
        have hdir := hdn rfl
        dsimp only at h hpq hdir
        have : d = settle o d1 := by cases h; rfl
        subst this
        unfold settle at hn ⊢
        cases hx1 : d1.xact with
        | none =>
          -- impossible: a pass keeps a transaction
          exfalso
          exact completePass_some o c x hx (by rw [hz]; exact hx1)
        | some y =>
          rw [hx1] at hn
          dsimp only at hn ⊢
          split at hn
          · rw [hx1] at hn; cases hn
          · rename_i hf
            rw [if_neg hf]
            rcases hpq y hx1 with h1 | h1 | ⟨_, h1⟩
            · rw [hdir y hx1] at h1; cases h1
            · exact Clean_congr (c := d1) rfl h1
            · exact absurd h1 hf

end PG.Client3
