import Verif.Model.CopyManager
import Verif.Proofs.CopyMan
import Verif.Proofs.PBuffer
/-!
# Lemmas about the COPY manager
-/
namespace PG.CopyMan
open PG PG.Spec PG.Spec.Copy PG.Spec.Format PG.Element3 PG.PBuffer PG.TypesLib

/-- Data as it goes over the wire. -/
def wireOf : Data → Bytes
  | .bytes b => b
  | .rows l => copyFrames l
  | .nothing => []
/-- The rows of a list of rows. -/
def rowsOf : Data → List Bytes
  | .rows l => l
  | _ => []

/-- What a receiver has or holds. -/
def holds (r : Rcv) : Bytes := r.sent ++ r.view
def calls (r : Rcv) : List (List Bytes) := r.got ++ r.lines.toList
/-- Nothing is pending. -/
def Idle (r : Rcv) : Prop := r.view = [] ∧ r.lines = none

theorem sendLoop_spec (s : List Send) : ∀ v sent, (sendLoop s v sent).2.2.2 ++ (sendLoop s v sent).2.2.1 = sent ++ v ∧
    ((sendLoop s v sent).1 = true → (sendLoop s v sent).2.2.1 = []) := by
  induction s with
  | nil => intro v sent; cases v <;> simp [sendLoop]
  | cons x s ih =>
    intro v sent
    cases v with
    | nil => cases x <;> simp [sendLoop]
    | cons y v =>
      cases x with
      | took n =>
        rw [sendLoop]
        · obtain ⟨h1, h2⟩ := ih ((y :: v).drop n) (sent ++ (y :: v).take n)
          refine ⟨?_, h2⟩
          rw [h1, List.append_assoc, List.take_append_drop]
        · simp
      | fault => simp [sendLoop]

/-- Transmitting loses nothing; if it returns, nothing is pending. -/
theorem transmit_spec (r : Rcv) : holds (transmit r).2 = holds r ∧ calls (transmit r).2 = calls r ∧
    (transmit r).2.proto = r.proto ∧ (transmit r).2.active = r.active ∧
    ((transmit r).1 = true → (r.proto = .pq → (transmit r).2.view = []) ∧ (r.proto = .chunks → (transmit r).2.lines = none)) ∧
    (r.proto ≠ .pq → (transmit r).2.view = r.view) ∧ (r.proto ≠ .chunks → (transmit r).2.lines = r.lines) := by
  obtain ⟨proto, view, lines, sends, cs, sent, got, active, en, ex⟩ := r
  unfold transmit
  cases proto with
  | pq =>
    obtain ⟨h1, h2⟩ := sendLoop_spec sends view sent
    exact ⟨h1, rfl, rfl, rfl, fun h => ⟨fun _ => h2 h, fun h => (by cases h)⟩, fun h => absurd rfl h, fun _ => rfl⟩
  | chunks =>
    cases lines with
    | none => exact ⟨rfl, rfl, rfl, rfl, fun _ => ⟨fun h => (by cases h), fun _ => rfl⟩, fun _ => rfl, fun h => absurd rfl h⟩
    | some l =>
      cases cs with
      | nil => exact ⟨rfl, by simp [calls], rfl, rfl, fun _ => ⟨fun h => (by cases h), fun _ => rfl⟩, fun _ => rfl, fun h => absurd rfl h⟩
      | cons b c =>
        cases b with
        | true => exact ⟨rfl, rfl, rfl, rfl, fun h => (by cases h), fun _ => rfl, fun h => absurd rfl h⟩
        | false => exact ⟨rfl, by simp [calls], rfl, rfl, fun _ => ⟨fun h => (by cases h), fun _ => rfl⟩, fun _ => rfl, fun h => absurd rfl h⟩
  | null => exact ⟨rfl, rfl, rfl, rfl, fun _ => ⟨fun h => (by cases h), fun h => (by cases h)⟩, fun _ => rfl, fun _ => rfl⟩

theorem packS4_nat {n : Nat} {w : Bytes} (h : packS 4 (n : Int) = .ok w) : w = beEnc 4 n ∧ n < 2147483648 := by
  have hc : ((256 : Int) ^ 4) = 4294967296 := by decide
  unfold packS at h
  rw [hc] at h
  split at h
  · rename_i hh
    have hn : n < 2147483648 := by omega
    refine ⟨?_, hn⟩
    injection h with h
    rw [← h, Int.emod_eq_of_lt (by omega) (by omega), Int.toNat_natCast]
  · cases h

theorem catMessages_rows (l : List Bytes) : ∀ b, catMessages (l.map Item.raw) = .ok b → b = copyFrames l ∧ ∀ row ∈ l, RowFits row := by
  induction l with
  | nil => intro b h; cases h; exact ⟨rfl, by simp⟩
  | cons row l ih =>
    intro b h
    rw [List.map_cons, catMessages] at h
    obtain ⟨x, hx, h⟩ := bind_eq_ok h
    obtain ⟨t, ht, h⟩ := bind_eq_ok h
    cases h
    obtain ⟨rfl, hf⟩ := ih t ht
    rw [itemBytes] at hx
    obtain ⟨w, hw, hx⟩ := bind_eq_ok hx
    cases hx
    have hw' : packS 4 ((row.length + 4 : Nat) : Int) = .ok w := by
      rw [← hw]
      rfl
    obtain ⟨rfl, hlt⟩ := packS4_nat hw'
    have hfit : RowFits row := by unfold RowFits; omega
    refine ⟨?_, ?_⟩
    · rw [copyFrames_cons]
    · intro y hy
      rcases List.mem_cons.1 hy with rfl | hy
      · exact hfit
      · exact hf y hy

/-- The data fits the protocol of the producer. -/
def Typed (src : Proto) : Data → Prop
  | .bytes _ => src = .pq
  | .rows _ => src = .chunks
  | .nothing => False

/-- A receiver has or holds everything in the log. -/
structure Has (src : Proto) (log : List Data) (hd : List Msg) (r : Rcv) : Prop where
  pq : r.proto = .pq → holds r = log.flatMap wireOf
  chunks : r.proto = .chunks → src = .chunks → calls r = log.map rowsOf
  parsed : r.proto = .chunks → src = .pq → (calls r).flatten = hd.map Prod.snd

/-- The buffer of the transformer. -/
structure MInv (m : Mgr) (hd : List Msg) : Prop where
  inv : Inv m.buf
  bytes : m.src = .pq → .chunks ∈ m.protocols → m.log.flatMap wireOf = frames hd ++ unread m.buf
  fits : ∀ x ∈ hd, Spec.Fits x
  rest : m.src = .pq → .chunks ∈ m.protocols → (parse (unread m.buf)).1 = [] ∨ 0xFFFFFFFF ≤ hd.length
  typed : ∀ d, .data d ∈ m.script → Typed m.src d

theorem transform_spec {m : Mgr} {hd : List Msg} {d : Data} {s : List PEvent} (hm : MInv m hd) (hs : m.script = .data d :: s) {a b : Data} {buf : Stream}
    (h : transform { m with script := s } d = .ok (a, b, buf)) :
    ∃ l, MInv { m with script := s, buf := buf, log := m.log ++ [d] } (hd ++ l) ∧
      (Proto.pq ∈ m.protocols → a = .bytes (wireOf d)) ∧
      (Proto.chunks ∈ m.protocols → b = .rows (if m.src = .chunks then rowsOf d else l.map Prod.snd)) := by
  have hty := hm.typed d (by rw [hs]; exact List.mem_cons_self ..)
  have htys : ∀ d', .data d' ∈ s → Typed m.src d' := fun d' h => hm.typed d' (by rw [hs]; exact List.mem_cons_of_mem _ h)
  unfold transform at h
  obtain ⟨⟨a', b1⟩, ha, h⟩ := bind_eq_ok h
  obtain ⟨⟨b', buf'⟩, hb, h⟩ := bind_eq_ok h
  injection h with h
  injection h with h1 h
  injection h with h2 h3
  unfold forTarget at ha hb
  dsimp only at h1 h2 h3 ha hb
  subst h1 h2 h3
  cases d with
  | nothing => exact hty.elim
  | bytes x =>
    have hsrc : m.src = .pq := hty
    have hpa : Proto.pq ∈ m.protocols → a' = .bytes x := by
      intro hp
      rw [if_pos hp, hsrc] at ha
      simp only [transformTo] at ha
      injection ha with ha
      injection ha with ha _
      exact ha.symm
    by_cases hc : Proto.chunks ∈ m.protocols
    · rw [if_pos hc, hsrc] at hb
      simp only [transformTo] at hb
      obtain ⟨hi, hu⟩ := write_spec m.buf hm.inv x
      have hr := read_spec (write m.buf x) hi 0xFFFFFFFF
      obtain ⟨hi2, hr⟩ := hr
      generalize hrd : PBuffer.read (write m.buf x) 0xFFFFFFFF = rd at hb hr hi2
      obtain ⟨res, st⟩ := rd
      cases res with
      | error e => cases hb
      | ok l =>
        dsimp only at hb hr hi2
        injection hb with hb
        injection hb with hb1 hb2
        subst hb1 hb2
        split at hr
        · obtain ⟨h1, h2⟩ := hr
          injection h1 with h1
          rw [← h1] at h2
          have hfit : ∀ y ∈ l, Spec.Fits y := by
            intro y hy
            rw [h1] at hy
            exact (parse_concat _).2.1 _ (List.mem_of_mem_take hy)
          refine ⟨l, ⟨hi2, ?_, ?_, ?_, htys⟩, hpa, ?_⟩
          · intro _ _
            have h3 := hm.bytes hsrc hc
            simp only [List.flatMap_append, List.flatMap_cons, List.flatMap_nil, List.append_nil, wireOf]
            rw [h3, List.append_assoc, ← hu, h2]
            simp [frames]
          · intro y hy
            rcases List.mem_append.1 hy with hy | hy
            · exact hm.fits y hy
            · exact hfit y hy
          · intro _ _
            rcases Nat.lt_or_ge (parse (unread (write m.buf x))).1.length 0xFFFFFFFF with hlt | hge
            · left
              rw [List.take_of_length_le (by omega)] at h1
              have hpc := parse_frames l hfit (unread st)
              rw [← h2] at hpc
              have := congrArg Prod.fst hpc
              simp only at this
              rw [← h1] at this
              exact List.self_eq_append_right.1 this
            · right
              rw [h1, List.length_append, List.length_take]
              omega
          · intro _
            rw [if_neg (by rw [hsrc]; decide)]
        · cases hr.1
    · rw [if_neg hc] at hb
      injection hb with hb
      injection hb with hb1 hb2
      subst hb1 hb2
      exact ⟨[], ⟨hm.inv, fun _ h => absurd h hc, by simpa using hm.fits, fun _ h => absurd h hc, htys⟩, hpa, fun h => absurd h hc⟩
  | rows x =>
    have hsrc : m.src = .chunks := hty
    have hbuf : buf' = m.buf ∧ (Proto.chunks ∈ m.protocols → b' = .rows x) := by
      by_cases hc : Proto.chunks ∈ m.protocols
      · rw [if_pos hc, hsrc] at hb
        simp only [transformTo] at hb
        injection hb with hb
        injection hb with hb1 hb2
        exact ⟨hb2.symm, fun _ => hb1.symm⟩
      · rw [if_neg hc] at hb
        injection hb with hb
        injection hb with hb1 hb2
        exact ⟨hb2.symm, fun h => absurd h hc⟩
    obtain ⟨rfl, hbr⟩ := hbuf
    refine ⟨[], ⟨hm.inv, fun h => absurd (hsrc.symm.trans h) (by decide), by simpa using hm.fits, fun h => absurd (hsrc.symm.trans h) (by decide), htys⟩, ?_, ?_⟩
    · intro hp
      rw [if_pos hp, hsrc] at ha
      simp only [transformTo] at ha
      obtain ⟨w, hw, ha⟩ := bind_eq_ok ha
      injection ha with ha
      injection ha with ha _
      rw [← ha, (catMessages_rows x w hw).1]
      rfl
    · intro hp
      rw [if_pos hsrc, hbr hp]
      rfl

/-- What a successful call of the producer does to a receiver. -/
theorem serviceProducer_ok {m m1 : Mgr} {hd : List Msg} (hm : MInv m hd) (h : serviceProducer m = (.ok, m1)) :
    ∃ (d : Data) (s : List PEvent) (l : List Msg) (f : Rcv → Rcv), m.script = .data d :: s ∧ m1.script = s ∧ m1.log = m.log ++ [d] ∧ m1.protocols = m.protocols ∧ m1.src = m.src ∧
      MInv m1 (hd ++ l) ∧ m1.rcvs = m.rcvs.map (fun r => if r.active then f r else r) ∧
      ∀ r, r.active = true → r.proto ∈ m.protocols → Idle r → Has m.src m.log hd r →
        Has m1.src m1.log (hd ++ l) (f r) ∧ (f r).active = true ∧ (f r).proto = r.proto ∧ (f r).sent = r.sent ∧ (f r).got = r.got ∧
          (r.proto = .null → f r = r) ∧ (r.proto ≠ .pq → (f r).view = r.view) ∧ (r.proto ≠ .chunks → (f r).lines = r.lines) := by
  unfold serviceProducer at h
  split at h
  · cases h
  · split at h
    · cases h
    · cases h
    · cases h
    · rename_i d s hs
      dsimp only at h
      split at h
      · cases h
      · rename_i a b buf ht
        injection h with _ h
        subst h
        obtain ⟨l, hm1, hpa, hpb⟩ := transform_spec hm hs ht
        refine ⟨d, s, l, fun r => accept r (forRcv a b r), hs, rfl, rfl, rfl, rfl, ⟨hm1.inv, hm1.bytes, hm1.fits, hm1.rest, hm1.typed⟩, rfl, ?_⟩
        intro r hact hpr hidle hhas
        obtain ⟨hv, hl⟩ := hidle
        obtain ⟨proto, view, lines, sends, cs, sent, got, active, en, ex⟩ := r
        simp only at hact hpr hv hl
        subst hv hl
        cases proto with
        | pq =>
          have ha := hpa hpr
          subst ha
          refine ⟨⟨fun _ => ?_, fun h => (by cases h), fun h => (by cases h)⟩, hact, rfl, rfl, rfl, fun h => (by cases h), fun h => absurd rfl h, fun _ => rfl⟩
          have := hhas.pq rfl
          simp only [holds, List.append_nil] at this
          simp only [forRcv, accept, holds, List.flatMap_append, List.flatMap_cons, List.flatMap_nil, List.append_nil]
          rw [this]
        | chunks =>
          have hb := hpb hpr
          subst hb
          refine ⟨⟨fun h => (by cases h), fun _ hsrc => ?_, fun _ hsrc => ?_⟩, hact, rfl, rfl, rfl, fun h => (by cases h), fun _ => rfl, fun h => absurd rfl h⟩
          · have := hhas.chunks rfl hsrc
            simp only [calls, Option.toList, List.append_nil] at this
            simp only at hsrc
            simp only [forRcv, accept, calls, Option.toList, List.map_append, List.map_cons, List.map_nil, hsrc, if_true]
            rw [this]
          · have := hhas.parsed rfl hsrc
            simp only [calls, Option.toList, List.append_nil] at this
            have hne : m.src ≠ .chunks := by rw [show m.src = .pq from hsrc]; decide
            simp only [forRcv, accept, calls, Option.toList, List.flatten_append, List.map_append, hne, if_false]
            rw [this]
            simp
        | null => exact ⟨⟨fun h => (by cases h), fun h => (by cases h), fun h => (by cases h)⟩, hact, rfl, rfl, rfl, fun _ => rfl, fun _ => rfl, fun _ => rfl⟩

/-- If it is not successful, only the script and the flag change. -/
theorem serviceProducer_not_ok {m m1 : Mgr} {res : Res} (h : serviceProducer m = (res, m1)) (hr : res ≠ .ok) :
    m1.rcvs = m.rcvs ∧ m1.log = m.log ∧ m1.buf = m.buf ∧ m1.src = m.src ∧ m1.protocols = m.protocols ∧ ∃ pre, m.script = pre ++ m1.script := by
  unfold serviceProducer at h
  split at h
  · injection h with _ h; subst h; exact ⟨rfl, rfl, rfl, rfl, rfl, [], rfl⟩
  · split at h
    · rename_i hs
      injection h with _ h; subst h; exact ⟨rfl, rfl, rfl, rfl, rfl, [], rfl⟩
    · rename_i s hs
      injection h with _ h; subst h; exact ⟨rfl, rfl, rfl, rfl, rfl, [.stop], hs⟩
    · rename_i s hs
      injection h with _ h; subst h; exact ⟨rfl, rfl, rfl, rfl, rfl, [.fault], hs⟩
    · rename_i d s hs
      dsimp only at h
      split at h
      · injection h with _ h; subst h; exact ⟨rfl, rfl, rfl, rfl, rfl, [.data d], hs⟩
      · injection h with h _; exact absurd h.symm hr

theorem has_of_transmit {src : Proto} {log : List Data} {hd : List Msg} {r : Rcv} (h : Has src log hd r) : Has src log hd (transmit r).2 := by
  obtain ⟨h1, h2, h3, _⟩ := transmit_spec r
  exact ⟨fun hp => by rw [h1]; exact h.pq (h3 ▸ hp), fun hp hs => by rw [h2]; exact h.chunks (h3 ▸ hp) hs,
    fun hp hs => by rw [h2]; exact h.parsed (h3 ▸ hp) hs⟩

theorem has_active {src : Proto} {log : List Data} {hd : List Msg} {r : Rcv} {b : Bool} (h : Has src log hd r) : Has src log hd { r with active := b } :=
  ⟨h.pq, h.chunks, h.parsed⟩

end PG.CopyMan
