import Verif.Proofs.CopyTo2
import Verif.Proofs.PBuffer
/-!
# Reading the answer of the server from the socket, in any pieces
-/
namespace PG.CopyTo
open PG
open PG.PBuffer hiding Msg
open PG.Element3 PG.Xact3 PG.Spec PG.Spec.CopyTo

theorem frame_ne (m : Msg) : frame m ≠ [] := by simp [frame]

theorem frames_cons (m : Msg) (M : List Msg) : frames (m :: M) = frame m ++ frames M := by simp [frames]
theorem frames_append (a b : List Msg) : frames (a ++ b) = frames a ++ frames b := by simp [frames]

theorem length_frames (M : List Msg) : M.length ≤ (frames M).length := by
  induction M with
  | nil => exact Nat.le_refl _
  | cons m M ih =>
    have := List.length_pos_iff.2 (frame_ne m)
    rw [frames_cons, List.length_append, List.length_cons]
    omega

theorem view_bad_append {u : Bytes} (h : view u = .bad) (r : Bytes) : view (u ++ r) = .bad := by
  by_cases h5 : u.length < 5
  · rw [length_lt_five h5] at h; cases h
  · obtain ⟨t, a, b, c, d, x, rfl⟩ := exists_five h5
    rw [view_cons] at h
    rw [show t :: a :: b :: c :: d :: x ++ r = t :: a :: b :: c :: d :: (x ++ r) from rfl, view_cons]
    split at h
    · rename_i hl; rw [if_pos hl]
    · split at h <;> cases h

/-- The beginning of framed messages is never bad, and holds a message if it is everything. -/
theorem view_frames {M : List Msg} (hM : ∀ m ∈ M, Fits m) {u r : Bytes} (h : u ++ r = frames M) :
    view u ≠ .bad ∧ (M ≠ [] → r = [] → view u ≠ .incomplete) := by
  constructor
  · intro hb
    have := view_bad_append hb r
    rw [h] at this
    cases M with
    | nil => cases this
    | cons m M => rw [frames_cons, view_frame m (hM m (List.mem_cons_self ..))] at this; cases this
  · intro hne hr hi
    subst hr
    rw [List.append_nil] at h
    rw [h] at hi
    cases M with
    | nil => exact hne rfl
    | cons m M => rw [frames_cons, view_frame m (hM m (List.mem_cons_self ..))] at hi; cases hi

theorem take_frames {M : List Msg} : ∀ (A : List Msg) {x : Bytes}, (∀ m ∈ M, Fits m) → (∀ m ∈ A, Fits m) → frames A ++ x = frames M → ∃ M2, M = A ++ M2 ∧ x = frames M2 := by
  induction M with
  | nil =>
    intro A x _ _ h
    cases A with
    | nil => exact ⟨[], rfl, h⟩
    | cons a A => rw [frames_cons] at h; exact absurd (List.append_eq_nil_iff.1 (List.append_eq_nil_iff.1 h).1).1 (frame_ne a)
  | cons m M ih =>
    intro A x hM hA h
    cases A with
    | nil => exact ⟨m :: M, rfl, h⟩
    | cons a A =>
      rw [frames_cons, frames_cons, List.append_assoc] at h
      have h1 := view_frame a (hA a (List.mem_cons_self ..)) (frames A ++ x)
      rw [h, view_frame m (hM m (List.mem_cons_self ..))] at h1
      injection h1 with h1 h2
      subst h1
      obtain ⟨M2, h3, h4⟩ := ih A (fun y hy => hM y (List.mem_cons_of_mem _ hy)) (fun y hy => hA y (List.mem_cons_of_mem _ hy)) h2.symm
      exact ⟨M2, by rw [h3]; rfl, h4⟩

/-- The pieces that the socket returns are not empty: the peer did not close. -/
def Pieces (ds : List Bytes) : Prop := ∀ d ∈ ds, d ≠ []

theorem readIntoLoop_ok {M : List Msg} (hM : ∀ m ∈ M, Fits m) (hne : M ≠ []) : ∀ (ds : List Bytes) (s : Stream), Inv s → Pieces ds → unread s ++ ds.flatten = frames M →
    ∃ s' ds', readIntoLoop s ds = (s', ds', none, .message) ∧ Inv s' ∧ Pieces ds' ∧ unread s' ++ ds'.flatten = frames M ∧ ∃ m rest, view (unread s') = .msg m rest := by
  intro ds
  induction ds with
  | nil =>
    intro s hi _ h
    obtain ⟨h1, h2⟩ := view_frames hM h
    have hm := hasMessage_spec s hi
    rw [readIntoLoop]
    cases hv : view (unread s) with
    | bad => exact absurd hv h1
    | incomplete => exact absurd hv (h2 hne rfl)
    | msg m rest =>
      rw [hv] at hm
      rw [hm]
      exact ⟨s, [], rfl, hi, fun d hd => (by cases hd), h, m, rest, hv⟩
  | cons d ds ih =>
    intro s hi hp h
    obtain ⟨h1, h2⟩ := view_frames hM h
    have hm := hasMessage_spec s hi
    rw [readIntoLoop]
    cases hv : view (unread s) with
    | bad => exact absurd hv h1
    | incomplete =>
      rw [hv] at hm
      rw [hm]
      dsimp only
      rw [if_neg (hp d (List.mem_cons_self ..))]
      obtain ⟨wi, wu⟩ := write_spec s hi d
      exact ih _ wi (fun x hx => hp x (List.mem_cons_of_mem _ hx)) (by rw [wu, List.append_assoc]; exact h)
    | msg m rest =>
      rw [hv] at hm
      rw [hm]
      exact ⟨s, d :: ds, rfl, hi, hp, h, m, rest, hv⟩

/-- What the connection has still to read is these messages. -/
structure Wire (q : Pq) (M : List Msg) : Prop where
  inv : Inv q.stream
  read : q.read.msgs = []
  data : q.readData = none
  pieces : Pieces q.recvs
  bytes : unread q.stream ++ q.recvs.flatten = frames M
  fits : ∀ m ∈ M, Fits m

theorem Wire.fuel {q : Pq} {M : List Msg} (h : Wire q M) : M.length + 2 ≤ fuelOf q := by
  have h1 := length_frames M
  rw [← h.bytes, List.length_append] at h1
  have h2 : (unread q.stream).length ≤ q.stream.strio.buf.length := by unfold unread; rw [List.length_drop]; omega
  unfold fuelOf
  omega

theorem readMessages_ok {q : Pq} {M : List Msg} (h : Wire q M) (hne : M ≠ []) :
    ∃ q' ms M2, readMessages q = (q', .message) ∧ q'.read = ⟨q.nextId, ms⟩ ∧ q'.nextId = q.nextId + 1 ∧ ms ≠ [] ∧ M = ms ++ M2 ∧
      Wire { q' with read := ⟨q'.nextId, []⟩, nextId := q'.nextId + 1 } M2 := by
  obtain ⟨hi, hr, hd, hp, hb, hf⟩ := h
  have key : ∃ s' ds', readInto q = (s', ds', none, .message) ∧ Inv s' ∧ Pieces ds' ∧ unread s' ++ ds'.flatten = frames M ∧ ∃ m rest, view (unread s') = .msg m rest := by
    unfold readInto
    obtain ⟨h1, h2⟩ := view_frames hf hb
    have hm := hasMessage_spec q.stream hi
    cases hv : view (unread q.stream) with
    | bad => exact absurd hv h1
    | incomplete =>
      rw [hv] at hm
      rw [hm, hd]
      exact readIntoLoop_ok hf hne q.recvs q.stream hi hp hb
    | msg m rest =>
      rw [hv] at hm
      rw [hm, hd]
      exact ⟨_, _, rfl, hi, hp, hb, m, rest, hv⟩
  obtain ⟨s, ds, he, hi', hp', hb', m, rest, hv⟩ := key
  obtain ⟨ri, rs⟩ := read_spec s hi' 0xFFFFFFFF
  dsimp only at rs
  have hpe := parse_eq (unread s)
  rw [hv] at hpe
  dsimp only at hpe
  obtain ⟨pc1, pc2, pc3⟩ := parse_concat (unread s)
  have hnb : (parse (unread s)).2.2 = false := by
    cases hb2 : (parse (unread s)).2.2 with
    | false => rfl
    | true =>
      rw [hb2, if_pos rfl] at pc3
      have h5 : frames (parse (unread s)).1 ++ ((parse (unread s)).2.1 ++ ds.flatten) = frames M := by rw [← List.append_assoc, ← pc1]; exact hb'
      obtain ⟨M2, h6, h7⟩ := take_frames _ hf pc2 h5
      exact absurd pc3 (view_frames (fun y hy => hf y (by rw [h6]; exact List.mem_append_right _ hy)) h7).1
  rw [if_pos (.inr hnb)] at rs
  obtain ⟨r1, r2⟩ := rs
  generalize hms : (parse (unread s)).1.take 0xFFFFFFFF = ms at r1 r2
  have hmsne : ms ≠ [] := by
    rw [← hms, hpe]
    exact fun h => by simp at h
  have hmsf : ∀ m ∈ ms, Fits m := fun y hy => pc2 y (by rw [← hms] at hy; exact List.mem_of_mem_take hy)
  have h5 : frames ms ++ (unread (PBuffer.read s).2 ++ ds.flatten) = frames M := by rw [← List.append_assoc, ← r2]; exact hb'
  obtain ⟨M2, h6, h7⟩ := take_frames _ hf hmsf h5
  have hrd : PBuffer.read s = (.ok ms, (PBuffer.read s).2) := Prod.ext r1 rfl
  refine ⟨{ q with stream := (PBuffer.read s).2, recvs := ds, readData := none, read := ⟨q.nextId, ms⟩, nextId := q.nextId + 1 }, ms, M2, ?_, rfl, rfl, hmsne, h6, ?_⟩
  · unfold readMessages
    rw [if_neg (by rw [hr]; exact fun h => h rfl), he]
    dsimp only
    rw [hrd]
  · exact ⟨ri, rfl, rfl, hp', h7, fun y hy => hf y (by rw [h6]; exact List.mem_append_right _ hy)⟩

/-- A step of the connection. -/
theorem stepX_ok {cs : List Elem} (hc : Cmds cs) {i : Inst} {q : Pq} {g : Stage} {e eM : Bool} {M : List Msg} {rows : List Bytes} (hs : Stands cs i g e q.nextId) (hg : g ≠ .over)
    (hy : Says g M rows eM) (hw : Wire q M) :
    ∃ i' q' g1 ms M2 ps e1 rows2 e2 k, stepX i q = (i', q', if g1 = .over ∧ (e || e1) = true then .raised else .fine) ∧ Stands cs i' g1 (e || e1) q'.nextId ∧
      Walk g ms g1 ps e1 ∧ Says g1 M2 rows2 e2 ∧ Wire q' M2 ∧ M = ms ++ M2 ∧ ms ≠ [] ∧ rows = lines ps ++ rows2 ∧ eM = (e1 || e2) ∧ i'.completed = i.completed ++ [(k, ps)] := by
  have hne : M ≠ [] := by rintro rfl; exact hg (says_nil hy)
  obtain ⟨q', ms, M2, h1, h2, h3, h4, h5, h6⟩ := readMessages_ok hw hne
  subst h5
  obtain ⟨g1, ps, e1, rows1, e2, hwk, hs2, hr, hee⟩ := says_split ms hy
  obtain ⟨i', d1, d2, d3⟩ := deliver_walk hc hs hg (Nat.le_refl _) h4 hwk
  refine ⟨i', _, g1, ms, M2, ps, e1, rows1, e2, q.nextId, ?_, ?_, hwk, hs2, h6, rfl, h4, hr, hee, d3⟩
  · unfold stepX
    rw [h1]
    dsimp only
    rw [h2, d1]
    dsimp only
    rw [List.drop_length]
    congr 2
    refine ite_congr (propext ?_) (fun _ => rfl) (fun _ => rfl)
    have hf := d2.fatal
    constructor
    · rintro ⟨a, b⟩
      constructor
      · refine Decidable.byContradiction fun ho => ?_
        rcases d2.wait ho with h | ⟨h, _⟩ <;> rw [h] at a <;> cases a
      · rw [hf] at b
        cases he : (e || e1) with
        | true => rfl
        | false => rw [he] at b; exact absurd rfl b
    · rintro ⟨a, b⟩
      exact ⟨d2.over a, by rw [hf, b]; exact fun h => by cases h⟩
  · rw [h3]
    exact ⟨d2.cmds, d2.wait, d2.over, d2.at_, d2.fatal, d2.asyncs, by have := d2.last; dsimp only; omega, fun x hx => by have := d2.ids x hx; dsimp only; omega⟩

end PG.CopyTo
