import Verif.Proofs.CopyTo4
import Verif.Props.CopyMan
import Verif.Props.CopyManager
/-!
# The bytes that a `StatementProducer` publishes
-/
namespace PG.CopyTo
open PG
open PG.PBuffer hiding Msg
open PG.CopyMan PG.Props.CopyMan
open PG.Element3 PG.Xact3 PG.Spec PG.Spec.Copy PG.Spec.CopyTo

/-- Messages of rows. -/
def rowMsgs (R : List Bytes) : List Msg := R.map fun r => ((100 : UInt8), r)

theorem frames_rowMsgs (R : List Bytes) (M : List Msg) : frames (rowMsgs R ++ M) = copyFrames R ++ frames M := by rw [frames_append]; rfl

theorem fits_iff (r : Bytes) : Fits ((100 : UInt8), r) ↔ RowFits r := Iff.rfl

theorem frame_head (m : Msg) (x : Bytes) : ∃ t, frame m ++ x = m.1 :: t := by unfold frame; exact ⟨_, rfl⟩

/-- Framed messages as COPY data and what follows it. -/
theorem frames_position (M : List Msg) (hM : ∀ m ∈ M, Fits m) : ∃ R M2, M = rowMsgs R ++ M2 ∧ Position (frames M) R (frames M2) := by
  induction M with
  | nil => exact ⟨[], [], rfl, rfl, fun r hr => (by cases hr), .inl rfl⟩
  | cons m M ih =>
    by_cases h : m.1 = 100
    · obtain ⟨R, M2, h1, h2, h3, h4⟩ := ih (fun y hy => hM y (List.mem_cons_of_mem _ hy))
      obtain ⟨t, b⟩ := m
      cases h
      refine ⟨b :: R, M2, by rw [h1]; rfl, ?_, ?_, h4⟩
      · rw [frames_cons, h2]
        simp [copyFrames, frames]
      · intro r hr
        rcases List.mem_cons.1 hr with rfl | hr
        · exact (fits_iff _).1 (hM _ (List.mem_cons_self ..))
        · exact h3 r hr
    · obtain ⟨t, ht⟩ := frame_head m (frames M)
      exact ⟨[], m :: M, rfl, rfl, fun r hr => (by cases hr), .inr (.inr (.inr ⟨m.1, t, by rw [frames_cons, ht], h⟩))⟩

theorem says_row {g : Stage} {r : Bytes} {M : List Msg} {rows : List Bytes} {e : Bool} (h : Says g ((100, r) :: M) rows e) :
    g = .copy ∧ ∃ rows2, Says g M rows2 e ∧ rows = r :: rows2 := by
  cases h with
  | row h => exact ⟨rfl, _, h, rfl⟩
  | async _ ha _ => obtain ⟨k, x, hk, _⟩ := ha; cases hk
  | error _ he _ => cases he.1

theorem says_rows (R : List Bytes) : ∀ {g : Stage} {M : List Msg} {rows : List Bytes} {e : Bool}, Says g (rowMsgs R ++ M) rows e → ∃ rows2, Says g M rows2 e ∧ rows = R ++ rows2 := by
  induction R with
  | nil => intro g M rows e h; exact ⟨rows, h, rfl⟩
  | cons r R ih =>
    intro g M rows e h
    obtain ⟨_, rows1, h1, rfl⟩ := says_row h
    obtain ⟨rows2, h2, rfl⟩ := ih h1
    exact ⟨rows2, h2, rfl⟩

/-- Other rows instead. -/
theorem says_other (R : List Bytes) : ∀ {R' : List Bytes} {g : Stage} {M : List Msg} {rows : List Bytes} {e : Bool}, R'.length = R.length → Says g (rowMsgs R ++ M) rows e →
    ∃ rows', Says g (rowMsgs R' ++ M) rows' e := by
  induction R with
  | nil => intro R' g M rows e hl h; cases R' with
    | nil => exact ⟨rows, h⟩
    | cons _ _ => cases hl
  | cons r R ih =>
    intro R' g M rows e hl h
    cases R' with
    | nil => cases hl
    | cons r' R' =>
      obtain ⟨rfl, rows1, h1, rfl⟩ := says_row h
      obtain ⟨rows', h2⟩ := ih (Nat.succ.inj hl) h1
      exact ⟨r' :: rows', .row h2⟩

theorem rest_of_at {q : Bytes} {s : WS} (h : At q s) : Rest q := by
  rcases h with h | h | h | h
  · exact .inl h.1
  · exact .inr (.inl ⟨_, h.choose_spec.1⟩)
  · exact .inr (.inr (.inl ⟨_, h.choose_spec.1⟩))
  · exact .inr (.inr (.inr h.1))

theorem frames_fits_rows {R : List Bytes} {M : List Msg} (h : ∀ m ∈ rowMsgs R ++ M, Fits m) : ∀ m ∈ M, Fits m := fun y hy => h y (List.mem_append_right _ hy)

/-- More bytes of the stream arrive. -/
theorem update_frames {q c b : Bytes} {s : WS} {M : List Msg} (ha : At q s) (hn : ¬ Foreign q) (hM : ∀ m ∈ M, Fits m) (h : q ++ c ++ b = frames M) :
    ∃ R M2 q1 s', M = rowMsgs R ++ M2 ∧ q1 ++ b = frames M2 ∧ update s c = .ok (s', R.length) ∧ At q1 s' ∧ q ++ c = copyFrames R ++ q1 ∧
      (Foreign q1 → ∃ d, c = d ++ q1 ∧ q ++ d = copyFrames R) := by
  obtain ⟨R, M2, rfl, hp⟩ := frames_position M hM
  rw [← h] at hp
  obtain ⟨R1, q1, R2, rfl, hp1, hp2⟩ := position_prefix hp
  obtain ⟨s', hu, ha'⟩ := update_position ha hn hp1
  refine ⟨R1, rowMsgs R2 ++ M2, q1, s', by unfold rowMsgs; simp, ?_, hu, ha', hp1.1, fun hF => ?_⟩
  · rw [frames_rowMsgs]; exact hp2.1
  · obtain ⟨_, d, hd⟩ := C34_foreign [q] c [] R1 q q1 ⟨by simp [copyFrames_nil], fun r hr => (by cases hr), rest_of_at ha⟩ hn (by simpa using hp1) hF
    refine ⟨d, hd, ?_⟩
    have := hp1.1
    rw [hd, ← List.append_assoc] at this
    exact List.append_cancel_right this

/-- `process_copy_data` on more bytes of the stream. -/
theorem processCopyData_frames {pr : Prod} {q c b : Bytes} {s : WS} {M : List Msg} (hs : pr.state = some s) (ha : At q s) (hn : ¬ Foreign q) (hM : ∀ m ∈ M, Fits m) (h : q ++ c ++ b = frames M) :
    ∃ R M2 q1 v, M = rowMsgs R ++ M2 ∧ q1 ++ b = frames M2 ∧
      ((Foreign q1 ∧ c = v ++ q1 ∧ q ++ v = copyFrames R ∧
          processCopyData pr c = .ok (v, { pr with state := none, totalMessages := pr.totalMessages + R.length, totalBytes := pr.totalBytes + v.length, recovered := some q1 })) ∨
       (¬ Foreign q1 ∧ v = c ∧ q ++ v = copyFrames R ++ q1 ∧ ∃ s', At q1 s' ∧
          processCopyData pr c = .ok (v, { pr with state := some s', totalMessages := pr.totalMessages + R.length, totalBytes := pr.totalBytes + v.length }))) := by
  obtain ⟨R, M2, q1, s', h1, h2, h3, h4, h5, h6⟩ := update_frames ha hn hM h
  by_cases hF : Foreign q1
  · obtain ⟨d, hd, hq⟩ := h6 hF
    refine ⟨R, M2, q1, d, h1, h2, .inl ⟨hF, hd, hq, ?_⟩⟩
    have hs' : s' = ⟨0, [], some q1⟩ := by
      rcases h4 with ⟨rfl, _⟩ | ⟨f, hf, _⟩ | ⟨k, hk, _⟩ | ⟨_, h⟩
      · exact absurd hF not_foreign_nil
      · exact absurd hF (not_foreign_header hf)
      · exact absurd hF (not_foreign_row hk)
      · exact h
    have hne : q1 ≠ [] := by rintro rfl; exact not_foreign_nil hF
    unfold processCopyData
    rw [hs]
    dsimp only
    rw [h3, bind_ok, hs']
    dsimp only
    rw [if_pos hne, show c.take (c.length - q1.length) = d by rw [hd]; simp, pure_ok]
  · refine ⟨R, M2, q1, c, h1, h2, .inr ⟨hF, rfl, h5, s', h4, ?_⟩⟩
    have hs' : s'.final = none := by
      rcases h4 with ⟨_, rfl⟩ | ⟨f, _, rfl⟩ | ⟨k, _, rfl⟩ | ⟨h, _⟩
      · rfl
      · rfl
      · rfl
      · exact absurd h hF
    unfold processCopyData
    rw [hs]
    dsimp only
    rw [h3, bind_ok]
    dsimp only
    rw [hs']
    rfl

end PG.CopyTo
