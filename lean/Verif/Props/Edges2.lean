import Verif.Props.DbApi
import Verif.Props.NotifyMan2
import Verif.Props.Negotiation
import Verif.Proofs.TypesLib3
/-!
# More cases at the edges, found by editing the model: C14, C20, C36, C39
-/

namespace PG.DbApi
variable {ρ ε : Type}

/-- **C36** a negative number of rows: nothing is asked of the server; as far back as that the rows already given are given again
afterwards; beyond the first row of the buffer, all rows of the buffer but as many at its end are given, and those are kept. -/
theorem C36_negative (p : Portal ρ ε) (n : Nat) (hn : 0 < n) (h : p.pos ≤ p.buf.length) :
    (p.read (-(n : Int))).2.chunks = p.chunks ∧ (p.read (-(n : Int))).2.pos = 0 ∧
    (n ≤ p.pos → (p.read (-(n : Int))).1 = .ok [] ∧ (p.read (-(n : Int))).2.buf = p.buf.drop (p.pos - n)) ∧
    (p.pos < n → (p.read (-(n : Int))).1 = .ok ((p.buf.take (p.buf.length - (n - p.pos))).drop p.pos) ∧
      (p.read (-(n : Int))).2.buf = p.buf.drop (p.buf.length - (n - p.pos))) := by
  have hx : extendTo (-(n : Int)) p.pos p.buf p.chunks = (p.buf, p.chunks, none) := by
    cases hc : p.chunks with
    | nil => unfold extendTo; rw [if_neg (by omega)]
    | cons c cs => unfold extendTo; rw [if_neg (by omega)]
  have hr : p.read (-(n : Int)) = cutBuf p.chunks p.buf p.pos (p.pos + -(n : Int)) := by
    unfold Portal.read; rw [hx]
  rw [hr]
  refine ⟨rfl, rfl, ?_, ?_⟩
  · intro hle
    have hb : bound p.buf.length (p.pos + -(n : Int)) = p.pos - n := by
      unfold bound; rw [if_neg (by omega)]; omega
    unfold cutBuf
    rw [hb]
    refine ⟨?_, rfl⟩
    show Except.ok (slice p.buf p.pos (p.pos - n)) = _
    unfold slice
    rw [show p.pos - n - p.pos = 0 by omega]; rfl
  · intro hlt
    have hb : bound p.buf.length (p.pos + -(n : Int)) = p.buf.length - (n - p.pos) := by
      unfold bound; rw [if_pos (by omega)]; omega
    unfold cutBuf
    rw [hb]
    refine ⟨?_, rfl⟩
    show Except.ok (slice p.buf p.pos _) = _
    unfold slice
    rw [List.drop_take]

example : ((⟨[], [1, 2, 3, 4], 1⟩ : Portal Nat String).read (-2)).1 = .ok [2, 3] ∧
    ((⟨[], [1, 2, 3, 4], 1⟩ : Portal Nat String).read (-2)).2.buf = [4] := by decide

end PG.DbApi

namespace PG.NotifyMan

/-- **C39** without a timeout a pass waits ten seconds, less the time since it was last idle. -/
theorem C39_wait_default (lastTime : Option Int) (later : Int) :
    duration none lastTime later = match lastTime with
      | none => 10
      | some l => if 10 - (later - l) < 0 then 0 else 10 - (later - l) := by
  unfold duration
  rw [if_neg (by simp)]
  cases lastTime <;> rfl

end PG.NotifyMan

namespace PG.Negotiation

theorem loop_count (c : Crypto) : ∀ (xs : List PBuffer.Msg) (n n' : Neg) (k r : Nat), loop c n k xs = (n', .ok r) →
    k ≤ r ∧ r ≤ k + xs.length ∧ (n'.state ≠ .complete → n'.state ≠ .sending → r = k + xs.length)
  | [], n, n', k, r, h => by
    cases h; simp
  | x :: xs, n, n', k, r, h => by
    have step : ∀ {m : Neg}, loop c m (k + 1) xs = (n', .ok r) →
        k ≤ r ∧ r ≤ k + (x :: xs).length ∧ (n'.state ≠ .complete → n'.state ≠ .sending → r = k + (x :: xs).length) := by
      intro m hm
      obtain ⟨a, b, d⟩ := loop_count c xs m n' (k + 1) r hm
      rw [List.length_cons]
      exact ⟨by omega, by omega, fun p q => by have := d p q; omega⟩
    unfold loop at h
    split at h
    · split at h
      · split at h
        · cases h
        · cases h; simp
        · cases h
      · exact step h
    · split at h
      · split at h
        · cases h
        · exact step h
      · split at h
        · cases h
        · cases h; simp
        · exact step h
        · cases h; simp

/-- **C14** what the negotiation says it took of a batch of messages: all of them, unless it completed or has something to send. -/
theorem C14_count (c : Crypto) (n n' : Neg) (b : Xact3.Batch) (r : Nat) (h : put c n b = (n', .ok r)) :
    r ≤ b.msgs.length ∧ (n'.state ≠ .complete → n'.state ≠ .sending → r = b.msgs.length) := by
  unfold put at h
  split at h
  · cases h
  · obtain ⟨_, h2, h3⟩ := loop_count c b.msgs _ n' 0 r h
    exact ⟨by omega, fun p q => by have := h3 p q; omega⟩

end PG.Negotiation

namespace PG.TypesLib

/-- A slice as Python has it: an index from the end stands for the index from the front, as long as there is one. -/
theorem C20_slice_from_end {α : Type} (data : List α) (i j : Int) (k : Nat) (hk : k ≤ data.length) (h0 : 0 < k) :
    (j = -(k : Int) → pySlice data i j = pySlice data i (data.length - k : Nat)) ∧
    (i = -(k : Int) → pySlice data i j = pySlice data (data.length - k : Nat) j) := by
  have hn : ∀ x : Int, x = -(k : Int) → (if x < 0 then x + data.length else x).toNat
      = (if ((data.length - k : Nat) : Int) < 0 then ((data.length - k : Nat) : Int) + data.length else ((data.length - k : Nat) : Int)).toNat := by
    intro x hx
    rw [if_pos (by omega), if_neg (by omega)]
    omega
  unfold pySlice
  dsimp only
  constructor
  · intro hj; rw [hn j hj]
  · intro hi; rw [hn i hi]

example : pySlice [1, 2, 3, 4, 5] (-4) (-1) = [2, 3, 4] := by decide

end PG.TypesLib
