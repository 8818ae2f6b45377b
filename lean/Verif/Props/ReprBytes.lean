import Verif.Model.Convert
import Verif.Spec.BytesLiteral
/-! # The bytes in messages (C77) -/
namespace PG.Props.ReprBytes
open PG PG.Messages PG.Convert PG.Spec.BytesLiteral

theorem escape_more {e : Char} {t r : Str} {b : UInt8} (s : Str) (h : escape e t = some (b, r)) : escape e (t ++ s) = some (b, r ++ s) := by
  unfold escape at h
  split at h
  · rename_i x y t'
    show (hexByte x y).map (fun n => (n, t' ++ s)) = _
    cases hx : hexByte x y with
    | none => rw [hx] at h; cases h
    | some n => rw [hx] at h; cases h; rfl
  · cases h
  · cases h; rfl
  · cases h; rfl
  · cases h; rfl
  · cases h; rfl
  · cases h; rfl
  · cases h; rfl
  · cases h

theorem readOne_more {q : Char} {t r : Str} {b : UInt8} (s : Str) (h : readOne q t = some (b, r)) : readOne q (t ++ s) = some (b, r ++ s) := by
  unfold readOne at h
  split at h
  · exact escape_more s h
  · rename_i c t hn
    split at h
    · cases h
    · rename_i hc
      cases h
      show readOne q (c :: (r ++ s)) = _
      unfold readOne
      split
      · rename_i e _ heq
        injection heq with e1 _
        exact absurd (.inr (.inl e1)) hc
      · rename_i heq
        cases heq
        rw [if_neg hc]
      · rename_i heq; cases heq
  · cases h

theorem readOne_each : ∀ n : Nat, n < 256 → ∀ q ∈ ['\'', '"'], readOne q (reprByte q (UInt8.ofNat n)) = some (UInt8.ofNat n, []) ∧ ∀ c ∈ reprByte q (UInt8.ofNat n), 32 ≤ c.toNat ∧ c.toNat < 127 := by decide +kernel

theorem readOne_repr {q : Char} (hq : q = '\'' ∨ q = '"') (b : UInt8) (s : Str) : readOne q (reprByte q b ++ s) = some (b, s) ∧ ∀ c ∈ reprByte q b, 32 ≤ c.toNat ∧ c.toNat < 127 := by
  have h := readOne_each b.toNat b.toNat_lt q (by simpa using hq)
  rw [UInt8.ofNat_toNat] at h
  exact ⟨readOne_more s h.1, h.2⟩

theorem body_repr {q : Char} (hq : q = '\'' ∨ q = '"') : ∀ v : Bytes, Body q (v.flatMap (reprByte q) ++ [q]) v
  | [] => .close
  | b :: v => by
    rw [List.flatMap_cons, List.append_assoc]
    exact .byte (readOne_repr hq b _).1 (body_repr hq v)

theorem Body.unique {q : Char} (hq : q = '\'' ∨ q = '"') {s : Str} {v v' : Bytes} (h : Body q s v) : Body q s v' → v' = v := by
  have hn : ∀ b rest, readOne q [q] ≠ some (b, rest) := by rcases hq with rfl | rfl <;> (intro b rest h; cases h)
  induction h generalizing v' with
  | close =>
    intro h'
    cases h' with
    | close => rfl
    | byte h1 _ => exact absurd h1 (hn _ _)
  | byte h1 _ ih =>
    intro h'
    cases h' with
    | close => exact absurd h1 (hn _ _)
    | byte h1' h2 =>
      rw [h1] at h1'
      cases h1'
      rw [ih h2]

/-- The quote that is used. -/
theorem quote_of (v : Bytes) : ∃ q, (q = '\'' ∨ q = '"') ∧ reprInner v = v.flatMap (reprByte q) ∧ reprBytes v = 'b' :: q :: (v.flatMap (reprByte q) ++ [q]) := by
  refine ⟨if 39 ∈ v ∧ 34 ∉ v then '"' else '\'', ?_, rfl, rfl⟩
  split
  · exact .inr rfl
  · exact .inl rfl

/-- **C77 (the data in messages).** The wire data that messages show is a literal that Python reads as exactly these bytes, and as no others; it is printable ASCII. -/
theorem C77_repr (v : Bytes) : IsLiteral (reprBytes v) v ∧ (∀ v', IsLiteral (reprBytes v) v' → v' = v) ∧ (∀ c ∈ reprBytes v, 32 ≤ c.toNat ∧ c.toNat < 127) ∧
    ∃ quote, IsLiteral ('b' :: quote :: (reprInner v ++ [quote])) v := by
  obtain ⟨q, hq, h1, h2⟩ := quote_of v
  rw [h1, h2]
  refine ⟨⟨q, _, hq, rfl, body_repr hq v⟩, ?_, ?_, q, q, _, hq, rfl, body_repr hq v⟩
  · rintro v' ⟨q', body, hq', e, hb⟩
    injection e with _ e
    injection e with e1 e2
    subst e1 e2
    exact Body.unique hq (body_repr hq v) hb
  · have hq' : ∀ c ∈ ['b', q], 32 ≤ c.toNat ∧ c.toNat < 127 := by rcases hq with rfl | rfl <;> decide
    intro c hc
    simp only [List.mem_cons, List.mem_append, List.mem_flatMap, List.not_mem_nil, or_false] at hc
    rcases hc with rfl | rfl | ⟨b, _, hb⟩ | rfl
    · exact hq' _ (by simp)
    · exact hq' _ (by simp)
    · exact (readOne_repr hq b []).2 c hb
    · exact hq' _ (by simp)

example : reprBytes [39, 0, 92, 97, 255, 10] = "b\"'\\x00\\\\a\\xff\\n\"".toList ∧ reprBytes [39, 34] = "b'\\'\"'".toList := by decide +kernel

end PG.Props.ReprBytes
