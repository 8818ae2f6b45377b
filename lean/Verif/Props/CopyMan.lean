import Verif.Proofs.CopyMan
/-!
# C34: tracking message boundaries in a COPY stream
-/
namespace PG.Props.CopyMan
open PG PG.Spec PG.Spec.Copy PG.CopyMan PG.Element3

/-- What the state says about the rest of the stream. -/
structure Describes (r : Bytes) (s : WS) : Prop where
  boundary : r = [] ↔ s.final = none ∧ s.remaining = 0
  header : ∀ f, InHeader r f ↔ s.final = none ∧ s.remaining = -1 ∧ s.fragment = f
  row : ∀ k, InRow r k ↔ s.final = none ∧ s.remaining = (k : Int) ∧ 0 < k
  foreign : ∀ x, (Foreign r ∧ x = r) ↔ s.final = some x

theorem inRow_inj {r : Bytes} {j k : Nat} (h : InRow r j) (h' : InRow r k) : j = k := by
  obtain ⟨_, p, h1, l1⟩ := h
  obtain ⟨_, q, h2, l2⟩ := h'
  rw [h1] at h2
  injection h2 with _ h2
  obtain ⟨h3, h4⟩ := List.append_inj h2 (by simp)
  have := beEnc_inj (by simpa using l1) (by simpa using l2) h3
  subst h4
  omega

theorem header_not_row {r f : Bytes} {k : Nat} (h : InHeader r f) (h' : InRow r k) : False := by
  obtain ⟨h1, l1⟩ := h
  obtain ⟨_, p, h2, _⟩ := h'
  rw [h1] at h2
  injection h2 with _ h2
  have := congrArg List.length h2
  rw [List.length_append, length_beEnc] at this
  omega

theorem not_foreign_nil : ¬ Foreign [] := by rintro ⟨x, t, h, _⟩; cases h
theorem not_foreign_header {r f : Bytes} (h : InHeader r f) : ¬ Foreign r := by
  rintro ⟨x, t, h', hx⟩
  rw [h.1] at h'
  injection h' with h' _
  exact hx h'.symm
theorem not_foreign_row {r : Bytes} {k : Nat} (h : InRow r k) : ¬ Foreign r := by
  rintro ⟨x, t, h', hx⟩
  obtain ⟨_, p, h, _⟩ := h
  rw [h] at h'
  injection h' with h' _
  exact hx h'.symm

theorem describes_of_at {r : Bytes} {s : WS} (h : At r s) : Describes r s := by
  rcases h with ⟨rfl, rfl⟩ | ⟨f, hf, rfl⟩ | ⟨k, hk, rfl⟩ | ⟨hF, rfl⟩
  · refine ⟨by simp, fun f => ?_, fun k => ?_, fun x => ?_⟩
    · exact ⟨fun h => (by cases h.1), fun h => absurd h.2.1 (by decide)⟩
    · refine ⟨fun h => ?_, fun h => ?_⟩
      · obtain ⟨_, p, h, _⟩ := h; cases h
      · have := h.2.1; have := h.2.2; simp only at *; omega
    · exact ⟨fun h => absurd h.1 not_foreign_nil, fun h => (by cases h)⟩
  · refine ⟨?_, fun f' => ?_, fun k => ?_, fun x => ?_⟩
    · exact ⟨fun h => (by rw [h] at hf; cases hf.1), fun h => absurd h.2 (by simp)⟩
    · refine ⟨fun h => ?_, fun h => by rw [← h.2.2]; exact hf⟩
      have := hf.1.symm.trans h.1
      injection this with _ this
      exact ⟨rfl, rfl, this⟩
    · refine ⟨fun h => (header_not_row hf h).elim, fun h => ?_⟩
      have := h.2.1; simp only at this; omega
    · exact ⟨fun h => absurd h.1 (not_foreign_header hf), fun h => (by cases h)⟩
  · have h0 := hk.1
    refine ⟨?_, fun f' => ?_, fun j => ?_, fun x => ?_⟩
    · refine ⟨fun h => ?_, fun h => ?_⟩
      · rw [h] at hk; obtain ⟨_, p, h, _⟩ := hk; cases h
      · have := h.2; simp only at this; omega
    · refine ⟨fun h => (header_not_row h hk).elim, fun h => ?_⟩
      have := h.2.1; simp only at this; omega
    · refine ⟨fun h => ⟨rfl, by rw [inRow_inj h hk], h.1⟩, fun h => ?_⟩
      have := h.2.1
      simp only at this
      rw [← Int.ofNat_inj.1 this]
      exact hk
    · exact ⟨fun h => absurd h.1 (not_foreign_row hk), fun h => (by cases h)⟩
  · refine ⟨?_, fun f' => ?_, fun j => ?_, fun x => ?_⟩
    · exact ⟨fun h => absurd (h ▸ hF) not_foreign_nil, fun h => (by cases h.1)⟩
    · exact ⟨fun h => absurd hF (not_foreign_header h), fun h => (by cases h.1)⟩
    · exact ⟨fun h => absurd hF (not_foreign_row h), fun h => (by cases h.1)⟩
    · exact ⟨fun h => by rw [h.2], fun h => ⟨hF, (Option.some.inj h).symm⟩⟩

/-- What goes on after something foreign is foreign. -/
theorem foreign_append {q b r : Bytes} {rows : List Bytes} (h : Foreign q) (hp : Position (q ++ b) rows r) : Foreign r := by
  obtain ⟨x, t, rfl, hx⟩ := h
  have : Foreign (x :: t ++ b) := ⟨x, t ++ b, rfl, hx⟩
  obtain ⟨_, rfl⟩ := position_rest (Or.inr (Or.inr (Or.inr this))) hp
  exact this

theorem track_at (chunks : List Bytes) : ∀ {q : Bytes} {s : WS} {rows : List Bytes} {r : Bytes}, At q s → ¬ Foreign q →
    Position (q ++ chunks.flatten) rows r → ¬ Foreign r → ∃ s', track s chunks = .ok (s', rows.length) ∧ At r s' := by
  induction chunks with
  | nil =>
    intro q s rows r ha hn hp _
    have hq : Rest q := by
      obtain ⟨_, q', _, _, h, _⟩ := position_prefix hp
      rcases ha with h | h | h | h
      · exact Or.inl h.1
      · exact Or.inr (Or.inl ⟨_, h.choose_spec.1⟩)
      · exact Or.inr (Or.inr (Or.inl ⟨_, h.choose_spec.1⟩))
      · exact Or.inr (Or.inr (Or.inr h.1))
    simp only [List.flatten_nil, List.append_nil] at hp
    obtain ⟨rfl, rfl⟩ := position_rest hq hp
    exact ⟨s, rfl, ha⟩
  | cons c cs ih =>
    intro q s rows r ha hn hp hr
    rw [List.flatten_cons, ← List.append_assoc] at hp
    obtain ⟨rows1, q1, rows2, rfl, h1, h2⟩ := position_prefix hp
    obtain ⟨s1, hu, ha1⟩ := update_position ha hn h1
    have hn1 : ¬ Foreign q1 := fun hF => hr (foreign_append hF h2)
    obtain ⟨s2, ht, ha2⟩ := ih ha1 hn1 h2 hr
    refine ⟨s2, ?_, ha2⟩
    rw [track, hu, bind_ok]
    simp only
    rw [ht, bind_ok, List.length_append]
    rfl

/-- C34: however a stream of COPY data is cut into chunks, as many messages are counted as it holds, and the state says exactly what is
left of it: nothing at a boundary, the part of a header, or the number of bytes missing from a row. -/
theorem C34_position (chunks : List Bytes) (rows : List Bytes) (r : Bytes) (h : Position chunks.flatten rows r) (hr : ¬ Foreign r) :
    ∃ s, track WS.init chunks = .ok (s, rows.length) ∧ Describes r s := by
  obtain ⟨s, h1, h2⟩ := track_at chunks (q := []) (s := WS.init) (Or.inl ⟨rfl, rfl⟩) not_foreign_nil h hr
  exact ⟨s, h1, describes_of_at h2⟩

/-- C34: two ways to cut the same COPY data give the same count and the same state. -/
theorem C34_chunking (a b : List Bytes) (rows : List Bytes) (r : Bytes) (h : Position a.flatten rows r) (hr : ¬ Foreign r)
    (hab : a.flatten = b.flatten) : track WS.init a = track WS.init b := by
  obtain ⟨s, h1, h2⟩ := track_at a (q := []) (s := WS.init) (Or.inl ⟨rfl, rfl⟩) not_foreign_nil h hr
  obtain ⟨s', h1', h2'⟩ := track_at b (q := []) (s := WS.init) (Or.inl ⟨rfl, rfl⟩) not_foreign_nil (hab ▸ h) hr
  rw [h1, h1']
  congr 2
  rcases h2 with ⟨e, rfl⟩ | ⟨f, hf, rfl⟩ | ⟨k, hk, rfl⟩ | ⟨hF, _⟩
  · rcases h2' with ⟨_, rfl⟩ | ⟨f, hf, _⟩ | ⟨k, hk, _⟩ | ⟨hF, _⟩
    · rfl
    · rw [e] at hf; cases hf.1
    · rw [e] at hk; obtain ⟨_, p, h, _⟩ := hk; cases h
    · exact (hr hF).elim
  · rcases h2' with ⟨e, rfl⟩ | ⟨f', hf', rfl⟩ | ⟨k, hk, _⟩ | ⟨hF, _⟩
    · rw [e] at hf; cases hf.1
    · have := hf.1.symm.trans hf'.1
      injection this with _ this
      rw [this]
    · exact (header_not_row hf hk).elim
    · exact (hr hF).elim
  · rcases h2' with ⟨e, rfl⟩ | ⟨f', hf', rfl⟩ | ⟨k', hk', rfl⟩ | ⟨hF, _⟩
    · rw [e] at hk; obtain ⟨_, p, h, _⟩ := hk; cases h
    · exact (header_not_row hf' hk).elim
    · rw [inRow_inj hk hk']
    · exact (hr hF).elim
  · exact (hr hF).elim

theorem track_append (a : List Bytes) (c : Bytes) (s : WS) : track s (a ++ [c]) = (do
    let (s, n) ← track s a
    let (s, m) ← update s c
    return (s, n + m)) := by
  induction a generalizing s with
  | nil =>
    simp only [List.nil_append, track, bind_ok]
    cases update s c with
    | error e => rfl
    | ok p => simp [bind_ok, pure_ok]
  | cons x a ih =>
    rw [List.cons_append, track, track]
    cases update s x with
    | error e => rfl
    | ok p =>
      simp only [bind_ok]
      rw [ih]
      cases track p.1 a with
      | error e => rfl
      | ok p2 =>
        simp only [bind_ok, pure_ok]
        cases update p2.1 c with
        | error e => rfl
        | ok p3 => simp only [bind_ok, Nat.add_assoc]

/-- C34: the chunk in which something other than COPY data begins leaves the complete messages counted and the foreign data, from its
first byte, as the final view. -/
theorem C34_foreign (chunks : List Bytes) (c : Bytes) (rows1 rows : List Bytes) (q r : Bytes) (h1 : Position chunks.flatten rows1 q)
    (hq : ¬ Foreign q) (h : Position (chunks.flatten ++ c) rows r) (hr : Foreign r) :
    track WS.init (chunks ++ [c]) = .ok (⟨0, [], some r⟩, rows.length) ∧ ∃ d, c = d ++ r := by
  obtain ⟨rowsA, q', rowsB, rfl, hA, hB⟩ := position_prefix h
  obtain ⟨rfl, rfl⟩ := position_unique h1 hA
  obtain ⟨s, ht, ha⟩ := track_at chunks (q := []) (s := WS.init) (Or.inl ⟨rfl, rfl⟩) not_foreign_nil h1 hq
  obtain ⟨s', hu, ha'⟩ := update_position ha hq hB
  constructor
  · rw [track_append, ht, bind_ok]
    simp only
    rw [hu, bind_ok, List.length_append]
    rcases ha' with ⟨e, _⟩ | ⟨f, hf, _⟩ | ⟨k, hk, _⟩ | ⟨_, rfl⟩
    · exact absurd (e ▸ hr) not_foreign_nil
    · exact absurd hr (not_foreign_header hf)
    · exact absurd hr (not_foreign_row hk)
    · rfl
  · rcases Nat.lt_or_ge c.length r.length with hl | hl
    · exfalso
      have he := hB.1
      obtain ⟨q2, hq2⟩ : ∃ q2, r = q2 ++ c := by
        refine ⟨r.take (r.length - c.length), ?_⟩
        have h2 : (q ++ c).drop q.length = (copyFrames rowsB ++ r).drop q.length := by rw [he]
        rw [List.drop_left] at h2
        have hlen := congrArg List.length he
        simp only [List.length_append] at hlen
        rw [List.drop_append, List.drop_eq_nil_of_le (by omega), List.nil_append,
          show q.length - (copyFrames rowsB).length = r.length - c.length by omega] at h2
        conv => lhs; rw [← List.take_append_drop (r.length - c.length) r]
        rw [← h2]
      rw [hq2, ← List.append_assoc] at he
      have he := List.append_cancel_right he
      have hrest : Rest q := h1.2.2
      have hfs := hB.2.1
      cases rowsB with
      | nil =>
        rw [copyFrames_nil, List.nil_append] at he
        subst he
        obtain ⟨x, t, hx, hxn⟩ := hr
        cases q with
        | nil => rw [hq2] at hl; simp at hl
        | cons y q =>
          rw [hq2, List.cons_append] at hx
          injection hx with hx _
          exact hq ⟨y, q, rfl, hx ▸ hxn⟩
      | cons row rowsB =>
        rw [copyFrames_cons', List.append_assoc] at he
        rw [he] at hrest
        exact rest_no_fr (hfs row (List.mem_cons_self ..)) hrest
    · have he := hB.1
      have hlen := congrArg List.length he
      simp only [List.length_append] at hlen
      refine ⟨c.take (c.length - r.length), ?_⟩
      have h2 : (q ++ c).drop (q.length + (c.length - r.length)) = (copyFrames rowsB ++ r).drop (q.length + (c.length - r.length)) := by rw [he]
      rw [show q.length + (c.length - r.length) = (copyFrames rowsB).length by omega, List.drop_left, List.drop_append,
        List.drop_eq_nil_of_le (by omega), List.nil_append, show (copyFrames rowsB).length - q.length = c.length - r.length by omega] at h2
      conv => lhs; rw [← List.take_append_drop (c.length - r.length) c]
      rw [h2]

/-- C34: after that the state refuses more data. -/
theorem C34_dead (s : WS) (v c : Bytes) (h : s.final = some v) : update s c = .error .runtimeError := by
  unfold update
  rw [h]

theorem pow432 : (256 ^ 4 : Nat) = 2 ^ 32 := by decide

/-- A header made of some bytes, zeros and a four is at least four. -/
theorem header_ge (f : Bytes) : 4 ≤ beDec (f ++ [4]) := by
  rw [beDec, List.foldl_append]
  simp

/-- C34: after an interruption at any point, what realignment gives to the receivers completes the last message they got, and what it gives
back to the connection, with whatever the server sends afterwards, is cut into messages like the rest of the stream: only of the message
that was interrupted, the part already seen may be missing. -/
theorem C34_realign (chunks : List Bytes) (rows : List Bytes) (r : Bytes) (h : Position chunks.flatten rows r) (hr : ¬ Foreign r) :
    ∃ s n back fill, track WS.init chunks = .ok (s, n) ∧ realign (some s) = .ok (back, fill) ∧
      (∃ last, chunks.flatten ++ fill = copyFrames (rows ++ last) ∧ last.length ≤ 1 ∧ (last = [] ↔ r = []) ∧ ∀ row ∈ last, RowFits row) ∧
      ∀ (t : Bytes) (more : List Bytes) (q : Bytes), Position (chunks.flatten ++ t) (rows ++ more) q →
        ∃ more', Position (back ++ t) more' (if more = [] then back ++ t else q) ∧ more'.length = more.length ∧ more'.tail = more.tail := by
  obtain ⟨s, ht, ha⟩ := track_at chunks (q := []) (s := WS.init) (Or.inl ⟨rfl, rfl⟩) not_foreign_nil h hr
  have hpos : ∀ (t : Bytes) (more : List Bytes) (q : Bytes), Position (chunks.flatten ++ t) (rows ++ more) q → Position (r ++ t) more q := by
    intro t more q hp
    obtain ⟨rowsA, q', rowsB, he, hA, hB⟩ := position_prefix hp
    obtain ⟨rfl, rfl⟩ := position_unique h hA
    rw [List.append_cancel_left he]
    exact hB
  have hflat := h.1
  rcases ha with ⟨rfl, rfl⟩ | ⟨f, hf, rfl⟩ | ⟨k, hk, rfl⟩ | ⟨hF, _⟩
  · refine ⟨_, _, [], [], ht, rfl, ⟨[], ?_, by simp, by simp, by simp⟩, ?_⟩
    · rw [hflat]; simp
    · intro t more q hp
      have hp := hpos t more q hp
      refine ⟨more, ?_, rfl, rfl⟩
      split
      · rename_i hm
        subst hm
        have := hp.1
        rw [copyFrames_nil, List.nil_append] at this
        rw [this]
        exact ⟨rfl, by simp, hp.2.2⟩
      · exact hp
  · obtain ⟨rfl, hl⟩ := hf
    have hh : (f ++ List.replicate (3 - f.length) 0 ++ [4]).length = 4 := by simp; omega
    have hre : realign (some ⟨-1, f, none⟩) = .ok (100 :: f, (f ++ List.replicate (3 - f.length) 0 ++ [4]).drop f.length ++
        List.replicate (beDec (f ++ List.replicate (3 - f.length) 0 ++ [4]) - 4) 0) := by
      unfold realign
      simp only [Option.getD_none, ne_eq, not_true, if_false, if_true]
      rw [if_neg (by simpa using hh)]
      rfl
    refine ⟨_, _, _, _, ht, hre, ⟨[List.replicate (beDec (f ++ List.replicate (3 - f.length) 0 ++ [4]) - 4) 0], ?_, by simp, by simp, ?_⟩, ?_⟩
    · have hge := header_ge (f ++ List.replicate (3 - f.length) 0)
      rw [hflat, copyFrames_append, copyFrames_cons, copyFrames_nil, List.length_replicate, List.append_nil, Nat.sub_add_cancel hge]
      have hb := beEnc_beDec (f ++ List.replicate (3 - f.length) 0 ++ [4])
      rw [hh] at hb
      rw [hb, List.append_assoc, List.cons_append]
      congr 2
      generalize List.replicate (beDec (f ++ List.replicate (3 - f.length) 0 ++ [4]) - 4) (0 : UInt8) = z
      rw [List.append_assoc f, List.drop_left, List.append_assoc f]
    · intro row hrow
      have := List.mem_singleton.1 hrow
      subst this
      have hlt := beDec_lt (f ++ List.replicate (3 - f.length) 0 ++ [4])
      rw [hh] at hlt
      have hge := header_ge (f ++ List.replicate (3 - f.length) 0)
      unfold RowFits
      rw [List.length_replicate]
      rw [pow432] at hlt
      omega
    · intro t more q hp
      have hp := hpos t more q hp
      refine ⟨more, ?_, rfl, rfl⟩
      split
      · rename_i hm
        subst hm
        have := hp.1
        rw [copyFrames_nil, List.nil_append] at this
        rw [this]
        exact ⟨rfl, by simp, hp.2.2⟩
      · exact hp
  · obtain ⟨hk0, part, rfl, hl⟩ := hk
    have hre : realign (some ⟨k, [], none⟩) = .ok (100 :: beEnc 4 (k + 4), List.replicate k 0) := by
      unfold realign
      simp only [Option.getD_none, ne_eq, not_true, if_false]
      rw [if_neg (by omega), if_pos (by omega), show ((k : Int) + 4) = ((k + 4 : Nat) : Int) by omega,
        packU_nat (by rw [pow432]; omega), bind_ok]
      simp [copyType, pure_ok]
    refine ⟨_, _, _, _, ht, hre, ⟨[part ++ List.replicate k 0], ?_, by simp, by simp, ?_⟩, ?_⟩
    · rw [hflat, copyFrames_append, copyFrames_cons, copyFrames_nil]
      simp
    · intro row hrow
      have := List.mem_singleton.1 hrow
      subst this
      unfold RowFits
      simp only [List.length_append, List.length_replicate]
      omega
    · intro t more q hp
      have hp := hpos t more q hp
      cases more with
      | nil =>
        refine ⟨[], ⟨?_, by simp, ?_⟩, rfl, rfl⟩
        · simp [copyFrames_nil]
        · rw [if_pos rfl]
          -- the message is not complete
          have htk : t.length < k := by
            rcases Nat.lt_or_ge t.length k with h | hge
            · exact h
            · exfalso
              have hfit : RowFits (part ++ t.take k) := by
                unfold RowFits
                rw [List.length_append, List.length_take, Nat.min_eq_left hge]
                exact hl
              have hsp : 100 :: (beEnc 4 (part.length + k + 4) ++ part) ++ t = fr (part ++ t.take k) ++ t.drop k := by
                unfold fr
                rw [List.length_append, List.length_take, Nat.min_eq_left hge]
                simp
              rw [hsp] at hp
              obtain ⟨_, h, _⟩ := position_fr hfit hp
              cases h
          refine Or.inr (Or.inr (Or.inl ⟨k - t.length, by omega, t, ?_, by omega⟩))
          rw [show t.length + (k - t.length) + 4 = k + 4 by omega]
          rfl
      | cons row more =>
        rw [if_neg (by simp)]
        obtain ⟨he, hfs, hq⟩ := hp
        have hrow := hfs row (List.mem_cons_self ..)
        rw [copyFrames_cons, List.cons_append, List.cons_append, List.cons_append] at he
        injection he with _ he
        simp only [List.append_assoc] at he
        obtain ⟨h1, h2⟩ := List.append_inj he (by simp)
        have h1 := beEnc_inj (by rw [pow432]; exact hl) (by rw [pow432]; exact hrow) h1
        have hd : row = part ++ row.drop part.length := by
          have := congrArg (List.take part.length) h2
          rw [List.take_left, List.take_append_of_le_length (by omega)] at this
          conv => rhs; arg 1; rw [this]
          exact (List.take_append_drop ..).symm
        refine ⟨row.drop part.length :: more, ⟨?_, ?_, hq⟩, rfl, rfl⟩
        · rw [copyFrames_cons, List.length_drop, show row.length - part.length + 4 = k + 4 by omega]
          simp only [List.cons_append, List.append_assoc]
          congr 2
          rw [hd, List.append_assoc] at h2
          exact List.append_cancel_left h2
        · intro y hy
          rcases List.mem_cons.1 hy with rfl | hy
          · unfold RowFits at hrow ⊢
            rw [List.length_drop]
            omega
          · exact hfs y (List.mem_cons_of_mem _ hy)
  · exact (hr hF).elim

/-- The chunks a producer publishes. -/
def publish : Prod → List Bytes → Except Err (List Bytes × Prod)
  | p, [] => .ok ([], p)
  | p, c :: cs => do
    let (v, p) ← processCopyData p c
    let (vs, p) ← publish p cs
    return (v :: vs, p)

theorem publish_at (chunks : List Bytes) : ∀ {q : Bytes} {p : Prod} {s : WS} {rows : List Bytes} {r : Bytes}, p.state = some s → At q s →
    ¬ Foreign q → Position (q ++ chunks.flatten) rows r → ¬ Foreign r → ∃ s', At r s' ∧ publish p chunks =
      .ok (chunks, { p with state := some s', totalMessages := p.totalMessages + rows.length, totalBytes := p.totalBytes + chunks.flatten.length }) := by
  induction chunks with
  | nil =>
    intro q p s rows r hs ha hn hp hr
    obtain ⟨s', h1, h2⟩ := track_at [] ha hn hp hr
    injection h1 with h1
    injection h1 with h1 h3
    refine ⟨s', h2, ?_⟩
    subst h1
    rw [publish, ← h3, List.flatten_nil, List.length_nil, Nat.add_zero, Nat.add_zero, ← hs]
  | cons c cs ih =>
    intro q p s rows r hs ha hn hp hr
    rw [List.flatten_cons, ← List.append_assoc] at hp
    obtain ⟨rows1, q1, rows2, rfl, h1, h2⟩ := position_prefix hp
    obtain ⟨s1, hu, ha1⟩ := update_position ha hn h1
    have hn1 : ¬ Foreign q1 := fun hF => hr (foreign_append hF h2)
    have hfin : s1.final = none := by
      rcases ha1 with ⟨_, rfl⟩ | ⟨_, _, rfl⟩ | ⟨_, _, rfl⟩ | ⟨hF, _⟩
      · rfl
      · rfl
      · rfl
      · exact (hn1 hF).elim
    have hpc : processCopyData p c = .ok (c, { p with state := some s1, totalMessages := p.totalMessages + rows1.length, totalBytes := p.totalBytes + c.length }) := by
      unfold processCopyData
      rw [hs]
      simp only [hu, bind_ok]
      rw [hfin]
      rfl
    obtain ⟨s2, ha2, ht⟩ := ih (p := { p with state := some s1, totalMessages := p.totalMessages + rows1.length, totalBytes := p.totalBytes + c.length }) rfl ha1 hn1 h2 hr
    refine ⟨s2, ha2, ?_⟩
    rw [publish, hpc, bind_ok]
    simp only
    rw [ht, bind_ok, List.length_append, List.flatten_cons, List.length_append, Nat.add_assoc, Nat.add_assoc]
    rfl

theorem publish_append (a : List Bytes) (c : Bytes) (p : Prod) : publish p (a ++ [c]) = (do
    let (vs, p) ← publish p a
    let (v, p) ← processCopyData p c
    return (vs ++ [v], p)) := by
  induction a generalizing p with
  | nil =>
    simp only [List.nil_append, publish, bind_ok]
  | cons x a ih =>
    rw [List.cons_append, publish, publish]
    cases processCopyData p x with
    | error e => rfl
    | ok y =>
      simp only [bind_ok]
      rw [ih]
      cases publish y.2 a with
      | error e => rfl
      | ok y2 =>
        simp only [bind_ok, pure_ok]
        cases processCopyData y2.2 c with
        | error e => rfl
        | ok y3 => rfl

/-- C34: a producer publishes every byte of COPY data, unchanged and nothing else, and counts the messages and bytes; when something else
arrives, exactly that is handed back to the connection. -/
theorem C34_publish (chunks : List Bytes) (c : Bytes) (rows1 rows : List Bytes) (q r : Bytes) (h1 : Position chunks.flatten rows1 q)
    (hq : ¬ Foreign q) (h : Position (chunks.flatten ++ c) rows r) :
    ∃ v p, publish ⟨some WS.init, 0, 0, none⟩ (chunks ++ [c]) = .ok (chunks ++ [v], p) ∧ p.totalMessages = rows.length ∧
      p.totalBytes = (chunks.flatten ++ v).length ∧
      (Foreign r → chunks.flatten ++ v = copyFrames rows ∧ p.recovered = some r ∧ p.state = none) ∧
      (¬ Foreign r → v = c ∧ p.recovered = none ∧ ∃ s, p.state = some s ∧ Describes r s) := by
  obtain ⟨s, ha, hp⟩ := publish_at chunks (q := []) (p := ⟨some WS.init, 0, 0, none⟩) (s := WS.init) rfl (Or.inl ⟨rfl, rfl⟩) not_foreign_nil h1 hq
  obtain ⟨rowsA, q', rowsB, rfl, hA, hB⟩ := position_prefix h
  obtain ⟨rfl, rfl⟩ := position_unique h1 hA
  obtain ⟨s', hu, ha'⟩ := update_position ha hq hB
  have hs' := describes_of_at ha'
  by_cases hF : Foreign r
  · obtain ⟨_, d, hd⟩ := C34_foreign chunks c rows1 (rows1 ++ rowsB) q r h1 hq h hF
    have hfin : s'.final = some r := (hs'.foreign r).1 ⟨hF, rfl⟩
    have hne : r ≠ [] := by rintro rfl; exact not_foreign_nil hF
    have hv : c.take (c.length - r.length) = d := by
      rw [hd, List.length_append, Nat.add_sub_cancel, List.take_left]
    refine ⟨d, ⟨none, (rows1 ++ rowsB).length, (chunks.flatten ++ d).length, some r⟩, ?_, rfl, rfl, fun _ => ⟨?_, rfl, rfl⟩, fun hn => (hn hF).elim⟩
    · rw [publish_append, hp, bind_ok]
      simp only
      unfold processCopyData
      simp only [hu, bind_ok, hfin]
      rw [if_pos hne, List.length_append, pure_ok, bind_ok, pure_ok, hv, List.length_append]
      simp only [Nat.zero_add]
    · have he := h.1
      rw [hd, ← List.append_assoc] at he
      exact List.append_cancel_right he
  · have hfin : s'.final = none := by
      cases hf : s'.final with
      | none => rfl
      | some x => exact (hF ((hs'.foreign x).2 hf).1).elim
    refine ⟨c, ⟨some s', (rows1 ++ rowsB).length, (chunks.flatten ++ c).length, none⟩, ?_, rfl, rfl, fun hn => (hF hn).elim,
      fun _ => ⟨rfl, rfl, s', rfl, hs'⟩⟩
    rw [publish_append, hp, bind_ok]
    simp only
    unfold processCopyData
    simp only [hu, bind_ok, hfin]
    rw [List.length_append, List.length_append, pure_ok]
    simp only [Nat.zero_add]
    rfl

/-- Finding: for a length word below four, which no server sends, the count depends on how the stream is cut. -/
theorem C34_short_length : ∃ (a b : List Bytes) (s s' : WS), a.flatten = b.flatten ∧ track WS.init a = .ok (s, 1) ∧ track WS.init b = .ok (s', 0) :=
  ⟨[[100, 0, 0, 0, 0]], [[100], [0, 0, 0, 0]], _, _, rfl, rfl, rfl⟩

/-- A concrete case: two messages, cut inside of the first header and the second row. -/
example : Position ([100, 0] ++ [0, 0, 5, 65, 100, 0, 0, 0, 6, 66]) [[65]] [100, 0, 0, 0, 6, 66] ∧ InRow [100, 0, 0, 0, 6, 66] 1 ∧
    track WS.init [[100, 0], [0, 0, 5, 65, 100, 0, 0, 0, 6, 66]] = .ok (⟨1, [], none⟩, 1) := by
  have hr : InRow [100, 0, 0, 0, 6, 66] 1 := by
    unfold InRow
    exact ⟨by omega, [66], by decide, by rw [List.length_singleton]; omega⟩
  refine ⟨⟨rfl, ?_, Or.inr (Or.inr (Or.inl ⟨1, hr⟩))⟩, hr, by decide +kernel⟩
  intro row h
  rw [List.mem_singleton.1 h]
  simp [RowFits]

end PG.Props.CopyMan
