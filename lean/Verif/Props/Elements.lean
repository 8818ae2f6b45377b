import Verif.Proofs.Element3c
import Verif.Proofs.WireFormat
/-!
# C06-C09: message elements and batches
-/
namespace PG.Props.Elements
open PG PG.Spec PG.Element3 PG.PBuffer

/-! ## C06, C07 -/

/-- C06: every representable element a server sends serializes, and parsing the serialized form gives the element back. -/
theorem C06_backend_round_trip (m : Elem) (_hs : FromServer m.kind) (h : Representable m) :
    ∃ b, serialize m = .ok b ∧ parseK m.kind b = .ok m := round_trip m h

/-- C07: the same for every element a client sends. -/
theorem C07_frontend_round_trip (m : Elem) (_hs : FromClient m.kind) (h : Representable m) :
    ∃ b, serialize m = .ok b ∧ parseK m.kind b = .ok m := round_trip m h

/-- C06/C07 over the wire: a typed representable element whose body fits is read back, through the message stream and its
class's parser, as itself. -/
theorem C06_over_the_wire (m : Elem) (t : UInt8) (ht : m.kind.typ = some t) (h : Representable m) (w : Bytes)
    (hw : msgBytes m = .ok w) :
    ∃ b, (nextMessage (write {} w)).1 = .ok (some (t, b)) ∧ parseK m.kind b = .ok m := by
  obtain ⟨b, hb, hp⟩ := round_trip m h
  refine ⟨b, ?_, hp⟩
  obtain ⟨ms, e, hwf, hf⟩ := itemBytes_frames (.msg m) (fun m' hm' => by injection hm' with hm'; rw [← hm', ht]; rfl)
    (w := w) hw
  simp only [itemMsg, hb, bind_ok, ht, pure_ok] at e
  have e := Except.ok.inj e
  subst e
  obtain ⟨i, u⟩ := write_spec {} inv_init w
  obtain ⟨-, n⟩ := nextMessage_spec _ i
  have hu0 : unread {} = [] := rfl
  rw [u, hu0, List.nil_append, hwf] at n
  have hfr : frames [(t, b)] = frame (t, b) ++ [] := by simp [frames]
  rw [hfr, view_frame _ (hf _ (by simp))] at n
  rw [hwf, hfr]
  exact n.1

/-- Non-vacuity: a bind message with a NULL and a non-NULL argument; an error with two fields; a row description. -/
example : Representable (.bind [112] [115] [[0, 1], [0, 0]] [none, some [1, 2]] [[0, 1]]) ∧
    Representable (.error [([83], some [69]), ([67], some [50, 50])]) ∧
    Representable (.tupleDescriptor [⟨[97], 16384, 1, 23, 4, -1, 1⟩]) ∧
    (msgBytes (.bind [112] [115] [[0, 1], [0, 0]] [none, some [1, 2]] [[0, 1]])).isOk := by
  refine ⟨?_, ?_, ?_, by decide⟩
  · simp [Representable, NulFree, FmtsOk, AttsOk]
  · simp [Representable, NulFree, FieldsOk]
  · simp [Representable, NulFree, ColOk, InU, InS]

/-- The restriction "one format per argument" is needed: `Bind.serialize` writes the argument count for both counts, so with
no formats the message does not parse back. -/
theorem C07_bind_needs_formats :
    serialize (.bind [] [] [] [some [1]] []) = .ok [0, 0, 0, 1, 0, 1, 0, 0, 0, 1, 1, 0, 0] ∧
    parseK .bind [0, 0, 0, 1, 0, 1, 0, 0, 0, 1, 1, 0, 0] ≠ .ok (.bind [] [] [] [some [1]] []) := by decide

/-- C06: the body of a server's message in the format of PostgreSQL's documentation is parsed as the element it stands for,
and the class that parses it has the documentation's type letter. -/
theorem C06_documented_format_is_parsed (m : Elem) (_hs : FromServer m.kind) (h : Representable m) :
    parseK m.kind (Format.encs (Format.body m)) = .ok m ∧
    m.kind.typ = some (UInt8.ofNat (Format.letter m).toNat) := by
  refine ⟨Format.parse_format m h, ?_⟩
  rw [Format.letter_typ]
  have : Format.letter m ≠ '\x00' := by
    cases m <;> simp [FromServer, Elem.kind] at _hs <;> simp [Format.letter]
    rename_i k; cases k <;> simp_all
  rw [if_neg this]

/-- C07: a client's message is sent in the format of PostgreSQL's documentation: type letter, length, fields. -/
theorem C07_documented_format_is_sent (m : Elem) (hs : FromClient m.kind) (h : Representable m)
    (hl : (Format.encs (Format.body m)).length + 4 < 2 ^ 32) : msgBytes m = .ok (Format.message m) := by
  apply Format.msgBytes_format m h ?_ hl
  cases m <;> simp [FromClient, Elem.kind] at hs <;> simp [Elem.kind]

/-- Non-vacuity, and what a notice is: `serialize` omits the terminating zero byte of the documented format, which the parser
does not need. -/
example : Format.message (.execute [112] 5) = [69, 0, 0, 0, 10, 112, 0, 0, 0, 0, 5] ∧
    Format.encs (Format.body (.error [([83], some [69])])) = [83, 69, 0, 0] ∧
    serialize (.error [([83], some [69])]) = .ok [83, 69, 0] ∧
    Format.message .negotiateSSL = [0, 0, 0, 8, 4, 210, 22, 47] := by decide

/-! ## C08 -/

/-- C08: a batch is the concatenation of the wire forms of its items, in order. -/
theorem C08_batch_is_concatenation (xs : List Item) (w : Bytes) (h : catMessages xs = .ok w) :
    ∃ ws : List Bytes, xs.length = ws.length ∧ (∀ p ∈ xs.zip ws, itemBytes p.1 = .ok p.2) ∧ w = ws.flatten := by
  induction xs generalizing w with
  | nil => injection h with h; exact ⟨[], rfl, by simp, by rw [← h]; rfl⟩
  | cons x xs ih =>
    simp only [catMessages] at h
    obtain ⟨a, ha, h⟩ := bind_eq_ok h
    obtain ⟨b, hb, h⟩ := bind_eq_ok h
    rw [pure_ok] at h; have h := Except.ok.inj h
    obtain ⟨ws, h1, h2, h3⟩ := ih b hb
    refine ⟨a :: ws, by simp [h1], ?_, ?_⟩
    · intro p hp
      rcases List.mem_cons.mp hp with rfl | hp
      · exact ha
      · exact h2 p hp
    · rw [← h, h3]; rfl

/-- C08: cutting a batch in two (or grouping its items differently) does not change the bytes. -/
theorem C08_grouping_irrelevant (xs ys : List Item) (a b : Bytes) (ha : catMessages xs = .ok a)
    (hb : catMessages ys = .ok b) : catMessages (xs ++ ys) = .ok (a ++ b) := by
  rw [catMessages_append, ha, hb]; rfl

/-- C08: the peer reads exactly the messages of the items: (type, serialized body) for a message object, a COPY data
message for a raw line, a row message for a tuple, nothing for Void. -/
theorem C08_peer_reads_batch (xs : List Item) (ht : ∀ m, .msg m ∈ xs → m.kind.typ.isSome) (w : Bytes)
    (h : catMessages xs = .ok w) (n : Nat) :
    ∃ ms, itemsMsgs xs = .ok ms ∧
      (ms.length ≤ n → (read (write {} w) n).1 = .ok ms ∧ (getvalue (read (write {} w) n).2).1 = []) := by
  obtain ⟨ms, e, hw, hf⟩ := catMessages_frames xs ht h
  refine ⟨ms, e, fun hn => ?_⟩
  obtain ⟨i, u⟩ := write_spec {} inv_init w
  have hu0 : unread {} = [] := rfl
  rw [hu0, List.nil_append] at u
  have hp : parse w = (ms, [], false) := by
    have := parse_frames ms hf []
    rw [List.append_nil, parse_eq []] at this
    rw [hw, this]; simp [view]
  obtain ⟨i2, r⟩ := read_spec _ i n
  dsimp only at r
  rw [u, hp, if_pos (Or.inr rfl), List.take_of_length_le hn] at r
  refine ⟨r.1, ?_⟩
  rw [(getvalue_spec _ i2).1]
  have h2 := r.2
  rw [hw] at h2
  rw [hw]
  exact (List.append_cancel_left (as := frames ms) (by rw [List.append_nil]; exact h2)).symm

/-- C08: a raw line is the COPY data message, a tuple is the row message: replacing them by message objects gives the same
bytes. -/
theorem C08_shorthands (d : Bytes) (t : List (Option Bytes)) (w : Bytes) :
    (itemBytes (.raw d) = .ok w → msgBytes (.copyData d) = .ok w) ∧
    (itemBytes (.row t) = .ok w → msgBytes (.tuple t) = .ok w) := by
  constructor
  · intro h
    simp only [itemBytes] at h
    obtain ⟨l, hl, h⟩ := bind_eq_ok h
    rw [pure_ok] at h; have h := Except.ok.inj h
    obtain ⟨e, hlt⟩ := packS4_nat (n := d.length + 4) (by simpa using hl)
    have := packU_nat (k := 4) (n := d.length + 4) (Nat.lt_of_lt_of_le hlt (by decide))
    rw [Int.natCast_add] at this
    rw [← h, e]
    exact msgBytes_of (m := .copyData d) rfl rfl this
  · intro h
    simp only [itemBytes] at h
    obtain ⟨r, hr, h⟩ := bind_eq_ok h
    obtain ⟨l, hl, h⟩ := bind_eq_ok h
    obtain ⟨c, hc, h⟩ := bind_eq_ok h
    rw [pure_ok] at h; have h := Except.ok.inj h
    obtain ⟨e, hlt⟩ := packS4_nat (n := r.length + 6) (by simpa using hl)
    have lc := length_packU hc
    have hl2 : (c ++ r).length + 4 = r.length + 6 := by simp; omega
    have := packU_nat (k := 4) (n := (c ++ r).length + 4) (by rw [hl2]; exact Nat.lt_of_lt_of_le hlt (by decide))
    have hc' : ushortPack (t.length : Int) = .ok c := hc
    rw [Int.natCast_add] at this
    have hs : serialize (.tuple t) = .ok (c ++ r) := by simp only [serialize, hr, hc', bind_ok, pure_ok]
    rw [← h, e, List.append_assoc, ← hl2]
    exact msgBytes_of (m := .tuple t) hs rfl this

example : (catMessages [.msg (.empty .synchronize), .raw [1, 2], .void, .row [none, some [7]]]).isOk ∧
    itemsMsgs [.msg (.empty .synchronize), .raw [1, 2], .void, .row [none, some [7]]] =
      .ok [(83, []), (100, [1, 2]), (68, [0, 2, 255, 255, 255, 255, 0, 0, 0, 1, 7])] := by decide

/-! ## C09 -/

/-- C09 fails as stated: `Tuple.parse` (pure Python) accepts a row whose last attribute announces five bytes and has one. -/
theorem C09_violated : parseK .tuple [0, 1, 0, 0, 0, 5, 65] = .ok (.tuple [some [65]]) := by decide

/-- C09, what does hold: if a serialized row is cut short anywhere, parsing either raises or the cut lies inside the data of
the last attribute, and then exactly that attribute is shortened; every other truncation is rejected.
Missing for the full property: rejection when only the last attribute's data is cut (`C09_violated`). -/
theorem C09_truncated_row_partial (l : List (Option Bytes)) (h : Representable (.tuple l)) (b : Bytes)
    (hb : serialize (.tuple l) = .ok b) (k : Nat) (hk : k < b.length) (e : Elem)
    (he : parseK .tuple (b.take k) = .ok e) :
    ∃ init d, l = init ++ [some d] ∧ b.length - k ≤ d.length ∧
      e = .tuple (init ++ [some (d.take (d.length - (b.length - k)))]) := by
  simp only [serialize] at hb
  obtain ⟨c, hc, hb⟩ := bind_eq_ok hb
  obtain ⟨t, ht, hb⟩ := bind_eq_ok hb
  injection hb with hb
  subst hb
  have lc := length_packU hc
  have hk2 : 2 ≤ k := by
    apply Nat.le_of_not_lt
    intro hlt
    simp only [parseK] at he
    have : ushortUnpack (((c ++ t).take k).take 2) = .error .structError := by
      simp only [unpackFromU]
      rw [if_pos]
      simp; omega
    rw [this] at he
    cases he
  have htk : (c ++ t).take k = c ++ t.take (k - 2) := by
    rw [List.take_append, List.take_of_length_le (by omega), lc]
  rw [htk] at he
  have ht2 : (c ++ t.take (k - 2)).take 2 = c := by rw [← lc, List.take_left]
  have hu : ushortUnpack c = .ok (l.length : Int) := unpackFromU_packU hc
  simp only [parseK, ht2, hu, bind_ok, Int.toNat_natCast] at he
  obtain ⟨r, hr, he⟩ := bind_eq_ok he
  injection he with he
  subst he
  have hj : k - 2 < t.length := by simp at hk; omega
  rw [← lc] at hr
  rw [lc] at hr
  have hr' : attLoop (c ++ t.take (k - 2)) l.length c.length = .ok r := by rw [lc]; exact hr
  obtain ⟨init, d, h1, h2, h3⟩ := attLoop_cut l h.2 t ht c (k - 2) hj hr'
  have hl : (c ++ t).length - k = t.length - (k - 2) := by simp; omega
  exact ⟨init, d, h1, by omega, by rw [hl, ← h3]⟩

example : Representable (.tuple [some [1, 2], none]) ∧
    serialize (.tuple [some [1, 2], none]) = .ok [0, 2, 0, 0, 0, 2, 1, 2, 255, 255, 255, 255] ∧
    parseK .tuple ([0, 2, 0, 0, 0, 2, 1, 2, 255, 255, 255, 255].take 7) = .error .structError := by
  refine ⟨by simp [Representable, AttsOk], by decide, by decide⟩

end PG.Props.Elements
