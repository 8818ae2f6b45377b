import Verif.Model.DateTime
import Verif.Proofs.TypesLib2
/-!
# C21: dates and times
-/
namespace PG.Props.DateTime
open PG PG.Spec PG.Spec.Format PG.Element3 PG.TypesLib PG.DateTime

theorem unpackS_digits' {k : Nat} {n : Int} (h : InS k n) : unpackFromS k (digits k n) = .ok n := by
  have := unpackFromS_digits h []; rw [List.append_nil] at this; exact this

theorem inS8_iff (n : Int) : InS 8 n ↔ -9223372036854775808 ≤ n ∧ n < 9223372036854775808 := by
  unfold InS
  rw [show (256 : Int) ^ 8 = 18446744073709551616 by decide]
  omega

theorem inS4_iff' (n : Int) : InS 4 n ↔ -2147483648 ≤ n ∧ n < 2147483648 := by
  unfold InS
  rw [show (256 : Int) ^ 4 = 4294967296 by decide]
  omega

theorem digits_ne {k : Nat} {a b : Int} (ha : InS k a) (hb : InS k b) (h : a ≠ b) : digits k a ≠ digits k b := by
  intro e
  have h1 := unpackS_digits' ha
  rw [e, unpackS_digits' hb] at h1
  exact h (Except.ok.inj h1).symm

theorem dateInfinity_eq : dateInfinity = digits 4 2147483647 := by decide
theorem dateNegInfinity_eq : dateNegInfinity = digits 4 (-2147483648) := by decide
theorem time64Infinity_eq : time64Infinity = digits 8 9223372036854775807 := by decide
theorem time64NegInfinity_eq : time64NegInfinity = digits 8 (-9223372036854775808) := by decide

/-- C21: every date from 0001-01-01 to 9999-12-31 comes back.  On the wire it is the number of days since 2000-01-01, but the
first and the last date are sent as -infinity and infinity. -/
theorem C21_date (ord : Int) (h : 1 ≤ ord ∧ ord ≤ 3652059) :
    ∃ b, datePack (.val ord) = .ok b ∧ dateUnpack b = .ok ord ∧
      (ord ≠ 1 → ord ≠ 3652059 → b = digits 4 (ord - 730120)) := by
  unfold datePack
  dsimp only
  by_cases h1 : ord = maxOrd
  · rw [if_pos h1]
    exact ⟨_, rfl, by rw [h1]; rfl, fun _ h2 => absurd h1 h2⟩
  · rw [if_neg h1]
    by_cases h2 : ord = 1
    · rw [if_pos h2]
      exact ⟨_, rfl, by rw [h2]; decide, fun h3 => absurd h2 h3⟩
    · rw [if_neg h2]
      have hS : InS 4 (ord - pgOrd) := by rw [inS4_iff']; unfold pgOrd; omega
      refine ⟨digits 4 (ord - pgOrd), packS_digits hS, ?_, fun _ _ => rfl⟩
      unfold dateUnpack
      rw [dateInfinity_eq, if_neg (digits_ne hS (by decide) (by unfold pgOrd; omega)), dateNegInfinity_eq,
        if_neg (digits_ne hS (by decide) (by unfold pgOrd; omega)), longUnpack, unpackS_digits' hS, bind_ok]
      unfold fromOrdinal maxOrd
      rw [if_neg (by omega)]
      congr 1; omega

theorem mktime64_tuple (n : Int) : mktime64 (mktimetuple64 n) = n := by
  simp only [mktime64, mktimetuple64]; omega

theorem mktimetuple64_mktime (s u : Int) (hu : 0 ≤ u ∧ u < 1000000) : mktimetuple64 (mktime64 (s, u)) = (s, u) := by
  simp only [mktime64, mktimetuple64, Prod.mk.injEq]; omega

/-- The valid datetimes: years 1 to 9999. -/
def ValidDt (x : Int) : Prop := 0 ≤ x ∧ x < 3652059 * 86400000000

theorem timestampTuple_total (x : Int) : mktime64 (timestampTuple x) = x - pgEpoch := by
  simp only [timestampTuple, subDt, mktime64, usDay, usec]; omega

theorem timestampTuple_us (x : Int) : 0 ≤ (timestampTuple x).2 ∧ (timestampTuple x).2 < 1000000 := by
  simp only [timestampTuple, subDt, usDay, usec]; omega

theorem mkTimedelta_ok (a b c : Int)
    (h : -999999999 ≤ (a * 86400000000 + b * 1000000 + c) / 86400000000 ∧ (a * 86400000000 + b * 1000000 + c) / 86400000000 ≤ 999999999) :
    mkTimedelta a b c = .ok ⟨(a * 86400000000 + b * 1000000 + c) / 86400000000,
      (a * 86400000000 + b * 1000000 + c) % 86400000000 / 1000000, (a * 86400000000 + b * 1000000 + c) % 1000000⟩ :=
  if_neg (by simp only [usDay, usec]; omega)

theorem mkTimedelta_error (a b c : Int)
    (h : ¬ (-999999999 ≤ (a * 86400000000 + b * 1000000 + c) / 86400000000 ∧ (a * 86400000000 + b * 1000000 + c) / 86400000000 ≤ 999999999)) :
    mkTimedelta a b c = .error .overflowError :=
  if_pos (by simp only [usDay, usec]; omega)

theorem addDt_ok (x : Int) (d : Timedelta) (h : 0 ≤ x + d.total ∧ x + d.total < 3652059 * 86400000000) : addDt x d = .ok (x + d.total) :=
  if_neg (by simp only [usDay, maxOrd]; omega)

theorem timestamptzTuple_ok (a b : Int) (h : ValidDt (a - b * 1000000)) : timestamptzTuple a b = .ok (timestampTuple (a - b * 1000000)) :=
  if_neg (by unfold ValidDt at h; simp only [usDay, maxOrd, usec]; omega)

theorem timestamptzTuple_error (a b : Int) (h : ¬ ValidDt (a - b * 1000000)) : timestamptzTuple a b = .error .overflowError :=
  if_pos (by unfold ValidDt at h; simp only [usDay, maxOrd, usec]; omega)

theorem mkTime_ok (h m s us : Int) (hv : 0 ≤ h ∧ h < 24 ∧ 0 ≤ m ∧ m < 60 ∧ 0 ≤ s ∧ s < 60 ∧ 0 ≤ us ∧ us < 1000000) :
    mkTime h m s us = .ok ⟨h, m, s, us⟩ := if_pos hv

theorem timestampOf_spec (x : Int) (h : ValidDt x) : timestampOf (mktimetuple64 (x - pgEpoch)) = .ok x := by
  unfold ValidDt at h
  unfold timestampOf
  have e := mkTimedelta_ok 0 ((x - pgEpoch) / 1000000) ((x - pgEpoch) % 1000000) (by simp only [pgEpoch, pgOrd, usDay]; omega)
  simp only [mktimetuple64, e, bind_ok]
  rw [addDt_ok _ _ (by simp only [Timedelta.total, usDay, usec]; omega)]
  simp only [Timedelta.total, usDay, usec]
  congr 1
  omega

theorem time64_round (x : Int) (h : ValidDt x) : InS 8 (x - pgEpoch) ∧ time64Pack (timestampTuple x) = .ok (digits 8 (x - pgEpoch)) := by
  have hS : InS 8 (x - pgEpoch) := by
    unfold ValidDt at h
    rw [inS8_iff]; simp only [pgEpoch, pgOrd, usDay]; omega
  refine ⟨hS, ?_⟩
  unfold time64Pack
  rw [timestampTuple_total, packS_digits hS]

/-- C21: every naive datetime (years 1 to 9999) comes back as itself from `timestamp`.  On the wire it is the number of
microseconds since 2000-01-01, but the first and the last microsecond are sent as -infinity and infinity. -/
theorem C21_timestamp (x : Int) (h : ValidDt x) :
    ∃ b, timestampPack (.val x) = .ok b ∧ timestampUnpack b = .ok x ∧
      (x ≠ 0 → x ≠ 3652059 * 86400000000 - 1 → b = digits 8 (x - 730119 * 86400000000)) := by
  obtain ⟨hS, hp⟩ := time64_round x h
  unfold timestampPack
  dsimp only
  by_cases h1 : x = infinityDt
  · rw [if_pos h1]
    exact ⟨_, rfl, by rw [h1]; rfl, fun _ h2 => absurd h1 h2⟩
  · rw [if_neg h1]
    by_cases h2 : x = 0
    · rw [if_pos h2]
      exact ⟨_, rfl, by rw [h2]; decide, fun h3 => absurd h2 h3⟩
    · rw [if_neg h2]
      refine ⟨_, hp, ?_, fun _ _ => rfl⟩
      unfold ValidDt at h
      unfold timestampUnpack
      rw [time64Infinity_eq, if_neg (digits_ne hS (by rw [inS8_iff]; decide) (by simp only [pgEpoch, pgOrd, usDay]; omega)), time64NegInfinity_eq,
        if_neg (digits_ne hS (by rw [inS8_iff]; decide) (by simp only [pgEpoch, pgOrd, usDay]; omega))]
      simp only [time64Unpack, unpackS_digits' hS, bind_ok, pure_ok, timestampOf_spec x h]

/-- C21: every aware datetime whose UTC time is in the years 1 to 9999 comes back from `timestamptz` as the same instant, in
UTC; one whose UTC time is not is refused. -/
theorem C21_timestamptz (local_ offset : Int) :
    (ValidDt (local_ - offset * 1000000) →
      ∃ b, timestamptzPack (.val (local_, offset)) = .ok b ∧ timestamptzUnpack b = .ok (.aware (local_ - offset * 1000000) 0) ∧
        b = digits 8 (local_ - offset * 1000000 - 730119 * 86400000000)) ∧
    (¬ ValidDt (local_ - offset * 1000000) → timestamptzPack (.val (local_, offset)) = .error .overflowError) := by
  constructor
  · intro h
    obtain ⟨hS, hp⟩ := time64_round _ h
    refine ⟨digits 8 (local_ - offset * 1000000 - pgEpoch), ?_, ?_, rfl⟩
    · simp only [timestamptzPack, timestamptzTuple_ok _ _ h, bind_ok, hp]
    · have h' := h
      unfold ValidDt at h
      unfold timestamptzUnpack
      rw [time64Infinity_eq, if_neg (digits_ne hS (by rw [inS8_iff]; decide) (by simp only [pgEpoch, pgOrd, usDay]; omega)), time64NegInfinity_eq,
        if_neg (digits_ne hS (by rw [inS8_iff]; decide) (by simp only [pgEpoch, pgOrd, usDay]; omega))]
      simp only [time64Unpack, unpackS_digits' hS, bind_ok, pure_ok, timestampOf_spec _ h']
  · intro h
    simp only [timestamptzPack, timestamptzTuple_error _ _ h]; rfl

/-- C21: 'infinity' and '-infinity' are sent as PostgreSQL's infinities; received ones become the extreme values, which for
`timestamptz` are naive datetimes. -/
theorem C21_infinities :
    timestampPack (.str "infinity") = .ok (digits 8 (2 ^ 63 - 1)) ∧ timestampPack (.str "-infinity") = .ok (digits 8 (-2 ^ 63)) ∧
    timestamptzPack (.str "infinity") = .ok (digits 8 (2 ^ 63 - 1)) ∧ timestamptzPack (.str "-infinity") = .ok (digits 8 (-2 ^ 63)) ∧
    datePack (.str "infinity") = .ok (digits 4 (2 ^ 31 - 1)) ∧ datePack (.str "-infinity") = .ok (digits 4 (-2 ^ 31)) ∧
    timestampUnpack (digits 8 (2 ^ 63 - 1)) = .ok infinityDt ∧ timestampUnpack (digits 8 (-2 ^ 63)) = .ok 0 ∧
    timestamptzUnpack (digits 8 (2 ^ 63 - 1)) = .ok (.naive infinityDt) ∧ timestamptzUnpack (digits 8 (-2 ^ 63)) = .ok (.naive 0) := by
  refine ⟨?_, ?_, ?_, ?_, ?_, ?_, ?_, ?_, ?_, ?_⟩ <;> decide +kernel

/-- A `datetime.time` that exists. -/
def ValidTime (t : Time) : Prop :=
  (0 ≤ t.hour ∧ t.hour < 24) ∧ (0 ≤ t.minute ∧ t.minute < 60) ∧ (0 ≤ t.second ∧ t.second < 60) ∧ 0 ≤ t.us ∧ t.us < 1000000

theorem timeOf_spec (t : Time) (h : ValidTime t) : timeOf (timeTuple t) = .ok t := by
  obtain ⟨h1, h2, h3, h4⟩ := h
  simp only [timeOf, timeTuple]
  rw [mkTime_ok _ _ _ _ (by omega)]
  obtain ⟨hh, mm, ss, uu⟩ := t
  simp only at *
  congr 2 <;> omega

theorem time_inS (t : Time) (h : ValidTime t) : InS 8 (mktime64 (timeTuple t)) := by
  obtain ⟨h1, h2, h3, h4⟩ := h
  rw [inS8_iff]
  simp only [mktime64, timeTuple]
  omega

/-- C21: every `time` comes back; on the wire it is the number of microseconds since midnight. -/
theorem C21_time (t : Time) (h : ValidTime t) :
    ∃ b, timePack t = .ok b ∧ timeUnpack b = .ok t ∧
      b = digits 8 (((t.hour * 60 + t.minute) * 60 + t.second) * 1000000 + t.us) := by
  have hS := time_inS t h
  refine ⟨digits 8 (mktime64 (timeTuple t)), packS_digits hS, ?_, ?_⟩
  · simp only [timeUnpack, time64Unpack, unpackS_digits' hS, bind_ok, pure_ok]
    rw [show timeTuple t = ((timeTuple t).1, t.us) from rfl, mktimetuple64_mktime _ _ h.2.2.2]
    exact timeOf_spec t h
  · congr 1
    simp only [mktime64, timeTuple]; omega

theorem toSigned_digits {k : Nat} {n : Int} (h : InS k n) : toSigned k (beDec (digits k n)) = n := by
  have := unpackS_digits' h
  unfold unpackFromS at this
  rw [length_digits, if_neg (by omega), List.take_of_length_le (by rw [length_digits]; omega)] at this
  exact Except.ok.inj this

theorem qlUnpack_pack {q l : Int} (hq : InS 8 q) (hl : InS 4 l) : qlPack q l = .ok (digits 8 q ++ digits 4 l) ∧
    qlUnpack (digits 8 q ++ digits 4 l) = .ok (q, l) := by
  have L8 : (digits 8 q).length = 8 := length_digits ..
  have L4 : (digits 4 l).length = 4 := length_digits ..
  refine ⟨by simp only [qlPack, packS_digits hq, packS_digits hl, bind_ok, pure_ok], ?_⟩
  unfold qlUnpack
  rw [if_neg (by simp only [List.length_append, L8, L4]; omega), List.take_left' L8, List.drop_left' L8, List.take_of_length_le (by omega),
    toSigned_digits hq, toSigned_digits hl]

/-- C21: every `timetz` whose offset is a whole number of minutes comes back. -/
theorem C21_timetz (t : Time) (h : ValidTime t) (minutes : Int) (hm : -1440 < minutes ∧ minutes < 1440) :
    ∃ b, timetzPack t (minutes * 60) = .ok b ∧ timetzUnpack b = .ok (t, minutes * 60) := by
  have hS := time_inS t h
  have hl : InS 4 (minutes * 60) := by rw [inS4_iff']; omega
  obtain ⟨h1, h2⟩ := qlUnpack_pack hS hl
  refine ⟨_, h1, ?_⟩
  simp only [timetzUnpack, h2, bind_ok]
  rw [show timeTuple t = ((timeTuple t).1, t.us) from rfl, mktimetuple64_mktime _ _ h.2.2.2]
  rw [show ((timeTuple t).1, t.us) = timeTuple t from rfl, timeOf_spec t h]
  simp only [bind_ok, pure_ok, fixedOffset]
  congr 2
  omega

/-- C21, a finding: on the wire the zone of a `time with time zone` is the number of seconds WEST of Greenwich (PostgreSQL, `timetz_recv` and `EncodeTimezone`); what is sent is the number
of seconds east. `z` is the offset the server reads, in seconds east: it is the one given exactly when that is zero, otherwise it is its negative. -/
theorem C21_timetz_sign (t : Time) (h : ValidTime t) (offset : Int) (ho : -86400 < offset ∧ offset < 86400) :
    ∃ us west, timetzPack t offset = .ok (digits 8 us ++ digits 4 west) ∧ us = ((t.hour * 60 + t.minute) * 60 + t.second) * 1000000 + t.us ∧
      ∀ z : Int, InS 4 (-z) → digits 4 west = digits 4 (-z) → (z = -offset ∧ (z = offset ↔ offset = 0)) := by
  have hS := time_inS t h
  have hl : InS 4 offset := by rw [inS4_iff']; omega
  refine ⟨mktime64 (timeTuple t), offset, (qlUnpack_pack hS hl).1, ?_, ?_⟩
  · simp only [mktime64, timeTuple]; omega
  · intro z hz he
    have := congrArg (fun b => toSigned 4 (beDec b)) he
    rw [toSigned_digits hl, toSigned_digits hz] at this
    omega

/-- 12:00+02:00 is sent with 7200, which the server takes for 12:00-02:00 (for +02:00 it expects -7200). -/
example : timetzPack ⟨12, 0, 0, 0⟩ 7200 = .ok (digits 8 43200000000 ++ digits 4 7200) ∧ digits 4 (-7200) ≠ digits 4 7200 := by decide +kernel

/-- C21, a finding: an offset with seconds is rounded down to minutes when it is received: 10:00+00:00:30 comes back as
10:00+00:00. -/
theorem C21_timetz_seconds_lost :
    ∃ b, timetzPack ⟨10, 0, 0, 0⟩ 30 = .ok b ∧ timetzUnpack b = .ok (⟨10, 0, 0, 0⟩, 0) :=
  ⟨[0, 0, 0, 8, 97, 196, 104, 0, 0, 0, 0, 30], by decide +kernel, by decide +kernel⟩

/-- C21, a finding: the server's time 24:00 (86400000000 microseconds) cannot be received. -/
theorem C21_time_24_refused : timeUnpack (digits 8 86400000000) = .error .valueError := by decide +kernel

/-- A `timedelta` that exists. -/
def ValidDelta (d : Timedelta) : Prop :=
  (-999999999 ≤ d.days ∧ d.days ≤ 999999999) ∧ (0 ≤ d.seconds ∧ d.seconds < 86400) ∧ 0 ≤ d.us ∧ d.us < 1000000

theorem intervalOf_spec (d : Timedelta) (h : ValidDelta d) (days : Int) (s : Int)
    (hs : days * 86400 + s = d.days * 86400 + d.seconds) : intervalOf 0 days (s, d.us) = .ok d := by
  obtain ⟨h1, h2, h3⟩ := h
  unfold intervalOf
  dsimp only
  rw [mkTimedelta_ok _ _ _ (by omega)]
  obtain ⟨dd, ds, du⟩ := d
  simp only at *
  congr 2 <;> omega

/-- C21: every `timedelta`, negative ones too, comes back from `interval`: microseconds, days, no months on the wire. -/
theorem C21_interval (d : Timedelta) (h : ValidDelta d) :
    ∃ b, intervalPack d = .ok b ∧ intervalUnpack b = .ok d ∧
      b = digits 8 (d.seconds * 1000000 + d.us) ++ digits 4 d.days ++ digits 4 0 := by
  have h' := h
  obtain ⟨h1, h2, h3⟩ := h
  have hq : InS 8 (mktime64 (d.seconds, d.us)) := by rw [inS8_iff]; simp only [mktime64]; omega
  have hl : InS 4 d.days := by rw [inS4_iff']; omega
  have h0 : InS 4 0 := by rw [inS4_iff']; omega
  have L8 : (digits 8 (mktime64 (d.seconds, d.us))).length = 8 := length_digits ..
  have L4 : (digits 4 d.days).length = 4 := length_digits ..
  have L0 : (digits 4 0).length = 4 := length_digits ..
  refine ⟨digits 8 (mktime64 (d.seconds, d.us)) ++ digits 4 d.days ++ digits 4 0, ?_, ?_, rfl⟩
  · simp only [intervalPack, qllPack, packS_digits hq, packS_digits hl, packS_digits h0, bind_ok, pure_ok]
  · have : qllUnpack (digits 8 (mktime64 (d.seconds, d.us)) ++ digits 4 d.days ++ digits 4 0) = .ok (mktime64 (d.seconds, d.us), d.days, 0) := by
      unfold qllUnpack
      rw [if_neg (by simp only [List.length_append, L8, L4, L0]; omega), List.append_assoc, List.take_left' L8, List.drop_left' L8,
        List.take_left' L4, toSigned_digits hq, toSigned_digits hl]
      rw [← List.append_assoc, List.drop_left' (by simp only [List.length_append, L8, L4]), List.take_of_length_le (by omega), toSigned_digits h0]
    simp only [intervalUnpack, this, bind_ok]
    rw [mktimetuple64_mktime _ _ h3]
    exact intervalOf_spec d h' _ _ rfl

/-- C21: for servers whose intervals have no days (8.0 and before) the days go into the microseconds; the `timedelta` comes back
if its microseconds fit eight bytes, otherwise it is refused. -/
theorem C21_interval_noday (d : Timedelta) (h : ValidDelta d) :
    (-2 ^ 63 ≤ d.total ∧ d.total < 2 ^ 63 → ∃ b, intervalNodayPack d = .ok b ∧ intervalNodayUnpack b = .ok d ∧
      b = digits 8 d.total ++ digits 4 0) ∧
    (¬ (-2 ^ 63 ≤ d.total ∧ d.total < 2 ^ 63) → intervalNodayPack d = .error .structError) := by
  have h' := h
  obtain ⟨h1, h2, h3⟩ := h
  have ht : ∀ s, s = (if d.days ≠ 0 then d.seconds + d.days * 24 * 60 * 60 else d.seconds) → s = d.days * 86400 + d.seconds := by
    intro s hs
    split at hs <;> omega
  have hs := ht _ rfl
  have hm : mktime64 (d.days * 86400 + d.seconds, d.us) = d.total := by
    simp only [mktime64, Timedelta.total, usDay, usec]; omega
  have h0 : InS 4 0 := by rw [inS4_iff']; omega
  rw [show (-2 ^ 63 : Int) = -9223372036854775808 by decide, show (2 ^ 63 : Int) = 9223372036854775808 by decide, ← inS8_iff]
  constructor
  · intro hq
    obtain ⟨e1, e2⟩ := qlUnpack_pack hq h0
    refine ⟨digits 8 d.total ++ digits 4 0, ?_, ?_, rfl⟩
    · unfold intervalNodayPack
      dsimp only
      rw [hs, hm]; exact e1
    · simp only [intervalNodayUnpack, e2, bind_ok]
      rw [← hm, mktimetuple64_mktime _ _ h3]
      exact intervalOf_spec d h' _ _ (by omega)
  · intro hq
    unfold intervalNodayPack
    dsimp only
    rw [hs, hm, qlPack, packS_error hq]; rfl

/-- C21: an interval with months from the server is taken as 30 days per month; it is refused just if Python has no such
`timedelta`. -/
theorem C21_interval_months (months days us : Int) (hm : InS 4 months) (hd : InS 4 days) (hu : InS 8 us) :
    (∀ d, ValidDelta d → d.total = (months * 30 + days) * 86400000000 + us →
      intervalUnpack (digits 8 us ++ digits 4 days ++ digits 4 months) = .ok d) ∧
    ((¬ ∃ d, ValidDelta d ∧ d.total = (months * 30 + days) * 86400000000 + us) →
      intervalUnpack (digits 8 us ++ digits 4 days ++ digits 4 months) = .error .overflowError) := by
  have L8 : (digits 8 us).length = 8 := length_digits ..
  have L4 : (digits 4 days).length = 4 := length_digits ..
  have L0 : (digits 4 months).length = 4 := length_digits ..
  have e : qllUnpack (digits 8 us ++ digits 4 days ++ digits 4 months) = .ok (us, days, months) := by
    unfold qllUnpack
    rw [if_neg (by simp only [List.length_append, L8, L4, L0]; omega), List.append_assoc, List.take_left' L8, List.drop_left' L8,
      List.take_left' L4, toSigned_digits hu, toSigned_digits hd]
    rw [← List.append_assoc, List.drop_left' (by simp only [List.length_append, L8, L4]), List.take_of_length_le (by omega), toSigned_digits hm]
  simp only [intervalUnpack, e, bind_ok, intervalOf, mktimetuple64]
  constructor
  · intro d ⟨h1, h2, h3⟩ ht
    simp only [Timedelta.total, usDay, usec] at ht
    rw [mkTimedelta_ok _ _ _ (by omega)]
    obtain ⟨dd, ds, du⟩ := d
    simp only at *
    congr 2 <;> omega
  · intro h
    apply mkTimedelta_error
    intro hb
    exact h ⟨⟨((days + months * 30) * 86400000000 + us / 1000000 * 1000000 + us % 1000000) / 86400000000,
      ((days + months * 30) * 86400000000 + us / 1000000 * 1000000 + us % 1000000) % 86400000000 / 1000000,
      ((days + months * 30) * 86400000000 + us / 1000000 * 1000000 + us % 1000000) % 1000000⟩,
      ⟨hb, by dsimp only; omega, by dsimp only; omega⟩, by simp only [Timedelta.total, usDay, usec]; omega⟩

/-- Non-vacuity: a negative timestamp (1999-12-31 23:59:59.5), a time, a negative interval. -/
example : ValidDt (pgEpoch - 500000) ∧ timestampPack (.val (pgEpoch - 500000)) = .ok (digits 8 (-500000)) ∧
    ValidTime ⟨23, 59, 59, 999999⟩ ∧ ValidDelta ⟨-1, 86399, 999999⟩ ∧
    intervalPack ⟨-1, 86399, 999999⟩ = .ok (digits 8 86399999999 ++ digits 4 (-1) ++ digits 4 0) := by
  refine ⟨⟨by decide, by decide⟩, by decide +kernel, ?_, ?_, by decide +kernel⟩
  · exact ⟨by decide, by decide, by decide, by decide⟩
  · exact ⟨by decide, by decide, by decide⟩

end PG.Props.DateTime
