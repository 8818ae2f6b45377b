import Verif.Proofs.FloatTime2
import Verif.Props.DateTime
/-!
# C87: dates and times with servers that keep them as floats

`FloatTime.timePack`, `timestampPack`, … and their inverses are the float formats of `types/io/stdlib_datetime.py`; a double is
the number it stands for.  `ValidTime`, `ValidDt`, `ValidDelta` (`Verif.Props.DateTime`): the objects Python has.
-/
namespace PG.FloatTime
open PG PG.Spec PG.Spec.Format PG.Element3 PG.TypesLib PG.DateTime PG.Props.DateTime

/-- C87: the arithmetic of the model is that of IEEE 754 doubles: an operation gives a double, and no double is nearer the exact result. -/
theorem C87_rounding (x : Rat) : IsDouble (rnd x) ∧ ∀ d, IsDouble d → absR (rnd x - x) ≤ absR (d - x) :=
  ⟨rnd_isDouble x, fun d hd => rnd_nearest x d hd⟩

example : rnd (1 / 10) = 3602879701896397 / 36028797018963968 := by decide +kernel
example : rnd 9007199254740993 = 9007199254740992 ∧ rnd 9007199254740995 = 9007199254740996 := by decide +kernel
example : ¬ (rnd (1 / 10) = 1 / 10) := by decide +kernel

/-- A time of day in microseconds. -/
def micros (t : Time) : Int := ((t.hour * 60 + t.minute) * 60 + t.second) * 1000000 + t.us

theorem timeOf_parts (t : Time) (h : ValidTime t) (us : Int) (hu : 0 ≤ us ∧ us < 1000000) : timeOf ((timeTuple t).1, us) = .ok { t with us := us } :=
  timeOf_spec { t with us := us } ⟨h.1, h.2.1, h.2.2.1, hu⟩

theorem time_read (t : Time) (h : ValidTime t) : ∃ s, timeUnpack64f (timePack64f (timeTuple t)) = .ok s ∧
    ∃ us, timeOf s = .ok { t with us := us } ∧ (us = t.us ∨ (0 < t.us ∧ us = t.us - 1)) := by
  obtain ⟨h1, h2, h3, h4⟩ := h
  have hs : -8589934592 < (timeTuple t).1 ∧ (timeTuple t).1 < 8589934592 := by simp only [timeTuple]; omega
  refine ⟨_, rfl, ?_⟩
  rcases pair_round (timeTuple t).1 t.us hs h4 with e | ⟨e0, e⟩
  · refine ⟨t.us, ?_, .inl rfl⟩
    rw [show timeTuple t = ((timeTuple t).1, t.us) from rfl, e]
    exact timeOf_parts t ⟨h1, h2, h3, h4⟩ _ h4
  · refine ⟨t.us - 1, ?_, .inr ⟨e0, rfl⟩⟩
    rw [show timeTuple t = ((timeTuple t).1, t.us) from rfl, e]
    exact timeOf_parts t ⟨h1, h2, h3, h4⟩ _ (by omega)

/-- C87: a `time` comes back, or the `time` one microsecond before it — never another one, and whole seconds always come back. -/
theorem C87_time_partial (t : Time) (h : ValidTime t) :
    ∃ t', timeUnpack (timePack t) = .ok t' ∧ ValidTime t' ∧ (micros t' = micros t ∨ micros t' = micros t - 1) ∧ (t.us = 0 → t' = t) := by
  obtain ⟨s, e1, us, e2, hus⟩ := time_read t h
  refine ⟨{ t with us := us }, ?_, ?_, ?_, ?_⟩
  · unfold timeUnpack timePack
    rw [e1]; exact e2
  · obtain ⟨h1, h2, h3, h4⟩ := h
    exact ⟨h1, h2, h3, by rcases hus with e | ⟨e0, e⟩ <;> simp only [e] <;> omega⟩
  · simp only [micros]
    rcases hus with e | ⟨e0, e⟩
    · left; rw [e]
    · right; omega
  · intro h0
    rcases hus with e | ⟨e0, e⟩
    · rw [e]
    · omega

/-- C87, a finding: not every `time` comes back: 00:00:01.000001 is read as 00:00:01. -/
theorem C87_time_lost : ¬ ∀ t : Time, ValidTime t → timeUnpack (timePack t) = .ok t := by
  intro h
  have := h ⟨0, 0, 1, 1⟩ ⟨by decide, by decide, by decide, by decide⟩
  revert this
  decide +kernel

example : timeUnpack (timePack ⟨0, 0, 1, 1⟩) = .ok ⟨0, 0, 1, 0⟩ := by decide +kernel
example : timeUnpack (timePack ⟨23, 59, 59, 500000⟩) = .ok ⟨23, 59, 59, 500000⟩ := by decide +kernel

/-- C87: so does a `time` with a zone of whole minutes. -/
theorem C87_timetz_partial (t : Time) (h : ValidTime t) (minutes : Int) (hm : -1440 < minutes ∧ minutes < 1440) :
    ∃ b t', timetzPack t (minutes * 60) = .ok b ∧ timetzUnpack b = .ok (t', minutes * 60) ∧ ValidTime t' ∧
      (micros t' = micros t ∨ micros t' = micros t - 1) ∧ (t.us = 0 → t' = t) := by
  obtain ⟨t', e, r1, r2, r3⟩ := C87_time_partial t h
  have hl : InS 4 (minutes * 60) := by rw [inS4_iff']; omega
  refine ⟨(timePack64f (timeTuple t), digits 4 (minutes * 60)), t', ?_, ?_, r1, r2, r3⟩
  · simp only [timetzPack, packS_digits hl, bind_ok, pure_ok]
  · unfold timeUnpack timePack at e
    simp only [timetzUnpack, unpackS_digits' hl, bind_ok]
    generalize timeUnpack64f (timePack64f (timeTuple t)) = w at e ⊢
    cases w with
    | error q => cases e
    | ok s =>
      simp only [bind_ok] at e ⊢
      rw [e]
      simp only [bind_ok, pure_ok, fixedOffset]
      congr 2
      omega

example : ((timetzPack ⟨0, 0, 1, 1⟩ (-300)) >>= timetzUnpack) = .ok (⟨0, 0, 1, 0⟩, -300) := by decide +kernel

/-! ## timestamps -/

theorem timestampOf_ok (s : Int × Int) (y : Int) (hy : ValidDt y) (h : s.1 * 1000000 + s.2 = y - pgEpoch) : timestampOf s = .ok y := by
  unfold ValidDt at hy
  unfold timestampOf
  have e := mkTimedelta_ok 0 s.1 s.2 (by simp only [pgEpoch, pgOrd, usDay] at h; omega)
  rw [e, bind_ok, addDt_ok _ _ (by simp only [Timedelta.total, usDay, usec]; omega)]
  simp only [Timedelta.total, usDay, usec]
  congr 1
  omega

theorem timestampOf_over (s : Int × Int) (h : ¬ ValidDt (s.1 * 1000000 + s.2 + pgEpoch))
    (hr : -90000000000000000 ≤ s.1 * 1000000 + s.2 ∧ s.1 * 1000000 + s.2 ≤ 900000000000000000) : timestampOf s = .error .overflowError := by
  unfold ValidDt at h
  unfold timestampOf
  have e := mkTimedelta_ok 0 s.1 s.2 (by omega)
  rw [e, bind_ok]
  unfold addDt
  dsimp only
  rw [if_pos (by simp only [Timedelta.total, usDay, usec, maxOrd]; omega)]

theorem tuple_range (x : Int) (h : ValidDt x) : -274877906944 < (timestampTuple x).1 ∧ (timestampTuple x).1 < 274877906944 := by
  unfold ValidDt at h
  have h1 := timestampTuple_total x
  have h2 := timestampTuple_us x
  simp only [mktime64, pgEpoch, pgOrd, usDay] at h1
  omega

/-- The moments within 2^33 seconds (272 years) of the epoch of PostgreSQL, 2000-01-01. -/
def Near2000 (x : Int) : Prop := -8589934591 * 1000000 ≤ x - pgEpoch ∧ x - pgEpoch < 8589934592 * 1000000

/-- What reading back the seconds of a datetime gives. -/
theorem timestamp_read (x : Int) (h : ValidDt x) :
    (Near2000 x → timestampOf (mktimetuple (mktime (timestampTuple x))) = .ok x ∨
      timestampOf (mktimetuple (mktime (timestampTuple x))) = .ok (x - 1)) ∧
    ((∃ y, timestampOf (mktimetuple (mktime (timestampTuple x))) = .ok y ∧ x - 16 ≤ y ∧ y ≤ x + 15) ∨
      (timestampOf (mktimetuple (mktime (timestampTuple x))) = .error .overflowError ∧ (x < 16 ∨ 3652059 * 86400000000 - 16 < x))) := by
  have hv := h
  unfold ValidDt at h
  have h1 := timestampTuple_total x
  have h2 := timestampTuple_us x
  have h3 := tuple_range x hv
  generalize timestampTuple x = s at *
  obtain ⟨s, us⟩ := s
  dsimp only [mktime64] at h1 h2 h3
  constructor
  · intro hn
    unfold Near2000 at hn
    rcases pair_round s us (by omega) h2 with e | ⟨e0, e⟩
    · left; rw [e]; exact timestampOf_ok _ _ hv h1
    · right; rw [e]
      refine timestampOf_ok _ _ ?_ ?_
      · unfold ValidDt
        simp only [pgEpoch, pgOrd, usDay] at h1 hn
        omega
      · dsimp only; omega
  · have hn := pair_near s us h3 h2
    dsimp only at hn
    generalize mktimetuple (mktime (s, us)) = r at *
    by_cases hc : ValidDt (r.1 * 1000000 + r.2 + pgEpoch)
    · left
      exact ⟨_, timestampOf_ok _ _ hc (by omega), by omega, by omega⟩
    · right
      simp only [pgEpoch, pgOrd, usDay] at h1 ⊢
      refine ⟨timestampOf_over _ hc (by omega), ?_⟩
      unfold ValidDt at hc
      simp only [pgEpoch, pgOrd, usDay] at hc
      omega

/-- C87: a `timestamp` of the years 1728 to 2271 comes back, or the microsecond before it; every other comes back at most 16
microseconds away, or, if it is that near the ends of what Python has, is refused with an OverflowError.  The two datetimes that
stand for the infinities come back. -/
theorem C87_timestamp_partial (x : Int) (h : ValidDt x) :
    ∃ w, timestampPack (.val x) = .ok w ∧
      (x = infinityDt → w = .posInf) ∧ (x = 0 → w = .negInf) ∧
      (x = infinityDt ∨ x = 0 → timestampUnpack w = .ok x) ∧
      (Near2000 x → timestampUnpack w = .ok x ∨ timestampUnpack w = .ok (x - 1)) ∧
      ((∃ y, timestampUnpack w = .ok y ∧ x - 16 ≤ y ∧ y ≤ x + 15) ∨
        (timestampUnpack w = .error .overflowError ∧ (x < 16 ∨ 3652059 * 86400000000 - 16 < x))) := by
  by_cases hi : x = infinityDt
  · refine ⟨.posInf, by unfold timestampPack; dsimp only; rw [if_pos hi], fun _ => rfl, ?_, ?_, ?_, ?_⟩
    · intro h0; subst h0; exact absurd hi (by decide)
    all_goals (try intro _); subst hi
    · rfl
    · exact .inl rfl
    · exact .inl ⟨_, rfl, by omega, by omega⟩
  · by_cases h0 : x = 0
    · refine ⟨.negInf, by unfold timestampPack; dsimp only; rw [if_neg hi, if_pos h0], fun hh => absurd hh hi, fun _ => rfl, ?_, ?_, ?_⟩
      all_goals (try intro _); subst h0
      · rfl
      · exact .inl rfl
      · exact .inl ⟨_, rfl, by omega, by omega⟩
    · refine ⟨timePack64f (timestampTuple x), by unfold timestampPack; dsimp only; rw [if_neg hi, if_neg h0], fun hh => absurd hh hi, fun hh => absurd hh h0,
        fun hh => absurd hh (by simp only [hi, h0, or_self, not_false_eq_true]), ?_⟩
      have e : timestampUnpack (timePack64f (timestampTuple x)) = timestampOf (mktimetuple (mktime (timestampTuple x))) := rfl
      rw [e]
      exact timestamp_read x h

/-- 2016-06-15 in microseconds, a moment in the near range. -/
example : ValidDt (pgEpoch + 519264000000001) ∧ Near2000 (pgEpoch + 519264000000001) := by unfold ValidDt Near2000; decide
example : (timestampPack (.val (pgEpoch + 519264000000003)) >>= timestampUnpack) = .ok (pgEpoch + 519264000000002) := by decide +kernel

/-- C87, findings: a microsecond is lost in the year 2000; in 2544 a timestamp comes back later than it was; the last microsecond but
one of 9999 is refused when it is read back; and a microsecond after the beginning of year 1 reads as the value that stands for `-infinity`. -/
theorem C87_timestamp_lost :
    (timestampPack (.val (pgEpoch + 1000001)) >>= timestampUnpack) = .ok (pgEpoch + 1000000) ∧
    (timestampPack (.val (pgEpoch + 17179869189000002)) >>= timestampUnpack) = .ok (pgEpoch + 17179869189000003) ∧
    (timestampPack (.val (infinityDt - 1)) >>= timestampUnpack) = .error .overflowError ∧
    (timestampPack (.val 1) >>= timestampUnpack) = .ok 0 := by
  refine ⟨?_, ?_, ?_, ?_⟩ <;> decide +kernel

/-- C87: the texts `infinity` and `-infinity` are sent as the infinities, which are read as the last and the first datetime;
other infinities of the server cannot be taken for a time or an interval, nor can a NaN. -/
theorem C87_infinities :
    timestampPack (.str "infinity") = .ok .posInf ∧ timestampPack (.str "-infinity") = .ok .negInf ∧
    timestampUnpack .posInf = .ok infinityDt ∧ timestampUnpack .negInf = .ok 0 ∧
    timestamptzPack (.str "infinity") = .ok .posInf ∧ timestamptzPack (.str "-infinity") = .ok .negInf ∧
    timestamptzUnpack .posInf = .ok (.naive infinityDt) ∧ timestamptzUnpack .negInf = .ok (.naive 0) ∧
    timeUnpack .posInf = .error .overflowError ∧ timeUnpack .negInf = .error .overflowError ∧ timeUnpack .nan = .error .valueError ∧
    timestampUnpack .nan = .error .valueError := by
  refine ⟨?_, ?_, ?_, ?_, ?_, ?_, ?_, ?_, ?_, ?_, ?_, ?_⟩ <;> decide +kernel

/-- C87: a `timestamptz` is the same moment in UTC, or the microsecond before it, if it is of the years 1728 to 2271; otherwise at most
16 microseconds away, or refused at the ends.  One that is no datetime in UTC is refused when it is sent. -/
theorem C87_timestamptz_partial (local_ offset : Int) :
    (¬ ValidDt (local_ - offset * 1000000) → timestamptzPack (.val (local_, offset)) = .error .overflowError) ∧
    (ValidDt (local_ - offset * 1000000) → ∃ w, timestamptzPack (.val (local_, offset)) = .ok w ∧
      (Near2000 (local_ - offset * 1000000) → timestamptzUnpack w = .ok (.aware (local_ - offset * 1000000) 0) ∨
        timestamptzUnpack w = .ok (.aware (local_ - offset * 1000000 - 1) 0)) ∧
      ((∃ y, timestamptzUnpack w = .ok (.aware y 0) ∧ local_ - offset * 1000000 - 16 ≤ y ∧ y ≤ local_ - offset * 1000000 + 15) ∨
        (timestamptzUnpack w = .error .overflowError ∧
          (local_ - offset * 1000000 < 16 ∨ 3652059 * 86400000000 - 16 < local_ - offset * 1000000)))) := by
  constructor
  · intro h
    simp only [timestamptzPack, timestamptzTuple_error _ _ h]; rfl
  · intro h
    refine ⟨timePack64f (timestampTuple (local_ - offset * 1000000)), ?_, ?_⟩
    · simp only [timestamptzPack, timestamptzTuple_ok _ _ h, bind_ok, pure_ok]
    · have r := timestamp_read _ h
      generalize local_ - offset * 1000000 = x at *
      have e : timestamptzUnpack (timePack64f (timestampTuple x)) =
          (timestampOf (mktimetuple (mktime (timestampTuple x))) >>= fun x => .ok (.aware x 0)) := rfl
      rw [e]
      generalize timestampOf (mktimetuple (mktime (timestampTuple x))) = q at *
      cases q with
      | error z =>
        refine ⟨fun hn => ?_, .inr ?_⟩
        · rcases r.1 hn with h | h <;> cases h
        · rcases r.2 with ⟨y, h, _⟩ | ⟨h, h'⟩
          · cases h
          · cases h; exact ⟨rfl, h'⟩
      | ok z =>
        refine ⟨fun hn => ?_, .inl ?_⟩
        · rcases r.1 hn with h | h
          · left; cases h; rfl
          · right; cases h; rfl
        · rcases r.2 with ⟨y, h, h'⟩ | ⟨h, h'⟩
          · cases h; exact ⟨_, rfl, h'⟩
          · cases h

example : (timestamptzPack (.val (pgEpoch + 3601000001, 3600)) >>= timestamptzUnpack) = .ok (.aware (pgEpoch + 1000000) 0) := by decide +kernel

/-! ## intervals -/

theorem delta_of (total : Int) (h : -999999999 * 86400000000 ≤ total ∧ total < 1000000000 * 86400000000) (days s us : Int)
    (e : days * 86400000000 + s * 1000000 + us = total) : ∃ d, intervalOf 0 days (s, us) = .ok d ∧ ValidDelta d ∧ d.total = total := by
  unfold intervalOf
  dsimp only
  rw [mkTimedelta_ok _ _ _ (by omega)]
  refine ⟨_, rfl, ⟨?_, ?_, ?_⟩, ?_⟩
  · dsimp only; omega
  · dsimp only; omega
  · dsimp only; omega
  · simp only [Timedelta.total, usDay, usec]; omega

/-- C87: a `timedelta` comes back from `interval`, or the one a microsecond shorter, its days intact. -/
theorem C87_interval_partial (d : Timedelta) (h : ValidDelta d) :
    ∃ b d', intervalPack d = .ok b ∧ intervalUnpack b = .ok d' ∧ ValidDelta d' ∧ d'.days = d.days ∧
      (d'.total = d.total ∨ d'.total = d.total - 1) ∧ (d.us = 0 → d' = d) := by
  have hv := h
  obtain ⟨h1, h2, h3⟩ := h
  have hl : InS 4 d.days := by rw [inS4_iff']; omega
  have h0 : InS 4 0 := by rw [inS4_iff']; omega
  have hp : intervalPack d = .ok (timePack64f (d.seconds, d.us), digits 4 d.days, digits 4 0) := by
    simp only [intervalPack, packS_digits hl, packS_digits h0, bind_ok, pure_ok]
  have hu : intervalUnpack (timePack64f (d.seconds, d.us), digits 4 d.days, digits 4 0) =
      intervalOf 0 d.days (mktimetuple (mktime (d.seconds, d.us))) := by
    simp only [intervalUnpack, unpackS_digits' hl, unpackS_digits' h0, bind_ok]; rfl
  rcases pair_round d.seconds d.us (by omega) h3 with e | ⟨e0, e⟩
  · refine ⟨_, d, hp, ?_, hv, rfl, .inl rfl, fun _ => rfl⟩
    rw [hu, e]; exact intervalOf_spec d hv _ _ rfl
  · refine ⟨_, { d with us := d.us - 1 }, hp, ?_, ?_, rfl, .inr ?_, fun hh => absurd hh (by omega)⟩
    · rw [hu, e]
      exact intervalOf_spec { d with us := d.us - 1 } ⟨h1, h2, by dsimp only; omega⟩ _ _ rfl
    · exact ⟨h1, h2, by dsimp only; omega⟩
    · simp only [Timedelta.total]; omega

/-- C87, a finding: not every `timedelta` comes back. -/
theorem C87_interval_lost : (intervalPack ⟨3, 1, 1⟩ >>= intervalUnpack) = .ok ⟨3, 1, 0⟩ := by decide +kernel

/-- C87: with the format without days (8.0 and before), a `timedelta` of less than 99420 days comes back, or the one a microsecond shorter. -/
theorem C87_interval_noday_partial (d : Timedelta) (h : ValidDelta d) (hd : -99420 < d.days ∧ d.days < 99420) :
    ∃ b d', intervalNodayPack d = .ok b ∧ intervalNodayUnpack b = .ok d' ∧ ValidDelta d' ∧
      (d'.total = d.total ∨ d'.total = d.total - 1) ∧ (d.us = 0 → d'.total = d.total) := by
  obtain ⟨h1, h2, h3⟩ := h
  have h0 : InS 4 0 := by rw [inS4_iff']; omega
  have hp : intervalNodayPack d = .ok (timePack64f (d.days * 86400 + d.seconds, d.us), digits 4 0) := by
    simp only [intervalNodayPack, packS_digits h0, bind_ok, pure_ok]
    have : (if d.days ≠ 0 then d.seconds + d.days * 24 * 60 * 60 else d.seconds) = d.days * 86400 + d.seconds := by split <;> omega
    rw [this]
  have hu : intervalNodayUnpack (timePack64f (d.days * 86400 + d.seconds, d.us), digits 4 0) =
      intervalOf 0 0 (mktimetuple (mktime (d.days * 86400 + d.seconds, d.us))) := by
    simp only [intervalNodayUnpack, unpackS_digits' h0, bind_ok]; rfl
  have ht : d.total = (d.days * 86400 + d.seconds) * 1000000 + d.us := by simp only [Timedelta.total, usDay, usec]; omega
  rcases pair_round (d.days * 86400 + d.seconds) d.us (by omega) h3 with e | ⟨e0, e⟩
  · obtain ⟨d', e1, e2, e3⟩ := delta_of d.total (by omega) 0 (d.days * 86400 + d.seconds) d.us (by omega)
    exact ⟨_, d', hp, by rw [hu, e]; exact e1, e2, .inl e3, fun _ => e3⟩
  · obtain ⟨d', e1, e2, e3⟩ := delta_of (d.total - 1) (by omega) 0 (d.days * 86400 + d.seconds) (d.us - 1) (by omega)
    exact ⟨_, d', hp, by rw [hu, e]; exact e1, e2, .inr e3, fun hh => absurd hh (by omega)⟩

example : (intervalNodayPack ⟨-3, 86399, 500000⟩ >>= intervalNodayUnpack) = .ok ⟨-3, 86399, 500000⟩ := by decide +kernel

/-- C87: an interval with months from the server, with or without days, is taken as 30 days per month. -/
theorem C87_interval_months (months days : Int) (hm : InS 4 months) (hd : InS 4 days) (t : Rat) :
    intervalUnpack (.num t, digits 4 days, digits 4 months) = mkTimedelta (days + 30 * months) (mktimetuple t).1 (mktimetuple t).2 ∧
    intervalNodayUnpack (.num t, digits 4 months) = mkTimedelta (30 * months) (mktimetuple t).1 (mktimetuple t).2 := by
  constructor
  · simp only [intervalUnpack, unpackS_digits' hd, unpackS_digits' hm, bind_ok]
    show intervalOf months days (mktimetuple t) = _
    unfold intervalOf
    rw [Int.mul_comm months 30]
  · simp only [intervalNodayUnpack, unpackS_digits' hm, bind_ok]
    show intervalOf months 0 (mktimetuple t) = _
    unfold intervalOf
    rw [Int.mul_comm months 30, Int.zero_add]

example : intervalNodayUnpack (.num 5, digits 4 2) = .ok ⟨60, 5, 0⟩ ∧ intervalUnpack (.num 5, digits 4 1, digits 4 2) = .ok ⟨61, 5, 0⟩ := by decide +kernel

/-! ## the choice of the format -/

/-- C87: the format of times is the integer one if the server says `integer_datetimes` is on (`on`, `true` or `t`, in any case), the float
one if it says otherwise; if it says nothing, the integer one from 9.0.  An interval goes without its days just for 8.0 and before. -/
theorem C87_format (setting : Setting) (major minor : Nat) (rest : List Nat) :
    let version := major :: minor :: rest
    let integers := match setting with
      | .absent => 9 ≤ major
      | .bool b => b = true
      | .text s => s.toLower = "on" ∨ s.toLower = "true" ∨ s.toLower = "t"
    let noDays := major < 8 ∨ (major = 8 ∧ minor = 0)
    (integers → selectFormat setting version = .int64) ∧ (¬ integers → selectFormat setting version = .float64) ∧
    (integers → noDays → selectDayFormat setting version = .int64NoDay) ∧ (integers → ¬ noDays → selectDayFormat setting version = .int64) ∧
    (¬ integers → noDays → selectDayFormat setting version = .float64NoDay) ∧
    (¬ integers → ¬ noDays → selectDayFormat setting version = .float64) := by
  intro version integers noDays
  have hi : timeType setting version = true ↔ integers := by
    cases setting with
    | absent =>
      show (decide (9 < major) || (decide (major = 9) && decide (0 ≤ minor))) = true ↔ 9 ≤ major
      simp only [Bool.or_eq_true, Bool.and_eq_true, decide_eq_true_eq]; omega
    | bool b => exact Iff.rfl
    | text s =>
      show decide (s.toLower ∈ ["on", "true", "t"]) = true ↔ s.toLower = "on" ∨ s.toLower = "true" ∨ s.toLower = "t"
      generalize s.toLower = l
      simp only [decide_eq_true_eq, List.mem_cons, List.not_mem_nil, or_false]
  have hd : leTwo version 8 0 = true ↔ noDays := by
    show (decide (major < 8) || (decide (major = 8) && decide (minor ≤ 0))) = true ↔ (major < 8 ∨ (major = 8 ∧ minor = 0))
    simp only [Bool.or_eq_true, Bool.and_eq_true, decide_eq_true_eq]; omega
  unfold selectFormat selectDayFormat
  refine ⟨fun a => ?_, fun a => ?_, fun a b => ?_, fun a b => ?_, fun a b => ?_, fun a b => ?_⟩
  · rw [if_pos (hi.mpr a)]
  · rw [if_neg (fun q => a (hi.mp q))]
  · rw [if_pos (hi.mpr a), if_pos (hd.mpr b)]
  · rw [if_pos (hi.mpr a), if_neg (fun q => b (hd.mp q))]
  · rw [if_neg (fun q => a (hi.mp q)), if_pos (hd.mpr b)]
  · rw [if_neg (fun q => a (hi.mp q)), if_neg (fun q => b (hd.mp q))]

example : selectDayFormat .absent [8, 4, 3] = .float64 ∧ selectDayFormat (.text "ON") [8, 4, 3] = .int64 ∧
    selectDayFormat (.text "off") [8, 0, 1] = .float64NoDay ∧ selectFormat .absent [13, 2] = .int64 := by decide +kernel

end PG.FloatTime
