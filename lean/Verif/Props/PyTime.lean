import Verif.Model.PyTime
import Verif.Lemmas.FRound
import Verif.Lemmas.Fixed
import Verif.Props.Py

/-!
Property C58: the instants of a coordinate of time made in Python. `cal n` is the day on which month
`n` begins.
-/
namespace Verif

/-- A unit in seconds, for units of fixed length. -/
def Spec.unitSeconds : TimeUnit → Option Rat
  | .week => some 604800
  | .day => some 86400
  | .hour => some 3600
  | .minute => some 60
  | .second => some 1
  | .milli => some (1 / 10 ^ 3)
  | .micro => some (1 / 10 ^ 6)
  | .nano => some (1 / 10 ^ 9)
  | .pico => some (1 / 10 ^ 12)
  | .femto => some (1 / 10 ^ 15)
  | .atto => some (1 / 10 ^ 18)
  | _ => none

/-- The instant meant by a `datetime64`, in seconds since 1970. -/
def Spec.instant (cal : Int → Int) (d : Datetime64) : Option Rat :=
  if d.unit = .year then some (cal (12 * d.count) * 86400)
  else if d.unit = .month then some (cal d.count * 86400)
  else (Spec.unitSeconds d.unit).map fun u => d.count * u

/-- The instant meant by an argument for a start: integers are seconds. -/
def Spec.start (cal : Int → Int) : StartArg → Option Rat
  | .int n => some n
  | .datetime d => Spec.instant cal d

/-- The duration meant by an argument for a step; that of a month depends on the month. -/
def Spec.step : StepArg → Option Rat
  | .int n => some n
  | .timedelta d => (Spec.unitSeconds d.unit).map fun u => d.count * u

/-- Finer than microseconds. -/
def TimeUnit.Finer (u : TimeUnit) : Prop := u = .nano ∨ u = .pico ∨ u = .femto ∨ u = .atto

/-- Not NaT, not in units finer than microseconds, and less than 999999999 days (2.7 million years)
from 1970. -/
def StartArg.Plain (cal : Int → Int) : StartArg → Prop
  | .int n => Fits 64 n
  | .datetime d => Fits 64 d.count ∧ d.count ≠ natCount ∧ ¬ d.unit.Finer ∧
      ∃ q, Spec.instant cal d = some q ∧ |q| ≤ 999999999 * 86400

/-- The same for steps; moreover not in years, months or no unit. -/
def StepArg.Plain : StepArg → Prop
  | .int n => Fits 64 n
  | .timedelta d => Fits 64 d.count ∧ d.count ≠ natCount ∧ ¬ d.unit.Finer ∧
      ∃ u, Spec.unitSeconds d.unit = some u ∧ |d.count * u| ≤ 999999999 * 86400

/-- Rounding a number of microseconds to a float does not change its whole seconds, if there are
none but whole seconds or the number of seconds is at most 2^33 (about the year 2242). -/
theorem trunc_fround (m : Int) (h : (∃ z : Int, (m : Rat) / 1000000 = z ∧ |(z : Rat)| ≤ 999999999 * 86400) ∨
    |(m : Rat) / 1000000| ≤ 2 ^ 33) :
    ratTrunc (fround 53 (m / 1000000)) = ratTrunc ((m : Rat) / 1000000) := by
  rcases h with ⟨z, e, hz⟩ | h
  · rw [e, fround_exact]
    refine ⟨z, 0, ?_, by simp⟩
    have : |z| ≤ 999999999 * 86400 := by exact_mod_cast hz
    rw [abs_le] at this
    omega
  · generalize hq : (m : Rat) / 1000000 = q at h
    have hn := fround_near 53 q
    have hn : |fround 53 q - q| < 1 / 1000000 := by
      refine lt_of_le_of_lt hn ?_
      rw [div_lt_iff₀ (by norm_num)]
      refine lt_of_le_of_lt h (by norm_num)
    rw [abs_lt] at hn
    have hm : (m : Rat) = q * 1000000 := by rw [← hq]; field_simp
    -- the whole seconds
    have up : ∀ z : Int, q < z → q + 1 / 1000000 ≤ z := by
      intro z hz
      have : m < z * 1000000 := by
        have : (m : Rat) < ((z * 1000000 : Int) : Rat) := by rw [hm]; push_cast; linarith
        exact_mod_cast this
      have : ((m + 1 : Int) : Rat) ≤ ((z * 1000000 : Int) : Rat) := by exact_mod_cast this
      push_cast at this
      rw [hm] at this
      linarith
    have down : ∀ z : Int, (z : Rat) < q → (z : Rat) + 1 / 1000000 ≤ q := by
      intro z hz
      have : z * 1000000 < m := by
        have : ((z * 1000000 : Int) : Rat) < (m : Rat) := by rw [hm]; push_cast; linarith
        exact_mod_cast this
      have : ((z * 1000000 + 1 : Int) : Rat) ≤ (m : Rat) := by exact_mod_cast this
      push_cast at this
      rw [hm] at this
      linarith
    by_cases hint : ∃ z : Int, q = z
    · obtain ⟨z, e⟩ := hint
      rw [e, fround_exact]
      refine ⟨z, 0, ?_, by simp⟩
      rw [e] at h
      have : |z| ≤ 2 ^ 33 := by exact_mod_cast h
      rw [abs_le] at this
      omega
    · have hne : ∀ z : Int, q ≠ z := fun z e => hint ⟨z, e⟩
      unfold ratTrunc
      by_cases h0 : 0 ≤ q
      · have hpos : 0 < q := lt_of_le_of_ne h0 (by have := hne 0; push_cast at this; exact Ne.symm this)
        have d0 := down 0 (by push_cast; exact hpos)
        push_cast at d0
        rw [if_pos h0, if_pos (by linarith), Int.floor_eq_iff]
        have d1 := down ⌊q⌋ (lt_of_le_of_ne (Int.floor_le q) (Ne.symm (hne _)))
        have u1 := up (⌊q⌋ + 1) (by push_cast; exact Int.lt_floor_add_one q)
        push_cast at u1
        constructor <;> linarith
      · have hneg : q < 0 := not_le.1 h0
        have u0 := up 0 (by push_cast; exact hneg)
        push_cast at u0
        rw [if_neg h0, if_neg (by linarith), Int.ceil_eq_iff]
        have u1 := up ⌈q⌉ (lt_of_le_of_ne (Int.le_ceil q) (hne _))
        have d1 := down (⌈q⌉ - 1) (by push_cast; linarith [Int.ceil_lt_add_one q])
        push_cast at d1
        constructor <;> linarith

theorem micros_eq {u : TimeUnit} (hu : ¬ u.Finer) {x : Rat} (h : Spec.unitSeconds u = some x) :
    ∃ f : Nat, u.micros = some f ∧ (f : Rat) = x * 1000000 ∧ 0 < f := by
  cases u <;> simp_all [Spec.unitSeconds, TimeUnit.micros, TimeUnit.Finer] <;> subst h <;> norm_num

/-- Durations of at most 999999999 days, in units that Python can express, are a `timedelta`. -/
theorem item_timedelta {d : Timedelta64} (hd : d.count ≠ natCount) (hu : ¬ d.unit.Finer) {u : Rat}
    (h : Spec.unitSeconds d.unit = some u) (hb : |(d.count : Rat) * u| ≤ 999999999 * 86400) :
    ∃ m : Int, d.item = .timedelta m ∧ (m : Rat) / 1000000 = d.count * u := by
  obtain ⟨f, e, hf, h0⟩ := micros_eq hu h
  refine ⟨d.count * f, ?_, by push_cast; rw [hf]; field_simp⟩
  have hm : |((d.count * f : Int) : Rat)| ≤ ((999999999 * 86400000000 : Int) : Rat) := by
    push_cast
    rw [hf, ← mul_assoc, abs_mul]
    norm_num
    norm_num at hb
    linarith
  have hm : |d.count * (f : Int)| ≤ 999999999 * 86400000000 := by exact_mod_cast hm
  unfold Timedelta64.item
  rw [if_neg hd, e]
  simp only
  rw [if_pos]
  rw [abs_le] at hm
  generalize d.count * (f : Int) = x at hm
  omega

/-- The seconds of a step: the fraction is dropped. -/
theorem step_seconds {a : StepArg} (h : a.Plain) :
    ∃ q, Spec.step a = some q ∧ ((∃ z : Int, q = z) ∨ |q| ≤ 2 ^ 33 → a.seconds = .ok (ratTrunc q)) := by
  cases a with
  | int n => exact ⟨n, rfl, fun _ => by rw [ratTrunc_int]; rfl⟩
  | timedelta d =>
    obtain ⟨-, h1, h2, u, h3, h4⟩ := h
    refine ⟨d.count * u, by simp [Spec.step, h3], fun hq => ?_⟩
    obtain ⟨m, e, hm⟩ := item_timedelta h1 h2 h3 h4
    have : ratTrunc (fround 53 ((m : Rat) / 1000000)) = ratTrunc (d.count * u) := by
      rw [trunc_fround, hm]
      rw [hm]
      rcases hq with ⟨z, hz⟩ | hq
      · exact .inl ⟨z, hz, by rw [← hz]; exact h4⟩
      · exact .inr hq
    simp [StepArg.seconds, e, TimeItem.totalSeconds, this, bind, Except.bind, pure, Except.pure]

theorem sinceEpoch_second {cal : Int → Int} {d : Datetime64} (hd : d.count ≠ natCount) {z : Int}
    (e : d.toSeconds cal = ⟨z, .second⟩) (hb : |(z : Rat)| ≤ 999999999 * 86400) :
    d.sinceEpoch cal = .ok ⟨z, .second⟩ ∧ z ≠ natCount := by
  have hz : |z| ≤ 999999999 * 86400 := by exact_mod_cast hb
  rw [abs_le] at hz
  have hf : Fits 64 z := by unfold Fits; omega
  refine ⟨?_, by unfold natCount; omega⟩
  unfold Datetime64.sinceEpoch
  rw [if_neg hd]
  simp only [e]
  rw [if_pos hf]

/-- The difference to 1970 is `q` seconds, in a unit that Python can express. -/
def SinceOk (cal : Int → Int) (d : Datetime64) (q : Rat) : Prop :=
  ∃ (t : Timedelta64) (u : Rat), d.sinceEpoch cal = .ok t ∧ t.count ≠ natCount ∧ ¬ t.unit.Finer ∧
    Spec.unitSeconds t.unit = some u ∧ (t.count : Rat) * u = q

/-- The difference to 1970 is the instant meant, in a unit that Python can express. -/
theorem sinceEpoch_eq {cal : Int → Int} {d : Datetime64} (h0 : Fits 64 d.count) (hd : d.count ≠ natCount)
    (hu : ¬ d.unit.Finer) {q : Rat} (h : Spec.instant cal d = some q) (hb : |q| ≤ 999999999 * 86400) :
    SinceOk cal d q := by
  have second : ∀ z : Int, d.toSeconds cal = ⟨z, .second⟩ → (z : Rat) = q → SinceOk cal d q := by
    intro z e hz
    obtain ⟨a, b⟩ := sinceEpoch_second hd e (by rw [hz]; exact hb)
    exact ⟨⟨z, .second⟩, 1, a, b, by simp [TimeUnit.Finer], rfl, by rw [mul_one]; exact hz⟩
  have same : ∀ u, d.toSeconds cal = ⟨d.count, d.unit⟩ → Spec.unitSeconds d.unit = some u →
      (d.count : Rat) * u = q → SinceOk cal d q := by
    intro u e h1 h2
    have : d.sinceEpoch cal = .ok ⟨d.count, d.unit⟩ := by
      unfold Datetime64.sinceEpoch
      rw [if_neg hd]
      simp only [e]
      rw [if_pos h0]
    exact ⟨⟨d.count, d.unit⟩, u, this, hd, hu, h1, h2⟩
  obtain ⟨n, unit⟩ := d
  cases unit <;> simp [Spec.instant, Spec.unitSeconds] at h <;>
    first
    | exact second _ rfl (by rw [← h]; push_cast; ring)
    | exact same _ rfl rfl (by rw [← h]; push_cast; ring)
    | exact absurd (by simp [TimeUnit.Finer]) hu

/-- The seconds of a start: the fraction is dropped. -/
theorem start_seconds {cal : Int → Int} {a : StartArg} (h : a.Plain cal) :
    ∃ q, Spec.start cal a = some q ∧
      ((∃ z : Int, q = z) ∨ |q| ≤ 2 ^ 33 → a.seconds cal = .ok (ratTrunc q)) := by
  cases a with
  | int n => exact ⟨n, rfl, fun _ => by rw [ratTrunc_int]; rfl⟩
  | datetime d =>
    obtain ⟨h0, h1, h2, q, h3, h4⟩ := h
    refine ⟨q, h3, fun hq => ?_⟩
    obtain ⟨t, u, a1, a2, a3, a4, a5⟩ := sinceEpoch_eq h0 h1 h2 h3 h4
    obtain ⟨m, e, hm⟩ := item_timedelta a2 a3 a4 (by rw [a5]; exact h4)
    rw [a5] at hm
    have : ratTrunc (fround 53 ((m : Rat) / 1000000)) = ratTrunc q := by
      rw [trunc_fround, hm]
      rw [hm]
      rcases hq with ⟨z, hz⟩ | hq
      · exact .inl ⟨z, hz, by rw [← hz]; exact h4⟩
      · exact .inr hq
    simp [StartArg.seconds, a1, e, TimeItem.totalSeconds, this, bind, Except.bind, pure, Except.pure]

theorem StartArg.Plain.fits {cal : Int → Int} {a : StartArg} (h : a.Plain cal) {q : Rat}
    (hq : Spec.start cal a = some q) : Fits 64 (ratTrunc q) := by
  cases a with
  | int n => cases hq; rw [ratTrunc_int]; exact h
  | datetime d =>
    obtain ⟨-, -, -, q', h3, h4⟩ := h
    rw [show q = q' from by rw [show Spec.start cal (.datetime d) = Spec.instant cal d from rfl, h3] at hq; cases hq; rfl]
    have := (ratTrunc_abs_le q').trans h4
    have : |ratTrunc q'| ≤ 999999999 * 86400 := by exact_mod_cast this
    rw [abs_le] at this
    unfold Fits
    omega

theorem StepArg.Plain.fits {a : StepArg} (h : a.Plain) {q : Rat}
    (hq : Spec.step a = some q) : Fits 64 (ratTrunc q) := by
  cases a with
  | int n => cases hq; rw [ratTrunc_int]; exact h
  | timedelta d =>
    obtain ⟨-, -, -, u, h3, h4⟩ := h
    simp only [Spec.step, h3, Option.map_some, Option.some.injEq] at hq
    rw [hq] at h4
    have := (ratTrunc_abs_le q).trans h4
    have : |ratTrunc q| ≤ 999999999 * 86400 := by exact_mod_cast this
    rw [abs_le] at this
    unfold Fits
    omega

/-- C58, what is made of the arguments: the whole seconds of the start and of the step. -/
theorem C58_seconds (cal : Int → Int) (start : StartArg) (step : StepArg) (hs : start.Plain cal)
    (ht : step.Plain) {q r : Rat} (hq : Spec.start cal start = some q) (hr : Spec.step step = some r)
    (hq' : (∃ z : Int, q = z) ∨ |q| ≤ 2 ^ 33) (hr' : (∃ z : Int, r = z) ∨ |r| ≤ 2 ^ 33) :
    pyTime cal start step = .ok ⟨ratTrunc q, ratTrunc r⟩ := by
  obtain ⟨q1, e1, h1⟩ := start_seconds hs
  obtain ⟨r1, e2, h2⟩ := step_seconds ht
  obtain rfl : q = q1 := by rw [hq] at e1; cases e1; rfl
  obtain rfl : r = r1 := by rw [hr] at e2; cases e2; rfl
  simp [pyTime, h1 hq', h2 hr', toI64, hs.fits hq, ht.fits hr, bind, Except.bind, pure, Except.pure]

/-- C58: an integer that is no `i64` is never taken for another start or step: every axis that is made has
numbers that fit, and integers are taken as they are. -/
theorem C58_fits (cal : Int → Int) (start : StartArg) (step : StepArg) (x : TimeRange)
    (h : pyTime cal start step = .ok x) :
    Fits 64 x.start ∧ Fits 64 x.step ∧ (∀ n, start = .int n → x.start = n) ∧ ∀ n, step = .int n → x.step = n := by
  unfold pyTime at h
  cases h1 : start.seconds cal with
  | error e => simp [h1, bind, Except.bind] at h
  | ok a =>
    cases h2 : step.seconds with
    | error e => simp [h1, h2, bind, Except.bind] at h
    | ok b =>
      simp only [h1, h2, toI64, bind, Except.bind, pure, Except.pure] at h
      by_cases ha : Fits 64 a
      · by_cases hb : Fits 64 b
        · simp only [if_pos ha, if_pos hb, Except.ok.injEq] at h
          subst h
          refine ⟨ha, hb, fun n hn => ?_, fun n hn => ?_⟩
          · subst hn; cases h1; rfl
          · subst hn; cases h2; rfl
        · simp [if_pos ha, if_neg hb] at h
      · simp [if_neg ha] at h

theorem datetimeGet_eq {get : Nat → Option Int} {i : Nat} {x : Int} (h : get i = some x) :
    datetimeGet get i = .ok ⟨x, .second⟩ := by
  have e : toUsize (i : Int) = some i := by simp [toUsize]
  simp only [datetimeGet, e, h]

/-- The instant that indexing gives, in seconds since 1970. -/
theorem pyGet_eq (checked : Bool) (x : TimeRange) (i : Nat) (h1 : Fits 64 i) (h2 : Fits 64 (i * x.step))
    (h3 : Fits 64 (x.start + i * x.step)) : x.pyGet checked i = .ok ⟨x.start + i * x.step, .second⟩ := by
  unfold TimeRange.pyGet
  exact datetimeGet_eq (C42_time checked x i h1 h2 h3)

/-- C58, for starts and steps of whole seconds: instant `i` of the axis is the start plus `i` steps.
Missing for the full claim: fractions of seconds (`C58_fraction_wrong`), and units for which there is no
axis at all (`C58_rejected`). -/
theorem C58_instants_partial (checked : Bool) (cal : Int → Int) (start : StartArg) (step : StepArg)
    (hs : start.Plain cal) (ht : step.Plain) (q r : Int) (hq : Spec.start cal start = some (q : Rat))
    (hr : Spec.step step = some (r : Rat)) :
    ∃ x, pyTime cal start step = .ok x ∧ ∀ i : Nat, Fits 64 i → Fits 64 (i * r) → Fits 64 (q + i * r) →
      ∃ d, x.pyGet checked i = .ok d ∧ Spec.instant cal d = some (q + i * r) := by
  refine ⟨_, C58_seconds cal start step hs ht hq hr (.inl ⟨q, rfl⟩) (.inl ⟨r, rfl⟩), fun i h1 h2 h3 => ?_⟩
  rw [ratTrunc_int, ratTrunc_int]
  refine ⟨_, pyGet_eq checked ⟨q, r⟩ i h1 h2 h3, ?_⟩
  simp [Spec.instant, Spec.unitSeconds]

/-- C58 is false for every step with a fraction of a second: from the second instant on, all instants of
the axis are wrong, by more and more. -/
theorem C58_fraction_wrong (checked : Bool) (cal : Int → Int) (start : StartArg) (step : StepArg)
    (hs : start.Plain cal) (ht : step.Plain) (q : Int) (r : Rat) (hq : Spec.start cal start = some (q : Rat))
    (hr : Spec.step step = some r) (hr' : |r| ≤ 2 ^ 33) (hfr : ∀ z : Int, r ≠ z) :
    ∃ x, pyTime cal start step = .ok x ∧ ∃ δ : Rat, 0 < δ ∧ ∀ i : Nat, 1 ≤ i → Fits 64 i →
      Fits 64 (i * ratTrunc r) → Fits 64 (q + i * ratTrunc r) →
      ∃ d y, x.pyGet checked i = .ok d ∧ Spec.instant cal d = some y ∧ |y - (q + i * r)| = i * δ := by
  refine ⟨_, C58_seconds cal start step hs ht hq hr (.inl ⟨q, rfl⟩) (.inr hr'), |ratTrunc r - r|, ?_,
    fun i _ h1 h2 h3 => ?_⟩
  · exact abs_pos.2 (sub_ne_zero.2 (Ne.symm (hfr _)))
  · rw [ratTrunc_int]
    refine ⟨_, _, pyGet_eq checked ⟨q, ratTrunc r⟩ i h1 h2 h3, rfl, ?_⟩
    have : ((q + i * ratTrunc r : Int) : Rat) * 1 - (q + i * r) = i * (ratTrunc r - r) := by push_cast; ring
    rw [this, abs_mul]
    simp

/-- C58: steps of less than a second give an axis on which all instants are the same. -/
theorem C58_short_step_wrong (checked : Bool) (cal : Int → Int) (start : StartArg) (step : StepArg)
    (hs : start.Plain cal) (ht : step.Plain) (q : Int) (r : Rat) (hq : Spec.start cal start = some (q : Rat))
    (hr : Spec.step step = some r) (hr' : |r| < 1) :
    ∃ x, pyTime cal start step = .ok x ∧ ∀ i : Nat, Fits 64 i → x.pyGet checked i = .ok ⟨q, .second⟩ := by
  have h0 : ratTrunc r = 0 := by
    have h1 := ratTrunc_abs_le r
    have : |ratTrunc r| < 1 := by exact_mod_cast lt_of_le_of_lt h1 hr'
    exact Int.abs_lt_one_iff.1 this
  have hfit := hs.fits hq
  rw [ratTrunc_int] at hfit
  refine ⟨_, C58_seconds cal start step hs ht hq hr (.inl ⟨q, rfl⟩) (.inr (hr'.le.trans (by norm_num))),
    fun i h1 => ?_⟩
  rw [ratTrunc_int, h0]
  have := pyGet_eq checked ⟨q, 0⟩ i h1 (by simp [Fits]) (by simpa using hfit)
  simpa using this

/-- C58: starts before 1970 with a fraction of a second are rounded up, later ones down. -/
theorem C58_start_wrong (cal : Int → Int) (start : StartArg) (step : StepArg)
    (hs : start.Plain cal) (ht : step.Plain) (q : Rat) (r : Int) (hq : Spec.start cal start = some q)
    (hr : Spec.step step = some (r : Rat)) (hq' : |q| ≤ 2 ^ 33) (hfr : ∀ z : Int, q ≠ z) :
    ∃ x, pyTime cal start step = .ok x ∧ x.step = r ∧ (x.start : Rat) ≠ q ∧
      |(x.start : Rat) - q| < 1 ∧ (0 < q → (x.start : Rat) < q) ∧ (q < 0 → q < x.start) := by
  refine ⟨_, C58_seconds cal start step hs ht hq hr (.inr hq') (.inl ⟨r, rfl⟩), ratTrunc_int r,
    Ne.symm (hfr _), ratTrunc_near q, fun h => ?_, fun h => ?_⟩
  · refine lt_of_le_of_ne ?_ (Ne.symm (hfr _))
    simp only [ratTrunc, if_pos h.le]
    exact Int.floor_le q
  · refine lt_of_le_of_ne ?_ (hfr _)
    simp only [ratTrunc, if_neg (not_le.2 h)]
    exact Int.le_ceil q

theorem item_finer {d : Timedelta64} (h : d.unit.micros = none) : ∃ f, d.item.totalSeconds = .error f := by
  unfold Timedelta64.item
  split
  · exact ⟨_, rfl⟩
  · rw [h]; exact ⟨_, rfl⟩

/-- C58 is false for starts in units finer than microseconds, such as the nanoseconds of `xarray` and
`pandas`, and for steps in such units, in years, in months or without unit: no axis is made. The same
goes for NaT. -/
theorem C58_rejected (cal : Int → Int) (start : StartArg) (step : StepArg) :
    ((∃ d, start = .datetime d ∧ (d.unit.Finer ∨ d.count = -9223372036854775808)) ∨
      (∃ d, step = .timedelta d ∧ (d.unit.Finer ∨ d.unit = .year ∨ d.unit = .month ∨ d.unit = .generic ∨
        d.count = -9223372036854775808))) →
    ∃ f, pyTime cal start step = .error f := by
  rw [show (-9223372036854775808 : Int) = natCount by decide]
  have nat : ∀ u, (Timedelta64.item ⟨natCount, u⟩).totalSeconds = .error (.err (.py .attribute)) := fun u => by
    simp [Timedelta64.item, TimeItem.totalSeconds]
  rintro (⟨d, rfl, h⟩ | ⟨d, rfl, h⟩)
  · have : ∃ f, StartArg.seconds cal (.datetime d) = .error f := by
      unfold StartArg.seconds
      by_cases hn : d.count = natCount
      · refine ⟨.err (.py .attribute), ?_⟩
        simp [Datetime64.sinceEpoch, hn, nat, bind, Except.bind]
      · have hf : d.unit.Finer := h.resolve_right hn
        have e : d.toSeconds cal = ⟨d.count, d.unit⟩ := by
          obtain ⟨n, u⟩ := d
          rcases hf with h | h | h | h <;> simp at h <;> subst h <;> rfl
        obtain ⟨f, hm⟩ := item_finer (d := ⟨d.count, d.unit⟩) (by
          rcases hf with h | h | h | h <;> rw [h] <;> rfl)
        by_cases hfit : Fits 64 d.count
        · exact ⟨f, by simp [Datetime64.sinceEpoch, hn, e, hfit, hm, bind, Except.bind]⟩
        · exact ⟨.err (.py .overflow), by simp [Datetime64.sinceEpoch, hn, e, hfit, bind, Except.bind]⟩
    obtain ⟨f, e⟩ := this
    exact ⟨f, by simp [pyTime, e, bind, Except.bind]⟩
  · have : ∃ f, StepArg.seconds (.timedelta d) = .error f := by
      unfold StepArg.seconds
      by_cases hn : d.count = natCount
      · exact ⟨.err (.py .attribute), by obtain ⟨n, u⟩ := d; simp at hn; subst hn; simp [nat, bind, Except.bind]⟩
      · obtain ⟨f, e⟩ := item_finer (d := d) (by
          rcases h with (h | h | h | h) | h | h | h | h <;> first | rw [h]; rfl | exact absurd h hn)
        exact ⟨f, by simp [e, bind, Except.bind]⟩
    obtain ⟨f, e⟩ := this
    cases e' : start.seconds cal with
    | error f' => exact ⟨f', by simp [pyTime, e', bind, Except.bind]⟩
    | ok x => exact ⟨f, by simp [pyTime, e', e, bind, Except.bind]⟩

/-! ### Examples -/

/-- 1 January 2000 in minutes, steps of 6 hours. -/
example : StartArg.Plain (fun _ => 0) (.datetime ⟨15778080, .minute⟩) ∧ StepArg.Plain (.timedelta ⟨6, .hour⟩) ∧
    Spec.start (fun _ => 0) (.datetime ⟨15778080, .minute⟩) = some ((946684800 : Int) : Rat) ∧
    Spec.step (.timedelta ⟨6, .hour⟩) = some ((21600 : Int) : Rat) := by
  refine ⟨⟨by decide, by decide, by simp [TimeUnit.Finer], _, rfl, ?_⟩,
    ⟨by decide, by decide, by simp [TimeUnit.Finer], _, rfl, ?_⟩, ?_, ?_⟩
  · norm_num
  · norm_num
  · simp [Spec.start, Spec.instant, Spec.unitSeconds]
    norm_num
  · simp [Spec.step, Spec.unitSeconds]
    norm_num

/-- Steps of 1500 milliseconds. -/
example : StepArg.Plain (.timedelta ⟨1500, .milli⟩) ∧ Spec.step (.timedelta ⟨1500, .milli⟩) = some (3 / 2) ∧
    ∀ z : Int, (3 / 2 : Rat) ≠ z := by
  refine ⟨⟨by decide, by decide, by simp [TimeUnit.Finer], _, rfl, ?_⟩, ?_, fun z h => ?_⟩
  · norm_num
  · simp [Spec.step, Spec.unitSeconds]
    norm_num
  · have : (3 : Rat) = ((2 * z : Int) : Rat) := by push_cast; linarith
    have : (3 : Int) = 2 * z := by exact_mod_cast this
    omega

end Verif
