import Verif.Lemmas.Shards
import Verif.Props.Meter
import Verif.Props.Drift
import Mathlib.Algebra.BigOperators.Field

/-! Property theorems C95: rates of a stream spread over several meters, and rates under steady traffic. -/

set_option linter.unusedSimpArgs false

namespace GoMetrics
open Spec F64 Finset

private theorem some_activity : ∀ (ops : List MeterOp) (t : Instant), lastActivity (some t) ops ≠ none := by
  have ticks : ∀ (ops : List MeterOp) (t : Instant), lastTick (some t) ops ≠ none := by
    intro ops
    induction ops with
    | nil => intro t; simp [lastTick]
    | cons o ops ih =>
      intro t
      cases o with
      | mark n now => rw [lastTick_mark]; exact ih _
      | tick now => rw [lastTick_tick]; exact ih _
      | stop => rw [lastTick_stop]; exact ih _
  intro ops
  induction ops with
  | nil => intro t; simp [lastActivity]
  | cons o ops ih =>
    intro t
    cases o with
    | mark n now => exact ih now
    | tick now => exact ih now
    | stop => exact ticks ops t

private theorem no_ticks : ∀ (ops : List MeterOp), lastTick none ops = none → ticksOf ops = [] := by
  have some : ∀ (ops : List MeterOp) (t : Instant), lastTick (some t) ops ≠ none := by
    intro ops
    induction ops with
    | nil => intro t; simp [lastTick]
    | cons o ops ih =>
      intro t
      cases o with
      | mark n now => rw [lastTick_mark]; exact ih _
      | tick now => rw [lastTick_tick]; exact ih _
      | stop => rw [lastTick_stop]; exact ih _
  intro ops
  induction ops with
  | nil => intro _; rfl
  | cons o ops ih =>
    intro h
    cases o with
    | mark n now => exact ih h
    | tick now => exact absurd h (some ops now)
    | stop => exact ih h

private theorem no_intervals (ops : List MeterOp) (h : lastActivity none ops = none) : intervals (marksAndTicks ops) = [] := by
  cases ops with
  | nil => rfl
  | cons o ops =>
    cases o with
    | mark n now => exact absurd h (some_activity ops now)
    | tick now => exact absurd h (some_activity ops now)
    | stop =>
      show intervals (ticksOf ops) = []
      rw [no_ticks ops h]; rfl

/-- The rates of a meter in exact arithmetic, whether or not it has been used. -/
theorem rates_real (t0 : Instant) (ops : List MeterOp) : ∃ m : Meter ℝ, (Meter.std (StandardMeter.new t0)).run ops = .ok m ∧
    ∀ q ∈ (rates : List (Nat × (Meter ℝ → ℝ))), q.2 m = movingAvg (1 - Real.exp (-5 / 60 / q.1)) ((intervals (marksAndTicks ops)).map fun c => (wrap64 c : ℝ) / 5) := by
  obtain ⟨m, e, h0, h1⟩ := C39_rates t0 ops
  refine ⟨m, e, fun q hq => ?_⟩
  cases ha : lastActivity none ops with
  | none =>
    obtain ⟨a, b, c, -⟩ := h0 ha
    rw [no_intervals ops ha]
    simp only [rates, List.mem_cons, List.not_mem_nil, or_false] at hq
    rcases hq with rfl | rfl | rfl
    · exact a
    · exact b
    · exact c
  | some t =>
    obtain ⟨a, b, c, -⟩ := h1 t ha
    simp only [rates, List.mem_cons, List.not_mem_nil, or_false] at hq
    rcases hq with rfl | rfl | rfl
    · simpa using a
    · simpa using b
    · simpa using c

/-- The rates of a meter in float64. -/
theorem rates_f64 (t0 : Instant) (ops : List MeterOp) (B : Int) (hn : ∀ n now, .mark n now ∈ ops → 0 ≤ n.toInt)
    (hB : ∀ c ∈ intervals (marksAndTicks ops), c ≤ B) (hB1 : 1 ≤ B) (hm : B ≤ maxInt64) :
    ∃ m : Meter F64, (Meter.std (StandardMeter.new t0)).run ops = .ok m ∧ ∀ q ∈ (rates : List (Nat × (Meter F64 → F64))),
      ∃ r : ℚ, q.2 m = .fin r ∧ |(r : ℝ) - movingAvg (1 - Real.exp (-5 / 60 / q.1)) ((intervals (marksAndTicks ops)).map fun c : Int => (c : ℝ) / 5)|
        ≤ 20 * q.1 * ((uu : ℚ) : ℝ) * B := by
  cases ha : lastActivity none ops with
  | none =>
    have hf := meterAfter_fresh (StandardMeter.new t0 : StandardMeter F64) none ⟨by simp, by simp, by simp, by simp, fun _ => ⟨rfl, rfl, rfl, rfl⟩⟩ ops
    have e : activity (StandardMeter.new t0 : StandardMeter F64).stopped none ops = none := by
      show (if (false : Bool) = true then _ else lastActivity none ops) = none
      simpa using ha
    rw [e] at hf
    obtain ⟨h1, h2, h3, _⟩ := hf.none rfl
    refine ⟨_, meter_run_std _ _, fun q hq => ⟨0, ?_, ?_⟩⟩
    · have hz : (GoFloat.lit 0 : F64) = .fin 0 := by
        have := lit_f64_int 0 (by norm_num)
        norm_num at this ⊢
        exact this
      simp only [rates, List.mem_cons, List.not_mem_nil, or_false] at hq
      rcases hq with rfl | rfl | rfl
      · show (meterAfter _ ops).snapshot.rate1 = _; rw [h1]; exact hz
      · show (meterAfter _ ops).snapshot.rate5 = _; rw [h2]; exact hz
      · show (meterAfter _ ops).snapshot.rate15 = _; rw [h3]; exact hz
    · rw [no_intervals ops ha]
      have h5 : (0 : ℝ) ≤ ((uu : ℚ) : ℝ) := by exact_mod_cast (by norm_num [uu] : (0 : ℚ) ≤ uu)
      have h6 : (0 : ℝ) ≤ (B : ℝ) := by exact_mod_cast (by omega : 0 ≤ B)
      simp only [List.map_nil, movingAvg, Rat.cast_zero, sub_zero, abs_zero]
      positivity
  | some t =>
    obtain ⟨m, r1, r5, r15, e, e1, e5, e15, b1, b5, b15, -⟩ := C84_meter t0 ops t ha B hn hB hB1 hm
    refine ⟨m, e, fun q hq => ?_⟩
    simp only [rates, List.mem_cons, List.not_mem_nil, or_false] at hq
    rcases hq with rfl | rfl | rfl
    · exact ⟨r1, e1, by push_cast; norm_num at b1 ⊢; linarith⟩
    · exact ⟨r5, e5, by push_cast; norm_num at b5 ⊢; linarith⟩
    · exact ⟨r15, e15, by push_cast; norm_num at b15 ⊢; linarith⟩

/-! ### a stream spread over several meters -/

private theorem shard_marks {i : Nat} {ops : List (MeterOp × Nat)} {n : Int64} {now : Instant} (h : .mark n now ∈ shard i ops) :
    .mark n now ∈ whole ops := by
  simp only [shard, List.mem_filterMap] at h
  obtain ⟨⟨o, l⟩, ho, h⟩ := h
  cases o with
  | mark n' now' =>
    simp only at h
    split at h
    · cases h; exact List.mem_map.2 ⟨_, ho, rfl⟩
    · cases h
  | tick t => simp at h
  | stop => simp at h

/-- A part of the stream has no more events in an interval than the whole. -/
private theorem shard_le (i : Nat) (B : Int) (ops : List (MeterOp × Nat)) (hn : ∀ n now, .mark n now ∈ whole ops → 0 ≤ n.toInt) :
    ∀ c d : Int, c ≤ d → (∀ x ∈ intervalsFrom d (marksAndTicks (whole ops)), x ≤ B) →
      ∀ x ∈ intervalsFrom c (marksAndTicks (shard i ops)), x ≤ B := by
  induction ops with
  | nil => intro c d _ _ x hx; cases hx
  | cons o ops ih =>
    intro c d hcd h x hx
    have ih' := ih fun n now hm => hn n now (List.mem_cons_of_mem _ hm)
    obtain ⟨o, l⟩ := o
    cases o with
    | mark n now =>
      have hn0 := hn n now List.mem_cons_self
      by_cases hl : l = i
      · subst hl
        rw [shard_mark_same] at hx
        exact ih' (c + n.toInt) (d + n.toInt) (by omega) h x hx
      · rw [shard_mark_other hl] at hx
        exact ih' c (d + n.toInt) (by omega) h x hx
    | tick now =>
      rw [shard_tick] at hx
      have hd : ∀ x ∈ d :: intervalsFrom 0 (marksAndTicks (whole ops)), x ≤ B := h
      have hx' : x ∈ c :: intervalsFrom 0 (marksAndTicks (shard i ops)) := hx
      rcases List.mem_cons.1 hx' with rfl | hx'
      · exact hcd.trans (hd d List.mem_cons_self)
      · exact ih' 0 0 le_rfl (fun x hx => hd x (List.mem_cons_of_mem _ hx)) x hx'
    | stop =>
      rw [shard_stop] at hx
      have hx' : x ∈ intervalsFrom c (ticksOf (shard i ops)) := hx
      have hd : ∀ x ∈ intervalsFrom d (ticksOf (whole ops)), x ≤ B := h
      rw [ticksOf_shard] at hx'
      clear ih ih' h hx
      generalize whole ops = l at hx' hd
      induction l generalizing c d with
      | nil => cases hx'
      | cons o l ihl =>
        cases o with
        | mark n now => exact ihl c d hcd hx' hd
        | stop => exact ihl c d hcd hx' hd
        | tick now =>
          rw [ticksOf_tick] at hx' hd
          rcases List.mem_cons.1 hx' with rfl | hx'
          · exact hcd.trans (hd d List.mem_cons_self)
          · exact ihl 0 0 le_rfl hx' (fun x hx => hd x (List.mem_cons_of_mem _ hx))

theorem mt_updates : ∀ (ops : List MeterOp), (∀ n now, .mark n now ∈ ops → 0 ≤ n.toInt) → ∀ n, .update n ∈ marksAndTicks ops → 0 ≤ n.toInt := by
  intro ops
  induction ops with
  | nil => intro _ n h; cases h
  | cons o ops ih =>
    intro hn n h
    have ih' := ih fun n now hm => hn n now (List.mem_cons_of_mem _ hm)
    cases o with
    | mark k now =>
      rcases List.mem_cons.1 (show EwmaOp.update n ∈ .update k :: marksAndTicks ops from h) with h | h
      · cases h; exact hn n now List.mem_cons_self
      · exact ih' n h
    | tick now =>
      rcases List.mem_cons.1 (show EwmaOp.update n ∈ .tick :: marksAndTicks ops from h) with h | h
      · cases h
      · exact ih' n h
    | stop =>
      exfalso
      have h' : EwmaOp.update n ∈ ticksOf ops := h
      clear h ih ih' hn
      induction ops with
      | nil => cases h'
      | cons o l ihl =>
        cases o with
        | mark k now => exact ihl h'
        | stop => exact ihl h'
        | tick now =>
          rcases List.mem_cons.1 (show EwmaOp.update n ∈ .tick :: ticksOf l from h') with h | h
          · cases h
          · exact ihl h

theorem no_wrap (ops : List MeterOp) (hn : ∀ n now, .mark n now ∈ ops → 0 ≤ n.toInt)
    (hB : ∀ c ∈ intervals (marksAndTicks ops), c ≤ maxInt64) :
    ((intervals (marksAndTicks ops)).map fun c => (wrap64 c : ℝ) / 5) = (intervals (marksAndTicks ops)).map fun c : Int => (c : ℝ) / 5 := by
  refine List.map_congr_left fun c hc => ?_
  have h0 := intervals_nonneg _ (mt_updates ops hn) c hc
  have h1 := hB c hc
  rw [bmod_small (by omega) (by unfold maxInt64 at h1; omega)]

private theorem additive (s : Nat) (c : Nat → Int) : (((∑ i ∈ range s, c i : Int) : ℝ) / 5) = ∑ i ∈ range s, ((c i : Int) : ℝ) / 5 := by
  rw [Int.cast_sum, sum_div]

/-- C95: spread the events of a stream over `s` meters made at the same time, in any way. In exact arithmetic each of the three rates
of a meter that gets the whole stream is at any moment after the same ticks the sum of the rates of the `s` meters. -/
theorem C95_add (s : Nat) (t0 : Instant) (ops : List (MeterOp × Nat)) (hl : ∀ o ∈ ops, o.2 < s)
    (hn : ∀ n now, .mark n now ∈ whole ops → 0 ≤ n.toInt) (hB : ∀ c ∈ intervals (marksAndTicks (whole ops)), c ≤ maxInt64) :
    ∃ (m : Meter ℝ) (p : Nat → Meter ℝ), (Meter.std (StandardMeter.new t0)).run (whole ops) = .ok m ∧
      (∀ i < s, (Meter.std (StandardMeter.new t0)).run (shard i ops) = .ok (p i)) ∧
      ∀ q ∈ (rates : List (Nat × (Meter ℝ → ℝ))), ∑ i ∈ range s, q.2 (p i) = q.2 m := by
  obtain ⟨m, e, hm⟩ := rates_real t0 (whole ops)
  choose p ep hp using fun i => rates_real t0 (shard i ops)
  refine ⟨m, p, e, fun i _ => ep i, fun q hq => ?_⟩
  rw [hm q hq, no_wrap _ hn hB, movingAvg_shards _ (fun c : Int => (c : ℝ) / 5) additive s ops hl]
  refine sum_congr rfl fun i _ => ?_
  rw [hp i q hq, no_wrap _ (fun n now h => hn n now (shard_marks h)) (shard_le i _ ops hn 0 0 le_rfl hB)]

/-- C95 in float64, with at most `B` events per interval in the whole stream: the sum of the `s` rates differs from the rate of the
single meter by at most `(s + 1) 20 m u B` for the average over `m` minutes (`u = 2^-53`), after any number of ticks. -/
theorem C95_add_ieee (s : Nat) (t0 : Instant) (ops : List (MeterOp × Nat)) (hl : ∀ o ∈ ops, o.2 < s) (B : Int)
    (hn : ∀ n now, .mark n now ∈ whole ops → 0 ≤ n.toInt) (hB : ∀ c ∈ intervals (marksAndTicks (whole ops)), c ≤ B) (hB1 : 1 ≤ B)
    (hm : B ≤ maxInt64) :
    ∃ (m : Meter F64) (p : Nat → Meter F64), (Meter.std (StandardMeter.new t0)).run (whole ops) = .ok m ∧
      (∀ i < s, (Meter.std (StandardMeter.new t0)).run (shard i ops) = .ok (p i)) ∧
      ∀ q ∈ (rates : List (Nat × (Meter F64 → F64))), ∃ (r : ℚ) (rs : Nat → ℚ), q.2 m = .fin r ∧ (∀ i < s, q.2 (p i) = .fin (rs i)) ∧
        |∑ i ∈ range s, rs i - r| ≤ (s + 1) * (20 * q.1 * uu * B) := by
  obtain ⟨m, e, hme⟩ := rates_f64 t0 (whole ops) B hn hB hB1 hm
  choose p ep hp using fun i => rates_f64 t0 (shard i ops) B (fun n now h => hn n now (shard_marks h)) (shard_le i _ ops hn 0 0 le_rfl hB) hB1 hm
  refine ⟨m, p, e, fun i _ => ep i, fun q hq => ?_⟩
  obtain ⟨r, hr, hr'⟩ := hme q hq
  choose rs hrs hrs' using fun i => hp i q hq
  refine ⟨r, rs, hr, fun i _ => hrs i, ?_⟩
  rw [movingAvg_shards _ (fun c : Int => (c : ℝ) / 5) additive s ops hl] at hr'
  have hsum : |∑ i ∈ range s, ((rs i : ℝ) - movingAvg (1 - Real.exp (-5 / 60 / q.1)) ((intervals (marksAndTicks (shard i ops))).map fun c : Int => (c : ℝ) / 5))|
      ≤ ∑ _i ∈ range s, (20 * q.1 * ((uu : ℚ) : ℝ) * B) :=
    (abs_sum_le_sum_abs _ _).trans (sum_le_sum fun i _ => hrs' i)
  rw [sum_sub_distrib, sum_const, card_range, nsmul_eq_mul] at hsum
  rw [abs_le] at hsum hr'
  have : |(∑ i ∈ range s, (rs i : ℝ)) - (r : ℝ)| ≤ (s + 1) * (20 * q.1 * ((uu : ℚ) : ℝ) * B) := by
    rw [abs_le]; constructor <;> linarith [hsum.1, hsum.2, hr'.1, hr'.2]
  exact_mod_cast this

/-! ### steady traffic -/

private theorem mt_append (a b : List MeterOp) (h : MeterOp.stop ∉ a) : marksAndTicks (a ++ b) = marksAndTicks a ++ marksAndTicks b := by
  induction a with
  | nil => rfl
  | cons o a ih =>
    have ih' := ih fun hm => h (List.mem_cons_of_mem _ hm)
    cases o with
    | mark n now => show _ :: marksAndTicks (a ++ b) = _; rw [ih']; rfl
    | tick now => show _ :: marksAndTicks (a ++ b) = _; rw [ih']; rfl
    | stop => exact absurd List.mem_cons_self h

private theorem intervals_append_tick (a b : List EwmaOp) : ∀ c, intervalsFrom c (a ++ .tick :: b) = intervalsFrom c (a ++ [.tick]) ++ intervals b := by
  induction a with
  | nil => intro c; rfl
  | cons o a ih =>
    intro c
    cases o with
    | update n => exact ih _
    | tick => show c :: intervalsFrom 0 (a ++ .tick :: b) = _; rw [ih]; rfl

private theorem steady_intervals (before after : List MeterOp) (t : Instant) (hs : MeterOp.stop ∉ before) :
    intervals (marksAndTicks (before ++ .tick t :: after)) = intervals (marksAndTicks (before ++ [.tick t])) ++ intervals (marksAndTicks after) := by
  rw [mt_append _ _ hs, mt_append _ _ hs]
  exact intervals_append_tick _ _ 0

private theorem before_ne (before : List MeterOp) (t : Instant) (hs : MeterOp.stop ∉ before) : intervals (marksAndTicks (before ++ [.tick t])) ≠ [] := by
  rw [mt_append _ _ hs]
  have : ∀ (l : List EwmaOp) c, intervalsFrom c (l ++ [.tick]) ≠ [] := by
    intro l
    induction l with
    | nil => intro c h; cases h
    | cons o l ih => intro c; cases o with
      | update n => exact ih _
      | tick => intro h; cases h
  exact this _ 0

private theorem decay (m n : Nat) : (1 - (1 - Real.exp (-5 / 60 / (m : ℝ)))) ^ n = Real.exp (-(5 * n) / (60 * m)) := by
  rw [sub_sub_cancel, ← Real.exp_nat_mul]
  congr 1
  rcases eq_or_ne (m : ℝ) 0 with h | h
  · rw [h]; simp
  · field_simp

/-- C95: whatever happened before a tick, if `c` events are marked in each of the next `n` intervals then the distance of each rate
from `c / 5` per second has shrunk by the factor `exp(-5n / 60m)`: after `m` minutes to 37 %, after `5 m` minutes below 1 %. -/
theorem C95_steady (t0 : Instant) (before after : List MeterOp) (t : Instant) (hs : MeterOp.stop ∉ before) (n : Nat) (c : Int)
    (ha : intervals (marksAndTicks after) = List.replicate n c) (hc0 : -2 ^ 63 ≤ c) (hc1 : c < 2 ^ 63) :
    ∃ a b : Meter ℝ, (Meter.std (StandardMeter.new t0)).run (before ++ [.tick t]) = .ok a ∧
      (Meter.std (StandardMeter.new t0)).run (before ++ .tick t :: after) = .ok b ∧
      ∀ q ∈ (rates : List (Nat × (Meter ℝ → ℝ))), q.2 b - c / 5 = Real.exp (-(5 * n) / (60 * q.1)) * (q.2 a - c / 5) := by
  obtain ⟨a, ea, ha'⟩ := rates_real t0 (before ++ [.tick t])
  obtain ⟨b, eb, hb'⟩ := rates_real t0 (before ++ .tick t :: after)
  refine ⟨a, b, ea, eb, fun q hq => ?_⟩
  rw [ha' q hq, hb' q hq, steady_intervals before after t hs, ha, List.map_append, List.map_replicate, movingAvg_steady _ _ _ _ ?_, decay]
  · rw [bmod_small hc0 hc1]; ring
  · simpa using before_ne before t hs

/-- C95 in float64, with at most `B` events per interval: the rate is within `exp(-5n/60m) B/5 + 20 m u B` of the true rate. -/
theorem C95_steady_ieee (t0 : Instant) (before after : List MeterOp) (t : Instant) (hs : MeterOp.stop ∉ before) (n : Nat) (c B : Int)
    (ha : intervals (marksAndTicks after) = List.replicate n c) (hn : ∀ k now, .mark k now ∈ before ++ .tick t :: after → 0 ≤ k.toInt)
    (hB : ∀ x ∈ intervals (marksAndTicks (before ++ .tick t :: after)), x ≤ B) (hB1 : 1 ≤ B) (hm : B ≤ maxInt64) (hc : 0 ≤ c) (hcB : c ≤ B) :
    ∃ b : Meter F64, (Meter.std (StandardMeter.new t0)).run (before ++ .tick t :: after) = .ok b ∧
      ∀ q ∈ (rates : List (Nat × (Meter F64 → F64))), ∃ r : ℚ, q.2 b = .fin r ∧
        |(r : ℝ) - c / 5| ≤ Real.exp (-(5 * n) / (60 * q.1)) * (B / 5) + 20 * q.1 * ((uu : ℚ) : ℝ) * B := by
  obtain ⟨b, eb, hb'⟩ := rates_f64 t0 (before ++ .tick t :: after) B hn hB hB1 hm
  refine ⟨b, eb, fun q hq => ?_⟩
  obtain ⟨r, er, hr⟩ := hb' q hq
  refine ⟨r, er, ?_⟩
  have hq1 : 1 ≤ q.1 := by
    simp only [rates, List.mem_cons, List.not_mem_nil, or_false] at hq
    rcases hq with rfl | rfl | rfl <;> norm_num
  have hne := before_ne before t hs
  have hnn := intervals_nonneg _ (mt_updates _ hn)
  rw [steady_intervals before after t hs] at hr hB hnn
  rw [ha, List.map_append, List.map_replicate, movingAvg_steady _ _ _ _ (by simpa using hne), decay] at hr
  have hE : Real.exp (-5 / 60 / (q.1 : ℝ)) ≤ 1 := by
    rw [Real.exp_le_one_iff]
    apply div_nonpos_of_nonpos_of_nonneg (by norm_num)
    positivity
  obtain ⟨l0, l1⟩ := movingAvg_le (alpha := 1 - Real.exp (-5 / 60 / (q.1 : ℝ))) (lo := 0) (hi := (B : ℝ) / 5) (by linarith) (by linarith [Real.exp_pos (-5 / 60 / (q.1 : ℝ))])
    (xs := (intervals (marksAndTicks (before ++ [.tick t]))).map fun c : Int => (c : ℝ) / 5)
    (fun x hx => by
      obtain ⟨y, hy, rfl⟩ := List.mem_map.1 hx
      have : (0 : ℝ) ≤ y := by exact_mod_cast hnn y (List.mem_append_left _ hy)
      positivity)
    (fun x hx => by
      obtain ⟨y, hy, rfl⟩ := List.mem_map.1 hx
      have : (y : ℝ) ≤ B := by exact_mod_cast hB y (List.mem_append_left _ hy)
      linarith) (by simpa using hne)
  have hcr0 : (0 : ℝ) ≤ c := by exact_mod_cast hc
  have hcr1 : (c : ℝ) ≤ B := by exact_mod_cast hcB
  set A := movingAvg (1 - Real.exp (-5 / 60 / (q.1 : ℝ))) ((intervals (marksAndTicks (before ++ [.tick t]))).map fun c : Int => (c : ℝ) / 5)
  have hE2 := Real.exp_pos (-(5 * (n : ℝ)) / (60 * q.1))
  set E := Real.exp (-(5 * (n : ℝ)) / (60 * q.1))
  have hA : |E * (A - c / 5)| ≤ E * (B / 5) := by
    rw [abs_mul, abs_of_pos hE2]
    refine mul_le_mul_of_nonneg_left ?_ hE2.le
    rw [abs_le]; constructor <;> linarith
  rw [abs_le] at hr hA ⊢
  constructor <;> linarith [hr.1, hr.2, hA.1, hA.2]

/-- The meters must have been made before the same tick: a meter made later starts with the rate of its first interval, so the rates
of the parts add up to more than the rate of the whole. -/
theorem C95_late_refuted : ∃ (a b m : Meter ℝ),
    (Meter.std (StandardMeter.new 0)).run [.tick 5, .tick 10] = .ok a ∧
    (Meter.std (StandardMeter.new 6)).run [.mark 10 7, .tick 10] = .ok b ∧
    (Meter.std (StandardMeter.new 0)).run [.tick 5, .mark 10 7, .tick 10] = .ok m ∧
    m.rate1 < a.rate1 + b.rate1 := by
  obtain ⟨a, ea, ha⟩ := rates_real 0 [.tick 5, .tick 10]
  obtain ⟨b, eb, hb⟩ := rates_real 6 [.mark 10 7, .tick 10]
  obtain ⟨m, em, hm⟩ := rates_real 0 [.tick 5, .mark 10 7, .tick 10]
  refine ⟨a, b, m, ea, eb, em, ?_⟩
  have h1 : (1, Meter.rate1) ∈ (rates : List (Nat × (Meter ℝ → ℝ))) := by simp [rates]
  have ia : intervals (marksAndTicks [.tick 5, .tick 10]) = [0, 0] := by decide
  have ib : intervals (marksAndTicks [.mark 10 7, .tick 10]) = [10] := by decide
  have im : intervals (marksAndTicks [.tick 5, .mark 10 7, .tick 10]) = [0, 10] := by decide
  have w0 : wrap64 0 = 0 := by decide
  have w1 : wrap64 10 = 10 := by decide
  have ha1 := ha _ h1
  have hb1 := hb _ h1
  have hm1 := hm _ h1
  rw [ia] at ha1; rw [ib] at hb1; rw [im] at hm1
  simp only [List.map_cons, List.map_nil, movingAvg, List.foldl_cons, List.foldl_nil, w0, w1] at ha1 hb1 hm1
  rw [ha1, hb1, hm1]
  have := Real.exp_pos (-5 / 60 / ((1 : ℕ) : ℝ))
  push_cast at this ⊢
  linarith

/-- Three events of meter 0 and four of meter 1, a tick, five of meter 1, a tick. -/
private def stream : List (MeterOp × Nat) := [(.mark 3 1, 0), (.mark 4 2, 1), (.tick 5, 0), (.mark 5 6, 1), (.tick 10, 0)]

example : shard 0 stream = [.mark 3 1, .tick 5, .tick 10] ∧ shard 1 stream = [.mark 4 2, .tick 5, .mark 5 6, .tick 10] ∧
    (∀ o ∈ stream, o.2 < 2) ∧ intervals (marksAndTicks (whole stream)) = [7, 5] ∧
    intervals (marksAndTicks (shard 0 stream)) = [3, 0] ∧ intervals (marksAndTicks (shard 1 stream)) = [4, 5] := by decide

example : ∀ n now, .mark n now ∈ whole stream → 0 ≤ n.toInt := by
  intro n now h
  simp only [whole, stream, List.map_cons, List.map_nil, List.mem_cons, MeterOp.mark.injEq, reduceCtorEq, List.not_mem_nil, or_false, false_or] at h
  rcases h with ⟨rfl, _⟩ | ⟨rfl, _⟩ | ⟨rfl, _⟩ <;> decide

-- traffic changes to 10 events per interval, marked in different ways
example : MeterOp.stop ∉ ([.mark 100 1] : List MeterOp) ∧
    intervals (marksAndTicks [.mark 10 6, .tick 10, .mark 4 11, .mark 6 12, .tick 15, .mark 3 16]) = List.replicate 2 10 := by decide

end GoMetrics
