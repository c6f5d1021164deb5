import Verif.Lemmas.Meter
import Mathlib.Analysis.SpecialFunctions.Exp

/-! Property theorems C35, C36, C39, C40 (meters). -/

set_option linter.unusedSimpArgs false
set_option linter.unnecessarySeqFocus false

namespace GoMetrics
open Spec

/-! ### C35 -/

section seq
variable {F : Type} [GoFloat F] [GoExp F]

/-- C35: the count is the wrapped sum of the arguments of the `Mark`s before the first `Stop`; no call panics. -/
theorem C35_count (t0 : Instant) (ops : List MeterOp) :
    ∃ m : Meter F, (Meter.std (StandardMeter.new t0)).run ops = .ok m ∧ m.count.toInt = wrap64 (markedSum ops) ∧
      m.snapshot.count = m.count := by
  refine ⟨_, meter_run_std _ _, ?_, rfl⟩
  have := meterAfter_count (StandardMeter.new t0 : StandardMeter F) rfl ops
  show (meterAfter _ ops).snapshot.count.toInt = _
  simpa [StandardMeter.new, MeterSnapshot.zero] using this

/-- C35: it is the exact sum whenever that fits in int64. -/
theorem C35_count_exact (t0 : Instant) (ops : List MeterOp) (h1 : minInt64 ≤ markedSum ops) (h2 : markedSum ops ≤ maxInt64) :
    ∃ m : Meter F, (Meter.std (StandardMeter.new t0)).run ops = .ok m ∧ m.count.toInt = markedSum ops := by
  obtain ⟨m, e1, e2, -⟩ := C35_count (F := F) t0 ops
  refine ⟨m, e1, ?_⟩
  rw [e2]
  unfold wrap64
  unfold minInt64 at h1
  unfold maxInt64 at h2
  apply Int.bmod_eq_of_le <;> omega

/-- C35: after a `Stop`, `Mark` and further `Stop`s change nothing at all. -/
theorem C35_after_stop (t0 : Instant) (ops more : List MeterOp) (h : ∀ o ∈ more, o = .stop ∨ ∃ n now, o = .mark n now) :
    (Meter.std (StandardMeter.new t0 : StandardMeter F)).run (ops ++ .stop :: more) =
      (Meter.std (StandardMeter.new t0)).run (ops ++ [.stop]) := by
  rw [meter_run_std, meter_run_std]
  congr 2
  simp only [meterAfter, List.foldl_append, List.foldl_cons, List.foldl_nil]
  generalize List.foldl StandardMeter.apply (StandardMeter.new t0 : StandardMeter F) ops = m
  have hs : (m.apply .stop).stopped = true := rfl
  generalize m.apply .stop = m' at hs
  induction more with
  | nil => rfl
  | cons o more ih =>
    have e : m'.apply o = m' := by
      rcases h o (by simp) with rfl | ⟨n, now, rfl⟩
      · obtain ⟨_, _, _, _, _, _⟩ := m'
        simp only at hs
        subst hs
        rfl
      · exact mark_stopped m' hs n now
    rw [List.foldl_cons, e]
    exact ih fun o ho => h o (by simp [ho])

example : markedSum [.mark 3 0, .tick 1, .mark (-1) 2, .stop, .mark 7 3] = 2 := by decide
example : markedSum [.mark 9223372036854775807 0, .mark 1 1] = 2 ^ 63 ∧ wrap64 (2 ^ 63) = -2 ^ 63 := by decide

end seq

/-! ### C39 -/

section rates

private theorem seconds_exact (d : Int) : (seconds d : ℝ) = d / 10 ^ 9 := by
  have h := Int.mul_tdiv_add_tmod d second
  have : ((second * d.tdiv second + d.tmod second : Int) : ℝ) = d := by rw [h]
  simp only [seconds, exact_add, exact_ofInt, exact_div, exact_lit]
  push_cast at this ⊢
  rw [← this]
  simp only [second]
  push_cast
  field_simp
  norm_num

private theorem alpha_real (m : Nat) : (ewmaAlpha m : ℝ) = 1 - Real.exp (-5 / 60 / m) := by
  show ((1 : ℚ) : ℝ) - Real.exp (((-5 / 60 / (m : ℚ) : ℚ)) : ℝ) = _
  push_cast; rfl

/-- C39: after the last `Mark` or tick the three rates are the moving averages of the marked events; `RateMean` is the count
divided by the seconds since construction (which have to be non-zero and to fit the 292 years of a `time.Duration`). A meter that
was neither marked nor ticked shows zeros. (Exact real arithmetic.) -/
theorem C39_rates (t0 : Instant) (ops : List MeterOp) :
    ∃ m : Meter ℝ, (Meter.std (StandardMeter.new t0)).run ops = .ok m ∧
      (lastActivity none ops = none → m.rate1 = 0 ∧ m.rate5 = 0 ∧ m.rate15 = 0 ∧ m.rateMean = 0 ∧ m.count = 0) ∧
      ∀ t, lastActivity none ops = some t →
        m.rate1 = movingAvg (1 - Real.exp (-5 / 60 / 1)) ((intervals (marksAndTicks ops)).map fun c => (wrap64 c : ℝ) / 5) ∧
        m.rate5 = movingAvg (1 - Real.exp (-5 / 60 / 5)) ((intervals (marksAndTicks ops)).map fun c => (wrap64 c : ℝ) / 5) ∧
        m.rate15 = movingAvg (1 - Real.exp (-5 / 60 / 15)) ((intervals (marksAndTicks ops)).map fun c => (wrap64 c : ℝ) / 5) ∧
        (minInt64 ≤ t - t0 → t - t0 ≤ maxInt64 → t ≠ t0 → m.rateMean = (wrap64 (markedSum ops) : ℝ) / (((t - t0 : Int) : ℝ) / 10 ^ 9)) := by
  refine ⟨_, meter_run_std _ _, ?_, ?_⟩
  · intro h
    have hf := meterAfter_fresh (StandardMeter.new t0 : StandardMeter ℝ) none ⟨by simp, by simp, by simp, by simp, fun _ => ⟨rfl, rfl, rfl, rfl⟩⟩ ops
    have e : activity (StandardMeter.new t0 : StandardMeter ℝ).stopped none ops = none := by
      show (if (false : Bool) = true then _ else lastActivity none ops) = none
      simpa using h
    rw [e] at hf
    obtain ⟨h1, h2, h3, h4⟩ := hf.none rfl
    have hc := meterAfter_count (StandardMeter.new t0 : StandardMeter ℝ) rfl ops
    have key : ∀ (ops : List MeterOp) (t : Option Instant), lastActivity t ops = none → markedSum ops = 0 := by
      intro ops
      induction ops with
      | nil => intros; rfl
      | cons o ops ih =>
        intro t ht
        cases o with
        | mark n now =>
          exfalso
          have : ∀ (ops : List MeterOp) (t : Instant), lastActivity (some t) ops ≠ none := by
            intro ops
            induction ops with
            | nil => intro t; simp [lastActivity]
            | cons o ops ih =>
              intro t
              cases o with
              | mark n now => exact ih now
              | tick now => exact ih now
              | stop =>
                show lastTick (some t) ops ≠ none
                clear ih ht
                induction ops generalizing t with
                | nil => simp [lastTick]
                | cons o ops ih2 =>
                  cases o with
                  | mark n now => rw [lastTick_mark]; exact ih2 _
                  | tick now => rw [lastTick_tick]; exact ih2 _
                  | stop => rw [lastTick_stop]; exact ih2 _
          exact this ops now ht
        | tick now => exact ih _ ht
        | stop => rfl
    rw [key ops none h] at hc
    have h0 : (meterAfter (StandardMeter.new t0 : StandardMeter ℝ) ops).snapshot.count = 0 := by
      rw [← Int64.toInt_inj, hc]
      simp [StandardMeter.new, MeterSnapshot.zero, wrap64]
    refine ⟨?_, ?_, ?_, ?_, h0⟩
    · show (meterAfter _ ops).snapshot.rate1 = 0; rw [h1]; simp
    · show (meterAfter _ ops).snapshot.rate5 = 0; rw [h2]; simp
    · show (meterAfter _ ops).snapshot.rate15 = 0; rw [h3]; simp
    · show (meterAfter _ ops).snapshot.rateMean = 0; rw [h4]; simp
  · intro t h
    have hf := meterAfter_fresh (StandardMeter.new t0 : StandardMeter ℝ) none ⟨by simp, by simp, by simp, by simp, fun _ => ⟨rfl, rfl, rfl, rfl⟩⟩ ops
    have e : activity (StandardMeter.new t0 : StandardMeter ℝ).stopped none ops = some t := by
      show (if (false : Bool) = true then _ else lastActivity none ops) = some t
      simpa using h
    rw [e] at hf
    obtain ⟨a1, a5, a15, st⟩ := meterAfter_avgs (StandardMeter.new t0 : StandardMeter ℝ) ops
    have es : seenOps (StandardMeter.new t0 : StandardMeter ℝ).stopped ops = marksAndTicks ops := rfl
    rw [es] at a1 a5 a15
    refine ⟨?_, ?_, ?_, ?_⟩
    · show (meterAfter _ ops).snapshot.rate1 = _
      rw [hf.r1 (by simp), a1]
      have := rate_exact (ewmaAlpha 1 : ℝ) (marksAndTicks ops)
      rw [alpha_real] at this
      simpa [StandardMeter.new, alpha_real] using this
    · show (meterAfter _ ops).snapshot.rate5 = _
      rw [hf.r5 (by simp), a5]
      have := rate_exact (ewmaAlpha 5 : ℝ) (marksAndTicks ops)
      rw [alpha_real] at this
      simpa [StandardMeter.new, alpha_real] using this
    · show (meterAfter _ ops).snapshot.rate15 = _
      rw [hf.r15 (by simp), a15]
      have := rate_exact (ewmaAlpha 15 : ℝ) (marksAndTicks ops)
      rw [alpha_real] at this
      simpa [StandardMeter.new, alpha_real] using this
    · intro h1 h2 _
      show (meterAfter _ ops).snapshot.rateMean = _
      rw [hf.mean t rfl, StandardMeter.meanRate, seconds_exact, st]
      have hc := meterAfter_count (StandardMeter.new t0 : StandardMeter ℝ) rfl ops
      have h0 : (StandardMeter.new t0 : StandardMeter ℝ).snapshot.count.toInt = 0 := rfl
      rw [hc, h0, zero_add]
      have ht : timeSub t (StandardMeter.new t0 : StandardMeter ℝ).startTime = t - t0 := by
        show max minInt64 (min maxInt64 (t - t0)) = t - t0
        rw [min_eq_right h2, max_eq_right h1]
      rw [ht]
      simp

example : lastActivity none [.mark 3 0, .tick 5, .stop, .mark 7 8, .tick 10] = some 10 := by decide
example : intervals (marksAndTicks [.mark 3 0, .mark 4 1, .tick 5, .stop, .mark 7 8, .tick 10]) = [7, 0] := by decide

/-- C39, the excluded case in float64: a `Mark` at the clock reading of the construction makes `RateMean` infinite, and `Mark(0)`
(or a tick) makes it NaN. -/
theorem C39_same_instant (t0 : Instant) :
    StandardMeter.meanRate (F := F64) 5 t0 t0 = .inf false ∧ StandardMeter.meanRate (F := F64) 0 t0 t0 = .nan := by
  have e : timeSub t0 t0 = 0 := by simp [timeSub, minInt64, maxInt64]
  unfold StandardMeter.meanRate
  rw [e]
  have hs : (seconds 0 : F64) = .fin 0 := by
    have h9 : (GoFloat.lit (10 ^ 9) : F64) = F64.fin (10 ^ 9) := by
      have := lit_f64_int (10 ^ 9) (by norm_num)
      norm_num at this ⊢
      exact this
    have h0 : (GoFloat.ofInt 0 : F64) = F64.fin 0 := by
      exact F64.round_int 0 (by norm_num)
    unfold seconds
    rw [h9]
    simp only [Int.zero_tdiv, Int.zero_tmod, h0]
    show F64.add (.fin 0) (F64.div (.fin 0) (.fin (10 ^ 9))) = _
    have hr : F64.round (0 : ℚ) = .fin 0 := by
      have := F64.round_int (K := ℚ) 0 (by norm_num)
      simpa only [Int.cast_zero] using this
    have hd : F64.div (.fin 0) (.fin (10 ^ 9)) = F64.round (0 : ℚ) := by simp [F64.div]
    rw [hd, hr]
    have h00 : (0 : ℚ) + 0 = 0 := add_zero 0
    show F64.round ((0 : ℚ) + 0) = _
    rw [h00, hr]
  have h5 : (GoFloat.ofInt 5 : F64) = F64.fin 5 := by
    have := lit_f64_int 5 (by norm_num)
    norm_num at this ⊢
    exact this
  have h0 : (GoFloat.ofInt 0 : F64) = F64.fin 0 := by
    exact F64.round_int 0 (by norm_num)
  have e5 : (5 : Int64).toInt = 5 := by decide
  have e0 : (0 : Int64).toInt = 0 := by decide
  rw [hs, e5, e0, h5, h0]
  constructor
  · show F64.div (.fin 5) (.fin 0) = _
    simp [F64.div]
  · show F64.div (.fin 0) (.fin 0) = _
    simp [F64.div]

end rates

/-! ### C36 -/

section conc
variable {F : Type} [GoFloat F]

/-- C36: when all calls have returned, the count is the (wrapped) sum of the `Mark`s that were counted, and each of the three moving
averages got exactly the same events: an overlapping `Mark` is counted everywhere or nowhere. -/
theorem C36_all_or_nothing (k : MConst F) (sched : List (Nat × MIn)) (s : MShared F) (ls : Nat → MPc F) (tr : List (MEv F))
    (h : (meterMachine k).run .zero (fun _ => .idle) sched = some (s, ls, tr)) (hidle : ∀ t, ls t = .idle) :
    s.count.toInt = wrap64 (returnedMarks tr) ∧
      ∀ a, wrap64 ((s.avg a).uncounted.toInt + takenFrom a tr) = wrap64 (returnedMarks tr) := by
  constructor
  · have hw := meter_wf h
    have e : (fun t => (ls t).abs) = allIdle := by funext t; rw [hidle t]; rfl
    rw [e] at hw
    rw [meter_count h]
    unfold linMarks returnedMarks
    rw [(hw.linsR_perm_retsR.map _).sum_eq]
  · intro a
    have hw := meter_wfA a h
    have e : (fun t => (ls t).absA a) = allIdle := by funext t; rw [hidle t]; rfl
    rw [e] at hw
    rw [meter_avg a h]
    have : linMarks (tr.filterMap (MEv.callA a)) = returnedMarks tr := by
      unfold linMarks returnedMarks
      rw [(hw.linsR_perm_retsR.map _).sum_eq, retsR_callA]
    rw [this]
    unfold wrap64
    simp

/-- C36: the invocation-to-return events of a `Mark` that returns before any `Stop` takes effect say it was counted. -/
theorem C36_before_stop (k : MConst F) (sched : List (Nat × MIn)) (s : MShared F) (ls : Nat → MPc F) (a b : List (MEv F))
    (t : Nat) (n : Int64) (c : Bool)
    (h : (meterMachine k).run .zero (fun _ => .idle) sched = some (s, ls, a ++ .call (.ret t (.mark n) (.marked c)) :: b))
    (hs : ¬ Stopped (callsOf a)) : c = true := by
  obtain ⟨s1, ls1, tr1, sched1, u, i, s2, l2, es1, es2, hr, hst, ha⟩ := (meterMachine k).cut h rfl
  have hl := meter_local k u i s1 (ls1 u) s2 l2 _ hst
  have hr2 := (meterMachine k).run_snoc hr hst
  have e1 : callsOf (es1 ++ .call (.ret t (.mark n) (.marked c)) :: es2) =
      callsOf es1 ++ .ret t (.mark n) (.marked c) :: callsOf es2 := by
    rw [callsOf_append]; rfl
  have e2 : callsOf es1 = [] ∧ callsOf es2 = [] := by
    have : (es1 ++ .call (.ret t (.mark n) (.marked c)) :: es2).filterMap MEv.call? =
      callsOf es1 ++ .ret t (.mark n) (.marked c) :: callsOf es2 := e1
    rw [this] at hl
    generalize (ls1 u).abs = A at hl
    generalize l2.abs = B at hl
    generalize hx : callsOf es1 ++ CEv.ret t (MCall.mark n) (MRes.marked c) :: callsOf es2 = X at hl
    cases hl <;> simp [List.append_eq_cons_iff] at hx
    exact ⟨hx.1, hx.2.2⟩
  refine (meter_not_dropped hr2 ?_).2 t n c ?_
  · rintro ⟨v, r, hm⟩
    apply hs
    rw [callsOf_append, e1, e2.1, e2.2] at hm
    simp at hm
    exact ⟨v, r, by rw [ha, callsOf_append]; simp [hm]⟩
  · rw [callsOf_append, e1]; simp

/-- C36: a `Mark` invoked after a `Stop` took effect is dropped. -/
theorem C36_after_stop (k : MConst F) (sched : List (Nat × MIn)) (s : MShared F) (ls : Nat → MPc F) (a m b : List (MEv F))
    (t : Nat) (n : Int64) (c : Bool)
    (h : (meterMachine k).run .zero (fun _ => .idle) sched =
      some (s, ls, a ++ .call (.inv t (.mark n)) :: m ++ .call (.ret t (.mark n) (.marked c)) :: b))
    (hs : Stopped (callsOf a)) (hm : ∀ o, MEv.call (.inv t o) ∉ m) : c = false := by
  obtain ⟨s1, ls1, tr1, sched1, u, i, s2, l2, es1, es2, hr, hst, ha⟩ := (meterMachine k).cut h rfl
  have hl := meter_local k u i s1 (ls1 u) s2 l2 _ hst
  have e1 : (es1 ++ .call (.ret t (.mark n) (.marked c)) :: es2).filterMap MEv.call? =
      callsOf es1 ++ .ret t (.mark n) (.marked c) :: callsOf es2 := by
    have := callsOf_append es1 (.call (.ret t (.mark n) (.marked c)) :: es2)
    unfold callsOf at this ⊢
    rw [this]; rfl
  rw [e1] at hl
  have e2 : callsOf es1 = [] ∧ u = t ∧ (ls1 u).abs = .done (.mark n) (.marked c) := by
    generalize (ls1 u).abs = A at hl
    generalize l2.abs = B at hl
    generalize hx : callsOf es1 ++ CEv.ret t (MCall.mark n) (MRes.marked c) :: callsOf es2 = X at hl
    cases hl <;> simp [List.append_eq_cons_iff] at hx
    obtain ⟨h1, ⟨rfl, rfl, rfl⟩, h3⟩ := hx
    exact ⟨h1, rfl, rfl⟩
  obtain ⟨h0, rfl, hd⟩ := e2
  have late : LateCall u (callsOf tr1) := by
    have : callsOf tr1 = callsOf a ++ CEv.inv u (.mark n) :: callsOf m := by
      have h2 := congrArg callsOf ha
      rw [callsOf_append, callsOf_append, h0, List.append_nil] at h2
      rw [← h2]; rfl
    refine ⟨_, _, _, this, hs, ?_⟩
    intro o ho
    simp only [callsOf, List.mem_filterMap] at ho
    obtain ⟨x, hx, hx2⟩ := ho
    cases x <;> simp [MEv.call?] at hx2
    subst hx2
    exact hm o hx
  have hn := meter_late hr u late
  generalize ls1 u = l at hn hd
  cases l <;> simp [MPc.abs, MPc.notCounting] at hn hd
  all_goals first
    | (obtain ⟨rfl, rfl⟩ := hd; exact hn)
    | (obtain ⟨rfl, -⟩ := hd; exact absurd rfl (hn n))

private def go (t : Nat) (c : MCall) (now : Instant) (n : Nat) : List (Nat × MIn) := List.replicate n (t, ⟨c, now⟩)

private def k0 : MConst ℚ := ⟨1 / 4, 1 / 8, 1 / 16, 0⟩

private def returned (tr : List (MEv ℚ)) : List (Nat × MCall × Option Bool) :=
  (retsR (callsOf tr)).map fun x => (x.1, x.2.1, match x.2.2 with | .marked b => some b | _ => none)

/-- Goroutine 0 marks 5 and has passed the test of `stopped` when goroutine 1 stops the meter; then goroutine 2 marks 7. All return;
the 5 events are counted, the 7 are not. -/
example : ∃ s ls tr, (meterMachine k0).run .zero (fun _ => .idle)
      (go 0 (.mark 5) 1 2 ++ go 1 .stop 1 3 ++ go 2 (.mark 7) 2 3 ++ go 0 (.mark 5) (2 * 10 ^ 9) 13) = some (s, ls, tr) ∧
    returned tr = [(1, .stop, none), (2, .mark 7, some false), (0, .mark 5, some true)] ∧ s.count = 5 ∧
    s.e15.uncounted = 5 ∧ s.rateMean = 5 / 2 := by
  refine ⟨_, _, _, rfl, by decide +kernel, by decide +kernel, by decide +kernel, by decide +kernel⟩

/-! ### C40 -/

/-- C40 is false: goroutine 0's `Snapshot` has loaded the count (0) when goroutine 1 marks 5 events one second after the
construction; the snapshot then reports a count of 0 with a mean rate of 5 per second, which the meter shows at no moment of the
execution. -/
theorem C40_refuted : ∃ sched s ls tr sn, (meterMachine k0).run .zero (fun _ => .idle) sched = some (s, ls, tr) ∧
    retsR (callsOf tr) = [(1, .mark 5, .marked true), (0, .snapshot, .snap sn)] ∧ sn.count = 0 ∧ sn.rateMean = 5 ∧
    ∀ i s' ls' tr', (meterMachine k0).run .zero (fun _ => .idle) (sched.take i) = some (s', ls', tr') → MShared.shown s' ≠ sn := by
  refine ⟨go 0 .snapshot 0 2 ++ go 1 (.mark 5) (10 ^ 9) 15 ++ go 0 .snapshot 0 5, _, _, _, ⟨0, 0, 0, 0, 5⟩, rfl, by decide +kernel, rfl, rfl, ?_⟩
  have key : ∀ i < 23, ((meterMachine k0).run .zero (fun _ => .idle)
      ((go 0 .snapshot 0 2 ++ go 1 (.mark 5) (10 ^ 9) 15 ++ go 0 .snapshot 0 5).take i)).map (fun x => MShared.shown x.1) ≠
        some ⟨0, 0, 0, 0, 5⟩ := by decide +kernel
  intro i s' ls' tr' hr he
  have hi : ∃ j < 23, (go 0 .snapshot 0 2 ++ go 1 (.mark 5) (10 ^ 9) 15 ++ go 0 .snapshot 0 5).take i =
      (go 0 .snapshot 0 2 ++ go 1 (.mark 5) (10 ^ 9) 15 ++ go 0 .snapshot 0 5).take j := by
    by_cases h : i < 23
    · exact ⟨i, h, rfl⟩
    · exact ⟨22, by omega, by rw [List.take_of_length_le (by simp [go]; omega), List.take_of_length_le (by simp [go])]⟩
  obtain ⟨j, hj, hij⟩ := hi
  rw [hij] at hr
  apply key j hj
  rw [hr, ← he]; rfl

/-- The five numbers the meter shows after the first `i` steps of a schedule. -/
def shownAfter (k : MConst F) (s : MShared F) (ls : Nat → MPc F) (sched : List (Nat × MIn)) (i : Nat) : Option (MeterSnapshot F) :=
  ((meterMachine k).run s ls (sched.take i)).map fun x => MShared.shown x.1

private theorem shownAfter_snoc (k : MConst F) (s : MShared F) (ls : Nat → MPc F) (sched : List (Nat × MIn)) (x) {i : Nat}
    (h : i ≤ sched.length) : shownAfter k s ls (sched ++ [x]) i = shownAfter k s ls sched i := by
  unfold shownAfter
  rw [List.take_append_of_le_length h]

/-- What a goroutine inside `Snapshot` knows. -/
private def SnapInv (k : MConst F) (s : MShared F) (ls : Nat → MPc F) (sched : List (Nat × MIn)) : MPc F → Prop
  | .sn0 => True
  | .sn1 n => ∃ i1 m1, i1 ≤ sched.length ∧ shownAfter k s ls sched i1 = some m1 ∧ m1.count = n
  | .sn5 n r1 => ∃ i1 i2 m1 m2, i1 ≤ i2 ∧ i2 ≤ sched.length ∧ shownAfter k s ls sched i1 = some m1 ∧ m1.count = n ∧
      shownAfter k s ls sched i2 = some m2 ∧ m2.rate1 = r1
  | .sn15 n r1 r5 => ∃ i1 i2 i3 m1 m2 m3, i1 ≤ i2 ∧ i2 ≤ i3 ∧ i3 ≤ sched.length ∧ shownAfter k s ls sched i1 = some m1 ∧ m1.count = n ∧
      shownAfter k s ls sched i2 = some m2 ∧ m2.rate1 = r1 ∧ shownAfter k s ls sched i3 = some m3 ∧ m3.rate5 = r5
  | .snMean n r1 r5 r15 => ∃ i1 i2 i3 i4 m1 m2 m3 m4, i1 ≤ i2 ∧ i2 ≤ i3 ∧ i3 ≤ i4 ∧ i4 ≤ sched.length ∧
      shownAfter k s ls sched i1 = some m1 ∧ m1.count = n ∧
      shownAfter k s ls sched i2 = some m2 ∧ m2.rate1 = r1 ∧ shownAfter k s ls sched i3 = some m3 ∧ m3.rate5 = r5 ∧
      shownAfter k s ls sched i4 = some m4 ∧ m4.rate15 = r15
  | .ret c r => ∃ sn, c = .snapshot ∧ r = .snap sn ∧ ∃ i1 i2 i3 i4 i5 m1 m2 m3 m4 m5, i1 ≤ i2 ∧ i2 ≤ i3 ∧ i3 ≤ i4 ∧ i4 ≤ i5 ∧ i5 ≤ sched.length ∧
      shownAfter k s ls sched i1 = some m1 ∧ m1.count = sn.count ∧
      shownAfter k s ls sched i2 = some m2 ∧ m2.rate1 = sn.rate1 ∧ shownAfter k s ls sched i3 = some m3 ∧ m3.rate5 = sn.rate5 ∧
      shownAfter k s ls sched i4 = some m4 ∧ m4.rate15 = sn.rate15 ∧ shownAfter k s ls sched i5 = some m5 ∧ m5.rateMean = sn.rateMean
  | _ => False

private theorem SnapInv.snoc {k : MConst F} {s : MShared F} {ls : Nat → MPc F} {sched : List (Nat × MIn)} {l : MPc F} (x)
    (h : SnapInv k s ls sched l) : SnapInv k s ls (sched ++ [x]) l := by
  have len : (sched ++ [x]).length = sched.length + 1 := by simp
  cases l <;> simp only [SnapInv] at h ⊢
  · obtain ⟨i1, m1, h1, a1, b1⟩ := h
    exact ⟨i1, m1, by omega, by rw [shownAfter_snoc _ _ _ _ _ (by omega)]; exact a1, b1⟩
  · obtain ⟨i1, i2, m1, m2, l1, h1, a1, b1, a2, b2⟩ := h
    exact ⟨i1, i2, m1, m2, l1, by omega, by rw [shownAfter_snoc _ _ _ _ _ (by omega)]; exact a1, b1,
      by rw [shownAfter_snoc _ _ _ _ _ (by omega)]; exact a2, b2⟩
  · obtain ⟨i1, i2, i3, m1, m2, m3, l1, l2, h1, a1, b1, a2, b2, a3, b3⟩ := h
    exact ⟨i1, i2, i3, m1, m2, m3, l1, l2, by omega, by rw [shownAfter_snoc _ _ _ _ _ (by omega)]; exact a1, b1,
      by rw [shownAfter_snoc _ _ _ _ _ (by omega)]; exact a2, b2, by rw [shownAfter_snoc _ _ _ _ _ (by omega)]; exact a3, b3⟩
  · obtain ⟨i1, i2, i3, i4, m1, m2, m3, m4, l1, l2, l3, h1, a1, b1, a2, b2, a3, b3, a4, b4⟩ := h
    exact ⟨i1, i2, i3, i4, m1, m2, m3, m4, l1, l2, l3, by omega, by rw [shownAfter_snoc _ _ _ _ _ (by omega)]; exact a1, b1,
      by rw [shownAfter_snoc _ _ _ _ _ (by omega)]; exact a2, b2, by rw [shownAfter_snoc _ _ _ _ _ (by omega)]; exact a3, b3,
      by rw [shownAfter_snoc _ _ _ _ _ (by omega)]; exact a4, b4⟩
  · obtain ⟨sn, rfl, rfl, i1, i2, i3, i4, i5, m1, m2, m3, m4, m5, l1, l2, l3, l4, h1, a1, b1, a2, b2, a3, b3, a4, b4, a5, b5⟩ := h
    exact ⟨sn, rfl, rfl, i1, i2, i3, i4, i5, m1, m2, m3, m4, m5, l1, l2, l3, l4, by omega, by rw [shownAfter_snoc _ _ _ _ _ (by omega)]; exact a1, b1,
      by rw [shownAfter_snoc _ _ _ _ _ (by omega)]; exact a2, b2, by rw [shownAfter_snoc _ _ _ _ _ (by omega)]; exact a3, b3,
      by rw [shownAfter_snoc _ _ _ _ _ (by omega)]; exact a4, b4, by rw [shownAfter_snoc _ _ _ _ _ (by omega)]; exact a5, b5⟩

/-- C40 (partial; missing: the five moments need not be the same one, see `C40_refuted`): consider any piece of an execution in which
goroutine `t` executes one `Snapshot`, from its start to its return. Each number of the result is one that the meter
showed at some moment during the call, and the five moments are in order: count, 1-, 5-, 15-minute rate, mean rate. -/
theorem C40_ordered_cut_partial (k : MConst F) (s s' : MShared F) (ls ls' : Nat → MPc F) (sched : List (Nat × MIn)) (tr : List (MEv F))
    (t : Nat) (sn : MeterSnapshot F) (h0 : ls t = .sn0) (h : (meterMachine k).run s ls sched = some (s', ls', tr))
    (h1 : ls' t = .ret .snapshot (.snap sn)) (hin : ∀ c r, MEv.call (.ret t c r) ∉ tr) :
    ∃ i1 i2 i3 i4 i5 m1 m2 m3 m4 m5, i1 ≤ i2 ∧ i2 ≤ i3 ∧ i3 ≤ i4 ∧ i4 ≤ i5 ∧ i5 ≤ sched.length ∧
      shownAfter k s ls sched i1 = some m1 ∧ m1.count = sn.count ∧
      shownAfter k s ls sched i2 = some m2 ∧ m2.rate1 = sn.rate1 ∧ shownAfter k s ls sched i3 = some m3 ∧ m3.rate5 = sn.rate5 ∧
      shownAfter k s ls sched i4 = some m4 ∧ m4.rate15 = sn.rate15 ∧ shownAfter k s ls sched i5 = some m5 ∧ m5.rateMean = sn.rateMean := by
  have key : ∀ (sched : List (Nat × MIn)) s' ls' tr, (meterMachine k).run s ls sched = some (s', ls', tr) →
      (∀ c r, MEv.call (.ret t c r) ∉ tr) → SnapInv k s ls sched (ls' t) := by
    intro sched
    induction sched using List.reverseRecOn with
    | nil =>
      intro s' ls' tr hr _
      simp [Machine.run] at hr
      obtain ⟨rfl, rfl, rfl⟩ := hr
      rw [h0]; trivial
    | append_singleton sched x ih =>
      intro s' ls' tr hr hin
      obtain ⟨u, i⟩ := x
      obtain ⟨s1, ls1, tr1, tr2, hr1, hr2, rfl⟩ := (meterMachine k).run_split hr
      obtain ⟨s2, l2, es, tr3, hst, hr3, rfl⟩ := (meterMachine k).run_cons hr2
      simp [Machine.run] at hr3
      obtain ⟨rfl, rfl, rfl⟩ := hr3
      have ih1 := ih s1 ls1 tr1 hr1 fun c r hm => hin c r (by simp [hm])
      by_cases hu : u = t
      · subst hu
        rw [Function.update_self]
        have now : shownAfter k s ls (sched ++ [(u, i)]) sched.length = some (MShared.shown s1) := by
          rw [shownAfter_snoc _ _ _ _ _ (le_refl _)]
          unfold shownAfter
          rw [List.take_length, hr1]; rfl
        have ih2 := ih1.snoc (u, i)
        generalize ls1 u = l at hst ih1 ih2
        have len : sched.length ≤ (sched ++ [(u, i)]).length := by simp
        cases l with
        | sn0 =>
          simp [meterMachine] at hst; obtain ⟨rfl, rfl, rfl⟩ := hst
          exact ⟨sched.length, _, len, now, rfl⟩
        | sn1 n =>
          simp [meterMachine] at hst; obtain ⟨rfl, rfl, rfl⟩ := hst
          simp only [SnapInv] at ih1
          obtain ⟨i1, m1, g1, c1, d1⟩ := ih1
          exact ⟨i1, sched.length, m1, _, g1, len, by rw [shownAfter_snoc _ _ _ _ _ g1]; exact c1, d1, now, rfl⟩
        | sn5 n r1 =>
          simp [meterMachine] at hst; obtain ⟨rfl, rfl, rfl⟩ := hst
          simp only [SnapInv] at ih1
          obtain ⟨i1, i2, m1, m2, g1, g2, c1, d1, c2, d2⟩ := ih1
          exact ⟨i1, i2, sched.length, m1, m2, _, g1, g2, len, by rw [shownAfter_snoc _ _ _ _ _ (by omega)]; exact c1, d1,
            by rw [shownAfter_snoc _ _ _ _ _ (by omega)]; exact c2, d2, now, rfl⟩
        | sn15 n r1 r5 =>
          simp [meterMachine] at hst; obtain ⟨rfl, rfl, rfl⟩ := hst
          simp only [SnapInv] at ih1
          obtain ⟨i1, i2, i3, m1, m2, m3, g1, g2, g3, c1, d1, c2, d2, c3, d3⟩ := ih1
          exact ⟨i1, i2, i3, sched.length, m1, m2, m3, _, g1, g2, g3, len, by rw [shownAfter_snoc _ _ _ _ _ (by omega)]; exact c1, d1,
            by rw [shownAfter_snoc _ _ _ _ _ (by omega)]; exact c2, d2, by rw [shownAfter_snoc _ _ _ _ _ (by omega)]; exact c3, d3, now, rfl⟩
        | snMean n r1 r5 r15 =>
          simp [meterMachine] at hst; obtain ⟨rfl, rfl, rfl⟩ := hst
          simp only [SnapInv] at ih1
          obtain ⟨i1, i2, i3, i4, m1, m2, m3, m4, g1, g2, g3, g4, c1, d1, c2, d2, c3, d3, c4, d4⟩ := ih1
          exact ⟨_, rfl, rfl, i1, i2, i3, i4, sched.length, m1, m2, m3, m4, _, g1, g2, g3, g4, len,
            by rw [shownAfter_snoc _ _ _ _ _ (by omega)]; exact c1, d1,
            by rw [shownAfter_snoc _ _ _ _ _ (by omega)]; exact c2, d2, by rw [shownAfter_snoc _ _ _ _ _ (by omega)]; exact c3, d3,
            by rw [shownAfter_snoc _ _ _ _ _ (by omega)]; exact c4, d4, now, rfl⟩
        | ret c r =>
          simp [meterMachine] at hst; obtain ⟨rfl, rfl, rfl⟩ := hst
          exact absurd (by simp) (hin c r)
        | _ => exact absurd ih1 (by simp [SnapInv])
      · rw [Function.update_of_ne (Ne.symm hu)]
        exact ih1.snoc _
  have := key sched s' ls' tr h hin
  rw [h1] at this
  obtain ⟨sn', -, he, rest⟩ := this
  cases he
  exact rest

/-- C40 (partial): hence a snapshot during which the meter showed the same numbers all the time (in particular one not overlapping
any `Mark` or tick) is exactly those numbers. -/
theorem C40_quiet_partial (k : MConst F) (s s' : MShared F) (ls ls' : Nat → MPc F) (sched : List (Nat × MIn)) (tr : List (MEv F))
    (t : Nat) (sn : MeterSnapshot F) (h0 : ls t = .sn0) (h : (meterMachine k).run s ls sched = some (s', ls', tr))
    (h1 : ls' t = .ret .snapshot (.snap sn)) (hin : ∀ c r, MEv.call (.ret t c r) ∉ tr)
    (hq : ∀ i m, i ≤ sched.length → shownAfter k s ls sched i = some m → m = MShared.shown s) : sn = MShared.shown s := by
  obtain ⟨i1, i2, i3, i4, i5, m1, m2, m3, m4, m5, l1, l2, l3, l4, l5, a1, b1, a2, b2, a3, b3, a4, b4, a5, b5⟩ :=
    C40_ordered_cut_partial k s s' ls ls' sched tr t sn h0 h h1 hin
  have e1 := hq i1 m1 (by omega) a1
  have e2 := hq i2 m2 (by omega) a2
  have e3 := hq i3 m3 (by omega) a3
  have e4 := hq i4 m4 (by omega) a4
  have e5 := hq i5 m5 (by omega) a5
  subst e1 e2 e3 e4 e5
  obtain ⟨c, r1, r5, r15, rm⟩ := sn
  simp only at b1 b2 b3 b4 b5
  rw [← b1, ← b2, ← b3, ← b4, ← b5]

/-- A snapshot overlapping a `Mark`, meeting the hypotheses of the ordered-cut theorem. -/
example : ∃ s' ls' tr sn, (meterMachine k0).run .zero (Function.update (fun _ => MPc.idle) 0 .sn0)
      (go 0 .snapshot 0 1 ++ go 1 (.mark 5) (10 ^ 9) 15 ++ go 0 .snapshot 0 4) = some (s', ls', tr) ∧
    (match ls' 0 with | .ret .snapshot (.snap m) => some m | _ => none) = some sn ∧ sn.count = 0 ∧ sn.rateMean = 5 := by
  refine ⟨_, _, _, ⟨0, 0, 0, 0, 5⟩, rfl, by decide +kernel, by decide +kernel, by decide +kernel⟩

end conc

end GoMetrics
