import Verif.Spec.WallClock
import Verif.Props.Shards
import Verif.Props.TickLoop
import Mathlib.Analysis.Complex.Exponential

/-! Property theorems C112: the rates of a meter and the traffic by the clock on the wall. The code divides the events between two ticks
by 5 seconds, however long it was. -/

set_option linter.unusedSimpArgs false

namespace GoMetrics
open Spec F64

private theorem spans_snd : ∀ (ops : List MeterOp) (last : Instant) (cur : Int), MeterOp.stop ∉ ops → (spans last cur ops).map Prod.snd = intervalsFrom cur (marksAndTicks ops) := by
  intro ops
  induction ops with
  | nil => intro _ _ _; rfl
  | cons o ops ih =>
    intro last cur h
    have h' : MeterOp.stop ∉ ops := fun hm => h (.tail _ hm)
    cases o with
    | mark n t => exact ih _ _ h'
    | tick t =>
      show cur :: (spans t 0 ops).map Prod.snd = cur :: intervalsFrom 0 (marksAndTicks ops)
      rw [ih _ _ h']
    | stop => simp at h

private theorem fold_near {alpha lam E : ℝ} (ha0 : 0 ≤ alpha) (ha1 : alpha ≤ 1) : ∀ (xs : List ℝ) (r D : ℝ), |r - lam| ≤ E + D → (∀ x ∈ xs, |x - lam| ≤ E) →
    |xs.foldl (fun r x => r + alpha * (x - r)) r - lam| ≤ E + (1 - alpha) ^ xs.length * D := by
  intro xs
  induction xs with
  | nil => intro r D h _; simpa using h
  | cons x xs ih =>
    intro r D h hx
    have h1 := hx x List.mem_cons_self
    have := ih (r + alpha * (x - r)) ((1 - alpha) * D) ?_ fun y hy => hx y (.tail _ hy)
    · rw [List.foldl_cons, List.length_cons, pow_succ]
      calc _ ≤ _ := this
        _ = _ := by ring
    · have e : r + alpha * (x - r) - lam = (1 - alpha) * (r - lam) + alpha * (x - lam) := by ring
      rw [e]
      refine (abs_add_le _ _).trans ?_
      rw [abs_mul, abs_mul, abs_of_nonneg ha0, abs_of_nonneg (by linarith : 0 ≤ 1 - alpha)]
      have := mul_le_mul_of_nonneg_left h (by linarith : 0 ≤ 1 - alpha)
      have := mul_le_mul_of_nonneg_left h1 ha0
      nlinarith

private theorem pow_exp (m n : Nat) : (1 - (1 - Real.exp (-5 / 60 / (m : ℝ)))) ^ n = Real.exp (-(5 * n) / (60 * m)) := by
  rw [sub_sub_cancel, ← Real.exp_nat_mul]
  congr 1
  rcases Nat.eq_zero_or_pos m with rfl | hm
  · simp
  · have : (m : ℝ) ≠ 0 := by exact_mod_cast hm.ne'
    field_simp

/-- What the moving average of the intervals says about the traffic. -/
private theorem avg_near (t0 : Instant) (ops : List MeterOp) (hs : MeterOp.stop ∉ ops) (lam e late : ℝ) (hl : 0 ≤ lam) (hlt : 0 ≤ late) (htr : SteadyTraffic lam e (spans t0 0 ops))
    (hp : Punctual late (spans t0 0 ops)) (hn : ∀ n now, .mark n now ∈ ops → 0 ≤ n.toInt) (hne : spans t0 0 ops ≠ []) (m : Nat) :
    |movingAvg (1 - Real.exp (-5 / 60 / (m : ℝ))) ((intervals (marksAndTicks ops)).map fun c : Int => (c : ℝ) / 5) - lam| ≤
      (lam * late + e) / 5 + Real.exp (-(5 * ((spans t0 0 ops).length - 1 : Nat)) / (60 * m)) * lam := by
  have hi : intervals (marksAndTicks ops) = (spans t0 0 ops).map Prod.snd := (spans_snd ops t0 0 hs).symm
  have h0 := intervals_nonneg _ (mt_updates ops hn)
  rw [hi] at h0 ⊢
  generalize spans t0 0 ops = l at *
  cases l with
  | nil => simp at hne
  | cons p l =>
    have hE : Real.exp (-5 / 60 / (m : ℝ)) ≤ 1 := by
      rw [Real.exp_le_one_iff]
      exact div_nonpos_of_nonpos_of_nonneg (by norm_num) (by positivity)
    have key := fold_near (alpha := 1 - Real.exp (-5 / 60 / (m : ℝ))) (lam := lam) (E := (lam * late + e) / 5) (by linarith) (by linarith [Real.exp_pos (-5 / 60 / (m : ℝ))])
      (((l.map Prod.snd).map fun c : Int => (c : ℝ) / 5)) ((p.2 : ℝ) / 5) lam ?_ ?_
    · rw [List.length_map, List.length_map, pow_exp] at key
      simpa [movingAvg] using key
    · obtain ⟨p0, p1, -⟩ := hp
      have ht := htr p List.mem_cons_self
      have hc : (0 : ℝ) ≤ p.2 := by exact_mod_cast h0 p.2 (by simp)
      have hlen : (0 : ℝ) ≤ (p.1 : ℝ) / 10 ^ 9 := by
        have : (0 : ℝ) ≤ p.1 := by exact_mod_cast p0
        positivity
      have hm1 := mul_le_mul_of_nonneg_left p1 hl
      have hm2 := mul_nonneg hl hlen
      have he : 0 ≤ e := (abs_nonneg _).trans ht
      have hlate : 0 ≤ lam * late := mul_nonneg hl hlt
      rw [abs_le] at ht ⊢
      constructor <;> nlinarith [ht.1, ht.2]
    · intro x hx
      obtain ⟨c, hc, rfl⟩ := List.mem_map.1 hx
      obtain ⟨q, hq, rfl⟩ := List.mem_map.1 hc
      have ht := htr q (.tail _ hq)
      have hq' := hp.2.2 q hq
      have : |lam * ((q.1 : ℝ) / 10 ^ 9 - 5)| ≤ lam * late := by
        rw [abs_mul, abs_of_nonneg hl]
        exact mul_le_mul_of_nonneg_left hq' hl
      rw [abs_le] at ht this ⊢
      constructor <;> nlinarith [ht.1, ht.2, this.1, this.2]

/-- C112: traffic of `lam` events per second, give or take `e` events per interval, and a clock that is at most `late` seconds late. After
`n` ticks each of the rates of the last `m` = 1, 5, 15 minutes is `lam`, give or take `(lam·late + e)/5` and what is left of the first interval,
`exp(-5(n-1)/60m)·lam`. -/
theorem C112_rate (t0 : Instant) (ops : List MeterOp) (hs : MeterOp.stop ∉ ops) (lam e late : ℝ) (hl : 0 ≤ lam) (hlt : 0 ≤ late) (htr : SteadyTraffic lam e (spans t0 0 ops))
    (hp : Punctual late (spans t0 0 ops)) (hn : ∀ n now, .mark n now ∈ ops → 0 ≤ n.toInt) (hB : ∀ p ∈ spans t0 0 ops, p.2 ≤ maxInt64) (hne : spans t0 0 ops ≠ []) :
    ∃ b : Meter ℝ, (Meter.std (StandardMeter.new t0)).run ops = .ok b ∧ ∀ q ∈ (rates : List (Nat × (Meter ℝ → ℝ))),
      |q.2 b - lam| ≤ (lam * late + e) / 5 + Real.exp (-(5 * ((spans t0 0 ops).length - 1 : Nat)) / (60 * q.1)) * lam := by
  obtain ⟨b, eb, hb⟩ := rates_real t0 ops
  refine ⟨b, eb, fun q hq => ?_⟩
  rw [hb q hq, no_wrap ops hn]
  · exact avg_near t0 ops hs lam e late hl hlt htr hp hn hne q.1
  · intro c hc
    rw [show intervals (marksAndTicks ops) = _ from (spans_snd ops t0 0 hs).symm] at hc
    obtain ⟨p, hp, rfl⟩ := List.mem_map.1 hc
    exact hB p hp

/-- C112 in float64, with at most `B` events per interval: `20 m u B` more (`u = 2^-53`), however long the meter runs. -/
theorem C112_rate_ieee (t0 : Instant) (ops : List MeterOp) (hs : MeterOp.stop ∉ ops) (lam e late : ℝ) (hl : 0 ≤ lam) (hlt : 0 ≤ late) (htr : SteadyTraffic lam e (spans t0 0 ops))
    (hp : Punctual late (spans t0 0 ops)) (hn : ∀ n now, .mark n now ∈ ops → 0 ≤ n.toInt) (B : Int) (hB : ∀ p ∈ spans t0 0 ops, p.2 ≤ B) (hB1 : 1 ≤ B) (hm : B ≤ maxInt64)
    (hne : spans t0 0 ops ≠ []) :
    ∃ b : Meter F64, (Meter.std (StandardMeter.new t0)).run ops = .ok b ∧ ∀ q ∈ (rates : List (Nat × (Meter F64 → F64))), ∃ r : ℚ, q.2 b = .fin r ∧
      |(r : ℝ) - lam| ≤ (lam * late + e) / 5 + Real.exp (-(5 * ((spans t0 0 ops).length - 1 : Nat)) / (60 * q.1)) * lam + 20 * q.1 * ((uu : ℚ) : ℝ) * B := by
  obtain ⟨b, eb, hb⟩ := rates_f64 t0 ops B hn (fun c hc => by
    rw [show intervals (marksAndTicks ops) = _ from (spans_snd ops t0 0 hs).symm] at hc
    obtain ⟨p, hp, rfl⟩ := List.mem_map.1 hc
    exact hB p hp) hB1 hm
  refine ⟨b, eb, fun q hq => ?_⟩
  obtain ⟨r, er, hr⟩ := hb q hq
  refine ⟨r, er, ?_⟩
  have h := avg_near t0 ops hs lam e late hl hlt htr hp hn hne q.1
  rw [abs_le] at h hr ⊢
  constructor <;> linarith [h.1, h.2, hr.1, hr.2]

/-! ### What is not so -/

private theorem avg_replicate (alpha c : ℝ) (n : Nat) : movingAvg alpha (List.replicate (n + 1) c) = c := by
  rw [List.replicate_succ]
  show List.foldl _ c (List.replicate n c) = c
  induction n with
  | zero => rfl
  | succ n ih => rw [List.replicate_succ, List.foldl_cons, sub_self, mul_zero, add_zero]; exact ih

/-- The calls of a meter made at 0 with traffic of `c` events in each of `n` intervals of `d` nanoseconds. -/
def regular (d : Int) (c : Int64) (from_ : Instant) : Nat → List MeterOp
  | 0 => []
  | n + 1 => .mark c (from_ + d) :: .tick (from_ + d) :: regular d c (from_ + d) n

private theorem regular_spans (d : Int) (c : Int64) (n : Nat) (t : Instant) : spans t 0 (regular d c t n) = List.replicate n (d, c.toInt) ∧ MeterOp.stop ∉ regular d c t n := by
  induction n generalizing t with
  | zero => simp [regular, spans]
  | succ n ih =>
    simp only [regular, spans, List.replicate_succ, ih (t + d)]
    constructor
    · simp
    · simpa using (ih (t + d)).2

private theorem wrap_small {c : Int64} : wrap64 c.toInt = c.toInt := bmod_small (i64_range c).1 (i64_range c).2

/-- C112 (the code violates the plain claim that rates are events per second): the clock comes `d` nanoseconds apart instead of 5 seconds, as when every pass over the
meters takes that long. Then each rate is too high by the factor `d / 5 s`, from the first tick on and for ever. -/
theorem C112_slow_clock (d : Int) (hd : 0 < d) (c : Int64) (n : Nat) :
    ∃ b : Meter ℝ, (Meter.std (StandardMeter.new 0)).run (regular d c 0 (n + 1)) = .ok b ∧ SteadyTraffic (c.toInt / (d / 10 ^ 9)) 0 (spans 0 0 (regular d c 0 (n + 1))) ∧
      ∀ q ∈ (rates : List (Nat × (Meter ℝ → ℝ))), q.2 b = c.toInt / (d / 10 ^ 9) * (d / (5 * 10 ^ 9)) := by
  obtain ⟨b, eb, hb⟩ := rates_real 0 (regular d c 0 (n + 1))
  obtain ⟨h1, h2⟩ := regular_spans d c (n + 1) 0
  have hd' : (d : ℝ) ≠ 0 := by exact_mod_cast hd.ne'
  refine ⟨b, eb, ?_, fun q hq => ?_⟩
  · rw [h1]
    intro p hp
    obtain rfl := List.eq_of_mem_replicate hp
    have : (c.toInt : ℝ) - c.toInt / ((d : ℝ) / 10 ^ 9) * (d / 10 ^ 9) = 0 := by field_simp; ring
    rw [this]; simp
  · rw [hb q hq, show intervals (marksAndTicks (regular d c 0 (n + 1))) = _ from (spans_snd _ 0 0 h2).symm, h1, List.map_replicate, List.map_replicate, avg_replicate, wrap_small]
    field_simp

/-- C112 (the same): a meter made one second before a tick, with one event in each second. After a minute its 15-minute rate still says that there is
about one event in four seconds. -/
theorem C112_start_refuted : ∃ (ops : List MeterOp) (b : Meter ℝ), (Meter.std (StandardMeter.new 0)).run ops = .ok b ∧ SteadyTraffic 1 0 (spans 0 0 ops) ∧ Punctual 0 (spans 0 0 ops) ∧
    (spans 0 0 ops).length = 13 ∧ b.rate15 < 26 / 100 := by
  obtain ⟨b, eb, hb⟩ := rates_real 0 (.mark 1 (10 ^ 9) :: .tick (10 ^ 9) :: regular (5 * 10 ^ 9) 5 (10 ^ 9) 12)
  have hs : spans 0 0 (.mark 1 (10 ^ 9) :: .tick (10 ^ 9) :: regular (5 * 10 ^ 9) 5 (10 ^ 9) 12) = (10 ^ 9, 1) :: List.replicate 12 (5 * 10 ^ 9, 5) := by
    simp only [spans, (regular_spans _ _ _ _).1]
    rfl
  refine ⟨_, b, eb, ?_, ?_, ?_, ?_⟩
  · rw [hs]
    intro p hp
    rcases List.mem_cons.1 hp with rfl | hp
    · norm_num
    · obtain rfl := List.eq_of_mem_replicate hp
      norm_num
  · rw [hs]
    refine ⟨by norm_num, by norm_num, fun q hq => ?_⟩
    obtain rfl := List.eq_of_mem_replicate hq
    norm_num
  · rw [hs]; rfl
  · have h := hb (15, Meter.rate15) (by simp [rates])
    have h2 : MeterOp.stop ∉ (.mark 1 (10 ^ 9) :: .tick (10 ^ 9) :: regular (5 * 10 ^ 9) 5 (10 ^ 9) 12 : List MeterOp) := by
      simp only [List.mem_cons, reduceCtorEq, false_or]
      exact (regular_spans (5 * 10 ^ 9) 5 12 (10 ^ 9)).2
    rw [show intervals (marksAndTicks (.mark 1 (10 ^ 9) :: .tick (10 ^ 9) :: regular (5 * 10 ^ 9) 5 (10 ^ 9) 12)) = _ from (spans_snd _ 0 0 h2).symm, hs, List.map_cons, List.map_cons,
      List.map_replicate, List.map_replicate, show wrap64 5 = 5 by decide, show wrap64 1 = 1 by decide, show ((1 : Int) : ℝ) / 5 :: List.replicate 12 (((5 : Int) : ℝ) / 5) = [((1 : Int) : ℝ) / 5] ++ List.replicate 12 (((5 : Int) : ℝ) / 5) from rfl,
      movingAvg_steady _ _ _ _ (by simp), pow_exp] at h
    change b.rate15 = _ at h
    rw [h]
    have := Real.add_one_le_exp (-(5 * ((12 : Nat) : ℝ)) / (60 * ((15 : Nat) : ℝ)))
    norm_num [movingAvg] at this ⊢
    linarith

/-! ### The clock -/

private theorem tickerRun_snoc {period : Int} {relay : Bool} : ∀ (is : List TickIn) (s : TickS) (i : TickIn), tickerRun period relay s (is ++ [i]) =
    (tickerRun period relay s is).bind fun p => (tickerStep period relay p.1 i).map fun q => (q.1, p.2 ++ q.2) := by
  intro is
  induction is with
  | nil =>
    intro s i
    simp only [List.nil_append, tickerRun, Option.bind_some, List.nil_append]
    cases tickerStep period relay s i with
    | none => rfl
    | some q => simp
  | cons j is ih =>
    intro s i
    simp only [List.cons_append, tickerRun]
    cases tickerStep period relay s j with
    | none => rfl
    | some q =>
      simp only [ih]
      cases tickerRun period relay q.1 is with
      | none => rfl
      | some p =>
        simp only [Option.bind_some]
        cases tickerStep period relay p.1 i with
        | none => rfl
        | some r => simp

private theorem startTimes_append (a b : List TickEv) : startTimes (a ++ b) = startTimes a ++ startTimes b := by
  induction a with
  | nil => rfl
  | cons e a ih => cases e <;> simp [startTimes, ih]

/-- C112, the clock (`time.NewTicker(5e9)` and the loop around `tickMeters`): if neither the timer nor the loop ever keeps a tick waiting for longer than `late`, less than a
period, then no tick is lost and the `i`-th pass begins between `i·period` and `i·period + late`. So passes are `period` apart, give or take `late`. -/
theorem C112_clock {period late : Int} (hlate : late < period) {is : List TickIn} {s : TickS} {tr : List TickEv} (h : tickerRun period false (.init period) is = some (s, tr))
    (hnl : NeverLate period late (.init period) is) :
    (∀ (i : Nat) (t : Int), (startTimes tr)[i]? = some t → (i + 1) * period ≤ t ∧ t ≤ (i + 1) * period + late) ∧ s.now ≤ ((startTimes tr).length + 1) * period + late := by
  suffices H : (∀ (i : Nat) (t : Int), (startTimes tr)[i]? = some t → (i + 1) * period ≤ t ∧ t ≤ (i + 1) * period + late) ∧
      s.due = ((startTimes tr).length + 1 + if s.full then 1 else 0) * period ∧ (s.full = true → s.due - period ≤ s.now) by
    refine ⟨H.1, ?_⟩
    obtain ⟨h1, h2⟩ := hnl is [] s tr (by simp) h
    have := H.2.1
    split at this
    · have := h2 (by assumption)
      have : s.due - period = ((startTimes tr).length + 1) * period := by rw [‹s.due = _›]; ring
      omega
    · rw [add_zero] at this
      omega
  induction is using List.reverseRecOn generalizing s tr with
  | nil =>
    cases h
    simp [startTimes, TickS.init]
  | append_singleton is i ih =>
    rw [tickerRun_snoc] at h
    cases h1 : tickerRun period false (.init period) is with
    | none => rw [h1] at h; cases h
    | some p =>
      obtain ⟨s1, tr1⟩ := p
      obtain ⟨a, b, c⟩ := ih h1 fun is₁ is₂ s₁ tr₁ e => hnl is₁ (is₂ ++ [i]) s₁ tr₁ (by rw [e, List.append_assoc])
      obtain ⟨d1, d2⟩ := hnl is [i] s1 tr1 rfl h1
      rw [h1] at h
      simp only [Option.bind_some, Option.map_eq_some_iff] at h
      obtain ⟨q, hq, e⟩ := h
      cases e
      cases i with
      | pass dt =>
        simp only [tickerStep, Option.some.injEq] at hq
        subst hq
        rw [List.append_nil]
        exact ⟨a, b, fun hf => by have := c hf; dsimp only at *; omega⟩
      | fire =>
        simp only [tickerStep] at hq
        split at hq
        · rename_i hf
          simp only [Option.some.injEq] at hq
          subst hq
          have hnf : s1.full = false := by
            by_contra hx
            have := d2 (by simpa using hx)
            omega
          rw [hnf] at b
          have hz : (s1.now - s1.due) / period = 0 := Int.ediv_eq_zero_of_lt (by omega) (by omega)
          rw [startTimes_append, show startTimes [TickEv.fired s1.now] = [] from rfl, List.append_nil]
          refine ⟨a, ?_, fun _ => ?_⟩
          · dsimp only
            rw [hz, b]
            simp
            ring
          · dsimp only
            rw [hz]
            omega
        · cases hq
      | take =>
        simp only [tickerStep] at hq
        split at hq
        · rename_i hf; simp at hf
        · cases hq
      | start =>
        simp only [tickerStep] at hq
        split at hq
        · cases hq
        · simp only [Bool.false_eq_true, if_false] at hq
          split at hq
          · rename_i hfull
            simp only [Option.some.injEq] at hq
            subst hq
            have hc := c hfull
            have hd := d2 hfull
            rw [hfull] at b
            simp only [if_true] at b
            have hb : s1.due - period = ((startTimes tr1).length + 1) * period := by rw [b]; ring
            rw [startTimes_append, show startTimes [TickEv.started s1.now] = [s1.now] from rfl]
            refine ⟨?_, ?_, fun hx => by simp at hx⟩
            · intro i t hi
              rw [List.getElem?_append] at hi
              split at hi
              · exact a i t hi
              · rename_i hlt
                have hi0 : i - (startTimes tr1).length = 0 := by
                  by_contra hne
                  rw [List.getElem?_eq_none (by simp; omega)] at hi
                  cases hi
                rw [hi0] at hi
                have hi' : i = (startTimes tr1).length := by omega
                simp at hi
                subst hi
                rw [hi']
                omega
            · dsimp only
              rw [b, List.length_append]
              simp
          · cases hq
      | stop =>
        simp only [tickerStep] at hq
        split at hq
        · simp only [Option.some.injEq] at hq
          subst hq
          rw [startTimes_append, show startTimes [TickEv.stopped s1.now] = [] from rfl, List.append_nil]
          exact ⟨a, b, c⟩
        · cases hq

/-- C112 (what happens otherwise): every pass takes 9 s. Ticks are lost, and from the second pass on the passes are 9 s apart. -/
theorem C112_busy_refuted : ∃ (is : List TickIn) (s : TickS) (tr : List TickEv), tickerRun 5 false (.init 5) is = some (s, tr) ∧ startTimes tr = [5, 14, 23, 32] ∧ 7 * 5 ≤ s.now :=
  ⟨[.pass 5, .fire, .start, .pass 5, .fire, .pass 4, .stop, .start, .pass 1, .fire, .pass 5, .fire, .pass 3, .stop, .start, .pass 2, .fire, .pass 5, .fire, .pass 2, .stop, .start, .pass 3], _, _, rfl, by decide, by decide⟩

example : MeterOp.stop ∉ regular (5 * 10 ^ 9) 10 0 3 ∧ SteadyTraffic 2 0 (spans 0 0 (regular (5 * 10 ^ 9) 10 0 3)) ∧ Punctual 0 (spans 0 0 (regular (5 * 10 ^ 9) 10 0 3)) ∧
    (∀ n now, .mark n now ∈ regular (5 * 10 ^ 9) 10 0 3 → 0 ≤ n.toInt) ∧ (∀ p ∈ spans 0 0 (regular (5 * 10 ^ 9) 10 0 3), p.2 ≤ 10) ∧ spans 0 0 (regular (5 * 10 ^ 9) 10 0 3) ≠ [] := by
  refine ⟨by decide, ?_, ?_, ?_, by decide, by decide⟩
  · intro p hp
    rw [(regular_spans _ _ _ _).1] at hp
    obtain rfl := List.eq_of_mem_replicate hp
    rw [show (10 : Int64).toInt = 10 by decide]
    norm_num
  · rw [(regular_spans _ _ _ _).1]
    refine ⟨by norm_num, by norm_num, fun q hq => ?_⟩
    obtain rfl := List.eq_of_mem_replicate hq
    norm_num
  · intro n now h
    simp [regular] at h
    rcases h with h | h | h <;> rw [h.1] <;> decide

example : NeverLate 5 1 (.init 5) [.pass 6, .fire, .start, .pass 1, .stop, .pass 4, .fire, .start] ∧
    ∃ s tr, tickerRun 5 false (.init 5) [.pass 6, .fire, .start, .pass 1, .stop, .pass 4, .fire, .start] = some (s, tr) ∧ startTimes tr = [6, 11] := by
  refine ⟨?_, _, _, rfl, by decide⟩
  intro is₁ is₂ s₁ tr₁ e h
  have hm : is₁ ∈ List.inits [TickIn.pass 6, .fire, .start, .pass 1, .stop, .pass 4, .fire, .start] := (List.mem_inits _ _).2 ⟨is₂, e.symm⟩
  simp only [List.inits, List.map_cons, List.map_nil, List.mem_cons, List.not_mem_nil, or_false] at hm
  rcases hm with rfl | rfl | rfl | rfl | rfl | rfl | rfl | rfl | rfl <;> cases h <;> decide

end GoMetrics
