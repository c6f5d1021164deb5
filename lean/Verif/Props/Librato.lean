import Verif.Lemmas.Librato
import Verif.Props.Export
import Verif.Props.Stats

/-! Property theorems C67 and C68: the Librato client. -/

set_option linter.unusedSimpArgs false
set_option linter.unusedSectionVars false

namespace GoMetrics
open Spec

variable {F : Type} [GoFloat F] [GoSqrt F] [GoExp F]

/-! ### C67 -/

private theorem secs_toInt (d : Int64) : (d / 1000000000).toInt = d.toInt.tdiv 1000000000 := by
  rw [Int64.toInt_div_of_ne_right _ _ (by decide)]
  rfl

private theorem i64_range' (a : Int64) : -2 ^ 63 ≤ a.toInt ∧ a.toInt < 2 ^ 63 := ⟨Int64.le_toInt a, Int64.toInt_lt a⟩

/-- C67, time stamp: for an interval of `k` full seconds (and perhaps a fraction), the stamp is a multiple of `k` seconds, not after `now`, and less than `k` seconds before it. -/
theorem C67_time (w : World F) (env : Env F) (d now : Int64) (ns source : Str) (ps : List F) (g : Reg) (w' : World F) (b : Batch F)
    (hd : 1000000000 ≤ d.toInt) (hn : 0 ≤ now.toInt) (h : buildRequest env { newReporter d source ps with namesp := ns } now g w = (w', .ok b)) :
    d.toInt / 1000000000 ∣ b.measureTime.toInt ∧ b.measureTime.toInt ≤ now.toInt ∧ now.toInt < b.measureTime.toInt + d.toInt / 1000000000 := by
  have hk := secs_toInt d
  rw [Int.tdiv_eq_ediv_of_nonneg (by omega)] at hk
  by_cases h0 : (newReporter d source ps).intervalSec = 0
  · rw [buildRequest, if_pos h0] at h
    cases h
  · rw [buildRequest, if_neg h0] at h
    split at h
    · cases h
      simp only [newReporter]
      have hk1 : 0 < (d / 1000000000).toInt := by omega
      have hdv : (now / (d / 1000000000)).toInt = now.toInt / (d / 1000000000).toInt := by
        rw [Int64.toInt_div_of_ne_right, Int.tdiv_eq_ediv_of_nonneg hn]
        rintro e
        rw [e] at hk1
        revert hk1
        decide
      have h1 := Int.ediv_mul_le now.toInt (b := (d / 1000000000).toInt) (by omega)
      have h2 := Int.lt_ediv_add_one_mul_self now.toInt hk1
      have h3 : 0 ≤ now.toInt / (d / 1000000000).toInt := Int.ediv_nonneg hn (by omega)
      have hm : (now / (d / 1000000000) * (d / 1000000000)).toInt = now.toInt / (d / 1000000000).toInt * (d / 1000000000).toInt := by
        rw [Int64.toInt_mul, hdv]
        refine bmod_small ?_ ?_
        · have := mul_nonneg h3 hk1.le
          omega
        · have := i64_range' now
          omega
      rw [hm, ← hk]
      refine ⟨⟨_, mul_comm _ _⟩, h1, ?_⟩
      rw [add_mul, one_mul] at h2
      exact h2
    · cases h

/-- C67 is false for intervals under one second: then `BuildRequest` panics with a division by zero, for every registry. -/
theorem C67_refuted_subsecond (w : World F) (env : Env F) (d now : Int64) (ns source : Str) (ps : List F) (g : Reg) (hd : |d.toInt| < 1000000000) :
    buildRequest env { newReporter d source ps with namesp := ns } now g w = (w, .error .divZero) := by
  have : d / 1000000000 = 0 := by
    apply Int64.toInt_inj.1
    rw [secs_toInt]
    have := abs_lt.1 hd
    have : d.toInt.tdiv 1000000000 = 0 := by
      rcases le_total 0 d.toInt with h | h
      · rw [Int.tdiv_eq_ediv_of_nonneg h]; omega
      · have e : d.toInt = -(-d.toInt) := by omega
        rw [e, Int.neg_tdiv, Int.tdiv_eq_ediv_of_nonneg (by omega)]; omega
    rw [this]
    rfl
  simp only [buildRequest, newReporter, this, if_true]

example : |(500000000 : Int64).toInt| < 1000000000 := by decide

/-- C67 is false for intervals that are not full seconds: for one of 1.5 s, the stamp at 1 s is 1 s, which is no multiple of the interval. -/
theorem C67_refuted_fraction : ∃ (d now : Int64) (b : Batch F) (w' : World F), d.toInt = 1500000000 ∧ now.toInt = 1 ∧
    buildRequest (envAt 0) (newReporter d [] []) now (.std 0) World.init = (w', .ok b) ∧ ¬ d.toInt ∣ b.measureTime.toInt * 1000000000 :=
  ⟨1500000000, 1, ⟨1, [], [], []⟩, World.init, by decide, by decide, by
    simp only [buildRequest, newReporter, show (1500000000 : Int64) / 1000000000 = 1 by decide]
    rfl, by
    show ¬ (1500000000 : Int64).toInt ∣ (1 : Int64).toInt * 1000000000
    decide⟩

section batch
variable (h : List (Env F × Op F)) (env : Env F) (g : Reg) (id : Nat) (hb : base g = some id)
include hb

theorem build_cases (cfg : Reporter F) (now : Int64) (h0 : cfg.intervalSec ≠ 0) :
    (∀ w' b, buildRequest env cfg now g (World.init.run h) = (w', .ok b) → Sim (World.init.run h) w' ∧
      Batched (World.init.run h) id (prefixes g).flatten b.counters b.gauges fun name r o cs gs =>
        LibratoBlock (World.init.run h) env cfg.percentiles (libratoName cfg.namesp name) r o cs gs ∧ ∀ m ∈ cs ++ gs, periodOk cfg.interval m) ∧
    (∀ w' e, buildRequest env cfg now g (World.init.run h) = (w', .error e) → PercentileFails (World.init.run h) cfg.percentiles) := by
  have hw : (World.init.run h : World F).Ok := run_ok h
  generalize World.init.run h = w at *
  have hm := eachList_mem env g id hw
  have hk := eachList_nodup env g id hw
  have hl : ∀ e ∈ (env.order (w.regs id)).filter (fun e => (prefixes g).flatten.isPrefixOf e.1), ∃ o, w.objs e.2 = some o ∧ o.isMetric = true := by
    intro e he
    have := ((hm e.1 e.2).1 he).1
    rw [gets_eq] at this
    exact hw.metric id _ (lookup_some_mem this)
  have key := visit_librato (env := env) (cfg := cfg) hw _ hl (out := ([], [])) (Sim.refl w) hw
  simp only [buildRequest, if_neg h0, each, eachList_base env g id hb]
  generalize (env.order (w.regs id)).filter (fun e => (prefixes g).flatten.isPrefixOf e.1) = l at *
  rcases hx : visit (libratoCallback env cfg) l (w, ([], [])) with ⟨⟨w2, out⟩, p | ⟨⟩⟩
  · simp only [hx] at key ⊢
    exact ⟨by simp, fun _ _ _ => key⟩
  · simp only [hx] at key ⊢
    obtain ⟨k1, -, bs, k2, k3, k4⟩ := key
    refine ⟨?_, by simp⟩
    rintro w' b hwb
    simp only [Prod.mk.injEq, Except.ok.injEq] at hwb
    obtain ⟨rfl, rfl⟩ := hwb
    refine ⟨k1, ?_⟩
    simp only
    rw [List.nil_append] at k2 k3
    rw [k2, k3]
    have blk : ∃ blocks : List (Str × Ref × List (Measurement F) × List (Measurement F)), bs = (blocks.map fun b => b.2.2) ∧ (blocks.map fun b => b.1) = l.map Prod.fst ∧
        ∀ b ∈ blocks, (b.1, b.2.1) ∈ l ∧ ∃ o, w.objs b.2.1 = some o ∧ LibratoBlock w env cfg.percentiles (libratoName cfg.namesp b.1) b.2.1 o b.2.2.1 b.2.2.2 ∧
          ∀ m ∈ b.2.2.1 ++ b.2.2.2, periodOk cfg.interval m := by
      clear hk hm hl hx k2 k3
      induction k4 with
      | nil => exact ⟨[], rfl, rfl, by simp⟩
      | @cons e b l bs h1 _ ih =>
        obtain ⟨blocks, j1, j2, j3⟩ := ih
        refine ⟨(e.1, e.2, b) :: blocks, by simp [j1], by simp [j2], fun x hx => ?_⟩
        rcases List.mem_cons.1 hx with rfl | hx
        · exact ⟨by simp, h1⟩
        · exact ⟨List.mem_cons_of_mem _ (j3 x hx).1, (j3 x hx).2⟩
    obtain ⟨blocks, j1, j2, j3⟩ := blk
    refine ⟨blocks, by rw [j1]; simp [List.map_map, Function.comp_def], by rw [j1]; simp [List.map_map, Function.comp_def], by rw [j2]; exact hk, fun name => ?_, fun name r cs gs hx => ?_⟩
    · rw [j2]
      constructor
      · intro hn
        obtain ⟨e, he, rfl⟩ := List.mem_map.1 hn
        have := (hm e.1 e.2).1 he
        exact ⟨by simp [this.1], this.2⟩
      · rintro ⟨h4, h5⟩
        obtain ⟨r, hr⟩ := Option.ne_none_iff_exists'.1 h4
        exact List.mem_map.2 ⟨(name, r), (hm name r).2 ⟨hr, h5⟩, rfl⟩
    · obtain ⟨h4, o, h5, h6⟩ := j3 _ hx
      exact ⟨((hm _ _).1 h4).1, o, h5, h6⟩

/-- C67, contents: the batch has, for each metric of the registry and for nothing else, the counters and gauges that `LibratoBlock` lists, with the values that
the accessors had at the start, and with the interval as period; the registry and what the metrics report stay as they are. (Partial: counters that are not positive
are left out, see `C67_refuted_negative`, and so are healthchecks.) -/
theorem C67_batch_partial (d now : Int64) (ns source : Str) (ps : List F) (w' : World F) (b : Batch F)
    (hr : buildRequest env { newReporter d source ps with namesp := ns } now g (World.init.run h) = (w', .ok b)) :
    let w : World F := World.init.run h
    b.source = source ∧
    (Batched w id (prefixes g).flatten b.counters b.gauges fun name r o cs gs => LibratoBlock w env ps (libratoName ns name) r o cs gs ∧ ∀ m ∈ cs ++ gs, periodOk d m) ∧
    w'.regs = w.regs ∧ ∀ r c, orderFree c = true → observe w' env r c = observe w env r c := by
  intro w
  by_cases h0 : (newReporter d source ps).intervalSec = 0
  · rw [buildRequest, if_pos h0] at hr
    cases hr
  · have := build_cases h env g id hb { newReporter d source ps with namesp := ns } now h0
    have hs : b.source = source := by
      rw [buildRequest, if_neg h0] at hr
      split at hr
      · cases hr; rfl
      · cases hr
    replace this := this.1 _ _ hr
    exact ⟨hs, this.2, this.1.regs, fun r c hc => this.1.observe env r c (readOK_orderFree hc)⟩

end batch

/-- C67, termination: `BuildRequest` returns a batch if the interval is at least one second, no requested percentile is NaN and the samples are of a size a Go slice can
have. -/
theorem C67_returns [GoSqrt F64] [GoExp F64] (h : List (Env F64 × Op F64)) (env : Env F64) (g : Reg) (id : Nat) (hb : base g = some id) (d now : Int64) (ns source : Str) (ps : List F64)
    (hd : 1000000000 ≤ d.toInt) (hp : ∀ p ∈ ps, p ≠ .nan) (hl : ∀ r vs, recorded (World.init.run h) r = some vs → (vs.length : Int) ≤ maxInt64) :
    ∃ w' b, buildRequest env { newReporter d source ps with namesp := ns } now g (World.init.run h) = (w', .ok b) := by
  have h0 : (newReporter d source ps).intervalSec ≠ 0 := by
    intro h0
    have := secs_toInt d
    rw [show d / 1000000000 = 0 from h0] at this
    have h1 : d.toInt.tdiv 1000000000 = 0 := this.symm
    rw [Int.tdiv_eq_ediv_of_nonneg (by omega)] at h1
    omega
  have := build_cases h env g id hb { newReporter d source ps with namesp := ns } now h0
  rcases hx : buildRequest env { newReporter d source ps with namesp := ns } now g (World.init.run h) with ⟨w', e | b⟩
  · obtain ⟨r, vs, h1, p, h2, e, h3⟩ := this.2 _ _ hx
    obtain ⟨s, ws, h4⟩ := C14_percentile_total vs p (hp p h2) (hl r vs h1)
    rw [h4] at h3
    cases h3
  · exact ⟨w', b, rfl⟩

/-- C67 is false for negative counters: a counter that counts -1 leaves no trace in the batch. -/
theorem C67_refuted_negative : ∃ (h : List (Env F × Op F)) (env : Env F) (name : Str) (r : Ref), gets (World.init.run h : World F) 0 name = some r ∧
    observe (World.init.run h : World F) env r .count = .ok (.int (-1)) ∧
    ∃ w' t, buildRequest env (newReporter 1000000000 [] []) 5 (.std 0) (World.init.run h : World F) = (w', .ok ⟨t, [], [], []⟩) :=
  ⟨[(envAt 0, .new .counter), (envAt 0, .call 0 (.dec 1)), (envAt 1, .reg (.std 0) (.register [99] (.obj 0)))], envAt 2, [99], 0, rfl, rfl, _, _, rfl⟩

-- A counter "c" with 3, a histogram "h" with 5 and 7, a meter "m" and a timer "t" with one event.
private def batchHistory : List (Env F × Op F) :=
  [(envAt 0, .new .counter), (envAt 0, .new (.uniform 4)), (envAt 0, .new (.hist 1)), (envAt 0, .new .meter), (envAt 0, .new (.uniform 4)), (envAt 0, .new (.hist 4)), (envAt 0, .new .meter),
   (envAt 0, .new (.customTimer 5 6)), (envAt 1, .call 0 (.inc 3)), (envAt 1, .call 2 (.update 5)), (envAt 1, .call 2 (.update 7)), (envAt 1, .call 7 (.updateD 2000)),
   (envAt 1, .reg (.std 0) (.register [99] (.obj 0))), (envAt 1, .reg (.std 0) (.register [104] (.obj 2))), (envAt 1, .reg (.std 0) (.register [109] (.obj 3))),
   (envAt 1, .reg (.std 0) (.register [116] (.obj 7)))]

private theorem batch_recorded : ∀ r vs, recorded (World.init.run batchHistory : World F64) r = some vs → (vs.length : Int) ≤ maxInt64 := by
  intro r vs h
  rcases Nat.lt_or_ge r 8 with hr | hr
  · have key : ∀ r < 8, ((recorded (World.init.run batchHistory : World F64) r).all fun vs => decide ((vs.length : Int) ≤ maxInt64)) = true := by decide +kernel
    have := key r hr
    rw [h] at this
    simpa using this
  · have : (World.init.run batchHistory : World F64).objs r = none := (run_ok batchHistory).obj r hr
    simp [recorded, histRecorded, this] at h

/-- The hypotheses of the theorems above can be met. -/
example : ∃ w' b, buildRequest (envAt 2) { newReporter 60000000000 [] [.fin (1 / 2), .fin (99 / 100)] with namesp := [110] } 1000 (.std 0) (World.init.run batchHistory : World F64) = (w', .ok b) :=
  C67_returns batchHistory (envAt 2) (.std 0) 0 rfl _ _ _ _ _ (by decide) (by simp) batch_recorded

/-- C67, period, exact arithmetic: the float period of a measurement is the interval in seconds, the integer one its whole part. -/
theorem C67_period {K : Type} [_root_.Field K] [LinearOrder K] [IsStrictOrderedRing K] [FloorRing K] (d : Int64) (hd : 0 ≤ d.toInt) :
    (durationSeconds d : K) = (d.toInt : K) / 1000000000 ∧ (Int64.ofInt (GoFloat.toInt (durationSeconds d : K))).toInt = d.toInt / 1000000000 := by
  have h1 : (d / 1000000000).toInt = d.toInt / 1000000000 := by rw [secs_toInt, Int.tdiv_eq_ediv_of_nonneg hd]
  have h2 : (d % 1000000000).toInt = d.toInt % 1000000000 := by
    rw [Int64.toInt_mod]
    show d.toInt.tmod 1000000000 = _
    rw [Int.tmod_eq_emod_of_nonneg hd]
  have h3 : (durationSeconds d : K) = (d.toInt : K) / 1000000000 := by
    show ((d / 1000000000).toInt : K) + ((d % 1000000000).toInt : K) / ((1000000000 : ℚ) : K) = _
    rw [h1, h2]
    have := Int.mul_ediv_add_emod d.toInt 1000000000
    have h4 : (d.toInt : K) = 1000000000 * ((d.toInt / 1000000000 : Int) : K) + ((d.toInt % 1000000000 : Int) : K) := by exact_mod_cast this.symm
    rw [h4]
    push_cast
    field_simp
  refine ⟨h3, ?_⟩
  have h5 : GoFloat.toInt (durationSeconds d : K) = d.toInt / 1000000000 := by
    rw [h3]
    show (if 0 ≤ (d.toInt : K) / 1000000000 then _ else _) = _
    have : (0 : K) ≤ (d.toInt : K) := by exact_mod_cast hd
    rw [if_pos (by positivity)]
    have := Int.floor_div_natCast (d.toInt : K) 1000000000
    push_cast at this
    rw [this, Int.floor_intCast]
  rw [h5]
  have := i64_range' d
  exact Int64.toInt_ofInt_of_le (by omega) (by omega)

/-- C67, period, float64: for an interval of full seconds both are that number. -/
theorem C67_period_ieee (d : Int64) (k : Int) (hd : d.toInt = k * 1000000000) (hk : 0 ≤ k) :
    (durationSeconds d : F64) = .fin k ∧ (Int64.ofInt (GoFloat.toInt (durationSeconds d : F64))).toInt = k := by
  have hr := i64_range' d
  have h1 : (d / 1000000000).toInt = k := by rw [secs_toInt, Int.tdiv_eq_ediv_of_nonneg (by omega)]; omega
  have h2 : (d % 1000000000).toInt = 0 := by
    rw [Int64.toInt_mod]
    show d.toInt.tmod 1000000000 = _
    rw [Int.tmod_eq_emod_of_nonneg (by omega)]; omega
  have hk2 : |k| ≤ 2 ^ 53 := by rw [abs_of_nonneg hk]; omega
  have h3 : (durationSeconds d : F64) = .fin k := by
    unfold durationSeconds
    rw [h1, h2]
    have e1 : (GoFloat.ofInt k : F64) = .fin k := F64.ofInt_small k hk2
    have e2 : (GoFloat.div (GoFloat.ofInt 0) (GoFloat.lit 1000000000) : F64) = .fin 0 := by decide +kernel
    rw [e1, e2]
    show F64.add (.fin k) (.fin 0) = _
    show F64.round _ = _
    rw [add_zero]
    exact e1
  refine ⟨h3, ?_⟩
  have := C63_unit (Int64.ofInt k) (by rw [Int64.toInt_ofInt_of_le (by omega) (by omega)]; exact hk2)
  rw [Int64.toInt_ofInt_of_le (by omega) (by omega), show (GoFloat.ofInt k : F64) = .fin k from F64.ofInt_small k hk2] at this
  rw [h3, this, Int64.toInt_ofInt_of_le (by omega) (by omega)]

/-! ### C68 -/

private theorem dev_sq {vs : List Int64} (hne : vs ≠ []) (hs : SumFits vs) {dev : ℝ} (h : isDev (some vs) dev) : dev ^ 2 = sampleVariance vs := by
  obtain ⟨ws, hp, rfl⟩ := h
  have e1 : total ws = total vs := (hp.map _).sum_eq
  have e2 : totalSq ws = totalSq vs := (hp.map _).sum_eq
  have hne' : ws ≠ [] := fun h => hne (by subst h; exact hp.symm.eq_nil)
  rw [(C13_stddev_sq ws).1, C13_variance_formula ws hne' (by simpa only [SumFits, e1] using hs), C13_variance_formula vs hne hs, e1, e2, hp.length_eq]

/-- C68, what is reported (exact arithmetic): for a histogram or timer that still has all `n` values it has counted, the reported sum of squares is the sum of the squares of the
values plus (n² - n) times their variance. -/
theorem C68_value (h : List (Env ℝ × Op ℝ)) (env : Env ℝ) (g : Reg) (id : Nat) (hb : base g = some id) (d now : Int64) (ns source : Str) (ps : List ℝ) (w' : World ℝ) (b : Batch ℝ)
    (hr : buildRequest env { newReporter d source ps with namesp := ns } now g (World.init.run h) = (w', .ok b)) (name : Str) (r : Ref) (o : Obj ℝ)
    (hg : gets (World.init.run h) id name = some r) (hp : (prefixes g).flatten <+: name) (ho : (World.init.run h).objs r = some o) (hk : isDistribution o = true)
    (vs : List Int64) (hv : recorded (World.init.run h) r = some vs) (hne : vs ≠ []) (hs : SumFits vs) (n : Int64) (hc : givesInt (World.init.run h) env r .count n)
    (hn : n.toInt = vs.length) :
    ∃ m ∈ b.gauges, m.name = textOf (libratoName ns name ++ bytes (if isTimer o then ".timer.mean" else ".hist")) ∧
      m.sumSquares = some ((totalSq vs : ℝ) + ((vs.length : ℝ) ^ 2 - vs.length) * sampleVariance vs) := by
  obtain ⟨-, ⟨blocks, -, hgs, -, hm, hbl⟩, -, -⟩ := C67_batch_partial h env g id hb d now ns source ps w' b hr
  obtain ⟨⟨name', r', cs, gs⟩, hx, hname⟩ := List.mem_map.1 ((hm name).2 ⟨by rw [hg]; simp, hp⟩)
  simp only at hname
  subst hname
  obtain ⟨h1, o', h2, h3, -⟩ := hbl _ _ _ _ hx
  rw [hg] at h1
  cases h1
  rw [ho] at h2
  cases h2
  have hpos : 0 < n.toInt := by
    have := List.length_pos_of_ne_nil hne
    omega
  have hin : ∀ m ∈ gs, m ∈ b.gauges := by
    intro m hmg
    rw [hgs]
    exact List.mem_flatten.2 ⟨gs, List.mem_map.2 ⟨_, hx, rfl⟩, hmg⟩
  have val : ∀ x, SquaresFrom (World.init.run h) env r n x → x = (totalSq vs : ℝ) + ((vs.length : ℝ) ^ 2 - vs.length) * sampleVariance vs := by
    rintro x ⟨mean, dev, h4, h5, rfl⟩
    have hty : HasTy (World.init.run h) r .hist ∨ HasTy (World.init.run h) r .timer := by
      cases o <;> simp [isDistribution] at hk
      · exact .inl ⟨_, ho, rfl⟩
      · exact .inr ⟨_, ho, rfl⟩
    rw [gives, observe_stat (run_ok h) hty, hv] at h4
    simp only [readStat, statOf, Except.ok.injEq, Out.float.injEq] at h4
    rw [hv] at h5
    have h6 := dev_sq hne hs h5
    have h7 := C13_variance_formula (K := ℝ) vs hne hs
    have h8 : mean = (total vs : ℝ) / vs.length := by
      rw [← h4, sampleMean, if_neg (by simpa using hne)]
      show ((sampleSum vs).toInt : ℝ) / (((vs.length : Nat) : Int) : ℝ) = _
      rw [C11_sum_exact vs hs]
      simp
    have hl : (vs.length : ℝ) ≠ 0 := by
      have : vs.length ≠ 0 := by simpa using hne
      exact_mod_cast this
    have e : sumSquaresOf n mean dev = ((vs.length : ℝ) * dev) * ((vs.length : ℝ) * dev) + ((vs.length : ℝ) * mean) * ((vs.length : ℝ) * mean) / vs.length := by
      unfold sumSquaresOf
      simp only
      have : GoFloat.ofInt n.toInt = ((vs.length : ℝ)) := by
        show ((n.toInt : Int) : ℝ) = _
        rw [hn]; simp
      rw [this, if_pos (by show decide _ = true; exact decide_eq_true (le_refl _))]
      rfl
    rw [e, h8]
    have : ((vs.length : ℝ) * dev) * ((vs.length : ℝ) * dev) = (vs.length : ℝ) ^ 2 * dev ^ 2 := by ring
    rw [this, h6, h7]
    field_simp
    ring
  cases o <;> simp [isDistribution] at hk
  · obtain ⟨-, n', h4, -, h5⟩ := h3
    rw [givesInt] at hc h4
    rw [hc] at h4
    cases h4
    obtain ⟨gg, pcts, s, sum, rfl, h6, -, -, -, -, -, h7, -⟩ := h5 hpos
    exact ⟨gg, hin gg (by simp), h6.1, by rw [h6.2.2.2.2.2.2.1, val _ h7]⟩
  · obtain ⟨n', h4, -, -, h5⟩ := h3
    rw [givesInt] at hc h4
    rw [hc] at h4
    cases h4
    obtain ⟨gg, pcts, rs, s, mean, rfl, h6, -, -, -, -, -, h7, -⟩ := h5 hpos
    exact ⟨gg, hin gg (by simp), h6.1, by rw [h6.2.2.2.2.2.2.1, val _ h7]⟩

/-- C68, when it holds: the reported number is the sum of the squares of the values exactly if all values are the same. -/
theorem C68_partial (vs : List Int64) (hne : vs ≠ []) (hs : SumFits vs) :
    (totalSq vs : ℝ) + ((vs.length : ℝ) ^ 2 - vs.length) * sampleVariance vs = totalSq vs ↔ ∀ v ∈ vs, ∀ w ∈ vs, v = w := by
  rw [← (C13_variance_zero_iff_constant (K := ℝ) vs hne hs).2, add_eq_left, mul_eq_zero]
  constructor
  · rintro (h | h)
    · have h1 : (vs.length : ℝ) * ((vs.length : ℝ) - 1) = 0 := by rw [← h]; ring
      rcases mul_eq_zero.1 h1 with h2 | h2
      · have : vs.length = 0 := by exact_mod_cast h2
        exact absurd (List.eq_nil_of_length_eq_zero this) hne
      · have : vs.length = 1 := by
          have : (vs.length : ℝ) = 1 := by linarith
          exact_mod_cast this
        obtain ⟨v, rfl⟩ := List.length_eq_one_iff.1 this
        rw [(C13_variance_zero_iff_constant (K := ℝ) [v] hne hs).2]
        simp
    · exact h
  · exact .inr

private noncomputable def twoValues : List (Env ℝ × Op ℝ) :=
  [(envAt 0, .new (.uniform 4)), (envAt 0, .new (.hist 0)), (envAt 1, .call 1 (.update 0)), (envAt 1, .call 1 (.update 2)), (envAt 1, .reg (.std 0) (.register [104] (.obj 1)))]

/-- C68 is false: for a histogram with the values 0 and 2, whose squares add up to 4, the reported sum of squares is 6. -/
theorem C68_refuted : ∃ (h : List (Env ℝ × Op ℝ)) (env : Env ℝ) (name : Str) (r : Ref) (w' : World ℝ) (b : Batch ℝ) (m : Measurement ℝ),
    buildRequest env (newReporter 60000000000 [] []) 0 (.std 0) (World.init.run h) = (w', .ok b) ∧ gets (World.init.run h) 0 name = some r ∧
    recorded (World.init.run h) r = some [0, 2] ∧ totalSq [0, 2] = 4 ∧ m ∈ b.gauges ∧ m.name = textOf (name ++ bytes ".hist") ∧ m.sumSquares = some 6 := by
  have h1 := build_cases twoValues (envAt 2) (.std 0) 0 rfl (newReporter 60000000000 [] []) 0 (by show ¬ (60000000000 : Int64) / 1000000000 = 0; decide)
  rcases hx : buildRequest (envAt 2) (newReporter 60000000000 [] []) 0 (.std 0) (World.init.run twoValues) with ⟨w', e | b⟩
  · obtain ⟨_, _, _, p, hp, -⟩ := h1.2 _ _ hx
    simp [newReporter] at hp
  · have hrec : recorded (World.init.run twoValues) 1 = some [0, 2] := rfl
    have hg : gets (World.init.run twoValues) 0 [104] = some 1 := rfl
    obtain ⟨m, h2, h3, h4⟩ := C68_value twoValues (envAt 2) (.std 0) 0 rfl 60000000000 0 [] [] [] w' b hx [104] 1 (.hist (.std 0)) hg List.nil_prefix rfl rfl [0, 2] hrec (by simp) (by decide) 2 rfl (by decide)
    refine ⟨twoValues, envAt 2, [104], 1, w', b, m, hx, hg, hrec, by decide, h2, h3, ?_⟩
    rw [h4, C13_variance_formula (K := ℝ) [0, 2] (by simp) (by decide), show totalSq [0, 2] = 4 by decide, show total [0, 2] = 2 by decide]
    norm_num

end GoMetrics
