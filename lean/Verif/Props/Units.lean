import Verif.Lemmas.Units
import Verif.Props.Export
import Verif.Props.Librato

/-! Property theorems C88: the units printed or displayed with the durations of timers. -/

namespace GoMetrics
open Spec

variable {F : Type} [GoFloat F] [GoSqrt F] [GoExp F]

/-- C88, log.go:40: `LogScaled` never panics on its scale, and this is when its suffix is the name of a unit, and of which one: for a single digit times 1 ns, 1 µs, 1 ms or 1 s
(and for 0). -/
theorem C88_log_reads (scale : Int64) : ∃ s, logSuffix scale = some s ∧ ∀ n, Names s n ↔
    (scale.toInt = 0 ∧ n = 1000000000) ∨ (n ∈ [1, 1000, 1000000, 1000000000] ∧ ∃ k : Int, 1 ≤ k ∧ k ≤ 9 ∧ scale.toInt = k * n) := by
  refine ⟨(durString scale).drop 1, ?_, fun n => names_tail⟩
  obtain ⟨s, b, h, -⟩ := durString_last scale
  simp [logSuffix, h]

/-- C88, log.go: the suffix is the name of the unit that the durations are printed in if and only if the scale is 1 ns, 1 µs, 1 ms or 1 s. -/
theorem C88_log (scale : Int64) : (∃ s, logSuffix scale = some s ∧ Names s scale.toInt) ↔ scale.toInt ∈ [1, 1000, 1000000, 1000000000] := by
  obtain ⟨s, h1, h2⟩ := C88_log_reads scale
  constructor
  · rintro ⟨s', h3, h4⟩
    rw [h1] at h3
    cases h3
    rcases (h2 _).1 h4 with ⟨h5, h6⟩ | ⟨h5, -⟩
    · omega
    · exact h5
  · intro h
    exact ⟨s, h1, (h2 _).2 (.inr ⟨h, 1, by omega, by omega, by omega⟩)⟩

/-- C88, log.go: with these scales, a line is printed for every statistic of every timer; durations are divided by the unit and followed by its name, and nothing else is. -/
theorem C88_log_lines (h : List (Env F × Op F)) (env : Env F) (g : Reg) (id : Nat) (hb : base g = some id) (w' : World F) (out : List (Event F)) (scale : Int64)
    (hs : scale.toInt ∈ [1, 1000, 1000000, 1000000000]) (hd : logScaled env g scale (World.init.run h) = ((w', out), .ok ())) (name : Str) (r : Ref) (x : TimerV) :
    let w : World F := World.init.run h
    gets w id name = some r → (prefixes g).flatten <+: name → w.objs r = some (.timer x) → ∀ c ∈ statsOf five (.timer x : Obj F), ∃ label v e unit,
      means (.timer x : Obj F) label = some c ∧ Holds w env r c v ∧ e ∈ out ∧ Names unit scale.toInt ∧
      (isDuration c = true → paddedLine unit (label, inUnit (GoFloat.ofInt scale.toInt) v) e) ∧ (isDuration c = false → paddedLine [] (label, v) e) := by
  intro w h1 h2 h3 c hc
  obtain ⟨label, v, e, h4, h5, h6, h7, h8⟩ := C63_log h env g id hb w' out name r x scale (durString scale) hd h1 h2 h3 c hc
  refine ⟨label, v, e, _, h4, h5, h6, ?_, h7, h8⟩
  exact names_tail.2 (.inr ⟨hs, 1, by omega, by omega, by omega⟩)

/-- C88, librato.go:17-22: the displayed unit is the unit of the last part of the printed duration: this is when it is which. -/
theorem C88_librato_reads (d : Int64) (n : Int) : Names (translateTimerAttributes d).displayUnitsShort n ↔
    (n = 1 ∧ 1 ≤ |d.toInt| ∧ |d.toInt| < 1000) ∨ (n = 1000 ∧ 1000 ≤ |d.toInt| ∧ |d.toInt| < 1000000) ∨
    (n = 1000000 ∧ 1000000 ≤ |d.toInt| ∧ |d.toInt| < 1000000000) ∨ (n = 1000000000 ∧ (d.toInt = 0 ∨ 1000000000 ≤ |d.toInt|)) := by
  have nns : Names (bytes "ns") n ↔ n = 1 := names_iff (by decide) (by decide)
  have nus : Names (bytes "µs") n ↔ n = 1000 := names_iff (by decide) (by decide)
  have nms : Names (bytes "ms") n ↔ n = 1000000 := names_iff (by decide) (by decide)
  have ns : Names (bytes "s") n ↔ n = 1000000000 := names_iff (by decide) (by decide)
  show Names (unitSuffix (durString d)) n ↔ _
  rw [unitSuffix_durString, Int.abs_eq_natAbs]
  unfold lastUnit
  split
  · rw [ns]; omega
  · split
    · rw [nns]; omega
    · split
      · rw [nus]; omega
      · split
        · rw [nms]; omega
        · rw [ns]; omega

/-- C88, librato.go: the values of timers are sent in nanoseconds and displayed after division by the unit given to the reporter. -/
theorem C88_librato_transform (d : Int64) : divisor (translateTimerAttributes d).displayTransform = some d.toInt := by
  show Spec.readInt (fmtInt d.toInt) = _
  exact readInt_fmtInt _

/-- C88, librato.go: the unit displayed is the one that the displayed value is in, if and only if the duration given to the reporter is 1 ns, 1 µs, 1 ms or 1 s. -/
theorem C88_librato (d : Int64) : (∃ n, divisor (translateTimerAttributes d).displayTransform = some n ∧ Names (translateTimerAttributes d).displayUnitsShort n) ↔
    d.toInt ∈ [1, 1000, 1000000, 1000000000] := by
  rw [C88_librato_transform]
  constructor
  · rintro ⟨n, h1, h2⟩
    cases h1
    rw [C88_librato_reads] at h2
    simp only [List.mem_cons, List.not_mem_nil, or_false]
    omega
  · intro h
    refine ⟨_, rfl, ?_⟩
    rw [C88_librato_reads]
    simp only [List.mem_cons, List.not_mem_nil, or_false] at h
    rcases h with h | h | h | h <;> rw [h] <;> norm_num

/-- C88, some wrong ones: a timer logged in units of 10 ms has the suffix `0ms`, of 5 ms the suffix `ms`, of minutes the suffix `m0s`; Librato displays minutes with the unit `s`. -/
theorem C88_refuted : logSuffix 10000000 = some (bytes "0ms") ∧ logSuffix 5000000 = some (bytes "ms") ∧ logSuffix 60000000000 = some (bytes "m0s") ∧
    (translateTimerAttributes 60000000000).displayUnitsShort = bytes "s" ∧ (translateTimerAttributes 60000000000).displayTransform = bytes "x/60000000000" := by
  decide +kernel

example : (∃ s, logSuffix 1000000 = some s ∧ Names s 1000000) := (C88_log 1000000).2 (by decide)
-- The mean of a timer, logged in milliseconds.
example : ∃ label v, ∃ e ∈ (logScaled (envAt 2) (.std 0) 1000000 (World.init.run exportHistory : World F64)).1.2, ∃ unit,
    means (.timer (.std 8 9) : Obj F64) label = some (.stat .mean) ∧ Names unit 1000000 ∧ paddedLine unit (label, inUnit (GoFloat.ofInt 1000000) v) e := by
  have ok : isOk (logScaled (envAt 2) (.std 0) 1000000 (World.init.run exportHistory : World F64)).2 = true := by decide +kernel
  generalize hx : logScaled (envAt 2) (.std 0) 1000000 (World.init.run exportHistory : World F64) = x at ok ⊢
  obtain ⟨⟨w', out⟩, _ | _⟩ := x
  · simp [isOk] at ok
  obtain ⟨label, v, e, unit, h1, -, h3, h4, h5, -⟩ := C88_log_lines exportHistory (envAt 2) (.std 0) 0 rfl w' out 1000000 (by decide) hx [116] 10 (.std 8 9) rfl
    List.nil_prefix rfl (.stat .mean) (by simp [statsOf, distribution])
  exact ⟨label, v, e, h3, unit, h1, h4, h5 rfl⟩
example : Names (translateTimerAttributes 1000000).displayUnitsShort 1000000 := (C88_librato_reads _ _).2 (by decide)

end GoMetrics
