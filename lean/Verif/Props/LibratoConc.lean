import Verif.Lemmas.LibratoConc
import Verif.Props.Librato

/-! Property theorems C102: the Librato client while other goroutines use the metrics and the registry. -/

set_option linter.unusedSimpArgs false
set_option linter.unusedSectionVars false

namespace GoMetrics
open Spec

variable {F : Type} [GoFloat F] [GoSqrt F] [GoExp F]

section live
variable (s : Nat → Turn F) (g : Reg) (id : Nat) (hb : base g = some id) (h : List (Env F × Op F)) (d now : Int64) (ns source : Str) (ps : List F) (st : LiveState F)
include hb

private theorem visited (cfg : Reporter F) (x) (he : eachLive s g (fun l => l) (libratoCallbackLive s cfg) ([], []) h = x) :
    ∃ l : List (Str × Ref), (∀ name r, (name, r) ∈ l ↔ gets (after (h ++ (s 0).others)) id name = some r ∧ (prefixes g).flatten <+: name) ∧ (l.map Prod.fst).Nodup ∧
      (∀ e ∈ l, ∃ o, (after (h ++ (s 0).others) : World F).objs e.2 = some o) ∧ visitLive (libratoCallbackLive s cfg) l (⟨h ++ (s 0).others, 1⟩, ([], [])) = x := by
  have hw := after_ok (h ++ (s 0).others)
  rw [eachLive, eachList_base _ g id hb] at he
  refine ⟨_, fun name r => eachList_mem (s 0).env g id hw name r, eachList_nodup (s 0).env g id hw, fun e hel => ?_, he⟩
  obtain ⟨o, h1, -⟩ := objs_of hw ((eachList_mem (s 0).env g id hw e.1 e.2).1 hel).1
  exact ⟨o, h1⟩

/-- C102, contents: other goroutines may use the metrics and the registry in any way during `BuildRequest`. The batch has the counters and gauges of each metric that was in the registry at one moment (when the list was copied) and of nothing
else; the metrics are read one after the other, and each number is one that its accessor had at some moment while its metric was read. (Partial: the numbers of one metric need not be of the same moment, see `C102_torn_refuted` and
`C102_zero_refuted`.) -/
theorem C102_batch_partial (b : Batch F) (hd : buildRequestLive s { newReporter d source ps with namesp := ns } now g h = (st, .ok b)) :
    b.source = source ∧ b.measureTime = now / (d / 1000000000) * (d / 1000000000) ∧
    BatchedLive (h ++ (s 0).others) st.log id (prefixes g).flatten b.counters b.gauges fun a z name r o cs gs =>
      LibratoLiveBlock a z ps (libratoName ns name) r o cs gs ∧ ∀ m ∈ cs ++ gs, periodOk d m := by
  unfold buildRequestLive at hd
  split at hd
  · cases hd
  · rcases he : eachLive s g (fun l => l) (libratoCallbackLive s { newReporter d source ps with namesp := ns }) ([], []) h with ⟨⟨st1, out⟩, p | ⟨⟩⟩ <;> rw [he] at hd
    · cases hd
    · simp only [Prod.mk.injEq, Except.ok.injEq] at hd
      obtain ⟨rfl, rfl⟩ := hd
      refine ⟨rfl, rfl, ?_⟩
      obtain ⟨l, hm, hnd, hobj, hv⟩ := visited s g id hb h _ _ he
      obtain ⟨spans, h1, h2, h3, h4, h5⟩ := visit_spans l hobj hv
      have hn : spans.map LibratoSpan.name = l.map Prod.fst := by rw [← h3, List.map_map]; rfl
      refine ⟨spans, by simpa using h1, by simpa using h2, by rw [hn]; exact hnd, fun name => ?_, h4, fun x hx => ?_⟩
      · rw [hn]
        constructor
        · intro h5
          obtain ⟨e, he, rfl⟩ := List.mem_map.1 h5
          have := (hm e.1 e.2).1 he
          exact ⟨by simp [this.1], this.2⟩
        · rintro ⟨h5, h6⟩
          obtain ⟨r, hr⟩ := Option.ne_none_iff_exists'.1 h5
          exact List.mem_map.2 ⟨(name, r), (hm name r).2 ⟨hr, h6⟩, rfl⟩
      · have h6 : (x.name, x.ref) ∈ l := by rw [← h3]; exact List.mem_map.2 ⟨x, hx, rfl⟩
        exact ⟨((hm _ _).1 h6).1, h5 x hx⟩

/-- C102, without other goroutines it is the `BuildRequest` of C67. -/
theorem C102_sequential (cfg : Reporter F) (env : Env F) :
    let x := buildRequestLive (fun _ => ⟨[], env⟩) cfg now g h
    buildRequest env cfg now g (after h) = (after x.1.log, x.2) := by
  intro x
  simp only [x, buildRequest, buildRequestLive]
  split
  · rfl
  · simp only [each, eachLive, List.append_nil, eachList_base env g id hb]
    rw [alone_visit (alone_callback (env := env) cfg) _ ⟨h, 1⟩ ([], [])]
    generalize visitLive (libratoCallbackLive (fun _ => ⟨[], env⟩) cfg) _ (⟨h, 1⟩, ([], [])) = y
    rcases y with ⟨⟨st1, d⟩, _ | _⟩ <;> rfl

end live

/-- C102, termination: whatever others do meanwhile, `BuildRequest` returns a batch if the interval is at least one second, no requested percentile is NaN and the samples never have more values than a Go slice can have. -/
theorem C102_returns (s : Nat → Turn F64) (g : Reg) (id : Nat) (hb : base g = some id) (h : List (Env F64 × Op F64)) (d now : Int64) (ns source : Str) (ps : List F64) (hd : 1000000000 ≤ d.toInt) (hp : ∀ p ∈ ps, p ≠ .nan)
    (hl : ∀ past, h <+: past → past <+: (buildRequestLive s { newReporter d source ps with namesp := ns } now g h).1.log → ∀ r vs, recorded (after past) r = some vs → (vs.length : Int) ≤ maxInt64) :
    ∃ st b, buildRequestLive s { newReporter d source ps with namesp := ns } now g h = (st, .ok b) := by
  have h0 : (newReporter d source ps).intervalSec ≠ 0 := by
    intro h0
    have h1 : d.toInt.tdiv 1000000000 = 0 := by
      have : (d / 1000000000).toInt = d.toInt.tdiv 1000000000 := by
        rw [Int64.toInt_div_of_ne_right _ _ (by decide)]
        rfl
      rw [← this, show d / 1000000000 = 0 from h0]
      rfl
    rw [Int.tdiv_eq_ediv_of_nonneg (by omega)] at h1
    omega
  rcases hx : buildRequestLive s { newReporter d source ps with namesp := ns } now g h with ⟨st, p | b⟩
  · exfalso
    rw [hx] at hl
    unfold buildRequestLive at hx
    rw [if_neg h0] at hx
    rcases he : eachLive s g (fun l => l) (libratoCallbackLive s { newReporter d source ps with namesp := ns }) ([], []) h with ⟨⟨st1, out⟩, q | ⟨⟩⟩ <;> rw [he] at hx
    · simp only [Prod.mk.injEq, Except.error.injEq] at hx
      obtain ⟨rfl, rfl⟩ := hx
      obtain ⟨l, -, -, hobj, hv⟩ := visited s g id hb h _ _ he
      obtain ⟨past, h1, h2, r, vs, h3, p, h4, e, h5⟩ := visit_librato_fails l hobj hv
      obtain ⟨y, ws, h6⟩ := C14_percentile_total vs p (hp p h4) (hl past ((List.prefix_append _ _).trans h1) h2 r vs h3)
      rw [h6] at h5
      cases h5
    · cases hx
  · exact ⟨st, b, rfl⟩

/-! ### Limits and examples -/

-- A histogram with the value 1. After its maximum has been read, another goroutine clears it and adds 5.
private def tornHistory : List (Env F × Op F) :=
  [(envAt 0, .new (.uniform 4)), (envAt 0, .new (.hist 0)), (envAt 1, .call 1 (.update 1)), (envAt 1, .reg (.std 0) (.register [104] (.obj 1)))]
private def tearing : Nat → Turn F := fun n => ⟨if n = 5 then [(envAt 1, .call 1 .clear), (envAt 1, .call 1 (.update 5))] else [], envAt 2⟩

private def squaresTotal (x : Ref) : Live F F := do
  let count : F := GoFloat.ofInt (← readIntLive x .count).toInt
  let sumSquared := pow2 (GoFloat.mul count (← readFloatLive x (.stat .mean)))
  let sumSquares := GoFloat.add (pow2 (GoFloat.mul count (← readFloatLive x (.stat .stdDev)))) (GoFloat.div sumSquared count)
  return (if isNaN sumSquares then GoFloat.lit 0 else sumSquares)
private theorem squares_eq (x : Ref) : (sumSquaresLive x : Live F F) = squaresTotal x := by
  funext s st
  simp only [sumSquaresLive, squaresTotal, live_bind]
  rcases readIntLive x .count s st with ⟨st1, p | n⟩
  · rfl
  · simp only
    rcases readFloatLive x (.stat .mean) s st1 with ⟨st2, p | m⟩
    · rfl
    · simp only
      rcases readFloatLive x (.stat .stdDev) s st2 with ⟨st3, p | v⟩
      · rfl
      · simp only
        split <;> rfl

private def isTorn : Res (List (Measurement F64) × List (Measurement F64)) → Bool
  | .ok ([], [m]) => decide (m.min = some (GoFloat.ofInt 5) ∧ m.max = some (GoFloat.ofInt 1))
  | _ => false
private theorem torn_metric : ∃ (st : LiveState F64) (m : Measurement F64), libratoMetricLive (newReporter 60000000000 [] [] : Reporter F64) [104] 1 (.hist (.std 0)) tearing ⟨tornHistory, 1⟩ = (st, .ok ([], [m])) ∧
    m.min = some (GoFloat.ofInt 5) ∧ m.max = some (GoFloat.ofInt 1) := by
  have key : isTorn (libratoMetricLive (newReporter 60000000000 [] [] : Reporter F64) [104] 1 (.hist (.std 0)) tearing ⟨tornHistory, 1⟩).2 = true := by
    simp only [libratoMetricLive, squares_eq]
    decide +kernel
  generalize libratoMetricLive (newReporter 60000000000 [] [] : Reporter F64) [104] 1 (.hist (.std 0)) tearing ⟨tornHistory, 1⟩ = x at key
  obtain ⟨st, y⟩ := x
  unfold isTorn at key
  split at key
  · rename_i m h
    cases h
    exact ⟨st, m, rfl, of_decide_eq_true key⟩
  · cases key

-- A registry with one metric, and no calls while its list is copied.
private theorem one_metric {s : Nat → Turn F} {h : List (Env F × Op F)} {name : Str} {r : Ref} {o : Obj F} {cs gs : List (Measurement F)} {st : LiveState F} (h0 : (s 0).others = []) (hr : (World.init.run h : World F).regs 0 = [(name, r)])
    (ho : (World.init.run h : World F).objs r = some o) {x} (hx : libratoMetricLive (newReporter 60000000000 [] [] : Reporter F) name r o s ⟨h, 1⟩ = x) (he : x = (st, .ok (cs, gs))) :
    buildRequestLive s (newReporter 60000000000 [] []) 0 (.std 0) h = (st, .ok ⟨0 / (60000000000 / 1000000000) * (60000000000 / 1000000000), [], cs, gs⟩) := by
  subst he
  have e : eachList (s 0).env (.std 0) (World.init.run h : World F) = (World.init.run h, .ok (some [(name, r)])) := by
    show (World.init.run h, Except.ok (some ((s 0).env.order ((World.init.run h : World F).regs 0)))) = _
    rw [hr, List.perm_singleton.1 ((s 0).env.order_perm _)]
  rw [buildRequestLive, if_neg (by show ¬ (60000000000 : Int64) / 1000000000 = 0; decide), eachLive, h0, List.append_nil, e]
  simp only [visitLive, libratoCallbackLive, ho, hx]
  rfl

/-- C102 is false for all numbers of a metric together: the gauge of a histogram can have a minimum of 5 and a maximum of 1. -/
theorem C102_torn_refuted : ∃ (h : List (Env F64 × Op F64)) (s : Nat → Turn F64) (st : LiveState F64) (b : Batch F64) (m : Measurement F64), buildRequestLive s (newReporter 60000000000 [] []) 0 (.std 0) h = (st, .ok b) ∧
    m ∈ b.gauges ∧ m.min = some (GoFloat.ofInt 5) ∧ m.max = some (GoFloat.ofInt 1) := by
  have key := torn_metric
  have main := @one_metric F64 _ _ _ tearing tornHistory [104] 1 (.hist (.std 0))
  generalize libratoMetricLive (newReporter 60000000000 [] [] : Reporter F64) [104] 1 (.hist (.std 0)) tearing ⟨tornHistory, 1⟩ = x at key main
  obtain ⟨st, m, h1, h2, h3⟩ := key
  exact ⟨tornHistory, tearing, st, _, m, main rfl rfl rfl rfl h1, List.mem_singleton.2 rfl, h2, h3⟩

-- A counter that is cleared after it has been found to be positive.
private def oneCounter : List (Env F × Op F) := [(envAt 0, .new .counter), (envAt 0, .call 0 (.inc 3)), (envAt 1, .reg (.std 0) (.register [99] (.obj 0)))]
private def clearing : Nat → Turn F := fun n => ⟨if n = 2 then [(envAt 1, .call 0 .clear)] else [], envAt 2⟩

private theorem zero_metric : ∃ (st : LiveState F) (m : Measurement F), libratoMetricLive (newReporter 60000000000 [] [] : Reporter F) [99] 0 (.counter (.std ⟨3⟩)) clearing ⟨oneCounter, 1⟩ = (st, .ok ([m], [])) ∧
    m.name = textOf (bytes "c.count") ∧ m.value = some (.float (GoFloat.ofInt 0)) := ⟨_, _, rfl, rfl, rfl⟩

/-- C102 is false for counters: only positive ones should be in the batch (librato.go:99), but one can be there with the value 0. -/
theorem C102_zero_refuted : ∃ (h : List (Env F × Op F)) (s : Nat → Turn F) (st : LiveState F) (b : Batch F) (m : Measurement F), buildRequestLive s (newReporter 60000000000 [] []) 0 (.std 0) h = (st, .ok b) ∧
    b.counters = [m] ∧ m.name = textOf (bytes "c.count") ∧ m.value = some (.float (GoFloat.ofInt 0)) := by
  have key := zero_metric (F := F)
  have main := @one_metric F _ _ _ clearing oneCounter [99] 0 (.counter (.std ⟨3⟩))
  generalize libratoMetricLive (newReporter 60000000000 [] [] : Reporter F) [99] 0 (.counter (.std ⟨3⟩)) clearing ⟨oneCounter, 1⟩ = x at key main
  obtain ⟨st, m, h1, h2, h3⟩ := key
  exact ⟨oneCounter, clearing, st, _, m, main rfl rfl rfl rfl h1, rfl, h2, h3⟩

example : ∃ (h : List (Env F64 × Op F64)) (s : Nat → Turn F64) (st : LiveState F64) (b : Batch F64), b.gauges ≠ [] ∧
    BatchedLive (h ++ (s 0).others) st.log 0 [] b.counters b.gauges fun a z name r o cs gs => LibratoLiveBlock a z [] (libratoName [] name) r o cs gs ∧ ∀ m ∈ cs ++ gs, periodOk 60000000000 m := by
  obtain ⟨h, s, st, b, m, h1, h2, -⟩ := C102_torn_refuted
  exact ⟨h, s, st, b, List.ne_nil_of_mem h2, (C102_batch_partial s (.std 0) 0 rfl h 60000000000 0 [] [] [] st b h1).2.2⟩

-- A counter, with other goroutines that increment it all the time: the calls after its registration, in their order.
private def bumps : List (Env F64 × Op F64) := [(envAt 1, .call 0 (.inc 1)), (envAt 1, .call 0 (.inc 1)), (envAt 1, .call 0 .count), (envAt 1, .call 0 (.inc 1)), (envAt 2, .call 0 .count)]

private theorem bumps_recorded (n : Nat) (hn : n ≤ 8) (r vs) (h : recorded (after ((oneCounter ++ bumps).take n) : World F64) r = some vs) : (vs.length : Int) ≤ maxInt64 := by
  have key : ∀ n ≤ 8, (after ((oneCounter ++ bumps).take n) : World F64).nextObj ≤ 1 ∧ recorded (after ((oneCounter ++ bumps).take n) : World F64) 0 = none := by decide +kernel
  rcases Nat.eq_zero_or_pos r with rfl | hr
  · rw [(key n hn).2] at h
    cases h
  · have h4 := (after_ok ((oneCounter ++ bumps).take n)).obj r ((key n hn).1.trans hr)
    simp [recorded, histRecorded, h4] at h

example : ∃ st b, buildRequestLive (fun n => ⟨[(envAt 1, .call 0 (.inc 1))], envAt n⟩ : Nat → Turn F64) { newReporter 60000000000 [] [.fin (1 / 2)] with namesp := [110] } 1000 (.std 0) oneCounter = (st, .ok b) := by
  refine C102_returns _ (.std 0) 0 rfl _ _ _ _ _ _ (by decide) (by simp) fun past h1 h2 r vs h3 => ?_
  have hlog : (buildRequestLive (fun n => ⟨[(envAt 1, .call 0 (.inc 1))], envAt n⟩ : Nat → Turn F64) { newReporter 60000000000 [] [.fin (1 / 2)] with namesp := [110] } 1000 (.std 0) oneCounter).1.log = oneCounter ++ bumps := rfl
  rw [hlog] at h2
  rw [List.prefix_iff_eq_take.1 h2] at h3
  exact bumps_recorded _ h2.length_le r vs h3

end GoMetrics
