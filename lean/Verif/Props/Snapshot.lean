import Verif.Lemmas.WorldSim
import Verif.Lemmas.WorldSnap
import Verif.Lemmas.RoundEval
import Verif.Lemmas.Ewma

/-! Property theorems C03, C04, C05, C08, C18 (snapshots, stubs, functional gauges, percentile reads). -/

set_option linter.unusedSimpArgs false
set_option linter.unnecessarySeqFocus false
set_option linter.unusedSectionVars false
set_option linter.unnecessarySimpa false

namespace GoMetrics
open Spec

variable {F : Type} [GoFloat F] [GoSqrt F] [GoExp F]

/-! ### C03 -/

private theorem frozen_after {w : World F} (hw : w.Ok) (env : Env F) (r q : Ref) (w1 : World F)
    (hs : call env r .snapshot w = (w1, .ok (.ref q))) (ho : ownsValues w r) (later : List (Env F × Op F)) (env' : Env F) (c : Call F)
    (hc : ReadOK c) : observe (w1.run later) env' q c = observe w env r c := by
  obtain ⟨h1, h2, -⟩ := snapshot_spec _ hw env r ho w1 q hs
  have hok : w1.Ok := by have := (hw.call env r .snapshot).1; rwa [hs] at this
  rw [(h1.le (hok.run later).2).2 env' env' c hc, h2 env' c hc.1]

/-- C03 for all accessors but `Variance` and `StdDev`, with any float arithmetic: a snapshot `q` taken from anything in any reachable
state reads like its source did, after any later calls on any objects. (Missing: `Variance` and `StdDev`, which the code gets wrong, see
`C03_refuted_variance`; snapshots of values that the program itself still holds, see `C03_refuted_shared`.) -/
theorem C03_frozen_partial (h : List (Env F × Op F)) (env : Env F) (r q : Ref) (w1 : World F)
    (hs : call env r .snapshot (World.init.run h) = (w1, .ok (.ref q))) (ho : ownsValues (World.init.run h) r)
    (later : List (Env F × Op F)) (env' : Env F) (c : Call F) (hc : orderFree c = true) :
    observe (w1.run later) env' q c = observe (World.init.run h) env r c :=
  frozen_after (run_ok h) env r q w1 hs ho later env' c (readOK_orderFree hc)

/-- C03 for all accessors, in exact arithmetic (that is, up to rounding errors). -/
theorem C03_exact_partial {K : Type} [Field K] [LinearOrder K] [IsStrictOrderedRing K] [FloorRing K] [GoSqrt K] [GoExp K]
    (h : List (Env K × Op K)) (env : Env K) (r q : Ref) (w1 : World K)
    (hs : call env r .snapshot (World.init.run h) = (w1, .ok (.ref q))) (ho : ownsValues (World.init.run h) r)
    (later : List (Env K × Op K)) (env' : Env K) (c : Call K) (hc : accessor c = true) :
    observe (w1.run later) env' q c = observe (World.init.run h) env r c :=
  frozen_after (run_ok h) env r q w1 hs ho later env' c (readOK_exact hc)

section refute
open F64

private theorem sq_int (n : ℤ) (hn : |n| ≤ 2 ^ 53) (h : rnd ((n : ℚ) * n) = (n : ℚ) * n) :
    GoFloat.mul (GoFloat.sub (GoFloat.ofInt n : F64) (.fin 0)) (GoFloat.sub (GoFloat.ofInt n) (.fin 0)) = .fin (n * n) := by
  have e : (GoFloat.sub (GoFloat.ofInt n : F64) (.fin 0)) = .fin n := by
    show F64.sub (F64.ofInt n) (.fin 0) = _
    rw [F64.ofInt_small n hn]
    show F64.round ((n : ℚ) + -0) = _
    rw [neg_zero, add_zero, F64.round_int (K := ℚ) n hn]
  rw [e]
  show F64.round ((n : ℚ) * n) = _
  rw [round_of_abs_le (n := 106) (by norm_num), h]
  have : |(n : ℚ)| ≤ 2 ^ 53 := by exact_mod_cast hn
  rw [abs_mul]
  calc |(n : ℚ)| * |(n : ℚ)| ≤ 2 ^ 53 * 2 ^ 53 := by gcongr
    _ = 2 ^ 106 := by norm_num

private theorem add_eval (a b c : ℚ) (h : |a + b| ≤ 2 ^ 64) (hr : rnd (a + b) = c) : GoFloat.add (F64.fin a) (F64.fin b) = F64.fin c := by
  show F64.round (a + b) = _
  rw [round_of_abs_le (n := 64) (by norm_num) h, hr]

private theorem rnd_small (n : ℤ) (h : |n| ≤ 2 ^ 53) : rnd (n : ℚ) = n := rnd_int n h

private theorem add_small (a b c : ℤ) (hc : a + b = c) (h : |c| ≤ 2 ^ 53) : GoFloat.add (F64.fin a) (F64.fin b) = F64.fin c := by
  refine add_eval _ _ _ ?_ ?_
  · rw [← Int.cast_add, hc]
    have : |(c : ℚ)| ≤ 2 ^ 53 := by exact_mod_cast h
    exact this.trans (by norm_num)
  · rw [← Int.cast_add, hc, rnd_small c h]

private theorem sq_one : GoFloat.mul (GoFloat.sub (GoFloat.ofInt (1 : Int64).toInt : F64) (.fin 0)) (GoFloat.sub (GoFloat.ofInt (1 : Int64).toInt) (.fin 0)) = .fin (1 : ℤ) := by
  have e : (1 : Int64).toInt = 1 := by decide
  rw [e, sq_int 1 (by norm_num) (by have := rnd_small 1 (by norm_num); norm_num at this ⊢; exact this)]
  norm_num

private theorem sq_neg : GoFloat.mul (GoFloat.sub (GoFloat.ofInt (-1 : Int64).toInt : F64) (.fin 0)) (GoFloat.sub (GoFloat.ofInt (-1 : Int64).toInt) (.fin 0)) = .fin (1 : ℤ) := by
  have e : (-1 : Int64).toInt = -1 := by decide
  rw [e, sq_int (-1) (by norm_num) (by have := rnd_small 1 (by norm_num); norm_num at this ⊢; exact this)]
  norm_num

private theorem rnd_54 : rnd (18014398509481984 : ℚ) = 18014398509481984 := by
  rw [rnd_eval 54 (by norm_num) (by norm_num) (by norm_num), roundEven_of_lt (n := 4503599627370496) (by norm_num)]
  norm_num

private theorem sq_big : GoFloat.mul (GoFloat.sub (GoFloat.ofInt (134217728 : Int64).toInt : F64) (.fin 0)) (GoFloat.sub (GoFloat.ofInt (134217728 : Int64).toInt) (.fin 0)) = .fin 18014398509481984 := by
  have e : (134217728 : Int64).toInt = 134217728 := by decide
  rw [e, sq_int 134217728 (by norm_num) (by have := rnd_54; norm_num at this ⊢; exact this)]
  norm_num

private theorem sq_nbig : GoFloat.mul (GoFloat.sub (GoFloat.ofInt (-134217728 : Int64).toInt : F64) (.fin 0)) (GoFloat.sub (GoFloat.ofInt (-134217728 : Int64).toInt) (.fin 0)) = .fin 18014398509481984 := by
  have e : (-134217728 : Int64).toInt = -134217728 := by decide
  rw [e, sq_int (-134217728) (by norm_num) (by have := rnd_54; norm_num at this ⊢; exact this)]
  norm_num

private theorem mean_zero (vs : List Int64) (h : sampleSum vs = 0) (hl : vs.length = 8) : (sampleMean vs : F64) = .fin 0 := by
  unfold sampleMean
  rw [hl, if_neg (by norm_num), h]
  show F64.div (F64.ofInt (0 : Int64).toInt) (F64.ofInt ((8 : ℕ) : ℤ)) = _
  have e : (0 : Int64).toInt = 0 := by decide
  rw [e, F64.ofInt_small _ (by norm_num), F64.ofInt_small _ (by norm_num), F64.div_fin _ (by norm_num)]
  have := F64.round_int (K := ℚ) 0 (by norm_num)
  norm_num at this ⊢
  exact this

private theorem div_eight (a b : ℚ) (h : |a / 8| ≤ 2 ^ 64) (hr : rnd (a / 8) = b) : GoFloat.div (F64.fin a) (GoFloat.ofInt ((8 : ℕ) : ℤ)) = F64.fin b := by
  show F64.div (.fin a) (F64.ofInt ((8 : ℕ) : ℤ)) = _
  rw [F64.ofInt_small _ (by norm_num), F64.div_fin _ (by norm_num), round_of_abs_le (n := 64) (by norm_num) (by simpa using h)]
  simpa using hr

private def eight : List Int64 := [1, 1, 1, -1, -1, -1, 134217728, -134217728]

private theorem lit_zero64 : (GoFloat.lit 0 : F64) = .fin ((0 : ℤ) : ℚ) := by have := lit_f64_int 0 (by norm_num); simpa using this

private theorem variance_eight : (sampleVariance eight : F64) = .fin 4503599627370497 := by
  unfold sampleVariance
  rw [if_neg (by decide)]
  simp only [mean_zero eight (by decide) rfl]
  simp only [eight, List.foldl_cons, List.foldl_nil, sq_one, sq_neg, sq_big, sq_nbig, lit_zero64]
  rw [add_small 0 1 1 (by norm_num) (by norm_num), add_small 1 1 2 (by norm_num) (by norm_num), add_small 2 1 3 (by norm_num) (by norm_num),
    add_small 3 1 4 (by norm_num) (by norm_num), add_small 4 1 5 (by norm_num) (by norm_num), add_small 5 1 6 (by norm_num) (by norm_num),
    add_eval _ _ 18014398509481992 (by norm_num [abs_of_pos]) ?_, add_eval _ _ 36028797018963976 (by norm_num [abs_of_pos]) ?_]
  · refine div_eight _ _ (by norm_num [abs_of_pos]) ?_
    norm_num
    have := rnd_small 4503599627370497 (by norm_num)
    norm_num at this
    exact this
  · norm_num
    rw [rnd_eval 55 (by norm_num) (by norm_num) (by norm_num), roundEven_of_lt (n := 4503599627370497) (by norm_num)]
    norm_num
  · norm_num
    rw [rnd_eval 54 (by norm_num) (by norm_num) (by norm_num), roundEven_half_up (n := 4503599627370497) (by norm_num) (by norm_num)]
    norm_num

private theorem variance_sorted : (sampleVariance (sortInts eight) : F64) = .fin 4503599627370496 := by
  have e : sortInts eight = [-134217728, -1, -1, -1, 1, 1, 1, 134217728] := by decide
  have one : ∀ b : F64, b = .fin 18014398509481984 → GoFloat.add b (.fin ((1 : ℤ) : ℚ)) = .fin 18014398509481984 := by
    rintro _ rfl
    refine add_eval _ _ _ (by norm_num [abs_of_pos]) ?_
    norm_num
    rw [rnd_eval 54 (by norm_num) (by norm_num) (by norm_num), roundEven_of_lt (n := 4503599627370496) (by norm_num [abs_lt])]
    norm_num
  rw [e]
  unfold sampleVariance
  rw [if_neg (by decide)]
  simp only [mean_zero [-134217728, -1, -1, -1, 1, 1, 1, 134217728] (by decide) rfl]
  simp only [List.foldl_cons, List.foldl_nil, sq_one, sq_neg, sq_big, sq_nbig, lit_zero64]
  rw [add_eval _ _ 18014398509481984 (by norm_num [abs_of_pos]) (by norm_num; exact rnd_54)]
  rw [one _ rfl, one _ rfl, one _ rfl, one _ rfl, one _ rfl, one _ rfl, add_eval _ _ 36028797018963968 (by norm_num [abs_of_pos]) ?_]
  · refine div_eight _ _ (by norm_num [abs_of_pos]) ?_
    norm_num
    have := rnd_small 4503599627370496 (by norm_num)
    norm_num at this
    exact this
  · norm_num
    rw [rnd_eval 55 (by norm_num) (by norm_num) (by norm_num), roundEven_of_lt (n := 4503599627370496) (by norm_num)]
    norm_num

/-- Eight updates of a uniform sample that holds eight values. -/
private noncomputable def eightHistory : List (Env F64 × Op F64) :=
  (envAt 0, .new (.uniform 8)) :: eight.map fun v => (envAt 0, .call 0 (.update v))

/-- C03 is false of the code for `Variance` (and `StdDev`): a percentile read sorts the values of a snapshot in place, and the float sum of
squares depends on the order. Here `Variance()` of the snapshot drops from 2^52+1 to 2^52. -/
theorem C03_refuted_variance : ∃ (h : List (Env F64 × Op F64)) (env : Env F64) (r q : Ref) (w1 : World F64) (later : List (Env F64 × Op F64)),
    call env r .snapshot (World.init.run h) = (w1, .ok (.ref q)) ∧ ownsValues (World.init.run h) r ∧
    observe w1 env q (.stat .variance) = .ok (.float (.fin 4503599627370497)) ∧
    observe (w1.run later) env q (.stat .variance) = .ok (.float (.fin 4503599627370496)) := by
  have hu : (World.init.run eightHistory).objs 0 = some (.sample (.uniform ⟨8, 8, eight⟩)) := rfl
  refine ⟨eightHistory, envAt 0, 0, 1, (call (envAt 0) 0 .snapshot (World.init.run eightHistory)).1, [(envAt 0, .call 1 (.stat (.percentile (GoFloat.lit (1 / 2)))))],
    rfl, ?_, ?_, ?_⟩
  · intro a ha
    simp [slice, sampleSlice, hu] at ha
  · have h1 : (call (envAt 0) 0 .snapshot (World.init.run eightHistory)).1.objs 1 = some (.sample (.snap 8 0)) := rfl
    rw [read_obj h1 _ rfl]
    show Except.ok (Out.float (sampleVariance eight)) = _
    rw [variance_eight]
  · have h1 : ((call (envAt 0) 0 .snapshot (World.init.run eightHistory)).1.run [(envAt 0, .call 1 (.stat (.percentile (GoFloat.lit (1 / 2)))))]).objs 1 = some (.sample (.snap 8 0)) := by
      show (step _ _ _).1.objs 1 = _
      rw [step_call_fst]; rfl
    have h2 : ((call (envAt 0) 0 .snapshot (World.init.run eightHistory)).1.run [(envAt 0, .call 1 (.stat (.percentile (GoFloat.lit (1 / 2)))))]).arrs 0 = sortInts eight := by
      show (step _ _ _).1.arrs 0 = _
      rw [step_call_fst]; rfl
    rw [read_obj h1 _ rfl]
    show Except.ok (Out.float (sampleVariance (World.arrs _ 0))) = _
    rw [h2, variance_sorted]

end refute

/-- C03 is false of the code for a `SampleSnapshot` made by `NewSampleSnapshot` from a slice that the program keeps: the slice is not copied,
so writing it changes what the snapshot (and `Snapshot()` of it) reports. -/
theorem C03_refuted_shared : ∃ (h : List (Env F × Op F)) (env : Env F) (r q : Ref) (w1 : World F) (later : List (Env F × Op F)),
    call env r .snapshot (World.init.run h) = (w1, .ok (.ref q)) ∧
    observe (World.init.run h) env r (.stat .max) = .ok (.int 2) ∧ observe (w1.run later) env q (.stat .max) = .ok (.int 9) :=
  ⟨[(envAt 0, .slice (.make [1, 2])), (envAt 0, .new (.sampleSnap 2 0))], envAt 0, 0, 0, _, [(envAt 0, .slice (.set 0 0 9))],
    rfl, rfl, rfl⟩

private noncomputable def histHistory : List (Env F64 × Op F64) :=
  [(envAt 0, .new (.uniform 100)), (envAt 0, .new (.hist 0)), (envAt 0, .call 1 (.update 30)), (envAt 0, .call 1 (.update 4))]

-- The hypotheses of `C03_frozen_partial`: a histogram with two values; the source is updated and cleared and the snapshot read; `Max()` stays.
example : ∃ (w1 : World F64) (q : Ref), call (envAt 9) 1 .snapshot (World.init.run histHistory) = (w1, .ok (.ref q)) ∧
    ownsValues (World.init.run histHistory) 1 ∧ intOf (observe (World.init.run histHistory) (envAt 9) 1 (.stat .max)) = some 30 ∧
    intOf (observe (w1.run [(envAt 10, .call 1 (.update 40)), (envAt 10, .call 1 .clear)]) (envAt 11) q (.stat .max)) = some 30 := by
  refine ⟨(call (envAt 9) 1 .snapshot (World.init.run histHistory)).1, 3, rfl, ?_, by decide +kernel, by decide +kernel⟩
  intro a ha
  have : slice (World.init.run histHistory) 1 = none := rfl
  simp [this] at ha

/-! ### C04 -/

/-- C04: every mutating method of every snapshot panics and changes nothing. -/
theorem C04_rejects (w : World F) (env : Env F) (r : Ref) (o : Obj F) (c : Call F) (hr : w.objs r = some o) (ho : isSnapshot o = true)
    (hc : mutates o c = true) : ∃ msg, call env r c w = (w, .error (.msg msg)) := by
  rw [call, act_bind_getObj, hr]
  cases o with
  | counter x => cases x <;> simp [isSnapshot] at ho; cases c <;> simp [mutates] at hc <;> exact ⟨_, rfl⟩
  | gauge x => cases x <;> simp [isSnapshot] at ho; cases c <;> simp [mutates] at hc <;> exact ⟨_, rfl⟩
  | gaugeF x => cases x <;> simp [isSnapshot] at ho; cases c <;> simp [mutates] at hc <;> exact ⟨_, rfl⟩
  | ewma x => cases x <;> simp [isSnapshot] at ho; cases c <;> simp [mutates] at hc <;> exact ⟨_, rfl⟩
  | sample x => cases x <;> simp [isSnapshot] at ho; cases c <;> simp [mutates] at hc <;> exact ⟨_, rfl⟩
  | hist x => cases x <;> simp [isSnapshot] at ho; cases c <;> simp [mutates] at hc <;> exact ⟨_, rfl⟩
  | meter x => cases x <;> simp [isSnapshot] at ho; cases c <;> simp [mutates] at hc <;> exact ⟨_, rfl⟩
  | timer x => cases x <;> simp [isSnapshot] at ho; cases c <;> simp [mutates] at hc <;> exact ⟨_, rfl⟩
  | health x => simp [isSnapshot] at ho

/-- C04: `Time` of a timer snapshot panics without calling the function. -/
theorem C04_time {U : Type} (env1 env2 : Env F) (r a b : Ref) (f : World F × U → (World F × U) × Option Panic) (x : World F × U)
    (hr : x.1.objs r = some (.timer (.snap a b))) : ∃ msg, timerTime env1 env2 r f x = (x, .error (.msg msg)) := by
  unfold timerTime
  rw [hr]
  exact ⟨_, rfl⟩

/-- C04: `Stop` of a meter or timer snapshot does nothing at all (in particular to the live meter). -/
theorem C04_stop (w : World F) (env : Env F) (r : Ref) (o : Obj F) (hr : w.objs r = some o) (ho : isSnapshot o = true)
    (hs : o.stoppable = true) : call env r .stop w = (w, .ok .unit) := by
  rw [call, act_bind_getObj, hr]
  cases o with
  | meter x => cases x <;> simp [isSnapshot] at ho; rfl
  | timer x => cases x <;> simp [isSnapshot] at ho; rfl
  | _ => simp [Obj.stoppable] at hs

/-- C04: `Snapshot()` of a snapshot `r` gives a snapshot with the same readings, and leaves everything there was as it was. -/
theorem C04_again (h : List (Env F × Op F)) (env : Env F) (r : Ref) (o : Obj F) (hr : (World.init.run h).objs r = some o)
    (ho : isSnapshot o = true) :
    ∃ w1 q o', call env r .snapshot (World.init.run h) = (w1, .ok (.ref q)) ∧ w1.objs q = some o' ∧ isSnapshot o' = true ∧
      (∀ env' c, accessor c = true → observe w1 env' q c = observe (World.init.run h) env' r c) ∧ Ext (World.init.run h) w1 := by
  generalize hw : World.init.run h = w at *
  have same : call env r .snapshot w = (w, .ok (.ref r)) → ∃ w1 q o', call env r .snapshot w = (w1, .ok (.ref q)) ∧ w1.objs q = some o' ∧ isSnapshot o' = true ∧
      (∀ env' c, accessor c = true → observe w1 env' q c = observe w env' r c) ∧ Ext w w1 :=
    fun e => ⟨w, r, o, e, hr, ho, fun _ _ _ => rfl, Ext.refl w⟩
  have new : call env r .snapshot w = (do return .ref (← alloc o) : Act F (Out F)) w → FrozenScalar o → ∃ w1 q o', call env r .snapshot w = (w1, .ok (.ref q)) ∧ w1.objs q = some o' ∧ isSnapshot o' = true ∧
      (∀ env' c, accessor c = true → observe w1 env' q c = observe w env' r c) ∧ Ext w w1 := by
    intro e hf
    refine ⟨_, _, o, e, by simp [act_bind, act_alloc, act_pure], ho, fun env' c hc => ?_, Ext.alloc w o⟩
    rw [read_obj (o := o) (by simp [act_bind, act_alloc, act_pure]) c hc, read_obj hr c hc, frozenScalar_val hf]
  have e := call_obj (env := env) (c := .snapshot) hr
  cases o with
  | counter x => cases x <;> simp [isSnapshot] at ho; exact new e trivial
  | gauge x => cases x <;> simp [isSnapshot] at ho; exact new e trivial
  | gaugeF x => cases x <;> simp [isSnapshot] at ho; exact new e trivial
  | ewma x => cases x <;> simp [isSnapshot] at ho; exact new e trivial
  | sample x => cases x <;> simp [isSnapshot] at ho; exact same e
  | hist x => cases x <;> simp [isSnapshot] at ho; exact same e
  | meter x => cases x <;> simp [isSnapshot] at ho; exact same e
  | timer x => cases x <;> simp [isSnapshot] at ho; exact same e
  | health x => simp [isSnapshot] at ho

/-- C04: what `Snapshot()` returns is one of these snapshots (or a stub, for a stub), whatever it was called on, in every reachable state. -/
theorem C04_kind (h : List (Env F × Op F)) (env : Env F) (r q : Ref) (w1 : World F)
    (hs : call env r .snapshot (World.init.run h) = (w1, .ok (.ref q))) :
    ∃ o, w1.objs q = some o ∧ (isSnapshot o = true ∨ isStub o = true) := by
  have hw := run_ok h (F := F)
  generalize World.init.run h = w at *
  have frozen : ∀ o' : Obj F, (isSnapshot o' = true ∨ isStub o' = true) → (do return .ref (← alloc o') : Act F (Out F)) w = (w1, .ok (.ref q)) →
      ∃ o, w1.objs q = some o ∧ (isSnapshot o = true ∨ isStub o = true) := by
    intro o' ho' e
    simp only [act_bind, act_alloc, act_pure, Prod.mk.injEq, Except.ok.injEq, Out.ref.injEq] at e
    obtain ⟨rfl, rfl⟩ := e
    exact ⟨o', by simp, ho'⟩
  rw [call, act_bind_getObj] at hs
  rcases hr : w.objs r with _ | o
  · rw [hr] at hs; simp [act_pure] at hs
  · rw [hr] at hs
    cases o with
    | counter x => exact frozen _ (by cases x <;> simp [isSnapshot, isStub, Counter.snapshot]) hs
    | gauge x => exact frozen _ (by cases x <;> simp [isSnapshot, isStub, Gauge.snapshot]) hs
    | gaugeF x => exact frozen _ (by cases x <;> simp [isSnapshot, isStub, GaugeF.snapshot]) hs
    | ewma x => exact frozen _ (by cases x <;> simp [isSnapshot, isStub, Ewma.snapshot]) hs
    | health x => simp [healthCall, act_pure] at hs
    | sample x =>
      cases x with
      | snap n a =>
        simp only [sampleCall, act_pure, Prod.mk.injEq, Except.ok.injEq, Out.ref.injEq] at hs
        obtain ⟨rfl, rfl⟩ := hs
        exact ⟨_, hr, .inl rfl⟩
      | nil =>
        simp only [sampleCall, act_pure, Prod.mk.injEq, Except.ok.injEq, Out.ref.injEq] at hs
        obtain ⟨rfl, rfl⟩ := hs
        exact ⟨_, hr, .inr rfl⟩
      | uniform s =>
        simp only [sampleCall] at hs
        rw [act_snap, Prod.mk.injEq, Except.ok.injEq, Out.ref.injEq] at hs
        obtain ⟨rfl, rfl⟩ := hs
        exact ⟨_, Function.update_self .., .inl rfl⟩
      | exp s =>
        simp only [sampleCall] at hs
        rw [act_snap, Prod.mk.injEq, Except.ok.injEq, Out.ref.injEq] at hs
        obtain ⟨rfl, rfl⟩ := hs
        exact ⟨_, Function.update_self .., .inl rfl⟩
    | hist x =>
      cases x with
      | std s =>
        simp only [histCall, act_bind] at hs
        generalize callSample env s .snapshot w = y at hs
        obtain ⟨w2, _ | o2⟩ := y
        · simp at hs
        · cases o2 <;> simp [act_pure] at hs
          rw [act_bind_getObj] at hs
          generalize World.objs w2 _ = z at hs
          rcases z with _ | (z | z | z | z | z | z | z | z | z) <;> try (simp [act_fail] at hs; done)
          cases z <;> try (simp [act_fail] at hs; done)
          simp only [act_bind, act_alloc, act_pure, Prod.mk.injEq, Except.ok.injEq, Out.ref.injEq] at hs
          obtain ⟨rfl, rfl⟩ := hs
          exact ⟨_, Function.update_self .., .inl rfl⟩
      | snap s =>
        simp only [histCall, act_pure, Prod.mk.injEq, Except.ok.injEq, Out.ref.injEq] at hs
        obtain ⟨rfl, rfl⟩ := hs
        exact ⟨_, hr, .inl rfl⟩
      | nil =>
        simp only [histCall, act_pure, Prod.mk.injEq, Except.ok.injEq, Out.ref.injEq] at hs
        obtain ⟨rfl, rfl⟩ := hs
        exact ⟨_, hr, .inr rfl⟩
    | meter x =>
      cases x with
      | std s =>
        simp only [meterCall, act_bind, act_alloc, act_pure, Prod.mk.injEq, Except.ok.injEq, Out.ref.injEq] at hs
        obtain ⟨rfl, rfl⟩ := hs
        exact ⟨_, Function.update_self .., .inl rfl⟩
      | snap s =>
        simp only [meterCall, act_pure, Prod.mk.injEq, Except.ok.injEq, Out.ref.injEq] at hs
        obtain ⟨rfl, rfl⟩ := hs
        exact ⟨_, hr, .inl rfl⟩
      | nil =>
        simp only [meterCall, act_pure, Prod.mk.injEq, Except.ok.injEq, Out.ref.injEq] at hs
        obtain ⟨rfl, rfl⟩ := hs
        exact ⟨_, hr, .inr rfl⟩
    | timer x =>
      cases x with
      | std h m =>
        simp only [timerCall, act_bind] at hs
        generalize callHist env h .snapshot w = y at hs
        obtain ⟨w2, _ | o2⟩ := y
        · simp at hs
        · cases o2 <;> simp [act_pure] at hs
          rw [act_bind_getObj] at hs
          generalize World.objs w2 _ = z at hs
          rcases z with _ | (z | z | z | z | z | z | z | z | z) <;> try (simp [act_fail] at hs; done)
          cases z <;> try (simp [act_fail] at hs; done)
          simp only [act_bind] at hs
          generalize callMeter env m .snapshot w2 = y at hs
          obtain ⟨w3, _ | o3⟩ := y
          · simp at hs
          · cases o3 <;> simp [act_pure] at hs
            rw [act_bind_getObj] at hs
            generalize World.objs w3 _ = z at hs
            rcases z with _ | (z | z | z | z | z | z | z | z | z) <;> try (simp [act_fail] at hs; done)
            cases z <;> try (simp [act_fail] at hs; done)
            simp only [act_bind, act_alloc, act_pure, Prod.mk.injEq, Except.ok.injEq, Out.ref.injEq] at hs
            obtain ⟨rfl, rfl⟩ := hs
            exact ⟨_, Function.update_self .., .inl rfl⟩
      | snap h m =>
        simp only [timerCall, act_pure, Prod.mk.injEq, Except.ok.injEq, Out.ref.injEq] at hs
        obtain ⟨rfl, rfl⟩ := hs
        exact ⟨_, hr, .inl rfl⟩
      | nil =>
        simp only [timerCall, act_pure, Prod.mk.injEq, Except.ok.injEq, Out.ref.injEq] at hs
        obtain ⟨rfl, rfl⟩ := hs
        exact ⟨_, hr, .inr rfl⟩


-- The situation of C04: the histogram snapshot of the history above, its sample snapshot, and its reaction to `Clear()`.
example : ∃ o, (call (envAt 9) 1 .snapshot (World.init.run histHistory)).1.objs 3 = some o ∧ isSnapshot o = true ∧ mutates o .clear = true :=
  ⟨_, rfl, rfl, rfl⟩

/-! ### C05 -/

private theorem construct_stub (w : World F) (env : Env F) (c : NewOp F) (hc : constructor c = true) (hn : w.useNil = true) :
    ∃ o, isStub o = true ∧ construct env c w = alloc o w := by
  cases c with
  | counter => exact ⟨_, rfl, by simp [construct, hn, Counter.new]; rfl⟩
  | gauge => exact ⟨_, rfl, by simp [construct, hn, Gauge.new]; rfl⟩
  | funcGauge f => exact ⟨_, rfl, by simp [construct, hn, Gauge.newFunctional]; rfl⟩
  | gaugeF => exact ⟨_, rfl, by simp [construct, hn, GaugeF.new]; rfl⟩
  | funcGaugeF f => exact ⟨_, rfl, by simp [construct, hn, GaugeF.newFunctional]; rfl⟩
  | health f => exact ⟨_, rfl, by simp [construct, hn, Health.new]; rfl⟩
  | uniform k => exact ⟨_, rfl, by simp [construct, hn]; rfl⟩
  | exp k a => exact ⟨_, rfl, by simp [construct, newExp, hn]; rfl⟩
  | sampleSnap n a => simp [constructor] at hc
  | hist s => exact ⟨_, rfl, by simp [construct, newHist, hn]; rfl⟩
  | ewma a => exact ⟨_, rfl, by simp [construct, hn, Ewma.new]; rfl⟩
  | meter => exact ⟨_, rfl, by simp [construct, newMeter, hn]; rfl⟩
  | timer => exact ⟨_, rfl, by simp [construct, hn]; rfl⟩
  | customTimer a b => exact ⟨_, rfl, by simp [construct, newTimer, hn]; rfl⟩

private theorem stub_live {o : Obj F} (h : isStub o = true) : o.live = none := by
  cases o with
  | counter x => cases x <;> simp_all [isStub, Obj.live]
  | gauge x => cases x <;> simp_all [isStub, Obj.live]
  | gaugeF x => cases x <;> simp_all [isStub, Obj.live]
  | health x => cases x <;> simp_all [isStub, Obj.live]
  | ewma x => cases x <;> simp_all [isStub, Obj.live]
  | sample x => cases x <;> simp_all [isStub, Obj.live]
  | meter x => cases x <;> simp_all [isStub, Obj.live]
  | hist x => rfl
  | timer x => rfl

/-- C05: with `UseNilMetrics`, every constructor succeeds, changes nothing that exists, schedules no meter, and gives a stub, which after
any later history (also one that resets `UseNilMetrics`) reads zero. -/
theorem C05_reads_zero (h : List (Env F × Op F)) (hn : (World.init.run h : World F).useNil = true) (env : Env F) (c : NewOp F) (hc : constructor c = true) :
    ∃ w1 r o, construct env c (World.init.run h) = (w1, .ok r) ∧ Ext (World.init.run h) w1 ∧ w1.objs r = some o ∧ isStub o = true ∧
      ∀ (later : List (Env F × Op F)) env' a, has o a = true → ∃ z, observe (w1.run later) env' r a = .ok z ∧ isZero a z := by
  have hw := run_ok h (F := F)
  have hok := (hw.construct env c).1
  generalize World.init.run h = w at *
  obtain ⟨o, ho, e⟩ := construct_stub w env c hc hn
  rw [e, act_alloc] at hok
  refine ⟨_, _, o, e, Ext.alloc w o, Function.update_self .., ho, fun later env' a ha => ?_⟩
  have hle := (hok.run later).2
  have ho' := hle.frozen w.nextObj o (Function.update_self ..) (stub_live ho)
  have hacc : accessor a = true := by cases o <;> cases a <;> simp_all [has, accessor]
  rw [read_obj ho' a hacc]
  cases o with
  | counter x => cases x <;> simp [isStub] at ho; cases a <;> simp [has] at ha; exact ⟨_, rfl, .inl rfl⟩
  | gauge x => cases x <;> simp [isStub] at ho; cases a <;> simp [has] at ha; exact ⟨_, rfl, .inl rfl⟩
  | gaugeF x => cases x <;> simp [isStub] at ho; cases a <;> simp [has] at ha; exact ⟨_, rfl, .inr (.inr (.inl rfl))⟩
  | health x => cases x <;> simp [isStub] at ho; cases a <;> simp [has] at ha; exact ⟨_, rfl, .inr (.inr (.inr (.inr rfl)))⟩
  | ewma x => cases x <;> simp [isStub] at ho; cases a <;> simp [has] at ha; exact ⟨_, rfl, .inr (.inl rfl)⟩
  | sample x =>
    cases x <;> simp [isStub] at ho
    cases a with
    | stat s => cases s <;> simp [objVal, sampleVal, nilStat, isZero]
    | _ => simp [has] at ha <;> simp [objVal, sampleVal, sampleVals, isZero]
  | hist x =>
    cases x <;> simp [isStub] at ho
    cases a with
    | stat s => cases s <;> simp [objVal, histVal, nilStat, isZero]
    | _ => simp [has] at ha <;> simp [objVal, histVal, isZero]
  | meter x =>
    cases x <;> simp [isStub] at ho
    cases a with
    | rates s => cases s <;> exact ⟨_, rfl, .inr (.inl rfl)⟩
    | count => exact ⟨_, rfl, .inl rfl⟩
    | _ => simp [has] at ha
  | timer x =>
    cases x <;> simp [isStub] at ho
    cases a with
    | stat s => cases s <;> simp [objVal, timerVal, nilStat, isZero]
    | rates s => exact ⟨_, rfl, .inr (.inl rfl)⟩
    | _ => simp [has] at ha <;> simp [objVal, timerVal, isZero]

/-- C05: no call on a stub panics, and none changes any object, slice, registry or the set of ticking meters (`Values`, `Sample` and
`Snapshot` may make new empty objects). -/
theorem C05_no_effect (w : World F) (env : Env F) (r : Ref) (o : Obj F) (hr : w.objs r = some o) (ho : isStub o = true) (c : Call F) :
    ∃ w1 out, call env r c w = (w1, .ok out) ∧ (∀ q, q < w.nextObj → w1.objs q = w.objs q) ∧ (∀ a, a < w.nextArr → w1.arrs a = w.arrs a) ∧
      w1.meters = w.meters ∧ w1.regs = w.regs := by
  have fin : ∀ w1, Ext w w1 → (∀ q, q < w.nextObj → w1.objs q = w.objs q) ∧ (∀ a, a < w.nextArr → w1.arrs a = w.arrs a) ∧ w1.meters = w.meters ∧ w1.regs = w.regs :=
    fun w1 h => ⟨h.objs, fun a ha => (h.arrs a ha).1, h.meters, h.regs⟩
  have up : ∀ o', some o' = w.objs r → ∀ q, q < w.nextObj → Function.update w.objs r (some o') q = w.objs q := by
    intro o' e q _
    rcases eq_or_ne q r with rfl | hq
    · simp [e]
    · simp [Function.update_of_ne hq]
  have set : ∀ o', some o' = w.objs r → ∃ w1 out, (do setObj r o'; return .unit : Act F (Out F)) w = (w1, .ok out) ∧
      (∀ q, q < w.nextObj → w1.objs q = w.objs q) ∧ (∀ a, a < w.nextArr → w1.arrs a = w.arrs a) ∧ w1.meters = w.meters ∧ w1.regs = w.regs :=
    fun o' e => ⟨_, _, rfl, up o' e, fun _ _ => rfl, rfl, rfl⟩
  have new : ∀ o' : Obj F, ∃ w1 out, (do return .ref (← alloc o') : Act F (Out F)) w = (w1, .ok out) ∧
      (∀ q, q < w.nextObj → w1.objs q = w.objs q) ∧ (∀ a, a < w.nextArr → w1.arrs a = w.arrs a) ∧ w1.meters = w.meters ∧ w1.regs = w.regs :=
    fun o' => ⟨_, _, rfl, fin _ (Ext.alloc w o')⟩
  have same : ∀ out : Out F, ∃ w1 out', (pure out : Act F (Out F)) w = (w1, .ok out') ∧
      (∀ q, q < w.nextObj → w1.objs q = w.objs q) ∧ (∀ a, a < w.nextArr → w1.arrs a = w.arrs a) ∧ w1.meters = w.meters ∧ w1.regs = w.regs :=
    fun out => ⟨_, _, rfl, fin _ (Ext.refl w)⟩
  rw [call_obj hr]
  cases o with
  | counter x => cases x <;> simp [isStub] at ho; cases c <;> first | exact same _ | exact set _ hr.symm | exact new _
  | gauge x => cases x <;> simp [isStub] at ho; cases c <;> first | exact same _ | exact set _ hr.symm | exact new _
  | gaugeF x => cases x <;> simp [isStub] at ho; cases c <;> first | exact same _ | exact set _ hr.symm | exact new _
  | health x => cases x <;> simp [isStub] at ho; cases c <;> first | exact same _ | exact set _ hr.symm | exact new _
  | ewma x => cases x <;> simp [isStub] at ho; cases c <;> first | exact same _ | exact set _ hr.symm | exact new _
  | sample x =>
    cases x <;> simp [isStub] at ho
    cases c <;> first | exact same _ | exact ⟨_, _, rfl, fin _ (Ext.newArr w _ _)⟩
  | hist x => cases x <;> simp [isStub] at ho; cases c <;> first | exact same _ | exact new _
  | meter x => cases x <;> simp [isStub] at ho; cases c <;> first | exact same _ | exact set _ hr.symm
  | timer x => cases x <;> simp [isStub] at ho; cases c <;> exact same _

-- With `UseNilMetrics`, `NewTimer` gives a stub.
example : (World.init.run [((envAt 0 : Env F), .setNil true)]).useNil = true ∧ constructor (.timer : NewOp F) = true := ⟨rfl, rfl⟩

/-! ### C08 -/

/-- C08: constructing a functional gauge, then any history: `Value()` gives what the function returns now, `Update` panics, and neither
changes anything; the same for `FunctionalGaugeFloat64`. -/
theorem C08_reads_through (h : List (Env F × Op F)) (hn : (World.init.run h : World F).useNil = false) (env : Env F) (f : Nat) :
    ∃ w1 r, construct env (.funcGauge f) (World.init.run h) = (w1, .ok r) ∧ ∀ (later : List (Env F × Op F)) (env' : Env F),
      call env' r .value (w1.run later) = (w1.run later, .ok (.int (env'.gaugeFn f))) ∧
      ∀ v, ∃ msg, call env' r (.update v) (w1.run later) = (w1.run later, .error (.msg msg)) := by
  have hok := ((run_ok h (F := F)).construct env (.funcGauge f)).1
  generalize World.init.run h = w at *
  have e : construct env (.funcGauge f) w = alloc (.gauge (.func f)) w := by simp [construct, Gauge.newFunctional, hn]
  rw [e, act_alloc] at hok
  refine ⟨_, _, e, fun later env' => ?_⟩
  have hr := (hok.run later).2.frozen w.nextObj (.gauge (.func f)) (Function.update_self ..) rfl
  exact ⟨by rw [call_obj hr]; rfl, fun v => ⟨_, by rw [call_obj hr]; rfl⟩⟩

theorem C08_reads_through_float (h : List (Env F × Op F)) (hn : (World.init.run h : World F).useNil = false) (env : Env F) (f : Nat) :
    ∃ w1 r, construct env (.funcGaugeF f) (World.init.run h) = (w1, .ok r) ∧ ∀ (later : List (Env F × Op F)) (env' : Env F),
      call env' r .value (w1.run later) = (w1.run later, .ok (.bits (env'.gaugeFFn f))) ∧
      ∀ v, ∃ msg, call env' r (.updateF v) (w1.run later) = (w1.run later, .error (.msg msg)) := by
  have hok := ((run_ok h (F := F)).construct env (.funcGaugeF f)).1
  generalize World.init.run h = w at *
  have e : construct env (.funcGaugeF f) w = alloc (.gaugeF (.func f)) w := by simp [construct, GaugeF.newFunctional, hn]
  rw [e, act_alloc] at hok
  refine ⟨_, _, e, fun later env' => ?_⟩
  have hr := (hok.run later).2.frozen w.nextObj (.gaugeF (.func f)) (Function.update_self ..) rfl
  exact ⟨by rw [call_obj hr]; rfl, fun v => ⟨_, by rw [call_obj hr]; rfl⟩⟩

/-- C08: the snapshot keeps the value of the call made at snapshot time, whatever the function returns later. -/
theorem C08_snapshot (h : List (Env F × Op F)) (env : Env F) (r : Ref) (f : Nat)
    (hr : (World.init.run h : World F).objs r = some (.gauge (.func f))) :
    ∃ w1 q, call env r .snapshot (World.init.run h) = (w1, .ok (.ref q)) ∧ ∀ (later : List (Env F × Op F)) (env' : Env F),
      observe (w1.run later) env' q .value = .ok (.int (env.gaugeFn f)) := by
  have hw := run_ok h (F := F)
  generalize World.init.run h = w at *
  refine ⟨_, _, (call_obj hr).trans rfl, fun later env' => ?_⟩
  refine (frozen_after hw env r _ _ ((call_obj hr).trans rfl) (fun a ha => ?_) later env' .value (readOK_orderFree rfl)).trans ?_
  · simp [slice, sampleSlice, hr] at ha
  · rw [read_obj hr _ rfl]; rfl

theorem C08_snapshot_float (h : List (Env F × Op F)) (env : Env F) (r : Ref) (f : Nat)
    (hr : (World.init.run h : World F).objs r = some (.gaugeF (.func f))) :
    ∃ w1 q, call env r .snapshot (World.init.run h) = (w1, .ok (.ref q)) ∧ ∀ (later : List (Env F × Op F)) (env' : Env F),
      observe (w1.run later) env' q .value = .ok (.bits (env.gaugeFFn f)) := by
  have hw := run_ok h (F := F)
  generalize World.init.run h = w at *
  refine ⟨_, _, (call_obj hr).trans rfl, fun later env' => ?_⟩
  refine (frozen_after hw env r _ _ ((call_obj hr).trans rfl) (fun a ha => ?_) later env' .value (readOK_orderFree rfl)).trans ?_
  · simp [slice, sampleSlice, hr] at ha
  · rw [read_obj hr _ rfl]; rfl

-- A functional gauge read twice while its function returns 7 and then 8.
example : ∃ w1 : World F, construct (envAt 0) (.funcGauge 0) World.init = (w1, .ok 0) ∧
    call { (envAt 0 : Env F) with gaugeFn := fun _ => 8 } 0 .value w1 = (w1, .ok (.int 8)) ∧ call (envAt 0) 0 .value w1 = (w1, .ok (.int 7)) :=
  ⟨_, rfl, rfl, rfl⟩

/-! ### C18 -/

/-- C18: any number of reads (of any objects, percentiles included) leaves every accessor of every object but `Variance` and `StdDev`
unchanged — so also later percentiles —, keeps the multiset of `Values()` of every sample, and touches no meter and no registry. -/
theorem C18_undisturbed (w : World F) (reads : List (Env F × Ref × Call F)) (hr : ∀ x ∈ reads, accessor x.2.2 = true) :
    (∀ env q c, orderFree c = true → observe (w.run (reads.map fun x => (x.1, .call x.2.1 x.2.2))) env q c = observe w env q c) ∧
    (∀ env q, (contents (w.run (reads.map fun x => (x.1, .call x.2.1 x.2.2))) env q).Perm (contents w env q)) ∧
    (w.run (reads.map fun x => (x.1, .call x.2.1 x.2.2))).meters = w.meters ∧ (w.run (reads.map fun x => (x.1, .call x.2.1 x.2.2))).regs = w.regs :=
  have h := sim_reads w reads hr
  ⟨fun env q c hc => h.observe env q c (readOK_orderFree hc), h.contents, h.meters, h.regs⟩

/-- C18: in exact arithmetic also `Variance` and `StdDev`. -/
theorem C18_undisturbed_exact {K : Type} [Field K] [LinearOrder K] [IsStrictOrderedRing K] [FloorRing K] [GoSqrt K] [GoExp K]
    (w : World K) (reads : List (Env K × Ref × Call K)) (hr : ∀ x ∈ reads, accessor x.2.2 = true) (env : Env K) (q : Ref) (c : Call K)
    (hc : accessor c = true) : observe (w.run (reads.map fun x => (x.1, .call x.2.1 x.2.2))) env q c = observe w env q c :=
  (sim_reads w reads hr).observe env q c (readOK_exact hc)

/-- C18: `ExpDecaySample` is not even reordered: percentile reads of it, and all reads of anything that is not a uniform sample or a
snapshot, leave the object exactly as it was. -/
theorem C18_not_touched (w : World F) (reads : List (Env F × Ref × Call F)) (hr : ∀ x ∈ reads, accessor x.2.2 = true) (q : Ref)
    (hq : ∀ s, w.objs q ≠ some (.sample (.uniform s))) :
    (w.run (reads.map fun x => (x.1, .call x.2.1 x.2.2))).objs q = w.objs q := by
  rcases (sim_reads w reads hr).objs q with e | ⟨s, _, e, -⟩
  · exact e
  · exact absurd e (hq s)

-- A uniform sample of 30, 4 behind a histogram: the percentile read sorts it, `Values()` changes its order.
example : contents (World.init.run histHistory) (envAt 0) 0 = [30, 4] ∧
    contents ((World.init.run histHistory).run [(envAt 0, .call 1 (.stat (.percentiles [])))]) (envAt 0) 0 = [4, 30] := by
  refine ⟨rfl, ?_⟩
  have e : (World.init.run histHistory).run [(envAt 0, .call 1 (.stat (.percentiles [])))] = _ := step_call_fst ..
  rw [e, contents_eq]
  rfl

end GoMetrics
