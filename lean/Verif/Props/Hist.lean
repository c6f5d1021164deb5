import Verif.Lemmas.WorldHist

/-! Property theorems C41, C42, C44, C45 (histograms and timers). -/

set_option linter.unusedSimpArgs false
set_option linter.unnecessarySeqFocus false
set_option linter.unusedSectionVars false
set_option linter.unnecessarySimpa false

namespace GoMetrics
open Spec

variable {F : Type} [GoFloat F] [GoSqrt F] [GoExp F]

/-! ### C41 -/

/-- C41: in every reachable state, every accessor of a histogram (or histogram snapshot) does and returns exactly what the same call
on its sample (sample snapshot) does and returns. -/
theorem C41_accessors (h : List (Env F × Op F)) (r s : Ref)
    (hr : (World.init.run h).objs r = some (.hist (.std s)) ∨ (World.init.run h).objs r = some (.hist (.snap s)))
    (env : Env F) (c : Call F) (hc : c = .count ∨ ∃ k, c = .stat k) :
    call env r c (World.init.run h) = call env s c (World.init.run h) := by
  have hw := run_ok h (F := F)
  generalize World.init.run h = w at *
  rcases hr with hr | hr
  · have hs : HasTy w s .sample := hw.refs _ _ hr
    rw [call_obj hr, ← callSample_eq hs]
    rcases hc with rfl | ⟨k, rfl⟩ <;> rfl
  · have hs : HasTy w s .sample := by
      obtain ⟨n, a, h1⟩ := hw.refs _ _ hr
      exact ⟨_, h1, rfl⟩
    rw [call_obj hr, ← callSample_eq hs]
    rcases hc with rfl | ⟨k, rfl⟩ <;> rfl

/-- C41: `Update` and `Clear` of a histogram are those of its sample; `Sample()` returns that sample. -/
theorem C41_updates (h : List (Env F × Op F)) (r s : Ref) (hr : (World.init.run h).objs r = some (.hist (.std s))) (env : Env F) :
    (∀ v, call env r (.update v) (World.init.run h) = call env s (.update v) (World.init.run h)) ∧
    call env r .clear (World.init.run h) = call env s .clear (World.init.run h) ∧
    call env r .sample (World.init.run h) = (World.init.run h, .ok (.ref s)) := by
  have hw := run_ok h (F := F)
  generalize World.init.run h = w at *
  have hs : HasTy w s .sample := hw.refs _ _ hr
  rw [call_obj hr, call_obj hr, ← callSample_eq hs]
  refine ⟨fun v => ?_, rfl, rfl⟩
  rw [call_obj hr, ← callSample_eq hs]
  rfl

/-- C41: the snapshot of a histogram is a histogram snapshot over the snapshot of its sample. -/
theorem C41_snapshot (h : List (Env F × Op F)) (r s : Ref) (hr : (World.init.run h).objs r = some (.hist (.std s))) (env : Env F)
    (w1 : World F) (q : Ref) (hq : call env s .snapshot (World.init.run h) = (w1, .ok (.ref q))) (hne : w1.objs q ≠ some (.sample .nil)) :
    ∃ w2 q', call env r .snapshot (World.init.run h) = (w2, .ok (.ref q')) ∧ w1.objs q' = none ∧ w2.objs q' = some (.hist (.snap q)) ∧ Ext w1 w2 := by
  have hw := run_ok h (F := F)
  generalize World.init.run h = w at *
  have hs : HasTy w s .sample := hw.refs _ _ hr
  have hw1 : w1.Ok := by have := (hw.call env s .snapshot).1; rwa [hq] at this
  have hsn : ∃ n a, w1.objs q = some (.sample (.snap n a)) := by
    obtain ⟨o, h1, h2⟩ := hs
    cases o <;> simp [Obj.ty] at h2
    rename_i x
    rw [call_obj h1] at hq
    cases x with
    | uniform x =>
      simp only [objCall, sampleCall, act_bind, newArr, act_alloc, act_pure, Prod.mk.injEq, Except.ok.injEq, Out.ref.injEq] at hq
      obtain ⟨rfl, rfl⟩ := hq
      exact ⟨_, _, Function.update_self ..⟩
    | exp x =>
      simp only [objCall, sampleCall, act_bind, newArr, act_alloc, act_pure, Prod.mk.injEq, Except.ok.injEq, Out.ref.injEq] at hq
      obtain ⟨rfl, rfl⟩ := hq
      exact ⟨_, _, Function.update_self ..⟩
    | snap n a =>
      simp only [objCall, sampleCall, act_pure, Prod.mk.injEq, Except.ok.injEq, Out.ref.injEq] at hq
      obtain ⟨rfl, rfl⟩ := hq
      exact ⟨_, _, h1⟩
    | nil =>
      simp only [objCall, sampleCall, act_pure, Prod.mk.injEq, Except.ok.injEq, Out.ref.injEq] at hq
      obtain ⟨rfl, rfl⟩ := hq
      exact absurd h1 hne
  obtain ⟨n, a, hsn⟩ := hsn
  refine ⟨_, w1.nextObj, ?_, hw1.obj _ (le_refl _), ?_, Ext.alloc w1 (.hist (.snap q))⟩
  · rw [call_obj hr]
    simp only [objCall, histCall, act_bind, callSample_eq hs, hq, act_getObj, hsn, act_alloc, act_pure]
  · exact Function.update_self ..

/-- C41 (boundary, a defect): the snapshot of a histogram over a `NilSample` panics on the type assertion of histogram.go:186. -/
theorem C41_snapshot_nil (h : List (Env F × Op F)) (r s : Ref) (hr : (World.init.run h).objs r = some (.hist (.std s)))
    (hs : (World.init.run h).objs s = some (.sample .nil)) (env : Env F) :
    call env r .snapshot (World.init.run h) = (World.init.run h, .error .typeAssert) := by
  generalize World.init.run h = w at *
  rw [call_obj hr]
  have e : callSample env s .snapshot w = (w, .ok (.ref s)) := by
    rw [callSample, act_bind_getObj, hs]; rfl
  simp only [objCall, histCall, act_bind, e, act_getObj, hs, act_fail]

/-- A histogram over a uniform sample, updated directly and through the sample. -/
private def histHistory : List (Env F × Op F) :=
  [(envAt 0, .new (.uniform 5)), (envAt 0, .new (.hist 0)), (envAt 1, .call 1 (.update 30)), (envAt 2, .call 0 (.update 12)), (envAt 3, .call 1 .snapshot)]

example : (World.init.run histHistory : World F).objs 1 = some (.hist (.std 0)) ∧ (World.init.run histHistory : World F).objs 3 = some (.hist (.snap 2)) := ⟨rfl, rfl⟩
example : intOf (observe (World.init.run histHistory : World F64) (envAt 4) 1 (.stat .sum)) = some 42 := by decide +kernel
example : intOf (observe (World.init.run histHistory : World F64) (envAt 4) 3 (.stat .max)) = some 30 := by decide +kernel
example : (World.init.run [(envAt 0, .setNil true), (envAt 0, .new (.uniform 5)), (envAt 0, .setNil false), (envAt 0, .new (.hist 0))] : World F).objs 1 = some (.hist (.std 0)) ∧
    (World.init.run [(envAt 0, .setNil true), (envAt 0, .new (.uniform 5)), (envAt 0, .setNil false), (envAt 0, .new (.hist 0))] : World F).objs 0 = some (.sample .nil) := ⟨rfl, rfl⟩

/-! ### C42 -/

/-- C42: in every reachable state, `Update(d)` on a timer is `Update(d)` on its histogram followed by `Mark(1)` on its meter (which is
skipped only if the first panics), and `UpdateSince(ts)` is `Update(now - ts)`. -/
theorem C42_update (h : List (Env F × Op F)) (r a b : Ref) (hr : (World.init.run h).objs r = some (.timer (.std a b))) (env : Env F) :
    (∀ d, call env r (.updateD d) (World.init.run h) = match call env a (.update d) (World.init.run h) with
      | (w1, .ok _) => call env b (.mark 1) w1
      | (w1, .error p) => (w1, .error p)) ∧
    ∀ ts, call env r (.updateSince ts) (World.init.run h) = call env r (.updateD (Int64.ofInt (timeSub env.now ts))) (World.init.run h) := by
  have hw := run_ok h (F := F)
  generalize World.init.run h = w at *
  refine ⟨fun d => ?_, fun ts => updateSince_eq env r ts w hr⟩
  obtain ⟨ha, hb⟩ := hw.refs _ _ hr
  rw [call_obj hr]
  show (callHist env a (.update d) >>= fun _ => callMeter env b (.mark 1)) w = _
  rw [act_bind, callHist_eq ha]
  have hle := (hw.call env a (.update d)).2
  generalize call env a (.update d) w = y at *
  obtain ⟨w1, _ | o⟩ := y
  · rfl
  · exact callMeter_eq (hle.ty b _ hb) env _

private theorem durations_append (r : Ref) (a b : List (Env F × Op F)) : durations r (a ++ b) = durations r a ++ durations r b := by
  induction a with
  | nil => rfl
  | cons e a ih =>
    obtain ⟨env, o⟩ := e
    cases o with
    | call x c => cases c <;> simp only [List.cons_append, durations, ih] <;> split <;> simp [ih]
    | _ => simp [durations, ih]

/-- What is known about a timer made by `NewTimer` after any later history. -/
private theorem timer_history (h0 : List (Env F × Op F)) (env0 : Env F) (r s a m : Ref) (hn : (World.init.run h0 : World F).useNil = false)
    (hr : (World.init.run (h0 ++ [(env0, .new .timer)])).objs r = some (.timer (.std a m))) (hnew : (World.init.run h0 : World F).objs r = none)
    (ha : (World.init.run (h0 ++ [(env0, .new .timer)])).objs a = some (.hist (.std s)))
    (later : List (Env F × Op F)) (hp : ∀ e ∈ later, ¬ uses e.2 s ∧ ¬ uses e.2 a ∧ ¬ uses e.2 m) :
    ∃ x0 x mm, ExpDecaySample.new 1028 (GoFloat.lit (15 / 1000)) env0.now = .ok x0 ∧ TimerState r s a m x mm (World.init.run (h0 ++ (env0, .new .timer) :: later)) ∧
      x0.run ((durations r later).map fun e => .update e.1.now e.2 e.1.float64) = .ok x ∧ x.count = Int64.ofNat (durations r later).length ∧
      (live (World.init.run (h0 ++ (env0, .new .timer) :: later)) m → mm.snapshot.count = Int64.ofNat (durations r later).length) := by
  have hw0 := run_ok h0 (F := F)
  obtain ⟨x0, hx0, e⟩ := newTimer_eq env0 (World.init.run h0 : World F) hn
  -- the objects of the new timer
  have hstart : ∃ mm, TimerState r s a m x0 mm (World.init.run (h0 ++ [(env0, .new .timer)])) ∧ mm.snapshot.count = 0 := by
    have hok := run_ok (h0 ++ [(env0, .new .timer)]) (F := F)
    have e2 : (World.init.run (h0 ++ [(env0, .new .timer)]) : World F) = (construct env0 .timer (World.init.run h0)).1 := by
      rw [World.run_append]
      show (step env0 (.new .timer) _).1 = _
      rw [step_new_fst]
    rw [e2, e] at hr ha hok ⊢
    have hsh : x0.Shape 1028 := by
      obtain ⟨x1, h1, h2, -⟩ := ExpDecaySample.new_shape 1028 (GoFloat.lit (15 / 1000) : F) env0.now
      have : (x0 : ExpDecaySample F) = x1 := by
        have h3 : (Except.ok x0 : Res (ExpDecaySample F)) = .ok x1 := hx0.symm.trans h1
        simpa using h3
      rw [this]; exact h2
    generalize (World.init.run h0 : World F) = w at *
    set n := w.nextObj with hndef
    have old : ∀ q, n ≤ q → w.objs q = none := hw0.obj
    have lt_of : ∀ q o, w.objs q = some o → q < n := fun q o h => hw0.lt h
    replace hr : timerObjs env0 x0 w r = _ := hr
    replace ha : timerObjs env0 x0 w a = _ := ha
    have look : ∀ q, timerObjs env0 x0 w q = if q = n + 3 then some (.timer (.std (n + 1) (n + 2))) else if q = n + 2 then some (.meter (.std (StandardMeter.new env0.now)))
        else if q = n + 1 then some (.hist (.std n)) else if q = n then some (.sample (.exp x0)) else w.objs q := by
      intro q
      simp only [timerObjs, Function.update_apply, ← hndef]
    rw [look] at hr ha
    have hrn : r = n + 3 ∧ a = n + 1 ∧ m = n + 2 := by
      split_ifs at hr with h1 h2 h3 h4
      · simp only [Option.some.injEq, Obj.timer.injEq, TimerV.std.injEq] at hr
        exact ⟨h1, hr.1.symm, hr.2.symm⟩
      all_goals first | (simp at hr; done) | (rw [hnew] at hr; simp at hr)
    obtain ⟨rfl, rfl, rfl⟩ := hrn
    have hsn : s = n := by
      have h1 : n + 1 ≠ n + 3 := by omega
      have h2 : n + 1 ≠ n + 2 := by omega
      rw [if_neg h1, if_neg h2, if_pos rfl] at ha
      simp at ha
      exact ha.symm
    subst hsn
    refine ⟨StandardMeter.new env0.now, ⟨hok, ⟨?_, ?_, ?_, ?_, ?_⟩, ?_, ?_, hsh⟩, rfl⟩
    · show timerObjs env0 x0 w _ = _
      rw [look, if_pos rfl]
    · show timerObjs env0 x0 w _ = _
      rw [look, if_neg (by omega), if_neg (by omega), if_pos rfl]
    · intro y hy
      replace hy : timerObjs env0 x0 w y = _ := hy
      rw [look] at hy
      split_ifs at hy with h1 h2 h3 h4
      · simp at hy
      · simp at hy
      · exact h3
      · simp at hy
      · obtain ⟨o, h5, -⟩ := hw0.refs _ _ hy
        exact absurd (lt_of _ _ h5) (by omega)
    · intro y b hy
      replace hy : timerObjs env0 x0 w y = _ := hy
      rw [look] at hy
      split_ifs at hy with h1 h2 h3 h4
      · exact h1
      all_goals try (simp at hy; done)
      obtain ⟨⟨o, h5, -⟩, -⟩ := hw0.refs _ _ hy
      exact absurd (lt_of _ _ h5) (by omega)
    · intro y b hy
      replace hy : timerObjs env0 x0 w y = _ := hy
      rw [look] at hy
      split_ifs at hy with h1 h2 h3 h4
      · exact h1
      all_goals try (simp at hy; done)
      obtain ⟨-, ⟨o, h5, -⟩⟩ := hw0.refs _ _ hy
      exact absurd (lt_of _ _ h5) (by omega)
    · show timerObjs env0 x0 w _ = _
      rw [look, if_neg (by omega), if_neg (by omega), if_neg (by omega), if_pos rfl]
    · show timerObjs env0 x0 w _ = _
      rw [look, if_neg (by omega), if_pos rfl]
  obtain ⟨mm0, hs0, hm0⟩ := hstart
  have hx0c : x0.count = 0 := by
    obtain ⟨x1, h1, -, -, h2, -⟩ := ExpDecaySample.new_shape 1028 (GoFloat.lit (15 / 1000) : F) env0.now
    have : (x0 : ExpDecaySample F) = x1 := by
      have h3 : (Except.ok x0 : Res (ExpDecaySample F)) = .ok x1 := hx0.symm.trans h1
      simpa using h3
    rw [this]; exact h2
  refine ⟨x0, ?_⟩
  have snoc : ∀ l : List (Env F × Op F), h0 ++ (env0, .new .timer) :: l = (h0 ++ [(env0, .new .timer)]) ++ l := fun l => by simp
  induction later using List.reverseRecOn with
  | nil => exact ⟨x0, mm0, hx0, hs0, rfl, hx0c, fun _ => hm0⟩
  | append_singleton later e ih =>
    obtain ⟨x, mm, -, ht, h1, h2, h3⟩ := ih fun e he => hp e (List.mem_append_left _ he)
    obtain ⟨env, o⟩ := e
    obtain ⟨p1, p2, p3⟩ := hp (env, o) (by simp)
    obtain ⟨x', mm', ht', hc⟩ := ht.next env o p1 p2 p3
    rw [snoc, ← List.append_assoc, ← snoc, World.run_append]
    refine ⟨x', mm', hx0, ht', ?_⟩
    rw [durations_append]
    have hl : live (step env o (World.init.run (h0 ++ (env0, .new .timer) :: later) : World F)).1 m → mm'.stopped = false := by
      rintro ⟨m2, h4, h5⟩
      rw [ht'.meter] at h4
      simp only [Option.some.injEq, Obj.meter.injEq, Meter.std.injEq] at h4
      rw [h4]; exact h5
    have hlive : mm.stopped = false → live (World.init.run (h0 ++ (env0, .new .timer) :: later) : World F) m := fun h => ⟨mm, ht.meter, h⟩
    rcases hc with ⟨d, hd, hu, rfl⟩ | ⟨hd, rfl, hm⟩
    · rw [hd, List.map_append]
      refine ⟨?_, ?_, ?_⟩
      · rw [List.map_singleton, exp_run_snoc x0 x _ _ h1]; exact hu
      · obtain ⟨x2, _, _, e2, _, e3, _⟩ := ExpDecaySample.update_spec 1028 (by omega) x ht.shape env.now d env.float64
        rw [hu] at e2
        simp only [Except.ok.injEq] at e2
        rw [e2, e3, h2, List.length_append, List.length_singleton, Int64.ofNat_add]; rfl
      · intro hl'
        have h5 := hl hl'
        have h6 : mm.stopped = false := by
          cases h7 : mm.stopped with
          | false => rfl
          | true => simp [StandardMeter.mark, h7] at h5
        have : (mm.mark 1 env.now).snapshot.count = mm.snapshot.count + 1 := by simp [StandardMeter.mark, h6, StandardMeter.updateSnapshot]
        rw [this, h3 (hlive h6), List.length_append, List.length_singleton, Int64.ofNat_add]; rfl
    · rw [hd, List.append_nil]
      refine ⟨h1, h2, fun hl' => ?_⟩
      have h5 := hl hl'
      rcases hm with rfl | rfl | ⟨-, rfl⟩
      · exact h3 (hlive h5)
      · have : (mm.tick env.now).snapshot.count = mm.snapshot.count := rfl
        rw [this]
        exact h3 (hlive h5)
      · simp [StandardMeter.stop] at h5

/-- C42: for a timer made by `NewTimer` (whose sample, histogram and meter no program can reach directly), after any later history of any
calls, `Count()` is the number of its `Update`s and `UpdateSince`s (mod 2^64), also after `Stop()`; the sample has been
given exactly those durations, in that order; and as long as the meter has not been stopped, it has counted the same number. -/
theorem C42_history (h0 : List (Env F × Op F)) (env0 : Env F) (r s a m : Ref) (hn : (World.init.run h0 : World F).useNil = false)
    (hr : (World.init.run (h0 ++ [(env0, .new .timer)])).objs r = some (.timer (.std a m))) (hnew : (World.init.run h0 : World F).objs r = none)
    (ha : (World.init.run (h0 ++ [(env0, .new .timer)])).objs a = some (.hist (.std s)))
    (later : List (Env F × Op F)) (hp : ∀ e ∈ later, ¬ uses e.2 s ∧ ¬ uses e.2 a ∧ ¬ uses e.2 m) :
    let w := World.init.run (h0 ++ (env0, .new .timer) :: later)
    (∀ env, observe w env r .count = .ok (.int (Int64.ofNat (durations r later).length))) ∧
    (∃ x0 x, ExpDecaySample.new 1028 (GoFloat.lit (15 / 1000)) env0.now = .ok x0 ∧ w.objs s = some (.sample (.exp x)) ∧
      x0.run ((durations r later).map fun e => .update e.1.now e.2 e.1.float64) = .ok x) ∧
    (live w m → ∀ env, observe w env m .count = .ok (.int (Int64.ofNat (durations r later).length))) := by
  intro w
  obtain ⟨x0, x, mm, h1, ht, h2, h3, h4⟩ := timer_history h0 env0 r s a m hn hr hnew ha later hp
  refine ⟨fun env => ?_, ⟨x0, x, h1, ht.sample, h2⟩, fun hl env => ?_⟩
  · rw [read_obj ht.priv.timer .count rfl, objVal, timerVal, histRef, ht.priv.hist]
    show histVal w (.std s) .count = _
    rw [histVal, sampleRef, ht.sample]
    show Except.ok (Out.int x.count) = _
    rw [h3]
  · rw [read_obj ht.meter .count rfl]
    show Except.ok (Out.int mm.snapshot.count) = _
    rw [h4 hl]

/-! ### C44 -/

/-- The function `f`, with a counter of its calls. -/
def counted {U : Type} (f : World F × U → (World F × U) × Option Panic) (x : World F × (U × Nat)) : (World F × (U × Nat)) × Option Panic :=
  let y := f (x.1, x.2.1)
  ((y.1.1, (y.1.2, x.2.2 + 1)), y.2)

/-- C44 (standard timers; missing: the timers made with `UseNilMetrics`, for which it is false): `Time(f)` calls `f` exactly once. -/
theorem C44_once_partial {U : Type} (w : World F) (r a b : Ref) (hr : w.objs r = some (.timer (.std a b))) (env1 env2 : Env F)
    (f : World F × U → (World F × U) × Option Panic) (u : U) (n : Nat) :
    (timerTime env1 env2 r (counted f) (w, (u, n))).1.2.2 = n + 1 := by
  simp only [timerTime, hr, counted]
  rcases f (w, u) with ⟨⟨w', u'⟩, _ | p⟩ <;> rfl

/-- C44 (standard timers): if `f` returns, the time from the call to its return is recorded, by `Update`, after all effects of `f`. -/
theorem C44_recorded_partial {U : Type} (w : World F) (r a b : Ref) (hr : w.objs r = some (.timer (.std a b))) (env1 env2 : Env F)
    (f : World F × U → (World F × U) × Option Panic) (u u' : U) (w' : World F) (hf : f (w, u) = ((w', u'), none)) :
    timerTime env1 env2 r f (w, u) =
      (((call env2 r (.updateD (Int64.ofInt (timeSub env2.now env1.now))) w').1, u'), (call env2 r (.updateD (Int64.ofInt (timeSub env2.now env1.now))) w').2) := by
  simp only [timerTime, hr, hf]

/-- C44 (standard timers): if `f` panics, so does `Time`, and nothing but the effects of `f` has happened. -/
theorem C44_panic_partial {U : Type} (w : World F) (r a b : Ref) (hr : w.objs r = some (.timer (.std a b))) (env1 env2 : Env F)
    (f : World F × U → (World F × U) × Option Panic) (u u' : U) (w' : World F) (p : Panic) (hf : f (w, u) = ((w', u'), some p)) :
    timerTime env1 env2 r f (w, u) = ((w', u'), .error p) := by
  simp only [timerTime, hr, hf]

/-- C44 is false for the timers that `NewTimer` and `NewCustomTimer` make when `UseNilMetrics` is set: `f` is not called. -/
theorem C44_refuted_nil (h : List (Env F × Op F)) (hn : (World.init.run h : World F).useNil = true) (env env1 env2 : Env F) (c : NewOp F)
    (hc : c = .timer ∨ ∃ a b, c = .customTimer a b) (f : World F × Unit → (World F × Unit) × Option Panic) :
    ∃ w r, construct env c (World.init.run h) = (w, .ok r) ∧ (timerTime env1 env2 r (counted f) (w, ((), 0))).1.2.2 = 0 := by
  generalize (World.init.run h : World F) = w at *
  have e : construct env c w = alloc (.timer .nil) w := by
    rcases hc with rfl | ⟨a, b, rfl⟩
    · simp only [construct, hn, if_true]
    · simp only [construct, newTimer, hn, if_true]
  refine ⟨_, _, e, ?_⟩
  have : ∀ x : World F × (Unit × Nat), x.1.objs w.nextObj = some (.timer .nil) → (timerTime env1 env2 w.nextObj (counted f) x) = (x, .ok .unit) := by
    intro x hx
    simp only [timerTime, hx]
  rw [this _ (Function.update_self ..)]

/-- `Time` of a function that marks its start in a counter and takes 5 ns, and of one that panics. -/
example : intOf (observe (timerTime (envAt 10) (envAt 15) 3 (fun x => ((x.1, x.2 + 1), none)) (World.init.run [(envAt 0, .new .timer)] , (0 : Nat))).1.1 (envAt 20) 3 .count :
    Res (Out F64)) = some 1 := by decide +kernel
example : ((timerTime (envAt 10) (envAt 15) 3 (fun x => ((x.1, x.2 + 1), some (.user 4))) (World.init.run [(envAt 0, .new .timer)], (0 : Nat))) :
    (World F × Nat) × Res (Out F)).2 = .error (.user 4) := rfl

/-! ### C45 -/

/-- C45: for a timer made by `NewTimer`: once `Stop()` has been called on it (at a moment when its meter was not stopped yet), its meter stays, whatever
happens later, exactly as it was left, with the number of updates before the `Stop`, while `Count()` goes on counting all updates. -/
theorem C45_stop (h0 : List (Env F × Op F)) (env0 : Env F) (r s a m : Ref) (hn : (World.init.run h0 : World F).useNil = false)
    (hr : (World.init.run (h0 ++ [(env0, .new .timer)])).objs r = some (.timer (.std a m))) (hnew : (World.init.run h0 : World F).objs r = none)
    (ha : (World.init.run (h0 ++ [(env0, .new .timer)])).objs a = some (.hist (.std s)))
    (before after : List (Env F × Op F)) (env1 : Env F)
    (hp : ∀ e ∈ before ++ (env1, .call r .stop) :: after, ¬ uses e.2 s ∧ ¬ uses e.2 a ∧ ¬ uses e.2 m)
    (hl : live (World.init.run (h0 ++ (env0, .new .timer) :: before)) m) :
    let w0 := World.init.run (h0 ++ (env0, .new .timer) :: before)
    let w := World.init.run (h0 ++ (env0, .new .timer) :: (before ++ (env1, .call r .stop) :: after))
    (∀ env, observe w env r .count = .ok (.int (Int64.ofNat ((durations r before).length + (durations r after).length)))) ∧
    (∀ env, observe w env m .count = .ok (.int (Int64.ofNat (durations r before).length))) ∧
    (∀ env k, observe w env r (.rates k) = observe w0 env r (.rates k)) := by
  intro w0 w
  obtain ⟨h1, -, -⟩ := C42_history h0 env0 r s a m hn hr hnew ha _ hp
  obtain ⟨x0, x, mm, -, ht, -, -, h4⟩ := timer_history h0 env0 r s a m hn hr hnew ha before fun e he => hp e (List.mem_append_left _ he)
  obtain ⟨x0', x', mm', -, ht', -, -, -⟩ := timer_history h0 env0 r s a m hn hr hnew ha _ hp
  have hms : mm.stopped = false := by
    obtain ⟨m2, h5, h6⟩ := hl
    rw [ht.meter] at h5
    simp only [Option.some.injEq, Obj.meter.injEq, Meter.std.injEq] at h5
    rw [h5]; exact h6
  -- right after the Stop
  have hstop : (World.init.run (h0 ++ (env0, .new .timer) :: before ++ [(env1, .call r .stop)]) : World F).objs m = some (.meter (.std mm.stop)) := by
    rw [World.run_append]
    show (step env1 (.call r .stop) _).1.objs m = _
    rw [step_call_fst, call_obj ht.priv.timer]
    show (callMeter env1 m .stop _).1.objs m = _
    rw [callMeter, act_bind_getObj, ht.meter]
    simp only [meterCall, hms]
    exact Function.update_self ..
  have hfin : w.objs m = some (.meter (.std mm.stop)) := by
    have e : w = (World.init.run (h0 ++ (env0, .new .timer) :: before ++ [(env1, .call r .stop)])).run after := by
      rw [← World.run_append]; simp [w]
    rw [e]
    exact stopped_le ((run_ok _).run after).2 hstop rfl
  refine ⟨fun env => ?_, fun env => ?_, fun env k => ?_⟩
  · rw [h1 env, durations_append, List.length_append]
    simp [durations]
  · rw [read_obj hfin .count rfl]
    show Except.ok (Out.int mm.snapshot.count) = _
    rw [h4 hl]
  · rw [read_obj ht'.priv.timer (.rates k) rfl, read_obj ht.priv.timer (.rates k) rfl]
    have hfin' := hfin
    simp only [w] at hfin'
    simp only [objVal, timerVal, meterRef, hfin', ht.meter]
    cases k <;> rfl

/-! A timer, three updates with a `Stop` in between, and a tick. -/

private def timerHistory : List (Env F × Op F) :=
  [(envAt 1, .call 3 (.updateD 100)), (envAt 5, .call 3 (.updateSince 2)), (envAt 6, .tick), (envAt 7, .call 3 .stop), (envAt 9, .call 3 (.updateD 30))]

example : (World.init.run ([] ++ [(envAt 0, .new .timer)]) : World F).objs 3 = some (.timer (.std 1 2)) ∧
    (World.init.run ([] ++ [(envAt 0, .new .timer)]) : World F).objs 1 = some (.hist (.std 0)) ∧
    ∀ e ∈ (timerHistory : List (Env F × Op F)), ¬ uses e.2 0 ∧ ¬ uses e.2 1 ∧ ¬ uses e.2 2 := by
  refine ⟨rfl, rfl, ?_⟩
  simp [timerHistory, uses]
example : (durations 3 timerHistory : List (Env F × Int64)).map Prod.snd = [100, 3, 30] := by
  simp [durations, timerHistory, timeSub, envAt]; decide
example : observe (World.init.run ((envAt 0, .new .timer) :: timerHistory) : World F) (envAt 20) 3 .count = .ok (.int 3) :=
  (C42_history [] (envAt 0) 3 0 1 2 rfl rfl rfl rfl timerHistory (by simp [timerHistory, uses])).1 (envAt 20)
example : observe (World.init.run ((envAt 0, .new .timer) :: ([(envAt 1, .tick)] ++ (envAt 7, .call 3 .stop) :: [(envAt 9, .call 3 (.updateD 30))])) : World F)
    (envAt 20) 2 .count = .ok (.int 0) :=
  (C45_stop [] (envAt 0) 3 0 1 2 rfl rfl rfl rfl [(envAt 1, .tick)] [(envAt 9, .call 3 (.updateD 30))] (envAt 7) (by simp [uses]) ⟨_, rfl, rfl⟩).2.1 (envAt 20)

end GoMetrics
