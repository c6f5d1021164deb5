import Verif.Lemmas.MeterConc
import Verif.Props.Meter

/-!
C99. The rates of a meter that several goroutines use at a time.

`Mark` and the tick of the clock compute the rates from the moving averages and store them one by one, without a lock. So a rate that is shown is always one that the average had at some moment, and never
older than the last moment at which no call was running, if a `Mark` or a tick has returned since. If at most one `Mark` or tick runs at a time, the meter shows exactly what it shows after the same calls
made one after the other (C39). But two that overlap can leave old rates behind until the next `Mark` or tick, though no call is running any more.
-/

namespace GoMetrics
open Spec

section
variable {F : Type} [GoFloat F]

/-- **C99, shown rates.** From any moment at which no call is running on, each rate is the one shown at this moment or one that its own average had since; if a counted `Mark` or a tick has returned since, it is the
latter. The mean rate is likewise a count the meter had since, divided by the seconds from the construction to that moment. -/
theorem C99_shown (k : MConst F) (s s' : MShared F) (ls ls' : Nat → MPc F) (sched : List (Nat × MIn)) (tr : List (MEv F)) (h0 : ∀ t, ls t = .idle) (h : (meterMachine k).run s ls sched = some (s', ls', tr)) :
    (∀ a, (MShared.rate s' a = MShared.rate s a ∨ AverageWas k s ls sched a (MShared.rate s' a)) ∧ (Updated tr → AverageWas k s ls sched a (MShared.rate s' a))) ∧
      (s'.rateMean = s.rateMean ∨ MeanWas k s ls sched s'.rateMean) ∧ (Updated tr → MeanWas k s ls sched s'.rateMean) := by
  obtain ⟨-, h1, h2, h3⟩ := meter_rates h0 h
  exact ⟨fun a => ⟨(h1 a).1, fun hu => (h1 a).2 (.inr hu)⟩, h2, fun hu => h3 (.inr hu)⟩

/-- **C99, one `Mark` or tick at a time.** In such an execution (readers and `Stop` may run at any time) a meter shows, whenever no `Mark` or tick is running, what it shows after the counted `Mark`s and the ticks
made one after the other in the order of their effects, at clock readings of the execution. -/
theorem C99_sequential [GoExp F] (t0 : Instant) (sched : List (Nat × MIn)) (s : MShared F) (ls : Nat → MPc F) (tr : List (MEv F))
    (h : (meterMachine (standardConst t0)).run .zero (fun _ => .idle) sched = some (s, ls, tr)) (ho : OneWriter tr)
    (hq : ∀ t c, running t (callsOf tr) = some c → MCall.writes c = false) :
    ∃ ops m, ops.map callOf = writesOf tr ∧ (ops.filterMap timeOf).Sublist (sched.map fun x => x.2.now) ∧ (Meter.std (StandardMeter.new t0)).run ops = .ok m ∧
      MShared.shown s = ⟨m.count, m.rate1, m.rate5, m.rate15, m.rateMean⟩ := by
  obtain ⟨ops, h1, -, ⟨-, h2, h3, -⟩ | ⟨t, -, -, h2⟩⟩ := meter_alone (k := standardConst t0) (m0 := StandardMeter.new t0) rfl h ho
  · refine ⟨ops, _, h2, h1, meter_run_std _ _, ?_⟩
    rw [← h3]
    rfl
  · obtain ⟨c, hc, hw⟩ := h2.call
    rw [← running_call h] at hc
    rw [hq t c hc] at hw
    cases hw

end

section
variable {K : Type} [Field K] [LinearOrder K] [IsStrictOrderedRing K] [FloorRing K]

private theorem averageWas_ticks {k : MConst K} {T : Nat} {sched0 sched : List (Nat × MIn)} {s0 s : MShared K} {ls0 ls : Nat → MPc K} {tr0 tr : List (MEv K)}
    (h0 : (meterMachine k).run .zero (fun _ => .idle) sched0 = some (s0, ls0, tr0)) (h : (meterMachine k).run s0 ls0 sched = some (s, ls, tr)) (ho : TickedBy T (tr0 ++ tr)) {a : Avg} {x : K}
    (hx : AverageWas k s0 ls0 sched a x) : ∃ cs, cs <+: tookFrom a (tr0 ++ tr) ∧ ticksDone tr0 ≤ cs.length ∧ x = movingAvg (k.alpha a) (cs.map fun c => (c.toInt : K) / 5) := by
  obtain ⟨i, m, -, h2, rfl⟩ := hx
  rw [← List.take_append_drop i sched] at h
  obtain ⟨s1, ls1, tr1, tr2, hr1, -, rfl⟩ := (meterMachine k).run_split h
  have hm : m = s1 := by
    unfold stateAfter at h2
    rw [hr1] at h2
    cases h2
    rfl
  subst hm
  have hrun : meterRun k (sched0 ++ sched.take i) = some (m, ls1, tr0 ++ tr1) := by
    unfold meterRun
    rw [Machine.run_append, h0]
    simp [hr1]
  have hsub : ∀ e, e ∈ tr0 ++ tr1 → e ∈ tr0 ++ (tr1 ++ tr2) := fun e he => by
    rcases List.mem_append.1 he with he | he <;> simp [he]
  obtain ⟨cs, c1, c2, c3⟩ := (meter_ticks a T hrun fun t ht => ho t (hsub _ ht)).2.some_prefix
  refine ⟨cs, c1.trans ?_, ?_, ?_⟩
  · rw [← List.append_assoc, tookFrom_append a (tr0 ++ tr1)]
    exact List.prefix_append ..
  · rw [ticksDone_append] at c2
    omega
  · show (m.avg a).rate * ((10 ^ 9 : ℚ) : K) = _
    rw [c3, ← foldRate_exact]
    simp

/-- **C99, ticks.** If all ticks come from one goroutine (as in the library, C38), each rate shown is the moving average of the events that the first ticks took; it misses no tick that had returned at a
moment at which no call was running, if a counted `Mark` or a tick has returned since. (Exact arithmetic.) -/
theorem C99_ticks (k : MConst K) (T : Nat) (sched0 sched : List (Nat × MIn)) (s0 s : MShared K) (ls0 ls : Nat → MPc K) (tr0 tr : List (MEv K))
    (h0 : (meterMachine k).run .zero (fun _ => .idle) sched0 = some (s0, ls0, tr0)) (hidle : ∀ t, ls0 t = .idle) (h : (meterMachine k).run s0 ls0 sched = some (s, ls, tr)) (ho : TickedBy T (tr0 ++ tr)) (a : Avg) :
    ∃ cs, cs <+: tookFrom a (tr0 ++ tr) ∧ (Updated tr → ticksDone tr0 ≤ cs.length) ∧ MShared.rate s a = movingAvg (k.alpha a) (cs.map fun c => (c.toInt : K) / 5) := by
  by_cases hu : Updated tr
  · obtain ⟨cs, c1, c2, c3⟩ := averageWas_ticks h0 h ho (((C99_shown k s0 s ls0 ls sched tr hidle h).1 a).2 hu)
    exact ⟨cs, c1, fun _ => c2, c3⟩
  · have hrun : (meterMachine k).run .zero (fun _ => .idle) (sched0 ++ sched) = some (s, ls, tr0 ++ tr) := by
      rw [Machine.run_append, h0]
      simp [h]
    rcases ((C99_shown k .zero s (fun _ => .idle) ls _ _ (fun _ => rfl) hrun).1 a).1 with h1 | h1
    · refine ⟨[], List.nil_prefix, fun h => (hu h).elim, ?_⟩
      rw [h1]
      cases a <;> simp [MShared.rate, MShared.zero, movingAvg]
    · obtain ⟨cs, c1, -, c3⟩ := averageWas_ticks (sched0 := []) (tr0 := []) rfl hrun (by simpa using ho) h1
      exact ⟨cs, by simpa using c1, fun h => (hu h).elim, c3⟩

end

/-! ### Examples and the refutation -/

private def go (t : Nat) (c : MCall) (now : Instant) (n : Nat) : List (Nat × MIn) := List.replicate n (t, ⟨c, now⟩)

private def k0 : MConst ℚ := ⟨1 / 4, 1 / 8, 1 / 16, 0⟩

/-- The steps of a whole call of `Mark`, and of the first and of a later tick. -/
private def mark (t : Nat) (n : Int64) (now : Instant) : List (Nat × MIn) := go t (.mark n) now 15
private def firstTick (t : Nat) (now : Instant) : List (Nat × MIn) := go t .tick now 34

-- Goroutine 1 marks, goroutine 0 ticks, goroutine 1 marks and at the same time goroutine 2 takes a snapshot: the rates are those of the one tick.
example : ∃ s0 ls0 tr0 s ls tr, (meterMachine k0).run .zero (fun _ => .idle) (mark 1 5 (10 ^ 9) ++ firstTick 0 (5 * 10 ^ 9)) = some (s0, ls0, tr0) ∧
    (meterMachine k0).run s0 ls0 (go 2 .snapshot 0 3 ++ mark 1 7 (6 * 10 ^ 9)) = some (s, ls, tr) ∧
    tookFrom .m5 (tr0 ++ tr) = [5] ∧ ticksDone tr0 = 1 ∧ MShared.shown s = ⟨12, 1, 1, 1, 2⟩ ∧ writesOf (tr0 ++ tr) = [.mark 5, .tick, .mark 7] :=
  ⟨_, _, _, _, _, _, rfl, rfl, by decide +kernel, by decide +kernel, by decide +kernel, by decide +kernel⟩

-- Goroutine 1 marks and ticks, goroutine 2 takes a snapshot in between: one `Mark` or tick at a time.
private theorem running_inv {F : Type} {t : Nat} {c : MCall} {tr : List (CEv MCall (MRes F))} (h : running t tr = some c) : .inv t c ∈ tr := by
  induction tr using List.reverseRecOn with
  | nil => cases h
  | append_singleton tr e ih =>
    simp only [running, List.foldl_append, List.foldl_cons, List.foldl_nil] at h
    cases e with
    | inv u o =>
      dsimp only at h
      split at h
      · rename_i hu; subst hu; cases h; simp
      · exact List.mem_append_left _ (ih h)
    | ret u o r =>
      dsimp only at h
      split at h
      · cases h
      · exact List.mem_append_left _ (ih h)
    | lin u o r => exact List.mem_append_left _ (ih h)
private theorem one_of {F : Type} {T : Nat} {tr : List (MEv F)} (h : ∀ t c, CEv.inv t c ∈ callsOf tr → MCall.writes c = true → t = T) : OneWriter tr := by
  intro a ha t u c d ht hu hc hd
  have hsub : ∀ e, e ∈ callsOf a → e ∈ callsOf tr := fun e he => by
    obtain ⟨b, rfl⟩ := ha
    simp only [callsOf, List.filterMap_append, List.mem_append] at he ⊢
    exact .inl he
  rw [h t c (hsub _ (running_inv ht)) hc, h u d (hsub _ (running_inv hu)) hd]
example : ∃ s ls tr ops m, (meterMachine (standardConst 0 : MConst ℝ)).run .zero (fun _ => .idle) (go 2 .snapshot 0 3 ++ mark 1 5 (10 ^ 9) ++ go 2 .snapshot 0 3 ++ firstTick 1 (5 * 10 ^ 9)) = some (s, ls, tr) ∧
    ops.map callOf = [.mark 5, .tick] ∧ (Meter.std (StandardMeter.new 0 : StandardMeter ℝ)).run ops = .ok m ∧ s.rate1 = m.rate1 := by
  obtain ⟨x, hx⟩ : ∃ x, (meterMachine (standardConst 0 : MConst ℝ)).run .zero (fun _ => .idle) (go 2 .snapshot 0 3 ++ mark 1 5 (10 ^ 9) ++ go 2 .snapshot 0 3 ++ firstTick 1 (5 * 10 ^ 9)) = some x := ⟨_, rfl⟩
  have hi : invs (callsOf x.2.2) = [(2, .snapshot), (1, .mark 5), (1, .tick)] := by cases hx; rfl
  have hl : (x.2.1 1).call = none ∧ (x.2.1 2).call = some .snapshot ∧ ∀ t, (x.2.1 (t + 3)).call = none ∧ (x.2.1 0).call = none := by cases hx; exact ⟨rfl, rfl, fun _ => ⟨rfl, rfl⟩⟩
  obtain ⟨ops, m, h1, -, h3, h4⟩ := C99_sequential 0 _ x.1 x.2.1 x.2.2 hx (one_of (T := 1) (by
    intro t c hc hw
    have : (t, c) ∈ invs (callsOf x.2.2) := List.mem_filterMap.2 ⟨_, hc, rfl⟩
    rw [hi] at this
    simp at this
    rcases this with ⟨rfl, rfl⟩ | ⟨rfl, rfl⟩ | ⟨rfl, rfl⟩ <;> simp [MCall.writes] at hw ⊢)) (by
    intro t c hc
    rw [running_call hx t] at hc
    match t with
    | 0 => rw [(hl.2.2 0).2] at hc; cases hc
    | 1 => rw [hl.1] at hc; cases hc
    | 2 => rw [hl.2.1] at hc; cases hc; rfl
    | t + 3 => rw [(hl.2.2 t).1] at hc; cases hc)
  exact ⟨x.1, x.2.1, x.2.2, ops, m, hx, by rw [h1]; cases hx; rfl, h3, congrArg MeterSnapshot.rate1 h4⟩

/-- **C99, refuted: "the rates are up to date when no call is running".** Goroutine 0 marks 5 events and has computed the rates when goroutine 1 marks 7 more and then ticks. Then goroutine 0 stores its rates and
returns. No call is running; all clock readings were one second after the construction. The meter shows a count of 12 with a mean rate of 5 per second and a one-minute rate of 0, whereas the average is
12/5 per second. -/
theorem C99_stale_refuted : ∃ sched s ls tr, (meterMachine k0).run .zero (fun _ => .idle) sched = some (s, ls, tr) ∧ (∀ x ∈ sched, x.2.now = k0.start + 10 ^ 9) ∧ (∀ t, ls t = .idle) ∧
    rets (callsOf tr) = [(1, .mark 7), (1, .tick), (0, .mark 5)] ∧ MShared.shown s = ⟨12, 0, 0, 0, 5⟩ ∧ ∀ a, MShared.average s a = 12 / 5 := by
  refine ⟨go 0 (.mark 5) (10 ^ 9) 10 ++ mark 1 7 (10 ^ 9) ++ firstTick 1 (10 ^ 9) ++ go 0 (.mark 5) (10 ^ 9) 5, _, _, _, rfl, by decide +kernel, ?_, by decide +kernel, by decide +kernel, ?_⟩
  · intro t
    match t with
    | 0 => rfl
    | 1 => rfl
    | t + 2 => rfl
  · intro a
    cases a <;> decide +kernel

end GoMetrics
