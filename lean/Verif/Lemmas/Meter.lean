import Verif.Spec.Meter
import Verif.Lemmas.EwmaConc

/-! Lemmas about meters. -/

set_option linter.unusedSimpArgs false
set_option linter.unnecessarySeqFocus false
set_option linter.unusedSectionVars false

namespace GoMetrics
open Spec

/-! ### Sequential -/

section seq
variable {F : Type} [GoFloat F]

/-- Effect of an operation on a standard meter. -/
def StandardMeter.apply (m : StandardMeter F) : MeterOp → StandardMeter F
  | .mark n now => m.mark n now
  | .tick now => m.tick now
  | .stop => m.stop

def meterAfter (m : StandardMeter F) (ops : List MeterOp) : StandardMeter F := ops.foldl StandardMeter.apply m

theorem meterAfter_cons (m : StandardMeter F) (o : MeterOp) (ops : List MeterOp) :
    meterAfter m (o :: ops) = meterAfter (m.apply o) ops := rfl
theorem apply_mark (m : StandardMeter F) (n : Int64) (now : Instant) : m.apply (.mark n now) = m.mark n now := rfl
theorem apply_tick (m : StandardMeter F) (now : Instant) : m.apply (.tick now) = m.tick now := rfl
theorem apply_stop (m : StandardMeter F) : m.apply .stop = m.stop := rfl

theorem meter_run_std (m : StandardMeter F) (ops : List MeterOp) : (Meter.std m).run ops = .ok (.std (meterAfter m ops)) := by
  induction ops generalizing m with
  | nil => rfl
  | cons o ops ih =>
    unfold Meter.run at ih ⊢
    rw [List.foldlM_cons]
    cases o
    · exact ih _
    · exact ih _
    · exact ih _

theorem mark_stopped (m : StandardMeter F) (h : m.stopped = true) (n : Int64) (now : Instant) : m.mark n now = m := by
  simp [StandardMeter.mark, h]

theorem meterAfter_stopped_count (m : StandardMeter F) (h : m.stopped = true) (ops : List MeterOp) :
    (meterAfter m ops).snapshot.count = m.snapshot.count ∧ (meterAfter m ops).stopped = true := by
  induction ops generalizing m with
  | nil => exact ⟨rfl, h⟩
  | cons o ops ih =>
    cases o with
    | mark n now =>
      show (meterAfter (m.mark n now) ops).snapshot.count = _ ∧ (meterAfter (m.mark n now) ops).stopped = _
      rw [mark_stopped m h]; exact ih m h
    | tick now => exact ih (m.tick now) h
    | stop => exact ih m.stop rfl

theorem meterAfter_count (m : StandardMeter F) (h : m.stopped = false) (ops : List MeterOp) :
    (meterAfter m ops).snapshot.count.toInt = wrap64 (m.snapshot.count.toInt + markedSum ops) := by
  induction ops generalizing m with
  | nil => simp [meterAfter, markedSum, wrap64]
  | cons o ops ih =>
    cases o with
    | mark n now =>
      have := ih (m.mark n now) (by simp [StandardMeter.mark, h, StandardMeter.updateSnapshot])
      have e : (m.mark n now).snapshot.count = m.snapshot.count + n := by
        simp [StandardMeter.mark, h, StandardMeter.updateSnapshot]
      rw [e] at this
      show (meterAfter (m.mark n now) ops).snapshot.count.toInt = _
      rw [this]
      simp [wrap64, markedSum, add_assoc]
    | tick now => exact ih (m.tick now) h
    | stop =>
      show (meterAfter m.stop ops).snapshot.count.toInt = _
      rw [(meterAfter_stopped_count m.stop rfl ops).1]
      simp [markedSum, StandardMeter.stop, wrap64]

/-- The averages see the marks before a stop, and the ticks. -/
def seenOps (stopped : Bool) (ops : List MeterOp) : List EwmaOp :=
  if stopped then ticksOf ops else marksAndTicks ops

theorem ticksOf_mark (n : Int64) (now : Instant) (ops : List MeterOp) : ticksOf (.mark n now :: ops) = ticksOf ops := rfl
theorem ticksOf_tick (now : Instant) (ops : List MeterOp) : ticksOf (.tick now :: ops) = .tick :: ticksOf ops := rfl
theorem ticksOf_stop (ops : List MeterOp) : ticksOf (.stop :: ops) = ticksOf ops := rfl
theorem lastTick_mark (t : Option Instant) (n : Int64) (now : Instant) (ops : List MeterOp) : lastTick t (.mark n now :: ops) = lastTick t ops := rfl
theorem lastTick_tick (t : Option Instant) (now : Instant) (ops : List MeterOp) : lastTick t (.tick now :: ops) = lastTick (some now) ops := rfl
theorem lastTick_stop (t : Option Instant) (ops : List MeterOp) : lastTick t (.stop :: ops) = lastTick t ops := rfl

theorem meterAfter_avgs (m : StandardMeter F) (ops : List MeterOp) :
    (meterAfter m ops).a1 = ewmaAfter m.a1 (seenOps m.stopped ops) ∧ (meterAfter m ops).a5 = ewmaAfter m.a5 (seenOps m.stopped ops) ∧
      (meterAfter m ops).a15 = ewmaAfter m.a15 (seenOps m.stopped ops) ∧ (meterAfter m ops).startTime = m.startTime := by
  induction ops generalizing m with
  | nil => cases h : m.stopped <;> simp [meterAfter, seenOps, marksAndTicks, ewmaAfter, ticksOf]
  | cons o ops ih =>
    cases h : m.stopped with
    | true =>
      cases o with
      | mark n now =>
        have := ih m
        rw [h] at this
        show (meterAfter (m.mark n now) ops).a1 = _ ∧ (meterAfter (m.mark n now) ops).a5 = _ ∧ (meterAfter (m.mark n now) ops).a15 = _ ∧
          (meterAfter (m.mark n now) ops).startTime = _
        rw [mark_stopped m h]
        simpa [seenOps, ticksOf_mark, ticksOf_tick, ticksOf_stop] using this
      | tick now =>
        have := ih (m.tick now)
        have e : (m.tick now).stopped = true := h
        rw [e] at this
        simpa [seenOps, ticksOf_mark, ticksOf_tick, ticksOf_stop, List.filterMap_cons, ewmaAfter, meterAfter, StandardMeter.apply, StandardMeter.tick, StandardMeter.updateSnapshot] using this
      | stop =>
        have := ih m.stop
        have e : m.stop.stopped = true := rfl
        rw [e] at this
        simpa [seenOps, ticksOf_mark, ticksOf_tick, ticksOf_stop, List.filterMap_cons, ewmaAfter, meterAfter, StandardMeter.apply, StandardMeter.stop] using this
    | false =>
      cases o with
      | mark n now =>
        have := ih (m.mark n now)
        have e : (m.mark n now).stopped = false := by simp [StandardMeter.mark, h, StandardMeter.updateSnapshot]
        rw [e] at this
        simpa [seenOps, ticksOf_mark, ticksOf_tick, ticksOf_stop, marksAndTicks, ewmaAfter, meterAfter, StandardMeter.apply, StandardMeter.mark, h, StandardMeter.updateSnapshot] using this
      | tick now =>
        have := ih (m.tick now)
        have e : (m.tick now).stopped = false := h
        rw [e] at this
        simpa [seenOps, ticksOf_mark, ticksOf_tick, ticksOf_stop, marksAndTicks, ewmaAfter, meterAfter, StandardMeter.apply, StandardMeter.tick, StandardMeter.updateSnapshot] using this
      | stop =>
        have := ih m.stop
        have e : m.stop.stopped = true := rfl
        rw [e] at this
        simpa [seenOps, ticksOf_mark, ticksOf_tick, ticksOf_stop, marksAndTicks, ewmaAfter, meterAfter, StandardMeter.apply, StandardMeter.stop] using this

/-- What the displayed rates are after the last activity. -/
structure Fresh (m : StandardMeter F) (t : Option Instant) : Prop where
  r1 : t ≠ none → m.snapshot.rate1 = m.a1.rateOf
  r5 : t ≠ none → m.snapshot.rate5 = m.a5.rateOf
  r15 : t ≠ none → m.snapshot.rate15 = m.a15.rateOf
  mean : ∀ now, t = some now → m.snapshot.rateMean = StandardMeter.meanRate m.snapshot.count m.startTime now
  none : t = none → m.snapshot.rate1 = GoFloat.lit 0 ∧ m.snapshot.rate5 = GoFloat.lit 0 ∧ m.snapshot.rate15 = GoFloat.lit 0 ∧
    m.snapshot.rateMean = GoFloat.lit 0

/-- The time of the last effective `Mark` or tick. -/
def activity (stopped : Bool) (t : Option Instant) (ops : List MeterOp) : Option Instant :=
  if stopped then lastTick t ops else lastActivity t ops

theorem fresh_update (m : StandardMeter F) (now : Instant) : Fresh (m.updateSnapshot now) (some now) :=
  ⟨fun _ => rfl, fun _ => rfl, fun _ => rfl, fun _ h => by cases h; rfl, fun h => by cases h⟩

theorem meterAfter_fresh (m : StandardMeter F) (t : Option Instant) (h : Fresh m t) (ops : List MeterOp) :
    Fresh (meterAfter m ops) (activity m.stopped t ops) := by
  induction ops generalizing m t with
  | nil => cases hs : m.stopped <;> simpa [activity, lastTick_mark, lastTick_tick, lastTick_stop, meterAfter, lastActivity, lastTick] using h
  | cons o ops ih =>
    cases hs : m.stopped with
    | true =>
      cases o with
      | mark n now =>
        show Fresh (meterAfter (m.mark n now) ops) _
        rw [mark_stopped m hs]
        have := ih m t h
        rw [hs] at this
        simpa [activity, lastTick_mark, lastTick_tick, lastTick_stop, meterAfter_cons, apply_tick, apply_stop] using this
      | tick now =>
        have := ih (m.tick now) (some now) (fresh_update _ now)
        have e : (m.tick now).stopped = true := hs
        rw [e] at this
        simpa [activity, lastTick_mark, lastTick_tick, lastTick_stop, meterAfter_cons, apply_tick, apply_stop] using this
      | stop =>
        have := ih m.stop t ⟨h.r1, h.r5, h.r15, h.mean, h.none⟩
        have e : m.stop.stopped = true := rfl
        rw [e] at this
        simpa [activity, lastTick_mark, lastTick_tick, lastTick_stop, meterAfter_cons, apply_tick, apply_stop] using this
    | false =>
      cases o with
      | mark n now =>
        have hf : Fresh (m.mark n now) (some now) := by
          unfold StandardMeter.mark; rw [hs]; exact fresh_update _ now
        have := ih (m.mark n now) (some now) hf
        have e : (m.mark n now).stopped = false := by simp [StandardMeter.mark, hs, StandardMeter.updateSnapshot]
        rw [e] at this
        simpa [activity, lastTick_mark, lastTick_tick, lastTick_stop, lastActivity, meterAfter_cons, apply_tick, apply_stop, apply_mark] using this
      | tick now =>
        have := ih (m.tick now) (some now) (fresh_update _ now)
        have e : (m.tick now).stopped = false := hs
        rw [e] at this
        simpa [activity, lastTick_mark, lastTick_tick, lastTick_stop, lastActivity, meterAfter_cons, apply_tick, apply_stop, apply_mark] using this
      | stop =>
        have := ih m.stop t ⟨h.r1, h.r5, h.r15, h.mean, h.none⟩
        have e : m.stop.stopped = true := rfl
        rw [e] at this
        simpa [activity, lastTick_mark, lastTick_tick, lastTick_stop, lastActivity, meterAfter_cons, apply_tick, apply_stop, apply_mark] using this

end seq

/-! ### Concurrent -/

section conc
variable {F : Type} [GoFloat F]

/-- Seen from the count. -/
def MPc.abs : MPc F → TS MCall (MRes F)
  | .idle => .idle
  | .mark0 n | .mark1 n => .pend (.mark n)
  | .markA n _ => .done (.mark n) (.marked true)
  | .tickA _ _ => .pend .tick
  | .us1 c | .us5 c _ | .us15 c _ _ | .usMean c _ _ _ | .st1 c _ _ _ _ | .st5 c _ _ _ | .st15 c _ _ | .stMean c _ => .done c (usResult c)
  | .stop0 => .pend .stop
  | .count0 => .pend .count
  | .sn0 | .sn1 _ | .sn5 _ _ | .sn15 _ _ _ | .snMean _ _ _ _ => .pend .snapshot
  | .ret c r => .done c r

def Avg.idx : Avg → Nat
  | .m1 => 0
  | .m5 => 1
  | .m15 => 2

/-- Seen from one of the averages: a counted `Mark` takes effect when it reaches the average. -/
def MPc.absA (a : Avg) : MPc F → TS MCall (MRes F)
  | .markA n b => if b.idx ≤ a.idx then .pend (.mark n) else .done (.mark n) (.marked true)
  | l => l.abs

/-- The events seen from one of the averages. -/
def MEv.callA (a : Avg) : MEv F → Option (CEv MCall (MRes F))
  | .call (.lin _ (.mark _) (.marked true)) => none
  | .added t b n => if b = a then some (.lin t (.mark n) (.marked true)) else none
  | .call e => some e
  | .took _ _ => none

theorem tickStep_uncounted {alpha : F} {s s' : EShared F} {p p' : TPc F} (h : tickStep alpha s p = some (s', p')) :
    s'.uncounted = (match p with | .sub _ c => s.uncounted + (-c) | _ => s.uncounted) := by
  cases p <;> simp [tickStep] at h <;> (try obtain ⟨rfl, rfl⟩ := h) <;> (try rfl)
  obtain ⟨_, rfl, rfl⟩ := h; rfl

theorem setAvg_avg (s : MShared F) (e : EShared F) (a b : Avg) : (s.setAvg e a).avg b = if b = a then e else s.avg b := by
  cases a <;> cases b <;> rfl
theorem setAvg_count (s : MShared F) (e : EShared F) (a : Avg) : (s.setAvg e a).count = s.count := by cases a <;> rfl
theorem setAvg_stopped (s : MShared F) (e : EShared F) (a : Avg) : (s.setAvg e a).stopped = s.stopped := by cases a <;> rfl

/-- What the next position of a tick is, and its effect event. -/
def afterTick (a : Avg) (p' : TPc F) : MPc F := match p', a.next with
  | .done _, some b => .tickA b .start
  | .done _, none => .us1 .tick
  | p', _ => .tickA a p'

def tickLin (t : Nat) (a : Avg) (p' : TPc F) : List (MEv F) := match p', a.next with
  | .done _, none => [.call (.lin t .tick .unit)]
  | _, _ => []

def tookEv (a : Avg) (p : TPc F) : List (MEv F) := match p with | .sub _ c => [.took a c] | _ => []

theorem meter_tick_step {k : MConst F} {t i s a p s' l' es} (h : (meterMachine k).step t i s (.tickA a p) = some (s', l', es)) :
    ∃ e p', tickStep (k.alpha a) (s.avg a) p = some (e, p') ∧ s' = s.setAvg e a ∧ l' = afterTick a p' ∧ es = tookEv a p ++ tickLin t a p' := by
  simp only [meterMachine] at h
  cases hp : tickStep (k.alpha a) (s.avg a) p with
  | none => simp [hp] at h
  | some x =>
    obtain ⟨e, p'⟩ := x
    simp only [hp, Option.some.injEq, Prod.mk.injEq] at h
    obtain ⟨rfl, rfl, rfl⟩ := h
    exact ⟨e, p', rfl, rfl, rfl, rfl⟩

theorem callsOf_tick (t : Nat) (a : Avg) (p p' : TPc F) :
    LocalEv t (MPc.abs (.tickA a p : MPc F)) ((tookEv a p ++ tickLin t a p').filterMap MEv.call?) (afterTick a p').abs := by
  have e0 : (tookEv a p : List (MEv F)).filterMap MEv.call? = [] := by cases p <;> rfl
  rw [List.filterMap_append, e0, List.nil_append]
  cases p' <;> cases a <;> first | exact .none | exact .lin

theorem callsA_tick (b : Avg) (t : Nat) (a : Avg) (p p' : TPc F) :
    LocalEv t (MPc.absA b (.tickA a p : MPc F)) ((tookEv a p ++ tickLin t a p').filterMap (MEv.callA b)) ((afterTick a p').absA b) := by
  have e0 : (tookEv a p : List (MEv F)).filterMap (MEv.callA b) = [] := by cases p <;> rfl
  rw [List.filterMap_append, e0, List.nil_append]
  cases p' <;> cases a <;> first | exact .none | exact .lin

theorem meter_local (k : MConst F) (t i) (s : MShared F) (l : MPc F) (s' l' es)
    (h : (meterMachine k).step t i s l = some (s', l', es)) : LocalEv t l.abs (es.filterMap MEv.call?) l'.abs := by
  cases l with
  | tickA a p => obtain ⟨e, p', -, -, rfl, rfl⟩ := meter_tick_step h; exact callsOf_tick t a p p'
  | mark0 n =>
    simp only [meterMachine] at h
    split at h <;> simp at h <;> obtain ⟨rfl, rfl, rfl⟩ := h
    · exact .lin
    · exact .none
  | markA n a =>
    simp [meterMachine] at h; obtain ⟨rfl, rfl, rfl⟩ := h
    cases a <;> exact .none
  | idle =>
    simp [meterMachine] at h; obtain ⟨rfl, rfl, rfl⟩ := h
    cases hc : i.call <;> simp [MEv.call?, MPc.begin] <;> exact .inv
  | _ => simp [meterMachine] at h; obtain ⟨rfl, rfl, rfl⟩ := h; first | exact .none | exact .lin | exact .ret

theorem meter_localA (b : Avg) (k : MConst F) (t i) (s : MShared F) (l : MPc F) (s' l' es)
    (h : (meterMachine k).step t i s l = some (s', l', es)) : LocalEv t (l.absA b) (es.filterMap (MEv.callA b)) (l'.absA b) := by
  cases l with
  | tickA a p => obtain ⟨e, p', -, -, rfl, rfl⟩ := meter_tick_step h; exact callsA_tick b t a p p'
  | mark0 n =>
    simp only [meterMachine] at h
    split at h <;> simp at h <;> obtain ⟨rfl, rfl, rfl⟩ := h
    · exact .lin
    · exact .none
  | mark1 n =>
    simp [meterMachine] at h; obtain ⟨rfl, rfl, rfl⟩ := h
    cases b <;> exact .none
  | markA n a =>
    simp [meterMachine] at h; obtain ⟨rfl, rfl, rfl⟩ := h
    cases a <;> cases b <;> first | exact .none | exact .lin
  | idle =>
    simp [meterMachine] at h; obtain ⟨rfl, rfl, rfl⟩ := h
    cases hc : i.call <;> simp [MEv.callA, MPc.begin] <;> exact .inv
  | _ => simp [meterMachine] at h; obtain ⟨rfl, rfl, rfl⟩ := h; first | exact .none | exact .lin | exact .ret

/-- Start of an execution. -/
abbrev meterRun (k : MConst F) (sched : List (Nat × MIn)) := (meterMachine k).run MShared.zero (fun _ => MPc.idle) sched

theorem meter_wf {k : MConst F} {sched s ls tr} (h : meterRun k sched = some (s, ls, tr)) :
    Wf allIdle (callsOf tr) (fun t => (ls t).abs) :=
  (meterMachine k).wf MEv.call? MPc.abs (fun _ => True) (fun _ => trivial)
    (fun t i s l s' l' es _ hst => ⟨trivial, meter_local k t i s l s' l' es hst⟩) sched s ls tr h

theorem meter_wfA (a : Avg) {k : MConst F} {sched s ls tr} (h : meterRun k sched = some (s, ls, tr)) :
    Wf allIdle (tr.filterMap (MEv.callA a)) (fun t => (ls t).absA a) :=
  (meterMachine k).wf (MEv.callA a) (MPc.absA a) (fun _ => True) (fun _ => trivial)
    (fun t i s l s' l' es _ hst => ⟨trivial, meter_localA a k t i s l s' l' es hst⟩) sched s ls tr h

theorem retsR_callA (a : Avg) (tr : List (MEv F)) : retsR (tr.filterMap (MEv.callA a)) = retsR (callsOf tr) := by
  induction tr with
  | nil => rfl
  | cons e tr ih =>
    unfold callsOf at ih ⊢
    cases e with
    | took b c => simpa [List.filterMap_cons, MEv.callA, MEv.call?] using ih
    | added t b n =>
      by_cases hb : b = a
      · simpa [List.filterMap_cons, MEv.callA, MEv.call?, hb, retsR] using ih
      · simpa [List.filterMap_cons, MEv.callA, MEv.call?, hb, retsR] using ih
    | call e =>
      cases e with
      | inv t o => simpa [List.filterMap_cons, MEv.callA, MEv.call?, retsR] using ih
      | ret t o r => simp [List.filterMap_cons, MEv.callA, MEv.call?, retsR] at ih ⊢; exact ih
      | lin t o r =>
        cases o <;> cases r <;> try (simpa [List.filterMap_cons, MEv.callA, MEv.call?, retsR] using ih)
        rename_i n b
        cases b <;> simpa [List.filterMap_cons, MEv.callA, MEv.call?, retsR] using ih

/-- The marks that have been added to the count. -/
def linMarks (tr : List (CEv MCall (MRes F))) : Int := ((linsR tr).map countedEvents).sum

theorem linMarks_append (a b : List (CEv MCall (MRes F))) : linMarks (a ++ b) = linMarks a + linMarks b := by
  simp [linMarks, linsR_append]
theorem callsOf_append (a b : List (MEv F)) : callsOf (a ++ b) = callsOf a ++ callsOf b := List.filterMap_append
theorem takenFrom_append (x : Avg) (a b : List (MEv F)) : takenFrom x (a ++ b) = takenFrom x a + takenFrom x b := by
  simp [takenFrom]

theorem tick_linMarks (t : Nat) (a : Avg) (p p' : TPc F) : linMarks (callsOf (tookEv a p ++ tickLin t a p' : List (MEv F))) = 0 := by
  have e0 : callsOf (tookEv a p : List (MEv F)) = [] := by cases p <;> rfl
  rw [callsOf_append, e0, List.nil_append]
  cases p' <;> cases a <;> rfl

theorem tick_linMarksA (b : Avg) (t : Nat) (a : Avg) (p p' : TPc F) :
    linMarks ((tookEv a p ++ tickLin t a p' : List (MEv F)).filterMap (MEv.callA b)) = 0 := by
  have e0 : (tookEv a p : List (MEv F)).filterMap (MEv.callA b) = [] := by cases p <;> rfl
  rw [List.filterMap_append, e0, List.nil_append]
  cases p' <;> cases a <;> rfl

theorem tick_taken (b : Avg) (t : Nat) (a : Avg) (p p' : TPc F) :
    takenFrom b (tookEv a p ++ tickLin t a p' : List (MEv F)) = (match p with | .sub _ c => if a = b then c.toInt else 0 | _ => 0) := by
  have e0 : takenFrom b (tickLin t a p' : List (MEv F)) = 0 := by cases p' <;> cases a <;> rfl
  rw [takenFrom_append, e0, add_zero]
  cases p <;> simp [tookEv, takenFrom]

/-- The count at any moment. -/
theorem meter_count {k : MConst F} {sched s ls tr} (h : meterRun k sched = some (s, ls, tr)) :
    s.count.toInt = wrap64 (linMarks (callsOf tr)) := by
  refine (meterMachine k).induct (fun s _ tr => s.count.toInt = wrap64 (linMarks (callsOf tr)))
    (by simp [MShared.zero, linMarks, callsOf, linsR, wrap64]) ?_ sched s ls tr h
  intro s ls tr t i s' l' es hi hst
  rw [callsOf_append, linMarks_append]
  generalize ls t = l at hst
  cases l with
  | tickA a p =>
    obtain ⟨e, p', -, rfl, -, rfl⟩ := meter_tick_step hst
    rw [setAvg_count, tick_linMarks, add_zero, hi]
  | mark0 n =>
    simp only [meterMachine] at hst
    split at hst <;> simp at hst <;> obtain ⟨rfl, rfl, rfl⟩ := hst <;>
      simpa [callsOf, linMarks, linsR, MEv.call?, countedEvents] using hi
  | mark1 n =>
    simp [meterMachine] at hst; obtain ⟨rfl, rfl, rfl⟩ := hst
    have e : linMarks (callsOf [MEv.call (CEv.lin t (MCall.mark n) (MRes.marked true : MRes F))]) = n.toInt := by
      simp [callsOf, linMarks, linsR, MEv.call?, countedEvents]
    rw [e, Int64.toInt_add, hi]
    unfold wrap64
    rw [Int.bmod_add_bmod]
  | markA n a =>
    simp [meterMachine] at hst; obtain ⟨rfl, rfl, rfl⟩ := hst
    rw [setAvg_count, hi]
    have e : linMarks (callsOf [MEv.added t a n] : List (CEv MCall (MRes F))) = 0 := rfl
    rw [e, add_zero]
  | _ =>
    simp [meterMachine] at hst; obtain ⟨rfl, rfl, rfl⟩ := hst
    simpa [callsOf, linMarks, linsR, MEv.call?, countedEvents] using hi

/-- The pending events of an average at any moment. -/
theorem meter_avg (a : Avg) {k : MConst F} {sched s ls tr} (h : meterRun k sched = some (s, ls, tr)) :
    (s.avg a).uncounted.toInt = wrap64 (linMarks (tr.filterMap (MEv.callA a)) - takenFrom a tr) := by
  refine (meterMachine k).induct (fun s _ tr => (s.avg a).uncounted.toInt = wrap64 (linMarks (tr.filterMap (MEv.callA a)) - takenFrom a tr))
    (by cases a <;> simp [MShared.zero, MShared.avg, EShared.zero, linMarks, linsR, takenFrom, wrap64]) ?_ sched s ls tr h
  intro s ls tr t i s' l' es hi hst
  rw [List.filterMap_append, linMarks_append, takenFrom_append]
  generalize ls t = l at hst
  cases l with
  | tickA b p =>
    obtain ⟨e, p', hp, rfl, -, rfl⟩ := meter_tick_step hst
    rw [setAvg_avg, tick_linMarksA, tick_taken, add_zero]
    have hu := tickStep_uncounted hp
    by_cases hb : a = b
    · subst hb
      simp only [if_true]
      rw [hu]
      cases p with
      | sub m c =>
        simp only
        rw [Int64.toInt_add, Int64.toInt_neg, hi]
        unfold wrap64
        simp
        congr 1; ring
      | _ => simpa using hi
    · have hb' : ¬ b = a := fun h => hb h.symm
      simp only [hb, hb', if_false]
      have : (match p with | .sub _ c => (0 : Int) | _ => 0) = 0 := by cases p <;> rfl
      rw [this, add_zero]
      exact hi
  | mark0 n =>
    simp only [meterMachine] at hst
    split at hst <;> simp at hst <;> obtain ⟨rfl, rfl, rfl⟩ := hst <;>
      simpa [linMarks, linsR, MEv.callA, countedEvents, takenFrom] using hi
  | mark1 n =>
    simp [meterMachine] at hst; obtain ⟨rfl, rfl, rfl⟩ := hst
    have : MShared.avg { s with count := s.count + n } a = s.avg a := by cases a <;> rfl
    rw [this]
    have e : (List.filterMap (MEv.callA a) [MEv.call (CEv.lin t (MCall.mark n) (MRes.marked true : MRes F))]) = [] := rfl
    have e2 : takenFrom a [(MEv.call (CEv.lin t (MCall.mark n) (MRes.marked true)) : MEv F)] = 0 := rfl
    have e3 : linMarks ([] : List (CEv MCall (MRes F))) = 0 := rfl
    rw [e, e2, e3, add_zero, add_zero]; exact hi
  | markA n b =>
    simp [meterMachine] at hst; obtain ⟨rfl, rfl, rfl⟩ := hst
    rw [setAvg_avg]
    by_cases hb : a = b
    · subst hb
      have e : linMarks (List.filterMap (MEv.callA a) [MEv.added t a n] : List (CEv MCall (MRes F))) = n.toInt := by
        simp [linMarks, linsR, MEv.callA, countedEvents]
      rw [e]
      have e2 : takenFrom a [(MEv.added t a n : MEv F)] = 0 := rfl
      rw [e2]
      simp only [if_true]
      rw [Int64.toInt_add, hi]
      unfold wrap64
      rw [Int.bmod_add_bmod]
      congr 1; ring
    · have hb' : ¬ b = a := fun h => hb h.symm
      simp only [hb, if_false]
      have e : (List.filterMap (MEv.callA a) [MEv.added t b n] : List (CEv MCall (MRes F))) = [] := by simp [List.filterMap_cons, MEv.callA, hb']
      have e2 : takenFrom a [(MEv.added t b n : MEv F)] = 0 := rfl
      have e3 : linMarks ([] : List (CEv MCall (MRes F))) = 0 := rfl
      rw [e, e2, e3, add_zero, add_zero]; exact hi
  | _ =>
    simp [meterMachine] at hst; obtain ⟨rfl, rfl, rfl⟩ := hst
    cases a <;> simpa [linMarks, linsR, MEv.callA, countedEvents, takenFrom, MShared.avg] using hi

/-- `Stop` has taken effect exactly when the flag is set. -/
theorem meter_stopped {k : MConst F} {sched s ls tr} (h : meterRun k sched = some (s, ls, tr)) :
    s.stopped = true ↔ Stopped (callsOf tr) := by
  refine (meterMachine k).induct (fun s _ tr => s.stopped = true ↔ Stopped (callsOf tr))
    (by simp [MShared.zero, Stopped, callsOf]) ?_ sched s ls tr h
  intro s ls tr t i s' l' es hi hst
  have app : Stopped (callsOf (tr ++ es)) ↔ Stopped (callsOf tr) ∨ Stopped (callsOf es) := by
    simp only [Stopped, callsOf_append, List.mem_append]
    constructor
    · rintro ⟨t, r, h | h⟩
      · exact .inl ⟨t, r, h⟩
      · exact .inr ⟨t, r, h⟩
    · rintro (⟨t, r, h⟩ | ⟨t, r, h⟩)
      · exact ⟨t, r, .inl h⟩
      · exact ⟨t, r, .inr h⟩
  rw [app, ← hi]
  generalize ls t = l at hst
  cases l with
  | tickA a p =>
    obtain ⟨e, p', -, rfl, -, rfl⟩ := meter_tick_step hst
    rw [setAvg_stopped]
    have : ¬ Stopped (callsOf (tookEv a p ++ tickLin t a p' : List (MEv F))) := by
      have e0 : callsOf (tookEv a p : List (MEv F)) = [] := by cases p <;> rfl
      rw [callsOf_append, e0, List.nil_append]
      cases p' <;> cases a <;> simp [Stopped, tickLin, callsOf, MEv.call?, Avg.next]
    simp [this]
  | mark0 n =>
    simp only [meterMachine] at hst
    split at hst <;> simp at hst <;> obtain ⟨rfl, rfl, rfl⟩ := hst <;> simp [Stopped, callsOf, MEv.call?]
  | markA n a =>
    simp [meterMachine] at hst; obtain ⟨rfl, rfl, rfl⟩ := hst
    rw [setAvg_stopped]
    simp [Stopped, callsOf, MEv.call?]
  | _ =>
    simp [meterMachine] at hst; obtain ⟨rfl, rfl, rfl⟩ := hst
    simp [Stopped, callsOf, MEv.call?]

/-- Not (yet) dropped. -/
def MPc.notDropped : MPc F → Prop
  | .ret (.mark _) (.marked b) => b = true
  | _ => True

/-- As long as no `Stop` has taken effect, no `Mark` is dropped. -/
theorem meter_not_dropped {k : MConst F} {sched s ls tr} (h : meterRun k sched = some (s, ls, tr)) (hs : ¬ Stopped (callsOf tr)) :
    (∀ t, (ls t).notDropped) ∧ ∀ t n b, CEv.ret t (.mark n) (.marked b) ∈ callsOf tr → b = true := by
  refine (meterMachine k).induct_reach (fun s ls tr => ¬ Stopped (callsOf tr) → (∀ t, (ls t).notDropped) ∧
    ∀ t n b, CEv.ret t (.mark n) (.marked b) ∈ callsOf tr → b = true)
    (fun _ => ⟨fun _ => by simp [MPc.notDropped], by simp [callsOf]⟩) ?_ sched s ls tr h hs
  intro s ls tr t i s' l' es ⟨sched, hr⟩ hi hst hns
  have hns' : ¬ Stopped (callsOf tr) := fun ⟨t, r, h⟩ => hns ⟨t, r, by rw [callsOf_append]; exact List.mem_append_left _ h⟩
  obtain ⟨h1, h2⟩ := hi hns'
  have hst0 : s.stopped = false := by
    have := meter_stopped hr
    cases hb : s.stopped
    · rfl
    · exact absurd (this.1 hb) hns'
  have hl := h1 t
  have key : l'.notDropped ∧ ∀ u n b, CEv.ret u (.mark n) (.marked b) ∈ callsOf es → b = true := by
    generalize ls t = l at hst hl
    cases l with
    | tickA a p =>
      obtain ⟨e, p', -, rfl, rfl, rfl⟩ := meter_tick_step hst
      constructor
      · cases p' <;> cases a <;> trivial
      · have e0 : callsOf (tookEv a p : List (MEv F)) = [] := by cases p <;> rfl
        rw [callsOf_append, e0, List.nil_append]
        cases p' <;> cases a <;> simp [tickLin, callsOf, MEv.call?, Avg.next]
    | mark0 n =>
      simp [meterMachine, hst0] at hst
      obtain ⟨rfl, rfl, rfl⟩ := hst
      simp [callsOf, MPc.notDropped]
    | markA n a =>
      simp [meterMachine] at hst; obtain ⟨rfl, rfl, rfl⟩ := hst
      cases a <;> simp [callsOf, MEv.call?, MPc.notDropped, Avg.next]
    | idle =>
      simp [meterMachine] at hst; obtain ⟨rfl, rfl, rfl⟩ := hst
      cases i.call <;> simp [callsOf, MEv.call?, MPc.begin, MPc.notDropped]
    | stMean c rm =>
      simp [meterMachine] at hst; obtain ⟨rfl, rfl, rfl⟩ := hst
      cases c <;> simp [callsOf, usResult, MPc.notDropped]
    | ret c r =>
      simp [meterMachine] at hst; obtain ⟨rfl, rfl, rfl⟩ := hst
      refine ⟨trivial, ?_⟩
      intro u n b hm
      simp [callsOf, MEv.call?] at hm
      obtain ⟨rfl, rfl, rfl⟩ := hm
      exact hl
    | _ =>
      simp [meterMachine] at hst; obtain ⟨rfl, rfl, rfl⟩ := hst
      simp [callsOf, MEv.call?, MPc.notDropped]
  refine ⟨fun u => ?_, ?_⟩
  · by_cases hu : u = t
    · subst hu; rw [Function.update_self]; exact key.1
    · rw [Function.update_of_ne hu]; exact h1 u
  · intro u n b hm
    rw [callsOf_append, List.mem_append] at hm
    rcases hm with hm | hm
    · exact h2 u n b hm
    · exact key.2 u n b hm

/-- The current call of goroutine `t` was invoked after a `Stop` had taken effect. -/
def LateCall (t : Nat) (tr : List (CEv MCall (MRes F))) : Prop :=
  ∃ a o b, tr = a ++ CEv.inv t o :: b ∧ Stopped a ∧ ∀ o', CEv.inv t o' ∉ b

/-- Positions that do not lead to counting a mark. -/
def MPc.notCounting : MPc F → Prop
  | .mark1 _ | .markA _ _ => False
  | .us1 c | .us5 c _ | .us15 c _ _ | .usMean c _ _ _ | .st1 c _ _ _ _ | .st5 c _ _ _ | .st15 c _ _ | .stMean c _ => ∀ n, c ≠ .mark n
  | .ret (.mark _) (.marked b) => b = false
  | _ => True

theorem meter_late {k : MConst F} {sched s ls tr} (h : meterRun k sched = some (s, ls, tr)) (t : Nat)
    (hl : LateCall t (callsOf tr)) : (ls t).notCounting := by
  refine (meterMachine k).induct_reach (fun s ls tr => LateCall t (callsOf tr) → (ls t).notCounting)
    (fun ⟨a, o, b, h, _⟩ => by simp [callsOf] at h) ?_ sched s ls tr h hl
  intro s ls tr u i s' l' es ⟨sched, hr⟩ hi hst hl
  have hr' := (meterMachine k).run_snoc hr hst
  by_cases hu : u = t
  · subst hu
    rw [Function.update_self]
    by_cases hidle : ls u = .idle
    · rw [hidle] at hst
      simp [meterMachine] at hst; obtain ⟨rfl, rfl, rfl⟩ := hst
      cases i.call <;> simp [MPc.begin, MPc.notCounting]
    · -- no invocation in this step
      have hnoinv : ∀ o, CEv.inv u o ∉ callsOf es := by
        intro o hm
        have hlo := meter_local k u i s (ls u) s' l' es hst
        generalize hA : (ls u).abs = A at hlo
        generalize hB : l'.abs = B at hlo
        have e : callsOf es = es.filterMap MEv.call? := rfl
        rw [e] at hm
        generalize es.filterMap MEv.call? = es' at hlo hm
        cases hlo with
        | inv =>
          apply hidle
          generalize ls u = l at hA
          cases l <;> simp [MPc.abs] at hA
          rfl
        | _ => simp at hm
      have hl0 : LateCall u (callsOf tr) := by
        obtain ⟨a, o, b, he, hs, hb⟩ := hl
        rw [callsOf_append] at he
        rcases List.append_eq_append_iff.1 he with ⟨x, h1, h2⟩ | ⟨x, h1, h2⟩
        · exfalso
          apply hnoinv o
          rw [h2]; simp
        · cases x with
          | nil =>
            exfalso
            simp at h2
            apply hnoinv o
            rw [← h2]; simp
          | cons y x =>
            simp at h2
            obtain ⟨rfl, rfl⟩ := h2
            exact ⟨a, o, x, h1, hs, fun o' ho => hb o' (by simp [ho])⟩
      have hn := hi hl0
      have hstopped : s.stopped = true := by
        rw [meter_stopped hr]
        obtain ⟨a, o, b, he, ⟨v, r, hs⟩, hb⟩ := hl0
        exact ⟨v, r, by rw [he]; simp [hs]⟩
      generalize ls u = l at hst hn hidle
      cases l with
      | tickA a p =>
        obtain ⟨e, p', -, rfl, rfl, rfl⟩ := meter_tick_step hst
        cases p' <;> cases a <;> simp [afterTick, Avg.next, MPc.notCounting]
      | mark0 n =>
        simp [meterMachine, hstopped] at hst
        obtain ⟨rfl, rfl, rfl⟩ := hst
        simp [MPc.notCounting]
      | mark1 n => exact absurd hn (by simp [MPc.notCounting])
      | markA n a => exact absurd hn (by simp [MPc.notCounting])
      | idle => exact absurd rfl hidle
      | stMean c rm =>
        simp [meterMachine] at hst; obtain ⟨rfl, rfl, rfl⟩ := hst
        cases c <;> simp [MPc.notCounting, usResult] at hn ⊢
      | _ =>
        simp [meterMachine] at hst; obtain ⟨rfl, rfl, rfl⟩ := hst
        first | exact hn | simp [MPc.notCounting]
  · rw [Function.update_of_ne (Ne.symm hu)]
    apply hi
    -- events of another goroutine contain no invocation of t
    have hnoinv : ∀ o, CEv.inv t o ∉ callsOf es := by
      intro o hm
      have hlo := meter_local k u i s (ls u) s' l' es hst
      generalize (ls u).abs = A at hlo
      generalize l'.abs = B at hlo
      have e : callsOf es = es.filterMap MEv.call? := rfl
      rw [e] at hm
      generalize es.filterMap MEv.call? = es' at hlo hm
      cases hlo with
      | inv => simp at hm; exact hu hm.1.symm
      | _ => simp at hm
    obtain ⟨a, o, b, he, hs, hb⟩ := hl
    rw [callsOf_append] at he
    rcases List.append_eq_append_iff.1 he with ⟨x, h1, h2⟩ | ⟨x, h1, h2⟩
    · exfalso
      apply hnoinv o
      rw [h2]; simp
    · cases x with
      | nil =>
        exfalso
        simp at h2
        apply hnoinv o
        rw [← h2]; simp
      | cons y x =>
        simp at h2
        obtain ⟨rfl, rfl⟩ := h2
        exact ⟨a, o, x, h1, hs, fun o' ho => hb o' (by simp [ho])⟩

end conc

end GoMetrics
