import Verif.Spec.MeterConc
import Verif.Lemmas.Meter

/-! Lemmas about a meter that is used by several goroutines at a time. -/

set_option linter.unusedSectionVars false

namespace GoMetrics
open Spec

section fresh
variable {F : Type} [GoFloat F] {k : MConst F} {s : MShared F} {ls : Nat → MPc F}

theorem stateAfter_snoc (sched : List (Nat × MIn)) (x : Nat × MIn) {i : Nat} (hi : i ≤ sched.length) : stateAfter k s ls (sched ++ [x]) i = stateAfter k s ls sched i := by
  unfold stateAfter
  rw [List.take_append_of_le_length hi]

theorem averageWas_snoc {sched : List (Nat × MIn)} {a : Avg} {r : F} (x : Nat × MIn) (h : AverageWas k s ls sched a r) : AverageWas k s ls (sched ++ [x]) a r := by
  obtain ⟨i, m, h1, h2, h3⟩ := h
  exact ⟨i, m, by simp; omega, by rw [stateAfter_snoc _ _ h1]; exact h2, h3⟩

theorem meanWas_snoc {sched : List (Nat × MIn)} {r : F} (x : Nat × MIn) (h : MeanWas k s ls sched r) : MeanWas k s ls (sched ++ [x]) r := by
  obtain ⟨i, m, t, inp, h1, h2, h3⟩ := h
  have hi : i < sched.length := by
    by_contra hc
    rw [List.getElem?_eq_none (by omega)] at h1
    cases h1
  exact ⟨i, m, t, inp, by rw [List.getElem?_append_left hi]; exact h1, by rw [stateAfter_snoc _ _ hi.le]; exact h2, h3⟩

theorem stateAfter_all {sched : List (Nat × MIn)} {s' ls' tr} (h : (meterMachine k).run s ls sched = some (s', ls', tr)) : stateAfter k s ls sched sched.length = some s' := by
  unfold stateAfter
  rw [List.take_length, h]
  rfl

/-- What the local variables of a goroutine hold. -/
def Loaded (A : Avg → F → Prop) (M : F → Prop) : MPc F → Prop
  | .us5 _ r1 => A .m1 r1
  | .us15 _ r1 r5 => A .m1 r1 ∧ A .m5 r5
  | .usMean _ r1 r5 r15 => A .m1 r1 ∧ A .m5 r5 ∧ A .m15 r15
  | .st1 _ r1 r5 r15 rm => A .m1 r1 ∧ A .m5 r5 ∧ A .m15 r15 ∧ M rm
  | .st5 _ r5 r15 rm => A .m5 r5 ∧ A .m15 r15 ∧ M rm
  | .st15 _ r15 rm => A .m15 r15 ∧ M rm
  | .stMean _ rm => M rm
  | _ => True

theorem Loaded.mono {A A' : Avg → F → Prop} {M M' : F → Prop} (hA : ∀ a r, A a r → A' a r) (hM : ∀ r, M r → M' r) {l : MPc F} (h : Loaded A M l) : Loaded A' M' l := by
  cases l <;> simp only [Loaded] at h ⊢ <;> (try tauto) <;>
    first
    | exact hA _ _ h
    | exact ⟨hA _ _ h.1, hA _ _ h.2⟩
    | exact ⟨hA _ _ h.1, hA _ _ h.2.1, hA _ _ h.2.2⟩
    | exact ⟨hA _ _ h.1, hA _ _ h.2.1, hA _ _ h.2.2.1, hM _ h.2.2.2⟩
    | exact ⟨hA _ _ h.1, hA _ _ h.2.1, hM _ h.2.2⟩
    | exact ⟨hA _ _ h.1, hM _ h.2⟩
    | exact hM _ h

/-- The goroutine has stored the rate `a` in its present call. -/
def MPc.stored (a : Avg) : MPc F → Prop
  | .st5 _ _ _ _ => a = .m1
  | .st15 _ _ _ => a = .m1 ∨ a = .m5
  | .stMean _ _ => True
  | .ret (.mark _) (.marked true) => True
  | .ret .tick _ => True
  | _ => False

/-- The goroutine has stored the mean rate in its present call. -/
def MPc.storedMean : MPc F → Prop
  | .ret (.mark _) (.marked true) => True
  | .ret .tick _ => True
  | _ => False

theorem rates_updated_append {a b : List (MEv F)} : Updated (a ++ b) ↔ Updated a ∨ Updated b := by
  constructor
  · rintro ⟨t, ⟨n, h⟩ | ⟨r, h⟩⟩ <;> rcases List.mem_append.1 h with h | h
    · exact .inl ⟨t, .inl ⟨n, h⟩⟩
    · exact .inr ⟨t, .inl ⟨n, h⟩⟩
    · exact .inl ⟨t, .inr ⟨r, h⟩⟩
    · exact .inr ⟨t, .inr ⟨r, h⟩⟩
  · rintro (⟨t, ⟨n, h⟩ | ⟨r, h⟩⟩ | ⟨t, ⟨n, h⟩ | ⟨r, h⟩⟩)
    · exact ⟨t, .inl ⟨n, by simp [h]⟩⟩
    · exact ⟨t, .inr ⟨r, by simp [h]⟩⟩
    · exact ⟨t, .inl ⟨n, by simp [h]⟩⟩
    · exact ⟨t, .inr ⟨r, by simp [h]⟩⟩

theorem setAvg_rate (s : MShared F) (e : EShared F) (a b : Avg) : MShared.rate (s.setAvg e a) b = MShared.rate s b := by cases a <;> cases b <;> rfl
theorem setAvg_rateMean (s : MShared F) (e : EShared F) (a : Avg) : (s.setAvg e a).rateMean = s.rateMean := by cases a <;> rfl

/-- One step: rates that are stored were loaded, loaded rates are those of the moment, and a call that has returned has stored its rates. -/
theorem meter_rates_step {A : Avg → F → Prop} {M : F → Prop} {t i} {s1 s2 : MShared F} {l l' : MPc F} {es} (hst : (meterMachine k).step t i s1 l = some (s2, l', es)) (hl : Loaded A M l)
    (hA : ∀ a, A a (MShared.average s1 a)) (hM : M (StandardMeter.meanRate s1.count k.start i.now)) :
    Loaded A M l' ∧ (∀ a, (MShared.rate s2 a = MShared.rate s1 a ∨ A a (MShared.rate s2 a)) ∧ (l'.stored a → l.stored a ∨ A a (MShared.rate s2 a)) ∧ (Updated es → l.stored a)) ∧
      (s2.rateMean = s1.rateMean ∨ M s2.rateMean) ∧ (l'.storedMean → l.storedMean ∨ M s2.rateMean) ∧ (Updated es → l.storedMean) := by
  have nu : ¬ Updated ([] : List (MEv F)) := by rintro ⟨t, ⟨n, h⟩ | ⟨r, h⟩⟩ <;> simp at h
  cases l with
  | tickA b p =>
    obtain ⟨e, p', -, rfl, rfl, rfl⟩ := meter_tick_step hst
    have h1 : ¬ Updated (tookEv b p ++ tickLin t b p' : List (MEv F)) := by
      rintro ⟨u, ⟨n, h⟩ | ⟨r, h⟩⟩ <;> rcases List.mem_append.1 h with h | h <;> cases p <;> cases p' <;> cases b <;> simp [tookEv, tickLin, Avg.next] at h
    have h2 : Loaded A M (afterTick b p') := by cases p' <;> cases b <;> trivial
    have h3 : ∀ a, ¬ (afterTick b p').stored a := by intro a h; cases p' <;> cases b <;> simp [afterTick, Avg.next, MPc.stored] at h
    have h4 : ¬ (afterTick b p').storedMean := by intro h; cases p' <;> cases b <;> simp [afterTick, Avg.next, MPc.storedMean] at h
    exact ⟨h2, fun a => ⟨.inl (setAvg_rate ..), fun h => (h3 a h).elim, fun h => (h1 h).elim⟩, .inl (setAvg_rateMean ..), fun h => (h4 h).elim, fun h => (h1 h).elim⟩
  | mark0 n =>
    simp only [meterMachine] at hst
    split at hst <;> simp at hst <;> obtain ⟨rfl, rfl, rfl⟩ := hst <;> simp [Loaded, MPc.stored, MPc.storedMean, Updated]
  | markA n b =>
    simp [meterMachine] at hst; obtain ⟨rfl, rfl, rfl⟩ := hst
    cases b <;> simp [Loaded, MPc.stored, MPc.storedMean, Updated, Avg.next, setAvg_rate, setAvg_rateMean]
  | idle =>
    simp [meterMachine] at hst; obtain ⟨rfl, rfl, rfl⟩ := hst
    cases hc : i.call <;> simp [Loaded, MPc.stored, MPc.storedMean, Updated, MPc.begin]
  | ret c r =>
    simp [meterMachine] at hst; obtain ⟨rfl, rfl, rfl⟩ := hst
    have key : Updated [MEv.call (.ret t c r)] → (∀ a, (MPc.ret c r).stored a) ∧ (MPc.ret c r).storedMean := by
      rintro ⟨u, ⟨n, h⟩ | ⟨r, h⟩⟩ <;> simp at h <;> obtain ⟨-, rfl, rfl⟩ := h <;> exact ⟨fun _ => trivial, trivial⟩
    exact ⟨trivial, fun a => ⟨.inl rfl, fun h => h.elim, fun h => (key h).1 a⟩, .inl rfl, fun h => h.elim, fun h => (key h).2⟩
  | us1 c =>
    simp [meterMachine] at hst; obtain ⟨rfl, rfl, rfl⟩ := hst
    exact ⟨hA .m1, fun a => ⟨.inl rfl, fun h => h.elim, fun h => (nu h).elim⟩, .inl rfl, fun h => h.elim, fun h => (nu h).elim⟩
  | us5 c r1 =>
    simp [meterMachine] at hst; obtain ⟨rfl, rfl, rfl⟩ := hst
    exact ⟨⟨hl, hA .m5⟩, fun a => ⟨.inl rfl, fun h => h.elim, fun h => (nu h).elim⟩, .inl rfl, fun h => h.elim, fun h => (nu h).elim⟩
  | us15 c r1 r5 =>
    simp [meterMachine] at hst; obtain ⟨rfl, rfl, rfl⟩ := hst
    exact ⟨⟨hl.1, hl.2, hA .m15⟩, fun a => ⟨.inl rfl, fun h => h.elim, fun h => (nu h).elim⟩, .inl rfl, fun h => h.elim, fun h => (nu h).elim⟩
  | usMean c r1 r5 r15 =>
    simp [meterMachine] at hst; obtain ⟨rfl, rfl, rfl⟩ := hst
    exact ⟨⟨hl.1, hl.2.1, hl.2.2, hM⟩, fun a => ⟨.inl rfl, fun h => h.elim, fun h => (nu h).elim⟩, .inl rfl, fun h => h.elim, fun h => (nu h).elim⟩
  | st1 c r1 r5 r15 rm =>
    simp [meterMachine] at hst; obtain ⟨rfl, rfl, rfl⟩ := hst
    refine ⟨hl.2, fun a => ⟨?_, fun h => .inr ?_, fun h => (nu h).elim⟩, .inl rfl, fun h => h.elim, fun h => (nu h).elim⟩
    · cases a
      · exact .inr hl.1
      · exact .inl rfl
      · exact .inl rfl
    · cases h; exact hl.1
  | st5 c r5 r15 rm =>
    simp [meterMachine] at hst; obtain ⟨rfl, rfl, rfl⟩ := hst
    refine ⟨hl.2, fun a => ⟨?_, fun h => ?_, fun h => (nu h).elim⟩, .inl rfl, fun h => h.elim, fun h => (nu h).elim⟩
    · cases a
      · exact .inl rfl
      · exact .inr hl.1
      · exact .inl rfl
    · rcases h with rfl | rfl
      · exact .inl rfl
      · exact .inr hl.1
  | st15 c r15 rm =>
    simp [meterMachine] at hst; obtain ⟨rfl, rfl, rfl⟩ := hst
    refine ⟨hl.2, fun a => ⟨?_, fun h => ?_, fun h => (nu h).elim⟩, .inl rfl, fun h => h.elim, fun h => (nu h).elim⟩
    · cases a
      · exact .inl rfl
      · exact .inl rfl
      · exact .inr hl.1
    · cases a
      · exact .inl (.inl rfl)
      · exact .inl (.inr rfl)
      · exact .inr hl.1
  | stMean c rm =>
    simp [meterMachine] at hst; obtain ⟨rfl, rfl, rfl⟩ := hst
    exact ⟨trivial, fun a => ⟨.inl (by cases a <;> rfl), fun h => .inl trivial, fun h => (nu h).elim⟩, .inr hl, fun h => .inr hl, fun h => (nu h).elim⟩
  | _ =>
    simp [meterMachine] at hst; obtain ⟨rfl, rfl, rfl⟩ := hst
    refine ⟨trivial, fun a => ⟨.inl (by cases a <;> rfl), fun h => h.elim, fun h => ?_⟩, .inl rfl, fun h => h.elim, fun h => ?_⟩ <;> simp [Updated] at h

/-- The rates shown at the end of an execution that starts when no call is running. -/
theorem meter_rates (h0 : ∀ t, ls t = .idle) {sched : List (Nat × MIn)} {s' ls' tr} (h : (meterMachine k).run s ls sched = some (s', ls', tr)) :
    (∀ t, Loaded (AverageWas k s ls sched) (MeanWas k s ls sched) (ls' t)) ∧
      (∀ a, (MShared.rate s' a = MShared.rate s a ∨ AverageWas k s ls sched a (MShared.rate s' a)) ∧ ((∃ t, (ls' t).stored a) ∨ Updated tr → AverageWas k s ls sched a (MShared.rate s' a))) ∧
      (s'.rateMean = s.rateMean ∨ MeanWas k s ls sched s'.rateMean) ∧ ((∃ t, (ls' t).storedMean) ∨ Updated tr → MeanWas k s ls sched s'.rateMean) := by
  induction sched using List.reverseRecOn generalizing s' ls' tr with
  | nil =>
    simp [Machine.run] at h
    obtain ⟨rfl, rfl, rfl⟩ := h
    refine ⟨fun t => by rw [h0 t]; trivial, fun a => ⟨.inl rfl, ?_⟩, .inl rfl, ?_⟩
    · rintro (⟨t, ht⟩ | ⟨t, ⟨n, h⟩ | ⟨r, h⟩⟩)
      · rw [h0 t] at ht; exact ht.elim
      · simp at h
      · simp at h
    · rintro (⟨t, ht⟩ | ⟨t, ⟨n, h⟩ | ⟨r, h⟩⟩)
      · rw [h0 t] at ht; exact ht.elim
      · simp at h
      · simp at h
  | append_singleton sched x ih =>
    obtain ⟨t, i⟩ := x
    obtain ⟨s1, ls1, tr1, tr2, hr1, hr2, rfl⟩ := (meterMachine k).run_split h
    obtain ⟨s2, l2, es, tr3, hst, hr3, rfl⟩ := (meterMachine k).run_cons hr2
    simp [Machine.run] at hr3
    obtain ⟨rfl, rfl, rfl⟩ := hr3
    obtain ⟨i1, i2, i3, i4⟩ := ih hr1
    have hA : ∀ a r, AverageWas k s ls sched a r → AverageWas k s ls (sched ++ [(t, i)]) a r := fun a r h => averageWas_snoc _ h
    have hM : ∀ r, MeanWas k s ls sched r → MeanWas k s ls (sched ++ [(t, i)]) r := fun r h => meanWas_snoc _ h
    have hlast : stateAfter k s ls (sched ++ [(t, i)]) sched.length = some s1 := by rw [stateAfter_snoc _ _ le_rfl]; exact stateAfter_all hr1
    obtain ⟨j1, j2, j3, j4, j5⟩ := meter_rates_step hst ((i1 t).mono hA hM) (fun a => ⟨sched.length, s1, by simp, hlast, rfl⟩) ⟨sched.length, s1, t, i, by simp, hlast, rfl⟩
    refine ⟨?_, ?_, ?_, ?_⟩
    · intro u
      by_cases hu : u = t
      · subst hu; rw [Function.update_self]; exact j1
      · rw [Function.update_of_ne hu]; exact (i1 u).mono hA hM
    · intro a
      obtain ⟨k1, k2, k3⟩ := j2 a
      obtain ⟨m1, m2⟩ := i2 a
      have keep : AverageWas k s ls sched a (MShared.rate s1 a) → AverageWas k s ls (sched ++ [(t, i)]) a (MShared.rate s2 a) := fun h => by
        rcases k1 with k1 | k1
        · rw [k1]; exact averageWas_snoc _ h
        · exact k1
      refine ⟨?_, ?_⟩
      · rcases k1 with k1 | k1
        · rw [k1]
          rcases m1 with m1 | m1
          · exact .inl m1
          · exact .inr (averageWas_snoc _ m1)
        · exact .inr k1
      · rintro (⟨u, hu⟩ | hu)
        · by_cases e : u = t
          · subst e
            rw [Function.update_self] at hu
            rcases k2 hu with h | h
            · exact keep (m2 (.inl ⟨u, h⟩))
            · exact h
          · rw [Function.update_of_ne e] at hu
            exact keep (m2 (.inl ⟨u, hu⟩))
        · rw [List.append_nil] at hu
          rcases rates_updated_append.1 hu with hu | hu
          · exact keep (m2 (.inr hu))
          · exact keep (m2 (.inl ⟨t, k3 hu⟩))
    · rcases j3 with j3 | j3
      · rw [j3]
        rcases i3 with i3 | i3
        · exact .inl i3
        · exact .inr (meanWas_snoc _ i3)
      · exact .inr j3
    · have keep : MeanWas k s ls sched s1.rateMean → MeanWas k s ls (sched ++ [(t, i)]) s2.rateMean := fun h => by
        rcases j3 with j3 | j3
        · rw [j3]; exact meanWas_snoc _ h
        · exact j3
      rintro (⟨u, hu⟩ | hu)
      · by_cases e : u = t
        · subst e
          rw [Function.update_self] at hu
          rcases j4 hu with h | h
          · exact keep (i4 (.inl ⟨u, h⟩))
          · exact h
        · rw [Function.update_of_ne e] at hu
          exact keep (i4 (.inl ⟨u, hu⟩))
      · rw [List.append_nil] at hu
        rcases rates_updated_append.1 hu with hu | hu
        · exact keep (i4 (.inr hu))
        · exact keep (i4 (.inl ⟨t, j5 hu⟩))

end fresh

/-! ### One writer at a time -/

section alone
variable {F : Type} [GoFloat F]

/-- The call a goroutine is in. -/
def MPc.call : MPc F → Option MCall
  | .idle => none
  | .mark0 n | .mark1 n | .markA n _ => some (.mark n)
  | .tickA _ _ => some .tick
  | .us1 c | .us5 c _ | .us15 c _ _ | .usMean c _ _ _ | .st1 c _ _ _ _ | .st5 c _ _ _ | .st15 c _ _ | .stMean c _ => some c
  | .stop0 => some .stop
  | .count0 => some .count
  | .sn0 | .sn1 _ | .sn5 _ _ | .sn15 _ _ _ | .snMean _ _ _ _ => some .snapshot
  | .ret c _ => some c

/-- One event. -/
def runningStep (t : Nat) (c : Option MCall) : CEv MCall (MRes F) → Option MCall
  | .inv u o => if u = t then some o else c
  | .ret u _ _ => if u = t then none else c
  | .lin _ _ _ => c

theorem running_append (t : Nat) (a b : List (CEv MCall (MRes F))) : running t (a ++ b) = b.foldl (runningStep t) (running t a) := by
  unfold running
  rw [List.foldl_append]
  rfl

theorem running_step {k : MConst F} {t i} {s : MShared F} {l : MPc F} {s' l' es} (h : (meterMachine k).step t i s l = some (s', l', es)) :
    (callsOf es).foldl (runningStep t) l.call = l'.call ∧ ∀ u, u ≠ t → ∀ c, (callsOf es).foldl (runningStep u) c = c := by
  cases l with
  | tickA a p =>
    obtain ⟨e, p', -, rfl, rfl, rfl⟩ := meter_tick_step h
    have e0 : callsOf (tookEv a p : List (MEv F)) = [] := by cases p <;> rfl
    rw [callsOf_append, e0, List.nil_append]
    cases p' <;> cases a <;> exact ⟨rfl, fun _ _ _ => rfl⟩
  | mark0 n =>
    simp only [meterMachine] at h
    split at h <;> simp at h <;> obtain ⟨rfl, rfl, rfl⟩ := h <;> exact ⟨rfl, fun _ _ _ => rfl⟩
  | markA n a =>
    simp [meterMachine] at h; obtain ⟨rfl, rfl, rfl⟩ := h
    cases a <;> exact ⟨rfl, fun _ _ _ => rfl⟩
  | idle =>
    simp [meterMachine] at h; obtain ⟨rfl, rfl, rfl⟩ := h
    refine ⟨?_, fun u hu c => ?_⟩
    · cases hc : i.call <;> simp [callsOf, MEv.call?, runningStep, MPc.begin, MPc.call]
    · simp [callsOf, MEv.call?, runningStep, hu.symm]
  | ret c r =>
    simp [meterMachine] at h; obtain ⟨rfl, rfl, rfl⟩ := h
    refine ⟨?_, fun u hu c => ?_⟩
    · simp [callsOf, MEv.call?, runningStep, MPc.call]
    · simp [callsOf, MEv.call?, runningStep, hu.symm]
  | stMean c r => simp [meterMachine] at h; obtain ⟨rfl, rfl, rfl⟩ := h; exact ⟨rfl, fun _ _ _ => rfl⟩
  | _ => simp [meterMachine] at h; obtain ⟨rfl, rfl, rfl⟩ := h; exact ⟨rfl, fun _ _ _ => rfl⟩

theorem running_call {k : MConst F} {sched s ls tr} (h : meterRun k sched = some (s, ls, tr)) (t : Nat) : running t (callsOf tr) = (ls t).call := by
  refine (meterMachine k).induct (fun _ ls tr => ∀ t, running t (callsOf tr) = (ls t).call) (fun _ => rfl) ?_ sched s ls tr h t
  intro s ls tr t i s' l' es hi hst u
  obtain ⟨h1, h2⟩ := running_step hst
  rw [callsOf_append, running_append, hi u]
  by_cases hu : u = t
  · subst hu; rw [Function.update_self]; exact h1
  · rw [Function.update_of_ne hu]; exact h2 u hu _

/-- A moving average read off the shared fields. -/
def meterAvgOf (alpha : F) (e : EShared F) : StandardEWMA F := ⟨e.uncounted, alpha, e.rate, e.init⟩

/-- The meter read off the shared fields, not stopped. -/
def meterOf (k : MConst F) (s : MShared F) : StandardMeter F :=
  { snapshot := MShared.shown s, a1 := meterAvgOf k.alpha1 s.e1, a5 := meterAvgOf k.alpha5 s.e5, a15 := meterAvgOf k.alpha15 s.e15, startTime := k.start, stopped := false }

def Unlocked (s : MShared F) : Prop := s.e1.locked = false ∧ s.e5.locked = false ∧ s.e15.locked = false

/-- Inside `Tick` of an average that was `a` before. -/
def TickMid (alpha : F) (e : EShared F) (a : StandardEWMA F) : TPc F → Prop
  | .start => meterAvgOf alpha e = a ∧ e.locked = false
  | .lock => meterAvgOf alpha e = a ∧ e.locked = false ∧ a.init = false
  | .recheck => meterAvgOf alpha e = a ∧ e.locked = true ∧ a.init = false
  | .setInit => meterAvgOf alpha e = a ∧ e.locked = true ∧ a.init = false
  | .load .fast => meterAvgOf alpha e = a ∧ e.locked = false ∧ a.init = true
  | .load .first => meterAvgOf alpha e = { a with init := true } ∧ e.locked = true ∧ a.init = false
  | .load .slow => False
  | .sub .fast c => meterAvgOf alpha e = a ∧ e.locked = false ∧ a.init = true ∧ c = a.uncounted
  | .sub .first c => meterAvgOf alpha e = { a with init := true } ∧ e.locked = true ∧ a.init = false ∧ c = a.uncounted
  | .sub .slow _ => False
  | .loadRate .fast c => meterAvgOf alpha e = { a with uncounted := a.uncounted + (-a.uncounted) } ∧ e.locked = false ∧ a.init = true ∧ c = a.uncounted
  | .loadRate _ _ => False
  | .storeRate .fast _ r => meterAvgOf alpha e = { a with uncounted := a.uncounted + (-a.uncounted) } ∧ e.locked = false ∧ a.init = true ∧
      r = StandardEWMA.newRate a.alpha a.rate (StandardEWMA.instantRate a.uncounted)
  | .storeRate .first _ r => meterAvgOf alpha e = { a with init := true, uncounted := a.uncounted + (-a.uncounted) } ∧ e.locked = true ∧ a.init = false ∧
      r = StandardEWMA.instantRate a.uncounted
  | .storeRate .slow _ _ => False
  | .unlock _ => meterAvgOf alpha e = a.tick ∧ e.locked = true
  | .done _ => meterAvgOf alpha e = a.tick ∧ e.locked = false

theorem TickMid.step {alpha : F} {e e' : EShared F} {a : StandardEWMA F} {p p' : TPc F} (h : TickMid alpha e a p) (hst : tickStep alpha e p = some (e', p')) : TickMid alpha e' a p' := by
  have hi : ∀ b, meterAvgOf alpha e = b → e.init = b.init := fun b hb => by rw [← hb]; rfl
  cases p with
  | start =>
    simp [tickStep] at hst; obtain ⟨rfl, rfl⟩ := hst
    have := hi _ h.1
    by_cases ha : a.init = true
    · rw [if_pos (this.trans ha)]; exact ⟨h.1, h.2, ha⟩
    · rw [if_neg (by rw [this]; exact ha)]; exact ⟨h.1, h.2, by simpa using ha⟩
  | lock =>
    simp only [tickStep, h.2.1, Bool.false_eq_true, if_false, Option.some.injEq, Prod.mk.injEq] at hst; obtain ⟨rfl, rfl⟩ := hst
    exact ⟨h.1, rfl, h.2.2⟩
  | recheck =>
    simp [tickStep] at hst; obtain ⟨rfl, rfl⟩ := hst
    rw [if_neg (by rw [hi _ h.1, h.2.2]; simp)]
    exact h
  | setInit =>
    simp [tickStep] at hst; obtain ⟨rfl, rfl⟩ := hst
    obtain ⟨h1, h2, h3⟩ := h
    subst h1
    exact ⟨rfl, h2, h3⟩
  | load m =>
    simp [tickStep] at hst; obtain ⟨rfl, rfl⟩ := hst
    cases m
    · obtain ⟨rfl, h2, h3⟩ := h; exact ⟨rfl, h2, h3, rfl⟩
    · exact h.elim
    · exact ⟨h.1, h.2.1, h.2.2, congrArg StandardEWMA.uncounted h.1⟩
  | sub m c =>
    cases m
    · simp [tickStep] at hst; obtain ⟨rfl, rfl⟩ := hst
      obtain ⟨rfl, h2, h3, rfl⟩ := h; exact ⟨rfl, h2, h3, rfl⟩
    · exact h.elim
    · simp [tickStep] at hst; obtain ⟨rfl, rfl⟩ := hst
      obtain ⟨h1, h2, h3, rfl⟩ := h
      have e1 : e.uncounted = a.uncounted := congrArg StandardEWMA.uncounted h1
      have e2 : alpha = a.alpha := congrArg StandardEWMA.alpha h1
      have e3 : e.rate = a.rate := congrArg StandardEWMA.rate h1
      have e4 : e.init = true := congrArg StandardEWMA.init h1
      refine ⟨?_, h2, h3, rfl⟩
      simp [meterAvgOf, e1, e2, e3, e4]
  | loadRate m c =>
    cases m
    · simp [tickStep] at hst; obtain ⟨rfl, rfl⟩ := hst
      obtain ⟨h1, h2, h3, rfl⟩ := h
      have e2 : alpha = a.alpha := congrArg StandardEWMA.alpha h1
      have e3 : e.rate = a.rate := congrArg StandardEWMA.rate h1
      exact ⟨h1, h2, h3, by rw [e2, e3]⟩
    · exact h.elim
    · exact h.elim
  | storeRate m c r =>
    cases m
    · simp [tickStep] at hst; obtain ⟨rfl, rfl⟩ := hst
      obtain ⟨h1, h2, h3, rfl⟩ := h
      have e1 : e.uncounted = a.uncounted + (-a.uncounted) := congrArg StandardEWMA.uncounted h1
      have e2 : alpha = a.alpha := congrArg StandardEWMA.alpha h1
      have e4 : e.init = true := (congrArg StandardEWMA.init h1).trans h3
      refine ⟨?_, h2⟩
      simp [meterAvgOf, StandardEWMA.tick, h3, StandardEWMA.fetchInstantRate, StandardEWMA.updateRate, e1, e2, e4]
    · exact h.elim
    · simp [tickStep] at hst; obtain ⟨rfl, rfl⟩ := hst
      obtain ⟨h1, h2, h3, rfl⟩ := h
      have e1 : e.uncounted = a.uncounted + (-a.uncounted) := congrArg StandardEWMA.uncounted h1
      have e2 : alpha = a.alpha := congrArg StandardEWMA.alpha h1
      have e4 : e.init = true := congrArg StandardEWMA.init h1
      refine ⟨?_, h2⟩
      simp [meterAvgOf, StandardEWMA.tick, h3, StandardEWMA.fetchInstantRate, e1, e2, e4]
  | unlock c =>
    simp [tickStep] at hst; obtain ⟨rfl, rfl⟩ := hst
    exact ⟨h.1, rfl⟩
  | done c => simp [tickStep] at hst

/-- The meter with the count and the averages of after the call, and the rates of before. -/
def afterCall (m : StandardMeter F) : MCall → StandardMeter F
  | .mark n => { m with snapshot := { m.snapshot with count := m.snapshot.count + n }, a1 := m.a1.update n, a5 := m.a5.update n, a15 := m.a15.update n }
  | .tick => { m with a1 := m.a1.tick, a5 := m.a5.tick, a15 := m.a15.tick }
  | _ => m

/-- Inside a `Mark` or a tick of a meter that was `m` before. `T` are the clock readings possible for the present call. -/
def Mid (k : MConst F) (T : Instant → Prop) (s : MShared F) (m : StandardMeter F) : MPc F → Prop
  | .mark0 _ | .mark1 _ => meterOf k s = m ∧ Unlocked s
  | .markA n .m1 => meterOf k s = { m with snapshot := { m.snapshot with count := m.snapshot.count + n } } ∧ Unlocked s
  | .markA n .m5 => meterOf k s = { m with snapshot := { m.snapshot with count := m.snapshot.count + n }, a1 := m.a1.update n } ∧ Unlocked s
  | .markA n .m15 => meterOf k s = { m with snapshot := { m.snapshot with count := m.snapshot.count + n }, a1 := m.a1.update n, a5 := m.a5.update n } ∧ Unlocked s
  | .tickA .m1 p => meterOf k s = { m with a1 := meterAvgOf k.alpha1 s.e1 } ∧ TickMid k.alpha1 s.e1 m.a1 p ∧ s.e5.locked = false ∧ s.e15.locked = false
  | .tickA .m5 p => meterOf k s = { m with a1 := m.a1.tick, a5 := meterAvgOf k.alpha5 s.e5 } ∧ TickMid k.alpha5 s.e5 m.a5 p ∧ s.e1.locked = false ∧ s.e15.locked = false
  | .tickA .m15 p => meterOf k s = { m with a1 := m.a1.tick, a5 := m.a5.tick, a15 := meterAvgOf k.alpha15 s.e15 } ∧ TickMid k.alpha15 s.e15 m.a15 p ∧ s.e1.locked = false ∧ s.e5.locked = false
  | .us1 c => (MCall.writes c = true ∧ Unlocked s) ∧ meterOf k s = afterCall m c
  | .us5 c r1 => (MCall.writes c = true ∧ Unlocked s) ∧ meterOf k s = afterCall m c ∧ r1 = (afterCall m c).a1.rateOf
  | .us15 c r1 r5 => (MCall.writes c = true ∧ Unlocked s) ∧ meterOf k s = afterCall m c ∧ r1 = (afterCall m c).a1.rateOf ∧ r5 = (afterCall m c).a5.rateOf
  | .usMean c r1 r5 r15 => (MCall.writes c = true ∧ Unlocked s) ∧ meterOf k s = afterCall m c ∧ r1 = (afterCall m c).a1.rateOf ∧ r5 = (afterCall m c).a5.rateOf ∧ r15 = (afterCall m c).a15.rateOf
  | .st1 c r1 r5 r15 rm => (MCall.writes c = true ∧ Unlocked s) ∧ ∃ now, T now ∧ meterOf k s = afterCall m c ∧ r1 = (afterCall m c).a1.rateOf ∧ r5 = (afterCall m c).a5.rateOf ∧ r15 = (afterCall m c).a15.rateOf ∧
      rm = StandardMeter.meanRate (afterCall m c).snapshot.count (afterCall m c).startTime now
  | .st5 c r5 r15 rm => (MCall.writes c = true ∧ Unlocked s) ∧ ∃ now, T now ∧
      meterOf k s = { afterCall m c with snapshot := { (afterCall m c).snapshot with rate1 := (afterCall m c).a1.rateOf } } ∧ r5 = (afterCall m c).a5.rateOf ∧ r15 = (afterCall m c).a15.rateOf ∧
      rm = StandardMeter.meanRate (afterCall m c).snapshot.count (afterCall m c).startTime now
  | .st15 c r15 rm => (MCall.writes c = true ∧ Unlocked s) ∧ ∃ now, T now ∧
      meterOf k s = { afterCall m c with snapshot := { (afterCall m c).snapshot with rate1 := (afterCall m c).a1.rateOf, rate5 := (afterCall m c).a5.rateOf } } ∧ r15 = (afterCall m c).a15.rateOf ∧
      rm = StandardMeter.meanRate (afterCall m c).snapshot.count (afterCall m c).startTime now
  | .stMean c rm => (MCall.writes c = true ∧ Unlocked s) ∧ ∃ now, T now ∧
      meterOf k s = { afterCall m c with snapshot := { (afterCall m c).snapshot with
        rate1 := (afterCall m c).a1.rateOf, rate5 := (afterCall m c).a5.rateOf, rate15 := (afterCall m c).a15.rateOf } } ∧
      rm = StandardMeter.meanRate (afterCall m c).snapshot.count (afterCall m c).startTime now
  | _ => False

/-- The goroutine is not inside a `Mark` or a tick, or is about to return from it. -/
def MPc.quiet : MPc F → Prop
  | .idle | .stop0 | .count0 | .sn0 | .sn1 _ | .sn5 _ _ | .sn15 _ _ _ | .snMean _ _ _ _ | .ret _ _ => True
  | _ => False

/-- The calls whose effect has been noted though they are not finished. -/
def MPc.noted : MPc F → List MCall
  | .markA n _ => [.mark n]
  | .us1 c | .us5 c _ | .us15 c _ _ | .usMean c _ _ _ | .st1 c _ _ _ _ | .st5 c _ _ _ | .st15 c _ _ | .stMean c _ => [c]
  | _ => []

theorem Mid.mono {k : MConst F} {T T' : Instant → Prop} (hT : ∀ now, T now → T' now) {s : MShared F} {m : StandardMeter F} {l : MPc F} (h : Mid k T s m l) : Mid k T' s m l := by
  cases l with
  | markA n a => cases a <;> exact h
  | tickA a p => cases a <;> exact h
  | st1 c r1 r5 r15 rm => obtain ⟨h0, now, h1, h2⟩ := h; exact ⟨h0, now, hT _ h1, h2⟩
  | st5 c r5 r15 rm => obtain ⟨h0, now, h1, h2⟩ := h; exact ⟨h0, now, hT _ h1, h2⟩
  | st15 c r15 rm => obtain ⟨h0, now, h1, h2⟩ := h; exact ⟨h0, now, hT _ h1, h2⟩
  | stMean c rm => obtain ⟨h0, now, h1, h2⟩ := h; exact ⟨h0, now, hT _ h1, h2⟩
  | _ => exact h

theorem writesOf_append (a b : List (MEv F)) : writesOf (a ++ b) = writesOf a ++ writesOf b := by
  unfold writesOf
  rw [callsOf_append, List.filterMap_append]

theorem writesOf_tick (t : Nat) (a : Avg) (p p' : TPc F) : writesOf (tookEv a p ++ tickLin t a p' : List (MEv F)) = (afterTick a p').noted := by
  have e0 : writesOf (tookEv a p : List (MEv F)) = [] := by cases p <;> rfl
  rw [writesOf_append, e0, List.nil_append]
  cases p' <;> cases a <;> rfl

/-- A step of a goroutine inside a `Mark` or a tick. -/
theorem Mid.step {k : MConst F} {T : Instant → Prop} {t i} {s s' : MShared F} {m : StandardMeter F} {l l' : MPc F} {es} (hst : (meterMachine k).step t i s l = some (s', l', es)) (h : Mid k T s m l) :
    (Mid k (fun now => T now ∨ now = i.now) s' m l' ∧ l.noted ++ writesOf es = l'.noted) ∨
    (l'.quiet ∧ Unlocked s' ∧ ((meterOf k s' = m ∧ l.noted ++ writesOf es = []) ∨ ∃ c now, T now ∧ MCall.writes c = true ∧ l.noted ++ writesOf es = [c] ∧ meterOf k s' = (afterCall m c).updateSnapshot now)) := by
  cases l with
  | mark0 n =>
    simp only [meterMachine] at hst
    split at hst <;> simp at hst <;> obtain ⟨rfl, rfl, rfl⟩ := hst
    · exact .inr ⟨trivial, h.2, .inl ⟨h.1, rfl⟩⟩
    · exact .inl ⟨h, rfl⟩
  | mark1 n =>
    simp [meterMachine] at hst; obtain ⟨rfl, rfl, rfl⟩ := hst
    obtain ⟨rfl, h2⟩ := h
    exact .inl ⟨⟨rfl, h2⟩, rfl⟩
  | markA n a =>
    simp [meterMachine] at hst; obtain ⟨rfl, rfl, rfl⟩ := hst
    cases a
    · refine .inl ⟨⟨?_, h.2⟩, rfl⟩
      have e : meterOf k (s.setAvg { s.avg .m1 with uncounted := (s.avg .m1).uncounted + n } .m1) = { meterOf k s with a1 := (meterOf k s).a1.update n } := rfl
      rw [e, h.1]
    · refine .inl ⟨⟨?_, h.2⟩, rfl⟩
      have e : meterOf k (s.setAvg { s.avg .m5 with uncounted := (s.avg .m5).uncounted + n } .m5) = { meterOf k s with a5 := (meterOf k s).a5.update n } := rfl
      rw [e, h.1]
    · refine .inl ⟨⟨⟨rfl, h.2⟩, ?_⟩, rfl⟩
      have e : meterOf k (s.setAvg { s.avg .m15 with uncounted := (s.avg .m15).uncounted + n } .m15) = { meterOf k s with a15 := (meterOf k s).a15.update n } := rfl
      rw [e, h.1]
      rfl
  | tickA a p =>
    obtain ⟨e, p', hp, rfl, rfl, rfl⟩ := meter_tick_step hst
    left
    rw [writesOf_tick]
    refine ⟨?_, rfl⟩
    cases a
    · obtain ⟨h1, h2, h3, h4⟩ := h
      have h5 := h2.step hp
      have e0 : meterOf k (s.setAvg e .m1) = { meterOf k s with a1 := meterAvgOf k.alpha1 e } := rfl
      have e1 : meterAvgOf k.alpha5 s.e5 = m.a5 := congrArg StandardMeter.a5 h1
      by_cases hd : ∃ c, p' = .done c
      · obtain ⟨c, rfl⟩ := hd
        refine ⟨?_, ⟨e1, h3⟩, h5.2, h4⟩
        rw [e0, h1, h5.1]
        show _ = ({ m with a1 := m.a1.tick, a5 := meterAvgOf k.alpha5 s.e5 } : StandardMeter F)
        rw [e1]
      · have e2 : afterTick .m1 p' = .tickA .m1 p' := by cases p' <;> first | rfl | exact absurd ⟨_, rfl⟩ hd
        rw [e2]
        exact ⟨by rw [e0, h1]; rfl, h5, h3, h4⟩
    · obtain ⟨h1, h2, h3, h4⟩ := h
      have h5 := h2.step hp
      have e0 : meterOf k (s.setAvg e .m5) = { meterOf k s with a5 := meterAvgOf k.alpha5 e } := rfl
      have e1 : meterAvgOf k.alpha15 s.e15 = m.a15 := congrArg StandardMeter.a15 h1
      by_cases hd : ∃ c, p' = .done c
      · obtain ⟨c, rfl⟩ := hd
        refine ⟨?_, ⟨e1, h4⟩, h3, h5.2⟩
        rw [e0, h1, h5.1]
        show _ = ({ m with a1 := m.a1.tick, a5 := m.a5.tick, a15 := meterAvgOf k.alpha15 s.e15 } : StandardMeter F)
        rw [e1]
      · have e2 : afterTick .m5 p' = .tickA .m5 p' := by cases p' <;> first | rfl | exact absurd ⟨_, rfl⟩ hd
        rw [e2]
        exact ⟨by rw [e0, h1]; rfl, h5, h3, h4⟩
    · obtain ⟨h1, h2, h3, h4⟩ := h
      have h5 := h2.step hp
      have e0 : meterOf k (s.setAvg e .m15) = { meterOf k s with a15 := meterAvgOf k.alpha15 e } := rfl
      by_cases hd : ∃ c, p' = .done c
      · obtain ⟨c, rfl⟩ := hd
        refine ⟨⟨rfl, h3, h4, h5.2⟩, ?_⟩
        rw [e0, h1, h5.1]
        rfl
      · have e2 : afterTick .m15 p' = .tickA .m15 p' := by cases p' <;> first | rfl | exact absurd ⟨_, rfl⟩ hd
        rw [e2]
        exact ⟨by rw [e0, h1]; rfl, h5, h3, h4⟩
  | us1 c =>
    simp [meterMachine] at hst; obtain ⟨rfl, rfl, rfl⟩ := hst
    exact .inl ⟨⟨h.1, h.2, by rw [← h.2]; rfl⟩, rfl⟩
  | us5 c r1 =>
    simp [meterMachine] at hst; obtain ⟨rfl, rfl, rfl⟩ := hst
    exact .inl ⟨⟨h.1, h.2.1, h.2.2, by rw [← h.2.1]; rfl⟩, rfl⟩
  | us15 c r1 r5 =>
    simp [meterMachine] at hst; obtain ⟨rfl, rfl, rfl⟩ := hst
    exact .inl ⟨⟨h.1, h.2.1, h.2.2.1, h.2.2.2, by rw [← h.2.1]; rfl⟩, rfl⟩
  | usMean c r1 r5 r15 =>
    simp [meterMachine] at hst; obtain ⟨rfl, rfl, rfl⟩ := hst
    exact .inl ⟨⟨h.1, i.now, .inr rfl, h.2.1, h.2.2.1, h.2.2.2.1, h.2.2.2.2, by rw [← h.2.1]; rfl⟩, rfl⟩
  | st1 c r1 r5 r15 rm =>
    simp [meterMachine] at hst; obtain ⟨rfl, rfl, rfl⟩ := hst
    obtain ⟨h0, now, h1, h2, rfl, h4⟩ := h
    exact .inl ⟨⟨h0, now, .inl h1, by rw [← h2]; rfl, h4⟩, rfl⟩
  | st5 c r5 r15 rm =>
    simp [meterMachine] at hst; obtain ⟨rfl, rfl, rfl⟩ := hst
    obtain ⟨h0, now, h1, h2, rfl, h4⟩ := h
    refine .inl ⟨⟨h0, now, .inl h1, ?_, h4⟩, rfl⟩
    have e : meterOf k { s with rate5 := (afterCall m c).a5.rateOf } = { meterOf k s with snapshot := { (meterOf k s).snapshot with rate5 := (afterCall m c).a5.rateOf } } := rfl
    rw [e, h2]
  | st15 c r15 rm =>
    simp [meterMachine] at hst; obtain ⟨rfl, rfl, rfl⟩ := hst
    obtain ⟨h0, now, h1, h2, rfl, h4⟩ := h
    refine .inl ⟨⟨h0, now, .inl h1, ?_, h4⟩, rfl⟩
    have e : meterOf k { s with rate15 := (afterCall m c).a15.rateOf } = { meterOf k s with snapshot := { (meterOf k s).snapshot with rate15 := (afterCall m c).a15.rateOf } } := rfl
    rw [e, h2]
  | stMean c rm =>
    simp [meterMachine] at hst; obtain ⟨rfl, rfl, rfl⟩ := hst
    obtain ⟨h0, now, h1, h2, rfl⟩ := h
    refine .inr ⟨trivial, h0.2, .inr ⟨c, now, h1, h0.1, rfl, ?_⟩⟩
    have e : meterOf k { s with rateMean := StandardMeter.meanRate (afterCall m c).snapshot.count (afterCall m c).startTime now } = { meterOf k s with snapshot := { (meterOf k s).snapshot with rateMean := StandardMeter.meanRate (afterCall m c).snapshot.count (afterCall m c).startTime now } } := rfl
    rw [e, h2]
    rfl
  | _ => exact h.elim

/-- Executions in which at most one `Mark` or tick runs at a time. -/
def SingleWriter (k : MConst F) (m0 : StandardMeter F) (sched : List (Nat × MIn)) (s : MShared F) (ls : Nat → MPc F) (tr : List (MEv F)) : Prop :=
  ∃ ops : List MeterOp, (ops.filterMap timeOf).Sublist (sched.map fun x => x.2.now) ∧ (meterAfter m0 ops).stopped = false ∧
    (((∀ t, (ls t).quiet) ∧ ops.map callOf = writesOf tr ∧ meterOf k s = meterAfter m0 ops ∧ Unlocked s) ∨
      ∃ t, (∀ u, u ≠ t → (ls u).quiet) ∧ ops.map callOf ++ (ls t).noted = writesOf tr ∧
        Mid k (fun now => (ops.filterMap timeOf ++ [now]).Sublist (sched.map fun x => x.2.now)) s (meterAfter m0 ops) (ls t))

theorem Mid.call {k : MConst F} {T : Instant → Prop} {s : MShared F} {m : StandardMeter F} {l : MPc F} (h : Mid k T s m l) : ∃ c, l.call = some c ∧ MCall.writes c = true := by
  cases l with
  | mark0 n => exact ⟨_, rfl, rfl⟩
  | mark1 n => exact ⟨_, rfl, rfl⟩
  | markA n a => exact ⟨_, rfl, rfl⟩
  | tickA a p => exact ⟨_, rfl, rfl⟩
  | us1 c => exact ⟨_, rfl, h.1.1⟩
  | us5 c _ => exact ⟨_, rfl, h.1.1⟩
  | us15 c _ _ => exact ⟨_, rfl, h.1.1⟩
  | usMean c _ _ _ => exact ⟨_, rfl, h.1.1⟩
  | st1 c _ _ _ _ => exact ⟨_, rfl, h.1.1⟩
  | st5 c _ _ _ => exact ⟨_, rfl, h.1.1⟩
  | st15 c _ _ => exact ⟨_, rfl, h.1.1⟩
  | stMean c _ => exact ⟨_, rfl, h.1.1⟩
  | _ => exact h.elim

/-- A step of a goroutine that is not inside a `Mark` or a tick and does not enter one. -/
theorem quiet_step {k : MConst F} {t i} {s s' : MShared F} {l l' : MPc F} {es} (hst : (meterMachine k).step t i s l = some (s', l', es)) (h : l.quiet) :
    (l'.quiet ∧ meterOf k s' = meterOf k s ∧ (Unlocked s → Unlocked s') ∧ writesOf es = [] ∧ ∀ T m l0, Mid k T s m l0 → Mid k T s' m l0) ∨
      (s' = s ∧ l = .idle ∧ writesOf es = [] ∧ ((∃ n, l' = .mark0 n) ∨ l' = .tickA .m1 .start)) := by
  cases l with
  | idle =>
    simp [meterMachine] at hst; obtain ⟨rfl, rfl, rfl⟩ := hst
    cases hc : i.call with
    | mark n => exact .inr ⟨rfl, rfl, rfl, .inl ⟨n, rfl⟩⟩
    | tick => exact .inr ⟨rfl, rfl, rfl, .inr rfl⟩
    | _ => exact .inl ⟨trivial, rfl, id, rfl, fun _ _ _ h => h⟩
  | stop0 =>
    simp [meterMachine] at hst; obtain ⟨rfl, rfl, rfl⟩ := hst
    refine .inl ⟨trivial, rfl, id, rfl, fun T m l0 h => ?_⟩
    cases l0 with
    | markA n a => cases a <;> exact h
    | tickA a p => cases a <;> exact h
    | _ => exact h
  | ret c r => simp [meterMachine] at hst; obtain ⟨rfl, rfl, rfl⟩ := hst; exact .inl ⟨trivial, rfl, id, rfl, fun _ _ _ h => h⟩
  | count0 => simp [meterMachine] at hst; obtain ⟨rfl, rfl, rfl⟩ := hst; exact .inl ⟨trivial, rfl, id, rfl, fun _ _ _ h => h⟩
  | sn0 => simp [meterMachine] at hst; obtain ⟨rfl, rfl, rfl⟩ := hst; exact .inl ⟨trivial, rfl, id, rfl, fun _ _ _ h => h⟩
  | sn1 _ => simp [meterMachine] at hst; obtain ⟨rfl, rfl, rfl⟩ := hst; exact .inl ⟨trivial, rfl, id, rfl, fun _ _ _ h => h⟩
  | sn5 _ _ => simp [meterMachine] at hst; obtain ⟨rfl, rfl, rfl⟩ := hst; exact .inl ⟨trivial, rfl, id, rfl, fun _ _ _ h => h⟩
  | sn15 _ _ _ => simp [meterMachine] at hst; obtain ⟨rfl, rfl, rfl⟩ := hst; exact .inl ⟨trivial, rfl, id, rfl, fun _ _ _ h => h⟩
  | snMean _ _ _ _ => simp [meterMachine] at hst; obtain ⟨rfl, rfl, rfl⟩ := hst; exact .inl ⟨trivial, rfl, id, rfl, fun _ _ _ h => h⟩
  | _ => exact h.elim

theorem meterAfter_snoc (m : StandardMeter F) (ops : List MeterOp) (o : MeterOp) : meterAfter m (ops ++ [o]) = (meterAfter m ops).apply o := by simp [meterAfter]

theorem meter_alone {k : MConst F} {m0 : StandardMeter F} (hm0 : meterOf k .zero = m0) {sched : List (Nat × MIn)} {s ls tr} (h : meterRun k sched = some (s, ls, tr)) (ho : OneWriter tr) :
    SingleWriter k m0 sched s ls tr := by
  induction sched using List.reverseRecOn generalizing s ls tr with
  | nil =>
    simp [meterRun, Machine.run] at h
    obtain ⟨rfl, rfl, rfl⟩ := h
    exact ⟨[], by simp, by rw [← hm0]; rfl, .inl ⟨fun _ => trivial, rfl, hm0, rfl, rfl, rfl⟩⟩
  | append_singleton sched x ih =>
    obtain ⟨t, i⟩ := x
    have hrun := h
    obtain ⟨s1, ls1, tr1, tr2, hr1, hr2, rfl⟩ := (meterMachine k).run_split h
    obtain ⟨s2, l2, es, tr3, hst, hr3, rfl⟩ := (meterMachine k).run_cons hr2
    simp [Machine.run] at hr3
    obtain ⟨rfl, rfl, rfl⟩ := hr3
    rw [List.append_nil] at ho hrun ⊢
    obtain ⟨ops, h1, h2, h3⟩ := ih hr1 fun a ha => ho a (ha.trans (List.prefix_append ..))
    have hsub : (ops.filterMap timeOf).Sublist ((sched ++ [(t, i)]).map fun x => x.2.now) := by
      rw [List.map_append]; exact h1.trans (List.sublist_append_left ..)
    have hT : ∀ now, ((ops.filterMap timeOf ++ [now]).Sublist (sched.map fun x => x.2.now) ∨ now = i.now) → (ops.filterMap timeOf ++ [now]).Sublist ((sched ++ [(t, i)]).map fun x => x.2.now) := by
      rintro now (h | rfl)
      · rw [List.map_append]; exact h.trans (List.sublist_append_left ..)
      · rw [List.map_append]; exact h1.append (List.Sublist.refl _)
    rcases h3 with ⟨q1, q2, q3, q4⟩ | ⟨t', q1, q2, q3⟩
    · rcases quiet_step hst (q1 t) with ⟨e1, e2, e3, e4, -⟩ | ⟨rfl, -, e4, e5⟩
      · refine ⟨ops, hsub, h2, .inl ⟨fun u => ?_, by rw [writesOf_append, e4, List.append_nil]; exact q2, e2.trans q3, e3 q4⟩⟩
        by_cases hu : u = t
        · subst hu; rw [Function.update_self]; exact e1
        · rw [Function.update_of_ne hu]; exact q1 u
      · refine ⟨ops, hsub, h2, .inr ⟨t, fun u hu => by rw [Function.update_of_ne hu]; exact q1 u, ?_, ?_⟩⟩
        · rw [Function.update_self, writesOf_append, e4]
          rcases e5 with ⟨n, rfl⟩ | rfl <;> simpa [MPc.noted] using q2
        · rw [Function.update_self]
          rcases e5 with ⟨n, rfl⟩ | rfl
          · exact ⟨q3, q4⟩
          · refine ⟨?_, ⟨congrArg StandardMeter.a1 q3, q4.1⟩, q4.2⟩
            rw [← q3]
            rfl
    · by_cases htt : t = t'
      · subst htt
        rcases Mid.step hst q3 with ⟨e1, e2⟩ | ⟨e1, e2, e3⟩
        · refine ⟨ops, hsub, h2, .inr ⟨t, fun u hu => by rw [Function.update_of_ne hu]; exact q1 u hu, ?_, ?_⟩⟩
          · rw [Function.update_self, writesOf_append, ← q2, ← e2, List.append_assoc]
          · rw [Function.update_self]; exact e1.mono hT
        · have hq : ∀ u, (Function.update ls1 t l2 u).quiet := fun u => by
            by_cases hu : u = t
            · subst hu; rw [Function.update_self]; exact e1
            · rw [Function.update_of_ne hu]; exact q1 u hu
          rcases e3 with ⟨e4, e5⟩ | ⟨c, now, e4, e5, e6, e7⟩
          · refine ⟨ops, hsub, h2, .inl ⟨hq, ?_, e4, e2⟩⟩
            rw [writesOf_append, ← q2, List.append_assoc, e5, List.append_nil]
          · have hw : writesOf (tr1 ++ es) = ops.map callOf ++ [c] := by rw [writesOf_append, ← q2, List.append_assoc, e6]
            cases c with
            | mark n =>
              have e8 : meterAfter m0 (ops ++ [.mark n now]) = (afterCall (meterAfter m0 ops) (.mark n)).updateSnapshot now := by
                rw [meterAfter_snoc, apply_mark, StandardMeter.mark, if_neg (by rw [h2]; simp)]
                rfl
              refine ⟨ops ++ [.mark n now], by rw [List.filterMap_append]; exact hT now (.inl e4), by rw [e8]; exact h2, .inl ⟨hq, by rw [hw]; simp [callOf], by rw [e8]; exact e7, e2⟩⟩
            | tick =>
              have e8 : meterAfter m0 (ops ++ [.tick now]) = (afterCall (meterAfter m0 ops) .tick).updateSnapshot now := by
                rw [meterAfter_snoc, apply_tick]
                rfl
              refine ⟨ops ++ [.tick now], by rw [List.filterMap_append]; exact hT now (.inl e4), by rw [e8]; exact h2, .inl ⟨hq, by rw [hw]; simp [callOf], by rw [e8]; exact e7, e2⟩⟩
            | _ => cases e5
      · rcases quiet_step hst (q1 t htt) with ⟨e1, -, -, e4, e5⟩ | ⟨rfl, -, e4, e5⟩
        · refine ⟨ops, hsub, h2, .inr ⟨t', fun u hu => ?_, ?_, ?_⟩⟩
          · by_cases hut : u = t
            · subst hut; rw [Function.update_self]; exact e1
            · rw [Function.update_of_ne hut]; exact q1 u hu
          · rw [Function.update_of_ne (Ne.symm htt), writesOf_append, e4, List.append_nil]; exact q2
          · rw [Function.update_of_ne (Ne.symm htt)]
            exact (e5 _ _ _ q3).mono fun now h => hT now (.inl h)
        · exfalso
          obtain ⟨c, hc, hw⟩ := q3.call
          refine htt (ho (tr1 ++ es) (List.prefix_refl _) t t' (if l2.call = some .tick then .tick else (l2.call.getD .tick)) c ?_ ?_ ?_ hw)
          · rw [running_call hrun, Function.update_self]
            rcases e5 with ⟨n, rfl⟩ | rfl <;> simp [MPc.call]
          · rw [running_call hrun, Function.update_of_ne (Ne.symm htt)]; exact hc
          · rcases e5 with ⟨n, rfl⟩ | rfl <;> simp [MPc.call, MCall.writes]

end alone

/-! ### One ticking goroutine -/

section ticks
variable {F : Type} [GoFloat F]

/-- A step inside `Tick` of an average with one ticker. -/
theorem TickInv.step {alpha : F} {s s' : EShared F} {cs : List Int64} {n : Nat} {p p' : TPc F} (h2 : TickInv alpha s cs n (.tick p)) (hp : tickStep alpha s p = some (s', p')) :
    TickInv alpha s' (cs ++ p.tookNow) n (tickLocal p') := by
  cases p <;> simp [tickStep] at hp <;> (try obtain ⟨rfl, rfl⟩ := hp) <;> simp only [TPc.tookNow, List.append_nil]
  · obtain ⟨a1, a2, a3⟩ := h2
    rw [a2]
    by_cases hc : cs = []
    · simp [hc, tickLocal, TickInv, a1, a2, ← a3] at *; exact a3
    · simp [hc, tickLocal, TickInv, a1, a2, a3]
  · obtain ⟨_, rfl, rfl⟩ := hp
    simpa [tickLocal, TickInv] using h2
  · obtain ⟨a1, a2, a3⟩ := h2
    rw [a2]
    by_cases hc : cs = []
    · simp [hc, tickLocal, TickInv, a1] at *; exact a3
    · simp [hc, tickLocal, TickInv, a1, a2, a3]
  · obtain ⟨a1, a2, a3⟩ := h2
    simp [tickLocal, TickInv, a1, a2, a3]
  · obtain ⟨a1, a2, a3, a4⟩ := h2
    simp [tickLocal, TickInv, a1, a2, a3, a4]
  · rename_i m c
    obtain ⟨a1, a2, a3, a4⟩ := h2
    cases m
    · exact ⟨cs, rfl, by simp [a3], a1, a2, a4⟩
    · exact ⟨cs, rfl, by simp [a3], a1, a2, a4⟩
    · have : cs = [] := a3.2 rfl
      subst this
      exact ⟨[], rfl, a1, rfl, a2, a4⟩
  · rename_i m c
    obtain ⟨cs', rfl, b1, b2, b3, b4⟩ := h2
    simp only [tickLocal, TickInv]
    refine ⟨cs', rfl, b2, ?_, b3, b4⟩
    rw [foldRate_snoc _ _ b1, b2]
  · rename_i m c r
    obtain ⟨cs', rfl, b1, b2, b3, b4⟩ := h2
    cases m <;> simp [tickLocal, TickInv, b1, b2, b3, b4]
  · obtain ⟨a1, a2, a3⟩ := h2
    simp [tickLocal, TickInv, a1, a2, a3]

/-- A goroutine seen from one of the averages. -/
def MPc.view (a : Avg) : MPc F → EPc F
  | .tickA b p => if b = a then .tick p else if b.idx < a.idx then .idle else .ret .tick .unit
  | .us1 .tick | .us5 .tick _ | .us15 .tick _ _ | .usMean .tick _ _ _ | .st1 .tick _ _ _ _ | .st5 .tick _ _ _ | .st15 .tick _ _ | .stMean .tick _ => .ret .tick .unit
  | .ret .tick _ => .ret .tick .unit
  | _ => .idle

theorem tookFrom_append (a : Avg) (x y : List (MEv F)) : tookFrom a (x ++ y) = tookFrom a x ++ tookFrom a y := List.filterMap_append
theorem ticksDone_append (x y : List (MEv F)) : ticksDone (x ++ y) = ticksDone x + ticksDone y := by
  unfold ticksDone
  rw [callsOf_append, List.countP_append]

theorem tookFrom_tick (a b : Avg) (t : Nat) (p p' : TPc F) : tookFrom a (tookEv b p ++ tickLin t b p' : List (MEv F)) = if b = a then p.tookNow else [] := by
  have e0 : tookFrom a (tickLin t b p' : List (MEv F)) = [] := by cases p' <;> cases b <;> rfl
  rw [tookFrom_append, e0, List.append_nil]
  cases p <;> simp [tookEv, tookFrom, TPc.tookNow]
  by_cases h : b = a <;> simp [h]

theorem ticksDone_tick (b : Avg) (t : Nat) (p p' : TPc F) : ticksDone (tookEv b p ++ tickLin t b p' : List (MEv F)) = 0 := by
  have e0 : callsOf (tookEv b p : List (MEv F)) = [] := by cases p <;> rfl
  unfold ticksDone
  rw [callsOf_append, e0, List.nil_append]
  cases p' <;> cases b <;> rfl

/-- A step that is not inside `Tick` of an average. -/
theorem view_step (a : Avg) {k : MConst F} {t i} {s s' : MShared F} {l l' : MPc F} {es} (hst : (meterMachine k).step t i s l = some (s', l', es)) (hn : ∀ b p, l ≠ .tickA b p) :
    (s'.avg a).rate = (s.avg a).rate ∧ (s'.avg a).init = (s.avg a).init ∧ tookFrom a es = [] ∧
      ((l'.call ≠ some .tick ∧ l.call ≠ some .tick ∧ ticksDone es = 0) ∨ (l = .idle ∧ l' = .tickA .m1 .start ∧ MEv.call (.inv t .tick) ∈ es ∧ ticksDone es = 0) ∨
        (l.view a = .ret .tick .unit ∧ l'.view a = .ret .tick .unit ∧ ticksDone es = 0 ∧ l.call = some .tick) ∨ (l.view a = .ret .tick .unit ∧ l' = .idle ∧ ticksDone es = 1 ∧ l.call = some .tick)) := by
  cases l with
  | tickA b p => exact absurd rfl (hn b p)
  | idle =>
    simp [meterMachine] at hst; obtain ⟨rfl, rfl, rfl⟩ := hst
    refine ⟨rfl, rfl, rfl, ?_⟩
    cases hc : i.call
    case tick => exact .inr (.inl ⟨rfl, rfl, by simp, by simp [ticksDone, callsOf, MEv.call?]⟩)
    all_goals exact .inl ⟨by simp [MPc.begin, MPc.call], by simp [MPc.call], by simp [ticksDone, callsOf, MEv.call?]⟩
  | mark0 n =>
    simp only [meterMachine] at hst
    split at hst <;> simp at hst <;> obtain ⟨rfl, rfl, rfl⟩ := hst <;> exact ⟨rfl, rfl, rfl, .inl ⟨by simp [MPc.call], by simp [MPc.call], rfl⟩⟩
  | markA n b =>
    simp [meterMachine] at hst; obtain ⟨rfl, rfl, rfl⟩ := hst
    refine ⟨?_, ?_, rfl, .inl ⟨?_, by simp [MPc.call], rfl⟩⟩
    · cases a <;> cases b <;> rfl
    · cases a <;> cases b <;> rfl
    · cases b <;> simp [MPc.call, Avg.next]
  | ret c r =>
    simp [meterMachine] at hst; obtain ⟨rfl, rfl, rfl⟩ := hst
    refine ⟨rfl, rfl, rfl, ?_⟩
    cases c
    case tick => exact .inr (.inr (.inr ⟨rfl, rfl, rfl, rfl⟩))
    all_goals exact .inl ⟨by simp [MPc.call], by simp [MPc.call], rfl⟩
  | us1 c =>
    simp [meterMachine] at hst; obtain ⟨rfl, rfl, rfl⟩ := hst
    refine ⟨rfl, rfl, rfl, ?_⟩
    cases c
    case tick => exact .inr (.inr (.inl ⟨rfl, rfl, rfl, rfl⟩))
    all_goals exact .inl ⟨by simp [MPc.call], by simp [MPc.call], rfl⟩
  | us5 c _ =>
    simp [meterMachine] at hst; obtain ⟨rfl, rfl, rfl⟩ := hst
    refine ⟨rfl, rfl, rfl, ?_⟩
    cases c
    case tick => exact .inr (.inr (.inl ⟨rfl, rfl, rfl, rfl⟩))
    all_goals exact .inl ⟨by simp [MPc.call], by simp [MPc.call], rfl⟩
  | us15 c _ _ =>
    simp [meterMachine] at hst; obtain ⟨rfl, rfl, rfl⟩ := hst
    refine ⟨rfl, rfl, rfl, ?_⟩
    cases c
    case tick => exact .inr (.inr (.inl ⟨rfl, rfl, rfl, rfl⟩))
    all_goals exact .inl ⟨by simp [MPc.call], by simp [MPc.call], rfl⟩
  | usMean c _ _ _ =>
    simp [meterMachine] at hst; obtain ⟨rfl, rfl, rfl⟩ := hst
    refine ⟨rfl, rfl, rfl, ?_⟩
    cases c
    case tick => exact .inr (.inr (.inl ⟨rfl, rfl, rfl, rfl⟩))
    all_goals exact .inl ⟨by simp [MPc.call], by simp [MPc.call], rfl⟩
  | st1 c _ _ _ _ =>
    simp [meterMachine] at hst; obtain ⟨rfl, rfl, rfl⟩ := hst
    refine ⟨by cases a <;> rfl, by cases a <;> rfl, rfl, ?_⟩
    cases c
    case tick => exact .inr (.inr (.inl ⟨rfl, rfl, rfl, rfl⟩))
    all_goals exact .inl ⟨by simp [MPc.call], by simp [MPc.call], rfl⟩
  | st5 c _ _ _ =>
    simp [meterMachine] at hst; obtain ⟨rfl, rfl, rfl⟩ := hst
    refine ⟨by cases a <;> rfl, by cases a <;> rfl, rfl, ?_⟩
    cases c
    case tick => exact .inr (.inr (.inl ⟨rfl, rfl, rfl, rfl⟩))
    all_goals exact .inl ⟨by simp [MPc.call], by simp [MPc.call], rfl⟩
  | st15 c _ _ =>
    simp [meterMachine] at hst; obtain ⟨rfl, rfl, rfl⟩ := hst
    refine ⟨by cases a <;> rfl, by cases a <;> rfl, rfl, ?_⟩
    cases c
    case tick => exact .inr (.inr (.inl ⟨rfl, rfl, rfl, rfl⟩))
    all_goals exact .inl ⟨by simp [MPc.call], by simp [MPc.call], rfl⟩
  | stMean c _ =>
    simp [meterMachine] at hst; obtain ⟨rfl, rfl, rfl⟩ := hst
    refine ⟨by cases a <;> rfl, by cases a <;> rfl, rfl, ?_⟩
    cases c
    case tick => exact .inr (.inr (.inl ⟨rfl, rfl, rfl, rfl⟩))
    all_goals exact .inl ⟨by simp [MPc.call], by simp [MPc.call], rfl⟩
  | _ =>
    simp [meterMachine] at hst; obtain ⟨rfl, rfl, rfl⟩ := hst
    exact ⟨by cases a <;> rfl, by cases a <;> rfl, rfl, .inl ⟨by simp [MPc.call], by simp [MPc.call], rfl⟩⟩

theorem view_idle (a : Avg) {l : MPc F} (h : l.call ≠ some .tick) : l.view a = .idle := by
  cases l with
  | tickA b p => simp [MPc.call] at h
  | us1 c => cases c <;> first | rfl | simp [MPc.call] at h
  | us5 c _ => cases c <;> first | rfl | simp [MPc.call] at h
  | us15 c _ _ => cases c <;> first | rfl | simp [MPc.call] at h
  | usMean c _ _ _ => cases c <;> first | rfl | simp [MPc.call] at h
  | st1 c _ _ _ _ => cases c <;> first | rfl | simp [MPc.call] at h
  | st5 c _ _ _ => cases c <;> first | rfl | simp [MPc.call] at h
  | st15 c _ _ => cases c <;> first | rfl | simp [MPc.call] at h
  | stMean c _ => cases c <;> first | rfl | simp [MPc.call] at h
  | ret c _ => cases c <;> first | rfl | simp [MPc.call] at h
  | _ => rfl

theorem meter_ticks (a : Avg) (T : Nat) {k : MConst F} {sched s ls tr} (h : meterRun k sched = some (s, ls, tr)) (ho : TickedBy T tr) :
    (∀ t, t ≠ T → (ls t).call ≠ some .tick) ∧ TickInv (k.alpha a) (s.avg a) (tookFrom a tr) (ticksDone tr) ((ls T).view a) := by
  refine (meterMachine k).induct (fun s ls tr => TickedBy T tr → (∀ t, t ≠ T → (ls t).call ≠ some .tick) ∧ TickInv (k.alpha a) (s.avg a) (tookFrom a tr) (ticksDone tr) ((ls T).view a))
    (fun _ => ⟨fun _ _ => by simp [MPc.call], by cases a <;> simp [TickInv, MShared.zero, MShared.avg, EShared.zero, foldRate, tookFrom, ticksDone, callsOf, MPc.view]⟩) ?_ sched s ls tr h ho
  intro s ls tr t i s' l' es hi hst ho
  obtain ⟨h1, h2⟩ := hi fun u hu => ho u (List.mem_append_left _ hu)
  rw [tookFrom_append, ticksDone_append]
  by_cases hl : ∃ b p, ls t = .tickA b p
  · obtain ⟨b, p, hl⟩ := hl
    have ht : t = T := by
      by_contra hne
      exact h1 t hne (by rw [hl]; rfl)
    subst ht
    refine ⟨fun u hu => by rw [Function.update_of_ne hu]; exact h1 u hu, ?_⟩
    rw [hl] at hst h2
    obtain ⟨e, p', hp, rfl, rfl, rfl⟩ := meter_tick_step hst
    rw [Function.update_self, tookFrom_tick, ticksDone_tick, Nat.add_zero]
    by_cases hb : b = a
    · subst hb
      simp only [MPc.view, if_true] at h2
      have h3 := h2.step hp
      rw [if_pos rfl, setAvg_avg, if_pos rfl]
      generalize tookFrom b tr ++ p.tookNow = cs at h3
      cases p' <;> cases b <;> simpa [afterTick, Avg.next, MPc.view, tickLocal, TickInv, Avg.idx] using h3
    · rw [if_neg hb, List.append_nil, setAvg_avg, if_neg (Ne.symm hb)]
      generalize s.avg a = sa at h2
      cases p' <;> cases a <;> cases b <;> first | (exact absurd rfl hb) | simpa [afterTick, Avg.next, MPc.view, TickInv, Avg.idx] using h2
  · obtain ⟨e1, e2, e3, e4⟩ := view_step a hst (fun b p h => hl ⟨b, p, h⟩)
    rw [e3, List.append_nil]
    have h3 := h2.congr e1 e2
    by_cases ht : t = T
    · subst ht
      refine ⟨fun u hu => by rw [Function.update_of_ne hu]; exact h1 u hu, ?_⟩
      rw [Function.update_self]
      rcases e4 with ⟨f1, f2, f3⟩ | ⟨f1, rfl, -, f3⟩ | ⟨f1, f2, f3, -⟩ | ⟨f1, rfl, f3, -⟩
      · rw [f3, Nat.add_zero, view_idle a f1]
        rw [view_idle a f2] at h3
        exact h3
      · rw [f3, Nat.add_zero]
        rw [f1] at h3
        generalize s'.avg a = sa at h3
        cases a <;> simpa [MPc.view, TickInv, Avg.idx] using h3
      · rw [f3, Nat.add_zero, f2]
        rw [f1] at h3
        exact h3
      · rw [f3]
        rw [f1] at h3
        obtain ⟨g1, g2, g3⟩ := h3
        refine ⟨g1, ?_, g3⟩
        have : tookFrom a tr ≠ [] := by intro h; rw [h] at g3; simp at g3
        simp [g2, this]
    · have hT : Function.update ls t l' T = ls T := Function.update_of_ne (Ne.symm ht) _ _
      have hd : ticksDone es = 0 ∧ l'.call ≠ some .tick := by
        rcases e4 with ⟨f1, f2, f3⟩ | ⟨f1, rfl, f2, f3⟩ | ⟨-, -, -, f4⟩ | ⟨-, -, -, f4⟩
        · exact ⟨f3, f1⟩
        · exact absurd (ho t (List.mem_append_right _ f2)) ht
        · exact absurd f4 (h1 t ht)
        · exact absurd f4 (h1 t ht)
      refine ⟨fun u hu => ?_, by rw [hT, hd.1, Nat.add_zero]; exact h3⟩
      by_cases hut : u = t
      · subst hut; rw [Function.update_self]; exact hd.2
      · rw [Function.update_of_ne hut]; exact h1 u hu

/-- Hence every average is that of some of the first ticks, including all that have returned. -/
theorem TickInv.some_prefix {alpha : F} {s : EShared F} {cs : List Int64} {n : Nat} {l : EPc F} (hi : TickInv alpha s cs n l) :
    ∃ cs', cs' <+: cs ∧ n ≤ cs'.length ∧ s.rate = foldRate alpha cs' := by
  have full : s.rate = foldRate alpha cs → n ≤ cs.length → ∃ cs', cs' <+: cs ∧ n ≤ cs'.length ∧ s.rate = foldRate alpha cs' := fun h1 h2 => ⟨cs, List.prefix_rfl, h2, h1⟩
  cases l with
  | tick p =>
    cases p with
    | start => exact full hi.1 hi.2.2.le
    | lock => exact full hi.1 hi.2.2.le
    | recheck => exact full hi.1 hi.2.2.le
    | setInit => exact full hi.2.1 hi.2.2.le
    | load m => exact full hi.1 hi.2.2.2.le
    | sub m c => exact full hi.1 hi.2.2.2.le
    | loadRate m c => obtain ⟨cs', rfl, -, h5, -, h6⟩ := hi; exact ⟨cs', List.prefix_append _ _, h6.le, h5⟩
    | storeRate m c r => obtain ⟨cs', rfl, h5, -, -, h6⟩ := hi; exact ⟨cs', List.prefix_append _ _, h6.le, h5⟩
    | unlock c => obtain ⟨e1, e2, e3⟩ := hi; exact full e1 (by omega)
    | done c => obtain ⟨e1, e2, e3⟩ := hi; exact full e1 (by omega)
  | ret c r =>
    cases c with
    | tick => obtain ⟨e1, e2, e3⟩ := hi; exact full e1 (by omega)
    | _ => exact full hi.1 hi.2.2.le
  | _ => exact full hi.1 hi.2.2.le

end ticks

end GoMetrics
