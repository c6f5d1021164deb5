import Verif.Spec.WorldProgram
import Verif.Lemmas.Program
import Verif.Lemmas.AtomicConc
import Verif.Lemmas.SampleConc
import Verif.Lemmas.WorldSnap
import Verif.Spec.SampleConc

/-! The calls of a concurrent program, in the order of their effects, are a history of the one-at-a-time model. -/

namespace GoMetrics
open Spec

theorem LegalRun.map_state {σ σ' Op R : Type} {A : σ → Op → R → σ → Prop} {B : σ' → Op → R → σ' → Prop} (f : σ → σ') (h : ∀ s o r s', A s o r s' → B (f s) o r (f s')) {s l s'}
    (hr : LegalRun A s l s') : LegalRun B (f s) l (f s') := by
  induction hr with
  | nil => exact .nil
  | cons h1 _ ih => exact .cons (h _ _ _ _ h1) ih

theorem part_unit {Op R : Type} (h : List (HEv Op R)) : part (fun _ => ()) () h = h := by
  unfold part
  exact List.filter_eq_self.2 fun _ _ => by simp

/-- A history seen in terms of other calls and results. -/
theorem Linearizable.lift {σ σ' Op R Op' R' : Type} {A : σ → Op' → R' → σ → Prop} {B : σ' → Op → R → σ' → Prop} {ρ : Op → Op' → Prop} {g : Op → R' → R} (f : σ → σ')
    (hAB : ∀ s o o' r' s', ρ o o' → A s o' r' s' → B (f s) o (g o r') (f s')) {s0 : σ} {h : List (HEv Op R)} {h' : List (HEv Op' R')} (hone : OneCall (fun _ => none) h)
    (hs : List.Forall₂ (SameEv ρ g) h h') (hl : Linearizable A s0 h') : Linearizable B (f s0) h := by
  obtain ⟨tr, st, s', h1, h2, h3⟩ := linearizable_together (ι := Unit) (key := fun _ => ()) (ρ := fun _ => ρ) (g := fun _ => g) (S := fun _ => A) (s0 := fun _ => s0) hone
    (fun _ => ⟨h', by rw [part_unit]; exact hs, hl⟩)
  refine ⟨tr, st, f (s' ()), h1, h2, h3.map_state (fun s => f (s ())) ?_⟩
  rintro s o r s2 ⟨o', r', x, ho, rfl, hA, rfl⟩
  simpa using hAB _ _ _ _ _ ho hA

theorem oneCall_part {Op R ι : Type} [DecidableEq ι] (key : Op → ι) (k : ι) (h : List (HEv Op R)) : ∀ (b b' : Nat → Option Op), (∀ t, b' t = (b t).filter fun o => key o = k) →
    OneCall b h → OneCall b' (part key k h) := by
  induction h with
  | nil => intro _ _ _ _; exact trivial
  | cons e h ih =>
    intro b b' hb hone
    rw [part_cons]
    have upd : ∀ t (x : Option Op) u, Function.update b' t (x.filter fun o => key o = k) u = (Function.update b t x u).filter fun o => key o = k := by
      intro t x u
      by_cases hu : u = t
      · subst hu; simp
      · simp [hu, hb]
    cases e with
    | inv t o =>
      obtain ⟨h1, h2⟩ := hone
      change OneCall b' (if key o = k then _ else _)
      split
      · rename_i hk
        exact ⟨by rw [hb, h1]; rfl, ih _ _ (fun u => by rw [← upd]; simp [hk, Option.filter_some]) h2⟩
      · rename_i hk
        refine ih _ _ (fun u => ?_) h2
        rw [← upd]
        by_cases hu : u = t
        · subst hu; simp [hk, hb, h1, Option.filter_some]
        · simp [hu]
    | ret t o r =>
      obtain ⟨h1, h2⟩ := hone
      change OneCall b' (if key o = k then _ else _)
      split
      · rename_i hk
        exact ⟨by rw [hb, h1]; simp [hk, Option.filter_some], ih _ _ (fun u => by rw [← upd]; rfl) h2⟩
      · rename_i hk
        refine ih _ _ (fun u => ?_) h2
        rw [← upd]
        by_cases hu : u = t
        · subst hu; simp [hk, hb, h1, Option.filter_some]
        · simp [hu]

theorem oneCall_part_none {Op R ι : Type} [DecidableEq ι] (key : Op → ι) (k : ι) {h : List (HEv Op R)} (hone : OneCall (fun _ => none) h) : OneCall (fun _ => none) (part key k h) :=
  oneCall_part key k h _ _ (fun _ => rfl) hone

variable {F : Type} [GoFloat F] [GoSqrt F] [GoExp F]

/-- What a call with result `r` at the object `k` does to the world. -/
structure Effect (k : Ref) (x' : Obj F) (r : Seen F) (w : World F) (y : World F × Res (Out F)) : Prop where
  obj : y.1.objs k = some x'
  other : ∀ j, j ≠ k → j < w.nextObj → y.1.objs j = w.objs j
  next : w.nextObj ≤ y.1.nextObj
  shows : ShowsTo y.1 (y.2.map .out) r

/-- In every world where the fields of the call `o` are the object `k` in state `x`, the call can do this. -/
def DoesIn (k : Ref) (x : Obj F) (o : Ref × Call F) (r : Seen F) (x' : Obj F) : Prop :=
  ∀ w : World F, w.Ok → w.objs k = some x → (o.1 = k ∨ w.objs o.1 = some (.hist (.std k)) ∧ ofHist o.2 = true) → ∃ env, Effect k x' r w (call env o.1 o.2 w)

theorem step_call (env : Env F) (r : Ref) (c : Call F) (w : World F) : step env (.call r c) w = ((call env r c w).1, (call env r c w).2.map .out) := by
  have e : step env (.call r c) w = (do return OpOut.out (← call env r c) : Act F (OpOut F)) w := rfl
  rw [e, act_bind]
  rcases call env r c w with ⟨w', p | a⟩ <;> rfl

/-! ### Counters and gauges -/

theorem effect_read {k : Ref} {x : Obj F} {w : World F} (hx : w.objs k = some x) {a : Out F} {r : Seen F} (hr : ShowsTo w (.ok (.out a)) r) : Effect k x r w (w, .ok a) :=
  ⟨hx, fun _ _ _ => rfl, le_refl _, hr⟩

theorem effect_set {k : Ref} {x' : Obj F} {w : World F} : Effect k x' .unit w ({ w with objs := Function.update w.objs k (some x') }, .ok .unit) :=
  ⟨Function.update_self .., fun _ hj _ => Function.update_of_ne hj .., le_refl _, rfl⟩

theorem effect_alloc {k : Ref} {x : Obj F} {w : World F} (hk : k < w.nextObj) (hx : w.objs k = some x) {q : Obj F} {r : Seen F}
    (hr : ShowsTo ({ w with objs := Function.update w.objs w.nextObj (some q), nextObj := w.nextObj + 1 } : World F) (.ok (.out (.ref w.nextObj))) r) :
    Effect k x r w ({ w with objs := Function.update w.objs w.nextObj (some q), nextObj := w.nextObj + 1 }, .ok (.ref w.nextObj)) :=
  ⟨(Function.update_of_ne (Nat.ne_of_lt hk) ..).trans hx, fun _ _ hj => Function.update_of_ne (Nat.ne_of_lt hj) .., Nat.le_succ _, hr⟩

theorem direct {k : Ref} {x : Obj F} (hx : x.ty ≠ .sample) {o : Ref × Call F} {w : World F} (hw : w.Ok) (hk : w.objs k = some x)
    (ho : o.1 = k ∨ w.objs o.1 = some (.hist (.std k)) ∧ ofHist o.2 = true) : o.1 = k := by
  rcases ho with ho | ⟨ho, -⟩
  · exact ho
  · obtain ⟨x1, h1, h2⟩ := hw.refs _ _ ho
    rw [hk] at h1
    cases h1
    exact absurd h2 hx

theorem counter_does {k : Ref} {c c' : StandardCounter} {o : Ref × Call F} {m : CounterM} {r : AtomRes} (hm : asCounter o.2 m) (h : counterDo c m = (c', r)) :
    DoesIn k (.counter (.std c)) o (atomSeen (snapOf .counterSnap) o.2 r) (.counter (.std c')) := by
  intro w hw hk ho
  have ho := direct (by simp [Obj.ty]) hw hk ho
  obtain ⟨r0, cl⟩ := o
  cases ho
  have hlt := hw.lt hk
  refine ⟨envAt 0, ?_⟩
  rw [call_obj hk]
  cases cl <;> cases hm <;> cases h
  · exact effect_set
  · exact effect_read hk rfl
  · exact effect_set
  · exact effect_set
  · exact effect_alloc hlt hk (by simp [ShowsTo, atomSeen, snapOf, Counter.snapshot])

theorem gauge_does {k : Ref} {v v' : Int64} {o : Ref × Call F} {m : GaugeM Int64} {r : AtomRes} (hm : asGauge o.2 m) (h : gaugeDo v m = (v', r)) :
    DoesIn k (.gauge (.std v)) o (atomSeen (snapOf .gaugeSnap) o.2 r) (.gauge (.std v')) := by
  intro w hw hk ho
  have ho := direct (by simp [Obj.ty]) hw hk ho
  obtain ⟨r0, cl⟩ := o
  cases ho
  have hlt := hw.lt hk
  refine ⟨envAt 0, ?_⟩
  rw [call_obj hk]
  cases cl <;> cases hm <;> cases h
  · exact effect_read hk rfl
  · exact effect_set
  · exact effect_alloc hlt hk (by simp [ShowsTo, atomSeen, snapOf, Gauge.snapshot])

theorem gaugeF_does {k : Ref} {v v' : FloatBits} {o : Ref × Call F} {m : GaugeM FloatBits} {r : AtomRes} (hm : asGaugeF o.2 m) (h : gaugeFDo v m = (v', r)) :
    DoesIn k (.gaugeF (.std v)) o (atomSeen (snapOf .gaugeSnap) o.2 r) (.gaugeF (.std v')) := by
  intro w hw hk ho
  have ho := direct (by simp [Obj.ty]) hw hk ho
  obtain ⟨r0, cl⟩ := o
  cases ho
  have hlt := hw.lt hk
  refine ⟨envAt 0, ?_⟩
  rw [call_obj hk]
  cases cl <;> cases hm <;> cases h
  · exact effect_read hk rfl
  · exact effect_set
  · exact effect_alloc hlt hk (by simp [ShowsTo, atomSeen, snapOf, GaugeF.snapshot])

/-! ### Samples and histograms -/

/-- Through a histogram, a call has the same effect on the sample. -/
theorem sample_does {k : Ref} {s : SampleV F} {x' : Obj F} {o : Ref × Call F} {r : Seen F} (hne : o.2 ≠ .snapshot)
    (hc : ∃ m, asSample o.2 m) (h : ∀ w : World F, w.Ok → w.objs k = some (.sample s) → ∃ env, Effect k x' r w (sampleCall env k s o.2 w)) : DoesIn k (.sample s) o r x' := by
  intro w hw hk ho
  obtain ⟨env, he⟩ := h w hw hk
  refine ⟨env, ?_⟩
  rcases ho with ho | ⟨ho, hh⟩
  · rw [ho, call_obj hk]
    exact he
  · rw [call_obj ho]
    have e : callSample env k o.2 w = sampleCall env k s o.2 w := by
      rw [callSample, act_bind_getObj, hk]
    obtain ⟨r0, cl⟩ := o
    obtain ⟨m, hm⟩ := hc
    cases cl <;> first | (cases hm; done) | (cases hh; done) | exact absurd rfl hne | (change Effect k x' r w (callSample env k _ w); rw [e]; exact he)

/-- A snapshot of a sample, taken directly or through a histogram. -/
theorem snapshot_does {k : Ref} {s : SampleV F} {r0 : Ref} {n : Int64} {l : List Int64}
    (h : ∀ (env : Env F) (w : World F), sampleCall env k s .snapshot w = (do let a ← newArr l false; return .ref (← alloc (.sample (.snap n a))) : Act F (Out F)) w) :
    DoesIn k (.sample s) (r0, .snapshot) (.snap n l) (.sample s) := by
  intro w hw hk ho
  have hlt := hw.lt hk
  refine ⟨envAt 0, ?_⟩
  have e : sampleCall (envAt 0) k s .snapshot w = ({ w with objs := Function.update w.objs w.nextObj (some (.sample (.snap n w.nextArr))), nextObj := w.nextObj + 1, arrs := Function.update w.arrs w.nextArr l, shared := Function.update w.shared w.nextArr false, nextArr := w.nextArr + 1 }, .ok (.ref w.nextObj)) := h _ _
  rcases ho with ho | ⟨ho, hh⟩
  · rw [ho, call_obj hk]
    change Effect _ _ _ _ (sampleCall (envAt 0) k s .snapshot w)
    rw [e]
    refine ⟨(Function.update_of_ne (Nat.ne_of_lt hlt) ..).trans hk, fun _ _ hj => Function.update_of_ne (Nat.ne_of_lt hj) .., Nat.le_succ _, ?_⟩
    exact .inl ⟨w.nextArr, Function.update_self .., Function.update_self ..⟩
  · rw [call_obj ho]
    have e2 : callSample (envAt 0) k .snapshot w = ({ w with objs := Function.update w.objs w.nextObj (some (.sample (.snap n w.nextArr))), nextObj := w.nextObj + 1, arrs := Function.update w.arrs w.nextArr l, shared := Function.update w.shared w.nextArr false, nextArr := w.nextArr + 1 }, .ok (.ref w.nextObj)) := by
      rw [callSample, act_bind_getObj, hk]
      exact e
    change Effect _ _ _ _ (histCall (envAt 0) r0 (.std k) .snapshot w)
    simp only [histCall, act_bind, e2, act_getObj, Function.update_self, act_alloc, act_pure]
    refine ⟨?_, ?_, ?_, ?_⟩
    · exact (Function.update_of_ne (by omega) ..).trans ((Function.update_of_ne (Nat.ne_of_lt hlt) ..).trans hk)
    · intro j _ hj
      exact (Function.update_of_ne (by omega) ..).trans (Function.update_of_ne (Nat.ne_of_lt hj) ..)
    · exact Nat.le_succ_of_le (Nat.le_succ _)
    · refine .inr ⟨w.nextObj, Function.update_self .., w.nextArr, ?_, Function.update_self ..⟩
      exact (Function.update_of_ne (by omega) ..).trans (Function.update_self ..)

omit [GoExp F] in
theorem stat_shows (w : World F) (l : List Int64) (c : StatCall F) : ShowsTo w ((GoMetrics.statOf l c).map .out) (sampleSeen (.stat c) (.stat (Spec.statOf l (asStat c)))) := by
  cases c with
  | percentile p =>
    simp only [GoMetrics.statOf, asStat, Spec.statOf, samplePercentile, samplePercentiles]
    split
    · cases hx : percentileSorted (sortInts l) p with
      | error e => simp [hx, ShowsTo, sampleSeen, bind, Except.bind, Except.map]
      | ok x => simp [hx, ShowsTo, sampleSeen, bind, Except.bind, pure, Except.pure, Except.map, index]
    · simp [ShowsTo, sampleSeen, bind, Except.bind, pure, Except.pure, Except.map, index]
  | percentiles ps =>
    simp only [GoMetrics.statOf, asStat, Spec.statOf]
    cases samplePercentiles l ps with
    | error e => rfl
    | ok x => rfl
  | _ => rfl

theorem uniform_does {k : Ref} {s s' : UniformSample} {o : Ref × Call F} {m : SampleCall F} {r : SampleRes F} (hm : asSample o.2 m) (h : UniformCall s m r s') :
    DoesIn k (.sample (.uniform s)) o (sampleSeen o.2 r) (.sample (.uniform s')) := by
  obtain ⟨r0, c⟩ := o
  cases c <;> cases hm
  case clear =>
    obtain ⟨rfl, rfl⟩ := h
    exact sample_does (by simp) ⟨_, rfl⟩ fun w hw hk => ⟨envAt 0, effect_set⟩
  case count =>
    obtain ⟨rfl, rfl⟩ := h
    exact sample_does (by simp) ⟨_, rfl⟩ fun w hw hk => ⟨envAt 0, effect_read hk rfl⟩
  case size =>
    obtain ⟨rfl, rfl⟩ := h
    exact sample_does (by simp) ⟨_, rfl⟩ fun w hw hk => ⟨envAt 0, effect_read hk rfl⟩
  case values =>
    obtain ⟨rfl, rfl⟩ := h
    refine sample_does (by simp) ⟨_, rfl⟩ fun w hw hk => ⟨envAt 0, hk, fun _ _ _ => rfl, le_refl _, ?_⟩
    exact congrArg Seen.vals (Function.update_self (w.nextArr) _ w.arrs).symm
  case snapshot =>
    obtain ⟨rfl, rfl⟩ := h
    exact snapshot_does fun _ _ => rfl
  case update v =>
    refine sample_does (by simp) ⟨_, rfl⟩ fun w hw hk => ?_
    rcases h with ⟨rfl, draw, hd⟩ | ⟨p, draw, rfl, hd, rfl⟩
    · refine ⟨{ envAt 0 with int63 := draw }, ?_⟩
      have e : sampleCall ({ envAt 0 with int63 := draw } : Env F) k (.uniform s) (.update v) w =
          ({ w with objs := Function.update (Function.update w.objs k (some (.sample (.uniform { s with count := s.count + 1 })))) k (some (.sample (.uniform s'))) }, .ok .unit) := by
        unfold sampleCall
        simp only [act_bind, act_setObj, act_lift, hd]
        rfl
      change Effect _ _ _ _ (sampleCall _ _ _ (.update v) w)
      rw [e]
      refine ⟨Function.update_self .., fun _ hj _ => (Function.update_of_ne hj ..).trans (Function.update_of_ne hj ..), le_refl _, rfl⟩
    · refine ⟨{ envAt 0 with int63 := draw }, ?_⟩
      have e : sampleCall ({ envAt 0 with int63 := draw } : Env F) k (.uniform s) (.update v) w =
          ({ w with objs := Function.update w.objs k (some (.sample (.uniform { s with count := s.count + 1 }))) }, .error p) := by
        unfold sampleCall
        simp only [act_bind, act_setObj, act_lift, hd]
      change Effect _ _ _ _ (sampleCall _ _ _ (.update v) w)
      rw [e]
      exact ⟨Function.update_self .., fun _ hj _ => Function.update_of_ne hj .., le_refl _, rfl⟩
  case stat c =>
    refine sample_does (by simp) ⟨_, rfl⟩ fun w hw hk => ⟨envAt 0, ?_⟩
    change Effect _ _ _ _ (sampleCall _ _ _ (.stat c) w)
    have sorts : ∀ ps, asStat c = .percentiles ps → r = .stat (Spec.statOf s.values (asStat c)) ∧ s' = { s with values := sortInts s.values } → c.sorts = true →
        Effect k (.sample (.uniform s')) (sampleSeen (.stat c) r) w (sampleCall (envAt 0) k (.uniform s) (.stat c) w) := by
      rintro ps - ⟨rfl, rfl⟩ hs
      have e : sampleCall (envAt 0 : Env F) k (.uniform s) (.stat c) w =
          ({ w with objs := Function.update w.objs k (some (.sample (.uniform { s with values := sortInts s.values }))) }, GoMetrics.statOf s.values c) := by
        unfold sampleCall
        simp only [hs, if_true, act_bind, act_setObj, act_lift]
      rw [e]
      exact ⟨Function.update_self .., fun _ hj _ => Function.update_of_ne hj .., le_refl _, stat_shows _ _ _⟩
    have reads : r = .stat (Spec.statOf s.values (asStat c)) ∧ s' = s → c.sorts = false →
        Effect k (.sample (.uniform s')) (sampleSeen (.stat c) r) w (sampleCall (envAt 0) k (.uniform s) (.stat c) w) := by
      rintro ⟨rfl, rfl⟩ hs
      have e : sampleCall (envAt 0 : Env F) k (.uniform s') (.stat c) w = (w, GoMetrics.statOf s'.values c) := by
        unfold sampleCall
        simp only [hs]
        rfl
      rw [e]
      exact ⟨hk, fun _ _ _ => rfl, le_refl _, stat_shows _ _ _⟩
    cases c with
    | percentile p => exact sorts _ rfl h rfl
    | percentiles ps => exact sorts _ rfl h rfl
    | _ => exact reads h rfl

theorem exp_does {k : Ref} {s s' : ExpDecaySample F} {o : Ref × Call F} {m : SampleCall F} {r : SampleRes F} (hm : asSample o.2 m) (h : ExpCall s m r s') :
    DoesIn k (.sample (.exp s)) o (sampleSeen o.2 r) (.sample (.exp s')) := by
  obtain ⟨r0, c⟩ := o
  cases c <;> cases hm
  case clear =>
    obtain ⟨rfl, now, rfl⟩ := h
    exact sample_does (by simp) ⟨_, rfl⟩ fun w hw hk => ⟨envAt now, effect_set⟩
  case count =>
    obtain ⟨rfl, rfl⟩ := h
    exact sample_does (by simp) ⟨_, rfl⟩ fun w hw hk => ⟨envAt 0, effect_read hk rfl⟩
  case size =>
    obtain ⟨rfl, rfl⟩ := h
    exact sample_does (by simp) ⟨_, rfl⟩ fun w hw hk => ⟨envAt 0, effect_read hk rfl⟩
  case values =>
    obtain ⟨rfl, rfl⟩ := h
    refine sample_does (by simp) ⟨_, rfl⟩ fun w hw hk => ⟨envAt 0, hk, fun _ _ _ => rfl, le_refl _, ?_⟩
    exact congrArg Seen.vals (Function.update_self (w.nextArr) _ w.arrs).symm
  case snapshot =>
    obtain ⟨rfl, rfl⟩ := h
    exact snapshot_does fun _ _ => rfl
  case update v =>
    refine sample_does (by simp) ⟨_, rfl⟩ fun w hw hk => ?_
    obtain ⟨rfl, t, u, hd⟩ := h
    refine ⟨({ envAt (F := F) t with float64 := u } : Env F), ?_⟩
    have e : sampleCall ({ envAt (F := F) t with float64 := u } : Env F) k (.exp s) (.update v) w =
        ({ w with objs := Function.update (Function.update w.objs k (some (.sample (.exp { s with count := s.count + 1 })))) k (some (.sample (.exp s'))) }, .ok .unit) := by
      unfold sampleCall
      simp only [act_bind, act_setObj, act_lift]
      rw [show s.update ({ envAt (F := F) t with float64 := u } : Env F).now v u = .ok s' from hd]
      rfl
    change Effect _ _ _ _ (sampleCall _ _ _ (.update v) w)
    rw [e]
    refine ⟨Function.update_self .., fun _ hj _ => (Function.update_of_ne hj ..).trans (Function.update_of_ne hj ..), le_refl _, rfl⟩
  case stat c =>
    obtain ⟨rfl, rfl⟩ := h
    refine sample_does (by simp) ⟨_, rfl⟩ fun w hw hk => ⟨envAt 0, hk, fun _ _ _ => rfl, le_refl _, stat_shows _ _ _⟩

/-! ### The whole program -/

/-- The object is no meter. -/
def DoesKept (k : Ref) (x : Obj F) (o : Ref × Call F) (r : Seen F) (x' : Obj F) : Prop := DoesIn k x o r x' ∧ x.ty ≠ .meter ∧ x'.ty ≠ .meter

/-- What happens to one object. -/
theorem produced_linearizable {sorter : Nat → MemProg Unit} (hs : SortsInPlace sorter) {k : Ref} {x : Obj F} {h : List (HEv (Ref × Call F) (Seen F))} (hone : OneCall (fun _ => none) h)
    (hp : Produced sorter (some x) h) : Linearizable (DoesKept k) x h := by
  have none : h = [] → Linearizable (DoesKept k) x h := by
    rintro rfl
    exact ⟨[], _, x, rfl, .nil, .nil⟩
  unfold Produced at hp
  split at hp
  · rename_i c hc
    cases hc
    obtain ⟨sched, c', ls, tr, hr, hf⟩ := hp
    refine Linearizable.lift (B := DoesKept k) (fun c => Obj.counter (.std c)) ?_ hone hf (atom_linearizable hr)
    exact fun _ _ _ _ _ h1 h2 => ⟨counter_does h1 h2, by simp [Obj.ty], by simp [Obj.ty]⟩
  · rename_i c hc
    cases hc
    obtain ⟨sched, c', ls, tr, hr, hf⟩ := hp
    refine Linearizable.lift (B := DoesKept k) (fun c => Obj.gauge (.std c)) ?_ hone hf (atom_linearizable hr)
    exact fun _ _ _ _ _ h1 h2 => ⟨gauge_does h1 h2, by simp [Obj.ty], by simp [Obj.ty]⟩
  · rename_i c hc
    cases hc
    obtain ⟨sched, c', ls, tr, hr, hf⟩ := hp
    refine Linearizable.lift (B := DoesKept k) (fun c => Obj.gaugeF (.std c)) ?_ hone hf (atom_linearizable hr)
    exact fun _ _ _ _ _ h1 h2 => ⟨gaugeF_does h1 h2, by simp [Obj.ty], by simp [Obj.ty]⟩
  · rename_i c hc
    cases hc
    obtain ⟨sched, c', ls, tr, hr, hf⟩ := hp
    obtain ⟨a, hi⟩ := body_inv (uniformBody_guarded sorter) hr
    have hl : Linearizable UniformCall c (hist tr) := ⟨tr, _, a, rfl, body_wf (uniformBody_guarded sorter) hr, hi.run.mono fun _ _ _ _ hc => uniformBody_alone hs hc⟩
    refine Linearizable.lift (B := DoesKept k) (fun c => Obj.sample (.uniform c)) ?_ hone hf hl
    exact fun _ _ _ _ _ h1 h2 => ⟨uniform_does h1 h2, by simp [Obj.ty], by simp [Obj.ty]⟩
  · rename_i c hc
    cases hc
    obtain ⟨⟨n, alpha, now, s0, ops, hn, hnew, hrun⟩, sched, c', ls, tr, hr, hf⟩ := hp
    obtain ⟨a, hi⟩ := body_inv expBody_guarded hr
    obtain ⟨x0, hx0, hsh0, -⟩ := ExpDecaySample.new_shape n alpha now
    rw [hnew] at hx0; cases hx0
    obtain ⟨x1, hx1, hsh, -⟩ := exp_run_induct n hn s0 hsh0 (fun _ _ => True) trivial (fun _ _ _ _ _ => trivial) (fun _ _ _ _ _ _ _ _ _ => trivial) ops
    rw [hrun] at hx1; cases hx1
    have hl : Linearizable ExpCall c (hist tr) :=
      ⟨tr, _, a, rfl, body_wf expBody_guarded hr, (hi.run.mono_inv (ExpDecaySample.Shape n) (fun _ _ _ _ hj hc => expBody_alone hn hj hc) hsh).1⟩
    refine Linearizable.lift (B := DoesKept k) (fun c => Obj.sample (.exp c)) ?_ hone hf hl
    exact fun _ _ _ _ _ h1 h2 => ⟨exp_does h1 h2, by simp [Obj.ty], by simp [Obj.ty]⟩
  · exact none hp

/-- The same with the state of an object that may not exist. -/
def DoesAt (k : Ref) (x : Option (Obj F)) (o : Ref × Call F) (r : Seen F) (x' : Option (Obj F)) : Prop := ∃ y y', x = some y ∧ x' = some y' ∧ DoesIn k y o r y'

/-- The world while the program runs. -/
structure During (w0 : World F) (s : Ref → Option (Obj F)) (w : World F) : Prop where
  ok : w.Ok
  leq : w0.Leq w
  objs : ∀ k x, s k = some x → w.objs k = some x

/-- The call is one of the interface of the histogram, if it is a call on a histogram. -/
def Typed (w0 : World F) (o : Ref × Call F) : Prop := ∀ s, w0.objs o.1 = some (.hist (.std s)) → ofHist o.2 = true

theorem world_run {w0 : World F} {s s' : Ref → Option (Obj F)} {l : List ((Ref × Call F) × Seen F)}
    (h : LegalRun (Together (σ := fun _ => Option (Obj F)) (usedBy w0) (fun _ o o' => o' = o ∧ Typed w0 o) (fun _ _ r => r) DoesAt) s l s') :
    ∀ w, During w0 s w → ∃ w', LegalRun WorldCall w l w' ∧ During w0 s' w' := by
  induction h with
  | nil => exact fun w hw => ⟨w, .nil, hw⟩
  | @cons s s1 s2 o r l hs _ ih =>
    intro w hw
    obtain ⟨o', r', x, ⟨rfl, ht⟩, rfl, ⟨y, y', hy, rfl, hd⟩, rfl⟩ := hs
    have hk := hw.objs _ _ hy
    obtain ⟨env, he⟩ := hd w hw.ok hk (by
      unfold usedBy
      split
      · rename_i q hq
        exact .inr ⟨hw.leq.frozen _ _ hq rfl, ht _ hq⟩
      · exact .inl rfl)
    have hst := hw.ok.step env (.call o'.1 o'.2)
    have e := step_call env o'.1 o'.2 w
    rw [e] at hst
    obtain ⟨w', h1, h2⟩ := ih (call env o'.1 o'.2 w).1 ⟨hst.1, hw.leq.trans hst.2, by
      intro j z hj
      by_cases hjk : j = usedBy w0 o'
      · subst hjk
        simp only [Function.update_self] at hj
        rw [← hj]
        exact he.obj
      · rw [Function.update_of_ne hjk] at hj
        have := hw.objs _ _ hj
        rw [he.other j hjk (hw.ok.lt this)]
        exact this⟩
    exact ⟨w', .cons ⟨env, by rw [e], by rw [e]; exact he.shows⟩ h1, h2⟩

theorem program_linearizable {sorter : Nat → MemProg Unit} (hs : SortsInPlace sorter) {w0 : World F} (hw : w0.Ok) {h : List (HEv (Ref × Call F) (Seen F))} (hp : ProgramHistory sorter w0 h) :
    Linearizable WorldCall w0 h := by
  obtain ⟨tr, st, s', h1, h2, h3⟩ := linearizable_together (σ := fun _ => Option (Obj F)) (key := usedBy w0) (ρ := fun _ o o' => o' = o ∧ Typed w0 o) (g := fun _ _ r => r) (S := DoesAt)
    (s0 := w0.objs) hp.one (by
      intro k
      refine ⟨part (usedBy w0) k h, ?_, ?_⟩
      · refine List.forall₂_same.2 fun e he => ?_
        have ht : Typed w0 (evOp e) := hp.hist e (List.mem_of_mem_filter he)
        cases e with
        | inv t o => exact .inv ⟨rfl, ht⟩
        | ret t o r => exact .ret (g := fun _ r => r) ⟨rfl, ht⟩
      · have hpr := hp.object k
        rcases hk : w0.objs k with _ | x
        · rw [hk] at hpr
          change _ = [] at hpr
          rw [hpr]
          exact ⟨[], _, _, rfl, .nil, .nil⟩
        · rw [hk] at hpr
          obtain ⟨tr, st, x', h1, h2, h3⟩ := produced_linearizable (k := k) hs (oneCall_part_none _ _ hp.one) hpr
          exact ⟨tr, st, some x', h1, h2, h3.map_state some fun _ _ _ _ hd => ⟨_, _, rfl, rfl, hd.1⟩⟩)
  obtain ⟨w', h4, -⟩ := world_run h3 w0 ⟨hw, .refl _, fun _ _ h => h⟩
  exact ⟨tr, st, w', h1, h2, h4⟩

end GoMetrics
