import Verif.Lemmas.ExportConc
import Verif.Model.GetAllConc
import Verif.Spec.GetAllConc

/-! `GetAll` while other goroutines use the metrics. -/

set_option linter.unusedSimpArgs false
set_option linter.unusedSectionVars false

namespace GoMetrics
open Spec

variable {F : Type} [GoFloat F] [GoSqrt F] [GoExp F]

/-! ### Growing histories -/

theorem grows_set (k : String) (r : Ref) (c : Call F) : Grows (setFieldLive k r c) := grows_bind (grows_call _ _) fun _ => grows_pure _
theorem grows_snapshotOf (r : Ref) : Grows (snapshotOfLive r : Live F Ref) := grows_bind (grows_call _ _) fun o => by cases o <;> exact grows_pure _
theorem grows_histFields (q : Ref) : Grows (histFieldsLive q : Live F _) := by
  unfold histFieldsLive
  repeat first | exact grows_pure _ | exact grows_call _ _ | exact grows_set _ _ _ | exact grows_lift _ | refine grows_bind ?_ fun _ => ?_
theorem grows_rateFields (q : Ref) : Grows (rateFieldsLive q : Live F _) := by
  unfold rateFieldsLive
  repeat first | exact grows_pure _ | exact grows_set _ _ _ | refine grows_bind ?_ fun _ => ?_
theorem grows_values (r : Ref) (o : Obj F) : Grows (valuesOfLive r o) := by
  cases o <;> simp only [valuesOfLive]
  case health =>
    refine grows_bind (grows_call _ _) fun _ => grows_bind (grows_call _ _) fun a => ?_
    cases a <;> first | exact grows_pure _ | skip
    rename_i e
    cases e with
    | none => exact grows_pure _
    | some e =>
      refine grows_bind (grows_call _ _) fun b => ?_
      cases b <;> first | exact grows_lift _ | skip
      rename_i e
      cases e <;> first | exact grows_lift _ | exact grows_pure _
  all_goals repeat first | exact grows_pure _ | exact grows_set _ _ _ | exact grows_snapshotOf _ | exact grows_histFields _ | exact grows_rateFields _ | refine grows_bind ?_ fun _ => ?_
theorem grows_getAll {s : Nat → Turn F} (name : Str) (r : Ref) (st : LiveState F) (out : Data F) : st.log <+: (getAllCallbackLive s name r (st, out)).1.1.log := by
  rw [getAllCallbackLive]
  split
  · rename_i o _
    have h := grows_values r o s st
    simp only at h ⊢
    rcases hv : valuesOfLive r o s st with ⟨st1, p | v⟩ <;> rw [hv] at h <;> exact h
  · exact List.prefix_rfl

/-! ### Fields of a snapshot -/

section fields
variable {s : Nat → Turn F} {q : Ref}

/-- Not the text of an error. -/
def plain (v : GoMetrics.Field F) : Prop := ∀ e, v ≠ .errText e

theorem set_total {st : LiveState F} (k : String) {d : Call F} {v : GoMetrics.Field F} (h : Settled st.log q d v) (hv : plain v) :
    ∃ st', setFieldLive k q d s st = (st', .ok (k, v)) ∧ st.log <+: st'.log := by
  obtain ⟨out, h1, h2⟩ := h (st.log ++ (s st.turn).others) (s st.turn).env (List.prefix_append _ _)
  have hf : out.field = v := by
    rw [h2] at hv ⊢
    unfold Out.shown at hv ⊢
    split
    · rename_i e; exact absurd rfl (hv e)
    · rfl
  refine ⟨_, ?_, grows_call q d s st⟩
  simp only [setFieldLive, live_bind]
  rw [show liveCall q d s st = ((liveCall q d s st).1, .ok out) from Prod.ext rfl h1]
  simp only [live_pure, hf]

theorem hist_total {st st4 : LiveState F} {ss : List F} {val : Call F → GoMetrics.Field F} {x0 x1 x2 x3 x4 : F} (hps : liveCall q (.stat (.percentiles getAllPercentiles)) s st = (st4, .ok (.floats ss)))
    (hval : ∀ d ∈ [Call.count, .stat .min, .stat .max, .stat .mean, .stat .stdDev], Settled st4.log q d (val d) ∧ plain (val d))
    (h0 : ss[0]? = some x0) (h1 : ss[1]? = some x1) (h2 : ss[2]? = some x2) (h3 : ss[3]? = some x3) (h4 : ss[4]? = some x4) :
    ∃ st', histFieldsLive q s st = (st', .ok [("count", val .count), ("min", val (.stat .min)), ("max", val (.stat .max)), ("mean", val (.stat .mean)), ("stddev", val (.stat .stdDev)),
      ("median", .float x0), ("75%", .float x1), ("95%", .float x2), ("99%", .float x3), ("99.9%", .float x4)]) ∧ st4.log <+: st'.log := by
  obtain ⟨s1, e1, g1⟩ := set_total (s := s) "count" (hval .count (by simp)).1 (hval .count (by simp)).2
  obtain ⟨s2, e2, g2⟩ := set_total (s := s) "min" ((hval (.stat .min) (by simp)).1.mono g1) (hval (.stat .min) (by simp)).2
  obtain ⟨s3, e3, g3⟩ := set_total (s := s) "max" ((hval (.stat .max) (by simp)).1.mono (g1.trans g2)) (hval (.stat .max) (by simp)).2
  obtain ⟨s4, e4, g4⟩ := set_total (s := s) "mean" ((hval (.stat .mean) (by simp)).1.mono ((g1.trans g2).trans g3)) (hval (.stat .mean) (by simp)).2
  obtain ⟨s5, e5, g5⟩ := set_total (s := s) "stddev" ((hval (.stat .stdDev) (by simp)).1.mono (((g1.trans g2).trans g3).trans g4)) (hval (.stat .stdDev) (by simp)).2
  refine ⟨s5, ?_, (((g1.trans g2).trans g3).trans g4).trans g5⟩
  simp only [histFieldsLive, live_bind, hps, e1, e2, e3, e4, e5, live_lift, Out.at, h0, h1, h2, h3, h4, live_pure]

theorem rate_total {st : LiveState F} {val : Call F → GoMetrics.Field F} (hval : ∀ d, Settled st.log q (.rates d) (val (.rates d)) ∧ plain (val (.rates d))) :
    ∃ st', rateFieldsLive q s st = (st', .ok [("1m.rate", val (.rates .rate1)), ("5m.rate", val (.rates .rate5)), ("15m.rate", val (.rates .rate15)), ("mean.rate", val (.rates .rateMean))]) ∧ st.log <+: st'.log := by
  obtain ⟨s1, e1, g1⟩ := set_total (s := s) "1m.rate" (hval .rate1).1 (hval .rate1).2
  obtain ⟨s2, e2, g2⟩ := set_total (s := s) "5m.rate" ((hval .rate5).1.mono g1) (hval .rate5).2
  obtain ⟨s3, e3, g3⟩ := set_total (s := s) "15m.rate" ((hval .rate15).1.mono (g1.trans g2)) (hval .rate15).2
  obtain ⟨s4, e4, g4⟩ := set_total (s := s) "mean.rate" ((hval .rateMean).1.mono ((g1.trans g2).trans g3)) (hval .rateMean).2
  refine ⟨s4, ?_, ((g1.trans g2).trans g3).trans g4⟩
  simp only [rateFieldsLive, live_bind, e1, e2, e3, e4, live_pure]

end fields

/-! ### One metric -/

theorem typed_plain {o : Obj F} {d : Call F} {v : GoMetrics.Field F} (hd : d ≠ .error) (h : typed o d v) : plain v := by
  rintro e rfl
  cases d with
  | error => exact hd rfl
  | value => cases o <;> simp [typed] at h
  | stat c => cases c <;> simp [typed] at h
  | _ => simp [typed] at h

theorem liveCall_panic {s : Nat → Turn F} {r : Ref} {c : Call F} {st st' : LiveState F} {p : Panic} (h : liveCall r c s st = (st', .error p)) : CallPanics st.log st'.log p := by
  simp only [liveCall, Prod.mk.injEq] at h
  obtain ⟨rfl, h⟩ := h
  exact ⟨_, _, r, c, List.prefix_append _ _, List.prefix_rfl, h⟩

theorem callPanics_mono {a a' b b' : List (Env F × Op F)} {p : Panic} (h : CallPanics a b p) (ha : a' <+: a) (hb : b <+: b') : CallPanics a' b' p := by
  obtain ⟨past, env, r, c, h1, h2, h3⟩ := h
  exact ⟨past, env, r, c, ha.trans h1, h2.trans hb, h3⟩

theorem errorVanishes_mono {a a' b b' : List (Env F × Op F)} {r : Ref} (h : ErrorVanishes a b r) (ha : a' <+: a) (hb : b <+: b') : ErrorVanishes a' b' r := by
  obtain ⟨past, env, past', env', e, h1, h2, h3, h4⟩ := h
  exact ⟨past, env, past', env', e, ha.trans h1, h2, h3.trans hb, h4⟩

/-- What is known about the visit of one metric. -/
def ValuesAt (r : Ref) (o : Obj F) (log log' : List (Env F × Op F)) : Res (List (String × GoMetrics.Field F)) → Prop
  | .ok vs => ∃ past env o', log <+: past ∧ past <+: log' ∧ (after past : World F).objs r = some o' ∧ o'.ty = o.ty ∧ ReadsAt log log' r o' past env ∧
      List.Forall₂ (fun (kc : String × Call F) (kf : String × GoMetrics.Field F) => kf.1 = kc.1 ∧ HasValue (after past) env r kc.2 kf.2) (fieldsOf o') vs
  | .error p => CallPanics log log' p ∨ p = .nilDeref ∧ ErrorVanishes log log' r

section one
variable {s : Nat → Turn F} {r : Ref} {st : LiveState F} {o : Obj F}

/-- Metrics that are read by a single call. -/
theorem scalar_values {k : String} {c : Call F} (hr : (after st.log : World F).objs r = some o)
    (ho : ∀ o' : Obj F, o'.ty = o.ty → getsValues o' c ∧ isHealth o' = false ∧ fieldsOf o' = [(k, c)] ∧ ∀ w env, w.objs r = some o' → ∃ out, observe w env r c = .ok out ∧ shows (.ok out) out.field) (hs : c ≠ .stat .stdDev) :
    let x := (do return [← setFieldLive k r c] : Live F _) s st
    ValuesAt r o st.log x.1.log x.2 := by
  intro x
  have hg := grows_call r c s st
  obtain ⟨o', h1, h2⟩ := kind_after (List.prefix_append st.log (s st.turn).others) hr
  obtain ⟨h3, h4, h5, h6⟩ := ho o' h2
  obtain ⟨out, h7, h8⟩ := h6 _ (s st.turn).env h1
  have hx : x = ((liveCall r c s st).1, .ok [(k, out.field)]) := by
    show (do return [← setFieldLive k r c] : Live F _) s st = _
    have : liveCall r c s st = ((liveCall r c s st).1, .ok out) := Prod.ext rfl h7
    simp only [setFieldLive, live_bind]
    rw [this]
    simp only [live_pure]
  rw [hx]
  refine ⟨_, (s st.turn).env, o', List.prefix_append _ _, List.prefix_append _ [((s st.turn).env, Op.call r c)], h1, h2, ⟨⟨c, h3, List.prefix_rfl⟩, fun hh => ?_⟩, ?_⟩
  · rw [h4] at hh; simp at hh
  · rw [h5]
    refine .cons ⟨rfl, fun e => absurd e hs, fun _ => ?_⟩ .nil
    show shows (observe _ _ _ _) _
    rw [h7]
    exact h8

theorem health_values {x : Health} (hr : (after st.log : World F).objs r = some (.health x)) :
    ValuesAt r (.health x) st.log (valuesOfLive r (.health x) s st).1.log (valuesOfLive r (.health x) s st).2 := by
  -- the calls of a healthcheck do not panic
  have hcheck : ∀ (log : List (Env F × Op F)) (env : Env F), st.log <+: log → ∃ out, (call env r .check (after log)).2 = .ok out := fun log env hl => by
    obtain ⟨o', h1, h2⟩ := kind_after hl hr
    cases o' <;> simp [Obj.ty] at h2
    rw [(check_seen (after_ok log) env h1).1]
    exact ⟨_, rfl⟩
  have herr : ∀ (log : List (Env F × Op F)) (env : Env F), st.log <+: log → ∃ y : Health, (after log : World F).objs r = some (.health y) ∧ (call env r .error (after log)) = (after log, .ok (.err y.error)) := fun log env hl => by
    obtain ⟨o', h1, h2⟩ := kind_after hl hr
    cases o' <;> simp [Obj.ty] at h2
    exact ⟨_, h1, by rw [call_obj h1]; rfl⟩
  obtain ⟨out, h1⟩ := hcheck (st.log ++ (s st.turn).others) (s st.turn).env (List.prefix_append _ _)
  set st1 := (liveCall r .check s st).1 with e1
  have c1 : liveCall r .check s st = (st1, .ok out) := Prod.ext rfl h1
  obtain ⟨past1, env1, p1, p2, -⟩ := liveCall_ok c1
  have g1 : st.log <+: st1.log := by rw [p2]; exact p1.trans (List.prefix_append _ _)
  obtain ⟨y, hy, h2⟩ := herr (st1.log ++ (s st1.turn).others) (s st1.turn).env (g1.trans (List.prefix_append _ _))
  set st2 := (liveCall r .error s st1).1 with e2
  have c2 : liveCall r .error s st1 = (st2, .ok (.err y.error)) := Prod.ext rfl (by simp only [liveCall, h2])
  obtain ⟨past2, env2, q1, q2, q3⟩ := liveCall_ok c2
  have g2 : st1.log <+: st2.log := by rw [q2]; exact q1.trans (List.prefix_append _ _)
  have hchk : ∀ past, st1.log <+: past → ∃ past' env', st.log <+: past' ∧ past' ++ [(env', .call r .check)] <+: past := fun past hp => ⟨past1, env1, p1, by rw [← p2]; exact hp⟩
  have hval : ∀ past env, st1.log <+: past → ∀ (y : Health), (after past : World F).objs r = some (.health y) → ∀ log' v, past ++ [(env, .call r .error)] <+: log' → shows (.ok (.err y.error : Out F)) v →
      ValuesAt r (.health x) st.log log' (.ok [("error", v)]) := by
    intro past env hp y hy log' v hl hv
    have hc : call env r .error (after past) = (after past, .ok (.err y.error)) := by rw [call_obj hy]; rfl
    refine ⟨past, env, _, g1.trans hp, (List.prefix_append _ _).trans hl, hy, rfl, ⟨⟨.error, trivial, hl⟩, fun _ => hchk past hp⟩, .cons ⟨rfl, by simp, fun _ => ?_⟩ .nil⟩
    show shows (observe (after past) env r .error) v
    rw [observe, hc]
    exact hv
  obtain ⟨y2, hy2, h2'⟩ := herr past2 env2 (g1.trans q1)
  rw [h2', Prod.mk.injEq, Except.ok.injEq, Out.err.injEq] at q3
  cases hye : y.error with
  | none =>
    have hx : valuesOfLive r (.health x) s st = (st2, .ok [("error", .nil)]) := by
      simp only [valuesOfLive, live_bind, c1, c2, hye, live_pure]
    rw [hx]
    refine hval past2 env2 q1 y2 hy2 _ _ (by rw [q2]) ?_
    rw [q3.2, hye]
    rfl
  | some e =>
    obtain ⟨z, hz, h3⟩ := herr (st2.log ++ (s st2.turn).others) (s st2.turn).env ((g1.trans g2).trans (List.prefix_append _ _))
    set st3 := (liveCall r .error s st2).1 with e3
    have c3 : liveCall r .error s st2 = (st3, .ok (.err z.error)) := Prod.ext rfl (by simp only [liveCall, h3])
    obtain ⟨past3, env3, r1, r2, r3⟩ := liveCall_ok c3
    obtain ⟨y3, hy3, h3'⟩ := herr past3 env3 ((g1.trans g2).trans r1)
    rw [h3', Prod.mk.injEq, Except.ok.injEq, Out.err.injEq] at r3
    cases hze : z.error with
    | some e' =>
      have hx : valuesOfLive r (.health x) s st = (st3, .ok [("error", .errText e')]) := by
        simp only [valuesOfLive, live_bind, c1, c2, c3, hye, hze, live_pure]
      rw [hx]
      refine hval past3 env3 (g2.trans r1) y3 hy3 _ _ (by rw [r2]) ?_
      rw [r3.2, hze]
      rfl
    | none =>
      have hx : valuesOfLive r (.health x) s st = (st3, .error .nilDeref) := by
        simp only [valuesOfLive, live_bind, c1, c2, c3, hye, hze, live_lift]
      rw [hx]
      refine .inr ⟨rfl, past2, env2, past3, env3, e, g1.trans q1, by rw [← q2]; exact r1, by rw [r2], ?_, ?_⟩
      · rw [observe, h2', q3.2, hye]
      · rw [observe, h3', r3.2, hze]

private theorem lit_75 : (GoFloat.lit (75 / 100) : F) = GoFloat.lit (3 / 4) := by norm_num
private theorem lit_95 : (GoFloat.lit (95 / 100) : F) = GoFloat.lit (19 / 20) := by norm_num

/-- The part of the fields that histograms and timers have. -/
theorem dist_values {st2 : LiveState F} {q : Ref} (hr : (after st.log : World F).objs r = some o) (hd : o.ty = .hist ∨ o.ty = .timer)
    (hown : ∀ p, st.log <+: p → p <+: st2.log → ownsValues (after p) r) (h : snapshotOfLive r s st = (st2, .ok q)) :
    ∃ past env o', st.log <+: past ∧ st2.log = past ++ [(env, .call r .snapshot)] ∧ (after past : World F).objs r = some o' ∧ o'.ty = o.ty ∧
      ((∃ st3 p, histFieldsLive q s st2 = (st3, .error p) ∧ CallPanics st2.log st3.log p) ∨
        ∃ st3 vs, ∃ val : Call F → GoMetrics.Field F, histFieldsLive q s st2 = (st3, .ok vs) ∧ st2.log <+: st3.log ∧
          List.Forall₂ (fun (kc : String × Call F) (kf : String × GoMetrics.Field F) => kf.1 = kc.1 ∧ HasValue (after past) env r kc.2 kf.2) fieldsOf.distribution vs ∧
          ∀ d, readable o' d = true → HasValue (after past) env r d (val d) ∧ Settled st3.log q d (val d) ∧ plain (val d)) := by
  obtain ⟨st3, so, h1, h2⟩ := live_bind_ok h
  have e1 : st3 = st2 := by cases so <;> (simp only [live_pure, Prod.mk.injEq] at h2; exact h2.1)
  subst e1
  obtain ⟨past, env, o', z, h5, h6, ho', hty, rfl, key⟩ := dist_taken hr hd hown h1
  simp only [live_pure, Prod.mk.injEq, Except.ok.injEq, true_and] at h2
  subst h2
  have hne : o'.ty ≠ .health := by rw [hty]; rcases hd with e | e <;> rw [e] <;> simp
  refine ⟨past, env, o', h5, h6, ho', hty, ?_⟩
  rcases hp : liveCall z (.stat (.percentiles getAllPercentiles)) s st3 with ⟨st4, p | pso⟩
  · left
    refine ⟨st4, p, ?_, liveCall_panic hp⟩
    simp only [histFieldsLive, live_bind, hp]
  · right
    have g4 : st3.log <+: st4.log := by have := grows_call z (.stat (.percentiles getAllPercentiles)) s st3; rwa [hp] at this
    obtain ⟨val, ss, rfl, hval, hpct⟩ := key List.prefix_rfl hp
    have hp' : ∀ d, readable o' d = true → plain (val d) := fun d hd' => by
      refine typed_plain ?_ (hval d hd').1.2
      rintro rfl
      rw [← hty] at hd
      cases o' <;> simp [Obj.ty] at hd <;> simp [readable] at hd'
    have hread : ∀ d ∈ [Call.count, .stat .min, .stat .max, .stat .mean, .stat .stdDev], readable o' d = true := by
      rw [← hty] at hd
      intro d hd'
      simp only [List.mem_cons, List.not_mem_nil, or_false] at hd'
      cases o' <;> simp [Obj.ty] at hd <;> rcases hd' with rfl | rfl | rfl | rfl | rfl <;> rfl
    have hv := fun d hd' => hasValue_of ho' hne _ _ (hval d hd').1.1
    have hpv : ∀ p x, Holds (after past) env r (.stat (.percentile p)) (.float x) → _ := fun p x hx => hasValue_of ho' hne (.stat (.percentile p)) (.float x) hx
    obtain ⟨x0, a0, b0⟩ := hpct 0 _ rfl
    obtain ⟨x1, a1, b1⟩ := hpct 1 _ rfl
    obtain ⟨x2, a2, b2⟩ := hpct 2 _ rfl
    obtain ⟨x3, a3, b3⟩ := hpct 3 _ rfl
    obtain ⟨x4, a4, b4⟩ := hpct 4 _ rfl
    obtain ⟨st5, k1, k2⟩ := hist_total hp (fun d hd' => ⟨(hval d (hread d hd')).2, hp' d (hread d hd')⟩) a0 a1 a2 a3 a4
    rw [lit_75] at b1
    rw [lit_95] at b2
    refine ⟨st5, _, val, k1, g4.trans k2, ?_, fun d hd' => ⟨hv d hd', (hval d hd').2.mono k2, hp' d hd'⟩⟩
    exact .cons ⟨rfl, hv _ (hread _ (by simp))⟩ (.cons ⟨rfl, hv _ (hread _ (by simp))⟩ (.cons ⟨rfl, hv _ (hread _ (by simp))⟩ (.cons ⟨rfl, hv _ (hread _ (by simp))⟩ (.cons ⟨rfl, hv _ (hread _ (by simp))⟩
      (.cons ⟨rfl, hpv _ _ b0⟩ (.cons ⟨rfl, hpv _ _ b1⟩ (.cons ⟨rfl, hpv _ _ b2⟩ (.cons ⟨rfl, hpv _ _ b3⟩ (.cons ⟨rfl, hpv _ _ b4⟩ .nil)))))))))

theorem snapshotOf_panic {st2 : LiveState F} {p : Panic} (h : snapshotOfLive r s st = (st2, .error p)) : CallPanics st.log st2.log p := by
  simp only [snapshotOfLive, live_bind] at h
  rcases hc : liveCall r .snapshot s st with ⟨st3, p' | out⟩ <;> rw [hc] at h
  · simp only [Prod.mk.injEq, Except.error.injEq] at h
    obtain ⟨rfl, rfl⟩ := h
    exact liveCall_panic hc
  · cases out <;> simp [live_pure] at h

theorem values_live (hr : (after st.log : World F).objs r = some o) (hm : o.isMetric = true)
    (hown : ∀ p, st.log <+: p → p <+: (valuesOfLive r o s st).1.log → ownsValues (after p) r) : ValuesAt r o st.log (valuesOfLive r o s st).1.log (valuesOfLive r o s st).2 := by
  cases o with
  | counter y =>
    exact scalar_values hr (fun o' e => by cases o' <;> simp [Obj.ty] at e; exact ⟨trivial, rfl, rfl, fun w env ho => ⟨_, read_obj ho _ rfl, rfl⟩⟩) (by simp)
  | gauge y =>
    exact scalar_values hr (fun o' e => by cases o' <;> simp [Obj.ty] at e; exact ⟨trivial, rfl, rfl, fun w env ho => ⟨_, read_obj ho _ rfl, rfl⟩⟩) (by simp)
  | gaugeF y =>
    exact scalar_values hr (fun o' e => by cases o' <;> simp [Obj.ty] at e; exact ⟨trivial, rfl, rfl, fun w env ho => ⟨_, read_obj ho _ rfl, rfl⟩⟩) (by simp)
  | health y => exact health_values hr
  | hist y =>
    rcases hs : snapshotOfLive r s st with ⟨st2, p | q⟩
    · have hx : valuesOfLive r (.hist y) s st = (st2, .error p) := by simp only [valuesOfLive, live_bind, hs]
      rw [hx]
      exact .inl (snapshotOf_panic hs)
    · have g0 := grows_snapshotOf r s st
      rw [hs] at g0
      have g : st2.log <+: (valuesOfLive r (.hist y) s st).1.log := by simp only [valuesOfLive, live_bind, hs]; exact grows_histFields q s st2
      obtain ⟨past, env, o', h1, h2, h3, h4, ⟨st3, p, h5, h6⟩ | ⟨st3, vs, val, h5, h6, h7, -⟩⟩ := dist_values hr (.inl rfl) (fun p a b => hown p a (b.trans g)) hs
      · have hx : valuesOfLive r (.hist y) s st = (st3, .error p) := by simp only [valuesOfLive, live_bind, hs, h5]
        rw [hx]
        exact .inl (callPanics_mono h6 g0 List.prefix_rfl)
      · have hx : valuesOfLive r (.hist y) s st = (st3, .ok vs) := by simp only [valuesOfLive, live_bind, hs, h5]
        rw [hx]
        cases o' <;> simp [Obj.ty] at h4
        exact ⟨past, env, _, h1, ((List.prefix_append _ _).trans (by rw [← h2])).trans h6, h3, rfl, ⟨⟨.snapshot, trivial, by rw [← h2]; exact h6⟩, by simp [isHealth]⟩, h7⟩
  | timer y =>
    rcases hs : snapshotOfLive r s st with ⟨st2, p | q⟩
    · have hx : valuesOfLive r (.timer y) s st = (st2, .error p) := by simp only [valuesOfLive, live_bind, hs]
      rw [hx]
      exact .inl (snapshotOf_panic hs)
    · have g0 := grows_snapshotOf r s st
      rw [hs] at g0
      have g : st2.log <+: (valuesOfLive r (.timer y) s st).1.log := by
        have : Grows (do return (← histFieldsLive q) ++ (← rateFieldsLive q) : Live F _) := grows_bind (grows_histFields q) fun _ => grows_bind (grows_rateFields q) fun _ => grows_pure _
        have e : valuesOfLive r (.timer y) s st = (do return (← histFieldsLive q) ++ (← rateFieldsLive q) : Live F _) s st2 := by simp only [valuesOfLive, live_bind, hs]
        rw [e]
        exact this s st2
      obtain ⟨past, env, o', h1, h2, h3, h4, ⟨st3, p, h5, h6⟩ | ⟨st3, vs, val, h5, h6, h7, h8⟩⟩ := dist_values hr (.inr rfl) (fun p a b => hown p a (b.trans g)) hs
      · have hx : valuesOfLive r (.timer y) s st = (st3, .error p) := by simp only [valuesOfLive, live_bind, hs, h5]
        rw [hx]
        exact .inl (callPanics_mono h6 g0 List.prefix_rfl)
      · cases o' <;> simp [Obj.ty] at h4
        obtain ⟨st4, k1, k2⟩ := rate_total (s := s) (q := q) (st := st3) (val := val) (fun d => ⟨(h8 (.rates d) rfl).2.1, (h8 (.rates d) rfl).2.2⟩)
        have hx : valuesOfLive r (.timer y) s st = (st4, .ok (vs ++ [("1m.rate", val (.rates .rate1)), ("5m.rate", val (.rates .rate5)), ("15m.rate", val (.rates .rate15)), ("mean.rate", val (.rates .rateMean))])) := by
          simp only [valuesOfLive, live_bind, hs, h5, k1, live_pure]
        rw [hx]
        refine ⟨past, env, _, h1, (((List.prefix_append _ _).trans (by rw [← h2])).trans h6).trans k2, h3, rfl, ⟨⟨.snapshot, trivial, by rw [← h2]; exact h6.trans k2⟩, by simp [isHealth]⟩, ?_⟩
        exact List.rel_append h7 (.cons ⟨rfl, (h8 _ rfl).1⟩ (.cons ⟨rfl, (h8 _ rfl).1⟩ (.cons ⟨rfl, (h8 _ rfl).1⟩ (.cons ⟨rfl, (h8 _ rfl).1⟩ .nil))))
  | meter y =>
    rcases hs : snapshotOfLive r s st with ⟨st2, p | q⟩
    · have hx : valuesOfLive r (.meter y) s st = (st2, .error p) := by simp only [valuesOfLive, live_bind, hs]
      rw [hx]
      exact .inl (snapshotOf_panic hs)
    · obtain ⟨st3, so, h1, h2⟩ := live_bind_ok hs
      have e1 : st3 = st2 := by cases so <;> (simp only [live_pure, Prod.mk.injEq] at h2; exact h2.1)
      subst e1
      obtain ⟨past, env, y', z, val, h5, h6, ho', rfl, hval⟩ := meter_taken hr h1
      simp only [live_pure, Prod.mk.injEq, Except.ok.injEq, true_and] at h2
      subst h2
      have hv := fun d hd' => hasValue_of ho' (by simp [Obj.ty]) _ _ (hval d hd').1.1
      have hpl : ∀ d, readable (.meter y' : Obj F) d = true → plain (val d) := fun d hd' => typed_plain (by rintro rfl; simp [readable] at hd') (hval d hd').1.2
      obtain ⟨st4, k1, k2⟩ := set_total (s := s) "count" (hval .count rfl).2 (hpl .count rfl)
      obtain ⟨st5, k3, k4⟩ := rate_total (s := s) (q := z) (st := st4) (val := val) (fun d => ⟨(hval (.rates d) rfl).2.mono k2, hpl (.rates d) rfl⟩)
      have hx : valuesOfLive r (.meter y) s st = (st5, .ok (("count", val .count) :: [("1m.rate", val (.rates .rate1)), ("5m.rate", val (.rates .rate5)), ("15m.rate", val (.rates .rate15)), ("mean.rate", val (.rates .rateMean))])) := by
        simp only [valuesOfLive, live_bind, hs, k1, k3, live_pure]
      rw [hx]
      refine ⟨past, env, _, h5, (((List.prefix_append _ _).trans (by rw [← h6])).trans k2).trans k4, ho', rfl, ⟨⟨.snapshot, trivial, by rw [← h6]; exact k2.trans k4⟩, by simp [isHealth]⟩, ?_⟩
      exact .cons ⟨rfl, hv _ rfl⟩ (.cons ⟨rfl, hv _ rfl⟩ (.cons ⟨rfl, hv _ rfl⟩ (.cons ⟨rfl, hv _ rfl⟩ (.cons ⟨rfl, hv _ rfl⟩ .nil))))
  | _ => simp [Obj.isMetric] at hm

end one

theorem fieldsOf_ty {o o' : Obj F} (h : o.ty = o'.ty) : fieldsOf o = fieldsOf o' := by
  cases o <;> cases o' <;> simp [Obj.ty] at h <;> rfl

/-! ### All metrics -/

theorem blockwise_getAll {s : Nat → Turn F} : Blockwise (getAllCallbackLive s) (fun _ => false) EntryOf := by
  intro name r o st st' out out' ho hm hown hv
  simp only [getAllCallbackLive, ho] at hv
  have hown' : ∀ p, st.log <+: p → p <+: (valuesOfLive r o s st).1.log → ownsValues (after p) r := by
    rcases hx : valuesOfLive r o s st with ⟨st1, p | vs⟩ <;> rw [hx] at hv <;> simp at hv
    obtain ⟨⟨rfl, -⟩⟩ := hv
    exact hown
  have h1 := values_live (s := s) ho hm hown'
  rcases hx : valuesOfLive r o s st with ⟨st1, p | vs⟩ <;> rw [hx] at hv h1 <;> simp at hv
  obtain ⟨rfl, rfl⟩ := hv
  obtain ⟨past, env, o', k1, k2, k3, k4, k5, k6⟩ := h1
  exact ⟨⟨name, r, past, env, [(name, vs)]⟩, rfl, rfl, k1, k2, o', k3, by rw [if_neg (by simp)]; exact ⟨k5, vs, rfl, k6⟩⟩

theorem visit_panic {s : Nat → Turn F} (l : List (Str × Ref)) :
    ∀ {st st' : LiveState F} {out out' : Data F} {p : Panic}, (∀ e ∈ l, ∃ o, (after st.log : World F).objs e.2 = some o ∧ o.isMetric = true) →
      (∀ e ∈ l, ∀ p, st.log <+: p → p <+: st'.log → ownsValues (after p) e.2) → visitLive (getAllCallbackLive s) l (st, out) = ((st', out'), .error p) →
      CallPanics st.log st'.log p ∨ p = .nilDeref ∧ ∃ e ∈ l, ErrorVanishes st.log st'.log e.2 := by
  induction l with
  | nil => intro st st' out out' p _ _ h; simp [visitLive] at h
  | cons e l ih =>
    intro st st' out out' p hl hown h
    obtain ⟨o, ho, hm⟩ := hl e (by simp)
    rw [visitLive] at h
    have g2 := grows_getAll (s := s) e.1 e.2 st out
    rcases hv : getAllCallbackLive s e.1 e.2 (st, out) with ⟨⟨st1, out1⟩, _ | p'⟩ <;> rw [hv] at g2 <;> simp only [hv] at h
    · have g1 : st1.log <+: st'.log := by
        have := grows_visit (grows_getAll (s := s)) l (st := st1) (out := out1)
        rwa [h] at this
      have hl' : ∀ e' ∈ l, ∃ o, (after st1.log : World F).objs e'.2 = some o ∧ o.isMetric = true := fun e' he' => by
        obtain ⟨o', h1, h2⟩ := hl e' (by simp [he'])
        obtain ⟨o'', h3, h4⟩ := kind_after g2 h1
        exact ⟨o'', h3, by rw [metric_of_ty h4]; exact h2⟩
      rcases ih hl' (fun e' he' p h5 h6 => hown e' (by simp [he']) p (g2.trans h5) h6) h with h1 | ⟨h1, e', he', h2⟩
      · exact .inl (callPanics_mono h1 g2 List.prefix_rfl)
      · exact .inr ⟨h1, e', by simp [he'], errorVanishes_mono h2 g2 List.prefix_rfl⟩
    · simp only [Prod.mk.injEq, Except.error.injEq] at h
      obtain ⟨⟨rfl, rfl⟩, rfl⟩ := h
      simp only [getAllCallbackLive, ho] at hv
      have hst : (valuesOfLive e.2 o s st).1 = st1 ∧ (valuesOfLive e.2 o s st).2 = .error p' := by
        rcases hx : valuesOfLive e.2 o s st with ⟨st2, q | vs⟩ <;> rw [hx] at hv <;> simp at hv
        exact ⟨hv.1.1, by rw [hv.2]⟩
      have h1 := values_live (s := s) ho hm (by rw [hst.1]; exact hown e (by simp))
      rw [hst.1, hst.2] at h1
      rcases h1 with h1 | ⟨h1, h2⟩
      · exact .inl h1
      · exact .inr ⟨h1, e, by simp, h2⟩

/-! ### No other goroutines -/

section alone
variable {env : Env F}

theorem alone_set (k : String) (r : Ref) (c : Call F) : ByItself env (setFieldLive k r c) (setField env k r c) := alone_bind (alone_call _ _) fun _ => alone_pure _
theorem alone_snapshotOf (r : Ref) : ByItself env (snapshotOfLive r) (snapshotOf env r) := alone_bind (alone_call _ _) fun o => by cases o <;> exact alone_pure _
theorem alone_histFields (q : Ref) : ByItself env (histFieldsLive q) (histFields env q) := by
  unfold histFieldsLive histFields
  repeat first | exact alone_pure _ | exact alone_call _ _ | exact alone_set _ _ _ | exact alone_lift _ | refine alone_bind ?_ fun _ => ?_
theorem alone_rateFields (q : Ref) : ByItself env (rateFieldsLive q) (rateFields env q) := by
  unfold rateFieldsLive rateFields
  repeat first | exact alone_pure _ | exact alone_set _ _ _ | refine alone_bind ?_ fun _ => ?_

/-- `valuesOf` after the type switch. -/
def valuesOfKind (env : Env F) (r : Ref) : Obj F → Act F (List (String × GoMetrics.Field F))
  | .counter _ => do return [← setField env "count" r .count]
  | .gauge _ => do return [← setField env "value" r .value]
  | .gaugeF _ => do return [← setField env "value" r .value]
  | .health _ => do
    let _ ← call env r .check
    match ← call env r .error with
    | .err (some _) =>
      match ← call env r .error with
      | .err (some e) => return [("error", .errText e)]
      | _ => Act.fail .nilDeref
    | _ => return [("error", .nil)]
  | .hist _ => do
    let h ← snapshotOf env r
    histFields env h
  | .meter _ => do
    let m ← snapshotOf env r
    let count ← setField env "count" m .count
    return count :: (← rateFields env m)
  | .timer _ => do
    let t ← snapshotOf env r
    return (← histFields env t) ++ (← rateFields env t)
  | _ => return []

theorem valuesOf_kind {w : World F} {r : Ref} {o : Obj F} (h : w.objs r = some o) : valuesOf env r w = valuesOfKind env r o w := by
  unfold valuesOf
  rw [act_bind]
  have : getObj r w = (w, .ok (some o)) := by rw [← h]; rfl
  rw [this]
  cases o <;> rfl

theorem alone_values (r : Ref) (o : Obj F) : ByItself env (valuesOfLive r o) (valuesOfKind env r o) := by
  cases o <;> simp only [valuesOfLive, valuesOfKind]
  case health =>
    refine alone_bind (alone_call _ _) fun _ => alone_bind (alone_call _ _) fun a => ?_
    cases a <;> first | exact alone_pure _ | skip
    rename_i e
    cases e with
    | none => exact alone_pure _
    | some e =>
      refine alone_bind (alone_call _ _) fun b => ?_
      cases b <;> first | exact alone_lift _ | skip
      rename_i e
      cases e with
      | none => exact alone_lift _
      | some e => exact alone_pure _
  all_goals repeat first | exact alone_pure _ | exact alone_set _ _ _ | exact alone_snapshotOf _ | exact alone_histFields _ | exact alone_rateFields _ | refine alone_bind ?_ fun _ => ?_

theorem alone_getAll (name : Str) (r : Ref) (st : LiveState F) (out : Data F) :
    getAllCallback env name r (after st.log, out) = ((after (getAllCallbackLive (fun _ => ⟨[], env⟩) name r (st, out)).1.1.log, (getAllCallbackLive (fun _ => ⟨[], env⟩) name r (st, out)).1.2), (getAllCallbackLive (fun _ => ⟨[], env⟩) name r (st, out)).2) := by
  rw [getAllCallback, getAllCallbackLive]
  simp only
  rcases ho : (after st.log : World F).objs r with _ | o
  · have : valuesOf env r (after st.log : World F) = (after st.log, .ok []) := by
      unfold valuesOf
      rw [act_bind]
      have : getObj r (after st.log : World F) = (after st.log, .ok none) := by rw [← ho]; rfl
      rw [this]
      rfl
    rw [this]
  · simp only
    rw [valuesOf_kind ho]
    have h := alone_values (env := env) r o st
    rcases he : valuesOfLive r o (fun _ => ⟨[], env⟩) st with ⟨st1, p | ev⟩ <;> rw [he] at h <;> rcases ha : valuesOfKind env r o (after st.log) with ⟨w1, q | u⟩ <;> rw [ha] at h <;> simp at h ⊢
    · obtain ⟨rfl, rfl⟩ := h; exact ⟨rfl, rfl⟩
    · obtain ⟨rfl, rfl⟩ := h; exact ⟨rfl, rfl⟩

end alone

end GoMetrics
