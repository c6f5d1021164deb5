import Verif.Lemmas.GetAll
import Verif.Lemmas.WorldReg
import Verif.Spec.Export

/-! Execution of the exporters' cases: every argument printed is the value of an accessor in the state in which the export began. -/

set_option linter.unusedSimpArgs false
set_option linter.unusedSectionVars false

namespace GoMetrics
open Spec

variable {F : Type} [GoFloat F] [GoSqrt F] [GoExp F]

/-- The accessors that an exporter may use on a metric like `o`. -/
def readable : Obj F → Call F → Bool
  | .counter _, .count | .gauge _, .value | .gaugeF _, .value | .health _, .error => true
  | .hist _, .count | .timer _, .count | .meter _, .count => true
  | .meter _, .rates _ | .timer _, .rates _ => true
  | .hist _, .stat .min | .hist _, .stat .max | .hist _, .stat .mean | .hist _, .stat .stdDev => true
  | .timer _, .stat .min | .timer _, .stat .max | .timer _, .stat .mean | .timer _, .stat .stdDev => true
  | _, _ => false

theorem readable_accessor {o : Obj F} {c : Call F} (h : readable o c = true) : accessor c = true ∧ ∀ s, c = .stat s → s.sorts = false := by
  constructor
  · cases o <;> cases c <;> first | rfl | simp [readable] at h
  · rintro s rfl
    cases o <;> cases s <;> first | rfl | simp [readable] at h

theorem readable_ty {o o' : Obj F} (h : o.ty = o'.ty) (c : Call F) : readable o c = readable o' c := by
  cases o <;> cases o' <;> simp [Obj.ty] at h <;> cases c <;> (try rfl) <;> (rename_i s; cases s <;> rfl)

theorem Shown.holds {w : World F} {env : Env F} {r : Ref} {kc : String × Call F} {kf : String × GoMetrics.Field F} (h : Shown w env r kc kf) :
    Holds w env r kc.2 kf.2 := ⟨h.2.1, fun e => (h.2.2 e).2⟩

/-- The type of the values. -/
def typed (o : Obj F) : Call F → GoMetrics.Field F → Prop
  | .count, v | .stat .min, v | .stat .max, v => ∃ n, v = .int n
  | .value, v => match o with | .gaugeF _ => ∃ b, v = .bits b | _ => ∃ n, v = .int n
  | .error, v => v = .nil ∨ ∃ e, v = .errText e
  | _, v => ∃ x, v = .float x

theorem typed_ty {o o' : Obj F} (h : o.ty = o'.ty) (c : Call F) (v : GoMetrics.Field F) : typed o c v ↔ typed o' c v := by
  cases o <;> cases o' <;> simp [Obj.ty] at h <;> cases c <;> rfl

/-- What is known after the first part of a case: the state is as before for all observers, and reads on `x` give the values of `r`. -/
structure Prepared (env : Env F) (w w1 : World F) (r x : Ref) (o : Obj F) (pcts : Option (List F)) (ps : List F) : Prop where
  seen : Seen env w w1
  read : ∀ c, readable o c = true → ∃ out, call env x c w1 = (w1, .ok out) ∧ Shown w env r ("", c) ("", out.shown) ∧ typed o c out.shown
  pct : ∀ l (i : Nat) p, pcts = some l → l[i]? = some p → ∃ s, ps[i]? = some s ∧ Shown w env r ("", .stat (.percentile p)) ("", .float s)

/-- How each kind must be treated. -/
def fitsKind (o : Obj F) (c : Case F) : Prop :=
  match o with
  | .counter _ | .gauge _ | .gaugeF _ => c.check = false ∧ c.snapshot = false ∧ c.percentiles = none
  | .health _ => c.check = true ∧ c.snapshot = false ∧ c.percentiles = none
  | .meter _ => c.check = false ∧ c.snapshot = true ∧ c.percentiles = none
  | .hist _ | .timer _ => c.check = false ∧ c.snapshot = true ∧ ∃ l, c.percentiles = some l
  | _ => False

theorem call_ok_same {w : World F} {env : Env F} {r : Ref} {o : Obj F} {c : Call F} (hc : readable o c = true) {out : Out F} (h : observe w env r c = .ok out) :
    call env r c w = (w, .ok out) := by
  obtain ⟨h1, h2⟩ := readable_accessor hc
  have := call_same h1 h2 (w := w) (env := env) (r := r)
  exact Prod.ext this h

theorem shown_intro {w : World F} {env : Env F} {r : Ref} {o : Obj F} (h : w.objs r = some o) (ho : o.ty ≠ .health) {c : Call F}
    {out : Out F} (hc : orderFree c = true) (hs : observe w env r c = .ok out) (hsh : shows (.ok out) out.shown) : Shown w env r ("", c) ("", out.shown) :=
  shown_of_field h ho hc (by rw [hs]; exact hsh)

/-- Reads of a snapshot of a distribution that has been sorted by a percentile read. -/
theorem sorted_read {env : Env F} {q : Ref} {w : World F} (hw : w.Ok) {l : List F} {ps : Out F} {w1 : World F}
    (hq : FrozenHist False w q ∨ FrozenTimer False w q) (h0 : call env q (.stat (.percentiles l)) w = (w1, .ok ps)) {o : Obj F} (ho : w.objs q = some o) :
    Sim w w1 ∧ w1.Ok ∧ (∀ c, readable o c = true → ∃ out, call env q c w1 = (w1, .ok out) ∧ Shown w env q ("", c) ("", out.shown) ∧ typed o c out.shown) ∧
    ∃ ss, ps = .floats ss ∧ ∀ (i : Nat) p, l[i]? = some p → ∃ s, ss[i]? = some s ∧ Shown w env q ("", .stat (.percentile p)) ("", .float s) := by
  have hty : HasTy w q .hist ∨ HasTy w q .timer := by
    rcases hq with (⟨_, h, -⟩ | h) | ⟨_, _, h, -⟩ | h
    · exact .inl ⟨_, h, rfl⟩
    · exact .inl ⟨_, h, rfl⟩
    · exact .inr ⟨_, h, rfl⟩
    · exact .inr ⟨_, h, rfl⟩
  have hne : o.ty ≠ .health := by
    rcases hty with ⟨o', h, e⟩ | ⟨o', h, e⟩ <;> (rw [ho] at h; simp at h; subst h; rw [e]; simp)
  have hsort := frozen_sorts (env := env) hq l
  have hsim := sim_call w env q (.stat (.percentiles l)) rfl
  have hok := (hw.call env q (.stat (.percentiles l))).1
  have hps : observe w env q (.stat (.percentiles l)) = .ok ps := by rw [observe, h0]
  rw [h0] at hsort hsim hok
  simp only at hsort hsim hok
  rw [observe_stat hw hty] at hps
  have hty1 : HasTy w1 q .hist ∨ HasTy w1 q .timer := by
    obtain ⟨⟨o', h1, h2⟩, -⟩ := (hsim.seen hok env).other q o ho hne
    rcases hty with ⟨o'', h, e⟩ | ⟨o'', h, e⟩
    · rw [ho] at h; simp at h; subst h; exact .inl ⟨o', h1, h2.trans e⟩
    · rw [ho] at h; simp at h; subst h; exact .inr ⟨o', h1, h2.trans e⟩
  obtain ⟨ss, rfl, hss⟩ := readStat_percentiles hps
  have ofree : ∀ (c : Call F) (out : Out F), orderFree c = true → observe w1 env q c = .ok out → shows (.ok out) out.shown → Shown w env q ("", c) ("", out.shown) := by
    intro c out hc ho' hs
    refine shown_of_field ho hne hc ?_
    rw [← hsim.observe env q c (readOK_orderFree hc), ho']
    exact hs
  refine ⟨hsim, hok, fun c hc => ?_, ss, rfl, fun i p hp => ?_⟩
  · have key : ∃ out, observe w1 env q c = .ok out ∧ Shown w env q ("", c) ("", out.shown) ∧ typed o c out.shown := by
      have hcount : c = .count → ∃ out, observe w1 env q c = .ok out ∧ Shown w env q ("", c) ("", out.shown) ∧ typed o c out.shown := by
        rintro rfl
        obtain ⟨n, hn⟩ := observe_count hok (env := env) (r := q) (by tauto)
        exact ⟨_, hn, ofree _ _ rfl hn rfl, _, rfl⟩
      have hrates : ∀ x, c = .rates x → HasTy w1 q .timer → ∃ out, observe w1 env q c = .ok out ∧ Shown w env q ("", c) ("", out.shown) ∧ typed o c out.shown := by
        rintro x rfl ht
        obtain ⟨n, hn⟩ := observe_rates hok (env := env) (r := q) (.inl ht) x
        exact ⟨_, hn, ofree _ _ rfl hn rfl, _, rfl⟩
      have hstat : ∀ x, c = .stat x → (x = .min ∨ x = .max ∨ x = .mean ∨ x = .stdDev) → ∃ out, observe w1 env q c = .ok out ∧ Shown w env q ("", c) ("", out.shown) ∧ typed o c out.shown := by
        rintro x rfl hx
        rcases hx with rfl | rfl | rfl | rfl
        · rcases hv : recorded w1 q with _ | l'
          · have : observe w1 env q (.stat .min) = .ok (.int 0) := by rw [observe_stat hok hty1, hv]; rfl
            exact ⟨_, this, ofree _ _ rfl this rfl, _, rfl⟩
          · have : observe w1 env q (.stat .min) = .ok (.int (sampleMin l')) := by rw [observe_stat hok hty1, hv]; rfl
            exact ⟨_, this, ofree _ _ rfl this rfl, _, rfl⟩
        · rcases hv : recorded w1 q with _ | l'
          · have : observe w1 env q (.stat .max) = .ok (.int 0) := by rw [observe_stat hok hty1, hv]; rfl
            exact ⟨_, this, ofree _ _ rfl this rfl, _, rfl⟩
          · have : observe w1 env q (.stat .max) = .ok (.int (sampleMax l')) := by rw [observe_stat hok hty1, hv]; rfl
            exact ⟨_, this, ofree _ _ rfl this rfl, _, rfl⟩
        · rcases hv : recorded w1 q with _ | l'
          · have : observe w1 env q (.stat .mean) = .ok (.float (GoFloat.lit 0)) := by rw [observe_stat hok hty1, hv]; rfl
            exact ⟨_, this, ofree _ _ rfl this rfl, _, rfl⟩
          · have : observe w1 env q (.stat .mean) = .ok (.float (sampleMean l')) := by rw [observe_stat hok hty1, hv]; rfl
            exact ⟨_, this, ofree _ _ rfl this rfl, _, rfl⟩
        · have : observe w1 env q (.stat .stdDev) = .ok (.float (sortedDev (recorded w q))) := by
            rw [observe_stat hok hty1, hsort]
            rcases recorded w q with _ | l' <;> rfl
          exact ⟨_, this, ⟨rfl, fun _ => rfl, fun h => absurd rfl h⟩, _, rfl⟩
      rcases hty1 with ht | ht
      · obtain ⟨o1, h1, h2⟩ := ht
        have e : o.ty = .hist := by
          obtain ⟨⟨o', h3, h4⟩, -⟩ := (hsim.seen hok env).other q o ho hne
          rw [h1] at h3; simp at h3; subst h3; rw [← h4, h2]
        cases o <;> simp [Obj.ty] at e
        cases c <;> simp [readable] at hc
        · exact hcount rfl
        · rename_i s
          refine hstat s rfl ?_
          cases s <;> simp at hc <;> simp
      · obtain ⟨o1, h1, h2⟩ := ht
        have e : o.ty = .timer := by
          obtain ⟨⟨o', h3, h4⟩, -⟩ := (hsim.seen hok env).other q o ho hne
          rw [h1] at h3; simp at h3; subst h3; rw [← h4, h2]
        cases o <;> simp [Obj.ty] at e
        cases c <;> simp [readable] at hc
        · exact hcount rfl
        · rename_i s
          refine hstat s rfl ?_
          cases s <;> simp at hc <;> simp
        · exact hrates _ rfl ⟨_, h1, h2⟩
    obtain ⟨out, h1, h2⟩ := key
    exact ⟨out, call_ok_same hc h1, h2⟩
  · obtain ⟨s', h1, h2⟩ := hss i p hp
    refine ⟨s', h1, shown_of_field ho hne rfl ?_⟩
    rw [observe_stat hw hty, h2]
    rfl

/-- The first part of a case that fits the kind of the metric. -/
theorem prepare_ok {env : Env F} {c : Case F} {r x : Ref} {ps : List F} {w w1 : World F} {o : Obj F} (hw : w.Ok) (hr : w.objs r = some o) (hk : fitsKind o c)
    (h : c.prepare env r w = (w1, .ok (x, ps))) : Prepared env w w1 r x o c.percentiles ps := by
  have simple : o.ty ≠ .health → c.check = false → c.snapshot = false → c.percentiles = none →
      (∀ d, readable o d = true → orderFree d = true ∧ ∃ out, observe w env r d = .ok out ∧ shows (.ok out) out.shown ∧ typed o d out.shown) → Prepared env w w1 r x o c.percentiles ps := by
    intro hne h1 h2 h3 h4
    simp only [Case.prepare, h1, h2, h3, Bool.false_eq_true, if_false, act_bind, act_pure, Prod.mk.injEq, Except.ok.injEq] at h
    obtain ⟨rfl, rfl, rfl⟩ := h
    refine ⟨Seen.refl env hw, fun d hd => ?_, fun l i p hl => by rw [h3] at hl; simp at hl⟩
    obtain ⟨h5, out, h6, h7, h8⟩ := h4 d hd
    exact ⟨out, call_ok_same hd h6, shown_intro hr hne h5 h6 h7, h8⟩
  cases o with
  | counter y =>
    refine simple (by simp [Obj.ty]) hk.1 hk.2.1 hk.2.2 fun d hd => ?_
    cases d <;> simp [readable] at hd
    exact ⟨rfl, _, read_obj hr _ rfl, rfl, _, rfl⟩
  | gauge y =>
    refine simple (by simp [Obj.ty]) hk.1 hk.2.1 hk.2.2 fun d hd => ?_
    cases d <;> simp [readable] at hd
    exact ⟨rfl, _, read_obj hr _ rfl, rfl, _, rfl⟩
  | gaugeF y =>
    refine simple (by simp [Obj.ty]) hk.1 hk.2.1 hk.2.2 fun d hd => ?_
    cases d <;> simp [readable] at hd
    exact ⟨rfl, _, read_obj hr _ rfl, rfl, _, rfl⟩
  | health y =>
    obtain ⟨k1, k2, k3⟩ := hk
    obtain ⟨hc, hseen⟩ := check_seen hw env hr
    simp only [Case.prepare, k1, k2, k3, Bool.false_eq_true, if_false, if_true, act_bind, act_pure, hc, Prod.mk.injEq, Except.ok.injEq] at h
    obtain ⟨rfl, rfl, rfl⟩ := h
    refine ⟨hseen, fun d hd => ?_, fun l i p hl => by rw [k3] at hl; simp at hl⟩
    cases d <;> simp [readable] at hd
    generalize hw1 : ({ w with objs := Function.update w.objs r (some (.health (y.check env.checkFn))) } : World F) = w1 at *
    have hr1 : w1.objs r = some (.health (y.check env.checkFn)) := by rw [← hw1]; exact Function.update_self ..
    have herr : call env r .error w1 = (w1, .ok (.err (y.check env.checkFn).error)) := by rw [call_obj hr1]; rfl
    have hch : checked env w r = w1 := by unfold checked; rw [hr]; simp only; rw [hc]
    refine ⟨_, herr, ⟨rfl, by simp, fun _ => ⟨rfl, ?_⟩⟩, ?_⟩
    · simp only
      rw [hch, observe, herr]
      rcases (y.check env.checkFn).error with _ | e <;> rfl
    · rcases (y.check env.checkFn).error with _ | e
      · exact .inl rfl
      · exact .inr ⟨_, rfl⟩
  | hist y =>
    obtain ⟨k1, k2, l, k3⟩ := hk
    simp only [Case.prepare, k1, k2, k3, Bool.false_eq_true, if_false, if_true] at h
    obtain ⟨w2, q', h1, h⟩ := bind_ok h
    obtain ⟨w3, out, h2, h3⟩ := bind_ok h1
    have h2' := h2
    rw [call_obj hr] at h2'
    obtain ⟨q, rfl⟩ := hist_out hw hr h2'
    simp only [act_pure, Prod.mk.injEq, Except.ok.injEq] at h3
    obtain ⟨rfl, rfl⟩ := h3
    obtain ⟨hf, -, -⟩ := hist_snap False w hw env r y hr False.elim w3 q h2'
    obtain ⟨hobs, hext⟩ := snapshot_reads w hw env r w3 q h2
    have hok : w3.Ok := by have := (hw.call env r .snapshot).1; rwa [h2] at this
    obtain ⟨z, hz⟩ : ∃ y, w3.objs q = some (.hist y) := by rcases hf with ⟨s, h, -⟩ | h <;> exact ⟨_, h⟩
    obtain ⟨w4, out, h4, h⟩ := bind_ok h
    obtain ⟨hsim, hok', hread, ss, rfl, hpct⟩ := sorted_read hok (.inl hf) h4 hz
    simp only [act_pure, Prod.mk.injEq, Except.ok.injEq] at h
    obtain ⟨rfl, rfl, rfl⟩ := h
    have hrec : recorded w3 q = recorded w r := by
      have := hist_recorded hw hr h2'
      simp only [recorded, hr, hz]
      exact this
    have src : ∀ a b, Shown w3 env q a b → Shown w env r a b := fun a b hab =>
      shown_source hr hz (by simp [Obj.ty]) (by simp [Obj.ty]) (hobs env) hrec hab
    refine ⟨(hext.seen hw hok env).trans (hsim.seen hok' env), fun d hd => ?_, fun l' i p hl hp => ?_⟩
    · obtain ⟨out, h5, h6⟩ := hread d ((readable_ty (o := .hist z) (o' := .hist y) rfl d).trans hd)
      exact ⟨out, h5, src _ _ h6.1, (typed_ty (by rfl) d _).1 h6.2⟩
    · rw [k3] at hl
      simp at hl
      subst hl
      obtain ⟨s, h5, h6⟩ := hpct i p hp
      exact ⟨s, h5, src _ _ h6⟩
  | timer y =>
    obtain ⟨k1, k2, l, k3⟩ := hk
    simp only [Case.prepare, k1, k2, k3, Bool.false_eq_true, if_false, if_true] at h
    obtain ⟨w2, q', h1, h⟩ := bind_ok h
    obtain ⟨w3, out, h2, h3⟩ := bind_ok h1
    have h2' := h2
    rw [call_obj hr] at h2'
    obtain ⟨q, rfl⟩ := timer_out hw hr h2'
    simp only [act_pure, Prod.mk.injEq, Except.ok.injEq] at h3
    obtain ⟨rfl, rfl⟩ := h3
    obtain ⟨hf, -, -⟩ := timer_snap False w hw env r y hr False.elim w3 q h2'
    obtain ⟨hobs, hext⟩ := snapshot_reads w hw env r w3 q h2
    have hok : w3.Ok := by have := (hw.call env r .snapshot).1; rwa [h2] at this
    obtain ⟨z, hz⟩ : ∃ y, w3.objs q = some (.timer y) := by rcases hf with ⟨_, _, h, -⟩ | h <;> exact ⟨_, h⟩
    obtain ⟨w4, out, h4, h⟩ := bind_ok h
    obtain ⟨hsim, hok', hread, ss, rfl, hpct⟩ := sorted_read hok (.inr hf) h4 hz
    simp only [act_pure, Prod.mk.injEq, Except.ok.injEq] at h
    obtain ⟨rfl, rfl, rfl⟩ := h
    have hrec := timer_recorded hw hr h2'
    have src : ∀ a b, Shown w3 env q a b → Shown w env r a b := fun a b hab =>
      shown_source hr hz (by simp [Obj.ty]) (by simp [Obj.ty]) (hobs env) hrec hab
    refine ⟨(hext.seen hw hok env).trans (hsim.seen hok' env), fun d hd => ?_, fun l' i p hl hp => ?_⟩
    · obtain ⟨out, h5, h6⟩ := hread d ((readable_ty (o := .timer z) (o' := .timer y) rfl d).trans hd)
      exact ⟨out, h5, src _ _ h6.1, (typed_ty (by rfl) d _).1 h6.2⟩
    · rw [k3] at hl
      simp at hl
      subst hl
      obtain ⟨s, h5, h6⟩ := hpct i p hp
      exact ⟨s, h5, src _ _ h6⟩
  | meter y =>
    obtain ⟨k1, k2, k3⟩ := hk
    simp only [Case.prepare, k1, k2, k3, Bool.false_eq_true, if_false, if_true] at h
    obtain ⟨w2, q', h1, h⟩ := bind_ok h
    obtain ⟨w2', out, h2, h3⟩ := bind_ok h1
    have h2' := h2
    rw [call_obj hr] at h2'
    obtain ⟨w3, q, h4, hf, -, -⟩ := meter_snap w env r y hr
    have h2'' : meterCall env r y .snapshot w = (w2', .ok out) := h2'
    rw [h4] at h2''
    simp only [Prod.mk.injEq, Except.ok.injEq] at h2''
    obtain ⟨rfl, rfl⟩ := h2''
    simp only [act_pure, Prod.mk.injEq, Except.ok.injEq] at h3
    obtain ⟨rfl, rfl⟩ := h3
    obtain ⟨hobs, hext⟩ := snapshot_reads w hw env r w3 q h2
    have hok : w3.Ok := by have := (hw.call env r .snapshot).1; rwa [h2] at this
    obtain ⟨z, hz⟩ : ∃ y, w3.objs q = some (.meter y) := by rcases hf with ⟨s, h⟩ | h <;> exact ⟨_, h⟩
    simp only [act_pure, Prod.mk.injEq, Except.ok.injEq] at h
    obtain ⟨rfl, rfl, rfl⟩ := h
    have hrec : recorded w3 q = recorded w r := by simp [recorded, histRecorded, hr, hz]
    refine ⟨hext.seen hw hok env, fun d hd => ?_, fun l' i p hl hp => by rw [k3] at hl; simp at hl⟩
    have key : ∃ out, observe w3 env q d = .ok out ∧ orderFree d = true ∧ shows (.ok out) out.shown ∧ typed (.meter y) d out.shown := by
      cases d <;> simp [readable] at hd
      · obtain ⟨n, hn⟩ := observe_count hok (env := env) (r := q) (.inr (.inr ⟨_, hz, rfl⟩))
        exact ⟨_, hn, rfl, rfl, _, rfl⟩
      · rename_i d
        obtain ⟨n, hn⟩ := observe_rates hok (env := env) (r := q) (.inr ⟨_, hz, rfl⟩) d
        exact ⟨_, hn, rfl, rfl, _, rfl⟩
    obtain ⟨out, h5, h6, h7, h8⟩ := key
    exact ⟨out, call_ok_same hd h5, shown_source hr hz (by simp [Obj.ty]) (by simp [Obj.ty]) (hobs env) hrec (shown_intro hz (by simp [Obj.ty]) h6 h5 h7), h8⟩
  | sample y => exact hk.elim
  | ewma y => exact hk.elim

/-! ### The statements -/

/-- Evaluation with the accessors' values given. -/
def Expr.den (val : Call F → GoMetrics.Field F) (ps : List F) : Expr F → Res (GoMetrics.Field F)
  | .get c => .ok (val c)
  | .ps i => match ps[i]? with | some v => .ok (.float v) | none => .error .index
  | .const v => .ok v
  | .float e => match e.den val ps with | .ok v => .ok (toFloat v) | .error p => .error p
  | .int e => e.den val ps
  | .divInt e d => match e.den val ps with | .ok v => intDiv v d | .error p => .error p
  | .divFloat e d => match e.den val ps with | .ok v => .ok (floatDiv v d) | .error p => .error p

def ArgExpr.den (name : Str) (val : Call F → GoMetrics.Field F) (ps : List F) : ArgExpr F → Res (FmtArg (GoMetrics.Field F))
  | .name => .ok (.str name)
  | .str s => .ok (.str s)
  | .val e => match e.den val ps with | .ok v => .ok (.val v) | .error p => .error p

def denArgs (name : Str) (val : Call F → GoMetrics.Field F) (ps : List F) : List (ArgExpr F) → Res (List (FmtArg (GoMetrics.Field F)))
  | [] => .ok []
  | a :: as => match a.den name val ps with
    | .ok v => match denArgs name val ps as with | .ok vs => .ok (v :: vs) | .error p => .error p
    | .error p => .error p

def Stmt.den (name : Str) (val : Call F → GoMetrics.Field F) (ps : List F) : Stmt F → Res (Event F)
  | .printf f as => match denArgs name val ps as with | .ok vs => .ok (.print (sprintf f vs)) | .error p => .error p
  | .postCount s key e => match e.den val ps with | .ok v => .ok (.count (name ++ bytes s) key v) | .error p => .error p
  | .postValue s key e => match e.den val ps with | .ok v => .ok (.value (name ++ bytes s) key v) | .error p => .error p

/-- The accessors used. -/
def Expr.calls : Expr F → List (Call F)
  | .get c => [c]
  | .ps _ | .const _ => []
  | .float e | .int e | .divInt e _ | .divFloat e _ => e.calls
def ArgExpr.calls : ArgExpr F → List (Call F)
  | .val e => e.calls
  | _ => []
def Stmt.calls : Stmt F → List (Call F)
  | .printf _ as => as.flatMap ArgExpr.calls
  | .postCount _ _ e | .postValue _ _ e => e.calls

section den
variable {env : Env F} {x : Ref} {w : World F} {ps : List F} {val : Call F → GoMetrics.Field F} {name : Str}

theorem expr_den {e : Expr F} (h : ∀ c ∈ e.calls, ∃ out, call env x c w = (w, .ok out) ∧ val c = out.shown) : e.eval env x ps w = (w, e.den val ps) := by
  induction e with
  | get c =>
    obtain ⟨out, h1, h2⟩ := h c (by simp [Expr.calls])
    simp only [Expr.eval, act_bind, h1, act_pure, Expr.den, h2]
  | ps i => rfl
  | const v => rfl
  | float e ih => simp only [Expr.eval, act_bind, ih h, act_pure, Expr.den]; cases e.den val ps <;> rfl
  | int e ih => exact ih h
  | divInt e d ih => simp only [Expr.eval, act_bind, ih h, act_pure, Expr.den, act_lift]; cases e.den val ps <;> rfl
  | divFloat e d ih => simp only [Expr.eval, act_bind, ih h, act_pure, Expr.den]; cases e.den val ps <;> rfl

theorem argExpr_den {e : ArgExpr F} (h : ∀ c ∈ e.calls, ∃ out, call env x c w = (w, .ok out) ∧ val c = out.shown) :
    e.eval env name x ps w = (w, e.den name val ps) := by
  cases e with
  | name => rfl
  | str s => rfl
  | val e => simp only [ArgExpr.eval, act_bind, expr_den h, act_pure, ArgExpr.den]; cases e.den val ps <;> rfl

theorem evalArgs_den {as : List (ArgExpr F)} (h : ∀ c ∈ as.flatMap ArgExpr.calls, ∃ out, call env x c w = (w, .ok out) ∧ val c = out.shown) :
    evalArgs env name x ps as w = (w, denArgs name val ps as) := by
  induction as with
  | nil => rfl
  | cons a as ih =>
    have h1 : a.eval env name x ps w = (w, a.den name val ps) := argExpr_den fun c hc => h c (by simp [hc])
    have h2 := ih fun c hc => h c (by simp only [List.flatMap_cons, List.mem_append]; exact .inr hc)
    simp only [evalArgs, act_bind, h1, denArgs]
    cases a.den name val ps with
    | error p => rfl
    | ok v =>
      simp only [h2]
      cases denArgs name val ps as <;> rfl

theorem stmt_den {s : Stmt F} (h : ∀ c ∈ s.calls, ∃ out, call env x c w = (w, .ok out) ∧ val c = out.shown) :
    s.exec env name x ps w = (w, s.den name val ps) := by
  cases s with
  | printf f as => simp only [Stmt.exec, act_bind, evalArgs_den h, Stmt.den]; cases denArgs name val ps as <;> rfl
  | postCount s key e => simp only [Stmt.exec, act_bind, expr_den h, Stmt.den]; cases e.den val ps <;> rfl
  | postValue s key e => simp only [Stmt.exec, act_bind, expr_den h, Stmt.den]; cases e.den val ps <;> rfl

theorem runStmts_den {ss : List (Stmt F)} (h : ∀ s ∈ ss, ∀ c ∈ s.calls, ∃ out, call env x c w = (w, .ok out) ∧ val c = out.shown) {out : List (Event F)} {y : World F × List (Event F)}
    (hr : runStmts env name x ps ss (w, out) = (y, none)) : ∃ evs, y = (w, out ++ evs) ∧ List.Forall₂ (fun s e => s.den name val ps = .ok e) ss evs := by
  induction ss generalizing out with
  | nil =>
    simp only [runStmts, Prod.mk.injEq, and_true] at hr
    exact ⟨[], by simp [← hr], .nil⟩
  | cons s ss ih =>
    simp only [runStmts, stmt_den (h s (by simp))] at hr
    cases hs : s.den name val ps with
    | error p => simp [hs] at hr
    | ok ev =>
      simp only [hs] at hr
      obtain ⟨evs, h1, h2⟩ := ih (fun s hs => h s (by simp [hs])) hr
      exact ⟨ev :: evs, by rw [h1]; simp, .cons hs h2⟩

end den

/-- One metric: what the case `c` has printed for it. -/
def CaseOut (w : World F) (env : Env F) (name : Str) (r : Ref) (o : Obj F) (c : Case F) (evs : List (Event F)) : Prop :=
  ∃ val ps, (∀ c, readable o c = true → Holds w env r c (val c) ∧ typed o c (val c)) ∧
    (∀ l (i : Nat) p, c.percentiles = some l → l[i]? = some p → ∃ s, ps[i]? = some s ∧ Holds w env r (.stat (.percentile p)) (.float s)) ∧
    List.Forall₂ (fun s e => s.den name val ps = .ok e) c.body evs

/-- The switch treats each kind of metric as it should be. -/
structure GoodSwitch (sw : Obj F → Option (Case F)) : Prop where
  ty : ∀ o o' : Obj F, o.ty = o'.ty → sw o = sw o'
  fit : ∀ o c, sw o = some c → fitsKind o c
  calls : ∀ o c, sw o = some c → (c.body.all fun s => s.calls.all (readable o)) = true

theorem exportMetric_ok {env : Env F} {sw : Obj F → Option (Case F)} (hsw : GoodSwitch sw) {name : Str} {r : Ref} {w w1 : World F} {o : Obj F} {out out1 : List (Event F)}
    (hw : w.Ok) (hr : w.objs r = some o) (h : exportMetric env sw name r (w, out) = ((w1, out1), none)) :
    Seen env w w1 ∧ ∃ evs, out1 = out ++ evs ∧ ((sw o = none ∧ evs = []) ∨ ∃ c val ps, sw o = some c ∧ 
      (∀ d, readable o d = true → Shown w env r ("", d) ("", val d) ∧ typed o d (val d)) ∧
      (∀ l (i : Nat) p, c.percentiles = some l → l[i]? = some p → ∃ s, ps[i]? = some s ∧ Shown w env r ("", .stat (.percentile p)) ("", .float s)) ∧
      List.Forall₂ (fun s e => s.den name val ps = .ok e) c.body evs) := by
  rw [exportMetric] at h
  simp only [hr] at h
  cases hs : sw o with
  | none =>
    simp only [hs, Prod.mk.injEq, and_true] at h
    obtain ⟨rfl, rfl⟩ := h
    exact ⟨Seen.refl env hw, [], by simp, .inl ⟨rfl, rfl⟩⟩
  | some c =>
    simp only [hs, runCase] at h
    rcases hp : c.prepare env r w with ⟨w2, p | ⟨x, ps⟩⟩
    · simp [hp] at h
    · simp only [hp] at h
      have P := prepare_ok hw hr (hsw.fit o c hs) hp
      let val : Call F → GoMetrics.Field F := fun d => match (call env x d w2).2 with | .ok out => out.shown | .error _ => .nil
      have hval : ∀ d, readable o d = true → ∃ out, call env x d w2 = (w2, .ok out) ∧ val d = out.shown := by
        intro d hd
        obtain ⟨out, h1, -⟩ := P.read d hd
        exact ⟨out, h1, by simp only [val, h1]⟩
      obtain ⟨evs, h1, h2⟩ := runStmts_den (val := val) (fun s hs' d hd => hval d (List.all_eq_true.1 (List.all_eq_true.1 (hsw.calls o c hs) s hs') d hd)) h
      simp only [Prod.mk.injEq] at h1
      obtain ⟨rfl, rfl⟩ := h1
      refine ⟨P.seen, evs, rfl, .inr ⟨c, val, ps, rfl, fun d hd => ?_, P.pct, h2⟩⟩
      obtain ⟨out, h3, h4⟩ := P.read d hd
      simpa only [val, h3] using h4

/-- All metrics. -/
theorem visit_export {env : Env F} {sw : Obj F → Option (Case F)} (hsw : GoodSwitch sw) {w : World F} (l : List (Str × Ref)) (hl : ∀ e ∈ l, ∃ o, w.objs e.2 = some o) :
    ∀ {w1 w2 : World F} {out out' : List (Event F)}, Seen env w w1 → visit (exportMetric env sw) l (w1, out) = ((w2, out'), .ok ()) →
      Seen env w w2 ∧ ∃ blocks, out' = out ++ blocks.flatten ∧ List.Forall₂ (fun e evs => ∃ o, w.objs e.2 = some o ∧
        ((sw o = none ∧ evs = []) ∨ ∃ c, sw o = some c ∧ CaseOut w env e.1 e.2 o c evs)) l blocks := by
  induction l with
  | nil =>
    intro w1 w2 out out' hs h
    simp only [visit, Prod.mk.injEq, and_true] at h
    obtain ⟨rfl, rfl⟩ := h
    exact ⟨hs, [], by simp, .nil⟩
  | cons e l ih =>
    intro w1 w2 out out' hs h
    obtain ⟨o, ho⟩ := hl e (by simp)
    rw [visit] at h
    rcases hv : exportMetric env sw e.1 e.2 (w1, out) with ⟨⟨w3, out3⟩, _ | p⟩
    · simp only [hv] at h
      obtain ⟨o1, ho1, hty⟩ : ∃ o1, w1.objs e.2 = some o1 ∧ o1.ty = o.ty := by
        by_cases hh : o.ty = .health
        · cases o <;> simp [Obj.ty] at hh
          rcases hs.health _ _ ho with h5 | h5 <;> exact ⟨_, h5, rfl⟩
        · obtain ⟨⟨o1, h1, h2⟩, -⟩ := hs.other _ _ ho hh
          exact ⟨o1, h1, h2⟩
      obtain ⟨hs1, evs, rfl, hf⟩ := exportMetric_ok hsw hs.ok ho1 hv
      obtain ⟨hs2, blocks, h3, h4⟩ := ih (fun e he => hl e (by simp [he])) (hs.trans hs1) h
      refine ⟨hs2, evs :: blocks, by rw [h3]; simp, .cons ⟨o, ho, ?_⟩ h4⟩
      rw [hsw.ty o1 o hty] at hf
      rcases hf with hf | ⟨c, val, ps, h5, h6, h7, h8⟩
      · exact .inl hf
      · refine .inr ⟨c, h5, val, ps, fun d hd => ?_, fun l' i p hl' hp => ?_, h8⟩
        · have := h6 d (by rw [readable_ty hty]; exact hd)
          exact ⟨(hs.shown ho this.1).holds, (typed_ty hty d _).1 this.2⟩
        · obtain ⟨s, h9, h10⟩ := h7 l' i p hl' hp
          exact ⟨s, h9, (hs.shown ho h10).holds⟩
    · simp [hv] at h

end GoMetrics
