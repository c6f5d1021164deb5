import Verif.Lemmas.Export

/-! When the cases of the exporters run to their end. -/

set_option linter.unusedSimpArgs false
set_option linter.unusedSectionVars false

namespace GoMetrics
open Spec

variable {F : Type} [GoFloat F] [GoSqrt F] [GoExp F]

/-- `Snapshot()` and `Percentiles(l)` of the metric return. -/
def ReadsOk (env : Env F) (w : World F) (r : Ref) (l : List F) : Prop :=
  ∀ o, w.objs r = some o → isDistribution o = true → histSnapOk w r ∧ timerSnapOk w r ∧ ∃ out, observe w env r (.stat (.percentiles l)) = .ok out

theorem Seen.readsOk {env : Env F} {w w' : World F} (h : Seen env w w') (hw : w.Ok) {r : Ref} {o : Obj F} (hr : w.objs r = some o) {l : List F} (hs : ReadsOk env w r l) :
    ReadsOk env w' r l := by
  intro o' ho' hd
  obtain ⟨o1, h1, h2⟩ := h.shape r o hr
  rw [ho'] at h1
  obtain rfl := Option.some.inj h1
  have hd' : isDistribution o = true := by
    rcases h2 with rfl | ⟨_, _, rfl, rfl⟩ | ⟨_, _, rfl, rfl⟩
    · exact hd
    · simp [isDistribution] at hd
    · simp [isDistribution] at hd
  have hne : o.ty ≠ .health := by cases o <;> simp [isDistribution, Obj.ty] at hd' ⊢
  obtain ⟨k1, k2, out, k3⟩ := hs o hr hd'
  exact ⟨h.histSnapOk hw hr k1, h.timerSnapOk hw hr k2, out, by rw [(h.other r o hr hne).2.1 _ (readOK_orderFree rfl)]; exact k3⟩

/-- From the outside: the snapshot returns. -/
theorem readsOk_of {env : Env F} {w : World F} (hw : w.Ok) {r : Ref} {l : List F} (h1 : ∀ o, w.objs r = some o → isDistribution o = true → ∃ out, (call env r .snapshot w).2 = .ok out)
    (h2 : ∀ o, w.objs r = some o → isDistribution o = true → ∃ out, observe w env r (.stat (.percentiles l)) = .ok out) : ReadsOk env w r l := by
  intro o ho hd
  obtain ⟨out, h3⟩ := h1 o ho hd
  refine ⟨?_, ?_, h2 o ho hd⟩
  · intro s hs
    rw [ho] at hs
    obtain rfl := Option.some.inj hs
    rw [call_obj ho] at h3
    exact (hist_snap_ok hw env ho).2 _ out (Prod.ext rfl h3) s ho
  · intro a b hs
    rw [ho] at hs
    obtain rfl := Option.some.inj hs
    rw [call_obj ho] at h3
    exact (timer_snap_ok hw env ho).2 _ out (Prod.ext rfl h3) a b ho

theorem snapshotOf_ref {env : Env F} {w w1 : World F} {r q : Ref} (h : call env r .snapshot w = (w1, .ok (.ref q))) : snapshotOf env r w = (w1, .ok q) := by
  simp only [snapshotOf, act_bind, h, act_pure]

theorem prepare_returns {env : Env F} {c : Case F} {r : Ref} {w : World F} {o : Obj F} (hw : w.Ok) (hr : w.objs r = some o) (hk : fitsKind o c)
    (hs : ReadsOk env w r (c.percentiles.getD [])) : ∃ w1 x ps, c.prepare env r w = (w1, .ok (x, ps)) := by
  have simple : c.check = false → c.snapshot = false → c.percentiles = none → ∃ w1 x ps, c.prepare env r w = (w1, .ok (x, ps)) := by
    intro h1 h2 h3
    simp only [Case.prepare, h1, h2, h3, Bool.false_eq_true, if_false, act_bind, act_pure]
    exact ⟨_, _, _, rfl⟩
  have dist : ∀ l w1 q, c.check = false → c.snapshot = true → c.percentiles = some l → call env r .snapshot w = (w1, .ok (.ref q)) →
      (∃ out, observe w env r (.stat (.percentiles l)) = .ok out) → ∃ w1 x ps, c.prepare env r w = (w1, .ok (x, ps)) := by
    rintro l w1 q h1 h2 h3 h4 ⟨out, h5⟩
    rw [← (snapshot_reads w hw env r w1 q h4).1 env _ rfl] at h5
    obtain ⟨w2, h6⟩ : ∃ w2, call env q (.stat (.percentiles l)) w1 = (w2, .ok out) := ⟨_, Prod.ext rfl h5⟩
    simp only [Case.prepare, h1, h2, h3, Bool.false_eq_true, if_false, if_true, act_bind, act_pure, snapshotOf_ref h4, h6]
    cases out <;> exact ⟨_, _, _, rfl⟩
  cases o with
  | counter y => exact simple hk.1 hk.2.1 hk.2.2
  | gauge y => exact simple hk.1 hk.2.1 hk.2.2
  | gaugeF y => exact simple hk.1 hk.2.1 hk.2.2
  | health y =>
    obtain ⟨k1, k2, k3⟩ := hk
    obtain ⟨hc, hseen⟩ := check_seen hw env hr
    simp only [Case.prepare, k1, k2, k3, Bool.false_eq_true, if_false, if_true, act_bind, act_pure, hc]
    exact ⟨_, _, _, rfl⟩
  | hist y =>
    obtain ⟨k1, k2, l, k3⟩ := hk
    obtain ⟨s1, -, s3⟩ := hs _ hr rfl
    rw [k3, Option.getD_some] at s3
    obtain ⟨w1, q, h1⟩ := (hist_snap_ok hw env hr).1 s1
    exact dist l w1 q k1 k2 k3 (by rw [call_obj hr]; exact h1) s3
  | timer y =>
    obtain ⟨k1, k2, l, k3⟩ := hk
    obtain ⟨-, s2, s3⟩ := hs _ hr rfl
    rw [k3, Option.getD_some] at s3
    obtain ⟨w1, q, h1⟩ := (timer_snap_ok hw env hr).1 s2
    exact dist l w1 q k1 k2 k3 (by rw [call_obj hr]; exact h1) s3
  | meter y =>
    obtain ⟨k1, k2, k3⟩ := hk
    obtain ⟨w1, q, h1, -⟩ := meter_snap w env r y hr
    have h4 : call env r .snapshot w = (w1, .ok (.ref q)) := by rw [call_obj hr]; exact h1
    simp only [Case.prepare, k1, k2, k3, Bool.false_eq_true, if_false, if_true, act_bind, act_pure, snapshotOf_ref h4]
    exact ⟨_, _, _, rfl⟩
  | sample y => exact hk.elim
  | ewma y => exact hk.elim

/-! ### Statements that cannot panic -/

/-- Only the first `n` percentiles are used, and nothing is divided by 0. -/
def Expr.safe (n : Nat) : Expr F → Bool
  | .get _ | .const _ => true
  | .ps i => decide (i < n)
  | .float e | .int e | .divFloat e _ => e.safe n
  | .divInt e d => e.safe n && decide (d ≠ 0)
def ArgExpr.safe (n : Nat) : ArgExpr F → Bool
  | .val e => e.safe n
  | _ => true
def Stmt.safe (n : Nat) : Stmt F → Bool
  | .printf _ as => as.all (ArgExpr.safe n)
  | .postCount _ _ e | .postValue _ _ e => e.safe n

theorem Expr.den_safe {val : Call F → GoMetrics.Field F} {ps : List F} {n : Nat} (hn : ∀ i < n, ∃ s, ps[i]? = some s) {e : Expr F} (h : e.safe n = true) :
    ∃ v, e.den val ps = .ok v := by
  induction e with
  | get c => exact ⟨_, rfl⟩
  | ps i =>
    obtain ⟨s, hs⟩ := hn i (by simpa [Expr.safe] using h)
    exact ⟨.float s, by simp [Expr.den, hs]⟩
  | const v => exact ⟨_, rfl⟩
  | float e ih => obtain ⟨v, hv⟩ := ih h; exact ⟨_, by simp only [Expr.den, hv]; rfl⟩
  | int e ih => exact ih h
  | divInt e d ih =>
    simp only [Expr.safe, Bool.and_eq_true, decide_eq_true_eq] at h
    obtain ⟨v, hv⟩ := ih h.1
    simp only [Expr.den, hv]
    cases v <;> simp [intDiv, h.2]
  | divFloat e d ih => obtain ⟨v, hv⟩ := ih h; exact ⟨_, by simp only [Expr.den, hv]; rfl⟩

theorem denArgs_safe {val : Call F → GoMetrics.Field F} {ps : List F} {name : Str} {n : Nat} (hn : ∀ i < n, ∃ s, ps[i]? = some s) {as : List (ArgExpr F)} (h : as.all (ArgExpr.safe n) = true) :
    ∃ v, denArgs name val ps as = .ok v := by
  induction as with
  | nil => exact ⟨_, rfl⟩
  | cons a as ih =>
    simp only [List.all_cons, Bool.and_eq_true] at h
    obtain ⟨vs, hvs⟩ := ih h.2
    cases a with
    | name => exact ⟨_, by simp only [denArgs, ArgExpr.den, hvs]; rfl⟩
    | str s => exact ⟨_, by simp only [denArgs, ArgExpr.den, hvs]; rfl⟩
    | val e =>
      obtain ⟨v, hv⟩ := Expr.den_safe (val := val) hn (e := e) h.1
      exact ⟨_, by simp only [denArgs, ArgExpr.den, hvs, hv]; rfl⟩

theorem Stmt.den_safe {val : Call F → GoMetrics.Field F} {ps : List F} {name : Str} {n : Nat} (hn : ∀ i < n, ∃ s, ps[i]? = some s) {s : Stmt F} (h : s.safe n = true) :
    ∃ v, s.den name val ps = .ok v := by
  cases s with
  | printf f as => obtain ⟨v, hv⟩ := denArgs_safe (val := val) (name := name) hn h; exact ⟨_, by simp only [Stmt.den, hv]; rfl⟩
  | postCount s key e => obtain ⟨v, hv⟩ := Expr.den_safe (val := val) hn (e := e) h; exact ⟨_, by simp only [Stmt.den, hv]; rfl⟩
  | postValue s key e => obtain ⟨v, hv⟩ := Expr.den_safe (val := val) hn (e := e) h; exact ⟨_, by simp only [Stmt.den, hv]; rfl⟩

/-- No case of the switch can panic in its statements. -/
def SafeSwitch (sw : Obj F → Option (Case F)) : Prop :=
  ∀ o c, sw o = some c → (c.body.all (Stmt.safe (c.percentiles.getD []).length)) = true

theorem runStmts_returns {env : Env F} {name : Str} {x : Ref} {ps : List F} {w : World F} {val : Call F → GoMetrics.Field F} {ss : List (Stmt F)}
    (h : ∀ s ∈ ss, ∀ c ∈ s.calls, ∃ out, call env x c w = (w, .ok out) ∧ val c = out.shown)
    (hd : ∀ s ∈ ss, ∃ v, s.den name val ps = .ok v) (out : List (Event F)) : ∃ y, runStmts env name x ps ss (w, out) = (y, none) := by
  induction ss generalizing out with
  | nil => exact ⟨_, rfl⟩
  | cons s ss ih =>
    obtain ⟨ev, hev⟩ := hd s (by simp)
    simp only [runStmts, stmt_den (h s (by simp)), hev]
    exact ih (fun s hs => h s (by simp [hs])) (fun s hs => hd s (by simp [hs])) _

theorem exportMetric_returns {env : Env F} {sw : Obj F → Option (Case F)} (hsw : GoodSwitch sw) (hsafe : SafeSwitch sw) {name : Str} {r : Ref} {w : World F} {o : Obj F} {out : List (Event F)}
    (hw : w.Ok) (hr : w.objs r = some o) (hread : ∀ c, sw o = some c → ReadsOk env w r (c.percentiles.getD [])) : ∃ y, exportMetric env sw name r (w, out) = (y, none) := by
  simp only [exportMetric, hr]
  cases hs : sw o with
  | none => exact ⟨_, rfl⟩
  | some c =>
    obtain ⟨w1, x, ps, hp⟩ := prepare_returns hw hr (hsw.fit o c hs) (hread c hs)
    have P := prepare_ok hw hr (hsw.fit o c hs) hp
    simp only [runCase, hp]
    let val : Call F → GoMetrics.Field F := fun d => match (call env x d w1).2 with | .ok out => out.shown | .error _ => .nil
    have hval : ∀ d, readable o d = true → ∃ out, call env x d w1 = (w1, .ok out) ∧ val d = out.shown := by
      intro d hd
      obtain ⟨out, h1, -⟩ := P.read d hd
      exact ⟨out, h1, by simp only [val, h1]⟩
    refine runStmts_returns (val := val) (fun s hs' d hd => hval d (List.all_eq_true.1 (List.all_eq_true.1 (hsw.calls o c hs) s hs') d hd))
      (fun s hs' => Stmt.den_safe (n := (c.percentiles.getD []).length) (fun i hi => ?_) (List.all_eq_true.1 (hsafe o c hs) s hs')) _
    cases hl : c.percentiles with
    | none => simp [hl] at hi
    | some l =>
      rw [hl, Option.getD_some] at hi
      obtain ⟨s, h1, -⟩ := P.pct l i l[i] hl (List.getElem?_eq_getElem hi)
      exact ⟨s, h1⟩

theorem Seen.ty_of {env : Env F} {w w1 : World F} (hs : Seen env w w1) {r : Ref} {o : Obj F} (ho : w.objs r = some o) : ∃ o1, w1.objs r = some o1 ∧ o1.ty = o.ty := by
  obtain ⟨o1, h1, h2⟩ := hs.shape r o ho
  refine ⟨o1, h1, ?_⟩
  rcases h2 with rfl | ⟨_, _, rfl, rfl⟩ | ⟨_, _, rfl, rfl⟩ <;> rfl

theorem visit_returns {env : Env F} {sw : Obj F → Option (Case F)} (hsw : GoodSwitch sw) (hsafe : SafeSwitch sw) {w : World F} (hw : w.Ok) (l : List (Str × Ref))
    (hl : ∀ e ∈ l, ∃ o, w.objs e.2 = some o ∧ ∀ c, sw o = some c → ReadsOk env w e.2 (c.percentiles.getD [])) :
    ∀ {w1 : World F} {out : List (Event F)}, Seen env w w1 → ∃ y, visit (exportMetric env sw) l (w1, out) = (y, .ok ()) := by
  induction l with
  | nil => intro w1 out hs; exact ⟨_, rfl⟩
  | cons e l ih =>
    intro w1 out hs
    obtain ⟨o, ho, hread⟩ := hl e (by simp)
    obtain ⟨o1, ho1, hty⟩ := hs.ty_of ho
    obtain ⟨⟨w2, out2⟩, h2⟩ := exportMetric_returns (env := env) (name := e.1) (out := out) hsw hsafe hs.ok ho1
      (fun c hc => hs.readsOk hw ho (hread c (by rw [← hsw.ty o1 o hty]; exact hc)))
    obtain ⟨hs2, -⟩ := exportMetric_ok hsw hs.ok ho1 h2
    obtain ⟨y, hy⟩ := ih (fun e he => hl e (by simp [he])) (out := out2) (hs.trans hs2)
    exact ⟨y, by simp only [visit, h2, hy]⟩

/-! ### `GetAll` -/

theorem prepare_split {env : Env F} {l : List F} {r x : Ref} {ps : List F} {w w1 : World F} {o : Obj F} (hw : w.Ok) (hr : w.objs r = some o) (hd : isDistribution o = true)
    (h : ({ snapshot := true, percentiles := some l, body := [] } : Case F).prepare env r w = (w1, .ok (x, ps))) :
    ∃ w0, snapshotOf env r w = (w0, .ok x) ∧ call env x (.stat (.percentiles l)) w0 = (w1, .ok (.floats ps)) := by
  simp only [Case.prepare, Bool.false_eq_true, if_false, if_true] at h
  obtain ⟨w0, q, h1, h⟩ := bind_ok h
  obtain ⟨w2, out, h2, h⟩ := bind_ok h
  have h1' := h1
  rw [snapshotOf] at h1'
  obtain ⟨w3, out', h3, h4⟩ := bind_ok h1'
  have hok : w3.Ok := by have := (hw.call env r .snapshot).1; rwa [h3] at this
  obtain ⟨q', rfl⟩ : ∃ q, out' = .ref q := by
    rw [call_obj hr] at h3
    cases o with
    | hist y => exact hist_out hw hr h3
    | timer y => exact timer_out hw hr h3
    | _ => simp [isDistribution] at hd
  simp only [act_pure, Prod.mk.injEq, Except.ok.injEq] at h4
  obtain ⟨rfl, rfl⟩ := h4
  have hty : HasTy w3 q' .hist ∨ HasTy w3 q' .timer := by
    have h3' := h3
    rw [call_obj hr] at h3
    cases o with
    | hist y =>
      obtain ⟨hf, -⟩ := hist_snap False w hw env r y hr False.elim w3 q' h3
      rcases hf with ⟨s, h, -⟩ | h <;> exact .inl ⟨_, h, rfl⟩
    | timer y =>
      obtain ⟨hf, -⟩ := timer_snap False w hw env r y hr False.elim w3 q' h3
      rcases hf with ⟨_, _, h, -⟩ | h <;> exact .inr ⟨_, h, rfl⟩
    | _ => simp [isDistribution] at hd
  have h5 : observe w3 env q' (.stat (.percentiles l)) = .ok out := by rw [observe, h2]
  rw [observe_stat hok hty] at h5
  obtain ⟨ss, rfl, -⟩ := readStat_percentiles h5
  simp only [act_pure, Prod.mk.injEq, Except.ok.injEq] at h
  obtain ⟨rfl, rfl, rfl⟩ := h
  exact ⟨w3, h1, h2⟩

theorem at_returns {ps : List F} {i : Nat} {s : F} (h : ps[i]? = some s) : (Out.floats ps).at i = .ok (.float s) := by
  simp [Out.at, index, h]

theorem valuesOf_returns {env : Env F} {r : Ref} {w : World F} {o : Obj F} (hw : w.Ok) (hr : w.objs r = some o) (hs : ReadsOk env w r getAllPercentiles) :
    ∃ w1 vs, valuesOf env r w = (w1, .ok vs) := by
  have dist : isDistribution o = true → ∃ w0 w1 x, snapshotOf env r w = (w0, .ok x) ∧ (∃ vs, histFields env x w0 = (w1, .ok vs)) ∧
      ∀ c, readable o c = true → ∃ out, call env x c w1 = (w1, .ok out) := by
    intro hd
    have hk : fitsKind o ({ snapshot := true, percentiles := some getAllPercentiles, body := [] } : Case F) := by
      cases o with
      | hist y => exact ⟨rfl, rfl, _, rfl⟩
      | timer y => exact ⟨rfl, rfl, _, rfl⟩
      | _ => simp [isDistribution] at hd
    obtain ⟨w1, x, ps, hp⟩ := prepare_returns hw hr hk hs
    have P := prepare_ok hw hr hk hp
    obtain ⟨w0, h1, h2⟩ := prepare_split hw hr hd hp
    have rd : ∀ c, readable o c = true → ∃ out, call env x c w1 = (w1, .ok out) := fun c hc => by
      obtain ⟨out, h3, -⟩ := P.read c hc
      exact ⟨out, h3⟩
    refine ⟨w0, w1, x, h1, ?_, rd⟩
    obtain ⟨o1, e1⟩ := rd .count (by cases o <;> first | rfl | simp [isDistribution] at hd)
    obtain ⟨o2, e2⟩ := rd (.stat .min) (by cases o <;> first | rfl | simp [isDistribution] at hd)
    obtain ⟨o3, e3⟩ := rd (.stat .max) (by cases o <;> first | rfl | simp [isDistribution] at hd)
    obtain ⟨o4, e4⟩ := rd (.stat .mean) (by cases o <;> first | rfl | simp [isDistribution] at hd)
    obtain ⟨o5, e5⟩ := rd (.stat .stdDev) (by cases o <;> first | rfl | simp [isDistribution] at hd)
    obtain ⟨s0, p0, -⟩ := P.pct _ 0 _ rfl rfl
    obtain ⟨s1, p1, -⟩ := P.pct _ 1 _ rfl rfl
    obtain ⟨s2, p2, -⟩ := P.pct _ 2 _ rfl rfl
    obtain ⟨s3, p3, -⟩ := P.pct _ 3 _ rfl rfl
    obtain ⟨s4, p4, -⟩ := P.pct _ 4 _ rfl rfl
    simp only [histFields, setField, act_bind, h2, e1, e2, e3, e4, e5, act_pure, act_lift, at_returns p0, at_returns p1, at_returns p2, at_returns p3, at_returns p4]
    exact ⟨_, rfl⟩
  have rates : ∀ {w1 : World F} {x : Ref}, (∀ c, ∃ out, call env x (.rates c) w1 = (w1, .ok out)) → ∃ vs, rateFields env x w1 = (w1, .ok vs) := by
    intro w1 x h
    obtain ⟨o1, e1⟩ := h .rate1
    obtain ⟨o2, e2⟩ := h .rate5
    obtain ⟨o3, e3⟩ := h .rate15
    obtain ⟨o4, e4⟩ := h .rateMean
    simp only [rateFields, setField, act_bind, e1, e2, e3, e4, act_pure]
    exact ⟨_, rfl⟩
  cases o with
  | counter y =>
    obtain ⟨out, h1, -⟩ := (prepare_ok (c := { body := [] }) (ps := []) (x := r) (env := env) hw hr ⟨rfl, rfl, rfl⟩ rfl).read .count rfl
    rw [valuesOf, act_bind_getObj, hr]; simp only [act_bind, setField, h1, act_pure]; exact ⟨_, _, rfl⟩
  | gauge y =>
    obtain ⟨out, h1, -⟩ := (prepare_ok (c := { body := [] }) (ps := []) (x := r) (env := env) hw hr ⟨rfl, rfl, rfl⟩ rfl).read .value rfl
    rw [valuesOf, act_bind_getObj, hr]; simp only [act_bind, setField, h1, act_pure]; exact ⟨_, _, rfl⟩
  | gaugeF y =>
    obtain ⟨out, h1, -⟩ := (prepare_ok (c := { body := [] }) (ps := []) (x := r) (env := env) hw hr ⟨rfl, rfl, rfl⟩ rfl).read .value rfl
    rw [valuesOf, act_bind_getObj, hr]; simp only [act_bind, setField, h1, act_pure]; exact ⟨_, _, rfl⟩
  | health y =>
    obtain ⟨hc, -⟩ := check_seen hw env hr
    generalize hw1 : ({ w with objs := Function.update w.objs r (some (.health (y.check env.checkFn))) } : World F) = w1 at *
    have hr1 : w1.objs r = some (.health (y.check env.checkFn)) := by rw [← hw1]; exact Function.update_self ..
    have herr : call env r .error w1 = (w1, .ok (.err (y.check env.checkFn).error)) := by rw [call_obj hr1]; rfl
    rw [valuesOf, act_bind_getObj, hr]; simp only [act_bind, hc, herr, act_pure]
    generalize (y.check env.checkFn).error = e at *
    cases e with
    | none => exact ⟨_, _, rfl⟩
    | some e => simp only [act_bind, herr]; exact ⟨_, _, rfl⟩
  | hist y =>
    obtain ⟨w0, w1, x, h1, ⟨vs, h2⟩, -⟩ := dist rfl
    rw [valuesOf, act_bind_getObj, hr]; simp only [act_bind, h1, h2]
    exact ⟨_, _, rfl⟩
  | timer y =>
    obtain ⟨w0, w1, x, h1, ⟨vs, h2⟩, h3⟩ := dist rfl
    obtain ⟨vs', h4⟩ := rates (w1 := w1) (x := x) fun c => h3 _ rfl
    rw [valuesOf, act_bind_getObj, hr]; simp only [act_bind, h1, h2, h4]
    exact ⟨_, _, rfl⟩
  | meter y =>
    obtain ⟨w1, x, ps, hp⟩ := prepare_returns (env := env) (c := { snapshot := true, body := [] }) hw hr ⟨rfl, rfl, rfl⟩ (by intro o ho hd; rw [hr] at ho; cases ho; simp [isDistribution] at hd)
    have P := prepare_ok hw hr ⟨rfl, rfl, rfl⟩ hp
    have h1 : snapshotOf env r w = (w1, .ok x) := by
      simp only [Case.prepare, Bool.false_eq_true, if_false, if_true] at hp
      obtain ⟨w0, q, h1, h⟩ := bind_ok hp
      simp only [act_pure, Prod.mk.injEq, Except.ok.injEq] at h
      obtain ⟨rfl, rfl, rfl⟩ := h
      exact h1
    obtain ⟨out, h2, -⟩ := P.read .count rfl
    obtain ⟨vs', h4⟩ := rates (w1 := w1) (x := x) fun c => by obtain ⟨out, h5, -⟩ := P.read (.rates c) rfl; exact ⟨out, h5⟩
    rw [valuesOf, act_bind_getObj, hr]; simp only [act_bind, setField, h1, h2, h4, act_pure]
    exact ⟨_, _, rfl⟩
  | sample y => exact ⟨_, _, by rw [valuesOf, act_bind_getObj, hr]; rfl⟩
  | ewma y => exact ⟨_, _, by rw [valuesOf, act_bind_getObj, hr]; rfl⟩

theorem visit_getAll_returns {env : Env F} {w : World F} (hw : w.Ok) (l : List (Str × Ref)) (hl : ∀ e ∈ l, ∃ o, w.objs e.2 = some o ∧ ReadsOk env w e.2 getAllPercentiles) :
    ∀ {w1 : World F} {d : Data F}, Seen env w w1 → ∃ y, visit (getAllCallback env) l (w1, d) = (y, .ok ()) := by
  induction l with
  | nil => intro w1 d hs; exact ⟨_, rfl⟩
  | cons e l ih =>
    intro w1 d hs
    obtain ⟨o, ho, hread⟩ := hl e (by simp)
    obtain ⟨o1, ho1, hty⟩ := hs.ty_of ho
    obtain ⟨w2, vs, h2⟩ := valuesOf_returns (env := env) hs.ok ho1 (hs.readsOk hw ho hread)
    obtain ⟨hs2, -⟩ := valuesOf_ok hs.ok ho1 h2
    obtain ⟨y, hy⟩ := ih (fun e he => hl e (by simp [he])) (d := d ++ [(e.1, vs)]) (hs.trans hs2)
    exact ⟨y, by simp only [visit, getAllCallback, h2]; exact hy⟩

end GoMetrics
