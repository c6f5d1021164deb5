import Verif.Lemmas.ExportReturns
import Verif.Lemmas.ExportBlocks
import Verif.Props.Registry
import Verif.Props.Stats

/-! C56 and C62, termination: `GetAll` and the exporters return. -/

set_option linter.unusedSimpArgs false
set_option linter.unusedSectionVars false

namespace GoMetrics
open Spec

section
variable {F : Type} [GoFloat F] [GoSqrt F] [GoExp F]

private theorem safe_writer : SafeSwitch (writerSwitch : Obj F → Option (Case F)) := by
  intro o c h
  cases o <;> simp only [writerSwitch, Option.some.injEq, reduceCtorEq] at h <;> subst h <;> rfl
private theorem safe_log (du : F) (sfx : Str) : SafeSwitch (logSwitch du sfx) := by
  intro o c h
  cases o <;> simp only [logSwitch, Option.some.injEq, reduceCtorEq] at h <;> subst h <;> rfl
private theorem safe_syslog : SafeSwitch (syslogSwitch : Obj F → Option (Case F)) := by
  intro o c h
  cases o <;> simp only [syslogSwitch, Option.some.injEq, reduceCtorEq] at h <;> subst h <;> rfl
theorem safe_stathat (key : Str) : SafeSwitch (stathatSwitch key : Obj F → Option (Case F)) := by
  intro o c h
  cases o <;> simp only [stathatSwitch, Option.some.injEq, reduceCtorEq] at h <;> subst h <;> rfl
private theorem safe_openTSDB (cfg : OpenTSDBConfig) (hu : Int64.ofInt (GoFloat.toInt (GoFloat.ofInt cfg.durationUnit.toInt : F)) ≠ 0) :
    SafeSwitch (openTSDBSwitch cfg : Obj F → Option (Case F)) := by
  intro o c h
  cases o <;> simp only [openTSDBSwitch, Option.some.injEq, reduceCtorEq] at h <;> subst h <;> first | rfl | simp [Stmt.safe, ArgExpr.safe, Expr.safe, hu, fivePercentiles]
private theorem safe_graphitePercentiles (cfg : GraphiteConfig F) : ((graphitePercentiles cfg).all (Stmt.safe cfg.percentiles.length)) = true := by
  simp only [graphitePercentiles, List.all_map, List.all_eq_true, Function.comp_apply]
  rintro ⟨x, i⟩ hx
  have := List.mem_zipIdx hx
  simp [Stmt.safe, ArgExpr.safe, Expr.safe]
  omega
private theorem safe_graphite (cfg : GraphiteConfig F) (hu : Int64.ofInt (GoFloat.toInt (GoFloat.ofInt cfg.durationUnit.toInt : F)) ≠ 0) :
    SafeSwitch (graphiteSwitch cfg) := by
  intro o c h
  have hp := safe_graphitePercentiles cfg
  cases o <;> simp only [graphiteSwitch, Option.some.injEq, reduceCtorEq] at h <;> subst h <;>
    simp only [List.all_append, Option.getD_some, hp, Bool.true_and, Bool.and_true] <;> simp [Stmt.safe, ArgExpr.safe, Expr.safe, hu]

private theorem each_returns {w : World F} (hw : w.Ok) {env : Env F} {g : Reg} {id : Nat} (hb : base g = some id) {sw : Obj F → Option (Case F)} (hsw : GoodSwitch sw) (hsafe : SafeSwitch sw)
    (h : ∀ name r o c, gets w id name = some r → (prefixes g).flatten <+: name → w.objs r = some o → sw o = some c → ReadsOk env w r (c.percentiles.getD [])) :
    ∃ y, each env g (exportMetric env sw) (w, []) = (y, .ok ()) := by
  rw [each, eachList_base env g id hb]
  refine visit_returns hsw hsafe hw _ (fun e he => ?_) (Seen.refl env hw)
  obtain ⟨h1, h2⟩ := (eachList_mem env g id hw e.1 e.2).1 he
  obtain ⟨o, ho, -⟩ := hw.metric id e (by rw [List.mem_filter, (env.order_perm _).mem_iff] at he; exact he.1)
  exact ⟨o, ho, fun c hc => h e.1 e.2 o c h1 h2 ho hc⟩

end

section
variable [GoSqrt F64] [GoExp F64] (h : List (Env F64 × Op F64)) (env : Env F64) (g : Reg) (id : Nat)

theorem reads_ieee {w : World F64} (hw : w.Ok) {pre : Str} (hs : SnapshotsReturn w env id pre) (hl : SamplesFit w) {name : Str} {r : Ref} (hr : gets w id name = some r) (hn : pre <+: name) {l : List F64}
    (hp : ∀ p ∈ l, p ≠ .nan) : ReadsOk env w r l := by
  refine readsOk_of hw (fun o ho hd => hs name r o hr hn ho hd) (fun o ho hd => ?_)
  have hty : HasTy w r .hist ∨ HasTy w r .timer := by
    cases o with
    | hist y => exact .inl ⟨_, ho, rfl⟩
    | timer y => exact .inr ⟨_, ho, rfl⟩
    | _ => simp [isDistribution] at hd
  rw [observe_stat hw hty]
  rcases hv : recorded w r with _ | vs
  · exact ⟨_, rfl⟩
  · obtain ⟨ss, ws, h1, -⟩ := C14_percentiles_total vs l hp (hl r vs hv)
    exact ⟨_, by simp only [readStat, statOf, h1]; rfl⟩

theorem five_ne_nan : ∀ p ∈ (fivePercentiles : List F64), p ≠ .nan := by decide +kernel
private theorem getAll_ne_nan : ∀ p ∈ (getAllPercentiles : List F64), p ≠ .nan := by decide +kernel

/-- C56, termination: `GetAll` returns if the snapshots do. -/
theorem C56_returns (hb : base g = some id) (hs : SnapshotsReturn (World.init.run h : World F64) env id []) (hl : SamplesFit (World.init.run h : World F64)) :
    ∃ w' data, getAll env g (World.init.run h : World F64) = (w', .ok (some data)) := by
  have hw := run_ok h (F := F64)
  generalize World.init.run h = w at *
  have e : getAll env g w = getAll env (.std id) w := by
    induction g with
    | std i => simp [base] at hb; rw [hb]
    | prefixed u p ih => exact ih hb
    | foreign => simp [base] at hb
  have e' : each env (.std id) (getAllCallback env) (w, []) = visit (getAllCallback env) (env.order (w.regs id)) (w, []) := rfl
  obtain ⟨⟨w', data⟩, hy⟩ := visit_getAll_returns (env := env) hw (env.order (w.regs id)) (fun e he => by
    have he' := (env.order_perm _).mem_iff.1 he
    obtain ⟨o, ho, -⟩ := hw.metric id e he'
    exact ⟨o, ho, reads_ieee env id hw hs hl (name := e.1) (by rw [gets_eq]; exact lookup_of_mem (hw.keys id) he') (by simp) getAll_ne_nan⟩) (d := []) (Seen.refl env hw)
  exact ⟨w', data, by rw [e, getAll, e', hy]⟩

/-- C62, termination: if the snapshots of the metrics return, so does every export: `WriteOnce`, `Log`, `LogScaled`, `Syslog`, StatHat; Graphite and OpenTSDB if the duration
unit is not 0 (and, for Graphite, no NaN is among the configured percentiles). -/
theorem C62_returns (hb : base g = some id) (hs : SnapshotsReturn (World.init.run h : World F64) env id (prefixes g).flatten) (hl : SamplesFit (World.init.run h : World F64)) :
    (∀ sorter, ∃ y, writeOnce env sorter g (World.init.run h : World F64) = (y, .ok ())) ∧
    (∀ scale s, ∃ y, logScaledOnce env g scale s (World.init.run h : World F64) = (y, .ok ())) ∧
    (∃ y, logOnce env g (World.init.run h : World F64) = (y, .ok ())) ∧
    (∃ y, syslogOnce env g (World.init.run h : World F64) = (y, .ok ())) ∧
    (∀ key, ∃ y, stathatOnce env key g (World.init.run h : World F64) = (y, .ok ())) ∧
    (∀ cfg : OpenTSDBConfig, Int64.ofInt (GoFloat.toInt (GoFloat.ofInt cfg.durationUnit.toInt : F64)) ≠ 0 → ∃ y, openTSDBOnce env cfg g (World.init.run h : World F64) = (y, .ok ())) ∧
    ∀ cfg : GraphiteConfig F64, Int64.ofInt (GoFloat.toInt (GoFloat.ofInt cfg.durationUnit.toInt : F64)) ≠ 0 → (∀ p ∈ cfg.percentiles, p ≠ .nan) →
      ∃ y, graphiteOnce env cfg g (World.init.run h : World F64) = (y, .ok ()) := by
  have hw := run_ok h (F := F64)
  generalize World.init.run h = w at *
  have hread : ∀ (c : Case F64) name r, gets w id name = some r → (prefixes g).flatten <+: name → (c.percentiles = none ∨ c.percentiles = some fivePercentiles) → ReadsOk env w r (c.percentiles.getD []) := by
    rintro c name r hr hn (hc | hc) <;> rw [hc]
    · exact reads_ieee env id hw hs hl hr hn (by simp)
    · exact reads_ieee env id hw hs hl hr hn five_ne_nan
  refine ⟨fun sorter => ?_, fun scale s => ?_, ?_, ?_, fun key => ?_, fun cfg hu => ?_, fun cfg hu hp => ?_⟩
  · have hcol : ∀ (l : List (Str × Ref)) (x : World F64) out, visit collect l (x, out) = ((x, out ++ l), .ok ()) := by
      intro l
      induction l with
      | nil => intro x out; simp [visit]
      | cons e l ih => intro x out; rw [visit]; simp only [collect]; rw [ih]; simp
    rw [writeOnce, each, eachList_base env g id hb]
    simp only [hcol, List.nil_append]
    refine visit_returns good_writer safe_writer hw _ (fun e he => ?_) (Seen.refl env hw)
    rw [(sorter.perm _).mem_iff] at he
    obtain ⟨h1, h2⟩ := (eachList_mem env g id hw e.1 e.2).1 he
    obtain ⟨o, ho, -⟩ := hw.metric id e (by rw [List.mem_filter, (env.order_perm _).mem_iff] at he; exact he.1)
    refine ⟨o, ho, fun c hc => hread c e.1 e.2 h1 h2 ?_⟩
    cases o <;> simp only [writerSwitch, Option.some.injEq, reduceCtorEq] at hc <;> subst hc <;> simp
  · refine each_returns hw hb (good_log _ _) (safe_log _ _) fun name r o c h1 h2 ho hc => hread c name r h1 h2 ?_
    cases o <;> simp only [logSwitch, Option.some.injEq, reduceCtorEq] at hc <;> subst hc <;> simp
  · refine each_returns hw hb (good_log _ _) (safe_log _ _) fun name r o c h1 h2 ho hc => hread c name r h1 h2 ?_
    cases o <;> simp only [logSwitch, Option.some.injEq, reduceCtorEq] at hc <;> subst hc <;> simp
  · refine each_returns hw hb good_syslog safe_syslog fun name r o c h1 h2 ho hc => hread c name r h1 h2 ?_
    cases o <;> simp only [syslogSwitch, Option.some.injEq, reduceCtorEq] at hc <;> subst hc <;> simp
  · refine each_returns hw hb (good_stathat _) (safe_stathat _) fun name r o c h1 h2 ho hc => hread c name r h1 h2 ?_
    cases o <;> simp only [stathatSwitch, Option.some.injEq, reduceCtorEq] at hc <;> subst hc <;> simp
  · refine each_returns hw hb (good_openTSDB _) (safe_openTSDB _ hu) fun name r o c h1 h2 ho hc => hread c name r h1 h2 ?_
    cases o <;> simp only [openTSDBSwitch, Option.some.injEq, reduceCtorEq] at hc <;> subst hc <;> simp
  · refine each_returns hw hb (good_graphite _) (safe_graphite _ hu) fun name r o c h1 h2 ho hc => reads_ieee env id hw hs hl h1 h2 ?_
    cases o <;> simp only [graphiteSwitch, Option.some.injEq, reduceCtorEq] at hc <;> subst hc <;> simp <;> exact fun p hp' => hp p hp'

end

-- A histogram "h" with 5 and 7 and a timer "t" with one event.
private def distHistory : List (Env F64 × Op F64) :=
  [(envAt 0, .new (.uniform 4)), (envAt 0, .new (.hist 0)), (envAt 0, .new (.uniform 4)), (envAt 0, .new (.hist 2)), (envAt 0, .new .meter), (envAt 0, .new (.customTimer 3 4)),
   (envAt 1, .call 1 (.update 5)), (envAt 1, .call 1 (.update 7)), (envAt 1, .call 5 (.updateD 2000)),
   (envAt 1, .reg (.std 0) (.register [104] (.obj 1))), (envAt 1, .reg (.std 0) (.register [116] (.obj 5)))]

private theorem dist_snapshots : SnapshotsReturn (World.init.run distHistory : World F64) (envAt 2) 0 [] := by
  intro name r o hr _ ho hd
  rw [gets_eq] at hr
  have hm := lookup_some_mem hr
  have e : (World.init.run distHistory : World F64).regs 0 = [([116], 5), ([104], 1)] := by decide +kernel
  rw [e] at hm
  simp only [List.mem_cons, Prod.mk.injEq, List.not_mem_nil, or_false] at hm
  rcases hm with ⟨-, rfl⟩ | ⟨-, rfl⟩ <;> exact ⟨_, rfl⟩

private theorem dist_fit : SamplesFit (World.init.run distHistory : World F64) := by
  intro r vs hv
  by_cases hr : r < 6
  · have : ∀ r < 6, ((recorded (World.init.run distHistory : World F64) r).map List.length).getD 0 ≤ 4 := by decide +kernel
    have := this r hr
    rw [hv] at this
    have h2 : (vs.length : Int) ≤ 4 := by simpa using this
    exact h2.trans (by decide)
  · have : (World.init.run distHistory : World F64).objs r = none := (run_ok distHistory).obj r (by
      have : (World.init.run distHistory : World F64).nextObj = 6 := by decide +kernel
      omega)
    simp [recorded, histRecorded, this] at hv

/-- The hypotheses of the theorems above can be met. -/
example : ∃ w' data, getAll (envAt 2) (.std 0) (World.init.run distHistory : World F64) = (w', .ok (some data)) := C56_returns distHistory (envAt 2) (.std 0) 0 rfl dist_snapshots dist_fit
example : ∃ y, syslogOnce (envAt 2) (.std 0) (World.init.run distHistory : World F64) = (y, .ok ()) := (C62_returns distHistory (envAt 2) (.std 0) 0 rfl dist_snapshots dist_fit).2.2.2.1

end GoMetrics
