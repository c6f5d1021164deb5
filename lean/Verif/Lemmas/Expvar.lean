import Verif.Lemmas.ExportBlocks
import Verif.Lemmas.ExportReturns
import Verif.Props.Registry
import Verif.Spec.Expvar

/-! The expvar handler does to the table of variables what the list of events of the corresponding printing exporter says. -/

set_option linter.unusedSimpArgs false
set_option linter.unusedSectionVars false

namespace GoMetrics
open Spec

variable {F : Type} [GoFloat F] [GoSqrt F] [GoExp F]

theorem good_exp : GoodSwitch (expSwitch : Obj F → Option (Case F)) := by
  refine ⟨fun o o' h => ?_, fun o c h => ?_, fun o c h => ?_⟩
  · cases o <;> cases o' <;> simp [Obj.ty] at h <;> rfl
  · cases o <;> simp [expSwitch] at h <;> subst h <;> simp [fitsKind]
  · cases o <;> simp only [expSwitch, Option.some.injEq, reduceCtorEq] at h <;> subst h <;> rfl

theorem safe_exp : SafeSwitch (expSwitch : Obj F → Option (Case F)) := by
  intro o c h
  cases o <;> simp only [expSwitch, Option.some.injEq, reduceCtorEq] at h <;> subst h <;> rfl

/-- The event for a row. -/
def expEvent (o : Obj F) (name : Str) (row : String × GoMetrics.Field F) : Event F :=
  if isIntVar o row.1 then .count (varName name row.1) [] row.2 else .value (varName name row.1) [] row.2

def RowShows (w : World F) (env : Env F) (r : Ref) (o : Obj F) (row : String × GoMetrics.Field F) (_ : String) : Prop :=
  ∃ c v, means o row.1 = some c ∧ Holds w env r c v ∧ (row.2 = if isIntVar o row.1 then v else asFloat v) ∧ hasKind (isIntVar o row.1) (varOf row.2) = true

theorem exp_block {w : World F} {env : Env F} {name : Str} {r : Ref} {o : Obj F} {evs : List (Event F)} {c : Case F}  (hc : expSwitch o = some c)
    (h : CaseOut w env name r o c evs) : ∃ rows, rows.map Prod.fst = expLabels o ∧ List.Forall₂ (RowShows w env r o) rows (expLabels o) ∧ evs = rows.map (expEvent o name) := by
  obtain ⟨val, ps, hv, hp, hf⟩ := h
  cases o with
  | counter x =>
    simp only [expSwitch, Option.some.injEq] at hc
    subst hc
    obtain ⟨h0, n0, e0⟩ := hv .count rfl
    rw [e0] at h0
    refine ⟨[("", .int n0)], rfl, (.cons ⟨_, _, rfl, h0, rfl, rfl⟩ .nil), ?_⟩
    exact evs_eq hf (es := [("", .int n0)].map (expEvent (.counter x) name)) (by
      simp only [List.map, Stmt.den, denArgs, ArgExpr.den, Expr.den, toFloat, floatDiv, e0]
      rfl)
  | gauge x =>
    simp only [expSwitch, Option.some.injEq] at hc
    subst hc
    obtain ⟨h0, n0, e0⟩ := hv .value rfl
    rw [e0] at h0
    refine ⟨[("", .int n0)], rfl, (.cons ⟨_, _, rfl, h0, rfl, rfl⟩ .nil), ?_⟩
    exact evs_eq hf (es := [("", .int n0)].map (expEvent (.gauge x) name)) (by
      simp only [List.map, Stmt.den, denArgs, ArgExpr.den, Expr.den, toFloat, floatDiv, e0]
      rfl)
  | gaugeF x =>
    simp only [expSwitch, Option.some.injEq] at hc
    subst hc
    obtain ⟨h0, n0, e0⟩ := hv .value rfl
    rw [e0] at h0
    refine ⟨[("", .bits n0)], rfl, (.cons ⟨_, _, rfl, h0, rfl, rfl⟩ .nil), ?_⟩
    exact evs_eq hf (es := [("", .bits n0)].map (expEvent (.gaugeF x) name)) (by
      simp only [List.map, Stmt.den, denArgs, ArgExpr.den, Expr.den, toFloat, floatDiv, e0]
      rfl)
  | hist x =>
    simp only [expSwitch, Option.some.injEq, five_eq] at hc
    subst hc
    obtain ⟨h0, n0, e0⟩ := hv .count rfl
    rw [e0] at h0
    obtain ⟨h1, n1, e1⟩ := hv (.stat .min) rfl
    rw [e1] at h1
    obtain ⟨h2, n2, e2⟩ := hv (.stat .max) rfl
    rw [e2] at h2
    obtain ⟨h3, n3, e3⟩ := hv (.stat .mean) rfl
    rw [e3] at h3
    obtain ⟨h4, n4, e4⟩ := hv (.stat .stdDev) rfl
    rw [e4] at h4
    obtain ⟨s0, p0, q0⟩ := hp _ 0 _ rfl rfl
    obtain ⟨s1, p1, q1⟩ := hp _ 1 _ rfl rfl
    obtain ⟨s2, p2, q2⟩ := hp _ 2 _ rfl rfl
    obtain ⟨s3, p3, q3⟩ := hp _ 3 _ rfl rfl
    obtain ⟨s4, p4, q4⟩ := hp _ 4 _ rfl rfl
    refine ⟨[("count", .int n0), ("min", .float (GoFloat.ofInt n1.toInt)), ("max", .float (GoFloat.ofInt n2.toInt)), ("mean", .float n3), ("std-dev", .float n4), ("50-percentile", .float s0), ("75-percentile", .float s1), ("95-percentile", .float s2), ("99-percentile", .float s3), ("999-percentile", .float s4)], rfl, (.cons ⟨_, _, rfl, h0, rfl, rfl⟩ <| .cons ⟨_, _, rfl, h1, rfl, rfl⟩ <| .cons ⟨_, _, rfl, h2, rfl, rfl⟩ <| .cons ⟨_, _, rfl, h3, rfl, rfl⟩ <| .cons ⟨_, _, rfl, h4, rfl, rfl⟩ <| .cons ⟨_, _, rfl, q0, rfl, rfl⟩ <| .cons ⟨_, _, rfl, q1, rfl, rfl⟩ <| .cons ⟨_, _, rfl, q2, rfl, rfl⟩ <| .cons ⟨_, _, rfl, q3, rfl, rfl⟩ <| .cons ⟨_, _, rfl, q4, rfl, rfl⟩ .nil), ?_⟩
    exact evs_eq hf (es := [("count", .int n0), ("min", .float (GoFloat.ofInt n1.toInt)), ("max", .float (GoFloat.ofInt n2.toInt)), ("mean", .float n3), ("std-dev", .float n4), ("50-percentile", .float s0), ("75-percentile", .float s1), ("95-percentile", .float s2), ("99-percentile", .float s3), ("999-percentile", .float s4)].map (expEvent (.hist x) name)) (by
      simp only [List.map, Stmt.den, denArgs, ArgExpr.den, Expr.den, toFloat, floatDiv, e0, e1, e2, e3, e4, p0, p1, p2, p3, p4]
      rfl)
  | meter x =>
    simp only [expSwitch, Option.some.injEq] at hc
    subst hc
    obtain ⟨h0, n0, e0⟩ := hv .count rfl
    rw [e0] at h0
    obtain ⟨h1, n1, e1⟩ := hv (.rates .rate1) rfl
    rw [e1] at h1
    obtain ⟨h2, n2, e2⟩ := hv (.rates .rate5) rfl
    rw [e2] at h2
    obtain ⟨h3, n3, e3⟩ := hv (.rates .rate15) rfl
    rw [e3] at h3
    obtain ⟨h4, n4, e4⟩ := hv (.rates .rateMean) rfl
    rw [e4] at h4
    refine ⟨[("count", .int n0), ("one-minute", .float n1), ("five-minute", .float n2), ("fifteen-minute", .float n3), ("mean", .float n4)], rfl, (.cons ⟨_, _, rfl, h0, rfl, rfl⟩ <| .cons ⟨_, _, rfl, h1, rfl, rfl⟩ <| .cons ⟨_, _, rfl, h2, rfl, rfl⟩ <| .cons ⟨_, _, rfl, h3, rfl, rfl⟩ <| .cons ⟨_, _, rfl, h4, rfl, rfl⟩ .nil), ?_⟩
    exact evs_eq hf (es := [("count", .int n0), ("one-minute", .float n1), ("five-minute", .float n2), ("fifteen-minute", .float n3), ("mean", .float n4)].map (expEvent (.meter x) name)) (by
      simp only [List.map, Stmt.den, denArgs, ArgExpr.den, Expr.den, toFloat, floatDiv, e0, e1, e2, e3, e4]
      rfl)
  | timer x =>
    simp only [expSwitch, Option.some.injEq, five_eq] at hc
    subst hc
    obtain ⟨h0, n0, e0⟩ := hv .count rfl
    rw [e0] at h0
    obtain ⟨h1, n1, e1⟩ := hv (.stat .min) rfl
    rw [e1] at h1
    obtain ⟨h2, n2, e2⟩ := hv (.stat .max) rfl
    rw [e2] at h2
    obtain ⟨h3, n3, e3⟩ := hv (.stat .mean) rfl
    rw [e3] at h3
    obtain ⟨h4, n4, e4⟩ := hv (.stat .stdDev) rfl
    rw [e4] at h4
    obtain ⟨h5, n5, e5⟩ := hv (.rates .rate1) rfl
    rw [e5] at h5
    obtain ⟨h6, n6, e6⟩ := hv (.rates .rate5) rfl
    rw [e6] at h6
    obtain ⟨h7, n7, e7⟩ := hv (.rates .rate15) rfl
    rw [e7] at h7
    obtain ⟨h8, n8, e8⟩ := hv (.rates .rateMean) rfl
    rw [e8] at h8
    obtain ⟨s0, p0, q0⟩ := hp _ 0 _ rfl rfl
    obtain ⟨s1, p1, q1⟩ := hp _ 1 _ rfl rfl
    obtain ⟨s2, p2, q2⟩ := hp _ 2 _ rfl rfl
    obtain ⟨s3, p3, q3⟩ := hp _ 3 _ rfl rfl
    obtain ⟨s4, p4, q4⟩ := hp _ 4 _ rfl rfl
    refine ⟨[("count", .int n0), ("min", .float (GoFloat.ofInt n1.toInt)), ("max", .float (GoFloat.ofInt n2.toInt)), ("mean", .float n3), ("std-dev", .float n4), ("50-percentile", .float s0), ("75-percentile", .float s1), ("95-percentile", .float s2), ("99-percentile", .float s3), ("999-percentile", .float s4), ("one-minute", .float n5), ("five-minute", .float n6), ("fifteen-minute", .float n7), ("mean-rate", .float n8)], rfl, (.cons ⟨_, _, rfl, h0, rfl, rfl⟩ <| .cons ⟨_, _, rfl, h1, rfl, rfl⟩ <| .cons ⟨_, _, rfl, h2, rfl, rfl⟩ <| .cons ⟨_, _, rfl, h3, rfl, rfl⟩ <| .cons ⟨_, _, rfl, h4, rfl, rfl⟩ <| .cons ⟨_, _, rfl, q0, rfl, rfl⟩ <| .cons ⟨_, _, rfl, q1, rfl, rfl⟩ <| .cons ⟨_, _, rfl, q2, rfl, rfl⟩ <| .cons ⟨_, _, rfl, q3, rfl, rfl⟩ <| .cons ⟨_, _, rfl, q4, rfl, rfl⟩ <| .cons ⟨_, _, rfl, h5, rfl, rfl⟩ <| .cons ⟨_, _, rfl, h6, rfl, rfl⟩ <| .cons ⟨_, _, rfl, h7, rfl, rfl⟩ <| .cons ⟨_, _, rfl, h8, rfl, rfl⟩ .nil), ?_⟩
    exact evs_eq hf (es := [("count", .int n0), ("min", .float (GoFloat.ofInt n1.toInt)), ("max", .float (GoFloat.ofInt n2.toInt)), ("mean", .float n3), ("std-dev", .float n4), ("50-percentile", .float s0), ("75-percentile", .float s1), ("95-percentile", .float s2), ("99-percentile", .float s3), ("999-percentile", .float s4), ("one-minute", .float n5), ("five-minute", .float n6), ("fifteen-minute", .float n7), ("mean-rate", .float n8)].map (expEvent (.timer x) name)) (by
      simp only [List.map, Stmt.den, denArgs, ArgExpr.den, Expr.den, toFloat, floatDiv, e0, e1, e2, e3, e4, e5, e6, e7, e8, p0, p1, p2, p3, p4]
      rfl)
  | health x => simp [expSwitch] at hc
  | sample x => simp [expSwitch] at hc
  | ewma x => simp [expSwitch] at hc

/-! ### Publishing a list of events -/

def pub : Event F → Expvar F → Expvar F × Ending
  | .count n _ v, s => match getInt n s with | (s, .returns) => (setInt n v s, .returns) | (s, e) => (s, e)
  | .value n _ v, s => match getFloat n s with | (s, .returns) => (setFloat n v s, .returns) | (s, e) => (s, e)
  | .print _, s => (s, .returns)

def pubs : List (Event F) → Expvar F → Expvar F × Ending
  | [], s => (s, .returns)
  | e :: es, s => match pub e s with | (s, .returns) => pubs es s | (s, x) => (s, x)

theorem pubs_append (a b : List (Event F)) (s : Expvar F) : pubs (a ++ b) s = match pubs a s with | (s, .returns) => pubs b s | (s, x) => (s, x) := by
  induction a generalizing s with
  | nil => rfl
  | cons e a ih =>
    simp only [List.cons_append, pubs]
    rcases pub e s with ⟨s', _ | _ | _⟩ <;> simp only [ih]

section den
variable {env : Env F} {x : Ref} {w : World F} {ps : List F} {val : Call F → GoMetrics.Field F} {name : Str}

theorem expStmt_den {s : Stmt F} (h : ∀ c ∈ s.calls, ∃ out, call env x c w = (w, .ok out) ∧ val c = out.shown) {ev : Event F} (hd : s.den name val ps = .ok ev) (y : Expvar F) :
    expStmt env name x ps s (w, y) = ((w, (pub ev y).1), (pub ev y).2) := by
  cases s with
  | printf f as =>
    simp only [Stmt.den] at hd
    cases hv : denArgs name val ps as with
    | error p => simp [hv] at hd
    | ok v => simp only [hv, Except.ok.injEq] at hd; subst hd; rfl
  | postCount sfx key e =>
    simp only [Stmt.den] at hd
    cases hv : e.den val ps with
    | error p => simp [hv] at hd
    | ok v =>
      simp only [hv, Except.ok.injEq] at hd
      subst hd
      have he := expr_den (e := e) (ps := ps) h
      rw [hv] at he
      simp only [expStmt, pub]
      rcases getInt (name ++ bytes sfx) y with ⟨s', _ | _ | _⟩ <;> simp only [he]
  | postValue sfx key e =>
    simp only [Stmt.den] at hd
    cases hv : e.den val ps with
    | error p => simp [hv] at hd
    | ok v =>
      simp only [hv, Except.ok.injEq] at hd
      subst hd
      have he := expr_den (e := e) (ps := ps) h
      rw [hv] at he
      simp only [expStmt, pub]
      rcases getFloat (name ++ bytes sfx) y with ⟨s', _ | _ | _⟩ <;> simp only [he]

theorem expStmts_den {ss : List (Stmt F)} (h : ∀ s ∈ ss, ∀ c ∈ s.calls, ∃ out, call env x c w = (w, .ok out) ∧ val c = out.shown) {evs : List (Event F)}
    (hd : List.Forall₂ (fun s e => s.den name val ps = .ok e) ss evs) (y : Expvar F) :
    expStmts env name x ps ss (w, y) = ((w, (pubs evs y).1), (pubs evs y).2) ∧ ∀ out, runStmts env name x ps ss (w, out) = ((w, out ++ evs), none) := by
  induction hd generalizing y with
  | nil => exact ⟨rfl, fun out => by simp [runStmts]⟩
  | @cons s ev ss evs h1 _ ih =>
    have ih := ih (fun s hs => h s (by simp [hs]))
    refine ⟨?_, fun out => ?_⟩
    · simp only [expStmts, expStmt_den (h s (by simp)) h1, pubs]
      rcases pub ev y with ⟨y', _ | _ | _⟩ <;> simp only [(ih _).1]
    · simp only [runStmts, stmt_den (h s (by simp)), h1, (ih y).2]
      simp

end den

theorem den_all {name : Str} {val : Call F → GoMetrics.Field F} {ps : List F} {ss : List (Stmt F)} (h : ∀ s ∈ ss, ∃ v, s.den name val ps = .ok v) :
    ∃ evs, List.Forall₂ (fun s e => s.den name val ps = .ok e) ss evs := by
  induction ss with
  | nil => exact ⟨[], .nil⟩
  | cons s ss ih =>
    obtain ⟨v, hv⟩ := h s (by simp)
    obtain ⟨evs, he⟩ := ih fun s hs => h s (by simp [hs])
    exact ⟨v :: evs, .cons hv he⟩

/-- One metric. -/
theorem expMetric_den {env : Env F} {name : Str} {r : Ref} {w : World F} {o : Obj F} {c : Case F} (hw : w.Ok) (hr : w.objs r = some o) (hs : expSwitch o = some c)
    {w1 : World F} {x : Ref} {ps : List F} (hp : c.prepare env r w = (w1, .ok (x, ps))) :
    ∃ evs, (∀ out, exportMetric env expSwitch name r (w, out) = ((w1, out ++ evs), none)) ∧
      ∀ y, expMetric env name r (w, y) = ((w1, (pubs evs y).1), (pubs evs y).2) := by
  have P := prepare_ok hw hr (good_exp.fit o c hs) hp
  let val : Call F → GoMetrics.Field F := fun d => match (call env x d w1).2 with | .ok out => out.shown | .error _ => .nil
  have hval : ∀ d, readable o d = true → ∃ out, call env x d w1 = (w1, .ok out) ∧ val d = out.shown := by
    intro d hd
    obtain ⟨out, h1, -⟩ := P.read d hd
    exact ⟨out, h1, by simp only [val, h1]⟩
  have hcalls : ∀ s ∈ c.body, ∀ d ∈ s.calls, ∃ out, call env x d w1 = (w1, .ok out) ∧ val d = out.shown :=
    fun s hs' d hd => hval d (List.all_eq_true.1 (List.all_eq_true.1 (good_exp.calls o c hs) s hs') d hd)
  obtain ⟨evs, hevs⟩ := den_all (ss := c.body) (name := name) (val := val) (ps := ps)
    (fun s hs' => Stmt.den_safe (n := (c.percentiles.getD []).length) (fun i hi => by
      cases hl : c.percentiles with
      | none => simp [hl] at hi
      | some l =>
        rw [hl, Option.getD_some] at hi
        obtain ⟨s, h1, -⟩ := P.pct l i l[i] hl (List.getElem?_eq_getElem hi)
        exact ⟨s, h1⟩) (List.all_eq_true.1 (safe_exp o c hs) s hs'))
  refine ⟨evs, fun out => ?_, fun y => ?_⟩
  · simp only [exportMetric, hr, hs, runCase, hp]
    exact (expStmts_den hcalls hevs ⟨fun _ => none, false⟩).2 out
  · simp only [expMetric, hr, Option.bind_some, hs, hp]
    exact (expStmts_den hcalls hevs y).1

/-- All metrics. -/
theorem visit_exp {env : Env F} {w : World F} (hw : w.Ok) (l : List (Str × Ref))
    (hl : ∀ e ∈ l, ∃ o c, w.objs e.2 = some o ∧ expSwitch o = some c ∧ ReadsOk env w e.2 (c.percentiles.getD [])) :
    ∀ {w1 : World F}, Seen env w w1 → ∃ w2 evs, (∀ out, visit (exportMetric env expSwitch) l (w1, out) = ((w2, out ++ evs), .ok ())) ∧
      ∀ s s', pubs evs s = (s', .returns) → visit (expCallback env) l (w1, s, false) = ((w2, s', false), .ok ()) := by
  induction l with
  | nil =>
    intro w1 hs
    refine ⟨w1, [], fun out => by simp [visit], fun s s' h => ?_⟩
    simp only [pubs, Prod.mk.injEq, and_true] at h
    subst h
    rfl
  | cons e l ih =>
    intro w1 hs
    obtain ⟨o, c, ho, hc, hread⟩ := hl e (by simp)
    obtain ⟨o1, ho1, hty⟩ := hs.ty_of ho
    have hc1 : expSwitch o1 = some c := by rw [good_exp.ty o1 o hty]; exact hc
    obtain ⟨w2, x, ps, hp⟩ := prepare_returns hs.ok ho1 (good_exp.fit o1 c hc1) (hs.readsOk hw ho hread)
    obtain ⟨evs, h1, h2⟩ := expMetric_den (name := e.1) hs.ok ho1 hc1 hp
    obtain ⟨hs2, -⟩ := exportMetric_ok good_exp hs.ok ho1 (h1 [])
    obtain ⟨w3, evs', h3, h4⟩ := ih (fun e he => hl e (by simp [he])) (hs.trans hs2)
    refine ⟨w3, evs ++ evs', fun out => ?_, fun s s' h => ?_⟩
    · simp only [visit, h1, h3]
      simp
    · rw [pubs_append] at h
      rcases hp : pubs evs s with ⟨s1, _ | _ | _⟩
      · simp only [hp] at h
        have := h4 s1 s' h
        simp only [visit, expCallback, Bool.false_eq_true, if_false, h2, hp]
        exact this
      · simp [hp] at h
      · simp [hp] at h

/-! ### The table after a list of events -/

def evName : Event F → Str
  | .count n _ _ | .value n _ _ => n
  | .print _ => []
def evInt : Event F → Bool
  | .count _ _ _ => true
  | _ => false
def evVar : Event F → Var F
  | .count _ _ v | .value _ _ v => varOf v
  | .print _ => .other
/-- The type of the value fits. -/
def evOk : Event F → Bool
  | .count _ _ v => hasKind true (varOf v)
  | .value _ _ v => hasKind false (varOf v)
  | .print _ => false

theorem pub_ok {e : Event F} {s : Expvar F} (hs : s.held = false) (he : evOk e = true) (hk : ∀ x, s.vars (evName e) = some x → hasKind (evInt e) x = true) :
    pub e s = ({ s with vars := Function.update s.vars (evName e) (some (evVar e)) }, .returns) := by
  cases e with
  | print l => simp [evOk] at he
  | count n key v =>
    obtain ⟨m, rfl⟩ : ∃ m, v = .int m := by cases v <;> simp [evOk, varOf, hasKind] at he; exact ⟨_, rfl⟩
    simp only [evName, evInt] at hk
    simp only [pub, getInt, hs, Bool.false_eq_true, if_false, evName, evVar, varOf]
    cases hv : s.vars n with
    | none => simp [setInt]
    | some x =>
      have := hk x hv
      cases x <;> simp [hasKind] at this
      simp [setInt, hs]
  | value n key v =>
    simp only [evName, evInt] at hk
    have hvar : varOf v = .float v := by cases v <;> simp [evOk, varOf, hasKind] at he <;> rfl
    simp only [pub, getFloat, hs, Bool.false_eq_true, if_false, evName, evVar, hvar]
    cases hv : s.vars n with
    | none => simp [setFloat]
    | some x =>
      have := hk x hv
      cases x <;> simp [hasKind] at this
      simp [setFloat, hs]

theorem pubs_ok {kind : Str → Option Bool} (es : List (Event F)) : ∀ {s : Expvar F}, s.held = false → VarKinds kind s.vars → (∀ e ∈ es, evOk e = true ∧ kind (evName e) = some (evInt e)) →
    ∃ s', pubs es s = (s', .returns) ∧ s'.held = false ∧ VarKinds kind s'.vars ∧
      ∀ n, (∃ e ∈ es, evName e = n ∧ s'.vars n = some (evVar e)) ∨ ((∀ e ∈ es, evName e ≠ n) ∧ s'.vars n = s.vars n) := by
  induction es with
  | nil => intro s hs hk _; exact ⟨s, rfl, hs, hk, fun n => .inr ⟨by simp, rfl⟩⟩
  | cons e es ih =>
    intro s hs hk he
    obtain ⟨he1, he2⟩ := he e (by simp)
    have h1 := pub_ok hs he1 (fun x hx => hk _ x _ hx he2)
    have hk1 : VarKinds kind (Function.update s.vars (evName e) (some (evVar e))) := by
      intro n x b hx hb
      by_cases hn : n = evName e
      · subst hn
        rw [Function.update_self, Option.some.injEq] at hx
        subst hx
        rw [he2] at hb
        obtain rfl := Option.some.inj hb
        cases e <;> exact he1
      · rw [Function.update_of_ne hn] at hx
        exact hk n x b hx hb
    obtain ⟨s', h2, h3, h4, h5⟩ := ih (s := { s with vars := Function.update s.vars (evName e) (some (evVar e)) }) hs hk1 (fun e h => he e (by simp [h]))
    refine ⟨s', by simp only [pubs, h1, h2], h3, h4, fun n => ?_⟩
    rcases h5 n with ⟨e', h6, h7, h8⟩ | ⟨h6, h7⟩
    · exact .inl ⟨e', by simp [h6], h7, h8⟩
    · by_cases hn : evName e = n
      · subst hn
        exact .inl ⟨e, by simp, rfl, by rw [h7]; exact Function.update_self ..⟩
      · refine .inr ⟨by simpa [hn] using h6, ?_⟩
        rw [h7]; exact Function.update_of_ne (Ne.symm hn) ..

theorem expEvent_row {o : Obj F} {name : Str} {row : String × GoMetrics.Field F} (h : hasKind (isIntVar o row.1) (varOf row.2) = true) :
    evOk (expEvent o name row) = true ∧ evName (expEvent o name row) = varName name row.1 ∧ evInt (expEvent o name row) = isIntVar o row.1 ∧ evVar (expEvent o name row) = varOf row.2 := by
  unfold expEvent
  cases hi : isIntVar o row.1 <;> rw [hi] at h <;> exact ⟨h, rfl, rfl, rfl⟩

/-- The events for a metric. -/
theorem block_events {w : World F} {env : Env F} {name : Str} {r : Ref} {o : Obj F} {evs : List (Event F)} {c : Case F} (hc : expSwitch o = some c) (h : CaseOut w env name r o c evs) :
    (∀ e ∈ evs, ∃ label ∈ expLabels o, evOk e = true ∧ evName e = varName name label ∧ evInt e = isIntVar o label ∧ ShowsVar w env r o label (evVar e)) ∧
    ∀ label ∈ expLabels o, ∃ e ∈ evs, evName e = varName name label ∧ evInt e = isIntVar o label := by
  obtain ⟨rows, h1, h2, rfl⟩ := exp_block hc h
  have h3 : ∀ row ∈ rows, ∃ l, RowShows w env r o row l := by
    intro row hrow
    clear h1 h
    generalize expLabels o = ls at h2
    induction h2 with
    | nil => simp at hrow
    | cons h _ ih =>
      rcases List.mem_cons.1 hrow with rfl | hrow
      · exact ⟨_, h⟩
      · exact ih hrow
  refine ⟨fun e he => ?_, fun label hl => ?_⟩
  · obtain ⟨row, hrow, rfl⟩ := List.mem_map.1 he
    obtain ⟨-, cl, v, h4, h5, h6, h7⟩ := h3 row hrow
    obtain ⟨k1, k2, k3, k4⟩ := expEvent_row (name := name) h7
    exact ⟨row.1, by rw [← h1]; exact List.mem_map_of_mem hrow, k1, k2, k3, cl, v, h4, h5, by rw [k4, h6]⟩
  · rw [← h1] at hl
    obtain ⟨row, hrow, rfl⟩ := List.mem_map.1 hl
    obtain ⟨-, cl, v, h4, h5, h6, h7⟩ := h3 row hrow
    exact ⟨_, List.mem_map_of_mem hrow, (expEvent_row (name := name) h7).2.1, (expEvent_row (name := name) h7).2.2.1⟩

/-- A request. -/
theorem request_ok {kind : Str → Option Bool} {w : World F} (hw : w.Ok) {s : Expvar F} (hs : s.held = false) (hk : VarKinds kind s.vars) {env : Env F} {g : Reg} {id : Nat} (hb : base g = some id)
    (hh : NoHealth w id (prefixes g).flatten) (hread : ∀ name r, gets w id name = some r → (prefixes g).flatten <+: name → ∀ l, l = [] ∨ l = fivePercentiles → ReadsOk env w r l)
    (hkw : Kinds kind w id (prefixes g).flatten) :
    ∃ w' s', expHandler env g (w, s) = ((w', s'), .returns, some s'.vars) ∧ Seen env w w' ∧ s'.held = false ∧ VarKinds kind s'.vars ∧
      Published w env id (prefixes g).flatten s.vars s'.vars := by
  have hmem := eachList_mem env g id hw
  generalize hl : ((env.order (w.regs id)).filter fun e => (prefixes g).flatten.isPrefixOf e.1) = l at hmem
  have hobj : ∀ e ∈ l, ∃ o c, w.objs e.2 = some o ∧ expSwitch o = some c ∧ ReadsOk env w e.2 (c.percentiles.getD []) := by
    intro e he
    obtain ⟨h1, h2⟩ := (hmem e.1 e.2).1 he
    obtain ⟨o, ho, hm⟩ := hw.metric id e (by rw [← hl, List.mem_filter, (env.order_perm _).mem_iff] at he; exact he.1)
    have hne := hh e.1 e.2 o h1 h2 ho
    obtain ⟨c, hc⟩ : ∃ c, expSwitch o = some c := by
      cases o <;> simp [Obj.isMetric, isHealth] at hm hne <;> exact ⟨_, rfl⟩
    refine ⟨o, c, ho, hc, hread e.1 e.2 h1 h2 _ ?_⟩
    cases o <;> simp only [expSwitch, Option.some.injEq, reduceCtorEq] at hc <;> subst hc <;> simp
  obtain ⟨w', evs, h1, h2⟩ := visit_exp (env := env) hw l hobj (Seen.refl env hw)
  obtain ⟨hseen, blocks, h3, h4⟩ := visit_export good_exp l (fun e he => by obtain ⟨o, c, ho, -⟩ := hobj e he; exact ⟨o, ho⟩) (Seen.refl env hw) (h1 [])
  simp only [List.nil_append] at h3
  subst h3
  -- every event belongs to a metric
  have hev : ∀ ev ∈ blocks.flatten, ∃ name r o label, Owns w id (prefixes g).flatten (evName ev) name r o label ∧ evOk ev = true ∧ evInt ev = isIntVar o label ∧
      ShowsVar w env r o label (evVar ev) := by
    intro ev hev
    obtain ⟨b, hb1, hb2⟩ := List.mem_flatten.1 hev
    obtain ⟨i, hi, rfl⟩ := List.getElem_of_mem hb1
    have hi' : i < l.length := by rw [h4.length_eq]; exact hi
    obtain ⟨o, ho, h5⟩ := h4.get hi' hi
    simp only [List.get_eq_getElem] at ho h5
    have hm : l[i] ∈ l := List.getElem_mem hi'
    obtain ⟨o', c, ho', hc, -⟩ := hobj _ hm
    rw [ho] at ho'
    obtain rfl := Option.some.inj ho'
    rcases h5 with ⟨h5, -⟩ | ⟨c', hc', hout⟩
    · rw [h5] at hc; simp at hc
    · obtain ⟨label, hlab, k1, k2, k3, k4⟩ := (block_events hc' hout).1 ev hb2
      obtain ⟨m1, m2⟩ := (hmem l[i].1 l[i].2).1 hm
      exact ⟨l[i].1, l[i].2, o, label, ⟨m1, m2, ho, hlab, k2.symm⟩, k1, k3, k4⟩
  have hev' : ∀ n name r o label, Owns w id (prefixes g).flatten n name r o label → ∃ ev ∈ blocks.flatten, evName ev = n := by
    rintro n name r o label ⟨m1, m2, ho, hlab, rfl⟩
    have hm := (hmem name r).2 ⟨m1, m2⟩
    obtain ⟨i, hi, hi2⟩ := List.getElem_of_mem hm
    have hi' : i < blocks.length := by rw [← h4.length_eq]; exact hi
    obtain ⟨o', ho', h5⟩ := h4.get hi hi'
    simp only [List.get_eq_getElem, hi2] at ho' h5
    rw [ho] at ho'
    obtain rfl := Option.some.inj ho'
    obtain ⟨o', c, ho', hc, -⟩ := hobj _ hm
    rw [ho] at ho'
    obtain rfl := Option.some.inj ho'
    rcases h5 with ⟨h5, -⟩ | ⟨c', hc', hout⟩
    · rw [h5] at hc; simp at hc
    · obtain ⟨e, he, hn, -⟩ := (block_events hc' hout).2 label hlab
      exact ⟨e, List.mem_flatten.2 ⟨_, List.getElem_mem hi', he⟩, hn⟩
  obtain ⟨s', h5, h6, h7, h8⟩ := pubs_ok (kind := kind) blocks.flatten hs hk (fun e he => by
    obtain ⟨name, r, o, label, k1, k2, k3, -⟩ := hev e he
    exact ⟨k2, by rw [k3]; exact hkw _ _ _ _ _ k1⟩)
  refine ⟨w', s', ?_, hseen, h6, h7, fun n => ?_⟩
  · have : each env g (expCallback env) (w, s, false) = ((w', s', false), .ok ()) := by
      rw [each, eachList_base env g id hb]
      simp only [hl]
      exact h2 s s' h5
    simp only [expHandler, syncToExpvar, this]
  · rcases h8 n with ⟨e, he, rfl, hx⟩ | ⟨hno, hx⟩
    · obtain ⟨name, r, o, label, k1, -, -, k4⟩ := hev e he
      exact .inl ⟨name, r, o, label, _, k1, k4, hx⟩
    · refine .inr ⟨fun name r o label ho => ?_, hx⟩
      obtain ⟨e, he, rfl⟩ := hev' n name r o label ho
      exact hno e he rfl

/-! ### Conversely -/

/-- Publishing either succeeds or fails with the mutex locked. -/
theorem pubs_cases (evs : List (Event F)) : ∀ {s : Expvar F}, s.held = false → ∃ s', (pubs evs s = (s', .returns) ∧ s'.held = false) ∨ (pubs evs s = (s', .panics .typeAssert) ∧ s'.held = true) := by
  induction evs with
  | nil => intro s hs; exact ⟨s, .inl ⟨rfl, hs⟩⟩
  | cons e evs ih =>
    intro s hs
    have h1 : ∃ s', (pub e s = (s', .returns) ∧ s'.held = false) ∨ (pub e s = (s', .panics .typeAssert) ∧ s'.held = true) := by
      cases e with
      | print l => exact ⟨s, .inl ⟨rfl, hs⟩⟩
      | count n k v =>
        simp only [pub, getInt, hs, Bool.false_eq_true, if_false]
        rcases s.vars n with _ | _ | _ | _ <;> first | exact ⟨_, .inl ⟨rfl, hs⟩⟩ | exact ⟨_, .inl ⟨rfl, rfl⟩⟩ | exact ⟨{ s with held := true }, .inr ⟨rfl, rfl⟩⟩
      | value n k v =>
        simp only [pub, getFloat, hs, Bool.false_eq_true, if_false]
        rcases s.vars n with _ | _ | _ | _ <;> first | exact ⟨_, .inl ⟨rfl, hs⟩⟩ | exact ⟨_, .inl ⟨rfl, rfl⟩⟩ | exact ⟨{ s with held := true }, .inr ⟨rfl, rfl⟩⟩
    obtain ⟨s1, ⟨h2, h3⟩ | ⟨h2, h3⟩⟩ := h1
    · obtain ⟨s2, h4⟩ := ih h3
      exact ⟨s2, by simpa only [pubs, h2] using h4⟩
    · exact ⟨s1, .inr ⟨by simp only [pubs, h2], h3⟩⟩

theorem visit_cases {env : Env F} {w : World F} (hw : w.Ok) (l : List (Str × Ref))
    (hl : ∀ e ∈ l, ∃ o c, w.objs e.2 = some o ∧ expSwitch o = some c ∧ ReadsOk env w e.2 (c.percentiles.getD [])) :
    ∀ {w1 : World F} {s : Expvar F}, Seen env w w1 → s.held = false → ∃ w2 s', (visit (expCallback env) l (w1, s, false) = ((w2, s', false), .ok ()) ∧ s'.held = false) ∨
      (visit (expCallback env) l (w1, s, false) = ((w2, s', false), .error .typeAssert) ∧ s'.held = true) := by
  induction l with
  | nil => intro w1 s _ hs; exact ⟨w1, s, .inl ⟨rfl, hs⟩⟩
  | cons e l ih =>
    intro w1 s hs hheld
    obtain ⟨o, c, ho, hc, hread⟩ := hl e (by simp)
    obtain ⟨o1, ho1, hty⟩ := hs.ty_of ho
    have hc1 : expSwitch o1 = some c := by rw [good_exp.ty o1 o hty]; exact hc
    obtain ⟨w2, x, ps, hp⟩ := prepare_returns hs.ok ho1 (good_exp.fit o1 c hc1) (hs.readsOk hw ho hread)
    obtain ⟨evs, h1, h2⟩ := expMetric_den (name := e.1) hs.ok ho1 hc1 hp
    obtain ⟨hs2, -⟩ := exportMetric_ok good_exp hs.ok ho1 (h1 [])
    obtain ⟨s1, ⟨h3, h4⟩ | ⟨h3, h4⟩⟩ := pubs_cases evs hheld
    · obtain ⟨w3, s3, h5⟩ := ih (fun e he => hl e (by simp [he])) (hs.trans hs2) h4
      refine ⟨w3, s3, ?_⟩
      simpa only [visit, expCallback, Bool.false_eq_true, if_false, h2, h3] using h5
    · refine ⟨w2, s1, .inr ⟨?_, h4⟩⟩
      simp only [visit, expCallback, Bool.false_eq_true, if_false, h2, h3]

theorem request_cases {w : World F} (hw : w.Ok) {s : Expvar F} (hs : s.held = false) {env : Env F} {g : Reg} {id : Nat} (hb : base g = some id)
    (hh : NoHealth w id (prefixes g).flatten) (hread : ∀ name r, gets w id name = some r → (prefixes g).flatten <+: name → ∀ l, l = [] ∨ l = fivePercentiles → ReadsOk env w r l) :
    ∃ w' s', (expHandler env g (w, s) = ((w', s'), .returns, some s'.vars) ∧ s'.held = false) ∨ (expHandler env g (w, s) = ((w', s'), .panics .typeAssert, none) ∧ s'.held = true) := by
  have hmem := eachList_mem env g id hw
  generalize hl : ((env.order (w.regs id)).filter fun e => (prefixes g).flatten.isPrefixOf e.1) = l at hmem
  have hobj : ∀ e ∈ l, ∃ o c, w.objs e.2 = some o ∧ expSwitch o = some c ∧ ReadsOk env w e.2 (c.percentiles.getD []) := by
    intro e he
    obtain ⟨h1, h2⟩ := (hmem e.1 e.2).1 he
    obtain ⟨o, ho, hm⟩ := hw.metric id e (by rw [← hl, List.mem_filter, (env.order_perm _).mem_iff] at he; exact he.1)
    have hne := hh e.1 e.2 o h1 h2 ho
    obtain ⟨c, hc⟩ : ∃ c, expSwitch o = some c := by
      cases o <;> simp [Obj.isMetric, isHealth] at hm hne <;> exact ⟨_, rfl⟩
    refine ⟨o, c, ho, hc, hread e.1 e.2 h1 h2 _ ?_⟩
    cases o <;> simp only [expSwitch, Option.some.injEq, reduceCtorEq] at hc <;> subst hc <;> simp
  have he : each env g (expCallback env) (w, s, false) = visit (expCallback env) l (w, s, false) := by rw [each, eachList_base env g id hb]; simp only [hl]
  obtain ⟨w', s', ⟨h1, h2⟩ | ⟨h1, h2⟩⟩ := visit_cases (env := env) hw l hobj (Seen.refl env hw) hs
  · exact ⟨w', s', .inl ⟨by simp only [expHandler, syncToExpvar, he, h1], h2⟩⟩
  · exact ⟨w', s', .inr ⟨by simp only [expHandler, syncToExpvar, he, h1], h2⟩⟩

theorem visit_hung {env : Env F} (l : List (Str × Ref)) (w : World F) (s : Expvar F) : visit (expCallback env) l (w, s, true) = ((w, s, true), .ok ()) := by
  induction l with
  | nil => rfl
  | cons e l ih => simp only [visit, expCallback, if_true, ih]

/-- If a visit to the metrics returns, all of them are of kinds that the handler knows, and the events have been published. -/
theorem visit_exp_inv {env : Env F} {w : World F} (l : List (Str × Ref)) (hl : ∀ e ∈ l, ∃ o, w.objs e.2 = some o) :
    ∀ {w1 w2 : World F} {s s' : Expvar F}, Seen env w w1 → visit (expCallback env) l (w1, s, false) = ((w2, s', false), .ok ()) →
      ∃ evs, (∀ out, visit (exportMetric env expSwitch) l (w1, out) = ((w2, out ++ evs), .ok ())) ∧ pubs evs s = (s', .returns) ∧
        ∀ e ∈ l, ∃ o c w3 w4 x ps, w.objs e.2 = some o ∧ expSwitch o = some c ∧ Seen env w w3 ∧ c.prepare env e.2 w3 = (w4, .ok (x, ps)) := by
  induction l with
  | nil =>
    intro w1 w2 s s' hs h
    simp only [visit, Prod.mk.injEq, and_true] at h
    obtain ⟨rfl, rfl⟩ := h
    exact ⟨[], fun out => by simp [visit], rfl, by simp⟩
  | cons e l ih =>
    intro w1 w2 s s' hs h
    obtain ⟨o, ho⟩ := hl e (by simp)
    obtain ⟨o1, ho1, hty⟩ := hs.ty_of ho
    rw [visit, expCallback] at h
    simp only [Bool.false_eq_true, if_false] at h
    rcases hm : expMetric env e.1 e.2 (w1, s) with ⟨⟨w3, s3⟩, _ | p | _⟩
    · simp only [hm] at h
      have hm' := hm
      simp only [expMetric, ho1, Option.bind_some] at hm
      cases hc : expSwitch o1 with
      | none => simp [hc] at hm
      | some c =>
        simp only [hc] at hm
        rcases hp : c.prepare env e.2 w1 with ⟨w4, p | ⟨x, ps⟩⟩
        · simp [hp] at hm
        · obtain ⟨evs, h1, h2⟩ := expMetric_den (name := e.1) hs.ok ho1 hc hp
          rw [h2] at hm'
          simp only [Prod.mk.injEq] at hm'
          obtain ⟨⟨rfl, h3⟩, h4⟩ := hm'
          obtain ⟨hs2, -⟩ := exportMetric_ok good_exp hs.ok ho1 (h1 [])
          obtain ⟨evs', h5, h6, h7⟩ := ih (fun e he => hl e (by simp [he])) (hs.trans hs2) h
          have h8 : pubs evs s = (s3, .returns) := Prod.ext h3 h4
          refine ⟨evs ++ evs', fun out => by simp only [visit, h1, h5]; simp, by rw [pubs_append]; simp only [h8, h6], fun e' he' => ?_⟩
          rcases List.mem_cons.1 he' with rfl | he'
          · exact ⟨o, c, w1, w4, x, ps, ho, by rw [← good_exp.ty o1 o hty]; exact hc, hs, hp⟩
          · exact h7 e' he'
    · simp [hm] at h
    · simp only [hm, visit_hung] at h
      simp at h

def sameKind (x y : Var F) : Prop := ∀ b, hasKind b x = hasKind b y

theorem pub_returns {e : Event F} (hp : evOk e = true) {s s' : Expvar F} (h : pub e s = (s', .returns)) :
    s.held = false ∧ s' = { s with vars := Function.update s.vars (evName e) (some (evVar e)) } ∧ ∀ x, s.vars (evName e) = some x → hasKind (evInt e) x = true := by
  have hh : s.held = false := by
    cases hb : s.held with
    | false => rfl
    | true => cases e <;> simp [pub, getInt, getFloat, hb, evOk] at h hp
  have hk : ∀ x, s.vars (evName e) = some x → hasKind (evInt e) x = true := by
    intro x hx
    cases e with
    | print l => simp [evOk] at hp
    | count n key v =>
      simp only [evName] at hx
      cases x <;> simp [pub, getInt, hh, hx, hasKind, evInt] at h ⊢
    | value n key v =>
      simp only [evName] at hx
      cases x <;> simp [pub, getFloat, hh, hx, hasKind, evInt] at h ⊢
  have := pub_ok hh hp hk
  rw [h] at this
  exact ⟨hh, (Prod.mk.inj this).1, hk⟩

theorem evVar_kind {e : Event F} (h : evOk e = true) : hasKind (evInt e) (evVar e) = true := by cases e <;> exact h

theorem hasKind_same {b : Bool} {x y : Var F} (hx : hasKind b x = true) (hy : hasKind b y = true) : sameKind x y := by
  intro c
  cases x <;> cases y <;> cases b <;> simp_all [hasKind]

theorem pubs_returns (es : List (Event F)) (hp : ∀ e ∈ es, evOk e = true) : ∀ {s s' : Expvar F}, pubs es s = (s', .returns) →
    (es ≠ [] → s.held = false) ∧ (∀ n x, s.vars n = some x → ∃ y, s'.vars n = some y ∧ sameKind x y) ∧
      ∀ e ∈ es, ∃ y, s'.vars (evName e) = some y ∧ hasKind (evInt e) y = true := by
  induction es with
  | nil =>
    intro s s' h
    simp only [pubs, Prod.mk.injEq, and_true] at h
    subst h
    exact ⟨by simp, fun n x hx => ⟨x, hx, fun _ => rfl⟩, by simp⟩
  | cons e es ih =>
    intro s s' h
    rw [pubs] at h
    rcases hs : pub e s with ⟨s1, _ | p | _⟩
    · simp only [hs] at h
      obtain ⟨h1, rfl, h2⟩ := pub_returns (hp e (by simp)) hs
      obtain ⟨-, h4, h5⟩ := ih (fun e he => hp e (by simp [he])) h
      have hk := evVar_kind (hp e (by simp))
      obtain ⟨y0, h6, h7⟩ := h4 (evName e) (evVar e) (by simp)
      refine ⟨fun _ => h1, fun n x hx => ?_, fun e' he' => ?_⟩
      · by_cases hn : n = evName e
        · subst hn
          refine ⟨y0, h6, fun b => ?_⟩
          rw [← h7 b]
          exact hasKind_same (h2 x hx) hk b
        · exact h4 n x (by simp only; rw [Function.update_of_ne hn]; exact hx)
      · rcases List.mem_cons.1 he' with rfl | he'
        · exact ⟨y0, h6, by rw [← h7]; exact hk⟩
        · exact h5 e' he'
    · simp [hs] at h
    · simp [hs] at h

/-! ### A mutex that is held for ever -/

theorem expStmts_held {env : Env F} {name : Str} {x : Ref} {ps : List F} {w : World F} {s : Expvar F} (hs : s.held = true) {st : Stmt F} (hst : ∀ f as, st ≠ .printf f as) (ss : List (Stmt F)) :
    expStmts env name x ps (st :: ss) (w, s) = ((w, s), .hangs) := by
  cases st with
  | printf f as => exact absurd rfl (hst f as)
  | postCount sfx key e => simp [expStmts, expStmt, getInt, hs]
  | postValue sfx key e => simp [expStmts, expStmt, getFloat, hs]

theorem expMetric_held {env : Env F} {name : Str} {r : Ref} {w : World F} {s : Expvar F} (hs : s.held = true) :
    ∃ w' e, expMetric env name r (w, s) = ((w', s), e) ∧ e ≠ .returns := by
  simp only [expMetric]
  cases hc : (w.objs r).bind expSwitch with
  | none => exact ⟨w, _, rfl, by simp⟩
  | some c =>
    obtain ⟨o, -, hc⟩ := Option.bind_eq_some_iff.1 hc
    rcases hp : c.prepare env r w with ⟨w1, p | ⟨x, ps⟩⟩
    · exact ⟨w1, _, by simp only [hp]; rfl, by simp⟩
    · refine ⟨w1, .hangs, ?_, by simp⟩
      simp only [hp]
      cases o <;> simp only [expSwitch, Option.some.injEq, reduceCtorEq] at hc <;> subst hc <;> exact expStmts_held hs (by simp) _

theorem visit_held {env : Env F} (l : List (Str × Ref)) (hl : l ≠ []) (w : World F) {s : Expvar F} (hs : s.held = true) :
    ∃ w' b res, visit (expCallback env) l (w, s, false) = ((w', s, b), res) ∧ (b = true ∨ ∃ p, res = .error p) := by
  cases l with
  | nil => exact absurd rfl hl
  | cons e l =>
    obtain ⟨w', en, h1, h2⟩ := expMetric_held (env := env) (name := e.1) (r := e.2) (w := w) hs
    cases en with
    | returns => exact absurd rfl h2
    | panics p => exact ⟨w', false, .error p, by simp only [visit, expCallback, Bool.false_eq_true, if_false, h1], .inr ⟨p, rfl⟩⟩
    | hangs =>
      refine ⟨w', true, .ok (), ?_, .inl rfl⟩
      simp only [visit, expCallback, Bool.false_eq_true, if_false, h1]
      exact visit_hung l w' s

theorem expHandler_held {env : Env F} {g : Reg} {id : Nat} (hb : base g = some id) {w : World F} {s : Expvar F} (hs : s.held = true)
    (hl : ((env.order (w.regs id)).filter fun e => (prefixes g).flatten.isPrefixOf e.1) ≠ []) :
    ∃ w' e, expHandler env g (w, s) = ((w', s), e, none) ∧ e ≠ .returns := by
  obtain ⟨w', b, res, h1, h2⟩ := visit_held (env := env) _ hl w hs
  have : each env g (expCallback env) (w, s, false) = ((w', s, b), res) := by
    rw [each, eachList_base env g id hb]
    exact h1
  rcases b with _ | _
  · rcases h2 with h2 | ⟨p, rfl⟩
    · simp at h2
    · exact ⟨w', .panics p, by simp only [expHandler, syncToExpvar, this], by simp⟩
  · exact ⟨w', .hangs, by simp only [expHandler, syncToExpvar, this], by simp⟩

/-! ### A healthcheck -/

theorem expCallback_health {env : Env F} {w : World F} {s : Expvar F} {e : Str × Ref} (h : ∃ z, w.objs e.2 = some (.health z)) :
    expCallback env e.1 e.2 (w, s, false) = ((w, s, false), some (.msg "unsupported type")) := by
  obtain ⟨z, hz⟩ := h
  simp only [expCallback, expMetric, hz, Option.bind_some, expSwitch, Bool.false_eq_true, if_false]

/-! ### The stores stay well formed -/

def KeepsOk {α : Type} (a : Act F α) : Prop := ∀ w : World F, w.Ok → (a w).1.Ok

theorem keepsOk_bind {α β : Type} {a : Act F α} {f : α → Act F β} (ha : KeepsOk a) (hf : ∀ x, KeepsOk (f x)) : KeepsOk (a >>= f) := by
  intro w hw
  have := ha w hw
  rw [act_bind]
  rcases h : a w with ⟨w1, _ | x⟩ <;> rw [h] at this
  · exact this
  · exact hf x w1 this

theorem keepsOk_pure {α : Type} (x : α) : KeepsOk (pure x : Act F α) := fun _ hw => hw
theorem keepsOk_lift {α : Type} (x : Res α) : KeepsOk (Act.lift x : Act F α) := fun _ hw => hw
theorem keepsOk_call (env : Env F) (r : Ref) (c : Call F) : KeepsOk (call env r c) := fun _ hw => (hw.call env r c).1

theorem keepsOk_prepare (env : Env F) (c : Case F) (r : Ref) : KeepsOk (c.prepare env r) := by
  have snap : KeepsOk (snapshotOf env r : Act F Ref) := keepsOk_bind (keepsOk_call _ _ _) fun o => by cases o <;> exact keepsOk_pure _
  have pct : ∀ x l, KeepsOk (do match ← call env x (.stat (.percentiles l)) with | .floats ps => return (x, ps) | _ => return (x, []) : Act F (Ref × List F)) :=
    fun x l => keepsOk_bind (keepsOk_call _ _ _) fun o => by cases o <;> exact keepsOk_pure _
  rcases c with ⟨a, b, l, body⟩
  cases a <;> cases b <;> cases l <;> simp only [Case.prepare, Bool.false_eq_true, if_false, if_true]
  · exact keepsOk_pure _
  · exact pct _ _
  · exact keepsOk_bind snap fun _ => keepsOk_pure _
  · exact keepsOk_bind snap fun _ => pct _ _
  · exact keepsOk_bind (keepsOk_call _ _ _) fun _ => keepsOk_pure _
  · exact keepsOk_bind (keepsOk_call _ _ _) fun _ => pct _ _
  · exact keepsOk_bind (keepsOk_call _ _ _) fun _ => keepsOk_bind snap fun _ => keepsOk_pure _
  · exact keepsOk_bind (keepsOk_call _ _ _) fun _ => keepsOk_bind snap fun _ => pct _ _

theorem keepsOk_eval (env : Env F) (x : Ref) (ps : List F) (e : Expr F) : KeepsOk (e.eval env x ps) := by
  induction e with
  | get c => exact keepsOk_bind (keepsOk_call _ _ _) fun _ => keepsOk_pure _
  | ps i => exact keepsOk_lift _
  | const v => exact keepsOk_pure _
  | float e ih => exact keepsOk_bind ih fun _ => keepsOk_pure _
  | int e ih => exact ih
  | divInt e d ih => exact keepsOk_bind ih fun _ => keepsOk_lift _
  | divFloat e d ih => exact keepsOk_bind ih fun _ => keepsOk_pure _

theorem keepsOk_expStmt (env : Env F) (name : Str) (x : Ref) (ps : List F) (st : Stmt F) (w : World F) (s : Expvar F) (hw : w.Ok) : (expStmt env name x ps st (w, s)).1.1.Ok := by
  cases st with
  | printf f as => exact hw
  | postCount sfx key e =>
    have := keepsOk_eval env x ps e w hw
    simp only [expStmt]
    rcases getInt (name ++ bytes sfx) s with ⟨s', _ | _ | _⟩
    · rcases h : e.eval env x ps w with ⟨w', _ | _⟩ <;> rw [h] at this <;> exact this
    · exact hw
    · exact hw
  | postValue sfx key e =>
    have := keepsOk_eval env x ps e w hw
    simp only [expStmt]
    rcases getFloat (name ++ bytes sfx) s with ⟨s', _ | _ | _⟩
    · rcases h : e.eval env x ps w with ⟨w', _ | _⟩ <;> rw [h] at this <;> exact this
    · exact hw
    · exact hw

theorem keepsOk_expStmts (env : Env F) (name : Str) (x : Ref) (ps : List F) (ss : List (Stmt F)) : ∀ (y : World F × Expvar F), y.1.Ok → (expStmts env name x ps ss y).1.1.Ok := by
  induction ss with
  | nil => exact fun y h => h
  | cons st ss ih =>
    intro y hw
    have := keepsOk_expStmt env name x ps st y.1 y.2 hw
    rw [expStmts]
    rcases h : expStmt env name x ps st y with ⟨y', _ | _ | _⟩ <;> rw [h] at this
    · exact ih y' this
    · exact this
    · exact this

theorem keepsOk_expMetric (env : Env F) (name : Str) (r : Ref) (y : World F × Expvar F) (hw : y.1.Ok) : (expMetric env name r y).1.1.Ok := by
  rw [expMetric]
  split
  · rename_i c _
    have := keepsOk_prepare env c r y.1 hw
    rcases h : c.prepare env r y.1 with ⟨w', _ | ⟨x, ps⟩⟩ <;> rw [h] at this
    · exact this
    · exact keepsOk_expStmts env name x ps _ _ this
  · exact hw

theorem keepsOk_visit (env : Env F) (l : List (Str × Ref)) : ∀ (y : World F × Expvar F × Bool), y.1.Ok → (visit (expCallback env) l y).1.1.Ok := by
  induction l with
  | nil => exact fun y h => h
  | cons e l ih =>
    rintro ⟨w, s, b⟩ hw
    have := keepsOk_expMetric env e.1 e.2 (w, s) hw
    cases b with
    | true => rw [visit_hung]; exact hw
    | false =>
      simp only [visit, expCallback, Bool.false_eq_true, if_false]
      rcases h : expMetric env e.1 e.2 (w, s) with ⟨⟨w', s'⟩, _ | _ | _⟩ <;> rw [h] at this
      · exact ih _ this
      · exact this
      · exact ih _ this

theorem keepsOk_request (env : Env F) (g : Reg) (y : World F × Expvar F) (hw : y.1.Ok) : (expHandler env g y).1.1.Ok := by
  have h1 : (each env g (expCallback env) (y.1, y.2, false)).1.1.Ok := by
    rw [each]
    have hk : (eachList env g y.1).1 = y.1 := by
      cases g with
      | std i => rfl
      | foreign => rfl
      | prefixed u p =>
        simp only [eachList]
        rcases findPrefix (.prefixed u p) [] with _ | ⟨i, q⟩ <;> rfl
    rcases h : eachList env g y.1 with ⟨w', _ | _ | l⟩ <;> rw [h] at hk <;> simp only at hk <;> subst hk
    · exact hw
    · exact hw
    · exact keepsOk_visit env l _ hw
  have h2 : (syncToExpvar env g y).1.1.Ok := by
    rw [syncToExpvar]
    rcases h : each env g (expCallback env) (y.1, y.2, false) with ⟨⟨w', s', _ | _⟩, _ | _⟩ <;> rw [h] at h1 <;> exact h1
  rw [expHandler]
  rcases h : syncToExpvar env g y with ⟨y', _ | _ | _⟩ <;> rw [h] at h2 <;> exact h2

end GoMetrics
