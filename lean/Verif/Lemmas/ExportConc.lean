import Verif.Lemmas.ExportBlocks
import Verif.Props.Export
import Verif.Spec.ExportConc

/-! Exports while other goroutines use the metrics: every block shows the state of its metric at one moment. -/

set_option linter.unusedSimpArgs false
set_option linter.unusedSectionVars false

namespace GoMetrics
open Spec

variable {F : Type} [GoFloat F] [GoSqrt F] [GoExp F]

/-! ### The monad -/

theorem live_bind {α β : Type} (x : Live F α) (f : α → Live F β) (s : Nat → Turn F) (st : LiveState F) :
    (x >>= f) s st = match x s st with | (st', .ok a) => f a s st' | (st', .error p) => (st', .error p) := rfl
theorem live_pure {α : Type} (a : α) (s : Nat → Turn F) (st : LiveState F) : (pure a : Live F α) s st = (st, .ok a) := rfl
theorem live_lift {α : Type} (a : Res α) (s : Nat → Turn F) (st : LiveState F) : (Live.lift a : Live F α) s st = (st, a) := rfl

theorem live_bind_ok {α β : Type} {x : Live F α} {f : α → Live F β} {s : Nat → Turn F} {st st' : LiveState F} {b : β} (h : (x >>= f) s st = (st', .ok b)) :
    ∃ st1 a, x s st = (st1, .ok a) ∧ f a s st1 = (st', .ok b) := by
  rw [live_bind] at h
  rcases hx : x s st with ⟨st1, p | a⟩ <;> rw [hx] at h
  · simp at h
  · exact ⟨st1, a, rfl, h⟩

theorem after_append (a b : List (Env F × Op F)) : (after (a ++ b) : World F) = (after a).run b := World.run_append _ _ _
theorem after_call (h : List (Env F × Op F)) (env : Env F) (r : Ref) (c : Call F) : (after (h ++ [(env, .call r c)]) : World F) = (call env r c (after h)).1 := by
  rw [after_append]
  show (step env (.call r c) (after h)).1 = _
  rw [step, act_bind]
  rcases call env r c (after h) with ⟨w, _ | _⟩ <;> rfl
theorem after_ok (h : List (Env F × Op F)) : (after h : World F).Ok := run_ok h
theorem after_le {a b : List (Env F × Op F)} (h : a <+: b) : (after a : World F).Leq (after b) := by
  obtain ⟨c, rfl⟩ := h
  rw [after_append]
  exact ((after_ok a).run c).2

/-! ### Growing histories -/

/-- The history only grows. -/
def Grows {α : Type} (x : Live F α) : Prop := ∀ s st, st.log <+: (x s st).1.log

theorem grows_pure {α : Type} (a : α) : Grows (pure a : Live F α) := fun _ _ => List.prefix_rfl
theorem grows_lift {α : Type} (a : Res α) : Grows (Live.lift a : Live F α) := fun _ _ => List.prefix_rfl
theorem grows_bind {α β : Type} {x : Live F α} {f : α → Live F β} (hx : Grows x) (hf : ∀ a, Grows (f a)) : Grows (x >>= f) := by
  intro s st
  have h1 := hx s st
  rw [live_bind]
  rcases h : x s st with ⟨st1, p | a⟩ <;> rw [h] at h1
  · exact h1
  · exact h1.trans (hf a s st1)
theorem grows_call (r : Ref) (c : Call F) : Grows (liveCall r c) := fun s st => by
  simp only [liveCall, List.append_assoc]; exact List.prefix_append _ _

theorem grows_expr (x : Ref) (ps : List F) (e : Expr F) : Grows (e.evalLive x ps) := by
  induction e with
  | get c => exact grows_bind (grows_call x c) fun _ => grows_pure _
  | ps i => exact grows_lift _
  | const v => exact grows_pure _
  | float e ih => exact grows_bind ih fun _ => grows_pure _
  | int e ih => exact ih
  | divInt e d ih => exact grows_bind ih fun _ => grows_lift _
  | divFloat e d ih => exact grows_bind ih fun _ => grows_pure _
theorem grows_arg (name : Str) (x : Ref) (ps : List F) (e : ArgExpr F) : Grows (e.evalLive name x ps) := by
  cases e with
  | name => exact grows_pure _
  | str s => exact grows_pure _
  | val e => exact grows_bind (grows_expr x ps e) fun _ => grows_pure _
theorem grows_args (name : Str) (x : Ref) (ps : List F) (as : List (ArgExpr F)) : Grows (evalArgsLive name x ps as) := by
  induction as with
  | nil => exact grows_pure _
  | cons a as ih => exact grows_bind (grows_arg name x ps a) fun _ => grows_bind ih fun _ => grows_pure _
theorem grows_stmt (name : Str) (x : Ref) (ps : List F) (e : Stmt F) : Grows (e.execLive name x ps) := by
  cases e with
  | printf f as => exact grows_bind (grows_args name x ps as) fun _ => grows_pure _
  | postCount a b e => exact grows_bind (grows_expr x ps e) fun _ => grows_pure _
  | postValue a b e => exact grows_bind (grows_expr x ps e) fun _ => grows_pure _

/-! ### Statements over an object whose values do not change any more -/

section stable
variable {s : Nat → Turn F} {x : Ref} {ps : List F} {val : Call F → GoMetrics.Field F} {name : Str}

/-- From the history `log` on the accessor `c` of `x` has the value `v`. -/
def Settled (log : List (Env F × Op F)) (x : Ref) (c : Call F) (v : GoMetrics.Field F) : Prop :=
  ∀ log' env, log <+: log' → ∃ out, (call env x c (after log')).2 = .ok out ∧ v = out.shown

theorem Settled.mono {log log' : List (Env F × Op F)} {c : Call F} {v : GoMetrics.Field F} (h : Settled log x c v) (hl : log <+: log') : Settled log' x c v :=
  fun log'' env h' => h log'' env (hl.trans h')

theorem expr_settled {e : Expr F} {st : LiveState F} (h : ∀ c ∈ e.calls, Settled st.log x c (val c)) : (e.evalLive x ps s st).2 = e.den val ps := by
  induction e with
  | get c =>
    obtain ⟨out, h1, h2⟩ := h c (by simp [Expr.calls]) (st.log ++ (s st.turn).others) (s st.turn).env (List.prefix_append _ _)
    simp only [Expr.evalLive, live_bind, liveCall, h1, live_pure, Expr.den, h2]
  | ps i => rfl
  | const v => rfl
  | float e ih =>
    have := ih h
    simp only [Expr.evalLive, live_bind, Expr.den, ← this]
    rcases e.evalLive x ps s st with ⟨st1, p | a⟩ <;> rfl
  | int e ih => exact ih h
  | divInt e d ih =>
    have := ih h
    simp only [Expr.evalLive, live_bind, Expr.den, ← this]
    rcases e.evalLive x ps s st with ⟨st1, p | a⟩ <;> rfl
  | divFloat e d ih =>
    have := ih h
    simp only [Expr.evalLive, live_bind, Expr.den, ← this]
    rcases e.evalLive x ps s st with ⟨st1, p | a⟩ <;> rfl

theorem arg_settled {e : ArgExpr F} {st : LiveState F} (h : ∀ c ∈ e.calls, Settled st.log x c (val c)) : (e.evalLive name x ps s st).2 = e.den name val ps := by
  cases e with
  | name => rfl
  | str s => rfl
  | val e =>
    have := expr_settled (s := s) (ps := ps) (st := st) h
    simp only [ArgExpr.evalLive, live_bind, ArgExpr.den, ← this]
    rcases e.evalLive x ps s st with ⟨st1, p | a⟩ <;> rfl

theorem args_settled {as : List (ArgExpr F)} {st : LiveState F} (h : ∀ c ∈ as.flatMap ArgExpr.calls, Settled st.log x c (val c)) :
    (evalArgsLive name x ps as s st).2 = denArgs name val ps as := by
  induction as generalizing st with
  | nil => rfl
  | cons a as ih =>
    have h1 := arg_settled (s := s) (ps := ps) (name := name) (st := st) (e := a) fun c hc => h c (by simp [hc])
    have h2 := grows_arg name x ps a s st
    simp only [evalArgsLive, live_bind, denArgs, ← h1]
    rcases ha : a.evalLive name x ps s st with ⟨st1, p | v⟩
    · rfl
    · rw [ha] at h2
      have h3 := ih (st := st1) fun c hc => (h c (by simp only [List.flatMap_cons, List.mem_append]; exact .inr hc)).mono h2
      simp only [← h3]
      rcases evalArgsLive name x ps as s st1 with ⟨st2, p | vs⟩ <;> rfl

theorem stmt_settled {e : Stmt F} {st : LiveState F} (h : ∀ c ∈ e.calls, Settled st.log x c (val c)) : (e.execLive name x ps s st).2 = e.den name val ps := by
  cases e with
  | printf f as =>
    have := args_settled (s := s) (ps := ps) (name := name) (st := st) h
    simp only [Stmt.execLive, live_bind, Stmt.den, ← this]
    rcases evalArgsLive name x ps as s st with ⟨st1, p | a⟩ <;> rfl
  | postCount a b e =>
    have := expr_settled (s := s) (ps := ps) (st := st) h
    simp only [Stmt.execLive, live_bind, Stmt.den, ← this]
    rcases e.evalLive x ps s st with ⟨st1, p | a⟩ <;> rfl
  | postValue a b e =>
    have := expr_settled (s := s) (ps := ps) (st := st) h
    simp only [Stmt.execLive, live_bind, Stmt.den, ← this]
    rcases e.evalLive x ps s st with ⟨st1, p | a⟩ <;> rfl

theorem stmts_settled {ss : List (Stmt F)} {st st' : LiveState F} {out out' : List (Event F)} (h : ∀ e ∈ ss, ∀ c ∈ e.calls, Settled st.log x c (val c))
    (hr : runStmtsLive s name x ps ss (st, out) = ((st', out'), none)) :
    st.log <+: st'.log ∧ ∃ evs, out' = out ++ evs ∧ List.Forall₂ (fun e ev => e.den name val ps = .ok ev) ss evs := by
  induction ss generalizing st out with
  | nil =>
    simp only [runStmtsLive, Prod.mk.injEq, and_true] at hr
    obtain ⟨rfl, rfl⟩ := hr
    exact ⟨List.prefix_rfl, [], by simp, .nil⟩
  | cons e ss ih =>
    have h1 := stmt_settled (s := s) (ps := ps) (name := name) (st := st) (e := e) (h e (by simp))
    have h2 := grows_stmt name x ps e s st
    rw [runStmtsLive] at hr
    rcases he : e.execLive name x ps s st with ⟨st1, p | ev⟩
    · simp [he] at hr
    · rw [he] at h1 h2
      simp only [he] at hr
      obtain ⟨h3, evs, h4, h5⟩ := ih (fun e' he' c hc => (h e' (by simp [he']) c hc).mono h2) hr
      exact ⟨h2.trans h3, ev :: evs, by rw [h4]; simp, .cons h1.symm h5⟩

end stable

/-! ### Statements with a single call -/

section once
variable {s : Nat → Turn F} {x : Ref} {ps : List F} {name : Str} {c0 : Call F}

/-- Between the histories `a` and `b` the call `c0` has been made on `x`, and `v` is what it returned. -/
def Asked (a b : List (Env F × Op F)) (x : Ref) (c0 : Call F) (v : GoMetrics.Field F) (past : List (Env F × Op F)) (env : Env F) : Prop :=
  a <+: past ∧ past ++ [(env, .call x c0)] <+: b ∧ ∃ out, (call env x c0 (after past)).2 = .ok out ∧ v = out.shown

theorem Asked.mono {a a' b b' : List (Env F × Op F)} {v : GoMetrics.Field F} {past : List (Env F × Op F)} {env : Env F} (h : Asked a b x c0 v past env) (ha : a' <+: a) (hb : b <+: b') :
    Asked a' b' x c0 v past env := ⟨ha.trans h.1, h.2.1.trans hb, h.2.2⟩

theorem expr_once {e : Expr F} {st st' : LiveState F} {y : GoMetrics.Field F} (hc : e.calls = [c0]) (h : e.evalLive x ps s st = (st', .ok y)) :
    ∃ v past env, Asked st.log st'.log x c0 v past env ∧ e.den (fun _ => v) ps = .ok y := by
  induction e generalizing st' y with
  | get c =>
    simp only [Expr.calls, List.cons.injEq, and_true] at hc
    subst hc
    obtain ⟨st1, out, h1, h2⟩ := live_bind_ok h
    simp only [live_pure, Prod.mk.injEq, Except.ok.injEq] at h2
    obtain ⟨rfl, rfl⟩ := h2
    simp only [liveCall, Prod.mk.injEq] at h1
    obtain ⟨rfl, h1⟩ := h1
    exact ⟨out.shown, _, _, ⟨List.prefix_append _ _, List.prefix_rfl, out, h1, rfl⟩, rfl⟩
  | ps i => simp [Expr.calls] at hc
  | const v => simp [Expr.calls] at hc
  | float e ih =>
    obtain ⟨st1, z, h1, h2⟩ := live_bind_ok h
    simp only [live_pure, Prod.mk.injEq, Except.ok.injEq] at h2
    obtain ⟨rfl, rfl⟩ := h2
    obtain ⟨v, past, env, h3, h4⟩ := ih hc h1
    exact ⟨v, past, env, h3, by simp only [Expr.den, h4]⟩
  | int e ih => exact ih hc h
  | divInt e d ih =>
    obtain ⟨st1, z, h1, h2⟩ := live_bind_ok h
    simp only [live_lift, Prod.mk.injEq] at h2
    obtain ⟨rfl, h2⟩ := h2
    obtain ⟨v, past, env, h3, h4⟩ := ih hc h1
    exact ⟨v, past, env, h3, by simp only [Expr.den, h4, h2]⟩
  | divFloat e d ih =>
    obtain ⟨st1, z, h1, h2⟩ := live_bind_ok h
    simp only [live_pure, Prod.mk.injEq, Except.ok.injEq] at h2
    obtain ⟨rfl, rfl⟩ := h2
    obtain ⟨v, past, env, h3, h4⟩ := ih hc h1
    exact ⟨v, past, env, h3, by simp only [Expr.den, h4]⟩

theorem arg_once {e : ArgExpr F} {st st' : LiveState F} {y : FmtArg (GoMetrics.Field F)} (hc : e.calls = [c0]) (h : e.evalLive name x ps s st = (st', .ok y)) :
    ∃ v past env, Asked st.log st'.log x c0 v past env ∧ e.den name (fun _ => v) ps = .ok y := by
  cases e with
  | name => simp [ArgExpr.calls] at hc
  | str s => simp [ArgExpr.calls] at hc
  | val e =>
    obtain ⟨st1, z, h1, h2⟩ := live_bind_ok h
    simp only [live_pure, Prod.mk.injEq, Except.ok.injEq] at h2
    obtain ⟨rfl, rfl⟩ := h2
    obtain ⟨v, past, env, h3, h4⟩ := expr_once hc h1
    exact ⟨v, past, env, h3, by simp only [ArgExpr.den, h4]⟩

theorem append_single {α : Type} {a b : List α} {c : α} (h : a ++ b = [c]) : a = [c] ∧ b = [] ∨ a = [] ∧ b = [c] := by
  cases a with
  | nil => exact .inr ⟨rfl, h⟩
  | cons d a =>
    simp only [List.cons_append, List.cons.injEq, List.append_eq_nil_iff] at h
    exact .inl ⟨by rw [h.1, h.2.1], h.2.2⟩

theorem args_once {as : List (ArgExpr F)} {st st' : LiveState F} {y : List (FmtArg (GoMetrics.Field F))} (hc : as.flatMap ArgExpr.calls = [c0])
    (h : evalArgsLive name x ps as s st = (st', .ok y)) :
    ∃ v past env, Asked st.log st'.log x c0 v past env ∧ denArgs name (fun _ => v) ps as = .ok y := by
  induction as generalizing st y with
  | nil => simp at hc
  | cons a as ih =>
    obtain ⟨st1, z, h1, h2⟩ := live_bind_ok h
    obtain ⟨st2, zs, h3, h4⟩ := live_bind_ok h2
    simp only [live_pure, Prod.mk.injEq, Except.ok.injEq] at h4
    obtain ⟨rfl, rfl⟩ := h4
    have g1 := grows_arg name x ps a s st
    have g2 := grows_args name x ps as s st1
    rw [h1] at g1
    rw [h3] at g2
    rw [List.flatMap_cons] at hc
    rcases append_single hc with ⟨e1, e2⟩ | ⟨e1, e2⟩
    · obtain ⟨v, past, env, h5, h6⟩ := arg_once e1 h1
      have h7 := args_settled (s := s) (x := x) (ps := ps) (name := name) (val := fun _ => v) (as := as) (st := st1) (by rw [e2]; simp)
      rw [h3] at h7
      exact ⟨v, past, env, h5.mono List.prefix_rfl g2, by simp only [denArgs, h6, ← h7]⟩
    · obtain ⟨v, past, env, h5, h6⟩ := ih e2 h3
      have h7 := arg_settled (s := s) (x := x) (ps := ps) (name := name) (val := fun _ => v) (e := a) (st := st) (by rw [e1]; simp)
      rw [h1] at h7
      exact ⟨v, past, env, h5.mono g1 List.prefix_rfl, by simp only [denArgs, h6, ← h7]⟩

theorem stmt_once {e : Stmt F} {st st' : LiveState F} {y : Event F} (hc : e.calls = [c0]) (h : e.execLive name x ps s st = (st', .ok y)) :
    ∃ v past env, Asked st.log st'.log x c0 v past env ∧ e.den name (fun _ => v) ps = .ok y := by
  cases e with
  | printf f as =>
    obtain ⟨st1, z, h1, h2⟩ := live_bind_ok h
    simp only [live_pure, Prod.mk.injEq, Except.ok.injEq] at h2
    obtain ⟨rfl, rfl⟩ := h2
    obtain ⟨v, past, env, h3, h4⟩ := args_once hc h1
    exact ⟨v, past, env, h3, by simp only [Stmt.den, h4]⟩
  | postCount a b e =>
    obtain ⟨st1, z, h1, h2⟩ := live_bind_ok h
    simp only [live_pure, Prod.mk.injEq, Except.ok.injEq] at h2
    obtain ⟨rfl, rfl⟩ := h2
    obtain ⟨v, past, env, h3, h4⟩ := expr_once hc h1
    exact ⟨v, past, env, h3, by simp only [Stmt.den, h4]⟩
  | postValue a b e =>
    obtain ⟨st1, z, h1, h2⟩ := live_bind_ok h
    simp only [live_pure, Prod.mk.injEq, Except.ok.injEq] at h2
    obtain ⟨rfl, rfl⟩ := h2
    obtain ⟨v, past, env, h3, h4⟩ := expr_once hc h1
    exact ⟨v, past, env, h3, by simp only [Stmt.den, h4]⟩

theorem stmts_once {ss : List (Stmt F)} {st st' : LiveState F} {out out' : List (Event F)} (hc : ss.flatMap Stmt.calls = [c0])
    (h : runStmtsLive s name x ps ss (st, out) = ((st', out'), none)) :
    ∃ v past env evs, Asked st.log st'.log x c0 v past env ∧ out' = out ++ evs ∧ List.Forall₂ (fun e ev => e.den name (fun _ => v) ps = .ok ev) ss evs := by
  induction ss generalizing st out with
  | nil => simp at hc
  | cons e ss ih =>
    have g1 := grows_stmt name x ps e s st
    rw [runStmtsLive] at h
    rcases he : e.execLive name x ps s st with ⟨st1, p | ev⟩
    · simp [he] at h
    · rw [he] at g1
      simp only [he] at h
      rw [List.flatMap_cons] at hc
      rcases append_single hc with ⟨e1, e2⟩ | ⟨e1, e2⟩
      · obtain ⟨v, past, env, h5, h6⟩ := stmt_once e1 he
        obtain ⟨g2, evs, h7, h8⟩ := stmts_settled (val := fun _ => v) (fun e' he' c hc' => by
          have : c ∈ ss.flatMap Stmt.calls := List.mem_flatMap.2 ⟨e', he', hc'⟩
          rw [e2] at this; simp at this) h
        exact ⟨v, past, env, ev :: evs, h5.mono List.prefix_rfl g2, by rw [h7]; simp, .cons h6 h8⟩
      · obtain ⟨v, past, env, evs, h5, h6, h7⟩ := ih e2 h
        have h8 := stmt_settled (s := s) (x := x) (ps := ps) (name := name) (val := fun _ => v) (e := e) (st := st) (by rw [e1]; simp)
        rw [he] at h8
        exact ⟨v, past, env, ev :: evs, h5.mono g1 List.prefix_rfl, by rw [h6]; simp, .cons h8.symm h7⟩

end once

/-! ### Snapshots of distributions -/

section frozen
variable {S : Ref → Prop} {w w' : World F}

theorem FrozenSample.recorded (hle : w.Le S w') {r : Ref} (h : FrozenSample True w r) :
    sampleRecorded w' r = sampleRecorded w r ∨ sampleRecorded w' r = (sampleRecorded w r).map sortInts := by
  rcases h with ⟨n, a, h1, h2, h3⟩ | h
  · have h1' := hle.frozen r _ h1 rfl
    simp only [sampleRecorded, h1, h1']
    rcases (hle.arr a h3).2 (h2 trivial) with e | e
    · exact .inl (by rw [e])
    · exact .inr (by rw [e]; rfl)
  · have h' := hle.frozen r _ h rfl
    simp [sampleRecorded, h, h']

theorem FrozenHist.recorded (hle : w.Le S w') {r : Ref} (h : FrozenHist True w r) :
    histRecorded w' r = histRecorded w r ∨ histRecorded w' r = (histRecorded w r).map sortInts := by
  rcases h with ⟨s, h1, h2⟩ | h
  · have h1' := hle.frozen r _ h1 rfl
    simp only [histRecorded, h1, h1']
    exact h2.recorded hle
  · have h' := hle.frozen r _ h rfl
    simp [histRecorded, h, h']

theorem frozen_recorded (hle : w.Le S w') {r : Ref} (h : FrozenHist True w r ∨ FrozenTimer True w r) :
    recorded w' r = recorded w r ∨ recorded w' r = (recorded w r).map sortInts := by
  rcases h with h | h
  · have h1 := h.recorded hle
    obtain ⟨x, hx⟩ : ∃ x, w.objs r = some (.hist x) := by rcases h with ⟨s, h, -⟩ | h <;> exact ⟨_, h⟩
    obtain ⟨x', hx'⟩ : ∃ x, w'.objs r = some (.hist x) := by
      rcases h with ⟨s, h, -⟩ | h <;> exact ⟨_, hle.frozen r _ h rfl⟩
    simpa only [GoMetrics.Spec.recorded, hx, hx'] using h1
  · rcases h with ⟨a, b, h, ha, -⟩ | h
    · have h' := hle.frozen r _ h rfl
      simpa only [GoMetrics.Spec.recorded, h, h'] using ha.recorded hle
    · have h' := hle.frozen r _ h rfl
      simp [GoMetrics.Spec.recorded, histRecorded, h, h']

theorem sortedDev_sort (l : Option (List Int64)) : (sortedDev (l.map sortInts) : F) = sortedDev l := by
  cases l with
  | none => rfl
  | some l => simp only [Option.map_some, sortedDev, sortInts_idem]

theorem FrozenSample.weak {r : Ref} (h : FrozenSample True w r) : FrozenSample False w r := by
  rcases h with ⟨n, a, h1, h2, h3⟩ | h
  · exact .inl ⟨n, a, h1, fun h => h.elim, h3⟩
  · exact .inr h
theorem FrozenHist.weak {r : Ref} (h : FrozenHist True w r) : FrozenHist False w r := by
  rcases h with ⟨s, h1, h2⟩ | h
  · exact .inl ⟨s, h1, h2.weak⟩
  · exact .inr h
theorem FrozenTimer.weak {r : Ref} (h : FrozenTimer True w r) : FrozenTimer False w r := by
  rcases h with ⟨a, b, h1, h2, h3⟩ | h
  · exact .inl ⟨a, b, h1, h2.weak, h3⟩
  · exact .inr h

theorem frozen_dist_le (hle : w.Le S w') {r : Ref} (h : FrozenHist True w r ∨ FrozenTimer True w r) :
    (FrozenHist True w' r ∨ FrozenTimer True w' r) ∧ w'.objs r = w.objs r := by
  rcases h with h | h
  · refine ⟨.inl (h.le hle).1, ?_⟩
    rcases h with ⟨s, h, -⟩ | h <;> rw [hle.frozen r _ h rfl, h]
  · rcases h with ⟨a, b, h, ha, hb⟩ | h
    · have h' := hle.frozen r _ h rfl
      exact ⟨.inr (.inl ⟨a, b, h', (ha.le hle).1, (hb.le hle).1⟩), by rw [h', h]⟩
    · have h' := hle.frozen r _ h rfl
      exact ⟨.inr (.inr h'), by rw [h', h]⟩

theorem frozen_dist {r : Ref} (h : FrozenHist True w r ∨ FrozenTimer True w r) : Frozen w r := by
  rcases h with h | h
  · exact .inr (.inr (.inl h))
  · exact .inr (.inr (.inr (.inr h)))

theorem dist_ty {r : Ref} (h : FrozenHist True w r ∨ FrozenTimer True w r) : HasTy w r .hist ∨ HasTy w r .timer := by
  rcases h with (⟨_, h, -⟩ | h) | ⟨_, _, h, -⟩ | h
  · exact .inl ⟨_, h, rfl⟩
  · exact .inl ⟨_, h, rfl⟩
  · exact .inr ⟨_, h, rfl⟩
  · exact .inr ⟨_, h, rfl⟩

/-- A snapshot of a distribution, once `Percentiles` has been called: its values are those it had at first, and will stay so. -/
theorem dist_settled {w1 w2 w3 : World F} {env1 env2 : Env F} {q : Ref} {l : List F} {pso : Out F} {o : Obj F} (hw2 : w2.Ok) (hle : w1.Leq w2) (ho : w1.objs q = some o)
    (hq : FrozenHist True w1 q ∨ FrozenTimer True w1 q) (h : call env2 q (.stat (.percentiles l)) w2 = (w3, .ok pso)) :
    (∀ c, readable o c = true → ∃ v, typed o c v ∧ Shown w1 env1 q ("", c) ("", v) ∧ ∀ w4 env4, w4.Ok → w3.Leq w4 → ∃ out, (call env4 q c w4).2 = .ok out ∧ v = out.shown) ∧
    ∃ ss, pso = .floats ss ∧ ∀ (i : Nat) p, l[i]? = some p → ∃ x, ss[i]? = some x ∧ Shown w1 env1 q ("", .stat (.percentile p)) ("", .float x) := by
  obtain ⟨hq2, e2⟩ := frozen_dist_le hle hq
  have ho2 : w2.objs q = some o := e2.trans ho
  have hq2' : FrozenHist False w2 q ∨ FrozenTimer False w2 q := hq2.imp (·.weak) (·.weak)
  have hle3 : w2.Leq w3 := by have := (hw2.call env2 q (.stat (.percentiles l))).2; rwa [h] at this
  have hsort := frozen_sorts (env := env2) hq2' l
  rw [h] at hsort
  obtain ⟨-, hw3, hread, ss, rfl, hpct⟩ := sorted_read hw2 hq2' h ho2
  have hne : o.ty ≠ .health := by
    rcases dist_ty hq with ⟨o', h1, h2⟩ | ⟨o', h1, h2⟩ <;> (rw [ho] at h1; cases h1; rw [h2]; simp)
  have src : ∀ c v, Shown w2 env2 q ("", c) ("", v) → Shown w1 env1 q ("", c) ("", v) := by
    rintro c v ⟨-, h2, h3⟩
    refine ⟨rfl, fun e => ?_, fun e => ⟨(h3 e).1, ?_⟩⟩
    · rw [h2 e]
      rcases frozen_recorded hle hq with e' | e' <;> rw [e']
      rw [sortedDev_sort]
    · have h4 := (h3 e).2
      rw [checked_of_not_health ho2 hne, ((frozen_dist hq).le hle).2 env1 env2 c (readOK_orderFree (h3 e).1)] at h4
      rw [checked_of_not_health ho hne]
      exact h4
  refine ⟨fun c hc => ?_, ss, rfl, fun i p hp => ?_⟩
  · obtain ⟨out, h1, h2, h3⟩ := hread c hc
    refine ⟨out.shown, h3, src _ _ h2, fun w4 env4 hw4 hle4 => ?_⟩
    obtain ⟨hq3, -⟩ := frozen_dist_le hle3 hq2
    have h5 : observe w3 env2 q c = .ok out := by rw [observe, h1]
    by_cases hs : c = .stat .stdDev
    · subst hs
      obtain ⟨hq4, -⟩ := frozen_dist_le hle4 hq3
      have h6 : observe w4 env4 q (.stat .stdDev) = .ok out := by
        rw [observe_stat hw4 (dist_ty hq4)]
        rw [observe_stat hw3 (dist_ty hq3)] at h5
        rcases frozen_recorded hle4 hq3 with e | e <;> rw [e]
        · exact h5
        · rw [hsort, Option.map_map]
          rw [hsort] at h5
          have : sortInts ∘ sortInts = sortInts := funext sortInts_idem
          rw [this]
          exact h5
      exact ⟨out, h6, rfl⟩
    · have h6 := ((frozen_dist hq3).le hle4).2 env2 env4 c (readOK_orderFree (h2.2.2 hs).1)
      exact ⟨out, h6.trans h5, rfl⟩
  · obtain ⟨x, h1, h2⟩ := hpct i p hp
    exact ⟨x, h1, src _ _ h2⟩

end frozen

/-! ### One metric -/

/-- Counters, gauges and healthchecks are read by a single call. -/
def OneRead (sw : Obj F → Option (Case F)) : Prop := ∀ o c, sw o = some c → match o with
  | .counter _ => c.body.flatMap Stmt.calls = [.count]
  | .gauge _ | .gaugeF _ => c.body.flatMap Stmt.calls = [.value]
  | .health _ => c.body.flatMap Stmt.calls = [.error]
  | _ => True

/-- No check functions. -/
def quiet (env : Env F) : Env F := { env with checkFn := fun _ => [] }

theorem checked_quiet (env : Env F) (w : World F) (hw : w.Ok) (r : Ref) : checked (quiet env) w r = w := by
  unfold checked
  split
  · rename_i x h
    rw [(check_seen hw (quiet env) h).1]
    have : x.check (quiet env).checkFn = x := by cases x <;> rfl
    simp only [this]
    have e : Function.update w.objs r (some (.health x)) = w.objs := by rw [← h]; exact Function.update_eq_self r w.objs
    rw [e]
  · rfl

/-- What is known about the block of a metric. -/
structure BlockAt (c : Case F) (name : Str) (r : Ref) (t : Ty) (log log' : List (Env F × Op F)) (past : List (Env F × Op F)) (env : Env F) (o : Obj F) (evs : List (Event F)) : Prop where
  kind : (after past : World F).objs r = some o
  ty : o.ty = t
  since : log <+: past
  call : ∃ cl, getsValues o cl ∧ past ++ [(env, .call r cl)] <+: log'
  check : isHealth o = true → ∃ past' env', log <+: past' ∧ past' ++ [(env', .call r .check)] <+: past
  out : ∃ env0, CaseOut (after past) env0 name r o c evs ∧ ∀ d v, Holds (after past) env0 r d v → HasValue (after past) env r d v

theorem kind_after {a b : List (Env F × Op F)} (h : a <+: b) {r : Ref} {o : Obj F} (hr : (after a : World F).objs r = some o) : ∃ o', (after b : World F).objs r = some o' ∧ o'.ty = o.ty :=
  (after_le h).ty r o.ty ⟨o, hr, rfl⟩

theorem hasValue_of {w : World F} {env : Env F} {r : Ref} {o : Obj F} (hr : w.objs r = some o) (hne : o.ty ≠ .health) (d : Call F) (v : GoMetrics.Field F) (h : Holds w env r d v) : HasValue w env r d v := by
  obtain ⟨h1, h2⟩ := h
  rw [checked_of_not_health hr hne] at h2
  exact ⟨h1, h2⟩

section case
variable {s : Nat → Turn F} {c : Case F} {name : Str} {r : Ref} {st st' : LiveState F} {o : Obj F} {out out' : List (Event F)}

/-- Metrics that are read by a single call, without a check. -/
theorem scalar_live {c0 : Call F} (hr : (after st.log : World F).objs r = some o) (hk : c.check = false ∧ c.snapshot = false ∧ c.percentiles = none) (hc : c.body.flatMap Stmt.calls = [c0])
    (hne : o.ty ≠ .health) (hg : ∀ o' : Obj F, o'.ty = o.ty → getsValues o' c0 ∧ ∀ d, readable o' d = true → d = c0) (hcr : ∀ o' : Obj F, o'.ty = o.ty → ∀ w env, w.objs r = some o' → ∃ out, observe w env r c0 = .ok out ∧ shows (.ok out) out.shown ∧ typed o' c0 out.shown)
    (hs : c0 ≠ .stat .stdDev) (h : runCaseLive s c name r (st, out) = ((st', out'), none)) :
    ∃ past env o' evs, out' = out ++ evs ∧ BlockAt c name r o.ty st.log st'.log past env o' evs := by
  rw [runCaseLive] at h
  simp only [Case.prepareLive, hk.1, hk.2.1, hk.2.2, Bool.false_eq_true, if_false, live_bind, live_pure] at h
  obtain ⟨v, past, env, evs, ⟨h1, h2, o1, h3, rfl⟩, h4, h5⟩ := stmts_once hc h
  obtain ⟨o', ho', hty⟩ := kind_after h1 hr
  have hne' : o'.ty ≠ .health := by rw [hty]; exact hne
  refine ⟨past, env, o', evs, h4, ho', hty, h1, ⟨c0, (hg o' hty).1, h2⟩, fun hh => ?_, env, ⟨fun _ => o1.shown, [], fun d hd => ?_, fun l i p hl => ?_, h5⟩, hasValue_of ho' hne'⟩
  · cases o' <;> simp [isHealth] at hh
    exact absurd rfl hne'
  · obtain rfl := (hg o' hty).2 d hd
    obtain ⟨o2, h6, h7, h8⟩ := hcr o' hty _ env ho'
    rw [observe, h3] at h6
    cases h6
    refine ⟨⟨fun e => absurd e hs, fun _ => ?_⟩, h8⟩
    rw [checked_of_not_health ho' hne', observe, h3]
    exact h7
  · rw [hk.2.2] at hl
    simp at hl

/-- Healthchecks. -/
theorem health_live {x : Health} (hr : (after st.log : World F).objs r = some (.health x)) (hk : c.check = true ∧ c.snapshot = false ∧ c.percentiles = none) (hc : c.body.flatMap Stmt.calls = [.error])
    (h : runCaseLive s c name r (st, out) = ((st', out'), none)) :
    ∃ past env o' evs, out' = out ++ evs ∧ BlockAt c name r .health st.log st'.log past env o' evs := by
  rw [runCaseLive] at h
  simp only [Case.prepareLive, hk.1, hk.2.1, hk.2.2, Bool.false_eq_true, if_false, if_true] at h
  rcases hp : (do let _ ← liveCall r .check; let x ← pure r; pure (x, []) : Live F (Ref × List F)) s st with ⟨st1, p | ⟨q, ps⟩⟩
  · rw [hp] at h; simp at h
  · rw [hp] at h
    simp only at h
    obtain ⟨st2, o2, h1, h2⟩ := live_bind_ok hp
    simp only [live_bind, live_pure, Prod.mk.injEq, Except.ok.injEq] at h2
    obtain ⟨rfl, rfl, rfl⟩ := h2
    simp only [liveCall, Prod.mk.injEq] at h1
    obtain ⟨rfl, -⟩ := h1
    obtain ⟨v, past, env, evs, ⟨h1, h2, o1, h3, rfl⟩, h4, h5⟩ := stmts_once hc h
    have h0 : st.log <+: past := ((List.prefix_append _ _).trans (List.prefix_append _ _)).trans h1
    obtain ⟨o', ho', hty⟩ := kind_after h0 hr
    cases o' <;> simp [Obj.ty] at hty
    rename_i y
    have herr : call env r .error (after past) = (after past, .ok (.err y.error)) := by rw [call_obj ho']; rfl
    have herr' : call (quiet env) r .error (after past) = (after past, .ok (.err y.error)) := by rw [call_obj ho']; rfl
    rw [herr] at h3
    cases h3
    refine ⟨past, env, _, evs, h4, ho', rfl, h0, ⟨.error, trivial, h2⟩, fun _ => ⟨_, _, List.prefix_append _ _, h1⟩, quiet env, ⟨fun _ => (Out.err y.error : Out F).shown, [], fun d hd => ?_, fun l i p hl => ?_, h5⟩, fun d v hv => ?_⟩
    · cases d <;> simp [readable] at hd
      refine ⟨⟨by simp, fun _ => ?_⟩, ?_⟩
      · rw [checked_quiet env _ (after_ok past), observe, herr']
        rcases y.error with _ | e <;> rfl
      · rcases y.error with _ | e
        · exact .inl rfl
        · exact .inr ⟨_, rfl⟩
    · rw [hk.2.2] at hl
      simp at hl
    · obtain ⟨h6, h7⟩ := hv
      refine ⟨h6, fun e => ?_⟩
      have h8 := h7 e
      rw [checked_quiet env _ (after_ok past)] at h8
      have : observe (after past) (quiet env) r d = observe (after past) env r d := by
        cases d <;> first | (rw [observe, observe, call_obj ho', call_obj ho']; rfl) | skip
        all_goals (rw [observe, call_obj ho'] at h8; simp [objCall, healthCall] at h8; try exact h8.elim)
      rwa [this] at h8

/-- A call of the exporter that succeeds. -/
theorem liveCall_ok {r : Ref} {c : Call F} {st st' : LiveState F} {out : Out F} (h : liveCall r c s st = (st', .ok out)) :
    ∃ past env, st.log <+: past ∧ st'.log = past ++ [(env, .call r c)] ∧ call env r c (after past) = (after st'.log, .ok out) := by
  simp only [liveCall, Prod.mk.injEq] at h
  obtain ⟨rfl, h⟩ := h
  refine ⟨st.log ++ (s st.turn).others, (s st.turn).env, List.prefix_append _ _, rfl, Prod.ext ?_ h⟩
  simp only [after_call]

theorem grows_stmts {x : Ref} {ps : List F} (ss : List (Stmt F)) : ∀ {st : LiveState F} {out : List (Event F)}, st.log <+: (runStmtsLive s name x ps ss (st, out)).1.1.log := by
  induction ss with
  | nil => exact List.prefix_rfl
  | cons e ss ih =>
    intro st out
    have h := grows_stmt name x ps e s st
    rw [runStmtsLive]
    rcases he : e.execLive name x ps s st with ⟨st1, p | ev⟩ <;> rw [he] at h <;> simp only
    · exact h
    · exact h.trans ih

/-- The snapshot of a histogram or timer: once `Percentiles` has been called on it, it has the values that the metric had at the moment of the snapshot, and keeps them. -/
theorem dist_taken {st3 : LiveState F} {so : Out F} (hr : (after st.log : World F).objs r = some o) (hd : o.ty = .hist ∨ o.ty = .timer)
    (hown : ∀ p, st.log <+: p → p <+: st3.log → ownsValues (after p) r) (h3 : liveCall r .snapshot s st = (st3, .ok so)) :
    ∃ past env o' z, st.log <+: past ∧ st3.log = past ++ [(env, .call r .snapshot)] ∧ (after past : World F).objs r = some o' ∧ o'.ty = o.ty ∧ so = .ref z ∧
      ∀ {s' : Nat → Turn F} {st2 st4 : LiveState F} {l : List F} {pso : Out F}, st3.log <+: st2.log → liveCall z (.stat (.percentiles l)) s' st2 = (st4, .ok pso) →
        ∃ (val : Call F → GoMetrics.Field F) (ss : List F), pso = .floats ss ∧
          (∀ d, readable o' d = true → (Holds (after past) env r d (val d) ∧ typed o' d (val d)) ∧ Settled st4.log z d (val d)) ∧
          ∀ (i : Nat) p, l[i]? = some p → ∃ x, ss[i]? = some x ∧ Holds (after past) env r (.stat (.percentile p)) (.float x) := by
  obtain ⟨past, env, h5, h6, h7⟩ := liveCall_ok h3
  obtain ⟨o', ho', hty⟩ := kind_after h5 hr
  have hw := after_ok past
  obtain ⟨z, oz, e1, hz, hzt, hf, hrec⟩ : ∃ z oz, so = .ref z ∧ (after st3.log : World F).objs z = some oz ∧ oz.ty = o'.ty ∧ (FrozenHist True (after st3.log) z ∨ FrozenTimer True (after st3.log) z) ∧ recorded (after st3.log : World F) z = recorded (after past : World F) r := by
    have hown' : ownsValues (after past : World F) r := hown past h5 (by rw [h6]; exact List.prefix_append _ _)
    have h7' := h7
    rw [call_obj ho'] at h7'
    cases o' with
    | hist y =>
      obtain ⟨z, rfl⟩ := hist_out hw ho' h7'
      obtain ⟨hf, -, -⟩ := hist_snap True _ hw env r y ho' (fun _ a ha => hown' a (by simpa [slice, ho'] using ha)) _ z h7'
      obtain ⟨y', hy'⟩ : ∃ y, (after st3.log : World F).objs z = some (.hist y) := by rcases hf with ⟨s, h, -⟩ | h <;> exact ⟨_, h⟩
      refine ⟨z, _, rfl, hy', rfl, .inl hf, ?_⟩
      have := hist_recorded hw ho' h7'
      simp only [recorded, ho', hy']
      exact this
    | timer y =>
      obtain ⟨z, rfl⟩ := timer_out hw ho' h7'
      obtain ⟨hf, -, -⟩ := timer_snap True _ hw env r y ho' (fun _ a ha => hown' a ha) _ z h7'
      obtain ⟨y', hy'⟩ : ∃ y, (after st3.log : World F).objs z = some (.timer y) := by rcases hf with ⟨_, _, h, -⟩ | h <;> exact ⟨_, h⟩
      exact ⟨z, _, rfl, hy', rfl, .inr hf, timer_recorded hw ho' h7'⟩
    | _ => rw [← hty] at hd; simp [Obj.ty] at hd
  refine ⟨past, env, o', z, h5, h6, ho', hty, e1, fun {s' st2 st4 l pso} hl h8 => ?_⟩
  subst e1
  obtain ⟨past', env', h10, h11, h12⟩ := liveCall_ok h8
  have hle : (after st3.log : World F).Leq (after past') := after_le (hl.trans h10)
  obtain ⟨hread, ss, rfl, hpct⟩ := dist_settled (env1 := env) (after_ok past') hle hz hf h12
  have hne : o'.ty ≠ .health := by rw [hty]; rcases hd with e | e <;> rw [e] <;> simp
  have src : ∀ a b, Shown (after st3.log) env z a b → Shown (after past) env r a b := fun a b hab =>
    shown_source ho' hz hne (by rw [hzt]; exact hne) ((snapshot_reads _ hw env r _ z h7).1 env) hrec hab
  have : ∃ val : Call F → GoMetrics.Field F, ∀ d, readable oz d = true → typed oz d (val d) ∧ Shown (after st3.log) env z ("", d) ("", val d) ∧
      ∀ w4 env4, w4.Ok → (after st4.log : World F).Leq w4 → ∃ out, (call env4 z d w4).2 = .ok out ∧ val d = out.shown := by
    classical
    refine ⟨fun d => if hd : readable oz d = true then (hread d hd).choose else .nil, fun d hd => ?_⟩
    simp only [hd, dite_true]
    exact (hread d hd).choose_spec
  obtain ⟨val, hval⟩ := this
  refine ⟨val, ss, rfl, fun d hd' => ?_, fun i p hp' => ?_⟩
  · have h15 := hval d (by rw [readable_ty hzt]; exact hd')
    exact ⟨⟨(src _ _ h15.2.1).holds, (typed_ty hzt d _).1 h15.1⟩, fun log' env4 hl' => h15.2.2 (after log') env4 (after_ok log') (after_le hl')⟩
  · obtain ⟨x, h16, h17⟩ := hpct i p hp'
    exact ⟨x, h16, (src _ _ h17).holds⟩

/-- Histograms and timers. -/
theorem dist_live {l : List F} (hr : (after st.log : World F).objs r = some o) (hd : o.ty = .hist ∨ o.ty = .timer) (hk : c.check = false ∧ c.snapshot = true ∧ c.percentiles = some l)
    (hcalls : (c.body.all fun s => s.calls.all (readable o)) = true) (hown : ∀ p, st.log <+: p → p <+: st'.log → ownsValues (after p) r)
    (h : runCaseLive s c name r (st, out) = ((st', out'), none)) :
    ∃ past env o' evs, out' = out ++ evs ∧ BlockAt c name r o.ty st.log st'.log past env o' evs := by
  rw [runCaseLive] at h
  rcases hp : c.prepareLive r s st with ⟨st1, p | ⟨q, ps⟩⟩
  · rw [hp] at h; simp at h
  rw [hp] at h
  simp only at h
  simp only [Case.prepareLive, hk.1, hk.2.1, hk.2.2, Bool.false_eq_true, if_false, if_true] at hp
  obtain ⟨st2, q', h1, h2⟩ := live_bind_ok hp
  obtain ⟨st3, so, h3, h4⟩ := live_bind_ok h1
  obtain ⟨st4, pso, h8, h9⟩ := live_bind_ok h2
  have e1 : st3.log <+: st2.log := by
    cases so <;> (simp only [live_pure, Prod.mk.injEq] at h4; rw [h4.1])
  have e5 : st3.log <+: st'.log := by
    have e2 : st4.log <+: st1.log := by
      cases pso <;> (simp only [live_pure, Prod.mk.injEq] at h9; rw [h9.1])
    have e3 := grows_stmts (s := s) (name := name) (x := q) (ps := ps) c.body (st := st1) (out := out)
    rw [h] at e3
    have e4 : st2.log <+: st4.log := by have := grows_call q' (.stat (.percentiles l)) s st2; rwa [h8] at this
    exact ((e1.trans e4).trans e2).trans e3
  obtain ⟨past, env, o', z, h5, h6, ho', hty, rfl, key⟩ := dist_taken hr hd (fun p h1 h2 => hown p h1 (h2.trans e5)) h3
  simp only [live_pure, Prod.mk.injEq, Except.ok.injEq] at h4
  obtain ⟨rfl, rfl⟩ := h4
  obtain ⟨val, ss, rfl, hval, hpct⟩ := key List.prefix_rfl h8
  simp only [live_pure, Prod.mk.injEq, Except.ok.injEq] at h9
  obtain ⟨rfl, rfl, rfl⟩ := h9
  have hne : o'.ty ≠ .health := by rw [hty]; rcases hd with e | e <;> rw [e] <;> simp
  obtain ⟨-, evs, h13, h14⟩ := stmts_settled (val := val) (fun e he d hd' =>
    (hval d (by rw [readable_ty hty]; exact List.all_eq_true.1 (List.all_eq_true.1 hcalls e he) d hd')).2) h
  refine ⟨past, env, o', evs, h13, ho', hty, h5, ⟨.snapshot, ?_, by rw [← h6]; exact e5⟩, fun hh => ?_, env, ⟨val, ss, fun d hd' => (hval d hd').1, fun l' i p hl' hp' => ?_, h14⟩, hasValue_of ho' hne⟩
  · rw [← hty] at hd
    cases o' <;> simp [Obj.ty] at hd <;> trivial
  · cases o' <;> simp [isHealth] at hh
    exact absurd rfl hne
  · rw [hk.2.2] at hl'
    cases hl'
    exact hpct i p hp'

/-- The snapshot of a meter. -/
theorem meter_taken {y : Meter F} {st3 : LiveState F} {so : Out F} (hr : (after st.log : World F).objs r = some (.meter y)) (h3 : liveCall r .snapshot s st = (st3, .ok so)) :
    ∃ past env y' z, ∃ val : Call F → GoMetrics.Field F, st.log <+: past ∧ st3.log = past ++ [(env, .call r .snapshot)] ∧ (after past : World F).objs r = some (.meter y') ∧ so = .ref z ∧
      ∀ d, readable (.meter y' : Obj F) d = true → (Holds (after past) env r d (val d) ∧ typed (.meter y' : Obj F) d (val d)) ∧ Settled st3.log z d (val d) := by
  obtain ⟨past, env, h5, h6, h7⟩ := liveCall_ok h3
  obtain ⟨o', ho', hty⟩ := kind_after h5 hr
  cases o' <;> simp [Obj.ty] at hty
  rename_i y'
  have hw := after_ok (F := F) past
  have h7' := h7
  rw [call_obj ho'] at h7'
  obtain ⟨w3, z, h8, hf, -, -⟩ := meter_snap (after past) env r y' ho'
  have h7'' : meterCall env r y' .snapshot (after past) = (after st3.log, .ok so) := h7'
  rw [h8] at h7''
  simp only [Prod.mk.injEq, Except.ok.injEq] at h7''
  obtain ⟨rfl, rfl⟩ := h7''
  obtain ⟨m, hz⟩ : ∃ y, (after st3.log : World F).objs z = some (.meter y) := by rcases hf with ⟨s, h⟩ | h <;> exact ⟨_, h⟩
  have hrec : recorded (after st3.log : World F) z = recorded (after past : World F) r := by simp [recorded, histRecorded, ho', hz]
  have src : ∀ a b, Shown (after st3.log) env z a b → Shown (after past) env r a b := fun a b hab =>
    shown_source ho' hz (by simp [Obj.ty]) (by simp [Obj.ty]) ((snapshot_reads _ hw env r _ z h7).1 env) hrec hab
  have hread : ∀ d, readable (.meter y' : Obj F) d = true → ∃ v, typed (.meter y' : Obj F) d v ∧ Shown (after st3.log) env z ("", d) ("", v) ∧ Settled st3.log z d v := by
    intro d hd
    obtain ⟨o1, k1, k2, k3, k4⟩ : ∃ o1, observe (after st3.log : World F) env z d = .ok o1 ∧ orderFree d = true ∧ shows (.ok o1) o1.shown ∧ typed (.meter y' : Obj F) d o1.shown := by
      cases d <;> simp [readable] at hd
      · obtain ⟨n, hn⟩ := observe_count (after_ok st3.log) (env := env) (r := z) (.inr (.inr ⟨_, hz, rfl⟩))
        exact ⟨_, hn, rfl, rfl, _, rfl⟩
      · rename_i d
        obtain ⟨n, hn⟩ := observe_rates (after_ok st3.log) (env := env) (r := z) (.inr ⟨_, hz, rfl⟩) d
        exact ⟨_, hn, rfl, rfl, _, rfl⟩
    refine ⟨o1.shown, k4, shown_intro hz (by simp [Obj.ty]) k2 k1 k3, fun log' env' hl => ⟨o1, ?_, rfl⟩⟩
    exact ((FrozenIf.le (after_le hl) (.inr (.inr (.inr (.inl hf))))).2 env env' d (readOK_orderFree k2)).trans k1
  classical
  refine ⟨past, env, y', z, fun d => if hd : readable (.meter y' : Obj F) d = true then (hread d hd).choose else .nil, h5, h6, ho', rfl, fun d hd => ?_⟩
  simp only [hd, dite_true]
  obtain ⟨k1, k2, k3⟩ := (hread d hd).choose_spec
  exact ⟨⟨(src _ _ k2).holds, k1⟩, k3⟩

/-- Meters. -/
theorem meter_live {y : Meter F} (hr : (after st.log : World F).objs r = some (.meter y)) (hk : c.check = false ∧ c.snapshot = true ∧ c.percentiles = none)
    (hcalls : (c.body.all fun s => s.calls.all (readable (.meter y : Obj F))) = true)
    (h : runCaseLive s c name r (st, out) = ((st', out'), none)) :
    ∃ past env o' evs, out' = out ++ evs ∧ BlockAt c name r .meter st.log st'.log past env o' evs := by
  rw [runCaseLive] at h
  rcases hp : c.prepareLive r s st with ⟨st1, p | ⟨q, ps⟩⟩
  · rw [hp] at h; simp at h
  rw [hp] at h
  simp only at h
  simp only [Case.prepareLive, hk.1, hk.2.1, hk.2.2, Bool.false_eq_true, if_false, if_true] at hp
  obtain ⟨st2, q', h1, h2⟩ := live_bind_ok hp
  obtain ⟨st3, so, h3, h4⟩ := live_bind_ok h1
  obtain ⟨past, env, y', z, val, h5, h6, ho', rfl, hval⟩ := meter_taken hr h3
  simp only [live_pure, Prod.mk.injEq, Except.ok.injEq] at h2
  obtain ⟨rfl, rfl, rfl⟩ := h2
  simp only [live_pure, Prod.mk.injEq, Except.ok.injEq] at h4
  obtain ⟨rfl, rfl⟩ := h4
  have hpast : past ++ [(env, .call r .snapshot)] <+: st'.log := by
    have e3 := grows_stmts (s := s) (name := name) (x := z) (ps := []) c.body (st := st3) (out := out)
    rw [h] at e3
    rwa [← h6]
  obtain ⟨-, evs, h13, h14⟩ := stmts_settled (val := val) (fun e he d hd' => (hval d ((readable_ty (by rfl) d).trans (List.all_eq_true.1 (List.all_eq_true.1 hcalls e he) d hd'))).2) h
  refine ⟨past, env, _, evs, h13, ho', rfl, h5, ⟨.snapshot, trivial, hpast⟩, fun hh => by simp [isHealth] at hh, env, ⟨val, [], fun d hd' => (hval d hd').1, fun l' i p hl' hp' => ?_, h14⟩, hasValue_of ho' (by simp [Obj.ty])⟩
  rw [hk.2.2] at hl'
  simp at hl'

/-- Any metric. -/
theorem case_live {sw : Obj F → Option (Case F)} (hsw : GoodSwitch sw) (hone : OneRead sw) (hr : (after st.log : World F).objs r = some o) (hs : sw o = some c)
    (hown : ∀ p, st.log <+: p → p <+: st'.log → ownsValues (after p) r) (h : runCaseLive s c name r (st, out) = ((st', out'), none)) :
    ∃ past env o' evs, out' = out ++ evs ∧ BlockAt c name r o.ty st.log st'.log past env o' evs := by
  have hf := hsw.fit o c hs
  have hc := hone o c hs
  cases o with
  | counter y =>
    refine scalar_live hr hf hc (by simp [Obj.ty]) (fun o' e => ?_) (fun o' e w env ho => ?_) (by simp) h <;> cases o' <;> simp [Obj.ty] at e
    · exact ⟨trivial, fun d hd => by cases d <;> simp [readable] at hd; rfl⟩
    · exact ⟨_, read_obj ho _ rfl, rfl, _, rfl⟩
  | gauge y =>
    refine scalar_live hr hf hc (by simp [Obj.ty]) (fun o' e => ?_) (fun o' e w env ho => ?_) (by simp) h <;> cases o' <;> simp [Obj.ty] at e
    · exact ⟨trivial, fun d hd => by cases d <;> simp [readable] at hd; rfl⟩
    · exact ⟨_, read_obj ho _ rfl, rfl, _, rfl⟩
  | gaugeF y =>
    refine scalar_live hr hf hc (by simp [Obj.ty]) (fun o' e => ?_) (fun o' e w env ho => ?_) (by simp) h <;> cases o' <;> simp [Obj.ty] at e
    · exact ⟨trivial, fun d hd => by cases d <;> simp [readable] at hd; rfl⟩
    · exact ⟨_, read_obj ho _ rfl, rfl, _, rfl⟩
  | health y => exact health_live hr hf hc h
  | meter y => exact meter_live hr hf (hsw.calls _ _ hs) h
  | hist y => obtain ⟨l, hl⟩ := hf.2.2; exact dist_live hr (.inl rfl) ⟨hf.1, hf.2.1, hl⟩ (hsw.calls _ _ hs) hown h
  | timer y => obtain ⟨l, hl⟩ := hf.2.2; exact dist_live hr (.inr rfl) ⟨hf.1, hf.2.1, hl⟩ (hsw.calls _ _ hs) hown h
  | _ => exact hf.elim

end case

/-! ### Whose slice it is does not change -/

theorem sampleSlice_le {w w' : World F} (hle : w.Leq w') {r : Ref} (h : HasTy w r .sample) : sampleSlice w' r = sampleSlice w r := by
  obtain ⟨o, ho, ht⟩ := h
  cases o <;> simp [Obj.ty] at ht
  rename_i x
  cases x with
  | uniform y =>
    obtain ⟨o', h1, h2 | ⟨h2, -⟩⟩ := hle.live r _ .uniform ho rfl
    · have : ∀ n a, o' ≠ .sample (.snap n a) := by rintro n a rfl; simp [Obj.live] at h2
      simp only [sampleSlice, ho, h1]
      split
      · rename_i n a e; cases e; exact absurd rfl (this n a)
      · rfl
    · simp at h2
  | exp y =>
    obtain ⟨o', h1, h2 | ⟨h2, -⟩⟩ := hle.live r _ .exp ho rfl
    · have : ∀ n a, o' ≠ .sample (.snap n a) := by rintro n a rfl; simp [Obj.live] at h2
      simp only [sampleSlice, ho, h1]
      split
      · rename_i n a e; cases e; exact absurd rfl (this n a)
      · rfl
    · simp at h2
  | snap n a => simp only [sampleSlice, ho, hle.frozen r _ ho rfl]
  | nil => simp only [sampleSlice, ho, hle.frozen r _ ho rfl]

theorem histSlice_le {w w' : World F} (hw : w.Ok) (hle : w.Leq w') {r : Ref} (h : HasTy w r .hist) : histSlice w' r = histSlice w r := by
  obtain ⟨o, ho, ht⟩ := h
  cases o <;> simp [Obj.ty] at ht
  rename_i x
  cases x <;> simp only [histSlice, ho, hle.frozen r _ ho rfl]
  · exact sampleSlice_le hle (hw.refs r _ ho)
  · obtain ⟨n, a, h1⟩ := hw.refs r _ ho
    exact sampleSlice_le hle ⟨_, h1, rfl⟩

theorem slice_le {w w' : World F} (hw : w.Ok) (hle : w.Leq w') {r : Ref} {o : Obj F} (h : w.objs r = some o) (hm : o.isMetric = true) : slice w' r = slice w r := by
  cases o with
  | hist x => simp only [slice, h, hle.frozen r _ h rfl]; exact histSlice_le hw hle ⟨_, h, rfl⟩
  | timer x =>
    cases x with
    | std a b => simp only [slice, h, hle.frozen r _ h rfl]; exact histSlice_le hw hle (hw.refs r _ h).1
    | snap a b =>
      obtain ⟨s, h1⟩ := (hw.refs r _ h).1
      simp only [slice, h, hle.frozen r _ h rfl]
      exact histSlice_le hw hle ⟨_, h1, rfl⟩
    | nil => simp only [slice, h, hle.frozen r _ h rfl, sampleSlice]
  | sample x => simp [Obj.isMetric] at hm
  | ewma x => simp [Obj.isMetric] at hm
  | _ =>
    obtain ⟨o', h1, h2⟩ := hle.ty r _ ⟨_, h, rfl⟩
    cases o' <;> simp [Obj.ty] at h2 <;> simp only [slice, h, h1, sampleSlice]

theorem owns_le {w w' : World F} (hw : w.Ok) (hle : w.Leq w') {r : Ref} {o : Obj F} (h : w.objs r = some o) (hm : o.isMetric = true) (ho : ownsValues w r) : ownsValues w' r := by
  intro a ha
  rw [slice_le hw hle h hm] at ha
  have hs : ∀ q, sampleSlice w q = some a → a < w.nextArr := by
    intro q hq
    unfold sampleSlice at hq
    split at hq
    · rename_i h1; cases hq; exact hw.refs q _ h1
    · simp at hq
  have hh : ∀ q, histSlice w q = some a → a < w.nextArr := by
    intro q hq
    unfold histSlice at hq
    split at hq
    · exact hs _ hq
    · exact hs _ hq
    · simp at hq
  have : a < w.nextArr := by
    unfold slice at ha
    split at ha
    · exact hh _ ha
    · exact hh _ ha
    · exact hh _ ha
    · exact hs _ ha
  rw [(hle.arr a this).1]
  exact ho a (by assumption)

/-! ### All metrics -/

theorem metric_of_ty {o o' : Obj F} (h : o.ty = o'.ty) : o.isMetric = o'.isMetric := by
  cases o <;> cases o' <;> simp [Obj.ty] at h <;> rfl

theorem grows_case {s : Nat → Turn F} {c : Case F} {name : Str} {r : Ref} {st : LiveState F} {out : List (Event F)} : st.log <+: (runCaseLive s c name r (st, out)).1.1.log := by
  have hp : Grows (c.prepareLive r) := by
    have hs : Grows (snapshotOfLive r : Live F Ref) := grows_bind (grows_call _ _) fun o => by cases o <;> exact grows_pure _
    have ho : ∀ (x : Ref) (o : Out F), Grows (match o with | .floats ps => pure (x, ps) | _ => pure (x, []) : Live F (Ref × List F)) := fun x o => by cases o <;> exact grows_pure _
    unfold Case.prepareLive
    cases c.check <;> cases c.snapshot <;> cases c.percentiles <;> simp only [Bool.false_eq_true, if_false, if_true] <;>
      repeat first | exact grows_pure _ | exact grows_call _ _ | exact hs | exact ho _ _ | refine grows_bind ?_ fun _ => ?_
  have h1 := hp s st
  rw [runCaseLive]
  rcases h : c.prepareLive r s st with ⟨st1, p | ⟨x, ps⟩⟩ <;> rw [h] at h1 <;> simp only
  · exact h1
  · exact h1.trans (grows_stmts _)

theorem grows_metric {s : Nat → Turn F} {sw : Obj F → Option (Case F)} (name : Str) (r : Ref) (st : LiveState F) (out : List (Event F)) : st.log <+: (exportMetricLive s sw name r (st, out)).1.1.log := by
  rw [exportMetricLive]
  split
  · split
    · exact grows_case
    · exact List.prefix_rfl
  · exact List.prefix_rfl

theorem grows_visit {β : Type} {f : LiveCallback F β} (hf : ∀ name r st out, st.log <+: (f name r (st, out)).1.1.log) (l : List (Str × Ref)) : ∀ {st : LiveState F} {out : β}, st.log <+: (visitLive f l (st, out)).1.1.log := by
  induction l with
  | nil => exact List.prefix_rfl
  | cons e l ih =>
    intro st out
    have h1 := hf e.1 e.2 st out
    rw [visitLive]
    rcases h : f e.1 e.2 (st, out) with ⟨⟨st1, out1⟩, _ | p⟩ <;> rw [h] at h1 <;> simp only
    · exact h1.trans ih
    · exact h1

/-- What is known about a block of the output between `log` and `log'`. -/
def BlockIn {α : Type} (skip : Obj F → Bool) (block : World F → Env F → Str → Ref → Obj F → List α → Prop) (log log' : List (Env F × Op F)) (b : LiveBlock F α) : Prop :=
  log <+: b.past ∧ b.past <+: log' ∧ ∃ o, (after b.past : World F).objs b.ref = some o ∧
    if skip o then b.events = [] else ReadsAt log log' b.ref o b.past b.env ∧ block (after b.past) b.env b.name b.ref o b.events

theorem readsAt_mono {a a' c c' : List (Env F × Op F)} {r : Ref} {o : Obj F} {past : List (Env F × Op F)} {env : Env F} (h : ReadsAt a c r o past env) (ha : a' <+: a) (hc : c <+: c') : ReadsAt a' c' r o past env := by
  obtain ⟨⟨cl, h7, h8⟩, h9⟩ := h
  refine ⟨⟨cl, h7, h8.trans hc⟩, fun hh => ?_⟩
  obtain ⟨p, e, h7, h8⟩ := h9 hh
  exact ⟨p, e, ha.trans h7, h8⟩

theorem BlockIn.mono {α : Type} {skip : Obj F → Bool} {block : World F → Env F → Str → Ref → Obj F → List α → Prop} {a a' c c' : List (Env F × Op F)} {b : LiveBlock F α} (h : BlockIn skip block a c b) (ha : a' <+: a) (hc : c <+: c') :
    BlockIn skip block a' c' b := by
  obtain ⟨h1, h2, o, h3, h4⟩ := h
  refine ⟨ha.trans h1, h2.trans hc, o, h3, ?_⟩
  split at h4
  · rename_i hk; rw [if_pos hk]; exact h4
  · rename_i hk; rw [if_neg hk]; exact ⟨readsAt_mono h4.1 ha hc, h4.2⟩

/-- The callback appends one block for each metric. -/
def Blockwise {α : Type} (f : LiveCallback F (List α)) (skip : Obj F → Bool) (block : World F → Env F → Str → Ref → Obj F → List α → Prop) : Prop :=
  ∀ name r o st st' out out', (after st.log : World F).objs r = some o → o.isMetric = true → (∀ p, st.log <+: p → p <+: st'.log → ownsValues (after p) r) → f name r (st, out) = ((st', out'), none) →
    ∃ b : LiveBlock F α, out' = out ++ b.events ∧ (b.name, b.ref) = (name, r) ∧ BlockIn skip block st.log st'.log b

theorem visit_live {α : Type} {f : LiveCallback F (List α)} {skip : Obj F → Bool} {block : World F → Env F → Str → Ref → Obj F → List α → Prop} (hg : ∀ name r st out, st.log <+: (f name r (st, out)).1.1.log)
    (hf : Blockwise f skip block) (l : List (Str × Ref)) :
    ∀ {st st' : LiveState F} {out out' : List α}, (∀ e ∈ l, ∃ o, (after st.log : World F).objs e.2 = some o ∧ o.isMetric = true) →
      (∀ e ∈ l, ∀ p, st.log <+: p → p <+: st'.log → ownsValues (after p) e.2) → visitLive f l (st, out) = ((st', out'), .ok ()) →
      ∃ blocks : List (LiveBlock F α), out' = out ++ (blocks.map LiveBlock.events).flatten ∧ (blocks.map fun b => (b.name, b.ref)) = l ∧ blocks.Pairwise (fun a b => a.past <+: b.past) ∧
        ∀ b ∈ blocks, BlockIn skip block st.log st'.log b := by
  induction l with
  | nil =>
    intro st st' out out' _ _ h
    simp only [visitLive, Prod.mk.injEq, and_true] at h
    exact ⟨[], by simp [h.2], rfl, .nil, by simp⟩
  | cons e l ih =>
    intro st st' out out' hl hown h
    obtain ⟨o, ho, hm⟩ := hl e (by simp)
    rw [visitLive] at h
    rcases hv : f e.1 e.2 (st, out) with ⟨⟨st1, out1⟩, _ | p⟩
    · simp only [hv] at h
      have g1 : st1.log <+: st'.log := by
        have := grows_visit hg l (st := st1) (out := out1)
        rwa [h] at this
      have g2 := hg e.1 e.2 st out
      rw [hv] at g2
      obtain ⟨b, rfl, hb, hB⟩ := hf e.1 e.2 o st st1 out out1 ho hm (fun p h3 h4 => hown e (by simp) p h3 (h4.trans g1)) hv
      have hl' : ∀ e' ∈ l, ∃ o, (after st1.log : World F).objs e'.2 = some o ∧ o.isMetric = true := fun e' he' => by
        obtain ⟨o', h1, h2⟩ := hl e' (by simp [he'])
        obtain ⟨o'', h3, h4⟩ := kind_after g2 h1
        exact ⟨o'', h3, by rw [metric_of_ty h4]; exact h2⟩
      obtain ⟨blocks, h1, h2, h3, h4⟩ := ih hl' (fun e' he' p h5 h6 => hown e' (by simp [he']) p (g2.trans h5) h6) h
      refine ⟨b :: blocks, by rw [h1]; simp, by rw [List.map_cons, h2, hb], .cons (fun b' hb' => ?_) h3, fun b' hb' => ?_⟩
      · exact hB.2.1.trans (h4 b' hb').1
      · rcases List.mem_cons.1 hb' with rfl | hb'
        · exact hB.mono List.prefix_rfl g1
        · exact (h4 b' hb').mono g2 List.prefix_rfl
    · simp [hv] at h

/-- The exporters with a type switch. -/
theorem blockwise_export {s : Nat → Turn F} {sw : Obj F → Option (Case F)} (hsw : GoodSwitch sw) (hone : OneRead sw) {skip : Obj F → Bool} (hskip : ∀ o, o.isMetric = true → (sw o = none ↔ skip o = true))
    {block : World F → Env F → Str → Ref → Obj F → List (Event F) → Prop}
    (hblock : ∀ w env env0 name r o c evs, sw o = some c → CaseOut w env0 name r o c evs → (∀ d v, Holds w env0 r d v → HasValue w env r d v) → block w env name r o evs) :
    Blockwise (exportMetricLive s sw) skip block := by
  intro name r o st st' out out' ho hm hown hv
  rw [exportMetricLive, ho] at hv
  simp only at hv
  cases hs : sw o with
  | none =>
    simp only [hs, Prod.mk.injEq, and_true] at hv
    obtain ⟨rfl, rfl⟩ := hv
    exact ⟨⟨name, r, st.log, (s 0).env, []⟩, by simp, rfl, List.prefix_rfl, List.prefix_rfl, o, ho, by rw [if_pos ((hskip o hm).1 hs)]⟩
  | some c =>
    simp only [hs] at hv
    obtain ⟨past, env, o', evs, h1, h2⟩ := case_live hsw hone ho hs hown hv
    obtain ⟨cl, h3, h4⟩ := h2.call
    have hs' : sw o' = some c := by rw [hsw.ty o' o h2.ty]; exact hs
    have : ¬ skip o' = true := fun hk => by rw [(hskip o' (by rw [metric_of_ty h2.ty]; exact hm)).2 hk] at hs'; simp at hs'
    obtain ⟨env0, h12, h13⟩ := h2.out
    exact ⟨⟨name, r, past, env, evs⟩, h1, rfl, h2.since, (List.prefix_append _ _).trans h4, o', h2.kind, by rw [if_neg this]; exact ⟨⟨h2.call, h2.check⟩, hblock _ _ _ _ _ _ _ _ hs' h12 h13⟩⟩

/-- `Each` with a callback that appends blocks. -/
theorem each_blocks {α : Type} {s : Nat → Turn F} {g : Reg} {id : Nat} (hb : base g = some id) {arrange : List (Str × Ref) → List (Str × Ref)} (harr : ∀ l, (arrange l).Perm l) {f : LiveCallback F (List α)}
    {skip : Obj F → Bool} {block : World F → Env F → Str → Ref → Obj F → List α → Prop} (hg : ∀ name r st out, st.log <+: (f name r (st, out)).1.1.log) (hf : Blockwise f skip block)
    {h : List (Env F × Op F)} {st : LiveState F} {out : List α}
    (hown : ∀ name r, gets (after (h ++ (s 0).others) : World F) id name = some r → ownsValues (after (h ++ (s 0).others)) r)
    (hd : eachLive s g arrange f [] h = ((st, out), .ok ())) :
    ∃ blocks, ExportedLive (h ++ (s 0).others) st.log id (prefixes g).flatten skip out block blocks ∧
      blocks.map LiveBlock.name = (arrange (((s 0).env.order ((after (h ++ (s 0).others) : World F).regs id)).filter fun e => (prefixes g).flatten.isPrefixOf e.1)).map Prod.fst := by
  have hw := after_ok (h ++ (s 0).others)
  rw [eachLive, eachList_base _ g id hb] at hd
  simp only at hd
  set l := ((s 0).env.order ((after (h ++ (s 0).others) : World F).regs id)).filter fun e => (prefixes g).flatten.isPrefixOf e.1 with hl
  have hm : ∀ name r, (name, r) ∈ arrange l ↔ gets (after (h ++ (s 0).others)) id name = some r ∧ (prefixes g).flatten <+: name := fun name r => by
    rw [(harr l).mem_iff]; exact eachList_mem _ g id hw name r
  have hobj : ∀ e ∈ arrange l, ∃ o, (after (h ++ (s 0).others) : World F).objs e.2 = some o ∧ o.isMetric = true := fun e he => objs_of hw ((hm e.1 e.2).1 he).1
  obtain ⟨blocks, h1, h2, h3, h4⟩ := visit_live hg hf (arrange l) hobj (fun e he p h5 _ => by
    obtain ⟨o, h6, h7⟩ := hobj e he
    exact owns_le hw (after_le h5) h6 h7 (hown e.1 e.2 ((hm e.1 e.2).1 he).1)) hd
  have hn : blocks.map LiveBlock.name = (arrange l).map Prod.fst := by rw [← h2, List.map_map]; rfl
  refine ⟨blocks, ⟨by simpa using h1, ?_, fun name => ?_, h3, fun b hb' => ?_⟩, hn⟩
  · rw [hn]
    exact ((harr l).map _).nodup_iff.2 (eachList_nodup _ g id hw)
  · rw [hn]
    constructor
    · intro h5
      obtain ⟨e, he, rfl⟩ := List.mem_map.1 h5
      have := (hm e.1 e.2).1 he
      exact ⟨by simp [this.1], this.2⟩
    · rintro ⟨h5, h6⟩
      obtain ⟨r, hr⟩ := Option.ne_none_iff_exists'.1 h5
      exact List.mem_map.2 ⟨(name, r), (hm name r).2 ⟨hr, h6⟩, rfl⟩
  · have h5 : (b.name, b.ref) ∈ arrange l := by rw [← h2]; exact List.mem_map.2 ⟨b, hb', rfl⟩
    obtain ⟨h6, h7, o, h8, h9⟩ := h4 b hb'
    exact ⟨((hm _ _).1 h5).1, h6, h7, o, h8, h9⟩

theorem complete_stats {w : World F} {env env0 : Env F} {r : Ref} {o : Obj F} {ps : List F} {conv : Call F → GoMetrics.Field F → GoMetrics.Field F} {rows : List (String × GoMetrics.Field F)}
    (h : Complete w env0 r o ps conv rows) (hv : ∀ d v, Holds w env0 r d v → HasValue w env r d v) : AllStats w env r o ps conv rows :=
  ⟨h.1, fun x hx c hc => by obtain ⟨v, h1, h2⟩ := h.2 x hx c hc; exact ⟨v, hv _ _ h1, h2⟩⟩

theorem oneRead_writer : OneRead (writerSwitch : Obj F → Option (Case F)) := fun o c h => by
  cases o <;> simp [writerSwitch] at h <;> subst h <;> first | rfl | trivial
theorem oneRead_log (du : F) (sfx : Str) : OneRead (logSwitch du sfx : Obj F → Option (Case F)) := fun o c h => by
  cases o <;> simp [logSwitch] at h <;> subst h <;> first | rfl | trivial
theorem oneRead_syslog : OneRead (syslogSwitch : Obj F → Option (Case F)) := fun o c h => by
  cases o <;> simp [syslogSwitch] at h <;> subst h <;> first | rfl | trivial
theorem oneRead_openTSDB (cfg : OpenTSDBConfig) : OneRead (openTSDBSwitch cfg : Obj F → Option (Case F)) := fun o c h => by
  cases o <;> simp [openTSDBSwitch] at h <;> subst h <;> first | rfl | trivial
theorem oneRead_stathat (key : Str) : OneRead (stathatSwitch key : Obj F → Option (Case F)) := fun o c h => by
  cases o <;> simp [stathatSwitch] at h <;> subst h <;> first | rfl | trivial
theorem oneRead_graphite (cfg : GraphiteConfig F) : OneRead (graphiteSwitch cfg : Obj F → Option (Case F)) := fun o c h => by
  cases o <;> simp [graphiteSwitch] at h <;> subst h <;> first | rfl | trivial

/-! ### No other goroutines -/

section alone
variable {env : Env F}

/-- The part of the exporter does what the same part does in a program with one goroutine. -/
def ByItself (env : Env F) {α : Type} (x : Live F α) (a : Act F α) : Prop :=
  ∀ st, (x (fun _ => ⟨[], env⟩) st).2 = (a (after st.log)).2 ∧ after (x (fun _ => ⟨[], env⟩) st).1.log = (a (after st.log)).1

theorem alone_pure {α : Type} (a : α) : ByItself env (pure a) (pure a) := fun _ => ⟨rfl, rfl⟩
theorem alone_lift {α : Type} (a : Res α) : ByItself env (Live.lift a) (Act.lift a) := fun _ => ⟨rfl, rfl⟩
theorem alone_call (r : Ref) (c : Call F) : ByItself env (liveCall r c) (call env r c) := fun st => by
  simp only [liveCall, List.append_nil, after_call, and_self]
theorem alone_bind {α β : Type} {x : Live F α} {a : Act F α} {f : α → Live F β} {g : α → Act F β} (h : ByItself env x a) (hf : ∀ v, ByItself env (f v) (g v)) : ByItself env (x >>= f) (a >>= g) := fun st => by
  have h1 := h st
  rw [live_bind, act_bind]
  rcases hx : x (fun _ => ⟨[], env⟩) st with ⟨st1, p | v⟩ <;> rw [hx] at h1 <;> rcases ha : a (after st.log) with ⟨w1, q | u⟩ <;> rw [ha] at h1 <;> simp at h1 ⊢
  · exact h1
  · obtain ⟨rfl, rfl⟩ := h1
    exact hf v st1

theorem alone_expr (x : Ref) (ps : List F) (e : Expr F) : ByItself env (e.evalLive x ps) (e.eval env x ps) := by
  induction e with
  | get c => exact alone_bind (alone_call _ _) fun _ => alone_pure _
  | ps i => exact alone_lift _
  | const v => exact alone_pure _
  | float e ih => exact alone_bind ih fun _ => alone_pure _
  | int e ih => exact ih
  | divInt e d ih => exact alone_bind ih fun _ => alone_lift _
  | divFloat e d ih => exact alone_bind ih fun _ => alone_pure _
theorem alone_arg (name : Str) (x : Ref) (ps : List F) (e : ArgExpr F) : ByItself env (e.evalLive name x ps) (e.eval env name x ps) := by
  cases e with
  | name => exact alone_pure _
  | str s => exact alone_pure _
  | val e => exact alone_bind (alone_expr _ _ _) fun _ => alone_pure _
theorem alone_args (name : Str) (x : Ref) (ps : List F) (as : List (ArgExpr F)) : ByItself env (evalArgsLive name x ps as) (evalArgs env name x ps as) := by
  induction as with
  | nil => exact alone_pure _
  | cons a as ih => exact alone_bind (alone_arg _ _ _ _) fun _ => alone_bind ih fun _ => alone_pure _
theorem alone_stmt (name : Str) (x : Ref) (ps : List F) (e : Stmt F) : ByItself env (e.execLive name x ps) (e.exec env name x ps) := by
  cases e with
  | printf f as => exact alone_bind (alone_args _ _ _ _) fun _ => alone_pure _
  | postCount s k e => exact alone_bind (alone_expr _ _ _) fun _ => alone_pure _
  | postValue s k e => exact alone_bind (alone_expr _ _ _) fun _ => alone_pure _

theorem alone_prepare (c : Case F) (r : Ref) : ByItself env (c.prepareLive r) (c.prepare env r) := by
  have hs : ByItself env (snapshotOfLive r : Live F Ref) (snapshotOf env r) := alone_bind (alone_call _ _) fun o => by cases o <;> exact alone_pure _
  have ho : ∀ (x : Ref) (o : Out F), ByItself env (match o with | .floats ps => pure (x, ps) | _ => pure (x, []) : Live F (Ref × List F)) (match o with | .floats ps => pure (x, ps) | _ => pure (x, []) : Act F (Ref × List F)) :=
    fun x o => by cases o <;> exact alone_pure _
  unfold Case.prepareLive Case.prepare
  cases c.check <;> cases c.snapshot <;> cases c.percentiles <;> simp only [Bool.false_eq_true, if_false, if_true] <;>
    repeat first | exact alone_pure _ | exact alone_call _ _ | exact hs | exact ho _ _ | refine alone_bind ?_ fun _ => ?_

theorem alone_stmts (name : Str) (x : Ref) (ps : List F) (ss : List (Stmt F)) : ∀ (st : LiveState F) (out : List (Event F)),
    runStmts env name x ps ss (after st.log, out) = ((after (runStmtsLive (fun _ => ⟨[], env⟩) name x ps ss (st, out)).1.1.log, (runStmtsLive (fun _ => ⟨[], env⟩) name x ps ss (st, out)).1.2), (runStmtsLive (fun _ => ⟨[], env⟩) name x ps ss (st, out)).2) := by
  induction ss with
  | nil => intro st out; rfl
  | cons e ss ih =>
    intro st out
    have h := alone_stmt (env := env) name x ps e st
    rw [runStmts, runStmtsLive]
    rcases he : e.execLive name x ps (fun _ => ⟨[], env⟩) st with ⟨st1, p | ev⟩ <;> rw [he] at h <;> rcases ha : e.exec env name x ps (after st.log) with ⟨w1, q | u⟩ <;> rw [ha] at h <;> simp at h ⊢
    · obtain ⟨rfl, rfl⟩ := h; exact ⟨rfl, rfl⟩
    · obtain ⟨rfl, rfl⟩ := h
      exact ih st1 _

theorem alone_metric (sw : Obj F → Option (Case F)) (name : Str) (r : Ref) (st : LiveState F) (out : List (Event F)) :
    exportMetric env sw name r (after st.log, out) = ((after (exportMetricLive (fun _ => ⟨[], env⟩) sw name r (st, out)).1.1.log, (exportMetricLive (fun _ => ⟨[], env⟩) sw name r (st, out)).1.2), (exportMetricLive (fun _ => ⟨[], env⟩) sw name r (st, out)).2) := by
  rw [exportMetric, exportMetricLive]
  simp only
  cases (after st.log : World F).objs r with
  | none => rfl
  | some o =>
    simp only
    cases sw o with
    | none => rfl
    | some c =>
      simp only
      have h := alone_prepare (env := env) c r st
      rw [runCase, runCaseLive]
      rcases he : c.prepareLive r (fun _ => ⟨[], env⟩) st with ⟨st1, p | ev⟩ <;> rw [he] at h <;> rcases ha : c.prepare env r (after st.log) with ⟨w1, q | u⟩ <;> rw [ha] at h <;> simp at h ⊢
      · obtain ⟨rfl, rfl⟩ := h; exact ⟨rfl, rfl⟩
      · obtain ⟨rfl, rfl⟩ := h
        exact alone_stmts name _ _ _ st1 _

theorem alone_visit {β : Type} {f : LiveCallback F β} {f' : Callback F β} (hf : ∀ name r st out, f' name r (after st.log, out) = ((after (f name r (st, out)).1.1.log, (f name r (st, out)).1.2), (f name r (st, out)).2))
    (l : List (Str × Ref)) : ∀ (st : LiveState F) (out : β),
    visit f' l (after st.log, out) = ((after (visitLive f l (st, out)).1.1.log, (visitLive f l (st, out)).1.2), (visitLive f l (st, out)).2) := by
  induction l with
  | nil => intro st out; rfl
  | cons e l ih =>
    intro st out
    rw [visit, visitLive, hf]
    rcases f e.1 e.2 (st, out) with ⟨⟨st1, out1⟩, _ | p⟩
    · exact ih st1 out1
    · rfl

end alone

end GoMetrics
