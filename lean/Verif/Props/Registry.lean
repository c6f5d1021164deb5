import Verif.Lemmas.Registry
import Verif.Props.Clock

/-! Property theorems C46–C49, C52–C54, C58–C60 (registries). -/

set_option linter.unusedSimpArgs false
set_option linter.unnecessarySeqFocus false
set_option linter.unusedSectionVars false
set_option linter.unnecessarySimpa false

namespace GoMetrics
open Spec

variable {F : Type} [GoFloat F] [GoSqrt F] [GoExp F]

/-! ### C46 -/

/-- C46: `Get(name)` on the standard registry `id` returns the metric `r` after a history exactly if some call in the history bound
that name to `r` there and no later call freed it. -/
theorem C46_history (h : List (Env F × Op F)) (id : Nat) (name : Str) (r : Ref) :
    gets (World.init.run h : World F) id name = some r ↔
      ∃ h1 env o h2, h = h1 ++ (env, o) :: h2 ∧ binds (World.init.run h1) env o id name r ∧ ∀ e ∈ h2, ¬ frees e.2 id name := by
  induction h using List.reverseRecOn with
  | nil =>
    constructor
    · intro h
      rw [gets_eq] at h
      simp [World.run, World.init, lookup] at h
    · rintro ⟨h1, env, o, h2, h, -⟩
      simp at h
  | append_singleton h e ih =>
    obtain ⟨env, o⟩ := e
    rw [World.run_append]
    show gets (step env o (World.init.run h)).1 id name = some r ↔ _
    rw [step_gets, ih]
    constructor
    · rintro (hb | ⟨⟨h1, env', o', h2, rfl, hb, hf⟩, hnf⟩)
      · exact ⟨h, env, o, [], rfl, hb, by simp⟩
      · refine ⟨h1, env', o', h2 ++ [(env, o)], by simp, hb, ?_⟩
        intro e he
        rcases List.mem_append.1 he with he | he
        · exact hf e he
        · obtain rfl := List.mem_singleton.1 he
          exact hnf
    · rintro ⟨h1, env', o', h2, e, hb, hf⟩
      rcases List.eq_nil_or_concat h2 with rfl | ⟨h3, x, rfl⟩
      · obtain ⟨rfl, e2⟩ := List.append_inj' e rfl
        simp only [List.cons.injEq, Prod.mk.injEq, and_true] at e2
        obtain ⟨rfl, rfl⟩ := e2
        exact .inl hb
      · rw [List.concat_eq_append, ← List.cons_append, ← List.append_assoc] at e
        obtain ⟨rfl, e2⟩ := List.append_inj' e rfl
        obtain rfl : (env, o) = x := by simpa using e2
        refine .inr ⟨⟨h1, env', o', h3, rfl, hb, fun e he => hf e (by simp [he])⟩, hf (env, o) (by simp)⟩

/-- C46: `Get` of any registry value over the standard registry `id` changes nothing and returns the metric bound to the name, or nil. -/
theorem C46_get (w : World F) (env : Env F) (g : Reg) (id : Nat) (hb : base g = some id) (name : Str) :
    regCall env g (.get name) w = (w, .ok (match gets w id (baseName g name) with | some r => .metric r | none => .nil)) := by
  rw [(regCall_prefix env g).1, hb]
  show regCall env (.std id) (.get (fullName g name)) w = _
  rw [get_eq, gets_eq, fullName_eq]
  rcases lookup (w.regs id) (baseName g name) with _ | r <;> rfl

/-! Two names, one of them freed and bound again. -/

private def regHistory : List (Env F × Op F) :=
  [(envAt 0, .new .counter), (envAt 0, .new .gauge), (envAt 1, .reg (.std 0) (.register [97] (.obj 0))), (envAt 1, .reg (.std 0) (.register [98] (.obj 1))),
   (envAt 2, .reg (.std 0) (.unregister [97])), (envAt 3, .reg (.prefixed (.std 0) [97]) (.getOrRegister [] (.ctor .meter)))]

example : gets (World.init.run regHistory : World F) 0 [97] = some 2 ∧ gets (World.init.run regHistory : World F) 0 [98] = some 1 ∧
    gets (World.init.run regHistory : World F) 0 [99] = none ∧ gets (World.init.run regHistory : World F) 1 [97] = none := ⟨rfl, rfl, rfl, rfl⟩
example : binds (World.init.run (regHistory.take 5) : World F) (envAt 3) (.reg (.prefixed (.std 0) [97]) (.getOrRegister [] (.ctor .meter))) 0 [97] 2 :=
  ⟨rfl, rfl, [], rfl, rfl, rfl, rfl⟩

/-! ### C47 -/

/-- C47: registering under a taken name changes nothing and returns `DuplicateMetric` with that name (as the base registry knows it). -/
theorem C47_duplicate (w : World F) (env : Env F) (g : Reg) (id : Nat) (hb : base g = some id) (name : Str) (r : Ref)
    (ht : gets w id (baseName g name) = some r) (v : Val F) :
    regCall env g (.register name v) w = (w, .ok (.duplicate (baseName g name))) := by
  rw [gets_eq] at ht
  rw [(regCall_prefix env g).2.2.1, hb]
  show register id (fullName g name) v w = _
  rw [fullName_eq, register_eq, ht]

/-- C47: under a free name, `Register` of a metric succeeds and binds the name, and only that. -/
theorem C47_fresh (w : World F) (env : Env F) (g : Reg) (id : Nat) (hb : base g = some id) (name : Str) (r : Ref) (o : Obj F)
    (ht : gets w id (baseName g name) = none) (ho : w.objs r = some o) (hm : metricKind o = true) :
    ∃ w', regCall env g (.register name (.obj r)) w = (w', .ok .nil) ∧ w' = { w with regs := w'.regs } ∧
      ∀ id' name', gets w' id' name' = if id' = id ∧ name' = baseName g name then some r else gets w id' name' := by
  rw [gets_eq] at ht
  rw [metricKind_eq] at hm
  refine ⟨{ w with regs := Function.update w.regs id ((baseName g name, r) :: w.regs id) }, ?_, rfl, ?_⟩
  · rw [(regCall_prefix env g).2.2.1, hb]
    show register id (fullName g name) (.obj r) w = _
    rw [fullName_eq, register_eq, ht]
    simp only [ho, hm, if_true]
  · intro id' name'
    rw [gets_eq, gets_eq]
    by_cases hi : id' = id
    · subst hi
      simp only [Function.update_self, lookup_cons]
      by_cases hn : baseName g name = name'
      · simp [hn]
      · simp [hn, Ne.symm hn]
    · simp [Function.update_of_ne hi, hi]

/-- C47: `MustRegister` (on the default registry) panics with the `DuplicateMetric` error exactly if the name is taken, and otherwise does what
`Register` does. -/
theorem C47_must (w : World F) (env : Env F) (name : Str) (v : Val F) :
    (∀ r, gets w 0 name = some r → mustRegister env name v w = (w, .error (.duplicate name))) ∧
    (gets w 0 name = none → mustRegister env name v w = ((regCall env defaultRegistry (.register name v) w).1, .ok ())) := by
  constructor
  · intro r hr
    rw [mustRegister, act_bind, C47_duplicate w env defaultRegistry 0 rfl name r hr v]
    rfl
  · intro hn
    rw [gets_eq] at hn
    have e : regCall env defaultRegistry (.register name v) w = register 0 name v w := rfl
    rw [mustRegister, act_bind, e, register_eq, hn]
    cases v with
    | obj x =>
      simp only
      rcases w.objs x with _ | o
      · rfl
      · cases h : o.isMetric <;> simp only [h] <;> rfl
    | _ => rfl

/-- C47: the old metric stays until it is unregistered, whatever else happens. -/
theorem C47_stays (h : List (Env F × Op F)) (id : Nat) (name : Str) (r : Ref) (hr : gets (World.init.run h : World F) id name = some r)
    (later : List (Env F × Op F)) (hf : ∀ e ∈ later, ¬ frees e.2 id name) : gets (World.init.run (h ++ later) : World F) id name = some r := by
  induction later using List.reverseRecOn with
  | nil => simpa using hr
  | append_singleton later e ih =>
    rw [← List.append_assoc, World.run_append]
    show gets (step e.1 e.2 (World.init.run (h ++ later))).1 id name = some r
    rw [step_gets]
    exact .inr ⟨ih fun e he => hf e (by simp [he]), hf e (by simp)⟩

example : gets (World.init.run regHistory : World F) 0 (baseName (.prefixed (.std 0) [97]) []) = some 2 := rfl
example : mustRegister (envAt 9) [97] (.obj 0) (World.init.run regHistory : World F) = (World.init.run regHistory, .error (.duplicate [97])) :=
  (C47_must (World.init.run regHistory : World F) (envAt 9) [97] (.obj 0)).1 2 rfl

/-! ### C48 -/

/-- C48: in every reachable state, everything that `Get` returns is one of the seven kinds of metrics (and `Each` visits the same: C52, C59). -/
theorem C48_kinds (h : List (Env F × Op F)) (id : Nat) (name : Str) (r : Ref) (hr : gets (World.init.run h : World F) id name = some r) :
    ∃ o, (World.init.run h : World F).objs r = some o ∧ metricKind o = true := by
  rw [gets_eq] at hr
  obtain ⟨o, h1, h2⟩ := (run_ok h).metric id _ (lookup_some_mem hr)
  exact ⟨o, h1, by rw [metricKind_eq]; exact h2⟩

/-- The value is a metric. -/
def isMetricVal (w : World F) : Val F → Prop
  | .obj r => ∃ o, w.objs r = some o ∧ metricKind o = true
  | _ => False

/-- C48: `Register` of anything that is no metric, functions included, changes nothing, and returns nil if the name is free. -/
theorem C48_register (w : World F) (env : Env F) (g : Reg) (id : Nat) (hb : base g = some id) (name : Str) (v : Val F) (hv : ¬ isMetricVal w v)
    (hf : gets w id (baseName g name) = none) : regCall env g (.register name v) w = (w, .ok .nil) := by
  rw [gets_eq] at hf
  rw [(regCall_prefix env g).2.2.1, hb]
  show register id (fullName g name) v w = _
  rw [fullName_eq, register_eq, hf]
  cases v with
  | obj x =>
    simp only
    rcases hx : w.objs x with _ | o
    · rfl
    · simp only
      rw [if_neg]
      intro hm
      exact hv ⟨o, hx, by rw [metricKind_eq]; exact hm⟩
  | _ => rfl

/-- C48: `GetOrRegister` of something that is neither a metric nor a function changes nothing and returns it if the name is free; of a
function returning no metric: what the function returned is returned and no name is bound. -/
theorem C48_getOrRegister (w : World F) (env : Env F) (g : Reg) (id : Nat) (hb : base g = some id) (name : Str)
    (hf : gets w id (baseName g name) = none) :
    (∀ r, ¬ isMetricVal w (.obj r) → regCall env g (.getOrRegister name (.obj r)) w = (w, .ok (.metric r))) ∧
    regCall env g (.getOrRegister name .other) w = (w, .ok (.given .other)) ∧
    regCall env g (.getOrRegister name .otherFn) w = (w, .ok (.given .other)) ∧
    (∀ c w1 r, makesMetric c = false → construct env c w = (w1, .ok r) → regCall env g (.getOrRegister name (.ctor c)) w = (w1, .ok (.metric r))) := by
  rw [gets_eq] at hf
  have e : ∀ v, regCall env g (.getOrRegister name v) w = getOrRegister env id (baseName g name) v w := by
    intro v
    rw [(regCall_prefix env g).2.1, hb]
    show getOrRegister env id (fullName g name) v w = _
    rw [fullName_eq]
  refine ⟨fun r hr => ?_, ?_, ?_, fun c w1 r hc h1 => ?_⟩
  · have := C48_register w env (.std id) id rfl (baseName g name) (.obj r) hr (by rw [gets_eq]; exact hf)
    replace this : register id (baseName g name) (.obj r) w = _ := this
    rw [e, getOrRegister_eq, hf]
    simp only
    rw [this]
  · rw [e, getOrRegister_eq, hf]
  · rw [e, getOrRegister_eq, hf]
  · have hregs := (construct_regs env c w).1
    rw [h1] at hregs
    obtain ⟨⟨o, h2, h3⟩, -⟩ := construct_new h1
    have h4 := newTy_metric h3
    rw [e, getOrRegister_eq, hf]
    simp only [h1]
    rw [register_eq, hregs, hf]
    simp only [h2, h4, hc]
    rfl

example : ¬ isMetricVal (World.init.run [(envAt 0, .new (.uniform 5))] : World F) (.obj 0) := by
  rintro ⟨o, h, h2⟩
  have : some (.sample (.uniform ⟨0, 5, []⟩)) = some o := h
  obtain rfl : _ = o := by simpa using this
  simp [metricKind] at h2
example : makesMetric (.ewma (GoFloat.lit (1 / 2)) : NewOp F) = false := rfl

/-! ### C49 -/

/-- C49: `GetOrRegister` under a taken name returns the metric that is there and changes nothing at all: a constructor function is not called. -/
theorem C49_taken (w : World F) (env : Env F) (g : Reg) (id : Nat) (hb : base g = some id) (name : Str) (r : Ref)
    (ht : gets w id (baseName g name) = some r) (v : Val F) : regCall env g (.getOrRegister name v) w = (w, .ok (.metric r)) := by
  rw [gets_eq] at ht
  rw [(regCall_prefix env g).2.1, hb]
  show getOrRegister env id (fullName g name) v w = _
  rw [fullName_eq, getOrRegister_eq, ht]

/-- C49: `GetOrRegister` with a constructor under a free name does what one call of the constructor does, and then binds the name to
what it returned (nothing is bound if it panics). -/
theorem C49_free (w : World F) (env : Env F) (g : Reg) (id : Nat) (hb : base g = some id) (name : Str) (c : NewOp F)
    (hf : gets w id (baseName g name) = none) (hc : makesMetric c = true) :
    (∀ w1 r, construct env c w = (w1, .ok r) → ∃ w2, regCall env g (.getOrRegister name (.ctor c)) w = (w2, .ok (.metric r)) ∧ w2 = { w1 with regs := w2.regs } ∧
      ∀ id' name', gets w2 id' name' = if id' = id ∧ name' = baseName g name then some r else gets w id' name') ∧
    (∀ w1 p, construct env c w = (w1, .error p) → regCall env g (.getOrRegister name (.ctor c)) w = (w1, .error p)) := by
  have hf' := hf
  rw [gets_eq] at hf
  have e : regCall env g (.getOrRegister name (.ctor c)) w = getOrRegister env id (baseName g name) (.ctor c) w := by
    rw [(regCall_prefix env g).2.1, hb]
    show getOrRegister env id (fullName g name) _ w = _
    rw [fullName_eq]
  rw [e, getOrRegister_eq, hf]
  constructor
  · intro w1 r h1
    simp only [h1]
    have hregs := (construct_regs env c w).1
    rw [h1] at hregs
    simp only at hregs
    obtain ⟨⟨o, h2, h3⟩, -⟩ := construct_new h1
    have h4 := newTy_metric h3
    obtain ⟨w2, h5, h6, h7⟩ := C47_fresh w1 env (.std id) id rfl (baseName g name) r o (by rw [gets_eq, hregs]; exact hf) h2 (by rw [metricKind_eq, h4, hc])
    replace h5 : register id (baseName g name) (.obj r) w1 = _ := h5
    rw [h5]
    refine ⟨w2, rfl, h6, fun id' name' => ?_⟩
    rw [h7]
    rw [regs_of_objs hregs]
    rfl
  · intro w1 p h1
    simp only [h1]

example : ((World.init.run regHistory : World F64).run [(envAt 4, .reg (.std 0) (.getOrRegister [98] (.ctor .timer)))]).nextObj = 3 := by decide +kernel
example : ((World.init.run regHistory : World F64).run [(envAt 4, .reg (.std 0) (.getOrRegister [99] (.ctor .meter)))]).meters = [3, 2] := by decide +kernel

/-! ### C52 -/

theorem visit_logged {U : Type} (f : Callback F U) (l : List (Str × Ref)) (w : World F) (u : U) (log : List (Str × Ref)) :
    let y := visit (logged f) l (w, (u, log))
    (y.1.1, y.1.2.1, y.2) = ((visit f l (w, u)).1.1, (visit f l (w, u)).1.2, (visit f l (w, u)).2) ∧
    (y.2 = .ok () → y.1.2.2 = log ++ l) ∧ (∀ p, y.2 = .error p → ∃ k < l.length, y.1.2.2 = log ++ l.take (k + 1)) := by
  induction l generalizing w u log with
  | nil => exact ⟨rfl, by simp [visit], by simp [visit]⟩
  | cons e l ih =>
    have hl : logged f e.1 e.2 (w, (u, log)) = (((f e.1 e.2 (w, u)).1.1, ((f e.1 e.2 (w, u)).1.2, log ++ [e])), (f e.1 e.2 (w, u)).2) := rfl
    simp only [visit, hl]
    generalize f e.1 e.2 (w, u) = y
    obtain ⟨⟨w', u'⟩, _ | p⟩ := y
    · obtain ⟨h1, h2, h3⟩ := ih w' u' (log ++ [e])
      refine ⟨h1, fun h => ?_, fun p h => ?_⟩
      · simp only at h ⊢
        rw [h2 h]; simp
      · obtain ⟨k, hk, h4⟩ := h3 p h
        exact ⟨k + 1, by simpa using hk, by simp only at h4 ⊢; rw [h4]; simp⟩
    · exact ⟨rfl, by simp, fun q _ => ⟨0, by simp, by simp⟩⟩

/-- What a call of `Each` on registry `g` does, if it goes over the list `l`. -/
private theorem each_logged {U : Type} (env : Env F) (g : Reg) (f : Callback F U) (w : World F) (u : U) (l : List (Str × Ref))
    (he : eachList env g w = (w, .ok (some l))) :
    let y := each env g (logged f) (w, (u, []))
    (y.1.1, y.1.2.1, y.2) = ((each env g f (w, u)).1.1, (each env g f (w, u)).1.2, (each env g f (w, u)).2) ∧
    (y.2 = .ok () → y.1.2.2 = l) ∧ (∀ p, y.2 = .error p → ∃ k < l.length, y.1.2.2 = l.take (k + 1)) := by
  have h1 : each env g (logged f) (w, (u, [])) = visit (logged f) l (w, (u, [])) := by simp only [each, he]
  have h2 : each env g f (w, u) = visit f l (w, u) := by simp only [each, he]
  rw [h1, h2]
  simpa using visit_logged f l w u []

/-- C52: `Each(f)` on a standard registry calls `f` once for each name bound when `Each` is called, with the metric bound to it then, and for nothing
else, whatever `f` does to the registry meanwhile; if `f` panics, only a first part of these calls is made. -/
theorem C52_each {U : Type} (h : List (Env F × Op F)) (id : Nat) (env : Env F) (f : Callback F U) (u : U) :
    let w : World F := World.init.run h
    let y := each env (.std id) (logged f) (w, (u, []))
    ∃ l : List (Str × Ref), (l.map Prod.fst).Nodup ∧ (∀ name r, (name, r) ∈ l ↔ gets w id name = some r) ∧
      (y.2 = .ok () → y.1.2.2 = l) ∧ (∀ p, y.2 = .error p → ∃ k < l.length, y.1.2.2 = l.take (k + 1)) ∧
      (y.1.1, y.1.2.1, y.2) = ((each env (.std id) f (w, u)).1.1, (each env (.std id) f (w, u)).1.2, (each env (.std id) f (w, u)).2) := by
  intro w y
  have hw : w.Ok := run_ok h
  obtain ⟨h1, h2, h3⟩ := each_logged env (.std id) f w u (env.order (w.regs id)) rfl
  refine ⟨env.order (w.regs id), ((env.order_perm (w.regs id)).map Prod.fst).nodup_iff.2 (hw.keys id), fun name r => ?_, h2, h3, h1⟩
  rw [(env.order_perm (w.regs id)).mem_iff, gets_eq]
  exact ⟨lookup_of_mem (hw.keys id), lookup_some_mem⟩

/-- A callback that removes everything: still both metrics are visited. -/
example : (each (envAt 7) (.std 0) (logged fun _ _ x => (((step (envAt 7) (.reg (.std 0) .unregisterAll) x.1).1, x.2), none))
    ((World.init.run regHistory : World F), ((), []))).1.2.2 = [([97], 2), ([98], 1)] := rfl

/-! ### C53 -/

private theorem meters_iff {w : World F} (hw : w.Ok) (m : Ref) : m ∈ w.meters ↔ live w m := by rw [hw.meters, live_iff]

/-- C53: `Unregister(name)` frees exactly that name, and stops the metric that was bound to it if it is a meter or timer: the
meter is not ticked any more; no other object changes. -/
theorem C53_unregister (h : List (Env F × Op F)) (env : Env F) (g : Reg) (id : Nat) (hb : base g = some id) (name : Str) :
    let w : World F := World.init.run h
    let w' := (step env (.reg g (.unregister name)) w).1
    (step env (.reg g (.unregister name)) w).2 = .ok (.reg .unit) ∧
    (∀ id' name', gets w' id' name' = if id' = id ∧ name' = baseName g name then none else gets w id' name') ∧
    (∀ x m, gets w id (baseName g name) = some x → stopTarget w x m → ¬ live w' m ∧ m ∉ w'.meters) ∧
    (∀ m, w'.objs m = w.objs m ∨ ((∃ x, gets w id (baseName g name) = some x ∧ stopTarget w x m) ∧
      ∃ s, w.objs m = some (.meter (.std s)) ∧ s.stopped = false ∧ w'.objs m = some (.meter (.std s.stop)))) := by
  intro w w'
  have hw : w.Ok := run_ok h
  have hw' : w'.Ok := (hw.step env _).1
  refine ⟨?_, ?_, ?_, ?_⟩
  · show ((do return .reg (← regCall env g (.unregister name)) : Act F (OpOut F)) w).2 = _
    rw [(regCall_prefix env g).2.2.2.1, hb]
    show ((do return .reg (← (do unregister env id (fullName g name); return .unit)) : Act F (OpOut F)) w).2 = _
    rw [act_bind, act_bind, unregister_eq]
    rfl
  · intro id' name'
    have key : ∀ r, gets w' id' name' = some r ↔ gets w id' name' = some r ∧ ¬ (id' = id ∧ name' = baseName g name) := by
      intro r
      rw [step_gets]
      simp only [binds, yields, and_false, exists_false, false_or, frees, hb, Option.some.injEq]
      rw [show (id = id' ∧ baseName g name = name') ↔ (id' = id ∧ name' = baseName g name) from ⟨fun h => ⟨h.1.symm, h.2.symm⟩, fun h => ⟨h.1.symm, h.2.symm⟩⟩]
    split
    · rename_i hc
      rcases hg : gets w' id' name' with _ | r
      · rfl
      · exact absurd hc ((key r).1 hg).2
    · rename_i hc
      rcases hg : gets w id' name' with _ | r
      · rcases hg' : gets w' id' name' with _ | r
        · rfl
        · exact absurd ((key r).1 hg').1 (by rw [hg]; simp)
      · exact (key r).2 ⟨hg, hc⟩
  · intro x m hx ht
    have hnl : ¬ live w' m := by
      intro hl
      by_cases hlw : live w m
      · refine (C37_step h env (.reg g (.unregister name)) m hlw).1 hl ⟨id, x, hb, ?_, ht⟩
        rw [gets_eq] at hx
        rw [fullName_eq]
        exact lookup_some_mem hx
      · -- a meter that was not live stays so
        rcases unregister_stopping env id (fullName g name) w m with h1 | ⟨-, s, h1, h2, -⟩
        · have e : w' = (unregister env id (fullName g name) w).1 := by simp only [w']; rw [step_unregister_fst, hb]
          rw [← e] at h1
          obtain ⟨s, h2, h3⟩ := hl
          rw [h1] at h2
          exact hlw ⟨s, h2, h3⟩
        · exact hlw ⟨s, h1, h2⟩
    exact ⟨hnl, fun hm => hnl ((meters_iff hw' m).1 hm)⟩
  · intro m
    have e : w' = (unregister env id (fullName g name) w).1 := by simp only [w']; rw [step_unregister_fst, hb]
    rw [e]
    rcases unregister_stopping env id (fullName g name) w m with h1 | ⟨⟨x, h1, h2⟩, h3⟩
    · exact .inl h1
    · refine .inr ⟨⟨x, ?_, h2⟩, h3⟩
      rw [gets_eq, ← fullName_eq]
      exact lookup_of_mem (hw.keys id) h1

/-- C53: `UnregisterAll` frees all names of the registry, and stops all meters and timers that were bound, whatever the order in which the map is visited; no
other object changes. -/
theorem C53_unregisterAll (h : List (Env F × Op F)) (env : Env F) (g : Reg) (id : Nat) (hb : base g = some id) :
    let w : World F := World.init.run h
    let w' := (step env (.reg g .unregisterAll) w).1
    (step env (.reg g .unregisterAll) w).2 = .ok (.reg .unit) ∧
    (∀ id' name', gets w' id' name' = if id' = id then none else gets w id' name') ∧
    (∀ name x m, gets w id name = some x → stopTarget w x m → ¬ live w' m ∧ m ∉ w'.meters) ∧
    (∀ m, w'.objs m = w.objs m ∨ ((∃ name x, gets w id name = some x ∧ stopTarget w x m) ∧
      ∃ s, w.objs m = some (.meter (.std s)) ∧ s.stopped = false ∧ w'.objs m = some (.meter (.std s.stop)))) := by
  intro w w'
  have hw : w.Ok := run_ok h
  have hw' : w'.Ok := (hw.step env _).1
  have e : w' = (unregisterAll env id w).1 := by simp only [w']; rw [step_unregisterAll_fst, hb]
  refine ⟨?_, ?_, ?_, ?_⟩
  · show ((do return .reg (← regCall env g .unregisterAll) : Act F (OpOut F)) w).2 = _
    rw [(regCall_prefix env g).2.2.2.2.1, hb]
    show ((do return .reg (← (do unregisterAll env id; return .unit)) : Act F (OpOut F)) w).2 = _
    have := (unregisterAll_eq env id w).1
    rw [act_bind, act_bind]
    generalize unregisterAll env id w = y at this ⊢
    obtain ⟨w1, r1⟩ := y
    simp only at this
    subst this
    rfl
  · intro id' name'
    rw [gets_eq, gets_eq, e, (unregisterAll_eq env id w).2]
    by_cases hi : id' = id
    · subst hi; simp [lookup]
    · simp [Function.update_of_ne hi, hi]
  · intro name x m hx ht
    have hnl : ¬ live w' m := by
      intro hl
      by_cases hlw : live w m
      · refine (C37_step h env (.reg g .unregisterAll) m hlw).1 hl ⟨id, name, x, hb, ?_, ht⟩
        rw [gets_eq] at hx
        exact lookup_some_mem hx
      · rcases unregisterAll_stopping env id w m with h1 | ⟨-, s, h1, h2, -⟩
        · rw [← e] at h1
          obtain ⟨s, h2, h3⟩ := hl
          rw [h1] at h2
          exact hlw ⟨s, h2, h3⟩
        · exact hlw ⟨s, h1, h2⟩
    exact ⟨hnl, fun hm => hnl ((meters_iff hw' m).1 hm)⟩
  · intro m
    rw [e]
    rcases unregisterAll_stopping env id w m with h1 | ⟨⟨n, x, h1, h2⟩, h3⟩
    · exact .inl h1
    · refine .inr ⟨⟨n, x, ?_, h2⟩, h3⟩
      rw [gets_eq]
      exact lookup_of_mem (hw.keys id) h1

example : gets (World.init.run regHistory : World F) 0 [97] = some 2 ∧ stopTarget (World.init.run regHistory : World F) 2 2 := ⟨rfl, .inl rfl⟩
example : (World.init.run regHistory : World F64).meters = [2] ∧ ((World.init.run regHistory : World F64).run [(envAt 4, .reg (.std 0) .unregisterAll)]).meters = [] := by decide +kernel

/-! ### C54 -/

private theorem runAll_check (env : Env F) (l : List (Str × Ref)) (w : World F) :
    ∃ w', runAll (checkOne env) l w = (w', .ok ()) ∧ w' = { w with objs := w'.objs } ∧
      (∀ r x, w.objs r = some (.health x) → w'.objs r = some (.health ((Health.check env.checkFn)^[(l.filter fun e => e.2 = r).length] x))) ∧
      (∀ r, (∀ x, w.objs r ≠ some (.health x)) → w'.objs r = w.objs r) := by
  induction l generalizing w with
  | nil => exact ⟨w, rfl, rfl, fun r x h => by simpa using h, fun r _ => rfl⟩
  | cons e l ih =>
    rw [runAll, act_bind]
    by_cases hh : ∃ x, w.objs e.2 = some (.health x)
    · obtain ⟨x0, hx0⟩ := hh
      rw [checkOne_eq]
      simp only [hx0]
      obtain ⟨w', h1, h2, h3, h4⟩ := ih { w with objs := Function.update w.objs e.2 (some (.health (x0.check env.checkFn))) }
      refine ⟨w', h1, ?_, ?_, ?_⟩
      · rw [h2]
      · intro r x hr
        by_cases he : e.2 = r
        · subst he
          obtain rfl : x0 = x := by rw [hx0] at hr; simpa using hr
          rw [h3 e.2 (x0.check env.checkFn) (Function.update_self ..), List.filter_cons_of_pos (by simp), List.length_cons, Function.iterate_succ_apply]
        · rw [h3 r x (by simpa only [Function.update_of_ne (Ne.symm he)] using hr), List.filter_cons_of_neg (by simpa using he)]
      · intro r hr
        have he : r ≠ e.2 := fun he => hr x0 (by rw [he]; exact hx0)
        rw [h4 r (by simpa only [Function.update_of_ne he] using hr)]
        simp only [Function.update_of_ne he]
    · have hs : checkOne env e w = (w, .ok ()) := by
        rw [checkOne_eq]
        rcases he : w.objs e.2 with _ | o
        · rfl
        · cases o with
          | health x => exact absurd ⟨x, he⟩ hh
          | _ => rfl
      rw [hs]
      simp only
      obtain ⟨w', h1, h2, h3, h4⟩ := ih w
      refine ⟨w', h1, h2, fun r x hr => ?_, h4⟩
      rw [h3 r x hr, List.filter_cons_of_neg]
      simp only [decide_eq_true_eq]
      rintro rfl
      exact hh ⟨x, hr⟩

/-- C54: `RunHealthchecks` runs `Check` on every healthcheck as often as it is registered, and changes nothing else, whatever the order of the map. -/
theorem C54_checks (h : List (Env F × Op F)) (env : Env F) (g : Reg) (id : Nat) (hb : base g = some id) :
    let w : World F := World.init.run h
    ∃ w', step env (.reg g .runHealthchecks) w = (w', .ok (.reg .unit)) ∧ w' = { w with objs := w'.objs } ∧
      (∀ r x, w.objs r = some (.health x) → w'.objs r = some (.health ((Health.check env.checkFn)^[timesRegistered w id r] x))) ∧
      (∀ r, (∀ x, w.objs r ≠ some (.health x)) → w'.objs r = w.objs r) := by
  intro w
  obtain ⟨w', h1, h2, h3, h4⟩ := runAll_check env (env.order (w.regs id)) w
  refine ⟨w', ?_, h2, fun r x hr => ?_, h4⟩
  · show (do return .reg (← regCall env g .runHealthchecks) : Act F (OpOut F)) w = _
    rw [(regCall_prefix env g).2.2.2.2.2, hb]
    show (do return .reg (← (do runHealthchecks env id; return .unit)) : Act F (OpOut F)) w = _
    rw [act_bind, act_bind, runHealthchecks_run, h1]
    rfl
  · rw [h3 r x hr, timesRegistered, ((env.order_perm (w.regs id)).filter _).length_eq]

/-- C54: so a healthcheck registered under one name is checked once, and one that is not registered is not checked. -/
theorem C54_once (h : List (Env F × Op F)) (env : Env F) (g : Reg) (id : Nat) (hb : base g = some id) (r : Ref) (x : Health)
    (hx : (World.init.run h : World F).objs r = some (.health x)) :
    (∀ name, gets (World.init.run h : World F) id name = some r → (∀ name', gets (World.init.run h : World F) id name' = some r → name' = name) →
      (step env (.reg g .runHealthchecks) (World.init.run h : World F)).1.objs r = some (.health (x.check env.checkFn))) ∧
    ((∀ name, gets (World.init.run h : World F) id name ≠ some r) → (step env (.reg g .runHealthchecks) (World.init.run h : World F)).1.objs r = some (.health x)) := by
  obtain ⟨w', h1, -, h3, -⟩ := C54_checks h env g id hb
  rw [h1]
  have hk := (run_ok h (F := F)).keys id
  generalize (World.init.run h : World F) = w at *
  have hmem : ∀ name, (name, r) ∈ w.regs id ↔ gets w id name = some r := fun name => by
    rw [gets_eq]; exact ⟨lookup_of_mem hk, lookup_some_mem⟩
  constructor
  · intro name hn hu
    have : timesRegistered w id r = 1 := by
      have hsub : (w.regs id).filter (fun e => e.2 = r) = [(name, r)] := by
        have hnd : ((w.regs id).filter (fun e => e.2 = r)).Nodup := (List.Nodup.of_map Prod.fst hk).filter _
        have hall : ∀ e ∈ (w.regs id).filter (fun e => e.2 = r), e = (name, r) := by
          rintro ⟨n, q⟩ he
          obtain ⟨h5, h6⟩ := List.mem_filter.1 he
          obtain rfl : q = r := by simpa using h6
          rw [hu n ((hmem n).1 h5)]
        have hin : (name, r) ∈ (w.regs id).filter (fun e => e.2 = r) := List.mem_filter.2 ⟨(hmem name).2 hn, by simp⟩
        generalize (w.regs id).filter (fun e => e.2 = r) = l at *
        match l, hnd, hall, hin with
        | [a], _, hall, _ => rw [hall a (by simp)]
        | a :: b :: l, hnd, hall, _ =>
          have := hall a (by simp)
          have := hall b (by simp)
          simp_all
      rw [timesRegistered, hsub]; rfl
    show w'.objs r = _
    rw [h3 r x hx, this]
    rfl
  · intro hn
    have : timesRegistered w id r = 0 := by
      rw [timesRegistered, List.length_eq_zero_iff, List.filter_eq_nil_iff]
      rintro ⟨n, q⟩ he
      simp only [decide_eq_true_eq]
      rintro rfl
      exact hn n ((hmem n).1 he)
    show w'.objs r = _
    rw [h3 r x hx, this]
    rfl

/-! One registered healthcheck, one that is not, and a counter. -/

private def healthHistory : List (Env F × Op F) :=
  [(envAt 0, .new (.health 0)), (envAt 0, .new (.health 1)), (envAt 0, .new .counter), (envAt 1, .reg (.std 0) (.register [97] (.obj 0))),
   (envAt 1, .reg (.std 0) (.register [98] (.obj 2)))]

example : (World.init.run healthHistory : World F).objs 0 = some (.health (.std none 0)) := rfl
example : (step (envAt 5) (.reg (.std 0) .runHealthchecks) (World.init.run healthHistory : World F)).1.objs 0 = some (.health (.std (some 1) 0)) := rfl

/-! ### C58 -/

/-- C58: through any nesting of prefixed registries over the standard registry `id`, the four calls with `name` are the calls on the base registry with the
concatenation of all prefixes, the one next to the base first, and `name`. -/
theorem C58_prefix (env : Env F) (g : Reg) (id : Nat) (hb : base g = some id) (name : Str) :
    regCall env g (.get name) = regCall env (.std id) (.get ((prefixes g).flatten ++ name)) ∧
    (∀ v, regCall env g (.getOrRegister name v) = regCall env (.std id) (.getOrRegister ((prefixes g).flatten ++ name) v)) ∧
    (∀ v, regCall env g (.register name v) = regCall env (.std id) (.register ((prefixes g).flatten ++ name) v)) ∧
    regCall env g (.unregister name) = regCall env (.std id) (.unregister ((prefixes g).flatten ++ name)) := by
  obtain ⟨h1, h2, h3, h4, -⟩ := regCall_prefix env g
  have e := fullName_eq g name
  rw [baseName] at e
  rw [← e]
  simp only [h1, h2, h3, h4, hb, implies_true, and_self]

example : base (.prefixed (.prefixed (.std 3) [97, 46]) [98, 46]) = some 3 ∧ (prefixes (.prefixed (.prefixed (.std 3) [97, 46]) [98, 46])).flatten ++ [99] = [97, 46, 98, 46, 99] :=
  ⟨rfl, rfl⟩

/-! ### C59 -/

theorem findPrefix_base (g : Reg) (pre : Str) : findPrefix g pre = (base g).map fun id => (id, (prefixes g).flatten ++ pre) := by
  induction g generalizing pre with
  | std id => rfl
  | foreign => rfl
  | prefixed u p ih => simp [findPrefix, ih, base, prefixes]

/-- The list that `Each` goes over. -/
theorem eachList_base (env : Env F) (g : Reg) (id : Nat) (hb : base g = some id) (w : World F) :
    eachList env g w = (w, .ok (some ((env.order (w.regs id)).filter fun e => (prefixes g).flatten.isPrefixOf e.1))) := by
  cases g with
  | std i =>
    obtain rfl : i = id := by simpa [base] using hb
    have : (env.order (w.regs i)).filter (fun e => (prefixes (.std i)).flatten.isPrefixOf e.1) = env.order (w.regs i) := by
      rw [List.filter_eq_self]; intro a _; rfl
    rw [this]
    rfl
  | foreign => simp [base] at hb
  | prefixed u p =>
    rw [eachList, findPrefix_base, hb]
    simp only [Option.map_some, List.append_nil]
    rw [act_bind, act_getReg]
    rfl

theorem eachList_mem (env : Env F) (g : Reg) (id : Nat) {w : World F} (hw : w.Ok) (name : Str) (r : Ref) :
    (name, r) ∈ (env.order (w.regs id)).filter (fun e => (prefixes g).flatten.isPrefixOf e.1) ↔ gets w id name = some r ∧ (prefixes g).flatten <+: name := by
  rw [List.mem_filter, (env.order_perm (w.regs id)).mem_iff, gets_eq, List.isPrefixOf_iff_prefix]
  exact and_congr ⟨lookup_of_mem (hw.keys id), lookup_some_mem⟩ Iff.rfl

theorem eachList_nodup (env : Env F) (g : Reg) (id : Nat) {w : World F} (hw : w.Ok) :
    (((env.order (w.regs id)).filter (fun e => (prefixes g).flatten.isPrefixOf e.1)).map Prod.fst).Nodup := by
  refine List.Nodup.sublist (List.filter_sublist.map Prod.fst) ?_
  exact ((env.order_perm (w.regs id)).map Prod.fst).nodup_iff.2 (hw.keys id)

/-- C59: `Each(f)` on a prefixed registry calls `f` once for each name of the base registry that starts with all its prefixes, with the full name, and
for nothing else, whatever `f` does; in particular for everything registered through the prefixed registry and still there. -/
theorem C59_each {U : Type} (h : List (Env F × Op F)) (g : Reg) (id : Nat) (hb : base g = some id) (env : Env F) (f : Callback F U) (u : U) :
    let w : World F := World.init.run h
    let y := each env g (logged f) (w, (u, []))
    ∃ l : List (Str × Ref), (l.map Prod.fst).Nodup ∧ (∀ name r, (name, r) ∈ l ↔ gets w id name = some r ∧ (prefixes g).flatten <+: name) ∧
      (∀ name r, (regCall env g (.get name) w).2 = .ok (.metric r) → (baseName g name, r) ∈ l) ∧
      (y.2 = .ok () → y.1.2.2 = l) ∧ (∀ p, y.2 = .error p → ∃ k < l.length, y.1.2.2 = l.take (k + 1)) ∧
      (y.1.1, y.1.2.1, y.2) = ((each env g f (w, u)).1.1, (each env g f (w, u)).1.2, (each env g f (w, u)).2) := by
  intro w y
  have hw : w.Ok := run_ok h
  have hlist := eachList_base env g id hb w
  obtain ⟨h1, h2, h3⟩ := each_logged env g f w u _ hlist
  have hmem := eachList_mem env g id hw
  refine ⟨_, ?_, hmem, fun name r hr => ?_, h2, h3, h1⟩
  · exact eachList_nodup env g id hw
  · rw [C46_get w env g id hb] at hr
    refine (hmem _ r).2 ⟨?_, List.prefix_append _ _⟩
    rcases hg : gets w id (baseName g name) with _ | q
    · rw [hg] at hr; simp at hr
    · rw [hg] at hr
      obtain rfl : q = r := by simpa using hr
      rfl

/-- C59 (boundary, a defect): over a registry that is not one of the two types of the package, `Each` of a prefixed registry panics (nil registry). -/
theorem C59_foreign {U : Type} (u : Reg) (p : Str) (hb : base u = none) (env : Env F) (f : Callback F U) (x : World F × U) :
    each env (.prefixed u p) f x = (x, .error .nilDeref) := by
  have : eachList env (.prefixed u p) x.1 = (x.1, .error .nilDeref) := by
    have : base (.prefixed u p) = none := hb
    rw [eachList, findPrefix_base, this]
    rfl
  simp only [each, this]

example : (each (envAt 7) (.prefixed (.std 0) [98]) (logged fun _ _ x => (x, none)) ((World.init.run regHistory : World F), ((), []))).1.2.2 = [([98], 1)] := rfl
example : base (.prefixed .foreign [97]) = none := rfl

end GoMetrics
