import Verif.Lemmas.Expvar
import Verif.Props.Returns

/-! C66: the expvar endpoint. -/

set_option linter.unusedSimpArgs false
set_option linter.unusedSectionVars false

namespace GoMetrics
open Spec

section general
variable {F : Type} [GoFloat F] [GoSqrt F] [GoExp F]

/-- C66: the labels that the specification demands cover all statistics: each of them exactly once. -/
theorem C66_labels (o : Obj F) (hm : o.isMetric = true) (hh : isHealth o = false) : ((expLabels o).map (means o)).Perm ((statsOf five o).map some) := by
  cases o <;> simp [Obj.isMetric, isHealth] at hm hh <;> exact .of_eq rfl

/-- C66: a variable that belongs to one metric only shows the current value of that metric. -/
theorem C66_unique {w : World F} {env : Env F} {id : Nat} {pre : Str} {vars vars' : Str → Option (Var F)} (h : Published w env id pre vars vars') {n name : Str} {r : Ref} {o : Obj F} {label : String}
    (ho : Owns w id pre n name r o label) (hu : ∀ name' r' o' label', Owns w id pre n name' r' o' label' → name' = name ∧ label' = label) :
    ∃ x, vars' n = some x ∧ ShowsVar w env r o label x := by
  rcases h n with ⟨name', r', o', label', x, h1, h2, h3⟩ | ⟨h1, -⟩
  · obtain ⟨rfl, rfl⟩ := hu _ _ _ _ h1
    obtain rfl : r' = r := by have := h1.1; rw [ho.1] at this; exact (Option.some.inj this).symm
    obtain rfl : o' = o := by have := h1.2.2.1; rw [ho.2.2.1] at this; exact (Option.some.inj this).symm
    exact ⟨x, h3, h2⟩
  · exact absurd ho (h1 _ _ _ _)

private theorem from_ok {y0 y : World F × Expvar F} (h0 : y0.1.Ok) (h : ExpFrom y0 y) : y.1.Ok := by
  induction h with
  | start => exact h0
  | op env o _ ih => exact (ih.step env o).1
  | publish n x _ _ ih => exact ih
  | request env g _ ih => exact keepsOk_request env g _ ih
  | other env g b _ ih => exact keepsOk_request env g _ ih

private theorem reach_ok {y : World F × Expvar F} (h : ExpReach y) : y.1.Ok := by
  obtain ⟨vars, h⟩ := h
  exact from_ok World.Ok.init h

private theorem request_held (env : Env F) (g : Reg) (w : World F) {s : Expvar F} (hs : s.held = true) : (expHandler env g (w, s)).1.2 = s := by
  have hv : ∀ (l : List (Str × Ref)) w, (visit (expCallback env) l (w, s, false)).1.2.1 = s := by
    intro l w
    by_cases hl : l = []
    · subst hl; rfl
    · obtain ⟨w', b, res, h1, -⟩ := visit_held (env := env) l hl w hs
      rw [h1]
  have h1 : (each env g (expCallback env) (w, s, false)).1.2.1 = s := by
    rw [each]
    rcases h : eachList env g w with ⟨w', _ | _ | l⟩
    · rfl
    · rfl
    · exact hv l w'
  rw [expHandler, syncToExpvar]
  rcases h : each env g (expCallback env) (w, s, false) with ⟨⟨w', s', _ | _⟩, _ | _⟩ <;> rw [h] at h1 <;> exact h1

/-- C66, the consequence of a panic between `Lock` and `Unlock`: when the mutex of the handler has been left locked, it stays locked whatever the program does, and no request to the
handler ever returns unless there is nothing to publish. (The registry `g` of a handler never changes; the proof does not need this. Other handlers have mutexes of their own: C117.) -/
theorem C66_stuck {y y' : World F × Expvar F} (hr : ExpReach y) (hs : y.2.held = true) (h : ExpFrom y y') :
    y'.2.held = true ∧ ∀ env g id name, base g = some id → gets y'.1 id name ≠ none → (prefixes g).flatten <+: name →
      (expHandler env g y').2.1 ≠ .returns ∧ (expHandler env g y').2.2 = none := by
  have hheld : y'.2.held = true := by
    induction h with
    | start => exact hs
    | op env o _ ih => exact ih
    | publish n x _ _ ih => exact ih
    | request env g _ ih => rw [request_held env g _ ih]; exact ih
    | other env g b _ ih => exact ih
  refine ⟨hheld, fun env g id name hb hn hp => ?_⟩
  obtain ⟨r, hgr⟩ := Option.ne_none_iff_exists'.1 hn
  have hm := (eachList_mem env g id (from_ok (reach_ok hr) h) name r).2 ⟨hgr, hp⟩
  obtain ⟨w', e, h1, h2⟩ := expHandler_held (env := env) (g := g) hb (w := y'.1) hheld (by intro h3; rw [h3] at hm; simp at hm)
  have : expHandler env g y' = ((w', y'.2), e, none) := h1
  rw [this]
  exact ⟨h2, rfl⟩

end general

section ieee
variable [GoSqrt F64] [GoExp F64]

private theorem request_run {kind : Str → Option Bool} {w : World F64} {s : Expvar F64} (hw : w.Ok) (hs : s.held = false) (hk : VarKinds kind s.vars) {env : Env F64} {g : Reg} {id : Nat}
    (hb : base g = some id) (hh : NoHealth w id (prefixes g).flatten) (hsn : SnapshotsReturn w env id (prefixes g).flatten) (hl : SamplesFit w) (hkw : Kinds kind w id (prefixes g).flatten) :
    ∃ w' s', expHandler env g (w, s) = ((w', s'), .returns, some s'.vars) ∧ Seen env w w' ∧ s'.held = false ∧ VarKinds kind s'.vars ∧
      Published w env id (prefixes g).flatten s.vars s'.vars := by
  refine request_ok hw hs hk hb hh (fun name r hr hn l hlist => reads_ieee env id hw hsn hl hr hn ?_) hkw
  rcases hlist with rfl | rfl
  · simp
  · exact five_ne_nan

private theorem run_inv {kind : Str → Option Bool} {y : World F64 × Expvar F64} (h : ExpRun kind y) : y.1.Ok ∧ y.2.held = false ∧ VarKinds kind y.2.vars := by
  induction h with
  | init hv => exact ⟨World.Ok.init, rfl, hv⟩
  | op env o _ ih => exact ⟨(ih.1.step env o).1, ih.2⟩
  | publish n x _ hn hx ih =>
    refine ⟨ih.1, ih.2.1, fun m z b hz hb => ?_⟩
    by_cases hm : m = n
    · subst hm
      simp only [Function.update_self, Option.some.injEq] at hz
      subst hz
      exact hx b hb
    · simp only [Function.update_of_ne hm] at hz
      exact ih.2.2 m z b hz hb
  | request env g id _ hb hh hsn hl hkw ih =>
    obtain ⟨w', s', h1, h2, h3, h4, -⟩ := request_run ih.1 ih.2.1 ih.2.2 hb hh hsn hl hkw
    rw [h1]
    exact ⟨h2.ok, h3, h4⟩

/-- C66, for programs in which no healthcheck is registered, `Snapshot()` works on the registered metrics, and every variable name is always used for the same kind of variable (integer or
float): every request returns with a response, the registry is unchanged, and every variable of a metric shows a current value, all others are as before. Missing for the full claim:
the other programs, for which it is false (C66_returns_iff). -/
theorem C66_partial (kind : Str → Option Bool) (w : World F64) (s : Expvar F64) (hr : ExpRun kind (w, s)) (env : Env F64) (g : Reg) (id : Nat) (hb : base g = some id)
    (hh : NoHealth w id (prefixes g).flatten) (hsn : SnapshotsReturn w env id (prefixes g).flatten) (hl : SamplesFit w) (hkw : Kinds kind w id (prefixes g).flatten) :
    ∃ w' s', expHandler env g (w, s) = ((w', s'), .returns, some s'.vars) ∧ Published w env id (prefixes g).flatten s.vars s'.vars ∧ w'.regs = w.regs ∧ s'.held = false := by
  obtain ⟨h1, h2, h3⟩ := run_inv hr
  obtain ⟨w', s', h4, h5, h6, -, h8⟩ := request_run h1 h2 h3 hb hh hsn hl hkw
  exact ⟨w', s', h4, h8, h5.regs, h6⟩

/-- C66, exactly when a request returns: if there is nothing to publish, or if the mutex is not left locked, no healthcheck is registered, all snapshots return, and every variable
needed has one kind, which is also that of the variable if it exists already. -/
theorem C66_returns_iff (w : World F64) (s : Expvar F64) (hr : ExpReach (w, s)) (env : Env F64) (g : Reg) (id : Nat) (hb : base g = some id) (hl : SamplesFit w) :
    (expHandler env g (w, s)).2.1 = .returns ↔
      (∀ name, (prefixes g).flatten <+: name → gets w id name = none) ∨
      (s.held = false ∧ NoHealth w id (prefixes g).flatten ∧ SnapshotsReturn w env id (prefixes g).flatten ∧ ∃ kind, Kinds kind w id (prefixes g).flatten ∧ VarKinds kind s.vars) := by
  have hw : w.Ok := reach_ok hr
  have hmem := eachList_mem env g id hw
  have hlist : each env g (expCallback env) (w, s, false) =
      visit (expCallback env) ((env.order (w.regs id)).filter fun e => (prefixes g).flatten.isPrefixOf e.1) (w, s, false) := by
    rw [each, eachList_base env g id hb]
  constructor
  · intro h
    by_cases hnil : ∀ name, (prefixes g).flatten <+: name → gets w id name = none
    · exact .inl hnil
    · right
      simp only [not_forall] at hnil
      obtain ⟨name0, hn0, hg0⟩ := hnil
      obtain ⟨r0, hr0⟩ := Option.ne_none_iff_exists'.1 hg0
      rw [expHandler, syncToExpvar, hlist] at h
      rcases hv : visit (expCallback env) ((env.order (w.regs id)).filter fun e => (prefixes g).flatten.isPrefixOf e.1) (w, s, false) with ⟨⟨w', s', _ | _⟩, p | u⟩
      · rw [hv] at h; simp at h
      · have hobj : ∀ e ∈ ((env.order (w.regs id)).filter fun e => (prefixes g).flatten.isPrefixOf e.1), ∃ o, w.objs e.2 = some o := by
          intro e he
          obtain ⟨o, ho, -⟩ := hw.metric id e (by rw [List.mem_filter, (env.order_perm _).mem_iff] at he; exact he.1)
          exact ⟨o, ho⟩
        generalize hL : ((env.order (w.regs id)).filter fun e => (prefixes g).flatten.isPrefixOf e.1) = l at *
        obtain ⟨evs, h1, h2, h3⟩ := visit_exp_inv l hobj (Seen.refl env hw) hv
        obtain ⟨-, blocks, h4, h5⟩ := visit_export good_exp l hobj (Seen.refl env hw) (h1 [])
        simp only [List.nil_append] at h4
        subst h4
        -- the events of a metric
        have hblock : ∀ name r, gets w id name = some r → (prefixes g).flatten <+: name → ∃ o c b, w.objs r = some o ∧ expSwitch o = some c ∧ b ∈ blocks ∧ CaseOut w env name r o c b := by
          intro name r hgr hpn
          have hm := (hmem name r).2 ⟨hgr, hpn⟩
          obtain ⟨i, hi, hi2⟩ := List.getElem_of_mem hm
          have hi' : i < blocks.length := by rw [← h5.length_eq]; exact hi
          obtain ⟨o, ho, h6⟩ := h5.get hi hi'
          simp only [List.get_eq_getElem, hi2] at ho h6
          obtain ⟨o', c, _, _, _, _, ho', hc, -⟩ := h3 _ hm
          rw [ho] at ho'
          obtain rfl := Option.some.inj ho'
          rcases h6 with ⟨h6, -⟩ | ⟨c', hc', hout⟩
          · rw [h6] at hc; simp at hc
          · exact ⟨o, c', blocks[i], ho, hc', List.getElem_mem hi', hout⟩
        have hevok : ∀ e ∈ blocks.flatten, evOk e = true := by
          intro e he
          obtain ⟨b, hb1, hb2⟩ := List.mem_flatten.1 he
          obtain ⟨i, hi, rfl⟩ := List.getElem_of_mem hb1
          have hi' : i < l.length := by rw [h5.length_eq]; exact hi
          obtain ⟨o, ho, h6⟩ := h5.get hi' hi
          simp only [List.get_eq_getElem] at ho h6
          rcases h6 with ⟨-, h6⟩ | ⟨c', hc', hout⟩
          · rw [h6] at hb2; simp at hb2
          · exact (((block_events hc' hout).1 e hb2).choose_spec.2).1
        obtain ⟨k1, k2, k3⟩ := pubs_returns blocks.flatten hevok h2
        refine ⟨?_, ?_, ?_, fun n => (s'.vars n).bind fun x => match x with | .int _ => some true | .float _ => some false | .other => none, ?_, ?_⟩
        · refine k1 fun hnil => ?_
          obtain ⟨o, c, b, ho, hc, hbm, hout⟩ := hblock name0 r0 hr0 hn0
          have : ∃ label, label ∈ expLabels o := by cases o <;> first | exact ⟨_, List.mem_cons_self ..⟩ | simp [expSwitch] at hc
          obtain ⟨label, hlab⟩ := this
          obtain ⟨e, he, -⟩ := (block_events hc hout).2 label hlab
          have : e ∈ blocks.flatten := List.mem_flatten.2 ⟨b, hbm, he⟩
          rw [hnil] at this
          simp at this
        · intro name r o hgr hpn ho
          obtain ⟨o', c, b, ho', hc, -⟩ := hblock name r hgr hpn
          rw [ho] at ho'
          obtain rfl := Option.some.inj ho'
          cases o <;> first | rfl | simp [expSwitch] at hc
        · intro name r o hgr hpn ho hd
          obtain ⟨o', c, w3, w4, x, ps, ho', hc, hseen, hprep⟩ := h3 (name, r) ((hmem name r).2 ⟨hgr, hpn⟩)
          simp only at ho' hprep
          rw [ho] at ho'
          obtain rfl := Option.some.inj ho'
          obtain ⟨o3, ho3, hshape⟩ := hseen.shape r o ho
          have ho3' : w3.objs r = some o := by
            rcases hshape with rfl | ⟨_, _, rfl, -⟩ | ⟨_, _, rfl, -⟩
            · exact ho3
            · simp [isDistribution] at hd
            · simp [isDistribution] at hd
          obtain ⟨out, hsnap⟩ : ∃ out, (call env r .snapshot w3).2 = .ok out := by
            have hsn : c.check = false ∧ c.snapshot = true := by
              cases o <;> simp [isDistribution] at hd <;> simp only [expSwitch, Option.some.injEq] at hc <;> subst hc <;> exact ⟨rfl, rfl⟩
            simp only [Case.prepare, hsn.1, hsn.2, Bool.false_eq_true, if_false, if_true] at hprep
            obtain ⟨w5, q, h6, -⟩ := bind_ok hprep
            rw [snapshotOf] at h6
            obtain ⟨w6, out, h7, -⟩ := bind_ok h6
            exact ⟨out, by rw [h7]⟩
          cases o with
          | hist z =>
            rw [call_obj ho3'] at hsnap
            have := (hist_snap_ok hseen.ok env ho3').2 (histCall env r z .snapshot w3).1 out (Prod.ext rfl hsnap)
            obtain ⟨w7, q, h7⟩ := (hist_snap_ok hw env ho).1 (hseen.histSnapOk_of this)
            refine ⟨.ref q, ?_⟩
            rw [call_obj ho]
            exact congrArg Prod.snd h7
          | timer z =>
            rw [call_obj ho3'] at hsnap
            have := (timer_snap_ok hseen.ok env ho3').2 (timerCall env r z .snapshot w3).1 out (Prod.ext rfl hsnap)
            obtain ⟨w7, q, h7⟩ := (timer_snap_ok hw env ho).1 (hseen.timerSnapOk_of this)
            refine ⟨.ref q, ?_⟩
            rw [call_obj ho]
            exact congrArg Prod.snd h7
          | _ => simp [isDistribution] at hd
        · rintro n name r o label ⟨hgr, hpn, ho, hlab, rfl⟩
          obtain ⟨o', c, b, ho', hc, hbm, hout⟩ := hblock name r hgr hpn
          rw [ho] at ho'
          obtain rfl := Option.some.inj ho'
          obtain ⟨e, he, hname, hint⟩ := (block_events hc hout).2 label hlab
          obtain ⟨y, hy, hyk⟩ := k3 e (List.mem_flatten.2 ⟨b, hbm, he⟩)
          rw [hname] at hy
          rw [hint] at hyk
          simp only [hy]
          cases y <;> cases hi : isIntVar o label <;> rw [hi] at hyk <;> first | rfl | simp [hasKind] at hyk
        · intro n x b hx hb'
          obtain ⟨y, hy, hxy⟩ := k2 n x hx
          simp only [hy] at hb'
          rw [hxy b]
          cases y <;> simp at hb' <;> subst hb' <;> rfl
      · rw [hv] at h; simp at h
      · rw [hv] at h; simp at h
  · rintro (hnone | ⟨h1, h2, h3, kind, h4, h5⟩)
    · have hnil : ((env.order (w.regs id)).filter fun e => (prefixes g).flatten.isPrefixOf e.1) = [] := by
        rw [List.eq_nil_iff_forall_not_mem]
        intro e he
        obtain ⟨h1, h2⟩ := (hmem e.1 e.2).1 he
        rw [hnone e.1 h2] at h1
        simp at h1
      rw [expHandler, syncToExpvar, hlist, hnil]
      rfl
    · obtain ⟨w', s', h6, -⟩ := request_run hw h1 h5 hb h2 h3 hl h4
      rw [h6]

/-- C66: every request that returns shows the current values, in any program: every variable of a metric shows a current value, all others are as before, and the response is the whole table. -/
theorem C66_right (w : World F64) (s : Expvar F64) (hr : ExpReach (w, s)) (env : Env F64) (g : Reg) (id : Nat) (hb : base g = some id) (hl : SamplesFit w)
    (hret : (expHandler env g (w, s)).2.1 = .returns) :
    ∃ w' s', expHandler env g (w, s) = ((w', s'), .returns, some s'.vars) ∧ Published w env id (prefixes g).flatten s.vars s'.vars ∧ w'.regs = w.regs ∧ s'.held = s.held := by
  have hw : w.Ok := reach_ok hr
  rcases (C66_returns_iff w s hr env g id hb hl).1 hret with hnone | ⟨h1, h2, h3, kind, h4, h5⟩
  · have hmem := eachList_mem env g id hw
    have hnil : ((env.order (w.regs id)).filter fun e => (prefixes g).flatten.isPrefixOf e.1) = [] := by
      rw [List.eq_nil_iff_forall_not_mem]
      intro e he
      obtain ⟨h1, h2⟩ := (hmem e.1 e.2).1 he
      rw [hnone e.1 h2] at h1
      simp at h1
    refine ⟨w, s, ?_, fun n => .inr ⟨fun name r o label ho => ?_, rfl⟩, rfl, rfl⟩
    · rw [expHandler, syncToExpvar, each, eachList_base env g id hb, hnil]
      rfl
    · have := ho.1
      rw [hnone name ho.2.1] at this
      cases this
  · obtain ⟨w', s', h6, h7, h8, -, h9⟩ := request_run hw h1 h5 hb h2 h3 hl h4
    exact ⟨w', s', h6, h9, h7.regs, h8.trans h1.symm⟩

/-- C66, what happens otherwise: if no healthcheck is registered and the snapshots return, a request that does not return panics, without a response, because of the kind of a variable. From then on, whatever
the program does, no request to the same handler returns unless there is nothing to publish. -/
theorem C66_never_again (w : World F64) (s : Expvar F64) (hr : ExpReach (w, s)) (hs : s.held = false) (env : Env F64) (g : Reg) (id : Nat) (hb : base g = some id) (hl : SamplesFit w)
    (hh : NoHealth w id (prefixes g).flatten) (hsn : SnapshotsReturn w env id (prefixes g).flatten) (hne : (expHandler env g (w, s)).2.1 ≠ .returns) :
    (expHandler env g (w, s)).2 = (.panics .typeAssert, none) ∧ ∀ y env' g' id' name, ExpFrom (expHandler env g (w, s)).1 y → base g' = some id' → gets y.1 id' name ≠ none →
      (prefixes g').flatten <+: name → (expHandler env' g' y).2.1 ≠ .returns ∧ (expHandler env' g' y).2.2 = none := by
  have hw : w.Ok := reach_ok hr
  obtain ⟨w', s', ⟨h1, -⟩ | ⟨h1, h2⟩⟩ := request_cases hw hs hb hh (fun name r hr hn l hlist => reads_ieee env id hw hsn hl hr hn (by
    rcases hlist with rfl | rfl
    · simp
    · exact five_ne_nan))
  · rw [h1] at hne
    exact absurd rfl hne
  · have hreach : ExpReach (expHandler env g (w, s)).1 := by
      obtain ⟨vars, h⟩ := hr
      exact ⟨vars, .request env g h⟩
    refine ⟨by rw [h1], fun y env' g' id' name hy => (C66_stuck hreach (by rw [h1]; exact h2) hy).2 env' g' id' name⟩

/-- C66 is false for registries with healthchecks: no request ever returns, from no reachable state. -/
theorem C66_health_refuted (w : World F64) (s : Expvar F64) (hr : ExpReach (w, s)) (env : Env F64) (g : Reg) (id : Nat) (hb : base g = some id) (hl : SamplesFit w) (name : Str) (r : Ref) (z : Health)
    (hg : gets w id name = some r) (hp : (prefixes g).flatten <+: name) (ho : w.objs r = some (.health z)) : (expHandler env g (w, s)).2.1 ≠ .returns := by
  intro h
  rcases (C66_returns_iff w s hr env g id hb hl).1 h with h1 | ⟨-, h2, -⟩
  · rw [h1 name hp] at hg; simp at hg
  · exact absurd (h2 name r _ hg hp ho) (by simp [isHealth])

end ieee

/-! ### Programs for which it is false -/

-- A counter "x", a request, then a GaugeFloat64 "x" in its place and another request; then a counter "y" alone.
private noncomputable def start : World F64 × Expvar F64 := (World.init, ⟨fun _ => none, false⟩)
private noncomputable def st1 : World F64 × Expvar F64 :=
  (World.init.run [(envAt 0, .new .counter), (envAt 0, .reg (.std 0) (.register [120] (.obj 0)))], start.2)
private noncomputable def st2 : World F64 × Expvar F64 := (expHandler (envAt 1) (.std 0) st1).1
private noncomputable def st3 : World F64 × Expvar F64 :=
  (st2.1.run [(envAt 2, .reg (.std 0) (.unregister [120])), (envAt 2, .new .gaugeF), (envAt 2, .reg (.std 0) (.register [120] (.obj 1)))], st2.2)
private noncomputable def st4 : World F64 × Expvar F64 := (expHandler (envAt 1) (.std 0) st3).1
private noncomputable def st5 : World F64 × Expvar F64 :=
  (st4.1.run [(envAt 4, .reg (.std 0) .unregisterAll), (envAt 4, .new .counter), (envAt 4, .reg (.std 0) (.register [121] (.obj 2)))], st4.2)

private theorem from_run {F : Type} [GoFloat F] [GoSqrt F] [GoExp F] {y0 : World F × Expvar F} (h : List (Env F × Op F)) : ∀ {w : World F} {s : Expvar F}, ExpFrom y0 (w, s) → ExpFrom y0 (w.run h, s) := by
  induction h with
  | nil => exact fun h => h
  | cons a h ih => exact fun h' => ih (.op a.1 a.2 h')

private def returned : Ending → Bool
  | .returns => true
  | _ => false
private def assertPanic : Ending → Bool
  | .panics .typeAssert => true
  | _ => false
private def hung : Ending → Bool
  | .hangs => true
  | _ => false

/-- C66 is false when the kind of a variable changes: after a request that published the counter "x", a GaugeFloat64 takes its place; the next request panics with the mutex locked, and
from then on every request hangs, also when only a new counter "y" is registered. -/
theorem C66_kind_refuted : ∃ (y1 y2 y3 : World F64 × Expvar F64) (env : Env F64), ExpReach y1 ∧ (expHandler env (.std 0) y1).2.1 = .returns ∧
    ExpFrom (expHandler env (.std 0) y1).1 y2 ∧ NoHealth y2.1 0 [] ∧ (expHandler env (.std 0) y2).2.1 = .panics .typeAssert ∧
    ExpFrom (expHandler env (.std 0) y2).1 y3 ∧ (∃ r c, gets y3.1 0 [121] = some r ∧ y3.1.objs r = some (.counter c) ∧ ∀ n, n ≠ [121] → gets y3.1 0 n = none) ∧ (expHandler env (.std 0) y3).2.1 = .hangs := by
  have hret : ∀ e : Ending, returned e = true → e = .returns := by intro e h; cases e <;> simp [returned] at h; rfl
  have hpan : ∀ e : Ending, assertPanic e = true → e = .panics .typeAssert := by
    intro e h
    unfold assertPanic at h
    split at h <;> simp at h
    rfl
  have hhung : ∀ e : Ending, hung e = true → e = .hangs := by intro e h; cases e <;> simp [hung] at h; rfl
  refine ⟨st1, st3, st5, envAt 1, ⟨fun _ => none, from_run _ .start⟩, hret _ (by decide +kernel), from_run _ .start, ?_, hpan _ (by decide +kernel), from_run _ .start, ?_, hhung _ (by decide +kernel)⟩
  · intro name r o hr _ ho
    rw [gets_eq] at hr
    have hm := lookup_some_mem hr
    have e : st3.1.regs 0 = [([120], 1)] := by decide +kernel
    rw [e] at hm
    simp only [List.mem_singleton, Prod.mk.injEq] at hm
    obtain ⟨-, rfl⟩ := hm
    have : (st3.1.objs 1).any isHealth = false := by decide +kernel
    rw [ho] at this
    exact this
  · have e : st5.1.regs 0 = [([121], 2)] := by decide +kernel
    refine ⟨2, ?_⟩
    have hc : ∃ c, st5.1.objs 2 = some (.counter c) := ⟨_, rfl⟩
    obtain ⟨c, hc⟩ := hc
    refine ⟨c, by rw [gets_eq, e]; rfl, hc, fun n hn => ?_⟩
    rw [gets_eq, e]
    have : ([121] == n) = false := by simpa using Ne.symm hn
    simp [lookup, this]

-- A histogram "a" with one value and a counter "a.count" with the value 7.
private noncomputable def clash : World F64 × Expvar F64 :=
  (World.init.run [(envAt 0, .new (.uniform 4)), (envAt 0, .new (.hist 0)), (envAt 0, .new .counter), (envAt 0, .call 1 (.update 5)), (envAt 0, .call 2 (.inc 7)),
    (envAt 0, .reg (.std 0) (.register (bytes "a") (.obj 1))), (envAt 0, .reg (.std 0) (.register (bytes "a.count") (.obj 2)))], start.2)

private def varInt : Option (Var F64) → Option Int64
  | some (.int n) => some n
  | _ => none

/-- C66, names: a counter "a.count" and the count of a histogram "a" share one variable. The request returns, and the variable shows 1, the count of the histogram; the counter's value 7
is not shown. -/
theorem C66_collision_refuted : ∃ (y : World F64 × Expvar F64) (env : Env F64) (r1 r2 : Ref) (o1 o2 : Obj F64), ExpReach y ∧ (expHandler env (.std 0) y).2.1 = .returns ∧
    Owns y.1 0 [] (bytes "a.count") (bytes "a.count") r1 o1 "" ∧ Owns y.1 0 [] (bytes "a.count") (bytes "a") r2 o2 "count" ∧
    (∀ x, ShowsVar y.1 env r1 o1 "" x → x = .int 7) ∧ (expHandler env (.std 0) y).1.2.vars (bytes "a.count") = some (.int 1) := by
  have hret : ∀ e : Ending, returned e = true → e = .returns := by intro e h; cases e <;> simp [returned] at h; rfl
  have hvar : ∀ (v : Option (Var F64)) n, varInt v = some n → v = some (.int n) := by
    intro v n h
    unfold varInt at h
    split at h
    · cases h; rfl
    · simp at h
  have g1 : gets clash.1 0 (bytes "a.count") = some 2 := by rw [gets_eq]; decide +kernel
  have g2 : gets clash.1 0 (bytes "a") = some 1 := by rw [gets_eq]; decide +kernel
  obtain ⟨o1, h1⟩ : ∃ c, clash.1.objs 2 = some (.counter c) := ⟨_, rfl⟩
  obtain ⟨o2, h2⟩ : ∃ c, clash.1.objs 1 = some (.hist c) := ⟨_, rfl⟩
  refine ⟨clash, envAt 1, 2, 1, .counter o1, .hist o2, ⟨fun _ => none, from_run _ .start⟩, hret _ (by decide +kernel), ⟨g1, by simp, h1, by simp [expLabels], by decide +kernel⟩,
    ⟨g2, by simp, h2, by simp [expLabels, distributionVars], by decide +kernel⟩, ?_, hvar _ _ (by decide +kernel)⟩
  rintro x ⟨c, v, h3, h4, h5⟩
  simp only [means, Option.some.injEq] at h3
  subst h3
  have h6 := h4.2 (by simp)
  have h7 : observe (checked (envAt 1) clash.1 2) (envAt 1) 2 .count = .ok (.int 7) := by rfl
  rw [h7] at h6
  have h8 : v = .int 7 := h6
  rw [h5, h8]
  rfl

/-! ### An example of the good case: a histogram "h" and a counter "c". -/

private noncomputable def good : World F64 × Expvar F64 :=
  (World.init.run [(envAt 0, .new (.uniform 4)), (envAt 0, .new (.hist 0)), (envAt 0, .new .counter), (envAt 0, .call 1 (.update 5)), (envAt 0, .call 2 (.inc 7)),
    (envAt 0, .reg (.std 0) (.register (bytes "h") (.obj 1))), (envAt 0, .reg (.std 0) (.register (bytes "c") (.obj 2)))], start.2)
private def goodKind (n : Str) : Option Bool := some (n == bytes "c" || n == bytes "h.count")

private theorem run_run {F : Type} [GoFloat F] [GoSqrt F] [GoExp F] {kind : Str → Option Bool} (h : List (Env F × Op F)) : ∀ {w : World F} {s : Expvar F}, ExpRun kind (w, s) → ExpRun kind (w.run h, s) := by
  induction h with
  | nil => exact fun h => h
  | cons a h ih => exact fun h' => ih (.op a.1 a.2 h')

private theorem good_regs : good.1.regs 0 = [(bytes "c", 2), (bytes "h", 1)] := by decide +kernel
private theorem good_objs {name : Str} {r : Ref} {o : Obj F64} (hr : gets good.1 0 name = some r) (ho : good.1.objs r = some o) :
    (name = bytes "c" ∧ r = 2 ∧ ∃ c, o = .counter c) ∨ (name = bytes "h" ∧ r = 1 ∧ ∃ c, o = .hist c) := by
  rw [gets_eq] at hr
  have hm := lookup_some_mem hr
  rw [good_regs] at hm
  simp only [List.mem_cons, Prod.mk.injEq, List.not_mem_nil, or_false] at hm
  obtain ⟨c1, h1⟩ : ∃ c, good.1.objs 2 = some (.counter c) := ⟨_, rfl⟩
  obtain ⟨c2, h2⟩ : ∃ c, good.1.objs 1 = some (.hist c) := ⟨_, rfl⟩
  rcases hm with ⟨rfl, rfl⟩ | ⟨rfl, rfl⟩
  · rw [h1] at ho; cases ho; exact .inl ⟨rfl, rfl, _, rfl⟩
  · rw [h2] at ho; cases ho; exact .inr ⟨rfl, rfl, _, rfl⟩
private theorem good_health : NoHealth good.1 0 [] := by
  intro name r o hr _ ho
  rcases good_objs hr ho with ⟨-, -, c, rfl⟩ | ⟨-, -, c, rfl⟩ <;> rfl
private theorem good_snapshots : SnapshotsReturn good.1 (envAt 1) 0 [] := by
  intro name r o hr _ ho hd
  rcases good_objs hr ho with ⟨-, rfl, c, rfl⟩ | ⟨-, rfl, c, rfl⟩
  · simp [isDistribution] at hd
  · exact ⟨_, rfl⟩
private theorem good_fit : SamplesFit good.1 := by
  intro r vs hv
  by_cases hr : r < 3
  · have : ∀ r < 3, ((recorded good.1 r).map List.length).getD 0 ≤ 4 := by decide +kernel
    have := this r hr
    rw [hv] at this
    have h2 : (vs.length : Int) ≤ 4 := by simpa using this
    exact h2.trans (by decide)
  · have : good.1.objs r = none := (run_ok _).obj r (by
      have : good.1.nextObj = 3 := by decide +kernel
      exact this ▸ Nat.le_of_not_lt hr)
    simp [recorded, histRecorded, this] at hv
private theorem good_kinds : Kinds goodKind good.1 0 [] := by
  rintro n name r o label ⟨hr, -, ho, hl, rfl⟩
  rcases good_objs hr ho with ⟨rfl, -, c, rfl⟩ | ⟨rfl, -, c, rfl⟩
  · simp only [expLabels, List.mem_singleton] at hl
    subst hl
    exact (by decide +kernel : goodKind (varName (bytes "c") "") = some true)
  · have : ∀ l ∈ distributionVars, goodKind (varName (bytes "h") l) = some (l == "count") := by decide +kernel
    exact this label hl
private theorem good_run : ExpRun goodKind good := run_run _ (.init (by intro n x b hx; simp at hx))

/-- The hypotheses of C66_partial can be met, also after a first request, and so can those of C66_unique. -/
example : ∃ w' s', expHandler (envAt 1) (.std 0) good = ((w', s'), .returns, some s'.vars) ∧ Published good.1 (envAt 1) 0 [] good.2.vars s'.vars := by
  obtain ⟨w', s', h1, h2, -⟩ := C66_partial goodKind good.1 good.2 good_run (envAt 1) (.std 0) 0 rfl good_health good_snapshots good_fit good_kinds
  exact ⟨w', s', h1, h2⟩
example : ExpRun goodKind (expHandler (envAt 1) (.std 0) good).1 := .request (envAt 1) (.std 0) 0 good_run rfl good_health good_snapshots good_fit good_kinds
example : varInt ((expHandler (envAt 1) (.std 0) good).1.2.vars (bytes "c")) = some 7 := by decide +kernel
-- The mutex is left locked in a reachable state (C66_stuck).
example : ExpReach st4 ∧ st4.2.held = true := ⟨⟨fun _ => none, .request _ _ (from_run _ (.request _ _ (from_run _ .start)))⟩, by decide +kernel⟩
-- A healthcheck in the registry (C66_health_refuted).
private noncomputable def sick : World F64 × Expvar F64 := (World.init.run [(envAt 0, .new (.health 0)), (envAt 0, .reg (.std 0) (.register (bytes "x") (.obj 0)))], start.2)
example : ExpReach sick ∧ gets sick.1 0 (bytes "x") = some 0 ∧ (sick.1.objs 0).any isHealth = true :=
  ⟨⟨fun _ => none, from_run _ .start⟩, by rw [gets_eq]; decide +kernel, by decide +kernel⟩

end GoMetrics
