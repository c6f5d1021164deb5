import Verif.Lemmas.WorldEffect

/-! Property theorem C37 (which meters the shared clock ticks). -/

set_option linter.unusedSimpArgs false
set_option linter.unnecessarySeqFocus false
set_option linter.unusedSectionVars false
set_option linter.unnecessarySimpa false

namespace GoMetrics
open Spec

variable {F : Type} [GoFloat F] [GoSqrt F] [GoExp F]

/-! ### The tick -/

/-- C37: in every reachable state, a tick of the shared clock ticks every live meter exactly once and changes nothing else. -/
theorem C37_tick (h : List (Env F × Op F)) (env : Env F) :
    ∃ w' : World F, step env .tick (World.init.run h) = (w', .ok (.out .unit)) ∧
      (∀ r m, (World.init.run h).objs r = some (.meter (.std m)) → m.stopped = false → w'.objs r = some (.meter (.std (m.tick env.now)))) ∧
      (∀ r, ¬ live (World.init.run h) r → w'.objs r = (World.init.run h).objs r) ∧
      w' = { (World.init.run h) with objs := w'.objs } := by
  have hw := run_ok h (F := F)
  generalize World.init.run h = w at *
  classical
  refine ⟨{ w with objs := fun q => if live w q then tickObj env.now (w.objs q) else w.objs q }, ?_, ?_, ?_, rfl⟩
  · show (tickMeters env >>= fun _ => pure (OpOut.out Out.unit)) w = _
    rw [act_bind, tickMeters_eq env w hw]
    rfl
  · intro r m hr hs
    have : live w r := ⟨m, hr, hs⟩
    simp [this, hr, tickObj, Meter.tick]
  · intro r hr
    simp [hr]

/-! ### Who is live -/

private theorem callMeter_stop_live (env : Env F) {r : Ref} {w : World F} {m : StandardMeter F} (hr : w.objs r = some (.meter (.std m))) :
    ∃ m', (callMeter env r .stop w).1.objs r = some (.meter (.std m')) ∧ m'.stopped = true := by
  rw [callMeter, act_bind_getObj, hr]
  cases hs : m.stopped with
  | true => exact ⟨m, by simp only [meterCall, hs, if_true]; exact hr, hs⟩
  | false => exact ⟨m.stop, by simp only [meterCall, hs]; exact Function.update_self .., rfl⟩

private theorem stop_stops (env : Env F) {x r : Ref} {w : World F} {m : StandardMeter F} (hr : w.objs r = some (.meter (.std m)))
    (hx : stopTarget w x r) : ∃ m', (call env x .stop w).1.objs r = some (.meter (.std m')) ∧ m'.stopped = true := by
  rcases hx with rfl | ⟨h, hx⟩
  · have := callMeter_stop_live env hr
    rw [callMeter, act_bind_getObj, hr] at this
    rw [call_obj hr]
    exact this
  · rw [call_obj hx]
    exact callMeter_stop_live env hr

private theorem unregister_stops (env : Env F) {id : Nat} {name : Str} {x r : Ref} {w : World F} (hw : w.Ok) {m : StandardMeter F}
    (hr : w.objs r = some (.meter (.std m))) (hx : (name, x) ∈ w.regs id) (ht : stopTarget w x r) :
    ∃ m', (unregister env id name w).1.objs r = some (.meter (.std m')) ∧ m'.stopped = true := by
  have hl := lookup_of_mem (hw.keys id) hx
  rw [unregister_eq]
  show ∃ m', (stopState env id name w).objs r = _ ∧ _
  unfold stopState
  rw [hl]
  rcases ht with rfl | ⟨h, ho⟩
  · simp only [hr, Obj.stoppable, if_true]
    exact stop_stops env hr (.inl rfl)
  · simp only [ho, Obj.stoppable, if_true]
    exact stop_stops env hr (.inr ⟨h, ho⟩)

private theorem runAll_unregister_stops (env : Env F) {id : Nat} (names : List Str) {name : Str} {x r : Ref} {w : World F} (hw : w.Ok) {m : StandardMeter F}
    (hr : w.objs r = some (.meter (.std m))) (hx : (name, x) ∈ w.regs id) (hn : name ∈ names) (ht : stopTarget w x r) :
    ∃ m', (runAll (unregister env id) names w).1.objs r = some (.meter (.std m')) ∧ m'.stopped = true := by
  induction names generalizing w m with
  | nil => simp at hn
  | cons n names ih =>
    have e : runAll (unregister env id) (n :: names) w = runAll (unregister env id) names (unregister env id n w).1 := by
      rw [runAll, act_bind, unregister_eq]
    rw [e]
    obtain ⟨h1, h2⟩ := unregister_safe (S := fun _ => True) env id n w hw fun r _ => stopsIn_all r w
    rcases eq_or_ne n name with rfl | hne
    · obtain ⟨m', h3, h4⟩ := unregister_stops env hw hr hx ht
      have h5 := (runAll_unregister_safe (S := fun _ => True) env id names _ h1 fun e _ => stopsIn_all e.2 _).2
      exact ⟨m', stopped_le h5 h3 h4, h4⟩
    · have hn' : name ∈ names := by simpa [hne.symm] using hn
      obtain ⟨m', h3⟩ : ∃ m', (unregister env id n w).1.objs r = some (.meter (.std m')) := by
        cases hs : m.stopped with
        | true => exact ⟨m, stopped_le h2 hr hs⟩
        | false =>
          obtain ⟨o', h3, h4 | ⟨-, h4, -⟩⟩ := h2.live r _ .meter hr (by simp [Obj.live, hs])
          · obtain ⟨m', h5, -⟩ := (live_iff (unregister env id n w).1 r).2 ⟨o', h3, h4⟩
            exact ⟨m', h5⟩
          · cases o' with
            | meter y =>
              cases y with
              | std m' => exact ⟨m', h3⟩
              | _ => simp [Obj.stoppedMeter] at h4
            | _ => simp [Obj.stoppedMeter] at h4
      refine ih h1 h3 ?_ hn' ?_
      · rw [regs_unregister, Function.update_self]
        exact List.mem_filter.2 ⟨hx, by simp [hne.symm]⟩
      · rcases ht with rfl | ⟨h, ho⟩
        · exact .inl rfl
        · exact .inr ⟨h, h2.frozen x _ ho rfl⟩

/-- C37: one call (of any kind, on anything, in any reachable state): a live meter stays live exactly if the call does not stop it. -/
theorem C37_step (h : List (Env F × Op F)) (env : Env F) (o : Op F) (r : Ref) (hr : live (World.init.run h : World F) r) :
    live (step env o (World.init.run h)).1 r ↔ ¬ stops (World.init.run h) o r := by
  have hw := run_ok h (F := F)
  generalize World.init.run h = w at *
  obtain ⟨m, hm, hms⟩ := hr
  constructor
  · intro hl hs
    cases o with
    | call x c =>
      cases c <;> simp only [stops] at hs
      rw [step_call_fst] at hl
      obtain ⟨m', h1, h2⟩ := stop_stops env hm hs
      exact stopped_not_live h1 h2 hl
    | reg g o =>
      cases o with
      | unregister name =>
        obtain ⟨id, x, hb, hx, ht⟩ := hs
        have e : (step env (.reg g (.unregister name)) w).1 = (unregister env id (fullName g name) w).1 := by
          show ((regCall env g (.unregister name) >>= fun o => pure (OpOut.reg o)) w).1 = _
          rw [(regCall_prefix env g).2.2.2.1 name, hb]
          show ((((do unregister env id (fullName g name); return .unit : Act F (RegOut F))) >>= fun o => pure (OpOut.reg o)) w).1 = _
          simp only [act_bind, unregister_eq, act_pure]
        rw [e] at hl
        obtain ⟨m', h1, h2⟩ := unregister_stops env hw hm hx ht
        exact stopped_not_live h1 h2 hl
      | unregisterAll =>
        obtain ⟨id, name, x, hb, hx, ht⟩ := hs
        have e : (step env (.reg g .unregisterAll) w).1 = (runAll (unregister env id) (env.order ((w.regs id).map (·.1))) w).1 := by
          show ((regCall env g .unregisterAll >>= fun o => pure (OpOut.reg o)) w).1 = _
          rw [(regCall_prefix env g).2.2.2.2.1, hb]
          show ((((do unregisterAll env id; return .unit : Act F (RegOut F))) >>= fun o => pure (OpOut.reg o)) w).1 = _
          have := (runAll_unregister env id (env.order ((w.regs id).map (·.1))) w).1
          simp only [act_bind, unregisterAll, act_getReg]
          generalize runAll (unregister env id) (env.order ((w.regs id).map (·.1))) w = y at *
          obtain ⟨w', _ | a⟩ := y <;> rfl
        rw [e] at hl
        obtain ⟨m', h1, h2⟩ := runAll_unregister_stops env (env.order ((w.regs id).map (·.1))) hw hm hx ((env.order_perm _).mem_iff.2 (List.mem_map.2 ⟨_, hx, rfl⟩)) ht
        exact stopped_not_live h1 h2 hl
      | _ => simp [stops] at hs
    | _ => simp [stops] at hs
  · intro hs
    have hl : live w r := ⟨m, hm, hms⟩
    by_cases ho : o.noStop
    · exact live_le (step_safe (S := fun _ => False) env o (.inl ho) w hw trivial).2 hl id
    · cases o with
      | call x c =>
        cases c <;> simp only [Op.noStop, not_true] at ho
        rw [step_call_fst]
        exact live_le (call_safe (S := stopTarget w x) env x .stop w hw fun _ => ⟨.inl rfl, fun a b hx => .inr ⟨a, hx⟩⟩).2 hl hs
      | reg g o =>
        cases o with
        | unregister name =>
          cases hb : base g with
          | none =>
            have e : (step env (.reg g (.unregister name)) w).1 = w := by
              show ((regCall env g (.unregister name) >>= fun o => pure (OpOut.reg o)) w).1 = _
              rw [(regCall_prefix env g).2.2.2.1 name, hb]; rfl
            rw [e]; exact hl
          | some id =>
            have e : (step env (.reg g (.unregister name)) w).1 = (unregister env id (fullName g name) w).1 := by
              show ((regCall env g (.unregister name) >>= fun o => pure (OpOut.reg o)) w).1 = _
              rw [(regCall_prefix env g).2.2.2.1 name, hb]
              show ((((do unregister env id (fullName g name); return .unit : Act F (RegOut F))) >>= fun o => pure (OpOut.reg o)) w).1 = _
              simp only [act_bind, unregister_eq, act_pure]
            rw [e]
            refine live_le (unregister_safe (S := fun y => ∃ x, (fullName g name, x) ∈ w.regs id ∧ stopTarget w x y) env id (fullName g name) w hw ?_).2 hl ?_
            · exact fun x hx => ⟨⟨x, lookup_some_mem hx, .inl rfl⟩, fun a b hb => ⟨x, lookup_some_mem hx, .inr ⟨a, hb⟩⟩⟩
            · rintro ⟨x, hx, ht⟩
              exact hs ⟨id, x, hb, hx, ht⟩
        | unregisterAll =>
          cases hb : base g with
          | none =>
            have e : (step env (.reg g .unregisterAll) w).1 = w := by
              show ((regCall env g .unregisterAll >>= fun o => pure (OpOut.reg o)) w).1 = _
              rw [(regCall_prefix env g).2.2.2.2.1, hb]; rfl
            rw [e]; exact hl
          | some id =>
            have e : (step env (.reg g .unregisterAll) w).1 = (unregisterAll env id w).1 := by
              show ((regCall env g .unregisterAll >>= fun o => pure (OpOut.reg o)) w).1 = _
              rw [(regCall_prefix env g).2.2.2.2.1, hb]
              show ((((do unregisterAll env id; return .unit : Act F (RegOut F))) >>= fun o => pure (OpOut.reg o)) w).1 = _
              simp only [act_bind]
              rcases unregisterAll env id w with ⟨w', _ | a⟩ <;> rfl
            rw [e]
            refine live_le (unregisterAll_safe' (S := fun y => ∃ e ∈ w.regs id, stopTarget w e.2 y) env id w hw ?_).2 hl ?_
            · exact fun e he => ⟨⟨e, he, .inl rfl⟩, fun a b hb => ⟨e, he, .inr ⟨a, hb⟩⟩⟩
            · rintro ⟨e, he, ht⟩
              exact hs ⟨id, e.1, e.2, hb, he, ht⟩
        | _ => simp [Op.noStop, RegOp.noStop] at ho
      | _ => simp [Op.noStop] at ho

/-- C37: after any history, a meter that was live is live exactly if no call of the history stopped it. -/
theorem C37_history (h later : List (Env F × Op F)) (r : Ref) (hr : live (World.init.run h : World F) r) :
    live (World.init.run (h ++ later)) r ↔
      ∀ l1 env o l2, later = l1 ++ (env, o) :: l2 → ¬ stops (World.init.run (h ++ l1) : World F) o r := by
  induction later using List.reverseRecOn with
  | nil => simp [hr]
  | append_singleton later x ih =>
    obtain ⟨env, o⟩ := x
    rw [← List.append_assoc, World.run_append]
    by_cases hl : live (World.init.run (h ++ later) : World F) r
    · have h1 := C37_step (h ++ later) env o r hl
      show live (step env o (World.init.run (h ++ later))).1 r ↔ _
      rw [h1]
      constructor
      · intro hs l1 env' o' l2 e
        rcases List.eq_nil_or_concat l2 with rfl | ⟨l3, y, rfl⟩
        · have := List.append_inj' e rfl
          obtain ⟨rfl, e2⟩ := this
          simp only [List.cons.injEq, Prod.mk.injEq, and_true] at e2
          obtain ⟨rfl, rfl⟩ := e2
          exact hs
        · rw [List.concat_eq_append, ← List.cons_append, ← List.append_assoc] at e
          have := List.append_inj' e rfl
          exact (ih.1 hl) l1 env' o' l3 this.1
      · intro hs
        exact hs later env o [] rfl
    · refine iff_of_false ?_ ?_
      · intro hc
        have h2 : ∃ l1 env o l2, later = l1 ++ (env, o) :: l2 ∧ stops (World.init.run (h ++ l1) : World F) o r := by
          have := mt ih.2 hl
          push Not at this
          obtain ⟨l1, e, o, l2, h3, h4⟩ := this
          exact ⟨l1, e, o, l2, h3, h4⟩
        -- a meter that is not live any more is a stopped one, and stays so
        have hle : (World.init.run h : World F).Leq (World.init.run (h ++ later)) := by
          rw [World.run_append]; exact ((run_ok h).run later).2
        obtain ⟨o1, h5, h6⟩ := (live_iff _ r).1 hr
        obtain ⟨o', h7, h8 | ⟨-, h8, -⟩⟩ := hle.live r o1 _ h5 h6
        · exact hl ((live_iff _ r).2 ⟨o', h7, h8⟩)
        · have h9 := ((run_ok (h ++ later) (F := F)).run [(env, o)]).2.frozen r o' h7 (stoppedMeter_live h8)
          obtain ⟨o2, h10, h11⟩ := (live_iff _ r).1 hc
          rw [h9] at h10
          simp only [Option.some.injEq] at h10
          subst h10
          rw [stoppedMeter_live h8] at h11
          simp at h11
      · intro hs
        apply hl
        rw [ih]
        intro l1 env' o' l2 e
        exact hs l1 env' o' (l2 ++ [(env, o)]) (by rw [e]; simp)

/-- C37: `NewMeter` and `NewTimer` (without `UseNilMetrics`) schedule their meter; the clock is then running. -/
theorem C37_new (h : List (Env F × Op F)) (hn : (World.init.run h : World F).useNil = false) (env : Env F) :
    (∃ w1 r, construct env .meter (World.init.run h) = (w1, .ok r) ∧ (World.init.run h : World F).objs r = none ∧ live w1 r ∧ w1.started = true) ∧
    (∃ w1 r a m, construct env .timer (World.init.run h) = (w1, .ok r) ∧ w1.objs r = some (.timer (.std a m)) ∧
      (World.init.run h : World F).objs m = none ∧ live w1 m ∧ w1.started = true) := by
  have hw := run_ok h (F := F)
  generalize World.init.run h = w at *
  constructor
  · refine ⟨_, _, newMeter_eq env w hn, hw.obj w.nextObj (le_refl _), ⟨_, Function.update_self .., rfl⟩, rfl⟩
  · obtain ⟨s, -, h1⟩ := newTimer_eq env w hn
    refine ⟨_, _, _, _, h1, Function.update_self .., hw.obj (w.nextObj + 2) (by omega), ⟨StandardMeter.new env.now, ?_, rfl⟩, rfl⟩
    show timerObjs env s w (w.nextObj + 2) = _
    rw [timerObjs, Function.update_of_ne (by omega), Function.update_self]

/-- C37: a stopped meter never changes again, so neither do its count and rates, whatever happens later. -/
theorem C37_stopped (h : List (Env F × Op F)) (r : Ref) (m : StandardMeter F) (hr : (World.init.run h).objs r = some (.meter (.std m)))
    (hs : m.stopped = true) (later : List (Env F × Op F)) :
    (World.init.run (h ++ later)).objs r = some (.meter (.std m)) ∧
      ∀ env env' c, accessor c = true → observe (World.init.run (h ++ later)) env' r c = observe (World.init.run h) env r c := by
  rw [World.run_append]
  have h1 := stopped_le ((run_ok h (F := F)).run later).2 hr hs
  refine ⟨h1, fun env env' c hc => ?_⟩
  rw [read_obj h1 c hc, read_obj hr c hc]
  cases c <;> rfl

/-! Two meters and a timer (whose meter is object 4); one meter is stopped directly, the timer's by `Unregister` through a prefixed registry. -/

private def clockHistory : List (Env F × Op F) :=
  [(envAt 0, .new .meter), (envAt 0, .new .meter), (envAt 0, .new .timer), (envAt 1, .reg (.std 0) (.register [97, 98] (.obj 5))),
   (envAt 2, .tick), (envAt 3, .call 0 .stop)]

example : live (World.init.run clockHistory : World F) 1 ∧ live (World.init.run clockHistory : World F) 4 := ⟨⟨_, rfl, rfl⟩, ⟨_, rfl, rfl⟩⟩
example : ∃ m, (World.init.run clockHistory : World F).objs 0 = some (.meter (.std m)) ∧ m.stopped = true := ⟨_, rfl, rfl⟩
example : stops (World.init.run clockHistory : World F) (.reg (.prefixed (.std 0) [97]) (.unregister [98])) 4 :=
  ⟨0, 5, rfl, List.mem_singleton.2 rfl, .inr ⟨3, rfl⟩⟩
example : ¬ stops (World.init.run clockHistory : World F) (.reg (.prefixed (.std 0) [97]) (.unregister [98])) 1 := by
  rintro ⟨id, x, h1, h2, h3 | ⟨h, h3⟩⟩
  · cases h1
    have : (World.init.run clockHistory : World F).regs 0 = [([97, 98], 5)] := rfl
    simp [fullName, this] at h2
    omega
  · cases h1
    have : (World.init.run clockHistory : World F).regs 0 = [([97, 98], 5)] := rfl
    simp [fullName, this] at h2
    subst h2
    have : (World.init.run clockHistory : World F).objs 5 = some (.timer (.std 3 4)) := rfl
    rw [this] at h3
    simp at h3

end GoMetrics
