import Verif.Lemmas.Leak
import Verif.Props.GetAll

/-! Property theorem C108: the shared clock holds no meters that nobody needs. -/

set_option linter.unusedSimpArgs false
set_option linter.unusedSectionVars false

namespace GoMetrics
open Spec

variable {F : Type} [GoFloat F] [GoSqrt F] [GoExp F]

/-- C108: a meter that the shared clock ticks is bound to a name of a registry (itself, or as the meter of a timer), or comes from a call of `NewMeter` or `NewTimer` that the program made itself. -/
theorem C108_origin (h : List (Env F × Op F)) (m : Ref) (hm : m ∈ (World.init.run h : World F).meters) :
    held (World.init.run h : World F) m ∨
      ∃ l1 env o l2, h = l1 ++ (env, o) :: l2 ∧ makesMeter o = true ∧ m ∉ (World.init.run l1 : World F).meters ∧ m ∈ (World.init.run (l1 ++ [(env, o)]) : World F).meters := by
  induction h using List.reverseRecOn with
  | nil => cases hm
  | append_singleton h x ih =>
    obtain ⟨env, o⟩ := x
    have hw : (World.init.run h : World F).Ok := run_ok h
    have e : (World.init.run (h ++ [(env, o)]) : World F) = (step env o (World.init.run h)).1 := by rw [World.run_append]; rfl
    have hw' : (step env o (World.init.run h : World F)).1.Ok := (hw.step env o).1
    by_cases h0 : m ∈ (World.init.run h : World F).meters
    · rcases ih h0 with h1 | ⟨l1, env', o', l2, h1, h2⟩
      · rw [e] at hm ⊢
        exact .inl (held_step h env o ((meters_live hw m).1 h0) h1 ((meters_live hw' m).1 hm))
      · exact .inr ⟨l1, env', o', l2 ++ [(env, o)], by rw [h1]; simp, h2⟩
    · rw [e] at hm
      rcases step_born hw env o hm h0 with h1 | h1
      · exact .inr ⟨h, env, o, [], rfl, h1, h0, by rw [e]; exact hm⟩
      · rw [e]; exact .inl h1

/-- C108: if meters and timers are only made by registries (`GetOrRegisterMeter`, `GetOrRegisterTimer`, `GetOrRegister` with a function), the clock ticks no meter that is not registered. -/
theorem C108_held (h : List (Env F × Op F)) (hh : ∀ x ∈ h, makesMeter x.2 = false) (m : Ref) (hm : m ∈ (World.init.run h : World F).meters) : held (World.init.run h : World F) m := by
  rcases C108_origin h m hm with h1 | ⟨l1, env, o, l2, h1, h2, -⟩
  · exact h1
  · have := hh (env, o) (by rw [h1]; simp)
    rw [h2] at this
    cases this

private theorem held_unique {w : World F} {r m m' : Ref} (hl : live w m) (hl' : live w m') (h : stopTarget w r m) (h' : stopTarget w r m') : m = m' := by
  obtain ⟨s, hs, -⟩ := hl
  obtain ⟨s', hs', -⟩ := hl'
  rcases h with rfl | ⟨q, h⟩ <;> rcases h' with rfl | ⟨q', h'⟩
  · rfl
  · rw [hs] at h'; cases h'
  · rw [hs'] at h; cases h
  · rw [h] at h'; cases h'; rfl

private theorem other_registry {id : Nat} {h : List (Env F × Op F)} (ho : onlyRegistry id h) {id' : Nat} {name : Str} {r : Ref} (hg : gets (World.init.run h : World F) id' name = some r) : id' = id := by
  induction h using List.reverseRecOn with
  | nil => cases hg
  | append_singleton h x ih =>
    obtain ⟨env, o⟩ := x
    rw [World.run_append] at hg
    rcases (step_gets env o _ id' name r).1 hg with h1 | ⟨h1, -⟩
    · cases o with
      | reg g o =>
        have := ho (env, .reg g o) (by simp) g o rfl
        rw [h1.1] at this
        exact Option.some.inj this
      | _ => exact h1.elim
    · exact ih (fun x hx => ho x (by simp [hx])) h1

/-- C108: the clock then never ticks more meters than there are names in the registry. -/
theorem C108_bound (h : List (Env F × Op F)) (hh : ∀ x ∈ h, makesMeter x.2 = false) (id : Nat) (ho : onlyRegistry id h) :
    ∃ names : List Str, names.Nodup ∧ (∀ name ∈ names, ∃ r, gets (World.init.run h : World F) id name = some r) ∧ (World.init.run h : World F).meters.length ≤ names.length := by
  have hw : (World.init.run h : World F).Ok := run_ok h
  refine ⟨((World.init.run h : World F).regs id).map Prod.fst, hw.keys id, fun name hn => ?_, ?_⟩
  · obtain ⟨e, he, rfl⟩ := List.mem_map.1 hn
    exact ⟨e.2, by rw [gets_eq]; exact lookup_of_mem (hw.keys id) he⟩
  · have key : ∀ m ∈ (World.init.run h : World F).meters, ∃ name ∈ ((World.init.run h : World F).regs id).map Prod.fst,
        ∃ r, gets (World.init.run h : World F) id name = some r ∧ stopTarget (World.init.run h : World F) r m := by
      intro m hm
      obtain ⟨id', name, r, h1, h2⟩ := C108_held h hh m hm
      obtain rfl := other_registry ho h1
      exact ⟨name, List.mem_map.2 ⟨(name, r), by rw [gets_eq] at h1; exact lookup_some_mem h1, rfl⟩, r, h1, h2⟩
    classical
    choose! f hf using key
    have h1 : ((World.init.run h : World F).meters.map f).Nodup := by
      refine List.Nodup.map_on (fun m hm m' hm' e => ?_) hw.nodup
      obtain ⟨-, r, h1, h2⟩ := hf m hm
      obtain ⟨-, r', h1', h2'⟩ := hf m' hm'
      rw [← e, h1] at h1'
      cases h1'
      exact held_unique ((meters_live hw m).1 hm) ((meters_live hw m').1 hm') h2 h2'
    have h2 : (World.init.run h : World F).meters.map f ⊆ ((World.init.run h : World F).regs id).map Prod.fst := by
      intro x hx
      obtain ⟨m, hm, rfl⟩ := List.mem_map.1 hx
      exact (hf m hm).1
    have h3 := (List.subperm_of_subset h1 h2).length_le
    simpa using h3

/-- C108: and none after `UnregisterAll`. -/
theorem C108_empty (h : List (Env F × Op F)) (hh : ∀ x ∈ h, makesMeter x.2 = false) (id : Nat) (ho : onlyRegistry id h) (env : Env F) (g : Reg) (hb : base g = some id) :
    (World.init.run (h ++ [(env, .reg g .unregisterAll)]) : World F).meters = [] := by
  obtain ⟨names, -, h1, h2⟩ := C108_bound (F := F) (h ++ [(env, .reg g .unregisterAll)])
    (by intro x hx; rcases List.mem_append.1 hx with hx | hx
        · exact hh x hx
        · rw [List.mem_singleton.1 hx]; rfl) id
    (by intro x hx g' o' e
        rcases List.mem_append.1 hx with hx | hx
        · exact ho x hx g' o' e
        · rw [List.mem_singleton.1 hx] at e
          simp only [Op.reg.injEq] at e
          rw [← e.1]; exact hb)
  have h3 := (C53_unregisterAll (F := F) h env g id hb).2.1
  cases names with
  | nil => exact List.length_eq_zero_iff.1 (Nat.le_zero.1 h2)
  | cons n names =>
    obtain ⟨r, hr⟩ := h1 n (by simp)
    rw [World.run_append] at hr
    have := h3 id n
    rw [if_pos rfl] at this
    exact absurd (hr.symm.trans this) (by simp)

/-! ### Examples -/

/-- A meter and a timer made by the registry; the meter is asked for again, and a prefixed registry has one too. -/
def lazyHistory : List (Env F × Op F) :=
  [(envAt 0, .reg (.std 0) (.getOrRegister [109] (.ctor .meter))), (envAt 1, .reg (.std 0) (.getOrRegister [116] (.ctor .timer))),
    (envAt 2, .reg (.std 0) (.getOrRegister [109] (.ctor .meter))), (envAt 3, .reg (.prefixed (.std 0) [112, 46]) (.getOrRegister [109] (.ctor .meter))), (envAt 4, .call 0 (.mark 3)), (envAt 5, .tick)]

theorem lazy_lazy : ∀ x ∈ (lazyHistory : List (Env F × Op F)), makesMeter x.2 = false := by
  intro x hx
  simp only [lazyHistory, List.mem_cons, List.not_mem_nil, or_false] at hx
  rcases hx with rfl | rfl | rfl | rfl | rfl | rfl <;> rfl
theorem lazy_only : onlyRegistry 0 (lazyHistory : List (Env F × Op F)) := by
  intro x hx g o e
  simp only [lazyHistory, List.mem_cons, List.not_mem_nil, or_false] at hx
  rcases hx with rfl | rfl | rfl | rfl | rfl | rfl <;> simp only [Op.reg.injEq, reduceCtorEq] at e <;> rw [← e.1] <;> rfl
example : (World.init.run lazyHistory : World F64).meters = [5, 3, 0] := by decide +kernel
example : held (World.init.run lazyHistory : World F64) 3 := C108_held lazyHistory lazy_lazy 3 (by decide +kernel)
example : ∃ names : List Str, names.Nodup ∧ (∀ name ∈ names, ∃ r, gets (World.init.run lazyHistory : World F64) 0 name = some r) ∧ (World.init.run lazyHistory : World F64).meters.length ≤ names.length :=
  C108_bound lazyHistory lazy_lazy 0 lazy_only
example : (World.init.run (lazyHistory ++ [(envAt 6, .reg (.std 0) .unregisterAll)]) : World F64).meters = [] := C108_empty lazyHistory lazy_lazy 0 lazy_only (envAt 6) (.std 0) rfl

/-! ### What the program has to stop itself -/

/-- `NewRegisteredMeter` under a taken name gives a meter that no registry holds and that the clock ticks for ever: `UnregisterAll` does not stop it. -/
theorem C108_newRegistered_refuted : ∃ (h : List (Env F64 × Op F64)) (env env' : Env F64) (name : Str),
    (World.init.run h : World F64).meters = [] ∧ (step env' (.reg (.std 0) .unregisterAll) (newRegistered env .meter name none (World.init.run h)).1).1.meters ≠ [] :=
  ⟨[(envAt 0, .reg (.std 0) (.getOrRegister [97] (.ctor .counter)))], envAt 1, envAt 2, [97], by decide +kernel, by decide +kernel⟩

/-- The same for `GetOrRegister(name, NewMeter())` under a taken name: the argument is made before the name is looked up. -/
theorem C108_eager_refuted : ∃ h : List (Env F64 × Op F64), (∀ id name, gets (World.init.run h : World F64) id name = none) ∧ (World.init.run h : World F64).meters ≠ [] := by
  refine ⟨[(envAt 0, .reg (.std 0) (.getOrRegister [97] (.ctor .meter))), (envAt 1, .new .meter), (envAt 1, .reg (.std 0) (.getOrRegister [97] (.obj 1))), (envAt 2, .reg (.std 0) .unregisterAll)],
    fun id name => ?_, by decide +kernel⟩
  rcases hg : gets (World.init.run [(envAt 0, .reg (.std 0) (.getOrRegister [97] (.ctor .meter))), (envAt 1, .new .meter), (envAt 1, .reg (.std 0) (.getOrRegister [97] (.obj 1))),
      (envAt 2, .reg (.std 0) .unregisterAll)] : World F64) id name with _ | r
  · rfl
  · have := other_registry (F := F64) (id := 0) (by
      intro x hx g o e
      simp only [List.mem_cons, List.not_mem_nil, or_false] at hx
      rcases hx with rfl | rfl | rfl | rfl <;> simp only [Op.reg.injEq, reduceCtorEq] at e <;> rw [← e.1] <;> rfl) hg
    subst this
    have := (C53_unregisterAll (F := F64) [(envAt 0, .reg (.std 0) (.getOrRegister [97] (.ctor .meter))), (envAt 1, .new .meter), (envAt 1, .reg (.std 0) (.getOrRegister [97] (.obj 1)))] (envAt 2) (.std 0) 0 rfl).2.1 0 name
    rw [if_pos rfl] at this
    exact absurd (hg.symm.trans this) (by simp)

end GoMetrics
