import Verif.Spec.Leak
import Verif.Props.Clock
import Verif.Props.Registry

/-! Lemmas for C108: where the meters that the shared clock holds come from. -/

set_option linter.unusedSimpArgs false
set_option linter.unusedSectionVars false

namespace GoMetrics
open Spec

variable {F : Type} [GoFloat F] [GoSqrt F] [GoExp F]

theorem meters_live {w : World F} (hw : w.Ok) (m : Ref) : m ∈ w.meters ↔ live w m := by rw [hw.meters, live_iff]

/-- A constructor adds no meter, or the one of the meter or timer it returns. -/
theorem construct_born (env : Env F) (c : NewOp F) (w : World F) {m : Ref} (h1 : m ∈ (construct env c w).1.meters) (h0 : m ∉ w.meters) :
    (c = .meter ∨ c = .timer) ∧ ∃ r, (construct env c w).2 = .ok r ∧ stopTarget (construct env c w).1 r m := by
  have hc := closed_fewerMeters (F := F)
  have hn : NewOk (F := F) FewerMeters := fun _ _ _ h => h
  have no : ∀ {P : Prop}, FewerMeters w (construct env c w).1 → P := fun h => absurd (h m h1) h0
  cases c with
  | uniform k =>
    apply no
    simp only [construct]
    split
    · exact keeps_alloc hc _ rfl w
    · exact keeps_bind hc (keeps_lift hc _) (fun _ => keeps_alloc hc _ rfl) w
  | exp k a => exact no (newExp_keeps hc env k a w)
  | sampleSnap n a =>
    apply no
    simp only [construct]
    split
    · exact keeps_alloc hc _ rfl w
    · exact keeps_bind hc (keeps_newArr hc _ _) (fun _ => keeps_alloc hc _ rfl) w
  | hist s => exact no (newHist_keeps hc hn s w)
  | customTimer a b => exact no (newTimer_keeps hc hn a b w)
  | meter =>
    refine ⟨.inl rfl, ?_⟩
    by_cases hu : w.useNil = true
    · refine no ?_
      simp only [construct, newMeter, hu, if_true]
      exact keeps_alloc hc _ rfl w
    · rw [show construct env .meter w = newMeter env w from rfl, newMeter_eq env w (by simpa using hu)] at h1 ⊢
      rcases List.mem_cons.1 h1 with rfl | h1
      · exact ⟨_, rfl, .inl rfl⟩
      · exact absurd h1 h0
  | timer =>
    refine ⟨.inr rfl, ?_⟩
    by_cases hu : w.useNil = true
    · refine no ?_
      simp only [construct, hu, if_true]
      exact keeps_alloc hc _ rfl w
    · obtain ⟨s, -, e⟩ := newTimer_eq env w (by simpa using hu)
      rw [e] at h1 ⊢
      rcases List.mem_cons.1 h1 with rfl | h1
      · exact ⟨_, rfl, .inr ⟨_, Function.update_self ..⟩⟩
      · exact absurd h1 h0
  | _ => exact no (keeps_alloc hc _ rfl w)

theorem register_meters (id : Nat) (name : Str) (v : Val F) (w : World F) : (register id name v w).1.meters = w.meters := by
  rw [register_eq]
  split
  · rfl
  · split
    · split
      · split <;> rfl
      · rfl
    · rfl

theorem fewer_stopping {w w' : World F} {P : Ref → Prop} (hw : w.Ok) (hw' : w'.Ok) (h : Stopping P w w') : FewerMeters w w' := by
  intro m hm
  rw [meters_live hw'] at hm
  rw [meters_live hw]
  obtain ⟨s, h1, h2⟩ := hm
  rcases h m with h3 | ⟨-, s', h3, h4, -⟩
  · exact ⟨s, h3 ▸ h1, h2⟩
  · exact ⟨s', h3, h4⟩

/-- A meter that an operation adds was asked for by the program, or is bound to a name afterwards. -/
theorem step_born {w : World F} (hw : w.Ok) (env : Env F) (o : Op F) {m : Ref} (h1 : m ∈ (step env o w).1.meters) (h0 : m ∉ w.meters) :
    makesMeter o = true ∨ held (step env o w).1 m := by
  have no : ∀ {P : Prop}, FewerMeters w (step env o w).1 → P := fun h => absurd (h m h1) h0
  have hw' : (step env o w).1.Ok := (hw.step env o).1
  cases o with
  | setNil b => exact no fun _ h => h
  | new c =>
    rw [step_new_fst] at h1
    obtain ⟨rfl | rfl, -⟩ := construct_born env c w h1 h0 <;> exact .inl rfl
  | call r c => exact no (by rw [step_call_fst]; exact call_fewer env r c w)
  | slice o =>
    refine no ?_
    cases o with
    | make l => exact fun _ h => h
    | set a i v =>
      show FewerMeters w ((sliceOp (.set a i v) >>= fun o => pure (OpOut.out o)) w).1
      have e : FewerMeters w (sliceOp (F := F) (.set a i v) w).1 := by
        show FewerMeters w (if w.shared a then ({ w with arrs := Function.update w.arrs a ((w.arrs a).set i v) }, .ok .unit) else (w, .ok .illTyped) : World F × Res (Out F)).1
        split <;> exact fun _ h => h
      rw [act_bind]
      generalize sliceOp (F := F) (.set a i v) w = z at e
      obtain ⟨w', _ | a⟩ := z <;> exact e
  | tick =>
    refine no ?_
    show FewerMeters w ((tickMeters env >>= fun _ => pure (OpOut.out Out.unit)) w).1
    have := tick_fewer env w
    rw [act_bind]
    generalize tickMeters env w = z at this
    obtain ⟨w', _ | a⟩ := z <;> exact this
  | reg g o =>
    cases o with
    | unregister n =>
      refine no ?_
      rw [step_unregister_fst] at hw' ⊢
      cases hb : base g with
      | none => exact fun _ h => h
      | some id => rw [hb] at hw'; exact fewer_stopping hw hw' (unregister_stopping env id _ w)
    | unregisterAll =>
      refine no ?_
      rw [step_unregisterAll_fst] at hw' ⊢
      cases hb : base g with
      | none => exact fun _ h => h
      | some id => rw [hb] at hw'; exact fewer_stopping hw hw' (unregisterAll_stopping env id w)
    | get n =>
      refine no ?_
      rw [step_reg_fst, (regCall_prefix env g).1]
      cases hb : base g with
      | none => exact fun _ h => h
      | some id =>
        show FewerMeters w (((getReg id : Act F _) >>= _) w).1
        rw [act_bind, act_getReg]
        simp only []
        rcases lookup (w.regs id) (fullName g n) with _ | r <;> exact fun _ h => h
    | runHealthchecks =>
      refine no ?_
      rw [step_reg_fst, (regCall_prefix env g).2.2.2.2.2]
      have hc := closed_fewerMeters (F := F)
      cases hb : base g with
      | none => exact fun _ h => h
      | some id =>
        refine keeps_bind hc (keeps_bind hc (keeps_getReg hc _) fun l => keeps_runAll hc _ _ fun e _ => keeps_bind hc (keeps_getObj hc _) fun o => ?_) (fun _ => keeps_pure hc _) w
        split
        · exact keeps_bind hc (fun w => call_fewer env _ _ w) fun _ => keeps_pure hc _
        · exact keeps_pure hc _
    | register n v =>
      refine no ?_
      rw [step_reg_fst, (regCall_prefix env g).2.2.1]
      cases hb : base g with
      | none => exact fun _ h => h
      | some id =>
        intro x hx
        replace hx : x ∈ (register id (fullName g n) v w).1.meters := hx
        rwa [register_meters] at hx
    | getOrRegister n v =>
      cases hb : base g with
      | none =>
        refine no ?_
        rw [step_reg_fst, (regCall_prefix env g).2.1, hb]
        exact fun _ h => h
      | some id =>
        have e : (step env (.reg g (.getOrRegister n v)) w).1 = (getOrRegister env id (fullName g n) v w).1 := by
          rw [step_reg_fst, (regCall_prefix env g).2.1, hb]; rfl
        rw [e] at h1 hw' ⊢
        rw [getOrRegister_eq] at h1
        rcases hl : lookup (w.regs id) (fullName g n) with _ | q
        · rw [hl] at h1
          cases v with
          | obj r => rw [register_meters] at h1; exact absurd h1 h0
          | ctor c =>
            simp only [] at h1
            have hf : gets w id (baseName g n) = none := by rw [gets_eq, ← fullName_eq]; exact hl
            rcases hx : construct env c w with ⟨w1, p | r⟩
            · rw [hx] at h1
              obtain ⟨-, r, h2, -⟩ := construct_born env c w (by rw [hx]; exact h1) h0
              rw [hx] at h2
              cases h2
            · rw [hx] at h1
              simp only [] at h1
              rw [register_meters] at h1
              obtain ⟨hcc, r', h2, h3⟩ := construct_born env c w (by rw [hx]; exact h1) h0
              rw [hx] at h2 h3
              simp only [Except.ok.injEq] at h2
              subst h2
              obtain ⟨w2, h4, h5, h6⟩ := (C49_free w env g id hb n c hf (by rcases hcc with rfl | rfl <;> rfl)).1 w1 r hx
              have h7 : (getOrRegister env id (fullName g n) (.ctor c) w).1 = w2 := by
                rw [← e, step_reg_fst, h4]
              rw [h7]
              refine .inr ⟨id, baseName g n, r, by rw [h6]; simp, ?_⟩
              rcases h3 with h3 | ⟨q, h3⟩
              · exact .inl h3
              · exact .inr ⟨q, by rw [h5]; exact h3⟩
          | _ => exact absurd h1 h0
        · rw [hl] at h1
          exact absurd h1 h0

/-- A held meter that is still ticked is still held. -/
theorem held_step (h : List (Env F × Op F)) (env : Env F) (o : Op F) {m : Ref} (hl : live (World.init.run h : World F) m) (hh : held (World.init.run h : World F) m)
    (h1 : live (step env o (World.init.run h : World F)).1 m) : held (step env o (World.init.run h)).1 m := by
  obtain ⟨id, name, r, h2, h3⟩ := hh
  have hs := (C37_step h env o m hl).1 h1
  refine ⟨id, name, r, (step_gets env o _ id name r).2 (.inr ⟨h2, fun hf => hs ?_⟩), ?_⟩
  · have hm : (name, r) ∈ (World.init.run h : World F).regs id := by rw [gets_eq] at h2; exact lookup_some_mem h2
    cases o with
    | reg g o =>
      cases o with
      | unregister n =>
        obtain ⟨hb, hn⟩ := hf
        exact ⟨id, r, hb, by rw [fullName_eq, hn]; exact hm, h3⟩
      | unregisterAll => exact ⟨id, name, r, hf, hm, h3⟩
      | _ => exact hf.elim
    | _ => exact hf.elim
  · rcases h3 with rfl | ⟨q, h3⟩
    · exact .inl rfl
    · exact .inr ⟨q, ((run_ok h).step env o).2.frozen r _ h3 rfl⟩

end GoMetrics
