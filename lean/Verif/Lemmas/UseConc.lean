import Verif.Lemmas.RegistryConc
import Verif.Spec.UseConc

/-! Lemmas for C104: using metrics by name. -/

set_option linter.unusedSimpArgs false
set_option linter.unusedSectionVars false

namespace GoMetrics
open Spec

variable {A D R : Type}

/-- The call of a method of the registry that a goroutine is in. -/
def UseFrame.reg : UseFrame D R → Frame Nat
  | .getting _ _ f | .other f => f
  | _ => .idle

def UseFrame.abs : UseFrame D R → TS (Str × D) R
  | .getting name d _ | .got name _ d => .pend (name, d)
  | .ret name d r => .done (name, d) r
  | _ => .idle

def UseEv.toUse : UseEv D R → Option (CEv (Str × D) R)
  | .use e => some e
  | _ => none

theorem namedUses_eq (tr : List (UseEv D R)) : namedUses tr = tr.filterMap UseEv.toUse := by
  unfold namedUses
  rfl

theorem namedUses_append (a b : List (UseEv D R)) : namedUses (a ++ b) = namedUses a ++ namedUses b := List.filterMap_append
theorem regEvents_append (a b : List (UseEv D R)) : regEvents (a ++ b) = regEvents a ++ regEvents b := List.filterMap_append

@[simp] theorem namedUses_reg (es : List (REv Nat)) : namedUses (es.map (UseEv.reg (D := D) (R := R))) = [] := by
  induction es with
  | nil => rfl
  | cons e es ih => simpa [namedUses] using ih

@[simp] theorem regEvents_reg (es : List (REv Nat)) : regEvents (es.map (UseEv.reg (D := D) (R := R))) = es := by
  induction es with
  | nil => rfl
  | cons e es ih => simpa [regEvents] using ih

/-- The transitions, one by one. -/
inductive UStep (K : Kinds Nat) (init : A) (eff : A → D → A × R) (t : Nat) (s : UseS A) : UseFrame D R → UseS A → UseFrame D R → List (UseEv D R) → Prop where
  | use {name d} : UStep K init eff t s .idle s (.getting name d (startFrame (.getOrRegister name .fn))) [.use (.inv t (name, d)), .reg (.call (.inv t (.getOrRegister name .fn)))]
  | get {name d i s' f f' es} : f.returning = false → regPart K init t i s f = some (s', f', es) → UStep K init eff t s (.getting name d f) s' (.getting name d f') (es.map .reg)
  | have' {name d o v} : UStep K init eff t s (.getting name d (.ret o (.value (some v)))) s (.got name v d) [.reg (.call (.ret t o (.value (some v))))]
  | do' {name v d} : UStep K init eff t s (.got name v d) { s with cells := Function.update s.cells v (eff (s.cells v) d).1 } (.ret name d (eff (s.cells v) d).2)
      [.use (.lin t (name, d) (eff (s.cells v) d).2)]
  | ret {name d r} : UStep K init eff t s (.ret name d r) s .idle [.use (.ret t (name, d) r)]
  | call {o} : UStep K init eff t s .idle s (.other (startFrame o)) [.reg (.call (.inv t o))]
  | other {i s' f f' es} : f.returning = false → regPart K init t i s f = some (s', f', es) → UStep K init eff t s (.other f) s' (.other f') (es.map .reg)
  | back {o r} : UStep K init eff t s (.other (.ret o r)) s .idle [.reg (.call (.ret t o r))]

theorem useStep_rel {K : Kinds Nat} {init : A} {eff : A → D → A × R} {t : Nat} {i : UseIn D} {s s' : UseS A} {l l' : UseFrame D R} {es : List (UseEv D R)}
    (h : useStep K init eff t i s l = some (s', l', es)) : UStep K init eff t s l s' l' es ∧ ∀ o, l' = .other (startFrame o) → l = .idle → i = .other o := by
  unfold useStep at h
  split at h
  · simp only [Option.some.injEq, Prod.mk.injEq] at h; obtain ⟨rfl, rfl, rfl⟩ := h; exact ⟨.use, by simp⟩
  · simp only [Option.some.injEq, Prod.mk.injEq] at h; obtain ⟨rfl, rfl, rfl⟩ := h; exact ⟨.have', by simp⟩
  · split_ifs at h with hf
    simp only [Option.map_eq_some_iff, Prod.mk.injEq, Prod.exists] at h
    obtain ⟨a, b, c, h, rfl, rfl, rfl⟩ := h
    exact ⟨.get (by simpa using hf) h, by simp⟩
  · simp only [Option.some.injEq, Prod.mk.injEq] at h; obtain ⟨rfl, rfl, rfl⟩ := h; exact ⟨.do', by simp⟩
  · simp only [Option.some.injEq, Prod.mk.injEq] at h; obtain ⟨rfl, rfl, rfl⟩ := h; exact ⟨.ret, by simp⟩
  · simp only [Option.some.injEq, Prod.mk.injEq] at h; obtain ⟨rfl, rfl, rfl⟩ := h
    refine ⟨.call, fun o ho _ => ?_⟩
    rename_i o' _
    cases o <;> cases o' <;> simp_all [startFrame]
  · simp only [Option.some.injEq, Prod.mk.injEq] at h; obtain ⟨rfl, rfl, rfl⟩ := h; exact ⟨.back, by simp⟩
  · split_ifs at h with hf
    simp only [Option.map_eq_some_iff, Prod.mk.injEq, Prod.exists] at h
    obtain ⟨a, b, c, h, rfl, rfl, rfl⟩ := h
    exact ⟨.other (by simpa using hf) h, by simp⟩
  · simp at h

/-- A step inside a method of the registry, and what it does to the metrics. -/
theorem regPart_cases {K : Kinds Nat} {init : A} {t : Nat} {i : RIn Nat} {s s' : UseS A} {f f' : Frame Nat} {es : List (REv Nat)} (h : regPart K init t i s f = some (s', f', es)) :
    regStep K t i s.reg f = some (s'.reg, f', es) ∧ f ≠ .idle ∧
      ((s'.cells = s.cells ∧ s'.next = s.next ∧ ∀ n, f = .inCtor n → s'.reg = s.reg ∧ f' = .unlock (.getOrRegister n .fn) .panic ∧ es = [.call (.lin t (.getOrRegister n .fn) .panic)]) ∨
       (s'.cells = Function.update s.cells s.next init ∧ s'.next = s.next + 1 ∧ ∃ n, f = .inCtor n ∧ s'.reg = s.reg.register K n s.next ∧
          f' = .unlock (.getOrRegister n .fn) (.value (some s.next)) ∧ es = [.call (.lin t (.getOrRegister n .fn) (.value (some s.next)))])) := by
  unfold regPart at h
  split at h
  · simp at h
  · split_ifs at h with hv
    subst hv
    simp only [Option.map_eq_some_iff, Prod.mk.injEq, Prod.exists] at h
    obtain ⟨a, b, c, h, rfl, rfl, rfl⟩ := h
    refine ⟨h, ?_, .inr ⟨rfl, rfl, ?_⟩⟩
    · rintro rfl; simp [regStep] at h
    · cases f <;> simp [regStep] at h ⊢
      exact ⟨h.1.symm, h.2.1.symm, h.2.2.symm⟩
  · rename_i hc hr
    simp only [Option.map_eq_some_iff, Prod.mk.injEq, Prod.exists] at h
    obtain ⟨a, b, c, h, rfl, rfl, rfl⟩ := h
    refine ⟨h, ?_, .inl ⟨rfl, rfl, ?_⟩⟩
    · rintro rfl
      cases i <;> simp [regStep] at h hc
    · rintro n rfl
      cases i <;> simp [regStep] at h hc hr
      exact ⟨h.1.symm, h.2.1.symm, h.2.2.symm⟩

/-- The metric `v` belongs to the name `n`. -/
def Owned (P : Str → Prop) (s : UseS A) (n : Str) (v : Nat) : Prop := v < s.next ∧ ∀ p, P p → (find s.reg.metrics p = some v ↔ p = n)

structure UseInv (P : Str → Prop) (n0 : Nat) (K : Kinds Nat) (m0 : List (Str × Nat)) (init : A) (eff : A → D → A × R) (s : UseS A) (ls : Nat → UseFrame D R) (tr : List (UseEv D R)) : Prop where
  reg : ∃ sched, (regMachine K).run (.init m0) (fun _ => .idle) sched = some (s.reg, fun t => (ls t).reg, regEvents tr)
  pend : ∀ t o, ((ls t).reg).abs = .pend o → leaves P n0 o
  next : n0 ≤ s.next
  new : ∀ p v, P p → find s.reg.metrics p = some v → n0 ≤ v
  bound : ∀ n v, find s.reg.metrics n = some v → Owned P s n v
  lin : ∀ t n a v, .lin t (.getOrRegister n a) (.value (some v)) ∈ calls (regEvents tr) → Owned P s n v
  getting : ∀ t name d f, ls t = .getting name d f → f.abs = .pend (.getOrRegister name .fn) ∨ ∃ r, f.abs = .done (.getOrRegister name .fn) r
  got : ∀ t n v d, ls t = .got n v d → Owned P s n v
  used : ∀ x ∈ linSeq (namedUses tr), P x.1.1 → find s.reg.metrics x.1.1 ≠ none
  run : ∃ σ, LegalRun (OnePerName P eff) (fun _ => init) (linSeq (namedUses tr)) σ ∧ ∀ n, P n → σ n = match find s.reg.metrics n with | some v => s.cells v | none => init

/-- What a step inside a method of the registry does to the map. -/
structure MapStep (P : Str → Prop) (n0 : Nat) (init : A) (s s' : UseS A) (es : List (REv Nat)) : Prop where
  keep : ∀ p, P p → find s'.reg.metrics p = find s.reg.metrics p ∨
    (find s.reg.metrics p = none ∧ find s'.reg.metrics p = some s.next ∧ s'.next = s.next + 1 ∧ s'.cells s.next = init)
  cells : ∀ v, v < s.next → s'.cells v = s.cells v
  next : s.next ≤ s'.next
  bound : ∀ n v, find s'.reg.metrics n = some v → find s.reg.metrics n = some v ∨ (¬ P n ∧ v < n0) ∨
    (v = s.next ∧ s'.next = s.next + 1 ∧ find s'.reg.metrics = Function.update (find s.reg.metrics) n (some s.next))
  lin : ∀ t n a v, .lin t (.getOrRegister n a) (.value (some v)) ∈ calls es → find s'.reg.metrics n = some v ∨ (¬ P n ∧ v < n0)

theorem register_other (K : Kinds Nat) (s : RegS Nat) {n m : Str} (v : Nat) (h : m ≠ n) : find (s.register K n v).metrics m = find s.metrics m := by
  rcases hf : find s.metrics n with _ | w
  · rw [register_find K s hf]
    unfold bound
    split_ifs
    · rw [Function.update_of_ne h]
    · rfl
  · rw [register_taken K s hf]

theorem register_binds (K : Kinds Nat) (s : RegS Nat) {n m : Str} {v w : Nat} (h : find (s.register K n v).metrics m = some w) : find s.metrics m = some w ∨ (m = n ∧ w = v) := by
  by_cases hm : m = n
  · subst hm
    rcases hf : find s.metrics m with _ | x
    · rw [register_find K s hf] at h
      unfold bound at h
      split_ifs at h
      · rw [Function.update_self] at h
        exact .inr ⟨rfl, (Option.some.inj h).symm⟩
      · rw [hf] at h; cases h
    · rw [register_taken K s hf, hf] at h
      exact .inl h
  · rw [register_other K s v hm] at h
    exact .inl h

theorem mapStep {P : Str → Prop} {n0 : Nat} {K : Kinds Nat} (hK : ∀ v, n0 ≤ v → K.metric v = true) {init : A} {t : Nat} {i : RIn Nat} {s s' : UseS A} {f f' : Frame Nat} {es : List (REv Nat)}
    (hn : n0 ≤ s.next) (hpend : ∀ o, f.abs = .pend o → leaves P n0 o) (hctor : ∀ n, f = .inCtor n → find s.reg.metrics n = none)
    (h : regPart K init t i s f = some (s', f', es)) : MapStep P n0 init s s' es := by
  obtain ⟨hst, hidle, hcase⟩ := regPart_cases h
  have hrel := regStep_rel hst
  rcases hcase with ⟨hcells, hnext, hp⟩ | ⟨hcells, hnext, n, rfl, hreg, rfl, rfl⟩
  · have same : s'.reg.metrics = s.reg.metrics → (∀ t n a v, .lin t (.getOrRegister n a) (.value (some v)) ∈ calls es → find s.reg.metrics n = some v) → MapStep P n0 init s s' es := by
      intro e1 e2
      refine ⟨fun p _ => .inl (by rw [e1]), fun v _ => by rw [hcells], hnext.ge, fun n v h => .inl (by rwa [e1] at h), fun t n a v hm => .inl (by rw [e1]; exact e2 t n a v hm)⟩
    generalize hr : s'.reg = r' at hrel same hp
    cases hrel
    case made n v =>
      obtain ⟨-, -, e⟩ := hp n rfl
      simp at e
    case panicked => exact same rfl (by simp [calls])
    case given n v hf =>
      have hl := hpend _ rfl
      refine ⟨fun p hP => .inl ?_, fun v _ => by rw [hcells], hnext.ge, fun m w hm => ?_, fun u m a w hm => ?_⟩
      · rw [hr, register_other]; rintro rfl; exact hl.1 hP
      · rw [hr] at hm
        rcases register_binds K _ hm with h1 | ⟨rfl, rfl⟩
        · exact .inl h1
        · exact .inr (.inl hl)
      · simp only [calls, List.filterMap_cons, List.filterMap_nil, List.mem_singleton, CEv.lin.injEq, ROp.getOrRegister.injEq, RRes.value.injEq, Option.some.injEq] at hm
        obtain ⟨-, ⟨rfl, -⟩, rfl⟩ := hm
        exact .inr hl
    case register n v =>
      have hl := hpend _ rfl
      refine ⟨fun p hP => .inl ?_, fun v _ => by rw [hcells], hnext.ge, fun m w hm => ?_, fun u m a w hm => by simp [calls] at hm⟩
      · rw [hr, register_other]; rintro rfl; exact hl.1 hP
      · rw [hr] at hm
        rcases register_binds K _ hm with h1 | ⟨rfl, rfl⟩
        · exact .inl h1
        · exact .inr (.inl hl)
    case unregister n l e =>
      have hl : ¬ P n := hpend _ rfl
      refine ⟨fun p hP => .inl ?_, fun v _ => by rw [hcells], hnext.ge, fun m w hm => .inl ?_, fun u m a w hm => by simp [calls] at hm⟩
      · rw [hr]
        simp only [find_filter]
        rw [Function.update_of_ne]
        rintro rfl; exact hl hP
      · rw [hr] at hm
        simp only [find_filter] at hm
        by_cases he : m = n
        · subst he; rw [Function.update_self] at hm; cases hm
        · rwa [Function.update_of_ne he] at hm
    case clear => exact (hpend _ rfl).elim
    case clearing => exact (hpend _ rfl).elim
    case cleared => exact (hpend _ rfl).elim
    case hit n a v hf =>
      refine same rfl fun u m b w hm => ?_
      simp only [calls, List.filterMap_cons, List.filterMap_nil, List.mem_singleton, CEv.lin.injEq, ROp.getOrRegister.injEq, RRes.value.injEq, Option.some.injEq] at hm
      obtain ⟨-, ⟨rfl, -⟩, rfl⟩ := hm
      exact hf
    case hit2 n a v hf =>
      refine same rfl fun u m b w hm => ?_
      simp only [calls, List.filterMap_cons, List.filterMap_nil, List.mem_singleton, CEv.lin.injEq, ROp.getOrRegister.injEq, RRes.value.injEq, Option.some.injEq] at hm
      obtain ⟨-, ⟨rfl, -⟩, rfl⟩ := hm
      exact hf
    all_goals exact same rfl (by simp [calls])
  · have hf := hctor n rfl
    have hfind : find s'.reg.metrics = Function.update (find s.reg.metrics) n (some s.next) := by
      rw [hreg, register_find K _ hf]
      unfold bound
      rw [if_pos (hK _ hn)]
    refine ⟨fun p _ => ?_, fun v hv => by rw [hcells, Function.update_of_ne (by omega)], by omega, fun m w hm => ?_, fun u m a w hm => .inl ?_⟩
    · by_cases hp : p = n
      · subst hp
        exact .inr ⟨hf, by rw [hfind, Function.update_self], hnext, by rw [hcells, Function.update_self]⟩
      · exact .inl (by rw [hfind, Function.update_of_ne hp])
    · by_cases hp : m = n
      · subst hp
        rw [hfind, Function.update_self] at hm
        exact .inr (.inr ⟨(Option.some.inj hm).symm, hnext, hfind⟩)
      · rw [hfind, Function.update_of_ne hp] at hm
        exact .inl hm
    · simp only [calls, List.filterMap_cons, List.filterMap_nil, List.mem_singleton, CEv.lin.injEq, ROp.getOrRegister.injEq, RRes.value.injEq, Option.some.injEq] at hm
      obtain ⟨-, ⟨rfl, -⟩, rfl⟩ := hm
      rw [hfind, Function.update_self]

theorem Owned.move {P : Str → Prop} {n0 : Nat} {init : A} {s s' : UseS A} {es : List (REv Nat)} (hm : MapStep P n0 init s s' es) {n : Str} {v : Nat} (h : Owned P s n v) : Owned P s' n v := by
  refine ⟨lt_of_lt_of_le h.1 hm.next, fun p hp => ?_⟩
  rw [← h.2 p hp]
  rcases hm.keep p hp with e | ⟨e1, e2, -⟩
  · rw [e]
  · rw [e1, e2]
    simp only [Option.some.injEq, reduceCtorEq, iff_false]
    have := h.1
    omega

theorem UseInv.move {P : Str → Prop} {n0 : Nat} {K : Kinds Nat} {m0 : List (Str × Nat)} {init : A} {eff : A → D → A × R} {s s' : UseS A} {ls : Nat → UseFrame D R} {tr es : List (UseEv D R)}
    (hi : UseInv P n0 K m0 init eff s ls tr) {t : Nat} {i : RIn Nat} {l' : UseFrame D R} (hst : regStep K t i s.reg (ls t).reg = some (s'.reg, l'.reg, regEvents es))
    (hm : MapStep P n0 init s s' (regEvents es)) (hu : linSeq (namedUses es) = []) (hpend : ∀ o, l'.reg.abs = .pend o → leaves P n0 o)
    (hget : ∀ name d f, l' = .getting name d f → f.abs = .pend (.getOrRegister name .fn) ∨ ∃ r, f.abs = .done (.getOrRegister name .fn) r)
    (hgot : ∀ n v d, l' = .got n v d → Owned P s n v) : UseInv P n0 K m0 init eff s' (Function.update ls t l') (tr ++ es) := by
  have hup : (fun u => (Function.update ls t l' u).reg) = Function.update (fun u => (ls u).reg) t l'.reg := by
    funext u
    rcases eq_or_ne u t with rfl | hne
    · simp
    · rw [Function.update_of_ne hne, Function.update_of_ne hne]
  have hcase : ∀ u, Function.update ls t l' u = ls u ∨ (u = t ∧ Function.update ls t l' u = l') := by
    intro u
    rcases eq_or_ne u t with rfl | hne
    · exact .inr ⟨rfl, by simp⟩
    · exact .inl (Function.update_of_ne hne ..)
  have hnew : ∀ p v, P p → find s'.reg.metrics p = some v → n0 ≤ v := by
    intro p v hp hv
    rcases hm.keep p hp with e | ⟨-, e, -⟩
    · rw [e] at hv; exact hi.new p v hp hv
    · rw [e] at hv
      have := Option.some.inj hv
      have := hi.next
      omega
  have hold : ∀ n v, ¬ P n → v < n0 → Owned P s' n v := by
    intro n v hn hv
    refine ⟨lt_of_lt_of_le hv (hi.next.trans hm.next), fun p hp => ⟨fun h => ?_, ?_⟩⟩
    · have := hnew p v hp h
      omega
    · rintro rfl; exact absurd hp hn
  have hbound : ∀ n v, find s'.reg.metrics n = some v → Owned P s' n v := by
    intro n v hv
    rcases hm.bound n v hv with h | ⟨h1, h2⟩ | ⟨rfl, h2, h3⟩
    · exact (hi.bound n v h).move hm
    · exact hold n v h1 h2
    · refine ⟨by omega, fun p hp => ⟨fun h => ?_, ?_⟩⟩
      · by_contra hne
        rw [h3, Function.update_of_ne hne] at h
        have := (hi.bound p _ h).1
        omega
      · rintro rfl; rw [h3, Function.update_self]
  refine ⟨?_, ?_, hi.next.trans hm.next, hnew, hbound, ?_, ?_, ?_, ?_, ?_⟩
  · obtain ⟨sched, hr⟩ := hi.reg
    refine ⟨sched ++ [(t, i)], ?_⟩
    rw [regEvents_append, hup]
    exact (regMachine K).run_snoc hr hst
  · intro u o ho
    rcases hcase u with e | ⟨rfl, e⟩ <;> rw [e] at ho
    · exact hi.pend u o ho
    · exact hpend o ho
  · intro u n a v hmem
    rw [regEvents_append, calls_append, List.mem_append] at hmem
    rcases hmem with hmem | hmem
    · exact (hi.lin u n a v hmem).move hm
    · rcases hm.lin u n a v hmem with h | ⟨h1, h2⟩
      · exact hbound n v h
      · exact hold n v h1 h2
  · intro u name d f hf
    rcases hcase u with e | ⟨rfl, e⟩ <;> rw [e] at hf
    · exact hi.getting u name d f hf
    · exact hget name d f hf
  · intro u n v d hf
    rcases hcase u with e | ⟨rfl, e⟩ <;> rw [e] at hf
    · exact (hi.got u n v d hf).move hm
    · exact (hgot n v d hf).move hm
  · intro x hx hp
    rw [namedUses_append, linSeq_append, hu, List.append_nil] at hx
    rcases hm.keep _ hp with e | ⟨-, e, -⟩ <;> rw [e]
    · exact hi.used x hx hp
    · simp
  · obtain ⟨σ, hr, hσ⟩ := hi.run
    refine ⟨σ, by rw [namedUses_append, linSeq_append, hu, List.append_nil]; exact hr, fun n hn => ?_⟩
    rw [hσ n hn]
    rcases hm.keep n hn with e | ⟨e1, e2, -, e3⟩
    · rw [e]
      cases hf : find s.reg.metrics n with
      | none => rfl
      | some v => exact (hm.cells v (hi.bound n v hf).1).symm
    · rw [e1, e2]
      exact e3.symm

theorem MapStep.same {P : Str → Prop} {n0 : Nat} {init : A} {s : UseS A} {es : List (REv Nat)} (h : ∀ t o r, .lin t o r ∉ calls es) : MapStep P n0 init s s es :=
  ⟨fun _ _ => .inl rfl, fun _ _ => rfl, le_rfl, fun _ _ h => .inl h, fun _ _ _ _ hm => absurd hm (h _ _ _)⟩

theorem Frame.not_idle {f : Frame Nat} (hok : f.ok) (h : f ≠ .idle) : f.abs ≠ .idle := by
  cases f <;> simp [Frame.abs] at h ⊢
  rename_i next
  cases next <;> simp [Frame.ok, Frame.abs] at hok ⊢

theorem UseInv.step {P : Str → Prop} {n0 : Nat} {K : Kinds Nat} (hK : ∀ v, n0 ≤ v → K.metric v = true) {m0 : List (Str × Nat)} (h0 : (m0.map Prod.fst).Nodup) {init : A} {eff : A → D → A × R} {s s' : UseS A}
    {ls : Nat → UseFrame D R} {tr es : List (UseEv D R)} (hi : UseInv P n0 K m0 init eff s ls tr) {t : Nat} {i : UseIn D} {l' : UseFrame D R} (hl : UseIn.leaves P n0 i)
    (hst : useStep K init eff t i s (ls t) = some (s', l', es)) : UseInv P n0 K m0 init eff s' (Function.update ls t l') (tr ++ es) := by
  obtain ⟨hrel, hcall⟩ := useStep_rel hst
  obtain ⟨rsched, hrun⟩ := hi.reg
  have hR := reg_inv h0 hrun
  have hok := hR.ok t
  have hctor := hR.ctor t
  -- a step inside a method of the registry
  have part : ∀ {i : RIn Nat} {s' : UseS A} {f f' : Frame Nat} {es : List (REv Nat)}, (ls t).reg = f → f.returning = false → regPart K init t i s f = some (s', f', es) →
      MapStep P n0 init s s' es ∧ regStep K t i s.reg f = some (s'.reg, f', es) ∧ (∀ o, f'.abs = .pend o → f.abs = .pend o) ∧
        ∀ o, f.abs = .pend o ∨ (∃ r, f.abs = .done o r) → f'.abs = .pend o ∨ ∃ r, f'.abs = .done o r := by
    intro i s' f f' es hf hret hp
    rw [hf] at hok hctor
    have hpend := hi.pend t
    rw [hf] at hpend
    obtain ⟨h1, h2, -⟩ := regPart_cases hp
    have hni := Frame.not_idle hok h2
    have hrel := regStep_rel h1
    obtain ⟨-, hev, -⟩ := regStep_local hok hrel
    refine ⟨mapStep hK hi.next hpend hctor hp, h1, ?_, ?_⟩
    · generalize hx : f.abs = x at hev hni
      generalize hy : f'.abs = y at hev
      generalize es.filterMap REv.toCall = ev at hev
      intro o ho
      cases hev with
      | none => exact ho
      | inv => exact absurd rfl hni
      | lin => cases ho
      | ret => cases ho
    · have hnr : ∀ o r, es.filterMap REv.toCall ≠ [.ret t o r] := by
        intro o r he
        generalize s'.reg = r' at hrel
        cases hrel <;> first | (cases hret; done) | (cases he; done)
      generalize hx : f.abs = x at hev hni
      generalize hy : f'.abs = y at hev
      generalize es.filterMap REv.toCall = ev at hev hnr
      intro o ho
      cases hev with
      | none => exact ho
      | inv => exact absurd rfl hni
      | lin =>
        rcases ho with e | ⟨r, e⟩
        · cases e; exact .inr ⟨_, rfl⟩
        · cases e
      | ret => exact absurd rfl (hnr _ _)
  generalize hlt : ls t = l at hrel hcall
  cases hrel with
  | @use name d =>
    refine hi.move (i := .call (.getOrRegister name .fn)) (by rw [hlt]; rfl) (.same fun t o r h => by simp [regEvents, calls] at h) rfl (fun o ho => ?_) (fun n e f hf => ?_) (fun n v d h => by cases h)
    · simp [UseFrame.reg, startFrame, Frame.abs] at ho
      subst ho
      trivial
    · cases hf
      exact .inl rfl
  | @get name d i s' f f' es hret hp =>
    obtain ⟨h1, h2, h3, h4⟩ := part (by rw [hlt]; rfl) hret hp
    refine hi.move (i := i) (by rw [hlt, regEvents_reg]; exact h2) (by rw [regEvents_reg]; exact h1) (by rw [namedUses_reg]; rfl) (fun o ho => hi.pend t o (by rw [hlt]; exact h3 o ho)) (fun n e g hg => ?_)
      (fun n v d h => by cases h)
    cases hg
    exact h4 _ (hi.getting t name d f hlt)
  | @have' name d o v =>
    have ho : o = .getOrRegister name .fn := by
      rcases hi.getting t name d _ hlt with h | ⟨r, h⟩
      · cases h
      · simp [Frame.abs] at h; exact h.1
    subst ho
    have hstep : regStep K t .step s.reg (ls t).reg = some (s.reg, .idle, [.call (.ret t (.getOrRegister name .fn) (.value (some v)))]) := by rw [hlt]; rfl
    refine hi.move (l' := .got name v d) (i := .step) hstep (.same fun t o r h => by simp [regEvents, calls] at h) rfl (fun o ho => by simp [UseFrame.reg, Frame.abs] at ho) (fun n e f hf => by cases hf) (fun n v' d' h => ?_)
    cases h
    have hwf := reg_wf ((regMachine K).run_snoc hrun hstep)
    have := hwf.ret_lin (t := t) (o := .getOrRegister name .fn) (r := .value (some v)) (by simp [calls])
    rw [calls_append, List.mem_append] at this
    rcases this with h | h
    · exact hi.lin t name .fn v h
    · simp [calls] at h
  | @do' name v d =>
    have hown := hi.got t name v d hlt
    have hup : (fun u => (Function.update ls t (.ret name d (eff (s.cells v) d).2) u).reg) = fun u => (ls u).reg := by
      funext u
      rcases eq_or_ne u t with rfl | hne
      · rw [Function.update_self, hlt]; rfl
      · rw [Function.update_of_ne hne]
    have hcase : ∀ u, Function.update ls t (.ret name d (eff (s.cells v) d).2) u = ls u ∨ (u = t ∧ Function.update ls t (.ret name d (eff (s.cells v) d).2) u = .ret name d (eff (s.cells v) d).2) := by
      intro u
      rcases eq_or_ne u t with rfl | hne
      · exact .inr ⟨rfl, by simp⟩
      · exact .inl (Function.update_of_ne hne ..)
    have hre : regEvents (tr ++ [.use (.lin t (name, d) (eff (s.cells v) d).2)]) = regEvents tr := by rw [regEvents_append]; simp [regEvents]
    refine ⟨⟨rsched, by rw [hup, hre]; exact hrun⟩, fun u o ho => ?_, hi.next, hi.new, hi.bound, fun u n a v h => hi.lin u n a v (by rwa [hre] at h), fun u n e f hf => ?_, fun u n w e hf => ?_, ?_, ?_⟩
    · rw [show (Function.update ls t (.ret name d (eff (s.cells v) d).2) u).reg = (ls u).reg from congrFun hup u] at ho
      exact hi.pend u o ho
    · rcases hcase u with h | ⟨rfl, h⟩ <;> rw [h] at hf
      · exact hi.getting u n e f hf
      · cases hf
    · rcases hcase u with h | ⟨rfl, h⟩ <;> rw [h] at hf
      · exact hi.got u n w e hf
      · cases hf
    · intro x hx hp
      rw [namedUses_append, linSeq_append, List.mem_append] at hx
      rcases hx with hx | hx
      · exact hi.used x hx hp
      · simp [namedUses, linSeq] at hx
        subst hx
        simp [(hown.2 name hp).2 rfl]
    · obtain ⟨σ, hr, hσ⟩ := hi.run
      refine ⟨Function.update σ name (eff (s.cells v) d).1, ?_, fun n hn => ?_⟩
      · rw [namedUses_append, linSeq_append]
        refine hr.append (.cons (s' := Function.update σ name (eff (s.cells v) d).1) ⟨fun hn => ?_, fun n hn hne => Function.update_of_ne hne _ _⟩ .nil)
        have hf := (hown.2 name hn).2 rfl
        have := hσ name hn
        rw [hf] at this
        simp only at this ⊢
        rw [this, Function.update_self]
        exact ⟨rfl, rfl⟩
      · by_cases he : n = name
        · subst he
          rw [Function.update_self, (hown.2 n hn).2 rfl]
          simp
        · rw [Function.update_of_ne he, hσ n hn]
          simp only
          cases hf : find s.reg.metrics n with
          | none => rfl
          | some w =>
            have : w ≠ v := by
              rintro rfl
              exact he ((hown.2 n hn).1 hf)
            simp [Function.update_of_ne this]
  | @ret name d r =>
    have hup : (fun u => (Function.update ls t .idle u).reg) = fun u => (ls u).reg := by
      funext u
      rcases eq_or_ne u t with rfl | hne
      · rw [Function.update_self, hlt]; rfl
      · rw [Function.update_of_ne hne]
    have hcase : ∀ u, Function.update ls t .idle u = ls u ∨ (u = t ∧ Function.update ls t .idle u = .idle) := by
      intro u
      rcases eq_or_ne u t with rfl | hne
      · exact .inr ⟨rfl, by simp⟩
      · exact .inl (Function.update_of_ne hne ..)
    have hre : regEvents (tr ++ [.use (.ret t (name, d) r)]) = regEvents tr := by rw [regEvents_append]; simp [regEvents]
    refine ⟨⟨rsched, by rw [hup, hre]; exact hrun⟩, fun u o ho => ?_, hi.next, hi.new, hi.bound, fun u n a v h => hi.lin u n a v (by rwa [hre] at h), fun u n e f hf => ?_, fun u n w e hf => ?_, ?_, ?_⟩
    · rw [show (Function.update ls t .idle u).reg = (ls u).reg from congrFun hup u] at ho
      exact hi.pend u o ho
    · rcases hcase u with h | ⟨rfl, h⟩ <;> rw [h] at hf
      · exact hi.getting u n e f hf
      · cases hf
    · rcases hcase u with h | ⟨rfl, h⟩ <;> rw [h] at hf
      · exact hi.got u n w e hf
      · cases hf
    · intro x hx
      refine hi.used x ?_
      rw [namedUses_append, linSeq_append] at hx
      simpa [namedUses, linSeq] using hx
    · obtain ⟨σ, hr, hσ⟩ := hi.run
      refine ⟨σ, ?_, hσ⟩
      rw [namedUses_append, linSeq_append]
      simpa [namedUses, linSeq] using hr
  | @call o =>
    have hio := hcall o rfl rfl
    subst hio
    refine hi.move (l' := .other (startFrame o)) (i := .call o) (by rw [hlt]; rfl) (.same fun t o r h => by simp [regEvents, calls] at h) rfl (fun o' ho => ?_) (fun n e f hf => by cases hf) (fun n v d h => by cases h)
    have : o' = o := by cases o <;> simp [UseFrame.reg, startFrame, Frame.abs] at ho <;> exact ho.symm
    subst this
    exact hl
  | @other i s' f f' es hret hp =>
    obtain ⟨h1, h2, h3, -⟩ := part (by rw [hlt]; rfl) hret hp
    exact hi.move (i := i) (by rw [hlt, regEvents_reg]; exact h2) (by rw [regEvents_reg]; exact h1) (by rw [namedUses_reg]; rfl) (fun o ho => hi.pend t o (by rw [hlt]; exact h3 o ho)) (fun n e g hg => by cases hg)
      (fun n v d h => by cases h)
  | @back o r =>
    exact hi.move (l' := .idle) (i := .step) (by rw [hlt]; rfl) (.same fun t o r h => by simp [regEvents, calls] at h) rfl (fun o ho => by simp [UseFrame.reg, Frame.abs] at ho) (fun n e f hf => by cases hf)
      (fun n v d h => by cases h)

theorem use_inv {P : Str → Prop} {n0 : Nat} {K : Kinds Nat} (hK : ∀ v, n0 ≤ v → K.metric v = true) {m0 : List (Str × Nat)} (h0 : (m0.map Prod.fst).Nodup) (hfree : ∀ n, P n → find m0 n = none)
    (hold : ∀ n v, find m0 n = some v → v < n0) {init : A} {cells : Nat → A} {eff : A → D → A × R} {sched : List (Nat × UseIn D)} (hl : ∀ x ∈ sched, UseIn.leaves P n0 x.2) {s : UseS A}
    {ls : Nat → UseFrame D R} {tr : List (UseEv D R)} (h : (useMachine K init eff).run ⟨.init m0, cells, n0⟩ (fun _ => .idle) sched = some (s, ls, tr)) : UseInv P n0 K m0 init eff s ls tr := by
  refine (useMachine K init eff).induct_on (UseIn.leaves P n0) (UseInv P n0 K m0 init eff) ?_ (fun s ls tr t i s' l' es hi hu hst => hu.step hK h0 hi hst) sched s ls tr hl h
  refine ⟨⟨[], rfl⟩, fun t o ho => by simp [UseFrame.reg, Frame.abs] at ho, le_rfl, fun p v hp hv => ?_, fun n v hv => ⟨hold n v hv, fun p hp => ?_⟩, fun t n a v h => by simp [regEvents, calls] at h,
    fun t n d f hf => (by cases hf), fun t n v d hf => (by cases hf), fun x hx => (by simp [namedUses, linSeq] at hx), fun _ => init, .nil, fun n hn => ?_⟩
  · have := hfree p hp
    simp only [RegS.init] at hv
    rw [this] at hv; cases hv
  · have := hfree p hp
    simp only [RegS.init] at hv ⊢
    rw [this]
    simp only [reduceCtorEq, false_iff]
    rintro rfl
    rw [this] at hv; cases hv
  · simp only [RegS.init]
    rw [hfree n hn]

theorem use_wf {K : Kinds Nat} {init : A} {eff : A → D → A × R} {s0 : UseS A} {sched : List (Nat × UseIn D)} {s : UseS A} {ls : Nat → UseFrame D R} {tr : List (UseEv D R)}
    (h : (useMachine K init eff).run s0 (fun _ => .idle) sched = some (s, ls, tr)) : Wf allIdle (namedUses tr) fun t => (ls t).abs := by
  have := (useMachine K init eff).wf UseEv.toUse UseFrame.abs (fun _ => True) (l0 := fun _ => UseFrame.idle) (fun _ => trivial) (fun t i s l s' l' es _ hst => by
    refine ⟨trivial, ?_⟩
    obtain ⟨hrel, -⟩ := useStep_rel hst
    rw [← namedUses_eq]
    cases hrel with
    | get => rw [namedUses_reg]; exact .none
    | other => rw [namedUses_reg]; exact .none
    | use => exact .inv
    | have' => exact .none
    | do' => exact .lin
    | ret => exact .ret
    | call => exact .none
    | back => exact .none) sched s ls tr h
  rw [namedUses_eq]
  exact this

end GoMetrics
