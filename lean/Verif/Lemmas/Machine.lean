import Verif.Go.Machine
import Verif.Lemmas.Conc

/-! Invariants of interleaved executions. -/

set_option linter.unusedSimpArgs false

namespace GoMetrics
variable {S L I E : Type}

theorem Machine.run_append (M : Machine S L I E) (s : S) (ls : Nat → L) (a b : List (Nat × I)) :
    M.run s ls (a ++ b) = (M.run s ls a).bind fun x => (M.run x.1 x.2.1 b).map fun y => (y.1, y.2.1, x.2.2 ++ y.2.2) := by
  induction a generalizing s ls with
  | nil => simp [run]
  | cons p a ih =>
    obtain ⟨t, i⟩ := p
    simp only [List.cons_append, run]
    cases M.step t i s (ls t) with
    | none => rfl
    | some x =>
      obtain ⟨s', l', es⟩ := x
      simp only [ih]
      cases M.run s' (Function.update ls t l') a with
      | none => rfl
      | some y =>
        obtain ⟨s2, ls2, es2⟩ := y
        simp only [Option.bind_some]
        cases M.run s2 ls2 b with
        | none => rfl
        | some z => simp

/-- A property of configurations and traces that holds initially and is kept by every step holds after every execution. -/
theorem Machine.induct (M : Machine S L I E) {s0 : S} {l0 : Nat → L} (Inv : S → (Nat → L) → List E → Prop) (h0 : Inv s0 l0 [])
    (hs : ∀ s ls tr t i s' l' es, Inv s ls tr → M.step t i s (ls t) = some (s', l', es) →
      Inv s' (Function.update ls t l') (tr ++ es)) :
    ∀ sched s ls tr, M.run s0 l0 sched = some (s, ls, tr) → Inv s ls tr := by
  have key : ∀ sched s0 l0 tr0 s ls tr, Inv s0 l0 tr0 → M.run s0 l0 sched = some (s, ls, tr) → Inv s ls (tr0 ++ tr) := by
    intro sched
    induction sched with
    | nil =>
      intro s0 l0 tr0 s ls tr h0 h
      simp [run] at h
      obtain ⟨rfl, rfl, rfl⟩ := h
      simpa using h0
    | cons p sched ih =>
      obtain ⟨t, i⟩ := p
      intro s0 l0 tr0 s ls tr h0 h
      simp only [run] at h
      cases hst : M.step t i s0 (l0 t) with
      | none => simp [hst] at h
      | some x =>
        obtain ⟨s', l', es⟩ := x
        simp only [hst] at h
        cases hr : M.run s' (Function.update l0 t l') sched with
        | none => simp [hr] at h
        | some y =>
          obtain ⟨s2, ls2, es2⟩ := y
          simp [hr] at h
          obtain ⟨rfl, rfl, rfl⟩ := h
          rw [← List.append_assoc]
          exact ih _ _ _ _ _ _ (hs _ _ _ _ _ _ _ _ h0 hst) hr
  intro sched s ls tr h
  simpa using key sched s0 l0 [] s ls tr h0 h

/-- The same for executions whose inputs satisfy a condition. -/
theorem Machine.induct_on (M : Machine S L I E) (P : I → Prop) {s0 : S} {l0 : Nat → L} (Inv : S → (Nat → L) → List E → Prop) (h0 : Inv s0 l0 [])
    (hs : ∀ s ls tr t i s' l' es, P i → Inv s ls tr → M.step t i s (ls t) = some (s', l', es) →
      Inv s' (Function.update ls t l') (tr ++ es)) :
    ∀ sched s ls tr, (∀ x ∈ sched, P x.2) → M.run s0 l0 sched = some (s, ls, tr) → Inv s ls tr := by
  have key : ∀ sched s0 l0 tr0 s ls tr, (∀ x ∈ sched, P x.2) → Inv s0 l0 tr0 → M.run s0 l0 sched = some (s, ls, tr) → Inv s ls (tr0 ++ tr) := by
    intro sched
    induction sched with
    | nil =>
      intro s0 l0 tr0 s ls tr _ h0 h
      simp [run] at h
      obtain ⟨rfl, rfl, rfl⟩ := h
      simpa using h0
    | cons p sched ih =>
      obtain ⟨t, i⟩ := p
      intro s0 l0 tr0 s ls tr hp h0 h
      simp only [run] at h
      cases hst : M.step t i s0 (l0 t) with
      | none => simp [hst] at h
      | some x =>
        obtain ⟨s', l', es⟩ := x
        simp only [hst] at h
        cases hr : M.run s' (Function.update l0 t l') sched with
        | none => simp [hr] at h
        | some y =>
          obtain ⟨s2, ls2, es2⟩ := y
          simp [hr] at h
          obtain ⟨rfl, rfl, rfl⟩ := h
          rw [← List.append_assoc]
          exact ih _ _ _ _ _ _ (fun x hx => hp x (by simp [hx])) (hs _ _ _ _ _ _ _ _ (hp (t, i) (by simp)) h0 hst) hr
  intro sched s ls tr hp h
  simpa using key sched s0 l0 [] s ls tr hp h0 h

theorem Machine.run_snoc (M : Machine S L I E) {s0 : S} {l0 : Nat → L} {sched s ls tr t i s' l' es}
    (h : M.run s0 l0 sched = some (s, ls, tr)) (hst : M.step t i s (ls t) = some (s', l', es)) :
    M.run s0 l0 (sched ++ [(t, i)]) = some (s', Function.update ls t l', tr ++ es) := by
  rw [run_append, h]
  simp [run, hst]

/-- Induction with the configurations known to be reachable. -/
theorem Machine.induct_reach (M : Machine S L I E) {s0 : S} {l0 : Nat → L} (Inv : S → (Nat → L) → List E → Prop) (h0 : Inv s0 l0 [])
    (hs : ∀ s ls tr t i s' l' es, (∃ sched, M.run s0 l0 sched = some (s, ls, tr)) → Inv s ls tr →
      M.step t i s (ls t) = some (s', l', es) → Inv s' (Function.update ls t l') (tr ++ es)) :
    ∀ sched s ls tr, M.run s0 l0 sched = some (s, ls, tr) → Inv s ls tr := by
  intro sched s ls tr h
  refine (M.induct (fun s ls tr => Inv s ls tr ∧ ∃ sched, M.run s0 l0 sched = some (s, ls, tr)) ⟨h0, [], rfl⟩ ?_ sched s ls tr h).1
  intro s ls tr t i s' l' es ⟨hi, sched, hr⟩ hst
  exact ⟨hs _ _ _ _ _ _ _ _ ⟨sched, hr⟩ hi hst, _, M.run_snoc hr hst⟩

/-- Two consecutive parts of an execution. -/
theorem Machine.run_split (M : Machine S L I E) {s0 : S} {l0 : Nat → L} {a b : List (Nat × I)} {s ls tr}
    (h : M.run s0 l0 (a ++ b) = some (s, ls, tr)) :
    ∃ s1 ls1 tr1 tr2, M.run s0 l0 a = some (s1, ls1, tr1) ∧ M.run s1 ls1 b = some (s, ls, tr2) ∧ tr = tr1 ++ tr2 := by
  rw [run_append] at h
  cases ha : M.run s0 l0 a with
  | none => simp [ha] at h
  | some x =>
    obtain ⟨s1, ls1, tr1⟩ := x
    simp only [ha, Option.bind_some] at h
    cases hb : M.run s1 ls1 b with
    | none => simp [hb] at h
    | some y =>
      obtain ⟨s2, ls2, tr2⟩ := y
      simp [hb] at h
      obtain ⟨rfl, rfl, rfl⟩ := h
      exact ⟨s1, ls1, tr1, tr2, rfl, hb, rfl⟩

/-- The first step of an execution. -/
theorem Machine.run_cons (M : Machine S L I E) {s0 : S} {l0 : Nat → L} {t i} {sched : List (Nat × I)} {s ls tr}
    (h : M.run s0 l0 ((t, i) :: sched) = some (s, ls, tr)) :
    ∃ s1 l1 es tr2, M.step t i s0 (l0 t) = some (s1, l1, es) ∧ M.run s1 (Function.update l0 t l1) sched = some (s, ls, tr2) ∧
      tr = es ++ tr2 := by
  simp only [run] at h
  cases ha : M.step t i s0 (l0 t) with
  | none => simp [ha] at h
  | some x =>
    obtain ⟨s1, l1, es⟩ := x
    simp only [ha] at h
    cases hb : M.run s1 (Function.update l0 t l1) sched with
    | none => simp [hb] at h
    | some y =>
      obtain ⟨s2, ls2, tr2⟩ := y
      simp [hb] at h
      obtain ⟨rfl, rfl, rfl⟩ := h
      exact ⟨s1, l1, es, tr2, rfl, hb, rfl⟩

/-- Every configuration passed through on the way: an execution can be cut at any event. -/
theorem Machine.cut (M : Machine S L I E) {s0 : S} {l0 : Nat → L} {sched s ls tr} (h : M.run s0 l0 sched = some (s, ls, tr))
    {a b : List E} {e : E} (he : tr = a ++ e :: b) :
    ∃ s1 ls1 tr1 sched1 t i s2 l2 es1 es2, M.run s0 l0 sched1 = some (s1, ls1, tr1) ∧ M.step t i s1 (ls1 t) = some (s2, l2, es1 ++ e :: es2) ∧
      a = tr1 ++ es1 := by
  revert a b e
  refine M.induct_reach (fun s ls tr => ∀ {a b e}, tr = a ++ e :: b → ∃ s1 ls1 tr1 sched1 t i s2 l2 es1 es2,
    M.run s0 l0 sched1 = some (s1, ls1, tr1) ∧ M.step t i s1 (ls1 t) = some (s2, l2, es1 ++ e :: es2) ∧ a = tr1 ++ es1) (by simp) ?_ sched s ls tr h
  intro s ls tr t i s' l' es ⟨sched, hr⟩ hi hst a b e he
  rcases List.append_eq_append_iff.1 he with ⟨x, h1, h2⟩ | ⟨x, h1, h2⟩
  · exact ⟨s, ls, tr, sched, t, i, s', l', x, b, hr, by rw [hst, h2], h1⟩
  · cases x with
    | nil =>
      simp at h1 h2
      exact ⟨s, ls, tr, sched, t, i, s', l', [], b, hr, by rw [hst, h2]; rfl, by simp [h1]⟩
    | cons y x =>
      simp at h2
      obtain ⟨rfl, rfl⟩ := h2
      exact hi h1

/-- What a goroutine is doing, as seen in the events of its step. -/
inductive LocalEv {Op R : Type} (t : Nat) : TS Op R → List (CEv Op R) → TS Op R → Prop where
  | none {a} : LocalEv t a [] a
  | inv {o} : LocalEv t .idle [.inv t o] (.pend o)
  | lin {o r} : LocalEv t (.pend o) [.lin t o r] (.done o r)
  | ret {o r} : LocalEv t (.done o r) [.ret t o r] .idle

/-- If every step's call events fit the state of the goroutine, the trace is well-formed. -/
theorem Machine.wf {Op R : Type} (M : Machine S L I E) (proj : E → Option (CEv Op R)) (abs : L → TS Op R) {s0 : S} {l0 : Nat → L}
    (P : L → Prop) (hP0 : ∀ t, P (l0 t))
    (h : ∀ t i s l s' l' es, P l → M.step t i s l = some (s', l', es) → P l' ∧ LocalEv t (abs l) (es.filterMap proj) (abs l'))
    (sched s ls tr) (hr : M.run s0 l0 sched = some (s, ls, tr)) :
    Wf (fun t => abs (l0 t)) (tr.filterMap proj) (fun t => abs (ls t)) := by
  suffices h : (∀ t, P (ls t)) ∧ Wf (fun t => abs (l0 t)) (tr.filterMap proj) (fun t => abs (ls t)) from h.2
  refine M.induct (fun _ ls tr => (∀ t, P (ls t)) ∧ Wf (fun t => abs (l0 t)) (tr.filterMap proj) (fun t => abs (ls t))) ⟨hP0, .nil⟩ ?_ sched s ls tr hr
  intro s ls tr t i s' l' es ⟨hp, hw⟩ hst
  obtain ⟨hp', hl⟩ := h _ _ _ _ _ _ _ (hp t) hst
  refine ⟨fun u => ?_, ?_⟩
  · by_cases hu : u = t
    · subst hu; simpa using hp'
    · simpa [Function.update_of_ne hu] using hp u
  rw [List.filterMap_append]
  refine hw.append ?_
  have e : (fun u => abs (Function.update ls t l' u)) = Function.update (fun u => abs (ls u)) t (abs l') := by
    funext u
    by_cases hu : u = t
    · subst hu; simp
    · simp [Function.update_of_ne hu]
  rw [e]
  generalize hes : es.filterMap proj = es' at hl
  generalize ha : abs (ls t) = a at hl
  generalize hb : abs l' = b at hl
  cases hl with
  | none =>
    refine Wf.nil' ?_
    rw [← ha]
    funext u
    by_cases hu : u = t
    · subst hu; simp
    · simp [Function.update_of_ne hu]
  | inv => exact .cons (.inv ha) .nil
  | lin => exact .cons (.lin ha) .nil
  | ret => exact .cons (.ret ha) .nil

end GoMetrics
