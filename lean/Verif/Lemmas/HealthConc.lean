import Verif.Spec.HealthConc
import Verif.Lemmas.Machine
import Mathlib.Data.List.Induction

/-! Invariant of the healthcheck machine. -/

namespace GoMetrics
open Spec

theorem statusAfter_append (a b : List HealthEv) (h : verdicts b = []) : statusAfter (a ++ b) = statusAfter a := by
  have : verdicts (a ++ b) = verdicts a := by rw [verdicts, List.filterMap_append, ← verdicts, ← verdicts, h, List.append_nil]
  rw [statusAfter, this, statusAfter]

theorem statusAfter_wrote (a : List HealthEv) (t : Nat) (v : Verdict) : statusAfter (a ++ [.wrote t v]) = v.status := by
  simp only [statusAfter, verdicts, List.filterMap_append, List.filterMap_cons, List.filterMap_nil, lastVerdict, List.getLast?_append, List.getLast?_singleton, Option.some_or, Option.map_some, Option.getD_some]
  cases v <;> rfl

/-- Somebody must have made the healthcheck healthy. -/
theorem healed (p q : List HealthEv) (hp : statusAfter p ≠ none) (hq : statusAfter (p ++ q) = none) : ∃ q1 u v q2, q = q1 ++ .wrote u v :: q2 ∧ v.status = none := by
  induction q using List.reverseRecOn with
  | nil => simp_all
  | append_singleton q e ih =>
    rw [← List.append_assoc] at hq
    have key : verdicts [e] = [] → ∃ q1 u v q2, q ++ [e] = q1 ++ .wrote u v :: q2 ∧ v.status = none := by
      intro he
      rw [statusAfter_append _ _ he] at hq
      obtain ⟨q1, u, v, q2, h, hv⟩ := ih hq
      exact ⟨q1, u, v, q2 ++ [e], by simp [h], hv⟩
    cases e with
    | wrote u v => rw [statusAfter_wrote] at hq; exact ⟨q, u, v, [], rfl, hq⟩
    | call => exact key rfl
    | reported => exact key rfl
    | done => exact key rfl

/-- Where goroutine `t` is, and what the events say about it. -/
def HealthAt (tr : List HealthEv) (t : Nat) : HealthL → Prop
  | .idle => True
  | .checking c _ => ∃ before asked, reporting t c tr before asked []
  | .reading c => ∃ before asked after, reporting t c tr before asked after
  | .again => ∃ before asked a1 a2, reporting t .getAll tr before asked (a1 ++ a2) ∧ statusAfter (before ++ .call t .getAll :: (asked ++ a1)) ≠ none

def HealthInv (err : GoError) (ls : Nat → HealthL) (tr : List HealthEv) : Prop := err = statusAfter tr ∧ ∀ t, HealthAt tr t (ls t)

theorem HealthAt.frame {tr : List HealthEv} {u : Nat} {l : HealthL} (h : HealthAt tr u l) (es : List HealthEv) (he : ∀ e ∈ es, HealthEv.by_ e ≠ u) : HealthAt (tr ++ es) u l := by
  cases l with
  | idle => trivial
  | checking c vs =>
    obtain ⟨before, asked, h1, h2, h3⟩ := h
    refine ⟨before, asked ++ es, by simp [h1], ?_, by simp⟩
    intro e h
    rcases List.mem_append.1 h with h | h
    · exact h2 e h
    · exact fun hu => absurd hu (he e h)
  | reading c =>
    obtain ⟨before, asked, after, h1, h2, h3⟩ := h
    refine ⟨before, asked, after ++ es, by simp [h1], h2, ?_⟩
    intro e h
    rcases List.mem_append.1 h with h | h
    · exact h3 e h
    · exact he e h
  | again =>
    obtain ⟨before, asked, a1, a2, ⟨h1, h2, h3⟩, h4⟩ := h
    refine ⟨before, asked, a1, a2 ++ es, ⟨by simp [h1], h2, ?_⟩, h4⟩
    intro e h
    rw [← List.append_assoc] at h
    rcases List.mem_append.1 h with h | h
    · exact h3 e h
    · exact he e h

theorem reporting_self {t : Nat} {c : HealthCall} {tr before asked after : List HealthEv} (h : reporting t c tr before asked after) : before ++ .call t c :: (asked ++ after) = tr := h.1.symm

/-- The events of a step are those of the goroutine that takes it. -/
theorem healthStep_by {t i s l s' l' es} (h : healthStep t i s l = some (s', l', es)) : ∀ e ∈ es, HealthEv.by_ e = t := by
  unfold healthStep at h
  split at h <;> (try split at h) <;> first | (cases h; done) | (simp only [Option.some.injEq, Prod.mk.injEq] at h; obtain ⟨-, -, rfl⟩ := h; simp [HealthEv.by_])

theorem healthStep_inv {t i s l s' l' es} {tr : List HealthEv} (h : healthStep t i s l = some (s', l', es)) (hs : s = statusAfter tr) (hl : HealthAt tr t l) :
    s' = statusAfter (tr ++ es) ∧ HealthAt (tr ++ es) t l' := by
  unfold healthStep at h
  split at h
  · cases h
    have e : ∀ v, tr ++ [.call t (.set v), .wrote t v, .done t] = (tr ++ [.call t (.set v)] ++ [.wrote t v]) ++ [.done t] := by simp
    rw [e]
    exact ⟨by rw [statusAfter_append _ _ rfl, statusAfter_wrote], trivial⟩
  · cases h
    refine ⟨by rw [statusAfter_append _ _ rfl, hs], tr, [], by simp, by simp, by simp⟩
  · cases h
    obtain ⟨before, asked, h1, h2, h3⟩ := hl
    rename_i c v vs
    refine ⟨by rw [statusAfter_wrote], before, asked ++ [.wrote t v], by simp [h1], ?_, by simp⟩
    intro e he hu
    rcases List.mem_append.1 he with h | h
    · exact h2 e h hu
    · exact ⟨v, by simpa using h⟩
  · cases h
    exact ⟨by rw [statusAfter_append _ _ rfl, hs], trivial⟩
  · cases h
    rw [List.append_nil]
    obtain ⟨before, asked, h⟩ := hl
    exact ⟨hs, before, asked, [], h⟩
  · split at h
    · cases h
      exact ⟨by rw [statusAfter_append _ _ rfl, hs], trivial⟩
    · cases h
      rw [List.append_nil]
      obtain ⟨before, asked, after, h⟩ := hl
      refine ⟨hs, before, asked, after, [], by simpa using h, ?_⟩
      rw [reporting_self h, ← hs]
      simp
  · cases h
    exact ⟨by rw [statusAfter_append _ _ rfl, hs], trivial⟩
  · split at h <;> cases h <;> exact ⟨by rw [statusAfter_append _ _ rfl, hs], trivial⟩
  · cases h

theorem health_inv {sched s ls tr} (h : healthMachine.run none (fun _ => .idle) sched = some (s, ls, tr)) : HealthInv s ls tr := by
  refine healthMachine.induct (l0 := fun _ => HealthL.idle) HealthInv ⟨rfl, fun _ => trivial⟩ ?_ sched s ls tr h
  rintro s ls tr t i s' l' es ⟨hs, hl⟩ hst
  obtain ⟨h1, h2⟩ := healthStep_inv hst hs (hl t)
  refine ⟨h1, fun u => ?_⟩
  by_cases hu : u = t
  · subst hu; simpa using h2
  · rw [Function.update_of_ne hu]
    exact (hl u).frame es fun e he hb => hu (by rw [← hb, healthStep_by hst e he])

/-- What is known when a report ends. -/
theorem report_inv {t t' i s l s' l' es1 es2 r} {tr : List HealthEv} (h : healthStep t' i s l = some (s', l', es1 ++ .reported t r :: es2)) (hs : s = statusAfter tr) (hl : HealthAt tr t' l) :
    es1 = [] ∧ t = t' ∧ ((∃ e, r = .ok e ∧ e = s ∧ ∃ c before asked after, reporting t c tr before asked after) ∨
      (r = .error .nilDeref ∧ s = none ∧ ∃ before asked a1 a2, reporting t .getAll tr before asked (a1 ++ a2) ∧ statusAfter (before ++ .call t .getAll :: (asked ++ a1)) ≠ none)) := by
  unfold healthStep at h
  split at h <;> (try split at h) <;> (try cases h) <;> simp only [Option.some.injEq, Prod.mk.injEq] at h <;> obtain ⟨-, -, h⟩ := h
  all_goals
    rcases es1 with _ | ⟨a, _ | ⟨b, _ | ⟨c, es1⟩⟩⟩ <;> simp at h
  all_goals
    obtain ⟨⟨rfl, rfl⟩, rfl⟩ := h
    refine ⟨rfl, rfl, ?_⟩
  · obtain ⟨before, asked, after, h⟩ := hl
    exact .inl ⟨_, rfl, rfl, _, before, asked, after, h⟩
  · obtain ⟨before, asked, after, h⟩ := hl
    exact .inl ⟨_, rfl, rfl, _, before, asked, after, h⟩
  · exact .inr ⟨rfl, rfl, hl⟩
  · obtain ⟨before, asked, a1, a2, h, -⟩ := hl
    exact .inl ⟨_, rfl, rfl, _, before, asked, a1 ++ a2, h⟩

end GoMetrics
