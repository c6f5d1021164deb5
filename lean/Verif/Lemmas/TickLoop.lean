import Verif.Spec.TickLoop
import Mathlib.Tactic.Linarith
import Mathlib.Tactic.Ring

/-! Invariants of the ticker loops. -/

namespace GoMetrics
open Spec

theorem starts_append (a b : List TickEv) : starts (a ++ b) = starts a + starts b := by
  induction a with
  | nil => simp [starts]
  | cons e a ih => cases e <;> simp [starts, ih] <;> omega

theorem fires_append (a b : List TickEv) : fires (a ++ b) = fires a + fires b := by
  induction a with
  | nil => simp [fires]
  | cons e a ih => cases e <;> simp [fires, ih] <;> omega

theorem starts_nonneg (a : List TickEv) : 0 ≤ starts a := by
  induction a with
  | nil => simp [starts]
  | cons e a ih => cases e <;> simp [starts] <;> omega

theorem fires_nonneg (a : List TickEv) : 0 ≤ fires a := by
  induction a with
  | nil => simp [fires]
  | cons e a ih => cases e <;> simp [fires] <;> omega

/-- Induction over the runs from a state, by their last step. -/
theorem tick_induct {period : Int} {relay : Bool} (P : TickS → List TickEv → Prop) (hs : ∀ s tr i s' es, P s tr → tickerStep period relay s i = some (s', es) → P s' (tr ++ es)) :
    ∀ is s0 tr0 s tr, P s0 tr0 → tickerRun period relay s0 is = some (s, tr) → P s (tr0 ++ tr) := by
  intro is
  induction is with
  | nil => intro s0 tr0 s tr h0 h; simp only [tickerRun, Option.some.injEq, Prod.mk.injEq] at h; obtain ⟨rfl, rfl⟩ := h; simpa using h0
  | cons i is ih =>
    intro s0 tr0 s tr h0 h
    simp only [tickerRun] at h
    split at h
    · cases h
    · rename_i s1 es1 h1
      split at h
      · cases h
      · rename_i s2 es2 h2
        simp only [Option.some.injEq, Prod.mk.injEq] at h
        obtain ⟨rfl, rfl⟩ := h
        rw [← List.append_assoc]
        exact ih s1 _ _ _ (hs _ _ _ _ _ h0 h1) h2

/-- Ticks waiting. -/
def TickS.waiting (s : TickS) : Int := (if s.full then 1 else 0) + (if s.held then 1 else 0)

theorem due_next {period due now : Int} (hp : 0 < period) (h : due ≤ now) : now < due + period * (1 + (now - due) / period) ∧ due + period * (1 + (now - due) / period) ≤ now + period ∧
    due + period ≤ due + period * (1 + (now - due) / period) := by
  have h1 := Int.emod_add_mul_ediv (now - due) period
  have h2 := Int.emod_nonneg (now - due) (by omega : period ≠ 0)
  have h3 := Int.emod_lt_of_pos (now - due) hp
  have h4 : 0 ≤ (now - due) / period := Int.ediv_nonneg (by omega) (by omega)
  have h5 : 0 ≤ period * ((now - due) / period) := mul_nonneg (by omega) h4
  have h6 : period * (1 + (now - due) / period) = period + period * ((now - due) / period) := by ring
  rw [h6]
  omega

/-- From a state on: rounds do not outnumber the ticks waiting and fired; the timer fires at most once for each period. -/
structure TickerInv (period : Int) (s0 s : TickS) (tr : List TickEv) : Prop where
  now : s0.now ≤ s.now
  starts : starts tr + s.waiting ≤ s0.waiting + fires tr
  due : (fires tr = 0 ∧ s.due = s0.due) ∨ (1 ≤ fires tr ∧ s0.now + (fires tr - 1) * period < s.due ∧ s0.due + fires tr * period ≤ s.due ∧ s.due ≤ s.now + period)
  pos : period ≤ 0 → fires tr = 0

theorem tick_inv {period : Int} {relay : Bool} {s0 s : TickS} {is : List TickIn} {tr : List TickEv} (h : tickerRun period relay s0 is = some (s, tr)) : TickerInv period s0 s tr := by
  have := tick_induct (P := TickerInv period s0) (period := period) (relay := relay) ?_ is s0 [] s tr ⟨le_refl _, by simp [starts, fires], .inl ⟨rfl, rfl⟩, fun _ => rfl⟩ h
  · simpa using this
  · intro s tr i s' es hI hst
    cases i with
    | pass dt =>
      simp only [tickerStep, Option.some.injEq, Prod.mk.injEq] at hst
      obtain ⟨rfl, rfl⟩ := hst
      refine ⟨by have := hI.now; simp only; omega, by simpa [TickS.waiting] using hI.starts, ?_, by simpa using hI.pos⟩
      rcases hI.due with h | h
      · left; simpa using h
      · right; simp only [List.append_nil]; exact ⟨h.1, h.2.1, h.2.2.1, by omega⟩
    | fire =>
      simp only [tickerStep] at hst
      split at hst
      · rename_i hc
        simp only [Option.some.injEq, Prod.mk.injEq] at hst
        obtain ⟨rfl, rfl⟩ := hst
        have hn := due_next hc.1 hc.2
        have hnow := hI.now
        refine ⟨hI.now, ?_, .inr ?_, fun h => absurd hc.1 (by omega)⟩
        · have := hI.starts
          rw [starts_append, fires_append]
          simp only [TickS.waiting, starts, fires] at this ⊢
          split at this <;> simp_all <;> omega
        · rw [fires_append]
          simp only [fires]
          rcases hI.due with h | h
          · rw [h.1, ← h.2]
            refine ⟨by omega, ?_, ?_, hn.2.1⟩
            · simp only [add_zero, zero_add, sub_self, zero_mul]; omega
            · simp only [add_zero, zero_add, one_mul]; omega
          · have e1 : (fires tr + (1 + 0) - 1) * period = (fires tr - 1) * period + period := by ring
            have e2 : (fires tr + (1 + 0)) * period = fires tr * period + period := by ring
            rw [e1, e2]
            exact ⟨by omega, by omega, by omega, hn.2.1⟩
      · cases hst
    | take =>
      simp only [tickerStep] at hst
      split at hst
      · rename_i hc
        simp only [Option.some.injEq, Prod.mk.injEq] at hst
        obtain ⟨rfl, rfl⟩ := hst
        refine ⟨hI.now, ?_, by simpa using hI.due, by simpa using hI.pos⟩
        have := hI.starts
        simp only [TickS.waiting, List.append_nil] at this ⊢
        simp_all
      · cases hst
    | start =>
      simp only [tickerStep] at hst
      split at hst
      · cases hst
      · split at hst
        · split at hst
          · simp only [Option.some.injEq, Prod.mk.injEq] at hst
            obtain ⟨rfl, rfl⟩ := hst
            refine ⟨hI.now, ?_, by simpa [fires_append, fires] using hI.due, by simpa [fires_append, fires] using hI.pos⟩
            have := hI.starts
            rw [starts_append, fires_append]
            simp only [TickS.waiting, starts, fires] at this ⊢
            simp_all
            omega
          · cases hst
        · split at hst
          · simp only [Option.some.injEq, Prod.mk.injEq] at hst
            obtain ⟨rfl, rfl⟩ := hst
            refine ⟨hI.now, ?_, by simpa [fires_append, fires] using hI.due, by simpa [fires_append, fires] using hI.pos⟩
            have := hI.starts
            rw [starts_append, fires_append]
            simp only [TickS.waiting, starts, fires] at this ⊢
            simp_all
            omega
          · cases hst
    | stop =>
      simp only [tickerStep] at hst
      split at hst
      · simp only [Option.some.injEq, Prod.mk.injEq] at hst
        obtain ⟨rfl, rfl⟩ := hst
        refine ⟨hI.now, ?_, by simpa [fires_append, fires] using hI.due, by simpa [fires_append, fires] using hI.pos⟩
        have := hI.starts
        rw [starts_append, fires_append]
        simpa [TickS.waiting, starts, fires] using this
      · cases hst

theorem tick_inTurn {period : Int} {relay : Bool} (is : List TickIn) : ∀ (s0 s : TickS) (tr : List TickEv), tickerRun period relay s0 is = some (s, tr) → inTurn s0.busy tr := by
  induction is with
  | nil => intro s0 s tr h; simp only [tickerRun, Option.some.injEq, Prod.mk.injEq] at h; obtain ⟨-, rfl⟩ := h; trivial
  | cons i is ih =>
    intro s0 s tr h
    simp only [tickerRun] at h
    split at h
    · cases h
    · rename_i s1 es1 h1
      split at h
      · cases h
      · rename_i s2 es2 h2
        simp only [Option.some.injEq, Prod.mk.injEq] at h
        obtain ⟨rfl, rfl⟩ := h
        have hr := ih s1 s2 es2 h2
        cases i <;> simp only [tickerStep] at h1 <;> (repeat' split at h1) <;> simp only [Option.some.injEq, Prod.mk.injEq, reduceCtorEq] at h1 <;> obtain ⟨rfl, rfl⟩ := h1 <;> simp_all [inTurn]

/-- A tick in the buffer or with the relay stays there until a round begins. -/
theorem tick_waits {period : Int} {relay : Bool} (is : List TickIn) : ∀ (s0 s : TickS) (tr : List TickEv), (s0.full = true ∨ (relay = true ∧ s0.held = true)) → tickerRun period relay s0 is = some (s, tr) → starts tr = 0 →
    s.full = true ∨ (relay = true ∧ s.held = true) := by
  induction is with
  | nil => intro s0 s tr hf h _; simp only [tickerRun, Option.some.injEq, Prod.mk.injEq] at h; obtain ⟨rfl, -⟩ := h; exact hf
  | cons i is ih =>
    intro s0 s tr hf h hz
    simp only [tickerRun] at h
    split at h
    · cases h
    · rename_i s1 es1 h1
      split at h
      · cases h
      · rename_i s2 es2 h2
        simp only [Option.some.injEq, Prod.mk.injEq] at h
        obtain ⟨rfl, rfl⟩ := h
        rw [starts_append] at hz
        have n1 := starts_nonneg es1
        have n2 := starts_nonneg es2
        refine ih s1 s2 es2 ?_ h2 (by omega)
        cases i <;> simp only [tickerStep] at h1 <;> (repeat' split at h1) <;> simp only [Option.some.injEq, Prod.mk.injEq, reduceCtorEq] at h1 <;> obtain ⟨rfl, rfl⟩ := h1 <;>
          simp_all [starts] <;> omega

theorem sleep_apart {d : Int} (is : List SleepIn) : ∀ (s0 s : SleepS) (tr : List TickEv) (last : Option Int), (∀ u t, last = some u → s0.wake = some t → u + d ≤ t) → sleepRun d s0 is = some (s, tr) →
    inTurn s0.wake.isNone tr ∧ apart d last tr := by
  induction is with
  | nil => intro s0 s tr last _ h; simp only [sleepRun, Option.some.injEq, Prod.mk.injEq] at h; obtain ⟨-, rfl⟩ := h; exact ⟨trivial, trivial⟩
  | cons i is ih =>
    intro s0 s tr last hl h
    simp only [sleepRun] at h
    split at h
    · cases h
    · rename_i s1 es1 h1
      split at h
      · cases h
      · rename_i s2 es2 h2
        simp only [Option.some.injEq, Prod.mk.injEq] at h
        obtain ⟨rfl, rfl⟩ := h
        cases i with
        | pass dt =>
          simp only [sleepStep, Option.some.injEq, Prod.mk.injEq] at h1
          obtain ⟨rfl, rfl⟩ := h1
          exact ih ⟨s0.now + dt, s0.wake⟩ _ _ last hl h2
        | start =>
          simp only [sleepStep] at h1
          split at h1
          · rename_i t ht
            split at h1
            · rename_i hle
              simp only [Option.some.injEq, Prod.mk.injEq] at h1
              obtain ⟨rfl, rfl⟩ := h1
              have := ih _ _ _ last (by simp) h2
              exact ⟨⟨by simp [ht], this.1⟩, fun u hu => le_trans (hl u t hu ht) hle, this.2⟩
            · cases h1
          · cases h1
        | stop =>
          simp only [sleepStep] at h1
          split at h1
          · cases h1
          · rename_i ht
            simp only [Option.some.injEq, Prod.mk.injEq] at h1
            obtain ⟨rfl, rfl⟩ := h1
            have := ih _ _ _ (some s0.now) (by
              simp only [Option.some.injEq]
              rintro u t rfl rfl
              have := le_max_left d 0
              omega) h2
            exact ⟨⟨by simp [ht], this.1⟩, this.2⟩

theorem cue_count (is : List CueIn) : ∀ (s0 s : CueS), cueRun s0 is = some s → s0.waiting + is.count .send = s.waiting + is.count .start ∧ (s0.closed = true → s0.waiting = 0 → s.waiting = 0 ∧ is.count .send = 0) := by
  induction is with
  | nil => intro s0 s h; simp only [cueRun, Option.some.injEq] at h; subst h; simp
  | cons i is ih =>
    intro s0 s h
    simp only [cueRun] at h
    split at h
    · cases h
    · rename_i s1 h1
      have := ih s1 s h
      cases i <;> simp only [cueStep] at h1 <;> split at h1 <;> simp only [Option.some.injEq, reduceCtorEq] at h1 <;> subst h1 <;> simp_all <;> omega

end GoMetrics
