import Verif.Lemmas.TickLoop

/-!
C79. The loops around the exporters.

In every loop rounds never overlap. A loop driven by `time.Tick(d)`: no round ever if `d <= 0`; the first not before `d`; at most one round for each full period since the loop began; from any moment on, at
most `L/d + 3` rounds within time `L` (`L/d + 4` for `Log`, which holds a second tick back); and after every tick a round follows: as soon as the loop is idle it can begin (so a slow round delays, and may swallow
ticks, but never stops the export). A loop fed by the user (`LogOnCue`) makes exactly one round for each cue and none after the channel is closed. StatHat's loop leaves a pause of at least `d`.
-/

namespace GoMetrics
open Spec

/-- The state when `time.Tick(period)` is called. -/
def TickS.init (period : Int) : TickS := { due := period }

/-- **C79, in turn.** Rounds do not overlap. -/
theorem C79_in_turn (period : Int) (relay : Bool) {is s tr} (h : tickerRun period relay (.init period) is = some (s, tr)) : inTurn false tr := tick_inTurn is _ _ _ h

/-- **C79, never.** A period that is not positive: no round. -/
theorem C79_never {period : Int} (hp : period ≤ 0) (relay : Bool) {is s tr} (h : tickerRun period relay (.init period) is = some (s, tr)) : starts tr = 0 := by
  have hI := tick_inv h
  have h1 := hI.starts
  have h2 := hI.pos hp
  have h3 := starts_nonneg tr
  simp only [TickS.waiting, TickS.init] at h1
  split at h1 <;> split at h1 <;> simp_all <;> omega

/-- **C79, at most one round for each full period.** -/
theorem C79_rate {period : Int} (hp : 0 < period) (relay : Bool) {is s tr} (h : tickerRun period relay (.init period) is = some (s, tr)) : starts tr ≤ s.now / period := by
  have hI := tick_inv h
  have h1 := hI.starts
  have h3 : 0 ≤ s.waiting := by unfold TickS.waiting; split <;> split <;> omega
  have h0 : (TickS.init period).waiting = 0 := rfl
  rw [Int.le_ediv_iff_mul_le hp]
  have hle : starts tr * period ≤ fires tr * period := mul_le_mul_of_nonneg_right (by omega) (by omega)
  have hnow : 0 ≤ s.now := hI.now
  rcases hI.due with hd | hd
  · rw [hd.1, zero_mul] at hle; omega
  · have := hd.2.2.1
    have := hd.2.2.2
    simp only [TickS.init] at *
    omega

/-- **C79, from any moment on.** Within time `L = s'.now - s.now`, fewer than `L/period + 3` rounds begin (4 with a relay). -/
theorem C79_window {period : Int} (hp : 0 < period) (relay : Bool) {s : TickS} {is s' tr} (h0 : relay = false → s.held = false) (h : tickerRun period relay s is = some (s', tr)) :
    starts tr * period < (s'.now - s.now) + (if relay then 4 else 3) * period := by
  have hI := tick_inv h
  have h1 := hI.starts
  have h3 : 0 ≤ s'.waiting := by unfold TickS.waiting; split <;> split <;> omega
  have hw : s.waiting ≤ if relay then 2 else 1 := by
    unfold TickS.waiting
    cases relay with
    | true => simp only [if_true]; split <;> split <;> omega
    | false => simp only [h0 rfl]; split <;> simp
  have hle : starts tr * period ≤ ((if relay then 2 else 1) + fires tr) * period := mul_le_mul_of_nonneg_right (by omega) (by omega)
  have hnow := hI.now
  have hf : fires tr * period < (s'.now - s.now) + 2 * period := by
    rcases hI.due with hd | hd
    · rw [hd.1]; omega
    · have e : fires tr * period = (fires tr - 1) * period + period := by ring
      have := hd.2.1
      have := hd.2.2.2
      omega
  cases relay with
  | true => simp only [if_true] at *; rw [add_mul] at hle; omega
  | false => simp only [Bool.false_eq_true, if_false] at *; rw [add_mul] at hle; omega

/-- **C79, every tick is followed by a round.** If no round has begun since a tick, and none is running, one can begin now. -/
theorem C79_responds {period : Int} {relay : Bool} {s : TickS} {is s' tr} (h : tickerRun period relay s (.fire :: is) = some (s', tr)) (hz : starts tr = 0) (hb : s'.busy = false) :
    ∃ more s'' , tickerRun period relay s' more = some (s'', [.started s'.now]) := by
  simp only [tickerRun] at h
  split at h
  · cases h
  · rename_i s1 es1 h1
    split at h
    · cases h
    · rename_i s2 es2 h2
      simp only [Option.some.injEq, Prod.mk.injEq] at h
      obtain ⟨rfl, rfl⟩ := h
      rw [starts_append] at hz
      have n1 := starts_nonneg es1
      have n2 := starts_nonneg es2
      have hfull : s1.full = true := by
        simp only [tickerStep] at h1
        split at h1
        · simp only [Option.some.injEq, Prod.mk.injEq] at h1; rw [← h1.1]
        · cases h1
      have hw := tick_waits is s1 s2 es2 (.inl hfull) h2 (by omega)
      cases relay with
      | false => exact ⟨[.start], _, by simp_all [tickerRun, tickerStep]; rfl⟩
      | true =>
        cases hh : s2.held with
        | true => exact ⟨[.start], _, by simp_all [tickerRun, tickerStep]; rfl⟩
        | false => exact ⟨[.take, .start], _, by simp_all [tickerRun, tickerStep]; rfl⟩

/-- **C79, cues.** As many rounds as cues that have been received; none is received twice or forgotten. -/
theorem C79_cues {is s} (h : cueRun {} is = some s) : is.count .send = s.waiting + is.count .start := by
  have := (cue_count is _ _ h).1
  simpa using this

/-- **C79, close.** After the channel is closed no round begins. -/
theorem C79_close {is more s s'} (h : cueRun {} (is ++ [.close]) = some s) (h' : cueRun s more = some s') : more.count .start = 0 := by
  have hc : s.closed = true ∧ s.waiting = 0 := by
    have key : ∀ is s0, cueRun s0 (is ++ [.close]) = some s → s.closed = true ∧ s.waiting = 0 := by
      intro is
      induction is with
      | nil =>
        intro s0 h
        simp only [List.nil_append, cueRun, cueStep] at h
        split at h
        · cases h
        · rename_i s1 h1
          split at h1
          · cases h1
          · rename_i hn
            simp only [Option.some.injEq] at h h1
            subst h h1
            exact ⟨rfl, by simp only [not_or, not_lt, Nat.le_zero] at hn; exact hn.2⟩
      | cons i is ih =>
        intro s0 h
        simp only [List.cons_append, cueRun] at h
        split at h
        · cases h
        · exact ih _ h
    exact key is _ h
  have h1 := (cue_count more s s' h').1
  have h2 := (cue_count more s s' h').2 hc.1 hc.2
  omega

/-- **C79, StatHat.** The loop starts at once, rounds do not overlap, and between the end of one and the beginning of the next there is at least `d`. -/
theorem C79_sleep (d : Int) {is s tr} (h : sleepRun d {} is = some (s, tr)) : inTurn false tr ∧ apart d none tr := sleep_apart is _ _ _ none (by simp) h
example (d : Int) : sleepRun d {} [.start] = some (⟨0, none⟩, [.started 0]) := rfl

-- Period 10: ticks at 10, 20 (late, at 23), 30; the round that begins at 10 takes until 32. The tick of 30 is lost.
example : tickerRun 10 false (.init 10) [.pass 10, .fire, .start, .pass 13, .fire, .pass 7, .fire, .pass 2, .stop, .start, .stop, .pass 8, .fire, .start] =
    some (⟨40, 50, false, false, true⟩, [.fired 10, .started 10, .fired 23, .fired 30, .stopped 32, .started 32, .stopped 32, .fired 40, .started 40]) := by decide
-- The same with a relay: no tick is lost.
example : tickerRun 10 true (.init 10) [.pass 10, .fire, .take, .start, .pass 13, .fire, .take, .pass 7, .fire, .pass 2, .stop, .start, .stop, .take, .start, .stop, .pass 8, .fire] =
    some (⟨40, 50, true, false, false⟩, [.fired 10, .started 10, .fired 23, .fired 30, .stopped 32, .started 32, .stopped 32, .started 32, .stopped 32, .fired 40]) := by decide
example : cueRun {} [.send, .send, .start, .stop, .start, .close, .stop, .leave] = some ⟨0, false, true, true⟩ := by decide
example : sleepRun 10 {} [.start, .pass 3, .stop, .pass 10, .start] = some (⟨13, none⟩, [.started 0, .stopped 3, .started 13]) := by decide
-- A second round begins right after a slow one, and the bound of `C79_window` for `L = 0` allows two rounds without relay.
example : tickerRun 10 false ⟨25, 20, true, false, false⟩ [.start, .stop, .fire, .start] = some (⟨25, 30, false, false, true⟩, [.started 25, .stopped 25, .fired 25, .started 25]) := by decide

end GoMetrics
