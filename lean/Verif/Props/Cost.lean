import Verif.Lemmas.Cost
import Verif.Go.F64

/-! C110: an update of an exponentially decaying sample costs little. -/

namespace GoMetrics
open Spec ExpDecaySample
variable {F : Type} [GoFloat F] [GoExp F]

/-- **C110, the counter counts and does nothing else.** Apart from the number of comparisons, the counting version gives the same results, and the same panics, as the model of all other properties. -/
theorem C110_counted (s : ExpDecaySample F) (ops : List (ExpOp F)) (n : Nat) : (s.runC ops n).map Prod.fst = s.run ops := runC_erases ops s n

/-- **C110, one update.** After any history, an `Update` of a sample of reservoir size `k` compares at most `3·log₂ k` pairs of priorities; if the hour of the sample is over, at which
all priorities are rescaled, at most `(k + 3)·log₂ k`. -/
theorem C110_update {k : Nat} (hk : 0 < k) {alpha : F} {now : Instant} {s0 s : ExpDecaySample F} (hnew : ExpDecaySample.new k alpha now = .ok s0) {ops : List (ExpOp F)}
    (hrun : s0.run ops = .ok s) (t : Instant) (v : Int64) (u : F) :
    ∃ s' c, s.updateC t v u 0 = .ok (s', c) ∧ s.update t v u = .ok s' ∧ c ≤ (k + 3) * Nat.log 2 k ∧ (t ≤ s.t1 → c ≤ 3 * Nat.log 2 k) := by
  obtain ⟨x, hx, hsh, _⟩ := new_shape k alpha now
  rw [hnew] at hx; cases hx
  obtain ⟨y, hy, hs, _⟩ := exp_run_induct k hk s0 hsh (fun _ _ => True) trivial (fun _ _ _ _ _ => trivial) (fun _ _ _ _ _ _ _ _ _ => trivial) ops
  rw [hrun] at hy; cases hy
  obtain ⟨s', _, _, e, _⟩ := update_spec k hk s hs t v u
  have he := updateC_erases s t v u 0
  rw [e] at he
  cases hc : s.updateC t v u 0 with
  | error p => rw [hc] at he; cases he
  | ok p =>
    obtain ⟨s'', c⟩ := p
    rw [hc] at he
    cases he
    have hb := (updateC_costs hk hs t v u 0 _ _ hc).1
    refine ⟨_, c, rfl, e, ?_, fun ht => ?_⟩
    · rw [Nat.add_mul]
      split at hb <;> omega
    · rw [if_neg (by omega)] at hb
      omega

/-- **C110, histories.** `n` updates by a clock that does not go back compare at most `3·n·log₂ k` pairs of priorities, and `k·log₂ k` for each full hour that the history takes. So an update takes
`O(log k)` comparisons on average, if there are at least `k` of them in an hour. -/
theorem C110_total {k : Nat} (hk : 0 < k) {alpha : F} {now : Instant} {s0 : ExpDecaySample F} (hnew : ExpDecaySample.new k alpha now = .ok s0) {ops : List (ExpOp F)} {until_ : Instant}
    (hord : InOrder now until_ ops) :
    ∃ s c, s0.runC ops 0 = .ok (s, c) ∧ s0.run ops = .ok s ∧ c ≤ 3 * updateCalls ops * Nat.log 2 k + hoursBetween now until_ * (k * Nat.log 2 k) := by
  obtain ⟨x, hx, hsh, _, _, _, h0, h1⟩ := new_shape k alpha now
  rw [hnew] at hx; cases hx
  obtain ⟨s, hs, _⟩ := exp_run_induct k hk s0 hsh (fun _ _ => True) trivial (fun _ _ _ _ _ => trivial) (fun _ _ _ _ _ _ _ _ _ => trivial) ops
  have he := runC_erases ops s0 0
  rw [hs] at he
  cases hc : s0.runC ops 0 with
  | error p => rw [hc] at he; cases he
  | ok p =>
    obtain ⟨s'', c⟩ := p
    rw [hc] at he
    cases he
    have hb := (runC_costs hk until_ ops s0 hsh (by rw [h0, h1]) (by rw [h0]; exact hord) 0 _ _ hc).1
    refine ⟨_, c, rfl, hs, ?_⟩
    rw [h0] at hb
    have e1 : 3 * Nat.log 2 k * updateCalls ops = 3 * updateCalls ops * Nat.log 2 k := by ring
    have e2 : k * Nat.log 2 k * hoursBetween now until_ = hoursBetween now until_ * (k * Nat.log 2 k) := by ring
    omega

/-- The bound is reached: a new smallest priority moves up all the way (here `log₂ 4 = 2` comparisons); so does the removal of the smallest (`2·log₂ 3 = 2`). -/
example : let i : Nat → Item F64 := fun n => ⟨GoFloat.ofInt n, 0⟩
    ((Heap.pushC ⟨[i 2, i 3, i 4], [i 0]⟩ (i 1) 0).map Prod.snd = .ok 2) ∧ ((Heap.popC ⟨[i 1, i 2, i 4, i 3], []⟩ 0).map Prod.snd = .ok 2) := by
  decide +kernel

/-- The hypotheses of C110_total are met, also by histories of more than an hour with a `Clear` in between (here: two full hours, three updates). -/
example : InOrder (F := F64) 5 (7200 * 10 ^ 9 + 5) [.update 6 10 (GoFloat.ofInt 1), .clear 7, .update (4000 * 10 ^ 9) 20 (GoFloat.ofInt 1), .update (7200 * 10 ^ 9 + 5) 30 (GoFloat.ofInt 1)] ∧
    hoursBetween 5 (7200 * 10 ^ 9 + 5) = 2 := by
  refine ⟨⟨?_, ?_⟩, ?_⟩
  · simp [opTime]
  · simp [opTime]
  · decide

end GoMetrics
