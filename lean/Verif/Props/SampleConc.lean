import Verif.Lemmas.SampleConc
import Verif.Lemmas.SnapshotConc
import Verif.Go.F64

/-!
C82. Samples used by several goroutines.

Every method of a uniform sample and of an exponentially decaying sample is a program of many steps on the sample's fields. In every interleaving of any number of calls by any number of goroutines the calls behave as if each
had run by itself at one moment between its invocation and its return (linearizability with respect to the sequential model); two goroutines are never at the fields at once; somebody can always go on. When all calls have
returned, the sample is one that a sequence of the same `Update` and `Clear` calls leads to, so that all that is proved about sequential histories (C19 to C28) holds.
-/

namespace GoMetrics
open Spec

variable {F : Type} [GoFloat F] [GoSqrt F]

/-- **C82, UniformSample.** Linearizable. -/
theorem C82_uniform {sorter : Nat → MemProg Unit} (hs : SortsInPlace sorter) {s0 : UniformSample} {sched s ls tr}
    (h : (bodyMachine (uniformBody (F := F) sorter)).run ⟨none, s0⟩ (fun _ => .idle) sched = some (s, ls, tr)) : Linearizable UniformCall s0 (hist tr) := by
  obtain ⟨a, hi⟩ := body_inv (uniformBody_guarded sorter) h
  exact ⟨tr, _, a, rfl, body_wf (uniformBody_guarded sorter) h, hi.run.mono fun _ _ _ _ hc => uniformBody_alone hs hc⟩

/-- **C82, UniformSample.** Two goroutines are never at the fields at once. -/
theorem C82_uniform_exclusive (sorter : Nat → MemProg Unit) {s0 : UniformSample} {sched s ls tr}
    (h : (bodyMachine (uniformBody (F := F) sorter)).run ⟨none, s0⟩ (fun _ => .idle) sched = some (s, ls, tr)) {t u : Nat} (ht : touching (ls t)) (hu : touching (ls u)) : t = u := by
  obtain ⟨a, hi⟩ := body_inv (uniformBody_guarded sorter) h
  exact hi.exclusive ht hu

/-- **C82, UniformSample.** As long as a call has not returned, a goroutine in a call can go on. -/
theorem C82_uniform_progress (sorter : Nat → MemProg Unit) {s0 : UniformSample} {sched s ls tr}
    (h : (bodyMachine (uniformBody (F := F) sorter)).run ⟨none, s0⟩ (fun _ => .idle) sched = some (s, ls, tr)) {t : Nat} (ht : ls t ≠ .idle) :
    ∃ u i, ls u ≠ .idle ∧ ((bodyMachine (uniformBody sorter)).step u i s (ls u)).isSome := by
  obtain ⟨a, hi⟩ := body_inv (uniformBody_guarded sorter) h
  exact hi.progress ht

/-- **C82, UniformSample.** All calls have returned (fewer than 2^63 of them updates): a sequence of the same updates and clears leads to the same sample. -/
theorem C82_uniform_history {sorter : Nat → MemProg Unit} (hs : SortsInPlace sorter) (k : Nat) {s0 : UniformSample} (hnew : UniformSample.new k = .ok s0) {sched s ls tr}
    (h : (bodyMachine (uniformBody (F := F) sorter)).run ⟨none, s0⟩ (fun _ => .idle) sched = some (s, ls, tr)) (hidle : ∀ t, ls t = .idle) (hn : (updated (invoked tr)).length < 2 ^ 63) :
    ∃ ops, s0.run ops = .ok s.obj ∧ (uniformCalls ops).Perm ((invoked tr).filter changes) := by
  obtain ⟨a, hi⟩ := body_inv (uniformBody_guarded sorter) h
  have hp := body_calls (uniformBody_guarded sorter) h hidle
  obtain ⟨x, hx, hinv⟩ := uniform_new_inv k
  rw [hnew] at hx; cases hx
  obtain ⟨ops, h1, h2⟩ := uniform_history (pre := []) hinv rfl (hi.run.mono fun _ _ _ _ hc => uniformBody_alone hs hc) (by
    have : (updated ((linSeq tr).map Prod.fst)).length = (updated (invoked tr)).length := (hp.filterMap _).length_eq
    simpa [nUpdates, this] using hn)
  rw [hi.idle hidle]
  exact ⟨ops, h1, h2 ▸ hp.filter _⟩

/-- **C82, UniformSample.** Nothing is lost: at most `k` updates by any number of goroutines, no clear, all calls returned: the sample holds exactly the values given, and has counted them. -/
theorem C82_uniform_keeps_all {sorter : Nat → MemProg Unit} (hs : SortsInPlace sorter) (k : Nat) {s0 : UniformSample} (hnew : UniformSample.new k = .ok s0) {sched s ls tr}
    (h : (bodyMachine (uniformBody (F := F) sorter)).run ⟨none, s0⟩ (fun _ => .idle) sched = some (s, ls, tr)) (hidle : ∀ t, ls t = .idle) (hn : (updated (invoked tr)).length < 2 ^ 63)
    (hk : (updated (invoked tr)).length ≤ k) (hc : SampleCall.clear ∉ invoked tr) : s.obj.values.Perm (updated (invoked tr)) ∧ s.obj.count.toInt = (updated (invoked tr)).length := by
  obtain ⟨ops, h1, h2⟩ := C82_uniform_history hs k hnew h hidle hn
  obtain ⟨x, hx, hinv⟩ := uniform_new_inv k
  rw [hnew] at hx; cases hx
  have hu := uniform_run_inv hinv ops _ h1
  have hg : (uniformGiven ops).Perm (updated (invoked tr)) := by
    rw [uniformGiven_no_clear (F := F) (fun hm => hc (List.mem_of_mem_filter (h2.subset hm)))]
    exact (h2.filterMap _).trans (by rw [show List.filterMap _ _ = updated ((invoked tr).filter changes) from rfl, updated_changes])
  refine ⟨(hu.perm (hg.length_eq ▸ hk)).trans hg, ?_⟩
  rw [hu.count, hg.length_eq, bmod_small (by omega) (by omega)]

/-- **C82, UniformSample.** Whatever `Values` returns, at any time, are values given by updates invoked before it returned, none of them more often than given. -/
theorem C82_uniform_only_given {sorter : Nat → MemProg Unit} (hs : SortsInPlace sorter) (k : Nat) {s0 : UniformSample} (hnew : UniformSample.new k = .ok s0) {sched s ls tr}
    (h : (bodyMachine (uniformBody (F := F) sorter)).run ⟨none, s0⟩ (fun _ => .idle) sched = some (s, ls, tr)) {a b t l} (htr : tr = a ++ .ret t .values (.vals l) :: b)
    (hn : (updated (invoked a)).length < 2 ^ 63) : l.Subperm (updated (invoked a)) := by
  classical
  have hw := body_wf (uniformBody_guarded sorter) h
  obtain ⟨x, hi⟩ := body_inv (uniformBody_guarded sorter) h
  subst htr
  obtain ⟨st, hwa, hwb⟩ := hw.split
  obtain ⟨a1, a2, rfl⟩ : ∃ a1 a2, a = a1 ++ .lin t .values (.vals l) :: a2 := by
    cases hwb with
    | cons hs' _ => cases hs' with
      | ret hd => exact hwa.done_lin hd
  have hr := hi.run
  simp only [linSeq_append, List.append_assoc] at hr
  obtain ⟨y, hr1, hr2⟩ := hr.split
  have hr1' := hr1.mono (B := UniformCall) fun _ _ _ _ hc => uniformBody_alone hs hc
  have hl : l = y.values := by
    cases hr2 with
    | cons hc _ =>
      have := (uniformBody_alone hs hc).1
      cases this; rfl
  have hsub : ((linSeq a1).map Prod.fst).Subperm (invoked (a1 ++ .lin t .values (.vals l) :: a2)) := by
    obtain ⟨st1, hw1, -⟩ := hwa.split
    rw [linSeq_map_fst]
    refine (subperm_map Prod.snd hw1.lins_subperm_invs).trans ?_
    unfold invoked
    rw [invs_append, List.map_append]
    exact (List.sublist_append_left _ _).subperm
  have hsub' : (updated ((linSeq a1).map Prod.fst)).Subperm (updated (invoked (a1 ++ .lin t .values (.vals l) :: a2))) := subperm_filterMap _ hsub
  obtain ⟨x, hx, hinv⟩ := uniform_new_inv k
  rw [hnew] at hx; cases hx
  obtain ⟨ops, h1, h2⟩ := uniform_history (pre := []) hinv rfl hr1' (by
    have := hsub'.length_le
    simp only [nUpdates, List.countP_nil]; omega)
  refine .trans ?_ hsub'
  rw [hl]
  refine (uniform_run_inv hinv ops _ h1).sub.trans ?_
  rw [← updated_changes ((linSeq a1).map Prod.fst), ← h2]
  exact uniformGiven_subperm ops

/-- `n` steps of goroutine `t`. -/
def bodySteps {Op X : Type} (t n : Nat) : List (Nat × BodyIn Op X) := List.replicate n (t, .step)

/-- A sample of size 2. Goroutine 1 has the mutex and has read the count; goroutine 2 is waiting for the mutex. -/
def uniformWait : List (Nat × BodyIn (SampleCall F64) Nat) := [(1, .call (.update 7)), (2, .call (.update 9))] ++ bodySteps 1 2

/-- Goroutine 2 is blocked. -/
example : ((bodyMachine (uniformBody (F := F64) sortProg)).run ⟨none, ⟨0, 2, []⟩⟩ (fun _ => .idle) uniformWait).isSome ∧
    (bodyMachine (uniformBody (F := F64) sortProg)).run ⟨none, ⟨0, 2, []⟩⟩ (fun _ => .idle) (uniformWait ++ [(2, .step)]) = none := ⟨rfl, rfl⟩

/-- Both calls end; a third goroutine, invoked before goroutine 2's effect, reads the values after it. -/
def uniformBoth : List (Nat × BodyIn (SampleCall F64) Nat) := uniformWait ++ bodySteps 1 3 ++ [(3, .call .values)] ++ bodySteps 1 2 ++ bodySteps 2 7 ++ bodySteps 3 6

def uniformBothTrace : List (CEv (SampleCall F64) (SampleRes F64)) :=
  [.inv 1 (.update 7), .inv 2 (.update 9), .inv 3 .values, .lin 1 (.update 7) .unit, .ret 1 (.update 7) .unit, .lin 2 (.update 9) .unit, .ret 2 (.update 9) .unit, .lin 3 .values (.vals [7, 9]), .ret 3 .values (.vals [7, 9])]

deriving instance DecidableEq for CEv

example : (match (bodyMachine (uniformBody (F := F64) sortProg)).run ⟨none, ⟨0, 2, []⟩⟩ (fun _ => .idle) uniformBoth with
    | some (s, ls, tr) => decide (s.mutex = none ∧ s.obj = ⟨2, 2, [7, 9]⟩ ∧ tr = uniformBothTrace) && (List.range 4).all fun t => match ls t with | .idle => true | _ => false
    | none => false) = true := by decide +kernel

/-- The hypotheses of the theorems above hold for this execution. -/
example : UniformSample.new 2 = .ok ⟨0, 2, []⟩ ∧ SortsInPlace sortProg ∧ updated (invoked uniformBothTrace) = [7, 9] ∧ SampleCall.clear ∉ invoked uniformBothTrace := ⟨rfl, sortProg_ok, rfl, by decide⟩

/-- Without the mutex (the same `Update` with its `Lock` and `Unlock` left out) an update is lost: the count ends at 1. -/
def unguardedUpdate (v : Int64) : Body UniformSample Nat (SampleRes F64) :=
  .act id fun s0 => .act (fun s => { s with count := s0.count + 1 }) fun _ => .act (fun s => { s with values := s.values ++ [v] }) fun _ => .unlock (.ret .unit)

example : (match (bodyMachine unguardedUpdate).run ⟨none, ⟨0, 2, []⟩⟩ (fun _ => .idle) ([(1, .call 7), (2, .call 9)] ++ bodySteps 1 1 ++ bodySteps 2 5 ++ bodySteps 1 4) with
    | some (s, _, _) => decide (s.obj.count = 1 ∧ s.obj.values = [9, 7])
    | none => false) = true := by decide +kernel

variable [GoExp F]

/-- **C82, ExpDecaySample.** Linearizable; in particular no call panics. -/
theorem C82_exp {k : Nat} (hk : 0 < k) {alpha : F} {now : Instant} {s0 : ExpDecaySample F} (hnew : ExpDecaySample.new k alpha now = .ok s0) {sched s ls tr}
    (h : (bodyMachine expBody).run ⟨none, s0⟩ (fun _ => .idle) sched = some (s, ls, tr)) : Linearizable ExpCall s0 (hist tr) := by
  obtain ⟨a, hi⟩ := body_inv expBody_guarded h
  obtain ⟨x, hx, hsh, -⟩ := ExpDecaySample.new_shape k alpha now
  rw [hnew] at hx; cases hx
  exact ⟨tr, _, a, rfl, body_wf expBody_guarded h, (hi.run.mono_inv (ExpDecaySample.Shape k) (fun _ _ _ _ hj hc => expBody_alone hk hj hc) hsh).1⟩

/-- **C82, ExpDecaySample.** Two goroutines are never at the fields at once. -/
theorem C82_exp_exclusive {s0 : ExpDecaySample F} {sched s ls tr} (h : (bodyMachine expBody).run ⟨none, s0⟩ (fun _ => .idle) sched = some (s, ls, tr)) {t u : Nat}
    (ht : touching (ls t)) (hu : touching (ls u)) : t = u := by
  obtain ⟨a, hi⟩ := body_inv expBody_guarded h
  exact hi.exclusive ht hu

/-- **C82, ExpDecaySample.** As long as a call has not returned, a goroutine in a call can go on. -/
theorem C82_exp_progress {s0 : ExpDecaySample F} {sched s ls tr} (h : (bodyMachine expBody).run ⟨none, s0⟩ (fun _ => .idle) sched = some (s, ls, tr)) {t : Nat} (ht : ls t ≠ .idle) :
    ∃ u i, ls u ≠ .idle ∧ ((bodyMachine (expBody (F := F))).step u i s (ls u)).isSome := by
  obtain ⟨a, hi⟩ := body_inv expBody_guarded h
  have : Nonempty (Instant × F) := ⟨(0, GoFloat.ofInt 0)⟩
  exact hi.progress ht

/-- **C82, ExpDecaySample.** All calls have returned: a sequence of the same updates and clears (with the times and random numbers they drew) leads to the same sample. -/
theorem C82_exp_history {k : Nat} (hk : 0 < k) {alpha : F} {now : Instant} {s0 : ExpDecaySample F} (hnew : ExpDecaySample.new k alpha now = .ok s0) {sched s ls tr}
    (h : (bodyMachine expBody).run ⟨none, s0⟩ (fun _ => .idle) sched = some (s, ls, tr)) (hidle : ∀ t, ls t = .idle) :
    ∃ ops, s0.run ops = .ok s.obj ∧ (expCalls ops).Perm ((invoked tr).filter changes) := by
  obtain ⟨a, hi⟩ := body_inv expBody_guarded h
  have hp := body_calls expBody_guarded h hidle
  obtain ⟨x, hx, hsh, -⟩ := ExpDecaySample.new_shape k alpha now
  rw [hnew] at hx; cases hx
  obtain ⟨ops, h1, h2⟩ := exp_history (pre := []) rfl (hi.run.mono_inv (B := ExpCall) (ExpDecaySample.Shape k) (fun _ _ _ _ hj hc => expBody_alone hk hj hc) hsh).1
  rw [hi.idle hidle]
  exact ⟨ops, h1, h2 ▸ hp.filter _⟩

/-- A sample of size 1: goroutine 1 reads the clock (100) before goroutine 2 does (200), but takes the mutex after it. Goroutine 1's update replaces the value of goroutine 2, and goroutine 3 then reads it. -/
def expBoth : List (Nat × BodyIn (SampleCall F64) (Instant × F64)) :=
  [(1, .call (.update 7)), (1, .answer (100, GoFloat.ofInt 0)), (2, .call (.update 9)), (2, .answer (200, GoFloat.ofInt 0))] ++ bodySteps 2 4 ++ [(2, .answer (0, GoFloat.lit (1 / 2)))] ++ bodySteps 2 4 ++
  bodySteps 1 5 ++ [(1, .answer (0, GoFloat.lit (1 / 4)))] ++ bodySteps 1 4 ++ [(3, .call .values)] ++ bodySteps 3 5

example : (match ExpDecaySample.new 1 (GoFloat.lit (1 / 64) : F64) 0 with
    | .ok s0 => (match (bodyMachine expBody).run ⟨none, s0⟩ (fun _ => .idle) expBoth with
      | some (s, _, tr) => decide (s.mutex = none ∧ s.obj.count = 2 ∧ tr = [.inv 1 (.update 7), .inv 2 (.update 9),
          .lin 2 (.update 9) .unit, .ret 2 (.update 9) .unit, .lin 1 (.update 7) .unit, .ret 1 (.update 7) .unit, .inv 3 .values, .lin 3 .values (.vals [7]), .ret 3 .values (.vals [7])])
      | none => false)
    | .error _ => false) = true := by decide +kernel

end GoMetrics
