import Verif.Lemmas.LibratoClient
import Verif.Spec.World
import Verif.Go.F64

/-!
C80. Posting to Librato.

`PostMetrics` posts a batch exactly once and returns nil if and only if the server answered 200; otherwise it returns the error. An empty batch is not posted. If one number of the batch is NaN or infinite, nothing
is posted at all, and the error says so. An error does not end `Run`: whatever happened in earlier rounds, a round in which the server answers posts the batch of that moment. Refuted: the body of a response
is never closed, so that every successful post with a non-empty answer holds a connection for ever.
-/

set_option linter.unusedSectionVars false

namespace GoMetrics
open Spec

variable {F : Type} [GoFloat F] [GoSqrt F] [GoExp F]

/-- **C80, posted.** A batch that is not empty and contains only finite numbers is posted once, whatever happens then. The result is nil exactly if the answer is 200. -/
theorem C80_posted (text : Batch F → Str) (answer : HttpAnswer) (b : Batch F) (s : HttpS) (hb : b.counters ≠ [] ∨ b.gauges ≠ []) (hn : ∀ v ∈ b.numbers, representable v) :
    (postMetrics text answer b s).1.posted = s.posted ++ [text b] ∧ ((postMetrics text answer b s).2 = none ↔ ∃ body readable, answer = .response 200 body readable) ∧
    (∀ code, (postMetrics text answer b s).2 = some (.status code) ↔ code ≠ 200 ∧ ∃ body readable, answer = .response code body readable) := by
  have h1 : ¬ (b.counters.length = 0 ∧ b.gauges.length = 0) := by simp only [List.length_eq_zero_iff]; tauto
  have h2 : b.numbers.any notNumberField = false := (any_notNumber _).2 hn
  unfold postMetrics
  rw [if_neg h1, h2]
  simp only [Bool.false_eq_true, if_false]
  cases answer with
  | fail => simp
  | response status body readable =>
    by_cases hs : status = 200
    · subst hs
      dsimp only
      rw [if_neg (fun h : (200 : Nat) ≠ 200 => h rfl)]
      exact ⟨rfl, ⟨fun _ => ⟨_, _, rfl⟩, fun _ => rfl⟩, fun code => ⟨(fun h => nomatch h), fun ⟨hc, _, _, h⟩ => absurd (HttpAnswer.response.inj h).1.symm hc⟩⟩
    · dsimp only
      rw [if_pos hs]
      exact ⟨rfl, ⟨(fun h => nomatch h), fun ⟨_, _, h⟩ => absurd (HttpAnswer.response.inj h).1 hs⟩, fun code => ⟨fun h => ⟨(PostErr.status.inj (Option.some.inj h)) ▸ hs, body, readable, by
        rw [PostErr.status.inj (Option.some.inj h)]⟩, fun ⟨_, _, _, h⟩ => by rw [(HttpAnswer.response.inj h).1]⟩⟩

/-- **C80, empty.** Nothing is posted, and that is no error. -/
theorem C80_empty (text : Batch F → Str) (answer : HttpAnswer) (b : Batch F) (s : HttpS) (h1 : b.counters = []) (h2 : b.gauges = []) : postMetrics text answer b s = (s, none) := by
  simp [postMetrics, h1, h2]

/-- **C80, not a number.** One number that JSON cannot represent: nothing is posted, there is an error. -/
theorem C80_nan (text : Batch F → Str) (answer : HttpAnswer) (b : Batch F) (s : HttpS) (v : Field F) (hv : v ∈ b.numbers) (hn : ¬ representable v) : postMetrics text answer b s = (s, some .marshal) := by
  have h1 : ¬ (b.counters.length = 0 ∧ b.gauges.length = 0) := by
    rintro ⟨h1, h2⟩
    rw [List.length_eq_zero_iff] at h1 h2
    simp [Batch.numbers, h1, h2] at hv
  have h2 : b.numbers.any notNumberField = true := by
    by_contra h
    rw [Bool.not_eq_true, any_notNumber] at h
    exact hn (h v hv)
  rw [postMetrics, if_neg h1, h2]
  rfl

/-- **C80, the loop.** Whatever happened in the rounds before (as long as nothing panicked): if the request of the last round can be built, is not empty and has only finite numbers, it is posted then, and the result is logged. -/
theorem C80_run (cfg : Reporter F) (g : Reg) (text : Batch F → Str) (ts : List (LibratoTick F)) (t : LibratoTick F) (w w1 : World F) (s s1 : HttpS) (log : List (Option PostErr)) (w2 : World F) (b : Batch F)
    (h1 : libratoRun cfg g text ts w s [] = (w1, s1, log, none)) (h2 : buildRequest t.env cfg t.now g (w1.run t.before) = (w2, .ok b)) (hb : b.counters ≠ [] ∨ b.gauges ≠ [])
    (hn : ∀ v ∈ b.numbers, representable v) :
    ∃ s2 e, libratoRun cfg g text (ts ++ [t]) w s [] = (w2, s2, log ++ [e], none) ∧ s2.posted = s1.posted ++ [text b] := by
  refine ⟨(postMetrics text t.answer b s1).1, (postMetrics text t.answer b s1).2, ?_, (C80_posted text t.answer b s1 hb hn).1⟩
  rw [libratoRun_append, h1]
  simp only [libratoRun, libratoRound, h2]

/-- **C80, refuted: connections are given back.** `n` posts in a row that the server answers with 200 and a text hold `n` connections. -/
theorem C80_leak_refuted (text : Batch F → Str) (b : Batch F) (hb : b.counters ≠ [] ∨ b.gauges ≠ []) (hn : ∀ v ∈ b.numbers, representable v) (body : Str) (hbody : body ≠ []) (n : Nat) :
    ((fun s => (postMetrics text (.response 200 body true) b s).1)^[n] {}).held = n := by
  have h1 : ¬ (b.counters.length = 0 ∧ b.gauges.length = 0) := by simp only [List.length_eq_zero_iff]; tauto
  have h2 : b.numbers.any notNumberField = false := (any_notNumber _).2 hn
  induction n with
  | zero => rfl
  | succ n ih =>
    rw [Function.iterate_succ_apply']
    simp only [postMetrics, h1, h2, if_false, Bool.false_eq_true, hbody, ne_eq, not_true_eq_false] at ih ⊢
    rw [ih]

/-! ### Examples -/

/-- A gauge "g". -/
def postHistory : List (Env F64 × Op F64) := [(envAt 0, .new .gauge), (envAt 1, .call 0 (.update 5)), (envAt 1, .reg (.std 0) (.register (bytes "g") (.obj 0)))]

def postReporter : Reporter F64 := newReporter 10000000000 [] []

-- Three rounds: the server is down, answers 500, answers 200 with a text.
def postTicks : List (LibratoTick F64) := [⟨envAt 2, 10, .fail, postHistory⟩, ⟨envAt 3, 20, .response 500 [] true, []⟩, ⟨envAt 4, 30, .response 200 [1] true, []⟩]

noncomputable def postLog : HttpS × List (Option PostErr) × Option Panic := (libratoRun postReporter (.std 0) (fun b => [(UInt8.ofNat b.measureTime.toInt.toNat)]) postTicks World.init {} []).2

example : postLog.1 = ⟨[[10], [20], [30]], 1⟩ ∧ postLog.2.1 = [some .transport, some (.status 500), none] := by decide +kernel

end GoMetrics
