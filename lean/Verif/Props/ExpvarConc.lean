import Verif.Lemmas.ExpvarConc
import Verif.Go.Fmt

/-!
C75. Simultaneous requests to the expvar handlers.

If every variable belongs to one handler and always has the same kind then, in every interleaving of any number of requests, no request panics, some request can always go on, and every request
returns after a bounded number of its own steps. A request that returns has set exactly its variables, in order, each once. A variable has the value stored last. Without the discipline: two
handlers over the same names race between `Get` and `Publish`, one of them panics with its mutex held, and every later request to that handler waits for ever.
-/

namespace GoMetrics
open Spec

variable {V : Type}

/-- **C75, no panic.** -/
theorem C75_no_panic (own : Str → Option (Nat × VarKind)) (zero : V) {vars sched s ls tr} (h0 : KindsFit own vars) (hd : ∀ x ∈ sched, Disciplined own x.2)
    (h : (expvarMachine zero).run (.init vars) (fun _ => .idle) sched = some (s, ls, tr)) : ∀ t k, XEv.panic t k ∉ tr :=
  (disc_inv h0 hd h).panic

/-- **C75, progress.** While a request has not returned, some request can go on. -/
theorem C75_progress (own : Str → Option (Nat × VarKind)) (zero : V) {vars sched s ls tr} (h0 : KindsFit own vars) (hd : ∀ x ∈ sched, Disciplined own x.2)
    (h : (expvarMachine zero).run (.init vars) (fun _ => .idle) sched = some (s, ls, tr)) (t : Nat) (ht : ls t ≠ .idle) :
    ∃ u s' ls' es, ls u ≠ .idle ∧ (expvarMachine zero).run (.init vars) (fun _ => .idle) (sched ++ [(u, .step)]) = some (s', ls', tr ++ es) := by
  obtain ⟨u, ⟨s', l', es⟩, hu, hx⟩ := (disc_inv h0 hd h).progress (zero := zero) ht
  refine ⟨u, s', Function.update ls u l', es, hu, ?_⟩
  rw [(expvarMachine zero).run_append, h]
  have hx' : (expvarMachine zero).step u .step s (ls u) = some (s', l', es) := hx
  simp [Machine.run, hx']

/-- **C75, bounded.** A goroutine never takes more steps than five for each statement of its requests and one for each return. -/
theorem C75_bounded (zero : V) {vars sched s ls tr} (h : (expvarMachine zero).run (.init vars) (fun _ => .idle) sched = some (s, ls, tr)) (t : Nat) : stepsOf t sched ≤ allowedFor t sched := by
  have := steps_bound t sched _ _ h
  simp [XFrame.work] at this
  omega

/-- **C75, complete.** A request that returns has set all its variables and no others, in order, since it began; its goroutine has done nothing else in between. -/
theorem C75_complete (zero : V) {vars sched s ls tr} (h : (expvarMachine zero).run (.init vars) (fun _ => .idle) sched = some (s, ls, tr)) {a b : List (XEv V)} {t k : Nat} {jobs : List (ExpJob V)}
    (he : tr = a ++ .ret t k jobs :: b) :
    ∃ a₁ a₂, a = a₁ ++ .call t k jobs :: a₂ ∧ setBy t a₂ = jobs.map (fun j => (j.name, j.value)) ∧ ∀ e ∈ a₂, byGoroutine e = t → ∃ n v, e = .set t n v :=
  ret_cut h he

/-- **C75, value.** A variable has the value that was stored last, whoever stored it. -/
theorem C75_value (zero : V) {vars sched s ls tr} (h : (expvarMachine zero).run (.init vars) (fun _ => .idle) sched = some (s, ls, tr)) (n : Str) (v : V) (hv : (storedAt n tr).getLast? = some v) :
    ∃ k, s.vars n = some (k, v) := stored_inv h n v hv

/-- **C75, stuck.** After a panic in a request to handler `k`, a request to `k` with at least one variable never does anything. -/
theorem C75_stuck (zero : V) {vars sched s ls tr} (h : (expvarMachine zero).run (.init vars) (fun _ => .idle) sched = some (s, ls, tr)) {a b c : List (XEv V)} {t k u : Nat} {jobs : List (ExpJob V)}
    (hj : jobs ≠ []) (he : tr = a ++ .panic t k :: b ++ .call u k jobs :: c) : ∀ e ∈ c, byGoroutine e ≠ u := by
  obtain ⟨j, js, rfl⟩ := List.exists_cons_of_ne_nil hj
  exact (stuck_inv h a t k b u j js c (by simpa using he)).2

/-! Two requests to one handler; the second waits for the mutex of the first. -/

def expDemo : List (ExpJob Nat) := [⟨bytes "a", .int, 7⟩, ⟨bytes "b", .float, 8⟩]
def expDemoOwn : Str → Option (Nat × VarKind) := fun n => if n = bytes "a" then some (0, .int) else if n = bytes "b" then some (0, .float) else none
/-- Goroutines 1 and 2 request handler 0; other code publishes "c" in between. -/
def expDemoRun : List (Nat × XIn Nat) :=
  [(1, .request 0 expDemo), (2, .request 0 expDemo), (1, .step), (1, .step), (3, .publish (bytes "c") .other 5), (1, .step), (1, .step), (2, .step), (2, .step), (2, .step), (1, .step), (2, .step)] ++
  List.replicate 6 (1, .step) ++ List.replicate 5 (2, .step)

example : (∀ x ∈ expDemoRun, Disciplined expDemoOwn x.2) := by
  simp only [expDemoRun, List.replicate, List.cons_append, List.nil_append, List.forall_mem_cons, Disciplined, expDemo, List.not_mem_nil, false_imp_iff, implies_true, and_true, true_and]
  decide +kernel

example : KindsFit expDemoOwn (fun _ => none : Str → Option (VarKind × Nat)) := by intro n h k x _ h; simp at h

example : ((expvarMachine 0).run (.init fun _ => none) (fun _ => .idle) expDemoRun).map (fun x => (x.2.2, x.1.vars (bytes "a"), x.1.vars (bytes "b"))) =
    some ([.call 1 0 expDemo, .call 2 0 expDemo, .foreign 3 (bytes "c") 5, .set 1 (bytes "a") 7, .set 2 (bytes "a") 7, .set 1 (bytes "b") 8, .ret 1 0 expDemo, .set 2 (bytes "b") 8, .ret 2 0 expDemo],
      some (.int, 7), some (.float, 8)) := by decide +kernel

/-- Goroutine 1 requests handler 0, goroutine 2 handler 1: `Get` and `Get`, then `Publish` and `Publish`. Then goroutine 3 requests handler 1. -/
def expRaceRun : List (Nat × XIn Nat) :=
  [(1, .request 0 [⟨bytes "a", .int, 7⟩]), (2, .request 1 [⟨bytes "a", .int, 7⟩]), (1, .step), (2, .step), (1, .step), (2, .step), (1, .step), (2, .step), (1, .step), (1, .step), (1, .step),
    (3, .request 1 [⟨bytes "a", .int, 7⟩])]

/-- **C75, refuted without the discipline.** Two handlers that export the same variable: both find it unpublished, the second to publish it panics, and the next request to its handler hangs. -/
theorem C75_refuted : ∃ (sched : List (Nat × XIn Nat)) (s : ExpS Nat) (ls : Nat → XFrame Nat) (tr : List (XEv Nat)),
    (expvarMachine 0).run (.init fun _ => none) (fun _ => .idle) sched = some (s, ls, tr) ∧
    (∀ x ∈ sched, ∀ n k v, x.2 ≠ .publish n k v) ∧ (∀ x ∈ sched, ∀ h jobs, x.2 = .request h jobs → ∀ j ∈ jobs, j.kind = .int) ∧
    .ret 1 0 [⟨bytes "a", .int, 7⟩] ∈ tr ∧ .panic 2 1 ∈ tr ∧ .call 3 1 [⟨bytes "a", .int, 7⟩] ∈ tr ∧
    ∀ more s' ls' tr', (expvarMachine 0).run s ls more = some (s', ls', tr') → .ret 3 1 [⟨bytes "a", .int, 7⟩] ∉ tr' := by
  obtain ⟨⟨s, ls, tr⟩, hrun⟩ : ∃ x, (expvarMachine 0).run (.init fun _ => none) (fun _ => .idle) expRaceRun = some x := ⟨_, rfl⟩
  have htr : tr = [.call 1 0 [⟨bytes "a", .int, 7⟩], .call 2 1 [⟨bytes "a", .int, 7⟩], .panic 2 1, .set 1 (bytes "a") 7, .ret 1 0 [⟨bytes "a", .int, 7⟩], .call 3 1 [⟨bytes "a", .int, 7⟩]] := by
    have := congrArg (fun x => x.map fun y => y.2.2) hrun
    exact (Option.some.inj ((by decide +kernel : _ = _).symm.trans this)).symm
  refine ⟨expRaceRun, s, ls, tr, hrun, ?_, ?_, by simp [htr], by simp [htr], by simp [htr], ?_⟩
  · simp [expRaceRun]
  · simp [expRaceRun]
  · intro more s' ls' tr' hm hret
    have hr := (expvarMachine 0).run_append (.init fun _ => none) (fun _ => .idle) expRaceRun more
    rw [hrun, Option.bind_some, hm, Option.map_some] at hr
    exact C75_stuck 0 hr (jobs := [⟨bytes "a", .int, 7⟩]) (by simp) (a := [.call 1 0 [⟨bytes "a", .int, 7⟩], .call 2 1 [⟨bytes "a", .int, 7⟩]])
      (b := [.set 1 (bytes "a") 7, .ret 1 0 [⟨bytes "a", .int, 7⟩]]) (c := tr') (t := 2) (k := 1) (u := 3) (by simp [htr]) _ hret rfl

end GoMetrics
