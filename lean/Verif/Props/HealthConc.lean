import Verif.Lemmas.HealthConc

/-!
C81. A healthcheck used by several goroutines.

A healthcheck has no lock. Whatever the interleaving, a report (by an exporter) that ends shows the status of the healthcheck at a moment after its own `Check`, which is the last verdict that anybody gave until
then. `GetAll`, and with it JSON export, can panic, because it asks for the error twice and dereferences the second answer: refuted with two exports at the same time. It panics only if another
goroutine declares the healthcheck healthy after the call's own `Check` and before its end; the other exporters never panic.
-/

namespace GoMetrics
open Spec

/-- **C81, what is reported.** The last verdict given until then by anybody; the report's own check comes before. -/
theorem C81_status {sched s ls tr} (h : healthMachine.run none (fun _ => .idle) sched = some (s, ls, tr)) {pre post : List HealthEv} {t : Nat} {e : GoError} (he : tr = pre ++ .reported t (.ok e) :: post) :
    e = statusAfter pre ∧ ∃ c before asked after, reporting t c pre before asked after := by
  obtain ⟨s1, ls1, tr1, sched1, t', i, s2, l2, es1, es2, h1, h2, rfl⟩ := healthMachine.cut h he
  obtain ⟨hs, hl⟩ := health_inv h1
  obtain ⟨rfl, rfl, hr⟩ := report_inv h2 hs (hl t')
  rw [List.append_nil]
  rcases hr with ⟨e', hr, he', hrep⟩ | ⟨hr, -⟩
  · cases hr; exact ⟨he'.trans hs, hrep⟩
  · cases hr

/-- **C81, panic.** Only `GetAll` panics, and only if after its own check another goroutine declared the healthcheck healthy. -/
theorem C81_panic {sched s ls tr} (h : healthMachine.run none (fun _ => .idle) sched = some (s, ls, tr)) {pre post : List HealthEv} {t : Nat} {p : Panic} (he : tr = pre ++ .reported t (.error p) :: post) :
    ∃ before asked a1 u v a2, reporting t .getAll pre before asked (a1 ++ .wrote u v :: a2) ∧ u ≠ t ∧ (v = .healthy ∨ v = .unhealthy none) := by
  obtain ⟨s1, ls1, tr1, sched1, t', i, s2, l2, es1, es2, h1, h2, rfl⟩ := healthMachine.cut h he
  obtain ⟨hs, hl⟩ := health_inv h1
  obtain ⟨rfl, rfl, hr⟩ := report_inv h2 hs (hl t')
  rw [List.append_nil]
  rcases hr with ⟨e', hr, -⟩ | ⟨-, hs0, before, asked, a1, a2, hrep, hbad⟩
  · cases hr
  · have hpre : (before ++ .call t .getAll :: (asked ++ a1)) ++ a2 = tr1 := by rw [hrep.1]; simp
    obtain ⟨q1, u, v, q2, rfl, hv⟩ := healed _ a2 hbad (by rw [hpre, ← hs, hs0])
    refine ⟨before, asked, a1 ++ q1, u, v, q2, by simpa using hrep, ?_, ?_⟩
    · exact hrep.2.2 (.wrote u v) (by simp)
    · cases v with
      | healthy => exact .inl rfl
      | unhealthy e => exact .inr (by rw [show e = none from hv])

/-- **C81, partial.** If nobody but `t` ever declares the healthcheck healthy, no report of `t` panics. -/
theorem C81_partial {sched s ls tr} (h : healthMachine.run none (fun _ => .idle) sched = some (s, ls, tr)) (t : Nat)
    (hw : ∀ u v, HealthEv.wrote u v ∈ tr → u ≠ t → ∃ e, v = .unhealthy (some e)) (p : Panic) : HealthEv.reported t (.error p) ∉ tr := by
  intro hm
  obtain ⟨pre, post, rfl⟩ := List.append_of_mem hm
  obtain ⟨before, asked, a1, u, v, a2, ⟨hrep, -⟩, hu, hv⟩ := C81_panic h rfl
  obtain ⟨e, rfl⟩ := hw u v (by simp [hrep]) hu
  rcases hv with hv | hv <;> cases hv

/-- **C81, refuted: JSON export does not panic.** A service is down when the first export checks it and up when the second one does; the first panics. -/
theorem C81_refuted : ∃ sched s ls tr, healthMachine.run none (fun _ => .idle) sched = some (s, ls, tr) ∧ (∀ x ∈ sched, ∀ c vs, x.2 = .call c vs → c = .getAll ∧ vs.length = 1) ∧
    HealthEv.reported 1 (.error .nilDeref) ∈ tr := by
  refine ⟨[(1, .call .getAll [.unhealthy (some 7)]), (1, .step), (1, .step), (1, .step), (2, .call .getAll [.healthy]), (2, .step), (1, .step)], _, _, _, rfl, ?_, ?_⟩
  · intro x hx c vs h
    simp only [List.mem_cons, List.not_mem_nil, or_false] at hx
    rcases hx with rfl | rfl | rfl | rfl | rfl | rfl | rfl <;> cases h <;> exact ⟨rfl, rfl⟩
  · decide

-- Two reports at the same time: goroutine 1 finds the service down and prints the verdict that goroutine 2 gave in between.
example : (healthMachine.run none (fun _ => .idle) [(1, .call .print [.unhealthy (some 7)]), (1, .step), (2, .call .getAll [.unhealthy (some 8)]), (2, .step), (1, .step), (1, .step), (2, .step), (2, .step), (2, .step)]).map (·.2.2) =
    some [.call 1 .print, .wrote 1 (.unhealthy (some 7)), .call 2 .getAll, .wrote 2 (.unhealthy (some 8)), .reported 1 (.ok (some 8)), .reported 2 (.ok (some 8))] := by decide

end GoMetrics
