import Verif.Lemmas.TimerConc
import Verif.Model.Uniform

/-! C43: snapshots of a timer in concurrent use. -/

namespace GoMetrics
open Spec

variable {σ ρ : Type}

/-- **C43**: every execution of any number of goroutines calling `Update`, `UpdateSince`, `Snapshot` and `Stop` of one timer, with any sample behind it, is linearizable:
it looks as if each call had happened at one moment between its invocation and its return, and a snapshot shows the sample after all events recorded
before that moment, together with the number of those events that were counted by the meter. -/
theorem C43_linearizable (upd : σ → Int64 × ρ → σ) (s0 : σ) {sched s ls tr} (h : (timerMachine upd).run (.init s0) (fun _ => .idle) sched = some (s, ls, tr)) :
    Linearizable (TimerCall upd s0) ⟨[], false, 0⟩ (hist tr) := by
  obtain ⟨log, hr, -⟩ := timer_inv h
  exact ⟨tr, _, log, rfl, timer_wf h, hr⟩

/-- C43: if nobody calls `Stop`, both parts of every snapshot show the same events: there is a list of events such that the histogram part has got exactly these, in this order,
and the meter part has counted exactly these. -/
theorem C43_snapshot (upd : σ → Int64 × ρ → σ) (s0 : σ) {sched s ls tr} (h : (timerMachine upd).run (.init s0) (fun _ => .idle) sched = some (s, ls, tr))
    (hs : ∀ t, .inv t .stop ∉ tr) {t : Nat} {r : TRes σ} (hr : .ret t .snapshot r ∈ tr) :
    ∃ events : List (Int64 × ρ), r = .snap (events.foldl upd s0) (Int64.ofNat events.length) := by
  obtain ⟨log, hl, -⟩ := timer_inv h
  have hw := timer_wf h
  refine (TimerCall.counts hl ⟨rfl, rfl⟩ ?_).2 (.snapshot, r) ?_ rfl
  · intro x hx hc
    obtain ⟨e, he, hx⟩ := List.mem_filterMap.1 hx
    cases e with
    | lin u o r' =>
      simp at hx
      subst hx
      simp only at hc
      subst hc
      have h1 : (u, TOp.stop) ∈ invs tr := hw.lins_subperm_invs.subset (List.mem_filterMap.2 ⟨_, he, rfl⟩)
      obtain ⟨e, he, hx⟩ := List.mem_filterMap.1 h1
      cases e <;> simp at hx
      obtain ⟨rfl, rfl⟩ := hx
      exact hs _ he
    | _ => simp at hx
  · exact List.mem_filterMap.2 ⟨_, hw.ret_lin hr, rfl⟩

/-- C43 for `Count`: if the sample counts its updates, the count of the histogram part of a snapshot is the count of its meter part. -/
theorem C43_counts (upd : σ → Int64 × ρ → σ) (s0 : σ) (count : σ → Int64) (h0 : count s0 = 0) (hu : ∀ s e, count (upd s e) = count s + 1)
    {sched s ls tr} (h : (timerMachine upd).run (.init s0) (fun _ => .idle) sched = some (s, ls, tr)) (hs : ∀ t, .inv t .stop ∉ tr) {t : Nat} {x : σ} {n : Int64}
    (hr : .ret t .snapshot (.snap x n) ∈ tr) : count x = n := by
  obtain ⟨events, he⟩ := C43_snapshot upd s0 h hs hr
  simp only [TRes.snap.injEq] at he
  rw [he.1, he.2]
  clear he hr
  induction events using List.reverseRecOn with
  | nil => simpa using h0
  | append_singleton l e ih =>
    rw [List.foldl_append, List.length_append]
    simp only [List.foldl_cons, List.foldl_nil, List.length_singleton]
    rw [hu, ih]
    exact (Int64.ofNat_add _ _).symm

/-- `Update` of a uniform sample with room left. -/
private def updUniform (s : UniformSample) (e : Int64 × Nat) : UniformSample := { s with count := s.count + 1, values := s.values ++ [e.1] }
example (s : UniformSample) (e : Int64 × Nat) (h : (s.values.length : Int) < s.reservoirSize) : s.update e.1 e.2 = .ok (updUniform s e) := by
  simp [UniformSample.update, updUniform, h]

/-- Goroutine 0 is in the middle of `Update(5)` (the sample has got 5, the meter has not counted it) when 1 calls `Snapshot`: that has to wait. -/
example : ((timerMachine updUniform).run (.init ⟨0, 100, []⟩) (fun _ => .idle)
      [(0, .call (.update 5)), (0, .step), (1, .call .snapshot), (0, .draw 0 0)]).map (fun x => (x.1.hist.values, x.1.count)) = some ([5], 0) ∧
    ((timerMachine updUniform).run (.init ⟨0, 100, []⟩) (fun _ => .idle)
      [(0, .call (.update 5)), (0, .step), (1, .call .snapshot), (0, .draw 0 0), (1, .step)]).isNone = true ∧
    ((timerMachine updUniform).run (.init ⟨0, 100, []⟩) (fun _ => .idle)
      [(0, .call (.update 5)), (0, .step), (1, .call .snapshot), (0, .draw 0 0), (0, .step), (0, .step), (0, .step), (1, .step), (1, .step), (1, .step), (1, .step),
       (1, .step)]).map (fun x => x.2.2.getLast?.map fun | .ret t _ (.snap x n) => (t, x.values, n) | _ => (0, [], 0)) = some (some (1, [5], 1)) :=
  ⟨rfl, rfl, rfl⟩

/-- Boundary: after `Stop` the histogram goes on recording while the meter has stopped counting, and a snapshot shows that. -/
theorem C43_after_stop : ∃ s ls tr, (timerMachine updUniform).run (.init ⟨0, 100, []⟩) (fun _ => .idle)
      [(0, .call .stop), (0, .step), (0, .step), (0, .call (.update 5)), (0, .step), (0, .draw 0 0), (0, .step), (0, .step), (0, .step),
       (0, .call .snapshot), (0, .step), (0, .step), (0, .step), (0, .step), (0, .step)] = some (s, ls, tr) ∧
    .ret 0 .snapshot (.snap ⟨1, 100, [5]⟩ 0) ∈ tr :=
  ⟨_, _, _, rfl, by simp [updUniform, TimerS.init]⟩

end GoMetrics
