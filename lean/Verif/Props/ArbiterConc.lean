import Verif.Lemmas.ArbiterConc

/-! C38: the ticking goroutine, under all interleavings of `NewMeter`, `Stop` and ticks. -/

namespace GoMetrics
open Spec

/-- **C38**: at most one `go` statement is ever executed, however many goroutines make and stop meters. -/
theorem C38_at_most_once {sched s ls tr} (h : arbMachine.run .init (fun _ => .idle) sched = some (s, ls, tr)) : goes tr ≤ 1 := by
  have := (arb_inv h).flag.le
  rwa [gos, List.countP_eq_length_filter] at this

/-- When a call of `NewMeter` returns, the ticking goroutine has been started. -/
theorem C38_started {sched s ls tr} (h : arbMachine.run .init (fun _ => .idle) sched = some (s, ls, tr)) {t m : Nat} (hm : .retNew t m ∈ tr) : goes tr = 1 := by
  have hf := (arb_inv h).flag
  obtain ⟨h1, h2⟩ := hf.ret ⟨t, m, hm⟩
  have := hf.on h1 h2
  rwa [gos, List.countP_eq_length_filter] at this

/-- All ticks of all meters are made by one goroutine. -/
theorem C38_single_ticker {sched s ls tr} (h : arbMachine.run .init (fun _ => .idle) sched = some (s, ls, tr)) {t u m n : Nat}
    (ht : .tick t m ∈ tr) (hu : .tick u n ∈ tr) : t = u :=
  (arb_inv h).flag.one t u (tick_ticker h t m ht) (tick_ticker h u n hu)

/-- C37 and C38 under concurrency: every round of ticks (from `roundBegin` to `roundEnd`) ticks no meter twice, ticks every meter that `NewMeter` had returned when the round
began and on which nobody had called `Stop`, and ticks no meter that had been stopped (the call of `Stop` that stopped it had returned). -/
theorem C38_round {sched s ls tr} (h : arbMachine.run .init (fun _ => .idle) sched = some (s, ls, tr)) {t : Nat} {a b c : List AEv}
    (he : tr = a ++ .roundBegin t :: (b ++ .roundEnd t :: c)) (hb1 : .roundBegin t ∉ b) (hb2 : .roundEnd t ∉ b) :
    (ticked t b).Nodup ∧ (∀ u m, .retNew u m ∈ a → (∀ v, .callStop v m ∉ a) → m ∈ ticked t b) ∧ (∀ v m, .retStop v m true ∈ a → m ∉ ticked t b) := by
  obtain ⟨s1, ls1, tr1, sched1, u, i, s2, l2, es1, es2, hr, hst, ha⟩ := arbMachine.cut h (a := a ++ .roundBegin t :: b) (e := .roundEnd t) (b := c) (by simp [he])
  replace hst := arbStep_rel hst
  generalize hl : ls1 u = l at hst
  generalize hes : es1 ++ AEv.roundEnd t :: es2 = es at hst
  cases hst <;> simp [List.append_eq_cons_iff] at hes
  rename_i seen hall
  obtain ⟨rfl, rfl, -⟩ := hes
  simp only [List.append_nil] at ha
  obtain ⟨a', b', h1, h2, h3, h4, h5, h6, h7, h8⟩ := round_inv hr t seen hl
  -- the two decompositions of the trace are the same
  have key : a = a' ∧ b = b' := by
    rw [h1] at ha
    rcases List.append_eq_append_iff.1 ha with ⟨x, e1, e2⟩ | ⟨x, e1, e2⟩
    · cases x with
      | nil => simp at e1 e2; exact ⟨e1.symm, e2⟩
      | cons y x =>
        simp at e2
        exact absurd (e2.2 ▸ (by simp : AEv.roundBegin t ∈ x ++ AEv.roundBegin t :: b')) hb1
    · cases x with
      | nil => simp at e1 e2; exact ⟨e1, e2.symm⟩
      | cons y x =>
        simp at e2
        exact absurd (e2.2 ▸ (by simp : AEv.roundBegin t ∈ x ++ AEv.roundBegin t :: b)) h3
  obtain ⟨rfl, rfl⟩ := key
  unfold ticked
  rw [h2]
  refine ⟨List.pairwise_reverse.2 (h5.imp Ne.symm), fun v m hm hs => ?_, fun v m hm hc => ?_⟩
  · rw [List.mem_reverse]
    rcases h7 v m hm with h | ⟨w, h⟩
    · exact hall m h
    · exact absurd h (hs w)
  · exact h8 v m hm (h6 m (List.mem_reverse.1 hc))

/-- Two goroutines make meters 0 and 1 and a third ticks them; goroutine 0 stops meter 0 while 2 waits for the next round, which ticks only meter 1. -/
example : ∃ s ls tr, arbMachine.run .init (fun _ => .idle)
      [(0, .new), (1, .new), (0, .step), (0, .step), (0, .step), (0, .step), (0, .step), (0, .step), (0, .step), (1, .step), (1, .step), (1, .step), (1, .step), (2, .begin),
       (1, .step), (2, .step), (2, .visit 1), (0, .stop 0), (0, .step), (2, .visit 0), (0, .step), (2, .step), (0, .step), (0, .step), (0, .step),
       (2, .step), (2, .visit 1), (2, .step)] = some (s, ls, tr) ∧ goes tr = 1 ∧
    tr = [.callNew 0, .callNew 1, .go 0, .retNew 0 0, .retNew 1 1, .roundBegin 2, .tick 2 1, .callStop 0 0, .tick 2 0, .roundEnd 2, .retStop 0 0 true,
      .roundBegin 2, .tick 2 1, .roundEnd 2] :=
  ⟨_, _, _, rfl, by decide +kernel, by decide +kernel⟩

/-- Boundary: a call of `Stop` that finds the meter being stopped by another goroutine returns at once; the meter may be ticked once more afterwards. -/
example : ∃ s ls tr, arbMachine.run .init (fun _ => .idle)
      [(0, .new), (0, .step), (0, .step), (0, .step), (0, .step), (0, .step), (0, .step), (0, .step), (2, .begin),
       (0, .stop 0), (0, .step), (1, .stop 0), (1, .step), (2, .step), (2, .visit 0)] = some (s, ls, tr) ∧
    tr = [.callNew 0, .go 0, .retNew 0 0, .callStop 0 0, .callStop 1 0, .retStop 1 0 false, .roundBegin 2, .tick 2 0] :=
  ⟨_, _, _, rfl, by decide +kernel⟩

end GoMetrics
