import Verif.Lemmas.Independence

/-! C93: metrics do not influence each other unless they share parts, and metrics made by separate constructor calls share nothing. -/

set_option linter.unusedSectionVars false

namespace GoMetrics
open Spec Indep

variable {F : Type} [GoFloat F] [GoSqrt F] [GoExp F]

/-! ### C93 -/

/-- C93, a metric changes only through operations on it: in every reachable state, a history none of whose operations touches `y` leaves all that `y` reports as it was
(also the values of a sample). -/
theorem C93_independent (h0 h : List (Env F × Op F)) (y : Ref) (o : Obj F) (hy : (World.init.run h0 : World F).objs y = some o) (hu : Untouched (World.init.run h0) h y) :
    (∀ env c, accessor c = true → observe ((World.init.run h0).run h) env y c = observe (World.init.run h0) env y c) ∧
    ∀ env, contents ((World.init.run h0).run h) env y = contents (World.init.run h0) env y := by
  have main : ∀ (h : List (Env F × Op F)) (w : World F), w.Ok → y < w.nextObj → Untouched w h y → Same w (w.run h) y := by
    intro h
    induction h with
    | nil => exact fun w _ _ _ => ⟨fun _ _ => rfl, fun _ _ => rfl⟩
    | cons e h ih =>
      intro w hw hy hu
      obtain ⟨env, o⟩ := e
      have h1 := step_same hw env o hy hu.1
      obtain ⟨k1, k2⟩ := hw.step env o
      have h2 := ih _ k1 (lt_of_lt_of_le hy k2.next) hu.2
      refine ⟨fun p hp => ?_, fun a ha => ?_⟩
      · exact (h2.objs p ((partOf_same h1.objs p).2 hp)).trans (h1.objs p hp)
      · exact (h2.arrs a ((slice_same h1.objs).trans ha)).trans (h1.arrs a ha)
  have hs := main h _ (run_ok h0) ((run_ok h0).lt hy) hu
  exact ⟨fun env c hc => observe_congr hs env c hc, fun env => contents_congr hs env⟩

/-- C93, what a metric is made of never changes: in every reachable state, whatever happens later, an object has the parts and the slice it has now. -/
theorem C93_parts (h0 h : List (Env F × Op F)) (y : Ref) (o : Obj F) (hy : (World.init.run h0 : World F).objs y = some o) :
    (∀ p, partOf ((World.init.run h0).run h) y p ↔ partOf (World.init.run h0) y p) ∧ slice ((World.init.run h0).run h) y = slice (World.init.run h0) y :=
  ⟨partOf_le (run_ok h0) ((run_ok h0).run h).2 hy, slice_le (run_ok h0) ((run_ok h0).run h).2 hy⟩

/-- C93, a constructor makes everything anew: in every reachable state, the parts of the object a constructor returns did not exist before, except the
arguments of the constructor and their parts; its slice is the one given to `NewSampleSnapshot`, or that of an argument, or new. -/
theorem C93_fresh (h0 : List (Env F × Op F)) (env : Env F) (c : NewOp F) (w1 : World F) (x : Ref) (hx : step env (.new c) (World.init.run h0) = (w1, .ok (.out (.ref x)))) :
    (∀ p, partOf w1 x p → (World.init.run h0 : World F).objs p = none ∨ ∃ s, newUses c s ∧ partOf (World.init.run h0) s p) ∧
    ∀ a, slice w1 x = some a → (∀ y, slice (World.init.run h0 : World F) y ≠ some a) ∨ (∃ n, c = .sampleSnap n a) ∨ ∃ s, newUses c s ∧ slice (World.init.run h0) s = some a := by
  have hw := run_ok h0 (F := F)
  have hf := construct_fresh env c _ hw (new_out hx)
  refine ⟨fun p hp => (hf.parts p hp).imp_left fun h => hw.obj p h, fun a ha => ?_⟩
  rcases hf.slice a ha with h | ⟨n, h, -⟩ | h
  · exact .inl fun y hy => absurd (slice_lt hw hy) (by omega)
  · exact .inr (.inl ⟨n, h⟩)
  · exact .inr (.inr h)

/-- C93, separate metrics stay separate: an object `x` made by a constructor that is given no sample, histogram, meter or slice (`NewCounter`, `NewMeter`, `NewTimer`, …) never
shares anything with an object `y` that existed before; so at every later moment, no call on one of them changes what the other reports. -/
theorem C93_separate (h0 : List (Env F × Op F)) (env : Env F) (c : NewOp F) (hc : selfContained c = true) (w1 : World F) (x y : Ref) (o : Obj F)
    (hx : step env (.new c) (World.init.run h0) = (w1, .ok (.out (.ref x)))) (hy : (World.init.run h0 : World F).objs y = some o) (h : List (Env F × Op F)) :
    ¬ shares (w1.run h) x y ∧
    (∀ env' k env'' c', accessor c' = true → observe (step env' (.call x k) (w1.run h)).1 env'' y c' = observe (w1.run h) env'' y c') ∧
    ∀ env' k env'' c', accessor c' = true → observe (step env' (.call y k) (w1.run h)).1 env'' x c' = observe (w1.run h) env'' x c' := by
  have hw := run_ok h0 (F := F)
  obtain ⟨k1, k2⟩ := hw.step env (.new c)
  rw [hx] at k1 k2
  obtain ⟨k3, k4⟩ := k1.run h
  have hf := construct_fresh env c _ hw (new_out hx)
  have hn : ∀ s, ¬ newUses c s := by cases c <;> simp [selfContained] at hc <;> simp [newUses]
  obtain ⟨ox, hox⟩ := hf.exist
  have ey : ∀ p, partOf (w1.run h) y p ↔ partOf (World.init.run h0) y p := partOf_le hw (k2.trans k4) hy
  have ex : ∀ p, partOf (w1.run h) x p ↔ partOf w1 x p := partOf_le k1 k4 hox
  have hns : ¬ shares (w1.run h) x y := by
    rintro (⟨p, hp, hq⟩ | ⟨a, ha, hb⟩)
    · have hq' := partOf_lt hw (hw.lt hy) ((ey p).1 hq)
      rcases hf.parts p ((ex p).1 hp) with h | ⟨s, hs, -⟩
      · omega
      · exact hn s hs
    · rw [slice_le k1 k4 hox] at ha
      rw [slice_le hw (k2.trans k4) hy] at hb
      rcases hf.slice a ha with h | ⟨n, rfl, -⟩ | ⟨s, hs, -⟩
      · exact absurd (slice_lt hw hb) (by omega)
      · simp [selfContained] at hc
      · exact hn s hs
  have hyl : y < (w1.run h).nextObj := lt_of_lt_of_le (hw.lt hy) (k2.next.trans k4.next)
  have hxl : x < (w1.run h).nextObj := lt_of_lt_of_le (k1.lt hox) k4.next
  refine ⟨hns, fun env' k env'' c' hc' => ?_, fun env' k env'' c' hc' => ?_⟩
  · exact observe_congr (step_same k3 env' (.call x k) hyl hns) env'' c' hc'
  · refine observe_congr (step_same k3 env' (.call y k) hxl ?_) env'' c' hc'
    rintro (⟨p, hp, hq⟩ | ⟨a, ha, hb⟩)
    · exact hns (.inl ⟨p, hq, hp⟩)
    · exact hns (.inr ⟨a, hb, ha⟩)

/-- A program with a counter (0), a timer (4, of the sample 1, the histogram 2 and the meter 3), a uniform sample (5) and two histograms of it (6 and 7). -/
def sharingHistory : List (Env F × Op F) :=
  [(envAt 0, .new .counter), (envAt 0, .new .timer), (envAt 0, .new (.uniform 5)), (envAt 0, .new (.hist 5)), (envAt 0, .new (.hist 5)),
   (envAt 0, .reg (.std 0) (.register [97] (.obj 4))), (envAt 1, .call 0 (.inc 3)), (envAt 1, .call 6 (.update 9))]

theorem sharing_0 : (World.init.run sharingHistory : World F).objs 0 = some (.counter (.std ⟨3⟩)) := rfl
theorem sharing_2 : (World.init.run sharingHistory : World F).objs 2 = some (.hist (.std 1)) := rfl
theorem sharing_4 : (World.init.run sharingHistory : World F).objs 4 = some (.timer (.std 2 3)) := rfl
theorem sharing_6 : (World.init.run sharingHistory : World F).objs 6 = some (.hist (.std 5)) := rfl
theorem sharing_7 : (World.init.run sharingHistory : World F).objs 7 = some (.hist (.std 5)) := rfl

/-- The counter shares nothing with the timer; the two histograms share their sample; the timer shares with its meter. -/
example : ¬ shares (World.init.run sharingHistory : World F) 0 4 := by
  simp [shares, partOf, slice, sampleSlice, histSample, sharing_0, sharing_4, sharing_2]
example : shares (World.init.run sharingHistory : World F) 6 7 :=
  .inl ⟨5, by simp [partOf, histSample, sharing_6], by simp [partOf, histSample, sharing_7]⟩
example : shares (World.init.run sharingHistory : World F) 4 3 :=
  .inl ⟨3, by simp [partOf, histSample, sharing_4], .inl rfl⟩

/-- So `Update` on one of the two histograms shows in the other. -/
example : intOf (observe (World.init.run sharingHistory : World F64) (envAt 9) 7 .count) = some 1 := by decide +kernel

/-- Operations on the timer, the clock and another new metric do not touch the counter, so it still shows 3. -/
example : let w := (World.init.run sharingHistory : World F)
    ¬ touches w (.call 4 (.updateD 20)) 0 ∧ ¬ touches w .tick 0 ∧ ¬ touches w (.new .counter) 0 ∧ touches w (.call 0 (.inc 1)) 0 := by
  refine ⟨?_, ?_, fun h => h, .inl ⟨0, .inl rfl, .inl rfl⟩⟩
  · simp [touches, shares, partOf, slice, sampleSlice, histSample, sharing_0, sharing_4, sharing_2]
  · simp [touches, partOf, histSample, sharing_0, live]
example : Untouched (World.init.run sharingHistory : World F) [(envAt 2, .call 4 (.updateD 20)), (envAt 3, .new .counter)] 0 :=
  ⟨by simp [touches, shares, partOf, slice, sampleSlice, histSample, sharing_0, sharing_4, sharing_2], fun h => h, trivial⟩

/-- `UnregisterAll` stops the meter of the timer: it touches the timer. -/
theorem sharing_regs : (World.init.run sharingHistory : World F).regs 0 = [([97], 4)] := rfl
example : touches (World.init.run sharingHistory : World F) (.reg (.std 0) .unregisterAll) 4 :=
  ⟨3, by simp [partOf, histSample, sharing_4], 0, [97], 4, rfl, by simp [sharing_regs], .inr ⟨2, sharing_4⟩⟩

/-- The hypotheses of `C93_fresh` and `C93_separate`: a gauge made next. -/
theorem sharing_next : (World.init.run sharingHistory : World F).nextObj = 8 := rfl
example : ∃ w1, step (envAt 9) (.new .gauge) (World.init.run sharingHistory : World F) = (w1, .ok (.out (.ref 8))) ∧ selfContained (.gauge : NewOp F) = true :=
  ⟨_, by simp [step, construct, act_bind, act_alloc, act_pure, sharing_next]; rfl, rfl⟩

end GoMetrics
