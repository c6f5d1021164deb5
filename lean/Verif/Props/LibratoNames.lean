import Verif.Props.Librato
import Verif.Spec.LibratoNames

/-! C124: different metrics have different counters in a Librato batch. False (`C124_refuted`); `C124_partial` says exactly when it is true. -/

namespace GoMetrics
open Spec

variable {F : Type} [GoFloat F] [GoSqrt F] [GoExp F]

/-- The counter of one metric. -/
private def counterOf (w : World F) (env : Env F) (name : Str) (r : Ref) : Obj F → List Str
  | .counter _ => if 0 < countOf w env r then [name ++ bytes ".count"] else []
  | .meter _ | .timer _ => [name]
  | _ => []

private def counterAt (w : World F) (env : Env F) (e : Str × Ref) : List Str := match w.objs e.2 with
  | some o => counterOf w env e.1 e.2 o
  | none => []

private theorem countOf_eq {w : World F} {env : Env F} {r : Ref} {n : Int64} (h : givesInt w env r .count n) : countOf w env r = n.toInt := by
  rw [givesInt] at h
  rw [countOf, h]

private theorem name_append (ns name s : Str) : libratoName ns name ++ s = libratoName ns (name ++ s) := by
  unfold libratoName
  split <;> simp

private theorem name_inj {ns a b : Str} (h : libratoName ns a = libratoName ns b) : a = b := by
  unfold libratoName at h
  split at h
  · exact h
  · exact List.append_cancel_left h

private theorem block_counters {w : World F} {env : Env F} {ps : List F} {ns name : Str} {r : Ref} {o : Obj F} {cs gs : List (Measurement F)}
    (h : LibratoBlock w env ps (libratoName ns name) r o cs gs) : cs.map Measurement.name = (counterOf w env name r o).map fun s => textOf (libratoName ns s) := by
  cases o with
  | counter c =>
    obtain ⟨-, n, h1, h2, h3⟩ := h
    rw [counterOf, countOf_eq h1]
    split
    · rename_i hn
      obtain ⟨m, rfl, h4, -⟩ := h2 hn
      simp [h4, name_append]
    · rename_i hn
      rw [h3 (by omega)]
      rfl
  | meter c =>
    obtain ⟨n, -, ⟨m, rfl, h4, -⟩, -⟩ := h
    simp [counterOf, h4, show bytes "" = [] from rfl]
  | timer c =>
    obtain ⟨n, -, ⟨m, rfl, h4, -⟩, -⟩ := h
    simp [counterOf, h4, show bytes "" = [] from rfl]
  | _ => obtain ⟨rfl, -⟩ := h; rfl

private theorem flat {α : Type} {f : α → List (Measurement F)} {k : α → List Str} {t : Str → List (Piece (GoMetrics.Field F))} {l : List α}
    (h : ∀ x ∈ l, (f x).map Measurement.name = (k x).map t) : ((l.map f).flatten).map Measurement.name = (l.flatMap k).map t := by
  induction l with
  | nil => rfl
  | cons x l ih =>
    rw [List.map_cons, List.flatten_cons, List.map_append, h x (by simp), ih fun y hy => h y (by simp [hy]), List.flatMap_cons, List.map_append]

/-- C124: no two counters of a batch have the same name, exactly if no meter or timer is called like a counter with ".count". Missing for the full claim: `CountersClash` can hold. -/
theorem C124_partial (h : List (Env F × Op F)) {env : Env F} {g : Reg} {id : Nat} (hb : base g = some id) {d now : Int64} {ns source : Str} {ps : List F} {w' : World F} {b : Batch F}
    (hr : buildRequest env { newReporter d source ps with namesp := ns } now g (World.init.run h) = (w', .ok b)) :
    (b.counters.map Measurement.name).Nodup ↔ ¬ CountersClash (World.init.run h) env g := by
  obtain ⟨-, ⟨blocks, hcs, -, hk, hm, hbl⟩, -, -⟩ := C67_batch_partial h env g id hb d now ns source ps w' b hr
  have hat : ∀ x ∈ blocks, x.2.2.1.map Measurement.name = (counterAt (World.init.run h) env (x.1, x.2.1)).map fun s => textOf (libratoName ns s) := by
    rintro ⟨name, r, cs, gs⟩ hx
    obtain ⟨-, o, ho, h3, -⟩ := hbl _ _ _ _ hx
    simp only [counterAt, ho]
    exact block_counters h3
  have hinj : Function.Injective fun s => (textOf (libratoName ns s) : List (Piece (GoMetrics.Field F))) := fun a b hab =>
    name_inj (List.map_injective_iff.2 (fun x y hxy => by cases hxy; rfl) hab)
  rw [hcs, flat hat, List.nodup_map_iff hinj, List.nodup_flatMap]
  have hin : ∀ name r, gets (World.init.run h) id name = some r → (prefixes g).flatten <+: name → ∃ cs gs, (name, r, cs, gs) ∈ blocks := by
    intro name r hg hp
    obtain ⟨⟨name', r', cs, gs⟩, hx, rfl⟩ := List.mem_map.1 ((hm name).2 ⟨by rw [hg]; simp, hp⟩)
    have := (hbl _ _ _ _ hx).1
    rw [hg] at this
    cases this
    exact ⟨cs, gs, hx⟩
  constructor
  · rintro ⟨-, h2⟩ ⟨i, name, r, c, name', o', hb1, hg, hp, ho, hpos, ⟨i', r', hb2, hg', hp', ho'⟩, hty, he⟩
    rw [hb] at hb1 hb2
    cases hb1
    cases hb2
    obtain ⟨cs, gs, m1⟩ := hin _ _ hg hp
    obtain ⟨cs', gs', m2⟩ := hin _ _ hg' hp'
    haveI : Std.Symm (Function.onFun List.Disjoint fun x : Str × Ref × List (Measurement F) × List (Measurement F) => counterAt (World.init.run h) env (x.1, x.2.1)) :=
      ⟨fun x y hd _ hx hy => hd hy hx⟩
    have hne : (name, r, cs, gs) ≠ (name', r', cs', gs') := fun e => by
      have e1 : name = name' := congrArg Prod.fst e
      rw [e1] at he
      simpa [show bytes ".count" = [46, 99, 111, 117, 110, 116] from rfl] using congrArg List.length he
    have hdis : List.Disjoint (counterAt (World.init.run h) env (name, r)) (counterAt (World.init.run h) env (name', r')) := h2.forall m1 m2 hne
    refine hdis (a := name') ?_ ?_
    · simp [counterAt, ho, counterOf, hpos, he]
    · cases o' <;> simp [countsUnderName] at hty <;> simp [counterAt, ho', counterOf]
  · intro hno
    have hvis : ∀ x ∈ blocks, gets (World.init.run h) id x.1 = some x.2.1 ∧ (prefixes g).flatten <+: x.1 := fun x hx =>
      ⟨(hbl _ _ _ _ hx).1, ((hm x.1).1 (List.mem_map_of_mem hx)).2⟩
    -- a counter against a meter or timer
    have hcross : ∀ x ∈ blocks, ∀ y ∈ blocks, ∀ c o', (World.init.run h : World F).objs x.2.1 = some (.counter c) → (World.init.run h : World F).objs y.2.1 = some o' → countsUnderName o' = true →
        0 < countOf (World.init.run h) env x.2.1 → y.1 = x.1 ++ bytes ".count" → False := fun x hx y hy c o' ho ho' hty hpos he =>
      hno ⟨id, x.1, x.2.1, c, y.1, o', hb, (hvis x hx).1, (hvis x hx).2, ho, hpos, ⟨id, y.2.1, hb, (hvis y hy).1, (hvis y hy).2, ho'⟩, hty, he⟩
    have hshape : ∀ x ∈ blocks, ∀ s ∈ counterAt (World.init.run h) env (x.1, x.2.1), (∃ c, (World.init.run h : World F).objs x.2.1 = some (.counter c) ∧ 0 < countOf (World.init.run h) env x.2.1 ∧ s = x.1 ++ bytes ".count") ∨
        ∃ o', (World.init.run h : World F).objs x.2.1 = some o' ∧ countsUnderName o' = true ∧ s = x.1 := by
      intro x _ s hs
      unfold counterAt at hs
      split at hs
      · rename_i o ho
        cases o <;> simp only [counterOf, List.not_mem_nil] at hs
        · split at hs
          · rename_i hpos
            exact .inl ⟨_, ho, hpos, by simpa using hs⟩
          · simp at hs
        · exact .inr ⟨_, ho, rfl, by simpa using hs⟩
        · exact .inr ⟨_, ho, rfl, by simpa using hs⟩
      · simp at hs
    refine ⟨fun x _ => ?_, ?_⟩
    · unfold counterAt counterOf
      repeat' split
      all_goals simp
    · refine List.Pairwise.imp_of_mem ?_ (List.pairwise_map.1 hk)
      intro x y hx hy hne s s1 s2
      rcases hshape x hx s s1 with ⟨c, a1, a2, a3⟩ | ⟨o, a1, a2, a3⟩ <;> rcases hshape y hy s s2 with ⟨c', b1, b2, b3⟩ | ⟨o', b1, b2, b3⟩
      · exact hne (List.append_cancel_right (a3.symm.trans b3))
      · exact hcross x hx y hy c o' a1 b1 b2 a2 (b3.symm.trans a3)
      · exact hcross y hy x hx c' o b1 a1 a2 b2 (a3.symm.trans b3)
      · exact hne (a3.symm.trans b3)

/-! A counter "x" that counted 1, and a meter "x.count" that counted 2. -/

def sameCounter : List (Env F × Op F) :=
  [(envAt 0, .new .counter), (envAt 0, .reg (.std 0) (.register (bytes "x") (.obj 0))), (envAt 0, .new .meter),
   (envAt 0, .reg (.std 0) (.register (bytes "x.count") (.obj 1))), (envAt 1, .call 0 (.inc 1)), (envAt 1, .call 1 (.mark 2))]

/-- C124 is false: the batch has two counters "x.count", with the values 2 and 1. -/
theorem C124_refuted : ∃ (w' : World F64) (b : Batch F64) (m m' : Measurement F64), buildRequest (envAt 2) (newReporter 60000000000 [] []) 1000 (.std 0) (World.init.run sameCounter) = (w', .ok b) ∧
    b.counters = [m, m'] ∧ m.name = textOf (bytes "x.count") ∧ m'.name = textOf (bytes "x.count") ∧ m.value = some (.float (.fin 2)) ∧ m'.value = some (.float (.fin 1)) := by
  refine ⟨_, _, _, _, rfl, rfl, rfl, rfl, congrArg (fun x => some (Field.float x)) (?_ : _ = _), congrArg (fun x => some (Field.float x)) (?_ : _ = _)⟩ <;> decide +kernel

/-! A meter "x" and a gauge "x.1min" that shows 7. -/

def sameGauge : List (Env F × Op F) :=
  [(envAt 0, .new .meter), (envAt 0, .reg (.std 0) (.register (bytes "x") (.obj 0))), (envAt 0, .new .gauge),
   (envAt 0, .reg (.std 0) (.register (bytes "x.1min") (.obj 1))), (envAt 1, .call 1 (.update 7))]

/-- C124 is false for gauges too: the gauge "x.1min" is in the batch twice, with the value of the gauge and with the rate of the meter. -/
theorem C124_gauges_refuted : ∃ (w' : World F64) (b : Batch F64) (m m' : Measurement F64) (rest : List (Measurement F64)),
    buildRequest (envAt 2) (newReporter 60000000000 [] []) 1000 (.std 0) (World.init.run sameGauge) = (w', .ok b) ∧
    b.gauges = m :: m' :: rest ∧ m.name = textOf (bytes "x.1min") ∧ m'.name = textOf (bytes "x.1min") ∧ m.value = some (.float (.fin 7)) ∧ m'.value = some (.float (.fin 0)) := by
  refine ⟨_, _, _, _, _, rfl, rfl, rfl, rfl, congrArg (fun x => some (Field.float x)) (?_ : _ = _), congrArg (fun x => some (Field.float x)) (?_ : _ = _)⟩ <;> decide +kernel

-- Without such names the counters differ: the meter is called "y".
private def differentCounters : List (Env F × Op F) :=
  [(envAt 0, .new .counter), (envAt 0, .reg (.std 0) (.register (bytes "x") (.obj 0))), (envAt 0, .new .meter),
   (envAt 0, .reg (.std 0) (.register (bytes "y") (.obj 1))), (envAt 1, .call 0 (.inc 1)), (envAt 1, .call 1 (.mark 2))]
example : ∃ (w' : World F64) (b : Batch F64), buildRequest (envAt 2) (newReporter 60000000000 [] []) 1000 (.std 0) (World.init.run differentCounters) = (w', .ok b) ∧
    b.counters.map Measurement.name = [textOf (bytes "y"), textOf (bytes "x.count")] := ⟨_, _, rfl, rfl⟩

end GoMetrics
