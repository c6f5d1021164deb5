import Verif.Lemmas.PercentNames
import Verif.Props.Librato
import Verif.Spec.PercentNames

/-! Property theorems C89: the names of percentiles in Librato. -/

namespace GoMetrics
open Spec

/-- C89, histograms: the names under which two percentiles of a histogram are sent are the same if and only if the percentiles are the same when rounded to two decimals. -/
theorem C89_hist (s : Str) (p q : ℚ) (hp : 0 ≤ p) (hq : 0 ≤ q) (m n : Measurement F64)
    (hm : m.name = textOf s ++ [.val (bytes ".2f") (.float (.fin p))]) (hn : n.name = textOf s ++ [.val (bytes ".2f") (.float (.fin q))]) :
    nameText m = nameText n ↔ roundEven (p * 100) = roundEven (q * 100) := by
  rw [nameText, nameText, hm, hn, render_hist, render_hist, List.append_cancel_left_eq, fmtFixed_eq_iff hp hq]
  norm_num

/-- C89, timers: the names under which two percentiles of a timer are sent are the same if and only if the float64 products with 100 are the same when rounded to integers. -/
theorem C89_timer (s : Str) (p q : ℚ) (hp : 0 ≤ p) (hp' : p ≤ 1) (hq : 0 ≤ q) (hq' : q ≤ 1) (m n : Measurement F64)
    (hm : m.name = textOf s ++ [.val (bytes "2.0f") (.float (GoFloat.mul (.fin p) (GoFloat.lit 100)))])
    (hn : n.name = textOf s ++ [.val (bytes "2.0f") (.float (GoFloat.mul (.fin q) (GoFloat.lit 100)))]) :
    nameText m = nameText n ↔ roundEven (rnd (p * 100)) = roundEven (rnd (q * 100)) := by
  rw [nameText, nameText, hm, hn, render_timer, render_timer, List.append_cancel_left_eq, mul_hundred hp hp', mul_hundred hq hq']
  have h1 : 0 ≤ rnd (p * 100) := rnd_nonneg (by positivity)
  have h2 : 0 ≤ rnd (q * 100) := rnd_nonneg (by positivity)
  have h3 := fmtFixed_eq_iff (k := 0) h1 h2
  simp only [pow_zero, mul_one] at h3
  rw [← h3]
  exact ⟨padLeft_inj fixed_no_space fixed_no_space, fun h => by rw [h]⟩

private theorem forall2_nodup {α β γ : Type} {R : α → β → Prop} {f : β → γ} {l : List α} {m : List β} (h : List.Forall₂ R l m) (hl : l.Nodup)
    (hR : ∀ a b a' b', R a b → R a' b' → f b = f b' → a = a') : (m.map f).Nodup := by
  induction h with
  | nil => simp
  | @cons a b l m h1 h2 ih =>
    rw [List.nodup_cons] at hl
    rw [List.map_cons, List.nodup_cons]
    refine ⟨?_, ih hl.2⟩
    intro hb
    obtain ⟨b', h3, h4⟩ := List.mem_map.1 hb
    have : ∃ a' ∈ l, R a' b' := by
      clear ih hl hb h1
      induction h2 with
      | nil => simp at h3
      | cons h5 _ ih =>
        rcases List.mem_cons.1 h3 with rfl | h3
        · exact ⟨_, by simp, h5⟩
        · obtain ⟨a', h6, h7⟩ := ih h3
          exact ⟨a', by simp [h6], h7⟩
    obtain ⟨a', h5, h6⟩ := this
    rw [hR a b a' b' h1 h6 h4.symm] at hl
    exact hl.1 h5

section batch
variable (h : List (Env F64 × Op F64)) (env : Env F64) (g : Reg) (id : Nat) (hb : base g = some id) (d now : Int64) (ns source : Str) (is : List Nat) (his : ∀ i ∈ is, i ≤ 100) (hnd : is.Nodup)
  (w' : World F64) (b : Batch F64)
  (hr : buildRequest env { newReporter d source (is.map fun (i : Nat) => (GoFloat.lit ((i : ℚ) / 100) : F64)) with namesp := ns } now g (World.init.run h) = (w', .ok b))
include hb his hnd hr

/-- C89, what holds: if all requested percentiles are whole numbers of percent between 0 and 100, then for each histogram and timer that has values, the batch has one gauge for
each of them; its name ends with the number (for histograms as a fraction), no two of them have the same name, and the value is that percentile. Missing: other percentiles, see
`C89_refuted`. -/
theorem C89_whole_partial (name : Str) (r : Ref) (o : Obj F64) (n : Int64) :
    let w : World F64 := World.init.run h
    gets w id name = some r → (prefixes g).flatten <+: name → w.objs r = some o → isDistribution o = true → givesInt w env r .count n → 0 < n.toInt →
    ∃ pcts, (∀ m ∈ pcts, m ∈ b.gauges) ∧ (pcts.map nameText).Nodup ∧ List.Forall₂ (fun (i : Nat) m =>
      PercentName (libratoName ns name ++ bytes (if isTimer o then ".timer." else ".hist.")) (if isTimer o then (i : ℚ) else i / 100) (nameText m) ∧
      ∃ v, m.value = some (.float v) ∧ gives w env r (.stat (.percentile (GoFloat.lit ((i : ℚ) / 100)))) v) is pcts := by
  intro w hg hp ho hd hc hpos
  obtain ⟨-, ⟨blocks, -, hgs, -, hin, hblk⟩, -⟩ := C67_batch_partial h env g id hb d now ns source _ w' b hr
  obtain ⟨⟨name', r', cs, gs⟩, hx, rfl⟩ := List.mem_map.1 ((hin name).2 ⟨by rw [hg]; simp, hp⟩)
  obtain ⟨h1, o', h2, h3, -⟩ := hblk _ _ _ _ hx
  rw [hg] at h1
  cases h1
  rw [ho] at h2
  cases h2
  have hmem : ∀ m ∈ gs, m ∈ b.gauges := by
    intro m hm
    rw [hgs]
    exact List.mem_flatten.2 ⟨gs, List.mem_map.2 ⟨_, hx, rfl⟩, hm⟩
  have split : ∀ {α β γ : Type} {R : β → γ → Prop} {f : α → β} {l : List α} {m : List γ}, List.Forall₂ R (l.map f) m → List.Forall₂ (fun a c => R (f a) c) l m := by
    intro α β γ R f l m h
    rwa [List.forall₂_map_left_iff] at h
  have withMem : ∀ {β : Type} {R : Nat → β → Prop} {l : List Nat} {m : List β}, List.Forall₂ R l m → List.Forall₂ (fun a c => a ∈ l ∧ R a c) l m := by
    intro β R l m h
    induction h with
    | nil => exact .nil
    | @cons a b l m h1 _ ih =>
      exact .cons ⟨by simp, h1⟩ (ih.imp fun a c h => ⟨by simp [h.1], h.2⟩)
  cases o with
  | hist x =>
    obtain ⟨-, n', h4, -, h5⟩ := h3
    rw [givesInt] at hc h4
    rw [hc] at h4
    cases h4
    obtain ⟨gg, pcts, s, sum, rfl, -, -, -, -, -, -, -, h7⟩ := h5 hpos
    have h8 := withMem (split (split h7))
    have text : ∀ i m, i ∈ is ∧ (∃ x, gives w env r (.stat (.percentile (GoFloat.lit ((i : ℚ) / 100)))) x ∧
        plain m (textOf (libratoName ns name' ++ bytes ".hist.") ++ [.val (bytes ".2f") (.float (GoFloat.lit ((i : ℚ) / 100)))]) (.float x)) →
        nameText m = libratoName ns name' ++ bytes ".hist." ++ fixedText 2 i := by
      rintro i m ⟨hi, x, -, hx⟩
      rw [nameText, hx.1, render_hist, lit_percent_hist (his i hi)]
    refine ⟨pcts, fun m hm => hmem m (by simp [hm]), forall2_nodup h8 hnd ?_, h8.imp fun i m hh => ⟨⟨0, fixedText 2 i, ?_, ?_⟩, ?_⟩⟩
    · intro i m i' m' h9 h10 h11
      rw [text i m h9, text i' m' h10, List.append_cancel_left_eq] at h11
      exact fixedText_inj h11
    · rw [text i m hh]; simp [isTimer]
    · rw [readNumber_pos]; simp [isTimer]; norm_num
    · obtain ⟨-, x, h9, h10⟩ := hh
      exact ⟨x, h10.2.1, h9⟩
  | timer x =>
    obtain ⟨n', h4, -, -, h5⟩ := h3
    rw [givesInt] at hc h4
    rw [hc] at h4
    cases h4
    obtain ⟨gg, pcts, rs, s, mean, rfl, -, -, -, -, -, -, -, h7, -⟩ := h5 hpos
    have h8 := withMem (split (split h7))
    have text : ∀ i m, i ∈ is ∧ (∃ x, gives w env r (.stat (.percentile (GoFloat.lit ((i : ℚ) / 100)))) x ∧
        plain m (textOf (libratoName ns name' ++ bytes ".timer.") ++ [.val (bytes "2.0f") (.float (GoFloat.mul (GoFloat.lit ((i : ℚ) / 100)) (GoFloat.lit 100)))]) (.float x) true) →
        nameText m = libratoName ns name' ++ bytes ".timer." ++ padLeft 2 (decDigits i) := by
      rintro i m ⟨hi, x, -, hx⟩
      rw [nameText, hx.1, render_timer, lit_percent_timer (his i hi)]
    have dec : ∀ i, decDigits i = fixedText 0 i := fun i => by simp [fixedText]
    have nosp : ∀ i, (32 : UInt8) ∉ decDigits i := fun i hh => absurd ((decDigits_spec i).2.1 _ hh).1 (by decide)
    refine ⟨pcts, fun m hm => hmem m (by simp [hm]), forall2_nodup h8 hnd ?_, h8.imp fun i m hh => ⟨⟨2 - (decDigits i).length, decDigits i, ?_, ?_⟩, ?_⟩⟩
    · intro i m i' m' h9 h10 h11
      rw [text i m h9, text i' m' h10, List.append_cancel_left_eq] at h11
      have := padLeft_inj (nosp i) (nosp i') h11
      rw [dec, dec] at this
      exact fixedText_inj this
    · rw [text i m hh, padLeft]; simp [isTimer]
    · rw [dec, readNumber_pos]; simp [isTimer]
    · obtain ⟨-, x, h9, h10⟩ := hh
      exact ⟨x, h10.2.1, h9⟩
  | _ => simp [isDistribution] at hd

end batch

/-- C89: for each of the requested percentiles, each histogram and timer that has values has a gauge in the batch with that percentile; this is its name. -/
theorem C89_sent (h : List (Env F64 × Op F64)) (env : Env F64) (g : Reg) (id : Nat) (hb : base g = some id) (d now : Int64) (ns source : Str) (ps : List F64) (w' : World F64) (b : Batch F64)
    (hr : buildRequest env { newReporter d source ps with namesp := ns } now g (World.init.run h) = (w', .ok b)) (name : Str) (r : Ref) (o : Obj F64) (n : Int64) :
    let w : World F64 := World.init.run h
    gets w id name = some r → (prefixes g).flatten <+: name → w.objs r = some o → isDistribution o = true → givesInt w env r .count n → 0 < n.toInt → ∀ p ∈ ps,
    ∃ m ∈ b.gauges, nameText m = libratoName ns name ++ (if isTimer o then bytes ".timer." ++ padLeft 2 (fmtFixed 0 (GoFloat.mul p (GoFloat.lit 100))) else bytes ".hist." ++ fmtFixed 2 p) ∧
      ∃ v, m.value = some (.float v) ∧ gives w env r (.stat (.percentile p)) v := by
  intro w hg hp ho hd hc hpos p hmp
  obtain ⟨-, ⟨blocks, -, hgs, -, hin, hblk⟩, -⟩ := C67_batch_partial h env g id hb d now ns source _ w' b hr
  obtain ⟨⟨name', r', cs, gs⟩, hx, rfl⟩ := List.mem_map.1 ((hin name).2 ⟨by rw [hg]; simp, hp⟩)
  obtain ⟨h1, o', h2, h3, -⟩ := hblk _ _ _ _ hx
  rw [hg] at h1
  cases h1
  rw [ho] at h2
  cases h2
  have hmem : ∀ m ∈ gs, m ∈ b.gauges := by
    intro m hm
    rw [hgs]
    exact List.mem_flatten.2 ⟨gs, List.mem_map.2 ⟨_, hx, rfl⟩, hm⟩
  have pick : ∀ {β : Type} {R : F64 → β → Prop} {l : List F64} {m : List β}, List.Forall₂ R l m → p ∈ l → ∃ c ∈ m, R p c := by
    intro β R l m h hp
    induction h with
    | nil => simp at hp
    | @cons a b l m h1 _ ih =>
      rcases List.mem_cons.1 hp with rfl | hp
      · exact ⟨b, by simp, h1⟩
      · obtain ⟨c, h2, h3⟩ := ih hp
        exact ⟨c, by simp [h2], h3⟩
  cases o with
  | hist x =>
    obtain ⟨-, n', h4, -, h5⟩ := h3
    rw [givesInt] at hc h4
    rw [hc] at h4
    cases h4
    obtain ⟨gg, pcts, s, sum, rfl, -, -, -, -, -, -, -, h7⟩ := h5 hpos
    rw [List.forall₂_map_left_iff] at h7
    obtain ⟨m, h8, x, h9, h10⟩ := pick h7 hmp
    refine ⟨m, hmem m (by simp [h8]), ?_, x, h10.2.1, h9⟩
    rw [nameText, h10.1, render_hist]
    simp [isTimer]
  | timer x =>
    obtain ⟨n', h4, -, -, h5⟩ := h3
    rw [givesInt] at hc h4
    rw [hc] at h4
    cases h4
    obtain ⟨gg, pcts, rs, s, mean, rfl, -, -, -, -, -, -, -, h7, -⟩ := h5 hpos
    rw [List.forall₂_map_left_iff] at h7
    obtain ⟨m, h8, x, h9, h10⟩ := pick h7 hmp
    refine ⟨m, hmem m (by simp [h8]), ?_, x, h10.2.1, h9⟩
    rw [nameText, h10.1, render_timer]
    simp [isTimer]
  | _ => simp [isDistribution] at hd

-- A histogram "h" and a timer "t", each with the values 0, 1000 and 2000.
private def pctHistory : List (Env F64 × Op F64) :=
  [(envAt 0, .new (.uniform 4)), (envAt 0, .new (.hist 0)), (envAt 0, .new (.uniform 4)), (envAt 0, .new (.hist 2)), (envAt 0, .new .meter), (envAt 0, .new (.customTimer 3 4)),
   (envAt 1, .call 1 (.update 0)), (envAt 1, .call 1 (.update 1000)), (envAt 1, .call 1 (.update 2000)),
   (envAt 1, .call 5 (.updateD 0)), (envAt 1, .call 5 (.updateD 1000)), (envAt 1, .call 5 (.updateD 2000)),
   (envAt 1, .reg (.std 0) (.register [104] (.obj 1))), (envAt 1, .reg (.std 0) (.register [116] (.obj 5)))]

private theorem pct_recorded : ∀ r vs, recorded (World.init.run pctHistory : World F64) r = some vs → (vs.length : Int) ≤ maxInt64 := by
  intro r vs h
  rcases Nat.lt_or_ge r 6 with hr | hr
  · have key : ∀ r < 6, ((recorded (World.init.run pctHistory : World F64) r).all fun vs => decide ((vs.length : Int) ≤ maxInt64)) = true := by decide +kernel
    have := key r hr
    rw [h] at this
    simpa using this
  · have : (World.init.run pctHistory : World F64).objs r = none := (run_ok pctHistory).obj r hr
    simp [recorded, histRecorded, this] at h

private def isThree (x : Res (Out F64)) : Bool :=
  match x with
  | .ok (.int n) => n == 3
  | _ => false
private def floatIs (v : F64) (x : Res (Out F64)) : Bool :=
  match x with
  | .ok (.float u) => u = v
  | _ => false

private theorem pct_count (r : Ref) (h : isThree (observe (World.init.run pctHistory) (envAt 2) r .count) = true) : givesInt (World.init.run pctHistory : World F64) (envAt 2) r .count 3 := by
  unfold givesInt
  unfold isThree at h
  split at h
  · rename_i heq
    rw [heq, beq_iff_eq.1 h]
  · simp at h

private theorem pct_differ {r : Ref} {p q v v' u : F64} (h : floatIs u (observe (World.init.run pctHistory) (envAt 2) r (.stat (.percentile p))) = true)
    (h' : floatIs u (observe (World.init.run pctHistory) (envAt 2) r (.stat (.percentile q))) = false) (g : gives (World.init.run pctHistory : World F64) (envAt 2) r (.stat (.percentile p)) v)
    (g' : gives (World.init.run pctHistory : World F64) (envAt 2) r (.stat (.percentile q)) v') : v ≠ v' := by
  unfold gives at g g'
  rw [g] at h
  rw [g'] at h'
  rintro rfl
  simp [floatIs] at h h'
  exact h' h

/-- C89 is false for other percentiles: with the percentiles 0.5 and 0.504 the batch has, for a histogram and for a timer, two gauges with the same name and different values.
So it is for 0.999 and 0.9999 of a timer, which are both called 100. The name of a percentile below 9.5 of a timer has a space in it, also for whole numbers. -/
theorem C89_refuted :
    (∃ w' b, buildRequest (envAt 2) (newReporter 60000000000 [] [GoFloat.lit (1 / 2), GoFloat.lit (504 / 1000)]) 1000 (.std 0) (World.init.run pctHistory) = (w', .ok b) ∧
      (∃ m ∈ b.gauges, ∃ n ∈ b.gauges, nameText m = bytes "h.hist.0.50" ∧ nameText n = bytes "h.hist.0.50" ∧ m.value ≠ n.value) ∧
      (∃ m ∈ b.gauges, ∃ n ∈ b.gauges, nameText m = bytes "t.timer.50" ∧ nameText n = bytes "t.timer.50" ∧ m.value ≠ n.value)) ∧
    (∃ w' b, buildRequest (envAt 2) (newReporter 60000000000 [] [GoFloat.lit (5 / 100)]) 1000 (.std 0) (World.init.run pctHistory) = (w', .ok b) ∧
      ∃ m ∈ b.gauges, nameText m = bytes "t.timer. 5") ∧
    fmtFixed 0 (GoFloat.mul (GoFloat.lit (999 / 1000)) (GoFloat.lit 100)) = bytes "100" ∧ fmtFixed 0 (GoFloat.mul (GoFloat.lit (9999 / 10000)) (GoFloat.lit 100)) = bytes "100" := by
  have ok : ∀ ps : List F64, (∀ p ∈ ps, p ≠ .nan) → ∃ w' b, buildRequest (envAt 2) (newReporter 60000000000 [] ps) 1000 (.std 0) (World.init.run pctHistory) = (w', .ok b) :=
    fun ps hp => C67_returns pctHistory (envAt 2) (.std 0) 0 rfl 60000000000 1000 [] [] ps (by decide) hp pct_recorded
  refine ⟨?_, ?_, by decide +kernel, by decide +kernel⟩
  · obtain ⟨w', b, hb⟩ := ok [GoFloat.lit (1 / 2), GoFloat.lit (504 / 1000)] (by decide +kernel)
    refine ⟨w', b, hb, ?_, ?_⟩
    · have key := C89_sent pctHistory (envAt 2) (.std 0) 0 rfl 60000000000 1000 [] [] _ w' b hb [104] 1 (.hist (.std 0)) 3 rfl List.nil_prefix rfl rfl (pct_count _ (by decide +kernel)) (by decide)
      obtain ⟨m, h1, h2, v, h3, h4⟩ := key (GoFloat.lit (1 / 2)) (by simp)
      obtain ⟨n, h1', h2', v', h3', h4'⟩ := key (GoFloat.lit (504 / 1000)) (by simp)
      refine ⟨m, h1, n, h1', by rw [h2]; decide +kernel, by rw [h2']; decide +kernel, ?_⟩
      rw [h3, h3']
      have := pct_differ (u := .fin 1000) (by decide +kernel) (by decide +kernel) h4 h4'
      simpa using this
    · have key := C89_sent pctHistory (envAt 2) (.std 0) 0 rfl 60000000000 1000 [] [] _ w' b hb [116] 5 (.timer (.std 3 4)) 3 rfl List.nil_prefix rfl rfl (pct_count _ (by decide +kernel)) (by decide)
      obtain ⟨m, h1, h2, v, h3, h4⟩ := key (GoFloat.lit (1 / 2)) (by simp)
      obtain ⟨n, h1', h2', v', h3', h4'⟩ := key (GoFloat.lit (504 / 1000)) (by simp)
      refine ⟨m, h1, n, h1', by rw [h2]; decide +kernel, by rw [h2']; decide +kernel, ?_⟩
      rw [h3, h3']
      have := pct_differ (u := .fin 1000) (by decide +kernel) (by decide +kernel) h4 h4'
      simpa using this
  · obtain ⟨w', b, hb⟩ := ok [GoFloat.lit (5 / 100)] (by decide +kernel)
    obtain ⟨m, h1, h2, -⟩ := C89_sent pctHistory (envAt 2) (.std 0) 0 rfl 60000000000 1000 [] [] _ w' b hb [116] 5 (.timer (.std 3 4)) 3 rfl List.nil_prefix rfl rfl
      (pct_count _ (by decide +kernel)) (by decide) (GoFloat.lit (5 / 100)) (by simp)
    exact ⟨w', b, hb, m, h1, by rw [h2]; decide +kernel⟩

-- The hypotheses of `C89_whole_partial` can be met: the percentiles 5, 50 and 99 of the timer.
example : ∃ w' b, buildRequest (envAt 2) { newReporter 60000000000 [] ([5, 50, 99].map fun (i : Nat) => (GoFloat.lit ((i : ℚ) / 100) : F64)) with namesp := [] } 1000 (.std 0)
    (World.init.run pctHistory) = (w', .ok b) ∧ ∃ pcts : List (Measurement F64), (∀ m ∈ pcts, m ∈ b.gauges) ∧ pcts.length = 3 ∧ (pcts.map nameText).Nodup := by
  obtain ⟨w', b, hb⟩ := C67_returns pctHistory (envAt 2) (.std 0) 0 rfl 60000000000 1000 [] [] ([5, 50, 99].map fun (i : Nat) => (GoFloat.lit ((i : ℚ) / 100) : F64)) (by decide)
    (by decide +kernel) pct_recorded
  obtain ⟨pcts, h1, h2, h3⟩ := C89_whole_partial pctHistory (envAt 2) (.std 0) 0 rfl 60000000000 1000 [] [] [5, 50, 99] (by decide) (by decide) w' b hb [116] 5 (.timer (.std 3 4)) 3 rfl
    List.nil_prefix rfl rfl (pct_count _ (by decide +kernel)) (by decide)
  exact ⟨w', b, hb, pcts, h1, by rw [← h3.length_eq]; rfl, h2⟩

-- 0.99 and 0.995 of a histogram have the same name, 0.99 and 0.996 have not.
example : roundEven (99 / 100 * 100 : ℚ) ≠ roundEven (996 / 1000 * 100 : ℚ) := by decide +kernel

end GoMetrics
