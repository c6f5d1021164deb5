import Verif.Lemmas.Ordered

/-! Property theorems C122: the numbers of one report are in order, in exact arithmetic and (`_ieee`) with float64. -/

namespace GoMetrics
open Spec

private theorem exported_mono {F : Type} [GoFloat F] [GoSqrt F] [GoExp F] {id : Nat} {w : World F} {pre : Str} {α : Type} {l : List α} {b b' : Str → Ref → Obj F → List α → Prop} (h : Exported w id pre l b)
    (hbb : ∀ name r o evs, w.objs r = some o → b name r o evs → b' name r o evs) : Exported w id pre l b' := by
  obtain ⟨blocks, h1, h2, h3, h4⟩ := h
  refine ⟨blocks, h1, h2, h3, fun name r evs hx => ?_⟩
  obtain ⟨h5, o, h6, h7⟩ := h4 name r evs hx
  exact ⟨h5, o, h6, hbb _ _ _ _ h6 h7⟩

section ordered
variable {K : Type} [_root_.Field K] [LinearOrder K] [IsStrictOrderedRing K] [FloorRing K] [GoSqrt K] [GoExp K]
variable (h : List (Env K × Op K)) (env : Env K) (g : Reg) (id : Nat) (hb : base g = some id) (w' : World K) (out : List (Event K))
include hb

/-- C122, writer.go: the lines of each histogram and timer in the output of `WriteOnce` are in order. -/
theorem C122_writer (sorter : Sorter) (hd : writeOnce env sorter g (World.init.run h) = ((w', out), .ok ())) :
    let w : World K := World.init.run h
    Exported w id (prefixes g).flatten out fun name r o evs => ∃ rows, Complete w env r o five (fun _ v => v) rows ∧ PaddedBlock (fun _ => []) name o rows evs ∧
      (isDistribution o = true → SumsFit w r → RowsInOrder o rows) := by
  intro w
  refine exported_mono (C62_writer h env g id hb w' out sorter hd) ?_
  rintro name r o evs ho ⟨rows, h1, h2⟩
  refine ⟨rows, h1, h2, fun hk hs => ?_⟩
  obtain ⟨f⟩ := Ordered.facts (run_ok h) env ho hk hs
  exact Ordered.inOrder Ordered.int_exact f h1 fun c c' v v' _ h => h

/-- C122, log.go: the same for `LogScaled`, if the scale is positive. -/
theorem C122_log (scale : Int64) (hscale : 0 < scale.toInt) (scaleString : Str) (hd : logScaledOnce env g scale scaleString (World.init.run h) = ((w', out), .ok ())) :
    let w : World K := World.init.run h
    Exported w id (prefixes g).flatten out fun name r o evs => ∃ rows,
      Complete w env r o five (fun c v => if isTimer o && isDuration c then inUnit (GoFloat.ofInt scale.toInt) v else v) rows ∧
      PaddedBlock (fun l => if isTimer o && (means o l).any isDuration then scaleString.drop 1 else []) name o rows evs ∧
      (isDistribution o = true → SumsFit w r → RowsInOrder o rows) := by
  intro w
  refine exported_mono (C62_log h env g id hb w' out scale scaleString hd) ?_
  rintro name r o evs ho ⟨rows, h1, h2⟩
  refine ⟨rows, h1, h2, fun hk hs => ?_⟩
  obtain ⟨f⟩ := Ordered.facts (run_ok h) env ho hk hs
  by_cases ht : isTimer o = true
  · refine Ordered.inOrder Ordered.int_exact f h1 fun c c' v v' hc h => ?_
    rw [ht, (Ordered.isDuration_of_below hc).1, (Ordered.isDuration_of_below hc).2]
    exact Ordered.unit_mono (show (0 : K) < (scale.toInt : K) by exact_mod_cast hscale) v v' h
  · exact Ordered.inOrder Ordered.int_exact f h1 fun c c' v v' _ h => by simpa [ht] using h

/-- C122, syslog.go: the same for `Syslog`. -/
theorem C122_syslog (hd : syslogOnce env g (World.init.run h) = ((w', out), .ok ())) :
    let w : World K := World.init.run h
    Exported w id (prefixes g).flatten out fun name r o evs => ∃ rows, Complete w env r o five (fun _ v => v) rows ∧ SyslogBlock name o rows evs ∧
      (isDistribution o = true → SumsFit w r → RowsInOrder o rows) := by
  intro w
  refine exported_mono (C62_syslog h env g id hb w' out hd) ?_
  rintro name r o evs ho ⟨rows, h1, h2⟩
  refine ⟨rows, h1, h2, fun hk hs => ?_⟩
  obtain ⟨f⟩ := Ordered.facts (run_ok h) env ho hk hs
  exact Ordered.inOrder Ordered.int_exact f h1 fun c c' v v' _ h => h

/-- C122, stathat.go: the same for the posts to StatHat. -/
theorem C122_stathat (key : Str) (hd : stathatOnce env key g (World.init.run h) = ((w', out), .ok ())) :
    let w : World K := World.init.run h
    Exported w id (prefixes g).flatten out fun name r o evs => isDistribution o = true → ∃ rows,
      Complete w env r o five (fun c v => if isCount c then v else asFloat v) rows ∧ List.Forall₂ (StatHatPost o name key) rows evs ∧ (SumsFit w r → RowsInOrder o rows) := by
  intro w
  refine exported_mono (C62_stathat_partial h env g id hb w' out key hd) ?_
  rintro name r o evs ho h0 hk
  rw [show isHealth o = false by cases o <;> simp [isDistribution] at hk <;> rfl] at h0
  obtain ⟨rows, h1, h2⟩ := h0
  refine ⟨rows, h1, h2, fun hs => ?_⟩
  obtain ⟨f⟩ := Ordered.facts (run_ok h) env ho hk hs
  exact Ordered.inOrder Ordered.int_exact f h1 fun c c' v v' hc h => by
    simpa [(Ordered.isCount_of_below hc).1, (Ordered.isCount_of_below hc).2, Ordered.num_asFloat] using h

/-- C122, opentsdb.go: the lines of histograms are in order; those of timers nearly, as minimum and maximum are truncated to the unit and the others are not. (Partial: those of timers
should be in order as well, see `C122_opentsdb_refuted`.) -/
theorem C122_opentsdb_partial (cfg : OpenTSDBConfig) (hunit : 0 < cfg.durationUnit.toInt) (hd : openTSDBOnce env cfg g (World.init.run h) = ((w', out), .ok ())) :
    let w : World K := World.init.run h
    Exported w id (prefixes g).flatten out fun name r o evs => isDistribution o = true → ∃ rows, (rows.map fun x => means o x.1).Perm ((statsOf five o).map some) ∧
      List.Forall₂ (fun row e => OpenTSDBLine cfg.pre name cfg.now cfg.host (bytes row.1) row.2 e) rows evs ∧
      (SumsFit w r → if isTimer o then RowsNearlyInOrder o (NoNegative w r) rows else RowsInOrder o rows) := by
  intro w
  refine exported_mono (C62_opentsdb_partial h env g id hb w' out cfg (Ordered.unit_exact _) hd) ?_
  rintro name r o evs ho h0 hk
  rw [show isHealth o = false by cases o <;> simp [isDistribution] at hk <;> rfl] at h0
  obtain ⟨rows, h1, -, h2⟩ := h0
  refine ⟨rows, h1.1, h2, fun hs => ?_⟩
  obtain ⟨f⟩ := Ordered.facts (run_ok h) env ho hk hs
  by_cases ht : isTimer o = true
  · rw [if_pos ht]
    refine Ordered.nearly f h1 cfg.durationUnit hunit fun c v hc => ?_
    rw [ht, hc]
    rfl
  · rw [if_neg ht]
    exact Ordered.inOrder Ordered.int_exact f h1 fun c c' v v' _ h => by simpa [ht] using h

/-- C122, graphite.go: the lines of histograms are in order, percentiles included; of the lines of timers, those for the percentiles are, and the others nearly. (Partial: see
`C122_graphite_refuted`.) -/
theorem C122_graphite_partial (cfg : GraphiteConfig K) (hunit : 0 < cfg.durationUnit.toInt) (hd : graphiteOnce env cfg g (World.init.run h) = ((w', out), .ok ())) :
    let w : World K := World.init.run h
    Exported w id (prefixes g).flatten out fun name r o evs => isDistribution o = true → ∃ rows prows, (rows.map fun x => means o x.1).Perm ((statsOf [] o).map some) ∧
      prows.map Prod.fst = cfg.percentiles ∧ GraphiteBlock (pctKey cfg.formatFloat) cfg.pre name cfg.now rows prows evs ∧
      (SumsFit w r → PctsInOrder prows ∧ if isTimer o then RowsNearlyInOrder o (NoNegative w r) rows else RowsInOrder o rows ∧ PctsBetween o rows prows) := by
  intro w
  refine exported_mono (C62_graphite_partial h env g id hb w' out cfg (Ordered.unit_exact _) hd) ?_
  rintro name r o evs ho h0 hk
  rw [show isHealth o = false by cases o <;> simp [isDistribution] at hk <;> rfl] at h0
  obtain ⟨rows, prows, h1, h2, h3, h4⟩ := h0
  rw [if_pos hk] at h2
  refine ⟨rows, prows, h1.1, h2, h4, fun hs => ?_⟩
  obtain ⟨f⟩ := Ordered.facts (run_ok h) env ho hk hs
  refine ⟨fun x hx y hy hxy => ?_, ?_⟩
  · rw [f.isPct _ _ (h3 x hx), f.isPct _ _ (h3 y hy)]
    exact f.mono _ _ hxy
  · by_cases ht : isTimer o = true
    · rw [if_pos ht]
      refine Ordered.nearly f h1 cfg.durationUnit hunit fun c v hc => ?_
      rw [ht, hc]
      rfl
    · rw [if_neg ht]
      refine ⟨Ordered.inOrder Ordered.int_exact f h1 fun c c' v v' _ h => by simpa [ht] using h, fun x hx y hy => ⟨fun hm => ?_, fun hm => ?_⟩⟩
      · obtain ⟨v, h5, h6⟩ := h1.2 x hx _ hm
        rw [h6, f.isPct _ _ (h3 y hy)]
        simp only [ht, Bool.false_and, if_neg, Bool.false_eq_true, not_false_eq_true]
        rw [f.isMin _ h5]
        exact f.lo_pct _ _ (h3 y hy)
      · obtain ⟨v, h5, h6⟩ := h1.2 x hx _ hm
        rw [h6, f.isPct _ _ (h3 y hy)]
        simp only [ht, Bool.false_and, if_neg, Bool.false_eq_true, not_false_eq_true]
        rw [f.isMax _ h5]
        exact f.pct_hi _ _ (h3 y hy)

end ordered

section ieee
variable [GoSqrt F64] [GoExp F64]
variable (h : List (Env F64 × Op F64)) (env : Env F64) (g : Reg) (id : Nat) (hb : base g = some id) (w' : World F64) (out : List (Event F64))
include hb

/-- C122, writer.go, with float64: the lines are in order if the sum of the values and their number can be converted without rounding. -/
theorem C122_writer_ieee (sorter : Sorter) (hd : writeOnce env sorter g (World.init.run h) = ((w', out), .ok ())) :
    let w : World F64 := World.init.run h
    Exported w id (prefixes g).flatten out fun name r o evs => ∃ rows, Complete w env r o five (fun _ v => v) rows ∧ PaddedBlock (fun _ => []) name o rows evs ∧
      (isDistribution o = true → SumsExact w r → RowsInOrder o rows) := by
  intro w
  refine exported_mono (C62_writer h env g id hb w' out sorter hd) ?_
  rintro name r o evs ho ⟨rows, h1, h2⟩
  refine ⟨rows, h1, h2, fun hk hs => ?_⟩
  obtain ⟨f⟩ := Ordered.facts_ieee (run_ok h) env ho hk hs
  exact Ordered.inOrder Ordered.int_ieee f h1 fun c c' v v' _ h => h

/-- C122, log.go, with float64: the same for `LogScaled`, if the scale is positive. -/
theorem C122_log_ieee (scale : Int64) (hscale : 0 < scale.toInt) (scaleString : Str) (hd : logScaledOnce env g scale scaleString (World.init.run h) = ((w', out), .ok ())) :
    let w : World F64 := World.init.run h
    Exported w id (prefixes g).flatten out fun name r o evs => ∃ rows,
      Complete w env r o five (fun c v => if isTimer o && isDuration c then inUnit (GoFloat.ofInt scale.toInt) v else v) rows ∧
      PaddedBlock (fun l => if isTimer o && (means o l).any isDuration then scaleString.drop 1 else []) name o rows evs ∧
      (isDistribution o = true → SumsExact w r → RowsInOrder o rows) := by
  intro w
  refine exported_mono (C62_log h env g id hb w' out scale scaleString hd) ?_
  rintro name r o evs ho ⟨rows, h1, h2⟩
  refine ⟨rows, h1, h2, fun hk hs => ?_⟩
  obtain ⟨f⟩ := Ordered.facts_ieee (run_ok h) env ho hk hs
  by_cases ht : isTimer o = true
  · refine Ordered.inOrder Ordered.int_ieee f h1 fun c c' v v' hc h => ?_
    rw [ht, (Ordered.isDuration_of_below hc).1, (Ordered.isDuration_of_below hc).2]
    exact Ordered.unit_mono_ieee hscale v v' h
  · exact Ordered.inOrder Ordered.int_ieee f h1 fun c c' v v' _ h => by simpa [ht] using h

/-- C122, syslog.go, with float64: the same for `Syslog`. -/
theorem C122_syslog_ieee (hd : syslogOnce env g (World.init.run h) = ((w', out), .ok ())) :
    let w : World F64 := World.init.run h
    Exported w id (prefixes g).flatten out fun name r o evs => ∃ rows, Complete w env r o five (fun _ v => v) rows ∧ SyslogBlock name o rows evs ∧
      (isDistribution o = true → SumsExact w r → RowsInOrder o rows) := by
  intro w
  refine exported_mono (C62_syslog h env g id hb w' out hd) ?_
  rintro name r o evs ho ⟨rows, h1, h2⟩
  refine ⟨rows, h1, h2, fun hk hs => ?_⟩
  obtain ⟨f⟩ := Ordered.facts_ieee (run_ok h) env ho hk hs
  exact Ordered.inOrder Ordered.int_ieee f h1 fun c c' v v' _ h => h

/-- C122, stathat.go, with float64: the same for the posts to StatHat. -/
theorem C122_stathat_ieee (key : Str) (hd : stathatOnce env key g (World.init.run h) = ((w', out), .ok ())) :
    let w : World F64 := World.init.run h
    Exported w id (prefixes g).flatten out fun name r o evs => isDistribution o = true → ∃ rows,
      Complete w env r o five (fun c v => if isCount c then v else asFloat v) rows ∧ List.Forall₂ (StatHatPost o name key) rows evs ∧ (SumsExact w r → RowsInOrder o rows) := by
  intro w
  refine exported_mono (C62_stathat_partial h env g id hb w' out key hd) ?_
  rintro name r o evs ho h0 hk
  rw [show isHealth o = false by cases o <;> simp [isDistribution] at hk <;> rfl] at h0
  obtain ⟨rows, h1, h2⟩ := h0
  refine ⟨rows, h1, h2, fun hs => ?_⟩
  obtain ⟨f⟩ := Ordered.facts_ieee (run_ok h) env ho hk hs
  exact Ordered.inOrder Ordered.int_ieee f h1 fun c c' v v' hc h => by
    simpa [(Ordered.isCount_of_below hc).1, (Ordered.isCount_of_below hc).2, Ordered.num_asFloat] using h

end ieee

/-! ### Examples and refutations -/

/-- A timer "t" with the single duration of 1999 ns. -/
private def nearly2 : List (Env F64 × Op F64) :=
  [(envAt 0, .new (.uniform 4)), (envAt 0, .new (.hist 0)), (envAt 0, .new .meter), (envAt 0, .new (.customTimer 1 2)), (envAt 1, .call 3 (.updateD 1999)),
   (envAt 1, .reg (.std 0) (.register [116] (.obj 3)))]

private def openCfg : OpenTSDBConfig := { durationUnit := 1000, pre := [112], now := 7, host := [104] }
private def graphCfg : GraphiteConfig F64 := { durationUnit := 1000, pre := [112], percentiles := [.fin (1 / 2)], now := 7, formatFloat := fun _ => bytes "50" }

private theorem ok_eq {α : Type} {x : α × Res Unit} (h : isOk x.2 = true) : x = (x.1, .ok ()) := by
  rcases x with ⟨a, _ | _⟩
  · simp [isOk] at h
  · rfl

private def outIs : Res (Out F64) → Out F64 → Bool
  | .ok (.float x), .float y => decide (x = y)
  | .ok (.int x), .int y => decide (x = y)
  | _, _ => false
private theorem outIs_eq {x : Res (Out F64)} {v : Out F64} (h : outIs x v = true) : x = .ok v := by
  unfold outIs at h
  split at h
  · rw [of_decide_eq_true h]
  · rw [of_decide_eq_true h]
  · simp at h

private theorem nearly2_obj : (World.init.run nearly2 : World F64).objs 3 = some (.timer (.std 1 2)) := rfl
private theorem nearly2_holds {c : Call F64} {v : GoMetrics.Field F64} (hc : c ≠ .stat .stdDev) (h : Holds (World.init.run nearly2) (envAt 2) 3 c v) :
    shows (observe (World.init.run nearly2 : World F64) (envAt 2) 3 c) v := by
  have := h.2 hc
  rwa [checked_of_not_health nearly2_obj (by simp [Obj.ty])] at this

private theorem nearly2_max : observe (World.init.run nearly2 : World F64) (envAt 2) 3 (.stat .max) = .ok (.int 1999) := outIs_eq (by decide +kernel)
private theorem nearly2_mean : observe (World.init.run nearly2 : World F64) (envAt 2) 3 (.stat .mean) = .ok (.float (.fin 1999)) := outIs_eq (by decide +kernel)
private theorem nearly2_median : observe (World.init.run nearly2 : World F64) (envAt 2) 3 (.stat (.percentile (.fin (1 / 2)))) = .ok (.float (.fin 1999)) := outIs_eq (by decide +kernel)

/-- C122 is false for the timers of OpenTSDB: with the unit 1µs, the maximum of a timer with the single duration of 1999ns is sent as 1, its mean as 1.999 (to the next float). -/
theorem C122_opentsdb_refuted : ∃ (h : List (Env F64 × Op F64)) (env : Env F64) (cfg : OpenTSDBConfig) (w' : World F64) (out : List (Event F64)) (name : Str) (r : Ref) (x : TimerV)
    (l₁ l₂ : String) (e₁ e₂ : Event F64) (mean : F64), openTSDBOnce env cfg (.std 0) (World.init.run h) = ((w', out), .ok ()) ∧ cfg.durationUnit = 1000 ∧
    gets (World.init.run h : World F64) 0 name = some r ∧ (World.init.run h : World F64).objs r = some (.timer x) ∧ e₁ ∈ out ∧ e₂ ∈ out ∧
    means (.timer x : Obj F64) l₁ = some (.stat .max) ∧ OpenTSDBLine cfg.pre name cfg.now cfg.host (bytes l₁) (.int 1) e₁ ∧
    means (.timer x : Obj F64) l₂ = some (.stat .mean) ∧ OpenTSDBLine cfg.pre name cfg.now cfg.host (bytes l₂) (.float mean) e₂ ∧ mean = GoFloat.div (.fin 1999) (.fin 1000) ∧
    GoFloat.lt (GoFloat.ofInt 1) mean = true := by
  have hd := ok_eq (x := openTSDBOnce (envAt 2) openCfg (.std 0) (World.init.run nearly2 : World F64)) (by decide +kernel)
  have hu : Int64.ofInt (GoFloat.toInt (GoFloat.ofInt openCfg.durationUnit.toInt : F64)) = openCfg.durationUnit := C63_unit 1000 (by decide)
  have key := C63_opentsdb nearly2 (envAt 2) (.std 0) 0 rfl _ _ [116] 3 (.std 1 2) openCfg hu hd rfl (List.nil_prefix) nearly2_obj
  obtain ⟨l₁, v₁, e₁, h1, h2, h3, h4⟩ := key (.stat .max) (by simp [statsOf, distribution])
  obtain ⟨l₂, v₂, e₂, k1, k2, k3, k4⟩ := key (.stat .mean) (by simp [statsOf, distribution])
  have h5 := nearly2_holds (by simp) h2
  have k5 := nearly2_holds (by simp) k2
  rw [nearly2_max] at h5
  rw [nearly2_mean] at k5
  cases h5
  cases k5
  have e : (GoFloat.ofInt (openCfg.durationUnit).toInt : F64) = .fin 1000 := by decide +kernel
  refine ⟨nearly2, envAt 2, openCfg, _, _, [116], 3, .std 1 2, l₁, l₂, e₁, e₂, GoFloat.div (.fin 1999) (.fin 1000), hd, rfl, rfl, nearly2_obj, h3, k3, h1, h4, k1, ?_, rfl, by decide +kernel⟩
  rw [e] at k4
  exact k4

/-- C122 is false for the timers of Graphite: with the unit 1µs, the maximum of this timer is sent as 1 and its median as 1999. -/
theorem C122_graphite_refuted : ∃ (h : List (Env F64 × Op F64)) (env : Env F64) (cfg : GraphiteConfig F64) (w' : World F64) (out : List (Event F64)) (name : Str) (r : Ref) (x : TimerV)
    (l₁ : String) (p : F64) (e₁ e₂ : Event F64), graphiteOnce env cfg (.std 0) (World.init.run h) = ((w', out), .ok ()) ∧ cfg.durationUnit = 1000 ∧ p ∈ cfg.percentiles ∧
    gets (World.init.run h : World F64) 0 name = some r ∧ (World.init.run h : World F64).objs r = some (.timer x) ∧ e₁ ∈ out ∧ e₂ ∈ out ∧
    means (.timer x : Obj F64) l₁ = some (.stat .max) ∧ GraphiteLine cfg.pre name cfg.now (bytes l₁) (.int 1) e₁ ∧
    GraphiteLine cfg.pre name cfg.now (pctKey cfg.formatFloat p ++ bytes "-percentile") (.float (.fin 1999)) e₂ := by
  have hd := ok_eq (x := graphiteOnce (envAt 2) graphCfg (.std 0) (World.init.run nearly2 : World F64)) (by decide +kernel)
  have hu : Int64.ofInt (GoFloat.toInt (GoFloat.ofInt graphCfg.durationUnit.toInt : F64)) = graphCfg.durationUnit := C63_unit 1000 (by decide)
  have key := C63_graphite_partial nearly2 (envAt 2) (.std 0) 0 rfl _ _ [116] 3 (.std 1 2) graphCfg hu hd rfl (List.nil_prefix) nearly2_obj
  obtain ⟨l₁, v₁, e₁, h1, h2, h3, h4⟩ := key.1 (.stat .max) (by simp [statsOf, distribution])
  obtain ⟨v₂, e₂, k2, k3, k4⟩ := key.2 (.fin (1 / 2)) (by simp [graphCfg])
  have h5 := nearly2_holds (by simp) h2
  have k5 := nearly2_holds (by simp) k2
  rw [nearly2_max] at h5
  rw [nearly2_median] at k5
  cases h5
  cases k5
  exact ⟨nearly2, envAt 2, graphCfg, _, _, [116], 3, .std 1 2, l₁, .fin (1 / 2), e₁, e₂, hd, rfl, by simp [graphCfg], rfl, nearly2_obj, h3, k3, h1, h4, k4⟩

/-- With rational arithmetic (and any square root) the exports of a histogram and a timer return, and the sums fit. -/
private def both : List (Env ℚ × Op ℚ) :=
  [(envAt 0, .new (.uniform 4)), (envAt 0, .new (.hist 0)), (envAt 0, .new .meter), (envAt 0, .new (.customTimer 1 2)), (envAt 1, .call 3 (.updateD 1999)), (envAt 1, .call 3 (.updateD 7)),
   (envAt 1, .reg (.std 0) (.register [116] (.obj 3))), (envAt 1, .reg (.std 0) (.register [104] (.obj 1)))]
section
local instance : GoSqrt ℚ := ⟨id⟩
local instance : GoExp ℚ := ⟨id⟩
example : isOk (logScaledOnce (envAt 2) (.std 0) 1000 (bytes "1µs") (World.init.run both)).2 = true ∧ isOk (syslogOnce (envAt 2) (.std 0) (World.init.run both)).2 = true ∧
    isOk (stathatOnce (envAt 2) [] (.std 0) (World.init.run both)).2 = true ∧ isOk (openTSDBOnce (envAt 2) openCfg (.std 0) (World.init.run both)).2 = true := by decide +kernel
example : gets (World.init.run both) 0 [116] = some 3 ∧ isDistribution (.timer (.std 1 2) : Obj ℚ) = true ∧ recorded (World.init.run both) 3 = some [1999, 7] ∧
    SumsFit (World.init.run both) 3 :=
  ⟨rfl, rfl, rfl, fun vs hv => by
    rw [show recorded (World.init.run both) 3 = some [1999, 7] from rfl] at hv
    cases hv
    decide⟩
end

example : isOk (logScaledOnce (envAt 2) (.std 0) 1000 (bytes "1µs") (World.init.run nearly2)).2 = true ∧ isOk (syslogOnce (envAt 2) (.std 0) (World.init.run nearly2)).2 = true ∧
    isOk (stathatOnce (envAt 2) [] (.std 0) (World.init.run nearly2)).2 = true := by decide +kernel
example : SumsExact (World.init.run nearly2) 3 := fun vs hv => by
  rw [show recorded (World.init.run nearly2) 3 = some [1999] from rfl] at hv
  cases hv
  decide

end GoMetrics
