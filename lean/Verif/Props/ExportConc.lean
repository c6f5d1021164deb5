import Verif.Lemmas.ExportConc
import Verif.Props.Export

/-! Property theorem C100: exports while other goroutines use the metrics and the registry. -/

set_option linter.unusedSimpArgs false
set_option linter.unusedSectionVars false

namespace GoMetrics
open Spec

variable {F : Type} [GoFloat F] [GoSqrt F] [GoExp F]

private theorem each_live {s : Nat → Turn F} {g : Reg} {id : Nat} (hb : base g = some id) {arrange : List (Str × Ref) → List (Str × Ref)} (harr : ∀ l, (arrange l).Perm l) {sw : Obj F → Option (Case F)}
    (hsw : GoodSwitch sw) (hone : OneRead sw) {skip : Obj F → Bool} (hskip : ∀ o, o.isMetric = true → (sw o = none ↔ skip o = true)) {h : List (Env F × Op F)} {st : LiveState F} {out : List (Event F)}
    {block : World F → Env F → Str → Ref → Obj F → List (Event F) → Prop}
    (hblock : ∀ w env env0 name r o c evs, sw o = some c → CaseOut w env0 name r o c evs → (∀ d v, Holds w env0 r d v → HasValue w env r d v) → block w env name r o evs)
    (hown : ∀ name r, gets (after (h ++ (s 0).others) : World F) id name = some r → ownsValues (after (h ++ (s 0).others)) r)
    (hd : exportLive s g arrange sw h = ((st, out), .ok ())) :
    ∃ blocks, ExportedLive (h ++ (s 0).others) st.log id (prefixes g).flatten skip out block blocks ∧
      blocks.map LiveBlock.name = (arrange (((s 0).env.order ((after (h ++ (s 0).others) : World F).regs id)).filter fun e => (prefixes g).flatten.isPrefixOf e.1)).map Prod.fst :=
  each_blocks hb harr grows_metric (blockwise_export hsw hone hskip hblock) hown hd

private theorem each_live' {s : Nat → Turn F} {g : Reg} {id : Nat} (hb : base g = some id) {sw : Obj F → Option (Case F)}
    (hsw : GoodSwitch sw) (hone : OneRead sw) {skip : Obj F → Bool} {h : List (Env F × Op F)} {st : LiveState F} {out : List (Event F)}
    {block : World F → Env F → Str → Ref → Obj F → List (Event F) → Prop}
    (hown : ∀ name r, gets (after (h ++ (s 0).others) : World F) id name = some r → ownsValues (after (h ++ (s 0).others)) r)
    (hd : exportLive s g (fun l => l) sw h = ((st, out), .ok ())) (hskip : ∀ o, o.isMetric = true → (sw o = none ↔ skip o = true))
    (hblock : ∀ w env env0 name r o c evs, sw o = some c → CaseOut w env0 name r o c evs → (∀ d v, Holds w env0 r d v → HasValue w env r d v) → block w env name r o evs) :
    ∃ blocks, ExportedLive (h ++ (s 0).others) st.log id (prefixes g).flatten skip out block blocks := by
  obtain ⟨blocks, h1, -⟩ := each_live hb (fun _ => .rfl) hsw hone hskip hblock hown hd
  exact ⟨blocks, h1⟩

section live
variable (s : Nat → Turn F) (g : Reg) (id : Nat) (hb : base g = some id) (h : List (Env F × Op F)) (st : LiveState F) (out : List (Event F))
  (hown : ∀ name r, gets (after (h ++ (s 0).others) : World F) id name = some r → ownsValues (after (h ++ (s 0).others)) r)

include hb hown

/-- C100, writer.go: other goroutines may use the metrics and the registry in any way during `WriteOnce`. The report has one block for each metric that was in the registry at one moment (when the list was copied), in the order of
the names. Each block shows all statistics of its metric, with the values that they had together at one moment during the call: the moment of the call by which `WriteOnce` got at them. -/
theorem C100_writer (sorter : Sorter) (hd : writeOnceLive s sorter g h = ((st, out), .ok ())) :
    ∃ blocks, ExportedLive (h ++ (s 0).others) st.log id (prefixes g).flatten (fun _ => false) out
      (fun w env name r o evs => ∃ rows, AllStats w env r o five (fun _ v => v) rows ∧ PaddedBlock (fun _ => []) name o rows evs) blocks ∧ (blocks.map LiveBlock.name).Pairwise Before := by
  obtain ⟨blocks, h1, h2⟩ := each_live (block := fun w env name r o evs => ∃ rows, AllStats w env r o five (fun _ v => v) rows ∧ PaddedBlock (fun _ => []) name o rows evs)
    hb sorter.perm good_writer oneRead_writer (skip := fun _ => false) (fun o ho => by cases o <;> simp [writerSwitch, Obj.isMetric] at ho ⊢)
    (fun w env env0 name r o c evs hc ho hv => by obtain ⟨rows, h1, h2⟩ := writer_block hc ho; exact ⟨rows, complete_stats h1 hv, h2⟩) hown hd
  refine ⟨blocks, h1, ?_⟩
  rw [h2]
  exact (sort_before sorter (eachList_nodup _ g id (after_ok _))).imp (before_iff _ _).1

/-- C100, log.go: the same for one cue of `LogScaledOnCue`, in the order of the registry. -/
theorem C100_log (scale : Int64) (scaleString : Str) (hd : logScaledOnceLive s g scale scaleString h = ((st, out), .ok ())) :
    ∃ blocks, ExportedLive (h ++ (s 0).others) st.log id (prefixes g).flatten (fun _ => false) out
      (fun w env name r o evs => ∃ rows, AllStats w env r o five (fun c v => if isTimer o && isDuration c then inUnit (GoFloat.ofInt scale.toInt) v else v) rows ∧
        PaddedBlock (fun l => if isTimer o && (means o l).any isDuration then scaleString.drop 1 else []) name o rows evs) blocks := by
  exact each_live' hb (good_log _ _) (oneRead_log _ _) hown hd (fun o ho => by cases o <;> simp [logSwitch, Obj.isMetric] at ho ⊢)
    (fun w env env0 name r o c evs hc ho hv => by obtain ⟨rows, h1, h2⟩ := log_block hc ho; exact ⟨rows, complete_stats h1 hv, h2⟩)

/-- C100, syslog.go. -/
theorem C100_syslog (hd : syslogOnceLive s g h = ((st, out), .ok ())) :
    ∃ blocks, ExportedLive (h ++ (s 0).others) st.log id (prefixes g).flatten (fun _ => false) out
      (fun w env name r o evs => ∃ rows, AllStats w env r o five (fun _ v => v) rows ∧ SyslogBlock name o rows evs) blocks := by
  exact each_live' hb good_syslog oneRead_syslog hown hd (fun o ho => by cases o <;> simp [syslogSwitch, Obj.isMetric] at ho ⊢)
    (fun w env env0 name r o c evs hc ho hv => by obtain ⟨rows, h1, h2⟩ := syslog_block hc ho; exact ⟨rows, complete_stats h1 hv, h2⟩)

/-- C100, opentsdb.go; nothing for healthchecks (C62). -/
theorem C100_opentsdb (cfg : OpenTSDBConfig) (hu : Int64.ofInt (GoFloat.toInt (GoFloat.ofInt cfg.durationUnit.toInt : F)) = cfg.durationUnit) (hd : openTSDBOnceLive s cfg g h = ((st, out), .ok ())) :
    ∃ blocks, ExportedLive (h ++ (s 0).others) st.log id (prefixes g).flatten isHealth out
      (fun w env name r o evs => ∃ rows, AllStats w env r o five (fun c v => if isTimer o && isDuration c then inUnitInt cfg.durationUnit (GoFloat.ofInt cfg.durationUnit.toInt) v else v) rows ∧
        List.Forall₂ (fun row e => OpenTSDBLine cfg.pre name cfg.now cfg.host (bytes row.1) row.2 e) rows evs) blocks := by
  exact each_live' hb (good_openTSDB _) (oneRead_openTSDB _) hown hd (fun o ho => by cases o <;> simp [openTSDBSwitch, Obj.isMetric, isHealth] at ho ⊢)
    (fun w env env0 name r o c evs hc ho hv => by obtain ⟨rows, h1, -, h2⟩ := openTSDB_block hu hc ho; exact ⟨rows, complete_stats h1 hv, h2⟩)

/-- C100, stathat.go; nothing for healthchecks (C62). -/
theorem C100_stathat (key : Str) (hd : stathatOnceLive s key g h = ((st, out), .ok ())) :
    ∃ blocks, ExportedLive (h ++ (s 0).others) st.log id (prefixes g).flatten isHealth out
      (fun w env name r o evs => ∃ rows, AllStats w env r o five (fun c v => if isCount c then v else asFloat v) rows ∧ List.Forall₂ (StatHatPost o name key) rows evs) blocks := by
  exact each_live' hb (good_stathat _) (oneRead_stathat _) hown hd (fun o ho => by cases o <;> simp [stathatSwitch, Obj.isMetric, isHealth] at ho ⊢)
    (fun w env env0 name r o c evs hc ho hv => by obtain ⟨rows, h1, h2⟩ := stathat_block hc ho; exact ⟨rows, complete_stats h1 hv, h2⟩)

/-- C100, graphite.go; nothing for healthchecks (C62). -/
theorem C100_graphite (cfg : GraphiteConfig F) (hu : Int64.ofInt (GoFloat.toInt (GoFloat.ofInt cfg.durationUnit.toInt : F)) = cfg.durationUnit) (hd : graphiteOnceLive s cfg g h = ((st, out), .ok ())) :
    ∃ blocks, ExportedLive (h ++ (s 0).others) st.log id (prefixes g).flatten isHealth out
      (fun w env name r o evs => ∃ rows prows, AllStats w env r o [] (fun c v => if isTimer o && isDuration c then inUnitInt cfg.durationUnit (GoFloat.ofInt cfg.durationUnit.toInt) v else v) rows ∧
        prows.map Prod.fst = (if isDistribution o then cfg.percentiles else []) ∧ (∀ x ∈ prows, HasValue w env r (.stat (.percentile x.1)) x.2) ∧
        GraphiteBlock (pctKey cfg.formatFloat) cfg.pre name cfg.now rows prows evs) blocks := by
  exact each_live' hb (good_graphite _) (oneRead_graphite _) hown hd (fun o ho => by cases o <;> simp [graphiteSwitch, Obj.isMetric, isHealth] at ho ⊢)
    (fun w env env0 name r o c evs hc ho hv => by obtain ⟨rows, prows, h1, h2, h3, h4⟩ := graphite_block hu hc ho; exact ⟨rows, prows, complete_stats h1 hv, h2, fun x hx => hv _ _ (h3 x hx), h4⟩)

end live

/-- C100: without other goroutines the exporters are those of C61 and C62. -/
theorem C100_sequential (env : Env F) (g : Reg) (id : Nat) (hb : base g = some id) (h : List (Env F × Op F)) :
    let alone : Nat → Turn F := fun _ => ⟨[], env⟩
    let seq : (LiveState F × List (Event F)) × Res Unit → (World F × List (Event F)) × Res Unit := fun x => ((after x.1.1.log, x.1.2), x.2)
    (∀ sorter, writeOnce env sorter g (after h) = seq (writeOnceLive alone sorter g h)) ∧
    (∀ scale t, logScaledOnce env g scale t (after h) = seq (logScaledOnceLive alone g scale t h)) ∧
    syslogOnce env g (after h) = seq (syslogOnceLive alone g h) ∧
    (∀ c, graphiteOnce env c g (after h) = seq (graphiteOnceLive alone c g h)) ∧
    (∀ c, openTSDBOnce env c g (after h) = seq (openTSDBOnceLive alone c g h)) ∧
    (∀ key, stathatOnce env key g (after h) = seq (stathatOnceLive alone key g h)) := by
  intro alone seq
  have key : ∀ sw, each env g (exportMetric env sw) (after h, []) = seq (exportLive alone g (fun l => l) sw h) := fun sw => by
    rw [each, exportLive, eachLive, List.append_nil, eachList_base env g id hb]
    exact alone_visit (alone_metric sw) _ ⟨h, 1⟩ []
  refine ⟨fun sorter => ?_, fun _ _ => key _, key _, fun _ => key _, fun _ => key _, fun _ => key _⟩
  rw [writeOnce_eq env sorter g id hb, writeOnceLive, exportLive, eachLive, List.append_nil, eachList_base env g id hb]
  exact alone_visit (alone_metric _) _ ⟨h, 1⟩ []

/-! ### Examples and limits -/

-- Other goroutines increment the counter, and update the histogram and the timer, before each call of the exporter.
private def busy : Nat → Turn F64 := fun n => ⟨[(envAt 2, .call 0 (.inc 1)), (envAt 2, .call 5 (.update 7)), (envAt 2, .call 10 (.updateD 3))], envAt (3 + n)⟩

private theorem busy_owns : ∀ name r, gets (after (exportHistory ++ (busy 0).others) : World F64) 0 name = some r → ownsValues (after (exportHistory ++ (busy 0).others) : World F64) r := by
  intro name r hr
  rw [gets_eq] at hr
  have h1 := lookup_some_mem hr
  have h2 : ∀ e ∈ (after (exportHistory ++ (busy 0).others) : World F64).regs 0, slice (after (exportHistory ++ (busy 0).others) : World F64) e.2 = none := by decide +kernel
  intro a ha
  rw [h2 _ h1] at ha
  simp at ha

private theorem live_ok {α : Type _} {x : α × Res Unit} (h : isOk x.2 = true) : x = (x.1, .ok ()) := by
  rcases x with ⟨a, _ | _⟩
  · simp [isOk] at h
  · rfl

private theorem busy_writer : isOk (writeOnceLive busy byName (.std 0) exportHistory).2 = true := by decide +kernel
example := C100_writer busy (.std 0) 0 rfl exportHistory _ _ busy_owns byName (live_ok busy_writer)
private theorem busy_log : isOk (logScaledOnceLive busy (.std 0) 1000000 (bytes "1ms") exportHistory).2 = true := by decide +kernel
example := C100_log busy (.std 0) 0 rfl exportHistory _ _ busy_owns _ _ (live_ok busy_log)
private theorem busy_syslog : isOk (syslogOnceLive busy (.std 0) exportHistory).2 = true := by decide +kernel
example := C100_syslog busy (.std 0) 0 rfl exportHistory _ _ busy_owns (live_ok busy_syslog)
private theorem busy_stathat : isOk (stathatOnceLive busy [107] (.std 0) exportHistory).2 = true := by decide +kernel
example := C100_stathat busy (.std 0) 0 rfl exportHistory _ _ busy_owns _ (live_ok busy_stathat)
private def tsdbCfg : OpenTSDBConfig := { durationUnit := 1000, pre := [], now := 0, host := [] }
private theorem busy_opentsdb : isOk (openTSDBOnceLive busy tsdbCfg (.std 0) exportHistory).2 = true := by decide +kernel
example := C100_opentsdb busy (.std 0) 0 rfl exportHistory _ _ busy_owns tsdbCfg (C63_unit 1000 (by decide)) (live_ok busy_opentsdb)
private def graphCfg : GraphiteConfig F64 := { durationUnit := 1000, pre := [112], percentiles := [.fin (1 / 2)], now := 7, formatFloat := fun _ => bytes "50" }
private theorem busy_graphite : isOk (graphiteOnceLive busy graphCfg (.std 0) exportHistory).2 = true := by decide +kernel
example := C100_graphite busy (.std 0) 0 rfl exportHistory _ _ busy_owns graphCfg (C63_unit 1000 (by decide)) (live_ok busy_graphite)

/-- The integers in the output. -/
private def intsOf (l : List (Event F64)) : List Int64 :=
  l.flatMap fun e => match e with
    | .print ps => ps.filterMap fun p => match p with | .val _ (.int n) => some n | _ => none
    | _ => []

-- Two counters "a" and "b"; another goroutine increments "a" and then "b" after the exporter has read "a".
private def twoCounters : List (Env F64 × Op F64) :=
  [(envAt 0, .new .counter), (envAt 0, .new .counter), (envAt 0, .reg (.std 0) (.register [97] (.obj 0))), (envAt 0, .reg (.std 0) (.register [98] (.obj 1)))]
private def between : Nat → Turn F64 := fun n => ⟨if n = 2 then [(envAt 1, .call 0 (.inc 1)), (envAt 1, .call 1 (.inc 1))] else [], envAt 1⟩

/-- C100, the limit: the moments of different metrics differ. There is an export whose report is not the report of any moment: it shows 0 for "a" and 1 for "b", though "a" was incremented before "b". -/
theorem C100_cut_refuted : ∃ (h : List (Env F64 × Op F64)) (s : Nat → Turn F64) (st : LiveState F64) (out : List (Event F64)), writeOnceLive s byName (.std 0) h = ((st, out), .ok ()) ∧
    ∀ p, p <+: st.log → ∀ n, (writeOnce (s n).env byName (.std 0) (after p)).1.2 ≠ out := by
  have h1 : isOk (writeOnceLive between byName (.std 0) twoCounters).2 = true := by decide +kernel
  refine ⟨twoCounters, between, _, _, live_ok h1, fun p hp n he => ?_⟩
  have h2 : ∀ p ∈ (writeOnceLive between byName (.std 0) twoCounters).1.1.log.inits, intsOf (writeOnce (envAt 1) byName (.std 0) (after p)).1.2 ≠ intsOf (writeOnceLive between byName (.std 0) twoCounters).1.2 := by
    decide +kernel
  exact h2 p ((List.mem_inits _ _).2 hp) (congrArg intsOf he)

-- A metric that is unregistered after the copy is still reported.
private def gone : Nat → Turn F64 := fun n => ⟨if n = 1 then [(envAt 1, .reg (.std 0) (.unregister [98]))] else [], envAt 1⟩
example : intsOf (writeOnceLive gone byName (.std 0) twoCounters).1.2 = [0, 0] ∧ gets (after (writeOnceLive gone byName (.std 0) twoCounters).1.1.log) 0 [98] = none := by decide +kernel

end GoMetrics
