import Verif.Props.ExportConc
import Verif.Props.Ordered

/-! Property theorems C122 while other goroutines use the metrics and the registry during the export (schedules of C100), with float64. -/

namespace GoMetrics
open Spec

private theorem live_mono {F α : Type} [GoFloat F] [GoSqrt F] [GoExp F] {start whole : List (Env F × Op F)} {id : Nat} {pre : Str} {skip : Obj F → Bool} {out : List α}
    {block block' : World F → Env F → Str → Ref → Obj F → List α → Prop} {blocks : List (LiveBlock F α)} (h : ExportedLive start whole id pre skip out block blocks)
    (hb : ∀ past env name r o evs, (after past : World F).objs r = some o → block (after past) env name r o evs → block' (after past) env name r o evs) :
    ExportedLive start whole id pre skip out block' blocks := by
  obtain ⟨h1, h2, h3, h4, h5⟩ := h
  refine ⟨h1, h2, h3, h4, fun b hbb => ?_⟩
  obtain ⟨k1, k2, k3, o, k4, k5⟩ := h5 b hbb
  refine ⟨k1, k2, k3, o, k4, ?_⟩
  split at k5
  · rename_i hs
    rw [if_pos hs]
    exact k5
  · rename_i hs
    rw [if_neg hs]
    exact ⟨k5.1, hb _ _ _ _ _ _ k4 k5.2⟩

private theorem complete_live {F : Type} [GoFloat F] [GoSqrt F] [GoExp F] {w : World F} {env : Env F} {r : Ref} {o : Obj F} (ho : w.objs r = some o) (hk : isDistribution o = true) {ps : List F}
    {conv : Call F → GoMetrics.Field F → GoMetrics.Field F} {rows : List (String × GoMetrics.Field F)} (h : AllStats w env r o ps conv rows) : Complete w env r o ps conv rows := by
  have hne : o.ty ≠ .health := by cases o <;> simp [isDistribution] at hk <;> simp [Obj.ty]
  refine ⟨h.1, fun x hx c hc => ?_⟩
  obtain ⟨v, h1, h2⟩ := h.2 x hx c hc
  refine ⟨v, ⟨h1.1, fun hn => ?_⟩, h2⟩
  rw [checked_of_not_health ho hne]
  exact h1.2 hn

section live
variable [GoSqrt F64] [GoExp F64]
variable {s : Nat → Turn F64} {g : Reg} {id : Nat} (hb : base g = some id) {h : List (Env F64 × Op F64)} {st : LiveState F64} {out : List (Event F64)}
  (hown : ∀ name r, gets (after (h ++ (s 0).others) : World F64) id name = some r → ownsValues (after (h ++ (s 0).others)) r)
include hb hown

/-- C122, writer.go: whatever other goroutines do during `WriteOnce`, the lines of each histogram and timer are in order. -/
theorem C122_writer_live (sorter : Sorter) (hd : writeOnceLive s sorter g h = ((st, out), .ok ())) :
    ∃ blocks, ExportedLive (h ++ (s 0).others) st.log id (prefixes g).flatten (fun _ => false) out
      (fun w env name r o evs => ∃ rows, AllStats w env r o five (fun _ v => v) rows ∧ PaddedBlock (fun _ => []) name o rows evs ∧
        (isDistribution o = true → SumsExact w r → RowsInOrder o rows)) blocks := by
  obtain ⟨blocks, h1, -⟩ := C100_writer s g id hb h st out hown sorter hd
  refine ⟨blocks, live_mono h1 ?_⟩
  rintro past env name r o evs ho ⟨rows, h2, h3⟩
  refine ⟨rows, h2, h3, fun hk hs => ?_⟩
  obtain ⟨f⟩ := Ordered.facts_ieee (run_ok past) env ho hk hs
  exact Ordered.inOrder Ordered.int_ieee f (complete_live ho hk h2) fun c c' v v' _ h => h

/-- C122, log.go: the same for `LogScaled`, if the scale is positive. -/
theorem C122_log_live (scale : Int64) (hscale : 0 < scale.toInt) (scaleString : Str) (hd : logScaledOnceLive s g scale scaleString h = ((st, out), .ok ())) :
    ∃ blocks, ExportedLive (h ++ (s 0).others) st.log id (prefixes g).flatten (fun _ => false) out
      (fun w env name r o evs => ∃ rows, AllStats w env r o five (fun c v => if isTimer o && isDuration c then inUnit (GoFloat.ofInt scale.toInt) v else v) rows ∧
        PaddedBlock (fun l => if isTimer o && (means o l).any isDuration then scaleString.drop 1 else []) name o rows evs ∧
        (isDistribution o = true → SumsExact w r → RowsInOrder o rows)) blocks := by
  obtain ⟨blocks, h1⟩ := C100_log s g id hb h st out hown scale scaleString hd
  refine ⟨blocks, live_mono h1 ?_⟩
  rintro past env name r o evs ho ⟨rows, h2, h3⟩
  refine ⟨rows, h2, h3, fun hk hs => ?_⟩
  obtain ⟨f⟩ := Ordered.facts_ieee (run_ok past) env ho hk hs
  refine Ordered.inOrder Ordered.int_ieee f (complete_live ho hk h2) fun c c' v v' hc h => ?_
  by_cases ht : isTimer o = true
  · rw [ht, (Ordered.isDuration_of_below hc).1, (Ordered.isDuration_of_below hc).2]
    exact Ordered.unit_mono_ieee hscale v v' h
  · simpa [ht] using h

/-- C122, syslog.go: the same for `Syslog`. -/
theorem C122_syslog_live (hd : syslogOnceLive s g h = ((st, out), .ok ())) :
    ∃ blocks, ExportedLive (h ++ (s 0).others) st.log id (prefixes g).flatten (fun _ => false) out
      (fun w env name r o evs => ∃ rows, AllStats w env r o five (fun _ v => v) rows ∧ SyslogBlock name o rows evs ∧
        (isDistribution o = true → SumsExact w r → RowsInOrder o rows)) blocks := by
  obtain ⟨blocks, h1⟩ := C100_syslog s g id hb h st out hown hd
  refine ⟨blocks, live_mono h1 ?_⟩
  rintro past env name r o evs ho ⟨rows, h2, h3⟩
  refine ⟨rows, h2, h3, fun hk hs => ?_⟩
  obtain ⟨f⟩ := Ordered.facts_ieee (run_ok past) env ho hk hs
  exact Ordered.inOrder Ordered.int_ieee f (complete_live ho hk h2) fun c c' v v' _ h => h

/-- C122, stathat.go: the same for the posts to StatHat. -/
theorem C122_stathat_live (key : Str) (hd : stathatOnceLive s key g h = ((st, out), .ok ())) :
    ∃ blocks, ExportedLive (h ++ (s 0).others) st.log id (prefixes g).flatten isHealth out
      (fun w env name r o evs => ∃ rows, AllStats w env r o five (fun c v => if isCount c then v else asFloat v) rows ∧ List.Forall₂ (StatHatPost o name key) rows evs ∧
        (isDistribution o = true → SumsExact w r → RowsInOrder o rows)) blocks := by
  obtain ⟨blocks, h1⟩ := C100_stathat s g id hb h st out hown key hd
  refine ⟨blocks, live_mono h1 ?_⟩
  rintro past env name r o evs ho ⟨rows, h2, h3⟩
  refine ⟨rows, h2, h3, fun hk hs => ?_⟩
  obtain ⟨f⟩ := Ordered.facts_ieee (run_ok past) env ho hk hs
  exact Ordered.inOrder Ordered.int_ieee f (complete_live ho hk h2) fun c c' v v' hc h => by
    simpa [(Ordered.isCount_of_below hc).1, (Ordered.isCount_of_below hc).2, Ordered.num_asFloat] using h

end live

-- Another goroutine updates a timer between the copy of the registry and the snapshot; the report shows both durations.
private def oneTimer : List (Env F64 × Op F64) :=
  [(envAt 0, .new (.uniform 4)), (envAt 0, .new (.hist 0)), (envAt 0, .new .meter), (envAt 0, .new (.customTimer 1 2)), (envAt 1, .call 3 (.updateD 1999)),
   (envAt 1, .reg (.std 0) (.register [116] (.obj 3)))]
private def meanwhile : Nat → Turn F64 := fun n => ⟨if n = 1 then [(envAt 1, .call 3 (.updateD 7))] else [], envAt 2⟩
example : isOk (logScaledOnceLive meanwhile (.std 0) 1000 (bytes "1µs") oneTimer).2 = true ∧
    recorded (after (logScaledOnceLive meanwhile (.std 0) 1000 (bytes "1µs") oneTimer).1.1.log) 3 = some [1999, 7] := by decide +kernel

example : SumsExact (after (oneTimer ++ (meanwhile 0).others ++ (meanwhile 1).others)) 3 := fun vs hv => by
  rw [show recorded (after (oneTimer ++ (meanwhile 0).others ++ (meanwhile 1).others)) 3 = some [1999, 7] from rfl] at hv
  cases hv
  decide

end GoMetrics
