import Verif.Lemmas.NilProgram
import Verif.Props.Export
import Verif.Props.Returns
import Verif.Props.Json

/-! C125: a program that sets `UseNilMetrics` gets no metrics: nothing runs, nothing panics, and every report shows zeros. -/

set_option linter.unusedSectionVars false

namespace GoMetrics
open Spec

section
variable {F : Type} [GoFloat F] [GoSqrt F] [GoExp F] (h : List (Env F × Op F)) (hn : NilProgram h) (env : Env F) (g : Reg) (id : Nat)
include hn

/-- C125: every metric of every registry is a stub, the clock goroutine was never started, and no meter waits for it. -/
theorem C125_stubs : (∀ id name r, gets (World.init.run h : World F) id name = some r → ∃ o, (World.init.run h : World F).objs r = some o ∧ isStub o = true) ∧
    (World.init.run h : World F).started = false ∧ (World.init.run h : World F).meters = [] := by
  have hw := NilProgram.hushed h hn
  refine ⟨fun id name r hr => ?_, hw.started, hw.meters⟩
  obtain ⟨o, ho, hm⟩ := objs_of (run_ok h) hr
  exact ⟨o, ho, NilProgram.stub_of hw ho hm⟩

/-- C125: no operation panics, except methods of sample snapshots that the user made and `GetOrRegister` with a function that cannot be called or panics. -/
theorem C125_calm (o : Op F) (ho : ¬ mayPanic (World.init.run h : World F) o) : ∃ x, (step env o (World.init.run h : World F)).2 = .ok x :=
  NilProgram.step_ok env o (NilProgram.hushed h hn) ho

private theorem exported_zero {α : Type} {w : World F} (hw : NilProgram.Hushed w) (hok : w.Ok) {pre : Str} {out : List α} {block block' : Str → Ref → Obj F → List α → Prop}
    (hx : Exported w id pre out block) (hm : ∀ name r o evs, w.objs r = some o → o.isMetric = true → block name r o evs → block' name r o evs) : Exported w id pre out block' := by
  obtain ⟨bs, h1, h2, h3, h4⟩ := hx
  refine ⟨bs, h1, h2, h3, fun name r evs hb => ?_⟩
  obtain ⟨h5, o, h6, h7⟩ := h4 name r evs hb
  obtain ⟨o', ho', hmet⟩ := objs_of hok h5
  rw [h6] at ho'; cases ho'
  exact ⟨h5, o, h6, hm name r o evs h6 hmet h7⟩

variable (hb : base g = some id) (w' : World F) (out : List (Event F))
include hb

/-- C125, writer.go: `WriteOnce` prints every statistic of every metric, all of them zero. -/
theorem C125_writer (sorter : Sorter) (hd : writeOnce env sorter g (World.init.run h) = ((w', out), .ok ())) :
    Exported (World.init.run h : World F) id (prefixes g).flatten out fun name _ o evs => ∃ rows, AllZero o five (fun _ v => v) rows ∧ PaddedBlock (fun _ => []) name o rows evs := by
  have hw := NilProgram.hushed h hn
  exact exported_zero h hn id hw (run_ok h) (C62_writer h env g id hb w' out sorter hd) fun name r o evs ho hm ⟨rows, h1, h2⟩ => ⟨rows, NilProgram.allZero hw ho hm h1, h2⟩

/-- C125, log.go: zeros, for durations divided by the unit. -/
theorem C125_log (scale : Int64) (scaleString : Str) (hd : logScaledOnce env g scale scaleString (World.init.run h) = ((w', out), .ok ())) :
    Exported (World.init.run h : World F) id (prefixes g).flatten out fun name _ o evs => ∃ rows,
      AllZero o five (fun c v => if isTimer o && isDuration c then inUnit (GoFloat.ofInt scale.toInt) v else v) rows ∧
      PaddedBlock (fun l => if isTimer o && (means o l).any isDuration then scaleString.drop 1 else []) name o rows evs := by
  have hw := NilProgram.hushed h hn
  exact exported_zero h hn id hw (run_ok h) (C62_log h env g id hb w' out scale scaleString hd) fun name r o evs ho hm ⟨rows, h1, h2⟩ => ⟨rows, NilProgram.allZero hw ho hm h1, h2⟩

/-- C125, syslog.go. -/
theorem C125_syslog (hd : syslogOnce env g (World.init.run h) = ((w', out), .ok ())) :
    Exported (World.init.run h : World F) id (prefixes g).flatten out fun name _ o evs => ∃ rows, AllZero o five (fun _ v => v) rows ∧ SyslogBlock name o rows evs := by
  have hw := NilProgram.hushed h hn
  exact exported_zero h hn id hw (run_ok h) (C62_syslog h env g id hb w' out hd) fun name r o evs ho hm ⟨rows, h1, h2⟩ => ⟨rows, NilProgram.allZero hw ho hm h1, h2⟩

/-- C125, opentsdb.go (which sends nothing for healthchecks). -/
theorem C125_opentsdb (cfg : OpenTSDBConfig) (hu : Int64.ofInt (GoFloat.toInt (GoFloat.ofInt cfg.durationUnit.toInt : F)) = cfg.durationUnit)
    (hd : openTSDBOnce env cfg g (World.init.run h) = ((w', out), .ok ())) :
    Exported (World.init.run h : World F) id (prefixes g).flatten out fun name _ o evs => if isHealth o then evs = [] else ∃ rows,
      AllZero o five (fun c v => if isTimer o && isDuration c then inUnitInt cfg.durationUnit (GoFloat.ofInt cfg.durationUnit.toInt) v else v) rows ∧
      List.Forall₂ (fun row e => OpenTSDBLine cfg.pre name cfg.now cfg.host (bytes row.1) row.2 e) rows evs := by
  have hw := NilProgram.hushed h hn
  refine exported_zero h hn id hw (run_ok h) (C62_opentsdb_partial h env g id hb w' out cfg hu hd) fun name r o evs ho hm hx => ?_
  split
  · next hh => rw [if_pos hh] at hx; exact hx
  · next hh =>
    rw [if_neg hh] at hx
    obtain ⟨rows, h1, -, h2⟩ := hx
    exact ⟨rows, NilProgram.allZero hw ho hm h1, h2⟩

/-- C125, stathat.go (which posts nothing for healthchecks). -/
theorem C125_stathat (key : Str) (hd : stathatOnce env key g (World.init.run h) = ((w', out), .ok ())) :
    Exported (World.init.run h : World F) id (prefixes g).flatten out fun name _ o evs => if isHealth o then evs = [] else ∃ rows,
      AllZero o five (fun c v => if isCount c then v else asFloat v) rows ∧ List.Forall₂ (StatHatPost o name key) rows evs := by
  have hw := NilProgram.hushed h hn
  refine exported_zero h hn id hw (run_ok h) (C62_stathat_partial h env g id hb w' out key hd) fun name r o evs ho hm hx => ?_
  split
  · next hh => rw [if_pos hh] at hx; exact hx
  · next hh =>
    rw [if_neg hh] at hx
    obtain ⟨rows, h1, h2⟩ := hx
    exact ⟨rows, NilProgram.allZero hw ho hm h1, h2⟩

/-- C125, graphite.go (which sends nothing for healthchecks). -/
theorem C125_graphite (cfg : GraphiteConfig F) (hu : Int64.ofInt (GoFloat.toInt (GoFloat.ofInt cfg.durationUnit.toInt : F)) = cfg.durationUnit)
    (hd : graphiteOnce env cfg g (World.init.run h) = ((w', out), .ok ())) :
    Exported (World.init.run h : World F) id (prefixes g).flatten out fun name _ o evs => if isHealth o then evs = [] else ∃ rows prows,
      AllZero o [] (fun c v => if isTimer o && isDuration c then inUnitInt cfg.durationUnit (GoFloat.ofInt cfg.durationUnit.toInt) v else v) rows ∧
      prows.map Prod.fst = (if isDistribution o then cfg.percentiles else []) ∧ (∀ x ∈ prows, isNothing x.2) ∧
      GraphiteBlock (pctKey cfg.formatFloat) cfg.pre name cfg.now rows prows evs := by
  have hw := NilProgram.hushed h hn
  refine exported_zero h hn id hw (run_ok h) (C62_graphite_partial h env g id hb w' out cfg hu hd) fun name r o evs ho hm hx => ?_
  split
  · next hh => rw [if_pos hh] at hx; exact hx
  · next hh =>
    rw [if_neg hh] at hx
    obtain ⟨rows, prows, h1, h2, h3, h4⟩ := hx
    refine ⟨rows, prows, NilProgram.allZero hw ho hm h1, h2, fun x hx => ?_, h4⟩
    refine NilProgram.holds_zero hw ho hm [x.1] ?_ (h3 x hx)
    have hd : isDistribution o = true := by
      by_contra hne
      rw [if_neg hne] at h2
      rw [List.map_eq_nil_iff.1 h2] at hx
      cases hx
    cases o <;> simp [isDistribution] at hd <;> simp [statsOf, Spec.distribution]

omit hn hb in
private theorem field_stat {o : Obj F} {kc : String × Call F} (hk : kc ∈ fieldsOf o) : kc.2 ∈ statsOf five o := by
  cases o <;> simp [fieldsOf, fieldsOf.distribution, fieldsOf.rates] at hk <;> simp [statsOf, Spec.distribution, allRates, five]
  · subst hk; rfl
  · subst hk; rfl
  · subst hk; rfl
  · subst hk; rfl
  · rcases hk with rfl | rfl | rfl | rfl | rfl | rfl | rfl | rfl | rfl | rfl <;> simp
  · rcases hk with rfl | rfl | rfl | rfl | rfl <;> simp
  · rcases hk with rfl | rfl | rfl | rfl | rfl | rfl | rfl | rfl | rfl | rfl | rfl | rfl | rfl | rfl <;> simp

/-- C125: `GetAll` gives the fields of every metric, all of them zero. -/
theorem C125_getAll (data : Data F) (hd : getAll env g (World.init.run h) = (w', .ok (some data))) :
    (∀ name, name ∈ data.map Prod.fst ↔ gets (World.init.run h : World F) id name ≠ none) ∧
    ∀ name vs, (name, vs) ∈ data → (∀ kf ∈ vs, isNothing kf.2) ∧
      ∃ r o, gets (World.init.run h : World F) id name = some r ∧ (World.init.run h : World F).objs r = some o ∧ vs.map Prod.fst = (fieldsOf o).map Prod.fst := by
  obtain ⟨-, h2, h3⟩ := C56_values h env g id hb w' data hd
  refine ⟨h2, fun name vs hv => ?_⟩
  obtain ⟨r, o, h4, h5, h6⟩ := h3 name vs hv
  have hw := NilProgram.hushed h hn
  obtain ⟨o', ho', hm⟩ := objs_of (run_ok h) h4
  rw [h5] at ho'; cases ho'
  refine ⟨?_, r, o, h4, h5, ?_⟩
  · have key : ∀ (l : List (String × Call F)) (m : List (String × GoMetrics.Field F)), (∀ kc ∈ l, kc ∈ fieldsOf o) →
        List.Forall₂ (fun (kc : String × Call F) (kf : String × GoMetrics.Field F) => kf.1 = kc.1 ∧ Holds (World.init.run h) env r kc.2 kf.2) l m → ∀ kf ∈ m, isNothing kf.2 := by
      intro l m hl hf
      induction hf with
      | nil => intro kf hkf; cases hkf
      | cons h7 _ ih =>
        intro kf hkf
        rcases List.mem_cons.1 hkf with rfl | hkf
        · exact NilProgram.holds_zero hw h5 hm five (field_stat (hl _ List.mem_cons_self)) h7.2
        · exact ih (fun kc hkc => hl kc (List.mem_cons_of_mem _ hkc)) kf hkf
    exact key _ _ (fun _ hk => hk) (forall2_mono (fun a b hab => ⟨hab.1, hab.2.2, hab.2.1⟩) h6)
  · have key : ∀ (l : List (String × Call F)) (m : List (String × GoMetrics.Field F)), List.Forall₂ (fun kc kf => kf.1 = kc.1) l m → m.map Prod.fst = l.map Prod.fst := by
      intro l m hf
      induction hf with
      | nil => rfl
      | cons h7 _ ih => rw [List.map_cons, List.map_cons, ih, h7]
    exact key _ _ (forall2_mono (fun a b hab => hab.1) h6)

end

section
variable [GoSqrt F64] [GoExp F64] (h : List (Env F64 × Op F64)) (hn : NilProgram h) (env : Env F64) (g : Reg) (id : Nat) (hb : base g = some id)
include hn hb

/-- C125: every report is made to the end: `WriteOnce`, `Log`, `LogScaled`, `Syslog`, StatHat, OpenTSDB and Graphite (the last two if the duration unit is not 0, and
no NaN is among the configured percentiles). -/
theorem C125_returns :
    (∀ sorter, ∃ y, writeOnce env sorter g (World.init.run h : World F64) = (y, .ok ())) ∧
    (∀ scale s, ∃ y, logScaledOnce env g scale s (World.init.run h : World F64) = (y, .ok ())) ∧
    (∃ y, logOnce env g (World.init.run h : World F64) = (y, .ok ())) ∧
    (∃ y, syslogOnce env g (World.init.run h : World F64) = (y, .ok ())) ∧
    (∀ key, ∃ y, stathatOnce env key g (World.init.run h : World F64) = (y, .ok ())) ∧
    (∀ cfg : OpenTSDBConfig, Int64.ofInt (GoFloat.toInt (GoFloat.ofInt cfg.durationUnit.toInt : F64)) ≠ 0 → ∃ y, openTSDBOnce env cfg g (World.init.run h : World F64) = (y, .ok ())) ∧
    ∀ cfg : GraphiteConfig F64, Int64.ofInt (GoFloat.toInt (GoFloat.ofInt cfg.durationUnit.toInt : F64)) ≠ 0 → (∀ p ∈ cfg.percentiles, p ≠ .nan) →
      ∃ y, graphiteOnce env cfg g (World.init.run h : World F64) = (y, .ok ()) := by
  have hw := NilProgram.hushed h hn
  refine C62_returns h env g id hb (fun name r o hr _ ho hd => ?_) fun r vs hv => ?_
  · exact (NilProgram.call_ok env r .snapshot hw (by rintro ⟨n, a, e⟩; rw [ho] at e; cases e; cases hd)).2
  · rw [NilProgram.recorded_none hw r] at hv; cases hv

/-- C125: `WriteJSONOnce` and `MarshalJSON` always give the JSON of all metrics (compare C65: nothing is written when a value is NaN, as with real meters that are new). -/
theorem C125_json (t : JsonText F64) (srt : KeySorter) : ∃ w' text, writeJSONOnce env t srt g (World.init.run h : World F64) = (w', .ok (text ++ [10])) ∧
    marshalJSON env t srt g (World.init.run h : World F64) = (w', .ok (some text)) ∧ JsonOf t (World.init.run h : World F64) env id text := by
  have hw := NilProgram.hushed h hn
  obtain ⟨w', data, hd⟩ := C56_returns h env g id hb (fun name r o hr _ ho hd =>
    (NilProgram.call_ok env r .snapshot hw (by rintro ⟨n, a, e⟩; rw [ho] at e; cases e; cases hd)).2) fun r vs hv => by
      rw [NilProgram.recorded_none hw r] at hv; cases hv
  obtain ⟨text, h1, h2, h3⟩ := C65_partial h env t srt g id hb w' data hd fun name r o kc v hr ho hk hv => by
    obtain ⟨o', ho', hm⟩ := objs_of (run_ok h) hr
    rw [ho] at ho'; cases ho'
    rcases NilProgram.holds_zero hw ho hm five (field_stat hk) hv with rfl | rfl | rfl | rfl
    · trivial
    · show GoFloat.le _ _ = true ∧ _ ∧ _
      decide +kernel
    · show (0 : UInt64).toNat / 2 ^ 52 % 2 ^ 11 ≠ 2 ^ 11 - 1
      decide
    · trivial
  exact ⟨w', text, h1, h2, h3⟩

end

-- A program with a counter "c", a histogram "h", a meter "m", a timer "t" and a healthcheck "k", which it uses.
private def nilHistory : List (Env F64 × Op F64) :=
  [(envAt 0, .setNil true), (envAt 0, .reg (.std 0) (.getOrRegister [99] (.ctor .counter))), (envAt 0, .new (.uniform 4)), (envAt 0, .reg (.std 0) (.getOrRegister [104] (.ctor (.hist 1)))),
   (envAt 0, .reg (.std 0) (.getOrRegister [109] (.ctor .meter))), (envAt 0, .reg (.std 0) (.getOrRegister [116] (.ctor .timer))), (envAt 0, .reg (.std 0) (.getOrRegister [107] (.ctor (.health 0)))),
   (envAt 1, .call 0 (.inc 3)), (envAt 1, .call 2 (.update 5)), (envAt 1, .call 3 (.mark 1)), (envAt 2, .call 4 (.updateD 2000)), (envAt 2, .tick), (envAt 3, .reg (.std 0) .runHealthchecks)]

/-- The hypothesis can be met, by a registry with five metrics. -/
example : NilProgram nilHistory ∧ gets (World.init.run nilHistory : World F64) 0 [116] = some 4 ∧ ((World.init.run nilHistory : World F64).regs 0).length = 5 :=
  ⟨by simp [NilProgram, nilHistory], by decide +kernel, by decide +kernel⟩

-- What may panic does: `Update` on a sample snapshot.
example : (step (envAt 1) (.call 0 (.update 1)) (World.init.run [(envAt 0, .setNil true), (envAt 0, .new (.sampleSnap 0 0))] : World F64)).2 =
    .error (.msg "Update called on a SampleSnapshot") := rfl

-- And without `UseNilMetrics` the counter counts.
example : observe (World.init.run nilHistory.tail : World F64) (envAt 4) 0 .count = .ok (.int 3) := rfl

end GoMetrics
