import Verif.Lemmas.ExportBlocks
import Verif.Lemmas.ByteOrder
import Verif.Props.Registry

/-! Property theorems C61, C62 and C63: the exporters that print. -/

set_option linter.unusedSimpArgs false
set_option linter.unusedSectionVars false

namespace GoMetrics
open Spec

variable {F : Type} [GoFloat F] [GoSqrt F] [GoExp F]

private theorem exported_of {w : World F} {id : Nat} {pre : Str} {l : List (Str × Ref)} {evss : List (List (Event F))} {R : Str × Ref → List (Event F) → Prop}
    {block : Str → Ref → Obj F → List (Event F) → Prop} (hk : (l.map Prod.fst).Nodup) (hm : ∀ name r, (name, r) ∈ l ↔ gets w id name = some r ∧ pre <+: name)
    (hf : List.Forall₂ R l evss) (hR : ∀ e evs, R e evs → ∃ o, w.objs e.2 = some o ∧ block e.1 e.2 o evs) :
    ∃ blocks : List (Str × Ref × List (Event F)), evss.flatten = (blocks.map fun b => b.2.2).flatten ∧ (blocks.map fun b => b.1) = l.map Prod.fst ∧ (blocks.map fun b => b.1).Nodup ∧
      (∀ name, name ∈ (blocks.map fun b => b.1) ↔ gets w id name ≠ none ∧ pre <+: name) ∧
      ∀ name r evs, (name, r, evs) ∈ blocks → gets w id name = some r ∧ ∃ o, w.objs r = some o ∧ block name r o evs := by
  have key : ∃ blocks : List (Str × Ref × List (Event F)), evss = (blocks.map fun b => b.2.2) ∧ (blocks.map fun b => b.1) = l.map Prod.fst ∧
      ∀ b ∈ blocks, (b.1, b.2.1) ∈ l ∧ R (b.1, b.2.1) b.2.2 := by
    clear hk hm
    induction hf with
    | nil => exact ⟨[], rfl, rfl, by simp⟩
    | @cons e evs l evss h _ ih =>
      obtain ⟨bs, h1, h2, h3⟩ := ih
      refine ⟨(e.1, e.2, evs) :: bs, by simp [h1], by simp [h2], fun b hb => ?_⟩
      rcases List.mem_cons.1 hb with rfl | hb
      · exact ⟨by simp, h⟩
      · exact ⟨List.mem_cons_of_mem _ (h3 b hb).1, (h3 b hb).2⟩
  obtain ⟨bs, h1, h2, h3⟩ := key
  refine ⟨bs, by rw [h1], h2, by rw [h2]; exact hk, fun name => ?_, fun name r evs hb => ?_⟩
  · rw [h2]
    constructor
    · intro hn
      obtain ⟨e, he, rfl⟩ := List.mem_map.1 hn
      have := (hm e.1 e.2).1 he
      exact ⟨by simp [this.1], this.2⟩
    · rintro ⟨h4, h5⟩
      obtain ⟨r, hr⟩ := Option.ne_none_iff_exists'.1 h4
      exact List.mem_map.2 ⟨(name, r), (hm name r).2 ⟨hr, h5⟩, rfl⟩
  · obtain ⟨h4, h5⟩ := h3 _ hb
    exact ⟨((hm _ _).1 h4).1, hR _ _ h5⟩

theorem objs_of {w : World F} (hw : w.Ok) {id : Nat} {name : Str} {r : Ref} (h : gets w id name = some r) : ∃ o, w.objs r = some o ∧ o.isMetric = true := by
  rw [gets_eq] at h
  exact hw.metric id _ (lookup_some_mem h)

/-- The blocks of an exporter. -/
private theorem visit_exported {w : World F} (hw : w.Ok) {env : Env F} {id : Nat} {pre : Str} {sw : Obj F → Option (Case F)} (hsw : GoodSwitch sw)
    {block : Str → Ref → Obj F → List (Event F) → Prop} (h1 : ∀ name r o evs c, sw o = some c → CaseOut w env name r o c evs → block name r o evs)
    (h2 : ∀ name r o, sw o = none → o.isMetric = true → block name r o []) {l : List (Str × Ref)} (hk : (l.map Prod.fst).Nodup)
    (hm : ∀ name r, (name, r) ∈ l ↔ gets w id name = some r ∧ pre <+: name)
    {w' : World F} {out : List (Event F)} (h : visit (exportMetric env sw) l (w, []) = ((w', out), .ok ())) :
    ∃ blocks : List (Str × Ref × List (Event F)), out = (blocks.map fun b => b.2.2).flatten ∧ (blocks.map fun b => b.1) = l.map Prod.fst ∧ (blocks.map fun b => b.1).Nodup ∧
      (∀ name, name ∈ (blocks.map fun b => b.1) ↔ gets w id name ≠ none ∧ pre <+: name) ∧
      ∀ name r evs, (name, r, evs) ∈ blocks → gets w id name = some r ∧ ∃ o, w.objs r = some o ∧ block name r o evs := by
  have hl : ∀ e ∈ l, ∃ o, w.objs e.2 = some o ∧ o.isMetric = true := fun e he => objs_of hw ((hm e.1 e.2).1 he).1
  obtain ⟨-, evss, h3, h4⟩ := visit_export hsw _ (fun e he => (hl e he).imp fun o ho => ho.1) (Seen.refl env hw) h
  rw [List.nil_append] at h3
  subst h3
  have h5 : List.Forall₂ (fun e evs => e ∈ l ∧ ∃ o, w.objs e.2 = some o ∧ ((sw o = none ∧ evs = []) ∨ ∃ c, sw o = some c ∧ CaseOut w env e.1 e.2 o c evs)) l evss := by
    have : ∀ (l' : List (Str × Ref)) (m : List (List (Event F))) (R : Str × Ref → List (Event F) → Prop), List.Forall₂ R l' m → (∀ e ∈ l', e ∈ l) → List.Forall₂ (fun e evs => e ∈ l ∧ R e evs) l' m := by
      intro l' m R hf
      induction hf with
      | nil => intro _; exact .nil
      | cons h _ ih => intro hl; exact .cons ⟨hl _ (by simp), h⟩ (ih fun e he => hl e (by simp [he]))
    exact this l evss _ h4 fun _ h => h
  refine exported_of hk hm h5 fun e evs hR => ?_
  obtain ⟨he, o, ho, hR⟩ := hR
  refine ⟨o, ho, ?_⟩
  rcases hR with ⟨h6, rfl⟩ | ⟨c, h6, h7⟩
  · obtain ⟨o', ho', hmet⟩ := hl e he
    rw [ho] at ho'
    cases ho'
    exact h2 _ _ _ h6 hmet
  · exact h1 _ _ _ _ _ h6 h7

/-- What an exporter that uses `Each` prints. -/
private theorem each_exported {w : World F} (hw : w.Ok) {env : Env F} {g : Reg} {id : Nat} (hb : base g = some id) {sw : Obj F → Option (Case F)} (hsw : GoodSwitch sw)
    {block : Str → Ref → Obj F → List (Event F) → Prop} (h1 : ∀ name r o evs c, sw o = some c → CaseOut w env name r o c evs → block name r o evs)
    (h2 : ∀ name r o, sw o = none → o.isMetric = true → block name r o [])
    {w' : World F} {out : List (Event F)} (h : each env g (exportMetric env sw) (w, []) = ((w', out), .ok ())) :
    Exported w id (prefixes g).flatten out block := by
  rw [each, eachList_base env g id hb] at h
  obtain ⟨blocks, h3, -, h4⟩ := visit_exported hw hsw h1 h2 (eachList_nodup env g id hw) (eachList_mem env g id hw) h
  exact ⟨blocks, h3, h4⟩

/-! ### C61 -/

private theorem visit_collect (l : List (Str × Ref)) (w : World F) (acc : List (Str × Ref)) : visit collect l (w, acc) = ((w, acc ++ l), .ok ()) := by
  induction l generalizing acc with
  | nil => simp [visit]
  | cons e l ih => simp only [visit, collect]; rw [ih]; simp

theorem writeOnce_eq (env : Env F) (sorter : Sorter) (g : Reg) (id : Nat) (hb : base g = some id) (w : World F) :
    writeOnce env sorter g w = visit (exportMetric env writerSwitch) (sorter.sort ((env.order (w.regs id)).filter fun e => (prefixes g).flatten.isPrefixOf e.1)) (w, []) := by
  rw [writeOnce, each, eachList_base env g id hb]
  simp only [visit_collect, List.nil_append]

theorem sort_before (sorter : Sorter) {l : List (Str × Ref)} (hk : (l.map Prod.fst).Nodup) : ((sorter.sort l).map Prod.fst).Pairwise (· < ·) := by
  have h1 := sorter.sorted l
  have h2 : ((sorter.sort l).map Prod.fst).Nodup := ((sorter.perm l).map _).nodup_iff.2 hk
  rw [List.Nodup, List.pairwise_map] at h2
  rw [List.pairwise_map]
  refine (h1.and h2).imp ?_
  rintro a b ⟨h3, h4⟩
  simp only [nameLess, decide_eq_false_iff_not] at h3
  exact ((lt_tri a.1 b.1).resolve_right fun h => h.elim h4 h3)

/-- C61: `WriteOnce` prints one block for each metric of the registry (with its kind and name in the first line, and a line for each statistic), the names strictly increasing in byte order. -/
theorem C61_sorted (h : List (Env F × Op F)) (env : Env F) (sorter : Sorter) (g : Reg) (id : Nat) (hb : base g = some id) (w' : World F) (out : List (Event F))
    (hd : writeOnce env sorter g (World.init.run h) = ((w', out), .ok ())) :
    let w : World F := World.init.run h
    ∃ blocks : List (Str × Ref × List (Event F)), out = (blocks.map fun b => b.2.2).flatten ∧ (blocks.map fun b => b.1).Pairwise Before ∧
      (∀ name, name ∈ (blocks.map fun b => b.1) ↔ gets w id name ≠ none ∧ (prefixes g).flatten <+: name) ∧
      ∀ name r evs, (name, r, evs) ∈ blocks → gets w id name = some r ∧ ∃ o, w.objs r = some o ∧ ∃ rows, Complete w env r o five (fun _ v => v) rows ∧ PaddedBlock (fun _ => []) name o rows evs := by
  intro w
  have hw : w.Ok := run_ok h
  rw [writeOnce_eq env sorter g id hb] at hd
  have hk := eachList_nodup env g id hw
  obtain ⟨blocks, h3, h4, -, h5, h6⟩ := visit_exported (id := id) (pre := (prefixes g).flatten) hw good_writer (fun name r o evs c hc ho => writer_block hc ho)
    (fun name r o ho hmet => by cases o <;> simp [writerSwitch, Obj.isMetric] at ho hmet) (((sorter.perm _).map _).nodup_iff.2 hk)
    (fun name r => by rw [(sorter.perm _).mem_iff]; exact eachList_mem env g id hw name r) hd
  refine ⟨blocks, h3, ?_, h5, h6⟩
  rw [h4]
  exact (sort_before sorter hk).imp (before_iff _ _).1

private theorem names_unique {l m : List (Str × Ref)} (hp : l.Perm m) (h1 : (l.map Prod.fst).Pairwise (· < ·)) (h2 : (m.map Prod.fst).Pairwise (· < ·)) : l = m := by
  rw [List.pairwise_map] at h1 h2
  exact List.Perm.eq_of_pairwise (fun a b _ _ h3 h4 => absurd h4 (lt_asym h3)) h1 h2 hp

private theorem call_order (env env' : Env F) (he : env' = { env with order := env'.order, order_perm := env'.order_perm }) : call env' = call env := by rw [he]; rfl

private theorem export_order (env env' : Env F) (he : env' = { env with order := env'.order, order_perm := env'.order_perm }) (sw : Obj F → Option (Case F)) :
    exportMetric env' sw = exportMetric env sw := by
  have h1 := call_order env env' he
  have h2 : ∀ (x : Ref) (ps : List F) (e : Expr F), e.eval env' x ps = e.eval env x ps := by
    intro x ps e
    induction e with
    | get c => simp only [Expr.eval, h1]
    | ps i => rfl
    | const v => rfl
    | float e ih => simp only [Expr.eval, ih]
    | int e ih => simp only [Expr.eval, ih]
    | divInt e d ih => simp only [Expr.eval, ih]
    | divFloat e d ih => simp only [Expr.eval, ih]
  have h3 : ∀ (name : Str) (x : Ref) (ps : List F) (a : ArgExpr F), a.eval env' name x ps = a.eval env name x ps := by
    intro name x ps a; cases a <;> simp only [ArgExpr.eval, h2]
  have h4 : ∀ (name : Str) (x : Ref) (ps : List F) (l : List (ArgExpr F)), evalArgs env' name x ps l = evalArgs env name x ps l := by
    intro name x ps l
    induction l with
    | nil => rfl
    | cons a l ih => simp only [evalArgs, h3, ih]
  have h5 : ∀ (name : Str) (x : Ref) (ps : List F) (s : Stmt F), s.exec env' name x ps = s.exec env name x ps := by
    intro name x ps s; cases s <;> simp only [Stmt.exec, h2, h4]
  have h6 : ∀ (name : Str) (x : Ref) (ps : List F) (l : List (Stmt F)) y, runStmts env' name x ps l y = runStmts env name x ps l y := by
    intro name x ps l
    induction l with
    | nil => intro y; rfl
    | cons a l ih => intro y; simp only [runStmts, h5, ih]
  have h7 : ∀ r : Ref, snapshotOf env' r = snapshotOf env r := by intro r; simp only [snapshotOf, h1]
  have h8 : ∀ (c : Case F) r, c.prepare env' r = c.prepare env r := by intro c r; simp only [Case.prepare, h1, h7]
  funext name r y
  simp only [exportMetric, runCase, h8, h6]

/-- C61: neither the order in which the map is visited nor the way `sort.Sort` works makes a difference: the same output, the same state afterwards, and the same
panic if there is one. -/
theorem C61_deterministic (h : List (Env F × Op F)) (env env' : Env F) (he : env' = { env with order := env'.order, order_perm := env'.order_perm })
    (sorter sorter' : Sorter) (g : Reg) (id : Nat) (hb : base g = some id) :
    writeOnce env' sorter' g (World.init.run h : World F) = writeOnce env sorter g (World.init.run h) := by
  have hw := run_ok h (F := F)
  generalize World.init.run h = w at *
  rw [writeOnce_eq env sorter g id hb, writeOnce_eq env' sorter' g id hb]
  have e1 : exportMetric env' writerSwitch = (exportMetric env writerSwitch : Callback F _) := export_order env env' he _
  rw [e1, names_unique _ (sort_before sorter' (eachList_nodup env' g id hw)) (sort_before sorter (eachList_nodup env g id hw))]
  refine (sorter'.perm _).trans (.trans ?_ (sorter.perm _).symm)
  exact ((env'.order_perm _).trans (env.order_perm _).symm).filter _

/-! ### C62 -/

section exporters
variable (h : List (Env F × Op F)) (env : Env F) (g : Reg) (id : Nat) (hb : base g = some id) (w' : World F) (out : List (Event F))
include hb

/-- C62, writer.go: for each metric of the registry, `WriteOnce` prints the kind and name and then every statistic of that kind exactly once, each beside the
label that names it; all values are those that the accessors had at the start. -/
theorem C62_writer (sorter : Sorter) (hd : writeOnce env sorter g (World.init.run h) = ((w', out), .ok ())) :
    let w : World F := World.init.run h
    Exported w id (prefixes g).flatten out fun name r o evs => ∃ rows, Complete w env r o five (fun _ v => v) rows ∧ PaddedBlock (fun _ => []) name o rows evs := by
  intro w
  have hw : w.Ok := run_ok h
  rw [writeOnce_eq env sorter g id hb] at hd
  have hk := eachList_nodup env g id hw
  obtain ⟨blocks, h3, -, h4⟩ := visit_exported (id := id) (pre := (prefixes g).flatten) hw good_writer (fun name r o evs c hc ho => writer_block hc ho)
    (fun name r o ho hmet => by cases o <;> simp [writerSwitch, Obj.isMetric] at ho hmet) (((sorter.perm _).map _).nodup_iff.2 hk)
    (fun name r => by rw [(sorter.perm _).mem_iff]; exact eachList_mem env g id hw name r) hd
  exact ⟨blocks, h3, h4⟩

/-- C62, log.go: the same for one cue of `LogScaledOnCue`; the durations of timers are divided by the unit and followed by the unit's name (C63). -/
theorem C62_log (scale : Int64) (scaleString : Str) (hd : logScaledOnce env g scale scaleString (World.init.run h) = ((w', out), .ok ())) :
    let w : World F := World.init.run h
    Exported w id (prefixes g).flatten out fun name r o evs => ∃ rows,
      Complete w env r o five (fun c v => if isTimer o && isDuration c then inUnit (GoFloat.ofInt scale.toInt) v else v) rows ∧
      PaddedBlock (fun l => if isTimer o && (means o l).any isDuration then scaleString.drop 1 else []) name o rows evs := by
  intro w
  exact each_exported (run_ok h) hb (good_log _ _) (fun name r o evs c hc ho => log_block hc ho)
    (fun name r o ho hmet => by cases o <;> simp [logSwitch, Obj.isMetric] at ho hmet) hd

/-- C62, syslog.go: the same in one message per metric. -/
theorem C62_syslog (hd : syslogOnce env g (World.init.run h) = ((w', out), .ok ())) :
    let w : World F := World.init.run h
    Exported w id (prefixes g).flatten out fun name r o evs => ∃ rows, Complete w env r o five (fun _ v => v) rows ∧ SyslogBlock name o rows evs := by
  intro w
  exact each_exported (run_ok h) hb good_syslog (fun name r o evs c hc ho => syslog_block hc ho)
    (fun name r o ho hmet => by cases o <;> simp [syslogSwitch, Obj.isMetric] at ho hmet) hd

/-- C62, opentsdb.go: one line for every statistic of every metric — except that nothing is sent for healthchecks (missing for the full claim). The durations of
timers are in the configured unit. -/
theorem C62_opentsdb_partial (cfg : OpenTSDBConfig) (hu : Int64.ofInt (GoFloat.toInt (GoFloat.ofInt cfg.durationUnit.toInt : F)) = cfg.durationUnit)
    (hd : openTSDBOnce env cfg g (World.init.run h) = ((w', out), .ok ())) :
    let w : World F := World.init.run h
    Exported w id (prefixes g).flatten out fun name r o evs => if isHealth o then evs = [] else ∃ rows,
      Complete w env r o five (fun c v => if isTimer o && isDuration c then inUnitInt cfg.durationUnit (GoFloat.ofInt cfg.durationUnit.toInt) v else v) rows ∧
      (∀ row ∈ rows, IsLabel (bytes row.1)) ∧ List.Forall₂ (fun row e => OpenTSDBLine cfg.pre name cfg.now cfg.host (bytes row.1) row.2 e) rows evs := by
  intro w
  refine each_exported (run_ok h) hb (good_openTSDB _) (fun name r o evs c hc ho => ?_)
    (fun name r o ho hmet => by cases o <;> simp [openTSDBSwitch, Obj.isMetric] at ho hmet; rfl) hd
  have hne : isHealth o = false := by cases o <;> first | rfl | simp [openTSDBSwitch] at hc
  simp only [hne]
  exact openTSDB_block hu hc ho

/-- C62, stathat.go: one post for every statistic of every metric, as a count or a value — except for healthchecks, for which there is none (missing for the
full claim). -/
theorem C62_stathat_partial (key : Str) (hd : stathatOnce env key g (World.init.run h) = ((w', out), .ok ())) :
    let w : World F := World.init.run h
    Exported w id (prefixes g).flatten out fun name r o evs => if isHealth o then evs = [] else ∃ rows,
      Complete w env r o five (fun c v => if isCount c then v else asFloat v) rows ∧ List.Forall₂ (StatHatPost o name key) rows evs := by
  intro w
  refine each_exported (run_ok h) hb (good_stathat _) (fun name r o evs c hc ho => ?_)
    (fun name r o ho hmet => by cases o <;> simp [stathatSwitch, Obj.isMetric] at ho hmet; rfl) hd
  have hne : isHealth o = false := by cases o <;> first | rfl | simp [stathatSwitch] at hc
  simp only [hne]
  exact stathat_block hc ho

/-- C62, graphite.go: one line for every statistic of every metric and for every configured percentile — except for healthchecks, for which there is none
(missing for the full claim). The durations of timers are in the configured unit, except for the percentiles (C63). -/
theorem C62_graphite_partial (cfg : GraphiteConfig F) (hu : Int64.ofInt (GoFloat.toInt (GoFloat.ofInt cfg.durationUnit.toInt : F)) = cfg.durationUnit)
    (hd : graphiteOnce env cfg g (World.init.run h) = ((w', out), .ok ())) :
    let w : World F := World.init.run h
    Exported w id (prefixes g).flatten out fun name r o evs => if isHealth o then evs = [] else ∃ rows prows,
      Complete w env r o [] (fun c v => if isTimer o && isDuration c then inUnitInt cfg.durationUnit (GoFloat.ofInt cfg.durationUnit.toInt) v else v) rows ∧
      prows.map Prod.fst = (if isDistribution o then cfg.percentiles else []) ∧ (∀ x ∈ prows, Holds w env r (.stat (.percentile x.1)) x.2) ∧
      GraphiteBlock (pctKey cfg.formatFloat) cfg.pre name cfg.now rows prows evs := by
  intro w
  refine each_exported (run_ok h) hb (good_graphite _) (fun name r o evs c hc ho => ?_)
    (fun name r o ho hmet => by cases o <;> simp [graphiteSwitch, Obj.isMetric] at ho hmet; rfl) hd
  have hne : isHealth o = false := by cases o <;> first | rfl | simp [graphiteSwitch] at hc
  simp only [hne]
  exact graphite_block hu hc ho

end exporters

/-- C62: in exact arithmetic `Holds` says for all statistics, the standard deviation included, that the value is what the accessor returned. -/
theorem C62_exact {K : Type} [_root_.Field K] [LinearOrder K] [IsStrictOrderedRing K] [FloorRing K] [GoSqrt K] [GoExp K]
    (h : List (Env K × Op K)) (env : Env K) (id : Nat) (name : Str) (r : Ref) (hr : gets (World.init.run h : World K) id name = some r) (o : Obj K)
    (ho : (World.init.run h : World K).objs r = some o) (ps : List K) (c : Call K) (hc : c ∈ statsOf ps o) (v : GoMetrics.Field K) :
    Holds (World.init.run h : World K) env r c v ↔ shows (observe (checked env (World.init.run h : World K) r) env r c) v := by
  have hw := run_ok h (F := K)
  generalize World.init.run h = w at *
  by_cases hs : c = .stat .stdDev
  · subst hs
    have hty : HasTy w r .hist ∨ HasTy w r .timer := by
      cases o with
      | hist x => exact .inl ⟨_, ho, rfl⟩
      | timer x => exact .inr ⟨_, ho, rfl⟩
      | _ => simp [statsOf, allRates] at hc
    have hne : o.ty ≠ .health := by
      rcases hty with ⟨o', h5, h6⟩ | ⟨o', h5, h6⟩ <;> (rw [ho] at h5; simp at h5; subst h5; rw [h6]; simp)
    have key : observe (checked env w r) env r (.stat .stdDev) = .ok (.float (sortedDev (recorded w r))) := by
      rw [checked_of_not_health ho hne, observe_stat hw hty]
      rcases recorded w r with _ | l
      · rfl
      · have := (readOK_exact (c := (.stat .stdDev : Call K)) rfl).2 _ rfl l (sortInts l) (sortInts_perm l).symm
        simp only [readStat, this]
        rfl
    rw [key]
    exact ⟨fun hh => hh.1 rfl, fun hh => ⟨fun _ => hh, fun hn => absurd rfl hn⟩⟩
  · exact ⟨fun hh => hh.2 hs, fun hh => ⟨fun e => absurd e hs, fun _ => hh⟩⟩

/-! ### C63 -/

private theorem row_of {w : World F} {env : Env F} {r : Ref} {o : Obj F} {ps : List F} {conv : Call F → GoMetrics.Field F → GoMetrics.Field F}
    {rows : List (String × GoMetrics.Field F)} (hc : Complete w env r o ps conv rows) {c : Call F} (h : c ∈ statsOf ps o) :
    ∃ label v, means o label = some c ∧ Holds w env r c v ∧ (label, conv c v) ∈ rows := by
  have : some c ∈ rows.map fun x => means o x.1 := hc.1.mem_iff.2 (List.mem_map.2 ⟨c, h, rfl⟩)
  obtain ⟨⟨l, x⟩, h1, h2⟩ := List.mem_map.1 this
  obtain ⟨v, h3, h4⟩ := hc.2 _ h1 c h2
  simp only at h4
  subst h4
  exact ⟨l, v, h2, h3, h1⟩

private theorem forall2_left {α β : Type} {R : α → β → Prop} {l : List α} {m : List β} (h : List.Forall₂ R l m) {a : α} (ha : a ∈ l) : ∃ b ∈ m, R a b := by
  induction h with
  | nil => simp at ha
  | cons h1 _ ih =>
    rcases List.mem_cons.1 ha with rfl | ha
    · exact ⟨_, by simp, h1⟩
    · obtain ⟨b, hb, hr⟩ := ih ha
      exact ⟨b, by simp [hb], hr⟩

private theorem exported_block {w : World F} {id : Nat} {pre : Str} {out : List (Event F)} {block : Str → Ref → Obj F → List (Event F) → Prop}
    (h : Exported w id pre out block) {name : Str} {r : Ref} {o : Obj F} (hr : gets w id name = some r) (hp : pre <+: name) (ho : w.objs r = some o) :
    ∃ evs, block name r o evs ∧ ∀ e ∈ evs, e ∈ out := by
  obtain ⟨blocks, rfl, -, h1, h2⟩ := h
  obtain ⟨⟨n, r', evs⟩, h3, rfl⟩ := List.mem_map.1 ((h1 name).2 ⟨by simp [hr], hp⟩)
  obtain ⟨h4, o', h5, h6⟩ := h2 _ _ _ h3
  simp only at hr
  rw [hr] at h4
  cases h4
  rw [ho] at h5
  cases h5
  exact ⟨evs, h6, fun e he => List.mem_flatten.2 ⟨evs, List.mem_map.2 ⟨_, h3, rfl⟩, he⟩⟩

section durations
variable (h : List (Env F × Op F)) (env : Env F) (g : Reg) (id : Nat) (hb : base g = some id) (w' : World F) (out : List (Event F))
  (name : Str) (r : Ref) (x : TimerV)
include hb

/-- C63, log.go: for every timer of the registry, a line is printed for each of its statistics; the value of every duration (minimum, maximum, mean, standard
deviation, all five percentiles) is divided by the unit and followed by its name, and count and rates are not. -/
theorem C63_log (scale : Int64) (scaleString : Str) (hd : logScaledOnce env g scale scaleString (World.init.run h) = ((w', out), .ok ())) :
    let w : World F := World.init.run h
    gets w id name = some r → (prefixes g).flatten <+: name → w.objs r = some (.timer x) → ∀ c ∈ statsOf five (.timer x : Obj F), ∃ label v e,
      means (.timer x : Obj F) label = some c ∧ Holds w env r c v ∧ e ∈ out ∧
      (isDuration c = true → paddedLine (scaleString.drop 1) (label, inUnit (GoFloat.ofInt scale.toInt) v) e) ∧ (isDuration c = false → paddedLine [] (label, v) e) := by
  intro w hr hp ho c hc
  obtain ⟨evs, ⟨rows, h1, rest, h2, h3⟩, h4⟩ := exported_block (C62_log h env g id hb w' out scale scaleString hd) hr hp ho
  obtain ⟨label, v, h5, h6, h7⟩ := row_of h1 hc
  obtain ⟨e, h8, h9⟩ := forall2_left h3 h7
  refine ⟨label, v, e, h5, h6, h4 e (by rw [h2]; simp [h8]), fun hdur => ?_, fun hdur => ?_⟩
  · simpa [isTimer, h5, hdur] using h9
  · simpa [isTimer, h5, hdur] using h9

/-- C63, opentsdb.go: the same; integers (minimum and maximum) are divided with truncation. -/
theorem C63_opentsdb (cfg : OpenTSDBConfig) (hu : Int64.ofInt (GoFloat.toInt (GoFloat.ofInt cfg.durationUnit.toInt : F)) = cfg.durationUnit)
    (hd : openTSDBOnce env cfg g (World.init.run h) = ((w', out), .ok ())) :
    let w : World F := World.init.run h
    gets w id name = some r → (prefixes g).flatten <+: name → w.objs r = some (.timer x) → ∀ c ∈ statsOf five (.timer x : Obj F), ∃ label v e,
      means (.timer x : Obj F) label = some c ∧ Holds w env r c v ∧ e ∈ out ∧
      OpenTSDBLine cfg.pre name cfg.now cfg.host (bytes label) (if isDuration c then inUnitInt cfg.durationUnit (GoFloat.ofInt cfg.durationUnit.toInt) v else v) e := by
  intro w hr hp ho c hc
  obtain ⟨evs, h0, h4⟩ := exported_block (C62_opentsdb_partial h env g id hb w' out cfg hu hd) hr hp ho
  simp only [isHealth] at h0
  obtain ⟨rows, h1, -, h3⟩ := h0
  obtain ⟨label, v, h5, h6, h7⟩ := row_of h1 hc
  obtain ⟨e, h8, h9⟩ := forall2_left h3 h7
  exact ⟨label, v, e, h5, h6, h4 e h8, by simpa [isTimer] using h9⟩

/-- C63, graphite.go, what holds: minimum, maximum, mean and standard deviation are divided by the unit, count and rates are not. Missing: the percentiles, which
are printed in nanoseconds whatever the unit. -/
theorem C63_graphite_partial (cfg : GraphiteConfig F) (hu : Int64.ofInt (GoFloat.toInt (GoFloat.ofInt cfg.durationUnit.toInt : F)) = cfg.durationUnit)
    (hd : graphiteOnce env cfg g (World.init.run h) = ((w', out), .ok ())) :
    let w : World F := World.init.run h
    gets w id name = some r → (prefixes g).flatten <+: name → w.objs r = some (.timer x) →
    (∀ c ∈ statsOf [] (.timer x : Obj F), ∃ label v e, means (.timer x : Obj F) label = some c ∧ Holds w env r c v ∧ e ∈ out ∧
      GraphiteLine cfg.pre name cfg.now (bytes label) (if isDuration c then inUnitInt cfg.durationUnit (GoFloat.ofInt cfg.durationUnit.toInt) v else v) e) ∧
    ∀ p ∈ cfg.percentiles, ∃ v e, Holds w env r (.stat (.percentile p)) v ∧ e ∈ out ∧
      GraphiteLine cfg.pre name cfg.now (pctKey cfg.formatFloat p ++ bytes "-percentile") v e := by
  intro w hr hp ho
  obtain ⟨evs, h0, h4⟩ := exported_block (C62_graphite_partial h env g id hb w' out cfg hu hd) hr hp ho
  simp only [isHealth] at h0
  obtain ⟨rows, prows, h1, h2, h3, -, lines, plines, h5, h6, h7⟩ := h0
  refine ⟨fun c hc => ?_, fun p hp => ?_⟩
  · obtain ⟨label, v, h8, h9, h10⟩ := row_of h1 hc
    obtain ⟨e, h11, h12⟩ := forall2_left h6 h10
    exact ⟨label, v, e, h8, h9, h4 e (h5.mem_iff.2 (by simp [h11])), by simpa [isTimer] using h12⟩
  · simp only [isDistribution, if_true] at h2
    rw [← h2] at hp
    obtain ⟨y, hy, rfl⟩ := List.mem_map.1 hp
    obtain ⟨e, h11, h12⟩ := forall2_left h7 hy
    exact ⟨y.2, e, h3 y hy, h4 e (h5.mem_iff.2 (by simp [h11])), h12⟩

end durations

/-- C63: the duration unit survives `int64(float64(unit))` (opentsdb.go:62, 96; graphite.go:59, 94): for units up to 2^53 ns (104 days) the hypothesis of the
theorems above holds in float64. -/
theorem C63_unit (d : Int64) (h : |d.toInt| ≤ 2 ^ 53) : Int64.ofInt (GoFloat.toInt (GoFloat.ofInt d.toInt : F64)) = d := by
  have h1 : (GoFloat.ofInt d.toInt : F64) = .fin (d.toInt : ℚ) := F64.ofInt_small _ h
  have h2 : (GoFloat.toInt (F64.fin (d.toInt : ℚ)) : Int) = d.toInt := by
    show F64.toInt _ = _
    have hb := abs_le.1 h
    simp only [F64.toInt, Int.floor_intCast, Int.ceil_intCast, ite_self]
    rw [if_pos]
    constructor <;> simp only [minInt64, maxInt64] <;> omega
  rw [h1, h2, Int64.ofInt_toInt]

example : Int64.ofInt (GoFloat.toInt (GoFloat.ofInt (1000000 : Int64).toInt : F64)) = 1000000 := C63_unit _ (by decide)

private theorem case_of {w : World F} (hw : w.Ok) {env : Env F} {g : Reg} {id : Nat} (hb : base g = some id) {sw : Obj F → Option (Case F)} (hsw : GoodSwitch sw)
    {w' : World F} {out : List (Event F)} (h : each env g (exportMetric env sw) (w, []) = ((w', out), .ok ())) {name : Str} {r : Ref} {o : Obj F} {c : Case F}
    (hr : gets w id name = some r) (hp : (prefixes g).flatten <+: name) (ho : w.objs r = some o) (hc : sw o = some c) : ∃ evs, CaseOut w env name r o c evs := by
  rw [each, eachList_base env g id hb] at h
  have hm := eachList_mem env g id hw
  obtain ⟨-, evss, -, h4⟩ := visit_export hsw _ (fun e he => (objs_of hw ((hm e.1 e.2).1 he).1).imp fun o ho => ho.1) (Seen.refl env hw) h
  obtain ⟨evs, -, o', ho', h5⟩ := forall2_left h4 ((hm name r).2 ⟨hr, hp⟩)
  rw [ho] at ho'
  cases ho'
  rcases h5 with ⟨h6, -⟩ | ⟨c', h6, h7⟩
  · rw [hc] at h6; simp at h6
  · rw [hc] at h6; cases h6; exact ⟨evs, h7⟩

/-- C63 (boundary, a defect): with the duration unit 0, which is the value of a config without `DurationUnit`, Graphite and OpenTSDB panic as soon as there is a timer in the
registry. -/
theorem C63_zero (h : List (Env F × Op F)) (env : Env F) (g : Reg) (id : Nat) (hb : base g = some id) (name : Str) (r : Ref) (x : TimerV)
    (hr : gets (World.init.run h : World F) id name = some r) (hp : (prefixes g).flatten <+: name) (ho : (World.init.run h : World F).objs r = some (.timer x))
    (h0 : Int64.ofInt (GoFloat.toInt (GoFloat.ofInt 0 : F)) = 0) :
    (∀ cfg : GraphiteConfig F, cfg.durationUnit = 0 → ∃ p, (graphiteOnce env cfg g (World.init.run h)).2 = .error p) ∧
    (∀ cfg : OpenTSDBConfig, cfg.durationUnit = 0 → ∃ p, (openTSDBOnce env cfg g (World.init.run h : World F)).2 = .error p) := by
  have h0' : Int64.ofInt (GoFloat.toInt (GoFloat.ofInt (0 : Int64).toInt : F)) = 0 := h0
  constructor
  · intro cfg hu
    rcases hres : graphiteOnce env cfg g (World.init.run h) with ⟨⟨w', out⟩, p | u⟩
    · exact ⟨p, rfl⟩
    · exfalso
      obtain ⟨evs, val, ps, hv, -, hf⟩ := case_of (run_ok h) hb (good_graphite cfg) hres hr hp ho rfl
      obtain ⟨-, n, e⟩ := hv (.stat .min) rfl
      simp only [hu, h0'] at hf
      rcases hf with _ | ⟨-, hf⟩
      rcases hf with _ | ⟨hf, -⟩
      simp [Stmt.den, denArgs, ArgExpr.den, Expr.den, intDiv, e] at hf
  · intro cfg hu
    rcases hres : openTSDBOnce env cfg g (World.init.run h : World F) with ⟨⟨w', out⟩, p | u⟩
    · exact ⟨p, rfl⟩
    · exfalso
      obtain ⟨evs, val, ps, hv, -, hf⟩ := case_of (run_ok h) hb (good_openTSDB cfg) hres hr hp ho rfl
      obtain ⟨-, n, e⟩ := hv (.stat .min) rfl
      simp only [hu, h0'] at hf
      rcases hf with _ | ⟨-, hf⟩
      rcases hf with _ | ⟨hf, -⟩
      simp [Stmt.den, denArgs, ArgExpr.den, Expr.den, intDiv, e] at hf

/-! ### Examples and refutations -/

-- All seven kinds: a counter "c", a gauge "g", a float gauge "f", a healthcheck "x", a histogram "h", a meter "m" and a timer "t".
def exportHistory : List (Env F × Op F) :=
  [(envAt 0, .new .counter), (envAt 0, .new .gauge), (envAt 0, .new .gaugeF), (envAt 0, .new (.health 0)), (envAt 0, .new (.uniform 4)), (envAt 0, .new (.hist 4)),
   (envAt 0, .new .meter), (envAt 0, .new (.uniform 4)), (envAt 0, .new (.hist 7)), (envAt 0, .new .meter), (envAt 0, .new (.customTimer 8 9)),
   (envAt 1, .call 0 (.inc 3)), (envAt 1, .call 5 (.update 5)), (envAt 1, .call 10 (.updateD 2000)),
   (envAt 1, .reg (.std 0) (.register [99] (.obj 0))), (envAt 1, .reg (.std 0) (.register [103] (.obj 1))), (envAt 1, .reg (.std 0) (.register [102] (.obj 2))),
   (envAt 1, .reg (.std 0) (.register [120] (.obj 3))), (envAt 1, .reg (.std 0) (.register [104] (.obj 5))), (envAt 1, .reg (.std 0) (.register [109] (.obj 6))),
   (envAt 1, .reg (.std 0) (.register [116] (.obj 10)))]

def byName : Sorter where
  sort l := l.insertionSort fun a b => nameLess b a = false
  perm l := List.perm_insertionSort _ l
  sorted l := by
    have h1 : Std.Total fun a b : Str × Ref => nameLess b a = false := ⟨fun a b => by
      simp only [nameLess, decide_eq_false_iff_not]
      by_cases h : b.1 < a.1
      · exact .inr (lt_asym h)
      · exact .inl h⟩
    have h2 : IsTrans (Str × Ref) fun a b => nameLess b a = false := ⟨fun a b c => by
      simp only [nameLess, decide_eq_false_iff_not]
      intro h3 h4 h5
      rcases lt_tri a.1 b.1 with h | h | h
      · exact h4 (lt_trans' h5 h)
      · exact h4 (h ▸ h5)
      · exact h3 h⟩
    exact List.pairwise_insertionSort _ l

def isOk {α : Type} : Res α → Bool
  | .ok _ => true
  | .error _ => false

example : (World.init.run exportHistory : World F64).objs 10 = some (.timer (.std 8 9)) := rfl
example : isOk (writeOnce (envAt 2) byName (.std 0) (World.init.run exportHistory : World F64)).2 = true := by decide +kernel
example : (writeOnce (envAt 2) byName (.std 0) (World.init.run exportHistory : World F64)).1.2.length = 40 := by decide +kernel
example : isOk (logScaledOnce (envAt 2) (.std 0) 1000000 (bytes "1ms") (World.init.run exportHistory : World F64)).2 = true := by decide +kernel
example : isOk (syslogOnce (envAt 2) (.std 0) (World.init.run exportHistory : World F64)).2 = true := by decide +kernel
example : isOk (stathatOnce (envAt 2) [] (.std 0) (World.init.run exportHistory : World F64)).2 = true := by decide +kernel
example : isOk (openTSDBOnce (envAt 2) { durationUnit := 1000, pre := [], now := 0, host := [] } (.std 0) (World.init.run exportHistory : World F64)).2 = true := by decide +kernel
private def graphiteCfg : GraphiteConfig F64 := { durationUnit := 1000, pre := [112], percentiles := [.fin (1 / 2)], now := 7, formatFloat := fun _ => bytes "50" }
private theorem graphite_ok : isOk (graphiteOnce (envAt 2) graphiteCfg (.std 0) (World.init.run exportHistory : World F64)).2 = true := by decide +kernel

private def floatOf : Res (Out F64) → Option F64
  | .ok (.float x) => some x
  | _ => none
private theorem floatOf_eq {x : Res (Out F64)} {v : F64} (h : floatOf x = some v) : x = .ok (.float v) := by
  unfold floatOf at h
  split at h
  · cases h; rfl
  · simp at h
private theorem ok_eq {α : Type} {x : α × Res Unit} (h : isOk x.2 = true) : x = (x.1, .ok ()) := by
  rcases x with ⟨a, _ | _⟩
  · simp [isOk] at h
  · rfl

/-- C63 is false for the percentiles of Graphite: with the unit 1µs, the median of a timer with the single value 2000ns is sent as 2000. -/
theorem C63_graphite_refuted : ∃ (h : List (Env F64 × Op F64)) (env : Env F64) (cfg : GraphiteConfig F64) (w' : World F64) (out : List (Event F64)) (name : Str) (r : Ref) (x : TimerV)
    (p : F64) (e : Event F64) (v : F64), graphiteOnce env cfg (.std 0) (World.init.run h) = ((w', out), .ok ()) ∧ cfg.durationUnit = 1000 ∧
    gets (World.init.run h : World F64) 0 name = some r ∧ (World.init.run h : World F64).objs r = some (.timer x) ∧ p ∈ cfg.percentiles ∧
    observe (World.init.run h : World F64) env r (.stat (.percentile p)) = .ok (.float v) ∧ v = .fin 2000 ∧
    e ∈ out ∧ GraphiteLine cfg.pre name cfg.now (pctKey cfg.formatFloat p ++ bytes "-percentile") (.float v) e ∧ .float v ≠ inUnit (.fin 1000) (.float v) := by
  have hd := ok_eq graphite_ok
  have hu : Int64.ofInt (GoFloat.toInt (GoFloat.ofInt graphiteCfg.durationUnit.toInt : F64)) = graphiteCfg.durationUnit := C63_unit 1000 (by decide)
  have ho : (World.init.run exportHistory : World F64).objs 10 = some (.timer (.std 8 9)) := rfl
  obtain ⟨v, e, h1, h2, h3⟩ := (C63_graphite_partial exportHistory (envAt 2) (.std 0) 0 rfl _ _ [116] 10 (.std 8 9) graphiteCfg hu hd rfl (List.nil_prefix) ho).2 (.fin (1 / 2)) (by simp [graphiteCfg])
  have h4 := h1.2 (by simp)
  rw [checked_of_not_health ho (by simp [Obj.ty])] at h4
  have h5 : observe (World.init.run exportHistory : World F64) (envAt 2) 10 (.stat (.percentile (.fin (1 / 2)))) = .ok (.float (.fin 2000)) := floatOf_eq (by decide +kernel)
  rw [h5] at h4
  cases h4
  refine ⟨exportHistory, envAt 2, graphiteCfg, _, _, [116], 10, .std 8 9, .fin (1 / 2), e, .fin 2000, hd, rfl, rfl, ho, by simp [graphiteCfg], h5, rfl, h2, h3, fun hh => ?_⟩
  have h6 : (F64.fin 2000 : F64) = GoFloat.div (.fin 2000) (.fin 1000) := by injection hh
  exact absurd h6 (by decide +kernel)

/-- C62 is false for Graphite, OpenTSDB and StatHat: a registered healthcheck leaves no trace in their output, whatever the configuration. -/
theorem C62_refuted_health : ∃ (h : List (Env F × Op F)) (env : Env F) (name : Str) (r : Ref) (x : Health), gets (World.init.run h : World F) 0 name = some r ∧
    (World.init.run h : World F).objs r = some (.health x) ∧
    (∀ cfg, graphiteOnce env cfg (.std 0) (World.init.run h : World F) = ((World.init.run h, []), .ok ())) ∧
    (∀ cfg, openTSDBOnce env cfg (.std 0) (World.init.run h : World F) = ((World.init.run h, []), .ok ())) ∧
    (∀ key, stathatOnce env key (.std 0) (World.init.run h : World F) = ((World.init.run h, []), .ok ())) :=
  ⟨[(envAt 0, .new (.health 0)), (envAt 1, .reg (.std 0) (.register [120] (.obj 0)))], envAt 2, [120], 0, _, rfl, rfl, fun _ => rfl, fun _ => rfl, fun _ => rfl⟩

/-! ### C64 -/

private def valueOf (a : Nat) (s : Str) : Nat := s.foldl (fun a b => 10 * a + (b.toNat - 48)) a

private theorem digit_toNat {d : Nat} (h : d < 10) : (48 + UInt8.ofNat d).toNat = 48 + d := by
  rw [UInt8.toNat_add]
  simp only [UInt8.toNat_ofNat', UInt8.reduceToNat, Nat.reducePow]
  omega

private theorem value_digits (n : Nat) : valueOf 0 (digitsOf n) = n := by
  unfold digitsOf
  split
  · subst n; rfl
  · have key : ∀ l : List Nat, (∀ d ∈ l, d < 10) → valueOf 0 (l.reverse.map fun d => 48 + UInt8.ofNat d) = Nat.ofDigits 10 l := by
      intro l hl
      induction l with
      | nil => rfl
      | cons d l ih =>
        have := ih fun x hx => hl x (by simp [hx])
        rw [valueOf] at this ⊢
        simp only [List.reverse_cons, List.map_append, List.foldl_append, this, List.map_cons, List.map_nil, List.foldl_cons, List.foldl_nil, Nat.ofDigits_cons, digit_toNat (hl d (by simp))]
        omega
    rw [key _ fun d hd => Nat.digits_lt_base (by norm_num) hd, Nat.ofDigits_digits]

private theorem value_last (a k m : Nat) : valueOf a (lastDigits k m) = a * 10 ^ k + m % 10 ^ k := by
  induction k generalizing a with
  | zero => simp [lastDigits, valueOf, Nat.mod_one]
  | succ k ih =>
    have : valueOf a (lastDigits (k + 1) m) = valueOf (10 * a + m / 10 ^ k % 10) (lastDigits k m) := by
      show valueOf (10 * a + ((48 + UInt8.ofNat (m / 10 ^ k % 10)).toNat - 48)) (lastDigits k m) = _
      rw [digit_toNat (Nat.mod_lt _ (by norm_num))]
      congr 1
      omega
    rw [this, ih, Nat.pow_succ, Nat.mod_mul]
    ring

private theorem no_point (m k : Nat) : 46 ∉ digitsOf m ∧ 46 ∉ lastDigits k m := by
  have key : ∀ d, d < 10 → (48 + UInt8.ofNat d) ≠ 46 := by
    intro d hd h
    have := congrArg UInt8.toNat h
    rw [digit_toNat hd] at this
    simp at this
    omega
  constructor
  · unfold digitsOf
    split
    · simp
    · intro h
      obtain ⟨d, hd, h⟩ := List.mem_map.1 h
      exact key d (Nat.digits_lt_base (by norm_num) (List.mem_reverse.1 hd)) h
  · induction k with
    | zero => simp [lastDigits]
    | succ k ih =>
      simp only [lastDigits, List.mem_cons, not_or]
      exact ⟨fun h => key _ (Nat.mod_lt _ (by norm_num)) h.symm, ih⟩

/-- The key is the digits of `m`, with at least `k + 1` of them. -/
private theorem key_value (m k : Nat) : valueOf 0 ((decimal m k).erase 46) = m := by
  have h1 := no_point (m / 10 ^ k) k
  unfold decimal
  split
  · subst k
    rw [List.append_nil, List.erase_of_not_mem h1.1, value_digits, Nat.pow_zero, Nat.div_one]
  · rw [List.erase_append_right _ h1.1, List.erase_cons_head]
    have : valueOf 0 (digitsOf (m / 10 ^ k) ++ lastDigits k m) = valueOf (valueOf 0 (digitsOf (m / 10 ^ k))) (lastDigits k m) := List.foldl_append ..
    rw [this, value_digits, value_last]
    exact Nat.div_add_mod' m (10 ^ k)

/-- C64 is false: the percentiles 0.15 and 0.015 (as float64 values) get the same path, `...15-percentile`. The hypotheses state what `FormatFloat` returns for 15 and 1.5. -/
theorem C64_refuted : ∃ p p' : F64, p = GoFloat.lit (15 / 100) ∧ p' = GoFloat.lit (15 / 1000) ∧ p ≠ p' ∧
    ∀ formatFloat : F64 → Str, formatFloat (.fin 15) = bytes "15" → formatFloat (.fin (3 / 2)) = bytes "1.5" → percentileKey formatFloat p = percentileKey formatFloat p' := by
  refine ⟨_, _, rfl, rfl, by decide +kernel, fun f h1 h2 => ?_⟩
  have e1 : GoFloat.mul (GoFloat.lit (15 / 100) : F64) (GoFloat.lit 100) = .fin 15 := by decide +kernel
  have e2 : GoFloat.mul (GoFloat.lit (15 / 1000) : F64) (GoFloat.lit 100) = .fin (3 / 2) := by decide +kernel
  rw [percentileKey, percentileKey, e1, e2, h1, h2]
  rfl

/-- C64, what holds: percentiles that, times 100, are printed with the same number of decimals get different keys unless they are printed alike. Missing: different numbers of decimals. -/
theorem C64_partial (formatFloat : F → Str) (p p' : F) (m m' k : Nat) (h : formatFloat (GoFloat.mul p (GoFloat.lit 100)) = decimal m k)
    (h' : formatFloat (GoFloat.mul p' (GoFloat.lit 100)) = decimal m' k) (hne : formatFloat (GoFloat.mul p (GoFloat.lit 100)) ≠ formatFloat (GoFloat.mul p' (GoFloat.lit 100))) :
    percentileKey formatFloat p ≠ percentileKey formatFloat p' := by
  intro he
  rw [percentileKey_eq, pctKey, pctKey, h, h'] at he
  have := congrArg (valueOf 0) he
  rw [key_value, key_value] at this
  subst this
  exact hne (h.trans h'.symm)

example : decimal 999 1 = bytes "99.9" ∧ decimal 95 0 = bytes "95" ∧ decimal 5 3 = bytes "0.005" := by decide +kernel
example : (decimal 999 1).erase 46 = (decimal 999 2).erase 46 := by decide +kernel

end GoMetrics
