import Verif.Lemmas.Ledger
import Verif.Props.Recorded
import Verif.Props.Wire
import Verif.Props.Clock

/-! Property theorems C127 (what was counted and what is reported). -/

set_option linter.unusedSectionVars false

namespace GoMetrics
open Spec Ledger

section
variable {F : Type} [GoFloat F] [GoSqrt F] [GoExp F]
variable (h0 : List (Env F × Op F)) (env0 : Env F) (o : Op F) {r : Ref}

private theorem later_run (later : List (Env F × Op F)) : (World.init.run (h0 ++ (env0, o) :: later) : World F) = (step env0 o (World.init.run h0)).1.run later := by
  rw [World.run_append]; rfl

private theorem counter_later (hm : Creates (World.init.run h0) env0 o .counter r) (later : List (Env F × Op F)) :
    (World.init.run (h0 ++ (env0, o) :: later)).objs r = some (.counter (.std ⟨Int64.ofInt (tally r later)⟩)) := by
  rw [later_run]
  exact counter_run (n := 0) ((run_ok h0).step env0 o).1 (counter_new hm) later

/-- C127: whatever the program does, `Count()` of a counter is the balance of the increments and decrements made with it since it was made or cleared (modulo 2^64). -/
theorem C127_counter (hm : Creates (World.init.run h0) env0 o .counter r) (later : List (Env F × Op F)) (env : Env F) :
    observe (World.init.run (h0 ++ (env0, o) :: later)) env r .count = .ok (.int (Int64.ofInt (tally r later))) := by
  unfold observe
  rw [call_obj (counter_later h0 env0 o hm later)]
  rfl

/-- C127: `Value()` of a gauge is what it was set to last. -/
theorem C127_gauge (hm : Creates (World.init.run h0) env0 o .gauge r) (later : List (Env F × Op F)) (env : Env F) :
    observe (World.init.run (h0 ++ (env0, o) :: later)) env r .value = .ok (.int (lastSet r later)) := by
  unfold observe
  rw [later_run, call_obj (gauge_run ((run_ok h0).step env0 o).1 (gauge_new hm) later)]
  rfl

/-- C127: `Value()` of a float gauge is what it was set to last, bit by bit. -/
theorem C127_gauge_float (hm : Creates (World.init.run h0) env0 o .gaugeF r) (later : List (Env F × Op F)) (env : Env F) :
    observe (World.init.run (h0 ++ (env0, o) :: later)) env r .value = .ok (.bits (lastBits r later)) := by
  unfold observe
  rw [later_run, call_obj (gaugeF_run ((run_ok h0).step env0 o).1 (gaugeF_new hm) later)]
  rfl

private theorem meter_made {c : NewOp F} (hc : c = .meter ∨ c = .timer) (hm : Creates (World.init.run h0) env0 o c r) {y : Meter F}
    (hr : (step env0 o (World.init.run h0)).1.objs r = some (.meter y)) : Counts 0 ((step env0 o (World.init.run h0)).1.objs r) := by
  obtain ⟨z, hz, hs⟩ := hm.after
  have he := creates_objs hm
  rw [hr] at hz; cases hz
  cases y with
  | std s =>
    rw [hr] at he ⊢
    obtain rfl := meter_new hc hm.before he.symm
    exact ⟨_, rfl, rfl, rfl⟩
  | snap s => exact absurd (he.symm.trans hr) (meter_not_snap hc hm.before)
  | nil => simp [isStub] at hs

/-- C127: as long as nothing stops the meter — made by `NewMeter`, or by `NewTimer` as its meter — `Count()` is the number of events marked with it, whether by `Mark` or by the
timers that have it (modulo 2^64). -/
theorem C127_meter {c : NewOp F} (hc : c = .meter ∨ c = .timer) (hm : Creates (World.init.run h0) env0 o c r) {y : Meter F}
    (hr : (step env0 o (World.init.run h0)).1.objs r = some (.meter y)) (later : List (Env F × Op F)) (hs : unstopped (step env0 o (World.init.run h0)).1 r later) (env : Env F) :
    observe (World.init.run (h0 ++ (env0, o) :: later)) env r .count = .ok (.int (Int64.ofInt (marks (step env0 o (World.init.run h0)).1 r later))) := by
  obtain ⟨s, h1, -, h2⟩ := meter_run ((run_ok h0).step env0 o).1 (meter_made h0 env0 o hc hm hr) later hs
  unfold observe
  rw [later_run, call_obj h1]
  rw [zero_add] at h2
  rw [← h2]
  rfl

/-- C127: from the operation that stops the meter on, `Count()` stays what it was, whatever is marked. -/
theorem C127_meter_stopped (h : List (Env F × Op F)) (m : Ref) {s : StandardMeter F} (hm : (World.init.run h).objs m = some (.meter (.std s))) (env1 : Env F) (x : Op F)
    (hx : stops (World.init.run h) x m) (more : List (Env F × Op F)) (env : Env F) :
    observe (World.init.run (h ++ (env1, x) :: more)) env m .count = observe (World.init.run h) env m .count := by
  have hw := run_ok h (F := F)
  have hd : ¬ live (step env1 x (World.init.run h)).1 m := by
    cases h1 : s.stopped with
    | false => exact fun hl => (C37_step h env1 x m ⟨s, hm, h1⟩).1 hl hx
    | true =>
      rintro ⟨s', h2, h3⟩
      rw [(hw.step env1 x).2.frozen m _ hm (by simp [Obj.live, h1])] at h2
      cases h2
      rw [h1] at h3; simp at h3
  rw [later_run]
  generalize World.init.run h = w at *
  obtain ⟨s', h1, h2, h3⟩ := stop_keeps hw hm env1 x hx hd
  have h4 := ((hw.step env1 x).1.run more).2.frozen m _ h1 (by simp [Obj.live, h2])
  unfold observe
  rw [call_obj h4, call_obj hm]
  show Except.ok (Out.int s'.snapshot.count) = .ok (.int s.snapshot.count)
  rw [h3]

/-! ### Reports -/

private theorem holds_iff {w : World F} {z : Obj F} (hz : w.objs r = some z) (hh : z.ty ≠ .health) (env : Env F) (c : Call F) (hc : c ≠ .stat .stdDev) (v : GoMetrics.Field F) :
    Holds w env r c v ↔ shows (observe w env r c) v := by
  have hck : checked env w r = w := by
    unfold checked
    rw [hz]
    cases z with
    | health _ => exact absurd rfl hh
    | _ => rfl
  unfold Holds
  rw [hck]
  exact ⟨fun h => h.2 hc, fun h => ⟨fun e => absurd e hc, fun _ => h⟩⟩

/-- C127: so every exporter (C62: what it shows of a metric is what `Holds`) shows for a counter the balance. -/
theorem C127_report_counter (hm : Creates (World.init.run h0) env0 o .counter r) (later : List (Env F × Op F)) (env : Env F) (v : GoMetrics.Field F) :
    Holds (World.init.run (h0 ++ (env0, o) :: later)) env r .count v ↔ v = .int (Int64.ofInt (tally r later)) := by
  rw [holds_iff (counter_later h0 env0 o hm later) (by simp [Obj.ty]) env _ (by simp), C127_counter h0 env0 o hm later env]
  rfl

/-- C127: for a gauge what it was set to last. -/
theorem C127_report_gauge (hm : Creates (World.init.run h0) env0 o .gauge r) (later : List (Env F × Op F)) (env : Env F) (v : GoMetrics.Field F) :
    Holds (World.init.run (h0 ++ (env0, o) :: later)) env r .value v ↔ v = .int (lastSet r later) := by
  rw [holds_iff (z := .gauge (.std (lastSet r later))) (by rw [later_run]; exact gauge_run ((run_ok h0).step env0 o).1 (gauge_new hm) later) (by simp [Obj.ty]) env _ (by simp),
    C127_gauge h0 env0 o hm later env]
  rfl

/-- C127: for a float gauge what it was set to last. -/
theorem C127_report_gauge_float (hm : Creates (World.init.run h0) env0 o .gaugeF r) (later : List (Env F × Op F)) (env : Env F) (v : GoMetrics.Field F) :
    Holds (World.init.run (h0 ++ (env0, o) :: later)) env r .value v ↔ v = .bits (lastBits r later) := by
  rw [holds_iff (z := .gaugeF (.std (lastBits r later))) (by rw [later_run]; exact gaugeF_run ((run_ok h0).step env0 o).1 (gaugeF_new hm) later) (by simp [Obj.ty]) env _ (by simp),
    C127_gauge_float h0 env0 o hm later env]
  rfl

/-- C127: for a meter that nothing has stopped the number of events marked. -/
theorem C127_report_meter {c : NewOp F} (hc : c = .meter ∨ c = .timer) (hm : Creates (World.init.run h0) env0 o c r) {y : Meter F}
    (hr : (step env0 o (World.init.run h0)).1.objs r = some (.meter y)) (later : List (Env F × Op F)) (hs : unstopped (step env0 o (World.init.run h0)).1 r later) (env : Env F)
    (v : GoMetrics.Field F) :
    Holds (World.init.run (h0 ++ (env0, o) :: later)) env r .count v ↔ v = .int (Int64.ofInt (marks (step env0 o (World.init.run h0)).1 r later)) := by
  obtain ⟨s, h1, -⟩ := meter_run ((run_ok h0).step env0 o).1 (meter_made h0 env0 o hc hm hr) later hs
  rw [← later_run] at h1
  rw [holds_iff h1 (by simp [Obj.ty]) env _ (by simp), C127_meter h0 env0 o hc hm hr later hs env]
  rfl

/-- C127: and for a histogram or timer, as long as there is room in the sample (made with the reservoir size `k`), the statistics of all the values recorded. -/
theorem C127_report_distribution {s : Ref} {k : Nat} (hm : Makes (World.init.run h0) env0 o s k) (later : List (Env F × Op F))
    (hfit : (book (step env0 o (World.init.run h0)).1 s [] later).length ≤ k) (env : Env F) (x : Ref)
    (hx : recordsIn (World.init.run (h0 ++ (env0, o) :: later)) x = some s) (hne : x ≠ s) (ps : List F) (z : Obj F) (hz : (World.init.run (h0 ++ (env0, o) :: later)).objs x = some z)
    (c : Call F) (hc : c ∈ distribution ps) (v : GoMetrics.Field F) (hv : Holds (World.init.run (h0 ++ (env0, o) :: later)) env x c v) :
    ledgerShows (book (step env0 o (World.init.run h0)).1 s [] later) c v := by
  have hck : checked env (World.init.run (h0 ++ (env0, o) :: later)) x = World.init.run (h0 ++ (env0, o) :: later) := by
    unfold checked
    rw [hz]
    cases z with
    | health _ => simp [recordsIn, hz] at hx
    | _ => rfl
  have stat : ∀ k, orderFree (.stat k : Call F) = true → (Call.stat k : Call F) ≠ .stat .stdDev →
      Holds (World.init.run (h0 ++ (env0, o) :: later)) env x (.stat k) v → shows (statOf (book (step env0 o (World.init.run h0)).1 s [] later) k) v := by
    intro k hk hd hv
    have := hv.2 hd
    rwa [hck, C126_stats h0 env0 o hm later hfit env x hx k hk] at this
  simp only [distribution, List.cons_append, List.nil_append, List.mem_cons, List.mem_map] at hc
  rcases hc with rfl | rfl | rfl | rfl | rfl | ⟨p, -, rfl⟩
  · have := hv.2 (by simp)
    rw [hck, C126_count h0 env0 o hm later env x hx] at this
    exact this
  · exact stat _ rfl (by simp) hv
  · exact stat _ rfl (by simp) hv
  · exact stat _ rfl (by simp) hv
  · have := hv.1 rfl
    rw [this]
    have hh : Recorded.Holds k (book (step env0 o (World.init.run h0)).1 s [] later) ((World.init.run (h0 ++ (env0, o) :: later)).objs s) := by
      rw [later_run]
      exact Recorded.run_holds hm.pos ((run_ok h0).step env0 o).1 (Recorded.made (run_ok h0) hm) later
    obtain ⟨y, hy, hsn, -, -, -, hl, hs⟩ := hh.vals
    show GoMetrics.Field.float _ = .float _
    rw [records_recorded hy hh hx hne]
    show GoMetrics.Field.float (sampleStdDev (sortInts _)) = .float _
    rw [sortInts_eq_of_perm (hs.perm_of_length_le (by omega))]
  · exact stat _ rfl (by simp) hv

end

/-- The row of a counter. -/
private theorem counter_row {r : Ref} (h0 : List (Env F64 × Op F64)) (env0 : Env F64) (o : Op F64) (hm : Creates (World.init.run h0) env0 o .counter r) (later : List (Env F64 × Op F64)) (env : Env F64) {x : Counter}
    {u : Int64} {ps : List F64} {rows : List (String × GoMetrics.Field F64)}
    (k1 : Complete (World.init.run (h0 ++ (env0, o) :: later)) env r (.counter x) ps
      (fun c v => if isTimer (.counter x : Obj F64) && isDuration c then inUnitInt u (GoFloat.ofInt u.toInt) v else v) rows)
    (k4 : ∀ row ∈ rows, IsLabel (bytes row.1)) : ∃ row, rows = [row] ∧ row.1 = "count" ∧ row.2 = .int (Int64.ofInt (tally r later)) := by
  obtain ⟨k7, k8⟩ := k1
  obtain ⟨row, hrow⟩ : ∃ row, rows = [row] := by
    have := k7.length_eq
    simp [statsOf] at this
    exact List.length_eq_one_iff.1 this
  subst hrow
  have hmean : means (.counter x : Obj F64) row.1 = some .count := by
    have := k7.mem_iff (a := some (.count : Call F64))
    simpa [statsOf, eq_comm] using this
  obtain ⟨v, hv, hv'⟩ := k8 row (by simp) _ hmean
  rw [C127_report_counter h0 env0 o hm later env] at hv
  subst hv
  have hl : row.1 ≠ "" := by
    intro e
    have := (k4 row (by simp)).1
    rw [e] at this
    exact this rfl
  refine ⟨row, rfl, ?_, by simpa [isTimer] using hv'⟩
  clear k4 k7 k8 hv'
  unfold means at hmean
  split at hmean <;> simp_all

private theorem sample_eq {pre name : Str} {now : Int64} {tags : List Str} {row : String × GoMetrics.Field F64} {n : Int} {sm : Sample} (hs : IsSample pre name now tags (bytes row.1) row.2 sm)
    (hl : row.1 = "count") (hv : row.2 = .int (Int64.ofInt n)) : sm = ⟨pathOf pre name (bytes "count"), .num (wrap64 n), now.toInt, tags⟩ := by
  obtain ⟨e1, e2, e3, e4⟩ := hs
  rw [hv] at e4
  rw [hl] at e1
  obtain ⟨p, v, t, tg⟩ := sm
  simp only [Reads] at e1 e2 e3 e4
  subst e1 e2 e3
  rw [e4, ofInt_toInt_cast]

section
variable (h0 : List (Env F64 × Op F64)) (env0 : Env F64) (o : Op F64) {r : Ref} (hm : Creates (World.init.run h0) env0 o .counter r) (later : List (Env F64 × Op F64))
variable (env : Env F64) (g : Reg) (id : Nat) (hb : base g = some id) (w' : World F64) (c : Conn) (errText : Nat → Str) (net : Net) (hn : ∀ n, net n = none)
include hm hb hn

/-- C127, from the program to the server: when `GraphiteOnce` returns nil over a working network, the Graphite server reads for a counter that is registered as `name` the balance of
what the program counted, under `prefix.name.count`. -/
theorem C127_graphite (cfg : GraphiteConfig F64) (hu : Int64.ofInt (GoFloat.toInt (GoFloat.ofInt cfg.durationUnit.toInt : F64)) = cfg.durationUnit)
    (hpre : Plain cfg.pre) (hnames : ∀ name, gets (World.init.run (h0 ++ (env0, o) :: later) : World F64) id name ≠ none → Plain name)
    (hkeys : ∀ p ∈ cfg.percentiles, Plain (pctKey cfg.formatFloat p))
    (hd : graphiteNet env true net (render errText) cfg g (World.init.run (h0 ++ (env0, o) :: later)) = (w', some c, .ok none))
    (name : Str) (hr : gets (World.init.run (h0 ++ (env0, o) :: later)) id name = some r) (hp : (prefixes g).flatten <+: name) :
    ∃ ss, (TcpExporter.graphite cfg).read c.sent = some ss ∧ ⟨pathOf cfg.pre name (bytes "count"), .num (wrap64 (tally r later)), cfg.now.toInt, []⟩ ∈ ss := by
  obtain ⟨ss, h1, blocks, rfl, h3, h4, h5⟩ := C85_graphite _ env g id hb w' c errText net hn cfg hu hpre hnames hkeys hd
  refine ⟨_, h1, ?_⟩
  obtain ⟨⟨n', r', l⟩, hb1, hb2⟩ := List.mem_map.1 ((h4 name).2 ⟨by rw [hr]; simp, hp⟩)
  simp only at hb2
  subst hb2
  obtain ⟨hg, z, hz, hblk⟩ := h5 _ _ _ hb1
  rw [hr] at hg; cases hg
  rw [counter_later h0 env0 o hm later] at hz; cases hz
  rw [if_neg (by simp [isHealth])] at hblk
  obtain ⟨rows, prows, k1, -, -, k4, s1, s2, k5, k6, -⟩ := hblk
  refine List.mem_flatten.2 ⟨l, List.mem_map.2 ⟨_, hb1, rfl⟩, k5.mem_iff.2 (List.mem_append_left _ ?_)⟩
  obtain ⟨row, rfl, hlab, hv⟩ := counter_row h0 env0 o hm later env k1 k4
  cases k6 with
  | cons hs hnil =>
    cases hnil
    rename_i sm
    rw [sample_eq hs hlab hv]
    simp

/-- C127: so does an OpenTSDB server, with the host as a tag. -/
theorem C127_opentsdb (cfg : OpenTSDBConfig) (hu : Int64.ofInt (GoFloat.toInt (GoFloat.ofInt cfg.durationUnit.toInt : F64)) = cfg.durationUnit)
    (hpre : Plain cfg.pre) (hnames : ∀ name, gets (World.init.run (h0 ++ (env0, o) :: later) : World F64) id name ≠ none → Plain name) (hhost : Plain cfg.host)
    (hd : openTSDBNet env true net (render errText) cfg g (World.init.run (h0 ++ (env0, o) :: later)) = (w', some c, .ok none))
    (name : Str) (hr : gets (World.init.run (h0 ++ (env0, o) :: later)) id name = some r) (hp : (prefixes g).flatten <+: name) :
    ∃ ss, (TcpExporter.openTSDB cfg : TcpExporter F64).read c.sent = some ss ∧
      ⟨pathOf cfg.pre name (bytes "count"), .num (wrap64 (tally r later)), cfg.now.toInt, [bytes "host=" ++ cfg.host]⟩ ∈ ss := by
  obtain ⟨ss, h1, blocks, rfl, h3, h4, h5⟩ := C85_opentsdb _ env g id hb w' c errText net hn cfg hu hpre hnames hhost hd
  refine ⟨_, h1, ?_⟩
  obtain ⟨⟨n', r', l⟩, hb1, hb2⟩ := List.mem_map.1 ((h4 name).2 ⟨by rw [hr]; simp, hp⟩)
  simp only at hb2
  subst hb2
  obtain ⟨hg, z, hz, hblk⟩ := h5 _ _ _ hb1
  rw [hr] at hg; cases hg
  rw [counter_later h0 env0 o hm later] at hz; cases hz
  rw [if_neg (by simp [isHealth])] at hblk
  obtain ⟨rows, k1, k4, k6⟩ := hblk
  refine List.mem_flatten.2 ⟨l, List.mem_map.2 ⟨_, hb1, rfl⟩, ?_⟩
  obtain ⟨row, rfl, hlab, hv⟩ := counter_row h0 env0 o hm later env k1 k4
  cases k6 with
  | cons hs hnil =>
    cases hnil
    rename_i sm
    rw [sample_eq hs hlab hv]
    simp

end

/-! A counter and a gauge in the store of a program with a timer; the timer's meter is marked by the timer and directly, and then stopped by `Unregister`. -/

private def before : List (Env F64 × Op F64) := [(envAt 0, .new .gauge), (envAt 0, .call 0 (.update 4))]
private def after : List (Env F64 × Op F64) :=
  [(envAt 1, .call 1 (.inc 7)), (envAt 2, .reg (.std 0) (.getOrRegister [116] (.ctor .timer))), (envAt 3, .call 1 .clear), (envAt 4, .call 1 (.inc 5)), (envAt 5, .call 5 (.updateD 11)),
   (envAt 6, .call 1 (.dec 8)), (envAt 7, .reg (.std 0) (.register [99] (.obj 1))), (envAt 8, .call 4 (.mark 3)), (envAt 9, .tick), (envAt 9, .call 0 (.update (-2)))]

example : Creates (World.init.run before) (envAt 0) (.new .counter) .counter 1 := ⟨.inl rfl, rfl, _, rfl, rfl⟩
example : tally 1 after = -3 := by decide
example : intOf (observe (World.init.run (before ++ (envAt 0, .new .counter) :: after)) (envAt 9) 1 .count) = some (-3) := by decide +kernel
example : Creates (World.init : World F64) (envAt 0) (.new .gauge) .gauge 0 ∧ lastSet 0 (before.tail ++ (envAt 0, .new .counter) :: after) = -2 := ⟨⟨.inl rfl, rfl, _, rfl, rfl⟩, by decide⟩
example : Creates (World.init : World F64) (envAt 0) (.new .gaugeF) .gaugeF 0 ∧ lastBits 0 [((envAt 1 : Env F64), .call 0 (.updateF 9)), (envAt 2, .call 0 .snapshot)] = 9 := ⟨⟨.inl rfl, rfl, _, rfl, rfl⟩, by decide⟩

private def untilTimer : List (Env F64 × Op F64) := before ++ [(envAt 0, .new .counter), (envAt 1, .call 1 (.inc 7))]
private def makeTimer : Op F64 := .reg (.std 0) (.getOrRegister [116] (.ctor .timer))

/-- The meter of the timer is object 4. -/
example : Creates (World.init.run untilTimer) (envAt 2) makeTimer .timer 4 ∧ ∃ y, (step (envAt 2) makeTimer (World.init.run untilTimer)).1.objs 4 = some (.meter y) :=
  ⟨⟨.inr ⟨_, _, rfl⟩, rfl, _, rfl, rfl⟩, _, rfl⟩
example : unstopped (step (envAt 2) makeTimer (World.init.run untilTimer)).1 4 (after.drop 2) :=
  ⟨not_false, not_false, not_false, not_false, not_false, not_false, not_false, not_false, trivial⟩
example : marks (step (envAt 2) makeTimer (World.init.run untilTimer)).1 4 (after.drop 2) = 4 := by decide +kernel
example : intOf (observe (World.init.run (untilTimer ++ (envAt 2, makeTimer) :: after.drop 2)) (envAt 9) 4 .count) = some 4 := by decide +kernel
private theorem of_times {w : World F64} {x m : Ref} (h : timesWith w x m = true) : ∃ a, w.objs x = some (.timer (.std a m)) := by
  unfold timesWith at h
  split at h
  · next a b e => exact ⟨a, by rw [e, of_decide_eq_true h]⟩
  · simp at h
/-- `Unregister` of the timer stops the meter. -/
example : stops (World.init.run (untilTimer ++ (envAt 2, makeTimer) :: after.drop 2)) (.reg (.std 0) (.unregister [116])) 4 :=
  ⟨0, 5, rfl, by decide +kernel, .inr (of_times (by decide +kernel))⟩

private def reported : List (Env F64 × Op F64) := [(envAt 1, .call 1 (.inc 5)), (envAt 2, .reg (.std 0) (.register (bytes "c") (.obj 1))), (envAt 3, .call 1 (.dec 8))]

/-- What the Graphite server reads of such a counter. -/
example : tally 1 reported = -3 ∧ gets (World.init.run (before ++ (envAt 0, .new .counter) :: reported)) 0 (bytes "c") = some 1 ∧
    received (before ++ (envAt 0, .new .counter) :: reported) = some [⟨bytes "p.c.count", .num (-3), 7, []⟩] := by decide +kernel

end GoMetrics
