import Verif.Lemmas.WireExport
import Verif.Props.Export
import Verif.Props.Net

/-!
C85. What the Graphite and OpenTSDB servers read.

The text that arrives on the connection is read by a server that knows only the line formats and decimal numbers. If the names, the prefix and the host contain no spaces and control characters, the
server gets exactly the statistics of the registry: for every metric one sample for each statistic, under the path `prefix.name.label`, with the time of the export, integers exactly and floats to
within half a unit of the last decimal. No two samples have the same path. Without the condition on names the claim fails: names are not quoted, and a newline in a name forges a sample.
-/

namespace GoMetrics
open Spec

/-- **C85, numbers.** The text that `fmt` makes of a number reads back: integers exactly, floats to the printed decimals. -/
theorem C85_numbers (errText : Nat → Str) (v : Field F64) (hv : v ≠ .nil ∧ ∀ e, v ≠ .errText e) : ∃ x, readNumber (fmtValue errText (verb v) v) = some x ∧ Reads v x :=
  (fmtValue_spec errText (by cases v <;> first | trivial | exact absurd rfl hv.1 | exact absurd rfl (hv.2 _))).2

example : readNumber (fmtValue (fun _ => []) (bytes "d") (.int (-42))) = some (.num (-42)) ∧ readNumber (fmtValue (fun _ => []) (bytes ".2f") (.float (.fin (-1 / 3)))) = some (.num (-33 / 100)) := by
  decide +kernel

section
variable (h : List (Env F64 × Op F64)) (env : Env F64) (g : Reg) (id : Nat) (hb : base g = some id) (w' : World F64) (c : Conn) (errText : Nat → Str) (net : Net) (hn : ∀ n, net n = none)
include hb hn

/-- What the network carried is what was printed. -/
private theorem printed_of (x : TcpExporter F64) (hd : x.overTcp env true net (render errText) g (World.init.run h) = (w', some c, .ok none)) :
    ∃ out, x.printed env g (World.init.run h) = ((w', out), .ok ()) ∧ c.sent = textOfEvents (render errText) out := by
  rcases hp : x.printed env g (World.init.run h) with ⟨⟨w1, out⟩, res⟩
  cases res with
  | ok u =>
    obtain ⟨c', h1, h2, -⟩ := C78_delivered x env net hn (render errText) g _ w1 out hp
    rw [hd] at h1
    cases h1
    exact ⟨out, rfl, h2⟩
  | error p =>
    obtain ⟨c', h1, -⟩ := C78_prefix x env net (render errText) g _ w1 out _ hp
    rw [hd] at h1
    cases h1

/-- **C85, Graphite.** `GraphiteOnce` returns nil over a working network: the server reads one sample for each statistic of each metric and for each configured percentile (healthchecks excepted, see C62). -/
theorem C85_graphite (cfg : GraphiteConfig F64) (hu : Int64.ofInt (GoFloat.toInt (GoFloat.ofInt cfg.durationUnit.toInt : F64)) = cfg.durationUnit)
    (hpre : Plain cfg.pre) (hnames : ∀ name, gets (World.init.run h : World F64) id name ≠ none → Plain name) (hkeys : ∀ p ∈ cfg.percentiles, Plain (pctKey cfg.formatFloat p))
    (hd : graphiteNet env true net (render errText) cfg g (World.init.run h) = (w', some c, .ok none)) :
    let w : World F64 := World.init.run h
    ∃ ss, (TcpExporter.graphite cfg).read c.sent = some ss ∧
      Exported w id (prefixes g).flatten ss fun name r o l => if isHealth o then l = [] else ∃ rows prows,
        Complete w env r o [] (fun c v => if isTimer o && isDuration c then inUnitInt cfg.durationUnit (GoFloat.ofInt cfg.durationUnit.toInt) v else v) rows ∧
        prows.map Prod.fst = (if isDistribution o then cfg.percentiles else []) ∧ (∀ x ∈ prows, Holds w env r (.stat (.percentile x.1)) x.2) ∧
        (∀ row ∈ rows, IsLabel (bytes row.1)) ∧ GraphiteSamples (pctKey cfg.formatFloat) cfg.pre name cfg.now rows prows l := by
  intro w
  obtain ⟨out, h1, h2⟩ := printed_of h env g id hb w' c errText net hn (.graphite cfg) hd
  rw [h2]
  refine exported_read (C62_graphite_partial h env g id hb w' out cfg hu h1) ?_
  intro name r o evs hg hp ho hblk
  cases hh : isHealth o with
  | true =>
    rw [hh, if_pos rfl] at hblk
    subst hblk
    exact ⟨[], .nil, by simp⟩
  | false =>
    rw [hh, if_neg (by simp)] at hblk
    obtain ⟨rows, prows, k1, k2, k3, k4⟩ := hblk
    have hk : ∀ x ∈ prows, Plain (pctKey cfg.formatFloat x.1) := by
      intro x hx
      refine hkeys _ ?_
      have : x.1 ∈ prows.map Prod.fst := List.mem_map_of_mem hx
      rw [k2] at this
      split at this
      · exact this
      · simp at this
    obtain ⟨ss, k5, k6⟩ := graphite_samples (errText := errText) k4 hpre (hnames name (by rw [hg]; simp)) hk
      (k1.numeric ho hh fun c v hv => by split; exact numeric_inUnitInt hv; exact hv) fun x hx => numeric_of_holds ho hh rfl (k3 x hx)
    refine ⟨ss, k5, ?_⟩
    rw [if_neg (by simp)]
    exact ⟨rows, prows, k1, k2, k3, k4.1, k6⟩

/-- **C85, OpenTSDB.** The same for OpenTSDB, with the five fixed percentiles and the host as a tag. -/
theorem C85_opentsdb (cfg : OpenTSDBConfig) (hu : Int64.ofInt (GoFloat.toInt (GoFloat.ofInt cfg.durationUnit.toInt : F64)) = cfg.durationUnit)
    (hpre : Plain cfg.pre) (hnames : ∀ name, gets (World.init.run h : World F64) id name ≠ none → Plain name) (hhost : Plain cfg.host)
    (hd : openTSDBNet env true net (render errText) cfg g (World.init.run h) = (w', some c, .ok none)) :
    let w : World F64 := World.init.run h
    ∃ ss, (TcpExporter.openTSDB cfg : TcpExporter F64).read c.sent = some ss ∧
      Exported w id (prefixes g).flatten ss fun name r o l => if isHealth o then l = [] else ∃ rows,
        Complete w env r o five (fun c v => if isTimer o && isDuration c then inUnitInt cfg.durationUnit (GoFloat.ofInt cfg.durationUnit.toInt) v else v) rows ∧
        (∀ row ∈ rows, IsLabel (bytes row.1)) ∧ List.Forall₂ (fun row s => IsSample cfg.pre name cfg.now [bytes "host=" ++ cfg.host] (bytes row.1) row.2 s) rows l := by
  intro w
  obtain ⟨out, h1, h2⟩ := printed_of h env g id hb w' c errText net hn (.openTSDB cfg) hd
  rw [h2]
  refine exported_read (C62_opentsdb_partial h env g id hb w' out cfg hu h1) ?_
  intro name r o evs hg hp ho hblk
  cases hh : isHealth o with
  | true =>
    rw [hh, if_pos rfl] at hblk
    subst hblk
    exact ⟨[], .nil, by simp⟩
  | false =>
    rw [hh, if_neg (by simp)] at hblk
    obtain ⟨rows, k1, k2, k3⟩ := hblk
    have hv := k1.numeric ho hh fun c v hv => by split; exact numeric_inUnitInt hv; exact hv
    obtain ⟨ss, k5, k6⟩ := forall₂_read (line := readOpenTSDBLine) (errText := errText) (Q := fun row s => IsSample cfg.pre name cfg.now [bytes "host=" ++ cfg.host] (bytes row.1) row.2 s) k3
      fun row hr e he => by
        obtain ⟨l, s, a, b, c, d⟩ := openTSDB_read errText he hpre (hnames name (by rw [hg]; simp)) (k2 row hr).plain hhost (hv row hr)
        exact ⟨s, ⟨l, a, b, c⟩, d⟩
    refine ⟨ss, k5, ?_⟩
    rw [if_neg (by simp)]
    exact ⟨rows, k1, k2, k6⟩

/-- **C85, no two samples with the same path (Graphite)**, if the percentiles give different texts without dots. -/
theorem C85_graphite_paths (cfg : GraphiteConfig F64) (hu : Int64.ofInt (GoFloat.toInt (GoFloat.ofInt cfg.durationUnit.toInt : F64)) = cfg.durationUnit)
    (hpre : Plain cfg.pre) (hnames : ∀ name, gets (World.init.run h : World F64) id name ≠ none → Plain name) (hkeys : ∀ p ∈ cfg.percentiles, IsLabel (pctKey cfg.formatFloat p))
    (hdiff : (cfg.percentiles.map (pctKey cfg.formatFloat)).Nodup)
    (hd : graphiteNet env true net (render errText) cfg g (World.init.run h) = (w', some c, .ok none)) (ss : List Sample) (hs : (TcpExporter.graphite cfg).read c.sent = some ss) :
    (ss.map Sample.path).Nodup := by
  obtain ⟨ss', h1, h2⟩ := C85_graphite h env g id hb w' c errText net hn cfg hu hpre hnames (fun p hp => (hkeys p hp).plain) hd
  rw [hs] at h1
  cases h1
  refine exported_paths h2 cfg.pre ?_
  intro name r o l ho hl
  split at hl
  · subst hl; simp
  · obtain ⟨rows, prows, k1, k2, k3, k4, s1, s2, k5, k6, k7⟩ := hl
    have e1 := paths_of (label := fun row => bytes row.1) k6
    have e2 := paths_of (label := fun row => pctKey cfg.formatFloat row.1 ++ bytes "-percentile") k7
    have hlab : ∀ x ∈ rows.map (fun row => bytes row.1), (46 : UInt8) ∉ x := by
      intro x hx
      obtain ⟨row, hr, rfl⟩ := List.mem_map.1 hx
      exact (k4 row hr).no_point
    have hsub : ∀ x ∈ prows, x.1 ∈ cfg.percentiles := by
      intro x hx
      have : x.1 ∈ prows.map Prod.fst := List.mem_map_of_mem hx
      rw [k2] at this
      split at this
      · exact this
      · simp at this
    have hplab : ∀ x ∈ prows.map (fun row => pctKey cfg.formatFloat row.1 ++ bytes "-percentile"), (46 : UInt8) ∉ x := by
      intro x hx
      obtain ⟨row, hr, rfl⟩ := List.mem_map.1 hx
      have h1 := (hkeys _ (hsub row hr)).no_point
      have h2 : (46 : UInt8) ∉ bytes "-percentile" := by decide
      simp [h1, h2]
    have hpn : (prows.map (fun row => pctKey cfg.formatFloat row.1 ++ bytes "-percentile")).Nodup := by
      have h0 : prows.map (fun row => pctKey cfg.formatFloat row.1 ++ bytes "-percentile") = ((prows.map Prod.fst).map (pctKey cfg.formatFloat)).map fun s => s ++ bytes "-percentile" := by simp
      rw [h0, k2]
      refine List.Nodup.map (fun a b h => List.append_cancel_right h) ?_
      split
      · exact hdiff
      · simp
    have hall : (rows.map (fun row => bytes row.1) ++ prows.map (fun row => pctKey cfg.formatFloat row.1 ++ bytes "-percentile")).Nodup := by
      refine List.Nodup.append (k1.labels List.nodup_nil) hpn ?_
      intro x hx hy
      obtain ⟨row, hr, rfl⟩ := List.mem_map.1 hx
      obtain ⟨row', hr', he⟩ := List.mem_map.1 hy
      exact k1.not_percentile hr _ he.symm
    have e3 : (s1 ++ s2).map Sample.path = (rows.map (fun row => bytes row.1) ++ prows.map (fun row => pctKey cfg.formatFloat row.1 ++ bytes "-percentile")).map (pathOf cfg.pre name) := by
      rw [List.map_append, e1, e2, List.map_append]
    have hno : ∀ x ∈ rows.map (fun row => bytes row.1) ++ prows.map (fun row => pctKey cfg.formatFloat row.1 ++ bytes "-percentile"), (46 : UInt8) ∉ x := fun x hx => (List.mem_append.1 hx).elim (hlab x) (hplab x)
    refine ⟨(k5.map _).nodup_iff.2 ?_, ?_⟩
    · rw [e3]
      exact List.Nodup.map_on (fun a ha b hb h => (pathOf_inj (hno a ha) (hno b hb) h).2) hall
    · intro s hs
      have : s.path ∈ (s1 ++ s2).map Sample.path := List.mem_map_of_mem (k5.mem_iff.1 hs)
      rw [e3] at this
      obtain ⟨label, hl, he⟩ := List.mem_map.1 this
      exact ⟨label, hno label hl, he.symm⟩

/-- **C85, no two samples with the same path (OpenTSDB).** -/
theorem C85_opentsdb_paths (cfg : OpenTSDBConfig) (hu : Int64.ofInt (GoFloat.toInt (GoFloat.ofInt cfg.durationUnit.toInt : F64)) = cfg.durationUnit)
    (hpre : Plain cfg.pre) (hnames : ∀ name, gets (World.init.run h : World F64) id name ≠ none → Plain name) (hhost : Plain cfg.host)
    (hd : openTSDBNet env true net (render errText) cfg g (World.init.run h) = (w', some c, .ok none)) (ss : List Sample) (hs : (TcpExporter.openTSDB cfg : TcpExporter F64).read c.sent = some ss) :
    (ss.map Sample.path).Nodup := by
  obtain ⟨ss', h1, h2⟩ := C85_opentsdb h env g id hb w' c errText net hn cfg hu hpre hnames hhost hd
  rw [hs] at h1
  cases h1
  refine exported_paths h2 cfg.pre ?_
  intro name r o l ho hl
  split at hl
  · subst hl; simp
  · obtain ⟨rows, k1, k2, k3⟩ := hl
    have e1 := paths_of (label := fun row => bytes row.1) k3
    have hlab : ∀ x ∈ rows.map (fun row => bytes row.1), (46 : UInt8) ∉ x := by
      intro x hx
      obtain ⟨row, hr, rfl⟩ := List.mem_map.1 hx
      exact (k2 row hr).no_point
    have hfive : (five : List F64).Nodup := by decide +kernel
    refine ⟨?_, ?_⟩
    · rw [e1]
      exact List.Nodup.map_on (fun a ha b hb h => (pathOf_inj (hlab a ha) (hlab b hb) h).2) (k1.labels hfive)
    · intro s hs
      have : s.path ∈ l.map Sample.path := List.mem_map_of_mem hs
      rw [e1] at this
      obtain ⟨label, hl, he⟩ := List.mem_map.1 this
      exact ⟨label, hlab label hl, he.symm⟩

end

/-! ### Examples and refutation -/

/-- What the Graphite server reads after the history `h`, if `GraphiteOnce` returns nil. -/
noncomputable def received (h : List (Env F64 × Op F64)) : Option (List Sample) :=
  match graphiteNet (envAt 2) true (fun _ => none) (render fun _ => []) netConfig (.std 0) (World.init.run h) with
  | (_, some c, .ok none) => (TcpExporter.graphite netConfig).read c.sent
  | _ => none

-- The counter "c" of value 3 and the gauge "g" of `netHistory`.
example : (received netHistory).map List.length = some 2 ∧ ∀ ss, received netHistory = some ss → ⟨bytes "p.c.count", .num 3, 7, []⟩ ∈ ss ∧ ⟨bytes "p.g.value", .num 0, 7, []⟩ ∈ ss := by decide +kernel

/-- Two percentiles, as `strconv.FormatFloat` prints them. -/
def wireConfig : GraphiteConfig F64 :=
  { durationUnit := 1000000, pre := bytes "app.prod", percentiles := [GoFloat.lit (1 / 2), GoFloat.lit (999 / 1000)], now := 1700000000, formatFloat := fun x => if x = .fin 50 then bytes "50" else bytes "99.9" }

-- The hypotheses of the theorems about Graphite hold for this configuration and the registry of `netHistory`.
example (w' : World F64) (c : Conn) (hd : graphiteNet (envAt 2) true (fun _ => none) (render fun _ => []) wireConfig (.std 0) (World.init.run netHistory) = (w', some c, .ok none)) (ss : List Sample)
    (hs : (TcpExporter.graphite wireConfig).read c.sent = some ss) : (ss.map Sample.path).Nodup := by
  have hr : (World.init.run netHistory : World F64).regs 0 = [(bytes "g", 1), (bytes "c", 0)] ∨ (World.init.run netHistory : World F64).regs 0 = [(bytes "c", 0), (bytes "g", 1)] := by decide +kernel
  refine C85_graphite_paths netHistory (envAt 2) (.std 0) 0 rfl w' c _ _ (fun _ => rfl) wireConfig (C63_unit _ (by decide)) (by unfold Plain; decide) (fun name hname => ?_) (by decide +kernel) (by decide +kernel) hd ss hs
  have h1 : Plain (bytes "c") := by unfold Plain; decide
  have h2 : Plain (bytes "g") := by unfold Plain; decide
  rw [gets_eq] at hname
  rcases hr with hr | hr <;> rw [hr, lookup_cons, lookup_cons] at hname
  · by_cases e1 : bytes "g" = name
    · exact e1 ▸ h2
    · by_cases e2 : bytes "c" = name
      · exact e2 ▸ h1
      · rw [if_neg e1, if_neg e2] at hname; exact absurd rfl hname
  · by_cases e1 : bytes "c" = name
    · exact e1 ▸ h1
    · by_cases e2 : bytes "g" = name
      · exact e2 ▸ h2
      · rw [if_neg e1, if_neg e2] at hname; exact absurd rfl hname
example : (match graphiteNet (envAt 2) true (fun _ => none) (render fun _ => []) wireConfig (.std 0) (World.init.run netHistory) with
    | (_, some c, .ok none) => ((TcpExporter.graphite wireConfig).read c.sent).map List.length
    | _ => none) = some 2 := by decide +kernel

-- OpenTSDB, with a float gauge of value 1.5.
example : (match openTSDBNet (envAt 2) true (fun _ => none) (render fun _ => []) { durationUnit := 1, pre := bytes "p", now := 7, host := bytes "h1" } (.std 0)
      (World.init.run [(envAt 0, .new .gaugeF), (envAt 1, .call 0 (.updateF 0x3FF8000000000000)), (envAt 1, .reg (.std 0) (.register (bytes "f") (.obj 0)))] : World F64) with
    | (_, some c, .ok none) => some (c.sent, readLines readOpenTSDBLine c.sent)
    | _ => none) = some (bytes "put p.f.value 7 1.500000 host=h1\n", some [⟨bytes "p.f.value", .num (3 / 2), 7, [bytes "host=h1"]⟩]) := by decide +kernel

/-- One counter, of value 3, with a newline in its name. -/
def forgedHistory : List (Env F64 × Op F64) :=
  [(envAt 0, .new .counter), (envAt 1, .call 0 (.inc 3)), (envAt 1, .reg (.std 0) (.register (bytes "a.count 99 1\np.b") (.obj 0)))]

/-- **C85, refuted for arbitrary names.** There is a registry with a single counter, whose value is 3, and the server reads two samples, one of them with the value 99. -/
theorem C85_refuted : ∃ h : List (Env F64 × Op F64), (∀ name, gets (World.init.run h : World F64) 0 name ≠ none → name = bytes "a.count 99 1\np.b") ∧
    received h = some [⟨bytes "p.a.count", .num 99, 1, []⟩, ⟨bytes "p.b.count", .num 3, 7, []⟩] := by
  refine ⟨forgedHistory, ?_, by decide +kernel⟩
  intro name hname
  have hr : (World.init.run forgedHistory : World F64).regs 0 = [(bytes "a.count 99 1\np.b", 0)] := by decide +kernel
  rw [gets_eq, hr, lookup_cons] at hname
  by_contra hne
  rw [if_neg fun e => hne e.symm] at hname
  exact hname rfl

end GoMetrics
