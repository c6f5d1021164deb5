import Verif.Lemmas.Report
import Verif.Props.Export
import Verif.Props.Units

/-!
C98. What can be read in the reports of `WriteOnce`, `Log` and `Syslog`.

The reader (`Spec/Report`) knows only the layout: headings and rows, or words of a message. If no name and no error text contains a newline, the report of `WriteOnce` is read as exactly the metrics of the
registry, in the order of their names, with all their statistics; the same holds for `LogScaled` with the scales for which the unit is right (C88). A message to syslog is read correctly whatever the
name is, except that the name of a healthcheck must not contain a colon. Neither condition can be dropped, and a healthcheck that fails with the error `<nil>` looks healthy.
-/

namespace GoMetrics
open Spec

private theorem isMetric_of {w : World F64} (hw : w.Ok) {id : Nat} {name : Str} {r : Ref} {o : Obj F64} (h : gets w id name = some r) (ho : w.objs r = some o) : o.isMetric = true := by
  rw [gets_eq] at h
  obtain ⟨o', h1, h2⟩ := hw.metric id _ (lookup_some_mem h)
  rw [ho] at h1
  cases h1
  exact h2

private theorem label_means {w : World F64} {env : Env F64} {r : Ref} {o : Obj F64} {conv : Call F64 → Field F64 → Field F64} {rows : List (String × Field F64)}
    (h : Complete w env r o five conv rows) {row : String × Field F64} (hr : row ∈ rows) : ∃ c ∈ statsOf five o, means o row.1 = some c := by
  have h1 : means o row.1 ∈ (statsOf five o).map some := h.1.mem_iff.1 (List.mem_map.2 ⟨row, hr, rfl⟩)
  obtain ⟨c, hc, he⟩ := List.mem_map.1 h1
  exact ⟨c, hc, he.symm⟩

/-- Blocks that are read as entries make a report. -/
private theorem reported_of {errText : Nat → Str} {w : World F64} {env : Env F64} {id : Nat} {pre : Str} {conv : Obj F64 → Call F64 → Field F64 → Field F64}
    {tells : Obj F64 → String × Field F64 → Str → Prop} {blocks : List (Str × Ref × List (Event F64))} (hnd : (blocks.map fun b => b.1).Nodup)
    (hm : ∀ name, name ∈ (blocks.map fun b => b.1) ↔ gets w id name ≠ none ∧ pre <+: name)
    (hb : ∀ name r evs, (name, r, evs) ∈ blocks → ∃ o rows e, gets w id name = some r ∧ w.objs r = some o ∧ Complete w env r o five (conv o) rows ∧ ReadsBlock errText evs e ∧ IsEntry (tells o) name o rows e) :
    ∃ es, readReport (textOfEvents (render errText) (blocks.map fun b => b.2.2).flatten) = some es ∧ es.map Entry.name = (blocks.map fun b => b.1) ∧ ReportOf w env id pre conv tells es := by
  obtain ⟨es, h1, h2⟩ := blocks_read (errText := errText) (blocks := blocks.map fun b => ((b.1, b.2.1), b.2.2))
    (P := fun x e => e.name = x.1 ∧ ∃ o rows, gets w id x.1 = some x.2 ∧ w.objs x.2 = some o ∧ Complete w env x.2 o five (conv o) rows ∧ IsEntry (tells o) x.1 o rows e) (by
      intro b hb'
      obtain ⟨⟨name, r, evs⟩, hmem, rfl⟩ := List.mem_map.1 hb'
      obtain ⟨o, rows, e, k1, k2, k3, k4, k5⟩ := hb name r evs hmem
      exact ⟨e, k4, k5.2.1, o, rows, k1, k2, k3, k5⟩)
  simp only [List.map_map] at h1 h2
  have h3 : es.map Entry.name = blocks.map fun b => b.1 := by
    clear h1 hnd hm hb
    generalize hxs : blocks.map (Prod.fst ∘ fun b => ((b.1, b.2.1), b.2.2)) = xs at h2
    have : blocks.map (fun b => b.1) = xs.map Prod.fst := by rw [← hxs]; simp [Function.comp_def]
    rw [this]
    clear this hxs
    induction h2 with
    | nil => rfl
    | cons h _ ih => simp only [List.map_cons, h.1, ih]
  refine ⟨es, h1, h3, by rw [h3]; exact hnd, by rw [h3]; exact hm, ?_⟩
  intro e he
  have : ∃ x : Str × Ref, e.name = x.1 ∧ ∃ o rows, gets w id x.1 = some x.2 ∧ w.objs x.2 = some o ∧ Complete w env x.2 o five (conv o) rows ∧ IsEntry (tells o) x.1 o rows e := by
    clear h1 h3
    generalize blocks.map (Prod.fst ∘ fun b => ((b.1, b.2.1), b.2.2)) = xs at h2
    induction h2 with
    | nil => simp at he
    | cons h _ ih =>
      rcases List.mem_cons.1 he with rfl | he
      · exact ⟨_, h⟩
      · exact ih he
  obtain ⟨⟨name, r⟩, k1, o, rows, k2, k3, k4, k5⟩ := this
  dsimp only at k1 k2 k3 k4 k5
  subst k1
  exact ⟨r, o, rows, k2, k3, k4, k5⟩

private theorem count_not_value {o : Obj F64} {c d : Call F64} (h1 : means o "count" = some c) (h2 : means o "value" = some d) : False := by
  cases o <;> simp [means, distributionLabel, rateLabel] at h1 h2

private theorem not_error {o : Obj F64} {c : Call F64} (h1 : means o "error" = some c) : isHealth o = true := by
  cases o <;> first | rfl | (simp [means, distributionLabel, rateLabel] at h1; done)

private theorem health_rows {w : World F64} {env : Env F64} {r : Ref} {o : Obj F64} {conv : Call F64 → Field F64 → Field F64} {rows : List (String × Field F64)}
    (h : Complete w env r o five conv rows) (ho : isHealth o = true) : ∃ v, rows = [("error", v)] := by
  cases o with
  | health x =>
    have hp := h.1
    match rows, hp with
    | [], hp => simpa [statsOf] using hp.length_eq
    | [row], hp =>
      have h2 : means (.health x : Obj F64) row.1 = some .error := by simpa [statsOf] using hp
      obtain ⟨l, v⟩ := row
      refine ⟨v, ?_⟩
      simp only [List.cons.injEq, Prod.mk.injEq, and_true]
      by_contra hne
      rw [show means (.health x : Obj F64) l = none by
        unfold means
        split <;> simp_all] at h2
      cases h2
    | _ :: _ :: _, hp => simpa [statsOf] using hp.length_eq
  | _ => cases ho

private theorem rendered_parts (errText : Nat → Str) {rows : List (String × Field F64)} {parts : List (List (Piece (Field F64)))}
    (h : List.Forall₂ (fun row l => l = textOf [32] ++ (textOf (bytes row.1) ++ (textOf (bytes ": ") ++ [.val (verb row.2) row.2]))) rows parts) :
    render errText parts.flatten = ((rows.map fun row => (bytes row.1, fmtValue errText (verb row.2) row.2)).map fun x => 32 :: (x.1 ++ 58 :: 32 :: x.2)).flatten := by
  have e2 : bytes ": " = [58, 32] := by decide
  have e3 : render errText [] = [] := rfl
  induction h with
  | nil => rfl
  | cons h _ ih =>
    subst h
    simp only [List.flatten_cons, List.map_cons]
    rw [render_append, ih]
    congr 1
    simp only [render_append, render_text, render_val, e2, e3]
    simp

/-- The message for a metric is read as its entry. -/
private theorem message_read {errText : Nat → Str} {w : World F64} {env : Env F64} {r : Ref} {name : Str} {o : Obj F64} {rows : List (String × Field F64)} {evs : List (Event F64)} (ho : w.objs r = some o)
    (hmet : o.isMetric = true) (hc : Complete w env r o five (fun _ v => v) rows) (hs : SyslogBlock name o rows evs) (hn : isHealth o = true → (58 : UInt8) ∉ name) :
    ∃ ev e, evs = [ev] ∧ readMessage (textOfEvents (render errText) [ev]) = some e ∧ IsEntry (fun row => SaysExactly errText row.2) name o rows e := by
  obtain ⟨⟨first, hf1, hf2⟩, hw, parts, rfl, hp⟩ := hs
  obtain ⟨-, -, -, -, k3, -⟩ := kindWord_ok hmet
  have htext : textOfEvents (render errText) [.print (textOf (bytes (kindWord o)) ++ (textOf [32] ++ (textOf name ++ (textOf [58] ++ parts.flatten))))] =
      bytes (kindWord o) ++ 32 :: (name ++ (58 :: ((rows.map fun row => (bytes row.1, fmtValue errText (verb row.2) row.2)).map fun x => 32 :: (x.1 ++ 58 :: 32 :: x.2)).flatten)) := by
    rw [printed_line]
    simp only [render_append, render_text, rendered_parts errText hp]
    simp
  have hrows : ∀ l : List (String × Field F64), List.Forall₂ (fun row x => x.1 = bytes row.1 ∧ SaysExactly errText row.2 x.2) l (l.map fun row => (bytes row.1, fmtValue errText (verb row.2) row.2)) := by
    intro l
    induction l with
    | nil => exact .nil
    | cons row l ih => exact .cons ⟨rfl, (fmtValue_says errText row.2).1⟩ ih
  cases hh : isHealth o with
  | true =>
    obtain ⟨v, rfl⟩ := health_rows hc hh
    have hk : bytes (kindWord o) = bytes "healthcheck" := by cases o <;> first | rfl | (cases hh; done)
    have e1 : bytes ": error: " = 58 :: bytes " error: " := by decide
    have e2 : bytes " error: " = 32 :: (bytes "error" ++ 58 :: 32 :: []) := by decide
    refine ⟨_, ⟨bytes (kindWord o), name, [(bytes "error", fmtValue errText (verb v) v)]⟩, rfl, ?_, rfl, rfl, hrows _⟩
    rw [htext, readMessage, cut_append k3]
    have h3 : name ++ 58 :: (([("error", v)].map fun row => (bytes row.1, fmtValue errText (verb row.2) row.2)).map fun x => 32 :: (x.1 ++ 58 :: 32 :: x.2)).flatten =
        name ++ (58 :: bytes " error: " ++ fmtValue errText (verb v) v) := by
      rw [e2]; simp
    rw [h3]
    simp only [hk, Option.bind_eq_bind, Option.bind_some, if_true, e1, cutAt_colon (hn hh)]
    rfl
  | false =>
    cases rows with
    | nil => simp at hf1
    | cons row rest =>
      simp only [List.head?_cons, Option.mem_some_iff] at hf1
      subst hf1
      have hk : bytes (kindWord o) ≠ bytes "healthcheck" := by
        have key : ∀ k ∈ ["counter", "gauge", "histogram", "meter", "timer"], bytes k ≠ bytes "healthcheck" := by decide
        cases o <;> first | (cases hh; done) | (cases hmet; done) | exact key _ (by simp [kindWord])
      have hnum := hc.numeric ho hh fun _ _ h => h
      have hfive : (five : List F64).Nodup := by decide +kernel
      have hnd : ((row :: rest).map fun x => bytes x.1).Nodup := by simpa [Function.comp_def] using hc.labels hfive
      obtain ⟨c, -, hmean⟩ := label_means hc (List.mem_cons_self ..)
      have hfirst : row.1 = "count" ∨ row.1 = "value" := by
        simp only [firstLabels, List.mem_cons, List.not_mem_nil, or_false] at hf2
        rcases hf2 with h | h | h
        · exact .inl h
        · exact .inr h
        · rw [h] at hmean
          rw [not_error hmean] at hh
          cases hh
      have hlater : ∀ x ∈ rest, bytes x.1 ≠ bytes "count" ∧ bytes x.1 ≠ bytes "value" := by
        intro x hx
        obtain ⟨d, -, hd⟩ := label_means hc (List.mem_cons_of_mem _ hx)
        have hne : bytes row.1 ≠ bytes x.1 := by
          rw [List.map_cons, List.nodup_cons] at hnd
          exact fun e => hnd.1 (e ▸ List.mem_map_of_mem hx)
        have hlab := means_mem hd
        have inj : ∀ l : String, l ∈ allLabels → bytes x.1 = bytes l → x.1 = l := fun l hl e => bytes_labels _ hlab _ hl e
        constructor
        · intro e
          have e' := inj "count" (by decide) e
          rcases hfirst with h | h
          · exact hne (by rw [h, e'])
          · rw [e'] at hd; rw [h] at hmean; exact count_not_value hd hmean
        · intro e
          have e' := inj "value" (by decide) e
          rcases hfirst with h | h
          · rw [e'] at hd; rw [h] at hmean; exact count_not_value hmean hd
          · exact hne (by rw [h, e'])
      refine ⟨_, ⟨bytes (kindWord o), name, (row :: rest).map fun row => (bytes row.1, fmtValue errText (verb row.2) row.2)⟩, rfl, ?_, rfl, rfl, hrows _⟩
      rw [htext, readMessage, cut_append k3]
      have h3 : ∀ t : Str, name ++ 58 :: t = (name ++ [58]) ++ t := fun t => by simp
      have h4 : splitOn 32 ((name ++ [58]) ++ (((row :: rest).map fun row => (bytes row.1, fmtValue errText (verb row.2) row.2)).map fun x => 32 :: (x.1 ++ 58 :: 32 :: x.2)).flatten) = _ :=
        words_rows (name ++ [58]) ((row :: rest).map fun row => (bytes row.1, fmtValue errText (verb row.2) row.2)) (by
          intro x hx
          obtain ⟨y, hy, rfl⟩ := List.mem_map.1 hx
          exact ⟨hw y hy, (fmtValue_spec errText (hnum y hy)).1.no (by decide)⟩)
      have h5 := readPairs_all (splitOn 32 (name ++ [58])).reverse (bytes row.1, fmtValue errText (verb row.2) row.2) (rest.map fun row => (bytes row.1, fmtValue errText (verb row.2) row.2))
        (by rcases hfirst with h | h <;> simp [h]) (by
          intro x hx
          obtain ⟨y, hy, rfl⟩ := List.mem_map.1 hx
          exact hlater y hy)
      simp only [Option.bind_eq_bind, Option.bind_some, hk, if_false]
      rw [h3, h4, List.reverse_append, List.map_cons, h5]
      simp only [Option.bind_some, List.reverse_reverse, joinWords_splitOn]
      simp

section
variable (h : List (Env F64 × Op F64)) (env : Env F64) (g : Reg) (id : Nat) (hb : base g = some id) (w' : World F64) (out : List (Event F64)) (errText : Nat → Str)
include hb

/-- **C98, writer.go.** What `WriteOnce` writes is read as a report on the metrics of the registry, in the order of their names, if names and error texts have no newlines. -/
theorem C98_writer (sorter : Sorter) (hd : writeOnce env sorter g (World.init.run h) = ((w', out), .ok ()))
    (hnames : ∀ name, gets (World.init.run h : World F64) id name ≠ none → (prefixes g).flatten <+: name → (10 : UInt8) ∉ name) (herr : ∀ e, (10 : UInt8) ∉ errText e) :
    ∃ es, readReport (textOfEvents (render errText) out) = some es ∧ (es.map Entry.name).Pairwise Before ∧
      ReportOf (World.init.run h) env id (prefixes g).flatten (fun _ _ v => v) (fun _ row => Says errText row.2) es := by
  obtain ⟨blocks, rfl, h2, h3, h4⟩ := C61_sorted h env sorter g id hb w' out hd
  have hnd : (blocks.map fun b => b.1).Nodup := h2.imp fun {a b} hab => by
    rintro rfl
    exact absurd ((before_iff a a).2 hab) (List.lt_irrefl a)
  obtain ⟨es, k1, k2, k3⟩ := reported_of (errText := errText) (env := env) (conv := fun _ _ v => v) (tells := fun _ row => Says errText row.2) hnd h3 (by
    intro name r evs hmem
    obtain ⟨g1, o, g2, rows, g3, g4⟩ := h4 name r evs hmem
    have hn := (h3 name).1 (List.mem_map.2 ⟨_, hmem, rfl⟩)
    obtain ⟨e, g5, g6⟩ := block_read herr (fun _ => by simp) (hnames name hn.1 hn.2) (isMetric_of (run_ok h) g1 g2) g4
      (fun row hr => by obtain ⟨c, -, hc⟩ := label_means g3 hr; exact label_no hc) (T := fun row => Says errText row.2) (fun row _ => by rw [List.append_nil]; exact (fmtValue_says errText row.2).2)
    exact ⟨o, rows, e, g1, g2, g3, g5, g6⟩)
  exact ⟨es, k1, by rw [k2]; exact h2, k3⟩

/-- **C98, log.go.** What `LogScaled` logs in a round (the messages one after the other) is read as a report on the metrics of the registry, if names and error texts have no newlines and the scale is 1 ns,
1 µs, 1 ms or 1 s; the durations of timers are read with this unit. -/
theorem C98_log (scale : Int64) (hs : scale.toInt ∈ [1, 1000, 1000000, 1000000000]) (hd : logScaled env g scale (World.init.run h) = ((w', out), .ok ()))
    (hnames : ∀ name, gets (World.init.run h : World F64) id name ≠ none → (prefixes g).flatten <+: name → (10 : UInt8) ∉ name) (herr : ∀ e, (10 : UInt8) ∉ errText e) :
    ∃ es, readReport (textOfEvents (render errText) out) = some es ∧
      ReportOf (World.init.run h) env id (prefixes g).flatten (fun o c v => if isTimer o && isDuration c then inUnit (GoFloat.ofInt scale.toInt) v else v)
        (fun o row => if isTimer o && (means o row.1).any isDuration then SaysIn scale.toInt row.2 else Says errText row.2) es := by
  obtain ⟨blocks, rfl, h2, h3, h4⟩ := C62_log h env g id hb w' out scale (durString scale) hd
  have hu : Names ((durString scale).drop 1) scale.toInt := names_tail.2 (.inr ⟨hs, 1, by omega, by omega, by omega⟩)
  obtain ⟨es, k1, -, k3⟩ := reported_of (errText := errText) (env := env) (conv := fun o c v => if isTimer o && isDuration c then inUnit (GoFloat.ofInt scale.toInt) v else v)
    (tells := fun o row => if isTimer o && (means o row.1).any isDuration then SaysIn scale.toInt row.2 else Says errText row.2) h2 h3 (by
    intro name r evs hmem
    obtain ⟨g1, o, g2, rows, g3, g4⟩ := h4 name r evs hmem
    have hn := (h3 name).1 (List.mem_map.2 ⟨_, hmem, rfl⟩)
    obtain ⟨e, g5, g6⟩ := block_read herr (fun l => by split; exact names_line hu; simp) (hnames name hn.1 hn.2) (isMetric_of (run_ok h) g1 g2) g4
      (fun row hr => by obtain ⟨c, -, hc⟩ := label_means g3 hr; exact label_no hc)
      (T := fun row => if isTimer o && (means o row.1).any isDuration then SaysIn scale.toInt row.2 else Says errText row.2) (fun row hr => by
        split
        · rename_i ht
          obtain ⟨c, hc, hmean⟩ := label_means g3 hr
          obtain ⟨v, hv, he⟩ := g3.2 row hr c hmean
          rw [hmean] at ht
          simp only [Option.any_some] at ht
          simp only [ht, if_true] at he
          have hh : isHealth o = false := by cases o <;> first | rfl | simp [isTimer] at ht
          have hnum := numeric_of_holds g2 hh (numericCall_stats hh c hc) hv
          have hfrac : (∃ x, row.2 = .float x) ∨ ∃ b, row.2 = .bits b := by
            rw [he]
            cases v with
            | int n => exact .inl ⟨_, rfl⟩
            | float f => exact .inl ⟨_, rfl⟩
            | bits b => exact .inr ⟨b, rfl⟩
            | errText e => exact hnum.elim
            | nil => exact hnum.elim
          have hplain := (fmtValue_spec errText (v := row.2) (by rcases hfrac with ⟨x, hx⟩ | ⟨x, hx⟩ <;> rw [hx] <;> trivial))
          have hne : fmtValue errText (verb row.2) row.2 ≠ [] := fun e => by obtain ⟨x, hx, -⟩ := hplain.2; rw [e, readNumber_nil] at hx; cases hx
          rw [dropSpaces_plain _ hplain.1 hne]
          rcases hfrac with ⟨x, hx⟩ | ⟨x, hx⟩
          · rw [hx]
            have e : fmtValue errText (verb (.float x : Field F64)) (.float x) = fmtFixed 2 x := padLeft_zero _
            rw [e]
            exact readQuantity_eq hu
          · rw [hx]
            have e : fmtValue errText (verb (.bits x : Field F64)) (.bits x) = fmtFixed 6 (.ofBits x) := padLeft_zero _
            rw [e]
            exact readQuantity_eq hu
        · rw [List.append_nil]; exact (fmtValue_says errText row.2).2)
    exact ⟨o, rows, e, g1, g2, g3, g5, g6⟩)
  exact ⟨es, k1, k3⟩

/-- **C98, syslog.go.** The messages that `Syslog` sends in a round are read as a report on the metrics of the registry, whatever their names and error texts are, except that names of healthchecks must not
contain colons. -/
theorem C98_syslog (hd : syslogOnce env g (World.init.run h) = ((w', out), .ok ()))
    (hnames : ∀ name r x, gets (World.init.run h : World F64) id name = some r → (prefixes g).flatten <+: name → (World.init.run h : World F64).objs r = some (.health x) → (58 : UInt8) ∉ name) :
    ∃ es, (out.map fun ev => textOfEvents (render errText) [ev]).mapM readMessage = some es ∧
      ReportOf (World.init.run h) env id (prefixes g).flatten (fun _ _ v => v) (fun _ row => SaysExactly errText row.2) es := by
  obtain ⟨blocks, rfl, h2, h3, h4⟩ := C62_syslog h env g id hb w' out hd
  have key : ∀ bs : List (Str × Ref × List (Event F64)), (∀ b ∈ bs, b ∈ blocks) → ∃ es : List Entry, ((bs.map fun b => b.2.2).flatten.map fun ev => textOfEvents (render errText) [ev]).mapM readMessage = some es ∧
      es.map Entry.name = bs.map (fun b => b.1) ∧ ∀ e ∈ es, ∃ r o rows, gets (World.init.run h : World F64) id e.name = some r ∧ (World.init.run h : World F64).objs r = some o ∧
        Complete (World.init.run h) env r o five (fun _ v => v) rows ∧ IsEntry (fun row => SaysExactly errText row.2) e.name o rows e := by
    intro bs
    induction bs with
    | nil => exact fun _ => ⟨[], rfl, rfl, by simp⟩
    | cons b bs ih =>
      intro hbs
      obtain ⟨es, k1, k2, k3⟩ := ih fun b hb => hbs b (by simp [hb])
      obtain ⟨name, r, evs⟩ := b
      have hmem := hbs _ (List.mem_cons_self ..)
      obtain ⟨g1, o, g2, rows, g3, g4⟩ := h4 name r evs hmem
      have hn := (h3 name).1 (List.mem_map.2 ⟨_, hmem, rfl⟩)
      obtain ⟨ev, e, rfl, g5, g6⟩ := message_read (errText := errText) g2 (isMetric_of (run_ok h) g1 g2) g3 g4 (fun hh => by
        cases o with
        | health x => exact hnames name r x g1 hn.2 g2
        | _ => cases hh)
      have hname := g6.2.1
      refine ⟨e :: es, ?_, by simp [k2, hname], ?_⟩
      · simp only [List.map_cons, List.flatten_cons, List.singleton_append, List.mapM_cons, g5, k1]
        rfl
      · intro e' he'
        rcases List.mem_cons.1 he' with rfl | he'
        · exact ⟨r, o, rows, by rw [hname]; exact g1, g2, g3, by rw [hname]; exact g6⟩
        · exact k3 e' he'
  obtain ⟨es, k1, k2, k3⟩ := key blocks fun _ h => h
  exact ⟨es, k1, by rw [k2]; exact h2, by rw [k2]; exact h3, k3⟩

end

/-! ### Examples and refutations -/

/-- What is read in the report of `WriteOnce` after the history `h`, if `WriteOnce` returns. -/
noncomputable def readBack (env : Env F64) (errText : Nat → Str) (h : List (Env F64 × Op F64)) : Option (List Entry) :=
  match writeOnce env byName (.std 0) (World.init.run h) with
  | ((_, out), .ok _) => readReport (textOfEvents (render errText) out)
  | _ => none

/-- What is read in the messages of `Syslog`. -/
noncomputable def readBackMessages (env : Env F64) (errText : Nat → Str) (h : List (Env F64 × Op F64)) : Option (List Entry) :=
  match syslogOnce env (.std 0) (World.init.run h) with
  | ((_, out), .ok _) => (out.map fun ev => textOfEvents (render errText) [ev]).mapM readMessage
  | _ => none

/-- A counter "my counter", a float gauge "f" and a healthcheck "x" that fails. -/
def reportHistory : List (Env F64 × Op F64) :=
  [(envAt 0, .new .counter), (envAt 0, .new .gaugeF), (envAt 0, .new (.health 0)), (envAt 1, .call 0 (.inc 3)), (envAt 1, .call 1 (.updateF 0xBFF8000000000000)),
   (envAt 1, .reg (.std 0) (.register (bytes "my counter") (.obj 0))), (envAt 1, .reg (.std 0) (.register (bytes "f") (.obj 1))), (envAt 1, .reg (.std 0) (.register (bytes "x") (.obj 2)))]

example : readBack (envAt 2) (fun _ => bytes "disk: full") reportHistory = some [⟨bytes "gauge", bytes "f", [(bytes "value", bytes "-1.500000")]⟩, ⟨bytes "counter", bytes "my counter", [(bytes "count", bytes "3")]⟩,
    ⟨bytes "healthcheck", bytes "x", [(bytes "error", bytes "disk: full")]⟩] := by decide +kernel
example : readBackMessages (envAt 2) (fun _ => bytes "disk: full") reportHistory = some [⟨bytes "healthcheck", bytes "x", [(bytes "error", bytes "disk: full")]⟩,
    ⟨bytes "gauge", bytes "f", [(bytes "value", bytes "-1.500000")]⟩, ⟨bytes "counter", bytes "my counter", [(bytes "count", bytes "3")]⟩] := by decide +kernel

-- The hypotheses hold for the registry with all seven kinds of metrics (`exportHistory`).
private theorem export_names {name : Str} (h : gets (World.init.run exportHistory : World F64) 0 name ≠ none) : name ∈ [bytes "c", bytes "g", bytes "f", bytes "x", bytes "h", bytes "m", bytes "t"] := by
  have hr : ((World.init.run exportHistory : World F64).regs 0).map Prod.fst = [bytes "t", bytes "m", bytes "h", bytes "x", bytes "f", bytes "g", bytes "c"] := by decide +kernel
  rw [gets_eq] at h
  obtain ⟨r, hr'⟩ := Option.ne_none_iff_exists'.1 h
  have := List.mem_map_of_mem (f := Prod.fst) (lookup_some_mem hr')
  rw [hr] at this
  revert this
  simp only [List.mem_cons, List.not_mem_nil, or_false]
  tauto
private theorem export_line {name : Str} (h : gets (World.init.run exportHistory : World F64) 0 name ≠ none) : (10 : UInt8) ∉ name ∧ (58 : UInt8) ∉ name := by
  have key : ∀ n ∈ [bytes "c", bytes "g", bytes "f", bytes "x", bytes "h", bytes "m", bytes "t"], (10 : UInt8) ∉ n ∧ (58 : UInt8) ∉ n := by decide
  exact key _ (export_names h)
private theorem ok_of {α : Type} {x : α × Res Unit} (h : isOk x.2 = true) : x = (x.1, .ok ()) := by
  rcases x with ⟨a, _ | _⟩
  · simp [isOk] at h
  · rfl

example : ∃ out es, (writeOnce (envAt 2) byName (.std 0) (World.init.run exportHistory : World F64)).1.2 = out ∧ readReport (textOfEvents (render fun _ => bytes "disk full") out) = some es ∧
    bytes "t" ∈ es.map Entry.name := by
  obtain ⟨es, h1, -, h2⟩ := C98_writer exportHistory (envAt 2) (.std 0) 0 rfl _ _ (fun _ => bytes "disk full") byName (ok_of (by decide +kernel)) (fun name h _ => (export_line h).1) (fun _ => by decide)
  exact ⟨_, es, rfl, h1, (h2.2.1 _).2 ⟨by decide +kernel, List.nil_prefix⟩⟩
example : ∃ out es, (logScaled (envAt 2) (.std 0) 1000000 (World.init.run exportHistory : World F64)).1.2 = out ∧ readReport (textOfEvents (render fun _ => bytes "disk full") out) = some es ∧
    bytes "t" ∈ es.map Entry.name := by
  obtain ⟨es, h1, h2⟩ := C98_log exportHistory (envAt 2) (.std 0) 0 rfl _ _ (fun _ => bytes "disk full") 1000000 (by decide) (ok_of (by decide +kernel)) (fun name h _ => (export_line h).1) (fun _ => by decide)
  exact ⟨_, es, rfl, h1, (h2.2.1 _).2 ⟨by decide +kernel, List.nil_prefix⟩⟩
example : ∃ out es, (syslogOnce (envAt 2) (.std 0) (World.init.run exportHistory : World F64)).1.2 = out ∧ (out.map fun ev => textOfEvents (render fun _ => bytes "disk full") [ev]).mapM readMessage = some es ∧
    bytes "t" ∈ es.map Entry.name := by
  obtain ⟨es, h1, h2⟩ := C98_syslog exportHistory (envAt 2) (.std 0) 0 rfl _ _ (fun _ => bytes "disk full") (ok_of (by decide +kernel)) (fun name r x h _ _ => (export_line (by rw [h]; simp)).2)
  exact ⟨_, es, rfl, h1, (h2.2.1 _).2 ⟨by decide +kernel, List.nil_prefix⟩⟩

/-- One counter, of value 3, with newlines in its name. -/
def forgedReport : List (Env F64 × Op F64) :=
  [(envAt 0, .new .counter), (envAt 1, .call 0 (.inc 3)), (envAt 1, .reg (.std 0) (.register (bytes "a\n  count: 99\ncounter b") (.obj 0)))]

private theorem single_name {h : List (Env F64 × Op F64)} {n name : Str} (hr : (World.init.run h : World F64).regs 0 = [(n, 0)]) (hn : gets (World.init.run h : World F64) 0 name ≠ none) : name = n := by
  rw [gets_eq, hr, lookup_cons] at hn
  by_contra hne
  rw [if_neg fun e => hne e.symm] at hn
  exact hn rfl

/-- **C98, refuted for names with newlines.** There is a registry with a single counter, whose value is 3, and its report is read as two counters, one of them with the value 99. -/
theorem C98_newline_refuted : ∃ h : List (Env F64 × Op F64), (∀ name, gets (World.init.run h : World F64) 0 name ≠ none → name = bytes "a\n  count: 99\ncounter b") ∧
    observe (World.init.run h : World F64) (envAt 2) 0 .count = .ok (.int 3) ∧
    readBack (envAt 2) (fun _ => bytes "disk full") h = some [⟨bytes "counter", bytes "a", [(bytes "count", bytes "99")]⟩, ⟨bytes "counter", bytes "b", [(bytes "count", bytes "3")]⟩] :=
  ⟨forgedReport, fun name hname => single_name (by decide +kernel) hname, rfl, by decide +kernel⟩

/-- The same environment with check functions that find nothing wrong. -/
def healthyEnv : Env F64 := { envAt 2 with checkFn := fun _ => [.healthy] }

/-- **C98, refuted for healthchecks.** There is a registry with a healthcheck `x` such that the reports of `WriteOnce` and `Syslog` do not tell whether the check has failed: they are the same after a check
that fails with an error of the text `<nil>` and after a check that does not fail. -/
theorem C98_nil_refuted : ∃ h : List (Env F64 × Op F64),
    observe (checked (envAt 2) (World.init.run h : World F64) 0) (envAt 2) 0 .error = .ok (.err (some 1)) ∧
    observe (checked healthyEnv (World.init.run h : World F64) 0) healthyEnv 0 .error = .ok (.err none) ∧
    ∀ env ∈ [envAt 2, healthyEnv], readBack env (fun _ => bytes "<nil>") h = some [⟨bytes "healthcheck", bytes "x", [(bytes "error", bytes "<nil>")]⟩] ∧
      readBackMessages env (fun _ => bytes "<nil>") h = some [⟨bytes "healthcheck", bytes "x", [(bytes "error", bytes "<nil>")]⟩] := by
  refine ⟨[(envAt 0, .new (.health 0)), (envAt 1, .reg (.std 0) (.register (bytes "x") (.obj 0)))], rfl, rfl, ?_⟩
  intro env he
  simp only [List.mem_cons, List.not_mem_nil, or_false] at he
  rcases he with rfl | rfl <;> exact ⟨by decide +kernel, by decide +kernel⟩

/-- **C98, refuted for colons in names of healthchecks.** There is a registry with a single healthcheck, and the message about it is read as one about a healthcheck of another name. -/
theorem C98_colon_refuted : ∃ h : List (Env F64 × Op F64), (∀ name, gets (World.init.run h : World F64) 0 name ≠ none → name = bytes "a: error: b") ∧
    readBackMessages (envAt 2) (fun _ => bytes "disk full") h = some [⟨bytes "healthcheck", bytes "a", [(bytes "error", bytes "b: error: disk full")]⟩] :=
  ⟨[(envAt 0, .new (.health 0)), (envAt 1, .reg (.std 0) (.register (bytes "a: error: b") (.obj 0)))], fun name hname => single_name (by decide +kernel) hname, by decide +kernel⟩

end GoMetrics
