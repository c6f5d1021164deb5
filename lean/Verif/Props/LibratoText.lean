import Verif.Lemmas.LibratoText
import Verif.Props.Librato
import Verif.Props.LibratoClient

/-! Property theorems C92: what the Librato server reads in the body of a request. -/

set_option linter.unusedSectionVars false

namespace GoMetrics
open Spec

/-- The text functions of `encoding/json`; there are no errors in a batch. -/
abbrev libratoJson (sh : Shortest) (short : Bool) : JsonText F64 := goJson sh short fun _ => []

section
variable (sh : Shortest) (short : Bool) (timer : TimerAttributes)

/-- C92: `json.Marshal` of a batch fails exactly if a number is NaN or infinite. (Model/LibratoClient takes that for granted.) -/
theorem C92_marshal (b : Batch F64) : batchText (libratoJson sh short) timer b = none ↔ ∃ v ∈ b.numbers, ¬ representable v := by
  constructor
  · intro h
    by_contra hn
    push Not at hn
    obtain ⟨text, doc, h1, -⟩ := batch_read sh short timer b hn
    rw [h1] at h
    cases h
  · rintro ⟨v, h1, h2⟩
    exact batch_none timer _ b v h1 h2

/-- C92: whatever names, source and numbers a batch has (as long as these are finite), a JSON parser reads the text as exactly the batch. -/
theorem C92_reads (b : Batch F64) (hn : ∀ v ∈ b.numbers, representable v) :
    ∃ doc, readJson (libratoBody (libratoJson sh short) timer b) = some doc ∧ BatchDenotes timer b doc := by
  obtain ⟨text, doc, h1, h2, h3⟩ := batch_read sh short timer b hn
  exact ⟨doc, by rw [libratoBody, h1]; exact (readJson_of h2).1, h3⟩

private theorem post_cases (answer : HttpAnswer) (b : Batch F64) (s : HttpS) (text : Batch F64 → Str) :
    (postMetrics text answer b s).1.posted = s.posted ∨
      (postMetrics text answer b s).1.posted = s.posted ++ [text b] ∧ (b.counters ≠ [] ∨ b.gauges ≠ []) ∧ ∀ v ∈ b.numbers, representable v := by
  by_cases h1 : b.counters = [] ∧ b.gauges = []
  · left; rw [C80_empty text answer b s h1.1 h1.2]
  · by_cases h2 : ∀ v ∈ b.numbers, representable v
    · have h1 : b.counters ≠ [] ∨ b.gauges ≠ [] := by tauto
      exact .inr ⟨(C80_posted text answer b s h1 h2).1, h1, h2⟩
    · push Not at h2
      obtain ⟨v, h3, h4⟩ := h2
      left; rw [C80_nan text answer b s v h3 h4]

/-- C92: everything that `Run` ever posts, in however many rounds, whatever the program and the server do meanwhile, is the JSON text of a batch that `BuildRequest` made in one of the rounds, and
never an empty one. -/
theorem C92_run (cfg : Reporter F64) (g : Reg) (ts : List (LibratoTick F64)) (w : World F64) (w' : World F64) (s' : HttpS) (log : List (Option PostErr)) (p : Option Panic)
    (h : libratoRun cfg g (libratoBody (libratoJson sh short) timer) ts w {} [] = (w', s', log, p)) (body : Str) (hb : body ∈ s'.posted) :
    ∃ t ∈ ts, ∃ w1 w2 b doc, buildRequest t.env cfg t.now g w1 = (w2, .ok b) ∧ readJson body = some doc ∧ BatchDenotes timer b doc ∧ (b.counters ≠ [] ∨ b.gauges ≠ []) := by
  have key : ∀ (ts : List (LibratoTick F64)) (w : World F64) (s : HttpS) (l : List (Option PostErr)), libratoRun cfg g (libratoBody (libratoJson sh short) timer) ts w s l = (w', s', log, p) →
      body ∈ s.posted ∨ ∃ t ∈ ts, ∃ w1 w2 b doc, buildRequest t.env cfg t.now g w1 = (w2, .ok b) ∧ readJson body = some doc ∧ BatchDenotes timer b doc ∧ (b.counters ≠ [] ∨ b.gauges ≠ []) := by
    intro ts
    induction ts with
    | nil =>
      intro w s l h
      cases h
      exact .inl hb
    | cons t ts ih =>
      intro w s l h
      rw [libratoRun, libratoRound] at h
      rcases hq : buildRequest t.env cfg t.now g (w.run t.before) with ⟨w2, q | b⟩
      · rw [hq] at h
        cases h
        exact .inl hb
      · rw [hq] at h
        rcases ih _ _ _ h with h1 | ⟨t', h1, h2⟩
        · rcases post_cases t.answer b s (libratoBody (libratoJson sh short) timer) with h2 | ⟨h2, h3, h4⟩
          · rw [h2] at h1; exact .inl h1
          · rw [h2] at h1
            rcases List.mem_append.1 h1 with h1 | h1
            · exact .inl h1
            · rw [List.mem_singleton] at h1
              subst h1
              obtain ⟨doc, h5, h6⟩ := C92_reads sh short timer b h4
              exact .inr ⟨t, by simp, _, w2, b, doc, hq, h5, h6, h3⟩
        · exact .inr ⟨t', by simp [h1], h2⟩
  rcases key ts w {} [] h with h1 | h1
  · simp at h1
  · exact h1

private theorem elements_of {doc : Json} {k : String} {ms : List (Measurement F64)} (h : MeasurementsDenote timer doc k ms) : List.Forall₂ (MeasurementDenotes timer) ms (elements doc k) := by
  unfold MeasurementsDenote at h
  split_ifs at h with h0
  · subst h0
    have : doc.member (keyOf k) = [] := h
    simp [elements, this]
  · obtain ⟨x, h1, js, rfl, h2⟩ := h
    simpa [elements, h1] using h2

private theorem forall2_left {α β : Type} {P : α → β → Prop} {l : List α} {m : List β} (h : List.Forall₂ P l m) {a : α} (ha : a ∈ l) : ∃ b ∈ m, P a b := by
  induction h with
  | nil => simp at ha
  | cons h1 _ ih =>
    rcases List.mem_cons.1 ha with rfl | ha
    · exact ⟨_, by simp, h1⟩
    · obtain ⟨b, hb, hp⟩ := ih ha
      exact ⟨b, by simp [hb], hp⟩

/-- C92, the whole way: after any history, if the batch of a round is not empty and has only finite numbers, then the round posts one text, in which a JSON parser finds the source, and, for every metric of the
registry, the counters and gauges that `LibratoBlock` lists, with what the accessors of the metric return; and nothing else. -/
theorem C92_metrics (h : List (Env F64 × Op F64)) (env : Env F64) (g : Reg) (id : Nat) (hb : base g = some id) (d now : Int64) (ns source : Str) (ps : List F64) (w' : World F64) (b : Batch F64)
    (hr : buildRequest env { newReporter d source ps with namesp := ns } now g (World.init.run h) = (w', .ok b)) (hne : b.counters ≠ [] ∨ b.gauges ≠ []) (hn : ∀ v ∈ b.numbers, representable v)
    (answer : HttpAnswer) (s : HttpS) :
    ∃ body doc res, libratoRound env { newReporter d source ps with namesp := ns } g (libratoBody (libratoJson sh short) timer) now answer (World.init.run h) s = (w', res) ∧
      res.1.posted = s.posted ++ [body] ∧ readJson body = some doc ∧ Has doc "source" (some source) IsText ∧
      (∀ name r o, gets (World.init.run h : World F64) id name = some r → (prefixes g).flatten <+: name → (World.init.run h : World F64).objs r = some o →
        ∃ cs gs, LibratoBlock (World.init.run h) env ps (libratoName ns name) r o cs gs ∧ (∀ m ∈ cs, ∃ j ∈ elements doc "counters", MeasurementDenotes timer m j) ∧
          ∀ m ∈ gs, ∃ j ∈ elements doc "gauges", MeasurementDenotes timer m j) ∧
      ∀ j ∈ elements doc "counters" ++ elements doc "gauges", ∃ name r o cs gs, gets (World.init.run h : World F64) id name = some r ∧ (prefixes g).flatten <+: name ∧
        (World.init.run h : World F64).objs r = some o ∧ LibratoBlock (World.init.run h) env ps (libratoName ns name) r o cs gs ∧ ∃ m ∈ cs ++ gs, MeasurementDenotes timer m j := by
  obtain ⟨h1, ⟨blocks, h2, h3, h4, h5, h6⟩, -⟩ := C67_batch_partial h env g id hb d now ns source ps w' b hr
  obtain ⟨doc, h7, h8, -, h9, h10, h11⟩ := C92_reads sh short timer b hn
  have e1 := elements_of timer h10
  have e2 := elements_of timer h11
  refine ⟨_, doc, _, by simp only [libratoRound, hr]; rfl, (C80_posted _ answer b s hne hn).1, h7, by rw [h1] at h9; exact h9, ?_, ?_⟩
  · intro name r o g1 g2 g3
    have : name ∈ blocks.map fun b => b.1 := (h5 name).2 ⟨by rw [g1]; simp, g2⟩
    obtain ⟨⟨name', r', cs, gs⟩, hm, rfl⟩ := List.mem_map.1 this
    obtain ⟨k1, o', k2, k3, -⟩ := h6 _ _ _ _ hm
    obtain rfl : r' = r := Option.some.inj (k1.symm.trans g1)
    obtain rfl : o' = o := Option.some.inj (k2.symm.trans g3)
    refine ⟨cs, gs, k3, fun m hmm => forall2_left e1 ?_, fun m hmm => forall2_left e2 ?_⟩
    · rw [h2]; exact List.mem_flatten.2 ⟨cs, List.mem_map.2 ⟨_, hm, rfl⟩, hmm⟩
    · rw [h3]; exact List.mem_flatten.2 ⟨gs, List.mem_map.2 ⟨_, hm, rfl⟩, hmm⟩
  · intro j hj
    obtain ⟨m, hm, hd⟩ : ∃ m ∈ b.counters ++ b.gauges, MeasurementDenotes timer m j := by
      rcases List.mem_append.1 hj with hj | hj
      · obtain ⟨m, hm, hd⟩ := forall2_left e1.flip hj
        exact ⟨m, by simp [hm], hd⟩
      · obtain ⟨m, hm, hd⟩ := forall2_left e2.flip hj
        exact ⟨m, by simp [hm], hd⟩
    rw [h2, h3] at hm
    obtain ⟨⟨name, r, cs, gs⟩, hm1, hm2⟩ : ∃ x ∈ blocks, m ∈ x.2.2.1 ++ x.2.2.2 := by
      rcases List.mem_append.1 hm with hm | hm <;> obtain ⟨l, hl, hm⟩ := List.mem_flatten.1 hm <;> obtain ⟨x, hx, rfl⟩ := List.mem_map.1 hl
      · exact ⟨x, hx, by simp [hm]⟩
      · exact ⟨x, hx, by simp [hm]⟩
    obtain ⟨k1, o, k2, k3, -⟩ := h6 _ _ _ _ hm1
    exact ⟨name, r, o, cs, gs, k1, ((h5 name).1 (List.mem_map.2 ⟨_, hm1, rfl⟩)).2, k2, k3, m, hm2, hd⟩

/-- C92, names that are UTF-8: the name in the document is the one of the measurement, for different names different ones. -/
theorem C92_names (m m' : Measurement F64) (j j' : Json) (h : MeasurementDenotes timer m j) (h' : MeasurementDenotes timer m' j') (hu : ValidText (nameText m)) (hu' : ValidText (nameText m'))
    (e : j.member (keyOf "name") = j'.member (keyOf "name")) : nameText m = nameText m' := by
  obtain ⟨-, ⟨x, h1, rfl⟩, -⟩ := h
  obtain ⟨-, ⟨y, h2, rfl⟩, -⟩ := h'
  rw [h1, h2] at e
  obtain ⟨cs, k1, e1⟩ := hu
  obtain ⟨cs', k2, e2⟩ := hu'
  simp only [List.cons.injEq, Json.str.injEq, and_true] at e
  rw [e1, e2, chars_text k1, chars_text k2] at e
  rw [e1, e2, e]

/-- C92 is false for other names: two batches with different names have the same text. -/
theorem C92_names_refuted : ∃ b b' : Batch F64, b.gauges.map nameText ≠ b'.gauges.map nameText ∧ (∀ v ∈ b.numbers ++ b'.numbers, representable v) ∧
    libratoBody (libratoJson sh short) timer b = libratoBody (libratoJson sh short) timer b' := by
  refine ⟨⟨5, [], [], [{ name := textOf [0xFF], value := some (.int 1), period := .int 1 }]⟩, ⟨5, [], [], [{ name := textOf [0xFE], value := some (.int 1), period := .int 1 }]⟩, by decide +kernel, ?_, ?_⟩
  · simp [Batch.numbers, Measurement.numbers, representable]
  · have : jsonQuote short (render (fun _ => []) (textOf [0xFF])) = jsonQuote short (render (fun _ => []) (textOf [0xFE])) := by cases short <;> decide +kernel
    simp only [libratoBody, batchText, measurementsText, measurementText, List.map, List.length_cons, List.length_nil, goJson, this]

end

/-! ### Examples -/

-- A counter "c" with 3, and a gauge named `"µ` with 5.
private def textHistory : List (Env F64 × Op F64) :=
  [(envAt 0, .new .counter), (envAt 0, .new .gauge), (envAt 1, .call 0 (.inc 3)), (envAt 1, .call 1 (.update 5)), (envAt 1, .reg (.std 0) (.register (bytes "c") (.obj 0))),
   (envAt 1, .reg (.std 0) (.register (bytes "\"µ") (.obj 1)))]

private def textReporter : Reporter F64 := { newReporter 60000000000 (bytes "host") [] with namesp := bytes "n" }

/-- The hypotheses of `C92_metrics` can be met. -/
example : ∃ w' b, buildRequest (envAt 2) textReporter 1000 (.std 0) (World.init.run textHistory : World F64) = (w', .ok b) ∧ b.counters.map nameText = [bytes "n.c.count"] ∧
    b.gauges.map nameText = [bytes "n.\"µ"] ∧ ∀ v ∈ b.numbers, representable v := by
  rcases h : buildRequest (envAt 2) textReporter 1000 (.std 0) (World.init.run textHistory : World F64) with ⟨w', _ | b⟩
  · have : (match (buildRequest (envAt 2) textReporter 1000 (.std 0) (World.init.run textHistory : World F64)).2 with | .ok _ => true | .error _ => false) = true := by decide +kernel
    rw [h] at this
    cases this
  · have : (match (buildRequest (envAt 2) textReporter 1000 (.std 0) (World.init.run textHistory : World F64)).2 with
        | .ok b => decide (b.counters.map nameText = [bytes "n.c.count"]) && decide (b.gauges.map nameText = [bytes "n.\"µ"]) && !b.numbers.any notNumberField
        | .error _ => false) = true := by decide +kernel
    rw [h] at this
    simp only [Bool.and_eq_true, decide_eq_true_eq, Bool.not_eq_true'] at this
    exact ⟨w', b, rfl, this.1.1, this.1.2, (any_notNumber _).1 this.2⟩

-- A text, in full. (It contains no floats.)
example : libratoBody { int := fun n => fmtInt n.toInt, float := fun _ => [], bits := fun _ => [], quote := jsonQuote true, errText := fun _ => [] } (translateTimerAttributes 1000000)
    ⟨5, bytes "a", [{ name := textOf (bytes "n\""), value := some (.int 7), period := .int 60, attributes := .operations }],
      [{ name := textOf (bytes "t"), count := some 3, period := .int 60, attributes := .timer }, { name := textOf (bytes "<"), value := some (.int (-1)), period := .int 60 }]⟩ =
  bytes ("{\"gauges\":[{\"attributes\":{\"display_transform\":\"x/1000000\",\"display_units_short\":\"ms\"},\"count\":3,\"name\":\"t\",\"period\":60},{\"name\":\"\\u003c\",\"period\":60,\"value\":-1}]," ++
    "\"counters\":[{\"attributes\":{\"display_min\":\"0\",\"display_units_long\":\"operations\",\"display_units_short\":\"ops\"},\"name\":\"n\\\"\",\"period\":60,\"value\":7}],\"measure_time\":5,\"source\":\"a\"}") := by
  decide +kernel

end GoMetrics
