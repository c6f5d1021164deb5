import Verif.Lemmas.ExpvarText
import Verif.Props.Expvar
import Verif.Props.JsonRead

/-! C91: the response of the expvar handler as a JSON text. -/

set_option linter.unusedSectionVars false

namespace GoMetrics
open Spec

/-- The value of a variable is read as its content, or, if that is not finite, not at all. -/
private theorem value_read (p : ExpText) (k : Str) (x : Var F64) (ho : x = .other → ∃ j, ReadAs (p.other k) j) :
    ∃ v : Option Json, Sound (k, p.value k x, v) ∧ (v ≠ none ↔ FiniteVar x) ∧ ∀ j, v = some j → VarDenotes x j ∧ (x = .other → ReadAs (p.other k) j) := by
  have bad : ∀ t, NoValue t → p.value k x = t → ¬ FiniteVar x → ∃ v : Option Json, Sound (k, p.value k x, v) ∧ (v ≠ none ↔ FiniteVar x) ∧ ∀ j, v = some j → VarDenotes x j ∧ (x = .other → ReadAs (p.other k) j) := by
    rintro t h1 rfl h2
    exact ⟨none, h1, by simp [h2], by simp⟩
  have num : ∀ r : ℚ, (∀ rest, Delim rest → readNum (p.value k x ++ rest) = some (r, rest)) → FiniteVar x → x ≠ .other → VarDenotes x (.num r) →
      ∃ v : Option Json, Sound (k, p.value k x, v) ∧ (v ≠ none ↔ FiniteVar x) ∧ ∀ j, v = some j → VarDenotes x j ∧ (x = .other → ReadAs (p.other k) j) := by
    intro r h1 h2 h3 h4
    refine ⟨some (.num r), readAs_num h1, by simp [h2], ?_⟩
    rintro j hj
    cases hj
    exact ⟨h4, fun e => absurd e h3⟩
  cases x with
  | int n => exact num _ (fun rest hr => readNum_int n.toInt hr) trivial (by simp) rfl
  | other =>
    obtain ⟨j, hj⟩ := ho rfl
    refine ⟨some j, hj, by simp [FiniteVar], ?_⟩
    rintro j' hj'
    cases hj'
    exact ⟨trivial, fun _ => hj⟩
  | float v =>
    cases v with
    | float x =>
      by_cases hx : ∃ q, x = .fin q
      · obtain ⟨q, rfl⟩ := hx
        obtain ⟨r, h1, h2⟩ := gFloat_read p.shortest q
        exact num r h2 ⟨q, rfl⟩ (by simp) ⟨q, r, rfl, rfl, h1⟩
      · exact bad _ (gFloat_bad p.shortest hx) rfl hx
    | bits b =>
      by_cases hx : ∃ q, F64.ofBits b = .fin q
      · obtain ⟨q, hq⟩ := hx
        obtain ⟨r, h1, h2⟩ := gFloat_read p.shortest q
        refine num r (fun rest hr => ?_) ⟨q, hq⟩ (by simp) ⟨r, rfl, by rw [h1, ofBits_round hq, hq]⟩
        show readNum (gFloat p.shortest (.ofBits b) ++ rest) = _
        rw [hq]
        exact h2 rest hr
      · exact bad _ (gFloat_bad p.shortest hx) rfl hx
    | int n => exact bad _ question_bad rfl (by simp [FiniteVar])
    | errText e => exact bad _ question_bad rfl (by simp [FiniteVar])
    | nil => exact bad _ question_bad rfl (by simp [FiniteVar])

private theorem entries_text (p : ExpText) (vars : Str → Option (Var F64)) : ∀ (keys : List Str) (es : List (Str × Str × Option Json)),
    List.Forall₂ (fun k e => e.1 = k ∧ ∃ x, vars k = some x ∧ e.2.1 = p.value k x) keys es → ∀ first,
    expEntries p vars first keys = (if first ∨ es = [] then [] else [44, 10]) ++ List.intercalate [44, 10] (es.map (entryText p.printer)) := by
  intro keys es h
  induction h with
  | nil => intro first; simp [expEntries]
  | @cons k e keys es h1 h2 ih =>
    intro first
    obtain ⟨k', t, v⟩ := e
    obtain ⟨rfl, x, hx, rfl⟩ : k' = k ∧ _ := h1
    have eb : bytes ",\n" = [44, 10] := by decide
    have ec : bytes ": " = [58, 32] := by decide
    rw [expEntries, hx]
    simp only [ih, eb, ec, List.map_cons, Bool.false_eq_true, false_or, List.cons_ne_nil, or_false]
    rw [show entryText p.printer (k', p.value k' x, v) = goQuote p.printer k' ++ [58, 32] ++ p.value k' x by simp [entryText]]
    cases es with
    | nil => simp
    | cons e es =>
      rw [List.map_cons, intercalate_cons, intercalate_cons]
      simp

/-- What is written and what can be read, entry by entry. -/
private theorem response_entries (p : ExpText) {keys : List Str} {vars : Str → Option (Var F64)} (hk : ∀ k ∈ keys, vars k ≠ none) (ho : ∀ k, vars k = some .other → ∃ j, ReadAs (p.other k) j) :
    ∃ es : List (Str × Str × Option Json), expResponse p keys vars = [123, 10] ++ List.intercalate [44, 10] (es.map (entryText p.printer)) ++ [10, 125, 10] ∧ es.map Prod.fst = keys ∧
      ∀ e ∈ es, Sound e ∧ ∃ x, vars e.1 = some x ∧ (e.2.2 ≠ none ↔ FiniteVar x) ∧ ∀ j, e.2.2 = some j → VarDenotes x j ∧ (x = .other → ReadAs (p.other e.1) j) := by
  have : ∃ es : List (Str × Str × Option Json), List.Forall₂ (fun k e => e.1 = k ∧ ∃ x, vars k = some x ∧ e.2.1 = p.value k x) keys es ∧ es.map Prod.fst = keys ∧
      ∀ e ∈ es, Sound e ∧ ∃ x, vars e.1 = some x ∧ (e.2.2 ≠ none ↔ FiniteVar x) ∧ ∀ j, e.2.2 = some j → VarDenotes x j ∧ (x = .other → ReadAs (p.other e.1) j) := by
    induction keys with
    | nil => exact ⟨[], .nil, rfl, by simp⟩
    | cons k keys ih =>
      obtain ⟨es, h1, h2, h3⟩ := ih fun k hk' => hk k (by simp [hk'])
      obtain ⟨x, hx⟩ := Option.ne_none_iff_exists'.1 (hk k (by simp))
      obtain ⟨v, g1, g2, g3⟩ := value_read p k x fun e => ho k (by rw [hx, e])
      refine ⟨(k, p.value k x, v) :: es, .cons ⟨rfl, x, hx, rfl⟩ h1, by simp [h2], ?_⟩
      intro e he
      rcases List.mem_cons.1 he with rfl | he
      · exact ⟨g1, x, hx, g2, g3⟩
      · exact h3 e he
  obtain ⟨es, h1, h2, h3⟩ := this
  refine ⟨es, ?_, h2, h3⟩
  rw [expResponse, entries_text p vars keys es h1 true, show bytes "{\n" = [123, 10] by decide, show bytes "\n}\n" = [10, 125, 10] by decide]
  simp

section
variable (p : ExpText) (keys : List Str) (vars : Str → Option (Var F64)) (hk : AllKeys keys vars) (ho : ∀ k, vars k = some .other → ∃ j, ReadAs (p.other k) j)
include hk ho

/-- C91, exactly when the response is a JSON text: if all names, those of the metrics and those of other variables, are of safe characters, and no variable is NaN or infinite. One variable that is
not spoils the whole response. -/
theorem C91_valid : (∃ doc, readJson (expResponse p keys vars) = some doc) ↔ ∀ n x, vars n = some x → SafeName p.printer.isPrint n ∧ FiniteVar x := by
  obtain ⟨es, h1, h2, h3⟩ := response_entries p (fun k hk' => (hk.2 k).1 hk') ho
  obtain ⟨r1, r2⟩ := response_read p.printer es fun e he => (h3 e he).1
  have hall : (∀ x ∈ es, SafeName p.printer.isPrint x.1 ∧ x.2.2 ≠ none) ↔ ∀ n x, vars n = some x → SafeName p.printer.isPrint n ∧ FiniteVar x := by
    constructor
    · intro h n x hx
      have hn : n ∈ es.map Prod.fst := by rw [h2]; exact (hk.2 n).2 (by rw [hx]; simp)
      obtain ⟨e, he, rfl⟩ := List.mem_map.1 hn
      obtain ⟨-, x', hx', g, -⟩ := h3 e he
      rw [hx] at hx'
      cases hx'
      exact ⟨(h e he).1, g.1 (h e he).2⟩
    · intro h e he
      obtain ⟨-, x, hx, g, -⟩ := h3 e he
      exact ⟨(h e.1 x hx).1, g.2 (h e.1 x hx).2⟩
  rw [← hall, h1]
  constructor
  · rintro ⟨doc, hd⟩
    by_contra hn
    rw [r2 hn] at hd
    simp at hd
  · exact fun h => ⟨_, r1 h⟩

/-- C91: and then a reader finds, under the name of each variable, once, its value, and nothing under other names. -/
theorem C91_lookup (hg : ∀ n x, vars n = some x → SafeName p.printer.isPrint n ∧ FiniteVar x) : ∃ doc, readJson (expResponse p keys vars) = some doc ∧
    ∀ cs : List Nat, (∀ c ∈ cs, Scalar c) → (vars (utf8Text cs) = none → doc.member cs = []) ∧
      ∀ x, vars (utf8Text cs) = some x → ∃ j, doc.member cs = [j] ∧ VarDenotes x j ∧ (x = .other → ReadAs (p.other (utf8Text cs)) j) := by
  obtain ⟨es, h1, h2, h3⟩ := response_entries p (fun k hk' => (hk.2 k).1 hk') ho
  obtain ⟨r1, -⟩ := response_read p.printer es fun e he => (h3 e he).1
  have hr := r1 fun e he => by
    obtain ⟨-, x, hx, g, -⟩ := h3 e he
    exact ⟨(hg e.1 x hx).1, g.2 (hg e.1 x hx).2⟩
  rw [← h1] at hr
  refine ⟨_, hr, fun cs hcs => ?_⟩
  have hkeys : ((es.map fun x => (chars x.1, x.2.2.getD .null)).map Prod.fst) = keys.map chars := by rw [← h2]; simp only [List.map_map, Function.comp_def]
  have valid : ∀ n ∈ keys, ∃ ds, (∀ c ∈ ds, Scalar c) ∧ n = utf8Text ds := by
    intro n hn
    obtain ⟨x, hx⟩ := Option.ne_none_iff_exists'.1 ((hk.2 n).1 hn)
    obtain ⟨⟨ds, g1, g2⟩, -⟩ := hg n x hx
    exact ⟨ds, fun c hc => (g1 c hc).1, g2⟩
  refine ⟨fun hn => member_none ?_, fun x hx => ?_⟩
  · rw [hkeys]
    intro hm
    obtain ⟨n, hm, e⟩ := List.mem_map.1 hm
    obtain ⟨ds, g1, rfl⟩ := valid n hm
    rw [chars_text g1] at e
    rw [← e] at hn
    exact (hk.2 _).1 hm hn
  · have hm : utf8Text cs ∈ es.map Prod.fst := by rw [h2]; exact (hk.2 _).2 (by rw [hx]; simp)
    obtain ⟨e, he, hes⟩ := List.mem_map.1 hm
    obtain ⟨-, x', hx', g1, g2⟩ := h3 e he
    rw [hes, hx] at hx'
    cases hx'
    obtain ⟨j, hj⟩ := Option.ne_none_iff_exists'.1 (g1.2 (hg _ x hx).2)
    rw [hes] at g2
    refine ⟨j, member_one ?_ ?_, g2 j hj⟩
    · rw [hkeys]
      refine List.Nodup.map_on (fun a ha b hb e => ?_) hk.1
      obtain ⟨ds, k1, rfl⟩ := valid a ha
      obtain ⟨ds', k2, rfl⟩ := valid b hb
      rw [chars_text k1, chars_text k2] at e
      rw [e]
    · exact List.mem_map.2 ⟨e, he, by rw [hes, chars_text hcs, hj]; rfl⟩
end

/-- C91 for the metrics: under the conditions of C66, if all names are safe and all values finite, then the response is JSON, and a reader finds in it, under the name of each variable that belongs
to one metric only, the current value of that metric. -/
theorem C91_metric [GoSqrt F64] [GoExp F64] (p : ExpText) (kind : Str → Option Bool) (w : World F64) (s : Expvar F64) (hr : ExpRun kind (w, s)) (env : Env F64) (g : Reg) (id : Nat) (hb : base g = some id)
    (hh : NoHealth w id (prefixes g).flatten) (hsn : SnapshotsReturn w env id (prefixes g).flatten) (hl : SamplesFit w) (hkw : Kinds kind w id (prefixes g).flatten)
    (ho : ∀ k, s.vars k = some .other → ∃ j, ReadAs (p.other k) j)
    (hold : ∀ n x, s.vars n = some x → SafeName p.printer.isPrint n ∧ FiniteVar x)
    (hnew : ∀ n name r o label x, Owns w id (prefixes g).flatten n name r o label → ShowsVar w env r o label x → SafeName p.printer.isPrint n ∧ FiniteVar x) :
    ∃ w' s', expHandler env g (w, s) = ((w', s'), .returns, some s'.vars) ∧ ∀ keys, AllKeys keys s'.vars → ∃ doc, readJson (expResponse p keys s'.vars) = some doc ∧
      ∀ cs, (∀ c ∈ cs, Scalar c) → ∀ name r o label, Owns w id (prefixes g).flatten (utf8Text cs) name r o label →
        (∀ name' r' o' label', Owns w id (prefixes g).flatten (utf8Text cs) name' r' o' label' → name' = name ∧ label' = label) →
        ∃ x j, ShowsVar w env r o label x ∧ doc.member cs = [j] ∧ VarDenotes x j := by
  obtain ⟨w', s', h1, h2, -⟩ := C66_partial kind w s hr env g id hb hh hsn hl hkw
  refine ⟨w', s', h1, fun keys hk => ?_⟩
  obtain ⟨doc, h3, h4⟩ := C91_lookup p keys s'.vars hk (by
    intro k hk'
    rcases h2 k with ⟨name, r, o, label, x, -, ⟨c, v, -, -, g3⟩, g2⟩ | ⟨-, g⟩
    · rw [hk'] at g2
      cases g2
      generalize (if isIntVar o label then v else asFloat v) = y at g3
      cases y <;> simp [varOf] at g3
    · exact ho k (by rw [← g, hk'])) (by
    intro n x hx
    rcases h2 n with ⟨name, r, o, label, x', g1, g2, g3⟩ | ⟨-, g⟩
    · rw [hx] at g3
      cases g3
      exact hnew n name r o label x g1 g2
    · exact hold n x (by rw [← g, hx]))
  refine ⟨doc, h3, fun cs hcs name r o label hown hu => ?_⟩
  obtain ⟨x, h5, h6⟩ := C66_unique h2 hown hu
  obtain ⟨j, h7, h8, -⟩ := (h4 cs hcs).2 x h5
  exact ⟨x, j, h6, h7, h8⟩

/-! ### Programs for which it is false, and one for which it is true -/

private noncomputable def oneCounter (name : Str) : World F64 × Expvar F64 :=
  (World.init.run [(envAt 0, .new .counter), (envAt 0, .call 0 (.inc 7)), (envAt 0, .reg (.std 0) (.register name (.obj 0)))], ⟨fun _ => none, false⟩)
private noncomputable def oneMeter : World F64 × Expvar F64 :=
  (World.init.run [(envAt 0, .new .meter), (envAt 0, .call 0 (.mark 1)), (envAt 0, .reg (.std 0) (.register (bytes "m") (.obj 0)))], ⟨fun _ => none, false⟩)

private theorem reach_run (h : List (Env F64 × Op F64)) : ExpReach (World.init.run h, ⟨fun _ => none, false⟩) := by
  refine ⟨fun _ => none, ?_⟩
  suffices ∀ (h : List (Env F64 × Op F64)) (y0 : World F64 × Expvar F64) w s, ExpFrom y0 (w, s) → ExpFrom y0 (w.run h, s) from this h _ _ _ .start
  intro h y0
  induction h with
  | nil => exact fun w s h => h
  | cons a h ih => exact fun w s h' => ih _ _ (.op a.1 a.2 h')

private def otherVars (vars : Str → Option (Var F64)) : Prop := ∀ k, vars k ≠ some .other
private theorem other_update {vars : Str → Option (Var F64)} (h : otherVars vars) (n : Str) (x : Var F64) (hx : x ≠ .other) : otherVars (Function.update vars n (some x)) := by
  intro k
  by_cases hk : k = n
  · subst hk; simpa using hx
  · rw [Function.update_of_ne hk]; exact h k

/-- C91 is false without NaN from user code: with a meter that is marked once, in the instant of its creation, the request returns, but the response is not JSON: the mean rate is infinite. -/
theorem C91_refuted : ∃ (y : World F64 × Expvar F64) (env : Env F64) (vars : Str → Option (Var F64)), ExpReach y ∧ gets y.1 0 (bytes "m") = some 0 ∧ observe y.1 env 0 .count = .ok (.int 1) ∧
    (∃ y', expHandler env (.std 0) y = (y', .returns, some vars)) ∧ ∀ p keys, AllKeys keys vars → readJson (expResponse p keys vars) = none := by
  obtain ⟨y', vars, h1, h2, h3⟩ : ∃ y' vars, expHandler (envAt 1) (.std 0) oneMeter = (y', .returns, some vars) ∧ vars (bytes "m.mean") = some (.float (.float (StandardMeter.meanRate 1 0 0))) ∧ otherVars vars := by
    refine ⟨_, _, rfl, rfl, ?_⟩
    iterate 10 refine other_update ?_ _ _ (by rintro ⟨⟩)
    rintro k ⟨⟩
  refine ⟨oneMeter, envAt 1, vars, reach_run _, rfl, rfl, ⟨y', h1⟩, fun p keys hk => ?_⟩
  by_contra hne
  obtain ⟨doc, hd⟩ := Option.ne_none_iff_exists'.1 hne
  obtain ⟨-, q, hq⟩ := (C91_valid p keys vars hk fun k h => absurd h (h3 k)).1 ⟨doc, hd⟩ _ _ h2
  rw [show (StandardMeter.meanRate 1 0 0 : F64) = .inf false by decide +kernel] at hq
  simp at hq

/-- C91 is false for many names: with a single counter under a name with the character U+0007, or under one that is not UTF-8, the request returns, but the response is not JSON. -/
theorem C91_name_refuted (name : Str) (hn : name = bytes "a\x07" ∨ name = [0xFF]) : ∃ (y : World F64 × Expvar F64) (env : Env F64) (vars : Str → Option (Var F64)), ExpReach y ∧ gets y.1 0 name = some 0 ∧
    observe y.1 env 0 .count = .ok (.int 7) ∧ (∃ y', expHandler env (.std 0) y = (y', .returns, some vars)) ∧ ∀ p keys, AllKeys keys vars → readJson (expResponse p keys vars) = none := by
  have hs : ∀ pr, ¬ SafeName pr name := by
    rintro pr ⟨cs, h1, h2⟩
    have h3 : chars name = cs := by rw [h2]; exact chars_text fun c hc => (h1 c hc).1
    rcases hn with rfl | rfl
    · have e : chars (bytes "a\x07") = [97, 7] := by decide +kernel
      rw [e] at h3
      subst h3
      rcases (h1 7 (by simp)).2 with h | h <;> omega
    · have e : chars [0xFF] = [0xFFFD] := by decide +kernel
      rw [e] at h3
      subst h3
      exact absurd h2 (by decide +kernel)
  obtain ⟨y', vars, h0, h1, h2, h3⟩ : ∃ y' vars, gets (oneCounter name).1 0 name = some 0 ∧ expHandler (envAt 1) (.std 0) (oneCounter name) = (y', .returns, some vars) ∧ vars name = some (.int 7) ∧ otherVars vars := by
    rcases hn with rfl | rfl <;>
    · refine ⟨_, _, rfl, rfl, rfl, ?_⟩
      iterate 2 refine other_update ?_ _ _ (by rintro ⟨⟩)
      rintro k ⟨⟩
  refine ⟨oneCounter name, envAt 1, vars, reach_run _, h0, rfl, ⟨y', h1⟩, fun p keys hk => ?_⟩
  by_contra hne
  obtain ⟨doc, hd⟩ := Option.ne_none_iff_exists'.1 hne
  exact hs _ ((C91_valid p keys vars hk fun k h => absurd h (h3 k)).1 ⟨doc, hd⟩ _ _ h2).1

-- A program for which it is true: another variable, "cmdline", and a counter whose name has a quotation mark, a line break and a character beyond ASCII.
private noncomputable def mixed : World F64 × Expvar F64 :=
  (World.init.run [(envAt 0, .new .counter), (envAt 0, .call 0 (.inc 7)), (envAt 0, .reg (.std 0) (.register (bytes "\"é\n") (.obj 0)))],
   ⟨fun n => if n = bytes "cmdline" then some .other else none, false⟩)

private theorem mixed_run : ExpRun (fun n => if n = bytes "cmdline" then none else some true) mixed := by
  suffices ∀ (kind) (h : List (Env F64 × Op F64)) w s, ExpRun kind (w, s) → ExpRun kind (w.run h, s) from this _ _ _ _ (.init (by
    intro n x b hx hb
    by_cases h : n = bytes "cmdline" <;> simp [h] at hx hb))
  intro kind h
  induction h with
  | nil => exact fun w s h => h
  | cons a h ih => exact fun w s h' => ih _ _ (.op a.1 a.2 h')

private theorem mixed_only {name : Str} {r : Ref} (hr : gets mixed.1 0 name = some r) : name = bytes "\"é\n" ∧ r = 0 := by
  rw [gets_eq] at hr
  have hm := lookup_some_mem hr
  rw [show mixed.1.regs 0 = [(bytes "\"é\n", 0)] from rfl] at hm
  simpa using hm

example (sh : Shortest) (pr : Printer) : ∃ p : ExpText, p.shortest = sh ∧ p.printer = pr ∧ ∃ w' s', expHandler (envAt 1) (.std 0) mixed = ((w', s'), .returns, some s'.vars) ∧
    ∀ keys, AllKeys keys s'.vars → ∃ doc, readJson (expResponse p keys s'.vars) = some doc ∧ doc.member ("\"é\n".toList.map Char.toNat) = [.num 7] := by
  obtain ⟨c, hc⟩ : ∃ c, mixed.1.objs 0 = some (.counter c) := ⟨_, rfl⟩
  have e1 : utf8Text ("\"é\n".toList.map Char.toNat) = bytes "\"é\n" := by decide +kernel
  have owns : ∀ n name r o label, Owns mixed.1 0 [] n name r o label → name = bytes "\"é\n" ∧ r = 0 ∧ o = .counter c ∧ label = "" ∧ n = bytes "\"é\n" := by
    rintro n name r o label ⟨h1, -, h2, h3, rfl⟩
    obtain ⟨rfl, rfl⟩ := mixed_only h1
    rw [hc] at h2
    cases h2
    simp only [expLabels, List.mem_singleton] at h3
    subst h3
    exact ⟨rfl, rfl, rfl, rfl, by decide +kernel⟩
  have shown : ∀ x, ShowsVar mixed.1 (envAt 1) 0 (.counter c) "" x → x = .int 7 := by
    rintro x ⟨k, v, h1, h2, rfl⟩
    obtain rfl : Call.count = k := by simpa [means] using h1
    have : v = .int 7 := h2.2 (by simp)
    subst this
    rfl
  refine ⟨⟨sh, pr, fun _ => jsonQuote false (bytes "prog")⟩, rfl, rfl, ?_⟩
  have safe : SafeName pr.isPrint (bytes "\"é\n") := by
    refine ⟨_, ?_, e1.symm⟩
    intro c hc
    rw [show "\"é\n".toList.map Char.toNat = [34, 233, 10] by decide +kernel] at hc
    simp only [List.mem_cons, List.not_mem_nil, or_false] at hc
    rcases hc with rfl | rfl | rfl
    · exact ⟨by decide, .inl ⟨by decide, by decide, .inl (by decide)⟩⟩
    · exact ⟨by decide, .inl ⟨by decide, by decide, .inl (by decide)⟩⟩
    · exact ⟨by decide, .inr (by decide)⟩
  obtain ⟨w', s', h1, h2⟩ := C91_metric ⟨sh, pr, fun _ => jsonQuote false (bytes "prog")⟩ _ mixed.1 mixed.2 mixed_run (envAt 1) (.std 0) 0 rfl
    (by intro name r o hr _ ho; obtain ⟨-, rfl⟩ := mixed_only hr; rw [hc] at ho; cases ho; rfl)
    (by intro name r o hr _ ho hd; obtain ⟨-, rfl⟩ := mixed_only hr; rw [hc] at ho; cases ho; simp [isDistribution] at hd)
    (by
      intro r vs hv
      by_cases hr : r = 0
      · subst hr; simp [recorded, histRecorded, hc] at hv
      · have : mixed.1.objs r = none := (run_ok _).obj r (by
          have : mixed.1.nextObj = 1 := by decide +kernel
          exact this ▸ Nat.pos_of_ne_zero hr)
        simp [recorded, histRecorded, this] at hv)
    (by
      intro n name r o label h
      obtain ⟨-, -, rfl, -, rfl⟩ := owns n name r o label h
      exact (by decide +kernel : (if bytes "\"é\n" = bytes "cmdline" then none else some true : Option Bool) = some true))
    (fun k _ => ⟨_, readAs_str false (bytes "prog")⟩)
    (by
      intro n x hx
      have : n = bytes "cmdline" ∧ x = .other := by
        by_cases h : n = bytes "cmdline" <;> simp [mixed, h] at hx
        exact ⟨h, hx.symm⟩
      obtain ⟨rfl, rfl⟩ := this
      refine ⟨⟨"cmdline".toList.map Char.toNat, ?_, by decide +kernel⟩, trivial⟩
      have : ∀ c ∈ "cmdline".toList.map Char.toNat, 32 ≤ c ∧ c < 127 := by decide +kernel
      intro c hc
      obtain ⟨h1, h2⟩ := this c hc
      exact ⟨.inl (by omega), .inl ⟨h1, by omega, .inl (by omega)⟩⟩)
    (by
      intro n name r o label x h hx
      obtain ⟨-, rfl, rfl, rfl, rfl⟩ := owns n name r o label h
      rw [shown x hx]
      exact ⟨safe, trivial⟩)
  refine ⟨w', s', h1, fun keys hk => ?_⟩
  obtain ⟨doc, h3, h4⟩ := h2 keys hk
  obtain ⟨x, j, h5, h6, h7⟩ := h4 ("\"é\n".toList.map Char.toNat) (by decide +kernel) (bytes "\"é\n") 0 (.counter c) ""
    ⟨rfl, List.nil_prefix, hc, by simp [expLabels], by rw [e1]; decide +kernel⟩
    (by intro name' r' o' label' h; obtain ⟨g1, -, -, g2, -⟩ := owns _ _ _ _ _ h; exact ⟨g1, g2⟩)
  rw [shown x h5] at h7
  have h8 : j = .num 7 := h7
  exact ⟨doc, h3, by rw [h6, h8]⟩

end GoMetrics
