import Verif.Lemmas.ByteOrder
import Verif.Props.GetAll
import Verif.Spec.Json
import Mathlib.Data.List.Sort

/-! Property theorems C65: JSON. -/

set_option linter.unusedSimpArgs false
set_option linter.unusedSectionVars false

namespace GoMetrics
open Spec

variable {F : Type} [GoFloat F] [GoSqrt F] [GoExp F]

private theorem intercalate_cons (s x : Str) (xs : List Str) : List.intercalate s (x :: xs) = x ++ (xs.map (s ++ ·)).flatten := by
  induction xs generalizing x with
  | nil => simp [List.intercalate]
  | cons y ys ih =>
    have : List.intercalate s (x :: y :: ys) = x ++ (s ++ List.intercalate s (y :: ys)) := by simp [List.intercalate, List.intersperse]
    rw [this, ih]
    simp

private theorem members_rest {α : Type} (t : JsonText F) (value : α → Option Str) (txt : α → Str) (l : List (Str × α)) (h : ∀ x ∈ l, value x.2 = some (txt x.2)) :
    jsonMembers t value false l = some ((l.map fun m => [44] ++ (t.quote m.1 ++ 58 :: txt m.2)).flatten) := by
  induction l with
  | nil => rfl
  | cons x l ih =>
    simp only [jsonMembers, h x (by simp), ih fun y hy => h y (by simp [hy])]
    show some _ = some _
    simp [show bytes "," = [44] from rfl, show bytes ":" = [58] from rfl]

theorem jsonMap_some {α : Type} (t : JsonText F) (srt : KeySorter) (value : α → Option Str) (txt : α → Str) (l : List (Str × α)) (h : ∀ x ∈ l, value x.2 = some (txt x.2)) :
    jsonMap t srt value l = some (jsonObject t.quote ((srt.sort l).map fun m => (m.1, txt m.2))) := by
  have h' : ∀ x ∈ srt.sort l, value x.2 = some (txt x.2) := fun x hx => h x ((srt.perm l).mem_iff.1 hx)
  unfold jsonMap jsonObject
  generalize srt.sort l = m at *
  cases m with
  | nil => rfl
  | cons x m =>
    simp only [jsonMembers, h' x (by simp), members_rest t value txt m fun y hy => h' y (by simp [hy])]
    show some _ = some _
    simp [intercalate_cons, show bytes "{" = [123] from rfl, show bytes "}" = [125] from rfl, show bytes ":" = [58] from rfl, Function.comp_def]

private theorem members_none {α : Type} (t : JsonText F) (value : α → Option Str) (first : Bool) (l : List (Str × α)) (h : ∃ x ∈ l, value x.2 = none) :
    jsonMembers t value first l = none := by
  induction l generalizing first with
  | nil => simp at h
  | cons x l ih =>
    simp only [jsonMembers]
    rcases hv : value x.2 with _ | s
    · rfl
    · obtain ⟨y, hy, hn⟩ := h
      rcases List.mem_cons.1 hy with rfl | hy
      · rw [hv] at hn; simp at hn
      · rw [ih false ⟨y, hy, hn⟩]; rfl

theorem jsonMap_none {α : Type} (t : JsonText F) (srt : KeySorter) (value : α → Option Str) (l : List (Str × α)) (h : ∃ x ∈ l, value x.2 = none) :
    jsonMap t srt value l = none := by
  obtain ⟨x, hx, hn⟩ := h
  rw [jsonMap, members_none t value true _ ⟨x, (srt.perm l).mem_iff.2 hx, hn⟩]
  rfl

private theorem bits_iff (b : FloatBits) : notNumberBits b = true ↔ b.toNat / 2 ^ 52 % 2 ^ 11 = 2 ^ 11 - 1 := by
  have h1 : ((b >>> 52) &&& 0x7FF).toNat = b.toNat / 2 ^ 52 % 2 ^ 11 := by
    rw [UInt64.toNat_and, UInt64.toNat_shiftRight]
    rw [show (0x7FF : UInt64).toNat = 2 ^ 11 - 1 from rfl, Nat.and_two_pow_sub_one_eq_mod, Nat.shiftRight_eq_div_pow]
    rfl
  rw [notNumberBits, beq_iff_eq, ← UInt64.toNat_inj, h1]
  rfl

theorem jsonValue_some (t : JsonText F) (v : GoMetrics.Field F) (h : representable v) : jsonValue t v = some (jsonText t v) := by
  cases v with
  | float x =>
    obtain ⟨h1, h2, h3⟩ := h
    have : notNumber x = false := by simp only [notNumber, maxFloat64, h1, h2, h3]; rfl
    simp [jsonValue, this, jsonText]
  | bits b =>
    have : notNumberBits b = false := by rw [Bool.eq_false_iff, Ne, bits_iff]; exact h
    simp [jsonValue, this, jsonText]
  | _ => rfl

theorem jsonValue_none (t : JsonText F) (v : GoMetrics.Field F) (h : ¬ representable v) : jsonValue t v = none := by
  cases v with
  | float x =>
    have : notNumber x = true := by
      by_contra hn
      rw [Bool.not_eq_true] at hn
      simp only [notNumber, maxFloat64, Bool.or_eq_false_iff, Bool.not_eq_false'] at hn
      exact h ⟨hn.2, hn.1.1, hn.1.2⟩
    simp [jsonValue, this]
  | bits b =>
    have : notNumberBits b = true := by rw [bits_iff]; simpa [representable] using h
    simp [jsonValue, this]
  | _ => exact absurd trivial h

private theorem forall2_fst' {α β γ δ : Type} {R : γ × α → δ × β → Prop} (f : γ → δ) {l : List (γ × α)} {m : List (δ × β)} (h : List.Forall₂ R l m)
    (hR : ∀ a b, R a b → b.1 = f a.1) : m.map Prod.fst = l.map fun x => f x.1 := by
  induction h with
  | nil => rfl
  | cons h1 _ ih => simp [hR _ _ h1, ih]

private theorem fields_nodup (o : Obj F) : ((fieldsOf o).map fun x => bytes x.1).Nodup := by
  cases o <;> (simp only [fieldsOf, fieldsOf.distribution, fieldsOf.rates, List.map, List.cons_append, List.nil_append]; decide)

section
variable (h : List (Env F × Op F)) (env : Env F) (t : JsonText F) (srt : KeySorter) (g : Reg) (id : Nat) (hb : base g = some id) (w' : World F) (data : Data F)
  (hd : getAll env g (World.init.run h) = (w', .ok (some data)))
include hb hd

private theorem getAll_holds : (data.map Prod.fst).Nodup ∧ (∀ name, name ∈ data.map Prod.fst ↔ gets (World.init.run h : World F) id name ≠ none) ∧
    ∀ name vs, (name, vs) ∈ data → ∃ r o, gets (World.init.run h : World F) id name = some r ∧ (World.init.run h : World F).objs r = some o ∧
      List.Forall₂ (fun (kc : String × Call F) (kf : String × GoMetrics.Field F) => kf.1 = kc.1 ∧ Holds (World.init.run h) env r kc.2 kf.2) (fieldsOf o) vs := by
  obtain ⟨h1, h2, h3⟩ := C56_values h env g id hb w' data hd
  refine ⟨h1, h2, fun name vs hv => ?_⟩
  obtain ⟨r, o, h4, h5, h6⟩ := h3 name vs hv
  exact ⟨r, o, h4, h5, forall2_mono (fun a b hab => ⟨hab.1, hab.2.2, hab.2.1⟩) h6⟩

/-- C65 for registries without NaN and infinite values (and where `GetAll` returns): `WriteJSONOnce` writes the JSON of all metrics of the registry — of the base
registry, for a prefixed one — and a newline. Missing for the full claim: it writes nothing if any value is NaN or infinite (`C65_nothing`). -/
theorem C65_partial (hn : ∀ (name : Str) (r : Ref) (o : Obj F) (kc : String × Call F) (v : GoMetrics.Field F), gets (World.init.run h : World F) id name = some r → (World.init.run h : World F).objs r = some o → kc ∈ fieldsOf o →
      Holds (World.init.run h) env r kc.2 v → representable v) :
    ∃ text, writeJSONOnce env t srt g (World.init.run h) = (w', .ok (text ++ [10])) ∧ marshalJSON env t srt g (World.init.run h) = (w', .ok (some text)) ∧
      JsonOf t (World.init.run h) env id text := by
  obtain ⟨h1, h2, h3⟩ := getAll_holds h env g id hb w' data hd
  generalize World.init.run h = w at *
  obtain ⟨inner, hin⟩ : ∃ inner : List (String × GoMetrics.Field F) → List (Str × GoMetrics.Field F), ∀ vs, inner vs = srt.sort (vs.map fun x => (bytes x.1, x.2)) := ⟨_, fun _ => rfl⟩
  have hi : ∀ x ∈ data, jsonMap t srt (jsonValue t) (x.2.map fun x => (bytes x.1, x.2)) = some (jsonObject t.quote ((inner x.2).map fun f => (f.1, jsonText t f.2))) := by
    rintro ⟨name, vs⟩ hx
    rw [hin]
    refine jsonMap_some t srt _ (jsonText t) _ fun f hf => jsonValue_some t _ ?_
    obtain ⟨⟨k, v⟩, hk, rfl⟩ := List.mem_map.1 hf
    obtain ⟨r, o, h4, h5, h6⟩ := h3 name vs hx
    have : ∀ l (m : List (String × GoMetrics.Field F)), List.Forall₂ (fun (kc : String × Call F) (kf : String × GoMetrics.Field F) => kf.1 = kc.1 ∧ Holds w env r kc.2 kf.2) l m →
        (k, v) ∈ m → ∃ kc ∈ l, Holds w env r kc.2 v := by
      intro l m hf hm
      induction hf with
      | nil => simp at hm
      | @cons a b l m h1 _ ih =>
        rcases List.mem_cons.1 hm with e | hm
        · subst e; exact ⟨a, by simp, h1.2⟩
        · obtain ⟨kc, h7, h8⟩ := ih hm
          exact ⟨kc, by simp [h7], h8⟩
    obtain ⟨kc, h7, h8⟩ := this _ _ h6 hk
    exact hn name r o kc v h4 h5 h7 h8
  have hm : jsonMarshal t srt data = some (jsonObject t.quote ((srt.sort data).map fun m => (m.1, jsonObject t.quote ((inner m.2).map fun f => (f.1, jsonText t f.2))))) := by
    rw [jsonMarshal, jsonMap_some t srt _ (fun vs => jsonObject t.quote ((inner vs).map fun f => (f.1, jsonText t f.2))) data]
    exact hi
  have hmj : marshalJSON env t srt g w = (w', .ok (some (jsonObject t.quote ((srt.sort data).map fun m => (m.1, jsonObject t.quote ((inner m.2).map fun f => (f.1, jsonText t f.2))))))) := by
    simp only [marshalJSON, hd, hm]
  refine ⟨_, by rw [writeJSONOnce, hmj], hmj, (srt.sort data).map fun m => (m.1, inner m.2), ?_, ?_, fun name => ?_, fun name fs hf => ?_⟩
  · simp only [List.map_map, Function.comp_def]
  · rw [List.map_map]
    exact (pairwise_lt_of_sorted (srt.sorted data) (((srt.perm data).map _).nodup_iff.2 h1)).imp (before_iff _ _).1
  · rw [List.map_map, ← h2]
    exact ((srt.perm data).map _).mem_iff
  · obtain ⟨⟨name', vs⟩, hx, e⟩ := List.mem_map.1 hf
    simp only [Prod.mk.injEq] at e
    obtain ⟨rfl, rfl⟩ := e
    rw [hin]
    obtain ⟨r, o, h4, h5, h6⟩ := h3 name' vs ((srt.perm data).mem_iff.1 hx)
    refine ⟨r, o, h4, h5, ?_, vs.map (fun x => (bytes x.1, x.2)), (srt.perm _).symm, ?_⟩
    · refine (pairwise_lt_of_sorted (srt.sorted _) (((srt.perm _).map _).nodup_iff.2 ?_)).imp (before_iff _ _).1
      rw [List.map_map, show (Prod.fst ∘ fun x : String × GoMetrics.Field F => (bytes x.1, x.2)) = fun x => bytes x.1 from rfl]
      have : vs.map (fun x => bytes x.1) = (fieldsOf o).map fun x => bytes x.1 := by
        rw [show (fun x : String × GoMetrics.Field F => bytes x.1) = bytes ∘ Prod.fst from rfl, ← List.map_map, forall2_fst' (fun x => x) h6 fun a b hab => hab.1]
        simp
      rw [this]
      exact fields_nodup o
    · rw [List.forall₂_map_right_iff]
      exact forall2_mono (fun a b hab => ⟨by rw [hab.1], hab.2⟩) h6

/-- C65: if any value of any metric is NaN or infinite, nothing is written at all; `WriteJSONOnce` returns as if it had been. -/
theorem C65_nothing (name : Str) (r : Ref) (o : Obj F) (hr : gets (World.init.run h : World F) id name = some r) (ho : (World.init.run h : World F).objs r = some o)
    (kc : String × Call F) (hk : kc ∈ fieldsOf o) (hn : ∀ v, Holds (World.init.run h) env r kc.2 v → ¬ representable v) :
    writeJSONOnce env t srt g (World.init.run h) = (w', .ok []) ∧ marshalJSON env t srt g (World.init.run h) = (w', .ok none) := by
  obtain ⟨h1, h2, h3⟩ := getAll_holds h env g id hb w' data hd
  generalize World.init.run h = w at *
  have hx0 : name ∈ data.map Prod.fst := (h2 name).2 (by simp [hr])
  obtain ⟨⟨name', vs⟩, hx, rfl⟩ := List.mem_map.1 hx0
  obtain ⟨r', o', h4, h5, h6⟩ := h3 _ vs hx
  simp only at hr
  rw [hr] at h4
  cases h4
  rw [ho] at h5
  cases h5
  have : ∀ l (m : List (String × GoMetrics.Field F)), List.Forall₂ (fun (kc : String × Call F) (kf : String × GoMetrics.Field F) => kf.1 = kc.1 ∧ Holds w env r kc.2 kf.2) l m →
      kc ∈ l → ∃ f ∈ m, Holds w env r kc.2 f.2 := by
    intro l m hf hm
    induction hf with
    | nil => simp at hm
    | @cons a b l m h1 _ ih =>
      rcases List.mem_cons.1 hm with rfl | hm
      · exact ⟨b, by simp, h1.2⟩
      · obtain ⟨f, h7, h8⟩ := ih hm
        exact ⟨f, by simp [h7], h8⟩
  obtain ⟨f, hf, hv⟩ := this _ _ h6 hk
  have hmar : jsonMarshal t srt data = none := by
    refine jsonMap_none t srt _ data ⟨_, hx, ?_⟩
    exact jsonMap_none t srt _ _ ⟨(bytes f.1, f.2), List.mem_map.2 ⟨f, hf, rfl⟩, jsonValue_none t _ (hn _ hv)⟩
  have hmj : marshalJSON env t srt g w = (w', .ok none) := by simp only [marshalJSON, hd, hmar]
  exact ⟨by rw [writeJSONOnce, hmj], hmj⟩

end

private def nanHistory : List (Env F × Op F) :=
  [(envAt 0, .new .counter), (envAt 0, .new .gaugeF), (envAt 1, .call 0 (.inc 3)), (envAt 1, .call 1 (.updateF 0x7FF8000000000001)),
   (envAt 1, .reg (.std 0) (.register [99] (.obj 0))), (envAt 1, .reg (.std 0) (.register [103] (.obj 1)))]
private def freshHistory : List (Env F × Op F) := [(envAt 0, .new .meter), (envAt 0, .call 0 (.mark 1)), (envAt 1, .reg (.std 0) (.register [109] (.obj 0)))]

/-- C65 is false: with a counter that holds 3 and a GaugeFloat64 that holds NaN, nothing is written, whatever the details of the encoder. -/
theorem C65_refuted : ∃ (h : List (Env F × Op F)) (env : Env F) (name name' : Str) (r r' : Ref), gets (World.init.run h : World F) 0 name = some r ∧
    observe (World.init.run h) env r .count = .ok (.int 3) ∧ gets (World.init.run h : World F) 0 name' = some r' ∧ observe (World.init.run h) env r' .value = .ok (.bits 0x7FF8000000000001) ∧
    ∀ t srt, (writeJSONOnce env t srt (.std 0) (World.init.run h)).2 = .ok [] := by
  refine ⟨nanHistory, envAt 2, [99], [103], 0, 1, rfl, rfl, rfl, rfl, fun t srt => ?_⟩
  obtain ⟨w', data, hd⟩ : ∃ w' data, getAll (envAt 2) (.std 0) (World.init.run nanHistory : World F) = (w', .ok (some data)) := ⟨_, _, rfl⟩
  obtain ⟨x, hx⟩ : ∃ x, (World.init.run nanHistory : World F).objs 1 = some (.gaugeF x) := ⟨_, rfl⟩
  have h1 := C65_nothing nanHistory (envAt 2) t srt (.std 0) 0 rfl w' data hd [103] 1 _ rfl hx ("value", .value) (by simp [fieldsOf]) fun v hv => by
    have : v = .bits 0x7FF8000000000001 := hv.2 (by simp)
    subst this
    simp [representable]
  exact congrArg Prod.snd h1.1

/-- C65 is false also without NaN from user code: a meter that is marked in the instant of its creation has an infinite mean rate. -/
theorem C65_refuted_rate : ∃ (h : List (Env F64 × Op F64)) (env : Env F64) (name : Str) (r : Ref), gets (World.init.run h : World F64) 0 name = some r ∧
    observe (World.init.run h) env r .count = .ok (.int 1) ∧ ∀ t srt, (writeJSONOnce env t srt (.std 0) (World.init.run h)).2 = .ok [] := by
  refine ⟨freshHistory, envAt 2, [109], 0, rfl, rfl, fun t srt => ?_⟩
  obtain ⟨w', data, hd⟩ : ∃ w' data, getAll (envAt 2) (.std 0) (World.init.run freshHistory : World F64) = (w', .ok (some data)) := ⟨_, _, rfl⟩
  obtain ⟨x, hx⟩ : ∃ x, (World.init.run freshHistory : World F64).objs 0 = some (.meter x) := ⟨_, rfl⟩
  have h1 := C65_nothing freshHistory (envAt 2) t srt (.std 0) 0 rfl w' data hd [109] 0 _ rfl hx ("mean.rate", .rates .rateMean) (by simp [fieldsOf, fieldsOf.rates]) fun v hv => by
    have e : observe (checked (envAt 2) (World.init.run freshHistory : World F64) 0) (envAt 2) 0 (.rates .rateMean) = .ok (.float (StandardMeter.meanRate 1 0 0)) := rfl
    have e2 : (StandardMeter.meanRate 1 0 0 : F64) = .inf false := by decide +kernel
    have hs := hv.2 (by simp)
    simp only [e, e2] at hs
    have : v = .float (.inf false) := hs
    subst this
    simp only [representable]
    rintro ⟨-, h, -⟩
    revert h
    decide +kernel
  exact congrArg Prod.snd h1.1

-- A registry that is written: a counter with 3 under "c" and a failing healthcheck under "h".
private def writtenHistory : List (Env F × Op F) :=
  [(envAt 0, .new .counter), (envAt 0, .new (.health 0)), (envAt 1, .call 0 (.inc 3)), (envAt 1, .reg (.std 0) (.register [99] (.obj 0))),
   (envAt 1, .reg (.prefixed (.std 0) [104]) (.register [] (.obj 1)))]
private def keyLE {α : Type} (a b : Str × α) : Prop := ¬ b.1 < a.1
private instance {α : Type} : DecidableRel (keyLE (α := α)) := fun _ _ => inferInstanceAs (Decidable (¬ _))
private instance {α : Type} : Std.Total (keyLE (α := α)) := ⟨fun a b => by
  by_cases h : b.1 < a.1
  · exact .inr (lt_asym h)
  · exact .inl h⟩
private instance {α : Type} : IsTrans (Str × α) keyLE := ⟨fun a b c h1 h2 h => by
  rcases lt_tri b.1 a.1 with h3 | h3 | h3
  · exact h1 h3
  · rw [← h3] at h; exact h2 h
  · exact h2 (lt_trans' h h3)⟩
private def keySorter : KeySorter where
  sort l := l.insertionSort keyLE
  perm l := List.perm_insertionSort ..
  sorted l := List.pairwise_insertionSort keyLE l
private def plainText : JsonText F := { int := fun n => bytes (toString n.toInt), float := fun _ => [], bits := fun _ => [], quote := fun s => [34] ++ s ++ [34], errText := fun _ => bytes "bad" }
example : (writeJSONOnce (envAt 2) plainText keySorter (.std 0) (World.init.run writtenHistory : World F64)).2 = .ok (bytes "{\"c\":{\"count\":3},\"h\":{\"error\":\"bad\"}}\n") := by
  obtain ⟨w', hd⟩ : ∃ w', getAll (envAt 2) (.std 0) (World.init.run writtenHistory : World F64) = (w', .ok (some [([104], [("error", .errText 1)]), ([99], [("count", .int 3)])])) := ⟨_, rfl⟩
  simp only [writeJSONOnce, marshalJSON, hd]
  have : jsonMarshal (plainText : JsonText F64) keySorter [([104], [("error", .errText 1)]), ([99], [("count", .int 3)])] = some (bytes "{\"c\":{\"count\":3},\"h\":{\"error\":\"bad\"}}") := by decide +kernel
  simp only [this]
  rfl

example (t : JsonText F) (srt : KeySorter) : ∃ w' text, writeJSONOnce (envAt 2) t srt (.std 0) (World.init.run writtenHistory : World F) = (w', .ok (text ++ [10])) ∧
    JsonOf t (World.init.run writtenHistory : World F) (envAt 2) 0 text := by
  obtain ⟨w', data, hd⟩ : ∃ w' data, getAll (envAt 2) (.std 0) (World.init.run writtenHistory : World F) = (w', .ok (some data)) := ⟨_, _, rfl⟩
  obtain ⟨text, h1, -, h2⟩ := C65_partial writtenHistory (envAt 2) t srt (.std 0) 0 rfl w' data hd fun name r o kc v hg ho hk hv => by
    rw [gets_eq] at hg
    have hr : r = 0 ∨ r = 1 := by
      have := lookup_some_mem hg
      have e : (World.init.run writtenHistory : World F).regs 0 = [([104], 1), ([99], 0)] := rfl
      rw [e] at this
      simp at this
      tauto
    rcases hr with rfl | rfl
    · obtain ⟨x, hx⟩ : ∃ x, (World.init.run writtenHistory : World F).objs 0 = some (.counter x) := ⟨_, rfl⟩
      rw [hx] at ho
      cases ho
      simp only [fieldsOf, List.mem_singleton] at hk
      subst hk
      have : v = .int 3 := hv.2 (by simp)
      subst this
      trivial
    · obtain ⟨x, hx⟩ : ∃ x, (World.init.run writtenHistory : World F).objs 1 = some (.health x) := ⟨_, rfl⟩
      rw [hx] at ho
      cases ho
      simp only [fieldsOf, List.mem_singleton] at hk
      subst hk
      have : v = .errText 1 := hv.2 (by simp)
      subst this
      trivial
  exact ⟨w', text, h1, h2⟩

/-- C65: in float64 `representable` excludes exactly NaN and the infinities (and what is not a float64). -/
theorem C65_numbers : ¬ representable (.float F64.nan) ∧ (∀ b, ¬ representable (.float (F64.inf b))) ∧
    (∀ q : ℚ, |q| ≤ (2 ^ 53 - 1) * 2 ^ 971 → representable (.float (F64.fin q))) ∧ ∀ x, representable (.float x) → ∃ q, x = F64.fin q := by
  have l1 : (GoFloat.lit ((2 ^ 53 - 1) * 2 ^ 971) : F64) = .fin ((2 ^ 53 - 1) * 2 ^ 971) := by decide +kernel
  have l2 : (GoFloat.lit (-((2 ^ 53 - 1) * 2 ^ 971)) : F64) = .fin (-((2 ^ 53 - 1) * 2 ^ 971)) := by decide +kernel
  have n1 : ¬ representable (.float F64.nan) := by rintro ⟨h, -⟩; revert h; decide
  have n2 : ∀ b, ¬ representable (.float (F64.inf b)) := by
    rintro b ⟨h1, h2, h3⟩
    rw [l1] at h2
    rw [l2] at h3
    cases b
    · revert h2; decide +kernel
    · revert h3; decide +kernel
  refine ⟨n1, n2, fun q hq => ?_, fun x hx => ?_⟩
  · rw [abs_le] at hq
    refine ⟨?_, ?_, ?_⟩
    · show decide (q ≤ q) = true
      simp
    · rw [l1]
      show decide (_ < q) = false
      simpa using hq.2
    · rw [l2]
      show decide (q < _) = false
      simpa using hq.1
  · cases x with
    | nan => exact absurd hx n1
    | inf b => exact absurd hx (n2 b)
    | fin q => exact ⟨q, rfl⟩

end GoMetrics
