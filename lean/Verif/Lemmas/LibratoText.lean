import Verif.Model.LibratoText
import Verif.Spec.LibratoText
import Verif.Lemmas.JsonRead
import Verif.Lemmas.LibratoClient
import Verif.Props.JsonRead

/-! Lemmas about the JSON text of batches. -/

set_option linter.unusedSectionVars false

namespace GoMetrics
open Spec

theorem objectMembers_some (quote : Str → Str) (l : List (String × Str)) (first : Bool) :
    objectMembers quote first (l.map fun m => (m.1, some m.2)) =
      some ((if first then [] else if l = [] then [] else [44]) ++ List.intercalate [44] (l.map fun m => quote (bytes m.1) ++ 58 :: m.2)) := by
  induction l generalizing first with
  | nil => cases first <;> rfl
  | cons m l ih =>
    simp only [List.map_cons, objectMembers, ih false, Option.bind_eq_bind, Option.bind_some, Option.pure_def, if_false, Bool.false_eq_true]
    cases l with
    | nil => cases first <;> simp [List.intercalate, show bytes ":" = [58] by decide, show bytes "," = [44] by decide]
    | cons m' l =>
      rw [List.map_cons, intercalate_cons, intercalate_cons, List.map_cons, List.flatten_cons]
      cases first <;> simp [show bytes ":" = [58] by decide, show bytes "," = [44] by decide]

theorem objectText_some (quote : Str → Str) (l : List (String × Str)) :
    objectText quote (l.map fun m => (m.1, some m.2)) = some (jsonObject quote (l.map fun m => (bytes m.1, m.2))) := by
  rw [objectText, objectMembers_some]
  simp [jsonObject, show bytes "{" = [123] by decide, show bytes "}" = [125] by decide, List.map_map, Function.comp_def]

theorem objectMembers_none (quote : Str → Str) {l : List (String × Option Str)} {k : String} (h : (k, none) ∈ l) (first : Bool) : objectMembers quote first l = none := by
  induction l generalizing first with
  | nil => simp at h
  | cons m l ih =>
    obtain ⟨k', v⟩ := m
    rcases List.mem_cons.1 h with h' | h'
    · cases h'; rfl
    · simp only [objectMembers, ih h' false]
      cases v <;> rfl

theorem objectText_none (quote : Str → Str) {l : List (String × Option Str)} {k : String} (h : (k, none) ∈ l) : objectText quote l = none := by
  rw [objectText, objectMembers_none quote h]; rfl

theorem arrayElements_none {l : List (Option Str)} (h : none ∈ l) (first : Bool) : arrayElements first l = none := by
  induction l generalizing first with
  | nil => simp at h
  | cons v l ih =>
    rcases List.mem_cons.1 h with h' | h'
    · subst h'; rfl
    · simp only [arrayElements, ih h' false]
      cases v <;> rfl

theorem arrayText_none {l : List (Option Str)} (h : none ∈ l) : arrayText l = none := by
  rw [arrayText, arrayElements_none h]; rfl

theorem arrayElements_some (l : List Str) (first : Bool) :
    arrayElements first (l.map some) = some ((if first then [] else if l = [] then [] else [44]) ++ List.intercalate [44] l) := by
  induction l generalizing first with
  | nil => cases first <;> rfl
  | cons m l ih =>
    simp only [List.map_cons, arrayElements, ih false, Option.bind_eq_bind, Option.bind_some, Option.pure_def, if_false, Bool.false_eq_true]
    cases l with
    | nil => cases first <;> simp [List.intercalate, show bytes "," = [44] by decide]
    | cons m' l =>
      rw [intercalate_cons, intercalate_cons, List.map_cons, List.flatten_cons]
      cases first <;> simp [show bytes "," = [44] by decide]

theorem arrayText_some (l : List Str) : arrayText (l.map some) = some ([91] ++ List.intercalate [44] l ++ [93]) := by
  rw [arrayText, arrayElements_some]
  simp [show bytes "[" = [91] by decide, show bytes "]" = [93] by decide]

private theorem elements_read (ms : List (Str × Json)) : ∀ m : Str × Json, (∀ x ∈ m :: ms, ReadAs x.1 x.2) → ∀ n rest,
    (m.1 ++ (ms.map fun m : Str × Json => [44] ++ m.1).flatten ++ [93]).length ≤ n →
    readElements n (m.1 ++ (ms.map fun m : Str × Json => [44] ++ m.1).flatten ++ 93 :: rest) = some ((m :: ms).map Prod.snd, rest) := by
  induction ms with
  | nil =>
    intro m hm n rest hn
    simp only [List.map_nil, List.flatten_nil, List.append_nil, List.length_append, List.length_cons, List.length_nil] at hn ⊢
    obtain ⟨n, rfl⟩ : ∃ m, n = m + 1 := ⟨n - 1, by omega⟩
    have hv := hm m (by simp) n (93 :: rest) (delim_of _ (by decide) (by decide) (by decide) (by decide)) (by omega)
    rw [readElements]
    simp only [hv, Option.bind_eq_bind, Option.bind_some, Option.pure_def, skipWs_cons (show ((93 : UInt8) == 32 || (93 : UInt8) == 9 || (93 : UInt8) == 10 || (93 : UInt8) == 13) = false by decide)]
    rfl
  | cons m2 ms ih =>
    intro m hm n rest hn
    obtain ⟨more, hmore⟩ : ∃ more, more = m2.1 ++ (ms.map fun m : Str × Json => [44] ++ m.1).flatten ++ 93 :: rest := ⟨_, rfl⟩
    have e : m.1 ++ ((m2 :: ms).map fun m : Str × Json => [44] ++ m.1).flatten ++ 93 :: rest = m.1 ++ 44 :: more := by rw [hmore]; simp
    rw [e]
    have hn' : (m.1 ++ 44 :: (m2.1 ++ (ms.map fun m : Str × Json => [44] ++ m.1).flatten ++ [93])).length ≤ n := by
      refine le_trans (le_of_eq ?_) hn
      congr 1
      simp
    clear hn
    rw [List.length_append, List.length_cons] at hn'
    obtain ⟨n, rfl⟩ : ∃ m, n = m + 1 := ⟨n - 1, by omega⟩
    have hv := hm m (by simp) n (44 :: more) (delim_of _ (by decide) (by decide) (by decide) (by decide)) (by omega)
    have hi := ih m2 (fun x hx => hm x (by simp at hx ⊢; tauto)) n rest (by omega)
    rw [← hmore] at hi
    rw [readElements]
    simp only [hv, Option.bind_eq_bind, Option.bind_some, Option.pure_def, skipWs_cons (show ((44 : UInt8) == 32 || (44 : UInt8) == 9 || (44 : UInt8) == 10 || (44 : UInt8) == 13) = false by decide), hi]
    rfl

/-- The text of an array. A text that starts with white space or `]` is not the text of a value. -/
theorem readAs_arr (ms : List (Str × Json)) (h : ∀ x ∈ ms, ReadAs x.1 x.2) (hh : ∀ x ∈ ms, ∃ s, x.1 = 123 :: s) :
    ReadAs ([91] ++ List.intercalate [44] (ms.map Prod.fst) ++ [93]) (.arr (ms.map Prod.snd)) := by
  intro n rest hr hn
  obtain ⟨n, rfl⟩ : ∃ m, n = m + 1 := ⟨n - 1, by simp at hn; omega⟩
  cases ms with
  | nil =>
    rw [readValue, show [91] ++ List.intercalate [44] (([] : List (Str × Json)).map Prod.fst) ++ [93] ++ rest = 91 :: 93 :: rest from rfl, skipWs_cons (by decide)]
    simp only [skipWs_cons (show ((93 : UInt8) == 32 || (93 : UInt8) == 9 || (93 : UInt8) == 10 || (93 : UInt8) == 13) = false by decide)]
    rfl
  | cons m ms =>
    have e : [91] ++ List.intercalate [44] ((m :: ms).map Prod.fst) ++ [93] ++ rest = 91 :: (m.1 ++ (ms.map fun m : Str × Json => [44] ++ m.1).flatten ++ 93 :: rest) := by
      simp [intercalate_cons, Function.comp_def]
    rw [e]
    have e' : [91] ++ List.intercalate [44] ((m :: ms).map Prod.fst) ++ [93] = 91 :: (m.1 ++ (ms.map fun m : Str × Json => [44] ++ m.1).flatten ++ [93]) := by
      simp [intercalate_cons, Function.comp_def]
    rw [e', List.length_cons] at hn
    have hm := elements_read ms m h n rest (by omega)
    obtain ⟨s, hs⟩ := hh m (by simp)
    rw [readValue, skipWs_cons (by decide)]
    generalize hx : m.1 ++ (ms.map fun m : Str × Json => [44] ++ m.1).flatten ++ 93 :: rest = x at hm ⊢
    have hs : ∃ y, skipWs x = 123 :: y ∧ x = 123 :: y := by
      rw [← hx, hs, List.cons_append, List.cons_append]
      exact ⟨_, skipWs_cons (by decide) _, rfl⟩
    obtain ⟨y, hy, rfl⟩ := hs
    simp only [hy]
    split
    · rename_i e; cases e
    · simp only [hm, Option.bind_eq_bind, Option.bind_some, Option.pure_def]

/-! ### Objects whose keys may be absent -/

/-- The members of a list of slots. -/
def slotMembers (l : List (String × Option (Str × Json))) : List (String × Option Str) := l.flatMap fun s => s.2.toList.map fun x => (s.1, some x.1)

theorem member_slots {l : List (String × Option (Str × Json))} (hn : (l.map fun s => chars (bytes s.1)).Nodup) {k : String} {v : Option (Str × Json)} (h : (k, v) ∈ l) :
    Json.member (chars (bytes k)) (.obj (l.flatMap fun s => s.2.toList.map fun x => (chars (bytes s.1), x.2))) = v.toList.map Prod.snd := by
  have keys : ∀ l : List (String × Option (Str × Json)), ∀ k', k' ∈ (l.flatMap fun s => s.2.toList.map fun x => (chars (bytes s.1), x.2)).map Prod.fst → k' ∈ l.map fun s => chars (bytes s.1) := by
    intro l k' hk
    simp only [List.mem_map, List.mem_flatMap] at hk ⊢
    obtain ⟨_, ⟨s, hs, x, -, rfl⟩, rfl⟩ := hk
    exact ⟨s, hs, rfl⟩
  induction l with
  | nil => simp at h
  | cons s l ih =>
    rw [List.map_cons, List.nodup_cons] at hn
    rw [List.flatMap_cons]
    have happ : ∀ a b : List (List Nat × Json), ∀ k, Json.member k (.obj (a ++ b)) = Json.member k (.obj a) ++ Json.member k (.obj b) := by
      intro a b k; simp [Json.member]
    rw [happ]
    rcases List.mem_cons.1 h with h | h
    · subst h
      rw [member_none (l := l.flatMap _) fun hk => hn.1 (keys l _ hk)]
      cases v <;> simp [Json.member]
    · rw [ih hn.2 h, member_none, List.nil_append]
      intro hk
      have := keys [s] (chars (bytes k)) (by simpa using hk)
      simp only [List.map_cons, List.map_nil, List.mem_cons, List.not_mem_nil, or_false] at this
      exact hn.1 (this ▸ List.mem_map.2 ⟨(k, v), h, rfl⟩)

theorem slots_read (short : Bool) (l : List (String × Option (Str × Json))) (hr : ∀ s ∈ l, ∀ x, s.2 = some x → ReadAs x.1 x.2) (hn : (l.map fun s => chars (bytes s.1)).Nodup) :
    ∃ text doc, objectText (jsonQuote short) (slotMembers l) = some text ∧ ReadAs text doc ∧ (∃ s, text = 123 :: s) ∧
      (∀ k v, (k, v) ∈ l → doc.member (chars (bytes k)) = v.toList.map Prod.snd) ∧ ∀ k, doc.member k ≠ [] → ∃ s ∈ l, k = chars (bytes s.1) := by
  let ms : List (String × Str × Json) := l.flatMap fun s => s.2.toList.map fun x => (s.1, x.1, x.2)
  have h1 : slotMembers l = (ms.map fun m => (m.1, m.2.1)).map fun m => (m.1, some m.2) := by
    simp [slotMembers, ms, List.map_flatMap, Function.comp_def]
  have h2 := objectText_some (jsonQuote short) (ms.map fun m => (m.1, m.2.1))
  have h3 := readAs_obj short (ms.map fun m => (bytes m.1, m.2.1, m.2.2)) (by
    intro x hx
    simp only [ms, List.mem_map, List.mem_flatMap, Option.mem_toList] at hx
    obtain ⟨_, ⟨s, hs, x, hx, rfl⟩, rfl⟩ := hx
    exact hr s hs x hx)
  refine ⟨jsonObject (jsonQuote short) (ms.map fun m => (bytes m.1, m.2.1)), .obj (ms.map fun m => (chars (bytes m.1), m.2.2)), by rw [h1, h2, List.map_map]; rfl, by simpa only [List.map_map, Function.comp_def] using h3, ⟨_, rfl⟩, ?_, ?_⟩
  · intro k v hk
    rw [← member_slots hn hk]
    simp [ms, List.map_flatMap, Function.comp_def]
  · intro k hk
    by_contra hc
    push Not at hc
    apply hk
    apply member_none
    intro hm
    simp only [ms, List.mem_map, List.mem_flatMap, Option.mem_toList] at hm
    obtain ⟨_, ⟨_, ⟨s, hs, x, hx, rfl⟩, rfl⟩, rfl⟩ := hm
    exact hc s hs rfl

/-- What a slot holds. -/
def Fills {α : Type} (v : Option α) (P : α → Json → Prop) (o : Option (Str × Json)) : Prop :=
  (∀ x, o = some x → ReadAs x.1 x.2) ∧ match v with
    | none => o = none
    | some a => ∃ x, o = some x ∧ P a x.2

theorem opt_slot {α : Type} (k : String) {f : α → Option Str} {v : Option α} {P : α → Json → Prop} (h : ∀ a, v = some a → ∃ text j, f a = some text ∧ ReadAs text j ∧ P a j) :
    ∃ o, optMember k f v = slotMembers [(k, o)] ∧ Fills v P o := by
  cases v with
  | none => exact ⟨none, rfl, by simp, rfl⟩
  | some a =>
    obtain ⟨text, j, h1, h2, h3⟩ := h a rfl
    exact ⟨some (text, j), by simp [optMember, slotMembers, h1], by rintro x ⟨⟩; exact h2, _, rfl, h3⟩

theorem Fills.has {α : Type} {v : Option α} {P : α → Json → Prop} {o : Option (Str × Json)} (h : Fills v P o) {doc : Json} {k : String} (hk : chars (bytes k) = keyOf k)
    (hd : doc.member (chars (bytes k)) = o.toList.map Prod.snd) : Has doc k v P := by
  rw [hk] at hd
  cases v with
  | none =>
    have : o = none := h.2
    subst this
    exact hd
  | some a =>
    obtain ⟨x, rfl, hx⟩ := h.2
    exact ⟨x.2, hd, hx⟩

theorem slotMembers_append (a b : List (String × Option (Str × Json))) : slotMembers (a ++ b) = slotMembers a ++ slotMembers b := by simp [slotMembers]

theorem text_slot (short : Bool) (k : String) (s : Str) : ∃ o, [(k, some (jsonQuote short s))] = slotMembers [(k, o)] ∧ Fills (some s) IsText o :=
  ⟨some (jsonQuote short s, .str (chars s)), rfl, by rintro x ⟨⟩; exact readAs_str short s, _, rfl, rfl⟩

/-! ### Batches -/

section
variable (sh : Shortest) (short : Bool) (timer : TimerAttributes)

theorem attributes_slot (a : LibratoAttrs) : ∃ o, attributesText (goJson sh short fun _ => []) timer a = slotMembers [("attributes", o)] ∧ (∀ x, o = some x → ReadAs x.1 x.2) ∧
    ∀ doc : Json, doc.member (chars (bytes "attributes")) = o.toList.map Prod.snd → AttributesDenote timer a doc := by
  have e0 : chars (bytes "attributes") = keyOf "attributes" := by decide +kernel
  have e1 : chars (bytes "display_min") = keyOf "display_min" := by decide +kernel
  have e2 : chars (bytes "display_units_long") = keyOf "display_units_long" := by decide +kernel
  have e3 : chars (bytes "display_units_short") = keyOf "display_units_short" := by decide +kernel
  have e4 : chars (bytes "display_transform") = keyOf "display_transform" := by decide +kernel
  cases a with
  | none => exact ⟨none, rfl, by simp, fun doc h => by rw [e0] at h; exact h⟩
  | operations =>
    obtain ⟨o1, g1, f1⟩ := text_slot short "display_min" (bytes "0")
    obtain ⟨o2, g2, f2⟩ := text_slot short "display_units_long" (bytes "operations")
    obtain ⟨o3, g3, f3⟩ := text_slot short "display_units_short" (bytes "ops")
    obtain ⟨text, doc, h1, h2, -, h3, h4⟩ := slots_read short [("display_min", o1), ("display_units_long", o2), ("display_units_short", o3)]
      (by
        intro s hs
        simp only [List.mem_cons, List.not_mem_nil, or_false] at hs
        rcases hs with rfl | rfl | rfl
        exacts [f1.1, f2.1, f3.1]) (by simp only [List.map]; decide +kernel)
    have e : objectText (jsonQuote short) [("display_min", some (jsonQuote short (bytes "0"))), ("display_units_long", some (jsonQuote short (bytes "operations"))), ("display_units_short", some (jsonQuote short (bytes "ops")))] = some text := by
      rw [← h1]
      congr 1
      refine (congrArg₂ (· ++ ·) g1 (congrArg₂ (· ++ ·) g2 g3)).trans ?_
      rw [← slotMembers_append, ← slotMembers_append]
      rfl
    refine ⟨some (text, doc), ?_, by rintro x ⟨⟩; exact h2, ?_⟩
    · exact congrArg (fun x => [("attributes", x)]) e
    · intro D hD
      refine ⟨doc, by rw [← e0]; exact hD, ?_, f2.has e2 (h3 _ _ (by simp)), f3.has e3 (h3 _ _ (by simp)), f1.has e1 (h3 _ _ (by simp))⟩
      intro k hk
      obtain ⟨s, hs, rfl⟩ := h4 k hk
      simp only [List.mem_cons, List.not_mem_nil, or_false] at hs
      rcases hs with rfl | rfl | rfl
      exacts [⟨_, by simp, e1⟩, ⟨_, by simp, e2⟩, ⟨_, by simp, e3⟩]
  | timer =>
    obtain ⟨o1, g1, f1⟩ := text_slot short "display_transform" timer.displayTransform
    obtain ⟨o2, g2, f2⟩ := text_slot short "display_units_short" timer.displayUnitsShort
    obtain ⟨text, doc, h1, h2, -, h3, h4⟩ := slots_read short [("display_transform", o1), ("display_units_short", o2)]
      (by
        intro s hs
        simp only [List.mem_cons, List.not_mem_nil, or_false] at hs
        rcases hs with rfl | rfl
        exacts [f1.1, f2.1]) (by simp only [List.map]; decide +kernel)
    have e : objectText (jsonQuote short) [("display_transform", some (jsonQuote short timer.displayTransform)), ("display_units_short", some (jsonQuote short timer.displayUnitsShort))] = some text := by
      rw [← h1]
      congr 1
      refine (congrArg₂ (· ++ ·) g1 g2).trans ?_
      rw [← slotMembers_append]
      rfl
    refine ⟨some (text, doc), ?_, by rintro x ⟨⟩; exact h2, ?_⟩
    · exact congrArg (fun x => [("attributes", x)]) e
    · intro D hD
      refine ⟨doc, by rw [← e0]; exact hD, ?_, f1.has e4 (h3 _ _ (by simp)), f2.has e3 (h3 _ _ (by simp))⟩
      intro k hk
      obtain ⟨s, hs, rfl⟩ := h4 k hk
      simp only [List.mem_cons, List.not_mem_nil, or_false] at hs
      rcases hs with rfl | rfl
      exacts [⟨_, by simp, e4⟩, ⟨_, by simp, e3⟩]

theorem value_text (v : GoMetrics.Field F64) (hv : representable v) : jsonValue (goJson sh short fun _ => []) v = some (jsonText (goJson sh short fun _ => []) v) := by
  have := (notNumberField_iff v).2 hv
  cases v <;> simp_all [jsonValue, notNumberField, jsonText, show bytes "null" = [110, 117, 108, 108] by decide]

theorem value_none (t : JsonText F64) (v : GoMetrics.Field F64) (hv : ¬ representable v) : jsonValue t v = none := by
  have h : notNumberField v = true := by rw [← Bool.not_eq_false, notNumberField_iff]; exact hv
  cases v <;> simp_all [jsonValue, notNumberField]

theorem measurement_none (t : JsonText F64) (m : Measurement F64) (v : GoMetrics.Field F64) (h1 : v ∈ m.numbers) (h2 : ¬ representable v) : measurementText t timer m = none := by
  have h3 := value_none t v h2
  have fl : ∀ (o : Option F64), v ∈ o.toList.map GoMetrics.Field.float → ∀ k : String, (k, none) ∈ optMember k (fun x => jsonValue t (.float x)) o := by
    intro o ho k
    cases o with
    | none => simp at ho
    | some x =>
      simp only [Option.toList_some, List.map_cons, List.map_nil, List.mem_singleton] at ho
      simp [optMember, ← ho, h3]
  simp only [Measurement.numbers, List.mem_append, List.mem_singleton] at h1
  obtain ⟨k, hk⟩ : ∃ k, (k, none) ∈ attributesText t timer m.attributes ++ optMember "count" (fun n : UInt64 => some (fmtInt n.toNat)) m.count ++ optMember "max" (fun x => jsonValue t (.float x)) m.max ++
      optMember "min" (fun x => jsonValue t (.float x)) m.min ++ [("name", some (t.quote (render t.errText m.name))), ("period", jsonValue t m.period)] ++ optMember "sum" (fun x => jsonValue t (.float x)) m.sum ++
      optMember "sum_squares" (fun x => jsonValue t (.float x)) m.sumSquares ++ optMember "value" (jsonValue t) m.value := by
    simp only [List.mem_append]
    rcases h1 with ((((h1 | h1) | h1) | h1) | h1) | h1
    · refine ⟨"value", .inr ?_⟩
      rw [Option.mem_toList] at h1
      rw [h1]
      simp [optMember, h3]
    · have := fl _ h1 "sum"; exact ⟨"sum", by tauto⟩
    · have := fl _ h1 "max"; exact ⟨"max", by tauto⟩
    · have := fl _ h1 "min"; exact ⟨"min", by tauto⟩
    · have := fl _ h1 "sum_squares"; exact ⟨"sum_squares", by tauto⟩
    · exact ⟨"period", .inl (.inl (.inl (.inr (by rw [← h1, h3]; simp))))⟩
  exact objectText_none _ hk

theorem batch_none (t : JsonText F64) (b : Batch F64) (v : GoMetrics.Field F64) (h1 : v ∈ b.numbers) (h2 : ¬ representable v) : batchText t timer b = none := by
  obtain ⟨m, hm, hv⟩ := List.mem_flatMap.1 h1
  have h3 := measurement_none timer t m v hv h2
  have h4 : ∀ k : String, ∀ ms : List (Measurement F64), m ∈ ms → (k, none) ∈ measurementsText t timer k ms := by
    intro k ms hm
    rw [measurementsText, if_neg (by intro h; rw [List.length_eq_zero_iff] at h; simp [h] at hm), arrayText_none (List.mem_map.2 ⟨m, hm, h3⟩)]
    simp
  rcases List.mem_append.1 hm with hm | hm
  · exact objectText_none (k := "counters") _ (by simp only [List.mem_append]; exact .inl (.inr (h4 _ _ hm)))
  · exact objectText_none (k := "gauges") _ (by simp only [List.mem_append]; exact .inl (.inl (h4 _ _ hm)))

theorem field_slot (v : GoMetrics.Field F64) (hv : representable v) :
    ∃ text j, jsonValue (goJson sh short fun _ => []) v = some text ∧ ReadAs text j ∧ IsNumber v j := by
  obtain ⟨j, h1, h2⟩ := jsonField_read sh short (fun _ => []) v hv
  exact ⟨_, j, value_text sh short v hv, h1, h2⟩

theorem measurement_read (m : Measurement F64) (hm : ∀ v ∈ m.numbers, representable v) :
    ∃ text j, measurementText (goJson sh short fun _ => []) timer m = some text ∧ ReadAs text j ∧ (∃ s, text = 123 :: s) ∧ MeasurementDenotes timer m j := by
  obtain ⟨oa, ga, fa, da⟩ := attributes_slot sh short timer m.attributes
  obtain ⟨oc, gc, fc⟩ := opt_slot "count" (f := fun n : UInt64 => some (fmtInt n.toNat)) (v := m.count) (P := fun n x => x = .num n.toNat)
    fun n _ => ⟨_, _, rfl, readAs_num fun rest hr => readNum_int (n.toNat : Int) hr, by simp⟩
  have fl : ∀ (o : Option F64), (∀ x ∈ o.toList.map GoMetrics.Field.float, x ∈ m.numbers) → ∀ x, o = some x → ∃ text j, jsonValue (goJson sh short fun _ => []) (.float x) = some text ∧ ReadAs text j ∧ IsFloat x j :=
    fun o ho x hx => field_slot sh short (.float x) (hm _ (ho _ (by simp [hx])))
  obtain ⟨ox, gx, fx⟩ := opt_slot "max" (fl m.max fun x hx => by simp only [Measurement.numbers, List.mem_append]; tauto)
  obtain ⟨on, gn, fn⟩ := opt_slot "min" (fl m.min fun x hx => by simp only [Measurement.numbers, List.mem_append]; tauto)
  obtain ⟨os, gs, fs⟩ := opt_slot "sum" (fl m.sum fun x hx => by simp only [Measurement.numbers, List.mem_append]; tauto)
  obtain ⟨oq, gq, fq⟩ := opt_slot "sum_squares" (fl m.sumSquares fun x hx => by simp only [Measurement.numbers, List.mem_append]; tauto)
  obtain ⟨ov, gv, fv⟩ := opt_slot "value" (f := jsonValue (goJson sh short fun _ => [])) (v := m.value) (P := IsNumber)
    fun v hv => field_slot sh short v (hm v (by simp only [Measurement.numbers, List.mem_append, hv]; simp))
  obtain ⟨ol, gl, fl⟩ := text_slot short "name" (nameText m)
  obtain ⟨op, gp, fp⟩ : ∃ o, [("period", jsonValue (goJson sh short fun _ => []) m.period)] = slotMembers [("period", o)] ∧ Fills (some m.period) IsNumber o :=
    opt_slot "period" (f := jsonValue (goJson sh short fun _ => [])) (v := some m.period) (P := IsNumber)
      fun v hv => by cases hv; exact field_slot sh short m.period (hm _ (by simp [Measurement.numbers]))
  obtain ⟨text, doc, h1, h2, h5, h3, h4⟩ := slots_read short [("attributes", oa), ("count", oc), ("max", ox), ("min", on), ("name", ol), ("period", op), ("sum", os), ("sum_squares", oq), ("value", ov)]
    (by
      intro s hs
      simp only [List.mem_cons, List.not_mem_nil, or_false] at hs
      rcases hs with rfl | rfl | rfl | rfl | rfl | rfl | rfl | rfl | rfl
      exacts [fa, fc.1, fx.1, fn.1, fl.1, fp.1, fs.1, fq.1, fv.1]) (by simp only [List.map]; decide +kernel)
  have e : measurementText (goJson sh short fun _ => []) timer m = some text := by
    rw [← h1]
    show objectText (jsonQuote short) _ = _
    congr 1
    rw [ga, gc, gx, gn, gs, gq, gv]
    show slotMembers [("attributes", oa)] ++ slotMembers [("count", oc)] ++ slotMembers [("max", ox)] ++ slotMembers [("min", on)] ++
      ([("name", some (jsonQuote short (nameText m)))] ++ [("period", jsonValue (goJson sh short fun _ => []) m.period)]) ++ slotMembers [("sum", os)] ++ slotMembers [("sum_squares", oq)] ++ slotMembers [("value", ov)] = _
    rw [gl, gp]
    simp only [← slotMembers_append]
    rfl
  refine ⟨text, doc, e, h2, h5, ?_, fl.has (by decide +kernel) (h3 _ _ (by simp)), fv.has (by decide +kernel) (h3 _ _ (by simp)), fc.has (by decide +kernel) (h3 _ _ (by simp)), fs.has (by decide +kernel) (h3 _ _ (by simp)),
    fx.has (by decide +kernel) (h3 _ _ (by simp)), fn.has (by decide +kernel) (h3 _ _ (by simp)), fq.has (by decide +kernel) (h3 _ _ (by simp)), fp.has (by decide +kernel) (h3 _ _ (by simp)), da doc (h3 _ _ (by simp))⟩
  intro k hk
  obtain ⟨s, hs, rfl⟩ := h4 k hk
  have : ∀ k ∈ ["attributes", "count", "max", "min", "name", "period", "sum", "sum_squares", "value"], chars (bytes k) = keyOf k ∧ k ∈ ["name", "value", "count", "sum", "max", "min", "sum_squares", "period", "attributes"] := by decide +kernel
  have hs : s.1 ∈ ["attributes", "count", "max", "min", "name", "period", "sum", "sum_squares", "value"] := List.mem_map.2 ⟨s, hs, rfl⟩
  exact ⟨s.1, (this _ hs).2, (this _ hs).1⟩

theorem measurements_slot (k : String) (ms : List (Measurement F64)) (hm : ∀ m ∈ ms, ∀ v ∈ m.numbers, representable v) :
    ∃ o, measurementsText (goJson sh short fun _ => []) timer k ms = slotMembers [(k, o)] ∧
      Fills (if ms = [] then none else some ms) (fun ms x => ∃ js, x = .arr js ∧ List.Forall₂ (MeasurementDenotes timer) ms js) o := by
  have hrec : ∀ ms : List (Measurement F64), (∀ m ∈ ms, ∀ v ∈ m.numbers, representable v) → ∃ l : List (Str × Json), ms.map (measurementText (goJson sh short fun _ => []) timer) = (l.map Prod.fst).map some ∧
      (∀ x ∈ l, ReadAs x.1 x.2) ∧ (∀ x ∈ l, ∃ s, x.1 = 123 :: s) ∧ List.Forall₂ (MeasurementDenotes timer) ms (l.map Prod.snd) := by
    intro ms
    induction ms with
    | nil => exact fun _ => ⟨[], rfl, by simp, by simp, .nil⟩
    | cons m ms ih =>
      intro hm
      obtain ⟨l, h1, h2, h3, h4⟩ := ih fun m hm' => hm m (by simp [hm'])
      obtain ⟨text, j, g1, g2, g3, g4⟩ := measurement_read sh short timer m (hm m (by simp))
      exact ⟨(text, j) :: l, by simp only [List.map_cons, h1, g1], List.forall_mem_cons.2 ⟨g2, h2⟩, List.forall_mem_cons.2 ⟨g3, h3⟩, .cons g4 h4⟩
  obtain ⟨l, h1, h2, h3, h4⟩ := hrec ms hm
  by_cases h0 : ms = []
  · subst h0
    exact ⟨none, rfl, by simp, rfl⟩
  · refine ⟨some ([91] ++ List.intercalate [44] (l.map Prod.fst) ++ [93], .arr (l.map Prod.snd)), ?_, by rintro x ⟨⟩; exact readAs_arr l h2 h3, ?_⟩
    · rw [measurementsText, if_neg (by simpa using h0), h1, arrayText_some]
      rfl
    · rw [if_neg h0]
      exact ⟨_, rfl, _, rfl, h4⟩

theorem batch_read (b : Batch F64) (hb : ∀ v ∈ b.numbers, representable v) :
    ∃ text doc, batchText (goJson sh short fun _ => []) timer b = some text ∧ ReadAs text doc ∧ BatchDenotes timer b doc := by
  have hm : ∀ m ∈ b.counters ++ b.gauges, ∀ v ∈ m.numbers, representable v := fun m hm v hv => hb v (List.mem_flatMap.2 ⟨m, hm, hv⟩)
  obtain ⟨og, gg, fg⟩ := measurements_slot sh short timer "gauges" b.gauges fun m h => hm m (by simp [h])
  obtain ⟨oc, gc, fc⟩ := measurements_slot sh short timer "counters" b.counters fun m h => hm m (by simp [h])
  obtain ⟨os, gs, fs⟩ := text_slot short "source" b.source
  obtain ⟨ot, gt, ft⟩ : ∃ o, [("measure_time", some (fmtInt b.measureTime.toInt))] = slotMembers [("measure_time", o)] ∧ Fills (some b.measureTime) (fun n x => x = .num n.toInt) o :=
    ⟨some (fmtInt b.measureTime.toInt, .num b.measureTime.toInt), rfl, by rintro x ⟨⟩; exact readAs_num fun rest hr => readNum_int _ hr, _, rfl, rfl⟩
  obtain ⟨text, doc, h1, h2, h5, h3, h4⟩ := slots_read short [("gauges", og), ("counters", oc), ("measure_time", ot), ("source", os)]
    (by
      intro s hs
      simp only [List.mem_cons, List.not_mem_nil, or_false] at hs
      rcases hs with rfl | rfl | rfl | rfl
      exacts [fg.1, fc.1, ft.1, fs.1]) (by simp only [List.map]; decide +kernel)
  refine ⟨text, doc, ?_, h2, ?_, ft.has (by decide +kernel) (h3 _ _ (by simp)), fs.has (by decide +kernel) (h3 _ _ (by simp)), fc.has (by decide +kernel) (h3 _ _ (by simp)), fg.has (by decide +kernel) (h3 _ _ (by simp))⟩
  · rw [← h1]
    show objectText (jsonQuote short) _ = _
    congr 1
    rw [gg, gc]
    show _ ++ _ ++ ([("measure_time", some (fmtInt b.measureTime.toInt))] ++ [("source", some (jsonQuote short b.source))]) = _
    rw [gt, gs]
    simp only [← slotMembers_append]
    rfl
  · intro k hk
    obtain ⟨s, hs, rfl⟩ := h4 k hk
    have : ∀ k ∈ ["gauges", "counters", "measure_time", "source"], chars (bytes k) = keyOf k ∧ k ∈ ["measure_time", "source", "counters", "gauges"] := by decide +kernel
    have hs : s.1 ∈ ["gauges", "counters", "measure_time", "source"] := List.mem_map.2 ⟨s, hs, rfl⟩
    exact ⟨s.1, (this _ hs).2, (this _ hs).1⟩

end

end GoMetrics
