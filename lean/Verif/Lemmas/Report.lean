import Verif.Spec.Report
import Verif.Lemmas.WireExport
import Verif.Lemmas.Units

/-! The reports of `WriteOnce`, `Log` and `Syslog` can be read back. -/

namespace GoMetrics
open Spec

/-! ### Lines and words -/

theorem cut_append {sep : UInt8} {s t : Str} (h : sep ∉ s) : cut sep (s ++ sep :: t) = some (s, t) := by
  induction s with
  | nil => simp [cut]
  | cons b s ih =>
    have hb : b ≠ sep := fun e => h (by simp [e])
    rw [List.cons_append, cut, if_neg hb, ih (fun hs => h (by simp [hs]))]
    rfl

theorem splitOn_append {sep : UInt8} (s t : Str) : splitOn sep (s ++ sep :: t) = splitOn sep s ++ splitOn sep t := by
  induction s with
  | nil => simp [splitOn]
  | cons b s ih =>
    rw [List.cons_append, splitOn, splitOn, ih]
    have hne : splitOn sep s ≠ [] := by
      cases s with
      | nil => simp [splitOn]
      | cons c s => rw [splitOn]; split <;> [simp; (split <;> simp)]
    split
    · simp
    · cases hs : splitOn sep s with
      | nil => exact absurd hs hne
      | cons w ws => simp

theorem joinWords_splitOn (s : Str) : joinWords (splitOn 32 s) = s := by
  induction s with
  | nil => rfl
  | cons b s ih =>
    rw [splitOn]
    have hne : splitOn 32 s ≠ [] := by
      cases s with
      | nil => simp [splitOn]
      | cons c s => rw [splitOn]; split <;> [simp; (split <;> simp)]
    cases hs : splitOn 32 s with
    | nil => exact absurd hs hne
    | cons w ws =>
      rw [hs] at ih
      split
      · rename_i hb
        subst hb
        have : joinWords ([] :: w :: ws) = 32 :: joinWords (w :: ws) := by simp [joinWords, List.intersperse]
        rw [this, ih]
      · cases ws with
        | nil => simp only [joinWords, List.intersperse] at ih ⊢; simp_all
        | cons v ws =>
          simp only [joinWords, List.intersperse] at ih ⊢
          simp only [List.flatten_cons, List.cons_append] at ih ⊢
          rw [ih]

/-! ### Rows -/

theorem dropSpaces_replicate (n : Nat) (s : Str) : (List.replicate n 32 ++ s).dropWhile (· = 32) = s.dropWhile (· = 32) := by
  induction n with
  | zero => rfl
  | succ n ih => rw [List.replicate_succ, List.cons_append, List.dropWhile_cons_of_pos (by simp), ih]

theorem dropSpaces_plain {s : Str} (t : Str) (h : Plain s) (hs : s ≠ []) : (s ++ t).dropWhile (· = 32) = s ++ t := by
  cases s with
  | nil => exact absurd rfl hs
  | cons b s =>
    have hb : b ≠ 32 := fun e => absurd (h b (by simp)) (by rw [e]; decide)
    rw [List.cons_append, List.dropWhile_cons_of_neg (by simpa using hb)]

theorem takeWhile_digits {w s : Str} (hw : ∀ b ∈ w, 48 ≤ b ∧ b ≤ 57) (hs : ∀ b ∈ s.head?, isDigit b = false) : (w ++ s).takeWhile isDigit = w ∧ (w ++ s).dropWhile isDigit = s := by
  induction w with
  | nil =>
    cases s with
    | nil => simp
    | cons b s => simp [hs b (by simp)]
  | cons b w ih =>
    have hb : isDigit b = true := by simp only [isDigit, Bool.and_eq_true, decide_eq_true_eq]; exact hw b (by simp)
    have := ih fun c hc => hw c (by simp [hc])
    simp [hb, this]

/-- A minimum width only adds spaces. -/
theorem fmtValue_width (errText : Nat → Str) {width : Str} (hw : IsWidth width) (v : Field F64) : ∃ n, fmtValue errText (width ++ verb v) v = List.replicate n 32 ++ fmtValue errText (verb v) v := by
  have pad : ∀ (n : Nat) (s : Str), ∃ m, padLeft n s = List.replicate m 32 ++ padLeft 0 s := fun n s => ⟨_, by rw [padLeft_zero]; rfl⟩
  have parts : ∀ (s : Str), (∀ b ∈ s.head?, isDigit b = false) → directiveParts (width ++ s) = (numberIn width, (directiveParts s).2) := by
    intro s hs
    have h1 := takeWhile_digits hw.1 hs
    have h2 := takeWhile_digits (w := []) (by simp) hs
    simp only [List.nil_append] at h2
    unfold directiveParts
    rw [h1.1, h1.2, h2.2]
    split <;> rfl
  cases v with
  | int n =>
    have h := parts (bytes "d") (by decide)
    simp only [verb, fmtValue, h]
    exact pad _ _
  | float x =>
    have h := parts (bytes ".2f") (by decide)
    simp only [verb, fmtValue, h]
    exact pad _ _
  | bits b =>
    have h := parts (bytes "f") (by decide)
    simp only [verb, fmtValue, h]
    exact pad _ _
  | errText e =>
    have h := parts (bytes "v") (by decide)
    simp only [verb, fmtValue, h]
    exact pad _ _
  | nil =>
    have h := parts (bytes "v") (by decide)
    simp only [verb, fmtValue, h]
    exact pad _ _

theorem fmtValue_err (errText : Nat → Str) (e : Nat) : fmtValue errText (verb (.errText e : Field F64)) (.errText e) = errText e := by
  show padLeft 0 _ = _
  exact padLeft_zero _

theorem fmtValue_nil (errText : Nat → Str) : fmtValue errText (verb (.nil : Field F64)) .nil = bytes "<nil>" := by
  show padLeft 0 _ = _
  exact padLeft_zero _

theorem readNumber_nil : readNumber [] = none := by decide +kernel

/-- The text of a value without leading spaces says the value. -/
theorem fmtValue_says (errText : Nat → Str) (v : Field F64) : SaysExactly errText v (fmtValue errText (verb v) v) ∧ Says errText v ((fmtValue errText (verb v) v).dropWhile (· = 32)) := by
  have num : ∀ v : Field F64, Numeric v → (fmtValue errText (verb v) v).dropWhile (· = 32) = fmtValue errText (verb v) v := by
    intro v hv
    obtain ⟨h1, x, h2, -⟩ := fmtValue_spec errText hv
    have := dropSpaces_plain [] h1 (fun e => by rw [e, readNumber_nil] at h2; cases h2)
    simpa using this
  cases v with
  | int n => exact ⟨(fmtValue_spec errText (v := .int n) trivial).2, by rw [num (.int n) trivial]; exact (fmtValue_spec errText (v := .int n) trivial).2⟩
  | float n => exact ⟨(fmtValue_spec errText (v := .float n) trivial).2, by rw [num (.float n) trivial]; exact (fmtValue_spec errText (v := .float n) trivial).2⟩
  | bits n => exact ⟨(fmtValue_spec errText (v := .bits n) trivial).2, by rw [num (.bits n) trivial]; exact (fmtValue_spec errText (v := .bits n) trivial).2⟩
  | errText e => rw [fmtValue_err]; exact ⟨rfl, rfl⟩
  | nil => rw [fmtValue_nil]; exact ⟨rfl, (by decide : (bytes "<nil>").dropWhile (fun x => decide (x = 32)) = bytes "<nil>")⟩

/-- No value contains a newline if no error does. -/
theorem fmtValue_line {errText : Nat → Str} (he : ∀ e, (10 : UInt8) ∉ errText e) (v : Field F64) : (10 : UInt8) ∉ fmtValue errText (verb v) v := by
  have num : ∀ v : Field F64, Numeric v → (10 : UInt8) ∉ fmtValue errText (verb v) v := fun v hv => (fmtValue_spec errText hv).1.no (by decide)
  cases v with
  | int n => exact num _ trivial
  | float n => exact num _ trivial
  | bits n => exact num _ trivial
  | errText e => rw [fmtValue_err]; exact he e
  | nil => rw [fmtValue_nil]; decide

theorem label_no {o : Obj F64} {l : String} {c : Call F64} (h : means o l = some c) : (10 : UInt8) ∉ bytes l ∧ (58 : UInt8) ∉ bytes l := by
  have key : ∀ l ∈ allLabels, (10 : UInt8) ∉ bytes l ∧ (58 : UInt8) ∉ bytes l := by decide +kernel
  exact key l (means_mem h)

theorem printed_line (errText : Nat → Str) (l : List (Piece (Field F64))) : textOfEvents (render errText) [.print l] = render errText l := by simp [textOfEvents]

theorem render_val (errText : Nat → Str) (d : Str) (v : Field F64) (l : List (Piece (Field F64))) : render errText (.val d v :: l) = fmtValue errText d v ++ render errText l := rfl

/-- The line of a row. -/
theorem row_read {errText : Nat → Str} (he : ∀ e, (10 : UInt8) ∉ errText e) {unit : Str} (hu : (10 : UInt8) ∉ unit) {row : String × Field F64} {e : Event F64} (h : paddedLine unit row e)
    (hl : (10 : UInt8) ∉ bytes row.1 ∧ (58 : UInt8) ∉ bytes row.1) :
    ∃ l, textOfEvents (render errText) [e] = l ++ [10] ∧ (10 : UInt8) ∉ l ∧ l.head? = some 32 ∧ readRow l = some (bytes row.1, (fmtValue errText (verb row.2) row.2 ++ unit).dropWhile (· = 32)) := by
  obtain ⟨n, width, hw, rfl⟩ := h
  obtain ⟨m, hm⟩ := fmtValue_width errText hw row.2
  have h10 := fmtValue_line he row.2
  refine ⟨32 :: 32 :: (bytes row.1 ++ 58 :: (32 :: (List.replicate n 32 ++ (List.replicate m 32 ++ (fmtValue errText (verb row.2) row.2 ++ unit))))), ?_, ?_, rfl, ?_⟩
  · rw [printed_line]
    simp only [render_append, render_text, render_val, hm]
    have e1 : bytes "  " = [32, 32] := by decide
    have e2 : bytes ": " = [58, 32] := by decide
    rw [e1, e2]
    simp
  · simp only [List.mem_cons, List.mem_append, List.mem_replicate, not_or]
    refine ⟨by decide, by decide, hl.1, by decide, by decide, by simp, by simp, h10, hu⟩
  · rw [readRow, cut_append hl.2]
    simp only [Option.map_some]
    rw [List.dropWhile_cons_of_pos (by simp), dropSpaces_replicate, dropSpaces_replicate]

/-! ### Blocks -/

theorem readBlocks_rows {rl : List Str} {xs rows : List (Str × Str)} {ls : List Str} {es : List Entry} (h : List.Forall₂ (fun l x => l.head? = some 32 ∧ readRow l = some x) rl xs)
    (hr : readBlocks ls = some (rows, es)) : readBlocks (rl ++ ls) = some (xs ++ rows, es) := by
  induction h with
  | nil => exact hr
  | cons h _ ih =>
    rw [List.cons_append, readBlocks, ih]
    simp [h.1, h.2]

/-- The reader turns the text of `evs` into the entry `e`. -/
def ReadsBlock (errText : Nat → Str) (evs : List (Event F64)) (e : Entry) : Prop :=
  ∃ ls, textOfEvents (render errText) evs = (ls.map fun l => l ++ [10]).flatten ∧ (∀ l ∈ ls, (10 : UInt8) ∉ l) ∧
    ∀ ls' es, readBlocks ls' = some ([], es) → readBlocks (ls ++ ls') = some ([], e :: es)

theorem kindWord_ok {o : Obj F64} (h : o.isMetric = true) : ∃ b s, bytes (kindWord o) = b :: s ∧ b ≠ 32 ∧ (32 : UInt8) ∉ bytes (kindWord o) ∧ (10 : UInt8) ∉ bytes (kindWord o) := by
  cases o <;> first | (cases h; done) | skip
  all_goals simp only [kindWord]
  all_goals exact ⟨_, _, rfl, by decide, by decide, by decide⟩

/-- The text of a block is read as an entry. `T row s`: what is found in the row. -/
theorem block_read {errText : Nat → Str} (he : ∀ e, (10 : UInt8) ∉ errText e) {unit : String → Str} (hu : ∀ l, (10 : UInt8) ∉ unit l) {name : Str} (hn : (10 : UInt8) ∉ name) {o : Obj F64} (ho : o.isMetric = true)
    {rows : List (String × Field F64)} {evs : List (Event F64)} (h : PaddedBlock unit name o rows evs) (hl : ∀ row ∈ rows, (10 : UInt8) ∉ bytes row.1 ∧ (58 : UInt8) ∉ bytes row.1)
    {T : String × Field F64 → Str → Prop} (hT : ∀ row ∈ rows, T row ((fmtValue errText (verb row.2) row.2 ++ unit row.1).dropWhile (· = 32))) :
    ∃ e, ReadsBlock errText evs e ∧ IsEntry T name o rows e := by
  obtain ⟨rest, rfl, hf⟩ := h
  obtain ⟨b, s, k1, k2, k3, k4⟩ := kindWord_ok ho
  have key : ∃ ls xs, textOfEvents (render errText) rest = (ls.map fun l => l ++ [10]).flatten ∧ (∀ l ∈ ls, (10 : UInt8) ∉ l) ∧
      List.Forall₂ (fun l x => l.head? = some 32 ∧ readRow l = some x) ls xs ∧ List.Forall₂ (fun row x => x.1 = bytes row.1 ∧ T row x.2) rows xs := by
    clear k1 k2 k3 k4
    induction hf with
    | nil => exact ⟨[], [], rfl, by simp, .nil, .nil⟩
    | @cons row e rows evs h1 _ ih =>
      obtain ⟨ls, xs, h2, h3, h4, h5⟩ := ih (fun row hr => hl row (by simp [hr])) fun row hr => hT row (by simp [hr])
      obtain ⟨l, h6, h7, h8, h9⟩ := row_read he (hu _) h1 (hl row (by simp))
      refine ⟨l :: ls, _ :: xs, by rw [textOfEvents_cons, h6, h2]; simp, ?_, .cons ⟨h8, h9⟩ h4, .cons ⟨rfl, hT row (by simp)⟩ h5⟩
      intro l' hl'
      rcases List.mem_cons.1 hl' with rfl | hl'
      · exact h7
      · exact h3 _ hl'
  obtain ⟨ls, xs, h2, h3, h4, h5⟩ := key
  refine ⟨⟨bytes (kindWord o), name, xs⟩, ⟨(bytes (kindWord o) ++ 32 :: name) :: ls, ?_, ?_, ?_⟩, rfl, rfl, h5⟩
  · rw [textOfEvents_cons, printed_line, h2]
    simp [render_append, render_text]
  · intro l hl'
    rcases List.mem_cons.1 hl' with rfl | hl'
    · simp only [List.mem_append, List.mem_cons, not_or]
      exact ⟨k4, by decide, hn⟩
    · exact h3 _ hl'
  · intro ls' es hr
    have h6 := readBlocks_rows h4 hr
    rw [List.cons_append, readBlocks, h6]
    have hh : ((bytes (kindWord o) ++ 32 :: name).head? = some 32) = False := by rw [k1]; simp [k2]
    simp only [hh, if_false, cut_append k3, List.append_nil]
    rfl

/-- All blocks. -/
theorem blocks_read {errText : Nat → Str} {α : Type} {blocks : List (α × List (Event F64))} {P : α → Entry → Prop} (h : ∀ b ∈ blocks, ∃ e, ReadsBlock errText b.2 e ∧ P b.1 e) :
    ∃ es, readReport (textOfEvents (render errText) (blocks.map Prod.snd).flatten) = some es ∧ List.Forall₂ P (blocks.map Prod.fst) es := by
  have app : ∀ a b : List (Event F64), textOfEvents (render errText) (a ++ b) = textOfEvents (render errText) a ++ textOfEvents (render errText) b := by
    intro a b
    induction a with
    | nil => rfl
    | cons e a ih => cases e <;> simp [textOfEvents, ih]
  have key : ∃ ls es, textOfEvents (render errText) (blocks.map Prod.snd).flatten = (ls.map fun l => l ++ [10]).flatten ∧ (∀ l ∈ ls, (10 : UInt8) ∉ l) ∧ readBlocks ls = some ([], es) ∧
      List.Forall₂ P (blocks.map Prod.fst) es := by
    induction blocks with
    | nil => exact ⟨[], [], rfl, by simp, rfl, .nil⟩
    | cons b blocks ih =>
      obtain ⟨ls, es, h1, h2, h3, h4⟩ := ih fun b hb => h b (by simp [hb])
      obtain ⟨e, ⟨l, h5, h6, h7⟩, h8⟩ := h b (by simp)
      refine ⟨l ++ ls, e :: es, ?_, ?_, h7 _ _ h3, .cons h8 h4⟩
      · rw [List.map_cons, List.flatten_cons, app, h5, h1]; simp
      · intro x hx
        exact (List.mem_append.1 hx).elim (h6 x) (h2 x)
  obtain ⟨ls, es, h1, h2, h3, h4⟩ := key
  refine ⟨es, ?_, h4⟩
  rw [h1, readReport, splitOn_lines ls h2]
  simp [h3]

/-! ### Quantities with units -/

theorem fmtFixed_last (k : Nat) (x : F64) : ∃ s b, fmtFixed (k + 1) x = s ++ [b] ∧ (b = 78 ∨ b = 102 ∨ 48 ≤ b ∧ b ≤ 57) := by
  cases x with
  | nan => exact ⟨bytes "Na", 78, (by decide : bytes "NaN" = bytes "Na" ++ [78]), .inl rfl⟩
  | inf b => cases b <;> [exact ⟨bytes "+In", 102, (by decide : bytes "+Inf" = bytes "+In" ++ [102]), .inr (.inl rfl)⟩; exact ⟨bytes "-In", 102, (by decide : bytes "-Inf" = bytes "-In" ++ [102]), .inr (.inl rfl)⟩]
  | fin q =>
    simp only [fmtFixed, fracDigits, Nat.add_eq_zero_iff, Nat.one_ne_zero, and_false, if_false]
    refine ⟨_, digit (_ % 10), by rw [← List.cons_append, ← List.append_assoc], .inr (.inr (digit_range (Nat.mod_lt _ (by omega))))⟩

theorem names_line {s : Str} {n : Int} (h : Names s n) : (10 : UInt8) ∉ s := by
  have key : ∀ x ∈ unitNames, (10 : UInt8) ∉ x.1 := by decide
  exact key _ h

/-- A number followed by the name of a unit. -/
theorem readQuantity_eq {k : Nat} {x : F64} {unit : Str} {n : Int} (hu : Names unit n) : ∃ v, readQuantity (fmtFixed (k + 1) x ++ unit) = some (v, n) ∧ Near (k + 1) x v := by
  obtain ⟨v, h1, h2⟩ := near_fixed (k + 1) x
  obtain ⟨s, b, h3, h4⟩ := fmtFixed_last k x
  refine ⟨v, ?_, h2⟩
  have hb : b ≠ 110 ∧ b ≠ 109 ∧ b ≠ 181 := by
    rcases h4 with rfl | rfl | h4
    · decide
    · decide
    · refine ⟨?_, ?_, ?_⟩ <;> (rintro rfl; exact absurd h4.2 (by decide))
  have hun : unitNames = [([110, 115], 1), ([194, 181, 115], 1000), ([109, 115], 1000000), ([115], 1000000000), ([109], 60000000000), ([104], 3600000000000)] := by decide
  have ht : ∀ u : Str, (s ++ b :: u).take (s.length + 1) = s ++ [b] := by
    intro u
    rw [List.take_append, List.take_of_length_le (by omega)]
    simp
  rw [h3] at h1 ⊢
  rw [Names, hun] at hu
  simp only [List.mem_cons, Prod.mk.injEq, List.not_mem_nil, or_false] at hu
  have e : s ++ [b] ++ unit = s ++ b :: unit := by simp
  rw [e, readQuantity, hun]
  rcases hu with ⟨rfl, rfl⟩ | ⟨rfl, rfl⟩ | ⟨rfl, rfl⟩ | ⟨rfl, rfl⟩ | ⟨rfl, rfl⟩ | ⟨rfl, rfl⟩
  all_goals
    simp only [List.findSome?_cons, List.isSuffixOf, List.reverse_append, List.reverse_cons, List.reverse_nil, List.nil_append, List.cons_append, List.isPrefixOf, Bool.and_eq_true, beq_iff_eq]
  all_goals simp [hb.1.symm, hb.2.1.symm, hb.2.2.symm, h1, ht]

/-! ### Messages -/

theorem words_rows (pre : Str) (rows : List (Str × Str)) (h : ∀ x ∈ rows, (32 : UInt8) ∉ x.1 ∧ (32 : UInt8) ∉ x.2) :
    splitOn 32 (pre ++ (rows.map fun x => 32 :: (x.1 ++ 58 :: 32 :: x.2)).flatten) = splitOn 32 pre ++ (rows.map fun x => [x.1 ++ [58], x.2]).flatten := by
  induction rows generalizing pre with
  | nil => simp
  | cons x rows ih =>
    have hx := h x (by simp)
    have e : pre ++ ((x :: rows).map fun x => 32 :: (x.1 ++ 58 :: 32 :: x.2)).flatten = pre ++ 32 :: ((x.1 ++ [58]) ++ 32 :: (x.2 ++ (rows.map fun x => 32 :: (x.1 ++ 58 :: 32 :: x.2)).flatten)) := by simp
    rw [e, splitOn_append, splitOn_cons (by simp [hx.1]), ih _ fun x hx => h x (by simp [hx]), splitOn_self hx.2]
    simp

/-- Rows that are not the first one of a message. -/
theorem readPairs_later (ws : List Str) (rows : List (Str × Str)) (h : ∀ x ∈ rows, x.1 ≠ bytes "count" ∧ x.1 ≠ bytes "value") (acc : List (Str × Str)) :
    readPairs ((rows.map fun x => [x.1 ++ [58], x.2]).flatten.reverse ++ ws) acc = readPairs ws (rows ++ acc) := by
  have hc : bytes "count:" = bytes "count" ++ [58] := by decide
  have hv : bytes "value:" = bytes "value" ++ [58] := by decide
  induction rows using List.reverseRecOn generalizing acc with
  | nil => rfl
  | append_singleton rows x ih =>
    have hx := h x (by simp)
    have e : ((rows ++ [x]).map fun x => [x.1 ++ [58], x.2]).flatten.reverse ++ ws = x.2 :: (x.1 ++ [58]) :: ((rows.map fun x => [x.1 ++ [58], x.2]).flatten.reverse ++ ws) := by simp
    have h1 : ¬ (x.1 ++ [58] = bytes "count:" ∨ x.1 ++ [58] = bytes "value:") := by
      rw [hc, hv]
      rintro (h | h)
      · exact hx.1 (List.append_cancel_right h)
      · exact hx.2 (List.append_cancel_right h)
    rw [e, readPairs]
    simp only [List.getLast?_append, List.getLast?_singleton, Option.some_or, if_true, h1, if_false, List.dropLast_concat]
    rw [ih (fun x hx => h x (by simp [hx]))]
    simp

theorem readPairs_all (ws : List Str) (x : Str × Str) (rows : List (Str × Str)) (hx : x.1 = bytes "count" ∨ x.1 = bytes "value") (h : ∀ x ∈ rows, x.1 ≠ bytes "count" ∧ x.1 ≠ bytes "value") :
    readPairs (((x :: rows).map fun x => [x.1 ++ [58], x.2]).flatten.reverse ++ ws) [] = some (ws, x :: rows) := by
  have e : ((x :: rows).map fun x => [x.1 ++ [58], x.2]).flatten.reverse ++ ws = (rows.map fun x => [x.1 ++ [58], x.2]).flatten.reverse ++ (x.2 :: (x.1 ++ [58]) :: ws) := by simp
  rw [e, readPairs_later _ _ h, readPairs]
  have h1 : x.1 ++ [58] = bytes "count:" ∨ x.1 ++ [58] = bytes "value:" := by
    rcases hx with h | h <;> rw [h] <;> decide
  simp only [List.getLast?_append, List.getLast?_singleton, Option.some_or, if_true, h1, List.dropLast_concat, List.append_nil]

theorem cutAt_colon {name t : Str} {sep : Str} (h : (58 : UInt8) ∉ name) : cutAt (58 :: sep) (name ++ (58 :: sep ++ t)) = some (name, t) := by
  induction name with
  | nil =>
    rw [List.nil_append, List.cons_append, cutAt, if_pos (by simp [List.isPrefixOf])]
    simp
  | cons b s ih =>
    have hb : b ≠ 58 := fun e => h (by simp [e])
    rw [List.cons_append, cutAt, if_neg (by simp [List.isPrefixOf, hb.symm]), ih (fun hs => h (by simp [hs]))]
    rfl

end GoMetrics
