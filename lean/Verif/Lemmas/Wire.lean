import Verif.Spec.Wire
import Verif.Lemmas.Round
import Verif.Lemmas.ExportBlocks

/-! Numbers printed by `fmt` read back, and lines and words can be told apart. -/

namespace GoMetrics
open Spec

/-! ### Digits -/

/-- The value of a string of digits after `n`. -/
def valFrom (n : Nat) (s : Str) : Nat := s.foldl (fun n b => 10 * n + (b.toNat - 48)) n

def AllDigits (s : Str) : Prop := ∀ b ∈ s, 48 ≤ b ∧ b ≤ 57

theorem valFrom_append (n : Nat) (s t : Str) : valFrom n (s ++ t) = valFrom (valFrom n s) t := by simp [valFrom]

theorem digit_toNat {d : Nat} (h : d < 10) : (digit d).toNat = 48 + d := by
  unfold digit
  rw [UInt8.toNat_add, UInt8.toNat_ofNat']
  simp only [UInt8.reduceToNat]
  omega

theorem digit_range {d : Nat} (h : d < 10) : 48 ≤ digit d ∧ digit d ≤ 57 := by
  constructor <;> rw [UInt8.le_iff_toNat_le, digit_toNat h] <;> simp <;> omega

theorem valFrom_digit (n : Nat) {d : Nat} (h : d < 10) : valFrom n [digit d] = 10 * n + d := by
  simp only [valFrom, List.foldl, digit_toNat h]; omega

theorem appendDigits_spec (fuel : Nat) : ∀ (n : Nat) (acc : Str), n < 10 ^ (fuel + 1) →
    ∃ ds, appendDigits (fuel + 1) n acc = ds ++ acc ∧ ds ≠ [] ∧ AllDigits ds ∧ valFrom 0 ds = n := by
  induction fuel with
  | zero =>
    intro n acc h
    have h : n < 10 := by simpa using h
    refine ⟨[digit n], by simp [appendDigits, h], by simp, ?_, by simp [valFrom_digit _ h]⟩
    intro b hb
    rw [List.mem_singleton.1 hb]
    exact digit_range h
  | succ fuel ih =>
    intro n acc h
    rw [appendDigits]
    split
    · rename_i h
      refine ⟨[digit n], rfl, by simp, ?_, by simp [valFrom_digit _ h]⟩
      intro b hb
      rw [List.mem_singleton.1 hb]
      exact digit_range h
    · have hd : n % 10 < 10 := Nat.mod_lt _ (by omega)
      obtain ⟨ds, h1, h2, h3, h4⟩ := ih (n / 10) (digit (n % 10) :: acc) (by rw [pow_succ] at h; omega)
      refine ⟨ds ++ [digit (n % 10)], by rw [h1]; simp, by simp, ?_, ?_⟩
      · intro b hb
        rcases List.mem_append.1 hb with hb | hb
        · exact h3 b hb
        · rw [List.mem_singleton.1 hb]
          exact digit_range hd
      · rw [valFrom_append, h4, valFrom_digit _ hd]; omega

theorem decDigits_spec (n : Nat) : decDigits n ≠ [] ∧ AllDigits (decDigits n) ∧ valFrom 0 (decDigits n) = n := by
  have h : n < 10 ^ (n.log2 + 1) := lt_of_lt_of_le Nat.lt_log2_self (Nat.pow_le_pow_left (by omega) _)
  obtain ⟨ds, h1, h2, h3, h4⟩ := appendDigits_spec n.log2 n [] h
  rw [List.append_nil] at h1
  rw [decDigits, h1]
  exact ⟨h2, h3, h4⟩

theorem fracDigits_spec (k n : Nat) : (fracDigits k n).length = k ∧ AllDigits (fracDigits k n) ∧ valFrom 0 (fracDigits k n) = n % 10 ^ k := by
  induction k generalizing n with
  | zero => simp [fracDigits, AllDigits, valFrom, Nat.mod_one]
  | succ k ih =>
    have hd : n % 10 < 10 := Nat.mod_lt _ (by omega)
    obtain ⟨h1, h2, h3⟩ := ih (n / 10)
    refine ⟨by simp [fracDigits, h1], ?_, ?_⟩
    · intro b hb
      rcases List.mem_append.1 hb with hb | hb
      · exact h2 b hb
      · rw [List.mem_singleton.1 hb]
        exact digit_range hd
    · rw [fracDigits, valFrom_append, h3, valFrom_digit _ hd, pow_succ, Nat.mul_comm (10 ^ k), Nat.mod_mul]; omega

theorem readDigits_eq {s : Str} (h1 : s ≠ []) (h2 : AllDigits s) : readDigits s = some (valFrom 0 s) := by
  rw [readDigits, if_pos ⟨h1, h2⟩]; rfl

theorem readDigits_dec (n : Nat) : readDigits (decDigits n) = some n := by
  obtain ⟨h1, h2, h3⟩ := decDigits_spec n
  rw [readDigits_eq h1 h2, h3]

theorem dec_head (n : Nat) : ∃ b s, decDigits n = b :: s ∧ 48 ≤ b ∧ b ≤ 57 := by
  obtain ⟨h1, h2, -⟩ := decDigits_spec n
  obtain ⟨b, s, h⟩ := List.exists_cons_of_ne_nil h1
  exact ⟨b, s, h, h2 b (by rw [h]; simp)⟩

theorem readInt_fmtInt (z : Int) : readInt (fmtInt z) = some z := by
  rw [fmtInt]
  split
  · simp only [readInt, readDigits_dec]
    show some (-(z.natAbs : Int)) = some z
    congr 1; omega
  · obtain ⟨b, s, h, h1, h2⟩ := dec_head z.natAbs
    have hb : b ≠ 45 := by rintro rfl; exact absurd h1 (by decide)
    have := readDigits_dec z.natAbs
    rw [h] at this ⊢
    unfold readInt
    split
    · rename_i s' he; exact absurd (List.cons.inj he).1 hb
    · rw [this]
      show some (z.natAbs : Int) = some z
      congr 1; omega

/-! ### Words and lines -/

theorem splitOn_self {sep : UInt8} {s : Str} (h : sep ∉ s) : splitOn sep s = [s] := by
  induction s with
  | nil => rfl
  | cons b s ih =>
    rw [splitOn, if_neg (by rintro rfl; simp at h), ih (fun hh => h (by simp [hh]))]

theorem splitOn_cons {sep : UInt8} {s t : Str} (h : sep ∉ s) : splitOn sep (s ++ sep :: t) = s :: splitOn sep t := by
  induction s with
  | nil => simp [splitOn]
  | cons b s ih =>
    rw [List.cons_append, splitOn, if_neg (by rintro rfl; simp at h), ih (fun hh => h (by simp [hh]))]

theorem splitOn_lines {sep : UInt8} (ls : List Str) (h : ∀ l ∈ ls, sep ∉ l) : splitOn sep (ls.map fun l => l ++ [sep]).flatten = ls ++ [[]] := by
  induction ls with
  | nil => rfl
  | cons l ls ih =>
    rw [List.map_cons, List.flatten_cons, List.append_assoc, List.singleton_append, splitOn_cons (h l (by simp)), ih fun l hl => h l (by simp [hl])]
    rfl

theorem readLines_eq (line : Str → Option Sample) (ls : List Str) (h : ∀ l ∈ ls, (10 : UInt8) ∉ l) : readLines line (ls.map fun l => l ++ [10]).flatten = ls.mapM line := by
  rw [readLines, splitOn_lines ls h]
  simp

theorem mapM_of_forall₂ {line : Str → Option Sample} {ls : List Str} {ss : List Sample} (h : List.Forall₂ (fun l s => line l = some s) ls ss) : ls.mapM line = some ss := by
  induction h with
  | nil => rfl
  | cons h _ ih => simp [h, ih]

/-! ### Floats -/

theorem AllDigits.plain {s : Str} (h : AllDigits s) : Plain s := fun b hb => UInt8.lt_of_lt_of_le (by decide) (h b hb).1

theorem AllDigits.no_point {s : Str} (h : AllDigits s) : (46 : UInt8) ∉ s := fun hb => absurd (h _ hb).1 (by decide)

/-- The digits of a fixed-point number. -/
def fixedText (k m : Nat) : Str := decDigits (m / 10 ^ k) ++ if k = 0 then [] else 46 :: fracDigits k m

theorem readDecimal_fixed (k m : Nat) : readDecimal (fixedText k m) = some ((m : ℚ) / 10 ^ k) := by
  obtain ⟨h1, h2, h3⟩ := decDigits_spec (m / 10 ^ k)
  unfold fixedText
  split
  · rename_i hk
    subst hk
    rw [List.append_nil, readDecimal, splitOn_self h2.no_point]
    simp [readDigits_dec]
  · rename_i hk
    obtain ⟨h4, h5, h6⟩ := fracDigits_spec k m
    have h7 : fracDigits k m ≠ [] := by intro he; rw [he] at h4; simp at h4; omega
    rw [readDecimal, splitOn_cons h2.no_point, splitOn_self h5.no_point]
    simp only [readDigits_dec, readDigits_eq h7 h5, h6, h4]
    show some (((m / 10 ^ k : ℕ) : ℚ) + ((m % 10 ^ k : ℕ) : ℚ) / 10 ^ k) = _
    congr 1
    have hm : (m : ℚ) = (10 : ℚ) ^ k * ((m / 10 ^ k : ℕ) : ℚ) + ((m % 10 ^ k : ℕ) : ℚ) := by
      have := Nat.div_add_mod m (10 ^ k)
      exact_mod_cast this.symm
    have hp : (10 : ℚ) ^ k ≠ 0 := by positivity
    rw [hm]
    field_simp

theorem fixed_head (k m : Nat) : ∃ b s, fixedText k m = b :: s ∧ 48 ≤ b ∧ b ≤ 57 := by
  obtain ⟨b, s, h, h1⟩ := dec_head (m / 10 ^ k)
  exact ⟨b, _, by rw [fixedText, h]; rfl, h1⟩

theorem readNumber_pos (k m : Nat) : readNumber (fixedText k m) = some (.num ((m : ℚ) / 10 ^ k)) := by
  obtain ⟨b, s, h, h1, h2⟩ := fixed_head k m
  have hd := readDecimal_fixed k m
  rw [h] at hd ⊢
  have e1 : b ≠ 78 := by rintro rfl; exact absurd h2 (by decide)
  have e2 : b ≠ 43 := by rintro rfl; exact absurd h1 (by decide)
  have e3 : b ≠ 45 := by rintro rfl; exact absurd h1 (by decide)
  unfold readNumber
  rw [if_neg (by intro he; exact e1 (List.cons.inj (show b :: s = 78 :: _ from he)).1), if_neg (by intro he; exact e2 (List.cons.inj (show b :: s = 43 :: _ from he)).1),
    if_neg (by intro he; exact e3 (List.cons.inj (show b :: s = 45 :: _ from he)).1)]
  split
  · rename_i he; exact absurd (List.cons.inj he).1 e3
  · rw [hd]; rfl

theorem readNumber_neg (k m : Nat) : readNumber (45 :: fixedText k m) = some (.num (-((m : ℚ) / 10 ^ k))) := by
  obtain ⟨b, s, h, h1, h2⟩ := fixed_head k m
  have hd := readDecimal_fixed k m
  rw [h] at hd ⊢
  have e1 : b ≠ 73 := by rintro rfl; exact absurd h2 (by decide)
  unfold readNumber
  rw [if_neg (by intro he; exact absurd (List.cons.inj (show (45 : UInt8) :: b :: s = 78 :: _ from he)).1 (by decide)),
    if_neg (by intro he; exact absurd (List.cons.inj (show (45 : UInt8) :: b :: s = 43 :: _ from he)).1 (by decide)),
    if_neg (by intro he; exact e1 (List.cons.inj (List.cons.inj (show (45 : UInt8) :: b :: s = 45 :: 73 :: _ from he)).2).1)]
  simp [hd]

theorem readNumber_int (z : Int) : readNumber (fmtInt z) = some (.num z) := by
  have h0 : ∀ m, fixedText 0 m = decDigits m := fun m => by simp [fixedText]
  rw [fmtInt]
  split
  · rw [← h0, readNumber_neg]
    simp only [pow_zero, div_one, Option.some.injEq, Reading.num.injEq]
    have : (z : ℚ) = ((-(z.natAbs : ℤ) : ℤ) : ℚ) := by congr 1; omega
    rw [this, Int.cast_neg, Int.cast_natCast]
  · rw [← h0, readNumber_pos]
    simp only [pow_zero, div_one, Option.some.injEq, Reading.num.injEq]
    have : (z : ℚ) = ((z.natAbs : ℤ) : ℚ) := by congr 1; omega
    rw [this, Int.cast_natCast]

theorem near_fixed (k : Nat) (x : F64) : ∃ v, readNumber (fmtFixed k x) = some v ∧ Near k x v := by
  rcases x with _ | b | q
  · exact ⟨.nan, rfl, rfl⟩
  · cases b
    · exact ⟨.inf false, rfl, rfl⟩
    · exact ⟨.inf true, rfl, rfl⟩
  · have hp : (0 : ℚ) < 10 ^ k := by positivity
    set m := (roundEven (|q| * 10 ^ k)).toNat with hm
    have h0 : 0 ≤ roundEven (|q| * 10 ^ k) := by
      have := roundEven_mono (K := ℚ) (x := 0) (y := |q| * 10 ^ k) (by positivity)
      rwa [roundEven_zero] at this
    have hmz : ((m : ℤ) : ℚ) = (roundEven (|q| * 10 ^ k) : ℚ) := by rw [hm, Int.toNat_of_nonneg h0]
    have he := roundEven_err (|q| * 10 ^ k)
    rw [← hmz] at he
    have key : |((m : ℤ) : ℚ) / 10 ^ k - abs q| ≤ 1 / (2 * 10 ^ k) := by
      have : ((m : ℤ) : ℚ) / 10 ^ k - |q| = (((m : ℤ) : ℚ) - |q| * 10 ^ k) / 10 ^ k := by field_simp
      rw [this, abs_div, abs_of_pos hp, div_le_iff₀ hp]
      refine he.trans (le_of_eq ?_)
      field_simp
    by_cases hq : q < 0
    · refine ⟨.num (-((m : ℚ) / 10 ^ k)), ?_, -(m : ℤ), ?_, ?_⟩
      · have : fmtFixed k (.fin q) = 45 :: fixedText k m := by simp [fmtFixed, hq, fixedText, hm]
        rw [this, readNumber_neg]
      · push_cast; rw [neg_div]
      · rw [abs_of_neg hq] at key
        rw [← abs_neg]
        convert key using 2
        push_cast; ring
    · refine ⟨.num ((m : ℚ) / 10 ^ k), ?_, (m : ℤ), ?_, ?_⟩
      · have : fmtFixed k (.fin q) = fixedText k m := by simp [fmtFixed, hq, fixedText, hm]
        rw [this, readNumber_pos]
      · push_cast; rfl
      · rw [abs_of_nonneg (not_lt.1 hq)] at key
        exact key

theorem fixed_plain (k m : Nat) : Plain (fixedText k m) := by
  intro b hb
  rcases List.mem_append.1 hb with hb | hb
  · exact (decDigits_spec _).2.1.plain b hb
  · split at hb
    · simp at hb
    · rcases List.mem_cons.1 hb with rfl | hb
      · decide
      · exact (fracDigits_spec k m).2.1.plain b hb

theorem fmtFixed_plain (k : Nat) (x : F64) : Plain (fmtFixed k x) := by
  rcases x with _ | b | q
  · show Plain (bytes "NaN")
    unfold Plain; decide
  · cases b
    · show Plain (bytes "+Inf")
      unfold Plain; decide
    · show Plain (bytes "-Inf")
      unfold Plain; decide
  · by_cases hq : q < 0
    · have : fmtFixed k (.fin q) = 45 :: fixedText k (roundEven (|q| * 10 ^ k)).toNat := by simp [fmtFixed, hq, fixedText]
      rw [this]
      intro b hb
      rcases List.mem_cons.1 hb with rfl | hb
      · decide
      · exact fixed_plain _ _ b hb
    · have : fmtFixed k (.fin q) = fixedText k (roundEven (|q| * 10 ^ k)).toNat := by simp [fmtFixed, hq, fixedText]
      rw [this]
      exact fixed_plain _ _

theorem fmtInt_plain (z : Int) : Plain (fmtInt z) := by
  unfold fmtInt
  split
  · intro b hb
    rcases List.mem_cons.1 hb with rfl | hb
    · decide
    · exact (decDigits_spec _).2.1.plain b hb
  · exact (decDigits_spec _).2.1.plain

/-! ### Lines of the exporters -/

/-- The values that have a numeric text. -/
def Numeric : Field F64 → Prop
  | .int _ | .float _ | .bits _ => True
  | _ => False

theorem padLeft_zero (s : Str) : padLeft 0 s = s := by simp [padLeft]

theorem fmtValue_int (errText : Nat → Str) (n : Int64) : fmtValue errText [100] (.int n) = fmtInt n.toInt := by
  show padLeft 0 _ = _
  exact padLeft_zero _

theorem fmtValue_spec (errText : Nat → Str) {v : Field F64} (hv : Numeric v) : Plain (fmtValue errText (verb v) v) ∧ ∃ x, readNumber (fmtValue errText (verb v) v) = some x ∧ Reads v x := by
  cases v with
  | int n =>
    have : fmtValue errText (verb (.int n : Field F64)) (.int n) = fmtInt n.toInt := fmtValue_int errText n
    rw [this]
    exact ⟨fmtInt_plain _, _, readNumber_int _, rfl⟩
  | float x =>
    have : fmtValue errText (verb (.float x : Field F64)) (.float x) = fmtFixed 2 x := by
      show padLeft 0 (fmtFixed 2 x) = _
      exact padLeft_zero _
    rw [this]
    exact ⟨fmtFixed_plain _ _, near_fixed _ _⟩
  | bits b =>
    have : fmtValue errText (verb (.bits b : Field F64)) (.bits b) = fmtFixed 6 (.ofBits b) := by
      show padLeft 0 (fmtFixed 6 (.ofBits b)) = _
      exact padLeft_zero _
    rw [this]
    exact ⟨fmtFixed_plain _ _, near_fixed _ _⟩
  | errText e => exact hv.elim
  | nil => exact hv.elim

theorem render_append (errText : Nat → Str) (l m : List (Piece (Field F64))) : render errText (l ++ m) = render errText l ++ render errText m := by
  induction l with
  | nil => rfl
  | cons p l ih => cases p <;> simp [render, ih]

theorem render_text (errText : Nat → Str) (s : Str) : render errText (textOf s) = s := by
  induction s with
  | nil => rfl
  | cons b s ih =>
    show b :: render errText (textOf s) = _
    rw [ih]

theorem Spec.Plain.no {s : Str} (h : Plain s) {b : UInt8} (hb : ¬ 32 < b) : b ∉ s := fun hs => hb (h b hs)

theorem Spec.Plain.append {s t : Str} (hs : Plain s) (ht : Plain t) : Plain (s ++ t) := fun b hb => (List.mem_append.1 hb).elim (hs b) (ht b)

theorem Spec.Plain.cons {b : UInt8} {t : Str} (hb : 32 < b) (ht : Plain t) : Plain (b :: t) := fun c hc => (List.mem_cons.1 hc).elim (fun e => e ▸ hb) (ht c)

theorem Spec.Plain.path {pre name label : Str} (h1 : Plain pre) (h2 : Plain name) (h3 : Plain label) : Plain (pathOf pre name label) :=
  h1.append (.cons (by decide) (h2.append (.cons (by decide) h3)))

theorem Spec.IsLabel.plain {s : Str} (h : IsLabel s) : Plain s := by
  intro b hb
  rcases h.2 b hb with h | h | rfl
  · exact UInt8.lt_of_lt_of_le (by decide) h.1
  · exact UInt8.lt_of_lt_of_le (by decide) h.1
  · decide

theorem graphite_read (errText : Nat → Str) {pre name : Str} {now : Int64} {label : Str} {v : Field F64} {e : Event F64} (h : GraphiteLine pre name now label v e) (h1 : Plain pre) (h2 : Plain name)
    (h3 : Plain label) (hv : Numeric v) : ∃ l s, textOfEvents (render errText) [e] = l ++ [10] ∧ (10 : UInt8) ∉ l ∧ readGraphiteLine l = some s ∧ IsSample pre name now [] label v s := by
  obtain ⟨k1, x, k2, k3⟩ := fmtValue_spec errText hv
  have hp := h1.path h2 h3
  have hn := fmtInt_plain now.toInt
  refine ⟨pathOf pre name label ++ 32 :: (fmtValue errText (verb v) v ++ 32 :: fmtInt now.toInt), { path := pathOf pre name label, value := x, time := now.toInt }, ?_, ?_, ?_, rfl, rfl, rfl, k3⟩
  · unfold GraphiteLine at h
    subst h
    simp only [textOfEvents, render_append, render_text, render, fmtValue_int, pathOf, List.append_nil, List.append_assoc, List.cons_append, List.nil_append]
  · have hp' := hp.no (b := 10) (by decide)
    have hn' := hn.no (b := 10) (by decide)
    have hk' := k1.no (b := 10) (by decide)
    simp [hp', hn', hk']
  · rw [readGraphiteLine, splitOn_cons (hp.no (by decide)), splitOn_cons (k1.no (by decide)), splitOn_self (hn.no (by decide))]
    simp [k2, readInt_fmtInt]

theorem openTSDB_read (errText : Nat → Str) {pre name : Str} {now : Int64} {host label : Str} {v : Field F64} {e : Event F64} (h : OpenTSDBLine pre name now host label v e) (h1 : Plain pre) (h2 : Plain name)
    (h3 : Plain label) (h4 : Plain host) (hv : Numeric v) : ∃ l s, textOfEvents (render errText) [e] = l ++ [10] ∧ (10 : UInt8) ∉ l ∧ readOpenTSDBLine l = some s ∧ IsSample pre name now [bytes "host=" ++ host] label v s := by
  obtain ⟨k1, x, k2, k3⟩ := fmtValue_spec errText hv
  have hp := h1.path h2 h3
  have hn := fmtInt_plain now.toInt
  have hh : Plain (bytes "host=" ++ host) := Plain.append (by unfold Plain; decide) h4
  have hput : (32 : UInt8) ∉ bytes "put" := by decide
  refine ⟨bytes "put" ++ 32 :: (pathOf pre name label ++ 32 :: (fmtInt now.toInt ++ 32 :: (fmtValue errText (verb v) v ++ 32 :: (bytes "host=" ++ host)))),
    { path := pathOf pre name label, value := x, time := now.toInt, tags := [bytes "host=" ++ host] }, ?_, ?_, ?_, rfl, rfl, rfl, k3⟩
  · unfold OpenTSDBLine at h
    subst h
    have e1 : bytes "put " = bytes "put" ++ [32] := by decide
    have e2 : bytes " host=" = 32 :: bytes "host=" := by decide
    simp only [textOfEvents, render_append, render_text, render, fmtValue_int, pathOf, List.append_nil, List.append_assoc, List.cons_append, List.nil_append, e1, e2]
  · have hp' := hp.no (b := 10) (by decide)
    have hn' := hn.no (b := 10) (by decide)
    have hk' := k1.no (b := 10) (by decide)
    have hh' := hh.no (b := 10) (by decide)
    have hput' : (10 : UInt8) ∉ bytes "put" := by decide
    simp only [List.mem_append, List.mem_cons] at hh' ⊢
    simp [hp', hn', hk', hh', hput']
  · rw [readOpenTSDBLine, splitOn_cons hput, splitOn_cons (hp.no (by decide)), splitOn_cons (hn.no (by decide)), splitOn_cons (k1.no (by decide)), splitOn_self (hh.no (by decide))]
    simp [k2, readInt_fmtInt]

/-! ### Values of metrics are numbers -/

/-- A result that is not an error. -/
def NoErr : Res (Out F64) → Prop
  | .ok (.err _) => False
  | _ => True

theorem statOf_noErr (l : List Int64) (s : StatCall F64) : NoErr (statOf l s) := by
  cases s with
  | percentile p => simp only [statOf]; rcases samplePercentile l p with _ | _ <;> exact True.intro
  | percentiles p => simp only [statOf]; rcases samplePercentiles l p with _ | _ <;> exact True.intro
  | _ => trivial

theorem nilStat_noErr (s : StatCall F64) : NoErr (.ok (nilStat s)) := by cases s <;> trivial

/-- The calls that read a number. -/
def numericCall : Call F64 → Bool
  | .count | .value | .stat _ | .rates _ => true
  | _ => false

theorem callSample_noErr (env : Env F64) (r : Ref) (c : Call F64) (hc : numericCall c = true) (w : World F64) : NoErr (callSample env r c w).2 := by
  have key : ∀ s, NoErr (sampleCall env r s c w).2 := by
    intro s
    cases s <;> cases c <;> first
      | (cases hc; done)
      | exact True.intro
      | (rename_i s x; simp only [sampleCall]; split <;> exact statOf_noErr _ _)
      | (rename_i s x; exact statOf_noErr _ _)
      | (rename_i x; exact nilStat_noErr _)
  rw [callSample, act_bind_getObj]
  rcases w.objs r with _ | o
  · exact True.intro
  · cases o <;> first | exact True.intro | exact key _

theorem histCall_noErr (env : Env F64) (r : Ref) (h : HistV) (c : Call F64) (hc : numericCall c = true) (w : World F64) : NoErr (histCall env r h c w).2 := by
  cases h <;> cases c <;> first
    | (cases hc; done)
    | exact True.intro
    | exact callSample_noErr _ _ _ rfl _
    | exact nilStat_noErr _

theorem callHist_noErr (env : Env F64) (r : Ref) (c : Call F64) (hc : numericCall c = true) (w : World F64) : NoErr (callHist env r c w).2 := by
  rw [callHist, act_bind_getObj]
  rcases w.objs r with _ | o
  · exact True.intro
  · cases o <;> first | exact True.intro | exact histCall_noErr _ _ _ _ hc _

theorem meterCall_noErr (env : Env F64) (r : Ref) (m : Meter F64) (c : Call F64) (hc : numericCall c = true) (w : World F64) : NoErr (meterCall env r m c w).2 := by
  cases c <;> first
    | (cases hc; done)
    | exact True.intro

theorem callMeter_noErr (env : Env F64) (r : Ref) (c : Call F64) (hc : numericCall c = true) (w : World F64) : NoErr (callMeter env r c w).2 := by
  rw [callMeter, act_bind_getObj]
  rcases w.objs r with _ | o
  · exact True.intro
  · cases o <;> first | exact True.intro | exact meterCall_noErr _ _ _ _ hc _

/-- What a metric that is not a healthcheck shows is a number. -/
theorem call_noErr (env : Env F64) (r : Ref) (c : Call F64) (hc : numericCall c = true) (w : World F64) (o : Obj F64) (ho : w.objs r = some o) (hh : isHealth o = false) :
    NoErr (call env r c w).2 := by
  rw [call_obj ho]
  cases o with
  | counter x => cases c <;> first | (cases hc; done) | exact True.intro
  | gauge x => cases c <;> first | (cases hc; done) | exact True.intro
  | gaugeF x => cases c <;> first | (cases hc; done) | exact True.intro
  | health x => cases hh
  | ewma x => cases c <;> first | (cases hc; done) | exact True.intro
  | meter m => exact meterCall_noErr _ _ _ _ hc _
  | hist x => exact histCall_noErr _ _ _ _ hc _
  | sample s =>
    have := callSample_noErr env r c hc w
    rw [callSample, act_bind_getObj, ho] at this
    exact this
  | timer t =>
    cases t <;> cases c <;> first
      | (cases hc; done)
      | exact True.intro
      | exact callHist_noErr _ _ _ rfl _
      | exact callMeter_noErr _ _ _ rfl _
      | exact nilStat_noErr _

theorem numeric_of_holds {w : World F64} {env : Env F64} {r : Ref} {o : Obj F64} {c : Call F64} {v : Field F64} (ho : w.objs r = some o) (hh : isHealth o = false) (hc : numericCall c = true)
    (h : Holds w env r c v) : Numeric v := by
  by_cases hs : c = .stat .stdDev
  · rw [h.1 hs]; trivial
  · have h1 := h.2 hs
    have hck : checked env w r = w := by
      unfold checked
      rw [ho]
      cases o <;> first | rfl | cases hh
    rw [hck] at h1
    have h2 := call_noErr env r c hc w o ho hh
    unfold observe at h1
    revert h1 h2
    rcases (call env r c w).2 with p | out
    · exact fun h => h.elim
    · cases out with
      | err e => exact fun _ h => h.elim
      | int n => rintro rfl -; trivial
      | bits n => rintro rfl -; trivial
      | float n => rintro rfl -; trivial
      | _ => exact fun h => h.elim

theorem numericCall_stats {ps : List F64} {o : Obj F64} (hh : isHealth o = false) : ∀ c ∈ statsOf ps o, numericCall c = true := by
  intro c hc
  cases o with
  | health x => cases hh
  | _ =>
    simp only [statsOf, distribution, allRates, List.mem_append, List.mem_cons, List.mem_map, List.not_mem_nil, or_false] at hc <;>
    first
      | (rcases hc with rfl | rfl | rfl | rfl | rfl <;> rfl)
      | (subst hc; rfl)
      | (rcases hc with (rfl | rfl | rfl | rfl | rfl) | ⟨p, -, rfl⟩ <;> rfl)
      | (rcases hc with ((rfl | rfl | rfl | rfl | rfl) | ⟨p, -, rfl⟩) | rfl | rfl | rfl | rfl <;> rfl)

theorem numeric_inUnitInt {d : Int64} {du : F64} {v : Field F64} (h : Numeric v) : Numeric (inUnitInt d du v) := by
  cases v <;> trivial

/-- The values of a complete list of rows are numbers. -/
theorem Spec.Complete.numeric {w : World F64} {env : Env F64} {r : Ref} {o : Obj F64} {ps : List F64} {conv : Call F64 → Field F64 → Field F64} {rows : List (String × Field F64)}
    (h : Complete w env r o ps conv rows) (ho : w.objs r = some o) (hh : isHealth o = false) (hconv : ∀ c v, Numeric v → Numeric (conv c v)) : ∀ row ∈ rows, Numeric row.2 := by
  intro row hr
  have h1 : means o row.1 ∈ (statsOf ps o).map some := h.1.mem_iff.1 (List.mem_map.2 ⟨row, hr, rfl⟩)
  obtain ⟨c, hc, he⟩ := List.mem_map.1 h1
  obtain ⟨v, hv, hx⟩ := h.2 row hr c he.symm
  rw [hx]
  exact hconv c v (numeric_of_holds ho hh (numericCall_stats hh c hc) hv)

end GoMetrics
