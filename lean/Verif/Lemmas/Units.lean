import Verif.Model.Units
import Verif.Spec.Units
import Verif.Lemmas.Wire

/-! The texts of durations. -/

namespace GoMetrics
open Spec

theorem decDigits_small {n : Nat} (h : n < 10) : decDigits n = [digit n] := by simp [decDigits, appendDigits, h]

theorem decDigits_big {n : Nat} (h : 10 ≤ n) : ∃ b c s, decDigits n = b :: c :: s ∧ AllDigits (b :: c :: s) := by
  obtain ⟨h1, h2, h3⟩ := decDigits_spec n
  rcases hd : decDigits n with _ | ⟨b, _ | ⟨c, s⟩⟩
  · exact absurd hd h1
  · rw [hd] at h2 h3
    have := (h2 b (by simp)).2
    rw [UInt8.le_iff_toNat_le] at this
    simp [valFrom] at h3 this
    omega
  · exact ⟨b, c, s, rfl, hd ▸ h2⟩

/-- The digits of a number end with a digit. -/
theorem decDigits_last (n : Nat) : ∃ s b, decDigits n = s ++ [b] ∧ 48 ≤ b ∧ b ≤ 57 := by
  obtain ⟨h1, h2, -⟩ := decDigits_spec n
  obtain ⟨s, b, h⟩ := List.eq_nil_or_concat' (decDigits n) |>.resolve_left h1
  exact ⟨s, b, h, h2 b (by simp [h])⟩

theorem fmtFrac_true (prec : Nat) : ∀ (v : Nat) (acc : Str), ∃ ds, AllDigits ds ∧ fmtFrac prec v true acc = (46 :: (ds ++ acc), v / 10 ^ prec) := by
  induction prec with
  | zero => intro v acc; exact ⟨[], by simp [AllDigits], by simp [fmtFrac]⟩
  | succ prec ih =>
    intro v acc
    obtain ⟨ds, h1, h2⟩ := ih (v / 10) (digit (v % 10) :: acc)
    refine ⟨ds ++ [digit (v % 10)], ?_, ?_⟩
    · intro b hb
      rcases List.mem_append.1 hb with hb | hb
      · exact h1 b hb
      · rw [List.mem_singleton.1 hb]; exact digit_range (by omega)
    · simp only [fmtFrac, Bool.true_or, if_true, h2, Nat.div_div_eq_div_mul, pow_succ']
      simp

/-- A fraction: nothing if it is zero, otherwise a point and digits. -/
theorem fmtFrac_spec (prec : Nat) : ∀ (v : Nat) (acc : Str), ∃ ds, AllDigits ds ∧
    fmtFrac prec v false acc = (if v % 10 ^ prec = 0 then acc else 46 :: (ds ++ acc), v / 10 ^ prec) ∧ (v % 10 ^ prec ≠ 0 → ds ≠ []) := by
  induction prec with
  | zero => intro v acc; exact ⟨[], by simp [AllDigits], by simp [fmtFrac, Nat.mod_one], by simp [Nat.mod_one]⟩
  | succ prec ih =>
    intro v acc
    have hm : v % 10 ^ (prec + 1) = v % 10 + 10 * (v / 10 % 10 ^ prec) := by rw [pow_succ', Nat.mod_mul]
    have hd : v / 10 ^ (prec + 1) = v / 10 / 10 ^ prec := by rw [Nat.div_div_eq_div_mul, pow_succ']
    by_cases h0 : v % 10 = 0
    · obtain ⟨ds, h1, h2, h3⟩ := ih (v / 10) acc
      refine ⟨ds, h1, ?_, fun h => h3 (by omega)⟩
      simp only [fmtFrac, h0, Bool.false_or, hd, hm]
      simp [h2]
    · obtain ⟨ds, h1, h2⟩ := fmtFrac_true prec (v / 10) (digit (v % 10) :: acc)
      refine ⟨ds ++ [digit (v % 10)], ?_, ?_, by simp⟩
      · intro b hb
        rcases List.mem_append.1 hb with hb | hb
        · exact h1 b hb
        · rw [List.mem_singleton.1 hb]; exact digit_range (by omega)
      · have hne : v % 10 ^ (prec + 1) ≠ 0 := by omega
        have hb : (v % 10 != 0) = true := by simpa using h0
        simp only [fmtFrac, hb, Bool.false_or, if_true, h2, if_neg hne, hd]
        simp

/-- A unit name has no digits and no point. -/
theorem Spec.Names.no_digit {s : Str} {n : Int} (h : Names s n) : ∀ b ∈ s, ¬ (48 ≤ b ∧ b ≤ 57) ∧ b ≠ 46 := by
  have : ∀ x ∈ unitNames, ∀ b ∈ x.1, ¬ (48 ≤ b ∧ b ≤ 57) ∧ b ≠ 46 := by decide
  exact this _ h

/-- `decDigits v ++ frac ++ unit`. -/
def quantity (prec u : Nat) (unit : Str) : Str := decDigits (fmtFrac prec u false unit).2 ++ (fmtFrac prec u false unit).1

theorem Spec.Names.tail_quantity {prec u : Nat} {unit : Str} {n : Int} (h : Names ((quantity prec u unit).drop 1) n) :
    ∃ k < 10, u = k * 10 ^ prec ∧ (quantity prec u unit).drop 1 = unit := by
  obtain ⟨ds, h1, h2, h3⟩ := fmtFrac_spec prec u unit
  rw [quantity, h2] at h ⊢
  dsimp only at h ⊢
  by_cases hk : u / 10 ^ prec < 10
  · rw [decDigits_small hk] at h ⊢
    by_cases hf : u % 10 ^ prec = 0
    · refine ⟨_, hk, ?_, by simp [hf]⟩
      have := Nat.div_add_mod u (10 ^ prec)
      rw [hf, add_zero, mul_comm] at this
      exact this.symm
    · rw [if_neg hf] at h
      exact absurd rfl (h.no_digit 46 (by simp)).2
  · obtain ⟨b, c, s, h4, h5⟩ := decDigits_big (Nat.le_of_not_lt hk)
    rw [h4] at h
    exact absurd (h5 c (by simp)) (h.no_digit c (by simp)).1

theorem quantity_small {prec k : Nat} (hk : k < 10) (unit : Str) : quantity prec (k * 10 ^ prec) unit = digit k :: unit := by
  obtain ⟨ds, h1, h2, h3⟩ := fmtFrac_spec prec (k * 10 ^ prec) unit
  rw [quantity, h2]
  have : k * 10 ^ prec / 10 ^ prec = k := Nat.mul_div_cancel _ (by positivity)
  simp [this, decDigits_small hk]

/-- The number ends with a digit. -/
theorem quantity_last (prec u : Nat) (unit : Str) : ∃ s b, quantity prec u unit = s ++ b :: unit ∧ 48 ≤ b ∧ b ≤ 57 := by
  obtain ⟨ds, h1, h2, h3⟩ := fmtFrac_spec prec u unit
  rw [quantity, h2]
  by_cases hf : u % 10 ^ prec = 0
  · obtain ⟨s, b, h4, h5⟩ := decDigits_last (u / 10 ^ prec)
    exact ⟨s, b, by simp [hf, h4], h5⟩
  · obtain ⟨s, b, h⟩ := List.eq_nil_or_concat' ds |>.resolve_left (h3 hf)
    exact ⟨decDigits (u / 10 ^ prec) ++ 46 :: s, b, by simp [hf, h], h1 b (by simp [h])⟩

theorem subSecond_eq (u : Nat) : subSecond u =
    if u < 1000 then quantity 0 u (bytes "ns") else if u < 1000000 then quantity 3 u (bytes "µs") else quantity 6 u (bytes "ms") := by
  by_cases h1 : u < 1000
  · simp only [subSecond, quantity, if_pos h1]
  · by_cases h2 : u < 1000000
    · simp only [subSecond, quantity, if_neg h1, if_pos h2]
    · simp only [subSecond, quantity, if_neg h1, if_neg h2]

/-- The text before the seconds. -/
theorem hoursMinutesSeconds_eq (u : Nat) : ∃ pre, hoursMinutesSeconds u = pre ++ (decDigits (u / 10 ^ 9 % 60) ++ (fmtFrac 9 u false (bytes "s")).1) ∧
    (u < 60 * 10 ^ 9 → pre = []) ∧ (60 * 10 ^ 9 ≤ u → pre ≠ []) := by
  obtain ⟨ds, h1, h2, h3⟩ := fmtFrac_spec 9 u (bytes "s")
  unfold hoursMinutesSeconds
  rw [h2]
  dsimp only
  by_cases hm : u / 10 ^ 9 / 60 > 0
  · rw [if_pos hm]
    have hu : 60 * 10 ^ 9 ≤ u := by omega
    by_cases hh : u / 10 ^ 9 / 60 / 60 > 0
    · rw [if_pos hh]
      exact ⟨decDigits (u / 10 ^ 9 / 60 / 60) ++ bytes "h" ++ (decDigits (u / 10 ^ 9 / 60 % 60) ++ bytes "m"), by simp, fun h => absurd hu (by omega),
        fun _ => by simp [(decDigits_spec _).1]⟩
    · rw [if_neg hh]
      exact ⟨decDigits (u / 10 ^ 9 / 60 % 60) ++ bytes "m", by simp, fun h => absurd hu (by omega), fun _ => by simp [(decDigits_spec _).1]⟩
  · rw [if_neg hm]
    exact ⟨[], by simp, fun _ => rfl, fun h => by omega⟩

theorem digits_not_unit {s : Str} {n : Int} {b : UInt8} (hb : b ∈ s) (h : 48 ≤ b ∧ b ≤ 57) : ¬ Names s n :=
  fun hn => (hn.no_digit b hb).1 h

/-- The unit that the text of a duration ends with. -/
def lastUnit (u : Nat) : Str :=
  if u = 0 then bytes "s" else if u < 1000 then bytes "ns" else if u < 1000000 then bytes "µs" else if u < 1000000000 then bytes "ms" else bytes "s"

theorem names_iff {s : Str} {m n : Int} (h : (s, m) ∈ unitNames) (h' : ∀ x ∈ unitNames, x.1 = s → x.2 = m) : Names s n ↔ n = m :=
  ⟨fun hn => h' _ hn rfl, fun e => e ▸ h⟩

theorem durAbs_last (u : Nat) : ∃ s b, durAbs u = s ++ b :: lastUnit u ∧ 48 ≤ b ∧ b ≤ 57 := by
  unfold durAbs lastUnit
  by_cases h0 : u = 0
  · exact ⟨[], 48, by simp only [if_pos h0]; decide, by decide⟩
  rw [if_neg h0, if_neg h0]
  by_cases h3 : u < 1000000000
  · rw [if_pos h3, if_pos h3, subSecond_eq]
    by_cases h1 : u < 1000
    · rw [if_pos h1, if_pos h1]; exact quantity_last _ _ _
    · rw [if_neg h1, if_neg h1]
      by_cases h2 : u < 1000000
      · rw [if_pos h2, if_pos h2]; exact quantity_last _ _ _
      · rw [if_neg h2, if_neg h2]; exact quantity_last _ _ _
  · rw [if_neg h3, if_neg (by omega), if_neg (by omega), if_neg h3]
    obtain ⟨pre, h4, -, -⟩ := hoursMinutesSeconds_eq u
    obtain ⟨ds, h5, h6, h7⟩ := fmtFrac_spec 9 u (bytes "s")
    rw [h4, h6]
    dsimp only
    by_cases hf : u % 10 ^ 9 = 0
    · obtain ⟨s, b, h8, h9⟩ := decDigits_last (u / 10 ^ 9 % 60)
      rw [if_pos hf, h8]
      exact ⟨pre ++ s, b, by simp, h9⟩
    · obtain ⟨s, b, h8⟩ := List.eq_nil_or_concat' ds |>.resolve_left (h7 hf)
      rw [if_neg hf]
      exact ⟨pre ++ decDigits (u / 10 ^ 9 % 60) ++ 46 :: s, b, by simp [h8], h5 b (by simp [h8])⟩

/-- The text of a duration ends with a digit and a unit. -/
theorem durString_last (d : Int64) : ∃ s b, durString d = s ++ b :: lastUnit d.toInt.natAbs ∧ 48 ≤ b ∧ b ≤ 57 := by
  obtain ⟨s, b, h1, h2⟩ := durAbs_last d.toInt.natAbs
  unfold durString
  split
  · exact ⟨45 :: s, b, by rw [h1]; rfl, h2⟩
  · exact ⟨s, b, h1, h2⟩

theorem lastUnit_noDigit (u : Nat) : ∀ b ∈ lastUnit u, isDigit b = false := by
  unfold lastUnit
  split
  · decide
  · split
    · decide
    · split
      · decide
      · split <;> decide

theorem unitSuffix_durString (d : Int64) : unitSuffix (durString d) = lastUnit d.toInt.natAbs := by
  obtain ⟨s, b, h1, h2, h3⟩ := durString_last d
  have hb : isDigit b = true := by simp [isDigit, h2, h3]
  have hall : ∀ x ∈ (lastUnit d.toInt.natAbs).reverse, (!isDigit x) = true := by
    intro x hx
    rw [lastUnit_noDigit _ x (by simpa using hx)]; rfl
  rw [unitSuffix, h1, List.reverse_append, List.reverse_cons, List.append_assoc, List.takeWhile_append_of_pos hall]
  simp [hb]

theorem hoursMinutesSeconds_short {u : Nat} (h : u < 60 * 10 ^ 9) : hoursMinutesSeconds u = quantity 9 u (bytes "s") := by
  obtain ⟨pre, h4, h5, -⟩ := hoursMinutesSeconds_eq u
  obtain ⟨ds, -, h6, -⟩ := fmtFrac_spec 9 u (bytes "s")
  have : u / 10 ^ 9 % 60 = u / 10 ^ 9 := Nat.mod_eq_of_lt (by omega)
  rw [h4, h5 h, quantity, h6, this]; rfl

theorem not_names_long {u : Nat} (h : 60 * 10 ^ 9 ≤ u) (n : Int) : ¬ Names ((hoursMinutesSeconds u).drop 1) n := by
  obtain ⟨pre, h4, -, h5⟩ := hoursMinutesSeconds_eq u
  obtain ⟨b, s, h6, h7⟩ := dec_head (u / 10 ^ 9 % 60)
  obtain ⟨c, pre, rfl⟩ := List.exists_cons_of_ne_nil (h5 h)
  rw [h4, h6]
  exact digits_not_unit (b := b) (by simp) h7

/-- The text of a duration without its first byte is a unit name in these cases only. -/
theorem names_tail_abs {u : Nat} {n : Int} : Names ((durAbs u).drop 1) n ↔
    (u = 0 ∧ n = 1000000000) ∨ (n ∈ [1, 1000, 1000000, 1000000000] ∧ ∃ k : Int, 1 ≤ k ∧ k ≤ 9 ∧ (u : Int) = k * n) := by
  have nns : Names (bytes "ns") n ↔ n = 1 := names_iff (by decide) (by decide)
  have nus : Names (bytes "µs") n ↔ n = 1000 := names_iff (by decide) (by decide)
  have nms : Names (bytes "ms") n ↔ n = 1000000 := names_iff (by decide) (by decide)
  have ns : Names (bytes "s") n ↔ n = 1000000000 := names_iff (by decide) (by decide)
  constructor
  · intro h
    unfold durAbs at h
    by_cases h0 : u = 0
    · rw [if_pos h0] at h
      exact .inl ⟨h0, ns.1 h⟩
    right
    rw [if_neg h0] at h
    by_cases h3 : u < 1000000000
    · rw [if_pos h3, subSecond_eq] at h
      by_cases h1 : u < 1000
      · rw [if_pos h1] at h
        obtain ⟨k, hk, e, hu⟩ := h.tail_quantity
        rw [hu, nns] at h
        subst h
        exact ⟨by simp, k, by omega, by omega, by omega⟩
      · rw [if_neg h1] at h
        by_cases h2 : u < 1000000
        · rw [if_pos h2] at h
          obtain ⟨k, hk, e, hu⟩ := h.tail_quantity
          rw [hu, nus] at h
          subst h
          exact ⟨by simp, k, by omega, by omega, by omega⟩
        · rw [if_neg h2] at h
          obtain ⟨k, hk, e, hu⟩ := h.tail_quantity
          rw [hu, nms] at h
          subst h
          exact ⟨by simp, k, by omega, by omega, by omega⟩
    · rw [if_neg h3] at h
      by_cases h4 : u < 60 * 10 ^ 9
      · rw [hoursMinutesSeconds_short h4] at h
        obtain ⟨k, hk, e, hu⟩ := h.tail_quantity
        rw [hu, ns] at h
        subst h
        exact ⟨by simp, k, by omega, by omega, by omega⟩
      · exact absurd h (not_names_long (by omega) n)
  · rintro (⟨rfl, rfl⟩ | ⟨hn, k, h1, h2, h3⟩)
    · exact (by decide : (List.drop 1 (durAbs 0), (1000000000 : Int)) ∈ unitNames)
    · lift k to Nat using by omega
      have hk : k < 10 := by omega
      simp only [List.mem_cons, List.not_mem_nil, or_false] at hn
      unfold durAbs
      rcases hn with rfl | rfl | rfl | rfl
      · obtain rfl : u = k * 10 ^ 0 := by omega
        rw [if_neg (by omega), if_pos (by omega), subSecond_eq, if_pos (by omega), quantity_small hk]
        exact nns.2 rfl
      · obtain rfl : u = k * 10 ^ 3 := by omega
        rw [if_neg (by omega), if_pos (by omega), subSecond_eq, if_neg (by omega), if_pos (by omega), quantity_small hk]
        exact nus.2 rfl
      · obtain rfl : u = k * 10 ^ 6 := by omega
        rw [if_neg (by omega), if_pos (by omega), subSecond_eq, if_neg (by omega), if_neg (by omega), quantity_small hk]
        exact nms.2 rfl
      · obtain rfl : u = k * 10 ^ 9 := by omega
        rw [if_neg (by omega), if_neg (by omega), hoursMinutesSeconds_short (by omega), quantity_small hk]
        exact ns.2 rfl

theorem names_tail {d : Int64} {n : Int} : Names ((durString d).drop 1) n ↔
    (d.toInt = 0 ∧ n = 1000000000) ∨ (n ∈ [1, 1000, 1000000, 1000000000] ∧ ∃ k : Int, 1 ≤ k ∧ k ≤ 9 ∧ d.toInt = k * n) := by
  unfold durString
  by_cases hd : d < 0
  · have hd' : d.toInt < 0 := by simpa [Int64.lt_iff_toInt_lt] using hd
    rw [if_pos hd, List.drop_succ_cons, List.drop_zero]
    constructor
    · intro h
      obtain ⟨s, b, h1, h2⟩ := durAbs_last d.toInt.natAbs
      rw [h1] at h
      exact absurd h (digits_not_unit (b := b) (by simp) h2)
    · rintro (⟨h, -⟩ | ⟨hn, k, h1, -, h3⟩)
      · omega
      · simp only [List.mem_cons, List.not_mem_nil, or_false] at hn
        rcases hn with rfl | rfl | rfl | rfl <;> omega
  · have hd' : 0 ≤ d.toInt := by simpa [Int64.lt_iff_toInt_lt] using hd
    rw [if_neg hd, names_tail_abs, Int.natCast_natAbs, abs_of_nonneg hd']
    constructor <;> rintro (⟨h, h'⟩ | h) <;> first | exact .inr h | exact .inl ⟨by omega, h'⟩

end GoMetrics
