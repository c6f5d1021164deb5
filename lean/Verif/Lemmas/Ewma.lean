import Verif.Spec.Ewma
import Verif.Lemmas.Exact
import Verif.Lemmas.F64More
import Verif.Lemmas.Machine
import Mathlib.Tactic.Ring
import Mathlib.Tactic.FieldSimp
import Mathlib.Tactic.NormNum
import Mathlib.Data.List.Induction
import Mathlib.Algebra.BigOperators.Intervals

/-! Lemmas about moving averages. -/

set_option linter.unusedSimpArgs false
set_option linter.unnecessarySeqFocus false
set_option linter.unusedSectionVars false

namespace GoMetrics
open Spec

section generic
variable {F : Type} [GoFloat F]

/-- The rate field after ticks that took the given counts, in the arithmetic of the code. -/
def foldRate (alpha : F) : List Int64 → F
  | [] => GoFloat.lit 0
  | c :: cs => cs.foldl (fun r c => StandardEWMA.newRate alpha r (StandardEWMA.instantRate c)) (StandardEWMA.instantRate c)

theorem foldRate_snoc (alpha : F) {cs : List Int64} (c : Int64) (h : cs ≠ []) :
    foldRate alpha (cs ++ [c]) = StandardEWMA.newRate alpha (foldRate alpha cs) (StandardEWMA.instantRate c) := by
  cases cs with
  | nil => exact absurd rfl h
  | cons x xs => simp [foldRate, List.foldl_append]

theorem foldRate_one (alpha : F) (c : Int64) : foldRate alpha [c] = StandardEWMA.instantRate c := rfl

/-- The state reached from a state by a history. -/
def ewmaAfter (a : StandardEWMA F) (ops : List EwmaOp) : StandardEWMA F :=
  ops.foldl (fun a o => match o with | .update n => a.update n | .tick => a.tick) a

theorem ewma_run_std (a : StandardEWMA F) (ops : List EwmaOp) : (Ewma.std a).run ops = .ok (.std (ewmaAfter a ops)) := by
  induction ops generalizing a with
  | nil => rfl
  | cons o ops ih =>
    unfold Ewma.run at ih ⊢
    rw [List.foldlM_cons]
    cases o
    · exact ih _
    · exact ih _

theorem int64_add_neg (a : Int64) : a + (-a) = 0 := Int64.add_right_neg a

theorem tick_eq (a : StandardEWMA F) : a.tick = StandardEWMA.mk 0 a.alpha
    (if a.init then StandardEWMA.newRate a.alpha a.rate (StandardEWMA.instantRate a.uncounted) else StandardEWMA.instantRate a.uncounted)
    true := by
  unfold StandardEWMA.tick StandardEWMA.fetchInstantRate StandardEWMA.updateRate
  cases h : a.init <;> simp [int64_add_neg, h]

/-- The counts of the closed intervals as stored by the code (int64). -/
def counts (ops : List EwmaOp) : List Int64 := (intervals ops).map Int64.ofInt

theorem intervalsFrom_append (cur : Int) (a b : List EwmaOp) :
    ∃ cur', intervalsFrom cur (a ++ b) = intervalsFrom cur a ++ intervalsFrom cur' b := by
  induction a generalizing cur with
  | nil => exact ⟨cur, rfl⟩
  | cons o a ih =>
    cases o with
    | update n => exact ih _
    | tick => obtain ⟨c, h⟩ := ih 0; exact ⟨c, by simp [intervalsFrom, h]⟩

/-- General form of the history theorem: from a state whose `uncounted` is `cur`. -/
theorem ewmaAfter_from (alpha : F) (cur : Int) (cs : List Int64) (ops : List EwmaOp) :
    let a := ewmaAfter ({ uncounted := Int64.ofInt cur, alpha := alpha, rate := foldRate alpha cs, init := decide (cs ≠ []) }) ops
    let cs' := cs ++ (intervalsFrom cur ops).map Int64.ofInt
    a.alpha = alpha ∧ a.rate = foldRate alpha cs' ∧ a.init = decide (cs' ≠ []) := by
  induction ops generalizing cur cs with
  | nil => simp [ewmaAfter, intervalsFrom]
  | cons o ops ih =>
    cases o with
    | update n =>
      have := ih (cur + n.toInt) cs
      have e : Int64.ofInt (cur + n.toInt) = Int64.ofInt cur + n := by
        rw [Int64.ofInt_add, Int64.ofInt_toInt]
      rw [e] at this
      exact this
    | tick =>
      have := ih 0 (cs ++ [Int64.ofInt cur])
      simp only [intervalsFrom, List.map_cons] at this ⊢
      rw [List.append_assoc, List.singleton_append] at this
      have e : ewmaAfter ⟨Int64.ofInt cur, alpha, foldRate alpha cs, decide (cs ≠ [])⟩ (.tick :: ops)
          = ewmaAfter ⟨Int64.ofInt 0, alpha, foldRate alpha (cs ++ [Int64.ofInt cur]), decide (cs ++ [Int64.ofInt cur] ≠ [])⟩ ops := by
        unfold ewmaAfter
        rw [List.foldl_cons]
        congr 1
        show StandardEWMA.tick _ = _
        rw [tick_eq]
        by_cases hc : cs = []
        · subst hc; simp [foldRate_one]
        · simp [hc, foldRate_snoc]
      rw [e]
      exact this

theorem ewmaAfter_new (alpha : F) (ops : List EwmaOp) :
    (ewmaAfter (.new alpha) ops).alpha = alpha ∧ (ewmaAfter (.new alpha) ops).rate = foldRate alpha (counts ops) ∧
      (ewmaAfter (.new alpha) ops).init = decide (counts ops ≠ []) := by
  have := ewmaAfter_from alpha 0 [] ops
  simpa [StandardEWMA.new, counts, intervals, foldRate] using this

end generic

section exact
variable {K : Type} [Field K] [LinearOrder K] [IsStrictOrderedRing K] [FloorRing K]

theorem instantRate_exact (c : Int64) : (StandardEWMA.instantRate c : K) = (c.toInt : K) / 5 / 10 ^ 9 := by
  simp [StandardEWMA.instantRate]; field_simp

theorem newRate_exact (a r i : K) : StandardEWMA.newRate a r i = r + a * (i - r) := rfl

/-- The stored rate is the moving average per nanosecond. -/
theorem foldRate_exact (alpha : K) (cs : List Int64) :
    foldRate alpha cs * 10 ^ 9 = movingAvg alpha (cs.map fun c => (c.toInt : K) / 5) := by
  cases cs with
  | nil => simp [foldRate, movingAvg]
  | cons c cs =>
    induction cs using List.reverseRecOn with
    | nil => simp [foldRate, movingAvg, instantRate_exact]
    | append_singleton cs x ih =>
      rw [← List.cons_append, foldRate_snoc _ _ (by simp), newRate_exact, List.map_append]
      simp only [List.map_cons, movingAvg, List.map_nil, List.cons_append, List.foldl_append, List.foldl_cons, List.foldl_nil] at ih ⊢
      rw [← ih, instantRate_exact]
      field_simp

theorem ofInt_toInt_cast (z : Int) : (Int64.ofInt z).toInt = wrap64 z := by
  simp [wrap64]

theorem rate_exact (alpha : K) (ops : List EwmaOp) :
    (ewmaAfter (.new alpha) ops).rateOf = movingAvg alpha ((intervals ops).map fun c => (wrap64 c : K) / 5) := by
  have h := (ewmaAfter_new alpha ops).2.1
  show (ewmaAfter (.new alpha) ops).rate * (((10 : ℚ) ^ 9 : ℚ) : K) = _
  rw [h]
  have := foldRate_exact alpha (counts ops)
  push_cast
  rw [this, counts, List.map_map]
  congr 1
  apply List.map_congr_left
  intro c _
  simp only [Function.comp]
  rw [ofInt_toInt_cast]

theorem movingAvg_le {alpha : K} (h0 : 0 ≤ alpha) (h1 : alpha ≤ 1) {xs : List K} {lo hi : K} (hl : ∀ x ∈ xs, lo ≤ x)
    (hh : ∀ x ∈ xs, x ≤ hi) (hne : xs ≠ []) : lo ≤ movingAvg alpha xs ∧ movingAvg alpha xs ≤ hi := by
  cases xs with
  | nil => exact absurd rfl hne
  | cons x xs =>
    induction xs using List.reverseRecOn with
    | nil => simpa [movingAvg] using ⟨hl x (by simp), hh x (by simp)⟩
    | append_singleton xs y ih =>
      have ih := ih (fun z hz => hl z (by simp at hz ⊢; tauto)) (fun z hz => hh z (by simp at hz ⊢; tauto)) (by simp)
      simp only [movingAvg, List.foldl_append, List.foldl_cons, List.foldl_nil] at ih ⊢
      obtain ⟨i1, i2⟩ := ih
      have hy1 := hl y (by simp)
      have hy2 := hh y (by simp)
      constructor <;> nlinarith

theorem movingAvg_weights (alpha x : K) (xs : List K) :
    movingAvg alpha (x :: xs) = (1 - alpha) ^ xs.length * x +
      ∑ j ∈ Finset.range xs.length, alpha * (1 - alpha) ^ j * xs.reverse.getD j 0 := by
  induction xs using List.reverseRecOn with
  | nil => simp [movingAvg]
  | append_singleton xs y ih =>
    simp only [movingAvg, List.foldl_append, List.foldl_cons, List.foldl_nil] at ih ⊢
    rw [ih]
    simp only [List.length_append, List.length_singleton, List.reverse_append, List.reverse_singleton, List.singleton_append]
    rw [Finset.sum_range_succ' _ xs.length]
    simp only [List.getD_cons_succ, List.getD_cons_zero, pow_succ, pow_zero]
    have : ∑ k ∈ Finset.range xs.length, alpha * ((1 - alpha) ^ k * (1 - alpha)) * xs.reverse.getD k 0
        = (1 - alpha) * ∑ k ∈ Finset.range xs.length, alpha * (1 - alpha) ^ k * xs.reverse.getD k 0 := by
      rw [Finset.mul_sum]
      apply Finset.sum_congr rfl
      intro k _; ring
    rw [this]; ring

end exact

/-! ### IEEE -/

section ieee
open F64

/-- One step of the average in float64 arithmetic: three roundings, and the last one is of a number between 0 and the larger of the
old rate and the new interval rate. -/
theorem newRate_f64_eq {a r i M : ℚ} (ha0 : 0 ≤ a) (ha1 : a ≤ 1 / 4) (hr : rnd r = r) (hM : M ≤ 2 ^ 100)
    (hr0 : 0 ≤ r) (hi0 : 0 ≤ i) (hrM : r ≤ M) (hiM : i ≤ M) :
    StandardEWMA.newRate (F64.fin a) (F64.fin r) (F64.fin i) = F64.fin (rnd (r + rnd (a * rnd (i - r)))) ∧
      0 ≤ r + rnd (a * rnd (i - r)) ∧ r + rnd (a * rnd (i - r)) ≤ max r i := by
  have hb : |i - r| ≤ 2 ^ 100 := by rw [abs_le]; constructor <;> linarith
  have e1 : GoFloat.sub (F64.fin i) (F64.fin r) = F64.fin (rnd (i - r)) := by
    show F64.round (i + -r) = _
    rw [← sub_eq_add_neg]
    exact round_of_abs_le (n := 100) (by norm_num) hb
  have hd : |rnd (i - r)| ≤ 2 ^ 100 := abs_rnd_le hb
  have hb2 : |a * rnd (i - r)| ≤ 2 ^ 100 := by
    rw [abs_mul, abs_of_nonneg ha0]
    nlinarith [abs_nonneg (rnd (i - r))]
  have e2 : GoFloat.mul (F64.fin a) (F64.fin (rnd (i - r))) = F64.fin (rnd (a * rnd (i - r))) :=
    round_of_abs_le (n := 100) (by norm_num) hb2
  have hd2 := abs_rnd_le hb2
  -- the increment
  set p := rnd (a * rnd (i - r)) with hp
  have key : 0 ≤ r + p ∧ r + p ≤ max r i := by
    rcases le_total r i with h | h
    · have d0 : 0 ≤ rnd (i - r) := rnd_nonneg (by linarith)
      have p0 : 0 ≤ p := rnd_nonneg (mul_nonneg ha0 d0)
      have d1 : rnd (i - r) ≤ 2 * (i - r) := by simpa using rnd_le_two_mul (x := i - r) (by linarith)
      have p1 : p ≤ 2 * (a * rnd (i - r)) := by simpa using rnd_le_two_mul (x := a * rnd (i - r)) (mul_nonneg ha0 d0)
      have p2 : p ≤ i - r := by nlinarith
      exact ⟨by linarith, le_max_of_le_right (by linarith)⟩
    · have hneg : rnd (i - r) = -rnd (r - i) := by rw [← rnd_neg]; congr 1; ring
      have d0 : 0 ≤ rnd (r - i) := rnd_nonneg (by linarith)
      have d1 : rnd (r - i) ≤ r := by
        have := rnd_mono (show r - i ≤ r by linarith)
        rwa [hr] at this
      have hpn : p = -rnd (a * rnd (r - i)) := by rw [hp, hneg, mul_neg, rnd_neg]
      have p0 : 0 ≤ rnd (a * rnd (r - i)) := rnd_nonneg (mul_nonneg ha0 d0)
      have p1 : rnd (a * rnd (r - i)) ≤ r := by
        have := rnd_mono (show a * rnd (r - i) ≤ r by nlinarith)
        rwa [hr] at this
      rw [hpn]
      exact ⟨by linarith, le_max_of_le_left (by linarith)⟩
  have hb3 : |r + p| ≤ 2 ^ 100 := by
    rw [abs_of_nonneg key.1]
    exact key.2.trans (max_le (by linarith) (by linarith))
  refine ⟨?_, key⟩
  show GoFloat.add (F64.fin r) (GoFloat.mul (F64.fin a) (GoFloat.sub (F64.fin i) (F64.fin r))) = _
  rw [e1, e2]
  exact round_of_abs_le (n := 100) (by norm_num) hb3

/-- One step of the average in float64 arithmetic stays between 0 and the larger of the old rate and the new interval rate. -/
theorem newRate_f64 {a r i M : ℚ} (ha0 : 0 ≤ a) (ha1 : a ≤ 1 / 4) (hr : rnd r = r) (hi : rnd i = i) (hM : M ≤ 2 ^ 100)
    (hr0 : 0 ≤ r) (hi0 : 0 ≤ i) (hrM : r ≤ M) (hiM : i ≤ M) :
    ∃ r' : ℚ, StandardEWMA.newRate (F64.fin a) (F64.fin r) (F64.fin i) = F64.fin r' ∧ rnd r' = r' ∧ 0 ≤ r' ∧ r' ≤ max r i := by
  obtain ⟨e, k1, k2⟩ := newRate_f64_eq ha0 ha1 hr hM hr0 hi0 hrM hiM
  have hmax : rnd (max r i) = max r i := by
    rcases le_total r i with h | h
    · rw [max_eq_right h, hi]
    · rw [max_eq_left h, hr]
  refine ⟨_, e, rnd_rnd _, rnd_nonneg k1, ?_⟩
  have := rnd_mono k2
  rwa [hmax] at this

/-- The interval rate in float64 arithmetic. -/
def instQ (c : Int) : ℚ := rnd (rnd (c : ℚ) / (5 * 10 ^ 9))

theorem lit_f64_int (n : ℤ) (h : |n| ≤ 2 ^ 53) : (GoFloat.lit (n : ℚ) : F64) = F64.fin n := round_int n h

theorem instantRate_f64 (c : Int64) : (StandardEWMA.instantRate c : F64) = F64.fin (instQ c.toInt) := by
  have hc : |c.toInt| ≤ 2 ^ 64 := by
    have h1 := Int64.toInt_lt c
    have h2 := Int64.le_toInt c
    rw [abs_le]; omega
  have e : (GoFloat.lit (5 * 10 ^ 9) : F64) = F64.fin (5 * 10 ^ 9) := by
    have := lit_f64_int (5 * 10 ^ 9) (by norm_num)
    norm_num at this ⊢
    exact this
  show GoFloat.div (F64.ofInt c.toInt) (GoFloat.lit (5 * 10 ^ 9)) = _
  rw [ofInt_i64 _ hc, e]
  show F64.div (F64.fin _) (F64.fin _) = _
  rw [div_fin _ (by norm_num)]
  refine round_of_abs_le (n := 64) (by norm_num) ?_
  rw [abs_div]
  have := abs_rnd_i64 _ hc
  have h5 : |(5 * 10 ^ 9 : ℚ)| = 5 * 10 ^ 9 := abs_of_pos (by norm_num)
  rw [h5, div_le_iff₀ (by norm_num)]
  nlinarith [abs_nonneg (rnd (c.toInt : ℚ))]

theorem instQ_mono {a b : Int} (h : a ≤ b) : instQ a ≤ instQ b := by
  unfold instQ
  apply rnd_mono
  have : rnd (a : ℚ) ≤ rnd (b : ℚ) := rnd_mono (by exact_mod_cast h)
  gcongr

theorem instQ_zero : instQ 0 = 0 := by simp [instQ, rnd_zero]

theorem instQ_le {c : Int} (h : c ≤ 2 ^ 64) : instQ c ≤ 2 ^ 64 := by
  unfold instQ
  have h1 : rnd (c : ℚ) ≤ 2 ^ 64 := by
    have := rnd_mono (show (c : ℚ) ≤ 2 ^ 64 by exact_mod_cast h)
    rwa [rnd_two_pow] at this
  have := rnd_mono (show rnd (c : ℚ) / (5 * 10 ^ 9) ≤ 2 ^ 64 by rw [div_le_iff₀ (by norm_num)]; linarith)
  rwa [rnd_two_pow] at this

theorem foldRate_f64 {a : ℚ} (ha0 : 0 ≤ a) (ha1 : a ≤ 1 / 4) {cs : List Int64} {B : Int} (hB : B ≤ 2 ^ 64)
    (h0 : ∀ c ∈ cs, 0 ≤ c.toInt) (h1 : ∀ c ∈ cs, c.toInt ≤ B) (hB0 : 0 ≤ B) :
    ∃ r : ℚ, foldRate (F64.fin a) cs = F64.fin r ∧ rnd r = r ∧ 0 ≤ r ∧ r ≤ instQ B := by
  have hz : 0 ≤ instQ B := by rw [← instQ_zero]; exact instQ_mono hB0
  induction cs using List.reverseRecOn with
  | nil =>
    refine ⟨0, ?_, rnd_zero, le_rfl, hz⟩
    have := lit_f64_int 0 (by norm_num)
    simpa [foldRate] using this
  | append_singleton cs c ih =>
    obtain ⟨r, e, r1, r2, r3⟩ := ih (fun x hx => h0 x (by simp [hx])) (fun x hx => h1 x (by simp [hx]))
    have c0 := h0 c (by simp)
    have c1 := h1 c (by simp)
    have i0 : 0 ≤ instQ c.toInt := by rw [← instQ_zero]; exact instQ_mono c0
    have i1 : instQ c.toInt ≤ instQ B := instQ_mono c1
    by_cases hne : cs = []
    · subst hne
      exact ⟨instQ c.toInt, by simp [foldRate, instantRate_f64], rnd_rnd _, i0, i1⟩
    · rw [foldRate_snoc _ _ hne, e, instantRate_f64]
      obtain ⟨r', q1, q2, q3, q4⟩ := newRate_f64 ha0 ha1 r1 (rnd_rnd _ : rnd (instQ c.toInt) = _) (M := instQ B)
        ((instQ_le hB).trans (by norm_num)) r2 i0 r3 i1
      exact ⟨r', q1, q2, q3, q4.trans (max_le r3 i1)⟩

/-- `Rate()` from the rate field. -/
theorem rateOf_f64 {r : ℚ} (h0 : 0 ≤ r) (h1 : r ≤ 2 ^ 64) :
    GoFloat.mul (F64.fin r) (GoFloat.lit (10 ^ 9)) = F64.fin (rnd (r * 10 ^ 9)) := by
  have e : (GoFloat.lit (10 ^ 9) : F64) = F64.fin (10 ^ 9) := by
    have := lit_f64_int (10 ^ 9) (by norm_num)
    norm_num at this ⊢
    exact this
  rw [e]
  refine round_of_abs_le (n := 100) (by norm_num) ?_
  rw [abs_of_nonneg (by positivity)]
  nlinarith

/-- What `Rate()` shows after one interval of `c` events, as a rational. -/
def shown (c : Int) : ℚ := rnd (instQ c * 10 ^ 9)

theorem rnd_up {x : ℚ} (h : 2 ^ (-1022 : ℤ) ≤ x) : rnd x ≤ x * (1 + 2 ^ (-53 : ℤ)) := by
  have hx : 0 ≤ x := le_trans (by positivity) h
  have := rnd_rel_err x (by rwa [abs_of_nonneg hx])
  rw [abs_of_nonneg hx] at this
  have := (abs_le.1 this).2
  simp at this ⊢
  linarith

theorem shown_le {c : Int} (h : 0 ≤ c) : shown c ≤ (c : ℚ) / 5 * (1 + 2 ^ (-51 : ℤ)) := by
  rcases h.eq_or_lt with h | h
  · subst h; simp [shown, instQ_zero, rnd_zero]
  have small : ∀ {x : ℚ}, 1 / (5 * 10 ^ 9) ≤ x → (2 : ℚ) ^ (-1022 : ℤ) ≤ x := by
    intro x hx
    refine le_trans ?_ hx
    calc (2 : ℚ) ^ (-1022 : ℤ) ≤ 2 ^ (-33 : ℤ) := zpow_le_zpow_right₀ (by norm_num) (by norm_num)
      _ ≤ _ := by norm_num
  have c1 : (1 : ℚ) ≤ c := by exact_mod_cast h
  have r0 : (1 : ℚ) ≤ rnd (c : ℚ) := by have := rnd_mono c1; rwa [rnd_one] at this
  have b1 : rnd (c : ℚ) ≤ c * (1 + 2 ^ (-53 : ℤ)) := rnd_up (small (le_trans (by norm_num) c1))
  have b2 : instQ c ≤ rnd (c : ℚ) / (5 * 10 ^ 9) * (1 + 2 ^ (-53 : ℤ)) := by
    unfold instQ
    exact rnd_up (small (by gcongr))
  have i0 : 1 / (10 * 10 ^ 9) ≤ instQ c := by
    have h1 : (1 : ℚ) / 2 ^ 33 ≤ rnd (c : ℚ) / (5 * 10 ^ 9) := by
      rw [div_le_div_iff₀ (by norm_num) (by norm_num)]; nlinarith
    have h2 := rnd_mono h1
    have h3 : rnd ((1 : ℚ) / 2 ^ 33) = 1 / 2 ^ 33 := by
      have := rnd_dyadic (K := ℚ) 1 (-33) (by norm_num) (by norm_num)
      norm_num at this ⊢
      exact this
    rw [h3] at h2
    unfold instQ
    exact le_trans (by norm_num) h2
  have b3 : shown c ≤ instQ c * 10 ^ 9 * (1 + 2 ^ (-53 : ℤ)) := by
    unfold shown
    refine rnd_up ?_
    calc (2 : ℚ) ^ (-1022 : ℤ) ≤ 2 ^ (-33 : ℤ) := zpow_le_zpow_right₀ (by norm_num) (by norm_num)
      _ ≤ 1 / (10 * 10 ^ 9) * 10 ^ 9 := by norm_num
      _ ≤ _ := by gcongr
  have u : (2 : ℚ) ^ (-53 : ℤ) = 1 / 9007199254740992 := by norm_num
  have u2 : (2 : ℚ) ^ (-51 : ℤ) = 1 / 2251799813685248 := by norm_num
  rw [u] at b1 b2 b3
  rw [u2]
  have b4 : instQ c ≤ c / (5 * 10 ^ 9) * ((1 + 1 / 9007199254740992) * (1 + 1 / 9007199254740992)) := by
    refine b2.trans ?_
    have : rnd (c : ℚ) / (5 * 10 ^ 9) ≤ c * (1 + 1 / 9007199254740992) / (5 * 10 ^ 9) := by gcongr
    nlinarith
  have b5 : shown c ≤ c / 5 * ((1 + 1 / 9007199254740992) * (1 + 1 / 9007199254740992) * (1 + 1 / 9007199254740992)) := by
    refine b3.trans ?_
    nlinarith
  refine b5.trans ?_
  have : ((1 : ℚ) + 1 / 9007199254740992) * (1 + 1 / 9007199254740992) * (1 + 1 / 9007199254740992) ≤ 1 + 1 / 2251799813685248 := by norm_num
  gcongr

/-- The three standard constants in float64 arithmetic: three roundings. -/
theorem ewmaAlpha_f64_eq {m : Nat} (hm : 1 ≤ m) :
    (ewmaAlpha m : F64) = F64.fin (rnd (1 - rnd (Real.exp ((-rnd (5 / 60 / (m : ℚ)) : ℚ) : ℝ)))) ∧
      3 / 4 ≤ rnd (Real.exp ((-rnd (5 / 60 / (m : ℚ)) : ℚ) : ℝ)) ∧ rnd (Real.exp ((-rnd (5 / 60 / (m : ℚ)) : ℚ) : ℝ)) ≤ 1 := by
  have hm' : (1 : ℚ) ≤ m := by exact_mod_cast hm
  set x : ℚ := 5 / 60 / m with hx
  have x0 : 0 ≤ x := by positivity
  have x1 : x ≤ 1 / 12 := by
    rw [hx, div_div]; rw [div_le_div_iff₀ (by positivity) (by norm_num)]; linarith
  have e0 : (-5 / 60 / (m : ℚ)) = -x := by rw [hx]; ring
  have r0 : 0 ≤ rnd x := rnd_nonneg x0
  have r1 : rnd x ≤ 1 / 6 := by
    have := rnd_le_two_mul x0
    simp at this; linarith
  have e1 : (GoFloat.lit (-x) : F64) = F64.fin (-rnd x) := by
    show F64.round (-x) = _
    rw [round_of_abs_le (n := 0) (by norm_num), rnd_neg]
    rw [abs_neg, abs_of_nonneg x0]; linarith
  -- the exponential
  have y1 : Real.exp ((-rnd x : ℚ) : ℝ) ≤ 1 := by
    rw [Real.exp_le_one_iff]; push_cast; simpa using r0
  have y0 : (3 / 4 : ℝ) ≤ Real.exp ((-rnd x : ℚ) : ℝ) := by
    have h := Real.add_one_le_exp ((-rnd x : ℚ) : ℝ)
    have : ((rnd x : ℚ) : ℝ) ≤ 1 / 6 := by
      have := (Rat.cast_le (K := ℝ)).2 r1
      push_cast at this; linarith
    push_cast at h ⊢
    linarith
  have e2 : F64.exp (F64.fin (-rnd x)) = F64.fin (rnd (Real.exp ((-rnd x : ℚ) : ℝ))) := by
    show F64.round _ = _
    refine round_of_abs_le (n := 0) (by norm_num) ?_
    rw [abs_of_nonneg (by linarith)]; simpa using y1
  set y := rnd (Real.exp ((-rnd x : ℚ) : ℝ)) with hy
  have q1 : y ≤ 1 := by have := rnd_mono y1; rwa [rnd_one] at this
  have q0 : 3 / 4 ≤ y := by
    have h := rnd_mono y0
    have e : rnd (3 / 4 : ℝ) = 3 / 4 := by
      have := rnd_dyadic (K := ℝ) 3 (-2) (by norm_num) (by norm_num)
      norm_num at this ⊢
      exact this
    rw [e] at h; exact h
  have el : (GoFloat.lit 1 : F64) = F64.fin 1 := by simpa using lit_f64_int 1 (by norm_num)
  refine ⟨?_, q0, q1⟩
  show F64.sub (GoFloat.lit 1) (F64.exp (GoFloat.lit (-5 / 60 / (m : ℚ)))) = _
  rw [e0, e1, e2, el]
  show F64.round (1 + -y) = _
  rw [← sub_eq_add_neg]
  refine round_of_abs_le (n := 0) (by norm_num) ?_
  rw [abs_of_nonneg (by linarith)]; linarith

theorem ewmaAlpha_f64 {m : Nat} (hm : 1 ≤ m) : ∃ a : ℚ, (ewmaAlpha m : F64) = F64.fin a ∧ 0 ≤ a ∧ a ≤ 1 / 4 := by
  obtain ⟨e, q0, q1⟩ := ewmaAlpha_f64_eq hm
  refine ⟨_, e, rnd_nonneg (by linarith), ?_⟩
  have h := rnd_mono (show 1 - rnd (Real.exp ((-rnd (5 / 60 / (m : ℚ)) : ℚ) : ℝ)) ≤ 1 / 4 by linarith)
  have e : rnd (1 / 4 : ℚ) = 1 / 4 := by
    have := rnd_dyadic (K := ℚ) 1 (-2) (by norm_num) (by norm_num)
    norm_num at this ⊢
    exact this
  rwa [e] at h

end ieee

end GoMetrics
