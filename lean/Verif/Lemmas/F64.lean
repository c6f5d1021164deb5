import Verif.Lemmas.Round

/-! Order and closure lemmas for binary64 values. -/

set_option linter.unusedSectionVars false

namespace GoMetrics
namespace F64

theorem pow_lt_overflowAt {n : ℕ} (h : n < 1024) : (2 : ℚ) ^ n < overflowAt := by
  unfold overflowAt; exact pow_lt_pow_right₀ (by norm_num) h

theorem overflowAt_pos : 0 < overflowAt := lt_trans (by positivity) (pow_lt_overflowAt (n := 0) (by norm_num))

/-- Well-formed: a finite value is a representable number. Every value produced by an operation is well formed. -/
def WF : F64 → Prop
  | fin q => Representable q
  | _ => True

section
variable {K : Type} [Field K] [LinearOrder K] [IsStrictOrderedRing K] [FloorRing K]

theorem round_ne_nan (x : K) : round x ≠ nan := by unfold round; split_ifs <;> simp

theorem round_mono {x y : K} (h : x ≤ y) : le (round x) (round y) = true := by
  have := rnd_mono h
  unfold round
  split_ifs <;> simp [le] <;> linarith

theorem representable_iff (q : ℚ) : Representable q ↔ rnd q = q ∧ -overflowAt < q ∧ q < overflowAt := by
  unfold Representable round
  constructor
  · intro h
    split_ifs at h with h1 h2
    simp only [fin.injEq] at h
    rw [h] at h1 h2
    exact ⟨h, not_le.mp h2, not_le.mp h1⟩
  · rintro ⟨h1, h2, h3⟩
    rw [h1, if_neg (not_le.mpr h3), if_neg (not_le.mpr h2)]

theorem round_wf (x : K) : WF (round x) := by
  unfold round
  split_ifs with h1 h2
  · trivial
  · trivial
  · show Representable (rnd x)
    rw [representable_iff]
    exact ⟨rnd_rnd x, not_le.mp h2, not_le.mp h1⟩

theorem round_rep {q : ℚ} (h : Representable q) : round q = fin q := h

theorem round_int (n : ℤ) (h : |n| ≤ 2 ^ 53) : round (n : K) = fin n := by
  have hr := rnd_int (K := K) n h
  unfold round
  rw [hr]
  rw [abs_le] at h
  have h1 : (n : ℚ) ≤ 2 ^ 53 := by exact_mod_cast h.2
  have h2 : -2 ^ 53 ≤ (n : ℚ) := by exact_mod_cast h.1
  have h3 : (2 : ℚ) ^ 53 < overflowAt := pow_lt_overflowAt (by norm_num)
  rw [if_neg (by linarith), if_neg (by linarith)]

theorem representable_int (n : ℤ) (h : |n| ≤ 2 ^ 53) : Representable (n : ℚ) := round_int n h

theorem representable_zero : Representable 0 := by
  have := representable_int 0 (by norm_num); simpa using this

theorem representable_neg {q : ℚ} (h : Representable q) : Representable (-q) := by
  rw [representable_iff] at *
  obtain ⟨h1, h2, h3⟩ := h
  exact ⟨by rw [rnd_neg, h1], by linarith, by linarith⟩

end

theorem add_wf (a b : F64) : WF (add a b) := by
  cases a <;> cases b <;> simp only [add] <;> (try trivial) <;> (try exact round_wf _)
  split_ifs <;> trivial

theorem mul_wf (a b : F64) : WF (mul a b) := by
  cases a <;> cases b <;> simp only [mul] <;> (try trivial) <;> (try exact round_wf _)
  all_goals (split_ifs <;> trivial)

theorem div_wf (a b : F64) : WF (div a b) := by
  cases a <;> cases b <;> simp only [div] <;> (try trivial)
  · exact representable_zero
  · split_ifs
    · trivial
    · trivial
    · exact round_wf _

theorem neg_wf {a : F64} (h : WF a) : WF (neg a) := by
  cases a <;> simp only [neg] <;> (try trivial)
  exact representable_neg h

theorem ofInt_wf (i : Int) : WF (ofInt i) := round_wf _

theorem ofInt_small (n : ℤ) (h : |n| ≤ 2 ^ 53) : ofInt n = fin n := round_int n h

theorem le_refl {a : F64} (h : a ≠ nan) : le a a = true := by
  rcases a with _ | (_ | _) | _ <;> simp_all [le]

theorem le_trans {a b c : F64} (h1 : le a b = true) (h2 : le b c = true) : le a c = true := by
  rcases a with _ | (_ | _) | _ <;> rcases b with _ | (_ | _) | _ <;> rcases c with _ | (_ | _) | _ <;>
    simp_all [le]
  linarith

theorem le_antisymm {a b : F64} (h1 : le a b = true) (h2 : le b a = true) : a = b := by
  rcases a with _ | (_ | _) | _ <;> rcases b with _ | (_ | _) | _ <;> simp_all [le]
  linarith

theorem not_lt_of_ne_nan {a b : F64} (ha : a ≠ nan) (hb : b ≠ nan) : lt a b = false ↔ le b a = true := by
  rcases a with _ | (_ | _) | _ <;> rcases b with _ | (_ | _) | _ <;> simp_all [le, lt]

theorem lt_iff_not_le {a b : F64} (ha : a ≠ nan) (hb : b ≠ nan) : lt a b = true ↔ le b a = false := by
  rcases a with _ | (_ | _) | _ <;> rcases b with _ | (_ | _) | _ <;> simp_all [le, lt]

theorem ne_nan_of_le_left {a b : F64} (h : le a b = true) : a ≠ nan := by
  rintro rfl; simp [le] at h

theorem ne_nan_of_le_right {a b : F64} (h : le a b = true) : b ≠ nan := by
  rintro rfl; rcases a with _ | (_ | _) | _ <;> simp [le] at h

theorem le_fin {a b : ℚ} : le (fin a) (fin b) = true ↔ a ≤ b := by simp [le]

theorem lt_fin {a b : ℚ} : lt (fin a) (fin b) = true ↔ a < b := by simp [lt]

/-- A value between two finite values is finite. -/
theorem fin_of_between {a b : ℚ} {x : F64} (h1 : le (fin a) x = true) (h2 : le x (fin b) = true) :
    ∃ q, x = fin q ∧ a ≤ q ∧ q ≤ b := by
  rcases x with _ | (_ | _) | q <;> simp_all [le]

theorem round_between {K : Type} [Field K] [LinearOrder K] [IsStrictOrderedRing K] [FloorRing K]
    {a b : ℚ} {x : K} (ha : Representable a) (hb : Representable b)
    (h1 : (a : K) ≤ x) (h2 : x ≤ (b : K)) : ∃ q, round x = fin q ∧ a ≤ q ∧ q ≤ b ∧ q = rnd x ∧ Representable q := by
  have ra : rnd (a : K) = a := by
    have h := (representable_iff a).mp ha
    have := rnd_rnd_cast (K := K) (x := (a : K))
    have e : rnd a = a := h.1
    -- `a` is dyadic
    have := rnd_dyadic (K := K) (roundEven (a / (2 : ℚ) ^ ulpExp a)) (ulpExp a) (abs_roundEven_le a) (ulpExp_ge a)
    have e2 : (a : K) = (roundEven (a / (2 : ℚ) ^ ulpExp a) : K) * (2 : K) ^ ulpExp a := by
      conv_lhs => rw [← e]
      unfold rnd; push_cast; rfl
    rw [e2, this]; exact e
  have rb : rnd (b : K) = b := by
    have e : rnd b = b := ((representable_iff b).mp hb).1
    have := rnd_dyadic (K := K) (roundEven (b / (2 : ℚ) ^ ulpExp b)) (ulpExp b) (abs_roundEven_le b) (ulpExp_ge b)
    have e2 : (b : K) = (roundEven (b / (2 : ℚ) ^ ulpExp b) : K) * (2 : K) ^ ulpExp b := by
      conv_lhs => rw [← e]
      unfold rnd; push_cast; rfl
    rw [e2, this]; exact e
  have m1 := rnd_mono h1
  have m2 := rnd_mono h2
  rw [ra] at m1; rw [rb] at m2
  have ha' := ((representable_iff a).mp ha).2
  have hb' := ((representable_iff b).mp hb).2
  refine ⟨rnd x, ?_, m1, m2, rfl, ?_⟩
  · unfold round; rw [if_neg (by linarith), if_neg (by linarith)]
  · rw [representable_iff]; exact ⟨rnd_rnd x, by linarith, by linarith⟩

end F64
end GoMetrics
