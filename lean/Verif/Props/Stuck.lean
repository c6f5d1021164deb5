import Verif.Spec.Forget
import Verif.Props.Sample

/-! Property theorems C116: in float64 arithmetic a decaying sample may keep a value for ever. -/

namespace GoMetrics
open Spec

/-- A finite priority with room above it. -/
private def FinKey (x : F64) : Prop := ∃ q : ℚ, x = .fin q ∧ 0 ≤ q ∧ q ≤ 2 ^ 1000

private theorem FinKey.ne_nan {x : F64} (h : FinKey x) : x ≠ .nan := by obtain ⟨q, rfl, -⟩ := h; simp

private theorem FinKey.mul {x : F64} (h : FinKey x) {f : ℚ} (h0 : 0 < f) (h1 : f ≤ 1) : FinKey (F64.mul x (.fin f)) := by
  obtain ⟨q, rfl, hq0, hq1⟩ := h
  have h2 : 0 ≤ q * f := mul_nonneg hq0 h0.le
  have h3 : q * f ≤ 2 ^ 1000 := le_trans (mul_le_of_le_one_right hq0 h1) hq1
  refine ⟨rnd (q * f), round_of_abs_le (n := 1000) (by norm_num) (by rw [abs_of_nonneg h2]; exact h3), rnd_nonneg h2, ?_⟩
  have := rnd_mono h3
  rwa [rnd_two_pow] at this

private theorem exp_600 : Real.exp 600 ≤ 2 ^ 900 := by
  have h1 : Real.exp 600 = (Real.exp 1 ^ 6) ^ 100 := by rw [← pow_mul, ← Real.exp_nat_mul]; norm_num
  have h3 : Real.exp 1 ≤ 2.7182818286 := le_of_lt Real.exp_one_lt_d9
  have h4 : Real.exp 1 ^ 6 ≤ 2 ^ 9 := le_trans (pow_le_pow_left₀ (Real.exp_pos _).le h3 6) (by norm_num)
  rw [h1]
  calc (Real.exp 1 ^ 6) ^ 100 ≤ ((2 : ℝ) ^ 9) ^ 100 := pow_le_pow_left₀ (by positivity) h4 100
    _ = 2 ^ 900 := by rw [← pow_mul]

private theorem exp_711 : (2 : ℝ) ^ 1024 ≤ Real.exp 711 := by
  have h1 : Real.exp 711 = (Real.exp 1 ^ 9) ^ 79 := by rw [← pow_mul, ← Real.exp_nat_mul]; norm_num
  have h3 : (2.7182818283 : ℝ) ≤ Real.exp 1 := le_of_lt Real.exp_one_gt_d9
  have h4 : (8103 : ℝ) ≤ Real.exp 1 ^ 9 := le_trans (by norm_num) (pow_le_pow_left₀ (by norm_num) h3 9)
  rw [h1]
  have h5 : 2 ^ 1024 ≤ 8103 ^ 79 := by decide +kernel
  calc (2 : ℝ) ^ 1024 ≤ 8103 ^ 79 := by exact_mod_cast h5
    _ ≤ _ := pow_le_pow_left₀ (by positivity) h4 79

private theorem exp_744 : Real.exp 744 ≤ 2 ^ 1074 := by
  have h1 : Real.exp 744 = (Real.exp 1 ^ 8) ^ 93 := by rw [← pow_mul, ← Real.exp_nat_mul]; norm_num
  have h3 : Real.exp 1 ≤ 2.7182818286 := le_of_lt Real.exp_one_lt_d9
  have h4 : Real.exp 1 ^ 8 ≤ 2981 := le_trans (pow_le_pow_left₀ (Real.exp_pos _).le h3 8) (by norm_num)
  have h5 : 2981 ^ 93 ≤ 2 ^ 1074 := by decide +kernel
  rw [h1]
  calc (Real.exp 1 ^ 8) ^ 93 ≤ (2981 : ℝ) ^ 93 := pow_le_pow_left₀ (by positivity) h4 93
    _ ≤ 2 ^ 1074 := by exact_mod_cast h5

private theorem exp_neg_744 {y : ℚ} (h0 : 0 ≤ y) (h1 : y ≤ 744) : ∃ e : ℚ, F64.exp (.fin (-y)) = .fin e ∧ 0 < e ∧ e ≤ 1 := by
  have hy : (y : ℝ) ≤ 744 := by exact_mod_cast h1
  have hy0 : (0 : ℝ) ≤ y := by exact_mod_cast h0
  have hcast : ((-y : ℚ) : ℝ) = -(y : ℝ) := by push_cast; rfl
  have hle : Real.exp ((-y : ℚ) : ℝ) ≤ 1 := by rw [hcast, ← Real.exp_zero]; exact Real.exp_le_exp.2 (by linarith)
  refine ⟨rnd (Real.exp ((-y : ℚ) : ℝ)), ?_, ?_, ?_⟩
  · exact round_of_abs_le (n := 0) (by norm_num) (by rw [abs_of_pos (Real.exp_pos _), pow_zero]; exact hle)
  · have h2 : (2 : ℝ) ^ (-1074 : ℤ) ≤ Real.exp ((-y : ℚ) : ℝ) := by
      rw [hcast, Real.exp_neg, zpow_neg]
      apply inv_anti₀ (Real.exp_pos _)
      exact_mod_cast le_trans (Real.exp_le_exp.2 hy) exp_744
    have h3 := rnd_mono h2
    have h4 : rnd ((2 : ℝ) ^ (-1074 : ℤ)) = 2 ^ (-1074 : ℤ) := by
      have := rnd_dyadic (K := ℝ) 1 (-1074) (by norm_num) (by norm_num)
      simpa using this
    rw [h4] at h3
    exact lt_of_lt_of_le (by positivity) h3
  · have := rnd_mono hle
    rwa [rnd_one] at this

/-- The product of the decay constant and the seconds. -/
private theorem product {a x : ℚ} (ha : 0 ≤ a) (hx : 0 ≤ x) (h : x * a ≤ 744) :
    F64.mul (.fin x) (.fin a) = .fin (rnd (x * a)) ∧ F64.mul (.fin (-a)) (.fin x) = .fin (-rnd (x * a)) ∧ 0 ≤ rnd (x * a) ∧ rnd (x * a) ≤ 744 := by
  have h0 : 0 ≤ x * a := mul_nonneg hx ha
  have hr : rnd (x * a) ≤ 744 := by
    have := rnd_mono h
    rwa [show (744 : ℚ) = ((744 : ℤ) : ℚ) by norm_num, rnd_int 744 (by norm_num)] at this
  refine ⟨?_, ?_, rnd_nonneg h0, hr⟩
  · exact round_of_abs_le (n := 10) (by norm_num) (by rw [abs_of_nonneg h0]; norm_num; linarith)
  · change F64.round (-a * x) = _
    rw [show -a * x = -(x * a) by ring, ← rnd_neg]
    exact round_of_abs_le (n := 10) (by norm_num) (by rw [abs_neg, abs_of_nonneg h0]; norm_num; linarith)

/-- The factor of a rescale after up to 744 / alpha seconds is not 0. -/
private theorem factor_744 {a : ℚ} (ha : 0 ≤ a) {t0 t : Instant} (h0 : t0 ≤ t) (h1 : t - t0 ≤ maxInt64) (hs : a * ((t - t0 : ℤ) / 10 ^ 9 + 1) ≤ 744) :
    ∃ f : ℚ, ExpDecaySample.factor (F64.fin a) t0 t = .fin f ∧ 0 < f ∧ f ≤ 1 := by
  have hm : minInt64 ≤ 0 := by decide
  have h0' : (0 : Int) ≤ t - t0 := Int.sub_nonneg.2 h0
  obtain ⟨x, hx, hx0, hx1, -⟩ := seconds_f64 (t - t0) h0' h1
  have hxa : x * a ≤ 744 := by
    have := mul_le_mul_of_nonneg_left hx1 ha
    linarith
  obtain ⟨-, e2, hy0, hy1⟩ := product ha hx0 hxa
  unfold ExpDecaySample.factor
  rw [timeSub_eq (le_trans hm h0') h1, hx]
  change ∃ f : ℚ, F64.exp (F64.mul (.fin (-a)) (.fin x)) = .fin f ∧ 0 < f ∧ f ≤ 1
  rw [e2]
  exact exp_neg_744 hy0 hy1

/-- The usual priority. -/
private theorem key_fin {a : ℚ} (ha : 0 ≤ a) {t0 t : Instant} (h0 : t0 ≤ t) (h1 : t - t0 ≤ maxInt64) (hs : a * ((t - t0 : ℤ) / 10 ^ 9 + 1) ≤ 600)
    {u : ℚ} (hu : 1 / 2 ^ 53 ≤ u) : FinKey (ExpDecaySample.key (F64.fin a) t0 t (F64.fin u)) := by
  have hm : minInt64 ≤ 0 := by decide
  have h0' : (0 : Int) ≤ t - t0 := Int.sub_nonneg.2 h0
  obtain ⟨x, hx, hx0, hx1, -⟩ := seconds_f64 (t - t0) h0' h1
  have hxa : x * a ≤ 600 := by
    have := mul_le_mul_of_nonneg_left hx1 ha
    linarith
  obtain ⟨e1, -, hy0, -⟩ := product ha hx0 (le_trans hxa (by norm_num))
  have hy1 : rnd (x * a) ≤ 600 := by
    have := rnd_mono hxa
    rwa [show (600 : ℚ) = ((600 : ℤ) : ℚ) by norm_num, rnd_int 600 (by norm_num)] at this
  unfold ExpDecaySample.key
  rw [timeSub_eq (le_trans hm h0') h1, hx]
  change FinKey (F64.div (F64.exp (F64.mul (.fin x) (.fin a))) (.fin u))
  rw [e1]
  generalize rnd (x * a) = y at *
  have hy : (y : ℝ) ≤ 600 := by exact_mod_cast hy1
  have hb : Real.exp y ≤ 2 ^ 900 := le_trans (Real.exp_le_exp.2 hy) exp_600
  have he : F64.exp (.fin y) = .fin (rnd (Real.exp y)) := round_of_abs_le (n := 900) (by norm_num) (by rw [abs_of_pos (Real.exp_pos _)]; exact hb)
  have hr0 : 0 ≤ rnd (Real.exp y) := rnd_nonneg (Real.exp_pos _).le
  have hr1 : rnd (Real.exp y) ≤ 2 ^ 900 := by have := rnd_mono hb; rwa [rnd_two_pow] at this
  rw [he]
  have hu0 : 0 < u := lt_of_lt_of_le (by positivity) hu
  rw [F64.div_fin _ hu0.ne']
  generalize rnd (Real.exp y) = e at *
  have h2 : 0 ≤ e / u := div_nonneg hr0 hu0.le
  have h3 : e / u ≤ 2 ^ 953 := by
    rw [div_le_iff₀ hu0]
    calc e ≤ 2 ^ 900 := hr1
      _ = 2 ^ 953 * (1 / 2 ^ 53) := by rw [show (953 : ℕ) = 900 + 53 from rfl, pow_add]; field_simp
      _ ≤ 2 ^ 953 * u := mul_le_mul_of_nonneg_left hu (by positivity)
  refine ⟨rnd (e / u), round_of_abs_le (n := 953) (by norm_num) (by rw [abs_of_nonneg h2]; exact h3), rnd_nonneg h2, ?_⟩
  have := rnd_mono h3
  rw [rnd_two_pow] at this
  exact le_trans this (pow_le_pow_right₀ (by norm_num) (by norm_num))

/-- The priority after an idle time of more than 711 / alpha seconds. -/
private theorem key_idle {a : ℚ} (ha : 0 < a) {t0 t : Instant} (h0 : t0 ≤ t) (h1 : t - t0 ≤ maxInt64) (hs : 711 + a ≤ a * ((t - t0 : ℤ) / 10 ^ 9))
    (hs' : a * ((t - t0 : ℤ) / 10 ^ 9 + 1) ≤ 744) {u : ℚ} (hu : 0 < u) : ExpDecaySample.key (F64.fin a) t0 t (F64.fin u) = .inf false := by
  have hm : minInt64 ≤ 0 := by decide
  obtain ⟨x, hx, hx0, hx1, hx2⟩ := seconds_f64 (t - t0) (by omega) h1
  have hxa : 711 ≤ x * a := by
    have := mul_le_mul_of_nonneg_left hx2 ha.le
    linarith
  have hxb : x * a ≤ 744 := by
    have := mul_le_mul_of_nonneg_left hx1 ha.le
    linarith
  obtain ⟨e1, -, -, -⟩ := product ha.le hx0 hxb
  have hr : 711 ≤ rnd (x * a) := by
    have := rnd_mono hxa
    rwa [show (711 : ℚ) = ((711 : ℤ) : ℚ) by norm_num, rnd_int 711 (by norm_num)] at this
  unfold ExpDecaySample.key
  rw [timeSub_eq (by omega) h1, hx]
  change F64.div (F64.exp (F64.mul (.fin x) (.fin a))) (.fin u) = _
  rw [e1]
  generalize rnd (x * a) = y at *
  have hy : (711 : ℝ) ≤ y := by exact_mod_cast hr
  have h2 : rnd ((2 : ℝ) ^ 1024) ≤ rnd (Real.exp y) := rnd_mono (le_trans exp_711 (Real.exp_le_exp.2 hy))
  rw [rnd_two_pow] at h2
  have he : F64.exp (.fin y) = .inf false := by
    show F64.round (Real.exp y) = _
    unfold F64.round
    rw [if_pos]
    unfold F64.overflowAt
    exact h2
  rw [he]
  simp [F64.div]; exact hu.le

/-- The priority of an update with the random number 0. -/
private theorem key_zero {a : ℚ} (ha : 0 ≤ a) {t0 t : Instant} (h0 : t0 ≤ t) (h1 : t - t0 ≤ maxInt64) (hs : a * ((t - t0 : ℤ) / 10 ^ 9 + 1) ≤ 600) :
    ExpDecaySample.key (F64.fin a) t0 t (F64.fin 0) = .inf false := by
  have hm : minInt64 ≤ 0 := by decide
  have h0' : (0 : Int) ≤ t - t0 := Int.sub_nonneg.2 h0
  obtain ⟨x, hx, hx0, hx1, -⟩ := seconds_f64 (t - t0) h0' h1
  have hxa : x * a ≤ 700 := by
    have := mul_le_mul_of_nonneg_left hx1 ha
    linarith
  obtain ⟨y, e1, e2, hy0, hy1⟩ := safe_product ha hx0 hxa
  obtain ⟨e, he, he1⟩ := exp_pos_range hy0 hy1
  unfold ExpDecaySample.key
  rw [timeSub_eq (le_trans hm h0') h1, hx]
  change F64.div (F64.exp (F64.mul (.fin x) (.fin a))) (.fin 0) = _
  rw [e1, he]
  have h2 : e ≠ 0 := by linarith
  have h3 : ¬ e < 0 := by linarith
  simp [F64.div, h2, h3]

/-- A sample that holds the items `P` of infinite priority, and otherwise only finite ones; `L`: the time of the last call. -/
private structure Pin (k : Nat) (a : ℚ) (L : Instant) (P : List (Item F64)) (s : ExpDecaySample F64) : Prop where
  shape : ExpDecaySample.Shape k s
  alpha : s.alpha = .fin a
  t0 : s.t0 ≤ L
  t1 : L ≤ s.t1
  eq : s.t1 = s.t0 + hour
  heap : ∀ d, IsHeap d s.values.s s.values.s.length
  items : ∃ rest, s.values.s.Perm (P ++ rest) ∧ ∀ x ∈ rest, FinKey x.k

private theorem pin_step {k : Nat} (hk : 2 ≤ k) {a : ℚ} {L t : Instant} {P P' : List (Item F64)} {s : ExpDecaySample F64} (h : Pin k a L P s) (hP : ∀ x ∈ P, x.k = .inf false)
    (hP1 : P.length ≤ 1) (ht : L ≤ t) {v : Int64} {u : F64}
    (hf : ∃ f : ℚ, ExpDecaySample.factor (F64.fin a) s.t0 t = .fin f ∧ 0 < f ∧ f ≤ 1)
    (hn : FinKey (ExpDecaySample.key (F64.fin a) s.t0 t u) ∧ P' = P ∨ ExpDecaySample.key (F64.fin a) s.t0 t u = .inf false ∧ P = [] ∧ P' = [⟨.inf false, v⟩]) :
    ∃ s', s.update t v u = .ok s' ∧ Pin k a t P' s' ∧ s'.t0 = (if t > s.t1 then t else s.t0) := by
  obtain ⟨rest, hp, hr⟩ := h.items
  obtain ⟨s', dropped, kept, e, hs', _, hal, hn0, hn1, p1, l1, p2, o2⟩ := ExpDecaySample.update_spec k (by omega) s h.shape t v u
  obtain ⟨f, hf, hf0, hf1⟩ := hf
  have hinf : F64.mul (.inf false) (.fin f) = .inf false := by
    have : ¬ f < 0 := by linarith
    simp [F64.mul, hf0.ne', this]
  have hall : AllP (· ≠ F64.nan) s.values.s := by
    intro x hx
    rcases List.mem_append.1 (hp.mem_iff.1 hx) with hx | hx
    · rw [hP x hx]; simp
    · exact (hr x hx).ne_nan
  -- what is dropped is one of the finite ones
  obtain ⟨rest', hk', hr'⟩ : ∃ rest', kept.Perm (P ++ rest') ∧ ∀ x ∈ rest', FinKey x.k := by
    rcases dropped with _ | ⟨x, _ | ⟨y, r⟩⟩
    · exact ⟨rest, by simpa using p1.trans hp, hr⟩
    · have hfull : s.values.s.length = k := by
        by_contra hne; rw [if_neg hne] at l1; simp at l1
      have hlen : (P ++ rest).length = k := by rw [← hp.length_eq]; exact hfull
      rw [List.length_append] at hlen
      have hxm : x ∈ P ++ rest := hp.mem_iff.1 (p1.mem_iff.1 (by simp))
      have hxr : x ∈ rest := by
        refine (List.mem_append.1 hxm).resolve_left fun hxP => ?_
        obtain ⟨y, hy⟩ := List.exists_mem_of_length_pos (show 0 < rest.length by omega)
        have := (o2 _ ⟨.nan, 0⟩ keyOrder_f64 hall (h.heap _)).1 x (by simp) y (hp.mem_iff.2 (List.mem_append_right _ hy))
        obtain ⟨q, hq, -⟩ := hr y hy
        rw [hq, hP x hxP] at this
        simp [GoFloat.lt, F64.lt] at this
      obtain ⟨r1, r2, rfl⟩ := List.append_of_mem hxr
      refine ⟨r1 ++ r2, ?_, fun z hz => hr z (by rcases List.mem_append.1 hz with h | h <;> simp [h])⟩
      have h1 : (x :: kept).Perm (x :: (P ++ (r1 ++ r2))) := by
        refine (p1.trans hp).trans ?_
        rw [← List.append_assoc, ← List.append_assoc]
        exact List.perm_middle
      exact (List.perm_cons x).1 h1
    · simp at l1; split at l1 <;> omega
  have hresP : ∀ x ∈ P', x.k = .inf false → s.rescaled t x = x := by
    intro x _ hx
    unfold ExpDecaySample.rescaled
    split
    · rw [h.alpha, hf]
      obtain ⟨xk, xv⟩ := x
      simp only at hx
      subst hx
      simp only [ExpDecaySample.scaleItem]
      exact congrArg (fun z => Item.mk z xv) hinf
    · rfl
  have hresF : ∀ x : Item F64, FinKey x.k → FinKey (s.rescaled t x).k := by
    intro x hx
    unfold ExpDecaySample.rescaled
    split
    · rw [h.alpha, hf]; exact hx.mul hf0 hf1
    · exact hx
  rw [h.alpha] at p2
  have hP' : ∀ x ∈ P', x.k = .inf false := by
    rcases hn with ⟨-, rfl⟩ | ⟨-, -, rfl⟩
    · exact hP
    · simp
  have hitems : ∃ rest, s'.values.s.Perm (P' ++ rest) ∧ ∀ x ∈ rest, FinKey x.k := by
    have hmapP : P'.map (s.rescaled t) = P' := (List.map_congr_left fun x hx => hresP x hx (hP' x hx)).trans (List.map_id' _)
    rcases hn with ⟨hn, rfl⟩ | ⟨hn, rfl, rfl⟩
    · refine ⟨(⟨ExpDecaySample.key (F64.fin a) s.t0 t u, v⟩ :: rest').map (s.rescaled t), ?_, ?_⟩
      · rw [← hmapP, ← List.map_append]
        refine p2.trans (List.Perm.map _ ?_)
        exact (hk'.cons _).trans List.perm_middle.symm
      · intro x hx
        obtain ⟨y, hy, rfl⟩ := List.mem_map.1 hx
        rcases List.mem_cons.1 hy with rfl | hy
        · exact hresF _ hn
        · exact hresF _ (hr' y hy)
    · refine ⟨rest'.map (s.rescaled t), ?_, ?_⟩
      · rw [← hmapP, ← List.map_append]
        refine p2.trans (List.Perm.map _ ?_)
        rw [hn]
        exact hk'.cons _
      · intro x hx
        obtain ⟨y, hy, rfl⟩ := List.mem_map.1 hx
        exact hresF _ (hr' y hy)
  have hall' : AllP (· ≠ F64.nan) s'.values.s := by
    obtain ⟨rest2, q1, q2⟩ := hitems
    intro x hx
    rcases List.mem_append.1 (q1.mem_iff.1 hx) with hx | hx
    · rw [hP' x hx]; simp
    · exact (q2 x hx).ne_nan
  have hkn : ExpDecaySample.key s.alpha s.t0 t u ≠ .nan := by
    rw [h.alpha]
    rcases hn with ⟨hn, -⟩ | ⟨hn, -⟩
    · exact hn.ne_nan
    · rw [hn]; simp
  refine ⟨s', e, ⟨hs', hal.trans h.alpha, ?_, ?_, ?_, fun d => (o2 _ d keyOrder_f64 hall (h.heap _)).2 hkn hall', hitems⟩, hn0⟩
  · rw [hn0]; split
    · exact le_refl _
    · exact le_trans h.t0 ht
  · rw [hn1]; split
    · have : (0 : Int) ≤ hour := by decide
      show (t : Int) ≤ t + hour; omega
    · rename_i h; exact not_lt.1 h
  · rw [hn0, hn1]; split
    · rfl
    · exact h.eq

/-- Later updates in the ordinary course of things. -/
private theorem pin_run {k : Nat} (hk : 2 ≤ k) {a : ℚ} (ha : 0 ≤ a) {gap : Int} (hG : gap + hour ≤ maxInt64) (hsafe : a * ((gap + hour : ℤ) / 10 ^ 9 + 1) ≤ 600)
    {P : List (Item F64)} (hP : ∀ x ∈ P, x.k = .inf false) (hP1 : P.length ≤ 1) (ups : List (Given F64)) (hdraws : ∀ g ∈ ups, ∃ q : ℚ, g.u = .fin q ∧ 1 / 2 ^ 53 ≤ q) :
    ∀ (L : Instant) (s : ExpDecaySample F64), Pin k a L P s → Steady gap L (updates ups) → ∃ s' L', s.run (updates ups) = .ok s' ∧ Pin k a L' P s' ∧
      (∀ B, (∀ g ∈ ups, g.t ≤ B) → L ≤ B → L' ≤ B) ∧ (∀ more, Steady gap L (updates ups ++ more) → Steady gap L' more) ∧ ((∀ g ∈ ups, g.t ≤ s.t1) → s'.t0 = s.t0) := by
  induction ups with
  | nil => exact fun L s h _ => ⟨s, L, rfl, h, fun _ _ h => h, fun _ h => h, fun _ => rfl⟩
  | cons g ups ih =>
    intro L s h hst
    obtain ⟨q, hq, hq1⟩ := hdraws g (by simp)
    obtain ⟨h1, h2, h3⟩ : L ≤ g.t ∧ g.t - L ≤ gap ∧ Steady gap g.t (updates ups) := hst
    have hle : s.t0 ≤ g.t := le_trans h.t0 h1
    have hdiff : g.t - s.t0 ≤ gap + hour := by
      have h4 := h.t1
      rw [h.eq] at h4
      change (L : Int) ≤ s.t0 + hour at h4
      change (g.t : Int) - L ≤ gap at h2
      show (g.t : Int) - s.t0 ≤ gap + hour
      omega
    have hs' : a * ((g.t - s.t0 : ℤ) / 10 ^ 9 + 1) ≤ 600 := by
      refine le_trans (mul_le_mul_of_nonneg_left ?_ ha) hsafe
      have : ((g.t - s.t0 : ℤ) : ℚ) ≤ ((gap + hour : ℤ) : ℚ) := by exact_mod_cast hdiff
      have h9 : (0 : ℚ) < 10 ^ 9 := by norm_num
      have := (div_le_div_iff_of_pos_right h9).2 this
      linarith
    obtain ⟨s1, e1, hp1, ht1⟩ := pin_step (P' := P) hk h hP hP1 h1 (v := g.v) (u := g.u) (factor_744 ha hle (le_trans hdiff hG) (le_trans hs' (by norm_num)))
      (.inl ⟨by rw [hq]; exact key_fin ha hle (le_trans hdiff hG) hs' hq1, rfl⟩)
    obtain ⟨s2, L2, e2, hp2, hB, hM, ht2⟩ := ih (fun g hg => hdraws g (by simp [hg])) g.t s1 hp1 h3
    refine ⟨s2, L2, ?_, hp2, fun B hb _ => hB B (fun x hx => hb x (by simp [hx])) (hb g (by simp)), fun more hm => hM more hm.2.2, fun hall => ?_⟩
    · show ExpDecaySample.run s (.update g.t g.v g.u :: updates ups) = _
      unfold ExpDecaySample.run at e2 ⊢
      rw [List.foldlM_cons]
      simp only [ExpDecaySample.apply, e1]
      exact e2
    · have h0 : s1.t0 = s.t0 := by rw [ht1, if_neg (not_lt.2 (hall g (by simp)))]
      rw [ht2 (fun x hx => by rw [hp1.eq, h0, ← h.eq]; exact hall x (by simp [hx])), h0]

private theorem pin_new {k : Nat} {a : ℚ} {now : Instant} {s0 : ExpDecaySample F64} (hnew : ExpDecaySample.new k (F64.fin a) now = .ok s0) : Pin k a now [] s0 ∧ s0.t0 = now := by
  obtain ⟨s0', e0, hsh, hv, _, halpha, ht0, ht1⟩ := ExpDecaySample.new_shape (F := F64) k (.fin a) now
  rw [hnew] at e0; cases e0
  have : (0 : Int) ≤ hour := by decide
  refine ⟨⟨hsh, halpha, by rw [ht0], ?_, by rw [ht0, ht1], fun d m _ hm => by simp [hv] at hm, [], by simp [hv], by simp⟩, ht0⟩
  rw [ht1]; show (now : Int) ≤ now + hour; omega

private theorem exp_run_append {s s1 : ExpDecaySample F64} {l1 l2 : List (ExpOp F64)} (h : s.run l1 = .ok s1) : s.run (l1 ++ l2) = s1.run l2 := by
  unfold ExpDecaySample.run at *
  rw [List.foldlM_append, h]
  rfl

private theorem steady_left {G : Int} {last : Instant} {p q : List (ExpOp F64)} (h : Steady G last (p ++ q)) : Steady G last p := by
  induction p generalizing last with
  | nil => trivial
  | cons o p ih => cases o <;> exact ⟨h.1, h.2.1, ih h.2.2⟩

/-- C116, after an idle time: float64 arithmetic, any reservoir of at least two places, any alpha > 0. The sample is made at `now` and used only in the hour
after that; then nothing, until an update at a time between 711/alpha and 744/alpha seconds after `now` (for alpha = 0.015 between 13 h 10 min and 13 h 46
min). The value of this update is never pushed out, whatever comes later in the ordinary course of things. -/
theorem C116_stuck (k : Nat) (hk : 2 ≤ k) (a : ℚ) (ha : 0 < a) (now : Instant) (s0 : ExpDecaySample F64) (hnew : ExpDecaySample.new k (F64.fin a) now = .ok s0)
    (gap : Int) (hG : gap + hour ≤ maxInt64) (hsafe : a * ((gap + hour : ℤ) / 10 ^ 9 + 1) ≤ 600)
    (pre post : List (Given F64)) (hdraws : ∀ g ∈ pre ++ post, ∃ q : ℚ, g.u = .fin q ∧ 1 / 2 ^ 53 ≤ q)
    (hpre : Steady gap now (updates pre)) (hhour : ∀ g ∈ pre, g.t ≤ now + hour)
    (t : Instant) (v : Int64) (q : ℚ) (hq : 0 < q) (hlast : ∀ g ∈ pre, g.t ≤ t) (hmax : t - now ≤ maxInt64)
    (hlong : 711 + a ≤ a * ((t - now : ℤ) / 10 ^ 9)) (hshort : a * ((t - now : ℤ) / 10 ^ 9 + 1) ≤ 744)
    (hpost : Steady gap t (updates post)) :
    ∃ s, s0.run (updates (pre ++ ⟨t, v, .fin q⟩ :: post)) = .ok s ∧ v ∈ s.vals := by
  obtain ⟨hp0, h0⟩ := pin_new hnew
  have hnt : now ≤ t := by
    by_contra hlt
    have h1 : ((t - now : ℤ) : ℚ) ≤ 0 := by
      have : (t : Int) - now ≤ 0 := by have : (t : Int) < now := not_le.1 hlt; omega
      exact_mod_cast this
    have : a * ((t - now : ℤ) / 10 ^ 9) ≤ 0 := mul_nonpos_of_nonneg_of_nonpos ha.le (div_nonpos_of_nonpos_of_nonneg h1 (by norm_num))
    linarith
  obtain ⟨s1, L, e1, hp1, hB, -, ht1⟩ := pin_run hk ha.le hG hsafe (P := []) (by simp) (by simp) pre (fun g hg => hdraws g (by simp [hg])) now s0 hp0 hpre
  have h1 : s1.t0 = now := by rw [ht1 (fun g hg => by rw [hp0.eq, h0]; exact hhour g hg), h0]
  obtain ⟨s2, e2, hp2, -⟩ := pin_step (P' := [⟨.inf false, v⟩]) hk hp1 (by simp) (by simp) (hB t hlast hnt) (v := v) (u := .fin q)
    (by rw [h1]; exact factor_744 ha.le hnt hmax hshort) (.inr ⟨by rw [h1]; exact key_idle ha hnt hmax hlong hshort hq, rfl, rfl⟩)
  obtain ⟨s3, L3, e3, hp3, -⟩ := pin_run hk ha.le hG hsafe (P := [⟨.inf false, v⟩]) (by simp) (by simp) post (fun g hg => hdraws g (by simp [hg])) t s2 hp2 hpost
  refine ⟨s3, ?_, ?_⟩
  · have : updates (pre ++ ⟨t, v, .fin q⟩ :: post) = updates pre ++ .update t v (.fin q) :: updates post := by simp [updates]
    rw [this, exp_run_append e1]
    unfold ExpDecaySample.run at e3 ⊢
    rw [List.foldlM_cons]
    simp only [ExpDecaySample.apply, e2]
    exact e3
  · obtain ⟨rest, hr, -⟩ := hp3.items
    exact List.mem_map.2 ⟨⟨.inf false, v⟩, hr.mem_iff.2 (by simp), rfl⟩

/-- C116, the random number 0: `rand.Float64` may return 0, and then, too, the value is never pushed out. -/
theorem C116_zero_draw (k : Nat) (hk : 2 ≤ k) (a : ℚ) (ha : 0 ≤ a) (now : Instant) (s0 : ExpDecaySample F64) (hnew : ExpDecaySample.new k (F64.fin a) now = .ok s0)
    (gap : Int) (hG : gap + hour ≤ maxInt64) (hsafe : a * ((gap + hour : ℤ) / 10 ^ 9 + 1) ≤ 600)
    (pre post : List (Given F64)) (hdraws : ∀ g ∈ pre ++ post, ∃ q : ℚ, g.u = .fin q ∧ 1 / 2 ^ 53 ≤ q) (t : Instant) (v : Int64)
    (hst : Steady gap now (updates (pre ++ ⟨t, v, .fin 0⟩ :: post))) :
    ∃ s, s0.run (updates (pre ++ ⟨t, v, .fin 0⟩ :: post)) = .ok s ∧ v ∈ s.vals := by
  have hu : updates (pre ++ ⟨t, v, .fin 0⟩ :: post) = updates pre ++ .update t v (.fin 0) :: updates post := by simp [updates]
  obtain ⟨hp0, h0⟩ := pin_new hnew
  rw [hu] at hst ⊢
  obtain ⟨s1, L, e1, hp1, -, hM, -⟩ := pin_run hk ha hG hsafe (P := []) (by simp) (by simp) pre (fun g hg => hdraws g (by simp [hg])) now s0 hp0 (steady_left hst)
  obtain ⟨h1, h2, h3⟩ : L ≤ t ∧ t - L ≤ gap ∧ Steady gap t (updates post) := hM _ hst
  have hle : s1.t0 ≤ t := le_trans hp1.t0 h1
  have hdiff : t - s1.t0 ≤ gap + hour := by
    have h4 := hp1.t1
    rw [hp1.eq] at h4
    change (L : Int) ≤ s1.t0 + hour at h4
    change (t : Int) - L ≤ gap at h2
    show (t : Int) - s1.t0 ≤ gap + hour
    omega
  have hs' : a * ((t - s1.t0 : ℤ) / 10 ^ 9 + 1) ≤ 600 := by
    refine le_trans (mul_le_mul_of_nonneg_left ?_ ha) hsafe
    have : ((t - s1.t0 : ℤ) : ℚ) ≤ ((gap + hour : ℤ) : ℚ) := by exact_mod_cast hdiff
    have h9 : (0 : ℚ) < 10 ^ 9 := by norm_num
    have := (div_le_div_iff_of_pos_right h9).2 this
    linarith
  obtain ⟨s2, e2, hp2, -⟩ := pin_step (P' := [⟨.inf false, v⟩]) hk hp1 (by simp) (by simp) h1 (v := v) (u := .fin 0)
    (factor_744 ha hle (le_trans hdiff hG) (le_trans hs' (by norm_num))) (.inr ⟨key_zero ha hle (le_trans hdiff hG) hs', rfl, rfl⟩)
  obtain ⟨s3, L3, e3, hp3, -⟩ := pin_run hk ha hG hsafe (P := [⟨.inf false, v⟩]) (by simp) (by simp) post (fun g hg => hdraws g (by simp [hg])) t s2 hp2 h3
  refine ⟨s3, ?_, ?_⟩
  · rw [exp_run_append e1]
    unfold ExpDecaySample.run at e3 ⊢
    rw [List.foldlM_cons]
    simp only [ExpDecaySample.apply, e2]
    exact e3
  · obtain ⟨rest, hr, -⟩ := hp3.items
    exact List.mem_map.2 ⟨⟨.inf false, v⟩, hr.mem_iff.2 (by simp), rfl⟩

/-- C116 for the usual parameters: `NewExpDecaySample(1028, 0.015)`, used for the first time 13 h 20 min after it was made, and after that at least every
nine hours. The first value never goes. -/
theorem C116_usual (now : Instant) (s0 : ExpDecaySample F64) (hnew : ExpDecaySample.new 1028 (GoFloat.lit (15 / 1000)) now = .ok s0) (v : Int64) (q : ℚ) (hq : 0 < q)
    (post : List (Given F64)) (hdraws : ∀ g ∈ post, ∃ q : ℚ, g.u = .fin q ∧ 1 / 2 ^ 53 ≤ q)
    (hpost : Steady (9 * 3600 * 10 ^ 9) (now + 48000 * 10 ^ 9) (updates post)) :
    ∃ s, s0.run (updates (⟨now + 48000 * 10 ^ 9, v, .fin q⟩ :: post)) = .ok s ∧ v ∈ s.vals := by
  set r := rnd (15 / 1000 : ℚ) with hr
  have e2 : (GoFloat.lit (15 / 1000) : F64) = .fin r := round_of_abs_le (n := 0) (by norm_num) (by rw [abs_of_nonneg (by norm_num)]; norm_num)
  have hr1 : (61 : ℚ) / 4096 ≤ r := by
    have h1 : rnd ((61 : ℚ) / 4096) ≤ r := rnd_mono (by norm_num)
    have h2 := rnd_dyadic (K := ℚ) 61 (-12) (by norm_num) (by norm_num)
    norm_num at h1 h2
    rw [h2] at h1
    norm_num; exact h1
  have hr2 : r ≤ 63 / 4096 := by
    have h1 : r ≤ rnd ((63 : ℚ) / 4096) := rnd_mono (by norm_num)
    have h2 := rnd_dyadic (K := ℚ) 63 (-12) (by norm_num) (by norm_num)
    norm_num at h1 h2
    rw [h2] at h1
    norm_num; exact h1
  rw [e2] at hnew
  have hd : ((now + 48000 * 10 ^ 9 : Instant) - now : ℤ) = 48000 * 10 ^ 9 := by show (now : Int) + 48000 * 10 ^ 9 - now = _; omega
  have hh : hour = 3600 * 10 ^ 9 := by decide
  refine C116_stuck 1028 (by norm_num) r (by linarith) now s0 hnew (9 * 3600 * 10 ^ 9) (by decide) ?_ [] post (by simpa using hdraws) trivial (by simp)
    (now + 48000 * 10 ^ 9) v q hq (by simp) ?_ ?_ ?_ hpost
  · rw [hh]; push_cast; linarith
  · rw [hd]; decide
  · rw [hd]; push_cast; linarith
  · rw [hd]; push_cast; linarith

/-! ### Concrete cases -/

/-- Updates every minute, for ever; for instance these. -/
example : Steady (9 * 3600 * 10 ^ 9) (48000 * 10 ^ 9) (updates (F := F64) [⟨48060 * 10 ^ 9, 7, .fin (1 / 2)⟩, ⟨48120 * 10 ^ 9, 8, .fin (1 / 4)⟩]) := by
  simp [Steady, updates]

/-- A history for `C116_stuck` with updates before the idle time, and one for `C116_zero_draw`. -/
example : Steady (10 ^ 9) 0 (updates (F := F64) [⟨10 ^ 9, 3, .fin (1 / 2)⟩]) ∧ ((1 / 64 : ℚ) * ((10 ^ 9 + hour : ℤ) / 10 ^ 9 + 1) ≤ 600) ∧
    711 + (1 / 64 : ℚ) ≤ 1 / 64 * (((46000 * 10 ^ 9 : Int) : ℤ) / 10 ^ 9) ∧ (1 / 64 : ℚ) * (((46000 * 10 ^ 9 : Int) : ℤ) / 10 ^ 9 + 1) ≤ 744 ∧
    Steady (10 ^ 9) 0 (updates (F := F64) ([⟨10 ^ 9, 3, .fin (1 / 2)⟩] ++ ⟨2 * 10 ^ 9, 5, .fin 0⟩ :: [⟨3 * 10 ^ 9, 4, .fin (3 / 4)⟩])) := by
  refine ⟨?_, ?_, ?_, ?_, ?_⟩
  · simp [Steady, updates]
  · simp [hour]; norm_num
  · norm_num
  · norm_num
  · simp [Steady, updates]

end GoMetrics
