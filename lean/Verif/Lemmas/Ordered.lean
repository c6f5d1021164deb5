import Verif.Props.Export
import Verif.Props.Stats
import Verif.Spec.Ordered

/-! Lemmas for C122. -/

set_option linter.unusedSectionVars false

namespace GoMetrics.Ordered
open GoMetrics Spec

section generic
variable {F : Type} [GoFloat F] [GoSqrt F] [GoExp F]

/-- What is behind the statistics of a distribution: minimum and maximum, mean and percentiles, in order. -/
structure Facts (w : World F) (env : Env F) (r : Ref) where
  lo : Int64
  hi : Int64
  mean : F
  pct : F → F
  isMin : ∀ v, Holds w env r (.stat .min) v → v = .int lo
  isMax : ∀ v, Holds w env r (.stat .max) v → v = .int hi
  isMean : ∀ v, Holds w env r (.stat .mean) v → v = .float mean
  isPct : ∀ p v, Holds w env r (.stat (.percentile p)) v → v = .float (pct p)
  lo_hi : lo.toInt ≤ hi.toInt
  lo_mean : GoFloat.le (GoFloat.ofInt lo.toInt) mean = true
  mean_hi : GoFloat.le mean (GoFloat.ofInt hi.toInt) = true
  lo_pct : ∀ p v, Holds w env r (.stat (.percentile p)) v → GoFloat.le (GoFloat.ofInt lo.toInt) (pct p) = true
  pct_hi : ∀ p v, Holds w env r (.stat (.percentile p)) v → GoFloat.le (pct p) (GoFloat.ofInt hi.toInt) = true
  mono : ∀ p q, GoFloat.le p q = true → GoFloat.le (pct p) (pct q) = true
  nonneg : NoNegative w r → 0 ≤ lo.toInt

/-- What an accessor gives if the recorded values are these. -/
theorem see {w : World F} (hw : w.Ok) {env : Env F} {r : Ref} {o : Obj F} (ho : w.objs r = some o) (hk : isDistribution o = true) (c : StatCall F) (v : GoMetrics.Field F)
    (hc : c ≠ .stdDev) (h : Holds w env r (.stat c) v) : shows (readStat (recorded w r) c) v := by
  have hty : HasTy w r .hist ∨ HasTy w r .timer := by
    cases o <;> simp [isDistribution] at hk
    · exact .inl ⟨_, ho, rfl⟩
    · exact .inr ⟨_, ho, rfl⟩
  have hne : o.ty ≠ .health := by cases o <;> simp [isDistribution] at hk <;> simp [Obj.ty]
  have := h.2 (by simpa using hc)
  rwa [checked_of_not_health ho hne, observe_stat hw hty] at this

/-- Two statistics that are held at the same moment are in order. -/
theorem below (hint : ∀ a b : Int, a ≤ b → GoFloat.le (GoFloat.ofInt a : F) (GoFloat.ofInt b) = true)
    {w : World F} {env : Env F} {r : Ref} (f : Facts w env r) {c c' : Call F} {v v' : GoMetrics.Field F} (h5 : Holds w env r c v) (h7 : Holds w env r c' v') (h4 : Below c c') :
    GoFloat.le (num v) (num v') = true := by
  cases h4 with
  | minMax => rw [f.isMin _ h5, f.isMax _ h7]; exact hint _ _ f.lo_hi
  | minMean => rw [f.isMin _ h5, f.isMean _ h7]; exact f.lo_mean
  | meanMax => rw [f.isMean _ h5, f.isMax _ h7]; exact f.mean_hi
  | minPct p => rw [f.isMin _ h5, f.isPct _ _ h7]; exact f.lo_pct p _ h7
  | pctMax p => rw [f.isPct _ _ h5, f.isMax _ h7]; exact f.pct_hi p _ h5
  | pcts p q hpq => rw [f.isPct _ _ h5, f.isPct _ _ h7]; exact f.mono p q hpq

/-- Rows with monotone conversions are in order. -/
theorem inOrder (hint : ∀ a b : Int, a ≤ b → GoFloat.le (GoFloat.ofInt a : F) (GoFloat.ofInt b) = true)
    {w : World F} {env : Env F} {r : Ref} {o : Obj F} (f : Facts w env r) {ps : List F} {conv : Call F → GoMetrics.Field F → GoMetrics.Field F}
    {rows : List (String × GoMetrics.Field F)} (hc : Complete w env r o ps conv rows)
    (h1 : ∀ c c' v v', Below c c' → GoFloat.le (num v) (num v') = true → GoFloat.le (num (conv c v)) (num (conv c' v')) = true) : RowsInOrder o rows := by
  intro x hx y hy c c' h2 h3 h4
  obtain ⟨v, h5, h6⟩ := hc.2 x hx c h2
  obtain ⟨v', h7, h8⟩ := hc.2 y hy c' h3
  rw [h6, h8]
  exact h1 c c' v v' h4 (below hint f h5 h7 h4)

theorem fields_names {l : List (String × Call F)} {m : List (String × GoMetrics.Field F)} (h : List.Forall₂ (fun kc kf => kf.1 = kc.1) l m) : m.map Prod.fst = l.map Prod.fst := by
  induction h with
  | nil => rfl
  | cons h7 _ ih => rw [List.map_cons, List.map_cons, ih, h7]

/-- The fields of `GetAll` are in order. -/
theorem fieldsInOrder (hint : ∀ a b : Int, a ≤ b → GoFloat.le (GoFloat.ofInt a : F) (GoFloat.ofInt b) = true)
    {w : World F} {env : Env F} {r : Ref} {o : Obj F} (f : Facts w env r) {vs : List (String × GoMetrics.Field F)}
    (h : List.Forall₂ (fun (kc : String × Call F) (kf : String × GoMetrics.Field F) => kf.1 = kc.1 ∧ Holds w env r kc.2 kf.2) (fieldsOf o) vs) : FieldsInOrder o vs := by
  have hn : ((fieldsOf o).map Prod.fst).Nodup := by
    cases o <;> (simp only [fieldsOf, fieldsOf.distribution, fieldsOf.rates, List.map, List.cons_append, List.nil_append]; decide)
  have key : ∀ (l : List (String × Call F)) (m : List (String × GoMetrics.Field F)),
      List.Forall₂ (fun (kc : String × Call F) (kf : String × GoMetrics.Field F) => kf.1 = kc.1 ∧ Holds w env r kc.2 kf.2) l m → (l.map Prod.fst).Nodup →
      ∀ k c v, (k, c) ∈ l → (k, v) ∈ m → Holds w env r c v := by
    intro l m hf
    induction hf with
    | nil => intro _ k c v hk; cases hk
    | @cons a b l m hab hlm ih =>
      intro hnd k c v hk hv
      rw [List.map_cons, List.nodup_cons] at hnd
      have hm : m.map Prod.fst = l.map Prod.fst := by
        clear ih hnd hk hv
        induction hlm with
        | nil => rfl
        | cons h7 _ ih => rw [List.map_cons, List.map_cons, ih, h7.1]
      rcases List.mem_cons.1 hk with rfl | hk <;> rcases List.mem_cons.1 hv with rfl | hv
      · exact hab.2
      · exact absurd (hm ▸ List.mem_map_of_mem (f := Prod.fst) hv) hnd.1
      · exact absurd (by rw [← hab.1]; exact List.mem_map_of_mem (f := Prod.fst) hk) hnd.1
      · exact ih hnd.2 k c v hk hv
  intro k c k' c' v v' h1 h2 h3 h4 h5
  exact below hint f (key _ _ h hn k c v h1 h3) (key _ _ h hn k' c' v' h2 h4) h5

theorem num_asFloat (v : GoMetrics.Field F) : num (asFloat v) = num v := by
  cases v <;> rfl

theorem isDuration_of_below {c c' : Call F} (h : Below c c') : isDuration c = true ∧ isDuration c' = true := by
  cases h <;> exact ⟨rfl, rfl⟩

theorem isCount_of_below {c c' : Call F} (h : Below c c') : isCount c = false ∧ isCount c' = false := by
  cases h <;> exact ⟨rfl, rfl⟩

end generic

section exact
variable {K : Type} [_root_.Field K] [LinearOrder K] [IsStrictOrderedRing K] [FloorRing K] [GoSqrt K] [GoExp K]

theorem le_iff (a b : K) : GoFloat.le a b = true ↔ a ≤ b := decide_eq_true_iff

theorem int_exact (a b : Int) (h : a ≤ b) : GoFloat.le (GoFloat.ofInt a : K) (GoFloat.ofInt b) = true := by
  rw [le_iff]
  exact Int.cast_le.2 h

private theorem lit_zero : (GoFloat.lit 0 : K) = 0 := by
  show ((0 : ℚ) : K) = 0
  simp

private theorem ofInt_zero : (GoFloat.ofInt (0 : Int64).toInt : K) = 0 := by
  show (((0 : Int64).toInt : Int) : K) = 0
  simp

theorem facts {w : World K} (hw : w.Ok) (env : Env K) {r : Ref} {o : Obj K} (ho : w.objs r = some o) (hk : isDistribution o = true) (hs : SumsFit w r) :
    Nonempty (Facts w env r) := by
  have see := fun c v => see hw (env := env) ho hk c v
  rcases hrec : recorded w r with _ | vs
  · rw [hrec] at see
    exact ⟨{ lo := 0, hi := 0, mean := GoFloat.lit 0, pct := fun _ => GoFloat.lit 0
             isMin := fun v h => see _ v (by simp) h
             isMax := fun v h => see _ v (by simp) h
             isMean := fun v h => see _ v (by simp) h
             isPct := fun p v h => see _ v (by simp) h
             lo_hi := le_rfl
             lo_mean := by rw [le_iff, lit_zero, ofInt_zero]
             mean_hi := by rw [le_iff, lit_zero, ofInt_zero]
             lo_pct := fun _ _ _ => by rw [le_iff, lit_zero, ofInt_zero]
             pct_hi := fun _ _ _ => by rw [le_iff, lit_zero, ofInt_zero]
             mono := fun _ _ _ => (le_iff _ _).2 le_rfl
             nonneg := by simp }⟩
  · rw [hrec] at see
    by_cases hv : vs = []
    · subst hv
      exact ⟨{ lo := 0, hi := 0, mean := GoFloat.lit 0, pct := fun _ => GoFloat.lit 0
               isMin := fun v h => see _ v (by simp) h
               isMax := fun v h => see _ v (by simp) h
               isMean := fun v h => see _ v (by simp) h
               isPct := fun p v h => see _ v (by simp) h
               lo_hi := le_rfl
               lo_mean := by rw [le_iff, lit_zero, ofInt_zero]
               mean_hi := by rw [le_iff, lit_zero, ofInt_zero]
               lo_pct := fun _ _ _ => by rw [le_iff, lit_zero, ofInt_zero]
               pct_hi := fun _ _ _ => by rw [le_iff, lit_zero, ofInt_zero]
               mono := fun _ _ _ => (le_iff _ _).2 le_rfl
               nonneg := by simp }⟩
    · have hm := C12_mean_between_partial (K := K) vs hv (hs vs hrec)
      have h15 := fun p q hpq => C15_exact (K := K) vs hv p q hpq
      have hp : ∀ p : K, ∃ s ws, samplePercentile vs p = .ok (s, ws) := fun p => by
        obtain ⟨s, _, ws, h, -⟩ := h15 p p le_rfl
        exact ⟨s, ws, h⟩
      choose P W hPW using hp
      have hb : ∀ p q, p ≤ q → ((sampleMin vs).toInt : K) ≤ P p ∧ P p ≤ P q ∧ P q ≤ ((sampleMax vs).toInt : K) := by
        intro p q hpq
        obtain ⟨s, t, ws, h1, h2, h3, h4, h5, -⟩ := h15 p q hpq
        rw [hPW] at h1 h2
        cases h1
        injection h2 with h2
        injection h2 with h2
        subst h2
        exact ⟨h3, h4, h5⟩
      exact ⟨{ lo := sampleMin vs, hi := sampleMax vs, mean := sampleMean vs, pct := P
               isMin := fun v h => see _ v (by simp) h
               isMax := fun v h => see _ v (by simp) h
               isMean := fun v h => see _ v (by simp) h
               isPct := fun p v h => by
                have := see _ v (by simp) h
                rw [readStat, statOf, hPW] at this
                exact this
               lo_hi := (C10_max vs hv).2 _ (C10_min vs hv).1
               lo_mean := (le_iff _ _).2 hm.1, mean_hi := (le_iff _ _).2 hm.2
               lo_pct := fun p _ _ => (le_iff _ _).2 (hb p p le_rfl).1, pct_hi := fun p _ _ => (le_iff _ _).2 (hb p p le_rfl).2.2
               mono := fun p q hpq => (le_iff _ _).2 (hb p q ((le_iff _ _).1 hpq)).2.1, nonneg := fun hn => hn vs hrec _ (C10_min vs hv).1 }⟩

theorem num_inUnit (du : K) (v : GoMetrics.Field K) : num (inUnit du v) = num v / du := by
  cases v <;> simp [inUnit, asFloat, num, GoFloat.div, GoFloat.ofInt, lit_zero]

/-- Division by a positive unit. -/
theorem unit_mono {du : K} (hd : 0 < du) (v v' : GoMetrics.Field K) (h : GoFloat.le (num v) (num v') = true) : GoFloat.le (num (inUnit du v)) (num (inUnit du v')) = true := by
  rw [le_iff] at h ⊢
  rw [num_inUnit, num_inUnit]
  exact div_le_div_of_nonneg_right h hd.le

private theorem tdiv_bounds (n : Int) {d : Int} (hd : 0 < d) : ((n.tdiv d : Int) : K) < (n : K) / d + 1 ∧ (n : K) / d < ((n.tdiv d : Int) : K) + 1 ∧
    (0 ≤ n → ((n.tdiv d : Int) : K) ≤ (n : K) / d) := by
  have hK : (0 : K) < d := by exact_mod_cast hd
  have e := Int.mul_tdiv_add_tmod n d
  have l1 := Int.tmod_lt_of_pos n hd
  have l2 := Int.lt_tmod_of_pos n hd
  refine ⟨?_, ?_, fun hn => ?_⟩
  · rw [← sub_lt_iff_lt_add, lt_div_iff₀ hK]
    have : (n.tdiv d - 1) * d < n := by nlinarith
    exact_mod_cast this
  · rw [div_lt_iff₀ hK]
    have : n < (n.tdiv d + 1) * d := by nlinarith
    exact_mod_cast this
  · rw [le_div_iff₀ hK]
    have : n.tdiv d * d ≤ n := by
      have := Int.tmod_nonneg d hn
      nlinarith
    exact_mod_cast this

private theorem div_toInt (n d : Int64) (hd : 0 < d.toInt) : (n / d).toInt = n.toInt.tdiv d.toInt := by
  refine Int64.toInt_div_of_ne_right _ _ (fun e => ?_)
  subst e
  exact absurd hd (by decide)

/-- Rows whose integers are truncated to the unit are nearly in order. -/
theorem nearly {w : World K} {env : Env K} {r : Ref} {o : Obj K} (f : Facts w env r) {ps : List K} {conv : Call K → GoMetrics.Field K → GoMetrics.Field K}
    {rows : List (String × GoMetrics.Field K)} (hc : Complete w env r o ps conv rows) (d : Int64) (hd : 0 < d.toInt)
    (h1 : ∀ c v, isDuration c = true → conv c v = inUnitInt d (d.toInt : K) v) : RowsNearlyInOrder o (NoNegative w r) rows := by
  intro x hx y hy c c' h2 h3 h4
  obtain ⟨v, h5, h6⟩ := hc.2 x hx c h2
  obtain ⟨v', h7, h8⟩ := hc.2 y hy c' h3
  rw [h6, h8, h1 c v (isDuration_of_below h4).1, h1 c' v' (isDuration_of_below h4).2]
  have hK : (0 : K) < d.toInt := by exact_mod_cast hd
  have hi : ∀ n : Int64, num (inUnitInt d (d.toInt : K) (.int n)) = ((n.toInt.tdiv d.toInt : Int) : K) := fun n => by
    show ((n / d).toInt : K) = _
    rw [div_toInt n d hd]
  have hf : ∀ z : K, num (inUnitInt d (d.toInt : K) (.float z)) = z / d.toInt := fun z => rfl
  have bl := tdiv_bounds (K := K) f.lo.toInt hd
  have bh := tdiv_bounds (K := K) f.hi.toInt hd
  have mono : ∀ {a b : K}, a ≤ b → a / (d.toInt : K) ≤ b / d.toInt := fun h => div_le_div_of_nonneg_right h hK.le
  have cint : ∀ i : Int, (GoFloat.ofInt i : K) = (i : K) := fun _ => rfl
  cases h4 with
  | minMax =>
    rw [f.isMin _ h5, f.isMax _ h7, hi, hi]
    have : f.lo.toInt.tdiv d.toInt ≤ f.hi.toInt.tdiv d.toInt := Int.tdiv_le_tdiv hd f.lo_hi
    have : ((f.lo.toInt.tdiv d.toInt : Int) : K) ≤ ((f.hi.toInt.tdiv d.toInt : Int) : K) := by exact_mod_cast this
    exact ⟨lt_of_le_of_lt this (lt_add_one _), fun _ => this, fun _ _ => this⟩
  | minMean =>
    rw [f.isMin _ h5, f.isMean _ h7, hi, hf]
    have := mono ((le_iff _ _).1 f.lo_mean)
    rw [cint] at this
    exact ⟨by linarith [bl.1], fun e => by simp at e, fun hn _ => le_trans (bl.2.2 (f.nonneg hn)) this⟩
  | meanMax =>
    rw [f.isMean _ h5, f.isMax _ h7, hi, hf]
    have := mono ((le_iff _ _).1 f.mean_hi)
    rw [cint] at this
    exact ⟨by linarith [bh.2.1], fun e => by simp at e, fun _ e => by simp at e⟩
  | minPct p =>
    rw [f.isMin _ h5, f.isPct _ _ h7, hi, hf]
    have := mono ((le_iff _ _).1 (f.lo_pct p _ h7))
    rw [cint] at this
    exact ⟨by linarith [bl.1], fun e => by simp at e, fun hn _ => le_trans (bl.2.2 (f.nonneg hn)) this⟩
  | pctMax p =>
    rw [f.isPct _ _ h5, f.isMax _ h7, hi, hf]
    have := mono ((le_iff _ _).1 (f.pct_hi p _ h5))
    rw [cint] at this
    exact ⟨by linarith [bh.2.1], fun e => by simp at e, fun _ e => by simp at e⟩
  | pcts p q hpq =>
    rw [f.isPct _ _ h5, f.isPct _ _ h7, hf, hf]
    have := mono ((le_iff _ _).1 (f.mono p q hpq))
    exact ⟨by linarith, fun _ => this, fun _ _ => this⟩

/-- In exact arithmetic a unit keeps its value when it is converted to a float and back. -/
theorem unit_exact (d : Int64) : Int64.ofInt (GoFloat.toInt (GoFloat.ofInt d.toInt : K)) = d := by
  have : (GoFloat.toInt (GoFloat.ofInt d.toInt : K) : Int) = d.toInt := by
    show (if (0 : K) ≤ (d.toInt : K) then ⌊(d.toInt : K)⌋ else ⌈(d.toInt : K)⌉) = _
    simp
  rw [this, Int64.ofInt_toInt]

end exact

section ieee
variable [GoSqrt F64] [GoExp F64]

theorem int_ieee (a b : Int) (h : a ≤ b) : GoFloat.le (GoFloat.ofInt a : F64) (GoFloat.ofInt b) = true :=
  F64.round_mono (K := ℚ) (by exact_mod_cast h)

theorem facts_ieee {w : World F64} (hw : w.Ok) (env : Env F64) {r : Ref} {o : Obj F64} (ho : w.objs r = some o) (hk : isDistribution o = true) (hs : SumsExact w r) :
    Nonempty (Facts w env r) := by
  have see := fun c v => see hw (env := env) ho hk c v
  have hz : GoFloat.le (GoFloat.lit 0 : F64) (GoFloat.lit 0) = true := by decide +kernel
  have hz1 : GoFloat.le (GoFloat.ofInt (0 : Int64).toInt : F64) (GoFloat.lit 0) = true := by decide +kernel
  have hz2 : GoFloat.le (GoFloat.lit 0 : F64) (GoFloat.ofInt (0 : Int64).toInt) = true := by decide +kernel
  rcases hrec : recorded w r with _ | vs
  · rw [hrec] at see
    exact ⟨{ lo := 0, hi := 0, mean := GoFloat.lit 0, pct := fun _ => GoFloat.lit 0
             isMin := fun v h => see _ v (by simp) h
             isMax := fun v h => see _ v (by simp) h
             isMean := fun v h => see _ v (by simp) h
             isPct := fun p v h => see _ v (by simp) h
             lo_hi := le_rfl, lo_mean := hz1, mean_hi := hz2, lo_pct := fun _ _ _ => hz1, pct_hi := fun _ _ _ => hz2, mono := fun _ _ _ => hz, nonneg := by simp }⟩
  · rw [hrec] at see
    by_cases hv : vs = []
    · subst hv
      exact ⟨{ lo := 0, hi := 0, mean := GoFloat.lit 0, pct := fun _ => GoFloat.lit 0
               isMin := fun v h => see _ v (by simp) h
               isMax := fun v h => see _ v (by simp) h
               isMean := fun v h => see _ v (by simp) h
               isPct := fun p v h => see _ v (by simp) h
               lo_hi := le_rfl, lo_mean := hz1, mean_hi := hz2, lo_pct := fun _ _ _ => hz1, pct_hi := fun _ _ _ => hz2, mono := fun _ _ _ => hz, nonneg := by simp }⟩
    · obtain ⟨hs1, hs2⟩ := hs vs hrec
      have hm := C12_mean_between_ieee_partial vs hv hs2 hs1
      have hlen : (vs.length : Int) ≤ maxInt64 := by
        simp only [maxInt64]
        omega
      have h15 := fun p q hpq => C15_ieee vs hv hlen p q hpq
      let P : F64 → F64 := fun p => match samplePercentile vs p with
        | .ok (s, _) => s
        | .error _ => GoFloat.lit 0
      have hb : ∀ p q, F64.le p q = true → F64.le (GoFloat.ofInt (sampleMin vs).toInt) (P p) = true ∧ F64.le (P p) (P q) = true ∧ F64.le (P q) (GoFloat.ofInt (sampleMax vs).toInt) = true := by
        intro p q hpq
        obtain ⟨s, t, ws, h1, h2, h3, h4, h5, -⟩ := h15 p q hpq
        have e1 : P p = s := by simp only [P, h1]
        have e2 : P q = t := by simp only [P, h2]
        rw [e1, e2]
        exact ⟨h3, h4, h5⟩
      have hp : ∀ p v, Holds w env r (.stat (.percentile p)) v → v = .float (P p) ∧ p ≠ .nan := by
        intro p v h
        have := see _ v (by simp) h
        rw [readStat, statOf] at this
        rcases e : samplePercentile vs p with _ | ⟨s, ws⟩
        · rw [e] at this
          exact this.elim
        · rw [e] at this
          have e1 : P p = s := by simp only [P, e]
          refine ⟨by rw [e1]; exact this, fun hn => ?_⟩
          subst hn
          rw [C14_nan_panics vs hv hlen] at e
          simp at e
      exact ⟨{ lo := sampleMin vs, hi := sampleMax vs, mean := sampleMean vs, pct := P
               isMin := fun v h => see _ v (by simp) h
               isMax := fun v h => see _ v (by simp) h
               isMean := fun v h => see _ v (by simp) h
               isPct := fun p v h => (hp p v h).1
               lo_hi := (C10_max vs hv).2 _ (C10_min vs hv).1
               lo_mean := hm.1, mean_hi := hm.2
               lo_pct := fun p v h => (hb p p (F64.le_refl (hp p v h).2)).1, pct_hi := fun p v h => (hb p p (F64.le_refl (hp p v h).2)).2.2
               mono := fun p q hpq => (hb p q hpq).2.1, nonneg := fun hn => hn vs hrec _ (C10_min vs hv).1 }⟩

/-- A positive int64 is a positive finite float64. -/
theorem unit_fin (d : Int64) (hd : 0 < d.toInt) : ∃ q : ℚ, 0 < q ∧ (GoFloat.ofInt d.toInt : F64) = .fin q := by
  have h1 : GoFloat.le (GoFloat.ofInt 1 : F64) (GoFloat.ofInt d.toInt) = true := int_ieee 1 d.toInt (by omega)
  have h2 : GoFloat.le (GoFloat.ofInt d.toInt : F64) (GoFloat.ofInt (2 ^ 63)) = true := int_ieee _ _ (by have := Int64.toInt_lt d; omega)
  rw [show (GoFloat.ofInt 1 : F64) = .fin 1 by decide +kernel] at h1
  rw [show (GoFloat.ofInt (2 ^ 63) : F64) = .fin (2 ^ 63) by decide +kernel] at h2
  obtain ⟨q, hq, h3, -⟩ := F64.fin_of_between h1 h2
  exact ⟨q, by linarith, hq⟩

private theorem div_mono {a b : F64} {q : ℚ} (hq : 0 < q) (h : F64.le a b = true) : F64.le (F64.div a (.fin q)) (F64.div b (.fin q)) = true := by
  have hn : ¬ q < 0 := not_lt.2 hq.le
  have ei : ∀ s, F64.div (.inf s) (.fin q) = .inf s := fun s => by simp [F64.div, hn]
  have ef : ∀ c, F64.div (.fin c) (.fin q) = F64.round (c / q) := fun c => by
    show (if q = 0 then _ else _) = _
    rw [if_neg hq.ne']
  have li : ∀ x : F64, x ≠ .nan → F64.le (.inf true) x = true ∧ F64.le x (.inf false) = true := fun x hx => by
    cases x with
    | nan => exact absurd rfl hx
    | inf t => cases t <;> exact ⟨rfl, rfl⟩
    | fin c => exact ⟨rfl, rfl⟩
  cases a with
  | nan => simp [F64.le] at h
  | inf s =>
    cases b with
    | nan => simp [F64.le] at h
    | inf t => rw [ei, ei]; exact h
    | fin b =>
      cases s with
      | true => rw [ei, ef]; exact (li _ (F64.round_ne_nan _)).1
      | false => simp [F64.le] at h
  | fin a =>
    cases b with
    | nan => simp [F64.le] at h
    | inf t =>
      cases t with
      | true => simp [F64.le] at h
      | false => rw [ei, ef]; exact (li _ (F64.round_ne_nan _)).2
    | fin b =>
      rw [ef, ef]
      exact F64.round_mono (div_le_div_of_nonneg_right (F64.le_fin.1 h) hq.le)

/-- Division by a positive unit. -/
theorem unit_mono_ieee {d : Int64} (hd : 0 < d.toInt) (v v' : GoMetrics.Field F64) (h : GoFloat.le (num v) (num v') = true) :
    GoFloat.le (num (inUnit (GoFloat.ofInt d.toInt : F64) v)) (num (inUnit (GoFloat.ofInt d.toInt : F64) v')) = true := by
  obtain ⟨q, h0, hq⟩ := unit_fin d hd
  rw [hq]
  have e : ∀ v : GoMetrics.Field F64, num (inUnit (.fin q) v) = F64.div (num v) (.fin q) := by
    intro v
    cases v <;> try rfl
    all_goals
      show (GoFloat.lit 0 : F64) = F64.div (GoFloat.lit 0) (.fin q)
      rw [show (GoFloat.lit 0 : F64) = .fin 0 by decide +kernel]
      show _ = if q = 0 then _ else F64.round ((0 : ℚ) / q)
      rw [if_neg h0.ne', zero_div]
      decide +kernel
  rw [e, e]
  exact div_mono h0 h

end ieee

end GoMetrics.Ordered
