import Verif.Lemmas.GetAllConc
import Verif.Lemmas.Librato
import Verif.Spec.LibratoConc

/-! Execution of Librato's `BuildRequest` while other goroutines use the metrics: every number is one that the metric had at some moment. -/

set_option linter.unusedSimpArgs false
set_option linter.unusedSectionVars false

namespace GoMetrics
open Spec

variable {F : Type} [GoFloat F] [GoSqrt F] [GoExp F] {α β : Type}

/-! ### Growth -/

theorem grows_int (r : Ref) (c : Call F) : Grows (readIntLive r c) := grows_bind (grows_call r c) fun out => by cases out <;> exact grows_pure _
theorem grows_float (r : Ref) (c : Call F) : Grows (readFloatLive r c) := grows_bind (grows_call r c) fun out => by cases out <;> exact grows_pure _
theorem grows_bits (r : Ref) (c : Call F) : Grows (readBitsLive r c) := grows_bind (grows_call r c) fun out => by cases out <;> exact grows_pure _
theorem grows_squares (r : Ref) : Grows (sumSquaresLive r : Live F F) :=
  grows_bind (grows_int _ _) fun _ => grows_bind (grows_float _ _) fun _ => grows_bind (grows_float _ _) fun _ => by dsimp only; split <;> exact grows_pure _
theorem grows_percentiles (x : Ref) (mk : F → F → Measurement F) (ps : List F) : Grows (percentileGaugesLive x mk ps) := by
  induction ps with
  | nil => exact grows_pure _
  | cons p ps ih => exact grows_bind (grows_float _ _) fun _ => grows_bind ih fun _ => grows_pure _
theorem grows_rate (cfg : Reporter F) (name : Str) (r : Ref) (suffix : String) (c : RateCall) : Grows (rateGaugeLive cfg name r suffix c) := grows_bind (grows_float _ _) fun _ => grows_pure _

macro "grows" : tactic => `(tactic| repeat' first
  | with_reducible exact grows_pure _ | with_reducible exact grows_call _ _ | with_reducible exact grows_int _ _ | with_reducible exact grows_float _ _ | with_reducible exact grows_bits _ _ | with_reducible exact grows_squares _ | with_reducible exact grows_percentiles _ _ _ | with_reducible exact grows_rate _ _ _ _ _
  | with_reducible refine grows_bind ?_ fun _ => ?_ | split | dsimp only)

theorem grows_librato (cfg : Reporter F) (name : Str) (r : Ref) (o : Obj F) : Grows (libratoMetricLive cfg name r o) := by
  cases o <;> simp only [libratoMetricLive] <;> grows

/-! ### Values -/

/-- Run after `a` and before `whole`, `x` returns something for which `P` holds. -/
def Within (a whole : List (Env F × Op F)) (x : Live F α) (P : α → Prop) : Prop :=
  ∀ s st st' v, a <+: st.log → x s st = (st', .ok v) → st'.log <+: whole → P v

/-- From `a` on, calling `c` on `x` is like calling it on the metric `r`, and the results have the form `mk v`. -/
def Through (a : List (Env F × Op F)) (r x : Ref) (c : Call F) (mk : α → Out F) : Prop :=
  ∀ past env, a <+: past → (x = r ∨ observe (after past) env r .sample = .ok (.ref x)) ∧ observe (after past) env x c = observe (after past) env r c ∧
    ∀ out, observe (after past) env r c = .ok out → ∃ v, out = mk v

section rules
variable {a whole : List (Env F × Op F)} {r x : Ref} {c : Call F}

theorem within_pure {v : α} {P : α → Prop} (h : P v) : Within a whole (pure v : Live F α) P := fun s st st' v' _ hv _ => by
  simp only [live_pure, Prod.mk.injEq, Except.ok.injEq] at hv
  rw [← hv.2]; exact h

theorem within_bind {y : Live F α} {f : α → Live F β} {P : α → Prop} {Q : β → Prop} (gy : Grows y) (hy : Within a whole y P) (gf : ∀ v, Grows (f v)) (hf : ∀ v, P v → Within a whole (f v) Q) :
    Within a whole (y >>= f) Q := fun s st st' v ha hv hw => by
  obtain ⟨st1, u, h1, h2⟩ := live_bind_ok hv
  have g1 := gy s st
  have g2 := gf u s st1
  rw [h1] at g1
  rw [h2] at g2
  exact hf u (hy s st st1 u ha h1 (g2.trans hw)) s st1 st' v (ha.trans g1) h2 hw

theorem within_call {mk : α → Out F} (h : Through a r x c mk) : Within a whole (liveCall x c) (fun out => ∃ v, out = mk v ∧ Sometime a whole r c (mk v)) := fun s st st' out ha hv hw => by
  obtain ⟨past, env, h0, h1, h2⟩ := liveCall_ok hv
  obtain ⟨h3, h4, h5⟩ := h past env (ha.trans h0)
  have h6 : observe (after past) env x c = .ok out := by rw [observe, h2]
  rw [h4] at h6
  obtain ⟨v, rfl⟩ := h5 out h6
  refine ⟨v, rfl, past, env, x, ha.trans h0, ?_, h3, h6⟩
  rw [← h1]; exact hw

theorem within_int (h : Through a r x c Out.int) : Within a whole (readIntLive x c) (fun n => Sometime a whole r c (.int n)) :=
  within_bind (grows_call _ _) (within_call h) (fun out => by cases out <;> exact grows_pure _) fun out => by
    rintro ⟨n, rfl, h⟩; exact within_pure h
theorem within_float (h : Through a r x c Out.float) : Within a whole (readFloatLive x c) (fun n => Sometime a whole r c (.float n)) :=
  within_bind (grows_call _ _) (within_call h) (fun out => by cases out <;> exact grows_pure _) fun out => by
    rintro ⟨n, rfl, h⟩; exact within_pure h
theorem within_bits (h : Through a r x c Out.bits) : Within a whole (readBitsLive x c) (fun n => Sometime a whole r c (.bits n)) :=
  within_bind (grows_call _ _) (within_call h) (fun out => by cases out <;> exact grows_pure _) fun out => by
    rintro ⟨n, rfl, h⟩; exact within_pure h

/-- All reads of a distribution go through `x`. -/
structure Views (a : List (Env F × Op F)) (r x : Ref) : Prop where
  who : ∀ past env, a <+: past → x = r ∨ observe (after past) env r .sample = .ok (.ref x)
  view : ∀ past env, a <+: past → View (after past : World F) env r x

theorem Views.count (h : Views a r x) : Through a r x .count Out.int := fun past env hp => by
  refine ⟨h.who past env hp, (h.view past env hp).same _ (.inl rfl), fun out ho => ?_⟩
  obtain ⟨n, hn⟩ := (h.view past env hp).count
  rw [(h.view past env hp).same _ (.inl rfl), ho] at hn
  cases hn
  exact ⟨n, rfl⟩

theorem Views.stat (h : Views a r x) (c : StatCall F) (mk : α → Out F) (hm : ∀ vs out, readStat vs c = .ok out → ∃ v, out = mk v) : Through a r x (.stat c) mk := fun past env hp => by
  have V := h.view past env hp
  refine ⟨h.who past env hp, V.same _ (.inr ⟨_, rfl⟩), fun out ho => ?_⟩
  rw [← V.same _ (.inr ⟨_, rfl⟩), V.stat] at ho
  exact hm _ _ ho

theorem Views.int (h : Views a r x) {c : StatCall F} (hc : c = .max ∨ c = .min ∨ c = .sum) : Through a r x (.stat c) Out.int :=
  h.stat c _ fun vs out ho => by
    rcases hc with rfl | rfl | rfl <;> (rcases vs with _ | vs <;> cases ho <;> exact ⟨_, rfl⟩)
theorem Views.mean (h : Views a r x) : Through a r x (.stat .mean) Out.float :=
  h.stat _ _ fun vs out ho => by rcases vs with _ | vs <;> cases ho <;> exact ⟨_, rfl⟩
theorem Views.dev (h : Views a r x) : Through a r x (.stat .stdDev) Out.float :=
  h.stat _ _ fun vs out ho => by rcases vs with _ | vs <;> cases ho <;> exact ⟨_, rfl⟩
theorem Views.percentile (h : Views a r x) (p : F) : Through a r x (.stat (.percentile p)) Out.float :=
  h.stat _ _ fun vs out ho => by
    rcases vs with _ | vs
    · cases ho; exact ⟨_, rfl⟩
    · simp only [readStat, statOf] at ho
      rcases hs : samplePercentile vs p with e | y <;> rw [hs] at ho <;> cases ho
      exact ⟨_, rfl⟩

theorem within_squares (h : Views a r x) : Within a whole (sumSquaresLive x) (fun v => SquaresSometime a whole r v) := by
  refine within_bind (grows_int _ _) (within_int h.count) (fun _ => by grows) fun n hn => ?_
  refine within_bind (grows_float _ _) (within_float h.mean) (fun _ => by grows) fun m hm => ?_
  refine within_bind (grows_float _ _) (within_float h.dev) (fun _ => by grows) fun d hd => ?_
  have key : ∀ v : F, v = sumSquaresOf n m d → SquaresSometime a whole r v := fun v hv => ⟨n, m, d, hn, hm, hd, hv⟩
  dsimp only
  split
  · rename_i hl
    refine within_pure (key _ ?_)
    simp only [isNaN, pow2, Bool.not_eq_true'] at hl
    simp only [sumSquaresOf, hl]
    rfl
  · rename_i hl
    refine within_pure (key _ ?_)
    simp only [isNaN, pow2, Bool.not_eq_true', Bool.not_eq_false] at hl
    simp only [sumSquaresOf, hl]
    rfl

theorem within_percentiles (h : Views a r x) (mk : F → F → Measurement F) (ps : List F) :
    Within a whole (percentileGaugesLive x mk ps) (List.Forall₂ (fun p g => ∃ v, Sometime a whole r (.stat (.percentile p)) (.float v) ∧ g = mk p v) ps) := by
  induction ps with
  | nil => exact within_pure .nil
  | cons p ps ih =>
    exact within_bind (grows_float _ _) (within_float (h.percentile p)) (fun _ => by grows) fun v hv =>
      within_bind (grows_percentiles _ _ _) ih (fun _ => by grows) fun gs hg => within_pure (.cons ⟨v, hv, rfl⟩ hg)

theorem within_rate (h : HasTy (after a : World F) r .timer ∨ HasTy (after a : World F) r .meter) (cfg : Reporter F) (name : Str) (suffix : String) (c : RateCall) :
    Within a whole (rateGaugeLive cfg name r suffix c) (fun g => (∃ v, Sometime a whole r (.rates c) (.float v) ∧ Spec.plain g (textOf (name ++ bytes suffix)) (.float v)) ∧ periodOk cfg.interval g) := by
  refine within_bind (grows_float _ _) (within_float fun past env hp => ⟨.inl rfl, rfl, fun out ho => ?_⟩) (fun _ => by grows) fun v hv =>
    within_pure ⟨⟨v, hv, rfl, rfl, rfl, rfl, rfl, rfl, rfl, by simp⟩, .inr rfl⟩
  obtain ⟨v, hv⟩ := observe_rates (after_ok past) (env := env) (h.imp (fun h => (after_le hp).ty _ _ h) fun h => (after_le hp).ty _ _ h) c
  rw [hv] at ho
  cases ho
  exact ⟨v, rfl⟩

end rules

section metric
variable {a whole : List (Env F × Op F)} {r : Ref} {cfg : Reporter F} {name : Str} {o : Obj F}

private theorem pos_iff (n : Int64) : n > 0 ↔ 0 < n.toInt := by
  have : n > 0 ↔ (0 : Int64) < n := Iff.rfl
  rw [this, Int64.lt_iff_toInt_lt]
  rfl

private theorem forall2_map_left {α β γ : Type} {R : β → γ → Prop} (f : α → β) {l : List α} {m : List γ} (h : List.Forall₂ (fun a b => R (f a) b) l m) :
    List.Forall₂ R (l.map f) m := by
  induction h with
  | nil => exact .nil
  | cons h _ ih => exact .cons h ih

private theorem forall2_right {α β : Type} {R : α → β → Prop} {P : β → Prop} {l : List α} {m : List β} (h : List.Forall₂ R l m) (hP : ∀ a b, R a b → P b) : ∀ b ∈ m, P b := by
  induction h with
  | nil => simp
  | cons h _ ih =>
    intro b hb
    rcases List.mem_cons.1 hb with rfl | hb
    · exact hP _ _ h
    · exact ih b hb

/-- Reads of scalars. -/
private theorem through_self {c : Call F} {mk : α → Out F} (hr : (after a : World F).objs r = some o) (h : ∀ (w : World F) env o', w.objs r = some o' → o'.ty = o.ty → ∃ v, observe w env r c = .ok (mk v)) : Through a r r c mk :=
  fun past env hp => ⟨.inl rfl, rfl, fun out ho => by
    obtain ⟨o', h1, h2⟩ := kind_after hp hr
    obtain ⟨v, hv⟩ := h (after past) env o' h1 h2
    rw [hv] at ho
    cases ho
    exact ⟨v, rfl⟩⟩

/-- One metric. -/
theorem within_metric (hr : (after a : World F).objs r = some o) :
    Within a whole (libratoMetricLive cfg name r o) (fun b => LibratoLiveBlock a whole cfg.percentiles (libratoName cfg.namesp name) r o b.1 b.2 ∧ ∀ m ∈ b.1 ++ b.2, periodOk cfg.interval m) := by
  have hname : (if cfg.namesp ≠ [] then cfg.namesp ++ bytes "." ++ name else name) = libratoName cfg.namesp name := by
    unfold libratoName
    by_cases h : cfg.namesp = [] <;> simp [h]
    rfl
  generalize libratoName cfg.namesp name = nm at *
  cases o with
  | counter x =>
    have hc : Through a r r .count Out.int := through_self hr fun w env o' ho ht => by
      cases o' <;> simp [Obj.ty] at ht
      exact ⟨_, read_obj ho _ rfl⟩
    simp only [libratoMetricLive, hname]
    refine within_bind (grows_int _ _) (within_int hc) (fun _ => by grows) fun n hn => ?_
    split
    · rename_i h
      refine within_bind (grows_int _ _) (within_int hc) (fun _ => by grows) fun n' hn' => ?_
      refine within_pure ⟨⟨rfl, n, hn, fun _ => ⟨n', hn', _, rfl, rfl, rfl, rfl, rfl, rfl, rfl, rfl, by simp⟩, fun h' => ?_⟩, ?_⟩
      · rw [pos_iff] at h; omega
      · simp [periodOk]
    · rename_i h
      refine within_pure ⟨⟨rfl, n, hn, fun h' => ?_, fun _ => rfl⟩, by simp⟩
      rw [pos_iff] at h; omega
  | gauge x =>
    have hc : Through a r r .value Out.int := through_self hr fun w env o' ho ht => by
      cases o' <;> simp [Obj.ty] at ht
      exact ⟨_, read_obj ho _ rfl⟩
    simp only [libratoMetricLive, hname]
    refine within_bind (grows_int _ _) (within_int hc) (fun _ => by grows) fun n hn => ?_
    exact within_pure ⟨⟨rfl, _, _, hn, rfl, rfl, rfl, rfl, rfl, rfl, rfl, rfl, by simp⟩, by simp [periodOk]⟩
  | gaugeF x =>
    have hc : Through a r r .value Out.bits := through_self hr fun w env o' ho ht => by
      cases o' <;> simp [Obj.ty] at ht
      exact ⟨_, read_obj ho _ rfl⟩
    simp only [libratoMetricLive, hname]
    refine within_bind (grows_bits _ _) (within_bits hc) (fun _ => by grows) fun n hn => ?_
    exact within_pure ⟨⟨rfl, _, _, hn, rfl, rfl, rfl, rfl, rfl, rfl, rfl, rfl, by simp⟩, by simp [periodOk]⟩
  | hist x =>
    have hx' : ∀ past, a <+: past → (after past : World F).objs r = some (.hist x) := fun past hp => (after_le hp).frozen r _ hr rfl
    have hself : Views a r r := ⟨fun _ _ _ => .inl rfl, fun past env hp => view_self (after_ok past) env (.inl ⟨_, hx' past hp, rfl⟩)⟩
    simp only [libratoMetricLive, hname]
    refine within_bind (grows_int _ _) (within_int hself.count) (fun _ => by grows) fun n hn => ?_
    split
    · rename_i h
      rw [pos_iff] at h
      obtain ⟨s, hx⟩ : ∃ s, x = .std s ∨ x = .snap s := by
        cases x with
        | std s => exact ⟨s, .inl rfl⟩
        | snap s => exact ⟨s, .inr rfl⟩
        | nil =>
          obtain ⟨past, env, y, h1, -, -, h2⟩ := hn
          rw [read_obj (hx' past h1) _ rfl] at h2
          simp [objVal, histVal] at h2
          rw [← h2] at h
          exact absurd h (by decide)
      have hsam : ∀ past env, a <+: past → observe (after past : World F) env r .sample = .ok (.ref s) := fun past env hp => by
        rw [observe, call_obj (hx' past hp)]
        rcases hx with rfl | rfl <;> rfl
      have V : Views a r s := ⟨fun past env hp => .inr (hsam past env hp), fun past env hp => view_sample (after_ok past) env (hx' past hp) hx⟩
      have hs : Within a whole (liveCall r .sample) (fun out => out = .ref s) := fun t st st' out ha hv hw => by
        obtain ⟨past, env, h0, h1, h2⟩ := liveCall_ok hv
        have h3 := hsam past env (ha.trans h0)
        rw [observe, h2] at h3
        cases h3; rfl
      refine within_bind (grows_call _ _) hs (fun _ => by grows) fun out ho => ?_
      rw [ho]
      simp only
      refine within_bind (grows_int _ _) (within_int V.count) (fun _ => by grows) fun c hc => ?_
      refine within_bind (grows_int _ _) (within_int (V.int (by simp))) (fun _ => by grows) fun mx hmx => ?_
      refine within_bind (grows_int _ _) (within_int (V.int (by simp))) (fun _ => by grows) fun mn hmn => ?_
      refine within_bind (grows_int _ _) (within_int (V.int (by simp))) (fun _ => by grows) fun sm hsm => ?_
      refine within_bind (grows_squares _) (within_squares V) (fun _ => by grows) fun sq hsq => ?_
      refine within_bind (grows_percentiles _ _ _) (within_percentiles V _ _) (fun _ => by grows) fun ps hps => within_pure ⟨⟨rfl, n, hn, fun h' => by omega, fun _ => ?_⟩, ?_⟩
      · refine ⟨_, ps, ⟨c, GoFloat.ofInt sm.toInt, mx, mn, sq⟩, sm, rfl, ⟨rfl, rfl, rfl, rfl, rfl, rfl, rfl, by simp⟩, hc, hmx, hmn, hsm, rfl, hsq, ?_⟩
        refine forall2_map_left _ (forall2_mono ?_ hps)
        rintro p g ⟨v, hv, rfl⟩
        refine ⟨v, hv, ?_, rfl, rfl, rfl, rfl, rfl, rfl, by simp⟩
        show textOf (nm ++ bytes ".hist") ++ (textOf [46] ++ [.val (bytes ".2f") (GoMetrics.Field.float p)]) = _
        rw [← List.append_assoc]
        simp only [textOf, ← List.map_append, List.append_assoc]
        rfl
      · intro g hg
        simp only [List.nil_append, List.mem_cons] at hg
        rcases hg with rfl | hg
        · exact .inl rfl
        · exact forall2_right hps (P := periodOk cfg.interval) (by rintro a b ⟨v, -, rfl⟩; exact .inl rfl) g hg
    · rename_i h
      rw [pos_iff] at h
      exact within_pure ⟨⟨rfl, n, hn, fun _ => rfl, fun h' => by omega⟩, by simp⟩
  | meter x =>
    have hty : HasTy (after a : World F) r .timer ∨ HasTy (after a : World F) r .meter := .inr ⟨_, hr, rfl⟩
    have hc : Through a r r .count Out.int := fun past env hp => ⟨.inl rfl, rfl, fun out ho => by
      obtain ⟨n, hn⟩ := observe_count (after_ok past) (env := env) (r := r) (.inr (.inr ((after_le hp).ty _ _ ⟨_, hr, rfl⟩)))
      rw [hn] at ho
      cases ho
      exact ⟨n, rfl⟩⟩
    simp only [libratoMetricLive, hname]
    refine within_bind (grows_int _ _) (within_int hc) (fun _ => by grows) fun n hn => ?_
    refine within_bind (grows_rate _ _ _ _ _) (within_rate hty cfg nm _ _) (fun _ => by grows) fun g1 h1 => ?_
    refine within_bind (grows_rate _ _ _ _ _) (within_rate hty cfg nm _ _) (fun _ => by grows) fun g2 h2 => ?_
    refine within_bind (grows_rate _ _ _ _ _) (within_rate hty cfg nm _ _) (fun _ => by grows) fun g3 h3 => ?_
    refine within_pure ⟨⟨n, hn, ⟨_, rfl, by simp [bytes], rfl, rfl, rfl, rfl, rfl, rfl, by simp⟩, .cons h1.1 (.cons h2.1 (.cons h3.1 .nil))⟩, ?_⟩
    intro g hg
    simp only [List.cons_append, List.nil_append, List.mem_cons, List.not_mem_nil, or_false] at hg
    rcases hg with rfl | rfl | rfl | rfl
    · exact .inl rfl
    · exact h1.2
    · exact h2.2
    · exact h3.2
  | timer x =>
    have hty : HasTy (after a : World F) r .timer ∨ HasTy (after a : World F) r .meter := .inl ⟨_, hr, rfl⟩
    have V : Views a r r := ⟨fun _ _ _ => .inl rfl, fun past env hp => view_self (after_ok past) env (.inr ((after_le hp).ty _ _ ⟨_, hr, rfl⟩))⟩
    simp only [libratoMetricLive, hname]
    refine within_bind (grows_int _ _) (within_int V.count) (fun _ => by grows) fun n hn => ?_
    refine within_bind (grows_int _ _) (within_int V.count) (fun _ => by grows) fun n' hn' => ?_
    split
    · rename_i h
      rw [pos_iff] at h
      refine within_bind (grows_int _ _) (within_int V.count) (fun _ => by grows) fun c hc => ?_
      refine within_bind (grows_float _ _) (within_float V.mean) (fun _ => by grows) fun me hme => ?_
      refine within_bind (grows_int _ _) (within_int V.count) (fun _ => by grows) fun c' hc' => ?_
      refine within_bind (grows_int _ _) (within_int (V.int (by simp))) (fun _ => by grows) fun mx hmx => ?_
      refine within_bind (grows_int _ _) (within_int (V.int (by simp))) (fun _ => by grows) fun mn hmn => ?_
      refine within_bind (grows_squares _) (within_squares V) (fun _ => by grows) fun sq hsq => ?_
      refine within_bind (grows_percentiles _ _ _) (within_percentiles V _ _) (fun _ => by grows) fun ps hps => ?_
      refine within_bind (grows_rate _ _ _ _ _) (within_rate hty cfg nm _ _) (fun _ => by grows) fun g1 h1 => ?_
      refine within_bind (grows_rate _ _ _ _ _) (within_rate hty cfg nm _ _) (fun _ => by grows) fun g2 h2 => ?_
      refine within_bind (grows_rate _ _ _ _ _) (within_rate hty cfg nm _ _) (fun _ => by grows) fun g3 h3 => ?_
      refine within_pure ⟨⟨n, hn, ⟨_, rfl, by simp [bytes], rfl, rfl, rfl, rfl, rfl, rfl, by simp⟩, n', hn', fun h' => by omega, fun _ => ?_⟩, ?_⟩
      · refine ⟨_, ps, [g1, g2, g3], ⟨c, GoFloat.mul me (GoFloat.ofInt c'.toInt), mx, mn, sq⟩, me, c', rfl,
          ⟨rfl, rfl, rfl, rfl, rfl, rfl, rfl, by simp⟩, hc, hmx, hmn, hme, hc', rfl, hsq, ?_, .cons h1.1 (.cons h2.1 (.cons h3.1 .nil))⟩
        refine forall2_map_left _ (forall2_mono ?_ hps)
        rintro p g ⟨v, hv, rfl⟩
        refine ⟨v, hv, ?_, rfl, rfl, rfl, rfl, rfl, rfl, by simp⟩
        show textOf nm ++ (textOf (bytes ".timer.") ++ [.val (bytes "2.0f") (GoMetrics.Field.float (GoFloat.mul p (GoFloat.lit 100)))]) = _
        rw [← List.append_assoc]
        simp only [textOf, ← List.map_append, List.append_assoc]
      · intro g hg
        simp only [List.cons_append, List.nil_append, List.mem_cons, List.mem_append, List.not_mem_nil, or_false] at hg
        rcases hg with rfl | rfl | hg | rfl | rfl | rfl
        · exact .inl rfl
        · exact .inr rfl
        · exact forall2_right hps (P := periodOk cfg.interval) (by rintro a b ⟨v, -, rfl⟩; exact .inr rfl) g hg
        · exact h1.2
        · exact h2.2
        · exact h3.2
    · rename_i h
      rw [pos_iff] at h
      exact within_pure ⟨⟨n, hn, ⟨_, rfl, by simp [bytes], rfl, rfl, rfl, rfl, rfl, rfl, by simp⟩, n', hn', fun _ => rfl, fun h' => by omega⟩, by simp [periodOk]⟩
  | health x => exact within_pure ⟨⟨rfl, rfl⟩, by simp⟩
  | sample x => exact within_pure ⟨⟨rfl, rfl⟩, by simp⟩
  | ewma x => exact within_pure ⟨⟨rfl, rfl⟩, by simp⟩

end metric

/-! ### What can fail -/

/-- Between `a` and `b` there was a moment at which one of the percentiles could not be computed. -/
def FailsWithin (a b : List (Env F × Op F)) (ps : List F) : Prop := ∃ past, a <+: past ∧ past <+: b ∧ PercentileFails (after past) ps

theorem failsWithin_mono {a a' b b' : List (Env F × Op F)} {ps : List F} (h : FailsWithin a b ps) (ha : a' <+: a) (hb : b <+: b') : FailsWithin a' b' ps := by
  obtain ⟨past, h1, h2, h3⟩ := h
  exact ⟨past, ha.trans h1, h2.trans hb, h3⟩

/-- Run after `a`, `x` panics only because of a percentile. -/
def Ends (a : List (Env F × Op F)) (ps : List F) (x : Live F α) : Prop := ∀ s st st' p, a <+: st.log → x s st = (st', .error p) → FailsWithin a st'.log ps

section ends
variable {a : List (Env F × Op F)} {ps : List F} {r x : Ref} {c : Call F}

theorem ends_pure (v : α) : Ends a ps (pure v : Live F α) := fun s st st' p _ h => by simp [live_pure] at h

theorem ends_bind' {y : Live F α} {f : α → Live F β} {P : α → Prop} (gy : Grows y) (hy : Ends a ps y) (hP : ∀ whole, Within a whole y P) (hf : ∀ v, P v → Ends a ps (f v)) : Ends a ps (y >>= f) := by
  intro s st st' p ha h
  rw [live_bind] at h
  have g := gy s st
  rcases hv : y s st with ⟨st1, q | v⟩ <;> rw [hv] at h g
  · simp only [Prod.mk.injEq, Except.error.injEq] at h
    obtain ⟨rfl, rfl⟩ := h
    exact hy _ _ _ _ ha hv
  · exact hf v (hP st1.log s st st1 v ha hv List.prefix_rfl) s st1 st' p (ha.trans g) h

theorem ends_bind {y : Live F α} {f : α → Live F β} (gy : Grows y) (hy : Ends a ps y) (hf : ∀ v, Ends a ps (f v)) : Ends a ps (y >>= f) :=
  ends_bind' (P := fun _ => True) gy hy (fun _ _ _ _ _ _ _ _ => trivial) fun v _ => hf v

theorem ends_call (h : ∀ past env, a <+: past → ∃ out, observe (after past) env x c = .ok out) : Ends a ps (liveCall x c) := fun s st st' p ha hv => by
  simp only [liveCall, Prod.mk.injEq] at hv
  obtain ⟨out, ho⟩ := h (st.log ++ (s st.turn).others) (s st.turn).env (ha.trans (List.prefix_append _ _))
  rw [observe] at ho
  rw [hv.2] at ho
  simp at ho

theorem ends_int (h : ∀ past env, a <+: past → ∃ out, observe (after past) env x c = .ok out) : Ends a ps (readIntLive x c) :=
  ends_bind (grows_call _ _) (ends_call h) fun out => by cases out <;> exact ends_pure _
theorem ends_float (h : ∀ past env, a <+: past → ∃ out, observe (after past) env x c = .ok out) : Ends a ps (readFloatLive x c) :=
  ends_bind (grows_call _ _) (ends_call h) fun out => by cases out <;> exact ends_pure _
theorem ends_bits (h : ∀ past env, a <+: past → ∃ out, observe (after past) env x c = .ok out) : Ends a ps (readBitsLive x c) :=
  ends_bind (grows_call _ _) (ends_call h) fun out => by cases out <;> exact ends_pure _

theorem Views.count_ok (h : Views a r x) : ∀ past env, a <+: past → ∃ out, observe (after past) env x .count = .ok out := fun past env hp => by
  obtain ⟨n, hn⟩ := (h.view past env hp).count
  exact ⟨_, hn⟩
theorem Views.stat_ok (h : Views a r x) {c : StatCall F} (hc : c = .max ∨ c = .min ∨ c = .sum ∨ c = .mean ∨ c = .stdDev) : ∀ past env, a <+: past → ∃ out, observe (after past) env x (.stat c) = .ok out := fun past env hp => by
  rw [(h.view past env hp).stat]
  rcases hc with rfl | rfl | rfl | rfl | rfl <;> (rcases recorded (after past) r with _ | vs <;> exact ⟨_, rfl⟩)

theorem ends_squares (h : Views a r x) : Ends a ps (sumSquaresLive x) :=
  ends_bind (grows_int _ _) (ends_int h.count_ok) fun _ => ends_bind (grows_float _ _) (ends_float (h.stat_ok (by simp))) fun _ =>
    ends_bind (grows_float _ _) (ends_float (h.stat_ok (by simp))) fun _ => by dsimp only; split <;> exact ends_pure _

theorem ends_percentiles (h : Views a r x) (mk : F → F → Measurement F) (l : List F) (hl : ∀ p ∈ l, p ∈ ps) : Ends a ps (percentileGaugesLive x mk l) := by
  induction l with
  | nil => exact ends_pure _
  | cons p l ih =>
    refine ends_bind (grows_float _ _) (ends_bind (grows_call _ _) ?_ fun out => by cases out <;> exact ends_pure _) fun _ => ends_bind (grows_percentiles _ _ _) (ih fun p hp => hl p (by simp [hp])) fun _ => ends_pure _
    intro s st st' e ha hv
    simp only [liveCall, Prod.mk.injEq] at hv
    obtain ⟨rfl, hv⟩ := hv
    have ha' := ha.trans (List.prefix_append st.log (s st.turn).others)
    have h1 : observe (after (st.log ++ (s st.turn).others)) (s st.turn).env x (.stat (.percentile p)) = .error e := hv
    rw [(h.view _ _ ha').stat] at h1
    refine ⟨_, ha', List.prefix_append _ _, r, ?_⟩
    rcases hr : recorded (after (st.log ++ (s st.turn).others)) r with _ | vs <;> rw [hr] at h1
    · cases h1
    · simp only [readStat, statOf] at h1
      rcases hs : samplePercentile vs p with q | y <;> rw [hs] at h1
      · exact ⟨vs, rfl, p, hl p (by simp), q, hs⟩
      · cases h1

theorem ends_rate (h : HasTy (after a : World F) r .timer ∨ HasTy (after a : World F) r .meter) (cfg : Reporter F) (name : Str) (suffix : String) (c : RateCall) : Ends a ps (rateGaugeLive cfg name r suffix c) :=
  ends_bind (grows_float _ _) (ends_float fun past env hp => by
    obtain ⟨v, hv⟩ := observe_rates (after_ok past) (env := env) (h.imp (fun h => (after_le hp).ty _ _ h) fun h => (after_le hp).ty _ _ h) c
    exact ⟨_, hv⟩) fun _ => ends_pure _

theorem ends_metric {o : Obj F} {cfg : Reporter F} {name : Str} (hr : (after a : World F).objs r = some o) : Ends a cfg.percentiles (libratoMetricLive cfg name r o) := by
  cases o with
  | counter x =>
    have hc : ∀ past env, a <+: past → ∃ out, observe (after past) env r .count = .ok out := fun past env hp => by
      obtain ⟨o', h1, h2⟩ := kind_after hp hr
      cases o' <;> simp [Obj.ty] at h2
      exact ⟨_, read_obj h1 _ rfl⟩
    simp only [libratoMetricLive]
    refine ends_bind (grows_int _ _) (ends_int hc) fun _ => ?_
    split
    · exact ends_bind (grows_int _ _) (ends_int hc) fun _ => ends_pure _
    · exact ends_pure _
  | gauge x =>
    simp only [libratoMetricLive]
    exact ends_bind (grows_int _ _) (ends_int fun past env hp => by
      obtain ⟨o', h1, h2⟩ := kind_after hp hr
      cases o' <;> simp [Obj.ty] at h2
      exact ⟨_, read_obj h1 _ rfl⟩) fun _ => ends_pure _
  | gaugeF x =>
    simp only [libratoMetricLive]
    exact ends_bind (grows_bits _ _) (ends_bits fun past env hp => by
      obtain ⟨o', h1, h2⟩ := kind_after hp hr
      cases o' <;> simp [Obj.ty] at h2
      exact ⟨_, read_obj h1 _ rfl⟩) fun _ => ends_pure _
  | hist x =>
    have hx' : ∀ past, a <+: past → (after past : World F).objs r = some (.hist x) := fun past hp => (after_le hp).frozen r _ hr rfl
    have hself : Views a r r := ⟨fun _ _ _ => .inl rfl, fun past env hp => view_self (after_ok past) env (.inl ⟨_, hx' past hp, rfl⟩)⟩
    simp only [libratoMetricLive]
    generalize (if cfg.namesp ≠ [] then cfg.namesp ++ bytes "." ++ name else name) = nm
    have hn0 : ∀ whole, Within a whole (readIntLive r .count) (fun n => x = .nil → n = 0) := fun whole t st st' n ha hv hw => by
      obtain ⟨past, env, y, h1, -, -, h2⟩ := within_int (whole := whole) hself.count t st st' n ha hv hw
      rintro rfl
      rw [read_obj (hx' past h1) _ rfl] at h2
      simp [objVal, histVal] at h2
      exact h2.symm
    refine ends_bind' (grows_int _ _) (ends_int hself.count_ok) hn0 fun n hn => ?_
    split
    · rename_i hpos
      have hnil : x ≠ .nil := fun e => by
        rw [hn e] at hpos
        exact absurd hpos (by decide)
      obtain ⟨s, hx⟩ : ∃ s, x = .std s ∨ x = .snap s := by
        cases x with
        | std s => exact ⟨s, .inl rfl⟩
        | snap s => exact ⟨s, .inr rfl⟩
        | nil => exact absurd rfl hnil
      have hsam : ∀ past env, a <+: past → observe (after past : World F) env r .sample = .ok (.ref s) := fun past env hp => by
        rw [observe, call_obj (hx' past hp)]
        rcases hx with rfl | rfl <;> rfl
      have hs : ∀ whole, Within a whole (liveCall r .sample) (fun out => out = .ref s) := fun whole t st st' out ha hv hw => by
        obtain ⟨past, env, h0, h1, h2⟩ := liveCall_ok hv
        have h3 := hsam past env (ha.trans h0)
        rw [observe, h2] at h3
        cases h3; rfl
      refine ends_bind' (grows_call _ _) (ends_call fun past env hp => ⟨_, hsam past env hp⟩) hs fun out ho => ?_
      rw [ho]
      have V : Views a r s := ⟨fun past env hp => .inr (hsam past env hp), fun past env hp => view_sample (after_ok past) env (hx' past hp) hx⟩
      simp only
      refine ends_bind (grows_int _ _) (ends_int V.count_ok) fun _ => ?_
      refine ends_bind (grows_int _ _) (ends_int (V.stat_ok (by simp))) fun _ => ?_
      refine ends_bind (grows_int _ _) (ends_int (V.stat_ok (by simp))) fun _ => ?_
      refine ends_bind (grows_int _ _) (ends_int (V.stat_ok (by simp))) fun _ => ?_
      refine ends_bind (grows_squares _) (ends_squares V) fun _ => ?_
      exact ends_bind (grows_percentiles _ _ _) (ends_percentiles V _ _ fun _ h => h) fun _ => ends_pure _
    · exact ends_pure _
  | meter x =>
    have hty : HasTy (after a : World F) r .timer ∨ HasTy (after a : World F) r .meter := .inr ⟨_, hr, rfl⟩
    simp only [libratoMetricLive]
    refine ends_bind (grows_int _ _) (ends_int fun past env hp => by
      obtain ⟨n, hn⟩ := observe_count (after_ok past) (env := env) (r := r) (.inr (.inr ((after_le hp).ty _ _ ⟨_, hr, rfl⟩)))
      exact ⟨_, hn⟩) fun _ => ?_
    refine ends_bind (grows_rate _ _ _ _ _) (ends_rate hty _ _ _ _) fun _ => ?_
    refine ends_bind (grows_rate _ _ _ _ _) (ends_rate hty _ _ _ _) fun _ => ?_
    exact ends_bind (grows_rate _ _ _ _ _) (ends_rate hty _ _ _ _) fun _ => ends_pure _
  | timer x =>
    have hty : HasTy (after a : World F) r .timer ∨ HasTy (after a : World F) r .meter := .inl ⟨_, hr, rfl⟩
    have V : Views a r r := ⟨fun _ _ _ => .inl rfl, fun past env hp => view_self (after_ok past) env (.inr ((after_le hp).ty _ _ ⟨_, hr, rfl⟩))⟩
    simp only [libratoMetricLive]
    refine ends_bind (grows_int _ _) (ends_int V.count_ok) fun _ => ?_
    refine ends_bind (grows_int _ _) (ends_int V.count_ok) fun _ => ?_
    split
    · refine ends_bind (grows_int _ _) (ends_int V.count_ok) fun _ => ?_
      refine ends_bind (grows_float _ _) (ends_float (V.stat_ok (by simp))) fun _ => ?_
      refine ends_bind (grows_int _ _) (ends_int V.count_ok) fun _ => ?_
      refine ends_bind (grows_int _ _) (ends_int (V.stat_ok (by simp))) fun _ => ?_
      refine ends_bind (grows_int _ _) (ends_int (V.stat_ok (by simp))) fun _ => ?_
      refine ends_bind (grows_squares _) (ends_squares V) fun _ => ?_
      refine ends_bind (grows_percentiles _ _ _) (ends_percentiles V _ _ fun _ h => h) fun _ => ?_
      refine ends_bind (grows_rate _ _ _ _ _) (ends_rate hty _ _ _ _) fun _ => ?_
      refine ends_bind (grows_rate _ _ _ _ _) (ends_rate hty _ _ _ _) fun _ => ?_
      exact ends_bind (grows_rate _ _ _ _ _) (ends_rate hty _ _ _ _) fun _ => ends_pure _
    · exact ends_pure _
  | health x => exact ends_pure _
  | sample x => exact ends_pure _
  | ewma x => exact ends_pure _

end ends

section all
variable {s : Nat → Turn F} {cfg : Reporter F}

theorem grows_callback (name : Str) (r : Ref) (st : LiveState F) (out : List (Measurement F) × List (Measurement F)) : st.log <+: (libratoCallbackLive s cfg name r (st, out)).1.1.log := by
  unfold libratoCallbackLive
  simp only
  split
  · rename_i o ho
    have := grows_librato cfg name r o s st
    rcases hx : libratoMetricLive cfg name r o s st with ⟨st1, p | b⟩ <;> rw [hx] at this <;> exact this
  · exact List.prefix_rfl

/-- All metrics. -/
theorem visit_spans (l : List (Str × Ref)) : ∀ {st st' : LiveState F} {out out' : List (Measurement F) × List (Measurement F)},
    (∀ e ∈ l, ∃ o, (after st.log : World F).objs e.2 = some o) → visitLive (libratoCallbackLive s cfg) l (st, out) = ((st', out'), .ok ()) →
    ∃ spans : List (LibratoSpan F), out'.1 = out.1 ++ (spans.map LibratoSpan.counters).flatten ∧ out'.2 = out.2 ++ (spans.map LibratoSpan.gauges).flatten ∧
      spans.map (fun x => (x.name, x.ref)) = l ∧ spans.Pairwise (fun a b => a.last <+: b.first) ∧
      ∀ x ∈ spans, st.log <+: x.first ∧ x.first <+: x.last ∧ x.last <+: st'.log ∧ ∃ o, (after x.first : World F).objs x.ref = some o ∧
        LibratoLiveBlock x.first x.last cfg.percentiles (libratoName cfg.namesp x.name) x.ref o x.counters x.gauges ∧ ∀ m ∈ x.counters ++ x.gauges, periodOk cfg.interval m := by
  induction l with
  | nil =>
    intro st st' out out' _ h
    simp only [visitLive, Prod.mk.injEq] at h
    obtain ⟨⟨rfl, rfl⟩, -⟩ := h
    exact ⟨[], by simp, by simp, rfl, .nil, by simp⟩
  | cons e l ih =>
    intro st st' out out' hl h
    obtain ⟨o, ho⟩ := hl e (by simp)
    have hv : libratoCallbackLive s cfg e.1 e.2 (st, out) = match libratoMetricLive cfg e.1 e.2 o s st with
        | (w, .ok b) => ((w, (out.1 ++ b.1, out.2 ++ b.2)), none)
        | (w, .error p) => ((w, out), some p) := by
      simp only [libratoCallbackLive, ho]
      rcases libratoMetricLive cfg e.1 e.2 o s st with ⟨w, p | b⟩ <;> rfl
    have g := grows_librato cfg e.1 e.2 o s st
    rw [visitLive] at h
    rcases hx : libratoMetricLive cfg e.1 e.2 o s st with ⟨st1, p | b⟩
    · rw [hx] at hv
      simp only [hv] at h
      simp at h
    · rw [hx] at hv g
      simp only at hv g
      simp only [hv] at h
      have hl1 : ∀ e ∈ l, ∃ o, (after st1.log : World F).objs e.2 = some o := fun e he => by
        obtain ⟨o, ho⟩ := hl e (by simp [he])
        obtain ⟨o', h1, -⟩ := kind_after g ho
        exact ⟨o', h1⟩
      have g2 := grows_visit (grows_callback (s := s) (cfg := cfg)) l (st := st1) (out := (out.1 ++ b.1, out.2 ++ b.2))
      rw [h] at g2
      obtain ⟨spans, h1, h2, h3, h4, h5⟩ := ih hl1 h
      refine ⟨⟨e.1, e.2, st.log, st1.log, b.1, b.2⟩ :: spans, by simp [h1], by simp [h2], by simp [h3], List.pairwise_cons.2 ⟨fun x hx => (h5 x hx).1, h4⟩, fun x hx' => ?_⟩
      rcases List.mem_cons.1 hx' with rfl | hx'
      · exact ⟨List.prefix_rfl, g, g2, o, ho, within_metric ho s st st1 b List.prefix_rfl hx List.prefix_rfl⟩
      · obtain ⟨h6, h7⟩ := h5 x hx'
        exact ⟨g.trans h6, h7⟩

theorem visit_librato_fails (l : List (Str × Ref)) : ∀ {st st' : LiveState F} {out out' : List (Measurement F) × List (Measurement F)} {p : Panic},
    (∀ e ∈ l, ∃ o, (after st.log : World F).objs e.2 = some o) → visitLive (libratoCallbackLive s cfg) l (st, out) = ((st', out'), .error p) → FailsWithin st.log st'.log cfg.percentiles := by
  induction l with
  | nil => intro st st' out out' p _ h; simp [visitLive] at h
  | cons e l ih =>
    intro st st' out out' p hl h
    have g := grows_callback (s := s) (cfg := cfg) e.1 e.2 st out
    obtain ⟨o, ho⟩ := hl e (by simp)
    rw [visitLive] at h
    rcases hc : libratoCallbackLive s cfg e.1 e.2 (st, out) with ⟨⟨st1, out1⟩, _ | q⟩ <;> rw [hc] at h g
    · simp only at h g
      exact failsWithin_mono (ih (fun e he => by
        obtain ⟨o, ho⟩ := hl e (by simp [he])
        obtain ⟨o', h1, -⟩ := kind_after g ho
        exact ⟨o', h1⟩) h) g List.prefix_rfl
    · simp only [Prod.mk.injEq, Except.error.injEq] at h
      obtain ⟨⟨rfl, rfl⟩, rfl⟩ := h
      simp only [libratoCallbackLive, ho] at hc
      rcases hx : libratoMetricLive cfg e.1 e.2 o s st with ⟨st2, p | b⟩ <;> rw [hx] at hc <;> simp only [Prod.mk.injEq, Option.some.injEq, reduceCtorEq, and_false] at hc
      obtain ⟨⟨rfl, -⟩, rfl⟩ := hc
      exact ends_metric ho _ _ _ _ List.prefix_rfl hx

end all

/-! ### No other goroutines -/

section alone
variable {env : Env F}

theorem alone_int (r : Ref) (c : Call F) : ByItself env (readIntLive r c) (readInt env r c) := alone_bind (alone_call r c) fun out => by cases out <;> exact alone_pure _
theorem alone_float (r : Ref) (c : Call F) : ByItself env (readFloatLive r c) (readFloat env r c) := alone_bind (alone_call r c) fun out => by cases out <;> exact alone_pure _
theorem alone_bits (r : Ref) (c : Call F) : ByItself env (readBitsLive r c) (readBits env r c) := alone_bind (alone_call r c) fun out => by cases out <;> exact alone_pure _
theorem alone_squares (r : Ref) : ByItself env (sumSquaresLive r : Live F F) (sumSquares env r) :=
  alone_bind (alone_int _ _) fun _ => alone_bind (alone_float _ _) fun _ => alone_bind (alone_float _ _) fun _ => by dsimp only; split <;> exact alone_pure _
theorem alone_percentiles (x : Ref) (mk : F → F → Measurement F) (ps : List F) : ByItself env (percentileGaugesLive x mk ps) (percentileGauges env x mk ps) := by
  induction ps with
  | nil => exact alone_pure _
  | cons p ps ih => exact alone_bind (alone_float _ _) fun _ => alone_bind ih fun _ => alone_pure _
theorem alone_rate (cfg : Reporter F) (name : Str) (r : Ref) (suffix : String) (c : RateCall) : ByItself env (rateGaugeLive cfg name r suffix c) (rateGauge env cfg name r suffix c) := alone_bind (alone_float _ _) fun _ => alone_pure _

macro "alone" : tactic => `(tactic| repeat' first
  | with_reducible exact alone_pure _ | with_reducible exact alone_call _ _ | with_reducible exact alone_int _ _ | with_reducible exact alone_float _ _ | with_reducible exact alone_bits _ _ | with_reducible exact alone_squares _ | with_reducible exact alone_percentiles _ _ _ | with_reducible exact alone_rate _ _ _ _ _
  | with_reducible refine alone_bind ?_ fun _ => ?_ | split | dsimp only)

theorem alone_libratoMetric (cfg : Reporter F) (name : Str) (r : Ref) (o : Obj F) : ByItself env (libratoMetricLive cfg name r o) (libratoMetric env cfg name r o) := by
  cases o with
  | hist x =>
    simp only [libratoMetricLive, libratoMetric]
    generalize (if cfg.namesp ≠ [] then cfg.namesp ++ bytes "." ++ name else name) = nm
    refine alone_bind (alone_int _ _) fun _ => ?_
    split
    · refine alone_bind (alone_call _ _) fun out => ?_
      cases out <;> dsimp only <;> alone
    · exact alone_pure _
  | _ => simp only [libratoMetricLive, libratoMetric]; alone

theorem alone_callback (cfg : Reporter F) (name : Str) (r : Ref) (st : LiveState F) (out : List (Measurement F) × List (Measurement F)) :
    libratoCallback env cfg name r (after st.log, out) = ((after (libratoCallbackLive (fun _ => ⟨[], env⟩) cfg name r (st, out)).1.1.log, (libratoCallbackLive (fun _ => ⟨[], env⟩) cfg name r (st, out)).1.2),
      (libratoCallbackLive (fun _ => ⟨[], env⟩) cfg name r (st, out)).2) := by
  rw [libratoCallback, libratoCallbackLive]
  simp only
  cases (after st.log : World F).objs r with
  | none => rfl
  | some o =>
    simp only
    have h := alone_libratoMetric (env := env) cfg name r o st
    rcases he : libratoMetricLive cfg name r o (fun _ => ⟨[], env⟩) st with ⟨st1, p | ev⟩ <;> rw [he] at h <;> rcases ha : libratoMetric env cfg name r o (after st.log) with ⟨w1, q | u⟩ <;> rw [ha] at h <;> simp at h ⊢
    · obtain ⟨rfl, rfl⟩ := h; exact ⟨rfl, rfl⟩
    · obtain ⟨rfl, rfl⟩ := h; exact ⟨rfl, rfl, rfl⟩

end alone

end GoMetrics
