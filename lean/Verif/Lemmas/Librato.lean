import Verif.Lemmas.GetAll
import Verif.Lemmas.WorldReg
import Verif.Spec.Librato

/-! Execution of Librato's `BuildRequest`: it only reads, and the values it reads are those of the state in which it began. -/

set_option linter.unusedSimpArgs false
set_option linter.unusedSectionVars false

namespace GoMetrics
open Spec

variable {F : Type} [GoFloat F] [GoSqrt F] [GoExp F]

/-- Started in a state that is like `w` up to the order of samples, `a` ends in such a state with a result as `P` says, or `E` holds. -/
def Reads (w : World F) (E : Prop) {α : Type} (a : Act F α) (P : α → Prop) : Prop :=
  ∀ w1, Sim w w1 → w1.Ok → match a w1 with
    | (w2, .ok v) => Sim w w2 ∧ w2.Ok ∧ P v
    | (_, .error _) => E

section rules
variable {w : World F} {E : Prop} {env : Env F} {r : Ref} {α β : Type}

theorem reads_pure {P : α → Prop} {v : α} (h : P v) : Reads w E (pure v : Act F α) P := fun _ h1 h2 => ⟨h1, h2, h⟩

theorem reads_bind {a : Act F α} {f : α → Act F β} {P : α → Prop} {Q : β → Prop} (ha : Reads w E a P) (hf : ∀ v, P v → Reads w E (f v) Q) : Reads w E (a >>= f) Q := by
  intro w1 h1 h2
  have h3 := ha w1 h1 h2
  rw [act_bind]
  rcases hw : a w1 with ⟨w2, e | v⟩
  · simp only [hw] at h3 ⊢; exact h3
  · simp only [hw] at h3 ⊢; exact hf v h3.2.2 w2 h3.1 h3.2.1

theorem reads_ite {c : Prop} [Decidable c] {a b : Act F α} {P : α → Prop} (h1 : c → Reads w E a P) (h2 : ¬ c → Reads w E b P) : Reads w E (if c then a else b) P := by
  split
  · exact h1 ‹_›
  · exact h2 ‹_›

theorem reads_mono {a : Act F α} {P Q : α → Prop} (ha : Reads w E a P) (h : ∀ v, P v → Q v) : Reads w E a Q := by
  intro w1 h1 h2
  have h3 := ha w1 h1 h2
  rcases hw : a w1 with ⟨w2, e | v⟩
  · simp only [hw] at h3 ⊢; exact h3
  · simp only [hw] at h3 ⊢; exact ⟨h3.1, h3.2.1, h _ h3.2.2⟩

theorem reads_call {c : Call F} (hc : ReadOK c) (hE : ∀ e, observe w env r c = .error e → E) : Reads w E (call env r c) (fun out => observe w env r c = .ok out) := by
  intro w1 h1 h2
  have hs := sim_call w1 env r c hc.1
  have hk := (h2.call env r c).1
  have ho := h1.observe env r c hc
  rw [observe] at ho
  rcases hw : call env r c w1 with ⟨w2, e | v⟩
  · rw [hw] at ho; exact hE e ho.symm
  · rw [hw] at hs hk ho
    exact ⟨h1.trans hs, hk, ho.symm⟩

theorem reads_int {c : Call F} (hc : ReadOK c) {n : Int64} (h : observe w env r c = .ok (.int n)) : Reads w E (readInt env r c) (fun m => m = n) := by
  refine reads_bind (reads_call hc (fun e he => by rw [h] at he; simp at he)) fun out ho => ?_
  rw [h] at ho
  simp only [Except.ok.injEq] at ho
  subst ho
  exact reads_pure rfl

theorem reads_bits {c : Call F} (hc : ReadOK c) {n : FloatBits} (h : observe w env r c = .ok (.bits n)) : Reads w E (readBits env r c) (fun m => m = n) := by
  refine reads_bind (reads_call hc (fun e he => by rw [h] at he; simp at he)) fun out ho => ?_
  rw [h] at ho
  simp only [Except.ok.injEq] at ho
  subst ho
  exact reads_pure rfl

theorem reads_float {c : Call F} (hc : ReadOK c) (h : (∃ x, observe w env r c = .ok (.float x)) ∨ (E ∧ ∃ e, observe w env r c = .error e)) :
    Reads w E (readFloat env r c) (fun x => observe w env r c = .ok (.float x)) := by
  refine reads_bind (reads_call hc (fun e he => ?_)) fun out ho => ?_
  · rcases h with ⟨x, h⟩ | h
    · rw [h] at he; simp at he
    · exact h.1
  · rcases h with ⟨x, h⟩ | ⟨-, e, h⟩
    · rw [h] at ho
      simp only [Except.ok.injEq] at ho
      subst ho
      exact reads_pure h
    · rw [h] at ho; simp at ho

end rules

/-- Reads through `x` give what reads of the metric `r` give. -/
structure View (w : World F) (env : Env F) (r x : Ref) : Prop where
  count : ∃ n, observe w env x .count = .ok (.int n)
  same : ∀ c, c = .count ∨ (∃ s, c = .stat s) → observe w env x c = observe w env r c
  stat : ∀ s, observe w env x (.stat s) = readStat (recorded w r) s
  dev : ∀ w1, Sim w w1 → w1.Ok → ∃ d, observe w1 env x (.stat .stdDev) = .ok (.float d) ∧ isDev (recorded w r) d

theorem readStat_dev (v v' : Option (List Int64)) (h : Option.Rel List.Perm v' v) : ∃ d : F, readStat v' .stdDev = .ok (.float d) ∧ isDev v d := by
  cases h with
  | none => exact ⟨_, rfl, rfl⟩
  | @some a b h => exact ⟨_, rfl, a, h, rfl⟩

theorem Sim.hasTy {w w1 : World F} (h : Sim w w1) {r : Ref} {t : Ty} (ht : HasTy w r t) : HasTy w1 r t := by
  obtain ⟨o, ho, ht⟩ := ht
  rcases h.objs r with e | ⟨s, s', e1, e2, -⟩
  · exact ⟨o, e.trans ho, ht⟩
  · rw [ho] at e1
    cases e1
    exact ⟨_, e2, ht⟩

/-- Timers and histograms are read directly. -/
theorem view_self {w : World F} (hw : w.Ok) (env : Env F) {r : Ref} (h : HasTy w r .hist ∨ HasTy w r .timer) : View w env r r where
  count := observe_count hw (by tauto)
  same _ _ := rfl
  stat := observe_stat hw h
  dev w1 h1 h2 := by
    rw [observe_stat h2 (h.imp h1.hasTy h1.hasTy)]
    exact readStat_dev _ _ (sim_recorded h1 r)

/-- The sample of a histogram. -/
theorem view_sample {w : World F} (hw : w.Ok) (env : Env F) {r s : Ref} {x : HistV} (hr : w.objs r = some (.hist x)) (hx : x = .std s ∨ x = .snap s) : View w env r s := by
  have hs : HasTy w s .sample := by
    have := hw.refs r _ hr
    rcases hx with rfl | rfl
    · exact this
    · obtain ⟨n, a, e⟩ := this; exact ⟨_, e, rfl⟩
  have hrec : recorded w r = sampleRecorded w s := by
    simp only [recorded, hr, histRecorded]
    rcases hx with rfl | rfl <;> rfl
  have ev : ∀ (w : World F), HasTy w s .sample → ∀ c, c = .count ∨ (∃ s, c = .stat s) → observe w env s c = sampleRef w s c := by
    intro w hs c hc
    obtain ⟨o, ho, ht⟩ := hs
    cases o <;> simp [Obj.ty] at ht
    rcases hc with rfl | ⟨t, rfl⟩ <;> (rw [read_obj ho _ rfl]; simp only [sampleRef, ho]; rfl)
  have er : ∀ c, c = .count ∨ (∃ s, c = .stat s) → observe w env r c = sampleRef w s c := by
    intro c hc
    rcases hc with rfl | ⟨t, rfl⟩ <;> (rw [read_obj hr _ rfl]; rcases hx with rfl | rfl <;> rfl)
  refine ⟨?_, fun c hc => (ev w hs c hc).trans (er c hc).symm, fun t => ?_, fun w1 h1 h2 => ?_⟩
  · obtain ⟨n, hn⟩ := sampleRef_count hs
    exact ⟨n, (ev w hs _ (.inl rfl)).trans hn⟩
  · rw [ev w hs _ (.inr ⟨t, rfl⟩), sampleRef_stat hs, hrec]
  · rw [ev w1 (h1.hasTy hs) _ (.inr ⟨_, rfl⟩), sampleRef_stat (h1.hasTy hs), hrec]
    exact readStat_dev _ _ (sim_sampleRecorded h1 s)

section view
variable {w : World F} {E : Prop} {env : Env F} {r x : Ref}

theorem View.int (h : View w env r x) {s : StatCall F} (hs : s = .max ∨ s = .min ∨ s = .sum) : ∃ n, observe w env x (.stat s) = .ok (.int n) := by
  rw [h.stat]
  rcases hs with rfl | rfl | rfl <;> (rcases recorded w r with _ | l <;> exact ⟨_, rfl⟩)

theorem View.mean (h : View w env r x) : ∃ m, observe w env x (.stat .mean) = .ok (.float m) := by
  rw [h.stat]
  rcases recorded w r with _ | l <;> exact ⟨_, rfl⟩

theorem reads_squares (h : View w env r x) {n : Int64} (hn : observe w env r .count = .ok (.int n)) : Reads w E (sumSquares env x) (fun v => SquaresFrom w env r n v) := by
  unfold sumSquares
  refine reads_bind (reads_int (readOK_orderFree rfl) ((h.same _ (.inl rfl)).trans hn)) fun m' hm' => ?_
  rw [hm']
  refine reads_bind (reads_float (readOK_orderFree rfl) (.inl h.mean)) fun m hm => ?_
  have hdev : Reads w E (readFloat env x (.stat .stdDev)) (fun d => isDev (recorded w r) d) := by
    intro w1 h1 h2
    obtain ⟨d, h3, h4⟩ := h.dev w1 h1 h2
    have h5 : call env x (.stat .stdDev) w1 = (w1, .ok (.float d)) := Prod.ext (call_same rfl (by rintro s hs; cases hs; rfl)) h3
    simp only [readFloat, act_bind, h5, act_pure]
    exact ⟨h1, h2, h4⟩
  refine reads_bind hdev fun d hd => ?_
  have key : ∀ v : F, v = sumSquaresOf n m d → SquaresFrom w env r n v := fun v hv => ⟨m, d, ((h.same _ (.inr ⟨_, rfl⟩)).symm.trans hm), hd, hv⟩
  refine reads_ite (fun hl => reads_pure (key _ ?_)) fun hl => reads_pure (key _ ?_)
  · simp only [isNaN, pow2, Bool.not_eq_true'] at hl
    simp only [sumSquaresOf, hl]
    rfl
  · simp only [isNaN, pow2, Bool.not_eq_true', Bool.not_eq_false] at hl
    simp only [sumSquaresOf, hl]
    rfl

/-- A percentile can not be computed. -/
def PercentileFails (w : World F) (ps : List F) : Prop := ∃ r vs, recorded w r = some vs ∧ ∃ p ∈ ps, ∃ e, samplePercentile vs p = .error e

theorem reads_percentiles (h : View w env r x) (mk : F → F → Measurement F) (all : List F) (ps : List F) (hps : ∀ p ∈ ps, p ∈ all) :
    Reads w (PercentileFails w all) (percentileGauges env x mk ps) (List.Forall₂ (fun p g => ∃ v, gives w env r (.stat (.percentile p)) v ∧ g = mk p v) ps) := by
  induction ps with
  | nil => exact reads_pure .nil
  | cons p ps ih =>
    refine reads_bind (reads_float (readOK_orderFree rfl) ?_) fun v hv => ?_
    · rw [h.stat]
      rcases hr : recorded w r with _ | l
      · exact .inl ⟨_, rfl⟩
      · simp only [readStat, statOf]
        rcases hs : samplePercentile l p with e | y
        · exact .inr ⟨⟨r, l, hr, p, hps p (by simp), e, hs⟩, e, rfl⟩
        · exact .inl ⟨y.1, rfl⟩
    · refine reads_bind (ih fun p hp => hps p (by simp [hp])) fun gs hg => reads_pure (.cons ⟨v, ?_, rfl⟩ hg)
      exact (h.same _ (.inr ⟨_, rfl⟩)).symm.trans hv

theorem reads_rate (hw : w.Ok) (h : HasTy w r .timer ∨ HasTy w r .meter) (cfg : Reporter F) (name : Str) (suffix : String) (c : RateCall) :
    Reads w E (rateGauge env cfg name r suffix c) (fun g => (∃ v, gives w env r (.rates c) v ∧ plain g (textOf (name ++ bytes suffix)) (.float v)) ∧ periodOk cfg.interval g) := by
  obtain ⟨v, hv⟩ := observe_rates hw (env := env) h c
  refine reads_bind (reads_float (readOK_orderFree rfl) (.inl ⟨v, hv⟩)) fun x hx => reads_pure ⟨⟨x, hx, rfl, rfl, rfl, rfl, rfl, rfl, rfl, by simp⟩, .inr rfl⟩

end view

section metric
variable {w : World F} {env : Env F} {r : Ref} {cfg : Reporter F} {name : Str}

private theorem pos_iff (n : Int64) : n > 0 ↔ 0 < n.toInt := by
  have : n > 0 ↔ (0 : Int64) < n := Iff.rfl
  rw [this, Int64.lt_iff_toInt_lt]
  rfl

private theorem forall2_map_left {α β γ : Type} {R : β → γ → Prop} (f : α → β) {l : List α} {m : List γ} (h : List.Forall₂ (fun a b => R (f a) b) l m) :
    List.Forall₂ R (l.map f) m := by
  induction h with
  | nil => exact .nil
  | cons h _ ih => exact .cons h ih

private theorem forall2_right {α β : Type} {R : α → β → Prop} {P : β → Prop} {l : List α} {m : List β} (h : List.Forall₂ R l m) (hP : ∀ a b, R a b → P b) : ∀ b ∈ m, P b := by
  induction h with
  | nil => simp
  | cons h _ ih =>
    intro b hb
    rcases List.mem_cons.1 hb with rfl | hb
    · exact hP _ _ h
    · exact ih b hb

/-- One metric. -/
theorem reads_metric (hw : w.Ok) {o : Obj F} (hr : w.objs r = some o) :
    Reads w (PercentileFails w cfg.percentiles) (libratoMetric env cfg name r o) (fun b =>
      LibratoBlock w env cfg.percentiles (libratoName cfg.namesp name) r o b.1 b.2 ∧ ∀ m ∈ b.1 ++ b.2, periodOk cfg.interval m) := by
  have hname : (if cfg.namesp ≠ [] then cfg.namesp ++ bytes "." ++ name else name) = libratoName cfg.namesp name := by
    unfold libratoName
    by_cases h : cfg.namesp = [] <;> simp [h]
    rfl
  generalize libratoName cfg.namesp name = nm at *
  cases o with
  | counter x =>
    have hc := read_obj (env := env) hr .count rfl
    simp only [libratoMetric, hname]
    refine reads_bind (reads_int (readOK_orderFree rfl) hc) ?_
    rintro _ rfl
    split
    · rename_i h
      refine reads_bind (reads_int (readOK_orderFree rfl) hc) ?_
      rintro _ rfl
      refine reads_pure ⟨⟨rfl, _, hc, fun _ => ⟨_, rfl, rfl, rfl, rfl, rfl, rfl, rfl, rfl, by simp⟩, fun h' => ?_⟩, ?_⟩
      · rw [pos_iff] at h; omega
      · simp [periodOk]
    · rename_i h
      refine reads_pure ⟨⟨rfl, _, hc, fun h' => ?_, fun _ => rfl⟩, by simp⟩
      rw [pos_iff] at h; omega
  | gauge x =>
    have hc := read_obj (env := env) hr .value rfl
    simp only [libratoMetric, hname]
    refine reads_bind (reads_int (readOK_orderFree rfl) hc) ?_
    rintro _ rfl
    exact reads_pure ⟨⟨rfl, _, _, hc, rfl, rfl, rfl, rfl, rfl, rfl, rfl, rfl, by simp⟩, by simp [periodOk]⟩
  | gaugeF x =>
    have hc := read_obj (env := env) hr .value rfl
    simp only [libratoMetric, hname]
    refine reads_bind (reads_bits (readOK_orderFree rfl) hc) ?_
    rintro _ rfl
    exact reads_pure ⟨⟨rfl, _, _, hc, rfl, rfl, rfl, rfl, rfl, rfl, rfl, rfl, by simp⟩, by simp [periodOk]⟩
  | hist x =>
    obtain ⟨n, hn⟩ := (view_self hw env (.inl ⟨_, hr, rfl⟩)).count
    simp only [libratoMetric, hname]
    refine reads_bind (reads_int (readOK_orderFree rfl) hn) fun m hm => ?_
    rw [hm]
    split
    · rename_i h
      rw [pos_iff] at h
      obtain ⟨s, hx⟩ : ∃ s, x = .std s ∨ x = .snap s := by
        cases x with
        | std s => exact ⟨s, .inl rfl⟩
        | snap s => exact ⟨s, .inr rfl⟩
        | nil =>
          rw [read_obj hr _ rfl] at hn
          simp [objVal, histVal] at hn
          rw [← hn] at h
          exact absurd h (by decide)
      have V := view_sample hw env hr hx
      have hs : Reads w (PercentileFails w cfg.percentiles) (call env r .sample) (fun out => out = .ref s) := by
        intro w1 h1 h2
        have hr1 : w1.objs r = some (.hist x) := by
          rcases h1.objs r with e | ⟨_, _, e1, -⟩
          · exact e.trans hr
          · rw [hr] at e1; cases e1
        have : call env r .sample w1 = (w1, .ok (.ref s)) := by
          rw [call_obj hr1]
          rcases hx with rfl | rfl <;> rfl
        simp only [this]
        exact ⟨h1, h2, trivial⟩
      refine reads_bind hs fun out ho => ?_
      rw [ho]
      obtain ⟨mx, hmx⟩ := V.int (s := .max) (by simp)
      obtain ⟨mn, hmn⟩ := V.int (s := .min) (by simp)
      obtain ⟨sm, hsm⟩ := V.int (s := .sum) (by simp)
      simp only
      refine reads_bind (reads_int (readOK_orderFree rfl) ((V.same _ (.inl rfl)).trans hn)) fun c hc => ?_
      refine reads_bind (reads_int (readOK_orderFree rfl) hmx) fun c1 hc1 => ?_
      refine reads_bind (reads_int (readOK_orderFree rfl) hmn) fun c2 hc2 => ?_
      refine reads_bind (reads_int (readOK_orderFree rfl) hsm) fun c3 hc3 => ?_
      refine reads_bind (reads_squares V hn) fun sq hsq => ?_
      refine reads_bind (reads_percentiles V _ _ _ fun _ h => h) fun ps hps => reads_pure ⟨⟨rfl, n, hn, fun h' => by omega, fun _ => ?_⟩, ?_⟩
      · refine ⟨_, ps, ⟨n, GoFloat.ofInt sm.toInt, mx, mn, sq⟩, sm, rfl, ⟨rfl, rfl, by rw [hc], by rw [hc3], by rw [hc1], by rw [hc2], rfl, by simp⟩, rfl,
          (V.same _ (.inr ⟨_, rfl⟩)).symm.trans hmx, (V.same _ (.inr ⟨_, rfl⟩)).symm.trans hmn, (V.same _ (.inr ⟨_, rfl⟩)).symm.trans hsm, rfl, hsq, ?_⟩
        refine forall2_map_left _ (forall2_mono ?_ hps)
        rintro p g ⟨v, hv, rfl⟩
        refine ⟨v, hv, ?_, rfl, rfl, rfl, rfl, rfl, rfl, by simp⟩
        show textOf (nm ++ bytes ".hist") ++ (textOf [46] ++ [.val (bytes ".2f") (GoMetrics.Field.float p)]) = _
        rw [← List.append_assoc]
        simp only [textOf, ← List.map_append, List.append_assoc]
        rfl
      · intro g hg
        simp only [List.nil_append, List.mem_cons] at hg
        rcases hg with rfl | hg
        · exact .inl rfl
        · exact forall2_right hps (P := periodOk cfg.interval) (by rintro a b ⟨v, -, rfl⟩; exact .inl rfl) g hg
    · rename_i h
      rw [pos_iff] at h
      exact reads_pure ⟨⟨rfl, n, hn, fun _ => rfl, fun h' => by omega⟩, by simp⟩
  | meter x =>
    obtain ⟨n, hn⟩ := observe_count hw (env := env) (r := r) (.inr (.inr ⟨_, hr, rfl⟩))
    simp only [libratoMetric, hname]
    have hty : HasTy w r .timer ∨ HasTy w r .meter := .inr ⟨_, hr, rfl⟩
    refine reads_bind (reads_int (readOK_orderFree rfl) hn) fun m hm => ?_
    refine reads_bind (reads_rate hw hty cfg nm _ _) fun g1 h1 => ?_
    refine reads_bind (reads_rate hw hty cfg nm _ _) fun g2 h2 => ?_
    refine reads_bind (reads_rate hw hty cfg nm _ _) fun g3 h3 => ?_
    refine reads_pure ⟨⟨n, hn, ⟨_, rfl, by simp [bytes], by rw [hm], rfl, rfl, rfl, rfl, rfl, by simp⟩, .cons h1.1 (.cons h2.1 (.cons h3.1 .nil))⟩, ?_⟩
    intro g hg
    simp only [List.cons_append, List.nil_append, List.mem_cons, List.not_mem_nil, or_false] at hg
    rcases hg with rfl | rfl | rfl | rfl
    · exact .inl rfl
    · exact h1.2
    · exact h2.2
    · exact h3.2
  | timer x =>
    have hty : HasTy w r .timer ∨ HasTy w r .meter := .inl ⟨_, hr, rfl⟩
    have V := view_self hw env (r := r) (.inr ⟨_, hr, rfl⟩)
    obtain ⟨n, hn⟩ := V.count
    simp only [libratoMetric, hname]
    refine reads_bind (reads_int (readOK_orderFree rfl) hn) fun m hm => ?_
    refine reads_bind (reads_int (readOK_orderFree rfl) hn) fun m' hm' => ?_
    rw [hm']
    split
    · rename_i h
      rw [pos_iff] at h
      obtain ⟨mx, hmx⟩ := V.int (s := .max) (by simp)
      obtain ⟨mn, hmn⟩ := V.int (s := .min) (by simp)
      refine reads_bind (reads_int (readOK_orderFree rfl) hn) fun c hc => ?_
      refine reads_bind (reads_float (readOK_orderFree rfl) (.inl V.mean)) fun me hme => ?_
      refine reads_bind (reads_int (readOK_orderFree rfl) hn) fun c' hc' => ?_
      refine reads_bind (reads_int (readOK_orderFree rfl) hmx) fun c1 hc1 => ?_
      refine reads_bind (reads_int (readOK_orderFree rfl) hmn) fun c2 hc2 => ?_
      refine reads_bind (reads_squares V hn) fun sq hsq => ?_
      refine reads_bind (reads_percentiles V _ _ _ fun _ h => h) fun ps hps => ?_
      refine reads_bind (reads_rate hw hty cfg nm _ _) fun g1 h1 => ?_
      refine reads_bind (reads_rate hw hty cfg nm _ _) fun g2 h2 => ?_
      refine reads_bind (reads_rate hw hty cfg nm _ _) fun g3 h3 => ?_
      refine reads_pure ⟨⟨n, hn, ⟨_, rfl, by simp [bytes], by rw [hm], rfl, rfl, rfl, rfl, rfl, by simp⟩, fun h' => by omega, fun _ => ?_⟩, ?_⟩
      · refine ⟨_, ps, [g1, g2, g3], ⟨n, GoFloat.mul me (GoFloat.ofInt n.toInt), mx, mn, sq⟩, me, rfl,
          ⟨rfl, rfl, by rw [hc], by rw [hc'], by rw [hc1], by rw [hc2], rfl, by simp⟩, rfl, hmx, hmn, hme, rfl, hsq, ?_, .cons h1.1 (.cons h2.1 (.cons h3.1 .nil))⟩
        refine forall2_map_left _ (forall2_mono ?_ hps)
        rintro p g ⟨v, hv, rfl⟩
        refine ⟨v, hv, ?_, rfl, rfl, rfl, rfl, rfl, rfl, by simp⟩
        show textOf nm ++ (textOf (bytes ".timer.") ++ [.val (bytes "2.0f") (GoMetrics.Field.float (GoFloat.mul p (GoFloat.lit 100)))]) = _
        rw [← List.append_assoc]
        simp only [textOf, ← List.map_append, List.append_assoc]
      · intro g hg
        simp only [List.cons_append, List.nil_append, List.mem_cons, List.mem_append, List.not_mem_nil, or_false] at hg
        rcases hg with rfl | rfl | hg | rfl | rfl | rfl
        · exact .inl rfl
        · exact .inr rfl
        · exact forall2_right hps (P := periodOk cfg.interval) (by rintro a b ⟨v, -, rfl⟩; exact .inr rfl) g hg
        · exact h1.2
        · exact h2.2
        · exact h3.2
    · rename_i h
      rw [pos_iff] at h
      exact reads_pure ⟨⟨n, hn, ⟨_, rfl, by simp [bytes], by rw [hm], rfl, rfl, rfl, rfl, rfl, by simp⟩, fun _ => rfl, fun h' => by omega⟩, by simp [periodOk]⟩
  | health x => exact reads_pure ⟨⟨rfl, rfl⟩, by simp⟩
  | sample x => exact reads_pure ⟨⟨rfl, rfl⟩, by simp⟩
  | ewma x => exact reads_pure ⟨⟨rfl, rfl⟩, by simp⟩

/-- All metrics. -/
theorem visit_librato (hw : w.Ok) (l : List (Str × Ref)) (hl : ∀ e ∈ l, ∃ o, w.objs e.2 = some o ∧ o.isMetric = true) :
    ∀ {w1 : World F} {out : List (Measurement F) × List (Measurement F)}, Sim w w1 → w1.Ok → match visit (libratoCallback env cfg) l (w1, out) with
      | ((w2, out'), .ok ()) => Sim w w2 ∧ w2.Ok ∧ ∃ bs : List (List (Measurement F) × List (Measurement F)),
          out'.1 = out.1 ++ (bs.map Prod.fst).flatten ∧ out'.2 = out.2 ++ (bs.map Prod.snd).flatten ∧
          List.Forall₂ (fun e b => ∃ o, w.objs e.2 = some o ∧ LibratoBlock w env cfg.percentiles (libratoName cfg.namesp e.1) e.2 o b.1 b.2 ∧ ∀ m ∈ b.1 ++ b.2, periodOk cfg.interval m) l bs
      | (_, .error _) => PercentileFails w cfg.percentiles := by
  induction l with
  | nil =>
    intro w1 out h1 h2
    simp only [visit]
    exact ⟨h1, h2, [], by simp, by simp, .nil⟩
  | cons e l ih =>
    intro w1 out h1 h2
    obtain ⟨o, ho, hm⟩ := hl e (by simp)
    have ho1 : w1.objs e.2 = some o := by
      rcases h1.objs e.2 with h | ⟨s, s', h, -⟩
      · exact h.trans ho
      · rw [ho] at h; cases h; simp [Obj.isMetric] at hm
    have key := reads_metric (env := env) (cfg := cfg) (name := e.1) hw ho w1 h1 h2
    simp only [visit, libratoCallback, ho1]
    rcases hv : libratoMetric env cfg e.1 e.2 o w1 with ⟨w2, p | b⟩
    · simp only [hv] at key ⊢
      exact key
    · simp only [hv] at key ⊢
      obtain ⟨k1, k2, k3⟩ := key
      have := ih (fun e he => hl e (by simp [he])) (out := (out.1 ++ b.1, out.2 ++ b.2)) k1 k2
      rcases hx : visit (libratoCallback env cfg) l (w2, (out.1 ++ b.1, out.2 ++ b.2)) with ⟨⟨w3, out3⟩, p | ⟨⟩⟩
      · rw [hx] at this; exact this
      · rw [hx] at this
        obtain ⟨h3, h4, bs, h5, h6, h7⟩ := this
        exact ⟨h3, h4, b :: bs, by simp [h5], by simp [h6], .cons ⟨o, ho, k3⟩ h7⟩

end metric

end GoMetrics
