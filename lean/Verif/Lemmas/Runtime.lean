import Verif.Spec.Runtime
import Verif.Spec.Registry
import Verif.Lemmas.ExpDecay
import Verif.Props.Registry

/-! Registration of the runtime metrics and the effect of captures on them. -/

set_option linter.unusedSimpArgs false
set_option linter.unusedSectionVars false

namespace GoMetrics
open Spec

variable {F : Type} [GoFloat F] [GoSqrt F] [GoExp F]

/-- The metric at `r` is a standard one that can be updated. -/
def Ready (w : World F) (r : Ref) : StatKind → Prop
  | .gauge => ∃ v, w.objs r = some (.gauge (.std v))
  | .gaugeFloat64 => ∃ v, w.objs r = some (.gaugeF (.std v))
  | .histogram => ∃ s e, w.objs r = some (.hist (.std s)) ∧ w.objs s = some (.sample (.exp e)) ∧ ExpDecaySample.Shape 1028 e
  | .timer => ∃ h m s e mt, w.objs r = some (.timer (.std h m)) ∧ w.objs h = some (.hist (.std s)) ∧ w.objs s = some (.sample (.exp e)) ∧
      ExpDecaySample.Shape 1028 e ∧ w.objs m = some (.meter (.std mt))

/-- What a metric shows: the value of a gauge, or the count. -/
def statOfMetric (w : World F) (r : Ref) : Int64 × FloatBits :=
  match w.objs r with
  | some (.gauge (.std v)) => (v, 0)
  | some (.gaugeF (.std b)) => (0, b)
  | some (.hist (.std s)) => (match w.objs s with | some (.sample (.exp e)) => e.count | _ => 0, 0)
  | some (.timer (.std h _)) => (match w.objs h with
    | some (.hist (.std s)) => (match w.objs s with | some (.sample (.exp e)) => e.count | _ => 0)
    | _ => 0, 0)
  | _ => (0, 0)

/-- `r` is a new metric of kind `t`, made between `w` and `w1`. -/
structure Made (t : StatKind) (w w1 : World F) (r : Ref) : Prop where
  ok : w1.Ok
  regs : SameRegs w w1
  objs : SameObjs (fun _ => False) w w1
  parts : ∀ x, partOf w1 r x → w.nextObj ≤ x ∧ x < w1.nextObj
  kind : ∃ o, w1.objs r = some o ∧ t.is o = true
  ready : w.useNil = false → Ready w1 r t
  zero : statOfMetric w1 r = (0, 0)

theorem made_gauge (env : Env F) (w : World F) (hw : w.Ok) : ∃ w1 r, construct env .gauge w = (w1, .ok r) ∧ Made .gauge w w1 r := by
  refine ⟨_, _, rfl, (hw.construct env .gauge).1, construct_regs env .gauge w, construct_objs env .gauge w, ?_, ?_, ?_, ?_⟩
  · intro x hx
    simp [partOf, histSample, alloc] at hx
    subst hx
    simp [alloc]
  · simp [alloc, StatKind.is]
  · intro hu
    simp [alloc, Ready, hu, Gauge.new]
  · cases hu : w.useNil <;> simp [alloc, statOfMetric, Gauge.new, hu]

theorem made_gaugeF (env : Env F) (w : World F) (hw : w.Ok) : ∃ w1 r, construct env .gaugeF w = (w1, .ok r) ∧ Made .gaugeFloat64 w w1 r := by
  refine ⟨_, _, rfl, (hw.construct env .gaugeF).1, construct_regs env .gaugeF w, construct_objs env .gaugeF w, ?_, ?_, ?_, ?_⟩
  · intro x hx
    simp [partOf, histSample, alloc] at hx
    subst hx
    simp [alloc]
  · simp [alloc, StatKind.is]
  · intro hu
    simp [alloc, Ready, hu, GaugeF.new]
  · cases hu : w.useNil <;> simp [alloc, statOfMetric, GaugeF.new, hu]

theorem construct_exp (env : Env F) (w : World F) (k : Nat) (a : F) :
    (w.useNil = true → construct env (.exp k a) w = alloc (.sample .nil) w) ∧
    (w.useNil = false → ∃ e, ExpDecaySample.Shape k e ∧ e.count = 0 ∧ construct env (.exp k a) w = alloc (.sample (.exp e)) w) := by
  constructor
  · intro h; simp [construct, newExp, h]
  · intro h
    obtain ⟨e, h1, h2, -, h3, -⟩ := ExpDecaySample.new_shape k a env.now
    exact ⟨e, h2, h3, by simp only [construct, newExp, h]; simp [act_bind, act_lift, h1]⟩

theorem made_hist (env : Env F) (w : World F) (hw : w.Ok) (a : F) :
    ∃ w1 r, (do construct env (.hist (← construct env (.exp 1028 a))) : Act F Ref) w = (w1, .ok r) ∧ Made .histogram w w1 r := by
  obtain ⟨e1, e2⟩ := construct_exp env w 1028 a
  have hc1 := (hw.construct env (.exp 1028 a)).1
  have hr1 := construct_regs env (.exp 1028 a) w
  have ho1 := construct_objs env (.exp 1028 a) w
  have hc2 := (hc1.construct env (.hist w.nextObj)).1
  have hr2 := construct_regs env (.hist w.nextObj) (construct env (.exp 1028 a) w).1
  have ho2 := construct_objs env (.hist w.nextObj) (construct env (.exp 1028 a) w).1
  have hr : SameRegs w (construct env (.hist w.nextObj) (construct env (.exp 1028 a) w).1).1 := ⟨hr2.1.trans hr1.1, hr2.2.trans hr1.2⟩
  have ho : SameObjs (fun _ => False) w (construct env (.hist w.nextObj) (construct env (.exp 1028 a) w).1).1 :=
    ⟨ho1.1.trans ho2.1, fun x hx h => (ho2.2 x (lt_of_lt_of_le hx ho1.1) h).trans (ho1.2 x hx h)⟩
  have hf : (construct env (.exp 1028 a) w).2 = .ok w.nextObj := by
    by_cases hu : w.useNil = true
    · rw [show (1028 : Int) = ((1028 : Nat) : Int) from rfl, e1 hu]; rfl
    · obtain ⟨_, _, _, e⟩ := e2 (by simpa using hu)
      rw [show (1028 : Int) = ((1028 : Nat) : Int) from rfl, e]; rfl
  have hact : (do construct env (.hist (← construct env (.exp 1028 a))) : Act F Ref) w =
      construct env (.hist w.nextObj) (construct env (.exp 1028 a) w).1 := by
    rw [act_bind, show construct env (.exp 1028 a) w = ((construct env (.exp 1028 a) w).1, .ok w.nextObj) from Prod.ext rfl hf]
  rw [hact]
  by_cases hu : w.useNil = true
  · have e3 : construct env (.hist w.nextObj) (construct env (.exp 1028 a) w).1 = alloc (.hist .nil) (alloc (.sample .nil) w).1 := by
      rw [show (1028 : Int) = ((1028 : Nat) : Int) from rfl, e1 hu]
      simp [construct, newHist, alloc, hu]
    rw [e3] at hc2 hr ho ⊢
    refine ⟨_, _, rfl, hc2, hr, ho, ?_, ?_, ?_, ?_⟩
    · intro x hx
      simp [partOf, histSample, alloc] at hx
      subst hx
      simp [alloc]
    · simp [StatKind.is, alloc]
    · simp [hu]
    · simp [statOfMetric, alloc]
  · obtain ⟨ex, hs, h0, e⟩ := e2 (by simpa using hu)
    have e3 : construct env (.hist w.nextObj) (construct env (.exp 1028 a) w).1 = alloc (.hist (.std w.nextObj)) (alloc (.sample (.exp ex)) w).1 := by
      rw [show (1028 : Int) = ((1028 : Nat) : Int) from rfl, e]
      simp [construct, newHist, alloc, hu]
    rw [e3] at hc2 hr ho ⊢
    refine ⟨_, _, rfl, hc2, hr, ho, ?_, ?_, ?_, ?_⟩
    · intro x hx
      simp [partOf, histSample, alloc] at hx
      rcases hx with rfl | rfl <;> simp [alloc]
    · simp [StatKind.is, alloc]
    · intro _
      exact ⟨w.nextObj, ex, by simp [alloc], by simp [alloc], hs⟩
    · simp [statOfMetric, alloc, h0]

theorem made_timer (env : Env F) (w : World F) (hw : w.Ok) : ∃ w1 r, construct env .timer w = (w1, .ok r) ∧ Made .timer w w1 r := by
  have hc := (hw.construct env .timer).1
  have hr := construct_regs env .timer w
  have ho := construct_objs env .timer w
  by_cases hu : w.useNil = true
  · have e : construct env .timer w = alloc (.timer .nil) w := by simp [construct, hu]
    rw [e] at hc hr ho ⊢
    refine ⟨_, _, rfl, hc, hr, ho, ?_, ?_, ?_, ?_⟩
    · intro x hx
      simp [partOf, histSample, alloc] at hx
      subst hx
      simp [alloc]
    · simp [alloc, StatKind.is]
    · simp [hu]
    · simp [statOfMetric, alloc]
  · have hu' : w.useNil = false := by simpa using hu
    obtain ⟨ex, h1, h2, -, h0, -⟩ := ExpDecaySample.new_shape 1028 (GoFloat.lit (15 / 1000) : F) env.now
    rw [show ((1028 : Nat) : Int) = 1028 from rfl] at h1
    obtain ⟨e1, e2, e3, e4, e5, e6⟩ : (construct env .timer w).2 = .ok (w.nextObj + 3) ∧ (construct env .timer w).1.nextObj = w.nextObj + 4 ∧
        (construct env .timer w).1.objs (w.nextObj + 3) = some (.timer (.std (w.nextObj + 1) (w.nextObj + 2))) ∧
        (construct env .timer w).1.objs (w.nextObj + 1) = some (.hist (.std w.nextObj)) ∧
        (construct env .timer w).1.objs w.nextObj = some (.sample (.exp ex)) ∧
        (construct env .timer w).1.objs (w.nextObj + 2) = some (.meter (.std (StandardMeter.new env.now))) := by
      simp [construct, newExp, newHist, newMeter, newTimer, hu', act_bind, act_lift, act_alloc, h1, act_pure, arbiterAdd]
      rw [Function.update_of_ne (by omega), Function.update_of_ne (by omega), Function.update_of_ne (by omega), Function.update_self]
    refine ⟨_, w.nextObj + 3, Prod.ext rfl e1, hc, hr, ho, ?_, ⟨_, e3, rfl⟩, fun _ => ⟨_, _, _, _, _, e3, e4, e5, h2, e6⟩, by simp [statOfMetric, e3, e4, e5, h0]⟩
    intro x hx
    simp only [partOf, histSample, e3, e4] at hx
    rw [e2]
    rcases hx with rfl | hx | rfl | rfl | hx
    · omega
    · simp at hx
    · omega
    · omega
    · have : x = w.nextObj := by simpa using hx.symm
      omega

/-- The two constructor tables make what the fields say. -/
theorem rtNew_made (env : Env F) (k : RtField) (w : World F) (hw : w.Ok) : ∃ w1 r, rtNew env k w = (w1, .ok r) ∧ Made (RtField.kind k) w w1 r := by
  cases k
  case gcCPUFraction => exact made_gaugeF env w hw
  case pauseNs => exact made_hist env w hw _
  case readMemStats => exact made_timer env w hw
  all_goals exact made_gauge env w hw

theorem dbgNew_made (env : Env F) (k : DbgField) (w : World F) (hw : w.Ok) : ∃ w1 r, dbgNew env k w = (w1, .ok r) ∧ Made (DbgField.kind k) w w1 r := by
  cases k
  case pause => exact made_hist env w hw _
  case readGCStats => exact made_timer env w hw
  all_goals exact made_gauge env w hw

theorem partOf_same {w w' : World F} {r : Ref} (h : ∀ x, partOf w r x → w'.objs x = w.objs x) (x : Ref) : partOf w' r x ↔ partOf w r x := by
  have hr := h r (.inl rfl)
  unfold partOf
  have e1 : histSample w' r = histSample w r := by simp only [histSample, hr]
  rw [e1, hr]
  rcases ho : w.objs r with _ | o
  · rfl
  · cases o with
    | timer t =>
      cases t with
      | std a b =>
        have ha := h a (.inr (.inr (by rw [ho]; exact .inl rfl)))
        simp only [histSample, ha]
      | snap a b =>
        have ha := h a (.inr (.inr (by rw [ho]; exact .inl rfl)))
        simp only [histSample, ha]
      | nil => rfl
    | _ => rfl

theorem Ready.same {w w' : World F} {r : Ref} {t : StatKind} (h : ∀ x, partOf w r x → w'.objs x = w.objs x) (hr : Ready w r t) : Ready w' r t := by
  have h0 := h r (.inl rfl)
  cases t with
  | gauge => obtain ⟨v, hv⟩ := hr; exact ⟨v, h0.trans hv⟩
  | gaugeFloat64 => obtain ⟨v, hv⟩ := hr; exact ⟨v, h0.trans hv⟩
  | histogram =>
    obtain ⟨s, e, h1, h2, h3⟩ := hr
    exact ⟨s, e, h0.trans h1, (h s (.inr (.inl (by simp [histSample, h1])))).trans h2, h3⟩
  | timer =>
    obtain ⟨a, b, s, e, mt, h1, h2, h3, h4, h5⟩ := hr
    exact ⟨a, b, s, e, mt, h0.trans h1, (h a (.inr (.inr (by rw [h1]; exact .inl rfl)))).trans h2,
      (h s (.inr (.inr (by rw [h1]; exact .inr (.inr (by simp [histSample, h2])))))).trans h3, h4,
      (h b (.inr (.inr (by rw [h1]; exact .inr (.inl rfl))))).trans h5⟩

theorem stat_same {w w' : World F} {r : Ref} (h : ∀ x, partOf w r x → w'.objs x = w.objs x) : statOfMetric w' r = statOfMetric w r := by
  have h0 := h r (.inl rfl)
  unfold statOfMetric
  rw [h0]
  split
  · rfl
  · rfl
  · next s hs => rw [h s (.inr (.inl (by simp [histSample, hs])))]
  · next a b hs =>
    rw [h a (.inr (.inr (by rw [hs]; exact .inl rfl)))]
    split
    · next s hs' => rw [h s (.inr (.inr (by rw [hs]; exact .inr (.inr (by simp [histSample, hs'])))))]
    · rfl
  · rfl

variable {K : Type} [DecidableEq K]

/-- All fields hold metrics of their kinds, with no parts in common, made since `w`. -/
structure Assigned (kind : K → StatKind) (l : List K) (w w1 : World F) (m : K → Option Ref) : Prop where
  ok : w1.Ok
  regs : SameRegs w w1
  objs : SameObjs (fun _ => False) w w1
  all : ∀ k ∈ l, ∃ r, m k = some r ∧ (∀ x, partOf w1 r x → w.nextObj ≤ x ∧ x < w1.nextObj) ∧ (∃ o, w1.objs r = some o ∧ (kind k).is o = true) ∧
    (w.useNil = false → Ready w1 r (kind k)) ∧ statOfMetric w1 r = (0, 0)
  apart : ∀ k ∈ l, ∀ k' ∈ l, k ≠ k' → ∀ r r', m k = some r → m k' = some r' → ∀ x, partOf w1 r x → ¬ partOf w1 r' x

theorem assignFields_spec (kind : K → StatKind) (new : K → Act F Ref)
    (hn : ∀ k (w : World F), w.Ok → ∃ w1 r, new k w = (w1, .ok r) ∧ Made (kind k) w w1 r) (l : List K) (hl : l.Nodup) (m : K → Option Ref) (w : World F)
    (hw : w.Ok) : ∃ w1 m1, assignFields new l m w = (w1, .ok m1) ∧ Assigned kind l w w1 m1 ∧ ∀ k, k ∉ l → m1 k = m k := by
  induction l generalizing m w with
  | nil => exact ⟨w, m, rfl, ⟨hw, ⟨rfl, rfl⟩, ⟨le_refl _, fun _ _ _ => rfl⟩, by simp, by simp⟩, fun _ _ => rfl⟩
  | cons k l ih =>
    obtain ⟨hk, hl⟩ := List.nodup_cons.1 hl
    obtain ⟨w1, r, e1, m1⟩ := hn k w hw
    obtain ⟨w2, m', e2, a, hout⟩ := ih hl (Function.update m k (some r)) w1 m1.ok
    have hmk : m' k = some r := by rw [hout k hk]; simp
    have hsame : ∀ x, partOf w1 r x → w2.objs x = w1.objs x := fun x hx => a.objs.2 x (m1.parts x hx).2 not_false
    have hle := m1.objs.1
    have hle2 := a.objs.1
    refine ⟨w2, m', by rw [assignFields, act_bind, e1]; exact e2, ⟨a.ok, ⟨a.regs.1.trans m1.regs.1, a.regs.2.trans m1.regs.2⟩,
      ⟨hle.trans hle2, fun x hx h => (a.objs.2 x (lt_of_lt_of_le hx hle) h).trans (m1.objs.2 x hx h)⟩, ?_, ?_⟩, ?_⟩
    · intro k' hk'
      rcases List.mem_cons.1 hk' with rfl | hk'
      · obtain ⟨o, ho, ho'⟩ := m1.kind
        refine ⟨r, hmk, fun x hx => ?_, ⟨o, (hsame r (.inl rfl)).trans ho, ho'⟩, fun hu => (m1.ready hu).same hsame, (stat_same hsame).trans m1.zero⟩
        have := m1.parts x ((partOf_same hsame x).1 hx)
        omega
      · obtain ⟨r', h1, h2, h3, h4, h5⟩ := a.all k' hk'
        refine ⟨r', h1, fun x hx => ?_, h3, fun hu => h4 (m1.regs.2.trans hu), h5⟩
        have := h2 x hx
        omega
    · have cross : ∀ k' ∈ l, ∀ r', m' k' = some r' → ∀ x, partOf w2 r x → ¬ partOf w2 r' x := by
        intro k' hk' r' hr' x hx hx'
        obtain ⟨r'', h1, h2, -⟩ := a.all k' hk'
        obtain rfl : r' = r'' := by rw [hr'] at h1; simpa using h1
        have := m1.parts x ((partOf_same hsame x).1 hx)
        have := h2 x hx'
        omega
      intro k1 h1 k2 h2 hne r1 r2 hr1 hr2 x hx
      rcases List.mem_cons.1 h1 with g1 | g1 <;> rcases List.mem_cons.1 h2 with g2 | g2
      · exact absurd (g1.trans g2.symm) hne
      · obtain rfl : r = r1 := by rw [g1, hmk] at hr1; simpa using hr1
        exact cross k2 g2 r2 hr2 x hx
      · obtain rfl : r = r2 := by rw [g2, hmk] at hr2; simpa using hr2
        exact fun hx' => cross k1 g1 r1 hr1 x hx' hx
      · exact a.apart k1 g1 k2 g2 hne r1 r2 hr1 hr2 x hx
    · intro k' hk'
      have : k' ≠ k := fun h => hk' (by simp [h])
      rw [hout k' fun h => hk' (by simp [h]), Function.update_of_ne this]

theorem registerFields_spec (env : Env F) (g : Reg) (id : Nat) (hb : base g = some id) (m : K → Option Ref) (l : List (String × K))
    (hl : (l.map fun e => bytes e.1).Nodup) (w : World F) (hm : ∀ e ∈ l, ∃ r o, m e.2 = some r ∧ w.objs r = some o ∧ metricKind o = true) :
    ∃ w1, registerFields env g m l w = (w1, .ok ()) ∧ w1 = { w with regs := w1.regs } ∧
      (∀ e ∈ l, gets w id (baseName g (bytes e.1)) = none → gets w1 id (baseName g (bytes e.1)) = m e.2) ∧
      (∀ id' name, (id' ≠ id ∨ gets w id' name ≠ none ∨ ∀ e ∈ l, name ≠ baseName g (bytes e.1)) → gets w1 id' name = gets w id' name) := by
  induction l generalizing w with
  | nil => exact ⟨w, rfl, rfl, by simp, fun _ _ _ => rfl⟩
  | cons e l ih =>
    obtain ⟨name, k⟩ := e
    obtain ⟨hnot, hl⟩ := List.nodup_cons.1 hl
    obtain ⟨r, o, h1, h2, h3⟩ := hm (name, k) (by simp)
    have hne : ∀ e ∈ l, baseName g (bytes e.1) ≠ baseName g (bytes name) := by
      intro e he h
      refine hnot (List.mem_map.2 ⟨e, he, ?_⟩)
      exact List.append_cancel_left h
    obtain ⟨w1, e1, e1', e2, e3⟩ : ∃ w1, (regCall env g (.register (bytes name) (.obj r)) w).1 = w1 ∧
        (∃ out, (regCall env g (.register (bytes name) (.obj r)) w).2 = .ok out) ∧ w1 = { w with regs := w1.regs } ∧
        ∀ id' name', gets w1 id' name' = if id' = id ∧ name' = baseName g (bytes name) ∧ gets w id name' = none then some r else gets w id' name' := by
      rcases ht : gets w id (baseName g (bytes name)) with _ | r0
      · obtain ⟨w1, a, b, c⟩ := C47_fresh w env g id hb (bytes name) r o ht h2 h3
        rw [a]
        refine ⟨w1, rfl, ⟨_, rfl⟩, b, fun id' name' => ?_⟩
        rw [c]
        by_cases hc : id' = id ∧ name' = baseName g (bytes name)
        · rw [if_pos hc, if_pos ⟨hc.1, hc.2, by rw [hc.2]; exact ht⟩]
        · rw [if_neg hc, if_neg fun h => hc ⟨h.1, h.2.1⟩]
      · rw [C47_duplicate w env g id hb (bytes name) r0 ht]
        refine ⟨w, rfl, ⟨_, rfl⟩, rfl, fun id' name' => ?_⟩
        rw [if_neg]
        rintro ⟨-, rfl, h⟩
        rw [ht] at h
        simp at h
    have hobjs : w1.objs = w.objs := by rw [e2]
    obtain ⟨w2, f1, f2, f3, f4⟩ := ih hl w1 fun e he => by rw [hobjs]; exact hm e (by simp [he])
    obtain ⟨out, e1'⟩ := e1'
    refine ⟨w2, ?_, by rw [f2, e2], ?_, ?_⟩
    · rw [registerFields, h1, act_bind]
      rw [show regCall env g (.register (bytes name) (.obj r)) w = (w1, .ok out) from Prod.ext e1 e1']
      exact f1
    · intro e he hfree
      rcases List.mem_cons.1 he with rfl | he
      · rw [f4 id (baseName g (bytes name)) (.inr (.inl (by rw [e3, if_pos ⟨rfl, rfl, hfree⟩]; simp))), e3, if_pos ⟨rfl, rfl, hfree⟩, h1]
      · refine f3 e he ?_
        rw [e3, if_neg fun h => hne e he h.2.1]
        exact hfree
    · intro id' name' h
      have hno : ¬ (id' = id ∧ name' = baseName g (bytes name) ∧ gets w id name' = none) := by
        rintro ⟨ha, hb', hc⟩
        rcases h with h | h | h
        · exact h ha
        · exact h (by rw [ha]; exact hc)
        · exact h (name, k) (by simp) hb'
      have e3' := e3 id' name'
      rw [if_neg hno] at e3'
      rw [f4 id' name', e3']
      rcases h with h | h | h
      · exact .inl h
      · exact .inr (.inl (by rw [e3']; exact h))
      · exact .inr (.inr fun e he => h e (by simp [he]))

/-! ### Updates -/

/-- The call belongs to the kind. -/
def Spec.StatKind.fits : StatKind → Call F → Bool
  | .gauge, .update _ => true
  | .gaugeFloat64, .updateF _ => true
  | .histogram, .update _ => true
  | .timer, .updateSince _ => true
  | _, _ => false

def Spec.StatKind.bump : StatKind → Int64 × FloatBits → Call F → Int64 × FloatBits
  | .gauge, _, .update v => (v, 0)
  | .gaugeFloat64, _, .updateF b => (0, b)
  | .histogram, x, _ => (x.1 + 1, 0)
  | .timer, x, _ => (x.1 + 1, 0)
  | _, x, _ => x

theorem callSample_update (env : Env F) (w : World F) (s : Ref) (e : ExpDecaySample F) (h : w.objs s = some (.sample (.exp e))) (hs : ExpDecaySample.Shape 1028 e) (v : Int64) :
    ∃ e', callSample env s (.update v) w = ({ w with objs := Function.update w.objs s (some (.sample (.exp e'))) }, .ok .unit) ∧
      ExpDecaySample.Shape 1028 e' ∧ e'.count = e.count + 1 := by
  obtain ⟨e', _, _, h1, h2, h3, -⟩ := ExpDecaySample.update_spec 1028 (by omega) e hs env.now v env.float64
  refine ⟨e', ?_, h2, h3⟩
  rw [callSample, act_bind_getObj, h]
  simp [sampleCall, act_bind, act_lift, act_pure, act_setObj, h1]

theorem call_ready (env : Env F) (w : World F) (r : Ref) (t : StatKind) (c : Call F) (hr : Ready w r t) (hc : t.fits c = true) :
    ∃ w' out, call env r c w = (w', .ok out) ∧ Ready w' r t ∧ statOfMetric w' r = t.bump (statOfMetric w r) c ∧ ∀ x, partOf w' r x ↔ partOf w r x := by
  cases t with
  | gauge =>
    obtain ⟨v, hv⟩ := hr
    cases c with
    | update n =>
      refine ⟨_, _, by rw [call_obj hv]; rfl, ⟨n, by simp [setObj]⟩, by simp [statOfMetric, setObj, StatKind.bump], fun x => by simp [partOf, histSample, hv, setObj]⟩
    | _ => simp [StatKind.fits] at hc
  | gaugeFloat64 =>
    obtain ⟨v, hv⟩ := hr
    cases c with
    | updateF n =>
      refine ⟨_, _, by rw [call_obj hv]; rfl, ⟨n, by simp [setObj]⟩, by simp [statOfMetric, setObj, StatKind.bump], fun x => by simp [partOf, histSample, hv, setObj]⟩
    | _ => simp [StatKind.fits] at hc
  | histogram =>
    obtain ⟨s, e, h1, h2, h3⟩ := hr
    cases c with
    | update n =>
      obtain ⟨e', a1, a2, a3⟩ := callSample_update env w s e h2 h3 n
      have hne : r ≠ s := by rintro rfl; rw [h1] at h2; simp at h2
      refine ⟨_, _, by rw [call_obj h1]; exact a1, ⟨s, e', by simp [Function.update_of_ne hne, h1], by simp, a2⟩, ?_, fun x => ?_⟩
      · simp [statOfMetric, Function.update_of_ne hne, h1, StatKind.bump, h2, a3]
      · simp [partOf, histSample, Function.update_of_ne hne, h1]
    | _ => simp [StatKind.fits] at hc
  | timer =>
    obtain ⟨a, b, s, e, mt, h1, h2, h3, h4, h5⟩ := hr
    cases c with
    | updateSince ts =>
      obtain ⟨e', a1, a2, a3⟩ := callSample_update env w s e h3 h4 (Int64.ofInt (timeSub env.now ts))
      have hrs : r ≠ s := by rintro rfl; rw [h1] at h3; simp at h3
      have hra : r ≠ a := by rintro rfl; rw [h1] at h2; simp at h2
      have hrb : r ≠ b := by rintro rfl; rw [h1] at h5; simp at h5
      have has : a ≠ s := by rintro rfl; rw [h2] at h3; simp at h3
      have hab : a ≠ b := by rintro rfl; rw [h2] at h5; simp at h5
      have hbs : b ≠ s := by rintro rfl; rw [h5] at h3; simp at h3
      have e1 : call env r (.updateSince ts) w = ({ w with objs := Function.update (Function.update w.objs s (some (.sample (.exp e')))) b (some (.meter (.std (mt.mark 1 env.now)))) }, .ok .unit) := by
        rw [call_obj h1]
        show timerCall env r (.std a b) (.updateSince ts) w = _
        have e0 : callHist env a (.update (Int64.ofInt (timeSub env.now ts))) w = callSample env s (.update (Int64.ofInt (timeSub env.now ts))) w := by
          rw [callHist, act_bind_getObj, h2]; rfl
        rw [timerCall, act_bind, e0, a1]
        show callMeter env b (.mark 1) _ = _
        rw [callMeter, act_bind_getObj]
        simp [Function.update_of_ne hbs, h5, meterCall, act_bind, act_lift, act_setObj, act_pure, Meter.mark]
      refine ⟨_, _, e1, ⟨a, b, s, e', mt.mark 1 env.now, ?_, ?_, ?_, a2, by simp⟩, ?_, fun x => ?_⟩
      · simp [Function.update_of_ne hrb, Function.update_of_ne hrs, h1]
      · simp [Function.update_of_ne hab, Function.update_of_ne has, h2]
      · simp [Function.update_of_ne hbs.symm]
      · simp [statOfMetric, Function.update_of_ne hrb, Function.update_of_ne hrs, h1, Function.update_of_ne hab, Function.update_of_ne has, h2, Function.update_of_ne hbs.symm,
          Spec.StatKind.bump, h3, a3]
      · simp [partOf, histSample, Function.update_of_ne hrb, Function.update_of_ne hrs, h1, Function.update_of_ne hab, Function.update_of_ne has, h2]
    | _ => simp [Spec.StatKind.fits] at hc

/-- All fields hold standard metrics without common parts. -/
structure Good (kind : K → StatKind) (w : World F) (m : K → Option Ref) : Prop where
  ok : w.Ok
  ready : ∀ k, ∃ r, m k = some r ∧ Ready w r (kind k)
  apart : ∀ k k', k ≠ k' → ∀ r r', m k = some r → m k' = some r' → ∀ x, partOf w r x → ¬ partOf w r' x

theorem Ready.lt {w : World F} (hw : w.Ok) {r : Ref} {t : StatKind} (h : Ready w r t) (x : Ref) (hx : partOf w r x) : x < w.nextObj := by
  have key : ∀ y o, w.objs y = some o → y < w.nextObj := by
    intro y o h
    by_contra hc
    rw [hw.obj y (by omega)] at h
    simp at h
  cases t with
  | gauge =>
    obtain ⟨v, hv⟩ := h
    simp [partOf, histSample, hv] at hx
    subst hx; exact key _ _ hv
  | gaugeFloat64 =>
    obtain ⟨v, hv⟩ := h
    simp [partOf, histSample, hv] at hx
    subst hx; exact key _ _ hv
  | histogram =>
    obtain ⟨s, e, h1, h2, h3⟩ := h
    simp [partOf, histSample, h1] at hx
    rcases hx with rfl | rfl
    · exact key _ _ h1
    · exact key _ _ h2
  | timer =>
    obtain ⟨a, b, s, e, mt, h1, h2, h3, h4, h5⟩ := h
    simp [partOf, histSample, h1, h2] at hx
    rcases hx with rfl | rfl | rfl | rfl
    · exact key _ _ h1
    · exact key _ _ h2
    · exact key _ _ h5
    · exact key _ _ h3

theorem observe_ready (w : World F) (env : Env F) (r : Ref) (t : StatKind) (h : Ready w r t) : match t with
    | .gauge => observe w env r .value = .ok (.int (statOfMetric w r).1)
    | .gaugeFloat64 => observe w env r .value = .ok (.bits (statOfMetric w r).2)
    | _ => observe w env r .count = .ok (.int (statOfMetric w r).1) := by
  cases t with
  | gauge =>
    obtain ⟨v, hv⟩ := h
    show (call env r .value w).2 = _
    rw [call_obj hv]
    simp [statOfMetric, hv, objCall, gaugeCall, Gauge.value, act_pure]
  | gaugeFloat64 =>
    obtain ⟨v, hv⟩ := h
    show (call env r .value w).2 = _
    rw [call_obj hv]
    simp [statOfMetric, hv, objCall, gaugeFCall, GaugeF.value, act_pure]
  | histogram =>
    obtain ⟨s, e, h1, h2, h3⟩ := h
    show (call env r .count w).2 = _
    rw [call_obj h1]
    show (callSample env s .count w).2 = _
    rw [callSample, act_bind_getObj, h2]
    simp [statOfMetric, h1, h2, sampleCall, act_pure]
  | timer =>
    obtain ⟨a, b, s, e, mt, h1, h2, h3, h4, h5⟩ := h
    show (call env r .count w).2 = _
    rw [call_obj h1]
    show (callHist env a .count w).2 = _
    rw [callHist, act_bind_getObj, h2]
    show (callSample env s .count w).2 = _
    rw [callSample, act_bind_getObj, h3]
    simp [statOfMetric, h1, h2, h3, sampleCall, act_pure]

theorem applyUpdates_spec (kind : K → StatKind) (s : Globals K) (us : List (K × Call F)) (hus : ∀ u ∈ us, (kind u.1).fits u.2 = true) (envs : Nat → Env F)
    (w : World F) (hg : Good kind w s.metrics) :
    ∃ w', applyUpdates s envs us w = (w', .ok ()) ∧ Good kind w' s.metrics ∧ w'.regs = w.regs ∧
      ∀ k r, s.metrics k = some r → statOfMetric w' r = ((us.filterMap fun u => if u.1 = k then some u.2 else none).foldl (kind k).bump (statOfMetric w r)) := by
  induction us generalizing envs w with
  | nil => exact ⟨w, rfl, hg, rfl, fun _ _ _ => rfl⟩
  | cons u us ih =>
    obtain ⟨k, c⟩ := u
    obtain ⟨r, hr, hready⟩ := hg.ready k
    obtain ⟨w1, out, e1, e2, e3, e4⟩ := call_ready (envs 0) w r (kind k) c hready (hus (k, c) (by simp))
    have hobjs := call_objs (envs 0) r c w
    have hregs := call_regs (envs 0) r c w
    have hok := (hg.ok.call (envs 0) r c).1
    rw [e1] at hobjs hregs hok
    have hsame : ∀ k' r', k' ≠ k → s.metrics k' = some r' → ∀ x, partOf w r' x → w1.objs x = w.objs x := by
      intro k' r' hne hr' x hx
      obtain ⟨r'', h1, h2⟩ := hg.ready k'
      obtain rfl : r' = r'' := by rw [hr'] at h1; simpa using h1
      exact hobjs.2 x (h2.lt hg.ok x hx) (hg.apart k' k hne r' r hr' hr x hx)
    have hparts : ∀ k' r', s.metrics k' = some r' → ∀ x, partOf w1 r' x ↔ partOf w r' x := by
      intro k' r' hr' x
      by_cases hk : k' = k
      · subst hk
        obtain rfl : r = r' := by rw [hr] at hr'; simpa using hr'
        exact e4 x
      · exact partOf_same (hsame k' r' hk hr') x
    have hg1 : Good kind w1 s.metrics := by
      refine ⟨hok, fun k' => ?_, fun k1 k2 hne r1 r2 h1 h2 x hx hx' => ?_⟩
      · by_cases hk : k' = k
        · subst hk; exact ⟨r, hr, e2⟩
        · obtain ⟨r', h1, h2⟩ := hg.ready k'
          exact ⟨r', h1, h2.same (hsame k' r' hk h1)⟩
      · exact hg.apart k1 k2 hne r1 r2 h1 h2 x ((hparts k1 r1 h1 x).1 hx) ((hparts k2 r2 h2 x).1 hx')
    obtain ⟨w2, f1, f2, f3, f4⟩ := ih (fun u hu => hus u (by simp [hu])) (fun n => envs (n + 1)) w1 hg1
    refine ⟨w2, ?_, f2, f3.trans hregs.1, fun k' r' hr' => ?_⟩
    · rw [applyUpdates, hr]
      show (call (envs 0) r c >>= fun _ => applyUpdates s (fun n => envs (n + 1)) us) w = _
      rw [act_bind, e1]
      exact f1
    · rw [f4 k' r' hr']
      by_cases hk : k = k'
      · subst hk
        obtain rfl : r = r' := by rw [hr] at hr'; simpa using hr'
        simp [e3]
      · rw [stat_same (hsame k' r' (Ne.symm hk) hr')]
        simp [hk]

end GoMetrics
