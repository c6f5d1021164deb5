import Verif.Lemmas.Registry
import Verif.Lemmas.WorldSim
import Verif.Lemmas.WorldEffect

/-! What `GetAll` reads (C56). -/

set_option linter.unusedSimpArgs false
set_option linter.unnecessarySeqFocus false
set_option linter.unusedSectionVars false
set_option linter.unnecessarySimpa false

namespace GoMetrics
open Spec

variable {F : Type} [GoFloat F] [GoSqrt F] [GoExp F]

theorem bind_ok {α β : Type} {x : Act F α} {f : α → Act F β} {w w' : World F} {b : β} (h : (x >>= f) w = (w', .ok b)) :
    ∃ w1 a, x w = (w1, .ok a) ∧ f a w1 = (w', .ok b) := by
  rw [act_bind] at h
  generalize x w = y at *
  obtain ⟨w1, a⟩ := y
  cases a with
  | error p => simp at h
  | ok a => exact ⟨w1, a, rfl, h⟩

/-! ### Statistics -/

def readStat (v : Option (List Int64)) (c : StatCall F) : Res (Out F) :=
  match v with
  | none => .ok (nilStat c)
  | some l => statOf l c

theorem sampleRef_stat {w : World F} {s : Ref} (h : HasTy w s .sample) (c : StatCall F) :
    sampleRef w s (.stat c) = readStat (sampleRecorded w s) c := by
  obtain ⟨o, ho, ht⟩ := h
  cases o <;> simp [Obj.ty] at ht
  rename_i x
  simp only [sampleRef, sampleRecorded, ho]
  cases x <;> rfl

theorem histRef_stat {w : World F} (hw : w.Ok) {s : Ref} (h : HasTy w s .hist) (c : StatCall F) :
    histRef w s (.stat c) = readStat (histRecorded w s) c := by
  obtain ⟨o, ho, ht⟩ := h
  cases o <;> simp [Obj.ty] at ht
  rename_i x
  have hx := hw.refs s _ ho
  simp only [histRef, histRecorded, ho]
  cases x with
  | std q => exact sampleRef_stat hx c
  | snap q =>
    obtain ⟨n, a, e⟩ := hx
    exact sampleRef_stat ⟨_, e, rfl⟩ c
  | nil => rfl

theorem observe_stat {w : World F} (hw : w.Ok) {env : Env F} {r : Ref} (h : HasTy w r .hist ∨ HasTy w r .timer) (c : StatCall F) :
    observe w env r (.stat c) = readStat (recorded w r) c := by
  rcases h with h | h
  · have e := histRef_stat hw h c
    obtain ⟨o, ho, ht⟩ := h
    cases o <;> simp [Obj.ty] at ht
    rw [read_obj ho _ rfl]
    simp only [histRef, ho] at e
    simp only [recorded, ho]
    exact e
  · obtain ⟨o, ho, ht⟩ := h
    cases o <;> simp [Obj.ty] at ht
    rename_i x
    rw [read_obj ho _ rfl]
    have hx := hw.refs r _ ho
    simp only [recorded, ho, objVal]
    cases x with
    | std a b => exact histRef_stat hw hx.1 c
    | snap a b =>
      obtain ⟨⟨n, e⟩, -⟩ := hx
      exact histRef_stat hw ⟨_, e, rfl⟩ c
    | nil => simp [timerVal, histRecorded, ho, readStat]

/-- The statistics of a batch are the single ones. -/
theorem percentiles_single {l : List Int64} {ps : List F} {ss ws : _} (h : samplePercentiles l ps = .ok (ss, ws)) (i : Nat) (p : F)
    (hp : ps[i]? = some p) : ∃ s, ss[i]? = some s ∧ ∃ ws, samplePercentile l p = .ok (s, ws) := by
  unfold samplePercentiles at h
  split_ifs at h with h0
  · have key : ∀ (ps : List F) (ss : List F), ps.mapM (percentileSorted (sortInts l)) = .ok ss → ∀ (i : Nat) p, ps[i]? = some p →
        ∃ s, ss[i]? = some s ∧ percentileSorted (sortInts l) p = .ok s := by
      intro ps
      induction ps with
      | nil => intro ss _ i p hp; simp at hp
      | cons q ps ih =>
        intro ss hs i p hp
        rw [List.mapM_cons] at hs
        cases hq : percentileSorted (sortInts l) q with
        | error e => rw [hq] at hs; simp [bind, Except.bind] at hs
        | ok s =>
          rw [hq] at hs
          cases hr : ps.mapM (percentileSorted (sortInts l)) with
          | error e => rw [hr] at hs; simp [bind, Except.bind] at hs
          | ok ss' =>
            rw [hr] at hs
            simp [bind, Except.bind, pure, Except.pure] at hs
            subst hs
            cases i with
            | zero =>
              simp at hp; subst hp
              exact ⟨s, by simp, hq⟩
            | succ i => simpa using ih ss' hr i p (by simpa using hp)
    dsimp only at h
    cases hm : ps.mapM (percentileSorted (sortInts l)) with
    | error e => rw [hm] at h; simp [bind, Except.bind] at h
    | ok ss' =>
      rw [hm] at h
      simp [bind, Except.bind, pure, Except.pure] at h
      obtain ⟨rfl, rfl⟩ := h
      obtain ⟨s, h1, h2⟩ := key ps ss' hm i p hp
      refine ⟨s, h1, sortInts l, ?_⟩
      rw [samplePercentile_nonempty l p h0, h2]
      rfl
  · simp only [pure, Except.pure, Except.ok.injEq, Prod.mk.injEq] at h
    obtain ⟨rfl, rfl⟩ := h
    have : l = [] := List.eq_nil_of_length_eq_zero (by omega)
    subst this
    refine ⟨GoFloat.lit 0, ?_, [], samplePercentile_empty p⟩
    rw [List.getElem?_map, hp]; rfl

theorem readStat_percentiles {v : Option (List Int64)} {ps : List F} {o : Out F} (h : readStat v (.percentiles ps) = .ok o) :
    ∃ ss, o = .floats ss ∧ ∀ (i : Nat) p, ps[i]? = some p → ∃ s, ss[i]? = some s ∧ readStat v (.percentile p) = .ok (.float s) := by
  cases v with
  | none =>
    simp only [readStat, nilStat, Except.ok.injEq] at h
    subst h
    refine ⟨_, rfl, fun i p hp => ⟨GoFloat.lit 0, by rw [List.getElem?_map, hp]; rfl, rfl⟩⟩
  | some l =>
    simp only [readStat, statOf] at h
    cases hs : samplePercentiles l ps with
    | error e => rw [hs] at h; simp [bind, Except.bind] at h
    | ok x =>
      obtain ⟨ss, ws⟩ := x
      rw [hs] at h
      simp [bind, Except.bind, pure, Except.pure] at h
      subst h
      refine ⟨ss, rfl, fun i p hp => ?_⟩
      obtain ⟨s, h1, ws', h2⟩ := percentiles_single hs i p hp
      refine ⟨s, h1, ?_⟩
      simp only [readStat, statOf, h2]
      rfl

/-! ### The states `GetAll` goes through -/

/-- The same object up to the values of a uniform sample and the state of a healthcheck. -/
def SameShape (o o' : Obj F) : Prop :=
  o' = o ∨ (∃ s s', o = .sample (.uniform s) ∧ o' = .sample (.uniform s')) ∨ ∃ x x', o = .health x ∧ o' = .health x'

/-- From `w` to `w'` healthchecks may have been checked, samples reordered and objects added. -/
structure Seen (env : Env F) (w w' : World F) : Prop where
  ok : w'.Ok
  regs : w'.regs = w.regs
  health : ∀ r x, w.objs r = some (.health x) → w'.objs r = some (.health x) ∨ w'.objs r = some (.health (x.check env.checkFn))
  other : ∀ r o, w.objs r = some o → o.ty ≠ .health →
    HasTy w' r o.ty ∧ (∀ c, ReadOK c → observe w' env r c = observe w env r c) ∧ Option.Rel List.Perm (recorded w' r) (recorded w r)
  shape : ∀ r o, w.objs r = some o → ∃ o', w'.objs r = some o' ∧ SameShape o o'

theorem check_check (f : Nat → List Verdict) (x : Health) : (x.check f).check f = x.check f := by
  cases x with
  | nil => rfl
  | std e n =>
    have key : ∀ (l : List Verdict) (e e' : GoError), ∃ e'', (l.foldl Health.verdict (.std e n)) = .std e'' n ∧
        (e'' = e ∧ l = [] ∨ l.foldl Health.verdict (.std e' n) = .std e'' n) := by
      intro l
      induction l with
      | nil => intro e e'; exact ⟨e, rfl, .inl ⟨rfl, rfl⟩⟩
      | cons v l ih =>
        intro e e'
        cases v with
        | healthy =>
          obtain ⟨e'', h1, h2⟩ := ih none none
          refine ⟨e'', h1, .inr h1⟩
        | unhealthy d =>
          obtain ⟨e'', h1, h2⟩ := ih d d
          exact ⟨e'', h1, .inr h1⟩
    show Health.check f ((f n).foldl Health.verdict (.std e n)) = (f n).foldl Health.verdict (.std e n)
    obtain ⟨e1, h1, -⟩ := key (f n) e e
    rw [h1]
    show (f n).foldl Health.verdict (.std e1 n) = .std e1 n
    obtain ⟨e2, h2, h3 | h3⟩ := key (f n) e e1
    · rw [h3.2]; rfl
    · rw [h3]
      rw [h1] at h2
      exact h2.symm

theorem optRel_perm_refl (v : Option (List Int64)) : Option.Rel List.Perm v v := by
  cases v with
  | none => exact .none
  | some l => exact .some (.refl l)
theorem optRel_perm_trans {a b c : Option (List Int64)} (h : Option.Rel List.Perm a b) (h' : Option.Rel List.Perm b c) : Option.Rel List.Perm a c := by
  cases h with
  | none => exact h'
  | some h => cases h' with
    | some h' => exact .some (h.trans h')

theorem Seen.refl (env : Env F) {w : World F} (hw : w.Ok) : Seen env w w :=
  ⟨hw, rfl, fun _ _ h => .inl h, fun _ _ h _ => ⟨⟨_, h, rfl⟩, fun _ _ => rfl, optRel_perm_refl _⟩, fun _ _ h => ⟨_, h, .inl rfl⟩⟩

theorem Seen.trans {env : Env F} {w w' w'' : World F} (h : Seen env w w') (h' : Seen env w' w'') : Seen env w w'' := by
  refine ⟨h'.ok, h'.regs.trans h.regs, fun r x hr => ?_, fun r o hr ho => ?_, fun r o hr => ?_⟩
  · rcases h.health r x hr with h1 | h1
    · exact h'.health r x h1
    · right
      rcases h'.health r _ h1 with h2 | h2
      · exact h2
      · rw [check_check] at h2; exact h2
  · obtain ⟨⟨o', h1, h2⟩, h3, h4⟩ := h.other r o hr ho
    obtain ⟨h5, h6, h7⟩ := h'.other r o' h1 (h2 ▸ ho)
    exact ⟨h2 ▸ h5, fun c hc => (h6 c hc).trans (h3 c hc), optRel_perm_trans h7 h4⟩
  · obtain ⟨o1, h1, s1⟩ := h.shape r o hr
    obtain ⟨o2, h2, s2⟩ := h'.shape r o1 h1
    refine ⟨o2, h2, ?_⟩
    rcases s1 with rfl | ⟨a, b, rfl, rfl⟩ | ⟨a, b, rfl, rfl⟩
    · exact s2
    · rcases s2 with rfl | ⟨c, d, -, rfl⟩ | ⟨c, d, h3, -⟩
      · exact .inr (.inl ⟨_, _, rfl, rfl⟩)
      · exact .inr (.inl ⟨_, _, rfl, rfl⟩)
      · simp at h3
    · rcases s2 with rfl | ⟨c, d, h3, -⟩ | ⟨c, d, -, rfl⟩
      · exact .inr (.inr ⟨_, _, rfl, rfl⟩)
      · simp at h3
      · exact .inr (.inr ⟨_, _, rfl, rfl⟩)

theorem ext_sampleRecorded {w w' : World F} (hx : Ext w w') (h : w.Ok) {r : Ref} {o : Obj F} (hr : w.objs r = some o) :
    sampleRecorded w' r = sampleRecorded w r := by
  simp only [sampleRecorded, hx.keep h hr, hr]
  cases o with
  | sample x =>
    cases x with
    | snap n a =>
      have : a < w.nextArr := h.refs r _ hr
      simp [(hx.arrs a this).1]
    | _ => rfl
  | _ => rfl

theorem ext_histRecorded {w w' : World F} (hx : Ext w w') (h : w.Ok) {r : Ref} {o : Obj F} (hr : w.objs r = some o) :
    histRecorded w' r = histRecorded w r := by
  simp only [histRecorded, hx.keep h hr, hr]
  have hs := h.refs r _ hr
  cases o with
  | hist x =>
    cases x with
    | std s => obtain ⟨o', ho', -⟩ := hs; exact ext_sampleRecorded hx h ho'
    | snap s => obtain ⟨n, a, e⟩ := hs; exact ext_sampleRecorded hx h e
    | nil => rfl
  | _ => rfl

theorem ext_recorded {w w' : World F} (hx : Ext w w') (h : w.Ok) {r : Ref} {o : Obj F} (hr : w.objs r = some o) :
    recorded w' r = recorded w r := by
  have hh := ext_histRecorded hx h hr
  simp only [recorded, hx.keep h hr, hr]
  have hs := h.refs r _ hr
  cases o with
  | timer x =>
    cases x with
    | std a b => obtain ⟨⟨o', ho', -⟩, -⟩ := hs; exact ext_histRecorded hx h ho'
    | snap a b => obtain ⟨⟨n, e⟩, -⟩ := hs; exact ext_histRecorded hx h e
    | nil => exact hh
  | _ => exact hh

theorem Ext.seen {w w' : World F} (hx : Ext w w') (h : w.Ok) (h' : w'.Ok) (env : Env F) : Seen env w w' :=
  ⟨h', hx.regs, fun _ _ hr => .inl (hx.keep h hr), fun _ _ hr _ =>
    ⟨⟨_, hx.keep h hr, rfl⟩, fun c hc => hx.observe h hr env c hc.1, by rw [ext_recorded hx h hr]; exact optRel_perm_refl _⟩,
    fun _ _ hr => ⟨_, hx.keep h hr, .inl rfl⟩⟩

theorem sim_sampleRecorded {w w' : World F} (h : Sim w w') (r : Ref) : Option.Rel List.Perm (sampleRecorded w' r) (sampleRecorded w r) := by
  unfold sampleRecorded
  rcases h.objs r with e | ⟨s, s', e1, e2, e3, e4, e5⟩
  · rw [e]
    rcases w.objs r with _ | o
    · exact .none
    · cases o with
      | sample x => cases x <;> first | exact .none | exact .some (.refl _) | exact .some (h.arrs _)
      | _ => exact .none
  · rw [e1, e2]; exact .some e5

theorem sim_histRecorded {w w' : World F} (h : Sim w w') (r : Ref) : Option.Rel List.Perm (histRecorded w' r) (histRecorded w r) := by
  unfold histRecorded
  rcases h.objs r with e | ⟨s, s', e1, e2, -⟩
  · rw [e]
    rcases w.objs r with _ | o
    · exact .none
    · cases o with
      | hist x => cases x <;> first | exact .none | exact sim_sampleRecorded h _
      | _ => exact .none
  · rw [e1, e2]; exact .none

theorem sim_recorded {w w' : World F} (h : Sim w w') (r : Ref) : Option.Rel List.Perm (recorded w' r) (recorded w r) := by
  have hh := sim_histRecorded h r
  unfold recorded
  rcases h.objs r with e | ⟨s, s', e1, e2, -⟩
  · rw [e]
    rcases w.objs r with _ | o
    · exact hh
    · cases o with
      | timer x => cases x <;> first | exact hh | exact sim_histRecorded h _
      | _ => exact hh
  · rw [e1, e2]; exact hh

theorem Sim.seen {w w' : World F} (h : Sim w w') (h' : w'.Ok) (env : Env F) : Seen env w w' := by
  refine ⟨h', h.regs, fun r x hr => ?_, fun r o hr _ => ⟨?_, fun c hc => h.observe env r c hc, sim_recorded h r⟩, fun r o hr => ?_⟩
  · rcases h.objs r with e | ⟨s, s', e1, -⟩
    · exact .inl (e.trans hr)
    · rw [hr] at e1; simp at e1
  · rcases h.objs r with e | ⟨s, s', e1, e2, -⟩
    · exact ⟨o, e.trans hr, rfl⟩
    · rw [hr] at e1
      obtain rfl : o = .sample (.uniform s) := by simpa using e1
      exact ⟨_, e2, rfl⟩
  · rcases h.objs r with e | ⟨s, s', e1, e2, -⟩
    · exact ⟨o, e.trans hr, .inl rfl⟩
    · rw [hr] at e1
      obtain rfl : o = .sample (.uniform s) := by simpa using e1
      exact ⟨_, e2, .inr (.inl ⟨_, _, rfl, rfl⟩)⟩

/-- `Check()` of one healthcheck. -/
theorem check_seen {w : World F} (hw : w.Ok) (env : Env F) {r : Ref} {x : Health} (hr : w.objs r = some (.health x)) :
    call env r .check w = ({ w with objs := Function.update w.objs r (some (.health (x.check env.checkFn))) }, .ok .unit) ∧
    Seen env w { w with objs := Function.update w.objs r (some (.health (x.check env.checkFn))) } := by
  have hc : call env r .check w = ({ w with objs := Function.update w.objs r (some (.health (x.check env.checkFn))) }, .ok .unit) := by
    rw [call_obj hr]; rfl
  refine ⟨hc, ?_⟩
  have hok := (hw.call env r .check).1
  rw [hc] at hok
  generalize hw' : ({ w with objs := Function.update w.objs r (some (.health (x.check env.checkFn))) } : World F) = w' at *
  have h1 : ∀ y, y ≠ r → w'.objs y = w.objs y := fun y hy => by rw [← hw']; exact Function.update_of_ne hy ..
  have h2 : w'.objs r = some (.health (x.check env.checkFn)) := by rw [← hw']; exact Function.update_self ..
  have ha : w'.arrs = w.arrs := by rw [← hw']
  have hv : ∀ (s : SampleV F), sampleVals w' s = sampleVals w s := by intro s; cases s <;> simp [sampleVals, ha]
  have hs : ∀ s c, sampleRef w' s c = sampleRef w s c := by
    intro s c
    unfold sampleRef
    rcases eq_or_ne s r with rfl | hne
    · rw [h2, hr]
    · rw [h1 s hne]
      rcases w.objs s with _ | o
      · rfl
      · cases o with
        | sample y => cases c <;> cases y <;> simp [sampleVal, hv]
        | _ => rfl
  have hh : ∀ s c, histRef w' s c = histRef w s c := by
    intro s c
    unfold histRef
    rcases eq_or_ne s r with rfl | hne
    · rw [h2, hr]
    · rw [h1 s hne]
      rcases w.objs s with _ | o
      · rfl
      · cases o with
        | hist y => cases c <;> cases y <;> simp [histVal, hs]
        | _ => rfl
  have hm : ∀ s c, meterRef w' s c = meterRef w s c := by
    intro s c
    unfold meterRef
    rcases eq_or_ne s r with rfl | hne
    · rw [h2, hr]
    · rw [h1 s hne]
  have hsr : ∀ s, sampleRecorded w' s = sampleRecorded w s := by
    intro s
    unfold sampleRecorded
    rcases eq_or_ne s r with rfl | hne
    · rw [h2, hr]
    · rw [h1 s hne, ha]
  have hhr : ∀ s, histRecorded w' s = histRecorded w s := by
    intro s
    unfold histRecorded
    rcases eq_or_ne s r with rfl | hne
    · rw [h2, hr]
    · rw [h1 s hne]
      simp only [hsr]
  refine ⟨hok, by rw [← hw'], fun q y hq => ?_, fun q o hq ho => ?_, fun q o hq => ?_⟩
  · rcases eq_or_ne q r with rfl | hne
    · rw [hr] at hq
      simp at hq
      subst hq
      exact .inr h2
    · exact .inl ((h1 q hne).trans hq)
  · have hne : q ≠ r := by
      rintro rfl
      rw [hr] at hq
      simp at hq
      subst hq
      exact ho rfl
    have hq' := (h1 q hne).trans hq
    refine ⟨⟨o, hq', rfl⟩, fun c hc => ?_, ?_⟩
    · rw [read_obj hq c hc.1, read_obj hq' c hc.1]
      cases o with
      | sample y => cases c <;> cases y <;> simp [objVal, sampleVal, hv]
      | hist y => cases c <;> cases y <;> simp [objVal, histVal, hs]
      | timer y => cases c <;> cases y <;> simp [objVal, timerVal, hh, hm]
      | _ => cases c <;> rfl
    · have : recorded w' q = recorded w q := by
        unfold recorded
        rw [hq', hq]
        simp only [hhr]
      rw [this]
      exact optRel_perm_refl _
  · rcases eq_or_ne q r with rfl | hne
    · rw [hr] at hq
      simp at hq
      subst hq
      exact ⟨_, h2, .inr (.inr ⟨_, _, rfl, rfl⟩)⟩
    · exact ⟨o, (h1 q hne).trans hq, .inl rfl⟩

/-! ### The fields -/

/-- Accessors other than percentiles change nothing. -/
theorem call_same {w : World F} {env : Env F} {r : Ref} {c : Call F} (hc : accessor c = true) (hs : ∀ s, c = .stat s → s.sorts = false) :
    (call env r c w).1 = w := by
  have hsa : ∀ q, (callSample env q c w).1 = w := by
    intro q
    rw [callSample, act_bind_getObj]
    rcases w.objs q with _ | o
    · rfl
    · cases o with
      | sample x =>
        cases c <;> simp [accessor] at hc <;> cases x <;> first | rfl | simp [sampleCall, hs _ rfl, act_bind, act_lift, act_pure, act_getArr]
      | _ => rfl
  have hhi : ∀ q, (callHist env q c w).1 = w := by
    intro q
    rw [callHist, act_bind_getObj]
    rcases w.objs q with _ | o
    · rfl
    · cases o with
      | hist x => cases c <;> simp [accessor] at hc <;> cases x <;> first | rfl | exact hsa _
      | _ => rfl
  have hme : ∀ q, (callMeter env q c w).1 = w := by
    intro q
    rw [callMeter, act_bind_getObj]
    rcases w.objs q with _ | o
    · rfl
    · cases o with
      | meter x => cases c <;> simp [accessor] at hc <;> cases x <;> rfl
      | _ => rfl
  rcases hr : w.objs r with _ | o
  · rw [call, act_bind_getObj, hr]; rfl
  · have hsa' := hsa r
    have hhi' := hhi r
    rw [callSample, act_bind_getObj, hr] at hsa'
    rw [callHist, act_bind_getObj, hr] at hhi'
    rw [call_obj hr]
    cases o with
    | sample x => exact hsa'
    | hist x => exact hhi'
    | timer x => cases c <;> simp [accessor] at hc <;> cases x <;> first | rfl | exact hhi _ | exact hme _
    | _ => cases c <;> simp [accessor] at hc <;> rfl

theorem setField_ok {env : Env F} {k : String} {r : Ref} {c : Call F} {w w' : World F} {kf : String × GoMetrics.Field F}
    (hc : accessor c = true) (hs : ∀ s, c = .stat s → s.sorts = false) (h : setField env k r c w = (w', .ok kf)) :
    w = w' ∧ ∃ o, observe w env r c = .ok o ∧ kf = (k, o.field) := by
  obtain ⟨w1, o, h1, h2⟩ := bind_ok h
  have := call_same hc hs (w := w) (env := env) (r := r)
  rw [h1] at this
  simp only [act_pure, Prod.mk.injEq, Except.ok.injEq] at h2
  obtain ⟨rfl, rfl⟩ := h2
  exact ⟨this.symm, o, by rw [observe, h1], rfl⟩

theorem sampleRef_count {w : World F} {s : Ref} (h : HasTy w s .sample) : ∃ n, sampleRef w s .count = .ok (.int n) := by
  obtain ⟨o, ho, ht⟩ := h
  cases o <;> simp [Obj.ty] at ht
  rename_i x
  simp only [sampleRef, ho]
  cases x <;> exact ⟨_, rfl⟩

theorem histRef_count {w : World F} (hw : w.Ok) {s : Ref} (h : HasTy w s .hist) : ∃ n, histRef w s .count = .ok (.int n) := by
  obtain ⟨o, ho, ht⟩ := h
  cases o <;> simp [Obj.ty] at ht
  rename_i x
  have hx := hw.refs s _ ho
  simp only [histRef, ho]
  cases x with
  | std q => exact sampleRef_count hx
  | snap q =>
    obtain ⟨n, a, e⟩ := hx
    exact sampleRef_count ⟨_, e, rfl⟩
  | nil => exact ⟨_, rfl⟩

theorem observe_count {w : World F} (hw : w.Ok) {env : Env F} {r : Ref} (h : HasTy w r .hist ∨ HasTy w r .timer ∨ HasTy w r .meter) :
    ∃ n, observe w env r .count = .ok (.int n) := by
  rcases h with h | h | h
  · have e := histRef_count hw h
    obtain ⟨o, ho, ht⟩ := h
    cases o <;> simp [Obj.ty] at ht
    rw [read_obj ho _ rfl]
    simp only [histRef, ho] at e
    exact e
  · obtain ⟨o, ho, ht⟩ := h
    cases o <;> simp [Obj.ty] at ht
    rename_i x
    rw [read_obj ho _ rfl]
    have hx := hw.refs r _ ho
    cases x with
    | std a b => exact histRef_count hw hx.1
    | snap a b =>
      obtain ⟨⟨n, e⟩, -⟩ := hx
      exact histRef_count hw ⟨_, e, rfl⟩
    | nil => exact ⟨_, rfl⟩
  · obtain ⟨o, ho, ht⟩ := h
    cases o <;> simp [Obj.ty] at ht
    rw [read_obj ho _ rfl]
    exact ⟨_, rfl⟩

theorem meterRef_rates {w : World F} {s : Ref} (h : HasTy w s .meter) (c) : ∃ x, meterRef w s (.rates c) = .ok (.float x) := by
  obtain ⟨o, ho, ht⟩ := h
  cases o <;> simp [Obj.ty] at ht
  simp only [meterRef, ho]
  exact ⟨_, rfl⟩

theorem observe_rates {w : World F} (hw : w.Ok) {env : Env F} {r : Ref} (h : HasTy w r .timer ∨ HasTy w r .meter) (c) :
    ∃ n, observe w env r (.rates c) = .ok (.float n) := by
  rcases h with h | h
  · obtain ⟨o, ho, ht⟩ := h
    cases o <;> simp [Obj.ty] at ht
    rename_i x
    rw [read_obj ho _ rfl]
    have hx := hw.refs r _ ho
    cases x with
    | std a b => exact meterRef_rates hx.2 c
    | snap a b =>
      obtain ⟨-, n, e⟩ := hx
      exact meterRef_rates ⟨_, e, rfl⟩ c
    | nil => exact ⟨_, rfl⟩
  · obtain ⟨o, ho, ht⟩ := h
    cases o <;> simp [Obj.ty] at ht
    rw [read_obj ho _ rfl]
    exact ⟨_, rfl⟩

/-- Percentile reads sort a snapshot. -/
theorem frozenSample_sorts {w : World F} {env : Env F} {q : Ref} (h : FrozenSample False w q) (ps : List F) :
    sampleRecorded (callSample env q (.stat (.percentiles ps)) w).1 q = (sampleRecorded w q).map sortInts ∧
    (callSample env q (.stat (.percentiles ps)) w).1.objs = w.objs := by
  rcases h with ⟨n, a, h, -, -⟩ | h
  · rw [callSample, act_bind_getObj, h]
    simp only [sampleCall, StatCall.sorts, sampleRecorded]
    constructor
    · rw [h]
      show (match w.objs q with | some (.sample (.uniform u)) => some u.values | some (.sample (.exp e)) => some e.vals | some (.sample (.snap _ a')) => some (Function.update w.arrs a (sortInts (w.arrs a)) a') | _ => none) = _
      rw [h]
      simp
    · rfl
  · rw [callSample, act_bind_getObj, h]
    constructor
    · show sampleRecorded w q = _
      simp [sampleRecorded, h]
    · rfl

theorem frozenHist_sorts {w : World F} {env : Env F} {q : Ref} (h : FrozenHist False w q) (ps : List F) :
    histRecorded (callHist env q (.stat (.percentiles ps)) w).1 q = (histRecorded w q).map sortInts ∧
    (callHist env q (.stat (.percentiles ps)) w).1.objs = w.objs := by
  rcases h with ⟨s, h, hs⟩ | h
  · rw [callHist, act_bind_getObj, h]
    obtain ⟨h1, h2⟩ := frozenSample_sorts (env := env) hs ps
    refine ⟨?_, h2⟩
    show histRecorded (callSample env s (.stat (.percentiles ps)) w).1 q = _
    unfold histRecorded
    rw [h2, h]
    exact h1
  · rw [callHist, act_bind_getObj, h]
    constructor
    · show histRecorded w q = _
      simp [histRecorded, h]
    · rfl

theorem frozen_sorts {w : World F} {env : Env F} {q : Ref} (h : FrozenHist False w q ∨ FrozenTimer False w q) (ps : List F) :
    recorded (call env q (.stat (.percentiles ps)) w).1 q = (recorded w q).map sortInts := by
  rcases h with h | h
  · obtain ⟨h1, h2⟩ := frozenHist_sorts (env := env) h ps
    obtain ⟨x, hx⟩ : ∃ x, w.objs q = some (.hist x) := by rcases h with ⟨s, h, -⟩ | h <;> exact ⟨_, h⟩
    have e : call env q (.stat (.percentiles ps)) w = callHist env q (.stat (.percentiles ps)) w := by
      rw [call_obj hx, callHist, act_bind_getObj, hx]; rfl
    rw [e]
    unfold recorded
    rw [h2, hx]
    exact h1
  · rcases h with ⟨a, b, h, ha, -⟩ | h
    · obtain ⟨h1, h2⟩ := frozenHist_sorts (env := env) ha ps
      have e : call env q (.stat (.percentiles ps)) w = callHist env a (.stat (.percentiles ps)) w := by
        rw [call_obj h]; rfl
      rw [e]
      unfold recorded
      rw [h2, h]
      exact h1
    · rw [call_obj h]
      show recorded w q = _
      simp [recorded, histRecorded, h]

/-- A field shows what the accessor it is named after returns in the state `w` for the object `r` (the standard deviation apart). -/
def Shown (w : World F) (env : Env F) (r : Ref) (kc : String × Call F) (kf : String × GoMetrics.Field F) : Prop :=
  kf.1 = kc.1 ∧ (kc.2 = .stat .stdDev → kf.2 = .float (sortedDev (recorded w r))) ∧
    (kc.2 ≠ .stat .stdDev → orderFree kc.2 = true ∧ shows (observe (checked env w r) env r kc.2) kf.2)

theorem checked_of_not_health {w : World F} {env : Env F} {r : Ref} {o : Obj F} (h : w.objs r = some o) (ho : o.ty ≠ .health) : checked env w r = w := by
  unfold checked
  rw [h]
  cases o <;> first | rfl | exact absurd rfl ho

theorem shown_of_field {w : World F} {env : Env F} {r : Ref} {o : Obj F} (h : w.objs r = some o) (ho : o.ty ≠ .health) {k : String} {c : Call F}
    {f : GoMetrics.Field F} (hc : orderFree c = true) (hs : shows (observe w env r c) f) : Shown w env r (k, c) (k, f) := by
  refine ⟨rfl, ?_, fun _ => ⟨hc, by rw [checked_of_not_health h ho]; exact hs⟩⟩
  rintro rfl
  simp [orderFree] at hc

theorem sortedDev_perm {a b : Option (List Int64)} (h : Option.Rel List.Perm a b) : (sortedDev a : F) = sortedDev b := by
  cases h with
  | none => rfl
  | some h => simp [sortedDev, sortInts_eq_of_perm h]

theorem Seen.shown {env : Env F} {w w' : World F} (h : Seen env w w') {r : Ref} {o : Obj F} (hr : w.objs r = some o) {kc : String × Call F}
    {kf : String × GoMetrics.Field F} (hs : Shown w' env r kc kf) : Shown w env r kc kf := by
  obtain ⟨h1, h2, h3⟩ := hs
  by_cases ho : o.ty = .health
  · cases o <;> simp [Obj.ty] at ho
    rename_i x
    have hrec : ∀ (w : World F) (y : Health), w.objs r = some (.health y) → recorded w r = none := by
      intro w y hy
      simp [recorded, histRecorded, hy]
    refine ⟨h1, fun e => ?_, fun e => ⟨(h3 e).1, ?_⟩⟩
    · rcases h.health r x hr with h5 | h5 <;> rw [h2 e, hrec _ _ h5, hrec _ _ hr]
    · have h4 := (h3 e).2
      have hc := orderFree_accessor (h3 e).1
      have val : ∀ (w : World F) (y : Health), w.objs r = some (.health y) →
          observe (checked env w r) env r kc.2 = objVal w env (.health (y.check env.checkFn)) kc.2 := by
        intro w y hy
        unfold checked
        rw [hy]
        simp only
        rw [call_obj hy]
        show observe { w with objs := Function.update w.objs r (some (.health (y.check env.checkFn))) } env r kc.2 = _
        rw [read_obj (Function.update_self ..) _ hc]
        cases kc.2 <;> rfl
      rw [val w x hr]
      have hv : ∀ (w1 w2 : World F) (y : Health), objVal w1 env (.health y) kc.2 = objVal w2 env (.health y) kc.2 := by
        intro w1 w2 y
        cases kc.2 <;> rfl
      rcases h.health r x hr with h5 | h5
      · rw [val w' _ h5, hv w' w] at h4
        exact h4
      · rw [val w' _ h5, check_check, hv w' w] at h4
        exact h4
  · obtain ⟨⟨o', ho', ht⟩, h5, h6⟩ := h.other r o hr ho
    refine ⟨h1, fun e => ?_, fun e => ⟨(h3 e).1, ?_⟩⟩
    · rw [h2 e, sortedDev_perm h6]
    · have h4 := (h3 e).2
      rw [checked_of_not_health ho' (by rw [ht]; exact ho), h5 _ (readOK_orderFree (h3 e).1)] at h4
      rw [checked_of_not_health hr ho]
      exact h4

theorem forall2_mono {α β : Type} {R S : α → β → Prop} {l : List α} {m : List β} (h : ∀ a b, R a b → S a b) (hl : List.Forall₂ R l m) : List.Forall₂ S l m :=
  List.Forall₂.imp h hl

theorem at_ok {ss : List F} {i : Nat} {w w' : World F} {f : GoMetrics.Field F} (h : (Act.lift ((Out.floats ss).at i) : Act F _) w = (w', .ok f)) :
    w = w' ∧ ∃ s, ss[i]? = some s ∧ f = .float s := by
  simp only [act_lift, Prod.mk.injEq] at h
  obtain ⟨rfl, h⟩ := h
  refine ⟨rfl, ?_⟩
  unfold Out.at at h
  rcases hs : ss[i]? with _ | s
  · simp [hs] at h
  · simp [hs] at h
    exact ⟨s, rfl, h.symm⟩

/-- The fields of a snapshot of a histogram, and of the histogram part of a timer. -/
theorem histFields_ok {env : Env F} {q : Ref} {w w' : World F} {vs : List (String × GoMetrics.Field F)} (hw : w.Ok)
    (hq : FrozenHist False w q ∨ FrozenTimer False w q) (h : histFields env q w = (w', .ok vs)) :
    Sim w w' ∧ w'.Ok ∧ List.Forall₂ (Shown w env q) fieldsOf.distribution vs := by
  have hty : HasTy w q .hist ∨ HasTy w q .timer := by
    rcases hq with (⟨_, h, -⟩ | h) | ⟨_, _, h, -⟩ | h
    · exact .inl ⟨_, h, rfl⟩
    · exact .inl ⟨_, h, rfl⟩
    · exact .inr ⟨_, h, rfl⟩
    · exact .inr ⟨_, h, rfl⟩
  obtain ⟨o, ho, hne⟩ : ∃ o, w.objs q = some o ∧ o.ty ≠ .health := by
    rcases hty with ⟨o, h, e⟩ | ⟨o, h, e⟩ <;> exact ⟨o, h, by rw [e]; simp⟩
  obtain ⟨w1, ps, h0, h⟩ := bind_ok h
  have hsort := frozen_sorts (env := env) hq (getAllPercentiles : List F)
  have hsim := sim_call w env q (.stat (.percentiles getAllPercentiles)) rfl
  have hok := (hw.call env q (.stat (.percentiles getAllPercentiles))).1
  have hps : observe w env q (.stat (.percentiles getAllPercentiles)) = .ok ps := by rw [observe, h0]
  rw [h0] at hsort hsim hok
  simp only at hsort hsim hok
  rw [observe_stat hw hty] at hps
  obtain ⟨ss, rfl, hss⟩ := readStat_percentiles hps
  have hty1 : HasTy w1 q .hist ∨ HasTy w1 q .timer := by
    obtain ⟨⟨o', h1, h2⟩, -⟩ := (hsim.seen hok env).other q o ho hne
    rcases hty with ⟨o'', h, e⟩ | ⟨o'', h, e⟩
    · rw [ho] at h; simp at h; subst h; exact .inl ⟨o', h1, h2.trans e⟩
    · rw [ho] at h; simp at h; subst h; exact .inr ⟨o', h1, h2.trans e⟩
  obtain ⟨_, kf1, g1, h⟩ := bind_ok h
  obtain ⟨rfl, o1, e1, rfl⟩ := setField_ok rfl (by simp) g1
  obtain ⟨_, kf2, g2, h⟩ := bind_ok h
  obtain ⟨rfl, o2, e2, rfl⟩ := setField_ok rfl (by rintro _ ⟨⟩; rfl) g2
  obtain ⟨_, kf3, g3, h⟩ := bind_ok h
  obtain ⟨rfl, o3, e3, rfl⟩ := setField_ok rfl (by rintro _ ⟨⟩; rfl) g3
  obtain ⟨_, kf4, g4, h⟩ := bind_ok h
  obtain ⟨rfl, o4, e4, rfl⟩ := setField_ok rfl (by rintro _ ⟨⟩; rfl) g4
  obtain ⟨_, kf5, g5, h⟩ := bind_ok h
  obtain ⟨rfl, o5, e5, rfl⟩ := setField_ok rfl (by rintro _ ⟨⟩; rfl) g5
  obtain ⟨_, p0, k0, h⟩ := bind_ok h
  obtain ⟨rfl, s0, l0, rfl⟩ := at_ok k0
  obtain ⟨_, p1, k1, h⟩ := bind_ok h
  obtain ⟨rfl, s1, l1, rfl⟩ := at_ok k1
  obtain ⟨_, p2, k2, h⟩ := bind_ok h
  obtain ⟨rfl, s2, l2, rfl⟩ := at_ok k2
  obtain ⟨_, p3, k3, h⟩ := bind_ok h
  obtain ⟨rfl, s3, l3, rfl⟩ := at_ok k3
  obtain ⟨_, p4, k4, h⟩ := bind_ok h
  obtain ⟨rfl, s4, l4, rfl⟩ := at_ok k4
  simp only [act_pure, Prod.mk.injEq, Except.ok.injEq] at h
  obtain ⟨rfl, rfl⟩ := h
  have pct : ∀ (i : Nat) (p : F) (s : F), (getAllPercentiles : List F)[i]? = some p → ss[i]? = some s →
      shows (observe w env q (.stat (.percentile p))) (.float s) := by
    intro i p s hp hs
    obtain ⟨s', h1, h2⟩ := hss i p hp
    rw [hs] at h1
    obtain rfl : s = s' := by simpa using h1
    rw [observe_stat hw hty, h2]
    rfl
  have ofree : ∀ (k : String) (c : Call F) (o : Out F), orderFree c = true → observe w1 env q c = .ok o → shows (.ok o) o.field → Shown w env q (k, c) (k, o.field) := by
    intro k c o hc ho' hs
    refine shown_of_field ho hne hc ?_
    rw [← hsim.observe env q c (readOK_orderFree hc), ho']
    exact hs
  have cnt : ∀ o, observe w1 env q .count = .ok o → shows (.ok o) o.field := by
    intro o ho
    obtain ⟨n, hn⟩ := observe_count hok (env := env) (r := q) (by tauto)
    rw [hn] at ho
    simp at ho
    subst ho
    rfl
  have st : ∀ c o, c = .min ∨ c = .max ∨ c = .mean → observe w1 env q (.stat c) = .ok o → shows (.ok o) o.field := by
    intro c o hc ho
    rw [observe_stat hok hty1] at ho
    rcases hv : recorded w1 q with _ | l <;> rw [hv] at ho <;> rcases hc with rfl | rfl | rfl <;>
      simp only [readStat, nilStat, statOf, Except.ok.injEq] at ho <;> subst ho <;> rfl
  have lits : (getAllPercentiles : List F)[0]? = some (GoFloat.lit (1 / 2)) ∧ (getAllPercentiles : List F)[1]? = some (GoFloat.lit (3 / 4)) ∧
      (getAllPercentiles : List F)[2]? = some (GoFloat.lit (19 / 20)) ∧ (getAllPercentiles : List F)[3]? = some (GoFloat.lit (99 / 100)) ∧
      (getAllPercentiles : List F)[4]? = some (GoFloat.lit (999 / 1000)) := by
    have a : (75 / 100 : ℚ) = 3 / 4 := by norm_num
    have b : (95 / 100 : ℚ) = 19 / 20 := by norm_num
    simp [getAllPercentiles, a, b]
  refine ⟨hsim, hok, ?_⟩
  refine .cons (ofree _ _ _ rfl e1 (cnt _ e1)) (.cons (ofree _ _ _ rfl e2 (st _ _ (by simp) e2)) (.cons (ofree _ _ _ rfl e3 (st _ _ (by simp) e3))
    (.cons (ofree _ _ _ rfl e4 (st _ _ (by simp) e4)) (.cons ⟨rfl, fun _ => ?_, fun h => absurd rfl h⟩ ?_))))
  · rw [observe_stat hok hty1, hsort] at e5
    rcases hv : recorded w q with _ | l
    · rw [hv] at e5
      simp only [Option.map, readStat, nilStat, Except.ok.injEq] at e5
      subst e5
      rfl
    · rw [hv] at e5
      simp only [Option.map, readStat, statOf, Except.ok.injEq] at e5
      subst e5
      rfl
  · exact .cons (shown_of_field ho hne rfl (pct 0 _ _ lits.1 l0)) (.cons (shown_of_field ho hne rfl (pct 1 _ _ lits.2.1 l1))
      (.cons (shown_of_field ho hne rfl (pct 2 _ _ lits.2.2.1 l2)) (.cons (shown_of_field ho hne rfl (pct 3 _ _ lits.2.2.2.1 l3))
        (.cons (shown_of_field ho hne rfl (pct 4 _ _ lits.2.2.2.2 l4)) .nil))))

theorem rateFields_ok {env : Env F} {q : Ref} {w w' : World F} {vs : List (String × GoMetrics.Field F)} (hw : w.Ok)
    (hty : HasTy w q .timer ∨ HasTy w q .meter) (h : rateFields env q w = (w', .ok vs)) :
    w = w' ∧ List.Forall₂ (Shown w env q) fieldsOf.rates vs := by
  obtain ⟨o, ho, hne⟩ : ∃ o, w.objs q = some o ∧ o.ty ≠ .health := by
    rcases hty with ⟨o, h, e⟩ | ⟨o, h, e⟩ <;> exact ⟨o, h, by rw [e]; simp⟩
  have one : ∀ k c o, observe w env q (.rates c) = .ok o → Shown w env q (k, .rates c) (k, o.field) := by
    intro k c o hob
    obtain ⟨n, hn⟩ := observe_rates hw (env := env) hty c
    refine shown_of_field ho hne rfl ?_
    rw [hn] at hob ⊢
    simp at hob
    subst hob
    rfl
  obtain ⟨_, kf1, g1, h⟩ := bind_ok h
  obtain ⟨rfl, o1, e1, rfl⟩ := setField_ok rfl (by simp) g1
  obtain ⟨_, kf2, g2, h⟩ := bind_ok h
  obtain ⟨rfl, o2, e2, rfl⟩ := setField_ok rfl (by simp) g2
  obtain ⟨_, kf3, g3, h⟩ := bind_ok h
  obtain ⟨rfl, o3, e3, rfl⟩ := setField_ok rfl (by simp) g3
  obtain ⟨_, kf4, g4, h⟩ := bind_ok h
  obtain ⟨rfl, o4, e4, rfl⟩ := setField_ok rfl (by simp) g4
  simp only [act_pure, Prod.mk.injEq, Except.ok.injEq] at h
  obtain ⟨rfl, rfl⟩ := h
  exact ⟨rfl, .cons (one _ _ _ e1) (.cons (one _ _ _ e2) (.cons (one _ _ _ e3) (.cons (one _ _ _ e4) .nil)))⟩

/-! ### Snapshots hold the values of their source -/

theorem sample_recorded {w w1 : World F} (hw : w.Ok) {env : Env F} {r q : Ref} {x : SampleV F} (hr : w.objs r = some (.sample x))
    (h : sampleCall env r x .snapshot w = (w1, .ok (.ref q))) : sampleRecorded w1 q = sampleRecorded w r := by
  cases x with
  | uniform s =>
    have e := (act_snap w s.values s.count).symm.trans h
    simp only [Prod.mk.injEq, Except.ok.injEq, Out.ref.injEq] at e
    obtain ⟨rfl, rfl⟩ := e
    simp [sampleRecorded, hr]
  | exp s =>
    have e := (act_snap w s.vals s.count).symm.trans h
    simp only [Prod.mk.injEq, Except.ok.injEq, Out.ref.injEq] at e
    obtain ⟨rfl, rfl⟩ := e
    simp [sampleRecorded, hr]
  | snap n a =>
    simp only [sampleCall, act_pure, Prod.mk.injEq, Except.ok.injEq, Out.ref.injEq] at h
    obtain ⟨rfl, rfl⟩ := h
    rfl
  | nil =>
    simp only [sampleCall, act_pure, Prod.mk.injEq, Except.ok.injEq, Out.ref.injEq] at h
    obtain ⟨rfl, rfl⟩ := h
    rfl

theorem hist_recorded {w w1 : World F} (hw : w.Ok) {env : Env F} {r q : Ref} {x : HistV} (hr : w.objs r = some (.hist x))
    (h : histCall env r x .snapshot w = (w1, .ok (.ref q))) : histRecorded w1 q = histRecorded w r := by
  cases x with
  | std s =>
    obtain ⟨o, hs, ht⟩ : HasTy w s .sample := hw.refs r _ hr
    cases o <;> simp [Obj.ty] at ht
    rename_i x
    obtain ⟨w2, p, h1, h2, h3, h4⟩ := sample_snap False w hw env s x hs False.elim
    have hcall : callSample env s .snapshot w = (w2, .ok (.ref p)) := by
      rw [callSample, act_bind_getObj, hs]; exact h1
    have hrec := sample_recorded hw hs h1
    have hok : w2.Ok := by
      have := (sampleCall_safe (S := fun _ => True) env s x .snapshot w hw hs).1
      rwa [h1] at this
    simp only [histCall, act_bind, hcall, act_getObj] at h
    rcases h2 with ⟨n, a, h5, h6⟩ | h5
    · simp only [h5, act_bind, act_alloc, act_pure, Prod.mk.injEq, Except.ok.injEq, Out.ref.injEq] at h
      obtain ⟨rfl, rfl⟩ := h
      have hext := Ext.alloc w2 (.hist (.snap p))
      have : histRecorded w r = sampleRecorded w s := by simp [histRecorded, hr]
      rw [this, ← hrec, ← ext_sampleRecorded hext hok h5]
      simp [histRecorded]
    · simp only [h5] at h
      simp [act_fail] at h
  | snap s =>
    simp only [histCall, act_pure, Prod.mk.injEq, Except.ok.injEq, Out.ref.injEq] at h
    obtain ⟨rfl, rfl⟩ := h
    rfl
  | nil =>
    simp only [histCall, act_pure, Prod.mk.injEq, Except.ok.injEq, Out.ref.injEq] at h
    obtain ⟨rfl, rfl⟩ := h
    rfl

theorem timer_recorded {w w1 : World F} (hw : w.Ok) {env : Env F} {r q : Ref} {x : TimerV} (hr : w.objs r = some (.timer x))
    (h : timerCall env r x .snapshot w = (w1, .ok (.ref q))) : recorded w1 q = recorded w r := by
  cases x with
  | std a b =>
    obtain ⟨⟨o, ha, ht⟩, o', hb, ht'⟩ : HasTy w a .hist ∧ HasTy w b .meter := hw.refs r _ hr
    cases o <;> simp [Obj.ty] at ht
    cases o' <;> simp [Obj.ty] at ht'
    rename_i x y
    have hcall : callHist env a .snapshot w = histCall env a x .snapshot w := by rw [callHist, act_bind_getObj, ha]
    have hok2 := (histCall_safe (S := fun _ => True) env a x .snapshot w hw trivial).1
    simp only [timerCall, act_bind, hcall] at h
    generalize hx2 : histCall env a x .snapshot w = y2 at h hok2
    obtain ⟨w2, r2⟩ := y2
    cases r2 with
    | error p => simp at h
    | ok o2 =>
      cases o2 <;> try (simp [act_pure] at h; done)
      rename_i qh
      obtain ⟨f2, e2, x2⟩ := hist_snap False w hw env a x ha False.elim w2 qh hx2
      have hrec := hist_recorded hw ha hx2
      simp only [act_bind_getObj] at h
      rcases f2 with ⟨s, hq, hs⟩ | hq
      · simp only [hq] at h
        have hb2 := x2.keep hw hb
        have hcallm : callMeter env b .snapshot w2 = meterCall env b y .snapshot w2 := by rw [callMeter, act_bind_getObj, hb2]
        obtain ⟨w3, qm, h3, f3, e3, x3⟩ := meter_snap w2 env b y hb2
        have hok3 : w3.Ok := by
          have := (meterCall_safe (S := fun _ => True) env b y .snapshot (fun _ => trivial) w2 hok2 hb2).1
          rwa [h3] at this
        simp only [act_bind, hcallm, h3, act_getObj] at h
        rcases f3 with ⟨sm, hqm⟩ | hqm
        · simp only [hqm, act_bind, act_alloc, act_pure, Prod.mk.injEq, Except.ok.injEq, Out.ref.injEq] at h
          obtain ⟨rfl, rfl⟩ := h
          have x4 := Ext.alloc w3 (.timer (.snap qh qm))
          have : recorded w r = histRecorded w a := by simp [recorded, hr]
          rw [this, ← hrec, ← ext_histRecorded (x3.trans x4) hok2 hq]
          simp [recorded]
        · simp only [hqm] at h
          simp [act_fail] at h
      · simp only [hq] at h
        simp [act_fail] at h
  | snap a b =>
    simp only [timerCall, act_pure, Prod.mk.injEq, Except.ok.injEq, Out.ref.injEq] at h
    obtain ⟨rfl, rfl⟩ := h
    rfl
  | nil =>
    simp only [timerCall, act_pure, Prod.mk.injEq, Except.ok.injEq, Out.ref.injEq] at h
    obtain ⟨rfl, rfl⟩ := h
    rfl

/-! ### One metric -/

theorem hist_out {w w1 : World F} (hw : w.Ok) {env : Env F} {r : Ref} {x : HistV} (hr : w.objs r = some (.hist x)) {out : Out F}
    (h : histCall env r x .snapshot w = (w1, .ok out)) : ∃ q, out = .ref q := by
  cases x with
  | std s =>
    obtain ⟨o, hs, ht⟩ : HasTy w s .sample := hw.refs r _ hr
    cases o <;> simp [Obj.ty] at ht
    rename_i x
    obtain ⟨w2, p, h1, h2, -⟩ := sample_snap False w hw env s x hs False.elim
    have hcall : callSample env s .snapshot w = (w2, .ok (.ref p)) := by
      rw [callSample, act_bind_getObj, hs]; exact h1
    simp only [objCall, histCall, act_bind, hcall, act_getObj] at h
    rcases h2 with ⟨n, a, h5, h6⟩ | h5
    · simp only [h5, act_bind, act_alloc, act_pure, Prod.mk.injEq, Except.ok.injEq, Out.ref.injEq] at h
      exact ⟨_, h.2.symm⟩
    · simp only [h5] at h
      simp [act_fail] at h
  | _ =>
    simp only [objCall, histCall, act_pure, Prod.mk.injEq, Except.ok.injEq] at h
    exact ⟨_, h.2.symm⟩

theorem timer_out {w w1 : World F} (hw : w.Ok) {env : Env F} {r : Ref} {x : TimerV} (hr : w.objs r = some (.timer x)) {out : Out F}
    (h : timerCall env r x .snapshot w = (w1, .ok out)) : ∃ q, out = .ref q := by
  cases x with
  | std a b =>
    obtain ⟨⟨o, ha, ht⟩, o', hb, ht'⟩ : HasTy w a .hist ∧ HasTy w b .meter := hw.refs r _ hr
    cases o <;> simp [Obj.ty] at ht
    cases o' <;> simp [Obj.ty] at ht'
    rename_i x y
    have hcall : callHist env a .snapshot w = histCall env a x .snapshot w := by rw [callHist, act_bind_getObj, ha]
    have hok2 := (histCall_safe (S := fun _ => True) env a x .snapshot w hw trivial).1
    simp only [timerCall, act_bind, hcall] at h
    generalize hx2 : histCall env a x .snapshot w = y2 at h hok2
    obtain ⟨w2, r2⟩ := y2
    cases r2 with
    | error p => simp at h
    | ok o2 =>
      obtain ⟨qh, rfl⟩ := hist_out hw ha hx2
      obtain ⟨f2, e2, x2⟩ := hist_snap False w hw env a x ha False.elim w2 qh hx2
      simp only [act_bind_getObj] at h
      rcases f2 with ⟨s, hq, hs⟩ | hq
      · simp only [hq] at h
        have hb2 := x2.keep hw hb
        have hcallm : callMeter env b .snapshot w2 = meterCall env b y .snapshot w2 := by rw [callMeter, act_bind_getObj, hb2]
        obtain ⟨w3, qm, h3, f3, -⟩ := meter_snap w2 env b y hb2
        simp only [act_bind, hcallm, h3, act_getObj] at h
        rcases f3 with ⟨sm, hqm⟩ | hqm
        · simp only [hqm, act_bind, act_alloc, act_pure, Prod.mk.injEq, Except.ok.injEq, Out.ref.injEq] at h
          exact ⟨_, h.2.symm⟩
        · simp only [hqm] at h
          simp [act_fail] at h
      · simp only [hq] at h
        simp [act_fail] at h
  | _ =>
    simp only [objCall, timerCall, act_pure, Prod.mk.injEq, Except.ok.injEq] at h
    exact ⟨_, h.2.symm⟩

theorem shown_source {w w1 : World F} {env : Env F} {r q : Ref} {o o' : Obj F} (hr : w.objs r = some o) (hq : w1.objs q = some o') (ho : o.ty ≠ .health)
    (ho' : o'.ty ≠ .health) (hobs : ∀ c, accessor c = true → observe w1 env q c = observe w env r c) (hrec : recorded w1 q = recorded w r)
    {kc : String × Call F} {kf : String × GoMetrics.Field F} (h : Shown w1 env q kc kf) : Shown w env r kc kf := by
  obtain ⟨h1, h2, h3⟩ := h
  refine ⟨h1, fun e => by rw [h2 e, hrec], fun e => ⟨(h3 e).1, ?_⟩⟩
  have h4 := (h3 e).2
  rw [checked_of_not_health hq ho', hobs _ (orderFree_accessor (h3 e).1)] at h4
  rw [checked_of_not_health hr ho]
  exact h4

/-- One metric of `GetAll`. -/
theorem valuesOf_ok {env : Env F} {r : Ref} {w w' : World F} {o : Obj F} {vs : List (String × GoMetrics.Field F)} (hw : w.Ok) (hr : w.objs r = some o)
    (h : valuesOf env r w = (w', .ok vs)) : Seen env w w' ∧ List.Forall₂ (Shown w env r) (fieldsOf o) vs := by
  rw [valuesOf, act_bind_getObj, hr] at h
  have single : ∀ k c, orderFree c = true → (∀ s, c = .stat s → s.sorts = false) → (∀ o, observe w env r c = .ok o → shows (.ok o) o.field) → o.ty ≠ .health →
      (do return [← setField env k r c] : Act F _) w = (w', .ok vs) → Seen env w w' ∧ List.Forall₂ (Shown w env r) [(k, c)] vs := by
    intro k c hc hs hsh ht h
    obtain ⟨w1, kf, h1, h⟩ := bind_ok h
    obtain ⟨rfl, o', h2, rfl⟩ := setField_ok (orderFree_accessor hc) hs h1
    simp only [act_pure, Prod.mk.injEq, Except.ok.injEq] at h
    obtain ⟨rfl, rfl⟩ := h
    exact ⟨Seen.refl env hw, .cons (shown_of_field hr ht hc (by rw [h2]; exact hsh _ h2)) .nil⟩
  cases o with
  | counter x =>
    refine single _ _ rfl (by simp) (fun o ho => ?_) (by simp [Obj.ty]) h
    rw [read_obj hr _ rfl] at ho
    simp only [objVal, Except.ok.injEq] at ho
    subst ho; rfl
  | gauge x =>
    refine single _ _ rfl (by simp) (fun o ho => ?_) (by simp [Obj.ty]) h
    rw [read_obj hr _ rfl] at ho
    simp only [objVal, Except.ok.injEq] at ho
    subst ho; rfl
  | gaugeF x =>
    refine single _ _ rfl (by simp) (fun o ho => ?_) (by simp [Obj.ty]) h
    rw [read_obj hr _ rfl] at ho
    simp only [objVal, Except.ok.injEq] at ho
    subst ho; rfl
  | health x =>
    obtain ⟨hc, hseen⟩ := check_seen hw env hr
    simp only at h
    obtain ⟨w1, u, h1, h⟩ := bind_ok h
    rw [hc] at h1
    simp only [Prod.mk.injEq] at h1
    obtain ⟨rfl, -⟩ := h1
    generalize hw1 : ({ w with objs := Function.update w.objs r (some (.health (x.check env.checkFn))) } : World F) = w1 at *
    have hr1 : w1.objs r = some (.health (x.check env.checkFn)) := by rw [← hw1]; exact Function.update_self ..
    have herr : call env r .error w1 = (w1, .ok (.err (x.check env.checkFn).error)) := by rw [call_obj hr1]; rfl
    have hch : checked env w r = w1 := by unfold checked; rw [hr]; simp only; rw [hc]
    obtain ⟨w2, u2, h2, h⟩ := bind_ok h
    rw [herr] at h2
    simp only [Prod.mk.injEq, Except.ok.injEq] at h2
    obtain ⟨rfl, rfl⟩ := h2
    have hobs : observe w1 env r .error = .ok (.err (x.check env.checkFn).error) := by rw [observe, herr]
    rcases he : (x.check env.checkFn).error with _ | e
    · rw [he] at h
      simp only [act_pure, Prod.mk.injEq, Except.ok.injEq] at h
      obtain ⟨rfl, rfl⟩ := h
      refine ⟨hseen, .cons ⟨rfl, by simp, fun _ => ⟨rfl, ?_⟩⟩ .nil⟩
      simp only
      rw [hch, hobs, he]
      rfl
    · rw [he] at h
      simp only at h
      obtain ⟨w3, u3, h3, h⟩ := bind_ok h
      rw [herr, he] at h3
      simp only [Prod.mk.injEq, Except.ok.injEq] at h3
      obtain ⟨rfl, rfl⟩ := h3
      simp only [act_pure, Prod.mk.injEq, Except.ok.injEq] at h
      obtain ⟨rfl, rfl⟩ := h
      refine ⟨hseen, .cons ⟨rfl, by simp, fun _ => ⟨rfl, ?_⟩⟩ .nil⟩
      simp only
      rw [hch, hobs, he]
      rfl
  | hist x =>
    simp only at h
    obtain ⟨w1, q', h1, h⟩ := bind_ok h
    obtain ⟨w2, out, h2, h3⟩ := bind_ok h1
    have h2' := h2
    rw [call_obj hr] at h2'
    obtain ⟨q, rfl⟩ := hist_out hw hr h2'
    simp only [act_pure, Prod.mk.injEq, Except.ok.injEq] at h3
    obtain ⟨rfl, rfl⟩ := h3
    obtain ⟨hf, -, -⟩ := hist_snap False w hw env r x hr False.elim w2 q h2'
    obtain ⟨hobs, hext⟩ := snapshot_reads w hw env r w2 q h2
    have hok : w2.Ok := by have := (hw.call env r .snapshot).1; rwa [h2] at this
    obtain ⟨hsim, hok', hfs⟩ := histFields_ok hok (.inl hf) h
    refine ⟨(hext.seen hw hok env).trans (hsim.seen hok' env), forall2_mono (fun a b hab => ?_) hfs⟩
    obtain ⟨y, hy⟩ : ∃ y, w2.objs q = some (.hist y) := by rcases hf with ⟨s, h, -⟩ | h <;> exact ⟨_, h⟩
    refine shown_source hr hy (by simp [Obj.ty]) (by simp [Obj.ty]) (hobs env) ?_ hab
    have := hist_recorded hw hr h2'
    simp only [recorded, hr, hy]
    exact this
  | meter x =>
    simp only at h
    obtain ⟨w1, q', h1, h⟩ := bind_ok h
    obtain ⟨w2, out, h2, h3⟩ := bind_ok h1
    have h2' := h2
    rw [call_obj hr] at h2'
    obtain ⟨w3, q, h4, hf, -, -⟩ := meter_snap w env r x hr
    have h2'' : meterCall env r x .snapshot w = (w2, .ok out) := h2'
    rw [h4] at h2''
    simp only [Prod.mk.injEq, Except.ok.injEq] at h2''
    obtain ⟨rfl, rfl⟩ := h2''
    simp only [act_pure, Prod.mk.injEq, Except.ok.injEq] at h3
    obtain ⟨rfl, rfl⟩ := h3
    obtain ⟨hobs, hext⟩ := snapshot_reads w hw env r w3 q h2
    have hok : w3.Ok := by have := (hw.call env r .snapshot).1; rwa [h2] at this
    obtain ⟨y, hy⟩ : ∃ y, w3.objs q = some (.meter y) := by rcases hf with ⟨s, h⟩ | h <;> exact ⟨_, h⟩
    obtain ⟨w4, kf, h5, h⟩ := bind_ok h
    obtain ⟨rfl, o', h6, rfl⟩ := setField_ok rfl (by simp) h5
    obtain ⟨w5, rs, h7, h⟩ := bind_ok h
    obtain ⟨rfl, h8⟩ := rateFields_ok hok (.inr ⟨_, hy, rfl⟩) h7
    simp only [act_pure, Prod.mk.injEq, Except.ok.injEq] at h
    obtain ⟨rfl, rfl⟩ := h
    have hrec : recorded w3 q = recorded w r := by simp [recorded, histRecorded, hr, hy]
    refine ⟨hext.seen hw hok env, forall2_mono (fun a b hab => shown_source hr hy (by simp [Obj.ty]) (by simp [Obj.ty]) (hobs env) hrec hab) (.cons ?_ h8)⟩
    refine shown_of_field hy (by simp [Obj.ty]) rfl ?_
    obtain ⟨n, hn⟩ := observe_count hok (env := env) (r := q) (.inr (.inr ⟨_, hy, rfl⟩))
    rw [hn] at h6 ⊢
    simp at h6
    subst h6
    rfl
  | timer x =>
    simp only at h
    obtain ⟨w1, q', h1, h⟩ := bind_ok h
    obtain ⟨w2, out, h2, h3⟩ := bind_ok h1
    have h2' := h2
    rw [call_obj hr] at h2'
    obtain ⟨q, rfl⟩ := timer_out hw hr h2'
    simp only [act_pure, Prod.mk.injEq, Except.ok.injEq] at h3
    obtain ⟨rfl, rfl⟩ := h3
    obtain ⟨hf, -, -⟩ := timer_snap False w hw env r x hr False.elim w2 q h2'
    obtain ⟨hobs, hext⟩ := snapshot_reads w hw env r w2 q h2
    have hok : w2.Ok := by have := (hw.call env r .snapshot).1; rwa [h2] at this
    obtain ⟨w3, v1, h5, h⟩ := bind_ok h
    obtain ⟨hsim, hok', hfs⟩ := histFields_ok hok (.inr hf) h5
    obtain ⟨y, hy⟩ : ∃ y, w2.objs q = some (.timer y) := by rcases hf with ⟨_, _, h, -⟩ | h <;> exact ⟨_, h⟩
    have hy3 : HasTy w3 q .timer := ((hsim.seen hok' env).other q _ hy (by simp [Obj.ty])).1
    obtain ⟨w4, v2, h6, h⟩ := bind_ok h
    obtain ⟨rfl, h7⟩ := rateFields_ok hok' (.inl hy3) h6
    simp only [act_pure, Prod.mk.injEq, Except.ok.injEq] at h
    obtain ⟨rfl, rfl⟩ := h
    have hrec := timer_recorded hw hr h2'
    refine ⟨(hext.seen hw hok env).trans (hsim.seen hok' env), ?_⟩
    have src : ∀ a b, Shown w2 env q a b → Shown w env r a b := fun a b hab =>
      shown_source hr hy (by simp [Obj.ty]) (by simp [Obj.ty]) (hobs env) hrec hab
    exact List.rel_append (forall2_mono src hfs) (forall2_mono (fun a b hab => src a b ((hsim.seen hok' env).shown hy hab)) h7)
  | sample x =>
    simp only [act_pure, Prod.mk.injEq, Except.ok.injEq] at h
    obtain ⟨rfl, rfl⟩ := h
    exact ⟨Seen.refl env hw, .nil⟩
  | ewma x =>
    simp only [act_pure, Prod.mk.injEq, Except.ok.injEq] at h
    obtain ⟨rfl, rfl⟩ := h
    exact ⟨Seen.refl env hw, .nil⟩

/-- All metrics of `GetAll`. -/
theorem visit_getAll {env : Env F} {w : World F} (l : List (Str × Ref)) (hl : ∀ e ∈ l, ∃ o, w.objs e.2 = some o) :
    ∀ {w1 w2 : World F} {d d' : Data F}, Seen env w w1 → visit (getAllCallback env) l (w1, d) = ((w2, d'), .ok ()) →
      Seen env w w2 ∧ ∃ ds, d' = d ++ ds ∧ List.Forall₂ (fun e x => x.1 = e.1 ∧ ∃ o, w.objs e.2 = some o ∧ List.Forall₂ (Shown w env e.2) (fieldsOf o) x.2) l ds := by
  induction l with
  | nil =>
    intro w1 w2 d d' hs h
    simp only [visit, Prod.mk.injEq, and_true] at h
    obtain ⟨rfl, rfl⟩ := h
    exact ⟨hs, [], by simp, .nil⟩
  | cons e l ih =>
    intro w1 w2 d d' hs h
    obtain ⟨o, ho⟩ := hl e (by simp)
    rw [visit] at h
    unfold getAllCallback at h
    rcases hv : valuesOf env e.2 w1 with ⟨w3, _ | vs⟩
    · simp [hv] at h
    · simp only [hv] at h
      obtain ⟨o1, ho1, hty⟩ : ∃ o1, w1.objs e.2 = some o1 ∧ o1.ty = o.ty := by
        by_cases hh : o.ty = .health
        · cases o <;> simp [Obj.ty] at hh
          rcases hs.health _ _ ho with h5 | h5 <;> exact ⟨_, h5, rfl⟩
        · obtain ⟨⟨o1, h1, h2⟩, -⟩ := hs.other _ _ ho hh
          exact ⟨o1, h1, h2⟩
      obtain ⟨hs1, hf⟩ := valuesOf_ok hs.ok ho1 hv
      have hfo : (fieldsOf o1 : List (String × Call F)) = fieldsOf o := by
        cases o <;> cases o1 <;> simp [Obj.ty] at hty <;> rfl
      obtain ⟨hs2, ds, rfl, h3⟩ := ih (fun e he => hl e (by simp [he])) (hs.trans hs1) h
      refine ⟨hs2, (e.1, vs) :: ds, by simp, .cons ⟨rfl, o, ho, ?_⟩ h3⟩
      rw [← hfo]
      exact forall2_mono (fun a b hab => hs.shown ho hab) hf

/-! ### No panic -/

/-- What `Snapshot()` needs: no `NilSample` under a histogram, no `NilHistogram` and no `NilMeter` under a timer. -/
def histSnapOk (w : World F) (r : Ref) : Prop := ∀ s, w.objs r = some (.hist (.std s)) → w.objs s ≠ some (.sample .nil)
def timerSnapOk (w : World F) (r : Ref) : Prop :=
  ∀ a b, w.objs r = some (.timer (.std a b)) → histSnapOk w a ∧ w.objs a ≠ some (.hist .nil) ∧ w.objs b ≠ some (.meter .nil)

theorem Seen.histSnapOk {env : Env F} {w w' : World F} (h : Seen env w w') (hw : w.Ok) {r : Ref} {o : Obj F} (hr : w.objs r = some o) (hs : histSnapOk w r) :
    histSnapOk w' r := by
  intro s h1 h2
  obtain ⟨o', h3, h4⟩ := h.shape r o hr
  rw [h1] at h3
  obtain rfl := Option.some.inj h3
  rcases h4 with h4 | ⟨_, _, -, h4⟩ | ⟨_, _, -, h4⟩ <;> first | (simp at h4; done) | skip
  subst h4
  obtain ⟨q, hq, -⟩ : HasTy w s .sample := hw.refs r _ hr
  obtain ⟨q', h5, h6⟩ := h.shape s q hq
  rw [h2] at h5
  obtain rfl := Option.some.inj h5
  rcases h6 with h6 | ⟨_, _, -, h6⟩ | ⟨_, _, -, h6⟩ <;> first | (simp at h6; done) | skip
  subst h6
  exact hs s hr hq

theorem Seen.timerSnapOk {env : Env F} {w w' : World F} (h : Seen env w w') (hw : w.Ok) {r : Ref} {o : Obj F} (hr : w.objs r = some o) (hs : timerSnapOk w r) :
    timerSnapOk w' r := by
  intro a b h1
  obtain ⟨o', h3, h4⟩ := h.shape r o hr
  rw [h1] at h3
  obtain rfl := Option.some.inj h3
  rcases h4 with h4 | ⟨_, _, -, h4⟩ | ⟨_, _, -, h4⟩ <;> first | (simp at h4; done) | skip
  subst h4
  obtain ⟨⟨x, hx, -⟩, y, hy, -⟩ : HasTy w a .hist ∧ HasTy w b .meter := hw.refs r _ hr
  obtain ⟨k1, k2, k3⟩ := hs a b hr
  refine ⟨h.histSnapOk hw hx k1, fun h2 => ?_, fun h2 => ?_⟩
  · obtain ⟨q', h5, h6⟩ := h.shape a x hx
    rw [h2] at h5
    obtain rfl := Option.some.inj h5
    rcases h6 with h6 | ⟨_, _, -, h6⟩ | ⟨_, _, -, h6⟩ <;> first | (simp at h6; done) | skip
    subst h6
    exact k2 hx
  · obtain ⟨q', h5, h6⟩ := h.shape b y hy
    rw [h2] at h5
    obtain rfl := Option.some.inj h5
    rcases h6 with h6 | ⟨_, _, -, h6⟩ | ⟨_, _, -, h6⟩ <;> first | (simp at h6; done) | skip
    subst h6
    exact k3 hy

theorem Seen.histSnapOk_of {env : Env F} {w w' : World F} (h : Seen env w w') {r : Ref} (hs : GoMetrics.histSnapOk w' r) : GoMetrics.histSnapOk w r := by
  intro s h1 h2
  have h1' : w'.objs r = some (.hist (.std s)) := by
    obtain ⟨o', h3, h4⟩ := h.shape r _ h1
    rcases h4 with rfl | ⟨_, _, h4, -⟩ | ⟨_, _, h4, -⟩ <;> first | exact h3 | simp at h4
  obtain ⟨o', h3, h4⟩ := h.shape s _ h2
  refine hs s h1' ?_
  rcases h4 with rfl | ⟨_, _, h4, -⟩ | ⟨_, _, h4, -⟩ <;> first | exact h3 | simp at h4

theorem Seen.timerSnapOk_of {env : Env F} {w w' : World F} (h : Seen env w w') {r : Ref} (hs : GoMetrics.timerSnapOk w' r) : GoMetrics.timerSnapOk w r := by
  intro a b h1
  have same : ∀ {q : Ref} {o : Obj F}, w.objs q = some o → (∀ s, o ≠ .sample s) → (∀ s, o ≠ .health s) → w'.objs q = some o := by
    intro q o hq h3 h4
    obtain ⟨o', h5, h6⟩ := h.shape q _ hq
    rcases h6 with rfl | ⟨_, _, h6, -⟩ | ⟨_, _, h6, -⟩
    · exact h5
    · exact absurd h6 (h3 _)
    · exact absurd h6 (h4 _)
  obtain ⟨k1, k2, k3⟩ := hs a b (same h1 (by simp) (by simp))
  exact ⟨h.histSnapOk_of k1, fun h2 => k2 (same h2 (by simp) (by simp)), fun h2 => k3 (same h2 (by simp) (by simp))⟩

theorem hist_snap_ok {w : World F} (hw : w.Ok) (env : Env F) {r : Ref} {x : HistV} (hr : w.objs r = some (.hist x)) :
    (histSnapOk w r → ∃ w1 q, histCall env r x .snapshot w = (w1, .ok (.ref q))) ∧
    (∀ w1 out, histCall env r x .snapshot w = (w1, .ok out) → histSnapOk w r) := by
  cases x with
  | std s =>
    obtain ⟨o, hs, ht⟩ : HasTy w s .sample := hw.refs r _ hr
    cases o <;> simp [Obj.ty] at ht
    rename_i x
    obtain ⟨w2, p, h1, h2, h3, h4⟩ := sample_snap False w hw env s x hs False.elim
    have hcall : callSample env s .snapshot w = (w2, .ok (.ref p)) := by
      rw [callSample, act_bind_getObj, hs]; exact h1
    constructor
    · intro hok
      have hx : x ≠ .nil := by rintro rfl; exact hok s hr hs
      have hp : ∃ n a, w2.objs p = some (.sample (.snap n a)) := by
        cases x with
        | uniform u =>
          have e := (act_snap w u.values u.count).symm.trans h1
          simp only [Prod.mk.injEq, Except.ok.injEq, Out.ref.injEq] at e
          obtain ⟨rfl, rfl⟩ := e
          exact ⟨_, _, Function.update_self ..⟩
        | exp u =>
          have e := (act_snap w u.vals u.count).symm.trans h1
          simp only [Prod.mk.injEq, Except.ok.injEq, Out.ref.injEq] at e
          obtain ⟨rfl, rfl⟩ := e
          exact ⟨_, _, Function.update_self ..⟩
        | snap n a =>
          simp only [sampleCall, act_pure, Prod.mk.injEq, Except.ok.injEq, Out.ref.injEq] at h1
          obtain ⟨rfl, rfl⟩ := h1
          exact ⟨n, a, hs⟩
        | nil => exact absurd rfl hx
      obtain ⟨n, a, hp⟩ := hp
      simp only [histCall, act_bind, hcall, act_getObj, hp, act_alloc, act_pure]
      exact ⟨_, _, rfl⟩
    · rintro w1 out h s' hr'
      rw [hr] at hr'
      simp only [Option.some.injEq, Obj.hist.injEq, HistV.std.injEq] at hr'
      subst hr'
      rw [hs]
      rintro ⟨⟩
      simp only [sampleCall, act_pure, Prod.mk.injEq, Except.ok.injEq, Out.ref.injEq] at h1
      obtain ⟨rfl, rfl⟩ := h1
      simp only [histCall, act_bind, hcall, act_getObj, hs] at h
      simp [act_fail] at h
  | _ => exact ⟨fun _ => ⟨_, _, rfl⟩, fun _ _ _ s h => by rw [hr] at h; simp at h⟩

theorem timer_snap_ok {w : World F} (hw : w.Ok) (env : Env F) {r : Ref} {x : TimerV} (hr : w.objs r = some (.timer x)) :
    (timerSnapOk w r → ∃ w1 q, timerCall env r x .snapshot w = (w1, .ok (.ref q))) ∧
    (∀ w1 out, timerCall env r x .snapshot w = (w1, .ok out) → timerSnapOk w r) := by
  cases x with
  | std a b =>
    obtain ⟨⟨o, ha, ht⟩, o', hb, ht'⟩ : HasTy w a .hist ∧ HasTy w b .meter := hw.refs r _ hr
    cases o <;> simp [Obj.ty] at ht
    cases o' <;> simp [Obj.ty] at ht'
    rename_i x y
    have hcall : callHist env a .snapshot w = histCall env a x .snapshot w := by rw [callHist, act_bind_getObj, ha]
    have hok2 := (histCall_safe (S := fun _ => True) env a x .snapshot w hw trivial).1
    have mshape : ∀ (w2 : World F) (hb2 : w2.objs b = some (.meter y)), ∃ w3 qm, meterCall env b y .snapshot w2 = (w3, .ok (.ref qm)) ∧
        ((∃ s, w3.objs qm = some (.meter (.snap s))) ∧ y ≠ .nil ∨ y = .nil ∧ w3 = w2 ∧ qm = b) := by
      intro w2 hb2
      cases y with
      | std m => exact ⟨_, _, rfl, .inl ⟨⟨_, Function.update_self ..⟩, by simp⟩⟩
      | snap s => exact ⟨w2, b, rfl, .inl ⟨⟨s, hb2⟩, by simp⟩⟩
      | nil => exact ⟨w2, b, rfl, .inr ⟨rfl, rfl, rfl⟩⟩
    constructor
    · intro hok
      obtain ⟨k1, k2, k3⟩ := hok a b hr
      obtain ⟨w2, qh, h2⟩ := (hist_snap_ok hw env ha).1 k1
      obtain ⟨f2, e2, x2⟩ := hist_snap False w hw env a x ha False.elim w2 qh h2
      have hb2 := x2.keep hw hb
      obtain ⟨w3, qm, h3, ⟨⟨s, hs⟩, -⟩ | ⟨rfl, -⟩⟩ := mshape w2 hb2
      · have hcallm : callMeter env b .snapshot w2 = (w3, .ok (.ref qm)) := by rw [callMeter, act_bind_getObj, hb2]; exact h3
        have hq : ∃ s, w2.objs qh = some (.hist (.snap s)) := by
          rcases f2 with ⟨s, hq, -⟩ | hq
          · exact ⟨s, hq⟩
          · exfalso
            cases x with
            | std s =>
              have hn := hq
              simp only [histCall] at h2
              obtain ⟨w4, out, h5, h6⟩ := bind_ok h2
              cases out <;> try (simp [act_pure] at h6; done)
              simp only [act_bind_getObj] at h6
              rename_i p
              rcases hp : w4.objs p with _ | o
              · simp [hp, act_fail] at h6
              · cases o with
                | sample z =>
                  cases z with
                  | snap n arr =>
                    simp only [hp, act_bind, act_alloc, act_pure, Prod.mk.injEq, Except.ok.injEq, Out.ref.injEq] at h6
                    obtain ⟨rfl, rfl⟩ := h6
                    simp at hn
                  | _ => simp [hp, act_fail] at h6
                | _ => simp [hp, act_fail] at h6
            | snap s =>
              simp only [histCall, act_pure, Prod.mk.injEq, Except.ok.injEq, Out.ref.injEq] at h2
              obtain ⟨rfl, rfl⟩ := h2
              rw [ha] at hq
              simp at hq
            | nil => exact k2 ha
        obtain ⟨s', hq⟩ := hq
        simp only [timerCall, act_bind, hcall, h2, act_getObj, hq, hcallm, hs, act_alloc, act_pure]
        exact ⟨_, _, rfl⟩
      · exact absurd hb k3
    · rintro w1 out h a' b' hr'
      rw [hr] at hr'
      simp only [Option.some.injEq, Obj.timer.injEq, TimerV.std.injEq] at hr'
      obtain ⟨rfl, rfl⟩ := hr'
      simp only [timerCall] at h
      obtain ⟨w2, out2, h2, h⟩ := bind_ok h
      rw [hcall] at h2
      obtain ⟨qh, rfl⟩ := hist_out hw ha h2
      refine ⟨(hist_snap_ok hw env ha).2 w2 _ h2, ?_, ?_⟩
      · intro hn
        rw [ha] at hn
        obtain rfl : x = .nil := by simpa using hn
        simp only [histCall, act_pure, Prod.mk.injEq, Except.ok.injEq, Out.ref.injEq] at h2
        obtain ⟨rfl, rfl⟩ := h2
        simp only [act_bind_getObj, ha] at h
        simp [act_fail] at h
      · intro hn
        rw [hb] at hn
        obtain rfl : y = .nil := by simpa using hn
        obtain ⟨f2, e2, x2⟩ := hist_snap False w hw env a x ha False.elim w2 qh h2
        have hb2 := x2.keep hw hb
        have hcallm : callMeter env b .snapshot w2 = (w2, .ok (.ref b)) := by rw [callMeter, act_bind_getObj, hb2]; rfl
        simp only [act_bind_getObj] at h
        rcases f2 with ⟨s, hq, -⟩ | hq
        · simp only [hq, act_bind, hcallm, act_getObj, hb2] at h
          simp [act_fail] at h
        · simp only [hq] at h
          simp [act_fail] at h
  | _ => exact ⟨fun _ => ⟨_, _, rfl⟩, fun _ _ _ a b h => by rw [hr] at h; simp at h⟩

end GoMetrics
