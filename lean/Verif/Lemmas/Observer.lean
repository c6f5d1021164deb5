import Verif.Lemmas.Renumber
import Verif.Lemmas.ExportBlocks
import Verif.Model.Json
import Verif.Model.Librato
import Verif.Lemmas.Expvar
import Verif.Props.Registry

/-! What looking at metrics does to the store (C107). -/

set_option linter.unusedSimpArgs false
set_option linter.unusedSectionVars false

namespace GoMetrics.Renumber
open GoMetrics GoMetrics.Spec

variable {F : Type} [GoFloat F] [GoSqrt F] [GoExp F] {α β : Type}

/-! ### A store with new objects -/

theorem ref_old {M : Move} {r : Ref} (h : r < M.n) : M.ref r = r := if_pos h
theorem ref_new {M : Move} {r : Ref} (h : M.n ≤ r) : M.ref r = r + M.k := if_neg (by omega)
theorem arr_old {M : Move} {r : ArrId} (h : r < M.m) : M.arr r = r := if_pos h
theorem arr_new {M : Move} {r : ArrId} (h : M.m ≤ r) : M.arr r = r + M.j := if_neg (by omega)

theorem mvObj_old {w : World F} (hw : w.Ok) {M : Move} (hn : M.n = w.nextObj) (hm : M.m = w.nextArr) {r : Ref} {o : Obj F} (h : w.objs r = some o) : mvObj M o = o := by
  have href : ∀ {q : Ref} {x : Obj F}, w.objs q = some x → M.ref q = q := fun hq => ref_old (by rw [hn]; exact hw.lt hq)
  have hr := hw.refs r o h
  cases o with
  | sample s =>
    cases s with
    | snap n a => simp only [mvObj, mvSample, arr_old (M := M) (r := a) (by rw [hm]; exact hr)]
    | _ => rfl
  | hist x =>
    cases x with
    | std s => obtain ⟨o, h1, -⟩ := hr; simp only [mvObj, mvHist, href h1]
    | snap s => obtain ⟨n, a, h1⟩ := hr; simp only [mvObj, mvHist, href h1]
    | nil => rfl
  | timer x =>
    cases x with
    | std s m => obtain ⟨⟨o, h1, -⟩, o', h2, -⟩ := hr; simp only [mvObj, mvTimer, href h1, href h2]
    | snap s m => obtain ⟨⟨a, h1⟩, b, h2⟩ := hr; simp only [mvObj, mvTimer, href h1, href h2]
    | nil => rfl
  | _ => rfl

theorem wm_ext {w w' : World F} (hw : w.Ok) (hw' : w'.Ok) (ht : Tidy w) (ht' : Tidy w') (h : Ext w w') : WM (Move.between w w') w w' := by
  have n1 := h.next
  have n2 := h.nextA
  have href : ∀ {q : Ref} {x : Obj F}, w.objs q = some x → (Move.between w w').ref q = q := fun hq => ref_old (hw.lt hq)
  refine ⟨fun r => ?_, le_refl _, by simp only [Move.between]; omega, fun a => ?_, fun a => ?_, le_refl _, by simp only [Move.between]; omega, ?_, fun i => ?_, h.started, h.useNil, ht⟩
  · rcases Nat.lt_or_ge r w.nextObj with hr | hr
    · rw [show (Move.between w w').ref r = r from ref_old hr, h.objs r hr]
      rcases ho : w.objs r with _ | o
      · rfl
      · rw [Option.map_some, mvObj_old hw rfl rfl ho]
    · rw [hw.obj r hr, hw'.obj _ (by rw [ref_new hr]; show _ ≤ r + (w'.nextObj - w.nextObj); omega)]
      rfl
  · rcases Nat.lt_or_ge a w.nextArr with hr | hr
    · rw [show (Move.between w w').arr a = a from arr_old hr, (h.arrs a hr).1]
    · rw [ht a hr, ht' _ (by rw [arr_new hr]; show _ ≤ a + (w'.nextArr - w.nextArr); omega)]
  · rcases Nat.lt_or_ge a w.nextArr with hr | hr
    · rw [show (Move.between w w').arr a = a from arr_old hr, (h.arrs a hr).2]
    · rw [hw.arr a hr, hw'.arr _ (by rw [arr_new hr]; show _ ≤ a + (w'.nextArr - w.nextArr); omega)]
  · rw [h.meters]
    refine ((List.map_congr_left fun r hr => ?_).trans (List.map_id _)).symm
    obtain ⟨o, ho, -⟩ := (hw.meters r).1 hr
    exact href ho
  · rw [h.regs]
    refine ((List.map_congr_left fun e he => ?_).trans (List.map_id _)).symm
    obtain ⟨o, ho, -⟩ := hw.metric i e he
    simp only [mvEntry, href ho, id]

/-- From `w0` only new objects have been made. -/
structure Looked (w0 w : World F) : Prop where
  ext : Ext w0 w
  ok : w.Ok
  tidy : Tidy w

theorem Looked.refl {w : World F} (hw : w.Ok) (ht : Tidy w) : Looked w w := ⟨Ext.refl w, hw, ht⟩

theorem Looked.indistinguishable {w w' : World F} (hw : w.Ok) (ht : Tidy w) (h : Looked w w') : Indistinguishable w w' :=
  fun l hl => results_move l (fun x hx => ⟨fun l => hl x hx _ l, fun l => hl x hx _ l⟩) (wm_ext hw h.ok ht h.tidy h.ext)

theorem tidy_call (env : Env F) (r : Ref) (c : Call F) {w : World F} (h : Tidy w) : Tidy (call env r c w).1 :=
  ((rm_call (M := still) env r c).rel w w (wm_still h)).1.tidy

theorem Looked.call {w0 w : World F} (h : Looked w0 w) (env : Env F) (r : Ref) (c : Call F) (hx : Ext w0 (GoMetrics.call env r c w).1) : Looked w0 (GoMetrics.call env r c w).1 :=
  ⟨hx, (h.ok.call env r c).1, tidy_call env r c h.tidy⟩

/-! ### Snapshots -/

theorem hist_snap_ext {w : World F} (hw : w.Ok) (env : Env F) {r : Ref} {x : HistV} (hr : w.objs r = some (.hist x)) : Ext w (histCall env r x .snapshot w).1 := by
  cases x with
  | std s =>
    obtain ⟨o, hs, ht⟩ : HasTy w s .sample := hw.refs r _ hr
    cases o <;> simp [Obj.ty] at ht
    rename_i x
    obtain ⟨w2, p, h1, h2, -, h4⟩ := sample_snap False w hw env s x hs False.elim
    have hcall : callSample env s .snapshot w = (w2, .ok (.ref p)) := by
      rw [callSample, act_bind_getObj, hs]; exact h1
    simp only [histCall, act_bind, hcall, act_getObj]
    rcases h2 with ⟨n, a, h5, h6⟩ | h5
    · simp only [h5, act_bind, act_alloc, act_pure]
      exact h4.trans (Ext.alloc w2 _)
    · simp only [h5]; exact h4
  | _ => exact Ext.refl w

theorem timer_snap_ext {w : World F} (hw : w.Ok) (env : Env F) {r : Ref} {x : TimerV} (hr : w.objs r = some (.timer x)) : Ext w (timerCall env r x .snapshot w).1 := by
  cases x with
  | std a b =>
    obtain ⟨⟨o, ha, ht⟩, o', hb, ht'⟩ : HasTy w a .hist ∧ HasTy w b .meter := hw.refs r _ hr
    cases o <;> simp [Obj.ty] at ht
    cases o' <;> simp [Obj.ty] at ht'
    rename_i x y
    have hcall : callHist env a .snapshot w = histCall env a x .snapshot w := by rw [callHist, act_bind_getObj, ha]
    have x2 := hist_snap_ext hw env ha
    simp only [timerCall, act_bind, hcall]
    generalize histCall env a x .snapshot w = y2 at x2 ⊢
    obtain ⟨w2, r2⟩ := y2
    cases r2 with
    | error p => exact x2
    | ok o2 =>
      cases o2 <;> try exact x2
      rename_i qh
      simp only [act_bind_getObj]
      have x2' : Ext w w2 := x2
      have tail : Ext w ((do
          match ← callMeter env b .snapshot with
          | .ref qm =>
            match ← getObj qm with
            | some (.meter (.snap _)) => return .ref (← alloc (.timer (.snap qh qm)))
            | _ => Act.fail .typeAssert
          | _ => return .illTyped : Act F (Out F)) w2).1 := by
        have hb2 := x2'.keep hw hb
        have hcallm : callMeter env b .snapshot w2 = meterCall env b y .snapshot w2 := by rw [callMeter, act_bind_getObj, hb2]
        obtain ⟨w3, qm, h3, f3, -, x3⟩ := meter_snap w2 env b y hb2
        simp only [act_bind, hcallm, h3, act_getObj]
        rcases f3 with ⟨sm, hqm⟩ | hqm <;> simp only [hqm]
        · exact (x2'.trans x3).trans (Ext.alloc w3 _)
        · exact x2'.trans x3
      rcases w2.objs qh with _ | o
      · exact x2'
      · cases o with
        | hist x =>
          cases x with
          | snap s => exact tail
          | _ => exact x2'
        | _ => exact x2'
  | _ => exact Ext.refl w

theorem snap_ext {w : World F} (hw : w.Ok) (env : Env F) (r : Ref) : Ext w (call env r .snapshot w).1 := by
  rcases hr : w.objs r with _ | o
  · rw [call, act_bind_getObj, hr]; exact Ext.refl w
  · rw [call_obj hr]
    cases o with
    | counter x => cases x <;> exact Ext.alloc w _
    | gauge x => cases x <;> exact Ext.alloc w _
    | gaugeF x => cases x <;> exact Ext.alloc w _
    | ewma x => cases x <;> exact Ext.alloc w _
    | health x => exact Ext.refl w
    | sample x => obtain ⟨w2, p, h1, -, -, h4⟩ := sample_snap False w hw env r x hr False.elim; show Ext w (sampleCall env r x .snapshot w).1; rw [h1]; exact h4
    | hist x => exact hist_snap_ext hw env hr
    | meter x => obtain ⟨w2, p, h1, -, -, h4⟩ := meter_snap w env r x hr; show Ext w (meterCall env r x .snapshot w).1; rw [h1]; exact h4
    | timer x => exact timer_snap_ext hw env hr

/-! ### Percentile reads of snapshots -/

/-- The only thing that a read of a snapshot may change is the order of its slice. -/
theorem frozenSample_stat {w : World F} {env : Env F} {q : Ref} (h : FrozenSample False w q) (c : StatCall F) :
    (callSample env q (.stat c) w).1 = w ∨ ∃ a l, sampleSlice w q = some a ∧ (callSample env q (.stat c) w).1 = { w with arrs := Function.update w.arrs a l } := by
  rcases h with ⟨n, a, h, -⟩ | h
  · rw [callSample, act_bind_getObj, h]
    rcases hs : c.sorts
    · left; simp only [sampleCall, act_bind, getArr, hs]; rfl
    · right
      refine ⟨a, sortInts (w.arrs a), by simp [sampleSlice, h], ?_⟩
      simp only [sampleCall, act_bind, getArr, hs]; rfl
  · left; rw [callSample, act_bind_getObj, h]; rfl

theorem frozenHist_stat {w : World F} {env : Env F} {q : Ref} (h : FrozenHist False w q) (c : StatCall F) :
    (callHist env q (.stat c) w).1 = w ∨ ∃ a l, histSlice w q = some a ∧ (callHist env q (.stat c) w).1 = { w with arrs := Function.update w.arrs a l } := by
  rcases h with ⟨s, h, hs⟩ | h
  · have e : callHist env q (.stat c) w = callSample env s (.stat c) w := by rw [callHist, act_bind_getObj, h]; rfl
    rw [e, histSlice, h]
    exact frozenSample_stat hs c
  · left; rw [callHist, act_bind_getObj, h]; rfl

theorem frozen_stat {w : World F} {env : Env F} {q : Ref} (h : FrozenHist False w q ∨ FrozenTimer False w q) (c : StatCall F) :
    (call env q (.stat c) w).1 = w ∨ ∃ a l, slice w q = some a ∧ (call env q (.stat c) w).1 = { w with arrs := Function.update w.arrs a l } := by
  rcases h with h | h
  · obtain ⟨x, hx⟩ : ∃ x, w.objs q = some (.hist x) := by rcases h with ⟨s, h, -⟩ | h <;> exact ⟨_, h⟩
    have e : call env q (.stat c) w = callHist env q (.stat c) w := by
      rw [call_obj hx, callHist, act_bind_getObj, hx]; rfl
    rw [e, slice, hx]
    exact frozenHist_stat h c
  · rcases h with ⟨a, b, h, ha, -⟩ | h
    · have e : call env q (.stat c) w = callHist env a (.stat c) w := by rw [call_obj h]; rfl
      rw [e, slice, h]
      exact frozenHist_stat ha c
    · left; rw [call_obj h]; rfl

theorem ext_sort {w0 w : World F} (h : Ext w0 w) {a : ArrId} (ha : w0.nextArr ≤ a) (l : List Int64) : Ext w0 { w with arrs := Function.update w.arrs a l } :=
  ⟨h.objs, h.next, fun b hb => ⟨by rw [← (h.arrs b hb).1]; exact Function.update_of_ne (by omega) .., (h.arrs b hb).2⟩, h.nextA, h.meters, h.regs, h.started, h.useNil⟩

/-! ### The snapshot of a metric that is none has its own slice -/

theorem histSlice_snap {w : World F} (hw : w.Ok) {env : Env F} {r : Ref} {x : HistV} (hr : w.objs r = some (.hist x)) (hs : histSlice w r = none) {w1 : World F} {q : Ref}
    (h : histCall env r x .snapshot w = (w1, .ok (.ref q))) : ∀ a, histSlice w1 q = some a → w.nextArr ≤ a := by
  cases x with
  | std s =>
    obtain ⟨o, ho, ht⟩ : HasTy w s .sample := hw.refs r _ hr
    cases o <;> simp [Obj.ty] at ht
    rename_i x
    have live : ∀ (l : List Int64) (n : Int64),
        sampleCall env s x .snapshot w = (do let a ← newArr l false; return .ref (← alloc (.sample (.snap n a))) : Act F (Out F)) w → ∀ a, histSlice w1 q = some a → w.nextArr ≤ a := by
      intro l n e a ha
      obtain ⟨w2, p, hc, hp, hlt⟩ : ∃ w2 p, callSample env s .snapshot w = (w2, .ok (.ref p)) ∧ w2.objs p = some (.sample (.snap n w.nextArr)) ∧ p < w2.nextObj :=
        ⟨_, _, by rw [callSample, act_bind_getObj, ho]; exact e.trans (act_snap w l n), by simp, by simp⟩
      simp only [histCall, act_bind, hc, act_getObj, hp, act_alloc, act_pure, Prod.mk.injEq, Except.ok.injEq, Out.ref.injEq] at h
      obtain ⟨rfl, rfl⟩ := h
      have : histSlice { w2 with objs := Function.update w2.objs w2.nextObj (some (.hist (.snap p))), nextObj := w2.nextObj + 1 } w2.nextObj = some w.nextArr := by
        simp only [histSlice, Function.update_self, sampleSlice, Function.update_of_ne (Nat.ne_of_lt hlt), hp]
      rw [this] at ha
      simp at ha
      omega
    cases x with
    | uniform y => exact live _ _ rfl
    | exp y => exact live _ _ rfl
    | snap n b => simp [histSlice, sampleSlice, hr, ho] at hs
    | nil =>
      simp only [histCall, act_bind, callSample, act_bind_getObj, ho, sampleCall, act_pure, act_getObj, act_fail] at h
      simp at h
  | snap s =>
    simp only [histCall, act_pure, Prod.mk.injEq, Except.ok.injEq, Out.ref.injEq] at h
    obtain ⟨rfl, rfl⟩ := h
    simp [hs]
  | nil =>
    simp only [histCall, act_pure, Prod.mk.injEq, Except.ok.injEq, Out.ref.injEq] at h
    obtain ⟨rfl, rfl⟩ := h
    simp [hs]

theorem ext_histSlice {w w' : World F} (hx : Ext w w') (hw : w.Ok) {r : Ref} {o : Obj F} (hr : w.objs r = some o) : histSlice w' r = histSlice w r := by
  simp only [Spec.histSlice, hx.keep hw hr, hr]
  cases o with
  | hist x =>
    cases x with
    | std s => obtain ⟨o, h1, -⟩ := hw.refs r _ hr; simp only [sampleSlice, hx.keep hw h1, h1]
    | snap s => obtain ⟨n, a, h1⟩ := hw.refs r _ hr; simp only [sampleSlice, hx.keep hw h1, h1]
    | nil => rfl
  | _ => rfl

theorem ext_slice {w w' : World F} (hx : Ext w w') (hw : w.Ok) {r : Ref} {o : Obj F} (hr : w.objs r = some o) : slice w' r = slice w r := by
  have h1 := hx.keep hw hr
  simp only [Spec.slice, h1, hr]
  cases o with
  | timer x =>
    cases x with
    | std h m => obtain ⟨⟨o, h1, -⟩, -⟩ := hw.refs r _ hr; exact ext_histSlice hx hw h1
    | snap h m => obtain ⟨⟨a, h1⟩, -⟩ := hw.refs r _ hr; exact ext_histSlice hx hw h1
    | nil => simp only [sampleSlice, h1, hr]
  | hist x => exact ext_histSlice hx hw hr
  | _ => simp only [sampleSlice, h1, hr]

theorem slice_snap {w : World F} (hw : w.Ok) {env : Env F} {r : Ref} {o : Obj F} (hr : w.objs r = some o) (ho : o.ty = .hist ∨ o.ty = .timer) (hs : slice w r = none) {w1 : World F} {q : Ref}
    (h : call env r .snapshot w = (w1, .ok (.ref q))) : (FrozenHist False w1 q ∨ FrozenTimer False w1 q) ∧ ∀ a, slice w1 q = some a → w.nextArr ≤ a := by
  rw [call_obj hr] at h
  cases o <;> simp [Obj.ty] at ho
  · rename_i x
    have h : histCall env r x .snapshot w = (w1, .ok (.ref q)) := h
    obtain ⟨hf, -, -⟩ := hist_snap False w hw env r x hr False.elim w1 q h
    refine ⟨.inl hf, ?_⟩
    have := histSlice_snap hw hr (by simpa [slice, hr] using hs) h
    obtain ⟨y, hy⟩ : ∃ y, w1.objs q = some (.hist y) := by rcases hf with ⟨_, h, -⟩ | h <;> exact ⟨_, h⟩
    simpa only [slice, hy] using this
  · rename_i x
    have h : timerCall env r x .snapshot w = (w1, .ok (.ref q)) := h
    obtain ⟨hf, -, -⟩ := timer_snap False w hw env r x hr False.elim w1 q h
    refine ⟨.inr hf, ?_⟩
    cases x with
    | std a b =>
      obtain ⟨⟨o, ha, ht⟩, o', hb, ht'⟩ : HasTy w a .hist ∧ HasTy w b .meter := hw.refs r _ hr
      cases o <;> simp [Obj.ty] at ht
      cases o' <;> simp [Obj.ty] at ht'
      rename_i x y
      have hcall : callHist env a .snapshot w = histCall env a x .snapshot w := by rw [callHist, act_bind_getObj, ha]
      have hok2 := (histCall_safe (S := fun _ => True) env a x .snapshot w hw trivial).1
      simp only [timerCall, act_bind, hcall] at h
      generalize hx2 : histCall env a x .snapshot w = y2 at h hok2
      obtain ⟨w2, r2⟩ := y2
      cases r2 with
      | error p => simp at h
      | ok o2 =>
        cases o2 <;> try (simp [act_pure] at h; done)
        rename_i qh
        obtain ⟨f2, -, x2⟩ := hist_snap False w hw env a x ha False.elim w2 qh hx2
        have hsl := histSlice_snap hw ha (by simpa [slice, hr] using hs) hx2
        simp only [act_bind_getObj] at h
        rcases f2 with ⟨s, hq, hs'⟩ | hq
        · simp only [hq] at h
          have hb2 := x2.keep hw hb
          have hcallm : callMeter env b .snapshot w2 = meterCall env b y .snapshot w2 := by rw [callMeter, act_bind_getObj, hb2]
          obtain ⟨w3, qm, h3, f3, e3, x3⟩ := meter_snap w2 env b y hb2
          have hok3 : w3.Ok := by
            have := (meterCall_safe (S := fun _ => True) env b y .snapshot (fun _ => trivial) w2 hok2 hb2).1
            rwa [h3] at this
          simp only [act_bind, hcallm, h3, act_getObj] at h
          rcases f3 with ⟨sm, hqm⟩ | hqm
          · simp only [hqm, act_bind, act_alloc, act_pure, Prod.mk.injEq, Except.ok.injEq, Out.ref.injEq] at h
            obtain ⟨rfl, rfl⟩ := h
            have x4 := Ext.alloc w3 (.timer (.snap qh qm))
            have e := ext_histSlice (x3.trans x4) hok2 hq
            intro a ha
            have hs2 : slice { w3 with objs := Function.update w3.objs w3.nextObj (some (.timer (.snap qh qm))), nextObj := w3.nextObj + 1 } w3.nextObj =
                histSlice { w3 with objs := Function.update w3.objs w3.nextObj (some (.timer (.snap qh qm))), nextObj := w3.nextObj + 1 } qh := by simp only [slice, Function.update_self]
            rw [hs2, e] at ha
            exact hsl a ha
          · simp only [hqm] at h
            simp [act_fail] at h
        · simp only [hq] at h
          simp [act_fail] at h
    | snap a b =>
      simp only [timerCall, act_pure, Prod.mk.injEq, Except.ok.injEq, Out.ref.injEq] at h
      obtain ⟨rfl, rfl⟩ := h
      simp [hs]
    | nil =>
      simp only [timerCall, act_pure, Prod.mk.injEq, Except.ok.injEq, Out.ref.injEq] at h
      obtain ⟨rfl, rfl⟩ := h
      simp [hs]

/-! ### Exporters -/

/-- Reads that sort nothing. -/
theorem Looked.read {w0 w : World F} (h : Looked w0 w) (env : Env F) (r : Ref) {c : Call F} (hc : accessor c = true) (hs : ∀ s, c = .stat s → s.sorts = false) :
    Looked w0 (GoMetrics.call env r c w).1 := by rw [call_same hc hs]; exact h

theorem Looked.snapshotOf {w0 w : World F} (h : Looked w0 w) (env : Env F) (r : Ref) : Looked w0 (GoMetrics.snapshotOf env r w).1 := by
  have : Looked w0 (GoMetrics.call env r .snapshot w).1 := h.call env r _ (h.ext.trans (snap_ext h.ok env r))
  simp only [GoMetrics.snapshotOf, act_bind]
  generalize GoMetrics.call env r .snapshot w = y at this ⊢
  obtain ⟨w1, p | o⟩ := y
  · exact this
  · cases o <;> exact this

/-- A percentile read of the snapshot of a metric that is none. -/
theorem Looked.percentiles {w0 w w1 : World F} (h : Looked w0 w) (hw0 : w0.Ok) (env : Env F) {r q : Ref} {o : Obj F} (hr : w0.objs r = some o) (ho : o.ty = .hist ∨ o.ty = .timer)
    (hs : slice w0 r = none) (h1 : GoMetrics.snapshotOf env r w = (w1, .ok q)) (c : StatCall F) : Looked w0 (GoMetrics.call env q (.stat c) w1).1 := by
  have hl : Looked w0 w1 := by have := h.snapshotOf env r; rwa [h1] at this
  refine hl.call env q _ ?_
  have hr1 := h.ext.keep hw0 hr
  have hs1 : slice w r = none := (ext_slice h.ext hw0 hr).trans hs
  obtain ⟨w2, out, h2, h3⟩ := bind_ok h1
  obtain ⟨p, rfl⟩ : ∃ q, out = .ref q := by
    have h2' := h2
    rw [call_obj hr1] at h2'
    cases o <;> simp [Obj.ty] at ho
    · exact hist_out h.ok hr1 h2'
    · exact timer_out h.ok hr1 h2'
  simp only [act_pure, Prod.mk.injEq, Except.ok.injEq] at h3
  obtain ⟨rfl, rfl⟩ := h3
  obtain ⟨hf, hn⟩ := slice_snap h.ok hr1 ho hs1 h2
  rcases frozen_stat (env := env) hf c with e | ⟨a, l, ha, e⟩
  · rw [e]; exact hl.ext
  · rw [e]; exact ext_sort hl.ext (h.ext.nextA.trans (hn a ha)) l

theorem prepare_looked {w0 w : World F} (h : Looked w0 w) (hw0 : w0.Ok) (env : Env F) {c : Case F} {r : Ref} {o : Obj F} (hr : w0.objs r = some o) (ho : o.ty ≠ .health) (hs : slice w0 r = none)
    (hk : fitsKind o c) : Looked w0 (c.prepare env r w).1 := by
  have simple : c.check = false → c.snapshot = false → c.percentiles = none → Looked w0 (c.prepare env r w).1 := by
    intro h1 h2 h3
    simp only [Case.prepare, h1, h2, h3, Bool.false_eq_true, if_false, act_bind, act_pure]
    exact h
  have dist : o.ty = .hist ∨ o.ty = .timer → c.check = false → c.snapshot = true → (∃ l, c.percentiles = some l) → Looked w0 (c.prepare env r w).1 := by
    rintro ht h1 h2 ⟨l, h3⟩
    have hl := h.snapshotOf env r
    simp only [Case.prepare, h1, h2, h3, Bool.false_eq_true, if_false, if_true, act_bind]
    rcases hq : GoMetrics.snapshotOf env r w with ⟨w1, p | q⟩
    · rwa [hq] at hl
    · have := h.percentiles hw0 env hr ht hs hq (.percentiles l)
      simp only []
      generalize GoMetrics.call env q (.stat (.percentiles l)) w1 = y at this ⊢
      obtain ⟨w2, p | out⟩ := y
      · exact this
      · cases out <;> exact this
  cases o with
  | counter y => exact simple hk.1 hk.2.1 hk.2.2
  | gauge y => exact simple hk.1 hk.2.1 hk.2.2
  | gaugeF y => exact simple hk.1 hk.2.1 hk.2.2
  | health y => simp [Obj.ty] at ho
  | hist y => exact dist (.inl rfl) hk.1 hk.2.1 hk.2.2
  | timer y => exact dist (.inr rfl) hk.1 hk.2.1 hk.2.2
  | meter y =>
    have hl := h.snapshotOf env r
    simp only [Case.prepare, hk.1, hk.2.1, hk.2.2, Bool.false_eq_true, if_false, if_true, act_bind]
    rcases hq : GoMetrics.snapshotOf env r w with ⟨w1, p | q⟩ <;> rwa [hq] at hl
  | sample y => exact hk.elim
  | ewma y => exact hk.elim

/-- Expressions whose calls sort nothing. -/
def quietCall (c : Call F) : Prop := accessor c = true ∧ ∀ s, c = .stat s → s.sorts = false

theorem eval_same {env : Env F} {x : Ref} {ps : List F} {w : World F} : ∀ (e : Expr F), (∀ c ∈ e.calls, quietCall c) → (e.eval env x ps w).1 = w
  | .get c, h => by
    have := call_same (h c (by simp [Expr.calls])).1 (h c (by simp [Expr.calls])).2 (w := w) (env := env) (r := x)
    simp only [Expr.eval, act_bind]
    generalize call env x c w = y at this ⊢
    obtain ⟨w1, p | o⟩ := y <;> exact this
  | .ps i, _ => rfl
  | .const v, _ => rfl
  | .int e, h => eval_same e h
  | .float e, h => by
    have := eval_same (env := env) (x := x) (ps := ps) (w := w) e h
    simp only [Expr.eval, act_bind]
    generalize e.eval env x ps w = y at this ⊢
    obtain ⟨w1, p | o⟩ := y <;> exact this
  | .divInt e d, h => by
    have := eval_same (env := env) (x := x) (ps := ps) (w := w) e h
    simp only [Expr.eval, act_bind]
    generalize e.eval env x ps w = y at this ⊢
    obtain ⟨w1, p | o⟩ := y <;> exact this
  | .divFloat e d, h => by
    have := eval_same (env := env) (x := x) (ps := ps) (w := w) e h
    simp only [Expr.eval, act_bind]
    generalize e.eval env x ps w = y at this ⊢
    obtain ⟨w1, p | o⟩ := y <;> exact this

theorem bind_same {x : Act F α} {g : α → Act F β} {w : World F} (h : (x w).1 = w) (hg : ∀ a, (g a w).1 = w) : ((x >>= g) w).1 = w := by
  rw [act_bind]
  generalize x w = y at h ⊢
  obtain ⟨w1, p | a⟩ := y
  · exact h
  · subst h; exact hg a

theorem argEval_same {env : Env F} {name : Str} {x : Ref} {ps : List F} {w : World F} (e : ArgExpr F) (h : ∀ c ∈ e.calls, quietCall c) : (e.eval env name x ps w).1 = w := by
  cases e with
  | val e => exact bind_same (eval_same e h) fun _ => rfl
  | _ => rfl

theorem evalArgs_same {env : Env F} {name : Str} {x : Ref} {ps : List F} {w : World F} : ∀ (l : List (ArgExpr F)), (∀ c ∈ l.flatMap ArgExpr.calls, quietCall c) → (evalArgs env name x ps l w).1 = w
  | [], _ => rfl
  | e :: l, h => bind_same (argEval_same e fun c hc => h c (by simp [hc])) fun _ =>
    bind_same (evalArgs_same l fun c hc => h c (by rw [List.flatMap_cons]; exact List.mem_append_right _ hc)) fun _ => rfl

theorem exec_same {env : Env F} {name : Str} {x : Ref} {ps : List F} {w : World F} (s : Stmt F) (h : ∀ c ∈ s.calls, quietCall c) : (s.exec env name x ps w).1 = w := by
  cases s with
  | printf f as => exact bind_same (evalArgs_same as h) fun _ => rfl
  | postCount s key e => exact bind_same (eval_same e h) fun _ => rfl
  | postValue s key e => exact bind_same (eval_same e h) fun _ => rfl

theorem runStmts_same {env : Env F} {name : Str} {x : Ref} {ps : List F} : ∀ (l : List (Stmt F)) (y : World F × List (Event F)), (∀ s ∈ l, ∀ c ∈ s.calls, quietCall c) →
    (runStmts env name x ps l y).1.1 = y.1
  | [], _, _ => rfl
  | s :: l, y, h => by
    have := exec_same (env := env) (name := name) (x := x) (ps := ps) (w := y.1) s (h s (by simp))
    rw [runStmts]
    generalize s.exec env name x ps y.1 = z at this ⊢
    obtain ⟨w1, p | ev⟩ := z
    · exact this
    · exact (runStmts_same l _ fun s hs => h s (by simp [hs])).trans this

/-- What is asked of the metrics that are exported. -/
def Lookable (sw : Obj F → Option (Case F)) (w : World F) (r : Ref) : Prop := slice w r = none ∧ ∀ o, w.objs r = some o → o.ty = .health → sw o = none

theorem exportMetric_looked {w0 : World F} (hw0 : w0.Ok) (env : Env F) {sw : Obj F → Option (Case F)} (hsw : GoodSwitch sw) {name : Str} {r : Ref} (hr : ∃ o, w0.objs r = some o)
    (hk : Lookable sw w0 r) {y : World F × List (Event F)} (h : Looked w0 y.1) : Looked w0 (exportMetric env sw name r y).1.1 := by
  obtain ⟨o, ho⟩ := hr
  have ho1 := h.ext.keep hw0 ho
  rw [exportMetric]
  simp only [ho1]
  cases hs : sw o with
  | none => exact h
  | some c =>
    have hne : o.ty ≠ .health := fun e => by simp [hk.2 o ho e] at hs
    have := prepare_looked h hw0 env ho hne hk.1 (hsw.fit o c hs)
    simp only [runCase]
    generalize c.prepare env r y.1 = z at this ⊢
    obtain ⟨w1, p | ⟨x, ps⟩⟩ := z
    · exact this
    · simp only []
      rw [runStmts_same]
      · exact this
      · exact fun s hs' d hd => readable_accessor (List.all_eq_true.1 (List.all_eq_true.1 (hsw.calls o c hs) s hs') d hd)

theorem visit_looked {U : Type} {w0 : World F} {f : Callback F U} {P : Str × Ref → Prop} (hf : ∀ e y, P e → Looked w0 y.1 → Looked w0 (f e.1 e.2 y).1.1) :
    ∀ (l : List (Str × Ref)) (y : World F × U), (∀ e ∈ l, P e) → Looked w0 y.1 → Looked w0 (visit f l y).1.1
  | [], _, _, h => h
  | e :: l, y, hl, h => by
    have := hf e y (hl e (by simp)) h
    rw [visit]
    generalize f e.1 e.2 y = z at this ⊢
    obtain ⟨y', _ | p⟩ := z
    · exact visit_looked hf l y' (fun e he => hl e (by simp [he])) this
    · exact this

/-! ### Expvar -/

theorem expStmt_same {env : Env F} {name : Str} {x : Ref} {ps : List F} (s : Stmt F) (y : World F × Expvar F) (h : ∀ c ∈ s.calls, quietCall c) : (expStmt env name x ps s y).1.1 = y.1 := by
  obtain ⟨w, v⟩ := y
  cases s with
  | printf f as => rfl
  | postCount sfx key e =>
    have := eval_same (env := env) (x := x) (ps := ps) (w := w) e h
    rw [expStmt]
    rcases getInt (name ++ bytes sfx) v with ⟨v1, _ | _ | _⟩ <;> try rfl
    generalize e.eval env x ps w = y at this ⊢
    obtain ⟨w1, p | o⟩ := y <;> exact this
  | postValue sfx key e =>
    have := eval_same (env := env) (x := x) (ps := ps) (w := w) e h
    rw [expStmt]
    rcases getFloat (name ++ bytes sfx) v with ⟨v1, _ | _ | _⟩ <;> try rfl
    generalize e.eval env x ps w = y at this ⊢
    obtain ⟨w1, p | o⟩ := y <;> exact this

theorem expStmts_same {env : Env F} {name : Str} {x : Ref} {ps : List F} : ∀ (l : List (Stmt F)) (y : World F × Expvar F), (∀ s ∈ l, ∀ c ∈ s.calls, quietCall c) →
    (expStmts env name x ps l y).1.1 = y.1
  | [], _, _ => rfl
  | s :: l, y, h => by
    have := expStmt_same (env := env) (name := name) (x := x) (ps := ps) s y (h s (by simp))
    rw [expStmts]
    generalize expStmt env name x ps s y = z at this ⊢
    obtain ⟨y1, _ | _ | _⟩ := z
    · exact (expStmts_same l _ fun s hs => h s (by simp [hs])).trans this
    · exact this
    · exact this

theorem expMetric_looked {w0 : World F} (hw0 : w0.Ok) (env : Env F) {name : Str} {r : Ref} (hr : ∃ o, w0.objs r = some o) (hk : slice w0 r = none) {y : World F × Expvar F} (h : Looked w0 y.1) :
    Looked w0 (expMetric env name r y).1.1 := by
  obtain ⟨o, ho⟩ := hr
  have ho1 := h.ext.keep hw0 ho
  rw [expMetric, ho1, Option.bind_some]
  cases hs : expSwitch o with
  | none => exact h
  | some c =>
    have hne : o.ty ≠ .health := fun e => by cases o <;> simp [Obj.ty] at e; simp [expSwitch] at hs
    have := prepare_looked h hw0 env ho hne hk (good_exp.fit o c hs)
    simp only []
    generalize c.prepare env r y.1 = z at this ⊢
    obtain ⟨w1, p | ⟨x, ps⟩⟩ := z
    · exact this
    · simp only []
      rw [expStmts_same]
      · exact this
      · exact fun s hs' d hd => readable_accessor (List.all_eq_true.1 (List.all_eq_true.1 (good_exp.calls o c hs) s hs') d hd)

theorem expCallback_looked {w0 : World F} (hw0 : w0.Ok) (env : Env F) {name : Str} {r : Ref} (hr : ∃ o, w0.objs r = some o) (hk : slice w0 r = none) {y : World F × Expvar F × Bool} (h : Looked w0 y.1) :
    Looked w0 (expCallback env name r y).1.1 := by
  rw [expCallback]
  split
  · exact h
  · have := expMetric_looked (name := name) hw0 env hr hk (y := (y.1, y.2.1)) h
    generalize expMetric env name r (y.1, y.2.1) = z at this ⊢
    obtain ⟨⟨w1, v⟩, _ | _ | _⟩ := z <;> exact this

/-! ### `GetAll` and Librato -/

/-- The action makes new objects only. -/
structure Looks (w0 : World F) (a : Act F α) : Prop where
  keeps : ∀ w, Looked w0 w → Looked w0 (a w).1

theorem lk_pure {w0 : World F} (x : α) : Looks w0 (pure x : Act F α) := ⟨fun _ h => h⟩
theorem lk_fail {w0 : World F} (p : Panic) : Looks w0 (Act.fail p : Act F α) := ⟨fun _ h => h⟩
theorem lk_lift {w0 : World F} (p : Res α) : Looks w0 (Act.lift p : Act F α) := ⟨fun _ h => h⟩
theorem lk_bind {w0 : World F} {x : Act F α} {g : α → Act F β} (h : Looks w0 x) (hg : ∀ a, Looks w0 (g a)) : Looks w0 (x >>= g) := by
  refine ⟨fun w hw => ?_⟩
  have := h.keeps w hw
  rw [act_bind]
  generalize x w = y at this ⊢
  obtain ⟨w1, p | a⟩ := y
  · exact this
  · exact (hg a).keeps w1 this
theorem lk_get {w0 : World F} {r : Ref} {g : Option (Obj F) → Act F α} (hg : ∀ o, Looks w0 (g o)) : Looks w0 (getObj r >>= g) := lk_bind ⟨fun _ h => h⟩ hg
theorem lk_read {w0 : World F} (env : Env F) (r : Ref) {c : Call F} (hc : quietCall c) : Looks w0 (call env r c) := ⟨fun _ h => h.read env r hc.1 hc.2⟩
theorem lk_if {w0 : World F} {c : Prop} [Decidable c] {a b : Act F α} (ha : Looks w0 a) (hb : Looks w0 b) : Looks w0 (if c then a else b) := by split <;> assumption

theorem quiet_of {c : Call F} (h : accessor c = true) (h2 : ∀ s, c = .stat s → s.sorts = false) : quietCall c := ⟨h, h2⟩

theorem setField_looked {w0 : World F} (env : Env F) (k : String) (r : Ref) {c : Call F} (hc : quietCall c) : Looks w0 (setField env k r c) := lk_bind (lk_read env r hc) fun _ => lk_pure _

theorem rateFields_looked {w0 : World F} (env : Env F) (q : Ref) : Looks w0 (rateFields env q) := by
  have : ∀ x, quietCall (F := F) (.rates x) := fun x => ⟨rfl, fun s h => by simp at h⟩
  exact lk_bind (setField_looked env _ q (this _)) fun _ => lk_bind (setField_looked env _ q (this _)) fun _ => lk_bind (setField_looked env _ q (this _)) fun _ =>
    lk_bind (setField_looked env _ q (this _)) fun _ => lk_pure _

theorem quiet_count : quietCall (F := F) .count := ⟨rfl, fun s h => by simp at h⟩
theorem quiet_value : quietCall (F := F) .value := ⟨rfl, fun s h => by simp at h⟩
theorem quiet_stat {s : StatCall F} (h : s.sorts = false) : quietCall (F := F) (.stat s) := ⟨rfl, fun s' e => by simp at e; rw [← e]; exact h⟩
theorem quiet_rates (x : RateCall) : quietCall (F := F) (.rates x) := ⟨rfl, fun s h => by simp at h⟩

/-- After the percentiles have been read, the rest of `histFields` reads only. -/
theorem histFields_looked {w0 w1 : World F} (env : Env F) (q : Ref) (h : Looked w0 (call env q (.stat (.percentiles getAllPercentiles)) w1).1) : Looked w0 (histFields env q w1).1 := by
  have : ∀ ps : Out F, Looks w0 (do
      let count ← setField env "count" q .count
      let min ← setField env "min" q (.stat .min)
      let max ← setField env "max" q (.stat .max)
      let mean ← setField env "mean" q (.stat .mean)
      let stddev ← setField env "stddev" q (.stat .stdDev)
      let p0 ← Act.lift (ps.at 0)
      let p1 ← Act.lift (ps.at 1)
      let p2 ← Act.lift (ps.at 2)
      let p3 ← Act.lift (ps.at 3)
      let p4 ← Act.lift (ps.at 4)
      return [count, min, max, mean, stddev, ("median", p0), ("75%", p1), ("95%", p2), ("99%", p3), ("99.9%", p4)] : Act F (List (String × GoMetrics.Field F))) := fun ps =>
    lk_bind (setField_looked env _ q quiet_count) fun _ => lk_bind (setField_looked env _ q (quiet_stat rfl)) fun _ => lk_bind (setField_looked env _ q (quiet_stat rfl)) fun _ =>
    lk_bind (setField_looked env _ q (quiet_stat rfl)) fun _ => lk_bind (setField_looked env _ q (quiet_stat rfl)) fun _ => lk_bind (lk_lift _) fun _ => lk_bind (lk_lift _) fun _ =>
    lk_bind (lk_lift _) fun _ => lk_bind (lk_lift _) fun _ => lk_bind (lk_lift _) fun _ => lk_pure _
  rw [histFields, act_bind]
  generalize call env q (.stat (.percentiles getAllPercentiles)) w1 = y at h ⊢
  obtain ⟨w2, p | out⟩ := y
  · exact h
  · exact (this out).keeps w2 h

theorem valuesOf_looked {w0 w : World F} (hw0 : w0.Ok) (env : Env F) {r : Ref} {o : Obj F} (hr : w0.objs r = some o) (hne : o.ty ≠ .health) (hs : slice w0 r = none) (h : Looked w0 w) :
    Looked w0 (valuesOf env r w).1 := by
  have hr1 := h.ext.keep hw0 hr
  rw [valuesOf, act_bind_getObj, hr1]
  cases o with
  | counter x => exact (lk_bind (setField_looked env _ r quiet_count) fun _ => lk_pure _).keeps w h
  | gauge x => exact (lk_bind (setField_looked env _ r quiet_value) fun _ => lk_pure _).keeps w h
  | gaugeF x => exact (lk_bind (setField_looked env _ r quiet_value) fun _ => lk_pure _).keeps w h
  | health x => simp [Obj.ty] at hne
  | sample x => exact h
  | ewma x => exact h
  | hist x =>
    have hl := h.snapshotOf env r
    show Looked w0 ((GoMetrics.snapshotOf env r >>= histFields env) w).1
    rw [act_bind]
    rcases hq : GoMetrics.snapshotOf env r w with ⟨w1, p | q⟩
    · rwa [hq] at hl
    · exact histFields_looked env q (h.percentiles hw0 env hr (.inl rfl) hs hq _)
  | timer x =>
    have hl := h.snapshotOf env r
    show Looked w0 ((GoMetrics.snapshotOf env r >>= fun t => (do return (← histFields env t) ++ (← rateFields env t))) w).1
    rw [act_bind]
    rcases hq : GoMetrics.snapshotOf env r w with ⟨w1, p | q⟩
    · rwa [hq] at hl
    · have := histFields_looked env q (h.percentiles hw0 env hr (.inr rfl) hs hq _)
      simp only [act_bind]
      generalize histFields env q w1 = y at this ⊢
      obtain ⟨w2, p | l⟩ := y
      · exact this
      · exact (lk_bind (rateFields_looked env q) fun _ => lk_pure _).keeps w2 this
  | meter x =>
    exact (lk_bind ⟨fun w h => h.snapshotOf env r⟩ fun m => lk_bind (setField_looked env _ m quiet_count) fun _ => lk_bind (rateFields_looked env m) fun _ => lk_pure _).keeps w h

theorem getAllCallback_looked {w0 : World F} (hw0 : w0.Ok) (env : Env F) {name : Str} {r : Ref} {o : Obj F} (hr : w0.objs r = some o) (hne : o.ty ≠ .health) (hs : slice w0 r = none)
    {y : World F × Data F} (h : Looked w0 y.1) : Looked w0 (getAllCallback env name r y).1.1 := by
  have := valuesOf_looked hw0 env hr hne hs h
  rw [getAllCallback]
  generalize valuesOf env r y.1 = z at this ⊢
  obtain ⟨w2, p | l⟩ := z <;> exact this

theorem sample_calm {w : World F} (env : Env F) {s : Ref} {y : SampleV F} (hs : w.objs s = some (.sample y)) (hy : (∃ s, y = .exp s) ∨ y = .nil) (c : StatCall F) :
    (callSample env s (.stat c) w).1 = w := by
  rw [callSample, act_bind_getObj, hs]
  rcases hy with ⟨s, rfl⟩ | rfl <;> rfl

theorem hist_calm {w : World F} (hw : w.Ok) (env : Env F) {r : Ref} {x : HistV} (hr : w.objs r = some (.hist x))
    (hy : ∀ s y, histSample w r = some s → w.objs s = some (.sample y) → (∃ s, y = .exp s) ∨ y = .nil) (c : StatCall F) : (callHist env r (.stat c) w).1 = w := by
  rw [callHist, act_bind_getObj, hr]
  cases x with
  | std s =>
    obtain ⟨o, ho, ht⟩ : HasTy w s .sample := hw.refs r _ hr
    cases o <;> simp [Obj.ty] at ht
    exact sample_calm env ho (hy s _ (by simp [histSample, hr]) ho) c
  | snap s =>
    obtain ⟨n, a, ho⟩ := hw.refs r _ hr
    exact sample_calm env ho (hy s _ (by simp [histSample, hr]) ho) c
  | nil => rfl

/-- A percentile read of a metric over a decaying sample sorts a copy. -/
theorem calm {w : World F} (hw : w.Ok) (env : Env F) {r : Ref} {o : Obj F} (hr : w.objs r = some o) (hd : decaying w r) (c : StatCall F) : (call env r (.stat c) w).1 = w := by
  rw [call_obj hr]
  cases o with
  | sample y =>
    rcases hd r y (.inl rfl) hr with ⟨s, rfl⟩ | rfl <;> rfl
  | hist x =>
    have := hist_calm hw env hr (fun s y h => hd s y (.inr (.inl h))) c
    rw [callHist, act_bind_getObj, hr] at this
    exact this
  | timer x =>
    cases x with
    | std a b =>
      obtain ⟨⟨o, ha, ht⟩, -⟩ := hw.refs r _ hr
      cases o <;> simp [Obj.ty] at ht
      exact hist_calm hw env ha (fun s y h => hd s y (.inr (.inr (by simp only [hr]; exact .inr (.inr h))))) c
    | snap a b =>
      obtain ⟨⟨o, ha⟩, -⟩ := hw.refs r _ hr
      exact hist_calm hw env ha (fun s y h => hd s y (.inr (.inr (by simp only [hr]; exact .inr (.inr h))))) c
    | nil => rfl
  | counter x => cases x <;> rfl
  | gauge x => cases x <;> rfl
  | gaugeF x => cases x <;> rfl
  | health x => cases x <;> rfl
  | ewma x => cases x <;> rfl
  | meter x => cases x <;> rfl

theorem ext_histSample {w w' : World F} (hx : Ext w w') (hw : w.Ok) {r : Ref} {o : Obj F} (hr : w.objs r = some o) : histSample w' r = histSample w r := by
  simp only [histSample, hx.keep hw hr, hr]

theorem ext_decaying {w w' : World F} (hx : Ext w w') (hw : w.Ok) {r : Ref} {o : Obj F} (hr : w.objs r = some o) (h : decaying w r) : decaying w' r := by
  have key : ∀ x, partOf w' r x → partOf w r x ∧ ∃ o, w.objs x = some o := by
    intro x hp
    simp only [partOf, hx.keep hw hr, ext_histSample hx hw hr] at hp
    have hs : ∀ {q o}, w.objs q = some o → histSample w q = some x → ∃ o, w.objs x = some o := by
      intro q o hq h
      simp only [histSample, hq] at h
      cases o <;> try (simp at h; done)
      rename_i y
      cases y <;> simp at h
      · subst h; obtain ⟨o, h1, -⟩ := hw.refs q _ hq; exact ⟨o, h1⟩
      · subst h; obtain ⟨n, a, h1⟩ := hw.refs q _ hq; exact ⟨_, h1⟩
    rcases hp with rfl | h1 | h1
    · exact ⟨.inl rfl, _, hr⟩
    · exact ⟨.inr (.inl h1), hs hr h1⟩
    · cases o <;> try exact h1.elim
      rename_i t
      cases t <;> simp at h1
      · rename_i a b
        obtain ⟨⟨oa, ha, -⟩, ob, hb, -⟩ := hw.refs r _ hr
        rw [ext_histSample hx hw ha] at h1
        refine ⟨.inr (.inr (by simpa only [hr] using h1)), ?_⟩
        rcases h1 with rfl | rfl | h1
        · exact ⟨_, ha⟩
        · exact ⟨_, hb⟩
        · exact hs ha h1
      · rename_i a b
        obtain ⟨⟨oa, ha⟩, ob, hb⟩ := hw.refs r _ hr
        rw [ext_histSample hx hw ha] at h1
        refine ⟨.inr (.inr (by simpa only [hr] using h1)), ?_⟩
        rcases h1 with rfl | rfl | h1
        · exact ⟨_, ha⟩
        · exact ⟨_, hb⟩
        · exact hs ha h1
  intro x y hp hy
  obtain ⟨h1, o', h2⟩ := key x hp
  have := hx.keep hw h2
  rw [this] at hy
  simp at hy
  subst hy
  exact h x y h1 h2

theorem lk_stat {w0 : World F} (hw0 : w0.Ok) (env : Env F) {r : Ref} {o : Obj F} (hr : w0.objs r = some o) (hd : decaying w0 r) (c : StatCall F) : Looks w0 (call env r (.stat c)) :=
  ⟨fun w h => by rw [calm h.ok env (h.ext.keep hw0 hr) (ext_decaying h.ext hw0 hr hd)]; exact h⟩

theorem readInt_looked {w0 : World F} (env : Env F) (r : Ref) {c : Call F} (hc : Looks w0 (call env r c)) : Looks w0 (readInt env r c) :=
  lk_bind hc fun o => by cases o <;> exact lk_pure _
theorem readFloat_looked {w0 : World F} (env : Env F) (r : Ref) {c : Call F} (hc : Looks w0 (call env r c)) : Looks w0 (readFloat env r c) :=
  lk_bind hc fun o => by cases o <;> exact lk_pure _
theorem readBits_looked {w0 : World F} (env : Env F) (r : Ref) {c : Call F} (hc : Looks w0 (call env r c)) : Looks w0 (readBits env r c) :=
  lk_bind hc fun o => by cases o <;> exact lk_pure _

theorem sumSquares_looked {w0 : World F} (env : Env F) (s : Ref) : Looks w0 (sumSquares env s) :=
  lk_bind (readInt_looked env s (lk_read env s quiet_count)) fun _ => lk_bind (readFloat_looked env s (lk_read env s (quiet_stat rfl))) fun _ =>
    lk_bind (readFloat_looked env s (lk_read env s (quiet_stat rfl))) fun _ => lk_if (lk_pure _) (lk_pure _)

theorem percentileGauges_looked {w0 : World F} (env : Env F) (s : Ref) (mk : F → F → Measurement F) (h : ∀ p, Looks w0 (call env s (.stat (.percentile p)))) :
    ∀ l, Looks w0 (percentileGauges env s mk l)
  | [] => lk_pure _
  | _ :: l => lk_bind (readFloat_looked env s (h _)) fun _ => lk_bind (percentileGauges_looked env s mk h l) fun _ => lk_pure _

theorem rateGauge_looked {w0 : World F} (env : Env F) (cfg : Reporter F) (name : Str) (r : Ref) (sfx : String) (c : RateCall) : Looks w0 (rateGauge env cfg name r sfx c) :=
  lk_bind (readFloat_looked env r (lk_read env r (quiet_rates _))) fun _ => lk_pure _

theorem libratoMetric_looked {w0 w : World F} (hw0 : w0.Ok) (env : Env F) (cfg : Reporter F) (name : Str) {r : Ref} {o : Obj F} (hr : w0.objs r = some o) (hd : decaying w0 r) (h : Looked w0 w) :
    Looked w0 (libratoMetric env cfg name r o w).1 := by
  have rd : ∀ {c : Call F} (q : Ref), quietCall c → Looks w0 (readInt env q c) := fun q hc => readInt_looked env q (lk_read env q hc)
  have rf : ∀ {c : Call F} (q : Ref), quietCall c → Looks w0 (readFloat env q c) := fun q hc => readFloat_looked env q (lk_read env q hc)
  cases o with
  | counter x => exact (lk_bind (rd r quiet_count) fun _ => lk_if (lk_bind (rd r quiet_count) fun _ => lk_pure _) (lk_pure _)).keeps w h
  | gauge x => exact (lk_bind (rd r quiet_value) fun _ => lk_pure _).keeps w h
  | gaugeF x => exact (lk_bind (readBits_looked env r (lk_read env r quiet_value)) fun _ => lk_pure _).keeps w h
  | meter x =>
    exact (lk_bind (rd r quiet_count) fun _ => lk_bind (rateGauge_looked ..) fun _ => lk_bind (rateGauge_looked ..) fun _ => lk_bind (rateGauge_looked ..) fun _ => lk_pure _).keeps w h
  | timer x =>
    exact (lk_bind (rd r quiet_count) fun _ => lk_bind (rd r quiet_count) fun _ => lk_if (lk_bind (rd r quiet_count) fun _ => lk_bind (rf r (quiet_stat rfl)) fun _ =>
      lk_bind (rd r quiet_count) fun _ => lk_bind (rd r (quiet_stat rfl)) fun _ => lk_bind (rd r (quiet_stat rfl)) fun _ => lk_bind (sumSquares_looked env r) fun _ =>
      lk_bind (percentileGauges_looked env r _ (fun p => lk_stat hw0 env hr hd _) _) fun _ => lk_bind (rateGauge_looked ..) fun _ => lk_bind (rateGauge_looked ..) fun _ =>
      lk_bind (rateGauge_looked ..) fun _ => lk_pure _) (lk_pure _)).keeps w h
  | hist x =>
    have std : ∀ s, histSample w0 r = some s → (∃ o, w0.objs s = some o) → (∀ w', Looked w0 w' → call env r .sample w' = (w', .ok (.ref s))) →
        Looked w0 (libratoMetric env cfg name r (.hist x) w).1 := by
      intro s hs ⟨os, hos⟩ hc
      have hds : decaying w0 s := by
        intro y z hy hz
        have hsam : ∃ z, w0.objs s = some (.sample z) := by
          simp only [histSample, hr] at hs
          cases x with
          | std s' =>
            simp at hs; subst hs
            obtain ⟨o, h1, h2⟩ := hw0.refs r _ hr
            cases o <;> simp [Obj.ty] at h2
            exact ⟨_, h1⟩
          | snap s' => simp at hs; subst hs; obtain ⟨n, a, h1⟩ := hw0.refs r _ hr; exact ⟨_, h1⟩
          | nil => simp at hs
        obtain ⟨z', hz'⟩ := hsam
        have : y = s := by
          rcases hy with rfl | h1 | h1
          · rfl
          · simp [histSample, hz'] at h1
          · simp [hz'] at h1
        subst this
        exact hd y z (.inr (.inl hs)) hz
      refine (lk_bind (rd r quiet_count) fun _ => lk_if (w0 := w0) (?_ : Looks w0 (call env r .sample >>= _)) (lk_pure _)).keeps w h
      refine ⟨fun w' h' => ?_⟩
      rw [act_bind, hc w' h']
      exact (lk_bind (rd s quiet_count) fun _ => lk_bind (rd s (quiet_stat rfl)) fun _ => lk_bind (rd s (quiet_stat rfl)) fun _ => lk_bind (rd s (quiet_stat rfl)) fun _ =>
        lk_bind (sumSquares_looked env s) fun _ => lk_bind (percentileGauges_looked env s _ (fun p => lk_stat hw0 env hos hds _) _) fun _ => lk_pure _).keeps w' h'
    cases x with
    | std s =>
      obtain ⟨o, h1, -⟩ := hw0.refs r _ hr
      exact std s (by simp [histSample, hr]) ⟨o, h1⟩ fun w' h' => by rw [call_obj (h'.ext.keep hw0 hr)]; rfl
    | snap s =>
      obtain ⟨n, a, h1⟩ := hw0.refs r _ hr
      exact std s (by simp [histSample, hr]) ⟨_, h1⟩ fun w' h' => by rw [call_obj (h'.ext.keep hw0 hr)]; rfl
    | nil =>
      have : readInt env r .count w = (w, .ok 0) := by
        simp only [readInt, act_bind]; rw [call_obj (h.ext.keep hw0 hr)]; rfl
      simp only [libratoMetric, act_bind, this]
      exact h
  | _ => exact h

theorem libratoCallback_looked {w0 : World F} (hw0 : w0.Ok) (env : Env F) (cfg : Reporter F) {name : Str} {r : Ref} {o : Obj F} (hr : w0.objs r = some o) (hd : decaying w0 r)
    {y : World F × List (Measurement F) × List (Measurement F)} (h : Looked w0 y.1) : Looked w0 (libratoCallback env cfg name r y).1.1 := by
  have := libratoMetric_looked hw0 env cfg name hr hd h
  rw [libratoCallback, h.ext.keep hw0 hr]
  simp only []
  generalize libratoMetric env cfg name r o y.1 = z at this ⊢
  obtain ⟨w2, p | l⟩ := z <;> exact this

/-! ### Single calls -/

theorem values_ext {w : World F} (env : Env F) (r : Ref) : Ext w (call env r .values w).1 := by
  rcases hr : w.objs r with _ | o
  · rw [call, act_bind_getObj, hr]; exact Ext.refl w
  · rw [call_obj hr]
    cases o with
    | sample x => cases x <;> exact Ext.newArr w _ _
    | counter x => cases x <;> exact Ext.refl w
    | gauge x => cases x <;> exact Ext.refl w
    | gaugeF x => cases x <;> exact Ext.refl w
    | ewma x => cases x <;> exact Ext.refl w
    | health x => cases x <;> exact Ext.refl w
    | hist x => cases x <;> exact Ext.refl w
    | meter x => cases x <;> exact Ext.refl w
    | timer x => cases x <;> exact Ext.refl w

theorem sample_ext {w : World F} (env : Env F) (r : Ref) : Ext w (call env r .sample w).1 := by
  rcases hr : w.objs r with _ | o
  · rw [call, act_bind_getObj, hr]; exact Ext.refl w
  · rw [call_obj hr]
    cases o with
    | hist x =>
      cases x with
      | nil => exact Ext.alloc w _
      | _ => exact Ext.refl w
    | sample x => cases x <;> exact Ext.refl w
    | counter x => cases x <;> exact Ext.refl w
    | gauge x => cases x <;> exact Ext.refl w
    | gaugeF x => cases x <;> exact Ext.refl w
    | ewma x => cases x <;> exact Ext.refl w
    | health x => cases x <;> exact Ext.refl w
    | meter x => cases x <;> exact Ext.refl w
    | timer x => cases x <;> exact Ext.refl w

theorem looks_looked {w : World F} (hw : w.Ok) (ht : Tidy w) (env : Env F) (r : Ref) {c : Call F} (hc : looks c = true) (hp : isPercentile c = true → decaying w r) :
    Looked w (call env r c w).1 := by
  have h := Looked.refl hw ht
  have quiet : quietCall c → Looked w (call env r c w).1 := fun hq => h.read env r hq.1 hq.2
  cases c <;> simp [looks] at hc
  case snapshot => exact h.call env r _ (snap_ext hw env r)
  case values => exact h.call env r _ (values_ext env r)
  case sample => exact h.call env r _ (sample_ext env r)
  case stat s =>
    rcases hr : w.objs r with _ | o
    · rw [call, act_bind_getObj, hr]; exact h
    · cases hs : s.sorts
      · exact quiet (quiet_stat hs)
      · rw [calm hw env hr (hp (by cases s <;> simp [StatCall.sorts] at hs <;> rfl))]; exact h
  all_goals exact quiet ⟨rfl, fun s h => by simp at h⟩

/-! ### Whole registries -/

theorem each_looked {U : Type} {w : World F} (hw : w.Ok) (ht : Tidy w) {env : Env F} {g : Reg} {id : Nat} (hb : base g = some id) {f : Callback F U} {P : Ref → Prop}
    (hP : ∀ name r, gets w id name = some r → (prefixes g).flatten <+: name → P r)
    (hf : ∀ name r o y, P r → w.objs r = some o → Looked w y.1 → Looked w (f name r y).1.1) (u : U) : Looked w (each env g f (w, u)).1.1 := by
  rw [each, eachList_base env g id hb]
  refine visit_looked (P := fun e => P e.2 ∧ ∃ o, w.objs e.2 = some o) (fun e y he hy => ?_) _ _ (fun e he => ?_) (Looked.refl hw ht)
  · obtain ⟨h1, o, ho⟩ := he
    exact hf _ _ o _ h1 ho hy
  · obtain ⟨h1, h2⟩ := (eachList_mem env g id hw e.1 e.2).1 he
    obtain ⟨o, ho, -⟩ := hw.metric id e (by rw [List.mem_filter, (env.order_perm _).mem_iff] at he; exact he.1)
    exact ⟨hP _ _ h1 h2, o, ho⟩

end GoMetrics.Renumber
