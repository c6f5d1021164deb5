import Verif.Spec.Ledger
import Verif.Lemmas.Recorded
import Verif.Lemmas.Meter

/-! What was counted and set, and what the objects hold (C127). -/

set_option linter.unusedSimpArgs false
set_option linter.unusedSectionVars false

namespace GoMetrics.Ledger
open Spec

variable {F : Type} [GoFloat F] [GoSqrt F] [GoExp F]

/-- Who is part of something else is a sample, a histogram or a meter. -/
theorem part_ty {w : World F} (hw : w.Ok) {x y : Ref} (hp : partOf w x y) (hne : x ≠ y) {o : Obj F} (ho : w.objs y = some o) : o.ty = .sample ∨ o.ty = .hist ∨ o.ty = .meter := by
  have ty : ∀ t, HasTy w y t → o.ty = t := by
    rintro t ⟨o', h1, h2⟩
    rw [ho] at h1; cases h1; exact h2
  have hist : ∀ r, histSample w r = some y → o.ty = .sample := by
    intro r hr
    rcases hx : w.objs r with _ | z
    · simp [histSample, hx] at hr
    · cases z with
      | hist z =>
        cases z with
        | std t => obtain rfl : t = y := by simpa [histSample, hx] using hr
                   exact ty _ (hw.refs r _ hx)
        | snap t =>
          obtain rfl : t = y := by simpa [histSample, hx] using hr
          obtain ⟨n, a, h⟩ := hw.refs r _ hx
          exact ty _ ⟨_, h, rfl⟩
        | nil => simp [histSample, hx] at hr
      | _ => simp [histSample, hx] at hr
  rcases hp with rfl | hp | hp
  · exact absurd rfl hne
  · exact .inl (hist x hp)
  · rcases hx : w.objs x with _ | z
    · simp [hx] at hp
    · cases z with
      | timer z =>
        cases z with
        | std a m =>
          simp only [hx] at hp
          rcases hp with rfl | rfl | hp
          · exact .inr (.inl (ty _ (hw.refs x _ hx).1))
          · exact .inr (.inr (ty _ (hw.refs x _ hx).2))
          · exact .inl (hist a hp)
        | snap a m =>
          obtain ⟨⟨n, h1⟩, j, h2⟩ := hw.refs x _ hx
          simp only [hx] at hp
          rcases hp with rfl | rfl | hp
          · exact .inr (.inl (ty _ ⟨_, h1, rfl⟩))
          · exact .inr (.inr (ty _ ⟨_, h2, rfl⟩))
          · exact .inl (hist a hp)
        | nil => simp [hx] at hp
      | _ => simp [hx] at hp

/-- A counter or gauge is changed by its own methods only. -/
theorem same_of_other {w : World F} (hw : w.Ok) {y : Ref} {z : Obj F} (ho : w.objs y = some z) (hty : z.ty = .counter ∨ z.ty = .gauge ∨ z.ty = .gaugeF) (env : Env F) (o : Op F)
    (hn : ∀ c, o ≠ .call y c) : (step env o w).1.objs y = some z := by
  rcases step_objs w hw env o y (hw.lt ho) with h1 | ⟨x, c, rfl, h1⟩ | ⟨-, m, h1, -⟩ | ⟨-, m, h1, -⟩ | ⟨b, m, d, -, h1, -⟩
  · rw [h1, ho]
  · have hne : x ≠ y := by rintro rfl; exact hn c rfl
    have := part_ty hw h1 hne ho
    rcases hty with h | h | h <;> rw [h] at this <;> simp at this
  all_goals rw [ho] at h1; cases h1; simp [Obj.ty] at hty

/-- The object made by the operation is the one made by the constructor. -/
theorem creates_objs {w : World F} {env : Env F} {o : Op F} {c : NewOp F} {r : Ref} (h : Creates w env o c r) : (step env o w).1.objs r = (construct env c w).1.objs r := by
  obtain ⟨y, hy, -⟩ := h.after
  have h0 := h.before
  rcases h.ctor with rfl | ⟨g, name, rfl⟩
  · rw [step_new_fst]
  · rw [step_reg_fst, (regCall_prefix env g).2.1 name _] at hy ⊢
    cases hb : base g with
    | none => rw [hb] at hy; exact absurd (h0.symm.trans (show w.objs r = some y from hy)) (by simp)
    | some id =>
      rw [hb] at hy
      simp only [regCall] at hy ⊢
      rcases getOrRegister_objs env id (fullName g name) (.ctor c) w with h1 | ⟨c', hc', h1⟩
      · rw [h1, h0] at hy; simp at hy
      · cases hc'
        rw [h1]

theorem alloc_new {o y : Obj F} {w : World F} {r : Ref} (h0 : w.objs r = none) (h : (alloc o w).1.objs r = some y) : o = y := by
  rw [act_alloc] at h
  by_cases hs : r = w.nextObj
  · subst hs; simpa using h
  · simp only [Function.update_of_ne hs, h0] at h; simp at h

/-! ### Counters -/

theorem counter_new {w : World F} {env : Env F} {o : Op F} {r : Ref} (h : Creates w env o .counter r) : (step env o w).1.objs r = some (.counter (.std ⟨0⟩)) := by
  obtain ⟨y, hy, hs⟩ := h.after
  rw [hy]
  rw [creates_objs h] at hy
  have := alloc_new h.before hy
  unfold Counter.new at this
  split at this
  · rw [← this] at hs; simp [isStub] at hs
  · rw [this]

theorem counter_step {w : World F} (hw : w.Ok) {r : Ref} {n : Int} (h : w.objs r = some (.counter (.std ⟨Int64.ofInt n⟩))) (env : Env F) (o : Op F) :
    (step env o w).1.objs r = some (.counter (.std ⟨Int64.ofInt (tallyAfter r n o)⟩)) := by
  by_cases hc : ∃ c, o = .call r c
  · obtain ⟨c, rfl⟩ := hc
    rw [step_call_fst, call_obj h]
    have hne : r ≠ w.nextObj := Nat.ne_of_lt (hw.lt h)
    cases c with
    | inc i => simp [objCall, counterCall, act_bind, act_setObj, act_lift, Counter.inc, StandardCounter.inc, tallyAfter, Int64.ofInt_add, act_pure]
    | dec i => simp [objCall, counterCall, act_bind, act_setObj, act_lift, Counter.dec, StandardCounter.dec, tallyAfter, Int64.ofInt_sub, Int64.sub_eq_add_neg, act_pure]
    | clear => simp [objCall, counterCall, act_bind, act_setObj, act_lift, Counter.clear, StandardCounter.clear, tallyAfter, act_pure]
    | snapshot =>
      show Function.update w.objs w.nextObj _ r = _
      rw [Function.update_of_ne hne]
      exact h
    | _ => exact h
  · rw [same_of_other hw h (.inl rfl) env o fun c e => hc ⟨c, e⟩]
    have : tallyAfter r n o = n := by
      cases o with
      | call x c =>
        have hx : x ≠ r := by rintro rfl; exact hc ⟨c, rfl⟩
        cases c <;> simp [tallyAfter, hx]
      | _ => rfl
    rw [this]

theorem counter_run {w : World F} (hw : w.Ok) {r : Ref} {n : Int} (h : w.objs r = some (.counter (.std ⟨Int64.ofInt n⟩))) (l : List (Env F × Op F)) :
    (w.run l).objs r = some (.counter (.std ⟨Int64.ofInt (l.foldl (fun n e => tallyAfter r n e.2) n)⟩)) := by
  induction l generalizing w n with
  | nil => exact h
  | cons e l ih => exact ih (hw.step e.1 e.2).1 (counter_step hw h e.1 e.2)

/-! ### Gauges -/

theorem gauge_new {w : World F} {env : Env F} {o : Op F} {r : Ref} (h : Creates w env o .gauge r) : (step env o w).1.objs r = some (.gauge (.std 0)) := by
  obtain ⟨y, hy, hs⟩ := h.after
  rw [hy]
  rw [creates_objs h] at hy
  have := alloc_new h.before hy
  unfold Gauge.new at this
  split at this
  · rw [← this] at hs; simp [isStub] at hs
  · rw [this]

theorem gauge_step {w : World F} (hw : w.Ok) {r : Ref} {v : Int64} (h : w.objs r = some (.gauge (.std v))) (env : Env F) (o : Op F) :
    (step env o w).1.objs r = some (.gauge (.std (setAfter r v o))) := by
  by_cases hc : ∃ c, o = .call r c
  · obtain ⟨c, rfl⟩ := hc
    rw [step_call_fst, call_obj h]
    have hne : r ≠ w.nextObj := Nat.ne_of_lt (hw.lt h)
    cases c with
    | update i => simp [objCall, gaugeCall, act_bind, act_setObj, act_lift, Gauge.update, setAfter, act_pure]
    | snapshot =>
      show Function.update w.objs w.nextObj _ r = _
      rw [Function.update_of_ne hne]
      exact h
    | _ => exact h
  · rw [same_of_other hw h (.inr (.inl rfl)) env o fun c e => hc ⟨c, e⟩]
    have : setAfter r v o = v := by
      cases o with
      | call x c =>
        have hx : x ≠ r := by rintro rfl; exact hc ⟨c, rfl⟩
        cases c <;> simp [setAfter, hx]
      | _ => rfl
    rw [this]

theorem gauge_run {w : World F} (hw : w.Ok) {r : Ref} {v : Int64} (h : w.objs r = some (.gauge (.std v))) (l : List (Env F × Op F)) :
    (w.run l).objs r = some (.gauge (.std (l.foldl (fun n e => setAfter r n e.2) v))) := by
  induction l generalizing w v with
  | nil => exact h
  | cons e l ih => exact ih (hw.step e.1 e.2).1 (gauge_step hw h e.1 e.2)

theorem gaugeF_new {w : World F} {env : Env F} {o : Op F} {r : Ref} (h : Creates w env o .gaugeF r) : (step env o w).1.objs r = some (.gaugeF (.std 0)) := by
  obtain ⟨y, hy, hs⟩ := h.after
  rw [hy]
  rw [creates_objs h] at hy
  have := alloc_new h.before hy
  unfold GaugeF.new at this
  split at this
  · rw [← this] at hs; simp [isStub] at hs
  · rw [this]

theorem gaugeF_step {w : World F} (hw : w.Ok) {r : Ref} {v : FloatBits} (h : w.objs r = some (.gaugeF (.std v))) (env : Env F) (o : Op F) :
    (step env o w).1.objs r = some (.gaugeF (.std (bitsAfter r v o))) := by
  by_cases hc : ∃ c, o = .call r c
  · obtain ⟨c, rfl⟩ := hc
    rw [step_call_fst, call_obj h]
    have hne : r ≠ w.nextObj := Nat.ne_of_lt (hw.lt h)
    cases c with
    | updateF i => simp [objCall, gaugeFCall, act_bind, act_setObj, act_lift, GaugeF.update, bitsAfter, act_pure]
    | snapshot =>
      show Function.update w.objs w.nextObj _ r = _
      rw [Function.update_of_ne hne]
      exact h
    | _ => exact h
  · rw [same_of_other hw h (.inr (.inr rfl)) env o fun c e => hc ⟨c, e⟩]
    have : bitsAfter r v o = v := by
      cases o with
      | call x c =>
        have hx : x ≠ r := by rintro rfl; exact hc ⟨c, rfl⟩
        cases c <;> simp [bitsAfter, hx]
      | _ => rfl
    rw [this]

theorem gaugeF_run {w : World F} (hw : w.Ok) {r : Ref} {v : FloatBits} (h : w.objs r = some (.gaugeF (.std v))) (l : List (Env F × Op F)) :
    (w.run l).objs r = some (.gaugeF (.std (l.foldl (fun n e => bitsAfter r n e.2) v))) := by
  induction l generalizing w v with
  | nil => exact h
  | cons e l ih => exact ih (hw.step e.1 e.2).1 (gaugeF_step hw h e.1 e.2)

/-! ### Meters -/

/-- The meter is alive and has counted `n`. -/
def Counts (n : Int) (o : Option (Obj F)) : Prop := ∃ s : StandardMeter F, o = some (.meter (.std s)) ∧ s.stopped = false ∧ s.snapshot.count = Int64.ofInt n

theorem meter_new {w : World F} {env : Env F} {c : NewOp F} {m : Ref} {s : StandardMeter F} (hc : c = .meter ∨ c = .timer) (h0 : w.objs m = none) (h : (construct env c w).1.objs m = some (.meter (.std s))) :
    s = StandardMeter.new env.now := by
  have one : ∀ {o : Obj F}, (alloc o w).1.objs m = some (.meter (.std s)) → o = .meter (.std s) := fun h => alloc_new h0 h
  cases c with
  | meter =>
    simp only [construct, newMeter] at h
    split at h
    · simpa using one h
    · simp only [act_bind, act_alloc, arbiterAdd, act_pure] at h
      have := one h
      simpa using this.symm
  | timer =>
    obtain ⟨e, he, -⟩ := ExpDecaySample.new_shape (F := F) 1028 (GoFloat.lit (15 / 1000)) env.now
    have he' : ExpDecaySample.new (1028 : Int) (GoFloat.lit (15 / 1000) : F) env.now = .ok e := he
    cases hn : w.useNil with
    | true =>
      simp only [construct, hn, if_true] at h
      simpa using one h
    | false =>
      simp only [construct, hn, newExp, newHist, newMeter, newTimer, arbiterAdd, act_bind, act_lift, act_alloc, act_pure, he', Bool.false_eq_true, if_false, Function.update_self,
        Function.update_of_ne (Nat.succ_ne_self (w.nextObj + 1)).symm] at h
      simp [Function.update_apply] at h
      split_ifs at h <;> simp_all
  | _ => simp at hc

theorem Counts.mark {n : Int} {s : StandardMeter F} (h1 : s.stopped = false) (h2 : s.snapshot.count = Int64.ofInt n) (k : Int64) (now : Instant) :
    Counts (n + k.toInt) (some (.meter (.std (s.mark k now)) : Obj F)) := by
  refine ⟨_, rfl, ?_, ?_⟩
  · simp [StandardMeter.mark, h1, StandardMeter.updateSnapshot]
  · simp [StandardMeter.mark, h1, StandardMeter.updateSnapshot, h2, Int64.ofInt_add]

theorem callMeter_obj {w : World F} {m : Ref} {y : Meter F} (h : w.objs m = some (.meter y)) (env : Env F) (c : Call F) : callMeter env m c w = meterCall env m y c w := by
  rw [callMeter, act_bind_getObj, h]

/-- A call of the histogram of a timer does not change the meter. -/
theorem hist_same {w : World F} (hw : w.Ok) {m h : Ref} {y : Meter F} (hm : w.objs m = some (.meter y)) (env : Env F) (c : Call F) : (callHist env h c w).1.objs m = w.objs m := by
  refine (callHist_keeps (closed_sameObjs (fun s => histSample w h = some s)) env h c w fun s hs => hs).2 m (hw.lt hm) fun hp => ?_
  have := part_ty hw (x := h) (y := m) (.inr (.inl hp)) (by rintro rfl; simp [histSample, hm] at hp) hm
  rcases ho : w.objs h with _ | o
  · simp [histSample, ho] at hp
  · cases o with
    | hist z =>
      cases z with
      | std t =>
        obtain rfl : t = m := by simpa [histSample, ho] using hp
        obtain ⟨o, h1, h2⟩ := hw.refs h _ ho
        rw [hm] at h1; cases h1; simp [Obj.ty] at h2
      | snap t =>
        obtain rfl : t = m := by simpa [histSample, ho] using hp
        obtain ⟨n, a, h1⟩ := hw.refs h _ ho
        rw [hm] at h1; simp at h1
      | nil => simp [histSample, ho] at hp
    | _ => simp [histSample, ho] at hp

/-- One call of the meter itself. -/
theorem own_counts {n : Int} {w : World F} (hw : w.Ok) {m : Ref} (h : Counts n (w.objs m)) (env : Env F) (c : Call F) (hs : c ≠ .stop) :
    Counts (n + marked w m env (.call m c)) ((call env m c w).1.objs m) := by
  obtain ⟨s, ho, h1, h2⟩ := h
  have hne : m ≠ w.nextObj := Nat.ne_of_lt (hw.lt ho)
  have same : Counts (n + 0) (w.objs m) := ⟨s, ho, h1, by simpa using h2⟩
  have ht : timesWith w m m = false := by simp [timesWith, ho]
  rw [call_obj ho]
  cases c with
  | mark k =>
    simp only [marked, if_true]
    have := Counts.mark h1 h2 k env.now
    simp [objCall, meterCall, act_bind, act_setObj, act_lift, act_pure, Meter.mark]
    exact this
  | stop => exact absurd rfl hs
  | snapshot =>
    show Counts (n + 0) (Function.update w.objs w.nextObj _ m)
    rw [Function.update_of_ne hne]
    exact same
  | updateD d => simp only [marked, ht]; exact same
  | updateSince d => simp only [marked, ht]; exact same
  | _ => exact same

/-- One call of a timer with the meter. -/
theorem timer_counts {n : Int} {w : World F} (hw : w.Ok) {m x : Ref} (hxm : x ≠ m) (h : Counts n (w.objs m)) {a : Ref} (hx : w.objs x = some (.timer (.std a m))) (env : Env F) (c : Call F)
    (hs : c ≠ .stop) : Counts (n + marked w m env (.call x c)) ((call env x c w).1.objs m) := by
  obtain ⟨s, ho, h1, h2⟩ := h
  have same : Counts (n + 0) (w.objs m) := ⟨s, ho, h1, by simpa using h2⟩
  have ht : timesWith w x m = true := by simp [timesWith, hx]
  have upd : ∀ (c : Call F) (v : Int64), call env x c w = (callHist env a (.update v) >>= fun _ => callMeter env m (.mark 1) : Act F (Out F)) w →
      Counts (n + if timesWith w x m && (step env (.call x c) w).2.isOk then 1 else 0) ((call env x c w).1.objs m) := by
    intro c v e
    have e2 : (step env (.call x c) w).2.isOk = (call env x c w).2.isOk := by
      show ((call env x c >>= fun o => pure (OpOut.out o)) w).2.isOk = _
      rw [act_bind]
      rcases call env x c w with ⟨w', _ | a⟩ <;> rfl
    have h3 := hist_same (h := a) hw ho env (.update v)
    rw [e2, e, ht, act_bind]
    generalize callHist env a (.update v) w = z at h3
    obtain ⟨w', p | r⟩ := z
    · simp only at h3 ⊢
      rw [h3]
      exact same
    · have key : ∃ w2 out, callMeter env m (.mark 1) w' = (w2, .ok out) ∧ Counts (n + 1) (w2.objs m) := by
        rw [callMeter_obj (h3.trans ho)]
        refine ⟨_, _, rfl, ?_⟩
        have := Counts.mark h1 h2 1 env.now
        simp [act_setObj]
        exact this
      obtain ⟨w2, out, e3, h4⟩ := key
      simp only [e3]
      exact h4
  by_cases hc : c = .snapshot
  · subst hc
    rw [(Renumber.snap_ext hw env x).objs m (hw.lt ho)]
    exact same
  cases c with
  | updateD d => exact upd _ d (by rw [call_obj hx]; rfl)
  | updateSince d => exact upd _ _ (by rw [call_obj hx]; rfl)
  | count => rw [call_obj hx]; show Counts (n + 0) ((callHist env a .count w).1.objs m); rw [hist_same hw ho]; exact same
  | stat c => rw [call_obj hx]; show Counts (n + 0) ((callHist env a (.stat c) w).1.objs m); rw [hist_same hw ho]; exact same
  | rates c => rw [call_obj hx]; show Counts (n + 0) ((callMeter env m (.rates c) w).1.objs m); rw [callMeter_obj ho]; exact same
  | stop => exact absurd rfl hs
  | snapshot => exact absurd rfl hc
  | mark k => rw [call_obj hx]; simp only [marked, if_neg hxm]; exact same
  | _ => rw [call_obj hx]; exact same

/-- Who has the meter as a part is a timer that marks with it. -/
theorem part_times {w : World F} (hw : w.Ok) {x m : Ref} (hne : x ≠ m) {s : StandardMeter F} (hm : w.objs m = some (.meter (.std s))) (hp : partOf w x m) : ∃ a, w.objs x = some (.timer (.std a m)) := by
  have hist : ∀ r, histSample w r = some m → False := by
    intro r hr
    rcases ho : w.objs r with _ | o
    · simp [histSample, ho] at hr
    · cases o with
      | hist z =>
        cases z with
        | std t =>
          obtain rfl : t = m := by simpa [histSample, ho] using hr
          obtain ⟨o, h1, h2⟩ := hw.refs r _ ho
          rw [hm] at h1; cases h1; simp [Obj.ty] at h2
        | snap t =>
          obtain rfl : t = m := by simpa [histSample, ho] using hr
          obtain ⟨n, a, h1⟩ := hw.refs r _ ho
          rw [hm] at h1; simp at h1
        | nil => simp [histSample, ho] at hr
      | _ => simp [histSample, ho] at hr
  rcases hp with rfl | hp | hp
  · exact absurd rfl hne
  · exact (hist x hp).elim
  · rcases hx : w.objs x with _ | z
    · simp [hx] at hp
    · cases z with
      | timer z =>
        cases z with
        | std a b =>
          simp only [hx] at hp
          rcases hp with rfl | rfl | hp
          · obtain ⟨o, h1, h2⟩ := (hw.refs x _ hx).1
            rw [hm] at h1; cases h1; simp [Obj.ty] at h2
          · exact ⟨a, rfl⟩
          · exact (hist a hp).elim
        | snap a b =>
          obtain ⟨⟨n, h1⟩, j, h2⟩ := hw.refs x _ hx
          simp only [hx] at hp
          rcases hp with rfl | rfl | hp
          · rw [hm] at h1; simp at h1
          · rw [hm] at h2; simp at h2
          · exact (hist a hp).elim
        | nil => simp [hx] at hp
      | _ => simp [hx] at hp

theorem meter_step {n : Int} {w : World F} (hw : w.Ok) {m : Ref} (h : Counts n (w.objs m)) (env : Env F) (o : Op F) (hs : ¬ stops w o m) :
    Counts (n + marked w m env o) ((step env o w).1.objs m) := by
  by_cases hown : ∃ c, o = .call m c
  · obtain ⟨c, rfl⟩ := hown
    rw [step_call_fst]
    exact own_counts hw h env c (by rintro rfl; exact hs (.inl rfl))
  by_cases ht : ∃ x c a, o = .call x c ∧ w.objs x = some (.timer (.std a m))
  · obtain ⟨x, c, a, rfl, hx⟩ := ht
    rw [step_call_fst]
    exact timer_counts hw (by rintro rfl; exact hown ⟨c, rfl⟩) h hx env c (by rintro rfl; exact hs (.inr ⟨a, hx⟩))
  have h0 : marked w m env o = 0 := by
    cases o with
    | call x c =>
      have hx : x ≠ m := by rintro rfl; exact hown ⟨c, rfl⟩
      have hf : timesWith w x m = false := by
        unfold timesWith
        split
        · next a b e => exact decide_eq_false fun hb => ht ⟨x, c, a, rfl, hb ▸ e⟩
        · rfl
      cases c <;> simp [marked, hx, hf]
    | _ => rfl
  rw [h0, add_zero]
  obtain ⟨s, ho, h1, h2⟩ := h
  rcases step_objs w hw env o m (hw.lt ho) with e | ⟨x, c, rfl, e⟩ | ⟨rfl, j, e, -, e'⟩ | ⟨e, -⟩ | ⟨b, j, d, -, e, -⟩
  · rw [e]; exact ⟨s, ho, h1, h2⟩
  · obtain ⟨a, hx⟩ := part_times hw (by rintro rfl; exact hown ⟨c, rfl⟩) ho e
    exact absurd ⟨x, c, a, rfl, hx⟩ ht
  · rw [ho] at e; cases e
    rw [e']
    exact ⟨_, rfl, h1, h2⟩
  · exact absurd e hs
  · rw [ho] at e; simp at e

theorem meter_run {n : Int} {w : World F} (hw : w.Ok) {m : Ref} (h : Counts n (w.objs m)) (l : List (Env F × Op F)) (hs : unstopped w m l) :
    Counts (n + marks w m l) ((w.run l).objs m) := by
  induction l generalizing w n with
  | nil => exact (add_zero n).symm ▸ h
  | cons e l ih =>
    have := ih (hw.step e.1 e.2).1 (meter_step hw h e.1 e.2 hs.1) hs.2
    rw [add_assoc] at this
    exact this

theorem meter_not_snap {w : World F} {env : Env F} {c : NewOp F} {m : Ref} {s : MeterSnapshot F} (hc : c = .meter ∨ c = .timer) (h0 : w.objs m = none) :
    (construct env c w).1.objs m ≠ some (.meter (.snap s)) := by
  intro h
  have one : ∀ {o : Obj F}, (alloc o w).1.objs m = some (.meter (.snap s)) → o = .meter (.snap s) := fun h => alloc_new h0 h
  rcases hc with rfl | rfl
  · simp only [construct, newMeter] at h
    split at h
    · simpa using one h
    · simp only [act_bind, act_alloc, arbiterAdd, act_pure] at h
      simpa using one h
  · obtain ⟨e, he, -⟩ := ExpDecaySample.new_shape (F := F) 1028 (GoFloat.lit (15 / 1000)) env.now
    have he' : ExpDecaySample.new (1028 : Int) (GoFloat.lit (15 / 1000) : F) env.now = .ok e := he
    cases hn : w.useNil with
    | true =>
      simp only [construct, hn, if_true] at h
      simpa using one h
    | false =>
      simp only [construct, hn, newExp, newHist, newMeter, newTimer, arbiterAdd, act_bind, act_lift, act_alloc, act_pure, he', Bool.false_eq_true, if_false, Function.update_self,
        Function.update_of_ne (Nat.succ_ne_self (w.nextObj + 1)).symm] at h
      simp [Function.update_apply] at h
      split_ifs at h <;> simp_all

/-- The operation that stops the meter leaves its count. -/
theorem stop_keeps {w : World F} (hw : w.Ok) {m : Ref} {s : StandardMeter F} (hm : w.objs m = some (.meter (.std s))) (env : Env F) (o : Op F) (hs : stops w o m) (hd : ¬ live (step env o w).1 m) :
    ∃ s' : StandardMeter F, (step env o w).1.objs m = some (.meter (.std s')) ∧ s'.stopped = true ∧ s'.snapshot.count = s.snapshot.count := by
  cases h1 : s.stopped with
  | true => exact ⟨s, (hw.step env o).2.frozen m _ hm (by simp [Obj.live, h1]), h1, rfl⟩
  | false =>
    have one : (callMeter env m .stop w).1.objs m = some (.meter (.std s.stop)) := by
      rw [callMeter_obj hm]
      simp [meterCall, h1, act_bind, act_setObj, arbiterDelete, act_pure]
    rcases step_objs w hw env o m (hw.lt hm) with e | ⟨x, c, rfl, -⟩ | ⟨rfl, -⟩ | ⟨-, j, e, -, e'⟩ | ⟨b, j, d, -, e, -⟩
    · exact absurd ⟨s, e.trans hm, h1⟩ hd
    · cases c with
      | stop =>
        rw [step_call_fst]
        rcases hs with rfl | ⟨a, hx⟩
        · rw [call_obj hm, show objCall env x (.meter (.std s)) .stop w = callMeter env x .stop w from (callMeter_obj hm env .stop).symm, one]
          exact ⟨_, rfl, rfl, rfl⟩
        · rw [call_obj hx, show objCall env x (.timer (.std a m)) .stop w = callMeter env m .stop w from rfl, one]
          exact ⟨_, rfl, rfl, rfl⟩
      | _ => simp [stops] at hs
    · simp [stops] at hs
    · rw [hm] at e; cases e
      exact ⟨_, e', rfl, rfl⟩
    · rw [hm] at e; simp at e

/-- The values behind a histogram or timer that records in the sample. -/
theorem records_recorded {w : World F} {s x : Ref} {y : SampleV F} {k : Nat} {g : List Int64} (hy : w.objs s = some (.sample y)) (hh : Recorded.Holds k g (w.objs s)) (hx : recordsIn w x = some s)
    (hne : x ≠ s) : recorded w x = some (sampleVals w y) := by
  have hs : sampleRecorded w s = some (sampleVals w y) := by
    rcases hh with ⟨u, h1, -⟩ | ⟨e, h1, -⟩ <;> rw [hy] at h1 <;> cases h1 <;> simp [sampleRecorded, hy, sampleVals]
  rcases hr : w.objs x with _ | o
  · simp [recordsIn, hr] at hx
  · cases o with
    | sample z => exact absurd (by simpa [recordsIn, hr] using hx) hne
    | hist z =>
      cases z with
      | std t =>
        obtain rfl : t = s := by simpa [recordsIn, hr] using hx
        simp [recorded, histRecorded, hr, hs]
      | _ => simp [recordsIn, hr] at hx
    | timer z =>
      cases z with
      | std a m =>
        have ha : w.objs a = some (.hist (.std s)) := by
          simp only [recordsIn, hr] at hx
          split at hx
          · simp_all
          · simp at hx
        simp [recorded, histRecorded, hr, ha, hs]
      | _ => simp [recordsIn, hr] at hx
    | _ => simp [recordsIn, hr] at hx

end GoMetrics.Ledger
