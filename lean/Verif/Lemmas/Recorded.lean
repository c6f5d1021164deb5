import Verif.Spec.Recorded
import Verif.Lemmas.Uniform
import Verif.Lemmas.ExpDecay
import Verif.Lemmas.WorldEffect
import Verif.Lemmas.WorldHist
import Verif.Lemmas.Observer

/-! The values recorded in a sample, and the values it holds (C126). -/

set_option linter.unusedSimpArgs false
set_option linter.unnecessarySeqFocus false
set_option linter.unusedSectionVars false
set_option linter.unnecessarySimpa false

namespace GoMetrics.Recorded
open Spec

variable {F : Type} [GoFloat F] [GoSqrt F] [GoExp F]

/-! ### One sample -/

/-- What holds of a decaying sample of size `k` after the values `g` were given. -/
structure EInv (k : Nat) (g : List Int64) (s : ExpDecaySample F) : Prop where
  shape : ExpDecaySample.Shape k s
  count : s.count.toInt = wrap64 g.length
  len : s.vals.length = min g.length k
  sub : s.vals.Subperm g

theorem exp_update {k : Nat} (hk : 0 < k) {g : List Int64} {s : ExpDecaySample F} (h : EInv k g s) (t : Instant) (v : Int64) (u : F) :
    ∃ s', s.update t v u = .ok s' ∧ EInv k (g ++ [v]) s' := by
  obtain ⟨s', dropped, kept, e, hsh, hcnt, _, _, _, p1, l1, p2, _⟩ := ExpDecaySample.update_spec k hk s h.shape t v u
  have hvals : s'.vals.Perm (v :: kept.map Item.v) := by
    have := p2.map Item.v
    rw [List.map_map] at this
    have hf : (Item.v ∘ s.rescaled t) = Item.v := by funext x; exact ExpDecaySample.rescaled_v s t x
    rw [hf] at this
    exact this
  have hkept : (kept.map Item.v).Subperm g := by
    refine List.Subperm.trans ?_ h.sub
    have : (kept.map Item.v).Subperm ((dropped ++ kept).map Item.v) := by
      rw [List.map_append]; exact (List.sublist_append_right _ _).subperm
    exact this.trans (p1.map _).subperm
  refine ⟨s', e, hsh, ?_, ?_, ?_⟩
  · rw [hcnt]; simpa using count_succ h.count
  · have h3 := p1.length_eq
    have h4 := hvals.length_eq
    have h5 : s.vals.length = s.values.s.length := by simp [ExpDecaySample.vals]
    have h6 := h.len
    simp at h3 h4
    rw [h4, List.length_append, List.length_singleton]
    split at l1 <;> omega
  · refine hvals.subperm.trans (List.Subperm.trans ((List.subperm_cons v).2 hkept) ?_)
    exact (List.perm_append_singleton v _).symm.subperm

theorem exp_clear {k : Nat} {g : List Int64} {s : ExpDecaySample F} (h : EInv k g s) (now : Instant) : EInv k [] (s.clear now) := by
  refine ⟨⟨h.shape.size, ?_⟩, (by decide : (0 : Int64).toInt = wrap64 0), by simp [ExpDecaySample.clear, ExpDecaySample.vals, Heap.clear], by simp [ExpDecaySample.clear, ExpDecaySample.vals, Heap.clear]⟩
  have := h.shape.cap
  simp [ExpDecaySample.clear, Heap.clear] at *
  omega

/-- An update of a uniform sample that panics has been counted. -/
theorem uniform_panic {k : Nat} {g : List Int64} {s : UniformSample} (h : UInv k g s) (v : Int64) {r : Nat} {p : Panic} (hu : s.update v r = .error p) :
    UInv k (g ++ [v]) { s with count := s.count + 1 } := by
  have hfull : ¬ (s.values.length : Int) < s.reservoirSize := by
    intro hl
    unfold UniformSample.update at hu
    simp only at hu
    rw [if_pos hl] at hu
    cases hu
  have := h.len
  have := h.size
  refine ⟨h.size, by simpa using count_succ h.count, ?_, h.sub.trans (List.sublist_append_left g [v]).subperm⟩
  simp
  omega

/-- The sample `o` has been given the values `g`. -/
def Holds (k : Nat) (g : List Int64) (o : Option (Obj F)) : Prop :=
  (∃ u, o = some (.sample (.uniform u)) ∧ UInv k g u) ∨ ∃ e, o = some (.sample (.exp e)) ∧ EInv k g e

/-- The same for a call of the sample itself. -/
def given : Call F → List Int64 → List Int64
  | .update v, g => g ++ [v]
  | .clear, _ => []
  | _, g => g

theorem sample_holds {k : Nat} (hk : 0 < k) {g : List Int64} {w : World F} {s : Ref} (hl : s < w.nextObj) (h : Holds k g (w.objs s)) (env : Env F) (c : Call F) :
    Holds k (given c g) ((callSample env s c w).1.objs s) := by
  have hne : s ≠ w.nextObj := Nat.ne_of_lt hl
  rcases h with ⟨u, hs, hi⟩ | ⟨e, hs, hi⟩
  · rw [callSample, act_bind_getObj, hs]
    simp only
    have same : Holds k g (w.objs s) := .inl ⟨u, hs, hi⟩
    cases c with
    | clear => exact .inl ⟨_, Function.update_self .., clear_inv hi⟩
    | update v =>
      simp only [sampleCall, act_bind, act_setObj, act_lift, given]
      rcases hu : u.update v env.int63 with p | u'
      · exact .inl ⟨_, Function.update_self .., uniform_panic hi v hu⟩
      · exact .inl ⟨_, Function.update_self .., update_inv hi v _ hu⟩
    | stat c =>
      simp only [sampleCall, given]
      cases hcs : c.sorts
      · exact same
      · exact .inl ⟨_, Function.update_self .., percentiles_inv hi ([] : List F)⟩
    | snapshot =>
      show Holds k g (Function.update w.objs w.nextObj _ s)
      rw [Function.update_of_ne hne]
      exact same
    | _ => exact same
  · rw [callSample, act_bind_getObj, hs]
    simp only
    have same : Holds k g (w.objs s) := .inr ⟨e, hs, hi⟩
    cases c with
    | clear => exact .inr ⟨_, Function.update_self .., exp_clear hi _⟩
    | update v =>
      simp only [sampleCall, act_bind, act_setObj, act_lift, given]
      obtain ⟨e', he, hi'⟩ := exp_update hk hi env.now v env.float64
      rw [he]
      exact .inr ⟨_, Function.update_self .., hi'⟩
    | snapshot =>
      show Holds k g (Function.update w.objs w.nextObj _ s)
      rw [Function.update_of_ne hne]
      exact same
    | _ => exact same

theorem Holds.sample {k : Nat} {g : List Int64} {o : Option (Obj F)} (h : Holds k g o) : ∃ y, o = some (.sample y) ∧ (∀ n a, y ≠ .snap n a) := by
  rcases h with ⟨u, hs, -⟩ | ⟨e, hs, -⟩
  · exact ⟨_, hs, by simp⟩
  · exact ⟨_, hs, by simp⟩

/-! ### Histograms and timers -/

/-- A call of a histogram over the sample, other than `Snapshot()`. -/
theorem hist_holds {k : Nat} (hk : 0 < k) {g : List Int64} {w : World F} {s r : Ref} (hl : s < w.nextObj) (h : Holds k g (w.objs s)) (env : Env F) (c : Call F) (hc : c ≠ .snapshot) :
    Holds k (given c g) ((histCall env r (.std s) c w).1.objs s) := by
  have key := fun c => sample_holds hk hl h env c
  cases c with
  | clear => exact key .clear
  | update v => exact key (.update v)
  | stat c => exact key (.stat c)
  | count => exact key .count
  | snapshot => exact absurd rfl hc
  | _ => exact h

theorem meter_same (env : Env F) (m : Ref) (c : Call F) (w : World F) {s : Ref} (hl : s < w.nextObj) (hs : s ≠ m) : (callMeter env m c w).1.objs s = w.objs s :=
  (callMeter_keeps (closed_sameObjs (· = m)) env m rfl c w).2 s hl hs

/-- One call of a method of an object that records in `s`. -/
theorem call_holds {k : Nat} (hk : 0 < k) {g : List Int64} {w : World F} (hw : w.Ok) {s x : Ref} (h : Holds k g (w.objs s)) (env : Env F) (c : Call F) (hx : recordsIn w x = some s) :
    Holds k (entry env (w.objs x) c g) ((call env x c w).1.objs s) := by
  obtain ⟨y, hy, hsn⟩ := h.sample
  have hl := hw.lt hy
  by_cases hc : c = .snapshot
  · subst hc
    rw [(Renumber.snap_ext hw env x).objs s hl]
    have : entry env (w.objs x) .snapshot g = g := by unfold entry; split <;> simp_all
    rw [this]
    exact h
  rcases hr : w.objs x with _ | o
  · simp [recordsIn, hr] at hx
  · cases o with
    | sample z =>
      obtain rfl : x = s := by simpa [recordsIn, hr] using hx
      rw [← callSample_eq ⟨_, hr, rfl⟩]
      have := sample_holds hk hl h env c
      cases c <;> exact this
    | hist z =>
      cases z with
      | std t =>
        obtain rfl : t = s := by simpa [recordsIn, hr] using hx
        rw [call_obj hr]
        have := hist_holds (r := x) hk hl h env c hc
        cases c <;> exact this
      | _ => simp [recordsIn, hr] at hx
    | timer z =>
      cases z with
      | std a m =>
        have ha : w.objs a = some (.hist (.std s)) := by
          simp only [recordsIn, hr] at hx
          split at hx
          · simp_all
          · simp at hx
        have hm : HasTy w m .meter := (hw.refs _ _ hr).2
        have hsm : s ≠ m := by
          rintro rfl
          obtain ⟨o, h1, h2⟩ := hm
          rw [hy] at h1; cases h1; simp [Obj.ty] at h2
        have e1 : ∀ c, callHist env a c w = histCall env a (.std s) c w := by
          intro c
          rw [callHist, act_bind_getObj, ha]
        have upd : ∀ v, Holds k (g ++ [v]) (((callHist env a (.update v) >>= fun _ => callMeter env m (.mark 1) : Act F (Out F)) w).1.objs s) := by
          intro v
          have h1 := hist_holds (r := a) hk hl h env (.update v) (by simp)
          have hle := (call_objs env a (.update v) w).1
          rw [← callHist_eq ⟨_, ha, rfl⟩, e1] at hle
          rw [act_bind, e1]
          generalize histCall env a (.std s) (.update v) w = z at h1 hle
          obtain ⟨w', _ | o⟩ := z
          · exact h1
          · simp only at h1 hle ⊢
            rw [meter_same env m _ w' (lt_of_lt_of_le hl hle) hsm]
            exact h1
        rw [call_obj hr]
        cases c with
        | updateD d => exact upd d
        | updateSince ts => exact upd _
        | count => show Holds k g ((callHist env a .count w).1.objs s); rw [e1]; exact hist_holds hk hl h env .count (by simp)
        | stat c => show Holds k g ((callHist env a (.stat c) w).1.objs s); rw [e1]; exact hist_holds hk hl h env (.stat c) (by simp)
        | rates c => show Holds k g ((callMeter env m (.rates c) w).1.objs s); rw [meter_same env m _ w hl hsm]; exact h
        | stop => show Holds k g ((callMeter env m .stop w).1.objs s); rw [meter_same env m _ w hl hsm]; exact h
        | snapshot => exact absurd rfl hc
        | _ => exact h
      | _ => simp [recordsIn, hr] at hx
    | _ => simp [recordsIn, hr] at hx

/-- Whoever has the sample as a part records in it, as the sample is no snapshot. -/
theorem part_records {w : World F} (hw : w.Ok) {s x : Ref} {y : SampleV F} (hy : w.objs s = some (.sample y)) (hsn : ∀ n a, y ≠ .snap n a) (hp : partOf w x s) : recordsIn w x = some s := by
  have hist : ∀ r, histSample w r = some s → w.objs r = some (.hist (.std s)) := by
    intro r hr
    rcases ho : w.objs r with _ | o
    · simp [histSample, ho] at hr
    · cases o with
      | hist z =>
        cases z with
        | std t => obtain rfl : t = s := by simpa [histSample, ho] using hr
                   rfl
        | snap t =>
          obtain rfl : t = s := by simpa [histSample, ho] using hr
          obtain ⟨n, a, h⟩ := hw.refs r _ ho
          rw [hy] at h
          simp only [Option.some.injEq, Obj.sample.injEq] at h
          exact absurd h (hsn n a)
        | nil => simp [histSample, ho] at hr
      | _ => simp [histSample, ho] at hr
  rcases hp with rfl | hp | hp
  · simp [recordsIn, hy]
  · simp [recordsIn, hist x hp]
  · rcases ho : w.objs x with _ | o
    · simp [ho] at hp
    · cases o with
      | timer z =>
        cases z with
        | std a m =>
          simp only [ho] at hp
          rcases hp with rfl | rfl | hp
          · obtain ⟨o, h1, h2⟩ := (hw.refs x _ ho).1
            rw [hy] at h1; cases h1; simp [Obj.ty] at h2
          · obtain ⟨o, h1, h2⟩ := (hw.refs x _ ho).2
            rw [hy] at h1; cases h1; simp [Obj.ty] at h2
          · simp [recordsIn, ho, hist a hp]
        | snap a m =>
          obtain ⟨⟨n, h1⟩, j, h2⟩ := hw.refs x _ ho
          simp only [ho] at hp
          rcases hp with rfl | rfl | hp
          · rw [hy] at h1; simp at h1
          · rw [hy] at h2; simp at h2
          · rw [hist a hp] at h1; simp at h1
        | nil => simp [ho] at hp
      | _ => simp [ho] at hp

/-- One operation. -/
theorem step_holds {k : Nat} (hk : 0 < k) {g : List Int64} {w : World F} (hw : w.Ok) {s : Ref} (h : Holds k g (w.objs s)) (env : Env F) (o : Op F) :
    Holds k (bookAfter w s g env o) ((step env o w).1.objs s) := by
  obtain ⟨y, hy, hsn⟩ := h.sample
  have hl := hw.lt hy
  have same : (∀ x c, o = .call x c → recordsIn w x ≠ some s) → bookAfter w s g env o = g := by
    intro hn
    cases o with
    | call x c => simp only [bookAfter]; rw [if_neg (hn x c rfl)]
    | _ => rfl
  by_cases hcall : ∃ x c, o = .call x c ∧ recordsIn w x = some s
  · obtain ⟨x, c, rfl, hx⟩ := hcall
    rw [step_call_fst]
    simp only [bookAfter]
    rw [if_pos hx]
    exact call_holds hk hw h env c hx
  · rw [same fun x c e hx => hcall ⟨x, c, e, hx⟩]
    rcases step_objs w hw env o s hl with h1 | ⟨x, c, rfl, h1⟩ | ⟨rfl, m, h1, -⟩ | ⟨-, m, h1, -⟩ | ⟨b, m, d, -, h1, -⟩
    · rw [h1]; exact h
    · exact absurd ⟨x, c, rfl, part_records hw hy hsn h1⟩ hcall
    all_goals rw [hy] at h1; simp at h1

theorem run_holds {k : Nat} (hk : 0 < k) {g : List Int64} {w : World F} (hw : w.Ok) {s : Ref} (h : Holds k g (w.objs s)) (l : List (Env F × Op F)) :
    Holds k (book w s g l) ((w.run l).objs s) := by
  induction l generalizing w g with
  | nil => exact h
  | cons e l ih => exact ih (hw.step e.1 e.2).1 (step_holds hk hw h e.1 e.2)

/-! ### New samples -/

theorem alloc_new {o : Obj F} {w : World F} {s : Ref} {y : SampleV F} (h0 : w.objs s = none) (h : (alloc o w).1.objs s = some (.sample y)) : o = .sample y := by
  rw [act_alloc] at h
  by_cases hs : s = w.nextObj
  · subst hs; simpa using h
  · simp only [Function.update_of_ne hs, h0] at h; simp at h

theorem new_uniform {k : Nat} {u : UniformSample} (h : UniformSample.new k = .ok u) : UInv k [] u := by
  obtain ⟨s, e, hi⟩ := uniform_new_inv k
  rw [h] at e; cases e; exact hi

theorem new_exp {k : Nat} {alpha : F} {now : Instant} {e : ExpDecaySample F} (h : ExpDecaySample.new k alpha now = .ok e) : EInv k [] e := by
  obtain ⟨s, e', hsh, hv, hc, -⟩ := ExpDecaySample.new_shape k alpha now
  rw [h] at e'; cases e'
  exact ⟨hsh, by rw [hc]; decide, by simp [ExpDecaySample.vals, hv], by simp [ExpDecaySample.vals, hv]⟩

theorem newExp_new {env : Env F} {k : Nat} {alpha : F} {w : World F} {s : Ref} {y : SampleV F} (h0 : w.objs s = none)
    (h : (newExp env k alpha w).1.objs s = some (.sample y)) (hy : y ≠ .nil) : Holds k [] ((newExp env k alpha w).1.objs s) := by
  rw [h]
  unfold newExp at h
  split at h
  · exact absurd (by simpa using (alloc_new h0 h).symm) hy
  · rw [act_bind, act_lift] at h
    rcases he : ExpDecaySample.new (k : Int) alpha env.now with p | e
    · rw [he] at h; rw [h0] at h; simp at h
    · rw [he] at h
      have := alloc_new h0 h
      exact .inr ⟨e, by rw [this], new_exp he⟩

theorem construct_new {env : Env F} {c : NewOp F} {k : Nat} (hc : reservoir c = some (k : Int)) {w : World F} (hw : w.Ok) {s : Ref} {y : SampleV F} (h0 : w.objs s = none)
    (h : (construct env c w).1.objs s = some (.sample y)) (hy : y ≠ .nil) : Holds k [] ((construct env c w).1.objs s) := by
  cases c with
  | uniform j =>
    obtain rfl : j = k := by simpa [reservoir] using hc
    rw [h]
    simp only [construct] at h
    split at h
    · exact absurd (by simpa using (alloc_new h0 h).symm) hy
    · rw [act_bind, act_lift] at h
      rcases he : UniformSample.new (k : Int) with p | u
      · rw [he] at h; rw [h0] at h; simp at h
      · rw [he] at h
        have := alloc_new h0 h
        exact .inl ⟨u, by rw [this], new_uniform he⟩
  | exp j a =>
    obtain rfl : j = k := by simpa [reservoir] using hc
    exact newExp_new h0 h hy
  | timer =>
    obtain rfl : k = 1028 := by simp [reservoir] at hc; omega
    obtain ⟨e, he, -⟩ := ExpDecaySample.new_shape (F := F) 1028 (GoFloat.lit (15 / 1000)) env.now
    have he' : ExpDecaySample.new (1028 : Int) (GoFloat.lit (15 / 1000) : F) env.now = .ok e := he
    rw [h]
    cases hn : w.useNil with
    | true =>
      simp only [construct, hn, if_true] at h
      simpa using alloc_new h0 h
    | false =>
      simp only [construct, hn, newExp, newHist, newMeter, newTimer, arbiterAdd, act_bind, act_lift, act_alloc, act_pure, he', Bool.false_eq_true, if_false, Function.update_self,
        Function.update_of_ne (Nat.succ_ne_self (w.nextObj + 1)).symm] at h
      simp [Function.update_apply] at h
      have hi := new_exp he
      split_ifs at h <;> simp_all
      exact .inr ⟨e, by rw [← h], hi⟩
  | _ => simp [reservoir] at hc

theorem made {w : World F} (hw : w.Ok) {env : Env F} {o : Op F} {s : Ref} {k : Nat} (h : Makes w env o s k) : Holds k [] ((step env o w).1.objs s) := by
  obtain ⟨c, hc, hr⟩ := h.ctor
  obtain ⟨y, hy, hn⟩ := h.after
  have h0 := h.before
  rcases hc with rfl | ⟨g, name, rfl⟩
  · rw [step_new_fst] at hy ⊢
    exact construct_new hr hw h0 hy hn
  · rw [step_reg_fst, (regCall_prefix env g).2.1 name _] at hy ⊢
    cases hb : base g with
    | none => rw [hb] at hy; exact absurd (h0.symm.trans (show w.objs s = some (.sample y) from hy)) (by simp)
    | some id =>
      rw [hb] at hy
      simp only [regCall] at hy ⊢
      rcases getOrRegister_objs env id (fullName g name) (.ctor c) w with h1 | ⟨c', hc', h1⟩
      · rw [h1, h0] at hy; simp at hy
      · cases hc'
        rw [h1] at hy ⊢
        exact construct_new hr hw h0 hy hn

/-- Who records in the sample reports what the sample reports. -/
theorem records_read {w : World F} {s x : Ref} {y : SampleV F} (hy : w.objs s = some (.sample y)) (hx : recordsIn w x = some s) (env : Env F) (c : Call F)
    (hc : c = .count ∨ ∃ k, c = .stat k) : observe w env x c = sampleVal w y c := by
  have hs : sampleRef w s c = sampleVal w y c := by unfold sampleRef; rw [hy]
  rw [← hs]
  rcases hr : w.objs x with _ | o
  · simp [recordsIn, hr] at hx
  · have ha : accessor c = true := by rcases hc with rfl | ⟨k, rfl⟩ <;> rfl
    rw [read_obj hr c ha]
    cases o with
    | sample z =>
      obtain rfl : x = s := by simpa [recordsIn, hr] using hx
      unfold sampleRef; rw [hr]; rfl
    | hist z =>
      cases z with
      | std t =>
        obtain rfl : t = s := by simpa [recordsIn, hr] using hx
        rcases hc with rfl | ⟨k, rfl⟩ <;> rfl
      | _ => simp [recordsIn, hr] at hx
    | timer z =>
      cases z with
      | std a m =>
        have hh : w.objs a = some (.hist (.std s)) := by
          simp only [recordsIn, hr] at hx
          split at hx
          · simp_all
          · simp at hx
        rcases hc with rfl | ⟨k, rfl⟩
        · show histRef w a .count = _; unfold histRef; rw [hh]; rfl
        · show histRef w a (.stat k) = _; unfold histRef; rw [hh]; rfl
      | _ => simp [recordsIn, hr] at hx
    | _ => simp [recordsIn, hr] at hx

theorem records_owns {w : World F} {s x : Ref} {y : SampleV F} (hy : w.objs s = some (.sample y)) (hsn : ∀ n a, y ≠ .snap n a) (hx : recordsIn w x = some s) : ownsValues w x := by
  intro a ha
  have hn : sampleSlice w s = none := by
    unfold sampleSlice; rw [hy]
    cases y with
    | snap n a => exact absurd rfl (hsn n a)
    | _ => rfl
  exfalso
  rcases hr : w.objs x with _ | o
  · simp [recordsIn, hr] at hx
  · cases o with
    | sample z =>
      obtain rfl : x = s := by simpa [recordsIn, hr] using hx
      simp only [slice, hr] at ha
      rw [hn] at ha; simp at ha
    | hist z =>
      cases z with
      | std t =>
        obtain rfl : t = s := by simpa [recordsIn, hr] using hx
        simp [slice, histSlice, hr, hn] at ha
      | _ => simp [recordsIn, hr] at hx
    | timer z =>
      cases z with
      | std a m =>
        have ha' : w.objs a = some (.hist (.std s)) := by
          simp only [recordsIn, hr] at hx
          split at hx
          · simp_all
          · simp at hx
        simp [slice, histSlice, hr, ha', hn] at ha
      | _ => simp [recordsIn, hr] at hx
    | _ => simp [recordsIn, hr] at hx

/-- The values of the sample. -/
theorem Holds.vals {k : Nat} {g : List Int64} {w : World F} {s : Ref} (h : Holds k g (w.objs s)) : ∃ y, w.objs s = some (.sample y) ∧ (∀ n a, y ≠ .snap n a) ∧
    sampleVal w y .count = .ok (.int (Int64.ofNat g.length)) ∧ (∀ c, sampleVal w y (.stat c) = statOf (sampleVals w y) c) ∧
    (∀ env, contents w env s = sampleVals w y) ∧ (sampleVals w y).length = min g.length k ∧ (sampleVals w y).Subperm g := by
  have cnt : ∀ n : Int64, n.toInt = wrap64 g.length → n = Int64.ofNat g.length := by
    intro n hn
    apply Int64.toInt_inj.1
    rw [hn, Int64.toInt_ofNat']
    rfl
  rcases h with ⟨u, hs, hi⟩ | ⟨e, hs, hi⟩
  · refine ⟨_, hs, by simp, ?_, fun _ => rfl, fun env => ?_, hi.len, hi.sub⟩
    · show Except.ok (Out.int u.count) = _
      rw [cnt _ hi.count]
    · unfold contents
      rw [call_obj hs]
      exact Function.update_self ..
  · refine ⟨_, hs, by simp, ?_, fun _ => rfl, fun env => ?_, hi.len, hi.sub⟩
    · show Except.ok (Out.int e.count) = _
      rw [cnt _ hi.count]
    · unfold contents
      rw [call_obj hs]
      exact Function.update_self ..

end GoMetrics.Recorded
