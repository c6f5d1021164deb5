import Verif.Model.Registry
import Verif.Lemmas.Percentile

/-! The invariant of the store and what every operation keeps. -/

set_option linter.unusedSimpArgs false
set_option linter.unnecessarySeqFocus false
set_option linter.unusedSectionVars false

namespace GoMetrics

/-! ### Actions -/

section act
variable {F α β : Type}
theorem act_pure (a : α) (w : World F) : (pure a : Act F α) w = (w, .ok a) := rfl
theorem act_bind (x : Act F α) (f : α → Act F β) (w : World F) :
    (x >>= f) w = match x w with | (w', .ok a) => f a w' | (w', .error p) => (w', .error p) := rfl
theorem act_lift (r : Res α) (w : World F) : (Act.lift r : Act F α) w = (w, r) := rfl
theorem act_fail (p : Panic) (w : World F) : (Act.fail p : Act F α) w = (w, .error p) := rfl
theorem act_getObj (r : Ref) (w : World F) : getObj r w = (w, .ok (w.objs r)) := rfl
theorem act_setObj (r : Ref) (o : Obj F) (w : World F) :
    setObj r o w = ({ w with objs := Function.update w.objs r (some o) }, .ok ()) := rfl
theorem act_alloc (o : Obj F) (w : World F) :
    alloc o w = ({ w with objs := Function.update w.objs w.nextObj (some o), nextObj := w.nextObj + 1 }, .ok w.nextObj) := rfl
theorem act_getArr (a : ArrId) (w : World F) : getArr a w = (w, .ok (w.arrs a)) := rfl
theorem act_getReg (i : Nat) (w : World F) : getReg i w = (w, .ok (w.regs i)) := rfl
theorem act_bind_getObj (r : Ref) (f : Option (Obj F) → Act F β) (w : World F) : (getObj r >>= f) w = f (w.objs r) w := rfl
theorem act_bind_pure (a : α) (f : α → Act F β) : ((pure a : Act F α) >>= f) = f a := rfl
end act

variable {F : Type}

/-- The methods of an object. -/
def objCall [GoFloat F] [GoSqrt F] [GoExp F] (env : Env F) (r : Ref) (o : Obj F) (c : Call F) : Act F (Out F) :=
  match o with
  | .counter x => counterCall r x c
  | .gauge g => gaugeCall env r g c
  | .gaugeF g => gaugeFCall env r g c
  | .health h => healthCall env r h c
  | .sample s => sampleCall env r s c
  | .hist h => histCall env r h c
  | .ewma e => ewmaCall r e c
  | .meter m => meterCall env r m c
  | .timer t => timerCall env r t c

theorem call_obj [GoFloat F] [GoSqrt F] [GoExp F] {env : Env F} {r : Ref} {o : Obj F} {c : Call F} {w : World F} (h : w.objs r = some o) :
    call env r c w = objCall env r o c w := by
  rw [call, act_bind_getObj, h]
  cases o <;> rfl

/-! ### Live objects -/

/-- The kinds of objects that can change. -/
inductive LiveKind where
  | counter | gauge | gaugeF | health | uniform | exp | ewma | meter
  deriving DecidableEq

/-- `none`: the object never changes again. -/
def Obj.live : Obj F → Option LiveKind
  | .counter (.std _) => some .counter
  | .gauge (.std _) => some .gauge
  | .gaugeF (.std _) => some .gaugeF
  | .health (.std _ _) => some .health
  | .sample (.uniform _) => some .uniform
  | .sample (.exp _) => some .exp
  | .ewma (.std _) => some .ewma
  | .meter (.std m) => if m.stopped then none else some .meter
  | _ => none

/-- The Go type behind a stopped meter is still `*StandardMeter`. -/
def Obj.stoppedMeter : Obj F → Prop
  | .meter (.std m) => m.stopped = true
  | _ => False

/-- Type tags. -/
inductive Ty where
  | counter | gauge | gaugeF | health | sample | hist | ewma | meter | timer
  deriving DecidableEq

def Obj.ty : Obj F → Ty
  | .counter _ => .counter
  | .gauge _ => .gauge
  | .gaugeF _ => .gaugeF
  | .health _ => .health
  | .sample _ => .sample
  | .hist _ => .hist
  | .ewma _ => .ewma
  | .meter _ => .meter
  | .timer _ => .timer

/-- The object at `r` has type `t`. -/
def HasTy (w : World F) (r : Ref) (t : Ty) : Prop := ∃ o, w.objs r = some o ∧ o.ty = t

/-- The references inside an object are to objects of the right type. -/
def RefsOk (w : World F) : Obj F → Prop
  | .hist (.std s) => HasTy w s .sample
  | .hist (.snap s) => ∃ n a, w.objs s = some (.sample (.snap n a))
  | .timer (.std h m) => HasTy w h .hist ∧ HasTy w m .meter
  | .timer (.snap h m) => (∃ s, w.objs h = some (.hist (.snap s))) ∧ ∃ s, w.objs m = some (.meter (.snap s))
  | .sample (.snap _ a) => a < w.nextArr
  | _ => True

/-- Consistency of the store. -/
structure World.Ok (w : World F) : Prop where
  obj : ∀ r, w.nextObj ≤ r → w.objs r = none
  arr : ∀ a, w.nextArr ≤ a → w.shared a = false
  meters : ∀ r, r ∈ w.meters ↔ ∃ o, w.objs r = some o ∧ o.live = some .meter
  nodup : w.meters.Nodup
  started : w.meters ≠ [] → w.started = true
  keys : ∀ i, ((w.regs i).map Prod.fst).Nodup
  metric : ∀ i e, e ∈ w.regs i → ∃ o, w.objs e.2 = some o ∧ o.isMetric = true
  refs : ∀ r o, w.objs r = some o → RefsOk w o

/-- What every operation keeps; `S`: the meters it may stop. -/
structure World.Le (S : Ref → Prop) (w w' : World F) : Prop where
  next : w.nextObj ≤ w'.nextObj
  nextA : w.nextArr ≤ w'.nextArr
  frozen : ∀ r o, w.objs r = some o → o.live = none → w'.objs r = some o
  live : ∀ r o k, w.objs r = some o → o.live = some k → ∃ o', w'.objs r = some o' ∧ (o'.live = some k ∨ k = .meter ∧ o'.stoppedMeter ∧ S r)
  arr : ∀ a, a < w.nextArr → w'.shared a = w.shared a ∧ (w.shared a = false → w'.arrs a = w.arrs a ∨ w'.arrs a = sortInts (w.arrs a))

theorem World.Le.refl {S : Ref → Prop} (w : World F) : w.Le S w :=
  ⟨le_refl _, le_refl _, fun _ _ h _ => h, fun _ o _ h hl => ⟨o, h, .inl hl⟩, fun _ _ => ⟨rfl, fun _ => .inl rfl⟩⟩

theorem sortInts_idem (l : List Int64) : sortInts (sortInts l) = sortInts l := (List.pairwise_insertionSort (· ≤ ·) l).insertionSort_eq

theorem World.Le.perm {S : Ref → Prop} {w w' : World F} (h : w.Le S w') {a : ArrId} (ha : a < w.nextArr) (hs : w.shared a = false) : (w'.arrs a).Perm (w.arrs a) := by
  rcases (h.arr a ha).2 hs with e | e <;> rw [e]
  exact List.perm_insertionSort _ _

theorem stoppedMeter_live {o : Obj F} (h : o.stoppedMeter) : o.live = none := by
  cases o with
  | meter m => cases m <;> simp_all [Obj.stoppedMeter, Obj.live]
  | _ => simp [Obj.stoppedMeter] at h

theorem World.Le.trans {S : Ref → Prop} {w w' w'' : World F} (h : w.Le S w') (h' : w'.Le S w'') : w.Le S w'' := by
  refine ⟨h.next.trans h'.next, h.nextA.trans h'.nextA, fun r o e hl => h'.frozen r o (h.frozen r o e hl) hl, ?_, ?_⟩
  · intro r o k e hl
    obtain ⟨o', e', hl' | ⟨hk, hs, hS⟩⟩ := h.live r o k e hl
    · exact h'.live r o' k e' hl'
    · exact ⟨o', h'.frozen r o' e' (stoppedMeter_live hs), .inr ⟨hk, hs, hS⟩⟩
  · intro a ha
    obtain ⟨e1, p1⟩ := h.arr a ha
    obtain ⟨e2, p2⟩ := h'.arr a (lt_of_lt_of_le ha h.nextA)
    refine ⟨e2.trans e1, fun hs => ?_⟩
    rcases p1 hs with q1 | q1 <;> rcases p2 (e1.trans hs) with q2 | q2 <;> rw [q2, q1]
    · exact .inl rfl
    · exact .inr rfl
    · exact .inr rfl
    · exact .inr (sortInts_idem _)

theorem World.Ok.init : (World.init : World F).Ok where
  obj _ _ := rfl
  arr _ _ := rfl
  meters r := by simp [World.init]
  nodup := by simp [World.init]
  started h := by simp [World.init] at h
  keys i := by simp [World.init]
  metric i e h := by simp [World.init] at h
  refs r o h := by simp [World.init] at h

/-! ### Primitive changes -/

def LiveKind.ty : LiveKind → Ty
  | .counter => .counter
  | .gauge => .gauge
  | .gaugeF => .gaugeF
  | .health => .health
  | .uniform | .exp => .sample
  | .ewma => .ewma
  | .meter => .meter

theorem ty_of_live {o : Obj F} {k : LiveKind} (ho : o.live = some k) : o.ty = k.ty := by
  cases o with
  | counter c => cases c <;> simp [Obj.live] at ho; subst ho; rfl
  | gauge c => cases c <;> simp [Obj.live] at ho; subst ho; rfl
  | gaugeF c => cases c <;> simp [Obj.live] at ho; subst ho; rfl
  | health c => cases c <;> simp [Obj.live] at ho; subst ho; rfl
  | sample c => cases c <;> simp [Obj.live] at ho <;> subst ho <;> rfl
  | hist c => simp [Obj.live] at ho
  | ewma c => cases c <;> simp [Obj.live] at ho; subst ho; rfl
  | meter c => cases c <;> simp [Obj.live] at ho; obtain ⟨-, rfl⟩ := ho; rfl
  | timer c => simp [Obj.live] at ho

theorem isMetric_ty (o o' : Obj F) (h : o.ty = o'.ty) : o.isMetric = o'.isMetric := by
  cases o <;> cases o' <;> simp_all [Obj.ty, Obj.isMetric]

theorem refsOk_live (w : World F) {o : Obj F} {k : LiveKind} (h : o.live = some k) : RefsOk w o := by
  cases o with
  | hist c => simp [Obj.live] at h
  | timer c => simp [Obj.live] at h
  | sample c => cases c <;> simp_all [Obj.live, RefsOk]
  | _ => simp [RefsOk]

theorem RefsOk.mono {w w' : World F} (hty : ∀ r t, HasTy w r t → HasTy w' r t)
    (hfr : ∀ r o, w.objs r = some o → o.live = none → w'.objs r = some o) (ha : w.nextArr ≤ w'.nextArr) {o : Obj F} (h : RefsOk w o) :
    RefsOk w' o := by
  cases o with
  | hist c =>
    cases c with
    | std s => exact hty _ _ h
    | snap s => obtain ⟨n, a, h⟩ := h; exact ⟨n, a, hfr _ _ h rfl⟩
    | nil => trivial
  | timer c =>
    cases c with
    | std s m => exact ⟨hty _ _ h.1, hty _ _ h.2⟩
    | snap s m => obtain ⟨⟨x, h1⟩, y, h2⟩ := h; exact ⟨⟨x, hfr _ _ h1 rfl⟩, y, hfr _ _ h2 rfl⟩
    | nil => trivial
  | sample c =>
    cases c <;> simp only [RefsOk] at h ⊢ <;> try trivial
    omega
  | _ => simp [RefsOk]

theorem stoppedMeter_ty {o : Obj F} (h : o.stoppedMeter) : o.ty = .meter := by
  cases o <;> simp_all [Obj.stoppedMeter, Obj.ty]

theorem World.Le.ty {S : Ref → Prop} {w w' : World F} (h : w.Le S w') (r : Ref) (t : Ty) (ht : HasTy w r t) : HasTy w' r t := by
  obtain ⟨o, h1, rfl⟩ := ht
  cases hl : o.live with
  | none => exact ⟨o, h.frozen r o h1 hl, rfl⟩
  | some k =>
    obtain ⟨o', h2, h3 | ⟨rfl, h3, -⟩⟩ := h.live r o k h1 hl
    · exact ⟨o', h2, by rw [ty_of_live h3, ty_of_live hl]⟩
    · exact ⟨o', h2, by rw [stoppedMeter_ty h3, ty_of_live hl]; rfl⟩

theorem World.Le.refsOk {S : Ref → Prop} {w w' : World F} (h : w.Le S w') {o : Obj F} (ho : RefsOk w o) : RefsOk w' o :=
  ho.mono h.ty h.frozen h.nextA

/-- Change of an object that stays of its (live) kind, or no change. -/
def OkSet (o0 o : Obj F) : Prop := o0 = o ∨ ∃ k, o0.live = some k ∧ o.live = some k

theorem World.Le.set {S : Ref → Prop} {w : World F} {r : Ref} {o0 o : Obj F} (hr : w.objs r = some o0) (hk : OkSet o0 o) :
    w.Le S ({ w with objs := Function.update w.objs r (some o) } : World F) := by
  refine ⟨le_refl _, le_refl _, ?_, ?_, fun _ _ => ⟨rfl, fun _ => .inl rfl⟩⟩
  · intro q o' hq hl
    by_cases hqr : q = r
    · subst hqr
      rw [hr] at hq
      cases hq
      rcases hk with rfl | ⟨k, h1, h2⟩
      · simp [Function.update_self]
      · rw [h1] at hl; simp at hl
    · simpa [Function.update_of_ne hqr] using hq
  · intro q o' k hq hl
    by_cases hqr : q = r
    · subst hqr
      rw [hr] at hq
      cases hq
      refine ⟨o, by simp [Function.update_self], .inl ?_⟩
      rcases hk with rfl | ⟨k', h1, h2⟩
      · exact hl
      · rw [h1] at hl; rw [h2]; exact hl
    · exact ⟨o', by simpa [Function.update_of_ne hqr] using hq, .inl hl⟩

theorem World.Ok.set {w : World F} (h : w.Ok) {r : Ref} {o0 o : Obj F} (hr : w.objs r = some o0) (hk : OkSet o0 o) :
    ({ w with objs := Function.update w.objs r (some o) } : World F).Ok := by
  have hlive : o.live = o0.live := by
    rcases hk with rfl | ⟨k, h1, h2⟩
    · rfl
    · rw [h1, h2]
  have hmet : o.isMetric = o0.isMetric := by
    rcases hk with rfl | ⟨k, h1, h2⟩
    · rfl
    · exact isMetric_ty _ _ (by rw [ty_of_live h1, ty_of_live h2])
  have hlt : r < w.nextObj := by
    by_contra hc
    rw [h.obj r (by omega)] at hr
    simp at hr
  refine { obj := ?_, arr := h.arr, meters := ?_, nodup := h.nodup, started := h.started, keys := h.keys, metric := ?_, refs := ?_ }
  · intro q hq
    have : q ≠ r := by rintro rfl; exact absurd hlt (not_lt.2 hq)
    simp only [Function.update_of_ne this]
    exact h.obj q hq
  · intro q
    rw [h.meters q]
    by_cases hq : q = r
    · subst hq; simp [Function.update_self, hr, hlive]
    · simp [Function.update_of_ne hq]
  · intro i e he
    obtain ⟨o', h1, h2⟩ := h.metric i e he
    by_cases hq : e.2 = r
    · simp only [hq, Function.update_self]
      rw [hq, hr] at h1
      cases h1
      exact ⟨o, rfl, hmet.trans h2⟩
    · simp only [Function.update_of_ne hq]
      exact ⟨o', h1, h2⟩
  · intro q o' hq
    have hle := World.Le.set (S := fun _ => True) hr hk
    by_cases hqr : q = r
    · subst hqr
      simp only [Function.update_self] at hq
      cases hq
      rcases hk with rfl | ⟨k, h1, h2⟩
      · exact hle.refsOk (h.refs q _ hr)
      · exact refsOk_live _ h2
    · simp only [Function.update_of_ne hqr] at hq
      exact hle.refsOk (h.refs q o' hq)

theorem World.Le.alloc {S : Ref → Prop} {w : World F} (h : w.Ok) (o : Obj F) :
    w.Le S ({ w with objs := Function.update w.objs w.nextObj (some o), nextObj := w.nextObj + 1 } : World F) := by
  refine ⟨by simp, le_refl _, ?_, ?_, fun _ _ => ⟨rfl, fun _ => .inl rfl⟩⟩
  · intro q o' hq hl
    have : q ≠ w.nextObj := by
      rintro rfl
      rw [h.obj _ (le_refl _)] at hq
      simp at hq
    simpa [Function.update_of_ne this] using hq
  · intro q o' k hq hl
    have : q ≠ w.nextObj := by
      rintro rfl
      rw [h.obj _ (le_refl _)] at hq
      simp at hq
    exact ⟨o', by simpa [Function.update_of_ne this] using hq, .inl hl⟩

/-- Allocation of an object that is not a live meter. -/
theorem World.Ok.alloc {w : World F} (h : w.Ok) {o : Obj F} (hm : o.live ≠ some .meter) (ha : RefsOk w o) :
    ({ w with objs := Function.update w.objs w.nextObj (some o), nextObj := w.nextObj + 1 } : World F).Ok := by
  have hle := World.Le.alloc (S := fun _ => True) h o
  refine { obj := ?_, arr := h.arr, meters := ?_, nodup := h.nodup, started := h.started, keys := h.keys, metric := ?_, refs := ?_ }
  · intro q hq
    simp only at hq
    have : q ≠ w.nextObj := by omega
    simp only [Function.update_of_ne this]
    exact h.obj q (by omega)
  · intro q
    rw [h.meters q]
    by_cases hq : q = w.nextObj
    · subst hq
      simp [Function.update_self, h.obj w.nextObj (le_refl _), hm]
    · simp [Function.update_of_ne hq]
  · intro i e he
    obtain ⟨o', h1, h2⟩ := h.metric i e he
    have : e.2 ≠ w.nextObj := by
      intro hc
      rw [hc, h.obj _ (le_refl _)] at h1
      simp at h1
    simp only [Function.update_of_ne this]
    exact ⟨o', h1, h2⟩
  · intro q o' hq
    by_cases hqr : q = w.nextObj
    · subst hqr
      simp only [Function.update_self] at hq
      cases hq
      exact hle.refsOk ha
    · simp only [Function.update_of_ne hqr] at hq
      exact hle.refsOk (h.refs q o' hq)

theorem World.Le.newArr {S : Ref → Prop} (w : World F) (l : List Int64) (b : Bool) :
    w.Le S ({ w with arrs := Function.update w.arrs w.nextArr l, shared := Function.update w.shared w.nextArr b, nextArr := w.nextArr + 1 } : World F) := by
  refine ⟨le_refl _, by simp, fun _ _ h _ => h, fun _ o _ h hl => ⟨o, h, .inl hl⟩, fun a ha => ?_⟩
  have : a ≠ w.nextArr := by omega
  simp only [Function.update_of_ne this]
  exact ⟨trivial, fun _ => .inl trivial⟩

/-- A new array. -/
theorem World.Ok.newArr {w : World F} (h : w.Ok) (l : List Int64) (b : Bool) :
    ({ w with arrs := Function.update w.arrs w.nextArr l, shared := Function.update w.shared w.nextArr b, nextArr := w.nextArr + 1 } : World F).Ok where
  obj := h.obj
  arr a ha := by
    simp only at ha
    have : a ≠ w.nextArr := by omega
    simp only [Function.update_of_ne this]
    exact h.arr a (by omega)
  meters := h.meters
  nodup := h.nodup
  started := h.started
  keys := h.keys
  metric := h.metric
  refs r o hr := (World.Le.newArr (S := fun _ => True) w l b).refsOk (h.refs r o hr)

/-- Change of the contents of an array. -/
theorem World.Ok.arrs {w : World F} (h : w.Ok) (f : ArrId → List Int64) : ({ w with arrs := f } : World F).Ok :=
  { obj := h.obj, arr := h.arr, meters := h.meters, nodup := h.nodup, started := h.started, keys := h.keys, metric := h.metric,
    refs := fun r o hr => RefsOk.mono (fun _ _ h => h) (fun _ _ h _ => h) (le_refl _) (h.refs r o hr) }

theorem World.Le.arrs {S : Ref → Prop} (w : World F) (a : ArrId) (l : List Int64) (h : w.shared a = false → l = w.arrs a ∨ l = sortInts (w.arrs a)) :
    w.Le S ({ w with arrs := Function.update w.arrs a l } : World F) := by
  refine ⟨le_refl _, le_refl _, fun _ _ h _ => h, fun _ o _ h hl => ⟨o, h, .inl hl⟩, fun b hb => ⟨rfl, fun hs => ?_⟩⟩
  by_cases hba : b = a
  · subst hba; simpa [Function.update_self] using h hs
  · simp [Function.update_of_ne hba]

theorem World.Ok.regs {w : World F} (h : w.Ok) (i : Nat) (m : List (Str × Ref)) (hk : (m.map Prod.fst).Nodup)
    (hm : ∀ e ∈ m, ∃ o, w.objs e.2 = some o ∧ o.isMetric = true) : ({ w with regs := Function.update w.regs i m } : World F).Ok := by
  refine { obj := h.obj, arr := h.arr, meters := h.meters, nodup := h.nodup, started := h.started, keys := ?_, metric := ?_,
           refs := fun r o hr => RefsOk.mono (fun _ _ h => h) (fun _ _ h _ => h) (le_refl _) (h.refs r o hr) }
  · intro j
    by_cases hj : j = i
    · subst hj; simpa [Function.update_self] using hk
    · simpa [Function.update_of_ne hj] using h.keys j
  · intro j e he
    by_cases hj : j = i
    · subst hj
      simp only [Function.update_self] at he
      exact hm e he
    · simp only [Function.update_of_ne hj] at he
      exact h.metric j e he

theorem World.Le.same {S : Ref → Prop} {w w' : World F} (h1 : w'.objs = w.objs) (h2 : w'.nextObj = w.nextObj) (h3 : w'.arrs = w.arrs) (h4 : w'.shared = w.shared)
    (h5 : w'.nextArr = w.nextArr) : w.Le S w' := by
  refine ⟨by rw [h2], by rw [h5], fun r o h _ => by rw [h1]; exact h, fun r o k h hl => ⟨o, by rw [h1]; exact h, .inl hl⟩, ?_⟩
  intro a _
  rw [h3, h4]
  exact ⟨rfl, fun _ => .inl rfl⟩

/-! ### Safe actions -/

/-- The action keeps the invariant and what every operation keeps, from states satisfying `P`. -/
def Safe {α : Type} (S : Ref → Prop) (P : World F → Prop) (x : Act F α) : Prop := ∀ w, w.Ok → P w → (x w).1.Ok ∧ w.Le S (x w).1

def Stable (P : World F → Prop) : Prop := ∀ (S : Ref → Prop) (w w' : World F), w.Le S w' → P w → P w'

section safe
variable {α β : Type} {S : Ref → Prop} {P Q : World F → Prop}

theorem safe_bind {x : Act F α} {f : α → Act F β} (hP : Stable P) (hx : Safe S P x) (hf : ∀ a, Safe S P (f a)) : Safe S P (x >>= f) := by
  intro w hw hp
  obtain ⟨h1, h2⟩ := hx w hw hp
  rw [act_bind]
  generalize hxw : x w = y at h1 h2
  obtain ⟨w', r⟩ := y
  cases r with
  | error p => exact ⟨h1, h2⟩
  | ok a =>
    obtain ⟨h3, h4⟩ := hf a w' h1 (hP S w w' h2 hp)
    exact ⟨h3, h2.trans h4⟩

theorem safe_pure (a : α) : Safe S P (pure a : Act F α) := fun w hw _ => ⟨hw, .refl w⟩
theorem safe_lift (r : Res α) : Safe S P (Act.lift r : Act F α) := fun w hw _ => ⟨hw, .refl w⟩
theorem safe_fail (p : Panic) : Safe S P (Act.fail p : Act F α) := fun w hw _ => ⟨hw, .refl w⟩
theorem safe_weaken {x : Act F α} (h : Safe S Q x) (hPQ : ∀ w, P w → Q w) : Safe S P x := fun w hw hp => h w hw (hPQ w hp)
theorem safe_getObj {r : Ref} {f : Option (Obj F) → Act F β} (hf : ∀ o, Safe S (fun w => P w ∧ w.objs r = o) (f o)) :
    Safe S P (getObj r >>= f) := fun w hw hp => hf (w.objs r) w hw ⟨hp, rfl⟩
theorem safe_getArr {a : ArrId} {f : List Int64 → Act F β} (hf : ∀ l, Safe S P (f l)) : Safe S P (getArr a >>= f) :=
  fun w hw hp => hf (w.arrs a) w hw hp
theorem safe_getReg {i : Nat} {f : List (Str × Ref) → Act F β} (hf : ∀ m, Safe S (fun w => P w ∧ w.regs i = m) (f m)) :
    Safe S P (getReg i >>= f) := fun w hw hp => hf (w.regs i) w hw ⟨hp, rfl⟩
/-- An action given by cases on the store. -/
theorem safe_eq {x : Act F α} (h : ∀ w, P w → w.Ok → ∃ y : Act F α, x w = y w ∧ Safe S P y) : Safe S P x := by
  intro w hw hp
  obtain ⟨y, h1, h2⟩ := h w hp hw
  rw [h1]
  exact h2 w hw hp

theorem safe_setObj {r : Ref} {o : Obj F} (h : ∀ w, P w → ∃ o0, w.objs r = some o0 ∧ OkSet o0 o) : Safe S P (setObj r o) := by
  intro w hw hp
  obtain ⟨o0, h1, h2⟩ := h w hp
  exact ⟨hw.set h1 h2, World.Le.set h1 h2⟩

theorem safe_alloc {o : Obj F} (hm : o.live ≠ some .meter) (ha : ∀ w, P w → RefsOk w o) : Safe S P (alloc o) := by
  intro w hw hp
  exact ⟨hw.alloc hm (ha w hp), World.Le.alloc hw o⟩

theorem safe_newArr (l : List Int64) (b : Bool) : Safe S P (newArr l b) := fun w hw _ => ⟨hw.newArr l b, World.Le.newArr w l b⟩

/-- A new snapshot with its own copy of the values. -/
theorem safe_newSnap (l : List Int64) (b : Bool) (n : Int64) {f : Ref → Act F β} (hP : Stable P) (hf : ∀ q, Safe S P (f q)) :
    Safe S P (newArr l b >>= fun a => alloc (.sample (.snap n a)) >>= f) := by
  intro w hw hp
  have h1 := hw.newArr l b
  have l1 := World.Le.newArr (S := S) w l b
  have h2 := h1.alloc (o := .sample (.snap n w.nextArr)) (by simp [Obj.live]) (by simp [RefsOk])
  have l2 := World.Le.alloc (S := S) h1 (.sample (.snap n w.nextArr))
  have := hf w.nextObj _ h2 (hP S _ _ (l1.trans l2) hp)
  exact ⟨this.1, (l1.trans l2).trans this.2⟩

end safe

/-- A live object of a kind other than `meter` stays one. -/
def LiveAt (r : Ref) (k : LiveKind) (w : World F) : Prop := ∃ o, w.objs r = some o ∧ o.live = some k

theorem LiveAt.stable {r : Ref} {k : LiveKind} (hk : k ≠ .meter) : Stable (LiveAt r k : World F → Prop) := by
  rintro S w w' h ⟨o, h1, h2⟩
  obtain ⟨o', h3, h4 | ⟨h4, -, -⟩⟩ := h.live r o k h1 h2
  · exact ⟨o', h3, h4⟩
  · exact absurd h4 hk

theorem stable_true : Stable (fun _ : World F => True) := fun _ _ _ _ h => h

theorem safe_setLive {S : Ref → Prop} {r : Ref} {k : LiveKind} {o : Obj F} (ho : o.live = some k) : Safe S (LiveAt r k) (setObj r o) :=
  safe_setObj fun _ ⟨o0, h1, h2⟩ => ⟨o0, h1, .inr ⟨k, h2, ho⟩⟩

end GoMetrics
