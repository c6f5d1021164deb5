import Verif.Lemmas.GetAll
import Verif.Lemmas.WorldReg
import Verif.Props.Registry

/-! Property theorems C56, C57, C60: `GetAll`, the typed getters, bulk operations of prefixed registries. -/

set_option linter.unusedSimpArgs false
set_option linter.unnecessarySeqFocus false
set_option linter.unusedSectionVars false
set_option linter.unnecessarySimpa false

namespace GoMetrics
open Spec

variable {F : Type} [GoFloat F] [GoSqrt F] [GoExp F]

/-! ### C56 -/

theorem getAll_base (env : Env F) (g : Reg) (id : Nat) (hb : base g = some id) (w : World F) : getAll env g w = getAll env (.std id) w := by
  induction g with
  | std i => simp [base] at hb; rw [hb]
  | prefixed u p ih => exact ih hb
  | foreign => simp [base] at hb

private theorem getAll_shown {env : Env F} {g : Reg} {id : Nat} (hb : base g = some id) {w w' : World F} (hw : w.Ok) {data : Data F}
    (h : getAll env g w = (w', .ok (some data))) : Seen env w w' ∧
      List.Forall₂ (fun e x => x.1 = e.1 ∧ ∃ o, w.objs e.2 = some o ∧ List.Forall₂ (Shown w env e.2) (fieldsOf o) x.2) (env.order (w.regs id)) data := by
  rw [getAll_base env g id hb] at h
  have e : each env (.std id) (getAllCallback env) (w, []) = visit (getAllCallback env) (env.order (w.regs id)) (w, []) := rfl
  rw [getAll, e] at h
  rcases hv : visit (getAllCallback env) (env.order (w.regs id)) (w, []) with ⟨⟨w1, d⟩, _ | u⟩
  · simp [hv] at h
  · simp only [hv, Prod.mk.injEq, Except.ok.injEq, Option.some.injEq] at h
    obtain ⟨rfl, rfl⟩ := h
    obtain ⟨hs, ds, h1, h2⟩ := visit_getAll (w := w) (env.order (w.regs id))
      (fun e he => by obtain ⟨o, ho, -⟩ := hw.metric id e ((env.order_perm _).mem_iff.1 he); exact ⟨o, ho⟩) (Seen.refl env hw) hv
    rw [List.nil_append] at h1
    subst h1
    exact ⟨hs, h2⟩

private theorem forall2_mem {α β : Type} {R : α → β → Prop} {l : List α} {m : List β} (h : List.Forall₂ R l m) {b : β} (hb : b ∈ m) : ∃ a ∈ l, R a b := by
  induction h with
  | nil => simp at hb
  | cons h1 _ ih =>
    rcases List.mem_cons.1 hb with rfl | hb
    · exact ⟨_, by simp, h1⟩
    · obtain ⟨a, ha, hr⟩ := ih hb
      exact ⟨a, by simp [ha], hr⟩

private theorem forall2_fst {α β γ : Type} {R : γ × α → γ × β → Prop} {l : List (γ × α)} {m : List (γ × β)} (h : List.Forall₂ R l m)
    (hR : ∀ a b, R a b → b.1 = a.1) : m.map Prod.fst = l.map Prod.fst := by
  induction h with
  | nil => rfl
  | cons h1 _ ih => simp [hR _ _ h1, ih]

/-- C56: the result of `GetAll` has exactly the names bound in the registry as keys, each once; under each name it has exactly the fields of the
metric's kind, in order; and each field holds what the accessor it is named after returned when `GetAll` was called (for a healthcheck: after
`Check()`). Only the standard deviation may differ, in its rounding: it is computed from the sorted values. -/
theorem C56_values (h : List (Env F × Op F)) (env : Env F) (g : Reg) (id : Nat) (hb : base g = some id) (w' : World F) (data : Data F)
    (hd : getAll env g (World.init.run h) = (w', .ok (some data))) :
    let w : World F := World.init.run h
    (data.map Prod.fst).Nodup ∧ (∀ name, name ∈ data.map Prod.fst ↔ gets w id name ≠ none) ∧
    ∀ name vs, (name, vs) ∈ data → ∃ r o, gets w id name = some r ∧ w.objs r = some o ∧
      List.Forall₂ (fun (kc : String × Call F) (kf : String × GoMetrics.Field F) => kf.1 = kc.1 ∧
        (kc.2 ≠ .stat .stdDev → shows (observe (checked env w r) env r kc.2) kf.2) ∧
        (kc.2 = .stat .stdDev → kf.2 = .float (sortedDev (recorded w r)))) (fieldsOf o) vs := by
  intro w
  have hw : w.Ok := run_ok h
  obtain ⟨-, hf⟩ := getAll_shown hb hw hd
  have hk : data.map Prod.fst = (env.order (w.regs id)).map Prod.fst := forall2_fst hf (fun a b hab => hab.1)
  have hp := (env.order_perm (w.regs id)).map Prod.fst
  refine ⟨?_, fun name => ?_, fun name vs hv => ?_⟩
  · rw [hk]; exact hp.nodup_iff.2 (hw.keys id)
  · rw [hk, hp.mem_iff, gets_eq]
    constructor
    · intro hm
      obtain ⟨⟨n, r⟩, h1, rfl⟩ := List.mem_map.1 hm
      rw [lookup_of_mem (hw.keys id) h1]
      simp
    · intro hne
      obtain ⟨r, hr⟩ := Option.ne_none_iff_exists'.1 hne
      exact List.mem_map.2 ⟨(name, r), lookup_some_mem hr, rfl⟩
  · obtain ⟨e, he, h1, o, ho, h2⟩ := forall2_mem hf hv
    simp only at h1
    refine ⟨e.2, o, ?_, ho, forall2_mono (fun a b hab => ⟨hab.1, fun hc => (hab.2.2 hc).2, hab.2.1⟩) h2⟩
    rw [gets_eq]
    exact lookup_of_mem (hw.keys id) (by rw [h1]; exact (env.order_perm _).mem_iff.1 he)

/-- C56: in exact arithmetic every field, the standard deviation included, is what the metric's accessor returned. -/
theorem C56_exact {K : Type} [_root_.Field K] [LinearOrder K] [IsStrictOrderedRing K] [FloorRing K] [GoSqrt K] [GoExp K]
    (h : List (Env K × Op K)) (env : Env K) (g : Reg) (id : Nat) (hb : base g = some id) (w' : World K) (data : Data K)
    (hd : getAll env g (World.init.run h) = (w', .ok (some data))) (name : Str) (vs) (hv : (name, vs) ∈ data) :
    let w : World K := World.init.run h
    ∃ r o, gets w id name = some r ∧ w.objs r = some o ∧
      List.Forall₂ (fun (kc : String × Call K) (kf : String × GoMetrics.Field K) => kf.1 = kc.1 ∧ shows (observe (checked env w r) env r kc.2) kf.2) (fieldsOf o) vs := by
  intro w
  have hw : w.Ok := run_ok h
  obtain ⟨r, o, h1, h2, h3⟩ := (C56_values h env g id hb w' data hd).2.2 name vs hv
  refine ⟨r, o, h1, h2, ?_⟩
  have hsub : ∀ kc ∈ fieldsOf o, kc.2 = .stat .stdDev → HasTy w r .hist ∨ HasTy w r .timer := by
    intro kc hk hc
    cases o with
    | hist x => exact .inl ⟨_, h2, rfl⟩
    | timer x => exact .inr ⟨_, h2, rfl⟩
    | _ => simp [fieldsOf, fieldsOf.rates] at hk <;> (try rcases hk with rfl | rfl | rfl | rfl | rfl) <;> (try subst hk) <;> simp at hc
  have key : ∀ l m, (∀ kc ∈ l, kc ∈ fieldsOf o) → List.Forall₂ (fun (kc : String × Call K) (kf : String × GoMetrics.Field K) => kf.1 = kc.1 ∧
        (kc.2 ≠ .stat .stdDev → shows (observe (checked env w r) env r kc.2) kf.2) ∧
        (kc.2 = .stat .stdDev → kf.2 = .float (sortedDev (recorded w r)))) l m →
      List.Forall₂ (fun (kc : String × Call K) (kf : String × GoMetrics.Field K) => kf.1 = kc.1 ∧ shows (observe (checked env w r) env r kc.2) kf.2) l m := by
    intro l m hl hf
    induction hf with
    | nil => exact .nil
    | @cons a b l m hab _ ih =>
      refine .cons ⟨hab.1, ?_⟩ (ih fun kc hk => hl kc (by simp [hk]))
      by_cases hc : a.2 = .stat .stdDev
      · have hty := hsub a (hl a (by simp)) hc
        have hne : o.ty ≠ .health := by
          rcases hty with ⟨o', h5, h6⟩ | ⟨o', h5, h6⟩ <;> (rw [h2] at h5; simp at h5; subst h5; rw [h6]; simp)
        rw [hab.2.2 hc, checked_of_not_health h2 hne, hc, observe_stat hw hty]
        rcases recorded w r with _ | l
        · rfl
        · have := (readOK_exact (c := (.stat .stdDev : Call K)) rfl).2 _ rfl l (sortInts l) (sortInts_perm l).symm
          simp only [readStat, this]
          rfl
      · exact hab.2.1 hc
  exact key _ _ (fun _ h => h) h3

private theorem shows_unique {x : Res (Out F)} {f f' : GoMetrics.Field F} (h : shows x f) (h' : shows x f') : f = f' := by
  unfold shows at h h'
  split at h <;> first | exact h.elim | (simp only at h'; rw [h, h'])

/-- C56: the result does not depend on the order in which the map is visited (not even the rounding of the standard deviations). -/
theorem C56_order (h : List (Env F × Op F)) (env env' : Env F) (he : env' = { env with order := env'.order, order_perm := env'.order_perm })
    (g : Reg) (id : Nat) (hb : base g = some id) (w1 w2 : World F) (data data' : Data F)
    (hd : getAll env g (World.init.run h) = (w1, .ok (some data))) (hd' : getAll env' g (World.init.run h) = (w2, .ok (some data'))) :
    data.Perm data' := by
  have hw := run_ok h (F := F)
  generalize World.init.run h = w at *
  obtain ⟨-, hf⟩ := getAll_shown hb hw hd
  obtain ⟨-, hf'⟩ := getAll_shown hb hw hd'
  have hck : env'.checkFn = env.checkFn := by rw [he]
  have hg : env'.gaugeFn = env.gaugeFn := by rw [he]
  have hgf : env'.gaugeFFn = env.gaugeFFn := by rw [he]
  have hobs : ∀ (w : World F) r c, accessor c = true → observe w env' r c = observe w env r c := by
    intro w r c hc
    rcases hr : w.objs r with _ | o
    · rw [read_none hr, read_none hr]
    · rw [read_obj hr _ hc, read_obj hr _ hc]
      cases o <;> cases c <;> simp [objVal, hg, hgf]
  have hchk : ∀ r, checked env' w r = checked env w r := by
    intro r
    unfold checked
    rcases hr : w.objs r with _ | o
    · rfl
    · cases o with
      | health x =>
        simp only
        rw [call_obj hr, call_obj hr]
        simp only [objCall, healthCall, hck]
      | _ => rfl
  have hsh : ∀ r kc kf, Shown w env' r kc kf → Shown w env r kc kf := by
    rintro r kc kf ⟨h1, h2, h3⟩
    refine ⟨h1, h2, fun e => ⟨(h3 e).1, ?_⟩⟩
    have := (h3 e).2
    rwa [hchk, hobs _ _ _ (orderFree_accessor (h3 e).1)] at this
  have hf'' := List.Forall₂.imp (fun a b (hab : _ ∧ ∃ o, _) => (⟨hab.1, hab.2.imp fun o ho => ⟨ho.1, forall2_mono (hsh a.2) ho.2⟩⟩ :
    b.1 = a.1 ∧ ∃ o, w.objs a.2 = some o ∧ List.Forall₂ (Shown w env a.2) (fieldsOf o) b.2)) hf'
  have hp : (env.order (w.regs id)).Perm (env'.order (w.regs id)) := (env.order_perm _).trans (env'.order_perm _).symm
  obtain ⟨m, hm, hm'⟩ := List.perm_comp_forall₂ hp hf''
  have uniq : ∀ r (l : List (String × Call F)) (a b : List (String × GoMetrics.Field F)), List.Forall₂ (Shown w env r) l a → List.Forall₂ (Shown w env r) l b → a = b := by
    intro r l a b ha
    induction ha generalizing b with
    | nil => intro hb; cases hb; rfl
    | @cons x y l m h1 _ ih =>
      intro hb
      cases hb with
      | cons h2 h3 =>
        rw [ih _ h3]
        congr 1
        refine Prod.ext (h1.1.trans h2.1.symm) ?_
        by_cases hc : x.2 = .stat .stdDev
        · rw [h1.2.1 hc, h2.2.1 hc]
        · exact shows_unique (h1.2.2 hc).2 (h2.2.2 hc).2
  have : data = m := by
    refine (List.forall₂_eq_eq_eq ▸ ?_ : data = m)
    clear hm' hp hf'' hf' hd hd'
    generalize env.order (w.regs id) = l at *
    induction hf generalizing m with
    | nil => cases hm; exact .nil
    | cons h1 _ ih =>
      cases hm with
      | cons h2 h3 =>
        refine .cons ?_ (ih _ h3)
        obtain ⟨e1, o, ho, h4⟩ := h1
        obtain ⟨e2, o', ho', h5⟩ := h2
        rw [ho] at ho'
        obtain rfl : o = o' := by simpa using ho'
        exact Prod.ext (e1.trans e2.symm) (uniq _ _ _ _ h4 h5)
  rw [this]
  exact hm'

-- A counter with 3 under "c" and a failing healthcheck under "h"; a histogram with one value under "d".
private def dataHistory : List (Env F × Op F) :=
  [(envAt 0, .new .counter), (envAt 0, .new (.health 0)), (envAt 1, .call 0 (.inc 3)), (envAt 1, .reg (.std 0) (.register [99] (.obj 0))),
   (envAt 1, .reg (.prefixed (.std 0) [104]) (.register [] (.obj 1)))]
example : (getAll (envAt 2) (.std 0) (World.init.run dataHistory : World F)).2 = .ok (some [([104], [("error", .errText 1)]), ([99], [("count", .int 3)])]) := rfl
private def histDataHistory : List (Env F × Op F) :=
  [(envAt 0, .new (.uniform 4)), (envAt 0, .new (.hist 0)), (envAt 1, .call 1 (.update 5)), (envAt 1, .reg (.std 0) (.register [100] (.obj 1)))]
private def intFields : Res (Option (Data F64)) → List (Str × List (String × Option Int64))
  | .ok (some d) => d.map fun x => (x.1, x.2.map fun y => (y.1, match y.2 with | .int n => some n | _ => none))
  | _ => []
example : intFields (getAll (envAt 2) (.std 0) (World.init.run histDataHistory : World F64)).2 =
    [([100], [("count", some 1), ("min", some 5), ("max", some 5), ("mean", none), ("stddev", none), ("median", none), ("75%", none), ("95%", none), ("99%", none), ("99.9%", none)])] := by
  decide +kernel

/-! ### C57 -/

/-- The type assertion on what the registry returned. -/
private def castOut (k : Kind) (w : World F) : Res (RegOut F) → World F × Res Ref
  | .ok (.metric r) => match w.objs r with
    | some o => if k.is o then (w, .ok r) else (w, .error .typeAssert)
    | none => (w, .error .typeAssert)
  | .ok _ => (w, .error .typeAssert)
  | .error p => (w, .error p)

private theorem is_iff (k : Kind) (o : Obj F) : k.is o = true ↔ isA k o := by
  cases k <;> cases o <;> simp [Kind.is, isA]

private theorem is_of_new (k : Kind) (o : Obj F) (h : o.ty = newTy (k.ctor : NewOp F)) : k.is o = true := by
  cases k <;> cases o <;> simp [Kind.is, Obj.ty, newTy, Kind.ctor] at *

private theorem ctor_metric (k : Kind) : makesMetric (k.ctor : NewOp F) = true := by cases k <;> rfl

private theorem typed_eq (env : Env F) (k : Kind) (hk : k ≠ .gaugeF) (name : Str) (g : Option Reg) (w w1 : World F) (out)
    (h : regCall env (g.getD defaultRegistry) (.getOrRegister name (.ctor k.ctor)) w = (w1, out)) :
    getOrRegisterTyped env k name g w = castOut k w1 out := by
  have e : getOrRegisterTyped env k name g w = (do
      match ← regCall env (g.getD defaultRegistry) (.getOrRegister name (.ctor k.ctor)) with
      | .metric r =>
        match ← getObj r with
        | some o => if k.is o then return r else Act.fail .typeAssert
        | none => Act.fail .typeAssert
      | _ => Act.fail .typeAssert : Act F Ref) w := by
    cases k <;> first | rfl | exact absurd rfl hk
  rw [e, act_bind, h]
  rcases out with p | o
  · rfl
  · cases o with
    | metric r =>
      simp only [castOut]
      rw [act_bind_getObj]
      rcases w1.objs r with _ | o
      · rfl
      · cases hh : k.is o <;> simp [hh] <;> rfl
    | _ => rfl

private theorem typed_float_eq (env : Env F) (name : Str) (g : Option Reg) (w w1 w2 : World F) (q : Ref) (out) (hc : construct env .gaugeF w = (w1, .ok q))
    (h : regCall env (g.getD defaultRegistry) (.getOrRegister name (.obj q)) w1 = (w2, out)) :
    getOrRegisterTyped env .gaugeF name g w = castOut Kind.gaugeF w2 out := by
  have e : getOrRegisterTyped env .gaugeF name g w = (do
      match ← regCall env (g.getD defaultRegistry) (.getOrRegister name (.obj q)) with
      | .metric r =>
        match ← getObj r with
        | some o => if Kind.gaugeF.is o then return r else Act.fail .typeAssert
        | none => Act.fail .typeAssert
      | _ => Act.fail .typeAssert : Act F Ref) w1 := by
    have : getOrRegisterTyped env .gaugeF name g w = (do
      let v ← (do return .obj (← construct env .gaugeF) : Act F (Val F))
      match ← regCall env (g.getD defaultRegistry) (.getOrRegister name v) with
      | .metric r =>
        match ← getObj r with
        | some o => if Kind.gaugeF.is o then return r else Act.fail .typeAssert
        | none => Act.fail .typeAssert
      | _ => Act.fail .typeAssert : Act F Ref) w := rfl
    have e2 : (do return .obj (← construct env .gaugeF) : Act F (Val F)) w = (w1, .ok (.obj q)) := by
      rw [act_bind, hc]; rfl
    rw [this, act_bind, e2]
  rw [e, act_bind, h]
  rcases out with p | o
  · rfl
  · cases o with
    | metric r =>
      simp only [castOut]
      rw [act_bind_getObj]
      rcases w2.objs r with _ | o
      · rfl
      · cases hh : Kind.gaugeF.is o <;> simp [hh] <;> rfl
    | _ => rfl

private theorem construct_float (env : Env F) (w : World F) : ∃ o : Obj F, o.ty = .gaugeF ∧ construct env .gaugeF w =
    ({ w with objs := Function.update w.objs w.nextObj (some o), nextObj := w.nextObj + 1 }, .ok w.nextObj) := by
  refine ⟨_, ?_, rfl⟩
  rfl

/-- C57: `GetOrRegisterX(name, r)` under a name bound to a metric of kind X returns that metric, under a name bound to another kind it panics; in both cases
no binding changes and nothing that existed changes (only `GetOrRegisterGaugeFloat64` makes an object, which is dropped). -/
theorem C57_taken (h : List (Env F × Op F)) (env : Env F) (k : Kind) (name : Str) (g : Option Reg) (id : Nat) (hb : base (g.getD defaultRegistry) = some id) (r : Ref) (o : Obj F)
    (ht : gets (World.init.run h : World F) id (baseName (g.getD defaultRegistry) name) = some r) (ho : (World.init.run h : World F).objs r = some o) :
    let w : World F := World.init.run h
    ∃ w1, Ext w w1 ∧ (k ≠ .gaugeF → w1 = w) ∧ (isA k o → getOrRegisterTyped env k name g w = (w1, .ok r)) ∧
      (¬ isA k o → getOrRegisterTyped env k name g w = (w1, .error .typeAssert)) := by
  intro w
  have hw : w.Ok := run_ok h
  have ht' : gets w id (baseName (g.getD defaultRegistry) name) = some r := ht
  have ho' : w.objs r = some o := ho
  by_cases hk : k = .gaugeF
  · subst hk
    obtain ⟨q, -, hc⟩ := construct_float env w
    have hx := Ext.alloc w q
    generalize ({ w with objs := Function.update w.objs w.nextObj (some q), nextObj := w.nextObj + 1 } : World F) = w1 at hc hx
    refine ⟨w1, hx, fun hn => absurd rfl hn, ?_⟩
    have hg := C49_taken w1 env (g.getD defaultRegistry) id hb name r (by rw [regs_of_objs hx.regs]; exact ht') (.obj w.nextObj)
    rw [typed_float_eq env name g w _ _ _ _ hc hg]
    simp only [castOut, hx.keep hw ho']
    exact ⟨fun hi => if_pos ((is_iff _ o).2 hi), fun hi => if_neg (fun hh => hi ((is_iff _ o).1 hh))⟩
  · refine ⟨w, Ext.refl w, fun _ => rfl, ?_⟩
    rw [typed_eq env k hk name g w w _ (C49_taken w env _ id hb name r ht' _)]
    simp only [castOut, ho']
    exact ⟨fun hi => if_pos ((is_iff _ o).2 hi), fun hi => if_neg (fun hh => hi ((is_iff _ o).1 hh))⟩

/-- C57: under a free name it makes a metric of kind X with the constructor of that kind, binds the name to it, and returns it; if the constructor panics
(`NewHistogram` of no sample), so does it, and no name is bound. -/
theorem C57_free (h : List (Env F × Op F)) (env : Env F) (k : Kind) (name : Str) (g : Option Reg) (id : Nat) (hb : base (g.getD defaultRegistry) = some id)
    (hf : gets (World.init.run h : World F) id (baseName (g.getD defaultRegistry) name) = none) :
    let w : World F := World.init.run h
    (∀ w1 r, construct env k.ctor w = (w1, .ok r) → (∃ o, w1.objs r = some o ∧ isA k o) ∧ ∃ w2, getOrRegisterTyped env k name g w = (w2, .ok r) ∧ w2 = { w1 with regs := w2.regs } ∧
      ∀ id' name', gets w2 id' name' = if id' = id ∧ name' = baseName (g.getD defaultRegistry) name then some r else gets w id' name') ∧
    (∀ w1 p, construct env k.ctor w = (w1, .error p) → getOrRegisterTyped env k name g w = (w1, .error p)) := by
  intro w
  have hf' : gets w id (baseName (g.getD defaultRegistry) name) = none := hf
  by_cases hk : k = .gaugeF
  · subst hk
    obtain ⟨q, hq, hc⟩ := construct_float env w
    have hc' : construct env (Kind.gaugeF.ctor : NewOp F) w = construct env .gaugeF w := rfl
    refine ⟨fun w1 r h1 => ?_, fun w1 p h1 => ?_⟩
    · rw [hc', hc] at h1
      simp only [Prod.mk.injEq, Except.ok.injEq] at h1
      obtain ⟨rfl, rfl⟩ := h1
      refine ⟨⟨q, by simp, by cases q <;> simp [Obj.ty] at hq; exact ⟨_, rfl⟩⟩, ?_⟩
      generalize hw1 : ({ w with objs := Function.update w.objs w.nextObj (some q), nextObj := w.nextObj + 1 } : World F) = w1 at *
      have hq1 : w1.objs w.nextObj = some q := by rw [← hw1]; exact Function.update_self ..
      have hregs : w1.regs = w.regs := by rw [← hw1]
      have hmk : metricKind q = true := by cases q <;> simp [Obj.ty] at hq; rfl
      obtain ⟨w2, h5, h6, h7⟩ := C47_fresh w1 env (.std id) id rfl (baseName (g.getD defaultRegistry) name) w.nextObj q
        (by rw [regs_of_objs hregs]; exact hf') hq1 hmk
      have hg : regCall env (g.getD defaultRegistry) (.getOrRegister name (.obj w.nextObj)) w1 = (w2, .ok (.metric w.nextObj)) := by
        rw [(regCall_prefix env _).2.1, hb]
        show getOrRegister env id (fullName (g.getD defaultRegistry) name) (.obj w.nextObj) w1 = _
        have hl : lookup (w1.regs id) (baseName (g.getD defaultRegistry) name) = none := by rw [← gets_eq, regs_of_objs hregs]; exact hf'
        rw [fullName_eq, getOrRegister_eq, hl]
        replace h5 : register id (baseName (g.getD defaultRegistry) name) (.obj w.nextObj) w1 = _ := h5
        simp only [h5]
      refine ⟨w2, ?_, h6, fun id' name' => ?_⟩
      · rw [typed_float_eq env name g w _ _ _ _ hc hg]
        have : w2.objs w.nextObj = some q := by rw [h6]; exact hq1
        simp only [castOut, this]
        have hi : Kind.gaugeF.is q = true := by cases q <;> simp [Obj.ty] at hq; rfl
        simp [hi]
      · rw [h7, regs_of_objs hregs]; rfl
    · rw [hc', hc] at h1
      simp at h1
  · obtain ⟨h1, h2⟩ := C49_free w env (g.getD defaultRegistry) id hb name (k.ctor) hf' (ctor_metric k)
    refine ⟨fun w1 r hc => ?_, fun w1 p hc => ?_⟩
    · obtain ⟨w2, h3, h4, h5⟩ := h1 w1 r hc
      obtain ⟨⟨o, ho, hty⟩, -⟩ := construct_new hc
      have hi := is_of_new k o hty
      refine ⟨⟨o, ho, (is_iff k o).1 hi⟩, w2, ?_, h4, h5⟩
      rw [typed_eq env k hk name g w w2 _ h3]
      have : w2.objs r = some o := by rw [h4]; exact ho
      simp only [castOut, this]
      simp [hi]
    · rw [typed_eq env k hk name g w w1 _ (h2 w1 p hc)]
      rfl

/-- C57: `NewRegisteredX` under a taken name returns a new metric that is in no registry, and changes no binding. -/
theorem C57_new_taken (h : List (Env F × Op F)) (env : Env F) (c : NewOp F) (_hc : c.registered = true) (name : Str) (g : Option Reg) (id : Nat)
    (hb : base (g.getD defaultRegistry) = some id) (q : Ref) (ht : gets (World.init.run h : World F) id (baseName (g.getD defaultRegistry) name) = some q)
    (w1 : World F) (r : Ref) (h1 : construct env c (World.init.run h) = (w1, .ok r)) :
    newRegistered env c name g (World.init.run h) = (w1, .ok r) ∧ (∀ id' name', gets w1 id' name' = gets (World.init.run h : World F) id' name') ∧
    ∀ id' name', gets w1 id' name' ≠ some r := by
  have hw := run_ok h (F := F)
  generalize World.init.run h = w at *
  have hregs := (construct_regs env c w).1
  rw [h1] at hregs
  simp only at hregs
  refine ⟨?_, fun id' name' => regs_of_objs hregs id' name', fun id' name' he => ?_⟩
  · rw [newRegistered, act_bind, h1]
    simp only
    rw [act_bind, C47_duplicate w1 env _ id hb name q (by rw [regs_of_objs hregs]; exact ht) _]
    rfl
  · rw [regs_of_objs hregs, gets_eq] at he
    obtain ⟨o, ho, -⟩ := hw.metric id' _ (lookup_some_mem he)
    have := hw.lt ho
    have := (construct_new h1).2
    simp only at *
    omega

/-- C57: under a free name it is bound to the new metric. -/
theorem C57_new_free (h : List (Env F × Op F)) (env : Env F) (c : NewOp F) (hc : c.registered = true) (name : Str) (g : Option Reg) (id : Nat)
    (hb : base (g.getD defaultRegistry) = some id) (hf : gets (World.init.run h : World F) id (baseName (g.getD defaultRegistry) name) = none)
    (w1 : World F) (r : Ref) (h1 : construct env c (World.init.run h) = (w1, .ok r)) :
    ∃ w2, newRegistered env c name g (World.init.run h) = (w2, .ok r) ∧ w2 = { w1 with regs := w2.regs } ∧
      ∀ id' name', gets w2 id' name' = if id' = id ∧ name' = baseName (g.getD defaultRegistry) name then some r else gets (World.init.run h : World F) id' name' := by
  generalize World.init.run h = w at *
  have hregs := (construct_regs env c w).1
  rw [h1] at hregs
  simp only at hregs
  obtain ⟨⟨o, ho, hty⟩, -⟩ := construct_new h1
  have hm := newTy_metric hty
  have hcm : makesMetric c = true := by cases c <;> simp [NewOp.registered] at hc <;> rfl
  obtain ⟨w2, h2, h3, h4⟩ := C47_fresh w1 env (g.getD defaultRegistry) id hb name r o (by rw [regs_of_objs hregs]; exact hf) ho (by rw [metricKind_eq, hm, hcm])
  refine ⟨w2, ?_, h3, fun id' name' => ?_⟩
  · rw [newRegistered, act_bind, h1]
    simp only
    rw [act_bind, h2]
    rfl
  · rw [h4, regs_of_objs hregs]

-- A counter under "a": `GetOrRegisterCounter` finds it, `GetOrRegisterMeter` panics, `GetOrRegisterGauge` under "b" makes one, `NewRegisteredCounter` makes one that is not registered.
private def typedHistory : List (Env F × Op F) := [(envAt 0, .new .counter), (envAt 1, .reg (.std 0) (.register [97] (.obj 0)))]
example : gets (World.init.run typedHistory : World F) 0 [97] = some 0 := rfl
example : (getOrRegisterTyped (envAt 2) .counter [97] none (World.init.run typedHistory : World F)).2 = .ok 0 := rfl
example : (getOrRegisterTyped (envAt 2) .meter [97] none (World.init.run typedHistory : World F)).2 = .error .typeAssert := rfl
example : (getOrRegisterTyped (envAt 2) .gauge [98] none (World.init.run typedHistory : World F)).2 = .ok 1 := rfl
example : (getOrRegisterTyped (envAt 2) .gaugeF [98] none (World.init.run typedHistory : World F)).2 = .ok 1 := rfl
example : (newRegistered (envAt 2) .counter [97] none (World.init.run typedHistory : World F)).2 = .ok 1 := rfl

/-! ### C60 -/

-- A healthcheck under "x", and one under "ab" (so under "b" of a child with the prefix "a").
private def childHistory : List (Env F × Op F) :=
  [(envAt 0, .new (.health 0)), (envAt 0, .new (.health 1)), (envAt 1, .reg (.std 0) (.register [120] (.obj 0))), (envAt 1, .reg (.prefixed (.std 0) [97]) (.register [98] (.obj 1)))]

/-- C60 is false for `UnregisterAll`: on a child with the prefix "a" it removes the metric "x" of the parent. -/
theorem C60_refuted_unregisterAll : ∃ (h : List (Env F × Op F)) (env : Env F) (pre name : Str), ¬ pre <+: name ∧
    gets (World.init.run h : World F) 0 name ≠ none ∧ gets ((World.init.run h : World F).run [(env, .reg (.prefixed (.std 0) pre) .unregisterAll)]) 0 name = none :=
  ⟨childHistory, envAt 2, [97], [120], by decide, Option.some_ne_none 0, rfl⟩

/-- C60 is false for `RunHealthchecks`: on a child with the prefix "a" it runs the healthcheck "x" of the parent. -/
theorem C60_refuted_runHealthchecks : ∃ (h : List (Env F × Op F)) (env : Env F) (pre name : Str) (r : Ref), ¬ pre <+: name ∧
    gets (World.init.run h : World F) 0 name = some r ∧ (∀ name', gets (World.init.run h : World F) 0 name' = some r → name' = name) ∧
    observe (World.init.run h : World F) env r .error = .ok (.err none) ∧
    observe ((World.init.run h : World F).run [(env, .reg (.prefixed (.std 0) pre) .runHealthchecks)]) env r .error = .ok (.err (some 1)) := by
  refine ⟨childHistory, envAt 2, [97], [120], 0, by decide, rfl, fun name' h => ?_, rfl, rfl⟩
  have := lookup_some_mem ((gets_eq ..).symm.trans h)
  have e : (World.init.run childHistory : World F).regs 0 = [([97, 98], 1), ([120], 0)] := rfl
  rw [e] at this
  simpa using this

/-- C60 is false for `GetAll`: on a child with the prefix "a" it shows the metric "x" of the parent. -/
theorem C60_refuted_getAll : ∃ (h : List (Env F × Op F)) (env : Env F) (pre name : Str) (w' : World F) (data : Data F), ¬ pre <+: name ∧
    getAll env (.prefixed (.std 0) pre) (World.init.run h) = (w', .ok (some data)) ∧ name ∈ data.map Prod.fst :=
  ⟨childHistory, envAt 2, [97], [120], _, [([97, 98], [("error", .errText 1)]), ([120], [("error", .errText 1)])], by decide, rfl, by simp⟩

/-- C60, what holds: these calls on a child affect and show at least everything under its prefix (they do not spare the rest of the base registry, see the
three theorems above), and no other registry. -/
theorem C60_partial (h : List (Env F × Op F)) (env : Env F) (g : Reg) (id : Nat) (hb : base g = some id) (name : Str) :
    let w : World F := World.init.run h
    gets (w.run [(env, .reg g .unregisterAll)]) id (baseName g name) = none ∧
    (∀ id' name', id' ≠ id → gets (w.run [(env, .reg g .unregisterAll)]) id' name' = gets w id' name') ∧
    (∀ r x, gets w id (baseName g name) = some r → w.objs r = some (.health x) →
      (w.run [(env, .reg g .runHealthchecks)]).objs r = some (.health (x.check env.checkFn))) ∧
    (∀ r x, (∀ name', gets w id name' ≠ some r) → w.objs r = some (.health x) → (w.run [(env, .reg g .runHealthchecks)]).objs r = some (.health x)) ∧
    (∀ w' data, getAll env g w = (w', .ok (some data)) → (baseName g name ∈ data.map Prod.fst ↔ gets w id (baseName g name) ≠ none)) := by
  intro w
  obtain ⟨-, h2, -⟩ := C53_unregisterAll h env g id hb
  refine ⟨?_, fun id' name' hne => ?_, fun r x hr hx => ?_, fun r x hr hx => ?_, fun w' data hd => (C56_values h env g id hb w' data hd).2.1 _⟩
  · exact (h2 id _).trans (if_pos rfl)
  · exact (h2 id' _).trans (if_neg hne)
  · obtain ⟨w', h1, -, h3, -⟩ := C54_checks h env g id hb
    show (step env (.reg g .runHealthchecks) (World.init.run h)).1.objs r = _
    rw [h1]
    simp only
    rw [h3 r x hx]
    have hpos : timesRegistered w id r ≠ 0 := by
      rw [timesRegistered, Ne, List.length_eq_zero_iff, List.filter_eq_nil_iff]
      intro hall
      rw [gets_eq] at hr
      exact hall _ (lookup_some_mem hr) (by simp)
    obtain ⟨n, hn⟩ := Nat.exists_eq_succ_of_ne_zero hpos
    have : timesRegistered (World.init.run h : World F) id r = n + 1 := hn
    rw [this]
    congr 2
    clear this hn
    induction n with
    | zero => rfl
    | succ n ih => rw [Function.iterate_succ_apply', ih, check_check]
  · exact (C54_once h env g id hb r x hx).2 hr

end GoMetrics
