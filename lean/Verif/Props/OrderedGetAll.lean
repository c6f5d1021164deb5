import Verif.Props.GetAll
import Verif.Props.GetAllConc
import Verif.Props.Ordered

/-! Property theorems C122 for `GetAll`, from which the JSON is made: in exact arithmetic, with float64 (`_ieee`), and with float64 while other goroutines use the metrics (`_live`). -/

namespace GoMetrics
open Spec

section
variable {K : Type} [_root_.Field K] [LinearOrder K] [IsStrictOrderedRing K] [FloorRing K] [GoSqrt K] [GoExp K]

/-- C122, `GetAll`: the fields of each histogram and timer are in order. -/
theorem C122_getAll (h : List (Env K × Op K)) (env : Env K) (g : Reg) (id : Nat) (hb : base g = some id) (w' : World K) (data : Data K)
    (hd : getAll env g (World.init.run h) = (w', .ok (some data))) (name : Str) (vs : List (String × GoMetrics.Field K)) (hv : (name, vs) ∈ data) :
    ∃ r o, gets (World.init.run h : World K) id name = some r ∧ (World.init.run h : World K).objs r = some o ∧ vs.map Prod.fst = (fieldsOf o).map Prod.fst ∧
      (isDistribution o = true → SumsFit (World.init.run h : World K) r → FieldsInOrder o vs) := by
  obtain ⟨r, o, h4, h5, h6⟩ := (C56_values h env g id hb w' data hd).2.2 name vs hv
  refine ⟨r, o, h4, h5, Ordered.fields_names (forall2_mono (fun a b hab => hab.1) h6), fun hk hs => ?_⟩
  obtain ⟨f⟩ := Ordered.facts (run_ok h) env h5 hk hs
  exact Ordered.fieldsInOrder Ordered.int_exact f (forall2_mono (fun a b hab => ⟨hab.1, hab.2.2, hab.2.1⟩) h6)

end

section
variable [GoSqrt F64] [GoExp F64]

/-- C122, `GetAll`, with float64: the fields are in order if the sum of the values and their number can be converted without rounding. -/
theorem C122_getAll_ieee (h : List (Env F64 × Op F64)) (env : Env F64) (g : Reg) (id : Nat) (hb : base g = some id) (w' : World F64) (data : Data F64)
    (hd : getAll env g (World.init.run h) = (w', .ok (some data))) (name : Str) (vs : List (String × GoMetrics.Field F64)) (hv : (name, vs) ∈ data) :
    ∃ r o, gets (World.init.run h : World F64) id name = some r ∧ (World.init.run h : World F64).objs r = some o ∧ vs.map Prod.fst = (fieldsOf o).map Prod.fst ∧
      (isDistribution o = true → SumsExact (World.init.run h : World F64) r → FieldsInOrder o vs) := by
  obtain ⟨r, o, h4, h5, h6⟩ := (C56_values h env g id hb w' data hd).2.2 name vs hv
  refine ⟨r, o, h4, h5, Ordered.fields_names (forall2_mono (fun a b hab => hab.1) h6), fun hk hs => ?_⟩
  obtain ⟨f⟩ := Ordered.facts_ieee (run_ok h) env h5 hk hs
  exact Ordered.fieldsInOrder Ordered.int_ieee f (forall2_mono (fun a b hab => ⟨hab.1, hab.2.2, hab.2.1⟩) h6)

/-- C122, `GetAll`: whatever other goroutines do meanwhile, the fields of each histogram and timer are in order (they are those of one moment). -/
theorem C122_getAll_live (s : Nat → Turn F64) (g : Reg) (id : Nat) (hb : base g = some id) (h : List (Env F64 × Op F64)) (st : LiveState F64) (data : Data F64)
    (hown : ∀ name r, gets (after (h ++ (s 0).others) : World F64) id name = some r → ownsValues (after (h ++ (s 0).others)) r)
    (hd : getAllLive s g h = (st, .ok (some data))) :
    ∃ blocks, ExportedLive (h ++ (s 0).others) st.log id [] (fun _ => false) data
      (fun w env name r o x => EntryOf w env name r o x ∧ ∀ vs, (name, vs) ∈ x → isDistribution o = true → SumsExact w r → FieldsInOrder o vs) blocks := by
  obtain ⟨blocks, h1, h2, h3, h4, h5⟩ := C101_values s g id hb h st data hown hd
  refine ⟨blocks, h1, h2, h3, h4, fun b hbb => ?_⟩
  obtain ⟨k1, k2, k3, o, k4, k5⟩ := h5 b hbb
  refine ⟨k1, k2, k3, o, k4, ?_⟩
  rw [if_neg (by simp)] at k5 ⊢
  refine ⟨k5.1, k5.2, fun vs hv hk hs => ?_⟩
  obtain ⟨vs', e, h6⟩ := k5.2
  rw [e, List.mem_singleton] at hv
  cases hv
  obtain ⟨f⟩ := Ordered.facts_ieee (run_ok b.past) b.env k4 hk hs
  have hne : o.ty ≠ .health := by cases o <;> simp [isDistribution] at hk <;> simp [Obj.ty]
  refine Ordered.fieldsInOrder Ordered.int_ieee f (forall2_mono (fun a c hac => ⟨hac.1, hac.2.1, fun hn => ?_⟩) h6)
  rw [checked_of_not_health k4 hne]
  exact hac.2.2 hn

end

-- A timer "t" with one event of 1999 ns; another goroutine adds one of 7 ns before `GetAll` reaches it.
private def oneTimer : List (Env F64 × Op F64) :=
  [(envAt 0, .new (.uniform 4)), (envAt 0, .new (.hist 0)), (envAt 0, .new .meter), (envAt 0, .new (.customTimer 1 2)), (envAt 1, .call 3 (.updateD 1999)), (envAt 1, .reg (.std 0) (.register [116] (.obj 3)))]
private def meanwhile : Nat → Turn F64 := fun n => ⟨if n = 1 then [(envAt 1, .call 3 (.updateD 7))] else [], envAt 2⟩

private def names : Res (Option (Data F64)) → List Str
  | .ok (some data) => data.map Prod.fst
  | _ => []

/-- The hypotheses can be met, alone … -/
example : names (getAll (envAt 2) (.std 0) (World.init.run oneTimer : World F64)).2 = [[116]] ∧ SumsExact (World.init.run oneTimer : World F64) 3 :=
  ⟨by decide +kernel, fun vs hv => by
    rw [show recorded (World.init.run oneTimer : World F64) 3 = some [1999] from rfl] at hv
    cases hv
    decide⟩

/-- … and with the other goroutine. -/
example : names (getAllLive meanwhile (.std 0) oneTimer).2 = [[116]] ∧ recorded (after (getAllLive meanwhile (.std 0) oneTimer).1.log : World F64) 3 = some [1999, 7] := by decide +kernel

end GoMetrics
