import Verif.Spec.ExportConc
import Verif.Spec.JsonDoc

/-! What `GetAll` and the JSON export should return when other goroutines use the metrics meanwhile. -/

namespace GoMetrics.Spec
open GoMetrics

variable {F : Type} [GoFloat F] [GoSqrt F] [GoExp F]

/-- The entry for the metric `r`: its name, and the fields of its kind with the values that their accessors have in the state `w`. -/
def EntryOf (w : World F) (env : Env F) (name : Str) (r : Ref) (o : Obj F) (x : List (Str × List (String × GoMetrics.Field F))) : Prop :=
  ∃ vs, x = [(name, vs)] ∧ List.Forall₂ (fun (kc : String × Call F) (kf : String × GoMetrics.Field F) => kf.1 = kc.1 ∧ HasValue w env r kc.2 kf.2) (fieldsOf o) vs

/-- Between `start` and the end of `whole` a call on a metric panicked with `p`. -/
def CallPanics (start whole : List (Env F × Op F)) (p : Panic) : Prop :=
  ∃ past env r c, start <+: past ∧ past ++ [(env, .call r c)] <+: whole ∧ observe (after past) env r c = .error p

/-- Between `start` and the end of `whole` the error of the healthcheck `r` was read when there was one, and read again later, when there was none. -/
def ErrorVanishes (start whole : List (Env F × Op F)) (r : Ref) : Prop :=
  ∃ past env past' env' e, start <+: past ∧ past ++ [(env, .call r .error)] <+: past' ∧ past' ++ [(env', .call r .error)] <+: whole ∧
    observe (after past) env r .error = .ok (.err (some e)) ∧ observe (after past') env' r .error = .ok (.err none)

/-- The text is a JSON object with one member for each entry of `data`, that is an object with one member for each field, whose value denotes that of the field. -/
def JsonHas (errText : Nat → Str) (data : List (Str × List (String × GoMetrics.Field F64))) (text : Str) : Prop :=
  ∃ ms : List (Str × List (Str × Json)), readJson text = some (.obj (ms.map fun m => (chars m.1, .obj (m.2.map fun f => (chars f.1, f.2))))) ∧
    ∃ ms', ms'.Perm ms ∧ List.Forall₂ (fun (x : Str × List (String × GoMetrics.Field F64)) m => m.1 = x.1 ∧
      ∃ fs', fs'.Perm m.2 ∧ List.Forall₂ (fun (kf : String × GoMetrics.Field F64) (f : Str × Json) => f.1 = bytes kf.1 ∧ Denotes errText kf.2 f.2) x.2 fs') data ms'

end GoMetrics.Spec
