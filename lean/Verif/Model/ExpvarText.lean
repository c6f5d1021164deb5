import Verif.Go.Quote
import Verif.Model.Expvar

/-!
The text of the response of the expvar handler (/repo/exp/exp.go:23-34), in float64.

`expvar.Do` calls the function for the variables of the table in the order of their names, here `keys`. `%s` of a variable is its method `String`, which is `strconv.FormatInt` for `*expvar.Int` and
`strconv.FormatFloat(…, 'g', -1, 64)` for `*expvar.Float`; for other variables it is a parameter.
-/

namespace GoMetrics

/-- The packages fmt, strconv and expvar. -/
structure ExpText where
  shortest : Shortest
  printer : Printer
  /-- `String()` of a variable of another type. -/
  other : Str → Str

/-- `kv.Value.String()`. A `*expvar.Float` contains a float64, so that the last case does not occur. -/
def ExpText.value (p : ExpText) (k : Str) : Var F64 → Str
  | .int n => fmtInt n.toInt
  | .float (.float x) => gFloat p.shortest x
  | .float (.bits b) => gFloat p.shortest (.ofBits b)
  | .other => p.other k
  | .float _ => bytes "?"

/-- exp.go:27-33: the callback of `expvar.Do`; `first` as in the code. -/
def expEntries (p : ExpText) (vars : Str → Option (Var F64)) : Bool → List Str → Str
  | _, [] => []
  | first, k :: keys =>
    match vars k with
    | some x => (if first then [] else bytes ",\n") ++ (goQuote p.printer k ++ bytes ": " ++ p.value k x) ++ expEntries p vars false keys
    | none => expEntries p vars first keys

/-- exp.go:25-34: everything that is written. -/
def expResponse (p : ExpText) (keys : List Str) (vars : Str → Option (Var F64)) : Str := bytes "{\n" ++ expEntries p vars true keys ++ bytes "\n}\n"

end GoMetrics
