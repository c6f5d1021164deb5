import Verif.Model.Export

/-!
Model of /repo/json.go.

`encoding/json` is trusted to do the following for a map from strings: `{`, the members in the byte order of their keys, separated by `,`, each of them the
quoted key, `:` and the value, `}`; a float64 that is NaN or infinite is an error (`UnsupportedValueError`), which ends the encoding. How integers, finite
floats and strings are written is a parameter (`JsonText`). `Encoder.Encode` calls `MarshalJSON`, and writes its result and a newline in one `Write`, or
nothing if there was an error. Writing does not fail. The endless loop of `WriteJSON` (json.go:17-21) is left out: one round is modelled.
-/

namespace GoMetrics
open GoFloat

variable {F : Type} [GoFloat F] [GoSqrt F] [GoExp F]

/-- `strconv` and the string quoting of `encoding/json`. -/
structure JsonText (F : Type) where
  int : Int64 → Str
  float : F → Str
  bits : FloatBits → Str
  quote : Str → Str
  /-- `err.Error()` -/
  errText : Nat → Str

/-- The sort by key in `encoding/json`: a permutation in which no key is less than one before it. -/
structure KeySorter where
  sort : {α : Type} → List (Str × α) → List (Str × α)
  perm : ∀ {α : Type} (l : List (Str × α)), (sort l).Perm l
  sorted : ∀ {α : Type} (l : List (Str × α)), (sort l).Pairwise fun a b => ¬ b.1 < a.1

/-- math.MaxFloat64. -/
def maxFloat64 : ℚ := (2 ^ 53 - 1) * 2 ^ 971
/-- `math.IsInf(x, 0) || math.IsNaN(x)`, as in `encoding/json`: `x > MaxFloat64 || x < -MaxFloat64`; `x != x`. -/
def notNumber (x : F) : Bool := lt (lit maxFloat64) x || lt x (lit (-maxFloat64)) || !(le x x)
/-- The same for the bits of a float64: all bits of the exponent are set. -/
def notNumberBits (b : FloatBits) : Bool := (b >>> 52) &&& 0x7FF == 0x7FF

/-- A value of the inner maps; `none` is an error. -/
def jsonValue (t : JsonText F) : Field F → Option Str
  | .int n => some (t.int n)
  | .float x => if notNumber x then none else some (t.float x)
  | .bits b => if notNumberBits b then none else some (t.bits b)
  | .errText e => some (t.quote (t.errText e))
  | .nil => some (bytes "null")

/-- The members of a map that has been sorted; `first` is true before the first of them. -/
def jsonMembers {α : Type} (t : JsonText F) (value : α → Option Str) : Bool → List (Str × α) → Option Str
  | _, [] => some []
  | first, (k, v) :: l => do
    let v ← value v
    let rest ← jsonMembers t value false l
    return (if first then [] else bytes ",") ++ t.quote k ++ bytes ":" ++ v ++ rest

def jsonMap {α : Type} (t : JsonText F) (srt : KeySorter) (value : α → Option Str) (l : List (Str × α)) : Option Str := do
  let m ← jsonMembers t value true (srt.sort l)
  return bytes "{" ++ m ++ bytes "}"

/-- `json.Marshal` of the result of `GetAll`. -/
def jsonMarshal (t : JsonText F) (srt : KeySorter) (data : Data F) : Option Str :=
  jsonMap t srt (fun vs => jsonMap t srt (jsonValue t) (vs.map fun x => (bytes x.1, x.2))) data

/-- json.go:11-13 `StandardRegistry.MarshalJSON`, 29-31 `PrefixedRegistry.MarshalJSON`: the text, or `none` for an error. A foreign registry is user code. -/
def marshalJSON (env : Env F) (t : JsonText F) (srt : KeySorter) (g : Reg) (w : World F) : World F × Res (Option Str) :=
  match getAll env g w with
  | (w', .ok (some data)) => (w', .ok (jsonMarshal t srt data))
  | (w', .ok none) => (w', .ok none)
  | (w', .error p) => (w', .error p)

/-- json.go:25-27 `WriteJSONOnce`: what is written; the error is dropped. -/
def writeJSONOnce (env : Env F) (t : JsonText F) (srt : KeySorter) (g : Reg) (w : World F) : World F × Res Str :=
  match marshalJSON env t srt g w with
  | (w', .ok (some s)) => (w', .ok (s ++ [10]))
  | (w', .ok none) => (w', .ok [])
  | (w', .error p) => (w', .error p)

end GoMetrics
