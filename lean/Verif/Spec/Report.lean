import Verif.Spec.Units

/-! How a person or program reads the reports of `WriteOnce`, `Log` and `Syslog`: entries with a kind, a name and labelled texts. Independent of how they were printed. -/

namespace GoMetrics.Spec
open GoMetrics

/-- An entry of a report. -/
structure Entry where
  kind : Str
  name : Str
  /-- labels and texts -/
  rows : List (Str × Str)
  deriving DecidableEq

/-- What is before and after the first separator. -/
def cut (sep : UInt8) : Str → Option (Str × Str)
  | [] => none
  | b :: s => if b = sep then some ([], s) else (cut sep s).map fun x => (b :: x.1, x.2)

/-- A line `  label:    text`. -/
def readRow : Str → Option (Str × Str)
  | 32 :: 32 :: s => (cut 58 s).map fun x => (x.1, x.2.dropWhile (· = 32))
  | _ => none

/-- The lines of a report: the rows before the first heading, and the entries. A heading is a line `kind name` that does not start with a space. -/
def readBlocks : List Str → Option (List (Str × Str) × List Entry)
  | [] => some ([], [])
  | l :: ls => do
    let (rows, es) ← readBlocks ls
    if l.head? = some 32 then return ((← readRow l) :: rows, es)
    else
      let (kind, name) ← cut 32 l
      return ([], ⟨kind, name, rows⟩ :: es)

/-- A report; every line ends with a newline. -/
def readReport (s : Str) : Option (List Entry) :=
  match (splitOn 10 s).reverse with
  | [] :: ls => match readBlocks ls.reverse with
    | some ([], es) => some es
    | _ => none
  | _ => none

/-- A number and its unit of time, in nanoseconds. -/
def readQuantity (s : Str) : Option (Reading × Int) := unitNames.findSome? fun u =>
  if u.1.isSuffixOf s then (readNumber (s.take (s.length - u.1.length))).map fun x => (x, u.2) else none

/-- The text `s` says the value `v`: numbers as in `Reads`, errors by their text (leading spaces are lost), no error by `<nil>`. -/
def Says (errText : Nat → Str) (v : GoMetrics.Field F64) (s : Str) : Prop :=
  match v with
  | .errText e => s = (errText e).dropWhile (· = 32)
  | .nil => s = bytes "<nil>"
  | v => ∃ x, readNumber s = some x ∧ Reads v x

/-- The text `s` says the value `v` in units of `scale` nanoseconds. -/
def SaysIn (scale : Int) (v : GoMetrics.Field F64) (s : Str) : Prop := ∃ x, readQuantity s = some (x, scale) ∧ Reads v x

/-! Messages to syslog: `kind name: label: text label: text …`. -/

/-- Words from the right: pairs of a label (with a colon) and a text, up to the first label of a message, `count` or `value`. Returns the words before it. -/
def readPairs : List Str → List (Str × Str) → Option (List Str × List (Str × Str))
  | text :: label :: ws, rows =>
    if label.getLast? = some 58 then
      let rows := (label.dropLast, text) :: rows
      if label = bytes "count:" ∨ label = bytes "value:" then some (ws, rows) else readPairs ws rows
    else none
  | _, _ => none

/-- Words with spaces between them. -/
def joinWords (ws : List Str) : Str := (ws.intersperse [32]).flatten

/-- The first place where `sep` occurs: what is before and what is behind it. -/
def cutAt (sep : Str) : Str → Option (Str × Str)
  | [] => none
  | b :: s => if sep.isPrefixOf (b :: s) then some ([], (b :: s).drop sep.length) else (cutAt sep s).map fun x => (b :: x.1, x.2)

/-- A message. -/
def readMessage (s : Str) : Option Entry := do
  let (kind, rest) ← cut 32 s
  if kind = bytes "healthcheck" then
    let (name, text) ← cutAt (bytes ": error: ") rest
    return ⟨kind, name, [(bytes "error", text)]⟩
  else
    let (ws, rows) ← readPairs (splitOn 32 rest).reverse []
    let name := joinWords ws.reverse
    if name.getLast? = some 58 then return ⟨kind, name.dropLast, rows⟩ else none

/-- The text `s` of a message says the value `v`; here nothing of an error is lost. -/
def SaysExactly (errText : Nat → Str) (v : GoMetrics.Field F64) (s : Str) : Prop :=
  match v with
  | .errText e => s = errText e
  | v => Says errText v s

/-- The entry `e` is about the metric `o` called `name`, and its rows are `rows`, as understood by `tells`. -/
def IsEntry (tells : String × GoMetrics.Field F64 → Str → Prop) (name : Str) (o : Obj F64) (rows : List (String × GoMetrics.Field F64)) (e : Entry) : Prop :=
  e.kind = bytes (kindWord o) ∧ e.name = name ∧ List.Forall₂ (fun row x => x.1 = bytes row.1 ∧ tells row x.2) rows e.rows

/-- The entries `es` are a report on the metrics of the registry `id` whose names start with `pre`: one entry for each of them and no others; an entry has a row for each statistic of the metric, which tells
the value that the statistic had in the state `w`, converted by `conv`. -/
def ReportOf (w : World F64) (env : Env F64) (id : Nat) (pre : Str) (conv : Obj F64 → Call F64 → GoMetrics.Field F64 → GoMetrics.Field F64)
    (tells : Obj F64 → String × GoMetrics.Field F64 → Str → Prop) (es : List Entry) : Prop :=
  (es.map Entry.name).Nodup ∧ (∀ name, name ∈ es.map Entry.name ↔ gets w id name ≠ none ∧ pre <+: name) ∧
  ∀ e ∈ es, ∃ r o rows, gets w id e.name = some r ∧ w.objs r = some o ∧ Complete w env r o five (conv o) rows ∧ IsEntry (tells o) e.name o rows e

example : readReport (bytes "counter a b\n  count:               3\ngauge g\n  value:       1.500000\n") =
    some [⟨bytes "counter", bytes "a b", [(bytes "count", bytes "3")]⟩, ⟨bytes "gauge", bytes "g", [(bytes "value", bytes "1.500000")]⟩] := by decide +kernel
example : readMessage (bytes "meter a: count: 7: count: 7 1-min: 0.00 5-min: NaN") =
    some ⟨bytes "meter", bytes "a: count: 7", [(bytes "count", bytes "7"), (bytes "1-min", bytes "0.00"), (bytes "5-min", bytes "NaN")]⟩ := by decide +kernel
example : readQuantity (bytes "12.50ms") = some (.num (25 / 2), 1000000) ∧ readQuantity (bytes "NaNns") = some (.nan, 1) ∧ readQuantity (bytes "1.00") = none := by decide +kernel

end GoMetrics.Spec
