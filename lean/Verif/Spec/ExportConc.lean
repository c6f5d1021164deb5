import Verif.Model.ExportConc
import Verif.Spec.Export

/-! What the output of an exporter should say when other goroutines use the metrics during the export: each metric as it was at one moment. Histories and moments are in terms of the operations of the program; a moment is
given by what has happened before it. -/

namespace GoMetrics.Spec
open GoMetrics

variable {F : Type} [GoFloat F] [GoSqrt F] [GoExp F]

/-- The state after a history. -/
abbrev after (h : List (Env F × Op F)) : World F := World.init.run h

/-- `v` is the value that the accessor `c` of the metric `r` has in the state `w` (the standard deviation of the sorted values, which differs at most in rounding). -/
def HasValue (w : World F) (env : Env F) (r : Ref) (c : Call F) (v : GoMetrics.Field F) : Prop :=
  (c = .stat .stdDev → v = .float (sortedDev (recorded w r))) ∧ (c ≠ .stat .stdDev → shows (observe w env r c) v)

/-- The rows contain every statistic of a metric like `o` exactly once, and each value is that of the statistic its label names in the state `w`, converted by `conv`. -/
def AllStats (w : World F) (env : Env F) (r : Ref) (o : Obj F) (ps : List F) (conv : Call F → GoMetrics.Field F → GoMetrics.Field F)
    (rows : List (String × GoMetrics.Field F)) : Prop :=
  (rows.map fun x => means o x.1).Perm ((statsOf ps o).map some) ∧
  ∀ x ∈ rows, ∀ c, means o x.1 = some c → ∃ v, HasValue w env r c v ∧ x.2 = conv c v

/-- The call by which an exporter gets at the values of a metric. -/
def getsValues : Obj F → Call F → Prop
  | .counter _, .count | .gauge _, .value | .gaugeF _, .value | .health _, .error => True
  | .hist _, .snapshot | .meter _, .snapshot | .timer _, .snapshot => True
  | _, _ => False

/-- The exporter gets at the values of `r` at the moment `past`, by a call that is next in the history `whole`; if it is a healthcheck, then after it has called `Check()` (not before `start`). -/
structure ReadsAt (start whole : List (Env F × Op F)) (r : Ref) (o : Obj F) (past : List (Env F × Op F)) (env : Env F) : Prop where
  call : ∃ c, getsValues o c ∧ past ++ [(env, .call r c)] <+: whole
  check : isHealth o = true → ∃ past' env', start <+: past' ∧ past' ++ [(env', .call r .check)] <+: past

/-- A part of the output: the metric it is about, and when its values were read. -/
structure LiveBlock (F α : Type) where
  name : Str
  ref : Ref
  past : List (Env F × Op F)
  env : Env F
  events : List α

/-- The output `out` of an export during the history `whole`, which looked into the registry `id` at the moment `start`: one block for each metric that was in the registry then (with a name that starts with `pre`), and nothing else. Each block
shows the metric as it was at one moment, the blocks in the order of their moments; kinds in `skip` have empty blocks. -/
def ExportedLive {α : Type} (start whole : List (Env F × Op F)) (id : Nat) (pre : Str) (skip : Obj F → Bool) (out : List α)
    (block : World F → Env F → Str → Ref → Obj F → List α → Prop) (blocks : List (LiveBlock F α)) : Prop :=
  out = (blocks.map LiveBlock.events).flatten ∧ (blocks.map LiveBlock.name).Nodup ∧
  (∀ name, name ∈ blocks.map LiveBlock.name ↔ gets (after start : World F) id name ≠ none ∧ pre <+: name) ∧
  blocks.Pairwise (fun a b => a.past <+: b.past) ∧
  ∀ b ∈ blocks, gets (after start : World F) id b.name = some b.ref ∧ start <+: b.past ∧ b.past <+: whole ∧ ∃ o, (after b.past : World F).objs b.ref = some o ∧
    if skip o then b.events = [] else ReadsAt start whole b.ref o b.past b.env ∧ block (after b.past) b.env b.name b.ref o b.events

end GoMetrics.Spec
