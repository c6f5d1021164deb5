import Verif.Spec.WorldProgram
import Verif.Spec.RegistryConc
import Verif.Spec.Registry

/-! A concurrent program that uses registries besides counters, gauges, samples and histograms, and the same program with one call at a time. -/

namespace GoMetrics.Spec
open GoMetrics

variable {F : Type} [GoFloat F] [GoSqrt F] [GoExp F]

/-- A call of a method of a metric or sample; a call of a method of a registry; `Each` of a registry. -/
inductive ProgOp (F : Type) where
  | call (r : Ref) (c : Call F)
  | reg (g : Reg) (o : RegOp F)
  | each (g : Reg)

/-- What the caller gets to see. For `Each`: the names and metrics that its callback is called with. -/
inductive ProgSeen (F : Type) where
  | call (x : Seen F)
  | reg (x : RegOut F)
  | visit (l : List (Str × Ref))

/-- One operation of the one-at-a-time model (Model/Registry `step`, `eachList`), with some answers of the environment (clock, random source, order of the iteration over a map). -/
def ProgCall (w : World F) : ProgOp F → ProgSeen F → World F → Prop
  | .call r c, .call x, w' => WorldCall w (r, c) x w'
  | .reg g o, .reg x, w' => ∃ env, step env (.reg g o) w = (w', .ok (.reg x))
  | .each g, .visit l, w' => ∃ env, eachList env g w = (w', .ok (some l))
  | _, _, _ => False

/-- What a call works on: the fields of an object, or the map of a standard registry (for prefixed registries the one below). -/
def worksOn (w : World F) : ProgOp F → Ref ⊕ Option Nat
  | .call r c => .inl (usedBy w (r, c))
  | .reg g _ => .inr (base g)
  | .each g => .inr (base g)

/-- The call as a method of the standard registry: with the prefixes before the name. The values are metrics or other objects; `GetOrRegister` with a constructor function and `RunHealthchecks` are left out. -/
def asReg : ProgOp F → ROp Ref → Prop
  | .reg g (.get name), m => m = .get (baseName g name)
  | .reg g (.getOrRegister name (.obj r)), m => m = .getOrRegister (baseName g name) (.val r)
  | .reg g (.register name (.obj r)), m => m = .register (baseName g name) r
  | .reg g (.unregister name), m => m = .unregister (baseName g name)
  | .reg _ .unregisterAll, m => m = .unregisterAll
  | .each _, m => m = .each
  | _, _ => False

/-- The results of the methods of the standard registry, as the caller sees them. -/
def regSeen : ProgOp F → RRes Ref → ProgSeen F
  | .each g, .visit l => .visit (l.filter fun e => (prefixes g).flatten.isPrefixOf e.1)
  | _, .value (some r) => .reg (.metric r)
  | _, .value none => .reg .nil
  | .reg g (.register name _), .dup true => .reg (.duplicate (baseName g name))
  | _, .dup _ => .reg .nil
  | _, _ => .reg .unit

/-- The type switches of the registry, for the objects of `w` (an object never changes its type). -/
def kindsIn (w : World F) : GoMetrics.Kinds Ref where
  metric r := match w.objs r with
    | some o => metricKind o
    | none => false
  stoppable r := match w.objs r with
    | some (.meter _) | some (.timer _) => true
    | _ => false
  health r := match w.objs r with
    | some (.health _) => true
    | _ => false

/-- The values passed to registries are objects that exist at the beginning. -/
def passesOld (w : World F) : ProgOp F → Prop
  | .reg _ (.getOrRegister _ (.obj r)) | .reg _ (.register _ (.obj r)) => w.objs r ≠ none
  | _ => True

/-- `h` is the history of a concurrent program that starts when metrics and registries are as in `w`: every goroutine makes one call at a time (a callback of `Each` counts as a goroutine of its own, to which Go's locks are blind),
the events on every object and every registry are produced by its code, histograms are used through their interface. -/
structure RegProgramHistory (sorter : Nat → MemProg Unit) (w : World F) (h : List (HEv (ProgOp F) (ProgSeen F))) : Prop where
  one : OneCall (fun _ => none) h
  object : ∀ k, ∃ hk, List.Forall₂ (SameEv (fun o o' => o = .call o'.1 o'.2) fun _ x => .call x) (part (worksOn w) (.inl k) h) hk ∧ Produced sorter (w.objs k) hk
  registry : ∀ i, ∃ sched s ls tr, (regMachine (kindsIn w)).run (.init (w.regs i)) (fun _ => .idle) sched = some (s, ls, tr) ∧
    List.Forall₂ (SameEv asReg regSeen) (part (worksOn w) (.inr (some i)) h) (hist (calls tr))
  foreign : part (worksOn w) (.inr none) h = []
  typed : ∀ e ∈ h, ∀ r c s, evOp e = .call r c → w.objs r = some (.hist (.std s)) → ofHist c = true
  old : ∀ e ∈ h, passesOld w (evOp e)

/-- The history of calls that do not overlap: each returns before the next is made. -/
def oneByOne {Op R : Type} (l : List (Nat × Op × R)) : List (HEv Op R) := l.flatMap fun x => [.inv x.1 x.2.1, .ret x.1 x.2.1 x.2.2]

end GoMetrics.Spec
