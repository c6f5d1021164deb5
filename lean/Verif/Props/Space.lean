import Verif.Lemmas.Space
import Verif.Go.F64

/-! C119: how much memory a program with metrics needs. -/

namespace GoMetrics
open Spec

variable {F : Type} [GoFloat F] [GoSqrt F] [GoExp F]

/-- C119: after any history, no sample keeps more values than its reservoir size, so that all the values kept fit in the room made by the constructors and in the slices of the snapshots and of user code. -/
theorem C119_bound (h : List (Env F × Op F)) :
    (∀ r o, (World.init.run h : World F).objs r = some o → keptValues o ≤ room o) ∧ valuesKept (World.init.run h : World F) ≤ roomMade (World.init.run h : World F) :=
  ⟨Space.kept_le_room h, Space.total_le h⟩

/-- C119: once a program is set up (`h`), recording, reading, ticking, looking up, unregistering and healthchecks (`l`), however many and in whatever order, also when calls panic, make no object and no
slice, never add to a registry or to the clock's set of meters and never enlarge a sample: the values kept at any later time fit in the room made before. -/
theorem C119_routine (h l : List (Env F × Op F)) (hl : RoutineFrom (World.init.run h) l) :
    NoMore (World.init.run h : World F) ((World.init.run h).run l) ∧ valuesKept ((World.init.run h).run l) ≤ roomMade (World.init.run h : World F) := by
  have hn := Space.noMore_run _ l hl
  refine ⟨hn, ?_⟩
  rw [← Space.roomMade_eq hn, ← World.run_append]
  exact Space.total_le _

/-- C119: the exception is the copy that `Snapshot` makes: it takes as much as the sample keeps at that time. -/
theorem C119_snapshot (h : List (Env F × Op F)) (env : Env F) (r : Ref) (o : Obj F) (hr : (World.init.run h : World F).objs r = some o) (hs : takesValues o = true) :
    valuesKept (call env r .snapshot (World.init.run h)).1 = valuesKept (World.init.run h : World F) + keptValues o :=
  Space.kept_snapshot env _ r o hr hs

/-! A registered histogram over a uniform sample for two values. -/

def spaceSetup : List (Env F × Op F) :=
  [(envAt 0, .new (.uniform 2)), (envAt 0, .new (.hist 0)), (envAt 0, .reg defaultRegistry (.register [97] (.obj 1)))]

/-- It is looked up and updated three times, read, and unregistered. -/
def spaceRoutine : List (Env F × Op F) :=
  [(envAt 1, .reg defaultRegistry (.getOrRegister [97] (.ctor .timer))), (envAt 1, .call 1 (.update 7)), (envAt 2, .call 1 (.update 8)), (envAt 3, .tick), (envAt 4, .call 1 (.update 9)),
    (envAt 5, .call 1 (.stat (.percentile (GoFloat.lit (1 / 2))))), (envAt 6, .reg defaultRegistry (.unregister [97]))]

theorem spaceRoutine_ok : RoutineFrom (World.init.run spaceSetup : World F) spaceRoutine := by
  refine ⟨⟨0, 1, rfl, ?_⟩, rfl, rfl, trivial, rfl, rfl, trivial, trivial⟩
  exact List.mem_singleton.2 rfl

/-- Room for two values is made, three are recorded, two are kept. -/
example : roomMade (World.init.run spaceSetup : World F64) = 2 ∧ valuesKept (World.init.run spaceSetup : World F64) = 0 ∧ valuesKept ((World.init.run spaceSetup : World F64).run spaceRoutine) = 2 := by
  decide +kernel

/-- A snapshot afterwards doubles it. -/
example : valuesKept (call (envAt 7) 0 .snapshot ((World.init.run spaceSetup : World F64).run spaceRoutine)).1 = 4 := by
  decide +kernel

end GoMetrics
