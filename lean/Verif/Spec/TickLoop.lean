import Verif.Model.TickLoop

/-! Counting and spacing of rounds. -/

namespace GoMetrics.Spec
open GoMetrics

def starts : List TickEv → Int
  | [] => 0
  | .started _ :: tr => 1 + starts tr
  | _ :: tr => starts tr

def fires : List TickEv → Int
  | [] => 0
  | .fired _ :: tr => 1 + fires tr
  | _ :: tr => fires tr

/-- Rounds begin and end in turn; `running`: one is running at the beginning. -/
def inTurn : (running : Bool) → List TickEv → Prop
  | _, [] => True
  | running, .started _ :: tr => running = false ∧ inTurn true tr
  | running, .stopped _ :: tr => running = true ∧ inTurn false tr
  | running, .fired _ :: tr => inTurn running tr

/-- Every round begins at least `d` after the end of the round before; `last`: when that was. -/
def apart (d : Int) : (last : Option Int) → List TickEv → Prop
  | _, [] => True
  | last, .started t :: tr => (∀ u, last = some u → u + d ≤ t) ∧ apart d last tr
  | _, .stopped t :: tr => apart d (some t) tr
  | last, .fired _ :: tr => apart d last tr

end GoMetrics.Spec
