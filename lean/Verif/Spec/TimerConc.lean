import Verif.Model.TimerConc

/-! A timer as a sequential object: the list of the durations recorded. -/

namespace GoMetrics.Spec
open GoMetrics

variable {σ ρ : Type}

/-- What has been recorded, one after the other, with the draws used by the sample; whether the meter has been stopped; how many of the events the meter has counted. -/
structure TimerLog (ρ : Type) where
  events : List (Int64 × ρ)
  stopped : Bool
  marked : Nat

/-- The duration that a call records: `Update(d)` records `d`, `UpdateSince(ts)` the time from `ts` to some instant. -/
def records : TOp → Int64 → Prop
  | .update d, x => x = d
  | .updateSince ts, x => ∃ now, x = Int64.ofInt (timeSub now ts)
  | _, _ => False

/-- The calls. `upd`: the sample's `Update`, `s0`: the sample at the beginning. A snapshot shows the sample that has got all events so far and the number of the events counted. -/
inductive TimerCall (upd : σ → Int64 × ρ → σ) (s0 : σ) : TimerLog ρ → TOp → TRes σ → TimerLog ρ → Prop where
  | record {l o d x} : records o d →
      TimerCall upd s0 l o .unit { l with events := l.events ++ [(d, x)], marked := if l.stopped then l.marked else l.marked + 1 }
  | snapshot {l} : TimerCall upd s0 l .snapshot (.snap (l.events.foldl upd s0) (Int64.ofNat l.marked)) l
  | stop {l} : TimerCall upd s0 l .stop .unit { l with stopped := true }

end GoMetrics.Spec
