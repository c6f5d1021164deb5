import Verif.Go.Basic

/-!
Model of the endless loops around the exporters and collectors:

* `for _ = range time.Tick(d) { round }`: writer.go:12-16, json.go:17-21, syslog.go:13-79, graphite.go:40-47, opentsdb.go:40-46, librato/librato.go:43-59, runtime.go:59-63, debug.go:26-30; and the loop of
  the meter arbiter, meter.go:236-243 (period 5 s);
* log.go:24-33 `LogScaled`: a goroutine passes the ticks on over an unbuffered channel to the loop of `LogScaledOnCue` (41);
* log.go:37-101 `LogScaledOnCue` fed by the user;
* stathat/stathat.go:11-18: a round, then `time.Sleep(d)`.

Rounds (what is exported is the subject of Model/Export and others) begin and end; how long they take is up to the environment. Time is in nanoseconds since `time.Tick` was called.

`time.Tick` and the runtime (trusted, Go package time): a nil channel if `d <= 0`; otherwise a channel with a buffer of one tick; the timer is due at `d`, fires at that time or later, drops the tick if
the buffer is full, and is next due at the first multiple of `d` after now (runtime/time.go: `t.when += t.period * (1 + delta/t.period)`).
-/

namespace GoMetrics

/-- The ticker and the loop: the clock; when the timer is due; a tick is in the buffer; a tick is held by the relaying goroutine (`LogScaled` only); a round is running. -/
structure TickS where
  now : Int := 0
  due : Int
  full : Bool := false
  held : Bool := false
  busy : Bool := false
  deriving DecidableEq

/-- What can happen: time passes; the timer fires; the relaying goroutine takes the tick; the loop receives a tick and a round begins; the round ends. -/
inductive TickIn where
  | pass (dt : Nat)
  | fire
  | take
  | start
  | stop
  deriving DecidableEq

inductive TickEv where
  | fired (t : Int)
  | started (t : Int)
  | stopped (t : Int)
  deriving DecidableEq

/-- One step of the loop with the given period, with or without relay; `none` if it is not possible now. -/
def tickerStep (period : Int) (relay : Bool) (s : TickS) : TickIn → Option (TickS × List TickEv)
  | .pass dt => some ({ s with now := s.now + dt }, [])
  | .fire => if 0 < period ∧ s.due ≤ s.now then some ({ s with full := true, due := s.due + period * (1 + (s.now - s.due) / period) }, [.fired s.now]) else none
  | .take => if relay ∧ s.full ∧ ¬ s.held then some ({ s with full := false, held := true }, []) else none
  | .start =>
    if s.busy then none
    else if relay then
      if s.held then some ({ s with held := false, busy := true }, [.started s.now]) else none
    else if s.full then some ({ s with full := false, busy := true }, [.started s.now]) else none
  | .stop => if s.busy then some ({ s with busy := false }, [.stopped s.now]) else none

/-- A run of the loop: the state and what has happened. -/
def tickerRun (period : Int) (relay : Bool) : TickS → List TickIn → Option (TickS × List TickEv)
  | s, [] => some (s, [])
  | s, i :: is =>
    match tickerStep period relay s i with
    | none => none
    | some (s', es) =>
      match tickerRun period relay s' is with
      | none => none
      | some (s'', es') => some (s'', es ++ es')

/-- `LogOnCue`, `LogScaledOnCue`: goroutines waiting to send a cue; a round is running; the channel is closed; the function has returned. -/
structure CueS where
  waiting : Nat := 0
  busy : Bool := false
  closed : Bool := false
  returned : Bool := false
  deriving DecidableEq

/-- A goroutine begins to send; the loop receives a cue (the send is complete and a round begins); the round ends; the channel is closed; the loop sees that the channel is closed and the function returns. -/
inductive CueIn where
  | send
  | start
  | stop
  | close
  | leave
  deriving DecidableEq

/-- One step; the channel is not closed twice, nothing is sent to a closed channel, and it is not closed while somebody waits to send (Go panics in the goroutine that does it). -/
def cueStep (s : CueS) : CueIn → Option CueS
  | .send => if s.closed then none else some { s with waiting := s.waiting + 1 }
  | .start => if s.busy ∨ s.returned ∨ s.waiting = 0 then none else some { s with waiting := s.waiting - 1, busy := true }
  | .stop => if s.busy then some { s with busy := false } else none
  | .close => if s.closed ∨ 0 < s.waiting then none else some { s with closed := true }
  | .leave => if s.busy ∨ s.returned ∨ ¬ s.closed then none else some { s with returned := true }

def cueRun : CueS → List CueIn → Option CueS
  | s, [] => some s
  | s, i :: is =>
    match cueStep s i with
    | none => none
    | some s' => cueRun s' is

/-- stathat.go:11-18: the clock; a round is running, or the loop sleeps until a time. -/
structure SleepS where
  now : Int := 0
  wake : Option Int := some 0
  deriving DecidableEq

inductive SleepIn where
  | pass (dt : Nat)
  | start
  | stop
  deriving DecidableEq

/-- `time.Sleep(d)` returns at once if `d <= 0`, otherwise not before `d` has passed. -/
def sleepStep (d : Int) (s : SleepS) : SleepIn → Option (SleepS × List TickEv)
  | .pass dt => some ({ s with now := s.now + dt }, [])
  | .start =>
    match s.wake with
    | some t => if t ≤ s.now then some ({ s with wake := none }, [.started s.now]) else none
    | none => none
  | .stop =>
    match s.wake with
    | some _ => none
    | none => some ({ s with wake := some (s.now + max d 0) }, [.stopped s.now])

def sleepRun (d : Int) : SleepS → List SleepIn → Option (SleepS × List TickEv)
  | s, [] => some (s, [])
  | s, i :: is =>
    match sleepStep d s i with
    | none => none
    | some (s', es) =>
      match sleepRun d s' is with
      | none => none
      | some (s'', es') => some (s'', es ++ es')

end GoMetrics
