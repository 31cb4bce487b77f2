import Verif.Model.Json

/-!
# Rate control of uploads

Models `src/sota_tools/rate_controller.cc`. Times and durations are numbers of nanoseconds; the
representation of durations does not overflow before `ServerHasFailed` reports failure.
`CheckInvariants` is stated as a property instead.
-/

namespace Aktualizr.Rate

/-- `kMaxSleepTime`, `kInitialSleepTime` (rate_controller.cc:8-10). -/
def kMaxSleepTime : Int := 30000000000
def kInitialSleepTime : Int := 1000000000

/-- `RateController` (rate_controller.h:46-56). -/
structure Controller where
  cap : Int
  last : Int := 0
  maxConcurrency : Int := 1
  sleep : Int := 0
  deriving DecidableEq, Repr

/-- A completed request. -/
structure Completion where
  start : Int
  finish : Int
  ok : Bool
  deriving DecidableEq, Repr

/-- `RequestCompleted` (rate_controller.cc:14-34). -/
def requestCompleted (c : Controller) (r : Completion) : Controller :=
  if c.last < r.start then
    let c := { c with last := r.finish }
    if r.ok then { c with maxConcurrency := min (c.maxConcurrency + 1) c.cap, sleep := 0 }
    else if c.maxConcurrency ≥ 2 then { c with maxConcurrency := Int.tdiv c.maxConcurrency 2 }
    else { c with sleep := max (c.sleep * 2) kInitialSleepTime }
  else c

/-- `ServerHasFailed` (rate_controller.cc:46-49). -/
def serverHasFailed (c : Controller) : Bool := c.sleep > kMaxSleepTime

def run (c : Controller) (rs : List Completion) : Controller := rs.foldl requestCompleted c

end Aktualizr.Rate
