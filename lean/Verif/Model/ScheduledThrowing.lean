import Verif.Model.Scheduled

/-!
A scheduled request whose handler may throw: ScheduledRequest.hpp:93-105.  The exception leaves the response handler given to `send_request` before line 98, so that
no timer for the next poll is started; nothing else of the scheduled request is touched.

Assumption and simplifications: as in Model/Throwing (the executor drops the task that threw and goes on) and Model/Scheduled (the channel is abstracted: what the exception does to
the channel is in Model/Throwing).
-/

namespace Modbus

/-- Which calls of the handler throw: given everything that happened before, and the number of the request. -/
abbrev PThrows := List PEv → Nat → Bool

namespace Poll

/-- The response handler, ScheduledRequest.hpp:93-105: if the user's handler (line 96) throws, lines 98-104 are not reached.  (Numbers of timers are names; the one the timer would
have got is skipped.) -/
def onResponseT (th : PThrows) (v : Poll) (id : Nat) : Poll :=
  let thrown := th v.log id
  let v := { v with inFlight := v.inFlight.filter fun x => x ≠ id }
  let v := v.emit (.handled id v.now)
  if v.running then
    if thrown then { v with nextTimer := v.nextTimer + 1 }
    else { v with armed := v.armed ++ [(v.nextTimer, v.now + v.freq)], timer := some v.nextTimer, nextTimer := v.nextTimer + 1 }
  else v

/-- One step (ScheduledRequest.hpp:44-107). -/
def stepT (th : PThrows) (v : Poll) : Op → Poll
  | .respond id => if id ∈ v.inFlight then v.onResponseT th id else v
  | op => v.step op

/-- A history of steps. -/
def runT (th : PThrows) (v : Poll) (ops : List Op) : Poll := ops.foldl (stepT th) v

end Poll

end Modbus
