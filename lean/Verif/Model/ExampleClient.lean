import Verif.Model.SessionApi

/-!
The example client, examples/client/main.cpp, on top of the interface of client sessions (`Clt`).  The main thread schedules a request and then obeys the keys
typed; the background threads run in between, in any order.  Times are in milliseconds.

Simplifications: as for `Clt`; the state right after `create_session` is the initial one, since before it nothing happens in the channel.  `is_running` and
`get_frequency` see the members as the strand last wrote them (see C118).  What the handlers print is not modelled, nor is the end of the standard input (`cmd` is
then read although nothing was stored in it, DESIGN.md); `>>` skips white space, so those keys are never seen.  Quitting: the manager's destructor shuts the
channel down (ModbusManagerImpl.cpp:40-43) and then ends the threads; background steps may still happen in between.
-/

namespace Modbus

/-- Where the main thread is. -/
inductive Place where
  /-- About to call `schedule_request`, examples/client/main.cpp:47 (up to the post of `start`). -/
  | schedule
  /-- Inside `schedule_request`: the post of the registration, ClientSessionImpl.cpp:274-276. -/
  | register
  /-- In the loop, examples/client/main.cpp:53-136. -/
  | loop
  /-- `main` has returned. -/
  | over
deriving DecidableEq

/-- The program: the client, the main thread, and the keys it has read. -/
structure ExClient where
  clt : Clt
  place : Place
  keys : List Char

namespace ExClient

/-- `ReadHoldingRegistersRequest req{ 0x0024, 59 }`, examples/client/main.cpp:46. -/
def pollReq : AnyReq := ⟨.readHoldingRegisters, ⟨0x0024, 59⟩⟩

/-- `ReadCoilsRequest req{ 0x0024, 1 }`, examples/client/main.cpp:64. -/
def readReq : AnyReq := ⟨.readCoils, ⟨0x0024, 1⟩⟩

/-- `WriteMultipleRegistersRequest req{ 0x0024, {11, 22, 33} }`, examples/client/main.cpp:92. -/
def writeReq : AnyReq := ⟨.writeMultipleRegisters, ⟨0x0024, [11, 22, 33]⟩⟩

/-- The beginning of `main` up to `create_session`, examples/client/main.cpp:28-43. -/
def init (env : ClientEnv) : CM ExClient := do
  let c ← (Clt.init env).step env (.createSession 0x01 3000)
  return { clt := c, place := .schedule, keys := [] }

/-- `scheduled_req`. -/
def scheduled (v : ExClient) : Option Poll := v.clt.pcl.sess[0]?.bind fun p => p.sess.polls[0]?

/-- The main thread calls a function of the interface. -/
def call (env : ClientEnv) (v : ExClient) (op : Clt.Op) : CM ExClient := do
  let c ← v.clt.step env op
  return { v with clt := c }

/-- What a key does, examples/client/main.cpp:58-135. -/
def obey (env : ClientEnv) (v : ExClient) (c : Char) : CM ExClient :=
  if c = 'r' then v.call env (.sendWithin 0 readReq 3000)
  else if c = 'w' then v.call env (.send 0 writeReq)
  else if c = 's' then
    match v.scheduled with
    | none => .ub
    | some p => v.call env (.api 0 (.call 0 (if p.running then .stop else .start)))
  else if c = 'f' then
    match v.scheduled with
    | none => .ub
    | some p => v.call env (.api 0 (.call 0 (.setFrequency (if p.freq = 2000 then 5000 else 2000))))
  else if c = 'q' then { v with place := .over }.call env (.chan .shutdown)
  else .ret v

/-- What can happen. -/
inductive Op where
  /-- The main thread goes on with `schedule_request`. -/
  | main
  /-- The main thread reads a key and obeys. -/
  | key (c : Char)
  /-- Something happens in the background: a task, a timer, an event of the connection, or time passes. -/
  | background (op : Clt.Op)

/-- Not a call of the user. -/
def isBackground : Clt.Op → Bool
  | .sess _ _ => true
  | .tick _ => true
  | .chan .shutdown => false
  | .chan _ => true
  | _ => false

/-- One step. -/
def step (env : ClientEnv) (v : ExClient) : Op → CM ExClient
  | .main =>
    match v.place with
    | .schedule => { v with place := .register }.call env (.schedule 0 pollReq 2000)
    | .register => { v with place := .loop }.call env (.api 0 (.register 0))
    | _ => .ret v
  | .key c => if v.place = .loop then { v with keys := v.keys ++ [c] }.obey env c else .ret v
  | .background op => if isBackground op then v.call env op else .ret v

/-- A history of steps. -/
def run (env : ClientEnv) (v : ExClient) : List Op → CM ExClient
  | [] => .ret v
  | op :: ops => do
    let v ← v.step env op
    v.run env ops

end ExClient

end Modbus
