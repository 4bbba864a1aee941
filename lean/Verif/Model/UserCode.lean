import Verif.Model.Client

/-!
A client channel together with the user's code: response handlers and the actions of timers started with `IClientSession::start`
(lib/src/client/session/ClientSessionImpl.cpp:231-239, lib/src/TimerWrapper.cpp).  These functions of the user's run on the channel's strand and can
themselves send requests, start and cancel timers and shut the channel down; other threads can do the same at any time.

Assumptions about exe4cpp and asio: as for the timers of the channel (`Cli`): a timer that is cancelled before it has expired is gone; once it has expired,
its action is queued on the strand and cannot be taken back.

Simplifications: which session a call is made on only matters for the unit identifier, which is given here; scheduled requests are left out (`Pcl` has
them).  The handlers called by the channel in one of its steps run right after that step, in order (see `Cli`: nothing they can do is noticed by the rest
of the step).  What the handlers are told is in the log; their response is not decoded (`typedResult`).
-/

namespace Modbus

/-- What a function of the user's can do.  `f` is the number of the function given as response handler or as action. -/
inductive UCall where
  /-- `send_request`, ClientSessionImpl.cpp:67-169, 241-258. -/
  | send (unit : UInt8) (req : AnyReq) (timeout : Nat) (f : Nat)
  /-- `start(duration, action)`, ClientSessionImpl.cpp:231-234. -/
  | start (delay : Nat) (f : Nat)
  /-- `start(expiration, action)`, ClientSessionImpl.cpp:236-239. -/
  | startAt (time : Nat) (f : Nat)
  /-- `cancel` of the `k`-th timer, TimerWrapper.cpp:27-30. -/
  | cancel (k : Nat)
  /-- `shutdown` of the channel, ClientChannelTcp.cpp:94-112. -/
  | shutdown
deriving DecidableEq

/-- What happens, in order. -/
inductive UEv where
  /-- An effect of the channel. -/
  | ch (e : CEv)
  /-- The next call of `send_request` gets the number `uid` and has the response handler `f`. -/
  | asked (uid f : Nat)
  /-- Timer `k` was started at time `now`, to run `f` at time `due`; `expires_at` of the timer returns `due`. -/
  | started (k due f now : Nat)
  /-- `cancel` of timer `k` was called at time `now`. -/
  | cancelled (k now : Nat)
  /-- The action `f` of timer `k` is called at time `now`. -/
  | action (k f now : Nat)
  /-- The response handler `f` of request `uid` is called. -/
  | reply (uid f now : Nat)
deriving DecidableEq

/-- Channel and user's code.  `armed`: timers of the user's that have not expired (number, deadline, function); `fired`: expired ones whose action is
queued; `handler`: the function given with each request; `due`: response handlers called by the channel that have not begun; `todo`: what the
function that is running is still going to do. -/
structure Upr where
  cli : Cli
  armed : List (Nat × Nat × Nat)
  fired : List (Nat × Nat)
  nextK : Nat
  handler : List (Nat × Nat)
  due : List (Nat × Nat)
  todo : List UCall
  log : List UEv

/-- The user's functions: what function `f` does, which may depend on everything that has happened. -/
abbrev UserCode := Nat → List UEv → List UCall

namespace Upr

/-- The channel has been constructed (ClientChannelTcp.cpp:28-40). -/
def init (env : ClientEnv) : Upr :=
  { cli := Cli.init env, armed := [], fired := [], nextK := 0, handler := [], due := [], todo := [], log := [] }

/-- No function of the user's is running or about to run on the strand. -/
def idle (v : Upr) : Bool := v.due.isEmpty && v.todo.isEmpty

/-- `m_executor->start`, ClientSessionImpl.cpp:233, 238. -/
def startTimer (v : Upr) (time f : Nat) : Upr :=
  { v with armed := v.armed ++ [(v.nextK, time, f)], nextK := v.nextK + 1, log := v.log ++ [.started v.nextK time f v.cli.now] }

/-- A call of the API.  (Only a timer that has been started can be cancelled.) -/
def call (env : ClientEnv) (v : Upr) : UCall → CM Upr
  | .send unit req timeout f => do
    let c ← v.cli.step env (.submit unit req timeout)
    return { v with cli := c
                    handler := v.handler ++ [(v.cli.nextUid, f)]
                    log := v.log ++ .asked v.cli.nextUid f :: (c.log.drop v.cli.log.length).map .ch }
  | .start delay f => .ret (v.startTimer (v.cli.now + delay) f)
  | .startAt time f => .ret (v.startTimer time f)
  | .cancel k =>
    if k < v.nextK then .ret { v with armed := v.armed.filter (fun x => x.1 ≠ k), log := v.log ++ [.cancelled k v.cli.now] }
    else .ret v
  | .shutdown => do
    let c ← v.cli.step env .shutdown
    return { v with cli := c }

/-- The response handlers called in a step of the channel. -/
def replies (v : Upr) (es : List CEv) : List (Nat × Nat) :=
  es.filterMap fun e => match e with
    | .handler uid _ _ => (v.handler.lookup uid).map fun f => (uid, f)
    | _ => none

/-- The channel makes a step (ClientChannelTcp.cpp). -/
def chanStep (env : ClientEnv) (v : Upr) (op : Cli.Op) : CM Upr := do
  let c ← v.cli.step env op
  let es := c.log.drop v.cli.log.length
  return { v with cli := c
                  due := v.due ++ v.replies es
                  log := v.log ++ es.map .ch }

/-- What can happen. -/
inductive Op where
  /-- A call from another thread. -/
  | call (c : UCall)
  /-- The strand goes on with the user's code: the next call of the running function, or the next response handler begins. -/
  | user
  /-- A posted task or a timer of the channel, or an event of its connection. -/
  | chan (op : Cli.Op)
  /-- Timer `k`, whose deadline has come, expires: its action is queued. -/
  | expire (k : Nat)
  /-- The strand runs the queued action of timer `k`. -/
  | runTimer (k : Nat)
  /-- Time passes. -/
  | tick (n : Nat)

/-- What the strand, the connection and the channel's timers do to the channel. -/
def ownChan : Cli.Op → Bool
  | .runTask => true
  | .receive _ => true
  | .error => true
  | .runTimer _ => true
  | _ => false

/-- One step; what cannot happen changes nothing.  The strand runs one thing at a time: nothing else runs on it while a function of the user's
does. -/
def step (env : ClientEnv) (prog : UserCode) (v : Upr) : Op → CM Upr
  | .call c => v.call env c
  | .user =>
    match v.todo, v.due with
    | c :: cs, _ => { v with todo := cs }.call env c
    | [], (uid, f) :: ds =>
      let log := v.log ++ [.reply uid f v.cli.now]
      .ret { v with due := ds, log := log, todo := prog f log }
    | [], [] => .ret v
  | .chan (.expire t) => v.chanStep env (.expire t)
  | .chan op => if v.idle ∧ ownChan op then v.chanStep env op else .ret v
  | .expire k =>
    match v.armed.lookup k with
    | none => .ret v
    | some (time, f) =>
      if time ≤ v.cli.now then .ret { v with armed := v.armed.filter (fun x => x.1 ≠ k), fired := v.fired ++ [(k, f)] }
      else .ret v
  | .runTimer k =>
    if v.idle then
      match v.fired.lookup k with
      | none => .ret v
      | some f =>
        let log := v.log ++ [.action k f v.cli.now]
        .ret { v with fired := v.fired.filter (fun x => x.1 ≠ k), log := log, todo := prog f log }
    else .ret v
  | .tick n => do
    let c ← v.cli.step env (.tick n)
    return { v with cli := c }

/-- A history of steps. -/
def run (env : ClientEnv) (prog : UserCode) (v : Upr) : List Op → CM Upr
  | [] => .ret v
  | op :: ops => do
    let v ← v.step env prog op
    v.run env prog ops

end Upr

end Modbus
