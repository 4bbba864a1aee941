import Verif.Model.Client

/-!
The client channel with response handlers that may throw.  The library catches nothing: an exception leaves all functions up to the executor
(ClientChannelTcp.cpp, MbapParser.cpp, AsioClientTcpConnection.cpp), and what they had still to do is not done.

`Expected::get` of a result that is no response throws (Expected.h:187-212, Model/Expected), so every handler that does not look at `is_valid` first throws
when there is no answer.

Assumption: the executor survives, that is, it drops the task that threw and runs the next one.  (If the exception ends the process instead, nothing happens after it.)

Simplifications: as in Model/Client.  Of the connection only this is modelled: after an exception from `on_receive` it does not read any more
(`begin_read` is not reached, AsioClientTcpConnection.cpp:176-182) until it has failed (and is opened again).
-/

namespace Modbus

/-- Which calls of handlers throw: given everything that happened before, the request and the result. -/
abbrev Throws := List CEv → Nat → Expected (List UInt8) → Bool

namespace Cli

/-- A handler is called; the second component says whether it throws. -/
def tell (th : Throws) (v : Cli) (uid : Nat) (x : Expected (List UInt8)) : Cli × Bool := (v.emit (.handler uid x v.now), th v.log uid x)

/-- `ClientChannelTcp::on_mbap_message`, ClientChannelTcp.cpp:140-168: if the handler (line 153) throws, lines 154 and 156 are not reached. -/
def onMbapT (env : ClientEnv) (th : Throws) (v : Cli) (m : Mbap) : Cli × Bool :=
  let v := v.emit (.mbap m)
  if v.isShutdown then (v, false)
  else
    match v.current with
    | some r =>
      if m.tid = r.tid ∧ m.unit = r.unit then
        match v.cancelTimer.tell th r.uid (.ok m.data) with
        | (v, true) => (v, true)
        | (v, false) => ({ v with current := none }.checkPending env, false)
      else (v, false)
    | none => (v, false)

/-- The messages delivered by one `MbapParser::send_data` (MbapParser.cpp:100-103; there is at most one). -/
def onMbapsT (env : ClientEnv) (th : Throws) (v : Cli) : List Mbap → Cli × Bool
  | [] => (v, false)
  | m :: ms =>
    match v.onMbapT env th m with
    | (v, true) => (v, true)
    | (v, false) => v.onMbapsT env th ms

/-- `MbapParser::parse`, MbapParser.cpp:30-51, with the channel as sink: an exception leaves the loop before the parser is reset (MbapParser.cpp:105), and
the rest of the data is lost. -/
def parseT (env : ClientEnv) (th : Throws) (v : Cli) (data : List UInt8) : CM (Cli × Bool) :=
  if hd : data = [] then
    .ret (v, false)
  else
    let p := v.parser
    let read := data.take p.num
    let data' := data.drop read.length
    let p1 : Parser := { p with num := p.num - read.length, view := p.view.copyFrom p.pol read }
    if hn : p1.num = 0 then
      if hb : p1.readingBody = false then
        match h : p1.findBodySize with
        | .ub => .ub
        | .ret p2 => parseT env th { v with parser := p2 } data'
      else
        match h : p1.sendData with
        | .ub => .ub
        | .ret (p2, out) =>
          match { v with parser := p1 }.onMbapsT env th out with
          | (w, true) => .ret (w, true)
          | (w, false) => parseT env th { w with parser := p2 } data'
    else
      parseT env th { v with parser := p1 } data'
termination_by 3 * data.length + (if v.parser.num = 0 then (if v.parser.readingBody then 1 else 2) else 0)
decreasing_by
  all_goals
    have hl : 0 < data.length := List.length_pos_iff.2 hd
    simp only [List.length_drop, List.length_take]
  · have hb' : v.parser.readingBody = false := hb
    by_cases hz : v.parser.num = 0
    · rcases Parser.findBodySize_progress h with h' | h'
      · simp [h', hz, hb']
      · simp only [h', hz, hb', if_true]; simp; split <;> omega
    · rcases Parser.findBodySize_progress h with h' | h'
      · simp only [h', hz, if_false]; omega
      · simp only [h', hz, if_true, if_false]; split <;> omega
  · have hb' : v.parser.readingBody = true := by simpa using hb
    by_cases hz : v.parser.num = 0
    · simp [Parser.sendData_progress h, hb', hz]
    · simp only [Parser.sendData_progress h, hz, if_false]; simp; omega
  · have hn' : v.parser.num - (data.take v.parser.num).length ≠ 0 := hn
    simp only [List.length_take] at hn'
    rw [if_neg (by simpa using hn'), if_neg (by omega)]
    omega

/-- `ClientChannelTcp::on_receive`, ClientChannelTcp.cpp:114-121. -/
def onReceiveT (env : ClientEnv) (th : Throws) (v : Cli) (data : List UInt8) : CM (Cli × Bool) :=
  let v := v.emit (.data data)
  if v.isShutdown then .ret (v, false) else v.parseT env th data

/-- The loop of `cancel_all_pending_requests`, ClientChannelTcp.cpp:223-226. -/
def tellPending (th : Throws) (v : Cli) : List PendingReq → Cli × Bool
  | [] => (v, false)
  | r :: rs =>
    match v.tell th r.uid (.error .connection) with
    | (v, true) => (v, true)
    | (v, false) => v.tellPending th rs

/-- `ClientChannelTcp::on_error`, ClientChannelTcp.cpp:123-138, with `cancel_all_pending_requests`, 221-229: if a handler throws, the waiting requests are
not removed. -/
def onErrorT (env : ClientEnv) (th : Throws) (v : Cli) : Cli × Bool :=
  let v := v.emit .connError
  if v.isShutdown then (v, false)
  else
    let v := { v with parser := v.parser.reset }
    match v.tellPending th v.pending with
    | (v, true) => (v, true)
    | (v, false) =>
      let v := { v with pending := [] }
      match v.current with
      | none => (v, false)
      | some r =>
        match v.tell th r.uid (.error .connection) with
        | (v, true) => (v, true)
        | (v, false) => (v.cancelCurrent env, false)

/-- The timer's callback, ClientChannelTcp.cpp:195-206: if the handler (line 203) throws, `cancel_current_request` is not called. -/
def onTimerT (env : ClientEnv) (th : Throws) (v : Cli) : Cli × Bool :=
  if v.isShutdown then (v, false)
  else
    match v.current with
    | none => (v, false)
    | some r =>
      match v.tell th r.uid (.error .timeout) with
      | (v, true) => (v, true)
      | (v, false) => (v.cancelCurrent env, false)

end Cli

/-- The client channel, and whether its connection reads (AsioClientTcpConnection.cpp:154-183). -/
structure CliT where
  cli : Cli
  reading : Bool

namespace CliT

/-- ClientChannelTcp.cpp:28-40. -/
def init (env : ClientEnv) : CliT := { cli := Cli.init env, reading := true }

/-- One step.  Data that arrive while the connection does not read are not seen.  After the task of an invalid request (ClientChannelTcp.cpp:87-90) nothing is left
to do, so that it makes no difference whether its handler throws. -/
def step (env : ClientEnv) (th : Throws) (v : CliT) : Cli.Op → CM CliT
  | .receive data =>
    if v.reading then do
      let (c, thrown) ← v.cli.onReceiveT env th data
      return { cli := c, reading := !thrown }
    else .ret v
  | .error => .ret { cli := (v.cli.onErrorT env th).1, reading := true }
  | .runTimer t =>
    if t ∈ v.cli.fired then .ret { v with cli := ({ v.cli with fired := v.cli.fired.filter fun x => x ≠ t }.onTimerT env th).1 }
    else .ret v
  | op => do
    let c ← v.cli.step env op
    return { v with cli := c }

/-- A history of steps. -/
def run (env : ClientEnv) (th : Throws) (v : CliT) : List Cli.Op → CM CliT
  | [] => .ret v
  | op :: ops => do
    let v ← v.step env th op
    v.run env th ops

end CliT

end Modbus
