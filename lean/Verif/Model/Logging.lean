import Verif.Model.Client
import Verif.Model.Server

/-!
Model of the logging: lib/src/logging/Logger.h, LoggerFactory.cpp, LoggingLevelConversion.h, the loggers made in ModbusManagerImpl.cpp and
ClientChannelTcp.cpp, and the lines written by the two channels (ClientChannelTcp.cpp, ServerChannelTcp.cpp).

Assumptions about spdlog: a logger has a name, a level (`info` if none was set) and sinks; a line is given to each of its sinks, in order, if its level
is at least the logger's; a sink takes everything it is given (its own level is `trace` unless somebody changes it).

Simplifications: the text of a line is a constructor with the values formatted into it; the texts of operating system errors are left out; the registry of
spdlog (in which the name of a console logger must be new) is left out; times in lines have the unit of the model, not milliseconds.
-/

namespace Modbus

/-- `spdlog::level::level_enum`. -/
inductive SpdLevel where
  | trace
  | debug
  | info
  | warn
  | err
  | critical
  | off
deriving DecidableEq, Repr

/-- The order of spdlog's levels. -/
def SpdLevel.rank : SpdLevel → Nat
  | .trace => 0
  | .debug => 1
  | .info => 2
  | .warn => 3
  | .err => 4
  | .critical => 5
  | .off => 6

/-- `LoggingLevel`, lib/include/modbus/logging/LoggingLevel.h:31-39.  `other`: a value of the type that is none of the enumerators (by a cast). -/
inductive LogLevel where
  | trace
  | debug
  | info
  | warn
  | error
  | critical
  | other
deriving DecidableEq, Repr

/-- `to_spdlog_level`, LoggingLevelConversion.h:10-22. -/
def LogLevel.toSpd : LogLevel → SpdLevel
  | .trace => .trace
  | .debug => .debug
  | .info => .info
  | .warn => .warn
  | .error => .err
  | .critical => .critical
  | .other => .debug

/-! ### What is written -/

/-- The lines of the client channel, ClientChannelTcp.cpp. -/
inductive CLine where
  /-- Line 97. -/
  | shuttingDown
  /-- Line 118. -/
  | received (n : Nat)
  /-- Line 127. -/
  | connError
  /-- Line 149. -/
  | response (unit : UInt8) (tid : UInt16)
  /-- Line 160. -/
  | unexpected (unit : UInt8) (tid : UInt16)
  /-- Line 166. -/
  | notWaiting
  /-- Line 179. -/
  | sending (unit : UInt8) (tid : UInt16) (timeout : Nat) (length : Nat)
  /-- Line 200. -/
  | timeout (unit : UInt8) (tid : UInt16)
deriving DecidableEq, Repr

/-- The level of a line; lines as above. -/
def CLine.level : CLine → SpdLevel
  | .shuttingDown => .info
  | .received _ => .debug
  | .connError => .err
  | .response _ _ => .info
  | .unexpected _ _ => .warn
  | .notWaiting => .warn
  | .sending _ _ _ _ => .info
  | .timeout _ _ => .warn

/-- The lines of the client's connection, AsioClientTcpConnection.cpp. -/
inductive TLine where
  /-- Line 55. -/
  | establishing
  /-- Lines 60, 66, 69. -/
  | localError
  /-- Line 97. -/
  | closing
  /-- Lines 122, 141, 167, 191. -/
  | error
  /-- Line 147. -/
  | established
  /-- Line 162. -/
  | eof
  /-- Line 174. -/
  | bytes (n : Nat)
  /-- Line 197; the number in it is left out. -/
  | sent
deriving DecidableEq, Repr

/-- The level of a line; lines as above. -/
def TLine.level : TLine → SpdLevel
  | .establishing => .info
  | .localError => .err
  | .closing => .info
  | .error => .err
  | .established => .info
  | .eof => .info
  | .bytes _ => .debug
  | .sent => .debug

/-- The lines of the server channel, ServerChannelTcp.cpp. -/
inductive SLine where
  /-- Line 71. -/
  | shuttingDown
  /-- Lines 109, 162. -/
  | invalid
  /-- Line 142. -/
  | unsupported (fc : UInt8)
  /-- Line 148. -/
  | unknownUnit (unit : UInt8)
deriving DecidableEq, Repr

/-- The level of a line; lines as above. -/
def SLine.level : SLine → SpdLevel
  | .shuttingDown => .info
  | .invalid => .warn
  | .unsupported _ => .warn
  | .unknownUnit _ => .warn

/-- The lines of the server's connections, AsioServerTcpConnection.cpp. -/
inductive ALine where
  /-- Line 64. -/
  | closing
  /-- Line 90. -/
  | established
  /-- Lines 108, 130. -/
  | error
  /-- Line 114. -/
  | bytes (n : Nat)
  /-- Line 136; the number in it is left out. -/
  | sent
deriving DecidableEq, Repr

/-- The level of a line; lines as above. -/
def ALine.level : ALine → SpdLevel
  | .closing => .info
  | .established => .info
  | .error => .err
  | .bytes _ => .debug
  | .sent => .debug

/-! ### Loggers -/

/-- A `spdlog::logger`.  `user`: it was made by the user, who may set its level. -/
structure SpdLogger where
  name : String
  level : SpdLevel
  sinks : List Nat
  user : Bool
deriving DecidableEq

/-- A line that has reached a sink. -/
structure Printed (α : Type) where
  sink : Nat
  name : String
  level : SpdLevel
  text : α
deriving DecidableEq

/-- A line of one of the objects of a channel. -/
inductive LogText where
  | channel (l : CLine)
  | connection (l : TLine)
  | server (l : SLine)
  | served (l : ALine)
deriving DecidableEq

/-- The level of a line. -/
def LogText.level : LogText → SpdLevel
  | .channel l => l.level
  | .connection l => l.level
  | .server l => l.level
  | .served l => l.level

/-- The loggers of a channel's objects (as positions): of a client, its connection's and its own; of a server, the one shared by the channel, the
listening server and the connections (ModbusManagerImpl.cpp:49-55, 72-78; AsioServer.cpp:70). -/
inductive LogChan where
  | client (conn chan : Nat)
  | server (chan : Nat)
deriving DecidableEq

/-- All loggers in existence, the managers' loggers (ModbusManagerImpl.h:46), the channels, and what has been printed. -/
structure Logs where
  heap : List SpdLogger
  mgrs : List Nat
  chans : List LogChan
  out : List (Printed LogText)

namespace Logs

/-- Nothing exists. -/
def init : Logs := { heap := [], mgrs := [], chans := [], out := [] }

/-- A new logger. -/
def alloc (v : Logs) (g : SpdLogger) : Logs := { v with heap := v.heap ++ [g] }

/-- `set_level` of the logger at position `i` (spdlog). -/
def setLevel (v : Logs) (i : Nat) (l : SpdLevel) : Logs := { v with heap := v.heap.modify i fun g => { g with level := l } }

/-- `Logger::clone(name, level)`, Logger.h:80-85. -/
def clone (g : SpdLogger) (name : String) (level : LogLevel) : SpdLogger :=
  { name := name, level := level.toSpd, sinks := g.sinks, user := false }

/-- `Logger::clone(name)`, Logger.h:74-78: the new logger has spdlog's default level. -/
def cloneDefault (g : SpdLogger) (name : String) : SpdLogger := { name := name, level := .info, sinks := g.sinks, user := false }

/-- A line is written with a logger: `m_logger_impl->debug(...)` and so on, Logger.h:38-72. -/
def write (v : Logs) (i : Nat) (t : LogText) : Logs :=
  match v.heap[i]? with
  | none => v
  | some g =>
    if g.level.rank ≤ t.level.rank then { v with out := v.out ++ g.sinks.map fun s => ⟨s, g.name, t.level, t⟩ } else v

/-- The logger with which a line of channel `c` is written: ClientChannelTcp.cpp and AsioClientTcpConnection.cpp have their own; the server's objects
share one. -/
def loggerOf : LogChan → LogText → Option Nat
  | .client _ chan, .channel _ => some chan
  | .client conn _, .connection _ => some conn
  | .server chan, .server _ => some chan
  | .server chan, .served _ => some chan
  | _, _ => none

/-- What can happen. -/
inductive Op where
  /-- The user makes a logger of their own, with spdlog. -/
  | own (name : String) (level : SpdLevel) (sinks : List Nat)
  /-- The user sets the level of a logger of their own. -/
  | setLevel (i : Nat) (level : SpdLevel)
  /-- `create_console_logger`, LoggerFactory.cpp:28-33; `sink` is the console. -/
  | console (name : String) (level : LogLevel) (sink : Nat)
  /-- `create_null_logger`, LoggerFactory.cpp:35-40: its sink throws everything away (modelled by having no sink). -/
  | null (name : String)
  /-- `create_custom_logger` for the user's logger at position `i`, LoggerFactory.cpp:42-46. -/
  | custom (i : Nat) (level : LogLevel)
  /-- A manager is created with the logger at position `i`, ModbusManagerImpl.cpp:29-35. -/
  | manager (i : Nat)
  /-- `create_client_tcp_channel` of manager `m`, ModbusManagerImpl.cpp:49-55. -/
  | client (m : Nat) (name : String) (level : LogLevel)
  /-- `create_server_tcp_channel` of manager `m`, ModbusManagerImpl.cpp:72-78. -/
  | server (m : Nat) (name : String) (level : LogLevel)
  /-- `create_session` of channel `c`, ClientChannelTcp.cpp:50.  (Sessions never write.) -/
  | session (c : Nat)
  /-- An object of channel `c` writes a line. -/
  | write (c : Nat) (t : LogText)

/-- One step; what cannot happen changes nothing. -/
def step (v : Logs) : Op → Logs
  | .own name level sinks => v.alloc { name := name, level := level, sinks := sinks, user := true }
  | .setLevel i level =>
    match v.heap[i]? with
    | none => v
    | some g => if g.user then v.setLevel i level else v
  | .console name level sink => v.alloc { name := name, level := level.toSpd, sinks := [sink], user := false }
  | .null name => v.alloc { name := name, level := .info, sinks := [], user := false }
  | .custom i level =>
    match v.heap[i]? with
    | none => v
    | some g => if g.user then v.setLevel i level.toSpd else v
  | .manager i => if i < v.heap.length then { v with mgrs := v.mgrs ++ [i] } else v
  | .client m name level =>
    match v.mgrs[m]? with
    | none => v
    | some i =>
      match v.heap[i]? with
      | none => v
      | some g =>
        { v with heap := v.heap ++ [clone g (name ++ " - Connection") level, clone g name level],
                 chans := v.chans ++ [.client v.heap.length (v.heap.length + 1)] }
  | .server m name level =>
    match v.mgrs[m]? with
    | none => v
    | some i =>
      match v.heap[i]? with
      | none => v
      | some g =>
        { v with heap := v.heap ++ [clone g (name ++ " - Server") level], chans := v.chans ++ [.server v.heap.length] }
  | .session c =>
    match v.chans[c]? with
    | some (.client _ chan) =>
      match v.heap[chan]? with
      | none => v
      | some g => v.alloc (cloneDefault g "session")
    | _ => v
  | .write c t =>
    match v.chans[c]? with
    | none => v
    | some ch =>
      match loggerOf ch t with
      | none => v
      | some i => v.write i t

/-- A history of steps. -/
def run (v : Logs) (ops : List Op) : Logs := ops.foldl step v

end Logs

/-! ### When the client channel writes what -/

namespace Cli

/-- Lines written by `check_pending_requests`, ClientChannelTcp.cpp:170-208. -/
def checkPendingLines (v : Cli) : List CLine :=
  if v.isShutdown then []
  else
    match v.current, v.pending with
    | none, r :: _ => [.sending r.unit r.tid r.timeout (reqMsg r.req.1 r.req.2).length]
    | _, _ => []

/-- Lines written by `cancel_current_request`, ClientChannelTcp.cpp:210-219. -/
def cancelCurrentLines (v : Cli) : List CLine :=
  match v.current with
  | none => []
  | some _ => { v with current := none }.cancelTimer.checkPendingLines

/-- Lines written by `on_error`, ClientChannelTcp.cpp:123-138. -/
def errorLines (v : Cli) : List CLine :=
  if v.isShutdown then []
  else .connError :: match v.current with
    | none => []
    | some _ => v.cancelPending.cancelCurrentLines

/-- Lines written by `on_mbap_message`, ClientChannelTcp.cpp:140-168. -/
def mbapLines (v : Cli) (m : Mbap) : List CLine :=
  if v.isShutdown then []
  else
    match v.current with
    | some r =>
      if m.tid = r.tid ∧ m.unit = r.unit then .response m.unit m.tid :: { v with current := none }.checkPendingLines
      else [.unexpected m.unit m.tid]
    | none => [.notWaiting]

/-- Lines written during one `m_parser.parse(data)`, ClientChannelTcp.cpp:120. -/
def mbapsLines (env : ClientEnv) (v : Cli) : List Mbap → List CLine
  | [] => []
  | m :: ms => v.mbapLines m ++ (v.onMbap env m).mbapsLines env ms

/-- Lines written by `on_receive`, ClientChannelTcp.cpp:113-121. -/
def receiveLines (env : ClientEnv) (v : Cli) (data : List UInt8) : List CLine :=
  if v.isShutdown then []
  else
    match v.parser.parse data with
    | .ub => []
    | .ret (p, ms) => .received data.length :: { v.emit (.data data) with parser := p }.mbapsLines env ms

/-- Lines written by the timer's callback, ClientChannelTcp.cpp:195-206. -/
def timerLines (v : Cli) : List CLine :=
  if v.isShutdown then []
  else
    match v.current with
    | none => []
    | some r => .timeout r.unit r.tid :: v.cancelCurrentLines

/-- Lines written by the posted lambdas, ClientChannelTcp.cpp:70-83, 87-90, 96-111. -/
def taskLines (v : Cli) : CTask → List CLine
  | .request uid unit req timeout =>
    if v.isShutdown then [] else { v with pending := v.pending ++ [PendingReq.mk uid unit v.nextTid req timeout] }.checkPendingLines
  | .malformed _ => []
  | .shutdown => [.shuttingDown]

/-- Lines written in a step. -/
def lines (env : ClientEnv) (v : Cli) : Op → List CLine
  | .runTask =>
    match v.tasks with
    | [] => []
    | t :: ts => { v with tasks := ts }.taskLines t
  | .receive data => v.receiveLines env data
  | .error => v.errorLines
  | .runTimer t => if t ∈ v.fired then { v with fired := v.fired.filter fun x => x ≠ t }.timerLines else []
  | _ => []

/-- A history, and the lines written in it. -/
def runLines (env : ClientEnv) (v : Cli) : List Op → CM (Cli × List CLine)
  | [] => .ret (v, [])
  | op :: ops => do
    let v' ← v.step env op
    let (v'', ls) ← v'.runLines env ops
    return (v'', v.lines env op ++ ls)

end Cli

/-! ### When the server channel writes what -/

/-- Effects and lines of a server channel, in order. -/
inductive SLog where
  | ev (e : SEv)
  | line (l : SLine)
deriving DecidableEq

namespace Srv

variable {W : Type}

/-- Lines written by `on_mbap` and `process_message`, ServerChannelTcp.cpp:99-199. -/
def mbapLines (v : Srv W) (m : Mbap) : List SLine :=
  if v.isShutdown then []
  else
    match v.sessions.lookup m.unit with
    | none => [.unknownUnit m.unit]
    | some _ =>
      if m.data.length < 1 then [.invalid]
      else
        match getU8 m.data with
        | .ub => []
        | .ret (fc, _) =>
          match kindOf fc with
          | none => [.unsupported fc]
          | some k =>
            match parseReq k m.data with
            | .ret (.error _) => [.invalid]
            | _ => []

/-- What `on_mbap` does and writes, ServerChannelTcp.cpp:99-199: its line, if any, is written before anything else is done (the first effect is that
the message has come). -/
def mbapTrace (env : ServerEnv W) (v : Srv W) (c : ConnId) (m : Mbap) : List SLog :=
  match v.onMbap env c m with
  | .ub => []
  | .ret v' => .ev (.mbap c m) :: (v.mbapLines m).map .line ++ (v'.log.drop (v.log.length + 1)).map .ev

/-- The same for several messages. -/
def mbapsTrace (env : ServerEnv W) (v : Srv W) (c : ConnId) : List Mbap → List SLog
  | [] => []
  | m :: ms => v.mbapTrace env c m ++ match v.onMbap env c m with
    | .ub => []
    | .ret v' => v'.mbapsTrace env c ms

/-- What a step does and writes: the channel's tasks (ServerChannelTcp.cpp:70-85; the line comes first), and the data of a connection
(ServerConnectionListener.cpp:20-38). -/
def trace (env : ServerEnv W) (v : Srv W) : Op → List SLog
  | .runTask =>
    match v.tasks with
    | [] => []
    | t :: ts => (if t = .shutdown then [.line .shuttingDown] else []) ++ (({ v with tasks := ts }.runTask t).log.drop v.log.length).map .ev
  | .receive c data =>
    match v.listeners.lookup c with
    | none => []
    | some p =>
      match p.parse data with
      | .ub => []
      | .ret (p, ms) => { v with listeners := setListener v.listeners c p }.mbapsTrace env c ms
  | _ => []

/-- A history, and what is done and written in it. -/
def runTrace (env : ServerEnv W) (v : Srv W) : List Op → CM (Srv W × List SLog)
  | [] => .ret (v, [])
  | op :: ops => do
    let v' ← v.step env op
    let (v'', ls) ← v'.runTrace env ops
    return (v'', v.trace env op ++ ls)

end Srv

end Modbus
