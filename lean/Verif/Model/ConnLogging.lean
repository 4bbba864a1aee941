import Verif.Model.Logging
import Verif.Model.ClientConn
import Verif.Model.AsioServer

/-!
When the connections write which lines: AsioClientTcpConnection.cpp and AsioServerTcpConnection.cpp.

Simplifications: as in Model/Logging; in addition the numbers in the lines about bytes sent are left out (the handler of a write does not keep its number in the
models of the connections).  A line of a server's connection does not say which connection it is about (nor does it in the code).
-/

namespace Modbus

namespace Tcp

/-- Lines written by `send`, AsioClientTcpConnection.cpp:47-84 (55, 60, 66, 69). -/
def sendLines (v : Tcp) (loc : TLocal) : List TLine :=
  if v.isShutdown then []
  else
    match v.status with
    | .notConnected =>
      if loc = .badAdapter then [.establishing, .localError]
      else if v.isOpen ∨ loc = .openFails then [.establishing, .localError]
      else if loc = .bindFails then [.establishing, .localError]
      else [.establishing]
    | .connecting => []
    | .connected => []

/-- Lines written by a queued task: the lambda of `close`, AsioClientTcpConnection.cpp:91-103 (97); `resolve_handler`, 116-133 (122); `connect_handler`,
135-152 (141, 147); `read_handler`, 154-183 (162, 167, 174); `write_handler`, 185-206 (191, 197). -/
def taskLines (v : Tcp) : TTask → List TLine
  | .close _ => if v.isShutdown then [] else if v.isOpen then [.closing] else []
  | .shutdown => []
  | .resolved _ ok => if v.isShutdown then [] else if ok then [] else [.error]
  | .connected _ ok => if v.isShutdown then [] else if ok then [.established] else [.error]
  | .read _ r =>
    if v.isShutdown then []
    else
      match r with
      | .eof => [.eof]
      | .error => [.error]
      | .data bs => [.bytes bs.length]
      | .again => []
  | .written _ ok => if v.isShutdown then [] else if ok then [.sent] else [.error]

/-- Lines written by a step of the client's connection (AsioClientTcpConnection.cpp). -/
def stepLines (v : Tcp) : Op → List TLine
  | .send _ loc => v.sendLines loc
  | .shutdown => []
  | .complete _ _ => []
  | .run k =>
    match v.queue[k]? with
    | none => []
    | some t => v.taskLines t

/-- A history of steps, with the lines written (AsioClientTcpConnection.cpp). -/
def runLines (v : Tcp) : List Op → CM (Tcp × List TLine)
  | [] => .ret (v, [])
  | op :: ops => do
    let v' ← v.step op
    let (v'', ls) ← v'.runLines ops
    return (v'', v.stepLines op ++ ls)

end Tcp

namespace Asv

/-- Lines written by a queued task: the lambda of `close`, AsioServerTcpConnection.cpp:57-71 (64); `start`, 86-95 (90), called by `AsioServer::handle_accept`
(AsioServer.cpp:81-103); `read_handler`, 102-122 (108, 114); `write_handler`, 124-144 (130, 136). -/
def taskLines (v : Asv) : ATask → List ALine
  | .startAccept => []
  | .shutdown => []
  | .close c => if (v.conns c).isOpen then [.closing] else []
  | .accepted _ ok => if v.isShutdown then [] else if ok then [.established] else []
  | .read _ none => [.error]
  | .read _ (some bytes) => [.bytes bytes.length]
  | .written _ ok => if ok then [.sent] else [.error]

/-- Lines written by a step of the server's connections (AsioServerTcpConnection.cpp). -/
def stepLines (v : Asv) : Op → List ALine
  | .start => []
  | .shutdown => []
  | .complete _ _ => []
  | .run k _ =>
    match v.queue[k]? with
    | none => []
    | some t => v.taskLines t

/-- A history of steps, with the lines written (AsioServerTcpConnection.cpp). -/
def runLines (v : Asv) : List Op → CM (Asv × List ALine)
  | [] => .ret (v, [])
  | op :: ops => do
    let v' ← v.step op
    let (v'', ls) ← v'.runLines ops
    return (v'', v.stepLines op ++ ls)

end Asv

end Modbus
