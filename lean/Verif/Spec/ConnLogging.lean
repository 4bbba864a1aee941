import Verif.Model.ConnLogging

/-! Vocabulary for stating what the lines of the connections say. -/

namespace Modbus.Spec

/-- What a client's connection has to write about an effect. -/
def tcpAccount : TEv → List TLine
  | .attempt _ => [.establishing]
  | .gaveUp => [.establishing, .localError]
  | .error _ _ => [.error]
  | .receive _ bytes => [.bytes bytes.length]
  | .writeDone => [.sent]
  | _ => []

/-- Lines that are about an effect (the others are about the state of the connection). -/
def TLine.reports : TLine → Bool
  | .establishing | .localError | .error | .bytes _ | .sent => true
  | .closing | .established | .eof => false

/-- What a server's connection has to write about an effect. -/
def asvAccount : AEv → List ALine
  | .joined _ => [.established]
  | .closed _ => [.closing]
  | .error _ => [.error]
  | .receive _ bytes => [.bytes bytes.length]
  | .writeDone _ => [.sent]
  | _ => []

/-- How important a line is. -/
inductive Weight where
  /-- How many bytes went where. -/
  | detail
  /-- What is being done. -/
  | normal
  /-- Something unexpected that does not stop the work. -/
  | odd
  /-- Something failed. -/
  | failure
deriving DecidableEq

/-- Does a channel with this level show lines of this weight?  (A value that is no level counts as `debug`.) -/
def shows : LogLevel → Weight → Bool
  | .trace, _ => true
  | .debug, _ => true
  | .other, _ => true
  | .info, w => w != .detail
  | .warn, w => w == .odd || w == .failure
  | .error, w => w == .failure
  | .critical, _ => false

/-- Weights of a client channel's lines: timeouts and messages nobody waits for are odd, a failing connection is a failure. -/
def CLine.weight : CLine → Weight
  | .received _ => .detail
  | .shuttingDown | .response _ _ | .sending _ _ _ _ => .normal
  | .unexpected _ _ | .notWaiting | .timeout _ _ => .odd
  | .connError => .failure

/-- Weights of a client connection's lines: all errors are failures. -/
def TLine.weight : TLine → Weight
  | .bytes _ | .sent => .detail
  | .establishing | .established | .closing | .eof => .normal
  | .localError | .error => .failure

/-- Weights of a server channel's lines: everything wrong with a message is odd. -/
def SLine.weight : SLine → Weight
  | .shuttingDown => .normal
  | .invalid | .unsupported _ | .unknownUnit _ => .odd

/-- Weights of a server connection's lines: all errors are failures. -/
def ALine.weight : ALine → Weight
  | .bytes _ | .sent => .detail
  | .established | .closing => .normal
  | .error => .failure

end Modbus.Spec
