import Verif.Model.Logging
import Verif.Spec.Pdu

/-!
Vocabulary for stating what a log says.  Nothing here depends on how the library decides what to write.
-/

namespace Modbus.Spec

/-- Unit and transaction id in the bytes of a frame. -/
def frameIds : List UInt8 → Option (UInt8 × UInt16)
  | a :: b :: _ :: _ :: _ :: _ :: u :: _ => some (u, UInt16.ofNat (a.toNat * 256 + b.toNat))
  | _ => none

/-- What somebody who sees the effects of a client channel knows: the request that is out (number, unit, transaction id), the timeouts of the calls made
so far, and whether the channel has been shut down. -/
structure Witness where
  out : Option (Nat × UInt8 × UInt16)
  timeouts : List (Nat × Nat)
  down : Bool
deriving DecidableEq

namespace Witness

/-- Nothing has happened. -/
def init : Witness := { out := none, timeouts := [], down := false }

/-- After an effect. -/
def see (a : Witness) : CEv → Witness
  | .call uid _ _ timeout => { a with timeouts := a.timeouts ++ [(uid, timeout)] }
  | .sent uid bytes _ => { a with out := (frameIds bytes).map fun x => (uid, x.1, x.2) }
  | .handler uid _ _ => { a with out := a.out.filter fun x => x.1 ≠ uid }
  | .tcpShutdown => { a with out := none, down := true }
  | _ => a

/-- What a truthful log says about an effect: the frame that is sent, with its ids, its timeout and its length without the MBAP header; data received; a
message received, and whether it answers the request that is out; a timeout; a failure of the connection; the shutdown. -/
def tells (a : Witness) : CEv → List CLine
  | .sent uid bytes _ =>
    match frameIds bytes, a.timeouts.lookup uid with
    | some (unit, tid), some timeout => [.sending unit tid timeout (bytes.length - 7)]
    | _, _ => []
  | .data bytes => if a.down then [] else [.received bytes.length]
  | .mbap m =>
    if a.down then []
    else
      match a.out with
      | none => [.notWaiting]
      | some (_, unit, tid) => if m.unit = unit ∧ m.tid = tid then [.response unit tid] else [.unexpected m.unit m.tid]
  | .handler uid (.error .timeout) _ =>
    match a.out with
    | some (u, unit, tid) => if u = uid then [.timeout unit tid] else []
    | none => []
  | .connError => if a.down then [] else [.connError]
  | .tcpShutdown => [.shuttingDown]
  | _ => []

/-- What a truthful log says about a sequence of effects. -/
def account (a : Witness) : List CEv → List CLine
  | [] => []
  | e :: es => a.tells e ++ (a.see e).account es

end Witness

/-- The bytes of a frame that is sent. -/
def sentFrame? : CEv → Option (List UInt8)
  | .sent _ bytes _ => some bytes
  | _ => none

/-- A handler is told of a timeout. -/
def toldTimeout : CEv → Bool
  | .handler _ (.error .timeout) _ => true
  | _ => false

/-- A handler is given a response. -/
def toldResponse : CEv → Bool
  | .handler _ (.ok _) _ => true
  | _ => false

/-- Unit and transaction id in a line about sending. -/
def sendingIds? : CLine → Option (UInt8 × UInt16)
  | .sending unit tid _ _ => some (unit, tid)
  | _ => none

/-- A line about a timeout. -/
def saysTimeout : CLine → Bool
  | .timeout _ _ => true
  | _ => false

/-- A line about a response. -/
def saysResponse : CLine → Bool
  | .response _ _ => true
  | _ => false

/-! ### Levels -/

/-- Whether a line of the second level passes when the first one is asked for.  (A value that is no level counts as `Debug`.) -/
def admits : LogLevel → SpdLevel → Bool
  | .trace, _ => true
  | .debug, l => l ≠ .trace
  | .other, l => l ≠ .trace
  | .info, l => l ≠ .trace ∧ l ≠ .debug
  | .warn, l => l = .warn ∨ l = .err ∨ l = .critical ∨ l = .off
  | .error, l => l = .err ∨ l = .critical ∨ l = .off
  | .critical, l => l = .critical ∨ l = .off

/-! ### Servers -/

/-- What may follow a message `m` of connection `c` at a server in use: a warning that says what is wrong with it (and a reply, if the message names a
function; a function code that is not supported is reported as such, "invalid" is said of the other messages only), or the call of a session with what the message asks for (and a reply, unless the session has none). -/
inductive Handled (c : ConnId) (m : Mbap) : List SLog → Prop
  | unknown : Handled c m [.line (.unknownUnit m.unit)]
  | invalid : (∀ k q, ¬ Denotes k m.data q) → (∀ f ∈ m.data.head?, ∃ k, f = fc k) → Handled c m [.line .invalid]
  | refused (bytes : List UInt8) (k : Kind) : (∀ k q, ¬ Denotes k m.data q) → m.data.head? = some (fc k) → Handled c m [.line .invalid, .ev (.send c bytes)]
  | unsupported (f : UInt8) (rest : List UInt8) (bytes : List UInt8) : m.data = f :: rest → (∀ k, f ≠ fc k) →
      Handled c m [.line (.unsupported f), .ev (.send c bytes)]
  | asked (s : SessId) (k : Kind) (q : Req k) : Denotes k m.data q → Handled c m [.ev (.request s k q)]
  | answered (s : SessId) (k : Kind) (q : Req k) (bytes : List UInt8) : Denotes k m.data q →
      Handled c m [.ev (.request s k q), .ev (.send c bytes)]

/-- Neither a message nor what follows one. -/
def Aside : SEv → Prop
  | .mbap _ _ => False
  | .request _ _ _ => False
  | .send _ _ => False
  | _ => True

/-- Effects and lines of a server in which every message that comes before the shutdown is handled, and every message after it is ignored; the lines are
those of the messages and one at each shutdown.  `d`, `d'`: whether the server is shut down before and after. -/
inductive Accounted : Bool → Bool → List SLog → Prop
  | nil (d : Bool) : Accounted d d []
  | message {c : ConnId} {m : Mbap} {r rest : List SLog} {d' : Bool} : Handled c m r → Accounted false d' rest →
      Accounted false d' (.ev (.mbap c m) :: (r ++ rest))
  | ignored (c : ConnId) (m : Mbap) {rest : List SLog} {d' : Bool} : Accounted true d' rest → Accounted true d' (.ev (.mbap c m) :: rest)
  | aside {e : SEv} {rest : List SLog} {d d' : Bool} : Aside e → Accounted d d' rest → Accounted d d' (.ev e :: rest)
  | shutdown (d : Bool) {rest : List SLog} {d' : Bool} : Accounted true d' rest → Accounted d d' (.line .shuttingDown :: rest)

/-- The effects among effects and lines. -/
def effects (l : List SLog) : List SEv :=
  l.filterMap fun x => match x with
    | .ev e => some e
    | .line _ => none

/-- The lines among effects and lines. -/
def linesOf (l : List SLog) : List SLine :=
  l.filterMap fun x => match x with
    | .ev _ => none
    | .line l => some l

end Modbus.Spec
