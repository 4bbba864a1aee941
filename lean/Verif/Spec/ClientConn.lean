import Verif.Model.ClientConn

/-! Vocabulary for stating properties of the client's TCP connection. -/

namespace Modbus.Spec

/-- Histories all of whose steps satisfy `P` (the state before and the step). -/
inductive TcpReach (P : Tcp → Tcp.Op → Prop) : Tcp → Prop
  | init : TcpReach P Tcp.init
  | step {v v' : Tcp} {op : Tcp.Op} : TcpReach P v → P v op → v.step op = .ret v' → TcpReach P v'

/-- Every history. -/
def anyTcp : Tcp → Tcp.Op → Prop := fun _ _ => True

/-- The data given to connection `c`, in order. -/
def tcpSubmits (c : Nat) (log : List TEv) : List (List UInt8) :=
  log.filterMap fun e => match e with
    | .submit c' d => if c' = c then some d else none
    | _ => none

/-- The chunks that went out on connection `c`, in order. -/
def tcpWires (c : Nat) (log : List TEv) : List (List UInt8) :=
  log.filterMap fun e => match e with
    | .wire c' d => if c' = c then some d else none
    | _ => none

/-- The data the channel asked to send, in order. -/
def tcpAsked (log : List TEv) : List (List UInt8) :=
  log.filterMap fun e => match e with
    | .asked d => some d
    | _ => none

/-- The chunks received on connection `c`, in order. -/
def tcpReceived (c : Nat) (log : List TEv) : List (List UInt8) :=
  log.filterMap fun e => match e with
    | .receive c' d => if c' = c then some d else none
    | _ => none

/-- A write is in progress, or its handler has not run yet. -/
def WriteBusy (v : Tcp) : Prop := (∃ c b d, TOp.write c b d ∈ v.flying) ∨ ∃ c ok, TTask.written c ok ∈ v.queue

/-- Everything that concerned the data phase of earlier connections is over: no read or write is in progress, none of their handlers
and no posted close is queued. -/
def Settled (v : Tcp) : Prop :=
  (∀ o ∈ v.flying, ∃ c, o = TOp.resolve c ∨ o = TOp.connect c) ∧
  ∀ t ∈ v.queue, t = TTask.shutdown ∨ (∃ c ok, t = TTask.resolved c ok) ∨ ∃ c ok, t = TTask.connected c ok

/-- Resolving or connecting. -/
def isAttemptOp : TOp → Bool
  | .resolve _ | .connect _ => true
  | _ => false

/-- The handler of resolving or connecting. -/
def isAttemptTask : TTask → Bool
  | .resolved _ _ | .connected _ _ => true
  | _ => false

/-- Attempts to resolve or connect that are in progress or whose handler is queued. -/
def tcpAttempts (v : Tcp) : Nat := v.flying.countP isAttemptOp + v.queue.countP isAttemptTask

/-- The data given to any connection, in order. -/
def tcpAllSubmits (log : List TEv) : List (List UInt8) :=
  log.filterMap fun e => match e with
    | .submit _ d => some d
    | _ => none

/-- Restriction on histories: a new connection attempt is started only when everything that concerned the data phase of earlier
connections is over. -/
def FreshStarts (v : Tcp) (op : Tcp.Op) : Prop :=
  ∀ data loc, op = .send data loc → v.status = .notConnected → v.isOpen = false → Settled v

/-- Restriction on histories: `send` is called only when no write is in progress, and writes are never partial. -/
def Patient (v : Tcp) (op : Tcp.Op) : Prop :=
  (∀ data loc, op = .send data loc → ¬WriteBusy v) ∧
  ∀ i n c b d, op = .complete i (.sent n) → v.flying[i]? = some (TOp.write c b d) → n = d.length

/-- Restriction on histories: the peer never closes the connection in an orderly way (no end of stream). -/
def NoEof (_ : Tcp) (op : Tcp.Op) : Prop := ∀ i, op ≠ .complete i .eof

/-- The chunks received, cut into the stretches between errors. -/
def rxSegments : List TEv → List (List (List UInt8))
  | [] => [[]]
  | .receive _ bytes :: es =>
    match rxSegments es with
    | [] => [[bytes]]
    | s :: ss => (bytes :: s) :: ss
  | .error _ _ :: es => [] :: rxSegments es
  | _ :: es => rxSegments es

/-- Restriction on histories: no trouble with the local socket or adapter, and no failure to resolve the address. -/
def NoLocalFailure (v : Tcp) (op : Tcp.Op) : Prop :=
  (∀ data loc, op = .send data loc → loc = .ok) ∧ ∀ i c, op = .complete i .error → v.flying[i]? ≠ some (.resolve c)

end Modbus.Spec
