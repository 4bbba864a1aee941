import Verif.Types

/-!
Model of the manager: lib/src/ModbusManagerImpl.cpp (all of it) and lib/src/IModbusManager.cpp:27-36.

Channels are identities (0, 1, 2, …).  Creating a channel has two steps, since other threads may get in between: the construction
(lines 47-55, 70-78) and, under the mutex, the storing followed by the return (57-62, 80-85).  `shutdown` is one step: it holds
the mutex throughout and the channels' `shutdown` functions only post (C48, C34).
Not modelled: the loggers, the strands, the thread pool beyond its number of threads (exe4cpp).  `shutdown` does not join the
threads, contrary to the comment in IModbusManager.h; the destructor of the thread pool is what ends them.
-/

namespace Modbus

/-- `std::max(1u, number_of_threads)`, IModbusManager.cpp:34; given to the thread pool, ModbusManagerImpl.cpp:32.  With the one
argument `create` (27-30) the argument is whatever `hardware_concurrency` returns, which may be 0. -/
def threadCount (n : UInt32) : UInt32 := if 1 < n then n else 1

/-- Client or server channel. -/
inductive ChanKind where
  | client
  | server
deriving DecidableEq

/-- Observable effects. -/
inductive MgrEv where
  /-- `create_..._channel` returned channel `id`. -/
  | created (id : Nat)
  /-- The manager called `shutdown` of channel `id`. -/
  | stopped (id : Nat)
  /-- `shutdown` (or the destructor) is done. -/
  | down
deriving DecidableEq

/-- State: the thread pool's size, `m_client_channels`, `m_server_channels` (ModbusManagerImpl.h:45-49), channels under
construction, the next identity, whether the manager has been destroyed. -/
structure Mgr where
  threads : UInt32
  clients : List Nat
  servers : List Nat
  building : List (Nat × ChanKind)
  next : Nat
  gone : Bool
  log : List MgrEv

namespace Mgr

/-- `IModbusManager::create`, IModbusManager.cpp:32-36; ModbusManagerImpl.cpp:29-35. -/
def create (n : UInt32) : Mgr :=
  { threads := threadCount n, clients := [], servers := [], building := [], next := 0, gone := false, log := [] }

/-- `shutdown`, ModbusManagerImpl.cpp:88-103. -/
def shutdown (v : Mgr) : Mgr :=
  let v := { v with log := v.log ++ v.clients.map MgrEv.stopped, clients := [] }
  let v := { v with log := v.log ++ v.servers.map MgrEv.stopped, servers := [] }
  { v with log := v.log ++ [MgrEv.down] }

/-- What can happen. -/
inductive Op where
  /-- `create_..._channel`, construction: ModbusManagerImpl.cpp:47-55, 70-78. -/
  | build (k : ChanKind)
  /-- The rest of the call for channel `id`: ModbusManagerImpl.cpp:57-62, 80-85. -/
  | store (id : Nat)
  | shutdown
  /-- The destructor, ModbusManagerImpl.cpp:37-40.  (Calls still in progress or made later are the caller's error; the model lets
  nothing happen any more.) -/
  | destroy
deriving DecidableEq

/-- One step. -/
def step (v : Mgr) (op : Op) : Mgr :=
  if v.gone then v else
  match op with
  | .build k => { v with building := v.building ++ [(v.next, k)], next := v.next + 1 }
  | .store id =>
    match v.building.lookup id with
    | none => v
    | some .client =>
      { v with building := v.building.filter (fun x => x.1 ≠ id), clients := v.clients ++ [id], log := v.log ++ [.created id] }
    | some .server =>
      { v with building := v.building.filter (fun x => x.1 ≠ id), servers := v.servers ++ [id], log := v.log ++ [.created id] }
  | .shutdown => v.shutdown
  | .destroy => { v.shutdown with gone := true }

/-- A history of steps. -/
def run (v : Mgr) (ops : List Op) : Mgr := ops.foldl step v

end Mgr

end Modbus
