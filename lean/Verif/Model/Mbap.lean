import Verif.Model.Messages

/-!
Model of the MBAP layer: lib/src/messages/mbap/MbapMessage.cpp and MbapParser.cpp.
-/

namespace Modbus

/-- `MbapMessage::build_message`, MbapMessage.cpp:33-53.  `buffer` is the caller's `wseq_t`; the result is the view
`buffer.readonly().take(length + 7)`, taken before writing, read after writing. -/
def buildMbap (unit : UInt8) (tid : UInt16) (message : Msg) (buffer : WSeq) : List UInt8 :=
  let length := if message.length > 253 then 253 else message.length
  let b := buffer.writeU16 tid
  let b := b.writeU16 0x0000
  let b := b.writeU16 (UInt16.ofNat (length + 1))
  let b := b.writeU8 unit
  let b := message.build b
  (b.mem.drop buffer.done.length).take (length + 7)

/-- `MaxMbapHeaderSize`, MbapParser.h:40. -/
def mbapHeaderSize : Nat := 7
/-- `ModbusProtocolId`, MbapParser.h:41. -/
def modbusProtocolId : UInt16 := 0x0000

/-- State of `MbapParser`, MbapParser.h:43-47: `m_buffer` and `m_buffer_view` are `view` (the buffer content is
`view.mem`, the write position `view.done.length`).  `pol` is not a member: it is the (constant) behaviour of
`ser4cpp::wseq_t::copy_from`, carried along so that the theorems cover both possibilities.  The sink is not modelled:
`parse` returns the list of delivered messages instead (the sinks never touch the parser while it delivers). -/
structure Parser where
  pol : CopyPolicy
  view : WSeq
  num : Nat
  readingBody : Bool
deriving DecidableEq, Repr

namespace Parser

/-- `MbapParser::reset`, MbapParser.cpp:53-58.  The buffer content stays what it was. -/
def reset (p : Parser) : Parser :=
  { p with view := ⟨[], p.view.mem⟩, num := mbapHeaderSize, readingBody := false }

/-- `MbapParser::MbapParser`, MbapParser.cpp:24-28: the content `mem` of the 260-byte buffer is arbitrary. -/
def init (pol : CopyPolicy) (mem : List UInt8) : Parser :=
  { pol := pol, view := ⟨[], mem⟩, num := mbapHeaderSize, readingBody := false }

/-- `MbapParser::find_body_size`, MbapParser.cpp:60-75. -/
def findBodySize (p : Parser) : CM Parser := do
  let (length, _) ← getU16 (p.view.mem.drop 4)
  if length = 0 then
    return p.reset
  else
    return { p with num := length.toNat - 1, readingBody := true }

/-- `MbapParser::send_data`, MbapParser.cpp:77-106. -/
def sendData (p : Parser) : CM (Parser × List Mbap) := do
  let (tid, view) ← getU16 p.view.mem
  let (proto, view) ← getU16 view
  let (length, view) ← getU16 view
  let (unit, view) ← getU8 view
  let message : Mbap := { unit := unit, tid := tid, data := view.take (subSizeT length.toNat 1) }
  if proto = modbusProtocolId ∧ length > 0 then
    return (p.reset, [message])
  else
    return (p.reset, [])

theorem findBodySize_progress {p p' : Parser} (h : p.findBodySize = .ret p') : p'.num ≠ 0 ∨ p'.readingBody = true := by
  unfold findBodySize at h
  cases hg : getU16 (p.view.mem.drop 4) with
  | ub => rw [hg] at h; cases h
  | ret x =>
    rw [hg] at h
    simp only [CM.ret_bind, CM.pure_eq] at h
    split at h
    · injection h with h; subst h; left; simp [reset, mbapHeaderSize]
    · injection h with h; subst h; right; rfl

theorem sendData_progress {p p' : Parser} {o : List Mbap} (h : p.sendData = .ret (p', o)) : p'.num = 7 := by
  unfold sendData at h
  cases hg : getU16 p.view.mem with
  | ub => rw [hg] at h; cases h
  | ret x =>
    rw [hg] at h
    simp only [CM.ret_bind] at h
    cases hg2 : getU16 x.2 with
    | ub => rw [hg2] at h; cases h
    | ret y =>
      rw [hg2] at h
      simp only [CM.ret_bind] at h
      cases hg3 : getU16 y.2 with
      | ub => rw [hg3] at h; cases h
      | ret z =>
        rw [hg3] at h
        simp only [CM.ret_bind] at h
        cases hg4 : getU8 z.2 with
        | ub => rw [hg4] at h; cases h
        | ret u =>
          rw [hg4] at h
          simp only [CM.ret_bind, CM.pure_eq] at h
          split at h <;> (injection h with h; injection h with h _; subst h; rfl)

/-- `MbapParser::parse`, MbapParser.cpp:30-51: the `while` loop. -/
def parse (p : Parser) (data : List UInt8) : CM (Parser × List Mbap) :=
  if hd : data = [] then
    .ret (p, [])
  else
    let read := data.take p.num
    let data' := data.drop read.length
    let p1 : Parser := { p with num := p.num - read.length, view := p.view.copyFrom p.pol read }
    if hn : p1.num = 0 then
      if hb : p1.readingBody = false then
        match h : p1.findBodySize with
        | .ub => .ub
        | .ret p2 => parse p2 data'
      else
        match h : p1.sendData with
        | .ub => .ub
        | .ret (p2, out) => do
          let (p3, out') ← parse p2 data'
          return (p3, out ++ out')
    else
      parse p1 data'
termination_by 3 * data.length + (if p.num = 0 then (if p.readingBody then 1 else 2) else 0)
decreasing_by
  all_goals
    have hl : 0 < data.length := List.length_pos_iff.2 hd
    simp only [List.length_drop, List.length_take]
  · have hb' : p.readingBody = false := hb
    by_cases hz : p.num = 0
    · rcases findBodySize_progress h with h' | h'
      · simp [h', hz, hb']
      · simp only [h', hz, hb', if_true]; simp; split <;> omega
    · rcases findBodySize_progress h with h' | h'
      · simp only [h', hz, if_false]; omega
      · simp only [h', hz, if_true, if_false]; split <;> omega
  · have hb' : p.readingBody = true := by simpa using hb
    by_cases hz : p.num = 0
    · simp [sendData_progress h, hb', hz]
    · simp only [sendData_progress h, hz, if_false]; simp; omega
  · have hn' : p.num - (data.take p.num).length ≠ 0 := hn
    simp only [List.length_take] at hn'
    rw [if_neg (by simpa using hn'), if_neg (by omega)]
    omega

/-- Successive reads from the connection: one `parse` call per received chunk. -/
def feed (p : Parser) : List (List UInt8) → CM (Parser × List Mbap)
  | [] => .ret (p, [])
  | chunk :: chunks => do
    let (p1, out1) ← p.parse chunk
    let (p2, out2) ← p1.feed chunks
    return (p2, out1 ++ out2)

end Parser

end Modbus
