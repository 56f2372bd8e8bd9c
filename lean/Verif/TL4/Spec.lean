import Verif.TL4.Model

/-!
# Specification vocabulary for the transport layer

Field definitions of the KNX frame format (KNX 3/3/2, 3/3/4), written down independently of the
library's accessors: a word is two consecutive bytes, big endian; the transport control byte is byte 6:
bits 7..6 kind, bits 5..2 sequence number, bits 1..0 control code.
-/

namespace Verif.TL4.Spec
open Knx

/-- Source address: bytes 1 and 2. -/
def src (t : Buf) : BitVec 16 := t 1 ++ t 2

/-- Destination address: bytes 3 and 4. -/
def dst (t : Buf) : BitVec 16 := t 3 ++ t 4

/-- Destination is a group address: bit 7 of byte 5. -/
def isGroup (t : Buf) : Bool := (t 5).getLsbD 7

/-- Sequence number in a transport control byte: bits 5..2. -/
def seqOf (b : Byte) : Nat := (b.extractLsb' 2 4).toNat

/-- A telegram for the individual address `own`. -/
def UnicastTo (own : BitVec 16) (t : Buf) : Prop := isGroup t = false ∧ dst t = own ∧ own ≠ 0#16

/-- Numbered (connection-oriented) data: bits 7..6 are `01`. -/
def isNumberedData (t : Buf) : Bool := (t 6).extractLsb' 6 2 == 0b01#2

/-- Unnumbered data (connectionless): bits 7..2 are all zero. -/
def isConnectionless (t : Buf) : Bool := (t 6).extractLsb' 2 6 == 0#6

/-- T_Connect: exactly 1000 0000 once the sequence bits are ignored. -/
def isConnect (t : Buf) : Bool := (t 6).extractLsb' 6 2 == 0b10#2 && (t 6).extractLsb' 0 2 == 0b00#2

def isDisconnect (t : Buf) : Bool := (t 6).extractLsb' 6 2 == 0b10#2 && (t 6).extractLsb' 0 2 == 0b01#2

def isAck (t : Buf) : Bool := (t 6).extractLsb' 6 2 == 0b11#2 && (t 6).extractLsb' 0 2 == 0b10#2

def isNak (t : Buf) : Bool := (t 6).extractLsb' 6 2 == 0b11#2 && (t 6).extractLsb' 0 2 == 0b11#2

/-- Any connection control telegram: bit 7 of the transport control byte. -/
def isControl (t : Buf) : Bool := (t 6).getLsbD 7

/-- `frame` is a 7-byte connection-control telegram with transport control byte `tpci`, system
priority, not repeated, addressed to the individual address `to`.
(Bytes 1 and 2, the source address, are filled in by the bus layer.) -/
def IsControlFrame (tpci : Byte) (to : BitVec 16) (frame : List Byte) : Prop :=
  ∃ s1 s2 d1 d2 : Byte, d1 ++ d2 = to ∧ frame = [0xB0#8, s1, s2, d1, d2, 0x60#8, tpci]

/-- Transport control bytes for the acknowledge telegrams with sequence number `n`. -/
def ackByte (n : Nat) : Byte := 0xC2#8 ||| BitVec.ofNat 8 (4 * (n % 16))
def nakByte (n : Nat) : Byte := 0xC3#8 ||| BitVec.ofNat 8 (4 * (n % 16))
def disconnectByte : Byte := 0x81#8

/-- The numbered telegrams handed to the application, in order. -/
def delivered : List Out → List Buf
  | [] => []
  | .apciConnected t _ :: o => t :: delivered o
  | _ :: o => delivered o

/-- The connection-oriented data telegrams transmitted, in order. -/
def dataSent : List Out → List (List Byte)
  | [] => []
  | .sentData f :: o => f :: dataSent o
  | _ :: o => dataSent o

/-- The connection stays open through the whole history `ops`. -/
def StaysOpen {σ : Type} (A : App σ) (s : State σ) (ops : List Op) : Prop :=
  ∀ n ≤ ops.length, (run A s (ops.take n)).1.phase ≠ .closed

/-- Everything the connection consists of: state, partner, both sequence numbers, repetition counter,
both timers and both response buffers. -/
def connection {σ : Type} (s : State σ) :=
  (s.phase, s.connectedAddr, s.seqNoSend, s.seqNoRcv, s.repCount, s.connectedTime, s.sentTime,
   s.con1, s.con2, s.conBuf1, s.conBuf2)

end Verif.TL4.Spec
