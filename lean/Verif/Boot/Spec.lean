import Verif.Boot.Update
import Verif.Crc.Spec

/-!
# Specification vocabulary for the bootloader properties

Messages as byte strings on the wire, the standard CRC-32, and what a host can know about the
bootloader's download buffer from the messages it sent and the answers it got.
-/

namespace Verif.Boot.Spec
open Verif.Boot

/-- The standard CRC-32 (CRC-32/ISO-HDLC) of a byte string. -/
def crc32Std (data : List Byte) : U32 := ~~~ Verif.Crc.Spec.crcR 0xEDB88320#32 0xFFFFFFFF#32 data

/-- Little-endian encodings. -/
def le16 (v : Word) : List Byte := [v.extractLsb' 0 8, v.extractLsb' 8 8]
def le32 (v : U32) : List Byte :=
  [v.extractLsb' 0 8, v.extractLsb' 8 8, v.extractLsb' 16 8, v.extractLsb' 24 8]

/-- The messages of the protocol used below. -/
def msgUnlock (uid : List Byte) : List Byte := 0xbf#8 :: uid
def msgSendData (d : List Byte) : List Byte := 0xef#8 :: d
def msgProgram (count : Word) (address crc : U32) : List Byte :=
  0xee#8 :: (le16 count ++ le32 address ++ le32 crc)
def msgEraseRange (first last : U32) : List Byte := 0xe9#8 :: (le32 first ++ le32 last)
def msgEraseAll : List Byte := [0xea#8]
def msgUpdateDescriptor (count crc : U32) : List Byte := 0xed#8 :: (le32 count ++ le32 crc)
def msgDecompress (d : List Byte) : List Byte := 0xec#8 :: d
def msgProgramDecompressed (crc : U32) : List Byte := 0xeb#8 :: le32 crc

/-- The answer "status `e`"; `ok` is the status "success". -/
def status (e : Byte) : Resp := ⟨0xdc#8, [e]⟩
def ok : Resp := status 0x7f#8

/-- Reversal of each group of four bytes of a 12-byte id. -/
def groupsReversed : List Byte → List Byte
  | [a, b, c, d, e, f, g, h, i, j, k, l] => [d, c, b, a, h, g, f, e, l, k, j, i]
  | x => x

/-- The messages that unlock a device with the unique id `uid` (its first 12 bytes): the unlock command
followed by the id, in either of the two byte orders in use. -/
def UnlocksWith (uid : List Byte) (m : List Byte) : Prop :=
  m.head? = some 0xbf#8 ∧ m.length = 13 ∧ (m.tail = uid ∨ groupsReversed m.tail = uid)

instance (uid m : List Byte) : Decidable (UnlocksWith uid m) := by unfold UnlocksWith; infer_instance

/-- Did the device execute a request (as opposed to refusing it)? Statuses from 0x73 on are results of
the flash routines. -/
def executed (r : Resp) : Bool := match r.payload with
  | [e] => decide (0x73 ≤ e.toNat)
  | _ => false

/-- What the download buffer of the device contains, as seen by the host, after one more exchange:
accepted data is appended; unlocking, erasing and programming (also a refusal because of a wrong byte
count) empty it. -/
def bufStep (buf : List Byte) (e : List Byte × Resp) : List Byte :=
  match e.1 with
  | [] => buf
  | c :: d =>
    if c = 0xef#8 then (if e.2 = ok then buf ++ d else buf)
    else if c = 0xbf#8 then (if e.2 = ok then [] else buf)
    else if c = 0xee#8 then
      (if executed e.2 = true ∨ e.2 = status 0x4f#8 ∨ e.2 = status 0x50#8 then [] else buf)
    else if c = 0xe9#8 ∨ c = 0xea#8 then
      (if e.2 = status 0x55#8 ∨ e.2 = status 0x58#8 then buf else [])
    else if c = 0xeb#8 then (if executed e.2 = true then [] else buf)
    else buf

/-- The same as a relation: when a programming request was refused because of its address (status
0x5d), the host cannot tell whether the buffer was kept or emptied. -/
def BufStep (buf : List Byte) (e : List Byte × Resp) (buf' : List Byte) : Prop :=
  buf' = bufStep buf e ∨ (e.1.head? = some 0xee#8 ∧ e.2 = status 0x5d#8 ∧ buf' = [])

/-- `Buffered conv buf`: after the conversation `conv`, which started at power-up, the download buffer
contains `buf`. -/
inductive Buffered : List (List Byte × Resp) → List Byte → Prop where
  | start : Buffered [] []
  | step {conv buf e buf'} : Buffered conv buf → BufStep buf e buf' → Buffered (conv ++ [e]) buf'

/-- One message is delivered to the bootloader: the whole effect of one telegram. -/
abbrev receive (E : Env) (I : Info) (s : State) (m : List Byte) : Option (State × Resp) :=
  handle E I s (fun i => m.getD i 0#8) (BitVec.ofNat 32 m.length)

/-- Telegrams carry at most 255 bytes. -/
def Telegram (m : List Byte) : Prop := m.length ≤ 255

instance (m : List Byte) : Decidable (Telegram m) := by unfold Telegram; infer_instance

end Verif.Boot.Spec
