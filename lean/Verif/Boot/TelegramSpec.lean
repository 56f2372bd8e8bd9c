import Verif.Boot.Telegram
import Verif.Boot.Spec
import Verif.TL4.EndToEnd

/-!
# C107: vocabulary for the bootloader as a device on the bus

A telegram is a byte string; byte 5 holds the number of bytes behind byte 6 in its low four bits, bytes
6 and 7 hold the ten bits that name the service, the data starts at byte 8, and the last of the `len`
received bytes is the checksum.
-/

namespace Verif.Boot.Spec
open Verif.Boot Knx

/-- The service with the number `n` (ten bits). -/
def Service (n : BitVec 10) (t : Buf) : Prop := (t 6).extractLsb' 0 2 ++ t 7 = n

instance (n : BitVec 10) (t : Buf) : Decidable (Service n t) := by unfold Service; infer_instance

/-- The message to the bootloader: "user message, manufacturer 0". -/
def IsUpdateMessage (t : Buf) : Prop := Service 0x2F8#10 t

instance (t : Buf) : Decidable (IsUpdateMessage t) := by unfold IsUpdateMessage; infer_instance

/-- "Memory write": the upper four of the ten bits are 1010. -/
def IsMemoryWrite (t : Buf) : Prop := (t 6).extractLsb' 0 2 = 0b10#2 ∧ (t 7).extractLsb' 6 2 = 0b10#2

instance (t : Buf) : Decidable (IsMemoryWrite t) := by unfold IsMemoryWrite; infer_instance

/-- The data of a telegram of `len` bytes: from byte 8 to the byte before the checksum. -/
def message (t : Buf) (len : Nat) : List Byte := (List.range (len - 9)).map fun i => t (8 + i)

/-- The answers of the protocol and the number of data bytes each of them has: status, unique id,
version of the application, boot descriptor, identity of the bootloader, version mismatch,
statistics. -/
def answerBytes : List (Byte × Nat) :=
  [(0xdc#8, 1), (0xbd#8, 12), (0xbb#8, 12), (0xb9#8, 12), (0xb7#8, 10), (0xb6#8, 2), (0xde#8, 4)]

/-- The telegram in `b` is the answer `r`: the first five bytes (priority and addresses, filled in by the
transport layer) are those of `sb`; then hop count 6 and length, the service "user message,
manufacturer 6", the command and the data, and nothing else. -/
def IsAnswer (sb b : Buf) (r : Resp) : Prop :=
  bytes b (telegramSize b) = bytes sb 5 ++
    ([0x60#8 + BitVec.ofNat 8 (2 + r.payload.length), 0x02#8, 0xFE#8, r.cmd] ++ r.payload)

/-- The state of the updater after one more telegram handed to it. Only messages with at least the
nine bytes of a telegram with a service count. -/
def execute (E : Env) (I : Info) (st : Option State) (m : Buf × Nat) : Option State :=
  if IsUpdateMessage m.1 ∧ 9 ≤ m.2 then st.bind fun s => (receive E I s (message m.1 m.2)).map (·.1)
  else st

/-- The telegrams handed to the application, numbered or connectionless, in order. -/
def handed : List TL4.Out → List (Buf × Nat)
  | [] => []
  | .apciConnected t l :: o => (t, l) :: handed o
  | .apciIndividual t l :: o => (t, l) :: handed o
  | _ :: o => handed o

/-- The length of a received telegram is given in eight bits. -/
def LengthsOk (ops : List TL4.Op) : Prop := ∀ t l, TL4.Op.rx t l ∈ ops → l ≤ 255

/-- The data of the update messages among telegrams. -/
def messagesOf (ms : List (Buf × Nat)) : List (List Byte) :=
  ms.filterMap fun m => if IsUpdateMessage m.1 ∧ 9 ≤ m.2 then some (message m.1 m.2) else none

open TL4 in
/-- A client with address `p` that transmits its commands `req 0`, `req 1`, … to the bootloader over a bus
that loses and duplicates telegrams (the system of C03), with complete telegrams (the number of bytes
received is that given by the length field, and the checksum), and without connectionless telegrams to the
bootloader. -/
inductive Session (A : App BootDev) (p : Word) (req : Nat → Buf) (y0 : Sys BootDev) :
    Sys BootDev → Prop where
  | start : Session A p req y0 y0
  /-- a step of the client or of the bus -/
  | environment (y y') : Session A p req y0 y → SysStep A p req y y' → y'.dev = y.dev → y'.log = y.log →
      Session A p req y0 y'
  /-- the bootloader receives the next telegram of the client -/
  | receive (y t rest) : Session A p req y0 y → y.toDevice = t :: rest →
      Session A p req y0 ({ y with toDevice := rest }.device A p (.rx t (telegramSize t + 1)))
  /-- anything else happens to the bootloader -/
  | other (y op) : Session A p req y0 y → Foreign p y.dev op →
      (∀ t l, op = .rx t l → Spec.UnicastTo y.dev.ownAddr t → Spec.isConnectionless t = false) →
      Session A p req y0 (y.device A p op)

end Verif.Boot.Spec
