import Verif.Bus.Model

/-!
# Specification vocabulary for the link layer

Independent of the state machine: it speaks about frames (lists of bytes) and about the log.
-/

namespace Verif.Bus

open Verif.Knx

/-- Exclusive or of all bytes of a frame. -/
def xorAll (f : List Byte) : Byte := f.foldl (· ^^^ ·) 0#8

/-- The KNX check octet makes the exclusive or of all octets 0xFF (KNX 3/2/2 2.2.5). -/
def ChecksumOk (f : List Byte) : Prop := xorAll f = 0xff#8

instance (f : List Byte) : Decidable (ChecksumOk f) := inferInstanceAs (Decidable (_ = _))

/-- Byte `j` of a frame. -/
def at' (f : List Byte) (j : Nat) : Byte := f.getD j 0#8

/-- Destination address of a frame. -/
def destOf (f : List Byte) : Word := makeWord (at' f 3) (at' f 4)

/-- A standard data frame: control field `10x1 xx00`. -/
def StandardData (f : List Byte) : Prop := at' f 0 &&& 0xD3#8 = 0x90#8

/-- The destination is a group address. -/
def GroupDest (f : List Byte) : Prop := at' f 5 &&& 0x80#8 ≠ 0#8

/-- The frame is meant for a device with the given individual address and group addresses. -/
def AddressedTo (own : Word) (known : Word → Bool) (f : List Byte) : Prop :=
  (GroupDest f ∧ (destOf f = 0#16 ∨ known (destOf f) = true)) ∨
  (¬ GroupDest f ∧ destOf f = own)

/-- `g` is a repetition of `f`: its repeat flag (bit 5, 0 means repeated) is 0 and everything else
apart from the check octet is the same. -/
def RepetitionOf (f g : List Byte) : Prop :=
  g.length = f.length ∧ at' g 0 = at' f 0 &&& 0xDF#8 ∧
  ∀ j, 0 < j → j + 1 < f.length → at' g j = at' f j

/-- `g` is a new message after the last delivered one: its repeat flag (bit 5) says that it is not
repeated, or it differs from the last delivered telegram in the rest of the control byte or in a byte
between the control byte and the check octet. -/
def NewMessage (last : Option (List Byte)) (g : List Byte) : Prop :=
  at' g 0 &&& 0x20#8 ≠ 0#8 ∨
  ∀ f, last = some f →
    (0 < f.length ∧ at' g 0 &&& 0xDF#8 ≠ at' f 0 &&& 0xDF#8) ∨
    ∃ j, 0 < j ∧ j + 1 < g.length ∧ j < f.length ∧ at' g j ≠ at' f j

/-- The log entries of a sequence of received characters (byte, parity correct). -/
def rxChars (cs : List (Byte × Bool)) : List Out := cs.map fun c => Out.rxChar c.1 c.2

/-- Number of one bits of a byte. -/
def ones (b : Byte) : Nat := (List.range 8).countP fun k => b.getLsbD k

/-- The even parity bit of a byte. -/
def parityBit (b : Byte) : Bool := ones b % 2 == 1

/-- The log entries of a transmitted sequence of bytes, each with its even parity bit. -/
def txChars (f : List Byte) : List Out := f.map fun c => Out.txChar c (parityBit c)

/-- The frame of a telegram buffer: header, data and check octet. -/
def frameOf (t : Buf) : List Byte := bytes t (telegramSize t + 1)

/-- The frame with the repeat flag cleared and the check octet corrected. -/
def repeated (f : List Byte) : List Byte :=
  if at' f 0 &&& 0x20#8 = 0#8 then f
  else (f.set 0 (at' f 0 &&& 0xDF#8)).set (f.length - 1) (at' f (f.length - 1) ^^^ 0x20#8)

/-- The last telegram handed to the upper layer. -/
def lastDelivered : List Out → Option (List Byte)
  | [] => none
  | o :: os =>
    match lastDelivered os with
    | some f => some f
    | none => match o with
      | .deliver f => some f
      | _ => none

/-- Number of log entries `o`. -/
def count (o : Out) (log : List Out) : Nat := log.countP (· == o)

/-- Number of completion reports. -/
def completions (log : List Out) : Nat :=
  log.countP fun o => match o with
    | .finished _ => true
    | _ => false

/-- Number of telegrams accepted for sending by a run: calls of `sendTelegram` that got past the
waiting loop. -/
def accepted : Sys → List Ev → Nat
  | _, [] => 0
  | s, e :: es =>
    (match e with
     | .queue _ _ _ => if s.bus.sendCur.isNone then 1 else 0
     | _ => 0) + accepted (step s e).1 es

/-! ## Characters on the line -/

/-- The nine bits of a character that follow the start bit: eight data bits, least significant bit
first, and a parity bit. -/
def charBits (b : Byte) (p : Bool) : List Bool := (List.range 8).map (b.getLsbD ·) ++ [p]

/-- Numbers of the bit positions (1 to 9 after the start bit) of a character that are zero.  A zero
is a short pulse on the line, a one is no pulse. -/
def zeroSlots (b : Byte) (p : Bool) : List Nat :=
  ((charBits b p).zipIdx.filter fun x => !x.1).map fun x => x.2 + 1

/-- The receiver captured the falling edges of exactly the given bit positions, each at most 35 µs
too early and less than 69 µs too late relative to the start bit. -/
def Captured : List Nat → List Irq → Prop
  | [], es => es = []
  | _ :: _, [] => False
  | n :: ns, e :: es =>
    (e.cap = true ∧ e.tmo = false ∧ e.spike = false ∧ 104 * n ≤ e.capVal + 35 ∧
      e.capVal < 104 * n + 69) ∧ Captured ns es

/-- The interrupts of one received character: start bit, zero bits, end of the stop bit. -/
structure CharIrqs where
  start : Irq
  edges : List Irq
  fin : Irq

/-- The interrupts as events. -/
def CharIrqs.events (c : CharIrqs) : List Ev :=
  .irq c.start :: (c.edges.map .irq ++ [.irq c.fin])

/-- They are those of the byte `b` with parity bit `p`. -/
def CharIrqs.Of (c : CharIrqs) (b : Byte) (p : Bool) : Prop :=
  c.start.cap = true ∧ c.start.spike = false ∧ Captured (zeroSlots b p) c.edges ∧
  c.fin.tmo = true ∧ c.fin.spike = false

end Verif.Bus
