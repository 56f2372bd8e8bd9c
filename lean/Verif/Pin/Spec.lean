import Verif.Pin.Model

/-!
# Specification of the pins (LPC1115/LPC11xx manual, chapter I/O configuration)
-/

namespace Verif.Pin.Spec

open Verif

/-- The functions a pin can have. -/
inductive Fn where
  | none | pio | ad | reset | swdio | swclk | mat | cap | clkout | sda | scl | ssel | miso | mosi | sck | rxd | txd | rts | dtr | dsr | cts | dcd | ri
  deriving DecidableEq, Repr

/-- All functions. -/
def fns : List Fn := [.none, .pio, .ad, .reset, .swdio, .swclk, .mat, .cap, .clkout, .sda, .scl, .ssel, .miso, .mosi, .sck, .rxd, .txd, .rts, .dtr, .dsr, .cts, .dcd, .ri]

/-- The number of a function in the interface (`PF_…`). -/
def Fn.code : Fn → Nat
  | .none => 0
  | .pio => 1
  | .ad => 2
  | .reset => 3
  | .swdio => 4
  | .swclk => 5
  | .mat => 6
  | .cap => 7
  | .clkout => 8
  | .sda => 9
  | .scl => 10
  | .ssel => 11
  | .miso => 12
  | .mosi => 13
  | .sck => 14
  | .rxd => 15
  | .txd => 16
  | .rts => 17
  | .dtr => 18
  | .dsr => 19
  | .cts => 20
  | .dcd => 21
  | .ri => 22

/-- The 42 pins. -/
def pins : List (Nat × Nat) :=
  [0, 1, 2, 3].flatMap fun p => (List.range (if p = 3 then 6 else 12)).map fun n => (p, n)

/-- The functions of a pin in the order of their numbers in the field FUNC of the pin's register (bits 2:0). -/
def functions : Nat → Nat → List Fn
  | 0, 0 => [.reset, .pio]
  | 0, 1 => [.pio, .clkout, .mat]
  | 0, 2 => [.pio, .ssel, .cap]
  | 0, 3 => [.pio]
  | 0, 4 => [.pio, .scl]
  | 0, 5 => [.pio, .sda]
  | 0, 6 => [.pio, .none, .sck]
  | 0, 7 => [.pio, .cts]
  | 0, 8 => [.pio, .miso, .mat]
  | 0, 9 => [.pio, .mosi, .mat]
  | 0, 10 => [.swclk, .pio, .sck, .mat]
  | 0, 11 => [.none, .pio, .ad, .mat]
  | 1, 0 => [.none, .pio, .ad, .cap]
  | 1, 1 => [.none, .pio, .ad, .mat]
  | 1, 2 => [.none, .pio, .ad, .mat]
  | 1, 3 => [.swdio, .pio, .ad, .mat]
  | 1, 4 => [.pio, .ad, .mat]
  | 1, 5 => [.pio, .rts, .cap]
  | 1, 6 => [.pio, .rxd, .mat]
  | 1, 7 => [.pio, .txd, .mat]
  | 1, 8 => [.pio, .cap]
  | 1, 9 => [.pio, .mat, .mosi]
  | 1, 10 => [.pio, .ad, .mat, .miso]
  | 1, 11 => [.pio, .ad, .cap]
  | 2, 0 => [.pio, .dtr, .ssel]
  | 2, 1 => [.pio, .dsr, .sck]
  | 2, 2 => [.pio, .dcd, .miso]
  | 2, 3 => [.pio, .ri, .mosi]
  | 2, 4 => [.pio, .mat, .ssel]
  | 2, 5 => [.pio, .mat]
  | 2, 6 => [.pio, .mat]
  | 2, 7 => [.pio, .mat, .rxd]
  | 2, 8 => [.pio, .mat, .txd]
  | 2, 9 => [.pio, .cap]
  | 2, 10 => [.pio]
  | 2, 11 => [.pio, .sck, .cap]
  | 3, 0 => [.pio, .dtr, .mat, .txd]
  | 3, 1 => [.pio, .dsr, .mat, .rxd]
  | 3, 2 => [.pio, .dcd, .mat, .sck]
  | 3, 3 => [.pio, .ri, .cap]
  | 3, 4 => [.pio, .cap, .rxd]
  | 3, 5 => [.pio, .cap, .txd]
  | _, _ => []

/-- The number of a function at a pin. -/
def number (p n : Nat) (f : Fn) : Option Nat := if f = .none then Option.none else (functions p n).idxOf? f

/-- Pins that can be analog inputs have a bit ADMODE (bit 7) that must be set for digital use. -/
def analog (p n : Nat) : Bool := (functions p n).contains .ad

/-- Functions several pins can have: the register that says where it is, and its value for this pin. -/
def location : Fn → Nat → Nat → Option (Loc × Nat)
  | .cap, 0, 2 => some (.ct16b0cap0, 0) | .cap, 3, 3 => some (.ct16b0cap0, 1)
  | .cap, 1, 5 => some (.ct32b0cap0, 0) | .cap, 2, 9 => some (.ct32b0cap0, 1)
  | .rxd, 1, 6 => some (.rxd, 0) | .rxd, 2, 7 => some (.rxd, 1) | .rxd, 3, 1 => some (.rxd, 2) | .rxd, 3, 4 => some (.rxd, 3)
  | .miso, 2, 2 => some (.miso1, 0) | .miso, 1, 10 => some (.miso1, 1)
  | .mosi, 2, 3 => some (.mosi1, 0) | .mosi, 1, 9 => some (.mosi1, 1)
  | .sck, 0, 10 => some (.sck, 0) | .sck, 2, 11 => some (.sck, 1) | .sck, 0, 6 => some (.sck, 2)
  | .sck, 2, 1 => some (.sck1, 0) | .sck, 3, 2 => some (.sck1, 1)
  | .ssel, 2, 0 => some (.ssel1, 0) | .ssel, 2, 4 => some (.ssel1, 1)
  | .dsr, 2, 1 => some (.dsr, 0) | .dsr, 3, 1 => some (.dsr, 1)
  | .dcd, 2, 2 => some (.dcd, 0) | .dcd, 3, 2 => some (.dcd, 1)
  | .ri, 2, 3 => some (.ri, 0) | .ri, 3, 3 => some (.ri, 1)
  | _, _, _ => none

/-- What can be asked for: plain input and output with any function (`none`: the general purpose function), or a timer's or the converter's input or output. -/
inductive Use where
  | input (f : Fn) | output (f : Fn) | capture (f : Fn) | analog (f : Fn) | matched (f : Fn)

/-- The bits 15:12 of the mode. -/
def Use.type : Use → U32
  | .input _ => INPUT | .output _ => OUTPUT | .capture _ => INPUT_CAPTURE | .analog _ => INPUT_ANALOG | .matched _ => OUTPUT_MATCH

/-- The function given in the mode with `PINMODE_FUNC`. -/
def Use.given : Use → Fn
  | .input f => f | .output f => f | .capture f => f | .analog f => f | .matched f => f

/-- The function wanted: `INPUT_CAPTURE`, `INPUT_ANALOG` and `OUTPUT_MATCH` say it themselves. -/
def Use.wanted : Use → Fn
  | .input f => if f = .none then .pio else f
  | .output f => if f = .none then .pio else f
  | .capture _ => .cap
  | .analog _ => .ad
  | .matched _ => .mat

def Use.isOutput : Use → Bool
  | .output _ => true | .matched _ => true | _ => false

/-- The argument `mode`: use, function, and options (pull-up and pull-down bits 4 and 3, hysteresis bit 5, open drain bit 10). -/
def Use.mode (u : Use) (opts : U32) : U32 := u.type ||| opts &&& 0x438#32 ||| BitVec.ofNat 32 u.given.code <<< 18

/-- The constant for a pin in the interface. -/
def constant : Nat → Nat → U32
  | 0, 0 => PIO0_0
  | 0, 1 => PIO0_1
  | 0, 2 => PIO0_2
  | 0, 3 => PIO0_3
  | 0, 4 => PIO0_4
  | 0, 5 => PIO0_5
  | 0, 6 => PIO0_6
  | 0, 7 => PIO0_7
  | 0, 8 => PIO0_8
  | 0, 9 => PIO0_9
  | 0, 10 => PIO0_10
  | 0, 11 => PIO0_11
  | 1, 0 => PIO1_0
  | 1, 1 => PIO1_1
  | 1, 2 => PIO1_2
  | 1, 3 => PIO1_3
  | 1, 4 => PIO1_4
  | 1, 5 => PIO1_5
  | 1, 6 => PIO1_6
  | 1, 7 => PIO1_7
  | 1, 8 => PIO1_8
  | 1, 9 => PIO1_9
  | 1, 10 => PIO1_10
  | 1, 11 => PIO1_11
  | 2, 0 => PIO2_0
  | 2, 1 => PIO2_1
  | 2, 2 => PIO2_2
  | 2, 3 => PIO2_3
  | 2, 4 => PIO2_4
  | 2, 5 => PIO2_5
  | 2, 6 => PIO2_6
  | 2, 7 => PIO2_7
  | 2, 8 => PIO2_8
  | 2, 9 => PIO2_9
  | 2, 10 => PIO2_10
  | 2, 11 => PIO2_11
  | 3, 0 => PIO3_0
  | 3, 1 => PIO3_1
  | 3, 2 => PIO3_2
  | 3, 3 => PIO3_3
  | 3, 4 => PIO3_4
  | 3, 5 => PIO3_5
  | _, _ => 0#32

/-- A register of the I/O configuration. -/
def reg (s : State) (r : Reg) : U32 := s.iocon (offsetOf r)

/-- The addresses of the registers, relative to the start of the block: the numbers in the manual (and in the comments of LPC11xx.h:208-265). -/
def address : Reg → Option Nat
  | .pio 2 6 => some 0x000
  | .pio 2 0 => some 0x008
  | .pio 0 0 => some 0x00c
  | .pio 0 1 => some 0x010
  | .pio 1 8 => some 0x014
  | .loc .ssel1 => some 0x018
  | .pio 0 2 => some 0x01c
  | .pio 2 7 => some 0x020
  | .pio 2 8 => some 0x024
  | .pio 2 1 => some 0x028
  | .pio 0 3 => some 0x02c
  | .pio 0 4 => some 0x030
  | .pio 0 5 => some 0x034
  | .pio 1 9 => some 0x038
  | .pio 3 4 => some 0x03c
  | .pio 2 4 => some 0x040
  | .pio 2 5 => some 0x044
  | .pio 3 5 => some 0x048
  | .pio 0 6 => some 0x04c
  | .pio 0 7 => some 0x050
  | .pio 2 9 => some 0x054
  | .pio 2 10 => some 0x058
  | .pio 2 2 => some 0x05c
  | .pio 0 8 => some 0x060
  | .pio 0 9 => some 0x064
  | .pio 0 10 => some 0x068
  | .pio 1 10 => some 0x06c
  | .pio 2 11 => some 0x070
  | .pio 0 11 => some 0x074
  | .pio 1 0 => some 0x078
  | .pio 1 1 => some 0x07c
  | .pio 1 2 => some 0x080
  | .pio 3 0 => some 0x084
  | .pio 3 1 => some 0x088
  | .pio 2 3 => some 0x08c
  | .pio 1 3 => some 0x090
  | .pio 1 4 => some 0x094
  | .pio 1 11 => some 0x098
  | .pio 3 2 => some 0x09c
  | .pio 1 5 => some 0x0a0
  | .pio 1 6 => some 0x0a4
  | .pio 1 7 => some 0x0a8
  | .pio 3 3 => some 0x0ac
  | .loc .sck => some 0x0b0
  | .loc .dsr => some 0x0b4
  | .loc .dcd => some 0x0b8
  | .loc .ri => some 0x0bc
  | .loc .ct16b0cap0 => some 0x0c0
  | .loc .sck1 => some 0x0c4
  | .loc .miso1 => some 0x0c8
  | .loc .mosi1 => some 0x0cc
  | .loc .ct32b0cap0 => some 0x0d0
  | .loc .rxd => some 0x0d4
  | _ => none

end Verif.Pin.Spec
