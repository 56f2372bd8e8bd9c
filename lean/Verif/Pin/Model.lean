import Verif.Base

/-!
# Pins: configuration, direction, interrupts, reading and writing

Modelled: ioports.h, ioports.cpp, platform.cpp (table of the IOCON registers), lpc11xx/digital_pin.cpp, lpc11xx/digital_pin_port.cpp and the inline functions
of digital_pin.h.

Simplifications: a pin is its constant of `enum PortPin` (positive, so shifting an `int` is shifting an unsigned number);
`fatalError` (the device stops) is `none`; the functions run without being interrupted.
-/

namespace Verif.Pin

open Verif

/-! ## Constants -/

/-! `enum PinFunc`, ioports.h:35-43 (the functions used by some pin). -/

abbrev PF_NONE : Nat := 0
abbrev PF_PIO : Nat := 1
abbrev PF_AD : Nat := 2
abbrev PF_RESET : Nat := 3
abbrev PF_SWDIO : Nat := 4
abbrev PF_SWCLK : Nat := 5
abbrev PF_MAT : Nat := 6
abbrev PF_CAP : Nat := 7
abbrev PF_CLKOUT : Nat := 8
abbrev PF_SDA : Nat := 9
abbrev PF_SCL : Nat := 10
abbrev PF_SSEL : Nat := 11
abbrev PF_MISO : Nat := 12
abbrev PF_MOSI : Nat := 13
abbrev PF_SCK : Nat := 14
abbrev PF_RXD : Nat := 15
abbrev PF_TXD : Nat := 16
abbrev PF_RTS : Nat := 17
abbrev PF_DTR : Nat := 18
abbrev PF_DSR : Nat := 19
abbrev PF_CTS : Nat := 20
abbrev PF_DCD : Nat := 21
abbrev PF_RI : Nat := 22

/-! `FUNC0` to `FUNC3`, ioports.h:57-73. -/

def FUNC0 (f : Nat) : U32 := BitVec.ofNat 32 f <<< 9
def FUNC1 (f : Nat) : U32 := BitVec.ofNat 32 f <<< 14
def FUNC2 (f : Nat) : U32 := BitVec.ofNat 32 f <<< 19
def FUNC3 (f : Nat) : U32 := BitVec.ofNat 32 f <<< 24

/-- ioports.h:59. -/
def PFL_ADMODE : U32 := 0x100#32

/-! `enum PortPin`, ioports.h:90-220. -/

def PIO0_0 : U32 := 0x00#32 ||| FUNC0 PF_RESET ||| FUNC1 PF_PIO
def PIO0_1 : U32 := 0x01#32 ||| FUNC0 PF_PIO ||| FUNC1 PF_CLKOUT ||| FUNC2 PF_MAT
def PIO0_2 : U32 := 0x02#32 ||| FUNC0 PF_PIO ||| FUNC1 PF_SSEL ||| FUNC2 PF_CAP
def PIO0_3 : U32 := 0x03#32 ||| FUNC0 PF_PIO
def PIO0_4 : U32 := 0x04#32 ||| FUNC0 PF_PIO ||| FUNC1 PF_SCL
def PIO0_5 : U32 := 0x05#32 ||| FUNC0 PF_PIO ||| FUNC1 PF_SDA
def PIO0_6 : U32 := 0x06#32 ||| FUNC0 PF_PIO ||| FUNC1 PF_NONE ||| FUNC2 PF_SCK
def PIO0_7 : U32 := 0x07#32 ||| FUNC0 PF_PIO ||| FUNC1 PF_CTS
def PIO0_8 : U32 := 0x08#32 ||| FUNC0 PF_PIO ||| FUNC1 PF_MISO ||| FUNC2 PF_MAT
def PIO0_9 : U32 := 0x09#32 ||| FUNC0 PF_PIO ||| FUNC1 PF_MOSI ||| FUNC2 PF_MAT
def PIO0_10 : U32 := 0x0a#32 ||| FUNC0 PF_SWCLK ||| FUNC1 PF_PIO ||| FUNC2 PF_SCK ||| FUNC3 PF_MAT
def PIO0_11 : U32 := 0x0b#32 ||| FUNC0 PF_NONE ||| FUNC1 PF_PIO ||| FUNC2 PF_AD ||| FUNC3 PF_MAT ||| PFL_ADMODE
def PIO1_0 : U32 := 0x20#32 ||| FUNC0 PF_NONE ||| FUNC1 PF_PIO ||| FUNC2 PF_AD ||| FUNC3 PF_CAP ||| PFL_ADMODE
def PIO1_1 : U32 := 0x21#32 ||| FUNC0 PF_NONE ||| FUNC1 PF_PIO ||| FUNC2 PF_AD ||| FUNC3 PF_MAT ||| PFL_ADMODE
def PIO1_2 : U32 := 0x22#32 ||| FUNC0 PF_NONE ||| FUNC1 PF_PIO ||| FUNC2 PF_AD ||| FUNC3 PF_MAT ||| PFL_ADMODE
def PIO1_3 : U32 := 0x23#32 ||| FUNC0 PF_SWDIO ||| FUNC1 PF_PIO ||| FUNC2 PF_AD ||| FUNC3 PF_MAT ||| PFL_ADMODE
def PIO1_4 : U32 := 0x24#32 ||| FUNC0 PF_PIO ||| FUNC1 PF_AD ||| FUNC2 PF_MAT ||| PFL_ADMODE
def PIO1_5 : U32 := 0x25#32 ||| FUNC0 PF_PIO ||| FUNC1 PF_RTS ||| FUNC2 PF_CAP
def PIO1_6 : U32 := 0x26#32 ||| FUNC0 PF_PIO ||| FUNC1 PF_RXD ||| FUNC2 PF_MAT
def PIO1_7 : U32 := 0x27#32 ||| FUNC0 PF_PIO ||| FUNC1 PF_TXD ||| FUNC2 PF_MAT
def PIO1_8 : U32 := 0x28#32 ||| FUNC0 PF_PIO ||| FUNC1 PF_CAP
def PIO1_9 : U32 := 0x29#32 ||| FUNC0 PF_PIO ||| FUNC1 PF_MAT ||| FUNC2 PF_MOSI
def PIO1_10 : U32 := 0x2a#32 ||| FUNC0 PF_PIO ||| FUNC1 PF_AD ||| FUNC2 PF_MAT ||| FUNC3 PF_MISO ||| PFL_ADMODE
def PIO1_11 : U32 := 0x2b#32 ||| FUNC0 PF_PIO ||| FUNC1 PF_AD ||| FUNC2 PF_CAP ||| PFL_ADMODE
def PIO2_0 : U32 := 0x40#32 ||| FUNC0 PF_PIO ||| FUNC1 PF_DTR ||| FUNC2 PF_SSEL
def PIO2_1 : U32 := 0x41#32 ||| FUNC0 PF_PIO ||| FUNC1 PF_DSR ||| FUNC2 PF_SCK
def PIO2_2 : U32 := 0x42#32 ||| FUNC0 PF_PIO ||| FUNC1 PF_DCD ||| FUNC2 PF_MISO
def PIO2_3 : U32 := 0x43#32 ||| FUNC0 PF_PIO ||| FUNC1 PF_RI ||| FUNC2 PF_MOSI
def PIO2_4 : U32 := 0x44#32 ||| FUNC0 PF_PIO ||| FUNC1 PF_MAT ||| FUNC2 PF_SSEL
def PIO2_5 : U32 := 0x45#32 ||| FUNC0 PF_PIO ||| FUNC1 PF_MAT
def PIO2_6 : U32 := 0x46#32 ||| FUNC0 PF_PIO ||| FUNC1 PF_MAT
def PIO2_7 : U32 := 0x47#32 ||| FUNC0 PF_PIO ||| FUNC1 PF_MAT ||| FUNC2 PF_RXD
def PIO2_8 : U32 := 0x48#32 ||| FUNC0 PF_PIO ||| FUNC1 PF_MAT ||| FUNC2 PF_TXD
def PIO2_9 : U32 := 0x49#32 ||| FUNC0 PF_PIO ||| FUNC1 PF_CAP
def PIO2_10 : U32 := 0x4a#32 ||| FUNC0 PF_PIO
def PIO2_11 : U32 := 0x4b#32 ||| FUNC0 PF_PIO ||| FUNC1 PF_SCK ||| FUNC2 PF_CAP
def PIO3_0 : U32 := 0x60#32 ||| FUNC0 PF_PIO ||| FUNC1 PF_DTR ||| FUNC2 PF_MAT ||| FUNC3 PF_TXD
def PIO3_1 : U32 := 0x61#32 ||| FUNC0 PF_PIO ||| FUNC1 PF_DSR ||| FUNC2 PF_MAT ||| FUNC3 PF_RXD
def PIO3_2 : U32 := 0x62#32 ||| FUNC0 PF_PIO ||| FUNC1 PF_DCD ||| FUNC2 PF_MAT ||| FUNC3 PF_SCK
def PIO3_3 : U32 := 0x63#32 ||| FUNC0 PF_PIO ||| FUNC1 PF_RI ||| FUNC2 PF_CAP
def PIO3_4 : U32 := 0x64#32 ||| FUNC0 PF_PIO ||| FUNC1 PF_CAP ||| FUNC2 PF_RXD
def PIO3_5 : U32 := 0x65#32 ||| FUNC0 PF_PIO ||| FUNC1 PF_CAP ||| FUNC2 PF_TXD

/-- The registers with the place of an input or output of a peripheral that several pins can have. -/
inductive Loc where
  | ssel1 | sck | dsr | dcd | ri | ct16b0cap0 | sck1 | miso1 | mosi1 | ct32b0cap0 | rxd
  deriving DecidableEq, Repr

/-- The registers of the IOCON block by name. -/
inductive Reg where
  | pio (port num : Nat)
  | loc (l : Loc)
  | reserved
  deriving DecidableEq, Repr

/-- `LPC_IOCON_TypeDef`, LPC11xx.h:206-267 (of the test emulation; the same as the vendor's header, which is not in the repository): the registers in
the order of their addresses, 4 bytes each. -/
def layout : List Reg :=
  [.pio 2 6, .reserved, .pio 2 0, .pio 0 0, .pio 0 1, .pio 1 8, .loc .ssel1, .pio 0 2,
   .pio 2 7, .pio 2 8, .pio 2 1, .pio 0 3, .pio 0 4, .pio 0 5, .pio 1 9, .pio 3 4,
   .pio 2 4, .pio 2 5, .pio 3 5, .pio 0 6, .pio 0 7, .pio 2 9, .pio 2 10, .pio 2 2,
   .pio 0 8, .pio 0 9, .pio 0 10, .pio 1 10, .pio 2 11, .pio 0 11, .pio 1 0, .pio 1 1,
   .pio 1 2, .pio 3 0, .pio 3 1, .pio 2 3, .pio 1 3, .pio 1 4, .pio 1 11, .pio 3 2,
   .pio 1 5, .pio 1 6, .pio 1 7, .pio 3 3, .loc .sck, .loc .dsr, .loc .dcd, .loc .ri,
   .loc .ct16b0cap0, .loc .sck1, .loc .miso1, .loc .mosi1, .loc .ct32b0cap0, .loc .rxd]

/-- `OFFSET_OF_IOCON`, platform.cpp:18-19. -/
def offsetOf (r : Reg) : Nat := layout.idxOf r

/-- `ioconOffsets`, platform.cpp:22-75; entries not given are 0. -/
def ioconOffsets : List (List Nat) :=
  [[offsetOf (.pio 0 0), offsetOf (.pio 0 1), offsetOf (.pio 0 2), offsetOf (.pio 0 3), offsetOf (.pio 0 4), offsetOf (.pio 0 5), offsetOf (.pio 0 6), offsetOf (.pio 0 7), offsetOf (.pio 0 8), offsetOf (.pio 0 9), offsetOf (.pio 0 10), offsetOf (.pio 0 11)],
   [offsetOf (.pio 1 0), offsetOf (.pio 1 1), offsetOf (.pio 1 2), offsetOf (.pio 1 3), offsetOf (.pio 1 4), offsetOf (.pio 1 5), offsetOf (.pio 1 6), offsetOf (.pio 1 7), offsetOf (.pio 1 8), offsetOf (.pio 1 9), offsetOf (.pio 1 10), offsetOf (.pio 1 11)],
   [offsetOf (.pio 2 0), offsetOf (.pio 2 1), offsetOf (.pio 2 2), offsetOf (.pio 2 3), offsetOf (.pio 2 4), offsetOf (.pio 2 5), offsetOf (.pio 2 6), offsetOf (.pio 2 7), offsetOf (.pio 2 8), offsetOf (.pio 2 9), offsetOf (.pio 2 10), offsetOf (.pio 2 11)],
   [offsetOf (.pio 3 0), offsetOf (.pio 3 1), offsetOf (.pio 3 2), offsetOf (.pio 3 3), offsetOf (.pio 3 4), offsetOf (.pio 3 5), 0, 0, 0, 0, 0, 0]]

/-! ## State -/

/-- The registers of one GPIO port. -/
structure Port where
  dir : U32
  is : U32
  ibe : U32
  iev : U32
  ie : U32
  data : U32

structure State where
  port : Nat → Port
  /-- Words of the IOCON block. -/
  iocon : Nat → U32

def setPort (s : State) (p : Nat) (f : Port → Port) : State :=
  { s with port := fun q => if q = p then f (s.port p) else s.port q }

def setIocon (s : State) (o : Nat) (v : U32) : State := { s with iocon := fun q => if q = o then v else s.iocon q }

/-- A write to one of the location registers. -/
def setLoc (s : State) : Option (Loc × U32) → State
  | none => s
  | some (l, v) => setIocon s (offsetOf (.loc l)) v

/-- `digitalPinToPort`, digital_pin.h:150. -/
def digitalPinToPort (pin : U32) : Nat := (pin >>> 5 &&& 3#32).toNat

/-- `digitalPinToPinNum`, digital_pin.h:158. -/
def digitalPinToPinNum (pin : U32) : Nat := (pin &&& 31#32).toNat

/-- `digitalPinToBitMask`, digital_pin.h:166. -/
def digitalPinToBitMask (pin : U32) : U32 := 1#32 <<< (pin &&& 31#32).toNat

/-- `ioconPointer(pin)`, platform.cpp:77-81: the index of the word. -/
def ioconPointer (pin : U32) : Nat := (ioconOffsets.getD (digitalPinToPort pin) []).getD (digitalPinToPinNum pin) 0

/-- `ioconPointer(port, pinNum)`, platform.cpp:83-87: the index of the word; only called with `pinNum` below 12 here (a pin number above reads the next
row of the table in C++). -/
def ioconPointer2 (port pinNum : Nat) : Nat := (ioconOffsets.getD port []).getD pinNum 0

/-- `getPinFunctionNumber`, ioports.cpp:19-32. -/
def getPinFunctionNumber (pin : U32) (func : Nat) : Option Nat :=
  let rec go : Nat → U32 → Nat → Option Nat
    | 0, _, _ => none
    | n + 1, pin, k => if (pin &&& 31#32).toNat = func then some k else go n (pin >>> 5) (k + 1)
  go 4 (pin >>> 9) 0

/-- `pinLocation`, digital_pin.cpp:21-31. -/
def pinLocation (pin : U32) : List U32 → Nat → Option Nat
  | [], _ => none
  | a :: l, idx => if a = pin then some idx else pinLocation pin l (idx + 1)

/-- `rxPinLocation`, digital_pin.cpp:17. -/
def rxPinLocation : List U32 := [PIO1_6, PIO2_7, PIO3_1, PIO3_4]

/-- The place of the capture input, digital_pin.cpp:58-66. -/
def captureLoc (pin : U32) : Option (Loc × U32) :=
  if pin = PIO0_2 then some (.ct16b0cap0, 0#32)
  else if pin = PIO3_3 then some (.ct16b0cap0, 1#32)
  else if pin = PIO1_5 then some (.ct32b0cap0, 0#32)
  else if pin = PIO2_9 then some (.ct32b0cap0, 1#32)
  else none

/-- The places of the SPI pins, digital_pin.cpp:79-116. -/
def spiLoc (pin : U32) (func : Nat) : Option (Loc × U32) :=
  if func = PF_MISO then
    if pin = PIO2_2 then some (.miso1, 0#32) else if pin = PIO1_10 then some (.miso1, 1#32) else none
  else if func = PF_MOSI then
    if pin = PIO2_3 then some (.mosi1, 0#32) else if pin = PIO1_9 then some (.mosi1, 1#32) else none
  else if func = PF_SCK then
    if pin = PIO0_10 then some (.sck, 0#32)
    else if pin = PIO2_11 then some (.sck, 1#32)
    else if pin = PIO0_6 then some (.sck, 2#32)
    else if pin = PIO2_1 then some (.sck1, 0#32)
    else if pin = PIO3_2 then some (.sck1, 1#32)
    else none
  else if func = PF_SSEL then
    if pin = PIO2_2 then some (.ssel1, 0#32) else if pin = PIO2_4 then some (.ssel1, 1#32) else none
  else none

/-! `enum PinMode`, digital_pin.h:172-299. -/

abbrev INPUT : U32 := 0x1000#32
abbrev INPUT_CAPTURE : U32 := 0x2000#32
abbrev INPUT_ANALOG : U32 := 0x3000#32
abbrev OUTPUT : U32 := 0x6000#32
abbrev OUTPUT_MATCH : U32 := 0x7000#32

/-- The function and the writes to location registers for the input modes, digital_pin.cpp:50-77. -/
def inputFunc (pin type : U32) (func : Nat) : Option (Nat × Option (Loc × U32)) :=
  if type = INPUT_CAPTURE then some (PF_CAP, captureLoc pin)
  else if type = INPUT_ANALOG then some (PF_AD, none)
  else if func = PF_RXD then
    match pinLocation pin rxPinLocation 0 with
    | some i => some (func, some (.rxd, BitVec.ofNat 32 i))
    | none => none
  else some (func, none)

/-- The last part of `pinMode`, digital_pin.cpp:79-128: places of the SPI pins, number of the function, the register of the pin. -/
def pinFunc (s : State) (pin iocon : U32) (func : Nat) : Option State :=
  let s := setLoc s (spiLoc pin func)
  let iocon := if pin &&& PFL_ADMODE ≠ 0#32 ∧ func ≠ PF_AD then iocon ||| 0x80#32 else iocon
  if func ≠ 0 then
    (getPinFunctionNumber pin func).map fun n => setIocon s (ioconPointer pin) (iocon ||| BitVec.ofNat 32 n)
  else some (setIocon s (ioconPointer pin) iocon)

/-- `pinMode`, digital_pin.cpp:33-129. -/
def pinMode (s : State) (pin mode : U32) : Option State :=
  let port := digitalPinToPort pin
  let mask := digitalPinToBitMask pin
  let type := mode &&& 0xf000#32
  let iocon := mode &&& 0xfff#32
  let func := (mode >>> 18 &&& 31#32).toNat
  let func := if func = 0 then PF_PIO else func
  if type = OUTPUT ∨ type = OUTPUT_MATCH then
    pinFunc (setPort s port fun p => { p with dir := p.dir ||| mask }) pin iocon (if type = OUTPUT_MATCH then PF_MAT else func)
  else
    (inputFunc pin type func).bind fun x =>
      pinFunc (setLoc (setPort s port fun p => { p with dir := p.dir &&& ~~~mask }) x.2) pin iocon x.1

/-- `pinDirection`, digital_pin.cpp:131-139. -/
def pinDirection (s : State) (pin dir : U32) : State :=
  let mask := digitalPinToBitMask pin
  setPort s (digitalPinToPort pin) fun p => { p with dir := if dir = OUTPUT then p.dir ||| mask else p.dir &&& ~~~mask }

/-- One line of `pinInterruptMode`. -/
def setOrClear (c : Prop) [Decidable c] (v mask : U32) : U32 := if c then v ||| mask else v &&& ~~~mask

/-- `pinInterruptMode`, digital_pin.cpp:141-164. -/
def pinInterruptMode (s : State) (pin mode : U32) : Option State :=
  (pinMode s pin INPUT).map fun s =>
    let mask := digitalPinToBitMask pin
    setPort s (digitalPinToPort pin) fun p =>
      { p with
        is := setOrClear (mode &&& 0x100#32 ≠ 0#32) p.is mask
        ibe := setOrClear (mode &&& 0x10#32 ≠ 0#32) p.ibe mask
        iev := setOrClear (mode &&& 1#32 ≠ 0#32) p.iev mask
        ie := setOrClear (mode &&& 0x1000#32 ≠ 0#32) p.ie mask }

/-- `pinEnableInterrupt`, digital_pin.h:349-355. -/
def pinEnableInterrupt (s : State) (pin : U32) : State :=
  setPort s (digitalPinToPort pin) fun p => { p with ie := p.ie ||| digitalPinToBitMask pin }

/-- `pinDisableInterrupt`, digital_pin.h:357-364. -/
def pinDisableInterrupt (s : State) (pin : U32) : State :=
  setPort s (digitalPinToPort pin) fun p => { p with ie := p.ie &&& ~~~digitalPinToBitMask pin }

/-- A write to MASKED_ACCESS[mask] changes the pins of `mask` (LPC11xx manual). -/
def digitalWrite (s : State) (pin : U32) (value : Bool) : State :=
  -- digital_pin.h:338-342
  let mask := digitalPinToBitMask pin
  setPort s (digitalPinToPort pin) fun p => { p with data := p.data &&& ~~~mask ||| ((if value then mask else 0#32) &&& mask) }

/-- `digitalRead`, digital_pin.h:344-347; MASKED_ACCESS reads the pins of the mask. -/
def digitalRead (s : State) (pin : U32) : Bool :=
  decide ((s.port (digitalPinToPort pin)).data &&& digitalPinToBitMask pin ≠ 0#32)

/-- The loop of `portMode`, digital_pin_port.cpp:35-39, for a mask without bits from 12 on. -/
def portLoop (portNum : Nat) (iocon : U32) : Nat → Nat → Nat → State → State
  | 0, _, _, s => s
  | n + 1, pinNum, mask, s =>
    if mask = 0 then s
    else
      portLoop portNum iocon n (pinNum + 1) (mask / 2) (if mask % 2 = 1 then setIocon s (ioconPointer2 portNum pinNum) iocon else s)

/-- `portMode`, digital_pin_port.cpp:17-40. -/
def portMode (s : State) (portNum : Nat) (pinMask : Nat) (mode : U32) : State :=
  let type := mode &&& 0xf000#32
  let iocon := mode &&& 0xfff#32
  let m := BitVec.ofNat 32 pinMask
  let s :=
    if type = OUTPUT ∨ type = OUTPUT_MATCH then setPort s portNum fun p => { p with dir := p.dir ||| m }
    else setPort s portNum fun p => { p with dir := p.dir &&& ~~~m }
  portLoop portNum iocon 12 0 pinMask s

/-- `portDirection`, digital_pin_port.cpp:42-49. -/
def portDirection (s : State) (portNum : Nat) (pinMask dir : U32) : State :=
  setPort s portNum fun p => { p with dir := if dir = OUTPUT then p.dir ||| pinMask else p.dir &&& ~~~pinMask }

end Verif.Pin
