import Verif.Dev.Mem

/-!
# Interface objects: properties and load states

Models `propertiesBCU2.cpp`, `propertiesMASK0701.cpp`, `propertiesSYSTEMB.cpp` and
`property_types.cpp` (`sblib/src/eib`).  An access outside the memory a pointer points into, and
the use of a null pointer, set `undef`; what the processor would do then is not modelled.
-/

namespace Verif.Dev

open Verif.Knx

/-- `struct PropertyDef`, property_types.h:101-125. -/
structure PropDef where
  id : Nat
  control : Nat
  valAddr : Nat
  deriving DecidableEq, Repr

/-- `deviceObjectProps`, propertiesBCU2.h:313-352. -/
def tabDevice : List PropDef :=
  [⟨1, 0x04, 0⟩, ⟨14, 0xb1, 0x62⟩, ⟨5, 0xa0, 0x4370⟩, ⟨8, 0xa4, 0x4386⟩, ⟨9, 0x02, 0x0210⟩,
   ⟨11, 0x36, 0x438A⟩, ⟨12, 0x32, 0x4003⟩, ⟨15, 0x3a, 0x439A⟩, ⟨16, 0x22, 0x63⟩, ⟨17, 0x22, 0x400c⟩,
   ⟨78, 0xb6, 0x4390⟩]

/-- `addrTabObjectProps`, propertiesBCU2.h:358-374. -/
def tabAddr : List PropDef :=
  [⟨1, 0x04, 1⟩, ⟨5, 0xa0, 0x4371⟩, ⟨7, 0x64, 0x4378⟩, ⟨27, 0xb8, 0x43A4⟩]

/-- `assocTabObjectProps`, propertiesBCU2.h:380-399. -/
def tabAssoc : List PropDef :=
  [⟨1, 0x04, 2⟩, ⟨5, 0xa0, 0x4372⟩, ⟨7, 0x64, 0x437A⟩, ⟨23, 0x94, 0x00FF⟩, ⟨27, 0xb8, 0x43AC⟩]

/-- `appObjectProps`, propertiesBCU2.h:405-430. -/
def tabApp : List PropDef :=
  [⟨1, 0x04, 3⟩, ⟨5, 0xa0, 0x4373⟩, ⟨6, 0x22, 0x61⟩, ⟨13, 0x35, 0x4003⟩, ⟨7, 0x64, 0x437C⟩,
   ⟨27, 0xb8, 0x43B4⟩, ⟨0xcc, 0xba, 0xC8⟩]

/-- `interfaceObjectProps`, propertiesBCU2.h:432-451. -/
def tabInterface : List PropDef :=
  [⟨1, 0x04, 4⟩, ⟨5, 0xa0, 0x4374⟩, ⟨7, 0x64, 0x4382⟩, ⟨13, 0xf5, 0x43CC⟩, ⟨27, 0xb8, 0x43BC⟩]

/-- `knxAssocTabObjectProps`, propertiesBCU2.h:456-478. -/
def tabKnxAssoc : List PropDef :=
  [⟨1, 0x04, 5⟩, ⟨5, 0xa0, 0x4375⟩, ⟨7, 0x64, 0x437E⟩, ⟨13, 0xf5, 0x43D1⟩, ⟨28, 0x11, 0⟩]

/-- `propertiesTabInstance`, propertiesBCU2.h:486-494. -/
def propTab : Nat → List PropDef
  | 0 => tabDevice
  | 1 => tabAddr
  | 2 => tabAssoc
  | 3 => tabApp
  | 4 => tabInterface
  | 5 => tabKnxAssoc
  | _ => []

/-- `findProperty` (propertiesBCU2.cpp:27-46) in `propertyDef` (propertiesBCU2.cpp:56-64).  The
table ends with the identifier 0, so the identifier 0 is never found. -/
def propertyDef (obj pid : Nat) : Option PropDef := (propTab obj).find? (fun p => p.id == pid)

/-- `propertySizes`, property_types.cpp:21-30, for the 32 types of the type mask. -/
def propertySizes : List Nat :=
  [1, 1, 1, 2, 2, 2, 3, 3, 4, 4, 4, 8, 10, 3, 5, 8, 0, 1, 2, 3, 4, 5, 6, 7, 8, 9, 10, 11, 12, 13, 14,
   15]

/-- `PropertyDef::type`, property_types.h:503-506. -/
def PropDef.type (p : PropDef) : Nat := p.control % 32

/-- `PropertyDef::size`, property_types.cpp:33-37. -/
def PropDef.size (p : PropDef) : Nat := propertySizes.getD p.type 0

/-- `control & PC_WRITABLE`, property_types.h:472. -/
def PropDef.writable (p : PropDef) : Bool := p.control.testBit 7

/-- `PropertyDef::isEepromPointer`, property_types.h:508-511. -/
def PropDef.isEe (p : PropDef) : Bool := p.valAddr.testBit 14

/-- Where `PropertyDef::valuePointer` points (property_types.cpp:39-60): into the array of the RAM,
into the array of the EEPROM, or at the definition's own `valAddr`.  (No definition has another
pointer type, for which the code calls `fatalError`.) -/
inductive Area
  | ram | ee | own
  deriving DecidableEq, Repr

/-- The array, property_types.cpp:41-59. -/
def PropDef.area (p : PropDef) : Area :=
  if p.control.testBit 5 then if p.isEe then .ee else .ram else .own

/-- The offset in it, property_types.cpp:43 (`PPT_OFFSET_MASK`, property_types.h:488). -/
def PropDef.offset (p : PropDef) : Nat := if p.control.testBit 5 then p.valAddr % 4096 else 0

/-- The sizes of the arrays: userRam.cpp:25-34 (three more bytes than the address range),
userEeprom.cpp:117, `sizeof(valAddr)`. -/
def areaSize (k : Kind) : Area → Nat
  | .ram => k.ramSize + 3
  | .ee => k.eeSize
  | .own => 2

/-- The bytes of the array. -/
def areaBytes (d : Dev) (p : PropDef) : Nat → Byte :=
  match p.area with
  | .ram => d.ram
  | .ee => d.ee
  | .own => fun i => BitVec.ofNat 8 (p.valAddr / 256 ^ i)

/-- The array with new bytes. `valAddr` is constant: writing it is undefined. -/
def setArea (d : Dev) (p : PropDef) (f : Nat → Byte) : Dev :=
  match p.area with
  | .ram => { d with ram := f }
  | .ee => { d with ee := f }
  | .own => { d with undef := true }

/-- Do `n` bytes from `o` lie in an array of `size` bytes? -/
def inArray (size : Nat) (o : Int) (n : Nat) : Bool := decide (n = 0 ∨ (0 ≤ o ∧ o + n ≤ size))

/-- `reverseCopy(dst + at_, src + off, n)`, utils.cpp:21-29, for two different arrays. -/
def revBlit (dst : Nat → Byte) (at_ : Nat) (src : Nat → Byte) (off n : Nat) : Nat → Byte :=
  fun i => if at_ ≤ i ∧ i < at_ + n then src (off + (n - 1 - (i - at_))) else dst i

/-- Load states, propertiesBCU2.h:104-123. -/
def lsUnloaded : Byte := 0#8
/-- propertiesBCU2.h:104-123 -/
def lsLoaded : Byte := 1#8
/-- propertiesBCU2.h:104-123 -/
def lsLoading : Byte := 2#8
/-- propertiesBCU2.h:104-123 -/
def lsError : Byte := 3#8
/-- propertiesBCU2.h:104-123 -/
def lsLoadCompleting : Byte := 5#8

/-- `loadStateOffset`, userEepromBCU2.h:23; the same in all types derived from `BCU2`. -/
def loadStateOff : Nat := 0x370

/-- A 16 bit variable in the EEPROM (little endian). -/
def wordAt (f : Nat → Byte) (o : Nat) : Word := makeWord (f (o + 1)) (f o)

/-- Assignment to a 16 bit variable in the EEPROM. -/
def setWord (f : Nat → Byte) (o : Nat) (w : Word) : Nat → Byte :=
  upd (upd f o (lowByte w)) (o + 1) (highByte w)

/-- `addrTabAddrOffset`: userEepromBCU2.h:24, userEepromSYSTEMB.h:16. -/
def addrTabAddrOff : Kind → Nat
  | .systemb => 0x21
  | _ => 0x378

/-- `assocTabAddrOffset`: userEepromBCU2.h:25, userEepromSYSTEMB.h:17. -/
def assocTabAddrOff : Kind → Nat
  | .systemb => 0x23
  | _ => 0x37A

/-- `handleLoadStateMachine`, propertiesBCU2.cpp:78-121. -/
def loadStateMachine (data : Nat → Byte) : Byte :=
  match (data 0).toNat % 8 with
  | 1 => lsLoading
  | 2 => lsLoaded
  | 3 => lsLoadCompleting
  | 4 => lsUnloaded
  | _ => lsError

/-- Can the address of a data segment be reached?  propertiesBCU2.cpp:271-285,
propertiesMASK0701.cpp:88-97, propertiesSYSTEMB.cpp:88-97; the high RAM only on the BCU2. -/
def reachable (W : World) (d : Dev) (a : Int) : Bool :=
  (decide (0 ≤ a) && (ramIn W.kind a.toNat || eeIn W.kind a.toNat)) ||
  (match d.mapper with
   | none => false
   | some s => MemMap.isMapped W.mc s a) ||
  (W.kind == .bcu2 && decide (0x900 ≤ a ∧ a < 0x900 + 0xBC))

/-- `handleAllocAbsDataSegment`, propertiesBCU2.cpp:216-309, propertiesMASK0701.cpp:33-121,
propertiesSYSTEMB.cpp:33-121; `pl i` is `payLoad[i]`.  The end address is computed in 32 bits; it is
`-1` here where it is 0xffffffff there, which is in none of the ranges either. -/
def allocDataSegment (W : World) (d : Dev) (pl : Nat → Byte) : Byte :=
  let start : Int := (makeWord (pl 0) (pl 1)).toNat
  let fin : Int := start + (makeWord (pl 2) (pl 3)).toNat - 1
  let memType := (pl 5).toNat % 8
  if memType = 1 ∨ memType = 2 ∨ memType = 3 then
    if reachable W d start && reachable W d fin then lsLoading else lsError
  else lsError

/-- `handleAllocAbsTaskSegment`, propertiesBCU2.cpp:135-201 and propertiesMASK0701.cpp:135-215.
(`len` is 8 in every call; `modified(true)` stands after the last `case` and is never reached.) -/
def allocTaskSegment (W : World) (d : Dev) (obj : Nat) (pl : Nat → Byte) : Dev × Byte :=
  let addr := makeWord (pl 0) (pl 1)
  match obj with
  | 1 => ({ d with ee := setWord d.ee (addrTabAddrOff W.kind) addr }, lsLoading)
  | 2 => ({ d with ee := setWord d.ee (assocTabAddrOff W.kind) addr }, lsLoading)
  | 3 =>
    let e0 := if W.kind = .bcu2 then d.ee
      else setWord d.ee 0x37C (if d.comTabStatic = 0#16 then addr else d.comTabStatic)
    let e := upd (upd (upd (upd (upd (upd e0 9 (pl 2)) 3 (pl 3)) 4 (pl 4)) 5 (pl 5)) 6 (pl 6)) 7 (pl 7)
    ({ d with ee := e }, lsLoading)
  | _ => (d, lsError)

/-- `handleTaskCtrl1`, propertiesBCU2.cpp:396-414 (`eibObjCount` is one byte,
userEepromBCU2.h:30 and :59). -/
def taskCtrl1 (d : Dev) (pl : Nat → Byte) : Dev × Byte :=
  ({ d with ee := upd (setWord d.ee 0x382 (makeWord (pl 0) (pl 1))) 0x384 (pl 2) }, lsLoading)

/-- `handleTaskCtrl2`, propertiesBCU2.cpp:429-468. -/
def taskCtrl2 (d : Dev) (pl : Nat → Byte) : Dev × Byte :=
  let addr := if d.comTabStatic = 0#16 then makeWord (pl 2) (pl 3) else d.comTabStatic
  let e := setWord (setWord (setWord d.ee 0x37C addr) 0x37E (makeWord (pl 4) (pl 5)))
    0x380 (makeWord (pl 6) (pl 7))
  ({ d with ee := e }, lsLoading)

/-- `tableAddress`, propertiesSYSTEMB.cpp:155-156: offsets of the five table addresses
(userEepromSYSTEMB.h:16-33, userEepromBCU2.h:21-46). -/
def tableAddress : List Nat := [0x21, 0x23, 0x37C, 0x382, 0x37E]

/-- `tableSize`, propertiesSYSTEMB.cpp:160-161. -/
def tableSize : List Nat := [0x4D, 0x55, 0x5D, 0x65, 0x6D]

/-- The lowest table address, propertiesSYSTEMB.cpp:163-168. -/
def virtMemAddr (ee : Nat → Byte) : Nat :=
  tableAddress.foldl (fun v o =>
    if (wordAt ee o).toNat ≠ 0 ∧ (wordAt ee o).toNat < v then (wordAt ee o).toNat else v) 0x3A9E

/-- `reqMemSize`, propertiesSYSTEMB.cpp:154. -/
def reqMemSize (pl : Nat → Byte) : Nat :=
  (pl 0).toNat * 2 ^ 24 + (pl 1).toNat * 2 ^ 16 + (pl 2).toNat * 2 ^ 8 + (pl 3).toNat

/-- `PropertiesSYSTEMB::handleDataRelativeAllocation`, propertiesSYSTEMB.cpp:136-186. -/
def dataRelAllocB (d : Dev) (obj : Nat) (pl : Nat → Byte) : Dev × Byte :=
  if obj = 0 ∨ 5 < obj then ({ d with undef := true }, lsLoading)
  else
    let v := virtMemAddr d.ee
    let req := reqMemSize pl
    let e1 := setWord d.ee (tableAddress.getD (obj - 1) 0) (BitVec.ofInt 16 ((v : Int) - req))
    let e2 := blit e1 (tableSize.getD (obj - 1) 0) pl 0 4
    if (pl 4).toNat > 0 then
      if inArray 3072 ((v : Int) - 0x3300) req then
        ({ d with ee := fun i => if v - 0x3300 ≤ i ∧ i < v - 0x3300 + req then pl 5 else e2 i },
          lsLoading)
      else ({ d with ee := e2, undef := true }, lsLoading)
    else ({ d with ee := e2 }, lsLoading)

/-- `crc16`, propertiesSYSTEMB.cpp:188-208: one bit. -/
def crcBit (c : Word) : Word := if c.msb then (c <<< 1) ^^^ 0x1021#16 else c <<< 1

/-- `crc16`, propertiesSYSTEMB.cpp:188-208. -/
def crc16 (l : List Byte) : Word :=
  l.foldl (fun (c : Word) (b : Byte) => crcBit (crcBit (crcBit (crcBit (crcBit (crcBit (crcBit (crcBit
    (c ^^^ BitVec.shiftLeft (b.setWidth 16) 8))))))))) 0x1D0F#16

/-- The end of loading on SYSTEMB, propertiesSYSTEMB.cpp:227-243. -/
def loadedB (d : Dev) (obj : Nat) : Dev :=
  match propertyDef obj 7, propertyDef obj 27 with
  | some ref, some mcb =>
    let start : Int := (wordAt d.ee ref.offset).toNat - 0x3300
    let size := (makeWord (d.ee (mcb.offset + 2)) (d.ee (mcb.offset + 3))).toNat
    if inArray 3072 start size then
      let crc := crc16 (slice d.ee start.toNat size)
      { d with ee := upd (upd d.ee (mcb.offset + 6) (highByte crc)) (mcb.offset + 7) (lowByte crc) }
    else { d with undef := true }
  | _, _ => { d with undef := true }

/-- Unloading on SYSTEMB, propertiesSYSTEMB.cpp:245-253. -/
def unloadedB (d : Dev) (obj : Nat) : Dev :=
  match propertyDef obj 7 with
  | some ref => { d with ee := upd (upd d.ee (ref.offset + 1) 0#8) ref.offset 0#8 }
  | none => { d with undef := true }

/-- The `switch` over the segment type: propertiesBCU2.cpp:572-603, propertiesSYSTEMB.cpp:278-303
(without the two task control segments).  The ignored segments: propertiesBCU2.cpp:324-346,
:361-379, :483-497 and :512-531. -/
def additionalLoadControl (W : World) (d : Dev) (obj : Nat) (seg : Byte) (pl : Nat → Byte) :
    Dev × Byte :=
  match seg.toNat with
  | 0 => (d, allocDataSegment W d pl)
  | 1 => (d, lsLoading)
  | 2 => allocTaskSegment W d obj pl
  | 3 => (d, lsLoading)
  | 4 => if W.kind = .systemb then (d, lsError) else taskCtrl1 d pl
  | 5 => if W.kind = .systemb then (d, lsError) else taskCtrl2 d pl
  | 0x0A => (d, lsLoading)
  | 0x0B => if W.kind = .systemb then dataRelAllocB d obj pl else (d, lsLoading)
  | _ => (d, lsError)

/-- `loadProperty(objectIdx, data, len)`, propertiesBCU2.cpp:533-604 and
propertiesSYSTEMB.cpp:210-304; the result is the new load state, which the caller stores. -/
def loadProperty (W : World) (d : Dev) (obj : Nat) (data : Nat → Byte) (len : Int) : Dev × Byte :=
  if len > 11 ∨ len < 10 then (d, lsError)
  else
    let s := loadStateMachine data
    if W.kind = .systemb ∧ s = lsLoaded then (loadedB d obj, s)
    else if W.kind = .systemb ∧ s = lsUnloaded then (unloadedB d obj, s)
    else if s ≠ lsLoadCompleting then (d, s)
    else additionalLoadControl W d obj (data 1) (fun i => data ((if len = 10 then 2 else 3) + i))

/-- `sendBuffer` has 23 bytes (bcu_base.cpp:166-169, knx_tlayer4.cpp:233-235), the telegram buffer
as well (bus.cpp:39). -/
def bufSize : Nat := 23

/-- `sendBuffer[5] += len`. -/
def addLen (sb : Buf) (len : Nat) : Buf := upd sb 5 (sb 5 + BitVec.ofNat 8 len)

/-- `propertyValueReadTelegram`, propertiesBCU2.cpp:606-632 and propertiesSYSTEMB.cpp:306-337. -/
def propRead (W : World) (d : Dev) (obj pid count start : Nat) (sb : Buf) : Dev × Buf × Bool :=
  match propertyDef obj pid with
  | none => (d, sb, false)
  | some p =>
    let len := count * p.size
    let o : Int := p.offset + ((start : Int) - 1) * p.size
    if (if W.kind = .systemb then 12 else 10) < len then (d, sb, false)
    else if W.kind = .systemb ∧ p.type < 0x0c ∧ pid = 7 then
      if inArray (areaSize W.kind p.area) o len && decide (14 + len ≤ bufSize) then
        (d, addLen (revBlit (upd (upd sb 12 0#8) 13 0#8) 14 (areaBytes d p) o.toNat len) (len + 2), true)
      else ({ d with undef := true }, sb, true)
    else if inArray (areaSize W.kind p.area) o len && decide (12 + len ≤ bufSize) then
      (d, addLen (if p.type < 0x0c then revBlit sb 12 (areaBytes d p) o.toNat len
                  else blit sb 12 (areaBytes d p) o.toNat len) len, true)
    else ({ d with undef := true }, sb, true)

/-- `propertyValueWriteTelegram`, propertiesBCU2.cpp:634-674 and propertiesSYSTEMB.cpp:339-387;
`t` and `telLen` are the bus's telegram buffer and its length. -/
def propWrite (W : World) (d : Dev) (t : Buf) (telLen : Nat) (obj pid count start : Nat) (sb : Buf) :
    Dev × Buf × Bool :=
  match propertyDef obj pid with
  | none => (d, sb, false)
  | some p =>
    if !p.writable then (d, sb, false)
    else if p.type = 0 then
      let r := loadProperty W d obj (fun i => t (12 + i)) ((telLen : Int) - 13)
      ({ r.1 with ee := upd r.1.ee (loadStateOff + obj) r.2 }, addLen (upd sb 12 r.2) 1, true)
    else
      let len := count * p.size
      let o : Int := p.offset + ((start : Int) - 1) * p.size
      if inArray (areaSize W.kind p.area) o len && decide (12 + len ≤ bufSize) then
        let cp := if W.kind = .systemb ∧ pid = 27 then blit else revBlit
        let d1 := setArea d p (cp (areaBytes d p) o.toNat t 12 len)
        let d2 := if p.isEe then { d1 with eeModified := true } else d1
        (d2, addLen (cp sb 12 (areaBytes d2 p) o.toNat len) len, true)
      else ({ d with undef := true }, sb, true)

/-- `propertyDescReadTelegram`, propertiesBCU2.cpp:676-708.  With the identifier 0 the table is
indexed without a check; the entry after the last one is the end mark. -/
def propDesc (d : Dev) (obj pid index : Nat) (sb : Buf) : Dev × Buf × Bool :=
  let sb := upd sb 10 (BitVec.ofNat 8 index)
  if pid = 0 ∧ ¬ (obj < 6 ∧ index ≤ (propTab obj).length) then ({ d with undef := true }, sb, false)
  else
    match (if pid = 0 then (propTab obj)[index]? else propertyDef obj pid) with
    | none =>
      (d, upd (upd (upd (upd (upd sb 9 (BitVec.ofNat 8 pid)) 11 0#8) 12 0#8) 13 0#8) 14 0#8, false)
    | some p =>
      let num : Byte := if p.control.testBit 6 && p.control.testBit 5 then areaBytes d p p.offset else 1#8
      (d, upd (upd (upd (upd (upd sb 9 (BitVec.ofNat 8 p.id)) 11 (BitVec.ofNat 8 p.control &&& 0x9f#8))
        12 0#8) 13 num) 14 (if p.writable then 0xf1#8 else 0x50#8), true)

end Verif.Dev
