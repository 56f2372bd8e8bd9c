import Verif.Flash.Iap

/-!
# Virtual memory in flash: `sblib/src/mem_mapper.cpp`

The flash and the functions of iap.cpp are those of `Verif.Flash.Iap`.  `fatalError()` never
returns (`halted`).  An access outside `allocTable` is undefined (`undef`).

Not modelled: `memoryPtr` and `operator[]` (mem_mapper.cpp:283-303, 312-315; they return a pointer
into the write buffer or the flash).  `endianess` is a parameter of the functions that use it; it is
set by `setEndianess` (mem_mapper.h:108-111), not by the constructor.
-/

namespace Verif.MemMap

open Verif.Iap

/-- The constructor arguments, mem_mapper.cpp:21-22; `FLASH_BASE_ADDRESS` is 0. -/
structure Cfg where
  flashBase : Nat
  flashSize : Nat
  autoAddPage : Bool

/-- `flashBasePage`, mem_mapper.cpp:25. -/
def Cfg.basePage (c : Cfg) : Nat := pageOfAddress (BitVec.ofNat 32 c.flashBase)
/-- `flashSizePages`, mem_mapper.cpp:24. -/
def Cfg.sizePages (c : Cfg) : Nat := c.flashSize / 0x100

/-- Members of `MemMapper`, mem_mapper.h:198-214 (`endianess` is not modelled). -/
structure St where
  hw : Hw
  allocTable : Nat → Byte
  writeBuf : Nat → Byte
  writePage : Nat
  lastAllocated : Nat
  flashMemModified : Bool
  allocTableModified : Bool
  /-- the program hangs in `fatalError()` -/
  halted : Bool
  /-- an array was accessed out of bounds -/
  undef : Bool

/-! Return values, mem_mapper.h:19-23. -/

def SUCCESS : Int := 0
def INVALID_ADDRESS : Int := -1
def NOT_MAPPED : Int := -2
def OUT_OF_MEMORY : Int := -4
def INVALID_LENGTH : Int := -8

/-- The constructor, mem_mapper.cpp:21-61.  `writeBuf` is not initialised; its content is not used
before it is written, here it is 0. -/
def ctor (c : Cfg) (hw : Hw) : St :=
  let table : Nat → Byte := fun i => hw.flash (c.flashBase + i)
  let zeros := (List.range 0x100).countP (fun i => table i == 0#8)
  let err : Bool := decide (2 ≤ zeros)
  { hw := hw, allocTable := if err then fun _ => 0xff#8 else table, writeBuf := fun _ => 0#8
    writePage := 0, lastAllocated := 0, flashMemModified := false, allocTableModified := err
    halted := false, undef := false }

/-- Erase and program one page, mem_mapper.cpp:68-75 and 81-89. -/
def flashPage (E : Env) (page : Nat) (addr : U32) (data : Nat → Byte) (s : St) : St :=
  let r := erasePageRange E s.hw page page
  if r.1 ≠ 0 then { s with hw := r.2, halted := true }
  else
    let r2 := program E r.2 addr data 0x100
    if r2.1 ≠ 0 then { s with hw := r2.2, halted := true } else { s with hw := r2.2 }

/-- `MemMapper::doFlash`, mem_mapper.cpp:63-94 (its return value, which says what was
flashed, is left out). -/
def doFlash (E : Env) (c : Cfg) (s : St) : St :=
  let s1 : St :=
    if s.allocTableModified then
      let r := flashPage E c.basePage (BitVec.ofNat 32 c.flashBase) s.allocTable s
      if r.halted then r else { r with allocTableModified := false }
    else s
  if s1.halted then s1
  else if s1.flashMemModified then
    let r := flashPage E s1.writePage (addressOfPage s1.writePage) s1.writeBuf s1
    if r.halted then r else { r with flashMemModified := false }
  else s1

/-- `allocTable[v] ^ 0xff` as a number. -/
def pageOf (s : St) (v : Nat) : Nat := (s.allocTable v ^^^ 0xff#8).toNat

/-- The search for the highest used entry, mem_mapper.cpp:98-108. -/
def highest (s : St) : Nat :=
  if s.lastAllocated = 0 then (List.range 0x100).foldl (fun m i => max m (pageOf s i)) 0
  else s.lastAllocated

/-- `MemMapper::allocatePage`, mem_mapper.cpp:96-125. -/
def allocatePage (c : Cfg) (s : St) (virtPage : Nat) : St × Int :=
  let last := highest s
  let s1 : St := { s with lastAllocated := last }
  if last = c.basePage + c.sizePages - 1 then (s1, OUT_OF_MEMORY)
  else
    let s2 : St :=
      if last = 0 then { s1 with writePage := c.basePage + 1 }
      else { s1 with lastAllocated := last + 1, writePage := last + 1 }
    let s3 : St := { s2 with writeBuf := fun _ => 0#8 }
    if virtPage < 0x100 then
      ({ s3 with allocTable := fun i =>
          if i = virtPage then BitVec.ofNat 8 s3.writePage ^^^ 0xff#8 else s3.allocTable i }, SUCCESS)
    else ({ s3 with undef := true }, SUCCESS)

/-- `MemMapper::getFlashPageNum`, mem_mapper.cpp:165-175. -/
def getFlashPageNum (s : St) (a : Int) : Int :=
  let v := a / 256
  if v < 0 ∨ 0x100 ≤ v then INVALID_ADDRESS else pageOf s v.toNat

/-- `MemMapper::writeMem`, mem_mapper.cpp:177-210. -/
def writeMem (E : Env) (c : Cfg) (s : St) (a : Int) (d : Byte) : St × Int :=
  let p := getFlashPageNum s a
  if p < 0 then (s, p)
  else
    let s1 : St :=
      if (s.writePage : Int) ≠ p then
        let r := doFlash E c s
        if r.halted then r
        else
          { r with
            writePage := p.toNat
            writeBuf := if p ≠ 0 then fun i => r.hw.flash (p.toNat * 0x100 + i) else r.writeBuf }
      else s
    if s1.halted then (s1, SUCCESS)
    else
      let r : St × Int :=
        if p = 0 ∧ c.autoAddPage then
          let r := allocatePage c s1 (a / 256).toNat
          if r.2 ≠ SUCCESS then r else ({ r.1 with allocTableModified := true }, SUCCESS)
        else (s1, SUCCESS)
      if r.2 ≠ SUCCESS then r
      else
        ({ r.1 with
            writeBuf := fun i => if i = (a % 256).toNat then d else r.1.writeBuf i
            flashMemModified := true }, SUCCESS)

/-- `MemMapper::readMem`, mem_mapper.cpp:226-251: state, result, data. -/
def readMem (E : Env) (c : Cfg) (s : St) (a : Int) (forceFlash : Bool) : St × Int × Byte :=
  let p := getFlashPageNum s a
  if p < 0 then (s, p, 0#8)
  else
    let s1 := if forceFlash then doFlash E c s else s
    if s1.halted then (s1, SUCCESS, 0#8)
    else if p = 0 then (s1, NOT_MAPPED, 0#8)
    else if p = (s1.writePage : Int) ∧ !forceFlash then
      (s1, SUCCESS, s1.writeBuf (a % 256).toNat)
    else (s1, SUCCESS, s1.hw.flash (p.toNat * 0x100 + (a % 256).toNat))

/-- The loop of `addRange`, mem_mapper.cpp:144-158, over the pages `v, v + 1, …`: state, result,
`tableModified`. -/
def addPages (E : Env) (c : Cfg) : Nat → Nat → St → Bool → St × Int × Bool
  | 0, _, s, m => (s, SUCCESS, m)
  | n + 1, v, s, m =>
    if 0x100 ≤ v then ({ s with undef := true }, SUCCESS, m)
    else if pageOf s v = 0 then
      let r := allocatePage c s v
      if r.2 ≠ SUCCESS then (r.1, r.2, m)
      else
        let s2 := doFlash E c { r.1 with flashMemModified := true }
        if s2.halted then (s2, SUCCESS, true) else addPages E c n (v + 1) s2 true
    else addPages E c n (v + 1) s m

/-- `MemMapper::addRange`, mem_mapper.cpp:127-163.  `byte pages = length >> 8` keeps eight bits. -/
def addRange (E : Env) (c : Cfg) (s : St) (a len : Int) : St × Int :=
  let v := a / 256
  if a % 256 ≠ 0 ∨ v < 0 ∨ 0x100 ≤ v then (s, INVALID_ADDRESS)
  else if len % 256 ≠ 0 then (s, INVALID_LENGTH)
  else
    let r := addPages E c (len / 256 % 256).toNat v.toNat s false
    if r.1.halted ∨ r.1.undef then (r.1, SUCCESS)
    else if r.2.1 ≠ SUCCESS then (r.1, r.2.1)
    else
      let s1 : St := if r.2.2 then { r.1 with allocTableModified := true } else r.1
      (doFlash E c s1, SUCCESS)

/-- `MemMapper::isMapped`, mem_mapper.cpp:268-276. -/
def isMapped (c : Cfg) (s : St) (a : Int) : Bool :=
  c.autoAddPage || (getFlashPageNum s a != INVALID_ADDRESS && getFlashPageNum s a != 0)

/-- `MemMapper::isMappedRange`, mem_mapper.cpp:278-281. -/
def isMappedRange (c : Cfg) (s : St) (a b : Int) : Bool := isMapped c s a && isMapped c s b

/-- `MemMapper::writeMemPtr`, mem_mapper.cpp:212-224. -/
def writeMemPtr (E : Env) (c : Cfg) : St → Int → List Byte → St × Int
  | s, _, [] => (s, SUCCESS)
  | s, a, d :: ds =>
    let r := writeMem E c s a d
    if r.2 ≠ SUCCESS then r else writeMemPtr E c r.1 (a + 1) ds

/-- `MemMapper::readMemPtr`, mem_mapper.cpp:253-266: state, result, the bytes stored. -/
def readMemPtr (E : Env) (c : Cfg) (forceFlash : Bool) : Nat → St → Int → St × Int × List Byte
  | 0, s, _ => (s, SUCCESS, [])
  | n + 1, s, a =>
    let r := readMem E c s a forceFlash
    if r.2.1 ≠ SUCCESS then (r.1, r.2.1, [r.2.2])
    else
      let r2 := readMemPtr E c forceFlash n r.1 (a + 1)
      (r2.1, r2.2.1, r.2.2 :: r2.2.2)

/-- `MemMapper::getUIntX`, mem_mapper.cpp:317-334; `big` is `endianess == BIG_ENDIAN`.  The results
of `readMem` are ignored; it stores 0 on errors. -/
def getUIntX (E : Env) (c : Cfg) (big : Bool) (s : St) (a : Int) (len : Nat) : St × U32 :=
  (List.range len).foldl (fun (x : St × U32) (i : Nat) =>
    let addr : Int := if big then a + i else a + len - i - 1
    let r := readMem E c x.1 addr false
    (r.1, (x.2 <<< 8) ||| r.2.2.setWidth 32)) (s, 0#32)

/-- `MemMapper::setUIntX`, mem_mapper.cpp:351-365: state and result (0 if every `writeMem` returned
0). -/
def setUIntX (E : Env) (c : Cfg) (big : Bool) (s : St) (a : Int) (len : Nat) (val : U32) : St × U32 :=
  let r := (List.range len).foldl (fun (x : St × U32 × U32) (i : Nat) =>
    let addr : Int := if big then a + len - i - 1 else a + i
    let r := writeMem E c x.1 addr (x.2.1.setWidth 8)
    (r.1, x.2.1.sshiftRight 8, x.2.2 ||| BitVec.ofInt 32 r.2)) (s, val, 0#32)
  (r.1, r.2.2)

/-- `MemMapper::getUInt16`, mem_mapper.cpp:336-339. -/
def getUInt16 (E : Env) (c : Cfg) (big : Bool) (s : St) (a : Int) : St × Word :=
  let r := getUIntX E c big s a 2; (r.1, r.2.setWidth 16)
/-- `MemMapper::getUInt32`, mem_mapper.cpp:341-344. -/
def getUInt32 (E : Env) (c : Cfg) (big : Bool) (s : St) (a : Int) : St × U32 := getUIntX E c big s a 4
/-- `MemMapper::setUInt16`, mem_mapper.cpp:367-370. -/
def setUInt16 (E : Env) (c : Cfg) (big : Bool) (s : St) (a : Int) (d : Word) : St × U32 :=
  setUIntX E c big s a 2 (d.setWidth 32)
/-- `MemMapper::setUInt32`, mem_mapper.cpp:372-375. -/
def setUInt32 (E : Env) (c : Cfg) (big : Bool) (s : St) (a : Int) (d : U32) : St × U32 :=
  setUIntX E c big s a 4 d

/-! ## Histories -/

inductive Op
  | write (a : Int) (d : Byte)
  | read (a : Int) (forceFlash : Bool)
  | addRange (a len : Int)
  | flush
  /-- restart of the device (or power failure between two operations) -/
  | restart

/-- One operation: new state, return value and data byte (0 where there is none, and for `flush`). -/
def step (E : Env) (c : Cfg) (s : St) : Op → St × Int × Byte
  | .write a d => let r := writeMem E c s a d; (r.1, r.2, 0#8)
  | .read a f => readMem E c s a f
  | .addRange a len => let r := addRange E c s a len; (r.1, r.2, 0#8)
  | .flush => (doFlash E c s, 0, 0#8)
  | .restart => (ctor c s.hw, 0, 0#8)

/-- A history: final state and results. -/
def run (E : Env) (c : Cfg) : St → List Op → St × List (Int × Byte)
  | s, [] => (s, [])
  | s, op :: ops =>
    let r := step E c s op
    let r2 := run E c r.1 ops
    (r2.1, r.2 :: r2.2)

end Verif.MemMap
