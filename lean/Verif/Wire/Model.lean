/-!
# 1-Wire search

Models the device search of `OneWire` (`sblib/src/onewire.cpp`) and of `OneWireDS2482`
(`sblib/src/i2c/ds2482.cpp`) on a bus with a list of devices.  The eight bytes `ROM_NO` (and
`searchAddress`) are one number of 64 bits: bit `8 * byte + bit`.  Not modelled: the timing on the
wire, the I2C transfers, a bus that is shorted or whose devices come and go during a search.
-/

namespace Verif.Wire

/-- A ROM code: family code (the lowest byte), serial number, CRC. -/
abbrev Rom := BitVec 64

/-- The family code, `ROM_NO[0]`. -/
def familyCode (x : Rom) : BitVec 8 := x.setWidth 8

/-! ## The bus

After the search command the devices of the list `act` take part. -/

/-- The devices put bit `n` of their code on the bus (wired and): `OneWireReadBit`,
onewire.cpp:125-142, first read of a round; the status bit SBR of the DS2482. -/
def idBit (act : List Rom) (n : Nat) : Bool := act.all fun z => z.getLsbD n

/-- Then they put the complement on the bus: second read of a round; the status bit TSB of the
DS2482. -/
def cmpBit (act : List Rom) (n : Nat) : Bool := act.all fun z => !z.getLsbD n

/-- The master writes a bit; devices with another bit `n` wait for the next reset. -/
def writeBit (act : List Rom) (n : Nat) (dir : Bool) : List Rom :=
  act.filter fun z => z.getLsbD n == dir

/-- Set or clear a bit of the ROM code: `|= mask`, `&= ~mask`. -/
def setBit (x : Rom) (n : Nat) (b : Bool) : Rom :=
  if b then x ||| (1#64 <<< n) else x &&& ~~~(1#64 <<< n)

/-! ## `OneWire` -/

/-- The members of `OneWire` used by the search, onewire.h:37-40. -/
structure Search where
  /-- `ROM_NO` -/
  rom : Rom
  /-- `_LastDiscrepancy` -/
  last : Nat
  /-- `_LastFamilyDiscrepancy` -/
  lastFamily : Nat
  /-- `_bLastDeviceFlag` -/
  done : Bool
  deriving DecidableEq, Repr

/-- `OneWireResetSearch`, onewire.cpp:321-331. -/
def resetSearch : Search := ⟨0#64, 0, 0, false⟩

/-- `OneWireTargetSearch`, onewire.cpp:344-354. -/
def targetSearch (family : BitVec 8) : Search := ⟨family.setWidth 64, 64, 0, false⟩

/-- The loop of `OneWireSearch`, onewire.cpp:402-438, from bit `n` (`id_bit_number - 1`) on, at most
`k` rounds: number of bits done, `ROM_NO`, `last_zero`, `_LastFamilyDiscrepancy`. -/
def searchLoop (last : Nat) : Nat → Nat → List Rom → Rom → Nat → Nat → Nat × Rom × Nat × Nat
  | 0, n, _, rom, lz, fam => (n, rom, lz, fam)
  | k + 1, n, act, rom, lz, fam =>
    if idBit act n && cmpBit act n then (n, rom, lz, fam)
    else
      let dir : Bool :=
        if idBit act n != cmpBit act n then idBit act n
        else if n + 1 < last then rom.getLsbD n
        else n + 1 == last
      let zero : Bool := idBit act n == cmpBit act n && !dir
      let lz' := if zero then n + 1 else lz
      let fam' := if zero && decide (n + 1 < 9) then n + 1 else fam
      searchLoop last k (n + 1) (writeBit act n dir) (setBit rom n dir) lz' fam'

/-- `OneWireSearch(newAddr)`, onewire.cpp:382-458, on a bus with the devices `devs` (the reset finds a
presence pulse if there is a device): new state, content of `newAddr`, result. -/
def search (devs : List Rom) (s : Search) (newAddr : Rom) : Search × Rom × Bool :=
  if s.done then (s, newAddr, false)
  else if devs.isEmpty then ({ s with last := 0, done := false, lastFamily := 0 }, newAddr, false)
  else
    let r := searchLoop s.last 64 0 devs s.rom 0 s.lastFamily
    let s1 : Search := { s with rom := r.2.1, lastFamily := r.2.2.2 }
    let found : Bool := !decide (r.1 + 1 < 65)
    let s2 : Search :=
      if found then { s1 with last := r.2.2.1, done := if r.2.2.1 = 0 then true else s1.done } else s1
    if !found || familyCode s2.rom == 0#8 then
      ({ s2 with last := 0, done := false, lastFamily := 0 }, newAddr, found)
    else (s2, s2.rom, found)

/-- `k` calls, each with a buffer that contains `junk`: the final state and what each call returned
(the content of the buffer if the result was true). -/
def calls (devs : List Rom) (junk : Rom) : Nat → Search → Search × List (Option Rom)
  | 0, s => (s, [])
  | k + 1, s =>
    let r := search devs s junk
    let r' := calls devs junk k r.1
    (r'.1, (if r.2.2 then some r.2.1 else none) :: r'.2)

/-! ## `OneWireDS2482` -/

/-- The members used by the search, ds2482.h:106-108. -/
structure Bridge where
  /-- `searchAddress` -/
  address : Rom
  /-- `searchLastDiscrepancy` -/
  last : Nat
  /-- `searchLastDeviceFlag` -/
  done : Bool
  deriving DecidableEq, Repr

/-- `wireResetSearch`, ds2482.cpp:256-264. -/
def wireResetSearch : Bridge := ⟨0#64, 0, false⟩

/-- The "1-Wire triplet" command of the bridge: it reads the two bits and writes the direction: the
only possible one, or the wished one if both are possible (and 1 if no device answers).  Result: the
status bits SBR, TSB and DIR. -/
def triplet (act : List Rom) (n : Nat) (wish : Bool) : Bool × Bool × Bool :=
  let id := idBit act n
  let cmp := cmpBit act n
  (id, cmp, if id && cmp then true else if id != cmp then id else wish)

/-- The loop of `wireSearch`, ds2482.cpp:296-327, from bit `n` on: `searchAddress`, `last_zero`, and
whether the loop went to its end. -/
def wireLoop (last : Nat) : Nat → Nat → List Rom → Rom → Nat → Rom × Nat × Bool
  | 0, _, _, addr, lz => (addr, lz, true)
  | k + 1, n, act, addr, lz =>
    let wish : Bool := if n < last then addr.getLsbD n else n == last
    let r := triplet act n wish
    if r.1 && r.2.1 then (addr, lz, false)
    else
      wireLoop last k (n + 1) (writeBit act n r.2.2) (setBit addr n r.2.2)
        (if !r.1 && !r.2.1 && !r.2.2 then n else lz)

/-- `wireSearch(address)`, ds2482.cpp:282-338. -/
def wireSearch (devs : List Rom) (s : Bridge) (address : Rom) : Bridge × Rom × Bool :=
  if s.done then (s, address, false)
  else if devs.isEmpty then (s, address, false)
  else
    let r := wireLoop s.last 64 0 devs s.address 0
    if r.2.2 then
      ({ address := r.1, last := r.2.1, done := if r.2.1 = 0 then true else s.done }, r.1, true)
    else ({ s with address := r.1 }, address, false)

/-- `k` calls, as `calls`. -/
def wireCalls (devs : List Rom) (junk : Rom) : Nat → Bridge → Bridge × List (Option Rom)
  | 0, s => (s, [])
  | k + 1, s =>
    let r := wireSearch devs s junk
    let r' := wireCalls devs junk k r.1
    (r'.1, (if r.2.2 then some r.2.1 else none) :: r'.2)

end Verif.Wire
