import Verif.Flash.Iap

/-!
# How large is the flash: `iapFlashSize` (sblib/src/iap.cpp:251-277)

The ROM is that of `Flash/Iap.lean`: a blank check of a sector that does not exist gives `INVALID_SECTOR` (7), otherwise
0 or `SECTOR_NOT_BLANK` (8), or the status of a fault. `iapFlashBytes` (iap.cpp:51) is an argument and a result.
-/

namespace Verif.Iap

/-- The ROM's blank check of one sector (`CMD_BLANK_CHECK` through `IAP_Call_InterruptSafe`, iap.cpp:84-97, 265-267). -/
def blankCheckSector (E : Env) (hw : Hw) (sector : Nat) : Nat × Hw :=
  call E hw (if sectorArgs E sector sector ≠ 0 then sectorArgs E sector sector else blankCheck hw.flash (sector * 0x1000) 0x1000)
    0 0 hw.flash

/-- The loop of `iapFlashSize`, iap.cpp:263-273: `sectorInc` is 0x2000 / 0x1000 and `maxSector` is 0x80000 / 0x1000
(iap.cpp:16, 19, 259-261). `n` bounds the number of rounds; with 64 it never matters. -/
def flashSizeLoop (E : Env) : Nat → Nat → Hw → Nat × Hw
  | 0, sector, hw => (sector, hw)
  | n + 1, sector, hw =>
    if sector < 0x80000 / 0x1000 then
      if (blankCheckSector E hw sector).1 = 7 then (sector, (blankCheckSector E hw sector).2)
      else flashSizeLoop E n (sector + 0x2000 / 0x1000) (blankCheckSector E hw sector).2
    else (sector, hw)

/-- `iapFlashSize`, iap.cpp:251-277: the result, which is also the new value of `iapFlashBytes`. -/
def flashSize (E : Env) (hw : Hw) (iapFlashBytes : Nat) : Nat × Hw :=
  if iapFlashBytes ≠ 0 then (iapFlashBytes, hw)
  else ((flashSizeLoop E 64 (0x2000 / 0x1000) hw).1 * 0x1000, (flashSizeLoop E 64 (0x2000 / 0x1000) hw).2)

end Verif.Iap
