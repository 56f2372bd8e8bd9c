import Verif.Util.Serial

/-!
# The serial port: configuration, `flush` and `end`

Modelled: `Serial::begin`, `Serial::end` and `Serial::flush` (serial.cpp:62-114, 159-172). The register DLL shares its address with THR and DLM with IER;
bit 7 of LCR (DLAB) selects which is written (UM10398 13.5), so the order of the writes matters.

Simplifications: the interrupt controller is left out; `SERIAL_WRITE_DIRECT` is not defined; the buffers are those of `Verif/Util/Serial.lean`.
-/

namespace Verif.Uart

open Verif

/-- The UART and the registers of the clock. -/
structure Regs where
  dll : Byte
  dlm : Byte
  ier : Byte
  thr : List Byte
  lcr : Byte
  fdr : Byte
  fcr : Byte
  mcr : Byte
  /-- SYSAHBCLKCTRL bit 12 -/
  clock : Bool
  /-- UARTCLKDIV -/
  clkDiv : U32
  enabled : Bool

/-- DLAB -/
def Regs.dlab (r : Regs) : Bool := r.lcr.getLsbD 7

/-- A write to the address of DLL and THR. -/
def Regs.writeDll (r : Regs) (v : Byte) : Regs := if r.dlab then { r with dll := v } else { r with thr := r.thr ++ [v] }

/-- A write to the address of DLM and IER. -/
def Regs.writeDlm (r : Regs) (v : Byte) : Regs := if r.dlab then { r with dlm := v } else { r with ier := v }

/-- What is read at the address of DLM and IER. -/
def Regs.readIer (r : Regs) : Byte := if r.dlab then r.dlm else r.ier

/-- `Serial::begin`, serial.cpp:62-106; `coreClock` is `SystemCoreClock`, `ahbDiv` SYSAHBCLKDIV; a negative rate is a large unsigned number. `none`: division
by zero. -/
def begin (coreClock ahbDiv : U32) (r : Regs) (baudRate : U32) (config : Byte) : Option Regs :=
  let r := { r with clock := true, clkDiv := 1#32 }
  let r := { r with lcr := 0x80#8 ||| config }
  if baudRate = 0#32 then none
  else
    let val := coreClock * ahbDiv / r.clkDiv / 16#32 / baudRate
    let q :=
      if baudRate = 460800#32 then (5#32, { r with fdr := 0xa3#8 })
      else if baudRate = 576000#32 then (3#32, { r with fdr := 0xfb#8 })
      else (val, r)
    let r := q.2.writeDlm ((q.1 / 256#32).setWidth 8)
    let r := r.writeDll ((q.1 % 256#32).setWidth 8)
    let r := { r with lcr := config }
    let r := { r with fcr := 0x07#8, mcr := 0#8 }
    let r := r.writeDlm (r.readIer ||| 0x01#8)
    some { r with enabled := true }

/-- The condition on which `Serial::flush` returns, serial.cpp:169-170. -/
def flushReturns (s : Serial.St) : Prop := s.writeHead = s.writeTail

/-- `Serial::end`, serial.cpp:108-114, after `flush` has returned: without its clock the UART does not go on sending. -/
def stop (r : Regs) : Regs := { r with clock := false, enabled := false }

end Verif.Uart
