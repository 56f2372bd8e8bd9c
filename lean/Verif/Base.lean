/-!
# Common types

Fixed-width machine types of the modelled C++ code (ARM Cortex-M0, 32 bit).
-/

namespace Verif

/-- `byte` / `uint8_t` / `unsigned char` (sblib/inc/sblib/types.h). -/
abbrev Byte := BitVec 8

/-- `word` / `uint16_t` / `unsigned short`. -/
abbrev Word := BitVec 16

/-- `uint32_t` / `unsigned int` / `unsigned long` / pointers on the 32-bit target. -/
abbrev U32 := BitVec 32

end Verif
