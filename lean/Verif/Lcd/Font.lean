import Verif.Lcd.Model

/-!
# The font `font_5x7`
-/

namespace Verif.Lcd

/-- `fontData5x7` (sblib/src/lcd/font_5x7.cpp:13-111). -/
def fontData5x7 : List Byte := [
  0x00#8, 0x00#8, 0x00#8, 0x00#8, 0x00#8,
  0x00#8, 0x00#8, 0x5F#8, 0x00#8, 0x00#8,
  0x00#8, 0x07#8, 0x00#8, 0x07#8, 0x00#8,
  0x14#8, 0x7F#8, 0x14#8, 0x7F#8, 0x14#8,
  0x24#8, 0x2A#8, 0x7F#8, 0x2A#8, 0x12#8,
  0x23#8, 0x13#8, 0x08#8, 0x64#8, 0x62#8,
  0x36#8, 0x49#8, 0x55#8, 0x22#8, 0x50#8,
  0x00#8, 0x05#8, 0x03#8, 0x00#8, 0x00#8,
  0x00#8, 0x1C#8, 0x22#8, 0x41#8, 0x00#8,
  0x00#8, 0x41#8, 0x22#8, 0x1C#8, 0x00#8,
  0x08#8, 0x2A#8, 0x1C#8, 0x2A#8, 0x08#8,
  0x08#8, 0x08#8, 0x3E#8, 0x08#8, 0x08#8,
  0x00#8, 0x50#8, 0x30#8, 0x00#8, 0x00#8,
  0x08#8, 0x08#8, 0x08#8, 0x08#8, 0x08#8,
  0x00#8, 0x30#8, 0x30#8, 0x00#8, 0x00#8,
  0x20#8, 0x10#8, 0x08#8, 0x04#8, 0x02#8,
  0x3E#8, 0x51#8, 0x49#8, 0x45#8, 0x3E#8,
  0x00#8, 0x42#8, 0x7F#8, 0x40#8, 0x00#8,
  0x42#8, 0x61#8, 0x51#8, 0x49#8, 0x46#8,
  0x21#8, 0x41#8, 0x45#8, 0x4B#8, 0x31#8,
  0x18#8, 0x14#8, 0x12#8, 0x7F#8, 0x10#8,
  0x27#8, 0x45#8, 0x45#8, 0x45#8, 0x39#8,
  0x3C#8, 0x4A#8, 0x49#8, 0x49#8, 0x30#8,
  0x01#8, 0x71#8, 0x09#8, 0x05#8, 0x03#8,
  0x36#8, 0x49#8, 0x49#8, 0x49#8, 0x36#8,
  0x06#8, 0x49#8, 0x49#8, 0x29#8, 0x1E#8,
  0x00#8, 0x36#8, 0x36#8, 0x00#8, 0x00#8,
  0x00#8, 0x56#8, 0x36#8, 0x00#8, 0x00#8,
  0x00#8, 0x08#8, 0x14#8, 0x22#8, 0x41#8,
  0x14#8, 0x14#8, 0x14#8, 0x14#8, 0x14#8,
  0x41#8, 0x22#8, 0x14#8, 0x08#8, 0x00#8,
  0x02#8, 0x01#8, 0x51#8, 0x09#8, 0x06#8,
  0x32#8, 0x49#8, 0x79#8, 0x41#8, 0x3E#8,
  0x7E#8, 0x11#8, 0x11#8, 0x11#8, 0x7E#8,
  0x7F#8, 0x49#8, 0x49#8, 0x49#8, 0x36#8,
  0x3E#8, 0x41#8, 0x41#8, 0x41#8, 0x22#8,
  0x7F#8, 0x41#8, 0x41#8, 0x22#8, 0x1C#8,
  0x7F#8, 0x49#8, 0x49#8, 0x49#8, 0x41#8,
  0x7F#8, 0x09#8, 0x09#8, 0x01#8, 0x01#8,
  0x3E#8, 0x41#8, 0x41#8, 0x51#8, 0x32#8,
  0x7F#8, 0x08#8, 0x08#8, 0x08#8, 0x7F#8,
  0x00#8, 0x41#8, 0x7F#8, 0x41#8, 0x00#8,
  0x20#8, 0x40#8, 0x41#8, 0x3F#8, 0x01#8,
  0x7F#8, 0x08#8, 0x14#8, 0x22#8, 0x41#8,
  0x7F#8, 0x40#8, 0x40#8, 0x40#8, 0x40#8,
  0x7F#8, 0x02#8, 0x04#8, 0x02#8, 0x7F#8,
  0x7F#8, 0x04#8, 0x08#8, 0x10#8, 0x7F#8,
  0x3E#8, 0x41#8, 0x41#8, 0x41#8, 0x3E#8,
  0x7F#8, 0x09#8, 0x09#8, 0x09#8, 0x06#8,
  0x3E#8, 0x41#8, 0x51#8, 0x21#8, 0x5E#8,
  0x7F#8, 0x09#8, 0x19#8, 0x29#8, 0x46#8,
  0x46#8, 0x49#8, 0x49#8, 0x49#8, 0x31#8,
  0x01#8, 0x01#8, 0x7F#8, 0x01#8, 0x01#8,
  0x3F#8, 0x40#8, 0x40#8, 0x40#8, 0x3F#8,
  0x1F#8, 0x20#8, 0x40#8, 0x20#8, 0x1F#8,
  0x7F#8, 0x20#8, 0x18#8, 0x20#8, 0x7F#8,
  0x63#8, 0x14#8, 0x08#8, 0x14#8, 0x63#8,
  0x03#8, 0x04#8, 0x78#8, 0x04#8, 0x03#8,
  0x61#8, 0x51#8, 0x49#8, 0x45#8, 0x43#8,
  0x00#8, 0x00#8, 0x7F#8, 0x41#8, 0x41#8,
  0x02#8, 0x04#8, 0x08#8, 0x10#8, 0x20#8,
  0x41#8, 0x41#8, 0x7F#8, 0x00#8, 0x00#8,
  0x04#8, 0x02#8, 0x01#8, 0x02#8, 0x04#8,
  0x40#8, 0x40#8, 0x40#8, 0x40#8, 0x40#8,
  0x00#8, 0x01#8, 0x02#8, 0x04#8, 0x00#8,
  0x20#8, 0x54#8, 0x54#8, 0x54#8, 0x78#8,
  0x7F#8, 0x48#8, 0x44#8, 0x44#8, 0x38#8,
  0x38#8, 0x44#8, 0x44#8, 0x44#8, 0x20#8,
  0x38#8, 0x44#8, 0x44#8, 0x48#8, 0x7F#8,
  0x38#8, 0x54#8, 0x54#8, 0x54#8, 0x18#8,
  0x08#8, 0x7E#8, 0x09#8, 0x01#8, 0x02#8,
  0x08#8, 0x14#8, 0x54#8, 0x54#8, 0x3C#8,
  0x7F#8, 0x08#8, 0x04#8, 0x04#8, 0x78#8,
  0x00#8, 0x44#8, 0x7D#8, 0x40#8, 0x00#8,
  0x20#8, 0x40#8, 0x44#8, 0x3D#8, 0x00#8,
  0x00#8, 0x7F#8, 0x10#8, 0x28#8, 0x44#8,
  0x00#8, 0x41#8, 0x7F#8, 0x40#8, 0x00#8,
  0x7C#8, 0x04#8, 0x18#8, 0x04#8, 0x78#8,
  0x7C#8, 0x08#8, 0x04#8, 0x04#8, 0x78#8,
  0x38#8, 0x44#8, 0x44#8, 0x44#8, 0x38#8,
  0x7C#8, 0x14#8, 0x14#8, 0x14#8, 0x08#8,
  0x08#8, 0x14#8, 0x14#8, 0x18#8, 0x7C#8,
  0x7C#8, 0x08#8, 0x04#8, 0x04#8, 0x08#8,
  0x48#8, 0x54#8, 0x54#8, 0x54#8, 0x20#8,
  0x04#8, 0x3F#8, 0x44#8, 0x40#8, 0x20#8,
  0x3C#8, 0x40#8, 0x40#8, 0x20#8, 0x7C#8,
  0x1C#8, 0x20#8, 0x40#8, 0x20#8, 0x1C#8,
  0x3C#8, 0x40#8, 0x30#8, 0x40#8, 0x3C#8,
  0x44#8, 0x28#8, 0x10#8, 0x28#8, 0x44#8,
  0x0C#8, 0x50#8, 0x50#8, 0x50#8, 0x3C#8,
  0x44#8, 0x64#8, 0x54#8, 0x4C#8, 0x44#8,
  0x00#8, 0x08#8, 0x36#8, 0x41#8, 0x00#8,
  0x00#8, 0x00#8, 0x7F#8, 0x00#8, 0x00#8,
  0x00#8, 0x41#8, 0x36#8, 0x08#8, 0x00#8,
  0x08#8, 0x08#8, 0x2A#8, 0x1C#8, 0x08#8,
  0x08#8, 0x1C#8, 0x2A#8, 0x08#8, 0x08#8]

/-- `font_5x7` (font_5x7.cpp:113). -/
def font5x7 : Font := ⟨32, fontData5x7.length / 5, 5, fontData5x7⟩

end Verif.Lcd
