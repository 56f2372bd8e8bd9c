import Verif.Lcd.Model

/-!
# The display and the canvas

`Chip` is the display controller (UC1701), after the command list in
sblib/src/lcd/graphical_eadogs.cpp:22-87: a memory of pages of 132 columns of 8 pixels, written
at an address that moves one column to the right with every data byte and stays at the last
column.  `Canvas` is what the user of the API has in mind.
-/

namespace Verif.Lcd

/-- The display controller. -/
structure Chip where
  cell : Nat → Nat → Byte
  col : Nat
  page : Nat
  inverse : Bool
  allOn : Bool
  enabled : Bool
  power : Nat
  scroll : Nat
  operand : Bool

/-- A cell of the memory is set. -/
def setCell (cell : Nat → Nat → Byte) (p c : Nat) (v : Byte) : Nat → Nat → Byte :=
  fun p' c' => if p' = p ∧ c' = c then v else cell p' c'

/-- A command byte.  The commands 0x81 and 0xfa take one more byte.  A reset does not clear the
memory.  Commands without a meaning here change nothing. -/
def Chip.command (d : Chip) (b : Byte) : Chip :=
  let n := b.toNat
  if d.operand then { d with operand := false }
  else if n < 0x10 then { d with col := d.col / 16 * 16 + n % 16 }
  else if n < 0x20 then { d with col := n % 16 * 16 + d.col % 16 }
  else if 0x28 ≤ n ∧ n < 0x30 then { d with power := n % 8 }
  else if 0x40 ≤ n ∧ n < 0x80 then { d with scroll := n - 0x40 }
  else if n = 0x81 ∨ n = 0xfa then { d with operand := true }
  else if n = 0xa4 ∨ n = 0xa5 then { d with allOn := n = 0xa5 }
  else if n = 0xa6 ∨ n = 0xa7 then { d with inverse := n = 0xa7 }
  else if n = 0xae ∨ n = 0xaf then { d with enabled := n = 0xaf }
  else if 0xb0 ≤ n ∧ n < 0xc0 then { d with page := n % 16 }
  else if n = 0xe2 then
    { d with
      col := 0, page := 0, inverse := false, allOn := false, enabled := false, power := 0
      scroll := 0 }
  else d

/-- A data byte. -/
def Chip.data (d : Chip) (b : Byte) : Chip :=
  { d with cell := setCell d.cell d.page d.col b, col := min (d.col + 1) 131 }

/-- A byte as it comes in, with the level of the pin CD. -/
def Chip.receive (d : Chip) (b : Bool × Byte) : Chip :=
  if b.1 then d.data b.2 else d.command b.2

/-- The display after all bytes sent. -/
def Chip.after (d : Chip) (sent : List (Bool × Byte)) : Chip := sent.foldl Chip.receive d

/-- The user's view: the pixels, the place where writing goes on, whether colours are swapped. -/
structure Canvas where
  cell : Nat → Nat → Byte
  x : Nat
  y : Nat
  inverse : Bool

/-- The canvas on a display. -/
def Chip.canvas (d : Chip) : Canvas := ⟨d.cell, d.col, d.page, d.inverse⟩

/-- The display shows its memory as it is (or inverted), from line 0, with full power. -/
def Chip.showing (d : Chip) : Prop :=
  d.enabled = true ∧ d.allOn = false ∧ d.power = 7 ∧ d.scroll = 0

/-- One column of pixels is drawn. -/
def Canvas.draw (c : Canvas) (v : Byte) : Canvas :=
  { c with cell := setCell c.cell c.y c.x v, x := min (c.x + 1) 131 }

/-- The font has the character. -/
def Font.has (f : Font) (ch : Byte) : Bool :=
  decide (f.firstChar ≤ (ch.toNat : Int) ∧ (ch.toNat : Int) < f.firstChar + f.numChars)

/-- The columns of a character of the font. -/
def Font.glyph (f : Font) (ch : Byte) : List Byte :=
  (f.data.drop (((ch.toNat : Int) - f.firstChar) * f.charWidth).toNat).take f.charWidth.toNat

/-- The columns of a text: the characters the font has, one after the other. -/
def Font.text (f : Font) (t : List Byte) : List Byte := ((t.filter f.has).map f.glyph).flatten

/-- `font.h:20-27`: the data are numChars * charWidth bytes. -/
def Font.Valid (f : Font) : Prop :=
  0 ≤ f.numChars ∧ 0 ≤ f.charWidth ∧ (f.data.length : Int) = f.numChars * f.charWidth

/-- The calls of the API; a position on the memory of the display is allowed. -/
inductive Call where
  | pos (x y : Nat)
  | inverse (enable : Bool)
  | write (ch : Byte)
  | print (t : List Byte)
  | clear

/-- The position is on the display (graphical_eadogs.h:47-54; 132 columns, 8 pages). -/
def Call.Allowed : Call → Prop
  | .pos x y => x ≤ 131 ∧ y ≤ 7
  | _ => True

/-- What the calls do on the line; `none` is an access outside the font data. -/
def call (f : Font) (c : Call) (l : Line) : Option Line :=
  match c with
  | .pos x y => some (pos x y l)
  | .inverse b => some (inverse b l)
  | .write ch => (write f ch l).map (·.1)
  | .print t => (print f t l).map (·.1)
  | .clear => some (clear l)

/-- All calls of a history. -/
def calls (f : Font) : List Call → Line → Option Line
  | [], l => some l
  | c :: cs, l => (call f c l).bind (calls f cs)

/-- What the user expects of a call. -/
def Canvas.call (f : Font) (v : Canvas) : Call → Canvas
  | .pos x y => { v with x := x, y := y }
  | .inverse b => { v with inverse := b }
  | .write ch => (f.text [ch]).foldl Canvas.draw v
  | .print t => (f.text t).foldl Canvas.draw v
  | .clear =>
    { v with cell := fun p c => if p ≤ 7 ∧ c ≤ 101 then 0#8 else v.cell p c, x := 0, y := 0 }

end Verif.Lcd
