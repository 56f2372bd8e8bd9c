import Verif.Base

/-!
# What a font and a text are (specification)

A font is a table of letters, each a small picture with its place relative to the writing
position. `Font.StoredAt` says how the bytes of a font lie in memory; the layout is that
of the comments in u8glib/src/u8g_font.c:50-68, 280-291 and 300-308. Nothing here
mentions how the library searches a font or draws.
-/

namespace Verif.U8g

/-- One letter: its size, how far its left column is to the right of the writing position,
how far its lowest row is above the line, how far the writing position moves on, and its
rows from the top, each with as many bytes as needed. -/
structure Letter where
  width : Nat
  height : Nat
  right : Int
  up : Int
  advance : Int
  data : List Byte

/-- The bytes of one row. -/
def Letter.rowBytes (g : Letter) : Nat := (g.width + 7) / 8

/-- Whether the point in column `i` from the left and row `j` from the top belongs to the
letter: the leftmost of eight points is in the highest bit. -/
def Letter.Lit (g : Letter) (i j : Nat) : Prop :=
  (g.data.getD (j * g.rowBytes + i / 8) 0).getLsbD (7 - i % 8) = true

/-- A font: the code of its first letter and the letters of this and the following codes.
`small` fonts have a packed form of the letters. -/
structure Font where
  small : Bool
  first : Nat
  letters : List (Option Letter)

/-- The letter for a code, if the font has one. -/
def Font.letter (F : Font) (c : Byte) : Option Letter :=
  if F.first ≤ c.toNat then F.letters.getD (c.toNat - F.first) none else none

/-- The numbers of the letter fit into the fields of the stored form, its data has the right
length, and the bits to the right of its last column are not set. -/
structure Letter.Ok (small : Bool) (g : Letter) : Prop where
  length : g.data.length = g.height * g.rowBytes
  padding : ∀ i j, g.width ≤ i → i < 8 * g.rowBytes → j < g.height → ¬ g.Lit i j
  large : small = false → g.width ≤ 248 ∧ g.height ≤ 255 ∧ g.data.length ≤ 255 ∧
    -128 ≤ g.right ∧ g.right ≤ 127 ∧ -128 ≤ g.up ∧ g.up ≤ 127 ∧
    -128 ≤ g.advance ∧ g.advance ≤ 127
  packed : small = true → g.width ≤ 15 ∧ g.height ≤ 15 ∧ g.data.length ≤ 15 ∧
    0 ≤ g.right ∧ g.right ≤ 15 ∧ -2 ≤ g.up ∧ g.up ≤ 13 ∧ ¬ (g.right = 15 ∧ g.up = 13) ∧
    0 ≤ g.advance ∧ g.advance ≤ 15

/-- A font with at least one entry, whose codes do not exceed 255. -/
structure Font.Ok (F : Font) : Prop where
  some : 0 < F.letters.length
  codes : F.first + F.letters.length ≤ 256
  letters : ∀ g, Option.some g ∈ F.letters → g.Ok F.small

/-- The bytes of an entry; a code without letter has the single byte 255. -/
def entryBytes (small : Bool) : Option Letter → List Byte
  | none => [255]
  | some g =>
    (if small then
      [BitVec.ofInt 8 (16 * g.right + (g.up + 2)), BitVec.ofNat 8 (16 * g.width + g.height),
        BitVec.ofInt 8 (16 * g.advance + g.data.length)]
    else
      [BitVec.ofNat 8 g.width, BitVec.ofNat 8 g.height, BitVec.ofNat 8 g.data.length,
        BitVec.ofInt 8 g.advance, BitVec.ofInt 8 g.right, BitVec.ofInt 8 g.up]) ++ g.data

/-- The bytes of a list of entries. -/
def entriesBytes (small : Bool) (l : List (Option Letter)) : List Byte :=
  l.flatMap (entryBytes small)

/-- Where entry `k` begins, counted from the beginning of the font. -/
def Font.place (F : Font) (k : Nat) : Nat := 17 + (entriesBytes F.small (F.letters.take k)).length

/-- The word at offset `o` is 0 or says where the entry of code `c` begins. -/
def Font.Shortcut (F : Font) (mem : Nat → Byte) (o c : Nat) : Prop :=
  (mem o).toNat * 256 + (mem (o + 1)).toNat = 0 ∨
  ∃ k, F.first + k = c ∧ k < F.letters.length ∧
    (mem o).toNat * 256 + (mem (o + 1)).toNat = F.place k

/-- The memory from the font pointer on holds the font. -/
structure Font.StoredAt (F : Font) (mem : Nat → Byte) : Prop where
  format : mem 0 = if F.small then 1 else 0
  first : (mem 10).toNat = F.first
  last : (mem 11).toNat + 1 = F.first + F.letters.length
  capital : F.Shortcut mem 6 65
  lower : F.Shortcut mem 8 97
  body : ∀ i, i < (entriesBytes F.small F.letters).length →
    mem (17 + i) = (entriesBytes F.small F.letters).getD i 0

/-- The point `a` to the right of the writing position and `b` above the line belongs to the
text: each letter stands where the letters before it have moved the writing position; codes
without letter leave no trace. -/
def TextAt (F : Font) : List Byte → (pen a b : Int) → Prop
  | [], _, _, _ => False
  | c :: s, pen, a, b =>
    match F.letter c with
    | none => TextAt F s pen a b
    | some g =>
      (∃ i j, i < g.width ∧ j < g.height ∧ g.Lit i j ∧ a = pen + g.right + i ∧
        b = g.up + (g.height - 1 - j : Int)) ∨ TextAt F s (pen + g.advance) a b

/-- How far a text moves the writing position. -/
def advanceOf (F : Font) : List Byte → Int
  | [] => 0
  | c :: s => (match F.letter c with | none => 0 | some g => g.advance) + advanceOf F s

/-- The point of the display `a` to the right of and `b` above the reference position `(x, y)`,
if the text runs to the right (0), downwards (1), to the left, upside down (2) or upwards
(3). The line runs between row `y` and the row above. -/
def turned (dir : Nat) (x y : Byte) (a b : Int) : Byte × Byte :=
  match dir with
  | 0 => (x + BitVec.ofInt 8 a, y - 1 - BitVec.ofInt 8 b)
  | 1 => (x + 1 + BitVec.ofInt 8 b, y + BitVec.ofInt 8 a)
  | 2 => (x - BitVec.ofInt 8 a, y + 1 + BitVec.ofInt 8 b)
  | _ => (x - 1 - BitVec.ofInt 8 b, y - BitVec.ofInt 8 a)

end Verif.U8g
