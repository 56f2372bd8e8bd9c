import Verif.U8g.Spec

/-!
# Straight lines of the graphics library (model)

`u8g_DrawLine` only calls `u8g_DrawPixel`. The model gives the points in the order of these
calls. `u8g_uint_t` is `uint8_t` and `u8g_int_t` is `int8_t` (u8glib/inc/u8g.h:159-165).
-/

namespace Verif.U8g

/-- The loop of `u8g_DrawLine` (u8glib/src/u8g_line.c:68-80). The first argument bounds the
number of passes, `none` says that the loop has not ended. -/
def lineLoop (swap : Bool) (x2 dx dy ystep : Byte) :
    Nat → (x y err : Byte) → Option (List (Byte × Byte))
  | 0, _, _, _ => none
  | n + 1, x, y, err =>
    if x ≤ x2 then
      let pt := if swap then (y, x) else (x, y)
      let rest :=
        if (err - dy).slt 0 then lineLoop swap x2 dx dy ystep n (x + 1) (y + ystep) (err - dy + dx)
        else lineLoop swap x2 dx dy ystep n (x + 1) y (err - dy)
      rest.map (pt :: ·)
    else some []

/-- The start of the loop (u8glib/src/u8g_line.c:65-68). -/
def lineStart (n : Nat) (swap : Bool) (x1 y1 x2 y2 dx dy : Byte) : Option (List (Byte × Byte)) :=
  lineLoop swap x2 dx dy (if y1 < y2 then 1 else -1) n x1 y1 (dx >>> 1)

/-- The ends are exchanged if need be (u8glib/src/u8g_line.c:60-64). -/
def lineOrder (n : Nat) (swap : Bool) (x1 y1 x2 y2 dx dy : Byte) : Option (List (Byte × Byte)) :=
  if x2 < x1 then lineStart n swap x2 y2 x1 y1 dx dy else lineStart n swap x1 y1 x2 y2 dx dy

/-- The length of one side (u8glib/src/u8g_line.c:50-51). -/
def absDiff (a b : Byte) : Byte := if b < a then a - b else b - a

/-- `u8g_DrawLine` (u8glib/src/u8g_line.c:38-81): the points in the order in which they are
drawn. -/
def linePoints (n : Nat) (x1 y1 x2 y2 : Byte) : Option (List (Byte × Byte)) :=
  if absDiff x1 x2 < absDiff y1 y2 then
    lineOrder n true y1 x1 y2 x2 (absDiff y1 y2) (absDiff x1 x2)
  else lineOrder n false x1 y1 x2 y2 (absDiff x1 x2) (absDiff y1 y2)

/-! ## Specification -/

/-- The points are a straight line from `(x1, y1)` to `(x2, y2)` that has one point in each
column: both ends belong to it, each column between them has exactly one point, no
other column has one, and no point is further than half a point away from the straight line
(measured along its column). -/
structure IsFlat (x1 y1 x2 y2 : Int) (S : Int → Int → Prop) : Prop where
  first : S x1 y1
  last : S x2 y2
  inside : ∀ x y, S x y → min x1 x2 ≤ x ∧ x ≤ max x1 x2
  column : ∀ x, min x1 x2 ≤ x → x ≤ max x1 x2 → ∃ y, S x y ∧ ∀ y', S x y' → y' = y
  near : ∀ x y, S x y →
    2 * ((y - y1) * (x2 - x1) - (x - x1) * (y2 - y1)).natAbs ≤ (x2 - x1).natAbs

/-- A straight line: one point in each column if it is not steep, else one point in each
row. -/
def IsLine (x1 y1 x2 y2 : Int) (S : Int → Int → Prop) : Prop :=
  if (y2 - y1).natAbs ≤ (x2 - x1).natAbs then IsFlat x1 y1 x2 y2 S
  else IsFlat y1 x1 y2 x2 (fun a b => S b a)

/-- The points of a list of coordinates, as numbers. -/
def PointsOf (ps : List (Byte × Byte)) (x y : Int) : Prop :=
  ∃ p ∈ ps, x = (p.1.toNat : Int) ∧ y = (p.2.toNat : Int)

end Verif.U8g
