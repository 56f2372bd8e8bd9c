import Verif.U8g.Model
import Verif.U8g.TextSpec

/-!
# What a picture is (specification)

Which points the calls of a drawing procedure cover, and which picture results from
them. Nothing here mentions pages, buffers or clipping.
-/

namespace Verif.U8g

/-- `p` is one of the `w` coordinates from `s` on. Coordinates have eight bits: after 255
comes 0. -/
def Span (s w p : Byte) : Prop := ∃ i, i < w.toNat ∧ p = s + BitVec.ofNat 8 i

/-- The point `(dx, dy)`, seen from the centre, belongs to the circle of radius `r`: along the
column or row that crosses the circle more steeply it is the one nearest to the circle. With
`a` the smaller and `b` the larger distance from the axes, the true circle lies at
the distance `√(r² - a²)`, and `b - 1/2 < √(r² - a²) < b + 1/2`; since all numbers are
whole, this is `b² - b < r² - a² ≤ b² + b`. -/
def OnCircle (r : Nat) (dx dy : Int) : Prop :=
  let a : Int := min dx.natAbs dy.natAbs
  let b : Int := max dx.natAbs dy.natAbs
  (b = 0 ∨ b * b - b < r * r - a * a) ∧ (r * r - a * a : Int) ≤ b * b + b

/-- The point `(dx, dy)`, seen from the centre, belongs to the disc of radius `r`: it is
on the circle or within it. -/
def InDisc (r : Nat) (dx dy : Int) : Prop :=
  let a : Int := min dx.natAbs dy.natAbs
  let b : Int := max dx.natAbs dy.natAbs
  b = 0 ∨ b * b - b < r * r - a * a

/-- The quarter of the point `(dx, dy)` is asked for; rows are counted downwards. -/
def Chosen (opt : Byte) (dx dy : Int) : Prop :=
  (opt.getLsbD 0 = true ∧ 0 ≤ dx ∧ dy ≤ 0) ∨ (opt.getLsbD 1 = true ∧ dx ≤ 0 ∧ dy ≤ 0) ∨
  (opt.getLsbD 2 = true ∧ dx ≤ 0 ∧ 0 ≤ dy) ∨ (opt.getLsbD 3 = true ∧ 0 ≤ dx ∧ 0 ≤ dy)

/-- How far the coordinate `i` of a side of length `n` is inside one of the two corner pieces
of length `r`: 0 on the straight part, else the distance from the end of the straight part. -/
def inCorner (n r i : Nat) : Int :=
  if i < r then (i : Int) - r else if n - 1 - r < i then (i : Int) - ((n : Int) - 1 - r) else 0

/-- Column `i` and row `j` of a rectangle of `w` times `h` points belong to the frame with corners
rounded by the radius `r`: in a corner piece the quarter of a circle, else the border. -/
def OnRFrame (w h r i j : Nat) : Prop :=
  if inCorner w r i ≠ 0 ∧ inCorner h r j ≠ 0 then OnCircle r (inCorner w r i) (inCorner h r j)
  else i = 0 ∨ i = w - 1 ∨ j = 0 ∨ j = h - 1

/-- The same for the box with rounded corners. -/
def InRBox (w h r i j : Nat) : Prop := InDisc r (inCorner w r i) (inCorner h r j)

/-- The reference heights of a font above and below the line, by the choice of the user: the
height of the letter A and the depth of g, the same of the extended set, or of all letters. -/
def heights (mem : Nat → Byte) : HeightMode → Int × Int
  | .text => ((mem 5).toInt, (mem 12).toInt)
  | .xtext => ((mem 15).toInt, (mem 16).toInt)
  | .all => ((mem 13).toInt, (mem 14).toInt)

/-- How far above the line a letter's point is that stands on the row above the given position:
the line itself, the depth, one above the height, or the middle between them. -/
def reference (mem : Nat → Byte) (mode : HeightMode) : FontPos → Int
  | .baseline => 0
  | .bottom => (heights mem mode).2
  | .top => (heights mem mode).1 + 1
  | .center => ((heights mem mode).1 - (heights mem mode).2).tdiv 2 + (heights mem mode).2

/-- The points of a call's figure. -/
def Covers : Cmd → Byte → Byte → Prop
  | .color _, _, _ => False
  | .pixel x y, px, py => px = x ∧ py = y
  | .hline x y w, px, py => Span x w px ∧ py = y
  | .vline x y h, px, py => px = x ∧ Span y h py
  | .frame x y w h, px, py =>
    Span x w px ∧ Span y h py ∧ (px = x ∨ px = x + w - 1 ∨ py = y ∨ py = y + h - 1)
  | .box x y w h, px, py => Span x w px ∧ Span y h py
  | .bitmap x y cnt h bm, px, py =>
    ∃ r i, r < h.toNat ∧ i < 8 * cnt.toNat ∧
      px = x + BitVec.ofNat 8 i ∧ py = y + BitVec.ofNat 8 r ∧
      (bm (r * cnt.toNat + i / 8)).getLsbD (7 - i % 8) = true
  | .dots ps, px, py => (px, py) ∈ ps
  | .circle x0 y0 rad opt, px, py =>
    ∃ dx dy : Int, px = x0 + BitVec.ofInt 8 dx ∧ py = y0 + BitVec.ofInt 8 dy ∧
      OnCircle rad.toNat dx dy ∧ Chosen opt dx dy
  | .disc x0 y0 rad opt, px, py =>
    ∃ dx dy : Int, px = x0 + BitVec.ofInt 8 dx ∧ py = y0 + BitVec.ofInt 8 dy ∧
      InDisc rad.toNat dx dy ∧ Chosen opt dx dy
  | .rframe x y w h r, px, py =>
    ∃ i j, i < w.toNat ∧ j < h.toNat ∧ px = x + BitVec.ofNat 8 i ∧ py = y + BitVec.ofNat 8 j ∧
      OnRFrame w.toNat h.toNat r.toNat i j
  | .rbox x y w h r, px, py =>
    ∃ i j, i < w.toNat ∧ j < h.toNat ∧ px = x + BitVec.ofNat 8 i ∧ py = y + BitVec.ofNat 8 j ∧
      InRBox w.toNat h.toNat r.toNat i j
  | .text mem mode pos dir x y s, px, py =>
    dir < 4 ∧ ∃ F : Font, F.Ok ∧ F.StoredAt mem ∧
      ∃ a b, TextAt F s 0 a b ∧ (px, py) = turned dir.toNat x y a (b - reference mem mode pos)
  | .xbm x y w h bm, px, py =>
    ∃ i r, i < w.toNat ∧ r < h.toNat ∧ px = x + BitVec.ofNat 8 i ∧ py = y + BitVec.ofNat 8 r ∧
      (bm (r * ((w.toNat + 7) / 8) + i / 8)).getLsbD (i % 8) = true

/-- The restrictions that the comments of the library state for boxes and frames, that a
bitmap is not wider than the range of the coordinates, that circles are not larger than
the arithmetic of eight bits allows, that rounded rectangles have room for their corners, that
the memory of a text's font holds a font whose height has a sign bit to spare, and that an XBM
bitmap is at most 248 columns wide. -/
def Allowed : Cmd → Prop
  | .frame _ _ w h => w ≠ 0 ∧ h ≠ 0
  | .box _ _ _ h => h ≠ 0
  | .bitmap _ _ cnt _ _ => cnt ≤ 32
  | .circle _ _ rad _ => rad ≤ 76
  | .disc _ _ rad _ => rad ≤ 76
  | .rframe _ _ w h r => r ≤ 76 ∧ 2 * r.toNat + 2 ≤ w.toNat ∧ 2 * r.toNat + 2 ≤ h.toNat
  | .rbox _ _ w h r => r ≤ 76 ∧ 2 * r.toNat + 2 ≤ w.toNat ∧ 2 * r.toNat + 3 ≤ h.toNat
  | .text mem mode pos _ _ _ _ => (∃ F : Font, F.Ok ∧ F.StoredAt mem) ∧
    (pos = .center → -128 ≤ (heights mem mode).1 - (heights mem mode).2 ∧
      (heights mem mode).1 - (heights mem mode).2 ≤ 127)
  | .xbm _ _ w _ _ => w ≤ 248
  | _ => True

open Classical in
/-- One call, seen at one point: the colour in use and whether the point is lit. -/
noncomputable def look (px py : Byte) (s : Byte × Bool) (c : Cmd) : Byte × Bool :=
  match c with
  | .color i => (i, s.2)
  | c => (s.1, if Covers c px py then decide (s.1 ≠ 0) else s.2)

/-- Whether the point is lit in the picture: the display is dark at first, and the last
figure that covers the point decides. `c` is the colour in use at the beginning. -/
noncomputable def picture (cs : List Cmd) (c px py : Byte) : Bool :=
  (cs.foldl (look px py) (c, false)).2

/-- The colour in use after the calls. -/
def lastColor : List Cmd → Byte → Byte
  | [], c => c
  | .color i :: cs, _ => lastColor cs i
  | _ :: cs, c => lastColor cs c

/-- The point of the user that is seen in column `X` and row `Y` of a display with `W`
columns and `H` rows, for the four ways in which the display can be mounted. -/
def userPoint (r : Rot) (W H X Y : Nat) : Nat × Nat :=
  match r with
  | .none => (X, Y)
  | .rot90 => (Y, W - 1 - X)
  | .rot180 => (W - 1 - X, H - 1 - Y)
  | .rot270 => (H - 1 - Y, X)

/-- What the display with `W` columns and `H` rows must show in column `X` and row `Y`. -/
noncomputable def expected (cs : List Cmd) (c : Byte) (r : Rot) (W H X Y : Nat) : Bool :=
  picture cs c (BitVec.ofNat 8 (userPoint r W H X Y).1) (BitVec.ofNat 8 (userPoint r W H X Y).2)

/-- The entry of the list of sent buffers carries page `k` of the picture: the byte of
each column has the page's first row in its lowest bit. -/
def IsPage (cs : List Cmd) (c : Byte) (r : Rot) (W H k : Nat) (e : Byte × List Byte) : Prop :=
  e.1 = BitVec.ofNat 8 k ∧ e.2.length = W ∧
    ∀ X j, X < W → j < 8 → 8 * k + j < H →
      (e.2.getD X 0).getLsbD j = expected cs c r W H X (8 * k + j)

end Verif.U8g
