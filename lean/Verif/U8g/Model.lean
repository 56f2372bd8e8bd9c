import Verif.Base

/-!
# The graphics library u8glib with a page buffer of eight rows

Model of the part of /repo/u8glib that draws on a monochrome display: the page
structure, the page buffer "8 rows, vertical bytes" (`u8g_pb8v1`), the clipping
test, lines, boxes, frames, circles, bitmaps and text, the rotation devices, the picture
loop and the driver of the PCD8544 display.

Simplifications, once for the whole file:

* `u8g_uint_t` is `uint8_t` and `u8g_int_t` is `int8_t`: the symbol `U8G_16BIT` is
  not defined (u8glib/inc/u8g.h:40, 159-165).
* A device chain is either the display alone or one rotation device in front of it
  (u8glib/src/u8g_rot.c has a single static rotation device).
* The callbacks that save and restore the SPI registers (`state_cb`) do nothing, as
  `u8g_state_dummy_cb` does, and no cursor is switched on (`cursor_fn` is null, which
  `u8g_init_data` sets).
* Writing to the display does not fail.
* The memory behind the buffer pointer is a total function, so that a write outside
  the buffer would be seen.
-/

namespace Verif.U8g

/-- `u8g_page_t` (u8glib/inc/u8g.h:878-886). -/
structure Page where
  pageHeight : Byte
  totalHeight : Byte
  y0 : Byte
  y1 : Byte
  page : Byte

/-- `u8g_page_First` (u8glib/src/u8g_page.c:53-59). -/
def pageFirst (p : Page) : Page :=
  { p with y0 := 0, y1 := p.pageHeight - 1, page := 0 }

/-- `u8g_page_Next` (u8glib/src/u8g_page.c:61-78): the structure afterwards and
whether there is a next page. -/
def pageNext (p : Page) : Page × Bool :=
  if p.totalHeight ≤ p.y0 + p.pageHeight then
    ({ p with y0 := p.y0 + p.pageHeight }, false)
  else
    ({ p with
        y0 := p.y0 + p.pageHeight
        page := p.page + 1
        y1 :=
          if p.totalHeight ≤ p.y1 + p.pageHeight then p.totalHeight - 1
          else p.y1 + p.pageHeight }, true)

/-- `u8g_pb_t` (u8glib/inc/u8g.h:895-901). `mem` is the memory that starts at `buf`. -/
structure Pb where
  p : Page
  width : Byte
  mem : Nat → Byte

/-- Write one byte of the memory behind the buffer pointer. -/
def poke (b : Pb) (i : Nat) (v : Byte) : Pb :=
  { b with mem := fun j => if j = i then v else b.mem j }

/-- `u8g_pb_Clear` (u8glib/src/u8g_pb.c:41-50). Simplified: the loop tests its
condition at its end, so that a width of 0 would run through the whole memory; no
display has this width. -/
def clear (b : Pb) : Pb :=
  { b with mem := fun j => if j < b.width.toNat then 0 else b.mem j }

/-- `u8g_pb8v1_set_pixel` (u8glib/src/u8g_pb8v1.c:57-76). -/
def setPixelRaw (b : Pb) (x y color : Byte) : Pb :=
  let y := (y - b.p.y0) &&& 0x07
  let mask := (1 : Byte) <<< y.toNat
  if color ≠ 0 then poke b x.toNat (b.mem x.toNat ||| mask)
  else poke b x.toNat (b.mem x.toNat &&& (mask ^^^ 0xff))

/-- `u8g_pb8v1_SetPixel` (u8glib/src/u8g_pb8v1.c:79-88). -/
def pbSetPixel (b : Pb) (x y color : Byte) : Pb :=
  if y < b.p.y0 then b
  else if b.p.y1 < y then b
  else if b.width ≤ x then b
  else setPixelRaw b x y color

/-- The loop of `u8g_pb8v1_Set8PixelOpt2` (u8glib/src/u8g_pb8v1.c:125-132). The loop
ends when all set bits are shifted out, after at most eight passes; the first argument
counts them. -/
def set8Loop : Nat → Pb → (x y dx dy color pixel : Byte) → Pb
  | 0, b, _, _, _, _, _, _ => b
  | n + 1, b, x, y, dx, dy, color, pixel =>
    let b := if pixel &&& 128 ≠ 0 then pbSetPixel b x y color else b
    if pixel <<< 1 = 0 then b
    else set8Loop n b (x + dx) (y + dy) dx dy color (pixel <<< 1)

/-- The step to the right of `u8g_pb8v1_Set8PixelOpt2` (u8glib/src/u8g_pb8v1.c:114-123). -/
def stepX (dir : Byte) : Byte :=
  if dir = 0 then 1 else if dir = 2 then -1 else 0

/-- The step down of `u8g_pb8v1_Set8PixelOpt2` (u8glib/src/u8g_pb8v1.c:114-123). -/
def stepY (dir : Byte) : Byte :=
  if dir = 1 then 1 else if dir = 3 then -1 else 0

/-- `u8g_pb8v1_Set8PixelOpt2` (u8glib/src/u8g_pb8v1.c:111-134). -/
def pbSet8Pixel (b : Pb) (x y dir color pixel : Byte) : Pb :=
  set8Loop 8 b x y (stepX dir) (stepY dir) color pixel

/-- `u8g_pb_IsYIntersection` (u8glib/src/u8g_pb.c:90-113). -/
def isYIntersection (b : Pb) (v0 v1 : Byte) : Bool :=
  let c1 := decide (v0 ≤ b.p.y1)
  let c2 := decide (b.p.y0 ≤ v1)
  let c3 := decide (v1 < v0)
  (c1 && c2) || (c2 && c3) || (c3 && c1)

/-- `u8g_pb_Is8PixelVisible` (u8glib/src/u8g_pb.c:164-183). -/
def is8PixelVisible (b : Pb) (y dir : Byte) : Bool :=
  let v0 := if dir = 3 then y - 8 else y
  let v1 := if dir = 1 then y + 8 else y
  isYIntersection b v0 v1

/-- `u8g_box_t` (u8glib/inc/u8g.h:533-536). -/
structure Box where
  x0 : Byte
  y0 : Byte
  x1 : Byte
  y1 : Byte

/-- `u8g_pb_GetPageBox` (u8glib/src/u8g_pb.c:154-161). -/
def pbPageBox (b : Pb) : Box :=
  { x0 := 0, y0 := b.p.y0, x1 := b.width - 1, y1 := b.p.y1 }

/-- The head of the device chain: the display itself or the rotation device with one
of its three functions (u8glib/src/u8g_rot.c:61-92). -/
inductive Rot where
  | none
  | rot90
  | rot180
  | rot270

/-- `U8G_DEV_MSG_GET_PAGE_BOX` along the device chain
(u8glib/src/u8g_pb8v1.c:165-167, u8glib/src/u8g_rot.c:137-153, 238-252, 345-359). -/
def pageBox (r : Rot) (b : Pb) : Box :=
  let k := pbPageBox b
  match r with
  | .none => k
  | .rot90 => { x0 := k.y0, x1 := k.y1, y0 := k.x0, y1 := k.x1 }
  | .rot180 =>
    { x0 := b.width - k.x1 - 1, x1 := b.width - k.x0 - 1
      y0 := b.p.totalHeight - k.y1 - 1, y1 := b.p.totalHeight - k.y0 - 1 }
  | .rot270 =>
    { x0 := b.p.totalHeight - k.y1 - 1, x1 := b.p.totalHeight - k.y0 - 1
      y0 := b.width - k.x1 - 1, y1 := b.width - k.x0 - 1 }

/-- The column at which the display is addressed for the point `(x, y)` of the user
(u8glib/src/u8g_rot.c:160-188, 259-296, 366-407). -/
def rotX (r : Rot) (b : Pb) (x y : Byte) : Byte :=
  match r with
  | .none => x
  | .rot90 => b.width - y - 1
  | .rot180 => b.width - x - 1
  | .rot270 => y

/-- The row at which the display is addressed for the point `(x, y)` of the user
(u8glib/src/u8g_rot.c:160-188, 259-296, 366-407). -/
def rotY (r : Rot) (b : Pb) (x y : Byte) : Byte :=
  match r with
  | .none => y
  | .rot90 => x
  | .rot180 => b.p.totalHeight - y - 1
  | .rot270 => b.p.totalHeight - x - 1

/-- The direction in which the display draws eight pixels
(u8glib/src/u8g_rot.c:184-185, 292-293, 403-404). -/
def rotDir (r : Rot) (dir : Byte) : Byte :=
  match r with
  | .none => dir
  | .rot90 => (dir + 1) &&& 3
  | .rot180 => (dir + 2) &&& 3
  | .rot270 => (dir + 3) &&& 3

/-- `u8g_t` (u8glib/inc/u8g.h:1051-1091) with the device it draws on: the page buffer,
the rotation, the box of the current page and the colour. `sent` lists what was sent to
the display: the number of the page and the bytes of the buffer. -/
structure U8g where
  pb : Pb
  rot : Rot
  box : Box
  color : Byte
  sent : List (Byte × List Byte)

/-- `u8g_UpdateDimension` (u8glib/src/u8g_ll_api.c:148-155). Simplified: width, height
and mode are not stored, since nothing in this model reads them. -/
def updateDimension (u : U8g) : U8g := { u with box := pageBox u.rot u.pb }

/-- `u8g_SetRot90`, `u8g_SetRot180`, `u8g_SetRot270` and `u8g_UndoRotation`
(u8glib/src/u8g_rot.c:53-92). -/
def setRot (u : U8g) (r : Rot) : U8g := updateDimension { u with rot := r }

/-- `u8g_SetColorIndex` (u8glib/src/u8g_ll_api.c:462-466). -/
def setColorIndex (u : U8g) (idx : Byte) : U8g := { u with color := idx }

/-- `u8g_DrawPixel` (u8glib/src/u8g_ll_api.c:413-416, 87-93) along the device chain. -/
def drawPixel (u : U8g) (x y : Byte) : U8g :=
  { u with pb := pbSetPixel u.pb (rotX u.rot u.pb x y) (rotY u.rot u.pb x y) u.color }

/-- `u8g_Draw8Pixel` (u8glib/src/u8g_ll_api.c:418-421, 95-103) along the device chain
down to u8glib/src/u8g_pb8v1.c:141-144. -/
def draw8Pixel (u : U8g) (x y dir pixel : Byte) : U8g :=
  if is8PixelVisible u.pb (rotY u.rot u.pb x y) (rotDir u.rot dir) then
    { u with
      pb := pbSet8Pixel u.pb (rotX u.rot u.pb x y) (rotY u.rot u.pb x y)
        (rotDir u.rot dir) u.color pixel }
  else u

/-- `u8g_is_intersection_decision_tree` (u8glib/src/u8g_clip.c:98-138). -/
def isIntersection (a0 a1 v0 v1 : Byte) : Bool :=
  if v0 ≤ a1 then
    if a0 ≤ v1 then true else decide (v1 < v0)
  else
    if a0 ≤ v1 then decide (v1 < v0) else false

/-- `u8g_IsBBXIntersection` (u8glib/src/u8g_clip.c:141-154). -/
def isBBXIntersection (u : U8g) (x y w h : Byte) : Bool :=
  if isIntersection u.box.y0 u.box.y1 y (y + h - 1) then
    isIntersection u.box.x0 u.box.x1 x (x + w - 1)
  else false

/-- `u8g_draw_hline` (u8glib/src/u8g_rect.c:41-57). -/
def hlineRaw (u : U8g) (x y w : Byte) : U8g :=
  if h : 8 ≤ w then hlineRaw (draw8Pixel u x y 0 0xff) (x + 8) y (w - 8)
  else if w ≠ 0 then
    draw8Pixel u x y 0 ((0xff : Byte) <<< (((w ^^^ 7) + 1) &&& 7).toNat)
  else u
termination_by w.toNat
decreasing_by
  bv_omega

/-- `u8g_draw_vline` (u8glib/src/u8g_rect.c:59-75). -/
def vlineRaw (u : U8g) (x y h : Byte) : U8g :=
  if hh : 8 ≤ h then vlineRaw (draw8Pixel u x y 1 0xff) x (y + 8) (h - 8)
  else if h ≠ 0 then
    draw8Pixel u x y 1 ((0xff : Byte) <<< (((h ^^^ 7) + 1) &&& 7).toNat)
  else u
termination_by h.toNat
decreasing_by
  bv_omega

/-- `u8g_DrawHLine` (u8glib/src/u8g_rect.c:77-82). -/
def drawHLine (u : U8g) (x y w : Byte) : U8g :=
  if isBBXIntersection u x y w 1 then hlineRaw u x y w else u

/-- `u8g_DrawVLine` (u8glib/src/u8g_rect.c:84-89). -/
def drawVLine (u : U8g) (x y w : Byte) : U8g :=
  if isBBXIntersection u x y 1 w then vlineRaw u x y w else u

/-- `u8g_DrawFrame` (u8glib/src/u8g_rect.c:92-108). -/
def drawFrame (u : U8g) (x y w h : Byte) : U8g :=
  if isBBXIntersection u x y w h then
    let u := hlineRaw u x y w
    let u := vlineRaw u x y h
    let u := vlineRaw u (x + w - 1) y h
    hlineRaw u x (y + h - 1) w
  else u

/-- The loop of `u8g_draw_box` (u8glib/src/u8g_rect.c:112-117); it tests its condition
at its end, so that a height of 0 draws 256 lines. -/
def boxRaw (u : U8g) (x y w h : Byte) : U8g :=
  let u := hlineRaw u x y w
  if hh : h - 1 = 0 then u else boxRaw u x (y + 1) w (h - 1)
termination_by (h - 1).toNat
decreasing_by
  bv_omega

/-- `u8g_DrawBox` (u8glib/src/u8g_rect.c:121-126). -/
def drawBox (u : U8g) (x y w h : Byte) : U8g :=
  if isBBXIntersection u x y w h then boxRaw u x y w h else u

/-- `u8g_DrawHBitmap` (u8glib/src/u8g_bitmap.c:39-48); `bm` is the memory from the
pointer `bitmap` on. -/
def hbitmapLoop (u : U8g) (x y : Byte) (bm : Nat → Byte) : Nat → U8g
  | 0 => u
  | n + 1 => hbitmapLoop (draw8Pixel u x y 0 (bm 0)) (x + 8) y (fun i => bm (i + 1)) n

/-- The loop of `u8g_DrawBitmap` (u8glib/src/u8g_bitmap.c:54-60). -/
def bitmapLoop (u : U8g) (x y cnt : Byte) (bm : Nat → Byte) : Nat → U8g
  | 0 => u
  | n + 1 =>
    bitmapLoop (hbitmapLoop u x y bm cnt.toNat) x (y + 1) cnt (fun i => bm (i + cnt.toNat)) n

/-- `u8g_DrawBitmap` (u8glib/src/u8g_bitmap.c:50-61). -/
def drawBitmap (u : U8g) (x y cnt h : Byte) (bm : Nat → Byte) : U8g :=
  if isBBXIntersection u x y (cnt * 8) h then bitmapLoop u x y cnt bm h.toNat else u

/-- The points at which `u8g_draw_circle` and `u8g_draw_disc` draw a section, in the first
of the eight parts (u8glib/src/u8g_circle.c:256-271, 343-358). The loop ends after at most
255 passes, since `x` goes up and `y` does not; the first argument counts them. -/
def circleSteps : Nat → (x y f ddfX ddfY : Byte) → List (Byte × Byte)
  | 0, x, y, _, _, _ => [(x, y)]
  | n + 1, x, y, f, ddfX, ddfY =>
    (x, y) ::
      if x < y then
        if f.slt 0 then circleSteps n (x + 1) y (f + (ddfX + 2)) (ddfX + 2) ddfY
        else circleSteps n (x + 1) (y - 1) (f + (ddfY + 2) + (ddfX + 2)) (ddfX + 2) (ddfY + 2)
      else []

/-- The start of both loops (u8glib/src/u8g_circle.c:247-254, 334-341). -/
def circleStart (rad : Byte) : List (Byte × Byte) :=
  circleSteps 255 0 rad (1 - rad) 1 ((0 - rad) * 2)

/-- `u8g_draw_circle_section` (u8glib/src/u8g_circle.c:208-237): the points it draws; the
options are those of u8glib/inc/u8g.h:1309-1312. -/
def circleSection (x0 y0 opt : Byte) (s : Byte × Byte) : List (Byte × Byte) :=
  (if opt &&& 0x01 ≠ 0 then [(x0 + s.1, y0 - s.2), (x0 + s.2, y0 - s.1)] else []) ++
  (if opt &&& 0x02 ≠ 0 then [(x0 - s.1, y0 - s.2), (x0 - s.2, y0 - s.1)] else []) ++
  (if opt &&& 0x08 ≠ 0 then [(x0 + s.1, y0 + s.2), (x0 + s.2, y0 + s.1)] else []) ++
  (if opt &&& 0x04 ≠ 0 then [(x0 - s.1, y0 + s.2), (x0 - s.2, y0 + s.1)] else [])

/-- `u8g_draw_circle` (u8glib/src/u8g_circle.c:239-272). -/
def circleRaw (u : U8g) (x0 y0 rad opt : Byte) : U8g :=
  ((circleStart rad).flatMap (circleSection x0 y0 opt)).foldl (fun u p => drawPixel u p.1 p.2) u

/-- `u8g_DrawCircle` (u8glib/src/u8g_circle.c:274-291). -/
def drawCircle (u : U8g) (x0 y0 rad opt : Byte) : U8g :=
  if isBBXIntersection u (x0 - (rad + 1)) (y0 - (rad + 1)) ((rad + 1) * 2) ((rad + 1) * 2) then
    circleRaw u x0 y0 rad opt
  else u

/-- `u8g_draw_disc_section` (u8glib/src/u8g_circle.c:295-324): the vertical lines it draws,
as column, first row and length. -/
def discSection (x0 y0 opt : Byte) (s : Byte × Byte) : List (Byte × Byte × Byte) :=
  (if opt &&& 0x01 ≠ 0 then [(x0 + s.1, y0 - s.2, s.2 + 1), (x0 + s.2, y0 - s.1, s.1 + 1)]
    else []) ++
  (if opt &&& 0x02 ≠ 0 then [(x0 - s.1, y0 - s.2, s.2 + 1), (x0 - s.2, y0 - s.1, s.1 + 1)]
    else []) ++
  (if opt &&& 0x08 ≠ 0 then [(x0 + s.1, y0, s.2 + 1), (x0 + s.2, y0, s.1 + 1)] else []) ++
  (if opt &&& 0x04 ≠ 0 then [(x0 - s.1, y0, s.2 + 1), (x0 - s.2, y0, s.1 + 1)] else [])

/-- `u8g_draw_disc` (u8glib/src/u8g_circle.c:326-359). -/
def discRaw (u : U8g) (x0 y0 rad opt : Byte) : U8g :=
  ((circleStart rad).flatMap (discSection x0 y0 opt)).foldl
    (fun u l => drawVLine u l.1 l.2.1 l.2.2) u

/-- `u8g_DrawDisc` (u8glib/src/u8g_circle.c:361-378). -/
def drawDisc (u : U8g) (x0 y0 rad opt : Byte) : U8g :=
  if isBBXIntersection u (x0 - (rad + 1)) (y0 - (rad + 1)) ((rad + 1) * 2) ((rad + 1) * 2) then
    discRaw u x0 y0 rad opt
  else u

/-- `u8g_DrawRFrame` (u8glib/src/u8g_rect.c:129-181). -/
def drawRFrame (u : U8g) (x y w h r : Byte) : U8g :=
  if isBBXIntersection u x y w h then
    let xl := x + r
    let yu := y + r
    let xr := x + w - r - 1
    let yl := y + h - r - 1
    let u := circleRaw u xl yu r 0x02
    let u := circleRaw u xr yu r 0x01
    let u := circleRaw u xl yl r 0x04
    let u := circleRaw u xr yl r 0x08
    let ww := w - r - r - 2
    let hh := h - r - r - 2
    let u := hlineRaw u (xl + 1) y ww
    let u := hlineRaw u (xl + 1) (y + (h - 1)) ww
    let u := vlineRaw u x (yu + 1) hh
    vlineRaw u (x + (w - 1)) (yu + 1) hh
  else u

/-- `u8g_DrawRBox` (u8glib/src/u8g_rect.c:183-232). -/
def drawRBox (u : U8g) (x y w h r : Byte) : U8g :=
  if isBBXIntersection u x y w h then
    let xl := x + r
    let yu := y + r
    let xr := x + w - r - 1
    let yl := y + h - r - 1
    let u := discRaw u xl yu r 0x02
    let u := discRaw u xr yu r 0x01
    let u := discRaw u xl yl r 0x04
    let u := discRaw u xr yl r 0x08
    let ww := w - r - r - 2
    let hh := h - r - r - 2
    let u := boxRaw u (xl + 1) y ww (r + 1)
    let u := boxRaw u (xl + 1) yl ww (r + 1)
    boxRaw u x (yu + 1) w hh
  else u

/-! ## Text -/

/-- `u8g_font_get_word` (u8glib/src/u8g_font.c:95-104); `mem` is the memory from the font
pointer on. -/
def fontWord (mem : Nat → Byte) (o : Nat) : Word :=
  ((mem o).setWidth 16 <<< 8) + (mem (o + 1)).setWidth 16

/-- `u8g_font_GetFontGlyphStructureSize` (u8glib/src/u8g_font.c:116-125). -/
def glyphSize (mem : Nat → Byte) : Nat :=
  if mem 0 = 0 then 6 else if mem 0 = 1 then 3 else if mem 0 = 2 then 6 else 3

/-- The fields of `u8g_t` that describe the last letter (u8glib/inc/u8g.h:1067-1071). -/
structure Glyph where
  dx : Byte
  x : Byte
  y : Byte
  width : Byte
  height : Byte

/-- `u8g_CopyGlyphDataToCache` (u8glib/src/u8g_font.c:278-334). -/
def copyGlyph (mem : Nat → Byte) (p : Nat) : Glyph :=
  if mem 0 = 0 ∨ mem 0 = 2 then
    { width := mem p, height := mem (p + 1), dx := mem (p + 3), x := mem (p + 4), y := mem (p + 5) }
  else
    { y := (mem p &&& 15) - 2, x := mem p >>> 4
      height := mem (p + 1) &&& 15, width := mem (p + 1) >>> 4
      dx := mem (p + 2) >>> 4 }

/-- The loop of `u8g_GetGlyph` (u8glib/src/u8g_font.c:393-412): the offset of the letter. -/
def glyphLoop (mem : Nat → Byte) (mask : Byte) (size : Nat) (req last : Byte) :
    Nat → Byte → Option Nat :=
  fun p i =>
    if mem p ≠ 255 ∧ i = req then some p
    else if h : i = last then none
    else glyphLoop mem mask size req last
      (if mem p = 255 then p + 1 else p + (mem (p + 2) &&& mask).toNat + size) (i + 1)
termination_by _ i => (last - i).toNat
decreasing_by
  bv_omega

/-- `u8g_GetGlyph` (u8glib/src/u8g_font.c:350-418): the offset of the letter and its
description. For a code without letter the fields are set to zero and no letter is returned. -/
def getGlyph (mem : Nat → Byte) (req : Byte) : Option (Nat × Glyph) :=
  let mask : Byte := if mem 0 = 1 then 15 else 255
  let last := mem 11
  let ps : Nat × Byte :=
    if 97 ≤ req ∧ 0 < fontWord mem 8 then ((fontWord mem 8).toNat, 97)
    else if 65 ≤ req ∧ 0 < fontWord mem 6 then ((fontWord mem 6).toNat, 65)
    else (17, mem 10)
  if last < req then none
  else if ps.2 ≤ last then
    match glyphLoop mem mask (glyphSize mem) req last ps.1 ps.2 with
    | none => none
    | some p => some (p, copyGlyph mem p)
  else none

/-- The inner loop of the four procedures that draw a letter: `w` times eight points in the
direction `dir`, then `(sx, sy)` further (u8glib/src/u8g_font.c:599-604, 650-655, 702-707,
756-761). -/
def glyphRow (dir sx sy : Byte) (mem : Nat → Byte) : U8g → (x y : Byte) → (p w : Nat) → U8g
  | u, _, _, _, 0 => u
  | u, x, y, p, w + 1 =>
    glyphRow dir sx sy mem (draw8Pixel u x y dir (mem p)) (x + sx) (y + sy) (p + 1) w

/-- The outer loop: `h` rows, each `(rx, ry)` away from the one before
(u8glib/src/u8g_font.c:596-606, 647-657, 699-709, 753-763). -/
def glyphRows (dir sx sy rx ry : Byte) (mem : Nat → Byte) (w : Nat) :
    U8g → (x y : Byte) → (p h : Nat) → U8g
  | u, _, _, _, 0 => u
  | u, x, y, p, h + 1 =>
    glyphRows dir sx sy rx ry mem w (glyphRow dir sx sy mem u x y p w) (x + rx) (y + ry) (p + w) h

/-- `u8g_draw_glyph`, `u8g_draw_glyph90`, `u8g_draw_glyph180` and `u8g_draw_glyph270` for a letter
that was found (u8glib/src/u8g_font.c:578-606, 630-657, 682-709, 734-763). -/
def drawFound (dir : Byte) (mem : Nat → Byte) (u : U8g) (x y : Byte) (p : Nat) (g : Glyph) : U8g :=
  let w := ((g.width + 7) / 8).toNat
  if dir = 0 then
    let x := x + g.x
    let y := y - g.y - 1
    if isBBXIntersection u x (y - g.height + 1) g.width g.height then
      glyphRows 0 8 0 0 1 mem w u x (y - g.height + 1) p g.height.toNat
    else u
  else if dir = 1 then
    let x := x + g.y + 1
    let y := y + g.x
    if isBBXIntersection u x y g.height g.width then
      glyphRows 1 0 8 (-1) 0 mem w u (x + g.height - 1) y p g.height.toNat
    else u
  else if dir = 2 then
    let x := x - g.x
    let y := y + g.y + 1
    if isBBXIntersection u (x - (g.width - 1)) y g.width g.height then
      glyphRows 2 (-8) 0 0 (-1) mem w u x (y + g.height - 1) p g.height.toNat
    else u
  else
    let x := x - g.y - 1
    let y := y - g.x
    if isBBXIntersection u (x - (g.height - 1)) (y - (g.width - 1)) g.height g.width then
      glyphRows 3 0 (-8) 1 0 mem w u (x - g.height + 1) y p g.height.toNat
    else u

/-- The four procedures with the search for the letter: the state and what is returned
(u8glib/src/u8g_font.c:571-576, 607, 623-628, 658, 675-680, 710, 727-732, 764). -/
def drawGlyph (dir : Byte) (mem : Nat → Byte) (u : U8g) (x y c : Byte) : U8g × Byte :=
  match getGlyph mem c with
  | none => (u, 0)
  | some (p, g) => (drawFound dir mem u x y (p + glyphSize mem) g, g.dx)

/-- The loops of `u8g_DrawStr`, `u8g_DrawStr90`, `u8g_DrawStr180` and `u8g_DrawStr270`
(u8glib/src/u8g_font.c:803-809, 820-826, 837-843, 854-860). `s` is the string up to its
terminating zero. -/
def strLoop (dir : Byte) (mem : Nat → Byte) : U8g → (x y t : Byte) → List Byte → U8g × Byte
  | u, _, _, t, [] => (u, t)
  | u, x, y, t, c :: s =>
    let r := drawGlyph dir mem u x y c
    strLoop dir mem r.1
      (if dir = 0 then x + r.2 else if dir = 2 then x - r.2 else x)
      (if dir = 1 then y + r.2 else if dir = 3 then y - r.2 else y) (t + r.2) s

/-- Which part of the letters is at the given position (u8glib/src/u8g_font.c:1034-1089). -/
inductive FontPos where
  | baseline
  | bottom
  | top
  | center

/-- `font_height_mode` (u8glib/inc/u8g.h:1047-1049). -/
inductive HeightMode where
  | text
  | xtext
  | all

/-- `u8g_UpdateRefHeight` (u8glib/src/u8g_font.c:972-1001): reference height above and below
the line. Simplified: the line spacing is left out. -/
def refHeight (mem : Nat → Byte) : HeightMode → Byte × Byte
  | .text => (mem 5, mem 12)
  | .xtext => (mem 15, mem 16)
  | .all => (mem 13, mem 14)

/-- The callbacks `u8g_font_calc_vref_font`, `_bottom`, `_top` and `_center`
(u8glib/src/u8g_font.c:1034-1037, 1045-1049, 1056-1068, 1075-1084). -/
def calcVref (a : Byte × Byte) : FontPos → Byte
  | .baseline => 0
  | .bottom => a.2
  | .top => a.1 + 1
  | .center => (a.1 - a.2).sdiv 2 + a.2

/-- `u8g_DrawStrDir` with `u8g_DrawStr`, `u8g_DrawStr90`, `u8g_DrawStr180` and
`u8g_DrawStr270` (u8glib/src/u8g_font.c:793-878). -/
def drawStr (dir : Byte) (mem : Nat → Byte) (v : Byte) (u : U8g) (x y : Byte) (s : List Byte) :
    U8g × Byte :=
  if dir = 0 then strLoop 0 mem u x (y + v) 0 s
  else if dir = 1 then strLoop 1 mem u (x - v) y 0 s
  else if dir = 2 then strLoop 2 mem u x (y - v) 0 s
  else if dir = 3 then strLoop 3 mem u (x + v) y 0 s
  else (u, 0)

/-- `u8g_DrawStrP`, `u8g_DrawStr90P`, `u8g_DrawStr180P` and `u8g_DrawStr270P`
(u8glib/src/u8g_font.c:880-950). The last three call `u8g_DrawGlyph90`, `u8g_DrawGlyph180` and
`u8g_DrawGlyph270`, which take the reference height into account once more
(u8glib/src/u8g_font.c:661-665, 713-717, 767-771). -/
def drawStrP (dir : Byte) (mem : Nat → Byte) (v : Byte) (u : U8g) (x y : Byte) (s : List Byte) :
    U8g × Byte :=
  if dir = 0 then strLoop 0 mem u x (y + v) 0 s
  else if dir = 1 then strLoop 1 mem u (x - v - v) y 0 s
  else if dir = 2 then strLoop 2 mem u x (y - v - v) 0 s
  else strLoop 3 mem u (x + v + v) y 0 s

/-- `u8g_GetStrWidth` (u8glib/src/u8g_font.c:1194-1217); a code without letter leaves zero in
the field that is added. -/
def getStrWidth (mem : Nat → Byte) (s : List Byte) : Byte :=
  s.foldl (fun w c => w + match getGlyph mem c with | none => 0 | some (_, g) => g.dx) 0

/-- `u8g_DrawHXBM` (u8glib/src/u8g_bitmap.c:90-114): eight points with the lowest bit on the
left, and the last ones one by one. The column is `x` as it was given; the code is 7 ahead
of it in its first loop. -/
def hxbmRaw (u : U8g) (x y w : Byte) (bm : Nat → Byte) : U8g :=
  if h : 8 ≤ w then
    hxbmRaw (draw8Pixel u (x + 7) y 2 (bm 0)) (x + 8) y (w - 8) (fun i => bm (i + 1))
  else
    (List.range w.toNat).foldl
      (fun u i => if (bm 0 >>> i) &&& 1 ≠ 0 then drawPixel u (x + BitVec.ofNat 8 i) y else u) u
termination_by w.toNat
decreasing_by
  bv_omega

/-- The loop of `u8g_DrawXBM` (u8glib/src/u8g_bitmap.c:126-132). -/
def xbmLoop (u : U8g) (x y w b : Byte) (bm : Nat → Byte) : Nat → U8g
  | 0 => u
  | n + 1 => xbmLoop (hxbmRaw u x y w bm) x (y + 1) w b (fun i => bm (i + b.toNat)) n

/-- `u8g_DrawXBM` (u8glib/src/u8g_bitmap.c:116-133) and, since program memory is read like any
other, `u8g_DrawXBMP` (u8glib/src/u8g_bitmap.c:161-177). -/
def drawXbm (u : U8g) (x y w h : Byte) (bm : Nat → Byte) : U8g :=
  if isBBXIntersection u x y w h then xbmLoop u x y w ((w + 7) >>> 3) bm h.toNat else u

/-- The calls a drawing procedure of the user consists of. `dots` stands for a
procedure that only calls `u8g_DrawPixel`, as `u8g_DrawLine` does
(u8glib/src/u8g_line.c:38-81). -/
inductive Cmd where
  | color (idx : Byte)
  | pixel (x y : Byte)
  | hline (x y w : Byte)
  | vline (x y h : Byte)
  | frame (x y w h : Byte)
  | box (x y w h : Byte)
  | bitmap (x y cnt h : Byte) (bm : Nat → Byte)
  | dots (ps : List (Byte × Byte))
  | circle (x0 y0 rad opt : Byte)
  | disc (x0 y0 rad opt : Byte)
  | rframe (x y w h r : Byte)
  | rbox (x y w h r : Byte)
  | text (mem : Nat → Byte) (mode : HeightMode) (pos : FontPos) (dir x y : Byte) (s : List Byte)
  | xbm (x y w h : Byte) (bm : Nat → Byte)

/-- One call. -/
def exec (u : U8g) : Cmd → U8g
  | .color c => setColorIndex u c
  | .pixel x y => drawPixel u x y
  | .hline x y w => drawHLine u x y w
  | .vline x y h => drawVLine u x y h
  | .frame x y w h => drawFrame u x y w h
  | .box x y w h => drawBox u x y w h
  | .bitmap x y cnt h bm => drawBitmap u x y cnt h bm
  | .dots ps => ps.foldl (fun u p => drawPixel u p.1 p.2) u
  | .circle x0 y0 rad opt => drawCircle u x0 y0 rad opt
  | .disc x0 y0 rad opt => drawDisc u x0 y0 rad opt
  | .rframe x y w h r => drawRFrame u x y w h r
  | .rbox x y w h r => drawRBox u x y w h r
  | .text mem mode pos dir x y s => (drawStr dir mem (calcVref (refHeight mem mode) pos) u x y s).1
  | .xbm x y w h bm => drawXbm u x y w h bm

/-- The user's drawing procedure. -/
def draw (u : U8g) (cs : List Cmd) : U8g := cs.foldl exec u

/-- `u8g_FirstPage` (u8glib/src/u8g_ll_api.c:383-386, 59-66, u8glib/src/u8g_pb8v1.c:152-155). -/
def firstPage (u : U8g) : U8g :=
  updateDimension { u with pb := { clear u.pb with p := pageFirst u.pb.p } }

/-- The bytes of the buffer, as `u8g_pb_WriteBuffer` sends them
(u8glib/src/u8g_pb.c:187-190). -/
def bufferBytes (b : Pb) : List Byte := (List.range b.width.toNat).map b.mem

/-- `u8g_NextPage` (u8glib/src/u8g_ll_api.c:388-395, 68-80): the display driver sends the
buffer and hands over to u8glib/src/u8g_pb8v1.c:156-160. -/
def nextPage (u : U8g) : U8g × Bool :=
  let sent := u.sent ++ [(u.pb.p.page, bufferBytes u.pb)]
  if (pageNext u.pb.p).2 then
    (updateDimension { u with pb := clear { u.pb with p := (pageNext u.pb.p).1 }, sent := sent },
      true)
  else ({ u with pb := { u.pb with p := (pageNext u.pb.p).1 }, sent := sent }, false)

/-- The loop `do { draw(); } while ( u8g_NextPage(&u8g) );` of every program that uses
the library; the first argument bounds the number of passes, `none` says that the loop
has not ended. -/
def pictureLoop (cs : List Cmd) : Nat → U8g → Option U8g
  | 0, _ => none
  | n + 1, u =>
    let r := nextPage (draw u cs)
    if r.2 then pictureLoop cs n r.1 else some r.1

/-! ## The PCD8544 display -/

/-- What is sent to the display: a byte with the address line low (a command) or high
(data). -/
inductive Out where
  | cmd (b : Byte)
  | dat (b : Byte)

/-- The bytes of one page: `U8G_DEV_MSG_PAGE_NEXT` of `u8g_dev_pcd8544_fn`
(u8glib/src/u8g_dev_pcd8544_84x48.c:106-119). -/
def pcd8544Page (s : Byte × List Byte) : List Out :=
  [.cmd 0x20, .cmd 0x80, .cmd (0x40 ||| s.1)] ++ s.2.map .dat

/-- The display's controller, which is not part of the repository: six banks of 84
bytes and two address counters. It follows the comments of
u8glib/src/u8g_dev_pcd8544_84x48.c:111-114: with horizontal addressing the column counter
goes up with each data byte, and the end of a bank is followed by the next one. -/
structure Lcd where
  col : Nat
  bank : Nat
  ram : Nat → Nat → Byte

/-- The controller receives one byte (the commands named in
u8glib/src/u8g_dev_pcd8544_84x48.c:111-114; other commands are ignored). -/
def lcdByte (l : Lcd) : Out → Lcd
  | .cmd b =>
    if 0x80 ≤ b then { l with col := (b &&& 0x7f).toNat }
    else if 0x40 ≤ b then { l with bank := (b &&& 0x07).toNat }
    else l
  | .dat v =>
    { ram := fun k c => if k = l.bank ∧ c = l.col then v else l.ram k c
      col := if l.col = 83 then 0 else l.col + 1
      bank := if l.col = 83 then (if l.bank = 5 then 0 else l.bank + 1) else l.bank }

/-- The controller receives everything that was sent. -/
def lcdRun (l : Lcd) (sent : List (Byte × List Byte)) : Lcd :=
  (sent.flatMap pcd8544Page).foldl lcdByte l

/-- The page buffer of the PCD8544 display as it is initialised: `U8G_PB_DEV` with 84
columns, 48 rows and pages of 8 rows (u8glib/inc/u8g.h:926-929,
u8glib/src/u8g_dev_pcd8544_84x48.c:44-46, 139-140). -/
def pcd8544Pb : Pb :=
  { p := { pageHeight := 8, totalHeight := 48, y0 := 0, y1 := 0, page := 0 }
    width := 84, mem := fun _ => 0 }

end Verif.U8g
