import Mathlib.Data.Rat.Floor
import Verif.Core.Buckets
/-!
# Sending the image to a display

Model of `CqDisplayRequest` (libs/core/ddmanager/ddmanager.cpp) and of the display driver which
writes files (tools/displays/file/display.cpp): quantization of the values, selection and order of
the channels, and the way of the finished buckets into the image.

Simplifications: floats and doubles are rational numbers; the pixels that are moved around are
values of any type (a pixel is `m_elementSize` bytes, all channels of a display have formats of the
same size); `int` arithmetic does not overflow.  Undefined behaviour (access outside of an
allocated block, conversion of a number to a type that cannot hold it) is `none`.
-/
namespace Verif.Core.Display
open Verif.Core.Buckets (Region)

/-! ## Quantization -/

/-- The formats of the display interface (include/aqsis/ri/ndspy.h:70-76). -/
inductive Fmt where
  | f32 | u32 | s32 | u16 | s16 | u8 | s8
deriving DecidableEq, Repr

/-- The numbers of the formats (include/aqsis/ri/ndspy.h:70-76). -/
def Fmt.code : Fmt → Nat
  | .f32 => 1 | .u32 => 2 | .s32 => 3 | .u16 => 4 | .s16 => 5 | .u8 => 6 | .s8 => 7

/-- `selectDataFormat` (libs/core/ddmanager/ddmanager.cpp:249-283). -/
def selectDataFormat (oneVal minVal maxVal : ℚ) : Fmt :=
  if oneVal = 0 then .f32
  else if 0 ≤ minVal then
    if maxVal ≤ 255 then .u8
    else if maxVal ≤ 65535 then .u16
    else .u32
  else
    if -128 ≤ minVal ∧ maxVal ≤ 127 then .s8
    else if -32768 ≤ minVal ∧ maxVal ≤ 32767 then .s16
    else .s32

/-- `lround`, as used at libs/core/ddmanager/ddmanager.cpp:1068: halves away from zero; the result is
unspecified (`none`) if a `long` of 64 bits cannot hold it. -/
def lround (x : ℚ) : Option Int :=
  let r := if 0 ≤ x then ⌊x + 1/2⌋ else ⌈x - 1/2⌉
  if -2^63 ≤ r ∧ r < 2^63 then some r else none

/-- `clamp` (include/aqsis/math/math.h:99-104). -/
def clampQ (x lo hi : ℚ) : ℚ := if x < lo then lo else if x > hi then hi else x

/-- The quantization of a display (libs/core/ddmanager/ddmanager.h:171-175). -/
structure Quant where
  zero : ℚ
  one : ℚ
  min : ℚ
  max : ℚ
  dither : ℚ

/-- libs/core/ddmanager/ddmanager.cpp:1065-1070; `s` is the random number of the pixel, between 0 and 1
(line 1050). -/
def quantize (q : Quant) (s value : ℚ) : Option ℚ :=
  if q.one ≠ 0 then
    (lround (q.zero + value * (q.one - q.zero) + q.dither * s)).map fun (r : Int) =>
      clampQ (r : ℚ) q.min q.max
  else some value

/-- Conversion of a double to an integer type with the given limits: towards zero, undefined if the
result does not fit. As used at libs/core/ddmanager/ddmanager.cpp:1088-1111. -/
def castTo (lo hi : Int) (v : ℚ) : Option Int :=
  let r := if 0 ≤ v then ⌊v⌋ else ⌈v⌉
  if lo ≤ r ∧ r ≤ hi then some r else none

/-- libs/core/ddmanager/ddmanager.cpp:1072-1114: the number that is stored for a value. The rounding
of a double to a float is not modelled. -/
def store (f : Fmt) (v : ℚ) : Option ℚ :=
  match f with
  | .f32 => some v
  | .u32 => (castTo 0 4294967295 (clampQ v 0 4294967295)).map fun (n : Int) => (n : ℚ)
  | .s32 => (castTo (-2147483648) 2147483647 (clampQ v (-2147483648) 2147483647)).map
      fun (n : Int) => (n : ℚ)
  | .u16 => (castTo 0 65535 v).map fun (n : Int) => (n : ℚ)
  | .s16 => (castTo (-32768) 32767 v).map fun (n : Int) => (n : ℚ)
  | .u8 => (castTo 0 255 v).map fun (n : Int) => (n : ℚ)
  | .s8 => (castTo (-128) 127 v).map fun (n : Int) => (n : ℚ)

/-- One channel of one pixel (libs/core/ddmanager/ddmanager.cpp:1056-1114), in the format that the
driver left in the table of formats. -/
def formatValue (q : Quant) (f : Fmt) (s value : ℚ) : Option ℚ :=
  (quantize q s value).bind (store f)

/-- The quantization options of a display (libs/core/ddmanager/ddmanager.cpp:431-453 and 487-517).
`custom` and `customDither`: from the parameters of `Display` (lines 854-870), zero, one, min and max;
`opt`: the matching `Quantize`, one, min, max and dither; `aov`: neither colour, opacity nor depth.
The initial values come from `AddDisplay` (lines 83-84). -/
def chooseQuant (custom : Option (ℚ × ℚ × ℚ × ℚ)) (customDither : Option ℚ)
    (opt : Option (ℚ × ℚ × ℚ × ℚ)) (aov : Bool) : Quant :=
  let base : Quant := match custom with
    | some (z, o, lo, hi) => ⟨z, o, lo, hi, 0⟩
    | none => match opt with
      | some (o, lo, hi, _) => ⟨0, o, lo, hi, 0⟩
      | none => if aov then ⟨0, 0, 0, 0, 0⟩ else ⟨0, 255, 0, 0, 0⟩
  { base with
    dither := match customDither with
      | some d => d
      | none => match opt with
        | some (_, _, _, d) => d
        | none => 0 }

/-! ## Channels -/

/-- A channel as the display sees it: its name, its format, and where the renderer takes the value
from (`m_formats` and `m_bufferMap`, libs/core/ddmanager/ddmanager.h:168-169). The map is keyed by the
name, so the source goes along with it. -/
structure Chan where
  name : String
  fmt : Fmt
  src : String × Nat
deriving DecidableEq, Repr

/-- The channels of a display of colour, opacity or depth (libs/core/ddmanager/ddmanager.cpp:455-481). -/
def stdChannels (rgb a z : Bool) (f : Fmt) : List Chan :=
  (if a then [⟨"a", f, ("a", 0)⟩] else []) ++
  (if rgb then [⟨"r", f, ("Ci", 0)⟩, ⟨"g", f, ("Ci", 1)⟩, ⟨"b", f, ("Ci", 2)⟩] else []) ++
  (if z then [⟨"z", f, ("z", 0)⟩] else [])

/-- The channels of a display of another variable of the given size
(libs/core/ddmanager/ddmanager.cpp:519-548). -/
def aovChannels (mode : String) (size : Nat) (f : Fmt) : List Chan :=
  ([⟨"r", f, (mode, 0)⟩, ⟨"g", f, (mode, 1)⟩, ⟨"b", f, (mode, 2)⟩, ⟨"a", f, (mode, 3)⟩] :
    List Chan).take size

/-- The inner loop of `DspyReorderFormatting` (tools/displays/dspyutil/dspyhlpr.c:194-210): the first
position from `j` on with the given name. -/
def findChan (l : List Chan) (name : String) : Nat → Nat → Option Nat
  | 0, _ => none
  | fuel + 1, j => match l[j]? with
    | none => none
    | some c => if c.name = name then some j else findChan l name fuel (j + 1)

/-- `DspyReorderFormatting` (tools/displays/dspyutil/dspyhlpr.c:183-216) from the output channel `i` on:
the channels, and whether all were found. -/
def reorderLoop (l : List Chan) (i : Nat) : List (String × Fmt) → List Chan × Bool
  | [] => (l, true)
  | o :: os =>
    match findChan l o.1 l.length i with
    | none => let r := reorderLoop l (i + 1) os
              (r.1, false)
    | some j =>
      match l[i]?, l[j]? with
      | some ci, some cj =>
        reorderLoop ((l.set j ci).set i { cj with fmt := o.2 }) (i + 1) os
      | _, _ => (l, false)

/-- The widest of the formats, made unsigned (tools/displays/file/display.cpp:455-467). -/
def widest (l : List Chan) : Fmt :=
  let w := l.foldl (fun (w : Fmt) c => if c.fmt.code < w.code then c.fmt else w) Fmt.s8
  match w with
  | .s8 => .u8
  | .s16 => .u16
  | .s32 => .u32
  | f => f

/-- The channels after `DspyImageOpen` of the file driver as `file` or `tiff`
(tools/displays/file/display.cpp:475-490); `none`: the display is refused. -/
def openFile (l : List Chan) : Option (List Chan) :=
  let w := widest l
  let out := ([("r", w), ("g", w), ("b", w), ("a", w)] : List (String × Fmt)).take (min l.length 4)
  let r := reorderLoop l 0 out
  if r.2 then some r.1 else none

/-! ## Buckets to display -/

section
variable {α : Type}

/-- `[a, b)` as a loop counter runs through it (libs/core/ddmanager/ddmanager.cpp:1139-1141). -/
def intRange (a b : Int) : List Int := (List.range (b - a).toNat).map fun (k : Nat) => a + (k : Int)

/-- A sequence of stores into a block of `cap` elements; `none`: outside of the block.
As done at libs/core/ddmanager/ddmanager.cpp:1143 and tools/displays/file/display.cpp:618. -/
def applyWrites {β : Type} (cap : Int) : List (Int × β) → (Int → β) → Option (Int → β)
  | [], m => some m
  | (i, v) :: ws, m =>
    if 0 ≤ i ∧ i < cap then applyWrites cap ws (Function.update m i v) else none

/-- A call of `DspyImageData`: region and data. An element of the data is `none` if it was never
written. libs/core/ddmanager/ddmanager.cpp:1017, 1172. -/
structure Call (α : Type) where
  xmin : Int
  xmax : Int
  ymin : Int
  ymax : Int
  data : List (Option α)

/-- The state of a display request (libs/core/ddmanager/ddmanager.h:162-163, 190-191). -/
structure Req (α : Type) where
  /-- `m_width`, `m_height`. -/
  width : Int
  height : Int
  /-- Whether the driver wants scan lines. -/
  scanline : Bool
  /-- The size of the block `m_DataBucket`, in pixels. -/
  bucketCap : Option Int
  /-- The contents of the block `m_DataRow`, in pixels; it has `width * height`. -/
  row : Int → Option α

/-- The data of `DspyImageData` for one line (libs/core/ddmanager/ddmanager.cpp:1167-1174), `none` when
it is outside of the block. -/
def lineCall (r : Req α) (ymin y : Int) : Option (Call α) :=
  let start := r.width * (y - ymin)
  if 0 ≤ start ∧ start + r.width ≤ r.width * r.height then
    some ⟨0, r.width, y, y + 1, (intRange start (start + r.width)).map r.row⟩
  else none

/-- `CqDDManager::DisplayBucket` and `CqDisplayRequest::DisplayBucket` for one valid display
(libs/core/ddmanager/ddmanager.cpp:146-171 and 984-1118, 1129-1175). `pixels`: the finished pixels of the
bucket, line by line; there are as many as the region has (libs/core/bucketprocessor.cpp:403). -/
def displayBucket (crop : Region) (reg : Region) (pixels : List α) (r : Req α) :
    Option (Req α × List (Call α)) :=
  if reg.xMax - reg.xMin = 0 ∨ reg.yMax - reg.yMin = 0 then some (r, [])
  else if reg.xMax ≤ crop.xMin ∨ reg.yMax ≤ crop.yMin ∨ reg.xMin > crop.xMax ∨
      reg.yMin > crop.yMax then some (r, [])
  else
    let cap : Int := r.bucketCap.getD ((reg.xMax - reg.xMin) * (reg.yMax - reg.yMin))
    let r : Req α := { r with bucketCap := some cap }
    if (pixels.length : Int) > cap then none
    else if r.scanline then
      let w := reg.xMax - reg.xMin
      let ws : List (Int × Option α) := (intRange reg.yMin reg.yMax).flatMap fun y =>
        (intRange reg.xMin reg.xMax).map fun x =>
          (r.width * (y - reg.yMin) + x, pixels[((y - reg.yMin) * w + (x - reg.xMin)).toNat]?)
      (applyWrites (r.width * r.height) ws r.row).bind fun row =>
        let r : Req α := { r with row := row }
        if reg.xMax ≥ r.width then
          ((intRange reg.yMin reg.yMax).mapM (lineCall r reg.yMin)).map fun cs => (r, cs)
        else some (r, [])
    else some (r, [⟨reg.xMin, reg.xMax, reg.yMin, reg.yMax, pixels.map some⟩])

/-- The state of the file driver (`SqDisplayInstance`, tools/displays/file/display.cpp:438-560). -/
structure File (α : Type) where
  /-- `m_width`, `m_height`. -/
  width : Int
  height : Int
  /-- `m_origin`. -/
  ox : Int
  oy : Int
  /-- `m_OriginalSize`. -/
  origW : Int
  origH : Int
  /-- `m_data`, in pixels; it has `width * height`. -/
  mem : Int → Option α

/-- `DspyImageData` of the file driver (tools/displays/file/display.cpp:578-623). `none`: data is read
outside of what was given, the image is written outside, or `memcpy` gets a negative length. -/
def imageData (c : Call α) (f : File α) : Option (File α) :=
  let f : File α := if f.origW = f.width ∧ f.origH = f.height then { f with ox := 0, oy := 0 } else f
  let x0 := max (c.xmin - f.ox) 0
  let y0 := max (c.ymin - f.oy) 0
  let x1 := min (c.xmax - f.ox) f.width
  let y1 := min (c.ymax - f.oy) f.height
  let linelen := c.xmax - c.xmin
  let copylen := x1 - x0
  let row := max (f.oy - c.ymin) 0
  let col := max (f.ox - c.xmin) 0
  if y0 < y1 ∧ copylen < 0 then none
  else
    let reads : List (Int × Int) := (intRange y0 y1).flatMap fun y =>
      (intRange 0 copylen).map fun k =>
        (y * f.width + x0 + k, (row + (y - y0)) * linelen + col + k)
    (reads.mapM fun (p : Int × Int) =>
      if 0 ≤ p.2 then (c.data[p.2.toNat]?).map fun v => (p.1, v) else none).bind fun ws =>
    (applyWrites (f.width * f.height) ws f.mem).map fun m => { f with mem := m }

/-- A sequence of calls of the driver (libs/core/ddmanager/ddmanager.cpp:1170-1174). -/
def imageCalls : List (Call α) → File α → Option (File α)
  | [], f => some f
  | c :: cs, f => (imageData c f).bind (imageCalls cs)

/-- The pixels of a region of a picture, line by line (libs/core/ddmanager/ddmanager.cpp:1046-1048). -/
def regionPixels (pic : Int → Int → α) (reg : Region) : List α :=
  (intRange reg.yMin reg.yMax).flatMap fun y => (intRange reg.xMin reg.xMax).map fun x => pic x y

/-- The way of a sequence of buckets to the file (libs/core/imagebuffer.cpp:739-751). -/
def sendAll (crop : Region) (pic : Int → Int → α) :
    List Region → Req α → File α → Option (Req α × File α)
  | [], r, f => some (r, f)
  | reg :: regs, r, f =>
    (displayBucket crop reg (regionPixels pic reg) r).bind fun p =>
      (imageCalls p.2 f).bind fun f' => sendAll crop pic regs p.1 f'

end

/-- The display region of a bucket (libs/core/bucketprocessor.cpp:102-107). -/
def bucketDisplay (b : Buckets.Bucket) : Region := ⟨b.x, b.y, b.x + b.w, b.y + b.h⟩

/-- The regions of the buckets in the order in which they are rendered; see `Buckets.visits` and
`Buckets.grid`. libs/core/imagebuffer.cpp:707-751. -/
def renderedRegions (xRes yRes bw bh : Int) (crop : Region) (n : Nat) : Option (List Region) :=
  let g := Buckets.bucketRegion crop bw bh
  (Buckets.visits g n (g.xMin, g.yMin)).mapM fun (p : Int × Int) =>
    (Buckets.bucketAt (Buckets.grid xRes yRes bw bh) p.1 p.2).map bucketDisplay

/-- A display request just opened: libs/core/renderer.cpp:696 and
libs/core/ddmanager/ddmanager.cpp:289-291, 422-424. -/
def openReq (α : Type) (crop : Region) (scanline : Bool) : Req α :=
  ⟨crop.xMax - crop.xMin, crop.yMax - crop.yMin, scanline, none, fun _ => none⟩

/-- A file just opened: tools/displays/file/display.cpp:438-439, 548-554, with the parameters from
libs/core/ddmanager/ddmanager.cpp:939-951. -/
def openImage (α : Type) (xRes yRes : Int) (crop : Region) : File α :=
  ⟨crop.xMax - crop.xMin, crop.yMax - crop.yMin, crop.xMin, crop.yMin, xRes, yRes, fun _ => none⟩

/-- From the buckets to the file (libs/core/renderer.cpp:696-698). -/
def renderToFile {α : Type} (xRes yRes bw bh : Int) (crop : Region) (scanline : Bool)
    (pic : Int → Int → α) (n : Nat) : Option (File α) :=
  (renderedRegions xRes yRes bw bh crop n).bind fun regs =>
    (sendAll crop pic regs (openReq α crop scanline) (openImage α xRes yRes crop)).map Prod.snd

end Verif.Core.Display
