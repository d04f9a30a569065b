import Mathlib.Data.Nat.Basic
import Mathlib.Data.List.Range

/-!
The display that writes BMP files, tools/displays/sdcBMP/d_sdcBMP.cpp, on a machine with little-endian numbers.

Simplifications: numbers without overflow. The file is its length and its bytes; what was never written reads as zero. A failing `fopen`,
`fseek` or `calloc` is not modelled.
-/

namespace Verif.Tools.Bmp

/-- `DWORDALIGN`, tools/displays/sdcBMP/d_sdcBMP.cpp:502-505. -/
def dwordAlign (bits : Nat) : Nat := ((bits + 31) >>> 5) <<< 2

/-- Round up to a multiple, as a compiler does for the places of members. -/
def roundUp (n m : Nat) : Nat := (n + m - 1) / m * m

/-- The sizes of the members of `BITMAPINFOHEADER`, tools/displays/sdcBMP/d_sdcBMP.cpp:66-78, where a `long` has `long` bytes. -/
def members (long : Nat) : List Nat := [4, long, long, 2, 2, 4, 4, long, long, 4, 4]

/-- `sizeof(BITMAPINFOHEADER)` with the usual alignment, used in tools/displays/sdcBMP/d_sdcBMP.cpp:188, 205-207, 270. -/
def infoSize (long : Nat) : Nat :=
  roundUp ((members long).foldl (fun off m => roundUp off m + m) 0) (max 4 long)

/-- What is kept of the image, tools/displays/sdcBMP/d_sdcBMP.cpp:91-105. -/
structure Image where
  width : Nat
  height : Nat
  channels : Nat
  long : Nat

/-- `RowSize`, tools/displays/sdcBMP/d_sdcBMP.cpp:192, 195. -/
def Image.rowSize (i : Image) : Nat := dwordAlign (i.width * 24)

/-- `bfOffBits`, tools/displays/sdcBMP/d_sdcBMP.cpp:207; `BITMAPFILEHEADER_SIZEOF` is 14. -/
def Image.offBits (i : Image) : Nat := 14 + infoSize i.long

/-- `bfSize`, tools/displays/sdcBMP/d_sdcBMP.cpp:196, 204-206. -/
def Image.fileSize (i : Image) : Nat := 14 + infoSize i.long + i.rowSize * i.height

/-- A file. -/
structure File where
  len : Nat
  byte : Nat → Nat

/-- `fseek` and `fwrite`, tools/displays/sdcBMP/d_sdcBMP.cpp:419, 456. -/
def File.write (f : File) (pos : Nat) (bytes : List Nat) : File :=
  ⟨max f.len (pos + bytes.length), fun p => if pos ≤ p ∧ p < pos + bytes.length then bytes.getD (p - pos) 0 else f.byte p⟩

/-- The three bytes of a pixel, tools/displays/sdcBMP/d_sdcBMP.cpp:432-444, 451-453. -/
def pixel (channels : Nat) (data : Nat → Nat) : List Nat :=
  if channels = 1 then [data 0, data 0, data 0]
  else if channels ≥ 3 then [data (channels - 1), data (channels - 2), data (channels - 3)]
  else [0, 0, 0]

/-- The bytes of `n` pixels, tools/displays/sdcBMP/d_sdcBMP.cpp:426-454. -/
def rowBytes (i : Image) (entrysize : Nat) (data : Nat → Nat) (n : Nat) : List Nat :=
  (List.range n).flatMap fun k => pixel i.channels fun j => data (k * entrysize + j)

/-- `spot`, tools/displays/sdcBMP/d_sdcBMP.cpp:415-417. -/
def Image.spot (i : Image) (xmin ymin : Nat) : Nat := i.offBits + i.rowSize * (i.height - ymin - 1) + 3 * xmin

/-- `DspyImageData`, tools/displays/sdcBMP/d_sdcBMP.cpp:387-463; `none` is an error, also for a row of no pixels (456). -/
def imageData (i : Image) (f : File) (xmin xmax ymin ymax entrysize : Nat) (data : Nat → Nat) : Option File :=
  if ymin + 1 ≠ ymax then none
  else
    let bytes := rowBytes i entrysize data (xmax - xmin)
    if bytes.length = 0 then none else some (f.write (i.spot xmin ymin) bytes)

/-- The whole rows in the given order, one call each. -/
def rows (i : Image) (entrysize : Nat) (data : Nat → Nat → Nat) : List Nat → File → Option File
  | [], f => some f
  | y :: l, f => (imageData i f 0 i.width y (y + 1) entrysize (data y)).bind (rows i entrysize data l)

/-- The file after `DspyImageOpen`: both headers are written, tools/displays/sdcBMP/d_sdcBMP.cpp:239, 269-272, 530-534. -/
def opened (i : Image) (header : Nat → Nat) : File := ⟨i.offBits, header⟩

end Verif.Tools.Bmp
