import Mathlib.Data.Int.Log
import Mathlib.Data.Rat.Floor
import Mathlib.Algebra.Order.Floor.Ring

/-!
# Image buffers with channels of different types

The model of `CqChannelList` (include/aqsis/tex/buffers/channellist.h), of the channels of an image
(include/aqsis/tex/buffers/imagechannel.h, libs/tex/buffers/imagechannel.cpp) and of
`CqMixedImageBuffer` (libs/tex/buffers/mixedimagebuffer.cpp).  The memory of a buffer is the list of
its bytes; an access outside it is undefined behaviour.

Simplifications: values are rational numbers and neither infinite nor NaN; the exponents of floats
have no bounds; addresses need not be aligned (`reinterpret_cast<T*>` of an odd address is an
ordinary access, as it is on x86); bytes of a number are stored with the lowest first; `int` does
not overflow; the build is without OpenEXR, so that channels of half floats are refused.
-/

namespace Verif.Tex.Mixed

/-- Outcome of a call: a value, an exception, a failed assertion or undefined behaviour. -/
inductive Res (α : Type) where
  | ok (a : α)
  | throws
  | assertion
  | ub
  deriving DecidableEq, Repr

/-- Sequencing of outcomes: what does not return ends everything. -/
def Res.bind {α β : Type} (r : Res α) (f : α → Res β) : Res β :=
  match r with
  | .ok a => f a
  | .throws => .throws
  | .assertion => .assertion
  | .ub => .ub

/-! ### Types and conversions -/

/-- `EqChannelType`, include/aqsis/tex/buffers/channelinfo.h:57-68. -/
inductive Ty where
  | f32 | u32 | s32 | f16 | u16 | s16 | u8 | s8 | unknown
  deriving DecidableEq, Repr

/-- `bytesPerPixel`, include/aqsis/tex/buffers/channelinfo.h:131-149. -/
def size : Ty → Nat
  | .u32 => 4
  | .s32 => 4
  | .f32 => 4
  | .u16 => 2
  | .s16 => 2
  | .f16 => 2
  | .s8 => 1
  | .u8 => 1
  | .unknown => 1

/-- The nearest integer, ties to the even one (the rounding of IEEE arithmetic). -/
def rne (x : ℚ) : ℤ :=
  if x - ⌊x⌋ < 1 / 2 then ⌊x⌋
  else if 1 / 2 < x - ⌊x⌋ then ⌊x⌋ + 1
  else if ⌊x⌋ % 2 = 0 then ⌊x⌋ else ⌊x⌋ + 1

/-- The `TqFloat` nearest to a number: 24 significant bits.  `TqFloatConv` is `TqFloat`
(include/aqsis/tex/buffers/iimagechannel.h:57). -/
def fl (x : ℚ) : ℚ :=
  if x = 0 then 0
  else (rne (x / (2 : ℚ) ^ (Int.log 2 |x| - 23)) : ℚ) * (2 : ℚ) ^ (Int.log 2 |x| - 23)

/-- `numeric_limits<T>::min()` and `max()` of the integer types, used at
include/aqsis/tex/buffers/imagechannel.h:310-313 and 328-331; none for the others. -/
def limits : Ty → Option (ℤ × ℤ)
  | .u32 => some (0, 4294967295)
  | .s32 => some (-2147483648, 2147483647)
  | .u16 => some (0, 65535)
  | .s16 => some (-32768, 32767)
  | .u8 => some (0, 255)
  | .s8 => some (-128, 127)
  | _ => none

/-- How a float is kept in four bytes: some way of writing it as a number below `2 ^ 32` that gives
back every number which is a float. -/
structure Codec where
  enc : ℚ → Nat
  dec : Nat → ℚ
  small : ∀ x, enc x < 2 ^ 32
  back : ∀ x, fl x = x → dec (enc x) = x

/-- `static_cast<TqLong>` of a number: towards zero. -/
def trunc (x : ℚ) : ℤ := if x < 0 then -⌊-x⌋ else ⌊x⌋

/-- `lfloor`, include/aqsis/math/math.h:46-50. -/
def lfloor (x : ℚ) : ℤ := trunc x - (if x < 0 ∧ x ≠ trunc x then 1 else 0)

/-- `lround`, include/aqsis/math/math.h:66-70.  The subtraction is done in double precision and
taken to be exact. -/
def lround (x : ℚ) : ℤ := lfloor (x - 1 / 2) + 1

/-- `clamp`, include/aqsis/math/math.h:99-104. -/
def clamp (x lo hi : ℚ) : ℚ := if x < lo then lo else if x > hi then hi else x

/-- The number with the given bits (a `Nat` below `256 ^ size`) as a value of an integer type. -/
def ofBits (lo : ℤ) (n : Nat) (bits : Nat) : ℤ :=
  if lo < 0 ∧ 2 * bits ≥ 256 ^ n then (bits : ℤ) - 256 ^ n else bits

/-- `static_cast<T>` of an integer to a type of `n` bytes: its lowest bits. -/
def toBits (n : Nat) (v : ℤ) : Nat := (v % (256 ^ n : ℤ)).toNat

/-- `CqImageChannelTyped<T>::convertToFloat`, include/aqsis/tex/buffers/imagechannel.h:304-320. -/
def toFloat (k : Codec) (t : Ty) (bits : Nat) : ℚ :=
  match limits t with
  | some (lo, hi) => fl (fl (fl (ofBits lo (size t) bits) - fl lo) / fl (fl hi - fl lo))
  | none => k.dec bits

/-- `CqImageChannelTyped<T>::convertFromFloat`,
include/aqsis/tex/buffers/imagechannel.h:322-339. -/
def fromFloat (k : Codec) (t : Ty) (x : ℚ) : Nat :=
  match limits t with
  | some (lo, hi) =>
    toBits (size t) (lround (fl (fl (clamp x 0 1 * fl (fl hi - fl lo)) + fl lo)))
  | none => k.enc x

/-! ### Lists of channels -/

/-- `SqChannelInfo`, include/aqsis/tex/buffers/channelinfo.h:98-109. -/
structure Info where
  name : List Char
  ty : Ty
  deriving DecidableEq, Repr

/-- `CqChannelList`, include/aqsis/tex/buffers/channellist.h:208-210. -/
structure CList where
  chans : List Info
  offsets : List Nat
  bpp : Nat
  deriving DecidableEq, Repr

/-- The default constructor, include/aqsis/tex/buffers/channellist.h:225-229. -/
def CList.empty : CList := ⟨[], [], 0⟩

/-- `addChannel`, include/aqsis/tex/buffers/channellist.h:334-339. -/
def CList.add (l : CList) (i : Info) : CList :=
  ⟨l.chans ++ [i], l.offsets ++ [l.bpp], l.bpp + size i.ty⟩

/-- The loop of `recomputeByteOffsets`, include/aqsis/tex/buffers/channellist.h:415-421. -/
def offsetLoop : List Info → List Nat → Nat → List Nat × Nat
  | [], os, o => (os, o)
  | i :: is, os, o => offsetLoop is (os ++ [o]) (o + size i.ty)

/-- `recomputeByteOffsets`, include/aqsis/tex/buffers/channellist.h:412-423. -/
def CList.recompute (l : CList) : CList :=
  let r := offsetLoop l.chans [] 0
  ⟨l.chans, r.1, r.2⟩

/-- `clear`, include/aqsis/tex/buffers/channellist.h:307-311. -/
def CList.clear (l : CList) : CList := CList.recompute { l with chans := [] }

/-- The two digits of `boost::format("?%02d")`; three from a hundred on. -/
def digits (i : Nat) : List Char :=
  if i < 10 then ['0', Nat.digitChar i] else (Nat.toDigits 10 i)

/-- `addUnnamedChannels`, include/aqsis/tex/buffers/channellist.h:392-396, the first `n`. -/
def CList.addUnnamed (l : CList) (t : Ty) : Nat → CList
  | 0 => l
  | n + 1 => (CList.addUnnamed l t n).add ⟨'?' :: digits (n + 1), t⟩

/-- `desiredNames`, include/aqsis/tex/buffers/channellist.h:362. -/
def desired : List (List Char) := [['r'], ['g'], ['b'], ['a']]

/-- `std::equal` of the names of the channels with the first of the desired names,
include/aqsis/tex/buffers/channellist.h:366-367; ends with the shorter of the two. -/
def inOrder : List Info → List (List Char) → Bool
  | i :: is, n :: ns => i.name = n && inOrder is ns
  | _, _ => true

/-- The inner loop of `reorderChannels`, include/aqsis/tex/buffers/channellist.h:377-385: the first
channel with the name and the others. -/
def takeName (n : List Char) : List Info → Option (Info × List Info)
  | [] => none
  | i :: is =>
    if i.name = n then some (i, is)
    else match takeName n is with
      | none => none
      | some (j, js) => some (j, i :: js)

/-- The outer loop of `reorderChannels`, include/aqsis/tex/buffers/channellist.h:375-386, and the
copy of the others after it (388). -/
def reorderLoop : List (List Char) → List Info → List Info → List Info
  | [], new, old => new ++ old
  | n :: ns, new, old =>
    match takeName n old with
    | none => reorderLoop ns new old
    | some (i, rest) => reorderLoop ns (new ++ [i]) rest

/-- `reorderChannels`, include/aqsis/tex/buffers/channellist.h:360-390. -/
def CList.reorder (l : CList) : CList :=
  if l.chans.length ≤ 1 ∨ inOrder l.chans desired = true then l
  else CList.recompute { l with chans := reorderLoop desired [] l.chans }

/-- `findChannelIndexImpl`, include/aqsis/tex/buffers/channellist.h:398-410; `none` for -1. -/
def find (n : List Char) : List Info → Option Nat
  | [] => none
  | i :: is => if i.name = n then some 0 else (find n is).map (· + 1)

/-! ### Channels -/

/-- `CqImageChannel`, include/aqsis/tex/buffers/imagechannel.h:204-209.  The address is relative to
the beginning of the buffer. -/
structure Chan where
  ty : Ty
  start : ℤ
  w : ℤ
  h : ℤ
  stride : ℤ
  skip : ℤ
  deriving DecidableEq, Repr

/-- Bytes at an address. -/
def load (d : List Nat) (p : ℤ) (n : Nat) : Res (List Nat) :=
  if 0 ≤ p ∧ p + n ≤ d.length then .ok ((d.drop p.toNat).take n) else .ub

/-- The memory after bytes have been written to an address. -/
def store (d : List Nat) (p : ℤ) (bs : List Nat) : Res (List Nat) :=
  if 0 ≤ p ∧ p + bs.length ≤ d.length then
    .ok (d.take p.toNat ++ (bs ++ d.drop (p.toNat + bs.length)))
  else .ub

/-- The number with the given bytes, lowest first. -/
def ofBytes : List Nat → Nat
  | [] => 0
  | b :: bs => b + 256 * ofBytes bs

/-- The lowest `n` bytes of a number. -/
def toBytes : Nat → Nat → List Nat
  | 0, _ => []
  | n + 1, v => v % 256 :: toBytes n (v / 256)

/-- The loop of `getRow`, include/aqsis/tex/buffers/imagechannel.h:268-273: `n` numbers beginning at
the address `p`. -/
def getLoop (k : Codec) (t : Ty) (stride : ℤ) (d : List Nat) : Nat → ℤ → Res (List ℚ)
  | 0, _ => .ok []
  | n + 1, p =>
    (load d p (size t)).bind fun bs =>
      (getLoop k t stride d n (p + stride)).bind fun r => .ok (toFloat k t (ofBytes bs) :: r)

/-- `getRow`, include/aqsis/tex/buffers/imagechannel.h:263-275. -/
def Chan.getRow (k : Codec) (c : Chan) (d : List Nat) (row : ℤ) : Res (List ℚ) :=
  getLoop k c.ty c.stride d c.w.toNat (c.start + row * c.stride * (c.w + c.skip))

/-- The loop of `replaceRow`, include/aqsis/tex/buffers/imagechannel.h:281-286.  A row with fewer
numbers than the channel is wide is read past its end. -/
def replaceLoop (k : Codec) (t : Ty) (stride : ℤ) :
    Nat → ℤ → List ℚ → List Nat → Res (List Nat)
  | 0, _, _, d => .ok d
  | _ + 1, _, [], _ => .ub
  | n + 1, p, x :: xs, d =>
    (store d p (toBytes (size t) (fromFloat k t x))).bind fun d' =>
      replaceLoop k t stride n (p + stride) xs d'

/-- `replaceRow`, include/aqsis/tex/buffers/imagechannel.h:277-287. -/
def Chan.replaceRow (k : Codec) (c : Chan) (row : ℤ) (buf : List ℚ) (d : List Nat) :
    Res (List Nat) :=
  replaceLoop k c.ty c.stride c.w.toNat (c.start + row * c.stride * (c.w + c.skip)) buf d

/-- The sum at include/aqsis/tex/buffers/imagechannel.h:297. -/
def over (src alpha old : ℚ) : ℚ := fl (src + fl (fl (1 - alpha) * old))

/-- The loop of `compositeRow`, include/aqsis/tex/buffers/imagechannel.h:294-301. -/
def compositeLoop (k : Codec) (t : Ty) (stride : ℤ) :
    Nat → ℤ → List ℚ → List ℚ → List Nat → Res (List Nat)
  | 0, _, _, _, d => .ok d
  | n + 1, p, x :: xs, a :: as, d =>
    (load d p (size t)).bind fun bs =>
      (store d p (toBytes (size t)
          (fromFloat k t (over x a (toFloat k t (ofBytes bs)))))).bind fun d' =>
        compositeLoop k t stride n (p + stride) xs as d'
  | _ + 1, _, _, _, _ => .ub

/-- `compositeRow`, include/aqsis/tex/buffers/imagechannel.h:289-302. -/
def Chan.compositeRow (k : Codec) (c : Chan) (row : ℤ) (src alpha : List ℚ) (d : List Nat) :
    Res (List Nat) :=
  compositeLoop k c.ty c.stride c.w.toNat (c.start + row * c.stride * (c.w + c.skip)) src alpha d

/-- The sources of rows: a channel of a buffer, a constant
(libs/tex/buffers/imagechannel.cpp:95-109), a pattern of checks (114-143), and another source
enlarged (148-172). -/
inductive Source where
  | chan (c : Chan) (d : List Nat)
  | constant (v : ℚ)
  | checks (tile : ℤ)
  | zoom (s : Source) (factor : ℤ)

/-- `requireSize`, libs/tex/buffers/imagechannel.cpp:188-197 for channels, 155-160 for enlarged
sources.  Whether it returns. -/
def Source.require : Source → ℤ → ℤ → Res Unit
  | .chan c _, w, h => if c.w ≠ w ∨ c.h ≠ h then .throws else .ok ()
  | .constant _, _, _ => .ok ()
  | .checks t, w, _ => if t = 0 ∧ 0 < w then .ub else .ok ()
  | .zoom s f, w, h =>
    let f := if f > 0 then f else 1
    s.require (w / f) (h / f)

/-- `getRow` of the sources after `requireSize(w, …)`: 106-109, 137-143 (with the rows prepared at
128-133) and 162-172 of libs/tex/buffers/imagechannel.cpp.  What an enlarged row has beyond the last
whole number of its source is what the new buffer contains. -/
def Source.row (k : Codec) : Source → ℤ → ℤ → Res (List ℚ)
  | .chan c d, _, y => c.getRow k d y
  | .constant v, w, _ => .ok (List.replicate w.toNat v)
  | .checks t, w, y =>
    if t = 0 then .ub
    else .ok ((List.range w.toNat).map fun (x : Nat) =>
      let tile : ℤ := Int.tdiv (Int.tmod x (t * 2)) t
      if Int.tdiv (Int.tmod y (t * 2)) t = 0 then ((tile : ℚ) + 1) / 2 else (2 - (tile : ℚ)) / 2)
  | .zoom s f, w, y =>
    let f := if f > 0 then f else 1
    (s.row k (w / f) (y / f)).bind fun r =>
      .ok ((List.range w.toNat).map fun (x : Nat) =>
        if (x : ℤ) < w / f * f then r.getD (x / f.toNat) 0 else 0)

/-- The loop of `copyFrom`, libs/tex/buffers/imagechannel.cpp:208-209: `n` rows from row `y` on. -/
def copyRows (k : Codec) (c : Chan) (s : Source) : Nat → ℤ → List Nat → Res (List Nat)
  | 0, _, d => .ok d
  | n + 1, y, d =>
    (s.row k c.w y).bind fun r => (c.replaceRow k y r d).bind fun d' => copyRows k c s n (y + 1) d'

/-- `CqImageChannel::copyFrom`, libs/tex/buffers/imagechannel.cpp:199-210. -/
def Chan.copyFrom (k : Codec) (c : Chan) (s : Source) (d : List Nat) : Res (List Nat) :=
  (s.require c.w c.h).bind fun _ => copyRows k c s c.h.toNat 0 d

/-- The loop of `compositeOver`, libs/tex/buffers/imagechannel.cpp:218-219. -/
def overRows (k : Codec) (c : Chan) (s a : Source) : Nat → ℤ → List Nat → Res (List Nat)
  | 0, _, d => .ok d
  | n + 1, y, d =>
    (s.row k c.w y).bind fun r => (a.row k c.w y).bind fun ra =>
      (c.compositeRow k y r ra d).bind fun d' => overRows k c s a n (y + 1) d'

/-- `CqImageChannel::compositeOver`, libs/tex/buffers/imagechannel.cpp:212-220. -/
def Chan.compositeOver (k : Codec) (c : Chan) (s a : Source) (d : List Nat) : Res (List Nat) :=
  (s.require c.w c.h).bind fun _ => (a.require c.w c.h).bind fun _ =>
    overRows k c s a c.h.toNat 0 d

/-! ### Buffers -/

/-- `CqMixedImageBuffer`, include/aqsis/tex/buffers/mixedimagebuffer.h:266-269. -/
structure Buf where
  list : CList
  w : ℤ
  h : ℤ
  data : List Nat
  deriving DecidableEq, Repr

/-- `channelImpl`, libs/tex/buffers/mixedimagebuffer.cpp:233-287. -/
def Buf.channel (b : Buf) (index : Nat) (x y w h : ℤ) : Res Chan :=
  let w := if w = 0 then b.w else w
  let h := if h = 0 then b.h else h
  if ¬ (x + w ≤ b.w) then .assertion
  else if ¬ (y + h ≤ b.h) then .assertion
  else match b.list.offsets[index]?, b.list.chans[index]? with
    | some o, some i =>
      if i.ty = .f16 ∨ i.ty = .unknown then .throws
      else .ok ⟨i.ty, (y * b.w + x) * b.list.bpp + o, w, h, b.list.bpp, b.w - w⟩
    | _, _ => .assertion

/-- `channel` by name, libs/tex/buffers/mixedimagebuffer.cpp:207-212; unknown names throw
(include/aqsis/tex/buffers/channellist.h:271-278). -/
def Buf.named (b : Buf) (n : List Char) (x y w h : ℤ) : Res Chan :=
  match find n b.list.chans with
  | none => .throws
  | some i => b.channel i x y w h

/-- `getCopyRegionSize`, libs/tex/buffers/mixedimagebuffer.cpp:106-112: the offsets in the source and
in the destination and the width. -/
def region (offset srcW destW : ℤ) : ℤ × ℤ × ℤ :=
  (max (-offset) 0, max offset 0, min destW (offset + srcW) - max offset 0)

/-- The loop of the first `copyFrom`, libs/tex/buffers/mixedimagebuffer.cpp:136-141: the channels
from `i` on, `n` of them. -/
def copyChans (k : Codec) (b src : Buf) (sx sy dx dy w h : ℤ) : Nat → Nat → List Nat → Res (List Nat)
  | 0, _, d => .ok d
  | n + 1, i, d =>
    (b.channel i dx dy w h).bind fun c => (src.channel i sx sy w h).bind fun s =>
      (c.copyFrom k (.chan s src.data) d).bind fun d' =>
        copyChans k b src sx sy dx dy w h n (i + 1) d'

/-- The first `copyFrom`, libs/tex/buffers/mixedimagebuffer.cpp:114-142. -/
def Buf.copyFrom (k : Codec) (b src : Buf) (ox oy : ℤ) : Res Buf :=
  if src.list.chans.length ≠ b.list.chans.length then .throws
  else
    let rx := region ox src.w b.w
    let ry := region oy src.h b.h
    if rx.2.2 ≤ 0 ∨ ry.2.2 ≤ 0 then .ok b
    else (copyChans k b src rx.1 ry.1 rx.2.1 ry.2.1 rx.2.2 ry.2.2 b.list.chans.length 0 b.data).bind
      fun d => .ok { b with data := d }

/-- The loop of the second `copyFrom`, libs/tex/buffers/mixedimagebuffer.cpp:163-169: pairs of the
name in the destination and the name in the source. -/
def copyNamed (k : Codec) (b src : Buf) (sx sy dx dy w h : ℤ) :
    List (List Char × List Char) → List Nat → Res (List Nat)
  | [], d => .ok d
  | m :: ms, d =>
    (b.named m.1 dx dy w h).bind fun c => (src.named m.2 sx sy w h).bind fun s =>
      (c.copyFrom k (.chan s src.data) d).bind fun d' =>
        copyNamed k b src sx sy dx dy w h ms d'

/-- The second `copyFrom`, libs/tex/buffers/mixedimagebuffer.cpp:144-170. -/
def Buf.copyMap (k : Codec) (b src : Buf) (map : List (List Char × List Char)) (ox oy : ℤ) :
    Res Buf :=
  let rx := region ox src.w b.w
  let ry := region oy src.h b.h
  if rx.2.2 ≤ 0 ∨ ry.2.2 ≤ 0 then .ok b
  else (copyNamed k b src rx.1 ry.1 rx.2.1 ry.2.1 rx.2.2 ry.2.2 map b.data).bind
    fun d => .ok { b with data := d }

/-- The loop of `compositeOver`, libs/tex/buffers/mixedimagebuffer.cpp:197-203. -/
def overNamed (k : Codec) (b src : Buf) (alpha : List Char) (sx sy dx dy w h : ℤ) :
    List (List Char × List Char) → List Nat → Res (List Nat)
  | [], d => .ok d
  | m :: ms, d =>
    (b.named m.1 dx dy w h).bind fun c => (src.named m.2 sx sy w h).bind fun s =>
      (src.named alpha sx sy w h).bind fun a =>
        (c.compositeOver k (.chan s src.data) (.chan a src.data) d).bind fun d' =>
          overNamed k b src alpha sx sy dx dy w h ms d'

/-- `compositeOver`, libs/tex/buffers/mixedimagebuffer.cpp:172-205. -/
def Buf.compositeOver (k : Codec) (b src : Buf) (map : List (List Char × List Char)) (ox oy : ℤ)
    (alpha : List Char) : Res Buf :=
  match find alpha src.list.chans with
  | none => b.copyMap k src map ox oy
  | some _ =>
    let rx := region ox src.w b.w
    let ry := region oy src.h b.h
    if rx.2.2 ≤ 0 ∨ ry.2.2 ≤ 0 then .ok b
    else (overNamed k b src alpha rx.1 ry.1 rx.2.1 ry.2.1 rx.2.2 ry.2.2 map b.data).bind
      fun d => .ok { b with data := d }

/-- The loop of `clearBuffer` and `initToCheckerboard`,
libs/tex/buffers/mixedimagebuffer.cpp:80-81 and 88-89. -/
def fillChans (k : Codec) (b : Buf) (s : Source) : Nat → Nat → List Nat → Res (List Nat)
  | 0, _, d => .ok d
  | n + 1, i, d =>
    (b.channel i 0 0 0 0).bind fun c => (c.copyFrom k s d).bind fun d' =>
      fillChans k b s n (i + 1) d'

/-- `clearBuffer` (libs/tex/buffers/mixedimagebuffer.cpp:76-82) with a constant source,
`initToCheckerboard` (84-90) with checks. -/
def Buf.fill (k : Codec) (b : Buf) (s : Source) : Res Buf :=
  (fillChans k b s b.list.chans.length 0 b.data).bind fun d => .ok { b with data := d }

end Verif.Tex.Mixed
