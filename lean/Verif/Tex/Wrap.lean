import Verif.Tex.Support
/-!
# Filtering a texture with wrap modes

Model of `filterTexture` and `detail::filterWrappedBuffer`
(include/aqsis/tex/filtering/filtertexture.h:121-264).

The texture is known through its size, its pixels `fetch x y` and the order `en s`
in which its iterator goes through a region; what that iterator does is the subject
of C33.  The result is the list of calls `accumulate(x, y, sample)` in order.
Simplifications: integers do not overflow and `lfloor(TqFloat(start)/width)` is the
exact floor of the quotient; the accumulator accepts the number of channels.
-/

namespace Verif.Tex.Wrap

/-- `EqWrapMode`, include/aqsis/tex/filtering/wrapmode.h:54-60. -/
inductive Mode | black | periodic | clamp | trunc
deriving DecidableEq, Repr

/-- What is needed of the array type: filtertexture.h:63-67. -/
structure Tex (S : Type) where
  w : Int
  h : Int
  fetch : Int → Int → S
  black : S
  en : Support → List (Int × Int)

/-- `clamp`, include/aqsis/math/math.h. -/
def clampTo (x lo hi : Int) : Int := if x < lo then lo else if x > hi then hi else x

/-- `for(ix = s.start; ix < s.stop; ++ix)`. filtertexture.h:159. -/
def span (s : Support1D) : List Int :=
  (List.range (s.stop - s.start).toNat).map fun k : Nat => s.start + k

/-- `for(ix …) for(iy …)`, filtertexture.h:159-161 and 174-176. -/
def rect (s : Support) : List (Int × Int) :=
  (span s.sx).flatMap fun x => (span s.sy).map fun y => (x, y)

/-- `filterWrappedBuffer`, filtertexture.h:142-218. -/
def wrapped {S : Type} (T : Tex S) (support : Support) (sw tw : Mode) (tlX tlY : Int) :
    List ((Int × Int) × S) :=
  let ts := support.intersect (Support.mk4 tlX (tlX + T.w) tlY (tlY + T.h))
  if (sw = .black ∧ tlX ≠ 0) ∨ (tw = .black ∧ tlY ≠ 0) then
    (rect ts).map fun p => (p, T.black)
  else if sw = .clamp ∧ tlX ≠ 0 then
    if tw = .clamp ∧ tlY ≠ 0 then
      let v := T.fetch (clampTo tlX 0 (T.w - 1)) (clampTo tlY 0 (T.h - 1))
      (rect ts).map fun p => (p, v)
    else
      let xc := clampTo tlX 0 (T.w - 1)
      (T.en ⟨⟨xc, xc + 1⟩, ts.sy⟩).flatMap fun p =>
        (span ts.sx).map fun ix => ((ix, p.2), T.fetch p.1 p.2)
  else if tw = .clamp ∧ tlY ≠ 0 then
    let yc := clampTo tlY 0 (T.h - 1)
    (T.en ⟨ts.sx, ⟨yc, yc + 1⟩⟩).flatMap fun p =>
      (span ts.sy).map fun iy => ((p.1, iy), T.fetch p.1 p.2)
  else
    (T.en (Support.mk4 (ts.sx.start - tlX) (ts.sx.stop - tlX)
        (ts.sy.start - tlY) (ts.sy.stop - tlY))).map fun p =>
      ((p.1 + tlX, p.2 + tlY), T.fetch p.1 p.2)

/-- `for(tl = x0; tl < stop; tl += w)`, with enough steps `n`. filtertexture.h:249-251. -/
def origins (w stop : Int) : Nat → Int → List Int
  | 0, _ => []
  | n + 1, x => if x < stop then x :: origins w stop n (x + w) else []

/-- `lfloor(TqFloat(start)/width) * width` and the loop, filtertexture.h:246-251. -/
def tileStarts (w : Int) (s : Support1D) : List Int :=
  origins w s.stop (s.stop - s.start / w * w).toNat (s.start / w * w)

/-- `filterTexture`, filtertexture.h:222-264. -/
def filterTexture {S : Type} (T : Tex S) (support : Support) (sw tw : Mode) :
    List ((Int × Int) × S) :=
  (T.en support).map (fun p => (p, T.fetch p.1 p.2)) ++
  if support.inRange 0 T.w 0 T.h then []
  else
    (tileStarts T.w support.sx).flatMap fun tlX =>
      (tileStarts T.h support.sy).flatMap fun tlY =>
        if tlX = 0 ∧ tlY = 0 then [] else wrapped T support sw tw tlX tlY

end Verif.Tex.Wrap
