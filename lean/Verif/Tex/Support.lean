/-!
# Filter support regions

Model of `SqFilterSupport1D` and `SqFilterSupport`
(include/aqsis/tex/buffers/filtersupport.h:49-195).  Simplification: integers do
not overflow.
-/

namespace Verif.Tex

/-- include/aqsis/tex/buffers/filtersupport.h:58-79. -/
structure Support1D where
  start : Int
  stop : Int
  deriving DecidableEq, Repr

namespace Support1D

/-- include/aqsis/tex/buffers/filtersupport.h:120-126. -/
def truncate (s : Support1D) (rangeStart rangeEnd : Int) : Support1D :=
  { start := if s.start < rangeStart then rangeStart else s.start
    stop := if s.stop > rangeEnd then rangeEnd else s.stop }

/-- include/aqsis/tex/buffers/filtersupport.h:128-131. -/
def range (s : Support1D) : Int := s.stop - s.start

/-- include/aqsis/tex/buffers/filtersupport.h:133-136. -/
def isEmpty (s : Support1D) : Bool := decide (s.start ≥ s.stop)

/-- include/aqsis/tex/buffers/filtersupport.h:138-142. -/
def intersectsRange (s : Support1D) (rangeStart rangeEnd : Int) : Bool :=
  !s.isEmpty && !(decide (rangeStart ≥ s.stop) || decide (rangeEnd ≤ s.start))

/-- include/aqsis/tex/buffers/filtersupport.h:144-147. -/
def inRange (s : Support1D) (rangeStart rangeEnd : Int) : Bool :=
  decide (s.start ≥ rangeStart) && decide (s.stop ≤ rangeEnd)

/-- include/aqsis/tex/buffers/filtersupport.h:150-153; `max`, `min` as in
include/aqsis/math/math.h. -/
def intersect (s1 s2 : Support1D) : Support1D :=
  { start := if s1.start < s2.start then s2.start else s1.start
    stop := if s2.stop < s1.stop then s2.stop else s1.stop }

end Support1D

/-- include/aqsis/tex/buffers/filtersupport.h:90-106. -/
structure Support where
  sx : Support1D
  sy : Support1D
  deriving DecidableEq, Repr

namespace Support

/-- include/aqsis/tex/buffers/filtersupport.h:158-162. -/
def mk4 (startX endX startY endY : Int) : Support := ⟨⟨startX, endX⟩, ⟨startY, endY⟩⟩

/-- include/aqsis/tex/buffers/filtersupport.h:170-173. -/
def area (s : Support) : Int := s.sx.range * s.sy.range

/-- include/aqsis/tex/buffers/filtersupport.h:175-178. -/
def isEmpty (s : Support) : Bool := s.sx.isEmpty || s.sy.isEmpty

/-- include/aqsis/tex/buffers/filtersupport.h:180-184. -/
def inRange (s : Support) (startX endX startY endY : Int) : Bool :=
  s.sx.inRange startX endX && s.sy.inRange startY endY

/-- include/aqsis/tex/buffers/filtersupport.h:186-190. -/
def intersectsRange (s : Support) (startX endX startY endY : Int) : Bool :=
  s.sx.intersectsRange startX endX && s.sy.intersectsRange startY endY

/-- include/aqsis/tex/buffers/filtersupport.h:192-195. -/
def intersect (s1 s2 : Support) : Support :=
  { sx := s1.sx.intersect s2.sx, sy := s1.sy.intersect s2.sy }

end Support

end Verif.Tex
