import Mathlib.Algebra.Group.Basic
import Mathlib.Algebra.Order.Field.Rat
import Mathlib.Data.List.Sort

/-!
# Transformations and motion blocks

The current transformation is one matrix, or one matrix for each of several key times. Requests in a motion block change the
keys one after the other, other requests change the matrix or all keys.

Matrices are elements of any group; `neg` tells whether the determinant is negative. Key times are exact.
-/

namespace Verif.State.Transform

variable {G : Type} [Group G]

/-- `SqTransformation`, libs/core/transform.h:44-48. -/
structure Obj (G : Type) where
  mat : G
  hand : Bool
deriving DecidableEq

/-- `CqTransform`, libs/core/transform.h:60-138, with the base class `CqMotionSpec`, libs/core/motion.h (`m_aTimes` and
`m_aObjects` as one list, `m_DefObject`). -/
structure Trans (G : Type) where
  keys : List (ℚ × Obj G)
  dflt : Obj G
  moving : Bool
  static : G
  hand : Bool
deriving DecidableEq

/-- `CqTransform()`, libs/core/transform.cpp:36-37. -/
def Trans.new : Trans G := ⟨[], ⟨1, false⟩, false, 1, false⟩

/-- `TimeSlotExists`, libs/core/motion.h:205-215. -/
def slotExists (ks : List (ℚ × Obj G)) (t : ℚ) : Bool := ks.any (·.1 == t)

/-- The object of the first slot with the given time is changed. -/
def modSlot (t : ℚ) (f : Obj G → Obj G) : List (ℚ × Obj G) → List (ℚ × Obj G)
  | [] => []
  | k :: ks => if k.1 = t then (k.1, f k.2) :: ks else k :: modSlot t f ks

/-- The loop of libs/core/motion.h:104-109. -/
def insertSlot (t : ℚ) (o : Obj G) : List (ℚ × Obj G) → List (ℚ × Obj G)
  | [] => [(t, o)]
  | k :: ks => if k.1 < t then k :: insertSlot t o ks else (t, o) :: k :: ks

/-- `AddTimeSlot`, libs/core/motion.h:86-111. -/
def addSlot (ks : List (ℚ × Obj G)) (t : ℚ) (o : Obj G) : List (ℚ × Obj G) :=
  if slotExists ks t then modSlot t (fun _ => o) ks else insertSlot t o ks

/-- `ConcatMotionObjects`, libs/core/transform.cpp:362-369. -/
def concatObj (neg : G → Bool) (a : Obj G) (m : G) : Obj G := ⟨a.mat * m, if neg m then !a.hand else a.hand⟩

/-- `ConcatTimeSlot`, libs/core/motion.h:117-130. -/
def concatSlot (neg : G → Bool) (ks : List (ℚ × Obj G)) (dflt : Obj G) (t : ℚ) (m : G) : List (ℚ × Obj G) :=
  if slotExists ks t then modSlot t (fun a => concatObj neg a m) ks
  else modSlot t (fun a => concatObj neg a m) (addSlot ks t dflt)

/-- `Time`, libs/core/motion.h:143-154. -/
def timeAt (ks : List (ℚ × Obj G)) (i : Nat) : ℚ :=
  match ks[i]? with
  | some k => k.1
  | none => (ks.getLast?.map (·.1)).getD 0

/-- The loop of `GetTimeSlot`, libs/core/motion.h:193-195: the last slot that begins not after the time. -/
def span (t : ℚ) : ℚ × Obj G → List (ℚ × Obj G) → Obj G
  | k, [] => k.2
  | k, k' :: ks => if t ≥ k'.1 then span t k' ks else k.2

/-- `GetMotionObjectInterpolated`, libs/core/motion.h:176-199, 220-228; `LinearInterpolateMotionObjects` returns its first
argument, libs/core/transform.cpp:371-375. Without slots an assertion fails. -/
def interpolated (ks : List (ℚ × Obj G)) (t : ℚ) : Option (Obj G) :=
  match ks, ks.getLast? with
  | k :: ks, some l => if t ≥ l.1 then some l.2 else if t ≤ k.1 then some k.2 else some (span t k ks)
  | _, _ => none

/-- `matObjectToWorld` and `GetHandedness`, libs/core/transform.cpp:290-300, 323-329. -/
def Trans.at (tr : Trans G) (t : ℚ) : Option (Obj G) :=
  if tr.moving then interpolated tr.keys t else some ⟨tr.static, tr.hand⟩

/-- `cTimes`, libs/core/transform.h:104-110. -/
def Trans.cTimes (tr : Trans G) : Nat := if tr.moving then tr.keys.length else 1

/-- The loop of `SetTransform` over the other keys, libs/core/transform.cpp:229-237. The matrices of the keys are read
before they are set, and not changed by the other turns. -/
def rekey (neg : G → Bool) (mat0 m : G) (hand0 : Bool) (ks : List (ℚ × Obj G)) : List (ℚ × Obj G) :=
  ks.map fun k => (k.1, ⟨mat0 * k.2.mat⁻¹ * m, if neg (mat0 * k.2.mat⁻¹) then !hand0 else hand0⟩)

/-- `SetTransform`, libs/core/transform.cpp:199-245; `camhand` is computed from the matrix of the camera. -/
def setTransform (neg : G → Bool) (inMotion camhand : Bool) (t : ℚ) (m : G) (tr : Trans G) : Trans G :=
  let hand := if neg m then !camhand else camhand
  if inMotion then { tr with keys := addSlot tr.keys t ⟨m, hand⟩, moving := true }
  else if tr.moving then
    match tr.keys with
    | [] => tr
    | k :: ks => { tr with keys := (k.1, ⟨m, hand⟩) :: rekey neg k.2.mat m hand ks }
  else { tr with static := m, hand := hand }

/-- `SetCurrentTransform`, libs/core/transform.cpp:166-195. -/
def setCurrent (neg : G → Bool) (inMotion : Bool) (t : ℚ) (m : G) (tr : Trans G) : Trans G :=
  let flip := neg m
  if inMotion then { tr with keys := addSlot tr.keys t ⟨m, !flip⟩, moving := true }
  else if tr.moving then { tr with keys := addSlot tr.keys t ⟨m, !flip⟩ }
  else { tr with static := m, hand := if flip then !tr.hand else tr.hand, dflt := ⟨m, flip⟩ }

/-- `ConcatCurrentTransform`, libs/core/transform.cpp:252-283. -/
def concatCurrent (neg : G → Bool) (inMotion : Bool) (t : ℚ) (m : G) (tr : Trans G) : Trans G :=
  if inMotion then { tr with keys := concatSlot neg tr.keys tr.dflt t m, moving := true }
  else if tr.moving then { tr with keys := tr.keys.map fun k => (k.1, concatObj neg k.2 m) }
  else
    let hand := if neg m then !tr.hand else tr.hand
    { tr with static := tr.static * m, hand := hand, dflt := ⟨m, hand⟩ }

/-- The motion block: its times and the index of the current one, libs/core/api/graphicsstate.h:879-880. -/
structure Motion where
  times : List ℚ
  idx : Nat
deriving DecidableEq

/-- A block: a motion block, a block closed by `RiTransformEnd`, or another one, and the transformation. -/
structure Blk (G : Type) where
  motion : Option Motion
  closable : Bool
  trans : Trans G
deriving DecidableEq

/-- The blocks around the current one, the current one, the camera (`m_pTransCamera`, libs/core/renderer.h:322-332), whether the
world has begun, and when the shutter opens. -/
structure St (G : Type) where
  outer : List (Blk G)
  cur : Blk G
  camera : Trans G
  world : Bool
  shutter : ℚ
deriving DecidableEq

/-- `CqRenderer::Time`, libs/core/renderer.cpp:510-516; libs/core/api/graphicsstate.h:842-848. -/
def St.time (s : St G) : ℚ := match s.cur.motion with
  | some mo => mo.times.getD mo.idx 0
  | none => s.shutter

/-- `AdvanceTime`, libs/core/api/graphicsstate.h:850-855; the assertion fails: `none`. -/
def St.advance (s : St G) : Option (St G) := match s.cur.motion with
  | some mo => if mo.idx + 1 ≤ mo.times.length then
      some { s with cur := { s.cur with motion := some { mo with idx := mo.idx + 1 } } } else none
  | none => some s

def St.modTrans (s : St G) (f : Trans G → Trans G) : St G := { s with cur := { s.cur with trans := f s.cur.trans } }

def St.inMotion (s : St G) : Bool := s.cur.motion.isSome

/-- `ptransSetTime`, libs/core/renderer.cpp:641-647, and the handedness of the camera, libs/core/transform.cpp:203-206. -/
def St.setTime (neg : G → Bool) (s : St G) (m : G) : Option (St G) :=
  (s.camera.at s.time).map fun c => s.modTrans (setTransform neg s.inMotion (neg c.mat) s.time m)

/-- `ptransConcatCurrentTime`, libs/core/renderer.cpp:657-663. -/
def St.concatTime (neg : G → Bool) (s : St G) (m : G) : St G := s.modTrans (concatCurrent neg s.inMotion s.time m)

/-- `ptransSetCurrentTime`, libs/core/renderer.cpp:649-655. -/
def St.setCurrentTime (neg : G → Bool) (s : St G) (m : G) : St G := s.modTrans (setCurrent neg s.inMotion s.time m)

/-- Requests. `coordSys` has the matrix that `matSpaceToSpace` returns. -/
inductive Req (G : Type) where
  | identity
  | transform (m : G)
  | concat (m : G)
  | coordSys (m : G)
  | push
  | pop
  | motionBegin (times : List ℚ)
  | motionEnd
  | worldBegin

/-- One request: libs/core/api/ri.cpp:1551-1594, 1714-1751, 3150-3162, 577-635 (world), libs/core/api/graphicsstate.cpp:168-179,
258-292 (blocks; attribute, frame and solid blocks treat transformations like transform blocks), 114-120 (world);
libs/core/transform.cpp:73-99; libs/core/renderer.cpp:434-443, 478-489. Blocks are not opened inside of motion blocks. (The
types of blocks are those of C58; here a world block can also be opened in a transform block.) The
default transformation of objects is the identity (ri.cpp:634-635). `none`: a failed assertion. -/
def step (neg : G → Bool) (s : St G) : Req G → Option (St G)
  | .identity => do (← s.setTime neg 1).advance
  | .transform m => do
    if s.world then ((← s.setTime neg 1).concatTime neg m).advance else (← s.setTime neg m).advance
  | .concat m => (s.concatTime neg m).advance
  | .coordSys m =>
    if s.world then ((s.setCurrentTime neg 1).concatTime neg m).advance else (s.setCurrentTime neg m).advance
  | .push => some (if s.inMotion then s else { s with outer := s.cur :: s.outer, cur := ⟨none, true, s.cur.trans⟩ })
  | .pop => some (if s.cur.closable then (match s.outer with
      | [] => s
      | b :: bs => { s with outer := bs, cur := b }) else s)
  | .motionBegin ts =>
    if s.inMotion then some s
    else do
      let o ← s.cur.trans.at (timeAt s.cur.trans.keys 0)
      some { s with outer := s.cur :: s.outer, cur := ⟨some ⟨ts, 0⟩, false, { s.cur.trans with dflt := o }⟩ }
  | .motionEnd => some (if s.inMotion then (match s.outer with
      | [] => s
      | b :: bs => { s with outer := bs, cur := { b with trans := s.cur.trans } }) else s)
  | .worldBegin => do
    let o ← s.cur.trans.at s.time
    let s0 : St G := { s with camera := s.cur.trans }
    let s1 : St G := if s.inMotion || s.world then s0
      else { s0 with outer := s.cur :: s.outer, cur := ⟨none, false, { s.cur.trans with moving := false, dflt := o }⟩ }
    let s2 ← s1.setTime neg 1
    some { s2 with world := true }

def run (neg : G → Bool) (s : St G) : List (Req G) → Option (St G)
  | [] => some s
  | r :: rs => (step neg s r).bind fun s => run neg s rs

/-- Before the first request. -/
def initial (shutter : ℚ) : St G := ⟨[], ⟨none, false, .new⟩, .new, false, shutter⟩

/-- `std::unique`. -/
def unique : List ℚ → List ℚ
  | [] => []
  | [a] => [a]
  | a :: b :: l => if a = b then unique (b :: l) else a :: unique (b :: l)

/-- `mergeKeyTimes`, libs/core/transform.cpp:378-395. -/
def mergeKeyTimes (a b : Trans G) : List ℚ :=
  unique (((List.range a.cTimes).map (timeAt a.keys) ++ (List.range b.cTimes).map (timeAt b.keys)).insertionSort (· ≤ ·))

end Verif.State.Transform
