import Verif.Rib.Tokenizer
/-!
# Model of the frame selection filter and the tee

`/repo/libs/riutil/framedrop_filter.cpp` on top of `OnOffFilter`
(`/repo/libs/riutil/ricxx_filter.cpp:742-1491`), and `/repo/libs/riutil/tee_filter.cpp`.

Bytes of the frame list are numbers below 256.
-/
namespace Verif.Filter.Frames

/-- Requests as frame selection sees them: frame blocks, and everything else (opaque).
framedrop_filter.cpp:59-71. -/
inductive FReq where
  | frameBegin (n : Int)
  | frameEnd
  | other (r : Nat)
deriving DecidableEq, Repr

/-- One request: new `m_isActive`, and what is passed on.
framedrop_filter.cpp:59-71 (`FrameBegin`, `FrameEnd`); `OnOffFilter` for all others. -/
def dropStep (want : List Int) (active : Bool) : FReq → Bool × List FReq
  | .frameBegin n =>
    let a := decide (n ∈ want)
    (a, if a then [.frameBegin n] else [])
  | .frameEnd => (true, if active then [.frameEnd] else [])
  | .other r => (active, if active then [.other r] else [])

/-- A whole stream. framedrop_filter.cpp:59-71. -/
def dropRun (want : List Int) (active : Bool) : List FReq → Bool × List FReq
  | [] => (active, [])
  | r :: rs =>
    let p := dropStep want active r
    let q := dropRun want p.1 rs
    (q.1, p.2 ++ q.2)

/-- The filter: initially active (`OnOffFilter(bool active = true)`, ricxx_filter.h:314). -/
def frameDrop (want : List Int) (rs : List FReq) : List FReq := (dropRun want true rs).2

/-! ## The frame list -/

/-- `isspace` in the C locale: space, \t \n \v \f \r.
As skipped by `strtol`, framedrop_filter.cpp:98. -/
def isSpaceC (c : Nat) : Bool := c == 32 || (9 ≤ c && c ≤ 13)

/-- `strtol`'s result converted to `int`: clamped to 64 bits, then reduced modulo 2^32
(implementation-defined, but so on every supported compiler). -/
def toInt32 (v : Int) : Int :=
  let c := max (-(2 ^ 63)) (min (2 ^ 63 - 1) v)
  (c + 2 ^ 31) % 2 ^ 32 - 2 ^ 31

/-- Digits read by `strtol`, framedrop_filter.cpp:98. -/
def digits (l : List Nat) : List Nat := l.takeWhile Verif.Rib.isDigit
/-- The text after them. -/
def afterDigits (l : List Nat) : List Nat := l.dropWhile Verif.Rib.isDigit

/-- The digits of a number after its sign. `strtol`, framedrop_filter.cpp:98. -/
def strtolDigits (neg : Bool) (l : List Nat) : Option (Int × List Nat) :=
  if digits l = [] then none
  else
    let v : Int := Verif.Rib.digitsVal (digits l)
    some (toInt32 (if neg then -v else v), afterDigits l)

/-- `int f = std::strtol(nptr, &nend, 10)`: `none` when `nend == nptr` (no number). -/
def strtol (l : List Nat) : Option (Int × List Nat) :=
  match l.dropWhile isSpaceC with
  | [] => none
  | c :: r =>
    if c = 45 then strtolDigits true r
    else if c = 43 then strtolDigits false r
    else strtolDigits false (c :: r)

/-- Outcome of `parseFrames`: the frames; an exception; signed overflow of the loop counter.
framedrop_filter.cpp:75-131. -/
inductive FrameRes where
  | frames (l : List Int)
  | error
  | ub
deriving DecidableEq, Repr

/-- `for(int i = a; i <= b; i++) push_back(i)`. framedrop_filter.cpp:111-112. -/
def intRange (a b : Int) : List Int := (List.range (b + 1 - a).toNat).map fun (k : Nat) => a + (k : Int)

/-- `push_back` before the rest, framedrop_filter.cpp:112, 121. -/
def FrameRes.cons (l : List Int) : FrameRes → FrameRes
  | .frames m => .frames (l ++ m)
  | .error => .error
  | .ub => .ub

/-- framedrop_filter.cpp:93-130, the loop over the text (without its terminating zero).  Each turn
uses up at least one character, so `fuel` turns are enough for `fuel` characters. -/
def framesLoop : Nat → List Nat → FrameRes
  | 0, _ => .frames []
  | fuel + 1, l =>
    match l with
    | [] => .frames []
    | c :: r =>
      match strtol (c :: r) with
      | some (f1, e1) =>
        if e1.head? = some 45 then
          match strtol e1.tail with
          | some (f2, e2) =>
            if max f1 f2 = 2 ^ 31 - 1 then .ub            -- i++ past INT_MAX
            else (framesLoop fuel e2).cons (intRange (min f1 f2) (max f1 f2))
          | none => .error
        else (framesLoop fuel e1).cons [f1]
      | none => if c = 44 then framesLoop fuel r else .error

/-- `parseFrames` for a string parameter (framedrop_filter.cpp:75-131). -/
def parseFrames (l : List Nat) : FrameRes := framesLoop l.length l

/-! ## The tee -/

/-- A request as the tee sees it: whether its name ends in `End`, and its identity.
tee_filter.cpp:57-629. -/
structure TReq where
  isEnd : Bool
  id : Nat
deriving DecidableEq, Repr

/-- Deliveries: `true` for the branch, `false` for the next filter. tee_filter.cpp:57-629. -/
def teeStep (r : TReq) : List (Bool × TReq) :=
  if r.isEnd then [(false, r), (true, r)] else [(true, r), (false, r)]

/-- tee_filter.cpp:57-629; neither side throws. -/
def tee (rs : List TReq) : List (Bool × TReq) := rs.flatMap teeStep

end Verif.Filter.Frames
