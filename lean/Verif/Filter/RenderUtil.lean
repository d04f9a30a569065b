/-!
# Model of the archive / object / conditional filter

`/repo/libs/riutil/renderutil_filter.cpp`, class `RenderUtilFilter`, with the recorded streams of
`/repo/libs/riutil/ricxx_cache.h`.

Requests this filter treats alike are one constructor `plain`, carrying an opaque identity (request
and arguments; that recording keeps the arguments is property C22).  Names and conditions are
opaque numbers, compared for equality as `std::string`s are.  The condition test is installed and
is a fixed function `test` (with no test installed, conditionals are passed on).
`services().firstFilter()` is this filter: filters before it are taken to pass everything on.
-/
namespace Verif.Filter

/-- The requests by the way they are treated, renderutil_filter.cpp:125-366. -/
inductive Req where
  | plain (r : Nat)
  | record (r : Nat)                 -- ArchiveRecord (comments)
  | archiveBegin (n : Nat)
  | archiveEnd
  | readArchive (n : Nat)
  | objectBegin (n : Nat)
  | objectEnd
  | objectInstance (n : Nat)
  | ifBegin (c : Nat)
  | elseIf (c : Nat)
  | els
  | ifEnd
deriving DecidableEq, Repr

/-- What the filter does: pass a request on to the next filter, or report a bad object name.
renderutil_filter.cpp:166, 223-224, 347. -/
inductive Out where
  | pass (r : Req)
  | badObject (n : Nat)
deriving DecidableEq, Repr

/-- A table of recorded streams: `std::vector<CachedRiStream*>`, here name and requests.
renderutil_filter.cpp:54-66. -/
abbrev Store := List (Nat × List Req)

/-- renderutil_filter.cpp:71-77 `findCachedStream`: the first with that name. -/
def Store.find (s : Store) (n : Nat) : Option (List Req) := s.lookup n

/-- renderutil_filter.cpp:83-100 `newCachedStream`: replace by an empty stream, or append one. -/
def Store.fresh (s : Store) (n : Nat) : Store :=
  if (s.find n).isSome then s.map fun p => if p.1 = n then (n, []) else p else s ++ [(n, [])]

/-- `m_currCache->push_back(r)` for the stream called `n`. ricxx_cache.h:87-90. -/
def Store.push (s : Store) (n : Nat) (r : Req) : Store :=
  s.map fun p => if p.1 = n then (n, p.2 ++ [r]) else p

/-- Members of the filter (renderutil_filter.cpp:54-66).  `cur`: `m_currCache`, as the table
(`true`: objects) and name it points to.  `active`: the streams being replayed, which the code
does not track; needed to see that deleting one of them is a use after free. -/
structure St where
  archives : Store
  objects : Store
  cur : Option (Bool × Nat)
  nested : Nat
  inObject : Bool
  ifStack : List Bool
  trueFound : Bool
  inactive : Bool
  active : List (Bool × Nat)
deriving DecidableEq, Repr

/-- renderutil_filter.cpp:103-113. -/
def St.init : St := ⟨[], [], none, 0, false, [], false, false, []⟩

/-- Outcome: output and new state; undefined behaviour; or deeper recursion than the bound.
Outcomes of renderutil_filter.cpp:125-366. -/
inductive Res where
  | ok (out : List Out) (s : St)
  | ub
  | deep
deriving DecidableEq, Repr

/-- Sequencing of the requests replayed, ricxx_cache.h:91-95. -/
def Res.andThen (r : Res) (k : St → Res) : Res :=
  match r with
  | .ok o s => match k s with
    | .ok o' s' => .ok (o ++ o') s'
    | .ub => .ub
    | .deep => .deep
  | .ub => .ub
  | .deep => .deep

/-- `m_currCache->push_back(new RiCache::…)`. renderutil_filter.cpp:131, 142, 345. -/
def St.cache (s : St) (b : Bool) (n : Nat) (r : Req) : St :=
  if b then { s with objects := s.objects.push n r } else { s with archives := s.archives.push n r }

/-- `m_currCache = newCachedStream(table, name)`; deleting a stream that is being replayed is
undefined behaviour (its `replay` loop goes on reading it). renderutil_filter.cpp:83-100, 134, 184. -/
def St.begin (s : St) (b : Bool) (n : Nat) : Option St :=
  if (b, n) ∈ s.active then none
  else if b then some { s with objects := s.objects.fresh n, cur := some (b, n) }
  else some { s with archives := s.archives.fresh n, cur := some (b, n) }

/-- One request.  `replay` is `CachedRiStream::replay(firstFilter())`.
Lines of renderutil_filter.cpp: ArchiveBegin 125-135, ArchiveEnd 137-147, ReadArchive 149-168,
ObjectBegin 172-187, ObjectEnd 189-206, ObjectInstance 208-226, IfBegin 236-253, ElseIf 255-282,
Else 284-301, IfEnd 303-320, ArchiveRecord 323-328, all others as 341-348 (written out from 359 on). -/
def step (test : Nat → Bool) (replay : St → List Req → Res) (s : St) : Req → Res
  | .plain r =>
    if s.inactive then .ok [] s
    else match s.cur with
      | some (b, n) => .ok [] (s.cache b n (.plain r))
      | none => .ok [.pass (.plain r)] s
  | .record r =>
    if s.inactive then .ok [] s
    else if s.cur = none then .ok [.pass (.record r)] s
    else .ok [] s
  | .archiveBegin m =>
    if s.inactive then .ok [] s
    else match s.cur with
      | some (b, n) => .ok [] ({ s with nested := s.nested + 1 }.cache b n (.archiveBegin m))
      | none => match s.begin false m with
        | some s' => .ok [] s'
        | none => .ub
  | .archiveEnd =>
    if s.inactive then .ok [] s
    else match s.cur with
      | some (b, n) =>
        if s.nested ≠ 0 then .ok [] { s.cache b n .archiveEnd with nested := s.nested - 1 }
        else .ok [] { s with cur := none }
      | none => .ok [] { s with cur := none }
  | .readArchive m =>
    if s.inactive then .ok [] s
    else match s.cur with
      | some (b, n) => .ok [] (s.cache b n (.readArchive m))
      | none => match s.archives.find m with
        | some l =>
          (replay { s with active := (false, m) :: s.active } l).andThen fun s' =>
            .ok [] { s' with active := s.active }
        | none => .ok [.pass (.readArchive m)] s
  | .objectBegin m =>
    if s.inactive then .ok [] s
    else match s.cur with
      | some (b, n) => .ok [] (s.cache b n (.objectBegin m))
      | none => match s.begin true m with
        | some s' => .ok [] { s' with inObject := true }
        | none => .ub
  | .objectEnd =>
    if s.inactive then .ok [] s
    else match s.cur with
      | some (b, n) =>
        if s.inObject then .ok [] { s with inObject := false, cur := none }
        else .ok [] (s.cache b n .objectEnd)
      | none => .ok [] s
  | .objectInstance m =>
    if s.inactive then .ok [] s
    else match s.cur with
      | some (b, n) => .ok [] (s.cache b n (.objectInstance m))
      | none => match s.objects.find m with
        | some l =>
          (replay { s with active := (true, m) :: s.active } l).andThen fun s' =>
            .ok [] { s' with active := s.active }
        | none => .ok [.badObject m] s
  | .ifBegin c =>
    match s.cur with
    | some (b, n) => .ok [] (s.cache b n (.ifBegin c))
    | none =>
      if s.inactive then .ok [] { s with ifStack := s.inactive :: s.ifStack }
      else .ok [] { s with ifStack := s.inactive :: s.ifStack, trueFound := test c, inactive := !test c }
  | .elseIf c =>
    match s.cur with
    | some (b, n) => .ok [] (s.cache b n (.elseIf c))
    | none => match s.ifStack with
      | [] => .ub                                  -- top() of an empty stack
      | top :: _ =>
        if top then .ok [] s
        else if s.trueFound then .ok [] { s with inactive := true }
        else .ok [] { s with trueFound := test c, inactive := !test c }
  | .els =>
    match s.cur with
    | some (b, n) => .ok [] (s.cache b n .els)
    | none => match s.ifStack with
      | [] => .ub
      | top :: _ => if top then .ok [] s else .ok [] { s with inactive := s.trueFound }
  | .ifEnd =>
    match s.cur with
    | some (b, n) => .ok [] (s.cache b n .ifEnd)
    | none => match s.ifStack with
      | [] => .ok [] s
      | top :: rest => .ok [] { s with inactive := top, ifStack := rest }

/-- A sequence of requests; also `CachedRiStream::replay` (ricxx_cache.h). -/
def runWith (test : Nat → Bool) (replay : St → List Req → Res) (s : St) : List Req → Res
  | [] => .ok [] s
  | r :: rs => (step test replay s r).andThen fun s' => runWith test replay s' rs

/-- The filter with a bound on the depth of nested replays.
renderutil_filter.cpp:161, 219 with ricxx_cache.h:91-95. -/
def run (test : Nat → Bool) : Nat → St → List Req → Res
  | 0 => runWith test fun _ _ => .deep
  | f + 1 => runWith test (run test f)

end Verif.Filter
