/-!
# Model of the storage of recorded requests

`/repo/libs/riutil/ricxx_cache.h:196-312` (`CachedParamList`), `/repo/libs/riutil/ricxx_cache.h:115-161`
(`CachedString`, `CachedArray`, `CachedStringArray`) and `/repo/libs/riutil/multistringbuffer.h`.

Memory of one request is a handful of arrays.  A cell not yet written is `none`.  Pointers into an
array are offsets.  Writing past the end, reading past the end or reading an unwritten cell give
`none`.  Characters are numbers below 256; strings are C strings (no zero inside).  Numbers and
pointers are opaque.  Counters are `int`s in the code; sizes beyond 2^31 are not considered.
-/
namespace Verif.Filter.Cache

/-- An array with cells that may be uninitialised. `scoped_array`s, ricxx_cache.h:199-203. -/
abbrev Buf := List (Option Nat)

/-- `memcpy(buf + off, xs, …)`. ricxx_cache.h:262, 271, 276, 281, 291. -/
def write (buf : Buf) (off : Nat) (xs : List Nat) : Option Buf :=
  if off + xs.length ≤ buf.length then
    some (buf.take off ++ xs.map some ++ buf.drop (off + xs.length))
  else none

/-- Read `n` cells. Read access of a client of ricxx_cache.h:306-311. -/
def readN (buf : Buf) (off : Nat) : Nat → Option (List Nat)
  | 0 => some []
  | n + 1 =>
    match buf[off]? with
    | some (some x) => (readN buf (off + 1) n).map (x :: ·)
    | _ => none

/-- Read a C string. Read access of a client of ricxx_cache.h:306-311. -/
def cstr : Buf → Option (List Nat)
  | some c :: r => if c = 0 then some [] else (cstr r).map (c :: ·)
  | _ => none

/-- Value of a parameter by storage type (`Ri::TypeSpec::storageType`).
The cases of ricxx_cache.h:220-241. -/
inductive PData where
  | ints (l : List Nat)
  | floats (l : List Nat)
  | ptrs (l : List Nat)
  | strings (l : List (List Nat))
deriving DecidableEq, Repr

/-- `Ri::Param`: type specification (opaque), name, data. As built at ricxx_cache.h:302. -/
structure Param where
  spec : Nat
  name : List Nat
  data : PData
deriving DecidableEq, Repr

/-- Storage types, the cases of ricxx_cache.h:267-300. -/
inductive Kind where
  | int | float | ptr | str
deriving DecidableEq, Repr

/-- A recorded parameter: offsets into the request's own arrays. ricxx_cache.h:301-302. -/
structure CParam where
  spec : Nat
  nameOff : Nat
  kind : Kind
  dataOff : Nat
  size : Nat
deriving DecidableEq, Repr

/-- The arrays `m_ints … m_strings` with the running counters of the second pass.
ricxx_cache.h:199-203, 250-254. -/
structure Mem where
  ints : Buf
  floats : Buf
  ptrs : Buf
  chars : Buf
  strs : Buf
  ni : Nat
  nf : Nat
  np : Nat
  nc : Nat
  ns : Nat
deriving DecidableEq, Repr

/-! First pass, ricxx_cache.h:211-242: storage needed. -/

/-- ricxx_cache.h:214, 219, 234-235. -/
def charCount (p : Param) : Nat :=
  (p.name.length + 1) + match p.data with
    | .strings l => (l.map fun s => s.length + 1).sum
    | _ => 0
/-- ricxx_cache.h:211, 222-224. -/
def intCount (p : Param) : Nat := match p.data with
  | .ints l => l.length
  | _ => 0
/-- ricxx_cache.h:212, 225-227. -/
def floatCount (p : Param) : Nat := match p.data with
  | .floats l => l.length
  | _ => 0
/-- ricxx_cache.h:213, 228-230. -/
def ptrCount (p : Param) : Nat := match p.data with
  | .ptrs l => l.length
  | _ => 0
/-- ricxx_cache.h:215, 236. -/
def strCount (p : Param) : Nat := match p.data with
  | .strings l => l.length
  | _ => 0

/-- ricxx_cache.h:243-248. -/
def alloc (ps : List Param) : Mem where
  ints := List.replicate (ps.map intCount).sum none
  floats := List.replicate (ps.map floatCount).sum none
  ptrs := List.replicate (ps.map ptrCount).sum none
  chars := List.replicate (ps.map charCount).sum none
  strs := List.replicate (ps.map strCount).sum none
  ni := 0
  nf := 0
  np := 0
  nc := 0
  ns := 0

/-! Second pass, ricxx_cache.h:250-303: copy. -/

/-- The strings of one parameter, ricxx_cache.h:284-297. -/
def copyStrings (m : Mem) : List (List Nat) → Option Mem
  | [] => some m
  | s :: rest => do
    let chars ← write m.chars m.nc (s ++ [0])
    let strs ← write m.strs m.ns [m.nc]
    copyStrings { m with chars := chars, strs := strs, nc := m.nc + (s.length + 1), ns := m.ns + 1 } rest

/-- One parameter. ricxx_cache.h:258-302. -/
def copyParam (m : Mem) (p : Param) : Option (Mem × CParam) := do
  let chars ← write m.chars m.nc (p.name ++ [0])
  let m1 := { m with chars := chars, nc := m.nc + (p.name.length + 1) }
  match p.data with
  | .ints l => do
    let b ← write m1.ints m1.ni l
    pure ({ m1 with ints := b, ni := m1.ni + l.length }, ⟨p.spec, m.nc, .int, m1.ni, l.length⟩)
  | .floats l => do
    let b ← write m1.floats m1.nf l
    pure ({ m1 with floats := b, nf := m1.nf + l.length }, ⟨p.spec, m.nc, .float, m1.nf, l.length⟩)
  | .ptrs l => do
    let b ← write m1.ptrs m1.np l
    pure ({ m1 with ptrs := b, np := m1.np + l.length }, ⟨p.spec, m.nc, .ptr, m1.np, l.length⟩)
  | .strings l => do
    let m2 ← copyStrings m1 l
    pure (m2, ⟨p.spec, m.nc, .str, m1.ns, l.length⟩)

/-- ricxx_cache.h:256-303. -/
def copyAll (m : Mem) : List Param → Option (Mem × List CParam)
  | [] => some (m, [])
  | p :: ps => do
    let (m1, c) ← copyParam m p
    let (m2, cs) ← copyAll m1 ps
    pure (m2, c :: cs)

/-- `CachedParamList(pList)`. ricxx_cache.h:207-304. -/
def record (ps : List Param) : Option (Mem × List CParam) := copyAll (alloc ps) ps

/-! What a reader of the recorded list sees. -/

/-- Read access of a client of ricxx_cache.h:306-311. -/
def readStrings (m : Mem) (off : Nat) : Nat → Option (List (List Nat))
  | 0 => some []
  | n + 1 =>
    match m.strs[off]? with
    | some (some o) =>
      match cstr (m.chars.drop o), readStrings m (off + 1) n with
      | some s, some ss => some (s :: ss)
      | _, _ => none
    | _ => none

/-- Read access of a client of ricxx_cache.h:306-311. -/
def readParam (m : Mem) (c : CParam) : Option Param :=
  match cstr (m.chars.drop c.nameOff) with
  | none => none
  | some name =>
    match c.kind with
    | .int => (readN m.ints c.dataOff c.size).map fun l => ⟨c.spec, name, .ints l⟩
    | .float => (readN m.floats c.dataOff c.size).map fun l => ⟨c.spec, name, .floats l⟩
    | .ptr => (readN m.ptrs c.dataOff c.size).map fun l => ⟨c.spec, name, .ptrs l⟩
    | .str => (readStrings m c.dataOff c.size).map fun l => ⟨c.spec, name, .strings l⟩

/-- Read access of a client of ricxx_cache.h:306-311. -/
def readAll (m : Mem) (cs : List CParam) : List (Option Param) := cs.map (readParam m)

/-! ## Several strings in one array -/

/-- `MultiStringBuffer`: `m_storage` and `m_offsets`. multistringbuffer.h:52-57. -/
structure MSB where
  storage : List Nat
  offsets : List Nat
deriving DecidableEq, Repr

/-- Constructor, multistringbuffer.h:59-60. -/
def MSB.empty : MSB := ⟨[], []⟩

/-- multistringbuffer.h:63-69 `push_back`. -/
def MSB.push (b : MSB) (s : List Nat) : MSB :=
  ⟨b.storage ++ (s ++ [0]), b.offsets ++ [b.storage.length]⟩

/-- multistringbuffer.h:81-85 `clear`. -/
def MSB.clear (_ : MSB) : MSB := .empty

/-- multistringbuffer.h:88-101 `toCstringVec`: what each of the pointers points to. -/
def MSB.strings (b : MSB) : List (Option (List Nat)) :=
  b.offsets.map fun o => cstr ((b.storage.drop o).map some)

/-- `CachedStringArray`, ricxx_cache.h:144-161. -/
def MSB.ofList (l : List (List Nat)) : MSB := l.foldl MSB.push .empty

end Verif.Filter.Cache
