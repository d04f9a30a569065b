/-
The object pool: /repo/include/aqsis/util/pool.h.
-/
namespace Verif.Util.Pool

/-- The address of a byte in `m_mem` of a chunk: the number of the chunk, in the
order of creation, and the offset.  Different chunks are different objects.
include/aqsis/util/pool.h:41-46. -/
structure Addr where
  chunk : Nat
  off : Nat
  deriving DecidableEq, Repr

/-- include/aqsis/util/pool.h:41-50.  `link a` is the pointer kept in the first
bytes of the memory at `a` (`SqLink::m_next`); memory in use by a client holds
whatever the client put there. -/
structure State where
  chunks : Nat
  head : Option Addr
  link : Addr → Option Addr

/-- include/aqsis/util/pool.h:68-73: the constructor. -/
def init : State := { chunks := 0, head := none, link := fun _ => none }

/-- include/aqsis/util/pool.h:43: bytes in a chunk. -/
def chunkSize (cs : Nat) : Nat := cs * 1024 - 16

/-- include/aqsis/util/pool.h:69: `m_esize`, with 8 byte pointers. -/
def esizeOf (sizeT : Nat) : Nat := if sizeT < 8 then 8 else sizeT

/-- include/aqsis/util/pool.h:58-64: the links written by `grow` in chunk `c`.
`k` is the number of the element the offset belongs to. -/
def growLink (size es c : Nat) (link : Addr → Option Addr) (a : Addr) : Option Addr :=
  if a.chunk = c ∧ a.off % es = 0 ∧ a.off / es < size / es then
    if a.off / es + 1 < size / es then some ⟨c, a.off + es⟩ else none
  else link a

/-- include/aqsis/util/pool.h:52-65 `grow`.  `none`: with no room for a single
element `(nelem-1)*m_esize` is an index outside the chunk and `grow` writes out
of bounds (undefined). -/
def grow (size es : Nat) (st : State) : Option State :=
  if size / es = 0 then none
  else some
    { chunks := st.chunks + 1
      head := some ⟨st.chunks, 0⟩
      link := growLink size es st.chunks st.link }

/-- include/aqsis/util/pool.h:108-115 `alloc`. -/
def alloc (size es : Nat) (st : State) : Option (Addr × State) :=
  match st.head with
  | some p => some (p, { st with head := st.link p })
  | none =>
    match grow size es st with
    | none => none
    | some st' =>
      match st'.head with
      | none => none      -- not reached: `grow` sets the head
      | some p => some (p, { st' with head := st'.link p })

/-- include/aqsis/util/pool.h:117-122 `free`. -/
def free (st : State) (p : Addr) : State :=
  { st with
    head := some p
    link := fun a => if a = p then st.head else st.link a }

/-- What a client can do. include/aqsis/util/pool.h:108-122. -/
inductive Op where
  | alloc
  /-- Give back the `i`-th of the elements in use. -/
  | free (i : Nat)
  /-- Write to the `i`-th of the elements in use, over the bytes of the link. -/
  | scribble (i : Nat) (v : Option Addr)
  deriving DecidableEq, Repr

/-- A step of a client, with the list of the elements it has in use.  `none`:
undefined. include/aqsis/util/pool.h:108-122. -/
def step (size es : Nat) (s : State × List Addr) : Op → Option (State × List Addr)
  | .alloc =>
    match alloc size es s.1 with
    | none => none
    | some (p, st) => some (st, p :: s.2)
  | .free i =>
    match s.2[i]? with
    | none => some s
    | some p => some (free s.1 p, s.2.eraseIdx i)
  | .scribble i v =>
    match s.2[i]? with
    | none => some s
    | some p =>
      some ({ s.1 with link := fun a => if a = p then v else s.1.link a }, s.2)

/-- include/aqsis/util/pool.h:108-122. -/
def run (size es : Nat) : State × List Addr → List Op → Option (State × List Addr)
  | s, [] => some s
  | s, o :: os =>
    match step size es s o with
    | none => none
    | some s' => run size es s' os

end Verif.Util.Pool
