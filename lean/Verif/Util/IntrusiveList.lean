/-
Intrusive lists: /repo/include/aqsis/util/list.h.

Entries are named by numbers; the two link fields of all entries are two maps.
-/
namespace Verif.Util.IList

/-- include/aqsis/util/list.h:151-153: the links of every entry and the mark of
the place holders. -/
structure St where
  prev : Nat → Option Nat
  next : Nat → Option Nat
  invalid : Nat → Bool

/-- Assignment to one field of one entry. include/aqsis/util/list.h:85-149. -/
def upd {α} (f : Nat → α) (k : Nat) (v : α) : Nat → α := fun i => if i = k then v else f i

/-- Assignment through a pointer that may be null (guarded by `if`).
include/aqsis/util/list.h:85-149. -/
def updO {α} (f : Nat → α) (k : Option Nat) (v : α) : Nat → α :=
  match k with
  | none => f
  | some k => upd f k v

/-- include/aqsis/util/list.h:99-101: walk to the last entry of a chain.
`none`: the walk has not ended after `fuel` steps. -/
def walk (nx : Nat → Option Nat) : Nat → Nat → Option Nat
  | 0, _ => none
  | fuel + 1, x =>
    match nx x with
    | none => some x
    | some y => walk nx fuel y

/-- The outcome of a link operation. include/aqsis/util/list.h:85-137. -/
inductive Res where
  | ok (st : St)
  /-- the assertion at list.h:108 / 136 fails -/
  | assertFails
  /-- still walking along the chain when the fuel ran out -/
  | walking

/-- include/aqsis/util/list.h:85-109 `LinkAfter`. -/
def linkAfter (fuel : Nat) (st : St) (x : Nat) (p : Option Nat) : Res :=
  let nx0 := updO st.next (st.prev x) none
  let pv0 := upd st.prev x none
  match p with
  | none => .ok { st with prev := pv0, next := nx0 }
  | some p =>
    let temp := nx0 p
    match walk nx0 fuel x with
    | none => .walking
    | some tail =>
      let nx1 := upd nx0 tail temp
      let pv1 := updO pv0 temp (some x)
      let nx2 := upd nx1 p (some x)
      let pv2 := upd pv1 x (some p)
      if pv2 x = nx2 x ∧ nx2 x ≠ none then .assertFails
      else .ok { st with prev := pv2, next := nx2 }

/-- include/aqsis/util/list.h:114-137 `LinkBefore`. -/
def linkBefore (fuel : Nat) (st : St) (x : Nat) (n : Option Nat) : Res :=
  let pv0 := updO st.prev (st.next x) none
  let nx0 := upd st.next x none
  match n with
  | none => .ok { st with prev := pv0, next := nx0 }
  | some n =>
    let temp := pv0 n
    match walk pv0 fuel x with
    | none => .walking
    | some head =>
      let pv1 := upd pv0 head temp
      let nx1 := updO nx0 temp (some x)
      let pv2 := upd pv1 n (some x)
      let nx2 := upd nx1 x (some n)
      if pv2 x = nx2 x ∧ nx2 x ≠ none then .assertFails
      else .ok { st with prev := pv2, next := nx2 }

/-- include/aqsis/util/list.h:140-149 `UnLink`. -/
def unLink (st : St) (x : Nat) : St :=
  let pv0 := updO st.prev (st.next x) (st.prev x)
  let nx0 := updO st.next (pv0 x) (st.next x)
  { st with prev := upd pv0 x none, next := upd nx0 x none }

/-- include/aqsis/util/list.h:54-68 `pNext` / `pPrevious`: the neighbour,
skipping place holders (`fuel` bounds the recursion). -/
def follow (lk : Nat → Option Nat) (invalid : Nat → Bool) : Nat → Nat → Option Nat
  | 0, _ => none
  | fuel + 1, x =>
    match lk x with
    | none => none
    | some y => if invalid y then follow lk invalid fuel y else some y

/-- Names of the place holders `m_Head` and `m_Tail` of a list; the entries
proper are the numbers from 2. include/aqsis/util/list.h:205-206. -/
def H : Nat := 0
/-- include/aqsis/util/list.h:205-206. -/
def T : Nat := 1

/-- All entries as constructed (list.h:44) and then `CqList()` (list.h:167-172):
`m_Tail.LinkAfter(&m_Head)`, both marked. -/
def fresh : St :=
  { prev := fun _ => none, next := fun _ => none, invalid := fun _ => false }

/-- include/aqsis/util/list.h:167-172. -/
def newList : Res :=
  match linkAfter 1 fresh T (some H) with
  | .ok st => .ok { st with invalid := upd (upd st.invalid T true) H true }
  | r => r

/-- include/aqsis/util/list.h:179-184 `pFirst`. -/
def pFirst (fuel : Nat) (st : St) : Option Nat :=
  if follow st.next st.invalid fuel H = some T then none else follow st.next st.invalid fuel H

/-- Walk over a list from an entry, collecting entries: the way clients use
`pNext` (or `pPrevious`). include/aqsis/util/list.h:54-68. -/
def collect (lk : Nat → Option Nat) (invalid : Nat → Bool) : Nat → Option Nat → List Nat
  | 0, _ => []
  | _, none => []
  | fuel + 1, some x => x :: collect lk invalid fuel (follow lk invalid 2 x)

/-- Operations of a client on a list. include/aqsis/util/list.h:85-203. -/
inductive Op where
  | linkFirst (x : Nat)
  | linkLast (x : Nat)
  | linkAfter (x p : Nat)
  | linkBefore (x n : Nat)
  | unLink (x : Nat)
  deriving DecidableEq, Repr

/-- One operation; `linkFirst` and `linkLast` are list.h:189-203. -/
def step (fuel : Nat) (st : St) : Op → Res
  | .linkFirst x => linkAfter fuel st x (some H)
  | .linkLast x => linkBefore fuel st x (some T)
  | .linkAfter x p => linkAfter fuel st x (some p)
  | .linkBefore x n => linkBefore fuel st x (some n)
  | .unLink x => .ok (unLink st x)

/-- include/aqsis/util/list.h:85-203. -/
def runOps (fuel : Nat) : St → List Op → Res
  | st, [] => .ok st
  | st, o :: os =>
    match step fuel st o with
    | .ok st' => runOps fuel st' os
    | r => r

end Verif.Util.IList
