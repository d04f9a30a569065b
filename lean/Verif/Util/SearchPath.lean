/-
Search paths: /repo/libs/util/file.cpp and /repo/include/aqsis/util/file.h
(posix branches; the AQSIS_SYSTEM_WIN32 ones are not modelled).

Text is a list of byte values.
-/
namespace Verif.Util.SearchPath

/-- Text. libs/util/file.cpp:151-199. -/
abbrev Txt := List Nat

/-- libs/util/file.cpp:162: the characters `find_first_of("&@%")` stops at. -/
def isSpecial (c : Nat) : Bool := c == 38 || c == 64 || c == 37

/-- What one turn of the loop of `expandSearchPath` does. libs/util/file.cpp:160-196. -/
inductive Turn where
  /-- `break`: the expanded path. -/
  | done (out : Txt)
  /-- Another turn: the text from `strt` on and the path expanded so far. -/
  | again (rest acc : Txt)
  deriving DecidableEq, Repr

/-- libs/util/file.cpp:162-195, the body of `while(1)`.  `rest` is
`newPath.substr(strt)` and `acc` is `expandedPath`.  `env` is `getenv`; names
with a NUL inside, which `c_str()` would cut, are not treated specially. -/
def turn (old dflt : Txt) (env : Txt → Option Txt) (rest acc : Txt) : Turn :=
  let pre := rest.takeWhile (fun c => !isSpecial c)
  match rest.dropWhile (fun c => !isSpecial c) with
  | [] => .done (acc ++ rest)
  | c :: tl =>
    if c = 38 then .again tl (acc ++ pre ++ old)
    else if c = 64 then .again tl (acc ++ pre ++ dflt)
    else
      match tl.dropWhile (· != 37) with
      | [] => .again rest (acc ++ pre)      -- no closing %: `strt` stays
      | _ :: tl' => .again tl' (acc ++ pre ++ (env (tl.takeWhile (· != 37))).getD [])

/-- libs/util/file.cpp:151-199 `expandSearchPath`, stopped after `fuel` turns of
the loop.  `none`: still looping.  `mtorPathFudge` is the identity here
(file.cpp:122-149). -/
def expandLoop (old dflt : Txt) (env : Txt → Option Txt) : Nat → Txt → Txt → Option Txt
  | 0, _, _ => none
  | fuel + 1, rest, acc =>
    match turn old dflt env rest acc with
    | .done out => some out
    | .again rest' acc' => expandLoop old dflt env fuel rest' acc'

/-- libs/util/file.cpp:151-199. -/
def expandSearchPath (old dflt : Txt) (env : Txt → Option Txt) (fuel : Nat) (new : Txt) :
    Option Txt :=
  expandLoop old dflt env fuel new []

/-! ### The path list tokenizer -/

/-- include/aqsis/util/file.h:176-181 `isDelim`. -/
def isDelim (c : Nat) : Bool := c == 58 || c == 59

/-- include/aqsis/util/file.h:183-211 `CqSearchPathsTokenFunc::operator()`: the
next path and the text after it, if any. -/
def nextPath (s : Txt) : Option (Txt × Txt) :=
  match s.dropWhile isDelim with
  | [] => none
  | c :: tl =>
    some ((c :: tl).takeWhile (fun c => !isDelim c), (c :: tl).dropWhile (fun c => !isDelim c))

theorem length_dropWhile_le (p : Nat → Bool) (s : Txt) : (s.dropWhile p).length ≤ s.length := by
  induction s with
  | nil => simp
  | cons a t ih => simp only [List.dropWhile_cons]; split <;> simp <;> omega

theorem nextPath_lt {s t r : Txt} (h : nextPath s = some (t, r)) : r.length < s.length := by
  unfold nextPath at h
  split at h
  · simp at h
  · rename_i c tl he
    simp only [Option.some.injEq, Prod.mk.injEq] at h
    have h1 := length_dropWhile_le isDelim s
    rw [he] at h1
    have hc : isDelim c = false := by
      have := List.head?_dropWhile_not isDelim s
      rw [he] at this
      simpa using this
    have h2 : (c :: tl).dropWhile (fun c => !isDelim c) = tl.dropWhile (fun c => !isDelim c) := by
      simp [List.dropWhile_cons, hc]
    rw [← h.2, h2]
    have := length_dropWhile_le (fun c => !isDelim c) tl
    simp at h1; omega

/-- include/aqsis/util/file.h:152-153: all the paths of a path list, in order, as
`boost::tokenizer` walks them. -/
def paths (s : Txt) : List Txt :=
  match h : nextPath s with
  | none => []
  | some (t, r) => t :: paths r
termination_by s.length
decreasing_by exact nextPath_lt h

/-! ### Looking for a file -/

/-- What the file system says about a name. As used at libs/util/file.cpp:72-81. -/
inductive Stat where
  /-- A regular file. -/
  | regular
  /-- Nothing there, or something that is not a regular file. -/
  | other
  /-- The name could not be examined (no permission on a directory, symbolic
  link loop, name too long, ...). -/
  | error
  deriving DecidableEq, Repr

/-- The outcome of a search. libs/util/file.cpp:84-109. -/
inductive Found where
  /-- The path returned; the empty path is "not found". -/
  | path (p : Txt)
  /-- `boost::filesystem::filesystem_error` leaves the function. -/
  | raised
  deriving DecidableEq, Repr

/-- libs/util/file.cpp:72-81 `isRegularFile`.  The function called is
`boost::filesystem::is_regular_file`, found through the argument; it throws
`boost::filesystem::filesystem_error` when the name cannot be examined.  The
handler catches `std::filesystem::filesystem_error`, another class, so the
exception is not caught.  `none` is that exception. -/
def isRegularFile (fs : Txt → Stat) (p : Txt) : Option Bool :=
  match fs p with
  | .regular => some true
  | .other => some false
  | .error => none

/-- `boost::filesystem::path::operator/` for a non-empty directory and a
non-empty relative name: a slash is put between unless there is one. libs/util/file.cpp:104. -/
def joinPath (dir name : Txt) : Txt :=
  if dir.getLast? = some 47 then dir ++ name else dir ++ 47 :: name

/-- libs/util/file.cpp:92: `is_absolute()`, or the first component is `.` or
`..`. -/
def direct (name : Txt) : Bool :=
  name.head? == some 47 || name.takeWhile (· != 47) == [46] || name.takeWhile (· != 47) == [46, 46]

/-- libs/util/file.cpp:101-107, the loop over the directories. -/
def searchDirs (fs : Txt → Stat) (name : Txt) : List Txt → Found
  | [] => .path []
  | d :: ds =>
    match isRegularFile fs (joinPath d name) with
    | none => .raised
    | some true => .path (joinPath d name)
    | some false => searchDirs fs name ds

/-- libs/util/file.cpp:84-109 `findFileNothrow`. -/
def findFileNothrow (fs : Txt → Stat) (name searchPath : Txt) : Found :=
  if name = [] then .path []
  else if direct name then
    match isRegularFile fs name with
    | none => .raised
    | some true => .path name
    | some false => .path []
  else searchDirs fs name (paths searchPath)

end Verif.Util.SearchPath
