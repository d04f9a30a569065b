/-!
# Model of the RIB tokenizer

`/repo/libs/riutil/ribtokenizer.cpp` and `ribtoken.h`.

Bytes are `Nat`s (below 256 in any real stream).  The input buffer is replaced by the list of
remaining bytes: `C01_input_transparent` shows the buffer behaves like a cursor into the bytes
followed by 255 for ever, so "remaining bytes" with `get [] = 255` is exactly that cursor;
`unget` gives back the list before the last `get`.
Source positions and the comment callback are not part of this model (see `InputBuffer` for
positions).
-/
namespace Verif.Rib

/-- A floating point token value, kept symbolic: how the `float` is computed from the input.
`bits32`/`bits64`: the IEEE bit pattern (ribtokenizer.cpp:636-665).
`fixed`: `mag + frac / 2^(8*radix)` (ribtokenizer.cpp:621-628).
`dec`: sign, digits before the point, digits after the point, decimal exponent
(ribtokenizer.cpp:358-462). -/
inductive FVal where
  | bits32 (n : Nat)
  | bits64 (n : Nat)
  | fixed (mag frac radix : Nat)
  | dec (neg : Bool) (int frac : List Nat) (exp : Int)
deriving DecidableEq, Repr

/-- The distinct error messages of the tokenizer. ribtokenizer.cpp:138-555. -/
inductive TokErr where
  | reserved | expectedStringReq | emptyReq | expectedStringStr
  | floatDigit | digit | expDigit | strEof | reqUndef | strUndef
deriving DecidableEq, Repr

/-- Tokens (ribtoken.h:52-62).  `ub` is not a token of the code: it stands for signed integer
overflow (undefined behaviour) inside `readNumber`; nothing after it is meaningful. -/
inductive Tok where
  | arrayBegin | arrayEnd
  | str (s : List Nat)
  | int (i : Int)
  | float (f : FVal)
  | req (s : List Nat)
  | err (e : TokErr)
  | eof
  | ub
deriving DecidableEq, Repr

/-- Tokenizer state that survives between tokens (ribtokenizer.h, members m_encodedRequests,
m_encodedStrings, m_arrayElementsRemaining; initial values ribtokenizer.cpp:87-89). -/
structure TkSt where
  reqs : Nat → List Nat
  strs : Nat → Option (List Nat)
  arr : Int

/-- ribtokenizer.cpp:79-90. -/
def TkSt.init : TkSt := ⟨fun _ => [], fun _ => none, -1⟩

/-- `RibInputBuffer::get` on the remaining bytes (ribinputbuffer.h:130, see module comment). -/
def getc : List Nat → Nat × List Nat
  | [] => (255, [])
  | c :: r => (c, r)

/-- ribtokenizer.cpp:586-598 `decodeInt`, MSB first; a count ≤ 0 reads nothing.  The sum of at
most four shifted bytes cannot wrap a `TqUint32`. `byte << 24` for a byte ≥ 128 is read as the
modular shift every compiler implements. -/
def decodeInt : Nat → List Nat → Nat × List Nat
  | 0, l => (0, l)
  | n + 1, l =>
    let p := getc l
    let q := decodeInt n p.2
    (p.1 * 256 ^ n + q.1, q.2)

/-- Conversion `TqUint32 → int` (two's complement). -/
def toInt32 (u : Nat) : Int := if u < 2 ^ 31 then (u : Int) else (u : Int) - 2 ^ 32

/-- ribtokenizer.cpp:681-682: the byte loop of `decodeString`. -/
def takeBytes : Nat → List Nat → List Nat × List Nat
  | 0, l => ([], l)
  | n + 1, l =>
    let p := getc l
    let q := takeBytes n p.2
    (p.1 :: q.1, q.2)

/-- ribtokenizer.cpp:675-683 `decodeString(inBuf, int numBytes, tok)`: the length is converted to
`int`, so a length of 2^31 or more reads nothing. -/
def decodeString (len : Nat) (l : List Nat) : List Nat × List Nat :=
  takeBytes (toInt32 len).toNat l

/-- `std::isdigit`, ribtokenizer.cpp:378. -/
def isDigit (c : Nat) : Bool := 48 ≤ c && c ≤ 57

/-- Value of a digit sequence, as accumulated at ribtokenizer.cpp:383-384 and 454-455. -/
def digitsVal (ds : List Nat) : Nat := ds.foldl (fun a c => a * 10 + (c - 48)) 0

/-- The accumulator overflows `int` (undefined behaviour). ribtokenizer.cpp:381-389. -/
def overflows (ds : List Nat) : Bool := 2147483647 < digitsVal ds

/-- Optional sign, ribtokenizer.cpp:367-376 and 436-445. -/
def readSign : List Nat → Bool × List Nat
  | 43 :: r => (false, r)
  | 45 :: r => (true, r)
  | l => (false, l)

/-- ribtokenizer.cpp:433-461: the exponent, after the `e`. -/
def readExp (neg : Bool) (ds fs : List Nat) (l : List Nat) : Tok × List Nat :=
  let p := readSign l
  let es := p.2.takeWhile isDigit
  let r := p.2.dropWhile isDigit
  if es = [] then (.err .expDigit, r.tail)        -- the offending character is not put back
  else if overflows es then (.ub, r)
  else (.float (.dec neg ds fs (if p.1 then -(digitsVal es : Int) else digitsVal es)), r)

/-- ribtokenizer.cpp:417-420. -/
def isExpChar (c : Nat) : Bool := c = 101 || c = 69

/-- ribtokenizer.cpp:358-462 `readNumber`.  The two error exits at 398 and 426 do not put the
offending character back. `intResult *= sign` cannot overflow as `intResult ≥ 0`. -/
def readNumber (l : List Nat) : Tok × List Nat :=
  let p := readSign l
  let ds := p.2.takeWhile isDigit
  let r := p.2.dropWhile isDigit
  if overflows ds then (.ub, r)
  else match r with
    | 46 :: r1 =>
      let fs := r1.takeWhile isDigit
      let r2 := r1.dropWhile isDigit
      if ds = [] ∧ fs = [] then (.err .floatDigit, r1.tail)
      else match r2 with
        | c :: r3 => if isExpChar c then readExp p.1 ds fs r3 else (.float (.dec p.1 ds fs 0), r2)
        | [] => (.float (.dec p.1 ds fs 0), [])
    | c :: r1 =>
      if isExpChar c then readExp p.1 ds [] r1
      else if ds = [] then (.err .digit, r1)
      else (.int (if p.1 then -(digitsVal ds : Int) else digitsVal ds), r)
    | [] =>
      if ds = [] then (.err .digit, [])
      else (.int (if p.1 then -(digitsVal ds : Int) else digitsVal ds), [])

/-- ribtokenizer.cpp:468-514 `readString`, after the opening quote; `acc` is the string so far,
reversed. A backslash at the very end of the stream appends `\` and 255 and then fails on the
next 255. -/
def readString (acc : List Nat) : List Nat → Tok × List Nat
  | [] => (.err .strEof, [])
  | c :: r =>
    if c = 34 then (.str acc.reverse, r)
    else if c = 92 then
      match r with
      | [] => (.err .strEof, [])
      | d :: r' => readString (if d = 32 then 32 :: acc else d :: 92 :: acc) r'
    else if c = 13 then
      match r with
      | [] => readString (10 :: acc) []
      | d :: r' => if d = 10 then readString (10 :: acc) r' else readString (10 :: acc) (d :: r')
    else if c = 255 then (.err .strEof, r)
    else readString (c :: acc) r
termination_by l => l.length

/-- ribtokenizer.cpp:528-545: characters that continue a request name. -/
def isReqChar (c : Nat) : Bool :=
  c < 128 && !(c = 32 || c = 9 || c = 10 || c = 13 || c = 35 || c = 34 || c = 91 || c = 93)

/-- ribtokenizer.cpp:517-555 `readRequest`. -/
def readRequest (l : List Nat) : Tok × List Nat := (.req (l.takeWhile isReqChar), l.dropWhile isReqChar)

/-- ribtokenizer.cpp:558-577 `readComment` (text discarded). -/
def readComment (l : List Nat) : List Nat := l.dropWhile fun c => !(c = 10 || c = 13 || c = 255)

/-- ribtokenizer.cpp:172-177. -/
def isSpace (c : Nat) : Bool := c = 32 || c = 9 || c = 10 || c = 13
/-- ribtokenizer.cpp:181-186. -/
def isNumStart (c : Nat) : Bool := isDigit c || c = 45 || c = 43 || c = 46

/-- Update of a table (`m_encodedRequests[code] = s`, `m_encodedStrings[code] = s`).
ribtokenizer.cpp:206-352. -/
def update {α} (f : Nat → α) (k : Nat) (v : α) : Nat → α := fun i => if i = k then v else f i

/-- ribtokenizer.cpp:206-352: the binary encodings (characters 0200 to 0377), other than the
definitions 0314-0316. -/
def scanBin (st : TkSt) (c : Nat) (r : List Nat) : Tok × TkSt × List Nat :=
  if c < 132 then                                            -- 0200-0203
    let p := decodeInt (c - 128 + 1) r; (.int (toInt32 p.1), st, p.2)
  else if c < 144 then                                       -- 0204-0217
    let n := (c - 128) % 4 + 1
    let radix := (c - 128) / 4 % 4
    let p := decodeInt (n - radix) r
    let q := decodeInt (min radix n) p.2
    (.float (.fixed p.1 q.1 radix), st, q.2)
  else if c < 160 then                                       -- 0220-0237
    let p := decodeString (c - 144) r; (.str p.1, st, p.2)
  else if c < 164 then                                       -- 0240-0243
    let p := decodeInt (c - 160 + 1) r
    let q := decodeString p.1 p.2
    (.str q.1, st, q.2)
  else if c = 164 then                                       -- 0244
    let p := decodeInt 4 r; (.float (.bits32 p.1), st, p.2)
  else if c = 165 then                                       -- 0245
    let p := decodeInt 4 r
    let q := decodeInt 4 p.2
    (.float (.bits64 (p.1 * 2 ^ 32 + q.1)), st, q.2)
  else if c = 166 then                                       -- 0246, lookupEncodedRequest 686-696
    let p := getc r
    (if st.reqs p.1 = [] then .err .reqUndef else .req (st.reqs p.1), st, p.2)
  else if c < 200 then (.err .reserved, st, r)               -- 0247-0307
  else if c < 204 then                                       -- 0310-0313
    let p := decodeInt (c - 200 + 1) r
    (.arrayBegin, { st with arr := toInt32 p.1 }, p.2)
  else if c = 207 ∨ c = 208 then                             -- 0317-0320, lookupEncodedString 699-709
    let p := decodeInt (c - 207 + 1) r
    (match st.strs p.1 with | some s => .str s | none => .err .strUndef, st, p.2)
  else if c = 255 then (.eof, st, r)                         -- 0377
  else (.err .reserved, st, r)                               -- 0321-0376

/-- What one round of the loop of `scanNext` does with the character `c` just read
(ribtokenizer.cpp:167-353), other than the two recursive cases. `none`: go round again. -/
def scanChar (st : TkSt) (c : Nat) (r : List Nat) : Option Tok × TkSt × List Nat :=
  if isSpace c then (none, st, r)
  else if c = 35 then (none, st, readComment r)
  else if isNumStart c then let p := readNumber (c :: r); (some p.1, st, p.2)
  else if c = 34 then let p := readString [] r; (some p.1, st, p.2)
  else if c = 91 then (some .arrayBegin, st, r)
  else if c = 93 then (some .arrayEnd, st, r)
  else if c < 128 then let p := readRequest (c :: r); (some p.1, st, p.2)
  else let p := scanBin st c r; (some p.1, p.2)

/-- Body of `scanNext` (ribtokenizer.cpp:138-355) with a current input; `rec` is `scanNext` itself,
used for the two recursive calls (291, 316) and for going round the `while(true)` loop again: the
entry test on `m_arrayElementsRemaining` that this adds is false there (`scanNext_str_arr`). -/
def scanBody (rec : TkSt → List Nat → Option (Tok × TkSt × List Nat)) (st : TkSt) (l : List Nat) :
    Option (Tok × TkSt × List Nat) :=
  if 0 ≤ st.arr then                                       -- 145-160
    if st.arr - 1 < 0 then some (.arrayEnd, { st with arr := st.arr - 1 }, l)
    else
      let p := decodeInt 4 l
      some (.float (.bits32 p.1), { st with arr := st.arr - 1 }, p.2)
  else
    match l with
    | [] => some (.eof, st, [])
    | c :: r =>
      if c = 204 then                                        -- 0314, 283-308
        let p := getc r
        match rec st p.2 with
        | none => none
        | some (.str s, st', r') =>
          if s = [] then some (.err .emptyReq, st', r')
          else rec { st' with reqs := update st'.reqs p.1 s } r'
        | some (.ub, st', r') => some (.ub, st', r')
        | some (_, st', r') => some (.err .expectedStringReq, st', r')
      else if c = 205 ∨ c = 206 then                         -- 0315-0316, 309-325
        let p := decodeInt (c - 205 + 1) r
        match rec st p.2 with
        | none => none
        | some (.str s, st', r') => rec { st' with strs := update st'.strs p.1 (some s) } r'
        | some (.ub, st', r') => some (.ub, st', r')
        | some (_, st', r') => some (.err .expectedStringStr, st', r')
      else
        match scanChar st c r with
        | (some t, st', r') => some (t, st', r')
        | (none, st', r') => rec st' r'

/-- ribtokenizer.cpp:138-355 `scanNext`.  The first argument bounds the number of loop rounds and
nested calls; `none` means the bound was too small (`scanNext_total` shows `length + 1` always
suffices). -/
def scanNext : Nat → TkSt → List Nat → Option (Tok × TkSt × List Nat)
  | 0 => fun _ _ => none
  | fuel + 1 => scanBody (scanNext fuel)

/-- One call of `scanNext` on the remaining bytes, with a sufficient bound. ribtokenizer.cpp:138-355. -/
def scan (st : TkSt) (l : List Nat) : Tok × TkSt × List Nat :=
  (scanNext (l.length + 1) st l).getD (.ub, st, l)

end Verif.Rib
