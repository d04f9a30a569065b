import Verif.Tex.Magic

/-!
# C36: file type detection depends only on the leading bytes
-/

namespace Verif.Tex.Magic

/-- Signatures of the file formats; an Aqsis bake file starts with a line of text
("Aqsis bake file" and at least one further byte, the end of the line). -/
def Starts (file sig : List Nat) : Prop := ∃ rest, file = sig ++ rest

def tiffLittle : List Nat := [0x49, 0x49, 42, 0]
def tiffBig : List Nat := [0x4D, 0x4D, 0, 42]
def exrSig : List Nat := [0x76, 0x2F, 0x31, 1]
def pngSig : List Nat := [0x89, 0x50, 0x4E, 0x47]
def bakeSig : List Nat := [65, 113, 115, 105, 115, 32, 98, 97, 107, 101, 32, 102, 105, 108, 101]
def zfileSig : List Nat := [65, 113, 115, 105, 115, 32, 90, 70, 105, 108, 101]

/-- What the format of a file is, by its first bytes. -/
inductive IsFormat (file : List Nat) : FileType → Prop
  | tiffL : Starts file tiffLittle → IsFormat file .tiff
  | tiffB : Starts file tiffBig → IsFormat file .tiff
  | exr : Starts file exrSig → IsFormat file .exr
  | png : Starts file pngSig → IsFormat file .png
  | bake (b : Nat) : Starts file (bakeSig ++ [b]) → IsFormat file .aqsisBake
  | zfile : Starts file zfileSig → IsFormat file .aqsisZfile

theorem starts_iff (file sig : List Nat) : Starts file sig ↔ file.take sig.length = sig := by
  constructor
  · rintro ⟨r, rfl⟩; simp
  · intro h
    exact ⟨file.drop sig.length, by
      conv => lhs; rw [← List.take_append_drop sig.length file]
      rw [h]⟩

theorem equalGo_eq : ∀ (n : Nat) (m p : List Nat), n ≤ m.length → n ≤ p.length →
    equal.equalGo n m p = some (decide (m.take n = p.take n)) := by
  intro n
  induction n with
  | zero => intro m p _ _; simp [equal.equalGo]
  | succ n ih =>
    intro m p hm hp
    cases m with
    | nil => simp at hm
    | cons a m =>
      cases p with
      | nil => simp at hp
      | cons b p =>
        simp only [List.length_cons] at hm hp
        simp only [equal.equalGo, List.take_succ_cons, List.cons.injEq]
        by_cases h : a = b
        · rw [if_pos h, ih m p (by omega) (by omega)]; simp [h]
        · rw [if_neg h]; simp [h]

theorem equal_eq (n : Nat) (m p : List Nat) (hm : n ≤ m.length) (hp : n = p.length) :
    equal m n p = some (decide (m.take n = p)) := by
  have hgo := equalGo_eq n m (p ++ [0]) hm (by simp; omega)
  have : equal m n p = equal.equalGo n m (p ++ [0]) := by
    unfold equal
    cases n with
    | zero => simp [equal.equalGo]
    | succ n =>
      cases m with
      | nil => simp at hm
      | cons a m =>
        cases p with
        | nil => simp at hp
        | cons b p => simp [equal.equalGo]
  rw [this, hgo, hp]
  simp

/-- One test: length, then the comparison. -/
theorem test_eq (file p : List Nat) (k n : Nat) (hk : n ≤ k) (hk2 : k ≤ 50) (hp : n = p.length) :
    (andThen (decide ((getMagicNumber file).length ≥ k)) fun _ => equal (getMagicNumber file) n p) =
      some (decide (k ≤ file.length ∧ file.take n = p)) := by
  unfold andThen getMagicNumber
  by_cases h : k ≤ file.length
  · have h' : (file.take 50).length ≥ k := by rw [List.length_take]; omega
    rw [if_pos (by simpa using h'), equal_eq n _ p (by omega) hp, List.take_take]
    rw [show min n 50 = n by omega]
    simp [h]
  · have h' : ¬ (file.take 50).length ≥ k := by rw [List.length_take]; omega
    rw [if_neg (by simpa using h')]
    simp [h]

theorem starts_len (file p : List Nat) (h : Starts file p) : p.length ≤ file.length := by
  obtain ⟨r, rfl⟩ := h; simp

/-- The answer, test by test. -/
theorem guess_eq (file : List Nat) : guess file =
    some (if file.take 4 = tiffLittle ∨ file.take 4 = tiffBig then .tiff
      else if file.take 4 = exrSig then .exr
      else if file.take 4 = pngSig then .png
      else if 16 ≤ file.length ∧ file.take 15 = bakeSig then .aqsisBake
      else if file.take 11 = zfileSig then .aqsisZfile else .unknown) := by
  have len4 : ∀ p : List Nat, p.length = 4 → (4 ≤ file.length ∧ file.take 4 = p ↔ file.take 4 = p) := by
    intro p hp
    constructor
    · exact fun h => h.2
    · intro h
      refine ⟨?_, h⟩
      have := congrArg List.length h
      rw [List.length_take, hp] at this
      omega
  have len11 : 11 ≤ file.length ∧ file.take 11 = zfileSig ↔ file.take 11 = zfileSig := by
    constructor
    · exact fun h => h.2
    · intro h
      refine ⟨?_, h⟩
      have := congrArg List.length h
      rw [List.length_take] at this
      simp [zfileSig] at this
      omega
  unfold guess
  have t1 : (andThen (decide ((getMagicNumber file).length ≥ 4)) fun _ =>
      orElse (equal (getMagicNumber file) 4 [0x49, 0x49, 0x2A, 0]) fun _ =>
        equal (getMagicNumber file) 4 [0x4D, 0x4D, 0, 0x2A]) =
      some (decide (file.take 4 = tiffLittle ∨ file.take 4 = tiffBig)) := by
    have a := test_eq file [0x49, 0x49, 0x2A, 0] 4 4 (by omega) (by omega) rfl
    have b := test_eq file [0x4D, 0x4D, 0, 0x2A] 4 4 (by omega) (by omega) rfl
    by_cases h : (getMagicNumber file).length ≥ 4
    · simp only [andThen, h, decide_true, if_true] at a b ⊢
      rw [a, b]
      by_cases c : file.take 4 = [0x49, 0x49, 0x2A, 0]
      · have := (len4 _ rfl).mpr c
        simp [orElse, this, tiffLittle]
      · have h4 : 4 ≤ file.length := by
          unfold getMagicNumber at h; rw [List.length_take] at h; omega
        simp [orElse, c, tiffLittle, tiffBig, h4]
    · simp only [andThen, h, decide_false, Bool.false_eq_true, if_false]
      have h4 : ¬ 4 ≤ file.length := by
        unfold getMagicNumber at h; rw [List.length_take] at h; omega
      have x1 := mt (len4 tiffLittle rfl).mpr (fun hh => h4 hh.1)
      have x2 := mt (len4 tiffBig rfl).mpr (fun hh => h4 hh.1)
      simp [x1, x2]
  have t2 := test_eq file [0x76, 0x2F, 0x31, 1] 4 4 (by omega) (by omega) rfl
  have t4 := test_eq file ("Aqsis bake file".toList.map Char.toNat) 16 15 (by omega) (by omega)
    (by decide)
  have t5 := test_eq file ("Aqsis ZFile".toList.map Char.toNat) 11 11 (by omega) (by omega)
    (by decide)
  have t3 : (andThen (decide ((getMagicNumber file).length ≥ 4)) fun _ => do
      let a ← at? (getMagicNumber file) 0
      if a ≠ 0x89 then return false
      let b ← at? (getMagicNumber file) 1
      if b ≠ 0x50 then return false
      let c ← at? (getMagicNumber file) 2
      if c ≠ 0x4E then return false
      let d ← at? (getMagicNumber file) 3
      return decide (d = 0x47)) = some (decide (file.take 4 = pngSig)) := by
    unfold andThen getMagicNumber at?
    match file with
    | [] => simp [pngSig]
    | [_] => simp [pngSig]
    | [_, _] => simp [pngSig]
    | [_, _, _] => simp [pngSig]
    | a :: b :: c :: d :: r =>
      simp only [List.take_succ_cons, List.length_cons, ge_iff_le, Nat.le_add_left, decide_true,
        if_true, List.getElem?_cons_zero, List.getElem?_cons_succ, List.take_zero, pngSig,
        List.cons.injEq, and_true]
      by_cases h1 : a = 0x89 <;> by_cases h2 : b = 0x50 <;> by_cases h3 : c = 0x4E <;>
        by_cases h4 : d = 0x47 <;> simp [h1, h2, h3, h4]
  simp only
  rw [t1, t2, t3, t4, t5]
  have e2 := len4 [0x76, 0x2F, 0x31, 1] rfl
  have eb : "Aqsis bake file".toList.map Char.toNat = bakeSig := by decide
  have ez : "Aqsis ZFile".toList.map Char.toNat = zfileSig := by decide
  rw [eb, ez]
  by_cases c1 : file.take 4 = tiffLittle ∨ file.take 4 = tiffBig
  · simp only [c1, decide_true, ifThen, if_true]
  rw [if_neg c1]
  simp only [c1, decide_false, ifThen]
  by_cases c2 : file.take 4 = exrSig
  · have := e2.mpr c2
    rw [if_pos c2]
    simp only [this, decide_true, and_self]
  have c2' : ¬ (4 ≤ file.length ∧ file.take 4 = [0x76, 0x2F, 0x31, 1]) := fun h => c2 (e2.mp h)
  rw [if_neg c2]
  simp only [c2', decide_false]
  by_cases c3 : file.take 4 = pngSig
  · simp only [c3, decide_true, if_true]
  rw [if_neg c3]
  simp only [c3, decide_false]
  by_cases c4 : 16 ≤ file.length ∧ file.take 15 = bakeSig
  · simp only [c4, decide_true, if_true, and_self]
  rw [if_neg c4]
  simp only [c4, decide_false]
  by_cases c5 : file.take 11 = zfileSig
  · have := len11.mpr c5
    rw [if_pos c5]
    simp only [this, decide_true, and_self]
  have c5' : ¬ (11 ≤ file.length ∧ file.take 11 = zfileSig) := fun h => c5 (len11.mp h)
  rw [if_neg c5]
  simp only [c5', decide_false]

theorem bake_starts (file : List Nat) :
    (∃ b, Starts file (bakeSig ++ [b])) ↔ 16 ≤ file.length ∧ file.take 15 = bakeSig := by
  constructor
  · rintro ⟨b, r, rfl⟩
    constructor
    · simp [bakeSig]
    · simp [bakeSig]
  · rintro ⟨h1, h2⟩
    cases hd : file.drop 15 with
    | nil =>
      have := congrArg List.length hd
      rw [List.length_drop] at this
      simp at this
      omega
    | cons b r =>
      refine ⟨b, r, ?_⟩
      conv => lhs; rw [← List.take_append_drop 15 file]
      rw [h2, hd]
      simp

/-- Two signatures that differ in their first four bytes. -/
theorem take4 {file p : List Nat} {n : Nat} (hn : 4 ≤ n) (h : file.take n = p) :
    file.take 4 = p.take 4 := by
  rw [← h, List.take_take, show min 4 n = 4 by omega]

/-- **C36.**  For every file: the detection reads nothing outside the bytes it
got, and answers a format exactly when the file begins with the signature of
that format (`unknown` exactly when it begins with none of them; Jpeg is never
answered). -/
theorem C36_guess (file : List Nat) :
    ∃ t, guess file = some t ∧ (∀ u, u ≠ .unknown → (t = u ↔ IsFormat file u)) ∧
      (t = .unknown ↔ ∀ u, ¬ IsFormat file u) := by
  have s1 := starts_iff file tiffLittle
  have s2 := starts_iff file tiffBig
  have s3 := starts_iff file exrSig
  have s4 := starts_iff file pngSig
  have s5 := starts_iff file zfileSig
  have s6 := bake_starts file
  have l1 : tiffLittle.length = 4 := rfl
  have l2 : tiffBig.length = 4 := rfl
  have l3 : exrSig.length = 4 := rfl
  have l4 : pngSig.length = 4 := rfl
  have l5 : zfileSig.length = 11 := rfl
  rw [l1] at s1; rw [l2] at s2; rw [l3] at s3; rw [l4] at s4; rw [l5] at s5
  have fT : IsFormat file .tiff ↔ file.take 4 = tiffLittle ∨ file.take 4 = tiffBig := by
    constructor
    · intro h
      cases h with
      | tiffL h => exact Or.inl (s1.mp h)
      | tiffB h => exact Or.inr (s2.mp h)
    · rintro (h | h)
      · exact .tiffL (s1.mpr h)
      · exact .tiffB (s2.mpr h)
  have fE : IsFormat file .exr ↔ file.take 4 = exrSig :=
    ⟨fun h => by cases h with | exr h => exact s3.mp h, fun h => .exr (s3.mpr h)⟩
  have fP : IsFormat file .png ↔ file.take 4 = pngSig :=
    ⟨fun h => by cases h with | png h => exact s4.mp h, fun h => .png (s4.mpr h)⟩
  have fB : IsFormat file .aqsisBake ↔ 16 ≤ file.length ∧ file.take 15 = bakeSig :=
    ⟨fun h => by cases h with | bake b h => exact s6.mp ⟨b, h⟩,
     fun h => by obtain ⟨b, hb⟩ := s6.mpr h; exact .bake b hb⟩
  have fZ : IsFormat file .aqsisZfile ↔ file.take 11 = zfileSig :=
    ⟨fun h => by cases h with | zfile h => exact s5.mp h, fun h => .zfile (s5.mpr h)⟩
  have fJ : ¬ IsFormat file .jpg := by intro h; cases h
  have fU : ¬ IsFormat file .unknown := by intro h; cases h
  have bz : file.take 15 = bakeSig → file.take 11 = zfileSig → False := by
    intro h1 h2
    have : file.take 11 = bakeSig.take 11 := by
      rw [← h1, List.take_take]; rfl
    rw [h2] at this
    exact absurd this (by decide)
  have four : ∀ p q : List Nat, p ≠ q → file.take 4 = p → file.take 4 = q → False :=
    fun p q hne h1 h2 => hne (h1.symm.trans h2)
  refine ⟨_, guess_eq file, ?_, ?_⟩
  · intro u hu
    by_cases c1 : file.take 4 = tiffLittle ∨ file.take 4 = tiffBig
    · rw [if_pos c1]
      have n3 : ¬ file.take 4 = exrSig := by
        rcases c1 with c | c <;> rw [c] <;> decide
      have n4 : ¬ file.take 4 = pngSig := by
        rcases c1 with c | c <;> rw [c] <;> decide
      have n5 : ¬ file.take 11 = zfileSig := fun h => by
        have := take4 (by omega) h; rcases c1 with c | c <;> rw [c] at this <;> exact absurd this (by decide)
      have n6 : ¬ (16 ≤ file.length ∧ file.take 15 = bakeSig) := fun h => by
        have := take4 (by omega) h.2; rcases c1 with c | c <;> rw [c] at this <;> exact absurd this (by decide)
      cases u <;> simp_all
    rw [if_neg c1]
    by_cases c2 : file.take 4 = exrSig
    · rw [if_pos c2]
      have n4 : ¬ file.take 4 = pngSig := by rw [c2]; decide
      have n5 : ¬ file.take 11 = zfileSig := fun h => by
        have := take4 (by omega) h; rw [c2] at this; exact absurd this (by decide)
      have n6 : ¬ (16 ≤ file.length ∧ file.take 15 = bakeSig) := fun h => by
        have := take4 (by omega) h.2; rw [c2] at this; exact absurd this (by decide)
      cases u <;> simp_all
    rw [if_neg c2]
    by_cases c3 : file.take 4 = pngSig
    · rw [if_pos c3]
      have n5 : ¬ file.take 11 = zfileSig := fun h => by
        have := take4 (by omega) h; rw [c3] at this; exact absurd this (by decide)
      have n6 : ¬ (16 ≤ file.length ∧ file.take 15 = bakeSig) := fun h => by
        have := take4 (by omega) h.2; rw [c3] at this; exact absurd this (by decide)
      cases u <;> simp_all
    rw [if_neg c3]
    by_cases c4 : 16 ≤ file.length ∧ file.take 15 = bakeSig
    · rw [if_pos c4]
      have n5 : ¬ file.take 11 = zfileSig := bz c4.2
      cases u <;> simp_all
    rw [if_neg c4]
    by_cases c5 : file.take 11 = zfileSig
    · rw [if_pos c5]
      cases u <;> simp_all
    rw [if_neg c5]
    cases u <;> simp_all
  · by_cases c1 : file.take 4 = tiffLittle ∨ file.take 4 = tiffBig
    · rw [if_pos c1]
      exact ⟨fun h => by simp at h, fun h => absurd (fT.mpr c1) (h _)⟩
    rw [if_neg c1]
    by_cases c2 : file.take 4 = exrSig
    · rw [if_pos c2]
      exact ⟨fun h => by simp at h, fun h => absurd (fE.mpr c2) (h _)⟩
    rw [if_neg c2]
    by_cases c3 : file.take 4 = pngSig
    · rw [if_pos c3]
      exact ⟨fun h => by simp at h, fun h => absurd (fP.mpr c3) (h _)⟩
    rw [if_neg c3]
    by_cases c4 : 16 ≤ file.length ∧ file.take 15 = bakeSig
    · rw [if_pos c4]
      exact ⟨fun h => by simp at h, fun h => absurd (fB.mpr c4) (h _)⟩
    rw [if_neg c4]
    by_cases c5 : file.take 11 = zfileSig
    · rw [if_pos c5]
      exact ⟨fun h => by simp at h, fun h => absurd (fZ.mpr c5) (h _)⟩
    rw [if_neg c5]
    simp only [true_iff]
    intro u
    cases u
    · exact mt fT.mp c1
    · exact mt fE.mp c2
    · exact fJ
    · exact mt fP.mp c3
    · exact mt fB.mp c4
    · exact mt fZ.mp c5
    · exact fU

/-- **C36.**  No file has the signatures of two different formats. -/
theorem C36_exclusive (file : List Nat) (t u : FileType) (h : IsFormat file t)
    (h' : IsFormat file u) : t = u := by
  obtain ⟨s, _, h1, _⟩ := C36_guess file
  have nt : t ≠ .unknown := by intro e; subst e; cases h
  have nu : u ≠ .unknown := by intro e; subst e; cases h'
  rw [← (h1 t nt).mpr h, ← (h1 u nu).mpr h']

/-- **C36.**  Only the first sixteen bytes matter. -/
theorem C36_prefix (file file' : List Nat) (h : file.take 16 = file'.take 16) :
    guess file = guess file' := by
  have t : ∀ n, n ≤ 16 → file.take n = file'.take n := by
    intro n hn
    have := congrArg (List.take n) h
    rw [List.take_take, List.take_take, show min n 16 = n by omega] at this
    exact this
  have hl : 16 ≤ file.length ↔ 16 ≤ file'.length := by
    have := congrArg List.length h
    rw [List.length_take, List.length_take] at this
    omega
  rw [guess_eq, guess_eq, t 4 (by omega), t 15 (by omega), t 11 (by omega)]
  simp only [hl]

/-- A TIFF file, a bake file, a truncated one and an empty one. -/
example : guess [0x49, 0x49, 42, 0, 8, 0] = some .tiff ∧
    guess (bakeSig ++ [10, 50, 10]) = some .aqsisBake ∧
    guess bakeSig = some .unknown ∧ guess [] = some .unknown ∧
    guess (zfileSig ++ [49]) = some .aqsisZfile ∧ guess [0x89, 0x50, 0x4E] = some .unknown := by
  decide +kernel

end Verif.Tex.Magic
