import Verif.Shader.TexOpts
import Mathlib.Tactic.Linarith
import Mathlib.Tactic.Ring
import Mathlib.Tactic.NormNum
import Mathlib.Tactic.SplitIfs
import Mathlib.Data.Rat.Cast.Order

/-!
Specification and lemmas for C89.
-/

namespace Verif.Shader.TexOpts

namespace Spec

/-- The last value given under one of the names. -/
def lastOf (names : List String) (ps : List (String × Value)) : Option Value :=
  ((ps.filter fun p => p.1 ∈ names).getLast?).map (·.2)

/-- The first value given under one of the names. -/
def firstOf (names : List String) (ps : List (String × Value)) : Option Value :=
  ((ps.filter fun p => p.1 ∈ names).head?).map (·.2)

/-- Values uniform options may have. -/
def Allowed (p : String × Value) : Prop :=
  (p.1 ∈ ["width", "swidth", "twidth", "minwidth"] → 0 ≤ p.2.float 0) ∧
  (p.1 = "trunc" → 0 ≤ p.2.float 0 ∧ p.2.float 0 ≤ 1) ∧
  (p.1 = "filter" → p.2.str ∈ ["box", "gaussian", "none"])

/-- The number of a way to mix levels. -/
def code : Lerp → ℤ
  | .never => 0
  | .always => 1
  | .auto => 2

/-- The name of a filter. -/
def nameOf : Filter → String
  | .box => "box"
  | .gaussian => "gaussian"
  | .none => "none"
  | .unknown => "unknown"

/-- The option the sampler works with has the value last given, or else the one it had before. -/
def Has {α : Type} (names : List String) (ps : List (String × Value)) (dflt : α) (f : Value → α)
    (x : α) : Prop :=
  x = match lastOf names ps with
    | some v => f v
    | none => dflt

end Spec

open Spec

theorem lastOf_cons (ns : List String) (n : String) (v : Value) (ps : List (String × Value)) :
    lastOf ns ((n, v) :: ps) = (lastOf ns ps).or (if n ∈ ns then some v else none) := by
  unfold lastOf
  by_cases h : n ∈ ns
  · rw [List.filter_cons_of_pos (by simpa using h), if_pos h, List.getLast?_cons]
    cases (List.filter (fun p => decide (p.1 ∈ ns)) ps).getLast? <;> simp
  · rw [List.filter_cons_of_neg (by simpa using h), if_neg h]
    simp

/-- One step for an option kept in the options. -/
theorem has_cons {α : Type} (ns : List String) (n : String) (v : Value) (ps : List (String × Value))
    (d d' x : α) (f : Value → α) (hx : Has ns ps d' f x)
    (hd : d' = if n ∈ ns then f v else d) : Has ns ((n, v) :: ps) d f x := by
  unfold Has at *
  rw [hx, lastOf_cons]
  cases lastOf ns ps with
  | some w => simp
  | none =>
    simp only [Option.none_or]
    rw [hd]
    split_ifs <;> rfl

/-- The names of all options. -/
def allNames : List String :=
  ["fill", "lerp", "blur", "sblur", "tblur", "channel",
    "width", "swidth", "twidth", "minwidth", "trunc", "filter"]

/-- What one option does. -/
theorem handle_step (e e' : Ext) (o o' : Opts) (n : String) (v : Value)
    (h : handle e o n v = some (e', o')) :
    e'.sBlur = (if n ∈ ["blur", "sblur"] then some v else e.sBlur) ∧
    e'.tBlur = (if n ∈ ["blur", "tblur"] then some v else e.tBlur) ∧
    e'.channel = (if n ∈ ["channel"] then some v else e.channel) ∧
    o'.sWidth = (if n ∈ ["width", "swidth"] then v.float 0 else o.sWidth) ∧
    o'.tWidth = (if n ∈ ["width", "twidth"] then v.float 0 else o.tWidth) ∧
    o'.minWidth = (if n ∈ ["minwidth"] then v.float 0 else o.minWidth) ∧
    o'.trunc = (if n ∈ ["trunc"] then v.float 0 else o.trunc) ∧
    o'.filter = (if n ∈ ["filter"] then filterOf v.str else o.filter) ∧
    o'.fill = (if n ∈ ["fill"] then some (v.float 0) else o.fill) ∧
    o'.lerp = (if n ∈ ["lerp"] then lerpOf (clampZ (lround (v.float 0)) 0 2) else o.lerp) ∧
    o'.sBlur = o.sBlur ∧ o'.tBlur = o.tBlur ∧ o'.startChannel = o.startChannel := by
  by_cases hn : n ∈ allNames
  · simp only [allNames, List.mem_cons, List.not_mem_nil, or_false] at hn
    rcases hn with rfl | rfl | rfl | rfl | rfl | rfl | rfl | rfl | rfl | rfl | rfl | rfl <;>
      simp [handle, handleBase] at h <;>
      first
        | (obtain ⟨rfl, rfl⟩ := h; simp)
        | (obtain ⟨-, rfl, rfl⟩ := h; simp)
  · simp only [allNames, List.mem_cons, List.not_mem_nil, or_false, not_or] at hn
    simp [handle, handleBase, hn] at h
    simp [hn, h]

theorem extract_spec (ps : List (String × Value)) : ∀ (e e' : Ext) (o o' : Opts),
    extract e o ps = some (e', o') →
    Has ["blur", "sblur"] ps e.sBlur some e'.sBlur ∧
    Has ["blur", "tblur"] ps e.tBlur some e'.tBlur ∧
    Has ["channel"] ps e.channel some e'.channel ∧
    Has ["width", "swidth"] ps o.sWidth (·.float 0) o'.sWidth ∧
    Has ["width", "twidth"] ps o.tWidth (·.float 0) o'.tWidth ∧
    Has ["minwidth"] ps o.minWidth (·.float 0) o'.minWidth ∧
    Has ["trunc"] ps o.trunc (·.float 0) o'.trunc ∧
    Has ["filter"] ps o.filter (fun v => filterOf v.str) o'.filter ∧
    Has ["fill"] ps o.fill (fun v => some (v.float 0)) o'.fill ∧
    Has ["lerp"] ps o.lerp (fun v => lerpOf (clampZ (lround (v.float 0)) 0 2)) o'.lerp ∧
    o'.sBlur = o.sBlur ∧ o'.tBlur = o.tBlur ∧ o'.startChannel = o.startChannel := by
  induction ps with
  | nil =>
    intro e e' o o' h
    simp only [extract, Option.some.injEq, Prod.mk.injEq] at h
    obtain ⟨rfl, rfl⟩ := h
    simp [Has, lastOf]
  | cons p ps ih =>
    obtain ⟨n, v⟩ := p
    intro e e' o o' h
    simp only [extract, Option.bind_eq_some_iff] at h
    obtain ⟨⟨e1, o1⟩, h1, h2⟩ := h
    obtain ⟨a1, a2, a3, a4, a5, a6, a7, a8, a9, a10, a11, a12, a13⟩ := handle_step _ _ _ _ _ _ h1
    obtain ⟨b1, b2, b3, b4, b5, b6, b7, b8, b9, b10, b11, b12, b13⟩ := ih _ _ _ _ h2
    exact ⟨has_cons _ _ _ _ _ _ _ _ b1 a1, has_cons _ _ _ _ _ _ _ _ b2 a2,
      has_cons _ _ _ _ _ _ _ _ b3 a3, has_cons _ _ _ _ _ _ _ _ b4 a4,
      has_cons _ _ _ _ _ _ _ _ b5 a5, has_cons _ _ _ _ _ _ _ _ b6 a6,
      has_cons _ _ _ _ _ _ _ _ b7 a7, has_cons _ _ _ _ _ _ _ _ b8 a8,
      has_cons _ _ _ _ _ _ _ _ b9 a9, has_cons _ _ _ _ _ _ _ _ b10 a10,
      b11.trans a11, b12.trans a12, b13.trans a13⟩

theorem filterOf_known (s : String) : filterOf s ≠ .unknown ↔ s ∈ ["box", "gaussian", "none"] := by
  unfold filterOf
  split_ifs <;> simp_all

theorem handle_ok (e : Ext) (o : Opts) (n : String) (v : Value) :
    (handle e o n v).isSome ↔ Allowed (n, v) := by
  have hf := filterOf_known v.str
  by_cases hn : n ∈ allNames
  · simp only [allNames, List.mem_cons, List.not_mem_nil, or_false] at hn
    rcases hn with rfl | rfl | rfl | rfl | rfl | rfl | rfl | rfl | rfl | rfl | rfl | rfl <;>
      simp_all [handle, handleBase, Allowed]
  · simp only [allNames, List.mem_cons, List.not_mem_nil, or_false, not_or] at hn
    simp [handle, handleBase, Allowed, hn]

theorem extract_ok (ps : List (String × Value)) : ∀ (e : Ext) (o : Opts),
    (extract e o ps).isSome ↔ ∀ p ∈ ps, Allowed p := by
  induction ps with
  | nil => intro e o; simp [extract]
  | cons p ps ih =>
    obtain ⟨n, v⟩ := p
    intro e o
    rw [List.forall_mem_cons, ← handle_ok e o, extract]
    cases h : handle e o n v with
    | none => simp
    | some r => simp [ih]

theorem toInt_nonneg (x : ℚ) : 0 ≤ toInt x ↔ -1 < x := by
  unfold toInt
  split_ifs with h
  · rw [Left.nonneg_neg_iff, ← Int.lt_add_one_iff, zero_add, Int.floor_lt]
    push_cast
    constructor <;> intro h <;> linarith
  · exact ⟨fun _ => by linarith, fun _ => Int.floor_nonneg.mpr (not_lt.mp h)⟩

theorem toInt_eq (x : ℚ) (h : -1 < x) : toInt x = max 0 ⌊x⌋ := by
  unfold toInt
  split_ifs with h1
  · have h2 : ⌊-x⌋ = 0 := by rw [Int.floor_eq_zero_iff]; exact ⟨by linarith, by linarith⟩
    have h3 : ⌊x⌋ < 0 := Int.floor_lt.mpr (by push_cast; exact h1)
    rw [h2]; omega
  · have := Int.floor_nonneg.mpr (not_lt.mp h1)
    omega

/-- The options of one point, and when there are any. -/
theorem varying_spec (e : Ext) (i : Nat) (o o' : Opts) (h : varying e i o = some o') :
    o' = { o with
      sBlur := (match e.sBlur with | some v => v.float i | none => o.sBlur)
      tBlur := (match e.tBlur with | some v => v.float i | none => o.tBlur)
      startChannel := (match e.channel with | some v => toInt (v.float i) | none => o.startChannel) } := by
  unfold varying at h
  cases hs : e.sBlur <;> cases ht : e.tBlur <;> cases hc : e.channel <;>
    simp only [hs, ht, hc, Option.bind_some] at h ⊢ <;>
    (try split_ifs at h <;> simp_all) <;> simp_all

theorem varying_ok (e : Ext) (i : Nat) (o : Opts) :
    (varying e i o).isSome ↔ (∀ v, e.sBlur = some v → 0 ≤ v.float i) ∧
      (∀ v, e.tBlur = some v → 0 ≤ v.float i) ∧ (∀ v, e.channel = some v → -1 < v.float i) := by
  unfold varying
  cases hs : e.sBlur <;> cases ht : e.tBlur <;> cases hc : e.channel <;>
    simp only [Option.bind_some, reduceCtorEq, false_imp_iff, implies_true, true_and,
      Option.some.injEq, forall_eq', ge_iff_le, toInt_nonneg] <;>
    (try split_ifs <;> simp_all) <;> simp_all

theorem points_spec (e : Ext) (is : List Nat) : ∀ (o : Opts) (os : List Opts),
    points e o is = some os → os = is.map fun i => { o with
      sBlur := (match e.sBlur with | some v => v.float i | none => o.sBlur)
      tBlur := (match e.tBlur with | some v => v.float i | none => o.tBlur)
      startChannel := (match e.channel with | some v => toInt (v.float i) | none => o.startChannel) } := by
  induction is with
  | nil => intro o os h; simpa [points] using h.symm
  | cons i is ih =>
    intro o os h
    simp only [points, Option.bind_eq_some_iff, Option.map_eq_some_iff] at h
    obtain ⟨o1, h1, os', h2, rfl⟩ := h
    have h3 := varying_spec e i o o1 h1
    have h4 := ih o1 os' h2
    rw [List.map_cons, ← h3, h4]
    congr 1
    apply List.map_congr_left
    intro j _
    rw [h3]
    cases e.sBlur <;> cases e.tBlur <;> cases e.channel <;> rfl

theorem points_ok (e : Ext) (is : List Nat) : ∀ (o : Opts),
    (points e o is).isSome ↔ ∀ i ∈ is, (∀ v, e.sBlur = some v → 0 ≤ v.float i) ∧
      (∀ v, e.tBlur = some v → 0 ≤ v.float i) ∧ (∀ v, e.channel = some v → -1 < v.float i) := by
  induction is with
  | nil => intro o; simp [points]
  | cons i is ih =>
    intro o
    rw [List.forall_mem_cons, ← varying_ok e i o, points]
    cases h : varying e i o with
    | none => simp
    | some r => simp [ih]

/-- Rounding and clamping finds the nearest of three numbers. -/
theorem lerp_nearest (x : ℚ) (j : ℤ) (hj : 0 ≤ j ∧ j ≤ 2) :
    |x - code (lerpOf (clampZ (lround x) 0 2))| ≤ |x - j| := by
  have hr : ∀ k : ℤ, lround x = k → (k : ℚ) - 1 / 2 ≤ x ∧ x < k + 1 / 2 := by
    intro k hk
    unfold lround at hk
    have h1 : ⌊x - 1 / 2⌋ = k - 1 := by omega
    rw [Int.floor_eq_iff] at h1
    push_cast at h1
    constructor <;> linarith [h1.1, h1.2]
  obtain ⟨h1, h2⟩ := hr _ rfl
  generalize lround x = k at h1 h2
  have hcode : (code (lerpOf (clampZ k 0 2)) : ℤ) = clampZ k 0 2 := by
    have : clampZ k 0 2 = 0 ∨ clampZ k 0 2 = 1 ∨ clampZ k 0 2 = 2 := by
      unfold clampZ; split_ifs <;> omega
    rcases this with h | h | h <;> rw [h] <;> rfl
  rw [hcode]
  have hcase : clampZ k 0 2 = j ∨ (j < clampZ k 0 2 ∧ clampZ k 0 2 ≤ k) ∨
      (clampZ k 0 2 < j ∧ k ≤ clampZ k 0 2) := by
    unfold clampZ; split_ifs <;> omega
  generalize clampZ k 0 2 = c at hcase
  rcases hcase with rfl | ⟨ha, hb⟩ | ⟨ha, hb⟩
  · exact le_refl _
  · have ha' : (j : ℚ) + 1 ≤ c := by exact_mod_cast ha
    have hb' : (c : ℚ) ≤ k := by exact_mod_cast hb
    rw [abs_of_nonneg (by linarith : (0 : ℚ) ≤ x - j)]
    rw [abs_le]; constructor <;> linarith
  · have ha' : (c : ℚ) + 1 ≤ j := by exact_mod_cast ha
    have hb' : (k : ℚ) ≤ c := by exact_mod_cast hb
    rw [abs_of_nonpos (by linarith : x - j ≤ 0)]
    rw [abs_le]; constructor <;> linarith

/-! ### Biases -/

theorem firstOf_cons (ns : List String) (n : String) (v : Value) (ps : List (String × Value)) :
    firstOf ns ((n, v) :: ps) = if n ∈ ns then some v else firstOf ns ps := by
  unfold firstOf
  by_cases h : n ∈ ns
  · rw [List.filter_cons_of_pos (by simpa using h), if_pos h]; simp
  · rw [List.filter_cons_of_neg (by simpa using h), if_neg h]

theorem extractBias_spec (ps : List (String × Value)) : ∀ e : BExt,
    (e.low.isSome ↔ e.high.isSome) →
    (extractBias e ps).low = (lastOf ["bias", "bias0"] ps).or (e.low.or (firstOf ["bias1"] ps)) ∧
    (extractBias e ps).high = (lastOf ["bias", "bias1"] ps).or (e.high.or (firstOf ["bias0"] ps)) := by
  induction ps with
  | nil => intro e _; simp [extractBias, lastOf, firstOf]
  | cons p ps ih =>
    obtain ⟨n, v⟩ := p
    intro e he
    have hinv : (handleBias e n v).low.isSome ↔ (handleBias e n v).high.isSome := by
      unfold handleBias
      cases hl : e.low <;> cases hh : e.high <;> simp_all <;> split_ifs <;> simp_all
    obtain ⟨h1, h2⟩ := ih _ hinv
    rw [extractBias, h1, h2]
    simp only [lastOf_cons, firstOf_cons]
    unfold handleBias
    obtain ⟨l, h⟩ := e
    cases l <;> cases h <;> simp at he <;> split_ifs <;> simp_all

theorem setLow_eq (b : Bias) (x : ℚ) : b.setLow x = ⟨x, max x b.high⟩ := by
  unfold Bias.setLow
  congr 1
  by_cases h : x > b.high
  · rw [if_pos h, max_eq_left h.le]
  · rw [if_neg h, max_eq_right (not_lt.mp h)]

theorem setHigh_eq (b : Bias) (x : ℚ) : b.setHigh x = ⟨min b.low x, x⟩ := by
  unfold Bias.setHigh
  congr 1
  by_cases h : x < b.low
  · rw [if_pos h, min_eq_right h.le]
  · rw [if_neg h, min_eq_left (not_lt.mp h)]

theorem varyingBias_both (l h : Value) (i : Nat) (b : Bias) :
    varyingBias ⟨some l, some h⟩ i b = ⟨min (l.float i) (h.float i), h.float i⟩ := by
  show Bias.mk (if h.float i < l.float i then h.float i else l.float i) (h.float i) = _
  congr 1
  by_cases h1 : h.float i < l.float i
  · rw [if_pos h1, min_eq_right h1.le]
  · rw [if_neg h1, min_eq_left (not_lt.mp h1)]

end Verif.Shader.TexOpts
