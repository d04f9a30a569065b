import Verif.Shader.TexOptsLemmas

/-!
C89: options of texture and shadow calls.
-/

namespace Verif.Shader.TexOpts

open Spec

/-- A value that is the same everywhere. -/
def Value.const (x : ℚ) : Value := ⟨fun _ => x, ""⟩

/-- C89: every option has the value that was last given under one of its names, at the point that is
sampled, and otherwise its default; options of one point do not depend on other points. -/
theorem C89_last (ps : List (String × Value)) (is : List Nat) (os : List Opts)
    (h : call ps is = some os) :
    os.length = is.length ∧ ∀ (k i : Nat) (o : Opts), is[k]? = some i → os[k]? = some o →
      Has ["blur", "sblur"] ps 0 (·.float i) o.sBlur ∧
      Has ["blur", "tblur"] ps 0 (·.float i) o.tBlur ∧
      Has ["width", "swidth"] ps 1 (·.float 0) o.sWidth ∧
      Has ["width", "twidth"] ps 1 (·.float 0) o.tWidth ∧
      Has ["minwidth"] ps 2 (·.float 0) o.minWidth ∧
      Has ["trunc"] ps (5 / 100) (·.float 0) o.trunc ∧
      Has ["filter"] ps "gaussian" (·.str) (nameOf o.filter) ∧
      Has ["channel"] ps 0 (fun v => max 0 ⌊v.float i⌋) o.startChannel ∧
      Has ["fill"] ps none (fun v => some (v.float 0)) o.fill := by
  unfold call at h
  rw [Option.bind_eq_some_iff] at h
  obtain ⟨⟨e, o0⟩, h1, h2⟩ := h
  have hall := (extract_ok ps Ext.init Opts.init).mp (by rw [h1]; rfl)
  have hpt := (points_ok e is o0).mp (by rw [h2]; rfl)
  obtain ⟨b1, b2, b3, b4, b5, b6, b7, b8, b9, -, b11, b12, b13⟩ := extract_spec _ _ _ _ _ h1
  have h3 := points_spec e is o0 os h2
  refine ⟨by rw [h3, List.length_map], ?_⟩
  intro k i o hi ho
  rw [h3, List.getElem?_map, hi, Option.map_some, Option.some.injEq] at ho
  obtain ⟨-, -, hc⟩ := hpt i (List.mem_of_getElem? hi)
  subst ho
  simp only at b4 b5 b6 b7 b8 b9 ⊢
  refine ⟨?_, ?_, b4, b5, b6, ?_, ?_, ?_, b9⟩
  · unfold Has at *
    rw [b1]
    cases lastOf ["blur", "sblur"] ps with
    | none => exact b11
    | some v => rfl
  · unfold Has at *
    rw [b2]
    cases lastOf ["blur", "tblur"] ps with
    | none => exact b12
    | some v => rfl
  · unfold Has at *
    rw [b7]
    cases lastOf ["trunc"] ps with
    | none => show (1 / 20 : ℚ) = 5 / 100; norm_num
    | some v => rfl
  · unfold Has at *
    rw [b8]
    cases hf : lastOf ["filter"] ps with
    | none => rfl
    | some v =>
      have hv : v.str ∈ ["box", "gaussian", "none"] := by
        unfold lastOf at hf
        rw [Option.map_eq_some_iff] at hf
        obtain ⟨p, hp, rfl⟩ := hf
        have := List.mem_of_getLast? hp
        rw [List.mem_filter] at this
        exact (hall p this.1).2.2 (by simpa using this.2)
      simp only [List.mem_cons, List.not_mem_nil, or_false] at hv
      show nameOf (filterOf v.str) = v.str
      rcases hv with hv | hv | hv <;> rw [hv] <;> rfl
  · unfold Has at *
    rw [b3] at hc ⊢
    cases hch : lastOf ["channel"] ps with
    | none => exact b13
    | some v =>
      rw [hch] at hc
      exact toInt_eq _ (hc v rfl)

/-- C89: levels are mixed in the way whose number is nearest to the last one given. -/
theorem C89_lerp (ps : List (String × Value)) (is : List Nat) (os : List Opts)
    (h : call ps is = some os) : ∀ o ∈ os, match lastOf ["lerp"] ps with
      | none => o.lerp = .auto
      | some v => ∀ w : Lerp, |v.float 0 - code o.lerp| ≤ |v.float 0 - code w| := by
  unfold call at h
  rw [Option.bind_eq_some_iff] at h
  obtain ⟨⟨e, o0⟩, h1, h2⟩ := h
  obtain ⟨-, -, -, -, -, -, -, -, -, b10, -⟩ := extract_spec _ _ _ _ _ h1
  intro o ho
  rw [points_spec e is o0 os h2, List.mem_map] at ho
  obtain ⟨i, -, rfl⟩ := ho
  unfold Has at b10
  simp only
  cases hl : lastOf ["lerp"] ps with
  | none => rw [hl] at b10; exact b10
  | some v =>
    rw [hl] at b10
    intro w
    rw [b10]
    apply lerp_nearest
    cases w <;> simp [code]

/-- C89: a call goes through just if all uniform values are allowed and the varying values that
count are allowed at the running points; otherwise an assertion fails. -/
theorem C89_allowed (ps : List (String × Value)) (is : List Nat) :
    (call ps is).isSome ↔ (∀ p ∈ ps, Allowed p) ∧ ∀ i ∈ is,
      (∀ v, lastOf ["blur", "sblur"] ps = some v → 0 ≤ v.float i) ∧
      (∀ v, lastOf ["blur", "tblur"] ps = some v → 0 ≤ v.float i) ∧
      (∀ v, lastOf ["channel"] ps = some v → -1 < v.float i) := by
  rw [← extract_ok ps Ext.init Opts.init]
  unfold call
  cases h : extract Ext.init Opts.init ps with
  | none => simp
  | some r =>
    obtain ⟨e, o⟩ := r
    obtain ⟨b1, b2, b3, -⟩ := extract_spec _ _ _ _ _ h
    have hh : ∀ (x y : Option Value), (y = match x with | some v => some v | none => none) → y = x := by
      intro x y h; rw [h]; cases x <;> rfl
    rw [← hh _ _ b1, ← hh _ _ b2, ← hh _ _ b3]
    simp [points_ok]

/-- C89: options with other names are left alone, without a word. -/
theorem C89_unknown (ps : List (String × Value)) (is : List Nat) :
    call (ps.filter fun p => p.1 ∈ ["blur", "sblur", "tblur", "channel", "width", "swidth", "twidth",
      "minwidth", "trunc", "filter", "fill", "lerp"]) is = call ps is := by
  unfold call
  congr 1
  generalize Ext.init = e
  generalize Opts.init = o
  induction ps generalizing e o with
  | nil => rfl
  | cons p ps ih =>
    obtain ⟨n, v⟩ := p
    by_cases hn : n ∈ ["blur", "sblur", "tblur", "channel", "width", "swidth", "twidth",
      "minwidth", "trunc", "filter", "fill", "lerp"]
    · rw [List.filter_cons_of_pos (by simpa using hn)]
      simp only [extract]
      congr 1
      funext r
      exact ih _ _
    · rw [List.filter_cons_of_neg (by simpa using hn), ih]
      simp only [List.mem_cons, List.not_mem_nil, or_false, not_or] at hn
      simp [extract, handle, handleBase, hn]

/-- Non-vacuity: the width given first counts along t only, the second one along s. -/
example : (call [("width", Value.const 3), ("swidth", Value.const 4), ("lerp", Value.const (7 / 5)),
    ("blur", ⟨fun i => i, ""⟩), ("zoom", Value.const 9)] [5]).map (List.map fun o =>
      (o.sWidth, o.tWidth, o.sBlur, o.lerp)) = some [(4, 3, 5, .always)] := by
  decide +kernel

/-- C89 fails for channels a texture does not have: without the option `fill` they are filled with a
variable that was never given a value. -/
theorem C89_fill_violated : ∃ ps is os, call ps is = some os ∧ ∃ o ∈ os, o.fill = none := by
  refine ⟨[], [0], [Opts.init], rfl, Opts.init, by simp, rfl⟩

/-! ### Biases -/

/-- C89: if a shadow call gives biases, the low one is the last of `bias` and `bias0`, or else the
first `bias1`, the high one the other way round, at the point that is sampled; the low one is lowered
to the high one.  Neither the options of the renderer nor other points matter. -/
theorem C89_bias (b b0 b1 : Option ℚ) (ps : List (String × Value)) (is : List Nat)
    (hps : ∃ p ∈ ps, p.1 ∈ ["bias", "bias0", "bias1"]) :
    ∃ l h, (lastOf ["bias", "bias0"] ps).or (firstOf ["bias1"] ps) = some l ∧
      (lastOf ["bias", "bias1"] ps).or (firstOf ["bias0"] ps) = some h ∧
      callBias b b0 b1 ps is = is.map fun i => ⟨min (l.float i) (h.float i), h.float i⟩ := by
  obtain ⟨h1, h2⟩ := extractBias_spec ps ⟨none, none⟩ (by simp)
  simp only [Option.none_or] at h1 h2
  have hex : ∀ ns : List String, (∃ p ∈ ps, p.1 ∈ ns) → (lastOf ns ps).isSome ∧ (firstOf ns ps).isSome := by
    rintro ns ⟨p, hp, hn⟩
    have hne : (ps.filter fun p => p.1 ∈ ns) ≠ [] := by
      apply List.ne_nil_of_mem (a := p)
      rw [List.mem_filter]
      exact ⟨hp, by simpa using hn⟩
    unfold lastOf firstOf
    cases hf : ps.filter fun p => p.1 ∈ ns with
    | nil => exact absurd hf hne
    | cons q qs => simp [List.getLast?_cons]
  have hl : ((lastOf ["bias", "bias0"] ps).or (firstOf ["bias1"] ps)).isSome := by
    obtain ⟨p, hp, hn⟩ := hps
    simp only [List.mem_cons, List.not_mem_nil, or_false] at hn
    rw [Option.isSome_or, Bool.or_eq_true]
    rcases hn with hn | hn | hn
    · exact Or.inl (hex _ ⟨p, hp, by simp [hn]⟩).1
    · exact Or.inl (hex _ ⟨p, hp, by simp [hn]⟩).1
    · exact Or.inr (hex _ ⟨p, hp, by simp [hn]⟩).2
  have hh : ((lastOf ["bias", "bias1"] ps).or (firstOf ["bias0"] ps)).isSome := by
    obtain ⟨p, hp, hn⟩ := hps
    simp only [List.mem_cons, List.not_mem_nil, or_false] at hn
    rw [Option.isSome_or, Bool.or_eq_true]
    rcases hn with hn | hn | hn
    · exact Or.inl (hex _ ⟨p, hp, by simp [hn]⟩).1
    · exact Or.inr (hex _ ⟨p, hp, by simp [hn]⟩).2
    · exact Or.inl (hex _ ⟨p, hp, by simp [hn]⟩).1
  obtain ⟨l, hl⟩ := Option.isSome_iff_exists.mp hl
  obtain ⟨h, hh⟩ := Option.isSome_iff_exists.mp hh
  refine ⟨l, h, hl, hh, ?_⟩
  unfold callBias
  have he : extractBias ⟨none, none⟩ ps = ⟨some l, some h⟩ := by
    rw [← hl, ← hh, ← h1, ← h2]
  rw [he]
  generalize contextBias b b0 b1 = c
  induction is generalizing c with
  | nil => rfl
  | cons i is ih => rw [pointsBias, varyingBias_both, ih, List.map_cons]

/-- C89: a call without biases uses the ones of the renderer, the same at all points: the high one is
`bias1`, or else the largest of `bias` (or 0) and `bias0`; the low one is `bias0`, or else `bias` (or
0), lowered to the high one. -/
theorem C89_bias_options (b b0 b1 : Option ℚ) (ps : List (String × Value)) (is : List Nat)
    (hps : ∀ p ∈ ps, p.1 ∉ ["bias", "bias0", "bias1"]) :
    ∃ l h, callBias b b0 b1 ps is = is.map (fun _ => ⟨l, h⟩) ∧
      h = b1.getD (max (b0.getD (b.getD 0)) (b.getD 0)) ∧ l = min (b0.getD (b.getD 0)) h := by
  have he : extractBias ⟨none, none⟩ ps = ⟨none, none⟩ := by
    induction ps with
    | nil => rfl
    | cons p ps ih =>
      obtain ⟨n, v⟩ := p
      have hn := hps (n, v) (by simp)
      simp only [List.mem_cons, List.not_mem_nil, or_false, not_or] at hn
      rw [extractBias]
      have : handleBias ⟨none, none⟩ n v = ⟨none, none⟩ := by simp [handleBias, hn]
      rw [this]
      exact ih fun p hp => hps p (by simp [hp])
  refine ⟨(contextBias b b0 b1).low, (contextBias b b0 b1).high, ?_, ?_, ?_⟩
  · unfold callBias
    rw [he]
    generalize contextBias b b0 b1 = c
    induction is with
    | nil => rfl
    | cons i is ih => rw [pointsBias, List.map_cons]; exact congrArg _ ih
  · cases b <;> cases b0 <;> cases b1 <;>
      simp [contextBias, Bias.set, setLow_eq, setHigh_eq]
  · cases b <;> cases b0 <;> cases b1 <;>
      simp [contextBias, Bias.set, setLow_eq, setHigh_eq]

/-- C89: the low bias is never above the high one. -/
theorem C89_bias_order (b b0 b1 : Option ℚ) (ps : List (String × Value)) (is : List Nat) :
    ∀ x ∈ callBias b b0 b1 ps is, x.low ≤ x.high := by
  intro x hx
  by_cases h : ∃ p ∈ ps, p.1 ∈ ["bias", "bias0", "bias1"]
  · obtain ⟨l, u, -, -, hc⟩ := C89_bias b b0 b1 ps is h
    rw [hc, List.mem_map] at hx
    obtain ⟨i, -, rfl⟩ := hx
    exact min_le_right _ _
  · obtain ⟨l, u, hc, -, hl⟩ := C89_bias_options b b0 b1 ps is (fun p hp hn => h ⟨p, hp, hn⟩)
    rw [hc, List.mem_map] at hx
    obtain ⟨i, -, rfl⟩ := hx
    rw [hl]
    exact min_le_right _ _

/-- Non-vacuity: a low bias that grows above the high one at the second point. -/
example : callBias (some 7) none none [("bias1", Value.const 1), ("bias0", ⟨fun i => 2 * i, ""⟩)] [0, 1, 0]
    = [⟨0, 1⟩, ⟨1, 1⟩, ⟨0, 1⟩] := by
  decide +kernel

/-- C89 fails for a high bias alone: as an option of the renderer it makes a ramp that starts at 0,
in a call a bias without a ramp. -/
theorem C89_bias_violated : ∃ x : ℚ, callBias none none (some x) [] [0] ≠
    callBias none none none [("bias1", Value.const x)] [0] :=
  ⟨1, by decide +kernel⟩

/-- C89 fails for a high bias given twice: the first one stays as the low one. -/
theorem C89_bias_twice_violated : ∃ x y : ℚ,
    callBias none none none [("bias1", Value.const x), ("bias1", Value.const y)] [0] ≠
    callBias none none none [("bias1", Value.const y)] [0] :=
  ⟨1, 2, by decide +kernel⟩

end Verif.Shader.TexOpts
