import Mathlib.Data.Rat.Floor

/-!
# Options of texture and shadow calls

libs/shadervm/shaderexecenv/shadeops_tmap.cpp:49-351 and
include/aqsis/tex/filtering/texturesampleoptions.h: how the names and values behind the arguments of
`texture`, `environment` and `shadow` become options of the sampler.

Simplifications: floats are rational numbers; the number of names and values is even, as the compiler
sees to; the logarithm of the truncation is left out, as are the wrap modes and the number of
channels, which are not options of the calls.
-/

namespace Verif.Shader.TexOpts

/-- A value behind a name: a float for each shading point, and a string.  Uniform options read point
0. -/
structure Value where
  float : Nat → ℚ
  str : String

/-- `EqTextureFilter`, include/aqsis/tex/filtering/texturesampleoptions.h:65-78. -/
inductive Filter where
  | box
  | gaussian
  | none
  | unknown
  deriving DecidableEq

/-- `EqMipmapLerp`, include/aqsis/tex/filtering/texturesampleoptions.h:83-91. -/
inductive Lerp where
  | never
  | always
  | auto
  deriving DecidableEq

/-- `CqTextureSampleOptionsBase` and `CqTextureSampleOptions`,
include/aqsis/tex/filtering/texturesampleoptions.h:198-213 and 285-288.  `none` for `fill` is a
variable that was not given a value. -/
structure Opts where
  sBlur : ℚ
  tBlur : ℚ
  sWidth : ℚ
  tWidth : ℚ
  minWidth : ℚ
  trunc : ℚ
  filter : Filter
  startChannel : ℤ
  fill : Option ℚ
  lerp : Lerp

/-- The constructors, include/aqsis/tex/filtering/texturesampleoptions.h:380-393 and 555-558. -/
def Opts.init : Opts :=
  ⟨0, 0, 1, 1, 2, 1 / 20, .gaussian, 0, none, .auto⟩

/-- `enumCast<EqTextureFilter>`, include/aqsis/tex/filtering/texturesampleoptions.h:73-78. -/
def filterOf (s : String) : Filter :=
  if s = "box" then .box else if s = "gaussian" then .gaussian else if s = "none" then .none
  else .unknown

/-- `lround`, include/aqsis/math/math.h:66-70. -/
def lround (x : ℚ) : ℤ := ⌊x - 1 / 2⌋ + 1

/-- `clamp` of integers, include/aqsis/math/math.h:99-104. -/
def clampZ (x lo hi : ℤ) : ℤ := if x < lo then lo else if x > hi then hi else x

/-- The conversion of an integer between 0 and 2 to `EqMipmapLerp`. -/
def lerpOf (i : ℤ) : Lerp := if i = 0 then .never else if i = 1 then .always else .auto

/-- The conversion of a float to an integer cuts off what is behind the point. -/
def toInt (x : ℚ) : ℤ := if x < 0 then -⌊-x⌋ else ⌊x⌋

/-- The extractor: the options, and the cached values of varying ones,
libs/shadervm/shaderexecenv/shadeops_tmap.cpp:70-72. -/
structure Ext where
  sBlur : Option Value
  tBlur : Option Value
  channel : Option Value

/-- Initial state, libs/shadervm/shaderexecenv/shadeops_tmap.cpp:179-183. -/
def Ext.init : Ext := ⟨none, none, none⟩

/-- `handleParam` of the base class, libs/shadervm/shaderexecenv/shadeops_tmap.cpp:105-164, with the
setters, include/aqsis/tex/filtering/texturesampleoptions.h:475-510.  `none` is a failed assertion. -/
def handleBase (e : Ext) (o : Opts) (name : String) (v : Value) : Option (Ext × Opts) :=
  if name = "blur" then some ({ e with sBlur := some v, tBlur := some v }, o)
  else if name = "sblur" then some ({ e with sBlur := some v }, o)
  else if name = "tblur" then some ({ e with tBlur := some v }, o)
  else if name = "channel" then some ({ e with channel := some v }, o)
  else if name = "width" then
    if v.float 0 ≥ 0 then some (e, { o with sWidth := v.float 0, tWidth := v.float 0 }) else none
  else if name = "swidth" then
    if v.float 0 ≥ 0 then some (e, { o with sWidth := v.float 0 }) else none
  else if name = "twidth" then
    if v.float 0 ≥ 0 then some (e, { o with tWidth := v.float 0 }) else none
  else if name = "minwidth" then
    if v.float 0 ≥ 0 then some (e, { o with minWidth := v.float 0 }) else none
  else if name = "trunc" then
    if v.float 0 ≥ 0 ∧ v.float 0 ≤ 1 then some (e, { o with trunc := v.float 0 }) else none
  else if name = "filter" then
    if filterOf v.str ≠ .unknown then some (e, { o with filter := filterOf v.str }) else none
  else some (e, o)

/-- `handleParam` of textures, libs/shadervm/shaderexecenv/shadeops_tmap.cpp:224-248. -/
def handle (e : Ext) (o : Opts) (name : String) (v : Value) : Option (Ext × Opts) :=
  if name = "fill" then some (e, { o with fill := some (v.float 0) })
  else if name = "lerp" then some (e, { o with lerp := lerpOf (clampZ (lround (v.float 0)) 0 2) })
  else handleBase e o name v

/-- `extractUniformAndCacheVarying`, libs/shadervm/shaderexecenv/shadeops_tmap.cpp:82-93. -/
def extract (e : Ext) (o : Opts) : List (String × Value) → Option (Ext × Opts)
  | [] => some (e, o)
  | (n, v) :: ps => (handle e o n v).bind fun r => extract r.1 r.2 ps

/-- `extractVarying`, libs/shadervm/shaderexecenv/shadeops_tmap.cpp:192-212, with the setters,
include/aqsis/tex/filtering/texturesampleoptions.h:463-473 and 512-516. -/
def varying (e : Ext) (i : Nat) (o : Opts) : Option Opts :=
  (match e.sBlur with
    | some v => if v.float i ≥ 0 then some { o with sBlur := v.float i } else none
    | none => some o).bind fun o =>
  (match e.tBlur with
    | some v => if v.float i ≥ 0 then some { o with tBlur := v.float i } else none
    | none => some o).bind fun o =>
  match e.channel with
    | some v => if toInt (v.float i) ≥ 0 then some { o with startChannel := toInt (v.float i) } else none
    | none => some o

/-- The loop over the shading points, libs/shadervm/shaderexecenv/shadeops_tmap.cpp:388-411: the
options each point is sampled with. -/
def points (e : Ext) (o : Opts) : List Nat → Option (List Opts)
  | [] => some []
  | i :: is => (varying e i o).bind fun o => (points e o is).map (o :: ·)

/-- A call of `texture` with the given options over the running points of a grid. -/
def call (ps : List (String × Value)) (is : List Nat) : Option (List Opts) :=
  (extract Ext.init Opts.init ps).bind fun r => points r.1 r.2 is

/-! ### Biases of shadows -/

/-- The biases, include/aqsis/tex/filtering/texturesampleoptions.h:365-368. -/
structure Bias where
  low : ℚ
  high : ℚ
  deriving DecidableEq

/-- `setBias`, include/aqsis/tex/filtering/texturesampleoptions.h:616-620. -/
def Bias.set (b : ℚ) : Bias := ⟨b, b⟩

/-- `setBiasLow`, include/aqsis/tex/filtering/texturesampleoptions.h:622-627. -/
def Bias.setLow (b : Bias) (x : ℚ) : Bias := ⟨x, if x > b.high then x else b.high⟩

/-- `setBiasHigh`, include/aqsis/tex/filtering/texturesampleoptions.h:629-634. -/
def Bias.setHigh (b : Bias) (x : ℚ) : Bias := ⟨if x < b.low then x else b.low, x⟩

/-- `getRenderContextShadowOpts`, libs/shadervm/shaderexecenv/shadeops_tmap.cpp:342-351, from the
biases of the constructor, include/aqsis/tex/filtering/texturesampleoptions.h:583-589. -/
def contextBias (bias bias0 bias1 : Option ℚ) : Bias :=
  let b : Bias := ⟨0, 0⟩
  let b := match bias with | some x => Bias.set x | none => b
  let b := match bias0 with | some x => b.setLow x | none => b
  match bias1 with | some x => b.setHigh x | none => b

/-- The cached biases, libs/shadervm/shaderexecenv/shadeops_tmap.cpp:266-268. -/
structure BExt where
  low : Option Value
  high : Option Value

/-- `handleParam` of shadows, libs/shadervm/shaderexecenv/shadeops_tmap.cpp:271-290, as far as biases
go. -/
def handleBias (e : BExt) (name : String) (v : Value) : BExt :=
  if name = "bias" then ⟨some v, some v⟩
  else if name = "bias0" then
    ⟨some v, match e.high with | none => some v | some h => some h⟩
  else if name = "bias1" then
    ⟨match e.low with | none => some v | some h => some h, some v⟩
  else e

/-- The loop over the options, libs/shadervm/shaderexecenv/shadeops_tmap.cpp:82-93. -/
def extractBias (e : BExt) : List (String × Value) → BExt
  | [] => e
  | (n, v) :: ps => extractBias (handleBias e n v) ps

/-- `extractVarying` of shadows, libs/shadervm/shaderexecenv/shadeops_tmap.cpp:321-334. -/
def varyingBias (e : BExt) (i : Nat) (b : Bias) : Bias :=
  let b := match e.low with | some v => b.setLow (v.float i) | none => b
  match e.high with | some v => b.setHigh (v.float i) | none => b

/-- The loop over the shading points, libs/shadervm/shaderexecenv/shadeops_tmap.cpp:878-901. -/
def pointsBias (e : BExt) (b : Bias) : List Nat → List Bias
  | [] => []
  | i :: is => varyingBias e i b :: pointsBias e (varyingBias e i b) is

/-- The biases of a call of `shadow` over the running points of a grid. -/
def callBias (bias bias0 bias1 : Option ℚ) (ps : List (String × Value)) (is : List Nat) : List Bias :=
  pointsBias (extractBias ⟨none, none⟩ ps) (contextBias bias bias0 bias1) is

end Verif.Shader.TexOpts
