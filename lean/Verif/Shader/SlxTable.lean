/-!
# Compiled shaders: the table of instructions

The table of the instructions of the shader virtual machine, the names of the standard variables
and the hash function of strings.
-/

namespace Verif.Shader.Slx

/-- A string. -/
abbrev Str := List Char

/-- Kinds of parameters of instructions (`m_aParamTypes`); `type_invalid` stands for a variable. -/
inductive Param where
  | var | float | int | string
  deriving DecidableEq, Repr

/-- A line of the table of instructions (`SqOpCodeTrans`, shadervm.h:65-73). -/
structure Row where
  name : Str
  cmd : Str
  params : List Param
  deriving DecidableEq

/-- A character as `char`, added to an unsigned number of 64 bits. -/
def charVal (c : Char) : Nat := if c.toNat < 128 then c.toNat else c.toNat + (2 ^ 64 - 256)

/-- `CqString::hash`, include/aqsis/util/sstring.h:71-85, for an `unsigned long` of 64 bits. -/
def hash64 (s : Str) : Nat := s.foldl (fun r c => (r * 31 + charVal c) % 2 ^ 64) 0

/-- A line of the table. -/
def row (name cmd : String) (params : List Param) : Row := ⟨name.toList, cmd.toList, params⟩

/-- `gVariableNames`, libs/shadervm/shaderexecenv/shaderexecenv.cpp:45-72. -/
def stdNames : List Str := [
  "Cs".toList,
  "Os".toList,
  "Ng".toList,
  "du".toList,
  "dv".toList,
  "L".toList,
  "Cl".toList,
  "Ol".toList,
  "P".toList,
  "dPdu".toList,
  "dPdv".toList,
  "N".toList,
  "u".toList,
  "v".toList,
  "s".toList,
  "t".toList,
  "I".toList,
  "Ci".toList,
  "Oi".toList,
  "Ps".toList,
  "E".toList,
  "ncomps".toList,
  "time".toList,
  "alpha".toList,
  "Ns".toList]

/-- Part 0 of `m_TransTable`, libs/shadervm/shadervm.cpp:95-471. -/
def table0 : List Row := [
  row "RS_PUSH" "SO_RS_PUSH" [],
  row "RS_POP" "SO_RS_POP" [],
  row "RS_GET" "SO_RS_GET" [],
  row "RS_INVERSE" "SO_RS_INVERSE" [],
  row "RS_JZ" "SO_RS_JZ" [.float],
  row "RS_BREAK" "SO_RS_BREAK" [.int],
  row "S_JZ" "SO_S_JZ" [.float],
  row "S_GET" "SO_S_GET" [],
  row "S_CLEAR" "SO_S_CLEAR" [],
  row "nop" "SO_nop" [],
  row "dup" "SO_dup" [],
  row "debug_break" "SO_debug_break" [],
  row "drop" "SO_drop" [],
  row "mergef" "SO_mergef" [],
  row "merges" "SO_merges" [],
  row "mergep" "SO_mergep" [],
  row "mergen" "SO_mergep" [],
  row "mergev" "SO_mergep" [],
  row "mergec" "SO_mergec" [],
  row "pushif" "SO_pushif" [.float],
  row "puship" "SO_puship" [.float, .float, .float],
  row "pushis" "SO_pushis" [.string],
  row "pushv" "SO_pushv" [.var],
  row "ipushv" "SO_ipushv" [.var],
  row "pop" "SO_pop" [.var],
  row "ipop" "SO_ipop" [.var],
  row "setfc" "SO_setfc" [],
  row "setfp" "SO_setfp" [],
  row "setfn" "SO_setfp" [],
  row "setfv" "SO_setfp" [],
  row "setfm" "SO_setfm" [],
  row "settc" "SO_settc" [],
  row "settp" "SO_settp" [],
  row "settn" "SO_settp" [],
  row "settv" "SO_settp" [],
  row "setpc" "SO_setpc" [],
  row "setvc" "SO_setpc" [],
  row "setnc" "SO_setpc" [],
  row "setcp" "SO_setcp" [],
  row "setcn" "SO_setcp" [],
  row "setcv" "SO_setcp" [],
  row "setwm" "SO_setwm" [],
  row "jnz" "SO_jnz" [.float],
  row "jz" "SO_jz" [.float],
  row "jmp" "SO_jmp" [.float],
  row "lsff" "SO_lsff" [],
  row "lspp" "SO_lspp" [],
  row "lshh" "SO_lspp" []]

/-- Part 1 of `m_TransTable`, libs/shadervm/shadervm.cpp:95-471. -/
def table1 : List Row := [
  row "lscc" "SO_lscc" [],
  row "lsnn" "SO_lspp" [],
  row "lsvv" "SO_lspp" [],
  row "gtff" "SO_gtff" [],
  row "gtpp" "SO_gtpp" [],
  row "gthh" "SO_gtpp" [],
  row "gtcc" "SO_gtcc" [],
  row "gtnn" "SO_gtpp" [],
  row "gtvv" "SO_gtpp" [],
  row "geff" "SO_geff" [],
  row "gepp" "SO_gepp" [],
  row "gehh" "SO_gepp" [],
  row "gecc" "SO_gecc" [],
  row "genn" "SO_gepp" [],
  row "gevv" "SO_gepp" [],
  row "leff" "SO_leff" [],
  row "lepp" "SO_lepp" [],
  row "lehh" "SO_lepp" [],
  row "lecc" "SO_lecc" [],
  row "lenn" "SO_lepp" [],
  row "levv" "SO_lepp" [],
  row "eqff" "SO_eqff" [],
  row "eqpp" "SO_eqpp" [],
  row "eqhh" "SO_eqpp" [],
  row "eqcc" "SO_eqcc" [],
  row "eqss" "SO_eqss" [],
  row "eqnn" "SO_eqpp" [],
  row "eqvv" "SO_eqpp" [],
  row "neff" "SO_neff" [],
  row "nepp" "SO_nepp" [],
  row "nehh" "SO_nepp" [],
  row "necc" "SO_necc" [],
  row "ness" "SO_ness" [],
  row "nenn" "SO_nepp" [],
  row "nevv" "SO_nepp" [],
  row "mulff" "SO_mulff" [],
  row "divff" "SO_divff" [],
  row "addff" "SO_addff" [],
  row "subff" "SO_subff" [],
  row "negf" "SO_negf" [],
  row "mulpp" "SO_mulpp" [],
  row "divpp" "SO_divpp" [],
  row "addpp" "SO_addpp" [],
  row "subpp" "SO_subpp" [],
  row "crspp" "SO_crspp" [],
  row "dotpp" "SO_dotpp" [],
  row "negp" "SO_negp" [],
  row "mulcc" "SO_mulcc" []]

/-- Part 2 of `m_TransTable`, libs/shadervm/shadervm.cpp:95-471. -/
def table2 : List Row := [
  row "divcc" "SO_divcc" [],
  row "addcc" "SO_addcc" [],
  row "subcc" "SO_subcc" [],
  row "dotcc" "SO_dotcc" [],
  row "negc" "SO_negc" [],
  row "mulfp" "SO_mulfp" [],
  row "divfp" "SO_divfp" [],
  row "addfp" "SO_addfp" [],
  row "subfp" "SO_subfp" [],
  row "mulfc" "SO_mulfc" [],
  row "divfc" "SO_divfc" [],
  row "addfc" "SO_addfc" [],
  row "subfc" "SO_subfc" [],
  row "mulmm" "SO_mulmm" [],
  row "divmm" "SO_divmm" [],
  row "land" "SO_land" [],
  row "lor" "SO_lor" [],
  row "radians" "SO_radians" [],
  row "degrees" "SO_degrees" [],
  row "sin" "SO_sin" [],
  row "asin" "SO_asin" [],
  row "cos" "SO_cos" [],
  row "acos" "SO_acos" [],
  row "tan" "SO_tan" [],
  row "atan" "SO_atan" [],
  row "atan2" "SO_atan2" [],
  row "pow" "SO_pow" [],
  row "exp" "SO_exp" [],
  row "sqrt" "SO_sqrt" [],
  row "log" "SO_log" [],
  row "log2" "SO_log2" [],
  row "mod" "SO_mod" [],
  row "abs" "SO_abs" [],
  row "sign" "SO_sign" [],
  row "min" "SO_min" [],
  row "max" "SO_max" [],
  row "pmin" "SO_pmin" [],
  row "pmax" "SO_pmax" [],
  row "vmin" "SO_vmin" [],
  row "vmax" "SO_vmax" [],
  row "nmin" "SO_nmin" [],
  row "nmax" "SO_nmax" [],
  row "cmin" "SO_cmin" [],
  row "cmax" "SO_cmax" [],
  row "clamp" "SO_clamp" [],
  row "pclamp" "SO_pclamp" [],
  row "vclamp" "SO_pclamp" [],
  row "nclamp" "SO_pclamp" []]

/-- Part 3 of `m_TransTable`, libs/shadervm/shadervm.cpp:95-471. -/
def table3 : List Row := [
  row "cclamp" "SO_cclamp" [],
  row "floor" "SO_floor" [],
  row "ceil" "SO_ceil" [],
  row "round" "SO_round" [],
  row "step" "SO_step" [],
  row "smoothstep" "SO_smoothstep" [],
  row "fspline" "SO_fspline" [],
  row "cspline" "SO_cspline" [],
  row "pspline" "SO_pspline" [],
  row "vspline" "SO_pspline" [],
  row "sfspline" "SO_sfspline" [],
  row "scspline" "SO_scspline" [],
  row "spspline" "SO_spspline" [],
  row "svspline" "SO_spspline" [],
  row "fDu" "SO_fDu" [],
  row "fDv" "SO_fDv" [],
  row "fDeriv" "SO_fDeriv" [],
  row "cDu" "SO_cDu" [],
  row "cDv" "SO_cDv" [],
  row "cDeriv" "SO_cDeriv" [],
  row "pDu" "SO_pDu" [],
  row "pDv" "SO_pDv" [],
  row "pDeriv" "SO_pDeriv" [],
  row "hDu" "SO_pDu" [],
  row "hDv" "SO_pDv" [],
  row "hDeriv" "SO_pDeriv" [],
  row "nDu" "SO_pDu" [],
  row "nDv" "SO_pDv" [],
  row "nDeriv" "SO_pDeriv" [],
  row "vDu" "SO_pDu" [],
  row "vDv" "SO_pDv" [],
  row "vDeriv" "SO_pDeriv" [],
  row "frandom" "SO_frandom" [],
  row "crandom" "SO_crandom" [],
  row "prandom" "SO_prandom" [],
  row "noise1" "SO_noise1" [],
  row "noise2" "SO_noise2" [],
  row "noise3" "SO_noise3" [],
  row "noise4" "SO_noise4" [],
  row "cnoise1" "SO_cnoise1" [],
  row "cnoise2" "SO_cnoise2" [],
  row "cnoise3" "SO_cnoise3" [],
  row "cnoise4" "SO_cnoise4" [],
  row "pnoise1" "SO_pnoise1" [],
  row "pnoise2" "SO_pnoise2" [],
  row "pnoise3" "SO_pnoise3" [],
  row "pnoise4" "SO_pnoise4" [],
  row "xcomp" "SO_xcomp" []]

/-- Part 4 of `m_TransTable`, libs/shadervm/shadervm.cpp:95-471. -/
def table4 : List Row := [
  row "ycomp" "SO_ycomp" [],
  row "zcomp" "SO_zcomp" [],
  row "setxcomp" "SO_setxcomp" [],
  row "setycomp" "SO_setycomp" [],
  row "setzcomp" "SO_setzcomp" [],
  row "length" "SO_length" [],
  row "distance" "SO_distance" [],
  row "area" "SO_area" [],
  row "normalize" "SO_normalize" [],
  row "faceforward" "SO_faceforward" [],
  row "faceforward2" "SO_faceforward2" [],
  row "reflect" "SO_reflect" [],
  row "refract" "SO_refract" [],
  row "fresnel" "SO_fresnel" [],
  row "fresnel2" "SO_fresnel2" [],
  row "transform2" "SO_transform2" [],
  row "transformm" "SO_transformm" [],
  row "transform" "SO_transform" [],
  row "vtransform2" "SO_vtransform2" [],
  row "vtransformm" "SO_vtransformm" [],
  row "vtransform" "SO_vtransform" [],
  row "ntransform2" "SO_ntransform2" [],
  row "ntransformm" "SO_ntransformm" [],
  row "ntransform" "SO_ntransform" [],
  row "depth" "SO_depth" [],
  row "calculatenormal" "SO_calculatenormal" [],
  row "cmix" "SO_cmix" [],
  row "fmix" "SO_fmix" [],
  row "pmix" "SO_pmix" [],
  row "vmix" "SO_vmix" [],
  row "nmix" "SO_nmix" [],
  row "comp" "SO_comp" [],
  row "cmixc" "SO_cmixc" [],
  row "pmixc" "SO_pmixc" [],
  row "vmixc" "SO_vmixc" [],
  row "nmixc" "SO_nmixc" [],
  row "setcomp" "SO_setcomp" [],
  row "ambient" "SO_ambient" [],
  row "diffuse" "SO_diffuse" [],
  row "specular" "SO_specular" [],
  row "phong" "SO_phong" [],
  row "trace" "SO_trace" [],
  row "ftexture1" "SO_ftexture1" [],
  row "ftexture2" "SO_ftexture2" [],
  row "ftexture3" "SO_ftexture3" [],
  row "ctexture1" "SO_ctexture1" [],
  row "ctexture2" "SO_ctexture2" [],
  row "ctexture3" "SO_ctexture3" []]

/-- Part 5 of `m_TransTable`, libs/shadervm/shadervm.cpp:95-471. -/
def table5 : List Row := [
  row "textureinfo" "SO_textureinfo" [.var],
  row "fenvironment2" "SO_fenvironment2" [],
  row "fenvironment3" "SO_fenvironment3" [],
  row "cenvironment2" "SO_cenvironment2" [],
  row "cenvironment3" "SO_cenvironment3" [],
  row "bump1" "SO_bump1" [],
  row "bump2" "SO_bump2" [],
  row "bump3" "SO_bump3" [],
  row "shadow2" "SO_shadow1" [],
  row "shadow" "SO_shadow" [],
  row "illuminate2" "SO_illuminate2" [],
  row "illuminate" "SO_illuminate" [],
  row "illuminance2" "SO_illuminance2" [],
  row "illuminance" "SO_illuminance" [],
  row "init_illuminance2" "SO_init_illuminance2" [],
  row "init_illuminance" "SO_init_illuminance" [],
  row "advance_illuminance" "SO_advance_illuminance" [],
  row "solar2" "SO_solar2" [],
  row "solar" "SO_solar" [],
  row "init_gather" "SO_init_gather" [],
  row "advance_gather" "SO_advance_gather" [],
  row "gather" "SO_gather" [],
  row "printf" "SO_printf" [],
  row "fcellnoise1" "SO_fcellnoise1" [],
  row "fcellnoise2" "SO_fcellnoise2" [],
  row "fcellnoise3" "SO_fcellnoise3" [],
  row "fcellnoise4" "SO_fcellnoise4" [],
  row "ccellnoise1" "SO_ccellnoise1" [],
  row "ccellnoise2" "SO_ccellnoise2" [],
  row "ccellnoise3" "SO_ccellnoise3" [],
  row "ccellnoise4" "SO_ccellnoise4" [],
  row "pcellnoise1" "SO_pcellnoise1" [],
  row "pcellnoise2" "SO_pcellnoise2" [],
  row "pcellnoise3" "SO_pcellnoise3" [],
  row "pcellnoise4" "SO_pcellnoise4" [],
  row "fpnoise1" "SO_fpnoise1" [],
  row "fpnoise2" "SO_fpnoise2" [],
  row "fpnoise3" "SO_fpnoise3" [],
  row "fpnoise4" "SO_fpnoise4" [],
  row "cpnoise1" "SO_cpnoise1" [],
  row "cpnoise2" "SO_cpnoise2" [],
  row "cpnoise3" "SO_cpnoise3" [],
  row "cpnoise4" "SO_cpnoise4" [],
  row "ppnoise1" "SO_ppnoise1" [],
  row "ppnoise2" "SO_ppnoise2" [],
  row "ppnoise3" "SO_ppnoise3" [],
  row "ppnoise4" "SO_ppnoise4" [],
  row "atmosphere" "SO_atmosphere" [.var]]

/-- Part 6 of `m_TransTable`, libs/shadervm/shadervm.cpp:95-471. -/
def table6 : List Row := [
  row "displacement" "SO_displacement" [.var],
  row "lightsource" "SO_lightsource" [.var],
  row "surface" "SO_surface" [.var],
  row "attribute" "SO_attribute" [.var],
  row "option" "SO_option" [.var],
  row "rendererinfo" "SO_rendererinfo" [.var],
  row "incident" "SO_incident" [.var],
  row "opposite" "SO_opposite" [.var],
  row "ctransform" "SO_ctransform" [],
  row "ctransform2" "SO_ctransform2" [],
  row "ptlined" "SO_ptlined" [],
  row "inversesqrt" "SO_inversesqrt" [],
  row "concat" "SO_concat" [],
  row "format" "SO_format" [],
  row "match" "SO_match" [],
  row "rotate" "SO_rotate" [],
  row "filterstep" "SO_filterstep" [],
  row "filterstep2" "SO_filterstep2" [],
  row "specularbrdf" "SO_specularbrdf" [],
  row "mtransform2" "SO_mtransform2" [],
  row "mtransform" "SO_mtransform" [],
  row "mcomp" "SO_mcomp" [],
  row "setmcomp" "SO_setmcomp" [],
  row "determinant" "SO_determinant" [],
  row "mtranslate" "SO_mtranslate" [],
  row "mrotate" "SO_mrotate" [],
  row "mscale" "SO_mscale" [],
  row "fsplinea" "SO_fsplinea" [],
  row "csplinea" "SO_csplinea" [],
  row "psplinea" "SO_psplinea" [],
  row "vsplinea" "SO_psplinea" [],
  row "sfsplinea" "SO_sfsplinea" [],
  row "scsplinea" "SO_scsplinea" [],
  row "spsplinea" "SO_spsplinea" [],
  row "svsplinea" "SO_spsplinea" [],
  row "shadername2" "SO_shadername2" [],
  row "shadername" "SO_shadername" [],
  row "bake_f" "SO_bake_f" [],
  row "bake_3c" "SO_bake_3c" [],
  row "bake_3n" "SO_bake_3n" [],
  row "bake_3v" "SO_bake_3v" [],
  row "bake_3p" "SO_bake_3p" [],
  row "external" "SO_external" [.var],
  row "occlusion" "SO_occlusion" [],
  row "occlusion_rt" "SO_occlusion_rt" [],
  row "indirectdiffuse" "SO_indirectdiffuse" [],
  row "rayinfo" "SO_rayinfo" [.var],
  row "bake3d" "SO_bake3d" []]

/-- Part 7 of `m_TransTable`, libs/shadervm/shadervm.cpp:95-471. -/
def table7 : List Row := [
  row "texture3d" "SO_texture3d" []]

/-- `m_TransTable`, libs/shadervm/shadervm.cpp:95-471. -/
def table : List Row :=
  table0 ++ table1 ++ table2 ++ table3 ++ table4 ++ table5 ++ table6 ++ table7

/-- The hashes of the names in the table. -/
def tableHashes : List Nat := [
  75241723480, 2427152179, 2427143224, 2241519774025490,
  78295054, 2332480395617, 2566332, 79552842,
  76446783297, 109263, 99839, 84720127060477971,
  3092207, 3217351470, 3217351483, 3217351480,
  3217351478, 3217351486, 3217351467, 3318046135,
  3318046145, 3318046148, 107033756, 3113094611,
  111185, 3239240, 109328543, 109328556,
  109328554, 109328562, 109328553, 109328977,
  109328990, 109328988, 109328996, 109328853,
  109329039, 109328791, 109328463, 109328461,
  109328469, 109329080, 105398, 3408,
  105357, 3331207, 3331527, 3331271,
  3331111, 3331463, 3331719, 3183213,
  3183533, 3183277, 3183117, 3183469,
  3183725, 3168798, 3169118, 3168862,
  3168702, 3169054, 3169310, 3317753,
  3318073, 3317817, 3317657, 3318009,
  3318265, 3120748, 3121068, 3120812,
  3120652, 3121164, 3121004, 3121260,
  3377335, 3377655, 3377399, 3377239,
  3377751, 3377591, 3377847, 104256388,
  95596817, 92660001, 109787904, 3377366,
  104256708, 95597137, 92660321, 109788224,
  94938852, 95773961, 3377376, 104256292,
  95596721, 92659905, 109787808, 95773545,
  3377363, 104256398, 95596827, 92660011,
  109787914, 104256385, 95596814, 92659998,
  109787901, 104256612, 95597041, 3314155,
  107343, 104048024178, 91740531495, 113880,
  3003607, 98695, 2988422, 114593,
  3004320, 93133970, 111192, 100893,
  3538208, 107332, 3327342, 108290,
  96370, 3530173, 108114, 107876,
  3444706, 3444468, 3623452, 3623214,
  3385124, 3384886, 3057423, 3057185,
  94742715, 3301207627, 3472982533, 3243949325,
  2929028664, 97526796, 3049733, 108704142,
  3540684, 3136677505201530, 93924484023, 91261972980,
  102799520833, 108124542919, 3257875106788, 3255212595745,
  3266750143598, 3272075165684, 100247, 100248,
  2986094648, 97364, 97365, 2900207195,
  109857, 109858, 3272386158, 102169,
  102170, 3043352950, 107935, 107936,
  3215127856, 115623, 115624, 3444161064,
  93882056873, 91219545830, 102757093683, 3254959191,
  3254959192, 3254959193, 3254959194, 91117823610,
  91117823611, 91117823612, 91117823613, 102655371463,
  102655371464, 102655371465, 102655371466, 113881991,
  114805512, 115729033, 3257023358053, 3257024281574,
  3257025205095, 3188603622, 2847851777013, 3002509,
  96976303185677, 86254037420493256, 2673875160035290986, 104164480701,
  104164655603, 93885909211, 2910463185591, 3166995487851078,
  3166995487851137, 102161144769388, 99883133351585596, 99883133351585655,
  3222036559728566, 93326107055739188, 93326107055739247, 3010519582443198,
  95472323, 9542046364900334541, 3057433, 3146806,
  3444716, 3623462, 3385134, 3059471,
  94780522, 106786295, 112327421, 104939253,
  105064655473, 89302168216, 91853782882, 3266337600323,
  106642800, 110620997, 90279533152476, 90279533152477,
  90279533152478, 87720860040153, 87720860040154, 87720860040155,
  97852928713897033, 9214255596876441573, 9214255596876441574, 6851267245510792290,
  6851267245510792291, 94098875, 94098876, 94098877,
  105133026066, 3391387936, 89011880382784966, 2871350980089836,
  2759368291866154909, 89011880382779189, 7101442611874846316, 9749978961007344262,
  16679572962277892856, 3398177425, 109618625, 89062160947618826,
  15378751379755400280, 3041943035, 3314983769, 86308820328410399,
  86308820328410400, 86308820328410401, 86308820328410402, 83849935467467996,
  83849935467467997, 83849935467467998, 83849935467467999, 94505103198218409,
  94505103198218410, 94505103198218411, 94505103198218412, 2908942010785,
  2908942010786, 2908942010787, 2908942010788, 2826404168452,
  2826404168453, 2826404168454, 2826404168455, 3184068151895,
  3184068151896, 3184068151897, 3184068151898, 2666679496760610,
  2630047800499228183, 91386830758409393, 105520950445, 86028208024220,
  3284830325, 2982345353666137073, 2989384221906, 3156613084903,
  2719683738675817, 84310195898950377, 102824371052, 89072853051686992,
  2940172052, 3026188279, 103668165, 3369786715,
  2789472332437060, 86473642305548910, 3016531366990929557, 92506478768758387,
  2984079960282527, 103723260, 3257013199322, 84735049067016789,
  2984079960447873, 100107687944, 3229828349, 2911659004810,
  2829121162477, 3186785145920, 3351860830586, 100994128310525,
  100911590468192, 101269254451635, 101434330136301, 97092548405724738,
  3132017690507248, 2898526080, 89854306998, 89854307009,
  89854307017, 89854307011, 2888692229067, 97485720348045,
  2904197094888703540, 10988574504448463444, 104067430360, 2898524714,
  101824067338476]

end Verif.Shader.Slx
