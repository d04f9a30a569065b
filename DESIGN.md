# Formal model of aqsis/aqsis in Lean 4 — design

The model lives in `lean/Verif/`. Each area has

* a model file (`Verif/<Area>/Model.lean` or `Verif/<Area>.lean`) with total computable functions, each carrying
  a comment that cites the file and lines of `/repo` it was read from,
* helper lemma files,
* a property file whose name ends in `Props`, which holds only the property theorems, the small independent
  specifications they are stated against, and `example`s showing the hypotheses can be met.

Naming: a theorem called `..._partial` proves less than its property says; its doc comment says what is missing.
A theorem called `..._violated` is a proof, with a concrete witness, that the code as written does not have the
property (see "Disagreements").

## Trusted base

* The Lean 4.33.0 kernel, and the axioms `propext`, `Classical.choice`, `Quot.sound` (the last section lists the
  axioms per theorem as printed by `#print axioms`). No further axioms, no `sorry`, no `native_decide`/`bv_decide`.
* The reading of the C++ source: nothing is extracted mechanically. The code is not run.
* Bytes are natural numbers (`< 256` where it matters), C++ `int` is `Int` with explicit range checks whose failure
  is the distinct outcome `ub`, `unsigned` arithmetic is taken modulo 2^32.
* Floating point values are either opaque bit patterns (transport properties) or exact rationals (geometry);
  rounding is not modelled and every property whose truth depends on rounding is labelled partial.
* Not modelled: memory exhaustion, stack overflow, gzip decompression, the operating system.

## Plan per property

| id | modelled part | proof shape |
|----|---------------|-------------|
| C01 | `RibInputBuffer::get/unget/bufferNextChars` with an adversarial `readsome` schedule | refinement to a byte list zipper, for every adaptive client (interaction trees) |
| C02 | same, line/column bookkeeping | false at the wrap point: witness; partial theorem for streams that do not wrap |
| C03, C04, C05 | binary formatter, tokenizer | round-trip; C05 by induction over requests with an invariant linking writer map and reader table |
| C06, C07, C08 | ASCII formatter, `readString`, `readNumber` | round-trip, partial where the code disagrees (escapes, INT_MIN) |
| C09 | `scanNext` with fuel | fuel monotonicity and progress |
| C10 | lexer and parser loop over token lists | refinement: delivered requests = well-formed requests of the spec splitting |
| C11 | `pushInput/popInput/get/unget/peek` | simulation |
| C12 | lexer array functions | decision logic and round-trip |
| C13 | `parseDeclaration`, printing | round-trip |
| C14 | `TokenDict` | refinement to a function update |
| C15-C17 | `RenderUtilFilter` | refinement to a structural evaluator; nested conditionals violate it |
| C18, C19 | `FrameDropFilter`, `parseFrames` | refinement to a filter on frame-annotated lists |
| C20 | `TeeFilter` | refinement |
| C21 | `RiCxxValidate` | invariant over the scope stack, acceptance equals a stack-free grammar |
| C22 | `CachedParamList`, `MultiStringBuffer` | round-trip over packed storage |
| C23 | `enum.h` tables | round-trip for every table without duplicate names, with collisions |
| C24 | `CqBitVector` over byte lists with indeterminate bytes as a distinct value | refinement to `Nat → Bool`, violations for mixed sizes |
| C25 | `expandSearchPath` | refinement to a substitution spec; non-termination proved for an unpaired `%` |
| C26 | `CqListEntry` over a heap of links | violation for chains, partial for single entries |
| C27 | `CqObjectPool` | invariant |
| C28, C29 | occlusion tree over rationals | refinement to a per-cell test; index = cell bijection |
| C30 | CSG processing | refinement to pointwise Boolean evaluation; camera-inside violated |
| C31 | scheduler transition system | safety invariant; lost wake-up shown by a reachable deadlock |
| C32 | `CqChannelBuffer` | frame rules; violations in `allocate` |
| C33, C34 | tile iterator, filter supports | exact cover (permutation-free enumeration) |
| C35 | pyramid sizes | induction on size |
| C36 | magic numbers | decision logic |
| C37 | class counts with 32-bit overflow as an outcome | counts characterised by the predicate "patch k exists"; wrong for fewer than 4 points |
| C38 | file search | decision logic |
| C39 | whole ASCII streams: formatter to lexer | composition of C06-C08, C10 |
| C40 | `filterTexture`, `filterWrappedBuffer` over any array that satisfies C33 | soundness and completeness against a coordinate map per wrap mode |
| C41 | `CqSampleAccum`, `CqPcfAccum`, `CqCachedFilter` over exact rationals | weighted mean refinement, bounds, monotonicity |
| C42, C43 | index arithmetic of mesh and curve splitting | every piece has exactly its grid block; uniform index violated |
| C44 | `downsample` | composition of C33, C40, C41 |
| C45 | `grid`, `bucketRegion`, `visits` | closed form of the bucket loops; row-major order by induction on buckets left |
| C46 | `postSurface`, `repostSurface`, `cullSurface` | the scan finds the first free bucket; induction on buckets left |
| C47 | `addMPG` | truncation as an order statement, membership of the double loop |
| C48 | `render` (pre- and postprocessing of all buckets) | invariant between buckets: which segments exist and what they hold |
| C49 | `scanBin` (numeric codes) | value of the bytes defined separately; decoding lemma for any number of bytes |
| C50 | `compS`, `compE` (code generator), `exec1`, `runVM` (machine) | per-point big-step semantics with fuel (`Verif/Shader/SimdSpec.lean`); forward simulation with the stack described by how many levels each point has escaped; divergence by induction on the statement |
| C51 | `store`, `sample`, `combine` (hit list, culling depth, accumulation) | composition of the depth-sorted hits by recursion (`coverCol`, `coverOpa`); invariant: every hit is stored or lies behind a stored opaque one |
| C52 | `initFilter`, `gather`, `finish`, `filterBucket`, `expose` | the samples of the plane under the filter as a duplicate-free list (`Area`), sums over it; index arithmetic of the table by unique division |
| C53 | `codes`, `pack`, `edges`, `fContains`, `renderStatic`, `toUV` | signed areas (`left`): polynomial identities for the bilinear patch, positivity of convex combinations; floor and ceiling for grids; angle argument (`half4`) for the bound |
| C54 | `shuffle`, `multiJitterIndices`, `setupJitterPattern`, `jittered`, `gridTables`, `setSamples` | loop invariants; a shuffle is a permutation with inverse (`PermOn`); column index = `ix*ys + xindex` by floor argument |
| C55 | `initGenrand`, `regenerate`, `temper`, `genrand`, `randomFloat`, `randomIntRange` | the state is a window of the infinite sequence of the recurrence (`Holds`); bitwise cancellation for tempering; rounding as any nearest function (`Nearest`) |
| C56 | moving micropolygons: keys (`keyframeTimes`), bounds over divisions of the shutter (`BuildBoundList`), test at the time of a sample, choice of samples in `RenderMPG_MBOrDof` without depth of field | Core/Motion, MotionLemmas, MotionProps | bounds of keys interpolate affinely, so the hull of the ends of a stretch of one segment bounds it; the loop keeps the tight bound at the start of a division; stratified times give the index range; rounding witness for every rounding to nearest |
| C57 | depth of field: lens cells and their bounds, circle of confusion, bounds of moved micropolygons, quick rejection, choice of samples in `RenderMPG_MBOrDof` | Core/Dof, DofLemmas, DofProps | radial map monotone along each axis off the axes, so corners bound a cell of an even grid; 1/z monotone, so its distance from the focus is extreme at the ends; per-axis argument for rejection; permutation of cells gives existence and uniqueness |
| C58 | attributes: memory of shared attribute objects and parameter lists, copy on write by reference counts, blocks, primitives | State/Attr, AttrLemmas, AttrProps | simulation of a specification without sharing; count ≤ 2 implies that the current block holds the only reference; same for parameter lists inside of live objects |
| C59 | transformations: static matrix, keys, default object; requests, motion blocks, transform blocks, world | State/Transform, TransformLemmas, TransformProps | simulation of one matrix per key time; matrices in any group |
| C60 | matrices with the identity flag over an ordered field; Gauss-Jordan elimination with pivoting; real skews | Math/Matrix, MatrixLemmas, MatrixProps | elimination invariant (b*A = a, kernel kept, columns done); Mathlib matrices as specification |
| C61 | control nets, forward differences, halving, bounds, bases over an ordered field; casts and multiples of the type of the parameter as arguments | Geom/Bicubic, HPoint, BicubicLemmas, HPointLemmas, BicubicProps, HPointProps | closed form of iterated differences, de Casteljau by field algebra, convexity of Bernstein weights, matrices of C60 |
| C62 | parameters as class, count, size and flat values; failed assertions and accesses outside of the values as outcomes | Geom/Primvar, PrimvarLemmas, PrimvarProps | invariants of the loops over flat positions, field algebra, witnesses |
| C63 | quads of one component over an ordered field, pieces as lists, line test in the raster, dice sizes with floor, 32 bit shifts with undefined outcome | Geom/Bilinear, BilinearLemmas, BilinearProps | affine reparametrisation of each piece, convexity, induction over splits, bits of the filled number |
| C64 | polygons as lists of vertex numbers, points over an ordered field, ear cutting with fuel, loops joined by a parameter for equal distances | Geom/GenPoly, GenPolyLemmas, GenPolyProps | sums of antisymmetric functions over loops (area and crossings of a ray), induction over cut corners |
| C65 | pieces as vertex numbers by a loop with fuel, values over a field, faces as lists of indices | Geom/Polygon, PolygonProps | induction over the loops; sums over the fan as in C64 |
| C66 | boxes over an ordered field, the matrices of C60, object and camera as functions of the time, FLT_MAX and the square root as parameters | Core/Cull, CullLemmas, CullProps | affine functions have their maximum at a corner, matrices invert each other |
| C67 | ranges over an ordered field, attributes by number for sharing, raster bound from C66 | Core/Lod, LodProps | ramps, induction over the chain of levels and over the posted surfaces |
| C68 | vector space over an ordered field, `none` for reads outside, floats as numbers with 24 bits for the product that selects the section | Math/Spline, SplineProps | polynomial identities, floor, distance to the next float, induction over the shading points |
| C69 | blocks of memory as functions with a size, `none` for accesses outside and conversions that do not fit; pixels of any type | Core/Display, DisplayLemmas, DisplayProps | induction over the buckets in rendering order (C45), floor and ceiling, finite check of the channel orders |
| C70 | pieces as lists of point indices, `none` for reads outside; widths as squares; times and positions rational | Geom/Points, PointsProps | induction over the levels of splitting with permutations, polynomial identities, case split over the quarters of a segment |
| C71 | curves over an ordered field with knots and points as functions of the index; `none` for 0/0; the specification is the recursion of Cox and de Boor on knots indexed by integers | Geom/BSpline, Trim, TrimProps | algorithm of de Boor and the insertion of Boehm proved by induction over the degree, then the loops of the program against them; parity along a segment by case split over the crossing of an edge |
| C72 | surfaces over an ordered field and a vector space (homogeneous points), rows and columns as curves; the specification is the recursion of Cox and de Boor, extended by the last point at the end | Geom/Nurbs, NurbsLemmas, NurbsCutLemmas, NurbsClampLemmas, NurbsSegLemmas, NurbsSurfLemmas, NurbsOpsLemmas, NurbsProps | the triangular scheme of the code against de Boor's by induction; the refinement loops against repeated insertion; operations on surfaces reduced to those on curves, which depend on the knots only |
| C73 | laths as numbers, links as functions; loops with fuel, an exhausted one is a loop that does not end | Geom/Lath, LathLemmas, LathNearLemmas, LathBuildLemmas, LathFinalLemmas, LathFacetLemmas, LathProps | walks along partial injections; invariants of both loops of `Finalise` against the relation "same edge in the other direction"; the number of laths at later vertices and the number of vertices left bound the steps |
| C74 | masks as functions of the laths of C73 and of values in a vector space; the three hardest edges by the fold of the code | Geom/Subd, SubdLemmas, SubdMaskLemmas, SubdLimitLemmas, SubdProps | the search keeps the edges sorted up to permutation, so the second and third sharpness, and the two hardest edges where their weight is not zero, are determined; sums over permuted lists; `module` and `field_simp` |
| C75 | states with the laths of C73, the pointers left behind, tags and values; subdivideFace as in the code with its recursion into neighbours | Geom/SubdFace, SubdExtLemmas, SubdPointLemmas, SubdQuadLemmas, SubdLinkLemmas, SubdDomLemmas, SubdSplitLemmas, SubdGrowLemmas, SubdDoneLemmas, SubdStepLemmas, SubdLevelLemmas, SubdCallsLemmas, SubdFaceProps | an invariant over the set of subdivided corners, with the intended links as a relation; masks do not change when laths are added |
| C76 | parse trees, translation tables and temporary maps, generation, first pass and stack machine with references | Shader/Inline, InlineSpec, InlineLemmas, InlineSim, InlineProps | simulation between a direct semantics with addresses and the machine, over nested calls |
| C77 | the list of variables with strings and hashes, the stack of scopes, the actions of the parser | Shader/Scope, ScopeSpec, ScopeLemmas, ScopeSim, ScopeStep, ScopeRun, ScopeProps | invariant between the list with composed names and frames of declarations; composed names are injective; 31 is invertible modulo 2^64 |
| C78 | the check of types with overloads and conversions, the removal of casts, and the code for expressions | Shader/Types, TypesSpec, TypesLemmas, TypesSound, TypesKnown, TypesSafe, TypesBest, TypesProps | three inductions over expressions: kinds on a stack machine, instructions known, code exists; the choice of a function as first maximum of a score |
| C79 | the text of compiled shaders: writing, and loading with tokens, strings, searches, labels and the table of instructions | Shader/SlxTable, SlxTableLemmas, Slx, SlxSpec, SlxLemmas, SlxLoad, SlxFile, SlxSample, SlxProps | simulation of the loop of the loader over the written text; the table by evaluation |
| C80 | grids, halves and bounds of the seven quadrics over the reals | Geom/Quadric, QuadricSpec, QuadricLemmas, QuadricBound, QuadricProps | each arc is a convex combination of its control points; rotations are linear |
| C81 | normals of the grids of quadrics | Geom/Quadric, QuadricSpec, QuadricNormalProps | derivatives of the surface; algebra with sine and cosine |
| C82 | image buffers with channels of mixed types | Tex/Mixed, MixedSpec, MixedLemmas, MixedChans, MixedProps, MixedConvProps, MixedReadProps | induction over rows and columns of bytes; error bounds for rounding |
| C83 | conditions | Filter/Condition, ConditionProps | scanning of a written condition word by word |
| C84 | `step`, `exec`, `code` | a machine without storage whose values may be unknown (`Verif/Shader/StackSpec.lean`); forward simulation with an invariant on who owns which storage; induction on expressions |
| C85 | `parse` | grammar of command lines `Line` and of integers `Denotes`, what an option takes `Takes` (`Verif/Util/ArgParseSpec.lean`); both directions: induction on the grammar, and strong induction on the command line |
| C86 | `makeFactory`, `Factory.createFilter`, `Filter.weight`, `Filter.support` | variances along directions `variance`, `AspectWithin` (`Verif/Tex/EwaSpec.lean`); spectral form `along u e1 e2` of symmetric matrices; convexity of exp for the table |
| C87 | `Quad`, `Pllgram`, `cubeRegion`, `cubeBlur`, `latLong` | the faces of the cube `faces`, `seen`, the direction of a place `direction`, derivatives `HasDerivAt` (`Verif/Tex/EnvSpec.lean`) |
| C88 | `choose`, `minFilterWidth`, `applyFilter`, `lastSupport` | powers of two, a sum of ramps (continuity), bounds of integers (`Verif/Tex/LevelProps.lean`) |
| C89 | `extract`, `varying`, `points`, `call`, `contextBias`, `callBias` | the last and first value under a name `lastOf`, `firstOf`, the values allowed `Allowed` (`Verif/Shader/TexOptsLemmas.lean`) |
| C90 | `table`, `perm`, `fastFloor`, `fade`, `grad1`–`grad4`, `axis`, `paxis`, `body1`–`body4`, `noise1`–`noise4`, `pnoise1`–`pnoise4` | bumps `bump`, lattice points around `Near`, residues `wrap`, `pwrap`, directions `knight`, `edges3`, `edges4` (`Verif/Math/NoiseLemmas.lean`) |
| C91 | `hue`, `rgbToHsv`, `rgbToHsl`, `hsvToRgb`, `hslToRgb`, `times`, `rgbToYiq`, `yiqToRgb`, `ctransform` | the colour wheel `trap`, `wheel`, `onWheel` (`Verif/Math/ColorLemmas.lean`) |
| C92 | `primes`, `radLoop`, `reverseRadical`, `pick`, `permute`, `reset`, `construct`, `generate`, `entries`, `sample` | `mirrored` digits, `Fair`, `InCell` (`Verif/Math/LowDiscrepLemmas.lean`) |
| C93 | `triangleArea`, `faceArea`, `faceLoop`, `createFaceList`, `numParticles`, `wrapped`, `weights`, `sourceIndex`, `interpolate` | `quadArea` by the diagonals, `chunk` (`Verif/Tools/EmitterLemmas.lean`) |
| C94 | `decay`, `parentWeights`, `interpolated`, `shift`, `correctCurves`, `correct`, `clumpPow`, `clumpWeight`, `clumped`, `rootIndex`, `storageCount` | `moved` by the vector from root to emitter (`Verif/Tools/HairsLemmas.lean`) |
| C95 | `unit`, `withoutTranslation`, `view`, `View.weight`, `best`, `choose`, `currToRaster`, `Quad3.copy2DCoords`, `approx`, `depthAt` | `cosine`, `plane`, `OnPlane`, `Open` (`Verif/Tex/ShadowLemmas.lean`) |
| C96 | `lookup`, `place`, `start`, `tileArea`, `share`, `search`, `nextTile`, `next`, `begin`, `loop`, `visit`, `pcfPixels` | `pixels`, `pixelsOfTile`, `InRange` (`Verif/Tex/StochLemmas.lean`) |
| C97 | `lastSegment`, `linCurve`, `linGroup`, `segmentsPerCurve`, `nVertsBezier`, `cVarying`, `basisTrans`, `row`, `rowH`, `convCurve`, `convGroup`, `cubCurve`, `cubGroup`, `linHalves`, `cubHalves`, `subdivided`, `linHalvesH` | `offset`, `linPiecesOf`, `cubPieces`, `cubVarying`, `cubPiecesOf` (`Verif/Geom/CurvesLemmas.lean`), `bez`, `blend` |
| C98 | `cross`, `len`, `unit`, `chooseTangent`, `tangent`, `getNormal`, `sixth`, `ribbon`, `across`, `linRibbon`, `cornerU`, `cornerV`, `cornerEnd`, `netVertex`, `maxWidth`, `curveBound`, `groupBound`, `widthScale` (`Verif/Geom/Curves.lean`) | `inner`, `third`, `thirdW`, `param`, `Across` (`Verif/Geom/RibbonLemmas.lean`), `bez`, `surf` |
| C99 | `permRows`, `randRows`, `look`, `perm`, `random`, `trunc`, `lower`, `permTableIndex`, `walk`, `f1` to `f4`, `three`, `p1` to `p4` | `Good`, `Same` (`Verif/Math/CellLemmas.lean`) |
| C100 | `Opts`, `request`, `deriveRatio`, `deriveWindow`, `camera`, `cameraToImage`, `imageToScreen`, `frameX`, `frameY`, `worldToRaster`, `cameraToRaster`, `vectorMatrix`, `dofScale` over the matrices of C60 | `raster`, `lastOf`, `formatOf`, `ratioOf`, `windowOf` (`Verif/Core/CameraLemmas.lean`) |
| C101 | `step`, `smoothstep`, `clamp`, `filterstep`, `filterstep2`, `toInt`, `mod`, `sign`, `round`, `minOf`, `maxOf`, `pminOf`, `pmaxOf`, `sqrt`, `inversesqrt`, `log`, `logBase`, `pow`, `faceforward`, `faceforward2`, `unit`, `normalize` (`Shader/Arith`) | `ease`, `Nearest`, `partAbove`, `IsLeast`, `IsGreatest`, powers and logarithms of Mathlib (`Shader/ArithLemmas`, `Shader/ArithProps`) |
| C102 | `reflect`, `refract`, `fresnel`, `fresnelRT`, `depth`, `specularbrdf` (`Shader/Optics`) over `dot`, `unit` of C101 | `Unit1`, `along`, `fresnelBook` (`Shader/OpticsLemmas`, `Shader/OpticsProps`) |
| C103 | `skip`, `init`, `advance`, `turns`, `loop`, `findComma`, `substr`, `search`, `exec`, `outside`, `illuminance`, `ambient`, `diffuseBody`, `diffuse`, `specularBody`, `specular`, `phongR`, `phongBody`, `phong`, `illuminate`, `solar`, `normalSign`, `calculatenormal` (`Shader/Lights`) over `dot`, `unit`, `clamp`, `reflect` of C101, C102 | `len`, `inner`, `dir`, `toLight`, `counts`, `diffuse`, `specular`, `phong`, `IsFirst`, `IsLast`, `IsName` (`Shader/LightsLemmas`) |
| C104 | `rawDirection`, `direction`, `canonicalFaceCoords`, `faceCoords`, `faceIndex`, `neighbourU`, `neighbourV`, `dotFaceNormal`, `faceNormal`, `slot`, `centre`, `rayDirection`, `pixelSize`, `sphereOutsideCone`, `solveQuadratic`, `ellipse`, `Quad.takes`, `exactFaces`, `renderDiskExact`, `exactOnFace`, `raster`, `cover`, `lineSum`, `occBody`, `occlusion` (`Point/MicroBuf`) | `len`, `inner`, `Hit`, `largest` (`Point/MicroBufLemmas`) |
| C105 | `new`, `clone`, `addLayer`, `addConnection`, `find`, `connect`, `step`, `evaluate`, `findArgument`, `setArgument`, `usesVar` (`Shader/Layers`) | `IsLast`, `Good`, `Means`, `Joins`, `before` (`Shader/LayersLemmas`) |
| C106 | `letters`, `sprintfLoop`, `sprintf`, `gridLoop`, `Var.get`, `Var.set`, `Var.setAll`, `printf`, `format`, `concat`, `match` (`Shader/Text`) | `Piece`, `Ok`, `written`, `asked`, `filled`, `anyVarying`, `running` (`Shader/TextLemmas`) |
| C107 | `read`, `diff`, `diffU`, `diffV`, `indices`, `settings`, `derivU`, `derivV`, `deriv`, `area` (`Shader/Deriv`) | `OnGrid`, `grid` (`Shader/DerivLemmas`) |
| C108 | `cellIndex`, `part`, `childBound`, `leafSums`, `nodeSums`, `Sums.agg`, `makeTree`, `boundRadius`, `fitted`, `cubic`, `build` (`Point/Octree`) | `Inside`, `points`, `Fits`, `Split`, `area`, `moment` (`Point/OctreeLemmas`) |
| C109 | `culled`, `far`, `sorted`, `order`, `walk` (`Point/Walk`) | `Low`, `size`, `Big`, `shown`, `gap`, `middle` (`Point/WalkLemmas`) |
| C110 | `gaussian`, `mitchell1`, `mitchell`, `box`, `triangle`, `catmullRom`, `sinc1`, `sinc`, `disk`, `bessel` (`Core/PixelFilters`) | `Both`, `Alike`, `rel`, `cubic`, `catmull`, `Within`, `InEllipse` (`Core/PixelFiltersLemmas`) |
| C111 | `start`, `addSample`, `addAll`, `body`, `radiosity` (`Point/Radiosity`) | `total`, `blend`, `weight` (`Point/RadiosityLemmas`) |
| C112 | `dwordAlign`, `infoSize`, `pixel`, `rowBytes`, `imageData`, `rows` (`Tools/Bmp`) | `place` (`Tools/BmpLemmas`) |

## Disagreements between property and code

Each entry is proved, with a concrete witness, by the `..._violated` theorem of the property (listed in
MANIFEST.json); entries marked (note) are consequences of the reading that no theorem states.

* **C02** A CR LF pair whose two bytes fall on either side of a wrap of the 256-byte window (first byte at index
  254 + 255k) is counted as two line ends (ribinputbuffer.cpp:95-104).
* **C06** The ASCII writer escapes newlines, tabs, backslashes and octal codes, the tokenizer does not undo the escapes
  (ribtokenizer.cpp:483-500 against ribwriter.cpp:126-157).
* **C06** Octal escapes are written without padding (`\7` then `1`), so the written text is ambiguous when a digit follows:
  bytes `07 31` and byte `39` are written alike. `C06_octal_violated`.
* **C07** `-2147483648` is written but overflows while being read (undefined).
* **C08** An integer part or exponent above 2^31-1 overflows even when the literal is a float; `+e5` is accepted as a
  number; every error exit swallows the character it stopped at.
* **C09** (note) A byte 255 in the middle of a stream yields an end-of-file token; a truncated length field can yield up
  to 2^31 padding characters.
* **C11** The binary request and string tables and the array counter are shared by nested streams.
* **C13** `mpoint` and pointer types print as `invalid` and do not parse again; negative and overflowing array sizes and
  `int[3][` are accepted.
* **C15** `m_trueClauseFound` is not saved across a nested `IfBegin`; `ElseIf` or `Else` outside a conditional read the top
  of an empty stack.
* **C16** An archive that reads itself recurses without end; an archive redefined while it is read is used after being
  freed; comments in archives are dropped.
* **C17** Nested objects end at the inner `ObjectEnd`; a stray `ArchiveEnd` ends the recording of an object.
* **C19** `1-2-3` means 1, 2, -3 and `1 2` is accepted; 4294967297 is frame 1; a range ending at 2^31-1 overflows its
  loop counter.
* **C21** A stray `ArchiveEnd` fails an assertion (in release builds it pops the world scope); geometry outside the world is
  accepted inside transform and motion blocks; block ends recorded in an archive pop the outer attribute state.
* **C23** The names of `EqChannelType` are listed in a different order than its constants: `Channel_Float32` is called
  "uint32" (channelinfo.h:56-80).
* **C24** `SetSize` discards the bits when the byte count changes, so the set operations lose bits for operands of
  different size; union ignores the extra bits of a larger operand; `Count` counts unspecified unused bits.
* **C25** An unpaired `%` loops for ever (file.cpp:177-189).
* **C26** `LinkAfter`/`LinkBefore` leave a wrong back link when a chain of several entries is inserted (list.h:104, 132).
* **C27** Elements larger than a chunk are written out of bounds; the chunk memory sits at 8 modulo 16, so 16-byte aligned
  types are misaligned (pool.h).
* **C30** The camera-inside test asks for a node that is both a primitive and a union (csgtree.cpp:200-201) and never holds;
  an empty difference node reads element 0 of an empty vector (csgtree.cpp:333).
* **C31** With more units than threads, late notifications let any number of units run at once, and a wake-up can be lost
  (threadscheduler.cpp:68-71, 89-93).
* **C32** `memset`/`memcpy` are given element counts as byte counts (channelbuffer.h:129, 132): only a quarter is cleared,
  shrinking below a quarter overflows; an unknown channel name means channel 0.
* **C34** An empty region beside a range is not "in range"; an empty range inside a region "intersects" it; the area of
  a doubly reversed region is positive.
* **C35** For images wider than 2^24 the written level sizes differ from those the reader expects (float rounding).
* **C37** Open cubic directions with fewer than four points give one patch too many or a negative count; sizes overflow.
* **C38** (note) `isRegularFile` catches `std::filesystem::filesystem_error` although boost's exception is thrown.
* **C40** Clamp in one direction and periodic in the other: the corner regions accumulate nothing; `trunc` behaves as
  periodic (filtertexture.h:177-211).
* **C41** Cached kernels drop weights below 1e-5 without rescaling yet claim to be normalized; cancelling weights divide
  by zero (cachedfilter.cpp:94-106).
* **C42** The uniform value of a patch is taken at its column number, so all rows repeat the first row's values
  (patch.cpp:1056).
* **C43** Open cubic curves of fewer than four points make a bogus segment or shift the following curves' indices below
  zero; an open linear curve without points shifts the following ones out of range.
* **C44** As C40: a white image becomes grey at the corners.
* **C45** `CropWindow 0.99 1 0 1` is accepted, but at 16 pixels no pixel is left and the first bucket rendered is
  `m_Buckets[0][1]`, which does not exist (imagebuffer.cpp:190-194).
* **C46** An undiceable surface is put into the first bucket of the region, not the current one as the comment says, and
  is dropped when that bucket is processed (imagebuffer.cpp:399-441).
* **C48** A filter wider than the bucket (for example 6 pixels with buckets of 4) makes a cache region of negative width
  and `resize` fails (bucketprocessor.cpp:54-70, 1651).
* **C58** Attributes.
  - libs/core/attributes.cpp:170-192: `operator=` does not copy `m_TrimLoops`. With `TrimCurve`, `AttributeBegin`, `NuPatch` the patch
    is not trimmed (`C58_trim_block_violated`); with `TrimCurve`, `NuPatch`, `Color`, `NuPatch` only the first is
    (`C58_trim_copy_violated`).
  - libs/core/api/ri.cpp:3489-3533: `ShaderLayer` adds to the layered shader that the blocks around it and earlier primitives share;
    it is not undone by `AttributeEnd` (`C58_layer_violated`).
  - libs/core/renderer.cpp:191-207, 392-399: a rejected `FrameBegin` opens nothing, its `FrameEnd` closes the frame around it
    (`C58_rejected_violated`); the same for world and motion blocks. The validation filter (C21) keeps such input away.
* **C59** Transformations.
  - libs/core/transform.cpp:92-99: the transformation of the world is made from that of the camera; it is marked as not moving but
    keeps the keys. The next motion block with the same times concatenates to the matrices of the camera, which the object then has
    twice (`C59_camera_violated`).
  - libs/core/transform.cpp:222-237: `Identity` or `Transform` for a moving transformation outside of a motion block set the other
    keys to `M0 * Mi^-1 * T`; it still moves, in the opposite direction (`C59_set_violated`).
  - libs/core/renderer.cpp:478-489, libs/core/motion.h:117-130: in a second motion block with other times, new keys begin with the
    matrix of the first key, and the old keys do not have the new change (`C59_times_violated`).
  - libs/core/transform.cpp:166-195: `CoordSysTransform` toggles the handedness of the old matrix instead of setting it
    (`C59_hand_violated`); in a motion block it is the negation (`C59_hand_motion_violated`).
  - libs/core/transform.cpp:371-375: no interpolation between keys (`C59_between_violated`). Together with `mergeKeyTimes`, which
    takes 0 as key time of a transformation that does not move, points with the times -1 and 1 do not move until 0
    (`C59_points_violated`).
* **C60** Matrices.
  - include/aqsis/math/matrix.h:919-942: `S * a` keeps the mark of the identity: 2 * identity is still treated as the identity
    (`C60_scalar_violated`).
  - include/aqsis/math/matrix.h:680-685: `a * S` multiplies by a scale matrix: the fourth column is not scaled, other than in
    `S * a` (`C60_scalar_sides_violated`).
  - libs/math/matrix.cpp:516, 522: comparisons with a matrix marked as the identity drop the tolerance (`C60_close_violated`).
  - libs/math/matrix.cpp:84: the amount of a skew is `tan(angle + acos(perp)) * perp - par`; it should be
    `tan(angle + asin(par)) - par / perp`. With axes at an obtuse angle a skew by zero moves points
    (`C60_skew_zero_violated`), with axes at an acute angle the angle is wrong (`C60_skew_angle_violated`).
  - libs/math/matrix.cpp:378-383: the inverse of a singular matrix divides by zero; it is `none` in the model.
* **C61** Bicubic patches.
  - libs/core/forwarddiff.h:76-78: the differences of an integer parameter are cut off; a parameter from 0 to 3 ends at 2
    (`C61_dice_integer_violated`). Splits cut off as well (patch.cpp:102-109, `C61_split_types_violated`).
  - libs/core/geometry/patch.cpp:157-163: matrices are not split (`C61_split_types_violated`); their multiples leave out the fourth
    column (`C61_dice_matrix_violated`).
  - libs/core/geometry/patch.cpp:410-556: of arrays only the first element is converted to the Bezier basis, of integers and matrices
    nothing (`C61_basis_arrays_violated`).
  - include/aqsis/math/vector4d.h:337-346, 419-449: sums and multiples of `CqVector4D` are those of the points after division by the
    weights, and keep the weight of the first. Patches that are given with weights (`Pw`) are split and diced as if all weights were one
    (`C61_weights_violated`); what comes out is in `C61_points_partial`. NURBS work on the four components (nurbs.cpp:502-505) and are right.
* **C62** Primitive variables.
  - libs/core/parameters.h:1045-1054: uniform arrays ignore the index; loading a uniform array (api/ri.cpp:3702-3705) keeps the value of
    the last face for all faces (`C62_load_uniform_array_violated`).
  - libs/core/parameters.h:206-212: `SetValue` copies element 0 of uniform and constant arrays (`C62_set_value_violated`).
  - libs/core/parameters.h:1223-1286: vertex arrays inherit the splitting of varying arrays; on a bicubic patch they are cut to four
    values (`C62_split_vertex_array_violated`).
  - libs/core/parameters.h:1460: dicing a varying array asserts that the grid has as many points as the surface has corners
    (`C62_dice_array_violated`).
  - libs/core/parameters.h:1270-1274 with geometry/surface.cpp:448-456: a vertex array `st` marks s and t as done and sets neither
    (`C62_st_violated`).
  - libs/core/parameters.h:1444: the loop runs to `<=` the size, so a varying variable always fails an assertion
    (`C62_copy_violated`).
  - libs/core/geometry/surface.cpp:636-659: the loops run over `Size()` of the `Size() * Count()` entries of an array
    (`C62_transform_violated`).
* **C63** Bilinear patches.
  - libs/core/micropolygon.cpp:1652: `v <= 0` drops samples on the line; two triangles with this line in common leave a gap
    (`C63_edge_violated`).
  - include/aqsis/math/math.h:145-146: the loop shifts by 32, 64, ... places, undefined for 32 bit numbers (`C63_pow2_violated`).
  - libs/core/geometry/patch.cpp:720-724: patches are never discarded here, since the lengths are at least 1 (part of `C63_dice`).
* **C64** General polygons.
  - libs/core/api/genpoly.cpp:271-366: the closest vertices need not see each other; the bridge crosses the polygon, and the cutting
    stops early (`C64_hole_violated`).
  - libs/core/api/genpoly.cpp:83-88 and libs/core/api/ri.cpp:1934-1939: with two equal components the third axis is dropped, and a wall over
    the diagonal becomes a line without triangles (`C64_axis_violated`). Then `&_nverts[0]` (ri.cpp:2006, 2564) is taken of an empty vector.
  - libs/core/api/ri.cpp:1966, 1974: the attribute `Orientation` is exchanged in the current attributes, for all that follows, although the
    triangles keep their direction (`C64_attribute_violated`).
  - libs/core/api/genpoly.cpp:238, 247: the edges are counted by the other polygon (`C64_contains_violated`; the function has no uses).
  - libs/core/api/ri.cpp:2479-2507: polygons that name a vertex twice fail the assertion (`C64_facevarying_violated`).
  - libs/core/api/ri.cpp:1889, 2373: loops with fewer than three vertices only give a warning; an empty one reads element -1
    (`C64_empty_violated`).
* **C65** Polygons.
  - libs/core/geometry/polygon.cpp:104-110: the second vector only has to differ from the first, so vertices in line give a zero normal
    (`C65_normal_violated`).
  - libs/core/geometry/polygon.cpp:544-555: after an invalid index the place in the list of indices is not advanced to the next face, and all
    later faces fail on the same index (`C65_mesh_violated`).
* **C66** Bounds and culling.
  - libs/core/geometry/surface.cpp:127 uses the time 0 where the points were stored with the opening of the shutter (libs/core/api/ri.cpp:1858-1864):
    bounds of moving objects lack points (`C66_motion_violated`).
  - libs/core/renderer.cpp:1268-1270 transform to the camera at the time 0, libs/core/micropolygon.cpp:653 transforms back with the opening of the
    shutter: with a moving camera the points are in the wrong place (`C66_place_violated`).
  - libs/core/imagebuffer.cpp:375, 385-386: only the x axis is transformed, displacement along a stretched axis leaves the bound
    (`C66_displacement_violated`).
  - libs/core/bound.cpp:75-109: a box on both sides of the eye is not contained in the box of its projected corners, and corners in the plane
    of the eye fail an assertion (`C66_transform_violated`). `CullSurface` avoids it, `CqRenderer::PostSurface` (libs/core/renderer.cpp:1323) does not.
  - libs/core/imagebuffer.cpp:295-299: surfaces that were split too often at the eye are culled (`C66_eye_violated`; a warning is given).
* **C67** Levels of detail.
  - libs/core/attributes.cpp:129: the initial `LODRanges` are 0, 0, 0, 0 instead of 0, 0 and infinity: after `Detail` without `DetailRange`
    everything is culled (`C67_initial_violated`).
  - libs/core/renderer.cpp:1352-1353 write to the attributes of the surface, which it shares with other surfaces and with the current state: the
    last surface decides for all (`C67_shared_violated`), and a later surface without levels keeps the importances (`C67_off_violated`).
  - libs/core/api/ri.cpp:2196 tests the right end of the bound of the detail instead of an importance (`C67_points_violated`).
* **C68** Splines.
  - libs/shadervm/shaderexecenv/shadeops_deriv.cpp:323-334 (and the other five versions with a basis): a value of 0 or less gives the second
    control point and a value of 1 or more the last but one, which are the ends of Catmull-Rom and linear splines only; a Bezier spline jumps
    (`C68_ends_violated`).
  - include/aqsis/math/spline.h:208: `size() - 4` wraps below four points; the versions with an array (shadeops_deriv.cpp:793) only ask for one,
    and read outside of the control points (`C68_few_violated`); a value of 1 with one element reads element -1 (example beside it).
  - Sections of the power basis do not meet (`C68_power_violated`); this is inherent in the basis.
* **C69** Display output.
  - libs/core/ddmanager/ddmanager.cpp:1143, 1148, 1172: scan lines are collected at the position in the whole image, in a block as wide as the crop
    window. With a crop window that does not begin at 0 the block is left, or pixels are missing (`C69_scanline_crop_violated`).
  - libs/core/ddmanager/ddmanager.cpp:1068: `lround` of a quantized background depth (FLT_MAX, bucketprocessor.cpp:680) is unspecified
    (`C69_depth_violated`).
  - tools/displays/file/display.cpp:462-467: the file driver replaces signed formats by unsigned ones, min stays negative; the conversion of a
    negative number to 8 or 16 bits at ddmanager.cpp:1099, 1107 is undefined (`C69_signed_violated`).
  - A min or max that is not an integer is truncated after clamping (`C69_fraction_violated`).
  - Modes without `rgb` and `rgbz` are refused by the file driver (`C69_channels_violated`); for depth there is the driver `zfile`.
  - libs/core/ddmanager/ddmanager.cpp:1050: the dither is between 0 and the amplitude, not around 0, so it makes the picture brighter by half the
    amplitude on average.
* **C70** Points.
  - libs/core/geometry/points.cpp:329-341, 366-392: with a grid size of 0, a single point is split into none and itself, for ever
    (`C70_gridsize_violated`).
  - libs/core/geometry/points.cpp:264-284: the class of a variable is not looked at, a uniform variable with its one value is read at the index of
    each point (`C70_uniform_violated`).
  - libs/core/geometry/points.cpp:620-632: the direction in which the width is measured is brought to camera space by the matrix for normals, then
    transformed again by the matrix for points; the bound (lines 442, 456-459) transforms the axis once. With a turn and an uneven scale points stick
    out of the bound (`C70_width_violated`).
  - libs/core/geometry/points.cpp:399-418: `CopySplit` does not copy `m_MaxWidth` (`C70_deforming_violated`).
  - libs/core/geometry/points.cpp:848-873: each segment of a moving point overwrites the bounds of the one before (`C70_motion_bounds_violated`).
  - libs/core/geometry/points.cpp:485: positions are brought back with the transformation of time 0, but they were brought to the current space with that
    of the first key time (libs/core/api/ri.cpp:2186) (`C70_reference_violated`).
* **C71** Trim curves.
  - libs/core/geometry/trimcurve.cpp:25-28: for the start of the domain the span is the first one after it, also if that one is empty; 0/0 in line 66
    (`C71_eval_violated`).
  - libs/core/geometry/trimcurve.cpp:352-372: with a double knot at the start, `Clamp` removes as many knots as degrees, but the knots before the domain stay
    (`C71_clamp_violated`).
  - libs/core/geometry/trimcurve.cpp:189-190: a line along a curve does not intersect it (`C71_line_violated`).
  - libs/core/micropolygon.cpp:1623: samples are dropped only if the sense is not "outside" (`C71_mp_outside_violated`).
  - libs/core/micropolygon.cpp:799-835: the sense is applied although there are no curves (`C71_outside_no_loops_violated`); only corners and edges of a micropolygon
    are looked at, and the edges only if a corner is different (`C71_mp_hole_violated`, `C71_mp_island_violated`).
  - libs/core/api/ri.cpp:2787-2830: `min` and `max` are not used (`C71_read_range_violated`).
  - Not modelled: moving micropolygons are not trimmed (libs/core/micropolygon.cpp:1878-1883); the number of points per curve
    (libs/core/geometry/nurbs.cpp:1749-1788) is measured on control points without dividing by the weight.
* **C72** NURBS surfaces.
  - libs/core/geometry/nurbs.cpp:1101-1196: with a double knot at the start of the domain the surface is not clamped (`C72_clamp_violated`).
  - libs/core/geometry/nurbs.cpp:1349-1379: the bound is that of the projected points, which does not contain the surface if a weight is negative
    (`C72_bound_violated`).
  - libs/core/geometry/nurbs.cpp:1596 and 1605: if the surface may not be diced, the vertex variables are split in the u direction, the others in the
    direction of the last decision (`C72_dirs_violated`).
  - libs/core/geometry/nurbs.cpp:1951 and 1396: `umin`, `umax`, `vmin` and `vmax` only give the values of u and v; the surface that is drawn is always that of
    the whole knot vector (`C72_labels_violated`).
  - Not modelled: the pieces of `SubdivideSegments` have equal size in the parameters, but the varying variables belong to the segments between knots
    (libs/core/geometry/nurbs.cpp:2032ff); arrays of type hpoint get the same value for all entries (libs/core/geometry/nurbs.cpp:1451).
* **C73** Meshes of subdivision surfaces.
  - libs/core/geometry/subdivision2.cpp:1373-1376: if the fan is closed, its first lath is counted twice. One more lath at the vertex is then not noticed, the vertex stays shared by two
    fans and no error is reported (`C73_vertices_violated`).
  - libs/core/geometry/subdivision2.cpp:1382-1390: all laths that are moved to a new vertex get one face vertex, with the values of the lath that the search ended with, so that face varying values
    are lost (`C73_facevarying_violated`).
  - libs/core/geometry/subdivision2.cpp:1181: the indices of the vertices are not checked against the number of vertices.
* **C74** Masks of subdivision surfaces.
  - libs/core/geometry/subdivision2.cpp:498-539: `CornerSharpness` is not looked at on the boundary, so a vertex with a "corner" tag moves; `limitPoint` (lines 202-204) returns it unmoved, as its comment says
    (`C74_sharp_violated`). A patch next to such a vertex does not meet its own limit point.
  - libs/core/geometry/subdivision2.cpp:636: with fewer than two sharp edges `semiSharpPos` is computed from values that were already scaled for the smooth position. Its weight is then zero.
  - libs/core/geometry/subdivision2.cpp:188-191: limit points ignore creases.
* **C75** Subdividing facets.
  - libs/core/geometry/subdivision2.cpp:1581, subdivision2.h:130-137: `AddSharpCorner` is called for a new lath that is not linked yet, marks all of its `Qve`, and so marks also the lath at the middle of the
    next edge. That lath and the others at the same vertex then disagree about being a sharp corner (`C75_corner_violated`), and the surface depends on which facet is subdivided first
    (`C75_order_violated`: 35/4 or 567/64 for the same point).
  - libs/core/geometry/subdivision2.cpp:188-191: limit points of sharp edges are not those of their subdivision (`C75_limit_violated`); a comment says so.
* **C76** Calls of functions defined in a shader.
  - libs/slcomp/parse/parsenode.h:499-502, 566, 615: array elements and assignments inherit `IsVariableRef`, so `f(a[i])` passes the whole array (`C76_index_violated`, `C76_index_meaning_violated`) and
    `f(x = 3)` never makes the assignment (`C76_assign_violated`).
  - libs/slcomp/parse/optimise.cpp:81-95, libs/shadervm/shaderstack.h:265-279: `return v` leaves a reference to `v` on the stack, which the next call of the same function overwrites:
    `k(1) + k(2)` is 4 and not 6 (`C76_return_violated`, `C76_return_param_violated`). For the same reason operands are read late (`C76_order_violated`).
  - libs/slcomp/backend/codegenvm.cpp:79-105, libs/slcomp/parse/vardef.cpp:188-202: an `extern` of a parameter that was passed by reference is not translated (`C76_extern_violated`).
  - libs/slcomp/parse/parser.yy:990-1010: `return` need not be last, and the statements after it are executed (`C76_after_violated`).
* **C77** Names in shaders.
  - libs/slcomp/parse/vardef.cpp:121-136, include/aqsis/util/sstring.h:71-85: variables are compared by hash only; `Aa` and `BB` are the same variable (`C77_hash_violated`).
  - libs/slcomp/parse/parser.yy:776-799, scanner.ll:209-220: a declaration in a block of a name that is declared in a block or function around it gets the full name of the outer variable after its own
    scope and is not found again: `{ float x = 1; { float x = 2; Ci = x; } }` uses 1 (`C77_hide_violated`). In the same way a second function of one name inside of a function is never found (`C77_overload_violated`).
  - libs/slcomp/parse/parser.yy:2156: names of scopes are ambiguous: function `f1` as scope 1 and `f` as scope 11 are both `f11::` (`C77_scope_violated`).
* **C78** Types in shaders.
  - libs/slcomp/parse/typecheck.cpp:116, 167: a candidate without parameters is compared with the arguments by reading its list of types past its end; `shadername("surface")` does so (`C78_zero_ub`).
  - libs/slcomp/parse/typecheck.cpp:160-161, 235-236: what follows the parameters of a function with `...` is never checked, so `printf("%c", c * 2)` multiplies a color and a number as points and
    `min(1, 2, c)` reads a color as a number (`C78_dots_violated`).
  - libs/slcomp/backend/vmoutput.cpp:404-460, libs/shadervm/shadervm.cpp:95-232: `!` is written as `notf`, which the machine does not have (`C78_not_violated`); nor does it have comparisons of
    matrices, order of strings, or a conditional expression of matrices, which are all accepted (`C78_compare_violated`).
  - libs/slcomp/parse/parsenode.h:83-89, 1649-1693: a conditional expression says it has the type of its condition: `color (x > 0 ? c : d)` reads a color as a number, and `(x > 0 ? c1 : c2) * c3`
    is rejected (`C78_cond_violated`, `C78_reject_violated`).
  - libs/slcomp/parse/typecheck.cpp:499-500: `P = (c = x * x)` gets no conversion (`C78_assign_violated`).
* **C79** Compiled shaders.
  - libs/shadervm/shadervm.cpp:1318-1349: labels are put only into the main program, so a jump in the default of a parameter (a call of a function with `if`) goes to an address made of a number
    (`C79_init_violated`).
  - libs/shadervm/shadervm.cpp:906: names are cut off after 254 characters (`C79_name_violated`).
  - libs/slcomp/backend/vmoutput.cpp:478: infinite constants are written as `inf`, which is not read (`C79_infinite_violated`).
  - libs/shadervm/shadervm.cpp:1268-1270: a name that is not known is taken for the first variable (`C79_unknown_violated`).
  - libs/shadervm/shadervm.cpp:1456, 1468: the digits 8 and 9 are taken into octal escapes and lost (`C79_octal_violated`).
  - libs/shadervm/shadervm.cpp:1035-1054, 1360: a file that is cut off in a declaration or a string is read forever (`C79_cut_violated`).
  - libs/shadervm/shadervm.h:289-295: the variable number 32768 is taken for a standard variable (`C79_many_violated`).
  - libs/shadervm/shadervm.cpp:1332, 1508-1529: the jumps of a copy lead into the program of the original (`C79_clone_violated`).
  - libs/slcomp/backend/codegenvm.cpp:127, vmoutput.cpp:119-123: names of temporaries end with a zero, so the length of a temporary array is lost; `Good` has no such arrays.
* **C80** Quadrics.
  - libs/core/geometry/quadrics.cpp:360-363: `frad*(zmin<0)?-1:1` is -1 or 1 rather than plus or minus the radius, and `zmin` is checked twice but `zmax` never: a sphere of radius 2 with `zmin` -3 loses
    its lower part, and one with `zmax` above its radius has no numbers as angles (`C80_sphere_violated`).
  - libs/core/geometry/quadrics.cpp:1531: the plane is made with `P1 - T2`, a point minus a direction, so that tangents which do intersect are taken for parallel ones for some radii, and the point of the arc before is
    used (line 1468, 1391). A cylinder of radius √3/2 turned by -240 degrees (`C80_backwards_violated`) and a torus with radii 2√2 and 1 from 45 to 405 degrees (`C80_torus_violated`) are not within their bounds.
  - libs/core/geometry/quadrics.cpp:969-975: a paraboloid with `zmin` above `zmax` is wider than its bound (`C80_paraboloid_violated`).
* **C81** Normals of quadrics.
  - libs/core/geometry/quadrics.cpp:1060-1065: at the apex of a paraboloid the normals are (cos, sin, -1), neither perpendicular to the surface nor the same for all angles (`C81_apex_violated`).
  - libs/core/geometry/quadrics.cpp:489, 636, 765-768 against 911, 1339: with a negative angle the normals of disks and hyperboloids change sides, those of the others do not (`C81_backwards_violated`).
* **C82** Image buffers.
  - include/aqsis/tex/buffers/imagechannel.h:322-339: for integers of four bytes the largest value rounds up as a float, so 1.0 is converted to 2^32 (2^31 for signed ones) and the cast wraps: white is stored as black (`C82_long_violated`; the cast of a number out of range is undefined in C++, the model takes the lowest bits).
  - libs/tex/buffers/imagechannel.cpp:155-172: an enlarged source accepts heights and widths which are not multiples of the factor; then a row past the end of its source is read, and the last columns are not set (`C82_zoom_violated`). The class is not used in the repository.
* **C83** Conditions (libs/core/api/condition.cpp).
  - 249, 257: a string is equal to the word that is written if it occurs in it: "beaut" equals 'beauty', the empty string equals everything; a quoted string with a space is never equal (`C83_string_violated`).
  - 229-231: '!=' of a color holds only if all three components differ (`C83_triple_violated`).
  - 126-141, 238-242: words of 80 characters and more are written past the ends of arrays; 156-166: a first word with less than two names gives null pointers to strcmp and std::string (`C83_memory_violated`).
  - 152: relations are recognised by hashes, which other words share; 66-78: arithmetic of integers overflows (`C83_relation_violated`).
* **C84** The stack of the shader machine.
  - shadervariable.h:630-633, shadervm1.cpp:144-148: a varying value assigned to a uniform variable is that of point 0, although point 0 may not be running, so that it is what was left in a temporary (`C84_uniform_violated`). Conditional expressions always make varying values (shadervm1.cpp:196), so `uniform float u = -(c ? 1 : 2)` inside a varying `if` is concerned (`C84_uniform_cond_violated`).
  - shaderstack.h:286-295: `Pop` on an empty stack returns the bottom entry again, which is then released twice (`C84_underflow_violated`).
  - shadervm2.cpp:1072-1086: `init_illuminance2` does not release its second operand (`C84_lost_violated`).
* **C85** The command line parser.
  - argparse.cpp:259-271: after a counted option has its last argument the next argument is taken for an option without a look at its first character: `aqsis -res 640 480 avatar.rib` reads `-v atar.rib` and stops with an error (`C85_file_violated`); an empty argument is read past its end (`C85_empty_violated`).
  - argparse.cpp:805, 842, 876: the count goes on from 0 to -1, which means no limit, so that `-res=1 -res=2 -res=3 4 5` gives `-res` five values; too few are never noticed (`C85_count_violated`).
  - argparse.cpp:528-529 against argparse.h:178: counts are not set back by `reset`, so the second `parse` of the same arguments fails (`C85_again_violated`).
  - argparse.cpp:488: out-of-range integers are wrapped, not rejected: 4294967298 is 2 (`C85_int_violated`).
* **C87** Regions of textures.
  - samplequad.h:374-375: `SqSamplePllgram::scaleWidth` sets the second side from the first, already scaled one. With `swidth = twidth ≠ 1` every texture, latlong and cube lookup is filtered over a line (`C87_width_violated`).
  - samplequad.h:356-366: `SqSamplePllgram::remapPeriodic` moves along both axes if one is periodic: a texture that is periodic along s and black along t is repeated along t (`C87_periodic_violated`).
  - latlongenvironmentsampler.h:151: the constant 0.0001 is added to a length, not to a ratio, so that the blur depends on the length of the direction (`C87_latlong_blur_violated`).
* **C88** Levels of mipmaps.
  - mipmap.h: with `minwidth` 0 and no blur the minor axis is divided by 0 and the infinite logarithm converted to an integer, undefined behaviour (`C88_zero_violated`).
  - mipmap.h:443: the comment limits the filter on the last level to 20x20 pixels, the code uses 21, depending on the place of the support (`C88_last_violated`).
* **C89** Options of texture calls.
  - texturesampleoptions.h:555-558: `m_fill` is not given a value by the constructor. Channels a texture does not have are filled with an indeterminate value unless the call has `fill` (`C89_fill_violated`).
  - shadeops_tmap.cpp:285-290 and 349-350: `bias1` alone is a ramp from 0 as an option and no ramp in a call (`C89_bias_violated`); given twice in a call, its first value is the low bias (`C89_bias_twice_violated`).
  - texturesampleoptions.h:465, 471, 508, 514: negative blurs, unknown filters and negative channels of a shader are met by assertions only (`C89_allowed` has the exact condition).
* **C90** Gradient noise.
  - noise1234.cpp:187-188 and the like in more dimensions: the remainder of a negative index is negative, so the cells before 0 have hashes unlike the ones a period later; `pnoise(x, 4)` differs at -1/2 and 7/2 (`C90_pperiod_violated`).
  - noise1234.cpp:460: the factor 0.87 is too large: noise in four dimensions is 1.14 at (165.5, 36.5, 239.5, 32.5) and -1.03 at (146.5, 66.5, 216.5, 0.5), so that values of the shading language are not in 0 to 1 (`C90_range_violated`). The factors of the other dimensions are proved right (`C90_range_partial`).
* **C91** Colour spaces.
  - color.cpp:148 and 277 with matrix.h:717-750: `matrix * vector` has the vector on the left, so the rows of the matrices for YIQ are used as columns. White has luminance 1.107 and chrominance; luminance 1 is not white (`C91_yiq_violated`).
  - color.cpp:98-102: nearly equal components set the lightness to 0 where the saturation is meant, so each grey is black after a way through hsl (`C91_hsl_grey_violated`).
  - color.cpp:158 and 245: saturation 0 with a hue from 0 on fails an assertion, although any hue is allowed for greys (`C91_grey`).
  - color.cpp:171-203: hues below 0 or above 1 are in none of the six cases and give black in hsv (`C91_hue_violated`); hsl takes them a turn off.
  - color.cpp:130-139, 258-268: XYZ and xyY fail an assertion (`C91_cie_violated`).
  - color.cpp:55-58: colours with greatest component 0 and a negative one come back black (`C91_hsv_violated`); `C91_hsv_round` shows that there are no others.
* **C92** Quasi-random points. lowdiscrep.cpp:120: the range for picking bases starts from `m_Bases.size() - m_Dimensions`, which is 0 as the bases were just resized to the dimensions; the number of primes is meant. So the bases are always the first primes, and two dimensions always have bases 3 and 2; without dimensions line 131 counts down from 2³²-1 and swaps past the end, and 344 dimensions read past the table (`C92_bases_violated`).
* **C93** Particles on a mesh.
  - emitter.cpp:216-217: the triangles of a quadrilateral are vertices 0, 1, 2 and 1, 2, 3, which overlap; a fan from vertex 0 is meant. A kite of area 2 gets the particles of an area of 2.5 (`C93_quad_violated`); `C93_quad_partial` has the quadrilaterals where it does not matter.
  - emitter.cpp:246-262: faces with other numbers of vertices are skipped without assertions, but line 262 still goes through as many faces as `nverts` has, past the end (`C93_faces_violated`); the start of the next face is not moved either.
* **C94** Child hairs.
  - parenthairs.cpp:229-230: the correction is taken from `P` of the child, which the loop changes itself; once `P` is moved the correction is 0, so variables of points after `P` in the list stay where they are (`C94_points_violated`), and those before it are moved (`C94_points_partial`).
  - parenthairs.cpp:251-257, 298: clumping weighs by the index of the point from 0, also for cubic hairs with the root at index 1 (line 87), so their roots leave the surface (`C94_clump_violated`).
  - parenthairs.cpp:336-346: if all nearest parents are at the place of the child, weights are zero by zero (`C94_parents_violated`).
* **C95** Views of shadow maps.
  - shadowsampler.cpp:309-311 says that a view is the less likely to be chosen the more the point is in its periphery. The weight is the depth for the light, not the cosine, so with lights at different places a farther light that sees the point at more than 60 degrees is taken instead of one that has it on its axis (`C95_periphery_violated`); for lights at one place the comment holds (`C95_axis_partial`).
  - shadowsampler.cpp:229-230 and 262: the corners of the region are scaled by the filter's width in the texture but keep their depths, so with a width of 2 the surface is taken for half as steep (`C95_depth_violated`); with width 1 the depth is exact (`C95_depth_partial`).
* **C96** tilearray.h:686-688 notes that the scheme is biased toward later tiles. The number of samples of a tile, on the average of its own random number, is just its share of the samples that remain (`C96_average`), so no bias of the means is there.
* **C97** Pieces of curves.
  - linearcurves.cpp:584-587 steps over a last vertex even of a curve without vertices; all the curves after it that are not periodic are shifted by one vertex (`C97_linear_violated`).
  - cubiccurves.cpp:603: with three vertices and steps of three the quotient `(3-4)/3` is zero, so there is one piece, closed with the first vertex as its fourth (`C97_cubic_violated`).
  - cubiccurves.cpp:101-110, 170-172, linearcurves.cpp:80-82 take the first numbers stored as those of the vertices whatever the length of arrays; matrices are not split, integers are rounded (`C97_halves_violated`).
* **C98** Ribbons of curves.
  - linearcurves.cpp:259-262 divide by the length of the product of normal and direction without a look whether it is zero; a straight piece along its normal gets corners that are not numbers (`C98_linear_violated`). The code for cubic pieces uses `Unit`, which leaves zero alone.
  - cubiccurves.cpp:410-411 take the normal of the end by index 1 whatever the class of `N`: with normals at the four vertices it is that of the second one, with a single one there is none (`C98_normals_violated`).
* **C99** Cell noise.
  - cellnoise.cpp:93 has `TqFloat y = P.x();` in `FCellNoise3`: `cellnoise(point)` as a float does not depend on the second coordinate (`C99_second_violated`); `PCellNoise3` is right.
  - cellnoise.cpp:60-61 and the like subtract one of all negative numbers before the conversion, so that -1 is in the cell from -2 to -1 instead of that from -1 to 0 (`C99_integers_violated`).
* **C100** The camera.
  - options.cpp:136-139 chooses the side of the frame that fills the raster by the ratio being at least one, not by comparing it with the ratio of the raster: 640 x 480 with the ratio 1 makes a frame of 640 x 640 (`C100_frame_violated`). The specification of RenderMan lets the frame fit into the display area.
  - options.cpp:72-73 and 96-97: the near plane of clipping is at the depth -1 in an orthographic and at 0 in a perspective projection (`C100_depth_violated`).
* **C101** Functions of the shading language.
  - shadeops_deriv.cpp:1292-1294: `filterstep(edge, s1, s2)` puts an interval of the width s2 - s1 around s1 instead of taking the interval from s1 to s2, and turns the step round if s2 < s1; where the filter has no width both forms divide by zero (`C101_filterstep_violated`).
  - shadeops_math.cpp:454-456: `mod` adds the divisor to a negative rest even if the divisor is negative: mod(-1, -3) is -4 (`C101_mod_violated`).
  - shadeops_math.cpp: `log(x, 1)` and `pow(0, y)` with y < 0 divide by zero, and `pow(-1, 2^31)` is zero because the exponent is converted to a `TqInt` (`C101_domain_violated`).
  - shadeops_deriv.cpp:723-750: `faceforward(N, I)` also turns N to the side of Ng, so that it is not `faceforward(N, I, Ng)` (`C101_faceforward_violated`).
* **C102** Reflection and refraction.
  - shadeops_illum.cpp:258-272: `fresnel` does not turn the normal to the eye; if it points away the cosine is negative and `Kr` is above one (9 for eta = 1/2), `Kt` negative. For a vector in the surface and eta = 1 it divides zero by zero (`C102_fresnel_violated`).
* **C103** Lights.
  - shadeops_illum.cpp:450-473, 538-561: the temporary variable for `__nondiffuse` (`__nonspecular`) is made once and not reset; `GetVariableValue` leaves it as it is for a light without the variable, so that all such lights after one that sets it are left out (`C103_diffuse_violated`, `C103_specular_violated`).
  - shadeops_illum.cpp:792: the second argument of `substr` is the place of the comma instead of a length, so that only the first and the last name of `__category` are found (`C103_categories_violated`).
  - shadeops_illum.cpp:786-800: for a category with `-` in front nothing sets `exec`, so that every light with categories is left out (`C103_exclusion_violated`).
  - shadeops_illum.cpp:830-839: the axis is used as it is; if it is longer than one unit the cone is too wide (`C103_axis_violated`).
* **C104** Micro buffers.
  - microbuf_proj_func.cpp:184: the loop goes from `Face_begin` up to `Face_begin`, so that `renderDiskExact` draws nothing (`C104_faces_violated`).
  - microbuf_proj_func.cpp:199-200: a disk whose middle is behind the face and whose normal is near that of the face is left out before it is tested whether it reaches in front of the face; a large one does (`C104_disk_violated`).
  - microbuf_proj_func.cpp:448-451: `int(...) + 1` rounds towards zero, so that a square that ends between -1 and 0 covers the first pixels by a negative amount (`C104_coverage_violated`).
* **C105** Layered shaders.
  - shaders.h:155-158: the copy constructor copies nothing, so that what `Clone` gives has no layers (`C105_clone_violated`).
  - shaders.h:277-281 and shadervm.h:168-172: `Uses( Var )` calls itself without end (`C105_usesVar_violated`).
  - shaders.h:147: `m_Uses` starts with all bits set, so that gathering the bits of the layers has no effect (`C105_uses_violated`).
* **C106** Text.
  - shadeops_text.cpp:49-50, 104-107: for a `%` at the end of the format the character after the end is read and added (`C106_end_violated`).
  - shadeops_text.cpp:55, 65, 75, 85, 99: the number of arguments is not looked at; a format that asks for more reads beyond them (`C106_missing`).
  - shadeops_text.cpp:319: with uniform pattern and text the result is set at all points, also those that are not running (`C106_match_violated`). The virtual machine gives a uniform result in that case.
* **C107** Differences.
  - derivatives.h:194-197: one-sided differences are multiplied by 0.5, though the comments (38, 299) say `Y[i+1] - Y[i]`; with constant shading or two points all derivatives are half the slope and areas a quarter (`C107_half_violated`).
  - derivatives.h:194-195: with one point along a side, the value before it is read, which is outside the grid for the first point (`C107_single_violated`).
* **C108** Tree of surfels: an empty cloud fails the assertion at DiffusePointOctree.cpp:168 (first case of `C108_build`). The crude normal of an inner node sums the already normalised normals of its children, so it is not the direction of the sum over the surfels; the property states only its length.
* **C109** Walk over the tree: microbuf_proj_func.cpp:538-548 keeps the points of a leaf in an array of eight and asserts that there are no more, but leaves at the greatest depth may have any number (DiffusePointOctree.cpp:183); nine surfels at the same place fail the assertion, and overrun the array without it (`C109_deep_violated`).
* **C110** Filters of pixels.
  - filters.cpp:47-59: `x / xwidth` is at most 1/2 in the window, so that only the middle part of the cubic of Mitchell is used: no negative part, and at the edge a sixteenth of the middle instead of zero (`C110_mitchell_violated`).
  - filters.cpp:248-266: the window of the sinc filter should be the positive half of a cosine, but it is zero only at twice the distance of the edge (`C110_sinc_violated`).
* **C111** Sums of light: RadiosityIntegrator.cpp:85-88 does not check for negative coverage, which microbuf_proj_func.cpp:459-464 may give (C104); the light of the pixel then gets negative (`C111_negative_violated`).
* **C112** BMP files: d_sdcBMP.cpp:438-443 takes the last three channels for red, green and blue, but ddmanager.cpp:476-481 puts the depth, and 540-545 the fourth part of a variable, after them (`C112_last_violated`); two channels give black (`C112_two_violated`); line 456 never writes the bytes that fill up the top row, so the file is shorter than `bfSize` unless the width is a multiple of four (`C112_length_violated`); lines 68-69 and 74-75 use `long`, so that with eight-byte longs the second header has 64 bytes instead of 40 (`C112_header_violated`).
* **C57** Depth of field.
  - libs/core/bucketprocessor.cpp:858-913: the bound of a lens cell is that of its corners, corrected for cells that straddle
    an axis. It is too small for an odd number of samples (`C57_cells_violated`: 3 × 3) and for different numbers in x and y
    (`C57_oblong_violated`: 2 × 4).
  - libs/core/bucketprocessor.cpp:1321-1330: the bound of a micropolygon is moved by the greatest circle of confusion times
    the bound of the cell. If the cell does not touch the axes (more than 2 × 2 samples) and the micropolygon is not parallel
    to the image, the vertices with smaller circles of confusion move less, and leave the bound; samples that are covered
    there are not found (`C57_tilted_violated`).
* **C56** Moving micropolygons.
  - libs/core/micropolygon.cpp:669-673, 701, 844: the map from key times to indices gets the index within the times of the
    object, then of the camera. With different times two keys share an index, and one gets the points of the other
    (`C56_keys_violated`: object at 0 and 1, camera at 0 and 1/2).
  - libs/core/micropolygon.cpp:1731-1734: beyond the last key (and before the first) the bounds extrapolate, the samples do
    not (1774-1791). Objects moving for a part of the shutter time vanish in the rest (`C56_outside_violated`).
  - libs/core/micropolygon.cpp:1700-1705: a first key of size zero divides by zero and converts the result to an integer
    (`C56_divisions_violated`).
  - libs/core/bucketprocessor.cpp:1280-1281, 1387: both ends of a division are included, a sample at the boundary is stored
    twice (`C56_once_violated`).
  - libs/core/bucketprocessor.cpp:1280-1281 assume stratified times; the regular sampler sets all times to the opening of
    the shutter (`C56_grid_violated`).
  - libs/core/bucketprocessor.cpp:1246, 1281, 1379: `lceil` of a rounded product can be one more than the number of samples,
    and `SampleData` is read behind the last one (`C56_rounding_violated`: 3 × 3 samples, shutter from 0 to 0.281, for any
    rounding to nearest).
  - libs/core/micropolygon.cpp:1681-1684: the orientation is that of the first key (`C56_order_violated`).
* **C51** A matte object scales the opacity behind it by its colour instead of its opacity (imagepixel.cpp:209-213); with MatteAlpha
  objects the result depends on the order of rendering; depth filter midpoint takes a farther surface for the second one depending on
  the order; average divides by zero when no hit reaches the threshold; a surface without the output variable shows a hidden one's value.
* **C52** The filter area is rounded up to whole pixels but the pixels looked at are rounded down: with width 3/2 the
  neighbours are ignored (bucketprocessor.cpp:36, 412); alpha is mean opacity times coverage, so coverage counts twice (line 704);
  missed samples count as depth zero (line 621); coverage counts hits of the whole filter area, so a pixel beside an object is fully covered.
* **C55** `CqRandom( Seed )` ignores the seed (random.cpp:173-174) and all instances share one state, so `CqRandom random( 42 )` in
  multijitter.cpp:85 and `random( 61 )` in ddmanager.cpp:148 do not start a sequence of their own (`C55_constructor`).
* **C54** grid.cpp:52 divides the integers `1/nSamples`, so with more than one sample per pixel all samples of the regular grid have
  time and level of detail 0: `Hider "hidden" "jitter" [0]` turns motion blur off (`C54_grid_times_violated`).
* **C53** The comment at micropolygon.cpp:1308-1312 (a sample on an edge is on exactly one side) holds between micropolygons of one
  grid and orientation only: with a short side (micropolygon.cpp:1226-1261) the kept triangle loses the edge its neighbour relies on, and
  grids that meet with opposite parameters both drop or both take the common edge. The loop bounds leave out a sample lying exactly on the
  lower boundary of its subpixel and on the upper edge of the bound (bucketprocessor.cpp:1137-1138). Two Newton steps give a depth beyond
  all vertices for a strongly tapered micropolygon; `solve<true>` divides by zero for some micropolygons with a short side (bilinear.h:282).

## What is and is not modelled

Modelled: RIB reading and writing (buffer, tokenizer, lexer, parser loop, binary and ASCII formatters), the RIB filter chain,
primvar declarations, parts of `util` (enums, bit vectors, search paths, lists, pools), parts of `core` (occlusion, CSG, thread
scheduler, channel buffers, patch meshes, curves, polygons, bicubic, bilinear and NURBS surfaces, trim curves, points, primitive variables,
attributes, transforms, buckets, hit test, motion, depth of field, samples, pixel filtering, display output), of `aqsis_math` (random numbers, matrices, splines) and of `tex` (regions, tiles, wrapping, accumulation, mipmaps, file type).
Also modelled: subdivision meshes (C73-C75), quadrics (C80, C81) and, of the shader compiler and the virtual machine, control flow on varying values, calls, scopes, types, the file format and the stack with its temporaries (C50, C76-C79, C84).
Not modelled: the parser of the shading language, the operations of the virtual machine on values, shading and lighting, file formats other than RIB and compiled shaders, the display drivers,
the GUI tools; floating point rounding except where an entry above says so.

<!-- AXIOMS -->
## Axioms per theorem

As printed by `#print axioms`, grouped by the result.

**none**

* C06: `Verif.Rib.C06_octal_violated`
* C105: `Verif.Shader.Layers.C105_usesVar_violated`
* C106: `Verif.Shader.Text.C106_match_violated`
* C112: `Verif.Tools.Bmp.C112_header_violated`
* C13: `Verif.Riutil.C13_malformed_violated`
* C19: `Verif.Filter.Frames.C19_malformed_violated`, `Verif.Filter.Frames.C19_overflow_violated`, `Verif.Filter.Frames.C19_range_end_violated`
* C23: `Verif.Util.Enum.C23_tables_distinct`
* C32: `Verif.Core.ChannelBuffer.C32_unknown_violated`
* C37: `Verif.Riutil.Counts.C37_negative_violated`, `Verif.Riutil.Counts.C37_overflow_violated`
* C43: `Verif.Core.Mesh.C43_cubic_violated`, `Verif.Core.Mesh.C43_linear_violated`
* C72: `Verif.Geom.Nurbs.C72_dirs_partial`, `Verif.Geom.Nurbs.C72_dirs_violated`
* C88: `Verif.Tex.Level.C88_last_violated`

**propext**

* C105: `Verif.Shader.Layers.C105_clone_violated`
* C12: `Verif.Rib.C12_single_param`
* C20: `Verif.Filter.Frames.C20_tee_same`, `Verif.Filter.Frames.C20_tee_in_step`
* C21: `Verif.Filter.Validate.C21_rejected_unchanged`, `Verif.Filter.Validate.C21_relaxed_outer`, `Verif.Filter.Validate.C21_stray_archive_end_violated`, `Verif.Filter.Validate.C21_geometry_outside_world_violated`, `Verif.Filter.Validate.C21_archive_attributes_violated`
* C23: `Verif.Util.Enum.C23_channel_names_violated`
* C26: `Verif.Util.IList.C26_violated`
* C27: `Verif.Util.Pool.C27_aligned`, `Verif.Util.Pool.C27_large_violated`, `Verif.Util.Pool.C27_aligned_violated`, `Verif.Util.Pool.C27_link_violated`
* C30: `Verif.Core.Csg.C30_empty_violated`
* C32: `Verif.Core.ChannelBuffer.C32_again_violated`
* C42: `Verif.Core.Mesh.C42_bicubic_violated`, `Verif.Core.Mesh.C42_bilinear_violated`
* C43: `Verif.Core.Mesh.C43_negative_violated`
* C55: `Verif.Math.Random.C55_constructor`
* C62: `Verif.Geom.Primvar.C62_load_uniform_array_violated`, `Verif.Geom.Primvar.C62_set_value_violated`, `Verif.Geom.Primvar.C62_split_uniform`, `Verif.Geom.Primvar.C62_split_vertex_array_violated`, `Verif.Geom.Primvar.C62_transform_violated`
* C65: `Verif.Geom.Polygon.C65_mesh_violated`
* C66: `Verif.Core.Cull.C66_encapsulate`
* C67: `Verif.Core.Lod.C67_request`
* C68: `Verif.Math.Spline.C68_names`
* C69: `Verif.Core.Display.C69_scanline_crop_violated`, `Verif.Core.Display.C69_channels_partial`, `Verif.Core.Display.C69_channels_violated`
* C70: `Verif.Geom.Points.C70_split`, `Verif.Geom.Points.C70_uniform_violated`
* C73: `Verif.Geom.Lath.C73_facevarying_violated`
* C77: `Verif.Shader.Scope.C77_lookahead`, `Verif.Shader.Scope.C77_hash_violated`, `Verif.Shader.Scope.C77_hide_violated`, `Verif.Shader.Scope.C77_scope_violated`, `Verif.Shader.Scope.C77_overload_violated`
* C78: `Verif.Shader.Types.C78_zero_ub`, `Verif.Shader.Types.C78_dots_violated`, `Verif.Shader.Types.C78_not_violated`, `Verif.Shader.Types.C78_cond_violated`, `Verif.Shader.Types.C78_assign_violated`, `Verif.Shader.Types.C78_compare_violated`, `Verif.Shader.Types.C78_reject_violated`, `Verif.Shader.Types.C78_hpoint_partial`, `Verif.Shader.Types.C78_compare`
* C85: `Verif.Util.Args.C85_leftovers`
* C94: `Verif.Tools.Hairs.C94_storage`

**propext, Classical.choice, Quot.sound**

* C01: `Verif.Rib.C01_input_transparent`, `Verif.Rib.C01_read_all`
* C02: `Verif.Rib.C02_positions_partial`, `Verif.Rib.C02_line_numbers_violated`
* C03: `Verif.Rib.C03_binary_int`
* C04: `Verif.Rib.C04_binary_float`, `Verif.Rib.C04_binary_string`, `Verif.Rib.C04_binary_float_array`
* C05: `Verif.Rib.C05_binary_stream`, `Verif.Rib.C05_binary_stream_255`
* C06: `Verif.Rib.C06_ascii_string_partial`, `Verif.Rib.C06_ascii_string_violated`, `Verif.Rib.C06_escapes_partial`
* C07: `Verif.Rib.C07_ascii_int_partial`, `Verif.Rib.C07_int_min_violated`, `Verif.Rib.C07_ascii_text`
* C08: `Verif.Rib.C08_decimal_literal_partial`, `Verif.Rib.C08_value_exact`, `Verif.Rib.C08_small_integer_valued_exact`
* C09: `Verif.Rib.C09_scan_terminates`, `Verif.Rib.C09_reaches_eof`
* C100: `Verif.Core.Camera.C100_pixels`, `Verif.Core.Camera.C100_frame_partial`, `Verif.Core.Camera.C100_frame_violated`, `Verif.Core.Camera.C100_image`, `Verif.Core.Camera.C100_raster`, `Verif.Core.Camera.C100_depth_partial`, `Verif.Core.Camera.C100_depth_violated`, `Verif.Core.Camera.C100_vectors`, `Verif.Core.Camera.C100_dof`
* C101: `Verif.Shader.Arith.C101_steps`, `Verif.Shader.Arith.C101_clamp`, `Verif.Shader.Arith.C101_filterstep_partial`, `Verif.Shader.Arith.C101_filterstep_violated`, `Verif.Shader.Arith.C101_mod_partial`, `Verif.Shader.Arith.C101_mod_violated`, `Verif.Shader.Arith.C101_round`, `Verif.Shader.Arith.C101_domain_partial`, `Verif.Shader.Arith.C101_domain_violated`, `Verif.Shader.Arith.C101_faceforward`, `Verif.Shader.Arith.C101_faceforward_violated`, `Verif.Shader.Arith.C101_normalize`
* C102: `Verif.Shader.Optics.C102_reflect`, `Verif.Shader.Optics.C102_refract`, `Verif.Shader.Optics.C102_fresnel`, `Verif.Shader.Optics.C102_fresnel_straight`, `Verif.Shader.Optics.C102_fresnel_violated`, `Verif.Shader.Optics.C102_depth`, `Verif.Shader.Optics.C102_highlight`
* C103: `Verif.Shader.Lights.C103_visits`, `Verif.Shader.Lights.C103_ambient`, `Verif.Shader.Lights.C103_illuminance_partial`, `Verif.Shader.Lights.C103_everywhere`, `Verif.Shader.Lights.C103_axis_violated`, `Verif.Shader.Lights.C103_diffuse_partial`, `Verif.Shader.Lights.C103_specular_partial`, `Verif.Shader.Lights.C103_phong`, `Verif.Shader.Lights.C103_off`, `Verif.Shader.Lights.C103_diffuse_violated`, `Verif.Shader.Lights.C103_specular_violated`, `Verif.Shader.Lights.C103_categories_partial`, `Verif.Shader.Lights.C103_categories_violated`, `Verif.Shader.Lights.C103_exclusion_violated`, `Verif.Shader.Lights.C103_illuminate_partial`, `Verif.Shader.Lights.C103_pointlight`, `Verif.Shader.Lights.C103_solar`, `Verif.Shader.Lights.C103_first`, `Verif.Shader.Lights.C103_calculatenormal`
* C104: `Verif.Point.C104_coords_direction`, `Verif.Point.C104_direction_coords`, `Verif.Point.C104_face`, `Verif.Point.C104_neighbours`, `Verif.Point.C104_slots`, `Verif.Point.C104_pixelSize`, `Verif.Point.C104_cone`, `Verif.Point.C104_cone_point`, `Verif.Point.C104_quadratic`, `Verif.Point.C104_disk_partial`, `Verif.Point.C104_disk_violated`, `Verif.Point.C104_faces_violated`, `Verif.Point.C104_coverage_partial`, `Verif.Point.C104_coverage_violated`, `Verif.Point.C104_occlusion`, `Verif.Point.C104_occlusion_bounds`
* C105: `Verif.Shader.Layers.C105_map`, `Verif.Shader.Layers.C105_layers`, `Verif.Shader.Layers.C105_uses_violated`, `Verif.Shader.Layers.C105_order`, `Verif.Shader.Layers.C105_connection`, `Verif.Shader.Layers.C105_flow`
* C106: `Verif.Shader.Text.C106_printf`, `Verif.Shader.Text.C106_format`, `Verif.Shader.Text.C106_concat`
* C107: `Verif.Shader.Deriv.C107_centred`, `Verif.Shader.Deriv.C107_onesided_partial`, `Verif.Shader.Deriv.C107_half_violated`, `Verif.Shader.Deriv.C107_single_violated`, `Verif.Shader.Deriv.C107_none`, `Verif.Shader.Deriv.C107_Du`, `Verif.Shader.Deriv.C107_Dv`, `Verif.Shader.Deriv.C107_undefined`, `Verif.Shader.Deriv.C107_deriv`, `Verif.Shader.Deriv.C107_area`
* C108: `Verif.Point.Octree.C108_points`, `Verif.Point.Octree.C108_boxes`, `Verif.Point.Octree.C108_split`, `Verif.Point.Octree.C108_build`, `Verif.Point.Octree.C108_sphere`, `Verif.Point.Octree.C108_agg`, `Verif.Point.Octree.C108_normal`
* C109: `Verif.Point.Walk.C109_stack`, `Verif.Point.Walk.C109_shown`, `Verif.Point.Walk.C109_crude`, `Verif.Point.Walk.C109_fine`, `Verif.Point.Walk.C109_leaf`, `Verif.Point.Walk.C109_node`, `Verif.Point.Walk.C109_deep_violated`
* C11: `Verif.Rib.C11_ascii_nested_transparent`, `Verif.Rib.C11_lookahead`, `Verif.Rib.C11_token_position`
* C110: `Verif.Core.PixelFilters.C110_even`, `Verif.Core.PixelFilters.C110_alike`, `Verif.Core.PixelFilters.C110_gaussian`, `Verif.Core.PixelFilters.C110_box`, `Verif.Core.PixelFilters.C110_triangle`, `Verif.Core.PixelFilters.C110_disk`, `Verif.Core.PixelFilters.C110_catmull`, `Verif.Core.PixelFilters.C110_mitchell_partial`, `Verif.Core.PixelFilters.C110_mitchell_violated`, `Verif.Core.PixelFilters.C110_sinc`, `Verif.Core.PixelFilters.C110_sinc_violated`, `Verif.Core.PixelFilters.C110_bessel`
* C111: `Verif.Point.Radiosity.C111_pixel_partial`, `Verif.Point.Radiosity.C111_between`, `Verif.Point.Radiosity.C111_hidden`, `Verif.Point.Radiosity.C111_negative_violated`, `Verif.Point.Radiosity.C111_mean`, `Verif.Point.Radiosity.C111_bounds`, `Verif.Point.Radiosity.C111_none`
* C112: `Verif.Tools.Bmp.C112_align`, `Verif.Tools.Bmp.C112_places`, `Verif.Tools.Bmp.C112_row`, `Verif.Tools.Bmp.C112_picture_partial`, `Verif.Tools.Bmp.C112_last_violated`, `Verif.Tools.Bmp.C112_two_violated`, `Verif.Tools.Bmp.C112_length_violated`, `Verif.Tools.Bmp.C112_buffer`
* C12: `Verif.Rib.C12_param_list`
* C13: `Verif.Riutil.C13_grammar_partial`, `Verif.Riutil.C13_type_grammar`, `Verif.Riutil.C13_round_trip`
* C14: `Verif.Riutil.C14_lookup`, `Verif.Riutil.C14_other_names`
* C15: `Verif.Filter.C15_conditionals_partial`, `Verif.Filter.C15_nested_violated`
* C16: `Verif.Filter.C16_filter_meets_spec_partial`, `Verif.Filter.C16_archive_replays`
* C17: `Verif.Filter.C17_object_replays`
* C19: `Verif.Filter.Frames.C19_terminates`, `Verif.Filter.Frames.C19_list_denotes`, `Verif.Filter.Frames.C19_rejects_bad_characters_partial`, `Verif.Filter.Frames.C19_grammar_partial`
* C21: `Verif.Filter.Validate.C21_accepts_iff_partial`, `Verif.Filter.Validate.C21_open_blocks_partial`, `Verif.Filter.Validate.C21_block_restores_attributes_partial`
* C22: `Verif.Filter.Cache.C22_param_list`
* C23: `Verif.Util.Enum.C23_value_from_string`, `Verif.Util.Enum.C23_round_trip`, `Verif.Util.Enum.C23_stream_round_trip`
* C24: `Verif.Util.Bits.C24_set_value`, `Verif.Util.Bits.C24_toggle`, `Verif.Util.Bits.C24_set_all`, `Verif.Util.Bits.C24_complement`, `Verif.Util.Bits.C24_pointwise_partial`, `Verif.Util.Bits.C24_assign`, `Verif.Util.Bits.C24_count`, `Verif.Util.Bits.C24_new`
* C25: `Verif.Util.SearchPath.C25_expand`, `Verif.Util.SearchPath.C25_terminates_iff`, `Verif.Util.SearchPath.C25_terminates_violated`
* C26: `Verif.Util.IList.C26_link_before_partial`, `Verif.Util.IList.C26_step`, `Verif.Util.IList.C26_history`
* C27: `Verif.Util.Pool.C27_history`, `Verif.Util.Pool.C27_alloc`, `Verif.Util.Pool.C27_default`, `Verif.Util.Pool.C27_no_leak`
* C28: `Verif.Core.Occlusion.C28_cull`, `Verif.Core.Occlusion.canCull_iff`
* C29: `Verif.Core.Occlusion.C29_distinct`, `Verif.Core.Occlusion.C29_place`, `Verif.Core.Occlusion.leafBox_cell`
* C30: `Verif.Core.Csg.C30_partial`
* C31: `Verif.Core.Scheduler.C31_account`, `Verif.Core.Scheduler.C31_few_partial`, `Verif.Core.Scheduler.C31_completes_partial`, `Verif.Core.Scheduler.C31_terminates`, `Verif.Core.Scheduler.C31_stuck`, `Verif.Core.Scheduler.C31_wakeup_violated`
* C32: `Verif.Core.ChannelBuffer.C32_history_partial`, `Verif.Core.ChannelBuffer.C32_access`, `Verif.Core.ChannelBuffer.C32_again_partial`
* C33: `Verif.Tex.Tile.C33_visit`
* C34: `Verif.Tex.C34_intersect1`, `Verif.Tex.C34_intersect`, `Verif.Tex.C34_truncate`, `Verif.Tex.C34_empty1`, `Verif.Tex.C34_empty`, `Verif.Tex.C34_inRange1_partial`, `Verif.Tex.C34_inRange_partial`, `Verif.Tex.C34_intersectsRange1_partial`, `Verif.Tex.C34_intersectsRange_partial`, `Verif.Tex.C34_area_partial`, `Verif.Tex.C34_area_violated`
* C35: `Verif.Tex.Mipmap.C35_written_ends`, `Verif.Tex.Mipmap.C35_reader_partial`, `Verif.Tex.Mipmap.C35_reader_violated`, `Verif.Tex.Mipmap.C35_transform`, `Verif.Tex.Mipmap.C35_conversion`
* C36: `Verif.Tex.Magic.C36_guess`, `Verif.Tex.Magic.C36_exclusive`, `Verif.Tex.Magic.C36_prefix`
* C37: `Verif.Riutil.Counts.C37_bilinear`, `Verif.Riutil.Counts.C37_bicubic_partial`, `Verif.Riutil.Counts.C37_cubic_partial`, `Verif.Riutil.Counts.C37_bicubic_violated`, `Verif.Riutil.Counts.C37_cubic_violated`
* C38: `Verif.Util.SearchPath.C38_candidates`
* C39: `Verif.Rib.C39_ascii_stream`
* C40: `Verif.Tex.Wrap.C40_sound`, `Verif.Tex.Wrap.C40_complete_partial`, `Verif.Tex.Wrap.ok_of_tiles`, `Verif.Tex.Wrap.C40_mixed_violated`, `Verif.Tex.Wrap.C40_trunc_violated`
* C41: `Verif.Tex.Accum.C41_accum`, `Verif.Tex.Accum.C41_constant`, `Verif.Tex.Accum.C41_between`, `Verif.Tex.Accum.C41_pcf_unit`, `Verif.Tex.Accum.C41_pcf_mono`, `Verif.Tex.Accum.C41_cached_partial`, `Verif.Tex.Accum.C41_cached_bound`, `Verif.Tex.Accum.C41_cached_violated`, `Verif.Tex.Accum.C41_cached_zero_violated`, `Verif.Tex.Accum.C41_pcf_value`
* C42: `Verif.Core.Mesh.C42_bicubic_partial`, `Verif.Core.Mesh.C42_bilinear_partial`
* C43: `Verif.Core.Mesh.C43_cubic_partial`, `Verif.Core.Mesh.C43_cubic_count`, `Verif.Core.Mesh.C43_linear_partial`, `Verif.Core.Mesh.C43_linear_count`, `Verif.Core.Mesh.cubicCount_spec`, `Verif.Core.Mesh.linearCount_spec`
* C44: `Verif.Tex.Accum.C44_size`, `Verif.Tex.Accum.C44_pixel_partial`, `Verif.Tex.Accum.C44_constant_partial`, `Verif.Tex.Accum.C44_mixed_violated`
* C45: `Verif.Core.Buckets.C45_tiles`, `Verif.Core.Buckets.C45_region_partial`, `Verif.Core.Buckets.C45_order_partial`, `Verif.Core.Buckets.C45_crop`, `Verif.Core.Buckets.C45_empty_crop_violated`
* C46: `Verif.Core.Buckets.C46_visits_partial`, `Verif.Core.Buckets.C46_repost_forward`, `Verif.Core.Buckets.C46_cull`, `Verif.Core.Buckets.C46_undiceable_violated`
* C47: `Verif.Core.Buckets.C47_samples`, `Verif.Core.Buckets.C47_once`, `Verif.Core.Buckets.C47_exact_partial`
* C48: `Verif.Core.BucketCache.C48_completes_partial`, `Verif.Core.BucketCache.C48_filter_partial`, `Verif.Core.BucketCache.C48_once_partial`, `Verif.Core.BucketCache.C48_wide_filter_violated`
* C49: `Verif.Rib.C49_integers`, `Verif.Rib.C49_fixed_point`, `Verif.Rib.C49_floats`
* C50: `Verif.Shader.Simd.C50_agrees`, `Verif.Shader.Simd.C50_diverges`
* C51: `Verif.Core.Samples.C51_valid`, `Verif.Core.Samples.C51_colour_partial`, `Verif.Core.Samples.C51_opacity_partial`, `Verif.Core.Samples.C51_order_partial`, `Verif.Core.Samples.C51_min_depth`, `Verif.Core.Samples.C51_max_depth`, `Verif.Core.Samples.C51_average_depth_partial`, `Verif.Core.Samples.C51_extra_partial`, `Verif.Core.Samples.C51_midpoint_partial`, `Verif.Core.Samples.C51_matte_opacity_violated`, `Verif.Core.Samples.C51_matte_alpha_violated`, `Verif.Core.Samples.C51_midpoint_violated`, `Verif.Core.Samples.C51_extra_violated`, `Verif.Core.Samples.C51_average_violated`
* C52: `Verif.Core.FilterBucket.C52_total`, `Verif.Core.FilterBucket.C52_mean_partial`, `Verif.Core.FilterBucket.C52_blank`, `Verif.Core.FilterBucket.C52_constant`, `Verif.Core.FilterBucket.C52_range`, `Verif.Core.FilterBucket.C52_alpha_partial`, `Verif.Core.FilterBucket.C52_coverage_partial`, `Verif.Core.FilterBucket.C52_expose`, `Verif.Core.FilterBucket.C52_alpha_violated`, `Verif.Core.FilterBucket.C52_depth_violated`, `Verif.Core.FilterBucket.C52_coverage_violated`, `Verif.Core.FilterBucket.C52_reach_violated`
* C53: `Verif.Core.HitTest.C53_order`, `Verif.Core.HitTest.C53_patch_left`, `Verif.Core.HitTest.C53_patch_right`, `Verif.Core.HitTest.C53_hull`, `Verif.Core.HitTest.C53_triangle_partial`, `Verif.Core.HitTest.C53_grid_partial`, `Verif.Core.HitTest.C53_grid_right_partial`, `Verif.Core.HitTest.C53_neighbours`, `Verif.Core.HitTest.C53_neighbours_above`, `Verif.Core.HitTest.C53_shared_edge`, `Verif.Core.HitTest.C53_lattice`, `Verif.Core.HitTest.C53_bound`, `Verif.Core.HitTest.C53_render_sound`, `Verif.Core.HitTest.C53_render_partial`, `Verif.Core.HitTest.C53_uv`, `Verif.Core.HitTest.C53_uv_total_partial`, `Verif.Core.HitTest.C53_render_violated`, `Verif.Core.HitTest.C53_uv_violated`, `Verif.Core.HitTest.C53_depth_violated`, `Verif.Core.HitTest.C53_triangle_violated`, `Verif.Core.HitTest.C53_seam_violated`
* C54: `Verif.Core.Sampler.C54_jittered`, `Verif.Core.Sampler.C54_pixel`, `Verif.Core.Sampler.C54_picks`, `Verif.Core.Sampler.C54_shutter`, `Verif.Core.Sampler.C54_placed`, `Verif.Core.Sampler.C54_grid`, `Verif.Core.Sampler.C54_grid_pixel`, `Verif.Core.Sampler.C54_grid_times_violated`
* C55: `Verif.Math.Random.C55_reseed`, `Verif.Math.Random.C55_start`, `Verif.Math.Random.C55_reproducible`, `Verif.Math.Random.C55_range`, `Verif.Math.Random.C55_tempering`, `Verif.Math.Random.C55_float`, `Verif.Math.Random.C55_divisor`, `Verif.Math.Random.C55_float_range`, `Verif.Math.Random.C55_int_range`, `Verif.Math.Random.C55_feeds_sampler`, `Verif.Math.Random.C55_rounding`
* C56: `Verif.Core.Motion.C56_keys_partial`, `Verif.Core.Motion.C56_keys_violated`, `Verif.Core.Motion.C56_position`, `Verif.Core.Motion.C56_sample_partial`, `Verif.Core.Motion.C56_order_violated`, `Verif.Core.Motion.C56_bounds_partial`, `Verif.Core.Motion.C56_divisions`, `Verif.Core.Motion.C56_divisions_violated`, `Verif.Core.Motion.C56_render_partial`, `Verif.Core.Motion.C56_once_partial`, `Verif.Core.Motion.C56_jittered`, `Verif.Core.Motion.C56_outside_violated`, `Verif.Core.Motion.C56_once_violated`, `Verif.Core.Motion.C56_grid_violated`, `Verif.Core.Motion.C56_border_violated`, `Verif.Core.Motion.C56_rounding_violated`, `Verif.Core.Motion.C56_last_index`, `Verif.Core.Motion.C56_key_times`
* C57: `Verif.Core.Dof.C57_disc`, `Verif.Core.Dof.C57_cells_partial`, `Verif.Core.Dof.C57_one`, `Verif.Core.Dof.C57_cells_violated`, `Verif.Core.Dof.C57_oblong_violated`, `Verif.Core.Dof.C57_coc`, `Verif.Core.Dof.C57_reject`, `Verif.Core.Dof.C57_sample_partial`, `Verif.Core.Dof.C57_order`, `Verif.Core.Dof.C57_expand`, `Verif.Core.Dof.C57_shift_partial`, `Verif.Core.Dof.C57_render_partial`, `Verif.Core.Dof.C57_tilted_violated`, `Verif.Core.Dof.C57_lens`
* C58: `Verif.State.Attr.C58_values_partial`, `Verif.State.Attr.C58_saved_partial`, `Verif.State.Attr.C58_kept_partial`, `Verif.State.Attr.C58_primitives_partial`
* C59: `Verif.State.Transform.C59_motion_partial`, `Verif.State.Transform.C59_sorted`, `Verif.State.Transform.C59_merge`, `Verif.State.Transform.C59_times_violated`, `Verif.State.Transform.C59_between_violated`
* C60: `Verif.Math.Matrix4.C60_product`, `Verif.Math.Matrix4.C60_inverse`, `Verif.Math.Matrix4.C60_determinant`, `Verif.Math.Matrix4.C60_vectors`, `Verif.Math.Matrix4.C60_points`, `Verif.Math.Matrix4.C60_translate_scale`, `Verif.Math.Matrix4.C60_rotation`, `Verif.Math.Matrix4.C60_vector_transform`, `Verif.Math.Matrix4.C60_normal_transform`, `Verif.Math.Matrix4.C60_scalar_violated`, `Verif.Math.Matrix4.C60_scalar_sides_violated`, `Verif.Math.Matrix4.C60_close_partial`, `Verif.Math.Matrix4.C60_close_violated`, `Verif.Math.Matrix4.C60_skew_partial`, `Verif.Math.Matrix4.C60_skew_zero_violated`, `Verif.Math.Matrix4.C60_skew_angle_violated`
* C61: `Verif.Geom.Bicubic.C61_dice_partial`, `Verif.Geom.Bicubic.C61_dice_integer_violated`, `Verif.Geom.Bicubic.C61_dice_matrix_violated`, `Verif.Geom.Bicubic.C61_split_partial`, `Verif.Geom.Bicubic.C61_split_types_violated`, `Verif.Geom.Bicubic.C61_bound`, `Verif.Geom.Bicubic.C61_split_bound`, `Verif.Geom.Bicubic.C61_basis_partial`, `Verif.Geom.Bicubic.C61_basis_arrays_violated`, `Verif.Geom.Bicubic.C61_points_partial`, `Verif.Geom.Bicubic.C61_weights_violated`, `Verif.Geom.Bicubic.C61_points_bound`
* C62: `Verif.Geom.Primvar.C62_split_partial`, `Verif.Geom.Primvar.C62_dice_partial`, `Verif.Geom.Primvar.C62_st_partial`
* C63: `Verif.Geom.Bilinear.C63_split_cover`, `Verif.Geom.Bilinear.C63_split_inside`, `Verif.Geom.Bilinear.C63_split_disjoint`, `Verif.Geom.Bilinear.C63_phantom`, `Verif.Geom.Bilinear.C63_bound`, `Verif.Geom.Bilinear.C63_triangle`, `Verif.Geom.Bilinear.C63_split_shrinks`, `Verif.Geom.Bilinear.C63_dice`, `Verif.Geom.Bilinear.C63_pow2_violated`, `Verif.Geom.Bilinear.C63_pow2_partial`
* C64: `Verif.Geom.GenPoly.C64_area`, `Verif.Geom.GenPoly.C64_winding`, `Verif.Geom.GenPoly.C64_triangle`, `Verif.Geom.GenPoly.C64_direction`, `Verif.Geom.GenPoly.C64_cover_partial`, `Verif.Geom.GenPoly.C64_convex`, `Verif.Geom.GenPoly.C64_total`, `Verif.Geom.GenPoly.C64_hole_violated`, `Verif.Geom.GenPoly.C64_axis_violated`, `Verif.Geom.GenPoly.C64_axis_partial`, `Verif.Geom.GenPoly.C64_attribute_violated`, `Verif.Geom.GenPoly.C64_contains_violated`, `Verif.Geom.GenPoly.C64_facevarying_partial`, `Verif.Geom.GenPoly.C64_facevarying_violated`
* C65: `Verif.Geom.Polygon.C65_fan`, `Verif.Geom.Polygon.C65_pieces`, `Verif.Geom.Polygon.C65_cover`, `Verif.Geom.Polygon.C65_convex`, `Verif.Geom.Polygon.C65_values`, `Verif.Geom.Polygon.C65_normal_partial`, `Verif.Geom.Polygon.C65_normal_violated`, `Verif.Geom.Polygon.C65_degenerate`, `Verif.Geom.Polygon.C65_mesh_partial`, `Verif.Geom.Polygon.C65_mesh_values`
* C66: `Verif.Core.Cull.C66_transform`, `Verif.Core.Cull.C66_transform_violated`, `Verif.Core.Cull.C66_tests`, `Verif.Core.Cull.C66_side`, `Verif.Core.Cull.C66_volume`, `Verif.Core.Cull.C66_place_partial`, `Verif.Core.Cull.C66_place_violated`, `Verif.Core.Cull.C66_motion_partial`, `Verif.Core.Cull.C66_motion_violated`, `Verif.Core.Cull.C66_deforming`, `Verif.Core.Cull.C66_displacement_partial`, `Verif.Core.Cull.C66_displacement_violated`, `Verif.Core.Cull.C66_cull`, `Verif.Core.Cull.C66_eye_violated`, `Verif.Core.Cull.C66_lens`
* C67: `Verif.Core.Lod.C67_range`, `Verif.Core.Lod.C67_levels`, `Verif.Core.Lod.C67_post`, `Verif.Core.Lod.C67_ruler`, `Verif.Core.Lod.C67_own_partial`, `Verif.Core.Lod.C67_initial_violated`, `Verif.Core.Lod.C67_off_violated`, `Verif.Core.Lod.C67_shared_violated`, `Verif.Core.Lod.C67_points_violated`
* C68: `Verif.Math.Spline.C68_sections`, `Verif.Math.Spline.C68_hull`, `Verif.Math.Spline.C68_affine`, `Verif.Math.Spline.C68_joint`, `Verif.Math.Spline.C68_smooth`, `Verif.Math.Spline.C68_power_violated`, `Verif.Math.Spline.C68_ends_partial`, `Verif.Math.Spline.C68_ends_violated`, `Verif.Math.Spline.C68_float`, `Verif.Math.Spline.C68_list`, `Verif.Math.Spline.C68_array`
* C69: `Verif.Core.Display.C69_buckets`, `Verif.Core.Display.C69_scanline_partial`, `Verif.Core.Display.C69_select`, `Verif.Core.Display.C69_float`, `Verif.Core.Display.C69_quantize`, `Verif.Core.Display.C69_monotone`, `Verif.Core.Display.C69_depth_violated`, `Verif.Core.Display.C69_signed_violated`, `Verif.Core.Display.C69_fraction_violated`, `Verif.Core.Display.C69_aov`
* C70: `Verif.Geom.Points.C70_pieces_partial`, `Verif.Geom.Points.C70_width_partial`, `Verif.Geom.Points.C70_width_violated`, `Verif.Geom.Points.C70_bound`, `Verif.Geom.Points.C70_deforming_partial`, `Verif.Geom.Points.C70_deforming_violated`, `Verif.Geom.Points.C70_hit`, `Verif.Geom.Points.C70_moving`, `Verif.Geom.Points.C70_motion_bounds_partial`, `Verif.Geom.Points.C70_motion_bounds_violated`, `Verif.Geom.Points.C70_reference_violated`
* C71: `Verif.Geom.Trim.C71_eval_partial`, `Verif.Geom.Trim.C71_unity`, `Verif.Geom.Trim.C71_eval_violated`, `Verif.Geom.Trim.C71_insert_curve`, `Verif.Geom.Trim.C71_insert_knots`, `Verif.Geom.Trim.C71_insert_denominators`, `Verif.Geom.Trim.C71_clamp_partial`, `Verif.Geom.Trim.C71_clamp_start`, `Verif.Geom.Trim.C71_clamp_violated`, `Verif.Geom.Trim.C71_prepare_partial`, `Verif.Geom.Trim.C71_point_parity`, `Verif.Geom.Trim.C71_point_reverse`, `Verif.Geom.Trim.C71_point_triangle`, `Verif.Geom.Trim.C71_point_fan`, `Verif.Geom.Trim.C71_point_connected`, `Verif.Geom.Trim.C71_line_partial`, `Verif.Geom.Trim.C71_line_violated`, `Verif.Geom.Trim.C71_mp_inside_partial`, `Verif.Geom.Trim.C71_mp_outside_partial`, `Verif.Geom.Trim.C71_mp_outside_violated`, `Verif.Geom.Trim.C71_mp_hole_violated`, `Verif.Geom.Trim.C71_mp_island_violated`, `Verif.Geom.Trim.C71_read_range_violated`, `Verif.Geom.Trim.C71_end`, `Verif.Geom.Trim.C71_mp_cases`
* C72: `Verif.Geom.Nurbs.C72_basis`, `Verif.Geom.Nurbs.C72_eval`, `Verif.Geom.Nurbs.C72_eval_closed`, `Verif.Geom.Nurbs.C72_borders`, `Verif.Geom.Nurbs.C72_insert`, `Verif.Geom.Nurbs.C72_insert_count`, `Verif.Geom.Nurbs.C72_clamp_partial`, `Verif.Geom.Nurbs.C72_clamp_violated`, `Verif.Geom.Nurbs.C72_refine`, `Verif.Geom.Nurbs.C72_splitU`, `Verif.Geom.Nurbs.C72_splitV`, `Verif.Geom.Nurbs.C72_segments`, `Verif.Geom.Nurbs.C72_dice`, `Verif.Geom.Nurbs.C72_bound_partial`, `Verif.Geom.Nurbs.C72_bound_violated`, `Verif.Geom.Nurbs.C72_labels_partial`, `Verif.Geom.Nurbs.C72_labels_violated`
* C73: `Verif.Geom.Lath.C73_links`, `Verif.Geom.Lath.C73_corners`, `Verif.Geom.Lath.C73_ok`, `Verif.Geom.Lath.C73_vertices_partial`, `Verif.Geom.Lath.C73_vertices_violated`, `Verif.Geom.Lath.C73_manifold`, `Verif.Geom.Lath.C73_facevarying_partial`, `Verif.Geom.Lath.C73_ccf`, `Verif.Geom.Lath.C73_companion`, `Verif.Geom.Lath.C73_facet`, `Verif.Geom.Lath.C73_fan`, `Verif.Geom.Lath.C73_edges`, `Verif.Geom.Lath.C73_neighbours`, `Verif.Geom.Lath.C73_edge_edges`, `Verif.Geom.Lath.C73_facets`, `Verif.Geom.Lath.C73_boundary`
* C74: `Verif.Geom.Subd.C74_face`, `Verif.Geom.Subd.C74_edge`, `Verif.Geom.Subd.C74_edge_shared`, `Verif.Geom.Subd.C74_edge_facevertex`, `Verif.Geom.Subd.C74_varying`, `Verif.Geom.Subd.C74_boundary`, `Verif.Geom.Subd.C74_sharp`, `Verif.Geom.Subd.C74_sharp_violated`, `Verif.Geom.Subd.C74_crease`, `Verif.Geom.Subd.C74_smooth`, `Verif.Geom.Subd.C74_vertex_shared`, `Verif.Geom.Subd.C74_facevertex`, `Verif.Geom.Subd.C74_regular`, `Verif.Geom.Subd.C74_limit`, `Verif.Geom.Subd.C74_limit_boundary`, `Verif.Geom.Subd.C74_affine_face`, `Verif.Geom.Subd.C74_affine_edge`, `Verif.Geom.Subd.C74_affine_vertex`
* C75: `Verif.Geom.Subd.C75_total`, `Verif.Geom.Subd.C75_fuel`, `Verif.Geom.Subd.C75_mesh`, `Verif.Geom.Subd.C75_links`, `Verif.Geom.Subd.C75_facets`, `Verif.Geom.Subd.C75_points`, `Verif.Geom.Subd.C75_crease`, `Verif.Geom.Subd.C75_crease_edges`, `Verif.Geom.Subd.C75_values`, `Verif.Geom.Subd.C75_facevalues`, `Verif.Geom.Subd.C75_refines`, `Verif.Geom.Subd.C75_next`, `Verif.Geom.Subd.C75_limit`, `Verif.Geom.Subd.C75_order`, `Verif.Geom.Subd.C75_corners`, `Verif.Geom.Subd.C75_levels`, `Verif.Geom.Subd.C75_built`, `Verif.Geom.Subd.C75_corner_violated`, `Verif.Geom.Subd.C75_order_violated`, `Verif.Geom.Subd.C75_limit_violated`
* C76: `Verif.Shader.Inline.C76_call_partial`, `Verif.Shader.Inline.C76_value_partial`
* C77: `Verif.Shader.Scope.C77_names_partial`, `Verif.Shader.Scope.C77_compare_partial`, `Verif.Shader.Scope.C77_distinct_partial`, `Verif.Shader.Scope.C77_hash_scope`, `Verif.Shader.Scope.C77_hash_letter`
* C78: `Verif.Shader.Types.C78_best`, `Verif.Shader.Types.C78_exact`
* C79: `Verif.Shader.Slx.C79_loaded_partial`, `Verif.Shader.Slx.C79_string_partial`, `Verif.Shader.Slx.C79_version`, `Verif.Shader.Slx.C79_init_violated`, `Verif.Shader.Slx.C79_name_violated`, `Verif.Shader.Slx.C79_infinite_violated`, `Verif.Shader.Slx.C79_unknown_violated`, `Verif.Shader.Slx.C79_octal_violated`, `Verif.Shader.Slx.C79_cut_violated`, `Verif.Shader.Slx.C79_many_violated`, `Verif.Shader.Slx.C79_clone_violated`, `Verif.Shader.Slx.C79_words`
* C80: `Verif.Geom.Quadric.C80_dice`, `Verif.Geom.Quadric.C80_split_u`, `Verif.Geom.Quadric.C80_split_v`, `Verif.Geom.Quadric.C80_sphere_partial`, `Verif.Geom.Quadric.C80_bound_partial`, `Verif.Geom.Quadric.C80_grid_in_bound_partial`, `Verif.Geom.Quadric.C80_sphere_violated`, `Verif.Geom.Quadric.C80_paraboloid_violated`, `Verif.Geom.Quadric.C80_backwards_violated`, `Verif.Geom.Quadric.C80_torus_violated`, `Verif.Geom.Quadric.C80_project`
* C81: `Verif.Geom.Quadric.C81_perpendicular_partial`, `Verif.Geom.Quadric.C81_side_partial`, `Verif.Geom.Quadric.C81_apex_violated`, `Verif.Geom.Quadric.C81_backwards_violated`
* C82: `Verif.Tex.Mixed.C82_reorder`, `Verif.Tex.Mixed.C82_find`, `Verif.Tex.Mixed.C82_copy`, `Verif.Tex.Mixed.C82_copy_named`, `Verif.Tex.Mixed.C82_composite`, `Verif.Tex.Mixed.C82_fill`, `Verif.Tex.Mixed.C82_back`, `Verif.Tex.Mixed.C82_close`, `Verif.Tex.Mixed.C82_same`, `Verif.Tex.Mixed.C82_read`, `Verif.Tex.Mixed.C82_zoom`, `Verif.Tex.Mixed.C82_long_violated`, `Verif.Tex.Mixed.C82_zoom_violated`, `Verif.Tex.Mixed.C82_part`
* C83: `Verif.Filter.Condition.C83_int`, `Verif.Filter.Condition.C83_float`, `Verif.Filter.Condition.C83_math`, `Verif.Filter.Condition.C83_unknown`, `Verif.Filter.Condition.C83_unread`, `Verif.Filter.Condition.C83_triple_partial`, `Verif.Filter.Condition.C83_string_partial`, `Verif.Filter.Condition.C83_string_violated`, `Verif.Filter.Condition.C83_triple_violated`, `Verif.Filter.Condition.C83_memory_violated`, `Verif.Filter.Condition.C83_relation_violated`, `Verif.Filter.Condition.C83_math_int`
* C84: `Verif.Shader.Stack.C84_run`, `Verif.Shader.Stack.C84_storage`, `Verif.Shader.Stack.C84_assign_partial`
* C85: `Verif.Util.Args.C85_integers`, `Verif.Util.Args.C85_int_partial`, `Verif.Util.Args.C85_int_violated`, `Verif.Util.Args.C85_names`, `Verif.Util.Args.C85_register`, `Verif.Util.Args.C85_parse_partial`, `Verif.Util.Args.C85_accepts_partial`, `Verif.Util.Args.C85_file_violated`, `Verif.Util.Args.C85_empty_violated`, `Verif.Util.Args.C85_count_violated`, `Verif.Util.Args.C85_again_violated`
* C86: `Verif.Tex.Ewa.C86_filter`, `Verif.Tex.Ewa.C86_blur`, `Verif.Tex.Ewa.C86_minor_axis`, `Verif.Tex.Ewa.C86_table`, `Verif.Tex.Ewa.C86_weight`, `Verif.Tex.Ewa.C86_support`, `Verif.Tex.Ewa.C86_support_tight`, `Verif.Tex.Ewa.C86_level`, `Verif.Tex.Ewa.C86_all`
* C87: `Verif.Tex.Env.C87_quad_width`, `Verif.Tex.Env.C87_of_quad`, `Verif.Tex.Env.C87_quad_periodic`, `Verif.Tex.Env.C87_periodic_partial`, `Verif.Tex.Env.C87_periodic_violated`, `Verif.Tex.Env.C87_width_partial`, `Verif.Tex.Env.C87_width_violated`, `Verif.Tex.Env.C87_texture_partial`, `Verif.Tex.Env.C87_cube`, `Verif.Tex.Env.C87_cube_cell`, `Verif.Tex.Env.C87_cube_blur`, `Verif.Tex.Env.C87_latlong`, `Verif.Tex.Env.C87_latlong_sides`, `Verif.Tex.Env.C87_latlong_blur_partial`, `Verif.Tex.Env.C87_latlong_blur_violated`, `Verif.Tex.Env.C87_texture_width_partial`
* C88: `Verif.Tex.Level.C88_width`, `Verif.Tex.Level.C88_level`, `Verif.Tex.Level.C88_mix`, `Verif.Tex.Level.C88_between`, `Verif.Tex.Level.C88_smooth`, `Verif.Tex.Level.C88_zero_violated`, `Verif.Tex.Level.C88_last_partial`
* C89: `Verif.Shader.TexOpts.C89_last`, `Verif.Shader.TexOpts.C89_lerp`, `Verif.Shader.TexOpts.C89_allowed`, `Verif.Shader.TexOpts.C89_unknown`, `Verif.Shader.TexOpts.C89_fill_violated`, `Verif.Shader.TexOpts.C89_bias`, `Verif.Shader.TexOpts.C89_bias_options`, `Verif.Shader.TexOpts.C89_bias_order`
* C90: `Verif.Math.Noise.C90_table`, `Verif.Math.Noise.C90_gradients1`, `Verif.Math.Noise.C90_gradients2`, `Verif.Math.Noise.C90_gradients3`, `Verif.Math.Noise.C90_gradients4`, `Verif.Math.Noise.C90_sum1`, `Verif.Math.Noise.C90_sum2`, `Verif.Math.Noise.C90_sum3`, `Verif.Math.Noise.C90_sum4`, `Verif.Math.Noise.C90_psum`, `Verif.Math.Noise.C90_range_partial`, `Verif.Math.Noise.C90_range4_partial`, `Verif.Math.Noise.C90_range_violated`, `Verif.Math.Noise.C90_lattice`, `Verif.Math.Noise.C90_period`, `Verif.Math.Noise.C90_pperiod_partial`, `Verif.Math.Noise.C90_pperiod_violated`, `Verif.Math.Noise.C90_round`, `Verif.Math.Noise.C90_continuous`
* C91: `Verif.Math.Color.C91_hsv`, `Verif.Math.Color.C91_hsl`, `Verif.Math.Color.C91_hsv_round`, `Verif.Math.Color.C91_hsv_back`, `Verif.Math.Color.C91_hsl_round_partial`, `Verif.Math.Color.C91_hsl_back_partial`, `Verif.Math.Color.C91_grey`, `Verif.Math.Color.C91_hsl_grey_violated`, `Verif.Math.Color.C91_hue_violated`, `Verif.Math.Color.C91_yiq`, `Verif.Math.Color.C91_yiq_round`, `Verif.Math.Color.C91_other`, `Verif.Math.Color.C91_through`, `Verif.Math.Color.C91_names`, `Verif.Math.Color.C91_cie_violated`, `Verif.Math.Color.C91_yiq_violated`, `Verif.Math.Color.C91_hsv_violated`
* C92: `Verif.Math.LowDiscrep.C92_digits`, `Verif.Math.LowDiscrep.C92_range`, `Verif.Math.LowDiscrep.C92_cells`, `Verif.Math.LowDiscrep.C92_grid`, `Verif.Math.LowDiscrep.C92_primes`, `Verif.Math.LowDiscrep.C92_bases_partial`, `Verif.Math.LowDiscrep.C92_bases_violated`, `Verif.Math.LowDiscrep.C92_generate`, `Verif.Math.LowDiscrep.C92_table`
* C93: `Verif.Tools.Emitter.C93_triangle`, `Verif.Tools.Emitter.C93_quad_partial`, `Verif.Tools.Emitter.C93_quad_violated`, `Verif.Tools.Emitter.C93_faces_partial`, `Verif.Tools.Emitter.C93_total_partial`, `Verif.Tools.Emitter.C93_faces_violated`, `Verif.Tools.Emitter.C93_count`, `Verif.Tools.Emitter.C93_wrapped`, `Verif.Tools.Emitter.C93_weights`, `Verif.Tools.Emitter.C93_corners`, `Verif.Tools.Emitter.C93_interpolated`, `Verif.Tools.Emitter.C93_source`
* C94: `Verif.Tools.Hairs.C94_parents`, `Verif.Tools.Hairs.C94_parents_violated`, `Verif.Tools.Hairs.C94_mean`, `Verif.Tools.Hairs.C94_root`, `Verif.Tools.Hairs.C94_points_partial`, `Verif.Tools.Hairs.C94_points_violated`, `Verif.Tools.Hairs.C94_others`, `Verif.Tools.Hairs.C94_clump`, `Verif.Tools.Hairs.C94_between`, `Verif.Tools.Hairs.C94_clump_violated`
* C95: `Verif.Tex.Shadow.C95_weight`, `Verif.Tex.Shadow.C95_choice`, `Verif.Tex.Shadow.C95_axis_partial`, `Verif.Tex.Shadow.C95_periphery_violated`, `Verif.Tex.Shadow.C95_raster`, `Verif.Tex.Shadow.C95_depth_partial`, `Verif.Tex.Shadow.C95_depth_violated`, `Verif.Tex.Shadow.C95_constant`, `Verif.Tex.Shadow.C95_degenerate`
* C96: `Verif.Tex.Stoch.C96_count`, `Verif.Tex.Stoch.C96_shares`, `Verif.Tex.Stoch.C96_average`, `Verif.Tex.Stoch.C96_pcf`
* C97: `Verif.Geom.Curves.C97_linear_partial`, `Verif.Geom.Curves.C97_linear_violated`, `Verif.Geom.Curves.C97_cubic_partial`, `Verif.Geom.Curves.C97_cubic_violated`, `Verif.Geom.Curves.C97_basis`, `Verif.Geom.Curves.C97_basis_points`, `Verif.Geom.Curves.C97_halves_partial`, `Verif.Geom.Curves.C97_halves_violated`, `Verif.Geom.Curves.C97_halves_points`
* C98: `Verif.Geom.Curves.C98_tangent`, `Verif.Geom.Curves.C98_tangent_ends`, `Verif.Geom.Curves.C98_ribbon`, `Verif.Geom.Curves.C98_bound`, `Verif.Geom.Curves.C98_linear_partial`, `Verif.Geom.Curves.C98_linear_violated`, `Verif.Geom.Curves.C98_normals_partial`, `Verif.Geom.Curves.C98_normals_violated`, `Verif.Geom.Curves.C98_corners`, `Verif.Geom.Curves.C98_scale`
* C99: `Verif.Math.Cell.C99_random`, `Verif.Math.Cell.C99_cells_partial`, `Verif.Math.Cell.C99_points_partial`, `Verif.Math.Cell.C99_second_violated`, `Verif.Math.Cell.C99_integers_violated`

**propext, Quot.sound**

* C08: `Verif.Rib.C08_long_literal_violated`, `Verif.Rib.C08_nonliteral_violated`
* C10: `Verif.Rib.C10_requests_independent`, `Verif.Rib.C10_only_calls_and_errors`, `Verif.Rib.C10_bad_request_one_error`, `Verif.Rib.C10_bad_request_skipped`
* C100: `Verif.Core.Camera.C100_requests`
* C101: `Verif.Shader.Arith.C101_minmax`, `Verif.Shader.Arith.C101_faceforward_partial`
* C103: `Verif.Shader.Lights.C103_uncategorised`
* C105: `Verif.Shader.Layers.C105_findArgument`, `Verif.Shader.Layers.C105_setArgument`
* C106: `Verif.Shader.Text.C106_sprintf`, `Verif.Shader.Text.C106_missing`, `Verif.Shader.Text.C106_pieces`, `Verif.Shader.Text.C106_end_violated`, `Verif.Shader.Text.C106_match_partial`
* C107: `Verif.Shader.Deriv.C107_indices`
* C11: `Verif.Rib.C11_nested_restores_partial`, `Verif.Rib.C11_binary_tables_violated`, `Verif.Rib.C11_array_counter_violated`
* C112: `Verif.Tools.Bmp.C112_refused`
* C12: `Verif.Rib.C12_int_array`, `Verif.Rib.C12_string_array`, `Verif.Rib.C12_float_brackets_optional`, `Verif.Rib.C12_float_wrong_length`
* C13: `Verif.Riutil.C13_unprintable_violated`
* C15: `Verif.Filter.C15_skipped_clause_keeps_state`, `Verif.Filter.C15_stray_else_violated`
* C16: `Verif.Filter.C16_comments_dropped`, `Verif.Filter.C16_self_read_violated`, `Verif.Filter.C16_redefine_while_read_violated`
* C17: `Verif.Filter.C17_unknown_object`, `Verif.Filter.C17_nested_object_violated`, `Verif.Filter.C17_stray_archive_end_violated`
* C18: `Verif.Filter.Frames.C18_selected_frames`, `Verif.Filter.Frames.C18_any_stream`
* C21: `Verif.Filter.Validate.C21_stacks_never_empty`
* C22: `Verif.Filter.Cache.C22_string_array`, `Verif.Filter.Cache.C22_string_buffer_reuse`
* C24: `Verif.Util.Bits.C24_sizes_violated`, `Verif.Util.Bits.C24_union_violated`, `Verif.Util.Bits.C24_empty_violated`, `Verif.Util.Bits.C24_count_violated`, `Verif.Util.Bits.C24_bytes`
* C26: `Verif.Util.IList.C26_link_after_partial`, `Verif.Util.IList.C26_unlink`, `Verif.Util.IList.C26_read_forward`, `Verif.Util.IList.C26_read_backward`, `Verif.Util.IList.C26_chain_violated`
* C30: `Verif.Core.Csg.C30_violated`
* C31: `Verif.Core.Scheduler.C31_bound_violated`
* C32: `Verif.Core.ChannelBuffer.C32_zero_partial`, `Verif.Core.ChannelBuffer.C32_zero_violated`, `Verif.Core.ChannelBuffer.C32_shrink_violated`
* C34: `Verif.Tex.C34_inRange_violated`, `Verif.Tex.C34_intersectsRange_violated`
* C37: `Verif.Riutil.Counts.C37_unknown`, `Verif.Riutil.Counts.C37_linear`, `Verif.Riutil.Counts.C37_unknown_curves`
* C38: `Verif.Util.SearchPath.C38_paths`, `Verif.Util.SearchPath.C38_find_partial`, `Verif.Util.SearchPath.C38_not_found_partial`, `Verif.Util.SearchPath.C38_error_violated`
* C44: `Verif.Tex.Accum.C44_centre`
* C50: `Verif.Shader.Simd.C50_compiles`, `Verif.Shader.Simd.C50_continue_zero`
* C55: `Verif.Math.Random.C55_sequence`
* C58: `Verif.State.Attr.C58_trim_partial`, `Verif.State.Attr.C58_trim_block_violated`, `Verif.State.Attr.C58_trim_copy_violated`, `Verif.State.Attr.C58_layer_violated`, `Verif.State.Attr.C58_rejected_violated`
* C59: `Verif.State.Transform.C59_overflow`, `Verif.State.Transform.C59_camera_violated`, `Verif.State.Transform.C59_set_violated`, `Verif.State.Transform.C59_hand_violated`, `Verif.State.Transform.C59_hand_motion_violated`, `Verif.State.Transform.C59_points_violated`
* C60: `Verif.Math.Matrix4.C60_scalar_partial`
* C62: `Verif.Geom.Primvar.C62_load_partial`, `Verif.Geom.Primvar.C62_set_value_partial`, `Verif.Geom.Primvar.C62_dice_array_violated`, `Verif.Geom.Primvar.C62_st_violated`, `Verif.Geom.Primvar.C62_copy_partial`, `Verif.Geom.Primvar.C62_copy_violated`, `Verif.Geom.Primvar.C62_transform_partial`, `Verif.Geom.Primvar.C62_dice_fixed`
* C63: `Verif.Geom.Bilinear.C63_edge_violated`
* C64: `Verif.Geom.GenPoly.C64_empty_violated`, `Verif.Geom.GenPoly.C64_bridge`, `Verif.Geom.GenPoly.C64_box_axis`
* C65: `Verif.Geom.Polygon.C65_params`, `Verif.Geom.Polygon.C65_bound`
* C66: `Verif.Core.Cull.C66_static`, `Verif.Core.Cull.C66_culled`, `Verif.Core.Cull.C66_plane`
* C68: `Verif.Math.Spline.C68_few_violated`
* C69: `Verif.Core.Display.C69_options`
* C70: `Verif.Geom.Points.C70_gridsize_violated`, `Verif.Geom.Points.C70_values`, `Verif.Geom.Points.C70_reference_partial`, `Verif.Geom.Points.C70_later`
* C71: `Verif.Geom.Trim.C71_span`, `Verif.Geom.Trim.C71_prepare_order`, `Verif.Geom.Trim.C71_point_rotate`, `Verif.Geom.Trim.C71_loops`, `Verif.Geom.Trim.C71_outside_no_loops_violated`, `Verif.Geom.Trim.C71_read`
* C73: `Verif.Geom.Lath.C73_ccv`, `Verif.Geom.Lath.C73_corner`
* C74: `Verif.Geom.Subd.C74_limit_sharp`
* C76: `Verif.Shader.Inline.C76_operands`, `Verif.Shader.Inline.C76_declared`, `Verif.Shader.Inline.C76_index_violated`, `Verif.Shader.Inline.C76_index_meaning_violated`, `Verif.Shader.Inline.C76_assign_violated`, `Verif.Shader.Inline.C76_return_violated`, `Verif.Shader.Inline.C76_return_param_violated`, `Verif.Shader.Inline.C76_order_violated`, `Verif.Shader.Inline.C76_extern_violated`, `Verif.Shader.Inline.C76_after_violated`
* C77: `Verif.Shader.Scope.C77_hash_name`
* C78: `Verif.Shader.Types.C78_sound_partial`, `Verif.Shader.Types.C78_condition_partial`, `Verif.Shader.Types.C78_defined_partial`
* C82: `Verif.Tex.Mixed.C82_layout`, `Verif.Tex.Mixed.C82_unnamed`
* C84: `Verif.Shader.Stack.C84_uniform_violated`, `Verif.Shader.Stack.C84_uniform_cond_violated`, `Verif.Shader.Stack.C84_underflow_violated`, `Verif.Shader.Stack.C84_lost_violated`
* C89: `Verif.Shader.TexOpts.C89_bias_violated`, `Verif.Shader.TexOpts.C89_bias_twice_violated`
* C90: `Verif.Math.Noise.C90_indices`
* C94: `Verif.Tools.Hairs.C94_root_index`
* C97: `Verif.Geom.Curves.C97_cubic_fits`
* C99: `Verif.Math.Cell.C99_permutation`
