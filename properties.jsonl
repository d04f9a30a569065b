{"id": "C01", "title": "RIB input buffering is transparent", "statement": "Reading a RIB stream character by character through the input buffer delivers exactly the bytes of the underlying stream, in order, followed by the end-of-file byte 255 for ever; putting the last character back makes exactly that character come out again. How many bytes the underlying stream offers at each non-blocking read has no influence.", "quantifier": "every byte stream, every schedule of short non-blocking reads (including reads that return nothing), every adaptive client that never puts back twice in a row", "why_tests_cant": "the number of bytes readsome returns depends on the OS, pipe and stream buffering; the space of schedules is infinite and the wrap point of the internal buffer interacts with it", "anchors": ["libs/riutil/ribinputbuffer.h: RibInputBuffer::get, unget", "libs/riutil/ribinputbuffer.cpp: bufferNextChars"]}
{"id": "C02", "title": "Reported line numbers count each line ending once", "statement": "The line number attached to a character is one plus the number of line endings (CR, LF or CRLF, the pair counting once) before it, whatever the stream's length and chunking.", "quantifier": "every byte stream, every read schedule", "why_tests_cant": "a wrong count only shows when a CRLF pair straddles the internal wrap point", "anchors": ["libs/riutil/ribinputbuffer.h: RibInputBuffer::get", "libs/riutil/ribinputbuffer.cpp: bufferNextChars"]}
{"id": "C03", "title": "Binary integers round-trip", "statement": "An integer written in binary RIB form and read back yields the same integer, consuming exactly the bytes written.", "quantifier": "every 32-bit signed integer, every following byte sequence", "why_tests_cant": "2^32 values times arbitrary context; the variable length prefix must be self-delimiting", "anchors": ["libs/riutil/ribwriter.cpp: BinaryFormatter::print(RtInt), encodeInt32, unpack, highestByteNonzero", "libs/riutil/ribtokenizer.cpp: scanNext, decodeInt"]}
{"id": "C04", "title": "Binary floats, strings and float arrays round-trip bit for bit", "statement": "A float, string or float array written in binary RIB form is read back as the same bits / bytes / element sequence.", "quantifier": "every 32-bit float pattern, every NUL-free byte string shorter than 2^31, every float array shorter than 2^31", "why_tests_cant": "lengths and contents are unbounded; boundary lengths 15/16, 255/256, 65535/65536 change the encoding", "anchors": ["libs/riutil/ribwriter.cpp: BinaryFormatter::print", "libs/riutil/ribtokenizer.cpp: decodeString, decodeFloat32, scanNext"]}
{"id": "C05", "title": "A whole binary RIB stream decodes to the requests that were written", "statement": "Writing any sequence of requests in binary form and tokenising the result yields exactly the request names and arguments in order and then end of file; the one-byte request codes invented by the writer always resolve to the right name.", "quantifier": "every finite sequence of requests using at most 255 distinct names, with arbitrary arguments", "why_tests_cant": "the request code table is history dependent: correctness of each request depends on all earlier ones", "anchors": ["libs/riutil/ribwriter.cpp: BinaryFormatter::beginRequest", "libs/riutil/ribtokenizer.cpp: scanNext, lookupEncodedRequest"]}
{"id": "C06", "title": "ASCII RIB strings round-trip", "statement": "A string written in ASCII RIB form is read back as the same string.", "quantifier": "every NUL-free byte string", "why_tests_cant": "the escape syntax of the writer must be inverse to that of the reader for every character combination", "anchors": ["libs/riutil/ribwriter.cpp: AsciiFormatter::print(RtConstString)", "libs/riutil/ribtokenizer.cpp: readString"]}
{"id": "C07", "title": "ASCII RIB integers round-trip", "statement": "An integer written in ASCII form and followed by a separator is read back as the same integer.", "quantifier": "every 32-bit signed integer, every following byte that is not part of a number", "why_tests_cant": "extreme values overflow the reader's accumulator", "anchors": ["libs/riutil/ribwriter.cpp: AsciiFormatter::print(RtInt)", "libs/riutil/ribtokenizer.cpp: readNumber"]}
{"id": "C08", "title": "Decimal literals denote their exact value", "statement": "A decimal literal (optional sign, digits, optional fraction, optional exponent) is read as one number token whose mathematical value is that of the literal, and the scan stops at the first byte after the literal; anything that is not a literal is reported as an error token.", "quantifier": "every decimal literal and every following byte", "why_tests_cant": "unbounded digit strings and all sign/point/exponent combinations", "anchors": ["libs/riutil/ribtokenizer.cpp: readNumber"]}
{"id": "C09", "title": "Tokenising always makes progress and terminates", "statement": "From any state, asking for the next token on any finite input terminates, and repeatedly asking reaches the end-of-file token after finitely many tokens; once at end of file it stays there.", "quantifier": "every finite byte string, every tokenizer state", "why_tests_cant": "hand-written loops with lookahead over adversarial bytes; termination is not testable", "anchors": ["libs/riutil/ribtokenizer.cpp: scanNext and helpers"]}
{"id": "C10", "title": "A malformed request never corrupts the following ones", "statement": "When a request has bad arguments the parser reports one error, skips to the next request token and delivers all later well-formed requests exactly as if the bad request had not been there.", "quantifier": "every token stream, every position and kind of malformed request", "why_tests_cant": "error positions and kinds are unbounded; recovery must resynchronise from any lexer state", "anchors": ["libs/riutil/ribparser.cpp: RibParser::parseStream", "libs/riutil/riblexer.cpp: discardUntilRequest, tokenError, nextRequest"]}
{"id": "C100", "title": "The camera puts the screen window onto the raster", "statement": "Of each kind of request for the camera the last one counts; pixels have the shape that Format asks for unless a screen window is given; the frame has the ratio that is asked for and fits into the raster; a point is projected, transformed by what came before Projection, and its place in the screen window is its place in the frame; depths grow with the distance and the planes of clipping have fixed depths; matrices for vectors do not depend on what was asked before; the scale of focal blur is the size of a unit in pixels.", "quantifier": "all lists of requests, all resolutions, ratios, windows, planes and points", "why_tests_cant": "a wrong sign or a swapped ratio shows only for windows that are not symmetric, pixels that are not square or ratios below one", "anchors": ["libs/core/options.cpp: CqOptions::InitialiseCamera", "libs/core/api/ri.cpp: Format, FrameAspectRatio, ScreenWindow, Clipping, Projection, WorldBegin", "libs/core/renderer.cpp: matVSpaceToSpace"]}
{"id": "C101", "title": "Functions of the shading language have the values they should have", "statement": "step, smoothstep, clamp, mod, round, sign, min, max, roots, logarithms, powers, faceforward, normalize and filterstep have the values of their mathematical descriptions, for every argument; where a function is not defined the result is zero; normalize is not disturbed by the vector it keeps from the point before.", "quantifier": "all numbers, vectors, numbers of arguments, grids and running states", "why_tests_cant": "a wrong boundary shows only for equal numbers, negative divisors, whole exponents beyond 2^31 or vectors on the far side of a surface", "anchors": ["libs/shadervm/shaderexecenv/shadeops_math.cpp: SO_mod, SO_min, SO_max, SO_pow, SO_log, SO_sqrt, SO_round", "libs/shadervm/shaderexecenv/shadeops_deriv.cpp: SO_step, SO_smoothstep, SO_normalize, SO_faceforward, SO_filterstep", "include/aqsis/math/math.h: clamp, round"]}
{"id": "C102", "title": "Reflected and refracted rays obey the laws of optics", "statement": "A reflected vector is the mirror image; a refracted vector has length one, obeys Snell's law, is zero just where all is reflected, and refracts back to where it came from; the factors of fresnel are those of the books, between zero and one, and together one; depth runs from zero at the near to one at the far plane; a highlight is never more than the light and is symmetric in light and eye.", "quantifier": "all vectors, all ratios of indices, all planes of clipping and roughnesses", "why_tests_cant": "a wrong sign or a factor inverted gives rays that look plausible in a picture", "anchors": ["libs/shadervm/shaderexecenv/shadeops_illum.cpp: SO_reflect, SO_refract, SO_fresnel, SO_depth, SO_specularbrdf"]}
{"id": "C103", "title": "Surfaces are lit by the lights that reach them", "statement": "A loop over lights takes each light that is not ambient once and in order, and none if lighting is off; ambient sums the ambient lights; diffuse follows Lambert's law; specular and phong add the highlights of lights in front of the surface; an illuminance statement runs where the light is within the cone and takes the lights of the category asked for; in a light, L goes from the light to the surface, the colour is black outside the cone, and only the first statement counts; calculatenormal stands on the grid, on the side the orientation asks for.", "quantifier": "all lists of lights, normals, cones, categories and running states", "why_tests_cant": "pictures with one or two lights look right; the defects need a light that sets a variable before one that does not, three categories, or an axis not one unit long", "anchors": ["libs/shadervm/shaderexecenv/shadeops_illum.cpp: SO_init_illuminance, SO_advance_illuminance, SO_ambient, SO_diffuse, SO_specular, SO_phong, SO_illuminance, SO_illuminate, SO_solar, SO_calculatenormal", "libs/shadervm/shadervm.cpp: GetVariableValue"]}
{"id": "C104", "title": "Disks are drawn on the cube around a point where rays hit them", "statement": "Directions, faces and coordinates on the cube of a micro buffer agree; pixels have their own slots and the size of their solid angle; a sphere is culled only if it is outside the cone; a disk adds a sample to exactly the pixels whose rays hit it; a square gives each pixel the part of the pixel it covers; the occlusion is the mean of the pixels in the cone with their weights, between 0 and 1.", "quantifier": "all directions, resolutions, cones, spheres, disks, squares and lists of pixels", "why_tests_cant": "occlusion pictures are noisy and only compared by eye; near disks that are lost leave them plausible", "anchors": ["libs/pointrender/MicroBuf.cpp", "libs/pointrender/MicroBuf.h", "libs/pointrender/microbuf_proj_func.cpp: sphereOutsideCone, solveQuadratic, renderDiskExact, renderDisk", "libs/pointrender/OcclusionIntegrator.cpp: occlusion"]}
{"id": "C105", "title": "Layers of a shader run in order and pass values along connections", "statement": "The layers of a layered shader are evaluated in the order in which they were added; after a layer, each connection from it copies a variable of the layer to one of the last layer with the other name, and nothing else changes; the value is there when the later layer is evaluated; an argument is that of the last layer that has it and is set in all that have it; every variable a layer uses is used; a copy has the same layers.", "quantifier": "all lists of layers, connections, values and names", "why_tests_cant": "one test scene has layers; names used twice, copies and questions for one variable are not tried", "anchors": ["libs/core/shaders.h: CqLayeredShader", "libs/core/shaders.cpp: AddLayer, AddConnection, Evaluate", "libs/shadervm/shadervm.h: Uses"]}
{"id": "C106", "title": "Text functions of shaders fill in formats and work on running points", "statement": "printf and format give the characters of the format as they are, the values in order, and a character after % that has no meaning as itself; every format is made of such pieces; concat puts all texts together; match tells for each running point whether the pattern is found; results are set at running points only; printf prints the running points in order, or once if nothing is varying.", "quantifier": "all formats, arguments, classes of variables, grids and running states", "why_tests_cant": "shaders print for debugging only; a format that ends with % or asks for too much is not tried", "anchors": ["libs/shadervm/shaderexecenv/shadeops_text.cpp: SO_sprintf, SO_printf, SO_format, SO_concat, SO_match"]}
{"id": "C107", "title": "Differences and derivatives over a grid are slopes", "statement": "With centred differences the difference of a parabola is its slope at every point of the grid, also at the edges; one-sided differences are those to the next point; Du and Dv are slopes by the parameter, deriv is the factor between two variables, area is that of the parallelograms of the grid; the tables lead from points to places; no value outside the grid is read.", "quantifier": "all grids, places, parabolas, lines and factors", "why_tests_cant": "pictures use derivatives for bumps and texture widths, where a factor of two or a wrong edge is not seen", "anchors": ["include/aqsis/math/derivatives.h: CqGridDiff", "libs/shadervm/shaderexecenv/shaderexecenv.h: diffU, diffV, derivU, derivV, deriv", "libs/shadervm/shaderexecenv/shaderexecenv.cpp: Initialise", "libs/shadervm/shaderexecenv/shadeops_deriv.cpp: SO_area"]}
{"id": "C108", "title": "The tree of surfels has every point once, in boxes that hold them, with exact crude values", "statement": "The leaves of the tree hold every point of the cloud just once; the points of a node are in its box and in the sphere around it; the root is a cube; a tree is split just where there are more than eight points and the depth allows; the crude area of every node is the sum of the areas of its points, its crude position and colour are the means by area, and its crude normal has length one or zero; an empty cloud fails the assertion.", "quantifier": "all clouds of surfels with positive radii, all boxes and depths", "why_tests_cant": "the traversal uses the crude values only from afar, where a lost point or a wrong mean shows as a slight change of brightness", "anchors": ["libs/pointrender/diffuse/DiffusePointOctree.cpp: DiffusePointOctree, makeTree", "libs/pointrender/diffuse/DiffusePointOctree.h: Node"]}
{"id": "C109", "title": "The walk over the tree of surfels shows what is in the cone once, from front to back", "statement": "The walk over the tree of a cloud comes to an end and never uses more than the 200 places of its stack; every surfel is shown at most once, by itself or in a crude disk, and those not shown are outside the cone; a crude disk is drawn only if it is seen under less than the greatest solid angle, and none if that is zero; the surfels of a leaf and the children of a node are drawn with the nearest first.", "quantifier": "all clouds, places, normals, cones and greatest solid angles", "why_tests_cant": "a lost node shows as a slight change of brightness, and a deep leaf needs nine surfels at the same place", "anchors": ["libs/pointrender/microbuf_proj_func.cpp: renderNode", "libs/pointrender/diffuse/DiffusePointOctree.cpp: makeTree"]}
{"id": "C11", "title": "Nested input streams do not disturb the outer stream", "statement": "Reading a nested stream (archive, inline RIB) in the middle of another and returning restores the outer stream's lookahead token, position and comment handling, so that the outer token sequence is the one that would have been read without the nesting.", "quantifier": "every outer stream and position, every nested stream, every nesting depth", "why_tests_cant": "depends on the entire interleaving of two token histories", "anchors": ["libs/riutil/ribtokenizer.cpp: pushInput, popInput", "libs/riutil/ribtokenizer.h: get, unget, peek"]}
{"id": "C110", "title": "The filters of pixels have the shapes they should have", "statement": "All filters of pixels are even and treat both axes alike; the Gaussian filter falls off with the distance in the window; box and disk are one within and zero outside; the triangle is the distance to the nearest edge; the filter of Catmull and Rom is twice the cubic of the comment; the filter of Mitchell is the product of two cubics; the sinc filter is one in the middle, zero at other pixels and never more than one; the Bessel filter is windowed by a cosine and zero outside the ellipse.", "quantifier": "all places and widths", "why_tests_cant": "weights are normalised over the samples, so that a wrong shape or window shows only as slightly softer pictures", "anchors": ["libs/core/filters.cpp: RiGaussianFilter, RiMitchellFilter, RiBoxFilter, RiTriangleFilter, RiCatmullRomFilter, RiSincFilter, RiDiskFilter, RiBesselFilter"]}
{"id": "C111", "title": "Light in the small pictures is composed from front to back and averaged over the cone", "statement": "A pixel is covered by the sum of the coverages of its samples, at most wholly; its light is what each sample covers of the part still free, in order, so that it is between the least and the greatest times the coverage, and nothing adds light behind a wholly covered pixel; its distance is that of the nearest sample; the radiosity and the occlusion are the means of the pixels in the cone with weights from angle and size, between the least and the greatest, and zero without such pixels.", "quantifier": "all lists of samples with coverages that are not negative, all pixels, cones and sizes", "why_tests_cant": "a wrong composition shows only as a slight change of indirect light", "anchors": ["libs/pointrender/RadiosityIntegrator.cpp: addSample, radiosity", "libs/pointrender/RadiosityIntegrator.h: defaultPixel"]}
{"id": "C112", "title": "The rows and pixels of BMP files are where the format has them", "statement": "A row of a BMP file is the least multiple of four bytes that holds its pixels; the places of the parts of the pixels are all different, behind the headers and within the size in the header; a call with part of a row sets exactly the bytes of these pixels; all rows in any order give a file with every pixel at its place as blue, green and red; data that is not one row is refused; the file is as long as its header says, and the header has forty bytes.", "quantifier": "all widths and heights, all numbers of channels, all orders of the rows, all data", "why_tests_cant": "tests compare pictures of common widths on one platform and never open the file with a strict reader", "anchors": ["tools/displays/sdcBMP/d_sdcBMP.cpp: DspyImageOpen, DspyImageData, DWORDALIGN", "libs/core/ddmanager/ddmanager.cpp: order of the formats"]}
{"id": "C12", "title": "Array arguments: brackets and number types do not matter", "statement": "Fixed-length float arguments give the same result whether written bare or in brackets, with integers or floats; int, float and string arrays are delivered element for element and any element of a wrong type is an error.", "quantifier": "every token sequence and requested length", "why_tests_cant": "unbounded lengths and mixtures of token kinds", "anchors": ["libs/riutil/riblexer.cpp: getFloatArray, getIntArray, getStringArray, getFloatParam, getIntParam, getStringParam"]}
{"id": "C13", "title": "Primitive variable declarations parse and print consistently", "statement": "Printing a parameter type specification with a name and parsing the result gives back the same class, type, array size and name; malformed declarations are rejected.", "quantifier": "every class, type, positive array size and valid name", "why_tests_cant": "name and array size are unbounded; optional parts make the grammar ambiguous", "anchors": ["libs/riutil/primvartoken.cpp: parseDeclaration", "include/aqsis/riutil/primvartoken.h: operator<<"]}
{"id": "C14", "title": "Inline declarations override the dictionary, later declarations override earlier ones", "statement": "Looking a token up gives the inline type if it has one, otherwise the most recent declaration of that name, otherwise an error; declaring a name never affects other names.", "quantifier": "every history of declarations and every token", "why_tests_cant": "property over all histories", "anchors": ["libs/riutil/tokendictionary.cpp: TokenDict::declare, lookup"]}
{"id": "C15", "title": "Conditional RIB executes exactly one branch", "statement": "In an If/ElseIf/Else/IfEnd construct exactly the first branch whose condition is true (or Else) is passed on, at any nesting depth.", "quantifier": "every well-nested stream of requests and conditionals and every truth assignment", "why_tests_cant": "unbounded nesting and history dependence", "anchors": ["libs/riutil/renderutil_filter.cpp: IfBegin, ElseIf, Else, IfEnd"]}
{"id": "C16", "title": "Inline archives replay exactly what was recorded", "statement": "ReadArchive of an inline archive passes on exactly the requests recorded between its ArchiveBegin and ArchiveEnd, in order, and recording passes nothing on; a later archive of the same name replaces the earlier one.", "quantifier": "every history of archive definitions and reads", "why_tests_cant": "history dependence, nesting", "anchors": ["libs/riutil/renderutil_filter.cpp: ArchiveBegin, ArchiveEnd, ReadArchive", "libs/riutil/ricxx_cache.h: CachedRiStream"]}
{"id": "C17", "title": "Object instances replay exactly what was recorded", "statement": "ObjectInstance passes on exactly the requests recorded between the matching ObjectBegin and ObjectEnd.", "quantifier": "every history of object definitions and instances", "why_tests_cant": "history dependence", "anchors": ["libs/riutil/renderutil_filter.cpp: ObjectBegin, ObjectEnd, ObjectInstance"]}
{"id": "C18", "title": "Frame selection passes exactly the selected frames", "statement": "With frame selection active, requests outside frames and in selected frames are passed on unchanged and in order; requests in other frames are dropped.", "quantifier": "every request stream and frame list", "why_tests_cant": "unbounded streams", "anchors": ["libs/riutil/framedrop_filter.cpp: FrameDropFilter, parseFrames"]}
{"id": "C19", "title": "Frame list syntax denotes the union of its ranges", "statement": "A frame list such as 1,3,6-9 selects exactly the frames named by its numbers and inclusive ranges; malformed lists are rejected.", "quantifier": "every list text", "why_tests_cant": "unbounded text", "anchors": ["libs/riutil/framedrop_filter.cpp: parseFrames"]}
{"id": "C20", "title": "The tee delivers the same requests to both branches", "statement": "Both branches of a tee receive exactly the incoming requests in the incoming order.", "quantifier": "every request stream", "why_tests_cant": "unbounded streams", "anchors": ["libs/riutil/tee_filter.cpp"]}
{"id": "C21", "title": "Scope validation accepts exactly well-nested request streams", "statement": "Requests are rejected when used outside their allowed block, block ends must match the innermost open block, and a rejected request leaves the nesting state unchanged.", "quantifier": "every request stream", "why_tests_cant": "unbounded nesting and history", "anchors": ["libs/riutil/ricxx_validate.cpp: pushScope, popScope, checkScope and per-request checks"]}
{"id": "C22", "title": "Recorded requests own a faithful copy of their arguments", "statement": "A cached request replays with the same arguments (numbers, strings, arrays, parameter lists) it was given, independently of what happens to the caller's storage afterwards.", "quantifier": "every argument list", "why_tests_cant": "aliasing and packed storage offsets over unbounded sizes", "anchors": ["libs/riutil/ricxx_cache.h: CachedParamList, CachedString, CachedArray", "libs/riutil/multistringbuffer.h: MultiStringBuffer"]}
{"id": "C23", "title": "Enumeration names and values convert consistently", "statement": "Converting an enumeration value to its name and back gives the value; unknown names give the default.", "quantifier": "every value and every string", "why_tests_cant": "strings are unbounded; hash collisions", "anchors": ["include/aqsis/util/enum.h: enumCast, enumString"]}
{"id": "C24", "title": "Bit vectors behave like finite sets of indices", "statement": "After any history of set, clear, toggle, fill, complement, union, intersection and difference operations, each bit has the value the set operations give and the population count is the number of set bits.", "quantifier": "every operation history and every pair of sizes", "why_tests_cant": "unbounded histories and all byte-boundary sizes; mixed sizes", "anchors": ["include/aqsis/util/bitvector.h: CqBitVector", "libs/util/bitvector.cpp"]}
{"id": "C25", "title": "Search path expansion substitutes and terminates", "statement": "Expanding a search path replaces & by the old path, @ by the default path and %VAR% by the environment variable, leaves other text alone, and always terminates.", "quantifier": "every path text, old path, default path and environment", "why_tests_cant": "termination is not testable; unbounded text", "anchors": ["libs/util/file.cpp: expandSearchPath"]}
{"id": "C26", "title": "Intrusive list linking keeps forward and backward links consistent", "statement": "After linking or unlinking entries the list read forwards is the reverse of the list read backwards and contains exactly the linked entries.", "quantifier": "every sequence of link and unlink operations", "why_tests_cant": "unbounded operation histories", "anchors": ["include/aqsis/util/list.h: CqListEntry, CqList"]}
{"id": "C27", "title": "The object pool never hands out memory that is in use", "statement": "Every allocation returns an element that is properly aligned within a chunk, inside the chunk, and disjoint from every element allocated and not yet freed.", "quantifier": "every history of allocations and frees, every element size", "why_tests_cant": "unbounded histories", "anchors": ["include/aqsis/util/pool.h: CqObjectPool"]}
{"id": "C28", "title": "Occlusion culling never discards something visible", "statement": "An object reported as cullable has, at every sample cell its screen bound touches, a nearest depth beyond the stored opaque depth; an object not behind all touched cells is not culled.", "quantifier": "every sample grid size, every depth history, every bound", "why_tests_cant": "all tree shapes and histories; float bounds", "anchors": ["libs/core/occlusion.cpp: CqOcclusionTree::canCull, propagateDepths, setupTree"]}
{"id": "C29", "title": "Each sample owns its own occlusion leaf at the right place", "statement": "Distinct samples of a bucket are given distinct leaves of the occlusion tree, and the leaf given to a sample is the one whose screen cell contains it.", "quantifier": "every grid size and split order", "why_tests_cant": "all grid sizes", "anchors": ["libs/core/occlusion.cpp: treeIndexForPoint, setupTree, canCull"]}
{"id": "C30", "title": "CSG keeps exactly the surfaces where the Boolean combination changes", "statement": "Processing the hits along a ray keeps exactly the hits where the solid described by the CSG tree switches between inside and outside.", "quantifier": "every CSG tree and every hit list", "why_tests_cant": "unbounded trees and hit lists", "anchors": ["libs/core/csgtree.cpp: CqCSGTreeNode::ProcessSampleList, EvaluateState"]}
{"id": "C31", "title": "The thread scheduler bounds concurrency and never loses a wake-up", "statement": "At most the configured number of work units run at once, every submitted unit eventually starts, and submission does not block for ever once units finish.", "quantifier": "every interleaving of the submitting thread and the workers", "why_tests_cant": "interleavings cannot be enumerated by tests", "anchors": ["libs/core/threadscheduler.cpp: addWorkUnit, notifyWorkUnitFinished"]}
{"id": "C32", "title": "Channel buffers keep channels apart", "statement": "Values written to one channel of one pixel are read back unchanged until overwritten and never disturb any other channel or pixel; reallocating keeps no stale or out of bounds data.", "quantifier": "every set of channels, sizes and access history", "why_tests_cant": "unbounded histories", "anchors": ["libs/core/channelbuffer.h: CqChannelBuffer"]}
{"id": "C33", "title": "Tiled texture iteration visits every pixel of the region exactly once", "statement": "Iterating over a filter region of a tiled texture visits each pixel of the region that lies in the image exactly once and none outside it.", "quantifier": "every image size, tile size and region (also partly or wholly outside the image)", "why_tests_cant": "all size and offset combinations", "anchors": ["include/aqsis/tex/buffers/tilearray.h: CqTileArray::CqIterator", "include/aqsis/tex/buffers/texturebuffer.h", "include/aqsis/tex/buffers/filtersupport.h"]}
{"id": "C34", "title": "Filter regions form a set algebra", "statement": "Intersection, emptiness, containment and truncation of filter regions agree with the corresponding operations on sets of pixels.", "quantifier": "all integer bounds", "why_tests_cant": "unbounded integers", "anchors": ["include/aqsis/tex/buffers/filtersupport.h"]}
{"id": "C35", "title": "The mipmap pyramid is consistent", "statement": "The chain of reduced images ends with a 1x1 image after finitely many steps, has the sizes the reader expects, and level coordinates transform consistently.", "quantifier": "every base image size", "why_tests_cant": "unbounded sizes", "anchors": ["libs/tex/maketexture/downsample.h: CqDownsampleIterator, downsample", "libs/tex/filtering/mipmap.h: CqMipmap::initLevels"]}
{"id": "C36", "title": "File type detection depends only on the leading bytes", "statement": "The detected image type is determined by the first bytes of the file, the signatures are mutually exclusive and short files are never read out of bounds.", "quantifier": "every file content", "why_tests_cant": "unbounded contents", "anchors": ["libs/tex/io/magicnumber.cpp: guessFileType"]}
{"id": "C37", "title": "Interpolation class sizes agree with the primitive's topology", "statement": "The number of uniform, varying and vertex values demanded for patch meshes and curves is the number of patches/segments, corners and control points.", "quantifier": "every mesh size, wrap mode, basis step and curve vertex count list", "why_tests_cant": "unbounded sizes", "anchors": ["include/aqsis/riutil/ricxxutil.h: patchMeshIClassCounts, curvesIClassCounts"]}
{"id": "C38", "title": "File search returns the first existing candidate", "statement": "Searching a file in a path list returns the first directory entry that contains it, absolute and explicitly relative names bypass the list, and nothing is returned only when no candidate exists.", "quantifier": "every file name, path list and file system content", "why_tests_cant": "unbounded", "anchors": ["libs/util/file.cpp: findFileNothrow"]}
{"id": "C39", "title": "A whole ASCII RIB stream tokenises to what was written", "statement": "Tokenising the ASCII output for any sequence of requests and comments yields the request names and arguments in order and then end of file: no argument is split, merged with its neighbour or lost, whatever the nesting indentation.", "quantifier": "every finite sequence of requests and comments, every argument list, every indentation", "why_tests_cant": "Token boundaries depend on every combination of adjacent arguments and on the characters of the strings; tests sample a few streams.", "anchors": ["libs/riutil/ribwriter.cpp AsciiFormatter", "libs/riutil/ribtokenizer.cpp RibTokenizer::scanNext"]}
{"id": "C40", "title": "Filtering a texture follows the wrap modes", "statement": "Filtering over a region accumulates every point of the region exactly once, with the value the texture has there when extended by the wrap modes (black, periodic, clamp, trunc).", "quantifier": "every region, image size and pair of wrap modes", "why_tests_cant": "unbounded sizes, 16 mode pairs, regions covering many periods", "anchors": ["include/aqsis/tex/filtering/filtertexture.h: filterTexture, detail::filterWrappedBuffer"]}
{"id": "C41", "title": "Filter accumulators form weighted means", "statement": "Accumulating samples gives, for each requested channel, the weighted mean of that channel (constant images are reproduced, results stay between the samples' bounds), the fill value for missing channels, and shadow amounts between 0 and 1 that do not decrease with depth; cached kernels add up to 1.", "quantifier": "every sequence of samples, weights, channel selection and bias", "why_tests_cant": "unbounded sequences; weights cancel or are dropped only for particular filters", "anchors": ["include/aqsis/tex/filtering/sampleaccum.h: CqSampleAccum, CqPcfAccum", "libs/tex/filtering/cachedfilter.cpp, cachedfilter.h"]}
{"id": "C42", "title": "Splitting a patch mesh gives every patch its own data", "statement": "Every patch of a bilinear or bicubic mesh receives exactly its control points, its corner values and its uniform value, wrapping around in periodic directions; no index is out of range.", "quantifier": "every mesh size, wrap mode and basis step", "why_tests_cant": "unbounded sizes, four wrap mode combinations", "anchors": ["libs/core/geometry/patch.cpp: CqSurfacePatchMeshBicubic::SplitInternally, CqSurfacePatchMeshBilinear::Split", "libs/core/geometry/patch.h"]}
{"id": "C43", "title": "Splitting a group of curves gives every segment its own data", "statement": "Every segment of a linear or cubic curve group receives exactly its control points, its end values and its curve's uniform value, wrapping around for periodic curves.", "quantifier": "every list of curve sizes, wrap mode and basis step", "why_tests_cant": "unbounded lists", "anchors": ["libs/core/geometry/cubiccurves.cpp: convertToBezierBasis, Split", "libs/core/geometry/linearcurves.cpp: Split"]}
{"id": "C44", "title": "Each reduced mipmap pixel is the kernel applied to the wrapped image", "statement": "Every pixel of the half-size image is the filter kernel, centred on the pixel, applied to the source image as extended by the wrap modes; constant images stay constant; every kernel weight is read in range.", "quantifier": "every image, kernel size, pixel and wrap mode pair", "why_tests_cant": "unbounded sizes; edges and corners with mode pairs", "anchors": ["libs/tex/maketexture/downsample.h: downsample, downsampleNonseperable", "libs/tex/maketexture/cachedfilter.h"]}
{"id": "C45", "title": "The buckets tile the image and are rendered once each", "statement": "Every pixel of the image lies in exactly one bucket; the buckets to render are exactly those with a pixel in the crop window; they are processed once each, row by row.", "quantifier": "every resolution, bucket size and crop window", "why_tests_cant": "unbounded sizes; partial buckets at the edges and crop windows of all positions", "anchors": ["libs/core/imagebuffer.cpp: SetImage, NextBucket, RenderImage", "libs/core/renderer.cpp: initialiseCropWindow"]}
{"id": "C46", "title": "A surface reaches every bucket it touches", "statement": "A surface posted at any time during rendering gets, when each bucket that finds it hidden passes it on, into every bucket not processed yet that its bound touches, and never into a processed one; only surfaces further than half the filter width from the crop window are thrown away.", "quantifier": "every bound, bucket grid and set of processed buckets", "why_tests_cant": "needs occlusion in particular buckets at particular times", "anchors": ["libs/core/imagebuffer.cpp: CullSurface, PostSurface, RepostSurface"]}
{"id": "C47", "title": "A micropolygon is added to every bucket that may sample it", "statement": "A micropolygon whose bound contains a point of the pixels a bucket samples is added to that bucket, once, if the bucket is still to be rendered; it is added to no other buckets than those its bound, enlarged by the filter overlap, touches.", "quantifier": "every bound, filter width, bucket size and crop window", "why_tests_cant": "unbounded; off-by-one at bucket borders shows as missing single samples", "anchors": ["libs/core/imagebuffer.cpp: AddMPG"]}
{"id": "C48", "title": "Samples in the overlap of buckets are taken once and passed on", "statement": "Every pixel in the crop window and within filter reach of it is sampled by exactly one bucket, and when a bucket is filtered all places within reach of the filter hold the samples of the pixels at these places.", "quantifier": "every resolution, bucket size, crop window and filter width", "why_tests_cant": "an invariant over the whole sequence of buckets with eight kinds of cached segments", "anchors": ["libs/core/bucketprocessor.cpp: setupCacheInformation, preProcess, postProcess, buildCacheSegment, applyCacheSegment", "libs/core/imagebuffer.h: axialNeighbours"]}
{"id": "C49", "title": "All numeric encodings of binary RIB are read as specified", "statement": "Integers of one to four bytes, fixed point numbers with any position of the point, 32 and 64 bit floats in binary RIB are read with the value the RenderMan specification gives them, consuming exactly their bytes.", "quantifier": "every byte content, every code, every following byte sequence", "why_tests_cant": "aqsis' own writer uses few of these encodings, so round-trip tests never exercise them; 2^64 patterns", "anchors": ["libs/riutil/ribtokenizer.cpp: scanNext, decodeInt, decodeFixedPoint, decodeFloat32, decodeFloat64"]}
{"id": "C50", "title": "Varying control flow of shaders equals execution point by point", "statement": "Code generated for assignments, conditionals, conditional expressions, while/for loops, break and continue on varying values, run by the virtual machine on all points of a grid at once with its running-state stack, leaves at every point exactly what executing the source statement for that point alone leaves there; it ends without failed assertion or stack underflow, with the stacks balanced; and it does not end if some point alone does not end.", "quantifier": "every nesting of these statements, every grid size, every assignment of values to points, every content of recycled temporaries", "why_tests_cant": "the result depends on how all points of a grid diverge together; nesting of break, continue and else is unbounded, and tests compare images of particular shaders only", "anchors": ["libs/slcomp/backend/vmoutput.cpp: Visit(IqParseNodeWhileConstruct&), Visit(IqParseNodeLoopMod&), Visit(IqParseNodeConditional&), Visit(IqParseNodeConditionalExpression&), rsPush, rsPop", "libs/shadervm/shadervm1.cpp: SO_RS_PUSH, SO_RS_POP, SO_RS_INVERSE, SO_RS_JZ, SO_RS_BREAK, SO_S_GET, SO_S_JZ, SO_merge", "libs/shadervm/shaderexecenv/shaderexecenv.h: RunningStatesBreak, InvertRunningState, PopState"]}
{"id": "C51", "title": "Hits at a sample point are composed in order of depth", "statement": "The colour and opacity of a sample point is the front-to-back composition of all surfaces hit there, sorted by depth, whatever order they are rendered in and although opaque hits cull what lies behind them; the depth is the one the depth filter (min, max, average, midpoint) defines over the surfaces reaching the z threshold; the output variables are those of the nearest surface; the sample is valid exactly if something was hit.", "quantifier": "every number and order of hits, every depth, colour, opacity, matte flag, depth filter and z threshold", "why_tests_cant": "the order in which surfaces reach a sample depends on splitting and bucket order; tests compare images with few layers", "anchors": ["libs/core/bucketprocessor.cpp: sampleMPG, StoreSample", "libs/core/imagepixel.cpp: CqImagePixel::clear, Combine", "libs/core/imagepixel.h: SqImageSample"]}
{"id": "C52", "title": "Pixels are the weighted means of the samples under the filter", "statement": "Each number of a pixel is the mean of all samples within the filter's width of the pixel centre, weighted by the filter at the subpixel centre; constant samples give constant pixels; a non-negative filter stays in the range of the samples; alpha is the mean filtered opacity; coverage is the part of the pixel covered; depth lies between the depths of the surfaces; a pixel without hits is blank whether or not its bucket is marked empty; all table and sample accesses are in bounds; the early exits of exposure change nothing.", "quantifier": "every filter width and function, sample count, bucket shape and content of the samples", "why_tests_cant": "the filter tables depend on real-valued widths with rounding in opposite directions; an image test sees small intensity errors only if a reference for that width exists", "anchors": ["libs/core/bucketprocessor.cpp: InitialiseFilterValues", "libs/core/bucketprocessor.cpp: FilterBucket", "libs/core/bucketprocessor.cpp: ExposeBucket, ImageElement"]}
{"id": "C53", "title": "Each sample point belongs to exactly one of neighbouring micropolygons", "statement": "A sample point is hit by a micropolygon just if it lies in it, the edges being shared out so that of the micropolygons of a grid meeting at an edge or corner exactly one is hit; the answer does not depend on the samples tested before; every sample of the bucket that is hit is looked at, once; a hit lies in the bound of the micropolygon; its parameters and depth are those of the point.", "quantifier": "every micropolygon (convex of either orientation, with short sides, or any), every sample position, region and sample count", "why_tests_cant": "hits on edges are a set of measure zero, which random sample positions of a test scene practically never meet, and a missed sample is one wrong dot", "anchors": ["libs/core/micropolygon.cpp: ComputeVertexOrder, cachePointInPolyTest, fContains, CalculateBound", "libs/core/bucketprocessor.cpp: RenderMPG_Static", "libs/core/bilinear.h: CqInvBilinear"]}
{"id": "C54", "title": "The samples of a pixel are spread evenly over area, time and lens", "statement": "Each pattern of the multi-jittered sampler has one sample in each subpixel, one in each column and one in each row; its one-dimensional samples have one in each interval; its index table is a permutation; a pixel filled from any of the cached patterns keeps this, its times lie in the shutter interval, and the index of a lens cell leads to the one sample whose lens offset is in that cell; no access is outside of the tables. The grid sampler puts the samples at the subpixel centres.", "quantifier": "every sequence of random numbers in [0,1), sample counts, pattern picked, pixel, shutter interval", "why_tests_cant": "a sample outside of its subpixel only shows as noise in an image, and the permutations depend on random numbers", "anchors": ["libs/core/multijitter.cpp: multiJitterIndices, setupJitterPattern", "libs/core/grid.cpp: setupGridPattern", "libs/core/imagepixel.cpp: setSamples"]}
{"id": "C55", "title": "Random numbers are those of MT19937 and stay in their ranges", "statement": "After Reseed the outputs are those of the published generator for that seed, whatever the state before and whatever the size of unsigned long; without Reseed they are those for the default seed; tempering is a bijection of 32-bit words; no access is outside of the state vector. A random float is at least 0 and below 1 in spite of rounding to nearest, a random float or integer of a range is below the range, and dividing by 2^32 instead would give 1.", "quantifier": "every seed, state, number of calls, word size of at least 32 bits, range, rounding to nearest", "why_tests_cant": "the outputs that round badly are a few in 2^32, and the wrap-around of the state vector shows after 624 calls only", "anchors": ["libs/math/random.cpp: init_genrand, genrand_int32", "libs/math/random.cpp: RandomInt, RandomFloat, Reseed"]}
{"id": "C56", "title": "Moving micropolygons are found by exactly the samples they cover at their times", "statement": "The keys of a moving micropolygon get the points at their times. During each division of the shutter interval the micropolygon stays in the bound computed for it. A micropolygon is stored, once, in exactly those samples of the sample region whose position it covers at the time of the sample, and only samples of the pixel are read.", "quantifier": "every number of keys with increasing times, motion, shutter interval, number of divisions, number and stratified times of samples, positions inside of the pixels", "why_tests_cant": "a sample is lost only if its time and position fall into the gap between a wrong bound and the true one; rounding exceeds the array for rare shutter times only", "anchors": ["libs/core/micropolygon.cpp: CqMicroPolyGrid::Split keyframeTimes", "libs/core/micropolygon.cpp: CqMicroPolygonMotion::BuildBoundList, Sample", "libs/core/bucketprocessor.cpp: RenderMPG_MBOrDof"]}
{"id": "C57", "title": "Depth of field finds exactly the samples a micropolygon covers as seen from their lens positions", "statement": "Lens positions are points of the unit disc, and the bound kept for each cell of the lens contains its lens positions. The circle of confusion over a range of depths is between the computed extremes. The bounds used for distribution and for the search of samples contain the micropolygon as seen from the lens positions concerned. A micropolygon is stored, once, in exactly those samples of the sample region that it covers as seen from their lens positions.", "quantifier": "every number of samples, lens, micropolygon in front of the camera, assignment of lens cells to samples, lens positions in their cells, sample positions inside of the pixels", "why_tests_cant": "a sample is lost only where a wrong bound ends before the true one: a thin margin at few lens positions, for tilted micropolygons only", "anchors": ["libs/core/bucketprocessor.cpp: CalculateDofBounds, RenderMPG_MBOrDof", "libs/core/imagepixel.h: projectToCircle", "libs/core/renderer.h: GetCircleOfConfusion, MinCoCForBound", "libs/core/micropolygon.cpp: CqMicroPolygon::Sample, dofSampleInBound", "libs/core/imagebuffer.cpp: AddMPG"]}
{"id": "C58", "title": "Attributes behave as if every block and every primitive had its own", "statement": "A request changes the attributes of the current block only. Attribute, frame, world and solid blocks restore the attributes at their end; transform and motion blocks leave them changed. A primitive keeps the attributes that were current when it was made. The sharing of attributes and of parameter lists, and the copying by reference counts, cannot be observed.", "quantifier": "every sequence of requests (parameters, shaders, lights, blocks of all types, primitives), including unbalanced and rejected ones", "why_tests_cant": "sharing depends on the history of blocks, primitives and writes; a wrong count is seen only if some other holder of the same object is looked at afterwards", "anchors": ["libs/core/attributes.h: Write, pAttributeWrite, CqHashTable", "libs/core/attributes.cpp: operator=", "libs/core/api/graphicsstate.h/.cpp: mode blocks", "libs/core/renderer.cpp: Begin/End*ModeBlock", "libs/core/api/ri.cpp: Attribute, Color, Surface, Illuminate, TrimCurve, ShaderLayer"]}
{"id": "C59", "title": "Transformations are the product of the requests, at every time of a motion block", "statement": "The current transformation is, at each key time, the product of the matrices of the requests so far, where the requests in a motion block apply one to each time and other requests to all times; transform blocks restore it. Its handedness is that of the determinant. Key times are in order and different. Surplus requests in a motion block fail an assertion.", "quantifier": "every sequence of requests, every set of key times, every group of matrices with a sign of the determinant", "why_tests_cant": "the transformation is held in four places (static matrix, keys, default object, flags), whose consistency depends on the whole history of motion blocks and transform blocks", "anchors": ["libs/core/transform.cpp: SetTransform, SetCurrentTransform, ConcatCurrentTransform, mergeKeyTimes", "libs/core/motion.h: CqMotionSpec", "libs/core/renderer.cpp: ptransSetTime, ptransConcatCurrentTime, BeginMotionModeBlock", "libs/core/api/ri.cpp: Identity, Transform, ConcatTransform, CoordSysTransform, MotionBegin, WorldBegin", "libs/core/geometry/points.cpp"]}
{"id": "C60", "title": "Matrices are the matrices of linear algebra", "statement": "Products, inverses, transposes, determinants, sums and multiples of 4x4 matrices are those of linear algebra, whatever the shortcut for matrices marked as the identity; a matrix has an inverse just when its determinant is not zero. Points, vectors and normals are transformed as points, vectors and normals. Translations, scales, rotations and skews do what they say. Comparison uses the tolerance asked for.", "quantifier": "every matrix over an ordered field, every vector, every angle", "why_tests_cant": "elimination with pivoting has a path for each order of the rows; the flag of the identity multiplies the paths; a test compares a few matrices with tolerance", "anchors": ["libs/math/matrix.cpp: operator*=, PreMultiply, Inverse, Determinant, Rotate, skew constructor, isClose", "include/aqsis/math/matrix.h: operators, vectorTransform, normalTransform, constructors", "libs/core/api/ri.cpp: Skew"]}
{"id": "C61", "title": "Bicubic patches are diced, split, bounded and converted as Bezier surfaces", "statement": "The grid of a bicubic patch has at each point the value of the Bezier surface of its sixteen control values. The two halves of a split patch are the two halves of its surface. The bound of a patch with positive weights contains the surface, and the bounds of the halves are inside of it. Conversion from any other basis keeps the surface. This holds for parameters of every type and for arrays.", "quantifier": "every control net over an ordered field, every pair of dice sizes, every pair of bases, every parameter point, positive weights", "why_tests_cant": "forward differences accumulate over the grid; a test compares a few patches at a few points, with tolerance", "anchors": ["libs/core/geometry/patch.cpp: bicubicPatchNatSubdiv, NaturalSubdivide, Bound, bicubicPatchNatDice, ConvertToBezierBasis", "libs/core/forwarddiff.h: CqForwardDiffBezier", "libs/riutil/risyms.cpp: RiBezierBasis"]}
{"id": "C62", "title": "Primitive variables keep their values through loading, copying, splitting, dicing and transforming", "statement": "Each value of a primitive variable in a request, with each of its array elements, is found again in the parameter. Copying one value changes this value alone and completely. Splitting a quadrilateral splits the interpolated value into its two halves. Dicing puts the interpolated value at each grid point. A shader that asks for the variable is given its values. Transforming the surface transforms each value. This holds for every storage class and for arrays.", "quantifier": "every storage class, array length, number of values, values, dice sizes, indices", "why_tests_cant": "the classes differ by storage class and by being an array, which gives twelve cases of each operation; scenes use few of them", "anchors": ["libs/core/api/ri.cpp: ProcessPrimitiveVariables", "libs/core/parameters.h: SetValue, SetSize, pValue, Subdivide, Dice, DiceOne, CopyToShaderVariable", "libs/core/parameters.cpp: CqParameter::Create", "libs/core/geometry/surface.cpp: NaturalSubdivide, Transform, Dice", "libs/core/bilinear.h: BilinearEvaluate"]}
{"id": "C63", "title": "Bilinear patches and triangles are split, bounded, cut and diced as the surfaces they are", "statement": "The pieces of a split patch or triangle cover exactly its surface, with the same values of all variables, and do not overlap. Values on a triangle are linear between its vertices, also after splits. Bounds contain the surface and touch it. The line of a triangular grid keeps exactly the points of the triangle, so that triangles that share an edge leave no gap. The lengths that decide about splitting are halved by every two splits. Grids have at most the wanted number of micropolygons. Dice sizes are rounded to powers of two when asked for.", "quantifier": "every patch and triangle over an ordered field, every parameter point, split direction and number of splits, every dice length, every 32 bit number", "why_tests_cant": "a test splits a few patches and looks at images; gaps of width zero show at single samples, and undefined shifts work by chance of the processor", "anchors": ["libs/core/geometry/patch.cpp: CqSurfacePatchBilinear::Split, Bound, Diceable", "libs/core/geometry/polygon.cpp: CreatePhantomData", "libs/core/micropolygon.cpp: triangle split line", "include/aqsis/math/math.h: ceilPow2, lround"]}
{"id": "C64", "title": "General polygons are cut into triangles that cover them", "statement": "The triangles made of a polygon with holes have its vertices as corners, add up to the area between the loops, have the direction of the first loop and contain every point as often as the loops go around it. Loops are joined at their closest vertices. Polygons are projected to a plane in which they keep their shape. Face varying and uniform values of triangles are those of the polygon. A request for a primitive leaves the attributes alone.", "quantifier": "every list of loops of vertices in an ordered field, both values of the attribute Orientation, every way to decide between equal distances, every point off the lines of the triangles", "why_tests_cant": "tests look at pictures of a few letters; polygons whose closest vertices do not see each other, walls over the diagonal and changed attributes need special scenes", "anchors": ["libs/core/api/genpoly.cpp: CqPolygonGeneral2D", "libs/core/api/genpoly.h: CqPolygonGeneral2D::operator[]", "libs/core/api/ri.cpp: GeneralPolygon, PointsGeneralPolygons"]}
{"id": "C65", "title": "Polygons and faces of meshes are split into patches that cover them", "statement": "A polygon is split into patches and triangles with its vertices as corners; their triangles are those of the fan, cover the polygon once if it is convex, and have the values of the polygon at its vertices without gaps between them. The normal is perpendicular to the polygon and shows to the side given by the orientation. A mesh is split into its faces, each with its own indices and its own uniform and face varying values; faces with invalid indices are left out.", "quantifier": "every number of vertices, every vertices in an ordered field, every piece, every lists of counts and indices, both orientations", "why_tests_cant": "tests use triangles and quadrilaterals; polygons with vertices in line and meshes with an invalid index in one of their faces need inputs that no test has", "anchors": ["libs/core/geometry/polygon.cpp: CqPolygonBase::Split, Bound, CqSurfacePolygon::CheckDegenerate, CqSurfacePointsPolygons::Split", "libs/core/geometry/polygon.h: PolyIndex, FaceVaryingIndex, MeshIndex"]}
{"id": "C66", "title": "Bounds contain what they bound, and culling removes nothing that is seen", "statement": "A transformed box contains the images of all points of the box and is as small as possible. The bound of a moving surface contains its points at all times, the bound of a displaced surface the displaced points. The points of a moving surface are where its transformation and that of the camera take them. A surface is culled only if no point of it between the clipping planes is seen through the lens within half a filter width of the crop window. A box is on one side of a plane just when all of its points are.", "quantifier": "every box, every matrix (affine, or a projection for boxes in front of the eye), all transformations of object and camera over time, all shutter times, all options", "why_tests_cant": "tests render scenes with the shutter opening at 0, uniform scales and objects well inside of the picture; missing points show only at the border or in a few frames", "anchors": ["libs/core/bound.h, bound.cpp: CqBound", "libs/core/clippingvolume.h: whereIs", "libs/core/plane.h: CqPlane", "libs/core/geometry/surface.cpp: AdjustBoundForTransformationMotion", "libs/core/geometry/surface.h: CqDeformingSurface::Bound", "libs/core/imagebuffer.cpp: PostSurface, CullSurface", "libs/core/renderer.cpp: StorePrimitive, Time, matSpaceToSpace", "libs/core/micropolygon.cpp: CqMicroPolyGrid::Split"]}
{"id": "C67", "title": "Levels of detail share the samples of a pixel", "statement": "If the ranges of levels of detail follow on each other then every sample is taken from just one level. A level is not seen outside of its range, is complete in the inner part of the range and changes linearly in between. A surface is culled just when no sample could be taken from it. The importances of a surface depend on its own size and range only.", "quantifier": "every list of ranges, every size, every sample, all attributes and transformations, every sequence of surfaces", "why_tests_cant": "tests look at one or two levels at a few sizes; gaps or double cover at the borders of ranges and importances left over from other surfaces need special scenes", "anchors": ["libs/core/renderer.cpp: PostSurface", "libs/core/api/ri.cpp: Detail, DetailRange, Points", "libs/core/attributes.cpp: defaults", "libs/core/bucketprocessor.cpp: RenderMPG_*"]}
{"id": "C68", "title": "Splines are the curves of their bases, without gaps, within their control points", "statement": "The parameter interval is shared evenly by the sections of a spline; in each section the spline is the curve of its basis on four consecutive control points. Sections meet, and for Catmull-Rom, B-spline and Hermite splines they meet with the same tangent. At 0 and 1 the spline function gives the ends of the curve. Bezier, B-spline and linear splines stay in the hull of their control points; translating the control points translates the spline. No control point outside of the given ones is read, whatever the rounding. Each shading point gets the spline of its own control points.", "quantifier": "every basis, every number of control points, every parameter, every value type (a vector space), every set of running shading points", "why_tests_cant": "there is one test with four points of a linear spline; errors at joints and ends show at single parameter values only, reading outside of the control points mostly gives plausible values", "anchors": ["include/aqsis/math/spline.h: CqCubicSpline", "libs/math/spline.cpp: splineTypes", "libs/shadervm/shaderexecenv/shadeops_deriv.cpp: SO_fspline ... SO_spsplinea"]}
{"id": "C69", "title": "Every pixel of the crop window reaches the display, quantized as asked", "statement": "When all buckets are rendered, the file driver holds for each pixel of the crop window the pixel of the picture, whether the driver takes buckets or scan lines, and no access leaves its block of memory. A quantized value is the integer nearest to zero + value * (one - zero) + dither * random, limited to min and max, in the smallest format that holds them; larger values never give smaller numbers; without quantization values are passed on. Quantization given with the display wins over the option. The channels of a file come in the order red, green, blue, opacity, depth, each from its variable.", "quantifier": "every resolution, bucket size and crop window that is not empty, every picture, every quantization, value and random number, every mode", "why_tests_cant": "images are compared by eye or by tolerance for one resolution and without crop window; a shift by one pixel at a bucket or crop border, or a conversion that overflows, needs an unlucky combination of sizes", "anchors": ["libs/core/ddmanager/ddmanager.cpp: DisplayBucket, FormatBucketForDisplay, CollapseBucketsToScanlines, SendToDisplay, selectDataFormat, LoadDisplayLibrary", "tools/displays/file/display.cpp: DspyImageOpen, DspyImageData", "tools/displays/dspyutil/dspyhlpr.c: DspyReorderFormatting"]}
{"id": "C70", "title": "Every point of a points primitive is drawn once, with its own values, where it is", "statement": "Splitting ends with pieces that have each point exactly once and are no larger than the grid size. A micropolygon has position, width and variables of one and the same point. The bound of a primitive holds its points with their widths, also while they move. A point is hit exactly by the samples nearer than its radius, at its depth; a moving point is on the straight way between two keys, and every sample that hits it is in a bound of that time. A moving transformation puts the points where the transformation of that time puts them.", "quantifier": "every number of points, order of nth_element, grid size, widths, matrices, key times and sample positions", "why_tests_cant": "which points land in which piece depends on the implementation of nth_element and on the positions; points at the border of the bound and points with three keys are rare in test scenes, and a missing micropolygon is not seen among thousands", "anchors": ["libs/core/geometry/points.cpp: CqPoints::Split, CopySplit, Diceable, Bound, pointsNaturalDice, InitialiseMaxWidth, CqMicroPolyGridPoints::Split, CqMicroPolygonPoints::Sample, CqMicroPolygonMotionPoints::BuildBoundList, Sample", "libs/core/geometry/kdtree.h: CqKDTree::Subdivide", "libs/core/geometry/surface.h: CqDeformingSurface::Bound"]}
{"id": "C71", "title": "Trim curves cut the surface along the curves that were given", "statement": "The points of a trim curve are those of the rational B-spline of its order, knots and control points. Inserting knots and clamping change the knots as asked for and not the curve; no denominator is zero. A point is inside a loop by the parity of the edges crossed: this does not depend on the direction or the start of the loop, is right for triangles, adds up over the triangles of a loop, and does not change on a way that touches no edge. A surface point is drawn exactly if it is in an odd number of loops, with the sense turned around for \"outside\". RiTrimCurve divides its arrays among the curves without gap or overlap and uses the given range of parameters.", "quantifier": "every order, number of control points, knots, control points and weights, every parameter, every set of loops, points and micropolygons", "why_tests_cant": "B-spline identities hold for a continuum of knots and parameters; multiple knots at the ends of a domain, curves along a line and loops smaller than a micropolygon are not in test scenes", "anchors": ["libs/core/geometry/trimcurve.cpp: CqTrimCurve::FindSpan, BasisFunctions, Evaluate, InsertKnot, Clamp, CqTrimLoop::Prepare, TrimPoint, LineIntersects, CqTrimLoopArray::TrimPoint, LineIntersects", "libs/core/api/ri.cpp: RiCxxCore::TrimCurve", "libs/core/micropolygon.cpp: CqMicroPolyGrid::Split, CqMicroPolygon::Sample"]}
{"id": "C72", "title": "NURBS surfaces are the tensor products of B-splines that were given, also after clamping, splitting and dicing", "statement": "The basis functions are those of Cox and de Boor, add up to 1 and divide by nothing that is zero; a surface is evaluated as their tensor product on its closed domain, with the curves of its outer rows and columns as borders and its corner points at the corners. Inserting and refining knots keeps the curve and puts the knots where they belong, as many as asked for up to the order. Clamping gives end knots of full multiplicity and the same surface. Splitting in either direction and cutting into segments give legal surfaces that together are the given one, without a gap at the seam. Dicing gives the points of the surface at equal steps, row after row, with the borders on the borders. The bound contains the surface. All variables are split in the same direction, and the parameters u and v are those of the range that was given.", "quantifier": "every order of at least 2, every number of points, knots, points and weights, all parameters of the closed domain, all grid sizes", "why_tests_cant": "the identities hold for a continuum of knots, parameters and points; a wrong index of a refinement or a seam shows only for particular knots and looks like noise in a picture", "anchors": ["libs/core/geometry/nurbs.cpp: CqSurfaceNURBS::FindSpanU, FindSpanV, BasisFunctions, Evaluate, InsertKnotU, InsertKnotV, RefineKnotU, RefineKnotV, ClampU, ClampV, SplitNURBS, Bound, NaturalDice, Split, SubdivideSegments, SetDefaultPrimitiveVariables", "libs/core/geometry/nurbs.h: CqSurfaceNURBS", "libs/core/api/ri.cpp: RiCxxCore::NuPatch"]}
{"id": "C73", "title": "The laths of a subdivision mesh link exactly the facets that share an edge, and the neighbourhood queries return each neighbour once", "statement": "Building a mesh from facets always ends. Lath i of a facet stands at its vertex i, cf and ccf go around the facet and are inverse to each other. Two laths are linked around a vertex if and only if their facets share the edge between them in opposite directions. Laths of a vertex that no chain of links connects are given different vertices with the same values, each lath keeps its own face varying value, and nothing is moved if every vertex is a manifold point. On any mesh whose links fit together ec is an involution that exchanges the ends of an edge, ccv is the inverse of cv, and Qfe, Qvf, Qve, Qvv, Qee and Qff return exactly the laths, facets, edges and vertices they are named after, each once, with one more edge than facets exactly at a boundary. isBoundaryVertex and isCornerVertex say what their names say.", "quantifier": "all lists of facets with three or more distinct vertices of which no two have an edge in the same direction (building); all meshes whose links fit together (queries)", "why_tests_cant": "there are infinitely many meshes; a fan that is cut in the wrong place, or a lath that is visited twice, appears only at vertices of a particular shape and order of facets", "anchors": ["libs/core/geometry/lath.h: CqLath::cf, cv, ec, ccv, ccf, Qfv, isBoundaryVertex, isCornerVertex", "libs/core/geometry/lath.cpp: CqLath::ccfBoundary, Qfe, Qve, Qvv, Qvf, Qee, Qff, cQfv, cQvv, cQve, cQvf", "libs/core/geometry/subdivision2.cpp: CqSubdivision2::Prepare, AddFacet, Finalise, DuplicateVertex", "libs/core/api/ri.cpp: RiCxxCore::SubdivisionMesh"]}
{"id": "C74", "title": "The masks of a subdivision step are those of Catmull and Clark with creases, do not depend on the lath they are computed from, commute with affine maps, and the limit masks are theirs", "statement": "The new point of a facet is the average of its corners. The new point of an edge is the average of its ends and the two facet points, blended with its middle by the sharpness, and the middle on the boundary; both sides of the edge give the same point. A vertex on the boundary moves to (e1 + e2 + 6 v) / 8, one of a single facet stays. A vertex inside of the mesh moves to the blend of the smooth position Q/n + 2R/n + (n-3)S/n, of the position on the curve through its two hardest edges, and of itself, with weights 1 - h2, h2 - h3 and h3 for the second and third largest sharpness, whatever the order in which the edges are visited; every lath of the vertex gives the same point. For four-sided facets this is the usual mask, bicubic B-splines at valence four. A sharp corner stays. Varying variables are interpolated, facevertex variables are treated as discontinuous exactly where the facets disagree. All masks commute with affine maps. Limit points are (n² v + Σ(4e + f)) / (n(n+5)) inside, with facets of another number of corners replaced by one with the same average, and (4v + e1 + e2) / 6 on the boundary.", "quantifier": "all meshes whose links fit together, all values in a vector space over an ordered field, all sharpnesses that are not negative, every valence and every number of corners", "why_tests_cant": "the masks depend on valence, number of corners, number of sharp edges and the order in which edges are visited; the hardest edges are chosen by a search with ties, and a wrong weight shows only as a slightly different surface", "anchors": ["libs/core/geometry/subdivision2.cpp: CqSubdivision2::CreateVertex, CreateEdgeVertex, CreateFaceVertex, limitPoint, isDiscontinuousFaceVertex, isDiscontinuousFaceVertexEdge", "libs/core/geometry/subdivision2.h: CqSubdivision2::EdgeSharpness, CornerSharpness", "libs/core/geometry/lath.h: CqLath::Qef"]}
{"id": "C75", "title": "Subdividing the facets of a mesh in any order gives the refined mesh with the values of the masks, sharpness squared, each facet once, and can be repeated to any level", "statement": "Calls of SubdivideFace for the facets of one level, in any order and also repeatedly, end and keep all laths, values and tags that were there. Each corner of a facet gets four new laths that are one facet: corner, middle of the next edge, middle of the facet, middle of the edge. The new laths are linked around each vertex exactly to those of the neighbouring facets that are subdivided too, so that when all are, the mesh is the refined mesh. Two new points are one exactly if they belong to the same vertex, edge or facet. They have the values that the masks give, whichever facet was first; face vertex variables those of their own facet. The halves of a sharp edge get the square of its sharpness, new inner edges none. A facet that was subdivided before gives the same new facets again. The new facets given back are all of the next level, each once, and the next level can be subdivided in the same way; from the first level on there are four quadrilaterals for each. Limit points of smooth and of boundary vertices do not move. Every mesh of good facets is a first level.", "quantifier": "all meshes whose links fit together and whose facets visit no vertex twice, all sequences of facets of a level, all numbers of levels, all values in a vector space over an ordered field, all sharpnesses that are not negative", "why_tests_cant": "neighbours are found through child, middle and parent pointers that other facets have left behind, and through links that exist only when the neighbour was subdivided; the number of orders grows factorially, and a point made twice shows only as a crack", "anchors": ["libs/core/geometry/subdivision2.cpp: CqSubdivision2::SubdivideFace, subdivideNeighbourFaces, AddVertex, AddEdgeVertex, AddFaceVertex, CreateVertex, CreateEdgeVertex, CreateFaceVertex, limitPoint", "libs/core/geometry/subdivision2.h: CqSubdivision2::AddSharpEdge, AddSharpCorner", "libs/core/geometry/lath.h: CqLath"]}
{"id": "C76", "title": "The code for a shader that calls its own functions does what call by reference and call by value say", "statement": "The code written out for the body of a shader, with the bodies of all called functions in it to any depth, runs to its end, leaves nothing on the stack, and leaves in every variable the value that the source says: a parameter whose argument is a variable is that variable, also through further calls and when two parameters get the same variable; any other argument is evaluated once, before the body, into a variable that belongs to this call; locals of a function are those of its definition. An expression leaves exactly one entry with its value. Every name used in the code is declared.", "quantifier": "all parse trees of any size and any depth of calls, all extern chains, all contents of the variables, all built in functions as arbitrary functions", "why_tests_cant": "renaming goes wrong only for particular combinations of depth, aliasing and nesting, and the references on the stack only when an operand changes a variable that waits there; shaders used as tests rarely do either, and the pictures then are only slightly wrong", "anchors": ["libs/slcomp/backend/codegenvm.cpp: CreateTranslationTable, pTranslatedVariable, CreateTempMap, FindTemporaryVariable", "libs/slcomp/backend/vmoutput.cpp: CqCodeGenOutput::Visit", "libs/slcomp/backend/vmdatagather.cpp: CqCodeGenDataGather::Visit", "libs/slcomp/parse/parsenode.h: IsVariableRef", "libs/shadervm/shaderstack.h: CqShaderStack::PushV, Pop", "libs/shadervm/shadervm1.cpp: SO_pushv, SO_ipushv, SO_pop"]}
{"id": "C77", "title": "A name in a shader means the innermost declaration of it, and every declaration makes a variable of its own", "statement": "When the parser has read a file, every use of a variable was resolved to the innermost declaration in the blocks around it up to the function, then to the variables of the file, then to the standard ones; extern to the innermost declaration in the scopes outside; a call to the functions of the name in the innermost scope that has any. Every declaration found a variable of its own, different from those of all other scopes, also closed ones. Names that differ in one letter have different hashes.", "quantifier": "all files as sequences of declarations, uses, calls, blocks and functions nested to any depth, all lists of standard variables and functions, all hash functions without collisions on the names looked up", "why_tests_cant": "variables are kept in one list under names composed of the names and numbers of scopes and are found by a hash: collisions and ambiguous names need particular numbers of scopes or letters, and a wrongly resolved variable is no error but another picture", "anchors": ["libs/slcomp/parse/scanner.ll: check_type", "libs/slcomp/parse/parser.yy: FindVariable, FindFunction, strNameSpace, pushScope, popScope, function_declaration, variable_definitions, def_expression", "libs/slcomp/parse/vardef.cpp: CqVarDef::FindVariable, FindStandardVariable, AddVariable, GetVariablePtr", "libs/slcomp/parse/funcdef.cpp: CqFuncDef::FindFunction", "include/aqsis/util/sstring.h: CqString::hash"]}
{"id": "C78", "title": "A shader expression that the compiler accepts reads only values of the kinds that were written", "statement": "When the type checker accepts an expression, the code written for it consists of instructions of the machine, every instruction finds values of the kinds it reads on the stack, and one value of a type that was asked for is left over what was there before. Of several functions of a name, one is chosen that can be called with the arguments and needs the least conversions, and if one has exactly the types of the arguments no conversion is written. Checking never runs into undefined behaviour.", "quantifier": "all expressions made of numbers, strings, variables, array elements, assignments, comparisons, logical operators, conditional expressions, casts, triples, matrices and calls, nested to any depth; all tables of functions; all lists of requested types", "why_tests_cant": "values on the stack carry no type that is checked at run time: a wrong conversion reads another union of values and gives a wrong colour or a crash only for the one combination of overloads, nesting and conversions that leads to it", "anchors": ["libs/slcomp/parse/typecheck.cpp: CqParseNodeFunctionCall::TypeCheck, CqParseNodeUnresolvedCall, CqParseNodeVariable, CqParseNodeAssign, CqParseNodeOp, CqParseNodeQCond, CqParseNodeCast, CqParseNodeTriple, CqParseNodeHexTuple", "libs/slcomp/parse/parsenode.cpp: m_aaTypePriorities, FindCast, validTypes, ResType", "libs/slcomp/parse/optimise.cpp: CqParseNodeCast::Optimise", "libs/slcomp/backend/vmoutput.cpp: CqCodeGenOutput::Visit"]}
{"id": "C79", "title": "A compiled shader is loaded as it was compiled", "statement": "What the shader compiler writes into a file is read by the virtual machine as the same shader: its type, the standard variables it uses, its variables with storage, class, type and length in their order, and for both programs, in order, the command of every instruction, every number, every string as the escapes in it mean, for every name the variable with that name, and for every jump the place of its label. A file of another version is rejected.", "quantifier": "all shaders whose names are words of at most 254 characters with different hashes, with numbers that can be read back, fewer than 32768 variables, jumps only outside of the defaults of parameters; all strings made of characters and escapes; all 337 instructions of the machine; all places where earlier searches ended", "why_tests_cant": "the file is text without types: a wrong number of arguments, a lost character or a wrong index shifts everything after it, and the searches begin where the last one ended, so that the result of a lookup depends on all lookups before", "anchors": ["libs/shadervm/shadervm.cpp: CqShaderVM::LoadProgram, GetToken, GetString, GetNumericEscapeChar, m_TransTable, operator=", "libs/shadervm/shadervm.h: GetVar, FindLocalVarIndex, AddCommand", "libs/shadervm/shaderexecenv/shaderexecenv.cpp: gVariableNames, FindStandardVarIndex", "libs/slcomp/backend/vmoutput.cpp: CqCodeGenOutput::Visit( IqParseNodeShader& ), OutputLocalVariable, StorageSpec", "include/aqsis/util/sstring.h: CqString::hash"]}
{"id": "C80", "title": "Quadrics are diced on their surface, split into its halves and lie within their bounds", "statement": "The points into which a sphere, cone, cylinder, hyperboloid, paraboloid, torus or disk is diced are the points of the surface which the RenderMan interface defines, at the parameters of the grid. Splitting gives two quadrics which are the two halves of the surface. The bound of a quadric in its own space contains all of its surface, and so all points of all grids. A sphere begins and ends at the heights asked for.", "quantifier": "all quadrics of the seven kinds with all real sizes and angles, all sizes of grids, all parameters from 0 to 1; the bound for angles which go up, and for tori for which the tangents of the four arcs are found to intersect", "why_tests_cant": "the surface is a continuum: tests look at a few quadrics, mostly with whole turns for which the extreme points are among those the bound is made of; the control points are missing only for special radii and angles", "anchors": ["libs/core/geometry/quadrics.cpp: CqSphere, CqCone, CqCylinder, CqHyperboloid, CqParaboloid, CqTorus, CqDisk (constructors, Bound, PreSubdivide, DicePoints), CqQuadric::Circle, RevolveForBound, sinCosGrid, IntersectLine, ProjectToLine", "libs/core/bound.cpp: CqBound::Encapsulate", "include/aqsis/math/math.h: degToRad"]}
{"id": "C81", "title": "Normals of quadrics are perpendicular to the surface and on the side of its orientation", "statement": "The normal at each point of each grid of a quadric is perpendicular to the derivatives of the surface in both directions, and lies on the side of their cross product, or on the other side if the orientation is reversed.", "quantifier": "all quadrics of the seven kinds, all grids and all their points apart from the apex of paraboloids; the side for shapes given in the usual order which are turned forwards", "why_tests_cant": "a normal that is slightly wrong changes shading only a little, and tests use round objects for which the normal is the point itself; the side matters only for one-sided surfaces and reversed orientations", "anchors": ["libs/core/geometry/quadrics.cpp: DicePoints of the seven classes, CqQuadric::DiceAll"]}
{"id": "C82", "title": "Image buffers with channels of different types: layout, copies, compositing and conversions", "statement": "The channels of a pixel are packed one after the other whatever channels are added or reordered. Copying one buffer to another, by position or by names, with any offset, changes exactly the pixels where the two overlap and the channels that are asked for, and gives them the values of the source; compositing gives src + (1 - alpha) dst there; filling gives the constant or the checks everywhere. Values of one and two bytes come back from floats unchanged, and a float written to such a type is read back within little more than half a step of it.", "quantifier": "all lists of channels of all types apart from half floats, all sizes of buffers, all offsets of either sign, all contents, all maps of names whose names exist and whose destinations are different, all values", "why_tests_cant": "offsets of both signs in both directions, mixed types of different sizes and overlaps which are empty or partial multiply into more cases than tests visit; rounding in conversions depends on single values", "anchors": ["include/aqsis/tex/buffers/channellist.h: CqChannelList", "include/aqsis/tex/buffers/imagechannel.h: CqImageChannelTyped", "libs/tex/buffers/imagechannel.cpp: copyFrom, compositeOver, CqImageChannelZoom", "libs/tex/buffers/mixedimagebuffer.cpp: copyFrom, compositeOver, clearBuffer, initToCheckerboard, channelImpl"]}
{"id": "C83", "title": "Conditions of IfBegin and ElseIf compare the parameter they name with the value that is written", "statement": "A condition with a name of a parameter, a relation and a value is true if the relation holds between the value of the parameter and the one that is written, for attributes and for options, for integers, floats, points and strings; conditions which cannot be read and parameters which are not known are true.", "quantifier": "all names, all spaces between the words, all six relations and four operations, all values of parameters, all numbers in decimal digits", "why_tests_cant": "the texts come from scene files; the six relations are found by hashes and the value is read again for each type, so each combination takes its own way through the code", "anchors": ["libs/core/api/condition.cpp: TestCondition", "include/aqsis/util/sstring.h: CqString::hash"]}
{"id": "C84", "title": "The stack of the shader machine computes values although its temporaries are recycled", "statement": "The results of operators are in temporaries from pools, pushed by reference and given back when the operator that uses them is done. A program computes the same values as a machine without storage; no two entries of the stack share storage, no temporary in use is in a pool, and none is lost. An assignment of an expression, with conditional expressions in it, gives the variable the value of the expression at the running points and leaves everything else alone.", "quantifier": "all sequences of the modelled instructions, all numbers of points, running states, contents of temporaries, variables of both classes and all expressions", "why_tests_cant": "which temporary a value is in depends on all instructions before; a temporary that is released too early shows only when a later instruction takes it from the pool while it is still needed", "anchors": ["libs/shadervm/shaderstack.h: CqShaderStack", "libs/shadervm/shaderstack.cpp: GetNextTemp, Release", "libs/shadervm/shadervm1.cpp: SO_pop, SO_mergef, SO_S_GET, SO_addff", "libs/shadervm/shadervariable.h", "libs/slcomp/backend/vmoutput.cpp"]}
{"id": "C85", "title": "Command lines are parsed as documented", "statement": "Names lead to the option of that name, to the one they are an alias of or to the flag they negate; integers are read as C reads them; separators split arguments; a command line of the documented form (options with one or two dashes, values after `=` or `:` or in the next argument, combined single-letter flags, `--`) is an error exactly if an option is given arguments it does not take, and otherwise the variables and the left-over arguments are as the command line says. What is accepted is of that form.", "quantifier": "all tables of options whose names are not empty and have no `=` or `:`, all command lines", "why_tests_cant": "the parser is a loop over arguments with three pieces of state (an option that waits for its argument, one that takes all arguments, the end of options) in which every combination of two neighbouring arguments is another case", "anchors": ["libs/util/argparse.cpp: ArgParse::parse, OptionHandler::handleargsplit", "include/aqsis/util/argparse.h", "tools/aqsis/aqsis.cpp: main"]}
{"id": "C86", "title": "Textures are filtered with the ellipse of the pixel", "statement": "The filter of a pixel is the Gaussian whose covariance is the sum of that of the pixel's parallelogram, the blur and the reconstruction, widened only where it is more than the allowed aspect ratio, never beyond its largest width, and unchanged otherwise; weights are those of the Gaussian to within 1/80 inside the ellipse and 0 outside, looked up inside the table; all pixels with a weight are in the support, whose sides the ellipse touches; the reported minor axis is the diameter of the largest disk inside; the filter for a level of the mipmap is the one for the base scaled and shifted.", "quantifier": "all parallelograms, resolutions, blurs that are covariances, cut-offs > 0, aspect limits >= 1, all pixels and levels", "why_tests_cant": "the support and the clamp depend on seven real parameters; an ellipse whose support is one pixel short or whose eigenvectors are taken from the cancelling row differs only in few, rotated cases", "anchors": ["libs/tex/filtering/ewafilter.h: CqEwaFilter, CqEwaFilterFactory, CqNegExpTable", "libs/tex/filtering/ewafilter.cpp: clampEccentricity, computeFilter", "include/aqsis/math/matrix2d.h"]}
{"id": "C87", "title": "Textures and environment maps are filtered over the region asked for", "statement": "A region is scaled about its centre by the widths and moved by whole numbers along periodic axes only; a direction is looked up in a cube map on a face it meets, at the place it is seen at, with the sides seen there, and in a map of longitudes and latitudes at the place whose direction it is; moving along a side of the region on the texture moves the direction as the side in space does; blurs are the same in all directions.", "quantifier": "all quadrilaterals and parallelograms, all widths, all wrap modes, all directions other than 0 (sides in a latlong map: away from the poles), all fields of view", "why_tests_cant": "the maps are smooth functions with six branches; a wrong sign or a wrong tangent map only makes textures a little blurred or turned on one face", "anchors": ["include/aqsis/tex/filtering/samplequad.h", "libs/tex/filtering/texturesampler.h: CqTextureSampler::sample", "libs/tex/filtering/cubeenvironmentsampler.h: CqCubeEnvironmentSampler::sample", "libs/tex/filtering/latlongenvironmentsampler.h: directionToLatLong"]}
{"id": "C88", "title": "The level of a mipmap fits the filter", "statement": "The level chosen is the smallest one on which the filter still covers the number of pixels asked for (more of them with blur); levels are mixed when asked for, or on their own for large blurs, between the level and the next one only; what comes out lies between what the two levels give and changes continuously with the size of the filter; on the last level the support is limited.", "quantifier": "all options, all positive lengths of the minor axis, all sizes of the texture, all numbers of levels, all results of the levels", "why_tests_cant": "a level too many or too few only makes textures a little blurred or noisy; seams are visible only where a filter crosses from one level to the next", "anchors": ["libs/tex/filtering/mipmap.h: CqMipmap::applyFilter", "libs/tex/filtering/mipmap.h: CqMipmap::filterLevel"]}
{"id": "C89", "title": "Options of texture and shadow calls have the values given to them", "statement": "Each option of a texture call has the value last given under one of its names, at the point sampled, or else its default; wrong values fail an assertion and unknown names are left alone; mixing of levels is the way nearest to the number given; biases of shadows are the ones of the call, or else of the renderer, and the low one is never above the high one.", "quantifier": "all lists of names and values, all sets of running points, all options of the renderer", "why_tests_cant": "options interact through their order, through names that set two of them and through the state left by the point before; tests try one option at a time on constant values", "anchors": ["libs/shadervm/shaderexecenv/shadeops_tmap.cpp: CqSampleOptionExtractorBase, CqSampleOptionExtractor, CqShadowOptionExtractor", "libs/shadervm/shaderexecenv/shadeops_tmap.cpp: getRenderContextShadowOpts", "include/aqsis/tex/filtering/texturesampleoptions.h"]}
{"id": "C90", "title": "Gradient noise is continuous, of known size and periodic", "statement": "Noise in one to four dimensions is a sum over lattice points of linear functions, each times a smooth bump that ends at the next lattice points; it reads its table within bounds, is 0 at lattice points, continuous everywhere, repeats after 256 lattice points and with the periods of periodic noise, and gives the shading language values from 0 to 1.", "quantifier": "all points of the line, plane, space and space with time, all periods, all lattice points", "why_tests_cant": "the defects are at seams: faces of cells, negative coordinates, single cells with unlucky hashes; pictures of noise do not show them and tests sample a few points", "anchors": ["libs/math/noise1234.cpp: CqNoise1234::noise, CqNoise1234::pnoise, CqNoise1234::grad, CqNoise1234::perm", "libs/math/noise.cpp: CqNoise::FGNoise1, CqNoise::FGPNoise1"]}
{"id": "C91", "title": "Colours come back from other colour spaces", "statement": "Triples of hue, saturation and value or lightness are the colours of the colour wheel; conversions from rgb and back do not change a colour, nor the other way; ctransform goes through rgb, takes the names of the specification and leaves unknown spaces alone; YIQ has the luminance first.", "quantifier": "all colours, all triples with a hue within a turn, all names of spaces", "why_tests_cant": "conversions have a case for each sixth of the wheel and for greys, and errors in one of them show at single hues; a transposed matrix still gives a round trip", "anchors": ["libs/math/color.cpp: rgbtohsv, hsvtorgb, rgbtohsl, hsltorgb, HSLValue, rgbtoYIQ, YIQtorgb", "libs/shadervm/shaderexecenv/shadeops_matrx.cpp: CqShaderExecEnv::SO_ctransform"]}
{"id": "C92", "title": "Quasi-random points fill the square evenly", "statement": "Quasi-random numbers are the digits of the ordinals mirrored at the point, in the bases of a table of primes; any run of consecutive ordinals of the right length has exactly one point in each cell of a grid; the tables of points for texture filters are these points moved around the square.", "quantifier": "all ordinals, all bases, all grids, all sequences of random numbers, all dimensions", "why_tests_cant": "a wrong digit order or a base used twice gives points that look random; only counting in all cells of all grids shows that the points are even", "anchors": ["libs/math/lowdiscrep.cpp: s_primes, reverseRadical, CqLowDiscrepancy::Reset, CqLowDiscrepancy::Generate", "libs/tex/filtering/randomtable.cpp: Cq2dQuasiRandomTable", "libs/tex/filtering/randomtable.h: x, y"]}
{"id": "C93", "title": "Particles are spread over a mesh by area", "statement": "The emitter of hairs makes a face for each triangle and quadrilateral with its part of the vertices, gives it the part of the particles that its area has of all areas, and places particles within the face with weights of the vertices that are not negative and add to 1.", "quantifier": "all meshes, all positions, all random numbers", "why_tests_cant": "areas of squares are right even with the wrong triangles, and an uneven spread of hairs is not seen in a picture", "anchors": ["tools/procedurals/hairgen/emitter.cpp: EmitterMesh::particlesOnFace, triangleArea, faceArea, createFaceList", "tools/procedurals/hairgen/emitter.h: MeshFace"]}
{"id": "C94", "title": "Child hairs start where they are emitted", "statement": "Child hairs are weighted means of their parents, with positive weights that add to 1 and do not grow with the distance; they are moved so that their root is where they are emitted, with the variables of points; clumping moves them towards the nearest parent by the clump at the tip and not at the root.", "quantifier": "all numbers of variables, hairs and points, all distances, clumps and shapes", "why_tests_cant": "which variables are moved depends on their order in the file, and a hair that leaves the skin is seen from close by only", "anchors": ["tools/procedurals/hairgen/parenthairs.cpp: ParentHairs::childInterp, getParents, computeClumpWeights, perChildStorage, ParentHairs"]}
{"id": "C95", "title": "Shadow maps are seen from the light that sees the point best", "statement": "A view's weight for a point is the depth of the point for its light; of several views the first with the largest positive weight is taken, which for views from one place is the one whose axis is nearest; texture coordinates map the screen's square to the unit square with the second axis turned; the depth compared at a pixel is that of the surface at the pixel's centre, with the mean depth if there is no such plane.", "quantifier": "all matrices, numbers of views, points, quadrilaterals, planes and pixels", "why_tests_cant": "the depth of a sloping surface is wrong by an amount that the shadow bias hides, and choosing the wrong view shows on the seams of point lights only", "anchors": ["libs/tex/filtering/shadowsampler.cpp: CqShadowSampler::sample, CqShadowView::weight, CqShadowView::sample", "libs/tex/filtering/depthapprox.h: CqSampleQuadDepthApprox, CqConstDepthApprox"]}
{"id": "C96", "title": "Random samples of a region of a texture", "statement": "A random look at a region takes just the number of samples asked for, all of them pixels of the image in the region, and ends; each tile gets its part by area, exactly if the number is a multiple of the area, and on the average of the random numbers otherwise.", "quantifier": "all images, sizes of tiles, regions, numbers of samples and all random numbers from 0 to 1", "why_tests_cant": "a sample too many or a pixel outside of the region is seen for rare random numbers at the edges of tiles only", "anchors": ["include/aqsis/tex/buffers/tilearray.h: CqTileArray::CqStochasticIterator", "include/aqsis/tex/buffers/texturebuffer.h: CqTextureBuffer::CqStochasticIterator", "libs/tex/filtering/randomtable.h: Cq2dQuasiRandomTable", "libs/tex/filtering/shadowsampler.cpp: applyPCF"]}
{"id": "C97", "title": "Curves are split into their pieces", "statement": "A group of curves is split into the pieces between its vertices, in order: linear curves from each vertex to the next (and back to the first if periodic), cubic ones into pieces of four vertices in the steps of the basis; each piece has the varying values of its ends, the uniform value of its curve and its part of v from 0 to 1; after the change of the basis the vertices of a piece are the control points of the Bezier curve that is the curve of the basis; splitting a piece gives the halves of its curve.", "quantifier": "all numbers of curves and vertices, steps, bases, values and weights, periodic or not", "why_tests_cant": "an index off by one shows only in groups of several curves with different numbers of vertices, or in the last piece of periodic ones", "anchors": ["libs/core/geometry/linearcurves.cpp: CqLinearCurvesGroup::Split, linCurveNatSubdiv", "libs/core/geometry/cubiccurves.cpp: CqCubicCurvesGroup::Split, convertToBezierBasis, segmentsPerCurve, cubicCurveNatSubdiv"]}
{"id": "C98", "title": "Ribbons of curves", "statement": "The patch made of a piece of a curve is a ribbon with the curve in its middle: straight across, at right angles to the normal and to the curve, as wide as the widths say; the bounds of pieces and groups contain it; tangents are those of the curve, at the ends too unless all control points are the same; widths are scaled with the transformation.", "quantifier": "all control points, normals, widths that are not negative, and all points of the patch", "why_tests_cant": "tests draw curves facing the camera, where a wrong side, a tangent of length zero or a bound too small by part of the width is not noticed", "anchors": ["libs/core/geometry/cubiccurves.cpp: CqCubicCurveSegment::SplitToPatch, CalculateTangent, CqCubicCurvesGroup::Bound", "libs/core/geometry/linearcurves.cpp: CqLinearCurveSegment::SplitToPatch", "libs/core/geometry/curves.cpp: CqCurve::Bound, CqCurve::GetNormal, CqCurvesGroup::Transform"]}
{"id": "C99", "title": "Cell noise is constant in cells and different beside", "statement": "Cell noise is a number between zero and one, defined for all coordinates without a look outside of its tables; it is the same all over a cell of the integer grid and different in the cells beside, up to 2048 of them away in each direction; the noise of points has the noise of floats as its first component.", "quantifier": "all coordinates of up to four dimensions, and all entries of both tables", "why_tests_cant": "the tables have 4096 and 2048 entries and a coordinate that is left out still gives numbers that look random", "anchors": ["libs/math/cellnoise.cpp: CqCellNoise, permTableIndex, m_PermuteTable, m_RandomTable"]}
