# Machine-checked model of tmf (Lean 4)

Subject: the Rust crate `tmf` in `/repo` (read as text, never built or run).
Default features: `IndexType = u32`, `FloatType = f32`, no tokio, `obj_import` on.

## How the code is modelled

* Everything is a total, computable Lean function over `Nat`, `List`, `Option`
  and small records. Machine integers are `Nat` with an explicit `% 2^64`,
  `% 2^32`, ... wherever Rust wraps or casts.
* `Result` and panics become one type, `Outcome`: `ok a`, `err e`, `panic`.
  A panic is a value, so "does not panic" is a theorem about the function.
* Operations that panic with overflow checks and wrap without them take the
  build mode as a parameter (`Build.checked` / `Build.wrapping`). Theorems
  quantify over it unless they say otherwise.
* `&mut self` becomes "return the new value"; loops become structural recursion
  or fuel. Running out of fuel is a panic (or visibly wrong result), so the
  theorems also show that the fuel is enough.
* A reader (`std::io::Read`) is the list of bytes still to come, a *schedule* of
  short reads, and optionally a device error at the end. The importer is a
  program whose only effect is `read_exact n` (`Prog`), run against any reader.
  A writer is a list of `write_all` calls run against a sink that takes any part
  of a buffer per call and may refuse at any point.
* Floating point: every function is written against a record `FloatOps` of the
  primitive operations. Structural theorems hold for *every* such record, hence
  for IEEE arithmetic and any libm.
* Accuracy theorems are about `Ieee.ops lib`: binary32 and binary64 with
  round-to-nearest-even, subnormals, infinities and signed zeros, written out
  over integers (`Model/Ieee.lean`). `sin`, `cos`, `asin`, `log2` are parameters
  (`Libm`); theorems that depend on their values say what they assume.

## Layout

* `Verif/Model/*`  the code, function by function, each with file and lines.
* `Verif/Spec/*`   small independent specifications used in the statements.
* `Verif/Lemmas/*` helper lemmas.
* `Verif/Props/*`  the property theorems, one file per group, witnesses
  (`example`) that the hypotheses are satisfiable, and the negations for
  properties the code does not have (names ending in `_violated`).
* `seeded/LOG.jsonl` wrong programs tried against the theorems.
* `MANIFEST.json` maps properties to theorems.

## What is modelled, file by file

| file | modelled in | left out |
|------|-------------|----------|
| unaligned_rw.rs | Model/Bits | nothing: feature `byte_rw` selects the same 64-bit storage (lines 2-5), its 8-bit branch is never taken |
| read_extension.rs | Model/Basic, Arrays, F64Bits | |
| vertices.rs | Model/Arrays, Triangles | `as_triangles`-style helpers used only in tests |
| uv.rs, normals.rs, tangents.rs | Model/Arrays, FastTrig | `normalize_arr` as `Mesh.normalize` |
| custom_data.rs | Model/Custom, Mesh, CustomApi | |
| tmf.rs | Model/Custom, Segments, DecodeParts, Export, Import | `Debug` output |
| tmf_exporter.rs | Model/Export, OptTris, OptVertices | |
| tmf_importer.rs | Model/Import, Tasks, Segments, DecodeParts, Triangles, RawIndices, Analize, Memory | `read_triangle_sequence` (not called, only `todo!`) |
| lib.rs | Model/Mesh, Reorder, Unify, Arrays, One, Tasks | cloning of the mesh in `write_*_one` |
| verify.rs | Model/Verify, Report | |
| utilis.rs | Model/Reorder, Importer, Export, FastTrig | `cross`, `add_vec3`, `calc_deltas` (not called; the last one only ends in `todo!`) |
| unify_data.rs | Model/Unify | |
| reorder_triangles.rs | Model/ReorderTriangles | `println!` |
| lz77.rs | Model/Lz77 | `println!`, `calc_sw_size` (unused) |
| model_importer.rs, triangulation.rs | Model/Importer | |
| obj.rs | Model/Obj, FloatText, ObjIo | error texts, `Write::flush` of the target itself |
| material.rs | - | two constructors, not reachable from the API |

The feature `tokio_runtime` is off by default; Model/Tasks covers it (decoding tasks
that finish in any order, C24); `byte_rw` has no effect; `triangulation`, `fast_trig` (little-endian, C66), `double_precision` (C67, C81)
and `long_indices`/`short_indices` (Model/IndexWidth, C69: reading, writing and
checking .tmf; Model/IndexWidthObj, C73: reordering, pruning, unifying and .obj text;
Model/IndexWidthObjIo: the `BufReader` and `BufWriter` around .obj text) are modelled as extras. For
`double_precision` what is not covered is
`form_texture_resolution`, which takes f32 in both configurations; and `vec![_; len]`
of colours panics from 2^58 entries on instead of 2^59, which the model (as for
any allocation beyond the machine) treats as succeeding.

## Simplifications

* Strings are byte lists; where Rust needs UTF-8 the validity check is modelled.
* Allocation that is merely too large for the machine (an abort, not a panic) is
  treated as succeeding; `capacity overflow` is a panic of the model.
* `HashMap` is an association list plus an arbitrary iteration order; theorems
  quantify over the order.
* `join_all` runs the decoders in order; C24 treats them as tasks finishing in
  any order. Threads are not modelled.
* IEEE instance: a single NaN (payload and sign of NaN are not tracked);
  the libm functions are parameters.
* Printing and parsing floats (`{}` and `str::parse`) belong to the standard
  library. `Model/FloatText` models both for the IEEE instance: parsing rounds
  correctly, printing gives the shortest decimal that reads back, without an
  exponent, as `core::num::flt2dec` documents. That the digits are the shortest
  and read back is proved (C34). Theorems about other arithmetics assume
  `Spec.FloatTextLaws` (printed values parse back; no separators in the text).

## Properties

| id | how it is proved, or what is wrong |
|----|------------------------------------|
| C01-C05 | refinement of bit reader and writer to lists of bits; induction on the fields. C05 fails for width 32 double reads, width 0 triple reads, unequal pairs |
| C06, C07 | characterisation by powers of two; C07 fails from 2^31 on (width 32) and for wrong declared maxima |
| C08, C43 | induction on fuel; C43 is false: the exporter counts 11 bytes for a segment that takes 23, and cuts by the minimum save nothing since widths come from the maximum. Each cut removes 89 bits of a potential (width of the maximum minus width of the minimum, times length), so n indices of k bits have at most 1 + nk/89 pieces; a cut adds at most 24 bytes, and the array at most quadruples. This also bounds the segments in C48, C65 and C72 |
| C09 | running span equals total span at the last strictly inside vertex; debug builds overflow `u8` for huge meshes; with coordinates up to 2^76 and a `log2` that does not fall both builds cut alike (error analysis of the bit counts) |
| C10, C11, C12, C48, C49 | framing round trip, merge invariant (concatenation per array); custom data comes back reversed; 2^16-byte names, 2^16 segments and empty normal arrays of precision 64 break the file; `Props/AnyBuild.lean` gives an exact criterion for which written files are accepted, for either build of writer and reader |
| C13, C26, C27 | histories of calls, by induction |
| C14-C16, C50 | once for all programs, by induction on `Prog`; C50 is an independent grammar of files |
| C17 | induction on the write list |
| C18 | compositional no-panic predicate; three kinds of files do panic |
| C19, C20, C22, C25 | case analysis; compression 255 is reported as 1 |
| C21, C23 | framing lemmas; independent encoder for the old layout, every stored width: 32 and all from 64 on come back as zeros |
| C24 | result slots filled in any order; for whole files the loader with tasks is the same program as the plain one, so this holds for every source |
| C28, C29 | exact accepted set; off-by-one, uv ranges, tangents; saving a verified mesh can panic in four ways |
| C30, C31, C32 | invariants of the first-occurrence map and the combination table; empty index arrays and more than 2^32 corners are exceptions; empty vertex or normal arrays count as absent |
| C33-C35 | text reader total; round trip by induction on lines; names with slashes, meshes without normals, point clouds fail |
| C36, C40, C41 | error analysis of the IEEE operations; 25-30 bits, precision 1 colours, infinite and NaN data fail; 32-63 bits, possible without overflow checks only, collapse everything to the lower end (`Props/WideArrays`); repeated saving is not stable for colours and floats |
| C37 | invariant of the (wrong) bounding-box loop: it still covers everything but the last vertex; with 25-30 bits the factor 2^p-1 rounds to 2^p in f32, the largest coordinate wraps to the smallest and the rest is kept |
| C38 | error analysis with real sines and cosines, for any libm accurate to 2^-22 (`Spec.AccurateLibm`, shown satisfiable); a one-degree request can give six degrees near the poles, the sign of y can flip near the x axis, a z just above 1 wraps to 0; with 25-30 bits exactly the directions on the z axis and on the x axis are lost |
| C39 | bit round trip, any arithmetic |
| C42, C51 | square root and division error analysis for lengths from 2^-72 (C51: 2^-68) to almost 2^64; every normal longer than 2^64 becomes zero, every one with components up to 2^-75 loses all finite components (`C42_too_long_violated`, `C42_too_short_violated`); `C42_every` says what becomes of every normal, NaN and infinite ones included: in between the direction always stays, and below 2^-72 the length is from 2/5 to 2 |
| C52 | error bound of the quotient and of `log2`; from_rad_dev can ask for no bits at all |
| C53 | error analysis of the distance; induction over the triangles |
| C54 | false (box, z width, rounding down); a bound with factor 7 for ends inside the computed box; `Props/FileAccuracy.lean` lifts C36, C37, C38, C40 and C54 to whole files, for all widths such a file can have (at most 30, `Lemmas/SavedWidths`) |
| C55 | binary64 layout: decomposition of values into digits and shift; widening to f64 is exact |
| C56 | counting the bits of every write; the number of pieces is at most the number of elements plus one, which also gives C48 conditions on the mesh only |
| C57-C59 | invariant relating importer and scene over the lines (C57 also for corners that leave out the uv: vertices, normals and the uvs given are right, `C57_optional_uv_partial`, but the mesh gets uv indices that point nowhere, `C57_no_uv_violated`; corners without normal are refused, `C57_plain_violated`, `C57_no_normal_violated`); words of a face matter only through their values. Double blanks, missing uvs, negative numbers, zeros and plain polygons of nine corners are misread or refused; incomplete triangles break the exported text |
| C60 | the width is the fewest bits giving span/precision steps, but there is one step less than codes, so values can be off by twice the precision |
| C61 | inversion of the importer: every loaded mesh is a sequence of decoded segments; ranges of every decoder for any bytes. Normals and colours stored in no bits come out as cube corners and NaN |
| C62 | `Spec/Layout.lean` writes the layout down without the model's reader or writer; every encoder is shown to produce it, and the bytes are shown to determine the content (fixed widths, counts in front). `Spec/LayoutNumbers.lean` gives the codes of up to 31 bits a meaning in exact arithmetic, also below, beyond and at the ends of a scale, where only low bits are kept |
| C63 | histories of `add_custom_data(slice.into(), name)` and of additions made with `new_index` or `new_intiger`, followed by saving, loading, `lookup_custom_data` and the accessors; the fixed precision 0.01 of `into()` is put through C60. After loading the last entry under a name is found, before saving the first (C12) |
| C64 | every function that depends on the build is shown to panic with checks on or to give the same with checks off; the relation is closed under sequencing, loops and writes |
| C65 | the conditions of C09, C10-C12, C29, C36-C40, C56 and C60 are derived from inequalities on the mesh (`Spec/EndToEnd.lean`): error analysis of the shortest edge, of the box sides and of the quotients that give the widths (`Lemmas/VertexWidth.lean`). The last vertex of a run can still be off where the box does not reach it (C37, `XReached`, `YReached`), z needs `ZCovered` because its width is taken from mixed bounds, and from 25 bits on a coordinate must not be at the top of the box (`Topped`) |
| C66 | `Lemmas/PolyBound` is a verified checker for polynomial inequalities on an interval, `TrigTaylor` compares sine and cosine with Taylor polynomials; together with error bounds for the f64 operations they give the error of `fsin`. Exporter: equal function by function. Importer: a relation between programs that read alike (`ProgRel`), normals and tangents related by the error of the sine |
| C67 | the quantisation lemmas are proved for any binary format (`Lemmas/QuantizeAny`) and used at f64; `Lemmas/SavedWidths` shows that a file that was written used widths of at most 30 bits. For the two readers: control flow depends on counts, widths and bytes only, so `ProgRel` of C66 relates them, with f32 and f64 roundings of the same quotient compared |
| C68 | the parser of Model/FloatText finds the parts of the text again; what it rounds is the number itself, and rounding gives a nearest float (`rnd_nearest`). Conversely an accepted word has these parts |
| C69 | partial. Every reading function commutes with cutting off upper bits (`readTmfIn_cut`); the writer uses the type only as the start of a minimum. Files inside the limits mean the same to 64-bit and 32-bit readers (`readTmfIn_saved`), hence to all types that hold the indices. False: a file that needs more bits is not refused, index 65536 becomes 0 with `short_indices`; `verify` refuses meshes with exactly 2^16 vertices |
| C70 | proved. Text goes through a modelled `BufWriter` (8192 bytes, flushed at the end, dropped also after errors and panics) into a target with limited room. After a refusal the target holds a complete file of another scene: nothing in it shows that faces and later meshes are missing. |
| C71 | proved. Lines come from a modelled `BufReader` over a reader with any chunk sizes that may fail. |
| C72 | partial. Composition of C57 and C65. `StorableScene` states on the text's own values what saving needs: at least one vertex, bounded coordinates, no edge shorter than δ, not too many pieces. False without a vertex: an empty .obj file is read as one mesh, and saving it panics (`C72_empty_violated`). Vertices are accurate as in C65, that is where the box of the run reaches them; uv and normal hold for every corner. |
| C73 | partial. Reordering never cuts an index: new indices count elements in use, and there are no more than the type has values. Pruning is sound with any type. Unifying with fewer bits is unifying with more bits and cutting the result, so by counting it fails for every mesh with more different corners than the type has values. False also in .obj text: numbers a type cannot hold are read as 1; the writer computes one number too many and panics in checked builds, and writes number 0 without checks. |
| C74 | the counters stay below 2^64 (at most 65535 payloads of 2^31 bytes), so the report is the plain sum; the framing lemmas of C21-C23 give the files that have one; a stable sort of rows with distinct codes is strictly sorted by size and code, which makes the report unique |
| C75 | partial for vertices. Each step keeps what the corners select, and every array stays a selection of the original elements with at most one per corner; so the conditions of C65 carry over with room for what unifying adds, and what is loaded is a function of the element at each corner. Vertices come back with the accuracy of C65, which depends on the runs of the prepared mesh. |
| C76 | partial. Edges are counted with their direction; cutting off a corner with its two neighbours splits the outline. False from five corners on: the corner before the first is taken at `usize::MAX % n`; if n divides 2^64 - 1 this is the first corner itself, its ear value is NaN, and every such face gets a degenerate triangle. |
| C77 | partial. New ids count first uses, so merged arrays are a fixed point of reordering, and equal index arrays are one of unifying. False for tangents: `reorder_data` passes over them, so reordering after unifying separates their indices from the others. |
| C78 | partial. A decoded coordinate is a convex mix of the two stored bounds up to rounding, and the bounds of a run are coordinates of its vertices. False for widths of zero: the part of the way is then 0/0 and the vertex NaN. |
| C79 | proved. Loaded meshes have no NaN (C61, C78), keep their indices and sizes (C65) and fit `u32`, so they meet what export and import need (C34); equal buffers are equal triangles. Where a vertex lands is C65 and C78. |
| C80 | proved. Induction over the lines: the importer and the scene of the rewritten file stay together (`Tracks`), a face pushes the indices of its triangles (C47, C76), and reading these lines pushes the same. Faces of five or more corners need not be covered by their triangles (C76). |
| C81 | proved. The f64 square root (`Lemmas/DoubleSqrt`) and the real geometry of the encoding (`Lemmas/DoubleNormalReal`) give the distance as in C38; π/2 as the code computes it in f64 lies below π/2, so that no decoded cosine is negative and, unlike in f32, all signs are kept, and the axes are not lost with 25 to 30 bits. |
| C82 | proved. From the exact sizes of C56 and the monotonicity of rounded products, quotients and `log2`, through overflow, zero, infinities and NaN. |
| C83 | proved. Model/RawIndices has the memory as slots that may not have been written to; refinement to the function on lists, by induction on the pairs. |
| C84 | proved. Model/DecodeParts has the functions with their guards; case analysis on the types. |
| C85 | false as stated: for every n there is an array of 9 * n + 27 indices below 2^20 that nests n + 2 calls (`C85_violated`). Partial: at most one call and one more for every 89 bits of the array (`C85_partial`, `C85_linear_partial`); `C85_stack` says that the fuel of `optTrisFuel` is the depth of the stack. |
| C86 | false as stated: a last object without faces takes in the points of the others once more in every pass, so the file grows (`C86_violated`, `C86_loose_violated`). Partial: files as in C57 whose last object has faces give exactly the same meshes (`C86_again_partial`, with triangulation `C86_again_triangulation_partial`); `C86_tidy` for all meshes as the reader leaves them. |
| C87 | proved. No word an error starts with is the beginning of another, numbers end at a comma or a brace, and floats print differently (C34), so the text can be read back. |
| C88 | false as stated: for every n there are 2 * n + 4 vertices with coordinates up to 2^40 that nest n + 2 calls (`C88_violated`, for every accurate log2). Partial: the calls nest less deep than there are vertices (`C88_linear_partial`, `C88_partial`); `C88_stack` says that the fuel of `optVerticesFuel` is the depth of the stack. |
| C89 | false as stated: for every c there are index arrays (`C89_tris_violated`) and vertex arrays (`C89_vertices_violated`, for every accurate log2) whose cutting looks at more than c times as many elements as they have. Partial: at most the square of the length (`C89_vertices_partial`), for index arrays times 32/89, plus the length (`C89_tris_partial`). Counted are the elements of the arrays of all calls (`cutWork`), each of which a call reads a fixed number of times. |
| C90 | false as stated: a normal with a NaN is accepted and a unit vector is loaded in its place (`C90_nan_violated`); a normal of length 1.0009 is accepted and comes back 2.4 degrees off at every precision (`C90_angle_violated`); one pointing up with length 1 + 2^-10 comes back lying flat with 11 bits (`C38_wrap_violated`). Partial: accepted normals without NaN are finite and their squared length is within 0.002002 of 1 (`C90_length_partial`), all within 0.001998 are accepted (`C90_length_accepted`), and they come back within √(2h + 5/2 h² + 1/380) + 1/256, near the equator within 17/8 h + 1/256, for a step h, if z is at most 1 or there are at most 9 bits (`C90_kept_partial`). |
| C91 | false as stated: near the poles of the z axis a normal comes back more than 6 degrees off (`C91_normals_violated`), and an edge of length 5 comes back shorter than 1 (`C91_edges_violated`). Partial: the defaults are 7 bits, 14 bits and 0.1 (`C91_bits`); uv coordinates keep the promise, normals and tangents keep it up to latitude 54.7 degrees (z² ≤ 2/3) and come back within 7.5 degrees elsewhere, vertices come back within 0.2001 times any edge where the computed box covers them (`C91_file_partial`). |
| C92 | false as stated, even with a libm that rounds correctly: the arcsine computed from a decoded normal can lie just below the angle it was decoded from, and is rounded down by a whole step. With 7 bits, the default, the normal with codes (117, 54) turns one step in each of nine cycles, more than 5 degrees in all (`C92_violated`; a correctly rounding libm is `CorrectLibm`, it exists by `correct_exists`). Partial: from the first loaded mesh on the height never changes again, and each further cycle moves a normal by at most one step of the angle and 1/256 (`C92_partial`). |
| C93 | false as stated: with the default settings a point of a cloud between 0 and 10 loses one code in each of 64 cycles and ends more than 6/10 from where it started, where one save promises 1/100 (`C93_violated`, whole files, both builds). Partial: for meshes without triangles between vertices whose custom data are indices or integers, every number of cycles up to `2^19` succeeds with one and the same result in every build; names, index arrays, sizes and custom numbers stay (the custom arrays change places in each cycle), and no vertex leaves a cube around the vertices by more than `2^-19` of its largest bound per cycle (`C93_clouds_partial`). Missing: meshes with faces, whose shortest edge, and with it the widths, changes from cycle to cycle, and custom data of fractions and colours. |
| C94 | false as stated: the triangle (0,0,0), (0,1,0), (5.375,0,0) is saved with the default settings and loaded by every build, but its last vertex, which is outside the computed box, comes back on the first. The shortest edge is then 0 and asks for 255 bits per coordinate, so no build can save and load it a second time (`C94_violated`). Partial: with a precision up to 0.101, meshes with no custom data but indices and integers, with edges from 1/1000 on and of a size up to 8192 times the shortest edge, in which the boxes reach all vertices, can be saved and loaded twice, and no edge shrinks below an eighth in the first cycle (`C94_partial`); for point clouds see C93. |
| C95 | proved: n calls of `read_tmf` on one reader succeed exactly when it begins with n whole files, and leave the reader exactly behind them (`C95_files`); a call at the end reports an unexpected end of file (`C95_end`); files written by `write_tmf` are whole, so what was saved in one stream comes back file by file (`C95_saved`). `Whole` (Spec/Streams.lean) says that the file loads and that no byte can be left out at its end. |
| C96 | violated, with proofs: the precision attached on loading asks for one bit more each time. With the default 0.01 (7 bits) any colours can be saved 24 times, the next attempt panics in a debug build, and after 26 cycles a release build has turned every colour into transparent black (`C96_colors_violated`); white becomes transparent black at the 19th cycle in every build (`C96_white_violated`), and the custom floats 0 and 1 both become 0 at the 19th cycle (`C96_floats_violated`). What holds (`C96_colors_partial`): while p + k ≤ 25, where p is the first number of bits and k the number of cycles, colours in [0, 1] never get brighter and lose at most (2 − 2/2^k)/(2^p − 1). For floats (`C96_floats_partial`): while p + k ≤ 25, for numbers of size at most M with a range S between M/2^20 and 2^101 and at least 2^-79, every cycle uses one bit more, the ends of the range move by at most M/2^47 a cycle, and no number moves by more than (2 − 2/2^k)·S/(2^p − 1) + k·M/2^18. Missing: floats with a range below M/2^20, and meshes that hold other arrays as well. |
| C97 | .tmf proved (`C97_tmf`, `C97_async`, `C97_count`). .obj: one mesh as in C34 (`C97_obj_partial`: complete meshes, plain names). Several calls of `write_obj_one` on one output: false, since every call counts from 1 again. `C97_obj_stream` says exactly what is read: each mesh with its own triangles over the elements of all meshes so far; `C97_obj_violated` gives other vertices to the second of two meshes whenever it uses a number under which the first has another vertex. |
| C98 | Partial: for files that load and whose elements take bits, all requests together are at most 129 times the size of the file (`C98_loaded_partial`; `C98_exact`: a segment that decodes asked for exactly its array). For all bytes: names below 64 KiB, data at most 2 GiB, arrays other than colours at most 32 GiB, nothing above `isize::MAX` (`C98_bounded_partial`). Otherwise false: 36 bytes ask for any multiple of 16 bytes below 2^63, since the number of colours is not checked (`C98_colors_violated`); 26 bytes ask for 2 GiB of data (`C98_data_violated`); 35 bytes for 24 GiB of normals (`C98_normals_violated`); 44 bytes that load as an empty mesh for 8 GiB (`C98_empty_violated`). |
| C99 | Partial: a segment whose data is damaged behind its head still decodes to as many elements, each as before if none of its bytes changed, or panics in checked builds (`C99_segment_partial`); in a file any overwritten payload makes loading fail as that segment does, or leaves all other meshes, all names and all arrays not fed by that segment type as they were (`C99_file`). False for width 32, where damage to the first of three indices changes the third (`C99_width_violated`), and an index near 2^64 can be damaged into a panic (`C99_panic_violated`). |
| C100 | A file that loads still loads after any overwriting of packed data behind the heads, at every width, with the same names, arrays, lengths and custom segments (`C100_file`); for saved files in every build (`C100_saved`). In checked builds the stored minimum must leave room for the width: `C100_room_needed` is a file where one damaged byte makes loading panic. |
| C101 | A file whose meshes give every array the same segments in the same order loads to the same meshes, however segments of different arrays are interleaved and whatever unknown segments stand between them (`C101_file`). Which arrays a segment is for is a separate function of the type code and the mask byte (`feeds`). `C101_within_an_array`: exchanging two segments of one array changes the mesh. |
| C102 | Texts that say the same (`SaysSame`: line ends, lines without meaning, order of lines of different kinds within an object) are read the same (`C102_lines`, default features); line ends and comments for every way of adding faces (`C102_comments`); every text falls into such lines (`C102_every_text`). Limits: `C102_triangulation_limit`, `C102_last_return`. Errors are compared without their texts. |
| C103 | In any two files saved by one build, arrays with the same source (`SameSource`: the array, its setting, for vertices also the triangles, the three kinds of indices together) have the same segments byte by byte (`C103_bytes`, no limits on widths or sizes) and load to the same array (`C103_loaded`, within the limits of the format, if both files are accepted). That triangles matter to vertices: `C103_triangles_matter`. |
| C104 | Two numbers of one array (`KeepsOrder`) are not swapped by saving and loading a file, by the rounding rules of f32 and f64: uvs (`C104_uvs_partial`), custom floats and colours (`C104_custom_partial`), each axis of the vertices of one piece inside its box (`C104_vertices_partial`). With 25 bits or more the upper end comes back as the lower one (`C104_uvs_violated`), and the last vertex of a piece can be outside the box (`C104_vertices_violated`), so the full claim is false. |
| C105 | Equal elements of an array (`EqualStay`, lists only) come back equal, for any float operations and whole files: normals, uvs, tangents and custom data (`C105_arrays`); for the first three one rule holds for all files with the same settings (`C105_alone`). False for vertices: with the default settings, of (0,0,0), (1,1,1), (1/2,1/2,1/2), (1/2,1/2,1/2), (65536,…), (65536,…) the exporter stores the first three and the last three in separate segments, and the two equal vertices come back at 63/127 and 1/2 (`C105_vertices_violated`). What holds is equality within the segments (`C105_vertices_partial`). The same mesh shows that the order of coordinates is kept within segments only (`C104_pieces_violated`). |
| C106 | False as stated: by the rounding rules of f32 the normal (1,1,1) goes back and forth between two results for ever, so that every further call changes it (`C106_violated`). What holds: a call moves a component of a normal of unit length by at most 2^-19, after `k` further calls the normals are at most `k / 2^19` from the first result and still have unit length up to 2^-20, and nothing else of the mesh changes (`C106_near_partial`, for lengths from 2^-60 to almost 2^64). |
| C107 | Normals and tangents: one rule gives what comes back in all files with given settings, and it takes mirror images to mirror images, to the bit and for every library; the sign of a zero is lost (`C107_partial`; two files: `C107_normals_partial`). False for vertices: coordinates are cut off downwards, so the middle of a rod and the middle of its mirror image both come back too low (`C107_vertices_violated`). |
| C108 | Files with triangles and quads whose corners are at least δ apart are read, saved and loaded; the triangles cover the faces and all come back (`C108_quads_partial`), with normals and uvs within the precision asked for (`C108_accurate_partial`). False for pentagons: a file with one is read, but what was read cannot be saved with the default settings and loaded, in any build, as the first triangle cut off has no area (`C108_violated`, a consequence of `C76_violated`). |
| C109 | If some mesh has a triangle with two corners in the same place (each coordinate within `2^-75`), no build both saves and loads the file, whatever the other meshes are (`C109_degenerate`). The edge is `+0`, not `-0` (`dist_sign`), and asks for 255 bits (`width_zero`). Release builds do write such files (see the example beside the theorem). |
| C110 | For whole files: NaN, negative numbers and the negative infinity come back as `+0`; the positive infinity and numbers of `2^64` steps and more as 1; and `n + f` comes back between `n - 1/4` and `n + 5/4` steps below `f` (`C110_uvs_partial`, `C110_colors_partial`; the last up to 24 bits and `2^20` steps). So the claim is false above 1: with 10 bits, 100.5 comes back as about 0.4 (`C110_violated`). |
| C111 | Proved for `x = ±∞`, `y = +∞` and `z = -∞`, if one of the other coordinates is finite throughout (`C111_refused_partial`): the piece with that vertex asks for 255 bits. Also for `y = -∞`, if the vertex is not the last of its piece (`C111_sunk_refused_partial`). False for `z = +∞` (`C111_violated`), because the width for z is computed from the extent in y, and for `y = -∞` in the last vertex (`C111_sunk_violated`), because the loop lowers the z end by y and moves that to the y end one vertex later. Such arrays are stored, and every vertex of the piece comes back with NaN for z (`C111_lost` for a segment, `C111_file` for whole files), so the damage shows. |
| C112 | Proved for segments (`C112_filled`) and whole files (`C112_file`). NaN passes through minimum and maximum unnoticed and is cast to code 0, so it comes back as the lower end of the box of its piece; the box is exactly described, NaNs included (`box_sides`). |
| C113 | Proved for segments (`C113_filled`) and whole files (`C113_file`). The range is that of the numbers (`range_ends`); without numbers it keeps its start values, so NaNs become `f32::MAX` (`range_none`). |
| C114 | Proved (`C114_refused`, `C114_unsaved`): the range has no end (`range_endless`), so the array asks for 255 bits. |
| C115 | Proved for segments (`C115_stored`) and whole files (`C115_file`): NaN, infinities and numbers with a sign are not refused as a precision, but give a width of one bit (`precs_unusable`). |
| C116 | Proved for segments (`C116_stored`) and whole files (`C116_file`): the range of such an array is never below zero (`span_notBelow`), so NaN, infinities and numbers with a sign give a width of one bit (`floatPrec_unusable`). Arrays that are empty or hold only NaN have a range of `-∞` (`range_blank`): a precision that is NaN or infinite still takes one bit (`C116_blank_stored`), a finite one with a sign asks for 255 bits and is not saved with overflow checks (`C116_blank_unsaved`). |
| C44 | bits consumed; zero-width elements are exceptions |
| C45, C46, C47 | copy invariant; permutation of triples; count and membership |

Every negation is a theorem with a concrete witness next to the positive,
restricted theorem. The exact wording is in `MANIFEST.json`.

## Trusted base

* The Lean 4 kernel.
* Axioms: every theorem named in `MANIFEST.json` depends on a subset of
  `propext`, `Classical.choice`, `Quot.sound`; nothing else occurs
  (`#print axioms`). The subsets are listed in `AXIOMS.md`.
* The transcription from Rust to Lean (comments cite file and lines).
* The behaviour of the standard library and crates as transcribed: `read_exact`,
  `write_all`, `BufRead::lines`, `str::split`, `parse`, `Vec`, `HashMap::entry`,
  `sort_by`, `join_all`, IEEE arithmetic of `f32`/`f64`, saturating casts.
* Hypotheses about the environment appear in the statements: `OrderLaws`
  (proved for the IEEE instance), `FloatTextLaws` (proved for the instance),
  `F64Bytes` (an 8-byte encoding of `f64` that reads back; proved for the binary64
  layout, C55), `AccurateLibm` (C38 only:
  `sin`, `cos`, `asin` within 2^-22 of the real functions, with the right sign),
  `AccurateLog2` (where a bit count is computed from a deviation or an extent:
  `log2` within 2^-17, exact on powers of two), `MonotoneLog2` (C09 in debug builds:
  `log2` does not fall from 1 on). All are shown satisfiable
  (`Lemmas/LibmWitness.lean`), and all three follow if the library returns the
  nearest float (`CorrectMath`, `correct_suffices` in `Props/CorrectMath.lean`, with
  C65 and C91 restated for such libraries).

Outside the model: time, the memory actually used (what loading asks for is in Model/Memory), threads, file-system effects, bit-exact libm.
