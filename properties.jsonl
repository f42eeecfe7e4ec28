{"id": "C01", "title": "Bit-packed values survive a write/read round trip", "statement": "Any sequence of numbers written one after another to the bit-packed stream, each with its own width of 1 to 63 bits and each fitting its width, is returned unchanged and in order when the finished stream is read back with the same widths, whatever bytes follow the stream.", "quantifier": "for every list of (width 1..63, value < 2^width) pairs and every byte suffix", "why_tests_cant": "The state is an alignment offset carried through the whole history of writes; a test fixes one history, the claim is about every interleaving of widths and every alignment.", "anchors": ["src/unaligned_rw.rs: UnalignedWriter::write_unaligned", "src/unaligned_rw.rs: UnalignedWriter::drop", "src/unaligned_rw.rs: UnalignedReader::read_unaligned"]}
{"id": "C02", "title": "Bit-packed layout is dense and most-significant-bit first", "statement": "The bytes produced by writing a list of values are exactly the concatenation of the low `width` bits of each value, most significant bit first, padded with zero bits up to the next byte. In particular the output has ceil(total bits / 8) bytes and a value that does not fit its width is stored modulo 2^width without touching its neighbours.", "quantifier": "for every list of (width 0..64, arbitrary 64-bit value) pairs", "why_tests_cant": "The layout is a statement about all widths, values and alignments; golden files pin down a handful.", "anchors": ["src/unaligned_rw.rs: UnalignedWriter::write_unaligned", "src/unaligned_rw.rs: UnalignedWriter::write_bit", "src/unaligned_rw.rs: UnalignedWriter::drop"]}
{"id": "C03", "title": "Bit reads fail exactly at the end of the data", "statement": "Reading a value of 1 to 63 bits (or a single bit) succeeds exactly when that many unread bits remain, then returns the next bits as a big-endian number and consumes exactly those bits; otherwise it reports UnexpectedEof. It never invents bits.", "quantifier": "for every byte string, every number of bits already consumed and every width 1..63", "why_tests_cant": "The boundary sits at every possible bit offset of every possible stream length.", "anchors": ["src/unaligned_rw.rs: UnalignedReader::read_unaligned", "src/unaligned_rw.rs: UnalignedReader::read_bit", "src/unaligned_rw.rs: UnalignedReader::read_to_internal_storage"]}
{"id": "C04", "title": "Bit reads do not depend on how the source hands out its bytes", "statement": "A sequence of bit-level reads returns the same values and the same error whether the underlying reader delivers its bytes all at once or in arbitrary short reads.", "quantifier": "for every byte string, every schedule of short reads (each 1..8 bytes) and every sequence of read widths", "why_tests_cant": "Short-read schedules are an unbounded family of environment behaviours; tests read from memory slices which never short-read mid-stream.", "anchors": ["src/unaligned_rw.rs: UnalignedReader::read_to_internal_storage", "src/unaligned_rw.rs: UnalignedReader::read_unaligned"]}
{"id": "C05", "title": "Combined reads equal successive single reads", "statement": "Reading two (or three) equally wide values in one call gives the same values and leaves the reader in the same position as reading them one at a time, for every width; the same for a pair with two different widths.", "quantifier": "for every width, every reader state and every data", "why_tests_cant": "The combined read takes different code paths per width; every width and every alignment is in the claim. It is in fact false for width 32 (and, for a pair of different widths or a triple of width 0), which only shows up at those exact widths.", "anchors": ["src/unaligned_rw.rs: UnalignedReader::read2_unaligned", "src/unaligned_rw.rs: UnalignedReader::read3_unaligned", "src/unaligned_rw.rs: UnalignedReader::read_pair_unaligned"]}
{"id": "C06", "title": "Index width is the minimal number of bits", "statement": "The number of bits per index stored for a given largest index is the least number of bits that can represent it: the largest index fits, and it would not fit in one bit less.", "quantifier": "for every largest index from 0 to 2^64-1", "why_tests_cant": "2^64 inputs with corner cases at every power of two.", "anchors": ["src/vertices.rs: calc_prec"]}
{"id": "C07", "title": "Index arrays are stored losslessly", "statement": "Saving an index array and reading it back gives the same indices in the same order, for triangle segments and for custom index/integer segments.", "quantifier": "for every list of 32-bit indices (any length up to the format limit)", "why_tests_cant": "Depends on every combination of minimum, maximum, parity of length and alignment. It is in fact false when an index is 2^31 or more, a range no test mesh reaches.", "anchors": ["src/vertices.rs: save_triangles", "src/vertices.rs: read_triangles", "src/tmf_importer.rs: read_default_triangles"]}
{"id": "C08", "title": "Splitting an index array into segments is invisible", "statement": "The size optimiser cuts an index array into consecutive non-empty pieces whose concatenation is the original array (an empty array stays one empty piece), and it always terminates.", "quantifier": "for every index array", "why_tests_cant": "The recursion depends on a score over all prefixes; termination and losslessness are claims over all arrays.", "anchors": ["src/tmf_exporter.rs: opt_tris", "src/tmf_exporter.rs: calc_spilt_score"]}
{"id": "C09", "title": "Splitting a vertex array is invisible and its internal sanity check never fires", "statement": "The vertex splitter cuts the vertex array into consecutive pieces whose concatenation is the original array, always terminates, and the assertion that the best split is not the last vertex never fails.", "quantifier": "for every vertex array, and for every behaviour of the floating-point bit-count estimate", "why_tests_cant": "The assertion guards a condition depending on all prefixes of an arbitrary float sequence.", "anchors": ["src/tmf_exporter.rs: opt_vertices", "src/tmf_exporter.rs: find_best_vertex_spilt"]}
{"id": "C10", "title": "Index arrays survive saving and loading a file", "statement": "After write_tmf and read_tmf, every mesh reports exactly the same vertex, normal, uv and tangent triangle arrays (None stays None, Some stays Some, same indices in the same order), even though equal arrays are merged into shared segments and long arrays are split.", "quantifier": "for every list of meshes whose indices are below 2^31 and that fits the format limits", "why_tests_cant": "Combines merging, splitting, packing and re-assembly over all subsets of equal arrays; tests cover a few meshes.", "anchors": ["src/lib.rs: TMFMesh::write_tmf", "src/lib.rs: TMFMesh::read_tmf", "src/tmf_exporter.rs: merge_segments", "src/tmf.rs: DecodedSegment::merge", "src/tmf.rs: DecodedSegment::apply"]}
{"id": "C11", "title": "Names, mesh order and array sizes survive saving and loading", "statement": "After write_tmf and read_tmf the same number of meshes comes back, in the same order, with the same names, and every mesh has the same number of vertices, normals, uvs and tangents as before (absent arrays stay absent).", "quantifier": "for every list of named meshes within the format limits and every precision setting the writer accepts", "why_tests_cant": "Quantifies over every mesh, name and precision.", "anchors": ["src/lib.rs: TMFMesh::write_tmf", "src/lib.rs: TMFMesh::read_tmf", "src/tmf_exporter.rs: write_mesh", "src/tmf_importer.rs: TMFImportContext::import_mesh"]}
{"id": "C12", "title": "Custom data survives saving and loading", "statement": "After write_tmf and read_tmf the same custom data names are present with the same kind, custom index and integer arrays hold the same numbers, and looking up a name finds the data that was stored under it.", "quantifier": "for every mesh with any number of custom data entries", "why_tests_cant": "Depends on the history of additions. It is in fact false when two entries share a name: the load reverses their order so the lookup changes its answer.", "anchors": ["src/custom_data.rs: CustomDataSegment::encode", "src/custom_data.rs: CustomDataSegment::read", "src/tmf_exporter.rs: merge_segments", "src/lib.rs: TMFMesh::lookup_custom_data"]}
{"id": "C13", "title": "Custom data lookup returns the first entry added under that name", "statement": "Adding custom data fails exactly when the name is empty or longer than 255 bytes and then leaves the mesh unchanged; otherwise a later lookup of a name returns the first data added under exactly that name and None if none was, whatever else was added in between.", "quantifier": "for every history of additions and every looked-up name", "why_tests_cant": "Claim over all histories.", "anchors": ["src/lib.rs: TMFMesh::add_custom_data", "src/lib.rs: TMFMesh::lookup_custom_data", "src/custom_data.rs: CustomDataSegment::new"]}
{"id": "C14", "title": "A partially written file never loads", "statement": "If a file that loads completely is cut off at any earlier point (crash during saving, incomplete download), loading the remaining prefix reports an IO UnexpectedEof error; it never returns meshes and never panics.", "quantifier": "for every file accepted by read_tmf and every cut point before the last byte it consumed", "why_tests_cant": "Every crash point of every file.", "anchors": ["src/lib.rs: TMFMesh::read_tmf", "src/tmf_importer.rs: TMFImportContext::import", "src/tmf.rs: EncodedSegment::read"]}
{"id": "C15", "title": "Bytes after the last mesh are ignored", "statement": "Appending arbitrary bytes to a file that loads does not change what is loaded.", "quantifier": "for every accepted file and every byte suffix", "why_tests_cant": "All suffixes.", "anchors": ["src/tmf_importer.rs: TMFImportContext::import"]}
{"id": "C16", "title": "Loading does not depend on how the source delivers bytes", "statement": "read_tmf returns the same meshes or the same error for a given byte content however the reader splits it into short reads.", "quantifier": "for every byte content and every schedule of short reads", "why_tests_cant": "All schedules.", "anchors": ["src/tmf_importer.rs: TMFImportContext::import", "src/read_extension.rs: ReadExt"]}
{"id": "C17", "title": "A failing output leaves a prefix of the file and reports the error", "statement": "If the output accepts only k bytes, write_tmf returns an IO error exactly when the complete file is longer than k bytes, and what reached the output is exactly the first k bytes of the complete file.", "quantifier": "for every mesh list, every precision and every failure point k", "why_tests_cant": "All failure points.", "anchors": ["src/tmf_exporter.rs: write_tmf", "src/tmf_exporter.rs: write_mesh", "src/tmf.rs: EncodedSegment::write"]}
{"id": "C18", "title": "Loading untrusted bytes never panics", "statement": "read_tmf on any bytes returns meshes or an error; it never panics.", "quantifier": "for every byte string (and both with and without overflow checks)", "why_tests_cant": "All byte strings; fuzzing samples. It is in fact false: a custom colour segment can carry an unchecked length or a width of 64 or more, and an index minimum can overflow.", "anchors": ["src/lib.rs: TMFMesh::read_tmf", "src/custom_data.rs: CustomDataSegment::read", "src/tmf_importer.rs: read_default_triangles", "src/vertices.rs: read_triangles"]}
{"id": "C19", "title": "Foreign and too-new files are rejected", "statement": "A file whose first three bytes are not \"TMF\" is rejected as NotTMFFile, and a file whose required version is above 0.2 is rejected as NewerVersionRequired, regardless of the rest; every file produced by write_tmf is accepted past the header.", "quantifier": "for every byte string of sufficient length", "why_tests_cant": "All headers.", "anchors": ["src/tmf_importer.rs: read_tmf_header", "src/tmf_exporter.rs: write_tmf_header"]}
{"id": "C20", "title": "Over-long declared lengths are rejected", "statement": "A segment declaring more than 2^31 bytes, or an index/vertex/normal/uv/tangent/custom-float array declaring more than 2^31 elements, makes loading fail with SegmentTooLong (when its header is otherwise readable) instead of being allocated.", "quantifier": "for every declared length and every file content", "why_tests_cant": "All lengths and contents. In fact custom colour arrays are not checked.", "anchors": ["src/tmf.rs: EncodedSegment::read", "src/tmf_importer.rs: read_default_triangles", "src/vertices.rs: read_tmf_vertices", "src/normals.rs: read_normal_array", "src/uv.rs: read_uvs", "src/tangents.rs: read_tangents", "src/custom_data.rs: CustomDataSegment::read"]}
{"id": "C21", "title": "Segments of unknown type are skipped", "statement": "Inserting a well-framed segment with a type the reader does not know, at any position, does not change the loaded mesh.", "quantifier": "for every accepted mesh, every unknown type code, every payload and every position", "why_tests_cant": "All payloads and positions.", "anchors": ["src/tmf.rs: SectionType::from_u8", "src/tmf.rs: DecodedSegment::decode"]}
{"id": "C22", "title": "Unknown or unsupported compression is rejected", "statement": "A segment with an unknown compression code makes loading fail with CompressionTypeUnknown carrying that code; a triangle segment with a known but unsupported compression makes loading fail with UnsuportedCompressionType carrying that code.", "quantifier": "for every segment content and every compression code", "why_tests_cant": "All codes and contents. In fact the Sequence compression (255) is reported with code 1.", "anchors": ["src/tmf.rs: CompressionType::from_u8", "src/tmf_importer.rs: decode_triangle_seg"]}
{"id": "C23", "title": "Files in the older 0.1 layout still load", "statement": "A file laid out with 16-bit segment types, 64-bit segment lengths and index arrays without a stored minimum, and declaring minimum version 0.0 or 0.1, loads its index arrays exactly.", "quantifier": "for every list of index segments encodable in the old layout", "why_tests_cant": "All old files.", "anchors": ["src/tmf_importer.rs: SegLenWidth", "src/tmf_importer.rs: SegTypeWidth", "src/tmf_importer.rs: TMFImportContext::read_traingle_min"]}
{"id": "C24", "title": "Concurrent segment decoding is deterministic", "statement": "Segments are decoded by concurrent tasks; whatever order they complete in, the resulting mesh is the one obtained by decoding and applying them in file order, and if several fail the reported error is that of the first failing segment in file order.", "quantifier": "for every list of segments and every completion schedule", "why_tests_cant": "All schedules.", "anchors": ["src/tmf_importer.rs: TMFImportContext::import_mesh"]}
{"id": "C25", "title": "read_tmf_one accepts exactly single-mesh files", "statement": "read_tmf_one returns the mesh when the file holds exactly one, NoMeshes when it holds none and TooManyMeshes when it holds more; any other error is the one read_tmf reports.", "quantifier": "for every byte string", "why_tests_cant": "All files.", "anchors": ["src/lib.rs: TMFMesh::read_tmf_one"]}
{"id": "C26", "title": "Setters, appenders and getters behave like independent growable arrays", "statement": "After any sequence of set and append calls on the eight arrays, each getter returns the last array set under that name followed by everything appended since (None if nothing was ever set or appended), independent of calls on other arrays; set returns the previous content.", "quantifier": "for every history of calls", "why_tests_cant": "All histories.", "anchors": ["src/lib.rs: TMFMesh::set_vertices", "src/lib.rs: TMFMesh::append_vertices", "src/lib.rs: TMFMesh::get_vertices"]}
{"id": "C27", "title": "Expanded buffers are the indexed lookup", "statement": "get_vertex_buffer (and the normal and uv versions) returns Some exactly when both arrays are present and every index is inside the data array, and then entry i is the data element named by index i.", "quantifier": "for every mesh", "why_tests_cant": "All meshes.", "anchors": ["src/lib.rs: TMFMesh::get_vertex_buffer", "src/lib.rs: TMFMesh::get_normal_buffer", "src/lib.rs: TMFMesh::get_uv_buffer"]}
{"id": "C28", "title": "verify accepts exactly the valid meshes", "statement": "verify returns Ok exactly when every present triangle array has its data array, every index is inside it, normals are unit length within 0.001 and uvs lie in [0,1]; with several problems it reports all of them.", "quantifier": "for every mesh", "why_tests_cant": "All meshes. In fact an index equal to the array length is accepted and uv ranges are never reported.", "anchors": ["src/verify.rs: verify_tmf_mesh", "src/verify.rs: indices_inside_array", "src/verify.rs: verify_uvs"]}
{"id": "C29", "title": "A verified mesh can be saved", "statement": "If verify returns Ok then saving the mesh does not panic.", "quantifier": "for every mesh and precision", "why_tests_cant": "All meshes. In fact false: an empty vertex array, a triangle array of length 1 or 2, an index equal to the array length or a degenerate triangle panic although verify accepts them.", "anchors": ["src/verify.rs: verify_tmf_mesh", "src/tmf_exporter.rs: calc_shortest_edge", "src/vertices.rs: save_tmf_vertices"]}
{"id": "C30", "title": "reorder_data keeps the geometry", "statement": "reorder_data leaves the vertex, normal and uv buffers (data looked up through indices) unchanged, leaves no unused data element, numbers elements in order of first use, never grows an array, does nothing the second time, and touches neither tangents nor custom data.", "quantifier": "for every mesh whose indices are in range", "why_tests_cant": "All meshes.", "anchors": ["src/lib.rs: TMFMesh::reorder_data", "src/utilis.rs: optimize_triangle_indices"]}
{"id": "C31", "title": "unify_index_data keeps the geometry and makes the index arrays equal", "statement": "For a mesh whose index arrays are in range and equally long, unify_index_data does not panic, leaves all buffers unchanged, and afterwards all index arrays that have data are identical; the outcome does not depend on hash-map iteration order.", "quantifier": "for every such mesh and every hash iteration order", "why_tests_cant": "All meshes, all subsets of present arrays, all hash orders.", "anchors": ["src/lib.rs: TMFMesh::unify_index_data", "src/unify_data.rs: smart_merge_data_4", "src/unify_data.rs: unfiy_data_common"]}
{"id": "C32", "title": "Pruning on OBJ import keeps the geometry", "statement": "Dropping the unused leading elements on OBJ import changes neither the number of faces nor any looked-up element, and never panics.", "quantifier": "for every data array and every index array", "why_tests_cant": "All arrays.", "anchors": ["src/utilis.rs: fast_prune"]}
{"id": "C33", "title": "The OBJ importer never panics", "statement": "read_from_obj on any text returns meshes or an error, never panics, and always returns at least one mesh on success.", "quantifier": "for every text", "why_tests_cant": "All texts.", "anchors": ["src/obj.rs: read_from_obj", "src/obj.rs: parse_line", "src/model_importer.rs: ModelImporter"]}
{"id": "C34", "title": "OBJ export followed by import keeps names and geometry", "statement": "Writing meshes that have complete triangle data to OBJ and reading the text back gives the same number of meshes with the same names and the same vertex, normal and uv buffers.", "quantifier": "for every list of complete triangulated meshes with space-free names", "why_tests_cant": "All mesh lists. In fact names with spaces are cut, meshes lacking uvs or normals cannot be re-read.", "anchors": ["src/obj.rs: write_obj", "src/obj.rs: save_obj", "src/obj.rs: read_from_obj"]}
{"id": "C35", "title": "OBJ export keeps the meshes of one file apart", "statement": "In an OBJ file with several meshes, the faces of each mesh refer to that mesh's own vertices, normals and uvs, whatever meshes precede it.", "quantifier": "for every list of meshes", "why_tests_cant": "All prefixes. In fact false when an earlier mesh is a point cloud (no triangle array).", "anchors": ["src/obj.rs: save_obj", "src/obj.rs: write_obj"]}
{"id": "C36", "title": "Saved uv coordinates are within one quantisation step", "statement": "A uv coordinate in [0,1] comes back at most one step 1/(2^bits-1) below its original value and never above it, which stays within the pixel deviation requested.", "quantifier": "for every coordinate in [0,1] and every bit width", "why_tests_cant": "A continuum of inputs. In fact the requested deviation is exceeded slightly when resolution/deviation is a power of two, and coordinates above 1 wrap around.", "anchors": ["src/uv.rs: save_uvs", "src/uv.rs: read_uvs", "src/uv.rs: UvPrecisionMode::form_texture_resolution"]}
{"id": "C37", "title": "Saved vertices are within one quantisation step of the original", "statement": "Each vertex coordinate comes back within one quantisation step of the mesh extent in that axis.", "quantifier": "for every vertex array and precision", "why_tests_cant": "A continuum of inputs. In fact false: the bounding box computation mixes up axes and the last vertex can be outside it.", "anchors": ["src/vertices.rs: save_tmf_vertices", "src/vertices.rs: read_tmf_vertices"]}
{"id": "C38", "title": "Loaded normals are unit vectors in the right octant near the original", "statement": "Every normal decoded with at least one bit of precision is a unit vector whose components have the signs of the original, and it deviates from the original by at most the requested angle.", "quantifier": "for every unit normal and precision", "why_tests_cant": "A continuum of inputs. In fact the documented angle bound is false near the poles.", "anchors": ["src/normals.rs: normal_to_encoding", "src/normals.rs: normal_from_encoding", "src/normals.rs: NormalPrecisionMode::from_deg_dev"]}
{"id": "C39", "title": "Tangent handedness survives exactly as a sign", "statement": "A tangent's handedness comes back as exactly -1 if it was negative and exactly +1 otherwise, for every tangent of the array and every precision.", "quantifier": "for every tangent array and precision up to 63 bits", "why_tests_cant": "All arrays, alignments and precisions.", "anchors": ["src/tangents.rs: save_tangents", "src/tangents.rs: read_tangents"]}
{"id": "C40", "title": "Custom float and colour data are within one quantisation step", "statement": "Custom float data comes back within one step of (max-min)/(2^bits-1), constant arrays come back exactly, and colour channels in [0,1] come back within one step 1/(2^bits-1).", "quantifier": "for every array and precision", "why_tests_cant": "A continuum of inputs. In fact colours saved with precision 1.0 or coarser come back as not-a-number.", "anchors": ["src/custom_data.rs: CustomData::write", "src/custom_data.rs: CustomDataSegment::read"]}
{"id": "C41", "title": "Saving again what was loaded changes nothing more", "statement": "A value that has been through one save/load cycle is not changed by further save/load cycles, and the stored width does not change either.", "quantifier": "for every value and every number of cycles", "why_tests_cant": "All values and unboundedly many cycles. In fact custom float and colour data gain one bit of width in every cycle.", "anchors": ["src/uv.rs: save_uvs", "src/custom_data.rs: CustomData::write", "src/custom_data.rs: CustomDataSegment::read"]}
{"id": "C42", "title": "normalize makes every normal a unit vector and touches nothing else", "statement": "normalize leaves every array but the normals untouched, keeps their number and direction, and makes each one unit length.", "quantifier": "for every mesh", "why_tests_cant": "A continuum of inputs. In fact a zero normal becomes not-a-number.", "anchors": ["src/lib.rs: TMFMesh::normalize", "src/utilis.rs: normalize"]}
{"id": "C43", "title": "Splitting index arrays never makes the file larger", "statement": "The segments written for an index array after size optimisation take no more bytes than the single segment without optimisation.", "quantifier": "for every index array", "why_tests_cant": "All arrays. In fact false: the optimiser underestimates the cost of an extra segment.", "anchors": ["src/tmf_exporter.rs: opt_tris", "src/tmf_exporter.rs: calc_spilt_score"]}
{"id": "C44", "title": "Decoded size is bounded by the file size", "statement": "Loading an array segment of n bytes yields at most 8n elements, so a small file cannot expand into a huge mesh.", "quantifier": "for every segment content", "why_tests_cant": "All contents. In fact false for zero-width index and uv segments.", "anchors": ["src/tmf_importer.rs: read_default_triangles", "src/uv.rs: read_uvs"]}
{"id": "C45", "title": "LZ77 stage round trip", "statement": "Compressing an index array with the (not yet enabled) LZ77 stage and decompressing it returns the same array.", "quantifier": "for every array whose values and length fit the width", "why_tests_cant": "All arrays. False when a match is longer than the width can express.", "anchors": ["src/lz77.rs: save_compressed_array", "src/lz77.rs: read_compressed_array"]}
{"id": "C46", "title": "Triangle reordering only permutes triangles", "statement": "The triangle reordering stage returns the same triangles, each intact, in a different order.", "quantifier": "for every index array of whole triangles", "why_tests_cant": "All arrays.", "anchors": ["src/reorder_triangles.rs"]}
{"id": "C47", "title": "Polygon triangulation yields n-2 triangles over the polygon's own corners", "statement": "With the triangulation feature a face with n>=3 corners becomes n-2 triangles whose corners are corners of the face, with matching vertex, normal and uv corners.", "quantifier": "for every polygon", "why_tests_cant": "All polygons.", "anchors": ["src/triangulation.rs", "src/model_importer.rs: ModelImporter::push_face"]}
{"id": "C48", "title": "Names and segment counts of any size are stored faithfully", "statement": "write_tmf either stores the complete mesh name and all segments so that they load back, or reports an error.", "quantifier": "for every name and every number of custom data entries", "why_tests_cant": "All sizes. In fact names over 65535 bytes and more than 65535 segments silently produce a corrupt file.", "anchors": ["src/tmf_exporter.rs: write_mesh_name", "src/tmf_exporter.rs: write_mesh"]}
{"id": "C49", "title": "Everything write_tmf writes can be read back", "statement": "If write_tmf succeeds, read_tmf accepts the bytes.", "quantifier": "for every mesh list and precision", "why_tests_cant": "All meshes and precisions. In fact a degenerate triangle (zero-length edge) asks for 255 bits per coordinate.", "anchors": ["src/vertices.rs: save_tmf_vertices", "src/vertices.rs: read_tmf_vertices", "src/tmf_exporter.rs: calc_shortest_edge"]}
{"id": "C50", "title": "Exactly the well-framed files are accepted", "statement": "read_tmf accepts a byte string if and only if it is the magic, any four version bytes, a required version of at most 0.2, a mesh count and that many well-framed meshes (valid UTF-8 name, segment count, framed segments of at most 2^31 bytes with a known compression code) whose segments all decode, followed by anything; the meshes come back in file order under their names.", "quantifier": "for every byte string and every schedule of short reads", "why_tests_cant": "The accepted language is infinite; a test can only try individual files and cannot show that nothing else is accepted.", "anchors": ["src/tmf_importer.rs: import_sync", "src/tmf_importer.rs: import_mesh", "src/tmf.rs: EncodedSegment::read"]}
{"id": "C51", "title": "Normalised normals pass verification", "statement": "After normalize, verify does not report normals of wrong length, if every normal had a moderate length before (finite components, squared length at least 2^-136 and at most 2^128 - 2^108).", "quantifier": "for every mesh", "why_tests_cant": "A continuum of inputs; the tolerance of verify (0.001) must absorb every rounding error of normalize and magnitude.", "anchors": ["src/lib.rs: TMFMesh::normalize", "src/utilis.rs: normalize", "src/utilis.rs: magnitude", "src/verify.rs: verify_normals"]}
{"id": "C52", "title": "Precision settings choose the fewest bits that honour the request", "statement": "from_deg_dev, from_rad_dev and form_texture_resolution choose the smallest number of bits (at least one for normals) whose steps of 90/2^p degrees, (pi/2)/2^p radians or resolution/2^p pixels are no larger than the deviation asked for, up to the rounding of the quotient and of log2.", "quantifier": "for every finite positive f32 deviation (and resolution) and every log2 accurate to 2^-17", "why_tests_cant": "Two thousand million f32 arguments, or pairs of them; the wrong choices sit next to powers of two.", "anchors": ["src/normals.rs: NormalPrecisionMode::from_deg_dev", "src/normals.rs: NormalPrecisionMode::from_rad_dev", "src/uv.rs: UvPrecisionMode::form_texture_resolution"]}
{"id": "C53", "title": "The shortest edge is found", "statement": "calc_shortest_edge returns, up to rounding, the length of the shortest edge over all complete triangles: it is near the length of some edge and not above the length of any. A corner out of range, or fewer than three indices, is a panic; no triangles or no vertices give 0.1.", "quantifier": "for every vertex array with finite coordinates up to 2^58 and every index array", "why_tests_cant": "Unbounded arrays and a continuum of coordinates; the result depends on every triangle and on rounding in the distance.", "anchors": ["src/tmf_exporter.rs: calc_shortest_edge", "src/utilis.rs: distance"]}
{"id": "C54", "title": "Edges keep their length within the requested fraction of the shortest edge", "statement": "After saving and reading, no edge has changed in length by more than the VertexPrecisionMode fraction of the shortest edge of the model (the documented meaning of VertexPrecisionMode).", "quantifier": "for every mesh and precision", "why_tests_cant": "A continuum of inputs. In fact false: the bounding box mixes up axes, the z width uses the y extent, and rounding down at both ends of an edge costs up to two steps per axis.", "anchors": ["src/vertices.rs: VertexPrecisionMode", "src/vertices.rs: save_tmf_vertices", "src/vertices.rs: read_tmf_vertices", "src/tmf_exporter.rs: calc_shortest_edge"]}
{"id": "C55", "title": "Box corners and data limits are stored as IEEE binary64 without loss", "statement": "The f64 values in vertex and float segments are the eight little-endian bytes of the IEEE 754 binary64 format: bytes are read as the number the standard assigns to them, a value is written as the one pattern that means it, reading undoes writing and writing undoes reading (except for NaN patterns), and the f32 corners of the bounding box come back from the header exactly, together with the vertex count and the widths.", "quantifier": "for every f64 value, every eight bytes, every f32 value and every vertex array that can be saved", "why_tests_cant": "2^64 bit patterns and arbitrary arrays; subnormals, signed zeros and infinities are easily missed by samples.", "anchors": ["src/read_extension.rs: read_f64", "src/vertices.rs: save_tmf_vertices", "src/vertices.rs: read_tmf_vertices", "src/custom_data.rs: write"]}
{"id": "C56", "title": "The size of a saved file is known exactly from what is in it", "statement": "The contents of a segment take a fixed number of header bytes and the elements packed at the chosen bit width, rounded up to whole bytes; a file is 15 bytes of header plus, for each mesh, its name, 4 bytes, and 6 bytes and the contents of each segment. So the size of a file grows at most linearly: for meshes within the array limits at most 128 bytes for each element, 66 for each segment, and the names.", "quantifier": "for every mesh, every settings value, both builds and any float arithmetic", "why_tests_cant": "Tests compare sizes of a few sample files; the packed size depends on every width and on the way arrays are cut.", "anchors": ["src/tmf.rs: encode", "src/tmf.rs: write", "src/tmf_exporter.rs: write_mesh", "src/unaligned_rw.rs: flush", "src/vertices.rs: save_tmf_vertices"]}
{"id": "C57", "title": "A .obj file of triangles is read as the scene it describes", "statement": "Reading a .obj file gives, for every object that has faces and for the last one, its name and exactly its triangles in order, each corner with the vertex, uv and normal that its numbers stand for. Elements may be defined in any order before their use and be shared between objects; comments, unknown kinds of lines, further words and either kind of line end change nothing, and the last line end may be missing. Reading one mesh succeeds exactly if the file gives one.", "quantifier": "for every file, every number of objects and lines, any float parser, both builds, with and without triangulation", "why_tests_cant": "Tests read a few exported samples; files are unbounded texts and the numbering runs through all objects.", "anchors": ["src/obj.rs: read_from_obj", "src/obj.rs: parse_line", "src/obj.rs: load_face", "src/model_importer.rs: next_mesh", "src/lib.rs: read_from_obj_one"]}
{"id": "C58", "title": "A face of a .obj file is read as written or refused", "statement": "Whatever the text, every mesh read has whole triangles with a uv and a normal index for each corner; a face with another number of corners than three is refused (without triangulation); and no face is silently read as a different one.", "quantifier": "for every text, both builds, with and without triangulation", "why_tests_cant": "The set of texts is unbounded; wrong readings produce no error.", "anchors": ["src/obj.rs: load_face", "src/obj.rs: load_indices", "src/obj.rs: parse_index", "src/model_importer.rs: push_face"]}
{"id": "C59", "title": "Export to .obj refuses exactly the meshes whose index arrays do not belong together", "statement": "Writing meshes as .obj fails if and only if some mesh has normal or uv indices without vertex indices or of another length; it never panics in release builds, and in debug builds it does the same or panics.", "quantifier": "for every list of meshes and any float printer", "why_tests_cant": "Tests export well-formed meshes; the arrays are arbitrary lists.", "anchors": ["src/obj.rs: save_obj", "src/obj.rs: write_obj"]}
{"id": "C60", "title": "Custom float and colour arrays keep the precision attached to them", "statement": "A float or colour array saved with a precision is stored in the fewest bits that give span/precision steps, and every value comes back within that precision.", "quantifier": "for every float array with finite bounds and every colour array with channels in [0,1], and every positive precision", "why_tests_cant": "Tests check a handful of arrays and precisions; the step size depends on both through a logarithm.", "anchors": ["src/custom_data.rs: write", "src/custom_data.rs: read"]}
{"id": "C61", "title": "Whatever the file, the loaded meshes are sound", "statement": "Every mesh loaded from any byte string has a name that is text shorter than 2^16 bytes, indices below 2^32, custom data with names of at most 255 bytes, and index data whose attached maximum is the true maximum; uv coordinates are in [0,1], normals and tangents are unit vectors (corners of the cube if stored in no bits), handedness is 1 or -1, and colour channels are in [0,1] (NaN if stored in no bits).", "quantifier": "for every byte string that loads, from any origin, and every way of handing it out in pieces", "why_tests_cant": "Tests load files the library wrote; hostile and damaged files are unlimited.", "anchors": ["src/tmf_importer.rs: import_sync", "src/tmf_importer.rs: read_default_triangles", "src/vertices.rs: read_triangles", "src/custom_data.rs: read", "src/normals.rs: normal_from_encoding", "src/uv.rs: read_uvs"]}
{"id": "C62", "title": "Saved files follow a layout other programs can read", "statement": "A saved file is the 0.2 header followed by names and segments laid out field by field as written down in a separate description (type codes, field order, widths, bit order, padding); the segments hold the arrays of the meshes, index arrays exactly; the bytes admit no second reading; and every stored code means, in exact arithmetic, the element it stands for up to one step and a stated rounding.", "quantifier": "for every list of meshes that fits the format and saves, either build and every float arithmetic; the numbers for f32 and codes of 1 to 31 bits", "why_tests_cant": "A round trip through the library cannot notice when reader and writer agree on the wrong layout, and the files of old versions are few.", "anchors": ["src/tmf_exporter.rs: write_tmf", "src/tmf_exporter.rs: write_mesh", "src/tmf_exporter.rs: write_tmf_header", "src/tmf.rs: EncodedSegment::write", "src/tmf.rs: DecodedSegment::encode", "src/vertices.rs: save_tmf_vertices", "src/vertices.rs: save_triangles", "src/normals.rs: save_normal_array", "src/uv.rs: save_uvs", "src/tangents.rs: save_tangents", "src/custom_data.rs: write"]}
{"id": "C63", "title": "Custom data handed in as slices comes back through the accessors", "statement": "Slices added with add_custom_data(slice.into(), name), saved and loaded: looking up a name finds what was added (last) under it, and only the accessor of its kind answers. Indices come back exactly and with their largest entry as maximum, floats within 1/49 (1/98 if their range is at least 1) and a stated rounding, colours less than 1/98 below the original. Names never used, empty or longer than 255 bytes are not found. Adding slices within the limits keeps a mesh within the limits.", "quantifier": "for every history of additions to a mesh without custom data, every name, and either build on both sides; floats with a range up to 2^16, colours in [0,1]", "why_tests_cant": "All histories, names and numbers; tests add a few arrays with one name each.", "anchors": ["src/custom_data.rs: CustomData::as_index", "src/custom_data.rs: CustomData::as_float", "src/custom_data.rs: CustomData::as_color_rgba", "src/custom_data.rs: CustomData::as_intiger", "src/custom_data.rs: CustomData::new_index", "src/custom_data.rs: CustomData::from", "src/lib.rs: TMFMesh::add_custom_data", "src/lib.rs: TMFMesh::lookup_custom_data"]}
{"id": "C64", "title": "Debug and release builds do the same unless the debug build panics", "statement": "Saving, loading (all meshes or one), reading .obj text: a build with overflow checks panics, or leaves the same bytes in the target and returns the same result, meshes or error, as a build whose arithmetic wraps. So a round trip that works in debug builds works in release builds and in every mixture of the two.", "quantifier": "for every list of meshes, every setting, every target and reader (short writes, short reads, device errors), every text and every float arithmetic", "why_tests_cant": "Tests run in one build; the other build differs exactly on inputs where arithmetic leaves its range, which tests do not reach.", "anchors": ["src/tmf_exporter.rs: write_tmf", "src/tmf_importer.rs: import_sync", "src/unaligned_rw.rs: read_unaligned", "src/vertices.rs: read_triangles", "src/vertices.rs: save_tmf_vertices", "src/obj.rs: read_from_obj", "src/lz77.rs: save_compressed_array", "src/lz77.rs: read_compressed_array"]}
{"id": "C65", "title": "Sensible meshes survive saving and loading in every build", "statement": "For meshes and settings meeting conditions that can be read off them (finite coordinates, no edge shorter than a bound, four times the largest coordinate at most 2^k steps of precision times that bound, k up to 30, indices below 2^31 that point to vertices, custom data within its declared range, a total size bound): every build writes the same bytes, and every build loads the same meshes from them, whatever follows the file and however the reader delivers it. Names, index arrays, sizes, handedness and custom data names come back. uv coordinates, normals, tangents and custom data come back with the accuracy of C36, C38 and C60, and the coordinates of vertices within 2 * precision * (length of any edge) and a stated rounding.", "quantifier": "for every list of such meshes, all settings in range, both builds on both sides, every trailing data and read schedule", "why_tests_cant": "The theorem covers all meshes and settings in a region given by simple inequalities; tests sample a few meshes and one build.", "anchors": ["src/lib.rs: TMFMesh::write_tmf", "src/lib.rs: TMFMesh::read_tmf", "src/tmf_exporter.rs: write_tmf", "src/tmf_exporter.rs: calc_shortest_edge", "src/tmf_importer.rs: import_sync", "src/vertices.rs: save_tmf_vertices", "src/custom_data.rs: write"]}
{"id": "C66", "title": "What the feature fast_trig changes", "statement": "With the feature fast_trig, sine and cosine of decoded normals come from a polynomial. For every angle a code can stand for, the approximated sine lies in [0, 1] and is at most 0.000333 off, and the cosine is not negative and at most 1/404 off. The bytes written are the same as without the feature. Reading any data with or without it gives the same error, or meshes that differ in normals and tangents only, in these by at most 1/384, with z and the handedness equal. Decoded normals are unit vectors whatever the platform's math library does, and all signs survive saving and loading, which without the feature fails for the sign of y.", "quantifier": "for every f32 angle in range, every file content, every list of meshes and settings, both builds", "why_tests_cant": "The bound holds for each of the roughly one billion f32 angles and through the bit trick that reads an f64 as an integer; the comparison of the two builds covers every file, and one test binary has only one of the two features.", "anchors": ["src/utilis.rs: fsin", "src/normals.rs: normal_from_encoding", "src/normals.rs: read_normal_array", "src/tangents.rs: read_tangents"]}
{"id": "C67", "title": "Saving and loading with the feature double_precision", "statement": "With the feature double_precision all arithmetic is done in f64. Uv coordinates from 0 to 1 come back at most one step below for every width from 1 to 30 bits (the failures of the f32 program from 25 bits on disappear), colour channels likewise, floats and vertices within one step of their range plus a rounding error of f64, index and integer data exactly. Whatever the bytes, the programs with and without the feature succeed, fail or panic alike when reading them, and give meshes with the same names, arrays, lengths and indices, whose uv coordinates and z of normals and tangents are at most 2^-22 apart, and whose custom floats and colours are those of the f64 program rounded to f32. So a file saved with the feature loads without it, with its triangles unchanged and its uv coordinates and custom data off by one step and an f32 rounding at most.", "quantifier": "for every list of meshes and settings that can be saved, every f64 value in range, every file content, every pair of build modes, every libm", "why_tests_cant": "One test binary has only one of the two configurations, and the claims range over all f64 values and all files.", "anchors": ["src/lib.rs: FloatType", "src/uv.rs: save_uvs", "src/uv.rs: read_uvs", "src/vertices.rs: save_tmf_vertices", "src/vertices.rs: read_tmf_vertices", "src/custom_data.rs: write", "src/custom_data.rs: read"]}
{"id": "C68", "title": "Decimal numbers in .obj files are read as the nearest floats", "statement": "A coordinate written as a decimal number, with or without sign, point and exponent, is read as a float nearest to that number; beyond the range of the format it is read as an infinity with its sign. Besides decimal numbers only the words inf, infinity and nan are accepted.", "quantifier": "for every decimal number of any length, f32 and f64; for every word", "why_tests_cant": "Texts of numbers are unbounded; tests read a few of them.", "anchors": ["src/obj.rs: parse_line", "src/obj.rs: parse_float_type", "src/obj.rs: load_vec3"]}
{"id": "C69", "title": "Builds with different index types agree", "statement": "With the features short_indices (16 bits) and long_indices (64 bits): a build writes the same bytes as the default build for meshes whose indices its type holds, and loads every file exactly as the default build does when its type holds all indices in it. A file that needs a wider type is refused with an error. verify accepts the same meshes, as long as the type can name all elements of their arrays.", "quantifier": "for all meshes, sources, precisions, both builds, and all sizes of the index type up to 64 bits", "why_tests_cant": "The features exclude each other, so no test run compares two of them; tests run with one type and small meshes.", "anchors": ["src/lib.rs: IndexType", "src/tmf_importer.rs: read_default_triangles", "src/vertices.rs: read_triangles", "src/tmf_exporter.rs: opt_tris", "src/custom_data.rs: read", "src/verify.rs: verify_vertices"]}
{"id": "C70", "title": ".obj output reports every write that failed", "statement": "write_obj reports success only if the scene is acceptable and its whole text has reached the target. On a target that stops accepting data it returns the target's error and leaves a prefix of the text there. When a mesh is refused, the error is returned and the target holds the text of the meshes before it and the elements of the refused mesh, and nothing of it after that.", "quantifier": "for all scenes, all targets with any room and any way of splitting writes, all ways of cutting the text into write calls, both builds", "why_tests_cant": "Tests write to files on disk that never fail; the errors of a buffered writer only show when a flush fails at a certain byte.", "anchors": ["src/obj.rs: write_obj", "src/obj.rs: save_obj"]}
{"id": "C71", "title": ".obj input depends only on the text", "statement": "read_from_obj gives the same result however the reader delivers the text. If the reader fails, the text so far is never taken for the whole: the result is the reader's error, or a failure that every text with this beginning gives.", "quantifier": "for all texts, all ways of splitting them into reads, all points at which the reader fails, both builds", "why_tests_cant": "Test files are read from disk in one piece; chunk borders inside a line and read errors are not produced by any test.", "anchors": ["src/obj.rs: read_from_obj"]}
{"id": "C72", "title": "An .obj file can be stored as .tmf and loaded again", "statement": "Reading an .obj file and writing what was read as .tmf succeeds, and loading that file gives the objects of the .obj file: the same names, the same faces, and every corner with its vertex, its uv and its normal, the uv and normal within the precision asked for.", "quantifier": "for all .obj texts whose faces name defined vertices, uvs and normals, all settings within the stated ranges, all builds for each of the three steps", "why_tests_cant": "Tests convert a few model files and look at the result in a viewer; which files convert at all, and that no corner gets the attributes of another, is a claim about all files.", "anchors": ["src/obj.rs: read_from_obj", "src/lib.rs: TMFMesh::write_tmf", "src/lib.rs: TMFMesh::read_tmf"]}
{"id": "C73", "title": "Editing meshes and .obj text with other types of indices", "statement": "With short_indices and long_indices, reorder_data, pruning, unify_index_data and the import and export of .obj text do the same as in the default build whenever the type of indices can hold all indices in question. Where it cannot, the call fails instead of giving other geometry.", "quantifier": "for all meshes, all iteration orders of the hash map, all texts, all pairs of index widths, both builds", "why_tests_cant": "The tests run with one feature set and small meshes; the cases that matter need more elements than the type has values.", "anchors": ["src/lib.rs: reorder_data", "src/lib.rs: unify_index_data", "src/utilis.rs: fast_prune", "src/unify_data.rs: unfiy_data_common", "src/obj.rs: read_from_obj", "src/obj.rs: write_obj"]}
{"id": "C74", "title": "The size report of a file is complete", "statement": "The internal size report (analize) never panics. It succeeds exactly for files that consist of a header and framed meshes, and then states for each mesh its name, the bytes of all payloads, and one row per segment type with the bytes of its payloads, smallest first and equal ones by type code. Everything that loads has a report with the same names, every saved file has one, and the sizes add up to the length of the file.", "quantifier": "for every input, both builds, every read schedule; every saved list of meshes", "why_tests_cant": "All byte strings and all numbers of segments, including overflow of the counters.", "anchors": ["src/tmf_importer.rs: TMFImportContext::analize", "src/tmf_importer.rs: TMFImportContext::analize_mesh"]}
{"id": "C75", "title": "Preparing meshes before saving changes nothing that is loaded", "statement": "Meshes that can be saved can be reordered and unified first, in any order, any number of times and with any iteration order of the hash map; the result is saved and loaded without error by every build. Corner by corner, the uv coordinates, normals and tangents loaded do not depend on how the meshes were prepared, nor does the custom data, and they and the vertices are those of the original meshes within the stated accuracy.", "quantifier": "for all lists of preparable meshes, all sequences of steps, all iteration orders, both builds, all read schedules and trailing data", "why_tests_cant": "All sequences of steps and iteration orders over all meshes.", "anchors": ["src/lib.rs: reorder_data", "src/lib.rs: unify_index_data", "src/lib.rs: write_tmf", "src/lib.rs: read_tmf"]}
{"id": "C76", "title": "The triangles of a polygon cover it", "statement": "With the triangulation feature, the triangles made of a face cover it: each inner edge is used once in each direction, and what is left is the outline of the face in its own direction.", "quantifier": "for every polygon with at least three corners, any floating point arithmetic and any acos", "why_tests_cant": "All polygons; whether the neighbour of the first corner is right depends on the number of corners in a way small samples do not show.", "anchors": ["src/triangulation.rs: triangulate", "src/triangulation.rs: calc_ear_val_at_index", "src/model_importer.rs: ModelImporter::push_face"]}
{"id": "C77", "title": "Reordering and unifying once is enough", "statement": "A mesh that has been reordered and then unified is not changed by any further reordering or unifying, in any order and with any iteration order of the hash map. Unifying twice is unifying once. A unified mesh stays unified when it is reordered.", "quantifier": "for all meshes with equally long index arrays in range of at most 2^32 corners, all iteration orders, all sequences of further steps", "why_tests_cant": "All meshes, all sequences of steps, and hash orders that differ from run to run.", "anchors": ["src/lib.rs: reorder_data", "src/lib.rs: unify_index_data", "src/unify_data.rs: smart_merge_data_4", "src/utilis.rs: optimize_triangle_indices"]}
{"id": "C78", "title": "A loaded vertex stays within the stored bounds", "statement": "A vertex read from a vertex segment is finite and lies between the bounds stored in that segment, up to rounding. Loading a saved mesh gives as many vertices as were saved and moves none of them out of the cube of the saved coordinates, up to rounding.", "quantifier": "for all vertex segments of any origin with finite bounds up to 2^120, all meshes that can be saved, all precisions, all builds, all read schedules", "why_tests_cant": "All byte strings and all meshes, with every precision and every set of coordinates, including the vertices whose accuracy is lost.", "anchors": ["src/vertices.rs: read_tmf_vertices", "src/vertices.rs: save_tmf_vertices"]}
{"id": "C79", "title": "Stored meshes can be exported", "statement": "Meshes with triangles, normals and uvs and with names that .obj can hold: saved as .tmf, loaded, exported as .obj and read again, they have the same names and exactly the triangles of the loaded meshes, even if the saved normals and uvs were NaN. A .obj file stored as .tmf and exported again has the same objects and faces, each corner with its uv and normal within the precision asked for.", "quantifier": "for all meshes that can be saved, all storable scenes, all precisions, all builds of each of the programs, all read schedules", "why_tests_cant": "All meshes, all precisions and all texts, across four programs that run one after another.", "anchors": ["src/obj.rs: write_obj", "src/obj.rs: read_from_obj", "src/tmf_exporter.rs: write_tmf", "src/tmf_importer.rs: import_sync"]}
{"id": "C80", "title": "A file with polygons reads as the file with its triangles", "statement": "With the feature \"triangulation\", a .obj file whose faces have three or more corners is read, and gives exactly what the file gives in which every such face is replaced by lines of triangles. There are two triangles fewer than corners, they are made by cutting off the corners of the face one after the other, and those of a triangle or quad cover it. Everything else in the file is read as without the feature.", "quantifier": "for all files with any number of objects, faces and corners whose numbers are defined before, all arithmetic and texts of numbers, all builds", "why_tests_cant": "All files with faces of every size, and a relation between two readings of different files.", "anchors": ["src/obj.rs: load_face", "src/obj.rs: parse_line", "src/model_importer.rs: push_face", "src/triangulation.rs: triangulate"]}
{"id": "C81", "title": "With double_precision, normals keep their signs and directions at every width", "statement": "With the feature \"double_precision\", the unit normals and tangents of saved meshes (with no height above 1) come back as unit vectors on the same side of every coordinate plane, less than one step of the height nearer to the equator, and at most sqrt(2 h + 5/2 h^2 + 2 e) + 2^-20 away, where h is the step and e the error of their squared length (17/8 h + 3 sqrt(e) + 2^-20 in the half of the sphere nearer to the equator). Any normal or tangent segment with at least one bit per code decodes to unit vectors only.", "quantifier": "for all meshes with any number of unit normals and tangents, all widths from 1 to 30, all accurate math libraries, all builds; all bytes for the decoding", "why_tests_cant": "All directions and widths, and square roots with rounding.", "anchors": ["src/normals.rs: normal_to_encoding", "src/normals.rs: normal_from_encoding", "src/normals.rs: save_normal_array", "src/normals.rs: read_normal_array", "src/tangents.rs: save_tangents", "src/tangents.rs: read_tangents"]}
{"id": "C82", "title": "More accuracy never makes a file smaller", "statement": "The same meshes saved with finer settings - a smaller part of the shortest edge for vertices, as many bits or more for normals, uv coordinates and tangents - give a file that is at least as large, whatever is in the meshes. Smaller angles, larger textures and smaller parts of a pixel choose as many bits or more.", "quantifier": "for all lists of meshes that can be saved with both settings, with any data including NaN and infinities, all pairs of settings, all builds, all math libraries with an accurate and monotone log2", "why_tests_cant": "A relation between two runs for all meshes and all pairs of settings.", "anchors": ["src/tmf_exporter.rs: write_tmf", "src/vertices.rs: save_tmf_vertices", "src/normals.rs: NormalPrecisionMode::from_deg_dev", "src/normals.rs: NormalPrecisionMode::from_rad_dev", "src/uv.rs: UvPrecisionMode::form_texture_resolution"]}
{"id": "C83", "title": "The unsafe code of the loader only exposes memory that was written to", "statement": "read_default_triangles fills the spare capacity of a vector slot by slot and then calls set_len in an unsafe block. Whatever bytes it reads and whatever was in the memory, no write is outside the memory, every slot that becomes part of the vector was written to, the vector is as long as the file says and not longer than its memory, and the indices are those of the function on lists.", "quantifier": "for all byte strings, all contents and sizes of the allocated memory (at least what was asked for), all widths of index types, both builds, empty vectors and vectors with elements", "why_tests_cant": "Reading memory that was not written to usually goes unnoticed, and depends on the allocator.", "anchors": ["src/tmf_importer.rs: read_default_triangles"]}
{"id": "C84", "title": "Branches marked as unreachable never run", "statement": "The functions that decode and merge segments stop the program in branches marked as unreachable (panic!, todo!, unwrap) when they are called with a segment of another type. The code that calls them never does: decoding any segment and merging any two segments gives the same as without these branches.", "quantifier": "for all segments of all types, compressions and contents, all arithmetics, both builds", "why_tests_cant": "That something never happens, for all segments.", "anchors": ["src/tmf.rs: DecodedSegment::decode", "src/tmf.rs: DecodedSegment::merge", "src/tmf.rs: SectionType::is_triangle", "src/tmf_importer.rs: decode_vertex_seg", "src/tmf_importer.rs: decode_uv_seg", "src/tmf_importer.rs: decode_normal_seg", "src/tmf_importer.rs: decode_custom_seg", "src/tmf_importer.rs: decode_triangle_seg"]}
{"id": "C85", "title": "Saving index arrays needs a stack of bounded depth", "statement": "opt_tris calls itself on both parts of an array it cuts. How deep these calls nest does not depend on the length of the array, so that no mesh overflows the stack while it is saved.", "quantifier": "for all index arrays of any length, both builds", "why_tests_cant": "Small arrays never nest deep, and random ones hardly ever.", "anchors": ["src/tmf_exporter.rs: opt_tris", "src/tmf_exporter.rs: calc_spilt_score"]}
{"id": "C86", "title": "What was read from an .obj file survives another round", "statement": "Meshes read from an .obj file can be written again, and reading that text gives exactly the same meshes: the same arrays, the same index arrays and the same names.", "quantifier": "for all .obj files that are read without error, both builds, with and without the feature triangulation", "why_tests_cant": "The reader copies everything read so far into every mesh and prunes it, so the result depends on all objects before it; tests compare single meshes.", "anchors": ["src/obj.rs: read_from_obj", "src/obj.rs: write_obj", "src/model_importer.rs: next_mesh", "src/model_importer.rs: finish", "src/utilis.rs: fast_prune"]}
{"id": "C87", "title": "Integrity reports can be told apart by their text", "statement": "Display and Debug of TMFIntegrityStatus give one line of text, and two reports with the same text are the same report: the same failed checks in the same order with the same index, length and coordinates.", "quantifier": "for all reports verify can give, for f32 and f64", "why_tests_cant": "Tests compare a few texts; that no two of the infinitely many reports share one needs an argument about the whole format.", "anchors": ["src/verify.rs: write_composite_error", "src/verify.rs: fmt"]}
{"id": "C88", "title": "Saving vertex arrays needs a stack of bounded depth", "statement": "opt_vertices calls itself on both parts of an array it cuts. How deep these calls nest does not depend on the length of the array, so that no mesh overflows the stack while it is saved.", "quantifier": "for all vertex arrays of any length, both builds", "why_tests_cant": "Ordinary meshes are hardly ever cut, and random arrays are cut in halves; only arrays made for it nest deep.", "anchors": ["src/tmf_exporter.rs: opt_vertices", "src/tmf_exporter.rs: find_best_vertex_spilt", "src/tmf_exporter.rs: range_to_vertex_bit_count"]}
{"id": "C89", "title": "Cutting arrays takes time proportional to their length", "statement": "opt_tris and opt_vertices look again at both parts of an array they cut. Added up over all calls, the number of elements looked at is at most a fixed multiple of the length of the array, so that saving a mesh takes time proportional to its size.", "quantifier": "for all index and vertex arrays of any length, both builds", "why_tests_cant": "Arrays from ordinary meshes are cut rarely or near the middle, where the work stays small; only long arrays made for it show the growth.", "anchors": ["src/tmf_exporter.rs: opt_tris", "src/tmf_exporter.rs: opt_vertices", "src/tmf_exporter.rs: find_best_vertex_spilt"]}
{"id": "C90", "title": "Normals that verify accepts have unit length and come back near", "statement": "If verify accepts a mesh, each of its normals has length 1 up to 0.001. Saved and loaded again it points in the same direction up to the step of the chosen precision.", "quantifier": "for all meshes verify accepts, all f32 normals including NaN and infinities, all precisions from 1 bit on, both builds", "why_tests_cant": "Tests use exact unit vectors. Lengths at the edge of the tolerance, NaN, and the few precisions at which a height above 1 wraps around are not hit by samples.", "anchors": ["src/verify.rs: verify_normals", "src/normals.rs: normal_to_encoding", "src/normals.rs: normal_from_encoding", "src/normals.rs: save_normal_array"]}
{"id": "C91", "title": "The default settings deliver what their documentation promises", "statement": "Meshes saved with TMFPrecisionInfo::default come back with uv coordinates within 0.1 pixel of a 1024 texture, normals and tangents within 1 degree, and vertices within a tenth of the shortest edge.", "quantifier": "for all sensible meshes of any size, every accurate maths library, both builds on either side", "why_tests_cant": "The promise is about a continuum of directions and coordinates; tests compare a few meshes with wide tolerances.", "anchors": ["src/lib.rs: TMFPrecisionInfo::default", "src/normals.rs: NormalPrecisionMode::default", "src/tangents.rs: TangentPrecisionMode::default", "src/uv.rs: UvPrecisionMode::default", "src/vertices.rs: VertexPrecisionMode::default"]}
{"id": "C92", "title": "Normals stay as they are when a mesh is saved again", "statement": "A mesh that was loaded from a file and is saved and loaded again, any number of times, keeps its normals.", "quantifier": "for all lists of unit normals, all numbers of cycles, all precisions, every accurate maths library, both builds", "why_tests_cant": "Tests save a mesh once; a loss of one step per cycle shows only after several cycles and only for some of the codes.", "anchors": ["src/normals.rs: normal_from_encoding", "src/normals.rs: normal_to_encoding", "src/normals.rs: save_normals", "src/normals.rs: read_normals"]}
{"id": "C93", "title": "Vertices stay near however often a mesh is saved", "statement": "A mesh that is saved and loaded again and again with the same settings keeps its vertices within the precision asked for, after any number of cycles.", "quantifier": "for all meshes, all numbers of cycles, all settings, both builds, all ways the file is delivered", "why_tests_cant": "Tests save a mesh once. The codes are cut off rather than rounded, so the loss per cycle shows only for some coordinates and only adds up over many cycles.", "anchors": ["src/vertices.rs: save_tmf_vertices", "src/vertices.rs: read_tmf_vertices", "src/tmf_exporter.rs: write_tmf", "src/tmf_importer.rs: import_sync"]}
{"id": "C94", "title": "A loaded mesh can be saved again", "statement": "A mesh that was saved and loaded can be saved and loaded once more with the same settings, in every build.", "quantifier": "for all meshes and settings that can be saved, both builds, all ways the files are delivered", "why_tests_cant": "Tests save meshes made by hand or read from .obj files, not meshes that went through a file before; whether two vertices fall together depends on their order and on the box.", "anchors": ["src/vertices.rs: save_tmf_vertices", "src/vertices.rs: read_tmf_vertices", "src/tmf_exporter.rs: calc_shortest_edge", "src/tmf_exporter.rs: write_tmf", "src/tmf_importer.rs: import_sync"]}
{"id": "C95", "title": "Files one after another in one stream load one after another", "statement": "read_tmf takes exactly the bytes of one file from the reader. Called n times on the same reader it succeeds exactly when the reader begins with n whole files, and each call returns what its file holds on its own; the reader then stands exactly behind the last file, and a further call at the end of the stream reports an unexpected end of file.", "quantifier": "for all numbers of files, all contents, all ways the bytes are delivered, both builds; for written files all meshes and settings that can be saved", "why_tests_cant": "Tests read one file per reader; a reader that took a byte too many or too few would pass them all.", "anchors": ["src/lib.rs: read_tmf", "src/tmf_importer.rs: import_sync", "src/tmf_importer.rs: import_mesh", "src/tmf_exporter.rs: write_tmf"]}
{"id": "C96", "title": "Custom colours and floats stay as they are however often a mesh is saved", "statement": "A mesh whose colours or custom floats were saved and loaded can be saved and loaded again any number of times, and the values stay within one step of the precision they were first given.", "quantifier": "for all colours and floats, all mesh and array names, all precision settings, all numbers of cycles, both builds", "why_tests_cant": "Tests save custom data once; what happens to it shows only after many cycles, since each load attaches a finer precision than was asked for.", "anchors": ["src/custom_data.rs: write", "src/custom_data.rs: read", "src/tmf_exporter.rs: write_tmf", "src/tmf_importer.rs: import_sync"]}
{"id": "C97", "title": "Meshes written one at a time are read one at a time", "statement": "The functions for a single mesh belong together: meshes written with write_tmf_one, one after another to the same output, come back one after another from read_tmf_one; read_tmf_one_async does the same; files with no or several meshes are reported as such. A mesh written with write_obj_one comes back from read_from_obj_one, and meshes written with it one after another to the same output come back from read_from_obj.", "quantifier": "for all meshes, names and settings that can be saved, all numbers of meshes, all ways bytes are taken and delivered, all orders of tasks, all builds", "why_tests_cant": "Tests use the functions for one mesh with one file each; nothing checks what several calls on one output make.", "anchors": ["src/lib.rs: write_tmf_one", "src/lib.rs: read_tmf_one", "src/lib.rs: read_tmf_one_async", "src/lib.rs: write_obj_one", "src/lib.rs: read_from_obj_one", "src/obj.rs: write_obj"]}
{"id": "C98", "title": "The memory asked for while loading is bounded by the size of the file", "statement": "While a .tmf file is loaded, all buffers and arrays asked for together take at most a fixed multiple of the size of the file.", "quantifier": "for all byte strings, whether they load or not, all arithmetics, all builds", "why_tests_cant": "Tests load files the library wrote itself, whose lengths are honest; no test looks at what is asked for before data runs out.", "anchors": ["src/tmf.rs: read", "src/tmf_importer.rs: read_string", "src/tmf_importer.rs: import_mesh", "src/tmf_importer.rs: read_default_triangles", "src/vertices.rs: read_tmf_vertices", "src/vertices.rs: read_triangles", "src/normals.rs: read_normal_array", "src/uv.rs: read_uvs", "src/tangents.rs: read_tangents", "src/custom_data.rs: read"]}
{"id": "C99", "title": "Damage to the data of an array stays where it is", "statement": "If bytes of the packed data of one array of a .tmf file are overwritten, the file still loads; every element none of whose bytes was overwritten, every other array and every other mesh is as before.", "quantifier": "for all files that load, all arrays in them, all overwritten bytes behind the head of the array, all arithmetics, all builds", "why_tests_cant": "Tests load files as they were written; none compares what a damaged file loads as with what the undamaged one does, and there are too many places to damage.", "anchors": ["src/tmf.rs: decode", "src/tmf.rs: apply", "src/tmf_importer.rs: import_mesh", "src/tmf_importer.rs: read_default_triangles", "src/vertices.rs: read_tmf_vertices", "src/vertices.rs: read_triangles", "src/normals.rs: read_normal_array", "src/uv.rs: read_uvs", "src/tangents.rs: read_tangents", "src/custom_data.rs: read", "src/unaligned_rw.rs: read_unaligned", "src/unaligned_rw.rs: read2_unaligned"]}
{"id": "C100", "title": "Overwriting packed data never makes a file unreadable", "statement": "If a .tmf file loads and any of the packed data behind the heads of its arrays is overwritten, in any number of segments, the result loads too, with the same names and, per mesh, the same arrays of the same lengths and the same custom segments. In builds with overflow checks this needs that the minimum stored with each index array leaves room in 64 bits for the width of the array, which every file written by this library within the limits of the format does.", "quantifier": "for all files that load, all ways to overwrite packed data, all schedules of the reader, all arithmetics, both builds", "why_tests_cant": "Tests load files as they were written; the ways to overwrite data are as many as there are byte strings.", "anchors": ["src/tmf.rs: decode", "src/tmf.rs: apply", "src/tmf_importer.rs: import_mesh", "src/tmf_importer.rs: read_default_triangles", "src/vertices.rs: read_tmf_vertices", "src/vertices.rs: read_triangles", "src/vertices.rs: save_triangles", "src/normals.rs: read_normal_array", "src/uv.rs: read_uvs", "src/tangents.rs: read_tangents", "src/custom_data.rs: read", "src/unaligned_rw.rs: read_unaligned", "src/unaligned_rw.rs: read2_unaligned"]}
{"id": "C101", "title": "The order of segments matters only within an array", "statement": "If a .tmf file loads, then every file in which each mesh has the same name and gives each of its arrays (vertices, normals, uvs, tangents, the four index arrays, custom data) the same segments in the same order loads to the same meshes. How segments of different arrays are interleaved, and which segments of unknown type stand between them, makes no difference. Within one array the order does matter.", "quantifier": "for all files that load, all ways to interleave the segments of different arrays and to add or remove segments of unknown type, all schedules of the reader, all arithmetics, both builds", "why_tests_cant": "Tests load files with the segments in the order the writer chose; the number of orders grows as a factorial.", "anchors": ["src/tmf.rs: decode", "src/tmf.rs: apply", "src/tmf.rs: from_u16", "src/tmf_importer.rs: import_mesh"]}
{"id": "C102", "title": "What does not matter in the text of an .obj file", "statement": "Two .obj texts are read the same, accepted or refused alike, if they differ only in line ends (line feed with or without carriage return, a last line with or without line feed), in lines whose first word is none of v, vn, vt, f and o, and, within one object and without the feature triangulation, in how the lines of vertices, normals, uvs and faces are interleaved. With triangulation a polygon has to come after its vertices, and a carriage return at the very end of the text without line feed is part of the last line.", "quantifier": "for all texts (not only well-formed ones), all float parsers, all arithmetics, both builds; line ends and comments for both ways of adding faces", "why_tests_cant": "Tests read a few files from one exporter; the ways to rearrange and comment a file are unbounded.", "anchors": ["src/obj.rs: read_from_obj", "src/obj.rs: parse_line", "src/obj.rs: load_face", "src/model_importer.rs: push_face", "src/triangulation.rs: triangulate"]}
{"id": "C103", "title": "An array is stored the same whatever is stored with it", "statement": "How an array of a mesh lies in a file, byte by byte, and what is loaded from it, depends only on the array and the setting for its kind: not on the other arrays, the custom data, the names, the other meshes of the file or the settings for other arrays. For vertices it also depends on the triangles between them, whose shortest edge the precision refers to, and the indices of vertices, normals and uvs are stored together.", "quantifier": "for all meshes and settings of two files, all positions of the meshes in them, all nine arrays, all arithmetics, both builds, all ways the files are delivered", "why_tests_cant": "Tests save one mesh with one setting and look at the whole; that one array does not disturb another is a statement about all pairs of files.", "anchors": ["src/tmf_exporter.rs: write_mesh", "src/tmf_exporter.rs: merge_segments", "src/tmf.rs: optimize", "src/tmf.rs: encode", "src/tmf.rs: apply", "src/tmf_importer.rs: import_sync"]}
{"id": "C104", "title": "Saving keeps the order of numbers", "statement": "Of two numbers of one array, the smaller one does not come back larger than the other after saving and loading: for the two coordinates of uvs, the channels of colours, custom floats, and each axis of the vertices stored as one segment.", "quantifier": "for all meshes, settings, files and pairs of numbers of an array, both builds of writer and reader", "why_tests_cant": "Tests compare single numbers with a tolerance; that no pair of the 2^64 pairs of f32 numbers is swapped by rounding is not visible that way.", "anchors": ["src/uv.rs: save_uvs", "src/uv.rs: read_uvs", "src/vertices.rs: save_tmf_vertices", "src/vertices.rs: read_tmf_vertices", "src/custom_data.rs: write", "src/custom_data.rs: read"]}
{"id": "C105", "title": "Equal elements come back equal", "statement": "Elements of one array that are equal are equal again after saving and loading, so that seams between faces that do not share vertices stay closed. Normals, tangents and uv coordinates come back by one rule for all meshes and files saved with the same settings.", "quantifier": "for all meshes, settings, files and pairs of equal elements, both builds of writer and reader", "why_tests_cant": "A test sees the seams of the meshes it tries; whether the cutting of vertex arrays can separate two equal vertices depends on the order and the extent of all vertices before them.", "anchors": ["src/tmf_exporter.rs: opt_vertices", "src/tmf_exporter.rs: find_best_vertex_spilt", "src/vertices.rs: save_tmf_vertices", "src/vertices.rs: read_tmf_vertices", "src/normals.rs: save_normal_array", "src/uv.rs: save_uvs", "src/tangents.rs: save_tangents", "src/custom_data.rs: write"]}
{"id": "C106", "title": "Normalising again changes nothing", "statement": "Once the normals of a mesh are normalised, calling normalize again any number of times leaves them as they are.", "quantifier": "for all meshes, normals and numbers of calls", "why_tests_cant": "A test calls normalize once or twice on a few normals; that a result settles, and how far it can wander in many calls, is a statement about all of them.", "anchors": ["src/lib.rs: normalize", "src/utilis.rs: normalize"]}
{"id": "C107", "title": "Mirrored meshes come back mirrored", "statement": "Saving and loading the mirror image of a mesh, made by changing the signs of coordinates, gives the mirror image of what saving and loading the mesh gives.", "quantifier": "for all meshes, axes and settings", "why_tests_cant": "A test mirrors a few vectors; that the stored form treats both sides of zero alike, to the bit and for every mathematical library, is a statement about all vectors.", "anchors": ["src/normals.rs: normal_to_encoding", "src/normals.rs: normal_from_encoding", "src/tangents.rs: tangent_to_encoding", "src/vertices.rs: save_tmf_vertices"]}
{"id": "C108", "title": "A .obj file with polygons can be stored as .tmf", "statement": "With the feature \"triangulation\", a .obj file whose faces have three or more corners can be read, saved as .tmf and loaded again, with its objects and triangles that cover its faces.", "quantifier": "for all files whose corners are far enough apart, all settings and builds", "why_tests_cant": "A test stores a few polygons; that the triangles made for any polygon can be saved and loaded is a statement about all of them, and fails for pentagons.", "anchors": ["src/obj.rs: read_from_obj", "src/model_importer.rs: push_face", "src/lib.rs: write_tmf", "src/lib.rs: read_tmf"]}
{"id": "C109", "title": "A triangle with two corners in one place keeps the whole file from being stored", "statement": "If some mesh of a file has a triangle two corners of which are in the same place (or closer than 2^-75 in each coordinate), no build can save the file and load it again: the shortest edge is computed as +0, every coordinate of that mesh asks for 255 bits, and what a release build writes is refused by every reader.", "quantifier": "for all files within the format's limits, all other meshes, all settings with a positive vertex precision, all builds of writer and reader, all readers' schedules", "why_tests_cant": "A test tries one degenerate triangle; that one anywhere in a file, however large, makes the whole file unreadable is a statement about all files.", "anchors": ["src/tmf_exporter.rs: calc_shortest_edge", "src/vertices.rs: save_tmf_vertices", "src/lib.rs: write_tmf", "src/lib.rs: read_tmf"]}
{"id": "C110", "title": "Numbers outside 0 to 1 are taken to the nearest end or keep their place in a repeated texture", "statement": "Uv coordinates and colour channels that are NaN, negative or the negative infinity come back as 0; the positive infinity and numbers of 2^64 steps or more come back as 1; any other number above 1 comes back as 1 or, as in a repeated texture, as its fractional part within the precision asked for.", "quantifier": "for all files within the format's limits, all arrays, all numbers in them, all bit widths from 1 to 30, all builds of writer and reader", "why_tests_cant": "Tests use coordinates in 0 to 1; the failure grows with the number of repetitions and with the bit width, and NaN and infinities pass through several conversions.", "anchors": ["src/uv.rs: save_uvs", "src/uv.rs: read_uvs", "src/custom_data.rs: write", "src/custom_data.rs: read"]}
{"id": "C111", "title": "A file with an infinite vertex coordinate is not stored", "statement": "If a vertex of some mesh has an infinite coordinate, no build saves the file and loads it again, so that the damage does not go unnoticed.", "quantifier": "for all files within the format's limits, all other meshes and vertices, all triangles, all settings with a positive vertex precision, all builds of writer and reader, all readers' schedules", "why_tests_cant": "Whether the file is refused depends on the axis, the sign and the order in which the bounding box takes up the vertices, and on every way of cutting the array into pieces.", "anchors": ["src/vertices.rs: save_tmf_vertices", "src/vertices.rs: read_tmf_vertices", "src/tmf_exporter.rs: calc_shortest_edge", "src/lib.rs: write_tmf"]}
{"id": "C112", "title": "A NaN vertex coordinate becomes a definite number and leaves the others alone", "statement": "Where coordinates of vertices are NaN, a file is stored and loaded all the same. An x that is NaN comes back as the least x of the vertices stored with it, a y as the least of their y and z without the last y, a z as the least of their y and z. All numbers beside them, the last vertex aside, come back within one step as usual.", "quantifier": "for all vertex arrays with any number of NaNs anywhere but in the last vertex of a piece and with all other coordinates up to 2^120, all ways they are cut into pieces, all files within the limits with widths up to 30 bits (24 for the numbers beside the NaNs), all builds of writer and reader, all schedules", "why_tests_cant": "Any subset of the coordinates can be NaN, and what they become depends on the order in which the bounding box takes up the vertices and on how minimum and maximum treat NaN.", "anchors": ["src/vertices.rs: save_tmf_vertices", "src/vertices.rs: read_tmf_vertices", "src/lib.rs: write_tmf", "src/lib.rs: read_tmf"]}
{"id": "C113", "title": "A custom fraction that is NaN becomes the least fraction and leaves the others alone", "statement": "Where fractions of a custom data array are NaN, the array is stored and loaded all the same. Each NaN comes back as the least number of the array, or as the largest number an f32 can be if there are only NaNs. The numbers beside them come back within one step as usual, also where they are all equal.", "quantifier": "for all arrays of NaNs and fractions up to 2^120 in any order, all precisions that give up to 30 bits (24 for the numbers beside the NaNs), all files within the limits, all builds of writer and reader, all schedules", "why_tests_cant": "Any subset of the fractions can be NaN, and what they become depends on how minimum, maximum and the cast treat NaN for every range and width.", "anchors": ["src/custom_data.rs: write", "src/custom_data.rs: read", "src/lib.rs: write_tmf", "src/lib.rs: read_tmf"]}
{"id": "C114", "title": "A file with an infinite custom fraction is not stored", "statement": "If a fraction in some custom data is infinite, no build saves the file and loads it again, and a build with overflow checks does not even save it, so that the other fractions are not lost unnoticed.", "quantifier": "for all files within the format's limits, all other fractions of the array including NaN, all positions and signs of the infinite ones, all finite precisions without a sign, all settings, all builds of writer and reader, all readers' schedules", "why_tests_cant": "Whether the file is refused depends on the range over any number of fractions in any order and on every combination of NaN, infinities and precision.", "anchors": ["src/custom_data.rs: write", "src/custom_data.rs: read", "src/lib.rs: write_tmf", "src/lib.rs: read_tmf"]}
{"id": "C115", "title": "Without a positive vertex precision at most eight places are left of each piece", "statement": "If the vertex precision asked for is NaN, infinite or has a sign, the file is stored and loaded all the same, but every axis of a vertex array gets a single bit, so that at most two values per axis and eight places come back of each piece the array is cut into.", "quantifier": "for all vertex arrays including infinite and NaN coordinates, all such precisions, all triangles and shortest edges, all files within the limits, all builds of writer and reader, all schedules", "why_tests_cant": "The width depends on how division, logarithm, ceiling and the cast treat NaN, infinities and signs for every box and edge.", "anchors": ["src/vertices.rs: save_tmf_vertices", "src/vertices.rs: read_tmf_vertices", "src/tmf_exporter.rs: calc_shortest_edge", "src/lib.rs: write_tmf", "src/lib.rs: read_tmf"]}
{"id": "C116", "title": "Without a positive precision at most two custom fractions are left", "statement": "If the precision of an array of custom fractions is NaN, infinite or has a sign, the array is stored and loaded all the same, but every fraction gets a single bit, so that as many fractions come back as were put in, but with at most two different values.", "quantifier": "for all arrays that hold anything but NaN, including infinities and NaN among them, all such precisions, all files within the limits, all builds of writer and reader, all schedules", "why_tests_cant": "The width depends on how subtraction, division, logarithm, ceiling and the cast treat NaN, infinities and signs for every range the array may span.", "anchors": ["src/custom_data.rs: write", "src/custom_data.rs: read", "src/lib.rs: write_tmf", "src/lib.rs: read_tmf"]}
