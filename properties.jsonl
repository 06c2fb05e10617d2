{"id": "C01", "title": "Bit map indexing is exact", "statement": "For every sequence of bits pushed into a bit map, reading position i of the finished map returns the i-th pushed bit, and the rank query for i returns the number of set bits among the first i, for every i from 0 to the length; the zero-rank is i minus that.", "quantifier": "every finite bit sequence and every position in range", "why_tests_cant": "byte packing, 32-bit repacking and the 4-word index interact at word/block boundaries; tests sample a handful of lengths", "anchors": ["dcdf/src/bitmap.rs: BitMapBuilder::push, BitMapBuilder::finish, BitMap::get, BitMap::rank, BitMap::rank0"]}
{"id": "C02", "title": "Compressed integers read back exactly", "statement": "Every list of signed 64-bit integers packed into the variable-length integer container reads back element by element unchanged, including i64::MIN and i64::MAX.", "quantifier": "every list of i64 and every index in range", "why_tests_cant": "needs all magnitudes mixed at all positions (each byte level has its own bitmap and rank chain)", "anchors": ["dcdf/src/dac.rs: Dac::from, Dac::get, zigzag_encode, zigzag_decode"]}
{"id": "C03", "title": "Zigzag is a magnitude-ordered bijection", "statement": "The signed-to-unsigned mapping is a bijection between i64 and u64 whose inverse is the decoder, and n needs b bytes exactly when its zigzag image is below 256^b.", "quantifier": "all 2^64 integers", "why_tests_cant": "the domain is too large to enumerate", "anchors": ["dcdf/src/dac.rs: zigzag_encode, zigzag_decode"]}
{"id": "C04", "title": "Snapshot cell read", "statement": "After encoding any raster (at least 2 cells on its longer side) as a snapshot, reading any cell inside the raster returns the value that was encoded, for any k>=2, with no panic, even when differences wrap around in 64 bits.", "quantifier": "every raster shape, content, arity k>=2 and cell", "why_tests_cant": "depends on the breadth-first layout/rank arithmetic for every tree shape and every elision pattern", "anchors": ["dcdf/src/snapshot.rs: Snapshot::build, Snapshot::get, Snapshot::_get, K2TreeNode::_build"]}
{"id": "C05", "title": "Snapshot window read", "statement": "Filling any non-empty window inside an encoded raster writes every cell of the window exactly once, at its position relative to the window, with the encoded value, and writes nothing else.", "quantifier": "every raster, k>=2 and non-empty in-bounds window", "why_tests_cant": "window clipping at every level of the tree for every alignment", "anchors": ["dcdf/src/snapshot.rs: Snapshot::fill_window, Snapshot::_fill_window"]}
{"id": "C06", "title": "Snapshot search is exact", "statement": "Searching any non-empty window of an encoded raster for values between lower and upper returns exactly the coordinates of cells whose value is in the closed interval, each once.", "quantifier": "every raster, k>=2, non-empty in-bounds window and interval", "why_tests_cant": "pruning uses min/max of ancestors; a wrong prune shows only for particular value layouts", "anchors": ["dcdf/src/snapshot.rs: Snapshot::search_window, Snapshot::_search_window"]}
{"id": "C07", "title": "Log cell read", "statement": "For any two rasters of the same shape (no 64-bit overflow in differences), encoding the second as a log against the snapshot of the first and reading any cell through log+snapshot returns the second raster's value.", "quantifier": "every pair of same-shape rasters, every k, every cell", "why_tests_cant": "walks two trees with independent elision patterns in lock-step", "anchors": ["dcdf/src/log.rs: Log::build, Log::get, Log::_get, K2PTreeNode::_build"]}
{"id": "C08", "title": "Log window read", "statement": "Filling any non-empty in-bounds window through log+snapshot writes each cell of the window exactly once with the second raster's value and nothing else.", "quantifier": "every pair of rasters, every window", "why_tests_cant": "same as C07 plus clipping at all alignments", "anchors": ["dcdf/src/log.rs: Log::fill_window, Log::_fill_window"]}
{"id": "C09", "title": "Log search is exact", "statement": "Searching any non-empty window through log+snapshot for a closed interval returns exactly the coordinates whose second-raster value lies in the interval, each once.", "quantifier": "every pair of rasters, window and interval", "why_tests_cant": "pruning bounds are rebuilt from two trees; a wrong bound is visible only for particular value layouts", "anchors": ["dcdf/src/log.rs: Log::search_window, Log::_search_window"]}
{"id": "C10", "title": "Reads never crash on a built raster", "statement": "No cell, window or search query inside the bounds of a successfully built snapshot or log panics, whatever its shape (including 1x1) and arity.", "quantifier": "every built raster, arity and in-bounds query", "why_tests_cant": "the failing sizes/arity depend on the number of tree nodes modulo 32", "anchors": ["dcdf/src/snapshot.rs: Snapshot::get", "dcdf/src/log.rs: Log::_get, Log::_fill_window", "dcdf/src/bitmap.rs: BitMap::get"]}
{"id": "C11", "title": "Chunk finds the right block", "statement": "For every chunk and every instant below its length, the lookup terminates and returns the block that holds the instant and the offset inside it; also for a chunk just loaded from bytes.", "quantifier": "every list of non-empty blocks and every instant in range", "why_tests_cant": "binary search with off-by-one hazards over arbitrary block length lists", "anchors": ["dcdf/src/chunk.rs: Chunk::find_block, Chunk::new, Chunk::index"]}
{"id": "C12", "title": "Chunk cell read", "statement": "Building a chunk from any time series of same-shape rasters and reading any (instant,row,col) returns the input value, independent of where the builder decides to start new snapshots.", "quantifier": "every series length, raster content and cell", "why_tests_cant": "the snapshot/log decision depends on compressed sizes and on the 254-log limit; tests touch a few lengths", "anchors": ["dcdf/src/chunk.rs: Chunk::build, Chunk::get", "dcdf/src/block.rs: Block::get"]}
{"id": "C13", "title": "Chunk time-series and window reads", "statement": "Reading one cell over an instant range, or a 3-D window, writes every requested position exactly once with the input value, in relative coordinates.", "quantifier": "every chunk, instant range and window", "why_tests_cant": "ranges crossing any block boundary pattern", "anchors": ["dcdf/src/chunk.rs: Chunk::fill_cell, Chunk::fill_window, ChunkIter", "dcdf/src/block.rs: Block::fill_window"]}
{"id": "C14", "title": "Chunk search is exact", "statement": "Searching a 3-D window of a chunk for a closed interval yields exactly the matching (instant,row,col), each once, and swapping lower and upper makes no difference.", "quantifier": "every chunk, window, interval", "why_tests_cant": "ranges crossing any block boundary pattern and both encodings", "anchors": ["dcdf/src/chunk.rs: Chunk::iter_search, SearchIter", "dcdf/src/block.rs: Block::search_window"]}
{"id": "C15", "title": "Block and chunk size limits", "statement": "The chunk builder never produces a block with more than 255 instants or an empty block, and block lengths add up to the number of input instants.", "quantifier": "every input series and every compressed-size relation", "why_tests_cant": "the limit is reached only by long favourable runs", "anchors": ["dcdf/src/chunk.rs: Chunk::build", "dcdf/src/block.rs: Block::new"]}
{"id": "C16", "title": "Binary round trip of chunk structures", "statement": "Writing a bit map, integer container, snapshot, log, block or chunk and reading it back from a stream that continues with arbitrary further bytes yields an equal structure and leaves exactly the further bytes.", "quantifier": "every built structure and every trailing byte string", "why_tests_cant": "all lengths and level counts", "anchors": ["dcdf/src/bitmap.rs: write_to, read_from", "dcdf/src/dac.rs: write_to, read_from", "dcdf/src/snapshot.rs: write_to, read_from", "dcdf/src/log.rs: write_to, read_from", "dcdf/src/block.rs: write_to, read_from", "dcdf/src/chunk.rs: write_to, read_from"]}
{"id": "C17", "title": "Reported size equals serialized length", "statement": "The size reported by bit maps, integer containers, snapshots, logs, blocks and chunks equals the number of bytes they serialize to (so the builder's compression decision compares real sizes).", "quantifier": "every structure", "why_tests_cant": "sum over unbounded nested lists", "anchors": ["dcdf/src/bitmap.rs: size", "dcdf/src/dac.rs: size", "dcdf/src/snapshot.rs: size", "dcdf/src/log.rs: size", "dcdf/src/block.rs: size", "dcdf/src/chunk.rs: size"]}
{"id": "C18", "title": "Truncated objects are rejected", "statement": "Reading any proper prefix of a serialized structure reports an error instead of returning a structure.", "quantifier": "every structure and every cut point", "why_tests_cant": "all cut points of all encodings", "anchors": ["dcdf/src/dac.rs: Dac::read_from", "dcdf/src/extio.rs: read_u32"]}
{"id": "C19", "title": "Primitive codecs round trip", "statement": "Big-endian integers of all widths, short strings and content identifiers read back unchanged from any stream that starts with their encoding.", "quantifier": "all values of each width, all strings up to 255 bytes, all identifiers", "why_tests_cant": "domains too large", "anchors": ["dcdf/src/extio.rs: ExtendedAsyncRead, ExtendedAsyncWrite"]}
{"id": "C20", "title": "Encoding tags are stable and invertible", "statement": "Each element encoding tag maps to a distinct byte and back, and every other byte is rejected.", "quantifier": "all 256 byte values", "why_tests_cant": "finite but untested; a silent overlap would misread data", "anchors": ["dcdf/src/mmstruct.rs: MMEncoding, TryFrom<u8>"]}
{"id": "C21", "title": "Subchunk decomposition partitions a window", "statement": "Splitting any in-bounds window of a super chunk by its grid visits each subchunk that meets the window exactly once, and the pieces (translated back) partition the window.", "quantifier": "every grid side, subchunk size and window", "why_tests_cant": "all alignments of window and grid", "anchors": ["dcdf/src/superchunk.rs: Superchunk::subchunks_for"]}
{"id": "C22", "title": "Super chunk cell read", "statement": "Building a super chunk (any nesting the builder accepts) and reading any (instant,row,col) returns the built value, whether the subchunk is elided, stored inline or stored externally.", "quantifier": "every data cube, level list accepted, storage decision and cell", "why_tests_cant": "recursive nesting with three storage kinds", "anchors": ["dcdf/src/superchunk.rs: build, get"]}
{"id": "C23", "title": "Super chunk window and time-series read", "statement": "Window and single-cell range reads on a super chunk write each requested position exactly once with the built value, in whatever order the concurrent sub-reads complete.", "quantifier": "every data cube, window and completion order", "why_tests_cant": "completion orders are not controllable in tests", "anchors": ["dcdf/src/superchunk.rs: fill_cell, fill_window"]}
{"id": "C24", "title": "Super chunk search is exact", "statement": "Searching a super chunk yields exactly the matching cells of the window, each once; min/max pruning never loses a match.", "quantifier": "every data cube, window, interval", "why_tests_cant": "pruning bounds per subchunk per instant", "anchors": ["dcdf/src/superchunk.rs: search, search_subchunk"]}
{"id": "C25", "title": "Storage failures surface in window reads", "statement": "If a subchunk needed for a read cannot be loaded, the read reports an error rather than returning data.", "quantifier": "every super chunk, window and set of unavailable objects", "why_tests_cant": "failure injection at every object", "anchors": ["dcdf/src/superchunk.rs: fill_window, fill_cell, get"]}
{"id": "C26", "title": "Super chunk builder accepts every valid shape", "statement": "For every raster shape and every level list whose total covers the shape, the super chunk builder succeeds.", "quantifier": "all shapes and level lists", "why_tests_cant": "edge subarrays of arbitrary size", "anchors": ["dcdf/src/superchunk.rs: build"]}
{"id": "C27", "title": "Elision loses nothing", "statement": "A subchunk is dropped in favour of per-instant constants only when every cell of each instant equals that constant, so dropping it does not change any read.", "quantifier": "all data cubes incl. special float values", "why_tests_cant": "NaN placement patterns", "anchors": ["dcdf/src/superchunk.rs: build", "dcdf/src/mmbuffer.rs: min_max, min_max_float"]}
{"id": "C28", "title": "Super chunk, span and link objects round trip", "statement": "Saving a super chunk, span or link list and loading it back yields an equal object.", "quantifier": "every object", "why_tests_cant": "unbounded lists of references", "anchors": ["dcdf/src/superchunk.rs: save_to, load_from", "dcdf/src/span.rs: save_to, load_from", "dcdf/src/links.rs"]}
{"id": "C29", "title": "Span read routing", "statement": "In a span tree, reading an instant is answered by the child holding it at the right relative instant; cell-range, window and search reads over any instant range visit each instant exactly once in relative coordinates.", "quantifier": "every span tree satisfying the fill rule, every range", "why_tests_cant": "ranges crossing any number of child boundaries", "anchors": ["dcdf/src/span.rs: get, fill_cell, fill_window, search, find_span"]}
{"id": "C30", "title": "Span append keeps earlier data", "statement": "Appending to, or updating the last element of, a span changes no instant below the old length (resp. below the last child's start) and adds exactly the new child's instants; appends violating the fill rule are rejected.", "quantifier": "every span and child", "why_tests_cant": "all fill levels", "anchors": ["dcdf/src/span.rs: append, update"]}
{"id": "C31", "title": "Append history equals concatenation", "statement": "After any sequence of appends to a variable, reading instant t of the variable gives instant t of the concatenation of all appended arrays, for any split of the data into appends and any chunk/span sizes accepted.", "quantifier": "every history of appends, every chunk_size>=1 and span_size>=2", "why_tests_cant": "tail rewriting depends on the residues of all previous lengths", "anchors": ["dcdf/src/dataset.rs: Variable::append, create_open_span, tail_data, tail_spans, save_spans"]}
{"id": "C32", "title": "Old versions are immutable", "statement": "Any dataset identifier obtained from a commit keeps denoting the same contents after any later operations.", "quantifier": "every history of operations after the commit", "why_tests_cant": "all histories", "anchors": ["dcdf/src/dataset.rs: append_*, commit, add_variable", "dcdf/src/resolver.rs: save"]}
{"id": "C33", "title": "Version chain is complete", "statement": "Following previous-version links from a committed dataset visits exactly the earlier commits of its history, newest first, and ends.", "quantifier": "every alternation of edits and commits", "why_tests_cant": "all histories", "anchors": ["dcdf/src/dataset.rs: commit, prev, load_from"]}
{"id": "C34", "title": "Dataset round trip", "statement": "Committing a dataset and loading it returns the same coordinates, shape, variables and previous link.", "quantifier": "every dataset within the documented limits (names up to 255 bytes, up to 255 variables)", "why_tests_cant": "unbounded lists", "anchors": ["dcdf/src/dataset.rs: save_to, load_from, Coordinate, Variable"]}
{"id": "C35", "title": "Cache stays within its limit", "statement": "After any sequence of lookups and loads the cache's accounted size equals the sum of the sizes of the entries held and does not exceed the limit.", "quantifier": "every sequence of gets, object sizes and limit", "why_tests_cant": "all eviction patterns", "anchors": ["dcdf/src/cache.rs: Cache, Entries"]}
{"id": "C36", "title": "Cache evicts least recently used first and never lies", "statement": "A get always returns the loader's object for that key; entries are evicted in least-recently-used order; a hit does not call the loader.", "quantifier": "every sequence of gets", "why_tests_cant": "all histories", "anchors": ["dcdf/src/cache.rs: Cache::get, Entries::push_most_recent, remove"]}
{"id": "C37", "title": "Concurrent gets load once", "statement": "When several tasks ask for the same absent key at the same time, the loader runs once and all get the object; no interleaving corrupts the recency list.", "quantifier": "every interleaving of any number of tasks", "why_tests_cant": "schedules are not controllable", "anchors": ["dcdf/src/cache.rs: Cache::get, load, Loader::finish, Loader::wait"]}
{"id": "C38", "title": "No waiter is forgotten", "statement": "Every task waiting for a load in progress is woken with the object once the load finishes.", "quantifier": "every interleaving of waits and the finish", "why_tests_cant": "schedules", "anchors": ["dcdf/src/cache.rs: Loader::finish, Loader::wait"]}
{"id": "C39", "title": "Fixed point is exact when precision suffices", "statement": "A float whose fractional part needs at most b bits (and whose magnitude fits) survives to-fixed/from-fixed with b bits unchanged, also negative ones; NaN survives as NaN and no number is turned into NaN.", "quantifier": "all representable values, both signs, all bit counts", "why_tests_cant": "continuum of values", "anchors": ["dcdf/src/fixed.rs: to_fixed, from_fixed"]}
{"id": "C40", "title": "Rounding error is bounded", "statement": "With rounding enabled the decoded value differs from the original by at most half a unit of 2^-b; without rounding an inexact value is rejected.", "quantifier": "all values, both signs, all bit counts", "why_tests_cant": "continuum of values", "anchors": ["dcdf/src/fixed.rs: to_fixed"]}
{"id": "C41", "title": "Suggested precision is safe", "statement": "When the fraction suggestion says a bit count is precise, every value of the data is representable exactly with it within 62 bits.", "quantifier": "all finite data sets", "why_tests_cant": "continuum of values", "anchors": ["dcdf/src/fixed.rs: suggest_fraction"]}
{"id": "C42", "title": "Range coordinates are consistent", "statement": "For integer ranges, get(i), slice and iteration agree with start+i*step for each index below the length, and out-of-range access is rejected.", "quantifier": "every start, step, length and slice", "why_tests_cant": "all triples", "anchors": ["dcdf/src/range.rs: IntRange", "dcdf/src/time.rs: TimeRange"]}
{"id": "C43", "title": "Rectangles enumerate cells once in row-major order", "statement": "Iterating a rectangle with positive width yields each of its cells exactly once in row-major order, and construction normalises swapped corners.", "quantifier": "every rectangle", "why_tests_cant": "all sizes", "anchors": ["dcdf/src/geom.rs: Rect, RectIter, Cube", "dcdf/src/helpers.rs: rearrange"]}
{"id": "C44", "title": "Out-of-bounds queries are rejected", "statement": "A get, cell, window or search call is answered only if all its coordinates are within the array's shape; otherwise it is rejected before any data is touched.", "quantifier": "every shape and query", "why_tests_cant": "all queries", "anchors": ["dcdf/src/mmarray.rs: check_bounds"]}
{"id": "C45", "title": "Listing shows every referenced object", "statement": "Listing a stored object names every object it directly references, so that everything needed for reads is reachable from the dataset identifier through listings.", "quantifier": "every stored object graph", "why_tests_cant": "unbounded graphs", "anchors": ["dcdf/src/resolver.rs: ls", "dcdf/src/superchunk.rs: ls", "dcdf/src/span.rs: ls", "dcdf/src/dataset.rs: ls", "dcdf/src/links.rs: ls"]}
{"id": "C46", "title": "32-bit variables are lossless", "statement": "Data stored in a 32-bit integer variable is returned bit for bit by all read paths although it is held as 64-bit internally.", "quantifier": "all i32 data", "why_tests_cant": "all values", "anchors": ["dcdf/src/mmbuffer.rs: MMBuffer set/get"]}
{"id": "C47", "title": "Identical content gets an identical identifier", "statement": "Saving equal objects yields equal identifiers and does not disturb any other stored object.", "quantifier": "all objects and histories", "why_tests_cant": "all histories", "anchors": ["dcdf/src/resolver.rs: save", "dcdf/src/mapper.rs: Mapper"]}
{"id": "C48", "title": "Float range coordinates are consistent", "statement": "For float ranges, get(i) is start+i*step up to rounding for each index below the length, slice(i,j) has exactly the j-i elements get(i),...,get(j-1), and out-of-range access is rejected.", "quantifier": "every finite start and step, length and slice", "why_tests_cant": "all floats; rounding decides the number of elements", "anchors": ["dcdf/src/range.rs: FloatRange"]}
{"id": "C49", "title": "Python indexing agrees with NumPy", "statement": "Indexing a variable with brackets in Python (ints and slices, one to three of them, with missing dimensions taken whole) gives the same shape and values as NumPy basic indexing of an array holding the variable's data; indexing a coordinate does likewise for the array of its values; whatever NumPy rejects is rejected.", "quantifier": "all variables, coordinates and tuples of ints and slices", "why_tests_cant": "all combinations of indices, open ends, negative indices, steps and bounds", "anchors": ["py-dcdf/dcdf/__init__.py: Variable.__getitem__, Coordinate.__getitem__, _as_slice", "py-dcdf/src/lib.rs: PyMMArray3I64 get, cell, window", "dcdf/src/geom.rs: Cube::new"]}
{"id": "C50", "title": "The resolver's cache is invisible", "statement": "Reading data sets, links and structures through a resolver gives, for every cache size, exactly what reading them from the store gives at that moment, whatever was saved and read before, also for concurrent reads and for the links a superchunk keeps; failures are those of the store and are not remembered.", "quantifier": "every history of saves and reads, every cache limit, every interleaving of concurrent reads", "why_tests_cant": "all eviction patterns and histories", "anchors": ["dcdf/src/resolver.rs: get_dataset, get_links, get_mmstruct3, check_cache, retrieve, save", "dcdf/src/cache.rs: Cache", "dcdf/src/superchunk.rs: external"]}
{"id": "C51", "title": "IPFS mapper keeps the mapper contract", "statement": "With a server that keeps what it is given, whatever is written through the IPFS mapper, in any pieces, is read back under the returned identifier with the right size; hash gives the same identifier without storing; an identifier that leads nowhere gives None and failures give errors.", "quantifier": "every object, way of splitting it into writes, and server state", "why_tests_cant": "needs a server, including absent and failing ones", "anchors": ["dcdf-ipfs/src/lib.rs: IpfsMapper, IpfsStoreWrite", "dcdf/src/mapper.rs: Mapper"]}
{"id": "C52", "title": "Reported sizes are the stored sizes", "statement": "For every object kept in the store, size() (which the cache counts against its limit) is the number of bytes stored for it.", "quantifier": "all data sets, links, spans, superchunks and chunks, with any nesting", "why_tests_cant": "all structures", "anchors": ["dcdf/src/resolver.rs: CacheItem::size", "dcdf/src/dataset.rs: size", "dcdf/src/superchunk.rs: size", "dcdf/src/span.rs: size", "dcdf/src/chunk.rs: size", "dcdf/src/links.rs: size"]}
{"id": "C53", "title": "Names identify variables and coordinates", "statement": "add_variable puts an empty variable, as declared, after the others, and get_variable finds it under its name from then on, through any appends, commits and reloads; every append reaches the variable of its name and no other; looking up a name that was never declared gives none; coordinates are found by name. A name identifies one variable.", "quantifier": "all data sets, all histories of additions, appends, commits and reloads, all names", "why_tests_cant": "all histories and names", "anchors": ["dcdf/src/dataset.rs: add_variable", "dcdf/src/dataset.rs: get_variable", "dcdf/src/dataset.rs: get_coordinate", "dcdf/src/dataset.rs: append_i32"]}
{"id": "C54", "title": "A variable keeps the type it was declared with", "statement": "After any history, the variable of a name is read through the accessor of the type it was declared with and through no other; from Python the type given as dtype comes back as dtype, data is read with that type, a type that is not supported is rejected and changes nothing; coordinates likewise. Every type that add_variable accepts can be read.", "quantifier": "all histories of additions, appends of arrays of any type, commits and reloads, from Rust and from Python, all names and types", "why_tests_cant": "all histories", "anchors": ["dcdf/src/dataset.rs: add_variable", "dcdf/src/dataset.rs: data_i32", "dcdf/src/mmarray.rs: new", "py-dcdf/dcdf/__init__.py: Dataset.add_variable", "py-dcdf/dcdf/__init__.py: Variable.dtype", "py-dcdf/src/lib.rs: add_variable"]}
{"id": "C55", "title": "Attributes of a Python data set are its coordinates and variables", "statement": "For every data set, dataset.name is the coordinate or variable of that name, and AttributeError for other names.", "quantifier": "all data sets and names", "why_tests_cant": "all names, including those the class uses itself", "anchors": ["py-dcdf/dcdf/__init__.py: Dataset.__getattr__"]}
{"id": "C56", "title": "A variable has the shape of its data set", "statement": "After any history the data of every variable has as many rows and columns as the data set. An append of at least one instant with other rows or columns does not succeed; it leaves the data set and everything stored as they were.", "quantifier": "all histories of additions, appends of arrays of any type and shape, commits and reloads; all later appends", "why_tests_cant": "all histories, shapes and states of the tree of spans", "anchors": ["dcdf/src/dataset.rs: append_i32", "dcdf/src/dataset.rs: Variable::append", "dcdf/src/dataset.rs: create_open_span", "dcdf/src/span.rs: append"]}
{"id": "C57", "title": "A variable that was added can be appended to", "statement": "If add_variable accepts the settings of a variable, then arrays of the right type and shape can be appended to it, however many, after any history; settings that cannot work are refused.", "quantifier": "all settings (span size, chunk size, levels), all histories, all arrays", "why_tests_cant": "all settings and histories", "anchors": ["dcdf/src/dataset.rs: add_variable", "dcdf/src/dataset.rs: Variable::append", "dcdf/src/dataset.rs: create_open_span", "dcdf/src/superchunk.rs: build"]}
{"id": "C58", "title": "A time axis made in Python has the instants that were asked for", "statement": "Coordinate.time(name, start, step) called with any numpy datetime64 and timedelta64 (or integers, which are seconds) makes a coordinate whose element i is the instant start + i * step.", "quantifier": "all starts and steps in all units of NumPy and all indices whose instants fit 64 bits", "why_tests_cant": "the tests use two axes in whole seconds; there are fourteen units and 2^64 counts for each argument, and what is lost shows only in some elements", "anchors": ["py-dcdf/dcdf/__init__.py:152-158 Coordinate.time", "py-dcdf/dcdf/__init__.py:206-214 Coordinate.get", "py-dcdf/src/lib.rs:190-192 PyCoordinate::time", "dcdf/src/time.rs:14-16 TimeRange::get"]}
{"id": "C59", "title": "The identifier of a variable depends on its settings and its data only", "statement": "Two variables with the same shape, type and settings (span size, chunk size, levels, rounding) to which the same numbers have been appended have the same identifier, whatever their names and data sets are, whatever else was saved before, in whatever portions the numbers were appended, and in whatever order the tasks that read the tail back ran.", "quantifier": "all pairs of histories of any length with the same data, all splittings into appends, all interleavings of reads", "why_tests_cant": "pairs of histories: every way to split a series into appends against every other, with other operations in between; the tests append in one way and never compare identifiers", "anchors": ["dcdf/src/dataset.rs:162-213 Dataset::append_i32", "dcdf/src/dataset.rs:834-878 Variable::append", "dcdf/src/dataset.rs: create_open_span", "dcdf/src/superchunk.rs:88-270 Superchunk::build", "dcdf/src/mmbuffer.rs:596-613 compute_fractional_bits"]}
{"id": "C60", "title": "What appending stores does not depend on the order in which tasks run", "statement": "Running the same operations on the same data set saves the same objects in the same order and ends with the same data set, whatever the order was in which the tasks that read back the tail of the variable delivered its cells.", "quantifier": "all histories within the limits of the format, of all variables at once, with arrays of all types and with failures, all interleavings of the tasks of every read of the tail", "why_tests_cant": "the order is chosen by the scheduler; a test sees one order per run, mostly the same", "anchors": ["dcdf/src/dataset.rs:162-213 Dataset::append_i32", "dcdf/src/dataset.rs:937-957 Variable::tail_data", "dcdf/src/superchunk.rs:403-457 Superchunk::fill_window", "dcdf/src/span.rs fill_window", "dcdf/src/mmarray.rs MMArray3::slice"]}
{"id": "C61", "title": "Objects that cannot be loaded never make data wrong", "statement": "Whatever objects of a store cannot be loaded, a read that succeeds gives the values that it gives when all objects are there, a search that reports no error finds what it finds then, and an append that succeeds keeps all earlier data.", "quantifier": "all arrays, all reads and searches, all interleavings, all sets of missing objects; all histories and outages", "why_tests_cant": "all sets of missing objects for every query; an outage in the middle of an append; the mapper of the tests never fails", "anchors": ["dcdf/src/superchunk.rs:403-457 Superchunk::fill_window", "dcdf/src/superchunk.rs:464-585 search, search_subchunk", "dcdf/src/span.rs:131-268 fill_cell, fill_window, search", "dcdf/src/mmarray.rs:134-536", "dcdf/src/dataset.rs:162-213 Dataset::append_i32", "dcdf/src/resolver.rs:82-165"]}
{"id": "C62", "title": "Appends that run at the same time do not disturb one another", "statement": "When any number of operations run at the same time on one store, each on a version of a data set, every one of them ends, and an append ends with the very result it has when it runs alone: it succeeds exactly if it succeeds alone, and then gives the same version. All variables of that version read in the common store as they do after the append alone, so it holds the data of the version it was made from, followed by the array appended (as far as C31 and C64 go), and nothing of what the other operations append.", "quantifier": "all histories before (within the limits of the format), all arrays of all types, all sets of operations, all interleavings of their loads and saves, all orders in which a superchunk's objects are saved", "why_tests_cant": "the number of interleavings; the tests of the project run one operation at a time", "anchors": ["dcdf/src/dataset.rs:162-376 Dataset::append_*", "dcdf/src/dataset.rs:833-986 Variable::append", "dcdf/src/span.rs:36-110 Span::append, update", "dcdf/src/resolver.rs save, retrieve"]}
{"id": "C63", "title": "An append that is broken off does no harm", "statement": "Whenever loads and saves of any operations fail, at any moments, an append either fails or gives the version it gives without failures. The version it started from can be read as before at every moment, and starting the append again later gives the same version as an append that was never broken off.", "quantifier": "all histories before, all sets of operations, all interleavings, all points of failure", "why_tests_cant": "a failure at any of the many loads and saves, while others run; the store of the tests never fails", "anchors": ["dcdf/src/dataset.rs:162-376 Dataset::append_*", "dcdf/src/dataset.rs:833-986 Variable::append", "dcdf/src/span.rs:36-110 Span::append, update", "dcdf/src/superchunk.rs Superchunk::build", "dcdf/src/resolver.rs save, retrieve"]}
{"id": "C64", "title": "Whatever fails, a variable holds exactly what was accepted", "statement": "After any sequence of operations of which any may have failed, for any reason (an array of another shape than the data set, a raster that the builder refuses, an unknown name), reads of a variable give the arrays whose appends succeeded, in order, and nothing of those whose appends failed. An append of an array of another shape never succeeds.", "quantifier": "all histories, of any length, of appends and other operations that succeed or fail; all reads and searches", "why_tests_cant": "all places in a history where an append may fail half way, after it has saved objects; the tests of the project append only what is accepted", "anchors": ["dcdf/src/dataset.rs:162-376 Dataset::append_*", "dcdf/src/dataset.rs:833-986 Variable::append", "dcdf/src/span.rs:36-110 Span::append, update", "dcdf/src/superchunk.rs Superchunk::build"]}
{"id": "C65", "title": "Loading an object and saving it again gives the same identifier", "statement": "Whatever bytes are loaded as an object, saving that object writes the very same bytes, so it gets the identifier it was loaded from, and no two different sequences of bytes are the same object.", "quantifier": "all bytes, whoever has written them, and all kinds of objects", "why_tests_cant": "all sequences of bytes that some reader accepts, not only those that the library writes", "anchors": ["dcdf/src/resolver.rs:126-179 save, retrieve, read_header", "dcdf/src/mmstruct.rs:205-244 save_to, load_from", "dcdf/src/superchunk.rs:678-764", "dcdf/src/dataset.rs:413-471, 690-830, 1017-1071", "dcdf/src/links.rs:46-76", "dcdf/src/extio.rs"]}
{"id": "C66", "title": "Bytes that are no object are rejected", "statement": "Loading bytes that are not an object of the kind that is asked for ends in an error, never in a crash, and always ends.", "quantifier": "all bytes", "why_tests_cant": "all sequences of bytes; the tests of the project load only what they have saved", "anchors": ["dcdf/src/resolver.rs:82-179 get_*, retrieve, read_header", "dcdf/src/mmstruct.rs:48-59, 229-244", "dcdf/src/superchunk.rs:859-868 Reference::read_from", "dcdf/src/bitmap.rs:142-164 read_from", "dcdf/src/block.rs:99-109 read_from", "dcdf/src/links.rs:46-63 load_from"]}
{"id": "C67", "title": "Regions that are alike take one value", "statement": "Of the squares that a raster is divided into, one that holds a single value is stored as one value, and so is one that differs from the raster of the block's snapshot by a single amount; nothing below it is stored. Every other square takes two values and its parts. The number of bytes that an object takes follows from these numbers.", "quantifier": "all rasters of any size, all arities and depths of the tree, all 64-bit values", "why_tests_cant": "space is a function of every cell; the tests of the project compare no sizes with the data", "anchors": ["dcdf/src/snapshot.rs:108-156 Snapshot::build, 439-500 K2TreeNode::_build", "dcdf/src/log.rs Log::build, 725-817 K2PTreeNode::_build", "dcdf/src/dac.rs From, size", "dcdf/src/bitmap.rs:169 size"]}
{"id": "C68", "title": "A chunk takes no more than its instants one by one", "statement": "An instant is stored as the difference from an earlier one only if that takes fewer bytes than storing it whole, and it is stored whole only if a difference would take no fewer or the block is full. So a chunk never takes more bytes than all of its instants stored whole, and a series that does not change takes one whole instant in 255 and at most 144 bytes for each of the others.", "quantifier": "all series of rasters, all sizes and arities", "why_tests_cant": "the choice depends on the sizes of two encodings of all cells; sums over any number of instants", "anchors": ["dcdf/src/chunk.rs:42-96 Chunk::build", "dcdf/src/block.rs:26-38, 114-118", "dcdf/src/snapshot.rs:87-92 size", "dcdf/src/log.rs size"]}
{"id": "C69", "title": "A superchunk keeps only the squares that vary, and each once", "statement": "In a superchunk no subchunk is stored for a square that lies outside of the raster or that holds a single value in every instant; for every other square there is a subchunk. Equal subchunks are linked once. The numbers that the builder reports are those of the squares that are elided and of the links.", "quantifier": "all series of rasters, all arities and levels, all stores", "why_tests_cant": "equality of subchunks is by identifier, over all data; the tests of the project look at single examples", "anchors": ["dcdf/src/superchunk.rs build", "dcdf/src/mmstruct.rs:24-34 MMStruct3Build", "dcdf/src/mmbuffer.rs min_max"]}
{"id": "C70", "title": "Runs of the example program that are broken off lose nothing that was published", "statement": "A data set is set up with `init` and filled with `copy` and `add` of the example program, any number of times, in any order, each run possibly broken off at any step (a failing call, or the process killed). Then the head file, if there is one, leads to a data set whose only variable reads as the first instants of the source, and their number never goes down. A `copy` that is not broken off brings all that is left of the source (or, with a limit, so many instants), and an `add` of a file that starts where the data end brings all of the file.", "quantifier": "all sources, all sequences of commands and all points at which each is broken off", "why_tests_cant": "there are no tests of the example; the points of failure are unbounded", "anchors": ["examples/example.py:216-378 initialize_dataset, save_head, copy_data_from_dclimate, add_data_from_file", "examples/example.py:25-132, 166-207 factories", "py-dcdf/dcdf/__init__.py Dataset, Variable", "dcdf/src/dataset.rs commit, append_*"]}
{"id": "C71", "title": "Listing by path, and counting bytes", "statement": "After any runs of the example program, `ls` of the head, of an identifier or of a path of names prints a line for every part of that object, with its name, identifier, type and size. `du` ends and prints the number of bytes of what is below the object.", "quantifier": "all histories of commands, all objects that the head leads to, all paths", "why_tests_cant": "there are no tests of the example; depth and sharing of the graph depend on the data", "anchors": ["examples/example.py:460-516 ls, _ls, du", "dcdf/src/resolver.rs ls", "dcdf/src/dataset.rs, span.rs, superchunk.rs ls"]}
{"id": "C72", "title": "The cells of a CPC file get to the places that the coordinates say", "statement": "For a file with rows from 89.75 degrees north to the south, columns from 0.25 degrees east to the east, in steps of half a degree, and days at midnight, what the example program appends for a row and a column is the cell of the file with the latitude and (up to full turns) the longitude that the coordinates of the data set give for them, every cell of the file is appended, and the first instant is the one that the time coordinate gives.", "quantifier": "all cells and contents of files, all days", "why_tests_cant": "there are no tests of the example; 259200 cells whose places depend on two changes of axes and on arithmetic of floats", "anchors": ["examples/example.py:134-152 extract_and_translate", "examples/example.py:40-52 coordinates", "dcdf/src/range.rs get", "dcdf/src/time.rs get"]}
{"id": "C73", "title": "A read depends on few objects, however many are stored", "statement": "Reads of a variable depend only on the objects along the way: the spans that meet the time range, one chunk for each interval of the chunk size that meets it, and below a chunk only the subchunks (and their tables of links) that meet the rows and columns. Whatever happens to all other objects of the store (missing, or with other contents), `get`, `cell`, `window` and `search` have the same outcomes. A point of a variable with at most `chunk_size * span_size` instants and two levels depends on four objects.", "quantifier": "all variables, whatever was appended and whatever failed; all reads; all other stores that agree on those objects", "why_tests_cant": "the number of objects grows with the data, tests have a handful; that an object is not needed is a statement about all contents of the others", "anchors": ["dcdf/src/span.rs get, fill_cell, fill_window, search", "dcdf/src/superchunk.rs get, fill_cell, fill_window, search, subchunks_for", "dcdf/src/mmarray.rs get, cell, window, search", "dcdf/src/dataset.rs data_*", "examples/example.py:115-120 choice of span and chunk sizes"]}
{"id": "C74", "title": "Whatever is appended, a variable is one array, and reads never fail", "statement": "After any history, with arrays of any type and any numbers and with any failures on the way, there is one value for every cell of every instant of a variable such that every `get`, `cell` and `window` through an array of its type gives exactly these values, however the read is cut; none of them fails or panics. Searches do not fail either, and give cells of the window, each at most once. This holds also where differences overflow and values are not those that were appended.", "quantifier": "all histories of appends and reloads, all arrays of all types, all reads inside the shape", "why_tests_cant": "different reads take different paths through logs, snapshots, elided parts and spans; numbers that overflow are not in the tests", "anchors": ["dcdf/src/mmarray.rs get, cell, window, search", "dcdf/src/log.rs get, fill_window, search_window", "dcdf/src/chunk.rs, superchunk.rs, span.rs reads", "dcdf/src/dataset.rs append_*"]}
{"id": "C75", "title": "Damage stays within a chunk", "statement": "Whatever is appended to a variable, whatever overflows or is of the wrong type, and whatever fails: the chunks of the time axis (instants `s * chunk_size` to `(s + 1) * chunk_size`) to which only arrays of one type were appended that do not overflow within the chunk are read back as they were appended (floats: rounded), by every `get`, `cell` and `window`, also by those that reach into damaged chunks.", "quantifier": "all histories of appends and reloads, all arrays of all types, all chunks, all reads inside the shape", "why_tests_cant": "a chunk is rewritten by each append until it is full, from what was read back; the other chunks are reached through spans that are rewritten too", "anchors": ["dcdf/src/dataset.rs append_*, Variable::append, tail_data", "dcdf/src/span.rs append, update", "dcdf/src/mmarray.rs get, cell, window"]}
{"id": "C76", "title": "A run of verify that finds nothing vouches for the data", "statement": "`example.py verify` finds nothing exactly if every instant of the data set is in the source, at the same time and with the same values (NaN counts as equal to NaN); otherwise it stops at the first instant for which that is not so, with a mismatch if the values differ and with an error if the time does. In particular it finds nothing in what `copy` has made, and if it finds nothing, every cell that is read later is as in the source.", "quantifier": "all data sets (after any runs of the program), all sources, all stores, with all or some of the objects, all orders in which reads complete", "why_tests_cant": "it is about all sources and data sets that a check is right, and about objects that are missing at the time of the check", "anchors": ["examples/example.py verify", "py-dcdf/dcdf/__init__.py Variable.__getitem__, Coordinate.get", "dcdf/src/mmarray.rs window"]}
{"id": "C77", "title": "Parts of an output that are written to at the same time do not overlap", "statement": "Reading a cell over time or a window writes each element of the output array at most once and writes nothing outside of it, however the reads of its parts are interleaved and whatever fails on the way. Two of the sub-views into which the array is divided by unsafe code share an element only if one is a part of the other; no sub-view is out of range. The same holds of the sub-views of the input array from which the parts of a superchunk are built.", "quantifier": "all structures (also damaged and hostile ones), stores, windows, types of numbers, orders in which the store answers, shapes and levels", "why_tests_cant": "overlapping writes show only in some interleavings and shapes; the compiler does not check it, as `slice` uses unsafe code", "anchors": ["dcdf/src/mmbuffer.rs MMBuffer1::slice, MMBuffer3::slice, set, fill_instant", "dcdf/src/superchunk.rs fill_window, subchunks_for, build", "dcdf/src/span.rs fill_cell, fill_window", "dcdf/src/mmarray.rs cell, window"]}
{"id": "C78", "title": "Reading does not notice what is written meanwhile", "statement": "While any other operations run on the same store, also ones that fail, a reader of a version of a data set finds the version and all its variables, and every cell read, time series, window and search has exactly the outcomes it has when nothing else runs, at whatever moments the objects it needs are loaded. In particular it reads the arrays that were appended to that version (as far as C31 goes) and nothing of what is appended meanwhile.", "quantifier": "all histories before (within the limits of the format), all arrays of all types, all sets of operations, all interleavings of their loads and saves with those of the reader, all queries", "why_tests_cant": "the number of interleavings; the tests of the project run one operation at a time", "anchors": ["dcdf/src/superchunk.rs get, fill_cell, fill_window, search", "dcdf/src/span.rs get, fill_cell, fill_window, search", "dcdf/src/dataset.rs append_*, commit", "dcdf/src/resolver.rs save, retrieve"]}
{"id": "C79", "title": "What is stored stays as it is when more is appended", "statement": "Whatever is done to a data set after some moment (appends of any arrays to any variables, also ones that fail, additions of variables, commits, loading it again), a variable never loses instants, and every instant that it had at that moment reads, in the newest version, as it read then: always if the chunk of the instant was full, and if it was not, as long as the arrays within the chunk are integers that do not overflow in it or floats that can be rounded to the same number of bits.", "quantifier": "all histories before and after (within the limits of the format), all arrays of all types, all instants and cells", "why_tests_cant": "needs all continuations of all histories; the tests of the project append to one variable and compare with what was appended, not with what was read before, and no test appends numbers of different magnitudes to the same chunk", "anchors": ["dcdf/src/dataset.rs append_*, tail_data, append", "dcdf/src/span.rs append, update", "dcdf/src/mmbuffer.rs compute_fractional_bits"]}
{"id": "C80", "title": "The float logarithms of the program give the right numbers", "statement": "The number of levels that building a chunk or superchunk computes with a floating point logarithm (`sidelen.log(k).ceil()`) is the smallest number of levels whose square contains the array, for every array whose sides are below 2^32, if the logarithm of the platform is accurate to 0.55 units in the last place; so levels that sum up to that number are not refused. The number of whole bits that the encoder of floats computes (`log2().floor()`) is enough for the largest value and at most one more than needed, if the platform's log2 is exact for powers of two and monotonic.", "quantifier": "all lengths below 2^32, all arities, all positive floats, all logarithms of the stated accuracy", "why_tests_cant": "there are 2^32 lengths and as many quotients of rounded logarithms; whether a quotient is rounded to just above an integer can only be seen at the very lengths where it happens (2^29), for which no test has the memory", "anchors": ["dcdf/src/snapshot.rs build", "dcdf/src/log.rs build", "dcdf/src/superchunk.rs build", "dcdf/src/fixed.rs suggest_fraction"]}
{"id": "C81", "title": "Failures say what went wrong", "statement": "If an object that is needed is not in the store, what fails does not panic and fails with NotFound of that object (KeyError in Python), whichever objects are missing and whichever read or append it is; what succeeds is not wrong (but for windows, which may have zeros). If the bytes of an object are wrong, the failure is that of reading these bytes. An append to a variable that does not exist fails with BadName and saves nothing; no other append fails so.", "quantifier": "all histories, all data of all types, all parts of the store, all reads and appends, all interleavings", "why_tests_cant": "there are exponentially many sets of missing objects, and which of several missing objects is met first depends on the interleaving; the tests of the project remove nothing from a store and check no kind of error but bad names", "anchors": ["dcdf/src/errors.rs", "dcdf/src/resolver.rs retrieve", "dcdf/src/cache.rs Loader::finish", "py-dcdf/src/lib.rs convert_error", "dcdf-ipfs/src/lib.rs load"]}
{"id": "C82", "title": "An append saves few objects, however long the history is", "statement": "An append that succeeds saves at most a fixed number of objects for each chunk that it writes (those of the new instants and the last one, if it was not full), and a number of spans that grows with the logarithm of the number of instants that the variable has and with the number of new chunks divided by the span size. Adding a variable and committing save one object each.", "quantifier": "all histories, all settings, arrays of all types and lengths", "why_tests_cant": "no test of the project counts what is stored, and an append that rewrites what was there before gives right answers all the same; how the number grows shows only in histories that are far too long for tests", "anchors": ["dcdf/src/dataset.rs Variable::append", "dcdf/src/dataset.rs Variable::save_spans", "dcdf/src/dataset.rs Variable::create_open_span", "dcdf/src/superchunk.rs Superchunk::build"]}
{"id": "C83", "title": "Iterating in Python over coordinates and variables", "statement": "A for loop over a coordinate visits its elements once each, in order, and ends after the last one (time has no last one, and the loop goes on); `x in coordinate` is True or False. A for loop over a variable visits its instants, in order, and ends after the last one; and so for the rows of an instant.", "quantifier": "all coordinates, all variables, all numbers of elements", "why_tests_cant": "the tests of the project never iterate over coordinates or variables; a loop that does not end cannot be tested, and for which lengths loops end can only be sampled", "anchors": ["py-dcdf/dcdf/__init__.py Coordinate.__getitem__", "py-dcdf/dcdf/__init__.py Variable.__getitem__", "py-dcdf/dcdf/__init__.py _Slice.__getitem__", "dcdf/src/range.rs check_bounds"]}
{"id": "C84", "title": "An append depends on few objects, however many are stored", "statement": "What an append that succeeds returns and what it saves depends on few objects of the store: with any other store that agrees on these it returns and saves the same, whatever else that store holds or lacks. They are one for each chunk that is written, a number of spans that grows with the logarithm of the number of instants and with the number of new chunks divided by the span size, and the parts of the last chunk if it was not full. Adding a variable and committing depend on nothing in the store.", "quantifier": "all histories, all settings, arrays of all types and lengths, all stores that agree on the few objects", "why_tests_cant": "the tests of the project keep everything in one store in memory, where a look at too many objects goes unnoticed; how their number grows shows only in histories that are far too long for tests", "anchors": ["dcdf/src/dataset.rs Variable::append", "dcdf/src/dataset.rs Variable::tail_spans", "dcdf/src/dataset.rs Variable::tail_data", "dcdf/src/dataset.rs Variable::create_open_span", "dcdf/src/span.rs Span::append"]}
{"id": "C85", "title": "Builds with overflow checks build the same or panic", "statement": "In a build of the program with overflow checks (the default of cargo build), Chunk::build either panics or gives the same chunk as without checks; after it has succeeded, no difference between a number of a log and the one of its snapshot overflows, every read of a cell or of a window in the raster gives the same with and without checks and, for even arities, what was stored, and searches give the same. For numbers from -2^62 to 2^62 - 1 the build never panics.", "quantifier": "all series of rasters of 64-bit integers, all shapes and arities, all cells, windows and ranges of values", "why_tests_cant": "the tests run with the checks and on small numbers, users with a release build without them; where the two part depends on the values of whole series", "anchors": ["dcdf/src/snapshot.rs Snapshot::build", "dcdf/src/log.rs Log::build", "dcdf/src/log.rs Log::search_window", "dcdf/src/chunk.rs Chunk::build", "dcdf/src/chunk.rs Chunk::get"]}
{"id": "C86", "title": "A cell is read from few places of a chunk", "statement": "What Chunk::get gives depends on few words, bytes and numbers of the chunk, without decoding the rest: any other chunk that has the same at these places gives the same for the cell. Their number grows with the logarithm of the longer side of the raster and the logarithm of the number of instants.", "quantifier": "all series of rasters of 64-bit integers, all shapes and arities, all instants and cells, all other chunks", "why_tests_cant": "a read that decodes or looks through too much gives the same results, and in the small rasters of the tests nobody notices the time; how the number of places grows is a statement about all sizes", "anchors": ["dcdf/src/chunk.rs Chunk::get", "dcdf/src/chunk.rs Chunk::find_block", "dcdf/src/snapshot.rs Snapshot::get", "dcdf/src/log.rs Log::get", "dcdf/src/dac.rs Dac::get", "dcdf/src/bitmap.rs BitMap::rank"]}
{"id": "C87", "title": "A search looks at few places where the range settles it", "statement": "Draining a search of a chunk depends on few words, bytes and numbers of the chunk: a constant for every square, of those that the raster is divided into again and again, that has a cell in the window, a value that is not below the range, one that is not above it and one that is not in it. So a search for the values above a threshold looks at some places for every level of the tree and every value above it, however many other cells there are.", "quantifier": "all series of rasters of 64-bit integers, all shapes and arities, all cubes and ranges, all other chunks; instants that are stored as logs if searches of them are right (C09)", "why_tests_cant": "a search that divides squares which need no dividing gives the same results; how the number of places grows with the size of the raster is a statement about all sizes", "anchors": ["dcdf/src/snapshot.rs Snapshot::search_window", "dcdf/src/log.rs Log::search_window", "dcdf/src/block.rs Block::search_window", "dcdf/src/chunk.rs Chunk::iter_search", "dcdf/src/chunk.rs SearchIter::next"]}
{"id": "C88", "title": "A window and the series of a cell are read from few places", "statement": "Reading a window of a range of instants from a chunk depends on few words, bytes and numbers of the chunk: a constant for every level of the tree, every cell of the window and every instant of the range, and two for every halving of the list of blocks. Reading the series of a cell depends on a constant for every level and instant. The size of the raster and the number of the other instants count with their logarithms only.", "quantifier": "all series of rasters of 64-bit integers, all shapes and arities, all windows inside the raster and ranges of instants, all other chunks", "why_tests_cant": "a reader that walks through more than the window, or through all blocks, gives the same values; how the number of places grows with the size of the raster is a statement about all sizes", "anchors": ["dcdf/src/snapshot.rs Snapshot::fill_window", "dcdf/src/log.rs Log::fill_window", "dcdf/src/block.rs Block::fill_window", "dcdf/src/chunk.rs Chunk::fill_cell", "dcdf/src/chunk.rs Chunk::fill_window", "dcdf/src/chunk.rs ChunkIter::next"]}
{"id": "C89", "title": "Reads end whatever the bytes of an object are", "statement": "Reading a cell or a window of a raster of a chunk, or searching it, returns or panics: the recursion down the tree takes at most 32 calls inside each other, for every object that loads, also if its bytes were not made by this library. (This holds unless the object says that k is 1; then a read of a cell inside of the shape may go on for ever.)", "quantifier": "all byte strings that load as a chunk, all rasters, windows, ranges and cells, whether they are inside of the shape or not", "why_tests_cant": "tests read objects that the library has written itself, in which the tree always ends; objects fetched by a content identifier may come from anyone, and that something ends cannot be seen by running it for some of them", "anchors": ["dcdf/src/snapshot.rs Snapshot::get", "dcdf/src/snapshot.rs Snapshot::fill_window", "dcdf/src/snapshot.rs Snapshot::search_window", "dcdf/src/log.rs Log::get", "dcdf/src/log.rs Log::fill_window", "dcdf/src/log.rs Log::search_window", "dcdf/src/chunk.rs Chunk::read_from"]}
{"id": "C90", "title": "Loading asks for room in proportion to the bytes of the object", "statement": "The room that loading an object asks for in advance (the capacities of all vectors and strings, in elements) is at most nine places for each byte that is read, for a data set 256. (This holds for all objects that load; an object that breaks off after a count makes the loader ask for up to 2^32 - 1 blocks and as many places of an index before it notices, whatever its length.)", "quantifier": "all byte strings under any identifier, whether the library has written them or not; all objects of any kind that the library writes", "why_tests_cant": "tests load whole objects that the library has written itself, where every count is followed by as many elements; objects fetched by a content identifier may be cut off or come from anyone, and there are too many byte strings to try", "anchors": ["dcdf/src/chunk.rs Chunk::read_from", "dcdf/src/block.rs Block::read_from", "dcdf/src/dac.rs Dac::read_from", "dcdf/src/bitmap.rs BitMap::read_from", "dcdf/src/links.rs Links::load_from", "dcdf/src/span.rs Span::load_from", "dcdf/src/superchunk.rs Superchunk::load_from", "dcdf/src/dataset.rs Dataset::load_from", "dcdf/src/extio.rs read_str"]}
{"id": "C91", "title": "An object that was cut off does not crash the reader", "statement": "Loading the beginning of an object, wherever it was cut off, reports an error or gives an object, and never panics; more generally no prefix of bytes whose loading does not panic makes loading panic, and a store that has lost objects or the ends of some answers no request with a panic that it answered without one before. The same holds of reads and searches of what was loaded. (The last sentence is false of the code.)", "quantifier": "all objects of all kinds that the library writes, all other byte strings, all places where they are cut, all stores", "why_tests_cant": "the tests of the project load whole objects only; all cuts of all objects are too many to try, and a panic after a short read needs a particular place", "anchors": ["dcdf/src/resolver.rs Resolver::retrieve", "dcdf/src/dac.rs Dac::read_from", "dcdf/src/block.rs Block::read_from", "dcdf/src/superchunk.rs Superchunk::load_from", "dcdf/src/dataset.rs Dataset::load_from", "dcdf/src/extio.rs read_str, read_cid"]}
{"id": "C92", "title": "A window and the series of a cell hold what single reads give", "statement": "The series of a cell of a chunk holds for each instant what a single read of the cell gives, and can be read if and only if each of these reads can be done; a window of a chunk holds at each place what a single read gives, once each, and can be read if and only if each of its cells can. This holds of every chunk that loads, whether or not the library has written it. (In one direction it is false of the code: a window of a chunk that the library has not written may panic although its cells can be read.)", "quantifier": "all byte strings that load as a chunk, all snapshots and logs, all cells, windows and ranges of instants; all series for chunks that the library builds", "why_tests_cant": "the three kinds of reads are separate recursions that are tested on a few rasters that were just built; that they agree on everything that can be loaded is not a matter of examples", "anchors": ["dcdf/src/snapshot.rs Snapshot::get, fill_window", "dcdf/src/log.rs Log::get, fill_window", "dcdf/src/block.rs Block::get, fill_window", "dcdf/src/chunk.rs Chunk::get, fill_cell, fill_window, iter"]}
{"id": "C93", "title": "A search reports no cell twice and none outside of its window", "statement": "Whatever object is searched, and whatever the store holds, a search of a non-empty window reports no cell twice and none outside of the window and the range of instants, in any order in which its tasks run, and also if there are errors or panics on the way.", "quantifier": "all snapshots, logs and chunks, built or not; all structures and stores (any bytes); all non-empty windows, ranges of instants and bounds; all orders of the tasks", "why_tests_cant": "the tests search rasters that were just built; objects from elsewhere with inconsistent trees, minima and sizes, and all orders of the tasks, are too many to try", "anchors": ["dcdf/src/snapshot.rs Snapshot::search_window", "dcdf/src/log.rs Log::search_window", "dcdf/src/chunk.rs Chunk::iter_search, SearchIter", "dcdf/src/superchunk.rs Superchunk::search", "dcdf/src/span.rs Span::search", "dcdf/src/mmarray.rs search"]}
{"id": "C94", "title": "A read that ends well has written every place of its array", "statement": "Whatever object is read, and whatever the store holds: if the read of the series of a cell, or of a non-empty window, ends well, every place of its array has been written, once, with a value that was read, in any order in which the tasks run. (Of windows of superchunks it is false of the code, unless all objects that they refer to can be loaded.)", "quantifier": "all structures and stores (any bytes), all non-empty windows, all cells and ranges of instants, all orders of the tasks", "why_tests_cant": "the tests read objects that were just built and are complete; a place that is left out keeps a zero, which looks like a number", "anchors": ["dcdf/src/mmstruct.rs MMStruct3::fill_window, fill_cell", "dcdf/src/superchunk.rs Superchunk::fill_window, fill_cell", "dcdf/src/span.rs Span::fill_window, fill_cell", "dcdf/src/chunk.rs Chunk::fill_window, fill_cell, ChunkIter", "dcdf/src/mmarray.rs cell"]}
{"id": "C95", "title": "Whatever is written by a read of many cells is what single reads give", "statement": "Whatever the store holds and whatever object is loaded from it: whenever the read of the series of a cell, or of a non-empty window, writes a value for a cell at an instant, a single read of this cell at this instant gives this value with this number of fractional bits, in any order in which the tasks run, and also if the read fails later on. The series of a cell over a non-empty range of instants can be read if and only if each of its instants can be read alone. So a series that an array returns holds what its single reads give, and so does a window, but for cells that keep the zero they were made with, of which there are none if all objects that the structure refers to can be loaded.", "quantifier": "all stores (any bytes), all structures loaded from them (chunks, superchunks, spans, nested), all non-empty windows, all cells and ranges of instants, all orders of the tasks, runs that fail included", "why_tests_cant": "the tests compare reads of rasters that were just built with the rasters; that the three ways to read agree on objects from elsewhere, whose parts may have any sizes and any numbers, and in all orders of the tasks, has too many cases to try", "anchors": ["dcdf/src/mmstruct.rs MMStruct3::get, fill_cell, fill_window", "dcdf/src/superchunk.rs Superchunk::get, fill_cell, fill_window", "dcdf/src/span.rs Span::get, fill_cell, fill_window", "dcdf/src/chunk.rs Chunk::get, fill_cell, fill_window", "dcdf/src/mmarray.rs get, cell, window"]}
{"id": "C96", "title": "Answers do not depend on the order in which tasks run", "statement": "Whatever object is read and whatever the store holds: a search, the series of a cell and a window have an answer, and it is the same in all orders in which the tasks run. Searches report the same cells, or panic, in all orders; a series is the same in all orders, or there is no series in any of them. (Of windows it is false of the code if an object cannot be loaded and a superchunk leads to a span, because what was written before an error stays; which of several errors is given does depend on the order.)", "quantifier": "all structures and stores (any bytes), all windows, cells, ranges of instants and bounds of searches, all orders of the tasks", "why_tests_cant": "a test sees one order of the tasks, mostly the same one each time; and the tests read from stores that hold everything", "anchors": ["dcdf/src/span.rs Span::fill_cell, fill_window, search", "dcdf/src/superchunk.rs Superchunk::fill_cell, fill_window, search", "dcdf/src/mmstruct.rs MMStruct3", "dcdf/src/mmarray.rs MMArray3I64::cell, window, search"]}
{"id": "C97", "title": "A window has a made-up zero exactly where a single read fails", "statement": "Whatever the store fails to deliver: if a window is given, each of its cells holds what a single read of that cell gives; or that single read gives an error (not a panic), and the cell holds the zero that the window was made with. So who wants to know which zeros of a window are data can find out by single reads. (False of the code for superchunks that lead to a span, which the library does not build.)", "quantifier": "all variables of data sets with any history, all kinds of arrays, all parts of the store that may be missing, all windows, all orders of the tasks; and all structures loaded from any bytes in which no superchunk leads to a span", "why_tests_cant": "the tests read from stores that hold everything; that the code drops the errors of the parts of a superchunk is seen only if exactly some of them are missing", "anchors": ["dcdf/src/superchunk.rs Superchunk::fill_window, Superchunk::get", "dcdf/src/span.rs Span::fill_window, Span::get", "dcdf/src/mmarray.rs MMArray3I64::window, get"]}
{"id": "C98", "title": "A coordinate made in Python and stored has the elements that were asked for", "statement": "Coordinate.range(name, start, step, steps, dtype) makes a coordinate of that name and type with that many elements, or raises an exception, for arguments that do not fit the type or types that are not supported. In a data set that is committed and loaded again, the coordinate has the same name, type and length, its element i is start + i * step, and indices outside of it are rejected. (False of the code for 2^32 elements or more: the commit succeeds, and the coordinate has fewer elements when it is loaded.)", "quantifier": "all names, numbers, types and indices; all data sets within the limits of the format, all histories of the store", "why_tests_cant": "2^64 values for each of three arguments; what is lost by storing a number in fewer bits is seen only for numbers that no test uses", "anchors": ["py-dcdf/dcdf/__init__.py:160-171 Coordinate.range, 206-227 __getitem__", "py-dcdf/src/lib.rs:169-187 PyCoordinate::range_i32 and others", "dcdf/src/dataset.rs:632-670 Coordinate::range_i32 and others, 706-773 CoordinateKind::write_to"]}
{"id": "C99", "title": "Identifiers given to Python lead back to the data set", "statement": "The string that Dataset.commit() gives is read by Resolver.get_dataset as the identifier of that data set: the data set loaded is the one committed, its cid is the same string, and its prev is the string of the version before, which leads to that version. The same holds with /ipfs/ before the identifier. Different identifiers are different strings. Strings that are no identifiers raise ValueError, whatever the store holds.", "quantifier": "all identifiers (both versions, all codecs, hash codes and digests of valid lengths), all data sets within the limits of the format, all histories of the store", "why_tests_cant": "tests use a few identifiers, made by one hash function; 2^256 digests, of which those with zeros or ones at the ends are what goes wrong in changes of base", "anchors": ["py-dcdf/src/lib.rs:55-74 PyDataset::cid, prev, commit", "py-dcdf/src/lib.rs:150-160 PyResolver::get_dataset, ls", "py-dcdf/src/lib.rs:635-639 parse_cid"]}
{"id": "C100", "title": "Every cell that can be read has coordinates", "statement": "The coordinates of a data set never change. For every variable, the lengths of the second and third coordinate of the data set are the numbers of rows and columns of its array; so the row and column of every cell that can be read have an element in the coordinates, and a coordinate has no elements for which there is no row or column. (False of the code for data sets that are made with a shape that does not fit the lengths of the coordinates: nothing compares them.)", "quantifier": "all data sets within the limits of the format, all coordinates and shapes, all histories of additions, appends, commits and loads, including failing ones, all reads", "why_tests_cant": "the tests make data sets with coordinates that fit their shape; that this holds after any history is about all of them", "anchors": ["dcdf/src/dataset.rs:101-110 Dataset::new", "dcdf/src/dataset.rs:610-630 Coordinate::len", "py-dcdf/dcdf/__init__.py:53-62 Dataset.new"]}
{"id": "C101", "title": "What is written through Python is read through Python with the string commit gave", "statement": "Someone makes a data set in Python, does anything with it, adds a variable of a name that is free and a supported type, appends arrays among any other operations (loads included, and operations that raise), and calls commit. Whoever has the string that commit returned and the same store gets from Resolver.get_dataset a data set that reports this string as its cid, has the coordinates given at the start, and has the variable as an attribute; its dtype is the one it was added with, its shape the instants appended by the shape of the data set, and its items, for every tuple of ints and slices, are those of the NumPy array of what was appended: exactly for integers, rounded to the bits of the variable for floats. (Partial for the reasons of C31, C39 and C49: indices are within bounds, without steps and not empty; differences of 64-bit integers do not overflow; floats fit the fixed point format.)", "quantifier": "all coordinates, shapes, names, settings within the limits of the format, all histories before and after the variable is added, all arrays appended, all plain indices", "why_tests_cant": "it is about every history and every array at once, through all layers from the Python classes to the bytes of the objects", "anchors": ["py-dcdf/src/lib.rs:70-123 PyDataset::commit, add_variable, append", "py-dcdf/src/lib.rs:150-154 PyResolver::get_dataset", "py-dcdf/dcdf/__init__.py:52-148 Dataset", "dcdf/src/dataset.rs:112-380 Dataset::commit, add_variable, append"]}
