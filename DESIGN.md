# Formal model of dcdf — design

Target: `/repo` (Arbol-Project/dcdf, Rust). Prover: Lean 4.33.0 + Mathlib (single modules only).
The Lake project is in `lean/`; modules are under `lean/Verif/`.

* `Verif/Model/*.lean` — executable model of the code, about one file per source file; each
  definition cites the file and lines it models and the simplifications made.
* `Verif/Lemmas/*.lean` — helper lemmas and invariants.
* `Verif/Props/*.lean` — the property theorems, each with an example beside it that meets its
  hypotheses.
* `Verif/Tests.lean` — unit tests of the repository run on the model (`#guard`). These are tests, not
  proofs, and no claim rests on them.
* `properties.jsonl` — the properties. `MANIFEST.json` — which theorem claims which property.
* `seeded/LOG.jsonl` — wrong programs the theorems were tried against (edits of the model made in a
  scratch copy; "caught" means that the theorem no longer proves).

A theorem whose name ends in `_partial` proves less than the property; a theorem whose name ends in
`_wrong`, `_panics`, `_silent`, … proves that the property is false of the code, with a witness. Both
are listed under the property, and the property is then `partial`.

## Modelling conventions

* A Rust panic (index out of bounds, explicit `panic!`, `unwrap` on `None`, division by zero) is the
  value `none` of an `Option` result, or `Fail.panic` where errors are possible too (`Fail.err`, with
  the kind of the error), so "does not panic" is part of every `= some v` or `= ok v` conclusion.
* `i64` is Lean `Int64` (two's complement, wrapping). Rust's release profile wraps on overflow, the
  debug profile panics on overflow. The theorems are about the wrapping semantics; where a theorem
  needs absence of overflow that is an explicit hypothesis. The ranges (C42) and chunks (C85) are
  modelled in both profiles.
* `usize` is `Nat` (unbounded); a subtraction below zero is a panic. Bytes are `BitVec 8`, words are
  `BitVec 32`.
* `&mut` parameters become returned values. A callback `set(row, col, value)` becomes the list of
  calls made, in order; window-read theorems say that list is a permutation of the specification
  list, i.e. each position is written exactly once with the right value and nothing else is written.
* Recursion whose depth the type system cannot see (tree descent, reads through the object store)
  carries a fuel argument; running out of fuel is a panic, so it can never make a theorem true.
  The theorems quantify over all sufficiently large fuels.
  For reads of rasters the fuel is shown to be no restriction, unless an object says that `k` is 1 (C89).
* A float (`f32`, `f64`) is NaN, an infinity or its exact rational value; `0.0` and `-0.0` are one
  value. Products by powers of two are exact; conversion of an integer to a float rounds to nearest
  even at the precision. The float logarithms (`log`, `log2`) are parameters of the model (see the
  trusted base).
* An `async` function is a relation between what it emitted, in order, and how it ended; futures that
  run together contribute any interleaving. Theorems are about every possible outcome. The cache is a
  transition system whose steps are the sections in which a lock is held.
* The object store is an append-only list of saved objects; the identifier of some bytes is a
  parameter.

## Trusted base

* The Lean 4.33.0 kernel. Axioms: at most `propext`, `Classical.choice` and `Quot.sound`, the three
  axioms of Lean's own library (per theorem in the last section). No axioms of our own, no `sorry`,
  `native_decide` or `bv_decide`.
* That the model says what the Rust code does. It was written by reading `/repo`; it was not
  compared with running code. Each definition names the lines it stands for. What was compared are
  the values written in the repository's own unit tests: `Verif/Tests.lean` evaluates the model on
  their inputs (some of them smaller, as said there) and finds those values. It leaves out most tests
  that only compare reads with the data, those of random or huge bit maps, those with tasks at the
  same time, and those of dcdf-ipfs, py-dcdf and the example program.
* That the statements of the theorems say what the properties mean. They use the specification lists
  `Spec.cells`, `Spec.window`, `Spec.hits`, `Spec.window3`, `Spec.hits3`, which are defined by
  list comprehension from the input data alone.

What is modelled:

| source | model |
|--------|-------|
| `errors.rs`, `convert_error` of `py-dcdf/src/lib.rs` | `Model/Errors.lean` |
| `bitmap.rs` | `Model/BitMap.lean` |
| `dac.rs` | `Model/Dac.lean` |
| `geom.rs`, `helpers.rs` | `Model/Geom.lean` |
| `snapshot.rs` | `Model/Snapshot.lean` |
| `log.rs` | `Model/Log.lean` |
| `block.rs`, `chunk.rs` | `Model/Chunk.lean` |
| `extio.rs`, `write_to`/`read_from`/`size` of all of the above | `Model/Serial.lean` |
| `links.rs`, `mmstruct.rs`, `node.rs`, `resolver.rs`, binary format of `span.rs`, `superchunk.rs`, `dataset.rs` | `Model/Store.lean`, `Model/Ls.lean` |
| reads and searches of `superchunk.rs`, `span.rs`, `mmstruct.rs` | `Model/Struct.lean` |
| `mmbuffer.rs`, `Superchunk::build` | `Model/Fixed.lean`, `Model/SuperBuild.lean` |
| slices of buffers in `mmbuffer.rs` (unsafe code) as views of memory | `Model/Memory.lean` |
| `fixed.rs` | `Model/Fixed.lean` |
| growth of `span.rs`, `dataset.rs` | `Model/Dataset.lean`; in steps that others can come between, and with failures, `Model/Task.lean` |
| `mmarray.rs` | `Model/MMArray.lean` |
| `cache.rs` | `Model/Cache.lean` |
| `resolver.rs` with the cache, `Superchunk::external` | `Model/Resolver.lean` |
| `dcdf-ipfs/src/lib.rs` | `Model/Ipfs.lean` |
| `range.rs`, `time.rs` | `Model/Range.lean`, `Model/FloatRange.lean` |
| indexing in `py-dcdf/dcdf/__init__.py`, and what it calls of `py-dcdf/src/lib.rs` | `Model/Py.lean` |
| `Dataset`, `Variable` and `Coordinate` of `py-dcdf/dcdf/__init__.py`, and what they call of `py-dcdf/src/lib.rs` | `Model/PyDataset.lean` |
| conversion of times in `py-dcdf/dcdf/__init__.py` | `Model/PyTime.lean` |
| `Coordinate.range` of `py-dcdf/dcdf/__init__.py`, and what it calls of `py-dcdf/src/lib.rs` | `Model/PyCoord.lean` |
| identifiers as text in `py-dcdf/src/lib.rs`: `cid`, `prev`, `commit`, `get_dataset`, `ls`, `parse_cid` | `Model/CidText.lean` |
| `examples/example.py`: `init`, `copy`, `add`, `ls`, `du`, `verify` | `Model/Example.lean`, `Model/Du.lean`, `Model/Verify.lean` |

What is not modelled: the rest of the Python bindings (`py-dcdf`); `shell` and the command line of
`examples/example.py`, and how it fetches data (xarray, dclimate); HTTP and JSON in the IPFS mapper;
objects that are saved in part because writing failed (but for the IPFS mapper, C51); allocation
failures; what error messages say besides the kind of the error and the identifier or name in it; how long anything takes.

Assumptions of the model, and of theorems where they matter:

* *Identifiers.* Theorems about what is read back from the store assume that no two different objects
  that were saved have the same identifier (`Saved.NoCollision`). Identifiers are any function of the
  bytes whose values are valid `cid`s.
* *Float arithmetic* in `FloatRange` is exact arithmetic with every result rounded to nearest even, without
  limits on exponents (no infinities, no subnormal numbers). `ndarray`'s `Array1::range` is modelled from its
  documentation.
* *Float logarithm in `build`.* `(n as f64).log(k as f64).ceil()` is the parameter `clog`. Theorems
  about built superchunks assume that it is the exact logarithm where the builder uses it (`ClogOk`);
  theorems about snapshots and logs assume only that it is not too small. Both are proved in C80 for arrays
  with sides below `2 ^ 29`, from an assumption about the accuracy of the platform's `ln` (`LnOk`).
* *Float logarithm in `suggest_fraction`* is the parameter `lg`, assumed not to be too small, or right or one
  too large (`LogOk`, `LogClose`). Proved in C80 if the platform's `log2` is exact for powers of two and
  monotonic (`Log2Ok`).
* *Powers in `build`.* `k.pow(levels)` is a power of natural numbers; that it fits `i32` is part of the limits of
  the format (`LevelsOk.side`). For chunks on their own it fits if the tree of nodes fits into memory.
* *UTF-8.* Which byte strings are UTF-8 is a parameter.
* *Output buffers* have the shape of the window that is read, as allocated in `mmarray.rs`. A call to
  `set` outside the output panics. That the code writes to views of the output, made by unsafe code, makes no
  difference: C77.
* *Reading the tail of a variable* (`Variable::append`) may complete in many orders; theorems hold for
  every choice (`Fill`). There is always one: running the futures one after the other is possible
  (`MMStruct3.has_fillCell`, `has_fillWindow`, `search_total` in Lemmas/Sequential.lean).
* *Operations at the same time* (`Model/Task.lean`). Loading an object and saving one are one step each. Reading
  back the tail of a variable begins and ends with a step; others take steps in between, and each object is
  loaded at some moment of its own. An object that such a read needs twice is loaded once.
* *Cache.* What is done while a lock is held is one step. Sizes do not overflow `u64`. A panic while
  the entries are being changed leaves them as they were (the code leaves them half changed; no
  theorem is about a cache after such a panic). In all models but `Model/Resolver.lean`, `get_*` of the
  resolver goes to the store: C50 says that the cache makes no difference.
* *IPFS.* The server answers every request at once; bodies of answers are complete; what it says of objects
  it does not have is arbitrary.
* *Listings.* `Mapper::size_of` is the number of bytes stored and does not fail.
* *NumPy times.* `datetime64`, `timedelta64`, `item` and `datetime.timedelta.total_seconds` are modelled from
  their documentation, without multipliers of units; the calendar is a parameter.
* *Files* (`Model/Example.lean`). Opening the head file for writing empties it, and writing it is a step of its
  own, between which the process may be killed. Nobody else writes the file.
* *External crates.* `unsigned_varint`, `cid` and `multibase` (bases 58 and 32) are modelled from their
  documentation; `ndarray`
  from its documentation, as functions from positions; `futures` as described above.

## Properties

| id | title | modelled | proof | status |
|----|-------|----------|-------|--------|
| C01 | Bit map indexing is exact | bitmap.rs byte builder, repack, index | bit-level round trip + popcount sums | proved |
| C02 | Compressed integers read back exactly | dac.rs levels | induction over levels, rank chain | proved |
| C03 | Zigzag is a magnitude-ordered bijection | dac.rs zigzag | bit-vector arithmetic | proved |
| C04 | Snapshot cell read | snapshot.rs build/get | BFS fixpoint equation, induction on tree height | proved |
| C05 | Snapshot window read | snapshot.rs fill_window | permutation algebra over clipped windows | proved |
| C06 | Snapshot search is exact | snapshot.rs search_window | same + pruning bounds | proved |
| C07 | Log cell read | log.rs build/get | two BFS layouts in lock-step | partial |
| C08 | Log window read | log.rs fill_window | same as C05 | partial |
| C09 | Log search is exact | log.rs search_window | exact characterisation of the safe raster pairs; both directions | partial |
| C10 | Reads never crash on a built raster | same | false: 1x1 raster; odd k; negation by witness, partial otherwise | partial |
| C11 | Chunk finds the right block | chunk.rs find_block | loop invariant, fuel | proved |
| C12 | Chunk cell read | chunk.rs build/get | fold invariant over the builder | partial |
| C13 | Chunk time-series and window reads | chunk.rs iterators | induction over remaining blocks | partial |
| C14 | Chunk search is exact | chunk.rs search | as C13; inherits the C09 restriction | partial |
| C15 | Block and chunk size limits | chunk.rs build | fold invariant | proved |
| C16 | Binary round trip of chunk structures | all write_to/read_from | parser/printer round trip | proved |
| C17 | Reported size equals serialized length | all size() | length of the printed bytes | proved |
| C18 | Truncated objects are rejected | read_from on prefixes | false (byte run at the end of a level); witness + partial | partial |
| C19 | Primitive codecs round trip | extio.rs | big-endian arithmetic | proved |
| C20 | Encoding tags are stable and invertible | mmstruct.rs tags | finite table | proved |
| C21 | Subchunk decomposition partitions a window | superchunk.rs subchunks_for | interval splitting | proved |
| C22 | Super chunk cell read | superchunk.rs build/get over an object store | induction on nesting | partial |
| C23 | Super chunk window and time-series read | superchunk.rs fill_* | permutation | partial |
| C24 | Super chunk search is exact | superchunk.rs search | permutation + pruning; inherits the C09 restriction | partial |
| C25 | Storage failures surface in window reads | superchunk.rs fill_window | false: errors discarded; witness + partial for the other reads | partial |
| C26 | Super chunk builder accepts every valid shape | superchunk.rs build level logic | false: witness; partial: exact acceptance | partial |
| C27 | Elision loses nothing | superchunk.rs elision, mmbuffer.rs min_max | false for leading NaN; witness + partial | partial |
| C28 | Super chunk, span and link objects round trip | save_to/load_from | parser/printer round trip | partial |
| C29 | Span read routing | span.rs | induction on span depth | proved |
| C30 | Span append keeps earlier data | span.rs append/update | direct | proved |
| C31 | Append history equals concatenation | dataset.rs Variable::append | refinement to list concatenation | partial |
| C32 | Old versions are immutable | object store + dataset ops | store monotonicity | proved |
| C33 | Version chain is complete | dataset.rs commit/prev | induction over history; false for commits that are not loaded again: witness | partial |
| C34 | Dataset round trip | dataset.rs save/load | parser/printer round trip | proved |
| C35 | Cache stays within its limit | cache.rs sequential | invariant | proved |
| C36 | Cache evicts least recently used first and never lies | cache.rs sequential | refinement to a recency list | proved |
| C37 | Concurrent gets load once | cache.rs tasks | invariant over interleavings; false in part: interleaving witness | partial |
| C38 | No waiter is forgotten | cache.rs Loader | invariant over interleavings, termination measure | proved |
| C39 | Fixed point is exact when precision suffices | fixed.rs over rationals | arithmetic; exact set of failures | partial |
| C40 | Rounding error is bounded | fixed.rs over rationals | as C39 | partial |
| C41 | Suggested precision is safe | fixed.rs suggest_fraction | negative data fails: witness; partial | partial |
| C42 | Range coordinates are consistent | range.rs, time.rs | arithmetic | partial |
| C43 | Rectangles enumerate cells once in row-major order | geom.rs | iterator induction | proved |
| C44 | Out-of-bounds queries are rejected | mmarray.rs check_bounds | decision logic; false for bounds set by hand: witness | partial |
| C45 | Listing shows every referenced object | ls functions | reads depend only on what can be reached through listings (simulation); after any history everything a data set refers to was saved with all its parts (Linked, Props/AnyReach) | partial |
| C46 | 32-bit variables are lossless | mmbuffer.rs casts | Int32/Int64 conversion | proved |
| C47 | Identical content gets an identical identifier | resolver.rs save | store model | proved |
| C48 | Float range coordinates are consistent | range.rs FloatRange over rationals, ndarray range | rounding error analysis; exactness on a grid; false in general: witnesses | partial |
| C49 | Python indexing agrees with NumPy | py-dcdf __getitem__ and the bindings it calls | case analysis against NumPy basic indexing written as positions; false in part: witnesses | partial |
| C50 | The resolver's cache is invisible | resolver.rs over cache.rs and the store | simulation: the cache holds what the store holds | proved |
| C51 | IPFS mapper keeps the mapper contract | dcdf-ipfs over an abstract server | server as a state machine; false for absent identifiers: witness | partial |
| C52 | Reported sizes are the stored sizes | size functions and the binary format | counting bytes; exact differences where false | partial |
| C53 | Names identify variables and coordinates | dataset.rs names | invariant over histories; false for duplicate names: unreachable variable | partial |
| C54 | A variable keeps the type it was declared with | dataset.rs accessors, py-dcdf types | the root of every variable keeps its encoding: invariant over histories (also for objects beyond the limits of the format); false for Time | partial |
| C55 | Attributes of a Python data set are its coordinates and variables | py-dcdf __getattr__ | case analysis; false for names that are taken: exact condition | partial |
| C56 | A variable has the shape of its data set | dataset.rs append, span.rs append | invariant over histories: all spans below a variable have the shape of the data set | proved |
| C57 | A variable that was added can be appended to | dataset.rs add_variable, append | success from C31; negations in all states, for the span size by an invariant over histories | partial |
| C58 | A time axis made in Python has the instants that were asked for | py-dcdf/dcdf/__init__.py Coordinate.time, get; time.rs | rational arithmetic; rounding to doubles does not reach the next whole second | partial |
| C59 | The identifier of a variable depends on its settings and its data only | dataset.rs append, superchunk.rs build | the tree of spans is determined by the number of instants (canonical form), the chunks by the cells they are built of; false with rounding: witness | partial |
| C60 | What appending stores does not depend on the order in which tasks run | dataset.rs append, superchunk.rs fill_window | every valid way to read the tail yields the same cells, so the array after it is the same; a build depends on the cells within the shape only (Lemmas/BuildSame); for any data the tail reads back as one array whatever it holds (AnySettled), and the invariant of all variables at once is Every (Props/AnySchedule) | proved |
| C61 | Objects that cannot be loaded never make data wrong | superchunk.rs, span.rs, mmarray.rs reads; dataset.rs append | a simulation: each way a read goes in the smaller store is within one in the larger (Lemmas/Missing); appends: witness with one object missing while the tail is read | partial |
| C62 | Appends that run at the same time do not disturb one another | dataset.rs append, span.rs append and update, in steps (Model/Task) | the program in steps is the program of Model/Dataset (Lemmas/Task); what an operation still has to do stays good whatever others save (Task.Ends, Lemmas/TaskEnds); well-founded measure for termination; for any data: if an append ends well it has done what it does alone (Task.Keeps, Lemmas/AnyTask), as either all chunks can be built, which does not depend on the store, or the program never ends well (Task.Only) | proved |
| C63 | An append that is broken off does no harm | as C62, with failures | as C62 | partial |
| C64 | Whatever fails, a variable holds exactly what was accepted | dataset.rs append, span.rs append and update | as C31, but each step of the invariant may fail (Sat with failure allowed); an append of another shape fails at the first chunk (Lemmas/Accepted) | partial |
| C65 | Loading an object and saving it again gives the same identifier | all readers and writers of stored objects | converse of the round trips: for each reader, what it gives is written as what it has read (Exact, Lemmas/Exact) | partial |
| C66 | Bytes that are no object are rejected | resolver.rs retrieve and all readers | readers that fail only with errors compose; nesting of structures takes at least a byte each (Lemmas/Fuel) | partial |
| C67 | Regions that are alike take one value | snapshot.rs, log.rs build, write; dac.rs, bitmap.rs | the traversal visits exactly the squares of the specification (bfs_rel, bfs_perm, Lemmas/Pruned); sizes of the containers from what they represent; what is stored for each square is what the specification says, up to the order, which the size does not depend on (Lemmas/Bytes) | partial |
| C68 | A chunk takes no more than its instants one by one | chunk.rs build, block.rs size | invariant of the loop of the builder (Chosen, Lemmas/Choice) | proved |
| C69 | A superchunk keeps only the squares that vary, and each once | superchunk.rs build | plan_spec, saveAll_spec and AcceptTheory.elided | partial |
| C70 | Runs of the example program that are broken off lose nothing that was published | examples/example.py init, copy, add | programs of calls and file accesses with an event for each step (Model/Example); the head always leads to a data set within the invariant of C31 (Held), whatever fails (Runs, Lemmas/Example) | partial |
| C71 | Listing by path, and counting bytes | examples/example.py ls, du | every object below the head is stored with all it refers to (Ground), so paths end; du is the sum over all ways of any length (Spec.below, Lemmas/Du) | partial |
| C72 | The cells of a CPC file get to the places that the coordinates say | examples/example.py extract_and_translate; range.rs | the coordinates are on a binary grid, so exact (C48_get_exact_partial); arithmetic | proved |
| C73 | A read depends on few objects, however many are stored | span.rs, superchunk.rs reads, dataset.rs data_* | a predicate on functions of the store (Needs: the result depends on so many objects of it) that composes along each load, and the shape of what is stored (Sides, Tree); for variables with any data by Lemmas/AnyData | proved |
| C74 | Whatever is appended, a variable is one array, and reads never fail | dataset.rs, mmarray.rs, span.rs, superchunk.rs, chunk.rs, log.rs reads | chunks of any series read as one series (Lemmas/ChunkAny from Lemmas/LogFinds and logCell) and are searched without panics; superchunks and spans glue these series together (Sound.represents, Sound.finds); the history theory for any data (Lemmas/AnyData) | proved |
| C75 | Damage stays within a chunk | dataset.rs append_*, Variable::append, tail_data; all reads | the history theory for any data, with one chunk that also is as the theory of integers or floats says (Settings.focus, Hits); the tail that is read back is that of the chunk; reads of the whole and of the chunk are the same (Tree.chunk, Represents.unique) | proved |
| C76 | A run of verify that finds nothing vouches for the data | examples/example.py verify; __init__.py Variable.__getitem__, Coordinate.get | the loop by induction over what was compared so far; each turn by C49 (indexing) and C58 (instants); with missing objects by C61; after runs by C70 | partial |
| C77 | Parts of an output that are written to at the same time do not overlap | mmbuffer.rs slice, set; superchunk.rs fill_window, subchunks_for, build; span.rs fill_cell, fill_window; mmarray.rs cell, window | positions of the calls are distinct, by induction over the structure and disjointness of the slices of siblings (Lemmas/Writes.lean, Lemmas/Memory.lean); reading on views commutes with interleaving | proved |
| C78 | Reading does not notice what is written meanwhile | reads of Model/Struct, operations of Model/Task | what is reachable from a version was saved before the read begins (C45), and is found from then on (Saved.Meanwhile) | proved |
| C79 | What is stored stays as it is when more is appended | operations of Model/Dataset | the tree of spans keeps the identifier of each full chunk: a history invariant that fixes one chunk (Lemmas/Frozen), which no later append builds anew | partial |
| C80 | The float logarithms of the program give the right numbers | snapshot.rs:118-119, log.rs:124-125, superchunk.rs:98-101,159-160; fixed.rs:125 (Model/FloatLog) | logarithms of neighbouring integers are further apart than the errors add up to; for the powers of two, ln 2 is enclosed by 66 terms of its series, which fixes all 31 rounded logarithms, and their quotients are compared with the integers | partial |
| C81 | Failures say what went wrong | errors.rs, resolver.rs:148-166, py-dcdf/src/lib.rs:641-652 (Model/Errors); the errors of all models | each reader fails only in the ways of its bytes (`Plain`), each read and append only in the ways of an object it retrieves (`Out.Blames`, `Prog.Gives`), and of a part of an honest store only by absence | partial |
| C82 | An append saves few objects, however long the history is | dataset.rs:525-700 Span::append, 834-1000 Variable::append, save_spans; superchunk.rs builder | every program adds a number of objects that is followed through its parts (`Prog.Adds`, Lemmas/Adds); the loop over the chunks amortised: a span is opened only after span_size chunks | proved |
| C83 | Iterating in Python over coordinates and variables | py-dcdf/dcdf/__init__.py:219-227, 281-336, 361-362; the protocol of Python for iterating over what has only `__getitem__` | `pyFor`, `pyIn` in Model/PyIter; induction on the number of calls, C42, C48 and C49 for the elements | partial |
| C84 | An append depends on few objects, however many are stored | dataset.rs:834-1000 Variable::append, tail_spans, tail_data, create_open_span; span.rs Span::append | the objects that an operation in steps asks for (`Task.loads`, Lemmas/Asks) are counted like the saved ones of C82; an operation without window reads depends on these alone (`Task.run_local`); C73 for the window read of the last chunk | proved |
| C85 | Builds with overflow checks build the same or panic | snapshot.rs, log.rs, block.rs, chunk.rs: builds, reads and searches, with every sum and difference of `i64` checked (Model/Checked) | the queue of the builder is the breadth-first order of C05; what the build subtracts is what the reads add up again (Lemmas/CheckedBuild, CheckedRead); an invariant of the search that tells apart where a log has nodes, repeats its snapshot or is constant (Lemmas/CheckedSearch) | partial |
| C86 | A cell is read from few places of a chunk | bitmap.rs get, rank; dac.rs get; snapshot.rs get; log.rs get; block.rs get; chunk.rs find_block, get | a predicate on functions of a structure (`Spec.LooksAt`: the result depends on so many places) that composes (Lemmas/Looks); the descent ends after as many levels as the exponent says, the search for the block halves its range | proved |
| C87 | A search looks at few places where the range settles it | snapshot.rs:310-413 search_window; log.rs:519-702 search_window; block.rs:70-81; chunk.rs:213-228, 336-382 | the bounds a search carries are the least and greatest value of its square (`SearchExact`, attained, for logs by C09), so that it divides none but mixed ones; these are counted by the cells that make them mixed (`mixed_le`, Lemmas/LooksSearch); another chunk that agrees at the places takes the iterator through the same states | proved |
| C88 | A window and the series of a cell are read from few places | snapshot.rs:204-301 fill_window; log.rs:311-508 fill_window; block.rs:57-68; chunk.rs:133-158, 284-313 | every square that a read of a window walks into has a cell of the window, and the windows of the squares below one are the parts of its window, so that a level costs no more than the cells of the window (`looks_cells`); the iterator over the instants is followed in both chunks (`iter_toList_eq`) | proved |
| C89 | Reads end whatever the bytes of an object are | snapshot.rs:165-421, log.rs:176-672 (Model/Rec.lean: the bodies of the recursive functions with the call of themselves as a parameter) | a body that calls itself with the `k`th part of the side only, and not at all where that is 0, has just one function that solves it (`Divides.exists`), and `n` calls inside each other give its values for sides below `2 ^ n` (`Divides.deepen_eq`); the limited recursion of the other models is the same body (`Snapshot.getGo_deepen` and so on) | partial |
| C90 | Loading asks for room in proportion to the bytes of the object | the calls of `with_capacity` in bitmap.rs:147,153, dac.rs:50,53, block.rs:102, chunk.rs:251-252, links.rs:57, span.rs:318, superchunk.rs:730,739, dataset.rs:449,1054, extio.rs:156 (Model/Alloc.lean: the readers with a list of what they ask for) | without the lists the readers are those of Model/Serial.lean and Model/Store.lean (`Item.erase_readA`); an account that gets nine for each byte read and pays each request may run into debt between a count and its elements, but has something left after each element (`Costs`), as each takes a byte; a level of a `Dac` asks for a place for each bit of its bitmap, which takes at least an eighth of that in bytes | partial |
| C91 | An object that was cut off does not crash the reader | as C66: resolver.rs:142-179 and all `read_from` and `load_from` | a reader that panics does so whatever follows the bytes (`Calm`); readers whose result does not depend on what follows (`Firm`) compose; a container read with `take().read_to_end()` may end early (`Soft`), but then what comes next fails with an error, or reads nothing, or panics in any case (`Calm.bind_loose`, `Calm.map`, `Calm.bind_panics`) | partial |
| C92 | A window and the series of a cell hold what single reads give | snapshot.rs:165-275, log.rs:176-508, block.rs:42-64, chunk.rs:127-206 | for any tree, by induction on the depth: what the loop over the children of a node gives is what its cells give (`Heeds.grid`), and it does not panic if they do not (`Backs.grid`); both recursions choose the same child. `get` and `fill_window` of a log differ behind the end of the tree only, where `rank` panics (`Log.equalAt_past`). For what the library builds `chunk_any`, as for C74 | partial |
| C93 | A search reports no cell twice and none outside of its window | snapshot.rs:310-421, log.rs:519-702, block.rs:70-81, chunk.rs:213-228 and 336-382, superchunk.rs:464-585, span.rs:228-268, mmarray.rs:206-215 | for any tree, by induction on the depth: what a search of a box reports is a choice of its cells (`Picks`), since the children of a node are disjoint boxes. For structures, by induction on the fuel: what any run emits is within the cells of the window (`Out.Inside`), which the parts of superchunks (`cells3_split`) and spans (`pieces_flatMap`) divide among themselves | proved |
| C94 | A read that ends well has written every place of its array | chunk.rs:127-206 and 284-312, superchunk.rs:356-457, span.rs:131-221, mmarray.rs:167-199 | from C92 for the trees; the iterator of a chunk gives as many instants as asked for or panics (`ChunkIter.toList_count`); then as C93, with places in the array in the place of cells (`places`), and equality for runs that end well: `Out.Covers` for series, `Out.Full` for windows, where errors must be ruled out because `join_all` drops them | partial |
| C95 | Whatever is written by a read of many cells is what single reads give | mmstruct.rs:103-160, superchunk.rs:313-457, span.rs:121-221, chunk.rs:127-206 and 284-312, mmarray.rs:156-199 | from C92 for chunks, after showing that an iteration that ends stays inside of the chunk (`iterList_ends`) and that all chunks of what is loaded, also those inside of superchunks, have the index that belongs to their blocks (`MMStruct3.Loaded`); then by induction on the fuel: where `fill_window` and `fill_cell` divide a window or a range of instants, `get` finds the same part with the same offsets (division with remainder), and what holds of all that the parts write holds of all that is written in any order (`Out.Shows`) | proved |
| C96 | Answers do not depend on the order in which tasks run | mmstruct.rs:125-184, superchunk.rs:353-585, span.rs:139-268, mmarray.rs:167-215 | by induction on the fuel: an operation whose parts all have a run, and end alike with the same calls up to order in all their runs, does so itself (`Out.Sure`; `Out.Settled` if the errors may differ; `Out.Fixed` for parts whose error is dropped); as no place is written twice (C77), the array is the same for calls in another order | partial |
| C97 | A window has a made-up zero exactly where a single read fails | mmstruct.rs:103-165, superchunk.rs:313-462, span.rs:121-228, mmarray.rs:150-204 | by induction on the fuel: the part of the window that a cell lies in is written in full, or its reference cannot be followed, with the error that a single read gets as well (`MMStruct3.fillWindow_lacks`); what is written is what a single read gives (C95) | partial |
| C98 | A coordinate made in Python and stored has the elements that were asked for | py-dcdf/dcdf/__init__.py:160-171,206-227, py-dcdf/src/lib.rs:169-187, dataset.rs:632-670,706-818 | by cases of the type; what is loaded is what was committed (C34), and the elements are those of C42; `2 ^ 32` elements and more are written as the same bytes as the rest of their number | partial |
| C99 | Identifiers given to Python lead back to the data set | py-dcdf/src/lib.rs:55-74,150-160,635-639 | digits of numbers in bases 58, 32 and 256; a text of version 0 has 46 letters and begins with Qm, because its number lies between 0x1220 and 0x1221 times 256^32; C34 for what is loaded | proved |
| C100 | Every cell that can be read has coordinates | dataset.rs:101-110,610-630, py-dcdf/dcdf/__init__.py:53-62,206-227 | no operation changes the coordinates (induction over the history); C56 for the shape of the arrays, C44 for what can be read | partial |
| C101 | What is written through Python is read through Python with the string commit gave | py-dcdf/src/lib.rs:70-123,150-154, py-dcdf/dcdf/__init__.py:52-148, dataset.rs:101-380 | what get_dataset gives for the string is the state after the session and one reload (C99, C34); then C54, C55 and C100 for what is found, C31/C46 for the data, C49 for the items; C45 for other stores and later ones | partial |

What is proved and what is missing, for the properties where there is something to say:

* **C07** All rasters that are not split by overflow (no aligned square in which the wrapped differences are all the same has cells where the difference overflows beside cells where it does not), which for even arities is exactly when reads are right (C07_exact); every even arity, and every odd arity whose nodemap lengths are not multiples of 32. False for the remaining odd-arity case: Verif.C10_odd_arity_panics is a concrete panic. The statement without these conditions is refuted: C07_odd_wrong, C07_overflow_wrong.
* **C08** Same restriction as C07. Refuted without it: C08_odd_wrong, C08_overflow_wrong.
* **C09** False of the code in general. SearchSafe characterises exactly the raster pairs for which searches are right: the partial theorem proves correctness under it, C09_unsafe_wrong proves a wrong answer exists for every pair violating it (values within 2^61), C09_witnesses gives concrete ones. Whatever the rasters are, a search returns and gives the cells of the window that are in one set of cells, the same for all windows (C09_consistent).
* **C10** False of the code: every query of a 1x1 raster panics, and log reads of odd arity can panic; proved for all other shapes and all numbers, searches of logs also for odd arities.
* **C11** Any list of blocks; a chunk read from any bytes has the index of its blocks. C11_past_end shows the bound is exact.
* **C12** Every series that is not split by overflow (C07), which for even arities is exactly when reads are right (C12_exact), whatever blocks the builder forms; restrictions inherited from C07/C10 (1x1 shapes, some odd arities), where the claim is false. Refuted without them: C12_odd_wrong, C12_overflow_wrong, C12_single_cell_wrong.
* **C13** Same restriction as C12. Refuted without it: C13_odd_cell_wrong, C13_odd_window_wrong, C12_overflow_wrong.
* **C14** False of the code in general (see C09): right when the pairs stored as logs are SearchSafe, provably wrong for some interval otherwise. Covers the lazy iterator and swapped bounds. Whatever the series is, searches return, and what they find fits together (C10_chunk_search_total).
* **C16** All built structures whose dimensions fit the fields of the format (FormatOk: arity below 256, complete tree below 2^32 nodes, fewer than 2^32 instants, fractional bits below 256).
* **C18** False of the code: the last level of the last container is read with take().read_to_end(), so cuts inside it are accepted (C18_cut_accepted, C18_snapshot_wrong, C18_witness). All earlier cuts are proved to be errors, and all cuts of bit maps.
* **C19** Unsigned_varint and cid are modelled from their documentation.
* **C20** Rejection is a panic, not an error value.
* **C21** Any window, any grid with a positive side of its squares.
* **C22** Integer and float buffers, even arity, any accepted levels, any store that holds what was saved without identifier collisions. Floats: exact without rounding, within half a unit with rounding, under the conditions C39-C41 and C27 need. Missing: odd arities (C07 is false for them). Refuted for them and for squares split by overflow: C22_odd_wrong, C22_overflow_wrong.
* **C23** As C22, for every order in which the parts complete. Refuted without the conditions: C22_odd_wrong, C22_overflow_wrong.
* **C24** Right when the squares of the grids are safe for log searches (GridSafe), for every order of completion. False in general: C24_witness.
* **C25** Cell reads, span reads and searches report; window reads of superchunks never do (C25_window_never_reports, C25_window_silent): the claim is false of the code there.
* **C26** Exact condition for the builder to succeed on integers and floats (C26_accepts_iff, C26_float_accepts_iff); holds for up to two levels and for full squares; false in general (C26_wrong: 24 rows and columns, levels 1, 2, 2).
* **C27** Integers, and floats where no elided square mixes NaN with numbers. False for floats with leading NaNs: C27_nan_wrong.
* **C28** For all structures whose numbers fit the format, in particular all that the builder makes, from any numbers (C28_any_built). False for every other structure: C28_limits and its companions show that reading back what was written, whatever follows it, is equivalent to fitting the format.
* **C29** Any tree of spans; searches for trees whose chunks are searched rightly.
* **C30** Any span that holds a series (of any element type) and any structure that holds one.
* **C31** Every history of operations on a data set (appends to this and other variables, new variables, commits, loads, failed operations), every chunk size >= 1 and span size >= 2, every order in which the reads of the tail complete. Integers: the arrays of a variable all of 32 or all of 64 bits; no square of a chunk is split by overflow (C07_exact). Floats: arrays of the type of the variable; exact without rounding, within half a unit with rounding however often a chunk is stored again, under the conditions of C22. Both: rasters the superchunk builder accepts (C26).
* **C32** Assuming no two different objects have the same identifier. C32_contents_partial and C32_float_contents_partial say what the old contents are.
* **C33** Exactly the commits after which the data set was loaded again. False for other commits (C33_wrong): commit does not tell the data set its identifier, so going on with it drops the commit from the chain. The same in Python, with strings (C33_python_partial).
* **C34** Every data set within the limits of the format (names below 256 bytes, fewer than 256 variables, 32-bit sizes); C34_limits: exactly these. C34_beyond: for any other, commit succeeds and what is loaded is not what was committed.
* **C35** Every sequence of gets by one task, every limit and sizes; loads may fail.
* **C36** Every sequence of gets by one task.
* **C37** Any number of tasks, every interleaving of the sections that hold a lock: no two loads of a key at a time, all answers right. That nothing is loaded twice and that the recency list stays intact is false (C37_wrong: a task that misses and is overtaken before it asks for the loader), and proved for schedules where that cannot happen, such as those of one thread.
* **C38** Any number of tasks and every interleaving in which no task is dropped. C38_wrong shows what dropped tasks and panics in load do (waiters panic or hang). C38_after_panic: after a panic in load every later get of the key hangs, also without concurrency.
* **C39** Proved for all values needing at most b bits, b<=61, both signs; false for b>=62 and for values strictly between -1 and -1/2 units (stored as NaN), exactly characterised.
* **C40** Error bound proved for every stored number of both signs; rejection of inexact values proved for positive values and proved false for negative ones; decoding any stored integer gives the nearest float, ties to even; appends to variables without rounding accept only numbers of at most 61 fractional bits.
* **C41** Proved for data without large negative values, float log2 a parameter assumed not to underestimate; false for data whose negative values outgrow the maximum.
* **C42** Integer and time ranges of every width, in both build profiles. Slices need the element after the last one to fit (C42_wrong), and a backwards slice is answered in release builds. FloatRange is C48.
* **C44** All four types of arrays, every structure, store and query. Searches only with bounds made by Cube::new: C44_search_wrong has a hit below the last row for bounds whose public fields were set by hand.
* **C45** Listings of every object in every store show exactly the identifiers stored in it, whatever else is missing (C45_missing); reads of a data set depend only on what is reachable through listings, provided that superchunks keep only chunks inside themselves (C45_local_wrong has a superchunk that keeps a span, the builder makes none). After any history of any variable, whatever failed, nothing reachable is missing (C45_history), nor from a data set with all its variables and earlier versions after a commit, and nothing else is needed to read it (C45_dataset).
* **C46** Every history in which anything may fail, all 32-bit data: all reads of data_i32 (get, cell, window) return the arrays that were accepted. Settings within the limits of the format, chunk size >= 1, span size >= 2; no two objects with the same identifier. C46_i32_partial is about searches as well, which need what C09 and C24 need.
* **C47** All objects and all sequences of saved objects. That nothing stored is disturbed needs that different bytes get different identifiers (NoCollision).
* **C48** Get within rounding error for every range, and rejection, are proved. What is said about slices is proved for ranges on a binary grid and false for others: a slice may have one element too many (start 1, step 0.1; also the latitudes of the project's own example, era5_land_precip), other elements than get, or none; with a bound on the size of the numbers a slice has at most one element too many and all elements are near. Floats without limits on exponents.
* **C49** Every variable whose array reads right (in particular after every history of C31) and every tuple of up to three ints and slices that are within bounds, without a step and not empty: result as NumPy's, of all shapes. False outside of that: steps are ignored, reversed slices give data, negative indices and slices that reach too far are rejected, slices that end at 0 panic. Integer and time coordinates likewise, and coordinates of floats on a binary grid (others: C48).
* **C50** Every sequence of saves and reads, every cache size: the replies are those without a cache, up to a read that hangs, which needs an earlier panic on an unreadable object. Stores that lose objects: whatever is read is what is stored under the identifier. Concurrent reads in every interleaving without dropped tasks. Assumes that different bytes get different identifiers.
* **C51** For every server that keeps what it is given: every object, however it is split into writes. False for identifiers that lead nowhere (load never answers None, the error message is parsed as an object and reading panics) and for servers that cannot be reached (panics). HTTP and JSON are not modelled.
* **C52** True of all links and spans; false of every chunk, superchunk and data set (C52_wrong), for which the exact difference is proved, as well as a bound on the bytes of what the cache holds.
* **C53** All histories, including failing operations. False for a name already in use: add_variable accepts it and the new variable can never be reached (C53_duplicate_wrong); a lookup gives the first that was declared.
* **C54** All histories, from Rust and from Python. False for the type Time (datetime64 in Python): such variables are accepted, can be appended to, and can never be read (C54_time_wrong).
* **C55** All data sets and names. False for variables with the name of a coordinate or of something the class defines (C55_wrong): the attribute is the other thing.
* **C56** All histories, including failing operations, and every append after them. The refusal is a panic in the code. Assumes that different bytes get different identifiers.
* **C57** False of the code for a chunk size of 0 and for levels that do not fit the shape (no append ever succeeds) and for a span size below 2 (after any history at most one chunk is held), although add_variable accepts them. For other settings appends of integers succeed after any history, whatever was appended before (C57_works), if the builder accepts the levels for all integers, which holds for one or two levels that add up (C57_two_levels). Floats are accepted within the conditions of C31 (C31_float_append_succeeds_partial); without rounding, an array that is accepted on its own may be refused when it shares a chunk with what is there already (C57_float_wrong).
* **C58** Every start and step of whole seconds, in the units from weeks to microseconds (starts also in years and months). False for fractions of seconds, which are dropped silently (a step below a second gives an axis of equal instants), and for nanoseconds and finer units, steps in months and years, and NaT, for which no axis is made. What NumPy does is stated in Model/PyTime.lean.
* **C59** Integers of one width, and floats that are stored exactly: all pairs of histories within the conditions of C31. False for floats that are rounded (C59_rounded_wrong): the number of bits of a chunk is chosen after a part of it was read back rounded, so it depends on how the series was split into appends.
* **C60** C60_any: all variables at once, arrays of all types with all values, operations that fail. Assumed are the limits of the format (settings that can work, fewer than 2^32 instants, fewer than 256 variables) and that no two objects have the same identifier. The two others are earlier versions for one variable.
* **C61** Cell reads and searches: all structures, stores and sets of missing objects. Windows: every cell that is written is right, those that are not stay zero (C25 says that nothing is reported); for histories within the conditions of C31. False for appends (C61_append_wrong): the tail is read back as a window, so what could not be loaded for a moment is stored as zeros and stays lost.
* **C62** Every operation ends, in all executions; the others are arbitrary. C62_any: arrays of all types with all values, from data sets with any history within the limits of the format, if no two objects have the same identifier. The two partial theorems add what the version holds, within the conditions of C31.
* **C63** All points of failure, but for loads that fail unnoticed while the tail of the variable is read back: those can lose data (C61_append_wrong). Otherwise in full (C63_any): arrays of all types with all values, from data sets with any history within the limits of the format, if no two objects have the same identifier.
* **C64** No assumption that any append succeeds: arrays may have any shape, the builder may refuse them. The number of instants and that arrays of other shapes fail in full (C64_instants, C64_shape). Partial: the arrays that were accepted are within the conditions of C31 other than that the builder accepts them (IntBase, FltBase), and no two objects have the same identifier.
* **C65** All bytes, whoever has written them. False of the code in two ways, otherwise proved: bytes after the end of an object are never looked at, and in data sets a flag other than 0 and 1 is taken for 0.
* **C66** Loading ends for all bytes, and bytes with the header of a list of links are never a panic. False of the code otherwise: bytes that do not begin as an object, unknown tags and identifiers of objects of another kind panic.
* **C67** Exact numbers of stored values and bits, for all rasters. False of the code in one way: a square that differs from the snapshot by one amount is divided all the same if it reaches over the edge of the raster. Bytes: exact, as a function of the values of the raster, for containers, snapshots and logs.
* **C68** All series of integers (floats are stored as integers). Sizes are numbers of bytes that are written; C68_bytes: exactly how many, as a function of the values.
* **C69** Integers in full; floats under the conditions of FltInput (false otherwise, C27).
* **C70** All sequences of commands and points of failure, for 32-bit integers without conditions, for 64-bit integers and floats within the conditions of C31 (what the encoder does not lose, C10 and C27); a copy that is broken off has published all chunks but the last ones that are less than commit_every (C70_progress); the levels of the two data sets of the program are accepted for all data (C70_cpc, C70_era5). False of the code in two ways: a process that is killed while the head file is written leaves an empty one, and then no command works again and the head is lost (C70_lost, C70_head_wrong); a limit is rounded up to whole chunks (C70_limit_wrong). xarray, NumPy and dclimate are not modelled: a source is an array.
* **C71** Listing in full, for all stores, and after any runs with any numbers. Bytes: the exact number is proved, which counts an object once for every way to it (C71_shared_wrong: more bytes than the store has) and does not count the object itself (C71_start_wrong: none for a subchunk). False of names with a slash (C71_slash_wrong).
* **C72** All cells and days. A file whose first time is not at midnight is taken for the day silently (C72_start_wrong). flip and roll of NumPy are modelled from their documentation.
* **C73** All histories, any numbers, any failures; all four reads. Hypotheses: the settings are within the limits of the format, no two objects have the same identifier. Windows and searches of at least one row and column. Time ranges that are the wrong way round are covered for cell and window, not for search.
* **C74** All histories, any numbers of any type, any failures. Hypotheses: the settings are within the limits of the format, no two objects have the same identifier. Which cells a search gives is C14 and C24.
* **C75** All histories, any numbers of any type, any failures. Hypotheses: the settings are within the limits of the format, no two objects have the same identifier. A chunk counts as intact if all arrays appended within it are of 32 bits, or all are of 64 bits and split no square by overflow; for floats, what C64 asks for is asked for the chunk alone. Within a chunk damage does spread: C75_empty_wrong.
* **C76** If all objects can be loaded: exactly what verify answers, for every data set that reads right (C76_exact), in particular after any runs of the program, for 32-bit integers without conditions, for others within the conditions of C70. If some cannot be loaded: a run that finds nothing can only be wrong about cells that are zero in the source; false for those (C76_missing_wrong), because windows leave zeros where objects are missing (C25).
* **C77** All structures, stores and windows, without conditions on the data. C77_window and C77_cell: reading on views, with slices and writes that are checked, is the same as what the other theorems are about. What ndarray does inside a view is not modelled; nor is which references Rust's rules allow while others are not used.
* **C78** C78_any and C78_commit: arrays of all types with all values, from data sets with any history within the limits of the format, if no two objects have the same identifier. An object that is needed twice is loaded once. Reads whose loads fail are C61. The two partial theorems add what is read, within the conditions of C31.
* **C79** C79_full_chunks has no condition on the arrays, only the limits of the format and that no two objects have the same identifier. For the chunk that is not full the property is false of the code in general (C79_tail_wrong: a variable that rounds loses bits of what it held when a huge number is appended to the same chunk; see also C75_empty_wrong); it holds if nothing overflows (C79_int_partial) and if the number of bits stays the same (C79_float_partial).
* **C80** All arities: never too small, and at most one too large, only for powers of the arity. Arity two, which datasets use: right for all lengths below 2^32 but 2^29 and 2^31, for which it is one too large (C80_binary_wrong), so the right levels are refused (C80_refused_wrong). The logarithm to base two: in full. C80_clogOk, C80_settings, C80_log2 and C80_suggestion are what the other theorems assume of the logarithms, for arrays with sides below 2^29.
* **C81** Proved for reads and appends that go to the store themselves. False of the code when two tasks need the same absent object at the same time: the one that waits gets Error::Load (OSError) and not NotFound (C81_shared_wrong; C81_shared_partial says what holds); of the IPFS mapper, which never says that an object is absent (C81_ipfs_wrong); and of ls and du of the example program, which say of an object with a wrong identifier in it that it is not found (C81_ls_wrong).
* **C82** All histories, arrays of all types with all values, any earlier failures; appends that succeed. Hypotheses: the settings are within the limits of the format, no two objects have the same identifier. Objects that are saved more than once are counted each time. Spec.parts is a bound for the parts of one superchunk that depends on the levels alone.
* **C83** False of the code: the loop over a coordinate of numbers gives all elements and then raises PanicException, and so does `in` for what is not there (C83_int_wrong, C83_float_wrong); the loop over a variable never ends and reads nothing (C83_variable_wrong), the slices past the end panic when they are used (C83_variable_late). What holds: the elements that are given are right and in order (C83_elements_partial, C83_variable_partial, the latter where the variable reads right), time (C83_time, builds without overflow checks) and what has been read of a variable (C83_slice, C83_scalar); what cannot be loaded is raised (C83_load, C83_shape).
* **C84** All histories, arrays of all types with all values and shapes, any earlier failures; appends that succeed. Hypotheses: the settings are within the limits of the format, no two objects have the same identifier, and the order in which the window read of the last chunk makes its calls depends on nothing but what orders are possible (Fill.Fair; the order is left open by the model). Spans that the append saves and then loads again are among the objects counted.
* **C85** Of any chunk, also one that was built without checks, a read gives the same or panics (C85_any). Builds and reads in full, for rasters with two cells on the longer side (C10). False of searches: where a constant raster is stored as a log, the search adds its difference from the largest number of the snapshot to the smallest, which may overflow although every number stored and every difference of cells fits (C85_search_panics). C85_search_same_partial says when it does not, C85_search_exact that this condition is exact, C85_search_third that numbers below a third of the range are enough. Of chunks; superchunks and what is above do no arithmetic on the numbers themselves but to find their extremes.
* **C86** All series, without conditions on the values. A place is an entry of an index, a word of a bit map, a byte of a list of integers, or a number of the header; C86_places: there is nothing else in a chunk. The bound, 228 for a level of the tree, is not sharp: it counts what is looked at twice, and all eight bytes of every number.
* **C87** Snapshots without conditions on the values; logs where no difference overflows and searches are right (SearchSafe, C09). Of a snapshot the parts of a mixed square count as well, because the test of a part takes the least value of the whole (C87_snapshot_wrong: the search looks into a square all of whose values are in the range). The constants are not sharp.
* **C88** Without conditions on the values; the places are those of C86, which are all there is in a chunk.
* **C89** Proved for all objects in which k is not 1, as in everything that the library writes. For k = 1 it is wrong of the code: 64 bytes load without complaint and a read of a cell inside of the shape never ends (F56). Without the limit of the models on the depth of the recursion; with it the models give the same.
* **C90** For objects that load what is asked for is exactly the lengths of their vectors and names (C90_exact). The bound is proved for all objects that load, and so for all that the library writes. For objects that do not load it is wrong of the code: 14 bytes that end after the number of blocks of a chunk ask for any number below 2^32 of blocks and of places of the index, 11 bytes of links for as many identifiers; no single request is for more. Places are elements; how many bytes an element takes in memory is not modelled.
* **C91** Loading in full: all objects, all other bytes that do not panic, all cuts, all stores. False of the code for what is done with an object that was cut in its last container, which loads (C18): a search in it may panic (C91_search_wrong).
* **C92** In full for snapshots, for series of cells and for what the library builds with an even arity, whatever the numbers. For windows of any chunk that loads: a window that can be read holds what the cells give and each of them can be read. The other direction is false of the code for logs that the library has not written (C92_log_wrong).
* **C93** For all objects, built or not, all stores, all orders of the tasks, runs that fail included. Windows must not be empty and their sides in order, as Cube::new puts them (C44_search_wrong shows a search that goes beyond the raster otherwise).
* **C94** Series and windows of chunks: all objects, built or not, all stores, all orders of the tasks. Windows of any structure: if the objects that it refers to can be loaded, or panic (Spec.Whole). Without this it is false of the code (C94_window_wrong, F9).
* **C95** For all stores, built or not, all structures loaded from them, all orders of the tasks, runs that fail included. Windows must not be empty and their sides in order, as Cube::new puts them. That a cell of a window may keep its zero is part of the statement (see C94_window_wrong, F9).
* **C96** Searches and series: all structures, built or not, all stores, all orders of the tasks. Windows: if the objects that the structure refers to can be loaded, or panic (Spec.Whole), or else if no superchunk leads to a span (Spec.Plain), whatever is missing; so for all variables of data sets with any history (C96_built). Without either it is false of the code (C96_window_wrong, F60); which of several errors is given depends on the order (C96_error_wrong).
* **C97** All stores and all structures loaded from them in which no superchunk leads to a span (Spec.Plain), whatever is missing; so all variables of data sets with any history, in any part of their store (C97_built). Of other structures it is false of the code (C97_window_wrong, F60). Windows must not be empty and their sides in order, as Cube::new puts them.
* **C98** All names, arguments and types; which arguments make a coordinate, and what it is, is an equivalence for integers. That the elements come back after a commit is proved for data sets within the limits of C34, so for less than 2^32 elements, and for elements of integers whose products and sums fit the type (see C42); for more it is false of the code (C98_steps_wrong, F61). Floats: the bits of start and step are kept (elements: C48); conversion of ints to floats and to 32 bits is a parameter.
* **C99** All valid identifiers; text in base 58 (version 0) and base 32 (version 1), modelled from the documentation of the crates cid and multibase. What multibase does with other encodings is a parameter that the theorems hold for every value of. Data sets as in C34 (within the limits of the format, no collision of the hash among the objects of the store). Paths: what is before /ipfs/ has no slash.
* **C100** All histories. Partial because it is false of the code for data sets whose shape is not the lengths of their coordinates, which are made without an error (C100_wrong, F62). Elements of coordinates: integers of both widths whose elements fit their type (C42); for floats lengths only (elements: C48).
* **C101** End to end, for all sessions: any operations before and after the variable is added, other variables included. What is seen are the arrays whose appends succeeded, one after the other. 32-bit integers: any values. 64-bit integers and floats: under the assumptions of C64 on the arrays that were accepted. Partial because plain indices are assumed, outside of which it is false of the code (C49), and because of the limits of C31 and C39; datetime64 variables have no data in Python (C54). What is seen stays seen after any later operations of anybody (C101_stays), and while they run (C101_meanwhile), and is seen in every store with what listings lead to from the string (C101_copy).

## Findings

Behaviour of the code that makes a property false or that surprised us, found while modelling.

| | where | what | theorem |
|--|-------|------|---------|
| F1 | snapshot.rs, log.rs | every query of a 1×1 raster panics | `C10_single_cell_panics` |
| F2 | log.rs `get` and others | the index of a child is off by one when `k` is odd and the nodemap is a multiple of 32 bits long: reads can panic | `C10_odd_arity_panics`, `C07_odd_wrong`, `C08_odd_wrong`, `C12_odd_wrong`, `C13_odd_cell_wrong`, `C13_odd_window_wrong`, `C22_odd_wrong` |
| F3 | log.rs `search_window` | the bounds of the root are wrong when the snapshot or the log is a single node: searches answer wrongly (exactly for the pairs that are not `SearchSafe`) | `C09_unsafe_wrong`, `C09_witnesses`, `C14_witness`, `C24_witness` |
| F5 | chunk.rs `find_block` | the first instant past the end is placed past the last block; the lookup of a later one never ends | `C11_past_end` |
| F6 | fixed.rs `to_fixed` | values strictly between −1 and −1/2 units become NaN; inexact negative values are accepted; wrong for 62 or 63 bits | `C39_turned_into_nan`, `C40_negative_accepted`, `C39_62_bits_wrong` |
| F7 | fixed.rs `suggest_fraction` | looks at the maximum only; large negative values do not fit the suggestion | `C41_negative_wrong`, `C41_witness` |
| F8 | mmbuffer.rs `min_max_float` | leading NaNs are skipped: a square with leading NaNs and otherwise equal values is elided and the NaNs are lost | `C27_nan_wrong` |
| F9 | superchunk.rs `fill_window` | errors of subchunks are discarded; the output keeps zeros | `C25_window_never_reports`, `C25_window_silent`, `C94_window_wrong` |
| F10 | superchunk.rs `build` | panics for some valid shapes and levels (24×24, levels 1, 2, 2) | `C26_wrong`, exact condition `C26_accepts_iff` |
| F11 | cache.rs `get` | a task that misses and is overtaken loads the key again and inserts it again, which corrupts the recency list | `Cache.C37_wrong` |
| F12 | cache.rs `Loader` | a dropped waiter makes the loading task panic; a dropped or panicking loading task leaves the waiters hanging; `Ok(None)` panics; after a panic in `load` (an object that cannot be read) every later `get` of the key hangs | `Cache.C38_wrong`, `Cache.C38_after_panic` |
| F13 | superchunk.rs, dataset.rs `size` | not the number of bytes stored for any chunk, superchunk or data set (C17 is about the chunk structures without header) | `C52_wrong`, `C52_struct`, `C52_dataset` |
| F14 | several `write_to` | lengths and dimensions are truncated by `as u8`, `as u32` without an error: a data set with 256 variables or a name of 256 bytes is committed and loads as another one | `C28_large_wrong`, `C28_limits`, `C34_beyond`, `C16_arity_limit` |
| F15 | dataset.rs `add_variable` | span sizes below 2, a chunk size of 0 and levels that do not fit are accepted; with them appends panic (always, or from the second span on) | `C57_chunk_size_wrong`, `C57_levels_wrong`, `C57_span_size_wrong` |
| F16 | geom.rs `Rect::iter` | does not end for a rectangle without columns | `C43_zero_width_diverges` |
| F17 | range.rs | `slice` overflows for slices that end at the largest value; backwards slices are answered in release builds | `C42_wrong`, `C42_slice_backwards_partial` |
| F18 | dac.rs `read_from` | truncated containers are accepted | `C18_cut_accepted`, `C18_snapshot_wrong`, `C18_witness` |
| F19 | mmstruct.rs | an unknown encoding tag panics | `C20_encoding_tags` |
| F20 | mmarray.rs | searches of float arrays are `todo!()` | `C44_search_floats` |
| F21 | mmarray.rs `check_bounds` of searches | looks at `end`, `bottom` and `right` only | `C44_search_wrong` |
| F22 | dataset.rs `commit` | does not tell the data set its identifier; going on with it drops the commit from the version chain | `C33_wrong` |
| F23 | dataset.rs `append_*` | does not check the type of the array against the encoding of the variable | `C31_types_wrong` |
| F24 | superchunk.rs `ls` | omits the links of structures kept inside the superchunk | `C45_local_wrong` |
| F25 | dataset.rs `ls` | a variable named `prev` cannot be told from the previous version | `C45_names_wrong` |
| F26 | log.rs, mmstruct building | if the difference of two values in a chunk overflows `i64`, a debug build panics; a release build stores a log that reads back other numbers if and only if differences in an aligned square are all the same when wrapped, some of them overflow and some do not | `C07_exact`, `C12_exact`, `C31_overflow_wrong`, `C07_overflow_wrong`, `C08_overflow_wrong`, `C12_overflow_wrong`, `C22_overflow_wrong` |
| F27 | range.rs `FloatRange::slice` | the number of elements is computed from rounded floats: too many, other ones than `get`, or none; none for a step of zero | `C48_length_wrong`, `C48_elements_wrong`, `C48_empty_wrong`, `C48_zero_wrong` |
| F28 | py-dcdf/dcdf/__init__.py `Variable.__getitem__` | the step of a slice is ignored without an error; a reversed slice gives the data of the slice the other way round instead of an empty array; negative indices and slices past the end, which NumPy takes, are rejected; `v[0:0]` panics | `C49_step_wrong`, `C49_reversed_wrong`, `C49_negative_wrong`, `C49_clamp_wrong`, `C49_empty_wrong` |
| F29 | dcdf-ipfs `load`, `size_of` | an identifier that leads nowhere never gives `None`: the error message of the server is parsed as an object, which panics, and with F12 the next read of the identifier hangs; a server that cannot be reached makes everything panic | `C51_absent_wrong`, `C51_unreachable_wrong` |
| F30 | dataset.rs `add_variable` | a name that is in use is accepted; the new variable is never found by its name | `C53_duplicate_wrong` |
| F31 | dataset.rs `add_variable`, py-dcdf `datetime64` | a variable of type `Time` is accepted and can be appended to, but there is no way to read it | `C54_time_wrong` |
| F32 | py-dcdf/dcdf/__init__.py `Dataset.__getattr__` | a variable with the name of a coordinate, or of something the class defines (`shape`, `commit`, …), cannot be reached as an attribute | `C55_wrong` |
| F33 | py-dcdf/dcdf/__init__.py `Coordinate.time` | fractions of seconds are dropped silently, so that steps of less than a second give equal instants; `datetime64[ns]` (the unit of pandas and xarray) and steps in months or years raise an AttributeError | `C58_fraction_wrong`, `C58_short_step_wrong`, `C58_start_wrong`, `C58_rejected` |
| F34 | dataset.rs `append_f32`, `append_f64`, mmbuffer.rs `compute_fractional_bits` | with rounding, the number of bits of a chunk depends on whether its first instants were read back (rounded) from an earlier append, so the same series gets different identifiers when it is appended in different portions, and is stored twice | `C59_rounded_wrong` |
| F35 | dataset.rs `append_*` with superchunk.rs `fill_window` | the tail is read back by a window read, whose errors are discarded (F9): an append during a short outage of the store succeeds and replaces earlier data by zeros for good | `C61_append_wrong` |
| F36 | resolver.rs `retrieve` | bytes after the end of an object are never looked at, so every object can be loaded under any number of identifiers; in data sets any flag but 1 is taken for 0 | `C65_trailing_wrong`, `C65_flag_wrong` |
| F37 | resolver.rs `read_header`, `get_*`; mmstruct.rs `try_from`, `load_from`; superchunk.rs `Reference::read_from`; bitmap.rs, block.rs `read_from` | bytes that are no object, or an identifier of an object of another kind, panic instead of giving an error (`PyResolver.get_dataset` takes any identifier) | `C66_magic_panics`, `C66_kind_panics`, `C66_tag_panics` |
| F38 | log.rs `K2PTreeNode::_build` | cells outside of the raster count as not changed, so a raster that differs from the snapshot by one amount is stored in full depth if its size is not a power of `k` (only space, reads are right) | `C67_shift_wrong` |
| F39 | examples/example.py `save_head` | the head file is truncated before it is written; killed in between, the program leaves an empty head file: every command fails from then on, `init` included, and the identifier of the data is not kept anywhere | `Example.C70_head_wrong`, `Example.C70_lost` |
| F40 | examples/example.py `copy_data_from_dclimate` | a limit is rounded up to whole chunks (the code for a last part of a chunk is never reached) | `Example.C70_limit_wrong` |
| F41 | examples/example.py `du`, `_ls` | bytes are counted once for every way to an object, all earlier versions included, so the result can exceed the store; the object itself is not counted; names with a slash cannot be listed | `Example.C71_shared_wrong`, `Example.C71_start_wrong`, `Example.C71_slash_wrong` |
| F42 | examples/example.py `Era5LandPrecip.factory`, range.rs `slice` | the slice of all 1801 latitudes has 1802 elements (an instance of C48_length_wrong) | `C48_latitudes_wrong` |
| F43 | examples/example.py `CpcPrecip.extract_and_translate` | the first time of a file is rounded down to a day without a check | `Example.C72_start_wrong` |
| F44 | examples/example.py:115-120 (comment) | a point is said to need three objects (span, superchunk, chunk) and 20000 * 64 to be 128000; it is 1280000, and the table of links of the superchunk is a fourth object | `C73_cpc` |
| F45 | dataset.rs `append_*`, `tail_data` | an array without instants is accepted and the tail is rewritten in its form; if it is of another type, numbers that were there before are read back as others (see F23) | `C75_empty_wrong` |
| F46 | examples/example.py `verify` | windows are compared, in which objects that cannot be loaded leave zeros (F9): where the source is zero (no precipitation), data that are lost or other than the source are not noticed | `Example.C76_missing_wrong` |
| F47 | dataset.rs `append_f32`, `append_f64`, mmbuffer.rs `compute_fractional_bits` | without rounding, whether an array is accepted depends on where the chunks begin: numbers that fit on their own panic ("loss of precision") if they share a chunk with much smaller ones that are there already | `C57_float_wrong` |
| F48 | dataset.rs `append_f32`, `append_f64`, mmbuffer.rs `compute_fractional_bits` | with rounding, an append changes what is there already: a huge number in the same chunk leaves fewer bits for all of it, and the instants that are encoded anew lose precision that was asked for and had been kept so far | `C79_tail_wrong` |
| F49 | superchunk.rs, snapshot.rs, log.rs `build` | the number of levels is computed as a quotient of rounded logarithms, which for a side of `2 ^ 29` is just above 29 (and for `2 ^ 31` just above 31), so that one level too many is asked for and the right levels panic; other arities are wrong much earlier (with the f64 of this machine, 5 at 125), but are not used by data sets | `C80_binary_wrong`, `C80_refused_wrong` |
| F50 | cache.rs `Loader::finish`, resolver.rs | tasks that wait for an object which another task loads get `Error::Load` whatever the real failure was, so which exception a user sees for the same missing object (`KeyError` or `OSError`) depends on timing | `C81_shared_wrong` |
| F51 | dcdf-ipfs/src/lib.rs `load` | an object that is absent is never reported as absent (see C51_absent_wrong), so that with IPFS `NotFound`, and `KeyError` in Python, never occurs | `C81_ipfs_wrong` |
| F52 | examples/example.py `_ls` | any `ValueError` from listing an identifier is taken to mean that it was a path; of an object in which there is a wrong identifier it is said that it was not found | `C81_ls_wrong` |
| F53 | py-dcdf/dcdf/__init__.py `Coordinate.__getitem__`, `Variable.__getitem__` | there is no `__iter__`, and an index past the end is no `IndexError`: a loop over a coordinate raises `PanicException` after the last element, so does `in` for what is not there; a loop over a variable never ends, as any index is taken until the slice is used | `C83_int_wrong`, `C83_float_wrong`, `C83_variable_wrong`, `C83_variable_late` |
| F54 | log.rs `search_window` | for a log of a constant raster the search adds the difference from the largest number of the snapshot to all its numbers, which may leave the range although nothing that is stored does: with overflow checks the search panics, without them it is one of the wrong searches of F3 | `C85_search_panics` |
| F55 | snapshot.rs:393 `_search_window` | the test whether all values of a square are in the range takes the least value of the square around it (`min_value` instead of `min_value_`): the results are right, but squares that are wholly in the range are divided down to the cells when a neighbour has a lower value | `C87_snapshot_wrong` |
| F56 | snapshot.rs `_get` (and the other recursive readers), `read_from` | `k` is read from the object and never checked; with 1 the side of the squares never gets smaller, and a read inside of the shape of an object of 64 bytes calls itself with the same arguments for ever (a stack overflow aborts the process, it is no panic) | `C89_forever_wrong`, `C89_undetermined_wrong` |
| F57 | chunk.rs:251-252, links.rs:57, span.rs:318, superchunk.rs:730,739 | counts are read from the object and room for as many elements is asked for before the first of them is read: 14 bytes that end there ask for up to 4294967295 blocks (more than a hundred gigabytes; where that is refused the process aborts, which is neither an error nor a panic) | `C90_chunk_wrong`, `C90_links_wrong` |
| F58 | dac.rs:48-63 `Dac::read_from` (`take().read_to_end()`), dac.rs `get` | a consequence of F18: a chunk of 124 bytes whose last byte is missing loads and gives all its cells, but a search in it panics (index out of range) | `C91_search_wrong` |
| F59 | log.rs:448-456 `_fill_window` against log.rs:262-266 `get` | `get` asks `equal` only for nodes within the tree, `_fill_window` for all: on a log that the library has not written, whose tree ends early, all cells can be read and a window of one of them panics | `C92_log_wrong` |
| F60 | superchunk.rs `fill_window` with span.rs `fill_window` | what a part wrote before its error came up stays, and the error is dropped (F9): the window of a superchunk that leads to a span of which a part is missing depends on the order in which the tasks run | `C96_window_wrong` |
| F61 | dataset.rs:706-773 `CoordinateKind::write_to` | the number of elements of a coordinate is written `as u32`: a coordinate of `2 ^ 32` elements or more can be made and committed, and has only the rest of that number by `2 ^ 32` when it is loaded | `C98_steps_wrong` |
| F62 | dataset.rs:101-110 `Dataset::new` | the shape is not compared with the lengths of the coordinates: a data set of four rows with a coordinate of two elements for them is made, appended to and committed without an error; the last rows can be read and have no coordinate | `C100_wrong` |

## Axioms per theorem

`p` propext, `c` Classical.choice, `q` Quot.sound (`#print axioms`).

* **p**: `C20_encoding_tags`, `C20_distinct`, `C30_rejects_open`, `C30_rejects_shape`, `Cache.C37_wrong`, `C42_get_rejects`, `C42_wrong`, `C47_identifier`, `C47_others`, `C51_hash`, `C57_two_levels`, `C81_retrieve`, `C81_ipfs_wrong`, `C83_scalar`, `C86_places`, `C98_refused`
* **p q**: `C07_odd_wrong`, `C08_odd_wrong`, `C09_witnesses`, `C10_odd_arity_panics`, `C12_odd_wrong`, `C12_overflow_wrong`, `C12_single_cell_wrong`, `C13_odd_cell_wrong`, `C13_odd_window_wrong`, `C12_overflow_wrong`, `C14_witness`, `C17_sizes`, `C18_witness`, `C19_big_endian`, `C25_get_reports`, `C25_cell_reports`, `C25_window_never_reports`, `C29_span_get`, `Cache.C35`, `Cache.C35_links`, `Cache.C37_one_at_a_time`, `Cache.C38_woken`, `Cache.C38_not_forgotten`, `Cache.C38_bounded`, `Cache.C38_wrong`, `Cache.C38_after_panic`, `C42_get`, `C42_slice_rejects`, `C43_zero_width_diverges`, `C44_search_wrong`, `C47_again`, `C49_too_many`, `C49_out_of_bounds`, `C49_len`, `C49_coordinate_rejects`, `C50_links`, `C51_store`, `C51_absent_wrong`, `C52_partial`, `C52_struct`, `C52_dataset`, `C52_most`, `C52_wrong`, `C53_add`, `C53_coordinate`, `C54_coordinate`, `C61_get`, `C67_shift_wrong`, `Example.C71_lines`, `Example.C72_all`, `Example.C72_start`, `C77_build_slices`, `C81_reads`, `C83_elements_partial`, `C85_wrap_panics`, `C85_any`, `C85_any_panics`, `C85_search_panics`, `C87_snapshot_wrong`, `C89_forever_wrong`, `C89_undetermined_wrong`, `C90_same`, `C90_exact`, `C91_search_wrong`, `C92_log_wrong`, `C96_window_wrong`, `C97_window_wrong`
* **none**: `C51_unreachable_wrong`, `Example.C72_start_wrong`, `C82_other`, `C84_other`
* **p c q**: `C01_bitmap_exact`, `C02_dac_roundtrip`, `C03_zigzag`, `C04_snapshot_get`, `C05_snapshot_window`, `C06_snapshot_search`, `C07_log_get_partial`, `C07_log_get_k2`, `C07_exact`, `C07_overflow_wrong`, `C08_log_window_partial`, `C08_overflow_wrong`, `C09_log_search_partial`, `C09_unsafe_wrong`, `C09_consistent`, `C10_reads_total_partial`, `C10_single_cell_panics`, `C11_find_block`, `C11_find_block_loaded`, `C11_past_end`, `C12_chunk_get_partial`, `C12_exact`, `C13_chunk_cell_partial`, `C13_chunk_window_partial`, `C14_chunk_search_partial`, `C14_unsafe_wrong`, `C10_chunk_search_total`, `C15_block_limits`, `C16_bitmap`, `C16_dac`, `C16_snapshot`, `C16_log`, `C16_block`, `C16_chunk`, `C16_arity_limit`, `C18_bitmap`, `C18_chunk_partial`, `C18_tree_partial`, `C18_cut_accepted`, `C18_snapshot_wrong`, `C19_integers`, `C19_strings`, `C19_long_strings`, `C19_cids`, `C20_chunk_rejected`, `C21_partition`, `C22_superchunk_get_partial`, `C22_float_get_partial`, `C22_float_exact_partial`, `C22_float_near_partial`, `C22_type`, `C22_odd_wrong`, `C22_overflow_wrong`, `C23_superchunk_cell_partial`, `C23_superchunk_window_partial`, `C23_float_cell_partial`, `C23_float_window_partial`, `C22_odd_wrong`, `C22_overflow_wrong`, `C24_superchunk_search_partial`, `C24_witness`, `C25_span_reports`, `C25_span_search_reports`, `C25_superchunk_search_reports`, `C25_window_silent`, `C26_accepts_iff`, `C26_float_accepts_iff`, `C26_two_levels_partial`, `C26_full_squares_partial`, `C26_wrong`, `C27_elision_partial`, `C27_float_elision_partial`, `C27_nan_wrong`, `C28_round_trip_partial`, `C28_links_partial`, `C28_stored_partial`, `C28_built`, `C28_float_built`, `C28_any_built`, `C28_limits`, `C28_links_limits`, `C28_span_limits`, `C28_large_wrong`, `C29_span_reads`, `C29_span_search`, `C30_append`, `C30_update`, `C31_history_partial`, `C31_append_succeeds_partial`, `C31_unknown_name`, `C31_float_history_partial`, `C31_float_exact_partial`, `C31_float_near_partial`, `C31_float_append_succeeds_partial`, `C31_i64_partial`, `C31_types_wrong`, `C31_overflow_wrong`, `C32_bytes`, `C32_loaded`, `C32_get`, `C32_reads`, `C32_contents_partial`, `C32_float_contents_partial`, `C33_versions_partial`, `C33_last_commit_partial`, `C33_wrong`, `C33_python_partial`, `C34_round_trip`, `C34_limits`, `C34_beyond`, `Cache.C36_honest`, `Cache.C36_order`, `Cache.C36_step`, `Cache.C36_origin`, `Cache.C37_answers`, `Cache.C37_all_get_it`, `Cache.C37_list_partial`, `Cache.C37_call_partial`, `Cache.C37_once_partial`, `Cache.C38_all_come_back`, `Cache.C38_one_thread`, `C39_exact_partial`, `C39_nan`, `C39_turned_into_nan`, `C39_minus_half`, `C39_62_bits_wrong`, `C40_rounding_partial`, `C40_inexact_rejected_partial`, `C40_negative_accepted`, `C40_decoded_nearest`, `C40_append_exact`, `C41_suggestion_partial`, `C41_negative_wrong`, `C41_witness`, `C41_infinite`, `C42_get_release`, `C42_slice_partial`, `C42_slice_release_partial`, `C42_slice_backwards_partial`, `C42_time`, `C42_time_slice`, `C43_rect_iter`, `C44_get_rejects`, `C44_cell_rejects`, `C44_window_rejects`, `C44_search_rejects_partial`, `C44_answered`, `C44_search_floats`, `C45_listing`, `C45_types`, `C45_missing`, `C45_gone`, `C45_reads_partial`, `C45_history`, `C45_dataset`, `C45_local_wrong`, `C45_names_wrong`, `C46_i32`, `C46_i32_partial`, `C47_distinct`, `C47_undisturbed`, `C47_reload`, `C48_get`, `C48_get_rejects`, `C48_get_exact_partial`, `C48_slice_partial`, `C48_slice_rejects`, `C48_slice_near_partial`, `C48_length_wrong`, `C48_latitudes_wrong`, `C48_elements_wrong`, `C48_empty_wrong`, `C48_zero_wrong`, `C49_variable_partial`, `C49_history_partial`, `C49_coordinate_partial`, `C49_float_partial`, `C49_time`, `C49_step_wrong`, `C49_reversed_wrong`, `C49_negative_wrong`, `C49_clamp_wrong`, `C49_empty_wrong`, `C50_transparent`, `C50_content`, `C50_tasks`, `C51_resolver`, `C52_cache`, `C53_add_empty`, `C53_append`, `C53_history`, `C53_lookup`, `C53_duplicate_wrong`, `C54_type`, `C54_python`, `C54_unsupported`, `C54_time_wrong`, `C55_partial`, `C55_wrong`, `C56_shape`, `C56_refused`, `C56_open`, `C57_works`, `C57_chunk_size_wrong`, `C57_levels_wrong`, `C57_span_size_wrong`, `C31_float_append_succeeds_partial`, `C57_float_wrong`, `C58_seconds`, `C58_fits`, `C58_instants_partial`, `C58_fraction_wrong`, `C58_short_step_wrong`, `C58_start_wrong`, `C58_rejected`, `C59_int_partial`, `C59_float_partial`, `C59_rounded_wrong`, `C60_any`, `C60_int_partial`, `C60_float_partial`, `C61_cell`, `C61_search`, `C61_window`, `C61_i64_partial`, `C61_i32_partial`, `C61_float_partial`, `C61_append_wrong`, `C62_any`, `C62_ends`, `C62_int_partial`, `C62_float_partial`, `C63_any`, `C63_int_partial`, `C63_float_partial`, `C62_ends`, `C64_instants`, `C64_int_partial`, `C64_float_partial`, `C64_shape`, `C65_struct_partial`, `C65_links_partial`, `C65_dataset_partial`, `C65_identifier_partial`, `C65_distinct_partial`, `C65_trailing_wrong`, `C65_flag_wrong`, `C66_ends`, `C66_links_partial`, `C66_magic_panics`, `C66_kind_panics`, `C66_tag_panics`, `C67_container`, `C67_bitmap`, `C67_snapshot`, `C67_log`, `C67_snapshot_uniform`, `C67_log_uniform`, `C67_most`, `C67_snapshot_bytes`, `C67_log_bytes`, `C67_uniform_bytes`, `C68_choice`, `C68_bytes`, `C68_never_worse`, `C68_static`, `C69_superchunk`, `C69_float_partial`, `Example.C70_i32`, `Example.C70_i64_partial`, `Example.C70_float_partial`, `Example.C70_copy_i32_partial`, `Example.C70_copy_i64_partial`, `Example.C70_copy_float_partial`, `Example.C70_add_i32_partial`, `Example.C70_add_i64_partial`, `Example.C70_add_float_partial`, `Example.C70_progress_i32_partial`, `Example.C70_progress_i64_partial`, `Example.C70_progress_float_partial`, `Example.C70_cpc`, `Example.C70_era5`, `Example.C70_lost`, `Example.C70_limit_wrong`, `Example.C70_head_wrong`, `Example.C71_list`, `Example.C71_fails`, `Example.C71_runs`, `Example.C71_shared_wrong`, `Example.C71_start_wrong`, `Example.C71_slash_wrong`, `Example.C72_cells`, `C73_reads`, `C73_cpc`, `C73_era5`, `C74_one_array`, `C75_int`, `C75_float`, `C75_empty_wrong`, `Example.C76_exact`, `Example.C76_i32`, `Example.C76_i64_partial`, `Example.C76_float_partial`, `Example.C76_missing_wrong`, `C77_views`, `C77_views1`, `C77_window_writes_once`, `C77_cell_writes_once`, `C77_window_views`, `C77_cell_views`, `C77_build_views`, `C77_window`, `C77_cell`, `C78_any`, `C78_commit`, `C78_int_partial`, `C78_float_partial`, `C79_full_chunks`, `C79_int_partial`, `C79_float_partial`, `C79_tail_wrong`, `C80_levels`, `C80_empty`, `C80_binary_partial`, `C80_binary_wrong`, `C80_refused_wrong`, `C80_clogOk`, `C80_settings`, `C80_log2`, `C80_suggestion`, `C81_missing`, `C81_append`, `C81_shared_partial`, `C81_shared_wrong`, `C81_ls_wrong`, `C82_append`, `C82_cpc`, `C83_int_wrong`, `C83_float_wrong`, `C83_time`, `C83_variable_partial`, `C83_variable_wrong`, `C83_variable_late`, `C83_slice`, `C83_load`, `C83_shape`, `C84_append`, `C84_cpc`, `C85_build_same`, `C85_reads_same`, `C85_reads_right`, `C85_build_middle`, `C85_wide_panics`, `C85_search_same_partial`, `C85_search_exact`, `C85_search_third`, `C86_cell`, `C86_logarithmic`, `C87_snapshot`, `C87_log`, `C87_chunk`, `C87_few_above`, `C87_few_below`, `C87_few_outside`, `C87_few_window`, `C87_output`, `C88_series`, `C88_window`, `C88_logarithmic`, `C89_snapshot_partial`, `C89_log_partial`, `C89_snapshot_model_partial`, `C89_log_model_partial`, `C89_depth_partial`, `C90_exact_written`, `C90_partial`, `C90_written_partial`, `C90_each_partial`, `C90_chunk_wrong`, `C90_links_wrong`, `C90_wrong`, `C91_cut_partial`, `C91_written_partial`, `C91_store_partial`, `C92_snapshot`, `C92_cell`, `C92_log_partial`, `C92_window_partial`, `C92_built`, `C93_snapshot`, `C93_log`, `C93_chunk`, `C93_array`, `C94_cell`, `C94_array_cell`, `C94_chunk`, `C94_window_partial`, `C94_window_wrong`, `C95_cell`, `C95_cell_iff`, `C95_window`, `C95_array_cell`, `C95_array_window`, `C96_search`, `C96_cell`, `C96_window_partial`, `C96_window_plain_partial`, `C96_built`, `C96_error_wrong`, `C97_window_partial`, `C97_built`, `C98_int32`, `C98_int64`, `C98_float64`, `C98_made`, `C98_stored_partial`, `C98_steps_wrong`, `C99_round_trip`, `C99_path`, `C99_injective`, `C99_commit`, `C99_prev`, `C99_refused`, `C100_same`, `C100_partial`, `C100_items`, `C100_wrong`, `C101_i32_partial`, `C101_i64_partial`, `C101_float_partial`, `C101_copy`, `C101_stays`, `C101_meanwhile`
