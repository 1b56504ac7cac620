{"id": "C01", "title": "Block split is a balanced tiling", "statement": "Splitting n items over m processes (split_m and everything that uses it: mpirange, split_all, split_local, the local_offset/local_shape of a new MPIArray) gives each process one contiguous block. The blocks start at 0, end at n, meet without gap or overlap in rank order, so every index in [0,n) is owned by exactly one process, and any two block lengths differ by at most one with the longer blocks on the lower ranks.", "quantifier": "every n >= 0, every m >= 1, every rank", "why_tests_cant": "n and m are unbounded; all distributed code is wrong if a single (n,m) pair leaves a gap or an overlap", "anchors": ["caput/util/arraytools.py:split_m", "caput/util/mpitools.py:split_all", "caput/util/mpitools.py:split_local", "caput/util/mpitools.py:mpirange"]}
{"id": "C02", "title": "partition_list hands out every element exactly once", "statement": "For a list and n parts, method 'con' returns pieces whose concatenation in part order is the list; method 'alt' returns for part i exactly the elements at indices i, i+n, i+2n, ... so every index lands in exactly one piece; method 'rand' returns pieces that together are a rearrangement of the list provided all callers draw the same permutation; any other method is an error.", "quantifier": "every list, every n >= 1, every part index i < n, every permutation drawn for 'rand'", "why_tests_cant": "list length and part count are unbounded and 'rand' depends on the random state of every process", "anchors": ["caput/util/arraytools.py:partition_list", "caput/util/mpitools.py:partition_list_mpi"]}
{"id": "C03", "title": "parallel_map is map", "statement": "parallel_map(func, list) over any number of processes and any of the deterministic partition methods returns, on every process that gets a result, the list [func(x) for x in list] in the original order.", "quantifier": "every list, every pure function, every number of processes, methods 'con' and 'alt', with or without a root", "why_tests_cant": "the number of processes and list lengths are unbounded; a test fixes both", "anchors": ["caput/util/mpitools.py:parallel_map"]}
{"id": "C04", "title": "redistribute preserves the global array", "statement": "MPIArray.redistribute(axis) moves data between processes without changing it: the element at global index (i,j) before the call is the element at global index (i,j) after the call, each process holds exactly its block of the new axis, and nothing left over in the exchange buffers from an earlier step ends up in the result. Redistributing to another axis and back gives the original local arrays. The array returned says that it is distributed over the axis asked for; an axis that does not exist is refused.", "quantifier": "every number of processes, every pair of axis lengths (including shorter than the process count, and zero), every array content, every initial content of the scratch buffers", "why_tests_cant": "needs all combinations of process count and axis lengths; tests run one MPI size and a few shapes", "anchors": ["caput/mpiarray.py:MPIArray.redistribute"]}
{"id": "C05", "title": "gather and allgather return the global array", "statement": "MPIArray.gather(rank) gives the root an array equal to the concatenation of the local blocks in rank order along the distributed axis and None elsewhere; allgather gives every process that same array.", "quantifier": "every number of processes, every distributed axis length, every content, every choice of root", "why_tests_cant": "process count and shapes are unbounded", "anchors": ["caput/mpiarray.py:MPIArray.gather", "caput/mpiarray.py:MPIArray.allgather"]}
{"id": "C06", "title": "transpose_blocks moves the split from rows to columns", "statement": "transpose_blocks(row_array, shape): if each process passes in its contiguous block of rows of a global matrix, then afterwards process r holds, for every row, exactly the columns in r's block, in order.", "quantifier": "every number of processes, every number of rows, middle size and columns, every content", "why_tests_cant": "process count and shape are unbounded and the bug class is an off-by-one in a block boundary", "anchors": ["caput/util/mpitools.py:transpose_blocks"]}
{"id": "C07", "title": "wrap accepts exactly canonical layouts and decides collectively", "statement": "MPIArray.wrap(array, axis) returns an MPIArray exactly when the local lengths along the axis on all processes are the block lengths that the total length would be split into; otherwise every process raises AxisException, not only the one with the wrong length.", "quantifier": "every number of processes, every assignment of local lengths", "why_tests_cant": "quantifies over every tuple of local lengths; a mixed outcome deadlocks the job", "anchors": ["caput/mpiarray.py:MPIArray.wrap"]}
{"id": "C08", "title": "global_slice agrees with slicing the global array", "statement": "Indexing an MPIArray through global_slice along the distributed axis with slice(start, stop) (no step) selects on each process exactly those of its own elements whose global index Python would select from the global array, so the concatenation over processes equals numpy slicing of the global array; the same holds for integer indices and for slices with a step. Anything that numpy takes between the brackets is understood the same way, and values assigned to a selection are stored in its elements, each on the process that has it.", "quantifier": "every global length, process count, start, stop, step and integer index, negative values included", "why_tests_cant": "start/stop/step range over all integers and interact with every block boundary", "anchors": ["caput/mpiarray.py:_global_resolver"]}
{"id": "C09", "title": "MPI-IO partitioning covers the local data within the size limit", "statement": "When a collective HDF5 read or write has to be broken up, the list of slices covers the chosen axis contiguously from 0 to its length exactly once, is the same on every process, is never along the distributed axis, and no piece exceeds the byte threshold on any process; when it need not be broken up there is a single slice over the whole first axis; it is refused exactly when no other axis is long enough.", "quantifier": "every array shape, distributed axis, item size, process count and threshold for which a partition exists", "why_tests_cant": "a gap silently writes an incomplete file; depends on products of unbounded sizes", "anchors": ["caput/mpiarray.py:MPIArray._partition_io"]}
{"id": "C10", "title": "Distributed reads with a selection read the selected global array", "statement": "When a dataset is read in a distributed fashion with a slice selection on the distributed axis, the number of selected elements is computed correctly and process r reads exactly its block of the selected sequence, so the distributed result is the selection of the file's dataset.", "quantifier": "every file axis length, every slice selection (start, stop, step of either sign), every process count", "why_tests_cant": "slices range over all integers; tests use a few positive-step slices", "anchors": ["caput/mpiarray.py:_len_slice", "caput/mpiarray.py:_reslice", "caput/mpiarray.py:_partition_sel", "caput/mpiarray.py:MPIArray.from_file"]}
{"id": "C11", "title": "Distributed reshape keeps the global element order", "statement": "MPIArray.reshape(shape) with None marking the distributed axis either raises or gives local arrays such that the result is the block-distributed form of the reshaped global array: the distributed axis keeps its length and offset, and every element keeps its global row-major position. The accept/raise decision is the same on all processes.", "quantifier": "every global shape, target shape, distributed axis and process count", "why_tests_cant": "shapes are unbounded and the interesting cases (empty local blocks, wildcard) appear only for particular process counts", "anchors": ["caput/mpiarray.py:MPIArray.reshape"]}
{"id": "C12", "title": "Integer bit truncation bounds the error and rounds to nearest-even", "statement": "bit_truncate_int(val, err) and bit_truncate_long(val, err) return val when err is 0, and otherwise a multiple of 2^k, where 2^k is the smallest power of two greater than err, that is a nearest such multiple (ties to the even one); hence the change is at most err. Truncating an already truncated value with the same err changes nothing.", "quantifier": "every 32 bit (64 bit) value and every err in the documented range for which the result does not leave the integer range", "why_tests_cant": "2^64 (2^128) input pairs", "anchors": ["caput/util/truncate.hpp:bit_truncate", "caput/util/truncate.hpp:bit_truncate_64", "caput/util/truncate.pyx:bit_truncate_int"]}
{"id": "C13", "title": "Float and double bit truncation bounds the error", "statement": "bit_truncate_float(val, err) and bit_truncate_double(val, err) return a number that differs from val by at most err, has the same sign (or is zero), and equals val when err is 0.", "quantifier": "every finite bit pattern and every non-negative err", "why_tests_cant": "2^64 or 2^128 input pairs; the failing exponents are two out of 256 or 2048", "anchors": ["caput/util/truncate.hpp:_bit_truncate_float", "caput/util/truncate.hpp:_bit_truncate_double"]}
{"id": "C14", "title": "Array truncation respects the per-element tolerance", "statement": "bit_truncate_relative changes each element by at most prec*|element|; bit_truncate_weights changes each element by at most 1/sqrt(weight), or by at most fallback*|element| where the weight is zero; bit_truncate_max_complex changes each real and imaginary part by at most max(prec*|element|, prec_max_row*row maximum).", "quantifier": "every array content, every weight, every precision >= 0", "why_tests_cant": "the tolerance is per element and depends on sign, weight and row maximum", "anchors": ["caput/util/truncate.pyx:bit_truncate_weights", "caput/util/truncate.pyx:bit_truncate_relative", "caput/util/truncate.pyx:bit_truncate_max_complex"]}
{"id": "C15", "title": "The median tree stays a balanced search tree with correct weights", "statement": "After any sequence of inserts and removals on the tree behind the moving weighted median, the tree holds exactly the multiset of inserted-and-not-removed (value, weight) items in sorted order, sibling heights differ by at most one everywhere (so the height is logarithmic in the size), and every cached height and weight is right.", "quantifier": "every finite sequence of insert and remove operations", "why_tests_cant": "the invariant must hold after every operation history; rebalancing cases are numerous", "anchors": ["caput/algorithms/median/MedianTree.hpp:Tree"]}
{"id": "C16", "title": "The tree's weighted median is the weighted median of its contents", "statement": "For positive weights the median reported by the tree is, for method 'split', the element at which the cumulative weight crosses half of the total, or the mean of the two neighbours when half of the total falls exactly between them; for 'lower' and 'higher', the lower or upper of those two neighbours.", "quantifier": "every non-empty content with positive weights, every tree shape reachable by inserts and removals", "why_tests_cant": "depends on the history through the tree shape", "anchors": ["caput/algorithms/median/MedianTree.hpp:weighted_median"]}
{"id": "C17", "title": "moving_weighted_median in one dimension is the window-wise weighted median", "statement": "Output i of moving_weighted_median(data, weights, size) depends only on the elements with index in [i-size//2, i+size//2] clipped to the array and with non-zero weight, and is their weighted median; positions whose window has no weight give NaN. Even or zero sizes are errors.", "quantifier": "every array length, content, non-negative weights and odd window size, including windows larger than the array", "why_tests_cant": "the incremental tree update must not drift for any length of history", "anchors": ["caput/algorithms/median/weighted.pyx:_mwm_1D", "caput/algorithms/median/weighted.pyx:moving_weighted_median"]}
{"id": "C18", "title": "moving_weighted_median in two dimensions is the window-wise weighted median", "statement": "Output (i,j) is the weighted median over the clipped rectangular window centred on (i,j), NaN when the window holds no weight, whichever way the window is oriented.", "quantifier": "every array shape, content, non-negative weights and odd window sizes", "why_tests_cant": "the serpentine update order gives a long history per output", "anchors": ["caput/algorithms/median/weighted.pyx:_mwm_2D"]}
{"id": "C19", "title": "quantile returns a weighted quantile", "statement": "quantile(A, W, q, method) terminates and returns an element a of A (or the mean of two adjacent ones when q*total falls exactly between them) such that the weight strictly below a is at most q*total and the weight at or below a is at least q*total. All-zero weights are treated as equal weights. Mismatched shapes and q outside [0,1] raise.", "quantifier": "every non-empty array, every non-negative weight vector of the same length, every q in [0,1], every method", "why_tests_cant": "in-place partitioning with arbitrary ties and zero weights; termination needs a proof", "anchors": ["caput/algorithms/median/weighted.pyx:_quickselect_weight", "caput/algorithms/median/weighted.pyx:quantile"]}
{"id": "C20", "title": "Every task is driven through setup, next*, finish in that order", "statement": "In a pipeline run, for every task the sequence of user hooks called is a prefix of: setup, then any number of next, then finish, where setup and next may be skipped together (a task whose requirements never arrive only gets finish); in a run that ends normally every task has had finish called exactly once, as its last hook, and nothing happens afterwards.", "quantifier": "every list of tasks, every wiring, every behaviour of the user hooks (outputs, stop requests), every length of run", "why_tests_cant": "the schedule depends on queue sizes and priorities in unboundedly many ways", "anchors": ["caput/pipeline/_pipeline.py:Manager.runner", "caput/pipeline/_pipeline.py:Task._pipeline_next", "caput/pipeline/_pipeline.py:Task._pipeline_advance_state"]}
{"id": "C21", "title": "Products are delivered exactly once, in order", "statement": "The sequence of products a task has received on an input key, followed by those still queued for it, is exactly the sequence of products emitted under matching keys while the task was accepting input, in emission order; nothing is duplicated, reordered or invented.", "quantifier": "every pipeline, every run, every point in the run", "why_tests_cant": "an invariant over all schedules", "anchors": ["caput/pipeline/_pipeline.py:Manager.runner", "caput/pipeline/_pipeline.py:Task._pipeline_queue_product"]}
{"id": "C22", "title": "A pipeline whose sources stop terminates", "statement": "If every task returns products from next only finitely often, and every task without inputs returns None only finitely often before it asks to stop, then the run reaches its end after a number of steps bounded by the wiring and these numbers: the scheduler never spins without making progress.", "quantifier": "every pipeline, every finite behaviour of the hooks", "why_tests_cant": "liveness over unbounded runs", "anchors": ["caput/pipeline/_pipeline.py:Manager.runner", "caput/pipeline/_pipeline.py:Manager._next_task"]}
{"id": "C23", "title": "No product is lost when producers are listed before consumers", "statement": "If every task that produces the key a single-input task consumes is listed before it, and that task was set up, did not ask to stop and did not reach its output limit, then in a run that ends normally it has been called with every product emitted under the key, in order; a task with several inputs has used up at least one of them.", "quantifier": "every pipeline in topological order, every hook behaviour, every run", "why_tests_cant": "end-of-stream handling depends on the order in which tasks finish", "anchors": ["caput/pipeline/_pipeline.py:Manager.runner", "caput/pipeline/_pipeline.py:Manager._next_task"]}
{"id": "C24", "title": "limit_outputs is respected", "statement": "A task with limit_outputs = n emits at most n products from next, and is moved to its finish stage directly after the n-th.", "quantifier": "every n, every hook behaviour, every schedule", "why_tests_cant": "counter kept across an unbounded run", "anchors": ["caput/pipeline/_pipeline.py:Task._pipeline_next"]}
{"id": "C25", "title": "Wiring errors are found before anything runs", "statement": "A task list is accepted by validation exactly when no output key is named twice and every in and requires key is produced by some task; otherwise a configuration error is raised before any task hook runs. Tasks that are set up have as many keys as their hooks take arguments.", "quantifier": "every list of tasks and keys", "why_tests_cant": "quantifies over all wirings", "anchors": ["caput/pipeline/_pipeline.py:Manager._validate_task_inputs", "caput/pipeline/_pipeline.py:Manager.add_task"]}
{"id": "C26", "title": "read_config sets each property from its own key, derived classes overriding base classes", "statement": "After a successful Reader.read_config(config), every declared property whose key is present holds the converted value given by the most derived declaration of that attribute, every other property still yields its default, and unknown keys are reported when requested. A call that raises leaves the object unchanged.", "quantifier": "every class hierarchy, every configuration mapping, every converter", "why_tests_cant": "class hierarchies and converters are arbitrary", "anchors": ["caput/config.py:Reader.read_config", "caput/config.py:Property"]}
{"id": "C27", "title": "Validated config types accept exactly what they document", "statement": "float_in_range(a,b) accepts exactly the numbers in [a,b]; enum(options) accepts exactly the options; list_type(type_, length, maxlength) accepts exactly lists with those element types and lengths; file_format accepts exactly 'hdf5', 'zarr', a FileFormat class and None; logging_config accepts exactly a level name or a mapping of names to level names, and returns the levels in upper case.", "quantifier": "every value offered and every parameter of the type", "why_tests_cant": "all possible values", "anchors": ["caput/config.py:float_in_range", "caput/config.py:enum", "caput/config.py:list_type", "caput/pipeline/extensions/_configtypes.py:file_format"]}
{"id": "C28", "title": "Locked writes are atomic under a crash", "statement": "When a file is written inside lock_file(name), then whatever the point at which the process dies, a reader of name finds either the complete old state (the old file, or no file) or the complete new file, never a partial one; the new file appears only if the body finished.", "quantifier": "every crash point, every sequence of partial writes by the body, every previous state of the directory", "why_tests_cant": "crash points cannot be enumerated by unit tests", "anchors": ["caput/memdata/_io.py:lock_file"]}
{"id": "C29", "title": "lock_file cleans up after itself", "statement": "After leaving a lock_file block, normally or by an exception, the lock file is gone; on an exception the destination is untouched, the temporary file is gone (kept exactly when preserve is set), and the original exception propagates.", "quantifier": "every body outcome, every previous directory state, preserve on or off", "why_tests_cant": "includes bodies that fail before creating the temporary file", "anchors": ["caput/memdata/_io.py:lock_file"]}
{"id": "C30", "title": "In-memory tree paths resolve like HDF5 paths", "statement": "In a MemGroup, paths that differ only in repeated or trailing slashes name the same object; after create_group(path) every prefix of path is a group; after create_dataset(path, data) a lookup of path gives that data; and no lookup of an unrelated path changes.", "quantifier": "every tree, every path", "why_tests_cant": "paths and trees are unbounded", "anchors": ["caput/memdata/_memh5.py:format_abs_path", "caput/memdata/_memh5.py:MemGroup.create_group", "caput/memdata/_memh5.py:MemGroup.create_dataset", "caput/memdata/_memh5.py:_StorageRoot.__getitem__"]}
{"id": "C31", "title": "Creation never destroys existing data; deletion removes exactly the subtree", "statement": "create_group on an existing name raises and leaves the tree unchanged; create_dataset never replaces an existing object without an error; require_group and require_dataset return the existing object unchanged when it matches; deleting a path removes that path and everything below it and nothing else.", "quantifier": "every tree, every path, every operation history", "why_tests_cant": "histories and trees are unbounded", "anchors": ["caput/memdata/_memh5.py:MemGroup.create_group", "caput/memdata/_memh5.py:MemGroup.create_dataset", "caput/memdata/_memh5.py:_BaseGroup.__delitem__", "caput/memdata/_memh5.py:_BaseGroup.require_group"]}
{"id": "C32", "title": "Deep copy reproduces the tree, and writes to the copy do not reach the original", "statement": "deep_group_copy(g1, g2) into an empty group reproduces every group, dataset and attribute (with selections applied to the selected datasets and to no other); afterwards, changing either tree leaves the other unchanged, except for datasets explicitly listed as shared.", "quantifier": "every tree, every selection, every set of shared names, every later write", "why_tests_cant": "trees and later histories are unbounded", "anchors": ["caput/memdata/_memh5.py:deep_group_copy", "caput/memdata/_memh5.py:copyattrs"]}
{"id": "C33", "title": "Attributes survive a write and read", "statement": "Writing attributes with conversion on and reading them back gives equal values (numbers, strings, dictionaries and nested lists), for every attribute.", "quantifier": "every attribute value of the supported kinds", "why_tests_cant": "all strings, including those that look like encoded values", "anchors": ["caput/memdata/_memh5.py:copyattrs"]}
{"id": "C34", "title": "Converting between common and distributed datasets keeps the data", "statement": "dataset_common_to_distributed(name, axis) gives a dataset whose global content is the common dataset, and dataset_distributed_to_common undoes it.", "quantifier": "every shape, axis, content and process count", "why_tests_cant": "depends on axis and process count", "anchors": ["caput/memdata/_memh5.py:MemGroup.dataset_common_to_distributed", "caput/memdata/_memh5.py:MemGroup.dataset_distributed_to_common"]}
{"id": "C35", "title": "Concatenating time-ordered data with start and stop is slicing the concatenation", "statement": "concatenate(data_list, start=a, stop=b) returns time-ordered datasets equal to the Python slice [a:b] of the end-to-end concatenation of the inputs, for the time axis and for every time-ordered dataset.", "quantifier": "every list of inputs of any lengths (zero included), every start and stop including None and negative", "why_tests_cant": "start/stop interact with every piece boundary", "anchors": ["caput/containers/tod.py:concatenate", "caput/containers/tod.py:_start_stop_inds", "caput/containers/tod.py:_get_in_out_slice"]}
{"id": "C36", "title": "Time range selection brackets exactly the requested interval", "statement": "select_time_range(start, stop) on sorted times selects exactly the samples t with start <= t < stop.", "quantifier": "every sorted time axis, every start and stop", "why_tests_cant": "all time axes", "anchors": ["caput/containers/tod.py:TODReader.select_time_range"]}
{"id": "C37", "title": "Container dataset specifications are inherited like Python attributes", "statement": "The dataset specification of a container class contains every dataset declared in any of its bases, and where several classes declare the same name the definition of the class that comes first in the method resolution order wins; the axes are the union of the declared axes.", "quantifier": "every class hierarchy (chains and diamonds), every set of declarations", "why_tests_cant": "hierarchies are unbounded", "anchors": ["caput/containers/_core.py:ContainerPrototype._class_dataset_spec", "caput/containers/_core.py:ContainerPrototype._class_axes"]}
{"id": "C38", "title": "History is an append-only ordered log", "statement": "After any sequence of add_history(name, value) calls the recorded order is the sequence of names used, every entry can be read back with the last value given for it, and the name 'order' is refused without changing anything.", "quantifier": "every sequence of calls", "why_tests_cant": "histories are unbounded", "anchors": ["caput/containers/_core.py:Container.add_history", "caput/containers/_core.py:Container.history"]}
{"id": "C39", "title": "copy_datasets_filter copies exactly the selected data and leaves its arguments alone", "statement": "copy_datasets_filter(source, dest, axis, selection) copies a dataset exactly when it has a filtered axis (or copying without selection was asked for) and no excluded axis; the copied values are the source values with each selection applied along its axis; a copied dataset gets the attributes of its source with equal values; the selection passed by the caller is not modified, and the datasets of the source stay distributed as they were.", "quantifier": "every set of datasets and axes, every kind of selection (slice, list, index array)", "why_tests_cant": "selections are arbitrary", "anchors": ["caput/containers/_util.py:copy_datasets_filter"]}
{"id": "C40", "title": "String dtype conversion changes string fields and nothing else", "statement": "dtype_to_unicode and dtype_to_bytestring keep field names, order, nesting, shapes and all non-string fields, and convert every string field; has_unicode and has_bytestring answer whether any field at any depth has that kind; converting to bytes and back gives the original type.", "quantifier": "every (nested, sub-array) structured dtype", "why_tests_cant": "dtypes are an unbounded recursive family", "anchors": ["caput/util/typeutils.py:_convert_dtype", "caput/util/typeutils.py:has_kind"]}
{"id": "C41", "title": "bytes_to_unicode removes all byte strings and is idempotent", "statement": "bytes_to_unicode(x) contains no byte strings at any depth of standard collections, leaves everything else unchanged, keeps the shape of the collections, and applying it again changes nothing.", "quantifier": "every nested collection", "why_tests_cant": "unbounded nesting", "anchors": ["caput/util/typeutils.py:bytes_to_unicode"]}
{"id": "C42", "title": "unique_ordered keeps the first occurrence of each element in order", "statement": "The result has no duplicates, has the same set of elements as the input, and orders them by first occurrence; applying it twice changes nothing.", "quantifier": "every sequence", "why_tests_cant": "all sequences", "anchors": ["caput/util/arraytools.py:unique_ordered"]}
{"id": "C43", "title": "The array cache never exceeds its byte budget and evicts the least recently used", "statement": "After any sequence of get, set and delete calls on the LRU cache the total bytes held is at most maxsize; a lookup returns the last value stored under the key if it is still held; items are dropped only when needed to make room and then the least recently used first; items larger than the budget are refused.", "quantifier": "every operation sequence, every item size", "why_tests_cant": "histories are unbounded", "anchors": ["caput/util/arraytools.py:LRUCache"]}
{"id": "C44", "title": "AccumulateList groups the stream without losing order", "statement": "With group_size = g, the task's outputs concatenated are a prefix of its inputs, each output has exactly g items and fewer than g trailing inputs are left out; without group_size the single output at the end is the whole input stream.", "quantifier": "every input stream, every g >= 1", "why_tests_cant": "streams are unbounded", "anchors": ["caput/pipeline/tasklib/flow.py:AccumulateList"]}
{"id": "C45", "title": "Axis selections resolve by the documented precedence", "statement": "For each axis the range selection takes precedence over the index selection, which takes precedence over the map selection, whatever the order of keys in the configuration; malformed keys or values raise.", "quantifier": "every selections mapping, axis names containing underscores included", "why_tests_cant": "all mappings", "anchors": ["caput/pipeline/tasklib/io.py:SelectionsMixin"]}
{"id": "C46", "title": "Job submission never clobbers a job it should not", "statement": "queue() with overwrite 'never' does nothing when the job exists (pending, running, crashed or finished, also after it has been moved to its final directory), so a job is submitted at most once; with 'failed' only jobs that failed are queued again; otherwise it proceeds, and a call that raised can be repeated. Template expansion generates exactly one run per combination of variable values, and the command template-run starts them all.", "quantifier": "every history of queue calls and job status changes, every status content, every variable assignment", "why_tests_cant": "all states and assignments", "anchors": ["caput/pipeline/runner/_scheduler/__init__.py:_create_job_directories", "caput/pipeline/runner/_core.py:_from_template"]}
{"id": "C47", "title": "invert_no_zero inverts or returns zero, and never produces infinity from a finite number", "statement": "For finite x, invert_no_zero(x) is 0 when |x| is below the smallest invertible magnitude and 1/x otherwise, and is always finite.", "quantifier": "every finite double (float, complex)", "why_tests_cant": "2^64 inputs; the failing one is a single magnitude", "anchors": ["caput/algorithms/_invert_no_zero/_invert_no_zero.pyx:_invert_no_zero"]}
{"id": "C48", "title": "total_size counts every reachable object once", "statement": "total_size(obj) terminates on cyclic structures and equals the sum of the sizes of the distinct objects reachable from obj.", "quantifier": "every finite object graph, shared references and cycles included", "why_tests_cant": "object graphs are unbounded", "anchors": ["caput/util/objecttools.py:total_size"]}
{"id": "C49", "title": "allequal is an equivalence", "statement": "allequal is reflexive, symmetric and transitive on nested dictionaries, lists, tuples, numpy arrays and scalars, treats lists and tuples with equal items as equal, and ignores dictionary order.", "quantifier": "every pair and triple of nested values", "why_tests_cant": "unbounded nesting", "anchors": ["caput/util/objecttools.py:allequal"]}
{"id": "C50", "title": "Multithreaded random generation is schedule independent", "statement": "For a given seed and thread count, MultithreadedRNG methods return the same array whatever order the threads run in, every element of the output is written exactly once, and a given out array is filled.", "quantifier": "every array size, thread count and interleaving of the threads' writes", "why_tests_cant": "thread interleavings", "anchors": ["caput/algorithms/random.py:MultithreadedRNG._build_method"]}
{"id": "C51", "title": "Parallel row writes produce the dataset", "statement": "parallel_rows_write_hdf5 leaves in the file, at the dataset's location, the row blocks of all processes in rank order.", "quantifier": "every process count, row and column count, item size and dataset offset", "why_tests_cant": "depends on byte offsets for all shapes and item sizes", "anchors": ["caput/util/mpitools.py:parallel_rows_write_hdf5", "caput/util/mpitools.py:lock_and_write_buffer"]}
{"id": "C52", "title": "The NaN check sees every dataset and all processes agree", "statement": "The NaN/Inf check of a container task reports a problem exactly when some numeric dataset at any depth on any process holds a NaN or an infinity, and reports the same on every process; a container skipped for NaNs is not passed on.", "quantifier": "every container tree on every process", "why_tests_cant": "trees and process counts are unbounded", "anchors": ["caput/pipeline/tasklib/base.py:ContainerTask._nan_check_walk", "caput/pipeline/tasklib/base.py:ContainerTask._nan_process_output"]}
{"id": "C53", "title": "The root search looks at intervals no wider than the requested step", "statement": "The grid on which the observer root finder looks for sign changes covers the whole interval with spacing at most dx, and each sign change between neighbouring grid points is reported once with its direction.", "quantifier": "every interval, every dx, every function", "why_tests_cant": "all intervals and steps", "anchors": ["caput/astro/observer.py:_solve_all"]}
{"id": "C54", "title": "Zip jobs are shared out over hosts exactly once", "statement": "Exactly one process per host takes part in zipping, and every container in the list is zipped by exactly one process.", "quantifier": "every mapping of processes to hosts, every container list", "why_tests_cant": "all host layouts", "anchors": ["caput/pipeline/tasklib/io.py:ZipZarrContainers"]}
{"id": "C55", "title": "Locked writes at the same time do not disturb each other", "statement": "If any number of processes write files inside lock_file blocks at the same time, with their system calls interleaved in any way and some of them failing, then for different names each block behaves as if it were alone: at any time a reader finds the file that was there before or the complete new one, all files of blocks that succeed are published complete, and no temporary or lock file is left. For the same name a reader finds one of the complete files.", "quantifier": "every number of processes, all names, every sequence of partial writes, with or without an exception, every interleaving and every point of it", "why_tests_cant": "number of interleavings and of names", "anchors": ["caput/memdata/_io.py:lock_file"]}
{"id": "C56", "title": "A file written jointly by several processes is published only when all have finished", "statement": "When all ranks of a communicator write one file inside lock_file(name, comm=comm), the file appears under its name only with the changes of every rank, whatever the order in which the ranks finish.", "quantifier": "every number of ranks, every sequence of changes, every order of finishing", "why_tests_cant": "depends on scheduling between processes", "anchors": ["caput/memdata/_io.py:lock_file", "caput/pipeline/extensions/_extensions.py:GroupIOMixin.write_output"]}
{"id": "C57", "title": "A complete cluster configuration yields a job script", "statement": "For each built-in queue system, a configuration with all keys that the system requires (with values of the right type) yields a job script without an exception, and the launch command and its arguments default to those of the system.", "quantifier": "every configuration with the required keys, whatever other keys it has", "why_tests_cant": "configurations are an unbounded family, and a test needs a scheduler", "anchors": ["caput/pipeline/runner/_scheduler/__init__.py:_resolve_job_script", "caput/pipeline/runner/_scheduler/__init__.py:_resolve_system_config", "caput/pipeline/runner/_scheduler/_default_systems.toml"]}
{"id": "C58", "title": "invert_no_zero works element by element and fills out", "statement": "invert_no_zero(x) has the shape of x and at every index the inverse of x at that index, whatever the memory layout of x. With out given, out is filled in the same way and returned; an out of another shape raises ValueError.", "quantifier": "every array-like x and every array out, of any shape and memory layout", "why_tests_cant": "pairs of layouts are not enumerated by the tests, which never pass out", "anchors": ["caput/algorithms/_invert_no_zero/__init__.py:invert_no_zero"]}
{"id": "C59", "title": "Multithreaded random methods follow numpy's calling convention", "statement": "A call of a MultithreadedRNG method means the same as the call of the numpy method it replaces: every distribution parameter has the value given for it by position or keyword, the result has the data type numpy would give it, and a given out array is the one that is filled.", "quantifier": "all methods in the table, all positional and keyword arguments numpy accepts, all sizes", "why_tests_cant": "The combinations of positional and keyword arguments, sizes on both sides of the threshold and optional arguments are unbounded; tests check a few calls per method.", "anchors": ["caput/algorithms/random.py:71-81", "caput/algorithms/random.py:146-221"]}
{"id": "C60", "title": "Transposing a distributed array", "statement": "transpose() of a distributed array, with any order of the axes that numpy accepts, gives on every process its block of the transposed global array, distributed over the axis to which the distributed axis was moved; orders that do not name every axis exactly once are refused. Reversing the axes twice gives the original back.", "quantifier": "all global shapes, distributed axes, numbers of processes, ranks and axis arguments", "why_tests_cant": "Shapes, axis orders, spellings of an axis and process counts are unbounded; tests use one or two arrays on a fixed number of processes.", "anchors": ["caput/mpiarray.py:1362-1395", "caput/mpiarray.py:2049-2106"]}
{"id": "C61", "title": "Universal functions on distributed arrays", "statement": "A universal function called with distributed arrays, numpy arrays and scalars gives on every process its block of the function applied to the global arrays, provided the distributed axes broadcast to the same place and have the same length; a given out array is filled likewise; other combinations raise on every process.", "quantifier": "all element functions, numbers and shapes of arguments, distributed axes, numbers of processes and ranks", "why_tests_cant": "Combinations of argument kinds, shapes with broadcasting and process counts are unbounded; whether local shapes match by accident depends on the number of processes.", "anchors": ["caput/mpiarray.py:1768-1995", "caput/mpiarray.py:643-687"]}
{"id": "C62", "title": "Reductions and accumulations of distributed arrays", "statement": "A reduction (sum, max, ...) over axes other than the distributed one gives on every process its block of the reduced global array; with axis=None it gives a distributed vector with one element per process, and a.sum().allreduce() is the sum over the whole global array on every process. An accumulation along another axis gives the block of the accumulated global array. Reducing or accumulating along the distributed axis is refused.", "quantifier": "all reduction functions, shapes, axis arguments, keepdims, distributed axes, numbers of processes and ranks", "why_tests_cant": "Shapes, sets and spellings of axes and process counts (including empty blocks) are unbounded; that the partial results combine to the global one is a statement about all splits.", "anchors": ["caput/mpiarray.py:1997-2047", "caput/mpiarray.py:1768-1925", "caput/mpiarray.py:856-885"]}
{"id": "C63", "title": "Indexing a distributed array", "statement": "Indexing a distributed array with anything that leaves its distributed axis whole gives on every process its block of the indexed global array, distributed over the axis which that one became; an index that selects along the distributed axis gives a plain view of the local array; malformed indices raise IndexError.", "quantifier": "all shapes, distributed axes, index tuples, numbers of processes and ranks", "why_tests_cant": "Index tuples mix integers, slices, new axes, an ellipsis and lists in unboundedly many ways, and whether a slice looks whole depends on the number of processes.", "anchors": ["caput/mpiarray.py:435-499", "caput/mpiarray.py:2394-2484", "caput/mpiarray.py:2049-2106"]}
{"id": "C64", "title": "A container is built with the axes, datasets and attributes asked for", "statement": "Constructing a container class succeeds exactly when every axis of the class is defined (by a keyword or by the container axes are taken from) and the datasets to be made or copied fit; otherwise it raises, with RuntimeError for an axis without definition. Afterwards every axis of the class has the values given (0 to n-1 for an integer n, otherwise those of the keyword or of the source container) and there are no other axes. A dataset of the specification is present if and only if it is marked initialise (and skip_datasets is not set) or it is copied because the source container has it and none of its axes was given explicitly. Every dataset has the shape its axes give, names its axes, and is distributed over the specified axis (else the first) exactly when the container is distributed and the specification does not forbid it; a copied dataset holds the elements of its source on every process, a new one is zero. The attributes of the container, of copied axes and of datasets are those of the container attributes are taken from, except that the recorded class is that of the new container.", "quantifier": "all axis lists, dataset specifications with distinct names, sets of keywords, source containers, numbers of processes and ranks, element conversions", "why_tests_cant": "The outcome depends on the combination of keywords, up to four source containers, per-dataset flags, axis lengths and the process layout; tests build a few containers on one process.", "anchors": ["caput/containers/_core.py:ContainerPrototype.__init__", "caput/containers/_core.py:ContainerPrototype.add_dataset", "caput/mpiarray.py:MPIArray.__new__", "caput/memdata/_memh5.py:copyattrs"]}
{"id": "C65", "title": "Loading a container with selections along its axes", "statement": "Loading a container file with keyword arguments <axis>_sel (a slice or a list of positions) gives every dataset of the container restricted, along each of its axes, to the positions asked for that axis, and the index map of each selected axis restricted to the same positions; axes without a selection and datasets without selected axes are loaded whole. So the lengths of datasets and index maps that agree in the file agree after loading. This holds for common datasets and, on each process, for its block of a distributed dataset. A selection along an axis that the container does not have is refused.", "quantifier": "all container classes, all files with any number of datasets and axes, all selections, both file formats, any number of processes, distributed or not", "why_tests_cant": "A test loads one file with one or two selections; the claim is about every combination of datasets, axes, selections, formats and process counts, and about all elements.", "anchors": ["caput/containers/_core.py:655-699", "caput/memdata/_memh5.py:1838-1965", "caput/memdata/_memh5.py:2516-2558", "caput/memdata/_memh5.py:2837-2960", "caput/mpiarray.py:942-1087"]}
{"id": "C66", "title": "Redistributing a container moves each dataset to the first axis it has", "statement": "Redistributing a container over a list of axes (names or numbers) takes every distributed dataset in it, in whatever group, to the first axis of the list that the dataset has; a name stands for the first axis of the dataset with that label, a number for that axis, counted from the end if negative. Datasets that have none of the axes are left as they are and warned about, and exactly those; datasets that are not distributed and datasets of other containers do not change.", "quantifier": "all trees of groups and datasets, all lists of axes, all labels", "why_tests_cant": "Tests use one container with a few datasets at the root; the claim is about every tree, every list of axes and every mix of datasets.", "anchors": ["caput/containers/_core.py:202-266", "caput/memdata/_memh5.py:1552-1571"]}
{"id": "C67", "title": "Tasks over files handle each file once, in order", "statement": "A task that iterates over files (input_root, file_middles, extensions) reads the files in the order given, each exactly once, processes each before reading the next and writes every output that is not None to output_root + the same middle + output_ext; after the last file it stops without doing anything more. Fed by the pipeline instead, it processes every input after casting it, and writes the outputs to the names at the same places; an output for which no name is left is an error and is not dropped. A task that does not iterate does this once. A configuration is accepted exactly if process takes at most one plain argument and there is exactly one source for it, an in key or files.", "quantifier": "all lists of files, all inputs, all read, process and write functions of the user, all signatures of process", "why_tests_cant": "Tests run a task over two or three files with one process function; the claim is about every number of files, every mix of outputs that are None, and every pairing of names with outputs.", "anchors": ["caput/pipeline/extensions/_extensions.py:31-296", "caput/pipeline/extensions/_extensions.py:326-374"]}
{"id": "C68", "title": "Grouped tasks and flow tasks pass their objects on", "statement": "A task made by grouping tasks sets up the parts in order, each with its own arguments out of those given, and processes an input by running the parts in order, each on the output of the one before; groups can be nested in any way. Gathering tasks give their inputs as a list in the order of the keys, forwarding tasks give on what they are given, copying tasks give a copy of it.", "quantifier": "all lists of parts with any setup and process methods, all arguments and inputs", "why_tests_cant": "There are no tests of grouped tasks; a test would run one group, while the claim is about every number of parts and every split of the arguments over them.", "anchors": ["caput/pipeline/tasklib/base.py:646-694", "caput/pipeline/tasklib/flow.py:77-166"]}
{"id": "C69", "title": "Outputs of container tasks are tagged, checked and saved as configured", "statement": "For every output of a container task, the tags of the inputs, the tag and the configured attributes are set from the values the container had before, everything else about it is unchanged; outputs with NaNs are dumped and dropped if so configured; the others are saved if so configured, under the name the format string gives; all outputs are passed on in order. In the standard configuration the file is named by the tag of the output, else that of the first input, else the number of the output, and outputs with different tags, or numbered ones, do not overwrite each other.", "quantifier": "all configurations with formats of named fields, all process functions, all sequences of inputs, all attributes", "why_tests_cant": "Tests save a few outputs of one task and look at the files; the claim is about every configuration, every mix of tagged and untagged inputs and every number of outputs.", "anchors": ["caput/pipeline/tasklib/base.py:334-559"]}
{"id": "C70", "title": "Lists of files stand for the files named, and each is loaded once", "statement": "A list of file names, glob patterns and further lists in a configuration is accepted exactly if every name and every match is there (a directory for zarr stores, a file otherwise), and stands for those files in the order given, the matches of a pattern sorted, whatever the order in which the file system lists them. File groups stand for the files of their entries and have the tag given or group_ and their number. The loading task gives the contents of each file once, in order, tagged with the name of the file if there is no tag, and then stops.", "quantifier": "all file systems, all nestings of lists, names and patterns, all groups, all contents of files", "why_tests_cant": "Tests use a directory with a few files; the claim is about every nesting, every listing order and every set of file names.", "anchors": ["caput/pipeline/tasklib/io.py:49-190", "caput/pipeline/tasklib/io.py:376-422"]}
{"id": "C71", "title": "Truncating the datasets of a container", "statement": "The truncation task changes only the datasets the configuration (or, where it says nothing, the class of the container) selects. Without a weight dataset every value, and both parts of a complex one, changes by at most the fixed precision times itself. With one, the weight used for an element is that at the same place along the axes the two datasets share (twice that for complex data), and the square of the error is at most three times the configured increase of the variance; where the weight is zero the fixed precision holds.", "quantifier": "for all containers, configurations, class specifications, datasets with any axes and shapes, and weights", "why_tests_cant": "Tests truncate one container with one set of weights whose axes match; the broadcast by axis names, the precedence of the configuration and the bound for every value range over all containers and settings.", "anchors": ["caput/pipeline/tasklib/io.py:637-839"]}
{"id": "C72", "title": "Local stellar angle and local stellar day", "statement": "The local stellar angle lies in [0, 360) and is the angle of the observer meridian. Converting an angle to a UNIX time gives the next time at which the meridian has it, leap seconds included. The local stellar day is the number of turns since its zero, the next time with angle zero after the configured start day; its fraction is the angle at any time; it grows with time; and converting a stellar day back gives the time it came from, for twelve thousand years around the zero.", "quantifier": "for all observers, times, angles, steady rotations of the Earth and all placements of leap seconds at least two days apart", "why_tests_cant": "Tests try a few dates. Whether rounding the crude estimate ever picks the wrong whole day, or a leap second ever falls between search start and result, depends on every time in a range of thousands of years.", "anchors": ["caput/astro/observer.py:137-250", "caput/astro/time.py:92-154", "caput/astro/time.py:255-293", "caput/astro/constants.py:41-55"]}
{"id": "C73", "title": "Functions of time on numbers, lists and arrays", "statement": "The conversions between UNIX time, Earth rotation angle, stellar angle and stellar day, and the count of leap seconds, give a number for numbers and, for lists, tuples and arrays, an array whose elements are the results for the elements, in order; a number given with an array goes with each element; an empty sequence gives an empty array; an error for one element is an error for all.", "quantifier": "for all observers, all sequences of any length and all mixtures of numbers and sequences", "why_tests_cant": "The decorated functions call each other with numbers and arrays in turn; that every combination of forms and lengths gives the elementwise result is a statement about all lists, of which tests try a few.", "anchors": ["caput/util/arraytools.py:224-331", "caput/astro/time.py:92-154", "caput/astro/time.py:255-293", "caput/astro/observer.py:137-270", "caput/astro/skyfield.py:202-225"]}
{"id": "C74", "title": "File formats and compression settings mean the same everywhere", "statement": "All spellings of the bitshuffle filter (\"bitshuffle\", its number, its number as a string), of the codec LZ4 and of the block size give the same filter: in HDF5 the filter number with (block size, codec number), in Zarr Blosc with the codec name, shuffled bits and the same block size. The settings that an in-memory copy of a dataset gets mean, in either format, what those of the original do. Settings are refused exactly when they cannot be honoured. The format of a file follows from its name (suffix, or being a directory), and an explicit format, the type of the data and the name never contradict each other in an accepted combination. The `compression` property of a task changes exactly the datasets it names to what it says, leaves all others alone, and `False` removes chunks and compression everywhere; \"bitshuffle\" without options can always be written.", "quantifier": "for all values of compression, options, block sizes and codecs; all file names, requested formats and data; all containers and configuration dictionaries; with and without the compression libraries installed", "why_tests_cant": "Tests use one spelling and one format at a time; that no combination of spelling, option, name, explicit format and override changes the meaning or slips through is a statement over all of them.", "anchors": ["caput/memdata/fileformats.py:180-240", "caput/memdata/fileformats.py:271-336", "caput/memdata/fileformats.py:387-478", "caput/memdata/_memh5.py:2587-2610", "caput/pipeline/tasklib/base.py:446-492"]}
{"id": "C75", "title": "Dates, time strings and UNIX times agree", "statement": "UNIX time is the number of UTC seconds (86400 a day) since the beginning of 1970 in the Gregorian calendar; a datetime without a zone is UTC and one with a zone is converted. unix_to_datetime and datetime_to_unix are inverse to each other to half a microsecond over all years 1 to 9999, and other times are refused. The string made by datetime_to_timestr is read back by timestr_to_datetime as the same date and time without the fraction, whatever follows it, and the strings sort in the order of the times. ensure_unix gives the same for a time as a number, a datetime or a string, one by one or in a list. time_of_day lies in [0, 86400) and differs from the time by a whole number of days.", "quantifier": "for all UNIX times, all valid dates, times of day, microseconds and zones, all strings behind a time string, all lists of times", "why_tests_cant": "Leap years, ends of months and centuries, rounding at midnight and the order of strings concern every date of ten thousand years; tests look at a few.", "anchors": ["caput/astro/time.py:157-252", "caput/astro/time.py:296-377", "caput/util/arraytools.py:182-283"]}
{"id": "C76", "title": "Writing a distributed array to a file stores the whole array", "statement": "MPIArray.to_file (to_hdf5, to_zarr) called by all processes stores the global array under the name given: afterwards the dataset has the shape, type and every element of the array, whatever axis it is distributed over, for any number of processes (also with empty blocks), however transfers are divided and in whatever order they happen. A new dataset gets the chunks and compression asked for (or those set on the array); an existing one must have the same shape and type, otherwise RuntimeError and nothing is changed. No other dataset or file changes. Reading it back with from_file gives the same array, for any selection, axis and number of processes.", "quantifier": "for all arrays, shapes and axes, all numbers of processes, all limits on a transfer, all orders of the writes, all contents of the file before, all selections when reading back", "why_tests_cant": "Blocks, divisions of transfers and the order of parallel writes vary with the number of processes and the sizes; tests run a few processes on small arrays that are never divided.", "anchors": ["caput/mpiarray.py:1089-1360", "caput/mpiarray.py:1643-1701", "caput/mpiarray.py:2147-2187", "caput/mpiarray.py:2364-2391", "caput/memdata/_io.py:12-68"]}
{"id": "C77", "title": "A tree of groups and datasets that is saved can be read back", "statement": "Saving a MemGroup or container with to_file/save and reading it with from_file gives the same tree: the same groups, datasets, types, elements and attributes, and nothing else. Distributed datasets come back distributed over the same axis, each process having its block of the same array, for any number of reading processes, or as the whole array when the file is read in common form. Unicode strings come back if conversion is asked for in both calls, and are a TypeError if it is not when saving. Objects come back as objects of their class. No other file changes.", "quantifier": "for all trees, arrays, axes and attributes, all numbers of processes when saving and reading, HDF5 (parallel or not) and Zarr, all orders of parallel writes", "why_tests_cant": "Trees, distributions and numbers of processes when saving and when reading combine without bound; tests save a few small trees and read them with the same number of processes.", "anchors": ["caput/memdata/_memh5.py:502-680", "caput/memdata/_memh5.py:1704-1726", "caput/memdata/_memh5.py:2201-2257", "caput/memdata/_memh5.py:2440-2680", "caput/memdata/_memh5.py:2749-2960"]}
{"id": "C78", "title": "A reader of time ordered data lists what is there and reads what was selected", "statement": "TODReader lists exactly the datasets with a time axis that the files have, accepts exactly selections of those, and read() returns the selected ones: the selected samples of the files put end to end, the attributes, history and datasets without a time axis of the first file, and nothing else. At first everything is selected. TOData.time is the centre of every sample whatever the alignment of the stamps, also if there are gaps. start and stop given as dictionaries can be used again.", "quantifier": "for all lists of files alike except along time, all trees of groups and datasets, all time axes, selections of datasets and samples, all alignments and time stamps", "why_tests_cant": "Layouts of files, numbers of files and selections combine without bound; tests read a few flat files with one time axis.", "anchors": ["caput/containers/tod.py:47-71", "caput/containers/tod.py:150-309", "caput/containers/tod.py:380-443", "caput/containers/tod.py:618-715"]}
{"id": "C79", "title": "Spherical polar coordinates, unit vectors and great circles", "statement": "sph_to_cart gives the vector with the polar coordinates given (radius one if there are only two angles), and cart_to_sph its inverse: going there and back gives the same vector, and the same coordinates if the angles are in their ranges. sph_dot is the scalar product. The vectors of thetaphi_plane and thetaphi_plane_cart are unit vectors, right-handed with the direction of the point, along which theta and phi grow. norm_vec2 makes every vector a unit vector in the same direction. great_circle_points gives points at equal steps of angle on the shortest way between two points. cosine_rule is the distance of two points at the given radii and angle.", "quantifier": "for all real coordinates, all numbers of vectors and of points", "why_tests_cant": "The coordinates form a continuum, with poles, the origin and opposite points as special cases; tests compare a handful of vectors.", "anchors": ["caput/astro/coordinates/_spherical.pyx:15-203", "caput/astro/coordinates/_spherical.pyi"]}
{"id": "C80", "title": "Directions seen from the ground, angles on the sphere, and rotations", "statement": "sph_to_ground gives the components of the direction of a source to the east, to the north and up, and ground_to_sph gives hour angle and declination back. projected_distance is the component of a position in the direction of the source, for every position in arrays that fit together. sphdist is the angle between two directions: zero exactly if they are equal, symmetric, and with the triangle inequality. rotate_ypr turns a right-handed set of unit vectors about its third, then its first, then its second vector, and keeps it one.", "quantifier": "for all real hour angles, declinations, latitudes, longitudes, positions, rotation angles, and sets of right-handed unit vectors; for arrays of all lengths", "why_tests_cant": "Angles form a continuum with wrap-around, poles and the horizon as special cases; identities such as the triangle inequality quantify over all triples of directions.", "anchors": ["caput/astro/coordinates/spherical.py:27-181"]}
{"id": "C81", "title": "Discrete Fourier transforms and convolutions", "statement": "An FFT object made for a shape, a type of numbers and some axes transforms arrays of that shape and type: fft gives the discrete Fourier transform over exactly these axes (all if none are named, negative numbers from the end, repeated numbers once), ifft undoes it, fftconvolve gives the circular convolution of two arrays, fftwindow multiplies by a window in Fourier space, and with enough zeros at the ends the convolution does not go round. Anything else is refused with the exception in the documentation.", "quantifier": "for all numbers of axes, all shapes, all complex arrays, all selections of axes, all windows", "why_tests_cant": "The values range over a continuum, and shapes, numbers of axes and selections of axes have no bound; sample transforms do not show that the sums over different axes commute or that the padding is enough for every shape.", "anchors": ["caput/util/fftw.py"]}
{"id": "C82", "title": "Polyphase filter bank", "statement": "PFB.apply gives, for every run of ntap whole blocks of samples, all channels of the windowed samples: the Fourier transform of one block into which the taps have been added. The response of a channel to a tone is the one in compute_channel_profile, with frequencies in order around the centre of the channel, and evaluate_channel_profile interpolates the profile with the normalisation asked for. decorrelation_ratio at a delay is the correlation of the window with itself moved by the delay, relative to no delay, and zero where they do not overlap.", "quantifier": "for all numbers of taps, lengths of blocks, oversampling factors, windows, time streams, tones and whole delays", "why_tests_cant": "Sizes have no bound, windows and samples are real numbers; which parities and which windows the zero padding is right for can only be settled for all of them at once.", "anchors": ["caput/util/pfb.py:82-284"]}
{"id": "C83", "title": "Tasks are made as the configuration asks for", "statement": "A pipeline built from a configuration has one task for each entry of the task list, in that order. Each task is of the class named by the entry; every property has the value given for it, converted: from the last of the named groups of parameters (or the inline parameters) that has it, or else from what all tasks are given, or else its default; no unknown parameter is accepted. Every list whose entries are correct is built. Every mistake in an entry (unexpected key, no or unknown class, missing group, unknown parameter) is a configuration error that tells the line of the entry.", "quantifier": "every document, task list, set of modules and classes, and every number of entries before and after the faulty one", "why_tests_cant": "documents, class hierarchies and parameter groups are unbounded; tests use a few small ones", "anchors": ["caput/pipeline/_pipeline.py:Manager._get_task_from_spec", "caput/pipeline/_pipeline.py:Manager._setup_tasks", "caput/util/importtools.py:import_class", "caput/pipeline/_pipeline.py:Task._from_config"]}
{"id": "C84", "title": "A pipeline document sets up the pipeline it describes", "statement": "From a YAML document with a mapping `pipeline` a manager is made whose options are those given (or the documented defaults), including the pattern that keys are compared with; whose tasks are those of its list `tasks`; whose tasks are all given the versions of exactly the modules named, and the whole document unless switched off; and logging has the levels given, none below INFO if the document is only checked. Anything else is a configuration error. The environment named in the document is put in front of the module path, from the directory of the running Python version.", "quantifier": "every document, set of modules, version of Python and module path", "why_tests_cant": "documents are unbounded, and the checks depend on the version of Python and on modules that are installed", "anchors": ["caput/pipeline/_pipeline.py:Manager.from_yaml_str", "caput/pipeline/_pipeline.py:Manager._setup_logging", "caput/pipeline/_pipeline.py:_get_versions", "caput/pipeline/runner/_core.py:_load_venv"]}
{"id": "C85", "title": "Profiles are complete and do not mix", "statement": "A block with a `Profiler` behaves as without. If profiling is on, every process leaves a file with its own profile in the directory asked for, the files have different names, and in alphabetical order they are in the order of the processes; no other file changes. `IOUsage` gives how much each counter grew, so that consecutive blocks add up. The table of a `PSUtilProfiler`, in the directory asked for, has its header once and then one row for each measurement, in order, and none for profilers that are not used; stopping before starting is a `RuntimeError` and adds nothing. The peak memory is at least the memory in use at the end. Sizes are shown in the unit that fits, without changing them.", "quantifier": "every number of processes, history of profilers, list of samples, and size", "why_tests_cant": "the number of processes and of profilers in one run are unbounded, and operations may come in any order", "anchors": ["caput/util/profiler.py:Profiler", "caput/util/profiler.py:IOUsage", "caput/util/profiler.py:PSUtilProfiler"]}
{"id": "C86", "title": "A job script runs the pipeline as asked", "statement": "The script of a queued job loads the modules asked for in order, after removing those loaded before if modules are asked for at all; it enters the virtual environment, which must exist; and it runs `caput-pipeline run` so that this reads the job's configuration, whether to profile, with which profiler, and whether to use `psutil`, as asked for in `queue`. The status is `FINISHED` if all commands succeed; after the first that fails nothing else is run, and the status is `CRASHED`. The job is submitted with the address and the type of mail if they are given.", "quantifier": "every list of modules and paths, set of options, path, and way for commands to fail", "why_tests_cant": "texts are unbounded and go through a shell and a command line before they have an effect", "anchors": ["caput/pipeline/runner/_scheduler/__init__.py:_create_job_environment_strings", "caput/pipeline/runner/_scheduler/__init__.py:queue", "caput/pipeline/runner/_cli.py:run", "caput/pipeline/runner/_scheduler/_default_systems.toml"]}
{"id": "C87", "title": "Tasks that choose files load the right one, and saved files stay", "statement": "LoadFilesAndSelect without a key format hands out its files in order and starts again after the last; with a key format it hands out the file whose key (the format filled in from the file's attributes) equals the key of the input, and None if there is none. What is handed out is what is in the file. LoadFilesFromAttrs loads the path with the input's attributes filled in; LoadFilesFromPathAndTag loads every path with every tag, paths outermost. Save writes every container to its own file.", "quantifier": "All lists of files, all contents and attributes, all sequences of inputs, all changes made to a container after it was handed out, all paths and tags (also with braces), all sequences of tagged and untagged containers.", "why_tests_cant": "A container that is handed out again is the same object as before, so what goes wrong depends on what later tasks did to it any number of calls ago; collisions of keys, tags and counters depend on the whole sequence.", "anchors": ["caput/pipeline/tasklib/io.py:337-373", "caput/pipeline/tasklib/io.py:425-634", "caput/pipeline/tasklib/base.py:334-440"]}
{"id": "C88", "title": "Containers saved as zip files are complete when waiting has ended", "statement": "Every container given to SaveZarrZip is zipped by one background job started by exactly one process. When WaitZarrZip ends without an error on a process, every zip file holds exactly the members of its container, and the directory is removed if and only if that was asked for. If zipping fails, the directory is kept and an error is raised on every process.", "quantifier": "All numbers of processes on all hosts, all numbers of containers, all interleavings of saves with the ends of jobs, all jobs failing or not, any files on disk before.", "why_tests_cant": "Jobs run in the background and end in any order between later saves; failures of a job on one of many hosts cannot be enumerated, and a test on one process does not show what the others do.", "anchors": ["caput/pipeline/tasklib/io.py:866-1062"]}
{"id": "C89", "title": "What processes are told about cores, memory and log levels", "statement": "cpu_count gives each process its share of the cores of its node. can_allocate says yes exactly if what is asked for is less than what is available: on the node for 'shared', for all processes of the node together for 'process', on all nodes together for 'global'; and every process gets an answer. available_memory_shared is the limit of the memory group less its use, or what the system says if there is no such group. MPILogFilter shows a record exactly if its level reaches the one set for the rank it is from, and level names are understood.", "quantifier": "All numbers of nodes, processes and cores, all amounts of memory, all texts of the files read, all records, ranks and thresholds.", "why_tests_cant": "Tests run on one node with a few processes and with the files that this system has; the answers are sums over processes of a cluster.", "anchors": ["caput/util/mpitools.py:142-307", "caput/util/mpitools.py:352-405", "caput/pipeline/tasklib/base.py:30-64"]}
{"id": "C90", "title": "Processes that are not active wait until they are released", "statement": "After active(procs) the processes that are not in procs wait until rank 0 calls close(procs), and then all go on; over any number of rounds no process leaves a wait early and none waits for ever.", "quantifier": "All numbers of processes, all sequences of rounds with any lists, all interleavings of the processes and delays of messages.", "why_tests_cant": "Interleavings of processes and messages over many rounds cannot be enumerated, and a message left over from one round shows only in a later one.", "anchors": ["caput/util/mpitools.py:417-456"]}
{"id": "C91", "title": "Transit, rise and set times are complete and refer to the observer", "statement": "transit_times returns exactly the upper (or lower) transits of the source in the interval, each once and in order, for any search step less than the spacing between events; the declinations returned belong to those times. rise_set_times reports alternating risings and settings, rise_times and set_times return the two halves of it, and at each of them the centre of the source is half the diameter below the horizon. All of them refer to the current location of the observer.", "quantifier": "every source, interval, step, diameter and sequence of changes of the observer", "why_tests_cant": "all intervals, steps and motions of the source", "anchors": ["caput/astro/observer.py:Observer.transit_times", "caput/astro/observer.py:Observer.rise_set_times", "caput/astro/observer.py:Observer.skyfield_obs", "caput/astro/observer.py:Observer.transit_RA"]}
{"id": "C92", "title": "Containers on disk close what they opened and nothing else", "statement": "A container made from a file name opens the file, and close() (or the end of a with block) closes it, in both file formats; files and groups that the caller had opened are left open. A container is distributed only if what it wraps is distributed over the same processes; a refused constructor leaves the disk alone. The lock directory of a zarr file exists as long as a process uses the file. to_memory and to_disk give containers with the same data, for every file format and file mode.", "quantifier": "every file, format, mode, communicator and number of processes", "why_tests_cant": "all combinations of arguments and orders of closing", "anchors": ["caput/memdata/_memh5.py:MemDiskGroup.__init__", "caput/memdata/_memh5.py:MemDiskGroup.close", "caput/memdata/_memh5.py:MemDiskGroup.from_file", "caput/memdata/_memh5.py:MemDiskGroup.to_disk", "caput/memdata/_memh5.py:get_file"]}
{"id": "C93", "title": "Names that a container does not allow are neither made nor shown", "statement": "A container class can restrict the names of its groups and datasets: what is not allowed cannot be created, read, listed or deleted through the container, and is not found by it; the length is the number of names listed. A Container shows exactly the datasets of its root group and no groups.", "quantifier": "every rule, tree and name", "why_tests_cant": "all trees and all spellings of names", "anchors": ["caput/memdata/_memh5.py:MemDiskGroup.__getitem__", "caput/memdata/_memh5.py:MemDiskGroup.__iter__", "caput/memdata/_memh5.py:MemDiskGroup.create_dataset", "caput/containers/_core.py:Container.dataset_name_allowed"]}
{"id": "C94", "title": "Dataset objects of one name are one dataset, and copies are independent", "statement": "All objects that a program gets from a group in memory for the same name are the same dataset: contents, distribution, attributes, chunks and compression that are set through one show in the others and in the group. A deep copy has what the original had when it was made, whatever is done to the original, and nothing that is done to the copy shows in the original; also if the elements are python objects.", "quantifier": "every program of creating, getting, deleting, writing, copying and redistributing datasets, and every number of processes", "why_tests_cant": "all orders of operations through any number of objects", "anchors": ["caput/memdata/_memh5.py:_BaseGroup.__getitem__", "caput/memdata/_memh5.py:MemDataset.copy", "caput/memdata/_memh5.py:MemDataset.view", "caput/memdata/_memh5.py:MemDatasetDistributed.redistribute", "caput/memdata/_memh5.py:deep_copy_dataset"]}
{"id": "C95", "title": "Random tasks can be repeated and do not share random numbers", "statement": "All processes of a job base their seeds on one seed, which is logged; setting it as the seed of the task repeats the run. Different processes, different tasks and jobs with different seeds have different seeds.", "quantifier": "every name of a class, seed, rank and number of processes", "why_tests_cant": "all seeds, names and ranks", "anchors": ["caput/pipeline/tasklib/random.py:RandomTask.__init__", "caput/pipeline/tasklib/random.py:RandomTask.local_seed", "caput/pipeline/_pipeline.py:Task._from_config"]}
{"id": "C96", "title": "The check of the MPI environment covers all pairs of processes", "statement": "CheckMPIEnvironment sends one message between each two processes. It succeeds on all processes exactly if all the messages arrive within the timeout as they were sent, for every timeout.", "quantifier": "every number of processes, network and timeout", "why_tests_cant": "all networks and numbers of processes", "anchors": ["caput/pipeline/tasklib/debug.py:CheckMPIEnvironment.setup"]}
{"id": "C97", "title": "A table container has the tables its class describes", "statement": "A container of a TableSpec class has for every table described by its class or a base class (the most derived description counting) a dataset specification with the table's columns as data type, its axis (named, or made from the table's name) as only axis and distributed axis, created by default and not distributed by default, and the axis is among the container's axes; its other datasets are those its class declares. This does not depend on which containers of which classes were made or loaded before or afterwards, and holds for loaded containers too; a selection along a table's axis works when loading. Construction fails only for column names that are not strings, and then changes nothing.", "quantifier": "All hierarchies of container classes with any bases, dataset specifications, axes and tables; all sequences of objects made before and after; constructed and loaded objects; all names.", "why_tests_cant": "Making an object can change the dictionaries of its class, so what a container has can depend on everything the program did before; a test runs one order of events on one hierarchy.", "anchors": ["caput/containers/_core.py:700-815", "caput/containers/_core.py:594-699", "caput/memdata/_memh5.py:1952-1957"]}
{"id": "C98", "title": "Concatenation takes everything else from the first container", "statement": "Concatenating time-ordered containers gives a container with the attributes, the history, the index maps and reverse maps (with their attributes) and the datasets without a time axis of the first container, unchanged, whatever the other containers have; the index map of a time axis is the selected part of the index maps of all containers end to end, whether the result is in memory or in a file. No input is changed, and later changes of the result do not change an input. If conversion of the strings of datasets is asked for, those strings are converted. Any sequence of containers is accepted; none at all is an error.", "quantifier": "All containers in memory or on disk with any attributes, history, maps and datasets; outputs in memory or on disk; all selections; any number of inputs.", "why_tests_cant": "Whether arrays are shared or written depends on where the input and the output are and on the types of strings; tests compare values after one concatenation of one kind of container and do not write to the result afterwards.", "anchors": ["caput/containers/tod.py:312-475", "caput/containers/tod.py:618-715", "caput/containers/_core.py:47-166", "caput/memdata/_memh5.py:820-908"]}
{"id": "C99", "title": "Concatenating distributed containers is concatenating the global datasets", "statement": "concatenate of containers whose datasets are distributed gives, on every process, that process's part of the selected range of the end-to-end concatenation of the global datasets, whichever axis they are distributed over, for an output in memory or in a file. For datasets that every process has whole the output is the selected range itself, whatever the number of axes.", "quantifier": "every list of inputs of any lengths and any number of axes, every non-empty range inside the data, every number of processes and every process", "why_tests_cant": "the piece boundaries, the block boundaries and empty blocks combine on every process; with one process, which is what tests use, a distributed dataset is its own block and nothing can go wrong", "anchors": ["caput/containers/tod.py:concatenate", "caput/mpiarray.py:_global_resolver", "caput/memdata/_memh5.py:MemDatasetDistributed"]}
{"id": "C100", "title": "Configured attributes are independent of each other and of what was done before", "statement": "An attribute declared with a configuration property belongs to the object it is read from or set on. Setting it, or reading a configuration into the object, changes what is read from that attribute or that object and nothing else; reading changes nothing; and the result of an operation does not depend on which attributes and objects were used before. A value that was read can be changed in place without changing other objects, and changing the value that was given does not change the attribute.", "quantifier": "all class hierarchies with any properties, all conversions (those that return their argument and those that make new values), all defaults and keys, all sequences of making values and objects, changing values in place, reading, setting and reading configurations", "why_tests_cant": "Property objects are shared by all objects of all classes that have them, and remember a name and a key when they are first used, so that what an operation does could depend on the whole history of the program; tests look at a few short histories.", "anchors": ["caput/config.py:90-181", "caput/config.py:233-265"]}
{"id": "C101", "title": "Work shared out over processes is done once, and all processes agree on the results", "statement": "partition_list_mpi and mpirange, called on all processes of a communicator (or of the world), give every element of the list or range to exactly one process, for each of the methods 'con', 'alt' and 'rand'; mpirange takes the arguments of range. parallel_map returns on every process that gets a result the results for the list in its order, for each method; a list that it returns is never incomplete or wrong. All processes return or raise, also if the function raises on one of them, and an unknown method is always an error.", "quantifier": "all lists and ranges, all numbers of processes, communicators, methods and roots, all functions, also those that raise for some elements, all random draws", "why_tests_cant": "depends on the number of processes and on which of them raises", "anchors": ["caput/util/mpitools.py:partition_list_mpi", "caput/util/mpitools.py:mpirange", "caput/util/mpitools.py:parallel_map"]}
{"id": "C102", "title": "A pipeline on several processes makes the same calls on all of them", "statement": "When a pipeline is run on several processes, every process calls the same methods of the same tasks in the same order, whatever the speed of the processes: it runs as it would alone. No process waits for ever for another; if the pipeline ends on one process, it ends on all, and in the same way.", "quantifier": "all lists of tasks, all behaviours of their methods on every process, all numbers of processes and all orders in which they go on", "why_tests_cant": "tests run with one or two processes that do the same; the outcome depends on differences between processes and on their timing", "anchors": ["caput/pipeline/_pipeline.py:Manager.runner", "caput/pipeline/_pipeline.py:Manager._next_task", "caput/util/mpitools.py:bcast"]}
{"id": "C103", "title": "Objects of an in-memory tree know where they are, and are equal if they are the same", "statement": "The name of a group or dataset found in a tree in memory is its path, however the program wrote it. Its file is the root of the tree, where its name leads back to it; its parent is the group that holds it under the last part of its name. Creating a group or dataset returns that object. Two objects compare equal exactly if they are the same group or dataset of the same tree; equality is symmetric. A new dataset, and a copy of a dataset, has contents of its own: writing to any other dataset does not change them.", "quantifier": "all trees that any sequence of creating, requiring, deleting, copying and sharing operations can lead to, on any number of trees; all groups and names, with any slashes", "why_tests_cant": "tests compare a few objects in small trees; the claim is about every history of operations and every spelling of a name", "anchors": ["caput/memdata/_memh5.py:_MemObjMixin", "caput/memdata/_memh5.py:_BaseGroup.__getitem__", "caput/memdata/_memh5.py:MemGroup.create_dataset", "caput/memdata/_memh5.py:MemDataset.__eq__", "caput/memdata/_memh5.py:deep_group_copy"]}
{"id": "C104", "title": "jl_d and jl_d2 are the derivatives of the spherical Bessel functions", "statement": "jl_d(l, z) is the first and jl_d2(l, z) the second derivative by z of the spherical Bessel function of order l, as accurate as the values of jl they are made from, for every argument where the function has a derivative.", "quantifier": "all orders l (not negative), all real z, given as numbers or arrays", "why_tests_cant": "there are no tests of this module; a test could only compare with numbers at a few arguments, while the claim is a law for all orders and arguments", "anchors": ["caput/astro/coordinates/bessel.py:jl_d", "caput/astro/coordinates/bessel.py:jl_d2"]}
{"id": "C105", "title": "jl gives the spherical Bessel function of every element", "statement": "jl(l, z) gives the spherical Bessel function of order l at z for each pair of elements of its arguments (numbers, lists or arrays, broadcast together), exact up to rounding or a close approximation. Every element is computed by exactly one formula, and no formula is used where it is not defined.", "quantifier": "all orders l (not negative), all real z, as numbers, lists or arrays of any length", "why_tests_cant": "there are no tests of this module; which formula is used changes over the plane of orders and arguments, and a test sees only a few points of it", "anchors": ["caput/astro/coordinates/bessel.py:jl", "caput/astro/coordinates/bessel.py:_jl_approx_lowz", "caput/astro/coordinates/bessel.py:_jl_approx_highz"]}
{"id": "C106", "title": "Names of constants mean what they say", "statement": "A constant is found by its name or its other name; a name made of a prefix, an underscore and a unit is the product of the two, for every prefix and every unit; any other name raises AttributeError.", "quantifier": "all names, all sets of constants, prefixes and units", "why_tests_cant": "there are as many names as strings, and the answer is made up when a name is asked for; tests ask for a few", "anchors": ["caput/astro/constants.py:__getattr__", "caput/astro/constants.py:__split_prefix"]}
{"id": "C107", "title": "Astronomical data is loaded once, from wherever it can be had, and reload brings new data", "statement": "The directory of the data is the one given, else that of the environment variable, else that of the package. The timescale and the ephemeris are loaded at first use and the same object is given from then on; if the official source fails, the mirror is tried, and only if that fails, too, is there an OSError, after which a later use tries again. After a reload the data used is the newest that the official source has.", "quantifier": "all sequences of uses and reloads, all states of the two sources and of the files at every moment", "why_tests_cant": "the outcome depends on which source fails when; tests have one network in one state", "anchors": ["caput/astro/skyfield.py:SkyfieldWrapper"]}
{"id": "C108", "title": "The directory of an output is made, whoever else makes it", "statement": "Before an output is written, the missing directories of its path are made. When any number of processes do this at the same time, for the same path or for others, none of them fails and each finds its directory there afterwards. A file name without a directory means the current directory.", "quantifier": "all numbers of processes, all paths, all file systems and all interleavings of the calls of the processes with each other and with other programs that make directories", "why_tests_cant": "it depends on the interleaving of calls of several processes; tests write from one process into an empty directory", "anchors": ["caput/pipeline/extensions/_extensions.py:_OneAndOne.read_process_write", "caput/pipeline/extensions/_extensions.py:GroupIOMixin.write_output", "caput/pipeline/extensions/_extensions.py:ContainerIOMixin.write_output"]}
{"id": "C109", "title": "Processes that write one Zarr array at the same time do not lose each other's data", "statement": "When the processes of a job write a distributed array to a Zarr file, all of it is in the file afterwards and nothing else in the array has changed, whatever the size of the chunks and in whatever order the processes get their turns, also where one chunk holds parts of several processes. No process waits for ever. The files used for locking are gone afterwards.", "quantifier": "all arrays, chunk sizes, numbers of processes, and all interleavings of their accesses to the file", "why_tests_cant": "data is lost only for some interleavings of reading, changing and writing back a chunk, which a test cannot choose", "anchors": ["caput/mpiarray.py:MPIArray.to_zarr", "caput/memdata/fileformats.py:ZarrProcessSynchronizer", "caput/memdata/fileformats.py:remove_file_or_dir"]}
{"id": "C110", "title": "When one process fails, the whole job ends", "statement": "When a pipeline runs on several processes with the option to abort (the default) and a task raises an exception in one of them, all processes end, whatever the others are doing, in particular if they wait for the failed process, and the job reports failure. If no task raises, the job ends without failure. In no case do processes wait for ever.", "quantifier": "all numbers of processes, sequences of local and collective operations, kinds of exceptions, and interleavings", "why_tests_cant": "a test would have to run into the waiting of several processes in each possible order, and cannot see that something never ends", "anchors": ["caput/util/mpitools.py:enable_mpi_exception_handler", "caput/pipeline/runner/_core.py:run_pipeline", "caput/pipeline/runner/_cli.py:run"]}
{"id": "C111", "title": "A pattern of file names stands for its files, in order", "statement": "When files are joined by giving a pattern such as data_*.h5, the files joined are those of the directory that have such a name, each once, in the order of their names, whatever order the file system lists them in. A name without wildcards stands for that one file, and a sequence of files is joined in the order given. So if later files have later names, the joined times ascend.", "quantifier": "all directories, orders of listing, names, patterns and contents of files", "why_tests_cant": "the order in which a file system lists a directory is not under the control of a test, and is usually the sorted one on the machine of the test", "anchors": ["caput/containers/tod.py:ensure_file_list", "caput/containers/tod.py:TOData.from_mult_files", "caput/containers/tod.py:TODReader.__init__"]}
{"id": "C112", "title": "The chunks of a dataset fit its shape", "statement": "A dataset that has chunks has one chunk length for every axis, at least one and not longer than the axis, so that it can be written to a file. This holds for datasets made from the specification of a container, after chunks have been set, after the defaults of the specification have been filled in, and after a file, or a selection of it, has been read. Filling in the defaults changes only what is not set: chunks and compression that were set before are kept, and datasets without defaults stay as they are.", "quantifier": "all specifications, shapes, selections, and sequences of these operations", "why_tests_cant": "whether a chunk is too long depends on the specification, the selection and the order of operations together; tests use data longer than the chunks or none", "anchors": ["caput/containers/_core.py:ContainerPrototype.add_dataset", "caput/containers/_core.py:ContainerPrototype._ensure_chunked", "caput/memdata/_memh5.py:MemDatasetCommon.chunks", "caput/memdata/_memh5.py:MemDatasetDistributed.chunks", "caput/memdata/_memh5.py:deep_group_copy"]}
{"id": "C113", "title": "Stepping through a pipeline does what running it does", "statement": "With `interactive` set, every `next` on the runner of a pipeline carries out the task it stopped at, with at most one call of a hook, and stops again before the task that is selected then. Wherever interactive mode is switched on and off during the run, the hooks called, their order and their arguments are those of the run without it; the runner ends exactly when that run ends, and raises exactly when a task raises there. `run()` ignores interactive mode. A runner may be left at any point: a new runner, or `run()`, carries on from there. Every task then still gets its hooks in order and its products once and in order, and the run comes to an end if the sources do.", "quantifier": "all pipelines, behaviours of the hooks, patterns of switching interactive mode, numbers of steps and points at which a runner is left", "why_tests_cant": "the point at which the runner is left, the wiring and what the hooks return decide together whether the run can be resumed; a test steps through one pipeline", "anchors": ["caput/pipeline/_pipeline.py:Manager.runner", "caput/pipeline/_pipeline.py:Manager.run", "caput/pipeline/_pipeline.py:Manager._next_task"]}
{"id": "C114", "title": "A pipeline runs its tasks in the documented order", "statement": "While any task of a pipeline can do something with what it has, a hook is called only on such a task, and on one of the highest priority: the inputs it consumes less the outputs it creates, times how often it can run, plus its base priority (one for setup, very high once it only has to finish); among equals on one of the highest base priority, and then on the next in the order of the configuration. A task without inputs is asked for its next product only when nothing can be done with what was already made, so that products are used up before new ones are made. When no task has what it needs, the tasks take turns in the order of the configuration. A base priority that is higher by ten or more makes a task run before the others.", "quantifier": "all configurations, all behaviours of the hooks, at every step of every run", "why_tests_cant": "the order depends on every return value of every hook; tests see a few small pipelines", "anchors": ["caput/pipeline/__init__.py", "caput/pipeline/_pipeline.py:Manager._next_task", "caput/pipeline/_pipeline.py:Manager._iter_tasks", "caput/pipeline/_pipeline.py:Task._pipeline_priority", "caput/pipeline/_pipeline.py:Task._pipeline_is_available"]}
{"id": "C115", "title": "Creating a dataset gives the shape, type, distribution and contents asked for", "statement": "create_dataset of a group in memory makes a dataset with the type asked for and the global shape asked for, or else those of the data. It holds the elements of the data converted to its type, or zeros without data. A distributed dataset, made because it was asked for or because the data is a distributed array, is distributed over the axis asked for, or else that of the data, and every process has its block. All processes take part in the same way. Without MPI the dataset is an ordinary one.", "quantifier": "every shape, type, axis, kind of data, number of processes and rank", "why_tests_cant": "Which branch is taken depends on the shapes and types of data and request on every process; tests use one process, where local and global shape are the same.", "anchors": ["caput/memdata/_memh5.py:725-908", "caput/memdata/_memh5.py:1187-1245", "caput/memdata/_memh5.py:1387-1450", "caput/mpiarray.py:406-414"]}
{"id": "C116", "title": "Without MPI everything runs as on one process", "statement": "mpi4py is optional: without it the library runs as it does with MPI on one process. Sharing out lists and ranges, splitting lengths and parallel_map give the whole to the one process; a distributed array can be created, wrapped, copied, computed with, reduced, redistributed and gathered, read from a file and written to one, with the same results; and a call that fails leaves files as they were.", "quantifier": "all lists, functions, methods, shapes, axes, arrays, selections, files, arguments of universal functions", "why_tests_cant": "The tests run where mpi4py is installed, so that the branches for a missing communicator are never taken, and each operation has its own.", "anchors": ["caput/util/mpitools.py:42-66", "caput/util/mpitools.py:75-135", "caput/util/mpitools.py:463-562", "caput/mpiarray.py:598-743", "caput/mpiarray.py:1021-1087", "caput/mpiarray.py:1643-1724", "caput/mpiarray.py:1845-1877", "caput/mpiarray.py:2296-2320"]}
{"id": "C117", "title": "What a container shows of its axes and datasets, and comparing it", "statement": "The index_map (or reverse_map) of a container is a mapping with exactly the names of its axes and the values they have; axes that are created, replaced or deleted later do not change a mapping obtained before. Writing into an array of the mapping has the same effect for containers in memory and on disk. Two such mappings compare equal exactly when they have the same names with the same values, in whatever order, and the comparison always has an answer. The datasets property has exactly the datasets that the container lists, in the same order. The data and weight properties give the dataset that the class names, wherever the container is stored; a class that names none raises RuntimeError.", "quantifier": "all containers, axes, values, orders of names, later changes, versions of numpy", "why_tests_cant": "The result of a comparison depends on the number of entries of every axis, on the order of the names and on which arrays are the same object; tests compare a pair of maps, and look at containers in memory only.", "anchors": ["caput/memdata/_memh5.py:64-101", "caput/containers/_core.py:93-141", "caput/containers/_core.py:576-591", "caput/containers/_basic.py:30-55"]}
{"id": "C118", "title": "The log shows the messages of the levels asked for", "statement": "A message is shown on a process exactly if its level reaches the level set for the most specific name that covers its source (log_level of the task, else the module or the nearest parent given in the logging options, else the root), and the level that the task for MPI logging was given for the rank that the message is from. log_level of a task is for this task only and for this pipeline only; the levels given to the logging task and to the task for debug information are used; a later logging task replaces an earlier one. In front of every message the rank and the number of processes are in columns of the same width.", "quantifier": "all logging options, all lists of tasks with and without levels, all names, levels, ranks and numbers of processes", "why_tests_cant": "Which messages appear depends on all tasks and options together and on what was set up before in the same program; tests set one level at a time.", "anchors": ["caput/pipeline/tasklib/base.py:67-187", "caput/pipeline/tasklib/debug.py:75-95", "caput/pipeline/_pipeline.py:227-249", "caput/util/mpitools.py:352-405", "caput/pipeline/runner/_core.py:19-21"]}
{"id": "C119", "title": "A queued job asks for the time given in its configuration", "statement": "The time limit in the script of a queued job means, to the queue system, the same time as the text given for `time` in the cluster section of the configuration, in whatever way the queue system allows to write it (minutes, minutes:seconds, hours:minutes:seconds, days and hours for slurm; seconds, minutes:seconds, hours:minutes:seconds for pbs), with or without quotes.", "quantifier": "all texts of digits, colons and dashes, quoted or not, for both built-in queue systems", "why_tests_cant": "Times are unbounded, and tests do not ask a queue system what it makes of the script; the same text passes through YAML, Python and the queue system.", "anchors": ["caput/pipeline/runner/_scheduler/__init__.py:440-457", "caput/pipeline/runner/_core.py:_load_config", "caput/pipeline/runner/_scheduler/_default_systems.toml"]}
{"id": "C120", "title": "Queue systems that are registered can be named in configurations", "statement": "After register_system has read a file, every system described in it can be named in the cluster section of a configuration, with the description given last; the built-in systems and the old names of clusters can be named as well. A description without script or command, and a configuration with an unknown system or without a required key, is a ValueError that changes nothing. The types of mail that are offered are those of the systems that are registered. The key `system` may be left out, and the command register-system makes the system known to later commands.", "quantifier": "all sequences of files and commands, all descriptions and configurations", "why_tests_cant": "What can be named depends on everything that was registered before, in this and in other processes; tests do not register systems.", "anchors": ["caput/pipeline/runner/_scheduler/__init__.py:14-65", "caput/pipeline/runner/_scheduler/__init__.py:_resolve_system_config", "caput/pipeline/runner/_cli.py:register_system"]}
{"id": "C121", "title": "Datasets in memory are sequences of their rows, and equal if they hold the same data", "statement": "For a dataset in memory, common or distributed: len(d) is the first number of d.shape, and going through d gives its rows in order, for a distributed one every process its part of them. d == e tells, on every process alike, whether the two hold the same array (and agree in name, place, attributes, chunks and compression), however they are distributed.", "quantifier": "all shapes, contents, distributed axes, numbers of processes and ranks", "why_tests_cant": "Tests run on few processes and compare datasets that are distributed in the same way; what one process answers depends on which part it holds.", "anchors": ["caput/memdata/_memh5.py:1329-1357", "caput/memdata/_memh5.py:1573-1604", "caput/util/objecttools.py:91-99"]}
{"id": "C122", "title": "Making the byte order native keeps every value", "statement": "Making a common dataset from an array, or reading one from a file before it is sent to the other processes, never changes a value because of its byte order, on machines of either order; and afterwards the array has the byte order of the machine under the name that MPI can send (native), whatever the order it came in.", "quantifier": "all machines, types (simple and compound, of any width and any number of parts), byte orders and contents", "why_tests_cant": "Tests run on machines of one byte order, with the few types that the test files have.", "anchors": ["caput/util/typeutils.py:156-195", "caput/util/typeutils.py:251-271", "caput/memdata/_memh5.py:1233-1244", "caput/memdata/_memh5.py:2926-2944"]}
{"id": "C123", "title": "Checking configuration files says what running them would", "statement": "Checking configuration files without running them (`caput-pipeline lint-config FILE...`) accepts a file exactly if its pipeline could be set up by `run`, and sets up the same tasks. Each file is judged on its own, whatever files were named before it. Every file that is named is checked. The command fails if any of them is wrong, with the error of the first one.", "quantifier": "All lists of files, all contents of files, all environments named in them, all modules that there are on any path, and all modules imported before.", "why_tests_cant": "Files act on each other through the path of modules and through the modules that stay imported; tests check one file in a fresh process.", "anchors": ["caput/pipeline/runner/_core.py:24-41", "caput/pipeline/runner/_core.py:44-79", "caput/pipeline/runner/_core.py:164-199", "caput/pipeline/_pipeline.py:151-225"]}
{"id": "C124", "title": "Input puts objects into a pipeline, Output takes them out, in order and without loss", "statement": "If a pipeline is built in a session with Input(items) under a key that no other task produces, and an Output is listed after every task that produces the key it takes, then when the run ends the list outputs of the Output holds, in order, one entry for each product made under its key: the product, or what the callback returned for it. For an Output on the key of the Input these are the items themselves, all of them. Input adds no step that keeps the run from ending.", "quantifier": "every list of items, every callback, every other task in the pipeline and every behaviour of it, every run", "why_tests_cant": "the result depends on the scheduling of all other tasks and on unboundedly many items of any kind", "anchors": ["caput/pipeline/extensions/_pytools.py:Input", "caput/pipeline/extensions/_pytools.py:Output", "caput/pipeline/_pipeline.py:Manager.runner", "caput/pipeline/_pipeline.py:Manager._check_task_output"]}
{"id": "C125", "title": "A call that fails leaves the tree as it was", "statement": "If create_group, require_group, create_dataset, require_dataset or del on a group of a tree in memory raises, the tree is afterwards what it was before: everything in it is still there with the same content, and nothing was added. In particular the call can be repeated with good arguments, with the same outcome as if the failed call had never been made.", "quantifier": "every tree, every group and name, every failing set of arguments, every later call", "why_tests_cant": "trees, names and the points at which a call can fail are unbounded", "anchors": ["caput/memdata/_memh5.py:MemGroup.create_group", "caput/memdata/_memh5.py:MemGroup.create_dataset", "caput/memdata/_memh5.py:_BaseGroup.require_dataset", "caput/memdata/_memh5.py:_BaseGroup.__delitem__"]}
{"id": "C126", "title": "Users are warned of the deprecated properties they use, and of no others", "statement": "A configuration property that is marked as deprecated still works: reading a configuration, getting and setting have the same results as without the mark. The user is warned once for each deprecated property that a configuration sets, by the name used in the configuration, and each time such a property is read or set; a configuration that does not mention deprecated properties, and the use of other properties, give no warning. If warnings are turned into errors, the use of a deprecated property is refused and nothing else changes.", "quantifier": "every hierarchy of classes, object and configuration", "why_tests_cant": "all class hierarchies with overridden properties and all configurations", "anchors": ["caput/config.py:Property.__get__", "caput/config.py:Property.__set__", "caput/config.py:Property._from_config"]}
{"id": "C127", "title": "Functions made for numbers work on arrays of any shape", "statement": "A function of numbers that is decorated with `vectorize` can be called with numbers, sequences and arrays of any shapes: it gives an array with the broadcast shape of the arguments whose elements are what the function gives for the elements, or a number if there are only numbers; arguments that do not fit together are refused, and an error for any element is raised. A function that works element by element on arrays gives the same when it is decorated with `scalarize` or `listize`, also for numbers and sequences, and for arrays without elements.", "quantifier": "all functions, numbers of arguments, shapes and contents", "why_tests_cant": "broadcasting of any number of arguments of any shapes, including axes of length zero and one, with any function", "anchors": ["caput/util/arraytools.py:vectorize", "caput/util/arraytools.py:scalarize", "caput/util/arraytools.py:listize"]}
{"id": "C128", "title": "A pipeline can go on after an exception without loss", "statement": "If a task raises an exception, the exception comes out of the runner and the manager can be run again. The new run goes on where the old one was: the call that failed is made again with the same products, and no product that has been emitted is lost.", "quantifier": "all task lists, states of the manager, hooks that fail, and runs before and after the exception", "why_tests_cant": "the exception may come at any point of any run of any task list, and its effect on the rest of the run is a property of all continuations", "anchors": ["caput/pipeline/_pipeline.py:Manager.run", "caput/pipeline/_pipeline.py:Manager.runner", "caput/pipeline/_pipeline.py:Task._pipeline_next"]}
{"id": "C129", "title": "The files with the configuration and the versions are complete on every number of processes", "statement": "The tasks that save the configuration and the module versions write the file with the given root. Once all processes have set the task up the file holds the whole document, however the writes of the processes were interleaved and whatever the file held before; files of other tasks are left alone, and the file is complete as soon as a process has set the task up.", "quantifier": "all lists of such tasks, numbers of processes, documents, previous contents, and interleavings of the opens and partial writes of the processes", "why_tests_cant": "all processes truncate and write the same file without waiting for each other, so the outcome depends on the interleaving, which a test does not control", "anchors": ["caput/pipeline/tasklib/debug.py:SaveModuleVersions.setup", "caput/pipeline/tasklib/debug.py:SaveConfig.setup"]}
