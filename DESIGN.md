# Design

Formal model in Lean 4 of `radiocosmology/caput` (source text in `/repo`), with
the properties of `properties.jsonl` proved for all inputs.

## Trusted base

* The Lean 4.33.0 kernel.
* The axioms `propext`, `Classical.choice`, `Quot.sound` (Lean/Mathlib standard).
  No other axiom is used; no `sorry`, `native_decide` or `bv_decide`.
  The section "Axioms per theorem" (end of file) lists what `#print axioms`
  reports.
* The hand translation from Python/Cython/C++ to Lean. Every Lean definition
  that models code carries a comment with the file and lines it models and what
  it simplifies.
* External libraries are modelled by their documented behaviour, not by their
  code: Python lists, dicts, slices and integers; numpy indexing and basic
  reductions; mpi4py point to point and collective calls (reliable, ordered per
  sender/receiver/tag); POSIX `rename`, `unlink`, `write`; cachetools' LRU policy.

## Layout

`lean/Verif/<Area>/Model.lean`   definitions mirroring the code
`lean/Verif/<Area>/Spec.lean`    independent specifications (only core/Mathlib notions)
`lean/Verif/<Area>/Lemmas.lean`  helper lemmas
`lean/Verif/<Area>/Props.lean`   property theorems, named `Cnn_...`, each with an
                                 `example` that meets its hypotheses

Theorems that cover only part of a property end in `_partial`; where the code
violates the property there is a theorem `Cnn_..._violated` with a concrete witness.

## Conventions

* Exceptions are values (`Except`/`Option`), never totalised away.
* Numbers: Python `int` is `Int`/`Nat`; C fixed width integers are `BitVec`;
  floating point data are elements of a linear ordered field (usually `Rat`)
  where only ordering and exact arithmetic matter, and bit patterns where the
  code manipulates bits. Rounding of intermediate float arithmetic is not
  modelled except where stated.
* MPI: a distributed state is a function or list over ranks; point to point
  exchanges are modelled message by message.

## Plan per property

C01, C02, C03. `Split`: model `split_m`, `partition_list`, `parallel_map` on
lists. Prove tiling by arithmetic on `k*base + min k rem`; `con` by induction on
the cumulative sums; `alt` by index arithmetic; `parallel_map` as sort-by-index of
a permutation of the enumerated list.

C04, C05, C06, C07, C34. `Mpi`: local arrays as lists of lists; `redistribute` as
the cyclic sequence of Sendrecv steps with the scratch buffers kept in the state
and arbitrary at the start; prove the loop invariant "columns received so far are
in place" and conclude with the global matrix as specification. `gather`,
`transpose_blocks` likewise. `wrap`: decision logic with the collective reduction.
C34: negation for a non-zero axis, `_partial` for axis 0.

C08. `Slice`: Python slice semantics as specification (index sets); model
`_resolve_slice`; prove the step-free case for all integers; negations for
negative integers and for strides.

C09. `PartIO`: model `_partition_io` on naturals; prove cover, agreement and the
size bound; negation for empty arrays.

C10. `Slice`: model `_len_slice` and `_reslice`; prove composition for positive
steps and start <= stop; negations otherwise.

C11. `Reshape`: row-major index arithmetic; model `_check_shapes`; prove that equal
products before and after the distributed axis preserve the global position;
negation for the collective decision with empty blocks.

C12, C13, C14. `Trunc`: bit level model over `BitVec 32/64` and a mathematical
model over `Int`; prove they agree, then the rounding facts over `Int`. Floats:
a finite float is sign, exponent, mantissa; `err*2^k` is exact in the model and
converted by truncation; prove the error bound outside the two failing exponents;
negations with bit patterns. Rounding of the float product `err*2^k` is exact in
IEEE arithmetic except for under/overflow, which is noted. Infinite tolerances and
values that are not finite are covered by separate theorems of C13.

C15, C16. `Median`: inductive AVL tree with cached height and weight; insert,
remove, rotations branch by branch; prove sortedness, balance, caches, multiset by
induction over operation sequences; median by descending with prefix weights.
Parent pointers and in-place node updates are replaced by functional rebuilding
of the path, which is what `balance_path` does.

C17, C18. `Moving`: the window loop over the tree model; invariant "tree contents =
window"; conclude with C16. Negation for the NaN rule at index 0 (1D) and in 2D.
C16 - C18 with the additions of the machine (`Median/Whole`, `Moving/WholeProps`): weights that
are whole multiples of a power of two and add up to less than 2^51 of them are added exactly, so
the machine gives the median too; other weights may crash it. `Median/Rough`, `Moving/RoughProps`: any
doubles that are not negative, with sums off by one part in 2^53 each: by induction on the tree, sums are off by a factor
of (1 ± 2^-53)^(2 height); so the search goes the same way as with exact sums, unless a sum is within one part in 2^45
of half; and near half, what `split` gives has at most about half of the weight on either side.

C19. `Quick`: Hoare partition on arrays with an explicit state; termination by
interval length; invariant on the weights left and right. `Quick/Float`: the same functions with arithmetic and
comparisons as parameters; no access outside of the arrays for any of them (NaN, infinities); with a bound on the
rounding errors, the quantile up to a bound; doubles as a case, with a tie missed through rounding as negation.

C20 - C25. `Pipe`: state machine of the manager with tasks as records and the user
hooks as arbitrary oracle functions of the call history; lifecycle, delivery and
counter invariants by induction over steps; termination with a measure; delivery
for topological order by an invariant on states of producers.

C26, C27. `Config`: MRO as a list of classes; properties as key, converter,
default. Negations for overridden converters and for atomicity.

C28, C29. `Lock`: directory as finite map, atomic system calls, crash after any
prefix of the call sequence.

C30 - C33. `Mem`: tree of groups and datasets with paths as lists of components;
path strings as lists of characters for the normal form. Aliasing (for C32) via a
heap of buffers referenced by datasets. Attribute codec with the JSON functions as
a parameter satisfying decode(encode x) = x; `Mem/Json` has python's encoder and decoder, for which this is
proved from the same statement about floats alone. Nested lists written to HDF5 become arrays:
`Mem/Nested` has the shape numpy finds and the items in order; the array must give the list back.

C35, C36. `Tod`: start/stop normalisation, in/out slices, copy loop over pieces.

C37, C38, C39. `Cont`: spec resolution over MRO lists, history log, filter copy. `Cont/Literal`: the text
of a list of names and how `literal_eval` reads it. `Cont/FilterAttrs`: the attributes a copied dataset gets from its source.

C40, C41. `Types`: recursive dtype descriptions; nested Python values.

C42, C43. `Util`: unique_ordered; LRU cache state machine.

C44, C45, C46, C52, C54. `Tasks`: stream processors and decision logic.

C47. `Invert`: dyadic rationals with the IEEE overflow threshold.

C48, C49. `Obj`: heap graph traversal with a visited set; structural comparison.

C50. `Rng`: blocks of an output array written by threads; interleavings as
arbitrary merges of the writers' write sequences; result independent of the merge.

C51. `RowWrite`: file as byte map, writers with seek positions; negation.

C53. `Roots`: rational grid; negation for the spacing and for the single report.

C55, C56. `Lock`: two writers, and (`Lock/Many`) any number of them with bodies that may fail, as interleaved system calls on one directory; a file
written jointly by several processes of which only the first renames.

C57. `Tasks/Script`: the keys a job template asks for against those the code puts
into the dictionary, per queue system.

C58. `Invert/Array`: arrays with memory layout flags, on top of `Reshape`'s index
arithmetic; the inverse of one element (C47) is a parameter.

C59. `Rng/Call`: positional and keyword arguments of the multithreaded methods, with
Python's own binding of arguments to parameters as specification.

C60 - C63, C08. `Dist`: one process's array with everything recorded beside it; a
global array is a shape and a function on multi-indices, and `IsBlock` says that a
process holds its block of it. `numpy` itself (transposition, broadcasting, universal
functions, reductions, indexing) is stated in `Np`, `NpReduce`, `NpIndex` and applied
both to the local array (model) and to the global one (specification). Prove that the
result on each process is its block of the global result. `Global` extends C08 from
one axis to any number of axes.

C64. `Proto`: construction of a container from keywords and other containers, with the
choice of sources, memory that was not set and element types as parameters.

C10, C65. `Load`: `MPIArray.from_file` with any number of axes on top of `Slice` and
`PartIO`, then selections by axis name. `Picks` says which positions a selection names,
`Selected` restricts an array to positions on all axes at once; prove that datasets and
index maps are restricted by the same positions, whatever the way they are read.

C66. `Crawl`: the walk over the tree of datasets with an explicit stack. Prove by induction
over the tree that every dataset is visited once and moved to the first axis that fits.

C67 - C71. `Iter`, `Flow`, `Save`, `Files`, `Shorten`: tasks of the pipeline library as state
machines over what the user's hooks do. State which files are read, processed and written,
in which order and under which names, as a function of the inputs; prove it by induction
over the calls. For C71 the truncation of one number is that of the kernels of C13 and C14 on
the bits of the number; products, quotients and one over the square root have a relative error
about which only a bound is assumed.

C72. `Stellar`: exact arithmetic over the rationals with the Earth's rotation as a parameter;
prove that the estimate is rounded to the right day and that leap seconds are accounted for.

C73. `Forms`: the decorators that let functions of one time take lists and arrays; prove for
each function that its result on a collection is that of its elements, in any form.
`Forms/Grid*` does the same on arrays of any shape, given by their shape and the element at each index, with numpy's broadcasting: all functions
written out once more as sequences of array operations, and the result shown to be, place by place, the function of one time
(axes of length zero excepted).

C74. `Fmt`: decision tables for formats and filters, with the spellings of each setting as a
small separate relation; prove acceptance exactly, and that copying keeps the meaning.

C75. `Clock`: the calendar of `datetime`, and `strptime` as a search with backtracking. The
specification is the rule for the next day; prove that numbers of days and dates correspond,
and compare strings field by field.

C76. `Store`: files as functions from names to datasets, writes as a list of operations of all
processes in any order. The specification says what the file holds afterwards; prove it by an
invariant (every position covered so far holds the element) and join it to C10 for reading back.

C77. `Arch`: a tree as the list of its entries with their paths, a file as datasets (C76) with
attributes. The specification says, entry by entry, what reading gives; prove both steps of a
save by induction over the entries, and use C76 for writing and C10 for reading.

C78. `Reader`: files as trees, the search for datasets with its stack, the reader joined to C35,
and the times of samples with the median of the steps. Prove what is listed by induction over the
stack, and that gaps do not matter by counting the steps on either side of the median.

C79. `Sphere`: the functions on spherical polar coordinates over the real numbers of Mathlib, with
`Complex.arg` for `arctan2`; `nan` is a value of its own. Round trips from the properties of the
argument, unit vectors as derivatives, points on a great circle by trigonometry in its plane.
Specifications are in terms of dot products, lengths and angles. Rounding is outside the model.

C80. `Sphere`: ground coordinates as dot products with the directions east, north and up, distance
on the sphere as the angle between unit vectors (the triangle inequality from the determinant of
the products of three of them), rotations by Rodrigues' formula.

C81. `Fourier`: arrays as functions of their indices, transforms along one axis after the other as
sums of complex exponentials, with the exceptions of the wrapper. The specification has one sum
over all indices along the axes, for the transform and for the convolution; prove them equal by
induction over the axes, and the round trip from the sum of a root of unity over a period.

C82. `Fourier`: the filter bank block by block with the transform of real numbers, the profile and
the decorrelation with their zero padding. Specify a channel by the sum over its taps, the profile
as the response to a tone, the decorrelation as the correlation of the window with itself.

C83. `Build`: a task from its entry in the task list, on top of the model of `Config`: the class by
its name, groups of parameters, exceptions with the line they tell. The specification says which
group a value comes from; the world (modules, local tasks) is a parameter.

C84. `Build`: the whole document: options of the manager, levels of logging, versions, what tasks
are given, and the virtual environment in which a document is checked.

C85. `Runner`: names of profile files from the decimal digits of the rank; the table of task profiles
as a state machine over any history of profilers; peak memory over any list of samples; sizes in
binary units as exact rationals.

C86. `Runner`: the lines of a job script that load modules and start the pipeline, as text, and a
model of how the command line of `caput-pipeline run` is read; the specification is a round trip.

C87. `Loading`: tasks that choose files to load, with the containers they keep as objects that later
tasks may change; format strings by characters; the files that `Save` writes over any sequence.

C88. `Loading`: background jobs that zip, over any interleaving of saving and finishing; which process
starts a job comes from C54.

C89. `Nodes`: cores and memory that processes are told they have, for any number of processes on any nodes; the
text of the files that say so, by characters; which records of the log are shown.

C90. `Nodes`: processes that wait while others are active, as a transition system over any number of rounds; the
invariant counts messages.

C91. `Roots/TransitModel`, `Roots/Transit`: transits, risings and settings on top of the root search
of C53. The hour angle is the wrapped difference of two functions of time. Hypotheses: the unwrapped
angle increases and takes all values between two it takes; `brentq` returns the root of an increasing
stretch. Statement: the times are exactly the transits, each once, in order, when the cells turn less
than half a turn. Negation: a step below the documented bound misses transits; the location is cached.

C92. `Handle`: the files a container has open, as handles in a world of named files with contents; the
constructor, `from_file(ondisk=True)`, `close`, `to_memory`, `to_disk`, `flush` and the lock directory of
zarr files. Statement: close closes what the container opened and nothing else. Negation: the format
HDF5 given by name, zarr files, the lock of several processes, `to_disk` with a mode.

C93. `Mem/Names`, `Mem/NamesProps`: containers that restrict the names of their groups and datasets, over the tree of
C30. Statement: names that are not allowed are neither created nor shown. Negation: groups that are
made on the way to a dataset, and names with doubled slashes.

C94. `Views`: the dataset objects that a program gets from groups in memory, as references to memory and to
dictionaries; programs that create, get, delete, write, copy and redistribute. Statement: objects for the same
name are the same dataset; copies are independent in both directions. Negation: older objects after a
redistribution, redistributing a copy, chunks set through an object, objects in nested data types.

C95. `Rng/Seeds`, `Rng/SeedsProps`: the seeds of random tasks (Adler-32 of the name of the class, rank, seed of the
configuration or broadcast). Statement: a run can be repeated with the seed that was logged; processes and tasks have
different seeds. Negation: tasks of one class; names with the same checksum; a seed that is set on a task that exists.

C96. `Nodes/Check`: the task that checks the communication between processes, for every number of processes and every
network. Statement: it succeeds exactly if each message between each two processes arrives as sent in time. Negation:
a timeout that is not positive.

C97. `Cont/Tables`: containers with tables (`_table_spec`), for every hierarchy of classes and every sequence of objects made
before: an object that has been constructed has for each table the dataset that the most derived description of the table
asks for, with its axis, whatever was made before or is made later. What a class says about itself, and hence what loading
uses, is followed through the same sequences: there the tables appear only after something has been constructed.

C98. `Tod/Rest`: what `concatenate` takes from its first input: attributes, history, index maps, reverse maps and
datasets without a time axis, for every container in memory or on disk and an output in memory or in an HDF5 group.
Arrays are numbered cells, so that one can say which of them the output shares with the inputs; reading from disk makes a
new cell. The index maps of time axes are followed through all inputs.

C99. `Tod/Distributed`: the time-ordered datasets of distributed containers, with any number of axes, on every process of
any communicator: indexing through `global_slice` (C08), the kind of dataset that is made, and numpy's assignment with
broadcasting. Specification: each process has its block of the global concatenation.

C100. `Config/Shared`: property objects with the state they keep, shared by all classes and objects, and values as numbered
cells, so that one can say what is changed in place. A program is any sequence of operations; by induction, property objects
with one name are always in one of the states of a simulation relation, and reading, setting and configuring do what they
would with unused ones. Separately, no cell is held twice if all conversions make new values.

C101. `Split/Share`: all processes of `parallel_map` together, functions that raise, draws per process;
correctness of every returned list by reduction to a rearrangement of the numbered elements.

C102. `Pipe/Procs`: any number of processes, each with the state of `Pipe`, taking turns in any order; broadcasts are matched by their
order. Everything a process does commutes with replacing products, so processes whose hooks do the same up to products agree on every
choice; by induction over the turns each one runs as it would alone.

C103. `Mem/Places`: numbered trees whose datasets carry the name they were given, the operations of `Mem/Model` on them, and the step of a copy
that shares a dataset. Invariant over all histories: a dataset that can be reached has its path as its name. From it follow the theorems on
`name`, `file`, `parent` and `==` of objects that are looked up.

C104. `Bessel`: the functions of bessel.py on real numbers. The specification characterises the spherical Bessel functions by continuity, the first two and the
recurrence; that there is exactly one such family, and that it solves Bessel's equation, is proved. `jl_d` is shown to be the derivative where the values of `jl` are exact,
and off by no more than the errors of these values otherwise. `jl_d2` is not the second derivative: a theorem gives the condition under which it is one.

C105. `Bessel`: which formula is used for which element, that it is defined there, shapes of results. The values are exact outside the regions of the approximations. Not
shown: how good the approximations for large orders are. For small orders the one for small arguments is shown to be bad.

C106. `Names`: `__getattr__` of the module of constants for any table of values. A name is looked up, split at underscores, and the parts are looked up. Prefixed units are the
product; units with an underscore in their names cannot have a prefix, and two constants that are not prefix and unit are multiplied, too.

C107. `Ephem`: the wrapper as a state (loaded objects, files on disk) and the two sources as an arbitrary sequence of answers. Every use of the wrapper is a step. Invariant by
induction over the steps: what was loaded stays. That a reload replaces what is on disk but not what was loaded is shown by a witness.

C108. `Dirs`: `os.makedirs` step by step (looking for the parent, making directories one by one) and the three places that call it, for any number of processes whose steps are
interleaved in any way. Invariant: where a process is going to make a directory, the one above is there. Two of the callers handle a directory that appears meanwhile; the third does not,
which is shown by a witness.

C109. `Chunks`: a chunk is changed by taking its lock, reading it, writing it back and giving the lock back; the steps of any number of processes are interleaved in any way. Locks belong to
the directory of lock files; when it is removed, later locks are others. Invariant: what a process holds of a chunk is what the file has, and every cell has what its process has written so
far. Steps left decrease, and a process that waits waits for one that can go on. The array of C01's blocks is a corollary. Where the lock files go is a separate, small model of paths.

C110. `Abort`: processes as lists of operations (local work, collective calls, exceptions of several kinds), what the library click does with an exception that leaves the command (some kinds become
`sys.exit(1)`, which never reaches the exception handler), the handler that aborts all, and `MPI_Finalize` at the end, which waits for all. Theorems over all interleavings: with the handler, and
exceptions that reach it, there is no deadlock and the number of steps is bounded, and the job fails if and only if some process raised. Violated for exceptions that click takes for the wish of
the user to stop (`EOFError`, a broken pipe): one process exits quietly and the others wait for ever, in every continuation. The same without the option.

C111. `Glob`: names are lists of characters, a directory is a list of names in any order. `fnmatch` and `glob` of the standard library, with wildcards in the names of files and of directories, then `ensure_file_list` and
`from_mult_files`, which ends in the concatenation of C35. What a pattern stands for is specified apart, as an inductive relation between patterns and names and one between patterns and paths. The result for a permuted listing is the same since a sorted list without
repetitions is unique. Violations: numbers without leading zeros sort in another order than the times; a file whose name has brackets is not found under its name; names as bytes.

C112. `Fit`: a dataset is its shape, chunks and compression; operations are the making from a specification, the setting of chunks, the filling in of defaults, the reading of a file with a selection, copying,
conversion, deleting. Invariant over all sequences of operations: chunks fit. What HDF5 accepts is specified apart. Violations: chunks of a file are kept for a selection of it, which then
cannot be written; chunks given to `create_dataset` are not checked; axes of length zero; a specification with `chunks: None`; defaults are filled in where chunks were not allowed.

C113. `Pipe/Inter`: `runner` as a generator with a resumption point (frozen between the selection of a task and its
execution), `interactive` as an arbitrary function of the round, `next` with fuel for the rounds between two freezes. Refinement
to the run of C20-C23: after any calls of `next` that came back the tasks, the head and the log are those of the uninterrupted
run after the number of rounds carried out, and the kind of return tells its status. `run()` with any pattern of the flag ends
with the log of the uninterrupted run, and ends if that does. Leaving a runner: invariant over steps and restarts while the
first task has not finished (`_partial`). Expected violation: a new runner sets the head to zero, and once the first task has
been removed a task that lacks input is never at the head, so that it is never advanced and the run goes round for ever.

C114. No new model: the choice of the task is `nextTask` of `Pipe/Model` (`_next_task`, `_iter_tasks`, `_pipeline_priority`,
`_pipeline_is_available`). `Pipe/OrderSpec` states the documented rules on their own (`Ready`, `Worth`, `placesAfter`). Decision logic
and invariant: a round that adds a hook call to the log has chosen a ready task that no ready task is ahead of; a task without inputs
is only chosen if no task is ready, and then it is the head of the list, before which all are finished; with C21 this gives that
products are used up. Witnesses by evaluation of a run, and one by induction on the number of products.

C05 (memory). `Mpi/Order.lean`: the same `gather` on local arrays that are views of memory: in row-major
order, in column-major order (a transposed array), or with gaps (a slice). mpi4py sends the memory of an
array that is contiguous in either order and refuses others; `_prep_buf` looks at types that MPI does not
know as bytes, which works for row-major arrays. Prove the claim for row-major arrays and for `allgather` in
every case; the negation for transposed arrays, for slices, and without MPI.

C115. `Proto/Create`: `create_dataset` as one process sees it, for groups with and without a communicator, requested shape,
type and axis given or not, and data that is missing, a numpy array, a dataset on disk, a distributed array or a list.
Arrays are those of `Dist`. Redistribution is a parameter that gives blocks (C04). Specification: the block of the global
array whose elements are converted. The conditions that a process decides by its own block are looked at for two processes.

C116. `Serial`: one process, with `mpi4py` or without (`mpi : Bool`); the communicator is then `None`, the size 1 and the
rank 0, and the names of `mpi4py.MPI` are missing from `mpitools`. Lists, `parallel_map`, new arrays, `wrap`, `copy`,
universal functions (up to the communicator they find), `allreduce`, `from_file`, `to_file` are written with that flag and
compared; `redistribute` and `gather` are those of `Mpi` with `none` for the communicator. Specification: the results
of the one-process case, stated outright.

C117. `Look`: a world of numbered pieces of memory and numbered array objects; a container in memory or on disk with its axes; `index_map`
gives new array objects that show the memory of the container (in memory) or a copy (on disk). Later operations on the axes are a list; the
mapping keeps what it shows (invariant: numbers handed out are below the next one). Comparison: `Mapping.__eq__` is the comparison of two
dictionaries, whose values are compared by identity first and then by the truth of the elementwise comparison, which numpy refuses unless there is
one element; after that `allequal`. What numpy does with empty arrays and with shapes that do not fit depends on its version and is a parameter.
To prove: a mapping equals itself; equality that is answered `True` means same names and values; with one entry per axis the answer is right;
otherwise it raises, already for two looks at the same container. `datasets` against the listing of C93. `data`/`weight` as decision logic.

C118. `Log`: the loggers of Python with their levels (a function of the dotted name, 0 = not set),
the handlers of the root and their filters; `_setup_logging` and the constructors of the tasks
`SetMPILogging`, `LoggedTask`, `DebugInfo` as changes of that state. Spec: the level of the longest
given name that is a prefix, and the thresholds of the logging tasks. Shown by induction over the
tasks; negations for tasks of one class, for repeated logging tasks, for the levels of
`DebugInfo`, and for what is left for the next pipeline.

C119. `Tasks/TimeLimit`: what PyYAML makes of a text of digits, colons and dashes (decimal, octal and
base 60 integers, else a string), the conversion back to text, and what slurm and PBS make of it
(by their documentation). Spec: both texts mean the same number of seconds. Negation for slurm: each
unquoted text with colons that does not begin with 0 means 60 times as much.

C120. `Tasks/Systems`: the table of systems and the list of mail types as a state; `register_system`
on the contents of a file, `_resolve_system_config`; a process starts from the built-in systems.
Spec: the description given last. Negations for an unknown system (an unassigned variable), a file
that is refused half way, mail types of a description that was replaced, a missing `system`, and
the command, whose table ends with its process.

C121. `Dist/Dset`: datasets in memory over the model of distributed arrays of C63; length and iteration by the local array,
comparison by the local arrays. Length and rows are right unless the first axis is the distributed one; equality is right if all processes
are asked and both are distributed over the same axis; negations: first axis, processes that disagree, different axes, common and
distributed, arrays without axes.

C122. `Types/Order`: machines of either byte order, types with the marks of `dtype.byteorder`, arrays as bytes. Spec: the value of a
part of an element as a sum over its bytes, by the order meant. Values are kept for all types; the mark becomes native for simple types
in the order of the machine. Negations: compound types (their own mark says "does not apply"), and arrays in the other order.

C19, integers and views. `Quick/Layout`: arrays with one or two axes by their places in memory; only arrays that lie row by row and may be
written are taken. Integers: sums of two wrap around at 32 or 64 bits. Lower and higher are right for all types; split is the quantile
rounded down if sums fit. Negations: large integers, views.

### C123 Checking configuration files

`Build/Lint.lean` on top of `Build/Model.lean` (C84). The state of the process is the path of modules and the modules that have been imported. What a document can import is what is
imported already, and then what is found along the path. One file: activate its environment (`loadVenv`), then `fromYaml` with `lint`; afterwards the modules of its tasks are imported.
To prove: with and without `lint` a document gives the same tasks or the same error; if no file names an environment, the list is accepted exactly if each file is accepted alone; the error
is that of the first wrong file. Expected violations: the environment of a file stays for those after it; imported modules stay, so that a second environment is not looked at; files after a
wrong one are not checked; `run` does not activate the environment that the check does.

- **C124** (`Pipe/Ports*`). The two tasks are modelled as objects with state (`Input.next`, `Output.next`). A run of
  the manager is the one of C20-C24 with an arbitrary stream of hook results; `inputPlays` / `outputPlays` say that in
  its log the calls on one task have the results an `Input` / `Output` gives. To prove: the products under the key of
  an `Input` are those of its items, in order (needs: a task without `requires` is never skipped, a source is left only
  when it asks to stop); `outputs` is the callback over all products under the key (from C23); both together; the run
  ends (from C22); such runs exist for every list of items. Expected violations: an item `None` disappears, of a tuple
  only the first entry comes out, an array is refused or (one item that counts as false) ignored, a callback that counts
  as false is not called, an `Input` is used up by the first run.

- **C125** (`Mem/Failed*`). Uses the tree operations of C30/C31, which return the tree and the exception. To prove: for
  `create_group`, `require_group` and `del` an exception means the very same tree; for `create_dataset` and
  `require_dataset` the same if the groups on the way are there already or cannot be made; otherwise all that was there
  looks the same and only empty groups on the way were added, and repeating the call gives the same tree and the same
  outcome as without the failure. Expected violations: the empty groups that a failed `create_dataset` leaves, which
  make a later `create_group` fail; with a name that ends in a slash `require_dataset` cannot be repeated.

- **C126** (`Config/Deprecated*`). The functions of C26 once more, with the warnings they give and with warnings turned into
  errors. To prove: forgetting the warnings gives the functions of C26; the warnings of a configuration are those of
  the deprecated declarations whose key it has, in order, and for attributes declared once these are the deprecated
  properties that it sets, once each; getting and setting warn exactly if the declaration found is deprecated; without deprecated
  properties in use, turning warnings into errors changes nothing. Expected violations: a deprecated declaration that
  is overridden still warns, and warns twice if both are deprecated; the warning has the name of the
  attribute instead of the key; with warnings as errors the value is set all the same.

- **C127** (`Forms/Deco*`). The three decorators over any function, with arrays of any shape as functions of the index, and with
  numpy's broadcasting and `np.vectorize`. The specification says elementwise which index of an argument goes with an index of the
  result. To prove: shape, elements and errors of `vectorize`; that `scalarize` and `listize` of a function that is elementwise on
  arrays are elementwise on all forms. Expected violations: without `otypes` the first result decides the type of all
  others; arrays without axes are refused and shapes such as (0, 3) are lost by `scalarize`.

- **C128** (`Pipe/Crash*`). The state of the tasks when a hook has raised, has returned a wrong number of outputs, or a task has refused a product, on top of the
  runner of C20 and C113; a new runner is `restart` of that state. To prove: `setup` and `finish` are called again with the
  same arguments in every new run that comes to its end; for `next` the new run is the one after a call that returned `None`, round by
  round, and the account of products stays exact if the failed call counts as received. Expected violations: the products of the failed
  `next` are never given again; outputs of a wrong number are lost and the hook is not called again.

- **C129** (`Tasks/Documents*`). Events are the opens (which truncate) and the partial writes (at the offset of the process) of all
  processes, in any order the file system allows. To prove: when all are through, each file is its document; names of files differ if
  kinds or roots do; other files are unchanged. Expected violations: a process that has set the task up may see an empty
  file; without a root the file is called `None_...`; processes with different versions leave a mixture.

None of the properties is outside what an executable model can express.

## What is modelled, and how far

Paths are below `/repo/caput`. What is not listed is not modelled.

| Area | Code | Left out or simplified |
| --- | --- | --- |
| Split | `util/arraytools.py` split_m, partition_list; `util/mpitools.py` split_local, parallel_map | mapped function pure; random permutation an argument |
| Slice | `mpiarray.py` global_slice helpers, `_len_slice`, `_reslice` | index arrays |
| PartIO | `mpiarray.py` _partition_io | sizes are naturals |
| Mpi | `mpiarray.py` redistribute, gather, allgather, wrap; `util/mpitools.py` transpose_blocks; common/distributed conversion | messages buffered, one per ordered pair and tag; MPI errors; non-contiguous buffers and unsupported types except in gather; attributes and chunks in conversions |
| Reshape | `mpiarray.py` reshape and its checks | one process at a time; numpy's choice of order per process is a parameter |
| Trunc | `util/truncate.hpp`, `truncate.pyx` | NaN tolerances; in arrays infinite tolerances and elements; undefined behaviour of C as on x86; product `err * 2^k` exact; rounding of tolerances a parameter |
| Median, Moving | `algorithms/median/MedianTree*.hpp`, `weighted.pyx` | NaN; additions are a parameter (`addDouble` models the rounding crash); final division exact; at most two sizes; machine integers without bounds; parallel loop as a sequential map |
| Quick | `weighted.pyx` quick select | exact arithmetic in `Quick/Model`, any arithmetic and NaN in `Quick/Float`; overflow of indices and of integer data |
| Pipe | `pipeline/_pipeline.py` manager, task state machine, wiring checks | one process (see Pipe/Procs); no breakpoints or profiling (interactive mode: Pipe/Inter); user hooks are arbitrary streams; nested lists as keys; broadcast_inputs off |
| Config | `config.py`, `pipeline/extensions/_configtypes.py` | one attribute per property; deprecation warnings; equality of containers in enum options; parsing is a parameter |
| Lock | `memdata/_io.py` lock_file and its use | no power loss; paths as (directory, name); opening the lock succeeds |
| Mem | `memdata/_memh5.py` tree, create/delete, deep copy, attributes | one process; dataset construction a parameter; skip_distributed, postprocess, compression, distributed datasets and string conversion in copies; UTF-8, the texts of floats and numpy's rendering are parameters; the JSON encoder and decoder are modelled (`Mem/Json`) without lone surrogates |
| Tod | `containers/tod.py` concatenate, time selection | filters of every kind are in Tod/Filter (those that change the order of axes are not modelled), attributes and what has no time axis in Tod/Rest, distributed data in Tod/Distributed |
| Cont | `containers/_core.py` specifications and MRO, history; `_util.py` copy_datasets_filter | attributes of one dataset at a time (`Cont/FilterAttrs`); `repr` and `literal_eval` of lists of strings (`Cont/Literal`), which characters are printable being a parameter |
| Types | `util/typeutils.py` | field titles; collection subclasses other than named tuples |
| Util | `util/arraytools.py` unique_ordered; the array cache | `cachetools` from its published source |
| Tasks | `pipeline/tasklib` accumulate, selections, NaN check, zip sharing; `pipeline/runner` job creation | hosts as numbers; the zipping itself, dumps, log messages; script model covers keys and types only |
| Invert | `algorithms/_invert_no_zero` | finite inputs, no signed zeros; complex quotient exact with rounded parts; layout by two flags; `out` of the type of the input |
| Obj | `util/objecttools.py` | temporaries; recursion limit in units of `sizeof` calls; complex numbers, dates, sets; arrays with one axis |
| Rng | `algorithms/random.py` | generators abstract; `out` layout by one flag; sizes below 2^53 |
| RowWrite | `util/mpitools.py` lock_and_write_buffer, parallel_rows_write_hdf5 | writes complete and not interrupted; arrays contiguous |
| Dist | `mpiarray.py` transpose, `__array_ufunc__` (call, reduce, accumulate), allreduce, `__getitem__`, sanitize_slice, global_slice, `__array_finalize__` | functions with one result; `where` and other methods; element types; boolean masks and index arrays with several axes; assignment |
| Proto | `containers/_core.py` ContainerPrototype.__init__, add_dataset; `memdata/_memh5.py` MemGroup.create_dataset | conversions are parameters; `copyattrs` by its effect (C33); chunks and compression |
| Serial | `util/mpitools.py` world, size, rank, `_SelfWrapper`; `mpiarray.py` MPIArray.__new__, wrap, copy, allreduce, from_file, to_file, `_get_common_comm` for a missing communicator | what a container does without MPI; barrier, bcast (no effect on one process) |
| Look | `memdata/_memh5.py` ro_dict; `containers/_core.py` index_map, reverse_map, creating and deleting them, datasets; `containers/_basic.py` data, weight | axes with one dimension; what numpy does with empty arrays and shapes that do not fit is a parameter; order of names on disk not modelled; arrays given by the caller are copied (C64) |
| Load | `mpiarray.py` from_file, `_partition_sel`, `_expand_sel`; `containers/_core.py` _make_selections; `memdata/_memh5.py` from_file, selections in deep_group_copy and _distributed_group_from_file | opening files, byte order, string conversion, attributes, hints, `ondisk`, selections that are single integers |
| Store | `mpiarray.py` to_hdf5, to_zarr, to_file, _to_hdf5_serial, _create_or_get_dset; `memdata/_io.py` open_h5py_mpi | writes are atomic, in any order; redistribution a parameter (C04); byte order; names of lock files; an exception on one process is one of the call |
| Arch | `memdata/_memh5.py` MemGroup.to_file, from_file and their distributed forms, MemDiskGroup.save, _resolve_subclass | attribute values copied as they are (C33); mode `"w"`; no hints given as a dictionary, no selections (C65); strings in ASCII |
| Reader | `containers/tod.py` TOData.time, TODReader, _copy_non_time_data, _dset_has_axis; what concatenate does to `start` and `stop` | times are rationals; no distributed data, no conversion of strings; the concatenation is that of Tod |
| Sphere | `astro/coordinates/_spherical.pyx` and `spherical.py`, all functions | floating point numbers are real numbers: no rounding, no overflow, no negative zero; arrays are lists of vectors; definitions are noncomputable, so they are specified and proved but not run; `Angle` objects are their radians |
| Fourier | `util/fftw.py` FFT; `util/pfb.py` PFB | numbers are exact complex or real numbers; windows are given by their values; the cubic spline through the profile; threads and flags of FFTW |
| Build | `pipeline/_pipeline.py` _get_versions, Manager.from_yaml_str, _setup_logging, _setup_tasks, _get_task_from_spec, Task._from_config; `util/importtools.py` import_class; `pipeline/runner/_core.py` _load_venv | from the YAML loader, mappings, lists and scalars (config.py 527-574 and PyYAML's `construct_yaml_map`); anchors, merge keys and tags left out; `__init__` of tasks; entries of the task list that are no mappings; validation and adding of tasks are parameters (C25) |
| Runner | `util/profiler.py` Profiler, IOUsage, PSUtilProfiler (table, peak, units); `pipeline/runner/_scheduler/__init__.py` _create_job_environment_strings, queue (options, submit command); `_default_systems.toml` run lines and status commands; `pipeline/runner/_cli.py` run | what profilers and `psutil` measure; failing writes; logging; shell quoting and special characters; the rest of `click`; `__eq__` of PSUtilProfiler |
| Loading | `pipeline/tasklib/io.py` _load_file, LoadFilesFromAttrs, LoadFilesAndSelect, LoadFilesFromPathAndTag, Save, SaveZarrZip, WaitZarrZip | selections and distribution of what is loaded; format specifications other than plain fields; what `7z` does within a job; quoting of paths in its command |
| Nodes | `util/mpitools.py` cpu_count, can_allocate, available_memory_shared, MPILogFilter, active, close; `pipeline/tasklib/base.py` _log_level | how long messages take; memory that changes while it is read; numbers in `aprocs` that are not ranks |
| Handle | `memdata/_memh5.py` MemDiskGroup `__init__`, close, from_file on disk, to_memory, to_disk, flush, get_file | contents of files are abstract; modes and missing methods of zarr groups by documentation |
| Mem/Names | `memdata/_memh5.py` MemDiskGroup access and creation; `containers/_core.py` allowed names | data in memory |
| Views | `memdata/_memh5.py` dataset objects: `__getitem__`, copy, view, chunks, redistribute, deep_copy_dataset; `mpiarray.py` memory of redistribute | one tree without groups; datasets have memory of their own; global contents |
| Rng/Seeds | `pipeline/tasklib/random.py` RandomTask; `_pipeline.py` `_from_config` order | the generator itself is C50 |
| Nodes/Check | `pipeline/tasklib/debug.py` CheckMPIEnvironment | polls instead of seconds; logging and Abort as outcomes |
| Cont/Tables | `containers/_core.py` TableSpec | dictionaries shared between class bodies; `_axes` given as a list; the rest of the constructor |
| Tod/Rest | `containers/tod.py` concatenate 376-475 and _copy_non_time_data, as to what comes from the first input; `containers/_core.py` 93-166 index and reverse maps; the part of `_memh5.py` create_dataset that shares or copies | the output group is new; values of attributes change by given functions; types are byte strings, unicode strings, or others; not distributed |
| Tod/Distributed | `containers/tod.py` concatenate 482-590 for one dataset with any number of axes on one process; `mpiarray.py` 406-414, 501-502 assignment through `global_slice` (reading is in Dist/Global); `_memh5.py` 1204-1245, 1410-1450, 1573-1577 | no filter; assignment for as many axes on both sides; an HDF5 output is what one process puts there |
| Config/Shared | `config.py` Property 90-181 and the loop of `read_config` 233-265, for any classes, objects and sequences of calls, with the remembered names and keys | conversions return their argument or make a new value; all their exceptions are one; no deprecation warnings |
| Split/Share | `util/mpitools.py` partition_list_mpi, mpirange, parallel_map on all processes | functions with state; that MPI reports errors of processes |
| Pipe/Procs | `pipeline/_pipeline.py` `_next_task` with its broadcast, `runner` on all processes | communication inside hooks; the broadcast does not make the root wait |
| Mem/Places | `memdata/_memh5.py` `_MemObjMixin`, the result of `__getitem__`, `create_group`, `create_dataset`, names of stored and shared datasets, `MemDataset.copy`, `==` of groups and datasets | classes of groups; contents of datasets are one value, compared by a given function |
| Bessel | `astro/coordinates/bessel.py`: all functions | real numbers in place of floats; orders are natural numbers; arrays have one axis; `scipy.special.spherical_jn` is a parameter, exact in the theorems |
| Names | `astro/constants.py` `__getattr__`, `__split_prefix` | tables are parameters; a table entry is a number or something that cannot be multiplied |
| Ephem | `astro/skyfield.py` `SkyfieldWrapper` | skyfield's loader: opens files of a directory, downloads those missing; contents of files are version numbers; warnings left out |
| Dirs | `pipeline/extensions/_extensions.py` the making of directories in read_process_write and the two write_output; Python's `os.makedirs` and `isdir` step by step | permissions, links, `.` and `..`; nothing removes directories meanwhile |
| Chunks | `mpiarray.py` to_zarr (the writing), `fileformats.py` ZarrProcessSynchronizer and remove_file_or_dir; of the library zarr: a chunk is read, changed and written back under its lock | the making of the file and of the dataset; processes that fail; memory of the storage (a written chunk is seen by all at once); `.` and `..` in names |
| Abort | `util/mpitools.py` enable_mpi_exception_handler, its use in run_pipeline; of click `main` with exceptions; of MPI `Abort`, collective calls as barriers, and `Finalize` | what tasks do (lists of operations); exceptions in other threads; exit codes of click other than 1 |
| Glob | `containers/tod.py` ensure_file_list, from_mult_files, the start of TODReader; of the standard library `glob` and `fnmatch` | components `.` and `..`; other keyword arguments; opening of a file is a parameter |
| Fit | chunks and compression of datasets: `add_dataset`, `_ensure_chunked`, setters of chunks, `create_dataset`, conversion, `copy`, reading in `deep_group_copy`; what HDF5 accepts | data, distribution, datasets on disk; selections are numbers of entries |
| Crawl | `containers/_core.py` Container.redistribute | what redistributing one array does (C04); lack of memory; containers on disk |
| Iter | `pipeline/extensions/_extensions.py` _OneAndOne, SingleBase, IterBase, start of GroupIOMixin.write_output | reading and writing are parameters; logging; parent directories |
| Flow | `pipeline/tasklib/base.py` group_tasks; `tasklib/flow.py` | hooks are parameters on a shared state |
| Save | `pipeline/tasklib/base.py` ContainerTask next, finish and the handling of outputs | format strings of literal text and plain fields; writing succeeds; compression and history |
| Files | `pipeline/tasklib/io.py` list_of_filelists, list_or_glob, list_of_filegroups, LoadFilesFromParams | file system constant; `glob` a parameter; recursion depth a parameter |
| Shorten | `pipeline/tasklib/io.py` Truncate | numbers of the type, truncated by the kernels of C13 and C14; arithmetic exact but for a relative error; chunks; distribution |
| Stellar | `astro/time.py` unix_to_era, era_to_unix, leap_seconds_between; `astro/observer.py` stellar angle and day | exact numbers; rotation of the Earth and leap seconds are parameters; one time at a time |
| Forms | `util/arraytools.py` scalarize, listize; the functions of `astro/time.py` and `astro/observer.py` they decorate | exact numbers; one-dimensional collections |
| Fmt | `memdata/fileformats.py` compression settings, guessing and checking a format; `tasklib/base.py` settings of datasets in a task | what `h5py`, `zarr` and `numcodecs` make of the arguments |
| Clock | `astro/time.py` datetimes, time strings, ensure_unix, time_of_day; vectorize, scalarize | exact numbers; `datetime` and `strptime` as in CPython on Linux; times of Skyfield left out |
| Log | `_pipeline.py` _setup_logging (levels), `tasklib/base.py` SetMPILogging, LoggedTask, the format of rank and size, `tasklib/debug.py` constructor of DebugInfo | loggers, handlers and filters as in Python's `logging`; time and text of messages, address and package list left out |
| Tasks/TimeLimit | `pipeline/runner/_scheduler/__init__.py` (time in `_resolve_job_script`), `_core.py` `_load_config` | texts of digits, colons and dashes; YAML 1.1 integers by PyYAML's patterns; slurm and PBS by their manuals |
| Tasks/Systems | `pipeline/runner/_scheduler/__init__.py` register_system, _resolve_system_config; `_cli.py` register-system | of a description only the keys that are looked at; reading of TOML is not modelled |
| Dist/Dset | `memdata/_memh5.py` len, iteration and == of MemDatasetCommon and MemDatasetDistributed; `util/objecttools.py` comparison of arrays | name, place, attributes, chunks and compression are one value; element types and warnings left out; numpy's iteration by repeated indexing |
| Types/Order | `util/typeutils.py` check_byteorder, has_matching_byteorder, ensure_native_byteorder; their use in `memdata/_memh5.py` | arrays are lists of bytes; fields of compound types follow each other and are simple; sending is not modelled |
| Quick/Layout | `algorithms/median/weighted.pyx` quantile, types of the arguments of _quickselect | arrays with one or two axes; Cython's demands on `[:, ::1]` by its documentation; C ints wrap around |
| Build/Lint | `pipeline/runner/_core.py` `lint_config`, with the path of modules and the modules imported so far | files can be read and are read alike by both loaders; modules imported by modules and versions of modules are left out |
| Ports | `pipeline/extensions/_pytools.py` `Input`, `Output` | whole; the truth value of what is given to `Input` and of the callback; iterators that are changed while in use are not modelled |
| Failed | `memdata/_memh5.py` `create_group`, `require_group`, `create_dataset`, `require_dataset`, `__delitem__` | as for C30/C31: what is raised while the dataset itself is made is any exception, after the groups on the way are made |
| Config/Deprecated | `config.py:90-204` warnings about deprecated properties | on top of `Config/Model`; a warning is the name in it; filters of the warnings module: shown always, or turned into errors |
| Forms/Grid | `astro/time.py:92-154, 255-293`, `astro/observer.py:137-268`, `util/arraytools.py:224-331` | arrays of any shape; rational numbers; Skyfield's times are computed for each element; keyword arguments left out |
| Forms/Deco | `util/arraytools.py:183-331` vectorize, scalarize, listize | any function and shapes; `np.vectorize` and broadcasting as documented; keyword arguments, effects of the function, several results, Skyfield times |
| Pipe/Crash | `pipeline/_pipeline.py:251-372, 1092-1177` the manager after an exception, and new runs | exceptions of hooks, wrong numbers of outputs, products that a task refuses |
| Tasks/Documents | `pipeline/tasklib/debug.py:138-193` the tasks that save the configuration and the versions | opens and partial writes of all processes interleaved; the text of `safe_dump` is a parameter |
| Roots | `astro/observer.py` _solve_all, _fixup_interval_and_step, transit_times, rise/set times, skyfield_obs | positions of sources are parameters; exact grid; brentq by its documentation; leap seconds |

Behaviour taken from knowledge of libraries rather than from `/repo`: `cachetools`
(C43), `dtype.descr` and `np.dtype` (C40), the texts that `repr` and `literal_eval` use for strings and lists of strings (C38),
the texts of the `json` package (C33),
`np.testing.assert_equal` (C49), signatures of `numpy.random.Generator` (C59),
`brentq` (C53), `lockf` and `memoryview` (C51), `numpy` arrays with several axes
(C08, C60 - C63; files `Dist/Np*.lean`), in particular that a view is made before its
axes are permuted; selections of `h5py` (at most one list, increasing) and of `zarr`
2.13 or later (all lists: element by element; else at most one list) (C10, C65).

## Where the code does not have the property

Most of these are proved as theorems `Cnn_..._violated`, listed with each claim in
`MANIFEST.json`; a few details beyond those theorems were only read off the code.

* C04: without `mpi4py` an array keeps its axis whatever axis is asked for, and an axis that does not
  exist is not refused; naming the current axis by its negative number starts the exchange and raises;
  the memory check is per node, so processes can disagree.
* C05: gather sends memory: transposed arrays are scrambled, slices with gaps raise or hang; gather and
  allgather raise without mpi4py; gather overwrites the receive request of the root, whose own block is then
  copied without waiting.
* C06: a list as `shape` is rejected on one process only; middle dimensions are only
  checked by their product in the parallel path.
* C08, C10: negative integers, strides and reversed selections (see notes). `np.newaxis` in
  `global_slice` is dropped or shifts the distributed axis; a list is applied to the block. `[...]` and a
  numpy integer by themselves raise TypeError, a list by itself is taken for a tuple, and several values are
  not shared out over the blocks: a process whose block begins where the selection stops raises.
* C11: an empty local block accepts shapes that others reject, and a wildcard divides
  by zero; a negative stored axis is rejected; order "A" can differ between processes.
* C12, C13, C14: boundary tolerances, gaps in the float exponents, overflow, NaN
  turned into zero by great tolerances, negative weights and complex numbers (see the theorem names).
* C16 - C19: "higher" and "lower" medians at ties, sizes one and below, NaN rule at the first
  element and in 2D, a crash through rounding in the weights, single elements in quantiles; quantiles
  take one neighbour instead of the mean when rounding hides a tie (six equal weights 0.1). In 2D a negative size gives
  zeros everywhere, and two sizes in a list are a `TypeError` unless the first is smaller (a typed tuple argument).
* C26, C27: overridden converters and keys, configuration half applied after an error, NaN
  and booleans accepted, empty defaults, file format and logging values.
* C24: limit 0 emits one product.
* C25: two tasks with `out: null` are rejected as duplicates; a task without `type` and
  with a bad input raises KeyError.
* C29: an exception before the temporary file exists raises FileNotFoundError and leaves
  the lock; zarr directories cannot be removed or replaced.
* C30, C31: names ending in "/" store a dataset under ""; create_dataset overwrites
  datasets and whole groups; a path through a dataset gives IndexError; require_dataset
  ignores a mismatch; a failed create_dataset leaves parent groups.
* C32, C33: copying a subgroup raises KeyError; 0-d datasets raise IndexError; shared
  datasets get their attributes converted in place; strings starting with the JSON marker
  are decoded; mixed lists, datetimes, numpy integers and non-string keys do not come back; ragged nested lists
  cannot be written to HDF5.
* C34: `distributed_to_common` on one process raises; slices are taken on axis 0.
* C35, C36: start before the first sample gives uninitialised samples; an empty selection
  at a border loses datasets; intervals outside the data raise IndexError. A filter that is a method
  or other object is called with the wrong number of arguments; one with a second parameter that has
  a default is given the slice for it.
* C37: in a diamond with a class without own specification the base overrides the override.
* C38: names recorded without entry on disk; entries stored by reference; entries of files in the old format without an order are not listed, or cannot be read if the file is open for reading.
* C39: the caller's dictionary is changed; index arrays refused; wrong data when `axis`
  lists only some of the selected axes; common to distributed UnboundLocalError; a destination of another shape is filled by
  broadcasting; a source distributed over a selected axis is left distributed over another (`_util.py:154`); an attribute
  that is a string with the JSON marker is decoded, or the copy fails after the data were written.
* C40: sub-array shapes lost; gaps become fields; big-endian unicode not converted;
  has_kind raises IndexError on nested structures with one field.
* C41: frozensets keep bytes; named tuples raise; dictionaries with bytes and text keys shrink.
* C43: replacing a held value by a larger one drops an item needlessly.
* C45: map selections override index selections although the documentation says otherwise.
* C46: `failed` re-queues running jobs; a finished job with a temporary directory is
  submitted again; repeated `--var` loses values; the command `template-run` starts no run
  unless it submits.
* C47: 1/DBL_MAX rounds down, so that 2^-1024 inverts to infinity.
* C48: a module inside gives 0 for the whole sum; deep structures raise RecursionError;
  frozensets and object arrays are not counted.
* C49: with arrays equality is not transitive; an empty array equals every number.
* C50: an `out` array not in row-major order is returned unfilled.
* C51: all processes write at the start of the file; the dataset is never written.
* C52: on-disk containers are not checked; 0-d datasets raise IndexError; None replaces a
  skipped container.
* C53: grid spacing always exceeds dx; roots can be missed; a root on an inner grid point
  is reported twice; tiny values raise ValueError.
* C55, C56: no mutual exclusion for the same name; `x` and `x.lock` collide; rank 0
  renames without a barrier.
* C57: the pbs template asks for `module` but the code provides `modules`; an unknown
  system raises UnboundLocalError.
* C58: `out` in another memory order gets transposed values; non-contiguous `out` is not
  filled; `out` is ignored for integers; lists raise TypeError.
* C59: `endpoint` by position is dropped; Poisson numbers become floats; `out` by position
  is ignored; `out=None` raises; a contradicting size is ignored.
* C60: negative axis numbers and `None` raise; `.T` leaves the records untransposed.
* C61: nested lists are not checked; a plain array of the local length is accepted on some
  processes and refused on others; arrays made with a negative axis and `out` arguments can
  be recorded with the wrong axis; `matmul` is refused.
* C62: accumulating along the distributed axis named by its negative number gives wrong sums;
  calls without `axis` raise; processes without elements raise for `max`; totals with
  `keepdims` cannot be combined; `out` is refused for totals.
* C63: the slice from 0 to the local length is taken for the whole axis on one process only;
  a list with an integer moves the distributed axis without the record; `::1` gives a plain array.
* C64: `skip_datasets` still creates those of `copy_from`; copies between distributed and common
  datasets are wrong or raise; a source of length one is repeated; new distributed datasets are
  not zero; axes given as lists raise; index maps are shared with the source.
* C65: selections are ignored by `MemDiskGroup.from_file` and `Container.from_file`; datasets
  that the class does not declare are not restricted; two lists are paired (Zarr) or refused
  (HDF5). Read off only: `deep_group_copy` into a file without string conversion writes the
  whole dataset whatever the selection (`memdata/_memh5.py:2578`).
* C66: a number below minus the number of axes is passed on as another negative axis without
  a warning; a container inside a tree redistributes the whole tree.
* C67: inputs that count as false are not cast; output names without a directory fail; the
  mixin for groups cannot write, since `MemGroup` is imported only for type checking.
* C68: a part without `setup` takes an argument from the next one; surplus arguments are
  dropped; a part that gives `None` does not end the iteration; the copying and deleting
  tasks stop at the first input.
* C69: inputs without a tag make all outputs share the tag and the file; outputs of one call
  overwrite each other; the count is not that of the iterations.
* C70: files with `[`, `*` or `?` in the name are lost, mistaken or searched for endlessly;
  in groups the documented patterns and Zarr stores are refused; lists of lists stay nested. In
  `list_of_filelists` matches are not sorted, patterns without a star and Zarr stores are refused.
* C71: a precision written without a point (`1e-6`) is a text in YAML and silently means the standard `1e-4` (`C71_notation_violated`;
  that PyYAML loads no scalar without a point as a float is library knowledge);
  weights with axes in another order are misaligned; an empty dict means off in a class
  and on in a configuration; configured datasets outside the specification are ignored; values
  in the gap of C13 become zero.
* C72: an angle reached during a leap second is given a time one second off; fifteen thousand
  years from the zero the whole day is wrong.
* C73: arrays without axes and empty lists are treated differently from function to function;
  arguments given by keyword are not converted. An array whose first axis has length zero
  gives an array with one axis, whatever its other axes (`C73_empty_shape_violated`).
* C74: an explicit format is refused if the suffix is unknown; codecs other than LZ4 and filters
  such as LZF do not carry over to Zarr; changing the filter of a dataset keeps the old options.
* C75: a datetime in a zone other than UTC is written with its own hour and a `Z`; zones in
  strings are ignored; a string with a digit missing is read as another time.
* C76: the file is opened for all processes, not for those of the array; refusing compression
  leaves an empty dataset; without parallel HDF5 chunks and compression are dropped; an array
  distributed over axis -1 cannot be written; options of one filter are joined with another. The
  name of the Zarr lock is made by putting a dot before the whole path.
* C77: `hints=False` is ignored when saving; the marks for distributed datasets come back as
  attributes; chunks and compression are lost by distributed reading; strings in distributed
  datasets are not converted; objects on disk cannot be saved; a class that cannot be imported
  ends in an `UnboundLocalError`; a class recorded before is kept when another one is saved.
* C78: a reader searches the file for datasets but reads through a container, which shows only the
  root: datasets in groups are listed and can be selected, and are silently not read. The selection
  of samples, counted along the axis called time, is used for every time axis, so that a longer one
  is cut although everything is selected. `concatenate` does not copy the history although it says
  so. `time` is `nan` for a single sample with an alignment. Dictionaries given as `start` and
  `stop` are changed by the call. (Not in the model: the data must be in a list, a tuple is an
  `AttributeError`.)
* C79: `cart_to_sph` gives `nan` for the origin, and for an array of integers truncates radius and
  angles, the angle to the axis from the truncated radius. `sph_dot` multiplies all vectors of one
  array with all of the other, while the stub says the arrays are broadcast. `thetaphi_plane_cart`
  refuses vectors with a radius. `great_circle_points` between equal points are all `nan`. Lists
  are refused by `sph_to_cart` although it is said to take anything like an array.
* C80: `ground_to_sph` takes every point for one above the horizon, which its arguments cannot
  tell. `projected_distance` adds in place: one coordinate to the east cannot be broadcast against
  several to the north, although the other way round it can.
* C81: what is like an array without being one is refused with the message that the transform is not
  initialised, and a direction the object was not made for is a `RuntimeError` instead of the
  `AttributeError` of the documentation. Real types are refused although transforms between real
  arrays are said to be supported.
* C82: `evaluate_channel_profile` keeps the profile of the first call, whatever `norm` is later.
  `decorrelation_ratio` is an `IndexError` if the padded window has an odd number of samples; it
  counts the highest frequency twice, so that windows in which neighbours do not cancel give ratios
  that are wrong and differ forwards and backwards; with `oversample` one the correlation goes round.
  The documentation gives 4 for the default of `oversample`, which is 16.
* C83: no error tells a line: `SafeLineLoader.construct_mapping` makes mappings with lines, but PyYAML's
  `construct_yaml_map` copies their items into a plain `dict` (`C83_line_violated`). Besides, an unknown
  parameter written in the entry itself would be reported without any line; a class given as a list or
  mapping is a `TypeError`; the name of a
  class without a module that is not a local task is a `KeyError`; an empty group of parameters is a
  `TypeError`; the name of something that is not a task is an `AttributeError`.
* C84: `key_pattern` has no effect; a document without `pipeline` is a `KeyError`; checking a document
  leaves DEBUG on for all modules but the root, and ignores misspelt options; a module without a
  version is an `AttributeError`; without `save_config` no task that writes containers can be built;
  with Python 3.10 or later the packages of a virtual environment are looked for in the directory of
  Python 3.1; an empty `cluster` is a `TypeError`.
* C85: `Profiler` ignores its `path`; `PSUtilProfiler` cannot be made with a path; an unused one that
  is started and stopped writes a row, and the table then never has a header; there is no sample of the
  memory at the end, so that the peak can be below what is used then.
* C86: a `module_path` alone removes all modules; a blank in the job's directory gives `run` two files;
  the default profiler of `queue` is not one that `run` takes; the pbs script drops the options for
  profiling; an address without a mail type is a `ValueError` after a warning.
* C87: LoadFilesAndSelect hands out the same object again, with every change made to it and the tag of the
  first input; a second file with the same key hides the first; no files is a ZeroDivisionError; Save
  overwrites the file of a container without a tag if a later tag is its number.
* C88: `7z a` adds to a zip file that is there before; SaveZarrZip never counts, so containers without a tag
  share a name; after a failed job only one process raises an error and the others wait at the barrier;
  WaitZarrZip without any handle iterates over None.
* C89: cpu_count divides by the number of nodes; a memory group without a limit gives a negative amount; the
  global answer loses remainders; a process with an OSError does not take part in the sum and the others
  wait; level names in small letters are rejected.
* C90: with rank 0 not active, it waits for a message from itself; a list for `close` that differs from the one
  for `active` ends a later wait early.
* C91: steps below the spacing between events still miss transits, risings and settings; an event on a grid point
  is returned twice; an observer that is moved after its first use keeps the old location for positions (but the
  hour angle uses the new longitude).
* C92: with `file_format=HDF5` the constructor's file is never closed (the test is the wrong way round); closing or
  flushing a zarr container raises, as does loading it into memory; every process removes the lock directory;
  a refused constructor has made the file; `to_disk(mode="w")` empties the file it wrote.
* C93: groups on the way to a dataset are made without asking `group_name_allowed`; a doubled slash gets a name past
  `dataset_name_allowed`; names of fields raise `AttributeError`, also in `in`.
* C94: redistributing a dataset cuts off the other objects for it (with several processes their writes are lost); redistributing
  a copy redistributes the original and makes the copy an object for the original; chunks and compression set through an object
  from a group do not reach the dataset; `copy` shares variable-length elements, objects in sub-arrays and in nested fields.
* C95: random tasks of one class with the same seed draw the same numbers, as do classes whose names have the same Adler-32;
  a seed assigned to a task that exists (the documented interactive use) is ignored.
* C96: a timeout that is not positive raises `UnboundLocalError`.
* C97: a loaded container does not have the tables of its class, unless the class has a `_dataset_spec` and an
  object of it was constructed before; if an object of a base class was, it has the base's description. Selections
  along the axis of a table are refused when loading. A table of a base overrides a dataset of the derived class. A
  construction that fails has already changed the class.
* C98: concatenation does not copy the history, although its documentation says so (the crawl over the first container
  sees no groups), nor the attributes of reverse maps. In a file the index map of a time axis is never written: the code
  assigns to `out.index_map[axis][...]`, and `index_map` gives a copy of what is in the file. In memory the other index
  maps, the reverse maps and the datasets without a time axis are the arrays of the first container, so that writing to the
  result changes the input. `convert_dataset_strings` converts index maps only, and with an output in a file and byte strings in an
  index map it raises. A tuple of containers raises an AttributeError. `C98_history_violated`, `C98_reverse_attrs_violated`,
  `C98_disk_index_violated`, `C98_shared_violated`, `C98_strings_violated`, `C98_tuple_violated`.
* C99: if datasets are distributed over the axis of the concatenation, the pieces are plain arrays of each process, and the
  output is never distributed: a process with one row of the piece fills the range with it, one with several rows gets a ValueError,
  and one with nothing gets a TypeError because `None` is not an array. With output to an HDF5 group every process makes the dataset
  with the shape and the contents of its own part. `C99_rows_violated`, `C99_time_axis_violated`, `C99_file_violated`.
* C100: a property object finds its attribute name once and remembers it, with the key (lines 153-154, 177-181). If one object is
  assigned to two names, setting one sets the other, and in two classes with different names a configuration is read or ignored
  depending on which class was used first. Defaults and configured values are handed out as they are by properties without
  `proptype`, by `enum` and by `list_type`, so that changing them in place changes all objects; with `proptype=list` or `dict` a
  default is converted on each read, so that such a change is lost. `C100_two_names_violated`, `C100_order_violated`,
  `C100_default_violated`, `C100_config_violated`, `C100_lost_violated`.
* C101: with the method 'rand' every process draws its own permutation, so elements are lost and others
  are there twice; a function that raises on one process leaves the others waiting; one process alone takes
  any method.
* C102: the choice of the next task is broadcast, but only by processes on which some task is able to run. Where hooks do not return the same
  kinds of things on all processes (a product on one and `None` on another, or a task that stops earlier), the broadcasts no longer belong to each
  other: a process waits for ever for the first one, which has ended, or is told to run a task that has ended there and fails with an
  `AttributeError`. `C102_waits_violated`, `C102_exception_violated`.

* C103: `create_dataset("y/")` returns the group `/y` in place of the dataset. A dataset object that is kept while its dataset is replaced is equal
  to the new one if the contents agree, and so is a copy to its original, though they do not share anything. A kept group object is equal to a
  dataset that has taken its place, but that dataset is not equal to the group. Datasets in no tree are equal if name and contents are.
  `C103_trailing_violated`, `C103_kept_violated`, `C103_symmetric_violated`, `C103_detached_violated`.
* C104: `jl_d2` has the wrong coefficients: the second derivative is `jl2 - (2 l + 1) / z * jl1 + (l² - l) / z² * jl0`. At zero, where the functions have derivatives,
  both `jl_d` and `jl_d2` divide by zero. `C104_second_violated`, `C104_origin_violated`.
* C105: the expansion for small arguments lacks the term `1155 nu⁴ / (3456 nutanha⁶)` that belongs with the two before it. It is used for every order if `z < l * 1e-6`; at order one
  the value is too small by more than a tenth. `jl` takes lists, but returns the value for their first elements only. `C105_accuracy_violated`, `C105_list_violated`.
* C106: `constants.kilo_electron_volt` raises `AttributeError` although both parts exist; `constants.hour_day` is a number; `constants.kilo_find` raises `TypeError`, so that `hasattr` fails.
  `C106_underscore_violated`, `C106_any_pair_violated`, `C106_error_violated`.
* C107: `reload` downloads files but keeps the objects that were loaded, so the wrapper goes on with the old data; it leaves out the leap seconds. `C107_reload_violated`, `C107_leap_violated`.

- C108 (`C108_race_violated`): `_OneAndOne.read_process_write` calls `os.makedirs` without handling a directory that another process made between the test and the call; with two processes
  and a new directory one fails with `FileExistsError`. (`C108_plain_violated`): with a file name without a directory `os.makedirs("")` raises `FileNotFoundError` there and in
  `GroupIOMixin.write_output`; `ContainerIOMixin.write_output` is right.
- C109 (`C109_locks_left_violated`): the lock files are put into `.{f}.sync`, a name that is built from the whole path. For `out/x.zarr` these are in `.out/x.zarr.sync` and for `/data/x.zarr` in
  `./data/x.zarr.sync`, below the current directory. Only the last directory is removed afterwards, `.out` or `data` stay.
- C110 (`C110_quiet_violated`): click turns `EOFError`, `KeyboardInterrupt` and an `OSError` of a broken pipe that come out of a command into `sys.exit(1)`, without a traceback. `sys.excepthook` is not
  called for it, so that the job is not aborted: the process waits in `MPI_Finalize` and the others wait for it, for ever.
* C111: names with numbers but no leading zeros are joined in another order than their times; a name with
  brackets is always a pattern; a name as bytes is taken for a sequence of numbers.
- C112: reading a selection of a chunked file (`from_file` with `*_sel`, not distributed) keeps the chunks of the whole (`_prepare_compression_args`, `_memh5.py:2608`); saving it again is then refused by HDF5 if the
  selection is shorter than a chunk. `create_dataset` does not check chunks. An axis of length zero gives a chunk of length zero, which HDF5 refuses. `_ensure_chunked` fails with `TypeError` for a specification with `chunks: None`
  and sets chunks although `allow_chunked` is false.

- C113: every runner sets the head of the task list to zero (`_pipeline.py:293-297`), but the tasks that have finished stay removed. If a
  runner is left after the first task has finished, a new runner or `run()` never moves on a task that waits for input, as only the
  task at the head is advanced (`_pipeline.py:326`): it goes round for ever without calling a hook (`C113_restart_violated`,
  `C113_left_violated`). Leaving a runner before that is fine (`C113_resume_partial`).
- C114: a task without inputs is never "available" in the state `next` (`_pipeline.py:863-866`, `default=0`), so its priority counts for
  nothing there, and its base priority neither: sources run one after another in the order of the configuration, each until it is
  finished (`C114_one_source_at_a_time`, `C114_source_base_violated`). The tasks do not take turns, as `pipeline/__init__.py:190-201`
  says: all products of a first source are kept in memory before the second one is asked for one (`C114_turns_violated`). The dynamic
  priority is multiplied by the number of waiting products, so that a base priority of 10 does not put a task first
  (`C114_pile_violated`).
* C115: a distributed array created with another type and without a shape keeps only what process 0 had; with its
  global shape and another axis it is not redistributed; `shape == data.shape` is decided by every process for
  itself; `self.comm.Barrier()` comes before the check for a missing communicator.
* C116: without `mpi4py` there is no `mpitools.MAX`, which `wrap` and so `copy` need; universal functions take a missing
  communicator for one that could not be found; `_partition_io`, `to_zarr`, `allreduce`, `gather` use `self.comm`
  without looking; `_to_hdf5_serial` looks at some places, but not before its first barrier, when the dataset is zero.

* C117: comparing index maps with `==` raises `ValueError` as soon as an axis has two entries and the arrays are not the same objects; this is so for two
  looks at one container, and whether it happens depends on the order of the names. On disk, what is written into an array of `index_map` is lost, and `data` and
  `weight` of a `DataWeightContainer` raise `TypeError`. `C117_compare_violated`, `C117_order_violated`, `C117_write_disk_violated`, `C117_disk_violated`.

* C118: tasks of one class share one logger, so the last `log_level` given holds for all of them and stays for later pipelines of the same program; a second
  `SetMPILogging` can only hide more; `DebugInfo` does not use the levels it is given. `C118_same_class_violated`, `C118_left_over_violated`,
  `C118_repeated_violated`, `C118_debug_info_violated`.

* C119: an unquoted time with colons, such as `1:30:00`, is a number to YAML, and slurm reads the number in the script as minutes: the limit is 60 times what was
  asked for. A number that begins with 0 is read as octal. `C119_colons_violated`, `C119_octal_violated`.
* C120: an unknown system is an `UnboundLocalError`; a file that is refused leaves the systems in front registered; types of mail of a replaced description are still
  offered; `system` cannot be left out; the command register-system has no lasting effect. `C120_unknown_violated`, `C120_half_violated`, `C120_mail_violated`,
  `C120_no_system_violated`, `C120_command_violated`.

* C121: over the first axis, `len` is the number of local rows (not the one in `shape`), although going through the dataset then gives
  just these rows; processes may answer differently whether two datasets are equal; the same array distributed over two axes, or common
  and distributed, is different; a dataset without axes equals others of any shape. `C121_first_axis_violated`,
  `C121_disagree_violated`, `C121_axes_violated`, `C121_kinds_violated`, `C121_no_axes_violated`.

* C122: compound types keep the marks of their fields, which MPI cannot send, and arrays in the other byte order stay in it.
  `C122_compound_violated`, `C122_other_violated`.

* C19: the sum of two large integers wraps around (the median of 2147483647 twice is -1); views (some columns, transposed, strided) and
  arrays that must not be written are refused. `C19_overflow_violated`, `C19_layout_violated`.
- C123: `lint_config` activates the environment of every file in the same process, one after the other, so that a file can be accepted because of the environment of an earlier one, or refused
  because of a module that was imported for an earlier one. It stops at the first wrong file. `run` does not activate the environment. An empty section `cluster` is a `TypeError`.
- **C124**: an item `None` of an `Input` disappears (`C124_none_violated`); of a tuple only the first entry comes out,
  of an empty one nothing (`C124_tuple_violated`); an array with two or more items is refused and an array with one
  item that counts as false is taken for nothing (`C124_array_violated`, from `inputs or []`); a callback that counts as
  false is never called (`C124_callback_violated`, from `if self.callback`); an `Input` that has been used gives nothing
  in a second run (`C124_again_violated`).
- **C125**: `create_dataset` makes the groups on the way before it looks at its other arguments (`_memh5.py:770-772`), so
  that a call that raises leaves them, and a later `create_group` raises (`C125_left_violated`); after a
  `require_dataset` with a name that ends in a slash has raised, a group has that name and the call cannot be repeated
  (`C125_slash_violated`).
- **C126**: reading a configuration goes through the declarations of all classes, so that a deprecated declaration warns although a
  derived class overrides it, and twice if both are deprecated (`C126_overridden_violated`); the warning has the name
  of the attribute, not the key that the user wrote (`config.py:199`, `C126_key_violated`); with warnings as errors the value is
  set before the warning is raised (`config.py:164-167`), and later properties are not (`C126_strict_violated`).
- **C127**: without `otypes` the type of the first result is that of all (`C127_first_violated`); `scalarize` refuses arrays without axes
  (`C127_no_axes_violated`) and calls without positional arguments (`C127_keywords_violated`), and gives one axis for arrays
  without elements that have more (`C127_empty_violated`).
- **C128**: the products given to a call of `next` that raises are lost (`C128_lost_violated`; `C128_as_none`: the new run is the one after
  a call that returned `None`); if a hook returns a wrong number of outputs they are lost and it is not called again
  (`C128_outputs_violated`); a product that one task refuses is never given to the tasks after it (`C128_refused_violated`, `C128_half`).
- **C129**: all processes open and write the same file, so one that has set the task up can find the file empty again
  (`C129_early_violated`); processes with different versions leave a file that is the document of none (`C129_mixed_violated`);
  without `root` the file is `None_config.yml` (`C129_root_violated`).

## Axioms per theorem

As reported by `#print axioms` for the theorems of `MANIFEST.json`.

No axioms (23 theorems):
Deco.C127_keywords_violated, Deco.C127_no_axes_violated, Ephem.C107_directory, Flow.C68_nested,
Flow.C68_no_setup_violated, Flow.C68_none_violated, Fmt.C74_stale_violated,
Forms.C73_keywords_violated, Fourier.C82_evaluate_partial, Fourier.C82_norm_violated,
Loading.C87_empty_violated, Log.C118_debug_info_violated, Mem.C32_file_selection_partial,
Rng.C95_repeat, Rng.C95_same_class_violated, Split.C01_no_process_is_error,
Store.C76_options_violated, Tasks.C57_default_arguments_violated,
Tasks.Systems.C120_no_system_violated, Types.ByteOrder.C122_native_partial,
Types.C40_has_kind_violated, Util.C43_refused, Util.C43_replace_larger_violated.

`propext` (191 theorems):
Arch.C77_class_partial, Arch.C77_class_violated, Arch.C77_on_disk_violated,
Arch.C77_stamp_violated, Clock.C75_naive, Config.C126_quiet, Config.C126_same,
Config.C126_strict_violated, Config.C26_not_atomic_violated, Config.C26_raise_partial,
Config.C27_file_format_default_violated, Config.C27_file_format_partial,
Config.C27_file_format_violated, Config.C27_logging_refused, Config.C27_logging_violated,
Config.C27_zero_length_violated, Cont.C37_diamond_violated, Cont.C38_reserved,
Cont.C97_base_violated, Cont.C97_derived_violated, Cont.C97_failed_violated,
Cont.C97_loaded_violated, Deco.C127_empty_violated, Deco.C127_first_violated, Dirs.C108_only,
Dirs.C108_race_violated, Dist.C08_alone_partial, Dist.C08_list_alone_violated,
Dist.C08_list_violated, Dist.C08_newaxis_shift_violated, Dist.C08_newaxis_violated,
Dist.C121_kinds_violated, Dist.C121_length_partial, Dist.C60_T_violated, Dist.C61_list_violated,
Dist.C61_local_length_violated, Dist.C61_matmul_violated, Dist.C61_negative_axis_violated,
Dist.C61_nested_list_violated, Dist.C61_out_violated, Dist.C62_accumulate_refused,
Dist.C63_list_violated, Dist.C63_prefix_violated, Dist.C63_step_one_violated,
Ephem.C107_leap_violated, Ephem.C107_mirror, Ephem.C107_once, Ephem.C107_reload_partial,
Ephem.C107_reload_violated, Ephem.C107_retry, Ephem.C107_versions, Fit.C112_create_violated,
Fit.C112_missing, Flow.C68_copy_violated, Flow.C68_flow_partial, Flow.C68_process,
Fmt.C74_codec_violated, Fmt.C74_error_violated, Fmt.C74_gzip_violated, Fmt.C74_shorthand,
Fmt.C74_spellings, Fmt.C74_string_violated, Handle.C92_from_file_given, Handle.C92_from_file_modes,
Handle.C92_given, Handle.C92_in_memory, Handle.C92_lock_made, Handle.C92_no_comm,
Handle.C92_to_disk_new_violated, Handle.C92_to_disk_refused, Handle.C92_to_memory_partial,
Handle.C92_to_memory_violated, Invert.C58_integers, Invert.C58_integers_violated,
Invert.C58_list_violated, Invert.C58_not_contiguous_violated, Invert.C58_shape,
Load.C10_empty_violated, Load.C10_two_lists_violated, Load.C10_zarr_list_violated,
Loading.C87_attrs, Loading.C88_empty_violated, Lock.C29_directory_exception_violated,
Lock.C29_early_exception_violated, Lock.C55_lock_name_violated, Lock.C55_same_name_violated,
Lock.C56_other_rank_violated, Log.C118_left_over_violated, Log.C118_no_handlers,
Look.C117_empty_name, Look.C117_order_violated, Look.C117_raises, Mem.C31_delete_missing,
Mem.C32_file_selection_violated, Mem.C32_selected_data, Mem.C93_require,
Mem.Places.C103_kept_violated, Mem.Places.C103_symmetric_violated,
Mem.Places.C103_trailing_violated, Mpi.C05_serial_violated, Mpi.C06_list_shape_violated,
Mpi.C06_one_partial, Mpi.C34_one_process_violated, Names.C106_defined, Nodes.C89_cores_partial,
Nodes.C89_cores_violated, Nodes.C89_log, PartIO.C09_empty_violated, Pipe.C102_exception_violated,
Pipe.C102_first, Pipe.C114_source_base_violated, Pipe.C124_array_violated,
Pipe.C124_callback_violated, Pipe.C124_given_list, Pipe.C124_none_violated,
Pipe.C124_tuple_violated, Pipe.C128_lost_violated, Pipe.C128_outputs_violated,
Pipe.C128_refused_violated, Pipe.C21_tuple_dropped, Pipe.C22_idle_source_runs_forever,
Pipe.C23_consumer_first_loses, Pipe.C23_leftover_lost, Pipe.C24_zero_limit_violated,
Pipe.C25_own_output_accepted, Proto.C115_convert_violated, Proto.C115_distributed_partial,
Proto.C115_list_violated, Proto.C115_other_axis_violated, Proto.C115_refused,
Proto.C115_serial_violated, Proto.C64_forced_violated, Proto.C64_gather_violated,
Proto.C64_length_violated, Proto.C64_list_violated, Proto.C64_scatter_violated,
Proto.C64_skip_violated, Proto.C64_sources, Proto.C64_zero_violated,
Reader.C78_dictionary_violated, Rng.C59_endpoint_violated, Rng.C59_out_none_violated,
Rng.C59_out_position_violated, Rng.C59_size_violated, Roots.C91_place_partial,
Roots.C91_place_violated, RowWrite.C51_raises_violated, RowWrite.C51_vector_violated,
Runner.C85_header_violated, Runner.C85_table_path_violated, Serial.C116_allreduce_violated,
Serial.C116_names, Serial.C116_write_open_violated, Serial.C116_write_violated,
Serial.C116_write_zarr_violated, Slice.C08_negative_step_violated, Slice.C08_numpy_index_violated,
Slice.C08_step_canonical_violated, Slice.C08_step_violated, Slice.C10_descending_violated,
Slice.C10_inverted_violated, Tasks.C44_all, Tasks.C46_template_run_violated,
Tasks.Systems.C120_mail_violated, Tasks.Systems.C120_unknown_violated,
Tod.C35_early_start_violated, Tod.C35_empty_selection_violated, Tod.C35_optional_violated,
Tod.C36_in_two_steps, Tod.C36_outside_violated, Tod.C36_unsorted_wrong, Tod.C98_nothing,
TodDist.C99_rows_violated, Types.ByteOrder.C122_compound_violated, Types.ByteOrder.C122_kept,
Types.ByteOrder.C122_other_violated, Types.ByteOrder.C122_values, Types.C40_alignment_violated,
Types.C40_byte_order_violated, Types.C40_metadata_violated, Types.C40_no_fields_violated,
Types.C40_subarray_violated, Types.C40_to_bytestring_partial, Types.C40_to_unicode_partial,
Types.C41_frozenset_violated, Types.C41_idempotent, Types.C41_namedtuple_violated,
Types.C41_no_bytes_partial, Types.C41_unchanged_partial, Util.C42_unhashable,
Views.C94_objects_violated.

`Quot.sound`, `propext` (198 theorems):
Abort.C110_codes, Abort.C110_quiet_violated, Abort.C110_result_partial, Abort.C110_without,
Arch.C77_failure_reported, Arch.C77_refused, Arch.C77_strings_violated, Build.C83_loaded,
Chunks.C109_locks_gone_partial, Config.C126_warned_partial, Config.C26_empty_tolerance_violated,
Config.C26_missing_reported, Config.C26_no_other_error, Config.C26_overridden_key_violated,
Config.C26_unknown_reported, Config.C27_declared, Config.C27_empty_default_violated,
Config.C27_enum, Config.C27_enum_bool_violated, Config.C27_enum_strings,
Config.C27_file_format_options, Config.C27_float_rejects, Config.C27_list_type_partial,
Config.C27_logging, Config.C27_nan_violated, Config.Shared.C100_config_violated,
Config.Shared.C100_default_violated, Config.Shared.C100_lost_violated,
Config.Shared.C100_order_violated, Config.Shared.C100_two_names_violated, Deco.C127_empty,
Deco.C127_listize, Dirs.C108_plain_violated, Dist.C121_axes_violated,
Dist.C121_common_equal_partial, Dist.C121_no_axes_violated, Dist.C60_none_violated,
Dist.C60_own_axis_violated, Dist.C62_accumulate_violated, Dist.C62_default_axis_violated,
Dist.C62_empty_violated, Dist.C62_keepdims_violated, Dist.C62_negative_axis_violated,
Dist.C62_total_out_violated, Dist.C63_two_lists_violated, Fit.C112_defaults_partial, Fit.C112_set,
Fit.C112_spec, Flow.C68_setup_partial, Flow.C68_surplus_violated, Fmt.C74_key_violated,
Glob.C111_star, Handle.C92_comm, Handle.C92_distributed, Handle.C92_from_file,
Handle.C92_hdf5_violated, Handle.C92_init_close_partial, Handle.C92_lock_partial,
Handle.C92_lock_violated, Handle.C92_refused_violated, Handle.C92_to_disk_partial,
Handle.C92_to_disk_violated, Handle.C92_twice, Handle.C92_two, Handle.C92_zarr_violated,
Invert.C58_new, Iter.C67_current_directory_violated, Loading.C87_cycle_partial,
Loading.C87_key_missing, Loading.C87_key_partial, Loading.C87_keys_partial,
Loading.C87_same_key_violated, Loading.C87_shared_violated, Loading.C88_failed,
Loading.C88_stale_violated, Lock.C29_other_ranks, Lock.C55_as_alone_partial,
Lock.C55_ordinary_names, Log.C118_one_level, Log.C118_own_partial, Log.C118_repeated_violated,
Log.C118_same_class_violated, Log.C118_shown_partial, Mem.C31_require, Mem.C32_shared_names,
Mem.C93_list, Mem.C93_refused, Mpi.C04_memory_violated, Mpi.C04_plan_partial,
Mpi.C04_serial_violated, Mpi.C05_slice_violated, Mpi.C07_missing_axis,
Mpi.C34_axis_raises_violated, Mpi.C34_axis_violated, Names.C106_error_violated,
Names.C106_prefixed_partial, Names.C106_underscore_violated, Nodes.C89_blocked_violated,
Nodes.C89_node, Nodes.C90_lists_violated, Nodes.C96_timeout_violated, Obj.C48_depth_violated,
Obj.C48_module_violated, Obj.C49_empty_violated, Obj.C49_kinds, Obj.C49_numbers, Obj.C49_strings,
Obj.C49_transitive_violated, PartIO.C09_whole, Pipe.C102_alone_partial, Pipe.C102_ends_partial,
Pipe.C102_same_calls_partial, Pipe.C102_waits_violated, Pipe.C113_count, Pipe.C113_one_round,
Pipe.C113_run, Pipe.C113_steps, Pipe.C114_pile_violated, Pipe.C128_again_partial,
Pipe.C128_as_none, Pipe.C128_when, Pipe.C21_by_position, Pipe.C25_no_type_violated,
Pipe.C25_null_output_violated, Proto.C115_disagree_violated, Proto.C115_other_axis_raises_violated,
Proto.C115_plain_violated, Proto.C115_scalar_violated, Proto.C115_zeros, Reader.C78_fixed,
Reader.C78_selection, Reshape.C11_decision_zero_partial, Reshape.C11_empty_accepts_violated,
Reshape.C11_empty_wildcard_violated, Reshape.C11_order_a_violated, Rng.C50_out_violated,
Rng.C59_poisson_violated, Rng.C95_checksum_violated, Rng.C95_jobs_violated, Rng.C95_later_violated,
RowWrite.C51_empty_partial, RowWrite.C51_not_written_violated, RowWrite.C51_rows_violated,
RowWrite.C51_start_violated, Runner.C85_io_names, Runner.C85_peak_partial,
Runner.C85_peak_violated, Serial.C116_map, Serial.C116_read_mpi, Serial.C116_read_violated,
Serial.C116_ufunc_violated, Slice.C08_ellipsis_expansion, Slice.C08_negative_index_violated,
Split.C02_rand_independent_draws_lose, Split.C101_exception_violated, Split.C101_method_violated,
Store.C76_communicator_violated, Store.C76_handles, Store.C76_leftover_violated,
Store.C76_negative_axis_violated, Store.C76_serial_options_violated, Tasks.C44_prefix,
Tasks.C46_runs_distinct_partial, Tasks.C46_runs_partial, Tasks.C46_template_run_partial,
Tasks.C52_no_axes_violated, Tasks.C52_on_disk_violated, Tasks.C52_several_outputs_violated,
Tasks.C52_skipped, Tasks.C52_skipped_single, Tasks.C57_required, Tod.C35_bound_method_violated,
Tod.C98_disk_index_violated, Tod.C98_history_violated, Tod.C98_independent, Tod.C98_rest_partial,
Tod.C98_reverse_attrs_violated, Tod.C98_shared_violated, Tod.C98_strings_violated,
Tod.C98_succeeds, Tod.C98_tuple_violated, Types.C40_has_kind_partial, Types.C41_shape,
Types.C41_succeeds_partial, Util.C43_budget, Util.C43_eviction, Util.C43_lookup, Util.C43_replace,
Util.C43_replace_larger_partial, Util.C43_stored, Views.C94_chunks, Views.C94_chunks_violated,
Views.C94_copy_violated, Views.C94_deleted_violated, Views.C94_missing, Views.C94_objects_partial,
Views.C94_older_violated, Views.C94_view_partial.

`Classical.choice`, `Quot.sound`, `propext` (788 theorems):
Abort.C110_ends_partial, Arch.C77_chunks_violated, Arch.C77_distributed_partial,
Arch.C77_hints_violated, Arch.C77_marks_violated, Arch.C77_no_axis, Arch.C77_plain_partial,
Bessel.C104_arrays, Bessel.C104_broadcast, Bessel.C104_family, Bessel.C104_first_error,
Bessel.C104_first_partial, Bessel.C104_origin_violated, Bessel.C104_second_partial,
Bessel.C104_second_violated, Bessel.C105_accuracy_violated, Bessel.C105_broadcast,
Bessel.C105_elementwise, Bessel.C105_exact_partial, Bessel.C105_expansions,
Bessel.C105_list_violated, Build.C123_accepts_partial, Build.C123_cluster_violated,
Build.C123_each_partial, Build.C123_first_error, Build.C123_like_run, Build.C123_local,
Build.C123_modules_violated, Build.C123_path_violated, Build.C123_rest_violated,
Build.C123_run_violated, Build.C83_builds, Build.C83_empty_group_violated,
Build.C83_inline_violated, Build.C83_line_violated, Build.C83_mistake_partial,
Build.C83_name_violated, Build.C83_not_task_violated, Build.C83_tasks,
Build.C83_unhashable_violated, Build.C84_builds, Build.C84_cluster_violated, Build.C84_given,
Build.C84_key_pattern_violated, Build.C84_levels_partial, Build.C84_lint_violated,
Build.C84_misspelt_violated, Build.C84_new_first, Build.C84_no_pipeline_violated,
Build.C84_pipeline_error_partial, Build.C84_save_config_violated, Build.C84_switches,
Build.C84_tasks, Build.C84_venv_partial, Build.C84_venv_type_violated, Build.C84_venv_violated,
Build.C84_version_violated, Chunks.C109_array_partial, Chunks.C109_locks_left_violated,
Chunks.C109_no_deadlock, Chunks.C109_nothing_lost, Clock.C75_calendar, Clock.C75_digits_violated,
Clock.C75_empty_violated, Clock.C75_ensure_partial, Clock.C75_from_unix,
Clock.C75_midnight_violated, Clock.C75_mixed_violated, Clock.C75_offset_violated, Clock.C75_other,
Clock.C75_reading, Clock.C75_round_trip, Clock.C75_sorted_partial, Clock.C75_strings_partial,
Clock.C75_time_of_day, Clock.C75_times_of_day_partial, Clock.C75_year_violated,
Clock.C75_zone_violated, Config.C126_access, Config.C126_key_violated,
Config.C126_overridden_violated, Config.C126_set, Config.C126_strict_partial,
Config.C26_default_partial, Config.C26_overridden_converter_violated, Config.C26_value,
Config.C27_float_in_range_partial, Config.Shared.C100_contents_partial,
Config.Shared.C100_given_partial, Config.Shared.C100_history_partial,
Config.Shared.C100_others_partial, Config.Shared.C100_set_partial, Cont.C37_all_declare_partial,
Cont.C37_axes, Cont.C37_instance, Cont.C37_names, Cont.C37_override_partial,
Cont.C37_single_inheritance_partial, Cont.C37_sorted, Cont.C38_alias_violated,
Cont.C38_history_partial, Cont.C38_no_order_violated, Cont.C38_old_format_partial,
Cont.C38_on_disk_violated, Cont.C39_accepts_partial, Cont.C39_attribute_prefix_violated,
Cont.C39_attributes_partial, Cont.C39_broadcast_violated, Cont.C39_caller_dict_violated,
Cont.C39_common_to_distributed_violated, Cont.C39_copy_partial, Cont.C39_empty_list_violated,
Cont.C39_full_slice_violated, Cont.C39_index_array_violated, Cont.C39_missing_selection,
Cont.C39_more_axes_violated, Cont.C39_single_selection_partial, Cont.C39_some_axes_listed_violated,
Cont.C39_source_axis_violated, Cont.C97_class_axes, Cont.C97_columns_partial,
Cont.C97_loaded_partial, Cont.C97_others, Cont.C97_select_violated, Cont.C97_tables_partial,
Cont.Literal.C38_history_text_partial, Cont.Literal.C38_old_format_text_partial,
Cont.Literal.C38_text, Crawl.C66_negative_violated, Crawl.C66_redistribute_partial,
Crawl.C66_subgroup_violated, Crawl.C66_warnings_partial, Deco.C127_order, Deco.C127_raises,
Deco.C127_scalarize_partial, Deco.C127_untyped_partial, Deco.C127_vectorize,
Dirs.C108_alone_partial, Dirs.C108_task_partial, Dirs.C108_together_partial,
Dist.C08_alone_violated, Dist.C08_nd_full, Dist.C08_nd_index_partial, Dist.C08_nd_slice,
Dist.C08_nd_tiling, Dist.C121_common, Dist.C121_disagree_violated, Dist.C121_equal_partial,
Dist.C121_first_axis_violated, Dist.C121_rows_partial, Dist.C60_accepts,
Dist.C60_negative_violated, Dist.C60_reversed, Dist.C60_transpose_partial, Dist.C60_twice,
Dist.C61_accepts_partial, Dist.C61_call_partial, Dist.C61_other_axis, Dist.C61_out_partial,
Dist.C61_out_refused, Dist.C62_accepts, Dist.C62_accumulate_partial, Dist.C62_allreduce_partial,
Dist.C62_distributed_axis, Dist.C62_out_partial, Dist.C62_reduce_partial, Dist.C62_total_partial,
Dist.C63_accepts, Dist.C63_getitem_partial, Dist.C63_local, Dist.C63_malformed,
Files.C70_bracket_violated, Files.C70_filelists_names_violated, Files.C70_filelists_order_violated,
Files.C70_filelists_partial, Files.C70_flat_violated, Files.C70_group_pattern_violated,
Files.C70_group_tag_violated, Files.C70_group_zarr_violated, Files.C70_groups_partial,
Files.C70_list_partial, Files.C70_load_partial, Files.C70_loop_violated, Files.C70_order,
Fit.C112_empty_violated, Fit.C112_fits_partial, Fit.C112_none_violated,
Fit.C112_selection_violated, Fmt.C74_check, Fmt.C74_copies, Fmt.C74_datasets,
Fmt.C74_filters_violated, Fmt.C74_hdf5, Fmt.C74_names, Fmt.C74_options, Fmt.C74_slash_violated,
Fmt.C74_suffix_violated, Fmt.C74_zarr, Forms.C73_empty_violated, Forms.C73_era,
Forms.C73_era_to_unix, Forms.C73_leap, Forms.C73_lengths, Forms.C73_lsa, Forms.C73_lsa_to_unix,
Forms.C73_lsd, Forms.C73_lsd_to_unix, Forms.C73_sidereal_partial, Forms.C73_sidereal_violated,
Forms.C73_zerod_violated, Fourier.C81_back, Fourier.C81_convolution,
Fourier.C81_direction_violated, Fourier.C81_like_violated, Fourier.C81_padded, Fourier.C81_refused,
Fourier.C81_transform, Fourier.C81_window, Fourier.C82_apply, Fourier.C82_between,
Fourier.C82_decorrelation_partial, Fourier.C82_nyquist_violated, Fourier.C82_odd_violated,
Fourier.C82_oversample_violated, Fourier.C82_polyphase, Fourier.C82_profile, Fourier.C82_tone,
Glob.C111_brackets_violated, Glob.C111_bytes_violated, Glob.C111_listing,
Glob.C111_literal_partial, Glob.C111_matching, Glob.C111_numbers_violated, Glob.C111_pattern,
Glob.C111_refused, Glob.C111_sequence, Glob.C111_times_partial, Grid.C73_empty_shape_violated,
Grid.C73_era_arrays_partial, Grid.C73_era_to_unix_arrays_partial, Grid.C73_leap_arrays_partial,
Grid.C73_lsa_arrays_partial, Grid.C73_lsa_to_unix_arrays_partial, Grid.C73_lsd_arrays_partial,
Grid.C73_lsd_to_unix_arrays_partial, Grid.C73_sidereal_arrays_partial, Invert.C47_complex_float,
Invert.C47_complex_partial, Invert.C47_complex_violated, Invert.C47_double_partial,
Invert.C47_double_violated, Invert.C47_float, Invert.C58_layout_violated, Invert.C58_out_partial,
Iter.C67_arity, Iter.C67_directories, Iter.C67_fails, Iter.C67_falsy_violated,
Iter.C67_files_partial, Iter.C67_group_violated, Iter.C67_inputs_partial, Iter.C67_no_name,
Iter.C67_only_files, Iter.C67_only_inputs, Iter.C67_single_partial, Iter.C67_surplus,
Iter.C67_validate, Load.C10_nd_read_partial, Load.C65_base_violated, Load.C65_lengths_partial,
Load.C65_load_partial, Load.C65_order_violated, Load.C65_pairs_violated,
Load.C65_two_lists_violated, Load.C65_undeclared_violated, Load.C65_unknown, Loading.C87_paths,
Loading.C87_save_partial, Loading.C87_save_violated, Loading.C87_tag_violated,
Loading.C88_count_violated, Loading.C88_starts, Loading.C88_wait_partial,
Loading.C88_wait_violated, Loading.C88_zip_partial, Lock.C28_crash_atomic, Lock.C28_published,
Lock.C29_directory_replace_violated, Lock.C29_failure_partial, Lock.C29_failure_preserve,
Lock.C29_lock_lost_violated, Lock.C29_success, Lock.C55_different_names_partial,
Lock.C55_published_partial, Lock.C56_rank0_last_partial, Log.C118_columns,
Look.C117_compare_violated, Look.C117_data, Look.C117_datasets, Look.C117_disk_violated,
Look.C117_itself, Look.C117_kept, Look.C117_shown, Look.C117_single_partial, Look.C117_sound,
Look.C117_write_disk_violated, Look.C117_write_memory, Median.C15_no_drift,
Median.C15_tree_invariants, Median.C16_clear_partial, Median.C16_empty, Median.C16_higher_partial,
Median.C16_higher_violated, Median.C16_lower_partial, Median.C16_lower_violated,
Median.C16_near_split_partial, Median.C16_rounding_crash_violated, Median.C16_spec_unique,
Median.C16_split_median, Median.C16_unknown_method, Median.C16_whole_others_partial,
Median.C16_whole_split, Mem.Attrs.C33_datetime_violated, Mem.Attrs.C33_integer_key_violated,
Mem.Attrs.C33_json, Mem.Attrs.C33_list_partial, Mem.Attrs.C33_marker, Mem.Attrs.C33_marker_json,
Mem.Attrs.C33_mixed_list_violated, Mem.Attrs.C33_nested_partial,
Mem.Attrs.C33_numpy_in_dict_violated, Mem.Attrs.C33_prefix_alone_violated,
Mem.Attrs.C33_prefix_digits_violated, Mem.Attrs.C33_prefix_error_violated,
Mem.Attrs.C33_prefix_violated, Mem.Attrs.C33_ragged_violated,
Mem.Attrs.C33_round_trip_json_partial, Mem.Attrs.C33_round_trip_partial,
Mem.Attrs.C33_single_item_violated, Mem.C125_again, Mem.C125_again_require_partial,
Mem.C125_datasets_partial, Mem.C125_datasets_same, Mem.C125_groups, Mem.C125_left_violated,
Mem.C125_slash_violated, Mem.C30_create_dataset_others_partial, Mem.C30_create_dataset_partial,
Mem.C30_create_group, Mem.C30_create_group_others, Mem.C30_same_object, Mem.C30_trailing_violated,
Mem.C31_create_dataset_partial, Mem.C31_create_group, Mem.C31_delete_partial,
Mem.C31_delete_trailing_violated, Mem.C31_history_partial, Mem.C31_overwrite_violated,
Mem.C32_content_partial, Mem.C32_empty_name_violated, Mem.C32_ends_partial, Mem.C32_independent,
Mem.C32_scalar_violated, Mem.C32_shared_attributes_violated, Mem.C32_source_partial,
Mem.C32_subgroup_violated, Mem.C93_container, Mem.C93_container_create,
Mem.C93_create_group_partial, Mem.C93_create_partial, Mem.C93_field_violated, Mem.C93_hidden,
Mem.C93_no_groups, Mem.C93_parents_violated, Mem.C93_read, Mem.C93_require_new_partial,
Mem.C93_slashes_violated, Mem.Places.C103_again, Mem.Places.C103_copy_own,
Mem.Places.C103_created_partial, Mem.Places.C103_detached_violated, Mem.Places.C103_equal,
Mem.Places.C103_name, Mem.Places.C103_new_own, Mem.Places.C103_parent, Mem.Places.C103_root,
Moving.C17_bad_sizes, Moving.C17_clear_partial, Moving.C17_counts_partial, Moving.C17_empty_array,
Moving.C17_first_nan_violated, Moving.C17_higher_violated, Moving.C17_local,
Moving.C17_lower_higher_partial, Moving.C17_moving_partial, Moving.C17_negative_size_violated,
Moving.C17_rounding_crash_violated, Moving.C17_size_one_partial, Moving.C17_size_one_violated,
Moving.C17_whole_partial, Moving.C17_window_never_lost, Moving.C18_bad_sizes,
Moving.C18_call_partial, Moving.C18_clear_partial, Moving.C18_even_sizes,
Moving.C18_higher_violated, Moving.C18_list_violated, Moving.C18_lower_higher_partial,
Moving.C18_more_sizes_violated, Moving.C18_moving2_partial, Moving.C18_nan_violated,
Moving.C18_negative_violated, Moving.C18_no_rows_violated, Moving.C18_rounding_crash_violated,
Moving.C18_size_one_partial, Moving.C18_whole_partial, Mpi.C04_axis_partial,
Mpi.C04_negative_axis_violated, Mpi.C04_progress_partial, Mpi.C04_redistribute_partial,
Mpi.C04_round_trip_partial, Mpi.C05_allgather, Mpi.C05_allgather_layout,
Mpi.C05_gather_layout_partial, Mpi.C05_gather_others_partial, Mpi.C05_gather_partial,
Mpi.C05_gather_violated, Mpi.C05_global, Mpi.C05_transposed_violated, Mpi.C06_many_partial,
Mpi.C07_wrap, Mpi.C34_common_to_distributed_partial, Mpi.C34_distributed_to_common_partial,
Mpi.C34_round_trip_partial, Names.C106_any_pair_violated, Names.C106_unknown_partial,
Names.C106_words, Nodes.C89_global_partial, Nodes.C89_global_violated, Nodes.C89_level_partial,
Nodes.C89_level_violated, Nodes.C89_limit_violated, Nodes.C89_memory_partial, Nodes.C90_ends,
Nodes.C90_first_violated, Nodes.C90_progress_partial, Nodes.C90_wait_partial,
Nodes.C96_all_partial, Nodes.C96_check_partial, Nodes.C96_pairs, Obj.C48_hidden_violated,
Obj.C48_sum_partial, Obj.C49_dicts, Obj.C49_order, Obj.C49_reflexive, Obj.C49_seqs,
Obj.C49_symmetric, Obj.C49_transitive_partial, PartIO.C09_refused, PartIO.C09_split_io_partial,
Pipe.C102_never_stuck_partial, Pipe.C113_left_violated, Pipe.C113_restart_violated,
Pipe.C113_resume_ends_partial, Pipe.C113_resume_partial, Pipe.C114_highest_partial,
Pipe.C114_one_source_at_a_time, Pipe.C114_products_first, Pipe.C114_turns_violated,
Pipe.C124_again_violated, Pipe.C124_collected_partial, Pipe.C124_ends, Pipe.C124_given_partial,
Pipe.C124_runs, Pipe.C124_through_partial, Pipe.C128_account_partial, Pipe.C128_ends_partial,
Pipe.C128_half, Pipe.C20_finished_once, Pipe.C20_lifecycle, Pipe.C21_exactly_once,
Pipe.C21_in_order, Pipe.C21_taken, Pipe.C22_terminates, Pipe.C23_nothing_lost,
Pipe.C23_some_input_used_up, Pipe.C24_limit_partial, Pipe.C24_then_finish,
Pipe.C25_before_any_hook, Pipe.C25_setup_exact_partial, Pipe.C25_setup_sound,
Pipe.C25_validation_partial, Proto.C115_axis, Proto.C115_common_partial,
Proto.C115_global_shape_partial, Proto.C115_other_shape, Proto.C115_unset_violated,
Proto.C64_accepts, Proto.C64_attributes, Proto.C64_axes, Proto.C64_datasets_partial,
Proto.C64_refused, Proto.C64_shared_violated, Proto.C64_unknown_axis, Quick.C19_any_type_partial,
Quick.C19_double_partial, Quick.C19_errors, Quick.C19_inner, Quick.C19_integer_mean_violated,
Quick.C19_integer_partial, Quick.C19_layout_partial, Quick.C19_layout_violated,
Quick.C19_no_stray_access, Quick.C19_order_free, Quick.C19_overflow_violated,
Quick.C19_quantile_partial, Quick.C19_rounding_partial, Quick.C19_rows_partial,
Quick.C19_single_element_violated, Quick.C19_single_small_violated, Quick.C19_spec_unique,
Quick.C19_tie_violated, Quick.C19_zero_weights, Reader.C78_axes_violated, Reader.C78_centres,
Reader.C78_dictionary_partial, Reader.C78_history_violated, Reader.C78_listing,
Reader.C78_nested_violated, Reader.C78_read_partial, Reader.C78_reader, Reader.C78_single_violated,
Reshape.C11_accepts_partial, Reshape.C11_decision_partial, Reshape.C11_negative_axis_violated,
Reshape.C11_reshape_partial, Rng.C50_deterministic, Rng.C50_filled, Rng.C50_out_partial,
Rng.C50_progress, Rng.C50_reproducible, Rng.C50_streams, Rng.C59_direct, Rng.C59_dtype_partial,
Rng.C59_out_keyword, Rng.C59_parameters_partial, Rng.C59_thread_call, Rng.C95_classes_partial,
Rng.C95_processes, Roots.C53_default_step, Roots.C53_given_step, Roots.C53_grid_partial,
Roots.C53_long_step_violated, Roots.C53_missed_violated, Roots.C53_search_partial,
Roots.C53_solve_partial, Roots.C53_spacing_violated, Roots.C53_twice_violated,
Roots.C53_underflow_violated, Roots.C91_alternate_partial, Roots.C91_altitude_partial,
Roots.C91_dec, Roots.C91_default_interval, Roots.C91_equator, Roots.C91_hour_angle,
Roots.C91_rise_missed_violated, Roots.C91_rise_set, Roots.C91_step_partial,
Roots.C91_step_violated, Roots.C91_transits_partial, Roots.C91_twice_violated, Runner.C85_human,
Runner.C85_io, Runner.C85_names, Runner.C85_path_violated, Runner.C85_profiler_partial,
Runner.C85_rows, Runner.C85_stop, Runner.C85_table_partial, Runner.C86_blank_violated,
Runner.C86_default_violated, Runner.C86_mailtype_violated, Runner.C86_modules_partial,
Runner.C86_options, Runner.C86_pbs_violated, Runner.C86_purge_violated, Runner.C86_reads,
Runner.C86_run_partial, Runner.C86_status, Runner.C86_submit_partial, Runner.C86_unknown,
Runner.C86_venv, Save.C69_count_violated, Save.C69_distinct_partial, Save.C69_files_partial,
Save.C69_finish, Save.C69_inputs, Save.C69_next, Save.C69_no_container_violated, Save.C69_numbered,
Save.C69_tuple_violated, Save.C69_untagged_violated, Serial.C116_copy_violated, Serial.C116_create,
Serial.C116_gather_violated, Serial.C116_lists, Serial.C116_read_zarr,
Serial.C116_redistribute_violated, Serial.C116_wrap_mpi, Serial.C116_wrap_violated,
Shorten.C71_axes_partial, Shorten.C71_axes_violated, Shorten.C71_empty_violated,
Shorten.C71_fixed_partial, Shorten.C71_kinds_violated, Shorten.C71_notation_violated,
Shorten.C71_rest, Shorten.C71_small_violated, Shorten.C71_standard,
Shorten.C71_unspecified_violated, Shorten.C71_weights_partial, Shorten.C71_which,
Slice.C08_index_partial, Slice.C08_set_repeated, Slice.C08_set_values_edge_violated,
Slice.C08_set_values_partial, Slice.C08_set_values_violated, Slice.C08_setitem,
Slice.C08_single_process_step_partial, Slice.C08_slice_block, Slice.C08_slice_concat,
Slice.C08_step_aligned_partial, Slice.C10_len_slice_partial, Slice.C10_read_block_partial,
Slice.C10_read_list, Sphere.C79_back_and_there, Sphere.C79_circle_partial, Sphere.C79_cosine,
Sphere.C79_dot_partial, Sphere.C79_dot_violated, Sphere.C79_equal_violated,
Sphere.C79_integers_violated, Sphere.C79_normalise, Sphere.C79_origin_violated, Sphere.C79_plane,
Sphere.C79_plane_radius_violated, Sphere.C79_there_and_back_partial, Sphere.C79_to_cartesian,
Sphere.C80_angle, Sphere.C80_broadcast_violated, Sphere.C80_ground, Sphere.C80_ground_back_partial,
Sphere.C80_horizon_violated, Sphere.C80_metric, Sphere.C80_point, Sphere.C80_projected,
Sphere.C80_projected_arrays_partial, Sphere.C80_rotate, Split.C01_split_tiles,
Split.C02_alt_indices, Split.C02_con_concat, Split.C02_rand_rearrangement,
Split.C02_unknown_method, Split.C03_bad_root, Split.C03_parallel_map_is_map,
Split.C03_unknown_method, Split.C101_draws_violated, Split.C101_list_partial,
Split.C101_map_draws_violated, Split.C101_map_partial, Split.C101_method_partial,
Split.C101_no_wrong_result_partial, Split.C101_raises, Split.C101_range_arguments,
Split.C101_range_partial, Split.C101_world_partial, Stellar.C72_angle, Stellar.C72_day,
Stellar.C72_far_violated, Stellar.C72_leap_violated, Stellar.C72_next, Stellar.C72_next_unique,
Stellar.C72_order, Stellar.C72_round_trip, Stellar.C72_steady, Store.C76_hdf5_partial,
Store.C76_refused, Store.C76_round_trip, Store.C76_serial_partial, Store.C76_to_file_partial,
Store.C76_zarr, Tasks.C129_complete_partial, Tasks.C129_each_partial, Tasks.C129_early_violated,
Tasks.C129_file_name, Tasks.C129_mixed_violated, Tasks.C129_names, Tasks.C129_others,
Tasks.C129_root_violated, Tasks.C44_groups, Tasks.C45_map_over_index_violated,
Tasks.C45_no_axis_name_violated, Tasks.C45_nothing, Tasks.C45_only_partial,
Tasks.C45_raises_partial, Tasks.C45_range_first_partial, Tasks.C46_failed_partial,
Tasks.C46_finished_stays_partial, Tasks.C46_never_partial, Tasks.C46_once_partial,
Tasks.C46_proceeds_partial, Tasks.C46_repeated_value_violated,
Tasks.C46_repeated_variable_violated, Tasks.C46_retry_violated, Tasks.C46_running_violated,
Tasks.C46_temporary_violated, Tasks.C52_check_partial, Tasks.C54_each_container_once,
Tasks.C54_one_per_host, Tasks.C54_takes_part, Tasks.C57_pbs_pernode_violated,
Tasks.C57_pbs_violated, Tasks.C57_slurm_partial, Tasks.Systems.C120_command_violated,
Tasks.Systems.C120_half_violated, Tasks.Systems.C120_mail_partial,
Tasks.Systems.C120_named_partial, Tasks.Systems.C120_refused, Tasks.TimeLimit.C119_colons_violated,
Tasks.TimeLimit.C119_octal_violated, Tasks.TimeLimit.C119_pbs_partial,
Tasks.TimeLimit.C119_slurm_partial, Tod.C35_concatenate_filtered_partial,
Tod.C35_concatenate_is_slice_partial, Tod.C35_crossed_selection_raises, Tod.C35_early_start_pads,
Tod.C35_filters_partial, Tod.C35_other_axes, Tod.C36_nothing_there_raises,
Tod.C36_one_sided_partial, Tod.C36_read_selected_partial, Tod.C36_select_time_range_partial,
Tod.C98_time_index, TodDist.C99_common, TodDist.C99_distributed_partial, TodDist.C99_file_violated,
TodDist.C99_time_axis_violated, Trunc.C12_boundary_violated, Trunc.C12_int_error,
Trunc.C12_int_idempotent, Trunc.C12_int_rounds, Trunc.C12_long_error, Trunc.C12_long_idempotent,
Trunc.C12_long_rounds, Trunc.C12_spec_total, Trunc.C12_zero, Trunc.C13_double_gap_violated,
Trunc.C13_double_partial, Trunc.C13_double_truncates, Trunc.C13_finite_tolerance,
Trunc.C13_float_gap_all_violated, Trunc.C13_float_gap_violated, Trunc.C13_float_partial,
Trunc.C13_float_truncates, Trunc.C13_infinite_tolerance, Trunc.C13_nan_violated,
Trunc.C13_nonfinite, Trunc.C13_overflow_violated, Trunc.C14_complex_partial,
Trunc.C14_complex_violated, Trunc.C14_rejects, Trunc.C14_relative_double_partial,
Trunc.C14_relative_float_partial, Trunc.C14_row_max, Trunc.C14_weights_double_partial,
Trunc.C14_weights_float_partial, Trunc.C14_weights_negative_violated,
Types.C40_round_trip_bytes_partial, Types.C40_round_trip_partial, Types.C41_array_violated,
Types.C41_dict_violated, Types.C41_set_violated, Util.C42_idempotent, Util.C42_unique,
Views.C94_copy_apart_partial, Views.C94_copy_keeps, Views.C94_redistribute, Views.C94_set.
