# Formal model of LvArray: design

The model is written in Lean 4 under `lean/Verif/`.  Every model definition carries the file and lines of
`/repo` it models.  Property theorems live in `lean/Verif/Props/*.lean`, apart from the helper lemmas.  They
are stated against small specifications in `lean/Verif/Spec/*.lean` that do not mention the model
(`List`, `List (List T)`, `Finset`, partial maps, text grammars, Mathlib `Matrix`), or against Mathlib notions.
`MANIFEST.json` lists for each property of `properties.jsonl` its status and its theorems.

## How the C++ is modelled

* **Outcomes.** A function that can fail returns `R α = Except Err α`.  `Err.abort` is LvArray's own error path
  (`LVARRAY_ERROR*`); `Err.ub reason` is undefined behaviour (access outside an allocation, reading, moving from or
  destroying a slot that holds no object, a dangling or null pointer, a loop that does not end ...).  A theorem that
  a call `= .ok s` therefore also says: no abort and no undefined behaviour.
* **Build configuration.** `Cfg` has three flags: `trivial` (is the element type trivially copyable and
  destructible), `boundsCheck` (`LVARRAY_BOUNDS_CHECK`) and `debug` (assertions).  Theorems quantify over `Cfg`
  unless they say otherwise.
* **Memory.** An allocation is a `Buf T`: a kind (heap buffer or stack buffer), a capacity and a cell per position.
  A cell is `raw` (no object), `live v` or `moved` (an object whose value was moved out).  Construct, read, assign,
  move and destroy are the only primitives; each checks the bounds and the state of the cell.  Constructing on top
  of an object that was not destroyed is legal C++ but loses it; the buffer counts such losses (`lostLive`,
  `lostMoved`), objects that are alive when storage is released without being destroyed, and the element moves
  (`moves`, for C09).
* **Trivial types.** With `trivial` moving an indeterminate slot moves an indeterminate value and destroying a raw
  slot does nothing; otherwise both are undefined behaviour.
* **Loops** are structural recursion (`forUp`, `forDown`) over the same index ranges in the same direction.  Loops
  whose termination is not evident carry fuel and running out of fuel is the undefined behaviour `diverge`, which
  the theorems exclude.
* **Indices.** `INDEX_TYPE` is unbounded (`Nat` where the code only has non-negative values, `Int` where the sign
  matters: bounds checks, capacity differences).  `Machine.lean` has the index arithmetic of `Array` and of
  `ArrayOfArrays::setCapacityOfArray` once more with the integer types of the code: integral promotion, conversions,
  signed overflow as undefined behaviour, unsigned wrap around.  C56 proves that both agree on every history whose shapes
  fit the type.  `MachineAoA.lean` does the same for every operation of `ArrayOfArrays` (C66).  Pointer offsets are
  `std::ptrdiff_t`; `2 * newCapacity` in the growth policy of buffers is not checked for overflow.  The index arithmetic of
  `ArrayOfSets`, `SparsityPattern` and `CRSMatrix` is unbounded.
* **Element types** are arbitrary; `operator<` is an arbitrary relation with the laws of a strict weak or total
  order stated as hypotheses.  Constructors, assignments and comparisons of elements do not throw, except
  in `Faults.lean` (C67).
* **Floating point** is replaced by exact arithmetic over a commutative ring, field or `ℝ`, except in C68: there the same
  definitions are used with any operations that meet the laws of rounding in `Spec/Rounding.lean`, and `BinaryFormat.lean` shows
  that the binary formats of IEEE 754 meet them.  Each operator of the source is rounded once (no contraction to fused
  multiply-add).  Rounding in inverses, norms, eigenvalues and eigenvectors is not modelled.  The tensor operations get arguments that do not overlap (the code declares them with `LVARRAY_RESTRICT_REF`); local arrays that the
  code leaves uninitialised are arguments of the model, so that the theorems hold for every content.
* **Costs** (C69) are numbers of accesses: constructing, destroying, copying, moving or comparing an element counts one, reading or
  writing a size or an offset counts one, an allocation counts none by itself.
* **Concurrency** is interleaving of turns with an arbitrary schedule, one turn per access to shared memory,
  sequentially consistent.  An atomic operation is one turn.  For C58, which is about plain accesses, a turn is one access to
  a size, an offset, or one slot (moving an object from one slot to another of the same row is one turn); the threads of
  the theorem never touch a location that another thread writes, so the C++ memory model gives no other executions.
* **CHAI** (the array manager that owns the copies of an allocation in the memory spaces) is not part of
  `/repo`; its contract is modelled as documented in `/repo/docs/sphinx/Array.rst`.  Memory spaces are the host and
  one device.
* **Streams.** Insertion and extraction of one value are library functions and enter as parameters with a law
  (`ReadsBack`), which is proved for models of the standard's integers and strings.

## What is modelled, by file of /repo/src

| file | modelled | not modelled |
|------|----------|--------------|
| `arrayManipulation.hpp`, `bufferManipulation.hpp` | all | |
| `MallocBuffer.hpp`, `StackBuffer.hpp` | allocation, reallocation, capacity, moves | Umpire names |
| `indexing.hpp` | all | |
| `Array.hpp`, `ArrayView.hpp`, `ArraySlice.hpp` | constructors, assignments, resize family, 1-D modifiers, indexing, slicing, contiguity, iteration, type-punned views, setValues, zero | TotalView output |
| `sliceHelpers.hpp`, `memcpy.hpp` | all functions; the overloads for arrays also with CHAI, in any memory spaces and asynchronously (`ChaiCopy.lean`) | |
| `umpireInterface.cpp` | both `copy` functions for memory that Umpire allocated | `memset`, allocator names |
| `sortedArrayManipulation.hpp`, `sortedArrayManipulationHelpers.hpp` | all; `std::sort` on the host is a parameter with its guarantee | |
| `SortedArray.hpp`, `SortedArrayView.hpp` | all | |
| `ArrayOfArrays*.hpp`, `ArrayOfSets*.hpp` | all modifiers, layout functions, copies, moves, conversions | |
| `SparsityPattern*.hpp`, `CRSMatrix*.hpp` | all modifiers, `addToRow` variants, assimilate, copies | |
| `ChaiBuffer.hpp` | copy construction with movement, `move`, `moveNested`, `registerTouch`, `reallocate`, const conversion, the callback of `setName` | `umpire` allocators chosen by name, streams, more than one device, the lock (it is one per translation unit and `move` does not take it) |
| `genericTensorOps.hpp` | all | instrumented logging; `checkSizes` of C arrays (at compile time) |
| `fixedSizeSquareMatrixOps*.hpp` | all, for 2 and 3 | rounding of `symDeterminant` of size three, `Rij_eq_AikSymBklAjl`, inverses, eigenvalues |
| `input.hpp`, `output.hpp` | `stringToArray`; output of slices, views and arrays of every rank, of sets, arrays of arrays, matrices and C arrays; `print` of a matrix, given the texts `printf` makes of one number | output of `__half` and `__half2`; how the standard library writes one value |
| `limits.hpp` | `integerConversion` | |
| `math.hpp` | what tensorOps uses; `max`, `min`, `abs`, `asin`, `acos`, `atan2` for half precision (C77) | functions that only call a library |
| `Macros.hpp` | the error and comparison macros | printing |
| `system.cpp` | signal handlers, error handler, `stackTraceHandler`, floating point exception guard, `calculateSize` | the text of stack traces, demangling |
| `typeManipulation.hpp` | permutation arithmetic | template meta programs |
| `python/Py*.hpp`, `python/Py*.cpp` | the methods of the five classes, access levels, `to_scipy`, reference counts | the text of arguments, negative NumPy indices, arguments that alias the object, conversion of indices to `INDEX_TYPE`, `tp_free` |
| `python/pythonHelpers.*`, `python/numpyHelpers.*`, `python/PyFunc.*`, `python/python.cpp` | reference counts on every path of every function that is called | `createCupyArrayImpl` (behind `if( false )`; it gives away the entries of its tuples and releases them again), type tables |
| `totalview/*` | | all |

## Properties: model and proof

| id | model | proof |
|----|-------|-------|
| C01, C02 | `calculateStrides`, `getLinearIndex`, `multiplyAll` over lists of dims and a permutation | mixed-radix induction |
| C03 | `ArraySlice.operator[]` dropping the leading dim/stride | induction on the prefix |
| C04 | `invalidIndices` over `Int` | direct |
| C05 | `isContiguous` inequality on strides | relate outermost stride to product of dims; counterexamples |
| C06 | recursive visitors | induction on rank, against lexicographic enumeration |
| C07, C08, C35 | `arrayManipulation` + `bufferManipulation` on cells | loop invariants; refinement over histories |
| C09 | capacities and a relocation counter | potential function |
| C10 | `resizeDefaultDimension` loops on cells | invariant over iterations, mixed radix |
| C11 | `resize` family | histories of shapes against a function on multi-indices |
| C12, C13, C14 | copyInto, move operators, reference arguments; all six classes as members plus pointers into one heap (`Heap.lean`, `HeapClasses.lean`), programs over any number of variables | refinement to programs over plain values (`Spec/Values.lean`, `Spec/Containers.lean`), generic in the class; counterexamples where the code deviates |
| C15-C17 | `find`, `insert`, `remove` (single, range) on cells with callbacks | loop invariants, refinement to finite sets |
| C18-C20 | `introsortLoop`, `insertionSort`, partition, `removeDuplicates` | permutation + sortedness invariants; a computed counterexample for the range table |
| C21-C25, C32, C47, C49 | three buffers of ArrayOfArrays on cells | representation invariant, refinement to `List (List T)` |
| C26, C31 | interleaving of turns | invariant over schedules |
| C27-C30, C33 | sets, sparsity patterns and matrices on top of the above | refinement to lists of sets and of partial maps |
| C34 | integer types as (width, signedness), modular casts | case analysis |
| C36, C37 | characters, recursive printer, the validating passes and the reader | grammar, induction on rank |
| C38, C51 | pointer records with a copy per space and touch flags; buffers that hold buffers | invariant over histories |
| C39 | slices over buffers | corollary of C01/C05 |
| C40-C43, C50 | loops over functions `Nat → Nat → K`; explicit formulas | induction, `ring`, `field_simp`, Mathlib `Matrix`, trigonometric solution of the cubic |
| C44 | macro expansion table | direct; counterexample |
| C45 | dims/strides rescaling | arithmetic |
| C52 | Python objects: pointer to the wrapper, access level, NumPy windows into the buffer with an epoch that is stale after a reallocation; programs are lists of calls, level changes, reads and assignments | invariant over programs, generic in the class |
| C53, C55 | a mathematical value per container and which part of it every array shows (`Spec/Python.lean`) | simulation, generic in the class, one instance per class on top of the invariants of C10, C16, C21, C27, C29 |
| C54 | `isCompressed` and the three arrays of `to_scipy` | the layout invariant of C29 with every row full |
| C56, C57 | integer types as (width, signedness); every operation of the index arithmetic checked or wrapped | each function equals its unbounded version under `Fits`, then induction over histories; general theorems and witnesses where it does not |
| C58 | the member functions of the views as programs whose steps are single accesses (`Parallel.lean`; `ParallelCalls.lean` also for `SparsityPatternView`, `ParallelMatrix.lean` for `CRSMatrixView`, including the loop over the rows in `setValues`), proved equal to the sequential model when run alone | simulation: a container under interleaved programs is a family of containers with one row, each changed by one thread only; then the sequential invariants row by row |
| C59 | `Placed.lean`: three or four `ChaiBuffer`s of `Chai.lean`, one record each, in one object; `move` (which never touches the offsets on the device), capture, const conversions, kernels made of the programs of `Parallel.lean`, member functions of the container on the host | simulation with one list of rows: an invariant per buffer (`Track`), a frame lemma for which buffers a program changes, and C58 for what a kernel computes. Host member functions are included for `ArrayOfArrays`; for sets and matrices the container itself is only moved. Witnesses: an untouched change is lost, a view dangles after a reallocation |
| C60 | `PyRefs.lean`: a heap of objects with counts and stored references, recursive freeing, the C API as a list of answers, each function of the bindings on top of it with its destructor calls written out | every primitive changes the references owned by running code in a known way (`Exact` with an `Owned` function as ghost state); functions by composition, programs and `PyObjectRef` variables by induction. Witnesses for leaks, over-release, null dereferences |
| C61 | `resizeWithoutInit` in `Array1D.lean` and `ArrayND.lean`: reserve without constructing or destroying | simulation (`Uninit.lean`): the buffer follows one of optional values in which every element is initialised and `none` means unspecified, for which C07, C10 and C11 are already proved; every primitive, then every function, then histories |
| C62 | `setValues` (both), `zero`, the constructor, `move`, element access by multi-index of several arrays with `ChaiBuffer`s (`Whole.lean`); a RAJA policy is a space, a distribution of the iterations to threads and an order of turns; the read and the write of an iteration are separate turns | `Keeps`: each record holds the values of its array (`WholeLemmas.lean`); loop invariant over all interleavings (every position has its new value or is still to be done); positions and multi-indices by the bijection of C01; refinement to boxes without memory spaces |
| C63 | `setErrorHandler`, `callErrorHandler`, `stackTraceHandler`, the error macro, `std::abort` and signal delivery as a big-step relation (a run that does not end has no result); error handlers are arbitrary lists of exits, faults and errors (`Signals.lean`) | induction over the error handler; after the first entry no signal leads to the stack trace handler; uniqueness by induction over derivations |
| C64 | views as copies of pointer and length beside the array variables of `World.lean`, statements over both (`Views.lean`) | refinement both ways to numbered storages with a sequence and a capacity; reserved room by an invariant over the stretch of the program |
| C65 | `operator<<` of every container and `print` as functions to `R` text (`TextOut.lean`); the texts are specified in `Spec/Printed.lean` | each loop appends the specified lines; the texts are prefix codes, so equal texts come from equal contents (`TextOutLemmas.lean`) |
| C66 | every operation of `ArrayOfArrays` with offsets, sizes, capacities and counts computed in the index type (`MachineAoA.lean`) | each operation equals its unbounded version when the numbers before and after it fit, then induction over histories; general theorems and witnesses for totals that do not fit and for lowering a capacity with unsigned indices |
| C67 | the one-dimensional `Array` with the state in which a call that throws leaves it (`Faults.lean`): throwing element constructors and assignments, throwing error handler | a Hoare logic for the state at an exception plus simulation of `Array1D.lean` for calls that return, then induction over histories; partial: holds for the failures listed in `Spec/Faults.lean`, general theorems show the damage of the others |
| C68 | the tensor operations of `TensorOps.lean` and `TensorFixed.lean` over an arbitrary type with `+`, `-`, `*`; `Spec/Rounding.lean` states the laws of rounding, `BinaryFormat.lean` the formats of IEEE 754 | running error estimates composed along the loops (`RoundingLemmas.lean`), induction on the number of terms |
| C69 | a second transcription of the operations of `SortedArray`, `ArrayOfArrays` and `CRSMatrix` in which each access to an element, size or offset adds one to a counter (`Counted.lean`) | `Costs m x lo hi` (`Spec/Costs.lean`) says at once that the counted program returns what the model proper returns and how many accesses it makes, and is composed along the program text; potential function for the amortised bound; partial: three documented costs are disproved by families of reachable states |
| C70 | the three programs of docs/sphinx/ArrayOfArrays.rst over the model of `ArrayOfArrays`, one thread per element (`Mesh.lean`); `Spec/Mesh.lean` defines the elements around a node | `C21` for the sequential program; an invariant for the parallel count (count so far + nodes left = total), then `C32` and `C26` for the parallel fill |
| C71 | the assembly programs of benchmarks/benchmarkSparsityGenerationKernels.cpp, put together as docs/sphinx/SparsityPatternAndCRSMatrix.rst says (`Assembly.lean`); `Spec/Assembly.lean` defines the dofs of an element, coupled dofs and the assembled entry | the pattern by induction over the elements with `insertNonZeros` of `C25`, and through views with `C58` for patterns: one thread over the elements, or one per node after `resizeExact`; the kernel with the invariant of `C31` and a count of turns; the time steps by induction with `setValues` and `assimilate` of `C29` |
| C72 | the `memcpy` overloads for arrays on the CHAI model of C38, for a list of arrays (`ChaiCopy.lean`): both views are moved to the space the data is in, the slices are taken, and the elements are copied at once or, with a device resource, one by one by `progress` steps at any time until `wait`. `Spec/ChaiCopy.lean` has no spaces' copies and no pending elements: a copy assigns the values at once, or breaks a rule | refinement `CopyRep`: the values in the allocations differ from the specified ones only where a running copy has elements left, and those are still in its source; induction over the history. The schedule is part of the history, so the theorem holds for all of them (`C72_schedule`). Witnesses for every rule |
| C73 | the six member functions of `ArrayOfArrays` that take values, called with a reference or iterators into the object itself (`OwnRows.lean`): the argument is a slot of the allocation before the call, read after room was made. `Spec/OwnRows.lean` says where the rows are at that time | each function on the layout invariant of C21 with what is found in the old slots; the calls that do not disturb their argument follow from the positions; partial, exact outcome for all others, including insertions split by their own position (the loop repeats what it has just written) |
| C74 | `resizeArray` with arguments that are used up (a constructor is any function from arguments to a value and what is left of them), the functions that take ranges with iterators of the three categories (`Arguments.lean`); a single pass iterator must not be used once a copy of it was incremented | loops reduced to those of C09 and C21; partial, exact outcome and undefined behaviour for the rest |
| C75 | `resize`, `resizeFromCapacities` and the three programs of C70 with the counter of C69 (`CountedMesh.lean`): accesses to values, sizes, offsets and counters are counted, allocation and checks of arguments are not; an atomic increment is a read and a write | `Costs` relates each counting function to the function it counts; for threads a budget that every turn pays from, so that the bound holds for every schedule; without preallocation a potential that bounds the capacities by twice the elements; the lower bound by computing what every call has to shift |
| C76 | the functions of sortedArrayManipulation with arguments that are read again at each use, from the memory as it is at that moment (`OwnSets.lean`), for elements of the object itself; a read from an allocation that was replaced is undefined behaviour; `LVARRAY_RESTRICT` is not modelled | the reading versions are equal to the versions with values as long as the places read keep their contents (`Keeps`); removing and inserting own elements is followed through the loops, everything overwritten has been read before; negations by the position of the elements after the shift |
| C77 | `asinImpl`, `acosImpl`, `atan2Impl` as templates over a record of operations, with the operations of `__half` and `__half2` and both versions of `max`, `min` and `abs` (`MathApprox.lean`); a value is a real number or a NaN, infinities and signed zeros are not modelled; the same templates with the arithmetic of `__half`, where constants and results are rounded to 11 bits (`MathHalf.lean`), without fused multiplications; the functions that only call the C++ or CUDA library are not modelled | the error of a polynomial is bounded by comparing it with the integral of a better polynomial whose error as a derivative is bounded by a polynomial inequality, and the inequalities on [0, 1] by sums of positive terms (`MathPoly.lean`, found by a script, checked by `ring` and `positivity`); rounding errors are added up step by step with a bound of each intermediate result, the last steps (masks 0 and 1, doubling, negation) are exact |
| C78 | the functions of C40 once more with slices in one memory as arguments (`TensorSlices.lean`): every subscript is `operator[]` of `ArraySlice`, a read sees what the call has written before, `checkSizes` as the build says; what a compiler may do because of `__restrict__` when arguments overlap is not modelled, the witnesses are about the order of the steps | invariants of loops: what has been assigned has its final value and the rest of memory is as before; products add one cell at a time; transposition in place follows the loop on matrices of C40; slices of arrays by C01 and C03 |
| C79 | the operations on one row of `ArrayOfSets`, `SparsityPattern` and `CRSMatrix` with the counter of C69 (`CountedRowSets.lean`), the call backs of the set algorithms included | `CheapCallBacks` bounds what the call backs cost in terms of what the algorithm does to the columns, so that the bounds of C69 for the set algorithms carry over; the cost of making room is added once because `incrementSize` is called once, in the state the call started from |
| C80 | the functions of C41 and C42 once more with slices in one memory as arguments (`TensorFixedSlices.lean`), one line per assignment; the local array of `symInvert` of size three is a slice that shares nothing with the argument; eigenvalues and eigenvectors are in C83 | each assignment on memory follows the assignment on matrices of C41 and C42: the destination shows the matrix computed so far, the rest of memory is as before, so sources read as before the call |
| C81 | `OwnEntries.lean`: the functions of `CRSMatrix` and its view with positions in the matrix in place of values, each read when the code reads it | equality with the call on copies where nothing moves; exact result for an entry of the same row; exact result for an entry or a range inserted into a row that is too small, for the rows in front of it and for every row if the memory is replaced; witnesses for rows behind it. |
| C82 | `RowViews.lean`: an `ArrayOfArrays` with the addresses of its three buffers, and views that hold a number of arrays and three addresses; a pointer to a released buffer leads to memory every access to which is undefined | `Spec/RowViews.lean` says what views show and when a storage is replaced, without buffers; simulation over programs, with the exact capacities of `RowCaps.lean`; undefined behaviour for every use of a replaced storage. Not modelled: an address used again after it was released. |
| C83 | the functions of C43 and C50 and `normalize` once more with slices in one memory as arguments (`TensorEigenSlices.lean`), one line per assignment; `eigenvectors[ i ]` is a slice of the matrix; local arrays of the code are values | each assignment on memory follows the assignment on vectors and matrices of C43 and C50 (two destinations show the values and vectors computed so far, the rest of memory is as before); then the theorems of C43, C50 and C40 |
| C84 | `SortedArray` (C01 model) with the address of its buffer, and views as size and pointer (`SetViews.lean`); addresses are not used again after release; the specification (`Spec/SetViews.lean`) has a finite set, the room there is and how often the storage was replaced | step-by-step refinement over all programs: the capacity of the model is computed exactly for every call (`SetViewsLemmas.lean`), so the storage moves exactly when the specification says; a search through a view is a search in the list of smallest values; use after replacement shown to be undefined; witness of a value pushed out of a view |
| C85 | `MallocBuffer` with the block it really has kept apart from the capacity it records, and an allocator that grants or refuses every request as it likes, with byte counts modulo the word size (`Scarce.lean`); the calls of C07 on top of it | simulation of the vector while every request fits; refusal: the assertion or the first access through the null pointer is reached, case by case over the calls; wrapping: induction over the elements with which the array is filled |
| C86 | `MatrixViews.lean`: a `CRSMatrix` with the addresses of its four buffers, and views that hold a number of rows, a number of columns and four addresses; through a view an insertion checks the capacity of the row instead of enlarging it | `Spec/MatrixViews.lean` says what views show, how many non zeros each row has room for and when a storage is replaced, without buffers; simulation over programs, with the exact row and buffer capacities of `MatrixCaps.lean`; undefined behaviour for every call that looks at a replaced storage. Entries that are not trivially copyable, and calls through views kept across a change of the number of rows or columns (other than `numRows` and `numColumns`), are left out. |
| C87 | `Zero.lean`: `zero()` on host memory: the byte count in a signed `INDEX_TYPE` of any width, `memset` on the buffer of entries; a value type is a size in bytes and what setting leading bytes to zero does (`Bytes`) | `Spec/Zero.lean`: the matrix with all values equal. Simulation with the invariant of C86 for programs before and after the call; partial, because the byte count wraps: two theorems say what happens then. |
| C88 | `Consistency.lean`: the loop of `consistencyCheck()` with the size, the capacity and the values of every set | exact outcome for every layout by induction over the rows; composed with `assimilate` (C28) for arbitrary inner arrays, with true and false descriptions. `Spec/Consistency.lean` says what `removeDuplicates` leaves of values that are not sorted. |
| C89 | `SetListViews.lean`: an `ArrayOfSets` with the addresses of its three buffers, and views that hold a number of sets and three addresses (the world of C82); through a view an insertion checks the capacity of the set instead of enlarging it | `Spec/SetListViews.lean` says what views show, how many values each set has room for and when a storage is replaced, without buffers; simulation over programs, with the exact capacities of `SetListCaps.lean`; undefined behaviour for every call that looks at a replaced storage. Values that are not trivially copyable, and calls through views kept across a change of the number of sets (other than `size`), are left out. |
| C90 | `SizeText.lean`: `calculateSize` with the conversion to 53 significant bits, the division by a power of two, `%.1f` and the nine characters that fit; the callback that `setName` installs | Rounding to nearest even is monotone, nearest and exact on multiples; `Spec/SizeText.lean` says what an amount is. Partial: from 9999.95 GB on the text is cut off, proved with its exact boundary. |
| C91 | `begin()`, `end()`, `front()`, `back()` of the multi-dimensional array, and the two range based loops over it (reading, assigning through the reference) as loops over positions | The positions 0, 1, ... are matched with multi-indices by C01 and ordered by C02; the loops by induction over the positions; the last position is the mixed radix number of the largest multi-index; histories by C11 |
| C92 | `SortedArray` on a buffer whose requests for memory may be refused (`ScarceSets.lean`, on the buffer of `Scarce.lean`) | The outcome of every history, for every allocator, is that of a specification which says at each call whether memory is asked for, and what happens when it is refused (`Spec/ScarceSets.lean`); an invariant links set, buffer and request count. From it: enough memory gives the set, a granted `reserve` makes later answers irrelevant, debug builds without range insertions never reach undefined behaviour. The wrapping of byte counts is excluded by hypothesis (it is part of C85). |
| C93 | `SortedArray` with the number of values kept in its `INDEX_TYPE` (`MachineSets.lean`, arithmetic of `Machine.lean`) | A legal history all of whose sets fit the type runs exactly as with unbounded numbers, hence as the set of C16 (`C93_is_set_partial`). What happens when the type is exhausted is proved for each kind of type: narrow types (`C93_narrow_wraps`), wide signed (`C93_signed_overflow`), wide unsigned with and without room (`C93_unsigned_wraps`, `C93_unsigned_full`), ranges (`C93_range_lost`); `C93_reached` reaches these states. |
| C94 | `SortedArray` with the state in which a call that throws leaves it (`FaultSets.lean`, on the states of `Faults.lean`): throwing copy constructors, throwing error handler | Each call is shown to end like the call without exceptions (`SortedArray.lean`) unless a value throws, then induction over histories (`C94_failed_calls_have_no_effect_partial`). Partial: a value that throws is harmless when one value above all others is inserted, alone or in a range whose other values are present; `C94_throw_in_insert_breaks_set`, `C94_throw_in_range_insert_breaks_set`, `C94_throw_in_range_insert_above`, `C94_set_stays_broken` and `C94_throw_in_range_insert_leaks` say what every other insertion leaves behind, by the value whose copy throws; `C94_throw_in_copy`, `C94_throw_in_growing_copy`, `C94_throw_in_first_copy` and `C94_copy_that_returns` say the same of copy assignment (`FaultSetCopies.lean`), by the number of the call that throws. Copy constructors that throw are in C96. Comparisons, moves and destructors do not throw. |
| C95 | `Array( BUFFER_TYPE && )` with a `MallocBuffer`, one dimension (`FromBuffer.lean`) | The array is shown to meet the invariant of C07 for every capacity (`C95_array_from_buffer`); induction over histories that fit the capacity shows that no call allocates (`C95_stays_in_the_buffer`). `C95_objects_in_buffer_leak` shows that the documented precondition, an empty buffer, is needed: objects in it are never destroyed. Other buffer types are not covered. |
| C96 | the constructors of the heap `Array` of one dimension and of `SortedArray` that construct values (`Constructors.lean`, on `Faults.lean`), the copy constructor of `ArrayOfArrays` (`FaultRowCopies.lean`), and what C++ does when one throws: the destructor runs if and only if the constructor delegates | The state at the exception is computed for every call that may throw, then the destructor. `C96_constructors_clean_partial` says exactly when the constructors of `Array` leave nothing behind; partial because the code violates the rest, and `C96_throw_in_sized_array`, `C96_throw_in_copied_array` and `C96_throw_in_copied_set` say what each exception leaves behind. Not modelled: negative sizes, several dimensions, stack buffers. For `ArrayOfArrays`: `C96_copied_rows`, `C96_throw_in_copied_rows`. |
| C97 | the calls of `ArrayOfArrays` that construct values in one inner array, with the state in which an exception leaves the object (`FaultRows.lean`, on `AoA.lean`), and copy assignment (`FaultRowCopies.lean`); moves of values do not throw | Without exceptions each call is the call of C21 (`C97_no_throw`). The state at the exception is computed from the layout invariant, then induction over histories (`C97_harmless_throws_partial`). Partial: harmless is an exception of the first value in a call that constructs at the end of an inner array (`Spec/FaultRows.lean`); `C97_throw_in_append`, `C97_throw_in_resizeArray`, `C97_throw_in_emplace_breaks_row`, `C97_throw_in_insertIntoArray_breaks_row`, `C97_throw_in_appendArray_adds_row`, `C97_throw_in_sized_appendArray_adds_row` and `C97_throw_in_insertArray_adds_row` say what the others leave behind, the first two and the last three up to the number of values that are never destroyed; `C97_throw_in_copy_breaks_object` does so for copy assignment. |
| C46, C48 | map of handlers, stack of guards | induction on call sequences |

## Where the code disagrees with the property

Each of these is proved about the model with a concrete witness; the property keeps its full statement, the positive
theorem has the suffix `_partial` and the exclusion is in its hypotheses.

* C05: a slice with a dimension of size zero or one can be contiguous although `isContiguous` says no.
* C07, C21: in debug builds inserting an empty range into a never allocated array aborts.
* C08: insertion in the middle constructs over moved-from objects without destroying them.
* C13: move assignment of `Array` and `SortedArray` releases the destination's buffer handle without freeing it (leak); self-move loses
  the contents; a moved-from `Array` keeps zero strides; a moved-from `ArrayOfArrays` cannot be appended to.
* C14: `emplace_back( a[ i ] )`, `emplace( pos, a[ i ] )` and `resizeDefault( n, a[ i ] )` use the reference after the
  storage moved; exactly which indices, positions and sizes go wrong, and how, is proved (for trivial types an element that was
  moved away leaves its bytes, which is modelled).
* C80: `invert< 3 >( matrix )` does not compare the sizes of its argument with three, unlike every other function of the file: a 4 by 4
  matrix gets the inverse of its leading 3 by 3 entries in a build with bounds checking too (`C80_invert3_unchecked_witness`). With the
  destination as the source (`__restrict__` excludes it) the forms with two arguments are wrong (`C80_overlap_witness`).
* C94: `insert( value )` moves the values above the new one before it copies the new one. If the copy throws, they are not moved back: the size is unchanged, the position of the insertion holds no object, and reading it or destroying the array is undefined (`C94_throw_in_insert_breaks_set`). The same holds for a range if the copy that throws is that of a value below a value of the set (`C94_throw_in_range_insert_breaks_set`). If it is that of a value above the set, the set reads as before, but the values copied before it are never destroyed (`C94_throw_in_range_insert_above`). A range inserted into an empty array of which a later value throws leaves the earlier ones constructed but outside the size: they are never destroyed (`C94_throw_in_range_insert_leaks`). A copy assignment sets the size last: if one of its assignments throws, the array keeps its size and lists some values of the source followed by some of its own, in general not in order; if the source is smaller the values beyond its size are already destroyed, so that reading them or destroying the array is undefined (`C94_throw_in_copy`), and if it is larger the values default constructed for it are never destroyed (`C94_throw_in_growing_copy`).
* C96: `Array( n )` sets the size before it constructs the values. If one throws, the destructor runs, because the constructor delegates to `Array()`, and destroys values that were never constructed: undefined (`C96_throw_in_sized_array`). The copy constructor of `Array` sets the size last: the destructor runs, releases the memory and destroys no value (`C96_throw_in_copied_array`). The copy constructor of `SortedArray` does not delegate: the destructor does not run, and the memory is not released either (`C96_throw_in_copied_set`). Nor does that of `ArrayOfArrays`: the values copied before the exception and the memory are lost (`C96_throw_in_copied_rows`).
* C97: `appendToArray` or `resizeArray` whose second or later value throws leaves all inner arrays as they were, but never destroys the values that it had constructed. `emplace` in front of a value has moved the values up before it constructs: if that throws, the inner array keeps its size and contains a slot without a value; so does `insertIntoArray`, or the inner array shows some of the new values in place of its own. `appendArray` and `insertArray` add the inner array before they construct the values, and do not remove it. Copy assignment takes over the sizes of the source before it copies the values: after an exception the object counts values that are not there, and its destructor destroys them (`C97_throw_in_copy_breaks_object`). The definitions of `FaultRows.lean` and `FaultRowCopies.lean` have not been tested with seeded bugs: the mutants written for them were not run, and `seeded/LOG.jsonl` has no entries for them.
* C93: nothing in `SortedArray` checks that the number of values is still a value of `INDEX_TYPE`. With `std::uint8_t`, inserting a 256th value returns `true` and leaves `size()` at 0; a signed 8 or 16 bit size becomes negative; `int` and wider signed types overflow (undefined); `std::uint32_t` wraps to 0 before the buffer is grown, so that a full buffer is written past its end (`C93_narrow_wraps`, `C93_signed_overflow`, `C93_unsigned_wraps`, `C93_unsigned_full`). Inserting 256 values at once into an empty `std::uint8_t` set writes outside the buffer (`C93_range_lost`).
* C92: `std::malloc`'s result is not looked at. When it refuses, a release build moves the values of a `SortedArray` through a null pointer, and in every build `insert( first, last )` into an empty set constructs through it (`sortedArrayManipulation.hpp` 690-701 has no assertion). A refused `reserve` of an empty set goes unnoticed. `C92_unreported` gives the histories.
* C85: `MallocBuffer::reallocate` does not look at the result of `std::malloc` and multiplies without a check. A refused request is undefined behaviour in
  release builds (null pointer) and ends in an assertion in debug builds; `reserve` of an empty array returns and `capacity()` reports what is not
  there. A capacity whose byte count wraps is undefined in every build once the array is filled.
* C87: `zero()` keeps the number of bytes in a variable of type `INDEX_TYPE`. With a 32 bit `INDEX_TYPE` and room for `2 ^ 30` entries of four bytes it
  sets nothing to zero (`C87_nothing`), and with room for `2 ^ 29` such entries it passes `memset` a count near `2 ^ 64` (`C87_overrun`).
  `C87_zero_partial` assumes that the bytes are fewer than `INDEX_TYPE` can count.
* C88: an inner array that is described as `SORTED_WITH_DUPLICATES` and is not sorted loses values without a report in builds without assertions, and
  `consistencyCheck()` finds nothing wrong afterwards (`C88_records_kept`). The call of `consistencyCheck()` at the end of `assimilate` is compiled
  only under `ARRAY_BOUNDS_CHECK`, which no file defines.
* C90: `calculateSize` prints into ten characters. From 10737364552909 bytes on the unit is cut off (`10000.0 G`), from about a petabyte on it is missing, and `calculateSize( 2^64 - 1 )` is `171798691` (`C90_cut_off`, `C90_witness`). The same limit is what keeps the padding in the message from wrapping (`C90_message`).
* C81: `matrix.insertNonZero( i, col, matrix.getEntries( j )[ k ] )` inserts another entry, or reads freed memory, when row `i` has to be
  given a larger capacity (`C81_insert_moves`), and inserts the entry in front of the `k`-th one when `j = i` and `col` is in front of it
  (`C81_insert_same_row`). The range version can leave a column several times in the row.
* C78 (not a violation: `__restrict__` excludes it): with the destination as an argument the cross product, the products and the
  transposition with two arguments read entries already overwritten (`C78_overlap_witness`); nothing in the library notices.
* C77: for half precision `atan2( 0, 0 )` is a NaN, not 0 (`C77_atan2_origin`), and `atan2( y, NaN )` is about π/4 or -π/4, not a NaN
  (`C77_atan2_hides_nan`): `min` and `max` return the argument that is a number, so that the ratio is 1.
* C76: `insertIntoSet( i, sets( j, k ) )` and its range form make room first and read the value afterwards. If the allocation has
  to be replaced the read is of freed memory (`C76_needs_room`); if only the later sets are shifted the value of another element is
  inserted and set `i` need not be sorted any more (`C76_shifted_breaks_set`, `C76_shifted_union_wrong`).
* C73: `emplaceBack( i, a( j, k ) )`, `appendToArray`, `emplace`, `insertIntoArray`, `appendArray` and `insertArray` with
  elements of the object itself read them after making room. If that replaces the allocation they are gone
  (`C73_needs_room`); if it shifts them, other elements are read (`C73_disturbed_wrong`) or destroyed ones
  (`C73_disturbed_destroyed`). `C73_exact` says which.
* C74: `resizeArray( i, n, std::move( v ) )` moves from `v` once for every new element, because `arrayManipulation::resize` forwards
  its arguments in a loop: for `std::string( "abc" )` the first new element is "abc" and the others are empty
  (`C74_moved_arguments`), whereas docs/sphinx/ArrayOfArrays.rst promises `vector[ i ].resize( n, T( args ... ) )`.
  `Array::insert` and the functions of `ArrayOfArrays` that take ranges accept input iterators (`iterDistance` has a loop for
  them), but count the values first and then read from the old iterator: undefined for single pass ranges
  (`C74_single_pass_undefined`).
* C18: `introsortLoop` keeps at most 31 pending ranges; for every length from 125 on some input overflows this table, below
  125 none does.
* C24, C29: when an allocation grows while an inner array has spare capacity, slots that hold no object are moved and
  destroyed; harmless for trivial types only.
* C25: copy assignment reads the new offsets at the old number of arrays; self-assignment is affected too.
* C26: without bounds checks `emplaceBackAtomic` can run into the next array (documented precondition).
* C29: `insertNonZero` of the owning classes does not check the column.
* C30: `addToRowLinearSearch` with a missing column adds to another entry.
* C34: `integerConversion` accepts a negative value when the destination is a wider unsigned type.
* C37: text nested deeper than the rank makes `stringToArray` write past its work arrays; `{1-2,}` is accepted.
  (In addition the error message for an invalid value calls `substr( tellg() )` with `-1`, which throws
  `std::out_of_range`; the model does not distinguish this from the error it reports.)
* C39: `memcpy` compares total sizes and strides, not shapes.
* C44: `LVARRAY_ERROR_IF_LE` and `LVARRAY_THROW_IF_LE` test `>=`.
* C46: calling `setSignalHandling` twice loses the original handlers; exactly, a reset restores what was installed before the
  most recent call.
* C63: a failed `LVARRAY_ERROR_IF` does not stop the program if the error handler returns (the other properties assume that it
  does not), and an error handler that runs into an LvArray error itself recurses for ever.
* C47: `appendToArray` of a view writes before the capacity is checked.
* C48: exceptions enabled inside a guard stay enabled.
* C49: `capacity()` asserts that two independently growing allocations have the same size; exactly when it is right is proved.
* C51: `moveNested` does not touch the inner arrays when the space does not change, so writes of a second kernel can
  be lost; moving to the device through a view that holds a device pointer makes the host follow it.
* C52: `set_access_level` accepts any integer and `get_entries` of a matrix is writable at every level but 0, so also at
  -1; arrays obtained at a higher level stay writable after the level is lowered.
* C53: `ArrayOfSets.erase_from` ignores that its argument could not be converted and raises `SystemError`.
* C55: unsorted values break `SortedArray`, `ArrayOfSets` and `CRSMatrix` (and abort debug builds), `insert_nonzeros` accepts
  columns out of range, `add_to_row` reads past the end of a column array that is shorter than the values, arrays dangle after
  a method reallocates, `resize_all` with a negative length aborts, and methods of `ArrayOfArrays()` and `ArrayOfSets()` that
  resize dereference a null pointer.
* C56: `Array::resize` checks each length but not their product: signed overflow, or for unsigned types a wrapped size with
  every index of the requested shape passing the bounds checks.  `operator[]`, `resize( n )` of a multidimensional array and
  `resizeDefault` convert their argument to `INDEX_TYPE` before any check, so `a[ 4294967296 ]` is `a[ 0 ]` for `int`.
* C57: with an unsigned index type growing an inner dimension never returns (`for( i = ...; i >= 0; --i )`) and
  `setCapacityOfArray` below the size takes the growing branch and corrupts the following arrays.
* C60: `to_scipy` leaks three arrays per call and dereferences null without SciPy; `addPyLvArrayModule` releases a reference
  it has given away; a wrapper whose value type NumPy does not know is leaked; assigning one `PyObjectRef` to another leaks
  the old object; a failing `PyArray_Cast` or `PyList_New` is dereferenced; a string that is not UTF-8 leaves an exception set
  with a list returned.  Besides the model: no `tp_dealloc` of the five classes calls `tp_free`, so the memory of every
  wrapper is leaked.
* C62: the note on `setValues` says that the view is moved to the space of the policy; only the captured copy is, so the view
  itself must be moved before it is used there.
* C66: the total capacity of an `ArrayOfArrays` is never checked against the index type: constructing 3 arrays of capacity
  2^31 with 32 bit unsigned indices makes the first and third share their storage, with signed indices it overflows; growing
  doubles the size without a check; `eraseArray` with unsigned indices lowers a capacity and so corrupts the arrays behind.
* C67: calls that construct an element after elements were moved or the size was set do not survive an exception from it: `emplace`
  and `insert` in the middle leave a hole, a growing `resize` leaves the new size without the elements, an `insert` of several
  elements leaks those already constructed, a copy assignment from a shorter array leaves the old size; destroying the array is
  then undefined.  A `resize` of a stack array beyond its capacity, and `resize( dims ... )` with a negative size, have set the
  size when the error handler is called: with a handler that throws, checked accesses beyond the storage are undefined
  (`C67_throw_in_emplace_breaks_array`, `C67_throw_in_resize_breaks_array`, `C67_throw_in_insert_leaks`,
  `C67_throw_in_copy_breaks_array`, `C67_refused_resize_breaks_stack_array`, `C67_refused_negative_resize_changes_size`); catching
  the exception and going on does not help (`C67_array_stays_broken`, `C67_stack_array_stays_broken`).
* C69: inserting m sorted values into a `SortedArray` of n elements is documented as O( n + m ), but each value is searched for, which
  takes up to m log n comparisons (`C69_batch_insert_not_linear`); `emplaceBack` to a full array of an `ArrayOfArrays` is documented
  as O( M ), but also changes the offsets of all later arrays, however small their capacities (`C69_emplaceBack_not_linear_in_capacities`);
  `appendArray( n )` is documented as O( n ), but may reallocate, so this only holds on average (`C69_appendArray_not_linear`,
  `C69_appendArray_amortised`).

## Trusted base

* Lean 4's kernel, and the axioms `propext`, `Classical.choice` and `Quot.sound` that Mathlib uses.  No axiom is added,
  and neither `sorry` nor `native_decide` nor `bv_decide` occurs.  `AXIOMS.txt`, written by `tools/axioms.py`, lists the
  axioms of every theorem in `MANIFEST.json`.
* The correspondence between the model and the C++ is by reading: see the comment on each definition, which also states
  the simplification made there, and the table above for what is left out.
* The theorems were tested against wrong programs: `seeded/LOG.jsonl`, written by `tools/mutate.py`, has one line per
  edit of the model with the theorems that then fail.
