{"id": "C01", "title": "Multi-index to memory mapping is a bijection", "statement": "For an Array of any number of dimensions, any valid permutation and any non-negative dimension sizes, a(i0,...,iN-1) addresses a position in [0, size()); two different in-bounds multi-indices address two different positions; every position in [0, size()) is addressed by some in-bounds multi-index. size() is the product of the dimension sizes.", "quantifier": "every number of dimensions, every permutation, every tuple of dimension sizes, every pair of in-bounds multi-indices", "why_tests_cant": "permutations, dimensions and sizes are unbounded; tests pick a handful of shapes", "anchors": ["src/indexing.hpp: calculateStrides, getLinearIndex, multiplyAll", "src/ArrayView.hpp: linearIndex, operator(), size"]}
{"id": "C02", "title": "The permutation fixes the memory order", "statement": "The dimension named last in the permutation has stride 1, and the memory order of elements is exactly the lexicographic order of their indices read in permutation order (leftmost entry slowest).", "quantifier": "every permutation, dimension tuple and pair of in-bounds multi-indices", "why_tests_cant": "ordering of all pairs of elements for all shapes cannot be enumerated", "anchors": ["src/indexing.hpp: calculateStrides, getLinearIndex", "src/typeManipulation.hpp: getStrideOneDimension, isValidPermutation"]}
{"id": "C03", "title": "Chained operator[] agrees with operator()", "statement": "a[i0][i1]...[iN-1] refers to the same element as a(i0,...,iN-1), and for any prefix of indices the slice obtained by chaining operator[] has the remaining dimension sizes and, when indexed with the remaining indices by operator(), reaches the same element.", "quantifier": "every array shape, permutation, split point and multi-index", "why_tests_cant": "unbounded shapes and nesting depths", "anchors": ["src/ArrayView.hpp: operator[], operator()", "src/ArraySlice.hpp: operator[], operator(), size", "src/indexing.hpp: getLinearIndex"]}
{"id": "C04", "title": "Checked access aborts exactly on invalid indices", "statement": "With bounds checking on, element access with signed indices aborts if and only if some index is negative or not less than its dimension; when it does not abort, the access is inside the allocation.", "quantifier": "every shape and every tuple of signed indices, including negative ones", "why_tests_cant": "the set of index tuples is unbounded in both directions", "anchors": ["src/indexing.hpp: invalidIndices, checkIndices", "src/ArraySlice.hpp: ARRAY_SLICE_CHECK_BOUNDS, operator[]", "src/ArrayView.hpp: operator(), operator[]"]}
{"id": "C05", "title": "Contiguity test of slices is exact", "statement": "For a slice obtained from an Array by fixing leading indices, isContiguous() returns true exactly when the slice's elements occupy size() consecutive memory positions starting at its first element, so dataIfContiguous(), begin() and end() either describe precisely the slice's elements or abort.", "quantifier": "every array shape and permutation and every number of fixed leading indices", "why_tests_cant": "the test is a numeric inequality on strides; only a proof relates it to the set of addresses for all shapes", "anchors": ["src/ArraySlice.hpp: isContiguous, dataIfContiguous, begin, end"]}
{"id": "C06", "title": "Slice iteration visits each element once in index order", "statement": "forValuesInSlice calls the callback once for every element, in lexicographic order of the multi-index irrespective of the permutation; forValuesInSliceWithIndices additionally passes the index tuple of that element; sumOverFirstDimension accumulates, for each remaining index, exactly the sum over the first index.", "quantifier": "every shape, permutation and callback", "why_tests_cant": "unbounded recursion depth and sizes", "anchors": ["src/sliceHelpers.hpp: forValuesInSlice, forValuesInSliceWithIndices, sumOverFirstDimension"]}
{"id": "C07", "title": "One-dimensional Array behaves like std::vector", "statement": "After any sequence of emplace_back, emplace, insert, erase, pop_back, resize, resizeDefault, reserve and clear with valid positions, the array's size and element sequence equal those of a std::vector (a list) after the same sequence.", "quantifier": "every finite operation sequence, every element value, every initial capacity", "why_tests_cant": "histories are unbounded and capacity growth interacts with every operation", "anchors": ["src/Array.hpp: emplace_back, emplace, insert, erase, pop_back, resize, resizeDefault, reserve, clear", "src/bufferManipulation.hpp", "src/arrayManipulation.hpp: shiftUp, shiftDown, emplace, insert, erase, resize"]}
{"id": "C08", "title": "Element lifetimes are exact", "statement": "Through any sequence of one-dimensional Array operations no operation reads or destroys memory that holds no object, no access leaves the allocation, and afterwards exactly the first size() slots hold objects; every object that was created was destroyed exactly once or is still one of the elements.", "quantifier": "every operation sequence and every element type (including types whose copy/destroy is observable)", "why_tests_cant": "lifetime accounting must hold along every history; sanitizers only see executed histories", "anchors": ["src/arrayManipulation.hpp: shiftUp, shiftDown, erase, resize, destroy, uninitializedMove", "src/bufferManipulation.hpp", "src/MallocBuffer.hpp: reallocate"]}
{"id": "C09", "title": "Capacity growth is safe and amortised", "statement": "reserve never shrinks capacity and never changes contents; size() never exceeds capacity(); n calls of emplace_back on an empty array relocate at most 2n elements in total.", "quantifier": "every n and every starting size/capacity", "why_tests_cant": "amortised bounds quantify over all n", "anchors": ["src/bufferManipulation.hpp: reserve, dynamicReserve, emplaceBack", "src/MallocBuffer.hpp: reallocate"]}
{"id": "C10", "title": "Single-dimension resize preserves surviving elements", "statement": "resize(newdim)/resizeDefault(newdim, v) on the selected dimension keeps a(i0,...,iN-1) for every multi-index that is in bounds both before and after, and every multi-index that is newly in bounds reads the default value, for any permutation and any selected dimension; no uninitialised or foreign memory is read.", "quantifier": "every dimension count, permutation, selected dimension, old and new length and contents", "why_tests_cant": "the in-place shifting algorithm depends on strides and all sizes; unbounded", "anchors": ["src/Array.hpp: resize, resizeDefault, resizeDefaultDimension, setSingleParameterResizeIndex"]}
{"id": "C11", "title": "Full resize gives the requested shape", "statement": "resize(dims...) / resize(n, dims*) / resizeDimension<...> result in exactly the requested dimension sizes, size() equal to their product, a consistent index mapping, storage for all elements, all of them initialised, the first min(old,new) elements in memory order unchanged and all others default; negative sizes abort.", "quantifier": "every old and new shape and permutation", "why_tests_cant": "unbounded shapes", "anchors": ["src/Array.hpp: resize, resizeDimension, resizeWithoutInitializationOrDestruction"]}
{"id": "C12", "title": "Copies are deep and equal", "statement": "Copy construction and copy assignment of Array, SortedArray give a container with the same shape and contents in its own storage; the source is unchanged and later changes to one are not visible in the other.", "quantifier": "every source and destination state", "why_tests_cant": "destination and source states are unbounded", "anchors": ["src/Array.hpp: Array(Array const &), operator=(Array const &)", "src/SortedArray.hpp: operator=", "src/bufferManipulation.hpp: copyInto"]}
{"id": "C13", "title": "Moves transfer ownership without loss or leak", "statement": "Move construction / assignment leaves the destination with exactly the source's old contents, leaves the source an empty container that can be used again, and the destination's previous elements and storage are released.", "quantifier": "every source and destination state", "why_tests_cant": "must hold for every pair of states; leaks are not observable in value tests", "anchors": ["src/Array.hpp: Array(Array &&), operator=(Array &&)", "src/SortedArray.hpp: operator=(SortedArray &&)", "src/MallocBuffer.hpp: operator=(MallocBuffer &&)", "src/ArrayOfArrays.hpp: operator=(ArrayOfArrays &&)"]}
{"id": "C14", "title": "Arguments may alias the container", "statement": "As with std::vector, a.emplace_back(a[i]), a.insert-style calls and a.resizeDefault(n, a[i]) use the value a[i] had before the call.", "quantifier": "every state and index i", "why_tests_cant": "fails only when the call happens to reallocate or shift, i.e. depends on capacity history", "anchors": ["src/bufferManipulation.hpp: emplaceBack, emplace", "src/Array.hpp: emplace_back, emplace, resizeDefault"]}
{"id": "C15", "title": "Binary search is exact", "statement": "On a sorted range find returns the unique lower-bound position (everything before is smaller, everything from it on is not smaller) and contains/count returns true exactly for members; no element outside the range is read.", "quantifier": "every sorted range and every value, for any strict weak order", "why_tests_cant": "unbounded sizes and all orders", "anchors": ["src/sortedArrayManipulation.hpp: find, contains", "src/SortedArrayView.hpp: contains, count"]}
{"id": "C16", "title": "Single insert/remove implement a mathematical set", "statement": "For any history of insert(v), remove(v), clear and reserve, a SortedArray is sorted without duplicates, contains exactly the values of the abstract set, and each call returns true exactly when it changed the set.", "quantifier": "every operation history and value type with a strict total order", "why_tests_cant": "unbounded histories", "anchors": ["src/SortedArray.hpp: insert, remove, clear, reserve", "src/sortedArrayManipulation.hpp: insert, remove"]}
{"id": "C17", "title": "Bulk insert/remove implement union and difference", "statement": "insert(first,last) / remove(first,last) with a sorted unique range turn the set S into S union R / S minus R, keep it sorted and unique, and return exactly the number of values added / removed.", "quantifier": "every set, every sorted unique range, every history", "why_tests_cant": "the one-pass backward merge depends on all interleavings of two sequences", "anchors": ["src/sortedArrayManipulation.hpp: insert (range), remove (range)", "src/SortedArray.hpp: insert, remove"]}
{"id": "C18", "title": "Sorting yields an ordered permutation and stays in bounds", "statement": "makeSorted leaves a sorted permutation of the input; dualSort sorts the keys and applies the same permutation to the data, so every (key,data) pair survives; neither touches memory outside the range or its own work area.", "quantifier": "every input sequence and strict weak order", "why_tests_cant": "adversarial inputs for introsort are found only by reasoning", "anchors": ["src/sortedArrayManipulation.hpp: makeSorted, dualSort", "src/sortedArrayManipulationHelpers.hpp: introsortLoop, insertionSort, unguardedPartition, computeMedian, unguardedLinearInsert"]}
{"id": "C19", "title": "Duplicate removal is exact", "statement": "removeDuplicates on a sorted range returns the number of distinct values and leaves exactly those values, sorted, at the front; makeSortedUnique does so for any input.", "quantifier": "every input sequence", "why_tests_cant": "unbounded inputs", "anchors": ["src/sortedArrayManipulation.hpp: removeDuplicates, makeSortedUnique"]}
{"id": "C20", "title": "Sortedness tests are exact", "statement": "isSorted / isSortedUnique return true exactly when every earlier element is not greater than / is strictly less than every later element.", "quantifier": "every input sequence", "why_tests_cant": "the test looks only at neighbours; global order follows by induction", "anchors": ["src/sortedArrayManipulation.hpp: isSorted, isSortedUnique"]}
{"id": "C21", "title": "ArrayOfArrays behaves like a vector of vectors", "statement": "After any sequence of resize, reserve, reserveValues, appendArray, insertArray, eraseArray, emplaceBack, appendToArray, emplace, insertIntoArray, eraseFromArray, resizeArray, clearArray, setCapacityOfArray and compress with valid arguments the number, sizes and contents of the inner arrays equal those of a std::vector<std::vector<T>> after the same sequence (for trivially copyable T).", "quantifier": "every operation history and contents", "why_tests_cant": "three buffers are updated in lock-step along unbounded histories", "anchors": ["src/ArrayOfArrays.hpp", "src/ArrayOfArraysView.hpp"]}
{"id": "C22", "title": "Inner arrays never overlap or overflow", "statement": "In every reachable ArrayOfArrays: offsets start at 0 and never decrease, each inner array's size is at most its capacity, the storage ranges of different inner arrays are disjoint, and all lie within the allocation; an operation on one inner array leaves the contents of all others unchanged.", "quantifier": "every reachable state", "why_tests_cant": "invariant over all histories", "anchors": ["src/ArrayOfArraysView.hpp: resizeImpl, setCapacityOfArray, compress, resizeFromCapacities", "src/ArrayOfArrays.hpp"]}
{"id": "C23", "title": "compress and capacity changes preserve contents", "statement": "compress makes every inner array's capacity equal its size with all inner arrays adjacent, and keeps contents; setCapacityOfArray(i,c) gives array i capacity c, keeps its first min(size,c) values and every other array; dynamic growth leaves contents unchanged.", "quantifier": "every state, index and capacity", "why_tests_cant": "in-place shifting in both directions for all layouts", "anchors": ["src/ArrayOfArraysView.hpp: compress, setCapacityOfArray", "src/ArrayOfArrays.hpp: dynamicallyGrowArray"]}
{"id": "C24", "title": "ArrayOfArrays never touches uninitialised slots", "statement": "For element types with non-trivial construction/destruction no ArrayOfArrays operation moves from, copies or destroys a slot that holds no object (the gap between an inner array's size and its capacity).", "quantifier": "every history and layout with spare capacity", "why_tests_cant": "undefined behaviour that usually goes unnoticed at run time", "anchors": ["src/ArrayOfArraysView.hpp: reserveValues, resizeImpl, setCapacityOfArray", "src/MallocBuffer.hpp: reallocate"]}
{"id": "C25", "title": "Copy assignment of ArrayOfArrays equals its source", "statement": "dst = src makes dst an independent container with the same inner arrays (same capacities per array) for any previous state of dst.", "quantifier": "every pair of states", "why_tests_cant": "depends on how old and new layouts overlap", "anchors": ["src/ArrayOfArraysView.hpp: setEqualTo, destroyValues", "src/ArrayOfArrays.hpp: operator="]}
{"id": "C26", "title": "Concurrent emplaceBackAtomic loses nothing", "statement": "If any number of threads concurrently call emplaceBackAtomic on the inner arrays of a view and the capacities suffice, then for every interleaving the final inner array is its old contents followed by a permutation of exactly the values appended to it, and no two calls write the same slot.", "quantifier": "every number of threads, every assignment of calls to arrays and every schedule", "why_tests_cant": "schedules cannot be enumerated", "anchors": ["src/ArrayOfArraysView.hpp: emplaceBackAtomic"]}
{"id": "C27", "title": "ArrayOfSets behaves like a vector of sets", "statement": "After any history of resize, appendSet, insertSet, eraseSet, insertIntoSet (single and range), removeFromSet (single and range), clearSet, setCapacity/reserveCapacityOfSet and compress every inner set is sorted and unique, equals the corresponding abstract set, and calls return the number of values added/removed.", "quantifier": "every history", "why_tests_cant": "set algorithms run on top of in-place growth of neighbouring sets", "anchors": ["src/ArrayOfSets.hpp", "src/ArrayOfSetsView.hpp: insertIntoSetImpl, removeFromSetImpl"]}
{"id": "C28", "title": "assimilate turns arrays into sets", "statement": "ArrayOfSets::assimilate(ArrayOfArrays&&, desc) yields for each inner array the sorted set of its values, for every description that truthfully describes the input.", "quantifier": "every input and each description", "why_tests_cant": "unbounded inputs", "anchors": ["src/ArrayOfSets.hpp: assimilate", "src/sortedArrayManipulation.hpp: makeSorted, removeDuplicates"]}
{"id": "C29", "title": "Sparse matrices are maps from (row, column)", "statement": "For any history of insertNonZero(s)/removeNonZero(s)/setRowCapacity/compress/resize on SparsityPattern or CRSMatrix with columns in range, each row's columns are sorted and unique and in range, insert/remove return exactly the number of entries added/removed, and in a CRSMatrix every entry stays attached to its column.", "quantifier": "every history, row, column set and values", "why_tests_cant": "entries live in a parallel buffer shifted by callbacks", "anchors": ["src/SparsityPattern.hpp", "src/CRSMatrix.hpp: CallBacks", "src/CRSMatrixView.hpp: CallBacks, insertNonZero, removeNonZeros"]}
{"id": "C30", "title": "addToRow variants agree and add to the right entries", "statement": "addToRowBinarySearch, addToRowLinearSearch (sorted columns), addToRowBinarySearchUnsorted (any order) and addToRow (which picks one) add vals[k] to the entry of column cols[k] for every k and change nothing else, provided every given column is present in the row.", "quantifier": "every row contents, column list and values", "why_tests_cant": "three search strategies and a size-dependent dispatch", "anchors": ["src/CRSMatrixView.hpp: addToRow, addToRowBinarySearch, addToRowLinearSearch, addToRowBinarySearchUnsorted"]}
{"id": "C31", "title": "Concurrent atomic addToRow is order-independent", "statement": "When many threads add to the same rows with an atomic policy, then for every interleaving the final entry is the initial entry plus the sum of all contributions to that column.", "quantifier": "every number of threads, contributions and schedules (exact arithmetic)", "why_tests_cant": "schedules cannot be enumerated", "anchors": ["src/CRSMatrixView.hpp: addToRow*"]}
{"id": "C32", "title": "Building from capacities is exact", "statement": "resizeFromCapacities(n, caps) yields n empty inner arrays whose capacities are exactly caps, whatever the previous contents; resizeFromRowCapacities likewise sets the row and column counts.", "quantifier": "every previous state and capacity list", "why_tests_cant": "unbounded", "anchors": ["src/ArrayOfArraysView.hpp: resizeFromCapacities", "src/SparsityPattern.hpp: resizeFromRowCapacities", "src/CRSMatrix.hpp: resizeFromRowCapacities"]}
{"id": "C33", "title": "CRSMatrix::assimilate keeps the pattern and zeroes entries", "statement": "Assimilating a SparsityPattern gives a matrix with the same rows, columns and capacities and all entries value-initialised; the pattern is left empty.", "quantifier": "every pattern and every previous matrix", "why_tests_cant": "unbounded states", "anchors": ["src/CRSMatrix.hpp: assimilate", "src/SparsityPatternView.hpp: assimilate"]}
{"id": "C34", "title": "integerConversion preserves the value or aborts", "statement": "integerConversion<OUT>(x) returns the same mathematical integer, or aborts when OUT cannot represent x, for every pair of integer types.", "quantifier": "every signedness and bit width of source and target and every value", "why_tests_cant": "2^64 values times all type pairs", "anchors": ["src/limits.hpp: integerConversion, canEasilyConvert"]}
{"id": "C35", "title": "Fixed-capacity buffers never overflow", "statement": "An Array backed by a StackBuffer of length L never writes outside its L slots: an operation that would need more aborts and otherwise behaves like the heap-backed array.", "quantifier": "every L and operation history", "why_tests_cant": "histories unbounded", "anchors": ["src/StackBuffer.hpp: reallocate", "src/bufferManipulation.hpp"]}
{"id": "C36", "title": "Text output reads back as the same array", "statement": "Writing an array with all dimensions positive with operator<< and parsing it with stringToArray into an array of the same rank gives the same dimensions and values.", "quantifier": "every rank, shape, permutation and contents (values whose text is a single token)", "why_tests_cant": "unbounded nesting and sizes", "anchors": ["src/input.hpp: stringToArray", "src/output.hpp: operator<<(ArraySlice)"]}
{"id": "C37", "title": "Malformed array text is rejected safely", "statement": "stringToArray on any string either aborts with an error or fills the array; it never reads or writes outside its own work arrays or the array being filled.", "quantifier": "every input string and rank", "why_tests_cant": "the space of strings is unbounded", "anchors": ["src/input.hpp: stringToArray, StringToArrayHelper::Read"]}
{"id": "C38", "title": "Data follows the array between memory spaces", "statement": "For any sequence of moves to host or device, writes in the current space through a mutable view (which touches) and read-only captures, a read in the current space returns the last value written in any space.", "quantifier": "every history of moves, touches, reads and writes", "why_tests_cant": "stale copies appear only for particular histories", "anchors": ["src/ChaiBuffer.hpp: move, registerTouch, reallocate", "src/ArrayView.hpp: move", "docs/sphinx/Array.rst"]}
{"id": "C39", "title": "memcpy between equal layouts copies every element", "statement": "LvArray::memcpy(dst, src) either aborts or makes dst(i...) == src(i...) for every multi-index of dst, changing nothing else.", "quantifier": "every shape, permutation and contents of both slices", "why_tests_cant": "only sizes and strides are compared, not dimensions", "anchors": ["src/memcpy.hpp: memcpy", "src/ArraySlice.hpp: dataIfContiguous"]}
{"id": "C40", "title": "Tensor products compute the index formulas", "statement": "Each tensorOps routine named after an index expression (Rij_eq_AikBkj, Ri_add_AjiBj, transpose, trace, AiBi, scale, add, ...) computes exactly that expression for all sizes.", "quantifier": "all sizes, all entries, over any commutative ring", "why_tests_cant": "infinitely many sizes and values; tests use a few", "anchors": ["src/genericTensorOps.hpp"]}
{"id": "C41", "title": "Determinant and inverse are correct", "statement": "For 2x2 and 3x3 matrices determinant is the matrix determinant and, when it is non-zero, both forms of invert produce the two-sided inverse and return the determinant (exact arithmetic).", "quantifier": "every matrix over every field", "why_tests_cant": "infinitely many matrices", "anchors": ["src/fixedSizeSquareMatrixOpsImpl.hpp: determinant, invert"]}
{"id": "C42", "title": "Symmetric (Voigt) operations agree with dense ones", "statement": "symDeterminant, symInvert, Ri_eq_symAijBj, Rij_eq_symAikBjk, Rij_eq_AikSymBklAjl, symRij_eq_AiAj, symRij_eq_AiBj_plus_AjBi, symTrace, symAddIdentity give the same result as the dense operation on symmetricToDense of their arguments; denseToSymmetric inverts symmetricToDense.", "quantifier": "every symmetric matrix over every commutative ring/field", "why_tests_cant": "infinitely many matrices", "anchors": ["src/fixedSizeSquareMatrixOpsImpl.hpp", "src/fixedSizeSquareMatrixOps.hpp", "src/genericTensorOps.hpp: symTrace, symAddIdentity"]}
{"id": "C43", "title": "Symmetric eigenvalues are right and sorted", "statement": "symEigenvalues<2>/<3> return, in ascending order, exactly the roots of the characteristic polynomial (in exact real arithmetic).", "quantifier": "every real symmetric 2x2 / 3x3 matrix", "why_tests_cant": "infinitely many matrices", "anchors": ["src/fixedSizeSquareMatrixOpsImpl.hpp: symEigenvalues, eigenvaluesOfShiftedMatrix, shiftAndScale"]}
{"id": "C44", "title": "Error macros test the relation they name", "statement": "LVARRAY_ERROR_IF_<REL>(a,b) (and the _MSG and THROW forms) raise an error exactly when a REL b, for REL in EQ, NE, GT, GE, LT, LE.", "quantifier": "every pair of values of a totally ordered type and every macro", "why_tests_cant": "macros are not unit tested and are selected by name", "anchors": ["src/Macros.hpp: LVARRAY_ERROR_IF_*, LVARRAY_THROW_IF_*"]}
{"id": "C45", "title": "Type-punned views cover exactly the same bytes", "statement": "Converting an ArrayView<T> to an ArrayView<U> either aborts or yields a view whose unit-stride dimension is rescaled so that it covers exactly the same bytes and every element of the new view is the group of old elements with the same leading indices.", "quantifier": "every shape and every pair of commensurate element sizes", "why_tests_cant": "unbounded shapes", "anchors": ["src/ArrayView.hpp: ArrayView(ArrayView<U,...>)", "src/typeManipulation.hpp: convertSize"]}
{"id": "C46", "title": "Signal handlers are restored", "statement": "resetSignalHandling restores, for every managed signal, the handler that was installed before setSignalHandling was called, for any sequence of setSignalHandling calls.", "quantifier": "every sequence of set/reset calls", "why_tests_cant": "global state across histories", "anchors": ["src/system.cpp: setSignalHandling, resetSignalHandling"]}
{"id": "C47", "title": "View operations report insufficient capacity before corrupting data", "statement": "With bounds checking on, an ArrayOfArraysView operation that would exceed an inner array's capacity aborts without having modified any other inner array.", "quantifier": "every state and operation", "why_tests_cant": "corruption happens only for layouts where the neighbour is live", "anchors": ["src/ArrayOfArraysView.hpp: emplaceBack, appendToArray, emplace, insertIntoArray, emplaceBackAtomic"]}
{"id": "C48", "title": "Floating point guard restores the environment", "statement": "When a FloatingPointExceptionGuard is destroyed the set of enabled floating point exceptions is the one in force when it was constructed, and within its scope the exceptions it names are disabled, for any nesting of guards.", "quantifier": "every initial environment, every set of exceptions, every nesting of scopes", "why_tests_cant": "process-wide state over arbitrary nested histories", "anchors": ["src/system.hpp: FloatingPointExceptionGuard", "src/system.cpp: enableFloatingPointExceptions, disableFloatingPointExceptions"]}
{"id": "C49", "title": "ArrayOfArrays::capacity is the number of arrays that fit", "statement": "ArrayOfArrays::capacity() succeeds on every valid object and returns a number n such that empty inner arrays can be appended until there are n of them without any reallocation.", "quantifier": "every reachable state", "why_tests_cant": "The relation between the growth of the two internal allocations depends on the history of appends, inserts and reserves; a test checks it after a few histories.", "anchors": ["src/ArrayOfArraysView.hpp:capacity", "src/ArrayOfArrays.hpp:appendArray"]}
{"id": "C50", "title": "symEigenvectors returns orthonormal eigenvectors", "statement": "tensorOps::symEigenvectors< 2 > and < 3 > return the same ascending eigenvalues as symEigenvalues; the rows of the matrix they write are orthonormal, and row i is an eigenvector for eigenvalue i, in exact arithmetic up to the tolerance with which the 3x3 routine treats two eigenvalues as equal.", "quantifier": "every symmetric matrix, including multiple eigenvalues, multiples of the identity and the zero matrix; every previous content of the destinations", "why_tests_cant": "The branches depend on which eigenvalue is most distinct, which row is largest and whether eigenvalues coincide; a test tries a few matrices.", "anchors": ["src/fixedSizeSquareMatrixOps.hpp: symEigenvectors", "src/fixedSizeSquareMatrixOpsImpl.hpp: SquareMatrixOps<2>::symEigenvectors, SquareMatrixOps<3>::symEigenvectors, getNullVector"]}
{"id": "C51", "title": "Inner arrays follow the outer array between memory spaces", "statement": "For an array whose values are themselves arrays with their own allocations (Array of Array), moving the outer array or capturing a view of it in a kernel moves every inner array to the same memory space, so that any sequence of moves, captures, writes and reads on host and device that respects the rules of use (access a view only in the space it was moved to, write only through mutable views in a space that was touched) never follows a pointer to the wrong space and always reads the value last written, wherever it was written.", "quantifier": "every number and size of inner arrays (including empty ones), every history of moves, captures, read-only conversions, reads and writes", "why_tests_cant": "The outcome depends on the whole history of which view was moved where, with which touch flag; the state is spread over one record per allocation and the pointers stored inside the device copy.", "anchors": ["src/ChaiBuffer.hpp: moveNested, moveInnerData, move, registerTouch", "src/ArrayView.hpp: move", "docs/sphinx/Array.rst"]}
{"id": "C52", "title": "Python access levels are respected", "statement": "A container handed to Python starts read-only. Whatever a Python program does with it - calling methods, changing the access level, reading and assigning through the NumPy arrays it obtained - as long as it never asks for RESIZEABLE the container keeps its shape, and as long as it never asks for MODIFIABLE or more nothing about the container changes. The values of sorted containers can never be assigned through NumPy arrays.", "quantifier": "every container of each of the five wrapped classes, every Python program (list of calls, level changes, reads and assignments) of any length", "why_tests_cant": "The guarantee is about all programs, including ones that mix arrays obtained at different levels with later level changes.", "anchors": ["src/python/PyArray.cpp", "src/python/PyArray.hpp", "src/python/PySortedArray.cpp", "src/python/PyArrayOfArrays.cpp", "src/python/PyArrayOfSets.cpp", "src/python/PyCRSMatrix.cpp", "src/python/PyCRSMatrix.hpp: getEntries", "src/python/numpyHelpers.cpp: createNumpyArrayImpl"]}
{"id": "C53", "title": "Python programs see the mathematical containers", "statement": "A Python program that keeps to the contract of a wrapped container gets from every method the value or exception that the corresponding operation on a box of elements, a set, a list of lists, a list of sets or a sparse matrix gives; the NumPy arrays it obtained show the current contents, and assignments through them change the container, until a method that resizes invalidates them; no call crashes, and C++ afterwards sees the contents the program left.", "quantifier": "every reachable container of each of the five wrapped classes, every Python program (list of calls, level changes, reads and assignments) of any length within the contract", "why_tests_cant": "The guarantee couples the wrapper, the container and all arrays handed out over arbitrary programs.", "anchors": ["src/python/PyArray.cpp", "src/python/PyArray.hpp", "src/python/PySortedArray.cpp", "src/python/PyArrayOfArrays.cpp", "src/python/PyArrayOfSets.cpp", "src/python/PyCRSMatrix.cpp", "src/python/numpyHelpers.hpp: createNumPyArray"]}
{"id": "C54", "title": "to_scipy returns the compressed sparse row form", "statement": "CRSMatrix.to_scipy either raises RuntimeError, because the matrix has no rows or a row has unused capacity, or returns the data, indices and indptr arrays of exactly this matrix; after compress it always returns them if there is a row.", "quantifier": "every matrix after any legal history, every access level", "why_tests_cant": "Whether the storage is contiguous depends on the history of insertions and removals.", "anchors": ["src/python/PyCRSMatrix.cpp: PyCRSMatrix_toSciPy", "src/python/PyCRSMatrix.hpp: isCompressed, toSciPy"]}
{"id": "C55", "title": "Python programs cannot crash", "statement": "No Python program can make the interpreter crash or execute undefined behaviour through a wrapped container: wrong arguments raise exceptions.", "quantifier": "every reachable container of each of the five wrapped classes, every Python program", "why_tests_cant": "It is a statement about all programs and all arguments.", "anchors": ["src/python/PyArray.cpp", "src/python/PySortedArray.cpp", "src/python/PyArrayOfArrays.cpp", "src/python/PyArrayOfSets.cpp", "src/python/PyCRSMatrix.cpp: PyCRSMatrix_addToRow, PyCRSMatrix_insertNonZeros"]}
{"id": "C56", "title": "Index arithmetic is exact and shapes that are too large are rejected", "statement": "For every INDEX_TYPE, sizes, strides and positions of elements are the mathematical ones, indices of any mixture of integer types are checked against their mathematical values, and a request for a shape whose lengths or number of elements are not values of INDEX_TYPE aborts.", "quantifier": "every integer type, every permutation and shape, every index in any integer types, every history of resizes and assignments", "why_tests_cant": "The dangerous shapes are near the limits of the types, and mixed signed and unsigned comparisons depend on the combination of types.", "anchors": ["src/indexing.hpp: multiplyAll, getLinearIndex, invalidIndices, calculateStrides", "src/Array.hpp: resize, resizeDimension, resizeDefaultDimension", "src/ArrayView.hpp: size, operator(), operator[]", "src/limits.hpp: integerConversion"]}
{"id": "C57", "title": "Every integral type can be the index type", "statement": "The containers work the same with every integral INDEX_TYPE, signed or unsigned, in particular growing a dimension and lowering the capacity of an inner array.", "quantifier": "every integer type, every array and array of arrays, every new length and capacity", "why_tests_cant": "The tests instantiate one signed index type; the statement is about all types and all states.", "anchors": ["docs/sphinx/Array.rst", "docs/sphinx/ArrayOfArrays.rst", "src/Array.hpp: resizeDefaultDimension", "src/ArrayOfArraysView.hpp: setCapacityOfArray"]}
{"id": "C58", "title": "Distinct inner arrays, sets and rows can be modified in parallel", "statement": "Views of one ArrayOfArrays, ArrayOfSets, SparsityPattern or CRSMatrix may be used by several threads at once to read and modify inner arrays, sets or rows, without atomics or locks, as long as none is used by two threads: no call fails or touches another thread's data, every thread finishes whatever the others do, and the calls return and leave what they would if the threads ran one after another. In particular CRSMatrixView::setValues gives the same result with every execution policy.", "quantifier": "every container, number of threads, list of calls per thread on rows no other thread uses, and schedule of the single memory accesses; every element type and build configuration", "why_tests_cant": "The parallel tests run a few schedules on a few sizes; the statement is about all interleavings of all accesses of all calls.", "anchors": ["docs/sphinx/ArrayOfArrays.rst: the loop appending to the inner arrays can be parallelized", "src/ArrayOfArraysView.hpp: emplaceBack, appendToArray, emplace, insertIntoArray, eraseFromArray", "src/ArrayOfSetsView.hpp: insertIntoSet, removeFromSet, contains", "src/SparsityPatternView.hpp: insertNonZero(s), removeNonZero(s)", "src/sortedArrayManipulation.hpp: insert, remove", "src/CRSMatrixView.hpp: insertNonZero(s), removeNonZero(s), addToRow and its variants, setValues", "src/CRSMatrix.hpp: assimilate"]}
{"id": "C59", "title": "Containers with several buffers follow their views between memory spaces", "statement": "An ArrayOfArrays, ArrayOfSets or CRSMatrix whose views are moved explicitly, captured by kernels and converted to views with constant parts behaves like one container without memory spaces: whatever kernels on the host or the device read through a view that is where the data was last moved to is what was last written, on whichever side, as long as changes are made where the data is touched, through parts that are not constant, by threads that use different rows, and no view is used after the container may have reallocated. The offsets, sizes, values and entries never get out of step.", "quantifier": "every container, every history of moves, captures, conversions, kernels with any number of threads and schedule, and (for arrays) calls of any member function by the host", "why_tests_cant": "Tests move a few containers there and back; the statement is about all interleavings of moves, partial constness and kernels, where each of three or four buffers has its own record of where it was last touched.", "anchors": ["docs/sphinx/Array.rst, docs/sphinx/ArrayOfArrays.rst: usage with LvArray::ChaiBuffer", "src/ArrayOfArraysView.hpp: copy constructor, toView, toViewConstSizes, toViewConst, move", "src/CRSMatrixView.hpp: toView, toViewConstSizes, toViewConst, move", "src/ChaiBuffer.hpp: copy constructor, converting constructor, move, reallocate"]}
{"id": "C60", "title": "The Python bindings keep reference counts exact", "statement": "Every function of the Python bindings (module initialisation, export to NumPy, conversion of arguments, the methods of the five classes, wrapping a container, calling a Python function from C++, lists of strings, and the reference class PyObjectRef) leaves the reference count of every Python object equal to the number of references that exist to it, with one more reference for the object it returns. It never uses a freed object or a null pointer, and it returns null if and only if it leaves an exception set. So a program that calls these functions in any order and drops what they return frees everything they created and nothing else.", "quantifier": "every heap of Python objects, every answer of the Python and NumPy C API to every call (existing object, new object, failure), every argument and history of calls, every sequence of operations on PyObjectRef variables", "why_tests_cant": "A test sees neither a leak nor a count that is one too small until much later, and cannot make each API call fail in turn.", "anchors": ["src/python/pythonHelpers.hpp: PyObjectRef", "src/python/pythonHelpers.cpp: addTypeToModule, createPyListOfStrings", "src/python/numpyHelpers.cpp: createNumpyArrayImpl, parseNumPyArray, getNumPyTypeObject", "src/python/python.cpp: getModule, addPyLvArrayModule", "src/python/PyFunc.hpp, src/python/PyFunc.cpp: PythonFunction, callPyFunc", "src/python/PyCRSMatrix.cpp: toSciPy", "src/python/Py*.cpp: methods, create"]}
{"id": "C61", "title": "Resizing without initialisation loses no value", "statement": "For arrays of plain data (trivially copyable and destructible elements), resizeWithoutInitializationOrDestruction gives exactly the requested shape and leaves data()[ m ] alone for every m below the old size; a negative size, or one that a fixed buffer cannot hold, ends the program. Calls of every other function may follow: elements that were never given a value are shifted, moved to larger allocations and destroyed without harm, and every element that was given a value, by assignment or by an initialising call, and has not been removed since, reads that value at the place it has moved to. Only reading an element without a value is undefined.", "quantifier": "every history of calls on one-dimensional heap and stack arrays and on heap arrays of any number of dimensions, permutation and shape, mixing initialising and non-initialising calls", "why_tests_cant": "Uninitialised memory often holds the expected value by accident, and which elements have one depends on the whole history.", "anchors": ["src/Array.hpp: resizeWithoutInitializationOrDestruction, resizeDefaultDimension", "src/bufferManipulation.hpp: reserve", "src/arrayManipulation.hpp: shiftUp, shiftDown, destroy"]}
{"id": "C62", "title": "Whole-array assignment assigns every element, whatever the policy", "statement": "setValues( value ) gives every element of an array the value, setValues( view ) gives every element the value of the element of the other array with the same multi-index, and zero() the value whose bytes are zero, whichever permutation the arrays have, in whichever memory spaces they are, however many threads run the loop and in whatever order; other arrays are not changed, and later reads through any view that is where the data is, on host or device, see the new values. Assigning from a view whose dimensions or strides differ ends the program before anything is changed. Assigning an array to itself changes nothing.", "quantifier": "every history of creating arrays of any shape and permutation, moves, captures, const conversions, element accesses and whole-array assignments; every policy (distribution of iterations to threads, order of turns, host or device)", "why_tests_cant": "The loops run in parallel in an order that cannot be controlled, and whether a value is seen depends on every earlier move and touch in either space.", "anchors": ["src/ArrayView.hpp: setValues, zero, move, getPreviousSpace", "src/ChaiBuffer.hpp: ChaiBuffer( ChaiBuffer const & ), move, getPreviousSpace", "src/umpireInterface.cpp: memset"]}
{"id": "C63", "title": "Errors reach the error handler and error handling comes to an end", "statement": "A failed check calls the error handler given to setErrorHandler, or aborts the process if there is none, even when SIGABRT is caught. With stackTraceHandler( sig, true ) installed by setSignalHandling, the reaction to an error or a signal always comes to an end, whatever the error handler does: the stack trace handler is entered at most once, the error handler called at most twice, and afterwards every managed signal has its default action. A failed check stops the program.", "quantifier": "every history of setSignalHandling, resetSignalHandling, signal, setErrorHandler, errors and signals; every error handler", "why_tests_cant": "The loop the code guards against depends on which signals arrive while the error handler runs, and on every earlier installation of handlers; a test that loops or dies cannot report.", "anchors": ["src/system.cpp: setErrorHandler, callErrorHandler, stackTraceHandler, setSignalHandling, resetSignalHandling", "src/Macros.hpp: LVARRAY_ERROR_IF"]}
{"id": "C64", "title": "Views stay valid until the array reallocates", "statement": "A view taken from a one-dimensional Array denotes the array's storage: it reads and writes the array's own elements for as long as the array keeps that storage. Every call that needs room for no more than capacity() elements keeps it, so after reserve( n ) no sequence of calls that needs at most n elements invalidates a view; a move hands it to the new owner; a call that needs more, or destruction, gives it up, and using the view afterwards is a use of released storage. capacity() is exactly: unchanged while it suffices, doubled need for calls that add elements, the requested size for resize, reserve and assignment.", "quantifier": "every program over any number of arrays and views: construction, every member function, copies, moves, destruction, taking, copying, reading and writing views, in every build (except debug builds' abort on inserting an empty range, which is C07's)", "why_tests_cant": "Whether a view dangles depends on the whole history of capacities and on who owns the storage now; a test that reads freed storage usually still sees the old value, and one history says nothing about the next.", "anchors": ["src/ArrayView.hpp: ArrayView::toView, ArrayView::capacity, ArrayView::operator[]", "src/Array.hpp: Array::reserve, Array::resize, Array::emplace_back, Array::insert, Array::operator=", "src/bufferManipulation.hpp: setCapacity, reserve, dynamicReserve", "src/MallocBuffer.hpp: reallocate"]}
{"id": "C65", "title": "What is printed identifies the contents", "statement": "Printing a SortedArray, an ArrayOfArrays or a CRSMatrix with operator<< succeeds after every history, and two objects print the same text exactly when they have the same contents: the same elements, the same arrays of values, the same entry or none at each row and column (capacities, histories and, for a matrix, the number of columns do not show). The same holds of two arrays of one rank with positive dimensions, whatever their permutations; C arrays print like the array with the same values; print( matrix ) shows sizes, offsets and every entry.", "quantifier": "every history of legal calls on both objects, every build, every value type whose values have different texts without spaces, commas and braces", "why_tests_cant": "That no two different contents share a text is a claim about all pairs of contents; a test compares a few texts with expected ones and cannot exclude a lost separator or an ambiguous nesting elsewhere.", "anchors": ["src/output.hpp: operator<<( SortedArrayView ), operator<<( ArrayOfArraysView ), operator<<( CRSMatrixView ), print, operator<<( T const (&)[ N ] )", "src/ArrayOfArraysView.hpp: operator[], operator()", "src/CRSMatrixView.hpp: getEntries", "src/SparsityPatternView.hpp: getColumns"]}
{"id": "C66", "title": "Arrays of arrays with the index type that was chosen", "statement": "An ArrayOfArrays with any integral INDEX_TYPE, signed or unsigned, of any width, behaves like std::vector< std::vector< T > > as long as the number of arrays plus one and the sum of their capacities are values of that type: no offset, size or capacity wraps around or overflows. A request that does not fit is rejected instead of making arrays share storage.", "quantifier": "every index type, every build, every history of legal calls of the constructor and all modifying member functions, every element type", "why_tests_cant": "The sizes at which an index type overflows are beyond what a test can allocate, and whether one of them is reached depends on the history of capacities; unsigned wrap around gives wrong contents without any failure.", "anchors": ["src/ArrayOfArraysView.hpp: resizeImpl, setCapacityOfArray, compress, resizeFromCapacities, capacityOfArray, emplaceBack, appendToArray, insertIntoArray, eraseFromArray", "src/ArrayOfArrays.hpp: dynamicallyGrowArray, appendArray, insertArray, eraseArray, resizeArray"]}
{"id": "C67", "title": "A call that fails leaves the array as it was", "statement": "If a member function of Array or StackArray ends in an exception, because the constructor or assignment operator of an element throws or because an error handler installed with setErrorHandler throws, the array has the size and the elements it had before the call, can be used further, and its destructor destroys every element exactly once.", "quantifier": "every history of calls on a heap or stack array, every choice of the element operations that throw, every refused call, every element type and build", "why_tests_cant": "An exception can come out of any of the element operations of any call, and the damage shows only in what is done with the array afterwards; tests install throwing handlers and element types for a few calls at most.", "anchors": ["src/Array.hpp: emplace_back, emplace, insert, resize, resizeDefault, clear, operator=, ~Array", "src/bufferManipulation.hpp: dynamicReserve, reserve, resize, emplaceBack, emplace, insert, copyInto, free", "src/arrayManipulation.hpp: resize, shiftUp, emplace, insert", "src/system.cpp: setErrorHandler", "src/Macros.hpp: LVARRAY_ERROR_IF"]}
{"id": "C68", "title": "Rounding errors of the tensor operations are bounded", "statement": "With floating point elements, the inner product, squared norm, trace, cross product, the determinants of size two and of a dense matrix of size three, the products of matrices and vectors (dense, transposed, symmetric, assigned or added) and the operations entry by entry return for every argument without infinities and NaNs either a result whose distance from the exact one is at most ( 1 + u )^k - 1 times the sum of the absolute values of the terms, k being the number of operations a term goes through and u the unit roundoff, plus a multiple of the error below the normal range; or, only if that sum comes close to the largest number (or a minor of the determinant overflows), an infinity or NaN. An infinity or NaN among the arguments of an inner product or determinant is visible in the result.", "quantifier": "every size, all arguments, every floating point format and rounding mode", "why_tests_cant": "Tests compare with a tolerance for a few arguments; cancellation, overflow and results below the normal range depend on the values, and the bound grows with the size.", "anchors": ["src/genericTensorOps.hpp: AiBi, l2NormSquared, Ri_eq_AijBj, Ri_add_AijBj, Rij_eq_AikBkj, Rij_add_AikBkj, scale, add, subtract, scaledAdd, hadamardProduct, crossProduct", "src/fixedSizeSquareMatrixOps.hpp: determinant, symDeterminant, Ri_eq_symAijBj, Rij_eq_symAikBjk", "src/fixedSizeSquareMatrixOpsImpl.hpp"]}
{"id": "C69", "title": "The operations have the documented costs", "statement": "Counting accesses to elements, sizes and offsets (constructing, destroying, moving, comparing, reading, writing): looking up a value in a SortedArray of n elements is O( log n ), inserting or removing one value O( n ), inserting m values at once O( n + m ), removing m values O( n + m log n ). Of an ArrayOfArrays with s arrays and capacities that sum to M: modifying one array costs what it costs for a std::vector if the capacity suffices and O( M ) more otherwise, appendArray( n ) is O( n ), insertArray is O( s + M + distance ), eraseArray O( s + M ). Adding to m columns of a row of a CRSMatrix with n non zeros is O( m log n ) with binary searches and O( n + m ) with the linear search.", "quantifier": "every reachable state, every argument, every size; builds without assertions where a search is involved", "why_tests_cant": "A complexity is a bound with one constant for all sizes and contents; a benchmark measures a few sizes and cannot tell a linear from a logarithmic factor, nor an amortised bound from a bound on each call.", "anchors": ["src/SortedArray.hpp:27", "docs/sphinx/SortedArray.rst:13,70", "docs/sphinx/ArrayOfArrays.rst:124-127", "src/CRSMatrixView.hpp: addToRowBinarySearch, addToRowLinearSearch, addToRowBinarySearchUnsorted", "src/sortedArrayManipulation.hpp", "src/ArrayOfArraysView.hpp", "src/bufferManipulation.hpp: dynamicReserve"]}
{"id": "C70", "title": "The documented programs build the node to element map", "statement": "The three programs of the documentation that invert an element to node map (appending with emplaceBack; appending in parallel with emplaceBackAtomic after resize( numNodes, max ); counting in parallel, resizeFromCapacities and appending in parallel) give every node exactly the elements that name it, each as often as it does: the first in increasing order, the parallel ones in some order, under every interleaving of the threads, without writing a slot twice. The third leaves no unused capacity. If max is too small, a build with bounds checks aborts.", "quantifier": "every mesh, every number of nodes, every interleaving of the threads of both kernels, every previous state of the map for the third program", "why_tests_cant": "The parallel programs have exponentially many interleavings, and a lost count or a slot claimed twice shows only in some; the capacities depend on the whole mesh.", "anchors": ["benchmarks/benchmarkArrayOfArraysNodeToElementMapConstructionKernels.cpp", "docs/sphinx/ArrayOfArrays.rst: Guidelines", "src/ArrayOfArraysView.hpp: emplaceBackAtomic, resizeFromCapacities", "src/ArrayOfArrays.hpp: resize, emplaceBack"]}
{"id": "C71", "title": "Finite element assembly gives the assembled matrix in every time step", "statement": "Following the documentation (generate the sparsity pattern from a mesh element by element, assimilate it into a matrix, then in every time step add all element matrices in parallel with an atomic policy and set all entries to zero before the next step): the pattern has exactly the pairs of degrees of freedom that share an element, whether it is generated element by element or, in parallel, by one thread per node through a view of rows that resizeFromRowCapacities gave exactly the capacity they need; and after every time step each entry is zero plus everything the elements contribute to it in this time step, each contribution exactly once, in some order. With exact addition that is the assembled matrix; nothing of earlier time steps is left, and no call fails.", "quantifier": "every mesh, every number of degrees of freedom per node, every initial capacity, every order of the elements around a node, any number of time steps, all element matrices, every interleaving of the threads in each time step", "why_tests_cant": "A contribution lost or made twice shows only under some interleavings and meshes; the number of meshes, time steps and interleavings is unbounded.", "anchors": ["docs/sphinx/SparsityPatternAndCRSMatrix.rst: Guidelines", "benchmarks/benchmarkSparsityGenerationKernels.cpp: getNeighborNodes, insertEntriesForNode, resizeExact, generateElemLoop, generateNodeLoop, addKernel", "src/SparsityPattern.hpp: insertNonZeros, resizeFromRowCapacities", "src/SparsityPatternView.hpp: insertNonZeros", "src/CRSMatrix.hpp: assimilate", "src/CRSMatrixView.hpp: addToRowBinarySearchUnsorted, setValues"]}
{"id": "C72", "title": "Copies between arrays in any memory spaces, synchronous and asynchronous", "statement": "Arrays can be copied into each other with memcpy wherever their data is, without moving them: for every program that keeps the rules, every read of any array returns what it would if each copy had happened completely at the moment of the call, no matter when and in which order the device copies the elements of the asynchronous ones. The copied values then follow the destination when it moves to other spaces. The rules are: the ranges lie in the arrays and do not overlap; until the event of an asynchronous copy was waited for, its destination array is used only by other copies, its source array only read or used by other copies, no other copy touches its destination range and none writes its source range. Several copies into disjoint ranges of one array may run at the same time. Each rule is needed: breaking it gives stale or lost values.", "quantifier": "any number of arrays of any sizes and element type, every history of operations on them, their views and copies between them, every interleaving of the element copies of any number of asynchronous copies", "why_tests_cant": "Whether an asynchronous copy is still running when something else happens depends on the device; a test sees one timing, and a copy that is not registered with the array is lost only after later moves.", "anchors": ["src/memcpy.hpp: memcpy", "src/umpireInterface.cpp: copy", "src/ChaiBuffer.hpp: move, getPreviousSpace, registerTouch"]}
{"id": "C73", "title": "Elements of the object itself as arguments of ArrayOfArrays", "statement": "A call that puts elements into an array of arrays with elements of the same object as arguments, such as a.emplaceBack( i, a( j, k ) ) or a.appendToArray( i, a[ j ].begin(), a[ j ].end() ), has the effect of the same call with copies of these elements. Where it does not, it is known exactly: the argument is read from where it was once there is room for the new elements.", "quantifier": "every reachable object with any element type, every row, position and range of the object as argument of emplaceBack, appendToArray, emplace, insertIntoArray, appendArray and insertArray", "why_tests_cant": "Whether the argument is still there depends on the capacities of all arrays and of the allocation, hence on the whole history; for trivial types the bytes left behind often make a wrong read look right.", "anchors": ["src/ArrayOfArrays.hpp: emplaceBack, appendToArray, emplace, insertIntoArray, appendArray, insertArray, dynamicallyGrowArray", "src/ArrayOfArraysView.hpp: emplaceBack, appendToArray, emplace, insertIntoArray", "src/arrayManipulation.hpp: emplace, insert"]}
{"id": "C74", "title": "How arguments are given does not matter", "statement": "resizeArray( i, n, args ... ) appends elements equal to T( args ... ), as vector[ i ].resize( n, T( args ... ) ) does, whether args are lvalues or rvalues. The functions that take a range [ first, last ) insert or append the values of the range, whatever its iterator category. Where this is not so, it is known exactly: each new element is built from what the previous one has left of the arguments, and ranges that can be gone over only once are counted before they are read.", "quantifier": "every reachable array of arrays, every row and new size, every constructor and what it does to its arguments; every range of values given by iterators of any category, for insert of Array and the five functions of ArrayOfArrays and its view that take ranges", "why_tests_cant": "Tests use element types whose construction leaves the arguments as they were and containers with random access iterators; the claim is about every type, every size and every iterator.", "anchors": ["src/arrayManipulation.hpp: iterDistance, resize, append, insert", "src/ArrayOfArrays.hpp: resizeArray, appendToArray, insertIntoArray, appendArray, insertArray", "src/ArrayOfArraysView.hpp: appendToArray, insertIntoArray", "src/Array.hpp: insert", "docs/sphinx/ArrayOfArrays.rst"]}
{"id": "C75", "title": "Preallocation makes the construction of the node to element map linear", "statement": "Building the map from the nodes of a mesh to their elements as an array of arrays takes time linear in the number of nodes and the number of entries of the element to node map if the capacities are set beforehand, by a bound on the elements of a node or by counting them, whatever the order in which the threads take their turns. Without preallocation it takes at most quadratic time, and there are meshes for which it takes quadratic time. resize and resizeFromCapacities take time linear in the number of arrays before and after and the elements before, whatever the new capacities.", "quantifier": "every mesh, every number of nodes, every map the construction starts from, every bound, every interleaving of the threads, every configuration", "why_tests_cant": "Complexity is about all sizes; a benchmark measures a few meshes, and a test cannot show that no schedule makes a thread do more work.", "anchors": ["docs/sphinx/ArrayOfArrays.rst", "benchmarks/benchmarkArrayOfArraysNodeToElementMapConstructionKernels.cpp: naive, overAllocation, resizeFromCapacities", "src/ArrayOfArraysView.hpp: resizeImpl, resizeFromCapacities, emplaceBackAtomic, destroyValues", "src/bufferManipulation.hpp: reserve, resize"]}
{"id": "C76", "title": "Elements of a set as arguments of its own member functions", "statement": "The functions that insert into and remove from a set take their arguments by reference or as iterators. Called with an element, or a range of elements, of the object itself they do what they do with copies of the values: for insert and remove of a SortedArray, for removeFromSet of an ArrayOfSets with elements of any of its sets, and for insertIntoSet if the elements stay where they are (the same set, enough capacity, or an earlier set and no reallocation). Otherwise insertIntoSet with elements of another set of the same object reads freed memory or the wrong elements, and can leave a set that is not sorted.", "quantifier": "every history of legal calls, every totally ordered element type, every pair of sets, every element and every range of elements, every configuration", "why_tests_cant": "Whether a reference still designates the value depends on where the sets lie, on their capacities and on what was allocated, that is on the whole history; reading a freed or shifted element often gives the right value by accident.", "anchors": ["src/sortedArrayManipulation.hpp: remove, insert", "src/SortedArray.hpp: insert, remove", "src/SortedArrayView.hpp", "src/ArrayOfSets.hpp: insertIntoSet, removeFromSet", "src/ArrayOfSetsView.hpp: insertIntoSetImpl, removeFromSetImpl", "src/bufferManipulation.hpp: reserve"]}
{"id": "C77", "title": "asin, acos and atan2 for half precision", "statement": "LvArray implements asin, acos and atan2 for __half and __half2 itself. Up to a fixed small error, acos and asin are the arc cosine and the arc sine for every argument between -1 and 1 and NaN outside, and atan2( y, x ) is the angle of the point (x, y) for every point but the origin, in every quadrant and on the axes. asin is odd and acos( -x ) complements acos( x ). max, min and abs are what their names say with and without the intrinsics of new CUDA versions, and the functions for two values compute each value as if it was alone. A NaN argument gives a NaN.", "quantifier": "every real argument in the domain, every pair of arguments, every combination of halves of a __half2, with and without the intrinsics", "why_tests_cant": "atan2 has 2^32 pairs of arguments and the tests fix one of them to 1 or -1; on a machine without a GPU the functions cannot be run at all.", "anchors": ["src/math.hpp: max, min, abs, internal::asinImpl, internal::acosImpl, internal::atan2Impl, internal::lessThan, convert"]}
{"id": "C78", "title": "tensorOps on slices of arrays change their destination and nothing else", "statement": "The tensorOps functions on vectors and matrices of any size (fill, copy, scale, add, inner, outer, cross and matrix products, transposition, addIdentity) may be given slices of arrays in any layout. If the destination shares no element with the other arguments, every entry of the destination gets the value of the index expression of the values the arguments had before the call, and no other element of any array changes; the other arguments may share elements with each other. For functions that compute each entry from the entries at the same position the destination may also be one of the arguments. In a build with bounds checking a vector or matrix whose sizes are not those of the template arguments ends the program. The vectors and matrices at different indices of an array share no element.", "quantifier": "every size, every layout and stride of each argument, every position in memory, every content of the memory, every build configuration", "why_tests_cant": "tests use a few sizes and layouts and look at the destination only; they cannot show that nothing else in memory changes or which ways of overlapping are harmless.", "anchors": ["src/genericTensorOps.hpp: checkSizes, fill, copy, scale, scaledCopy, addScalar, add, subtract, scaledAdd, hadamardProduct, AiBi, crossProduct, Rij_eq_AiBj, Ri_eq_AijBj, Rij_eq_AikBkj, transpose, addIdentity, symAddIdentity and their variants", "src/ArraySlice.hpp: operator[]"]}
{"id": "C79", "title": "Changing one row of an ArrayOfSets, SparsityPattern or CRSMatrix costs what it costs for a SortedArray, plus making room", "statement": "Counting accesses to elements, columns, entries, sizes and offsets, in a container with s rows whose capacities sum to M and for a row of n elements: looking up a value is O( log n ), inserting a value into a row with room, removing a value and clearing the row are O( n ), inserting m values into a row with room and removing m values are O( n + m log n ), all independent of the other rows; inserting into a row without room costs O( s + M ) more, and through a view, which never makes room, nothing more.", "quantifier": "every reachable state, every row, every argument, every size; builds without assertions", "why_tests_cant": "A complexity is a bound with one constant for all sizes and contents, and independence of the other rows is a claim about all of their sizes; a benchmark measures a few shapes.", "anchors": ["src/ArrayOfSets.hpp: insertIntoSet, removeFromSet, clearSet", "src/ArrayOfSetsView.hpp: insertIntoSetImpl, removeFromSetImpl, contains", "src/SparsityPattern.hpp: insertNonZero, insertNonZeros", "src/CRSMatrix.hpp: insertNonZero, insertNonZeros, setRowCapacity", "src/CRSMatrixView.hpp: removeNonZero, removeNonZeros", "src/sortedArrayManipulation.hpp", "src/ArrayOfArraysView.hpp: setCapacityOfArrayImpl"]}
{"id": "C80", "title": "Determinants, inverses and symmetric products on slices of arrays change their destination and nothing else", "statement": "The tensorOps functions for square matrices of size two and three (determinant, invert, symDeterminant, symInvert, the products with a packed symmetric matrix, symRij_eq_AiAj, symRij_eq_AiBj_plus_AjBi, denseToSymmetric, symmetricToDense) may be given slices of arrays in any layout. If the destination shares no element with the other arguments it gets the value computed from what the arguments held before the call, and no other element of any array changes; the forms of invert and symInvert with one argument replace a matrix by its inverse. In a build with bounds checking an argument whose sizes are not those of the template argument ends the program before anything is changed.", "quantifier": "every layout and stride of each argument, every position in memory, every content of the memory, every build configuration, every field or commutative ring", "why_tests_cant": "tests use a few matrices and layouts and look at the destination only; they cannot show that nothing else in memory changes, nor that no entry is read after it has been overwritten for all positions of the arguments.", "anchors": ["src/fixedSizeSquareMatrixOpsImpl.hpp: SquareMatrixOps< 2 >, SquareMatrixOps< 3 >", "src/fixedSizeSquareMatrixOps.hpp: determinant, invert, symDeterminant, symInvert, Ri_eq_symAijBj, Ri_add_symAijBj, Rij_eq_symAikBjk, Rij_eq_AikSymBklAjl, symRij_eq_AiAj, symRij_eq_AiBj_plus_AjBi, denseToSymmetric, symmetricToDense", "src/genericTensorOps.hpp: checkSizes", "src/ArraySlice.hpp: operator[]"]}
{"id": "C81", "title": "Columns and entries of a matrix as arguments of its own functions", "statement": "insertNonZero, insertNonZeros, removeNonZeros and the variants of addToRow of a CRSMatrix or a view of it, called with a reference to an entry or with pointers to the columns and entries of a row of the same matrix (the same row or another one), have the effect they have when called with copies of the values: the row afterwards holds what it would hold, the returned value is the same and no other row changes.", "quantifier": "every matrix reached by a legal history, every pair of rows, every part of the second row, every column, every capacity, every entry type, the matrix and its views, every build configuration", "why_tests_cant": "whether the arguments are still intact when they are read depends on the capacities of the rows, on the memory allocated and on the position of the new column relative to the entry passed", "anchors": ["src/CRSMatrix.hpp: insertNonZero, insertNonZeros, CallBacks", "src/CRSMatrixView.hpp: insertNonZero, insertNonZeros, removeNonZeros, addToRow, addToRowBinarySearch, addToRowLinearSearch, addToRowBinarySearchUnsorted", "src/sortedArrayManipulation.hpp: insert, remove", "src/arrayManipulation.hpp: emplace"]}
{"id": "C82", "title": "Views of an ArrayOfArrays share it until a storage they use is replaced", "statement": "A view of an ArrayOfArrays taken with toView (or copied from such a view) answers size with the number of arrays there were when it was taken, and answers sizeOfArray, capacityOfArray and element access for those of them that still exist exactly as the object does, after any calls on the object and any changes through views, as long as the storage of the sizes, of the offsets and of the elements has not been replaced; changes made through it are seen by the object and by the other views. A member function of the object replaces a storage exactly when it needs more room than there is: more arrays than were reserved, or more total capacity than was reserved for values. Once a storage was replaced, a use of the view that needs it is undefined behaviour that no bounds check reports.", "quantifier": "every initial number and capacity of arrays, every legal program of calls on the object, taking and copying views, questions and changes through them, in any order; every element type; every build configuration", "why_tests_cant": "whether a view is still good depends on the whole history of capacities of the object since the view was taken, and a view that is not often seems to work", "anchors": ["src/ArrayOfArraysView.hpp: toView, toViewConst, size, sizeOfArray, capacityOfArray, operator(), emplaceBack, appendToArray, emplace, insertIntoArray, eraseFromArray", "src/ArrayOfArrays.hpp: reserve, reserveValues, resize, appendArray, insertArray, emplaceBack, setCapacityOfArray, compress, resizeFromCapacities", "src/bufferManipulation.hpp: reserve, dynamicReserve, setCapacity"]}
{"id": "C83", "title": "Eigenvalues, eigenvectors and normalisation on slices of arrays change their destinations and nothing else", "statement": "symEigenvalues and symEigenvectors of size two and three and normalize may be given slices of arrays in any layout. symEigenvalues writes the eigenvalues of the packed symmetric matrix as it was before the call, in ascending order and with multiplicity; symEigenvectors also writes orthonormal eigenvectors as the rows of a matrix (for size three up to 2 epsilon times the spread of the eigenvalues, exactly if the eigenvalues are equal or well separated); normalize divides a vector other than zero by its length and returns the length. No other element of any array changes. The matrix may share elements with the destinations, also when a destination lies inside it; the eigenvalues and the eigenvectors may not share any with each other. In a build with bounds checking an argument whose sizes are not those of the template argument ends the program before anything is changed.", "quantifier": "every layout and stride of each argument, every position in memory, every content of the memory, every build configuration; exact real arithmetic", "why_tests_cant": "tests compare a few matrices in separate arrays and look at the destinations only; they cannot show that nothing else changes, nor that the result is right for every position of the arguments, overlapping ones included.", "anchors": ["src/fixedSizeSquareMatrixOpsImpl.hpp: SquareMatrixOps< 2 >::symEigenvalues, symEigenvectors, SquareMatrixOps< 3 >::symEigenvalues, symEigenvectors, getNullVector, shiftAndScale", "src/fixedSizeSquareMatrixOps.hpp: symEigenvalues, symEigenvectors", "src/genericTensorOps.hpp: normalize, l2Norm, crossProduct, scaledCopy, checkSizes", "src/ArraySlice.hpp: operator[]"]}
{"id": "C84", "title": "Views of a sorted array stay valid until its storage has to grow, and then do not", "statement": "A SortedArrayView shares its storage with the SortedArray and remembers how many values there were when it was taken. Right after toView() it answers size, contains and operator[] as the set does. It goes on looking at that many values, from the smallest, through every later call on the set, until one call needs more room than there is: insertions that grow the set past its capacity (which then becomes twice the new size) and a larger reserve; removal, clear, a reserve that is no larger and all reads never replace the storage. So after reserve( n ) any calls that never bring the set above n values leave all views in place. A view shows the smallest values of the set as it is now: a value that was and still is in the set may be missing from it, pushed out by a smaller one. Once the storage was replaced, operator[] and, if the view is not empty, contains through the view are undefined. With bounds checking an index outside the view's own size stops the program, whether or not the storage is still there.", "quantifier": "every program of calls on the set, views taken and copied at any time and questions asked through any of them, every type with a strict total order, every build configuration", "why_tests_cant": "Whether a view is still good depends on the whole history of sizes and capacities; reads of freed memory often give the right answer.", "anchors": ["src/SortedArrayView.hpp: SortedArrayView::SortedArrayView, toView, size, empty, contains, count, operator[], operator()", "src/SortedArray.hpp: SortedArray::insert, remove, clear, reserve, resizeBuffer", "src/bufferManipulation.hpp: dynamicReserve, reserve, setCapacity"]}
{"id": "C85", "title": "An array that cannot get memory says so and stays as it was", "statement": "When an operation of a one-dimensional Array needs more memory and std::malloc refuses it, or the number of bytes cannot be represented, the operation reports it and leaves the array as it was; as long as the memory is there the array behaves as std::vector and capacity() elements fit.", "quantifier": "every allocator, which may grant or refuse each request as it likes, every element size and width of std::size_t, every history of calls, every build configuration", "why_tests_cant": "Allocations hardly ever fail in tests, and which one fails depends on the rest of the program; a byte count that wraps needs capacities that no test allocates.", "anchors": ["src/MallocBuffer.hpp: MallocBuffer::reallocate", "src/bufferManipulation.hpp: reserve, dynamicReserve, resize, emplaceBack, emplace, insert", "src/arrayManipulation.hpp: uninitializedMove, resize, emplaceBack, emplace, insert", "src/ArrayView.hpp: ArrayView::capacity"]}
{"id": "C86", "title": "Views of a CRSMatrix share it until a storage they use is replaced", "statement": "A view of a CRSMatrix taken with toView (or copied from such a view) shares the non zeros with the matrix: after any calls on the matrix and any changes through views, every call through the view that needs no more room for a row has exactly the effect and the answer of the call on the matrix, as long as the number of rows and columns is what it was when the view was taken and no storage of the matrix was replaced. A member function of the matrix replaces a storage exactly when it needs more room than there is: more rows, or a larger sum of the row capacities, than there is room for. Once a storage was replaced, a call through the view that looks at it is undefined behaviour that no check reports.", "quantifier": "every initial number of rows, columns and row capacity, every legal program of calls on the matrix, taking and copying views and calls through them, in any order; every trivially copyable entry type; every build configuration", "why_tests_cant": "whether a view is still good depends on the whole history of row capacities since it was taken: one insertion on the host can move the columns and entries of every row, and a view that dangles often seems to work", "anchors": ["src/CRSMatrixView.hpp: toView, numRows, numColumns, insertNonZero, insertNonZeros, removeNonZero, removeNonZeros, getColumns, getEntries, setValues, addToRow", "src/CRSMatrix.hpp: toView, insertNonZero, insertNonZeros, setRowCapacity, reserveNonZeros, resize, resizeFromRowCapacities, compress", "src/ArrayOfArraysView.hpp: setCapacityOfArray, reserveValues, resize, resizeFromCapacities, compress"]}
{"id": "C87", "title": "zero() sets every non zero of a matrix to zero and nothing else", "statement": "CRSMatrixView::zero() leaves the matrix with the same rows, columns and non zeros, every value being the one whose bytes are all zero; capacities, views and everything else stay as they were, so the matrix goes on like any other matrix with these values.", "quantifier": "every initial number of rows, columns and row capacity, every legal program of calls on the matrix and through views before and after, every trivially copyable entry type and its size in bytes, every width of INDEX_TYPE and std::size_t, every build configuration", "why_tests_cant": "The number of bytes depends on the capacity, which the whole history decides, and is kept in a variable of type INDEX_TYPE: it is right for every matrix a test can afford and wrong for large ones.", "anchors": ["src/CRSMatrixView.hpp: CRSMatrixView::zero", "src/umpireInterface.cpp: memset"]}
{"id": "C88", "title": "consistencyCheck() never raises a false alarm and finds false descriptions", "statement": "consistencyCheck() of an ArrayOfSets returns normally for every object made by member functions. Called after assimilate( arrays, description ) it reports exactly when the description was false of some inner array.", "quantifier": "every legal history of an ArrayOfSets and of an ArrayOfArrays, every description, every totally ordered element type, every sorting routine that returns a sorted permutation, every build configuration", "why_tests_cant": "A check that is meant to find wrong objects is only run on right ones by tests; whether it finds every wrong one depends on all values of all inner arrays.", "anchors": ["src/ArrayOfSetsView.hpp: ArrayOfSetsView::consistencyCheck", "src/ArrayOfSets.hpp: ArrayOfSets::assimilate", "src/sortedArrayManipulation.hpp: isSortedUnique, removeDuplicates, Description"]}
{"id": "C89", "title": "Views of an ArrayOfSets share it until a storage they use is replaced", "statement": "A view of an ArrayOfSets taken with toView (or copied from such a view) shares the values with the object: after any calls on the object and any changes through views, every call through the view that needs no more room for a set has exactly the effect and the answer of the call on the object, as long as the number of sets is what it was when the view was taken and no storage of the object was replaced. A member function of the object replaces a storage exactly when it needs more room than there is: more sets, or a larger sum of the capacities of the sets, than there is room for. Once a storage was replaced, a call through the view that looks at it is undefined behaviour that no check reports.", "quantifier": "every initial number of sets and capacity, every legal program of calls on the object, taking and copying views and calls through them, in any order; every totally ordered trivially copyable value type; every build configuration", "why_tests_cant": "whether a view is still good depends on the whole history of the capacities since it was taken: one insertion on the host can move the values of every set, and a view that dangles often seems to work", "anchors": ["src/ArrayOfSetsView.hpp: toView, size, contains, insertIntoSet, removeFromSet, operator()", "src/ArrayOfSets.hpp: toView, insertIntoSet, removeFromSet, clearSet, setCapacityOfSet, reserveCapacityOfSet, appendSet, insertSet, eraseSet, resize, reserve, reserveValues, compress", "src/ArrayOfArraysView.hpp: setCapacityOfArray, reserveValues, resize, resizeFromCapacities, compress"]}
{"id": "C90", "title": "The message about a move between memory spaces states the amount of memory", "statement": "The text that system::calculateSize gives for a number of bytes is the nearest number of tenths of gigabytes, megabytes or kilobytes (the largest of them that is not larger than the amount, or kilobytes) followed by the name of the unit, and a larger number of bytes is never given as a smaller amount. The message that is logged when a buffer moves to the host or the device is always written, with this amount right aligned in nine characters, whatever the size of the buffer; nothing is written when memory is allocated or released.", "quantifier": "every number of bytes, every name and type of the buffer, both memory spaces", "why_tests_cant": "2^64 numbers of bytes; the padding computes 9 minus the length of the text in unsigned arithmetic, which must not wrap for any of them", "anchors": ["src/system.cpp: calculateSize", "src/ChaiBuffer.hpp: ChaiBuffer::setName"]}
{"id": "C91", "title": "A loop over an array meets every element once, in the order of its layout", "statement": "For an array of any number of dimensions and any layout, after any history of resizes and assignments: the range based for loop (begin() to end()) meets every element exactly once, in the order of a loop nest over the dimensions in the order of the permutation; assigning through the loop variable changes exactly the element met; front() is the element with all indices zero and back() the element with all indices largest, whatever the layout. An empty array is passed over without touching memory, and reading front() or back() of it is undefined.", "quantifier": "every valid permutation, all dimension sizes including zero, every history of calls that does not abort, every function applied to the elements", "why_tests_cant": "Tests loop over a few shapes and the default layout; that the order follows the permutation and that back() is the last element in every layout has to hold for all permutations and sizes.", "anchors": ["src/ArrayView.hpp: begin, end, front, back, data, size"]}
{"id": "C92", "title": "A SortedArray that cannot get memory says so", "statement": "When an insertion into a SortedArray or its reserve needs more memory and std::malloc refuses it, the call reports it; as long as the memory is there the array behaves as a set, and once reserve( n ) succeeded calls that leave at most n values succeed whatever the allocator says later.", "quantifier": "every allocator, which may grant or refuse each request as it likes, every element size and width of std::size_t, every history of calls, every build configuration", "why_tests_cant": "Allocations hardly ever fail in tests, and which one fails depends on the rest of the program.", "anchors": ["src/SortedArray.hpp: SortedArray::insert, SortedArray::reserve, SortedArray::CallBacks", "src/sortedArrayManipulation.hpp: insert", "src/MallocBuffer.hpp: MallocBuffer::reallocate", "src/bufferManipulation.hpp: reserve, dynamicReserve, resize"]}
{"id": "C93", "title": "A SortedArray is a set whatever integer type its sizes have", "statement": "A SortedArray whose INDEX_TYPE is any integral type behaves as a mathematical set: insert, remove, contains, operator[], reserve, clear and size() give what they give on the set. An insertion after which the number of values is no longer a value of INDEX_TYPE is rejected and loses nothing.", "quantifier": "every integer type of every width and signedness as INDEX_TYPE, every history of calls, every element type, heap and stack buffers, every build configuration", "why_tests_cant": "Tests use one or two index types and few values; the behaviour at the limit depends on the width and signedness of the type and on integral promotion.", "anchors": ["src/SortedArray.hpp: SortedArray::insert, SortedArray::remove, SortedArray::clear, SortedArray::reserve, SortedArray::CallBacks::incrementSize", "src/SortedArrayView.hpp: SortedArrayView::size, SortedArrayView::operator[], SortedArrayView::contains", "src/bufferManipulation.hpp: dynamicReserve"]}
{"id": "C94", "title": "A call on a sorted array that fails leaves the set as it was", "statement": "If a member function of SortedArray ends in an exception, because a constructor or an assignment operator of a value throws or because an error handler installed with setErrorHandler throws, the array holds the set it held before the call, can be used further, and its destructor destroys every value exactly once; calls that return have their documented effect and result, and exactly the calls that violate their precondition are refused.", "quantifier": "every history of calls on a sorted array over a heap or a stack buffer, every copy assignment after it, every choice of the constructors and assignment operators that throw, every refused call, every totally ordered value type and build", "why_tests_cant": "An exception can come out of any of the copies of any insertion, at any position of any set, and the damage shows only in what is done with the array afterwards; the tests use no value type that throws.", "anchors": ["src/SortedArray.hpp: insert, remove, clear, reserve, operator=, ~SortedArray, CallBacks", "src/sortedArrayManipulation.hpp: insert, remove", "src/arrayManipulation.hpp: emplace, shiftUp", "src/bufferManipulation.hpp: dynamicReserve, free", "src/system.cpp: setErrorHandler"]}
{"id": "C95", "title": "An Array constructed from a buffer uses its storage", "statement": "An Array constructed from an empty buffer by Array( BUFFER_TYPE && ) is empty and takes over the storage: the buffer is left without any. Whatever the capacity of the buffer, the array behaves like a new std::vector from then on, it stays in that storage for as long as no size and no reservation exceeds its capacity, and its destructor destroys every element.", "quantifier": "every capacity of an empty heap buffer, every element type and build, every history of calls on the one-dimensional array", "why_tests_cant": "The capacity of the buffer and the history after the construction are unbounded, and every operation decides by the capacity whether it allocates.", "anchors": ["src/Array.hpp: Array( BUFFER_TYPE< T > && )", "src/ArrayView.hpp: ArrayView( BUFFER_TYPE< T > && )", "src/MallocBuffer.hpp: MallocBuffer( MallocBuffer && )", "src/bufferManipulation.hpp: reserve, dynamicReserve"]}
{"id": "C96", "title": "A constructor that throws leaves nothing behind", "statement": "If a constructor of Array, SortedArray or ArrayOfArrays ends in an exception because a constructor or an assignment operator of a value throws, every value that it constructed has been destroyed and the memory that it allocated has been released; if no value throws, Array( n ) has n default values and a copy has the values of its source.", "quantifier": "every size, every source reached by a history of calls, every choice of the constructors and assignment operators that throw, every value type and build", "why_tests_cant": "An exception can come out of any of the constructions and assignments of a constructor, and which destructors the language then runs depends on whether the constructor delegates; there is no object left to inspect, and the tests use no value type that throws.", "anchors": ["src/Array.hpp: Array( DIMS const ... ), Array( Array const & ), ~Array, resize, operator=", "src/SortedArray.hpp: SortedArray( SortedArray const & ), ~SortedArray, operator=", "src/ArrayView.hpp: ~ArrayView", "src/bufferManipulation.hpp: resize, copyInto, free", "src/ArrayOfArrays.hpp: ArrayOfArrays( ArrayOfArrays const & ), ~ArrayOfArrays"]}
{"id": "C97", "title": "A call on an ArrayOfArrays that throws has no effect", "statement": "If a call that adds values to an ArrayOfArrays (emplaceBack, appendToArray, emplace, insertIntoArray, resizeArray, appendArray, insertArray) or copies one (copy assignment) ends in an exception because a constructor of a value throws, every inner array has the values that it had before, there is no additional inner array, no value is lost, and the object can be used as if the call had not been made; after a copy assignment that throws the object can at least be destroyed.", "quantifier": "every number of inner arrays, every history of calls, every choice of the constructors that throw in them, every value type and build", "why_tests_cant": "An exception can come out of any construction in any call of a history, and what it leaves behind shows only in later calls; the tests use no value type that throws.", "anchors": ["src/ArrayOfArrays.hpp: emplaceBack, appendToArray, emplace, insertIntoArray, resizeArray, appendArray, insertArray, dynamicallyGrowArray", "src/ArrayOfArraysView.hpp: emplaceBack, appendToArray, emplace, insertIntoArray, setEqualTo, free", "src/arrayManipulation.hpp: emplaceBack, append, emplace, insert, resize, shiftUp"]}
