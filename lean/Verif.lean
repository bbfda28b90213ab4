import Verif.AoA
import Verif.AoACopy
import Verif.AoALemmas
import Verif.AoAState
import Verif.AoAStep
import Verif.AoS
import Verif.AoSLemmas
import Verif.Arguments
import Verif.Array1D
import Verif.Array1DLemmas
import Verif.ArrayManip
import Verif.ArrayND
import Verif.ArrayNDLemmas
import Verif.Assembly
import Verif.AssemblyLemmas
import Verif.AssemblyNodes
import Verif.BinaryFormat
import Verif.BufferLemmas
import Verif.BufferManip
import Verif.Chai
import Verif.ChaiCopy
import Verif.ChaiCopyLemmas
import Verif.ChaiLemmas
import Verif.ChaiNested
import Verif.Concurrent
import Verif.ConcurrentAdd
import Verif.ConcurrentLemmas
import Verif.Consistency
import Verif.Constructors
import Verif.Counted
import Verif.CountedAppend
import Verif.CountedCrs
import Verif.CountedLemmas
import Verif.CountedMesh
import Verif.CountedMeshLemmas
import Verif.CountedRowSets
import Verif.CountedRowSetsLemmas
import Verif.CountedRows
import Verif.CountedSets
import Verif.CountedSorted
import Verif.CrsLemmas
import Verif.CrsMore
import Verif.CrsRowLemmas
import Verif.CrsStep
import Verif.FaultRowCopies
import Verif.FaultRowCopiesLemmas
import Verif.FaultRows
import Verif.FaultRowsLemmas
import Verif.FaultSetCopies
import Verif.FaultSets
import Verif.FaultSetsLemmas
import Verif.Faults
import Verif.FaultsLemmas
import Verif.FromBuffer
import Verif.GoneReads
import Verif.Heap
import Verif.HeapClasses
import Verif.HeapLemmas
import Verif.HeapRefine
import Verif.Indexing
import Verif.IndexingLemmas
import Verif.IntConv
import Verif.Iterate
import Verif.LayoutLemmas
import Verif.Machine
import Verif.MachineAoA
import Verif.MachineAoALemmas
import Verif.MachineArray
import Verif.MachineLemmas
import Verif.MachineRows
import Verif.MachineSets
import Verif.MachineSetsLemmas
import Verif.MathApprox
import Verif.MathHalf
import Verif.MathHalfAtan
import Verif.MathHalfLemmas
import Verif.MathLemmas
import Verif.MathPoly
import Verif.MatrixCaps
import Verif.MatrixViews
import Verif.Mem
import Verif.Mesh
import Verif.MeshLemmas
import Verif.OwnEntries
import Verif.OwnEntriesLemmas
import Verif.OwnGrownLemmas
import Verif.OwnRows
import Verif.OwnRowsLemmas
import Verif.OwnSets
import Verif.OwnSetsLemmas
import Verif.OwnSplitLemmas
import Verif.Parallel
import Verif.ParallelArrays
import Verif.ParallelCalls
import Verif.ParallelCore
import Verif.ParallelLemmas
import Verif.ParallelLoop
import Verif.ParallelMatrices
import Verif.ParallelMatrix
import Verif.ParallelMatrixRows
import Verif.ParallelRows
import Verif.ParallelSets
import Verif.ParallelSlices
import Verif.ParallelSorted
import Verif.Placed
import Verif.PlacedContainers
import Verif.PlacedFrame
import Verif.PlacedLemmas
import Verif.PlacedRun
import Verif.Props.AoACapacity
import Verif.Props.Arguments
import Verif.Props.ArrayOfArrays
import Verif.Props.ArrayOfSets
import Verif.Props.ArrayResize
import Verif.Props.Assembly
import Verif.Props.AssemblyNodes
import Verif.Props.Chai
import Verif.Props.ChaiCopy
import Verif.Props.ChaiNested
import Verif.Props.Concurrent
import Verif.Props.Consistency
import Verif.Props.Constructors
import Verif.Props.CopyMove
import Verif.Props.Costs
import Verif.Props.FaultRowCopies
import Verif.Props.FaultRows
import Verif.Props.FaultSetCopies
import Verif.Props.FaultSets
import Verif.Props.Faults
import Verif.Props.FromBuffer
import Verif.Props.Indexing
import Verif.Props.Iterate
import Verif.Props.Machine
import Verif.Props.MachineAoA
import Verif.Props.MachineSets
import Verif.Props.MathApprox
import Verif.Props.MathHalf
import Verif.Props.MatrixViews
import Verif.Props.Mesh
import Verif.Props.MeshCosts
import Verif.Props.OwnEntries
import Verif.Props.OwnRows
import Verif.Props.OwnSets
import Verif.Props.Parallel
import Verif.Props.ParallelMatrix
import Verif.Props.ParallelPattern
import Verif.Props.Placed
import Verif.Props.Plain
import Verif.Props.Printed
import Verif.Props.Punning
import Verif.Props.PyAccess
import Verif.Props.PyContract
import Verif.Props.PyRefs
import Verif.Props.Rounding
import Verif.Props.RowSetCosts
import Verif.Props.RowViews
import Verif.Props.Scarce
import Verif.Props.ScarceSets
import Verif.Props.SetListViews
import Verif.Props.SetViews
import Verif.Props.Signals
import Verif.Props.SizeText
import Verif.Props.SliceOps
import Verif.Props.SortedSet
import Verif.Props.Sorting
import Verif.Props.Sparse
import Verif.Props.System
import Verif.Props.TensorEigen
import Verif.Props.TensorEigenSlices
import Verif.Props.TensorFixed
import Verif.Props.TensorFixedSlices
import Verif.Props.TensorOps
import Verif.Props.TensorSlices
import Verif.Props.TextIO
import Verif.Props.Values
import Verif.Props.Vector
import Verif.Props.Views
import Verif.Props.Whole
import Verif.Props.Zero
import Verif.PyArr
import Verif.PyBind
import Verif.PyCrs
import Verif.PyLemmas
import Verif.PyRefs
import Verif.PyRefsFuncs
import Verif.PyRefsLemmas
import Verif.PyRefsVars
import Verif.PyRows
import Verif.PySafe
import Verif.PyScipy
import Verif.PySets
import Verif.RoundingLemmas
import Verif.RowCaps
import Verif.RowLemmas
import Verif.RowViews
import Verif.RowViewsLemmas
import Verif.Rows
import Verif.RowsLemmas
import Verif.Scarce
import Verif.ScarceLemmas
import Verif.ScarceSets
import Verif.ScarceSetsLemmas
import Verif.SetListCaps
import Verif.SetListViews
import Verif.SetViews
import Verif.SetViewsLemmas
import Verif.ShapeLemmas
import Verif.Signals
import Verif.SizeText
import Verif.SliceLemmas
import Verif.SliceOps
import Verif.Sort
import Verif.SortKiller
import Verif.SortLemmas
import Verif.SortedArray
import Verif.SortedArrayLemmas
import Verif.SortedManip
import Verif.SortedManipLemmas
import Verif.Sparse
import Verif.SparseLemmas
import Verif.Spec.Angle
import Verif.Spec.Arguments
import Verif.Spec.Assembly
import Verif.Spec.ChaiCopy
import Verif.Spec.Consistency
import Verif.Spec.Constructors
import Verif.Spec.Containers
import Verif.Spec.Costs
import Verif.Spec.FaultRows
import Verif.Spec.FaultSets
import Verif.Spec.Faults
import Verif.Spec.Index
import Verif.Spec.Iterate
import Verif.Spec.MatrixViews
import Verif.Spec.Mesh
import Verif.Spec.OrderedSet
import Verif.Spec.OwnRows
import Verif.Spec.Parallel
import Verif.Spec.ParallelMatrix
import Verif.Spec.Placed
import Verif.Spec.Plain
import Verif.Spec.Printed
import Verif.Spec.PyRefs
import Verif.Spec.Python
import Verif.Spec.Rounding
import Verif.Spec.RowViews
import Verif.Spec.Scarce
import Verif.Spec.ScarceSets
import Verif.Spec.SetList
import Verif.Spec.SetListViews
import Verif.Spec.SetViews
import Verif.Spec.SizeText
import Verif.Spec.Spaces
import Verif.Spec.Sparse
import Verif.Spec.Tensor
import Verif.Spec.TensorFixedSlices
import Verif.Spec.TensorSlices
import Verif.Spec.Text
import Verif.Spec.Values
import Verif.Spec.VecVec
import Verif.Spec.Vector
import Verif.Spec.Whole
import Verif.Spec.Zero
import Verif.TensorEigen
import Verif.TensorEigenLemmas
import Verif.TensorEigenSlices
import Verif.TensorEigenSlicesLemmas
import Verif.TensorFixed
import Verif.TensorFixedSlices
import Verif.TensorFixedSlicesLemmas
import Verif.TensorLemmas
import Verif.TensorOps
import Verif.TensorSlices
import Verif.TensorSlicesLemmas
import Verif.TensorVectors
import Verif.TextIO
import Verif.TextIOLemmas
import Verif.TextIOOutcome
import Verif.TextIORead
import Verif.TextIOScan
import Verif.TextOut
import Verif.TextOutLemmas
import Verif.Uninit
import Verif.Views
import Verif.Whole
import Verif.WholeLemmas
import Verif.World
import Verif.Zero
