import Verif.SortedManip

/-!
# Sorting

The sorting algorithms of /repo/src/sortedArrayManipulationHelpers.hpp and the functions built on them.  A range
`[first, last)` is a buffer whose slots are exactly the range, so that every access outside the range is undefined
behaviour; iterators are positions in it.
-/

namespace LvArray.sortedArrayManipulation

variable {σ α K : Type}

/-- What the algorithms need of an iterator type: the storage behind it is a state `σ`, a temporary is an `α` and the
comparison looks at a key of it. -/
structure RandomAccess (σ α K : Type) where
  /-- `*it`, as an argument of the comparison -/
  key : σ → Nat → R K
  /-- a temporary, as an argument of the comparison -/
  keyOf : α → K
  /-- `auto temp = createTemporary( *it )` -/
  take : σ → Nat → R (α × σ)
  /-- `*dst = std::move( *src )` -/
  moveAssign : σ → Nat → Nat → R σ
  /-- `*it = std::move( temp )` -/
  put : σ → Nat → α → R σ

/-- Move construct a temporary from slot `i`. -/
def Buf.take {T : Type} (b : Buf T) (i : Nat) : R (T × Buf T) := do
  let v ← b.read i
  .ok (v, { b with cell := upd b.cell i .moved })

/-- A plain pointer.  `createTemporary`: /repo/src/sortedArrayManipulationHelpers.hpp 409-413. -/
def pointer {T : Type} (c : Cfg) : RandomAccess (Buf T) T T where
  key := fun b i => b.read i
  keyOf := fun v => v
  take := fun b i => Buf.take b i
  moveAssign := fun b dst src => b.moveAssign c dst src
  put := fun b i v => b.write c i v

/-- `DualIterator`: every operation acts on both ranges, comparisons look at the first one only.
/repo/src/sortedArrayManipulationHelpers.hpp 39-425: `Temporary` 45-95, the assignments of `DualIteratorAccessor`
127-149, `DualIteratorComparator` 164-202, `createTemporary` 421-425.  `ca` and `cb` are the configurations for the two
element types. -/
def dualIterator {A B : Type} (ca cb : Cfg) : RandomAccess (Buf A × Buf B) (A × B) A where
  key := fun s i => s.1.read i
  keyOf := fun v => v.1
  take := fun s i => do
    let (a, sa) ← Buf.take s.1 i
    let (b, sb) ← Buf.take s.2 i
    .ok ((a, b), (sa, sb))
  moveAssign := fun s dst src => do
    let sa ← s.1.moveAssign ca dst src
    let sb ← s.2.moveAssign cb dst src
    .ok (sa, sb)
  put := fun s i v => do
    let sa ← s.1.write ca i v.1
    let sb ← s.2.write cb i v.2
    .ok (sa, sb)

variable (it : RandomAccess σ α K) (comp : K → K → Bool)

/-- `comp( *a, *b )`. -/
def compareAt (s : σ) (a b : Nat) : R Bool := do
  let x ← it.key s a
  let y ← it.key s b
  .ok (comp x y)

/-- `exchange`: /repo/src/sortedArrayManipulationHelpers.hpp 433-440. -/
def exchange (s : σ) (a b : Nat) : R σ := do
  let (temp, s) ← it.take s a
  let s ← it.moveAssign s a b
  it.put s b temp

/-- `moveBackward`: /repo/src/sortedArrayManipulationHelpers.hpp 453-461, for `[first, last)` to `d_last`; `n` is the
number of elements still to move, `last = first + n`, `d_last = d_first + n`. -/
def moveBackward : Nat → Nat → Nat → σ → R σ
  | 0, _, _, s => .ok s
  | n + 1, first, d_first, s => do
    let s ← it.moveAssign s (d_first + n) (first + n)
    moveBackward n first d_first s

/-- `computeMedian`: /repo/src/sortedArrayManipulationHelpers.hpp 476-507. -/
def computeMedian (s : σ) (result a b c : Nat) : R σ := do
  let ab ← compareAt it comp s a b
  if ab then do
    let bc ← compareAt it comp s b c
    if bc then exchange it s result b
    else do
      let ac ← compareAt it comp s a c
      if ac then exchange it s result c else exchange it s result a
  else do
    let ac ← compareAt it comp s a c
    if ac then exchange it s result a
    else do
      let bc ← compareAt it comp s b c
      if bc then exchange it s result c else exchange it s result b

/-- `while( comp( *first, *pivot ) ) ++first;`, /repo/src/sortedArrayManipulationHelpers.hpp 526-529.  `fuel` is the number
of slots from `first` to the end of the allocation: with none left `first` is past the end and reading it is undefined. -/
def scanUp (s : σ) (pivot : Nat) : Nat → Nat → R Nat
  | 0, _ => .error (.ub .overrun)
  | fuel + 1, first => do
    let t ← compareAt it comp s first pivot
    if t then scanUp s pivot fuel (first + 1) else .ok first

/-- `--last; while( comp( *pivot, *last ) ) --last;`, /repo/src/sortedArrayManipulationHelpers.hpp 531-535.  Stepping below
the first slot of the allocation is undefined. -/
def scanDown (s : σ) (pivot : Nat) : Nat → R Nat
  | 0 => .error (.ub .overrun)
  | last + 1 => do
    let t ← compareAt it comp s pivot last
    if t then scanDown s pivot last else .ok last

/-- `unguardedPartition`: /repo/src/sortedArrayManipulationHelpers.hpp 521-547, in an allocation of `n` slots.  `fuel` bounds
the rounds of the outer loop. -/
def unguardedPartition (n : Nat) (pivot : Nat) : Nat → σ → Nat → Nat → R (Nat × σ)
  | 0, _, _, _ => .error (.ub .diverge)
  | fuel + 1, s, first, last => do
    let first ← scanUp it comp s pivot (n - first) first
    let last ← scanDown it comp s pivot last
    if ¬ (first < last) then .ok (first, s)
    else do
      let s ← exchange it s first last
      unguardedPartition n pivot fuel s (first + 1) last

/-- `unguardedPartitionPivot`: /repo/src/sortedArrayManipulationHelpers.hpp 560-567. -/
def unguardedPartitionPivot (n : Nat) (s : σ) (first last : Nat) : R (Nat × σ) := do
  let mid := first + (last - first) / 2
  let s ← computeMedian it comp s first (first + 1) mid (last - 1)
  unguardedPartition it comp n first (n + 1) s (first + 1) last

/-- The loop of `unguardedLinearInsert`, /repo/src/sortedArrayManipulationHelpers.hpp 583-590: `next = last - 1`; with
`last = 0` that position does not exist. -/
def linearInsertLoop (val : α) : Nat → σ → R σ
  | 0, _ => .error (.ub .overrun)
  | next + 1, s => do
    let x ← it.key s next
    if comp (it.keyOf val) x then do
      let s ← it.moveAssign s (next + 1) next
      linearInsertLoop val next s
    else it.put s (next + 1) val

/-- `unguardedLinearInsert`: /repo/src/sortedArrayManipulationHelpers.hpp 578-591. -/
def unguardedLinearInsert (s : σ) (last : Nat) : R σ := do
  let (val, s) ← it.take s last
  linearInsertLoop it comp val last s

/-- One iteration of `insertionSort`, /repo/src/sortedArrayManipulationHelpers.hpp 608-619. -/
def insertionStep (first i : Nat) (s : σ) : R σ := do
  let t ← compareAt it comp s (first + i) first
  if t then do
    let (val, s) ← it.take s (first + i)
    let s ← moveBackward it i first (first + 1) s
    it.put s first val
  else unguardedLinearInsert it comp s (first + i)

/-- `insertionSort`: /repo/src/sortedArrayManipulationHelpers.hpp 604-621. -/
def insertionSort (s : σ) (first n : Nat) : R σ := forUp (n - 1) 1 (fun i s => insertionStep it comp first i s) s

/-- `INTROSORT_THRESHOLD`: /repo/src/sortedArrayManipulationHelpers.hpp 30. -/
def introsortThreshold : Nat := 64

/-- `MAX_RANGES`: /repo/src/sortedArrayManipulationHelpers.hpp 642. -/
def maxRanges : Nat := 31

/-- `LVARRAY_ASSERT( nRanges < MAX_RANGES )` and the store to `ranges[ nRanges + 1 ]` of the local array of
`MAX_RANGES + 1` iterators: /repo/src/sortedArrayManipulationHelpers.hpp 643, 654-655. -/
def pushRange (c : Cfg) (nRanges : Nat) : R Unit :=
  if c.debug && !decide (nRanges < maxRanges) then .error .abort
  else if nRanges + 1 < maxRanges + 1 then .ok ()
  else .error (.ub .overrun)

/-- The loop of `introsortLoop`, /repo/src/sortedArrayManipulationHelpers.hpp 648-664.  `ranges` is the local array. -/
def introsortRounds (c : Cfg) (n : Nat) : Nat → σ → (Nat → Nat) → Nat → R σ
  | 0, _, _, _ => .error (.ub .diverge)
  | fuel + 1, s, ranges, nRanges =>
    if nRanges = 0 then .ok s
    else if ranges nRanges - ranges (nRanges - 1) > introsortThreshold then do
      pushRange c nRanges
      let (cut, s) ← unguardedPartitionPivot it comp n s (ranges (nRanges - 1)) (ranges nRanges)
      introsortRounds c n fuel s (upd (upd ranges (nRanges + 1) (ranges nRanges)) nRanges cut) (nRanges + 1)
    else introsortRounds c n fuel s ranges (nRanges - 1)

/-- `introsortLoop`: /repo/src/sortedArrayManipulationHelpers.hpp 639-665 on the range `[0, n)`. -/
def introsortLoop (c : Cfg) (n : Nat) (s : σ) : R σ :=
  introsortRounds it comp c n (2 * n + 1) s (fun k => if k = 0 then 0 else n) 1

/-- The body shared by `makeSorted` in device code (/repo/src/sortedArrayManipulation.hpp 214-220) and by `dualSort`
(/repo/src/sortedArrayManipulation.hpp 248-254). -/
def introsort (c : Cfg) (n : Nat) (s : σ) : R σ :=
  if n > introsortThreshold then do
    let s ← introsortLoop it comp c n s
    insertionSort it comp s 0 n
  else insertionSort it comp s 0 n

/-- `makeSorted` as compiled for the device: /repo/src/sortedArrayManipulation.hpp 207-220.  In host code it is `std::sort`. -/
def makeSortedDevice {T : Type} (c : Cfg) (comp : T → T → Bool) (b : Buf T) : R (Buf T) :=
  introsort (pointer c) comp c b.cap b

/-- `dualSort`: /repo/src/sortedArrayManipulation.hpp 237-255, host and device. -/
def dualSort {A B : Type} (ca cb : Cfg) (comp : A → A → Bool) (values : Buf A) (data : Buf B) : R (Buf A × Buf B) :=
  introsort (dualIterator ca cb) comp ca values.cap (values, data)

/-- The loop of `removeDuplicates`, /repo/src/sortedArrayManipulation.hpp 328-341: `left` values remain from `next` on. -/
def removeDuplicatesLoop {T : Type} (c : Cfg) (comp : T → T → Bool) : Nat → Nat → Nat → Nat → Buf T → R (Nat × Buf T)
  | 0, _, _, numUnique, b => .ok (numUnique, b)
  | left + 1, first, next, numUnique, b => do
    let x ← b.read first
    let y ← b.read next
    if comp x y then
      if first + 1 ≠ next then do
        let b ← b.moveAssign c (first + 1) next
        removeDuplicatesLoop c comp left (first + 1) (next + 1) (numUnique + 1) b
      else removeDuplicatesLoop c comp left (first + 1) (next + 1) (numUnique + 1) b
    else removeDuplicatesLoop c comp left first (next + 1) numUnique b

/-- `removeDuplicates`: /repo/src/sortedArrayManipulation.hpp 304-342. -/
def removeDuplicates {T : Type} (c : Cfg) (comp : T → T → Bool) (b : Buf T) : R (Nat × Buf T) := do
  assertRange c b.read b.cap (isSorted comp)
  if b.cap = 0 then .ok (0, b)
  else removeDuplicatesLoop c comp b.cap 0 0 1 b

/-- `makeSortedUnique`: /repo/src/sortedArrayManipulation.hpp 353-360; `sort` is `makeSorted`. -/
def makeSortedUnique {T : Type} (c : Cfg) (comp : T → T → Bool) (sort : Buf T → R (Buf T)) (b : Buf T) : R (Nat × Buf T) := do
  let b ← sort b
  removeDuplicates c comp b

end LvArray.sortedArrayManipulation
