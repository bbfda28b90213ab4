import Verif.AoACopy
import Verif.AoAState

/-!
# C21-C25, C32, C47, C49: `ArrayOfArrays`
-/

namespace LvArray.Props

open LvArray Layout Spec

variable {T : Type} [Inhabited T]

/-- What the accessors report: the number of arrays, the size of each and every element. -/
def Shows (c : Cfg) (a : AoA T) (rows : List (List T)) : Prop :=
  a.shape.numArrays = rows.length ∧
  ∀ i (hi : i < rows.length), a.shape.sizeOfArray c i = .ok rows[i].length ∧
    ∀ j (hj : j < rows[i].length), a.get c i j = .ok rows[i][j]

/-- The capacities the accessor reports. -/
def Capacities (c : Cfg) (a : AoA T) (cs : List Nat) : Prop :=
  ∀ i (hi : i < cs.length), a.shape.capacityOfArray c i = .ok cs[i]

/-- In debug builds, `insertIntoArray` is not called with an empty range (see `C21_debug_empty_insert_aborts`). -/
def NoEmptyInsert (c : Cfg) (ops : List (AoAOp T)) : Prop := c.debug = true → ∀ op ∈ ops, op.nonEmptyInsert

/-- `ArrayOfArrays a( n, d )`, then the legal history `ops`, leads to `a`; `L` is what the specification says about the
contents and capacities. -/
def Reach (c : Cfg) (a : AoA T) (L : List (List T × Nat)) : Prop :=
  ∃ n d ops a0, NoEmptyInsert c ops ∧ AoA.mk' c n d = .ok a0 ∧ AoA.run c a0 ops = .ok a ∧
    vvcRun (List.replicate n ([], d)) ops = some L

/-! ### From the invariant to the observations -/

omit [Inhabited T] in
theorem shows_of_good {c : Cfg} {a : AoA T} {L : Layout T} (h : AGood a L) : Shows c a (L.map (·.1)) := by
  refine ⟨by rw [h.shape.num]; simp, ?_⟩
  intro i hi
  simp only [List.length_map] at hi
  obtain ⟨A, xs, cap, B, rfl, rfl, _⟩ := split1 hi
  have e : ((A ++ (xs, cap) :: B).map (·.1))[A.length]'(by simp) = xs := by simp
  refine ⟨by rw [e]; exact h.shape.sizeOfAt rfl, ?_⟩
  intro j hj
  simp only [e] at hj ⊢
  exact h.get j hj

omit [Inhabited T] in
theorem capacities_of_good {c : Cfg} {a : AoA T} {L : Layout T} (h : AGood a L) : Capacities c a (L.map (·.2)) := by
  intro i hi
  simp only [List.length_map] at hi
  rw [h.shape.capacityOf' hi]
  simp

theorem reach_good {c : Cfg} {a : AoA T} {L : List (List T × Nat)} (h : Reach c a L) : AGood a L := by
  obtain ⟨n, d, ops, a0, hd, h1, h2, h3⟩ := h
  obtain ⟨a1, h4, h5⟩ := mk_good (T := T) c n d
  rw [h1] at h4
  cases h4
  rcases run_any c ops hd h5 h3 with ⟨a', h6, h7⟩ | ⟨_, h6⟩
  · rw [h2] at h6; cases h6; exact h7
  · rw [h2] at h6; cases h6

/-- `Reach` is not empty: every history that is legal for the specification is one of the object (for trivially copyable `T`). -/
theorem reach_of_history (c : Cfg) (ht : c.trivial = true) (n d : Nat) (ops : List (AoAOp T)) (hd : NoEmptyInsert c ops)
    {L : List (List T × Nat)} (h : vvcRun (List.replicate n ([], d)) ops = some L) : ∃ a, Reach c a L := by
  obtain ⟨a, h1, h2⟩ := mk_good (T := T) c n d
  rcases run_any c ops hd h2 h with ⟨a', h3, _⟩ | ⟨h3, _⟩
  · exact ⟨a', n, d, ops, a, hd, h1, h3, h⟩
  · rw [ht] at h3; cases h3

theorem vvcRun_of_vvRun {L : Layout T} {ops : List (AoAOp T)} {rows : List (List T)}
    (h : vvRun (L.map (·.1)) ops = some rows) : ∃ L', vvcRun L ops = some L' ∧ L'.map (·.1) = rows := by
  rw [← vvcRun_fst] at h
  cases hL : vvcRun L ops with
  | none => rw [hL] at h; cases h
  | some L' => rw [hL] at h; exact ⟨L', rfl, by simpa using h⟩

theorem run_append (c : Cfg) (ops : List (AoAOp T)) (op : AoAOp T) (a : AoA T) :
    AoA.run c a (ops ++ [op]) = AoA.run c a ops >>= fun a => a.step c op := by
  induction ops generalizing a with
  | nil =>
    simp only [List.nil_append, AoA.run, bind_ok]
    cases a.step c op <;> rfl
  | cons o os ih =>
    simp only [List.cons_append, AoA.run]
    cases a.step c o with
    | error e => rfl
    | ok a1 => exact ih a1

/-! ### C21: a vector of vectors -/

/-- **C21.** For trivially copyable `T` every legal history succeeds and leaves what `std::vector< std::vector< T > >` has. -/
theorem C21_vector_of_vectors (c : Cfg) (ht : c.trivial = true) (n d : Nat) (ops : List (AoAOp T)) (hd : NoEmptyInsert c ops)
    (rows : List (List T)) (h : vvRun (List.replicate n []) ops = some rows) :
    ∃ a a', AoA.mk' c n d = .ok a ∧ AoA.run c a ops = .ok a' ∧ Shows c a' rows := by
  obtain ⟨a, h1, h2⟩ := mk_good (T := T) c n d
  obtain ⟨L, h3, rfl⟩ := vvcRun_of_vvRun (L := List.replicate n ([], d)) (ops := ops) (rows := rows) (by simpa using h)
  obtain ⟨a', h4, h5⟩ := run_trivial c ht ops hd h2 h3
  exact ⟨a, a', h1, h4, shows_of_good h5⟩

/-- **C21, preconditions.** In a build with bounds checks the first illegal operation of a history is reported. -/
theorem C21_illegal_reported (c : Cfg) (ht : c.trivial = true) (hb : c.boundsCheck = true) (n d : Nat)
    (ops : List (AoAOp T)) (op : AoAOp T) (hd : NoEmptyInsert c ops) (rows : List (List T))
    (h : vvRun (List.replicate n []) ops = some rows) (hop : vvStep rows op = none) :
    ∃ a, AoA.mk' c n d = .ok a ∧ AoA.run c a (ops ++ [op]) = .error .abort := by
  obtain ⟨a, h1, h2⟩ := mk_good (T := T) c n d
  obtain ⟨L, h3, rfl⟩ := vvcRun_of_vvRun (L := List.replicate n ([], d)) (ops := ops) (rows := rows) (by simpa using h)
  obtain ⟨a', h4, h5⟩ := run_trivial c ht ops hd h2 h3
  refine ⟨a, h1, ?_⟩
  rw [run_append, h4, bind_ok]
  have hs : vvcStep L op = none := by
    rw [← vvcStep_fst] at hop
    cases hL : vvcStep L op with
    | none => rfl
    | some _ => rw [hL] at hop; cases hop
  rcases step_illegal c h5 op hb hs with h6 | ⟨h6, _⟩
  · exact h6
  · rw [ht] at h6; cases h6

/-- A history that uses every operation. -/
def demo : List (AoAOp Nat) :=
  [.emplaceBack 0 1, .appendToArray 1 [2, 3], .emplace 0 0 4, .insertIntoArray 1 1 [5, 6], .appendArraySize 2,
   .appendArray [7, 8], .insertArray 1 [9], .set 3 0 10, .eraseFromArray 2 1 2, .compress, .reserve 20, .reserveValues 99,
   .setCapacityOfArray 2 1, .resizeArray 0 3 11, .eraseArray 1, .resize 3 4, .resize 5 2, .emplaceBack 4 12, .clearArray 0]

example : vvRun [[], []] demo = some [[], [2], [10, 0], [], [12]] ∧
    vvStep [[], [2], [10, 0], [], [12]] (.emplace 1 2 0) = none ∧
    vvStep [[], [2], [10, 0], [], [12]] (.eraseArray 5) = none ∧ (∀ op ∈ demo, op.nonEmptyInsert) := by
  refine ⟨by decide, by decide, by decide, ?_⟩
  simp [demo, AoAOp.nonEmptyInsert]

/-- **C21 for any element type, partial.** A legal history ends like the vector of vectors, or moves a slot that holds no
object. Missing: the second alternative is possible (`C24_growth_moves_gaps`). -/
theorem C21_any_type_partial (c : Cfg) (n d : Nat) (ops : List (AoAOp T)) (hd : NoEmptyInsert c ops) (rows : List (List T))
    (h : vvRun (List.replicate n []) ops = some rows) :
    ∃ a, AoA.mk' c n d = .ok a ∧
      ((∃ a', AoA.run c a ops = .ok a' ∧ Shows c a' rows) ∨
       (c.trivial = false ∧ AoA.run c a ops = .error (.ub .rawRead))) := by
  obtain ⟨a, h1, h2⟩ := mk_good (T := T) c n d
  obtain ⟨L, h3, rfl⟩ := vvcRun_of_vvRun (L := List.replicate n ([], d)) (ops := ops) (rows := rows) (by simpa using h)
  refine ⟨a, h1, ?_⟩
  rcases run_any c ops hd h2 h3 with ⟨a', h4, h5⟩ | h4
  · exact .inl ⟨a', h4, shows_of_good h5⟩
  · exact .inr h4

/-- **C21 for any element type, after `reserveValues`.** If the values are reserved before anything is stored and the
capacities of the inner arrays never add up to more, every legal history ends like the vector of vectors. -/
theorem C21_reserved (c : Cfg) (N : Nat) (ops : List (AoAOp T)) (hd : NoEmptyInsert c ops) (rows : List (List T))
    (h : vvRun [] ops = some rows)
    (hN : ∀ pre op post M, ops = pre ++ op :: post → vvcRun [] (pre ++ [op]) = some M → needed op M ≤ N) :
    ∃ a a', AoA.mk' c 0 0 = .ok a ∧ AoA.run c a (.reserveValues N :: ops) = .ok a' ∧ Shows c a' rows := by
  obtain ⟨a, h1, h2⟩ := mk_good (T := T) c 0 0
  simp only [List.replicate_zero] at h2
  obtain ⟨L, h3, rfl⟩ := vvcRun_of_vvRun (L := ([] : Layout T)) (ops := ops) (rows := rows) (by simpa using h)
  obtain ⟨h4, h5⟩ := h2.reserveValues (c := c) N
  rcases h4 with ⟨_, a1, h6, h7, _⟩ | ⟨h6, _⟩
  · obtain ⟨a', h8, h9⟩ := run_reserved c ops hd h7 h3 (fun pre op post M e1 e2 =>
      Nat.le_trans (hN pre op post M e1 e2) (h5 a1 h6))
    refine ⟨a, a', h1, ?_, shows_of_good h9⟩
    unfold AoA.run
    simp only [AoA.step]
    rw [h6, bind_ok]
    exact h8
  · exact absurd (.inr (.inr (by intro r hr; simp at hr))) h6

/-- The hypotheses of `C21_reserved` for a history that grows and shrinks. -/
def reservedDemo : List (AoAOp Nat) := [.appendArray [1, 2], .emplaceBack 0 3, .insertArray 0 [4], .eraseArray 1]

example : vvRun [] reservedDemo = some [[4]] ∧
    ∀ pre op post M, reservedDemo = pre ++ op :: post → vvcRun [] (pre ++ [op]) = some M → needed op M ≤ 10 := by
  refine ⟨by decide, ?_⟩
  intro pre op post M h1 h2
  match pre, h1 with
  | [], h1 => simp [reservedDemo] at h1; obtain ⟨rfl, _⟩ := h1; revert h2; simp [vvcRun, vvcStep]; rintro rfl; decide
  | [_], h1 =>
    simp [reservedDemo] at h1; obtain ⟨rfl, rfl, _⟩ := h1; revert h2
    simp [vvcRun, vvcStep, onRowC]; rintro rfl; decide
  | [_, _], h1 =>
    simp [reservedDemo] at h1; obtain ⟨rfl, rfl, rfl, _⟩ := h1; revert h2
    simp [vvcRun, vvcStep, onRowC]; rintro rfl; decide
  | [_, _, _], h1 =>
    simp [reservedDemo] at h1; obtain ⟨rfl, rfl, rfl, rfl, _⟩ := h1; revert h2
    simp [vvcRun, vvcStep, onRowC]; rintro rfl; decide
  | _ :: _ :: _ :: _ :: _, h1 => simp [reservedDemo] at h1

/-- **C21, disagreement.** In a debug build inserting an empty range into an array of an object without any values aborts. -/
theorem C21_debug_empty_insert_aborts :
    (AoA.mk' { trivial := true, boundsCheck := true, debug := true } 1 0 >>= fun a =>
      (a : AoA Nat).insertIntoArray { trivial := true, boundsCheck := true, debug := true } 0 0 [] >>= fun _ => .ok ())
    = .error .abort := by
  decide +kernel

/-! ### C22: layout -/

/-- **C22.** In every reachable object the offsets start at 0, every array lies between its offset and the next one, and the
last offset is within the allocation. -/
theorem C22_layout (c : Cfg) {a : AoA T} {L : List (List T × Nat)} (h : Reach c a L) :
    a.shape.offsets.read 0 = .ok 0 ∧
    ∀ i, i < a.shape.numArrays → ∃ lo hi n, a.shape.offsets.read i = .ok lo ∧ a.shape.offsets.read (i + 1) = .ok hi ∧
      a.shape.sizeOfArray c i = .ok n ∧ lo + n ≤ hi ∧ hi ≤ a.values.cap := by
  have hg := reach_good h
  refine ⟨by simpa using hg.shape.readOff' (i := 0) (by omega), ?_⟩
  intro i hi
  rw [hg.shape.num] at hi
  obtain ⟨A, xs, cap, B, rfl, rfl, _⟩ := split1 hi
  have hf := hg.lay.fits (xs, cap) (by simp)
  have hr := hg.lay.room
  simp only at hf
  simp only [total_append, total_cons] at hr
  refine ⟨total A, total A + cap, xs.length, hg.shape.readOffAt rfl, ?_, hg.shape.sizeOfAt rfl, by omega, by omega⟩
  have hg2 : LShape a.shape ((A ++ [(xs, cap)]) ++ B) := by simpa using hg.shape
  have := hg2.readOffAt (i := A.length + 1) (by simp)
  simpa using this

/-- **C22.** The storage of different arrays is disjoint. -/
theorem C22_disjoint (c : Cfg) {a : AoA T} {L : List (List T × Nat)} (h : Reach c a L) (i j : Nat) (hij : i < j)
    (hj : j < a.shape.numArrays) : ∃ lo hi, a.shape.offsets.read (i + 1) = .ok hi ∧ a.shape.offsets.read j = .ok lo ∧ hi ≤ lo := by
  have hg := reach_good h
  rw [hg.shape.num] at hj
  refine ⟨_, _, hg.shape.readOff' (i := i + 1) (by omega), hg.shape.readOff' (i := j) (by omega), ?_⟩
  have : L.take j = L.take (i + 1) ++ (L.take j).drop (i + 1) := by
    have := List.take_append_drop (i + 1) (L.take j)
    rw [List.take_take, Nat.min_eq_left (by omega)] at this
    exact this.symm
  rw [this, total_append]
  omega

/-- The array an operation on one array concerns. -/
def target : AoAOp T → Option Nat
  | .emplaceBack i _ | .appendToArray i _ | .emplace i _ _ | .insertIntoArray i _ _ | .eraseFromArray i _ _ => some i
  | .resizeArray i _ _ | .clearArray i | .setCapacityOfArray i _ | .set i _ _ => some i
  | _ => none

theorem onRowC_other {L L' : Layout T} {i k : Nat} {ok : List T → Bool} {f : List T × Nat → List T × Nat}
    (h : onRowC L i ok f = some L') (hk : k ≠ i) : L'[k]? = L[k]? := by
  unfold onRowC at h
  split at h
  · split at h
    · cases h; rw [List.getElem?_set_ne (by omega)]
    · cases h
  · cases h

/-- **C22.** An operation on one array changes neither size nor capacity nor elements of another. -/
theorem C22_others_unchanged (c : Cfg) {a a' : AoA T} {L L' : List (List T × Nat)} (h : Reach c a L) (op : AoAOp T)
    (hs : vvcStep L op = some L') (hd : NoEmptyInsert c [op]) (hr : a.step c op = .ok a') {i k : Nat} (ht : target op = some i)
    (hk : k ≠ i) (hk2 : k < a.shape.numArrays) :
    (∃ n, a.shape.sizeOfArray c k = .ok n ∧ a'.shape.sizeOfArray c k = .ok n ∧
      ∀ j, j < n → ∃ v, a.get c k j = .ok v ∧ a'.get c k j = .ok v) ∧
    ∃ m, a.shape.capacityOfArray c k = .ok m ∧ a'.shape.capacityOfArray c k = .ok m := by
  have hg := reach_good h
  have hk2' : k < L.length := by rw [← hg.shape.num]; exact hk2
  have hg' : AGood a' L' := by
    rcases step_exact c hg op hs (fun hh => hd hh op (by simp)) with ⟨_, a1, h1, h2, _⟩ | ⟨_, h1⟩
    · rw [hr] at h1; cases h1; exact h2
    · rw [hr] at h1; cases h1
  have hrow : L'[k]? = L[k]? := by
    cases op <;> simp only [target, Option.some.injEq, reduceCtorEq] at ht <;> subst ht <;>
      simp only [vvcStep] at hs <;> exact onRowC_other hs hk
  have hk3 : k < L'.length := by
    have : L'[k]?.isSome := by rw [hrow]; simp [hk2']
    simpa using this
  have hrow' : L'[k] = L[k] := by
    rw [List.getElem?_eq_getElem hk3, List.getElem?_eq_getElem hk2'] at hrow
    exact Option.some.inj hrow
  have e1 := (shows_of_good (c := c) hg).2 k (by simpa using hk2')
  have e2 := (shows_of_good (c := c) hg').2 k (by simpa using hk3)
  simp only [List.getElem_map] at e1 e2
  simp only [hrow'] at e2
  refine ⟨⟨_, e1.1, e2.1, fun j hj => ⟨L[k].1[j], e1.2 j hj, ?_⟩⟩, L[k].2, hg.shape.capacityOf' hk2', ?_⟩
  · have := e2.2 j (by simpa [hrow'] using hj)
    simpa [hrow'] using this
  · rw [hg'.shape.capacityOf' hk3, hrow']

/-! ### C23: compress and capacity changes -/

/-- A state for C22, C23 and C47: three arrays, the second full, the others with room, and an operation on the first of them. -/
example (c : Cfg) (ht : c.trivial = true) : ∃ a, Reach (T := Nat) c a [([1, 2], 4), ([3], 1), ([], 2)] ∧
    vvcStep [([1, 2], 4), ([3], 1), ([], 2)] (.emplaceBack 0 7) = some [([1, 2, 7], 4), ([3], 1), ([], 2)] ∧
    target (AoAOp.emplaceBack 0 7) = some 0 := by
  obtain ⟨a, h⟩ := reach_of_history (T := Nat) c ht 0 0
    [.appendArraySize 0, .setCapacityOfArray 0 4, .appendToArray 0 [1, 2], .appendArray [3], .setCapacityOfArray 1 1,
     .appendArraySize 0, .setCapacityOfArray 2 2]
    (fun _ op hop => by
      simp only [List.mem_cons, List.not_mem_nil, or_false] at hop
      rcases hop with rfl | rfl | rfl | rfl | rfl | rfl | rfl <;> simp [AoAOp.nonEmptyInsert])
    (L := [([1, 2], 4), ([3], 1), ([], 2)]) (by decide)
  exact ⟨a, h, by decide, rfl⟩

/-- **C23.** `compress` keeps the contents, makes every capacity equal to the size and leaves no gap between the arrays. -/
theorem C23_compress (c : Cfg) {a : AoA T} {L : List (List T × Nat)} (h : Reach c a L) :
    ∃ a', a.compress c = .ok a' ∧ Shows c a' (L.map (·.1)) ∧ Capacities c a' (L.map (·.1.length)) ∧
      ∀ i, i ≤ L.length → a'.shape.offsets.read i = .ok ((L.take i).map (·.1.length)).sum := by
  obtain ⟨a', h1, h2, _⟩ := (reach_good h).compress (c := c)
  refine ⟨a', h1, ?_, ?_, ?_⟩
  · have := shows_of_good (c := c) h2
    simpa [LShape.tight, Function.comp_def] using this
  · have := capacities_of_good (c := c) h2
    simpa [LShape.tight, Function.comp_def] using this
  · intro i hi
    rw [h2.shape.readOff' (by simpa using hi), ← List.map_take]
    simp [total, LShape.tight, Function.comp_def]

/-- **C23.** `setCapacityOfArray( i, n )` gives array `i` capacity `n` and keeps its first `min( size, n )` values and every
other array, for trivially copyable `T`; when it shrinks, for every `T`. Missing: growth for other `T`, which may touch slots
without objects (`C24_exactly_when`). -/
theorem C23_setCapacityOfArray_partial (c : Cfg) {a : AoA T} {L : List (List T × Nat)} (h : Reach c a L) (i n : Nat)
    (hi : i < L.length) (ht : c.trivial = true ∨ n ≤ L[i].2) :
    ∃ a', a.setCapacityOfArray c i n = .ok a' ∧ Shows c a' ((L.map (·.1)).set i (L[i].1.take n)) ∧
      Capacities c a' ((L.map (·.2)).set i n) := by
  have hg := reach_good h
  have hs : vvcStep L (.setCapacityOfArray i n) = some (L.set i (L[i].1.take n, n)) := by
    simp [vvcStep, onRowC, hi]
  rcases step_exact c hg _ hs (fun _ => trivial) with ⟨_, a', h1, h2, _⟩ | ⟨h1, _⟩
  · refine ⟨a', h1, ?_, ?_⟩
    · simpa [List.map_set] using shows_of_good (c := c) h2
    · simpa [List.map_set] using capacities_of_good (c := c) h2
  · exfalso
    rcases ht with ht | ht
    · exact h1 (.inr (.inl ht))
    · refine h1 (.inl ?_)
      obtain ⟨A, xs, cap, B, rfl, rfl, _⟩ := split1 hi
      have hr := hg.lay.room
      simp only [needed]
      rw [List.set_append_right _ _ (Nat.le_refl _)]
      simp [total] at hr ht ⊢
      omega

/-! ### C24: slots without objects -/

/-- **C24, exactly when it fails.** An operation on a reachable object with elements of a non-trivial type touches a slot that
holds no object if and only if the allocation has to grow while some array has spare capacity. -/
theorem C24_exactly_when (c : Cfg) (ht : c.trivial = false) {a : AoA T} {L L' : List (List T × Nat)} (h : Reach c a L)
    (op : AoAOp T) (hs : vvcStep L op = some L') (hd : NoEmptyInsert c [op]) :
    a.step c op = .error (.ub .rawRead) ↔ a.values.cap < needed op L' ∧ ∃ r ∈ L, r.1.length < r.2 := by
  have hg := reach_good h
  have key : Room c a L (needed op L') ↔ ¬ (a.values.cap < needed op L' ∧ ∃ r ∈ L, r.1.length < r.2) := by
    unfold Room Lay.Movable Packed
    have hf := hg.lay.fits
    constructor
    · rintro (h1 | h1 | h1)
      · intro h2; omega
      · rw [ht] at h1; cases h1
      · rintro ⟨_, r, hr, hlt⟩
        have := h1 r hr; omega
    · intro h1
      by_cases h2 : needed op L' ≤ a.values.cap
      · exact .inl h2
      · refine .inr (.inr fun r hr => ?_)
        have h3 := hf r hr
        by_cases h4 : r.1.length < r.2
        · exact absurd ⟨by omega, r, hr, h4⟩ h1
        · omega
  rcases step_exact c hg op hs (fun hh => hd hh op (by simp)) with ⟨hp, a', h1, _⟩ | ⟨hp, h1⟩
  · rw [h1]
    constructor
    · intro hh; cases hh
    · intro hh; exact absurd hh (key.1 hp)
  · constructor
    · intro _; exact Decidable.byContradiction (dec := Classical.propDecidable _) fun hh => hp (key.2 hh)
    · intro _; exact h1

/-- **C24, partial.** No operation that does not have to enlarge the allocation, and no operation at all on an object without
spare capacity, touches a slot that holds no object. Missing: the other ones, which do (`C24_growth_moves_gaps`). -/
theorem C24_no_uninitialised_partial (c : Cfg) {a : AoA T} {L L' : List (List T × Nat)} (h : Reach c a L)
    (op : AoAOp T) (hs : vvcStep L op = some L') (hd : NoEmptyInsert c [op])
    (hp : needed op L' ≤ a.values.cap ∨ ∀ r ∈ L, r.1.length = r.2) :
    ∃ a', a.step c op = .ok a' ∧ Shows c a' (L'.map (·.1)) := by
  rcases step_exact c (reach_good h) op hs (fun hh => hd hh op (by simp)) with ⟨_, a', h1, h2, _⟩ | ⟨h1, _⟩
  · exact ⟨a', h1, shows_of_good h2⟩
  · rcases hp with hp | hp
    · exact absurd (.inl hp) h1
    · exact absurd (.inr (.inr hp)) h1

/-- **C24, disagreement.** `ArrayOfArrays< std::string > a( 1, 2 ); a.appendArray( 1 )`, the array with spare capacity 2, moves
the two slots that hold no string. -/
theorem C24_growth_moves_gaps :
    (AoA.mk' { trivial := false, boundsCheck := true, debug := false } 1 2 >>= fun a =>
      AoA.run { trivial := false, boundsCheck := true, debug := false } (a : AoA Nat) [.appendArraySize 1] >>= fun _ => .ok ())
    = .error (.ub .rawRead) := by
  decide +kernel

omit [Inhabited T] in
theorem cells_inside (L : Layout T) (k : Nat) (h : cells L k ≠ .raw) :
    ∃ A xs cap B, L = A ++ (xs, cap) :: B ∧ total A ≤ k ∧ k < total A + xs.length := by
  induction L generalizing k with
  | nil => exact absurd rfl h
  | cons r L ih =>
    obtain ⟨xs, cap⟩ := r
    simp only [cells] at h
    split at h
    · refine ⟨[], xs, cap, L, rfl, by simp, ?_⟩
      by_cases hk : k < xs.length
      · simpa using hk
      · exact absurd (cellsOf_ge (by omega)) h
    · obtain ⟨A, ys, cap', B, rfl, h1, h2⟩ := ih _ h
      refine ⟨(xs, cap) :: A, ys, cap', B, rfl, ?_, ?_⟩ <;> simp only [total_cons] <;> omega

/-- **C24.** Nothing is lost: as long as a history succeeds no element with a value was overwritten by construction or released
without destruction, and every slot outside the arrays holds no object. -/
theorem C24_nothing_lost (c : Cfg) {a : AoA T} {L : List (List T × Nat)} (h : Reach c a L) :
    a.values.lostLive = 0 ∧ ∀ k, (∀ i lo n, i < a.shape.numArrays → a.shape.offsets.read i = .ok lo →
      a.shape.sizeOfArray c i = .ok n → k < lo ∨ lo + n ≤ k) → a.values.cell k = .raw := by
  have hg := reach_good h
  refine ⟨hg.lay.lost, ?_⟩
  intro k hk
  rw [hg.lay.cell]
  refine Decidable.byContradiction (dec := Classical.propDecidable _) fun hne => ?_
  obtain ⟨A, xs, cap, B, rfl, h1, h2⟩ := cells_inside L k hne
  rcases hk A.length (total A) xs.length (by rw [hg.shape.num]; simp) (hg.shape.readOffAt rfl)
    (hg.shape.sizeOfAt rfl) with h3 | h3 <;> omega

example : Reach (T := Nat) { trivial := false, boundsCheck := true, debug := false }
    ((AoA.mk' { trivial := false, boundsCheck := true, debug := false } 1 2 >>= fun a =>
      a.emplaceBack { trivial := false, boundsCheck := true, debug := false } 0 5).toOption.getD
        ⟨⟨0, .empty, .empty⟩, .empty⟩) [([5], 2)] := by
  obtain ⟨a0, h1, h2⟩ := mk_good (T := Nat) { trivial := false, boundsCheck := true, debug := false } 1 2
  rcases step_exact { trivial := false, boundsCheck := true, debug := false } h2 (.emplaceBack 0 5) (L' := [([5], 2)])
    (by decide) (fun _ => trivial) with ⟨_, a', h3, _⟩ | ⟨h3, _⟩
  · refine ⟨1, 2, [.emplaceBack 0 5], a0, fun _ _ hm => by simp at hm; subst hm; trivial, h1, ?_, by decide⟩
    rw [h1, bind_ok]
    simp only [AoA.step] at h3
    simp [AoA.run, AoA.step, h3, Except.toOption]
  · refine absurd (.inl ?_) h3
    have := h2.lay.room
    simpa [needed, total] using this

/-! ### C25: copies -/

/-- **C25, partial.** `dst = src` makes `dst` show what `src` shows, with the same capacities, if `dst` has room for all of
`src`, or `dst` has no arrays, or `T` is trivially copyable and the slots the code takes to be in use are within the allocation
of `dst`: `k` arrays' worth of the capacities of `src`, where `k` is the number of arrays of `dst`, or everything in `dst` if
it has more arrays.  Missing: the other cases, in which the copy fails (`C25_fails_otherwise`). -/
theorem C25_copy_assignment_partial (c : Cfg) {dst src : AoA T} {L M : List (List T × Nat)} (hd : Reach c dst L)
    (hs : Reach c src M)
    (h : (M.map (·.2)).sum ≤ dst.values.cap ∨ L = [] ∨
      (c.trivial = true ∧ ((M.take L.length).map (·.2)).sum ≤ dst.values.cap)) :
    ∃ dst', dst.copyAssign c src = .ok dst' ∧ Shows c dst' (M.map (·.1)) ∧ Capacities c dst' (M.map (·.2)) := by
  have hgd := reach_good hd
  obtain ⟨a', h1, h2⟩ := copyAssign_good c hgd.weak (reach_good hs) (by
    have e : ∀ L : Layout T, (L.map (·.2)).sum = total L := fun L => caps_sum L
    simp only [e] at h
    rcases h with h | rfl | ⟨h, h'⟩
    · exact .inl h
    · exact .inr (.inl (by simp [staleOffset]))
    · refine .inr (.inr ⟨h, ?_⟩)
      unfold staleOffset
      split
      · exact h'
      · exact hgd.lay.room)
  exact ⟨a', h1, shows_of_good h2, capacities_of_good h2⟩

/-- The hypothesis of `C25_copy_assignment_partial` with a destination that has to grow: one array of capacity 2, an allocation of
4, against a source that needs 6. -/
example : (AoA.mk' { trivial := true, boundsCheck := true, debug := false } 0 0 >>= fun d =>
      AoA.run { trivial := true, boundsCheck := true, debug := false } (d : AoA Nat) [.appendArray [7]] >>= fun d =>
      AoA.mk' { trivial := true, boundsCheck := true, debug := false } 0 0 >>= fun s =>
      AoA.run { trivial := true, boundsCheck := true, debug := false } s [.appendArray [1], .appendArray [4, 5]] >>= fun s =>
      d.copyAssign { trivial := true, boundsCheck := true, debug := false } s >>= fun d' =>
      d'.get { trivial := true, boundsCheck := true, debug := false } 1 1 >>= fun x =>
      .ok (d.shape.numArrays, d.values.cap, x)) = .ok (1, 4, 5) := by
  decide +kernel

/-- **C25.** The copy constructor always works. -/
theorem C25_copy_constructor (c : Cfg) {src : AoA T} {M : List (List T × Nat)} (hs : Reach c src M) :
    ∃ dst, AoA.copyConstruct c src = .ok dst ∧ Shows c dst (M.map (·.1)) ∧ Capacities c dst (M.map (·.2)) := by
  obtain ⟨a', h1, h2⟩ := copyAssign_good c AWeak.fresh (reach_good hs) (.inr (.inl (by simp [staleOffset])))
  exact ⟨a', h1, shows_of_good h2, capacities_of_good h2⟩

/-- **C25, disagreement.** If `dst` is too small for `src` and has at least one array with capacity among the first ones of
`src`, the assignment never succeeds for elements of a non-trivial type; for trivial ones it does not if those capacities exceed
the allocation. -/
theorem C25_fails_otherwise (c : Cfg) {dst src : AoA T} {L M : List (List T × Nat)} (hd : Reach c dst L)
    (hs : Reach c src M) (hlen : L.length ≤ M.length) (hcap : dst.values.cap < (M.map (·.2)).sum)
    (h : if c.trivial then dst.values.cap < ((M.take L.length).map (·.2)).sum else 0 < ((M.take L.length).map (·.2)).sum) :
    ∀ dst', dst.copyAssign c src ≠ .ok dst' := by
  refine copyAssign_bad c (reach_good hd).weak (reach_good hs) ?_
  have e : ∀ L : Layout T, (L.map (·.2)).sum = total L := fun L => caps_sum L
  simp only [e] at h hcap
  unfold CopyRoom staleOffset
  rw [if_pos hlen]
  split at h
  · rintro (h1 | h1 | ⟨_, h1⟩) <;> omega
  · rename_i ht
    rintro (h1 | h1 | ⟨h1, _⟩)
    · omega
    · omega
    · exact ht h1

/-- The hypotheses of `C25_fails_otherwise`: one array of capacity 1 against one of capacity 9. -/
example (b d : Bool) : ∃ dst src : AoA Nat, Reach ⟨b, true, d⟩ dst [([], 1)] ∧ Reach ⟨b, true, d⟩ src [([], 9)] ∧
    dst.values.cap < 9 := by
  obtain ⟨x, hx, _⟩ := mk_good (T := Nat) ⟨b, true, d⟩ 1 1
  obtain ⟨y, hy, _⟩ := mk_good (T := Nat) ⟨b, true, d⟩ 1 9
  refine ⟨x, y, ⟨1, 1, [], x, fun _ _ hm => by simp at hm, hx, rfl, by decide⟩,
    ⟨1, 9, [], y, fun _ _ hm => by simp at hm, hy, rfl, by decide⟩, ?_⟩
  have e : (AoA.mk' (T := Nat) ⟨b, true, d⟩ 1 1).toOption.map (·.values.cap) = some 1 := by
    cases b <;> cases d <;> decide +kernel
  rw [hx] at e
  simp only [Except.toOption, Option.map_some, Option.some.injEq] at e
  omega

/-- **C25, disagreement.** Assigning `{ { 1, 2, 3 }, { 4 } }` to `{ { 7 } }` reads beyond the allocation, or aborts in a build
with bounds checks, even for `int`. -/
theorem C25_small_destination :
    ((AoA.mk' { trivial := true, boundsCheck := false, debug := false } 0 0 >>= fun d =>
      AoA.run { trivial := true, boundsCheck := false, debug := false } (d : AoA Nat) [.appendArray [7], .compress] >>= fun d =>
      AoA.mk' { trivial := true, boundsCheck := false, debug := false } 0 0 >>= fun s =>
      AoA.run { trivial := true, boundsCheck := false, debug := false } s [.appendArray [1, 2, 3], .appendArray [4]] >>= fun s =>
      d.copyAssign { trivial := true, boundsCheck := false, debug := false } s >>= fun _ => .ok ()) = .error (.ub .outOfBounds)) ∧
    ((AoA.mk' { trivial := true, boundsCheck := true, debug := false } 0 0 >>= fun d =>
      AoA.run { trivial := true, boundsCheck := true, debug := false } (d : AoA Nat) [.appendArray [7], .compress] >>= fun d =>
      AoA.mk' { trivial := true, boundsCheck := true, debug := false } 0 0 >>= fun s =>
      AoA.run { trivial := true, boundsCheck := true, debug := false } s [.appendArray [1, 2, 3], .appendArray [4]] >>= fun s =>
      d.copyAssign { trivial := true, boundsCheck := true, debug := false } s >>= fun _ => .ok ()) = .error .abort) := by
  decide +kernel

/-- **C25, disagreement.** Assigning an object to itself destroys the elements before it copies them. -/
theorem C25_self_assignment :
    (AoA.mk' { trivial := false, boundsCheck := true, debug := false } 0 0 >>= fun d =>
      AoA.run { trivial := false, boundsCheck := true, debug := false } (d : AoA Nat) [.appendArray [7]] >>= fun d =>
      d.selfAssign { trivial := false, boundsCheck := true, debug := false } >>= fun _ => .ok ()) = .error (.ub .rawRead) := by
  decide +kernel

/-- **C13, disagreement.** An object that was moved from cannot be used again: `appendArray` reads the first offset of a buffer
without allocation. -/
theorem C13_moved_from_array_of_arrays (c : Cfg) (src : AoA T) (vs : List T) :
    (AoA.moveConstruct src).2.appendArray c vs = .error (.ub .outOfBounds) := by
  simp [AoA.moveConstruct, AoA.appendArray, Shape.appendRow, Buf.read, Buf.empty]

/-- **C13.** Moving hands over contents and capacities, and the previous contents of the target are destroyed. -/
theorem C13_move_array_of_arrays (c : Cfg) {dst src : AoA T} {L M : List (List T × Nat)} (hd : Reach c dst L)
    (hs : Reach c src M) :
    ∃ dst' src', dst.moveAssign c src = .ok (dst', src') ∧ Shows c dst' (M.map (·.1)) ∧
      Capacities c dst' (M.map (·.2)) ∧ src'.shape.numArrays = 0 := by
  obtain ⟨b, h1, h2, _⟩ := (reach_good hd).weak.destroyAll (c := c)
  refine ⟨src, (AoA.moveConstruct src).2, ?_, shows_of_good (reach_good hs), capacities_of_good (reach_good hs), rfl⟩
  simp [AoA.moveAssign, AoA.free, h1, AoA.moveConstruct]

/-- **C08 for ArrayOfArrays.** `free` (the destructor) destroys every element exactly once: nothing with a value is left in the
storage it releases. -/
theorem C08_array_of_arrays_free (c : Cfg) {a : AoA T} {L : List (List T × Nat)} (h : Reach c a L) :
    ∃ a', a.free c = .ok a' ∧ a'.values.lostLive = 0 ∧ a'.values.cap = 0 := by
  obtain ⟨b, h1, h2, _⟩ := (reach_good h).weak.destroyAll (c := c)
  refine ⟨_, by rw [AoA.free, h1, bind_ok], ?_, ?_⟩
  · have hz : ∀ n, b.countL c n = 0 := by
      intro n
      induction n with
      | zero => rfl
      | succ n ih => simp [Buf.countL, ih, h2.cell, cells, Cell.lostL]
    simp [Buf.release, h2.kind, h2.lost, hz]
  · simp [Buf.release, h2.kind]

/-! ### C32: building from capacities -/

/-- **C32.** `resizeFromCapacities` yields empty arrays with exactly the given capacities, whatever was there before. -/
theorem C32_resizeFromCapacities (c : Cfg) {a : AoA T} {L : List (List T × Nat)} (h : Reach c a L) (cs : List Nat) :
    ∃ a', a.resizeFromCapacities c cs = .ok a' ∧ Shows c a' (List.replicate cs.length []) ∧ Capacities c a' cs ∧
      a'.values.lostLive = 0 := by
  obtain ⟨a', h1, h2, _⟩ := (reach_good h).weak.resizeFromCapacities (c := c) cs
  refine ⟨a', h1, ?_, ?_, h2.lay.lost⟩
  · have := shows_of_good (c := c) h2
    simpa [Function.comp_def, List.map_const'] using this
  · have := capacities_of_good (c := c) h2
    simpa [Function.comp_def] using this

/-! ### C47: views report insufficient capacity -/

section
omit [Inhabited T]

theorem eval_ok {σ α : Type} {r : R α} {x : α} (h : r = .ok x) (s : σ) : (Prog.eval r : Prog σ α) s = .ok x s := by
  subst h; rfl

theorem eval_error {σ α : Type} {r : R α} {e : Err} (h : r = .error e) (s : σ) :
    (Prog.eval r : Prog σ α) s = .error e s := by
  subst h; rfl

theorem prog_bind {σ α β : Type} (p : Prog σ α) (f : α → Prog σ β) (s : σ) :
    (p >>= f) s = match p s with | .ok x s' => f x s' | .error e s' => .error e s' := by
  show EStateM.bind p f s = _
  unfold EStateM.bind
  cases p s <;> rfl

/-- The stateful programs compute what the functions of `AoA.lean` compute. -/
theorem C47_agrees [Inhabited T] (c : Cfg) (a : AoA T) (i j : Nat) (v : T) (vs : List T) :
    (AoA.emplaceBackP c i v).final a = a.viewEmplaceBack c i v ∧ (AoA.emplaceP c i j v).final a = a.viewEmplace c i j v ∧
    (AoA.insertIntoArrayP c i j vs).final a = a.viewInsertIntoArray c i j vs ∧
    (AoA.appendToArrayP c i vs).final a = a.viewAppendToArray c i vs := by
  refine ⟨?_, ?_, ?_, ?_⟩
  · unfold Prog.final AoA.emplaceBackP AoA.viewEmplaceBack
    simp only [prog_bind, EStateM.get, Prog.eval, AoA.putValues, AoA.putSize]
    cases a.shape.checkBounds c i <;> simp only [bind_err, bind_ok]
    cases a.shape.capacityCheck c i 1 <;> simp only [bind_err, bind_ok]
    cases a.ptr i <;> simp only [bind_err, bind_ok]
    cases a.shape.sizeOfArray c i <;> simp only [bind_err, bind_ok]
    rename_i p n
    cases arrayManipulation.emplaceBack c a.values p n v <;> simp only [bind_err, bind_ok]
    cases a.shape.setSize c i (n + 1) <;> simp only [bind_err, bind_ok]
  · unfold Prog.final AoA.emplaceP AoA.viewEmplace
    simp only [prog_bind, EStateM.get, Prog.eval, AoA.putValues, AoA.putSize]
    cases a.shape.checkInsertBounds2 c i j <;> simp only [bind_err, bind_ok]
    cases a.shape.capacityCheck c i 1 <;> simp only [bind_err, bind_ok]
    cases a.ptr i <;> simp only [bind_err, bind_ok]
    cases a.shape.sizeOfArray c i <;> simp only [bind_err, bind_ok]
    rename_i p n
    cases arrayManipulation.emplace c a.values p n j v <;> simp only [bind_err, bind_ok]
    cases a.shape.setSize c i (n + 1) <;> simp only [bind_err, bind_ok]
  · unfold Prog.final AoA.insertIntoArrayP AoA.viewInsertIntoArray
    simp only [prog_bind, EStateM.get, Prog.eval, AoA.putValues, AoA.putSize]
    cases a.shape.checkInsertBounds2 c i j <;> simp only [bind_err, bind_ok]
    cases a.shape.capacityCheck c i vs.length <;> simp only [bind_err, bind_ok]
    cases a.ptr i <;> simp only [bind_err, bind_ok]
    cases a.shape.sizeOfArray c i <;> simp only [bind_err, bind_ok]
    rename_i p n
    cases arrayManipulation.insert c a.values p n j vs <;> simp only [bind_err, bind_ok]
    cases a.shape.setSize c i (n + vs.length) <;> simp only [bind_err, bind_ok]
  · unfold Prog.final AoA.appendToArrayP AoA.viewAppendToArray
    simp only [prog_bind, EStateM.get, Prog.eval, AoA.putValues, AoA.putSize]
    cases a.shape.checkBounds c i <;> simp only [bind_err, bind_ok]
    cases a.ptr i <;> simp only [bind_err, bind_ok]
    cases a.shape.sizeOfArray c i <;> simp only [bind_err, bind_ok]
    rename_i p n
    cases arrayManipulation.append c a.values p n vs <;> simp only [bind_err, bind_ok]
    cases a.shape.capacityCheck c i vs.length <;> simp only [bind_err, bind_ok]
    cases a.shape.setSize c i (n + vs.length) <;> simp only [bind_err, bind_ok]

end

/-- **C47, partial.** In a build with bounds checks `emplaceBack`, `emplace` and `insertIntoArray` on a view report an array
that is too full before they change anything. Missing: `appendToArray`, which does not (`C47_append_writes_first`). -/
theorem C47_checked_before_writing_partial (c : Cfg) (hb : c.boundsCheck = true) {a : AoA T} {L : List (List T × Nat)}
    (h : Reach c a L) (i : Nat) (hi : i < L.length) (j : Nat) (hj : j ≤ L[i].1.length) (v : T) (vs : List T) :
    (L[i].2 < L[i].1.length + 1 → AoA.emplaceBackP c i v a = .error .abort a) ∧
    (L[i].2 < L[i].1.length + 1 → AoA.emplaceP c i j v a = .error .abort a) ∧
    (L[i].2 < L[i].1.length + vs.length → AoA.insertIntoArrayP c i j vs a = .error .abort a) := by
  have hg := reach_good h
  have cap : ∀ k, L[i].2 < L[i].1.length + k → a.shape.capacityCheck c i k = .error .abort := fun k hk =>
    ShGood.capacityCheck_abort hg.shape hb (by simpa using hi) (by simpa [caps, szs] using hk)
  have b1 : a.shape.checkBounds c i = .ok () := hg.checkBounds hi
  have b2 : a.shape.checkInsertBounds2 c i j = .ok () :=
    ShGood.checkInsertBounds2 hg.shape (by simpa using hi) (by simpa [szs] using hj)
  refine ⟨fun hk => ?_, fun hk => ?_, fun hk => ?_⟩
  · simp only [AoA.emplaceBackP, prog_bind, EStateM.get, Prog.eval, b1, cap 1 hk]
  · simp only [AoA.emplaceP, prog_bind, EStateM.get, Prog.eval, b2, cap 1 hk]
  · simp only [AoA.insertIntoArrayP, prog_bind, EStateM.get, Prog.eval, b2, cap _ hk]

/-- The hypotheses of `C47_checked_before_writing_partial`: an array that is full. -/
example (b d : Bool) : ∃ a : AoA Nat, Reach ⟨b, true, d⟩ a [([], 0), ([], 0)] := by
  obtain ⟨x, hx, _⟩ := mk_good (T := Nat) ⟨b, true, d⟩ 2 0
  exact ⟨x, 2, 0, [], x, fun _ _ hm => by simp at hm, hx, rfl, by decide⟩

/-- The same with elements before the full array. -/
example (c : Cfg) (ht : c.trivial = true) : ∃ a, Reach (T := Nat) c a [([1, 2], 2), ([3], 4)] := by
  obtain ⟨a, h⟩ := reach_of_history (T := Nat) c ht 0 0
    [.appendArray [1, 2], .setCapacityOfArray 0 2, .appendArray [3], .setCapacityOfArray 1 4]
    (fun _ op hop => by
      simp only [List.mem_cons, List.not_mem_nil, or_false] at hop
      rcases hop with rfl | rfl | rfl | rfl <;> simp [AoAOp.nonEmptyInsert])
    (L := [([1, 2], 2), ([3], 4)]) (by decide)
  exact ⟨a, h⟩

/-- **C47, disagreement.** `view.appendToArray( 0, { 8, 9 } )` on `{ { }, { 5 } }` with capacity 1 for array 0 reports the error
after it has overwritten the element of array 1. -/
theorem C47_append_writes_first :
    (match AoA.mk' { trivial := true, boundsCheck := true, debug := false } 2 1 >>= fun a =>
        AoA.run { trivial := true, boundsCheck := true, debug := false } (a : AoA Nat) [.emplaceBack 1 5] with
      | .ok a =>
        match AoA.appendToArrayP { trivial := true, boundsCheck := true, debug := false } 0 [8, 9] a with
        | .error e a' => some (e, a.get { trivial := true, boundsCheck := true, debug := false } 1 0,
            a'.get { trivial := true, boundsCheck := true, debug := false } 1 0)
        | .ok _ _ => none
      | .error _ => none) = some (.abort, .ok 5, .ok 9) := by
  decide +kernel

/-! ### C49: the reported capacity -/

/-- **C49, disagreement.** After three `appendArray` on a default-constructed object, `capacity()` fails its own assertion in a
debug build; otherwise it reports 6, although the fourth `appendArray` reallocates. -/
theorem C49_capacity_wrong :
    (AoA.mk' { trivial := true, boundsCheck := true, debug := true } 0 0 >>= fun a =>
      AoA.run { trivial := true, boundsCheck := true, debug := true } (a : AoA Nat)
        [.appendArraySize 0, .appendArraySize 0, .appendArraySize 0] >>= fun a =>
      a.capacity { trivial := true, boundsCheck := true, debug := true }) = .error .abort ∧
    (AoA.mk' { trivial := true, boundsCheck := true, debug := false } 0 0 >>= fun a =>
      AoA.run { trivial := true, boundsCheck := true, debug := false } (a : AoA Nat)
        [.appendArraySize 0, .appendArraySize 0, .appendArraySize 0] >>= fun a =>
      a.capacity { trivial := true, boundsCheck := true, debug := false } >>= fun n =>
      a.appendArraySize { trivial := true, boundsCheck := true, debug := false } 0 >>= fun a' =>
      .ok (n, a.shape.offsets.cap, a'.shape.offsets.cap)) = .ok (6, 4, 10) := by
  decide +kernel

/-- **C49, partial.** If the offsets have more room than the sizes, `capacity()` succeeds and appending an empty array to an
object with fewer arrays allocates nothing. Missing: that hypothesis, which `appendArray` breaks (`C49_capacity_wrong`). -/
theorem C49_capacity_partial (c : Cfg) {a : AoA T} {L : List (List T × Nat)} (h : Reach c a L)
    (hc : a.shape.sizes.cap < a.shape.offsets.cap) (hn : a.shape.numArrays < a.shape.sizes.cap) :
    a.capacity c = .ok a.shape.sizes.cap ∧
    ∃ a', a.appendArraySize c 0 = .ok a' ∧ a'.shape.sizes.cap = a.shape.sizes.cap ∧
      a'.shape.offsets.cap = a.shape.offsets.cap ∧ a'.values.cap = a.values.cap := by
  have hg := reach_good h
  have hnum : a.shape.numArrays = L.length := hg.shape.num
  refine ⟨by simp [AoA.capacity, errorIf, hc], ?_⟩
  obtain ⟨s1, h1, h2, h3⟩ := hg.appendRow (c := c)
  have hcaps : s1.sizes.cap = a.shape.sizes.cap ∧ s1.offsets.cap = a.shape.offsets.cap := by
    have hread : a.shape.offsets.read a.shape.numArrays = .ok (total L) := ShGood.readLast hg.shape
    have e1 := bufferManipulation.emplaceBack_rep c.ix (ShGood.off hg.shape).1 (total L) ((ShGood.off hg.shape).room _)
    have e2 := bufferManipulation.emplaceBack_rep c.ix (ShGood.siz hg.shape).1 0 ((ShGood.siz hg.shape).room _)
    simp only [offs_length, caps_length, szs_length] at e1 e2
    unfold Shape.appendRow at h1
    rw [hread, bind_ok, hnum, e1, bind_ok, e2, bind_ok] at h1
    cases h1
    unfold Buf.grownCap
    simp only
    rw [if_neg (by omega), if_neg (by omega)]
    exact ⟨rfl, rfl⟩
  unfold AoA.appendArraySize AoA.resizeArray AoA.growIf
  rw [h1, bind_ok, h2, Nat.add_sub_cancel]
  have hcb := h3.checkBounds (c := c) (i := L.length) (by simp)
  have hca := h3.shape.capacityOfAt (c := c) (i := L.length) rfl
  have hsz := h3.shape.sizeOfAt (c := c) (i := L.length) rfl
  have hpt := h3.ptr
  simp only at hca hsz hcb
  rw [hcb, bind_ok, hca, bind_ok]
  simp only [Nat.lt_irrefl, decide_false, Bool.false_eq_true, if_false, bind_ok]
  rw [hsz, bind_ok, hcb, bind_ok, hpt, bind_ok]
  obtain ⟨s2, h4, _⟩ := AGood.setSizeAt (c := c) h3.shape ([] : List T)
  have hres : ∀ p, arrayManipulation.resize c a.values p ([] : List T).length 0 default = .ok a.values := by
    intro p
    simp [arrayManipulation.resize, arrayManipulation.destroy, arrayManipulation.constructRange, forUp]
  rw [hres, bind_ok]
  rw [show ([] : List T).length = 0 from rfl] at h4
  rw [h4, bind_ok]
  refine ⟨_, rfl, ?_, ?_, rfl⟩
  · unfold Shape.setSize at h4
    cases hw : s1.sizes.write c.ix L.length 0 with
    | error e => simp only [hw, bind_err] at h4; cases h4
    | ok z =>
      simp only [hw, bind_ok] at h4
      cases h4
      unfold Buf.write at hw
      split at hw
      · split at hw
        · cases hw
        · cases hw; exact hcaps.1
      · cases hw
  · unfold Shape.setSize at h4
    cases hw : s1.sizes.write c.ix L.length 0 with
    | error e => simp only [hw, bind_err] at h4; cases h4
    | ok z =>
      simp only [hw, bind_ok] at h4
      cases h4
      exact hcaps.2

example : (AoA.mk' { trivial := true, boundsCheck := true, debug := true } 2 3 >>= fun a =>
    AoA.run { trivial := true, boundsCheck := true, debug := true } (a : AoA Nat) [.reserve 5] >>= fun a =>
    .ok (a.shape.numArrays, a.shape.sizes.cap, a.shape.offsets.cap)) = .ok (2, 5, 6) := by
  decide +kernel

end LvArray.Props
