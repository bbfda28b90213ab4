import Verif.CountedMeshLemmas
import Verif.Props.Mesh
import Verif.Props.Costs

/-!
# C75: preallocation makes the construction of the node to element map linear

docs/sphinx/ArrayOfArrays.rst 180-214 compares three constructions of the map from the nodes of a mesh to their elements: without
preallocation it is O( N * N ), with preallocation O( N ).
-/

namespace LvArray.Props

open LvArray.Spec LvArray.Concurrent LvArray.Counted

/-- The number of entries of the element to node map: how often elements name nodes. -/
def incidences (mesh : Spec.Mesh) : Nat := (mesh.map List.length).sum

theorem sumOfCapacities_total {T : Type} (L : List (List T × Nat)) : Layout.total L = sumOfCapacities L := rfl

/-- **C75 (`resize`).** Changing the number of arrays takes time linear in the numbers of arrays before and after and the sum of the capacities
before, whatever capacity the new arrays get. -/
theorem C75_resize {T : Type} [Inhabited T] (c : Cfg) {a : AoA T} {L : List (List T × Nat)} (h : Reach c a L) (n defaultCapacity : Nat) :
    CostsAtMost (Counted.AoA.resize c a n defaultCapacity) (a.resize c n defaultCapacity)
      (6 + 8 * L.length + 3 * n + 2 * sumOfCapacities L) :=
  costs_aoaResize (reach_good h) n defaultCapacity

/-- **C75 (`resizeFromCapacities`).** As `resize`, whatever the capacities. -/
theorem C75_resizeFromCapacities {T : Type} [Inhabited T] (c : Cfg) {a : AoA T} {L : List (List T × Nat)} (h : Reach c a L)
    (capacities : List Nat) :
    CostsAtMost (Counted.AoA.resizeFromCapacities c a capacities) (a.resizeFromCapacities c capacities)
      (5 + 8 * L.length + sumOfCapacities L + 2 * capacities.length) :=
  costs_aoaFromCapacities (reach_good h) capacities

/-- **C75 (over allocation).** Building the map with a bound on the number of elements of a node takes time linear in the number of nodes and
the number of entries of the element to node map, for every order in which the threads take their turns and whatever the bound. -/
theorem C75_map_with_bound (c : Cfg) {a : AoA Nat} {L : List (List Nat × Nat)} (h : Reach c a L) (mesh : Spec.Mesh)
    (numNodes maxNodeElements : Nat) (sched : List Nat) :
    CostsAtMost (Counted.Mesh.overAllocation c a mesh numNodes maxNodeElements sched)
      (LvArray.Mesh.overAllocation c a mesh numNodes maxNodeElements sched)
      (6 + 8 * L.length + 2 * sumOfCapacities L + 3 * numNodes + 6 * incidences mesh) :=
  (Counted.Mesh.costs_overAllocation (reach_good h) mesh numNodes maxNodeElements sched).weaken (Nat.le_refl _)
    (by rw [sumOfCapacities_total]; unfold incidences; omega)

/-- **C75 (counting first).** So does building it with the exact capacities, the counting included. -/
theorem C75_map_with_counts (c : Cfg) {a : AoA Nat} {L : List (List Nat × Nat)} (h : Reach c a L) (mesh : Spec.Mesh)
    (numNodes : Nat) (sched₁ sched₂ : List Nat) :
    CostsAtMost (Counted.Mesh.resizeFromCapacities c a mesh numNodes sched₁ sched₂)
      (LvArray.Mesh.resizeFromCapacities c a mesh numNodes sched₁ sched₂)
      (5 + 8 * L.length + sumOfCapacities L + 4 * numNodes + 8 * incidences mesh) :=
  (Counted.Mesh.costs_resizeFromCapacities (reach_good h) mesh numNodes sched₁ sched₂).weaken (Nat.le_refl _)
    (by rw [sumOfCapacities_total]; unfold incidences; omega)

/-- **C75 (without preallocation).** Without preallocation it takes at most time proportional to the number of entries of the element to node
map times the number of nodes and of entries. -/
theorem C75_map_without_capacities (c : Cfg) {a : AoA Nat} {L : List (List Nat × Nat)} (h : Reach c a L) (mesh : Spec.Mesh)
    (numNodes : Nat) (hm : OnNodes mesh numNodes) :
    CostsAtMost (Counted.Mesh.naive c a mesh numNodes) (LvArray.Mesh.naive c a mesh numNodes)
      (6 + 8 * L.length + 2 * sumOfCapacities L + 3 * numNodes +
        incidences mesh * (16 + 4 * numNodes + 8 * sumOfCapacities L + 8 * incidences mesh)) := by
  refine (Counted.Mesh.costs_naive (reach_good h) mesh numNodes hm).weaken (Nat.le_refl _) ?_
  rw [sumOfCapacities_total]
  unfold incidences
  have e : 16 + 4 * numNodes + 4 * (2 * sumOfCapacities L + 2 * (mesh.map List.length).sum) =
    16 + 4 * numNodes + 8 * sumOfCapacities L + 8 * (mesh.map List.length).sum := by omega
  rw [e]
  omega

/-- **C75 (and it does take that long).** There are meshes with `n` nodes and `n` elements of one node each for which, without preallocation,
building the map takes at least `n ( n + 1 )` accesses to elements. -/
theorem C75_without_capacities_quadratic (c : Cfg) (ht : c.trivial = true) (n : Nat) :
    ∃ (mesh : Spec.Mesh) (a0 a : AoA Nat) (k : Nat), OnNodes mesh n ∧ mesh.length = n ∧ incidences mesh = n ∧
      AoA.mk' c 0 0 = .ok a0 ∧ Counted.Mesh.naive c a0 mesh n 0 = .ok (a, k) ∧
      Shows c a ((List.range n).map (elementsOf mesh)) ∧ n * (n + 1) ≤ k := by
  have hm : OnNodes (Counted.Mesh.points n) n := by
    intro nodes h m hm
    simp only [Counted.Mesh.points, List.mem_map, List.mem_range] at h
    obtain ⟨e, he, rfl⟩ := h
    simp at hm; omega
  obtain ⟨a0, a, h1, h2, h3⟩ := C70_naive c ht (Counted.Mesh.points n) n hm
  obtain ⟨a1, h4, h5⟩ := mk_good (T := Nat) c 0 0
  rw [h1] at h4
  cases h4
  obtain ⟨k, hk, _, h6⟩ := (Counted.Mesh.costs_points (c := c) (by simpa using h5) n).returns 0 a h2
  refine ⟨Counted.Mesh.points n, a0, a, k, hm, by simp [Counted.Mesh.points], ?_, h1, by simpa using h6, h3, hk⟩
  have : ∀ l : List Nat, ((l.map fun e => [e]).map List.length).sum = l.length := by
    intro l
    induction l with
    | nil => rfl
    | cons x l ih => simp only [List.map_cons, List.sum_cons, ih, List.length_cons, List.length_nil]; omega
  unfold incidences Counted.Mesh.points
  rw [this, List.length_range]

/-- **C75 (no linear bound without preallocation).** -/
theorem C75_without_capacities_not_linear (c : Cfg) (ht : c.trivial = true) :
    ¬ ∃ K, ∀ (a : AoA Nat) (mesh : Spec.Mesh) (numNodes : Nat), AoA.mk' c 0 0 = .ok a → OnNodes mesh numNodes →
      CostsAtMost (Counted.Mesh.naive c a mesh numNodes) (LvArray.Mesh.naive c a mesh numNodes)
        (K * (numNodes + incidences mesh + 1)) := by
  rintro ⟨K, hK⟩
  obtain ⟨mesh, a0, a, k, hm, _, hi, h0, hr, _, hk⟩ := C75_without_capacities_quadratic c ht (2 * K + 1)
  have h := hK a0 mesh (2 * K + 1) h0 hm
  cases hx : LvArray.Mesh.naive c a0 mesh (2 * K + 1) with
  | error e => rw [h.fails 0 e hx] at hr; cases hr
  | ok a' =>
    obtain ⟨j, _, hj, h1⟩ := h.returns 0 a' hx
    rw [hr] at h1
    cases h1
    rw [hi] at hj
    have e1 : (2 * K + 1) * (2 * K + 1 + 1) = 4 * (K * K) + 6 * K + 2 := by
      simp only [Nat.add_mul, Nat.mul_add, Nat.mul_assoc, Nat.mul_left_comm K 2]
      omega
    have e2 : K * (2 * K + 1 + (2 * K + 1) + 1) = 4 * (K * K) + 3 * K := by
      simp only [Nat.mul_add, Nat.mul_left_comm K 2]
      omega
    omega

/-- Every check is on. -/
def costChecked : Cfg := { trivial := true, debug := false, boundsCheck := true }

/-- Three arrays with three, zero and one elements: fewer arrays, more arrays, other capacities. -/
example : ((AoA.mk' costChecked 3 1 : R (AoA Nat)) >>= fun a =>
      AoA.run costChecked a [.appendToArray 0 [1, 2, 3], .emplaceBack 2 7]).toOption.map (fun a =>
    (countOf (Counted.AoA.resize costChecked a 1 0), countOf (Counted.AoA.resize costChecked a 5 2),
     countOf (Counted.AoA.resizeFromCapacities costChecked a [1, 5, 0, 3, 3, 3, 3]))) = some (some 9, some 23, some 47) := by
  decide +kernel

/-- The triangles of C70 without and with preallocation, in turns. -/
example : ((AoA.mk' costRelease 0 0 : R (AoA Nat))).toOption.map (fun a =>
    (countOf (Counted.Mesh.naive costRelease a triangles 6),
     countOf (Counted.Mesh.overAllocation costRelease a triangles 6 3 ((List.replicate 12 [0, 1, 2]).flatten)),
     countOf (Counted.Mesh.resizeFromCapacities costRelease a triangles 6 [2, 2, 2, 0, 1, 0, 1, 1, 0]
       ((List.replicate 12 [0, 1, 2]).flatten)))) = some (some 212, some 57, some 81) := by decide +kernel

/-- Twenty points: the cost without preallocation has overtaken the other. -/
example : ((AoA.mk' costRelease 0 0 : R (AoA Nat))).toOption.map (fun a =>
    (countOf (Counted.Mesh.naive costRelease a (Counted.Mesh.points 20) 20),
     countOf (Counted.Mesh.overAllocation costRelease a (Counted.Mesh.points 20) 20 1 ((List.replicate 4 (List.range 20)).flatten)))) =
    some (some 1129, some 143) := by decide +kernel

end LvArray.Props
