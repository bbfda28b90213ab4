import Verif.Props.ArrayOfArrays
/-!
# C49: how many arrays fit without reallocation, exactly
-/

namespace LvArray.Props

open LvArray Layout

set_option linter.unusedSectionVars false

variable {T : Type} [Inhabited T]

/-- The three allocations are the ones there were: a buffer changes its capacity whenever it is reallocated
(/repo/src/bufferManipulation.hpp 236, 257 reallocate only to a larger capacity). -/
def SameStorage (a a' : AoA T) : Prop :=
  a'.shape.sizes.cap = a.shape.sizes.cap ∧ a'.shape.offsets.cap = a.shape.offsets.cap ∧ a'.values.cap = a.values.cap

/-- The number of arrays the object can have before the next empty one needs an allocation. -/
def fitting (a : AoA T) : Nat := min a.shape.sizes.cap (a.shape.offsets.cap - 1)

/-- Appending one empty array: exact capacities. -/
theorem appendEmpty_caps (c : Cfg) {a : AoA T} {L : Layout T} (hg : AGood a L) :
    ∃ a', a.appendArraySize c 0 = .ok a' ∧ AGood a' (L ++ [([], 0)]) ∧ a'.values.cap = a.values.cap ∧
      a'.shape.sizes.cap = a.shape.sizes.grownCap (L.length + 1) ∧
      a'.shape.offsets.cap = a.shape.offsets.grownCap (L.length + 2) := by
  have hnum : a.shape.numArrays = L.length := hg.shape.num
  obtain ⟨s1, h1, h2, h3⟩ := hg.appendRow (c := c)
  have hcaps : s1.sizes.cap = a.shape.sizes.grownCap (L.length + 1) ∧ s1.offsets.cap = a.shape.offsets.grownCap (L.length + 2) := by
    have hread : a.shape.offsets.read a.shape.numArrays = .ok (total L) := ShGood.readLast hg.shape
    have e1 := bufferManipulation.emplaceBack_rep c.ix (ShGood.off hg.shape).1 (total L) ((ShGood.off hg.shape).room _)
    have e2 := bufferManipulation.emplaceBack_rep c.ix (ShGood.siz hg.shape).1 0 ((ShGood.siz hg.shape).room _)
    simp only [offs_length, caps_length, szs_length] at e1 e2
    unfold Shape.appendRow at h1
    rw [hread, bind_ok, hnum, e1, bind_ok, e2, bind_ok] at h1
    cases h1
    exact ⟨rfl, rfl⟩
  have hpost : ∀ a', a.appendArraySize c 0 = .ok a' → AGood a' (L ++ [([], 0)]) := by
    intro a' e
    rcases hg.appendArraySize (c := c) 0 with ⟨_, b, e', g, _⟩ | ⟨_, e'⟩
    · rw [e] at e'; cases e'; exact g
    · rw [e] at e'; cases e'
  have key : ∃ a', a.appendArraySize c 0 = .ok a' ∧ a'.values.cap = a.values.cap ∧
      a'.shape.sizes.cap = s1.sizes.cap ∧ a'.shape.offsets.cap = s1.offsets.cap := by
    unfold AoA.appendArraySize AoA.resizeArray AoA.growIf
    rw [h1, bind_ok, h2, Nat.add_sub_cancel]
    have hcb := h3.checkBounds (c := c) (i := L.length) (by simp)
    have hca := h3.shape.capacityOfAt (c := c) (i := L.length) rfl
    have hsz := h3.shape.sizeOfAt (c := c) (i := L.length) rfl
    have hpt := h3.ptr
    simp only at hca hsz hcb
    rw [hcb, bind_ok, hca, bind_ok]
    simp only [Nat.lt_irrefl, decide_false, Bool.false_eq_true, if_false, bind_ok]
    rw [hsz, bind_ok, hcb, bind_ok, hpt, bind_ok]
    obtain ⟨s2, h4, _⟩ := AGood.setSizeAt (c := c) h3.shape ([] : List T)
    have hres : ∀ p, arrayManipulation.resize c a.values p ([] : List T).length 0 default = .ok a.values := by
      intro p
      simp [arrayManipulation.resize, arrayManipulation.destroy, arrayManipulation.constructRange, forUp]
    rw [hres, bind_ok]
    rw [show ([] : List T).length = 0 from rfl] at h4
    rw [h4, bind_ok]
    refine ⟨_, rfl, rfl, ?_⟩
    unfold Shape.setSize at h4
    cases hw : s1.sizes.write c.ix L.length 0 with
    | error e => simp only [hw, bind_err] at h4; cases h4
    | ok z =>
      simp only [hw, bind_ok] at h4
      cases h4
      unfold Buf.write at hw
      split at hw
      · split at hw
        · cases hw
        · cases hw; exact ⟨rfl, rfl⟩
      · cases hw
  obtain ⟨a', e, k1, k2, k3⟩ := key
  exact ⟨a', e, hpost a' e, k1, by rw [k2, hcaps.1], by rw [k3, hcaps.2]⟩

/-- Appending `k` empty arrays. -/
theorem appendEmpties (c : Cfg) (k : Nat) {a : AoA T} {L : Layout T} (hg : AGood a L) :
    ∃ a', AoA.run c a (List.replicate k (.appendArraySize 0)) = .ok a' ∧ AGood a' (L ++ List.replicate k ([], 0)) ∧
      a'.values.cap = a.values.cap ∧
      a.shape.sizes.cap ≤ a'.shape.sizes.cap ∧ a.shape.offsets.cap ≤ a'.shape.offsets.cap ∧
      (L.length + k ≤ fitting a → SameStorage a a') ∧
      (0 < k → fitting a < L.length + k → ¬ SameStorage a a') := by
  have hnum : ∀ {a : AoA T} {L : Layout T}, AGood a L → L.length ≤ a.shape.sizes.cap ∧ L.length + 1 ≤ a.shape.offsets.cap := by
    intro a L g
    have h1 := (ShGood.off g.shape).1.2
    have h2 := (ShGood.siz g.shape).1.2
    simp only [offs_length, caps_length, szs_length] at h1 h2
    omega
  induction k generalizing a L with
  | zero => exact ⟨a, rfl, by simpa using hg, rfl, Nat.le_refl _, Nat.le_refl _, fun _ => ⟨rfl, rfl, rfl⟩, fun h => absurd h (by omega)⟩
  | succ k ih =>
    obtain ⟨a1, e1, g1, v1, s1, o1⟩ := appendEmpty_caps c hg
    obtain ⟨a2, e2, g2, v2, m1, m2, p2, q2⟩ := ih g1
    have hb := hnum hg
    have hs1 : a1.shape.sizes.cap = if a.shape.sizes.cap < L.length + 1 then 2 * (L.length + 1) else a.shape.sizes.cap := by
      rw [s1]; rfl
    have ho1 : a1.shape.offsets.cap = if a.shape.offsets.cap < L.length + 2 then 2 * (L.length + 2) else a.shape.offsets.cap := by
      rw [o1]; rfl
    have hlen : (L ++ [(([] : List T), 0)]).length = L.length + 1 := by simp
    rw [hlen] at p2 q2
    refine ⟨a2, ?_, ?_, by rw [v2, v1], ?_, ?_, ?_, ?_⟩
    · show (a.step c (.appendArraySize 0) >>= fun a => AoA.run c a _) = _
      rw [show a.step c (.appendArraySize 0) = a.appendArraySize c 0 from rfl, e1, bind_ok, e2]
    · simpa [List.replicate_succ, List.append_assoc] using g2
    · split at hs1 <;> omega
    · split at ho1 <;> omega
    · intro hf
      unfold fitting at hf p2
      rw [if_neg (by omega)] at hs1 ho1
      obtain ⟨r1, r2, r3⟩ := p2 (by omega)
      exact ⟨by omega, by omega, by omega⟩
    · intro _ hf ⟨r1, r2, r3⟩
      unfold fitting at hf q2
      by_cases hk : k = 0
      · subst hk
        cases e2
        split at hs1 <;> split at ho1 <;> omega
      · by_cases hgr : a1.shape.sizes.cap = a.shape.sizes.cap ∧ a1.shape.offsets.cap = a.shape.offsets.cap
        · refine q2 (by omega) (by omega) ⟨by omega, by omega, by omega⟩
        · split at hs1 <;> split at ho1 <;> omega

/-- **C49, exactly.** In every reachable state the number of arrays that fit without any reallocation is the smaller of the room for
sizes and one less than the room for offsets: `k` further empty arrays can be appended, and none of this allocates if and only if there
are at most that many arrays in the end.  `capacity()` reports that number if and only if the offsets have more room than the sizes;
if not it fails its assertion in debug builds and otherwise reports too much. -/
theorem C49_capacity_exact_partial (c : Cfg) {a : AoA T} {L : List (List T × Nat)} (h : Reach c a L) :
    (∀ k, 0 < k → ∃ a', AoA.run c a (List.replicate k (.appendArraySize 0)) = .ok a' ∧
      (SameStorage a a' ↔ L.length + k ≤ fitting a)) ∧
    (a.shape.sizes.cap < a.shape.offsets.cap → a.capacity c = .ok (fitting a)) ∧
    (¬ a.shape.sizes.cap < a.shape.offsets.cap → a.capacity c = .error .abort ∨
      ∃ n, a.capacity c = .ok n ∧ fitting a < n) := by
  have hg := reach_good h
  refine ⟨fun k hk => ?_, fun hc => ?_, fun hc => ?_⟩
  · obtain ⟨a', e, _, _, _, _, p, q⟩ := appendEmpties c k hg
    refine ⟨a', e, fun hs => ?_, p⟩
    rcases Nat.lt_or_ge (fitting a) (L.length + k) with hlt | hge
    · exact absurd hs (q hk hlt)
    · exact hge
  · unfold fitting
    simp only [AoA.capacity, errorIf, hc, decide_true, Bool.not_true, Bool.and_false, Bool.false_eq_true, if_false, bind_ok,
      Except.ok.injEq]
    omega
  · by_cases hd : c.debug = true
    · left; simp [AoA.capacity, errorIf, hc, hd]
    · right
      have h1 := (ShGood.off hg.shape).1.2
      simp only [offs_length, caps_length] at h1
      refine ⟨a.shape.sizes.cap, by simp [AoA.capacity, errorIf, hd], ?_⟩
      unfold fitting
      omega

/-- **C49, reserve.** In every reachable state, after `reserve( n )` empty arrays can be appended until there are `n` without any
reallocation. -/
theorem C49_reserved_arrays (c : Cfg) {a : AoA T} {L : List (List T × Nat)} (h : Reach c a L) (n k : Nat) (hk : L.length + k ≤ n) :
    ∃ a1 a2, a.reserve c n = .ok a1 ∧ AoA.run c a1 (List.replicate k (.appendArraySize 0)) = .ok a2 ∧ SameStorage a1 a2 := by
  have hg := reach_good h
  obtain ⟨a1, e, g1, _⟩ := hg.reserve (c := c) n
  obtain ⟨a2, e2, _, _, _, _, p, _⟩ := appendEmpties c k g1
  refine ⟨a1, a2, e, e2, p ?_⟩
  have hnum : a.shape.numArrays = L.length := hg.shape.num
  have e3 := bufferManipulation.reserve_rep c.ix (ShGood.off hg.shape).1 (n + 1) ((ShGood.off hg.shape).room _)
  have e4 := bufferManipulation.reserve_rep c.ix (ShGood.siz hg.shape).1 n ((ShGood.siz hg.shape).room _)
  simp only [offs_length, caps_length, szs_length] at e3 e4
  unfold AoA.reserve Shape.reserve at e
  simp only [hnum, e3, e4, bind_ok, Except.ok.injEq] at e
  subst e
  unfold fitting
  simp only
  omega

/-- Both cases of the exact statement occur: after `reserve( 5 )` five arrays fit; after three appends only three. -/
example :
    (AoA.mk' { trivial := true, boundsCheck := true, debug := false } 2 3 >>= fun a =>
      AoA.run { trivial := true, boundsCheck := true, debug := false } (a : AoA Nat) [.reserve 5] >>= fun a =>
      a.capacity { trivial := true, boundsCheck := true, debug := false } >>= fun n => .ok (fitting a, n)) = .ok (5, 5) ∧
    (AoA.mk' { trivial := true, boundsCheck := true, debug := false } 0 0 >>= fun a =>
      AoA.run { trivial := true, boundsCheck := true, debug := false } (a : AoA Nat)
        [.appendArraySize 0, .appendArraySize 0, .appendArraySize 0] >>= fun a =>
      a.capacity { trivial := true, boundsCheck := true, debug := false } >>= fun n => .ok (fitting a, n)) = .ok (3, 6) := by
  decide +kernel

end LvArray.Props
