import Verif.OwnSetsLemmas
import Verif.Props.ArrayOfSets

/-!
# C76: elements of a set as arguments of its own member functions
-/

namespace LvArray.Props

open LvArray Layout Spec sortedArrayManipulation OwnSets

set_option linter.unusedSectionVars false

variable {T : Type} [LinearOrder T] [Inhabited T]

/-- The values an iterator range over a set runs through: `n` values from the one with position `lo` on, in increasing order. -/
def elements (S : Finset T) (lo n : Nat) : List T := ((S.sort (· ≤ ·)).drop lo).take n

theorem elements_sorted (S : Finset T) (lo n : Nat) : (elements S lo n).Pairwise (· < ·) :=
  ((sort_increasing S).sublist (List.drop_sublist _ _)).sublist (List.take_sublist _ _)

theorem elements_subset (S : Finset T) (lo n : Nat) : ∀ v ∈ elements S lo n, v ∈ S := fun v hv => by
  have := List.mem_of_mem_drop (List.mem_of_mem_take hv)
  simpa using this

theorem elements_length {S : Finset T} {lo n : Nat} (h : lo + n ≤ S.card) : (elements S lo n).length = n := by
  unfold elements; simp; omega

/-! ### `SortedArray` -/

/-- What a `SortedArray` shows. -/
def ShowsSorted (c : Cfg) (a : SortedArr T) (S : Finset T) : Prop :=
  a.size = S.card ∧ (∀ (i : Nat) (hi : i < S.card), a.get c i = .ok ((S.sort (· ≤ ·))[i]'(by simpa using hi))) ∧
  ∀ v, a.contains c v = .ok (decide (v ∈ S))

theorem showsSorted_of_good {c : Cfg} {limit : Option Nat} {a : SortedArr T} {S : Finset T} (g : SGood limit a S) :
    ShowsSorted c a S :=
  ⟨g.size, fun i hi => SortedArr.get_good c g i hi, fun v => SortedArr.contains_good c g v⟩

theorem readOwn_sorted (c : Cfg) {limit : Option Nat} {a : SortedArr T} {S : Finset T} (g : SGood limit a S) {k : Nat}
    (hk : k < (S.sort (· ≤ ·)).length) : SortedArr.readOwn c a.buf a.buf k = .ok (S.sort (· ≤ ·))[k] := by
  have hr := SortedArr.read_good g k hk
  unfold SortedArr.readOwn Buf.readStale
  rw [if_neg (by omega)]
  split
  · split <;> exact hr
  · exact hr

/-- **C76 (`SortedArray`).** After any legal history, `insert` and `remove` of a `SortedArray` may be called with its own elements
or with a range of them: they do exactly what they do when called with copies of the values.  So inserting own elements changes
nothing, and removing them removes exactly them, whatever has to be moved to close the gaps. -/
theorem C76_sortedArray (c : Cfg) (limit : Option Nat) (ops : List (SetOp T)) (S : Finset T) (outs : List (SetOut T))
    (h : Spec.setRun limit ∅ ops = some (S, outs)) :
    ∃ a, (SortedArr.init T limit).run c ops = .ok (a, outs) ∧
      (∀ (k : Nat) (hk : k < S.card), ∀ v, v = (S.sort (· ≤ ·))[k]'(by simpa using hk) →
        (a.insertOwn c k = a.insert c v ∧ ∃ a', a.insertOwn c k = .ok (a', false) ∧ ShowsSorted c a' S) ∧
        (a.removeOwn c k = a.remove c v ∧ ∃ a', a.removeOwn c k = .ok (a', true) ∧ ShowsSorted c a' (S.erase v))) ∧
      (∀ lo n, lo + n ≤ S.card →
        (a.insertManyOwn c lo n = a.insertMany c (elements S lo n) ∧
          ∃ a', a.insertManyOwn c lo n = .ok (a', 0) ∧ ShowsSorted c a' S) ∧
        (a.removeManyOwn c lo n = a.removeMany c (elements S lo n) ∧
          ∃ a', a.removeManyOwn c lo n = .ok (a', n) ∧ ShowsSorted c a' (S \ (elements S lo n).toFinset))) := by
  obtain ⟨a, e, g⟩ := set_run_good c limit ops _ ∅ S outs (set_init_good limit) h
  have hsz : a.size = (S.sort (· ≤ ·)).length := by rw [g.size]; simp
  have hread : ∀ i (hi : i < (S.sort (· ≤ ·)).length), (SortedArr.target c a.size).read a.buf i = .ok (S.sort (· ≤ ·))[i] :=
    fun i hi => SortedArr.read_target c g _ i hi
  refine ⟨a, e, fun k hk v hv => ?_, fun lo n hn => ?_⟩
  · have hk' : k < (S.sort (· ≤ ·)).length := by simpa using hk
    have hval := readOwn_sorted c g hk'
    rw [← hv] at hval
    have hmem : v ∈ S := by rw [hv]; exact (Finset.mem_sort (· ≤ ·)).1 (List.getElem_mem hk')
    have hel : SortedArr.element c a k = .ok k := by
      unfold SortedArr.element
      rw [show decide (a.size ≤ k) = false by rw [decide_eq_false_iff_not, hsz]; omega, Bool.and_false]
      rfl
    have e1 : a.insertOwn c k = a.insert c v := by
      unfold SortedArr.insertOwn SortedArr.insert
      rw [hel, bind_ok]
      have := insertOneRef_self c (SortedArr.target c a.size) (parts_sorted c a.size) (fun b => SortedArr.readOwn c a.buf b k)
        (sort_increasing S) a.buf (by simpa using hmem) hread hval
      rw [← hsz] at this
      rw [this]
    have e2 : a.removeOwn c k = a.remove c v := by
      unfold SortedArr.removeOwn SortedArr.remove removeOneRef
      simp only [hel, hval, bind_ok]
    obtain ⟨a1, q1, q2⟩ := SortedArr.insert_good c g v (g.fits _ (by rw [Finset.insert_eq_of_mem hmem]))
    obtain ⟨a2, q3, q4⟩ := SortedArr.remove_good c g v
    rw [Finset.insert_eq_of_mem hmem] at q2
    refine ⟨⟨e1, a1, ?_, showsSorted_of_good q2⟩, e2, a2, ?_, showsSorted_of_good q4⟩
    · rw [e1, q1, decide_eq_false (not_not.2 hmem)]
    · rw [e2, q3, decide_eq_true hmem]
  · have hn' : lo + n ≤ (S.sort (· ≤ ·)).length := by simpa using hn
    have hlen := elements_length hn
    have hval : ∀ k (hk : k < (elements S lo n).length), SortedArr.readOwn c a.buf a.buf (lo + k) = .ok (elements S lo n)[k] := by
      intro k hk
      rw [readOwn_sorted c g (by omega)]
      exact congrArg Except.ok (drop_take_getElem hn' hk).symm
    have e1 : a.insertManyOwn c lo n = a.insertMany c (elements S lo n) := by
      unfold SortedArr.insertManyOwn SortedArr.insertMany
      have := insertRangeRef_self c (SortedArr.target c a.size) (parts_sorted c a.size)
        (fun b k => SortedArr.readOwn c a.buf b (lo + k)) (sort_increasing S) (elements_sorted S lo n) a.buf
        (fun v hv => by simpa using elements_subset S lo n v hv) hread hval
      rw [← hsz, hlen] at this
      rw [this]
    have e2 : a.removeManyOwn c lo n = a.removeMany c (elements S lo n) := by
      unfold SortedArr.removeManyOwn SortedArr.removeMany
      have := removeRangeRef_self c (SortedArr.target c a.size)
        (fun b k => SortedArr.readOwn c a.buf b (lo + k)) (sort_increasing S) a.buf rfl (fun _ _ _ h => by cases h; rfl) hread hn' hval
      change _ = removeRange c (SortedArr.target c a.size) a.buf _ (elements S lo n) at this
      rw [← hsz, show ((List.drop lo (S.sort (· ≤ ·))).take n).length = n from hlen] at this
      rw [this]
    have hsub : (elements S lo n).toFinset ⊆ S := fun v hv => elements_subset S lo n v (List.mem_toFinset.1 hv)
    obtain ⟨a1, q1, q2⟩ := SortedArr.insertMany_good c g _ (elements_sorted S lo n)
      (g.fits _ (by rw [Finset.union_eq_left.2 hsub]))
    obtain ⟨a2, q3, q4⟩ := SortedArr.removeMany_good c g _ (elements_sorted S lo n)
    rw [Finset.union_eq_left.2 hsub] at q2
    rw [Finset.sdiff_eq_empty_iff_subset.2 hsub, Finset.card_empty] at q1
    have hnd : (elements S lo n).Nodup := (elements_sorted S lo n).imp (fun hab => ne_of_lt hab)
    rw [Finset.inter_eq_right.2 hsub, List.toFinset_card_of_nodup hnd, hlen] at q3
    exact ⟨⟨e1, a1, e1.trans q1, showsSorted_of_good q2⟩, e2, a2, e2.trans q3, showsSorted_of_good q4⟩

/-! ### `ArrayOfSets` -/

/-- Where two sets are: set `i`, and another set in front of it or behind it. -/
theorem twoSets {a : AoA T} {sets : List (Finset T)} (h : SetsGood a sets) {i j : Nat} {S S' : Finset T}
    (hi : sets[i]? = some S) (hj : sets[j]? = some S') :
    ∃ A cap B, A.length = i ∧ AGood a (A ++ (S.sort (· ≤ ·), cap) :: B) ∧
      (∀ (S'' : Finset T) cap' a', AGood a' (A ++ (S''.sort (· ≤ ·), cap') :: B) → SetsGood a' (sets.set i S'')) ∧
      (A ++ (S.sort (· ≤ ·), cap) :: B).length = sets.length ∧
      ((j = i ∧ S' = S) ∨ (∃ A1 cap' A2, A = A1 ++ (S'.sort (· ≤ ·), cap') :: A2 ∧ A1.length = j) ∨
        (∃ B1 cap' B2, B = B1 ++ (S'.sort (· ≤ ·), cap') :: B2 ∧ A.length + 1 + B1.length = j)) := by
  obtain ⟨L, hg, hL⟩ := h
  obtain ⟨hlt, -⟩ := List.getElem?_eq_some_iff.1 hi
  obtain ⟨hltj, -⟩ := List.getElem?_eq_some_iff.1 hj
  have hlen : L.length = sets.length := by simpa using congrArg List.length hL
  have hx : ∀ (k : Nat) (R : Finset T) (hk : k < L.length), sets[k]? = some R → L[k].1 = R.sort (· ≤ ·) := by
    intro k R hk hR
    have := congrArg (·[k]?) hL
    simp only [List.getElem?_map, hR, List.getElem?_eq_getElem hk, Option.map_some, Option.some.injEq] at this
    exact this
  obtain ⟨A, xs, cap, B, rfl, rfl, hxi⟩ := split1 (by omega : i < L.length)
  have hxs := hx A.length S (by omega) hi
  rw [hxi] at hxs
  simp only at hxs
  subst hxs
  refine ⟨A, cap, B, rfl, hg, ?_, hlen, ?_⟩
  · intro S'' cap' a' hg'
    refine ⟨_, hg', ?_⟩
    rw [List.map_set, ← hL]
    simp
  · rcases Nat.lt_trichotomy j A.length with hl | he | hr
    · have hjx := hx j S' (by omega) hj
      rw [List.getElem_append_left hl] at hjx
      obtain ⟨A1, ys, cap', A2, hA, hA1, hy⟩ := split1 hl
      rw [hy] at hjx
      simp only at hjx
      subst hjx
      exact .inr (.inl ⟨A1, cap', A2, hA, hA1⟩)
    · subst he
      rw [hi] at hj
      exact .inl ⟨rfl, (Option.some.inj hj).symm⟩
    · have hb : j - A.length - 1 < B.length := by simp at hlen; omega
      have hjx := hx j S' (by omega) hj
      rw [List.getElem_append_right (by omega), List.getElem_cons, dif_neg (by omega)] at hjx
      obtain ⟨B1, ys, cap', B2, hB, hB1, hy⟩ := split1 hb
      rw [hy] at hjx
      simp only at hjx
      subst hjx
      exact .inr (.inr ⟨B1, cap', B2, hB, by omega⟩)

section located

variable {c : Cfg} {a : AoA T} {sets : List (Finset T)} {i j : Nat} {S S' : Finset T} {A B : Layout T} {cap : Nat}

/-- The position of the elements of the other set. -/
theorem other_located (hg : AGood a (A ++ (S.sort (· ≤ ·), cap) :: B))
    (hcase : (∃ A1 cap' A2, A = A1 ++ (S'.sort (· ≤ ·), cap') :: A2 ∧ A1.length = j) ∨
      (∃ B1 cap' B2, B = B1 ++ (S'.sort (· ≤ ·), cap') :: B2 ∧ A.length + 1 + B1.length = j)) :
    ∃ p, (∀ lo, a.iterator c j lo = .ok (p + lo)) ∧ (∀ k, k < S'.card → a.element c j k = .ok (p + k)) ∧
      (∀ lo n, lo + n ≤ S'.card → Keeps (p + lo) a.values.cap (elements S' lo n) a.values ∧
        p + lo + (elements S' lo n).length ≤ a.values.cap ∧
        ((j < A.length ∧ p + lo + (elements S' lo n).length ≤ total A) ∨ (A.length < j ∧ total A + cap ≤ p + lo))) ∧
      (j < A.length → ∀ cap' a1, AGood a1 (A ++ (S.sort (· ≤ ·), cap') :: B) → ∀ lo n, lo + n ≤ S'.card →
        Keeps (p + lo) a1.values.cap (elements S' lo n) a1.values) := by
  rcases hcase with ⟨A1, cap', A2, rfl, rfl⟩ | ⟨B1, cap', B2, rfl, rfl⟩
  · have hre : ∀ cap'' (a1 : AoA T), AGood a1 ((A1 ++ (S'.sort (· ≤ ·), cap') :: A2) ++ (S.sort (· ≤ ·), cap'') :: B) →
        AGood a1 (A1 ++ (S'.sort (· ≤ ·), cap') :: (A2 ++ (S.sort (· ≤ ·), cap'') :: B)) := fun _ _ h => by simpa using h
    have hg' := hre cap a hg
    have hfit := hg'.lay.fits (S'.sort (· ≤ ·), cap') (by simp)
    simp only [Finset.length_sort] at hfit
    refine ⟨total A1, fun lo => hg'.iterator (by simp) lo, fun k hk => hg'.element (by simpa using hk), ?_, ?_⟩
    · intro lo n hn
      have hk := keeps_row hg' (lo := lo) (n := n) (by simpa using hn)
      refine ⟨hk.1, hk.2, .inl ⟨by simp, ?_⟩⟩
      have := elements_length hn
      simp only [total_append, total_cons]
      omega
    · intro _ cap'' a1 h1 lo n hn
      exact (keeps_row (hre cap'' a1 h1) (by simpa using hn)).1
  · have hg' : AGood a ((A ++ (S.sort (· ≤ ·), cap) :: B1) ++ (S'.sort (· ≤ ·), cap') :: B2) := by simpa using hg
    have hlen : (A ++ (S.sort (· ≤ ·), cap) :: B1).length = A.length + 1 + B1.length := by simp; omega
    refine ⟨total (A ++ (S.sort (· ≤ ·), cap) :: B1), fun lo => ?_, fun k hk => ?_, ?_, fun h => absurd h (by omega)⟩
    · rw [← hlen]; exact hg'.iterator (by simp) lo
    · rw [← hlen]; exact hg'.element (by simpa using hk)
    · intro lo n hn
      have hk := keeps_row hg' (lo := lo) (n := n) (by simpa using hn)
      refine ⟨hk.1, hk.2, .inr ⟨by omega, ?_⟩⟩
      simp only [total_append, total_cons]
      omega

theorem elements_one {k : Nat} {v : T} (hv : (S'.sort (· ≤ ·))[k]? = some v) : k < S'.card ∧ elements S' k 1 = [v] ∧ v ∈ S' := by
  obtain ⟨hk, rfl⟩ := List.getElem?_eq_some_iff.1 hv
  refine ⟨by simpa using hk, ?_, (Finset.mem_sort (· ≤ ·)).1 (List.getElem_mem hk)⟩
  unfold elements
  rw [List.drop_eq_getElem_cons hk, List.take_succ_cons, List.take_zero]

end located

/-- **C76 (removing).** After any legal history, `removeFromSet` of an `ArrayOfSets` or of a view of it may be called with elements
of the object itself, of the same set or of another one: it does exactly what it does when called with copies of the values. -/
theorem C76_remove (c : Cfg) {a : AoA T} {sets : List (Finset T)} (h : ReachSets c a sets) {i j : Nat} {S S' : Finset T}
    (hi : sets[i]? = some S) (hj : sets[j]? = some S') :
    (∀ lo n, lo + n ≤ S'.card →
      AoS.removeRangeOwn c a i j lo n = AoS.removeRangeFromSet c a i (elements S' lo n) ∧
      ∃ a', AoS.removeRangeOwn c a i j lo n = .ok (a', (S ∩ (elements S' lo n).toFinset).card) ∧
        ShowsSets c a' (sets.set i (S \ (elements S' lo n).toFinset))) ∧
    (∀ k v, (S'.sort (· ≤ ·))[k]? = some v →
      AoS.removeOwn c a i j k = AoS.removeFromSet c a i v ∧
      ∃ a', AoS.removeOwn c a i j k = .ok (a', decide (v ∈ S)) ∧ ShowsSets c a' (sets.set i (S.erase v))) := by
  obtain ⟨A, cap, B, rfl, hg, hset, -, hcase⟩ := twoSets (reachSets_good h) hi hj
  refine ⟨fun lo n hn => ?_, fun k v hv => ?_⟩
  · have e : AoS.removeRangeOwn c a A.length j lo n = AoS.removeRangeFromSet c a A.length (elements S' lo n) := by
      rcases hcase with ⟨rfl, rfl⟩ | hcase
      · exact removeRangeOwn_self hg hn
      · obtain ⟨p, h1, -, h3, -⟩ := other_located (c := c) hg hcase
        obtain ⟨k1, k2, k3⟩ := h3 lo n hn
        have := removeRangeOwn_eq (c := c) hg (elements_sorted S' lo n) (h1 lo) k1 k2 (by omega)
        rwa [elements_length hn] at this
    obtain ⟨a', cap', q1, q2⟩ := AoS.removeMany_ok (c := c) hg _ (elements_sorted S' lo n)
    exact ⟨e, a', e.trans q1, showsSets_of_good (hset _ _ _ q2)⟩
  · obtain ⟨hk, he, -⟩ := elements_one hv
    have e : AoS.removeOwn c a A.length j k = AoS.removeFromSet c a A.length v := by
      rcases hcase with ⟨rfl, rfl⟩ | hcase
      · obtain ⟨k1, k2⟩ := keeps_row hg (lo := k) (n := 1) (by simp only [Finset.length_sort]; omega)
        change Keeps _ _ (elements S' k 1) _ at k1
        change _ + (elements S' k 1).length ≤ _ at k2
        rw [he] at k1 k2
        exact removeOwn_eq hg (hg.element (by simpa using hk)) k1 k2
      · obtain ⟨p, -, h2, h3, -⟩ := other_located (c := c) hg hcase
        obtain ⟨k1, k2, -⟩ := h3 k 1 hk
        rw [he] at k1 k2
        exact removeOwn_eq hg (h2 k hk) k1 k2
    obtain ⟨a', cap', q1, q2⟩ := AoS.remove_ok (c := c) hg v
    exact ⟨e, a', e.trans q1, showsSets_of_good (hset _ _ _ q2)⟩

/-- The elements of set `j` stay where they are when set `i`, of `size` values, has to take `m` more: it has the capacity, or set
`j` is in front of it and the allocation of `valueCapacity` values need not be replaced. -/
def StayInPlace (caps : List Nat) (valueCapacity size m i j : Nat) : Prop :=
  ∃ cap, caps[i]? = some cap ∧ (size + m ≤ cap ∨ (j < i ∧ caps.sum + 2 * (size + m) ≤ valueCapacity + cap))

theorem caps_eq {c : Cfg} {a : AoA T} {L : Layout T} (hg : AGood a L) {caps : List Nat} (hc : Capacities c a caps)
    (hlen : L.length = caps.length) : caps = L.map (·.2) := by
  refine List.ext_getElem (by simp [hlen]) fun i h1 h2 => ?_
  obtain ⟨A, xs, cap, B, rfl, rfl, hx⟩ := split1 (by omega : i < L.length)
  have := hc A.length h1
  rw [hg.shape.capacityOfAt rfl] at this
  rw [List.getElem_map, hx]
  exact (Except.ok.inj this).symm

/-- **C76 (inserting), partial.** After any legal history, `insertIntoSet` of an `ArrayOfSets` called with elements of the object
itself does what it does when called with copies of the values, if the elements stay where they are.  In particular this holds for
elements of the same set, which are not inserted at all (`m = 0`).  Not true otherwise: see `C76_needs_room` and
`C76_shifted_breaks_set`. -/
theorem C76_insert_partial (c : Cfg) {a : AoA T} {sets : List (Finset T)} (h : ReachSets c a sets) {i j : Nat} {S S' : Finset T}
    (hi : sets[i]? = some S) (hj : sets[j]? = some S') {caps : List Nat} (hl : caps.length = sets.length)
    (hc : Capacities c a caps) :
    (∀ lo n, lo + n ≤ S'.card →
      StayInPlace caps a.values.cap S.card ((elements S' lo n).toFinset \ S).card i j →
      AoS.insertRangeOwn c (AoS.growing c i) a i j lo n = AoS.insertRangeIntoSet c (AoS.growing c i) a i (elements S' lo n) ∧
      ∃ a', AoS.insertRangeOwn c (AoS.growing c i) a i j lo n = .ok (a', ((elements S' lo n).toFinset \ S).card) ∧
        ShowsSets c a' (sets.set i (S ∪ (elements S' lo n).toFinset))) ∧
    (∀ k v, (S'.sort (· ≤ ·))[k]? = some v → (v ∉ S → StayInPlace caps a.values.cap S.card 1 i j) →
      AoS.insertOwn c (AoS.growing c i) a i j k = AoS.insertIntoSet c (AoS.growing c i) a i v ∧
      ∃ a', AoS.insertOwn c (AoS.growing c i) a i j k = .ok (a', decide (v ∉ S)) ∧
        ShowsSets c a' (sets.set i (insert v S))) := by
  obtain ⟨A, cap, B, rfl, hg, hset, hlen, hcase⟩ := twoSets (reachSets_good h) hi hj
  have hcaps := caps_eq hg hc (hlen.trans hl.symm)
  have hfit := hg.lay.fits (S.sort (· ≤ ·), cap) (by simp)
  simp only [Finset.length_sort] at hfit
  have hfit0 := hg.lay.room
  -- making room
  have hgrow : ∀ m, StayInPlace caps a.values.cap S.card m A.length j → ∃ a1,
      AoS.growing c A.length a m = .ok a1 ∧ AGood a1 (A ++ (S.sort (· ≤ ·), AGood.grownTo (S.sort (· ≤ ·)) cap m) :: B) ∧
      a1.values.cap = a.values.cap ∧ (S.card + m ≤ cap → a1 = a) ∧ (¬ S.card + m ≤ cap → j < A.length) := by
    rintro m ⟨cap0, hcap0, hst⟩
    have : cap0 = cap := by
      rw [hcaps] at hcap0
      simpa using hcap0.symm
    subst this
    have hsum : caps.sum = total A + cap0 + total B := by rw [hcaps]; simp [total]; omega
    by_cases hr : S.card + m ≤ cap0
    · have e : AGood.grownTo (S.sort (· ≤ ·)) cap0 m = cap0 := by
        unfold AGood.grownTo; rw [if_neg (by simp; omega)]
      have hid : AoS.growing c A.length a m = .ok a := by
        unfold AoS.growing AoA.dynamicallyGrowArray AoA.growIf
        rw [hg.shape.sizeOfAt rfl, bind_ok, hg.shape.capacityOfAt rfl, bind_ok]
        simp only [Finset.length_sort]
        rw [decide_eq_false (by omega)]
        rfl
      exact ⟨a, hid, by rw [e]; exact hg, rfl, fun _ => rfl, fun h => absurd hr h⟩
    · rcases hst with hst | ⟨hji, hst⟩
      · exact absurd hst hr
      · have e : AGood.grownTo (S.sort (· ≤ ·)) cap0 m = 2 * (S.card + m) := by
          unfold AGood.grownTo; rw [if_pos (by simp; omega)]; simp
        obtain ⟨a1, h1, h2, h3⟩ := hg.growInPlace (c := c) m (by
          rw [e]; simp only [total_append, total_cons]; omega)
        exact ⟨a1, h1, h2, h3, fun h => absurd h hr, fun _ => hji⟩
  have hle : ∀ m, S.card + m ≤ AGood.grownTo (S.sort (· ≤ ·)) cap m := fun m => by
    have := AGood.le_grownTo (S.sort (· ≤ ·)) cap m
    simpa using this
  refine ⟨fun lo n hn hst => ?_, fun k v hv hst => ?_⟩
  · have hel := elements_length hn
    have e : AoS.insertRangeOwn c (AoS.growing c A.length) a A.length j lo n =
        AoS.insertRangeIntoSet c (AoS.growing c A.length) a A.length (elements S' lo n) := by
      rcases hcase with ⟨rfl, rfl⟩ | hcase
      · obtain ⟨k1, k2⟩ := keeps_row hg (lo := lo) (n := n) (by simpa using hn)
        have := insertRangeOwn_eq (c := c) (inc := AoS.growing c A.length) hg (elements_sorted S' lo n)
          (hg.iterator (by simp) lo) k1 k2 0 (fun a1 hm => absurd (by
            rw [Finset.card_eq_zero, Finset.sdiff_eq_empty_iff_subset]
            exact fun v hv => elements_subset S' lo n v (List.mem_toFinset.1 hv)) hm)
        rwa [hel] at this
      · obtain ⟨p, h1, -, h3, h4⟩ := other_located (c := c) hg hcase
        obtain ⟨k1, k2, k3⟩ := h3 lo n hn
        have := insertRangeOwn_eq (c := c) (inc := AoS.growing c A.length) hg (elements_sorted S' lo n) (h1 lo) k1 k2
          (AGood.grownTo (S.sort (· ≤ ·)) cap ((elements S' lo n).toFinset \ S).card) (fun a1 hm ha1 => by
            obtain ⟨a2, g1, g2, g3, g4, g5⟩ := hgrow _ hst
            rw [g1] at ha1
            have ha1 : a2 = a1 := by injection ha1
            subst ha1
            refine ⟨g2.rowPtr, ?_, hle _, ?_⟩
            · by_cases hr : S.card + ((elements S' lo n).toFinset \ S).card ≤ cap
              · rw [g4 hr]; exact k1
              · rw [← g3]; exact h4 (g5 hr) _ a2 g2 lo n hn
            · by_cases hr : S.card + ((elements S' lo n).toFinset \ S).card ≤ cap
              · have e : AGood.grownTo (S.sort (· ≤ ·)) cap ((elements S' lo n).toFinset \ S).card = cap := by
                  unfold AGood.grownTo; rw [if_neg (by simp; omega)]
                rw [e]; omega
              · have := g5 hr; omega)
        rwa [hel] at this
    obtain ⟨a2, g1, g2, -⟩ := hgrow _ hst
    obtain ⟨a', cap', q1, q2⟩ := AoS.insertMany_ok (c := c) (inc := AoS.growing c A.length) hg _ (elements_sorted S' lo n)
      ⟨a2, _, g1, g2, hle _⟩
    exact ⟨e, a', e.trans q1, showsSets_of_good (hset _ _ _ q2)⟩
  · obtain ⟨hk, he, hmem⟩ := elements_one hv
    have e : AoS.insertOwn c (AoS.growing c A.length) a A.length j k = AoS.insertIntoSet c (AoS.growing c A.length) a A.length v := by
      rcases hcase with ⟨rfl, rfl⟩ | hcase
      · obtain ⟨k1, k2⟩ := keeps_row hg (lo := k) (n := 1) (by simp only [Finset.length_sort]; omega)
        change Keeps _ _ (elements S' k 1) _ at k1
        change _ + (elements S' k 1).length ≤ _ at k2
        rw [he] at k1 k2
        exact insertOwn_eq hg (hg.element (by simpa using hk)) k1 k2 0 (fun a1 hm => absurd hmem hm)
      · obtain ⟨p, -, h2, h3, h4⟩ := other_located (c := c) hg hcase
        obtain ⟨k1, k2, k3⟩ := h3 k 1 hk
        rw [he] at k1 k2 k3
        refine insertOwn_eq hg (h2 k hk) k1 k2 (AGood.grownTo (S.sort (· ≤ ·)) cap 1) (fun a1 hm ha1 => ?_)
        obtain ⟨a2, g1, g2, g3, g4, g5⟩ := hgrow _ (hst hm)
        rw [g1] at ha1
        have ha1 : a2 = a1 := by injection ha1
        subst ha1
        refine ⟨g2.rowPtr, ?_, hle _, ?_⟩
        · by_cases hr : S.card + 1 ≤ cap
          · rw [g4 hr]; exact k1
          · have := h4 (g5 hr) _ a2 g2 k 1 hk
            rw [he] at this
            rw [← g3]; exact this
        · simp only [List.length_singleton] at k3
          by_cases hr : S.card + 1 ≤ cap
          · have e : AGood.grownTo (S.sort (· ≤ ·)) cap 1 = cap := by
              unfold AGood.grownTo; rw [if_neg (by simp; omega)]
            rw [e]; omega
          · have := g5 hr; omega
    obtain ⟨a', cap', q1, q2⟩ := AoS.insert_ok (c := c) (inc := AoS.growing c A.length) hg v (fun m hm => by
      by_cases hvS : v ∈ S
      · rw [Finset.insert_eq_of_mem hvS] at hm
        have hm0 : m = 0 := by omega
        subst hm0
        obtain ⟨a2, g1, g2, -⟩ := hgrow 0 ⟨cap, by rw [hcaps]; simp, .inl (by omega)⟩
        exact ⟨a2, _, g1, g2, hle _⟩
      · rw [Finset.card_insert_of_notMem hvS] at hm
        have hst' : StayInPlace caps a.values.cap S.card m A.length j := by
          obtain ⟨cp, e1, e2⟩ := hst hvS
          refine ⟨cp, e1, ?_⟩
          rcases e2 with e2 | ⟨e2, e3⟩
          · exact .inl (by omega)
          · exact .inr ⟨e2, by omega⟩
        obtain ⟨a2, g1, g2, -⟩ := hgrow m hst'
        exact ⟨a2, _, g1, g2, hle _⟩)
    exact ⟨e, a', e.trans q1, showsSets_of_good (hset _ _ _ q2)⟩

/-- **C76 (inserting through a view).** A view never moves the sets, so if the set has the capacity `insertIntoSet` of a view does
with elements of the object itself what it does with copies of the values. -/
theorem C76_view_insert (c : Cfg) {a : AoA T} {sets : List (Finset T)} (h : ReachSets c a sets) {i j : Nat} {S S' : Finset T}
    (hi : sets[i]? = some S) (hj : sets[j]? = some S') {cap : Nat} (hc : a.shape.capacityOfArray c i = .ok cap) :
    (∀ lo n, lo + n ≤ S'.card → S.card + ((elements S' lo n).toFinset \ S).card ≤ cap →
      AoS.insertRangeOwn c (AoS.checking c i) a i j lo n = AoS.insertRangeIntoSet c (AoS.checking c i) a i (elements S' lo n) ∧
      ∃ a', AoS.insertRangeOwn c (AoS.checking c i) a i j lo n = .ok (a', ((elements S' lo n).toFinset \ S).card) ∧
        ShowsSets c a' (sets.set i (S ∪ (elements S' lo n).toFinset))) ∧
    (∀ k v, (S'.sort (· ≤ ·))[k]? = some v → (insert v S).card ≤ cap →
      AoS.insertOwn c (AoS.checking c i) a i j k = AoS.insertIntoSet c (AoS.checking c i) a i v ∧
      ∃ a', AoS.insertOwn c (AoS.checking c i) a i j k = .ok (a', decide (v ∉ S)) ∧
        ShowsSets c a' (sets.set i (insert v S))) := by
  obtain ⟨A, cap0, B, rfl, hg, hset, hlen, hcase⟩ := twoSets (reachSets_good h) hi hj
  rw [hg.shape.capacityOfAt rfl] at hc
  cases hc
  have hfit := hg.lay.fits (S.sort (· ≤ ·), cap0) (by simp)
  simp only [Finset.length_sort] at hfit
  have hgrow : ∀ m, S.card + m ≤ cap0 → AoS.checking c A.length a m = .ok a := fun m hm => by
    unfold AoS.checking
    rw [hg.capCheck (by simp; omega)]; rfl
  refine ⟨fun lo n hn hst => ?_, fun k v hv hst => ?_⟩
  · have hel := elements_length hn
    have e : AoS.insertRangeOwn c (AoS.checking c A.length) a A.length j lo n =
        AoS.insertRangeIntoSet c (AoS.checking c A.length) a A.length (elements S' lo n) := by
      rcases hcase with ⟨rfl, rfl⟩ | hcase
      · obtain ⟨k1, k2⟩ := keeps_row hg (lo := lo) (n := n) (by simpa using hn)
        have := insertRangeOwn_eq (c := c) (inc := AoS.checking c A.length) hg (elements_sorted S' lo n)
          (hg.iterator (by simp) lo) k1 k2 0 (fun a1 hm => absurd (by
            rw [Finset.card_eq_zero, Finset.sdiff_eq_empty_iff_subset]
            exact fun v hv => elements_subset S' lo n v (List.mem_toFinset.1 hv)) hm)
        rwa [hel] at this
      · obtain ⟨p, h1, -, h3, -⟩ := other_located (c := c) hg hcase
        obtain ⟨k1, k2, k3⟩ := h3 lo n hn
        have := insertRangeOwn_eq (c := c) (inc := AoS.checking c A.length) hg (elements_sorted S' lo n) (h1 lo) k1 k2 cap0
          (fun a1 hm ha1 => by
            rw [hgrow _ hst] at ha1
            have ha1 : a = a1 := by injection ha1
            subst ha1
            exact ⟨hg.rowPtr, k1, hst, by omega⟩)
        rwa [hel] at this
    obtain ⟨a', cap', q1, q2⟩ := AoS.insertMany_ok (c := c) (inc := AoS.checking c A.length) hg _ (elements_sorted S' lo n)
      ⟨a, _, hgrow _ hst, hg, hst⟩
    exact ⟨e, a', e.trans q1, showsSets_of_good (hset _ _ _ q2)⟩
  · obtain ⟨hk, he, hmem⟩ := elements_one hv
    have e : AoS.insertOwn c (AoS.checking c A.length) a A.length j k = AoS.insertIntoSet c (AoS.checking c A.length) a A.length v := by
      rcases hcase with ⟨rfl, rfl⟩ | hcase
      · obtain ⟨k1, k2⟩ := keeps_row hg (lo := k) (n := 1) (by simp only [Finset.length_sort]; omega)
        change Keeps _ _ (elements S' k 1) _ at k1
        change _ + (elements S' k 1).length ≤ _ at k2
        rw [he] at k1 k2
        exact insertOwn_eq hg (hg.element (by simpa using hk)) k1 k2 0 (fun a1 hm => absurd hmem hm)
      · obtain ⟨p, -, h2, h3, -⟩ := other_located (c := c) hg hcase
        obtain ⟨k1, k2, k3⟩ := h3 k 1 hk
        rw [he] at k1 k2 k3
        refine insertOwn_eq hg (h2 k hk) k1 k2 cap0 (fun a1 hm ha1 => ?_)
        rw [Finset.card_insert_of_notMem hm] at hst
        rw [hgrow _ hst] at ha1
        have ha1 : a = a1 := by injection ha1
        subst ha1
        simp only [List.length_singleton] at k3
        exact ⟨hg.rowPtr, k1, hst, by omega⟩
    obtain ⟨a', cap', q1, q2⟩ := AoS.insert_ok (c := c) (inc := AoS.checking c A.length) hg v
      (fun m hm => ⟨a, _, hgrow m (by omega), hg, by omega⟩)
    exact ⟨e, a', e.trans q1, showsSets_of_good (hset _ _ _ q2)⟩

/-- **C76 (inserting, no room).** If at least one value is new and the allocation has to be replaced to make room for it,
`insertIntoSet` with elements of the object itself is undefined behaviour: the values are read from the old allocation.  (The
elements are then necessarily those of another set.) -/
theorem C76_needs_room (c : Cfg) {a : AoA T} {sets : List (Finset T)} (h : ReachSets c a sets) {i j : Nat} {S S' : Finset T}
    (hi : sets[i]? = some S) (hj : sets[j]? = some S') {caps : List Nat} (hl : caps.length = sets.length)
    (hc : Capacities c a caps) {cap : Nat} (hcap : caps[i]? = some cap) :
    (∀ lo n, lo + n ≤ S'.card → cap < S.card + ((elements S' lo n).toFinset \ S).card →
      a.values.cap + cap < caps.sum + 2 * (S.card + ((elements S' lo n).toFinset \ S).card) →
      ∃ u, AoS.insertRangeOwn c (AoS.growing c i) a i j lo n = .error (.ub u)) ∧
    (∀ k v, (S'.sort (· ≤ ·))[k]? = some v → v ∉ S → cap < S.card + 1 →
      a.values.cap + cap < caps.sum + 2 * (S.card + 1) →
      ∃ u, AoS.insertOwn c (AoS.growing c i) a i j k = .error (.ub u)) := by
  obtain ⟨A, cap0, B, rfl, hg, hset, hlen, hcase⟩ := twoSets (reachSets_good h) hi hj
  have hcaps := caps_eq hg hc (hlen.trans hl.symm)
  have : cap0 = cap := by
    rw [hcaps] at hcap
    simpa using hcap
  subst this
  have hfit := hg.lay.fits (S.sort (· ≤ ·), cap0) (by simp)
  simp only [Finset.length_sort] at hfit
  have hsum : caps.sum = total A + cap0 + total B := by rw [hcaps]; simp [total]; omega
  have hgrow : ∀ m, cap0 < S.card + m → a.values.cap + cap0 < caps.sum + 2 * (S.card + m) →
      (∃ a1 cap1, AoS.growing c A.length a m = .ok a1 ∧ AGood a1 (A ++ (S.sort (· ≤ ·), cap1) :: B) ∧
        S.card + m ≤ cap1 ∧ a.values.cap < a1.values.cap) ∨
      AoS.growing c A.length a m = .error (.ub .rawRead) := by
    intro m h1 h2
    have e : AGood.grownTo (S.sort (· ≤ ·)) cap0 m = 2 * (S.card + m) := by
      unfold AGood.grownTo; rw [if_pos (by simp; omega)]; simp
    obtain ⟨-, g1, g2⟩ := (AGood.growCases (c := c) hg m).2 (by
      rw [e]; simp only [total_append, total_cons]; omega)
    by_cases hm : Lay.Movable c (A ++ (S.sort (· ≤ ·), cap0) :: B)
    · obtain ⟨a1, q1, q2, q3⟩ := g1 hm
      exact .inl ⟨a1, _, q1, q2, by rw [e]; omega, q3⟩
    · exact .inr (g2 hm)
  refine ⟨fun lo n hn hm hr => ?_, fun k v hv hvS hm hr => ?_⟩
  · have hel := elements_length hn
    rcases hcase with ⟨rfl, rfl⟩ | hcase
    · exfalso
      have : ((elements S' lo n).toFinset \ S').card = 0 := by
        rw [Finset.card_eq_zero, Finset.sdiff_eq_empty_iff_subset]
        exact fun v hv => elements_subset S' lo n v (List.mem_toFinset.1 hv)
      omega
    · obtain ⟨p, h1, -, h3, -⟩ := other_located (c := c) hg hcase
      obtain ⟨k1, k2, k3⟩ := h3 lo n hn
      rcases hgrow _ hm hr with ⟨a1, cap1, g1, g2, g3, g4⟩ | hbad
      · obtain ⟨a', cap', q1, q2⟩ := AoS.insertMany_ok (c := c) (inc := AoS.growing c A.length) hg _ (elements_sorted S' lo n)
          ⟨a1, cap1, g1, g2, g3⟩
        refine ⟨.dangling, ?_⟩
        unfold AoS.insertRangeIntoSet at q1
        unfold AoS.insertRangeOwn
        simp only [h1 lo, hg.checkBounds (i := A.length) (by simp), hg.shape.sizeOfAt (i := A.length) rfl, hg.ptr, bind_ok] at q1 ⊢
        obtain ⟨r, q3, q1⟩ := LvArray.bind_eq_ok.1 q1
        obtain ⟨sh, -, q1⟩ := LvArray.bind_eq_ok.1 q1
        have hr2 : r.2 = ((elements S' lo n).toFinset \ S).card := by injection q1 with q1; injection q1
        obtain ⟨r1, r2⟩ := r
        simp only at hr2
        subst hr2
        have := insertRangeRef_fails c (AoS.target (AoS.growing c A.length) A.length) (fun s k => a.readOwn c s.values (p + lo + k))
          (elements S' lo n) _ _ a r1 (.ub .dangling) (fun k hk => readOwn_keeps c k1 k2 k hk) q3 (by omega)
          (fun s1 k he => by
            have he : AoS.growing c A.length a _ = .ok s1 := he
            rw [g1] at he
            have he : a1 = s1 := by injection he
            subst he
            unfold AoA.readOwn
            rw [if_pos g4])
        rw [hel] at this
        rw [this, bind_err]
      · refine ⟨.rawRead, ?_⟩
        have e := insertRangeOwn_eq (c := c) (inc := AoS.growing c A.length) hg (elements_sorted S' lo n) (h1 lo) k1 k2 0
          (fun a1 _ ha1 => by rw [hbad] at ha1; cases ha1)
        rw [hel] at e
        rw [e]
        exact AoS.insertMany_err hg _ (elements_sorted S' lo n) _ hbad
  · obtain ⟨hk, he, hmem⟩ := elements_one hv
    rcases hcase with ⟨rfl, rfl⟩ | hcase
    · exact absurd hmem hvS
    · obtain ⟨p, -, h2, h3, -⟩ := other_located (c := c) hg hcase
      obtain ⟨k1, k2, k3⟩ := h3 k 1 hk
      rw [he] at k1 k2 k3
      have hval := readOwn_keeps c k1 k2 0 (by simp)
      simp only [Nat.add_zero, List.getElem_cons_zero] at hval
      rcases hgrow _ hm hr with ⟨a1, cap1, g1, g2, g3, g4⟩ | hbad
      · obtain ⟨a', cap', q1, q2⟩ := AoS.insert_ok (c := c) (inc := AoS.growing c A.length) hg v (fun m hm' => by
          rw [Finset.card_insert_of_notMem hvS] at hm'
          by_cases hm1 : m = 1
          · subst hm1; exact ⟨a1, cap1, g1, g2, g3⟩
          · have : m = 0 := by omega
            subst this
            refine ⟨a, cap0, ?_, hg, by omega⟩
            show a.dynamicallyGrowArray c A.length 0 = _
            unfold AoA.dynamicallyGrowArray AoA.growIf
            rw [hg.shape.sizeOfAt rfl, bind_ok, hg.shape.capacityOfAt rfl, bind_ok]
            simp only [Finset.length_sort]
            rw [decide_eq_false (by omega)]
            rfl)
        refine ⟨.dangling, ?_⟩
        unfold AoS.insertIntoSet at q1
        unfold AoS.insertOwn
        simp only [h2 k hk, hg.checkBounds (i := A.length) (by simp), hg.shape.sizeOfAt (i := A.length) rfl, hg.ptr, bind_ok] at q1 ⊢
        obtain ⟨r, q3, q1⟩ := LvArray.bind_eq_ok.1 q1
        obtain ⟨sh, -, q1⟩ := LvArray.bind_eq_ok.1 q1
        have hr2 : r.2 = true := by
          injection q1 with q1
          injection q1 with _ q1
          rw [q1, decide_eq_true hvS]
        obtain ⟨r1, r2⟩ := r
        simp only at hr2
        subst hr2
        rw [insertOneRef_fails c (AoS.target (AoS.growing c A.length) A.length) (parts_sets _ _) (fun s => a.readOwn c s.values (p + k)) v _ a
          r1 (.ub .dangling) hval q3 (fun pos s1 s2 hp he hs => by
            have he : AoS.growing c A.length a _ = .ok s1 := he
            rw [g1] at he
            have he : a1 = s1 := by injection he
            subst he
            obtain ⟨b, hb, rfl⟩ := modify_keeps hs
            obtain ⟨f1, f2, hx, hpos, -, -⟩ := insertPosition_split c id _ (S.sort (· ≤ ·)) v (sort_increasing S)
              (fun i hi => AoS.readRow (inc := AoS.growing c A.length) hg i hi)
            rw [hpos] at hp
            cases hp
            have hcap := shiftUp_cap (by rw [hx]; simp) hb
            show a.readOwn c b (p + k) = _
            unfold AoA.readOwn
            rw [if_pos (by omega)]), bind_err]
      · refine ⟨.rawRead, ?_⟩
        rw [insertOwn_eq (c := c) (inc := AoS.growing c A.length) hg (h2 k hk) k1 k2 0
          (fun a1 _ ha1 => by rw [hbad] at ha1; cases ha1)]
        exact AoS.insert_err hg v hvS _ hbad

/-- Two sets, `{ 5 }` with no room and `{ 1, 2, 3, 7 }`, in an allocation of `n` values. -/
def fiveAndOthers (c : Cfg) (n : Nat) : R (AoA Nat) :=
  AoA.mk' c 2 0 >>= fun a => AoS.run c a [.reserveValues n, .setCapacityOfSet 0 1, .setCapacityOfSet 1 4, .insert 0 5,
    .insertMany 1 [1, 2, 3, 7]] >>= fun r => .ok r.1

/-- **C76 (disturbed).** With enough memory allocated, `sets.insertIntoSet( 0, sets( 1, 3 ) )` on the sets `{ 5 }` and
`{ 1, 2, 3, 7 }` inserts 1 instead of 7, at the position of 7: the set then holds 5 followed by 1, `contains` does not find the 1,
and in a debug build the next `contains` or `insertIntoSet` aborts. -/
theorem C76_shifted_breaks_set :
    (fiveAndOthers { trivial := true, boundsCheck := true, debug := false } 40 >>= fun a =>
      a.get { trivial := true, boundsCheck := true, debug := false } 1 3 >>= fun x =>
      AoS.insertOwn { trivial := true, boundsCheck := true, debug := false }
        (AoS.growing { trivial := true, boundsCheck := true, debug := false } 0) a 0 1 3 >>= fun r =>
      r.1.get { trivial := true, boundsCheck := true, debug := false } 0 0 >>= fun y =>
      r.1.get { trivial := true, boundsCheck := true, debug := false } 0 1 >>= fun z =>
      AoS.contains { trivial := true, boundsCheck := true, debug := false } r.1 0 1 >>= fun b1 =>
      AoS.contains { trivial := true, boundsCheck := true, debug := false } r.1 0 7 >>= fun b7 => .ok (x, y, z, b1, b7)) =
      .ok (7, 5, 1, false, false) ∧
    (fiveAndOthers { trivial := true, boundsCheck := true, debug := true } 40 >>= fun a =>
      AoS.insertOwn { trivial := true, boundsCheck := true, debug := true }
        (AoS.growing { trivial := true, boundsCheck := true, debug := true } 0) a 0 1 3 >>= fun r =>
      AoS.contains { trivial := true, boundsCheck := true, debug := true } r.1 0 7) = .error .abort := by
  decide +kernel

/-- **C76 (disturbed, range).** The union `sets.insertIntoSet( 0, sets[ 1 ].begin(), sets[ 1 ].end() )` on the same sets leaves
`5 5 5 5 7` in the set instead of `1 2 3 5 7`, and returns that 4 values were inserted. -/
theorem C76_shifted_union_wrong :
    (fiveAndOthers { trivial := true, boundsCheck := true, debug := false } 40 >>= fun a =>
      AoS.insertRangeOwn { trivial := true, boundsCheck := true, debug := false }
        (AoS.growing { trivial := true, boundsCheck := true, debug := false } 0) a 0 1 0 4 >>= fun r =>
      ((List.range 5).mapM fun k => r.1.get { trivial := true, boundsCheck := true, debug := false } 0 k) >>= fun l =>
      .ok (l, r.2)) = .ok ([5, 5, 5, 5, 7], 4) := by
  decide +kernel

/-- A legal history for `C76_sortedArray`. -/
example : Spec.setRun none (∅ : Finset Nat) [.insert 4, .insertMany [1, 2, 9], .remove 2] =
    some ({1, 4, 9}, [.bool true, .num 3, .bool true]) := by decide +kernel

/-- Objects reached by legal histories in a debug build: sets with capacities 1 and 4, the allocation as asked for. -/
theorem fiveAndOthers_reached (n : Nat) (hn : n = 5 ∨ n = 40) : ∃ a : AoA Nat,
    ReachSets { trivial := true, boundsCheck := true, debug := true } a [{5}, {1, 2, 3, 7}] ∧
    Capacities { trivial := true, boundsCheck := true, debug := true } a [1, 4] ∧ a.values.cap = n := by
  obtain ⟨a, h1, h2⟩ := mk_sets (T := Nat) { trivial := true, boundsCheck := true, debug := true } 2 0
  have hspec : aosRun (List.replicate 2 ∅) [.reserveValues n, .setCapacityOfSet 0 1, .setCapacityOfSet 1 4, .insert 0 5,
      .insertMany 1 [1, 2, 3, 7]] = some ([{5}, {1, 2, 3, 7}], [.unit, .unit, .unit, .bool true, .num 4]) := by
    rcases hn with rfl | rfl <;> decide +kernel
  have hrun : ((AoA.mk' { trivial := true, boundsCheck := true, debug := true } 2 0 >>= fun (a : AoA Nat) =>
      AoS.run { trivial := true, boundsCheck := true, debug := true } a [.reserveValues n, .setCapacityOfSet 0 1,
        .setCapacityOfSet 1 4, .insert 0 5, .insertMany 1 [1, 2, 3, 7]]) >>= fun r => do
      .ok (← r.1.shape.capacityOfArray { trivial := true, boundsCheck := true, debug := true } 0,
        ← r.1.shape.capacityOfArray { trivial := true, boundsCheck := true, debug := true } 1, r.1.values.cap)) =
      .ok (1, 4, n) := by
    rcases hn with rfl | rfl <;> decide +kernel
  rcases run_sets _ h2 _ _ _ hspec with ⟨a', h3, h4⟩ | ⟨-, h3⟩
  · rw [h1, bind_ok, h3, bind_ok] at hrun
    obtain ⟨x, e1, hrun⟩ := LvArray.bind_eq_ok.1 hrun
    obtain ⟨y, e2, hrun⟩ := LvArray.bind_eq_ok.1 hrun
    cases hrun
    refine ⟨a', ⟨2, 0, _, _, a, h1, h3, hspec⟩, fun i hi => ?_, rfl⟩
    match i, hi with
    | 0, _ => exact e1
    | 1, _ => exact e2
  · rw [h1, bind_ok, h3] at hrun
    cases hrun

/-- The cases of `C76_insert_partial` and of `C76_needs_room`: the 5 of the first set can go into the second one if 40 values are
allocated and cannot if only 5 are; the 7 cannot go into the first set in either case. -/
example : StayInPlace [1, 4] 40 4 1 1 0 ∧ ¬ StayInPlace [1, 4] 5 4 1 1 0 ∧ ¬ StayInPlace [1, 4] 40 1 1 0 1 ∧
    (4 < 4 + 1 ∧ 5 + 4 < [1, 4].sum + 2 * (4 + 1)) ∧ StayInPlace [8, 4] 40 1 4 0 1 := by
  refine ⟨⟨4, rfl, by decide⟩, ?_, ?_, by decide, ⟨8, rfl, by decide⟩⟩
  · rintro ⟨c, hc, h⟩; cases hc; revert h; decide
  · rintro ⟨c, hc, h⟩; cases hc; revert h; decide

end LvArray.Props
