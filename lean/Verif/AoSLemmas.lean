import Verif.AoAStep
import Verif.SortedArrayLemmas
import Verif.Spec.SetList

/-!
# Lemmas about `ArrayOfSets`
-/

namespace LvArray

open Layout sortedArrayManipulation

set_option linter.unusedSectionVars false

variable {T : Type} [LinearOrder T]

theorem AGood.rowPtr {a : AoA T} {A B : Layout T} (h : AGood a (A ++ B)) : a.rowPtr A.length = total A := by
  have := h.ptr
  unfold AoA.ptr Buf.read at this
  unfold AoA.rowPtr
  split at this
  · split at this
    · cases this
    · rename_i hx; cases this; rw [hx]
    · cases this
  · cases this

namespace AoS

variable {c : Cfg} {inc : AoA T → Nat → R (AoA T)} {a : AoA T} {A B : Layout T} {xs : List T} {cap : Nat}

/-- A state reached while a set is modified: the shape is that of a well-formed object `a0`, the values of the set are in
flux. -/
def Mid (Q : Cell T → Prop) (A B : Layout T) (xs : List T) (a : AoA T) (f : List T) (g : Nat) (bk : List T) : Prop :=
  ∃ a0 cap, AGood a0 (A ++ (xs, cap) :: B) ∧ a.shape = a0.shape ∧ Win Q a0.values a.values (total A) cap f g bk

theorem Mid.rowPtr {Q : Cell T → Prop} {f bk : List T} {g : Nat} (h : Mid Q A B xs a f g bk) :
    a.rowPtr A.length = total A := by
  obtain ⟨a0, cap, hg, hs, _⟩ := h
  have := hg.rowPtr
  unfold AoA.rowPtr at this ⊢
  rw [hs]; exact this

theorem Mid.start (h : AGood a (A ++ (xs, cap) :: B)) (Q : Cell T → Prop) : Mid Q A B xs a xs 0 [] :=
  ⟨a, cap, h, rfl, h.lay.toWin Q⟩

theorem Mid.open (h : AGood a (A ++ (xs, cap) :: B)) (n : Nat) (hn : xs.length + n ≤ cap) : Mid IsRaw A B xs a xs n [] :=
  ⟨a, cap, h, rfl, (h.lay.toWin IsRaw).openGap n hn⟩

theorem modify_ok {i : Nat} {f : Buf T → Nat → R (Buf T)} {p : Nat} {b : Buf T} (hp : a.rowPtr i = p)
    (h : f a.values p = .ok b) : (target inc i).modify a f = .ok { a with values := b } := by
  show (f a.values (a.rowPtr i) >>= fun b => Except.ok { a with values := b }) = _
  rw [hp, h]; rfl

theorem insertSound (vs : List T) : InsertSound c (target inc A.length) id vs (Mid IsRaw A B xs) where
  read := fun s f g b h i hi => by
    show s.values.read (s.rowPtr A.length + i) = _
    rw [h.rowPtr]
    obtain ⟨a0, cap, _, _, w⟩ := h
    exact w.read_front i hi
  step := fun s f1 f2 g b i hi h => by
    have hp := h.rowPtr
    obtain ⟨a0, cap, hg, hs, w⟩ := h
    obtain ⟨b1, b2, e1, e2, e3⟩ := w.insertStep c vs[i]
    exact ⟨_, _, _, modify_ok hp e1, modify_ok (a := { s with values := b1 }) hp e2, rfl, a0, cap, hg, hs, e3⟩
  set := fun s f g hi h => by
    have hp := h.rowPtr
    obtain ⟨a0, cap, hg, hs, w⟩ := h
    obtain ⟨b1, e1, e2⟩ := w.setStep c vs[f.length]
    exact ⟨_, _, modify_ok hp e1, rfl, a0, cap, hg, hs, e2⟩

theorem removeSound : RemoveSound c (target inc A.length) id (Mid NotRaw A B xs) where
  read := fun s kept d rest h i hi => by
    show s.values.read (s.rowPtr A.length + (kept.length + d + i)) = _
    rw [h.rowPtr]
    obtain ⟨a0, cap, _, _, w⟩ := h
    rw [w.read_back i hi]; rfl
  split := fun s f1 f2 h => by
    obtain ⟨a0, cap, hg, hs, w⟩ := h
    exact ⟨a0, cap, hg, hs, w.split _⟩
  step := fun s kept d x f rest h => by
    have hp := h.rowPtr
    obtain ⟨a0, cap, hg, hs, w⟩ := h
    obtain ⟨b1, e1, e2⟩ := w.removeStep c
    exact ⟨_, _, modify_ok hp e1, rfl, a0, cap, hg, hs, e2⟩

/-- Writing the size ends the modification. -/
theorem Mid.finish {Q : Cell T → Prop} {f bk : List T} (h : Mid Q A B xs a f 0 bk) :
    ∃ s' cap', a.shape.setSize c A.length (f ++ bk).length = .ok s' ∧ AGood { a with shape := s' } (A ++ (f ++ bk, cap') :: B) := by
  obtain ⟨a0, cap, hg, hs, w⟩ := h
  have w' := w.join IsRaw [] (f ++ bk) (by simp)
  obtain ⟨s', h1, h2⟩ := hg.afterRow (c := c) w'
  exact ⟨s', cap, by rw [hs]; exact h1, h2⟩

variable {S : Finset T}

theorem readRow (h : AGood a (A ++ (xs, cap) :: B)) (i : Nat) (hi : i < xs.length) :
    (target inc A.length).read a i = .ok (id xs[i]) := by
  show a.values.read (a.rowPtr A.length + i) = _
  rw [h.rowPtr]
  exact (h.lay.toWin IsRaw).read_front i hi

/-- `insertIntoSet( i, value )` when `incrementSize` succeeds. -/
theorem insert_ok (h : AGood a (A ++ (S.sort (· ≤ ·), cap) :: B)) (v : T)
    (hinc : ∀ n, S.card + n ≤ (Insert.insert v S).card → ∃ a1 cap1, (target inc A.length).incrementSize a n = .ok a1 ∧
      AGood a1 (A ++ (S.sort (· ≤ ·), cap1) :: B) ∧ S.card + n ≤ cap1) :
    ∃ a' cap', insertIntoSet c inc a A.length v = .ok (a', decide (v ∉ S)) ∧
      AGood a' (A ++ ((Insert.insert v S).sort (· ≤ ·), cap') :: B) := by
  obtain ⟨s', ys, e1, hm, hys, hmem⟩ := insertOne_spec c (target inc A.length) id (S.sort (· ≤ ·)) v a
    (fun i hi => readRow h i hi) (sort_increasing S) (fun s ys => Mid IsRaw A B (S.sort (· ≤ ·)) s ys 0 [])
    (fun _ => by
      obtain ⟨a1, cap1, q1, q2, q3⟩ := hinc 0 (by
        have := Finset.card_le_card (Finset.subset_insert v S); omega)
      exact ⟨a1, q1, Mid.start q2 _⟩)
    (fun habs f1 f2 hx => by
      have hv : v ∉ S := fun hh => habs v (by simpa using hh) rfl
      obtain ⟨a1, cap1, q1, q2, q3⟩ := hinc 1 (by rw [Finset.card_insert_of_notMem hv])
      have hw := q2.lay.toWin IsRaw
      have hp := q2.rowPtr
      have hl : (f1 ++ f2).length = S.card := by rw [← hx]; simp
      rw [hx] at hw
      obtain ⟨b1, e1, e2⟩ := hw.emplace c v (by omega)
      rw [hx]
      exact ⟨a1, _, _, q1, modify_ok hp e1, rfl, a1, cap1, hx ▸ q2, rfl, e2⟩)
  have hys' : ys = (Insert.insert v S).sort (· ≤ ·) := by
    refine sort_of_increasing hys (fun x => ?_)
    rw [hmem x, Finset.mem_insert]
    simp only [Finset.mem_sort, id_eq]
    constructor
    · rintro (h | ⟨h, _⟩)
      · exact Or.inr h
      · exact Or.inl h
    · rintro (rfl | h)
      · by_cases hx : x ∈ S
        · exact Or.inl hx
        · exact Or.inr ⟨rfl, fun y hy e => hx (e ▸ hy)⟩
      · exact Or.inl h
  have hdec : decide (∀ x ∈ S.sort (· ≤ ·), id x ≠ id v) = decide (v ∉ S) := by
    congr 1
    apply propext
    simp only [Finset.mem_sort, id_eq]
    exact ⟨fun h hv => h v hv rfl, fun h x hx e => h (e ▸ hx)⟩
  rw [hdec, id_eq] at e1
  obtain ⟨s2, cap', e2, hg⟩ := hm.finish (c := c)
  rw [List.append_nil, hys'] at e2 hg
  unfold insertIntoSet
  rw [h.checkBounds (by simp), bind_ok, h.shape.sizeOfAt rfl, bind_ok, h.ptr, bind_ok]
  simp only
  rw [e1, bind_ok]
  simp only
  have hc : (S.sort (· ≤ ·)).length + (if decide (v ∉ S) = true then 1 else 0) = ((Insert.insert v S).sort (· ≤ ·)).length := by
    by_cases hv : v ∈ S <;> simp [hv]
  rw [hc, e2, bind_ok]
  exact ⟨_, cap', rfl, hg⟩

theorem insert_err (h : AGood a (A ++ (S.sort (· ≤ ·), cap) :: B)) (v : T) (hv : v ∉ S) (e : Err)
    (hinc : (target inc A.length).incrementSize a 1 = .error e) :
    insertIntoSet c inc a A.length v = .error e := by
  have := insertOne_abort c (target inc A.length) id (S.sort (· ≤ ·)) v a (fun i hi => readRow h i hi)
    (sort_increasing S) (by simp only [Finset.mem_sort, id_eq]; exact fun x hx e => hv (e ▸ hx)) e hinc
  unfold insertIntoSet
  rw [h.checkBounds (by simp), bind_ok, h.shape.sizeOfAt rfl, bind_ok, h.ptr, bind_ok]
  simp only
  rw [id_eq] at this
  rw [this, bind_err]

theorem insertMany_ok [Inhabited T] (h : AGood a (A ++ (S.sort (· ≤ ·), cap) :: B)) (vs : List T) (hv : Spec.sortedUnique vs)
    (hinc : ∃ a1 cap1, (target inc A.length).incrementSize a (vs.toFinset \ S).card = .ok a1 ∧
      AGood a1 (A ++ (S.sort (· ≤ ·), cap1) :: B) ∧ S.card + (vs.toFinset \ S).card ≤ cap1) :
    ∃ a' cap', insertRangeIntoSet c inc a A.length vs = .ok (a', (vs.toFinset \ S).card) ∧
      AGood a' (A ++ ((S ∪ vs.toFinset).sort (· ≤ ·), cap') :: B) := by
  obtain ⟨a1, cap1, q1, q2, q3⟩ := hinc
  have hn := SortedArr.newCount_card S vs hv
  rw [← hn] at q1 q3
  obtain ⟨s', f, bk, e1, e2, e3, e4⟩ := insertRange_spec (α := T) c (target inc A.length) id vs (S.sort (· ≤ ·))
    _ (insertSound (B := B) (xs := S.sort (· ≤ ·)) vs) (sort_increasing S) hv a a1 (Mid.start h _) q1
    (Mid.open q2 _ (by simpa using q3))
  have hys : f ++ bk = (S ∪ vs.toFinset).sort (· ≤ ·) := by
    refine sort_of_increasing e3 (fun x => ?_)
    rw [e4 x, Finset.mem_union, List.mem_toFinset]
    simp only [Finset.mem_sort, id_eq]
    constructor
    · rintro (h | h)
      · exact Or.inl h
      · exact Or.inr h.1
    · intro h
      by_cases hx : x ∈ S
      · exact Or.inl hx
      · exact Or.inr ⟨h.resolve_left hx, fun y hy e => hx (e ▸ hy)⟩
  obtain ⟨s2, cap', e5, hg⟩ := e2.finish (c := c)
  rw [hys] at e5 hg
  unfold insertRangeIntoSet
  rw [h.checkBounds (by simp), bind_ok, h.shape.sizeOfAt rfl, bind_ok, h.ptr, bind_ok]
  simp only
  rw [List.map_id] at e1
  rw [e1, bind_ok, hn]
  simp only
  have hc : (S.sort (· ≤ ·)).length + (vs.toFinset \ S).card = ((S ∪ vs.toFinset).sort (· ≤ ·)).length := by
    simp [SortedArr.card_union_eq S vs]
  rw [hc, e5, bind_ok]
  exact ⟨_, cap', rfl, hg⟩

theorem insertMany_err [Inhabited T] (h : AGood a (A ++ (S.sort (· ≤ ·), cap) :: B)) (vs : List T) (hv : Spec.sortedUnique vs)
    (e : Err) (hinc : (target inc A.length).incrementSize a (vs.toFinset \ S).card = .error e) :
    insertRangeIntoSet c inc a A.length vs = .error e := by
  rw [← SortedArr.newCount_card S vs hv] at hinc
  have := insertRange_abort (α := T) c (target inc A.length) id vs (S.sort (· ≤ ·)) a (fun i hi => readRow h i hi)
    (sort_increasing S) hv e hinc
  unfold insertRangeIntoSet
  rw [h.checkBounds (by simp), bind_ok, h.shape.sizeOfAt rfl, bind_ok, h.ptr, bind_ok]
  simp only
  rw [List.map_id] at this
  rw [this, bind_err]

theorem remove_ok (h : AGood a (A ++ (S.sort (· ≤ ·), cap) :: B)) (v : T) :
    ∃ a' cap', removeFromSet c a A.length v = .ok (a', decide (v ∈ S)) ∧
      AGood a' (A ++ ((S.erase v).sort (· ≤ ·), cap') :: B) := by
  obtain ⟨s', e1, hm⟩ := removeOne_spec c (target (checking c A.length) A.length) id (S.sort (· ≤ ·)) v a
    (fun i hi => readRow h i hi) (sort_increasing S) (fun s ys => Mid IsRaw A B (S.sort (· ≤ ·)) s ys 0 [])
    (Mid.start h _)
    (fun f1 x f2 hx => by
      have hw := h.lay.toWin IsRaw
      have hp := h.rowPtr
      rw [hx] at hw
      obtain ⟨b1, e1, e2⟩ := hw.eraseOne c
      rw [hx]
      exact ⟨_, _, modify_ok hp e1, rfl, a, cap, hx ▸ h, rfl, e2⟩)
  have hdec : decide (∃ x ∈ S.sort (· ≤ ·), id x = v) = decide (v ∈ S) := by
    congr 1
    apply propext
    simp
  rw [hdec] at e1
  have hys : (S.sort (· ≤ ·)).filter (fun x => decide (id x ≠ v)) = (S.erase v).sort (· ≤ ·) :=
    sort_of_increasing ((sort_increasing S).filter _) (fun x => by simp [and_comm])
  obtain ⟨s2, cap', e2, hg⟩ := hm.finish (c := c)
  rw [List.append_nil, hys] at e2 hg
  unfold removeFromSet
  rw [h.checkBounds (by simp), bind_ok, h.shape.sizeOfAt rfl, bind_ok, h.ptr, bind_ok]
  simp only
  rw [e1, bind_ok]
  simp only
  have hc : (S.sort (· ≤ ·)).length - (if decide (v ∈ S) = true then 1 else 0) = ((S.erase v).sort (· ≤ ·)).length := by
    by_cases hv : v ∈ S <;> simp [hv, Finset.card_erase_of_mem]
  rw [hc, e2, bind_ok]
  exact ⟨_, cap', rfl, hg⟩

theorem removeMany_ok (h : AGood a (A ++ (S.sort (· ≤ ·), cap) :: B)) (vs : List T) (hv : Spec.sortedUnique vs) :
    ∃ a' cap', removeRangeFromSet c a A.length vs = .ok (a', (S ∩ vs.toFinset).card) ∧
      AGood a' (A ++ ((S \ vs.toFinset).sort (· ≤ ·), cap') :: B) := by
  obtain ⟨s', e1, hm⟩ := removeRange_spec c (target (checking c A.length) A.length) id _ (removeSound (B := B) (xs := S.sort (· ≤ ·)))
    (S.sort (· ≤ ·)) vs a (sort_increasing S) hv (by
      obtain ⟨a0, cap, hg, hs, w⟩ := Mid.start h NotRaw
      exact ⟨a0, cap, hg, hs, w.join NotRaw (S.sort (· ≤ ·)) [] (by simp)⟩)
    (fun s ys => Mid IsRaw A B (S.sort (· ≤ ·)) s ys 0 []) (Mid.start h _)
    (fun s kept d hkd hk => by
      have hp := hk.rowPtr
      obtain ⟨a0, cap, hg, hs, w⟩ := hk
      obtain ⟨b1, q1, q2⟩ := w.destroyTail c (S.sort (· ≤ ·)).length hkd IsRaw
      exact ⟨_, modify_ok hp q1, a0, cap, hg, hs, q2⟩)
  have hcount : ((S.sort (· ≤ ·)).filter (fun x => decide (id x ∈ vs))).length = (S ∩ vs.toFinset).card := by
    rw [← List.toFinset_card_of_nodup]
    · congr 1
      ext x
      simp
    · exact ((sort_increasing S).imp (fun hab => ne_of_lt hab)).filter _
  have hys : (S.sort (· ≤ ·)).filter (fun x => decide (id x ∉ vs)) = (S \ vs.toFinset).sort (· ≤ ·) :=
    sort_of_increasing ((sort_increasing S).filter _) (fun x => by simp)
  obtain ⟨s2, cap', e2, hg⟩ := hm.finish (c := c)
  rw [List.append_nil, hys] at e2 hg
  rw [hcount] at e1
  unfold removeRangeFromSet
  rw [h.checkBounds (by simp), bind_ok, h.shape.sizeOfAt rfl, bind_ok, h.ptr, bind_ok]
  simp only
  rw [e1, bind_ok]
  simp only
  have hc : (S.sort (· ≤ ·)).length - (S ∩ vs.toFinset).card = ((S \ vs.toFinset).sort (· ≤ ·)).length := by
    simp only [Finset.length_sort, Finset.card_sdiff]
    rw [Finset.inter_comm]
  rw [hc, e2, bind_ok]
  exact ⟨_, cap', rfl, hg⟩

theorem contains_ok (h : AGood a (A ++ (S.sort (· ≤ ·), cap) :: B)) (v : T) :
    contains c a A.length v = .ok (decide (v ∈ S)) := by
  unfold AoS.contains sortedArrayManipulation.contains
  rw [h.checkBounds (by simp), bind_ok, h.shape.sizeOfAt rfl, bind_ok, h.ptr, bind_ok]
  have hread : ∀ i (hi : i < (S.sort (· ≤ ·)).length), a.values.read (total A + i) = .ok (id (S.sort (· ≤ ·))[i]) :=
    fun i hi => (h.lay.toWin IsRaw).read_front i hi
  obtain ⟨f1, f2, hx, hf, h1, h2⟩ := find_split c id (fun k => a.values.read (total A + k)) (S.sort (· ≤ ·)) v (sort_increasing S) hread
  simp only
  rw [hf, bind_ok]
  have := present_eq id (fun k => a.values.read (total A + k)) f1 f2 v (by rw [← hx]; exact hread) h2 (hx ▸ sort_increasing S)
  rw [← hx] at this
  rw [this]
  congr 2
  apply propext
  have : ∀ x, x ∈ S ↔ x ∈ f1 ++ f2 := fun x => by rw [← hx]; simp
  rw [this]
  simp only [id_eq, List.mem_append]
  constructor
  · rintro ⟨x, hx, rfl⟩; exact Or.inr hx
  · rintro (hh | hh)
    · exact absurd (h1 v hh) (by simp)
    · exact ⟨v, hh, rfl⟩

/-! ### The other operations on one set -/

theorem clearSet_ok [Inhabited T] (h : AGood a (A ++ (xs, cap) :: B)) :
    ∃ a', clearSet c a A.length = .ok a' ∧ AGood a' (A ++ ([], cap) :: B) := by
  unfold clearSet
  obtain ⟨b1, h1, w⟩ := (h.lay.toWin IsRaw).resizeTo (c := c) 0 (by omega) default
  obtain ⟨s', h2, hg⟩ := h.afterRow (c := c) w
  have hl : (xs.take 0 ++ List.replicate (0 - xs.length) (default : T)) = [] := by simp
  rw [hl] at h2 hg
  rw [h.checkBounds (by simp), bind_ok, h.shape.sizeOfAt rfl, bind_ok, h.ptr, bind_ok, h1, bind_ok]
  rw [List.length_nil] at h2
  rw [h2, bind_ok]
  exact ⟨_, rfl, hg⟩

/-! ### Growing -/

theorem incrementSize_owning (h : AGood a (A ++ (xs, cap) :: B)) (n : Nat) :
    (∃ a1 cap1, (target (growing c A.length) A.length).incrementSize a n = .ok a1 ∧ AGood a1 (A ++ (xs, cap1) :: B) ∧
      xs.length + n ≤ cap1) ∨
    (c.trivial = false ∧ cap < xs.length + n ∧ (target (growing c A.length) A.length).incrementSize a n = .error (.ub .rawRead)) := by
  show (∃ a1 cap1, a.dynamicallyGrowArray c A.length n = .ok a1 ∧ _ ∧ _) ∨ _
  rcases h.dynamicallyGrow (c := c) n with ⟨_, a1, h1, h2, _⟩ | ⟨h1, h2⟩
  · exact .inl ⟨a1, _, h1, h2, AGood.le_grownTo _ _ _⟩
  · refine .inr ⟨?_, ?_, h2⟩
    · cases hc : c.trivial
      · rfl
      · exact absurd (.inr (.inl hc)) h1
    · by_contra hlt
      refine h1 (.inl ?_)
      have := h.lay.room
      unfold AGood.grownTo
      rw [if_neg hlt]
      exact this

end AoS

/-- What a call produces: the given state and result, or, for elements that are not trivially copyable, a relocation of memory
without objects. -/
def AoS.Outcome (c : Cfg) (r : R (AoA T × AoSOut T)) (P : AoA T → Prop) (out : AoSOut T) : Prop :=
  (∃ a', r = .ok (a', out) ∧ P a') ∨ (c.trivial = false ∧ r = .error (.ub .rawRead))

/-- The object holds these sets. -/
def SetsGood (a : AoA T) (sets : List (Finset T)) : Prop :=
  ∃ L : Layout T, AGood a L ∧ L.map (·.1) = sets.map (·.sort (· ≤ ·))

theorem SetsGood.at {a : AoA T} {sets : List (Finset T)} (h : SetsGood a sets) {i : Nat} {S : Finset T}
    (hi : sets[i]? = some S) :
    ∃ A cap B, A.length = i ∧ AGood a (A ++ (S.sort (· ≤ ·), cap) :: B) ∧
      (∀ (S' : Finset T) cap' a', AGood a' (A ++ (S'.sort (· ≤ ·), cap') :: B) → SetsGood a' (sets.set i S')) := by
  obtain ⟨L, hg, hL⟩ := h
  obtain ⟨hlt, hS⟩ := List.getElem?_eq_some_iff.1 hi
  have hlen : L.length = sets.length := by simpa using congrArg List.length hL
  obtain ⟨A, xs, cap, B, rfl, rfl, hx⟩ := split1 (by omega : i < L.length)
  have hxs : xs = S.sort (· ≤ ·) := by
    have := congrArg (·[A.length]?) hL
    simp at this
    rw [hi] at this
    exact (by simpa using this : S.sort (· ≤ ·) = xs).symm
  subst hxs
  refine ⟨A, cap, B, rfl, hg, ?_⟩
  intro S' cap' a' hg'
  refine ⟨_, hg', ?_⟩
  rw [List.map_set, ← hL]
  simp

namespace AoS

variable {c : Cfg} {a : AoA T} {sets : List (Finset T)}

/-- An operation inherited from the parent class. -/
theorem parent [Inhabited T] (h : SetsGood a sets) (op : AoAOp T) (hop : op.nonEmptyInsert) (sets' : List (Finset T))
    (hs : Spec.vvStep (sets.map (·.sort (· ≤ ·))) op = some (sets'.map (·.sort (· ≤ ·)))) :
    Outcome c (a.step c op >>= fun a => .ok (a, .unit)) (SetsGood · sets') .unit := by
  obtain ⟨L, hg, hL⟩ := h
  have := vvcStep_fst L op
  rw [hL, hs] at this
  cases h1 : Spec.vvcStep L op with
  | none => rw [h1] at this; cases this
  | some L' =>
    rw [h1] at this
    simp only [Option.map_some, Option.some.injEq] at this
    rcases step_exact c hg op h1 (fun _ => hop) with ⟨_, a', h2, h3, _⟩ | ⟨h2, h3⟩
    · rw [h2, bind_ok]
      exact .inl ⟨a', rfl, L', h3, this⟩
    · rw [h3, bind_err]
      refine .inr ⟨?_, rfl⟩
      cases hc : c.trivial
      · rfl
      · exact absurd (.inr (.inl hc)) h2

theorem sort_take_toFinset (S : Finset T) (n : Nat) :
    (((S.sort (· ≤ ·)).take n).toFinset).sort (· ≤ ·) = (S.sort (· ≤ ·)).take n :=
  (sort_of_increasing ((sort_increasing S).sublist (List.take_sublist _ _)) (by simp)).symm

/-- Setting the capacity of a set to which nothing has been inserted. -/
theorem setCapacity_new {A B : Layout T} (h : AGood a (A ++ ([], 0) :: B)) (n : Nat) :
    (∃ a', a.setCapacityOfArray c A.length n = .ok a' ∧ AGood a' (A ++ ([], n) :: B)) ∨
    (c.trivial = false ∧ a.setCapacityOfArray c A.length n = .error (.ub .rawRead)) := by
  rcases h.setCapacity (c := c) n with ⟨_, a', h1, h2, _⟩ | ⟨h1, h2⟩
  · exact .inl ⟨a', h1, by simpa using h2⟩
  · refine .inr ⟨?_, h2⟩
    cases hc : c.trivial
    · rfl
    · exact absurd (.inr (.inl hc)) h1

theorem step_ok [Inhabited T] (h : SetsGood a sets) (op : AoSOp T) (sets' : List (Finset T)) (out : AoSOut T)
    (hs : Spec.aosStep sets op = some (sets', out)) : Outcome c (AoS.step c a op) (SetsGood · sets') out := by
  cases op with
  | insert i v =>
    simp only [Spec.aosStep, Spec.onSet, Option.map_eq_some_iff, Prod.mk.injEq] at hs
    obtain ⟨S, hS, rfl, rfl⟩ := hs
    obtain ⟨A, cap, B, rfl, hg, hset⟩ := h.at hS
    simp only [AoS.step]
    by_cases hinc : ∃ e, (target (growing c A.length) A.length).incrementSize a 1 = .error e ∧ v ∉ S
    · obtain ⟨e, he, hv⟩ := hinc
      rw [insert_err hg v hv e he, bind_err]
      rcases incrementSize_owning (c := c) hg 1 with ⟨a1, cap1, h1, _⟩ | ⟨h1, _, h2⟩
      · rw [h1] at he; cases he
      · rw [h2] at he; cases he; exact .inr ⟨h1, rfl⟩
    · obtain ⟨a', cap', h1, h2⟩ := insert_ok (c := c) (inc := growing c A.length) hg v (fun n hn => by
        rcases incrementSize_owning (c := c) hg n with ⟨a1, cap1, h1, h2, h3⟩ | ⟨h1, h2, h3⟩
        · exact ⟨a1, cap1, h1, h2, by simpa using h3⟩
        · exfalso
          have hf := hg.lay.fits (S.sort (· ≤ ·), cap) (by simp)
          simp only [Finset.length_sort] at hf h2
          by_cases hv : v ∈ S
          · rw [Finset.insert_eq_of_mem hv] at hn; omega
          · rw [Finset.card_insert_of_notMem hv] at hn
            have : n = 1 := by omega
            subst this
            exact hinc ⟨_, h3, hv⟩)
      rw [h1, bind_ok]
      exact .inl ⟨a', rfl, hset _ _ _ h2⟩
  | insertMany i vs =>
    simp only [Spec.aosStep] at hs
    split at hs
    · rename_i hv
      simp only [Spec.onSet, Option.map_eq_some_iff, Prod.mk.injEq] at hs
      obtain ⟨S, hS, rfl, rfl⟩ := hs
      obtain ⟨A, cap, B, rfl, hg, hset⟩ := h.at hS
      simp only [AoS.step]
      rcases incrementSize_owning (c := c) hg (vs.toFinset \ S).card with ⟨a1, cap1, h1, h2, h3⟩ | ⟨h1, h2, h3⟩
      · obtain ⟨a', cap', h4, h5⟩ := insertMany_ok (inc := growing c A.length) hg vs hv ⟨a1, cap1, h1, h2, by simpa using h3⟩
        rw [h4, bind_ok]
        exact .inl ⟨a', rfl, hset _ _ _ h5⟩
      · rw [insertMany_err hg vs hv _ h3, bind_err]
        exact .inr ⟨h1, rfl⟩
    · cases hs
  | remove i v =>
    simp only [Spec.aosStep, Spec.onSet, Option.map_eq_some_iff, Prod.mk.injEq] at hs
    obtain ⟨S, hS, rfl, rfl⟩ := hs
    obtain ⟨A, cap, B, rfl, hg, hset⟩ := h.at hS
    obtain ⟨a', cap', h1, h2⟩ := remove_ok (c := c) hg v
    simp only [AoS.step]
    rw [h1, bind_ok]
    exact .inl ⟨a', rfl, hset _ _ _ h2⟩
  | removeMany i vs =>
    simp only [Spec.aosStep] at hs
    split at hs
    · rename_i hv
      simp only [Spec.onSet, Option.map_eq_some_iff, Prod.mk.injEq] at hs
      obtain ⟨S, hS, rfl, rfl⟩ := hs
      obtain ⟨A, cap, B, rfl, hg, hset⟩ := h.at hS
      obtain ⟨a', cap', h1, h2⟩ := removeMany_ok (c := c) hg vs hv
      simp only [AoS.step]
      rw [h1, bind_ok]
      exact .inl ⟨a', rfl, hset _ _ _ h2⟩
    · cases hs
  | contains i v =>
    simp only [Spec.aosStep, Spec.onSet, Option.map_eq_some_iff, Prod.mk.injEq, id_eq] at hs
    obtain ⟨S, hS, rfl, rfl⟩ := hs
    obtain ⟨A, cap, B, rfl, hg, hset⟩ := h.at hS
    simp only [AoS.step]
    rw [contains_ok hg v, bind_ok]
    exact .inl ⟨a, rfl, hset S cap a hg⟩
  | get i j =>
    simp only [Spec.aosStep, Option.bind_eq_some_iff, Option.map_eq_some_iff, Prod.mk.injEq] at hs
    obtain ⟨S, hS, v, hv, rfl, rfl⟩ := hs
    obtain ⟨A, cap, B, rfl, hg, hset⟩ := h.at hS
    obtain ⟨hj, hv⟩ := List.getElem?_eq_some_iff.1 hv
    simp only [AoS.step]
    rw [hg.get j hj, bind_ok, hv]
    exact .inl ⟨a, rfl, h⟩
  | clearSet i =>
    simp only [Spec.aosStep, Spec.onSet, Option.map_eq_some_iff, Prod.mk.injEq] at hs
    obtain ⟨S, hS, rfl, rfl⟩ := hs
    obtain ⟨A, cap, B, rfl, hg, hset⟩ := h.at hS
    obtain ⟨a', h1, h2⟩ := clearSet_ok (c := c) hg
    simp only [AoS.step]
    rw [h1, bind_ok]
    exact .inl ⟨a', rfl, hset ∅ cap a' (by simpa using h2)⟩
  | setCapacityOfSet i n =>
    simp only [Spec.aosStep, Spec.onSet, Option.map_eq_some_iff, Prod.mk.injEq] at hs
    obtain ⟨S, hS, rfl, rfl⟩ := hs
    refine parent h (.setCapacityOfArray i n) trivial _ ?_
    simp only [Spec.vvStep, Spec.onRow, List.getElem?_map, hS, Option.map_some, if_true]
    rw [List.map_set, sort_take_toFinset]
  | reserveCapacityOfSet i n =>
    simp only [Spec.aosStep, Spec.onSet, Option.map_eq_some_iff, Prod.mk.injEq, id_eq] at hs
    obtain ⟨S, hS, rfl, rfl⟩ := hs
    obtain ⟨A, cap, B, rfl, hg, hset⟩ := h.at hS
    simp only [AoS.step, reserveCapacityOfSet, AoA.growIf]
    rw [hg.checkBounds (by simp), bind_ok, hg.shape.capacityOfAt rfl, bind_ok]
    simp only
    by_cases hn : cap < n
    · rw [if_pos (by simpa using hn)]
      have hf := hg.lay.fits (S.sort (· ≤ ·), cap) (by simp)
      simp only at hf
      rcases hg.setCapacity (c := c) n with ⟨_, a', h1, h2, _⟩ | ⟨h1, h2⟩
      · rw [h1, bind_ok]
        rw [List.take_of_length_le (by omega)] at h2
        exact .inl ⟨a', rfl, hset S n a' h2⟩
      · rw [h2, bind_err]
        refine .inr ⟨?_, rfl⟩
        cases hc : c.trivial
        · rfl
        · exact absurd (.inr (.inl hc)) h1
    · rw [if_neg (by simpa using hn), bind_ok]
      exact .inl ⟨a, rfl, hset S cap a hg⟩
  | appendSet n =>
    simp only [Spec.aosStep, Option.some.injEq, Prod.mk.injEq] at hs
    obtain ⟨rfl, rfl⟩ := hs
    obtain ⟨L, hg, hL⟩ := h
    obtain ⟨s', h1, h2, h3⟩ := hg.appendRow (c := c)
    simp only [AoS.step, AoS.appendSet]
    rw [h1, bind_ok, h2, Nat.add_sub_cancel]
    rcases setCapacity_new (c := c) h3 n with ⟨a', h4, h5⟩ | ⟨h4, h5⟩
    · rw [h4, bind_ok]
      exact .inl ⟨a', rfl, _, h5, by simp [hL]⟩
    · rw [h5, bind_err]
      exact .inr ⟨h4, rfl⟩
  | insertSet i n =>
    simp only [Spec.aosStep] at hs
    split at hs
    · rename_i hi
      cases hs
      obtain ⟨L, hg, hL⟩ := h
      have hlen : L.length = sets.length := by simpa using congrArg List.length hL
      obtain ⟨A, B, rfl, rfl⟩ : ∃ A B : Layout T, L = A ++ B ∧ A.length = i :=
        ⟨L.take i, L.drop i, by simp, by simp; omega⟩
      obtain ⟨s', h1, h3⟩ := hg.insertRow (c := c)
      simp only [AoS.step, AoS.insertSet]
      rw [h1, bind_ok]
      have hL' : ∀ k, (A ++ ([], k) :: B).map (·.1) =
          (sets.take A.length ++ ∅ :: sets.drop A.length).map (·.sort (· ≤ ·)) := by
        intro k
        have e1 := congrArg (List.take A.length) hL
        have e2 := congrArg (List.drop A.length) hL
        simp only [List.map_append] at e1 e2
        rw [List.take_left' (by simp)] at e1
        rw [List.drop_left' (by simp)] at e2
        simp only [List.map_append, List.map_cons, List.map_take, List.map_drop, e1, e2]
        simp
      rcases setCapacity_new (c := c) h3 n with ⟨a', h4, h5⟩ | ⟨h4, h5⟩
      · rw [h4, bind_ok]
        exact .inl ⟨a', rfl, _, h5, hL' n⟩
      · rw [h5, bind_err]
        exact .inr ⟨h4, rfl⟩
    · cases hs
  | eraseSet i =>
    simp only [Spec.aosStep] at hs
    split at hs
    · rename_i hi
      cases hs
      refine parent h (.eraseArray i) trivial _ ?_
      simp only [Spec.vvStep, List.length_map, if_pos hi, Option.some.injEq]
      simp [List.eraseIdx_eq_take_drop_succ, List.map_take, List.map_drop]
    · cases hs
  | resize n d =>
    simp only [Spec.aosStep, Option.some.injEq, Prod.mk.injEq] at hs
    obtain ⟨rfl, rfl⟩ := hs
    refine parent h (.resize n d) trivial _ ?_
    simp [Spec.vvStep, List.map_take]
  | resizeFromCapacities cs =>
    simp only [Spec.aosStep, Option.some.injEq, Prod.mk.injEq] at hs
    obtain ⟨rfl, rfl⟩ := hs
    refine parent h (.resizeFromCapacities cs) trivial _ ?_
    simp [Spec.vvStep]
  | reserve n =>
    simp only [Spec.aosStep, Option.some.injEq, Prod.mk.injEq] at hs
    obtain ⟨rfl, rfl⟩ := hs
    exact parent h (.reserve n) trivial _ rfl
  | reserveValues n =>
    simp only [Spec.aosStep, Option.some.injEq, Prod.mk.injEq] at hs
    obtain ⟨rfl, rfl⟩ := hs
    exact parent h (.reserveValues n) trivial _ rfl
  | compress =>
    simp only [Spec.aosStep, Option.some.injEq, Prod.mk.injEq] at hs
    obtain ⟨rfl, rfl⟩ := hs
    exact parent h .compress trivial _ rfl

end AoS

end LvArray
