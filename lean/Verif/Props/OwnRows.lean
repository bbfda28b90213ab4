import Verif.OwnSplitLemmas
import Verif.Props.ArrayOfArrays

/-!
# C73: calls with arguments in the object itself
-/

namespace LvArray.Props

open LvArray Layout Spec

set_option linter.unusedSectionVars false

variable {T : Type} [Inhabited T]

/-- The argument is not split by the position it is inserted at, and is not empty when it is inserted. -/
def Unsplit : OwnCall → Prop
  | .insertIntoArray i pos j lo n => 0 < n ∧ (i = j → lo + n ≤ pos ∨ pos ≤ lo)
  | _ => True

/-- Elements can be relocated together with the unused positions: they are of a trivial type or there are none
(see C24). -/
def Relocatable (c : Cfg) (L : List (List T × Nat)) : Prop := c.trivial = true ∨ ∀ r ∈ L, r.1.length = r.2

theorem total_take_succ (L : Layout T) {j : Nat} (hj : j < L.length) : total (L.take (j + 1)) = total (L.take j) + L[j].2 := by
  rw [List.take_succ_eq_append_getElem hj, total_append, total_cons, total_nil, Nat.add_zero]

theorem total_take_mono (L : Layout T) {i j : Nat} (h : i ≤ j) : total (L.take i) ≤ total (L.take j) := by
  obtain ⟨d, rfl⟩ : ∃ d, j = i + d := ⟨j - i, by omega⟩
  rw [List.take_add]; simp

/-- What is known about the argument. -/
theorem source_facts (c : Cfg) {a : AoA T} {L : Layout T} (hg : AGood a L) (call : OwnCall)
    (hs : call.sourceExists (L.map (·.1))) :
    ∃ hj : call.row < L.length, call.first + call.count ≤ L[call.row].1.length ∧
      (call.values (L.map (·.1))).length = call.count ∧
      total (L.take call.row) + call.first + call.count ≤ a.values.cap ∧
      (∀ k (hk : k < (call.values (L.map (·.1))).length),
        a.values.cell (total (L.take call.row) + call.first + k) = .live (call.values (L.map (·.1)))[k]) ∧
      a.iterator c call.row call.first = .ok (total (L.take call.row) + call.first) ∧
      (0 < call.count → a.element c call.row call.first = .ok (total (L.take call.row) + call.first)) := by
  obtain ⟨r, hr, hle⟩ := hs
  rw [List.getElem?_map, Option.map_eq_some_iff] at hr
  obtain ⟨q, hq, rfl⟩ := hr
  obtain ⟨hj, hjq⟩ := List.getElem?_eq_some_iff.1 hq
  subst hjq
  have hval : call.values (L.map (·.1)) = (L[call.row].1.drop call.first).take call.count := by
    unfold OwnCall.values
    rw [List.getD_eq_getElem?_getD, List.getElem?_map, hq]; rfl
  have hlen : (call.values (L.map (·.1))).length = call.count := by rw [hval]; simp; omega
  have hsplit : L = L.take call.row ++ (L[call.row].1, L[call.row].2) :: L.drop (call.row + 1) := by
    rw [show (L[call.row].1, L[call.row].2) = L[call.row] from rfl, ← List.drop_eq_getElem_cons hj, List.take_append_drop]
  have hg' : AGood a (L.take call.row ++ (L[call.row].1, L[call.row].2) :: L.drop (call.row + 1)) := by rw [← hsplit]; exact hg
  have hlt : (L.take call.row).length = call.row := by simp; omega
  have hfit := hg.lay.fits L[call.row] (List.getElem_mem hj)
  have hroom := hg'.lay.room
  simp only [total_append, total_cons] at hroom
  refine ⟨hj, hle, hlen, by omega, fun k hk => ?_, ?_, fun hc => ?_⟩
  · rw [hg'.lay.cell, Nat.add_assoc, cells_row _ _ _ _ _ (by omega), cellsOf_lt (by omega)]
    simp only [hval, List.getElem_take, List.getElem_drop]
  · have := hg'.iterator (c := c) (by simp) call.first
    rw [hlt] at this; exact this
  · have := hg'.element (c := c) (k := call.first) (by omega)
    rw [hlt] at this; exact this

/-- `found` in terms of the positions. -/
theorem found_eq (t : Bool) {L : Layout T} (call : OwnCall) (hL : ∀ r ∈ L, r.1.length ≤ r.2)
    (hf : ∀ r ∈ opened L call, r.1.length ≤ r.2) {v : T} {k : Nat}
    (hv : cells L (total (L.take call.row) + call.first + k) = .live v) :
    found t L call k = staleValue t v (slotAt (opened L call) (total (L.take call.row) + call.first + k)) := by
  unfold found
  have hst : ∀ r ∈ stored L, r.1.length ≤ r.2 := by
    intro r hr
    unfold stored at hr
    obtain ⟨q, hq, rfl⟩ := List.mem_map.1 hr
    simpa using hL q hq
  have hp : ((L.take call.row).map (·.2)).sum = total (L.take call.row) := rfl
  simp only [hp]
  rw [slots_at hf, slots_at hst, slotAt_stored, hv]
  cases slotAt (opened L call) (total (L.take call.row) + call.first + k) <;> rfl

/-- Rows whose elements are stored contiguously. -/
theorem slotAt_rows (A B : Layout T) (xs : List T) (cap k : Nat) :
    slotAt (stored A ++ (xs.map some, cap) :: stored B) k = (cells (A ++ (xs, cap) :: B) k).value? := by
  rw [← slotAt_stored]; simp

theorem fits_opened {A B : Layout T} {row : List (Option T)} {cap : Nat} (hA : ∀ r ∈ A, r.1.length ≤ r.2)
    (hB : ∀ r ∈ B, r.1.length ≤ r.2) (hrow : row.length ≤ cap) :
    ∀ r ∈ stored A ++ (row, cap) :: stored B, r.1.length ≤ r.2 := by
  intro r hr
  simp only [List.mem_append, List.mem_cons] at hr
  have hst : ∀ M : Layout T, (∀ q ∈ M, q.1.length ≤ q.2) → r ∈ stored M → r.1.length ≤ r.2 := by
    intro M hM hr
    obtain ⟨q, hq, rfl⟩ := List.mem_map.1 hr
    simpa using hM q hq
  rcases hr with hr | rfl | hr
  · exact hst A hA hr
  · exact hrow
  · exact hst B hB hr

theorem grown_zero (n : Nat) : AGood.grownTo ([] : List T) 0 n = grown 0 n := by
  unfold AGood.grownTo grown
  simp

theorem shows_good (c : Cfg) {a : AoA T} {L : Layout T} (h : AGood a L) :
    Shows c a (L.map (·.1)) ∧ Capacities c a (L.map (·.2)) := ⟨shows_of_good h, capacities_of_good h⟩


/-- What a call does when there is room in the allocation: the same as with the values `vs` if those are found, a read of memory
without an object if one is missing. -/
def Finds (c : Cfg) (a : AoA T) (L : List (List T × Nat)) (call : OwnCall) : Prop :=
  (∀ vs : List T, vs.length = call.count → (∀ k (hk : k < vs.length), found c.trivial L call k = some vs[k]) →
    ∃ a' L', vvcStep L (call.withValues vs) = some L' ∧ a.own c call = .ok a' ∧ Shows c a' (L'.map (·.1)) ∧
      Capacities c a' (L'.map (·.2))) ∧
  ((∃ k, k < call.count ∧ found c.trivial L call k = none) → a.own c call = .error (.ub .rawRead))

/-- **C73, exactly.** A member function that is given elements of the object itself first makes room.  If the allocation is large
enough for that, it then uses what is found at the old positions of its arguments.  If it is not, the arguments are gone. -/
theorem C73_exact (c : Cfg) {a : AoA T} {L : List (List T × Nat)} (h : Reach c a L) (call : OwnCall)
    (hs : call.sourceExists (L.map (·.1))) (ht : call.targetExists (L.map (·.1))) (hu : Unsplit call) :
    (extent (opened L call) ≤ a.values.cap → Finds c a L call) ∧
    (a.values.cap < extent (opened L call) →
      (Relocatable c L → a.own c call = .error (.ub .dangling)) ∧
      (¬ Relocatable c L → a.own c call = .error (.ub .rawRead))) := by
  have hg := reach_good h
  obtain ⟨hj, hle, hlen, hpc, hold, hit, hel⟩ := source_facts c hg call hs
  have hrow := total_take_succ L hj
  have hfit := hg.lay.fits L[call.row] (List.getElem_mem hj)
  have hfits := hg.lay.fits
  -- what is found
  have hfound : (∀ r ∈ opened L call, r.1.length ≤ r.2) → ∀ k (hk : k < (call.values (L.map (·.1))).length),
      found c.trivial L call k = staleValue c.trivial (call.values (L.map (·.1)))[k]
        (slotAt (opened L call) (total (L.take call.row) + call.first + k)) := fun hf k hk =>
    found_eq c.trivial call hg.lay.fits hf (by rw [← hg.lay.cell]; exact hold k hk)
  -- where the argument is in relation to the target
  have hbefore : ∀ (i : Nat), call.row < i → total (L.take call.row) + call.first + call.count ≤ total (L.take i) := by
    intro i hi
    have := total_take_mono L (show call.row + 1 ≤ i by omega)
    omega
  have hafter : ∀ (i : Nat) (hi : i < L.length), i < call.row → total (L.take i) + L[i].2 ≤ total (L.take call.row) := by
    intro i hi hlt
    rw [← total_take_succ L hi]
    exact total_take_mono L (by omega)
  have happend : ∀ (i : Nat) (hi : i < L.length),
      total (L.take call.row) + call.first + call.count ≤ total (L.take i) + L[i].1.length ∨
      total (L.take i) + L[i].1.length ≤ total (L.take call.row) + call.first := by
    intro i hi
    rcases Nat.lt_trichotomy call.row i with h1 | h1 | h1
    · exact .inl (by have := hbefore i h1; omega)
    · subst h1; exact .inl (by omega)
    · have := hafter i hi h1
      have := hg.lay.fits L[i] (List.getElem_mem hi)
      exact .inr (by omega)
  generalize hsrc : call.values (L.map (·.1)) = src at hlen hold hfound
  generalize hP : total (L.take call.row) + call.first = p at *
  have hmov : Relocatable c L ↔ Lay.Movable c L := Iff.rfl
  cases call with
  | emplaceBack i j k =>
    simp only [OwnCall.targetExists, List.length_map] at ht
    simp only [OwnCall.count] at hlen hpc hel hle
    obtain ⟨v, rfl⟩ : ∃ v, src = [v] := by
      match src, hlen with
      | [v], _ => exact ⟨v, rfl⟩
    obtain ⟨A, xs, cap, B, hL, rfl, _⟩ := split1 ht
    subst hL
    have hA : ∀ r ∈ A, r.1.length ≤ r.2 := fun r hr => hfits r (by simp [hr])
    have hB : ∀ r ∈ B, r.1.length ≤ r.2 := fun r hr => hfits r (by simp [hr])
    have hop : opened (A ++ (xs, cap) :: B) (.emplaceBack A.length j k)
        = stored A ++ (xs.map some, AGood.grownTo xs cap 1) :: stored B := by
      simp only [opened]
      rw [stored_modify]
      simp only [List.length_map]
      rfl
    have hf : ∀ r ∈ opened (A ++ (xs, cap) :: B) (.emplaceBack A.length j k), r.1.length ≤ r.2 := by
      rw [hop]
      exact fits_opened hA hB (by have := AGood.le_grownTo xs cap 1; simp; omega)
    have hext : extent (opened (A ++ (xs, cap) :: B) (.emplaceBack A.length j k)) = total (A ++ (xs, AGood.grownTo xs cap 1) :: B) := by
      rw [hop]; simp
    have hrun : a.own c (.emplaceBack A.length j k) =
        (a.dynamicallyGrowArray c A.length 1 >>= fun a1 => AoA.viewEmplaceBackOwn c a a1 A.length p) := by
      simp only [AoA.own]
      rw [show a.element c j k = .ok p from hel (by omega), bind_ok]
    obtain ⟨h1, h2⟩ := hg.emplaceBackOwn (c := c) (p := p) (v := v) hpc (hold 0 (by simp))
    have hf0 := hfound hf 0 (by simp)
    rw [hop, slotAt_rows] at hf0
    rw [hext]
    refine ⟨fun hle' => ?_, fun hlt => by rw [hrun, hmov]; exact h2 hlt⟩
    obtain ⟨k1, k2⟩ := h1 hle'
    refine ⟨fun vs hl hvs => ?_, ?_⟩
    · obtain ⟨w, rfl⟩ : ∃ w, vs = [w] := by
        match vs, hl with
        | [w], _ => exact ⟨w, rfl⟩
      have := hvs 0 (by simp)
      rw [hf0] at this
      obtain ⟨a', e, g⟩ := k1 w this
      refine ⟨a', _, ?_, by rw [hrun]; exact e, shows_good c g⟩
      simp [OwnCall.withValues, vvcStep, onRowC, grown_eq]
    · rintro ⟨k', hk', hn⟩
      have : k' = 0 := by simp only [OwnCall.count] at hk'; omega
      subst this
      rw [hf0] at hn
      rw [hrun]; exact k2 hn
  | appendToArray i j lo n =>
    simp only [OwnCall.targetExists, List.length_map] at ht
    simp only [OwnCall.count] at hlen hpc hle
    subst hlen
    have happ := happend i ht
    obtain ⟨A, xs, cap, B, hL, rfl, _⟩ := split1 ht
    subst hL
    have hA : ∀ r ∈ A, r.1.length ≤ r.2 := fun r hr => hfits r (by simp [hr])
    have hB : ∀ r ∈ B, r.1.length ≤ r.2 := fun r hr => hfits r (by simp [hr])
    simp only [OwnCall.count, List.take_left, List.getElem_append_right, Nat.le_refl, Nat.sub_self, List.getElem_cons_zero] at happ
    have hop : opened (A ++ (xs, cap) :: B) (.appendToArray A.length j lo src.length)
        = stored A ++ (xs.map some, AGood.grownTo xs cap src.length) :: stored B := by
      simp only [opened]
      rw [stored_modify]
      simp only [List.length_map]
      rfl
    have hf : ∀ r ∈ opened (A ++ (xs, cap) :: B) (.appendToArray A.length j lo src.length), r.1.length ≤ r.2 := by
      rw [hop]
      exact fits_opened hA hB (by have := AGood.le_grownTo xs cap src.length; simp; omega)
    have hext : extent (opened (A ++ (xs, cap) :: B) (.appendToArray A.length j lo src.length)) =
        total (A ++ (xs, AGood.grownTo xs cap src.length) :: B) := by
      rw [hop]; simp
    have hrun : a.own c (.appendToArray A.length j lo src.length) = AoA.appendOwn c a a A.length p src.length := by
      simp only [AoA.own]
      rw [show a.iterator c j lo = .ok p from hit, bind_ok]
    obtain ⟨h1, h2⟩ := hg.appendOwn (c := c) (a := a) (p := p) (src := src) rfl happ hpc hold
    have hf0 := hfound hf
    simp only [hop, slotAt_rows] at hf0
    rw [hext]
    refine ⟨fun hle' => ?_, fun hlt => by rw [hrun, hmov]; exact h2 hlt⟩
    obtain ⟨k1, k2⟩ := h1 hle'
    refine ⟨fun vs hl hvs => ?_, ?_⟩
    · obtain ⟨a', e, g⟩ := k1 vs hl (fun k hk hk' => by rw [← hf0 k hk]; exact hvs k hk')
      refine ⟨a', _, ?_, by rw [hrun]; exact e, shows_good c g⟩
      simp only [OwnCall.count] at hl
      simp [OwnCall.withValues, vvcStep, onRowC, hl, grown_eq]
    · rintro ⟨k', hk', hn⟩
      rw [hrun]
      exact k2 ⟨k', hk', by rw [← hf0 k' hk']; exact hn⟩
  | emplace i pos j k =>
    obtain ⟨r, hr, hpos⟩ := ht
    simp only [OwnCall.count] at hlen hpc hle hel
    rw [List.getElem?_map, Option.map_eq_some_iff] at hr
    obtain ⟨q, hq, rfl⟩ := hr
    obtain ⟨hi, hqe⟩ := List.getElem?_eq_some_iff.1 hq
    have happ : p + src.length ≤ total (L.take i) + pos ∨ total (L.take i) + pos ≤ p := by
      simp only [OwnCall.row, OwnCall.first, OwnCall.count] at hbefore hafter hP
      rcases Nat.lt_trichotomy j i with h1 | h1 | h1
      · exact .inl (by have := hbefore i h1; omega)
      · subst h1; omega
      · have := hafter i hi h1
        have := hg.lay.fits L[i] (List.getElem_mem hi)
        rw [← hqe] at hpos
        exact .inr (by omega)
    obtain ⟨A, xs, cap, B, hL, rfl, _⟩ := split1 hi
    subst hL
    have hA : ∀ r ∈ A, r.1.length ≤ r.2 := fun r hr => hfits r (by simp [hr])
    have hB : ∀ r ∈ B, r.1.length ≤ r.2 := fun r hr => hfits r (by simp [hr])
    simp only [List.take_left] at happ
    simp only [List.getElem_append_right, Nat.le_refl, Nat.sub_self, List.getElem_cons_zero] at hqe
    subst hqe
    simp only at hpos
    have hop : opened (A ++ (xs, cap) :: B) (.emplace A.length pos j k)
        = stored A ++ (AGood.gapRow xs pos src.length, AGood.grownTo xs cap src.length) :: stored B := by
      simp only [opened]
      rw [stored_modify, hlen]
      simp only [List.length_map]
      rfl
    have hf : ∀ r ∈ opened (A ++ (xs, cap) :: B) (.emplace A.length pos j k), r.1.length ≤ r.2 := by
      rw [hop]
      exact fits_opened hA hB (by have := AGood.le_grownTo xs cap src.length; simp [AGood.gapRow]; omega)
    have hext : extent (opened (A ++ (xs, cap) :: B) (.emplace A.length pos j k)) =
        total (A ++ (xs, AGood.grownTo xs cap src.length) :: B) := by
      rw [hop]; simp
    have hrun : a.own c (.emplace A.length pos j k) =
        (a.dynamicallyGrowArray c A.length src.length >>= fun a1 => AoA.viewInsertOwn c a a1 A.length pos p src.length) := by
      simp only [AoA.own]
      rw [show a.element c j k = .ok p from hel (by omega), bind_ok, hlen]
    obtain ⟨h1, h2⟩ := hg.insertOwn (c := c) (p := p) (src := src) (pos := pos) hpos (by omega) happ (by omega) hold
    have hf0 := hfound hf
    simp only [hop] at hf0
    rw [hext]
    refine ⟨fun hle' => ?_, fun hlt => by rw [hrun, hmov]; exact h2 hlt⟩
    obtain ⟨k1, k2⟩ := h1 hle'
    refine ⟨fun vs hl hvs => ?_, ?_⟩
    · obtain ⟨a', e, g⟩ := k1 vs (by rw [hlen]; exact hl) (fun k hk hk' => by rw [← hf0 k hk]; exact hvs k hk')
      refine ⟨a', _, ?_, by rw [hrun]; exact e, shows_good c g⟩
      obtain ⟨w, rfl⟩ : ∃ w, vs = [w] := by
        match vs, hl with
        | [w], _ => exact ⟨w, rfl⟩
      simp [OwnCall.withValues, vvcStep, onRowC, hlen, grown_eq, hpos]
    · rintro ⟨k', hk', hn⟩
      rw [hrun]
      exact k2 ⟨k', by rw [hlen]; exact hk', by rw [← hf0 k' (by rw [hlen]; exact hk')]; exact hn⟩
  | insertIntoArray i pos j lo n =>
    obtain ⟨r, hr, hpos⟩ := ht
    simp only [OwnCall.count] at hlen hpc hle
    subst hlen
    rw [List.getElem?_map, Option.map_eq_some_iff] at hr
    obtain ⟨q, hq, rfl⟩ := hr
    obtain ⟨hi, hqe⟩ := List.getElem?_eq_some_iff.1 hq
    obtain ⟨hu0, hu⟩ := hu
    have happ : p + src.length ≤ total (L.take i) + pos ∨ total (L.take i) + pos ≤ p := by
      simp only [OwnCall.row, OwnCall.first, OwnCall.count] at hbefore hafter hP
      rcases Nat.lt_trichotomy j i with h1 | h1 | h1
      · exact .inl (by have := hbefore i h1; omega)
      · subst h1
        rcases hu rfl with h2 | h2 <;> omega
      · have := hafter i hi h1
        have := hg.lay.fits L[i] (List.getElem_mem hi)
        rw [← hqe] at hpos
        exact .inr (by omega)
    obtain ⟨A, xs, cap, B, hL, rfl, _⟩ := split1 hi
    subst hL
    have hA : ∀ r ∈ A, r.1.length ≤ r.2 := fun r hr => hfits r (by simp [hr])
    have hB : ∀ r ∈ B, r.1.length ≤ r.2 := fun r hr => hfits r (by simp [hr])
    simp only [List.take_left] at happ
    simp only [List.getElem_append_right, Nat.le_refl, Nat.sub_self, List.getElem_cons_zero] at hqe
    subst hqe
    simp only at hpos
    have hop : opened (A ++ (xs, cap) :: B) (.insertIntoArray A.length pos j lo src.length)
        = stored A ++ (AGood.gapRow xs pos src.length, AGood.grownTo xs cap src.length) :: stored B := by
      simp only [opened]
      rw [stored_modify]
      simp only [List.length_map]
      rfl
    have hf : ∀ r ∈ opened (A ++ (xs, cap) :: B) (.insertIntoArray A.length pos j lo src.length), r.1.length ≤ r.2 := by
      rw [hop]
      exact fits_opened hA hB (by have := AGood.le_grownTo xs cap src.length; simp [AGood.gapRow]; omega)
    have hext : extent (opened (A ++ (xs, cap) :: B) (.insertIntoArray A.length pos j lo src.length)) =
        total (A ++ (xs, AGood.grownTo xs cap src.length) :: B) := by
      rw [hop]; simp
    have hrun : a.own c (.insertIntoArray A.length pos j lo src.length) =
        (a.dynamicallyGrowArray c A.length src.length >>= fun a1 => AoA.viewInsertOwn c a a1 A.length pos p src.length) := by
      simp only [AoA.own]
      rw [show a.iterator c j lo = .ok p from hit, bind_ok]
    obtain ⟨h1, h2⟩ := hg.insertOwn (c := c) (p := p) (src := src) (pos := pos) hpos hu0 happ hpc hold
    have hf0 := hfound hf
    simp only [hop] at hf0
    rw [hext]
    refine ⟨fun hle' => ?_, fun hlt => by rw [hrun, hmov]; exact h2 hlt⟩
    obtain ⟨k1, k2⟩ := h1 hle'
    refine ⟨fun vs hl hvs => ?_, ?_⟩
    · obtain ⟨a', e, g⟩ := k1 vs hl (fun k hk hk' => by rw [← hf0 k hk]; exact hvs k hk')
      refine ⟨a', _, ?_, by rw [hrun]; exact e, shows_good c g⟩
      simp only [OwnCall.count] at hl
      simp [OwnCall.withValues, vvcStep, onRowC, hl, grown_eq, hpos]
    · rintro ⟨k', hk', hn⟩
      rw [hrun]
      exact k2 ⟨k', hk', by rw [← hf0 k' hk']; exact hn⟩
  | appendArray j lo n =>
    simp only [OwnCall.count] at hlen hpc hle
    subst hlen
    obtain ⟨s', e1, e2, g0⟩ := hg.appendRow (c := c)
    have happ : p + src.length ≤ total L + ([] : List T).length ∨ total L + ([] : List T).length ≤ p := by
      have := hbefore L.length hj
      simp only [OwnCall.count, List.take_length] at this
      exact .inl this
    have hop : opened L (.appendArray j lo src.length)
        = stored L ++ (([] : List T).map some, AGood.grownTo ([] : List T) 0 src.length) :: stored [] := by
      rw [grown_zero]; rfl
    have hf : ∀ r ∈ opened L (.appendArray j lo src.length), r.1.length ≤ r.2 := by
      rw [hop]
      exact fits_opened hfits (by simp) (by simp)
    have hext : extent (opened L (.appendArray j lo src.length)) =
        total (L ++ [(([] : List T), AGood.grownTo ([] : List T) 0 src.length)]) := by
      rw [hop]; simp
    have hrun : a.own c (.appendArray j lo src.length) = AoA.appendOwn c a { a with shape := s' } L.length p src.length := by
      simp only [AoA.own]
      rw [show a.iterator c j lo = .ok p from hit, bind_ok, e1, bind_ok, e2, Nat.add_sub_cancel]
    obtain ⟨h1, h2⟩ := g0.appendOwn (c := c) (a := a) (p := p) (src := src) rfl happ hpc hold
    have hf0 := hfound hf
    simp only [hop, slotAt_rows] at hf0
    rw [hext]
    refine ⟨fun hle' => ?_, fun hlt => by
      rw [hrun, hmov, ← List.append_nil L, ← AGood.movable_addEmpty, List.append_nil]; exact h2 hlt⟩
    obtain ⟨k1, k2⟩ := h1 hle'
    refine ⟨fun vs hl hvs => ?_, ?_⟩
    · obtain ⟨a', e, g⟩ := k1 vs hl (fun k hk hk' => by rw [← hf0 k hk]; exact hvs k hk')
      refine ⟨a', _, ?_, by rw [hrun]; exact e, shows_good c g⟩
      simp only [OwnCall.count] at hl
      simp [OwnCall.withValues, vvcStep, hl, grown_zero]
    · rintro ⟨k', hk', hn⟩
      rw [hrun]
      exact k2 ⟨k', hk', by rw [← hf0 k' hk']; exact hn⟩
  | insertArray i j lo n =>
    simp only [OwnCall.targetExists, List.length_map] at ht
    simp only [OwnCall.count] at hlen hpc hle
    subst hlen
    have happ : p + src.length ≤ total (L.take i) + ([] : List T).length ∨ total (L.take i) + ([] : List T).length ≤ p := by
      simp only [OwnCall.row, OwnCall.first, OwnCall.count] at hbefore hafter hP
      by_cases h1 : j < i
      · exact .inl (hbefore i h1)
      · have := total_take_mono L (show i ≤ j by omega)
        simp only [List.length_nil, Nat.add_zero]
        exact .inr (by omega)
    obtain ⟨A, B, hL, rfl⟩ : ∃ A B : Layout T, L = A ++ B ∧ A.length = i :=
      ⟨L.take i, L.drop i, (List.take_append_drop i L).symm, by simp; omega⟩
    subst hL
    obtain ⟨s', e1, g0⟩ := hg.insertRow (c := c)
    simp only [List.take_left] at happ
    have hop : opened (A ++ B) (.insertArray A.length j lo src.length)
        = stored A ++ (([] : List T).map some, AGood.grownTo ([] : List T) 0 src.length) :: stored B := by
      rw [grown_zero]
      simp only [opened, stored_append, List.map_nil]
      rw [List.take_append_of_le_length (by simp), List.take_of_length_le (by simp), List.drop_append_of_le_length (by simp),
        List.drop_of_length_le (by simp), List.nil_append]
    have hA : ∀ r ∈ A, r.1.length ≤ r.2 := fun r hr => hfits r (by simp [hr])
    have hB : ∀ r ∈ B, r.1.length ≤ r.2 := fun r hr => hfits r (by simp [hr])
    have hf : ∀ r ∈ opened (A ++ B) (.insertArray A.length j lo src.length), r.1.length ≤ r.2 := by
      rw [hop]
      exact fits_opened hA hB (by simp)
    have hext : extent (opened (A ++ B) (.insertArray A.length j lo src.length)) =
        total (A ++ (([] : List T), AGood.grownTo ([] : List T) 0 src.length) :: B) := by
      rw [hop]; simp
    have hrun : a.own c (.insertArray A.length j lo src.length) = AoA.appendOwn c a { a with shape := s' } A.length p src.length := by
      simp only [AoA.own]
      rw [show a.iterator c j lo = .ok p from hit, bind_ok, e1, bind_ok]
    obtain ⟨h1, h2⟩ := g0.appendOwn (c := c) (a := a) (p := p) (src := src) rfl happ hpc hold
    have hf0 := hfound hf
    simp only [hop, slotAt_rows] at hf0
    rw [hext]
    refine ⟨fun hle' => ?_, fun hlt => by
      rw [hrun, hmov, ← AGood.movable_addEmpty]; exact h2 hlt⟩
    obtain ⟨k1, k2⟩ := h1 hle'
    refine ⟨fun vs hl hvs => ?_, ?_⟩
    · obtain ⟨a', e, g⟩ := k1 vs hl (fun k hk hk' => by rw [← hf0 k hk]; exact hvs k hk')
      refine ⟨a', _, ?_, by rw [hrun]; exact e, shows_good c g⟩
      simp only [OwnCall.count] at hl
      simp [OwnCall.withValues, vvcStep, hl, grown_zero]
    · rintro ⟨k', hk', hn⟩
      rw [hrun]
      exact k2 ⟨k', hk', by rw [← hf0 k' hk']; exact hn⟩

/-- Positions in front of a row that changes, of kept elements in it, and behind it if its capacity stays. -/
theorem slotAt_kept {A B : Layout T} {xs : List T} {cap cap' : Nat} {row : List (Option T)} {p : Nat} (hcap : cap ≤ cap')
    (h : p < total A ∨ (total A ≤ p ∧ p < total A + cap ∧ row[p - total A]? = (xs.map some)[p - total A]?) ∨
      (total A + cap ≤ p ∧ cap' = cap)) :
    slotAt (stored A ++ (row, cap') :: stored B) p = slotAt (stored (A ++ (xs, cap) :: B)) p := by
  rw [stored_append, stored_cons, slotAt_append, slotAt_append, extent_stored]
  rcases h with h | ⟨h1, h2, h3⟩ | ⟨h1, rfl⟩
  · rw [if_pos h, if_pos h]
  · rw [if_neg (by omega), if_neg (by omega)]
    simp only [slotAt]
    rw [if_pos (by omega), if_pos (by omega), h3]
  · rw [if_neg (by omega), if_neg (by omega)]
    simp only [slotAt]
    rw [if_neg (by omega), if_neg (by omega)]

/-- If only row `i` changes: what is found of an argument in front of the row, of kept elements in it, and of an argument behind
it if its capacity stays. -/
theorem found_kept (c : Cfg) {a : AoA T} {L : Layout T} (hg : AGood a L) (call : OwnCall)
    (hs : call.sourceExists (L.map (·.1))) (k : Nat) (hk : k < (call.values (L.map (·.1))).length) (i : Nat)
    (f : List (Option T) × Nat → List (Option T) × Nat) (hop : opened L call = (stored L).modify i f) {r : List T × Nat}
    (hr : L[i]? = some r) (hcap : r.2 ≤ (f (r.1.map some, r.2)).2)
    (hfit' : (f (r.1.map some, r.2)).1.length ≤ (f (r.1.map some, r.2)).2)
    (h : call.row < i ∨ (call.row = i ∧ (f (r.1.map some, r.2)).1[call.first + k]? = (r.1.map some)[call.first + k]?) ∨
      (i < call.row ∧ (f (r.1.map some, r.2)).2 = r.2)) :
    found c.trivial L call k = some (call.values (L.map (·.1)))[k] := by
  obtain ⟨hj, hle, hlen, hpc, hold, _, _⟩ := source_facts c hg call hs
  have hfits := hg.lay.fits
  have hfit := hfits L[call.row] (List.getElem_mem hj)
  have hrow := total_take_succ L hj
  have hlive : cells L (total (L.take call.row) + call.first + k) = .live (call.values (L.map (·.1)))[k] := by
    rw [← hg.lay.cell]; exact hold k hk
  obtain ⟨hi, hir⟩ := List.getElem?_eq_some_iff.1 hr
  have hbefore : call.row < i → total (L.take call.row) + call.first + k < total (L.take i) := by
    intro hi
    have := total_take_mono L (show call.row + 1 ≤ i by omega)
    omega
  have hafter : i < call.row → total (L.take i) + r.2 ≤ total (L.take call.row) := by
    intro hlt
    have := total_take_mono L (show i + 1 ≤ call.row by omega)
    rw [total_take_succ L hi, hir] at this
    omega
  have hsame : call.row = i → call.first + k < r.2 := by
    rintro rfl
    rw [← hir]
    omega
  generalize hpp : total (L.take call.row) + call.first + k = p at *
  obtain ⟨A, xs, cap, B, hL, hAi, _⟩ := split1 hi
  have hA : ∀ r ∈ A, r.1.length ≤ r.2 := fun r hr => hfits r (by rw [hL]; simp [hr])
  have hB : ∀ r ∈ B, r.1.length ≤ r.2 := fun r hr => hfits r (by rw [hL]; simp [hr])
  have htake : total (L.take i) = total A := by rw [hL, ← hAi, List.take_left]
  obtain rfl : r = (xs, cap) := by
    rw [← hir]; simp only [hL, ← hAi, List.getElem_append_right, Nat.le_refl, Nat.sub_self, List.getElem_cons_zero]
  have hopen : opened L call = stored A ++ f (xs.map some, cap) :: stored B := by
    rw [hop, hL, ← hAi, stored_modify]
  have hf : ∀ r ∈ opened L call, r.1.length ≤ r.2 := by
    rw [hopen]; exact fits_opened hA hB hfit'
  rw [← hpp] at hlive
  rw [found_eq c.trivial call hfits hf hlive, hpp, hopen, slotAt_kept (xs := xs) (cap := cap) hcap, ← hL, slotAt_stored, ← hpp, hlive]
  · rfl
  · rcases h with h | ⟨h, h'⟩ | ⟨h, h'⟩
    · exact .inl (by have := hbefore h; omega)
    · have h1 : p = total A + (call.first + k) := by rw [← hpp, ← htake, h]; omega
      have h2 := hsame h
      simp only at h2
      refine .inr (.inl ⟨by omega, by omega, ?_⟩)
      rw [h1, Nat.add_sub_cancel_left]; exact h'
    · have := hafter h
      simp only at this
      exact .inr (.inr ⟨by omega, h'⟩)

/-- The elements in front of a gap stay. -/
theorem gap_keeps {α : Type} (l g : List α) {pos q : Nat} (hq : q < pos) (hpos : pos ≤ l.length) :
    (l.take pos ++ g ++ l.drop pos)[q]? = l[q]? := by
  rw [List.append_assoc, List.getElem?_append_left (by simp; omega), List.getElem?_take_of_lt hq]

/-- What is found of an argument that is not disturbed are its values. -/
theorem found_undisturbed (c : Cfg) {a : AoA T} {L : Layout T} (hg : AGood a L) (call : OwnCall)
    (hs : call.sourceExists (L.map (·.1))) (ht : call.targetExists (L.map (·.1))) (hu : call.undisturbed L) (k : Nat)
    (hk : k < (call.values (L.map (·.1))).length) :
    found c.trivial L call k = some (call.values (L.map (·.1)))[k] := by
  obtain ⟨hj, hle, hlen, hpc, hold, _, _⟩ := source_facts c hg call hs
  have hfits := hg.lay.fits
  have hlive : cells L (total (L.take call.row) + call.first + k) = .live (call.values (L.map (·.1)))[k] := by
    rw [← hg.lay.cell]; exact hold k hk
  cases call with
  | emplaceBack i j k0 =>
    simp only [OwnCall.targetExists, List.length_map] at ht
    have hr := List.getElem?_eq_getElem ht
    have hx := hfits _ (List.getElem_mem ht)
    refine found_kept c hg _ hs k hk i _ rfl hr (by simp only [grown]; split <;> omega)
      (by simp only [grown, List.length_map]; split <;> omega) ?_
    simp only [OwnCall.undisturbed, hr, Option.some.injEq, exists_eq_left'] at hu
    simp only [OwnCall.row]
    rcases hu with hu | hu
    · rcases Nat.lt_or_ge j i with h | h
      · exact .inl h
      · exact .inr (.inl ⟨by omega, trivial⟩)
    · rcases Nat.lt_trichotomy j i with h | h | h
      · exact .inl h
      · exact .inr (.inl ⟨h, trivial⟩)
      · exact .inr (.inr ⟨h, by simp only [grown, List.length_map]; rw [if_neg (by omega)]⟩)
  | appendToArray i j lo n =>
    simp only [OwnCall.targetExists, List.length_map] at ht
    have hr := List.getElem?_eq_getElem ht
    have hx := hfits _ (List.getElem_mem ht)
    refine found_kept c hg _ hs k hk i _ rfl hr (by simp only [grown]; split <;> omega)
      (by simp only [grown, List.length_map]; split <;> omega) ?_
    simp only [OwnCall.undisturbed, hr, Option.some.injEq, exists_eq_left'] at hu
    simp only [OwnCall.row]
    rcases hu with hu | hu
    · rcases Nat.lt_or_ge j i with h | h
      · exact .inl h
      · exact .inr (.inl ⟨by omega, trivial⟩)
    · rcases Nat.lt_trichotomy j i with h | h | h
      · exact .inl h
      · exact .inr (.inl ⟨h, trivial⟩)
      · exact .inr (.inr ⟨h, by simp only [grown, List.length_map]; rw [if_neg (by omega)]⟩)
  | emplace i pos j k0 =>
    obtain ⟨r, hr, hpos⟩ := ht
    rw [List.getElem?_map, Option.map_eq_some_iff] at hr
    obtain ⟨q, hr, rfl⟩ := hr
    have hx := hfits _ (List.mem_of_getElem? hr)
    refine found_kept c hg _ hs k hk i _ rfl hr (by simp only [grown]; split <;> omega)
      (by simp only [grown, List.length_map, List.length_append, List.length_take, List.length_drop, List.length_singleton]
          split <;> omega) ?_
    simp only [OwnCall.undisturbed, hr, Option.some.injEq, exists_eq_left'] at hu
    simp only [OwnCall.count] at hlen
    simp only [OwnCall.row, OwnCall.first]
    rcases hu with h | ⟨h, h'⟩ | ⟨h, h'⟩
    · exact .inl h
    · exact .inr (.inl ⟨h, gap_keeps _ _ (by omega) (by simpa using hpos)⟩)
    · exact .inr (.inr ⟨h, by simp only [grown, List.length_map]; rw [if_neg (by omega)]⟩)
  | insertIntoArray i pos j lo n =>
    obtain ⟨r, hr, hpos⟩ := ht
    rw [List.getElem?_map, Option.map_eq_some_iff] at hr
    obtain ⟨q, hr, rfl⟩ := hr
    have hx := hfits _ (List.mem_of_getElem? hr)
    refine found_kept c hg _ hs k hk i _ rfl hr (by simp only [grown]; split <;> omega)
      (by simp only [grown, List.length_map, List.length_append, List.length_take, List.length_drop, List.length_replicate]
          split <;> omega) ?_
    simp only [OwnCall.undisturbed, hr, Option.some.injEq, exists_eq_left'] at hu
    simp only [OwnCall.count] at hlen
    simp only [OwnCall.row, OwnCall.first]
    rcases hu.2 with h | ⟨h, h'⟩ | ⟨h, h'⟩
    · exact .inl h
    · exact .inr (.inl ⟨h, gap_keeps _ _ (by omega) (by simpa using hpos)⟩)
    · exact .inr (.inr ⟨h, by simp only [grown, List.length_map]; rw [if_neg (by omega)]⟩)
  | appendArray j lo n =>
    have hop : opened L (.appendArray j lo n) = stored L ++ [([], grown 0 n)] := rfl
    have hfit := hfits _ (List.getElem_mem hj)
    have hrow := total_take_succ L hj
    have hmono := total_take_mono L (show OwnCall.row (.appendArray j lo n) + 1 ≤ L.length by omega)
    rw [List.take_length] at hmono
    rw [found_eq c.trivial _ hfits (by
      rw [hop]; exact fits_opened (A := L) (B := []) hfits (by simp) (by simp)) hlive, hop, slotAt_append, extent_stored,
      if_pos (by omega), slotAt_stored, hlive]
    rfl
  | insertArray i j lo n =>
    simp only [OwnCall.targetExists, List.length_map] at ht
    simp only [OwnCall.undisturbed] at hu
    have hlt : j < i := by
      rcases hu with h | rfl
      · exact h
      · simp only [OwnCall.count] at hlen; omega
    have hop : opened L (.insertArray i j lo n) = stored (L.take i) ++ ([], grown 0 n) :: stored (L.drop i) := by
      simp only [opened, stored, List.map_take, List.map_drop]
    have hfit := hfits _ (List.getElem_mem hj)
    have hrow := total_take_succ L hj
    have hmono := total_take_mono L (show OwnCall.row (.insertArray i j lo n) + 1 ≤ i from hlt)
    have hpl : total (L.take (OwnCall.row (.insertArray i j lo n))) + OwnCall.first (.insertArray i j lo n) + k
        < total (L.take i) := by omega
    rw [found_eq c.trivial _ hfits (by
      rw [hop]
      exact fits_opened (fun r hr => hfits r (List.mem_of_mem_take hr)) (fun r hr => hfits r (List.mem_of_mem_drop hr)) (by simp))
      hlive, hop, slotAt_append, extent_stored, if_pos hpl]
    have : slotAt (stored (L.take i)) (total (L.take (OwnCall.row (.insertArray i j lo n))) +
        OwnCall.first (.insertArray i j lo n) + k) = slotAt (stored L) (total (L.take (OwnCall.row (.insertArray i j lo n))) +
        OwnCall.first (.insertArray i j lo n) + k) := by
      rw [show stored L = stored (L.take i) ++ stored (L.drop i) by rw [← stored_append, List.take_append_drop],
        slotAt_append, extent_stored, if_pos hpl]
    rw [this, slotAt_stored, hlive]
    rfl

/-- An undisturbed argument is not split. -/
theorem unsplit_of_undisturbed {L : Layout T} {call : OwnCall} (h : call.undisturbed L) : Unsplit call := by
  cases call with
  | insertIntoArray i pos j lo n =>
    refine ⟨h.1, fun e => ?_⟩
    rcases h.2 with h | h | h <;> omega
  | _ => trivial

/-- **C73, partial.** A call with elements of the object itself does what the same call does to a vector of vectors with a copy
of the elements, if the allocation has room for the new elements and the argument is not moved to make room.  Missing: without
room in the allocation the argument is gone (`C73_needs_room`), and a disturbed argument is read where it was
(`C73_disturbed_wrong`). -/
theorem C73_as_vectors_partial (c : Cfg) {a : AoA T} {L : List (List T × Nat)} (h : Reach c a L) (call : OwnCall)
    (hs : call.sourceExists (L.map (·.1))) (ht : call.targetExists (L.map (·.1))) (hu : call.undisturbed L)
    (hroom : extent (opened L call) ≤ a.values.cap) :
    ∃ a' L', vvcStep L (call.withValues (call.values (L.map (·.1)))) = some L' ∧ a.own c call = .ok a' ∧
      Shows c a' (L'.map (·.1)) ∧ Capacities c a' (L'.map (·.2)) := by
  have hg := reach_good h
  obtain ⟨_, _, hlen, _⟩ := source_facts c hg call hs
  exact ((C73_exact c h call hs ht (unsplit_of_undisturbed hu)).1 hroom).1 _ hlen
    fun k hk => found_undisturbed c hg call hs ht hu k hk

/-- An object with the arrays `{ 1 }` and `{ 2, 3, 4, 5, 6 }` without spare capacity, in an allocation for `n` elements or more. -/
def twoArrays (c : Cfg) (n : Nat) : R (AoA Nat) :=
  AoA.mk' c 0 0 >>= fun a => a.run c [.reserveValues n, .appendArray [1], .setCapacityOfArray 0 1, .appendArray [2, 3, 4, 5, 6],
    .setCapacityOfArray 1 5]

/-- The same state for the specification. -/
example : vvcRun (List.replicate 0 ([], 0)) [.reserveValues 40, .appendArray [1], .setCapacityOfArray 0 1,
      .appendArray [2, 3, 4, 5, 6], .setCapacityOfArray 1 5] = some [([1], 1), ([2, 3, 4, 5, 6], 5)] ∧
    extent (opened [([1], 1), ([2, 3, 4, 5, 6], 5)] (.emplaceBack 0 1 4)) = 9 ∧
    found true [([1], 1), ([2, 3, 4, 5, 6], 5)] (.emplaceBack 0 1 4) 0 = some 3 ∧
    found true [([1], 1), ([2, 3, 4, 5, 6], 5)] (.emplaceBack 0 1 1) 0 = some 3 ∧
    found false [([1], 1), ([2, 3, 4, 5, 6], 5)] (.emplaceBack 0 1 1) 0 = none ∧
    found false [([1], 1), ([2, 3, 4, 5, 6], 5)] (.emplaceBack 1 1 1) 0 = some 3 := by decide

/-- **C73, disagreement.** `a.emplaceBack( 0, a( 1, 4 ) )` with room in the allocation: the value appended is that of element
`( 1, 1 )`, which has moved to where element `( 1, 4 )` was; 6 is expected. -/
theorem C73_disturbed_wrong :
    (twoArrays { trivial := true, boundsCheck := true, debug := true } 40 >>= fun a =>
      a.get { trivial := true, boundsCheck := true, debug := true } 1 4 >>= fun x =>
      a.own { trivial := true, boundsCheck := true, debug := true } (.emplaceBack 0 1 4) >>= fun a' =>
      a'.get { trivial := true, boundsCheck := true, debug := true } 0 1 >>= fun y => .ok (x, y)) = .ok (6, 3) := by
  decide +kernel

/-- **C73, disagreement.** `a.emplaceBack( 0, a( 1, 1 ) )` for elements of a non-trivial type, with room in the allocation: the
element is destroyed before it is copied. -/
theorem C73_disturbed_destroyed :
    (twoArrays { trivial := false, boundsCheck := true, debug := true } 40 >>= fun a =>
      a.own { trivial := false, boundsCheck := true, debug := true } (.emplaceBack 0 1 1) >>= fun _ => .ok ()) =
    .error (.ub .rawRead) := by
  decide +kernel

/-- **C73, disagreement.** After `ArrayOfArrays a( 1, 1 )` and `a.emplaceBack( 0, 5 )`, the call `a.emplaceBack( 0, a( 0, 0 ) )`
replaces the allocation before the element is read; `std::vector::push_back` has to work in this case. -/
theorem C73_own_row_dangles :
    (AoA.mk' { trivial := true, boundsCheck := true, debug := true } 1 1 >>= fun a =>
      (a.run { trivial := true, boundsCheck := true, debug := true } [.emplaceBack 0 5] : R (AoA Nat)) >>= fun a =>
      a.own { trivial := true, boundsCheck := true, debug := true } (.emplaceBack 0 0 0) >>= fun _ => .ok ()) =
    .error (.ub .dangling) := by
  decide +kernel

/-- An argument that is split by the position it is inserted at: `a.insertIntoArray( 1, 1, a[ 1 ].begin(), a[ 1 ].begin() + 3 )`
with room inserts 2, 2, 2 for the expected 2, 3, 4 since it reads what it has just written. -/
theorem C73_split_repeats :
    (twoArrays { trivial := true, boundsCheck := true, debug := true } 40 >>= fun a =>
      a.own { trivial := true, boundsCheck := true, debug := true } (.insertIntoArray 1 1 1 0 3) >>= fun a' =>
      a'.get { trivial := true, boundsCheck := true, debug := true } 1 1 >>= fun x =>
      a'.get { trivial := true, boundsCheck := true, debug := true } 1 2 >>= fun y =>
      a'.get { trivial := true, boundsCheck := true, debug := true } 1 3 >>= fun z => .ok [x, y, z]) = .ok [2, 2, 2] := by
  decide +kernel

/-- **C73, the rest, exactly.** A part of a row that is inserted into the same row, at a position inside that part: with room in the
allocation the elements of the part in front of the position are inserted, again and again, until there are `n` of them.  Without it
the argument is gone, as in `C73_exact`. -/
theorem C73_split_exact (c : Cfg) {a : AoA T} {L : List (List T × Nat)} (h : Reach c a L) {i : Nat} {row : List T × Nat} (hi : L[i]? = some row)
    {lo pos n : Nat} (h1 : lo < pos) (h2 : pos < lo + n) (h3 : lo + n ≤ row.1.length) :
    (extent (opened L (.insertIntoArray i pos i lo n)) ≤ a.values.cap →
      ∃ a' L', vvcStep L (.insertIntoArray i pos ((List.range n).map fun k => row.1.getD (lo + k % (pos - lo)) default)) = some L' ∧
        a.own c (.insertIntoArray i pos i lo n) = .ok a' ∧ Shows c a' (L'.map (·.1)) ∧ Capacities c a' (L'.map (·.2))) ∧
    (a.values.cap < extent (opened L (.insertIntoArray i pos i lo n)) →
      (Relocatable c L → a.own c (.insertIntoArray i pos i lo n) = .error (.ub .dangling)) ∧
      (¬ Relocatable c L → a.own c (.insertIntoArray i pos i lo n) = .error (.ub .rawRead))) := by
  have hg := reach_good h
  obtain ⟨hl, he⟩ := List.getElem?_eq_some_iff.1 hi
  have hit := (source_facts c hg (.insertIntoArray i pos i lo n) ⟨row.1, by
    simp only [OwnCall.row]; rw [List.getElem?_map, hi]; rfl, h3⟩).2.2.2.2.2.1
  simp only [OwnCall.row, OwnCall.first] at hit
  obtain ⟨A, xs, cap, B, hL, rfl, _⟩ := split1 hl
  subst hL
  simp only [List.getElem_append_right, Nat.le_refl, Nat.sub_self, List.getElem_cons_zero] at he
  subst he
  simp only at h3
  rw [List.take_left] at hit
  have hpos : pos ≤ xs.length := by omega
  have hop : opened (A ++ (xs, cap) :: B) (.insertIntoArray A.length pos A.length lo n)
      = stored A ++ (AGood.gapRow xs pos n, AGood.grownTo xs cap n) :: stored B := by
    simp only [opened]
    rw [stored_modify]
    simp only [List.length_map]
    rfl
  have hext : extent (opened (A ++ (xs, cap) :: B) (.insertIntoArray A.length pos A.length lo n)) =
      total (A ++ (xs, AGood.grownTo xs cap n) :: B) := by
    rw [hop]; simp
  have hrun : a.own c (.insertIntoArray A.length pos A.length lo n) =
      (a.dynamicallyGrowArray c A.length n >>= fun a1 => AoA.viewInsertOwn c a a1 A.length pos (total A + lo) n) := by
    simp only [AoA.own, hit, bind_ok]
  rw [hext, hrun]
  refine ⟨fun hle => ?_, fun hlt => hg.insertOwn_gone hpos hlt⟩
  obtain ⟨a', e, g⟩ := hg.insertSplit (c := c) h1 hpos (n := n) (by omega) hle
  refine ⟨a', _, ?_, e, shows_good c g⟩
  simp [vvcStep, onRowC, grown_eq, hpos]

/-- The hypotheses: five elements, a part of three that is inserted after its second one. -/
example (c : Cfg) (hc : c.trivial = true) : ∃ a L row, Reach (T := Nat) c a L ∧ L[1]? = some row ∧ row.1 = [2, 3, 4, 5, 6] ∧
    (List.range 3).map (fun k => row.1.getD (0 + k % (2 - 0)) default) = [2, 3, 2] := by
  obtain ⟨a, h⟩ := reach_of_history (T := Nat) c hc 0 0
    [.reserveValues 40, .appendArray [1], .setCapacityOfArray 0 1, .appendArray [2, 3, 4, 5, 6], .setCapacityOfArray 1 5]
    (fun _ op hop => by
      simp only [List.mem_cons, List.not_mem_nil, or_false] at hop
      rcases hop with rfl | rfl | rfl | rfl | rfl <;> simp [AoAOp.nonEmptyInsert])
    (L := [([1], 1), ([2, 3, 4, 5, 6], 5)]) (by decide)
  exact ⟨a, _, _, h, rfl, rfl, by decide⟩

/-- **C73, nothing.** An empty part of a row is inserted as if it were an empty range from elsewhere. -/
theorem C73_empty (c : Cfg) {a : AoA T} {L : List (List T × Nat)} (h : Reach c a L) {i j pos lo : Nat} (hj : j < L.length) :
    a.own c (.insertIntoArray i pos j lo 0) = a.insertIntoArray c i pos [] := by
  have hg := reach_good h
  obtain ⟨A, xs, cap, B, hL, rfl, _⟩ := split1 hj
  subst hL
  simp only [AoA.own, hg.iterator (c := c) (by simp) lo, bind_ok, AoA.insertIntoArray, List.length_nil]
  refine congrArg _ (funext fun a1 => ?_)
  simp only [AoA.viewInsertOwn, AoA.viewInsertIntoArray, arrayManipulation.insert, List.length_nil, AoA.constructOwn,
    arrayManipulation.constructRange, forUp, bind_assoc]

/-- Without room in the allocation no call with elements of the object itself is defined, whatever the row they are in. -/
theorem C73_needs_room (c : Cfg) {a : AoA T} {L : List (List T × Nat)} (h : Reach c a L) (call : OwnCall)
    (hs : call.sourceExists (L.map (·.1))) (ht : call.targetExists (L.map (·.1)))
    (hroom : a.values.cap < extent (opened L call)) : ∃ u, a.own c call = .error (.ub u) := by
  have key : (Relocatable c L → a.own c call = .error (.ub .dangling)) ∧ (¬ Relocatable c L → a.own c call = .error (.ub .rawRead)) := by
    by_cases hu : Unsplit call
    · exact (C73_exact c h call hs ht hu).2 hroom
    · cases call with
      | insertIntoArray i pos j lo n =>
        simp only [Unsplit, not_and] at hu
        by_cases hn : 0 < n
        · have hu := hu hn
          have hij : i = j := Classical.byContradiction fun hij => hu fun h' => absurd h' hij
          subst hij
          have hu : ¬ (lo + n ≤ pos ∨ pos ≤ lo) := fun h' => hu fun _ => h'
          obtain ⟨r, hr, hle⟩ := hs
          simp only [OwnCall.row, OwnCall.first, OwnCall.count] at hr hle
          rw [List.getElem?_map, Option.map_eq_some_iff] at hr
          obtain ⟨row, hrow, rfl⟩ := hr
          exact (C73_split_exact c h hrow (by omega) (by omega) hle).2 hroom
        · exfalso
          obtain rfl : n = 0 := by omega
          obtain ⟨r, hr, hpos⟩ := ht
          rw [List.getElem?_map, Option.map_eq_some_iff] at hr
          obtain ⟨row, hrow, rfl⟩ := hr
          have hg := reach_good h
          obtain ⟨A, xs, cap, B, hL, rfl, _⟩ := split1 (List.getElem?_eq_some_iff.1 hrow).1
          subst hL
          have hfit := hg.lay.fits (xs, cap) (by simp)
          have hrm := hg.lay.room
          simp only [opened] at hroom
          rw [stored_modify] at hroom
          simp only [List.length_map, grown, Nat.add_zero, extent_append, extent_cons, extent_stored] at hroom
          simp only at hfit
          rw [if_neg (by omega)] at hroom
          simp at hrm
          omega
      | _ => exact absurd trivial hu
  by_cases hr : Relocatable c L
  · exact ⟨_, key.1 hr⟩
  · exact ⟨_, key.2 hr⟩

/-- The hypotheses of `C73_exact` and `C73_as_vectors_partial`: a reachable state with room, and calls that grow a row. -/
example (c : Cfg) (hc : c.trivial = true) : ∃ a, Reach (T := Nat) c a [([1], 1), ([2, 3, 4, 5, 6], 5)] ∧
    OwnCall.sourceExists (.appendToArray 1 0 0 1) [[1], [2, 3, 4, 5, 6]] ∧
    OwnCall.targetExists (.appendToArray 1 0 0 1) [[1], [2, 3, 4, 5, 6]] ∧
    OwnCall.undisturbed (.appendToArray 1 0 0 1) [([1], 1), ([2, 3, 4, 5, 6], 5)] ∧
    OwnCall.undisturbed (.emplace 1 4 1 2) [([1], 1), ([2, 3, 4, 5, 6], 5)] ∧
    ¬ OwnCall.undisturbed (.emplaceBack 0 1 4) [([1], 1), ([2, 3, 4, 5, 6], 5)] ∧ Unsplit (.emplaceBack 0 1 4) := by
  obtain ⟨a, h⟩ := reach_of_history (T := Nat) c hc 0 0
    [.reserveValues 40, .appendArray [1], .setCapacityOfArray 0 1, .appendArray [2, 3, 4, 5, 6], .setCapacityOfArray 1 5]
    (fun _ op hop => by
      simp only [List.mem_cons, List.not_mem_nil, or_false] at hop
      rcases hop with rfl | rfl | rfl | rfl | rfl <;> simp [AoAOp.nonEmptyInsert])
    (L := [([1], 1), ([2, 3, 4, 5, 6], 5)]) (by decide)
  exact ⟨a, h, ⟨_, rfl, by decide⟩, by simp [OwnCall.targetExists], .inl (by omega), .inr (.inl ⟨rfl, by omega⟩),
    by simp [OwnCall.undisturbed], trivial⟩

/-- ... and the allocation has room for them. -/
example : (twoArrays { trivial := true, boundsCheck := true, debug := true } 40 >>= fun a =>
      a.own { trivial := true, boundsCheck := true, debug := true } (.appendToArray 1 1 1 3) >>= fun a' =>
      a'.get { trivial := true, boundsCheck := true, debug := true } 1 7 >>= fun y =>
      .ok (decide (extent (opened [([1], 1), ([2, 3, 4, 5, 6], 5)] (.appendToArray 1 1 1 3)) ≤ a.values.cap), y)) =
    .ok (true, 5) := by
  decide +kernel

end LvArray.Props
