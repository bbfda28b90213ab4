import Verif.Consistency
import Verif.Spec.Consistency
import Verif.Props.ArrayOfSets

/-!
# C88: `consistencyCheck` of an `ArrayOfSets`
-/

namespace LvArray.Props

open LvArray Layout Spec sortedArrayManipulation

set_option linter.unusedSectionVars false

variable {T : Type} [LinearOrder T] [Inhabited T]

theorem isSortedUnique_iff (xs : List T) : isSortedUnique less xs = true ↔ xs.Pairwise (· < ·) := by
  rw [C20_isSortedUnique less strictWeakOrder_less xs, List.pairwise_iff_getElem]
  exact ⟨fun h i j hi hj hij => by simpa [less] using h i j hij hj, fun h i j hij hj => by simpa [less] using h i j (by omega) hj hij⟩

theorem consistentSet_eq (c : Cfg) {a : AoA T} {A B : Layout T} {xs : List T} {cap : Nat} (h : AGood a (A ++ (xs, cap) :: B)) :
    AoS.consistentSet c a A.length = if xs.Pairwise (· < ·) then .ok () else .error .abort := by
  unfold AoS.consistentSet
  have hf : xs.length ≤ cap := h.lay.fits (xs, cap) (by simp)
  rw [h.shape.sizeOfAt rfl, bind_ok, h.shape.capacityOfAt rfl, bind_ok, h.ptr, show decide (cap < xs.length) = false by simp; omega]
  simp only [errorIf, Bool.false_eq_true, if_false, bind_ok]
  rw [readAll_eq (xs := xs) (fun i hi => (h.lay.toWin IsRaw).read_front i hi), bind_ok]
  by_cases hx : xs.Pairwise (· < ·)
  · rw [(isSortedUnique_iff xs).2 hx, if_pos hx]; rfl
  · have : isSortedUnique less xs = false := by
      cases e : isSortedUnique less xs with
      | false => rfl
      | true => exact absurd ((isSortedUnique_iff xs).1 e) hx
    rw [this, if_neg hx]; rfl

/-- The loop from row `A.length` on. -/
theorem consistency_from (c : Cfg) {a : AoA T} : ∀ (B A : Layout T), AGood a (A ++ B) →
    forUp B.length A.length (fun i _ => AoS.consistentSet c a i) () =
      if ∀ r ∈ B, r.1.Pairwise (· < ·) then .ok () else .error .abort
  | [], A, _ => by simp [forUp]
  | (xs, cap) :: B, A, h => by
    have ih := consistency_from c B (A ++ [(xs, cap)]) (by simpa using h)
    rw [List.length_append, List.length_singleton] at ih
    show (AoS.consistentSet c a A.length >>= fun s => forUp B.length (A.length + 1) _ s) = _
    rw [consistentSet_eq c h]
    by_cases hx : xs.Pairwise (· < ·)
    · rw [if_pos hx, bind_ok, ih]
      refine if_congr ⟨fun hh r hr => ?_, fun hh r hr => hh r (List.mem_cons_of_mem _ hr)⟩ rfl rfl
      rcases List.mem_cons.1 hr with rfl | hr
      · exact hx
      · exact hh r hr
    · rw [if_neg hx, bind_err, if_neg (fun hh => hx (hh (xs, cap) (by simp)))]

theorem consistency_eq (c : Cfg) {a : AoA T} {L : Layout T} (h : AGood a L) :
    AoS.consistencyCheck c a = if ∀ r ∈ L, r.1.Pairwise (· < ·) then .ok () else .error .abort := by
  have := consistency_from c L [] (by simpa using h)
  unfold AoS.consistencyCheck
  rw [show a.shape.numArrays = L.length by rw [h.shape.num]]
  exact this

/-- **C88** (no false alarm).  `consistencyCheck()` returns for every `ArrayOfSets` that member functions made, in every build and
for every element type. -/
theorem C88_consistent (c : Cfg) {a : AoA T} {sets : List (Finset T)} (h : ReachSets c a sets) :
    AoS.consistencyCheck c a = .ok () := by
  obtain ⟨L, hg, hL⟩ := reachSets_good h
  rw [consistency_eq c hg, if_pos]
  intro r hr
  have : r.1 ∈ sets.map (·.sort (· ≤ ·)) := by rw [← hL]; exact List.mem_map.2 ⟨r, hr, rfl⟩
  obtain ⟨S, _, hS⟩ := List.mem_map.1 this
  rw [← hS]
  exact sort_increasing S

/-- A loop of `assimilate` that turns the values `xs` of every set into `g xs`. -/
theorem assimilateLoop_any (c : Cfg) (f : Buf T → R (Nat × Buf T)) (g : List T → List T) {a : AoA T} {L : Layout T} (h : AGood a L)
    (hf : ∀ r ∈ L, ∀ b : Buf T, Holds b r.1 → ∃ s : Buf T, f b = .ok ((g r.1).length, s) ∧ s.cap = r.1.length ∧
      s.lostLive = b.lostLive ∧ (g r.1).length ≤ r.1.length ∧ (∀ i (h : i < (g r.1).length), s.cell i = .live (g r.1)[i]) ∧
      (∀ k, k < s.cap → (s.cell k).isRaw = false)) :
    ∃ a', forUp a.shape.numArrays 0 (fun i a => AoS.assimilateRow c f i a) a = .ok a' ∧ AGood a' (L.map fun r => (g r.1, r.2)) := by
  have hnum : a.shape.numArrays = L.length := by rw [h.shape.num]
  obtain ⟨a', h1, h2⟩ := forUp_inv (f := fun i a => AoS.assimilateRow c f i a)
    (fun i a => AGood a ((L.take i).map (fun r => (g r.1, r.2)) ++ L.drop i)) a.shape.numArrays 0 a
    (by simpa using h)
    (fun i s _ hi hs => by
      have hi' : i < L.length := by omega
      rw [List.drop_eq_getElem_cons hi'] at hs
      obtain ⟨sb, e1, e2, e3, e4, e5, e6⟩ := hf L[i] (List.getElem_mem hi') _ (sub_holds (hs.lay.toWin IsRaw))
      obtain ⟨a', h1, h2⟩ := assimilateRow_ok c (xs := L[i].1) (cap := L[i].2) hs f sb e1 e2 e3 e4 e5 e6
      rw [show ((L.take i).map (fun r => (g r.1, r.2))).length = i by simp; omega] at h1
      refine ⟨a', h1, ?_⟩
      rw [List.take_succ_eq_append_getElem hi', List.map_append, List.append_assoc]
      exact h2)
  refine ⟨a', h1, ?_⟩
  rw [Nat.zero_add, hnum] at h2
  simpa using h2

/-- The sorted list that `std::sort` returns. -/
theorem sortRoutine_eq {xs ys : List T} (h1 : ys.Perm xs) (h2 : SortedUnder less ys) : ys = xs.mergeSort (fun a b => decide (a ≤ b)) := by
  refine (h1.trans (List.mergeSort_perm xs _).symm).eq_of_pairwise' (r := (· ≤ ·)) ?_ ?_
  · exact List.Pairwise.imp (fun {a b} hab => by simpa [less] using hab) h2
  · have := List.pairwise_mergeSort (le := fun a b : T => decide (a ≤ b))
      (by intro a b c h1 h2; simp only [decide_eq_true_eq] at *; exact le_trans h1 h2)
      (by intro a b; simpa using le_total a b) xs
    exact this.imp fun hab => by simpa using hab

/-- The description is one that `consistencyCheck()` can confirm. -/
def confirmable : AoS.Description → Bool
  | .sortedWithDuplicates => false
  | _ => true

/-- **C88** (partial).  `assimilate` of any array of arrays, followed by `consistencyCheck()`: if the values were described as sorted
and unique, as without duplicates, or as anything, the check reports exactly when the description is false of some inner array, in
every build.  Missing: values described as sorted (`C88_records_kept`). -/
theorem C88_assimilated_partial (c : Cfg) (sort : Buf T → R (Buf T)) (hsort : SortRoutine sort) {dst src : AoA T}
    {sets : List (Finset T)} {L : List (List T × Nat)} (hd : ReachSets c dst sets) (hs : Reach c src L)
    (desc : AoS.Description) (hc : confirmable desc = true) :
    ∃ a src', AoS.assimilate c sort dst src desc = .ok (a, src') ∧
      ((∀ r ∈ L, truthful desc r.1) → AoS.consistencyCheck c a = .ok ()) ∧
      (¬ (∀ r ∈ L, truthful desc r.1) → AoS.consistencyCheck c a = .error .abort) := by
  obtain ⟨Ld, hgd, -⟩ := reachSets_good hd
  have hg := reach_good hs
  have good : (∀ r ∈ L, truthful desc r.1) → ∃ a src', AoS.assimilate c sort dst src desc = .ok (a, src') ∧
      AoS.consistencyCheck c a = .ok () := by
    intro ht
    obtain ⟨a, src', h1, ⟨L', hg', hL'⟩, rfl⟩ := assimilate_good c sort hsort hgd hg desc ht
    refine ⟨a, _, h1, ?_⟩
    rw [consistency_eq c hg', if_pos]
    intro r hr
    have : r.1 ∈ (L.map fun r => r.1.toFinset).map (·.sort (· ≤ ·)) := by rw [← hL']; exact List.mem_map.2 ⟨r, hr, rfl⟩
    obtain ⟨S, _, hS⟩ := List.mem_map.1 this
    rw [← hS]
    exact sort_increasing S
  by_cases ht : ∀ r ∈ L, truthful desc r.1
  · obtain ⟨a, src', h1, h2⟩ := good ht
    exact ⟨a, src', h1, fun _ => h2, fun h => absurd ht h⟩
  · suffices H : ∃ a src', AoS.assimilate c sort dst src desc = .ok (a, src') ∧ AoS.consistencyCheck c a = .error .abort by
      obtain ⟨a, src', h1, h2⟩ := H
      exact ⟨a, src', h1, fun h => absurd h ht, fun _ => h2⟩
    obtain ⟨b, hb, -⟩ := hgd.weak.destroyAll (c := c)
    unfold AoS.assimilate AoA.free
    rw [hb, bind_ok, bind_ok]
    cases desc with
    | sortedWithDuplicates => cases hc
    | unsortedWithDuplicates => exact absurd (fun _ _ => trivial) ht
    | sortedUnique =>
      refine ⟨_, _, rfl, ?_⟩
      show AoS.consistencyCheck c src = _
      rw [consistency_eq c hg]
      exact if_neg ht
    | unsortedNoDuplicates =>
      obtain ⟨a', h1, h2⟩ := assimilateLoop_any c (fun b => sort b >>= fun b' => .ok (b.cap, b'))
        (fun xs => xs.mergeSort (fun a b => decide (a ≤ b))) hg (fun r hr b hb => by
          obtain ⟨b', ys, e1, e2, e3, e4, e5⟩ := hsort b r.1 hb
          obtain rfl := sortRoutine_eq e3 e4
          refine ⟨b', ?_, by rw [e2.1, e3.length_eq], e5, by rw [e3.length_eq], e2.2, ?_⟩
          · rw [e1, bind_ok, hb.1, e3.length_eq]
          · intro k hk
            rw [e2.2 k (by rw [← e2.1]; exact hk)]; rfl)
      refine ⟨a', _, by simp only [AoA.moveConstruct]; rw [h1, bind_ok], ?_⟩
      rw [consistency_eq c h2, if_neg]
      intro hh
      refine ht fun r hr => ?_
      have := hh _ (List.mem_map.2 ⟨r, hr, rfl⟩)
      exact (List.mergeSort_perm r.1 _).nodup_iff.1 (this.imp fun hab => ne_of_lt hab)

theorem records_from (xs : List T) : ∀ (kept : List T) (last : T), (∀ y ∈ kept, y ≤ last) →
    xs.foldl (fun kept x => if ∀ y ∈ kept, y < x then kept ++ [x] else kept) (kept ++ [last]) = kept ++ last :: keep less last xs := by
  induction xs with
  | nil => intro kept last _; rfl
  | cons x xs ih =>
    intro kept last h
    rw [List.foldl_cons]
    have hiff : (∀ y ∈ kept ++ [last], y < x) ↔ last < x := by
      refine ⟨fun hh => hh last (by simp), fun hl y hy => ?_⟩
      rcases List.mem_append.1 hy with hy | hy
      · exact lt_of_le_of_lt (h y hy) hl
      · rw [List.mem_singleton.1 hy]; exact hl
    have hk : keep less last (x :: xs) = if last < x then x :: keep less x xs else keep less last xs := by
      show (if less last x = true then _ else _) = _
      simp [less]
    rw [hk]
    by_cases hl : last < x
    · rw [if_pos (hiff.2 hl), if_pos hl, ih (kept ++ [last]) x ?_]
      · simp
      · intro y hy
        rcases List.mem_append.1 hy with hy | hy
        · exact le_of_lt (lt_of_le_of_lt (h y hy) hl)
        · rw [List.mem_singleton.1 hy]; exact le_of_lt hl
    · rw [if_neg (fun hh => hl (hiff.1 hh)), if_neg hl]
      exact ih kept last h

theorem records_cons (x : T) (xs : List T) : records (x :: xs) = x :: keep less x xs := by
  unfold records
  rw [List.foldl_cons, if_pos (by simp)]
  exact records_from xs [] x (by simp)

theorem keep_increasing : ∀ (xs : List T) (last : T), (last :: keep less last xs).Pairwise (· < ·)
  | [], last => List.pairwise_singleton _ _
  | x :: xs, last => by
    have hk : keep less last (x :: xs) = if last < x then x :: keep less x xs else keep less last xs := by
      show (if less last x = true then _ else _) = _
      simp [less]
    rw [hk]
    split
    · rename_i hl
      have := keep_increasing xs x
      refine List.pairwise_cons.2 ⟨fun y hy => ?_, this⟩
      rcases List.mem_cons.1 hy with rfl | hy
      · exact hl
      · exact lt_trans hl ((List.pairwise_cons.1 this).1 y hy)
    · exact keep_increasing xs last

theorem records_increasing : ∀ xs : List T, (records xs).Pairwise (· < ·)
  | [] => List.Pairwise.nil
  | x :: xs => by rw [records_cons]; exact keep_increasing xs x

/-- `removeDuplicates` in a build without assertions, on any range. -/
theorem removeDuplicates_any {c : Cfg} (hd : c.debug = false) {b : Buf T} {xs : List T} (hb : Holds b xs) :
    ∃ s : Buf T, removeDuplicates c less b = .ok ((records xs).length, s) ∧ s.cap = xs.length ∧ s.lostLive = b.lostLive ∧
      (records xs).length ≤ xs.length ∧ (∀ i (h : i < (records xs).length), s.cell i = .live (records xs)[i]) ∧
      (∀ k, k < s.cap → (s.cell k).isRaw = false) := by
  unfold removeDuplicates assertRange
  rw [hd]
  simp only [Bool.false_eq_true, if_false, bind_ok]
  cases xs with
  | nil =>
    have : b.cap = 0 := by simpa using hb.1
    rw [if_pos this]
    exact ⟨b, rfl, this, rfl, Nat.le_refl _, fun i h => absurd h (by simp [records]), fun k hk => by omega⟩
  | cons x0 rest =>
    have hcap : b.cap = rest.length + 1 := by simpa using hb.1
    rw [if_neg (by omega), hcap]
    have h0 : b.cell 0 = .live x0 := hb.2 0 (by simp)
    have er : b.read 0 = .ok x0 := by unfold Buf.read; rw [if_pos (by omega), h0]
    unfold removeDuplicatesLoop
    rw [er, bind_ok, bind_ok, strictWeakOrder_less.irrefl]
    simp only [Bool.false_eq_true, if_false]
    obtain ⟨b', e, k1, k2, k3, k4, k5⟩ := removeDuplicatesLoop_ok c less rest 0 (0 + 1) 1 b x0 (by omega) (by omega) h0
      (by
        intro i h
        have := hb.2 (i + 1) (by simpa using h)
        rw [show 0 + 1 + i = i + 1 by omega, this]
        simp)
      (by
        intro k hk
        rw [hb.2 k (by rw [← hb.1]; exact hk)]
        rfl)
    have hrec := records_cons x0 rest
    refine ⟨b', ?_, by rw [k1, hcap]; rfl, k2, ?_, ?_, fun k hk => k5 k (by omega)⟩
    · rw [e, hrec, List.length_cons]; congr 2; omega
    · rw [hrec]
      have := (keep_sublist less rest x0).length_le
      simp only [List.length_cons]; omega
    · intro i hi
      simp only [hrec] at hi ⊢
      cases i with
      | zero => rw [k3 0 (Nat.le_refl _)]; exact h0
      | succ i =>
        have := k4 i (by simpa using hi)
        rw [show 0 + 1 + i = i + 1 by omega] at this
        rw [this]
        simp

/-- **C88** (what is missing).  Values described as sorted, in a build without assertions: whatever the inner arrays are, `assimilate`
and `consistencyCheck()` return, and each set contains the values that are greater than all kept before them; the others are lost
without a report. -/
theorem C88_records_kept (c : Cfg) (hdebug : c.debug = false) (sort : Buf T → R (Buf T)) {dst src : AoA T}
    {sets : List (Finset T)} {L : List (List T × Nat)} (hd : ReachSets c dst sets) (hs : Reach c src L) :
    ∃ a src', AoS.assimilate c sort dst src .sortedWithDuplicates = .ok (a, src') ∧ AoS.consistencyCheck c a = .ok () ∧
      ShowsSets c a (L.map fun r => (records r.1).toFinset) := by
  obtain ⟨Ld, hgd, -⟩ := reachSets_good hd
  have hg := reach_good hs
  obtain ⟨b, hb, -⟩ := hgd.weak.destroyAll (c := c)
  unfold AoS.assimilate AoA.free
  rw [hb, bind_ok, bind_ok]
  obtain ⟨a', h1, h2⟩ := assimilateLoop_any c (removeDuplicates c less) records hg (fun r hr b hb => removeDuplicates_any hdebug hb)
  refine ⟨a', _, by simp only [AoA.moveConstruct]; rw [h1, bind_ok], ?_, showsSets_of_good ⟨_, h2, ?_⟩⟩
  · rw [consistency_eq c h2, if_pos]
    intro r hr
    obtain ⟨q, _, rfl⟩ := List.mem_map.1 hr
    exact records_increasing q.1
  · rw [List.map_map, List.map_map]
    exact List.map_congr_left fun r hr => sort_of_increasing (records_increasing r.1) (by simp)

/-- A loop of `assimilate` with `removeDuplicates`, in a build with assertions. -/
theorem assimilateLoop_unsorted {c : Cfg} (hd : c.debug = true) : ∀ (B A : Layout T) (a : AoA T), AGood a (A ++ B) →
    ¬ (∀ r ∈ B, r.1.Pairwise (· ≤ ·)) →
    forUp B.length A.length (fun i a => AoS.assimilateRow c (removeDuplicates c less) i a) a = .error .abort
  | [], A, a, _, h => absurd (fun r hr => absurd hr (by simp)) h
  | (xs, cap) :: B, A, a, hg, h => by
    have hsw : xs.Pairwise (· ≤ ·) ↔ SortedUnder less xs := by
      unfold SortedUnder
      exact ⟨fun h => h.imp fun hab => by simp [less, hab], fun h => h.imp fun hab => by simpa [less] using hab⟩
    have hb := sub_holds (hg.lay.toWin IsRaw)
    show (AoS.assimilateRow c (removeDuplicates c less) A.length a >>= fun s => forUp B.length (A.length + 1) _ s) = _
    by_cases hx : xs.Pairwise (· ≤ ·)
    · obtain ⟨b', ys, e1, e2, e3, e4, e5, e6, e7, e8⟩ := (C19_removeDuplicates c less strictWeakOrder_less _ xs hb).1 (hsw.1 hx)
      obtain ⟨a', h1, h2⟩ := assimilateRow_ok c hg _ b' e1 (by rw [e6, hb.1]) e7 e2.length_le e5 e8
      rw [h1, bind_ok]
      have ih := assimilateLoop_unsorted hd B (A ++ [(ys, cap)]) a' (by simpa using h2) (fun hh => h fun r hr => by
        rcases List.mem_cons.1 hr with rfl | hr
        · exact hx
        · exact hh r hr)
      rw [List.length_append, List.length_singleton] at ih
      exact ih
    · have e := (C19_removeDuplicates c less strictWeakOrder_less _ xs hb).2 (fun hh => hx (hsw.2 hh)) hd
      unfold AoS.assimilateRow
      rw [hg.ptr, bind_ok, hg.shape.sizeOfAt rfl, bind_ok, e, bind_err, bind_err]

/-- **C88** (values described as sorted, with assertions).  In a build with assertions `assimilate` itself reports an inner array that
is not sorted. -/
theorem C88_unsorted_asserted (c : Cfg) (hdebug : c.debug = true) (sort : Buf T → R (Buf T)) {dst src : AoA T}
    {sets : List (Finset T)} {L : List (List T × Nat)} (hd : ReachSets c dst sets) (hs : Reach c src L)
    (hL : ¬ (∀ r ∈ L, truthful .sortedWithDuplicates r.1)) :
    AoS.assimilate c sort dst src .sortedWithDuplicates = .error .abort := by
  obtain ⟨Ld, hgd, -⟩ := reachSets_good hd
  have hg := reach_good hs
  obtain ⟨b, hb, -⟩ := hgd.weak.destroyAll (c := c)
  unfold AoS.assimilate AoA.free
  rw [hb, bind_ok, bind_ok]
  have := assimilateLoop_unsorted hdebug L [] src (by simpa using hg) hL
  simp only [AoA.moveConstruct]
  rw [show src.shape.numArrays = L.length by rw [hg.shape.num]]
  rw [show forUp L.length 0 (fun i a => AoS.assimilateRow c (removeDuplicates c less) i a) src = .error .abort from this, bind_err]

/-- The hypotheses of the theorems about `assimilate`: an array of arrays with an inner array that no description but the last is
true of, and an empty array of sets, in a build without and one with assertions. -/
example (d : Bool) : ∃ src dst : AoA Nat, Reach ⟨true, true, d⟩ src [([], 2), ([4, 2, 4], 6)] ∧ ReachSets ⟨true, true, d⟩ dst [] := by
  cases d
  · exact ⟨_, _, ⟨2, 2, [.appendToArray 1 [4, 2, 4]], _, fun h => (nomatch h), rfl, rfl, rfl⟩, ⟨0, 0, [], [], _, rfl, rfl, rfl⟩⟩
  · exact ⟨_, _, ⟨2, 2, [.appendToArray 1 [4, 2, 4]], _, fun _ op h => by
      obtain rfl := List.mem_singleton.1 h
      trivial, rfl, rfl, rfl⟩, ⟨0, 0, [], [], _, rfl, rfl, rfl⟩⟩

example : ¬ truthful (T := Nat) .sortedUnique [4, 2, 4] ∧ ¬ truthful (T := Nat) .unsortedNoDuplicates [4, 2, 4] ∧
    ¬ truthful (T := Nat) .sortedWithDuplicates [4, 2, 4] := by
  refine ⟨?_, ?_, ?_⟩ <;> simp [truthful]

/-- Values described as sorted that are not: two of four are kept. -/
example : records [4, 2, 7, 5] = [4, 7] := by decide

/-- The report of a wrong description of the hypotheses' kind, on objects made by member functions. -/
example : (do let a ← AoA.mk' ⟨true, true, false⟩ 2 2
              let a ← a.appendToArray ⟨true, true, false⟩ 1 [4, 2]
              let d ← AoA.mk' ⟨true, true, false⟩ 0 0
              let r ← AoS.assimilate ⟨true, true, false⟩ (fun b => .ok b) d a .sortedUnique
              AoS.consistencyCheck ⟨true, true, false⟩ r.1 : R Unit) = .error .abort := by rfl

end LvArray.Props
