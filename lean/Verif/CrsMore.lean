import Verif.CrsStep
import Verif.AoACopy

/-!
# Missing columns, `assimilate` and copies of `CRSMatrix`
-/

namespace LvArray

open Layout sortedArrayManipulation Spec

set_option linter.unusedSectionVars false

variable {V : Type}

namespace Crs

variable [Add V] {c : Cfg} {A B : Layout (Nat × V)} {cap : Nat}

theorem assertColumn_missing {m : Crs V} {f g : List (Nat × V)} {k : Nat} (hd : c.debug = true)
    (h : CGood m (A ++ (f ++ g, cap) :: B)) (hk : ∀ x ∈ g, x.1 ≠ k) :
    assertColumn c m A.length (f ++ g).length f.length k = .error .abort := by
  unfold assertColumn
  rw [if_pos hd]
  cases g with
  | nil =>
    rw [List.append_nil, decide_eq_true (Nat.le_refl _)]
    rfl
  | cons z g =>
    rw [column_ok h f.length (by simp), decide_eq_false (by simp), errorIf_false, bind_ok, bind_ok]
    have : (f ++ z :: g)[f.length]'(by simp) = z := by simp
    rw [this, decide_eq_true (hk z (by simp))]
    rfl

/-- With assertions on, a missing column is reported by the binary search. -/
theorem binaryLoop_abort (hd : c.debug = true) (args : List (Nat × V)) : ∀ (m : Crs V) (f g : List (Nat × V)),
    CGood m (A ++ (f ++ g, cap) :: B) → Increasing Prod.fst (f ++ g) → Increasing Prod.fst args →
    (∃ a ∈ args, ∀ x ∈ g, x.1 ≠ a.1) →
    binaryLoop c A.length (f ++ g).length m f.length args = .error .abort := by
  induction args with
  | nil => rintro m f g h _ _ ⟨a, ha, _⟩; cases ha
  | cons a args ih =>
    rintro m f g h hi ha ⟨b, hb, hmiss⟩
    obtain ⟨k, v⟩ := a
    have hg : Increasing Prod.fst g := (List.pairwise_append.1 hi).2.1
    obtain ⟨g1, g2, rfl, hf, h1, h2⟩ := find_split c Prod.fst (fun k => column m A.length (f.length + k)) g k hg
      (fun i hi' => by
        rw [column_ok h (f.length + i) (by simp; omega)]
        rw [List.getElem_append_right (by omega)]
        simp)
    unfold binaryLoop
    rw [if_neg (by simp)]
    have hlen : (f ++ (g1 ++ g2)).length - f.length = (g1 ++ g2).length := by simp
    rw [hlen, hf, bind_ok]
    simp only
    rw [show g1.length + f.length = (f ++ g1).length by simp; omega]
    have hre : f ++ (g1 ++ g2) = (f ++ g1) ++ g2 := by simp
    rw [hre] at h hi ⊢
    by_cases hk : ∀ x ∈ g2, x.1 ≠ k
    · rw [assertColumn_missing hd h hk, bind_err]
    · -- the column is there, so another one is missing
      obtain ⟨x, g3, rfl⟩ : ∃ x g3, g2 = (k, x) :: g3 := by
        cases g2 with
        | nil => simp at hk
        | cons z g3 =>
          refine ⟨z.2, g3, ?_⟩
          have hz := h2 z (by simp)
          have hg2 := List.pairwise_cons.1 (List.pairwise_append.1 hg).2.1
          have : z.1 = k := by
            by_contra hne
            apply hk
            intro y hy
            rcases List.mem_cons.1 hy with rfl | hy
            · exact hne
            · have := hg2.1 y hy; omega
          rw [← this]
      rw [assertColumn_ok h, bind_ok]
      obtain ⟨m1, e1, n1, c1⟩ := addAt_ok (c := c) h v
      rw [e1, bind_ok]
      have hre2 : (f ++ g1) ++ (k, x + v) :: g3 = (f ++ g1 ++ [(k, x + v)]) ++ g3 := by simp
      rw [hre2] at c1
      have hk2 : (f ++ g1 ++ [(k, x + v)] ++ g3).map (·.1) = ((f ++ g1) ++ (k, x) :: g3).map (·.1) := by simp
      have := ih m1 (f ++ g1 ++ [(k, x + v)]) g3 c1 (increasing_of_keys hi hk2) (List.pairwise_cons.1 ha).2 (by
        refine ⟨b, ?_, fun y hy => hmiss y (by simp [hy])⟩
        rcases List.mem_cons.1 hb with rfl | hb
        · exact absurd rfl (hmiss (k, x) (by simp))
        · exact hb)
      have hl2 : (f ++ g1 ++ [(k, x + v)] ++ g3).length = ((f ++ g1) ++ (k, x) :: g3).length := by
        simpa using congrArg List.length hk2
      rw [hl2, List.length_append (bs := [(k, x + v)]), List.length_singleton] at this
      exact this

/-- With assertions on, a missing column is reported by the search in any order. -/
theorem unsortedLoop_abort (hd : c.debug = true) (args : List (Nat × V)) : ∀ (m : Crs V) (xs : List (Nat × V)),
    CGood m (A ++ (xs, cap) :: B) → Increasing Prod.fst xs → (∃ a ∈ args, ∀ x ∈ xs, x.1 ≠ a.1) →
    unsortedLoop c A.length xs.length m args = .error .abort := by
  induction args with
  | nil => rintro m xs h _ ⟨a, ha, _⟩; cases ha
  | cons a args ih =>
    rintro m xs h hi ⟨b, hb, hmiss⟩
    obtain ⟨k, v⟩ := a
    obtain ⟨f1, f2, rfl, hf, h1, h2⟩ := find_split c Prod.fst (column m A.length) _ k hi (fun i hi' => column_ok h i hi')
    unfold unsortedLoop
    rw [hf, bind_ok]
    by_cases hk : ∀ x ∈ f2, x.1 ≠ k
    · rw [assertColumn_missing hd h hk, bind_err]
    · obtain ⟨x, g3, rfl⟩ : ∃ x g3, f2 = (k, x) :: g3 := by
        cases f2 with
        | nil => simp at hk
        | cons z g3 =>
          refine ⟨z.2, g3, ?_⟩
          have hz := h2 z (by simp)
          have hg2 := List.pairwise_cons.1 (List.pairwise_append.1 hi).2.1
          have : z.1 = k := by
            by_contra hne
            apply hk
            intro y hy
            rcases List.mem_cons.1 hy with rfl | hy
            · exact hne
            · have := hg2.1 y hy; omega
          rw [← this]
      rw [assertColumn_ok h, bind_ok]
      obtain ⟨m1, e1, n1, c1⟩ := addAt_ok (c := c) h v
      rw [e1, bind_ok]
      have hk2 : (f1 ++ (k, x + v) :: g3).map (·.1) = (f1 ++ (k, x) :: g3).map (·.1) := by simp
      have hl2 : (f1 ++ (k, x + v) :: g3).length = (f1 ++ (k, x) :: g3).length := by simp
      have := ih m1 _ c1 (increasing_of_keys hi hk2) (by
        refine ⟨b, ?_, ?_⟩
        · rcases List.mem_cons.1 hb with rfl | hb
          · exact absurd rfl (hmiss (k, x) (by simp))
          · exact hb
        · intro y hy e
          have hy' : y.1 ∈ (f1 ++ (k, x + v) :: g3).map (·.1) := List.mem_map.2 ⟨y, hy, rfl⟩
          rw [hk2] at hy'
          obtain ⟨z, hz, e'⟩ := List.mem_map.1 hy'
          exact hmiss z hz (e'.trans e))
      rw [hl2] at this
      exact this

end Crs

/-! ## `assimilate` -/

/-- The entries `assimilate` constructs. -/
theorem initEntries_ok {X : Type} (c : Cfg) (v : V) {s : Shape} {L : Layout X} {b : Buf V} (h : LShape s L)
    (hfit : ∀ r ∈ L, r.1.length ≤ r.2) (hb : Lay b []) (hcap : total L ≤ b.cap) :
    ∃ b', Crs.initEntries c v s b = .ok b' ∧ Lay b' (mapL (fun _ => v) L) := by
  unfold Crs.initEntries
  have h0 : Lay b (L.map fun r => (([] : List V), r.2)) := by
    have := hb.addEmpty (B := L.map fun r => (([] : List V), r.2)) (fun r hr => by
      simp only [List.mem_map] at hr
      obtain ⟨q, _, rfl⟩ := hr
      rfl) (by simpa [total, Function.comp_def] using hcap)
    simpa using this
  obtain ⟨b', h1, h2⟩ := forUp_inv (f := fun row b => do
      let nnz ← s.sizeOfArray c row
      let p ← s.offsets.read row
      forUp nnz 0 (fun i b => Buf.construct c b (p + i) v) b)
    (fun i b => Lay b (mapL (fun _ => v) (L.take i) ++ (L.drop i).map fun r => (([] : List V), r.2)))
    s.numArrays 0 b (by simpa using h0)
    (by
      intro i b1 _ hi hg
      have hlt : i < L.length := by rw [Nat.zero_add, h.num] at hi; simpa using hi
      obtain ⟨A, xs, cap, B, rfl, rfl, hx⟩ := split1 hlt
      have e1 : (A ++ (xs, cap) :: B).take A.length = A := by simp
      have e2 : (A ++ (xs, cap) :: B).drop A.length = (xs, cap) :: B := by simp
      have e3 : List.take (A.length + 1) (A ++ (xs, cap) :: B) = A ++ [(xs, cap)] := by simp [List.take_append, List.take_of_length_le]
      have e4 : List.drop (A.length + 1) (A ++ (xs, cap) :: B) = B := by simp [List.drop_append]
      rw [e1, e2] at hg
      rw [e3, e4]
      simp only [List.map_cons] at hg
      have hfx := hfit (xs, cap) (by simp)
      simp only at hfx
      rw [h.sizeOfAt rfl, bind_ok, h.readOffAt rfl, bind_ok]
      have w := (hg.toWin IsRaw).openGap xs.length (by simpa using hfx)
      rw [mapL_total] at w
      obtain ⟨b2, k1, k2⟩ := forUp_inv (f := fun i b => Buf.construct c b (total A + i) v)
        (fun j b' => Win IsRaw b1 b' (total A) cap (List.replicate j v) (xs.length - j) []) xs.length 0 b1 (by simpa using w)
        (by
          intro j b' _ hj hw
          rw [show xs.length - j = xs.length - (j + 1) + 1 by omega] at hw
          obtain ⟨b3, q1, q2⟩ := hw.setStep c v
          rw [List.length_replicate] at q1
          refine ⟨b3, q1, ?_⟩
          rw [List.replicate_succ']
          exact q2)
      refine ⟨b2, k1, ?_⟩
      rw [Nat.zero_add] at k2
      have := hg.ofWin (by rw [mapL_total]; exact k2.closeGap IsRaw)
      simpa [mapL, List.map_const'] using this)
  refine ⟨b', h1, ?_⟩
  rw [Nat.zero_add, h.num] at h2
  simpa using h2

/-- The matrix `assimilate` makes of a pattern. -/
def Spec.Pattern.toMatrix (v : V) (P : Pattern) : Spec.Matrix V :=
  { numCols := P.numCols, rows := P.rows.map fun S k => if k ∈ S then some v else none }

theorem rowList_indicator {n : Nat} {S : Finset Nat} (h : ∀ k ∈ S, k < n) (v : V) :
    rowList n (fun k => if k ∈ S then some v else none) = (S.sort (· ≤ ·)).map fun k => (k, v) := by
  symm
  apply eq_rowList
  · intro k hk
    refine h k ?_
    by_contra hn
    simp [hn] at hk
  · exact List.pairwise_map.2 (sort_increasing S)
  · intro x
    obtain ⟨k, w⟩ := x
    simp only [List.mem_map, Finset.mem_sort, Prod.mk.injEq, exists_eq_right_right]
    by_cases hk : k ∈ S
    · simp [hk]
    · simp [hk]

theorem CGood.assimilate [Inhabited V] (c : Cfg) {m : Crs V} {L : Layout (Nat × V)} (hm : CWeak m L) {s : Sp} {L' : Layout Nat}
    (hs : AGood s.sets L') :
    ∃ m' s', m.assimilate c s = .ok (m', s') ∧ m'.numCols = s.numCols ∧ CGood m' (mapL (fun k => (k, (default : V))) L') ∧
      s' = { numCols := 0, sets := (AoA.moveConstruct s.sets).2 } := by
  unfold Crs.assimilate
  obtain ⟨b1, h1, h2, h3⟩ := hm.ents.destroyAll (c := c)
  have h1' : m.shape.destroyValues c 0 m.shape.numArrays m.entries = .ok b1 := h1
  obtain ⟨b2, h4, h5, h6⟩ := reserve_empty c h2 (k := 0) (n := s.sets.values.cap) (by omega) (.inr (.inl rfl))
  obtain ⟨b3, h7, h8, h9⟩ := hm.cols.destroyAll (c := c.ix)
  have h7' : m.shape.destroyValues c.ix 0 m.shape.numArrays m.columns = .ok b3 := h7
  have hroom := hs.lay.room
  obtain ⟨b4, h10, h11⟩ := initEntries_ok c (default : V) hs.shape hs.lay.fits h5 (by omega)
  rw [h1', bind_ok, h4, bind_ok]
  unfold AoA.free
  simp only [h7', bind_ok, AoA.moveConstruct, h10]
  refine ⟨_, _, rfl, rfl, ⟨LShape_mapL.2 hs.shape, ?_, ?_⟩, rfl⟩
  · have : mapL Prod.fst (mapL (fun k => (k, (default : V))) L') = L' := by
      simp [mapL, Function.comp_def]
    rw [this]; exact hs.lay
  · have : mapL Prod.snd (mapL (fun k => (k, (default : V))) L') = mapL (fun _ => default) L' := by
      simp [mapL, Function.comp_def]
    rw [this]; exact h11

theorem CrsGood.ofAssimilate [Inhabited V] {m : Crs V} {s : Sp} {P : Pattern} {L' : Layout Nat}
    (h : SpGood s P) (hL : L'.map (·.1) = P.rows.map (·.sort (· ≤ ·))) (hn : m.numCols = s.numCols)
    (hg : CGood m (mapL (fun k => (k, (default : V))) L')) : CrsGood m (P.toMatrix default) := by
  refine ⟨hn.trans h.cols, ⟨_, hg, ?_⟩, ?_⟩
  · unfold Spec.Pattern.toMatrix
    simp only [List.map_map, mapL, Function.comp_def]
    have := congrArg (List.map (List.map fun k => (k, (default : V)))) hL
    simp only [List.map_map, Function.comp_def] at this
    rw [this]
    apply List.map_congr_left
    intro S hS
    exact (rowList_indicator (h.inRange S hS) default).symm
  · intro f hf
    simp only [Spec.Pattern.toMatrix, List.mem_map] at hf
    obtain ⟨S, hS, rfl⟩ := hf
    intro k hk
    refine h.inRange S hS k ?_
    by_contra hn
    simp [hn] at hk

/-! ## Copies -/

theorem CGood.copyAssign (c : Cfg) {m src : Crs V} {L M : Layout (Nat × V)} (h : CWeak m L) (hs : CGood src M)
    (hr : CopyRoom c.ix m.columns.cap L M) (hr' : CopyRoom c m.entries.cap L M) :
    ∃ m', m.copyAssign c src = .ok m' ∧ m'.numCols = src.numCols ∧ CGood m' M := by
  have hst : ∀ {Y : Type} (g : Nat × V → Y), staleOffset (mapL g L) (mapL g M) = staleOffset L M := by
    intro Y g
    unfold staleOffset
    simp only [mapL_length, ← mapL_take, mapL_total]
  obtain ⟨a1, h1, h2⟩ := copyAssign_good c.ix h.cols hs.cols (by
    unfold CopyRoom at hr ⊢
    rw [hst, mapL_total]; exact hr)
  obtain ⟨a2, h3, h4⟩ := copyAssign_good c h.ents hs.ents (by
    unfold CopyRoom at hr' ⊢
    rw [hst, mapL_total]; exact hr')
  exact ⟨_, Crs.copyAssign_pair h1 h3, rfl, CGood.ofParts h2 h4⟩

end LvArray
