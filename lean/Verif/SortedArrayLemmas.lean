import Verif.SortedManipLemmas
import Verif.RowLemmas
import Verif.Array1DLemmas
import Verif.Spec.OrderedSet
/-!
# Simulation of the ordered set by `SortedArray`
-/

namespace LvArray

set_option linter.unusedSectionVars false

open sortedArrayManipulation

section rep

variable {T : Type}

theorem Rep.win {b : Buf T} {xs : List T} (h : Rep b xs) (Q : Cell T → Prop) : Win Q b b 0 b.cap xs 0 [] where
  kind := rfl
  capEq := rfl
  lost := rfl
  inside := by omega
  fits := by simpa using h.2
  front := fun i hi => by rw [Nat.zero_add, h.1, cellsOf_lt hi]
  mid := fun k h1 h2 => by omega
  back := fun i hi => by simp at hi
  free := fun k h1 h2 => by rw [h.1, cellsOf_ge (by simpa using h1)]
  frame := fun k h => rfl

theorem Win.rep {Q : Cell T → Prop} {b0 b : Buf T} {xs : List T} (h : Win Q b0 b 0 b0.cap xs 0 [])
    (h0 : ∀ k, b0.cap ≤ k → b0.cell k = .raw) : Rep b xs := by
  refine ⟨cellsOf_eq ?_ ?_, ?_⟩
  · intro k hk
    have := h.front k hk
    rwa [Nat.zero_add] at this
  · intro k hk
    by_cases hc : k < b0.cap
    · exact h.free k (by simpa using hk) (by omega)
    · rw [h.frame k (by omega), h0 k (by omega)]
  · have := h.fits
    rw [h.capEq]; simpa using this

theorem Rep.outside {b : Buf T} {xs : List T} (h : Rep b xs) (k : Nat) (hk : b.cap ≤ k) : b.cell k = .raw := by
  rw [h.1, cellsOf_ge (by have := h.2; omega)]

end rep

variable {T : Type} [LinearOrder T]

theorem sort_of_increasing {xs : List T} {S : Finset T} (h : xs.Pairwise (· < ·)) (hm : ∀ x, x ∈ xs ↔ x ∈ S) :
    xs = S.sort (· ≤ ·) := by
  have hS : xs.toFinset = S := by ext x; simp [hm]
  rw [← hS]
  symm
  rw [List.toFinset_sort (· ≤ ·) (h.imp (fun hab => ne_of_lt hab))]
  exact h.imp (fun hab => le_of_lt hab)

theorem sort_increasing (S : Finset T) : Increasing id (S.sort (· ≤ ·)) :=
  (Finset.sortedLT_sort S).pairwise

/-- The sorted array holds exactly the set `S`. -/
def SGood (limit : Option Nat) (a : SortedArr T) (S : Finset T) : Prop :=
  Good limit { buf := a.buf, size := a.size } (S.sort (· ≤ ·))

theorem SGood.size {limit : Option Nat} {a : SortedArr T} {S : Finset T} (g : SGood limit a S) : a.size = S.card := by
  have : a.size = _ := g.1
  rw [this]; simp

theorem SGood.fits {limit : Option Nat} {a : SortedArr T} {S : Finset T} (g : SGood limit a S) (n : Nat) (hn : n ≤ S.card) :
    Spec.fits limit n := by
  rw [← Good.room g]
  right
  have h1 := g.rep.2
  simp at h1
  show n ≤ a.buf.cap
  omega

namespace SortedArr

theorem insertSound (c : Cfg) (b0 : Buf T) (size : Nat) (vs : List T) :
    InsertSound c (target c size) id vs (fun b f g bk => Win IsRaw b0 b 0 b0.cap f g bk) where
  read := fun s f g b h i hi => by
    show s.read (0 + i) = _
    rw [h.read_front i hi]; rfl
  step := fun s f1 f2 g b i hi h => by
    obtain ⟨b1, b2, e1, e2, e3⟩ := h.insertStep c vs[i]
    refine ⟨b1, b2, b2, ?_, ?_, rfl, e3⟩
    · show (arrayManipulation.shiftUp c s 0 _ _ _ >>= fun b => Except.ok b) = _
      rw [e1]; rfl
    · show (b1.construct c _ _ >>= fun b => Except.ok b) = _
      rw [id_eq]
      show (b1.construct c (0 + (f1.length + g)) vs[i] >>= fun b => Except.ok b) = _
      rw [e2]; rfl
  set := fun s f g hi h => by
    obtain ⟨b1, e1, e2⟩ := h.setStep c vs[f.length]
    refine ⟨b1, b1, ?_, rfl, e2⟩
    show (s.construct c (0 + f.length) vs[f.length] >>= fun b => Except.ok b) = _
    rw [e1]; rfl

theorem removeSound (c : Cfg) (b0 : Buf T) (size : Nat) :
    RemoveSound c (target c size) id (fun b kept d rest => Win NotRaw b0 b 0 b0.cap kept d rest) where
  read := fun s kept d rest h i hi => by
    show s.read (0 + (kept.length + d + i)) = _
    rw [h.read_back i hi]; rfl
  split := fun s f1 f2 h => h.split _
  step := fun s kept d a f rest h => by
    obtain ⟨b1, e1, e2⟩ := h.removeStep c
    refine ⟨b1, b1, ?_, rfl, e2⟩
    show (arrayManipulation.shiftDown c s 0 _ _ _ >>= fun b => Except.ok b) = _
    rw [e1]; rfl

variable {limit : Option Nat} {a : SortedArr T} {S : Finset T}

theorem read_good (g : SGood limit a S) (i : Nat) (hi : i < (S.sort (· ≤ ·)).length) :
    a.buf.read i = .ok (S.sort (· ≤ ·))[i] :=
  bufferManipulation.read_rep g.rep i hi

theorem read_target (c : Cfg) (g : SGood limit a S) (n i : Nat) (hi : i < (S.sort (· ≤ ·)).length) :
    (target c n).read a.buf i = .ok (id (S.sort (· ≤ ·))[i]) := by
  show a.buf.read (0 + i) = _
  rw [Nat.zero_add, read_good g i hi]; rfl

/-- Result of growing the buffer in `incrementSize`. -/
theorem grow (c : Cfg) (g : SGood limit a S) (n : Nat) (hf : Spec.fits limit (S.card + n)) :
    ∃ b, (target c a.size).incrementSize a.buf n = .ok b ∧ b.kind = a.buf.kind ∧ b.lostLive = a.buf.lostLive ∧
      S.card + n ≤ b.cap ∧ (a.buf.kind = .stack → b.cap = a.buf.cap) ∧ Rep b (S.sort (· ≤ ·)) := by
  have hr := (Good.room g _).mpr hf
  have := bufferManipulation.dynamicReserve_rep c g.rep (S.card + n) hr
  simp only [Finset.length_sort] at this
  have hinc : (target c a.size).incrementSize a.buf n = bufferManipulation.dynamicReserve c a.buf S.card (S.card + n) := by
    rw [← g.size]; rfl
  rw [hinc, this]
  refine ⟨_, rfl, rfl, rfl, ?_, ?_, ?_⟩
  · exact Buf.le_grownCap _ _
  · exact fun h => grownCap_stack hr h
  · exact ⟨g.rep.1, by
      have := Buf.le_grownCap a.buf (S.card + n)
      show (S.sort (· ≤ ·)).length ≤ _
      rw [Finset.length_sort]; show S.card ≤ a.buf.grownCap (S.card + n); omega⟩

theorem grow_abort (c : Cfg) (g : SGood limit a S) (n : Nat) (hf : ¬ Spec.fits limit (S.card + n)) :
    (target c a.size).incrementSize a.buf n = .error .abort := by
  have hr : ¬ a.buf.room (S.card + n) := fun h => hf ((Good.room g _).mp h)
  show bufferManipulation.dynamicReserve c a.buf a.size (a.size + n) = _
  have h := g.rep.2
  simp only [Finset.length_sort] at h
  rw [g.size]
  exact bufferManipulation.dynamicReserve_abort c h _ hr

/-- Package a result buffer. -/
theorem mkGood (g : SGood limit a S) {b b1 : Buf T} {xs : List T} {S' : Finset T} {n : Nat} {Q : Cell T → Prop}
    (hk : b.kind = a.buf.kind) (hl : b.lostLive = a.buf.lostLive) (hs : a.buf.kind = .stack → b.cap = a.buf.cap)
    (h0 : ∀ k, b.cap ≤ k → b.cell k = .raw) (hw : Win Q b b1 0 b.cap xs 0 []) (hx : xs.Pairwise (· < ·))
    (hm : ∀ x, x ∈ xs ↔ x ∈ S') (hn : n = S'.card) : SGood limit { buf := b1, size := n } S' := by
  have hxs := sort_of_increasing hx hm
  have hr := hw.rep h0
  rw [hxs] at hr
  exact Good.mk' g (by simpa using hn) (by rw [hw.kind]; exact hk) (by rw [hw.lost]; exact hl) hr.1 hr.2
    (fun h => by rw [hw.capEq]; exact hs h)

theorem insert_good (c : Cfg) (g : SGood limit a S) (v : T) (hf : Spec.fits limit (Insert.insert v S).card) :
    ∃ a', a.insert c v = .ok (a', decide (v ∉ S)) ∧ SGood limit a' (Insert.insert v S) := by
  obtain ⟨s', ys, e1, ⟨b, hb1, hb2, hb3, hb4, hw⟩, hys, hmem⟩ := insertOne_spec c (target c a.size) id (S.sort (· ≤ ·)) v a.buf
    (fun i hi => read_target c g _ i hi) (sort_increasing S)
    (fun b1 xs => ∃ b, b.kind = a.buf.kind ∧ b.lostLive = a.buf.lostLive ∧ (a.buf.kind = .stack → b.cap = a.buf.cap) ∧
      (∀ k, b.cap ≤ k → b.cell k = .raw) ∧ Win IsRaw b b1 0 b.cap xs 0 [])
    (fun _ => by
      obtain ⟨b, e, h1, h2, h3, h4, h5⟩ := grow c g 0 (g.fits _ (by omega))
      exact ⟨b, e, b, h1, h2, h4, h5.outside, h5.win _⟩)
    (fun habs f1 f2 hx => by
      have hv : v ∉ S := fun h => habs v (by simpa using h) rfl
      rw [Finset.card_insert_of_notMem hv] at hf
      obtain ⟨b, e, h1, h2, h3, h4, h5⟩ := grow c g 1 hf
      have hw := h5.win IsRaw
      have hl : (f1 ++ f2).length = S.card := by rw [← hx]; simp
      rw [hx] at hw ⊢
      obtain ⟨b1, e1, e2⟩ := hw.emplace c v (by omega)
      refine ⟨b, b1, b1, e, ?_, rfl, b, h1, h2, h4, h5.outside, e2⟩
      show (arrayManipulation.emplace c b 0 _ _ _ >>= fun b => Except.ok b) = _
      rw [id_eq, e1]; rfl)
  have hsz : a.size = (S.sort (· ≤ ·)).length := by rw [g.size]; simp
  unfold SortedArr.insert
  rw [hsz]
  rw [hsz] at e1
  have hdec : decide (∀ x ∈ S.sort (· ≤ ·), id x ≠ id v) = decide (v ∉ S) := by
    congr 1
    apply propext
    simp only [Finset.mem_sort, id_eq]
    exact ⟨fun h hv => h v hv rfl, fun h x hx e => h (e ▸ hx)⟩
  rw [hdec, id_eq] at e1
  rw [e1, bind_ok]
  refine ⟨_, rfl, mkGood g hb1 hb2 hb3 hb4 hw hys ?_ ?_⟩
  · intro x
    rw [hmem x, Finset.mem_insert]
    simp only [Finset.mem_sort, id_eq]
    constructor
    · rintro (h | ⟨h, _⟩)
      · exact Or.inr h
      · exact Or.inl h
    · rintro (rfl | h)
      · by_cases hx : x ∈ S
        · exact Or.inl hx
        · exact Or.inr ⟨rfl, fun y hy e => hx (e ▸ hy)⟩
      · exact Or.inl h
  · by_cases hv : v ∈ S
    · simp [hv]
    · simp [hv]

theorem insert_abort (c : Cfg) (g : SGood limit a S) (v : T) (hf : ¬ Spec.fits limit (Insert.insert v S).card) :
    a.insert c v = .error .abort := by
  have hv : v ∉ S := fun h => hf (by rw [Finset.insert_eq_of_mem h]; exact g.fits _ (Nat.le_refl _))
  rw [Finset.card_insert_of_notMem hv] at hf
  have := insertOne_abort c (target c a.size) id (S.sort (· ≤ ·)) v a.buf (fun i hi => read_target c g _ i hi)
    (sort_increasing S) (by simp only [Finset.mem_sort, id_eq]; exact fun x hx e => hv (e ▸ hx)) .abort (grow_abort c g 1 hf)
  unfold SortedArr.insert
  have hsz : a.size = (S.sort (· ≤ ·)).length := by rw [g.size]; simp
  rw [hsz] at this ⊢
  rw [id_eq] at this
  rw [this]; rfl

theorem newCount_card (S : Finset T) (vs : List T) (hv : vs.Pairwise (· < ·)) :
    newCount id (S.sort (· ≤ ·)) vs = (vs.toFinset \ S).card := by
  unfold newCount
  have : vs.toFinset \ S = (vs.filter (fun v => decide (∀ x ∈ S.sort (· ≤ ·), id x ≠ id v))).toFinset := by
    ext x
    simp only [Finset.mem_sdiff, List.mem_toFinset, List.mem_filter, Finset.mem_sort, id_eq, decide_eq_true_eq]
    constructor
    · exact fun h => ⟨h.1, fun y hy e => h.2 (e ▸ hy)⟩
    · exact fun h => ⟨h.1, fun hx => h.2 x hx rfl⟩
  rw [this, List.toFinset_card_of_nodup]
  exact (hv.imp (fun hab => ne_of_lt hab)).filter _

theorem card_union_eq (S : Finset T) (vs : List T) : (S ∪ vs.toFinset).card = S.card + (vs.toFinset \ S).card := by
  rw [← Finset.union_sdiff_self_eq_union, Finset.card_union_of_disjoint Finset.disjoint_sdiff]

theorem insertMany_good [Inhabited T] (c : Cfg) (g : SGood limit a S) (vs : List T) (hv : Spec.sortedUnique vs)
    (hf : Spec.fits limit (S ∪ vs.toFinset).card) :
    ∃ a', a.insertMany c vs = .ok (a', (vs.toFinset \ S).card) ∧ SGood limit a' (S ∪ vs.toFinset) := by
  have hn := newCount_card S vs hv
  have hc := card_union_eq S vs
  rw [hc, ← hn] at hf
  obtain ⟨b, e, h1, h2, h3, h4, h5⟩ := grow c g _ hf
  have hw := (h5.win IsRaw).openGap (newCount id (S.sort (· ≤ ·)) vs) (by simpa using h3)
  have hw0 : Win IsRaw a.buf a.buf 0 a.buf.cap (S.sort (· ≤ ·)) 0 [] := Rep.win g.rep _
  obtain ⟨s', f, bk, e1, e2, e3, e4⟩ := insertRange_spec (α := T) c (target c a.size) id vs (S.sort (· ≤ ·))
    (fun s f gp bk => (s = a.buf ∧ f = S.sort (· ≤ ·) ∧ gp = 0 ∧ bk = []) ∨ Win IsRaw b s 0 b.cap f gp bk)
    { read := fun s f gp bk hJ i hi => by
        rcases hJ with ⟨rfl, rfl, rfl, rfl⟩ | hJ
        · exact read_target c g _ i hi
        · exact (insertSound c b a.size vs).read s f gp bk hJ i hi
      step := fun s f1 f2 gp bk i hi hJ => by
        rcases hJ with ⟨_, _, h, _⟩ | hJ
        · omega
        · obtain ⟨s1, s2, s3, q1, q2, q3, q4⟩ := (insertSound c b a.size vs).step s f1 f2 gp bk i hi hJ
          exact ⟨s1, s2, s3, q1, q2, q3, Or.inr q4⟩
      set := fun s f gp hi hJ => by
        rcases hJ with ⟨_, _, h, _⟩ | hJ
        · omega
        · obtain ⟨s1, s2, q1, q2, q3⟩ := (insertSound c b a.size vs).set s f gp hi hJ
          exact ⟨s1, s2, q1, q2, Or.inr q3⟩ }
    (sort_increasing S) hv a.buf b (Or.inl ⟨rfl, rfl, rfl, rfl⟩) e (Or.inr hw)
  unfold SortedArr.insertMany
  have hsz : a.size = (S.sort (· ≤ ·)).length := by rw [g.size]; simp
  rw [hsz]
  rw [hsz] at e1
  simp only [List.map_id] at e1
  rw [e1, bind_ok, hn]
  refine ⟨_, rfl, ?_⟩
  have hmem : ∀ x, x ∈ f ++ bk ↔ x ∈ S ∪ vs.toFinset := by
    intro x
    rw [e4 x, Finset.mem_union, List.mem_toFinset]
    simp only [Finset.mem_sort, id_eq]
    constructor
    · rintro (h | h)
      · exact Or.inl h
      · exact Or.inr h.1
    · intro h
      by_cases hx : x ∈ S
      · exact Or.inl hx
      · exact Or.inr ⟨h.resolve_left hx, fun y hy e => hx (e ▸ hy)⟩
  rcases e2 with ⟨rfl, rfl, -, rfl⟩ | hw'
  · have hS : S ∪ vs.toFinset = S := by
      ext x; rw [← hmem x]; simp
    have : (vs.toFinset \ S).card = 0 := by rw [hS] at hc; omega
    rw [this, hS, ← hsz]
    exact g
  · refine mkGood g h1 h2 h4 h5.outside (hw'.join IsRaw [] (f ++ bk) (by simp)) e3 hmem ?_
    rw [hc]; simp

theorem insertMany_abort [Inhabited T] (c : Cfg) (g : SGood limit a S) (vs : List T) (hv : Spec.sortedUnique vs)
    (hf : ¬ Spec.fits limit (S ∪ vs.toFinset).card) : a.insertMany c vs = .error .abort := by
  have hn := newCount_card S vs hv
  rw [card_union_eq S vs, ← hn] at hf
  have := insertRange_abort (α := T) c (target c a.size) id vs (S.sort (· ≤ ·)) a.buf (fun i hi => read_target c g _ i hi)
    (sort_increasing S) hv .abort (grow_abort c g _ hf)
  unfold SortedArr.insertMany
  have hsz : a.size = (S.sort (· ≤ ·)).length := by rw [g.size]; simp
  rw [hsz] at this ⊢
  rw [List.map_id] at this
  rw [this]; rfl

theorem remove_good (c : Cfg) (g : SGood limit a S) (v : T) :
    ∃ a', a.remove c v = .ok (a', decide (v ∈ S)) ∧ SGood limit a' (S.erase v) := by
  obtain ⟨s', e1, hw⟩ := removeOne_spec c (target c a.size) id (S.sort (· ≤ ·)) v a.buf
    (fun i hi => read_target c g _ i hi) (sort_increasing S)
    (fun b1 xs => Win IsRaw a.buf b1 0 a.buf.cap xs 0 [])
    (Rep.win g.rep _)
    (fun f1 x f2 hx => by
      have hw : Win IsRaw a.buf a.buf 0 a.buf.cap (S.sort (· ≤ ·)) 0 [] := Rep.win g.rep _
      rw [hx] at hw ⊢
      obtain ⟨b1, e1, e2⟩ := hw.eraseOne c
      refine ⟨b1, b1, ?_, rfl, e2⟩
      show (arrayManipulation.erase c a.buf 0 _ _ _ >>= fun b => Except.ok b) = _
      rw [e1]; rfl)
  unfold SortedArr.remove
  have hsz : a.size = (S.sort (· ≤ ·)).length := by rw [g.size]; simp
  rw [hsz]
  rw [hsz] at e1
  have hdec : decide (∃ x ∈ S.sort (· ≤ ·), id x = v) = decide (v ∈ S) := by
    congr 1
    apply propext
    simp
  rw [hdec] at e1
  rw [e1, bind_ok]
  refine ⟨_, rfl, mkGood g rfl rfl (fun _ => rfl) (Rep.outside g.rep) hw ((sort_increasing S).filter _) ?_ ?_⟩
  · intro x
    simp [and_comm]
  · by_cases hv : v ∈ S
    · simp [hv, Finset.card_erase_of_mem]
    · simp [hv]

theorem removeMany_good (c : Cfg) (g : SGood limit a S) (vs : List T) (hv : Spec.sortedUnique vs) :
    ∃ a', a.removeMany c vs = .ok (a', (S ∩ vs.toFinset).card) ∧ SGood limit a' (S \ vs.toFinset) := by
  have hw0 : Win NotRaw a.buf a.buf 0 a.buf.cap (S.sort (· ≤ ·)) 0 [] := Rep.win g.rep _
  obtain ⟨s', e1, hw⟩ := removeRange_spec c (target c a.size) id _ (removeSound c a.buf a.size) (S.sort (· ≤ ·)) vs a.buf
    (sort_increasing S) hv (hw0.join NotRaw _ [] (by simp))
    (fun b1 xs => Win NotRaw a.buf b1 0 a.buf.cap xs 0 []) hw0
    (fun s kept d hk hw => by
      obtain ⟨b1, q1, q2⟩ := hw.destroyTail c _ hk NotRaw
      refine ⟨b1, ?_, q2⟩
      show (arrayManipulation.destroy c s (0 + _ - d) d >>= fun b => Except.ok b) = _
      rw [q1]; rfl)
  unfold SortedArr.removeMany
  have hsz : a.size = (S.sort (· ≤ ·)).length := by rw [g.size]; simp
  rw [hsz]
  rw [hsz] at e1
  have hcount : ((S.sort (· ≤ ·)).filter (fun x => decide (id x ∈ vs))).length = (S ∩ vs.toFinset).card := by
    have : S ∩ vs.toFinset = ((S.sort (· ≤ ·)).filter (fun x => decide (id x ∈ vs))).toFinset := by
      ext x; simp
    rw [this, List.toFinset_card_of_nodup]
    exact (Finset.sort_nodup _ _).filter _
  rw [hcount] at e1
  rw [e1, bind_ok]
  refine ⟨_, rfl, mkGood g rfl rfl (fun _ => rfl) (Rep.outside g.rep) hw ((sort_increasing S).filter _) ?_ ?_⟩
  · intro x
    simp
  · have := Finset.card_sdiff_add_card_inter S vs.toFinset
    simp only [Finset.length_sort]
    omega

theorem contains_good (c : Cfg) (g : SGood limit a S) (v : T) : a.contains c v = .ok (decide (v ∈ S)) := by
  unfold SortedArr.contains sortedArrayManipulation.contains
  have hread : ∀ i (hi : i < (S.sort (· ≤ ·)).length), (fun i => a.buf.read i) i = .ok (id (S.sort (· ≤ ·))[i]) :=
    fun i hi => read_good g i hi
  have hsz : a.size = (S.sort (· ≤ ·)).length := by rw [g.size]; simp
  obtain ⟨f1, f2, hx, hpos, k1, k2⟩ := find_split c id (fun i => a.buf.read i) (S.sort (· ≤ ·)) v (sort_increasing S) hread
  have hinc := sort_increasing S
  rw [hsz, hpos, bind_ok]
  have hmem : v ∈ S ↔ v ∈ f1 ++ f2 := by rw [← hx]; simp
  rw [hx] at hread hinc ⊢
  rw [present_eq id _ f1 f2 v hread k2 hinc]
  congr 2
  apply propext
  rw [hmem, List.mem_append]
  constructor
  · rintro ⟨x, h, rfl⟩; exact Or.inr h
  · rintro (h | h)
    · exact absurd (k1 v h) (lt_irrefl v)
    · exact ⟨v, h, rfl⟩

theorem get_good (c : Cfg) (g : SGood limit a S) (i : Nat) (hi : i < S.card) :
    a.get c i = .ok ((S.sort (· ≤ ·))[i]'(by simpa using hi)) := by
  unfold SortedArr.get
  have h1 : (decide ((i : Int) < 0) || decide ((a.size : Int) ≤ i)) = false := by
    rw [g.size]; simp; omega
  rw [h1, Bool.and_false, errorIf_false, bind_ok, if_neg (by omega)]
  exact read_good g i _

theorem reserve_good (c : Cfg) (g : SGood limit a S) (n : Int) (hf : Spec.fits limit n.toNat) :
    ∃ a', a.reserve c n = .ok a' ∧ SGood limit a' S ∧ n ≤ a'.buf.cap := by
  unfold SortedArr.reserve
  have hr := (Good.room g _).mpr hf
  have := bufferManipulation.reserve_rep c g.rep n.toNat hr
  simp only [Finset.length_sort] at this
  rw [g.size, this, bind_ok]
  refine ⟨_, rfl, Good.mk' g (by simp) rfl rfl g.rep.1 ?_ (fun h => maxCap_stack hr h), ?_⟩
  · have := g.rep.2
    exact Nat.le_trans this (Nat.le_max_left _ _)
  · show n ≤ ((max a.buf.cap n.toNat : Nat) : Int)
    omega

theorem clear_good [Inhabited T] (c : Cfg) (g : SGood limit a S) : ∃ a', a.clear c = .ok a' ∧ SGood limit a' ∅ := by
  unfold SortedArr.clear
  have hr : a.buf.room 0 := Or.inr (Nat.zero_le _)
  have := bufferManipulation.resize_rep c g.rep 0 default hr
  simp only [Finset.length_sort] at this
  rw [g.size, this, bind_ok]
  refine ⟨_, rfl, Good.mk' g (by simp) rfl rfl ?_ (by simp) (fun h => maxCap_stack hr h)⟩
  simp

/-- Every allowed call does what the specification says. -/
theorem step_good [Inhabited T] (c : Cfg) (g : SGood limit a S) (op : SetOp T) {S' : Finset T} {o : SetOut T}
    (h : Spec.setStep limit S op = some (S', o)) : ∃ a', a.step c op = .ok (a', o) ∧ SGood limit a' S' := by
  cases op with
  | insert v =>
    simp only [Spec.setStep, Option.ite_none_right_eq_some, Option.some.injEq, Prod.mk.injEq] at h
    obtain ⟨hf, rfl, rfl⟩ := h
    obtain ⟨a', e, g'⟩ := insert_good c g v hf
    exact ⟨a', by simp only [SortedArr.step, e, bind_ok], g'⟩
  | insertMany vs =>
    simp only [Spec.setStep, Option.ite_none_right_eq_some, Option.some.injEq, Prod.mk.injEq] at h
    obtain ⟨⟨hv, hf⟩, rfl, rfl⟩ := h
    obtain ⟨a', e, g'⟩ := insertMany_good c g vs hv hf
    exact ⟨a', by simp only [SortedArr.step, e, bind_ok], g'⟩
  | remove v =>
    simp only [Spec.setStep, Option.some.injEq, Prod.mk.injEq] at h
    obtain ⟨rfl, rfl⟩ := h
    obtain ⟨a', e, g'⟩ := remove_good c g v
    exact ⟨a', by simp only [SortedArr.step, e, bind_ok], g'⟩
  | removeMany vs =>
    simp only [Spec.setStep, Option.ite_none_right_eq_some, Option.some.injEq, Prod.mk.injEq] at h
    obtain ⟨hv, rfl, rfl⟩ := h
    obtain ⟨a', e, g'⟩ := removeMany_good c g vs hv
    exact ⟨a', by simp only [SortedArr.step, e, bind_ok], g'⟩
  | contains v =>
    simp only [Spec.setStep, Option.some.injEq, Prod.mk.injEq] at h
    obtain ⟨rfl, rfl⟩ := h
    exact ⟨a, by simp only [SortedArr.step, contains_good c g v, bind_ok], g⟩
  | get i =>
    simp only [Spec.setStep, Option.ite_none_right_eq_some, Option.map_eq_some_iff, Prod.mk.injEq] at h
    obtain ⟨⟨h0, h1⟩, v, hv, rfl, rfl⟩ := h
    have := get_good c g i.toNat (by omega)
    rw [Int.toNat_of_nonneg h0] at this
    have hlt : i.toNat < (S.sort (· ≤ ·)).length := by simp; omega
    rw [List.getElem?_eq_getElem hlt, Option.some.injEq] at hv
    rw [hv] at this
    exact ⟨a, by simp only [SortedArr.step, this, bind_ok], g⟩
  | reserve n =>
    simp only [Spec.setStep, Option.ite_none_right_eq_some, Option.some.injEq, Prod.mk.injEq] at h
    obtain ⟨hf, rfl, rfl⟩ := h
    obtain ⟨a', e, g', _⟩ := reserve_good c g n hf
    exact ⟨a', by simp only [SortedArr.step, e, bind_ok], g'⟩
  | clear =>
    simp only [Spec.setStep, Option.some.injEq, Prod.mk.injEq] at h
    obtain ⟨rfl, rfl⟩ := h
    obtain ⟨a', e, g'⟩ := clear_good c g
    exact ⟨a', by simp only [SortedArr.step, e, bind_ok], g'⟩

end SortedArr

end LvArray
