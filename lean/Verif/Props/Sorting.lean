import Verif.SortLemmas
import Verif.SortKiller
import Verif.Props.SortedSet

/-!
# Sorting and removing duplicates (C18, C19)
-/

namespace LvArray.Props

open LvArray.sortedArrayManipulation

/-- The buffer is exactly the range of values `xs`. -/
def Holds {T : Type} (b : Buf T) (xs : List T) : Prop :=
  b.cap = xs.length ∧ ∀ i (h : i < xs.length), b.cell i = .live xs[i]

/-- No element of the list is smaller than an earlier one. -/
def SortedUnder {T : Type} (comp : T → T → Bool) (xs : List T) : Prop := xs.Pairwise (fun a b => comp b a = false)

/-! ### Iterators -/

/-- A buffer of `n` slots that represents `f`. -/
def PtrRep {T : Type} (n lost : Nat) (b : Buf T) (f : Nat → Option T) : Prop :=
  b.cap = n ∧ b.lostLive = lost ∧ ∀ k, k < n → b.cell k = match f k with | some v => .live v | none => .moved

theorem ptr_take {T : Type} {n l : Nat} {b : Buf T} {f : Nat → Option T} (h : PtrRep n l b f) {i : Nat} (hi : i < n) {v : T}
    (hv : f i = some v) : ∃ b', Buf.take b i = .ok (v, b') ∧ PtrRep n l b' (upd f i none) := by
  have hc := h.2.2 i hi
  rw [hv] at hc
  unfold Buf.take Buf.read
  rw [if_pos (by rw [h.1]; exact hi), hc]
  refine ⟨_, rfl, h.1, h.2.1, ?_⟩
  intro k hk
  dsimp only
  by_cases hki : k = i
  · subst hki; simp [upd]
  · simp [upd, hki, h.2.2 k hk]

theorem ptr_moveAssign {T : Type} (c : Cfg) {n l : Nat} {b : Buf T} {f : Nat → Option T} (h : PtrRep n l b f) {dst src : Nat}
    (hd : dst < n) (hs : src < n) {v : T} (hv : f src = some v) :
    ∃ b', b.moveAssign c dst src = .ok b' ∧ PtrRep n l b' (upd (upd f src none) dst (some v)) := by
  have hc := h.2.2 src hs
  rw [hv] at hc
  have hraw : (b.cell dst).isRaw = false := by
    rw [h.2.2 dst hd]; cases f dst <;> rfl
  unfold Buf.moveAssign
  rw [if_pos ⟨by rw [h.1]; exact hd, by rw [h.1]; exact hs⟩, hraw, hc]
  refine ⟨_, rfl, h.1, h.2.1, ?_⟩
  intro k hk
  dsimp only
  by_cases hk1 : k = dst
  · subst hk1; simp [upd]
  · by_cases hk2 : k = src
    · subst hk2; simp [upd, hk1]
    · simp [upd, hk1, hk2, h.2.2 k hk]

theorem ptr_put {T : Type} (c : Cfg) {n l : Nat} {b : Buf T} {f : Nat → Option T} (h : PtrRep n l b f) {i : Nat}
    (hi : i < n) (v : T) : ∃ b', b.write c i v = .ok b' ∧ PtrRep n l b' (upd f i (some v)) := by
  have hraw : (b.cell i).isRaw = false := by
    rw [h.2.2 i hi]; cases f i <;> rfl
  unfold Buf.write
  rw [if_pos (by rw [h.1]; exact hi), hraw]
  refine ⟨_, rfl, h.1, h.2.1, ?_⟩
  intro k hk
  dsimp only
  by_cases hk1 : k = i
  · subst hk1; simp [upd]
  · simp [upd, hk1, h.2.2 k hk]

theorem ptr_read {T : Type} {n l : Nat} {b : Buf T} {f : Nat → Option T} (h : PtrRep n l b f) {i : Nat} (hi : i < n) {v : T}
    (hv : f i = some v) : b.read i = .ok v := by
  have hc := h.2.2 i hi
  rw [hv] at hc
  unfold Buf.read
  rw [if_pos (by rw [h.1]; exact hi), hc]

theorem pointer_sound {T : Type} (c : Cfg) (n l : Nat) : Sound (pointer (T := T) c) n (PtrRep n l) where
  key := fun _ _ _ _ h hi hv => ptr_read h hi hv
  take := fun _ _ _ _ h hi hv => ptr_take h hi hv
  moveAssign := fun _ _ _ _ _ h hd hs _ hv => ptr_moveAssign c h hd hs hv
  put := fun _ _ _ v h hi => ptr_put c h hi v

/-- Two buffers that represent the two components of `f`. -/
def DualRep {A B : Type} (n l1 l2 : Nat) (s : Buf A × Buf B) (f : Nat → Option (A × B)) : Prop :=
  PtrRep n l1 s.1 (fun k => (f k).map Prod.fst) ∧ PtrRep n l2 s.2 (fun k => (f k).map Prod.snd)

theorem map_upd {A B : Type} (f : Nat → Option A) (g : A → B) (i : Nat) (x : Option A) :
    (fun k => (upd f i x k).map g) = upd (fun k => (f k).map g) i (x.map g) := by
  funext k
  unfold upd
  split <;> rfl

theorem dual_sound {A B : Type} (ca cb : Cfg) (n l1 l2 : Nat) :
    Sound (dualIterator (A := A) (B := B) ca cb) n (DualRep n l1 l2) where
  key := fun s f i v h hi hv => ptr_read h.1 hi (by simp [hv]; rfl)
  take := fun s f i v h hi hv => by
    obtain ⟨a, ea, ra⟩ := ptr_take h.1 hi (v := v.1) (by simp [hv])
    obtain ⟨b, eb, rb⟩ := ptr_take h.2 hi (v := v.2) (by simp [hv])
    refine ⟨(a, b), ?_, ?_, ?_⟩
    · simp [dualIterator, ea, eb]
    · rw [map_upd]; exact ra
    · rw [map_upd]; exact rb
  moveAssign := fun s f dst src v h hd hs _ hv => by
    obtain ⟨a, ea, ra⟩ := ptr_moveAssign ca h.1 hd hs (v := v.1) (by simp [hv])
    obtain ⟨b, eb, rb⟩ := ptr_moveAssign cb h.2 hd hs (v := v.2) (by simp [hv])
    refine ⟨(a, b), ?_, ?_, ?_⟩
    · simp [dualIterator, ea, eb]
    · rw [map_upd, map_upd]; exact ra
    · rw [map_upd, map_upd]; exact rb
  put := fun s f i v h hi => by
    obtain ⟨a, ea, ra⟩ := ptr_put ca h.1 hi v.1
    obtain ⟨b, eb, rb⟩ := ptr_put cb h.2 hi v.2
    refine ⟨(a, b), ?_, ?_, ?_⟩
    · simp [dualIterator, ea, eb]
    · rw [map_upd]; exact ra
    · rw [map_upd]; exact rb

/-! ### Lists and functions -/

theorem map_range_getD {T : Type} (xs : List T) (d : T) : (List.range xs.length).map (fun k => xs.getD k d) = xs := by
  apply List.ext_getElem
  · simp
  · intro i h1 h2
    simp [List.getD_eq_getElem?_getD, List.getElem?_eq_getElem h2]

theorem sortedTo_list {σ α K : Type} {it : RandomAccess σ α K} {comp : K → K → Bool} {y : Nat → α} {n : Nat}
    (h : SortedTo it comp y n) : ((List.range n).map y).Pairwise (fun a b => comp (it.keyOf b) (it.keyOf a) = false) := by
  rw [List.pairwise_map]
  rw [List.pairwise_iff_getElem]
  intro i j hi hj hij
  simp only [List.length_range] at hi hj
  simpa using h i j hij hj

theorem StrictWeakOrder.toAsymm {T : Type} {comp : T → T → Bool} (h : StrictWeakOrder comp) : Asymm comp :=
  fun _ _ hab => h.asymm hab

/-! ### C18 -/

/-- **C18 (device `makeSorted`, partial).** For every range and every strict weak order the device sort either returns a range
holding a sorted permutation of the values, every element constructed and none lost, having accessed no slot outside the
range and no moved-from value, or it stops because its table of 31 pending ranges is full, which never happens below 125
elements.  Missing for the full property: the second case must not exist, but it does (`C18_range_table_overflows`). -/
theorem C18_makeSorted_device_partial {T : Type} (c : Cfg) (comp : T → T → Bool) (hcomp : StrictWeakOrder comp) (b : Buf T)
    (xs : List T) (hb : Holds b xs) :
    (∃ b' ys, makeSortedDevice c comp b = .ok b' ∧ Holds b' ys ∧ ys.Perm xs ∧ SortedUnder comp ys ∧
      b'.lostLive = b.lostLive) ∨
    (125 ≤ xs.length ∧ makeSortedDevice c comp b = .error (if c.debug then .abort else .ub .overrun)) := by
  cases xs with
  | nil =>
    left
    refine ⟨b, [], ?_, hb, List.Perm.refl _, List.Pairwise.nil, rfl⟩
    unfold makeSortedDevice introsort insertionSort
    rw [hb.1]
    rfl
  | cons d rest =>
    have hrep : PtrRep (d :: rest).length b.lostLive b (full (fun k => (d :: rest).getD k d)) := by
      refine ⟨hb.1, rfl, fun k hk => ?_⟩
      rw [hb.2 k hk]
      simp only [full, List.getD_eq_getElem?_getD, List.getElem?_eq_getElem hk, Option.getD_some]
    unfold makeSortedDevice
    rw [hb.1]
    rcases introsort_ok (pointer_sound c (d :: rest).length b.lostLive) c hcomp.toAsymm hcomp.negTrans hrep with
      ⟨b', y, e, r, p, hs⟩ | ⟨hn, e⟩
    · left
      refine ⟨b', (List.range (d :: rest).length).map y, e, ⟨?_, ?_⟩, ?_, sortedTo_list hs, r.2.1⟩
      · rw [r.1]; simp
      · intro i hi
        have := r.2.2 i (by simpa using hi)
        rw [this]
        simp [full]
      · have := p
        unfold Rearr at this
        rwa [map_range_getD] at this
    · exact Or.inr ⟨hn, e⟩

/-- **C18 (`dualSort`, partial).** For all key ranges, data ranges of the same length, element types and strict weak orders:
`dualSort` either returns both ranges rearranged in the same way, so that the pairs (key, data) are a permutation of the
original pairs and the keys are sorted, or fails because its table of pending ranges is full, which never happens
below 125 elements.  Missing: as above. -/
theorem C18_dualSort_partial {A B : Type} (ca cb : Cfg) (comp : A → A → Bool) (hcomp : StrictWeakOrder comp) (keys : Buf A)
    (data : Buf B) (pairs : List (A × B)) (hk : Holds keys (pairs.map Prod.fst)) (hd : Holds data (pairs.map Prod.snd)) :
    (∃ (keys' : Buf A) (data' : Buf B) (pairs' : List (A × B)), dualSort ca cb comp keys data = .ok (keys', data') ∧ Holds keys' (pairs'.map Prod.fst) ∧
      Holds data' (pairs'.map Prod.snd) ∧ pairs'.Perm pairs ∧ SortedUnder comp (pairs'.map Prod.fst) ∧
      keys'.lostLive = keys.lostLive ∧ data'.lostLive = data.lostLive) ∨
    (125 ≤ pairs.length ∧ dualSort ca cb comp keys data = .error (if ca.debug then .abort else .ub .overrun)) := by
  cases pairs with
  | nil =>
    left
    refine ⟨keys, data, [], ?_, hk, hd, List.Perm.refl _, List.Pairwise.nil, rfl, rfl⟩
    unfold dualSort introsort insertionSort
    rw [hk.1]
    rfl
  | cons d rest =>
    have hrep : DualRep (d :: rest).length keys.lostLive data.lostLive (keys, data)
        (full (fun k => (d :: rest).getD k d)) := by
      constructor
      · refine ⟨by rw [hk.1]; simp, rfl, fun k hlt => ?_⟩
        rw [hk.2 k (by simpa using hlt)]
        simp only [full, List.getD_eq_getElem?_getD, List.getElem?_eq_getElem hlt, Option.getD_some, Option.map_some,
          List.getElem_map]
      · refine ⟨by rw [hd.1]; simp, rfl, fun k hlt => ?_⟩
        rw [hd.2 k (by simpa using hlt)]
        simp only [full, List.getD_eq_getElem?_getD, List.getElem?_eq_getElem hlt, Option.getD_some, Option.map_some,
          List.getElem_map]
    unfold dualSort
    have hcap : keys.cap = (d :: rest).length := by rw [hk.1]; simp
    rw [hcap]
    rcases introsort_ok (dual_sound ca cb (d :: rest).length keys.lostLive data.lostLive) ca hcomp.toAsymm hcomp.negTrans
      hrep with ⟨b', y, e, r, p, hs⟩ | ⟨hn, e⟩
    · left
      refine ⟨b'.1, b'.2, (List.range (d :: rest).length).map y, e, ⟨?_, ?_⟩, ⟨?_, ?_⟩, ?_, ?_, r.1.2.1, r.2.2.1⟩
      · rw [r.1.1]; simp
      · intro i hi
        rw [r.1.2.2 i (by simpa using hi)]
        simp [full]
      · rw [r.2.1]; simp
      · intro i hi
        rw [r.2.2.2 i (by simpa using hi)]
        simp [full]
      · have := p
        unfold Rearr at this
        rwa [map_range_getD] at this
      · have := sortedTo_list hs
        unfold SortedUnder
        rw [List.pairwise_map]
        exact this
    · exact Or.inr ⟨hn, e⟩

/-- A buffer holding the given values. -/
def bufOf {T : Type} (xs : List T) : Buf T :=
  { kind := .malloc, cap := xs.length, cell := fun k => match xs[k]? with | some v => .live v | none => .raw,
    lostLive := 0, lostMoved := 0, moves := 0 }

theorem bufOf_holds {T : Type} (xs : List T) : Holds (bufOf xs) xs :=
  ⟨rfl, fun i h => by simp [bufOf, List.getElem?_eq_getElem h]⟩

example : ∃ (keys' : Buf Nat) (data' : Buf String) (pairs' : List (Nat × String)),
    dualSort ⟨true, true, true⟩ ⟨false, true, true⟩ (less (T := Nat)) (bufOf [3, 1, 2, 1])
      (bufOf ["d", "b", "c", "a"]) = .ok (keys', data') ∧
    Holds keys' (pairs'.map Prod.fst) ∧ pairs'.Perm [(3, "d"), (1, "b"), (2, "c"), (1, "a")] := by
  rcases C18_dualSort_partial ⟨true, true, true⟩ ⟨false, true, true⟩ (less (T := Nat)) strictWeakOrder_less
    (bufOf [3, 1, 2, 1]) (bufOf ["d", "b", "c", "a"]) [(3, "d"), (1, "b"), (2, "c"), (1, "a")] (bufOf_holds _) (bufOf_holds _)
    with ⟨k, d, p, h1, h2, -, h3, -⟩ | ⟨h, -⟩
  · exact ⟨k, d, p, h1, h2, h3⟩
  · exact absurd h (by decide)

/-- Did the call fail in the given way? -/
def failsWith {α : Type} (r : R α) (e : Err) : Bool :=
  match r with
  | .error e' => decide (e' = e)
  | .ok _ => false

/-- 125 keys for which every partition cuts off two elements only. -/
def killer : List Nat :=
  [60, 1, 60, 3, 60, 5, 60, 7, 60, 9, 60, 11, 60, 13, 60, 15, 60, 17, 60, 19, 60, 21, 60, 23, 60, 25, 60, 27, 60, 29, 60, 31,
   60, 33, 60, 35, 60, 37, 60, 39, 60, 41, 60, 43, 60, 45, 60, 47, 60, 49, 60, 51, 60, 53, 60, 55, 60, 57, 60, 59, 60, 60, 0,
   2, 4, 6, 8, 10, 12, 14, 16, 18, 20, 22, 24, 26, 28, 30, 32, 34, 36, 38, 40, 42, 44, 46, 48, 50, 52, 54, 56, 58, 60, 60, 60,
   60, 60, 60, 60, 60, 60, 60, 60, 60, 60, 60, 60, 60, 60, 60, 60, 60, 60, 60, 60, 60, 60, 60, 60, 60, 60, 60, 60, 60, 60]

/-- **C18, disagreement.** Sorting these 125 numbers with `dualSort` (in host code too) writes past the end of the local
array of pending ranges; with assertions on it aborts instead. -/
theorem C18_range_table_overflows :
    failsWith (dualSort ⟨true, true, false⟩ ⟨true, true, false⟩ (less (T := Nat)) (bufOf killer) (bufOf killer))
      (.ub .overrun) = true ∧
    failsWith (dualSort ⟨true, true, true⟩ ⟨true, true, true⟩ (less (T := Nat)) (bufOf killer) (bufOf killer)) .abort = true := by
  decide +kernel

/-- **C18, disagreement, for every length.** The bound 125 of the theorems above is exact: for every length from 125 on there
is a range of numbers that neither the device `makeSorted` nor `dualSort`, whatever the data, can sort. -/
theorem C18_overflow_every_length (n : Nat) (hn : 125 ≤ n) : ∃ keys : List Nat, keys.length = n ∧
    (∀ (c : Cfg) (b : Buf Nat), Holds b keys →
      makeSortedDevice c less b = .error (if c.debug then .abort else .ub .overrun)) ∧
    (∀ (B : Type) (ca cb : Cfg) (k : Buf Nat) (data : Buf B) (ds : List B), ds.length = n → Holds k keys → Holds data ds →
      dualSort ca cb less k data = .error (if ca.debug then .abort else .ub .overrun)) := by
  refine ⟨(List.range n).map (killerKey n 0), by simp, ?_, ?_⟩
  · intro c b hb
    unfold makeSortedDevice
    rw [hb.1, List.length_map, List.length_range]
    refine killer_introsort (pointer_sound c n b.lostLive) c hn (x := killerKey n 0) ?_ (fun i _ => rfl)
    refine ⟨by rw [hb.1]; simp, rfl, fun i hi => ?_⟩
    rw [hb.2 i (by simpa using hi)]
    simp [full]
  · intro B ca cb k data ds hl hk hd
    unfold dualSort
    rw [hk.1, List.length_map, List.length_range]
    have hpos : 0 < ds.length := by omega
    refine killer_introsort (dual_sound ca cb n k.lostLive data.lostLive) ca hn
      (x := fun i => (killerKey n 0 i, ds.getD i ds[0])) ?_ (fun i _ => rfl)
    refine ⟨⟨by rw [hk.1]; simp, rfl, fun i hi => ?_⟩, ⟨by rw [hd.1, hl], rfl, fun i hi => ?_⟩⟩
    · rw [hk.2 i (by simpa using hi)]
      simp [full]
    · rw [hd.2 i (by omega)]
      simp [full, List.getD_eq_getElem?_getD, List.getElem?_eq_getElem (show i < ds.length by omega)]

/-! ### C19 -/

/-- What the loop of `removeDuplicates` keeps after the value `last`. -/
def keep {T : Type} (comp : T → T → Bool) : T → List T → List T
  | _, [] => []
  | last, y :: r => if comp last y then y :: keep comp y r else keep comp last r

theorem keep_sublist {T : Type} (comp : T → T → Bool) : ∀ (rest : List T) (last : T), (keep comp last rest).Sublist rest
  | [], _ => List.Sublist.refl _
  | y :: r, last => by
    unfold keep
    split
    · exact (keep_sublist comp r y).cons_cons y
    · exact (keep_sublist comp r last).cons y

theorem keep_spec {T : Type} {comp : T → T → Bool} (h : StrictWeakOrder comp) : ∀ (rest : List T) (last : T),
    SortedUnder comp (last :: rest) →
    (last :: keep comp last rest).Pairwise (fun a b => comp a b = true) ∧
    ∀ x, x ∈ rest → ∃ y, y ∈ last :: keep comp last rest ∧ comp x y = false ∧ comp y x = false
  | [], last, _ => ⟨List.pairwise_singleton _ _, fun x hx => by simp at hx⟩
  | y :: r, last, hs => by
    unfold SortedUnder at hs
    rw [List.pairwise_cons] at hs
    obtain ⟨h1, h2⟩ := hs
    unfold keep
    cases hc : comp last y with
    | true =>
      rw [if_pos rfl]
      obtain ⟨a1, a2⟩ := keep_spec h r y h2
      refine ⟨?_, ?_⟩
      · rw [List.pairwise_cons]
        refine ⟨?_, a1⟩
        intro z hz
        rw [List.pairwise_cons] at a1
        rcases List.mem_cons.mp hz with rfl | hz
        · exact hc
        · exact h.trans _ _ _ hc (a1.1 z hz)
      · intro x hx
        rcases List.mem_cons.mp hx with rfl | hx
        · exact ⟨x, by simp, h.irrefl x, h.irrefl x⟩
        · obtain ⟨z, hz, e⟩ := a2 x hx
          exact ⟨z, List.mem_cons_of_mem _ hz, e⟩
    | false =>
      rw [if_neg (by decide)]
      have hs' : SortedUnder comp (last :: r) := by
        unfold SortedUnder
        rw [List.pairwise_cons]
        exact ⟨fun a ha => h1 a (List.mem_cons_of_mem _ ha), (List.pairwise_cons.mp h2).2⟩
      obtain ⟨a1, a2⟩ := keep_spec h r last hs'
      refine ⟨a1, ?_⟩
      intro x hx
      rcases List.mem_cons.mp hx with rfl | hx
      · exact ⟨last, by simp, h1 x (by simp), hc⟩
      · exact a2 x hx

theorem removeDuplicatesLoop_ok {T : Type} (c : Cfg) (comp : T → T → Bool) : ∀ (rest : List T) (first next nu : Nat) (b : Buf T)
    (last : T), b.cap = next + rest.length → first < next → b.cell first = .live last →
    (∀ i (h : i < rest.length), b.cell (next + i) = .live rest[i]) → (∀ k, k < b.cap → (b.cell k).isRaw = false) →
    ∃ b', removeDuplicatesLoop c comp rest.length first next nu b = .ok (nu + (keep comp last rest).length, b') ∧
      b'.cap = b.cap ∧ b'.lostLive = b.lostLive ∧ (∀ k, k ≤ first → b'.cell k = b.cell k) ∧
      (∀ i (h : i < (keep comp last rest).length), b'.cell (first + 1 + i) = .live (keep comp last rest)[i]) ∧
      (∀ k, k < b.cap → (b'.cell k).isRaw = false)
  | [], first, next, nu, b, last, _, _, _, _, hr =>
    ⟨b, rfl, rfl, rfl, fun _ _ => rfl, fun i h => by simp [keep] at h, hr⟩
  | y :: r, first, next, nu, b, last, hcap, hlt, hl, hrest, hraw => by
    have hy : b.cell next = .live y := hrest 0 (by simp)
    have hcap' : b.cap = next + 1 + r.length := by rw [hcap, List.length_cons]; omega
    have e1 : b.read first = .ok last := by
      unfold Buf.read; rw [if_pos (by omega), hl]
    have e2 : b.read next = .ok y := by
      unfold Buf.read; rw [if_pos (by omega), hy]
    have hrest' : ∀ i (h : i < r.length), b.cell (next + 1 + i) = .live r[i] := by
      intro i h
      have := hrest (i + 1) (by simpa using h)
      rw [show next + 1 + i = next + (i + 1) by omega, this]
      simp
    rw [List.length_cons]
    unfold removeDuplicatesLoop
    rw [e1, bind_ok, e2, bind_ok]
    by_cases hc : comp last y = true
    · have hk : keep comp last (y :: r) = y :: keep comp y r := by
        show (if comp last y = true then _ else _) = _
        rw [if_pos hc]
      rw [hk, if_pos hc]
      by_cases hn : first + 1 = next
      · rw [if_neg (by simpa using hn)]
        obtain ⟨b', e, k1, k2, k3, k4, k5⟩ := removeDuplicatesLoop_ok c comp r (first + 1) (next + 1) (nu + 1) b y hcap'
          (by omega) (by rw [hn]; exact hy) hrest' hraw
        refine ⟨b', by rw [e, List.length_cons]; congr 2; omega, k1, k2, fun k hk => k3 k (by omega), ?_, k5⟩
        intro i hi
        cases i with
        | zero => rw [Nat.add_zero, k3 _ (Nat.le_refl _), hn]; exact hy
        | succ i =>
          have := k4 i (by simpa using hi)
          rw [show first + 1 + (i + 1) = first + 1 + 1 + i by omega, this]
          simp
      · rw [if_pos hn]
        have em : b.moveAssign c (first + 1) next =
            .ok { b with cell := upd (upd b.cell next .moved) (first + 1) (.live y) } := by
          unfold Buf.moveAssign
          rw [if_pos ⟨by omega, by omega⟩, hraw (first + 1) (by omega), hy]
          rfl
        rw [em, bind_ok]
        obtain ⟨b', e, k1, k2, k3, k4, k5⟩ := removeDuplicatesLoop_ok c comp r (first + 1) (next + 1) (nu + 1)
          { b with cell := upd (upd b.cell next .moved) (first + 1) (.live y) } y hcap'
          (by omega) (by simp [upd])
          (by
            intro i h
            have := hrest' i h
            dsimp only
            rw [upd_ne _ _ (by omega), upd_ne _ _ (by omega)]
            exact this)
          (by
            intro k hk
            dsimp only
            have := hraw k hk
            unfold upd
            split
            · rfl
            · split
              · rfl
              · exact this)
        refine ⟨b', by rw [e, List.length_cons]; congr 2; omega, k1, k2, ?_, ?_, k5⟩
        · intro k hk
          rw [k3 k (by omega)]
          dsimp only
          rw [upd_ne _ _ (by omega), upd_ne _ _ (by omega)]
        · intro i hi
          cases i with
          | zero =>
            rw [Nat.add_zero, k3 _ (Nat.le_refl _)]
            simp [upd]
          | succ i =>
            have := k4 i (by simpa using hi)
            rw [show first + 1 + (i + 1) = first + 1 + 1 + i by omega, this]
            simp
    · have hk : keep comp last (y :: r) = keep comp last r := by
        show (if comp last y = true then _ else _) = _
        rw [if_neg hc]
      rw [hk, if_neg hc]
      exact removeDuplicatesLoop_ok c comp r first (next + 1) nu b last hcap' (by omega) hl hrest' hraw

theorem readAll_holds {T : Type} {b : Buf T} {xs : List T} (h : Holds b xs) : readAll b.read b.cap = .ok xs := by
  rw [h.1]
  exact readAll_eq (fun i hi => by
    unfold Buf.read
    rw [if_pos (by rw [h.1]; exact hi), h.2 i hi])

/-- **C19.** `removeDuplicates` on any sorted range returns the number of distinct values, leaves them in ascending order at
the front and keeps an object in every slot: the kept values are a sub-list of the input, strictly increasing, and every
input value is equivalent to a kept one.  In builds with assertions an unsorted range is reported. -/
theorem C19_removeDuplicates {T : Type} (c : Cfg) (comp : T → T → Bool) (hcomp : StrictWeakOrder comp) (b : Buf T)
    (xs : List T) (hb : Holds b xs) :
    (SortedUnder comp xs →
      ∃ (b' : Buf T) (ys : List T), removeDuplicates c comp b = .ok (ys.length, b') ∧ ys.Sublist xs ∧
        ys.Pairwise (fun a b => comp a b = true) ∧
        (∀ x, x ∈ xs → ∃ y, y ∈ ys ∧ comp x y = false ∧ comp y x = false) ∧
        (∀ i (h : i < ys.length), b'.cell i = .live ys[i]) ∧
        b'.cap = b.cap ∧ b'.lostLive = b.lostLive ∧ ∀ k, k < b'.cap → (b'.cell k).isRaw = false) ∧
    (¬ SortedUnder comp xs → c.debug = true → removeDuplicates c comp b = .error .abort) := by
  have hsorted : isSorted comp xs = true ↔ SortedUnder comp xs := by
    rw [C20_isSorted comp hcomp xs]
    unfold SortedUnder
    rw [List.pairwise_iff_getElem]
    exact ⟨fun h i j hi hj hij => h i j hij hj, fun h i j hij hj => h i j (by omega) hj hij⟩
  refine ⟨?_, ?_⟩
  · intro hs
    have hassert : assertRange c b.read b.cap (isSorted comp) = .ok () := by
      unfold assertRange
      rw [readAll_holds hb]
      cases c.debug <;> simp [hsorted.mpr hs]
    unfold removeDuplicates
    rw [hassert, bind_ok]
    cases xs with
    | nil =>
      have : b.cap = 0 := by simpa using hb.1
      rw [if_pos this]
      exact ⟨b, [], rfl, List.Sublist.refl _, List.Pairwise.nil, fun x hx => by simp at hx, fun i h => by simp at h, rfl, rfl,
        fun k hk => by omega⟩
    | cons x0 rest =>
      have hcap : b.cap = rest.length + 1 := by simpa using hb.1
      rw [if_neg (by omega), hcap]
      have h0 : b.cell 0 = .live x0 := hb.2 0 (by simp)
      have er : b.read 0 = .ok x0 := by unfold Buf.read; rw [if_pos (by omega), h0]
      unfold removeDuplicatesLoop
      rw [er, bind_ok, bind_ok, hcomp.irrefl]
      simp only [Bool.false_eq_true, if_false]
      obtain ⟨b', e, k1, k2, k3, k4, k5⟩ := removeDuplicatesLoop_ok c comp rest 0 (0 + 1) 1 b x0 (by omega) (by omega) h0
        (by
          intro i h
          have := hb.2 (i + 1) (by simpa using h)
          rw [show 0 + 1 + i = i + 1 by omega, this]
          simp)
        (by
          intro k hk
          rw [hb.2 k (by rw [← hb.1]; exact hk)]
          rfl)
      obtain ⟨p1, p2⟩ := keep_spec hcomp rest x0 hs
      refine ⟨b', x0 :: keep comp x0 rest, by rw [e, List.length_cons]; congr 2; omega, (keep_sublist comp rest x0).cons_cons x0, p1, ?_,
        ?_, by rw [k1, hcap], k2, fun k hk => k5 k (by omega)⟩
      · intro x hx
        rcases List.mem_cons.mp hx with rfl | hx
        · exact ⟨x, by simp, hcomp.irrefl x, hcomp.irrefl x⟩
        · exact p2 x hx
      · intro i hi
        cases i with
        | zero => rw [k3 0 (Nat.le_refl _)]; exact h0
        | succ i =>
          have := k4 i (by simpa using hi)
          rw [show 0 + 1 + i = i + 1 by omega] at this
          rw [this]
          simp
  · intro hs hd
    unfold removeDuplicates assertRange
    rw [readAll_holds hb, hd]
    have : isSorted comp xs = false := by
      cases h : isSorted comp xs with
      | false => rfl
      | true => exact absurd (hsorted.mp h) hs
    simp [this]

example : SortedUnder (less (T := Nat)) [1, 1, 2, 5, 5, 5] ∧ Holds (bufOf [1, 1, 2, 5, 5, 5]) [1, 1, 2, 5, 5, 5] :=
  ⟨by unfold SortedUnder; decide, bufOf_holds _⟩

/-- **C19 (`makeSortedUnique`).** Whatever sorting routine is used, as long as it returns a sorted permutation of its input
(`std::sort` in host code), `makeSortedUnique` on any range returns the number of distinct values and leaves exactly
them, strictly increasing, at the front: a value is kept if and only if it occurs in the input (up to equivalence). -/
theorem C19_makeSortedUnique {T : Type} (c : Cfg) (comp : T → T → Bool) (hcomp : StrictWeakOrder comp)
    (sort : Buf T → R (Buf T)) (b : Buf T) (xs : List T)
    (hsort : ∃ b' ys, sort b = .ok b' ∧ Holds b' ys ∧ ys.Perm xs ∧ SortedUnder comp ys ∧ b'.lostLive = b.lostLive) :
    ∃ (b' : Buf T) (ys : List T), makeSortedUnique c comp sort b = .ok (ys.length, b') ∧
      ys.Pairwise (fun a b => comp a b = true) ∧ (∀ y, y ∈ ys → y ∈ xs) ∧
      (∀ x, x ∈ xs → ∃ y, y ∈ ys ∧ comp x y = false ∧ comp y x = false) ∧
      (∀ i (h : i < ys.length), b'.cell i = .live ys[i]) ∧ b'.cap = xs.length ∧ b'.lostLive = b.lostLive ∧
      ∀ k, k < b'.cap → (b'.cell k).isRaw = false := by
  obtain ⟨b1, ys, e1, h1, p1, s1, l1⟩ := hsort
  obtain ⟨b2, zs, e2, sl, pw, cov, cl, cp, ll, nr⟩ := (C19_removeDuplicates c comp hcomp b1 ys h1).1 s1
  refine ⟨b2, zs, ?_, pw, fun y hy => p1.mem_iff.mp (sl.subset hy), fun x hx => cov x (p1.mem_iff.mpr hx), cl, ?_,
    by rw [ll, l1], nr⟩
  · unfold makeSortedUnique
    rw [e1, bind_ok, e2]
  · rw [cp, h1.1, p1.length_eq]

-- the device sort is such a routine for short ranges
example : ∃ (b' : Buf Nat) (ys : List Nat), makeSortedUnique ⟨false, true, true⟩ (less (T := Nat)) (makeSortedDevice ⟨false, true, true⟩ less)
    (bufOf [4, 2, 4, 1]) = .ok (List.length ys, b') ∧ ys.Pairwise (fun a b => less a b = true) := by
  rcases C18_makeSorted_device_partial ⟨false, true, true⟩ (less (T := Nat)) strictWeakOrder_less (bufOf [4, 2, 4, 1])
    [4, 2, 4, 1] (bufOf_holds _) with h | ⟨h, -⟩
  · obtain ⟨b', ys, e, p, -⟩ := C19_makeSortedUnique ⟨false, true, true⟩ (less (T := Nat)) strictWeakOrder_less
      (makeSortedDevice ⟨false, true, true⟩ less) (bufOf [4, 2, 4, 1]) _ h
    exact ⟨b', ys, e, p⟩
  · exact absurd h (by decide)

end LvArray.Props
