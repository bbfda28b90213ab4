import Verif.FaultRows
import Verif.FaultsLemmas
/-!
# Lemmas about destroying inner arrays that are followed by forgotten values
-/

namespace LvArray

open Layout

variable {X : Type}

/-- An inner array, the values behind its last in its memory that it does not count, and its capacity. -/
structure LeftRow (X : Type) where
  xs : List X
  us : List X
  cap : Nat

namespace LeftRow

/-- What the object believes. -/
def seen (r : LeftRow X) : List X × Nat := (r.xs, r.cap)

/-- What is in memory. -/
def kept (r : LeftRow X) : List X × Nat := (r.xs ++ r.us, r.cap)

/-- The same in two pieces. -/
def pieces (r : LeftRow X) : Layout X := [(r.xs, r.xs.length), (r.us, r.cap - r.xs.length)]

/-- The pieces without the counted values. -/
def rest (r : LeftRow X) : Layout X := [([], r.xs.length), (r.us, r.cap - r.xs.length)]

theorem total_rest (R : List (LeftRow X)) (hf : ∀ r ∈ R, r.xs.length ≤ r.cap) :
    total (R.flatMap rest) = total (R.map seen) := by
  induction R with
  | nil => rfl
  | cons r R ih =>
    have := hf r (by simp)
    simp only [List.flatMap_cons, total_append, List.map_cons, total_cons, ih (fun q hq => hf q (by simp [hq])), rest, total_nil, seen]
    omega

theorem total_pieces (R : List (LeftRow X)) (hf : ∀ r ∈ R, r.xs.length ≤ r.cap) :
    total (R.flatMap pieces) = total (R.map kept) := by
  induction R with
  | nil => rfl
  | cons r R ih =>
    have := hf r (by simp)
    simp only [List.flatMap_cons, total_append, List.map_cons, total_cons, ih (fun q hq => hf q (by simp [hq])), pieces, total_nil, kept]
    omega

theorem cellsOf_append (xs us : List X) (k : Nat) :
    cellsOf (xs ++ us) k = if k < xs.length then cellsOf xs k else cellsOf us (k - xs.length) := by
  unfold cellsOf
  by_cases h : k < xs.length
  · rw [if_pos h, List.getElem?_append_left h]
  · rw [if_neg h, List.getElem?_append_right (by omega)]

theorem cells_pieces (R : List (LeftRow X)) (hf : ∀ r ∈ R, r.xs.length ≤ r.cap) (k : Nat) :
    cells (R.flatMap pieces) k = cells (R.map kept) k := by
  induction R generalizing k with
  | nil => rfl
  | cons r R ih =>
    have := hf r (by simp)
    have ih := ih (fun q hq => hf q (by simp [hq])) (k - r.cap)
    simp only [List.flatMap_cons, List.map_cons, pieces, List.cons_append, List.nil_append, cells, kept, cellsOf_append]
    by_cases h1 : k < r.xs.length
    · rw [if_pos h1, if_pos (by omega)]
      simp [h1]
    · rw [if_neg h1]
      by_cases h2 : k < r.cap
      · rw [if_pos (by omega), if_pos h2]
        simp [h1]
      · rw [if_neg (by omega), if_neg h2, show k - r.xs.length - (r.cap - r.xs.length) = k - r.cap by omega, ih]

theorem lay_pieces {b : Buf X} {R : List (LeftRow X)} (h : Lay b (R.map kept)) : Lay b (R.flatMap pieces) := by
  have hf : ∀ r ∈ R, r.xs.length + r.us.length ≤ r.cap := by
    intro r hr
    have := h.fits r.kept (List.mem_map_of_mem hr)
    simpa [kept] using this
  have hf' : ∀ r ∈ R, r.xs.length ≤ r.cap := fun r hr => by have := hf r hr; omega
  refine ⟨h.kind, ?_, by rw [total_pieces R hf']; exact h.room, ?_, h.lost⟩
  · intro q hq
    obtain ⟨r, hr, hq⟩ := List.mem_flatMap.mp hq
    have := hf r hr
    simp only [pieces, List.mem_cons, List.not_mem_nil, or_false] at hq
    rcases hq with rfl | rfl <;> simp only <;> omega
  · rw [h.cell]
    funext k
    rw [cells_pieces R hf']

/-- Destroying all inner arrays leaves the values that they do not count. -/
theorem destroyAll {s : Shape} {b : Buf X} {R : List (LeftRow X)} (c : Cfg) (hs : LShape s (R.map seen))
    (hb : Lay b (R.map kept)) :
    ∃ b', s.destroyValues c 0 s.numArrays b = .ok b' ∧ Lay b' (R.flatMap rest) ∧ b'.cap = b.cap := by
  have hf' : ∀ r ∈ R, r.xs.length ≤ r.cap := by
    intro r hr
    have := hb.fits r.kept (List.mem_map_of_mem hr)
    simp only [kept, List.length_append] at this
    omega
  unfold Shape.destroyValues
  rw [ShGood.checkInsertBounds hs (Nat.zero_le _), bind_ok, ShGood.checkInsertBounds hs (by rw [ShGood.num hs]; exact Nat.le_refl _),
    bind_ok]
  have hn : s.numArrays - 0 = R.length := by rw [hs.num]; simp
  rw [hn]
  have hloop := forUp_inv (f := fun i (b : Buf X) => do
      let off ← s.offsets.read i
      let n ← s.sizeOfArray c i
      arrayManipulation.destroy c b off n)
    (fun m b' => Lay b' ((R.take m).flatMap rest ++ (R.drop m).flatMap pieces) ∧ b'.cap = b.cap)
    R.length 0 b ⟨by simpa using lay_pieces hb, rfl⟩ ?_
  · obtain ⟨b', h1, h2, h3⟩ := hloop
    exact ⟨b', h1, by simpa using h2, h3⟩
  · rintro m b1 - hm ⟨hl, hc⟩
    replace hm : m < R.length := by omega
    rw [List.drop_eq_getElem_cons hm, List.flatMap_cons] at hl
    have hlay : Lay b1 ((R.take m).flatMap rest ++ (R[m].xs, R[m].xs.length) ::
      ((R[m].us, R[m].cap - R[m].xs.length) :: (R.drop (m + 1)).flatMap pieces)) := hl
    obtain ⟨b2, hd, hw, hcap⟩ := (hlay.toWin IsRaw).truncate (c := c) 0 (by omega)
    have hoff : total ((R.take m).flatMap rest) = total ((R.map seen).take m) := by
      rw [total_rest _ (fun r hr => hf' r (List.mem_of_mem_take hr)), List.map_take]
    refine ⟨b2, ?_, ?_, by omega⟩
    · rw [hs.readOff' (by simp; omega), bind_ok, hs.sizeOf' (by simpa using hm), bind_ok, ← hoff]
      simpa [seen] using hd
    · have := hlay.ofWin hw
      rw [List.take_succ_eq_append_getElem hm, List.flatMap_append, List.append_assoc]
      simpa [rest] using this

theorem cells_empty : ∀ (B : Layout X) (k : Nat), (∀ r ∈ B, r.1 = []) → cells B k = .raw
  | [], _, _ => rfl
  | (xs, cap) :: B, k, h => by
    have : xs = [] := h (xs, cap) (by simp)
    subst this
    simp only [cells]
    split
    · rfl
    · exact cells_empty B _ (fun r hr => h r (by simp [hr]))

/-- The values without owner are counted when the memory is released. -/
theorem countL_left {c : Cfg} (ht : c.trivial = false) {b : Buf X} {A B : Layout X} {us : List X} {q : Nat}
    (h : Lay b (A ++ (us, q) :: B)) (hA : ∀ r ∈ A, r.1 = []) (hB : ∀ r ∈ B, r.1 = []) : b.countL c b.cap = us.length := by
  have hroom := h.room
  have hfit := h.fits (us, q) (by simp)
  simp only [total_append, total_cons] at hroom hfit
  rw [Faulty.countL_between c ht b (total A) us.length ?_ b.cap]
  · omega
  · intro j
    rw [h.cell, cells_append]
    constructor
    · rintro ⟨h1, h2⟩
      rw [if_neg (by omega)]
      simp only [cells]
      rw [if_pos (by omega)]
      unfold cellsOf
      rw [List.getElem?_eq_getElem (by omega)]
      exact ⟨_, rfl⟩
    · intro hj
      by_cases h1 : j < total A
      · rw [if_pos h1, cells_empty A _ hA]
      · rw [if_neg h1]
        simp only [cells]
        split
        · unfold cellsOf
          rw [List.getElem?_eq_none (by omega)]
        · exact cells_empty B _ hB

/-- The destructor of an object one of whose inner arrays is followed by values that it does not count. -/
theorem free_left {c : Cfg} {a : AoA X} {A B : Layout X} {xs us : List X} {cap : Nat}
    (hs : LShape a.shape (A ++ (xs, cap) :: B)) (hb : Lay a.values (A ++ (xs ++ us, cap) :: B)) :
    ∃ a', a.free c = .ok a' ∧ a'.values.lostLive = (if c.trivial then 0 else us.length) ∧ a'.values.cap = 0 := by
  let one : List X × Nat → LeftRow X := fun r => ⟨r.1, [], r.2⟩
  have e1 : (A.map one ++ ⟨xs, us, cap⟩ :: B.map one).map seen = A ++ (xs, cap) :: B := by
    simp [seen, one, Function.comp_def]
  have e2 : (A.map one ++ ⟨xs, us, cap⟩ :: B.map one).map kept = A ++ (xs ++ us, cap) :: B := by
    simp [kept, one, Function.comp_def]
  obtain ⟨b, h1, h2, h3⟩ := destroyAll c (e1 ▸ hs) (e2 ▸ hb)
  have hz : ∀ Z : Layout X, ∀ r ∈ (Z.map one).flatMap rest, r.1 = [] := by
    intro Z r hr
    simp only [List.mem_flatMap, List.mem_map] at hr
    obtain ⟨q, ⟨p, -, rfl⟩, hr⟩ := hr
    simp only [rest, one, List.mem_cons, List.not_mem_nil, or_false] at hr
    rcases hr with rfl | rfl <;> rfl
  refine ⟨_, by rw [AoA.free, h1, bind_ok], ?_, by simp [Buf.release, h2.kind]⟩
  simp only [Buf.release, h2.kind, h2.lost, Nat.zero_add]
  cases ht : c.trivial with
  | true => exact countL_zero c b _ (.inl ht)
  | false =>
    rw [List.flatMap_append, List.flatMap_cons] at h2
    simp only [rest, List.cons_append, List.nil_append] at h2
    have h2' : Lay b (((A.map one).flatMap rest ++ [([], xs.length)]) ++ (us, cap - xs.length) :: (B.map one).flatMap rest) := by
      simpa using h2
    rw [countL_left ht h2' (by
      intro r hr
      rcases List.mem_append.mp hr with hr | hr
      · exact hz A r hr
      · simp only [List.mem_cons, List.not_mem_nil, or_false] at hr; rw [hr]) (hz B)]
    simp

end LeftRow

end LvArray
