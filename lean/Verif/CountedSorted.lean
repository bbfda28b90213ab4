import Verif.CountedLemmas

/-!
# Costs of the set operations
-/

namespace LvArray.Counted

open LvArray.Spec

variable {α β T σ : Type}

/-- `bind` when the cost of the first call depends on what it returns. -/
theorem _root_.LvArray.Spec.Costs.bindDep {m : Counted α} {x : R α} {f : α → Counted β} {g : α → R β} {k H' : Nat}
    {h h' : α → Nat} (H0 : Costs m x 0 k) (H : ∀ a, x = .ok a → Costs m x 0 (h a))
    (F : ∀ a, x = .ok a → Costs (f a) (g a) 0 (h' a)) (hh : ∀ a, x = .ok a → h a + h' a ≤ H') :
    Costs (m >>= f) (x >>= g) 0 H' := by
  cases x with
  | error e => exact ((H0.bind (l' := 0) (h' := 0) (fun a ha => by cases ha)).of_ok (fun a ha => by cases ha))
  | ok a => exact ((H a rfl).bind (fun b hb => by cases hb; exact F a rfl)).weaken (by omega) (hh a rfl)

/-! ## Binary search -/

theorem log2_mono {a b : Nat} (h : a ≤ b) : Nat.log2 a ≤ Nat.log2 b := by
  by_cases ha : a = 0
  · subst ha; simp [Nat.log2_zero]
  · exact (Nat.le_log2 (by omega)).2 (Nat.le_trans (Nat.log2_self_le ha) h)

theorem log2_half {n : Nat} (h : 1 ≤ n) : Nat.log2 (2 * n) = Nat.log2 (2 * (n / 2)) + 1 := by
  rw [Nat.log2_def (2 * n), if_pos (by omega)]
  have e : 2 * n / 2 = n := by omega
  rw [e]
  by_cases h1 : n = 1
  · subst h1; rfl
  · rw [Nat.log2_def n, if_pos (by omega), Nat.log2_def (2 * (n / 2)), if_pos (by omega)]
    have e : 2 * (n / 2) / 2 = n / 2 := by omega
    rw [e]

theorem costs_findLoop (comp : T → T → Bool) (read : Nat → R T) (value : T) : ∀ fuel lower upper,
    lower ≤ upper → upper - lower ≤ fuel →
    Costs (sortedArrayManipulation.findLoop comp read value fuel lower upper)
      (LvArray.sortedArrayManipulation.findLoop comp read value fuel lower upper)
      (Nat.log2 (upper - lower + 1)) (Nat.log2 (2 * (upper - lower)))
  | 0, lower, upper, h1, h2 => by
    have e : upper - lower = 0 := by omega
    rw [e]
    exact costs_pure lower
  | fuel + 1, lower, upper, h1, h2 => by
    unfold sortedArrayManipulation.findLoop LvArray.sortedArrayManipulation.findLoop
    split
    · rename_i h
      have e : upper - lower = 0 := by omega
      rw [e]
      exact costs_pure lower
    · rename_i h
      have hlo : Nat.log2 (upper - lower + 1) ≤ Nat.log2 ((upper - lower + 1) / 2) + 1 := by
        rw [Nat.log2_def (upper - lower + 1), if_pos (by omega)]
        omega
      have hhi : Nat.log2 (2 * (upper - lower)) = Nat.log2 (2 * ((upper - lower) / 2)) + 1 := log2_half (by omega)
      refine (Costs.thenOp (l := Nat.log2 ((upper - lower + 1) / 2)) (h := Nat.log2 (2 * ((upper - lower) / 2))) fun x _ => ?_).weaken hlo
        (by omega)
      split
      · refine (costs_findLoop comp read value fuel _ upper (by omega) (by omega)).weaken (log2_mono (by omega)) (log2_mono (by omega))
      · refine (costs_findLoop comp read value fuel lower _ (by omega) (by omega)).weaken (log2_mono (by omega)) (log2_mono (by omega))

theorem findLoop_range (comp : T → T → Bool) (read : Nat → R T) (value : T) : ∀ fuel lower upper k,
    lower ≤ upper → LvArray.sortedArrayManipulation.findLoop comp read value fuel lower upper = .ok k → lower ≤ k ∧ k ≤ upper
  | 0, lower, upper, k, h1, h => by cases h; exact ⟨Nat.le_refl _, h1⟩
  | fuel + 1, lower, upper, k, h1, h => by
    unfold LvArray.sortedArrayManipulation.findLoop at h
    split at h
    · cases h; omega
    · obtain ⟨x, _, h⟩ := bind_eq_ok.1 h
      split at h
      · have := findLoop_range comp read value fuel _ _ _ (by omega) h; omega
      · have := findLoop_range comp read value fuel _ _ _ (by omega) h; omega

theorem find_le (c : Cfg) (comp : T → T → Bool) (read : Nat → R T) (size k : Nat) (value : T)
    (h : LvArray.sortedArrayManipulation.find c comp read size value = .ok k) : k ≤ size := by
  obtain ⟨_, _, h⟩ := bind_eq_ok.1 h
  exact (findLoop_range comp read value _ _ _ _ (by omega) h).2

variable {c : Cfg} (hc : c.debug = false)

include hc

theorem costs_assertRange (read : Nat → R T) (n : Nat) (test : List T → Bool) :
    Costs (sortedArrayManipulation.assertRange c read n test) (LvArray.sortedArrayManipulation.assertRange c read n test) 0 0 := by
  simp only [sortedArrayManipulation.assertRange, LvArray.sortedArrayManipulation.assertRange, hc]
  exact costs_pure ()

theorem costs_find (comp : T → T → Bool) (read : Nat → R T) (size : Nat) (value : T) :
    Costs (sortedArrayManipulation.find c comp read size value) (LvArray.sortedArrayManipulation.find c comp read size value)
      (Nat.log2 (size + 1)) (Nat.log2 (2 * size)) :=
  (costs_assertRange hc read size _).bind' (fun _ _ => costs_findLoop comp read value size 0 size (by omega) (by omega))
    (by simp) (by simp)

theorem costs_find_le (comp : T → T → Bool) (read : Nat → R T) (size N : Nat) (value : T) (h : size ≤ N) :
    Costs (sortedArrayManipulation.find c comp read size value) (LvArray.sortedArrayManipulation.find c comp read size value)
      0 (Nat.log2 (2 * N)) :=
  (costs_find hc comp read size value).weaken (by omega) (log2_mono (by omega))

omit hc in
theorem costs_isAt [DecidableEq T] (read : Nat → R T) (size pos : Nat) (value : T) :
    Costs (sortedArrayManipulation.isAt read size pos value) (LvArray.sortedArrayManipulation.isAt read size pos value) 0 1 := by
  unfold sortedArrayManipulation.isAt LvArray.sortedArrayManipulation.isAt
  split
  · exact (costs_pure false).weaken (by omega) (by omega)
  · exact ((costs_op (read pos)).bindPure).weaken (by omega) (by omega)

theorem costs_contains [DecidableEq T] (comp : T → T → Bool) (read : Nat → R T) (size : Nat) (value : T) :
    Costs (sortedArrayManipulation.contains c comp read size value)
      (LvArray.sortedArrayManipulation.contains c comp read size value) 0 (Nat.log2 (2 * size) + 1) :=
  (costs_find hc comp read size value).bind' (fun pos _ => costs_isAt read size pos value) (by omega) (by omega)

/-! ## `insert` and `remove` -/

open sortedArrayManipulation (CountedTarget)

omit hc in
theorem costs_modify (t : CountedTarget σ T) (s : σ) {f : Buf T → Nat → Counted (Buf T)} {g : Buf T → Nat → R (Buf T)} {l h : Nat}
    (H : ∀ b p, Costs (f b p) (g b p) l h) : Costs (t.modify s f) (t.plain.modify s g) l h :=
  (H _ _).bindPure

/-- The call backs do what the plain ones do and cost no more than: `w` times what is done to the values themselves, and
`grow` for `incrementSize` by at most `most` in the state `s₀`, the one in which it is called. -/
structure CheapCallBacks (t : CountedTarget σ T) (s₀ : σ) (most size w grow : Nat) : Prop where
  incrementSize : ∀ n, n ≤ most → Costs (t.incrementSize s₀ n) (t.plain.incrementSize s₀ n) 0 grow
  insert : ∀ s pos, Costs (t.insert s pos) (t.plain.insert s pos) 0 (w * (2 * size + 1))
  set : ∀ s i j, Costs (t.set s i j) (t.plain.set s i j) 0 w
  insertMany : ∀ s n j pos prev, Costs (t.insertMany s n j pos prev) (t.plain.insertMany s n j pos prev) 0 (w * (2 * (prev - pos) + 1))
  remove : ∀ s pos, Costs (t.remove s pos) (t.plain.remove s pos) 0 (w * (size + 1))
  removeMany : ∀ s n cur next, Costs (t.removeMany s n cur next) (t.plain.removeMany s n cur next) 0 (w * (next - (cur + 1)))

variable [LT T] [DecidableLT T] [DecidableEq T] {t : CountedTarget σ T} {s₀ : σ} {most size w grow : Nat}
  (ht : CheapCallBacks t s₀ most size w grow)

include ht

theorem costs_removeOne (s : σ) (value : T) :
    Costs (sortedArrayManipulation.removeOne c t s size value) (LvArray.sortedArrayManipulation.removeOne c t.plain s size value)
      0 (Nat.log2 (2 * size) + 1 + (w + 1) * (size + 1)) := by
  have e : (w + 1) * (size + 1) = (size + 1) + w * (size + 1) := by rw [Nat.add_mul]; omega
  rw [e]
  unfold sortedArrayManipulation.removeOne LvArray.sortedArrayManipulation.removeOne
  refine (costs_find hc _ _ size value).bind' (l' := 0) (fun pos _ => ?_) (by omega) (Nat.le_of_eq (by rw [Nat.add_assoc]))
  refine (costs_isAt _ size pos value).bind' (l' := 0) (h' := (size + 1) + w * (size + 1)) (fun found _ => ?_) (by omega) (by omega)
  split
  · refine (costs_modify t s (fun b p => (costs_erase c b p size pos 1).weaken (l' := 0) (by omega) (h' := size + 1) (by omega))).bind
      (fun s' _ => (ht.remove s' pos).bindPure) |>.weaken (by omega) (by omega)
  · exact (costs_pure _).weaken (by omega) (by omega)

omit ht in
theorem costs_insertPosition (read : Nat → R T) (size : Nat) (value : T) :
    Costs (sortedArrayManipulation.insertPosition c read size value)
      (LvArray.sortedArrayManipulation.insertPosition c read size value) 0 (Nat.log2 (2 * size) + 2) := by
  unfold sortedArrayManipulation.insertPosition LvArray.sortedArrayManipulation.insertPosition
  split
  · exact (costs_pure _).weaken (by omega) (by omega)
  · refine (Costs.thenOp (l := 0) (h := Nat.log2 (2 * size) + 1) fun x _ => ?_).weaken (by omega) (by omega)
    split
    · exact (costs_pure _).weaken (by omega) (by omega)
    · refine (Costs.thenOp (l := 0) (h := Nat.log2 (2 * size)) fun x _ => ?_).weaken (by omega) (by omega)
      split
      · exact (costs_pure _).weaken (by omega) (by omega)
      · exact (costs_find hc _ _ _ _).weaken (by omega) (by omega)

theorem costs_insertOne (hm : 1 ≤ most) (value : T) :
    Costs (sortedArrayManipulation.insertOne c t s₀ size value) (LvArray.sortedArrayManipulation.insertOne c t.plain s₀ size value)
      0 (Nat.log2 (2 * size) + 3 + grow + (w + 1) * (2 * size + 1)) := by
  have e : (w + 1) * (2 * size + 1) = (2 * size + 1) + w * (2 * size + 1) := by rw [Nat.add_mul]; omega
  rw [e]
  unfold sortedArrayManipulation.insertOne LvArray.sortedArrayManipulation.insertOne
  refine (costs_assertRange hc _ _ _).bind' (l' := 0) (fun _ _ => ?_) (by omega) (Nat.le_of_eq (Nat.zero_add _))
  refine (costs_insertPosition hc _ size value).bind' (l' := 0) (h' := 1 + (grow + ((2 * size + 1) + w * (2 * size + 1))))
    (fun pos _ => ?_) (by omega) (by omega)
  refine (costs_isAt _ size pos value).bind (l' := 0) (fun found _ => ?_) |>.weaken (by omega) (Nat.le_refl _)
  split
  · exact ((ht.incrementSize 0 (by omega)).bindPure).weaken (by omega) (by omega)
  · refine (ht.incrementSize 1 hm).bind (l' := 0) (fun s' _ => ?_)
    refine (costs_modify t s' (fun b p => (costs_emplace c b p size pos value).weaken (by omega) (h' := 2 * size + 1) (by omega))).bind
      (fun s' _ => (ht.insert s' pos).bindPure)

omit ht in
theorem costs_countLoop (read : Nat → R T) (size N : Nat) : ∀ (vs : List T) (upper n : Nat), upper ≤ N →
    Costs (sortedArrayManipulation.countLoop c read size vs upper n) (LvArray.sortedArrayManipulation.countLoop c read size vs upper n)
      0 (vs.length * (Nat.log2 (2 * N) + 1))
  | [], upper, n, _ => (costs_pure n).weaken (by omega) (by omega)
  | v :: vs, upper, n, h => by
    unfold sortedArrayManipulation.countLoop LvArray.sortedArrayManipulation.countLoop
    rw [List.length_cons, Nat.succ_mul]
    refine (costs_find_le hc _ read upper N v h).bind' (l' := 0) (h' := 1 + vs.length * (Nat.log2 (2 * N) + 1)) (fun k hk => ?_)
      (by omega) (by omega)
    exact (costs_isAt read size k v).bind (fun p _ => costs_countLoop read size N vs k _
      (Nat.le_trans (find_le c _ read upper k v hk) h))

omit ht in
/-- The comparisons the first pass of a range `insert` makes when every value lies behind the whole range. -/
theorem costs_countLoop_behind (read : Nat → R T) (size upper : Nat) : ∀ (vs : List T) (n : Nat),
    (∀ v ∈ vs, LvArray.sortedArrayManipulation.find c LvArray.sortedArrayManipulation.less read upper v = .ok upper) →
    Costs (sortedArrayManipulation.countLoop c read size vs upper n) (LvArray.sortedArrayManipulation.countLoop c read size vs upper n)
      (vs.length * Nat.log2 (upper + 1)) (vs.length * (Nat.log2 (2 * upper) + 1))
  | [], n, _ => (costs_pure n).weaken (by simp) (by omega)
  | v :: vs, n, h => by
    unfold sortedArrayManipulation.countLoop LvArray.sortedArrayManipulation.countLoop
    rw [List.length_cons, Nat.succ_mul, Nat.succ_mul]
    refine (costs_find hc _ read upper v).bind' (l' := vs.length * Nat.log2 (upper + 1))
      (h' := 1 + vs.length * (Nat.log2 (2 * upper) + 1)) (fun k hk => ?_) (by omega) (by omega)
    have e := h v (by simp)
    rw [hk] at e
    cases e
    exact ((costs_isAt read size upper v).bind (fun p _ =>
      costs_countLoop_behind read size upper vs _ (fun v hv => h v (by simp [hv])))).weaken (by omega) (by omega)

theorem costs_insertLoop (N : Nat) : ∀ (vs : List T) (s : σ) (upper nLeft : Nat), upper ≤ N →
    Costs (sortedArrayManipulation.insertLoop c t vs s upper nLeft) (LvArray.sortedArrayManipulation.insertLoop c t.plain vs s upper nLeft)
      0 (vs.length * (Nat.log2 (2 * N) + 2 + w) + (w + 1) * (2 * upper))
  | [], s, upper, nLeft, _ => (costs_pure s).weaken (by omega) (by omega)
  | v :: vs, s, upper, nLeft, h => by
    unfold sortedArrayManipulation.insertLoop LvArray.sortedArrayManipulation.insertLoop
    rw [List.length_cons, Nat.succ_mul]
    refine (costs_find_le hc _ _ upper N v h).bind' (l' := 0)
      (h' := 1 + (1 + w + (vs.length * (Nat.log2 (2 * N) + 2 + w) + (w + 1) * (2 * upper)))) (fun pos hpos => ?_) (by omega) (by omega)
    have hp := find_le c _ _ upper pos v hpos
    refine ((costs_isAt _ upper pos v).bind (l' := 0) (fun present _ => ?_)).weaken (by omega) (Nat.le_refl _)
    have e1 : (w + 1) * (2 * upper) = 2 * (upper - pos) + w * (2 * (upper - pos)) + (w + 1) * (2 * pos) := by
      have : 2 * upper = 2 * (upper - pos) + 2 * pos := by omega
      rw [this, Nat.mul_add, Nat.add_mul w 1 (2 * (upper - pos))]; omega
    have e2 : w * (2 * (upper - pos) + 1) = w * (2 * (upper - pos)) + w := by rw [Nat.mul_add]; omega
    split
    · exact (costs_insertLoop N vs s upper nLeft h).weaken (by omega) (by omega)
    · refine ((costs_modify t s (fun b p => costs_shiftUp c b p upper pos nLeft)).bind' (l' := 0)
        (h' := 1 + (w * (2 * (upper - pos) + 1) + (vs.length * (Nat.log2 (2 * N) + 2 + w) + (w + 1) * (2 * pos)))) (fun s' _ => ?_)
        (by omega) (by omega))
      refine (costs_modify t s' (l := 0) (h := 1) (fun b p => ?_)).bind (l' := 0) (fun s' _ => ?_)
      · split
        · exact (costs_free _).weaken (by omega) (by omega)
        · exact (costs_op _).weaken (by omega) (by omega)
      · exact (ht.insertMany s' nLeft vs.length pos upper).bind (fun s' _ => costs_insertLoop N vs s' pos (nLeft - 1) (by omega))

omit hc ht in
theorem countLoop_le (c : Cfg) (read : Nat → R T) (size : Nat) : ∀ (vs : List T) (upper k r : Nat),
    LvArray.sortedArrayManipulation.countLoop c read size vs upper k = .ok r → r ≤ k + vs.length
  | [], _, k, r, h => by
    unfold LvArray.sortedArrayManipulation.countLoop at h
    cases h; simp
  | v :: vs, upper, k, r, h => by
    unfold LvArray.sortedArrayManipulation.countLoop at h
    obtain ⟨u, _, h⟩ := bind_eq_ok.1 h
    obtain ⟨p, _, h⟩ := bind_eq_ok.1 h
    have := countLoop_le c read size vs u _ r h
    rw [List.length_cons]
    split at this <;> omega

theorem costs_insertRange [Inhabited T] (vs : List T) (hm : vs.length ≤ most) :
    Costs (sortedArrayManipulation.insertRange c t s₀ size vs) (LvArray.sortedArrayManipulation.insertRange c t.plain s₀ size vs)
      0 (vs.length * (2 * Nat.log2 (2 * size) + 3 + w) + grow + (w + 1) * (2 * size)) := by
  have e : vs.length * (2 * Nat.log2 (2 * size) + 3 + w) =
      vs.length * (Nat.log2 (2 * size) + 1) + vs.length * (Nat.log2 (2 * size) + 2 + w) := by
    rw [← Nat.mul_add]; congr 1; omega
  unfold sortedArrayManipulation.insertRange LvArray.sortedArrayManipulation.insertRange
  refine (costs_assertRange hc _ _ _).bind' (l' := 0) (fun _ _ => ?_) (by omega) (Nat.le_of_eq (Nat.zero_add _))
  refine Costs.thenFree ?_
  split
  · have e : vs.length * (1 + w) ≤ vs.length * (2 * Nat.log2 (2 * size) + 3 + w) := Nat.mul_le_mul_left _ (by omega)
    refine (ht.incrementSize vs.length hm).bind' (l' := 0) (h' := vs.length * (1 + w)) (fun s' _ => ?_) (by omega) (by omega)
    refine (costs_forUp_const (1 + w) _ _ (fun i s => ?_) s').bindPure
    exact ((costs_modify t s (fun b p => costs_op _)).bind (fun s' _ => ht.set s' i i)).weaken (by omega) (Nat.le_refl _)
  · refine (costs_countLoop hc _ size size vs.reverse size 0 (Nat.le_refl _)).bind' (l' := 0)
      (h' := grow + (vs.length * (Nat.log2 (2 * size) + 2 + w) + (w + 1) * (2 * size))) (fun n hn => ?_) (by omega)
      (by rw [List.length_reverse]; omega)
    have hn' := countLoop_le c _ size vs.reverse size 0 n hn
    rw [List.length_reverse] at hn'
    refine (ht.incrementSize n (by omega)).bind (l' := 0) (fun s' _ => ?_)
    split
    · exact (costs_pure _).weaken (by omega) (by omega)
    · have := (costs_insertLoop hc ht size vs.reverse s' size n (Nat.le_refl _)).bindPure (f := fun s => (s, n))
      rwa [List.length_reverse] at this

omit ht in
theorem costs_seek (read : Nat → R T) (size : Nat) : ∀ (vs : List T) (pos : Nat),
    Costs (sortedArrayManipulation.seek c read size pos vs) (LvArray.sortedArrayManipulation.seek c read size pos vs)
      0 (vs.length * (Nat.log2 (2 * size) + 1))
  | [], pos => (costs_pure _).weaken (by omega) (by omega)
  | v :: vs, pos => by
    unfold sortedArrayManipulation.seek LvArray.sortedArrayManipulation.seek
    rw [List.length_cons, Nat.succ_mul]
    refine (costs_find_le hc _ _ (size - pos) size v (by omega)).bind' (l' := 0) (h' := vs.length * (Nat.log2 (2 * size) + 1) + 1)
      (fun k _ => ?_) (by omega) (by omega)
    split
    · exact (costs_pure _).weaken (by omega) (by omega)
    · refine (Costs.thenOp (l := 0) fun x _ => ?_).weaken (by omega) (Nat.le_refl _)
      split
      · exact (costs_pure _).weaken (by omega) (by omega)
      · exact costs_seek read size vs (pos + k)

omit ht in
/-- The values behind the one that was found are not searched for. -/
theorem costs_seek_found (read : Nat → R T) (size : Nat) : ∀ (vs : List T) (pos : Nat) (r : Nat × List T), pos ≤ size →
    LvArray.sortedArrayManipulation.seek c read size pos vs = .ok r →
    Costs (sortedArrayManipulation.seek c read size pos vs) (LvArray.sortedArrayManipulation.seek c read size pos vs)
      0 ((vs.length - (r.2.length - 1)) * (Nat.log2 (2 * size) + 1)) ∧
    r.2.length ≤ vs.length ∧ pos ≤ r.1 ∧ r.1 ≤ size
  | [], pos, r, hp, h => by
    cases h
    exact ⟨(costs_pure _).weaken (by omega) (by omega), by simp, Nat.le_refl _, hp⟩
  | v :: vs, pos, r, hp, h => by
    unfold LvArray.sortedArrayManipulation.seek at h
    obtain ⟨k, hk, h⟩ := bind_eq_ok.1 h
    have hkle := find_le c _ _ _ _ _ hk
    unfold sortedArrayManipulation.seek LvArray.sortedArrayManipulation.seek
    split at h
    · rename_i hps
      cases h
      refine ⟨?_, by simp, hp, Nat.le_refl _⟩
      have e : ((v :: vs).length - (([] : List T).length - 1)) * (Nat.log2 (2 * size) + 1) =
          vs.length * (Nat.log2 (2 * size) + 1) + (Nat.log2 (2 * size) + 1) := by
        rw [List.length_nil, List.length_cons, Nat.zero_sub, Nat.sub_zero, Nat.succ_mul]
      rw [e]
      refine ((costs_find_le hc _ _ (size - pos) size v (by omega)).bind (l' := 0) (h' := 0) (fun k' hk' => ?_)).weaken (by omega)
        (by omega)
      rw [hk] at hk'; cases hk'
      rw [if_pos hps, if_pos hps]
      exact costs_pure _
    · rename_i hps
      obtain ⟨x, hx, h⟩ := bind_eq_ok.1 h
      split at h
      · rename_i hxv
        cases h
        refine ⟨?_, by simp, by simp, by simp; omega⟩
        simp only [List.length_cons, Nat.add_sub_cancel]
        refine ((costs_find_le hc _ _ (size - pos) size v (by omega)).bind (l' := 0) (h' := 1) (fun k' hk' => ?_)).weaken (by omega)
          (by rw [show vs.length + 1 - vs.length = 1 by omega]; omega)
        rw [hk] at hk'; cases hk'
        rw [if_neg hps, if_neg hps]
        refine (Costs.thenOp (l := 0) (h := 0) fun x' hx' => ?_).weaken (by omega) (Nat.le_refl _)
        rw [hx] at hx'; cases hx'
        rw [if_pos hxv, if_pos hxv]
        exact costs_pure _
      · rename_i hxv
        obtain ⟨h1, h2, h3, h4⟩ := costs_seek_found read size vs (pos + k) r (by omega) h
        refine ⟨?_, by simp; omega, by omega, h4⟩
        have e : (vs.length + 1 - (r.2.length - 1)) = (vs.length - (r.2.length - 1)) + 1 := by omega
        rw [List.length_cons, e, Nat.succ_mul]
        refine ((costs_find_le hc _ _ (size - pos) size v (by omega)).bind (l' := 0)
          (h' := ((vs.length - (r.2.length - 1)) * (Nat.log2 (2 * size) + 1)) + 1) (fun k' hk' => ?_)).weaken (by omega) (by omega)
        rw [hk] at hk'; cases hk'
        rw [if_neg hps, if_neg hps]
        refine (Costs.thenOp (l := 0) fun x' hx' => ?_).weaken (by omega) (Nat.le_refl _)
        rw [hx] at hx'; cases hx'
        rw [if_neg hxv, if_neg hxv]
        exact h1

theorem costs_removeLoop : ∀ (fuel : Nat) (s : σ) (pos n : Nat) (vs : List T), pos ≤ size →
    Costs (sortedArrayManipulation.removeLoop c t size fuel s pos n vs)
      (LvArray.sortedArrayManipulation.removeLoop c t.plain size fuel s pos n vs)
      0 ((vs.length - 1) * (Nat.log2 (2 * size) + 1) + (w + 1) * (size - (pos + 1)))
  | _, s, pos, n, [], _ => by
    unfold sortedArrayManipulation.removeLoop LvArray.sortedArrayManipulation.removeLoop
    exact (costs_pure _).weaken (by omega) (by omega)
  | 0, s, pos, n, _ :: _, _ => (costs_pure _).weaken (by omega) (by omega)
  | fuel + 1, s, pos, n, v :: vs, hp => by
    unfold sortedArrayManipulation.removeLoop LvArray.sortedArrayManipulation.removeLoop
    rw [List.length_cons, Nat.add_sub_cancel]
    refine Costs.bindDep (costs_seek hc _ size vs pos) (fun r hr => (costs_seek_found hc _ size vs pos r hp hr).1)
      (h' := fun r => (r.2.length - 1) * (Nat.log2 (2 * size) + 1) + (w + 1) * (size - (pos + 1))) (fun r hr => ?_) (fun r hr => ?_)
    · obtain ⟨_, h2, h3, h4⟩ := costs_seek_found hc _ size vs pos r hp hr
      obtain ⟨nextPos, next⟩ := r
      simp only at h2 h3 h4 ⊢
      have hn : pos ≤ (if next.isEmpty then size else nextPos) ∧ (if next.isEmpty then size else nextPos) ≤ size := by
        split <;> omega
      revert hn
      generalize (if next.isEmpty then size else nextPos) = q
      intro hn
      have e : (w + 1) * (q - (pos + 1)) + (w + 1) * (size - (q + 1)) ≤ (w + 1) * (size - (pos + 1)) := by
        rw [← Nat.mul_add]; exact Nat.mul_le_mul_left _ (by omega)
      have e2 : (w + 1) * (q - (pos + 1)) = (q - (pos + 1)) + w * (q - (pos + 1)) := by rw [Nat.add_mul]; omega
      refine (costs_modify t s (fun b p => costs_shiftDown c b p q (pos + 1) (n + 1))).bind' (l' := 0)
        (h' := w * (q - (pos + 1)) + ((next.length - 1) * (Nat.log2 (2 * size) + 1) + (w + 1) * (size - (q + 1)))) (fun s' _ => ?_)
        (by omega) (by omega)
      refine ((ht.removeMany s' (n + 1) pos q).bind (l' := 0) (fun s' _ => ?_)).weaken (by omega) (Nat.le_refl _)
      split
      · exact (costs_pure _).weaken (by omega) (by omega)
      · exact costs_removeLoop fuel s' q (n + 1) next hn.2
    · obtain ⟨_, h2, _, _⟩ := costs_seek_found hc _ size vs pos r hp hr
      rw [← Nat.add_assoc, ← Nat.add_mul]
      exact Nat.add_le_add_right (Nat.mul_le_mul_right _ (by omega)) _

omit hc ht in
/-- At most one removal per round. -/
theorem removeLoop_count (t : LvArray.sortedArrayManipulation.Target σ T) (c : Cfg) (size : Nat) :
    ∀ (fuel : Nat) (s : σ) (pos n : Nat) (vs : List T) (r : σ × Nat),
    LvArray.sortedArrayManipulation.removeLoop c t size fuel s pos n vs = .ok r → r.2 ≤ n + fuel
  | fuel, s, pos, n, [], r, h => by
    unfold LvArray.sortedArrayManipulation.removeLoop at h
    cases h; simp
  | 0, s, pos, n, _ :: _, r, h => by cases h; simp
  | fuel + 1, s, pos, n, v :: vs, r, h => by
    unfold LvArray.sortedArrayManipulation.removeLoop at h
    obtain ⟨p, _, h⟩ := bind_eq_ok.1 h
    obtain ⟨nextPos, next⟩ := p
    obtain ⟨s1, _, h⟩ := bind_eq_ok.1 h
    obtain ⟨s2, _, h⟩ := bind_eq_ok.1 h
    revert h
    generalize (if next.isEmpty then size else nextPos) = q
    intro h
    by_cases hq : q = size
    · rw [if_pos hq] at h; cases h; simp
    · rw [if_neg hq] at h
      have := removeLoop_count t c size fuel _ _ _ _ _ h; omega

theorem costs_removeRange (s : σ) (vs : List T) :
    Costs (sortedArrayManipulation.removeRange c t s size vs) (LvArray.sortedArrayManipulation.removeRange c t.plain s size vs)
      0 (vs.length * (Nat.log2 (2 * size) + 2) + (w + 1) * size) := by
  unfold sortedArrayManipulation.removeRange LvArray.sortedArrayManipulation.removeRange
  refine (costs_assertRange hc _ _ _).bind' (l' := 0) (fun _ _ => ?_) (by omega) (Nat.le_of_eq (Nat.zero_add _))
  refine Costs.thenFree ?_
  refine Costs.bindDep (costs_seek hc _ size vs 0) (fun r hr => (costs_seek_found hc _ size vs 0 r (by omega) hr).1)
    (h' := fun r => (r.2.length - 1) * (Nat.log2 (2 * size) + 1) + (w + 1) * size + vs.length) (fun r hr => ?_) (fun r hr => ?_)
  · obtain ⟨_, h2, h3, h4⟩ := costs_seek_found hc _ size vs 0 r (by omega) hr
    obtain ⟨pos, rest⟩ := r
    simp only at h2 h3 h4 ⊢
    split
    · exact (costs_pure _).weaken (by omega) (by omega)
    · have e : (w + 1) * (size - (pos + 1)) ≤ (w + 1) * size := Nat.mul_le_mul_left _ (by omega)
      refine (costs_removeLoop hc ht vs.length s pos 0 rest h4).bind' (l' := 0) (h' := vs.length) (fun q hq => ?_) (by omega) (by omega)
      have := removeLoop_count _ _ _ _ _ _ _ _ _ hq
      exact ((costs_modify t q.1 (fun b p => costs_destroy c b (p + size - q.2) q.2)).bindPure).weaken (by omega) (by omega)
  · obtain ⟨_, h2, _, _⟩ := costs_seek_found hc _ size vs 0 r (by omega) hr
    have e : (vs.length - (r.2.length - 1)) * (Nat.log2 (2 * size) + 1) + (r.2.length - 1) * (Nat.log2 (2 * size) + 1) ≤
        vs.length * (Nat.log2 (2 * size) + 1) := by
      rw [← Nat.add_mul]; exact Nat.mul_le_mul_right _ (by omega)
    have e2 : vs.length * (Nat.log2 (2 * size) + 2) = vs.length * (Nat.log2 (2 * size) + 1) + vs.length := by
      rw [show Nat.log2 (2 * size) + 2 = (Nat.log2 (2 * size) + 1) + 1 by omega, Nat.mul_succ]
    omega

end LvArray.Counted
