import Verif.MachineAoA
import Verif.MachineRows

/-!
# `ArrayOfArrays` with machine integers: exactness

As long as the number of arrays and the sum of the capacities are values of the index type, every operation computes what it
computes with mathematical integers.
-/

namespace LvArray

open IntTy Props Layout Spec

variable {T : Type}

/-- `x` is a value of the index type and of `std::ptrdiff_t`. -/
def Bounded (t : IntTy) (x : Nat) : Prop := (x : Int) ≤ t.max ∧ (x : Int) ≤ ptrdiff.max

theorem Bounded.le {t : IntTy} {x y : Nat} (h : Bounded t x) (hy : y ≤ x) : Bounded t y := by
  unfold Bounded at *; omega

theorem bounded_add {t : IntTy} {x y z : Nat} (h : Bounded t z) (hy : x + y ≤ z) : ((x + y : Nat) : Int) ≤ t.max :=
  (h.le hy).1

theorem succOffset_ok (t : IntTy) (hb : 1 ≤ t.bits) {x : Nat} (h : Bounded t (x + 1)) : t.succOffset x = .ok (x + 1) := by
  unfold IntTy.succOffset
  have h32 : (1 : Nat) ≤ int.bits := by decide
  have hone : Representable int 1 := rep_of_nonneg _ (by omega) (by decide)
  have e : add t int (x : Int) 1 = .ok ((x + 1 : Nat) : Int) := by
    have hc := common_bits t int hb h32
    have h1 := common_representable t int (rep_of_nonneg t (x := x) (by omega) (h.le (by omega)).1) hone
      (Or.inr ⟨by omega, by omega⟩)
    have h2 := common_representable t int (rep_of_nonneg t (x := ((x + 1 : Nat) : Int)) (by omega) h.1) hone
      (Or.inr ⟨by omega, by omega⟩)
    unfold IntTy.add
    rw [cast_of_representable _ hc _ h1.1, cast_of_representable _ hc _ h1.2,
      show (x : Int) + 1 = ((x + 1 : Nat) : Int) by omega, fit_ok _ hc h2.1]
  rw [e, bind_ok, toOffset_ok h.2]

theorem castIndex_ok (t : IntTy) (hb : 1 ≤ t.bits) {x : Nat} (h : (x : Int) ≤ t.max) : toIndex (t.cast x) = .ok x := by
  rw [cast_nat t hb h, toIndex_ok]

theorem double_ok (t : IntTy) (hb : 1 ≤ t.bits) {x : Nat} (h : ((2 * x : Nat) : Int) ≤ t.max) :
    (do let p ← mul int t 2 x; toIndex (t.cast p) : R Nat) = .ok (2 * x) := by
  have h32 : (1 : Nat) ≤ int.bits := by decide
  rw [mul_ok int t h32 hb (rep_of_nonneg _ (by omega) (by decide)) (rep_of_nonneg t (by omega) (by omega)) (by omega) (by omega)
    (by omega), bind_ok, show (2 : Int) * x = ((2 * x : Nat) : Int) by omega, castIndex_ok t hb h]

theorem write_read {c : Cfg} {o o' : Buf Nat} {k x : Nat} (h : o.write c k x = .ok o') : o'.read k = .ok x := by
  unfold Buf.write at h
  split at h
  · split at h <;> cases h <;> (unfold Buf.read; simp_all [upd])
  · cases h

theorem forUp_inv_ok {σ : Type} {f : Nat → σ → R σ} (P : Nat → σ → Prop) : ∀ (n lo : Nat) (s s' : σ), P lo s →
    (∀ i s s', lo ≤ i → i < lo + n → P i s → f i s = .ok s' → P (i + 1) s') →
    forUp n lo f s = .ok s' → P (lo + n) s'
  | 0, _, _, _, hP, _, h => by cases h; exact hP
  | n + 1, lo, s, s', hP, hstep, h => by
    have h : (f lo s >>= forUp n (lo + 1) f) = .ok s' := h
    obtain ⟨s1, h1, h2⟩ := bind_eq_ok.mp h
    have := forUp_inv_ok P n (lo + 1) s1 s' (hstep lo s s1 (Nat.le_refl _) (by omega) hP h1)
      (fun i s s' k1 k2 => hstep i s s' (by omega) (by omega)) h2
    rwa [show lo + 1 + n = lo + (n + 1) by omega] at this

/-! ## Views -/

section

variable {t : IntTy} (hb : 1 ≤ t.bits) {c : Cfg} {a : AoA T} {L A B : Layout T} {xs : List T} {cap : Nat}

include hb

theorem capCheckM (h : AGood a (A ++ (xs, cap) :: B)) (hf : (total (A ++ (xs, cap) :: B) : Int) ≤ t.max) {n : Nat}
    (hn : xs.length + n ≤ cap) : a.shape.capacityCheckM t c A.length n = .ok () := by
  unfold Shape.capacityCheckM
  split
  · have hcap : (cap : Int) ≤ t.max := by simp only [total_append, total_cons] at hf; omega
    have hr : ∀ k : Nat, (k : Int) ≤ t.max → Representable t (k : Int) := fun k hk => rep_of_nonneg t (by omega) hk
    have hs : a.shape.sizeOfArray c A.length = .ok xs.length := h.shape.sizeOfAt rfl
    rw [hs, bind_ok, add_ok t t hb hb (hr _ (by omega)) (hr _ (by omega)) (by omega) (by omega) (by omega), bind_ok,
      capacityM_of t hb c h.shape hf, bind_ok]
    have hc := common_representable t t (hr (xs.length + n) (by omega)) (hr 0 (by omega)) (Or.inr ⟨by omega, by omega⟩)
    rw [show (xs.length : Int) + n = ((xs.length + n : Nat) : Int) by omega,
      lt_exact t (common t t) hb (common_bits t t hb hb) (hr cap hcap) hc.1 (Or.inr ⟨by omega, by omega⟩)]
    rw [show decide ((cap : Int) < ((xs.length + n : Nat) : Int)) = false by simp; omega]
    rfl
  · rfl

theorem viewEmplaceBackM_of (h : AGood a (A ++ (xs, cap) :: B)) (hf : (total (A ++ (xs, cap) :: B) : Int) ≤ t.max) (v : T)
    (hr : xs.length + 1 ≤ cap) : a.viewEmplaceBackM t c A.length v = a.viewEmplaceBack c A.length v := by
  unfold AoA.viewEmplaceBackM AoA.viewEmplaceBack
  have hs : a.shape.sizeOfArray c A.length = .ok xs.length := h.shape.sizeOfAt rfl
  have hp : t.plus xs.length 1 = .ok (xs.length + 1) := plus_ok t hb (by simp only [total_append, total_cons] at hf; omega)
  rw [capCheckM hb h hf hr, h.capCheck hr, hs]
  simp only [bind_ok, hp]

theorem viewAppendM_of [Inhabited T] (h : AGood a (A ++ (xs, cap) :: B)) (hf : (total (A ++ (xs, cap) :: B) : Int) ≤ t.max)
    (vs : List T) (hr : xs.length + vs.length ≤ cap) :
    a.viewAppendToArrayM t c A.length vs = a.viewAppendToArray c A.length vs := by
  unfold AoA.viewAppendToArrayM AoA.viewAppendToArray
  have hs : a.shape.sizeOfArray c A.length = .ok xs.length := h.shape.sizeOfAt rfl
  have hp : t.plus xs.length vs.length = .ok (xs.length + vs.length) :=
    plus_ok t hb (by simp only [total_append, total_cons] at hf; omega)
  have hk : toIndex (t.cast vs.length) = .ok vs.length :=
    castIndex_ok t hb (by simp only [total_append, total_cons] at hf; omega)
  rw [hs]
  simp only [bind_ok, hk, hp, capCheckM hb h hf hr, h.capCheck hr]

theorem viewEmplaceM_of (h : AGood a (A ++ (xs, cap) :: B)) (hf : (total (A ++ (xs, cap) :: B) : Int) ≤ t.max) (j : Nat) (v : T)
    (hr : xs.length + 1 ≤ cap) : a.viewEmplaceM t c A.length j v = a.viewEmplace c A.length j v := by
  unfold AoA.viewEmplaceM AoA.viewEmplace
  have hs : a.shape.sizeOfArray c A.length = .ok xs.length := h.shape.sizeOfAt rfl
  have hp : t.plus xs.length 1 = .ok (xs.length + 1) := plus_ok t hb (by simp only [total_append, total_cons] at hf; omega)
  rw [capCheckM hb h hf hr, h.capCheck hr, hs]
  simp only [bind_ok, hp]

theorem viewInsertM_of [Inhabited T] (h : AGood a (A ++ (xs, cap) :: B)) (hf : (total (A ++ (xs, cap) :: B) : Int) ≤ t.max)
    (j : Nat) (vs : List T) (hr : xs.length + vs.length ≤ cap) :
    a.viewInsertIntoArrayM t c A.length j vs = a.viewInsertIntoArray c A.length j vs := by
  unfold AoA.viewInsertIntoArrayM AoA.viewInsertIntoArray
  have hs : a.shape.sizeOfArray c A.length = .ok xs.length := h.shape.sizeOfAt rfl
  have hp : t.plus xs.length vs.length = .ok (xs.length + vs.length) :=
    plus_ok t hb (by simp only [total_append, total_cons] at hf; omega)
  have hk : toIndex (t.cast vs.length) = .ok vs.length :=
    castIndex_ok t hb (by simp only [total_append, total_cons] at hf; omega)
  rw [hs]
  simp only [bind_ok, hk, hp, capCheckM hb h hf hr, h.capCheck hr, List.take_length]

theorem eraseFromArrayM_of (h : AGood a (A ++ (xs, cap) :: B)) (hf : (total (A ++ (xs, cap) :: B) : Int) ≤ t.max)
    (j n : Nat) (hn : n ≤ xs.length) : a.eraseFromArrayM t c A.length j n = a.eraseFromArray c A.length j n := by
  unfold AoA.eraseFromArrayM AoA.eraseFromArray
  have hs : a.shape.sizeOfArray c A.length = .ok xs.length := h.shape.sizeOfAt rfl
  have hx := h.lay.fits (xs, cap) (by simp)
  simp only at hx
  have hp : t.minus xs.length n = .ok (xs.length - n) :=
    minus_ok t hb hn (by simp only [total_append, total_cons] at hf; omega)
  rw [hs]
  simp only [bind_ok, hp]

/-! ## Growth of one array -/

theorem dynamicallyGrowM_of (h : AGood a (A ++ (xs, cap) :: B)) (k : Nat)
    (hold : Bounded t (total (A ++ (xs, cap) :: B)))
    (hnew : Bounded t (total (A ++ (xs, AGood.grownTo xs cap k) :: B))) :
    a.dynamicallyGrowArrayM t c A.length k = a.dynamicallyGrowArray c A.length k := by
  unfold AoA.dynamicallyGrowArrayM AoA.dynamicallyGrowArray
  have hs : a.shape.sizeOfArray c A.length = .ok xs.length := h.shape.sizeOfAt rfl
  have hc : a.shape.capacityOfArray c A.length = .ok cap := h.shape.capacityOfAt rfl
  have hle := AGood.le_grownTo xs cap k
  have hg : AGood.grownTo xs cap k ≤ total (A ++ (xs, AGood.grownTo xs cap k) :: B) := by
    simp only [total_append, total_cons]; omega
  have hp : t.plus xs.length k = .ok (xs.length + k) := plus_ok t hb (hnew.le (by omega)).1
  rw [hs, bind_ok, bind_ok, hp, bind_ok, capacityM_of t hb c h.shape hold.1, hc, bind_ok, bind_ok]
  unfold AoA.growIfM AoA.growIf
  by_cases hlt : cap < xs.length + k
  · have e : AGood.grownTo xs cap k = 2 * (xs.length + k) := if_pos hlt
    rw [e] at hnew hg
    rw [if_pos (by simpa using hlt), if_pos (by simpa using hlt), double_ok t hb (hnew.le hg).1, bind_ok]
    exact setCapacity_of t hb c h _ (.inr (by omega)) hold.1 hnew.1 hold.2 hnew.2
  · rw [if_neg (by simpa using hlt), if_neg (by simpa using hlt)]

/-- An operation that first grows the array and then runs a view operation. -/
theorem grow_then (h : AGood a (A ++ (xs, cap) :: B)) (k : Nat)
    (hold : Bounded t (total (A ++ (xs, cap) :: B)))
    (hnew : Bounded t (total (A ++ (xs, AGood.grownTo xs cap k) :: B))) {f g : AoA T → R (AoA T)}
    (hfg : ∀ a', AGood a' (A ++ (xs, AGood.grownTo xs cap k) :: B) → f a' = g a') :
    (a.dynamicallyGrowArrayM t c A.length k >>= f) = (a.dynamicallyGrowArray c A.length k >>= g) := by
  rw [dynamicallyGrowM_of hb h k hold hnew]
  rcases h.dynamicallyGrow (c := c) k with ⟨_, a', h1, h2, _⟩ | ⟨_, h1⟩
  · rw [h1, bind_ok, bind_ok]; exact hfg a' h2
  · rw [h1]; rfl

theorem appendToArrayM_of [Inhabited T] (h : AGood a (A ++ (xs, cap) :: B)) (vs : List T)
    (hold : Bounded t (total (A ++ (xs, cap) :: B)))
    (hnew : Bounded t (total (A ++ (xs, AGood.grownTo xs cap vs.length) :: B))) :
    a.appendToArrayM t c A.length vs = a.appendToArray c A.length vs := by
  unfold AoA.appendToArrayM AoA.appendToArray
  have hle := AGood.le_grownTo xs cap vs.length
  have hk : toIndex (t.cast vs.length) = .ok vs.length := by
    refine castIndex_ok t hb (hnew.le ?_).1
    simp only [total_append, total_cons]; omega
  rw [hk, bind_ok]
  exact grow_then hb h _ hold hnew (fun a' ha' => viewAppendM_of hb ha' hnew.1 vs hle)

theorem insertIntoArrayM_of [Inhabited T] (h : AGood a (A ++ (xs, cap) :: B)) (j : Nat) (vs : List T)
    (hold : Bounded t (total (A ++ (xs, cap) :: B)))
    (hnew : Bounded t (total (A ++ (xs, AGood.grownTo xs cap vs.length) :: B))) :
    a.insertIntoArrayM t c A.length j vs = a.insertIntoArray c A.length j vs := by
  unfold AoA.insertIntoArrayM AoA.insertIntoArray
  have hle := AGood.le_grownTo xs cap vs.length
  have hk : toIndex (t.cast vs.length) = .ok vs.length := by
    refine castIndex_ok t hb (hnew.le ?_).1
    simp only [total_append, total_cons]; omega
  rw [hk, bind_ok]
  exact grow_then hb h _ hold hnew (fun a' ha' => viewInsertM_of hb ha' hnew.1 j vs hle)

theorem resizeArrayM_of (h : AGood a (A ++ (xs, cap) :: B)) (n : Nat) (v : T)
    (hold : Bounded t (total (A ++ (xs, cap) :: B))) (hnew : Bounded t (total (A ++ (xs, max cap n) :: B))) :
    a.resizeArrayM t c A.length n v = a.resizeArray c A.length n v := by
  unfold AoA.resizeArrayM AoA.resizeArray
  have hc : a.shape.capacityOfArray c A.length = .ok cap := h.shape.capacityOfAt rfl
  rw [h.checkBounds (by simp), bind_ok, bind_ok, capacityM_of t hb c h.shape hold.1, hc, bind_ok, bind_ok]
  have : AoA.growIfM t c (decide (cap < n)) a A.length (.ok n) = AoA.growIf c (decide (cap < n)) a A.length n := by
    unfold AoA.growIfM AoA.growIf
    by_cases hlt : cap < n
    · rw [Nat.max_eq_right (by omega)] at hnew
      rw [if_pos (by simpa using hlt), if_pos (by simpa using hlt), bind_ok]
      exact setCapacity_of t hb c h _ (.inr (by omega)) hold.1 hnew.1 hold.2 hnew.2
    · rw [if_neg (by simpa using hlt), if_neg (by simpa using hlt)]
  rw [this]

/-! ## Operations on the array of arrays -/

theorem appendRowM_of (h : AGood a L) (hn : Bounded t (L.length + 1)) : a.shape.appendRowM t c = a.shape.appendRow c := by
  unfold Shape.appendRowM Shape.appendRow
  have e : a.shape.numArrays = L.length := by rw [h.shape.num]
  rw [e]
  simp only [succOffset_ok t hb hn, plus_ok t hb hn.1, bind_ok]

theorem insertRowM_of (h : AGood a (A ++ B)) (hn : Bounded t ((A ++ B).length + 1)) :
    a.shape.insertRowM t c A.length = a.shape.insertRow c A.length := by
  unfold Shape.insertRowM Shape.insertRow
  have e : a.shape.numArrays = (A ++ B).length := by rw [h.shape.num]
  have h1 : t.succOffset A.length = .ok (A.length + 1) := succOffset_ok t hb (hn.le (by simp))
  rw [e]
  simp only [succOffset_ok t hb hn, h1, plus_ok t hb hn.1, bind_ok]

theorem eraseRowM_of (h : AGood a (A ++ (xs, cap) :: B)) (hn : Bounded t ((A ++ (xs, cap) :: B).length + 1)) :
    a.shape.eraseRowM t c A.length = a.shape.eraseRow c A.length := by
  unfold Shape.eraseRowM Shape.eraseRow
  have e : a.shape.numArrays = (A ++ (xs, cap) :: B).length := by rw [h.shape.num]
  have h1 : t.succOffset A.length = .ok (A.length + 1) := succOffset_ok t hb (hn.le (by simp))
  have h2 : t.minus (A ++ (xs, cap) :: B).length 1 = .ok ((A ++ (xs, cap) :: B).length - 1) :=
    minus_ok t hb (by simp; omega) (hn.le (by omega)).1
  rw [e]
  simp only [succOffset_ok t hb hn, h1, h2, bind_ok]

theorem eraseArrayM_of (h : AGood a (A ++ (xs, cap) :: B)) (hs : t.signed = true ∨ cap = 0)
    (hn : Bounded t ((A ++ (xs, cap) :: B).length + 1)) (hold : Bounded t (total (A ++ (xs, cap) :: B))) :
    a.eraseArrayM t c A.length = a.eraseArray c A.length := by
  unfold AoA.eraseArrayM AoA.eraseArray
  have hz : Bounded t (total (A ++ (xs, 0) :: B)) := hold.le (by simp only [total_append, total_cons]; omega)
  rw [setCapacity_of t hb c h 0 (hs.imp_right (by omega)) hold.1 hz.1 hold.2 hz.2]
  obtain ⟨a1, h1, hg, -⟩ := h.setCapacityZero (c := c)
  rw [h1, bind_ok, h.checkBounds (by simp), bind_ok, bind_ok, bind_ok, eraseRowM_of hb hg (by simpa using hn)]

theorem reserveM_of (h : AGood a L) (n : Nat) (hn : Bounded t (n + 1)) (hl : Bounded t (L.length + 1)) :
    a.reserveM t c n = a.reserve c n := by
  unfold AoA.reserveM AoA.reserve Shape.reserveM Shape.reserve
  have e : a.shape.numArrays = L.length := by rw [h.shape.num]
  rw [e]
  simp only [succOffset_ok t hb hn, succOffset_ok t hb hl, toOffset_ok (hn.le (by omega : n ≤ n + 1)).2, bind_ok]

omit hb in
theorem reserveValuesM_of (n : Nat) (hn : Bounded t n) : a.reserveValuesM c n = a.reserveValues c n := by
  unfold AoA.reserveValuesM AoA.reserveValues Shape.reserveValuesM Shape.reserveValues
  simp only [toOffset_ok hn.2, bind_ok]

theorem offsetsSizeM_ok {s : Shape} (hn : Bounded t (s.numArrays + 1)) : s.offsetsSizeM t = .ok s.offsetsSize := by
  unfold Shape.offsetsSizeM Shape.offsetsSize
  by_cases h0 : s.numArrays = 0
  · rw [if_pos h0, if_pos h0]
  · rw [if_neg h0, if_neg h0, addTo_ok t hb (by omega) (by omega) (by have := hn.1; omega), bind_ok,
      show (s.numArrays : Int) + 1 = ((s.numArrays + 1 : Nat) : Int) by omega, toOffset_ok hn.2]

theorem spreadOffsetsM_count {s : Shape} {n original d : Nat} (hn : Bounded t (n + 1)) (hs : s.numArrays ≤ n) :
    s.spreadOffsetsM t c n original d = (do
      let offsets ← forUp (n + 1 - s.numArrays - 1) 1 (fun i o => do
        let p ← mul t t i d
        let q ← add t (common t t) original p
        let x ← toIndex (t.cast q)
        Buf.write c.ix o (s.numArrays + i) x) s.offsets
      .ok { s with offsets := offsets }) := by
  unfold Shape.spreadOffsetsM
  have h32 : (1 : Nat) ≤ int.bits := by decide
  have hone : Representable int 1 := rep_of_nonneg _ (by omega) (by decide)
  have e : add t int (n : Int) 1 = .ok ((n + 1 : Nat) : Int) := by
    have hc := common_bits t int hb h32
    have h1 := common_representable t int (rep_of_nonneg t (x := n) (by omega) (hn.le (by omega)).1) hone
      (Or.inr ⟨by omega, by omega⟩)
    have h2 := common_representable t int (rep_of_nonneg t (x := ((n + 1 : Nat) : Int)) (by omega) hn.1) hone
      (Or.inr ⟨by omega, by omega⟩)
    unfold IntTy.add
    rw [cast_of_representable _ hc _ h1.1, cast_of_representable _ hc _ h1.2,
      show (n : Int) + 1 = ((n + 1 : Nat) : Int) by omega, fit_ok _ hc h2.1]
  have hrep := (common_representable t int (rep_of_nonneg t (x := ((n + 1 : Nat) : Int)) (by omega) hn.1) hone
      (Or.inr ⟨by omega, by omega⟩)).1
  rw [e, bind_ok, sub_ok (common t int) t (common_bits t int hb h32) hb hrep
    (rep_of_nonneg t (by omega) (hn.le (by omega : s.numArrays ≤ n + 1)).1) (by omega) (by omega), bind_ok]
  have hcount : (((n + 1 : Nat) : Int) - (s.numArrays : Int) - 1).toNat = n + 1 - s.numArrays - 1 := by omega
  rw [hcount]

theorem spreadOffsetsM_with {s : Shape} {n original d : Nat} (f : Nat → Nat) (hn : Bounded t (n + 1)) (hs : s.numArrays ≤ n)
    (hf : ∀ i, 1 ≤ i → i ≤ n - s.numArrays → (mul t t i d >>= fun p => add t (common t t) original p >>= fun q =>
      toIndex (t.cast q)) = .ok (f i)) :
    s.spreadOffsetsM t c n original d = (do
      let offsets ← forUp (n + 1 - s.numArrays - 1) 1 (fun i o => Buf.write c.ix o (s.numArrays + i) (f i)) s.offsets
      .ok { s with offsets := offsets }) := by
  rw [spreadOffsetsM_count hb hn hs]
  have key := forUp_congr_inv
    (f := fun i (o : Buf Nat) => do
      let p ← mul t t i d
      let q ← add t (common t t) original p
      let x ← toIndex (t.cast q)
      Buf.write c.ix o (s.numArrays + i) x)
    (g := fun i (o : Buf Nat) => Buf.write c.ix o (s.numArrays + i) (f i))
    (fun _ _ => True) (n + 1 - s.numArrays - 1) 1 s.offsets trivial (by
      intro i o k1 k2 _
      refine ⟨?_, fun _ _ => trivial⟩
      have := hf i k1 (by omega)
      obtain ⟨p, h1, h2⟩ := bind_eq_ok.mp this
      obtain ⟨q, h3, h4⟩ := bind_eq_ok.mp h2
      simp only [h1, bind_ok, h3, h4])
  rw [key]

theorem spreadOffsetsM_of {s : Shape} {n original d : Nat} (hn : Bounded t (n + 1)) (hs : s.numArrays ≤ n)
    (ho : Bounded t (original + (n - s.numArrays) * d)) :
    s.spreadOffsetsM t c n original d = s.spreadOffsets c n original d := by
  refine spreadOffsetsM_with hb (fun i => original + i * d) hn hs (fun i k1 k2 => ?_)
  have hi : i * d ≤ (n - s.numArrays) * d := Nat.mul_le_mul_right d (by omega)
  have b1 : ((original + i * d : Nat) : Int) ≤ t.max := (ho.le (by omega)).1
  have b2 : ((i * d : Nat) : Int) ≤ t.max := (ho.le (by omega)).1
  have bi : (i : Int) ≤ t.max := (hn.le (by omega : i ≤ n + 1)).1
  have hm : mul t t (i : Int) (d : Int) = .ok ((i * d : Nat) : Int) := by
    have bd : d ≤ i * d := Nat.le_mul_of_pos_left d (by omega)
    rw [mul_ok t t hb hb (rep_of_nonneg t (by omega) bi) (rep_of_nonneg t (by omega) (by omega)) (by omega) (by omega)
      (by rw [← Int.natCast_mul]; exact b2), ← Int.natCast_mul]
  have hcr := common_representable t t (rep_of_nonneg t (x := ((i * d : Nat) : Int)) (by omega) b2)
    (rep_of_nonneg t (x := ((original + i * d : Nat) : Int)) (by omega) b1) (Or.inr ⟨by omega, by omega⟩)
  have ha : add t (common t t) (original : Int) ((i * d : Nat) : Int) = .ok ((original + i * d : Nat) : Int) := by
    rw [add_ok t (common t t) hb (common_bits t t hb hb) (rep_of_nonneg t (by omega) (by omega)) hcr.1 (by omega) (by omega)
      (by have := hcr.2.2; omega)]
    congr 1
  simp only [hm, bind_ok, ha, castIndex_ok t hb b1]

omit hb in
theorem forUp_fails {σ : Type} {f : Nat → σ → R σ} {e : Err} (P : Nat → σ → Prop) : ∀ (n lo k : Nat) (s : σ), P lo s →
    (∀ i s, lo ≤ i → i < lo + n → P i s → (∃ s', f i s = .ok s' ∧ P (i + 1) s') ∨ f i s = .error e) →
    lo ≤ k → k < lo + n → (∀ s, P k s → f k s = .error e) → forUp n lo f s = .error e
  | 0, _, _, _, _, _, _, _, _ => by omega
  | n + 1, lo, k, s, hP, hstep, k1, k2, hk => by
    show (f lo s >>= forUp n (lo + 1) f) = .error e
    rcases hstep lo s (Nat.le_refl _) (by omega) hP with ⟨s', h1, h2⟩ | h1
    · have : lo ≠ k := fun h => by subst h; rw [hk s hP] at h1; cases h1
      rw [h1, bind_ok]
      exact forUp_fails P n (lo + 1) k s' h2 (fun i s a b => hstep i s (by omega) (by omega)) (by omega) (by omega) hk
    · rw [h1]; rfl

/-- Writing `f i` at position `i` for `1 ≤ i ≤ n` into a buffer of `n + 1` zeros. -/
theorem spread_zeros {o : Buf Nat} {n : Nat} (f : Nat → Nat) (h0 : f 0 = 0) (h : RepM o (List.replicate (n + 1) 0)) :
    ∃ o', forUp n 1 (fun i o => Buf.write c.ix o (0 + i) (f i)) o = .ok o' ∧
      RepM o' ((List.range (n + 1)).map f) := by
  obtain ⟨o', h1, xs, h2, h3, h4⟩ := forUp_inv (f := fun i (o : Buf Nat) => Buf.write c.ix o (0 + i) (f i))
    (fun m b => ∃ xs : List Nat, RepM b xs ∧ xs.length = n + 1 ∧ ∀ k, k < m → k ≤ n → xs[k]? = some (f k)) n 1 o
    ⟨_, h, by simp, fun k hk hk' => by
      have : k = 0 := by omega
      subst this
      simp [h0]⟩
    (by
      rintro m b k1 k2 ⟨xs, hr, hl, hx⟩
      obtain ⟨b', hw, hr'⟩ := hr.write c.ix (i := 0 + m) (by omega) (f m)
      refine ⟨b', hw, _, hr', by simpa using hl, fun k hk hk' => ?_⟩
      rw [List.getElem?_set]
      by_cases hkm : k = m
      · subst hkm
        rw [if_pos (by omega), if_pos (by omega)]
      · rw [if_neg (by omega), hx k (by omega) hk'])
  refine ⟨o', h1, ?_⟩
  have : xs = (List.range (n + 1)).map f := by
    apply List.ext_getElem?
    intro k
    by_cases hk : k ≤ n
    · rw [h4 k (by omega) hk]
      simp [show k < n + 1 by omega]
    · rw [List.getElem?_eq_none (by omega), List.getElem?_eq_none (by simp; omega)]
  rw [← this]
  exact h2

theorem dropRowsM_of {s : Shape} {n : Nat} (hs : Bounded t (s.numArrays + 1)) (hn : Bounded t (n + 1)) :
    s.dropRowsM t c n = s.dropRows c n := by
  unfold Shape.dropRowsM Shape.dropRows
  simp only [offsetsSizeM_ok hb hs, succOffset_ok t hb hn, bind_ok]

theorem addRowsM_of (h : AWeak a L) {n d : Nat} (hn : Bounded t (n + 1)) (hs : L.length ≤ n)
    (ho : Bounded t (total L + (n - L.length) * d)) : a.shape.addRowsM t c n d = a.shape.addRows c n d := by
  unfold Shape.addRowsM Shape.addRows
  have e := h.numArrays
  have hlast : a.shape.lastOffset = .ok (total L) := by
    unfold Shape.lastOffset
    by_cases h0 : L.length = 0
    · rw [if_pos (by omega), List.eq_nil_of_length_eq_zero h0]; rfl
    · rw [if_neg (by omega)]
      rcases h.shape with hg | ⟨_, h1, _⟩
      · rw [e]
        have := LShape.readOff' (L := L) (i := L.length) hg (Nat.le_refl _)
        rw [List.take_of_length_le (Nat.le_refl _)] at this
        exact this
      · have := congrArg List.length h1
        simp only [szs_length, List.length_nil] at this
        omega
  have hsz : a.shape.offsetsSizeM t = .ok a.shape.offsetsSize := offsetsSizeM_ok hb (hn.le (by omega))
  rw [hlast]
  simp only [hsz, succOffset_ok t hb hn, bind_ok]
  cases bufferManipulation.resize c.ix a.shape.offsets a.shape.offsetsSize (n + 1) (total L) with
  | error _ => rfl
  | ok o =>
    rw [bind_ok, bind_ok]
    cases bufferManipulation.resize c.ix a.shape.sizes a.shape.numArrays n 0 with
    | error _ => rfl
    | ok z =>
      rw [bind_ok, bind_ok]
      split
      · exact spreadOffsetsM_of hb hn (by dsimp only; omega) (by dsimp only; rw [e]; exact ho)
      · rfl

theorem resizeM_of (h : AWeak a L) {n d : Nat} (hl : Bounded t (L.length + 1)) (hn : Bounded t (n + 1))
    (ho : L.length ≤ n → Bounded t (total L + (n - L.length) * d)) : a.resizeM t c n d = a.resize c n d := by
  unfold AoA.resizeM AoA.resize
  have e := h.numArrays
  by_cases hlt : n < a.shape.numArrays
  · rw [if_pos hlt, if_pos hlt, dropRowsM_of hb (by rw [e]; exact hl) hn]
  · have hle : L.length ≤ n := by omega
    rw [if_neg hlt, if_neg hlt, addRowsM_of hb h hn hle (ho hle)]
    obtain ⟨s', h1, h2, h3⟩ := h.shape.addRows (c := c) (n := n) (by simpa using hle) d
    rw [h1, bind_ok, bind_ok]
    have : s'.addRowsReserveM c n d a.values = s'.addRowsReserve c n d a.values := by
      unfold Shape.addRowsReserveM Shape.addRowsReserve
      have hread : s'.offsets.read n = .ok (total L + (n - L.length) * d) := by
        have := ShGood.readLast h3
        rw [List.sum_append, caps_sum, caps_length, List.sum_replicate_nat] at this
        exact this
      rw [hread]
      simp only [bind_ok, toOffset_ok (ho hle).2]
    rw [this]

theorem scanOffsetsM_of (cs : List Nat) (o : Buf Nat) (hs : (cs.sum : Int) ≤ t.max) :
    Shape.scanOffsetsM t c cs o = Shape.scanOffsets c cs o := by
  unfold Shape.scanOffsetsM Shape.scanOffsets
  cases o.write c.ix 0 0 with
  | error _ => rfl
  | ok o =>
    rw [bind_ok, bind_ok]
    have key : ∀ (k i : Nat) (o : Buf Nat), i + k = cs.length →
        forUp k i (fun i (st : Buf Nat × Nat) => do
          let sum ← t.plus st.2 (cs.getD i 0)
          let o ← Buf.write c.ix st.1 (i + 1) sum
          .ok (o, sum)) (o, (cs.take i).sum) =
        (forUp k i (fun i o => Buf.write c.ix o (i + 1) (cs.take (i + 1)).sum) o).map (fun o => (o, cs.sum)) := by
      intro k
      induction k with
      | zero =>
        intro i o hi
        rw [List.take_of_length_le (by omega)]; rfl
      | succ k ih =>
        intro i o hi
        have hlt : i < cs.length := by omega
        have hsum : (cs.take i).sum + cs.getD i 0 = (cs.take (i + 1)).sum := by
          rw [take_sum_succ cs hlt, List.getD_eq_getElem?_getD, List.getElem?_eq_getElem hlt]
          rfl
        have hle : (cs.take (i + 1)).sum ≤ cs.sum := by
          have := List.sum_append (l₁ := cs.take (i + 1)) (l₂ := cs.drop (i + 1))
          rw [List.take_append_drop] at this
          omega
        have hp : t.plus (cs.take i).sum (cs.getD i 0) = .ok (cs.take (i + 1)).sum := by
          rw [plus_ok t hb (by omega), hsum]
        show (((do
          let sum ← t.plus (cs.take i).sum (cs.getD i 0)
          let o ← Buf.write c.ix o (i + 1) sum
          .ok (o, sum)) : R (Buf Nat × Nat)) >>= forUp k (i + 1) _) =
          ((Buf.write c.ix o (i + 1) (cs.take (i + 1)).sum >>= forUp k (i + 1) _).map _)
        rw [hp, bind_ok]
        cases Buf.write c.ix o (i + 1) (cs.take (i + 1)).sum with
        | error _ => rfl
        | ok o' =>
          rw [bind_ok, bind_ok, bind_ok]
          exact ih (i + 1) o' (by omega)
    have hk := key cs.length 0 o (by omega)
    simp only [List.take_zero, List.sum_nil] at hk
    rw [hk]
    cases forUp cs.length 0 (fun i o => Buf.write c.ix o (i + 1) (cs.take (i + 1)).sum) o <;> rfl

theorem resizeFromCapacitiesM_of (h : AWeak a L) (cs : List Nat) (hl : Bounded t (L.length + 1))
    (hn : Bounded t (cs.length + 1)) (hs : Bounded t cs.sum) :
    a.resizeFromCapacitiesM t c cs = a.resizeFromCapacities c cs := by
  have e := h.numArrays
  have hsz : a.shape.offsetsSizeM t = .ok a.shape.offsetsSize := offsetsSizeM_ok hb (by rw [e]; exact hl)
  have hshape : a.shape.fromCapacitiesM t c cs = a.shape.fromCapacities c cs := by
    unfold Shape.fromCapacitiesM Shape.fromCapacities
    simp only [hsz, succOffset_ok t hb hn, bind_ok, scanOffsetsM_of hb cs _ hs.1]
  unfold AoA.resizeFromCapacitiesM AoA.resizeFromCapacities
  rw [hshape]
  obtain ⟨s', h1, h2⟩ := h.shape.fromCapacities (c := c) cs
  have hres : ∀ b : Buf T, s'.fromCapacitiesReserveM c b = s'.fromCapacitiesReserve c b := by
    intro b
    unfold Shape.fromCapacitiesReserveM Shape.fromCapacitiesReserve
    rw [ShGood.readLast h2]
    simp only [bind_ok, toOffset_ok hs.2]
  simp only [h1, bind_ok, hres]

/-! ## `compress` -/

theorem compressM_of (h : AGood a L) (hf : (total L : Int) ≤ t.max) : a.compressM t c = a.compress c := by
  unfold AoA.compressM AoA.compress Shape.compressM Shape.compress
  have hnum : a.shape.numArrays = L.length := by rw [h.shape.num]
  by_cases h0 : a.shape.numArrays = 0
  · rw [if_pos h0, if_pos h0]
  rw [if_neg h0, if_neg h0]
  have hoff : ∀ i, i ≤ L.length → a.shape.offsets.read i = .ok (total (L.take i)) := fun i hi => h.shape.readOff' hi
  have hrow : ∀ i, i < L.length → ∃ n, a.shape.sizeOfArray c i = .ok n ∧ total (L.take i) + n ≤ total (L.take (i + 1)) := by
    intro i hi
    refine ⟨_, h.shape.sizeOf' hi, ?_⟩
    have hfit := h.lay.fits L[i] (List.getElem_mem hi)
    have : total (L.take (i + 1)) = total (L.take i) + L[i].2 := by
      rw [List.take_add_one, List.getElem?_eq_getElem hi, total_append]
      simp
    omega
  have htl := take_total_le L
  let P : Nat → Buf Nat × Buf T → Prop := fun k st => (∀ j, k < j → st.1.read j = a.shape.offsets.read j) ∧
    ∃ y, st.1.read k = .ok y ∧ y ≤ total (L.take k)
  have hP0 : P 0 (a.shape.offsets, a.values) := ⟨fun j _ => rfl, _, hoff 0 (by omega), Nat.le_refl _⟩
  have hstep : ∀ k st, k < L.length - 1 → P k st →
      a.shape.compressStepM t c k st = a.shape.compressStep c k st ∧
        ∀ st', a.shape.compressStep c k st = .ok st' → P (k + 1) st' := by
    rintro k ⟨o, b⟩ hk ⟨hlater, y, hy, hyle⟩
    obtain ⟨n, hn, hnle⟩ := hrow k (by omega)
    have hx : o.read (k + 1) = .ok (total (L.take (k + 1))) := by rw [← hoff _ (by omega)]; exact hlater _ (by omega)
    have hxm : (total (L.take (k + 1)) : Int) ≤ t.max := by have := htl (k + 1); omega
    have hr : ∀ m : Nat, (m : Int) ≤ t.max → Representable t (m : Int) := fun m hm => rep_of_nonneg t (by omega) hm
    have hs1 : sub t t (total (L.take (k + 1)) : Int) (y : Int) = .ok ((total (L.take (k + 1)) - y : Nat) : Int) := by
      rw [sub_ok t t hb hb (hr _ hxm) (hr _ (by omega)) (by omega) (by omega)]
      congr 1; omega
    have hcr := common_representable t t (hr (total (L.take (k + 1)) - y) (by omega)) (hr 0 (by omega)) (Or.inr ⟨by omega, by omega⟩)
    have hs2 : sub (common t t) t ((total (L.take (k + 1)) - y : Nat) : Int) (n : Int) =
        .ok ((total (L.take (k + 1)) - y - n : Nat) : Int) := by
      rw [sub_ok (common t t) t (common_bits t t hb hb) hb hcr.1 (hr _ (by omega)) (by omega) (by omega)]
      congr 1; omega
    have hs3 : t.minus (total (L.take (k + 1))) (total (L.take (k + 1)) - y - n) =
        .ok (total (L.take (k + 1)) - (total (L.take (k + 1)) - y - n)) := minus_ok t hb (by omega) hxm
    refine ⟨?_, ?_⟩
    · unfold Shape.compressStepM Shape.compressStep
      simp only [hx, hy, hn, bind_ok, hs1, hs2, castIndex_ok t hb (x := total (L.take (k + 1)) - y - n) (by omega), hs3]
    · rintro ⟨o', b'⟩ hok
      unfold Shape.compressStep at hok
      simp only [hx, hy, hn, bind_ok] at hok
      obtain ⟨_, _, hok⟩ := bind_eq_ok.mp hok
      obtain ⟨_, _, hok⟩ := bind_eq_ok.mp hok
      obtain ⟨o1, hw, hok⟩ := bind_eq_ok.mp hok
      cases hok
      refine ⟨fun j hj => ?_, total (L.take (k + 1)) - (total (L.take (k + 1)) - y - n), ?_, by omega⟩
      · show o'.read j = _
        rw [write_cell hw (by omega)]
        exact hlater j (by omega)
      · exact write_read hw
  have hloop := forUp_congr_inv (f := a.shape.compressStepM t c) (g := a.shape.compressStep c) P (a.shape.numArrays - 1) 0
    (a.shape.offsets, a.values) hP0 (fun i st _ hi hP => hstep i st (by omega) hP)
  rw [hloop]
  cases he : forUp (a.shape.numArrays - 1) 0 (a.shape.compressStep c) (a.shape.offsets, a.values) with
  | error _ => rfl
  | ok st =>
    obtain ⟨o, b⟩ := st
    have hP := forUp_inv_ok P (a.shape.numArrays - 1) 0 _ _ hP0 (fun i st st' _ hi hP hok => (hstep i st (by omega) hP).2 st' hok) he
    obtain ⟨-, y, hy, hyle⟩ := hP
    rw [Nat.zero_add] at hy hyle
    obtain ⟨n, hn, hnle⟩ := hrow (a.shape.numArrays - 1) (by omega)
    have := htl (a.shape.numArrays - 1 + 1)
    have hy : o.read (a.shape.numArrays - 1) = .ok y := hy
    simp only [bind_ok, hy, hn, plus_ok t hb (x := y) (y := n) (by omega)]

end

end LvArray
