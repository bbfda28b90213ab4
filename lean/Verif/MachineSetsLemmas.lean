import Verif.MachineSets
import Verif.MachineAoALemmas
import Verif.SortedArrayLemmas

/-!
# Lemmas for `SortedArray` with machine integers
-/

namespace LvArray

open IntTy Props

namespace sortedArrayManipulation

variable {T σ : Type} [LT T] [DecidableLT T] [DecidableEq T]

/-- Only the call with the number of values that are inserted matters. -/
theorem insertOne_congr (c : Cfg) (t0 : Target σ T) (f : σ → Nat → R σ) (s : σ) (size : Nat) (v : T) {r : σ × Bool}
    (hr : insertOne c t0 s size v = .ok r) (h : f s (if r.2 then 1 else 0) = t0.incrementSize s (if r.2 then 1 else 0)) :
    insertOne c { t0 with incrementSize := f } s size v = .ok r := by
  unfold insertOne at hr ⊢
  obtain ⟨u, e1, hr⟩ := bind_eq_ok.mp hr
  obtain ⟨p, e2, hr⟩ := bind_eq_ok.mp hr
  obtain ⟨q, e3, hr⟩ := bind_eq_ok.mp hr
  refine bind_eq_ok.mpr ⟨u, e1, bind_eq_ok.mpr ⟨p, e2, bind_eq_ok.mpr ⟨q, e3, ?_⟩⟩⟩
  cases q with
  | true =>
    rw [if_pos rfl] at hr ⊢
    obtain ⟨s1, e4, hr⟩ := bind_eq_ok.mp hr
    cases hr
    refine bind_eq_ok.mpr ⟨s1, ?_, rfl⟩
    exact h.trans e4
  | false =>
    rw [if_neg (by decide)] at hr ⊢
    obtain ⟨s1, e4, hr⟩ := bind_eq_ok.mp hr
    obtain ⟨s2, e5, hr⟩ := bind_eq_ok.mp hr
    obtain ⟨s3, e6, hr⟩ := bind_eq_ok.mp hr
    cases hr
    refine bind_eq_ok.mpr ⟨s1, ?_, bind_eq_ok.mpr ⟨s2, e5, bind_eq_ok.mpr ⟨s3, e6, rfl⟩⟩⟩
    exact h.trans e4

/-- When making room for a new value fails, so does the insertion. -/
theorem insertOne_fails (c : Cfg) (t0 : Target σ T) (f : σ → Nat → R σ) (s s' : σ) (size : Nat) (v : T) {e : Err}
    (hr : insertOne c t0 s size v = .ok (s', true)) (h : f s 1 = .error e) :
    insertOne c { t0 with incrementSize := f } s size v = .error e := by
  unfold insertOne at hr ⊢
  obtain ⟨u, e1, hr⟩ := bind_eq_ok.mp hr
  obtain ⟨p, e2, hr⟩ := bind_eq_ok.mp hr
  obtain ⟨q, e3, hr⟩ := bind_eq_ok.mp hr
  have e1' : assertRange c (Target.read { t0 with incrementSize := f } s) size (isSortedUnique less) = .ok u := e1
  have e2' : insertPosition c (Target.read { t0 with incrementSize := f } s) size v = .ok p := e2
  have e3' : isAt (Target.read { t0 with incrementSize := f } s) size p v = .ok q := e3
  rw [e1', bind_ok, e2', bind_ok, e3', bind_ok]
  cases q with
  | true =>
    rw [if_pos rfl] at hr
    obtain ⟨s1, e4, hr⟩ := bind_eq_ok.mp hr
    cases hr
  | false =>
    rw [if_neg (by decide)]
    show (f s 1 >>= _) = _
    rw [h, bind_err]

theorem insertLoop_congr (c : Cfg) (t0 : Target σ T) (f : σ → Nat → R σ) : ∀ (vs : List T) (s : σ) (u n : Nat),
    insertLoop c { t0 with incrementSize := f } vs s u n = insertLoop c t0 vs s u n
  | [], s, u, n => rfl
  | v :: vs, s, u, n => by
    unfold insertLoop
    refine bind_congr fun pos => bind_congr fun present => ?_
    cases present with
    | true => exact insertLoop_congr c t0 f vs s u n
    | false =>
      refine bind_congr fun s1 => bind_congr fun s2 => bind_congr fun s3 => ?_
      exact insertLoop_congr c t0 f vs s3 pos (n - 1)

theorem insertRange_congr [Inhabited T] (c : Cfg) (t0 : Target σ T) (f : σ → Nat → R σ) (s : σ) (size : Nat) (vs : List T)
    {r : σ × Nat} (hr : insertRange c t0 s size vs = .ok r) (h : f s r.2 = t0.incrementSize s r.2) :
    insertRange c { t0 with incrementSize := f } s size vs = .ok r := by
  unfold insertRange at hr ⊢
  obtain ⟨u, e1, hr⟩ := bind_eq_ok.mp hr
  obtain ⟨p, e2, hr⟩ := bind_eq_ok.mp hr
  refine bind_eq_ok.mpr ⟨u, e1, bind_eq_ok.mpr ⟨p, e2, ?_⟩⟩
  by_cases h0 : size = 0
  · rw [if_pos h0] at hr ⊢
    obtain ⟨s1, e4, hr⟩ := bind_eq_ok.mp hr
    obtain ⟨s2, e5, hr⟩ := bind_eq_ok.mp hr
    cases hr
    exact bind_eq_ok.mpr ⟨s1, h.trans e4, bind_eq_ok.mpr ⟨s2, e5, rfl⟩⟩
  · rw [if_neg h0] at hr ⊢
    obtain ⟨n, e3, hr⟩ := bind_eq_ok.mp hr
    obtain ⟨s1, e4, hr⟩ := bind_eq_ok.mp hr
    by_cases hn : n = 0
    · rw [if_pos hn] at hr
      cases hr
      subst hn
      refine bind_eq_ok.mpr ⟨0, e3, bind_eq_ok.mpr ⟨s1, h.trans e4, ?_⟩⟩
      rfl
    · rw [if_neg hn] at hr
      obtain ⟨s2, e5, hr⟩ := bind_eq_ok.mp hr
      cases hr
      refine bind_eq_ok.mpr ⟨n, e3, bind_eq_ok.mpr ⟨s1, h.trans e4, ?_⟩⟩
      rw [if_neg hn]
      refine bind_eq_ok.mpr ⟨s2, ?_, rfl⟩
      rw [insertLoop_congr]
      exact e5

theorem removeLoop_congr (c : Cfg) (t0 : Target σ T) (f : σ → Nat → R σ) (size : Nat) : ∀ (fuel : Nat) (s : σ) (pos n : Nat)
    (vs : List T), removeLoop c { t0 with incrementSize := f } size fuel s pos n vs = removeLoop c t0 size fuel s pos n vs
  | fuel, s, pos, n, [] => by cases fuel <;> rfl
  | 0, s, pos, n, _ :: _ => rfl
  | fuel + 1, s, pos, n, v :: rest => by
    unfold removeLoop
    refine bind_congr fun q => bind_congr fun s1 => bind_congr fun s2 => ?_
    rw [removeLoop_congr c t0 f size fuel]

theorem removeRange_congr (c : Cfg) (t0 : Target σ T) (f : σ → Nat → R σ) (s : σ) (size : Nat) (vs : List T) :
    removeRange c { t0 with incrementSize := f } s size vs = removeRange c t0 s size vs := by
  unfold removeRange
  refine bind_congr fun _ => bind_congr fun _ => bind_congr fun q => ?_
  obtain ⟨pos, rest⟩ := q
  simp only [removeLoop_congr c t0 f size]
  rfl

end sortedArrayManipulation

namespace SetM

open sortedArrayManipulation

variable {T : Type}

theorem cast_nat {t : IntTy} (hb : 1 ≤ t.bits) {n : Nat} (h : (n : Int) ≤ t.max) : t.cast n = n :=
  cast_of_representable t hb _ (rep_of_nonneg t (by omega) h)

theorem ptr_nat {n : Nat} (h : (n : Int) ≤ ptrdiff.max) : ptrdiff.cast n = n := cast_nat (by decide) h

theorem sizeArg_ok (c : Cfg) (a : SortedArr T) (h : (a.size : Int) ≤ ptrdiff.max) : (of a).sizeArg c = .ok a.size := by
  unfold sizeArg of
  simp only
  rw [ptr_nat h, if_neg (by omega), Int.toNat_natCast]

/-- The growth of the buffer when the sum is exact. -/
theorem incrementSize_of (t : IntTy) (c : Cfg) (n k : Nat) (b : Buf T) (h : add t t n (t.cast k) = .ok ((n + k : Nat) : Int))
    (h2 : 2 * ((n + k : Nat) : Int) ≤ ptrdiff.max) :
    (target t c n n).incrementSize b k = (SortedArr.target c n).incrementSize b k := by
  show (add t t n (t.cast k) >>= fun sum => bufferManipulation.dynamicReserveM c b n (ptrdiff.cast sum)) =
    bufferManipulation.dynamicReserve c b n (n + k)
  rw [h, bind_ok, ptr_nat (by omega)]
  unfold bufferManipulation.dynamicReserveM bufferManipulation.dynamicReserve
  refine bind_congr fun _ => ?_
  by_cases hc : b.cap < n + k
  · rw [if_pos (by omega), if_pos hc]
    have hm : mul int ptrdiff 2 ((n + k : Nat) : Int) = .ok (2 * ((n + k : Nat) : Int)) :=
      mul_ok int ptrdiff (by decide) (by decide) (rep_of_nonneg _ (by omega) (by decide)) (rep_of_nonneg _ (by omega) (by omega))
        (by omega) (by omega) h2
    rw [hm, bind_ok]
    congr 1
  · rw [if_neg (by omega), if_neg hc]

/-- Arithmetic with an `int` happens in the type in which two values of the index type are added. -/
theorem common_int (t : IntTy) : common t int = common t t := by
  unfold common
  have hi : promote int = int := by decide
  rw [hi]
  unfold promote
  by_cases h : t.bits < 32
  · rw [if_pos h]; decide
  · rw [if_neg h]
    cases hs : t.signed
    · simp [hs, int]; intro h'; omega
    · simp [hs, int, h]

theorem add_int (t : IntTy) (x y : Int) : add t int x y = add t t x y := by
  unfold IntTy.add; rw [common_int]

theorem sub_int (t : IntTy) (x y : Int) : sub t int x y = sub t t x y := by
  unfold IntTy.sub; rw [common_int]

theorem add_nat {t : IntTy} (hb : 1 ≤ t.bits) {n k : Nat} (h : ((n + k : Nat) : Int) ≤ t.max) :
    add t t n k = .ok ((n + k : Nat) : Int) := by
  rw [add_ok t t hb hb (rep_of_nonneg t (x := (n : Int)) (by omega) (by omega))
    (rep_of_nonneg t (x := (k : Int)) (by omega) (by omega)) (by omega) (by omega) (by omega)]
  simp

theorem sub_nat {t : IntTy} (hb : 1 ≤ t.bits) {n k : Nat} (h : (n : Int) ≤ t.max) (hk : k ≤ n) :
    sub t t n k = .ok ((n - k : Nat) : Int) := by
  rw [sub_ok t t hb hb (rep_of_nonneg t (x := (n : Int)) (by omega) (by omega))
    (rep_of_nonneg t (x := (k : Int)) (by omega) (by omega)) (by omega) (by omega), Int.ofNat_sub hk]

variable [LinearOrder T] {t : IntTy} {c : Cfg} {a : SortedArr T}

/-- A single insertion, with the buffer as it is with unbounded numbers whenever the sum that is asked for is exact. -/
theorem insert_buf (v : T) {r : SortedArr T × Bool} (h : a.insert c v = .ok r) (hp : (a.size : Int) ≤ ptrdiff.max)
    (hi : (target t c a.size a.size).incrementSize a.buf (if r.2 then 1 else 0) =
      (SortedArr.target c a.size).incrementSize a.buf (if r.2 then 1 else 0)) :
    (of a).insert t c v = (do
      let z ← add t t a.size ((if r.2 then 1 else 0 : Nat) : Int)
      .ok ({ buf := r.1.buf, size := t.cast z }, r.2)) ∧ r.1.size = a.size + (if r.2 then 1 else 0) := by
  unfold SortedArr.insert at h
  obtain ⟨q, e, h⟩ := bind_eq_ok.mp h
  cases h
  refine ⟨?_, rfl⟩
  unfold SetM.insert
  rw [sizeArg_ok c a hp, bind_ok]
  have e' : insertOne c (target t c (of a).size a.size) (of a).buf a.size v = .ok q :=
    insertOne_congr c (SortedArr.target c a.size) (target t c a.size a.size).incrementSize a.buf a.size v e hi
  rw [e', bind_ok, add_int]
  cases hq : q.2 <;> rfl

theorem insert_of (hb : 1 ≤ t.bits) (v : T) {r : SortedArr T × Bool}
    (h : a.insert c v = .ok r) (hs : (r.1.size : Int) ≤ t.max) (h2 : 2 * (r.1.size : Int) ≤ ptrdiff.max) :
    (of a).insert t c v = .ok (of r.1, r.2) := by
  have hsz : r.1.size = a.size + (if r.2 then 1 else 0) := by
    unfold SortedArr.insert at h
    obtain ⟨q, e, h⟩ := bind_eq_ok.mp h
    cases h; rfl
  rw [hsz] at hs h2
  have := (insert_buf v h (by omega) (incrementSize_of t c a.size (if r.2 then 1 else 0) a.buf (by
    rw [cast_nat hb (by omega), add_nat hb hs]) h2)).1
  rw [this, add_nat hb hs, bind_ok, cast_nat hb hs, ← hsz]
  rfl

theorem insertMany_of [Inhabited T] (hb : 1 ≤ t.bits) (vs : List T) {r : SortedArr T × Nat}
    (h : a.insertMany c vs = .ok r) (hs : (r.1.size : Int) ≤ t.max) (h2 : 2 * (r.1.size : Int) ≤ ptrdiff.max) :
    (of a).insertMany t c vs = .ok (of r.1, r.2) := by
  unfold SortedArr.insertMany at h
  obtain ⟨q, e, h⟩ := bind_eq_ok.mp h
  cases h
  simp only at hs h2 ⊢
  have hi := incrementSize_of t c a.size q.2 a.buf (by rw [cast_nat hb (by omega), add_nat hb hs]) h2
  unfold SetM.insertMany
  rw [sizeArg_ok c a (by omega), bind_ok]
  have e' : insertRange c (target t c (of a).size a.size) (of a).buf a.size vs = .ok q :=
    insertRange_congr c (SortedArr.target c a.size) (target t c a.size a.size).incrementSize a.buf a.size vs e hi
  rw [e', bind_ok]
  simp only
  rw [cast_nat hb (by omega)]
  unfold IntTy.addTo
  rw [show (of a).size = (a.size : Int) from rfl, add_nat hb hs, bind_ok, bind_ok, cast_nat hb hs]
  rfl

theorem remove_of (hb : 1 ≤ t.bits) (v : T) {r : SortedArr T × Bool} (h : a.remove c v = .ok r)
    (hs : (a.size : Int) ≤ t.max) (hp : (a.size : Int) ≤ ptrdiff.max) (hk : (if r.2 then 1 else 0) ≤ a.size) :
    (of a).remove t c v = .ok (of r.1, r.2) := by
  unfold SortedArr.remove at h
  obtain ⟨q, e, h⟩ := bind_eq_ok.mp h
  cases h
  simp only at hk ⊢
  unfold SetM.remove
  rw [sizeArg_ok c a hp, bind_ok]
  have e' : removeOne c (target t c (of a).size a.size) (of a).buf a.size v = .ok q := e
  rw [e', bind_ok, sub_int, show (of a).size = (a.size : Int) from rfl,
    show (if q.2 = true then (1 : Int) else 0) = ((if q.2 then 1 else 0 : Nat) : Int) by cases q.2 <;> rfl,
    sub_nat hb hs hk, bind_ok, cast_nat hb (by omega)]
  rfl

theorem removeMany_of (hb : 1 ≤ t.bits) (vs : List T) {r : SortedArr T × Nat} (h : a.removeMany c vs = .ok r)
    (hs : (a.size : Int) ≤ t.max) (hp : (a.size : Int) ≤ ptrdiff.max) (hk : r.2 ≤ a.size) :
    (of a).removeMany t c vs = .ok (of r.1, r.2) := by
  unfold SortedArr.removeMany at h
  obtain ⟨q, e, h⟩ := bind_eq_ok.mp h
  cases h
  simp only at hk ⊢
  unfold SetM.removeMany
  rw [sizeArg_ok c a hp, bind_ok]
  have e' : removeRange c (target t c (of a).size a.size) (of a).buf a.size vs = .ok q :=
    (removeRange_congr c (SortedArr.target c a.size) (target t c a.size a.size).incrementSize a.buf a.size vs).trans e
  rw [e', bind_ok]
  simp only
  rw [cast_nat hb (by omega)]
  unfold IntTy.subTo
  rw [show (of a).size = (a.size : Int) from rfl, sub_nat hb hs hk, bind_ok, bind_ok, cast_nat hb (by omega)]
  rfl

theorem contains_of (v : T) (hp : (a.size : Int) ≤ ptrdiff.max) : (of a).contains c v = a.contains c v := by
  unfold SetM.contains
  rw [sizeArg_ok c a hp, bind_ok]
  rfl

omit [LinearOrder T] in
theorem get_of (hb : 1 ≤ t.bits) {i : Nat} (hi : (i : Int) ≤ t.max) (hp : (i : Int) ≤ ptrdiff.max) :
    (of a).get t c i = a.get c i := by
  unfold SetM.get SortedArr.get
  rw [cast_nat hb hi, ptr_nat hp]
  rfl

omit [LinearOrder T] in
theorem reserve_of (hb : 1 ≤ t.bits) {n : Int} (hn : Representable t n) (hn' : Representable ptrdiff n)
    (hp : (a.size : Int) ≤ ptrdiff.max) :
    (of a).reserve t c n = (do let b ← a.reserve c n; .ok (of b)) := by
  unfold SetM.reserve SortedArr.reserve
  rw [cast_of_representable t hb n hn, cast_of_representable ptrdiff (by decide) n hn', sizeArg_ok c a hp,
    bind_ok, bind_assoc]
  rfl

omit [LinearOrder T] in
theorem clear_of [Inhabited T] (hp : (a.size : Int) ≤ ptrdiff.max) :
    (of a).clear c = (do let b ← a.clear c; .ok (of b)) := by
  unfold SetM.clear SortedArr.clear
  rw [sizeArg_ok c a hp, bind_ok, bind_assoc]
  rfl

end SetM

end LvArray
