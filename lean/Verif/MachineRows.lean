import Verif.MachineArray
import Verif.AoALemmas

/-!
# `setCapacityOfArray` with machine integers
-/

namespace LvArray

open IntTy Props Layout

variable {T : Type}

theorem forDown_congr {σ : Type} {f g : Nat → σ → R σ} (h : ∀ i s, f i s = g i s) (n lo : Nat) (s : σ) :
    forDown n lo f s = forDown n lo g s := by
  have : f = g := by funext i s; exact h i s
  rw [this]

theorem forUp_congr_inv {σ : Type} {f g : Nat → σ → R σ} (P : Nat → σ → Prop) : ∀ (n lo : Nat) (s : σ), P lo s →
    (∀ i s, lo ≤ i → i < lo + n → P i s → f i s = g i s ∧ ∀ s', g i s = .ok s' → P (i + 1) s') →
    forUp n lo f s = forUp n lo g s
  | 0, _, _, _, _ => rfl
  | n + 1, lo, s, hP, h => by
    obtain ⟨h1, h2⟩ := h lo s (Nat.le_refl _) (by omega) hP
    show (f lo s >>= forUp n (lo + 1) f) = (g lo s >>= forUp n (lo + 1) g)
    rw [h1]
    cases hg : g lo s with
    | error e => rfl
    | ok s' =>
      exact forUp_congr_inv P n (lo + 1) s' (h2 s' hg) (fun i s k1 k2 => h i s (by omega) (by omega))

theorem shiftBy_of (c : Cfg) (b : Buf T) (p size amount : Nat) :
    AoA.shiftBy c b p size (amount : Int) = arrayManipulation.uninitializedShiftUp c b p size amount := by
  unfold AoA.shiftBy arrayManipulation.uninitializedShiftUp
  by_cases h : amount = 0
  · rw [if_pos (by omega), if_pos h]
  · rw [if_neg (by omega), if_neg h]
    apply forDown_congr
    intro j b
    rw [if_neg (by omega)]
    rfl

theorem shiftRowsBy_of (c : Cfg) (s : Shape) (i amount : Nat) (b : Buf T) :
    AoA.shiftRowsBy c s i (amount : Int) b = s.shiftRowsUp c i amount b := by
  unfold AoA.shiftRowsBy Shape.shiftRowsUp
  apply forDown_congr
  intro j b
  simp only [shiftBy_of]

theorem write_cell {c : Cfg} {o o' : Buf Nat} {k j x : Nat} (h : o.write c k x = .ok o') (hj : j ≠ k) :
    o'.read j = o.read j := by
  unfold Buf.write at h
  split at h
  · split at h <;> cases h <;> (unfold Buf.read; simp only [upd, if_neg hj])
  · cases h

theorem subTo_ok (t : IntTy) (hb : 1 ≤ t.bits) {x y : Int} (h0 : 0 ≤ y) (h1 : y ≤ x) (h : x ≤ t.max) :
    t.subTo x y = .ok (x - y) := by
  unfold IntTy.subTo
  rw [sub_ok t t hb hb (rep_of_nonneg t (by omega) h) (rep_of_nonneg t h0 (by omega)) h1 h0, bind_ok,
    cast_of_representable t hb _ (rep_of_nonneg t (by omega) (by omega))]

theorem toIndex_ok (n : Nat) : toIndex (n : Int) = .ok n := by
  unfold toIndex
  rw [if_neg (by omega), Int.toNat_natCast]

theorem plus_ok (t : IntTy) (hb : 1 ≤ t.bits) {x y : Nat} (h : ((x + y : Nat) : Int) ≤ t.max) : t.plus x y = .ok (x + y) := by
  unfold IntTy.plus
  rw [addTo_ok t hb (by omega) (by omega) (by omega), bind_ok, ← Int.natCast_add, toIndex_ok]

theorem minus_ok (t : IntTy) (hb : 1 ≤ t.bits) {x y : Nat} (h1 : y ≤ x) (h : (x : Int) ≤ t.max) :
    t.minus x y = .ok (x - y) := by
  unfold IntTy.minus
  rw [subTo_ok t hb (by omega) (by omega) h, bind_ok, show (x : Int) - y = ((x - y : Nat) : Int) by omega, toIndex_ok]

/-- The offsets change by a number that keeps them values of the index type. -/
theorem addToOffsets_of (t : IntTy) (hb : 1 ≤ t.bits) (c : Cfg) (s : Shape) (i : Nat) (inc : Int) (f : Nat → Nat)
    (h : ∀ k, i + 1 ≤ k → k < s.numArrays + 1 → ∀ x, s.offsets.read k = .ok x → t.addTo x inc = .ok (f x : Int)) :
    AoA.addToOffsets t c s i inc = s.updateOffsets c i f := by
  unfold AoA.addToOffsets Shape.updateOffsets
  have key := forUp_congr_inv
    (f := fun array (o : Buf Nat) => do
      let x ← o.read array
      let y ← t.addTo x inc
      let y ← toIndex y
      o.write c.ix array y)
    (g := fun array (o : Buf Nat) => do
      let x ← Buf.read o array
      o.write c.ix array (f x))
    (fun k (o : Buf Nat) => ∀ j, k ≤ j → o.read j = s.offsets.read j) (s.numArrays + 1 - (i + 1)) (i + 1) s.offsets
    (fun j _ => rfl) (by
      intro k o k1 k2 hP
      have e := hP k (Nat.le_refl _)
      simp only [e]
      cases hr : s.offsets.read k with
      | error err =>
        rw [bind_err, bind_err]
        exact ⟨rfl, fun s' hs' => nomatch hs'⟩
      | ok x =>
        rw [bind_ok, bind_ok, h k k1 (by omega) x hr, bind_ok, toIndex_ok, bind_ok]
        refine ⟨rfl, fun o' ho' j hj => ?_⟩
        rw [write_cell ho' (by omega)]
        exact hP j (by omega))
  rw [key]

theorem take_total_le {α : Type} (L : List (List α × Nat)) (k : Nat) : total (L.take k) ≤ total L := by
  have h : L.take k ++ L.drop k = L := List.take_append_drop k L
  have := total_append (L.take k) (L.drop k)
  rw [h] at this
  omega

theorem capacityM_of (t : IntTy) (hb : 1 ≤ t.bits) (c : Cfg) {s : Shape} {A B : Layout T} {xs : List T} {cap : Nat}
    (h : LShape s (A ++ (xs, cap) :: B)) (hold : (total (A ++ (xs, cap) :: B) : Int) ≤ t.max) :
    s.capacityOfArrayM t c A.length = .ok cap := by
  unfold Shape.capacityOfArrayM
  have h1 : s.offsets.read A.length = .ok (total A) := h.readOffAt rfl
  have h2 := h.readOff' (i := A.length + 1) (by simp)
  rw [List.take_append, List.take_of_length_le (by omega), show A.length + 1 - A.length = 0 + 1 by omega] at h2
  simp only [List.take_succ_cons, List.take_zero, total_append, total_cons, total_nil] at h2
  simp only [total_append, total_cons] at hold
  rw [ShGood.checkBounds h (by simp), bind_ok, h2, bind_ok, h1, bind_ok, minus_ok t hb (by omega) (by omega)]
  congr 1
  omega

theorem setCapacity_of (t : IntTy) (hb : 1 ≤ t.bits) (c : Cfg) {a : AoA T} {A B : Layout T}
    {xs : List T} {cap : Nat} (h : AGood a (A ++ (xs, cap) :: B)) (n : Nat) (hsn : t.signed = true ∨ cap ≤ n)
    (hold : (total (A ++ (xs, cap) :: B) : Int) ≤ t.max) (hnew : (total (A ++ (xs, n) :: B) : Int) ≤ t.max)
    (hold2 : (total (A ++ (xs, cap) :: B) : Int) ≤ ptrdiff.max) (hnew2 : (total (A ++ (xs, n) :: B) : Int) ≤ ptrdiff.max) :
    a.setCapacityOfArrayM t c A.length n = a.setCapacityOfArray c A.length n := by
  unfold AoA.setCapacityOfArrayM AoA.setCapacityOfArray
  have hcap : a.shape.capacityOfArray c A.length = .ok cap := h.shape.capacityOfAt rfl
  have hcapM := capacityM_of t hb c h.shape hold
  have ht1 : total (A ++ (xs, cap) :: B) = total A + cap + total B := by simp; omega
  have ht2 : total (A ++ (xs, n) :: B) = total A + n + total B := by simp; omega
  rw [ht1] at hold hold2
  rw [ht2] at hnew hnew2
  have h32 : (1 : Nat) ≤ int.bits := by decide
  have nn : ∀ k : Nat, (k : Int) ≤ t.max → Representable t (k : Int) := fun k hk => rep_of_nonneg t (by omega) hk
  have hmin : t.signed = true → t.min = -t.max - 1 := by
    intro hs
    unfold IntTy.min IntTy.max
    rw [if_pos hs, if_pos hs]; omega
  have hdiff : Representable t ((n : Int) - cap) := by
    rcases hsn with hs | hn
    · have := hmin hs
      exact ⟨by omega, by omega⟩
    · exact rep_of_nonneg t (by omega) (by omega)
  have hsub : t.subTo (n : Int) (cap : Int) = .ok ((n : Int) - cap) := by
    rcases hsn with hs | hn
    · have hc := common_bits t t hb hb
      have h1 := common_representable t t (nn n (by omega)) (nn cap (by omega)) (Or.inr ⟨by omega, by omega⟩)
      have h2 := common_representable t t hdiff hdiff (Or.inl ⟨hs, hs⟩)
      unfold IntTy.subTo IntTy.sub
      rw [cast_of_representable _ hc _ h1.1, cast_of_representable _ hc _ h1.2, fit_ok _ hc h2.1, bind_ok,
        cast_of_representable t hb _ hdiff]
    · exact subTo_ok t hb (by omega) (by omega) (by omega)
  rw [hcap, hcapM]
  simp only [bind_ok, hsub]
  cases hcb : a.shape.checkBounds c A.length with
  | error e => rfl
  | ok u =>
    rw [bind_ok, bind_ok]
    by_cases he : n = cap
    · rw [if_pos (by omega), if_pos he]
    rw [if_neg (by omega), if_neg he]
    rw [lt_exact int t h32 hb int_zero hdiff (by
      rcases hsn with hs | hn
      · exact Or.inl ⟨rfl, hs⟩
      · exact Or.inr ⟨by omega, by omega⟩)]
    have hreads : ∀ k, A.length + 1 ≤ k → k < a.shape.numArrays + 1 → ∀ x, a.shape.offsets.read k = .ok x →
        x ≤ total A + cap + total B ∧ cap ≤ x := by
      intro k k1 k2 x hx
      have hnum : a.shape.numArrays = (A ++ (xs, cap) :: B).length := by
        have := h.shape.num
        simpa [caps] using this
      have hk := h.shape.readOff' (i := k) (by omega)
      rw [hk] at hx
      cases hx
      have := take_total_le (A ++ (xs, cap) :: B) k
      refine ⟨by omega, ?_⟩
      rw [List.take_append, List.take_of_length_le (by omega)]
      obtain ⟨m, hm⟩ : ∃ m, k - A.length = m + 1 := ⟨k - A.length - 1, by omega⟩
      rw [hm]
      simp
      omega
    by_cases hlt : cap < n
    · rw [if_pos (by simp; omega), if_pos hlt]
      unfold Shape.growRow
      have hmx : a.shape.offsets.read a.shape.numArrays = .ok (total A + cap + total B) := by
        have hnum : a.shape.numArrays = (A ++ (xs, cap) :: B).length := by
          have := h.shape.num
          simpa [caps] using this
        rw [hnum, h.shape.readOff' (Nat.le_refl _), List.take_of_length_le (Nat.le_refl _), ht1]
      rw [hmx]
      simp only [bind_ok]
      obtain ⟨d, hd⟩ : ∃ d : Nat, n = cap + d := ⟨n - cap, by omega⟩
      have hde : (n : Int) - cap = (d : Int) := by omega
      have hdn : n - cap = d := by omega
      rw [hde, hdn, add_ok t t hb hb (nn _ (by omega)) (nn _ (by omega)) (by omega) (by omega) (by omega), bind_ok,
        ← Int.natCast_add, toOffset_ok (by omega), bind_ok]
      have hcd : ptrdiff.cast (d : Int) = d := cast_nat ptrdiff (by decide) (by omega)
      rw [hcd]
      have hoff := addToOffsets_of t hb c a.shape A.length (d : Int) (· + d) (by
        intro k k1 k2 x hx
        obtain ⟨g1, g2⟩ := hreads k k1 k2 x hx
        rw [addTo_ok t hb (by omega) (by omega) (by omega), Int.natCast_add])
      rw [hoff]
      cases bufferManipulation.dynamicReserve c a.values (total A + cap + total B) (total A + cap + total B + d) with
      | error e => rfl
      | ok b =>
        simp only [bind_ok]
        rw [shiftRowsBy_of]
    · rw [if_neg (by simp; omega), if_neg hlt]
      have hs : t.signed = true := hsn.resolve_right (by omega)
      obtain ⟨d, hd⟩ : ∃ d : Nat, cap = n + d := ⟨cap - n, by omega⟩
      have hde : (n : Int) - cap = -(d : Int) := by omega
      have hdn : cap - n = d := by omega
      rw [hde] at hdiff
      rw [hde, hdn]
      cases ho : a.shape.offsets.read A.length with
      | error e => rfl
      | ok off =>
        rw [bind_ok, bind_ok]
        have hsub2 : sub int t 0 (-(d : Int)) = .ok (d : Int) := by
          have hc := common_bits int t h32 hb
          have h1 := common_representable int t int_zero hdiff (Or.inl ⟨rfl, hs⟩)
          have h2 := common_representable int t int_zero (nn d (by omega)) (Or.inl ⟨rfl, hs⟩)
          unfold IntTy.sub
          rw [cast_of_representable _ hc _ h1.1, cast_of_representable _ hc _ h1.2,
            show (0 : Int) - -(d : Int) = d by omega, fit_ok _ hc h2.2]
        rw [hsub2, bind_ok, cast_nat t hb (by omega), toOffset_ok (by omega), bind_ok]
        cases hsz : a.shape.sizeOfArray c A.length with
        | error e => rfl
        | ok prev =>
          rw [bind_ok, bind_ok]
          cases hss : a.shape.setSize c A.length (Nat.min prev n) with
          | error e => rfl
          | ok s1 =>
            rw [bind_ok, bind_ok]
            have hso : s1.offsets = a.shape.offsets ∧ s1.numArrays = a.shape.numArrays := by
              unfold Shape.setSize at hss
              obtain ⟨sz, -, he2⟩ := bind_eq_ok.mp hss
              cases he2
              exact ⟨rfl, rfl⟩
            have hoff := addToOffsets_of t hb c s1 A.length (-(d : Int)) (· - d) (by
              intro k k1 k2 x hx
              rw [hso.1] at hx
              rw [hso.2] at k2
              obtain ⟨g1, g2⟩ := hreads k k1 k2 x hx
              have hc := common_bits t t hb hb
              have h1 := common_representable t t (nn x (by omega)) hdiff (Or.inl ⟨hs, hs⟩)
              have h2 := common_representable t t (nn (x - d) (by omega)) hdiff (Or.inl ⟨hs, hs⟩)
              unfold IntTy.addTo IntTy.add
              rw [cast_of_representable _ hc _ h1.1, cast_of_representable _ hc _ h1.2,
                show (x : Int) + -(d : Int) = ((x - d : Nat) : Int) by omega, fit_ok _ hc h2.1, bind_ok,
                cast_nat t hb (by omega)])
            rw [hoff]

/-- With an unsigned index type a smaller capacity takes the branch for a larger one, which leaves the sizes alone. -/
theorem setCapacity_unsigned (t : IntTy) (hb : 1 ≤ t.bits) (hs : t.signed = false) (c : Cfg) {a a' : AoA T}
    {A B : Layout T} {xs : List T} {cap : Nat} (h : AGood a (A ++ (xs, cap) :: B)) (n : Nat) (hn : n < cap)
    (hold : (total (A ++ (xs, cap) :: B) : Int) ≤ t.max) (hok : a.setCapacityOfArrayM t c A.length n = .ok a') :
    a'.shape.sizes = a.shape.sizes ∧ a'.shape.numArrays = a.shape.numArrays := by
  unfold AoA.setCapacityOfArrayM at hok
  have hcapr := capacityM_of t hb c h.shape hold
  have hcap : (cap : Int) ≤ t.max := by
    simp only [total_append, total_cons] at hold
    omega
  have h32 : (1 : Nat) ≤ int.bits := by decide
  have hp := two_pow_pos t.bits
  have hmax : t.max = 2 ^ t.bits - 1 := by
    unfold IntTy.max
    rw [hs]; simp
  obtain ⟨_, _, hok⟩ := bind_eq_ok.mp hok
  rw [hcapr, bind_ok] at hok
  obtain ⟨inc, hinc, hok⟩ := bind_eq_ok.mp hok
  have hrange : 0 < inc ∧ Representable t inc := by
    unfold IntTy.subTo at hinc
    obtain ⟨d, hd, he⟩ := bind_eq_ok.mp hinc
    cases he
    have hc := common_bits t t hb hb
    have hr := common_representable t t (rep_of_nonneg t (x := n) (by omega) (by omega))
      (rep_of_nonneg t (x := cap) (by omega) hcap) (Or.inr ⟨by omega, by omega⟩)
    unfold IntTy.sub at hd
    rw [cast_of_representable _ hc _ hr.1, cast_of_representable _ hc _ hr.2] at hd
    have hmod : d % 2 ^ t.bits = ((n : Int) - cap) % 2 ^ t.bits := by
      unfold IntTy.fit at hd
      split at hd
      · split at hd
        · cases hd; rfl
        · cases hd
      · rename_i hns
        cases hd
        unfold IntTy.cast
        have hcs : (common t t).signed = false := by simpa using hns
        have hcb : (common t t).bits = t.bits := by
          unfold IntTy.common IntTy.promote at hcs ⊢
          dsimp only at hcs ⊢
          rw [if_pos rfl] at hcs ⊢
          rw [if_neg (Nat.lt_irrefl _)] at hcs ⊢
          split
          · rename_i h31
            rw [if_pos h31] at hcs
            cases hcs
          · rfl
        simp only [hcs, Bool.false_eq_true, false_and, if_false, hcb]
        exact Int.emod_emod_of_dvd _ (Int.dvd_refl _)
    have hval : ((n : Int) - cap) % 2 ^ t.bits = (n : Int) - cap + 2 ^ t.bits := by
      rw [← Int.add_emod_right]
      exact Int.emod_eq_of_lt (by omega) (by omega)
    have hcast : t.cast d = (n : Int) - cap + 2 ^ t.bits := by
      unfold IntTy.cast
      simp only [hs, Bool.false_eq_true, false_and, if_false]
      rw [hmod, hval]
    rw [hcast]
    exact ⟨by omega, rep_of_nonneg t (by omega) (by omega)⟩
  rw [if_neg (by omega), lt_exact int t h32 hb int_zero hrange.2 (Or.inr ⟨by omega, by omega⟩),
    if_pos (by simpa using hrange.1)] at hok
  obtain ⟨_, _, hok⟩ := bind_eq_ok.mp hok
  obtain ⟨_, _, hok⟩ := bind_eq_ok.mp hok
  obtain ⟨_, _, hok⟩ := bind_eq_ok.mp hok
  obtain ⟨_, _, hok⟩ := bind_eq_ok.mp hok
  obtain ⟨_, _, hok⟩ := bind_eq_ok.mp hok
  obtain ⟨s', hs', hok⟩ := bind_eq_ok.mp hok
  cases hok
  unfold AoA.addToOffsets at hs'
  obtain ⟨o, _, hs'⟩ := bind_eq_ok.mp hs'
  cases hs'
  exact ⟨rfl, rfl⟩

end LvArray
