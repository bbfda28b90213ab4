import Verif.Sort
import Mathlib.Data.List.Perm.Basic
import Mathlib.Data.List.Nodup

/-!
# Sorting: lemmas

Everything is proved for an abstract iterator: `Rep s f` says that slot `k` holds the value `v` when `f k = some v` and a
moved-from object when `f k = none`.
-/

set_option linter.unusedSectionVars false

namespace LvArray.sortedArrayManipulation

variable {σ α K : Type}

/-- The operations of an iterator do what they should on a range of `n` slots. -/
structure Sound (it : RandomAccess σ α K) (n : Nat) (Rep : σ → (Nat → Option α) → Prop) : Prop where
  key : ∀ s f i v, Rep s f → i < n → f i = some v → it.key s i = .ok (it.keyOf v)
  take : ∀ s f i v, Rep s f → i < n → f i = some v → ∃ s', it.take s i = .ok (v, s') ∧ Rep s' (upd f i none)
  moveAssign : ∀ s f dst src v, Rep s f → dst < n → src < n → dst ≠ src → f src = some v →
    ∃ s', it.moveAssign s dst src = .ok s' ∧ Rep s' (upd (upd f src none) dst (some v))
  put : ∀ s f i v, Rep s f → i < n → ∃ s', it.put s i v = .ok s' ∧ Rep s' (upd f i (some v))

/-- All slots hold values. -/
def full (x : Nat → α) : Nat → Option α := fun k => some (x k)

/-- `y` is a rearrangement of `x` on `[0, n)`. -/
def Rearr (n : Nat) (x y : Nat → α) : Prop := ((List.range n).map y).Perm ((List.range n).map x)

theorem Rearr.refl (n : Nat) (x : Nat → α) : Rearr n x x := List.Perm.refl _

theorem Rearr.trans {n : Nat} {x y z : Nat → α} (h1 : Rearr n x y) (h2 : Rearr n y z) : Rearr n x z :=
  List.Perm.trans h2 h1

theorem rearr_comp {n : Nat} (x : Nat → α) (g h : Nat → Nat) (hg : ∀ i, i < n → g i < n ∧ h (g i) = i)
    (hh : ∀ i, i < n → h i < n ∧ g (h i) = i) : Rearr n x (fun k => x (g k)) := by
  have hp : ((List.range n).map g).Perm (List.range n) := by
    rw [List.perm_ext_iff_of_nodup _ List.nodup_range]
    · intro a
      rw [List.mem_map, List.mem_range]
      constructor
      · rintro ⟨i, hi, rfl⟩
        exact (hg i (List.mem_range.mp hi)).1
      · intro ha
        exact ⟨h a, List.mem_range.mpr (hh a ha).1, (hh a ha).2⟩
    · refine List.Nodup.map_on ?_ List.nodup_range
      intro a ha b hb hab
      rw [← (hg a (List.mem_range.mp ha)).2, ← (hg b (List.mem_range.mp hb)).2, hab]
  have := hp.map x
  rw [List.map_map] at this
  exact this

def swapAt (a b k : Nat) : Nat := if k = a then b else if k = b then a else k

theorem rearr_swap {n a b : Nat} (x : Nat → α) (ha : a < n) (hb : b < n) : Rearr n x (fun k => x (swapAt a b k)) :=
  rearr_comp x (swapAt a b) (swapAt a b) (fun i hi => by unfold swapAt; grind) (fun i hi => by unfold swapAt; grind)

/-- Position `i` goes to position `j ≤ i`, the positions between move up by one. -/
def cycleAt (j i k : Nat) : Nat := if k < j then k else if k = j then i else if k ≤ i then k - 1 else k

theorem rearr_cycle {n j i : Nat} (x : Nat → α) (hj : j ≤ i) (hi : i < n) : Rearr n x (fun k => x (cycleAt j i k)) := by
  refine rearr_comp x (cycleAt j i) (fun k => if k < j then k else if k = i then j else if k < i then k + 1 else k) ?_ ?_
  · intro k hk; unfold cycleAt; grind
  · intro k hk; unfold cycleAt; grind

section
variable {it : RandomAccess σ α K} {n : Nat} {Rep : σ → (Nat → Option α) → Prop} (S : Sound it n Rep)
variable {comp : K → K → Bool}
include S

theorem compareAt_ok {s : σ} {x : Nat → α} (h : Rep s (full x)) {a b : Nat} (ha : a < n) (hb : b < n) :
    compareAt it comp s a b = .ok (comp (it.keyOf (x a)) (it.keyOf (x b))) := by
  unfold compareAt
  rw [S.key s _ a (x a) h ha rfl, bind_ok, S.key s _ b (x b) h hb rfl, bind_ok]

theorem exchange_ok {s : σ} {x : Nat → α} (h : Rep s (full x)) {a b : Nat} (ha : a < n) (hb : b < n) (hab : a ≠ b) :
    ∃ s', exchange it s a b = .ok s' ∧ Rep s' (full (fun k => x (swapAt a b k))) := by
  unfold exchange
  obtain ⟨s1, e1, r1⟩ := S.take s _ a (x a) h ha rfl
  rw [e1, bind_ok]
  dsimp only
  obtain ⟨s2, e2, r2⟩ := S.moveAssign s1 _ a b (x b) r1 ha hb hab (by simp [upd, full, Ne.symm hab])
  rw [e2, bind_ok]
  obtain ⟨s3, e3, r3⟩ := S.put s2 _ b (x a) r2 hb
  refine ⟨s3, e3, ?_⟩
  have : full (fun k => x (swapAt a b k)) = upd (upd (upd (upd (full x) a none) b none) a (some (x b))) b (some (x a)) := by
    funext k
    unfold full swapAt
    grind [upd]
  rw [this]
  exact r3

/-- `comp` never holds both ways. -/
def Asymm (comp : K → K → Bool) : Prop := ∀ a b, comp a b = true → comp b a = false

theorem computeMedian_ok (hasym : Asymm comp) {s : σ} {x : Nat → α} (h : Rep s (full x)) {r a b c : Nat} (hr : r < n)
    (ha : a < n) (hb : b < n) (hc : c < n) (h1 : r ≠ a) (h2 : r ≠ b) (h3 : r ≠ c) (h4 : a ≠ b) (h5 : a ≠ c) (h6 : b ≠ c) :
    ∃ s' m, computeMedian it comp s r a b c = .ok s' ∧ m < n ∧ Rep s' (full (fun k => x (swapAt r m k))) ∧
      (∃ p, (p = a ∨ p = b ∨ p = c) ∧ comp (it.keyOf (x (swapAt r m p))) (it.keyOf (x (swapAt r m r))) = false) ∧
      (∃ q, (q = a ∨ q = b ∨ q = c) ∧ (q = a → comp (it.keyOf (x (swapAt r m a))) (it.keyOf (x (swapAt r m r))) = true) ∧
        comp (it.keyOf (x (swapAt r m r))) (it.keyOf (x (swapAt r m q))) = false) := by
  have key : ∀ m p q, (m = a ∨ m = b ∨ m = c) → (p = a ∨ p = b ∨ p = c) → (q = a ∨ q = b ∨ q = c) → p ≠ m → q ≠ m →
      (q = a → comp (it.keyOf (x a)) (it.keyOf (x m)) = true) →
      comp (it.keyOf (x p)) (it.keyOf (x m)) = false → comp (it.keyOf (x m)) (it.keyOf (x q)) = false →
      ∃ s' m', exchange it s r m = .ok s' ∧ m' < n ∧ Rep s' (full (fun k => x (swapAt r m' k))) ∧
      (∃ p, (p = a ∨ p = b ∨ p = c) ∧ comp (it.keyOf (x (swapAt r m' p))) (it.keyOf (x (swapAt r m' r))) = false) ∧
      (∃ q, (q = a ∨ q = b ∨ q = c) ∧ (q = a → comp (it.keyOf (x (swapAt r m' a))) (it.keyOf (x (swapAt r m' r))) = true) ∧
        comp (it.keyOf (x (swapAt r m' r))) (it.keyOf (x (swapAt r m' q))) = false) := by
    intro m p q hm hp hq hpm hqm hqa c1 c2
    have hmn : m < n := by rcases hm with rfl | rfl | rfl <;> assumption
    have hrm : r ≠ m := by rcases hm with rfl | rfl | rfl <;> assumption
    have hrp : p ≠ r := by rcases hp with rfl | rfl | rfl <;> exact Ne.symm (by assumption)
    have hrq : q ≠ r := by rcases hq with rfl | rfl | rfl <;> exact Ne.symm (by assumption)
    obtain ⟨s', e, rr⟩ := exchange_ok S h hr hmn hrm
    refine ⟨s', m, e, hmn, rr, ⟨p, hp, ?_⟩, ⟨q, hq, ?_, ?_⟩⟩
    · simpa [swapAt, hpm, hrp] using c1
    · rintro rfl
      simpa [swapAt, hqm, hrq] using hqa rfl
    · simpa [swapAt, hqm, hrq] using c2
  unfold computeMedian
  rw [compareAt_ok S h ha hb, bind_ok, compareAt_ok S h hb hc, compareAt_ok S h ha hc]
  cases hab : comp (it.keyOf (x a)) (it.keyOf (x b)) <;> cases hbc : comp (it.keyOf (x b)) (it.keyOf (x c)) <;>
    cases hac : comp (it.keyOf (x a)) (it.keyOf (x c)) <;>
    simp only [bind_ok, if_true, Bool.false_eq_true, if_false]
  · exact key b a c (by simp) (by simp) (by simp) h4 (Ne.symm h6) (fun e => absurd e (Ne.symm h5)) hab hbc
  · exact key a c b (by simp) (by simp) (by simp) (Ne.symm h5) (Ne.symm h4) (fun e => absurd e (Ne.symm h4)) (hasym _ _ hac) hab
  · exact key c a b (by simp) (by simp) (by simp) h5 h6 (fun e => absurd e (Ne.symm h4)) hac (hasym _ _ hbc)
  · exact key a c b (by simp) (by simp) (by simp) (Ne.symm h5) (Ne.symm h4) (fun e => absurd e (Ne.symm h4)) (hasym _ _ hac) hab
  · exact key a b c (by simp) (by simp) (by simp) (Ne.symm h4) (Ne.symm h5) (fun e => absurd e (Ne.symm h5)) (hasym _ _ hab) hac
  · exact key c b a (by simp) (by simp) (by simp) h6 h5 (fun _ => hac) hbc (hasym _ _ hac)
  · exact key b c a (by simp) (by simp) (by simp) (Ne.symm h6) h4 (fun _ => hab) (hasym _ _ hbc) (hasym _ _ hab)
  · exact key b c a (by simp) (by simp) (by simp) (Ne.symm h6) h4 (fun _ => hab) (hasym _ _ hbc) (hasym _ _ hab)

theorem scanUp_ok {s : σ} {x : Nat → α} (h : Rep s (full x)) {pivot p : Nat} (hp : p < n) (hpiv : pivot < n)
    (hstop : comp (it.keyOf (x p)) (it.keyOf (x pivot)) = false) :
    ∀ fuel first, first ≤ p → p < first + fuel →
    ∃ r, scanUp it comp s pivot fuel first = .ok r ∧ first ≤ r ∧ r ≤ p ∧
      comp (it.keyOf (x r)) (it.keyOf (x pivot)) = false := by
  intro fuel
  induction fuel with
  | zero => intro first h1 h2; omega
  | succ fuel ih =>
    intro first h1 h2
    unfold scanUp
    rw [compareAt_ok S h (by omega) hpiv, bind_ok]
    cases hc : comp (it.keyOf (x first)) (it.keyOf (x pivot)) with
    | false => exact ⟨first, rfl, Nat.le_refl _, h1, hc⟩
    | true =>
      have hne : first ≠ p := by rintro rfl; rw [hstop] at hc; exact absurd hc (by decide)
      obtain ⟨r, e, a1, a2, a3⟩ := ih (first + 1) (by omega) (by omega)
      exact ⟨r, e, by omega, a2, a3⟩

theorem scanDown_ok {s : σ} {x : Nat → α} (h : Rep s (full x)) {pivot q : Nat} (hpiv : pivot < n)
    (hstop : comp (it.keyOf (x pivot)) (it.keyOf (x q)) = false) :
    ∀ last, q < last → last ≤ n → ∃ r, scanDown it comp s pivot last = .ok r ∧ q ≤ r ∧ r < last ∧
      comp (it.keyOf (x pivot)) (it.keyOf (x r)) = false := by
  intro last
  induction last with
  | zero => intro h1; omega
  | succ last ih =>
    intro h1 h2
    unfold scanDown
    rw [compareAt_ok S h hpiv (by omega), bind_ok]
    cases hc : comp (it.keyOf (x pivot)) (it.keyOf (x last)) with
    | false => exact ⟨last, rfl, by omega, by omega, hc⟩
    | true =>
      have hne : q ≠ last := by rintro rfl; rw [hstop] at hc; exact absurd hc (by decide)
      obtain ⟨r, e, a1, a2, a3⟩ := ih (by omega) (by omega)
      exact ⟨r, e, a1, by omega, a3⟩

theorem unguardedPartition_ok {pivot lo hi : Nat} (hhi : hi ≤ n) :
    ∀ fuel (s : σ) (x : Nat → α) first last, Rep s (full x) → pivot < first → first < hi → last ≤ hi → lo ≤ first + 1 →
      last - first < fuel →
      (∃ p, first ≤ p ∧ p < hi ∧ comp (it.keyOf (x p)) (it.keyOf (x pivot)) = false) →
      (∃ q, q < last ∧ (lo ≤ first ∨ first < q ∨ comp (it.keyOf (x first)) (it.keyOf (x pivot)) = true) ∧
        comp (it.keyOf (x pivot)) (it.keyOf (x q)) = false) →
      ∃ cut s' y, unguardedPartition it comp n pivot fuel s first last = .ok (cut, s') ∧ Rep s' (full y) ∧
        Rearr n x y ∧ lo ≤ cut ∧ cut < hi := by
  intro fuel
  induction fuel with
  | zero => intro s x first last _ _ _ _ _ hf; omega
  | succ fuel ih =>
    intro s x first last h h1 h2 h3 h4 hf ⟨p, p1, p2, p3⟩ ⟨q, q1, q0, q2⟩
    obtain ⟨f', ef, f1, f2, f3⟩ := scanUp_ok S h (by omega : p < n) (by omega : pivot < n) p3 (n - first) first p1 (by omega)
    obtain ⟨l', el, l1, l2, l3⟩ := scanDown_ok S h (by omega : pivot < n) q2 last q1 (by omega)
    have hlo : lo ≤ f' ∨ f' < l' := by
      rcases q0 with h | h | h
      · left; omega
      · by_cases he : f' = first
        · right; omega
        · left; omega
      · have : f' ≠ first := by rintro rfl; rw [f3] at h; exact absurd h (by decide)
        left; omega
    unfold unguardedPartition
    rw [ef, bind_ok, el, bind_ok]
    by_cases hlt : f' < l'
    · rw [if_neg (by simpa using hlt)]
      obtain ⟨s', e, r⟩ := exchange_ok S h (by omega : f' < n) (by omega : l' < n) (by omega)
      rw [e, bind_ok]
      have hpv : swapAt f' l' pivot = pivot := by unfold swapAt; grind
      have hl : swapAt f' l' l' = f' := by unfold swapAt; grind
      have hf' : swapAt f' l' f' = l' := by unfold swapAt; grind
      obtain ⟨cut, s2, y, e2, r2, p2', b1, b2⟩ := ih s' _ (f' + 1) l' r (by omega) (by omega) (by omega) (by omega) (by omega)
        ⟨l', by omega, by omega, by rw [hl, hpv]; exact f3⟩ ⟨f', hlt, Or.inl (by omega), by rw [hf', hpv]; exact l3⟩
      exact ⟨cut, s2, y, e2, r2, (rearr_swap x (by omega) (by omega)).trans p2', b1, b2⟩
    · rw [if_pos hlt]
      exact ⟨f', s, x, rfl, h, Rearr.refl _ _, by omega, by omega⟩

theorem partitionPivot_ok (hasym : Asymm comp) {s : σ} {x : Nat → α} (h : Rep s (full x)) {first last : Nat}
    (hlast : last ≤ n) (hlen : first + 4 ≤ last) :
    ∃ cut s' y, unguardedPartitionPivot it comp n s first last = .ok (cut, s') ∧ Rep s' (full y) ∧ Rearr n x y ∧
      first + 2 ≤ cut ∧ cut < last := by
  unfold unguardedPartitionPivot
  dsimp only
  obtain ⟨s1, m, e1, hm, r1, ⟨p, hp, p1⟩, ⟨q, hq, qa, q1⟩⟩ := computeMedian_ok S hasym h (r := first) (a := first + 1)
    (b := first + (last - first) / 2) (c := last - 1) (by omega) (by omega) (by omega) (by omega) (by omega) (by omega)
    (by omega) (by omega) (by omega) (by omega)
  rw [e1, bind_ok]
  obtain ⟨cut, s2, y, e2, r2, p2, b1, b2⟩ := unguardedPartition_ok S (comp := comp) (pivot := first) (lo := first + 2) hlast
    (n + 1) s1 _ (first + 1) last r1 (by omega) (by omega) (Nat.le_refl _) (Nat.le_refl _) (by omega)
    ⟨p, by omega, by omega, p1⟩ ⟨q, by omega, by
      by_cases e : q = first + 1
      · exact Or.inr (Or.inr (qa e))
      · exact Or.inr (Or.inl (by omega)), q1⟩
  exact ⟨cut, s2, y, e2, r2, (rearr_swap x (by omega) hm).trans p2, by omega, by omega⟩

theorem introsortRounds_ok (c : Cfg) (hasym : Asymm comp) :
    ∀ fuel (s : σ) (x : Nat → α) (ranges : Nat → Nat) (nRanges : Nat), Rep s (full x) →
      (∀ i, i < nRanges → ranges i < ranges (i + 1)) → (∀ i, i + 1 < nRanges → ranges i + 2 ≤ ranges (i + 1)) →
      ranges nRanges ≤ n → nRanges ≤ maxRanges →
      2 * (ranges nRanges - ranges 0) + 1 ≤ fuel + nRanges → ranges 0 = 0 →
      (∃ s' y, introsortRounds it comp c n fuel s ranges nRanges = .ok s' ∧ Rep s' (full y) ∧ Rearr n x y) ∨
      (2 * (maxRanges - 1) + introsortThreshold < n ∧
        introsortRounds it comp c n fuel s ranges nRanges = .error (if c.debug then .abort else .ub .overrun)) := by
  intro fuel
  induction fuel with
  | zero =>
    intro s x ranges nRanges h hinc htwo hle hmax hfuel h0
    have hgrow : ∀ i, i ≤ nRanges → i ≤ ranges i := by
      intro i
      induction i with
      | zero => intro _; omega
      | succ i ih => intro hi; have := hinc i (by omega); have := ih (by omega); omega
    have := hgrow nRanges (Nat.le_refl _)
    omega
  | succ fuel ih =>
    intro s x ranges nRanges h hinc htwo hle hmax hfuel h0
    have hgrow : ∀ i, i ≤ nRanges → i ≤ ranges i := by
      intro i
      induction i with
      | zero => intro _; omega
      | succ i ih => intro hi; have := hinc i (by omega); have := ih (by omega); omega
    have hgrow2 : ∀ i, i < nRanges → 2 * i ≤ ranges i := by
      intro i
      induction i with
      | zero => intro _; omega
      | succ i ih => intro hi; have := htwo i (by omega); have := ih (by omega); omega
    unfold introsortRounds
    by_cases hz : nRanges = 0
    · rw [if_pos hz]
      exact Or.inl ⟨s, x, rfl, h, Rearr.refl _ _⟩
    · rw [if_neg hz]
      have hlast := hinc (nRanges - 1) (by omega)
      rw [show nRanges - 1 + 1 = nRanges by omega] at hlast
      by_cases hbig : ranges nRanges - ranges (nRanges - 1) > introsortThreshold
      · rw [if_pos hbig]
        unfold introsortThreshold at hbig
        by_cases hroom : nRanges < maxRanges
        · have hpush : pushRange c nRanges = .ok () := by
            unfold pushRange
            rw [if_neg (by simp [hroom]), if_pos (by omega)]
          rw [hpush, bind_ok]
          obtain ⟨cut, s', y, e, r, pm, b1, b2⟩ := partitionPivot_ok S hasym h hle (by omega :
            ranges (nRanges - 1) + 4 ≤ ranges nRanges)
          rw [e, bind_ok]
          dsimp only
          have hr0 : (upd (upd ranges (nRanges + 1) (ranges nRanges)) nRanges cut) 0 = ranges 0 := by
            grind [upd]
          have hrn : (upd (upd ranges (nRanges + 1) (ranges nRanges)) nRanges cut) (nRanges + 1) = ranges nRanges := by
            grind [upd]
          have hinc' : ∀ i, i < nRanges + 1 → (upd (upd ranges (nRanges + 1) (ranges nRanges)) nRanges cut) i <
              (upd (upd ranges (nRanges + 1) (ranges nRanges)) nRanges cut) (i + 1) := by
            intro i hi
            by_cases hi1 : i = nRanges
            · grind [upd]
            · by_cases hi2 : i + 1 = nRanges
              · have : i = nRanges - 1 := by omega
                grind [upd]
              · have := hinc i (by omega)
                grind [upd]
          have htwo' : ∀ i, i + 1 < nRanges + 1 → (upd (upd ranges (nRanges + 1) (ranges nRanges)) nRanges cut) i + 2 ≤
              (upd (upd ranges (nRanges + 1) (ranges nRanges)) nRanges cut) (i + 1) := by
            intro i hi
            by_cases hi2 : i + 1 = nRanges
            · have : i = nRanges - 1 := by omega
              grind [upd]
            · have := htwo i (by omega)
              grind [upd]
          rcases ih s' y (upd (upd ranges (nRanges + 1) (ranges nRanges)) nRanges cut) (nRanges + 1) r hinc' htwo' (by rw [hrn]; exact hle) (by omega) (by rw [hrn, hr0]; omega)
            (by rw [hr0]; exact h0) with ⟨s2, z, e2, r2, p2⟩ | ⟨hn, e2⟩
          · exact Or.inl ⟨s2, z, e2, r2, pm.trans p2⟩
          · exact Or.inr ⟨hn, e2⟩
        · right
          have hpush : pushRange c nRanges = .error (if c.debug then .abort else .ub .overrun) := by
            unfold pushRange
            cases hd : c.debug with
            | true => simp [hroom]
            | false => simp [hroom]
          have := hgrow2 (nRanges - 1) (by omega)
          refine ⟨?_, by rw [hpush]; rfl⟩
          unfold introsortThreshold
          omega
      · rw [if_neg hbig]
        exact ih s x ranges (nRanges - 1) h (fun i hi => hinc i (by omega)) (fun i hi => htwo i (by omega)) (by omega) (by omega)
          (by omega) h0

theorem introsortLoop_ok (c : Cfg) (hasym : Asymm comp) (hn : 0 < n) {s : σ} {x : Nat → α} (h : Rep s (full x)) :
    (∃ s' y, introsortLoop it comp c n s = .ok s' ∧ Rep s' (full y) ∧ Rearr n x y) ∨
      (2 * (maxRanges - 1) + introsortThreshold < n ∧
        introsortLoop it comp c n s = .error (if c.debug then .abort else .ub .overrun)) := by
  unfold introsortLoop
  refine introsortRounds_ok S c hasym (2 * n + 1) s x _ 1 h ?_ (fun i hi => absurd hi (by omega)) (by simp) (by unfold maxRanges; omega) (by simp) rfl
  intro i hi
  have : i = 0 := by omega
  subst this
  simpa using hn

theorem moveBackward_ok : ∀ (m : Nat) (s : σ) (f : Nat → Option α) (x : Nat → α), Rep s f → m < n →
    (∀ k, k < m → f k = some (x k)) →
    ∃ s', moveBackward it m 0 1 s = .ok s' ∧
      Rep s' (fun k => if k = 0 then (if m = 0 then f 0 else none) else if k ≤ m then some (x (k - 1)) else f k) := by
  intro m
  induction m with
  | zero =>
    intro s f x h _ _
    refine ⟨s, rfl, ?_⟩
    have : (fun k => if k = 0 then (if (0 : Nat) = 0 then f 0 else none) else if k ≤ 0 then some (x (k - 1)) else f k) = f := by
      funext k; grind
    rw [this]; exact h
  | succ m ih =>
    intro s f x h hm hf
    unfold moveBackward
    obtain ⟨s1, e1, r1⟩ := S.moveAssign s f (1 + m) (0 + m) (x m) h (by omega) (by omega) (by omega)
      (by rw [Nat.zero_add]; exact hf m (by omega))
    rw [e1, bind_ok]
    obtain ⟨s2, e2, r2⟩ := ih s1 _ x r1 (by omega) (fun k hk => by rw [upd_ne _ _ (by omega), upd_ne _ _ (by omega)]; exact hf k (by omega))
    refine ⟨s2, e2, ?_⟩
    refine cast (congrArg _ ?_) r2
    funext k
    simp only [Nat.zero_add]
    grind [upd]

theorem linearInsertLoop_ok (v : α) (i : Nat) (hi : i < n) (x : Nat → α)
    (h0 : comp (it.keyOf v) (it.keyOf (x 0)) = false) :
    ∀ (m : Nat) (s : σ), 0 < m → m ≤ i →
      Rep s (fun k => if k = m then none else if m < k ∧ k ≤ i then some (x (k - 1)) else some (x k)) →
      (∀ k, m ≤ k → k < i → comp (it.keyOf v) (it.keyOf (x k)) = true) →
      ∃ s' j, linearInsertLoop it comp v m s = .ok s' ∧ 0 < j ∧ j ≤ i ∧
        Rep s' (fun k => if k = j then some v else if j < k ∧ k ≤ i then some (x (k - 1)) else some (x k)) ∧
        (∀ k, j ≤ k → k < i → comp (it.keyOf v) (it.keyOf (x k)) = true) ∧
        comp (it.keyOf v) (it.keyOf (x (j - 1))) = false := by
  intro m
  induction m with
  | zero => intro s h; omega
  | succ m ih =>
    intro s _ hmi h hgt
    unfold linearInsertLoop
    rw [S.key s _ m (x m) h (by omega) (by grind), bind_ok]
    cases hc : comp (it.keyOf v) (it.keyOf (x m)) with
    | true =>
      rw [if_pos rfl]
      have hm0 : 0 < m := by
        rcases Nat.eq_zero_or_pos m with rfl | hp
        · rw [h0] at hc; exact absurd hc (by decide)
        · exact hp
      obtain ⟨s1, e1, r1⟩ := S.moveAssign s _ (m + 1) m (x m) h (by omega) (by omega) (by omega) (by grind)
      rw [e1, bind_ok]
      have hr : Rep s1 (fun k => if k = m then none else if m < k ∧ k ≤ i then some (x (k - 1)) else some (x k)) := by
        refine cast (congrArg _ ?_) r1
        funext k
        grind [upd]
      refine ih s1 hm0 (by omega) hr ?_
      intro k h1 h2
      rcases Nat.lt_or_ge k (m + 1) with hk | hk
      · have : k = m := by omega
        subst this; exact hc
      · exact hgt k hk h2
    | false =>
      rw [if_neg (by decide)]
      obtain ⟨s1, e1, r1⟩ := S.put s _ (m + 1) v h (by omega)
      refine ⟨s1, m + 1, e1, by omega, hmi, ?_, hgt, by simpa using hc⟩
      refine cast (congrArg _ ?_) r1
      funext k
      grind [upd]

/-- Nothing in `[0, m)` is smaller than something before it. -/
def SortedTo (it : RandomAccess σ α K) (comp : K → K → Bool) (x : Nat → α) (m : Nat) : Prop :=
  ∀ p q, p < q → q < m → comp (it.keyOf (x q)) (it.keyOf (x p)) = false

theorem insertionStep_ok (hasym : Asymm comp) (hneg : ∀ a b c, comp a b = false → comp b c = false → comp a c = false)
    {s : σ} {x : Nat → α} (h : Rep s (full x)) {i : Nat} (hi : i < n) (hi0 : 0 < i) (hs : SortedTo it comp x i) :
    ∃ s' y, insertionStep it comp 0 i s = .ok s' ∧ Rep s' (full y) ∧ Rearr n x y ∧ SortedTo it comp y (i + 1) := by
  unfold insertionStep
  rw [compareAt_ok S h (by omega) (by omega), bind_ok, Nat.zero_add]
  cases hc : comp (it.keyOf (x i)) (it.keyOf (x 0)) with
  | true =>
    rw [if_pos rfl]
    obtain ⟨s1, e1, r1⟩ := S.take s _ i (x i) h hi rfl
    rw [e1, bind_ok]
    dsimp only
    obtain ⟨s2, e2, r2⟩ := moveBackward_ok S i s1 _ x r1 hi (fun k hk => by rw [upd_ne _ _ (by omega)]; rfl)
    rw [e2, bind_ok]
    obtain ⟨s3, e3, r3⟩ := S.put s2 _ 0 (x i) r2 (by omega)
    refine ⟨s3, fun k => x (cycleAt 0 i k), e3, ?_, rearr_cycle x (by omega) hi, ?_⟩
    · refine cast (congrArg _ ?_) r3
      funext k
      unfold full cycleAt
      grind [upd]
    · intro p q hpq hq
      dsimp only
      have hq1 : cycleAt 0 i q = q - 1 := by unfold cycleAt; grind
      rw [hq1]
      by_cases hp : p = 0
      · have : cycleAt 0 i p = i := by unfold cycleAt; grind
        rw [this]
        -- x i < x 0 ≤ x (q-1)
        have h1 : comp (it.keyOf (x 0)) (it.keyOf (x i)) = false := hasym _ _ hc
        rcases Nat.eq_zero_or_pos (q - 1) with hz | hz
        · rw [hz]; exact h1
        · exact hneg _ _ _ (hs 0 (q - 1) hz (by omega)) h1
      · have : cycleAt 0 i p = p - 1 := by unfold cycleAt; grind
        rw [this]
        exact hs (p - 1) (q - 1) (by omega) (by omega)
  | false =>
    rw [if_neg (by decide)]
    unfold unguardedLinearInsert
    obtain ⟨s1, e1, r1⟩ := S.take s _ i (x i) h hi rfl
    rw [e1, bind_ok]
    dsimp only
    obtain ⟨s2, j, e2, j0, ji, r2, g1, g2⟩ := linearInsertLoop_ok S (x i) i hi x hc i s1 hi0 (Nat.le_refl _)
      (by
        refine cast (congrArg _ ?_) r1
        funext k
        unfold full
        grind [upd])
      (fun k h1 h2 => by omega)
    refine ⟨s2, fun k => x (cycleAt j i k), e2, ?_, rearr_cycle x ji hi, ?_⟩
    · refine cast (congrArg _ ?_) r2
      funext k
      unfold full cycleAt
      grind
    · have hle : ∀ p, p < j → comp (it.keyOf (x i)) (it.keyOf (x p)) = false := by
        intro p hp
        rcases Nat.lt_or_ge p (j - 1) with h1 | h1
        · exact hneg _ _ _ g2 (hs p (j - 1) h1 (by omega))
        · have : p = j - 1 := by omega
          subst this; exact g2
      intro p q hpq hq
      dsimp only
      rcases Nat.lt_or_ge q j with h1 | h1
      · have a1 : cycleAt j i q = q := by unfold cycleAt; grind
        have a2 : cycleAt j i p = p := by unfold cycleAt; grind
        rw [a1, a2]
        exact hs p q hpq (by omega)
      · by_cases hqj : q = j
        · have a1 : cycleAt j i q = i := by unfold cycleAt; grind
          have a2 : cycleAt j i p = p := by unfold cycleAt; grind
          rw [a1, a2]
          exact hle p (by omega)
        · have a1 : cycleAt j i q = q - 1 := by unfold cycleAt; grind
          rw [a1]
          rcases Nat.lt_or_ge p j with h2 | h2
          · have a2 : cycleAt j i p = p := by unfold cycleAt; grind
            rw [a2]
            exact hs p (q - 1) (by omega) (by omega)
          · by_cases hpj : p = j
            · have a2 : cycleAt j i p = i := by unfold cycleAt; grind
              rw [a2]
              exact hasym _ _ (g1 (q - 1) (by omega) (by omega))
            · have a2 : cycleAt j i p = p - 1 := by unfold cycleAt; grind
              rw [a2]
              exact hs (p - 1) (q - 1) (by omega) (by omega)

theorem insertionSort_ok (hasym : Asymm comp) (hneg : ∀ a b c, comp a b = false → comp b c = false → comp a c = false)
    {s : σ} {x : Nat → α} (h : Rep s (full x)) :
    ∃ s' y, insertionSort it comp s 0 n = .ok s' ∧ Rep s' (full y) ∧ Rearr n x y ∧ SortedTo it comp y n := by
  unfold insertionSort
  obtain ⟨s', e, y, r, p, hs⟩ := forUp_inv (f := fun i s => insertionStep it comp 0 i s)
    (fun i s => ∃ y, Rep s (full y) ∧ Rearr n x y ∧ SortedTo it comp y i) (n - 1) 1 s
    ⟨x, h, Rearr.refl _ _, fun p q h1 h2 => by omega⟩
    (fun i s h1 h2 ⟨y, r, p, hs⟩ => by
      obtain ⟨s', z, e, r', p', hs'⟩ := insertionStep_ok S hasym hneg r (by omega : i < n) (by omega) hs
      exact ⟨s', e, z, r', p.trans p', hs'⟩)
  refine ⟨s', y, e, r, p, ?_⟩
  intro a b hab hb
  exact hs a b hab (by omega)

theorem introsort_ok (c : Cfg) (hasym : Asymm comp)
    (hneg : ∀ a b c, comp a b = false → comp b c = false → comp a c = false)
    {s : σ} {x : Nat → α} (h : Rep s (full x)) :
    (∃ s' y, introsort it comp c n s = .ok s' ∧ Rep s' (full y) ∧ Rearr n x y ∧ SortedTo it comp y n) ∨
    (2 * (maxRanges - 1) + introsortThreshold < n ∧ introsort it comp c n s = .error (if c.debug then .abort else .ub .overrun)) := by
  unfold introsort
  by_cases hn : n > introsortThreshold
  · rw [if_pos hn]
    rcases introsortLoop_ok S c hasym (by unfold introsortThreshold at hn; omega) h with ⟨s1, y, e, r, p⟩ | ⟨hb, e⟩
    · rw [e, bind_ok]
      obtain ⟨s2, z, e2, r2, p2, hs⟩ := insertionSort_ok S hasym hneg r
      exact Or.inl ⟨s2, z, e2, r2, p.trans p2, hs⟩
    · rw [e]
      exact Or.inr ⟨hb, rfl⟩
  · rw [if_neg hn]
    exact Or.inl (insertionSort_ok S hasym hneg h)

end

end LvArray.sortedArrayManipulation
