import Verif.SortLemmas
import Verif.SortedManip

/-!
# Inputs of any length on which the table of pending ranges overflows

Every partition of these keys cuts off two elements only.
-/

set_option linter.unusedSectionVars false

namespace LvArray.sortedArrayManipulation

variable {σ α : Type}

/-- The keys of the elements that are not yet cut off after `k` partitions of a range of `n` elements. -/
def killerKey (n k i : Nat) : Nat :=
  if n / 2 + k ≤ i ∧ i < n / 2 + 30 then 2 * (i - n / 2) else if i < 60 ∧ i % 2 = 1 then i else 60

section
variable {it : RandomAccess σ α Nat} {n : Nat} {Rep : σ → (Nat → Option α) → Prop} (S : Sound it n Rep)
include S

theorem scanDown_exact {s : σ} {x : Nat → α} (h : Rep s (full x)) {pivot r : Nat} (hpiv : pivot < n)
    (hstop : it.keyOf (x r) ≤ it.keyOf (x pivot)) :
    ∀ last, r < last → last ≤ n → (∀ j, r < j → j < last → it.keyOf (x pivot) < it.keyOf (x j)) →
      scanDown it less s pivot last = .ok r := by
  intro last
  induction last with
  | zero => intro h1; omega
  | succ last ih =>
    intro h1 h2 h3
    unfold scanDown
    rw [compareAt_ok S h hpiv (by omega), bind_ok]
    by_cases he : r = last
    · subst he
      rw [if_neg]
      unfold less
      rw [decide_eq_true_iff]
      omega
    · rw [if_pos]
      · exact ih (by omega) (by omega) (fun j a b => h3 j a (by omega))
      · unfold less
        rw [decide_eq_true_iff]
        exact h3 last (by omega) (by omega)

theorem scanUp_stops {s : σ} {x : Nat → α} (h : Rep s (full x)) {pivot r : Nat} (hpiv : pivot < n) (hr : r < n)
    (hstop : it.keyOf (x pivot) ≤ it.keyOf (x r)) : scanUp it less s pivot (n - r) r = .ok r := by
  obtain ⟨m, hm⟩ : ∃ m, n - r = m + 1 := ⟨n - r - 1, by omega⟩
  rw [hm]
  unfold scanUp
  rw [compareAt_ok S h hr hpiv, bind_ok, if_neg]
  unfold less
  rw [decide_eq_true_iff]
  omega

theorem killer_partition (hn : 125 ≤ n) {k : Nat} (hk : k < 30) {s : σ} {x : Nat → α} (h : Rep s (full x))
    (hx : ∀ i, 2 * k ≤ i → i < n → it.keyOf (x i) = killerKey n k i) :
    ∃ s' y, unguardedPartitionPivot it less n s (2 * k) n = .ok (2 * k + 2, s') ∧ Rep s' (full y) ∧
      ∀ i, 2 * k + 2 ≤ i → i < n → it.keyOf (y i) = killerKey n (k + 1) i := by
  have hmid : 2 * k + (n - 2 * k) / 2 = n / 2 + k := by omega
  have ka : it.keyOf (x (2 * k + 1)) = 2 * k + 1 := by rw [hx _ (by omega) (by omega)]; unfold killerKey; grind
  have kb : it.keyOf (x (n / 2 + k)) = 2 * k := by rw [hx _ (by omega) (by omega)]; unfold killerKey; grind
  have kc : it.keyOf (x (n - 1)) = 60 := by rw [hx _ (by omega) (by omega)]; unfold killerKey; grind
  have kf : it.keyOf (x (2 * k)) = 60 := by rw [hx _ (by omega) (by omega)]; unfold killerKey; grind
  unfold unguardedPartitionPivot
  dsimp only
  rw [hmid]
  unfold computeMedian
  rw [compareAt_ok S h (by omega) (by omega), bind_ok, ka, kb, if_neg (by unfold less; rw [decide_eq_true_iff]; omega),
    compareAt_ok S h (by omega) (by omega), bind_ok, ka, kc, if_pos (by unfold less; rw [decide_eq_true_iff]; omega)]
  obtain ⟨s1, e1, r1⟩ := exchange_ok S h (a := 2 * k) (b := 2 * k + 1) (by omega) (by omega) (by omega)
  rw [e1, bind_ok]
  have v0 : it.keyOf (x (swapAt (2 * k) (2 * k + 1) (2 * k))) = 2 * k + 1 := by
    rw [show swapAt (2 * k) (2 * k + 1) (2 * k) = 2 * k + 1 by unfold swapAt; grind, ka]
  have v1 : it.keyOf (x (swapAt (2 * k) (2 * k + 1) (2 * k + 1))) = 60 := by
    rw [show swapAt (2 * k) (2 * k + 1) (2 * k + 1) = 2 * k by unfold swapAt; grind, kf]
  have vj : ∀ j, 2 * k + 2 ≤ j → swapAt (2 * k) (2 * k + 1) j = j := fun j hj => by unfold swapAt; grind
  obtain ⟨m, rfl⟩ : ∃ m, n = m + 1 := ⟨n - 1, by omega⟩
  unfold unguardedPartition
  rw [scanUp_stops S r1 (by omega) (by omega) (by rw [v0, v1]; omega), bind_ok,
    scanDown_exact S r1 (r := (m + 1) / 2 + k) (by omega) (by rw [v0, vj _ (by omega), kb]; omega) (m + 1) (by omega) (by omega)
      (by
        intro j h1 h2
        rw [v0, vj j (by omega), hx j (by omega) h2]
        unfold killerKey
        grind), bind_ok, if_neg (by omega)]
  obtain ⟨s2, e2, r2⟩ := exchange_ok S r1 (a := 2 * k + 1) (b := (m + 1) / 2 + k) (by omega) (by omega) (by omega)
  rw [e2, bind_ok]
  have w0 : it.keyOf (x (swapAt (2 * k) (2 * k + 1) (swapAt (2 * k + 1) ((m + 1) / 2 + k) (2 * k)))) = 2 * k + 1 := by
    rw [show swapAt (2 * k + 1) ((m + 1) / 2 + k) (2 * k) = 2 * k by unfold swapAt; grind, v0]
  have w1 : it.keyOf (x (swapAt (2 * k) (2 * k + 1) (swapAt (2 * k + 1) ((m + 1) / 2 + k) (2 * k + 1)))) = 2 * k := by
    rw [show swapAt (2 * k + 1) ((m + 1) / 2 + k) (2 * k + 1) = (m + 1) / 2 + k by unfold swapAt; grind, vj _ (by omega), kb]
  have wm : it.keyOf (x (swapAt (2 * k) (2 * k + 1) (swapAt (2 * k + 1) ((m + 1) / 2 + k) ((m + 1) / 2 + k)))) = 60 := by
    rw [show swapAt (2 * k + 1) ((m + 1) / 2 + k) ((m + 1) / 2 + k) = 2 * k + 1 by unfold swapAt; grind, v1]
  have wj : ∀ j, 2 * k + 2 ≤ j → j ≠ (m + 1) / 2 + k →
      swapAt (2 * k) (2 * k + 1) (swapAt (2 * k + 1) ((m + 1) / 2 + k) j) = j := by
    intro j hj hne
    rw [show swapAt (2 * k + 1) ((m + 1) / 2 + k) j = j by unfold swapAt; grind, vj j hj]
  unfold unguardedPartition
  rw [scanUp_stops S r2 (by omega) (by omega) (by
      rw [w0, wj _ (by omega) (by omega), hx _ (by omega) (by omega)]
      unfold killerKey
      grind), bind_ok,
    scanDown_exact S r2 (r := 2 * k + 1) (by omega) (by rw [w0, w1]; omega) ((m + 1) / 2 + k) (by omega) (by omega)
      (by
        intro j h1 h2
        rw [w0, wj j (by omega) (by omega), hx j (by omega) (by omega)]
        unfold killerKey
        grind), bind_ok, if_pos (by omega)]
  refine ⟨s2, _, rfl, r2, ?_⟩
  intro i h1 h2
  by_cases he : i = (m + 1) / 2 + k
  · rw [he, wm]
    unfold killerKey
    grind
  · rw [wj i h1 he, hx i (by omega) h2]
    unfold killerKey
    grind

theorem killer_rounds (c : Cfg) (hn : 125 ≤ n) :
    ∀ (d k fuel : Nat) (s : σ) (x : Nat → α) (ranges : Nat → Nat), k + d = 30 → d < fuel → Rep s (full x) →
      (∀ i, 2 * k ≤ i → i < n → it.keyOf (x i) = killerKey n k i) → ranges k = 2 * k → ranges (k + 1) = n →
      introsortRounds it less c n fuel s ranges (k + 1) = .error (if c.debug then .abort else .ub .overrun) := by
  intro d
  induction d with
  | zero =>
    intro k fuel s x ranges hk hf h hx h1 h2
    obtain ⟨f, rfl⟩ : ∃ f, fuel = f + 1 := ⟨fuel - 1, by omega⟩
    obtain rfl : k = 30 := by omega
    unfold introsortRounds
    rw [if_neg (by omega), if_pos (by
      rw [Nat.add_sub_cancel, h1, h2]; unfold introsortThreshold; omega)]
    have hpush : pushRange c (30 + 1) = .error (if c.debug then .abort else .ub .overrun) := by
      unfold pushRange maxRanges
      cases hd : c.debug <;> simp
    rw [hpush]
    rfl
  | succ d ih =>
    intro k fuel s x ranges hk hf h hx h1 h2
    obtain ⟨f, rfl⟩ : ∃ f, fuel = f + 1 := ⟨fuel - 1, by omega⟩
    unfold introsortRounds
    rw [if_neg (by omega), if_pos (by
      rw [Nat.add_sub_cancel, h1, h2]; unfold introsortThreshold; omega)]
    have hpush : pushRange c (k + 1) = .ok () := by
      unfold pushRange maxRanges
      rw [if_neg (by simp; omega), if_pos (by omega)]
    rw [hpush, bind_ok, Nat.add_sub_cancel, h1, h2]
    obtain ⟨s', y, e, r, hy⟩ := killer_partition S hn (by omega : k < 30) h hx
    rw [e, bind_ok]
    dsimp only
    exact ih (k + 1) f s' y _ (by omega) (by omega) r (fun i a b => hy i (by omega) b) (by grind [upd]) (by grind [upd])

theorem killer_introsort (c : Cfg) (hn : 125 ≤ n) {s : σ} {x : Nat → α} (h : Rep s (full x))
    (hx : ∀ i, i < n → it.keyOf (x i) = killerKey n 0 i) :
    introsort it less c n s = .error (if c.debug then .abort else .ub .overrun) := by
  unfold introsort introsortLoop
  rw [if_pos (by unfold introsortThreshold; omega),
    killer_rounds S c hn 30 0 (2 * n + 1) s x _ (by omega) (by omega) h (fun i _ b => hx i b) (by simp) (by simp)]
  rfl

end

end LvArray.sortedArrayManipulation
