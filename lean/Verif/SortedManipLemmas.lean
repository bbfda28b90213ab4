import Verif.SortedManip
import Mathlib.Order.Defs.LinearOrder
import Mathlib.Data.List.Nodup

/-!
# Lemmas about `sortedArrayManipulation`
-/

namespace LvArray.sortedArrayManipulation

variable {T : Type}

theorem isSorted_of_pairwise {comp : T → T → Bool} {xs : List T}
    (h : xs.Pairwise (fun a b => comp b a = false)) : isSorted comp xs = true := by
  fun_induction isSorted comp xs <;> grind

theorem isSortedUnique_of_pairwise {comp : T → T → Bool} {xs : List T}
    (h : xs.Pairwise (fun a b => comp a b = true ∧ comp b a = false)) : isSortedUnique comp xs = true := by
  fun_induction isSortedUnique comp xs <;> grind

theorem readAll_eq {read : Nat → R T} {xs : List T} (h : ∀ i (hi : i < xs.length), read i = .ok xs[i]) :
    readAll read xs.length = .ok xs := by
  unfold readAll
  suffices H : ∀ (n k : Nat), k + n = xs.length → (List.range' k n).mapM read = .ok (xs.drop k) by
    rw [List.range_eq_range', H xs.length 0 (by omega), List.drop_zero]
  intro n
  induction n with
  | zero => intro k hk; rw [List.drop_eq_nil_of_le (by omega)]; rfl
  | succ n ih =>
    intro k hk
    rw [List.range'_succ, List.mapM_cons, h k (by omega), bind_ok, ih (k + 1) (by omega), bind_ok,
      List.drop_eq_getElem_cons (by omega : k < xs.length)]
    rfl

theorem assertRange_ok (c : Cfg) {read : Nat → R T} {xs : List T} {test : List T → Bool}
    (h : ∀ i (hi : i < xs.length), read i = .ok xs[i]) (ht : test xs = true) :
    assertRange c read xs.length test = .ok () := by
  unfold assertRange
  split
  · rw [readAll_eq h, bind_ok, ht]; rfl
  · rfl

theorem findLoop_spec (comp : T → T → Bool) (read : Nat → R T) (xs : List T) (v : T)
    (h : ∀ i (hi : i < xs.length), read i = .ok xs[i])
    (hmono : ∀ i j (hij : i < j) (hj : j < xs.length), comp xs[j] v = true → comp xs[i] v = true) :
    ∀ (fuel lower upper : Nat), lower ≤ upper → upper ≤ xs.length → upper - lower ≤ fuel →
      (∀ i (hi : i < xs.length), i < lower → comp xs[i] v = true) →
      (∀ i (hi : i < xs.length), upper ≤ i → comp xs[i] v = false) →
      ∃ k, findLoop comp read v fuel lower upper = .ok k ∧ lower ≤ k ∧ k ≤ upper ∧
        (∀ i (hi : i < xs.length), i < k → comp xs[i] v = true) ∧
        (∀ i (hi : i < xs.length), k ≤ i → comp xs[i] v = false) := by
  intro fuel
  induction fuel with
  | zero =>
    intro lower upper h1 h2 h3 h4 h5
    have : lower = upper := by omega
    subst this
    exact ⟨lower, rfl, Nat.le_refl _, Nat.le_refl _, h4, h5⟩
  | succ fuel ih =>
    intro lower upper h1 h2 h3 h4 h5
    unfold findLoop
    split
    · rename_i he
      subst he
      exact ⟨lower, rfl, Nat.le_refl _, Nat.le_refl _, h4, h5⟩
    · rename_i hne
      dsimp only
      have hg : (lower + upper) / 2 < upper := by omega
      have hg' : lower ≤ (lower + upper) / 2 := by omega
      rw [h _ (by omega), bind_ok]
      cases hc : comp xs[(lower + upper) / 2] v with
      | true =>
        simp only [if_true]
        obtain ⟨k, e, k1, k2, k3, k4⟩ := ih ((lower + upper) / 2 + 1) upper (by omega) h2 (by omega)
          (fun i hi hlt => by
            rcases Nat.lt_or_ge i ((lower + upper) / 2) with hl | hl
            · exact hmono i _ hl (by omega) hc
            · have : i = (lower + upper) / 2 := by omega
              subst this; exact hc) h5
        exact ⟨k, e, by omega, k2, k3, k4⟩
      | false =>
        simp only [Bool.false_eq_true, if_false]
        obtain ⟨k, e, k1, k2, k3, k4⟩ := ih lower ((lower + upper) / 2) hg' (by omega) (by omega) h4
          (fun i hi hge => by
            rcases Nat.eq_or_lt_of_le hge with hl | hl
            · subst hl; exact hc
            · cases hx : comp xs[i] v with
              | false => rfl
              | true => rw [hmono _ i hl hi hx] at hc; exact absurd hc (by decide))
        exact ⟨k, e, k1, by omega, k3, k4⟩

theorem find_spec (c : Cfg) (comp : T → T → Bool) (read : Nat → R T) (xs : List T) (v : T)
    (h : ∀ i (hi : i < xs.length), read i = .ok xs[i]) (hs : isSorted comp xs = true)
    (hmono : ∀ i j (hij : i < j) (hj : j < xs.length), comp xs[j] v = true → comp xs[i] v = true) :
    ∃ k, find c comp read xs.length v = .ok k ∧ k ≤ xs.length ∧
      (∀ i (hi : i < xs.length), i < k → comp xs[i] v = true) ∧
      (∀ i (hi : i < xs.length), k ≤ i → comp xs[i] v = false) := by
  obtain ⟨k, e, -, h2, h3, h4⟩ := findLoop_spec comp read xs v h hmono xs.length 0 xs.length (Nat.zero_le _)
    (Nat.le_refl _) (by omega) (fun i hi h => by omega) (fun i hi h => by omega)
  exact ⟨k, by unfold find; rw [assertRange_ok c h hs, bind_ok, e], h2, h3, h4⟩

/-! ## Strictly increasing lists of keys -/

variable [LinearOrder T]

theorem less_iff {a b : T} : less a b = true ↔ a < b := by simp [less]

theorem isSorted_keys {xs : List T} (h : xs.Pairwise (· < ·)) : isSorted less xs = true :=
  isSorted_of_pairwise (h.imp fun {a b} hab => by simp [less, le_of_lt hab])

theorem isSortedUnique_keys {xs : List T} (h : xs.Pairwise (· < ·)) : isSortedUnique less xs = true :=
  isSortedUnique_of_pairwise (h.imp fun {a b} hab => by simp [less, hab, le_of_lt hab])

/-- `find` on a strictly increasing range: the position splits it into the keys below and the keys not below. -/
theorem find_keys (c : Cfg) (read : Nat → R T) (xs : List T) (v : T) (hs : xs.Pairwise (· < ·))
    (h : ∀ i (hi : i < xs.length), read i = .ok xs[i]) :
    ∃ f1 f2, xs = f1 ++ f2 ∧ find c less read xs.length v = .ok f1.length ∧ (∀ x ∈ f1, x < v) ∧ (∀ x ∈ f2, v ≤ x) := by
  obtain ⟨k, e, hk, h1, h2⟩ := find_spec c less read xs v h (isSorted_keys hs) (fun i j hij hj hlt => by
    rw [less_iff] at hlt ⊢
    exact lt_trans (List.pairwise_iff_getElem.mp hs i j _ hj hij) hlt)
  refine ⟨xs.take k, xs.drop k, (List.take_append_drop k xs).symm, by rw [e]; simp; omega, ?_, ?_⟩
  · intro x hx
    obtain ⟨i, hi, rfl⟩ := List.getElem_of_mem hx
    simp only [List.length_take] at hi
    rw [List.getElem_take]
    exact less_iff.mp (h1 i (by omega) (by omega))
  · intro x hx
    obtain ⟨i, hi, rfl⟩ := List.getElem_of_mem hx
    simp only [List.length_drop] at hi
    rw [List.getElem_drop]
    have := h2 (k + i) (by omega) (by omega)
    exact not_lt.mp (fun hlt => by rw [less_iff.mpr hlt] at this; exact absurd this (by decide))

/-! ## Generic correctness of `insert` and `remove`

`α` is the type of the records the range represents and `key` the part of a record that is stored in the range: `id`
for sets, the column for the rows of a sparse matrix (whose entries are moved by the call backs). -/

variable {σ α : Type}

/-- Records in increasing order of their keys, without duplicates. -/
abbrev Increasing (key : α → T) (xs : List α) : Prop := xs.Pairwise (fun a b => key a < key b)

theorem find_split (c : Cfg) (key : α → T) (read : Nat → R T) (xs : List α) (v : T) (hs : Increasing key xs)
    (h : ∀ i (hi : i < xs.length), read i = .ok (key xs[i])) :
    ∃ f1 f2, xs = f1 ++ f2 ∧ find c less read xs.length v = .ok f1.length ∧
      (∀ x ∈ f1, key x < v) ∧ (∀ x ∈ f2, v ≤ key x) := by
  obtain ⟨k1, k2, he, hf, h1, h2⟩ := find_keys c read (xs.map key) v (List.pairwise_map.mpr hs)
    (fun i hi => by simp only [List.length_map] at hi; rw [h i hi]; simp)
  obtain ⟨f1, f2, rfl, rfl, rfl⟩ := List.map_eq_append_iff.mp he
  refine ⟨f1, f2, rfl, by simpa using hf, fun x hx => h1 _ (List.mem_map_of_mem hx), fun x hx => h2 _ (List.mem_map_of_mem hx)⟩

theorem assertUnique_ok (c : Cfg) (key : α → T) {read : Nat → R T} {xs : List α} (hs : Increasing key xs)
    (h : ∀ i (hi : i < xs.length), read i = .ok (key xs[i])) :
    assertRange c read xs.length (isSortedUnique less) = .ok () := by
  have := assertRange_ok c (xs := xs.map key) (read := read) (test := isSortedUnique less)
    (fun i hi => by simp only [List.length_map] at hi; rw [h i hi]; simp)
    (isSortedUnique_keys (List.pairwise_map.mpr hs))
  simpa using this

/-- Deciding whether the record at the found position has the searched key. -/
theorem present_eq (key : α → T) (read : Nat → R T) (f1 f2 : List α) (v : T)
    (h : ∀ i (hi : i < (f1 ++ f2).length), read i = .ok (key (f1 ++ f2)[i]))
    (h2 : ∀ x ∈ f2, v ≤ key x) (hs : Increasing key (f1 ++ f2)) :
    isAt read (f1 ++ f2).length f1.length v = .ok (decide (∃ x ∈ f2, key x = v)) := by
  unfold isAt
  cases f2 with
  | nil => simp
  | cons a f2 =>
    rw [if_neg (by simp), h f1.length (by simp), bind_ok]
    have e : (f1 ++ a :: f2)[f1.length]'(by simp) = a := by simp
    rw [e]
    congr 1
    by_cases hk : key a = v
    · simp [hk]
    · have hlt : v < key a := lt_of_le_of_ne (h2 a (by simp)) (Ne.symm hk)
      have ha := (List.pairwise_append.mp hs).2.1
      rw [List.pairwise_cons] at ha
      simp only [List.mem_cons, exists_eq_or_imp, hk, false_or, decide_false, Bool.false_eq]
      simp only [decide_eq_false_iff_not, not_exists, not_and]
      exact fun x hx => ne_of_gt (lt_trans hlt (ha.1 x hx))

/-- What the proofs about `insert` need to know about a target: `J s front gap back` says that in state `s` the range
holds the records `front`, then `gap` unused slots, then the records `back`. -/
structure InsertSound (c : Cfg) (t : Target σ T) (key : α → T) (vs : List α)
    (J : σ → List α → Nat → List α → Prop) : Prop where
  read : ∀ s f g b, J s f g b → ∀ i (hi : i < f.length), t.read s i = .ok (key f[i])
  step : ∀ s f1 f2 g b i (hi : i < vs.length), J s (f1 ++ f2) (g + 1) b →
    ∃ s1 s2 s3, t.modify s (fun b p => arrayManipulation.shiftUp c b p (f1 ++ f2).length f1.length (g + 1)) = .ok s1 ∧
      t.modify s1 (fun b p => b.construct c (p + (f1.length + g)) (key vs[i])) = .ok s2 ∧
      t.insertMany s2 (g + 1) i f1.length (f1 ++ f2).length = .ok s3 ∧ J s3 f1 g (vs[i] :: f2 ++ b)
  set : ∀ s f g (hi : f.length < vs.length), J s f (g + 1) [] →
    ∃ s1 s2, t.modify s (fun b p => b.construct c (p + f.length) (key vs[f.length])) = .ok s1 ∧
      t.set s1 f.length f.length = .ok s2 ∧ J s2 (f ++ [vs[f.length]]) g []

theorem countLoop_spec (c : Cfg) (key : α → T) (read : Nat → R T) (xs : List α) (hs : Increasing key xs)
    (h : ∀ i (hi : i < xs.length), read i = .ok (key xs[i])) :
    ∀ (ws : List T) (f g : List α) (n : Nat), xs = f ++ g → (∀ w ∈ ws, ∀ x ∈ g, w < key x) →
      ws.Pairwise (· > ·) →
      countLoop c read xs.length ws f.length n =
        .ok (n + (ws.filter (fun w => decide (∀ x ∈ xs, key x ≠ w))).length) := by
  intro ws
  induction ws with
  | nil => intro f g n _ _ _; simp [countLoop]
  | cons w ws ih =>
    intro f g n hx hg hw
    subst hx
    have hf : Increasing key f := (List.pairwise_append.mp hs).1
    obtain ⟨f1, f2, rfl, hfind, h1, h2⟩ := find_split c key read f w hf
      (fun i hi => by rw [h i (by simp at hi ⊢; omega), List.getElem_append_left hi])
    rw [List.pairwise_cons] at hw
    unfold countLoop
    rw [hfind, bind_ok]
    have h2' : ∀ x ∈ f2 ++ g, w ≤ key x := by
      intro x hx
      rcases List.mem_append.mp hx with hx | hx
      · exact h2 x hx
      · exact le_of_lt (hg w (by simp) x hx)
    have hp := present_eq key read f1 (f2 ++ g) w (by
      intro i hi
      have := h i (by simpa using hi)
      simpa using this) h2' (by simpa using hs)
    rw [List.append_assoc] at ih ⊢
    have hd : decide (∀ x ∈ f1 ++ (f2 ++ g), key x ≠ w) = !decide (∃ x ∈ f2 ++ g, key x = w) := by
      rw [← decide_not]
      congr 1
      rw [List.forall_mem_append]
      apply propext
      constructor
      · rintro ⟨_, hb⟩ ⟨x, hx, hxe⟩; exact hb x hx hxe
      · intro hb
        exact ⟨fun x hx => ne_of_lt (h1 x hx), fun x hx hxe => hb ⟨x, hx, hxe⟩⟩
    rw [hp, bind_ok, ih f1 (f2 ++ g) _ rfl ?_ hw.2]
    · congr 1
      rw [List.filter_cons, hd]
      cases decide (∃ x ∈ f2 ++ g, key x = w) <;> simp <;> omega
    · intro u hu x hx
      exact lt_of_lt_of_le (hw.1 u hu) (h2' x hx)

theorem insertLoop_spec (c : Cfg) (t : Target σ T) (key : α → T) (vs : List α)
    (J : σ → List α → Nat → List α → Prop) (hJ : InsertSound c t key vs J) (xs : List α) (hx : Increasing key xs)
    (hv : Increasing key vs) :
    ∀ (pre done front tail back : List α) (s : σ), vs = pre ++ done → xs = front ++ tail →
      Increasing key (front ++ back) → (∀ v ∈ pre, ∀ a ∈ back, key v < key a) → (∀ a ∈ tail, a ∈ back) →
      (∀ a, a ∈ back ↔ a ∈ tail ∨ (a ∈ done ∧ ∀ x ∈ xs, key x ≠ key a)) →
      J s front (pre.filter (fun v => decide (∀ x ∈ xs, key x ≠ key v))).length back →
      ∃ s' f b, insertLoop c t (pre.map key).reverse s front.length
          (pre.filter (fun v => decide (∀ x ∈ xs, key x ≠ key v))).length = .ok s' ∧ J s' f 0 b ∧
        Increasing key (f ++ b) ∧ ∀ a, a ∈ f ++ b ↔ a ∈ xs ∨ (a ∈ vs ∧ ∀ x ∈ xs, key x ≠ key a) := by
  intro pre
  induction hn : pre.length generalizing pre with
  | zero =>
    intro done front tail back s h1 h2 h3 h4 h5 h6 h7
    have : pre = [] := List.eq_nil_of_length_eq_zero hn
    subst this
    refine ⟨s, front, back, by simp [insertLoop], by simpa using h7, h3, fun a => ?_⟩
    simp only [List.nil_append] at h1
    subst h1
    rw [List.mem_append, h6, h2, List.mem_append]
    tauto
  | succ n ih =>
    intro done front tail back s h1 h2 h3 h4 h5 h6 h7
    obtain ⟨pre', v, rfl⟩ : ∃ pre' v, pre = pre' ++ [v] := by
      refine ⟨pre.dropLast, pre.getLast (by rintro rfl; simp at hn), ?_⟩
      rw [List.dropLast_append_getLast]
    simp only [List.length_append, List.length_singleton, Nat.add_right_cancel_iff] at hn
    have hf : Increasing key front := (List.pairwise_append.mp h3).1
    obtain ⟨f1, f2, rfl, hfind, k1, k2⟩ := find_split c key (t.read s) front (key v) hf
      (hJ.read s _ _ _ h7)
    have hp := present_eq key (t.read s) f1 f2 (key v) (hJ.read s _ _ _ h7) k2 hf
    rw [List.map_append, List.reverse_append]
    simp only [List.map_cons, List.map_nil, List.reverse_cons, List.reverse_nil, List.nil_append, List.cons_append]
    unfold insertLoop
    rw [hfind, bind_ok, hp, bind_ok]
    have hvtail : ∀ a ∈ tail, key v < key a := fun a ha => h4 v (by simp) a (h5 a ha)
    have hpre : ∀ w ∈ pre', key w < key v := by
      intro w hw
      rw [h1, List.append_assoc] at hv
      exact (List.pairwise_append.mp hv).2.2 w hw v (by simp)
    have hxsplit : ∀ x, x ∈ xs ↔ x ∈ f1 ∨ x ∈ f2 ∨ x ∈ tail := by
      intro x; rw [h2, List.mem_append, List.mem_append, or_assoc]
    by_cases hpres : ∃ x ∈ f2, key x = key v
    · -- already present
      rw [decide_eq_true hpres]
      simp only [if_true]
      obtain ⟨x, hx2, hxv⟩ := hpres
      have hcount : ((pre' ++ [v]).filter (fun v => decide (∀ x ∈ xs, key x ≠ key v))).length =
          (pre'.filter (fun v => decide (∀ x ∈ xs, key x ≠ key v))).length := by
        rw [List.filter_append]
        have : decide (∀ x ∈ xs, key x ≠ key v) = false := by
          simp only [decide_eq_false_iff_not]
          exact fun hall => hall x ((hxsplit x).mpr (Or.inr (Or.inl hx2))) hxv
        simp [this]
      rw [hcount] at h7 ⊢
      refine ih pre' hn (v :: done) (f1 ++ f2) tail back s (by rw [h1]; simp) h2 h3
        (fun w hw a ha => h4 w (by simp [hw]) a ha) h5 (fun a => ?_) h7
      rw [h6]
      constructor
      · rintro (h | ⟨h, h'⟩)
        · exact Or.inl h
        · exact Or.inr ⟨by simp [h], h'⟩
      · rintro (h | ⟨h, h'⟩)
        · exact Or.inl h
        · rcases List.mem_cons.mp h with rfl | h
          · exact absurd hxv (h' x ((hxsplit x).mpr (Or.inr (Or.inl hx2))))
          · exact Or.inr ⟨h, h'⟩
    · -- absent
      rw [decide_eq_false hpres]
      simp only [Bool.false_eq_true, if_false]
      have habs : ∀ x ∈ xs, key x ≠ key v := by
        intro x hxm
        rcases (hxsplit x).mp hxm with h | h | h
        · exact ne_of_lt (k1 x h)
        · exact fun e => hpres ⟨x, h, e⟩
        · exact ne_of_gt (hvtail x h)
      have hcount : ((pre' ++ [v]).filter (fun v => decide (∀ x ∈ xs, key x ≠ key v))).length =
          (pre'.filter (fun v => decide (∀ x ∈ xs, key x ≠ key v))).length + 1 := by
        rw [List.filter_append]
        have : decide (∀ x ∈ xs, key x ≠ key v) = true := decide_eq_true habs
        simp [this]
      rw [hcount] at h7 ⊢
      generalize hg : (pre'.filter (fun v => decide (∀ x ∈ xs, key x ≠ key v))).length = g at *
      have hi : pre'.length < vs.length := by rw [h1]; simp
      have hvi : vs[pre'.length] = v := by
        have : vs = pre' ++ (v :: done) := by rw [h1]; simp
        simp [this]
      obtain ⟨s1, s2, s3, e1, e2, e3, hJ3⟩ := hJ.step s f1 f2 g back pre'.length hi h7
      rw [hvi] at e2 hJ3
      have e2' : t.modify s1 (fun b p => if f1.length + (g + 1) = 0 then .error (.ub .outOfBounds)
          else b.construct c (p + (f1.length + (g + 1) - 1)) (key v)) = .ok s2 := by
        rw [← e2]
        congr 1
      simp only [e1, bind_ok, e2', List.length_reverse, List.length_map, e3]
      rw [show g + 1 - 1 = g by omega, ← hg]
      have hvf2 : ∀ a ∈ f2, key v < key a := fun a ha =>
        lt_of_le_of_ne (k2 a ha) (fun e => hpres ⟨a, ha, e.symm⟩)
      have hsplit3 := List.pairwise_append.mp h3
      have hsplit12 := List.pairwise_append.mp hsplit3.1
      refine ih pre' hn (v :: done) f1 (f2 ++ tail) (v :: f2 ++ back) s3 (by rw [h1]; simp) (by rw [h2]; simp) ?_ ?_ ?_ ?_
        (by rw [hg]; exact hJ3)
      · -- still increasing
        rw [List.cons_append]
        refine List.pairwise_append.mpr ⟨hsplit12.1, List.pairwise_cons.mpr ⟨?_, ?_⟩, ?_⟩
        · intro a ha
          rcases List.mem_append.mp ha with ha | ha
          · exact hvf2 a ha
          · exact h4 v (by simp) a ha
        · exact List.pairwise_append.mpr ⟨hsplit12.2.1, hsplit3.2.1, fun a ha b hb => hsplit3.2.2 a (by simp [ha]) b hb⟩
        · intro a ha b hb
          rcases List.mem_cons.mp hb with rfl | hb
          · exact k1 a ha
          · rcases List.mem_append.mp hb with hb | hb
            · exact hsplit12.2.2 a ha b hb
            · exact hsplit3.2.2 a (by simp [ha]) b hb
      · intro w hw a ha
        rw [List.cons_append] at ha
        rcases List.mem_cons.mp ha with rfl | ha
        · exact hpre w hw
        · rcases List.mem_append.mp ha with ha | ha
          · exact lt_trans (hpre w hw) (hvf2 a ha)
          · exact h4 w (by simp [hw]) a ha
      · intro a ha
        rcases List.mem_append.mp ha with ha | ha
        · simp [ha]
        · simp [h5 a ha]
      · intro a
        simp only [List.cons_append, List.mem_cons, List.mem_append, h6]
        constructor
        · rintro (rfl | h | h | ⟨h, h'⟩)
          · exact Or.inr ⟨Or.inl rfl, habs⟩
          · exact Or.inl (Or.inl h)
          · exact Or.inl (Or.inr h)
          · exact Or.inr ⟨Or.inr h, h'⟩
        · rintro ((h | h) | ⟨h | h, h'⟩)
          · exact Or.inr (Or.inl h)
          · exact Or.inr (Or.inr (Or.inl h))
          · exact Or.inl h
          · exact Or.inr (Or.inr (Or.inr ⟨h, h'⟩))

/-- Number of records whose key is new. -/
def newCount (key : α → T) (xs vs : List α) : Nat :=
  (vs.filter (fun v => decide (∀ x ∈ xs, key x ≠ key v))).length

/-- Range `insert` on a target whose `incrementSize` succeeds. -/
theorem insertRange_spec [Inhabited T] (c : Cfg) (t : Target σ T) (key : α → T) (vs xs : List α)
    (J : σ → List α → Nat → List α → Prop) (hJ : InsertSound c t key vs J) (hx : Increasing key xs)
    (hv : Increasing key vs) (s s1 : σ) (h0 : J s xs 0 []) (hinc : t.incrementSize s (newCount key xs vs) = .ok s1)
    (h1 : J s1 xs (newCount key xs vs) []) :
    ∃ s' f b, insertRange c t s xs.length (vs.map key) = .ok (s', newCount key xs vs) ∧ J s' f 0 b ∧
      Increasing key (f ++ b) ∧ ∀ a, a ∈ f ++ b ↔ a ∈ xs ∨ (a ∈ vs ∧ ∀ x ∈ xs, key x ≠ key a) := by
  unfold insertRange
  have hdbg : (c.debug && !isSortedUnique less (vs.map key)) = false := by
    rw [isSortedUnique_keys (List.pairwise_map.mpr hv)]; simp
  rw [assertUnique_ok c key hx (hJ.read s _ _ _ h0), bind_ok, hdbg, errorIf_false, bind_ok]
  by_cases hz : xs.length = 0
  · have : xs = [] := List.eq_nil_of_length_eq_zero hz
    subst this
    have hn : newCount key [] vs = vs.length := by simp [newCount]
    rw [hn] at hinc h1
    simp only [List.length_nil, if_true, List.length_map, hinc, bind_ok]
    obtain ⟨s', hs', hJ'⟩ := forUp_inv
      (f := fun i s => do
        let s ← t.modify s (fun b p => b.construct c (p + i) ((vs.map key).getD i default))
        t.set s i i)
      (fun i s => i ≤ vs.length ∧ J s (vs.take i) (vs.length - i) []) vs.length 0 s1
      ⟨Nat.zero_le _, by simpa using h1⟩
      (by
        rintro i s2 - hi ⟨hle, hJi⟩
        rw [Nat.zero_add] at hi
        have hlen : (vs.take i).length = i := by simp; omega
        obtain ⟨a1, a2, e1, e2, e3⟩ := hJ.set s2 (vs.take i) (vs.length - (i + 1)) (by omega)
          (by rw [show vs.length - (i + 1) + 1 = vs.length - i by omega]; exact hJi)
        simp only [hlen] at e1 e2 e3
        have hget : (vs.map key).getD i default = key vs[i] := by simp [List.getD_eq_getElem?_getD, hi]
        refine ⟨a2, ?_, hi, ?_⟩
        · rw [hget, e1, bind_ok, e2]
        · rw [List.take_append_getElem] at e3
          exact e3)
    rw [hs', bind_ok, hn]
    refine ⟨s', vs, [], rfl, ?_, by simpa using hv, by simp⟩
    have := hJ'.2
    simpa using this
  · rw [if_neg hz]
    have hc := countLoop_spec c key (t.read s) xs hx (hJ.read s _ _ _ h0) (vs.map key).reverse xs [] 0
      (by simp) (by simp) (List.pairwise_reverse.mpr (List.pairwise_map.mpr hv))
    have hcount : 0 + ((vs.map key).reverse.filter (fun w => decide (∀ x ∈ xs, key x ≠ w))).length = newCount key xs vs := by
      rw [Nat.zero_add, List.filter_reverse, List.length_reverse, List.filter_map, List.length_map]; rfl
    rw [hc, bind_ok, hcount, hinc, bind_ok]
    by_cases hzero : newCount key xs vs = 0
    · rw [if_pos hzero]
      rw [hzero] at h1 ⊢
      refine ⟨s1, xs, [], rfl, h1, by simpa using hx, fun a => ?_⟩
      simp only [List.append_nil]
      constructor
      · exact Or.inl
      · rintro (h | ⟨h, h'⟩)
        · exact h
        · exfalso
          have : a ∈ vs.filter (fun v => decide (∀ x ∈ xs, key x ≠ key v)) := by
            rw [List.mem_filter]; exact ⟨h, decide_eq_true h'⟩
          rw [List.eq_nil_of_length_eq_zero hzero] at this
          simp at this
    · rw [if_neg hzero]
      obtain ⟨s', f, b, e1, e2, e3, e4⟩ := insertLoop_spec c t key vs J hJ xs hx hv vs [] xs [] [] s1 (by simp) (by simp)
        (by simpa using hx) (by simp) (by simp) (by simp) h1
      have e1' : insertLoop c t (vs.map key).reverse s1 xs.length (newCount key xs vs) = .ok s' := e1
      rw [e1', bind_ok]
      exact ⟨s', f, b, rfl, e2, e3, e4⟩

/-- Range `insert` when `incrementSize` refuses. -/
theorem insertRange_abort [Inhabited T] (c : Cfg) (t : Target σ T) (key : α → T) (vs xs : List α) (s : σ)
    (hread : ∀ i (hi : i < xs.length), t.read s i = .ok (key xs[i])) (hx : Increasing key xs)
    (hv : Increasing key vs) (e : Err) (hinc : t.incrementSize s (newCount key xs vs) = .error e) :
    insertRange c t s xs.length (vs.map key) = .error e := by
  unfold insertRange
  have hdbg : (c.debug && !isSortedUnique less (vs.map key)) = false := by
    rw [isSortedUnique_keys (List.pairwise_map.mpr hv)]; simp
  rw [assertUnique_ok c key hx hread, bind_ok, hdbg, errorIf_false, bind_ok]
  by_cases hz : xs.length = 0
  · have : xs = [] := List.eq_nil_of_length_eq_zero hz
    subst this
    have hn : newCount key [] vs = vs.length := by simp [newCount]
    rw [hn] at hinc
    simp only [List.length_nil, if_true, List.length_map, hinc, bind_err]
  · rw [if_neg hz]
    have hc := countLoop_spec c key (t.read s) xs hx hread (vs.map key).reverse xs [] 0
      (by simp) (by simp) (List.pairwise_reverse.mpr (List.pairwise_map.mpr hv))
    have hcount : 0 + ((vs.map key).reverse.filter (fun w => decide (∀ x ∈ xs, key x ≠ w))).length = newCount key xs vs := by
      rw [Nat.zero_add, List.filter_reverse, List.length_reverse, List.filter_map, List.length_map]; rfl
    rw [hc, bind_ok, hcount, hinc, bind_err]

/-- The position computed by the single value `insert` splits the range. -/
theorem insertPosition_split (c : Cfg) (key : α → T) (read : Nat → R T) (xs : List α) (v : T) (hs : Increasing key xs)
    (h : ∀ i (hi : i < xs.length), read i = .ok (key xs[i])) :
    ∃ f1 f2, xs = f1 ++ f2 ∧ insertPosition c read xs.length v = .ok f1.length ∧
      (∀ x ∈ f1, key x < v) ∧ (∀ x ∈ f2, v ≤ key x) := by
  unfold insertPosition
  by_cases hz : xs.length = 0
  · have : xs = [] := List.eq_nil_of_length_eq_zero hz
    subst this
    exact ⟨[], [], rfl, by simp, by simp, by simp⟩
  rw [if_neg hz, h 0 (by omega), bind_ok]
  have hpw := List.pairwise_iff_getElem.mp hs
  split
  · rename_i hlt
    refine ⟨[], xs, rfl, rfl, by simp, fun x hx => ?_⟩
    obtain ⟨i, hi, rfl⟩ := List.getElem_of_mem hx
    rcases Nat.eq_zero_or_pos i with rfl | hp
    · exact le_of_lt hlt
    · exact le_of_lt (lt_trans hlt (hpw 0 i _ hi hp))
  · rw [h (xs.length - 1) (by omega), bind_ok]
    split
    · rename_i hlt
      refine ⟨xs, [], by simp, by simp, fun x hx => ?_, by simp⟩
      obtain ⟨i, hi, rfl⟩ := List.getElem_of_mem hx
      rcases Nat.eq_or_lt_of_le (show i ≤ xs.length - 1 by omega) with he | hp
      · subst he; exact hlt
      · exact lt_trans (hpw i (xs.length - 1) hi (by omega) hp) hlt
    · exact find_split c key read xs v hs h

/-- Single value `insert`. -/
theorem insertOne_spec (c : Cfg) (t : Target σ T) (key : α → T) (xs : List α) (a : α) (s : σ)
    (hread : ∀ i (hi : i < xs.length), t.read s i = .ok (key xs[i])) (hx : Increasing key xs) (Post : σ → List α → Prop)
    (hpresent : (∃ x ∈ xs, key x = key a) → ∃ s', t.incrementSize s 0 = .ok s' ∧ Post s' xs)
    (habsent : (∀ x ∈ xs, key x ≠ key a) → ∀ f1 f2, xs = f1 ++ f2 → ∃ s1 s2 s3, t.incrementSize s 1 = .ok s1 ∧
      t.modify s1 (fun b p => arrayManipulation.emplace c b p xs.length f1.length (key a)) = .ok s2 ∧
      t.insert s2 f1.length = .ok s3 ∧ Post s3 (f1 ++ a :: f2)) :
    ∃ s' ys, insertOne c t s xs.length (key a) = .ok (s', decide (∀ x ∈ xs, key x ≠ key a)) ∧ Post s' ys ∧
      Increasing key ys ∧ ∀ x, x ∈ ys ↔ x ∈ xs ∨ (x = a ∧ ∀ x ∈ xs, key x ≠ key a) := by
  unfold insertOne
  obtain ⟨f1, f2, rfl, hpos, k1, k2⟩ := insertPosition_split c key (t.read s) xs (key a) hx hread
  rw [assertUnique_ok c key hx hread, bind_ok, hpos, bind_ok,
    present_eq key (t.read s) f1 f2 (key a) hread k2 hx, bind_ok]
  by_cases hp : ∃ x ∈ f2, key x = key a
  · obtain ⟨x, hx2, hxe⟩ := hp
    have hex : ∃ x ∈ f1 ++ f2, key x = key a := ⟨x, by simp [hx2], hxe⟩
    obtain ⟨s', e, hP⟩ := hpresent hex
    rw [decide_eq_true ⟨x, hx2, hxe⟩, if_pos rfl, e, bind_ok]
    have hno : ¬ ∀ x ∈ f1 ++ f2, key x ≠ key a := fun hall => hall x (by simp [hx2]) hxe
    refine ⟨s', f1 ++ f2, by rw [decide_eq_false hno], hP, hx, fun y => ?_⟩
    exact ⟨Or.inl, fun h => h.resolve_right (fun h => hno h.2)⟩
  · have hall : ∀ x ∈ f1 ++ f2, key x ≠ key a := by
      intro x hx
      rcases List.mem_append.mp hx with h | h
      · exact ne_of_lt (k1 x h)
      · exact fun e => hp ⟨x, h, e⟩
    obtain ⟨s1, s2, s3, e1, e2, e3, hP⟩ := habsent hall f1 f2 rfl
    rw [decide_eq_false hp, if_neg (by decide), e1, bind_ok, e2, bind_ok, e3, bind_ok]
    have hsp := List.pairwise_append.mp hx
    refine ⟨s3, f1 ++ a :: f2, by rw [decide_eq_true hall], hP, ?_, fun y => ?_⟩
    · refine List.pairwise_append.mpr ⟨hsp.1, List.pairwise_cons.mpr ⟨fun b hb => ?_, hsp.2.1⟩, fun b hb d hd => ?_⟩
      · exact lt_of_le_of_ne (k2 b hb) (fun e => hp ⟨b, hb, e.symm⟩)
      · rcases List.mem_cons.mp hd with rfl | hd
        · exact k1 b hb
        · exact hsp.2.2 b hb d hd
    · simp only [List.mem_append, List.mem_cons]
      constructor
      · rintro (h | rfl | h)
        · exact Or.inl (Or.inl h)
        · exact Or.inr ⟨rfl, by simpa using hall⟩
        · exact Or.inl (Or.inr h)
      · rintro ((h | h) | ⟨rfl, -⟩)
        · exact Or.inl h
        · exact Or.inr (Or.inr h)
        · exact Or.inr (Or.inl rfl)

theorem insertOne_abort (c : Cfg) (t : Target σ T) (key : α → T) (xs : List α) (a : α) (s : σ)
    (hread : ∀ i (hi : i < xs.length), t.read s i = .ok (key xs[i])) (hx : Increasing key xs)
    (habs : ∀ x ∈ xs, key x ≠ key a) (e : Err) (hinc : t.incrementSize s 1 = .error e) :
    insertOne c t s xs.length (key a) = .error e := by
  unfold insertOne
  obtain ⟨f1, f2, rfl, hpos, k1, k2⟩ := insertPosition_split c key (t.read s) xs (key a) hx hread
  rw [assertUnique_ok c key hx hread, bind_ok, hpos, bind_ok,
    present_eq key (t.read s) f1 f2 (key a) hread k2 hx, bind_ok, decide_eq_false, if_neg (by decide), hinc, bind_err]
  rintro ⟨x, h, e⟩
  exact habs x (by simp [h]) e

/-! ### Removal -/

/-- Single value `remove`. -/
theorem removeOne_spec (c : Cfg) (t : Target σ T) (key : α → T) (xs : List α) (v : T) (s : σ)
    (hread : ∀ i (hi : i < xs.length), t.read s i = .ok (key xs[i])) (hx : Increasing key xs) (Post : σ → List α → Prop)
    (h0 : Post s xs)
    (hrem : ∀ f1 a f2, xs = f1 ++ a :: f2 → ∃ s1 s2,
      t.modify s (fun b p => arrayManipulation.erase c b p xs.length f1.length 1) = .ok s1 ∧
      t.remove s1 f1.length = .ok s2 ∧ Post s2 (f1 ++ f2)) :
    ∃ s', removeOne c t s xs.length v = .ok (s', decide (∃ x ∈ xs, key x = v)) ∧
      Post s' (xs.filter (fun x => decide (key x ≠ v))) := by
  unfold removeOne
  obtain ⟨f1, f2, rfl, hpos, k1, k2⟩ := find_split c key (t.read s) xs v hx hread
  rw [hpos, bind_ok, present_eq key (t.read s) f1 f2 v hread k2 hx, bind_ok]
  have hf1 : f1.filter (fun x => decide (key x ≠ v)) = f1 :=
    List.filter_eq_self.mpr (fun x hx => decide_eq_true (ne_of_lt (k1 x hx)))
  by_cases hp : ∃ x ∈ f2, key x = v
  · have hex : ∃ x ∈ f1 ++ f2, key x = v := by obtain ⟨x, h, e⟩ := hp; exact ⟨x, by simp [h], e⟩
    obtain ⟨x, hx2, hxe⟩ := id hp
    cases f2 with
    | nil => simp at hx2
    | cons a f2 =>
      have hsp := (List.pairwise_append.mp hx).2.1
      rw [List.pairwise_cons] at hsp
      have ha : key a = v := by
        rcases List.mem_cons.mp hx2 with rfl | h
        · exact hxe
        · have := hsp.1 x h
          rw [hxe] at this
          exact absurd (k2 a (by simp)) (not_le.mpr this)
      obtain ⟨s1, s2, e1, e2, hP⟩ := hrem f1 a f2 rfl
      rw [decide_eq_true hp, if_pos rfl, e1, bind_ok, e2, bind_ok, decide_eq_true hex]
      refine ⟨s2, rfl, ?_⟩
      have hf2 : f2.filter (fun x => decide (key x ≠ v)) = f2 :=
        List.filter_eq_self.mpr (fun x hx => decide_eq_true (ne_of_gt (ha ▸ hsp.1 x hx)))
      rw [List.filter_append, hf1, List.filter_cons, if_neg (by simp [ha]), hf2]
      exact hP
  · have hex : ¬ ∃ x ∈ f1 ++ f2, key x = v := by
      rintro ⟨x, h, e⟩
      rcases List.mem_append.mp h with h | h
      · exact absurd e (ne_of_lt (k1 x h))
      · exact hp ⟨x, h, e⟩
    rw [decide_eq_false hp, if_neg (by decide), decide_eq_false hex]
    refine ⟨s, rfl, ?_⟩
    have hall : (f1 ++ f2).filter (fun x => decide (key x ≠ v)) = f1 ++ f2 :=
      List.filter_eq_self.mpr (fun x hx => decide_eq_true (fun e => hex ⟨x, hx, e⟩))
    rw [hall]
    exact h0

/-- What the proofs about the range `remove` need to know about a target: `K s kept dead rest` says that in state `s`
the range holds the records `kept`, then `dead` slots whose value is irrelevant, then the records `rest`. -/
structure RemoveSound (c : Cfg) (t : Target σ T) (key : α → T) (K : σ → List α → Nat → List α → Prop) : Prop where
  read : ∀ s kept d rest, K s kept d rest → ∀ i (hi : i < rest.length), t.read s (kept.length + d + i) = .ok (key rest[i])
  split : ∀ s f1 f2, K s [] 0 (f1 ++ f2) → K s f1 0 f2
  step : ∀ s kept d a f rest, K s kept d (a :: f ++ rest) →
    ∃ s1 s2, t.modify s (fun b p => arrayManipulation.shiftDown c b p (kept.length + d + 1 + f.length)
        (kept.length + d + 1) (d + 1)) = .ok s1 ∧
      t.removeMany s1 (d + 1) (kept.length + d) (kept.length + d + 1 + f.length) = .ok s2 ∧
      K s2 (kept ++ f) (d + 1) rest

/-- The search loop finds the first value that occurs, and everything it passes over contains no listed value. -/
theorem seek_spec (c : Cfg) (key : α → T) (read : Nat → R T) (size : Nat) :
    ∀ (vs : List T) (pos : Nat) (rest : List α), pos + rest.length = size → Increasing key rest → vs.Pairwise (· < ·) →
      (∀ i (hi : i < rest.length), read (pos + i) = .ok (key rest[i])) →
      ∃ f g n ws, rest = f ++ g ∧ seek c read size pos vs = .ok (n, ws) ∧ (∀ x ∈ f, key x ∉ vs) ∧
        ((ws = [] ∧ g = []) ∨
          (∃ a g' v ws', g = a :: g' ∧ ws = v :: ws' ∧ key a = v ∧ n = pos + f.length ∧
            (∃ us, vs = us ++ ws ∧ ∀ u ∈ us, ∀ x ∈ g, key x ≠ u))) := by
  intro vs
  induction vs with
  | nil =>
    intro pos rest hsz hr hv hread
    exact ⟨rest, [], pos, [], by simp, rfl, by simp, Or.inl ⟨rfl, rfl⟩⟩
  | cons v vs ih =>
    intro pos rest hsz hr hv hread
    rw [List.pairwise_cons] at hv
    obtain ⟨f1, f2, rfl, hfind, k1, k2⟩ := find_split c key (fun i => read (pos + i)) rest v hr hread
    have hsp := List.pairwise_append.mp hr
    unfold seek
    rw [show size - pos = (f1 ++ f2).length by omega, hfind, bind_ok]
    have hf1 : ∀ x ∈ f1, key x ∉ v :: vs := by
      intro x hx hm
      rcases List.mem_cons.mp hm with h | h
      · exact absurd h (ne_of_lt (k1 x hx))
      · exact absurd (hv.1 _ h) (not_lt.mpr (le_of_lt (k1 x hx)))
    cases f2 with
    | nil =>
      rw [if_pos (by simp at hsz; omega)]
      exact ⟨f1, [], size, [], by simp, rfl, hf1, Or.inl ⟨rfl, rfl⟩⟩
    | cons a f2 =>
      rw [if_neg (by simp at hsz; omega), hread f1.length (by simp), bind_ok]
      have ea : (f1 ++ a :: f2)[f1.length]'(by simp) = a := by simp
      rw [ea]
      by_cases hk : key a = v
      · rw [if_pos hk]
        exact ⟨f1, a :: f2, pos + f1.length, v :: vs, rfl, rfl, hf1,
          Or.inr ⟨a, f2, v, vs, rfl, rfl, hk, rfl, [], by simp, by simp⟩⟩
      · rw [if_neg hk]
        have hlt : v < key a := lt_of_le_of_ne (k2 a (by simp)) (Ne.symm hk)
        obtain ⟨f, g, n, ws, hfg, hseek, hf, hcase⟩ := ih (pos + f1.length) (a :: f2)
          (by simp at hsz ⊢; omega) hsp.2.1 hv.2
          (fun i hi => by
            have := hread (f1.length + i) (by simp at hi ⊢; omega)
            rw [← Nat.add_assoc] at this
            rw [this]; simp)
        have hgt : ∀ x ∈ a :: f2, v < key x := by
          intro x hx
          rcases List.mem_cons.mp hx with rfl | hx
          · exact hlt
          · exact lt_trans hlt ((List.pairwise_cons.mp hsp.2.1).1 x hx)
        refine ⟨f1 ++ f, g, n, ws, by rw [List.append_assoc, ← hfg], hseek, ?_, ?_⟩
        · intro x hx
          rcases List.mem_append.mp hx with hx | hx
          · exact hf1 x hx
          · intro hm
            rcases List.mem_cons.mp hm with h | h
            · exact absurd h (ne_of_gt (hgt x (by rw [hfg]; simp [hx])))
            · exact hf x hx h
        · rcases hcase with h | ⟨a', g', v', ws', h1, h2, h3, h4, us, h5, h6⟩
          · exact Or.inl h
          · refine Or.inr ⟨a', g', v', ws', h1, h2, h3, by rw [h4, List.length_append]; omega, v :: us, by rw [h5]; simp, ?_⟩
            intro u hu x hx
            rcases List.mem_cons.mp hu with rfl | hu
            · exact ne_of_gt (hgt x (by rw [hfg]; simp [hx]))
            · exact h6 u hu x hx

theorem removeLoop_spec (c : Cfg) (t : Target σ T) (key : α → T) (K : σ → List α → Nat → List α → Prop)
    (hK : RemoveSound c t key K) (size : Nat) :
    ∀ (fuel : Nat) (ws : List T) (v : T) (s : σ) (kept : List α) (d : Nat) (a : α) (rest : List α),
      ws.length < fuel → (v :: ws).Pairwise (· < ·) → key a = v → Increasing key (a :: rest) →
      kept.length + d + (a :: rest).length = size → K s kept d (a :: rest) →
      ∃ s' kept' d', removeLoop c t size fuel s (kept.length + d) d (v :: ws) = .ok (s', d') ∧ K s' kept' d' [] ∧
        kept' = kept ++ (a :: rest).filter (fun x => decide (key x ∉ v :: ws)) ∧ kept'.length + d' = size := by
  intro fuel
  induction fuel with
  | zero => intro ws v s kept d a rest h; omega
  | succ fuel ih =>
    intro ws v s kept d a rest hfuel hw hav hinc hsz hKs
    unfold removeLoop
    have hreadr := hK.read s kept d (a :: rest) hKs
    obtain ⟨f, g, n, ws2, hfg, hseek, hf, hcase⟩ := seek_spec c key (t.read s) size ws (kept.length + d) (a :: rest)
      hsz hinc (List.pairwise_cons.mp hw).2 hreadr
    rw [hseek, bind_ok]
    have hvw := (List.pairwise_cons.mp hw).1
    have hva := (List.pairwise_cons.mp hinc).1
    -- the removed record is at the front of the part that was passed over
    have hav' : key a ∉ ws := fun hm => absurd (hvw _ hm) (by rw [hav]; exact lt_irrefl v)
    rcases hcase with ⟨rfl, rfl⟩ | ⟨b, g', w, ws', rfl, rfl, hbw, hn, us, hus, hus2⟩
    · simp only [List.append_nil] at hfg
      subst hfg
      simp only [List.isEmpty_nil, if_true]
      obtain ⟨s1, s2, e1, e2, e3⟩ := hK.step s kept d a rest [] (by simpa using hKs)
      have hsz2 : kept.length + d + 1 + rest.length = size := by simp at hsz; omega
      rw [hsz2] at e1 e2
      rw [e1, bind_ok, e2, bind_ok]
      refine ⟨s2, _, _, rfl, e3, ?_, by simp; omega⟩
      rw [List.filter_cons, if_neg (by simp [hav])]
      congr 1
      symm
      rw [List.filter_eq_self]
      intro x hx
      apply decide_eq_true
      intro hm
      rcases List.mem_cons.mp hm with h | h
      · exact absurd (hva x hx) (by rw [h, hav]; exact lt_irrefl v)
      · exact hf x (by simp [hx]) h
    · -- another value will be removed
      simp only [List.isEmpty_cons, Bool.false_eq_true, if_false]
      cases f with
      | nil =>
        -- impossible: the record at the front has key `v`, which is below every remaining value
        simp only [List.nil_append, List.cons.injEq] at hfg
        exfalso
        have : w ∈ ws := by rw [hus]; simp
        exact absurd (hvw w this) (by rw [← hbw, ← hfg.1, hav]; exact lt_irrefl v)
      | cons a' f =>
        simp only [List.cons_append, List.cons.injEq] at hfg
        obtain ⟨rfl, rfl⟩ := hfg
        obtain ⟨s1, s2, e1, e2, e3⟩ := hK.step s kept d a f (b :: g') (by simpa using hKs)
        have hn2 : n = kept.length + d + 1 + f.length := by rw [hn]; simp; omega
        rw [hn2, e1, bind_ok, e2, bind_ok, if_neg (by simp at hsz; omega)]
        have hws : (w :: ws').Pairwise (· < ·) := by
          have := (List.pairwise_cons.mp hw).2
          rw [hus] at this
          exact (List.pairwise_append.mp this).2.1
        have hincg : Increasing key (b :: g') := (List.pairwise_append.mp (List.pairwise_cons.mp hinc).2).2.1
        have hlen : (kept ++ f).length + (d + 1) = kept.length + d + 1 + f.length := by simp; omega
        obtain ⟨s', kept', d', r1, r2, r3, r4⟩ := ih ws' w s2 (kept ++ f) (d + 1) b g'
          (by rw [hus] at hfuel; simp at hfuel; omega) hws hbw hincg (by simp at hsz ⊢; omega) e3
        rw [hlen] at r1
        refine ⟨s', kept', d', r1, r2, ?_, r4⟩
        rw [r3, List.filter_cons (x := a), if_neg (by simp [hav]), List.filter_append, List.append_assoc]
        congr 1
        have hff : f.filter (fun x => decide (key x ∉ v :: ws)) = f := by
          rw [List.filter_eq_self]
          intro x hx
          apply decide_eq_true
          intro hm
          rcases List.mem_cons.mp hm with h | h
          · exact absurd (hva x (by simp [hx])) (by rw [h, hav]; exact lt_irrefl v)
          · exact hf x (by simp [hx]) h
        rw [hff]
        congr 1
        apply List.filter_congr
        intro x hx
        have hxv : key x ≠ v := by
          have := hva x (by simp only [List.mem_append]; exact Or.inr hx)
          rw [hav] at this
          exact ne_of_gt this
        have : key x ∈ v :: ws ↔ key x ∈ w :: ws' := by
          rw [List.mem_cons, hus, List.mem_append]
          constructor
          · rintro (h | h | h)
            · exact absurd h hxv
            · exact absurd rfl (hus2 _ h x hx)
            · exact h
          · exact fun h => Or.inr (Or.inr h)
        simp only [this]

/-- Range `remove`. -/
theorem removeRange_spec (c : Cfg) (t : Target σ T) (key : α → T) (K : σ → List α → Nat → List α → Prop)
    (hK : RemoveSound c t key K) (xs : List α) (vs : List T) (s : σ) (hx : Increasing key xs) (hv : vs.Pairwise (· < ·))
    (h0 : K s [] 0 xs) (Post : σ → List α → Prop) (hpost0 : Post s xs)
    (hpost : ∀ s kept d, kept.length + d = xs.length → K s kept d [] →
      ∃ s', t.modify s (fun b p => arrayManipulation.destroy c b (p + xs.length - d) d) = .ok s' ∧ Post s' kept) :
    ∃ s', removeRange c t s xs.length vs = .ok (s', (xs.filter (fun x => decide (key x ∈ vs))).length) ∧
      Post s' (xs.filter (fun x => decide (key x ∉ vs))) := by
  unfold removeRange
  have hread : ∀ i (hi : i < xs.length), t.read s i = .ok (key xs[i]) := by
    intro i hi
    have := hK.read s [] 0 xs h0 i hi
    simpa using this
  have hdbg : (c.debug && !isSortedUnique less vs) = false := by
    rw [isSortedUnique_keys hv]; simp
  rw [assertUnique_ok c key hx hread, bind_ok, hdbg, errorIf_false, bind_ok]
  have hcnt : (xs.filter (fun x => decide (key x ∈ vs))).length + (xs.filter (fun x => decide (key x ∉ vs))).length = xs.length := by
    have := List.length_eq_length_filter_add (l := xs) (fun x => decide (key x ∈ vs))
    rw [this]
    congr 2
    apply List.filter_congr
    intro x hx
    simp
  obtain ⟨f, g, n, ws, rfl, hseek, hf, hcase⟩ := seek_spec c key (t.read s) xs.length vs 0 xs (by simp) hx hv
    (fun i hi => by rw [Nat.zero_add]; exact hread i hi)
  rw [hseek, bind_ok]
  have hff : f.filter (fun x => decide (key x ∉ vs)) = f := List.filter_eq_self.mpr (fun x hx => decide_eq_true (hf x hx))
  rcases hcase with ⟨rfl, rfl⟩ | ⟨a, g', v, ws', rfl, rfl, hav, hn, us, hus, hus2⟩
  · simp only [List.isEmpty_nil, if_true]
    simp only [List.append_nil] at *
    refine ⟨s, ?_, by rw [hff]; exact hpost0⟩
    rw [hff] at hcnt
    rw [show (f.filter (fun x => decide (key x ∈ vs))).length = 0 by omega]
  · simp only [List.isEmpty_cons, Bool.false_eq_true, if_false]
    rw [Nat.zero_add] at hn
    have hsp := List.pairwise_append.mp hx
    have hws : (v :: ws').Pairwise (· < ·) := by
      rw [hus] at hv
      exact (List.pairwise_append.mp hv).2.1
    obtain ⟨s', kept', d', r1, r2, r3, r4⟩ := removeLoop_spec c t key K hK (f ++ a :: g').length vs.length ws' v s f 0 a g'
      (by rw [hus]; simp; omega) hws hav hsp.2.1 (by simp) (hK.split s f (a :: g') h0)
    rw [Nat.add_zero] at r1
    rw [hn, r1, bind_ok]
    obtain ⟨s2, e2, hP⟩ := hpost s' kept' d' r4 r2
    simp only [e2, bind_ok]
    have hk : kept' = (f ++ a :: g').filter (fun x => decide (key x ∉ vs)) := by
      rw [r3, List.filter_append, hff]
      congr 1
      apply List.filter_congr
      intro x hx
      have : key x ∈ v :: ws' ↔ key x ∈ vs := by
        rw [hus, List.mem_append]
        constructor
        · exact Or.inr
        · rintro (h | h)
          · exact absurd rfl (hus2 _ h x hx)
          · exact h
      simp only [this]
    rw [← hk] at hcnt ⊢
    refine ⟨s2, ?_, hP⟩
    rw [show d' = ((f ++ a :: g').filter (fun x => decide (key x ∈ vs))).length by omega]

end LvArray.sortedArrayManipulation
