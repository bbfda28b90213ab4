import Verif.AoALemmas

/-!
# Every operation of `ArrayOfArrays` against the specification
-/

namespace LvArray

open Layout Spec

variable {T : Type} [Inhabited T]

theorem grown_eq (xs : List T) (cap k : Nat) : Spec.grown cap (xs.length + k) = AGood.grownTo xs cap k := rfl

theorem onRowC_some {L L' : Layout T} {i : Nat} {ok : List T → Bool} {f : List T × Nat → List T × Nat}
    (h : onRowC L i ok f = some L') :
    ∃ A xs cap B, L = A ++ (xs, cap) :: B ∧ A.length = i ∧ ok xs = true ∧ L' = A ++ f (xs, cap) :: B := by
  unfold onRowC at h
  split at h
  · rename_i r hr
    obtain ⟨hi, hr⟩ := List.getElem?_eq_some_iff.1 hr
    split at h
    · rename_i hok
      cases h
      obtain ⟨A, xs, cap, B, rfl, hA, hx⟩ := split1 hi
      subst hA
      have : r = (xs, cap) := by rw [← hr]; simp
      subst this
      refine ⟨A, xs, cap, B, rfl, rfl, hok, ?_⟩
      rw [List.set_append_right _ _ (Nat.le_refl _)]
      simp
    · cases h
  · cases h

theorem onRowC_none {L : Layout T} {i : Nat} {ok : List T → Bool} {f : List T × Nat → List T × Nat}
    (h : onRowC L i ok f = none) :
    L.length ≤ i ∨ ∃ A xs cap B, L = A ++ (xs, cap) :: B ∧ A.length = i ∧ ok xs = false := by
  by_cases hi : i < L.length
  · right
    obtain ⟨A, xs, cap, B, rfl, hA, hx⟩ := split1 hi
    subst hA
    refine ⟨A, xs, cap, B, rfl, rfl, ?_⟩
    unfold onRowC at h
    simp at h
    exact h
  · left; omega

/-- In a debug build, inserting an empty range into an array is legal only once something has been allocated. -/
def AoAOp.nonEmptyInsert : AoAOp T → Prop
  | .insertIntoArray _ _ vs => vs ≠ []
  | _ => True

theorem Out.ofNeed {c : Cfg} {a : AoA T} {L L' : Layout T} {r : R (AoA T)}
    (h : ∃ a', r = .ok a' ∧ AGood a' L' ∧ a.values.cap ≤ a'.values.cap) {n : Nat} (hn : n ≤ a.values.cap) :
    Out a.values.cap (Room c a L n) r L' := .inl ⟨.inl hn, h⟩

/-- **Every legal operation** has the specified effect on elements and capacities, or moves memory without objects because the
allocation has to grow and cannot be relocated. -/
theorem step_exact (c : Cfg) {a : AoA T} {L L' : Layout T} (h : AGood a L) (op : AoAOp T)
    (hs : vvcStep L op = some L') (hd : c.debug = true → op.nonEmptyInsert) :
    Out a.values.cap (Room c a L (needed op L')) (a.step c op) L' := by
  have hroom := h.lay.room
  have htot : ∀ L : Layout T, (L.map (·.2)).sum = total L := fun L => caps_sum L
  cases op with
  | resize n d =>
    simp only [vvcStep, Option.some.injEq] at hs
    simp only [needed, htot]
    by_cases hn : n < L.length
    · have hL' : L' = L.take n := by rw [← hs, show n - L.length = 0 by omega]; simp
      subst hL'
      refine Out.ofNeed ?_ ?_
      · have := (show AGood a (L.take n ++ L.drop n) by rw [List.take_append_drop]; exact h).weak.resizeShrink (c := c)
          (by intro hh; have := congrArg List.length hh; simp at this; omega) d
        rw [show (L.take n).length = n by simp; omega] at this
        exact this
      · have : total (L.take n) + total (L.drop n) = total L := by rw [← total_append, List.take_append_drop]
        omega
    · have hL' : L' = L ++ List.replicate (n - L.length) ([], d) := by
        rw [← hs, List.take_of_length_le (by omega)]
      subst hL'
      exact h.weak.resizeGrow n d (by omega)
  | reserve n =>
    simp only [vvcStep, Option.some.injEq] at hs
    subst hs
    exact Out.ofNeed (h.reserve n) (by simp only [needed, htot]; exact hroom)
  | reserveValues n =>
    simp only [vvcStep, Option.some.injEq] at hs
    subst hs
    exact (h.reserveValues n).1
  | compress =>
    simp only [vvcStep, Option.some.injEq] at hs
    subst hs
    refine Out.ofNeed h.compress ?_
    simp only [needed, htot]
    refine Nat.le_trans ?_ hroom
    have hf := h.lay.fits
    clear hd hroom h
    induction L with
    | nil => simp
    | cons r L ih =>
      have h1 := hf r (by simp)
      have h2 := ih (fun q hq => hf q (by simp [hq]))
      simp only [List.map_cons, total_cons] at h2 ⊢
      omega
  | appendArraySize n =>
    simp only [vvcStep, Option.some.injEq] at hs
    subst hs
    exact (h.appendArraySize n).congr (by simp only [needed, htot])
  | appendArray vs =>
    simp only [vvcStep, Option.some.injEq] at hs
    have : Spec.grown 0 vs.length = 2 * vs.length := by unfold Spec.grown; split <;> omega
    rw [this] at hs
    subst hs
    exact (h.appendArray vs).congr (by simp only [needed, htot])
  | insertArray i vs =>
    have : Spec.grown 0 vs.length = 2 * vs.length := by unfold Spec.grown; split <;> omega
    simp only [vvcStep, this] at hs
    split at hs
    · rename_i hi
      cases hs
      have := (show AGood a (L.take i ++ L.drop i) by rw [List.take_append_drop]; exact h).insertArray (c := c) vs
      rw [show (L.take i).length = i by simp; omega, List.take_append_drop] at this
      exact this.congr (by simp only [needed, htot])
    · cases hs
  | eraseArray i =>
    simp only [vvcStep] at hs
    split at hs
    · rename_i hi
      cases hs
      obtain ⟨A, xs, cap, B, rfl, rfl, _⟩ := split1 hi
      have e : (A ++ (xs, cap) :: B).eraseIdx A.length = A ++ B := by
        rw [List.eraseIdx_append_of_length_le (Nat.le_refl _)]; simp
      rw [e]
      refine Out.ofNeed h.eraseArray ?_
      simp only [needed, htot]
      simp at hroom ⊢; omega
    · cases hs
  | emplaceBack i v =>
    simp only [vvcStep] at hs
    obtain ⟨A, xs, cap, B, rfl, rfl, _, rfl⟩ := onRowC_some hs
    exact (h.emplaceBack v).congr (by simp only [needed, htot]; rfl)
  | appendToArray i vs =>
    simp only [vvcStep] at hs
    obtain ⟨A, xs, cap, B, rfl, rfl, _, rfl⟩ := onRowC_some hs
    exact (h.appendToArray vs).congr (by simp only [needed, htot]; rfl)
  | emplace i j v =>
    simp only [vvcStep] at hs
    obtain ⟨A, xs, cap, B, rfl, rfl, hj, rfl⟩ := onRowC_some hs
    exact (h.emplace j (by simpa using hj) v).congr (by simp only [needed, htot]; rfl)
  | insertIntoArray i j vs =>
    simp only [vvcStep] at hs
    obtain ⟨A, xs, cap, B, rfl, rfl, hj, rfl⟩ := onRowC_some hs
    exact (h.insertIntoArray j (by simpa using hj) vs hd).congr (by simp only [needed, htot]; rfl)
  | eraseFromArray i j n =>
    simp only [vvcStep] at hs
    obtain ⟨A, xs, cap, B, rfl, rfl, hj, rfl⟩ := onRowC_some hs
    simp only [decide_eq_true_eq] at hj
    refine Out.ofNeed (h.eraseFromArray j n hj.1 hj.2) ?_
    simp only [needed, htot]
    simpa using hroom
  | resizeArray i n v =>
    simp only [vvcStep] at hs
    obtain ⟨A, xs, cap, B, rfl, rfl, _, rfl⟩ := onRowC_some hs
    exact (h.resizeArray n v).congr (by simp only [needed, htot])
  | clearArray i =>
    simp only [vvcStep] at hs
    obtain ⟨A, xs, cap, B, rfl, rfl, _, rfl⟩ := onRowC_some hs
    have := h.resizeArray (c := c) 0 (default : T)
    simp only [List.take_zero, Nat.zero_sub, List.replicate_zero, List.append_nil, Nat.max_zero] at this
    exact this.congr (by simp only [needed, htot])
  | setCapacityOfArray i n =>
    simp only [vvcStep] at hs
    obtain ⟨A, xs, cap, B, rfl, rfl, _, rfl⟩ := onRowC_some hs
    exact (h.setCapacity n).congr (by simp only [needed, htot])
  | set i j v =>
    simp only [vvcStep] at hs
    obtain ⟨A, xs, cap, B, rfl, rfl, hj, rfl⟩ := onRowC_some hs
    refine Out.ofNeed (h.set j (by simpa using hj) v) ?_
    simp only [needed, htot]
    simpa using hroom
  | resizeFromCapacities cs =>
    simp only [vvcStep, Option.some.injEq] at hs
    subst hs
    exact Out.ofNeed (h.weak.resizeFromCapacities cs) (by simp [needed])

/-- **Every illegal operation** is reported in a build with bounds checks: unless the growth before the check already moved
memory without objects. -/
theorem step_illegal (c : Cfg) {a : AoA T} {L : Layout T} (h : AGood a L) (op : AoAOp T) (hb : c.boundsCheck = true)
    (hs : vvcStep L op = none) :
    a.step c op = .error .abort ∨ (c.trivial = false ∧ a.step c op = .error (.ub .rawRead)) := by
  have outside : ∀ {i}, L.length ≤ i → a.shape.checkBounds c i = .error .abort := fun hi =>
    ShGood.checkBounds_abort h.shape hb (by simpa using hi)
  have outside2 : ∀ {i}, L.length ≤ i → a.shape.sizeOfArray c i = .error .abort := fun hi =>
    ShGood.sizeOf_abort h.shape hb (by simpa using hi)
  have outside3 : ∀ {i} (j), L.length ≤ i → a.shape.checkBounds2 c i j = .error .abort := fun j hi =>
    ShGood.checkBounds2_abort h.shape hb (by
      intro n hn
      obtain ⟨hlt, _⟩ := List.getElem?_eq_some_iff.1 hn
      simp at hlt; omega)
  -- a growth, then a check that fails
  have grow : ∀ (i k : Nat) (A B : Layout T) (xs : List T) (cap : Nat) (f : AoA T → R (AoA T)), AGood a (A ++ (xs, cap) :: B) →
      A.length = i → (∀ a', AGood a' (A ++ (xs, AGood.grownTo xs cap k) :: B) → f a' = .error .abort) →
      (a.dynamicallyGrowArray c i k >>= f) = .error .abort ∨
        (c.trivial = false ∧ (a.dynamicallyGrowArray c i k >>= f) = .error (.ub .rawRead)) := by
    intro i k A B xs cap f hg hi hf
    subst hi
    rcases hg.dynamicallyGrow (c := c) k with ⟨_, a', h1, h2, _⟩ | ⟨h1, h2⟩
    · rw [h1, bind_ok]; exact .inl (hf a' h2)
    · rw [h2, bind_err]
      refine .inr ⟨?_, rfl⟩
      cases hc : c.trivial
      · rfl
      · exact absurd (.inr (.inl hc)) h1
  cases op with
  | resize n d => cases hs
  | reserve n => cases hs
  | reserveValues n => cases hs
  | compress => cases hs
  | appendArraySize n => cases hs
  | appendArray vs => cases hs
  | insertArray i vs =>
    simp only [vvcStep] at hs
    split at hs
    · cases hs
    · left
      simp only [AoA.step, AoA.insertArray, Shape.insertRow]
      rw [ShGood.checkInsertBounds_abort h.shape hb (by simp; omega)]
      rfl
  | eraseArray i =>
    simp only [vvcStep] at hs
    split at hs
    · cases hs
    · left
      simp only [AoA.step, AoA.eraseArray]
      rw [outside (by omega)]
      rfl
  | emplaceBack i v =>
    simp only [vvcStep] at hs
    rcases onRowC_none hs with hi | ⟨_, _, _, _, _, _, hh⟩
    · left
      simp only [AoA.step, AoA.emplaceBack, AoA.dynamicallyGrowArray]
      rw [outside2 hi]; rfl
    · cases hh
  | appendToArray i vs =>
    simp only [vvcStep] at hs
    rcases onRowC_none hs with hi | ⟨_, _, _, _, _, _, hh⟩
    · left
      simp only [AoA.step, AoA.appendToArray, AoA.dynamicallyGrowArray]
      rw [outside2 hi]; rfl
    · cases hh
  | emplace i j v =>
    simp only [vvcStep] at hs
    rcases onRowC_none hs with hi | ⟨A, xs, cap, B, rfl, hA, hh⟩
    · left
      simp only [AoA.step, AoA.emplace, AoA.dynamicallyGrowArray]
      rw [outside2 hi]; rfl
    · refine grow i 1 A B xs cap _ h hA (fun a' ha' => ?_)
      subst hA
      unfold AoA.viewEmplace
      rw [ShGood.checkInsertBounds2_abort ha'.shape hb (by intro n hn; simp [szs] at hn hh; omega)]
      rfl
  | insertIntoArray i j vs =>
    simp only [vvcStep] at hs
    rcases onRowC_none hs with hi | ⟨A, xs, cap, B, rfl, hA, hh⟩
    · left
      simp only [AoA.step, AoA.insertIntoArray, AoA.dynamicallyGrowArray]
      rw [outside2 hi]; rfl
    · refine grow i vs.length A B xs cap _ h hA (fun a' ha' => ?_)
      subst hA
      unfold AoA.viewInsertIntoArray
      rw [ShGood.checkInsertBounds2_abort ha'.shape hb (by intro n hn; simp [szs] at hn hh; omega)]
      rfl
  | eraseFromArray i j n =>
    left
    simp only [AoA.step, AoA.eraseFromArray]
    simp only [vvcStep] at hs
    rcases onRowC_none hs with hi | ⟨A, xs, cap, B, rfl, hA, hh⟩
    · rw [outside3 j hi]; rfl
    · subst hA
      by_cases hj : j < xs.length
      · rw [ShGood.checkBounds2 h.shape (by simp) (by simpa [szs] using hj), bind_ok, h.ptr, bind_ok,
          h.shape.sizeOfAt rfl, bind_ok]
        simp only [decide_eq_false_iff_not, not_and] at hh
        have := hh hj
        unfold arrayManipulation.erase arrayManipulation.checkBounds
        rw [if_neg (by omega)]
        simp only [errorIf, hb, Bool.true_and]
        rw [if_neg (by simpa using hj), bind_ok, if_pos (by simp; omega)]
        rfl
      · rw [ShGood.checkBounds2_abort h.shape hb (by intro n hn; simp [szs] at hn; omega)]
        rfl
  | resizeArray i n v =>
    simp only [vvcStep] at hs
    rcases onRowC_none hs with hi | ⟨_, _, _, _, _, _, hh⟩
    · left
      simp only [AoA.step, AoA.resizeArray]
      rw [outside hi]; rfl
    · cases hh
  | clearArray i =>
    simp only [vvcStep] at hs
    rcases onRowC_none hs with hi | ⟨_, _, _, _, _, _, hh⟩
    · left
      simp only [AoA.step, AoA.clearArray, AoA.resizeArray]
      rw [outside hi]; rfl
    · cases hh
  | setCapacityOfArray i n =>
    simp only [vvcStep] at hs
    rcases onRowC_none hs with hi | ⟨_, _, _, _, _, _, hh⟩
    · left
      simp only [AoA.step, AoA.setCapacityOfArray]
      rw [outside hi]; rfl
    · cases hh
  | set i j v =>
    left
    simp only [AoA.step, AoA.set]
    simp only [vvcStep] at hs
    rcases onRowC_none hs with hi | ⟨A, xs, cap, B, rfl, hA, hh⟩
    · rw [outside3 j hi]; rfl
    · subst hA
      rw [ShGood.checkBounds2_abort h.shape hb (by intro n hn; simp [szs] at hn hh; omega)]
      rfl
  | resizeFromCapacities cs => cases hs

/-! ### The two specifications agree -/

theorem onRowC_fst (L : Layout T) (i : Nat) (ok : List T → Bool) (f : List T → List T) (g : List T × Nat → List T × Nat)
    (hg : ∀ r, (g r).1 = f r.1) : (onRowC L i ok g).map (List.map (·.1)) = onRow (L.map (·.1)) i ok f := by
  unfold onRowC onRow
  rw [List.getElem?_map]
  cases hL : L[i]? with
  | none => rfl
  | some r =>
    simp only [Option.map_some]
    split
    · simp [List.map_set, hg]
    · rfl

theorem vvcStep_fst (L : Layout T) (op : AoAOp T) :
    (vvcStep L op).map (List.map (·.1)) = vvStep (L.map (·.1)) op := by
  cases op with
  | resize n d => simp [vvcStep, vvStep, List.map_take]
  | reserve n => rfl
  | reserveValues n => rfl
  | compress => simp [vvcStep, vvStep]
  | appendArraySize n => simp [vvcStep, vvStep]
  | appendArray vs => simp [vvcStep, vvStep]
  | insertArray i vs =>
    simp only [vvcStep, vvStep, List.length_map]
    split <;> simp [List.map_take, List.map_drop]
  | eraseArray i =>
    simp only [vvcStep, vvStep, List.length_map]
    split
    · simp [List.eraseIdx_eq_take_drop_succ, List.map_take, List.map_drop]
    · rfl
  | emplaceBack i v => simpa only [vvcStep, vvStep] using onRowC_fst _ _ _ _ _ (fun _ => rfl)
  | appendToArray i vs => simpa only [vvcStep, vvStep] using onRowC_fst _ _ _ _ _ (fun _ => rfl)
  | emplace i j v => simpa only [vvcStep, vvStep] using onRowC_fst _ _ _ _ _ (fun _ => rfl)
  | insertIntoArray i j vs => simpa only [vvcStep, vvStep] using onRowC_fst _ _ _ _ _ (fun _ => rfl)
  | eraseFromArray i j n => simpa only [vvcStep, vvStep] using onRowC_fst _ _ _ _ _ (fun _ => rfl)
  | resizeArray i n v => simpa only [vvcStep, vvStep] using onRowC_fst _ _ _ _ _ (fun _ => rfl)
  | clearArray i => simpa only [vvcStep, vvStep] using onRowC_fst _ _ _ _ _ (fun _ => rfl)
  | setCapacityOfArray i n => simpa only [vvcStep, vvStep] using onRowC_fst _ _ _ _ _ (fun _ => rfl)
  | set i j v => simpa only [vvcStep, vvStep] using onRowC_fst _ _ _ _ _ (fun _ => rfl)
  | resizeFromCapacities cs => simp [vvcStep, vvStep, Function.comp_def, List.map_const']

theorem vvcRun_fst (L : Layout T) (ops : List (AoAOp T)) :
    (vvcRun L ops).map (List.map (·.1)) = vvRun (L.map (·.1)) ops := by
  induction ops generalizing L with
  | nil => rfl
  | cons op ops ih =>
    unfold vvcRun vvRun
    rw [← vvcStep_fst]
    cases vvcStep L op with
    | none => rfl
    | some L' => exact ih L'

/-! ### Histories -/

theorem run_trivial (c : Cfg) (ht : c.trivial = true) (ops : List (AoAOp T))
    (hd : c.debug = true → ∀ op ∈ ops, op.nonEmptyInsert) {a : AoA T} {L L' : Layout T} (h : AGood a L)
    (hs : vvcRun L ops = some L') : ∃ a', AoA.run c a ops = .ok a' ∧ AGood a' L' := by
  induction ops generalizing a L with
  | nil => cases hs; exact ⟨a, rfl, h⟩
  | cons op ops ih =>
    unfold vvcRun at hs
    cases h1 : vvcStep L op with
    | none => rw [h1] at hs; cases hs
    | some L1 =>
      rw [h1] at hs
      unfold AoA.run
      rcases step_exact c h op h1 (fun hh => hd hh op (by simp)) with ⟨_, a1, h2, h3, _⟩ | ⟨h2, _⟩
      · rw [h2, bind_ok]
        exact ih (fun hh o ho => hd hh o (by simp [ho])) h3 hs
      · exact absurd (.inr (.inl ht)) h2

theorem run_any (c : Cfg) (ops : List (AoAOp T)) (hd : c.debug = true → ∀ op ∈ ops, op.nonEmptyInsert) {a : AoA T}
    {L L' : Layout T} (h : AGood a L) (hs : vvcRun L ops = some L') :
    (∃ a', AoA.run c a ops = .ok a' ∧ AGood a' L') ∨
    (c.trivial = false ∧ AoA.run c a ops = .error (.ub .rawRead)) := by
  induction ops generalizing a L with
  | nil => cases hs; exact .inl ⟨a, rfl, h⟩
  | cons op ops ih =>
    unfold vvcRun at hs
    cases h1 : vvcStep L op with
    | none => rw [h1] at hs; cases hs
    | some L1 =>
      rw [h1] at hs
      unfold AoA.run
      rcases step_exact c h op h1 (fun hh => hd hh op (by simp)) with ⟨_, a1, h2, h3, _⟩ | ⟨h2, h3⟩
      · rw [h2, bind_ok]
        exact ih (fun hh o ho => hd hh o (by simp [ho])) h3 hs
      · rw [h3, bind_err]
        refine .inr ⟨?_, rfl⟩
        cases hc : c.trivial
        · rfl
        · exact absurd (.inr (.inl hc)) h2

/-- When the allocation is large enough for everything that follows, nothing is ever relocated. -/
theorem run_reserved (c : Cfg) (ops : List (AoAOp T)) (hd : c.debug = true → ∀ op ∈ ops, op.nonEmptyInsert) {a : AoA T}
    {L L' : Layout T} (h : AGood a L) (hs : vvcRun L ops = some L')
    (hcap : ∀ pre op post M, ops = pre ++ op :: post → vvcRun L (pre ++ [op]) = some M → needed op M ≤ a.values.cap) :
    ∃ a', AoA.run c a ops = .ok a' ∧ AGood a' L' := by
  induction ops generalizing a L with
  | nil => cases hs; exact ⟨a, rfl, h⟩
  | cons op ops ih =>
    unfold vvcRun at hs
    cases h1 : vvcStep L op with
    | none => rw [h1] at hs; cases hs
    | some L1 =>
      rw [h1] at hs
      unfold AoA.run
      have hn := hcap [] op ops L1 rfl (by simp [vvcRun, h1])
      rcases step_exact c h op h1 (fun hh => hd hh op (by simp)) with ⟨_, a1, h2, h3, h4⟩ | ⟨h2, _⟩
      · rw [h2, bind_ok]
        refine ih (fun hh o ho => hd hh o (by simp [ho])) h3 hs ?_
        intro pre o post M hp hM
        refine Nat.le_trans (hcap (op :: pre) o post M (by simp [hp]) ?_) h4
        simp [vvcRun, h1, hM]
      · exact absurd (.inl hn) h2

/-- Constructing an object. -/
theorem mk_good (c : Cfg) (n d : Nat) :
    ∃ a, (AoA.mk' c n d : R (AoA T)) = .ok a ∧ AGood a (List.replicate n ([], d)) := by
  have := (AWeak.fresh (T := T)).resizeGrow (c := c) n d (by simp)
  rcases this with ⟨_, a, h1, h2, _⟩ | ⟨h1, _⟩
  · exact ⟨a, h1, by simpa using h2⟩
  · exact absurd (.inr (.inr (by intro r hr; simp at hr))) h1

end LvArray
