import Verif.Props.Parallel
import Verif.Props.Sparse

/-!
# C58 for sparsity patterns
-/

namespace LvArray.Props

open LvArray Layout Spec Parallel

/-- A row of a pattern as the sets below it store it. -/
abbrev storedRow (r : Finset Nat × Nat) : List Nat × Nat := (r.1.sort (· ≤ ·), r.2)

theorem rowRun_keeps {ρ κ ω : Type} {step : κ → ρ → Option (ρ × ω)} {I : ρ → Prop}
    (hstep : ∀ call r r' o, step call r = some (r', o) → I r → I r') {calls : List (Nat × κ)} :
    ∀ {rows rows' : List ρ} {outs : List ω}, rowRun step rows calls = some (rows', outs) → (∀ r ∈ rows, I r) → ∀ r ∈ rows', I r := by
  induction calls with
  | nil => intro rows rows' outs e h; cases e; exact h
  | cons q calls ih =>
    obtain ⟨i, call⟩ := q
    intro rows rows' outs e h
    simp only [rowRun] at e
    split at e
    · cases e
    rename_i r hr
    split at e
    · cases e
    rename_i r' o hs
    obtain ⟨⟨rows2, outs2⟩, e1, e2⟩ := Option.map_eq_some_iff.1 e
    cases e2
    refine ih e1 fun x hx => ?_
    rcases List.mem_or_eq_of_mem_set hx with hx | rfl
    · exact h x hx
    · exact hstep call r _ o hs (h r (List.mem_of_getElem? hr))

theorem threadsRun_keeps {ρ κ ω : Type} {step : κ → ρ → Option (ρ × ω)} {I : ρ → Prop}
    (hstep : ∀ call r r' o, step call r = some (r', o) → I r → I r') {work : List (List (Nat × κ))} :
    ∀ {rows rows' : List ρ} {outs : List (List ω)}, threadsRun step rows work = some (rows', outs) → (∀ r ∈ rows, I r) →
      ∀ r ∈ rows', I r := by
  induction work with
  | nil => intro rows rows' outs e h; cases e; exact h
  | cons calls work ih =>
    intro rows rows' outs e h
    simp only [threadsRun] at e
    split at e
    · cases e
    rename_i rows1 outs1 h1
    obtain ⟨⟨rows2, outs2⟩, e1, e2⟩ := Option.map_eq_some_iff.1 e
    cases e2
    exact ih e1 (rowRun_keeps hstep h1 h)

theorem patCall_inRange (n : Nat) (call : PatCall) (r r' : Finset Nat × Nat) (o : RowOut Nat) (hs : call.step n r = some (r', o))
    (h : ∀ k ∈ r.1, k < n) : ∀ k ∈ r'.1, k < n := by
  obtain ⟨S, cap⟩ := r
  cases call with
  | insert j =>
    simp only [PatCall.step] at hs
    split at hs <;> cases hs
    rename_i hc
    intro k hk
    rcases Finset.mem_insert.1 hk with rfl | hk
    · exact hc.1
    · exact h k hk
  | insertMany js =>
    simp only [PatCall.step] at hs
    split at hs <;> cases hs
    rename_i hc
    intro k hk
    rcases Finset.mem_union.1 hk with hk | hk
    · exact h k hk
    · exact hc.1 k (List.mem_toFinset.1 hk)
  | remove j =>
    simp only [PatCall.step] at hs
    split at hs <;> cases hs
    exact fun k hk => h k (Finset.mem_of_mem_erase hk)
  | removeMany js =>
    simp only [PatCall.step] at hs
    split at hs <;> cases hs
    exact fun k hk => h k (Finset.mem_sdiff.1 hk).1
  | isEmpty j => cases hs; exact h
  | getColumn j =>
    simp only [PatCall.step] at hs
    obtain ⟨v, hv, hs⟩ := Option.map_eq_some_iff.1 hs
    cases hs
    exact h
  | size => cases hs; exact h

/-- What the theorems below say, for a pattern whose rows and capacities are known. -/
theorem patterns_in_parallel (c : Cfg) {s : Sp} {n : Nat} {rows rows' : List (Finset Nat × Nat)} (hn : s.numCols = n)
    (hg : AGood s.sets (rows.map storedRow)) (hin : ∀ r ∈ rows, ∀ k ∈ r.1, k < n) (work : List (List (Nat × PatCall)))
    (hap : Apart work) (outs : List (List (RowOut Nat))) (hs : threadsRun (PatCall.step n) rows work = some (rows', outs)) :
    ∃ N, ∀ sched, ∃ st ts,
      interleave (Parallel.Prog.turn ⟨c, c⟩) s.sets.shared (threads (patternCode c s.numCols) work) sched = .ok (st, ts) ∧
      (∀ t, t < work.length → N ≤ sched.count t → ∃ q, Returned ts t q) ∧
      (∀ t q, Returned ts t q → outs[t]? = some q ∧
        ∀ calls, work[t]? = some calls → ∀ call ∈ calls, ∃ r, rows'[call.1]? = some r ∧
          ShowsRow c st.array call.1 (r.1.sort (· ≤ ·))) ∧
      (AllReturned ts → SpGood { s with sets := st.array } { numCols := n, rows := rows'.map (·.1) } ∧
        Capacities c st.array (rows.map (·.2)) ∧ st.values.lostLive = 0) := by
  obtain ⟨N, hN⟩ := parallel_rows (row := storedRow) hg (patternCode_ok (c := c) s.numCols) rfl work hap outs (by rw [hn]; exact hs)
  refine ⟨N, fun sched => ?_⟩
  obtain ⟨st, ts, h1, h2, h3, h4⟩ := hN sched
  refine ⟨st, ts, h1, h2, h3, fun hall => ?_⟩
  obtain ⟨h5, h6⟩ := h4 hall
  refine ⟨⟨hn, ⟨_, h5, by simp [storedRow]⟩, ?_⟩, ?_, h5.lay.lost⟩
  · have key := threadsRun_keeps (I := fun r : Finset Nat × Nat => ∀ k ∈ r.1, k < n) (patCall_inRange n) hs hin
    intro S hS
    simp only [List.mem_map] at hS
    obtain ⟨r, hr, rfl⟩ := hS
    exact key r hr
  · have e : (rows.map storedRow).map (·.2) = rows.map (·.2) := by simp [storedRow]
    rw [← e, ← h6]
    exact capacities_of_good h5

/-- **C58 (patterns).** Threads call `insertNonZero( s )`, `removeNonZero( s )`, `empty`, `numNonZeros` and `getColumns()[ j ]` on views
of one `SparsityPattern`; no row is used by two threads, and each call would be allowed if the threads ran one after another: columns
are in range, ranges strictly increasing, and rows keep to their capacity.  Then for every number of threads and every schedule of
their single accesses: no access fails; every thread that gets enough turns returns, whatever the others do; what its calls have
returned, and the columns of its rows, are what they would be if the threads ran one after another; once all have returned this is so
for the whole pattern, the capacities are unchanged and no column was overwritten or lost.  `caps` are the capacities of the rows. -/
theorem C58_patterns_in_parallel (c : Cfg) (ht : c.trivial = true) {colMax : Nat} {s : Sp} {P : Pattern} {caps : List Nat}
    {rows' : List (Finset Nat × Nat)} (h : ReachPattern c colMax s P) (hl : caps.length = P.rows.length)
    (hc : Capacities c s.sets caps) (work : List (List (Nat × PatCall))) (hap : Apart work) (outs : List (List (RowOut Nat)))
    (hs : threadsRun (PatCall.step P.numCols) (P.rows.zip caps) work = some (rows', outs)) :
    ∃ N, ∀ sched, ∃ st ts,
      interleave (Parallel.Prog.turn ⟨c, c⟩) s.sets.shared (threads (patternCode c s.numCols) work) sched = .ok (st, ts) ∧
      (∀ t, t < work.length → N ≤ sched.count t → ∃ q, Returned ts t q) ∧
      (∀ t q, Returned ts t q → outs[t]? = some q ∧
        ∀ calls, work[t]? = some calls → ∀ call ∈ calls, ∃ r, rows'[call.1]? = some r ∧
          ShowsRow c st.array call.1 (r.1.sort (· ≤ ·))) ∧
      (AllReturned ts → ShowsPattern c { s with sets := st.array } { P with rows := rows'.map (·.1) } ∧
        Capacities c st.array caps ∧ st.values.lostLive = 0) := by
  have hgood := reachPattern_good ht h
  obtain ⟨L, hg, hL⟩ := hgood.sets
  have hlen : L.length = P.rows.length := by simpa using congrArg List.length hL
  have hcaps : L.map (·.2) = caps := by
    apply List.ext_getElem (by simp; omega)
    intro i h1 h2
    have e1 := hc i h2
    have e2 := capacities_of_good (c := c) hg i h1
    rw [e1] at e2
    exact (Except.ok.inj e2).symm
  have hrow : (P.rows.zip caps).map storedRow = L := by
    apply List.ext_getElem (by simp; omega)
    intro i h1 h2
    have e1 : (L.map (·.1))[i]? = (P.rows.map (·.sort (· ≤ ·)))[i]? := by rw [hL]
    have hi : i < P.rows.length := by omega
    simp [h2, hi] at e1
    simp only [List.getElem_map, List.getElem_zip, storedRow, ← hcaps, ← e1]
  have hz : (P.rows.zip caps).map (·.2) = caps := by rw [List.map_snd_zip (by omega)]
  obtain ⟨N, hN⟩ := patterns_in_parallel c hgood.cols (by rw [hrow]; exact hg) (fun r hr k hk =>
    hgood.inRange r.1 (List.of_mem_zip (a := r.1) (b := r.2) hr).1 k hk) work hap outs hs
  refine ⟨N, fun sched => ?_⟩
  obtain ⟨st, ts, h1, h2, h3, h4⟩ := hN sched
  refine ⟨st, ts, h1, h2, h3, fun hall => ?_⟩
  obtain ⟨h5, h6, h7⟩ := h4 hall
  rw [hz] at h6
  exact ⟨showsPattern_of_good ht h5, h6, h7⟩

/-! ### Non-vacuity -/

/-- Three rows with four columns; two threads, the second uses two rows, one of them up to its capacity. -/
def patternWork : List (List (Nat × PatCall)) :=
  [[(0, .insertMany [0, 3]), (0, .remove 1), (0, .isEmpty 3)], [(2, .insert 2), (1, .insertMany [1, 2]), (2, .getColumn 0), (1, .size)]]

example : threadsRun (PatCall.step 4) [({1}, 3), (∅, 2), (∅, 4)] patternWork =
    some ([({0, 3}, 3), ({1, 2}, 2), ({2}, 4)], [[.num 2, .bool true, .bool false], [.bool true, .num 2, .val 2, .num 2]]) := by
  decide +kernel

/-- Such a pattern can be reached. -/
example : ∃ s, ReachPattern { trivial := true, boundsCheck := true, debug := true } 10 s { numCols := 4, rows := [{1}, ∅, ∅] } ∧
    Capacities { trivial := true, boundsCheck := true, debug := true } s.sets [3, 2, 4] := by
  have key : (Sp.mk' { trivial := true, boundsCheck := true, debug := true } 10 3 4 4 >>= fun s =>
      Sp.run { trivial := true, boundsCheck := true, debug := true } 10 s [.insert 0 1, .setRowCapacity 0 3, .setRowCapacity 1 2] >>= fun r => do
      .ok (r.2, ← r.1.sets.shape.capacityOfArray { trivial := true, boundsCheck := true, debug := true } 0,
        ← r.1.sets.shape.capacityOfArray { trivial := true, boundsCheck := true, debug := true } 1,
        ← r.1.sets.shape.capacityOfArray { trivial := true, boundsCheck := true, debug := true } 2)) =
      .ok ([.bool true, .unit, .unit], 3, 2, 4) := by decide +kernel
  obtain ⟨s0, h1, key⟩ := bind_eq_ok.1 key
  obtain ⟨⟨s, outs⟩, h2, key⟩ := bind_eq_ok.1 key
  obtain ⟨x, e1, key⟩ := bind_eq_ok.1 key
  obtain ⟨y, e2, key⟩ := bind_eq_ok.1 key
  obtain ⟨z, e3, key⟩ := bind_eq_ok.1 key
  simp only [Except.ok.injEq, Prod.mk.injEq] at key
  obtain ⟨rfl, rfl, rfl, rfl⟩ := key
  refine ⟨s, ⟨3, 4, 4, [.insert 0 1, .setRowCapacity 0 3, .setRowCapacity 1 2], _, s0, by decide, h1, h2, by decide +kernel⟩, ?_⟩
  intro i hi
  match i, hi with
  | 0, _ => exact e1
  | 1, _ => exact e2
  | 2, _ => exact e3

example : Apart patternWork := by
  intro t u ct cu ht hu hne
  match t, u, ht, hu with
  | 0, 0, _, _ => exact absurd rfl hne
  | 0, 1, ht, hu => cases ht; cases hu; decide
  | 1, 0, ht, hu => cases ht; cases hu; decide
  | 1, 1, _, _ => exact absurd rfl hne
  | 0, _ + 2, _, hu => simp [patternWork] at hu
  | 1, _ + 2, _, hu => simp [patternWork] at hu
  | _ + 2, _, ht, _ => simp [patternWork] at ht

end LvArray.Props
