import Verif.ConcurrentLemmas
import Verif.ConcurrentAdd
import Verif.Props.ArrayOfArrays
import Verif.Props.Sparse

/-!
# C26, C31: concurrent `emplaceBackAtomic` and atomic `addToRow`

A schedule is a list of thread numbers: whose turn is next.  The theorems hold for every schedule, so for every interleaving of
any number of threads with any calls.
-/

namespace LvArray.Props

open LvArray Layout Spec Concurrent

/-! ### Finishing -/

/-- If every turn of a thread with work left reduces its work, the work left is at most the work at the beginning minus the number
of turns. -/
theorem interleave_progress {σ τ : Type} {step : σ → τ → R (σ × τ)} (work : τ → Nat)
    (hw : ∀ s t s' t', step s t = .ok (s', t') → work t' ≤ work t - 1) (sched : List Nat) :
    ∀ (s : σ) (ts : List τ) (s' : σ) (ts' : List τ), interleave step s ts sched = .ok (s', ts') →
      ∀ (k : Nat) t', ts'[k]? = some t' → ∃ t, ts[k]? = some t ∧ work t' ≤ work t - sched.count k := by
  induction sched with
  | nil =>
    intro s ts s' ts' h k t' hk
    simp only [interleave, Except.ok.injEq, Prod.mk.injEq] at h
    obtain ⟨rfl, rfl⟩ := h
    exact ⟨t', hk, by simp⟩
  | cons j js ih =>
    intro s ts s' ts' h k t' hk
    unfold interleave at h
    cases hj : ts[j]? with
    | none =>
      simp only [hj] at h
      obtain ⟨t, h1, h2⟩ := ih s ts s' ts' h k t' hk
      refine ⟨t, h1, ?_⟩
      have : j ≠ k := by rintro rfl; rw [hj] at h1; cases h1
      rw [List.count_cons_of_ne this]
      exact h2
    | some u =>
      simp only [hj] at h
      obtain ⟨⟨s1, u1⟩, h3, h4⟩ := bind_eq_ok.1 h
      obtain ⟨t, h1, h2⟩ := ih _ _ s' ts' h4 k t' hk
      have hjl : j < ts.length := by rw [List.getElem?_eq_some_iff] at hj; exact hj.1
      by_cases e : j = k
      · subst e
        simp only at h1
        rw [List.getElem?_set_self hjl] at h1
        cases h1
        refine ⟨u, hj, ?_⟩
        have := hw s u s1 u1 h3
        rw [List.count_cons_self]
        omega
      · simp only at h1
        rw [List.getElem?_set_ne e] at h1
        exact ⟨t, h1, by rw [List.count_cons_of_ne e]; exact h2⟩

/-! ### C26 -/

variable {T : Type} [Inhabited T]

/-- The values that calls `emplaceBackAtomic( i, v )` append to array `i`. -/
def valuesFor (i : Nat) (calls : List (Nat × T)) : List T := (calls.filter fun q => q.1 == i).map (·.2)

/-- All calls have returned. -/
def Finished (ts : List (Appender T)) : Prop := ∀ t ∈ ts, t.calls = []

/-- All calls name existing arrays, and every array has room for all the values appended to it.  `prog` has the calls of every
thread, `L` the arrays with their capacities. -/
def Fits (L : List (List T × Nat)) (prog : List (List (Nat × T))) : Prop :=
  (∀ calls ∈ prog, ∀ q ∈ calls, q.1 < L.length) ∧
  ∀ (i : Nat) xs cap, L[i]? = some (xs, cap) → xs.length + (valuesFor i prog.flatten).length ≤ cap

/-- What the threads leave behind: array `i` has its old values, then all the values appended by all threads, those of one thread
in the order of its calls; the capacities are unchanged. -/
def AppendedAll (c : Cfg) (a : AoA T) (L : List (List T × Nat)) (prog : List (List (Nat × T))) : Prop :=
  ∃ L' : List (List T × Nat), Shows c a (L'.map (·.1)) ∧ Capacities c a (L.map (·.2)) ∧ L'.length = L.length ∧
    ∀ (i : Nat) xs cap, L[i]? = some (xs, cap) → ∃ new, L'[i]? = some (xs ++ new, cap) ∧
      new.Perm (valuesFor i prog.flatten) ∧ ∀ calls ∈ prog, (valuesFor i calls).Sublist new

omit [Inhabited T] in
theorem appendedAll_of_done {c : Cfg} {L : Layout T} {prog : List (List (Nat × T))} {G : Nat → List (T × Bool)} {s : Shared T}
    {ts : List (Appender T)} (h : AInv L prog G s ts) (hf : ∀ r ∈ L, r.1.length ≤ r.2) (hd : Finished ts) :
    AppendedAll c s.view L prog := by
  have hg := h.done hf hd
  have hun : ∀ t ∈ ts, unclaimed t = [] := by
    intro t ht
    have := hd t ht
    unfold unclaimed
    split <;> simp [this]
  have hfm : ts.flatMap unclaimed = [] := by
    rw [List.flatMap_eq_nil_iff]; exact hun
  refine ⟨appended L G, shows_of_good hg, ?_, by simp [appended], ?_⟩
  · have := capacities_of_good (c := c) hg
    have e : (appended L G).map (·.2) = L.map (·.2) := appended_caps L G
    rwa [e] at this
  · intro i xs cap hL
    refine ⟨(G i).map (·.1), appended_get hL, ?_, ?_⟩
    · have := h.perm i
      rw [hfm] at this
      simpa [vals, valuesFor] using this
    · intro calls hc
      obtain ⟨k, hk⟩ := List.mem_iff_getElem?.1 hc
      have hkl : k < ts.length := by rw [h.count]; rw [List.getElem?_eq_some_iff] at hk; exact hk.1
      obtain ⟨pre, e1, e2⟩ := h.order k ts[k] calls (List.getElem?_eq_getElem hkl) hk
      rw [hun _ (List.getElem_mem hkl), List.append_nil] at e1
      subst e1
      exact e2 i

/-- **C26.** Threads that append with `emplaceBackAtomic` to arrays with enough capacity: whatever the schedule and the number of
threads, no step fails and no slot is written twice; and once all calls have returned every array holds its old values followed
by all the values appended, each as often as it was appended, those of one thread in the order of its calls.  Every element type
and build configuration. -/
theorem C26_emplaceBackAtomic (c : Cfg) {a : AoA T} {L : List (List T × Nat)} (h : Reach c a L) (prog : List (List (Nat × T)))
    (hfit : Fits L prog) (sched : List Nat) :
    ∃ s ts, interleave (appendTurn c) ⟨a, []⟩ (appenders prog) sched = .ok (s, ts) ∧ s.writes.Nodup ∧
      (Finished ts → AppendedAll c s.view L prog) := by
  have hg := reach_good h
  rcases (AInv.init hg prog).run (c := c) (.inr hfit) sched with ⟨G, s, ts, h1, h2⟩ | ⟨-, -, h3⟩
  · exact ⟨s, ts, h1, h2.once, appendedAll_of_done h2 hg.lay.fits⟩
  · exact (h3 hfit).elim

/-- The number of turns a thread still needs. -/
def appendWork (t : Appender T) : Nat :=
  match t.calls, t.pc with
  | [], _ => 0
  | _ :: rest, .start => 4 * rest.length + 4
  | _ :: rest, .addressed _ => 4 * rest.length + 3
  | _ :: rest, .claimed _ _ => 4 * rest.length + 2
  | _ :: rest, .checked _ _ => 4 * rest.length + 1

omit [Inhabited T] in
theorem appendWork_turn (c : Cfg) (s : Shared T) (t : Appender T) (s' : Shared T) (t' : Appender T)
    (h : appendTurn c s t = .ok (s', t')) : appendWork t' ≤ appendWork t - 1 := by
  obtain ⟨calls, pc⟩ := t
  unfold appendTurn at h
  cases calls with
  | nil => simp only [Except.ok.injEq, Prod.mk.injEq] at h; obtain ⟨-, rfl⟩ := h; simp [appendWork]
  | cons q rest =>
    obtain ⟨i, v⟩ := q
    cases pc with
    | start =>
      simp only at h
      obtain ⟨_, _, h⟩ := bind_eq_ok.1 h
      obtain ⟨_, _, h⟩ := bind_eq_ok.1 h
      cases h
      simp [appendWork]
    | addressed p =>
      simp only at h
      obtain ⟨_, _, h⟩ := bind_eq_ok.1 h
      obtain ⟨_, _, h⟩ := bind_eq_ok.1 h
      cases h
      simp [appendWork]
    | claimed p n =>
      simp only at h
      split at h
      · obtain ⟨_, _, h⟩ := bind_eq_ok.1 h
        obtain ⟨_, _, h⟩ := bind_eq_ok.1 h
        cases h
        simp [appendWork]
      · cases h
        simp [appendWork]
    | checked p n =>
      simp only at h
      obtain ⟨_, _, h⟩ := bind_eq_ok.1 h
      cases h
      cases rest with
      | nil => simp [appendWork]
      | cons q rest => simp [appendWork]; omega

/-- **C26 (completion).** Four turns per call are enough, whatever the other threads do: `emplaceBackAtomic` is wait-free. -/
theorem C26_wait_free (c : Cfg) {a : AoA T} {L : List (List T × Nat)} (h : Reach c a L) (prog : List (List (Nat × T)))
    (hfit : Fits L prog) (sched : List Nat)
    (hturns : ∀ (k : Nat) calls, prog[k]? = some calls → 4 * calls.length ≤ sched.count k) :
    ∃ s ts, interleave (appendTurn c) ⟨a, []⟩ (appenders prog) sched = .ok (s, ts) ∧ AppendedAll c s.view L prog := by
  obtain ⟨s, ts, h1, -, h2⟩ := C26_emplaceBackAtomic c h prog hfit sched
  refine ⟨s, ts, h1, h2 ?_⟩
  intro t' ht
  obtain ⟨k, hk⟩ := List.mem_iff_getElem?.1 ht
  obtain ⟨t, h3, h4⟩ := interleave_progress appendWork (appendWork_turn c) sched _ _ _ _ h1 k t' hk
  simp only [appenders, List.getElem?_map, Option.map_eq_some_iff] at h3
  obtain ⟨calls, h5, rfl⟩ := h3
  have h6 := hturns k calls h5
  have h7 : appendWork (⟨calls, .start⟩ : Appender T) = 4 * calls.length := by
    cases calls <;> simp [appendWork]; omega
  obtain ⟨calls', pc'⟩ := t'
  cases calls' with
  | nil => rfl
  | cons q rest => exfalso; cases pc' <;> simp only [appendWork] at h4 h7 <;> omega

/-- **C26 (overflow).** In a build with bounds checks, whatever is appended in whatever schedule: a step may abort, but only if an
array is missing or too small; otherwise no slot is written twice; and if all calls return then everything fitted, and it is all
there. -/
theorem C26_overflow_reported (c : Cfg) (hb : c.boundsCheck = true) {a : AoA T} {L : List (List T × Nat)} (h : Reach c a L)
    (prog : List (List (Nat × T))) (sched : List Nat) :
    (∃ s ts, interleave (appendTurn c) ⟨a, []⟩ (appenders prog) sched = .ok (s, ts) ∧ s.writes.Nodup ∧
      (Finished ts → Fits L prog ∧ AppendedAll c s.view L prog)) ∨
    (interleave (appendTurn c) ⟨a, []⟩ (appenders prog) sched = .error .abort ∧ ¬ Fits L prog) := by
  have hg := reach_good h
  rcases (AInv.init hg prog).run (c := c) (.inl hb) sched with ⟨G, s, ts, h1, h2⟩ | ⟨h1, -, h3⟩
  · refine .inl ⟨s, ts, h1, h2.once, fun hd => ?_⟩
    have hall := appendedAll_of_done (c := c) h2 hg.lay.fits hd
    refine ⟨⟨?_, ?_⟩, hall⟩
    · intro calls hc q hq
      by_contra hlt
      have h4 := h2.perm q.1
      rw [h2.dom q.1 (by omega)] at h4
      have hfm : ts.flatMap unclaimed = [] := by
        rw [List.flatMap_eq_nil_iff]
        intro t ht
        have := hd t ht
        unfold unclaimed
        split <;> simp [this]
      rw [hfm] at h4
      have h5 : q.2 ∈ vals q.1 prog.flatten := by
        simp only [vals, List.mem_map, List.mem_filter]
        exact ⟨q, ⟨List.mem_flatten.2 ⟨calls, hc, hq⟩, by simp⟩, rfl⟩
      have := h4.mem_iff.2 h5
      simp at this
    · intro i xs cap hL
      have hfits := (h2.done hg.lay.fits hd).lay.fits (xs ++ (G i).map (·.1), cap) (List.mem_of_getElem? (appended_get hL))
      have hfm : ts.flatMap unclaimed = [] := by
        rw [List.flatMap_eq_nil_iff]
        intro t ht
        have := hd t ht
        unfold unclaimed
        split <;> simp [this]
      have h4 := (h2.perm i).length_eq
      rw [hfm] at h4
      simp only [List.length_append, List.length_map, vals_nil, List.length_nil] at h4 hfits
      have e : (valuesFor i prog.flatten).length = (vals i prog.flatten).length := rfl
      omega
  · exact .inr ⟨h1, h3⟩

/-- **C26 (afterwards).** After all appends have returned the object can be used like any other: every later legal history of
calls by one thread behaves like on a vector of vectors with these contents. -/
theorem C26_usable_afterwards (c : Cfg) (ht : c.trivial = true) {a : AoA T} {L : List (List T × Nat)} (h : Reach c a L)
    (prog : List (List (Nat × T))) (hfit : Fits L prog) (sched : List Nat) (s : Shared T) (ts : List (Appender T))
    (hr : interleave (appendTurn c) ⟨a, []⟩ (appenders prog) sched = .ok (s, ts)) (hd : Finished ts) :
    ∃ rows, Shows c s.view rows ∧ ∀ ops rows', NoEmptyInsert c ops → vvRun rows ops = some rows' →
      ∃ a', AoA.run c s.view ops = .ok a' ∧ Shows c a' rows' := by
  have hg := reach_good h
  rcases (AInv.init hg prog).run (c := c) (.inr hfit) sched with ⟨G, s', ts', h1, h2⟩ | ⟨-, -, h3⟩
  · rw [hr] at h1
    cases h1
    have hdone := h2.done hg.lay.fits hd
    refine ⟨_, shows_of_good hdone, ?_⟩
    intro ops rows' hne hv
    obtain ⟨L', h3, rfl⟩ := vvcRun_of_vvRun hv
    obtain ⟨a', h4, h5⟩ := run_trivial c ht ops hne hdone h3
    exact ⟨a', h4, shows_of_good h5⟩
  · exact (h3 hfit).elim

/-- Two arrays with capacities 3 and 2; the first has the value 5. -/
def appendDemo : R (AoA Nat) :=
  AoA.mk' { trivial := false, boundsCheck := true, debug := true } 2 3 >>= fun a =>
    AoA.run { trivial := false, boundsCheck := true, debug := true } a [.emplaceBack 0 5, .setCapacityOfArray 1 2]

/-- What a thread schedule leaves in the two arrays. -/
def appendDemoRun (c : Cfg) (prog : List (List (Nat × Nat))) (sched : List Nat) : R (List (R (List Nat)) × List Nat × Bool) :=
  appendDemo >>= fun a => interleave (appendTurn c) ⟨a, []⟩ (appenders prog) sched >>= fun r =>
    .ok ((List.range 2).map (fun i => do
        let n ← r.1.view.shape.sizeOfArray c i
        (List.range n).mapM fun j => r.1.view.get c i j), r.1.writes, r.2.all fun t => t.calls.isEmpty)

example : vvcRun (List.replicate 2 ([], 3)) [.emplaceBack 0 5, .setCapacityOfArray 1 2] =
    some [([5], 3), (([] : List Nat), 2)] := by decide

example : Fits [([5], 3), (([] : List Nat), 2)] [[(0, 6), (1, 7)], [(0, 8)], [(1, 9)]] := by
  refine ⟨by decide, ?_⟩
  intro i xs cap h
  match i, h with
  | 0, h => cases h; decide
  | 1, h => cases h; decide
  | _ + 2, h => simp at h

/-- Thread 1 overtakes thread 0 in array 0: it writes position 2 before position 1 is written. -/
example : appendDemoRun { trivial := false, boundsCheck := true, debug := true } [[(0, 6), (1, 7)], [(0, 8)], [(1, 9)]]
    [0, 1, 0, 1, 2, 2, 1, 1, 2, 0, 0, 2, 0, 0, 0, 0] =
    .ok ([.ok [5, 6, 8], .ok [9, 7]], [4, 3, 1, 2], true) := by decide +kernel

/-- **C26 (overflow without bounds checks).** The capacity check is only present with bounds checks; without it the third value of
array 0, which has capacity 2 after `setCapacityOfArray`, is constructed in the first slot of array 1, over the value there. -/
theorem C26_overflow_unchecked :
    (AoA.mk' { trivial := true, boundsCheck := false, debug := false } 2 2 >>= fun (a : AoA Nat) =>
      AoA.run { trivial := true, boundsCheck := false, debug := false } a [.emplaceBack 1 5] >>= fun a =>
      interleave (appendTurn { trivial := true, boundsCheck := false, debug := false }) ⟨a, []⟩
        (appenders [[(0, 1), (0, 2), (0, 3)]]) (List.replicate 12 0) >>= fun r =>
      r.1.view.get { trivial := true, boundsCheck := false, debug := false } 1 0) = .ok 3 := by
  decide +kernel

/-! ### C31 -/

variable {V : Type}

/-- All calls have returned. -/
def AddFinished (ts : List (Adder V)) : Prop := ∀ t ∈ ts, t.calls = []

/-- What calls contribute: one triple of row, column and value for each. -/
def contributed (calls : List (AddVariant × Nat × List (Nat × V))) : List (Nat × Nat × V) :=
  calls.flatMap fun q => q.2.2.map fun a => (q.2.1, a.1, a.2)

/-- Every call names an existing row and columns the row has, in increasing order unless it is the unsorted variant. -/
def AddLegal (M : Spec.Matrix V) (prog : List (List (AddVariant × Nat × List (Nat × V)))) : Prop :=
  ∀ calls ∈ prog, ∀ q ∈ calls, orderOk q.1 (q.2.2.map (·.1)) ∧
    ∃ f, M.rows[q.2.1]? = some f ∧ ∀ a ∈ q.2.2, (f a.1).isSome

/-- The matrix with contributions added to its entries in the order given. -/
def addContributions [Add V] (M : Spec.Matrix V) (order : List (Nat × Nat × V)) : Spec.Matrix V :=
  { M with rows := M.rows.mapIdx fun i f col => (f col).map fun x =>
      ((order.filter fun q => q.1 == i && q.2.1 == col).map (·.2.2)).foldl (· + ·) x }

theorem addDone_eq [Add V] (M : Spec.Matrix V) (done : List (Nat × (Nat × V))) : addDone M done = addContributions M done := by
  unfold addDone addContributions
  simp only [Spec.Matrix.mk.injEq, true_and]
  apply List.ext_getElem?
  intro i
  simp only [List.getElem?_mapIdx]
  congr 1
  funext f col
  rw [foldl_addEntry]
  unfold addAll pick
  congr 1
  funext x
  congr 1
  simp only [List.filter_map, List.map_map, List.filter_filter, Function.comp_def, Bool.and_comm]

/-- **C31 (any entry type).** Threads that call `addToRow` and its variants with an atomic policy: whatever the schedule and the
number of threads, no step fails; and once all calls have returned the sparsity pattern is unchanged and every entry has received
all the contributions to it, each exactly once, in some order. -/
theorem C31_atomic_addToRow_any [Add V] (c : Cfg) {colMax : Nat} {m : Crs V} {M : Spec.Matrix V} (h : ReachMatrix c colMax m M)
    (prog : List (List (AddVariant × Nat × List (Nat × V)))) (hp : AddLegal M prog) (sched : List Nat) :
    ∃ m' ts, interleave (addTurn c) m (adders prog) sched = .ok (m', ts) ∧
      (AddFinished ts → ∃ order, order.Perm (contributed prog.flatten) ∧ ShowsMatrix c m' (addContributions M order)) := by
  have hg := reachMatrix_good h
  have hp' : ∀ calls ∈ prog, ∀ q ∈ calls, CallOk M q := by
    intro calls hc q hq
    obtain ⟨h1, f, h2, h3⟩ := hp calls hc q hq
    refine ⟨h1, f, h2, fun a ha => ?_⟩
    have hr := hg.inRange f (List.mem_of_getElem? h2)
    simp only [columnsOf, List.mem_filter, List.mem_range]
    exact ⟨hr _ (h3 a ha), h3 a ha⟩
  obtain ⟨done, m', ts, h1, h2⟩ := (CInv.init hg prog hp').run (c := c) sched
  refine ⟨m', ts, h1, fun hd => ⟨done, ?_, ?_⟩⟩
  · have := h2.perm
    have e : ts.flatMap (fun t => contributions t.calls) = [] := by
      rw [List.flatMap_eq_nil_iff]
      intro t ht
      rw [hd t ht]; rfl
    rw [e, List.append_nil] at this
    exact this
  · rw [← addDone_eq]
    exact showsMatrix_of_good h2.good

theorem foldl_add_perm [Add V] (hcomm : ∀ x a b : V, x + a + b = x + b + a) {l l' : List V} (h : l.Perm l') (x : V) :
    l.foldl (· + ·) x = l'.foldl (· + ·) x := by
  induction h generalizing x with
  | nil => rfl
  | cons a _ ih => exact ih _
  | swap a b l => simp only [List.foldl_cons, hcomm]
  | trans _ _ ih1 ih2 => rw [ih1, ih2]

/-- **C31.** If the order of additions does not matter (`x + a + b = x + b + a`, as for integers), the matrix after all calls have
returned is the one that has every contribution of every thread added: no update is lost and none is made twice, whatever the
schedule. -/
theorem C31_atomic_addToRow [Add V] (hcomm : ∀ x a b : V, x + a + b = x + b + a) (c : Cfg) {colMax : Nat} {m : Crs V}
    {M : Spec.Matrix V} (h : ReachMatrix c colMax m M) (prog : List (List (AddVariant × Nat × List (Nat × V))))
    (hp : AddLegal M prog) (sched : List Nat) :
    ∃ m' ts, interleave (addTurn c) m (adders prog) sched = .ok (m', ts) ∧
      (AddFinished ts → ShowsMatrix c m' (addContributions M (contributed prog.flatten))) := by
  obtain ⟨m', ts, h1, h2⟩ := C31_atomic_addToRow_any c h prog hp sched
  refine ⟨m', ts, h1, fun hd => ?_⟩
  obtain ⟨order, h3, h4⟩ := h2 hd
  have e : addContributions M order = addContributions M (contributed prog.flatten) := by
    unfold addContributions
    simp only [Spec.Matrix.mk.injEq, true_and]
    congr 1
    funext i f col
    congr 1
    funext x
    exact foldl_add_perm hcomm ((h3.filter _).map _) x
  rw [← e]
  exact h4

/-- The number of turns a thread still needs. -/
def addWork (t : Adder V) : Nat :=
  match t.calls, t.pc with
  | [], _ => 0
  | (_, _, args) :: rest, .start => 2 + 2 * args.length + (rest.map fun q => 2 + 2 * q.2.2.length).sum
  | (_, _, args) :: rest, .searching _ _ _ => 1 + 2 * args.length + (rest.map fun q => 2 + 2 * q.2.2.length).sum
  | (_, _, []) :: rest, .found _ _ _ => 1 + (rest.map fun q => 2 + 2 * q.2.2.length).sum
  | (_, _, _ :: args) :: rest, .found _ _ _ => 2 + 2 * args.length + (rest.map fun q => 2 + 2 * q.2.2.length).sum

theorem addWork_start (calls : List (AddVariant × Nat × List (Nat × V))) :
    addWork ⟨calls, .start⟩ = (calls.map fun q => 2 + 2 * q.2.2.length).sum := by
  cases calls <;> simp [addWork]

theorem addWork_turn [Add V] (c : Cfg) (m : Crs V) (t : Adder V) (m' : Crs V) (t' : Adder V)
    (h : addTurn c m t = .ok (m', t')) : addWork t' ≤ addWork t - 1 := by
  obtain ⟨calls, pc⟩ := t
  unfold addTurn at h
  cases calls with
  | nil => simp only [Except.ok.injEq, Prod.mk.injEq] at h; obtain ⟨-, rfl⟩ := h; simp [addWork]
  | cons q rest =>
    obtain ⟨how, row, args⟩ := q
    cases pc with
    | start =>
      simp only at h
      obtain ⟨_, _, h⟩ := bind_eq_ok.1 h
      obtain ⟨_, _, h⟩ := bind_eq_ok.1 h
      obtain ⟨_, _, h⟩ := bind_eq_ok.1 h
      obtain ⟨_, _, h⟩ := bind_eq_ok.1 h
      cases h
      simp only [addWork]
      omega
    | searching hw nnz cur =>
      cases args with
      | nil =>
        simp only [Except.ok.injEq, Prod.mk.injEq] at h
        obtain ⟨-, rfl⟩ := h
        rw [addWork_start]
        simp only [addWork, List.length_nil]
        omega
      | cons a args =>
        simp only at h
        obtain ⟨_, _, h⟩ := bind_eq_ok.1 h
        cases h
        simp only [addWork, List.length_cons]
        omega
    | found hw nnz pos =>
      cases args with
      | nil =>
        simp only [Except.ok.injEq, Prod.mk.injEq] at h
        obtain ⟨-, rfl⟩ := h
        rw [addWork_start]
        simp only [addWork]
        omega
      | cons a args =>
        simp only at h
        obtain ⟨_, _, h⟩ := bind_eq_ok.1 h
        cases h
        simp only [addWork]
        omega

/-- **C31 (completion).** Two turns per call and per value are enough, whatever the other threads do. -/
theorem C31_wait_free [Add V] (hcomm : ∀ x a b : V, x + a + b = x + b + a) (c : Cfg) {colMax : Nat} {m : Crs V}
    {M : Spec.Matrix V} (h : ReachMatrix c colMax m M) (prog : List (List (AddVariant × Nat × List (Nat × V))))
    (hp : AddLegal M prog) (sched : List Nat)
    (hturns : ∀ (k : Nat) calls, prog[k]? = some calls → (calls.map fun q => 2 + 2 * q.2.2.length).sum ≤ sched.count k) :
    ∃ m' ts, interleave (addTurn c) m (adders prog) sched = .ok (m', ts) ∧
      ShowsMatrix c m' (addContributions M (contributed prog.flatten)) := by
  obtain ⟨m', ts, h1, h2⟩ := C31_atomic_addToRow hcomm c h prog hp sched
  refine ⟨m', ts, h1, h2 ?_⟩
  intro t' ht
  obtain ⟨k, hk⟩ := List.mem_iff_getElem?.1 ht
  obtain ⟨t, h3, h4⟩ := interleave_progress addWork (addWork_turn c) sched _ _ _ _ h1 k t' hk
  simp only [adders, List.getElem?_map, Option.map_eq_some_iff] at h3
  obtain ⟨calls, h5, rfl⟩ := h3
  have h6 := hturns k calls h5
  rw [addWork_start] at h4
  obtain ⟨calls', pc'⟩ := t'
  cases calls' with
  | nil => rfl
  | cons q rest =>
    exfalso
    obtain ⟨how, row, args⟩ := q
    cases pc' with
    | start => simp only [addWork] at h4; omega
    | searching _ _ _ => simp only [addWork] at h4; omega
    | found _ _ _ => cases args <;> simp only [addWork] at h4 <;> omega

/-- The turns of a single thread are the iterations of the loops of `addToRowBinarySearch`, `addToRowLinearSearch` and
`addToRowBinarySearchUnsorted` (`Crs.binaryLoop`, `Crs.linearLoop`, `Crs.unsortedLoop`). -/
theorem addTurn_one_thread [Add V] (c : Cfg) (how : AddVariant) (row nnz : Nat) (args : List (Nat × V)) (m : Crs V) (cur : Nat) :
    (interleave (addTurn c) m [⟨[(how, row, args)], .searching .binary nnz cur⟩] (List.replicate (2 * args.length + 1) 0) =
      (Crs.binaryLoop c row nnz m cur args >>= fun m' => .ok (m', [⟨[], .start⟩]))) ∧
    (interleave (addTurn c) m [⟨[(how, row, args)], .searching .linear nnz cur⟩] (List.replicate (2 * args.length + 1) 0) =
      (Crs.linearLoop c row nnz m cur args >>= fun m' => .ok (m', [⟨[], .start⟩]))) ∧
    (interleave (addTurn c) m [⟨[(how, row, args)], .searching .unsorted nnz cur⟩] (List.replicate (2 * args.length + 1) 0) =
      (Crs.unsortedLoop c row nnz m args >>= fun m' => .ok (m', [⟨[], .start⟩]))) := by
  induction args generalizing m cur with
  | nil => exact ⟨rfl, rfl, rfl⟩
  | cons a args ih =>
    obtain ⟨col, v⟩ := a
    have e : List.replicate (2 * ((col, v) :: args).length + 1) 0 = 0 :: 0 :: List.replicate (2 * args.length + 1) 0 := by
      rw [List.length_cons, show 2 * (args.length + 1) + 1 = (2 * args.length + 1) + 1 + 1 by omega, List.replicate_succ,
        List.replicate_succ]
    have step : ∀ hw, interleave (addTurn c) m [⟨[(how, row, (col, v) :: args)], .searching hw nnz cur⟩]
        (0 :: 0 :: List.replicate (2 * args.length + 1) 0) =
        (searchColumn c hw m row nnz cur col >>= fun pos => Crs.addAt c m row pos v >>= fun m' =>
          interleave (addTurn c) m' [⟨[(how, row, args)], .searching hw nnz (pos + 1)⟩]
            (List.replicate (2 * args.length + 1) 0)) := by
      intro hw
      simp only [interleave, List.getElem?_cons_zero, addTurn]
      cases searchColumn c hw m row nnz cur col with
      | error e => rfl
      | ok pos =>
        simp only [bind_ok, List.set_cons_zero, List.getElem?_cons_zero]
        cases Crs.addAt c m row pos v with
        | error e => rfl
        | ok m' => simp only [bind_ok, List.set_cons_zero]
    refine ⟨?_, ?_, ?_⟩
    · rw [e, step]
      unfold Crs.binaryLoop searchColumn
      simp only
      split
      · rfl
      · cases sortedArrayManipulation.find c sortedArrayManipulation.less (fun k => Crs.column m row (cur + k)) (nnz - cur) col with
        | error e => rfl
        | ok k =>
          simp only [bind_ok]
          cases Crs.assertColumn c m row nnz (k + cur) col with
          | error e => rfl
          | ok _ =>
            simp only [bind_ok]
            cases Crs.addAt c m row (k + cur) v with
            | error e => rfl
            | ok m' => simp only [bind_ok]; exact (ih m' _).1
    · rw [e, step]
      unfold Crs.linearLoop searchColumn
      simp only
      cases Crs.linearScan m row cur col (nnz - cur) cur with
      | error e => rfl
      | ok pos =>
        simp only [bind_ok]
        cases Crs.assertFound c m row pos col with
        | error e => rfl
        | ok _ =>
          simp only [bind_ok]
          cases Crs.addAt c m row pos v with
          | error e => rfl
          | ok m' => simp only [bind_ok]; exact (ih m' _).2.1
    · rw [e, step]
      unfold Crs.unsortedLoop searchColumn
      simp only
      cases sortedArrayManipulation.find c sortedArrayManipulation.less (Crs.column m row) nnz col with
      | error e => rfl
      | ok pos =>
        simp only [bind_ok]
        cases Crs.assertColumn c m row nnz pos col with
        | error e => rfl
        | ok _ =>
          simp only [bind_ok]
          cases Crs.addAt c m row pos v with
          | error e => rfl
          | ok m' => simp only [bind_ok]; exact (ih m' _).2.2

/-- Two rows with three columns each. -/
def addDemo : R (Crs Nat) :=
  Crs.mk' { trivial := true, boundsCheck := true, debug := true } 100 2 8 3 >>= fun m =>
    Crs.run { trivial := true, boundsCheck := true, debug := true } 100 m
      [.insertMany 0 [(1, 10), (4, 20), (6, 30)], .insertMany 1 [(0, 40), (4, 50), (7, 60)]] >>= fun r => .ok r.1

example : (crsRun (V := Nat) 100 { numCols := 8, rows := List.replicate 2 (fun _ => none) }
    [.insertMany 0 [(1, 10), (4, 20), (6, 30)], .insertMany 1 [(0, 40), (4, 50), (7, 60)]]).isSome = true ∧
    (∀ x a b : Nat, x + a + b = x + b + a) := ⟨by decide, by omega⟩

example : AddLegal (V := Nat)
    { numCols := 8, rows := [fun k => [(1, 10), (4, 20), (6, 30)].lookup k, fun k => [(0, 40), (4, 50), (7, 60)].lookup k] }
    [[(.linear, 0, [(1, 1), (6, 2)]), (.unsorted, 1, [(7, 3), (0, 4), (7, 5)])], [(.auto, 0, [(1, 6)])],
     [(.binary, 0, [(1, 7), (4, 8)])]] := by
  intro calls hc q hq
  simp only [List.mem_cons, List.not_mem_nil, or_false] at hc
  rcases hc with rfl | rfl | rfl <;> simp only [List.mem_cons, List.not_mem_nil, or_false] at hq
  · rcases hq with rfl | rfl
    · exact ⟨by decide, _, rfl, by decide⟩
    · exact ⟨trivial, _, rfl, by decide⟩
  · subst hq; exact ⟨by decide, _, rfl, by decide⟩
  · subst hq; exact ⟨by decide, _, rfl, by decide⟩

example : (addDemo >>= fun m =>
    interleave (addTurn { trivial := true, boundsCheck := true, debug := true }) m
      (adders [[(.linear, 0, [(1, 1), (6, 2)]), (.unsorted, 1, [(7, 3), (0, 4), (7, 5)])], [(.auto, 0, [(1, 6)])],
        [(.binary, 0, [(1, 7), (4, 8)])]])
      [0, 1, 2, 0, 1, 2, 2, 1, 0, 0, 1, 2, 0, 0, 2, 2, 2, 0, 0, 0, 0, 0, 0, 0, 0, 0] >>= fun r =>
    (List.range 2).mapM (fun i => (List.range 3).mapM fun k =>
      r.1.getEntry { trivial := true, boundsCheck := true, debug := true } i k) >>= fun es =>
    .ok (es, r.2.all fun t => t.calls.isEmpty)) = .ok ([[24, 28, 32], [44, 50, 68]], true) := by decide +kernel

end LvArray.Props
