import Verif.Concurrent
import Verif.CrsStep

/-!
# Invariant of concurrent `addToRow` with an atomic policy
-/

namespace LvArray.Concurrent

open LvArray.Spec Crs sortedArrayManipulation

variable {V : Type} {c : Cfg}

/-! ### Searching -/

section

variable {m : Crs V} {A B : Layout (Nat × V)} {cap : Nat}

/-- `searchColumn` finds a column that is not before `curPos`. -/
theorem searchColumn_sorted [Add V] {how : AddVariant} (hh : how ≠ .unsorted) {f g : List (Nat × V)}
    (h : CGood m (A ++ (f ++ g, cap) :: B)) (hi : Increasing Prod.fst (f ++ g)) {k : Nat} (hp : ∃ x ∈ g, x.1 = k) :
    ∃ g1 x g2, g = g1 ++ (k, x) :: g2 ∧
      searchColumn c how m A.length (f ++ g).length f.length k = .ok (f ++ g1).length := by
  have hg : Increasing Prod.fst g := (List.pairwise_append.1 hi).2.1
  obtain ⟨g1, x, g3, rfl, h1, h2⟩ := split_at hg hp
  have hre : f ++ (g1 ++ (k, x) :: g3) = (f ++ g1) ++ (k, x) :: g3 := by simp
  have hlen : (f ++ (g1 ++ (k, x) :: g3)).length - f.length = (g1 ++ (k, x) :: g3).length := by simp
  refine ⟨g1, x, g3, rfl, ?_⟩
  have hlin : searchColumn c .linear m A.length (f ++ (g1 ++ (k, x) :: g3)).length f.length k = .ok (f ++ g1).length := by
    unfold searchColumn
    have hscan := linearScan_ok (m := m) h f.length k g1 f g3 x hre (fun y hy => by have := h1 y hy; omega)
      (g1 ++ (k, x) :: g3).length (by simp)
    simp only
    rw [hlen, hscan, bind_ok]
    rw [hre] at h
    rw [assertFound_ok h, bind_ok]
  have hbin : ∀ how, how ≠ .unsorted → how ≠ .linear →
      searchColumn c how m A.length (f ++ (g1 ++ (k, x) :: g3)).length f.length k = .ok (f ++ g1).length := by
    intro how hu hl
    obtain ⟨e1, e2, hgs, hf, k1, k2⟩ := find_split c Prod.fst (fun k => column m A.length (f.length + k)) _ k hg
      (fun i hi' => by
        rw [column_ok h (f.length + i) (by simp only [List.length_append] at hi' ⊢; omega)]
        rw [List.getElem_append_right (by omega)]
        simp)
    have hel : e1.length = g1.length := by
      apply Nat.le_antisymm
      · by_contra hlt
        have hm : g1.length < e1.length := by omega
        have : (e1 ++ e2)[g1.length]? = some (k, x) := by rw [← hgs]; simp
        rw [List.getElem?_append_left hm] at this
        exact absurd (k1 _ (List.mem_of_getElem? this)) (by simp)
      · by_contra hlt
        have hm : e1.length < g1.length := by omega
        have hget : (g1 ++ (k, x) :: g3)[e1.length]? = some g1[e1.length] := by
          rw [List.getElem?_append_left hm]; simp [hm]
        rw [hgs, List.getElem?_append_right (Nat.le_refl _), Nat.sub_self] at hget
        have := k2 _ (List.mem_of_getElem? hget)
        have := h1 g1[e1.length] (List.getElem_mem _)
        omega
    have hs : searchColumn c how m A.length (f ++ (g1 ++ (k, x) :: g3)).length f.length k =
        searchColumn c .binary m A.length (f ++ (g1 ++ (k, x) :: g3)).length f.length k := by
      cases how <;> first | rfl | contradiction
    rw [hs]
    unfold searchColumn
    simp only
    rw [if_neg (by simp), hlen, hf, bind_ok, hel, show g1.length + f.length = (f ++ g1).length by simp; omega]
    rw [hre] at h ⊢
    rw [assertColumn_ok h, bind_ok]
  by_cases hl : how = .linear
  · subst hl; exact hlin
  · exact hbin how hh hl

theorem searchColumn_unsorted [Add V] {xs : List (Nat × V)} (h : CGood m (A ++ (xs, cap) :: B)) (hi : Increasing Prod.fst xs)
    (cur : Nat) {k : Nat} (hp : ∃ x ∈ xs, x.1 = k) :
    ∃ g1 x g2, xs = g1 ++ (k, x) :: g2 ∧ searchColumn c .unsorted m A.length xs.length cur k = .ok g1.length := by
  obtain ⟨g1, x, g2, h1, h2⟩ := searchColumn_sorted (c := c) (how := .binary) (by simp) (f := []) h hi hp
  refine ⟨g1, x, g2, h1, ?_⟩
  unfold searchColumn at h2 ⊢
  simp only [List.nil_append, List.length_nil, Nat.not_lt_zero, if_false, Nat.zero_add, Nat.add_zero, Nat.sub_zero] at h2 ⊢
  exact h2

end

/-! ### The invariant -/

/-- The contributions of a list of calls: row, column and value. -/
def contributions (calls : List (AddVariant × Nat × List (Nat × V))) : List (Nat × (Nat × V)) :=
  calls.flatMap fun q => q.2.2.map fun a => (q.2.1, a)

/-- The contributions to a row. -/
def pick (i : Nat) (done : List (Nat × (Nat × V))) : List (Nat × V) := (done.filter fun q => q.1 == i).map (·.2)

theorem pick_snoc (i j : Nat) (a : Nat × V) (done : List (Nat × (Nat × V))) :
    pick i (done ++ [(j, a)]) = pick i done ++ (if j = i then [a] else []) := by
  unfold pick; by_cases h : j = i <;> simp [h]

/-- A call is allowed: the row exists, has all columns given, and they are in order. -/
def CallOk (M : Spec.Matrix V) (q : AddVariant × Nat × List (Nat × V)) : Prop :=
  orderOk q.1 (q.2.2.map (·.1)) ∧ ∃ f, M.rows[q.2.1]? = some f ∧ ∀ a ∈ q.2.2, a.1 ∈ columnsOf M.numCols f

/-- The columns `args` can be found from position `cur` of the columns `ks` on. -/
def Ahead (how : AddVariant) (ks : List Nat) (cur : Nat) (args : List (Nat × V)) : Prop :=
  match how with
  | .unsorted => ∀ a ∈ args, a.1 ∈ ks
  | _ => Increasing Prod.fst args ∧ ∀ a ∈ args, a.1 ∈ ks.drop cur

/-- What the local variables of a thread have to do with the matrix. -/
def AddPcOk (M : Spec.Matrix V) (t : Adder V) : Prop :=
  match t.calls with
  | [] => True
  | (how, row, args) :: rest =>
    (∀ q ∈ rest, CallOk M q) ∧
    match t.pc with
    | .start => CallOk M (how, row, args)
    | .searching h nnz cur => ∃ f, M.rows[row]? = some f ∧ nnz = (columnsOf M.numCols f).length ∧
        Ahead h (columnsOf M.numCols f) cur args
    | .found h nnz pos => ∃ f k v args', M.rows[row]? = some f ∧ nnz = (columnsOf M.numCols f).length ∧
        args = (k, v) :: args' ∧ (columnsOf M.numCols f)[pos]? = some k ∧ Ahead h (columnsOf M.numCols f) (pos + 1) args'

/-- The matrix after the contributions `done`. -/
def addDone [Add V] (M : Spec.Matrix V) (done : List (Nat × (Nat × V))) : Spec.Matrix V :=
  { M with rows := M.rows.mapIdx fun i f => (pick i done).foldl addEntry f }

structure CInv [Add V] (M : Spec.Matrix V) (prog : List (List (AddVariant × Nat × List (Nat × V))))
    (done : List (Nat × (Nat × V))) (m : Crs V) (ts : List (Adder V)) : Prop where
  good : CrsGood m (addDone M done)
  pcs : ∀ t ∈ ts, AddPcOk M t
  perm : (done ++ ts.flatMap fun t => contributions t.calls).Perm (contributions prog.flatten)

theorem addDone_get [Add V] {M : Spec.Matrix V} {i : Nat} {f : Nat → Option V} (h : M.rows[i]? = some f)
    (done : List (Nat × (Nat × V))) : (addDone M done).rows[i]? = some ((pick i done).foldl addEntry f) := by
  simp [addDone, h]

theorem columnsOf_addEntry [Add V] (n : Nat) (f : Nat → Option V) (a : Nat × V) :
    columnsOf n (addEntry f a) = columnsOf n f := by
  unfold columnsOf addEntry
  congr 1
  funext k
  split <;> simp

theorem columnsOf_foldl [Add V] (n : Nat) (args : List (Nat × V)) (f : Nat → Option V) :
    columnsOf n (args.foldl addEntry f) = columnsOf n f := by
  induction args generalizing f with
  | nil => rfl
  | cons a args ih => rw [List.foldl_cons, ih, columnsOf_addEntry]

theorem addDone_snoc [Add V] (M : Spec.Matrix V) (done : List (Nat × (Nat × V))) (i : Nat) (a : Nat × V) {f : Nat → Option V}
    (h : M.rows[i]? = some f) :
    { addDone M done with rows := (addDone M done).rows.set i (addEntry ((pick i done).foldl addEntry f) a) } =
      addDone M (done ++ [(i, a)]) := by
  unfold addDone
  simp only [Spec.Matrix.mk.injEq, true_and]
  apply List.ext_getElem?
  intro j
  by_cases e : i = j
  · subst e
    have hi : i < M.rows.length := by rw [List.getElem?_eq_some_iff] at h; exact h.1
    rw [List.getElem?_set_self (by simpa using hi)]
    simp [h, pick_snoc]
  · rw [List.getElem?_set_ne e]
    simp [pick_snoc, e]

theorem split_thread' {α : Type} {ts : List α} {k : Nat} {t : α} (hk : ts[k]? = some t) :
    ∃ A B, ts = A ++ t :: B ∧ k = A.length := by
  rw [List.getElem?_eq_some_iff] at hk
  obtain ⟨h1, rfl⟩ := hk
  exact ⟨ts.take k, ts.drop (k + 1), by simp, by simp; omega⟩

theorem mem_set {α : Type} {ts : List α} {k : Nat} {t' u : α} (h : u ∈ ts.set k t') : u = t' ∨ u ∈ ts := by
  rcases List.mem_or_eq_of_mem_set h with h | h
  · exact .inr h
  · exact .inl h

/-- A turn that only changes a thread. -/
theorem CInv.local [Add V] {M : Spec.Matrix V} {prog : List (List (AddVariant × Nat × List (Nat × V)))}
    {done : List (Nat × (Nat × V))} {m : Crs V} {ts : List (Adder V)} (h : CInv M prog done m ts) {k : Nat} {t t' : Adder V}
    (hk : ts[k]? = some t) (hpc : AddPcOk M t') (hc : contributions t'.calls = contributions t.calls) :
    CInv M prog done m (ts.set k t') := by
  refine ⟨h.good, ?_, ?_⟩
  · intro u hu
    rcases mem_set hu with rfl | hu
    · exact hpc
    · exact h.pcs u hu
  · obtain ⟨A, B, rfl, rfl⟩ := split_thread' hk
    have := h.perm
    simpa [hc] using this

theorem ahead_start {how : AddVariant} (n : Nat) {ks : List Nat} {args : List (Nat × V)} (ho : orderOk how (args.map (·.1)))
    (hp : ∀ a ∈ args, a.1 ∈ ks) : Ahead (chooseVariant how n args.length) ks 0 args := by
  have hso : how ≠ .unsorted → Increasing Prod.fst args := by
    intro hne
    have : sortedUnique (args.map (·.1)) := by cases how <;> first | exact ho | contradiction
    exact List.pairwise_map.1 this
  have key : ∀ h : AddVariant, (h ≠ .unsorted → Increasing Prod.fst args) → Ahead h ks 0 args := by
    intro h hh
    cases h
    case unsorted => exact hp
    all_goals exact ⟨hh (by simp), by simpa using hp⟩
  apply key
  intro hne
  apply hso
  rintro rfl
  exact hne rfl

theorem assertSorted_ok {how : AddVariant} {ks : List Nat} {cur : Nat} {args : List (Nat × V)} (h : Ahead how ks cur args) :
    assertSorted c how (args.map (·.1)) = .ok () := by
  have key : Increasing Prod.fst args →
      errorIf (c.debug && !sortedArrayManipulation.isSortedUnique sortedArrayManipulation.less (args.map (·.1))) = .ok () := by
    intro hi
    rw [isSortedUnique_keys (List.pairwise_map.mpr hi)]; simp [errorIf]
  cases how
  case unsorted => rfl
  all_goals exact key h.1

/-- Every turn succeeds and keeps the invariant. -/
theorem CInv.step [Add V] {M : Spec.Matrix V} {prog : List (List (AddVariant × Nat × List (Nat × V)))}
    {done : List (Nat × (Nat × V))} {m : Crs V} {ts : List (Adder V)} (h : CInv M prog done m ts) {k : Nat} {t : Adder V}
    (hk : ts[k]? = some t) :
    ∃ done' m' t', addTurn c m t = .ok (m', t') ∧ CInv M prog done' m' (ts.set k t') := by
  have hpc := h.pcs t (List.mem_of_getElem? hk)
  obtain ⟨calls, pc⟩ := t
  cases calls with
  | nil => exact ⟨done, m, _, rfl, h.local hk hpc rfl⟩
  | cons q rest =>
    obtain ⟨how, row, args⟩ := q
    simp only [AddPcOk] at hpc
    obtain ⟨hrest, hpc⟩ := hpc
    have hpop : ∀ {pc0}, pc0 = pc → args = [] → AddPcOk M ⟨rest, .start⟩ := by
      intro _ _ _
      cases rest with
      | nil => simp [AddPcOk]
      | cons q rest =>
        simp only [AddPcOk]
        exact ⟨fun q hq => hrest q (by simp [hq]), hrest q (by simp)⟩
    cases pc with
    | start =>
      obtain ⟨ho, f, hf, hp⟩ := hpc
      simp only at ho hf hp
      obtain ⟨A, cap, B, rfl, hg, hr, -⟩ := h.good.at_ (addDone_get hf done)
      have hlen : (rowList (addDone M done).numCols ((pick A.length done).foldl addEntry f)).length =
          (columnsOf M.numCols f).length := by
        rw [← columnsOf_length, columnsOf_foldl]; rfl
      have ha := ahead_start (columnsOf M.numCols f).length ho hp
      refine ⟨done, m, ⟨(how, A.length, args) :: rest, .searching (chooseVariant how (columnsOf M.numCols f).length args.length)
        (columnsOf M.numCols f).length 0⟩, ?_, h.local hk ?_ rfl⟩
      · unfold addTurn
        simp only
        rw [hg.shape.sizeOfAt rfl, bind_ok, hlen, assertSorted_ok ha, bind_ok, ShGood.checkBounds hg.shape (by simp), bind_ok,
          hg.readOff, bind_ok]
      · simp only [AddPcOk]
        exact ⟨hrest, f, hf, rfl, ha⟩
    | searching hw nnz cur =>
      obtain ⟨f, hf, hn, ha⟩ := hpc
      cases args with
      | nil => exact ⟨done, m, ⟨rest, .start⟩, rfl, h.local hk (hpop rfl rfl) (by simp [contributions])⟩
      | cons a args =>
        obtain ⟨col, v⟩ := a
        obtain ⟨A, cap, B, rfl, hg, hr, -⟩ := h.good.at_ (addDone_get hf done)
        have hinc := rowList_increasing (addDone M done).numCols ((pick A.length done).foldl addEntry f)
        have hkeys : (rowList (addDone M done).numCols ((pick A.length done).foldl addEntry f)).map (·.1) =
            columnsOf M.numCols f := by
          rw [← columnsOf_eq, columnsOf_foldl]; rfl
        generalize rowList (addDone M done).numCols ((pick A.length done).foldl addEntry f) = xs at *
        have hxl : xs.length = nnz := by rw [hn, ← hkeys]; simp
        have hsearch : ∃ pos, searchColumn c hw m A.length nnz cur col = .ok pos ∧
            (columnsOf M.numCols f)[pos]? = some col ∧ Ahead hw (columnsOf M.numCols f) (pos + 1) args := by
          by_cases hu : hw = .unsorted
          · subst hu
            have hcol : ∃ x ∈ xs, x.1 = col := by
              have := ha (col, v) (by simp)
              rw [← hkeys] at this
              simpa using this
            obtain ⟨g1, x, g2, rfl, h2⟩ := searchColumn_unsorted (c := c) hg hinc cur hcol
            refine ⟨g1.length, by rw [← hxl]; exact h2, by rw [← hkeys]; simp, fun a ha' => ha a (by simp [ha'])⟩
          · have ha' : Increasing Prod.fst ((col, v) :: args) ∧ ∀ a ∈ (col, v) :: args, a.1 ∈ (columnsOf M.numCols f).drop cur := by
              cases hw <;> first | exact ha | contradiction
            have hcol : col ∈ (columnsOf M.numCols f).drop cur := ha'.2 (col, v) (by simp)
            have hcur : cur ≤ xs.length := by
              by_contra hlt
              rw [List.drop_eq_nil_of_le (by rw [← hkeys]; simp; omega)] at hcol
              cases hcol
            rw [← hkeys, ← List.map_drop] at hcol
            have hsplit : xs = xs.take cur ++ xs.drop cur := (List.take_append_drop cur xs).symm
            have hfl : (xs.take cur).length = cur := by simp; omega
            generalize xs.take cur = f1 at hsplit hfl
            generalize xs.drop cur = g at hsplit hcol
            subst hsplit
            obtain ⟨g1, x, g2, rfl, h2⟩ := searchColumn_sorted (c := c) hu hg hinc (by simpa using hcol)
            rw [hxl, hfl] at h2
            refine ⟨_, h2, by rw [← hkeys]; simp, ?_⟩
            have hrest' : Increasing Prod.fst args ∧ ∀ a ∈ args, a.1 ∈ (columnsOf M.numCols f).drop ((f1 ++ g1).length + 1) := by
              refine ⟨(List.pairwise_cons.1 ha'.1).2, ?_⟩
              intro a hm
              have hlt : col < a.1 := (List.pairwise_cons.1 ha'.1).1 a hm
              have h3 := ha'.2 a (by simp [hm])
              rw [← hkeys] at h3 ⊢
              have e1 : (f1 ++ (g1 ++ (col, x) :: g2)).map (·.1) =
                  (f1.map (·.1) ++ g1.map (·.1) ++ [col]) ++ g2.map (·.1) := by simp
              have hx : ∀ y ∈ g1, y.1 < col := by
                intro y hy
                have := (List.pairwise_append.1 (List.pairwise_append.1 hinc).2.1).2.2 y hy (col, x) (by simp)
                exact this
              have h4 : a.1 ∈ (g1 ++ (col, x) :: g2).map (·.1) := by
                rw [List.map_append, List.drop_append_of_le_length (by simp; omega)] at h3
                rcases List.mem_append.1 h3 with h5 | h5
                · rw [← hfl] at h5
                  rw [List.drop_of_length_le (by simp)] at h5
                  cases h5
                · exact h5
              have h5 : a.1 ∈ g2.map (·.1) := by
                simp only [List.map_append, List.map_cons, List.mem_append, List.mem_cons] at h4
                rcases h4 with h4 | h4 | h4
                · obtain ⟨y, hy, e⟩ := List.mem_map.1 h4
                  have := hx y hy
                  omega
                · omega
                · exact h4
              rw [e1, List.drop_append_of_le_length (by simp only [List.length_append, List.length_map, List.length_singleton]; omega)]
              exact List.mem_append_right _ h5
            cases hw <;> first | exact hrest' | contradiction
        obtain ⟨pos, e1, e2, e3⟩ := hsearch
        refine ⟨done, m, ⟨(how, A.length, (col, v) :: args) :: rest, .found hw nnz pos⟩, ?_, h.local hk ?_ rfl⟩
        · unfold addTurn
          simp only
          rw [e1, bind_ok]
        · simp only [AddPcOk]
          exact ⟨hrest, f, col, v, args, hf, hn, rfl, e2, e3⟩
    | found hw nnz pos =>
      obtain ⟨f, col, v, args', hf, hn, rfl, hpos, ha⟩ := hpc
      obtain ⟨A, cap, B, rfl, hg, hr, hset⟩ := h.good.at_ (addDone_get hf done)
      have hinc := rowList_increasing (addDone M done).numCols ((pick A.length done).foldl addEntry f)
      have hkeys : (rowList (addDone M done).numCols ((pick A.length done).foldl addEntry f)).map (·.1) =
          columnsOf M.numCols f := by
        rw [← columnsOf_eq, columnsOf_foldl]; rfl
      obtain ⟨xs, hxs⟩ : ∃ xs, xs = rowList (addDone M done).numCols ((pick A.length done).foldl addEntry f) := ⟨_, rfl⟩
      rw [← hxs] at hg hinc hkeys
      rw [← hkeys, List.getElem?_map, Option.map_eq_some_iff] at hpos
      obtain ⟨⟨col', x⟩, hget, rfl⟩ := hpos
      obtain ⟨f1, g1, rfl, rfl⟩ := split_thread' hget
      obtain ⟨m1, e1, n1, c1⟩ := addAt_ok (c := c) hg v
      have hrow : f1 ++ (col', x + v) :: g1 =
          rowList (addDone M done).numCols (addEntry ((pick A.length done).foldl addEntry f) (col', v)) := by
        rw [rowList_addEntry, ← hxs, addTo_split hinc]
      rw [hrow] at c1
      have hgood := hset _ _ _ c1 n1 (addEntry_inRange hr _)
      rw [addDone_snoc M done A.length (col', v) hf] at hgood
      refine ⟨done ++ [(A.length, (col', v))], m1, ⟨(how, A.length, args') :: rest, .searching hw nnz (f1.length + 1)⟩, ?_,
        hgood, ?_, ?_⟩
      · unfold addTurn
        simp only
        rw [e1, bind_ok]
      · intro u hu
        rcases mem_set hu with rfl | hu
        · simp only [AddPcOk]
          exact ⟨hrest, f, hf, hn, ha⟩
        · exact h.pcs u hu
      · obtain ⟨A', B', rfl, rfl⟩ := split_thread' hk
        refine List.Perm.trans ?_ h.perm
        rw [List.append_assoc]
        refine List.Perm.append_left _ ?_
        simp only [List.set_append_right _ _ (Nat.le_refl _), Nat.sub_self, List.set_cons_zero, List.flatMap_append,
          List.flatMap_cons, contributions, List.map_cons, List.cons_append, List.nil_append]
        exact List.perm_middle.symm

/-- Any schedule. -/
theorem CInv.run [Add V] {M : Spec.Matrix V} {prog : List (List (AddVariant × Nat × List (Nat × V)))} (sched : List Nat)
    {done : List (Nat × (Nat × V))} {m : Crs V} {ts : List (Adder V)} (h : CInv M prog done m ts) :
    ∃ done' m' ts', interleave (addTurn c) m ts sched = .ok (m', ts') ∧ CInv M prog done' m' ts' := by
  induction sched generalizing done m ts with
  | nil => exact ⟨done, m, ts, rfl, h⟩
  | cons k ks ih =>
    unfold interleave
    cases hk : ts[k]? with
    | none => exact ih h
    | some t =>
      obtain ⟨done', m', t', h1, h2⟩ := h.step (c := c) hk
      simp only [h1, bind_ok]
      exact ih h2

theorem CInv.init [Add V] {M : Spec.Matrix V} {m : Crs V} (h : CrsGood m M)
    (prog : List (List (AddVariant × Nat × List (Nat × V)))) (hp : ∀ calls ∈ prog, ∀ q ∈ calls, CallOk M q) :
    CInv M prog [] m (adders prog) := by
  refine ⟨?_, ?_, ?_⟩
  · have : addDone M [] = M := by
      cases M
      simp only [addDone, pick, List.filter_nil, List.map_nil, List.foldl_nil, Spec.Matrix.mk.injEq, true_and]
      apply List.ext_getElem?; simp
    rw [this]; exact h
  · intro t ht
    simp only [adders, List.mem_map] at ht
    obtain ⟨cs, hcs, rfl⟩ := ht
    cases cs with
    | nil => simp [AddPcOk]
    | cons q rest =>
      simp only [AddPcOk]
      exact ⟨fun q' hq => hp _ hcs q' (by simp [hq]), hp _ hcs q (by simp)⟩
  · simp only [adders, List.nil_append]
    have : ∀ prog : List (List (AddVariant × Nat × List (Nat × V))),
        (prog.map fun cs => (⟨cs, .start⟩ : Adder V)).flatMap (fun t => contributions t.calls) = contributions prog.flatten := by
      intro prog
      induction prog with
      | nil => rfl
      | cons p prog ih =>
        rw [List.map_cons, List.flatMap_cons, ih]
        simp [contributions]
    rw [this]

end LvArray.Concurrent
