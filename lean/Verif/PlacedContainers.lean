import Verif.PlacedRun
import Verif.Props.ParallelMatrix

/-!
# The containers keep what `Placed.Sound` asks for
-/

namespace LvArray

open Spec

namespace Placed

variable {X T V : Type}

theorem norm_repM {b : Buf X} {xs : List X} (h : RepM b xs) : RepM (norm b) xs := by
  unfold norm
  split
  · next hz =>
    obtain ⟨⟨h1, h2⟩, h3⟩ := h
    have : xs = [] := List.length_eq_zero_iff.1 (by omega)
    subst this
    exact ⟨⟨by funext k; exact (cellsOf_ge (Nat.zero_le k)).symm, Nat.le_refl 0⟩, rfl⟩
  · exact h

theorem norm_lay {b : Buf X} {L : Layout X} (h : Lay b L) : Lay (norm b) L := by
  unfold norm
  split
  · next hz =>
    have := h.room
    exact ⟨rfl, h.fits, (by rw [hz] at this; exact this), by funext k; exact (Layout.cells_ge (by omega)).symm, rfl⟩
  · exact h

theorem norm_shape {s : Shape} {szs caps : List Nat} (h : ShGood s szs caps) :
    ShGood ⟨s.numArrays, norm s.offsets, norm s.sizes⟩ szs caps :=
  ⟨h.num, h.len, norm_repM h.off, norm_repM h.siz⟩

theorem norm_array {e : Bool} {s : RowStore T V} {L : Layout T} (h : AGood s.array L) : AGood (normStore e s).array L :=
  ⟨norm_shape h.shape, norm_lay h.lay⟩

theorem norm_matrix {n : Nat} {s : RowStore Nat V} {L : Layout (Nat × V)} (h : CGood (s.matrix n) L) :
    CGood ((normStore true s).matrix n) L :=
  ⟨norm_shape h.shape, norm_lay h.layC, norm_lay h.layE⟩

end Placed

namespace Parallel.Prog

variable {I T V α β : Type} {W : LvArray.Part → Bool}

theorem within_bind {p : Prog I T V α} {f : α → Prog I T V β} (h : p.Within W) (hf : ∀ x, (f x).Within W) : (p >>= f).Within W :=
  Within.bind h hf

end Parallel.Prog

namespace Parallel

variable {T V α : Type} {W : LvArray.Part → Bool}

open Prog (within_bind)
open sortedArrayManipulation (less)

theorem checkRow_within : (checkRow : Code T V Unit).Within W := ⟨(fun _ h => by cases h), trivial⟩
theorem base_within : (base : Code T V Unit).Within W := ⟨(fun _ h => by cases h), trivial⟩
theorem size_within : (size : Code T V Nat).Within W := fun _ => trivial
theorem value_within (k : Nat) : (value k : Code T V T).Within W := fun _ => trivial
theorem entry_within (k : Nat) : (entry k : Code T V V).Within W := fun _ => trivial
theorem onValue_within (h : W .values = true) (b : BufAct T) : (onValue b : Code T V Unit).Within W :=
  ⟨(fun _ e => by cases e; exact h), trivial⟩
theorem onEntry_within (h : W .entries = true) (b : BufAct V) : (onEntry b : Code T V Unit).Within W :=
  ⟨(fun _ e => by cases e; exact h), trivial⟩

theorem stopIf_within (b : Bool) : (stopIf b : Code T V Unit).Within W := by
  unfold stopIf
  split <;> trivial

theorem checkBounds2_within (c : Cfg) (j : Nat) : (checkBounds2 c j : Code T V Unit).Within W := by
  unfold checkBounds2
  split
  · exact within_bind checkRow_within fun _ => within_bind size_within fun _ => stopIf_within _
  · trivial

theorem getValue_within (c : Cfg) (j : Nat) : (getValue c j : Code T V T).Within W :=
  within_bind (checkBounds2_within c j) fun _ => within_bind base_within fun _ => value_within j

theorem setValue_within (h : W .values = true) (c : Cfg) (j : Nat) (v : T) : (setValue c j v : Code T V Unit).Within W :=
  within_bind (checkBounds2_within c j) fun _ => within_bind base_within fun _ => onValue_within h _

theorem readAll_within : ∀ (n lo : Nat), (readAll n lo : Code T V (List T)).Within W
  | 0, _ => trivial
  | n + 1, lo => within_bind (value_within lo) fun _ => within_bind (readAll_within n (lo + 1)) fun _ => trivial

theorem assertRange_within (c : Cfg) (lo n : Nat) (test : List T → Bool) : (assertRange c lo n test : Code T V Unit).Within W := by
  unfold assertRange
  split
  · exact within_bind (readAll_within n lo) fun _ => stopIf_within _
  · trivial

theorem findLoop_within (comp : T → T → Bool) (lo : Nat) (v : T) :
    ∀ (fuel lower upper : Nat), (findLoop comp lo v fuel lower upper : Code T V Nat).Within W
  | 0, _, _ => trivial
  | fuel + 1, lower, upper => by
    unfold findLoop
    split
    · trivial
    · refine within_bind (value_within _) fun x => ?_
      split
      · exact findLoop_within comp lo v fuel _ _
      · exact findLoop_within comp lo v fuel _ _

theorem find_within (c : Cfg) (comp : T → T → Bool) (lo n : Nat) (v : T) : (find c comp lo n v : Code T V Nat).Within W :=
  within_bind (assertRange_within c lo n _) fun _ => findLoop_within comp lo v n 0 n

section sets

variable [LT T] [DecidableLT T] [DecidableEq T]

theorem isAt_within (n pos : Nat) (v : T) : (isAt n pos v : Code T V Bool).Within W := by
  unfold isAt
  split
  · trivial
  · exact within_bind (value_within _) fun _ => trivial

theorem contains_within (c : Cfg) (v : T) : (contains c v : Code T V Bool).Within W :=
  within_bind checkRow_within fun _ => within_bind size_within fun n => within_bind base_within fun _ =>
    within_bind (find_within c less 0 n v) fun _ => isAt_within n _ v

end sets

/-! ### Matrices -/

theorem up_within {f : Nat → Code T V Unit} (h : ∀ i, (f i).Within W) : ∀ (n lo : Nat), (up n lo f).Within W
  | 0, _ => trivial
  | n + 1, lo => within_bind (h lo) fun _ => up_within h n (lo + 1)

theorem getEntry_within (c : Cfg) (k : Nat) : (getEntry c k : Code Nat V V).Within W :=
  within_bind (checkBounds2_within c k) fun _ => within_bind base_within fun _ => entry_within k

theorem setEntry_within (h : W .entries = true) (c : Cfg) (k : Nat) (v : V) : (setEntry c k v : Code Nat V Unit).Within W :=
  within_bind (checkBounds2_within c k) fun _ => within_bind base_within fun _ => onEntry_within h _

theorem fillRow_within (h : W .entries = true) (v : V) : (fillRow v : Code Nat V Unit).Within W :=
  within_bind size_within fun n => within_bind base_within fun _ => up_within (fun _ => onEntry_within h _) n 0

section add

variable [Add V] (h : W .entries = true) (c : Cfg)
include h

theorem addAt_within (pos : Nat) (v : V) : (addAt pos v : Code Nat V Unit).Within W :=
  within_bind (entry_within pos) fun _ => onEntry_within h _

omit h [Add V] in
theorem assertColumn_within (nnz pos col : Nat) : (assertColumn c nnz pos col : Code Nat V Unit).Within W := by
  unfold assertColumn
  split
  · exact within_bind (stopIf_within _) fun _ => within_bind (value_within _) fun _ => stopIf_within _
  · trivial

omit h [Add V] in
theorem assertFound_within (pos col : Nat) : (assertFound c pos col : Code Nat V Unit).Within W := by
  unfold assertFound
  split
  · exact within_bind (value_within _) fun _ => stopIf_within _
  · trivial

omit h [Add V] in
theorem linearScan_within (curPos col : Nat) : ∀ (fuel j : Nat), (linearScan curPos col fuel j : Code Nat V Nat).Within W
  | 0, _ => trivial
  | fuel + 1, j => by
    refine within_bind (value_within j) fun x => ?_
    split
    · trivial
    · exact linearScan_within curPos col fuel (j + 1)

theorem binaryLoop_within (nnz : Nat) : ∀ (args : List (Nat × V)) (curPos : Nat), (binaryLoop c nnz curPos args).Within W
  | [], _ => trivial
  | (col, v) :: rest, curPos => by
    unfold binaryLoop
    split
    · trivial
    · exact within_bind (find_within c less _ _ _) fun k => within_bind (assertColumn_within c _ _ _) fun _ =>
        within_bind (addAt_within h _ v) fun _ => binaryLoop_within nnz rest _

theorem linearLoop_within (nnz : Nat) : ∀ (args : List (Nat × V)) (curPos : Nat), (linearLoop c nnz curPos args).Within W
  | [], _ => trivial
  | (col, v) :: rest, curPos =>
    within_bind (linearScan_within curPos col _ curPos) fun pos => within_bind (assertFound_within c pos col) fun _ =>
      within_bind (addAt_within h pos v) fun _ => linearLoop_within nnz rest _

theorem unsortedLoop_within (nnz : Nat) : ∀ (args : List (Nat × V)), (unsortedLoop c nnz args).Within W
  | [] => trivial
  | (col, v) :: rest =>
    within_bind (find_within c less 0 nnz col) fun pos => within_bind (assertColumn_within c nnz pos col) fun _ =>
      within_bind (addAt_within h pos v) fun _ => unsortedLoop_within nnz rest

theorem binary_within (args : List (Nat × V)) : (addToRowBinarySearch c args).Within W :=
  within_bind (stopIf_within _) fun _ => within_bind size_within fun nnz => within_bind checkRow_within fun _ =>
    within_bind base_within fun _ => binaryLoop_within h c nnz args 0

theorem linear_within (args : List (Nat × V)) : (addToRowLinearSearch c args).Within W :=
  within_bind (stopIf_within _) fun _ => within_bind size_within fun nnz => within_bind checkRow_within fun _ =>
    within_bind base_within fun _ => linearLoop_within h c nnz args 0

theorem unsorted_within (args : List (Nat × V)) : (addToRowBinarySearchUnsorted c args).Within W :=
  within_bind size_within fun nnz => within_bind checkRow_within fun _ => within_bind base_within fun _ => unsortedLoop_within h c nnz args

theorem addToRow_within (args : List (Nat × V)) : (addToRow c args).Within W := by
  refine within_bind size_within fun nnz => ?_
  split
  · exact binary_within h c args
  · exact linear_within h c args

end add

/-! ### The calls -/

theorem rowCode_within [Inhabited T] (c : Cfg) (call : RowCall T) :
    (rowCode c call : Code T V (RowOut T)).Within fun part => call.writes part || (!false && decide (part = .entries)) := by
  cases call with
  | get j => exact within_bind (getValue_within c j) fun _ => trivial
  | size => exact within_bind size_within fun _ => trivial
  | set j v => exact within_bind (setValue_within rfl c j v) fun _ => trivial
  | emplaceBack v => exact Prog.within_all rfl rfl rfl _
  | appendToArray vs => exact Prog.within_all rfl rfl rfl _
  | emplace j v => exact Prog.within_all rfl rfl rfl _
  | insertIntoArray j vs => exact Prog.within_all rfl rfl rfl _
  | eraseFromArray j n => exact Prog.within_all rfl rfl rfl _

theorem setCode_within [Inhabited T] [LT T] [DecidableLT T] [DecidableEq T] (c : Cfg) (call : SetCall T) :
    (setCode c call : Code T V (RowOut T)).Within fun part => call.writes part || (!false && decide (part = .entries)) := by
  cases call with
  | get j => exact within_bind (getValue_within c j) fun _ => trivial
  | size => exact within_bind size_within fun _ => trivial
  | contains v => exact within_bind (contains_within c v) fun _ => trivial
  | insert v => exact Prog.within_all rfl rfl rfl _
  | insertMany vs => exact Prog.within_all rfl rfl rfl _
  | remove v => exact Prog.within_all rfl rfl rfl _
  | removeMany vs => exact Prog.within_all rfl rfl rfl _

theorem matCode_within [Add V] (c : Cfg) (call : MatCall V) :
    (matCode c call).Within fun part => call.writes part || (!true && decide (part = .entries)) := by
  cases call with
  | isEmpty k => exact within_bind (within_bind (contains_within c k) fun _ => trivial) fun _ => trivial
  | size => exact within_bind size_within fun _ => trivial
  | getColumn k => exact within_bind (getValue_within c k) fun _ => trivial
  | getEntry k => exact within_bind (getEntry_within c k) fun _ => trivial
  | setEntry k v => exact within_bind (setEntry_within rfl c k v) fun _ => trivial
  | fill v => exact within_bind (fillRow_within rfl v) fun _ => trivial
  | addToRow how args =>
    cases how with
    | auto => exact within_bind (addToRow_within rfl c args) fun _ => trivial
    | binary => exact within_bind (binary_within rfl c args) fun _ => trivial
    | linear => exact within_bind (linear_within rfl c args) fun _ => trivial
    | unsorted => exact within_bind (unsorted_within rfl c args) fun _ => trivial
  | insert k v => exact Prog.within_all rfl rfl rfl _
  | insertMany args => exact Prog.within_all rfl rfl rfl _
  | remove k => exact Prog.within_all rfl rfl rfl _
  | removeMany ks => exact Prog.within_all rfl rfl rfl _

end Parallel

namespace Placed

open Props Parallel

variable {T V : Type}

/-- A member function of an `ArrayOfArrays`, seen from the store: /repo/src/ArrayOfArrays.hpp (`AoA.step` cites each). -/
def ownArray [Inhabited T] (c : Cfg) (op : AoAOp T) (s : RowStore T Unit) : R (RowStore T Unit × Unit) := do
  let a ← s.array.step c op
  .ok (a.shared, ())

/-- Containers of which no member functions are considered. -/
def ownNothing {S : Type} (op : Empty) (_ : S) : R (S × Unit) := nomatch op

theorem threadsRun_length {κ ρ ω : Type} {step : κ → ρ → Option (ρ × ω)} {rows rows' : List ρ} {work : List (List (Nat × κ))}
    {outs : List (List ω)} (h : threadsRun step rows work = some (rows', outs)) : outs.length = work.length := by
  induction work generalizing rows outs with
  | nil => cases h; rfl
  | cons calls work ih =>
    simp only [threadsRun] at h
    split at h
    · cases h
    · obtain ⟨⟨r, o⟩, h1, h2⟩ := Option.map_eq_some_iff.1 h
      cases h2
      simp [ih h1]

/-- From the statement about the calls that have returned to the one about all. -/
theorem returned_all {κ ω : Type} {code : κ → Code T V ω} {work : List (List (Nat × κ))} {cs : Cfgs} {s s' : RowStore T V}
    {sched : List Nat} {ys outs : List (List ω)} (hl : outs.length = work.length)
    (hi : interleave (Parallel.Prog.turn cs) s (threads code work) sched = .ok (s', ys.map .ret))
    (h : ∀ t q, Returned (ys.map (Parallel.Prog.ret (I := Nat) (T := T) (V := V))) t q → outs[t]? = some q) :
    ys = outs ∧ AllReturned (ys.map (Parallel.Prog.ret (I := Nat) (T := T) (V := V))) := by
  have hlen : ys.length = work.length := by simpa [threads] using interleave_length hi
  have hret : ∀ t (ht : t < ys.length), Returned (ys.map (Parallel.Prog.ret (I := Nat) (T := T) (V := V))) t ys[t] := by
    intro t ht
    simp [Returned, ht]
  refine ⟨List.ext_getElem (by omega) fun t h1 h2 => ?_, fun t ht => ⟨_, hret t (by simpa using ht)⟩⟩
  have := h t _ (hret t h1)
  rw [List.getElem?_eq_getElem h2] at this
  exact (Option.some.inj this).symm

theorem shared_of_dummy {s : RowStore T Unit} (h : s.entries = freshBuf s.values.cap) : s = s.array.shared := by
  obtain ⟨shape, values, entries⟩ := s
  simp only at h
  subst h
  rfl

theorem sound_arrays [Inhabited T] (c : Cfg) (ht : c.trivial = true) :
    Sound false ⟨c, c⟩ (rowCode c) (ownArray c) RowCall.step RowCall.writes ownRows (fun s L => AGood (RowStore.array (V := Unit) s) L)
      (fun op : AoAOp T => c.debug = true → op.nonEmptyInsert) where
  norm := fun s rows h => norm_array h
  kernel := fun s rows rows' work outs hg hd hap hr sched => by
    obtain ⟨N, hN⟩ := parallel_rows (c := c) (row := id) hg rowCode_ok (by simp) work hap outs hr
    rw [shared_of_dummy (hd rfl)]
    obtain ⟨s', ts, h1, -, h3, h4⟩ := hN sched
    refine ⟨s', ts, h1, fun ys hy => ?_⟩
    subst hy
    obtain ⟨h5, h6⟩ := returned_all (threadsRun_length hr) h1 (fun t q h => (h3 t q h).1)
    exact ⟨h5, by simpa using (h4 h6).1⟩
  within := rowCode_within c
  own := fun s rows op rows' out hg hd hok hs => by
    obtain ⟨L', h1, h2⟩ := Option.map_eq_some_iff.1 hs
    cases h2
    obtain ⟨a', h2, h3⟩ := run_trivial c ht [op] (by simpa using hok) hg (L' := rows') (by simp [vvcRun, h1])
    simp only [AoA.run] at h2
    obtain ⟨a1, h4, h5⟩ := bind_eq_ok.1 h2
    cases h5
    exact ⟨a'.shared, by simp only [ownArray, h4, bind_ok], h3⟩

theorem sound_sets [LinearOrder T] [Inhabited T] (c : Cfg) :
    Sound false ⟨c, c⟩ (setCode c) ownNothing SetCall.step SetCall.writes ownNone
      (fun s (rows : List (Finset T × Nat)) => AGood (RowStore.array (V := Unit) s) (rows.map fun r => (r.1.sort (· ≤ ·), r.2)))
      (fun _ => True) where
  norm := fun s rows h => norm_array h
  kernel := fun s rows rows' work outs hg hd hap hr sched => by
    obtain ⟨N, hN⟩ := parallel_rows (c := c) (row := fun r : Finset T × Nat => (r.1.sort (· ≤ ·), r.2)) hg setCode_ok rfl work hap outs hr
    rw [shared_of_dummy (hd rfl)]
    obtain ⟨s', ts, h1, -, h3, h4⟩ := hN sched
    refine ⟨s', ts, h1, fun ys hy => ?_⟩
    subst hy
    obtain ⟨h5, h6⟩ := returned_all (threadsRun_length hr) h1 (fun t q h => (h3 t q h).1)
    exact ⟨h5, (h4 h6).1⟩
  within := setCode_within c
  own := fun s rows op => nomatch op

/-! ### Matrices -/

theorem rowRun_snd {κ ρ ω : Type} {step : κ → ρ × Nat → Option ((ρ × Nat) × ω)} (hk : ∀ call r r' o, step call r = some (r', o) → r'.2 = r.2)
    {calls : List (Nat × κ)} {rows rows' : List (ρ × Nat)} {outs : List ω} (h : rowRun step rows calls = some (rows', outs)) :
    rows'.map (·.2) = rows.map (·.2) := by
  induction calls generalizing rows outs with
  | nil => cases h; rfl
  | cons q calls ih =>
    obtain ⟨i, call⟩ := q
    simp only [rowRun] at h
    split at h
    · cases h
    · next r hr =>
      split at h
      · cases h
      · next r1 o h1 =>
        obtain ⟨⟨rows2, outs2⟩, h2, h3⟩ := Option.map_eq_some_iff.1 h
        cases h3
        rw [ih h2, List.map_set, hk _ _ _ _ h1]
        obtain ⟨hl, he⟩ := List.getElem?_eq_some_iff.1 hr
        apply List.ext_getElem (by simp)
        intro j h4 h5
        rw [List.getElem_set]
        split
        · next e => subst e; simp [he]
        · rfl

theorem threadsRun_snd {κ ρ ω : Type} {step : κ → ρ × Nat → Option ((ρ × Nat) × ω)}
    (hk : ∀ call r r' o, step call r = some (r', o) → r'.2 = r.2) {work : List (List (Nat × κ))} {rows rows' : List (ρ × Nat)}
    {outs : List (List ω)} (h : threadsRun step rows work = some (rows', outs)) : rows'.map (·.2) = rows.map (·.2) := by
  induction work generalizing rows outs with
  | nil => cases h; rfl
  | cons calls work ih =>
    simp only [threadsRun] at h
    split at h
    · cases h
    · next r1 o h1 =>
      obtain ⟨⟨rows2, outs2⟩, h2, h3⟩ := Option.map_eq_some_iff.1 h
      cases h3
      rw [ih h2, rowRun_snd hk h1]

theorem matCall_snd [Add V] (n : Nat) (call : MatCall V) (r r' : (Nat → Option V) × Nat) (o : RowOut (Nat ⊕ V))
    (h : call.step n r = some (r', o)) : r'.2 = r.2 := by
  obtain ⟨f, cap⟩ := r
  cases call <;> simp only [MatCall.step] at h
  all_goals (repeat' split at h)
  all_goals first
    | cases h; rfl
    | cases h
    | (obtain ⟨x, _, h2⟩ := Option.map_eq_some_iff.1 h; cases h2; rfl)
    | (obtain ⟨x, _, h2⟩ := Option.bind_eq_some_iff.1 h
       obtain ⟨x, _, h2⟩ := Option.map_eq_some_iff.1 h2; cases h2; rfl)

/-- A matrix with `n` columns, the rows `rows` and their capacities. -/
def MatGood (c : Cfg) (n : Nat) (s : RowStore Nat V) (rows : List ((Nat → Option V) × Nat)) : Prop :=
  CrsGood (s.matrix n) ⟨n, rows.map (·.1)⟩ ∧ RowCapacities c (s.matrix n) (rows.map (·.2))

theorem zip_unzip {A B : Type} (l : List (A × B)) : (l.map (·.1)).zip (l.map (·.2)) = l := by
  induction l with
  | nil => rfl
  | cons x l ih => simp [ih]

theorem sound_matrix [Add V] (c : Cfg) (n : Nat) :
    Sound true ⟨c.ix, c⟩ (matCode c) ownNothing (MatCall.step n) MatCall.writes ownNone (MatGood (V := V) c n) (fun _ => True) where
  norm := fun s rows h => by
    obtain ⟨h1, h2⟩ := h
    obtain ⟨L, hL, e⟩ := h1.rows
    have hg := norm_matrix hL
    have hlen : L.length = rows.length := by simpa using congrArg List.length e
    refine ⟨⟨rfl, ⟨L, hg, e⟩, h1.inRange⟩, fun i hi => ?_⟩
    have hi' : i < (L.map (·.2)).length := by simp at hi ⊢; omega
    have e1 := h2 i hi
    have e2 := rowCapacities_of_good (c := c) hL i hi'
    rw [e1] at e2
    rw [Except.ok.inj e2]
    exact rowCapacities_of_good hg i hi'
  kernel := fun s rows rows' work outs hg hd hap hr sched => by
    obtain ⟨h1, h2⟩ := hg
    obtain ⟨N, hN⟩ := parallel_matrix (c := c) h1 (by simp) h2 work hap outs (rows' := rows') (by
      show threadsRun _ ((rows.map (·.1)).zip (rows.map (·.2))) work = _
      rw [zip_unzip]; exact hr)
    obtain ⟨s', ts, h1, -, h3, h4⟩ := hN sched
    refine ⟨s', ts, h1, fun ys hy => ?_⟩
    subst hy
    obtain ⟨h5, h6⟩ := returned_all (threadsRun_length hr) h1 (fun t q h => (h3 t q h).1)
    obtain ⟨h7, h8, -⟩ := h4 h6
    refine ⟨h5, h7, ?_⟩
    rw [threadsRun_snd (matCall_snd n) hr]
    exact h8
  within := matCode_within c
  own := fun s rows op => nomatch op

end Placed

end LvArray
