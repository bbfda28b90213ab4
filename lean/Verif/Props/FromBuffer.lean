import Verif.FromBuffer
import Verif.FaultsLemmas
import Verif.RowCaps
import Verif.Props.Vector
/-!
# C95: an `Array` constructed from a buffer

A heap buffer as it is after construction and any reallocation without objects: its slots hold no object and none was lost.
-/

namespace LvArray.Props

open LvArray
open LvArray.Counted LvArray.RowCaps

variable {T : Type} [Inhabited T]

/-- A heap buffer of any capacity that holds no object. -/
structure EmptyHeapBuffer (b : Buf T) : Prop where
  heap : b.kind = .malloc
  noObject : ∀ j, b.cell j = .raw
  noneLost : b.lostLive = 0

omit [Inhabited T] in
theorem EmptyHeapBuffer.good {b : Buf T} (h : EmptyHeapBuffer b) : Good none (Array1.ofBuffer b).1 [] := by
  refine ⟨rfl, ⟨?_, Nat.zero_le _⟩, h.noneLost, fun _ => h.heap, nofun⟩
  funext j
  show b.cell j = _
  rw [h.noObject j]
  exact (cellsOf_ge (Nat.zero_le _)).symm

/-- **C95.** An array constructed from an empty buffer of any capacity starts empty with that capacity, leaves the buffer without
storage, and behaves like a new `std::vector` in every history; its destructor destroys every element. -/
theorem C95_array_from_buffer (c : Cfg) (b : Buf T) (hb : EmptyHeapBuffer b) :
    (Array1.ofBuffer b).1.size = 0 ∧ (Array1.ofBuffer b).1.buf.cap = b.cap ∧ (Array1.ofBuffer b).2.cap = 0 ∧
    ∀ (ops : List (VecOp T)) (xs : List T), (c.debug = true → noEmptyInsert ops) → Spec.vecRun none [] ops = some xs →
      ∃ a, (Array1.ofBuffer b).1.run c ops = .ok a ∧ a.size = xs.length ∧
        (∀ i : Nat, (hi : i < xs.length) → a.get c i = .ok xs[i]) ∧
        ∃ b', a.dtor c = .ok b' ∧ b'.cap = 0 ∧ b'.lostLive = 0 := by
  refine ⟨rfl, rfl, rfl, fun ops xs hd h => ?_⟩
  obtain ⟨a, e, g⟩ := run_good c none ops _ [] xs hb.good hd h
  refine ⟨a, e, g.size, fun i hi => get_ok c g i hi, ?_⟩
  have := bufferManipulation.free_rep c g.rep (g.heap rfl)
  refine ⟨{ a.buf with cap := 0, cell := fun _ => .raw }, ?_, rfl, g.lost⟩
  rw [Array1.dtor, g.size, this]

omit [Inhabited T] in
theorem keepsCap_reserve_room {c : Cfg} {b : Buf T} {size n : Nat} (h : n ≤ b.cap) :
    KeepsCap b (bufferManipulation.reserve c b size n) := by
  unfold bufferManipulation.reserve
  refine keepsCap_bindUnit ?_
  rw [if_neg (by omega)]
  exact keepsCap_ok b

omit [Inhabited T] in
theorem keepsCap_dynamicReserve_room {c : Cfg} {b : Buf T} {size n : Nat} (h : n ≤ b.cap) :
    KeepsCap b (bufferManipulation.dynamicReserve c b size n) := by
  unfold bufferManipulation.dynamicReserve
  refine keepsCap_bindUnit ?_
  rw [if_neg (by omega)]
  exact keepsCap_ok b

omit [Inhabited T] in
theorem keepsCap_resize_room {c : Cfg} {b : Buf T} {size n : Nat} (v : T) (h : n ≤ b.cap) :
    KeepsCap b (bufferManipulation.resize c b size n v) := by
  unfold bufferManipulation.resize
  exact keepsCap_bindUnit ((keepsCap_reserve_room h).bind fun b' => keepsCap_resize b' _ _ _ _)

theorem step_keeps_storage (c : Cfg) {a a' : Array1 T} {xs ys : List T} (hs : a.size = xs.length) (op : VecOp T)
    (h : Spec.vecStep (some a.buf.cap) xs op = some ys) (e : a.step c op = .ok a') :
    a'.buf.cap = a.buf.cap := by
  have hfit : ∀ n, Spec.fits (some a.buf.cap) n → n ≤ a.buf.cap := fun n h => h _ rfl
  cases op with
  | emplaceBack v =>
    simp only [Spec.vecStep, Option.ite_none_right_eq_some] at h
    obtain ⟨b, e1, e2⟩ := bind_eq_ok.mp e
    cases e2
    refine (keepsCap_bindUnit ((keepsCap_dynamicReserve_room ?_).bind fun b' => keepsCap_emplaceBack b' _ _ _) b e1).1
    rw [hs]; exact hfit _ h.1
  | emplace pos v =>
    simp only [Spec.vecStep, Option.ite_none_right_eq_some] at h
    obtain ⟨p, -, e⟩ := bind_eq_ok.mp e
    obtain ⟨b, e1, e2⟩ := bind_eq_ok.mp e
    cases e2
    refine (keepsCap_bindUnit ((keepsCap_dynamicReserve_room ?_).bind fun b' => keepsCap_emplace b' _ _ _ _) b e1).1
    rw [hs]; exact hfit _ h.1.2.2
  | insert pos vs =>
    simp only [Spec.vecStep, Option.ite_none_right_eq_some] at h
    obtain ⟨p, -, e⟩ := bind_eq_ok.mp e
    obtain ⟨b, e1, e2⟩ := bind_eq_ok.mp e
    cases e2
    refine (keepsCap_bindUnit ((keepsCap_dynamicReserve_room ?_).bind fun b' => keepsCap_insert b' _ _ _ _) b e1).1
    rw [hs]; exact hfit _ h.1.2.2
  | popBack =>
    obtain ⟨b, e1, e2⟩ := bind_eq_ok.mp e
    cases e2
    refine (keepsCap_bindUnit (keepsCap_bindUnit (keepsCap_bindUnit ?_)) b e1).1
    split
    · exact keepsCap_error
    · exact keepsCap_destroyAt _ _
  | erase pos =>
    obtain ⟨p, -, e⟩ := bind_eq_ok.mp e
    obtain ⟨b, e1, e2⟩ := bind_eq_ok.mp e
    cases e2
    exact (keepsCap_bufferErase _ _ _ b e1).1
  | resize n =>
    simp only [Spec.vecStep, Option.ite_none_right_eq_some] at h
    obtain ⟨_, -, e⟩ := bind_eq_ok.mp e
    obtain ⟨b, e1, e2⟩ := bind_eq_ok.mp e
    cases e2
    exact (keepsCap_resize_room _ (hfit _ h.1.2) b e1).1
  | resizeDefault n v =>
    simp only [Spec.vecStep, Option.ite_none_right_eq_some] at h
    obtain ⟨_, -, e⟩ := bind_eq_ok.mp e
    obtain ⟨b, e1, e2⟩ := bind_eq_ok.mp e
    cases e2
    exact (keepsCap_resize_room _ (hfit _ h.1.2) b e1).1
  | reserve n =>
    simp only [Spec.vecStep, Option.ite_none_right_eq_some] at h
    obtain ⟨b, e1, e2⟩ := bind_eq_ok.mp e
    cases e2
    exact (keepsCap_reserve_room (hfit _ h.1) b e1).1
  | clear =>
    obtain ⟨b, e1, e2⟩ := bind_eq_ok.mp e
    cases e2
    exact (keepsCap_resize_room _ (Nat.zero_le _) b e1).1
  | set i v =>
    obtain ⟨p, -, e⟩ := bind_eq_ok.mp e
    obtain ⟨b, e1, e2⟩ := bind_eq_ok.mp e
    cases e2
    exact (keepsCap_write _ _ _ b e1).1

theorem vecStep_unlimited {n : Nat} {xs ys : List T} {op : VecOp T} (h : Spec.vecStep (some n) xs op = some ys) :
    Spec.vecStep none xs op = some ys := by
  have hno : ∀ n, Spec.fits none n := fun n => nofun
  cases op <;> simp only [Spec.vecStep, Option.ite_none_right_eq_some, hno, and_true] at h ⊢ <;> grind

/-- **C95, the storage is used.** A history that fits in an array of the fixed length `b.cap` (no size and no reservation beyond
it) leaves the array in the storage of the buffer: its capacity is that of the buffer. -/
theorem C95_stays_in_the_buffer (c : Cfg) (b : Buf T) (hb : EmptyHeapBuffer b) (ops : List (VecOp T)) (xs : List T)
    (hd : c.debug = true → noEmptyInsert ops) (h : Spec.vecRun (some b.cap) [] ops = some xs) :
    ∃ a, (Array1.ofBuffer b).1.run c ops = .ok a ∧ a.buf.cap = b.cap ∧ a.size = xs.length ∧
      ∀ i : Nat, (hi : i < xs.length) → a.get c i = .ok xs[i] := by
  have key : ∀ (ops : List (VecOp T)) (a : Array1 T) (zs : List T), Good none a zs → (c.debug = true → noEmptyInsert ops) →
      Spec.vecRun (some a.buf.cap) zs ops = some xs → ∃ a', a.run c ops = .ok a' ∧ a'.buf.cap = a.buf.cap ∧ Good none a' xs := by
    intro ops
    induction ops with
    | nil =>
      intro a zs g _ h
      simp only [Spec.vecRun, Option.some.injEq] at h
      subst h
      exact ⟨a, rfl, rfl, g⟩
    | cons op ops ih =>
      intro a zs g hd h
      simp only [Spec.vecRun, Option.bind_eq_bind, Option.bind_eq_some_iff] at h
      obtain ⟨ws, h1, h2⟩ := h
      obtain ⟨a1, e1, g1⟩ := run_good c none [op] a zs ws g (fun h pos hm => hd h pos (by
        simp only [List.mem_singleton] at hm
        simp [hm])) (by
        simp only [Spec.vecRun, vecStep_unlimited h1]
        rfl)
      have es : a.step c op = .ok a1 := by
        simp only [Array1.run] at e1
        obtain ⟨a2, e2, e3⟩ := bind_eq_ok.mp e1
        cases e3
        exact e2
      have hc := step_keeps_storage c g.size op h1 es
      rw [← hc] at h2
      obtain ⟨a2, e2, hc2, g2⟩ := ih a1 ws g1 (fun h pos hm => hd h pos (by simp [hm])) h2
      exact ⟨a2, by simp [Array1.run, es, e2], hc2.trans hc, g2⟩
  obtain ⟨a, e, hc, g⟩ := key ops _ [] hb.good hd h
  exact ⟨a, e, hc, g.size, fun i hi => get_ok c g i hi⟩

/-- **C95, the documented precondition is needed.** An array constructed from a buffer that holds `k` objects is empty, and its
destructor releases the storage without destroying them. -/
theorem C95_objects_in_buffer_leak (c : Cfg) (ht : c.trivial = false) (b : Buf T) (hk : b.kind = .malloc) (xs : List T)
    (hr : Rep b xs) (hl : b.lostLive = 0) :
    (Array1.ofBuffer b).1.size = 0 ∧ ∃ b', (Array1.ofBuffer b).1.dtor c = .ok b' ∧ b'.lostLive = xs.length := by
  refine ⟨rfl, ?_⟩
  have h2 := hr.2
  unfold Array1.dtor bufferManipulation.free
  simp only [Array1.ofBuffer]
  rw [bufferManipulation.check_ok c _ _ (by omega), bind_ok, if_neg (by simp [ht]),
    arrayManipulation.destroy_eq c _ 0 0 (.inr (by intro j _ hj; omega)), bind_ok]
  refine ⟨_, rfl, ?_⟩
  simp only [Buf.release, hk]
  rw [hl, Faulty.countL_between c ht _ 0 xs.length]
  · omega
  · intro j
    simp only [hr.1]
    constructor
    · intro ⟨h1, h3⟩
      rw [if_neg (by omega)]
      exact ⟨_, cellsOf_lt (by omega)⟩
    · intro hj
      split
      · rfl
      · exact cellsOf_ge (by omega)

/-- A buffer of capacity five. -/
def fiveSlots : Buf Nat := { (Buf.empty : Buf Nat) with cap := 5 }

example : EmptyHeapBuffer fiveSlots := ⟨rfl, fun _ => rfl, rfl⟩

example : Spec.vecRun (T := Nat) none [] [.emplaceBack 1, .insert 0 [7, 8], .erase 1, .reserve 9, .resizeDefault 4 3] =
    some [7, 1, 3, 3] := by decide

example : Spec.vecRun (some fiveSlots.cap) [] [.emplaceBack 1, .insert 0 [7, 8], .erase 1, .reserve 5, .resizeDefault 4 3] =
    some [7, 1, 3, 3] := by decide

/-- The values go into the storage of the buffer. -/
example : (match (Array1.ofBuffer fiveSlots).1.run ⟨false, true, true⟩ [.emplaceBack 1, .insert 0 [7, 8]] with
    | .ok a => some (a.buf.cap, a.size) | .error _ => none) = some (5, 3) := by decide +kernel

example : Rep ({ fiveSlots with cell := cellsOf [4, 6] } : Buf Nat) [4, 6] := ⟨rfl, by decide⟩

end LvArray.Props
