import Verif.Uninit
import Verif.HeapRefine
import Verif.Props.Vector

/-!
# C61: arrays of plain data resized without initialisation
-/

namespace LvArray.Props

open Spec

variable {T : Type} [Inhabited T]

/-! ## One dimension -/

/-- A history of calls. -/
def plainCalls (c : Cfg) : Array1 T → List (PlainOp T) → R (Array1 T)
  | a, [] => .ok a
  | a, op :: ops => op.run c a >>= fun a => plainCalls c a ops

omit [Inhabited T] in
theorem plain_lift [Inhabited T] (limit : Option Nat) (xs : List (Option T)) (op : PlainOp T) :
    plainStep limit xs op = vecStep limit xs op.lift := by
  cases op with
  | uninit n => rfl
  | op o => cases o <;> first | rfl | simp [plainStep, vecStep, PlainOp.lift]

theorem plain_lift_run (limit : Option Nat) (ops : List (PlainOp T)) (xs : List (Option T)) :
    plainRun limit xs ops = vecRun limit xs (ops.map PlainOp.lift) := by
  induction ops generalizing xs with
  | nil => rfl
  | cons op ops ih =>
    simp only [plainRun, List.map_cons, vecRun, plain_lift]
    cases vecStep limit xs op.lift with
    | none => rfl
    | some ys => exact ih ys

theorem plain_follows (c : Cfg) (ht : c.trivial = true) (ops : List (PlainOp T)) {a : Array1 T} {a' : Array1 (Option T)}
    (h : a.Knows a') : Follows Array1.Knows (plainCalls c a ops) (a'.run c (ops.map PlainOp.lift)) := by
  induction ops generalizing a a' with
  | nil => exact .ok h
  | cons op ops ih => exact .bind (h.step ht op) fun a a' h => ih h

/-- Inserting an empty range in a debug build is excluded, as in C07. -/
def noEmptyPlainInsert (ops : List (PlainOp T)) : Prop := ∀ pos, PlainOp.op (.insert pos []) ∉ ops

omit [Inhabited T] in
theorem lift_noEmpty [Inhabited T] {ops : List (PlainOp T)} (h : noEmptyPlainInsert ops) :
    noEmptyInsert (ops.map PlainOp.lift) := by
  intro pos hm
  obtain ⟨op, hop, e⟩ := List.mem_map.1 hm
  cases op with
  | uninit n => cases e
  | op o =>
    cases o with
    | insert p vs =>
      simp only [PlainOp.lift, VecOp.insert.injEq, List.map_eq_nil_iff] at e
      obtain ⟨rfl, rfl⟩ := e
      exact h p hop
    | _ => simp [PlainOp.lift] at e

/-- **C61 (one dimension).** For trivially copyable types, heap and stack arrays: any history of valid calls, including
`resizeWithoutInitializationOrDestruction`, completes, and afterwards the array has the size of the sequence and every element
that was ever given a value and not removed since reads that value, wherever it has moved.  Elements without a value are moved
along without harm. -/
theorem C61_vector (c : Cfg) (ht : c.trivial = true) (limit : Option Nat) (ops : List (PlainOp T)) (xs : List (Option T))
    (hdbg : c.debug = true → noEmptyPlainInsert ops) (h : plainRun limit [] ops = some xs) :
    ∃ a, plainCalls c (Array1.init T limit) ops = .ok a ∧ a.size = xs.length ∧
      ∀ (i : Nat) (v : T), xs[i]? = some (some v) → a.get c i = .ok v := by
  rw [plain_lift_run] at h
  obtain ⟨a', e, h1, h2⟩ := C07_array_is_vector c limit (ops.map PlainOp.lift) xs (fun hd => lift_noEmpty (hdbg hd)) h
  have hf := plain_follows c ht ops (Array1.Knows.init (T := T) limit)
  rw [e] at hf
  obtain ⟨a, ea, hk⟩ := hf
  refine ⟨a, ea, hk.size.trans h1, fun i v hv => ?_⟩
  obtain ⟨hi, hv⟩ := List.getElem?_eq_some_iff.1 hv
  refine hk.get ?_
  rw [h2 i hi, hv]

/-- **C61 (invalid calls).** With all checks compiled in, a call that violates its precondition, a negative size or one that a
stack array cannot hold, ends the program with an error message. -/
theorem C61_invalid_call_aborts (c : Cfg) (ht : c.trivial = true) (hb : c.boundsCheck = true) (hd : c.debug = true)
    (limit : Option Nat) (ops : List (PlainOp T)) (op : PlainOp T) (xs : List (Option T)) (hne : noEmptyPlainInsert ops)
    (h : plainRun limit [] ops = some xs) (hop : plainStep limit xs op = none) :
    plainCalls c (Array1.init T limit) (ops ++ [op]) = .error .abort := by
  rw [plain_lift_run] at h
  rw [plain_lift] at hop
  have h1 := C07_invalid_call_aborts c hb hd limit _ _ xs (lift_noEmpty hne) h hop
  have hf := plain_follows c ht (ops ++ [op]) (Array1.Knows.init (T := T) limit)
  rw [List.map_append, List.map_singleton, h1] at hf
  exact hf

/-- **C61 (safety).** With all checks compiled in, no history of calls reaches undefined behaviour: only *reading* an element
that has no value can. -/
theorem C61_checked_histories_are_safe (c : Cfg) (ht : c.trivial = true) (hb : c.boundsCheck = true) (hd : c.debug = true)
    (limit : Option Nat) (ops : List (PlainOp T)) (u : UB) :
    plainCalls c (Array1.init T limit) ops ≠ .error (.ub u) := by
  have hf := plain_follows c ht ops (Array1.Knows.init (T := T) limit)
  have h1 := C08_checked_histories_are_safe c hb hd limit (ops.map PlainOp.lift)
  cases hr : (Array1.init (Option T) limit).run c (ops.map PlainOp.lift) with
  | ok a' =>
    rw [hr] at hf
    obtain ⟨a, e, -⟩ := hf
    rw [e]; simp
  | error e =>
    cases e with
    | abort =>
      rw [hr] at hf
      have hf : plainCalls c (Array1.init T limit) ops = .error .abort := hf
      rw [hf]; simp
    | ub w => exact absurd hr (h1 w)

/-- A history in which elements without a value are shifted, copied to a bigger allocation and partly given values. -/
private def plainHistory : List (PlainOp Nat) :=
  [.op (.emplaceBack 1), .uninit 3, .op (.emplace 1 7), .op (.set 3 9), .op (.resizeDefault 6 5), .uninit 5, .op (.erase 0)]

example : plainRun none [] plainHistory = some [some 7, none, some 9, some 5] := by decide
example : plainStep (T := Nat) (some 2) [none] (.uninit 3) = none ∧ plainStep (T := Nat) none [none] (.uninit (-1)) = none := by decide

/-- Reading an element that has no value is undefined behaviour. -/
example : (plainCalls ⟨true, true, true⟩ (Array1.init Nat none) plainHistory >>= fun a => a.get ⟨true, true, true⟩ 1)
    = .error (.ub .rawRead) := by decide +kernel

/-! ## Any number of dimensions -/

/-- One call on an array with any number of dimensions (dispatch only, no code of its own in /repo). -/
def plainBoxStep (c : Cfg) (a : ArrayN T) : PlainBoxOp T → R (ArrayN T × Option T)
  | .op o => a.step c o
  | .uninit dims => do let a ← a.resizeWithoutInit c dims; .ok (a, none)

/-- A history of calls and what they return. -/
def plainBoxCalls (c : Cfg) : ArrayN T → List (PlainBoxOp T) → R (ArrayN T × List (Option T))
  | a, [] => .ok (a, [])
  | a, op :: ops => do
    let r ← plainBoxStep c a op
    let q ← plainBoxCalls c r.1 ops
    .ok (q.1, r.2 :: q.2)

omit [Inhabited T] in
/-- Reserving keeps every value, also among elements that have none. -/
theorem plain_reserve (c : Cfg) (ht : c.trivial = true) (b : Buf T) (n m : Nat) (hc : n ≤ b.cap) (hr : b.room m) :
    ∃ b', bufferManipulation.reserve c b n m = .ok b' ∧ b'.kind = b.kind ∧ b'.cap = max b.cap m ∧
      ∀ k, k < n → ∀ v, b.read k = .ok v → b'.read k = .ok v := by
  let val : Cell T → Option T := fun x => match x with | .live v => some v | _ => none
  let xs : List (Option T) := List.ofFn fun i : Fin n => val (b.cell i)
  let b0 : Buf (Option T) := { kind := b.kind, cap := b.cap, cell := cellsOf xs, lostLive := 0, lostMoved := 0, moves := 0 }
  have hlen : xs.length = n := by simp [xs]
  have hrep : Rep b0 xs := ⟨rfl, by rw [hlen]; exact hc⟩
  have hval : ∀ x v, val x = some v → x = .live v := fun x v h => by
    cases x with
    | live w => exact congrArg _ (Option.some.inj h)
    | _ => cases h
  have hk : b.Knows b0 := by
    refine ⟨rfl, rfl, fun k v h => ?_⟩
    have h : cellsOf xs k = .live (some v) := h
    by_cases hkn : k < xs.length
    · rw [cellsOf_lt hkn] at h
      simp only [xs, List.getElem_ofFn, Cell.live.injEq] at h
      exact hval _ _ h
    · rw [cellsOf_ge (by omega)] at h; cases h
  have h0 := bufferManipulation.reserve_rep c hrep m hr
  rw [hlen] at h0
  have hf := hk.reserve ht n m
  rw [h0] at hf
  obtain ⟨b', e, hk'⟩ := hf
  refine ⟨b', e, hk'.kind, hk'.cap, fun k hkn v hv => hk'.read ?_⟩
  have hkl : k < xs.length := by omega
  unfold Buf.read at hv ⊢
  rw [if_pos (show k < b.cap by omega)] at hv
  rw [if_pos (show k < max b.cap m by omega)]
  dsimp only [b0]
  rw [cellsOf_lt hkl]
  simp only [xs, List.getElem_ofFn]
  split at hv
  · cases hv
  · rename_i w hw
    cases hv
    simp only [hw, val]
  · cases hv

/-- **C61 (the call itself).** For every array of plain data: the wrong number of sizes or a negative size ends the program,
as does a size that a fixed buffer cannot hold; otherwise the array has exactly the requested shape, with the strides that
belong to it, and every value `data()[ m ]` stays where it is. -/
theorem C61_uninit_shape (c : Cfg) (ht : c.trivial = true) (a : ArrayN T) (hc : a.size ≤ a.buf.cap) (dims : List Int) :
    ((dims.length ≠ a.dims.length ∨ ∃ d ∈ dims, d < 0) → a.resizeWithoutInit c dims = .error .abort) ∧
    (dims.length = a.dims.length → (∀ d ∈ dims, 0 ≤ d) →
      (¬ a.buf.room (dims.map Int.toNat).prod → a.resizeWithoutInit c dims = .error .abort) ∧
      (a.buf.room (dims.map Int.toNat).prod → ∃ a', a.resizeWithoutInit c dims = .ok a' ∧
        a'.dims = dims.map Int.toNat ∧ a'.strides = indexing.calculateStrides a.perm (dims.map Int.toNat) ∧
        a'.perm = a.perm ∧ a'.resizeIndex = a.resizeIndex ∧ a'.buf.kind = a.buf.kind ∧
        a'.buf.cap = max a.buf.cap (dims.map Int.toNat).prod ∧
        ∀ m, m < a.size → ∀ v, a.buf.read m = .ok v → a'.buf.read m = .ok v)) := by
  refine ⟨fun hbad => ?_, fun hl hpos => ?_⟩
  · unfold ArrayN.resizeWithoutInit
    by_cases hl : dims.length = a.dims.length
    · have : dims.any (fun d => decide (d < 0)) = true := by
        simp only [List.any_eq_true, decide_eq_true_eq]
        exact hbad.resolve_left (fun hne => hne hl)
      rw [this]; simp [hl]
    · rw [show (dims.length != a.dims.length) = true by simp [hl], errorIf_true, bind_err]
  · have h1 : (dims.length != a.dims.length) = false := by simp [hl]
    have h2 : dims.any (fun d => decide (d < 0)) = false := by
      simp only [List.any_eq_false, decide_eq_true_eq]
      intro d hd; have := hpos d hd; omega
    refine ⟨fun hr => ?_, fun hr => ?_⟩
    · unfold ArrayN.resizeWithoutInit
      rw [h1, h2, errorIf_false, bind_ok, bind_ok]
      simp only [multiplyAll_eq, bufferManipulation.reserve_abort c hc _ hr, bind_err]
    · obtain ⟨b', e, h3, h4, h5⟩ := plain_reserve c ht a.buf a.size (dims.map Int.toNat).prod hc hr
      refine ⟨{ a with buf := b', dims := dims.map Int.toNat, strides := indexing.calculateStrides a.perm (dims.map Int.toNat) },
        ?_, rfl, rfl, rfl, rfl, h3, h4, h5⟩
      unfold ArrayN.resizeWithoutInit
      rw [h1, h2, errorIf_false, bind_ok, bind_ok]
      simp only [multiplyAll_eq, e, bind_ok]

/-- The same call on an array of optional values, all of them initialised: only used in proofs. -/
def liftBox : BoxOp T → BoxOp (Option T)
  | .resize dims => .resize dims
  | .resizeDimension pairs => .resizeDimension pairs
  | .resizeDefault n v => .resizeDefault n (some v)
  | .clear => .clear
  | .setResizeIndex k => .setResizeIndex k
  | .reserve n => .reserve n
  | .set idx v => .set idx (some v)
  | .get idx => .get idx

/-- `T()` among optional values. -/
@[reducible] def liftDefault (T : Type) [Inhabited T] : Inhabited (Option T) := ⟨some default⟩

/-- A box of optional values that knows everything a box knows. -/
structure BoxKnows (s : Box T) (s' : Box (Option T)) : Prop where
  dims : s'.dims = s.dims
  index : s'.resizeIndex = s.resizeIndex
  elem : ∀ idx v, s.elem idx = some v → s'.elem idx = some (some v)

theorem lift_boxCall {s s1 : Box T} {s' : Box (Option T)} {op : BoxOp T} {out : Option T} (h : BoxKnows s s')
    (hs : boxCall s op = some (s1, out)) :
    ∃ s1', @boxCall (Option T) (liftDefault T) s' (liftBox op) = some (s1', out.map some) ∧ BoxKnows s1 s1' := by
  obtain ⟨dims, ri, elem⟩ := s
  obtain ⟨dims', ri', elem'⟩ := s'
  obtain ⟨hd, hx, he⟩ := h
  have hd : dims' = dims := hd
  have hx : ri' = ri := hx
  have he : ∀ idx v, elem idx = some v → elem' idx = some (some v) := he
  subst hd hx
  have hre : ∀ ds : List Nat, BoxKnows (T := T) (Box.reshaped ⟨dims', ri', elem⟩ ds)
      (@Box.reshaped (Option T) (liftDefault T) ⟨dims', ri', elem'⟩ ds) := fun ds => by
    refine ⟨rfl, rfl, fun idx v hv => ?_⟩
    have hv : (if dims'.prod = 0 then some default else none) = some v := hv
    show (if dims'.prod = 0 then some (some default) else none) = some (some v)
    obtain ⟨hz, hv⟩ := Option.ite_none_right_eq_some.1 hv
    rw [if_pos hz, hv]
  cases op with
  | resize ds =>
    obtain ⟨hp, hs⟩ := Option.ite_none_right_eq_some.1 hs
    cases hs
    exact ⟨_, if_pos hp, hre _⟩
  | resizeDimension pairs =>
    obtain ⟨hp, hs⟩ := Option.ite_none_right_eq_some.1 hs
    cases hs
    exact ⟨_, if_pos hp, hre _⟩
  | resizeDefault n v =>
    obtain ⟨hp, hs⟩ := Option.ite_none_right_eq_some.1 hs
    cases hs
    refine ⟨_, if_pos hp, rfl, rfl, fun idx u hu => ?_⟩
    dsimp only at hu ⊢
    split at hu
    · rw [if_pos ‹_›]; exact he _ _ hu
    · rw [if_neg ‹_›]; cases hu; rfl
  | clear =>
    cases hs
    exact ⟨_, rfl, rfl, rfl, he⟩
  | setResizeIndex k =>
    obtain ⟨hp, hs⟩ := Option.ite_none_right_eq_some.1 hs
    cases hs
    exact ⟨_, if_pos hp, rfl, rfl, he⟩
  | reserve n =>
    cases hs
    exact ⟨_, rfl, rfl, rfl, he⟩
  | set idx v =>
    obtain ⟨hp, hs⟩ := Option.ite_none_right_eq_some.1 hs
    cases hs
    refine ⟨_, if_pos hp, rfl, rfl, fun j u hu => ?_⟩
    dsimp only at hu ⊢
    split at hu
    · rw [if_pos ‹_›]; cases hu; rfl
    · rw [if_neg ‹_›]; exact he _ _ hu
  | get idx =>
    obtain ⟨hp, hs⟩ := Option.ite_none_right_eq_some.1 hs
    obtain ⟨v, hv, hs⟩ := Option.map_eq_some_iff.1 hs
    cases hs
    refine ⟨_, (if_pos hp).trans ?_, rfl, rfl, he⟩
    have hv : elem idx = some v := hv
    show (elem' idx).map _ = _
    rw [show elem' idx = some (some v) from he _ _ hv]; rfl

theorem lift_step (c : Cfg) (ht : c.trivial = true) {a : ArrayN T} {a' a1' : ArrayN (Option T)} {out : Option T} {op : BoxOp T}
    (h : a.Knows a') (hs : @ArrayN.step (Option T) (liftDefault T) c a' (liftBox op) = .ok (a1', out.map some)) :
    ∃ a1, a.step c op = .ok (a1, out) ∧ a1.Knows a1' := by
  have key : ∀ {r : R (ArrayN T)} {r' : R (ArrayN (Option T))}, Follows ArrayN.Knows r r' →
      (do let a ← r'; .ok (a, none) : R (ArrayN (Option T) × Option (Option T))) = .ok (a1', out.map some) →
      ∃ a1, (do let a ← r; .ok (a, none) : R (ArrayN T × Option T)) = .ok (a1, out) ∧ a1.Knows a1' := by
    intro r r' hf hs
    obtain ⟨x, hx, hs⟩ := bind_eq_ok.1 hs
    rw [hx] at hf
    obtain ⟨y, rfl, hk⟩ := hf
    simp only [Except.ok.injEq, Prod.mk.injEq] at hs
    obtain ⟨rfl, ho⟩ := hs
    cases out with
    | none => exact ⟨y, rfl, hk⟩
    | some o => cases ho
  cases op with
  | resize dims => exact key (h.resize ht dims default) hs
  | resizeDimension pairs => exact key (h.resizeDimension ht pairs default) hs
  | resizeDefault n v => exact key (h.resizeDefaultDimension ht n v) hs
  | clear => exact key (h.clear ht default) hs
  | setResizeIndex k => exact key (h.setIndex k) hs
  | reserve n => exact key (h.reserve ht n) hs
  | set idx v => exact key (h.set ht idx v) hs
  | get idx =>
    obtain ⟨x, hx, hs⟩ := bind_eq_ok.1 hs
    simp only [Except.ok.injEq, Prod.mk.injEq] at hs
    obtain ⟨rfl, ho⟩ := hs
    cases out with
    | none => cases ho
    | some v =>
      have : x = some v := by simpa using ho
      subst this
      refine ⟨a, ?_, h⟩
      show (a.get c idx >>= fun v => .ok (a, some v)) = _
      rw [h.get hx, bind_ok]

/-- The array holds every value the box specifies. -/
def PlainRel (c : Cfg) (perm : List Nat) (a : ArrayN T) (s : Box T) : Prop :=
  ∃ a' s', a.Knows a' ∧ @Heap.arrayRel (Option T) (liftDefault T) c perm a' s' ∧ BoxKnows s s'

omit [Inhabited T] in
/-- Elements of a one-dimensional array are at their index. -/
theorem one_get {c : Cfg} {a : ArrayN T} (hw : Wf a) (h1 : a.dims.length = 1) {i : Int} (hi : InBounds a.dims [i]) :
    a.get c [i] = a.buf.read i.toNat := by
  obtain ⟨d, hd⟩ := List.length_eq_one_iff.1 h1
  have hp := hw.isPerm
  have hp0 : a.perm = [0] := by
    rw [h1] at hp
    unfold IsPermutation at hp
    simpa using hp
  have hi2 := hi
  rw [hd] at hi2
  have h0 : 0 ≤ i := hi2.1.1
  have hc := call_ok hp c hi
  unfold ArrayN.get
  rw [hw.view, hc, bind_ok, hp0, hd]
  have : horner (reorder [0] [d]) (reorder [0] [i]) = i := by simp [reorder, horner]
  rw [this, if_neg (by omega)]

theorem uninit_rel {c : Cfg} {perm : List Nat} (ht : c.trivial = true) {a : ArrayN T} {s s1 : Box T} {dims : List Int} {out : Option T}
    (h : PlainRel c perm a s) (hs : plainBoxCall s (.uninit dims) = some (s1, out)) :
    ∃ a1, plainBoxStep c a (.uninit dims) = .ok (a1, out) ∧ PlainRel c perm a1 s1 := by
  letI := liftDefault T
  obtain ⟨a', s', hk, ⟨⟨hw, hkind, hd, hx, he⟩, hp⟩, hb⟩ := h
  obtain ⟨⟨hl, hn⟩, hs⟩ := Option.ite_none_right_eq_some.1 hs
  cases hs
  obtain ⟨a1', e, r1, r2, r3, r4, r5, r6, r7, -⟩ := ((C11_resize c a' hw dims none).2 (by rw [hd, hb.dims]; exact hl) hn).1 (.inl hkind)
  have hf := hk.resizeWithoutInit ht dims
  rw [e] at hf
  obtain ⟨a1, e1, hk1⟩ := hf
  refine ⟨a1, by simp only [plainBoxStep, e1, bind_ok], a1',
    { s' with dims := dims.map Int.toNat
              elem := fun idx => if s'.dims.length = 1 ∧ InBounds s'.dims idx then s'.elem idx else none },
    hk1, ⟨⟨r1, r7.trans hkind, r4, r3.trans hx, fun idx x hi hsx => ?_⟩, r2.trans hp⟩, rfl, hb.index, fun idx v hv => ?_⟩
  · obtain ⟨⟨h1, hin⟩, hsx⟩ := Option.ite_none_right_eq_some.1 hsx
    rw [← hd] at h1 hin
    have hlen : idx.length = 1 := by rw [InBounds.length hin]; exact h1
    obtain ⟨i, rfl⟩ := List.length_eq_one_iff.1 hlen
    have hold := he [i] x hin hsx
    rw [one_get hw h1 hin] at hold
    rw [one_get r1 (by rw [r4]; simpa [hl, ← hb.dims, ← hd] using h1) hi]
    obtain ⟨d, hdd⟩ := List.length_eq_one_iff.1 h1
    have hsz : a'.size = d := by
      show indexing.multiplyAll a'.dims = d
      rw [multiplyAll_eq, hdd]; simp
    have h1' : a1'.dims.length = 1 := by rw [r4]; simpa [hl, ← hb.dims, ← hd] using h1
    obtain ⟨d', hdd'⟩ := List.length_eq_one_iff.1 h1'
    have hsz' : a1'.size = d' := by
      show indexing.multiplyAll a1'.dims = d'
      rw [multiplyAll_eq, hdd']; simp
    rw [hdd] at hin
    rw [hdd'] at hi
    have b1 := hin.1
    have b2 := hi.1
    rw [r6 i.toNat (by rw [hsz']; omega), if_pos (by rw [hsz]; omega)]
    exact hold
  · dsimp only at hv ⊢
    rw [hb.dims]
    obtain ⟨hq, hv⟩ := Option.ite_none_right_eq_some.1 hv
    rw [if_pos hq]
    exact hb.elem idx v hv

/-- **C61 (any number of dimensions).** For trivially copyable types, every permutation of the layout and every history of
allowed calls, including `resizeWithoutInitializationOrDestruction`, on a heap array: the calls complete and return what the
box of values returns, afterwards the array has the shape of the box, and every element of it that has a value reads that
value. -/
theorem C61_boxes (c : Cfg) (ht : c.trivial = true) (perm : List Nat) (hv : typeManipulation.isValidPermutation perm = true)
    (hn : perm ≠ []) (ops : List (PlainBoxOp T)) (s : Box T) (outs : List (Option T))
    (h : plainBoxRun { dims := List.replicate perm.length 0, resizeIndex := 0, elem := fun _ => none } ops = some (s, outs)) :
    ∃ a, plainBoxCalls c (ArrayN.init T perm) ops = .ok (a, outs) ∧ a.dims = s.dims ∧ a.resizeIndex = s.resizeIndex ∧
      ∀ idx v, InBounds s.dims idx → s.elem idx = some v → a.get c idx = .ok v := by
  letI := liftDefault T
  have hinit : PlainRel c perm (ArrayN.init T perm) { dims := List.replicate perm.length 0, resizeIndex := 0, elem := fun _ => none } :=
    ⟨ArrayN.init (Option T) perm, { dims := List.replicate perm.length 0, resizeIndex := 0, elem := fun _ => none },
      ⟨⟨rfl, rfl, fun k v h => by cases h⟩, rfl, rfl, rfl, rfl⟩,
      ⟨⟨init_wf perm hv hn, rfl, rfl, rfl, fun _ _ _ h => by cases h⟩, rfl⟩, rfl, rfl, fun _ _ h => by cases h⟩
  generalize ArrayN.init T perm = a at hinit
  generalize ({ dims := List.replicate perm.length 0, resizeIndex := 0, elem := fun _ => none } : Box T) = s0 at h hinit
  induction ops generalizing a s0 outs with
  | nil =>
    cases h
    obtain ⟨a', s', hk, ⟨⟨hw, hkind, hd, hx, he⟩, hp⟩, hb⟩ := hinit
    refine ⟨a, rfl, by rw [hk.dims, hd, hb.dims], by rw [hk.resizeIndex, hx, hb.index], fun idx v hi hv => hk.get ?_⟩
    exact he idx _ (by rw [hd, hb.dims]; exact hi) (hb.elem idx v hv)
  | cons op ops ih =>
    obtain ⟨⟨s1, out⟩, h1, h⟩ := Option.bind_eq_some_iff.1 h
    obtain ⟨⟨s2, outs2⟩, h2, h⟩ := Option.map_eq_some_iff.1 h
    cases h
    have hstep : ∃ a1, plainBoxStep c a op = .ok (a1, out) ∧ PlainRel c perm a1 s1 := by
      cases op with
      | uninit dims => exact uninit_rel ht hinit h1
      | op o =>
        obtain ⟨a', s', hk, hr, hb⟩ := hinit
        obtain ⟨s1', h3, hb1⟩ := lift_boxCall hb h1
        obtain ⟨a1', h4, hr1⟩ := Heap.array_call hn hr h3
        obtain ⟨a1, h5, hk1⟩ := lift_step c ht hk h4
        exact ⟨a1, h5, a1', s1', hk1, hr1, hb1⟩
    obtain ⟨a1, e1, hr1⟩ := hstep
    obtain ⟨a2, e2, h3⟩ := ih outs2 a1 s1 h2 hr1
    exact ⟨a2, by simp only [plainBoxCalls, e1, e2, bind_ok], h3⟩

/-- A history that reads back what it wrote through a growth of one dimension after an uninitialised resize: the hypotheses
of `C61_boxes` are met. -/
private def plainBoxHistory : List (PlainBoxOp Nat) :=
  [.uninit [2, 2], .op (.set [1, 0] 7), .op (.setResizeIndex 1), .op (.resizeDefault 3 5), .op (.get [1, 0]), .op (.get [0, 2])]

example : (plainBoxRun { dims := [0, 0], resizeIndex := 0, elem := fun _ => none } plainBoxHistory).map (·.2)
    = some [none, none, none, none, some 7, some 5] := by decide +kernel

end LvArray.Props
