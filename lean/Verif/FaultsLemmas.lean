import Verif.Spec.Faults
import Verif.Array1DLemmas
/-!
# Lemmas for calls that end in an exception
-/

namespace LvArray.Faulty

variable {T : Type}

/-- The array of `Array1D.lean` that a state stands for. -/
def arr (s : Faulty T) : Array1 T := { buf := s.buf, size := s.dim.toNat }

/-! ## Unless an element throws, a call does what it does in `Array1D.lean` -/

/-- What the outcome of a program says about that of the corresponding function. -/
def Match (r : EStateM.Result Fault (Faulty T) Unit) (f : R (Array1 T)) : Prop :=
  match r with
  | .ok _ s' => 0 ≤ s'.dim ∧ f = .ok s'.arr
  | .error .element _ => f ≠ .error .abort
  | .error .handler _ => f = .error .abort
  | .error (.ub u) _ => f = .error (.ub u)

/-- `p` does what `f` does, unless an element throws; and then no check that `f` makes fails. -/
def Sim (p : FProg T Unit) (f : Array1 T → R (Array1 T)) : Prop := ∀ s : Faulty T, 0 ≤ s.dim → Match (p s) (f s.arr)

theorem Sim.congr {p : FProg T Unit} {f g : Array1 T → R (Array1 T)} (h : Sim p f) (e : ∀ a, f a = g a) : Sim p g := by
  rw [show g = f from (funext e).symm]; exact h

theorem sim_onBuf (f : Buf T → R (Buf T)) :
    Sim (onBuf f) (fun a => f a.buf >>= fun b => .ok { a with buf := b }) := by
  intro s h0
  unfold onBuf Match
  rcases h : f s.buf with (_ | u) | b <;> simp [arr, h, h0]

theorem sim_checking (f : Buf T → R Unit) : Sim (checking f) (fun a => f a.buf >>= fun _ => .ok a) :=
  (sim_onBuf _).congr fun a => by cases f a.buf <;> rfl

theorem construct_ne_abort (c : Cfg) (i : Nat) (v : T) (b : Buf T) : b.construct c i v ≠ .error .abort := by
  unfold Buf.construct; split <;> simp

theorem write_ne_abort (c : Cfg) (i : Nat) (v : T) (b : Buf T) : b.write c i v ≠ .error .abort := by
  unfold Buf.write; repeat' split
  all_goals simp

theorem onBuf_ne_abort {f : Buf T → R (Buf T)} (h : ∀ b, f b ≠ .error .abort) (a : Array1 T) :
    (f a.buf >>= fun b => .ok { a with buf := b } : R (Array1 T)) ≠ .error .abort := by
  intro e
  rcases hf : f a.buf with (_ | u) | b
  · exact h _ hf
  · rw [hf] at e; cases e
  · rw [hf] at e; cases e

theorem forUp_ne_abort {f : Nat → Buf T → R (Buf T)} (h : ∀ i b, f i b ≠ .error .abort) :
    ∀ n lo b, forUp n lo f b ≠ .error .abort
  | 0, _, _ => nofun
  | n + 1, lo, b => by
    intro e
    simp only [forUp] at e
    rcases hf : f lo b with (_ | u) | b'
    · exact h _ _ hf
    · rw [hf] at e; cases e
    · rw [hf, bind_ok] at e; exact forUp_ne_abort h n (lo + 1) b' e

/-- No element constructor or assignment operator that may throw is called. -/
class Quiet (p : FProg T Unit) : Prop where
  quiet : ∀ s s', p s ≠ .error .element s'

instance (f : Buf T → R (Buf T)) : Quiet (onBuf f) := ⟨fun s s' => by
  unfold onBuf
  rcases f s.buf with (_ | u) | _ <;> simp⟩

instance (f : Buf T → R Unit) : Quiet (checking f) := inferInstanceAs (Quiet (onBuf _))

instance (n : Int) : Quiet (T := T) (setDim n) := ⟨nofun⟩

theorem sim_element (c : Cfg) (throws : Nat → Bool) (f : Buf T → R (Buf T)) (hf : ∀ b, f b ≠ .error .abort) :
    Sim (element c throws f) (fun a => f a.buf >>= fun b => .ok { a with buf := b }) := by
  intro s h0
  by_cases ht : (!c.trivial && throws s.count) = true
  · simp only [element, if_pos ht, Match]
    exact onBuf_ne_abort hf _
  · simp only [element, if_neg ht]
    exact sim_onBuf f { s with count := s.count + 1 } h0

theorem sim_setDim (n : Nat) : Sim (T := T) (setDim (n : Int)) (fun a => .ok { a with size := n }) := by
  intro s h0
  simp [setDim, Match, arr]

theorem Sim.bind' {p q : FProg T Unit} {f g : Array1 T → R (Array1 T)} (hp : Sim p f) (hq : Sim q g)
    (hc : Quiet p ∨ ∀ a, g a ≠ .error .abort) :
    Sim (p >>= fun _ => q) (fun a => f a >>= g) := by
  intro s h0
  have h1 := hp s h0
  show Match ((EStateM.bind p (fun _ => q)) s) _
  unfold EStateM.bind
  rcases hps : p s with ⟨_, s1⟩ | ⟨_ | _ | u, s1⟩ <;> simp only [hps, Match] at h1 ⊢
  · rw [h1.2]; exact hq s1 h1.1
  · rcases hc with hc | hc
    · exact absurd hps (hc.quiet s s1)
    · intro e
      rcases hf : f s.arr with (_ | u) | a
      · exact h1 hf
      · rw [hf] at e; cases e
      · rw [hf, bind_ok] at e; exact hc a e
  · rw [h1]; rfl
  · rw [h1]; rfl

theorem Sim.bind {p q : FProg T Unit} {f g : Array1 T → R (Array1 T)} (hp : Sim p f) (hq : Sim q g) [hc : Quiet p] :
    Sim (p >>= fun _ => q) (fun a => f a >>= g) := hp.bind' hq (.inl hc)

theorem Sim.dim {p : FProg T Unit} {f : Array1 T → R (Array1 T)} (hp : Sim p f) (n : Nat) :
    Sim (p >>= fun _ => setDim (n : Int)) (fun a => f a >>= fun a => .ok { a with size := n }) :=
  hp.bind' (sim_setDim n) (.inr fun _ => nofun)

theorem sim_size {P : Nat → FProg T Unit} {f : Nat → Array1 T → R (Array1 T)} (h : ∀ n, Sim (P n) (f n)) :
    Sim (size >>= P) (fun a => f a.size a) := by
  intro s h0
  have h1 := h s.dim.toNat s h0
  show Match ((EStateM.bind size P) s) _
  simp only [EStateM.bind, size, if_neg (show ¬ s.dim < 0 by omega)]
  exact h1

theorem sim_eval {α : Type} (r : R α) {q : α → FProg T Unit} {g : α → Array1 T → R (Array1 T)} (h : ∀ x, Sim (q x) (g x)) :
    Sim (eval r >>= q) (fun a => r >>= fun x => g x a) := by
  intro s h0
  rcases r with (_ | u) | x
  · exact (rfl : (Except.error Err.abort : R (Array1 T)) = _)
  · exact (rfl : (Except.error (Err.ub u) : R (Array1 T)) = _)
  · exact h x s h0

theorem sim_pure : Sim (T := T) (pure ()) (fun a => .ok a) := fun _ h0 => ⟨h0, rfl⟩

theorem sim_loop {F : Nat → FProg T Unit} {f : Nat → Buf T → R (Buf T)} (hf : ∀ i b, f i b ≠ .error .abort)
    (h : ∀ i, Sim (F i) (fun a => f i a.buf >>= fun b => .ok { a with buf := b })) :
    ∀ n lo, Sim (loop n lo F) (fun a => forUp n lo f a.buf >>= fun b => .ok { a with buf := b })
  | 0, _ => sim_pure
  | n + 1, lo => ((h lo).bind' (sim_loop hf h n (lo + 1)) (.inr (onBuf_ne_abort (forUp_ne_abort hf n (lo + 1))))).congr fun a => by
    simp only [forUp, bind_assoc, bind_ok]

theorem sim_emplaceBack (c : Cfg) (throws : Nat → Bool) (v : T) :
    Sim (emplaceBack c throws v) (fun a => a.emplaceBack c v) :=
  (sim_size fun n => (sim_checking (bufferManipulation.check c · n)).bind
    ((sim_onBuf (bufferManipulation.dynamicReserve c · n (n + 1))).bind
    ((sim_checking (arrayManipulation.assertNonNull c · 0)).bind
    ((sim_element c throws (·.construct c n v) (construct_ne_abort c n v)).dim (n + 1))))).congr fun a => by
  simp only [Array1.emplaceBack, bufferManipulation.emplaceBack, arrayManipulation.emplaceBack, Nat.zero_add, bind_assoc,
    bind_ok]

theorem sim_emplace (c : Cfg) (throws : Nat → Bool) (pos : Int) (v : T) :
    Sim (emplace c throws pos v) (fun a => a.emplace c pos v) :=
  (sim_size fun n => sim_eval (posArg c pos) fun pos => (sim_checking (bufferManipulation.checkInsert c · n pos)).bind
    ((sim_onBuf (bufferManipulation.dynamicReserve c · n (n + 1))).bind
    ((sim_checking (arrayManipulation.assertNonNull c · 0)).bind
    ((sim_checking (fun _ => arrayManipulation.checkInsertBounds c n pos)).bind
    ((sim_onBuf (arrayManipulation.shiftUp c · 0 n pos 1)).bind
    ((sim_element c throws (·.construct c pos v) (construct_ne_abort c pos v)).dim (n + 1))))))).congr fun a => by
  simp only [Array1.emplace, bufferManipulation.emplace, arrayManipulation.emplace, Nat.zero_add, bind_assoc, bind_ok]

theorem sim_insert [Inhabited T] (c : Cfg) (throws : Nat → Bool) (pos : Int) (vs : List T) :
    Sim (insert c throws pos vs) (fun a => a.insert c pos vs) :=
  (sim_size fun n => sim_eval (posArg c pos) fun pos => (sim_checking (bufferManipulation.checkInsert c · n pos)).bind
    ((sim_onBuf (bufferManipulation.dynamicReserve c · n (n + vs.length))).bind
    ((sim_checking (arrayManipulation.assertNonNull c · 0)).bind
    ((sim_checking (fun _ => arrayManipulation.checkInsertBounds c n pos)).bind
    ((sim_onBuf (arrayManipulation.shiftUp c · 0 n pos vs.length)).bind
    ((sim_loop (f := fun i b => b.construct c i (vs.getD (i - pos) default)) (fun i => construct_ne_abort c i _)
      (fun i => sim_element c throws _ (construct_ne_abort c i _)) vs.length pos).dim (n + vs.length))))))).congr fun a => by
  simp only [Array1.insert, bufferManipulation.insert, arrayManipulation.insert, arrayManipulation.constructRange,
    Nat.zero_add, bind_assoc, bind_ok]

theorem sim_popBack (c : Cfg) : Sim (popBack c) (fun a : Array1 T => a.popBack c) :=
  (sim_size fun n => (sim_onBuf (bufferManipulation.popBack c · n)).bind (sim_setDim (n - 1))).congr fun a => by
  simp only [Array1.popBack, bind_assoc, bind_ok]

theorem sim_erase (c : Cfg) (pos : Int) : Sim (erase c pos) (fun a : Array1 T => a.erase c pos) :=
  (sim_size fun n => sim_eval (posArg c pos) fun pos =>
    (sim_onBuf (bufferManipulation.erase c · n pos)).bind (sim_setDim (n - 1))).congr fun a => by
  simp only [Array1.erase, bind_assoc, bind_ok]

theorem sim_resizeBuffer (c : Cfg) (throws : Nat → Bool) (old new : Nat) (v : T) :
    Sim (resizeBuffer c throws old new v)
      (fun a => bufferManipulation.resize c a.buf old new v >>= fun b => .ok { a with buf := b }) :=
  ((sim_checking (bufferManipulation.check c · old)).bind
    ((sim_onBuf (bufferManipulation.reserve c · old new)).bind
    ((sim_onBuf (arrayManipulation.destroy c · new (old - new))).bind
    (sim_loop (f := fun i b => b.construct c i v) (fun i => construct_ne_abort c i v)
      (fun i => sim_element c throws _ (construct_ne_abort c i v)) (new - old) old)))).congr fun a => by
  simp only [bufferManipulation.resize, arrayManipulation.resize, arrayManipulation.constructRange, Nat.zero_add,
    bind_assoc, bind_ok]

theorem sim_resizeDefault (c : Cfg) (throws : Nat → Bool) (n : Int) (v : T) :
    Sim (resizeDefault c throws n v) (fun a => a.resizeDefault c n v) := by
  by_cases hn : n < 0
  · intro s _
    simp [resizeDefault, Array1.resizeDefault, hn, bind, EStateM.bind, eval, Match, Except.bind]
  · have hz : n = ((n.toNat : Nat) : Int) := by omega
    refine (sim_eval (errorIf (decide (n < 0))) fun _ => sim_size fun old =>
      (by rw [hz]; exact sim_setDim n.toNat : Sim (setDim n) (fun a : Array1 T => .ok { a with size := n.toNat })).bind
        (sim_resizeBuffer c throws old n.toNat v)).congr fun a => ?_
    simp only [Array1.resizeDefault, bind_ok]

theorem sim_reserve (c : Cfg) (n : Int) : Sim (reserve c n) (fun a : Array1 T => a.reserve c n) :=
  (sim_size fun old => sim_onBuf (bufferManipulation.reserve c · old n.toNat)).congr fun a => by
  simp only [Array1.reserve]

theorem sim_clear [Inhabited T] (c : Cfg) (throws : Nat → Bool) : Sim (clear c throws) (fun a : Array1 T => a.clear c) :=
  (sim_size fun old => (sim_resizeBuffer c throws old 0 default).dim 0).congr fun a => by
  simp only [Array1.clear, bind_assoc, bind_ok]

theorem readWrite_ne_abort (c : Cfg) (src : Buf T) (i : Nat) (b : Buf T) :
    (src.read i >>= fun x => b.write c i x) ≠ .error .abort := by
  rcases hr : src.read i with (_ | u) | x
  · unfold Buf.read at hr
    repeat' split at hr
    all_goals simp at hr
  · simp
  · exact write_ne_abort c i x b

theorem sim_copyAssign [Inhabited T] (c : Cfg) (throws : Nat → Bool) (rhs : Array1 T) :
    Sim (copyAssign c throws rhs) (fun a : Array1 T => a.copyAssign c rhs) :=
  (sim_size fun n => (sim_checking (bufferManipulation.check c · n)).bind
    ((sim_checking (fun _ => bufferManipulation.check c rhs.buf rhs.size)).bind
    ((sim_resizeBuffer c throws n rhs.size default).bind'
    ((sim_loop (f := fun i b => rhs.buf.read i >>= fun x => b.write c i x) (fun i => readWrite_ne_abort c rhs.buf i)
      (fun i => sim_element c throws _ (readWrite_ne_abort c rhs.buf i)) rhs.size 0).dim rhs.size)
    (.inr fun a => by
      intro e
      rcases hf : forUp rhs.size 0 (fun i b => rhs.buf.read i >>= fun x => b.write c i x) a.buf with (_ | u) | b
      · exact forUp_ne_abort (fun i => readWrite_ne_abort c rhs.buf i) _ _ _ hf
      · rw [hf] at e; cases e
      · rw [hf] at e; cases e)))).congr fun a => by
  simp only [Array1.copyAssign, bufferManipulation.copyInto, bind_assoc, bind_ok]

theorem sim_get {P : Faulty T → FProg T Unit} {f : Array1 T → Array1 T → R (Array1 T)}
    (h : ∀ s, 0 ≤ s.dim → Sim (P s) (f s.arr)) : Sim (EStateM.get >>= P) (fun a => f a a) := by
  intro s h0
  exact h s h0 s h0

theorem sim_set (c : Cfg) (throws : Nat → Bool) (i : Int) (v : T) :
    Sim (set c throws i v) (fun a : Array1 T => a.set c i v) := by
  refine (sim_size fun n => sim_get (f := fun a0 a => ({ buf := a0.buf, size := n } : Array1 T).checkIndex c i >>= fun i =>
    a.buf.write c i v >>= fun b => .ok { a with buf := b }) fun s _ =>
      sim_eval _ fun i => sim_element c throws (·.write c i v) (write_ne_abort c i v)).congr fun a => ?_
  simp only [Array1.set]

theorem sim_call [Inhabited T] (c : Cfg) (throws : Nat → Bool) (op : VecOp T) :
    Sim (call c throws op) (fun a => a.step c op) := by
  cases op with
  | emplaceBack v => exact sim_emplaceBack c throws v
  | emplace pos v => exact sim_emplace c throws pos v
  | insert pos vs => exact sim_insert c throws pos vs
  | popBack => exact sim_popBack c
  | erase pos => exact sim_erase c pos
  | resize n => exact sim_resizeDefault c throws n default
  | resizeDefault n v => exact sim_resizeDefault c throws n v
  | reserve n => exact sim_reserve c n
  | clear => exact sim_clear c throws
  | set i v => exact sim_set c throws i v

/-! ## What a call leaves behind when it fails -/

/-- From every state in `P`, `p` returns in a state in `Q`, or ends with an exception in a state that `E` allows, or is
undefined. -/
def Leaves (P : Faulty T → Prop) (p : FProg T Unit) (Q : Faulty T → Prop) (E : Fault → Faulty T → Prop) : Prop :=
  ∀ s, P s → match p s with
    | .ok _ s' => Q s'
    | .error (.ub _) _ => True
    | .error e s' => E e s'

theorem Leaves.bind {P Q Q' : Faulty T → Prop} {E : Fault → Faulty T → Prop} {p q : FProg T Unit} (hp : Leaves P p Q E)
    (hq : Leaves Q q Q' E) : Leaves P (p >>= fun _ => q) Q' E := by
  intro s hs
  have h1 := hp s hs
  show match (EStateM.bind p (fun _ => q)) s with
    | .ok _ s' => Q' s'
    | .error (.ub _) _ => True
    | .error e s' => E e s'
  unfold EStateM.bind
  rcases hps : p s with ⟨_, s1⟩ | ⟨_ | _ | u, s1⟩ <;> simp only [hps] at h1 ⊢
  · exact hq s1 h1
  · exact h1
  · exact h1

/-- The state holds `xs`. -/
def Holds (limit : Option Nat) (xs : List T) (s : Faulty T) : Prop := 0 ≤ s.dim ∧ Good limit s.arr xs

theorem Holds.dim {limit : Option Nat} {xs : List T} {s : Faulty T} (h : Holds limit xs s) : s.dim = xs.length := by
  have := h.2.size
  have := h.1
  simp only [arr] at *
  omega

theorem Holds.buf {limit : Option Nat} {xs : List T} {s : Faulty T} (h : Holds limit xs s) {b : Buf T}
    (hk : b.kind = s.buf.kind) (hl : b.lostLive = s.buf.lostLive) (hc : b.cell = s.buf.cell) (hcap : xs.length ≤ b.cap)
    (hst : s.buf.kind = .stack → b.cap = s.buf.cap) : Holds limit xs { s with buf := b } := by
  refine ⟨h.1, ?_⟩
  exact h.2.mk' h.2.size hk hl (hc.trans h.2.rep.1) hcap hst

theorem leaves_checking {limit : Option Nat} {xs : List T} {E : Fault → Faulty T → Prop} (f : Buf T → R Unit)
    (hE : ∀ s, Holds limit xs s → E .handler s) : Leaves (Holds limit xs) (checking f) (Holds limit xs) E := by
  intro s hs
  unfold checking onBuf
  rcases hf : f s.buf with (_ | u) | _ <;> simp only [hf, bind_ok, bind_err]
  · exact hE s hs
  · exact hs

theorem leaves_size {P : Faulty T → Prop} {Q : Faulty T → Prop} {E : Fault → Faulty T → Prop} {p : Nat → FProg T Unit}
    (n : Nat) (hP : ∀ s, P s → s.dim = n) (h : Leaves P (p n) Q E) : Leaves P (size >>= p) Q E := by
  intro s hs
  have h1 := h s hs
  show match (EStateM.bind size p) s with
    | .ok _ s' => Q s'
    | .error (.ub _) _ => True
    | .error e s' => E e s'
  have hd := hP s hs
  simp only [EStateM.bind, size, if_neg (show ¬ s.dim < 0 by omega), show s.dim.toNat = n by omega]
  exact h1

theorem leaves_eval {α : Type} {P Q : Faulty T → Prop} {E : Fault → Faulty T → Prop} {r : R α} {p : α → FProg T Unit}
    (hE : ∀ s, P s → E .handler s) (h : ∀ x, r = .ok x → Leaves P (p x) Q E) : Leaves P (eval r >>= p) Q E := by
  intro s hs
  rcases r with (_ | u) | x
  · exact hE s hs
  · trivial
  · exact h x rfl s hs

theorem leaves_dynamicReserve (c : Cfg) {limit : Option Nat} {xs : List T} {E : Fault → Faulty T → Prop} (n : Nat)
    (hE : ∀ s, Holds limit xs s → E .handler s) :
    Leaves (Holds limit xs) (onBuf (bufferManipulation.dynamicReserve c · xs.length n)) (Holds limit xs) E := by
  intro s hs
  unfold onBuf
  have hrep : Rep s.buf xs := hs.2.rep
  by_cases hr : s.buf.room n
  · simp only [bufferManipulation.dynamicReserve_rep c hrep n hr]
    refine hs.buf rfl rfl rfl ?_ (grownCap_stack hr)
    have := hrep.2
    show xs.length ≤ s.buf.grownCap n
    unfold Buf.grownCap
    split <;> omega
  · simp only [bufferManipulation.dynamicReserve_abort c hrep.2 n hr]
    exact hE s hs

theorem leaves_reserve (c : Cfg) {limit : Option Nat} {xs : List T} {E : Fault → Faulty T → Prop} (n : Nat)
    (hE : ∀ s, Holds limit xs s → E .handler s) :
    Leaves (Holds limit xs) (onBuf (bufferManipulation.reserve c · xs.length n)) (Holds limit xs) E := by
  intro s hs
  unfold onBuf
  have hrep : Rep s.buf xs := hs.2.rep
  by_cases hr : s.buf.room n
  · simp only [bufferManipulation.reserve_rep c hrep n hr]
    refine hs.buf rfl rfl rfl ?_ (maxCap_stack hr)
    have := hrep.2
    simp only []
    omega
  · simp only [bufferManipulation.reserve_abort c hrep.2 n hr]
    exact hE s hs

/-- A part that is not followed by anything that can fail. -/
theorem leaves_onBuf {P : Faulty T → Prop} {E : Fault → Faulty T → Prop} (f : Buf T → R (Buf T))
    (hE : ∀ s, P s → E .handler s) : Leaves P (onBuf f) (fun _ => True) E := by
  intro s hs
  unfold onBuf
  rcases f s.buf with (_ | u) | _
  · exact hE s hs
  · trivial
  · trivial

theorem leaves_setDim {E : Fault → Faulty T → Prop} (n : Int) : Leaves (T := T) (fun _ => True) (setDim n) (fun _ => True) E :=
  fun _ _ => trivial

/-- Constructing or assigning one element. -/
theorem leaves_element (c : Cfg) (throws : Nat → Bool) {P : Faulty T → Prop} {E : Fault → Faulty T → Prop}
    (f : Buf T → R (Buf T)) (hf : ∀ b, f b ≠ .error .abort)
    (hP : ∀ s, P s → P { s with count := s.count + 1 }) (hE : ∀ s, P s → E .element s) :
    Leaves P (element c throws f) (fun _ => True) E := by
  intro s hs
  unfold element
  by_cases ht : (!c.trivial && throws s.count) = true
  · simp only [if_pos ht]
    exact hE _ (hP s hs)
  · simp only [if_neg ht]
    unfold onBuf
    rcases hb : f s.buf with (_ | u) | b
    · exact absurd hb (hf _)
    · simp only [hb]
    · simp only [hb]

theorem Holds.count {limit : Option Nat} {xs : List T} {s : Faulty T} (h : Holds limit xs s) :
    Holds limit xs { s with count := s.count + 1 } := h

theorem leaves_emplaceBack (c : Cfg) (throws : Nat → Bool) {limit : Option Nat} (xs : List T) (v : T) :
    Leaves (Holds limit xs) (emplaceBack c throws v) (fun _ => True) (fun _ => Holds limit xs) :=
  leaves_size xs.length (fun _ h => h.dim) <|
    (leaves_checking _ fun _ h => h).bind <| (leaves_dynamicReserve c _ fun _ h => h).bind <|
    (leaves_checking _ fun _ h => h).bind <|
    (leaves_element c throws _ (construct_ne_abort c _ v) (fun _ h => Holds.count h) fun _ h => h).bind (leaves_setDim _)

/-- Making room at the end shifts nothing. -/
theorem shiftUp_end (c : Cfg) (b : Buf T) (n k : Nat) : arrayManipulation.shiftUp c b 0 n n k = .ok b := by
  unfold arrayManipulation.shiftUp
  rw [arrayManipulation.checkInsertBounds_ok c n n (Nat.le_refl _), bind_ok]
  by_cases hk : k = 0
  · rw [if_pos hk]
  · rw [if_neg hk]
    simp only [Nat.sub_self, forDown, bind_ok]
    rw [if_neg (by omega), Nat.sub_self]
    rfl

/-- Making room shifts elements, or nothing at the end. -/
theorem leaves_shiftUp (c : Cfg) {limit : Option Nat} {xs : List T} {E : Fault → Faulty T → Prop} (pos k : Nat)
    (hE : ∀ s, Holds limit xs s → E .handler s) :
    Leaves (Holds limit xs) (onBuf (arrayManipulation.shiftUp c · 0 xs.length pos k))
      (fun s => pos = xs.length → Holds limit xs s) E := by
  intro s hs
  by_cases hp : pos = xs.length
  · subst hp
    simp only [onBuf, shiftUp_end]
    exact fun _ => hs
  · have := leaves_onBuf (P := Holds limit xs) (E := E) (arrayManipulation.shiftUp c · 0 xs.length pos k) hE s hs
    revert this
    rcases onBuf (arrayManipulation.shiftUp c · 0 xs.length pos k) s with ⟨_, s1⟩ | ⟨_ | _ | u, s1⟩
    · exact fun _ h => absurd h hp
    · exact fun h => h
    · exact fun h => h
    · exact fun h => h

theorem leaves_emplace (c : Cfg) (throws : Nat → Bool) {limit : Option Nat} (xs : List T) (pos : Int) (v : T) :
    Leaves (Holds limit xs) (emplace c throws pos v) (fun _ => True)
      (fun e s => (e = .element → pos = xs.length) → Holds limit xs s) :=
  leaves_size xs.length (fun _ h => h.dim) <| leaves_eval (fun _ h _ => h) fun p hp =>
    (leaves_checking _ fun _ h _ => h).bind <| (leaves_dynamicReserve c _ fun _ h _ => h).bind <|
    (leaves_checking _ fun _ h _ => h).bind <| (leaves_checking _ fun _ h _ => h).bind <|
    (leaves_shiftUp c p 1 fun _ h _ => h).bind <|
    (leaves_element c throws _ (construct_ne_abort c _ v) (fun _ h e => Holds.count (h e)) (fun _ h e => h (by
      have := e rfl
      unfold posArg at hp
      split at hp
      · split at hp <;> cases hp
      · cases hp; omega))).bind (leaves_setDim _)

theorem leaves_insert [Inhabited T] (c : Cfg) (throws : Nat → Bool) {limit : Option Nat} (xs : List T) (pos : Int)
    (vs : List T) :
    Leaves (Holds limit xs) (insert c throws pos vs) (fun _ => True)
      (fun e s => (e = .element → pos = xs.length ∧ vs.length = 1) → Holds limit xs s) :=
  leaves_size xs.length (fun _ h => h.dim) <| leaves_eval (fun _ h _ => h) fun p hp =>
    (leaves_checking _ fun _ h _ => h).bind <| (leaves_dynamicReserve c _ fun _ h _ => h).bind <|
    (leaves_checking _ fun _ h _ => h).bind <| (leaves_checking _ fun _ h _ => h).bind <|
    (leaves_shiftUp c p vs.length fun _ h _ => h).bind <| by
  refine Leaves.bind (Q := fun _ => True) ?_ (leaves_setDim _)
  have hpos : pos = xs.length → p = xs.length := by
    intro he
    unfold posArg at hp
    split at hp
    · split at hp <;> cases hp
    · cases hp; omega
  by_cases h1 : vs.length = 1
  · rw [h1]
    exact Leaves.bind (Q := fun _ => True) (leaves_element c throws _ (construct_ne_abort c _ _)
      (fun _ h e => Holds.count (h e)) (fun _ h e => h (hpos (e rfl).1))) (fun _ _ => trivial)
  · -- nothing is claimed if an element throws, and the error handler is not called in the loop
    have key : ∀ n lo, Leaves (T := T) (fun _ => True)
        (loop n lo fun i => element c throws (·.construct c i (vs.getD (i - p) default))) (fun _ => True)
        (fun e s => (e = .element → pos = xs.length ∧ vs.length = 1) → Holds limit xs s) := by
      intro n
      induction n with
      | zero => exact fun _ _ _ => trivial
      | succ n ih =>
        intro lo
        exact Leaves.bind (Q := fun _ => True) (leaves_element c throws _ (construct_ne_abort c _ _) (fun _ h => h)
          (fun _ _ e => absurd (e rfl).2 h1)) (ih (lo + 1))
    exact fun s _ => key vs.length p s trivial

theorem leaves_popBack (c : Cfg) {limit : Option Nat} (xs : List T) :
    Leaves (Holds limit xs) (popBack c) (fun _ => True) (fun _ => Holds limit xs) :=
  leaves_size xs.length (fun _ h => h.dim) <|
    (leaves_onBuf (P := Holds limit xs) (E := fun _ => Holds limit xs) _ fun _ h => h).bind (leaves_setDim _)

theorem leaves_erase (c : Cfg) {limit : Option Nat} (xs : List T) (pos : Int) :
    Leaves (Holds limit xs) (erase c pos) (fun _ => True) (fun _ => Holds limit xs) :=
  leaves_size xs.length (fun _ h => h.dim) <| leaves_eval (fun _ h => h) fun _ _ =>
    (leaves_onBuf (P := Holds limit xs) (E := fun _ => Holds limit xs) _ fun _ h => h).bind (leaves_setDim _)

theorem leaves_reserveCall (c : Cfg) {limit : Option Nat} (xs : List T) (n : Int) :
    Leaves (Holds limit xs) (reserve c n) (fun _ => True) (fun _ => Holds limit xs) :=
  leaves_size xs.length (fun _ h => h.dim) <| leaves_onBuf _ fun _ h => h

theorem leaves_clear [Inhabited T] (c : Cfg) (throws : Nat → Bool) {limit : Option Nat} (xs : List T) :
    Leaves (Holds limit xs) (clear c throws) (fun _ => True) (fun _ => Holds limit xs) :=
  leaves_size xs.length (fun _ h => h.dim) <| Leaves.bind (Q := fun _ => True)
    ((leaves_checking _ fun _ h => h).bind <| (leaves_reserve c _ fun _ h => h).bind <|
      (leaves_onBuf (P := Holds limit xs) (E := fun _ => Holds limit xs) _ fun _ h => h).bind
        (show Leaves _ (loop (0 - xs.length) xs.length _) _ _ by
          rw [Nat.zero_sub]
          exact fun _ _ => trivial)) (leaves_setDim _)

theorem leaves_set (c : Cfg) (throws : Nat → Bool) {limit : Option Nat} (xs : List T) (i : Int) (v : T) :
    Leaves (Holds limit xs) (set c throws i v) (fun _ => True) (fun _ => Holds limit xs) :=
  leaves_size xs.length (fun _ h => h.dim) <| fun s hs =>
    leaves_eval (P := Holds limit xs) (E := fun _ => Holds limit xs) (Q := fun _ => True)
      (r := ({ buf := s.buf, size := xs.length } : Array1 T).checkIndex c i) (fun _ h => h)
      (fun i _ => leaves_element c throws _ (write_ne_abort c i v) (fun _ h => Holds.count h) fun _ h => h) s hs

theorem leaves_call [Inhabited T] (c : Cfg) (throws : Nat → Bool) {limit : Option Nat} (xs : List T) (op : VecOp T) :
    Leaves (Holds limit xs) (call c throws op) (fun _ => True)
      (fun e s => (e = .element → Spec.Faults.harmlessThrow xs op) → (e = .handler → Spec.Faults.harmlessRefusal op) →
        Holds limit xs s) := by
  have weaken : ∀ {p : FProg T Unit} {E E' : Fault → Faulty T → Prop}, Leaves (Holds limit xs) p (fun _ => True) E →
      (∀ e s, e = .element ∨ e = .handler → E e s → E' e s) → Leaves (Holds limit xs) p (fun _ => True) E' := by
    intro p E E' h hE s hs
    have := h s hs
    revert this
    rcases p s with ⟨_, s1⟩ | ⟨_ | _ | u, s1⟩
    · exact fun h => h
    · exact hE _ _ (.inl rfl)
    · exact hE _ _ (.inr rfl)
    · exact fun h => h
  have resize : ∀ n v, Leaves (Holds limit xs) (resizeDefault c throws n v) (fun _ => True)
      (fun e s => (e = .element → False) → (e = .handler → n < 0) → Holds limit xs s) := by
    intro n v
    by_cases hn : n < 0
    · refine leaves_eval (fun _ h _ _ => h) ?_
      intro x hx
      simp [hn] at hx
    · intro s hs
      rcases resizeDefault c throws n v s with ⟨_, s1⟩ | ⟨_ | _ | u, s1⟩
      · trivial
      · exact fun h => (h rfl).elim
      · exact fun _ h => absurd (h rfl) hn
      · trivial
  cases op with
  | emplaceBack v => exact weaken (leaves_emplaceBack c throws xs v) fun _ _ _ h _ _ => h
  | emplace pos v => exact weaken (leaves_emplace c throws xs pos v) fun _ _ _ h h1 _ => h h1
  | insert pos vs => exact weaken (leaves_insert c throws xs pos vs) fun _ _ _ h h1 _ => h h1
  | popBack => exact weaken (leaves_popBack c xs) fun _ _ _ h _ _ => h
  | erase pos => exact weaken (leaves_erase c xs pos) fun _ _ _ h _ _ => h
  | resize n => exact resize n default
  | resizeDefault n v => exact resize n v
  | reserve n => exact weaken (leaves_reserveCall c xs n) fun _ _ _ h _ _ => h
  | clear => exact weaken (leaves_clear c throws xs) fun _ _ _ h _ _ => h
  | set i v => exact weaken (leaves_set c throws xs i v) fun _ _ _ h _ _ => h

/-! ## Calls whose failure does damage -/

/-- Destroying slots of which one holds no object is undefined. -/
theorem destroy_raw (c : Cfg) (ht : c.trivial = false) : ∀ (n p : Nat) (b : Buf T) (k : Nat), p ≤ k → k < p + n → b.cell k = .raw →
    ∃ u, arrayManipulation.destroy c b p n = .error (.ub u)
  | 0, p, b, k, h1, h2, _ => by omega
  | n + 1, p, b, k, h1, h2, hk => by
    unfold arrayManipulation.destroy forUp
    by_cases he : p = k
    · subst he
      by_cases hp : p < b.cap
      · exact ⟨.rawDestroy, by simp [Buf.destroyAt, ht, hp, hk]⟩
      · exact ⟨.outOfBounds, by simp [Buf.destroyAt, ht, hp]⟩
    · rcases hd : b.destroyAt c p with (_ | u) | b'
      · unfold Buf.destroyAt at hd
        rw [if_neg (by simp [ht])] at hd
        repeat' split at hd
        all_goals simp at hd
      · exact ⟨u, by simp only [hd, bind_err]⟩
      · have hb : b'.cell k = .raw := by
          unfold Buf.destroyAt at hd
          rw [if_neg (by simp [ht])] at hd
          repeat' split at hd
          all_goals simp at hd
          all_goals (subst hd; simpa [upd, Ne.symm he] using hk)
        obtain ⟨u, hu⟩ := destroy_raw c ht n (p + 1) b' k (by omega) (by omega) hb
        exact ⟨u, by simp only [hd, bind_ok]; exact hu⟩

theorem free_raw (c : Cfg) (ht : c.trivial = false) {b : Buf T} {n k : Nat} (hn : n ≤ b.cap) (hk : k < n)
    (hr : b.cell k = .raw) : ∃ u, bufferManipulation.free c b n = .error (.ub u) := by
  obtain ⟨u, hu⟩ := destroy_raw c ht n 0 b k (by omega) (by omega) hr
  refine ⟨u, ?_⟩
  unfold bufferManipulation.free
  rw [bufferManipulation.check_ok c b n hn, bind_ok, if_neg (by simp [ht]), hu, bind_err]

/-- The destructor of a state in which an element is missing is undefined. -/
theorem dtor_raw (c : Cfg) (ht : c.trivial = false) {s : Faulty T} (k : Nat) (hk : (k : Int) < s.dim)
    (hn : s.dim ≤ s.buf.cap) (hr : s.buf.cell k = .raw) : ∃ u, dtor c s = .error (.ub u) s := by
  obtain ⟨u, hu⟩ := free_raw c ht (n := s.dim.toNat) (by omega) (by omega) hr
  refine ⟨u, ?_⟩
  show EStateM.bind size _ s = _
  simp only [EStateM.bind, size, if_neg (show ¬ s.dim < 0 by omega), onBuf, hu]

/-- Reading an element that is missing is undefined. -/
theorem get_raw (c : Cfg) {s : Faulty T} (k : Nat) (hk : (k : Int) < s.dim) (hr : s.buf.cell k = .raw ∨ s.buf.cap ≤ k) :
    ∃ u, get c k s = .error (.ub u) s := by
  have hck : ({ buf := s.buf, size := s.dim.toNat } : Array1 T).checkIndex c k = .ok k := by
    unfold Array1.checkIndex
    rw [if_neg (by simp only; omega)]; rfl
  have hrd : ∃ u, s.buf.read k = .error (.ub u) := by
    unfold Buf.read
    split
    · rcases hr with hr | hr
      · exact ⟨_, by rw [hr]⟩
      · omega
    · exact ⟨_, rfl⟩
  obtain ⟨u, hu⟩ := hrd
  refine ⟨u, ?_⟩
  show EStateM.bind size _ s = _
  simp only [EStateM.bind, size, if_neg (show ¬ s.dim < 0 by omega)]
  show eval _ s = _
  simp only [eval, Array1.get, hck, bind_ok, hu]

theorem bind_eq_ok {α β : Type} {p : FProg T α} {q : α → FProg T β} {s s1 : Faulty T} {x : α} (h : p s = .ok x s1) :
    (p >>= q) s = q x s1 := by
  show EStateM.bind p q s = _
  simp only [EStateM.bind, h]

theorem bind_eq_error {α β : Type} {p : FProg T α} {q : α → FProg T β} {s s1 : Faulty T} {e : Fault} (h : p s = .error e s1) :
    (p >>= q) s = .error e s1 := by
  show EStateM.bind p q s = _
  simp only [EStateM.bind, h]

theorem onBuf_eq {f : Buf T → R (Buf T)} {s : Faulty T} {b : Buf T} (h : f s.buf = .ok b) :
    onBuf f s = .ok () { s with buf := b } := by
  simp only [onBuf, h]

theorem checking_eq {f : Buf T → R Unit} {s : Faulty T} (h : f s.buf = .ok ()) : checking f s = .ok () s := by
  simp only [checking, onBuf, h, bind_ok]

theorem size_eq {s : Faulty T} (h : 0 ≤ s.dim) : size s = .ok s.dim.toNat s := by
  simp only [size, if_neg (show ¬ s.dim < 0 by omega)]

theorem element_throw (c : Cfg) (ht : c.trivial = false) {throws : Nat → Bool} (f : Buf T → R (Buf T)) {s : Faulty T}
    (h : throws s.count = true) : element c throws f s = .error .element { s with count := s.count + 1 } := by
  simp only [element, ht, h, Bool.not_false, Bool.and_self, if_true]

theorem element_quiet (c : Cfg) {throws : Nat → Bool} (f : Buf T → R (Buf T)) {s : Faulty T} {b : Buf T}
    (h : throws s.count = false) (hf : f s.buf = .ok b) :
    element c throws f s = .ok () { s with buf := b, count := s.count + 1 } := by
  simp only [element, h, Bool.and_false, onBuf, hf]
  rfl

/-- A loop in which the `k`-th element throws. -/
theorem loop_throw (c : Cfg) (ht : c.trivial = false) (throws : Nat → Bool) (f : Nat → Buf T → R (Buf T)) :
    ∀ (k n lo : Nat) (s : Faulty T) (b : Buf T), k < n → (∀ j, j < k → throws (s.count + j) = false) →
      throws (s.count + k) = true → forUp k lo f s.buf = .ok b →
      loop n lo (fun i => element c throws (f i)) s = .error .element { s with buf := b, count := s.count + k + 1 }
  | 0, n + 1, lo, s, b, _, _, hk, hf => by
    cases hf
    exact bind_eq_error (element_throw c ht _ hk)
  | k + 1, n + 1, lo, s, b, hn, hq, hk, hf => by
    unfold forUp at hf
    rcases hl : f lo s.buf with e | b'
    · rw [hl] at hf; cases hf
    · rw [hl, bind_ok] at hf
      have h1 := element_quiet c (throws := throws) (f lo) (hq 0 (by omega)) hl
      refine (bind_eq_ok h1).trans ((loop_throw c ht throws f k n (lo + 1) _ b (by omega) ?_ ?_ hf).trans ?_)
      · intro j hj
        have := hq (j + 1) (by omega)
        rw [← this]; congr 1; simp only; omega
      · rw [← hk]; congr 1; simp only; omega
      · simp only [EStateM.Result.error.injEq, Faulty.mk.injEq, true_and]; omega

/-- An insertion in front of an element whose new element throws. -/
theorem emplace_throw (c : Cfg) (ht : c.trivial = false) {throws : Nat → Bool} {limit : Option Nat} {xs : List T}
    {s : Faulty T} (h : Holds limit xs s) (hthrow : throws s.count = true) (pos : Nat) (hp : pos < xs.length)
    (hf : Spec.fits limit (xs.length + 1)) (v : T) :
    ∃ s', emplace c throws pos v s = .error .element s' ∧ s'.dim = xs.length ∧ s'.buf.cell pos = .raw ∧
      (xs.length : Int) ≤ s'.buf.cap := by
  have hr := (h.2.room _).2 hf
  have hd := h.dim
  have hn := h.1
  have hrep := h.2.rep
  simp only [arr] at hrep hr
  have hle := s.buf.le_grownCap (xs.length + 1)
  have hpos : posArg c (pos : Int) = .ok pos := posArg_ok c (by omega)
  have hsz : size s = .ok xs.length s := by rw [size_eq hn, hd]; simp
  unfold emplace
  rw [bind_eq_ok hsz, bind_eq_ok (x := pos) (s1 := s) (by simp only [eval, hpos]),
    bind_eq_ok (checking_eq (bufferManipulation.checkInsert_ok c _ _ _ hrep.2 (by omega))),
    bind_eq_ok (onBuf_eq (bufferManipulation.dynamicReserve_rep c hrep _ hr)),
    bind_eq_ok (checking_eq (by
      simp only [arrayManipulation.assertNonNull, errorIf]
      rw [if_neg]; simp only [Bool.and_eq_true, beq_iff_eq]; omega)),
    bind_eq_ok (checking_eq (arrayManipulation.checkInsertBounds_ok c _ _ (by omega))),
    bind_eq_ok (onBuf_eq (arrayManipulation.shiftUp_eq c _ 0 xs.length pos 1 (by omega) (by simp only; omega) (by
      intro k _ hk
      simp only [hrep.1]
      rw [cellsOf_lt (show k < xs.length by omega)]; rfl) (by
      intro k hk _
      simp only [hrep.1]
      exact cellsOf_ge (by omega)))),
    bind_eq_error (element_throw c ht _ (by exact hthrow))]
  refine ⟨_, rfl, hd, ?_, ?_⟩
  · simp
  · simp only; omega

/-- A growing `resize` whose `k`-th new element throws. -/
theorem resizeDefault_throw (c : Cfg) (ht : c.trivial = false) {throws : Nat → Bool} {limit : Option Nat} {xs : List T}
    {s : Faulty T} (h : Holds limit xs s) (n k : Nat) (hk : xs.length + k < n)
    (hq : ∀ j, j < k → throws (s.count + j) = false) (hthrow : throws (s.count + k) = true)
    (hf : Spec.fits limit n) (v : T) :
    ∃ s', resizeDefault c throws n v s = .error .element s' ∧ s'.dim = n ∧ s'.buf.cell (xs.length + k) = .raw ∧
      (n : Int) ≤ s'.buf.cap := by
  have hr := (h.2.room _).2 hf
  have hd := h.dim
  have hn := h.1
  have hrep := h.2.rep
  simp only [arr] at hrep hr
  have hsz : size s = .ok xs.length s := by rw [size_eq hn, hd]; simp
  unfold resizeDefault resizeBuffer
  rw [bind_eq_ok (x := ()) (s1 := s) (by rw [show decide ((n : Int) < 0) = false by simp, errorIf_false]; rfl),
    bind_eq_ok hsz, bind_eq_ok (show setDim (n : Int) s = .ok () { s with dim := n } from rfl)]
  simp only [Int.toNat_natCast]
  rw [bind_eq_ok (checking_eq (bufferManipulation.check_ok c _ _ hrep.2)),
    bind_eq_ok (onBuf_eq (bufferManipulation.reserve_rep c hrep _ hr)),
    bind_eq_ok (onBuf_eq (f := (arrayManipulation.destroy c · n (xs.length - n))) (arrayManipulation.destroy_eq c _ n (xs.length - n) (.inr (by intro j _ _; omega)))),
    loop_throw c ht throws _ k _ _ _ _ (by omega) (by exact hq) (by exact hthrow)
      (arrayManipulation.constructRange_eq c _ xs.length k (fun _ => v) (.inr (by simp only; omega)) (by
        intro j hj _
        simp only [hrep.1]
        rw [if_neg (by omega)]
        exact cellsOf_ge hj))]
  refine ⟨_, rfl, rfl, ?_, ?_⟩
  · simp only [hrep.1]
    rw [if_neg (by omega), if_neg (by omega)]
    exact cellsOf_ge (by omega)
  · simp only; omega

/-- A `resize` beyond the capacity of a stack buffer. -/
theorem resizeDefault_refused (c : Cfg) (throws : Nat → Bool) {l : Nat} {xs : List T} {s : Faulty T}
    (h : Holds (some l) xs s) (n : Nat) (hl : l < n) (v : T) :
    ∃ s', resizeDefault c throws n v s = .error .handler s' ∧ s'.dim = n ∧ s'.buf.cap = l := by
  have hr : ¬ s.buf.room n := fun hr => by
    have := (h.2.room n).1 hr
    have : n ≤ l := by simpa [Spec.fits] using this
    omega
  have hd := h.dim
  have hn := h.1
  have hrep := h.2.rep
  simp only [arr] at hrep
  have hsz : size s = .ok xs.length s := by rw [size_eq hn, hd]; simp
  unfold resizeDefault resizeBuffer
  rw [bind_eq_ok (x := ()) (s1 := s) (by rw [show decide ((n : Int) < 0) = false by simp, errorIf_false]; rfl),
    bind_eq_ok hsz, bind_eq_ok (show setDim (n : Int) s = .ok () { s with dim := n } from rfl)]
  simp only [Int.toNat_natCast]
  rw [bind_eq_ok (checking_eq (bufferManipulation.check_ok c _ _ hrep.2)),
    bind_eq_error (s1 := { s with dim := n }) (e := .handler) (by
      simp only [onBuf, bufferManipulation.reserve_abort c hrep.2 n hr])]
  exact ⟨_, rfl, rfl, (h.2.stack l rfl).2⟩

/-- An insertion of several elements at the end of which the `k`-th throws. -/
theorem insert_throw [Inhabited T] (c : Cfg) (ht : c.trivial = false) {throws : Nat → Bool} {limit : Option Nat} {xs : List T}
    {s : Faulty T} (h : Holds limit xs s) (vs : List T) (k : Nat) (hk : k < vs.length)
    (hq : ∀ j, j < k → throws (s.count + j) = false) (hthrow : throws (s.count + k) = true)
    (hf : Spec.fits limit (xs.length + vs.length)) :
    ∃ s', insert c throws xs.length vs s = .error .element s' ∧ s'.dim = xs.length ∧
      s'.buf.cell = cellsOf (xs ++ vs.take k) ∧ xs.length + vs.length ≤ s'.buf.cap ∧ s'.buf.kind = s.buf.kind ∧
      s'.buf.lostLive = s.buf.lostLive := by
  have hr := (h.2.room _).2 hf
  have hd := h.dim
  have hn := h.1
  have hrep := h.2.rep
  simp only [arr] at hrep hr
  have hle := s.buf.le_grownCap (xs.length + vs.length)
  have hpos : posArg c (xs.length : Int) = .ok xs.length := posArg_ok c (by omega)
  have hsz : size s = .ok xs.length s := by rw [size_eq hn, hd]; simp
  unfold insert
  rw [bind_eq_ok hsz, bind_eq_ok (x := xs.length) (s1 := s) (by simp only [eval, hpos]),
    bind_eq_ok (checking_eq (bufferManipulation.checkInsert_ok c _ _ _ hrep.2 (by omega))),
    bind_eq_ok (onBuf_eq (bufferManipulation.dynamicReserve_rep c hrep _ hr)),
    bind_eq_ok (checking_eq (by
      simp only [arrayManipulation.assertNonNull, errorIf]
      rw [if_neg]; simp only [Bool.and_eq_true, beq_iff_eq]; omega)),
    bind_eq_ok (checking_eq (arrayManipulation.checkInsertBounds_ok c _ _ (by omega))),
    bind_eq_ok (onBuf_eq (shiftUp_end c _ xs.length vs.length)),
    bind_eq_error (loop_throw c ht throws (fun i b => b.construct c i (vs.getD (i - xs.length) default)) k _ _ _ _ hk (by exact hq) (by exact hthrow)
      (arrayManipulation.constructRange_eq c _ xs.length k (fun j => vs.getD j default) (.inr (by simp only; omega)) (by
        intro j hj _
        simp only [hrep.1]
        exact cellsOf_ge hj)))]
  refine ⟨_, rfl, hd, ?_, by simp only; omega, rfl, rfl⟩
  simp only [hrep.1]
  funext j
  simp only [cellsOf]
  by_cases h1 : j < xs.length
  · rw [if_neg (by omega), List.getElem?_append_left h1]
  · rw [List.getElem?_append_right (by omega), List.getElem?_take]
    by_cases h2 : j < xs.length + k
    · rw [if_pos (by omega), if_pos (by omega)]
      simp [List.getD, List.getElem?_eq_getElem (show j - xs.length < vs.length by omega)]
    · rw [if_neg (by omega), if_neg (by omega), List.getElem?_eq_none (by omega)]

/-- A copy assignment from a shorter array of which the first element throws. -/
theorem copyAssign_throw [Inhabited T] (c : Cfg) (ht : c.trivial = false) {throws : Nat → Bool} {limit : Option Nat} {xs : List T}
    {s : Faulty T} (h : Holds limit xs s) (rhs : Array1 T) (hrhs : rhs.size ≤ rhs.buf.cap) (h0 : 0 < rhs.size)
    (hlt : rhs.size < xs.length) (hthrow : throws s.count = true) :
    ∃ s', copyAssign c throws rhs s = .error .element s' ∧ s'.dim = xs.length ∧ s'.buf.cell rhs.size = .raw ∧
      (xs.length : Int) ≤ s'.buf.cap := by
  have hd := h.dim
  have hn := h.1
  have hrep := h.2.rep
  simp only [arr] at hrep
  have hle := hrep.2
  have hsz : size s = .ok xs.length s := by rw [size_eq hn, hd]; simp
  have hres : resizeBuffer c throws xs.length rhs.size default s = .ok ()
      { s with buf := { s.buf with
        cell := fun k => if rhs.size ≤ k ∧ k < rhs.size + (xs.length - rhs.size) then .raw else s.buf.cell k } } := by
    unfold resizeBuffer
    rw [bind_eq_ok (checking_eq (bufferManipulation.check_ok c _ _ hrep.2)),
      bind_eq_ok (onBuf_eq (b := s.buf) (by
        unfold bufferManipulation.reserve
        rw [bufferManipulation.check_ok c _ _ hrep.2, bind_ok, if_neg (by omega)])),
      bind_eq_ok (onBuf_eq (f := (arrayManipulation.destroy c · rhs.size (xs.length - rhs.size)))
        (arrayManipulation.destroy_eq c _ rhs.size (xs.length - rhs.size) (.inr (by
          intro j _ hj
          refine ⟨by simp only; omega, ?_⟩
          simp only [hrep.1]
          rw [cellsOf_lt (show j < xs.length by omega)]; rfl)))),
      show rhs.size - xs.length = 0 by omega]
    rfl
  unfold copyAssign
  rw [bind_eq_ok hsz, bind_eq_ok (checking_eq (bufferManipulation.check_ok c _ _ hrep.2)),
    bind_eq_ok (checking_eq (bufferManipulation.check_ok c _ _ hrhs)), bind_eq_ok hres,
    bind_eq_error (loop_throw c ht throws (fun i b => rhs.buf.read i >>= fun x => b.write c i x) 0 _ _ _ _ h0 (by simp)
      (by exact hthrow) rfl)]
  refine ⟨_, rfl, hd, ?_, ?_⟩
  · simp only
    rw [if_pos (by omega)]
  · simp only; omega

/-- Counting the objects of a buffer that holds `k` of them, from slot `lo` on. -/
theorem countL_between (c : Cfg) (ht : c.trivial = false) (b : Buf T) (lo k : Nat)
    (h : ∀ j, (lo ≤ j ∧ j < lo + k → ∃ v, b.cell j = .live v) ∧ (¬ (lo ≤ j ∧ j < lo + k) → b.cell j = .raw)) :
    ∀ n, b.countL c n = min (n - lo) k
  | 0 => by simp [Buf.countL]
  | n + 1 => by
    rw [Buf.countL, countL_between c ht b lo k h n]
    by_cases hn : lo ≤ n ∧ n < lo + k
    · obtain ⟨v, hv⟩ := (h n).1 hn
      rw [hv]
      simp only [Cell.lostL, ht]
      show _ + 1 = _
      omega
    · rw [(h n).2 hn]
      simp only [Cell.lostL]
      omega

/-- A program that never ends with an exception from an element. -/
def NoThrow {α : Type} (p : FProg T α) : Prop := ∀ s s', p s ≠ .error .element s'

theorem NoThrow.bind {α β : Type} {p : FProg T α} {q : α → FProg T β} (hp : NoThrow p) (hq : ∀ x, NoThrow (q x)) :
    NoThrow (p >>= q) := by
  intro s s'
  rcases h : p s with ⟨x, s1⟩ | ⟨e, s1⟩
  · rw [bind_eq_ok h]; exact hq x s1 s'
  · rw [bind_eq_error h]
    intro he
    cases he
    exact hp s s' h

theorem NoThrow.of_quiet (p : FProg T Unit) [h : Quiet p] : NoThrow p := h.quiet

theorem noThrow_size : NoThrow (T := T) size := by
  intro s s'
  unfold size
  split <;> simp

theorem noThrow_eval {α : Type} (r : R α) : NoThrow (T := T) (eval r) := by
  intro s s'
  rcases r with (_ | u) | x <;> simp [eval]

theorem noThrow_element (c : Cfg) (throws : Nat → Bool) (hq : c.trivial = true ∨ ∀ k, throws k = false)
    (f : Buf T → R (Buf T)) : NoThrow (element c throws f) := by
  intro s s'
  unfold element
  rw [if_neg (by rcases hq with h | h <;> simp [h])]
  exact Quiet.quiet (p := onBuf f) _ _

theorem noThrow_loop {F : Nat → FProg T Unit} (h : ∀ i, NoThrow (F i)) : ∀ n lo, NoThrow (loop n lo F)
  | 0, _ => nofun
  | n + 1, lo => (h lo).bind fun _ => noThrow_loop h n (lo + 1)

theorem quiet_call [Inhabited T] (c : Cfg) (throws : Nat → Bool) (hq : c.trivial = true ∨ ∀ k, throws k = false)
    (op : VecOp T) : NoThrow (call c throws op) := by
  have hb (f : Buf T → R (Buf T)) : NoThrow (onBuf f) := .of_quiet _
  have hc (f : Buf T → R Unit) : NoThrow (checking f) := .of_quiet _
  have hd (n : Int) : NoThrow (T := T) (setDim n) := .of_quiet _
  have he := noThrow_element (T := T) c throws hq
  have hrb : ∀ old new v, NoThrow (T := T) (resizeBuffer c throws old new v) := fun old new v =>
    (hc _).bind fun _ => (hb _).bind fun _ => (hb _).bind fun _ => noThrow_loop (fun _ => he _) _ _
  have hrs : ∀ n v, NoThrow (T := T) (resizeDefault c throws n v) := fun n v =>
    (noThrow_eval _).bind fun _ => noThrow_size.bind fun _ => (hd _).bind fun _ => hrb _ _ _
  cases op with
  | emplaceBack v =>
    exact noThrow_size.bind fun _ => (hc _).bind fun _ => (hb _).bind fun _ => (hc _).bind fun _ => (he _).bind fun _ => hd _
  | emplace pos v =>
    exact noThrow_size.bind fun _ => (noThrow_eval _).bind fun _ => (hc _).bind fun _ => (hb _).bind fun _ =>
      (hc _).bind fun _ => (hc _).bind fun _ => (hb _).bind fun _ => (he _).bind fun _ => hd _
  | insert pos vs =>
    exact noThrow_size.bind fun _ => (noThrow_eval _).bind fun _ => (hc _).bind fun _ => (hb _).bind fun _ =>
      (hc _).bind fun _ => (hc _).bind fun _ => (hb _).bind fun _ => (noThrow_loop (fun _ => he _) _ _).bind fun _ => hd _
  | popBack => exact noThrow_size.bind fun _ => (hb _).bind fun _ => hd _
  | erase pos => exact noThrow_size.bind fun _ => (noThrow_eval _).bind fun _ => (hb _).bind fun _ => hd _
  | resize n => exact hrs n default
  | resizeDefault n v => exact hrs n v
  | reserve n => exact noThrow_size.bind fun _ => hb _
  | clear => exact noThrow_size.bind fun _ => (hrb _ _ _).bind fun _ => hd _
  | set i v =>
    refine noThrow_size.bind fun _ => NoThrow.bind (p := EStateM.get) nofun fun _ => (noThrow_eval _).bind fun _ => he _

end LvArray.Faulty
