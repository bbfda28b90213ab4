import Verif.Parallel

/-!
# Programs that run alone

Laws of `Prog.run`, and the functions of `arrayManipulation` as programs: running the program of one of them on a buffer of the
store is the function of the sequential model.
-/

namespace LvArray.Parallel

variable {T V X I J α β : Type} {c : Cfgs}

theorem bindR_assoc {α β γ : Type} (x : R α) (f : α → R β) (g : β → R γ) :
    ((x >>= f) >>= g) = (x >>= fun a => f a >>= g) := by
  cases x <;> rfl

namespace Prog

@[simp] theorem bind_def (p : Prog I T V α) (f : α → Prog I T V β) : (p >>= f) = p.bind f := rfl
@[simp] theorem pure_def (x : α) : (pure x : Prog I T V α) = .ret x := rfl

theorem run_bind (row : I → Nat) (p : Prog I T V α) (f : α → Prog I T V β) (s : RowStore T V) :
    (p.bind f).run c row s = (p.run c row s >>= fun r => (f r.1).run c row r.2) := by
  induction p generalizing s with
  | ret x => rfl
  | fail e => rfl
  | act i a next ih => simp only [bind, run, bindR_assoc, ih]
  | num i q next ih => simp only [bind, run, bindR_assoc, ih]
  | val i k next ih => simp only [bind, run, bindR_assoc, ih]
  | ent i k next ih => simp only [bind, run, bindR_assoc, ih]

theorem run_relabel (row : J → Nat) (f : I → J) (p : Prog I T V α) (s : RowStore T V) :
    (p.relabel f).run c row s = p.run c (fun i => row (f i)) s := by
  induction p generalizing s with
  | ret x => rfl
  | fail e => rfl
  | act i a next ih => simp only [relabel, run, ih]
  | num i q next ih => simp only [relabel, run, ih]
  | val i k next ih => simp only [relabel, run, ih]
  | ent i k next ih => simp only [relabel, run, ih]

end Prog

open Prog

/-- One of the two buffers of a store. -/
structure Lens (X T V : Type) where
  on : BufAct X → Code T V Unit
  get : RowStore T V → Buf X
  put : RowStore T V → Buf X → RowStore T V
  cfg : Cfgs → Cfg
  get_put : ∀ s b, get (put s b) = b
  put_put : ∀ s b b', put (put s b) b' = put s b'
  put_get : ∀ s, put s (get s) = s
  shape_put : ∀ s b, (put s b).shape = s.shape
  run_on : ∀ (c : Cfgs) (i p : Nat) (b : BufAct X) (s : RowStore T V), s.shape.offsets.read i = .ok p →
    (on b).run c (fun _ => i) s = (b.exec (cfg c) p (get s) >>= fun x => .ok ((), put s x))

/-- The values. -/
def valuesLens : Lens T T V where
  on := onValue
  get := fun s => s.values
  put := fun s b => { s with values := b }
  cfg := fun c => c.values
  get_put := fun _ _ => rfl
  put_put := fun _ _ _ => rfl
  put_get := fun _ => rfl
  shape_put := fun _ _ => rfl
  run_on := by
    intro c i p b s h
    simp only [onValue, run, Act.exec, h, bind_ok, bindR_assoc]

/-- The entries. -/
def entriesLens : Lens V T V where
  on := onEntry
  get := fun s => s.entries
  put := fun s b => { s with entries := b }
  cfg := fun c => c.entries
  get_put := fun _ _ => rfl
  put_put := fun _ _ _ => rfl
  put_get := fun _ => rfl
  shape_put := fun _ _ => rfl
  run_on := by
    intro c i p b s h
    simp only [onEntry, run, Act.exec, h, bind_ok, bindR_assoc]

/-- Run alone, `P` does `F` to the buffer; the second argument of `F` is the position of the pointer. -/
def OnBuf (l : Lens X T V) (c : Cfgs) (i : Nat) (P : Code T V Unit) (F : Buf X → Nat → R (Buf X)) : Prop :=
  ∀ s p, s.shape.offsets.read i = .ok p →
    P.run c (fun _ => i) s = (F (l.get s) p >>= fun b => .ok ((), l.put s b))

namespace OnBuf

variable {l : Lens X T V} {i : Nat} {P Q : Code T V Unit} {F G : Buf X → Nat → R (Buf X)}

theorem act (b : BufAct X) : OnBuf l c i (l.on b) (fun x p => b.exec (l.cfg c) p x) :=
  fun s p h => l.run_on c i p b s h

theorem skip : OnBuf l c i (.ret ()) (fun x _ => .ok x) := fun s p _ => by
  simp only [run, bind_ok, l.put_get]

theorem stop (b : Bool) : OnBuf l c i (stopIf b) (fun x _ => errorIf b >>= fun _ => .ok x) := fun s p _ => by
  cases b <;> simp [stopIf, errorIf, run, l.put_get]

theorem seq (h : OnBuf l c i P F) (h' : OnBuf l c i Q G) :
    OnBuf l c i (P.bind fun _ => Q) (fun x p => F x p >>= fun x => G x p) := fun s p hp => by
  rw [run_bind, h s p hp]
  simp only [bindR_assoc, bind_ok]
  refine congrArg _ (funext fun b => ?_)
  rw [h' _ p (by rw [l.shape_put]; exact hp), l.get_put]
  simp only [l.put_put]

theorem cond (h : OnBuf l c i P F) (h' : OnBuf l c i Q G) (q : Prop) [Decidable q] :
    OnBuf l c i (if q then P else Q) (fun x p => if q then F x p else G x p) := by
  by_cases hq : q
  · simpa only [if_pos hq] using h
  · simpa only [if_neg hq] using h'

theorem congr (h : OnBuf l c i P F) (e : ∀ x p, F x p = G x p) : OnBuf l c i P G := fun s p hp => by
  rw [h s p hp, e]

theorem up {f : Nat → Code T V Unit} {g : Nat → Nat → Buf X → R (Buf X)} :
    ∀ (n lo : Nat), (∀ k, OnBuf l c i (f k) (fun x p => g p (p + k) x)) →
      OnBuf l c i (Parallel.up n lo f) (fun x p => forUp n (p + lo) (g p) x)
  | 0, _, _ => skip
  | n + 1, lo, h => (seq (h lo) (up n (lo + 1) h)).congr fun x p => rfl

theorem down {f : Nat → Code T V Unit} {g : Nat → Nat → Buf X → R (Buf X)} :
    ∀ (n lo : Nat), (∀ k, OnBuf l c i (f k) (fun x p => g p (p + k) x)) →
      OnBuf l c i (Parallel.down n lo f) (fun x p => forDown n (p + lo) (g p) x)
  | 0, _, _ => skip
  | n + 1, lo, h => (seq (h (lo + n)) (down n lo h)).congr fun x p => by
    rw [← Nat.add_assoc]; rfl

theorem destroy (k n : Nat) : OnBuf l c i (Parallel.destroy l.on k n)
    (fun x p => arrayManipulation.destroy (l.cfg c) x (p + k) n) :=
  up (g := fun _ j x => x.destroyAt (l.cfg c) j) n k fun k => act (.destroy k)

theorem constructRange (k n : Nat) (v : Nat → X) : OnBuf l c i (Parallel.constructRange l.on k n v)
    (fun x p => arrayManipulation.constructRange (l.cfg c) x (p + k) n v) :=
  up (g := fun p j x => x.construct (l.cfg c) j (v (j - (p + k)))) n k fun j =>
    (act (.construct j (v (j - k)))).congr fun x p => by
      show x.construct _ (p + j) _ = x.construct _ (p + j) _
      rw [Nat.add_sub_add_left]

theorem shiftUp (size index n : Nat) : OnBuf l c i (Parallel.shiftUp l.on (l.cfg c) size index n)
    (fun x p => arrayManipulation.shiftUp (l.cfg c) x p size index n) := by
  refine congr (seq (stop _) (cond (P := .ret ()) skip (seq (down (g := fun _ j x => x.moveConstruct (l.cfg c) (j + n) j)
    (size - index) index fun k => act (.moveUp k n)) (destroy index _)) (n = 0))) fun x p => ?_
  simp only [arrayManipulation.shiftUp, arrayManipulation.checkInsertBounds, bindR_assoc, bind_ok]

theorem shiftDown (size index n : Nat) : OnBuf l c i (Parallel.shiftDown l.on (l.cfg c) size index n)
    (fun x p => arrayManipulation.shiftDown (l.cfg c) x p size index n) := by
  refine congr (seq (stop _) (seq (stop _) (cond (P := .ret ()) skip (up (g := fun _ j x =>
    if j < n then .error (.ub .outOfBounds) else x.moveAssign (l.cfg c) (j - n) j)
    (size - index) index fun k => act (.moveDown k n)) (n = 0)))) fun x p => ?_
  simp only [arrayManipulation.shiftDown, arrayManipulation.checkInsertBounds, bindR_assoc, bind_ok]

theorem erase (size index n : Nat) (hn : n ≤ size) : OnBuf l c i (Parallel.erase l.on (l.cfg c) size index n)
    (fun x p => arrayManipulation.erase (l.cfg c) x p size index n) := by
  refine congr (cond (P := .ret ()) skip (seq (stop _) (seq (stop _) (seq (shiftDown size (index + n) n)
    (destroy (size - n) n)))) (n = 0)) fun x p => ?_
  simp only [arrayManipulation.erase, arrayManipulation.checkBounds, bindR_assoc, bind_ok, Nat.add_sub_assoc hn]

theorem emplace (size index : Nat) (v : X) : OnBuf l c i (Parallel.emplace l.on (l.cfg c) size index v)
    (fun x p => arrayManipulation.emplace (l.cfg c) x p size index v) := by
  refine congr (seq (act .notNull) (seq (stop _) (seq (shiftUp size index 1) (act (.construct index v))))) fun x p => ?_
  simp only [arrayManipulation.emplace, arrayManipulation.checkInsertBounds, BufAct.exec, bindR_assoc, bind_ok]

theorem insert [Inhabited X] (size index : Nat) (vs : List X) : OnBuf l c i (Parallel.insert l.on (l.cfg c) size index vs)
    (fun x p => arrayManipulation.insert (l.cfg c) x p size index vs) := by
  refine congr (seq (act .notNull) (seq (stop _) (seq (shiftUp size index vs.length)
    (constructRange index vs.length _)))) fun x p => ?_
  simp only [arrayManipulation.insert, arrayManipulation.checkInsertBounds, BufAct.exec, bindR_assoc, bind_ok]

end OnBuf

end LvArray.Parallel
