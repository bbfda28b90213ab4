import Verif.ParallelRows

/-!
# `sortedArrayManipulation`, run alone

The programs for the functions of `sortedArrayManipulation` do what the functions of the sequential model do, for every target
whose call backs are given by programs.
-/

namespace LvArray.Parallel

open Prog

variable {T V α β σ : Type} {cs : Cfgs} {i p : Nat}

/-- Run alone, `P` only reads, and what it returns is computed by `G` from what it reads. -/
def Reads (cs : Cfgs) (i p : Nat) (P : Code T V β) (G : (Nat → R T) → R β) : Prop :=
  ∀ s : RowStore T V, s.shape.offsets.read i = .ok p →
    P.run cs (fun _ => i) s = (G (fun k => s.values.read (p + k)) >>= fun y => .ok (y, s))

namespace Reads

theorem ret (x : β) : Reads cs i p (.ret x : Code T V β) (fun _ => .ok x) := fun _ _ => rfl

theorem value (k : Nat) : Reads cs i p (Parallel.value k : Code T V T) (fun read => read k) := fun s h => by
  simp only [Parallel.value, run, readValue, h, bind_ok]

theorem stop (b : Bool) : Reads cs i p (stopIf b : Code T V Unit) (fun _ => errorIf b) := fun s _ => by
  cases b <;> rfl

theorem seq {P : Code T V α} {Q : α → Code T V β} {G : (Nat → R T) → R α} {H : α → (Nat → R T) → R β}
    (h : Reads cs i p P G) (h' : ∀ x, Reads cs i p (Q x) (H x)) :
    Reads cs i p (P.bind Q) (fun read => G read >>= fun x => H x read) := fun s hs => by
  rw [run_bind, h s hs]
  simp only [bindR_assoc, bind_ok]
  exact bindR_congr _ fun x _ => h' x s hs

theorem cond {P Q : Code T V β} {G H : (Nat → R T) → R β} (h : Reads cs i p P G) (h' : Reads cs i p Q H) (q : Prop)
    [Decidable q] : Reads cs i p (if q then P else Q) (fun read => if q then G read else H read) := by
  by_cases hq : q
  · simpa only [if_pos hq] using h
  · simpa only [if_neg hq] using h'

theorem congr {P : Code T V β} {G H : (Nat → R T) → R β} (h : Reads cs i p P G) (e : ∀ read, G read = H read) :
    Reads cs i p P H := fun s hs => by rw [h s hs, e]

theorem readAll : ∀ (n lo : Nat), Reads cs i p (Parallel.readAll n lo : Code T V (List T))
    (fun read => sortedArrayManipulation.readAll (fun k => read (lo + k)) n)
  | 0, _ => fun _ _ => rfl
  | n + 1, lo => by
    refine (seq (value lo) fun x => seq (readAll n (lo + 1)) fun xs => ret (x :: xs)).congr fun read => ?_
    simp only [sortedArrayManipulation.readAll, List.range_succ_eq_map, List.mapM_cons, List.mapM_map, Nat.add_zero]
    have e : (fun k => read (lo + 1 + k)) = ((fun k => read (lo + k)) ∘ Nat.succ) := by
      funext k
      show read (lo + 1 + k) = read (lo + (k + 1))
      rw [Nat.add_assoc, Nat.add_comm 1 k]
    rw [e]
    rfl

theorem assertRange (c : Cfg) (lo n : Nat) (test : List T → Bool) :
    Reads cs i p (Parallel.assertRange c lo n test : Code T V Unit)
      (fun read => sortedArrayManipulation.assertRange c (fun k => read (lo + k)) n test) := by
  unfold Parallel.assertRange sortedArrayManipulation.assertRange
  exact cond (seq (readAll n lo) fun xs => stop _) (ret ()) _

theorem findLoop (comp : T → T → Bool) (lo : Nat) (v : T) : ∀ (fuel lower upper : Nat),
    Reads cs i p (Parallel.findLoop comp lo v fuel lower upper : Code T V Nat)
      (fun read => sortedArrayManipulation.findLoop comp (fun k => read (lo + k)) v fuel lower upper)
  | 0, lower, _ => ret lower
  | fuel + 1, lower, upper => by
    unfold Parallel.findLoop sortedArrayManipulation.findLoop
    exact cond (ret lower) (seq (value _) fun x => cond (findLoop comp lo v fuel _ _) (findLoop comp lo v fuel _ _) _) _

theorem find (c : Cfg) (comp : T → T → Bool) (lo size : Nat) (v : T) :
    Reads cs i p (Parallel.find c comp lo size v : Code T V Nat)
      (fun read => sortedArrayManipulation.find c comp (fun k => read (lo + k)) size v) :=
  seq (assertRange c lo size _) fun _ => findLoop comp lo v size 0 size

theorem find0 (c : Cfg) (comp : T → T → Bool) (size : Nat) (v : T) :
    Reads cs i p (Parallel.find c comp 0 size v : Code T V Nat)
      (fun read => sortedArrayManipulation.find c comp read size v) :=
  (find c comp 0 size v).congr fun read => by simp only [Nat.zero_add]

theorem assertRange0 (c : Cfg) (n : Nat) (test : List T → Bool) :
    Reads cs i p (Parallel.assertRange c 0 n test : Code T V Unit)
      (fun read => sortedArrayManipulation.assertRange c read n test) :=
  (assertRange c 0 n test).congr fun read => by simp only [Nat.zero_add]

variable [LT T] [DecidableLT T] [DecidableEq T]

omit [LT T] [DecidableLT T] in
theorem isAt (size pos : Nat) (v : T) : Reads cs i p (Parallel.isAt size pos v : Code T V Bool)
    (fun read => sortedArrayManipulation.isAt read size pos v) := by
  unfold Parallel.isAt sortedArrayManipulation.isAt
  exact cond (ret false) (seq (value pos) fun x => ret _) _

theorem seek (c : Cfg) (size : Nat) : ∀ (vs : List T) (pos : Nat),
    Reads cs i p (Parallel.seek c size pos vs : Code T V (Nat × List T))
      (fun read => sortedArrayManipulation.seek c read size pos vs)
  | [], pos => ret (pos, [])
  | v :: vs, pos => by
    unfold Parallel.seek sortedArrayManipulation.seek
    exact seq (find c _ pos (size - pos) v) fun j => cond (ret _) (seq (value _) fun x => cond (ret _) (seek c size vs _) _) _

theorem insertPosition (c : Cfg) (size : Nat) (v : T) : Reads cs i p (Parallel.insertPosition c size v : Code T V Nat)
    (fun read => sortedArrayManipulation.insertPosition c read size v) := by
  unfold Parallel.insertPosition sortedArrayManipulation.insertPosition
  exact cond (ret 0) (seq (value 0) fun x0 => cond (ret 0) (seq (value _) fun x1 => cond (ret size) (find0 c _ size v) _) _) _

theorem countLoop (c : Cfg) (size : Nat) : ∀ (vs : List T) (upper n : Nat),
    Reads cs i p (Parallel.countLoop c size vs upper n : Code T V Nat)
      (fun read => sortedArrayManipulation.countLoop c read size vs upper n)
  | [], _, n => ret n
  | v :: vs, upper, n => by
    unfold Parallel.countLoop sortedArrayManipulation.countLoop
    exact seq (find0 c _ upper v) fun u => seq (isAt size u v) fun present => countLoop c size vs u _

end Reads

/-- Run alone on `emb s`, `P` does `F`; `F` keeps the pointer to inner array `i` where it is. -/
def Does (cs : Cfgs) (i p : Nat) (emb : σ → RowStore T V) (P : Code T V β) (F : σ → R (σ × β)) : Prop :=
  ∀ s, (emb s).shape.offsets.read i = .ok p →
    P.run cs (fun _ => i) (emb s) = (F s >>= fun r => .ok (r.2, emb r.1)) ∧
    ∀ r, F s = .ok r → (emb r.1).shape.offsets.read i = .ok p

/-- `Does` for a function that returns nothing. -/
abbrev DoesU (cs : Cfgs) (i p : Nat) (emb : σ → RowStore T V) (P : Code T V Unit) (F : σ → R σ) : Prop :=
  Does cs i p emb P (fun s => F s >>= fun s => .ok (s, ()))

/-- The programs `k` are the call backs of the target, when the inner array has the size `sz`. -/
structure Fits (cs : Cfgs) (i p : Nat) (emb : σ → RowStore T V) (t : sortedArrayManipulation.Target σ T)
    (k : Callbacks T V) (sz : Nat) : Prop where
  buf : ∀ s, t.buf s = (emb s).values
  ptr : ∀ s, (emb s).shape.offsets.read i = .ok p → t.ptr s = p
  put : ∀ s b, emb (t.put s b) = { emb s with values := b }
  incrementSize : ∀ n, DoesU cs i p emb (k.incrementSize n) (fun s => t.incrementSize s n)
  insert : ∀ n, DoesU cs i p emb (k.insert n) (fun s => t.insert s n)
  set : ∀ n m, DoesU cs i p emb (k.set n m) (fun s => t.set s n m)
  insertMany : ∀ n m q r, DoesU cs i p emb (k.insertMany n m q r) (fun s => t.insertMany s n m q r)
  remove : 1 ≤ sz → ∀ n, DoesU cs i p emb (k.remove n) (fun s => t.remove s n)
  removeMany : ∀ n m q, DoesU cs i p emb (k.removeMany n m q) (fun s => t.removeMany s n m q)

namespace Does

variable {emb : σ → RowStore T V} {t : sortedArrayManipulation.Target σ T} {k : Callbacks T V} {sz : Nat}

theorem ret (x : β) : Does cs i p emb (.ret x) (fun s => .ok (s, x)) := fun s hs =>
  ⟨rfl, fun r h => by cases h; exact hs⟩

theorem seq {P : Code T V α} {Q : α → Code T V β} {F : σ → R (σ × α)} {G : α → σ → R (σ × β)}
    (h : Does cs i p emb P F) (h' : ∀ x, Does cs i p emb (Q x) (G x)) :
    Does cs i p emb (P.bind Q) (fun s => F s >>= fun r => G r.2 r.1) := fun s hs => by
  obtain ⟨h1, h2⟩ := h s hs
  refine ⟨?_, ?_⟩
  · rw [run_bind, h1]
    simp only [bindR_assoc, bind_ok]
    exact bindR_congr _ fun r hr => (h' r.2 r.1 (h2 r hr)).1
  · intro r hr
    obtain ⟨r1, hr1, hr2⟩ := bind_eq_ok.1 hr
    exact (h' r1.2 r1.1 (h2 r1 hr1)).2 r hr2

theorem cond {P Q : Code T V β} {F G : σ → R (σ × β)} (h : Does cs i p emb P F) (h' : Does cs i p emb Q G) (q : Prop)
    [Decidable q] : Does cs i p emb (if q then P else Q) (fun s => if q then F s else G s) := by
  by_cases hq : q
  · simpa only [if_pos hq] using h
  · simpa only [if_neg hq] using h'

theorem congr {P : Code T V β} {F G : σ → R (σ × β)} (h : Does cs i p emb P F) (e : ∀ s, F s = G s) :
    Does cs i p emb P G := fun s hs => by rw [← e]; exact h s hs

theorem fail (x : Err) : Does cs i p emb (.fail x : Code T V β) (fun _ => .error x) := fun _ _ => ⟨rfl, fun _ h => nomatch h⟩

theorem reads (f : Fits cs i p emb t k sz) {P : Code T V β} {G : (Nat → R T) → R β} (h : Reads cs i p P G) :
    Does cs i p emb P (fun s => G (t.read s) >>= fun x => .ok (s, x)) := fun s hs => by
  have e : t.read s = fun k => (emb s).values.read (p + k) := by
    funext k
    simp only [sortedArrayManipulation.Target.read, f.buf, f.ptr s hs]
  refine ⟨?_, ?_⟩
  · rw [h _ hs]
    simp only [e, bindR_assoc, bind_ok]
  · intro r hr
    obtain ⟨x, _, h2⟩ := bind_eq_ok.1 hr
    cases h2
    exact hs

theorem modify (f : Fits cs i p emb t k sz) {P : Code T V Unit} {F : Buf T → Nat → R (Buf T)}
    (h : OnBuf valuesLens cs i P F) : DoesU cs i p emb P (fun s => t.modify s F) := fun s hs => by
  refine ⟨?_, ?_⟩
  · rw [h _ p hs]
    simp only [sortedArrayManipulation.Target.modify, bindR_assoc, bind_ok, f.buf, f.ptr s hs, f.put]
    rfl
  · intro r hr
    obtain ⟨s', h1, h2⟩ := bind_eq_ok.1 hr
    obtain ⟨b, _, h3⟩ := bind_eq_ok.1 h1
    cases h2
    cases h3
    show (emb (t.put s b)).shape.offsets.read i = .ok p
    rw [f.put]
    exact hs

theorem up {f : Nat → Code T V Unit} {g : Nat → σ → R σ} :
    ∀ (n lo : Nat), (∀ k, DoesU cs i p emb (f k) (g k)) → DoesU cs i p emb (Parallel.up n lo f) (forUp n lo g)
  | 0, _, _ => ret ()
  | n + 1, lo, h => (seq (h lo) fun _ => up n (lo + 1) h).congr fun s => by
    simp only [bindR_assoc, bind_ok, forUp]

variable [LT T] [DecidableLT T] [DecidableEq T]

theorem removeOne_pos {size : Nat} (f : Fits cs i p emb t k size) (v : T) (hs : 1 ≤ size) :
    Does cs i p emb (Parallel.removeOne cs.values k size v)
      (fun s => sortedArrayManipulation.removeOne cs.values t s size v) := by
  refine (seq (reads f (Reads.find0 _ _ size v)) fun index => seq (reads f (Reads.isAt size index v)) fun found =>
    cond (seq (modify f (OnBuf.erase size index 1 hs)) fun _ => seq (f.remove hs index) fun _ => ret true) (ret false)
      (found = true)).congr fun s => ?_
  simp only [sortedArrayManipulation.removeOne, bindR_assoc, bind_ok]
  rfl

theorem removeOne {size : Nat} (f : Fits cs i p emb t k size) (v : T) :
    Does cs i p emb (Parallel.removeOne cs.values k size v)
      (fun s => sortedArrayManipulation.removeOne cs.values t s size v) := by
  rcases Nat.eq_zero_or_pos size with h | h
  · subst h
    have e1 : ∀ s, sortedArrayManipulation.removeOne cs.values t s 0 v = .ok (s, false) := by
      intro s
      rcases Bool.eq_false_or_eq_true cs.values.debug with hd | hd <;>
        simp [sortedArrayManipulation.removeOne, sortedArrayManipulation.find, sortedArrayManipulation.assertRange,
          sortedArrayManipulation.readAll, sortedArrayManipulation.isSorted, sortedArrayManipulation.findLoop,
          sortedArrayManipulation.isAt, hd]
    have e2 : Parallel.removeOne cs.values k 0 v = (.ret false : Code T V Bool) := by
      rcases Bool.eq_false_or_eq_true cs.values.debug with hd | hd <;>
        simp [Parallel.removeOne, Parallel.find, Parallel.assertRange, Parallel.readAll, sortedArrayManipulation.isSorted,
          Parallel.findLoop, Parallel.isAt, hd, Prog.bind, stopIf]
    rw [e2]
    exact (ret false).congr fun s => (e1 s).symm
  · exact removeOne_pos f v h

theorem removeLoop (f : Fits cs i p emb t k sz) (size : Nat) : ∀ (fuel pos n : Nat) (vs : List T),
    Does cs i p emb (Parallel.removeLoop cs.values k size fuel pos n vs)
      (fun s => sortedArrayManipulation.removeLoop cs.values t size fuel s pos n vs)
  | fuel, pos, n, [] => by cases fuel <;> exact ret n
  | 0, pos, n, _ :: _ => ret n
  | fuel + 1, pos, n, v :: rest => by
    refine (seq (reads f (Reads.seek _ size rest pos)) fun r =>
      seq (modify f (OnBuf.shiftDown (if r.2.isEmpty then size else r.1) (pos + 1) (n + 1))) fun _ =>
      seq (f.removeMany (n + 1) pos (if r.2.isEmpty then size else r.1)) fun _ =>
      cond (ret (n + 1)) (removeLoop f size fuel (if r.2.isEmpty then size else r.1) (n + 1) r.2)
        ((if r.2.isEmpty then size else r.1) = size)).congr fun s => ?_
    simp only [sortedArrayManipulation.removeLoop, bindR_assoc, bind_ok]
    rfl

theorem insertOne (f : Fits cs i p emb t k sz) (size : Nat) (v : T) :
    Does cs i p emb (Parallel.insertOne cs.values k size v)
      (fun s => sortedArrayManipulation.insertOne cs.values t s size v) := by
  refine (seq (reads f (Reads.assertRange0 _ size _)) fun _ => seq (reads f (Reads.insertPosition _ size v)) fun pos =>
    seq (reads f (Reads.isAt size pos v)) fun present =>
    cond (seq (f.incrementSize 0) fun _ => ret false) (seq (f.incrementSize 1) fun _ =>
      seq (modify f (OnBuf.emplace size pos v)) fun _ => seq (f.insert pos) fun _ => ret true)
      (present = true)).congr fun s => ?_
  simp only [sortedArrayManipulation.insertOne, bindR_assoc, bind_ok]
  rfl

theorem insertLoop (f : Fits cs i p emb t k sz) : ∀ (vs : List T) (upper n : Nat),
    DoesU cs i p emb (Parallel.insertLoop cs.values k vs upper n)
      (fun s => sortedArrayManipulation.insertLoop cs.values t vs s upper n)
  | [], _, _ => ret ()
  | v :: vs, upper, n => by
    have hc : ∀ pos, OnBuf valuesLens cs i
        (constructBefore (pos + n) v : Code T V Unit)
        (fun b p => if pos + n = 0 then .error (.ub .outOfBounds) else b.construct cs.values (p + (pos + n - 1)) v) := by
      intro pos
      unfold constructBefore
      by_cases h : pos + n = 0
      · simp only [if_pos h]; exact fun _ _ _ => rfl
      · simp only [if_neg h]; exact OnBuf.act (l := valuesLens) (.construct (pos + n - 1) v)
    refine (seq (reads f (Reads.find0 _ _ upper v)) fun pos => seq (reads f (Reads.isAt upper pos v)) fun present =>
      cond (insertLoop f vs upper n) (seq (modify f (OnBuf.shiftUp upper pos n)) fun _ =>
        seq (modify f (hc pos)) fun _ => seq (f.insertMany n vs.length pos upper) fun _ =>
        insertLoop f vs pos (n - 1)) (present = true)).congr fun s => ?_
    simp only [sortedArrayManipulation.insertLoop, bindR_assoc, bind_ok]
    refine bindR_congr _ fun pos _ => bindR_congr _ fun present _ => ?_
    by_cases h : present = true
    · simp only [if_pos h]
    · simp only [if_neg h, bindR_assoc]
      rfl

theorem insertRange [Inhabited T] (f : Fits cs i p emb t k sz) (size : Nat) (vs : List T) :
    Does cs i p emb (Parallel.insertRange cs.values k size vs)
      (fun s => sortedArrayManipulation.insertRange cs.values t s size vs) := by
  refine (seq (reads f (Reads.assertRange0 _ size _)) fun _ => seq (reads f (Reads.stop _)) fun _ =>
    cond (seq (f.incrementSize vs.length) fun _ => seq (up vs.length 0 fun j =>
        (seq (modify f (OnBuf.act (l := valuesLens) (.construct j (vs.getD j default)))) fun _ => f.set j j).congr
          fun s => by simp only [bindR_assoc, bind_ok]; exact (bindR_assoc _ (fun s => t.set s j j) _).symm) fun _ =>
        ret vs.length)
      (seq (reads f (Reads.countLoop _ size vs.reverse size 0)) fun n => seq (f.incrementSize n) fun _ =>
        cond (ret 0) (seq (insertLoop f vs.reverse size n) fun _ => ret n) (n = 0)) (size = 0)).congr fun s => ?_
  simp only [sortedArrayManipulation.insertRange, bindR_assoc, bind_ok]
  rfl

theorem removeRange (f : Fits cs i p emb t k sz) (size : Nat) (vs : List T) (s s' : σ) (n : Nat)
    (hs : (emb s).shape.offsets.read i = .ok p)
    (h : sortedArrayManipulation.removeRange cs.values t s size vs = .ok (s', n)) (hn : n ≤ size) :
    (Parallel.removeRange cs.values k size vs).run cs (fun _ => i) (emb s) = .ok (n, emb s') ∧
      (emb s').shape.offsets.read i = .ok p := by
  obtain ⟨u1, h1, h⟩ := bind_eq_ok.1 h
  obtain ⟨u2, h2, h⟩ := bind_eq_ok.1 h
  obtain ⟨⟨pos, rest⟩, h3, h⟩ := bind_eq_ok.1 h
  unfold Parallel.removeRange
  simp only [bind_def, run_bind]
  rw [(reads f (Reads.assertRange0 _ size _) s hs).1]
  simp only [h1, bind_ok]
  rw [(reads f (Reads.stop _) s hs).1]
  simp only [h2, bind_ok]
  rw [(reads f (Reads.seek _ size vs 0) s hs).1]
  simp only [h3, bind_ok]
  dsimp only at h
  split at h
  · rename_i he
    cases h
    rw [if_pos he]
    exact ⟨rfl, hs⟩
  · rename_i he
    rw [if_neg he]
    obtain ⟨⟨s1, m⟩, h4, h⟩ := bind_eq_ok.1 h
    obtain ⟨s2, h5, h⟩ := bind_eq_ok.1 h
    cases h
    obtain ⟨e1, e2⟩ := removeLoop f size vs.length pos 0 rest s hs
    have hs1 := e2 _ h4
    simp only [run_bind]
    rw [e1]
    simp only [h4, bind_ok]
    have hd : OnBuf valuesLens cs i (Parallel.destroy onValue (size - m) m : Code T V Unit)
        (fun b p => arrayManipulation.destroy cs.values b (p + size - m) m) :=
      (OnBuf.destroy (l := valuesLens) (size - m) m).congr fun b p => by rw [Nat.add_sub_assoc hn]; rfl
    obtain ⟨d1, d2⟩ := modify f hd s1 hs1
    rw [d1]
    simp only [h5, bind_ok]
    exact ⟨rfl, d2 (s', ()) (by dsimp only at h5 ⊢; rw [h5]; rfl)⟩

end Does

end LvArray.Parallel
