import Verif.ScarceSetsLemmas
import Verif.Props.SortedSet

/-!
# C92: sorted arrays when memory runs out
-/

namespace LvArray.Props

open LvArray Spec HeldSet

variable {T : Type} [LinearOrder T] [Inhabited T] {c : Cfg} {s : Supply}

/-- What a user of the array can see of it is the set `S`. -/
structure ShowsScarce (c : Cfg) (a : HeldSet T) (S : Finset T) : Prop where
  size : a.size = S.card
  get : ∀ (i : Nat) (hi : i < (S.sort (· ≤ ·)).length), a.get c i = .ok (S.sort (· ≤ ·))[i]
  contains : ∀ v, a.contains c v = .ok (decide (v ∈ S))

omit [Inhabited T] in
theorem Inv.shows {z : ScarceSet T} {a : HeldSet T} (g : Inv z a) : ShowsScarce c a z.set where
  size := g.size
  get := fun i hi => by
    have := g.len
    simp only [HeldSet.get, SortedArr.get]
    rw [show (c.boundsCheck && (decide ((i : Int) < 0) || decide ((a.size : Int) ≤ i))) = false by
      have h1 : ¬ (i : Int) < 0 := by omega
      have h2 : ¬ (a.size : Int) ≤ i := by omega
      simp [h1, h2]]
    rw [errorIf_false, bind_ok, if_neg (by omega)]
    exact bufferManipulation.read_rep g.holds.rep i hi
  contains := fun v => SortedArr.contains_good c g.good v

/-- A history does what the specification says. -/
theorem Inv.run {N : Nat} (he : 0 < s.elem) (hN : N * s.elem < s.word) : ∀ {ops : List (SetOp T)} {z : ScarceSet T} {a : HeldSet T}, Inv z a →
    modestSets N z.set ops →
    match (generalizing := false) scarceRun c.debug (fun k n => s.grants k (n * s.elem)) z ops with
    | .ok (z', outs) => ∃ a', a.run c s ops = .ok (a', outs) ∧ Inv z' a'
    | .error e => a.run c s ops = .error e
  | [], z, a, g, _ => ⟨a, rfl, g⟩
  | op :: ops, z, a, g, hm => by
    obtain ⟨S', o, h1, h2, h3⟩ := hm
    have hw : (roomNeeded op S').2 * s.elem < s.word := Nat.lt_of_le_of_lt (Nat.mul_le_mul_right _ h2) hN
    rcases g.step (c := c) he h1 hw with ⟨z', a', e1, e2, g', hs⟩ | ⟨e, e1, e2⟩
    · have ih := Inv.run he hN g' (ops := ops) (by rw [hs]; exact h3)
      simp only [scarceRun, h1]
      rw [show (fun k n => s.grants k (n * s.elem)) = inValues s from rfl, e1, bind_ok]
      simp only [HeldSet.run, e2, bind_ok]
      rw [show (fun k n => s.grants k (n * s.elem)) = inValues s from rfl] at ih
      cases hr : scarceRun c.debug (inValues s) z' ops with
      | error e => rw [hr] at ih; simp only [bind_err, ih]
      | ok r =>
        rw [hr] at ih
        obtain ⟨a'', e3, g''⟩ := ih
        simp only [bind_ok, e3]
        exact ⟨a'', rfl, g''⟩
    · simp only [scarceRun, h1]
      rw [show (fun k n => s.grants k (n * s.elem)) = inValues s from rfl, e1, bind_err]
      simp only [HeldSet.run, e2, bind_err]

/-- For every allocator and every legal history whose numbers of bytes can be written down, the outcome is exactly the one of the
specification: the same answers and the set it says, or the same error. -/
theorem C92_exact_partial {N : Nat} (he : 0 < s.elem) (hN : N * s.elem < s.word) (ops : List (SetOp T)) (hm : modestSets N ∅ ops) :
    match (generalizing := false) scarceRun c.debug (fun k n => s.grants k (n * s.elem)) (ScarceSet.init T) ops with
    | .ok (z, outs) => ∃ a, (HeldSet.init T).run c s ops = .ok (a, outs) ∧ ShowsScarce c a z.set
    | .error e => (HeldSet.init T).run c s ops = .error e := by
  have h := Inv.run (c := c) he hN Inv.start hm
  split at h
  · rename_i z outs hr
    obtain ⟨a, e, g⟩ := h
    exact ⟨a, e, Inv.shows g⟩
  · exact h

/-- An allocator of a machine with few bytes, asked for values of eight bytes. -/
def fewBytesFor (n : Nat) : Supply := { elem := 8, word := 2 ^ 64, grants := fun _ b => decide (b ≤ n) }

private theorem legalInsert (S : Finset Nat) (v : Nat) : setStep none S (.insert v) = some (insert v S, .bool (decide (v ∉ S))) := by simp [setStep, fits]

example : modestSets 1000 (∅ : Finset Nat) [.reserve 4, .insert 3, .insert 3, .contains 3, .clear, .insertMany [2, 5]] := by
  refine ⟨∅, .unit, by simp [setStep, fits], by simp [roomNeeded], _, _, legalInsert _ _, by simp [roomNeeded], _, _, legalInsert _ _, by simp [roomNeeded],
    {3}, .bool true, by simp [setStep], by simp [roomNeeded], ∅, .unit, rfl, by simp [roomNeeded], {2, 5}, .num 2, ?_, by decide, trivial⟩
  simp [setStep, fits, sortedUnique]

theorem scarce_modest_run {N : Nat} {gr : Nat → Nat → Bool} {debug : Bool} (hg : ∀ k n, n ≤ N → gr k n = true) : ∀ {ops : List (SetOp T)} {z : ScarceSet T},
    z.real = true → modestSets N z.set ops →
    ∃ S outs z', setRun none z.set ops = some (S, outs) ∧ scarceRun debug gr z ops = .ok (z', outs) ∧ z'.set = S
  | [], z, _, _ => ⟨z.set, [], z, rfl, rfl, rfl⟩
  | op :: ops, z, hr, hm => by
    obtain ⟨S', o, h1, h2, h3⟩ := hm
    have e := scarceStep_granted (debug := debug) (o := o) (gr := gr) (z := z) (op := op) (S' := S') (fun _ => hg _ _ h2) (fun _ => .inl hr)
    have hset : (nextState z op S').set = S' := by simp only [nextState]; split <;> rfl
    have hreal : (nextState z op S').real = true := by simp only [nextState]; split <;> [rfl; exact hr]
    obtain ⟨S, outs, z', e1, e2, e3⟩ := scarce_modest_run (debug := debug) hg (ops := ops) hreal (by rw [hset]; exact h3)
    rw [hset] at e1
    refine ⟨S, o :: outs, z', ?_, ?_, e3⟩
    · simp only [setRun, h1, Option.bind_some, e1, Option.map_some]
    · simp only [scarceRun, h1, e, bind_ok, e2]

/-- If there is memory for twice the values there ever are, and for what is reserved, the array behaves as a set. -/
theorem C92_enough {N : Nat} (he : 0 < s.elem) (hN : N * s.elem < s.word) (hg : ∀ k b, b ≤ N * s.elem → s.grants k b = true)
    (ops : List (SetOp T)) (hm : modestSets N ∅ ops) :
    ∃ S outs a, setRun none ∅ ops = some (S, outs) ∧ (HeldSet.init T).run c s ops = .ok (a, outs) ∧ ShowsScarce c a S := by
  obtain ⟨S, outs, z, e1, e2, e3⟩ := scarce_modest_run (debug := c.debug) (gr := fun k n => s.grants k (n * s.elem))
    (fun k n hn => hg k _ (Nat.mul_le_mul_right _ hn)) (ops := ops) (z := ScarceSet.init T) rfl hm
  have h := C92_exact_partial (c := c) he hN ops hm
  rw [e2] at h
  obtain ⟨a, e, g⟩ := h
  exact ⟨S, outs, a, e1, e, e3 ▸ g⟩

example : ∀ k b, b ≤ 1000 * (fewBytesFor 8000).elem → (fewBytesFor 8000).grants k b = true := fun _ b h => by simpa [fewBytesFor] using h

theorem scarce_fit_run {n : Nat} {gr : Nat → Nat → Bool} {debug : Bool} : ∀ {ops : List (SetOp T)} {z : ScarceSet T}, z.real = true → z.cap = n →
    fitInto n z.set ops → ∃ S outs, setRun none z.set ops = some (S, outs) ∧ scarceRun debug gr z ops = .ok ({ z with set := S }, outs)
  | [], z, _, _, _ => ⟨z.set, [], rfl, rfl⟩
  | op :: ops, z, hr, hc, hm => by
    obtain ⟨S', o, h1, h2, h3⟩ := hm
    have hn : ¬ z.cap < (roomNeeded op S').1 := by omega
    have e := scarceStep_granted (debug := debug) (o := o) (gr := gr) (fun h => absurd h hn) (fun _ => .inl hr)
    rw [show nextState z op S' = { z with set := S' } from if_neg hn] at e
    obtain ⟨S, outs, e1, e2⟩ := scarce_fit_run (debug := debug) (gr := gr) (z := { z with set := S' }) (ops := ops) hr hc h3
    refine ⟨S, o :: outs, ?_, ?_⟩
    · simp only [setRun, h1, Option.bind_some, e1, Option.map_some]
    · simp only [scarceRun, h1, e, bind_ok, e2]

/-- Once `reserve( n )` got its memory, whatever the allocator says later does not matter to calls that fit into it. -/
theorem C92_reserved {N : Nat} (he : 0 < s.elem) (hN : N * s.elem < s.word) (n : Nat) (hg : s.grants 0 (n * s.elem) = true)
    (ops : List (SetOp T)) (hm : modestSets N ∅ (.reserve n :: ops)) (hf : fitInto n ∅ ops) :
    ∃ S outs a, setRun none ∅ ops = some (S, outs) ∧ (HeldSet.init T).run c s (.reserve n :: ops) = .ok (a, .unit :: outs) ∧ ShowsScarce c a S := by
  have h := C92_exact_partial (c := c) he hN _ hm
  have hz : ∃ k, setStep none (∅ : Finset T) (.reserve n) = some (∅, .unit) ∧
      scarceStep c.debug (fun k n => s.grants k (n * s.elem)) (ScarceSet.init T) (.reserve n) ∅ .unit =
        .ok ({ set := ∅, cap := n, real := true, asked := k }, .unit) := by
    by_cases h0 : 0 < n
    · exact ⟨1, by simp [setStep, fits], by simp [scarceStep, ScarceSet.init, roomNeeded, h0, hg]⟩
    · obtain rfl : n = 0 := by omega
      exact ⟨0, by simp [setStep, fits], by simp [scarceStep, ScarceSet.init, roomNeeded]⟩
  obtain ⟨k, hz1, hz2⟩ := hz
  obtain ⟨S, outs, e1, e2⟩ := scarce_fit_run (debug := c.debug) (gr := fun k n => s.grants k (n * s.elem)) (ops := ops)
    (z := { set := ∅, cap := n, real := true, asked := k }) rfl rfl hf
  have e : scarceRun c.debug (fun k n => s.grants k (n * s.elem)) (ScarceSet.init T) (.reserve n :: ops) =
      .ok ({ set := S, cap := n, real := true, asked := k }, .unit :: outs) := by
    simp only [scarceRun]
    rw [show (ScarceSet.init T).set = ∅ from rfl, hz1]
    simp only [hz2, bind_ok, e2]
  rw [e] at h
  obtain ⟨a, e3, g⟩ := h
  exact ⟨S, outs, a, e1, e3, g⟩

/-- Room for four values, and then nothing more. -/
example : (fewBytesFor 32).grants 0 (4 * (fewBytesFor 32).elem) = true ∧ (fewBytesFor 32).grants 1 (8 * (fewBytesFor 32).elem) = false ∧
    fitInto 4 (∅ : Finset Nat) [.insert 3, .insert 7, .remove 3, .insert 1] := by
  refine ⟨by decide, by decide, _, _, legalInsert _ _, by decide, _, _, legalInsert _ _, by decide, _, _, rfl, by decide, _, _, legalInsert _ _, by decide, trivial⟩

theorem scarce_debug {gr : Nat → Nat → Bool} : ∀ {ops : List (SetOp T)} {z : ScarceSet T}, (∀ vs, SetOp.insertMany vs ∉ ops) →
    ∀ u, scarceRun true gr z ops ≠ .error (.ub u)
  | [], z, _, u => by simp [scarceRun]
  | op :: ops, z, hop, u => by
    simp only [scarceRun]
    split
    · simp
    · rename_i S' o h1
      have hs : ∀ e, scarceStep true gr z op S' o = .error e → e = .abort := by
        intro e he
        have hno : noMemory true op = .abort := by
          cases op with
          | insertMany vs => exact absurd (List.mem_cons_self) (hop vs)
          | _ => rfl
        unfold scarceStep at he
        rw [hno] at he
        repeat' split at he
        all_goals first | (cases he; rfl) | exact absurd rfl ‹¬ (true = true)› | cases he
      cases hr : scarceStep true gr z op S' o with
      | error e => rw [bind_err, hs e hr]; simp
      | ok r =>
        rw [bind_ok]
        have ih := scarce_debug (gr := gr) (ops := ops) (z := r.1) (fun vs h => hop vs (List.mem_cons_of_mem _ h)) u
        cases hr' : scarceRun true gr r.1 ops with
        | error e => rw [bind_err]; intro h; cases h; exact ih hr'
        | ok r' => rw [bind_ok]; simp

/-- In a debug build a legal history of calls other than the insertion of a range never runs into undefined behaviour, whatever the
allocator says: it stops, or goes on as a set. -/
theorem C92_debug_partial {N : Nat} (hd : c.debug = true) (he : 0 < s.elem) (hN : N * s.elem < s.word) (ops : List (SetOp T)) (hm : modestSets N ∅ ops)
    (hop : ∀ vs, SetOp.insertMany vs ∉ ops) (u : UB) : (HeldSet.init T).run c s ops ≠ .error (.ub u) := by
  have h := C92_exact_partial (c := c) he hN ops hm
  rw [hd] at h
  have hn := scarce_debug (gr := fun k n => s.grants k (n * s.elem)) (z := ScarceSet.init T) hop
  cases hr : scarceRun true (fun k n => s.grants k (n * s.elem)) (ScarceSet.init T) ops with
  | ok r =>
    rw [hr] at h
    obtain ⟨a, e, _⟩ := h
    rw [e]; simp
  | error e =>
    rw [hr] at h
    rw [h]
    intro h'
    cases h'
    exact hn u hr

/-- It does stop: the third value needs memory for six. -/
example : (HeldSet.init Nat).run ⟨false, true, true⟩ (fewBytesFor 40) [.insert 5, .insert 3, .insert 4] = .error .abort := by rfl
example : modestSets 1000 (∅ : Finset Nat) [.insert 5, .insert 3, .insert 4] :=
  ⟨_, _, legalInsert _ _, by decide, _, _, legalInsert _ _, by decide, _, _, legalInsert _ _, by decide, trivial⟩

/-- The code does not report it always: in a release build the values are moved to where there is no memory, and in every build a range is
inserted into an empty set without a look at the memory; that nothing was reserved is not noticed either. -/
theorem C92_unreported :
    (∀ bounds, (HeldSet.init Nat).run ⟨false, bounds, false⟩ (fewBytesFor 40) [.insert 5, .insert 3, .insert 4] = .error (.ub .outOfBounds)) ∧
    (∀ bounds debug, (HeldSet.init Nat).run ⟨false, bounds, debug⟩ (fewBytesFor 40) [.insertMany [1, 2, 3]] = .error (.ub .outOfBounds)) ∧
    (∀ bounds debug, ∃ a, (HeldSet.init Nat).run ⟨false, bounds, debug⟩ (fewBytesFor 40) [.reserve 10] = .ok (a, [.unit]) ∧ a.held.claimed = 10 ∧
      a.held.buf.cap = 0) := by
  refine ⟨fun bounds => by cases bounds <;> rfl, fun bounds debug => by cases bounds <;> cases debug <;> rfl, fun bounds debug => ?_⟩
  cases bounds <;> cases debug <;> exact ⟨_, rfl, by decide +kernel, by decide +kernel⟩

end LvArray.Props
