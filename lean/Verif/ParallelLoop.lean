import Verif.ParallelCore
import Verif.ParallelCalls

/-!
# Parallel loops over rows

From calls that do, alone and on a row of their own, what the specification says, to threads that make such calls in every order.
-/

namespace LvArray.Parallel

open Prog Spec

variable {T V α ρ κ ω : Type} {c : Cfgs}

/-- Run programs one after the other. -/
def runAll (c : Cfgs) : List (Prog Nat T V α) → Family T V → R (List α × Family T V)
  | [], M => .ok ([], M)
  | p :: ps, M => p.runF c M >>= fun r => runAll c ps r.2 >>= fun r' => .ok (r.1 :: r'.1, r'.2)

theorem runAll_length {ps : List (Prog Nat T V α)} {M F : Family T V} {xs : List α} (h : runAll c ps M = .ok (xs, F)) :
    xs.length = ps.length := by
  induction ps generalizing M xs with
  | nil => cases h; rfl
  | cons p ps ih =>
    obtain ⟨r, _, h⟩ := bind_eq_ok.1 h
    obtain ⟨r', h2, h⟩ := bind_eq_ok.1 h
    cases h
    simp [ih h2]

/-- Programs on different rows can as well be run from the beginning, each on its own. -/
theorem runAll_apart {ps : List (Prog Nat T V α)} {D : Nat → Nat → Prop} {M F : Family T V} {xs : List α}
    (hu : ∀ (t : Nat) p, ps[t]? = some p → p.Uses (D t)) (hdis : ∀ t u i, D t i → D u i → t = u)
    (h : runAll c ps M = .ok (xs, F)) :
    (∀ (t : Nat) p, ps[t]? = some p → ∃ x M', xs[t]? = some x ∧ p.runF c M = .ok (x, M') ∧ ∀ i, D t i → M' i = F i) ∧
    ∀ i, (∀ t, t < ps.length → ¬ D t i) → M i = F i := by
  induction ps generalizing M xs D with
  | nil =>
    cases h
    exact ⟨fun t p hp => by simp at hp, fun _ _ => rfl⟩
  | cons p ps ih =>
    obtain ⟨⟨x, M1⟩, h1, h⟩ := bind_eq_ok.1 h
    obtain ⟨⟨xs', F'⟩, h2, h⟩ := bind_eq_ok.1 h
    cases h
    have hu0 := hu 0 p rfl
    obtain ⟨i1, i2⟩ := ih (D := fun t => D (t + 1)) (fun t q hq => hu (t + 1) q (by simpa using hq))
      (fun t u i ht hu => by have := hdis _ _ i ht hu; omega) h2
    refine ⟨?_, ?_⟩
    · intro t q hq
      cases t with
      | zero =>
        simp at hq
        subst hq
        refine ⟨x, M1, rfl, h1, fun i hi => ?_⟩
        exact i2 i fun t _ hd => by have := hdis _ _ i hi hd; omega
      | succ t =>
        obtain ⟨y, M', e1, e2, e3⟩ := i1 t q (by simpa using hq)
        have hq' := hu (t + 1) q hq
        obtain ⟨N', n1, n2, _⟩ := runF_local hq' e2 (N := M) (fun i hi => by
          symm
          exact runF_frame hu0 h1 fun h0 => by have := hdis _ _ i hi h0; omega)
        exact ⟨y, N', by simpa using e1, n1, fun i hi => (n2 i hi).trans (e3 i hi)⟩
    · intro i hi
      rw [← i2 i fun t ht => hi (t + 1) (by simp; omega)]
      exact (runF_frame hu0 h1 (hi 0 (by simp))).symm

/-- The rows used by thread `t`. -/
def rowsOf (work : List (List (Nat × κ))) (t i : Nat) : Prop := ∃ calls, work[t]? = some calls ∧ ∃ q ∈ calls, q.1 = i

theorem rowsOf_apart {work : List (List (Nat × κ))} (h : Apart work) (t u i : Nat) (ht : rowsOf work t i)
    (hu : rowsOf work u i) : t = u := by
  obtain ⟨ct, h1, q, hq, rfl⟩ := ht
  obtain ⟨cu, h2, r, hr, he⟩ := hu
  exact Classical.byContradiction fun hne => h t u ct cu h1 h2 hne q hq r hr he.symm

theorem thread_uses (code : κ → Code T V ω) (D : Nat → Prop) (calls : List (Nat × κ)) (h : ∀ q ∈ calls, D q.1) :
    (thread (calls.map fun q => (q.1, code q.2))).Uses D := by
  induction calls with
  | nil => trivial
  | cons q calls ih =>
    simp only [List.map_cons, thread, bind_def]
    refine Uses.bind ((uses_at q.1 (code q.2)).mono fun i hi => hi ▸ h q (by simp)) fun x => ?_
    exact Uses.bind (ih fun r hr => h r (by simp [hr])) fun _ => trivial

variable {code : κ → Code T V ω} {step : κ → ρ → Option (ρ × ω)} {Good : RowStore T V → ρ → Prop}

/-- The members of the family are the rows. -/
def Rows (Good : RowStore T V → ρ → Prop) (M : Family T V) (rows : List ρ) : Prop :=
  ∀ (i : Nat) r, rows[i]? = some r → Good (M i) r

theorem Rows.set {M : Family T V} {rows : List ρ} (h : Rows Good M rows) {i : Nat} {s : RowStore T V} {r : ρ}
    (hs : Good s r) : Rows Good (upd M i s) (rows.set i r) := by
  intro j r' hj
  by_cases hij : j = i
  · subst hij
    have hl : j < rows.length := by
      have := (List.getElem?_eq_some_iff.1 hj).1
      simpa using this
    rw [List.getElem?_set_self hl] at hj
    cases hj
    rw [upd_same]; exact hs
  · rw [List.getElem?_set_ne (fun h => hij h.symm)] at hj
    rw [upd_ne _ _ hij]; exact h j r' hj

theorem rowRun_ok (hstep : ∀ call s r r' o, Good s r → step call r = some (r', o) →
      ∃ s', (code call).run c (fun _ => 0) s = .ok (o, s') ∧ Good s' r')
    (calls : List (Nat × κ)) {M : Family T V} {rows rows' : List ρ} {outs : List ω} (h : Rows Good M rows)
    (e : rowRun step rows calls = some (rows', outs)) :
    ∃ M', (thread (calls.map fun q => (q.1, code q.2))).runF c M = .ok (outs, M') ∧ Rows Good M' rows' := by
  induction calls generalizing M rows outs with
  | nil => cases e; exact ⟨M, rfl, h⟩
  | cons q calls ih =>
    obtain ⟨i, call⟩ := q
    simp only [rowRun] at e
    split at e
    · cases e
    rename_i r hr
    split at e
    · cases e
    rename_i r' o ho
    obtain ⟨⟨rows1, outs1⟩, e1, e2⟩ := Option.map_eq_some_iff.1 e
    cases e2
    obtain ⟨s', h1, h2⟩ := hstep call (M i) r r' o (h i r hr) ho
    obtain ⟨M', h3, h4⟩ := ih (h.set (i := i) h2) e1
    refine ⟨M', ?_, h4⟩
    simp only [List.map_cons, thread, bind_def, runF_bind, runF_at, h1, bind_ok, h3]
    rfl

theorem threadsRun_ok (hstep : ∀ call s r r' o, Good s r → step call r = some (r', o) →
      ∃ s', (code call).run c (fun _ => 0) s = .ok (o, s') ∧ Good s' r')
    (work : List (List (Nat × κ))) {M : Family T V} {rows rows' : List ρ} {outs : List (List ω)} (h : Rows Good M rows)
    (e : threadsRun step rows work = some (rows', outs)) :
    ∃ F, runAll c (threads code work) M = .ok (outs, F) ∧ Rows Good F rows' := by
  induction work generalizing M rows outs with
  | nil => cases e; exact ⟨M, rfl, h⟩
  | cons calls work ih =>
    simp only [threadsRun] at e
    split at e
    · cases e
    rename_i rows1 outs1 h1
    obtain ⟨⟨rows2, outs2⟩, e1, e2⟩ := Option.map_eq_some_iff.1 e
    cases e2
    obtain ⟨M1, h3, h4⟩ := rowRun_ok hstep calls h h1
    obtain ⟨F, h5, h6⟩ := ih h4 e1
    refine ⟨F, ?_, h6⟩
    simp only [threads, List.map_cons, runAll, h3, bind_ok]
    simp only [threads] at h5
    rw [h5]; rfl

theorem rowRun_rows {rows rows' : List ρ} {calls : List (Nat × κ)} {outs : List ω}
    (e : rowRun step rows calls = some (rows', outs)) : rows'.length = rows.length ∧ ∀ q ∈ calls, q.1 < rows.length := by
  induction calls generalizing rows outs with
  | nil => cases e; exact ⟨rfl, by simp⟩
  | cons q calls ih =>
    obtain ⟨i, call⟩ := q
    simp only [rowRun] at e
    split at e
    · cases e
    rename_i r hr
    split at e
    · cases e
    rename_i r' o ho
    obtain ⟨⟨rows1, outs1⟩, e1, e2⟩ := Option.map_eq_some_iff.1 e
    cases e2
    obtain ⟨h1, h2⟩ := ih e1
    rw [List.length_set] at h1 h2
    refine ⟨h1, ?_⟩
    intro q hq
    rcases List.mem_cons.1 hq with rfl | hq
    · exact (List.getElem?_eq_some_iff.1 hr).1
    · exact h2 q hq

theorem threadsRun_rows {rows rows' : List ρ} {work : List (List (Nat × κ))} {outs : List (List ω)}
    (e : threadsRun step rows work = some (rows', outs)) :
    rows'.length = rows.length ∧ outs.length = work.length ∧ ∀ t i, rowsOf work t i → i < rows.length := by
  induction work generalizing rows outs with
  | nil => cases e; exact ⟨rfl, rfl, fun t i h => by obtain ⟨_, h, _⟩ := h; simp at h⟩
  | cons calls work ih =>
    simp only [threadsRun] at e
    split at e
    · cases e
    rename_i rows1 outs1 h1
    obtain ⟨⟨rows2, outs2⟩, e1, e2⟩ := Option.map_eq_some_iff.1 e
    cases e2
    obtain ⟨h2, h3, h4⟩ := ih e1
    obtain ⟨h5, h6⟩ := rowRun_rows h1
    refine ⟨h2.trans h5, by simp [h3], ?_⟩
    rintro t i ⟨ct, hc, q, hq, rfl⟩
    cases t with
    | zero => simp at hc; subst hc; exact h6 q hq
    | succ t =>
      have := h4 t q.1 ⟨ct, by simpa using hc, q, hq, rfl⟩
      omega

/-- Calls of several threads on different rows, in every order.  `hstep` says that a call alone, on a row of its own, does what
the specification says. -/
theorem parallel_loop (hstep : ∀ call s r r' o, Good s r → step call r = some (r', o) →
      ∃ s', (code call).run (strict c) (fun _ => 0) s = .ok (o, s') ∧ Good s' r')
    {n : Nat} {o : Nat → Nat} {s : RowStore T V} {M : Family T V} (hs : Sim n o s M) {rows rows' : List ρ}
    (hn : rows.length = n) (hM : Rows Good M rows) {work : List (List (Nat × κ))} {outs : List (List ω)} (ha : Apart work)
    (e : threadsRun step rows work = some (rows', outs)) :
    ∃ N F, Rows Good F rows' ∧ ∀ sched : List Nat, ∃ s' ts' M',
      interleave (Prog.turn c) s (threads code work) sched = .ok (s', ts') ∧
      ts'.length = work.length ∧ Sim n o s' M' ∧ Kept n (o n) s s' ∧
      (∀ (t : Nat) (p : Prog Nat T V (List ω)), ts'[t]? = some p → N ≤ sched.count t → ∃ q, p = .ret q) ∧
      (∀ (t : Nat) (q : List ω), ts'[t]? = some (.ret q) → outs[t]? = some q ∧ ∀ i, rowsOf work t i → M' i = F i) ∧
      ((∀ (t : Nat) (p : Prog Nat T V (List ω)), ts'[t]? = some p → ∃ q, p = .ret q) → M' = F) := by
  obtain ⟨F, h1, h2⟩ := threadsRun_ok hstep work hM e
  obtain ⟨h3, h4, h5⟩ := threadsRun_rows e
  have hdis := rowsOf_apart ha
  have hD : ∀ t i, rowsOf work t i → i < n := fun t i h => hn ▸ h5 t i h
  have hlen : (threads code work).length = work.length := by simp [threads]
  have hu : ∀ (t : Nat) p, (threads code work)[t]? = some p → p.Uses (rowsOf work t) := by
    intro t p hp
    simp only [threads, List.getElem?_map] at hp
    obtain ⟨calls, hc, rfl⟩ := Option.map_eq_some_iff.1 hp
    exact thread_uses code _ calls fun q hq => ⟨calls, hc, q, hq, rfl⟩
  obtain ⟨r1, r2⟩ := runAll_apart hu hdis h1
  -- a bound for the turns of all threads
  obtain ⟨N, hN⟩ : ∃ N, ∀ (t : Nat) p, (threads code work)[t]? = some p → p.turnsF (strict c) M ≤ N := by
    have : ∀ ps : List (Prog Nat T V (List ω)), ∃ N, ∀ p ∈ ps, p.turnsF (strict c) M ≤ N := by
      intro ps
      induction ps with
      | nil => exact ⟨0, by simp⟩
      | cons p ps ih =>
        obtain ⟨N, hN⟩ := ih
        refine ⟨max N (p.turnsF (strict c) M), fun q hq => ?_⟩
        rcases List.mem_cons.1 hq with rfl | hq
        · exact Nat.le_max_right _ _
        · exact Nat.le_trans (hN q hq) (Nat.le_max_left _ _)
    obtain ⟨N, hN⟩ := this (threads code work)
    exact ⟨N, fun t p hp => hN p (List.mem_of_getElem? hp)⟩
  have hm : Midway (strict c) (rowsOf work) (fun t => outs.getD t []) F (fun _ => N) M (threads code work) := by
    refine ⟨hu, ?_, hN, r2⟩
    intro t p hp
    obtain ⟨x, M', e1, e2, e3⟩ := r1 t p hp
    refine ⟨M', ?_, e3⟩
    rw [e2, List.getD_eq_getElem?_getD, e1]; rfl
  refine ⟨N, F, h2, fun sched => ?_⟩
  obtain ⟨s', ts', M', q1, q2, q3, q4, q5⟩ := interleave_sim (c := c) hD hdis sched _ s M _ hs hm
  refine ⟨s', ts', M', q1, q2.trans hlen, q4, q3, ?_, ?_, ?_⟩
  · intro t p hp ht
    exact ⟨_, q5.done hp (by show N - sched.count t = 0; omega)⟩
  · intro t q hq
    obtain ⟨M2, e1, e2⟩ := q5.run t _ hq
    cases e1
    have htl : t < outs.length := by
      have := (List.getElem?_eq_some_iff.1 hq).1
      omega
    refine ⟨?_, e2⟩
    rw [List.getD_eq_getElem?_getD, List.getElem?_eq_getElem htl]; rfl
  · intro hr
    exact funext fun i => q5.final hr i

end LvArray.Parallel
