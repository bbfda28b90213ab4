import Verif.ParallelLemmas
import Verif.Placed

/-!
# Which buffers a program changes, and complete executions
-/

namespace LvArray.Parallel

variable {T V X I α β : Type}

/-- The buffer an access can change. -/
def Act.part : Act T V → Option LvArray.Part
  | .checkRow => none
  | .base => none
  | .setSize _ => some .sizes
  | .onValue _ => some .values
  | .onEntry _ => some .entries

/-- The program changes no other buffers than `W`. -/
def Prog.Within (W : LvArray.Part → Bool) : Prog I T V α → Prop
  | .ret _ => True
  | .fail _ => True
  | .act _ a next => (∀ p, a.part = some p → W p = true) ∧ next.Within W
  | .num _ _ next => ∀ n, (next n).Within W
  | .val _ _ next => ∀ x, (next x).Within W
  | .ent _ _ next => ∀ x, (next x).Within W

/-- What stays. -/
structure Frame (W : LvArray.Part → Bool) (s s' : RowStore T V) : Prop where
  num : s'.shape.numArrays = s.shape.numArrays
  offsets : s'.shape.offsets = s.shape.offsets
  sizesCap : s'.shape.sizes.cap = s.shape.sizes.cap
  valuesCap : s'.values.cap = s.values.cap
  entriesCap : s'.entries.cap = s.entries.cap
  sizes : W .sizes = false → s'.shape.sizes = s.shape.sizes
  values : W .values = false → s'.values = s.values
  entries : W .entries = false → s'.entries = s.entries

theorem Frame.refl (W : LvArray.Part → Bool) (s : RowStore T V) : Frame W s s :=
  ⟨rfl, rfl, rfl, rfl, rfl, fun _ => rfl, fun _ => rfl, fun _ => rfl⟩

theorem Frame.trans {W : LvArray.Part → Bool} {s s' s'' : RowStore T V} (h : Frame W s s') (h' : Frame W s' s'') : Frame W s s'' :=
  ⟨h'.num.trans h.num, h'.offsets.trans h.offsets, h'.sizesCap.trans h.sizesCap, h'.valuesCap.trans h.valuesCap,
    h'.entriesCap.trans h.entriesCap, fun e => (h'.sizes e).trans (h.sizes e), fun e => (h'.values e).trans (h.values e),
    fun e => (h'.entries e).trans (h.entries e)⟩

theorem write_cap {c : Cfg} {b b' : Buf X} {i : Nat} {v : X} (h : b.write c i v = .ok b') : b'.cap = b.cap := by
  unfold Buf.write at h
  repeat' split at h
  all_goals first
    | cases h; rfl
    | cases h

theorem BufAct.exec_cap {c : Cfg} {p : Nat} {b b' : Buf X} (a : BufAct X) (h : a.exec c p b = .ok b') : b'.cap = b.cap := by
  cases a with
  | notNull =>
    simp only [BufAct.exec] at h
    obtain ⟨_, _, h2⟩ := bind_eq_ok.1 h
    cases h2; rfl
  | construct k v =>
    simp only [BufAct.exec, Buf.construct] at h
    split at h <;> cases h
    rfl
  | moveUp k n =>
    simp only [BufAct.exec, Buf.moveConstruct] at h
    repeat' split at h
    all_goals first
      | cases h; rfl
      | cases h
  | moveDown k n =>
    simp only [BufAct.exec, Buf.moveAssign] at h
    repeat' split at h
    all_goals first
      | cases h; rfl
      | cases h
  | destroy k =>
    simp only [BufAct.exec, Buf.destroyAt] at h
    repeat' split at h
    all_goals first
      | cases h; rfl
      | cases h
  | assign k v => exact write_cap h

theorem Act.exec_frame {W : LvArray.Part → Bool} {c : Cfgs} {i : Nat} {s s' : RowStore T V} (a : Act T V)
    (hw : ∀ p, a.part = some p → W p = true) (h : a.exec c i s = .ok s') : Frame W s s' := by
  cases a with
  | checkRow =>
    simp only [Act.exec] at h
    obtain ⟨_, _, h2⟩ := bind_eq_ok.1 h
    cases h2; exact Frame.refl _ _
  | base =>
    simp only [Act.exec] at h
    obtain ⟨_, _, h2⟩ := bind_eq_ok.1 h
    cases h2; exact Frame.refl _ _
  | setSize n =>
    simp only [Act.exec, Shape.setSize] at h
    obtain ⟨_, h1, h2⟩ := bind_eq_ok.1 h
    obtain ⟨b, h3, h4⟩ := bind_eq_ok.1 h1
    cases h4
    cases h2
    have := hw .sizes rfl
    exact ⟨rfl, rfl, write_cap h3, rfl, rfl, fun e => (by rw [this] at e; cases e), fun _ => rfl, fun _ => rfl⟩
  | onValue b =>
    simp only [Act.exec] at h
    obtain ⟨_, h1, h2⟩ := bind_eq_ok.1 h
    obtain ⟨x, h3, h4⟩ := bind_eq_ok.1 h2
    cases h4
    have := hw .values rfl
    exact ⟨rfl, rfl, rfl, b.exec_cap h3, rfl, fun _ => rfl, fun e => (by rw [this] at e; cases e), fun _ => rfl⟩
  | onEntry b =>
    simp only [Act.exec] at h
    obtain ⟨_, h1, h2⟩ := bind_eq_ok.1 h
    obtain ⟨x, h3, h4⟩ := bind_eq_ok.1 h2
    cases h4
    have := hw .entries rfl
    exact ⟨rfl, rfl, rfl, rfl, b.exec_cap h3, fun _ => rfl, fun _ => rfl, fun e => (by rw [this] at e; cases e)⟩

namespace Prog

variable {W : LvArray.Part → Bool}

theorem Within.turn {c : Cfgs} {s s' : RowStore T V} {p p' : Prog Nat T V α} (hw : p.Within W) (h : p.turn c s = .ok (s', p')) :
    Frame W s s' ∧ p'.Within W := by
  cases p with
  | ret x => cases h; exact ⟨Frame.refl _ _, hw⟩
  | fail e => cases h
  | act i a next =>
    simp only [Prog.turn] at h
    obtain ⟨_, h1, h2⟩ := bind_eq_ok.1 h
    cases h2
    exact ⟨a.exec_frame hw.1 h1, hw.2⟩
  | num i q next =>
    simp only [Prog.turn] at h
    obtain ⟨n, _, h2⟩ := bind_eq_ok.1 h
    cases h2
    exact ⟨Frame.refl _ _, hw n⟩
  | val i k next =>
    simp only [Prog.turn] at h
    obtain ⟨n, _, h2⟩ := bind_eq_ok.1 h
    cases h2
    exact ⟨Frame.refl _ _, hw n⟩
  | ent i k next =>
    simp only [Prog.turn] at h
    obtain ⟨n, _, h2⟩ := bind_eq_ok.1 h
    cases h2
    exact ⟨Frame.refl _ _, hw n⟩

theorem Within.bind {p : Prog I T V α} {f : α → Prog I T V β} (h : p.Within W) (hf : ∀ x, (f x).Within W) : (p.bind f).Within W := by
  induction p with
  | ret x => exact hf x
  | fail e => trivial
  | act i a next ih => exact ⟨h.1, ih h.2⟩
  | num i q next ih => exact fun n => ih n (h n)
  | val i k next ih => exact fun n => ih n (h n)
  | ent i k next ih => exact fun n => ih n (h n)

theorem Within.relabel {J : Type} {f : I → J} {p : Prog I T V α} (h : p.Within W) : (p.relabel f).Within W := by
  induction p with
  | ret x => trivial
  | fail e => trivial
  | act i a next ih => exact ⟨h.1, ih h.2⟩
  | num i q next ih => exact fun n => ih n (h n)
  | val i k next ih => exact fun n => ih n (h n)
  | ent i k next ih => exact fun n => ih n (h n)

theorem Within.mono {W' : LvArray.Part → Bool} {p : Prog I T V α} (h : p.Within W) (hw : ∀ q, W q = true → W' q = true) : p.Within W' := by
  induction p with
  | ret x => trivial
  | fail e => trivial
  | act i a next ih => exact ⟨fun q hq => hw q (h.1 q hq), ih h.2⟩
  | num i q next ih => exact fun n => ih n (h n)
  | val i k next ih => exact fun n => ih n (h n)
  | ent i k next ih => exact fun n => ih n (h n)

/-- No program changes the offsets. -/
theorem within_all (h1 : W .sizes = true) (h2 : W .values = true) (h3 : W .entries = true) (p : Prog I T V α) : p.Within W := by
  induction p with
  | ret x => trivial
  | fail e => trivial
  | act i a next ih =>
    refine ⟨fun q hq => ?_, ih⟩
    cases a <;> cases hq <;> assumption
  | num i q next ih => exact ih
  | val i k next ih => exact ih
  | ent i k next ih => exact ih

end Prog

theorem thread_within {W : LvArray.Part → Bool} (calls : List (Nat × Code T V α)) (h : ∀ q ∈ calls, q.2.Within W) :
    (thread calls).Within W := by
  induction calls with
  | nil => trivial
  | cons q calls ih =>
    obtain ⟨i, p⟩ := q
    exact (Prog.Within.relabel (h (i, p) (by simp))).bind fun x => (ih fun q hq => h q (by simp [hq])).bind fun _ => trivial

theorem threads_within {κ ω : Type} {W : LvArray.Part → Bool} {code : κ → Code T V ω} {work : List (List (Nat × κ))}
    (h : ∀ calls ∈ work, ∀ q ∈ calls, (code q.2).Within W) : ∀ p ∈ threads code work, p.Within W := by
  intro p hp
  obtain ⟨calls, hc, rfl⟩ := List.mem_map.1 hp
  refine thread_within _ fun q hq => ?_
  obtain ⟨q', hq', rfl⟩ := List.mem_map.1 hq
  exact h calls hc q' hq'

theorem interleave_frame {W : LvArray.Part → Bool} {c : Cfgs} {sched : List Nat} {s s' : RowStore T V} {ts ts' : List (Prog Nat T V α)}
    (hw : ∀ p ∈ ts, p.Within W) (h : interleave (Prog.turn c) s ts sched = .ok (s', ts')) : Frame W s s' := by
  induction sched generalizing s ts with
  | nil => cases h; exact Frame.refl _ _
  | cons k ks ih =>
    simp only [interleave] at h
    split at h
    · exact ih hw h
    · next t ht =>
      obtain ⟨⟨s1, p1⟩, h1, h2⟩ := bind_eq_ok.1 h
      obtain ⟨h3, h4⟩ := (hw t (List.mem_of_getElem? ht)).turn h1
      refine h3.trans (ih (fun p hp => ?_) h2)
      rcases List.mem_or_eq_of_mem_set hp with hp | rfl
      · exact hw p hp
      · exact h4

/-! ### Complete executions -/

theorem interleave_append {σ τ : Type} (step : σ → τ → R (σ × τ)) (s : σ) (ts : List τ) (a b : List Nat) :
    interleave step s ts (a ++ b) = interleave step s ts a >>= fun r => interleave step r.1 r.2 b := by
  induction a generalizing s ts with
  | nil => rfl
  | cons k ks ih =>
    simp only [List.cons_append, interleave]
    split
    · exact ih s ts
    · next t _ =>
      cases step s t with
      | error e => rfl
      | ok r => exact ih r.1 _

/-- A thread alone: it fails after some turns, or it returns after some turns, with the same result as `run`. -/
theorem run_interleave {c : Cfgs} (p : Prog Nat T V α) : ∀ (s : RowStore T V) (ts : List (Prog Nat T V α)) (k : Nat), ts[k]? = some p →
    (∃ e n, interleave (Prog.turn c) s ts (List.replicate n k) = .error e) ∨
    (∃ x s' n, p.run c id s = .ok (x, s') ∧ interleave (Prog.turn c) s ts (List.replicate n k) = .ok (s', ts.set k (.ret x))) := by
  have next : ∀ (p p' : Prog Nat T V α) (s s1 : RowStore T V) (ts : List (Prog Nat T V α)) (k : Nat), ts[k]? = some p →
      p.turn c s = .ok (s1, p') → p.run c id s = p'.run c id s1 →
      ((∃ e n, interleave (Prog.turn c) s1 (ts.set k p') (List.replicate n k) = .error e) ∨
       (∃ x s' n, p'.run c id s1 = .ok (x, s') ∧
          interleave (Prog.turn c) s1 (ts.set k p') (List.replicate n k) = .ok (s', (ts.set k p').set k (.ret x)))) →
      (∃ e n, interleave (Prog.turn c) s ts (List.replicate n k) = .error e) ∨
      (∃ x s' n, p.run c id s = .ok (x, s') ∧ interleave (Prog.turn c) s ts (List.replicate n k) = .ok (s', ts.set k (.ret x))) := by
    intro p p' s s1 ts k hk ht hr h
    have hn : ∀ n, interleave (Prog.turn c) s ts (List.replicate (n + 1) k) =
        interleave (Prog.turn c) s1 (ts.set k p') (List.replicate n k) := by
      intro n
      simp only [List.replicate_succ, interleave, hk, ht, bind_ok]
    rcases h with ⟨e, n, h⟩ | ⟨x, s', n, h, h'⟩
    · exact .inl ⟨e, n + 1, by rw [hn, h]⟩
    · exact .inr ⟨x, s', n + 1, by rw [hr, h], by rw [hn, h', List.set_set]⟩
  have fail : ∀ (p : Prog Nat T V α) (s : RowStore T V) (ts : List (Prog Nat T V α)) (k : Nat) (e : Err), ts[k]? = some p →
      p.turn c s = .error e → ∃ e n, interleave (Prog.turn c) s ts (List.replicate n k) = .error e := by
    intro p s ts k e hk ht
    exact ⟨e, 1, by simp only [List.replicate_succ, interleave, hk, ht]; rfl⟩
  have lt : ∀ {ts : List (Prog Nat T V α)} {k : Nat} {p p' : Prog Nat T V α}, ts[k]? = some p → (ts.set k p')[k]? = some p' := by
    intro ts k p p' hk
    rw [List.getElem?_set_self (List.getElem?_eq_some_iff.1 hk).1]
  induction p with
  | ret x =>
    intro s ts k hk
    obtain ⟨hl, he⟩ := List.getElem?_eq_some_iff.1 hk
    refine .inr ⟨x, s, 0, rfl, ?_⟩
    rw [← he, List.set_getElem_self]
    rfl
  | fail e =>
    intro s ts k hk
    exact .inl (fail _ s ts k e hk rfl)
  | act i a nx ih =>
    intro s ts k hk
    cases h : a.exec c i s with
    | error e => exact .inl (fail _ s ts k e hk (by simp only [Prog.turn, h]; rfl))
    | ok s1 =>
      exact next _ nx s s1 ts k hk (by simp only [Prog.turn, h, bind_ok]) (by simp only [Prog.run, id, h, bind_ok]) (ih s1 _ k (lt hk))
  | num i q nx ih =>
    intro s ts k hk
    cases h : q.exec c i s with
    | error e => exact .inl (fail _ s ts k e hk (by simp only [Prog.turn, h]; rfl))
    | ok n =>
      exact next _ (nx n) s s ts k hk (by simp only [Prog.turn, h, bind_ok]) (by simp only [Prog.run, id, h, bind_ok])
        (ih n s _ k (lt hk))
  | val i j nx ih =>
    intro s ts k hk
    cases h : readValue i j s with
    | error e => exact .inl (fail _ s ts k e hk (by simp only [Prog.turn, h]; rfl))
    | ok n =>
      exact next _ (nx n) s s ts k hk (by simp only [Prog.turn, h, bind_ok]) (by simp only [Prog.run, id, h, bind_ok])
        (ih n s _ k (lt hk))
  | ent i j nx ih =>
    intro s ts k hk
    cases h : readEntry i j s with
    | error e => exact .inl (fail _ s ts k e hk (by simp only [Prog.turn, h]; rfl))
    | ok n =>
      exact next _ (nx n) s s ts k hk (by simp only [Prog.turn, h, bind_ok]) (by simp only [Prog.run, id, h, bind_ok])
        (ih n s _ k (lt hk))

/-- If no schedule fails, the threads can be finished, and this is one more schedule. -/
theorem finish_interleave {c : Cfgs} (ps : List (Prog Nat T V α)) : ∀ (s : RowStore T V) (xs : List α),
    (∀ sched, ∃ r, interleave (Prog.turn c) s (xs.map .ret ++ ps) sched = .ok r) →
    ∃ sched s' ys, Placed.finish c s ps = .ok (s', ys) ∧
      interleave (Prog.turn c) s (xs.map .ret ++ ps) sched = .ok (s', (xs ++ ys).map .ret) := by
  induction ps with
  | nil =>
    intro s xs _
    exact ⟨[], s, [], rfl, by simp [interleave]⟩
  | cons p ps ih =>
    intro s xs h
    rcases run_interleave (c := c) p s (xs.map .ret ++ p :: ps) xs.length (by simp) with ⟨e, n, h1⟩ | ⟨x, s1, n, h1, h2⟩
    · obtain ⟨r, hr⟩ := h (List.replicate n xs.length)
      rw [h1] at hr
      cases hr
    · have hset : (xs.map Prog.ret ++ p :: ps).set xs.length (.ret x) = (xs ++ [x]).map Prog.ret ++ ps := by
        rw [List.set_append_right _ _ (by simp)]
        simp
      rw [hset] at h2
      obtain ⟨sched, s', ys, h3, h4⟩ := ih s1 (xs ++ [x]) (fun sched => by
        obtain ⟨r, hr⟩ := h (List.replicate n xs.length ++ sched)
        rw [interleave_append, h2] at hr
        exact ⟨r, hr⟩)
      refine ⟨List.replicate n xs.length ++ sched, s', x :: ys, ?_, ?_⟩
      · simp only [Placed.finish, h1, bind_ok, h3]
      · rw [interleave_append, h2, bind_ok, h4]
        simp

/-- If no schedule fails, what holds at the end of every schedule holds for what `execute` returns. -/
theorem execute_ok {κ ω : Type} {c : Cfgs} {code : κ → Code T V ω} {s : RowStore T V} {work : List (List (Nat × κ))}
    (h : ∀ sched, ∃ r, interleave (Prog.turn c) s (threads code work) sched = .ok r) (sched : List Nat) :
    ∃ sched' s' outs, Placed.execute c code s work sched = .ok (s', outs) ∧
      interleave (Prog.turn c) s (threads code work) sched' = .ok (s', outs.map .ret) := by
  obtain ⟨⟨s1, ts⟩, h1⟩ := h sched
  obtain ⟨sched', s', ys, h2, h3⟩ := finish_interleave (c := c) ts s1 [] (fun tail => by
    obtain ⟨r, hr⟩ := h (sched ++ tail)
    rw [interleave_append, h1] at hr
    exact ⟨r, hr⟩)
  refine ⟨sched ++ sched', s', ys, ?_, ?_⟩
  · simp only [Placed.execute, h1, bind_ok, h2]
  · rw [interleave_append, h1]
    exact h3

end LvArray.Parallel
