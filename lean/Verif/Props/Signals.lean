import Verif.Signals
import Verif.Props.System
/-!
# Histories of signal handling (C46) and error handling (C63)
-/

namespace LvArray
namespace Props

/-! ## C46, histories -/

/-- `signal` is only ever called with a handler, not with the error value. -/
def SigOp.Proper : SigOp → Prop
  | .set h => h ≠ .err
  | .reset => True
  | .other _ h => h ≠ .err

theorem reset_saved : ∀ (keys : List Nat) (w : SigWorld), (resetSignalHandling keys w).saved = w.saved := by
  intro keys
  induction keys with
  | nil => intro w; rfl
  | cons s rest ih =>
    intro w
    have hstep : resetSignalHandling (s :: rest) w = resetSignalHandling rest (match w.saved s with
      | some h => (sysSignal w s h).1
      | none => w) := rfl
    rw [hstep, ih]
    cases w.saved s with
    | none => rfl
    | some h => simp only [sysSignal]; split <;> rfl

theorem sigStep_proper (managed : List Nat) (hn : managed.Nodup) (o : SigOp) (w : SigWorld) (hvo : SigOp.Proper o)
    (h1 : ∀ s, w.current s ≠ .err) (h2 : ∀ s, uncatchable s = false → w.saved s ≠ some .err) :
    (∀ s, (sigStep managed w o).current s ≠ .err) ∧
    (∀ s, uncatchable s = false → (sigStep managed w o).saved s ≠ some .err) := by
  constructor
  · intro s
    cases o with
    | set h =>
      simp only [sigStep]
      rw [(setSignals_spec h hvo managed w hn).1 s]
      split
      · exact hvo
      · exact h1 s
    | reset =>
      simp only [sigStep]
      rw [reset_spec managed w hn s]
      split
      · cases hs : w.saved s with
        | none => exact h1 s
        | some h =>
          simp only
          split
          · exact h1 s
          · assumption
      · exact h1 s
    | other k h =>
      simp only [sigStep, sysSignal]
      split
      · exact h1 s
      · dsimp only
        split
        · exact hvo
        · exact h1 s
  · intro s hu
    cases o with
    | set h =>
      simp only [sigStep]
      rw [(setSignals_spec h hvo managed w hn).2 s]
      split
      · simp [hu, h1 s]
      · exact h2 s hu
    | reset =>
      simp only [sigStep]
      rw [reset_saved]
      exact h2 s hu
    | other k h =>
      simp only [sigStep, sysSignal]
      split <;> exact h2 s hu

theorem sigRun_proper (managed : List Nat) (hn : managed.Nodup) : ∀ (ops : List SigOp) (w : SigWorld),
    (∀ o ∈ ops, SigOp.Proper o) → (∀ s, w.current s ≠ .err) →
    (∀ s, uncatchable s = false → w.saved s ≠ some .err) →
    (∀ s, (sigRun managed w ops).current s ≠ .err) ∧
    (∀ s, uncatchable s = false → (sigRun managed w ops).saved s ≠ some .err) := by
  intro ops
  induction ops with
  | nil => intro w _ h1 h2; exact ⟨h1, h2⟩
  | cons o rest ih =>
    intro w hv h1 h2
    obtain ⟨a, b⟩ := sigStep_proper managed hn o w (hv o (List.mem_cons_self ..)) h1 h2
    exact ih _ (fun o' ho' => hv o' (List.mem_cons_of_mem _ ho')) a b

theorem sigRun_append (managed : List Nat) (w : SigWorld) (a b : List SigOp) :
    sigRun managed w (a ++ b) = sigRun managed (sigRun managed w a) b := by
  simp [sigRun, List.foldl_append]

/-- Without a `setSignalHandling` the remembered handlers do not change. -/
theorem sigRun_saved (managed : List Nat) : ∀ (ops : List SigOp) (w : SigWorld),
    (∀ h, SigOp.set h ∉ ops) → (sigRun managed w ops).saved = w.saved := by
  intro ops
  induction ops with
  | nil => intro w _; rfl
  | cons o rest ih =>
    intro w hno
    have e : sigRun managed w (o :: rest) = sigRun managed (sigStep managed w o) rest := rfl
    rw [e, ih _ (fun h hm => hno h (List.mem_cons_of_mem _ hm))]
    cases o with
    | set h => exact absurd (List.mem_cons_self ..) (hno h)
    | reset => exact reset_saved managed w
    | other s h => simp only [sigStep, sysSignal]; split <;> rfl

/-- The process before anything happened: any dispositions, nothing remembered. -/
def Pristine (w : SigWorld) : Prop := (∀ s, w.current s ≠ .err) ∧ (∀ s, w.saved s = none)

/-- **C46, exactly.** In every history of `setSignalHandling`, `resetSignalHandling` and `signal` calls, a reset gives every
managed signal that can be caught the disposition it had immediately before the most recent `setSignalHandling`, whatever
happened before that call and whatever (other resets, other `signal` calls) happened between it and the reset; and a reset
with no `setSignalHandling` before it changes nothing.  Hence the English property holds of a history exactly as far as the
disposition before the most recent call is the original one. -/
theorem C46_reset_restores_the_most_recent_partial (managed : List Nat) (hn : managed.Nodup) (w : SigWorld) (hw : Pristine w)
    (before between : List SigOp) (h : Handler) (hb : ∀ o ∈ before, SigOp.Proper o) (hh : h ≠ .err)
    (hnoset : ∀ k, SigOp.set k ∉ between) :
    (∀ s, s ∈ managed → uncatchable s = false →
      (sigRun managed w (before ++ [.set h] ++ between ++ [.reset])).current s = (sigRun managed w before).current s) ∧
    (∀ s, (s ∉ managed ∨ uncatchable s = true) →
      (sigRun managed w (before ++ [.set h] ++ between ++ [.reset])).current s =
      (sigRun managed w (before ++ [.set h] ++ between)).current s) ∧
    (∀ s, (sigRun managed w (between ++ [.reset])).current s = (sigRun managed w between).current s) := by
  obtain ⟨p1, -⟩ := sigRun_proper managed hn before w hb hw.1 (fun s _ => by rw [hw.2 s]; simp)
  have hreset : ∀ (ops : List SigOp), sigRun managed w (ops ++ [.reset]) = resetSignalHandling managed (sigRun managed w ops) :=
    fun ops => sigRun_append managed w ops [.reset]
  refine ⟨fun s hs hu => ?_, fun s hs => ?_, fun s => ?_⟩
  · rw [hreset, reset_spec managed _ hn s, if_pos ⟨hs, hu⟩]
    have e : (sigRun managed w (before ++ [.set h] ++ between)).saved s = some ((sigRun managed w before).current s) := by
      rw [sigRun_append, sigRun_saved managed between _ hnoset, sigRun_append]
      have := (setSignals_spec h hh managed (sigRun managed w before) hn).2 s
      simpa [sigRun, sigStep, hs, hu] using this
    simp only [e, p1 s, if_false]
  · rw [hreset, reset_spec managed _ hn s]
    rcases hs with hs | hs <;> simp [hs]
  · rw [hreset, reset_spec managed _ hn s, sigRun_saved managed between _ hnoset, hw.2 s]
    simp

/-- A history of the recommended kind: every `setSignalHandling` is followed by a `resetSignalHandling` before the next one. -/
inductive Paired : List SigOp → Prop
  | nil : Paired []
  | reset {rest} : Paired rest → Paired (.reset :: rest)
  | pair {h rest} : Paired rest → Paired (.set h :: .reset :: rest)

/-- **C46 (partial).** For every history in which each `setSignalHandling` is undone by a `resetSignalHandling` before the
next one, however long and with whatever handlers, every signal ends with its original disposition. -/
theorem C46_paired_partial (managed : List Nat) (hn : managed.Nodup) (w : SigWorld) (hw : Pristine w) (ops : List SigOp)
    (hp : Paired ops) (hv : ∀ o ∈ ops, SigOp.Proper o) : ∀ s, (sigRun managed w ops).current s = w.current s := by
  -- the invariant: what is remembered is what is installed
  suffices H : ∀ (v : SigWorld), (∀ s, v.current s ≠ .err) →
      (∀ s h, uncatchable s = false → v.saved s = some h → h = v.current s) →
      ∀ s, (sigRun managed v ops).current s = v.current s from
    H w hw.1 (fun s h _ hs => by rw [hw.2 s] at hs; cases hs)
  induction hp with
  | nil => intro v _ _ s; rfl
  | @reset rest _ ih =>
    intro v h1 h2 s
    have ih' := ih (fun o ho => hv o (List.mem_cons_of_mem _ ho))
    have ec : ∀ k, (resetSignalHandling managed v).current k = v.current k := by
      intro k
      rw [reset_spec managed v hn k]
      split
      · rename_i hc
        cases hs : v.saved k with
        | none => rfl
        | some h =>
          have := h2 k h hc.2 hs
          simp only [this, h1 k, if_false]
      · rfl
    have e : sigRun managed v (.reset :: rest) = sigRun managed (resetSignalHandling managed v) rest := rfl
    rw [e, ih' _ (fun k => by rw [ec k]; exact h1 k) (fun k h hu hs => by rw [ec k]; rw [reset_saved] at hs; exact h2 k h hu hs) s]
    exact ec s
  | @pair h rest _ ih =>
    intro v h1 h2 s
    have hh : h ≠ .err := hv (.set h) (List.mem_cons_self ..)
    have ih' := ih (fun o ho => hv o (List.mem_cons_of_mem _ (List.mem_cons_of_mem _ ho)))
    obtain ⟨a1, a2⟩ := setSignals_spec h hh managed v hn
    have ec : ∀ k, (resetSignalHandling managed (setSignalHandling managed h v)).current k = v.current k :=
      (C46_reset_restores_partial managed hn h hh v h1).2
    have e : sigRun managed v (.set h :: .reset :: rest) =
      sigRun managed (resetSignalHandling managed (setSignalHandling managed h v)) rest := rfl
    rw [e, ih' _ (fun k => by rw [ec k]; exact h1 k) ?_ s]
    · exact ec s
    · intro k g hu hs
      rw [ec k]
      rw [reset_saved, a2 k] at hs
      split at hs
      · simp [hu] at hs; exact hs.symm
      · exact h2 k g hu hs

example : Pristine ⟨fun s => if s = 2 then .user 7 else .dfl, fun _ => none⟩ ∧ linuxSignals.Nodup ∧
    Paired [.set (.user 0), .reset, .set .ign, .reset, .reset] ∧
    (sigRun linuxSignals ⟨fun s => if s = 2 then .user 7 else .dfl, fun _ => none⟩
      [.set (.user 0), .other 2 .ign, .reset]).current 2 = .user 7 :=
  ⟨⟨by intro s; dsimp only; split <;> simp, fun _ => rfl⟩, by decide, .pair (.pair (.reset .nil)), by decide⟩

/-! ## C63 -/

/-- The result of a piece of code is unique. -/
theorem Ends.unique {managed : List Nat} {t : Task} {p q r : Proc} (h : Ends managed t p q) (h' : Ends managed t p r) :
    q = r := by
  induction h generalizing r with
  | dead hd => cases h' <;> simp_all
  | deliverDefault ha hc hm => cases h' <;> simp_all [tracer]
  | deliverUnmanaged ha hc hm => cases h' <;> simp_all [tracer]
  | deliverOther ha h1 h2 => cases h' <;> simp_all
  | traceExit ha hc _ ih =>
    cases h' <;> try (simp_all [tracer]; done)
    rename_i h''; exact ih h''
  | callNone ha hc _ ih =>
    cases h' <;> try (simp_all; done)
    rename_i h''; exact ih h''
  | callSome ha hc _ ih =>
    cases h' <;> try (simp_all; done)
    rename_i l' h1 h2 h''
    rw [hc] at h2; cases h2
    exact ih h''
  | abort ha _ ih =>
    cases h' <;> try (simp_all; done)
    rename_i h''; rw [ih h'']
  | actsNil ha => cases h' <;> simp_all
  | actsExit ha => cases h' <;> simp_all
  | actsRaise ha _ _ ih1 ih2 =>
    cases h' <;> try (simp_all; done)
    rename_i h1 h2; rw [← ih1 h1] at h2; exact ih2 h2
  | actsError ha _ _ ih1 ih2 =>
    cases h' <;> try (simp_all; done)
    rename_i h1 h2; rw [← ih1 h1] at h2; exact ih2 h2

theorem calls_mono {managed : List Nat} {t : Task} {p q : Proc} (h : Ends managed t p q) :
    p.calls ≤ q.calls ∧ p.traces ≤ q.traces := by
  induction h with
  | traceExit _ _ _ ih => dsimp only at ih; omega
  | callNone _ _ _ ih => exact ih
  | callSome _ _ _ ih => dsimp only at ih; omega
  | abort _ _ ih => exact ih
  | actsRaise _ _ _ ih1 ih2 => omega
  | actsError _ _ _ ih1 ih2 => omega
  | _ => exact ⟨Nat.le_refl _, Nat.le_refl _⟩

/-- No signal enters `stackTraceHandler( sig, true )`. -/
def Calm (w : SigWorld) : Prop := ∀ s, w.current s ≠ tracer

/-- `stackTraceHandler( sig, true )` is only installed for managed signals that can be caught, now and by a reset. -/
def Guarded (managed : List Nat) (w : SigWorld) : Prop :=
  ∀ s, (w.current s = tracer ∨ w.saved s = some tracer) → s ∈ managed ∧ uncatchable s = false

/-- The error handler does not run into an LvArray error itself. -/
def Sound (l : Option (List ErrAct)) : Prop := ∀ k, l = some k → ErrAct.error ∉ k

theorem deliver_calm (managed : List Nat) (p : Proc) (hc : Calm p.sig) (s : Nat) :
    ∃ q, Ends managed (.deliver s) p q ∧ q.sig = p.sig ∧ q.onError = p.onError ∧ q.calls = p.calls ∧
      q.traces = p.traces := by
  cases ha : p.alive with
  | false => exact ⟨p, .dead ha, rfl, rfl, rfl, rfl⟩
  | true =>
    by_cases h1 : p.sig.current s = .dfl
    · by_cases hm : s ∈ managed
      · exact ⟨_, .deliverDefault ha h1 hm, rfl, rfl, rfl, rfl⟩
      · exact ⟨_, .deliverUnmanaged ha h1 hm, rfl, rfl, rfl, rfl⟩
    · exact ⟨_, .deliverOther ha h1 (hc s), rfl, rfl, rfl, rfl⟩

theorem acts_calm (managed : List Nat) : ∀ (l : List ErrAct) (p : Proc), Calm p.sig → ErrAct.error ∉ l →
    ∃ q, Ends managed (.acts l) p q ∧ q.sig = p.sig ∧ q.onError = p.onError ∧ q.calls = p.calls ∧ q.traces = p.traces := by
  intro l
  induction l with
  | nil =>
    intro p _ _
    cases ha : p.alive with
    | false => exact ⟨p, .dead ha, rfl, rfl, rfl, rfl⟩
    | true => exact ⟨p, .actsNil ha, rfl, rfl, rfl, rfl⟩
  | cons a rest ih =>
    intro p hc hl
    rw [List.mem_cons, not_or] at hl
    cases ha : p.alive with
    | false => exact ⟨p, .dead ha, rfl, rfl, rfl, rfl⟩
    | true =>
      cases a with
      | exit => exact ⟨_, .actsExit ha, rfl, rfl, rfl, rfl⟩
      | error => exact absurd rfl hl.1
      | raise s =>
        obtain ⟨q, e1, a1, a2, a3, a4⟩ := deliver_calm managed p hc s
        obtain ⟨r, e2, b1, b2, b3, b4⟩ := ih q (by rw [a1]; exact hc) hl.2
        exact ⟨r, .actsRaise ha e1 e2, b1.trans a1, b2.trans a2, b3.trans a3, b4.trans a4⟩

theorem call_calm (managed : List Nat) (p : Proc) (hc : Calm p.sig) (hs : Sound p.onError) :
    ∃ q, Ends managed .callErrorHandler p q ∧ q.sig = p.sig ∧ q.onError = p.onError ∧ q.calls ≤ p.calls + 1 ∧
      q.traces = p.traces ∧ (p.onError = none → q.alive = false) ∧
      (p.alive = true → p.onError ≠ none → q.calls = p.calls + 1) := by
  cases ha : p.alive with
  | false => exact ⟨p, .dead ha, rfl, rfl, by omega, rfl, fun _ => ha, fun h => by cases h⟩
  | true =>
    cases ho : p.onError with
    | none =>
      obtain ⟨q, e1, a1, a2, a3, a4⟩ := deliver_calm managed p hc sigAbrt
      exact ⟨_, .callNone ha ho (.abort ha e1), a1, a2.trans ho, by dsimp only; omega, a4, fun _ => rfl,
        fun _ h => absurd rfl h⟩
    | some l =>
      obtain ⟨q, e1, a1, a2, a3, a4⟩ := acts_calm managed l { p with calls := p.calls + 1 } hc (hs l ho)
      exact ⟨q, .callSome ha ho e1, a1, a2.trans ho, by rw [a3], a4, (fun h => by cases h),
        fun _ _ => a3⟩

theorem calm_of_default (managed : List Nat) (hn : managed.Nodup) (w : SigWorld) (hg : Guarded managed w) :
    Calm (setSignalHandling managed .dfl w) := by
  intro s
  rw [(setSignals_spec .dfl (by simp) managed w hn).1 s]
  split
  · simp [tracer]
  · intro h
    rename_i hc
    exact hc (hg s (.inl h))

theorem guarded_set (managed : List Nat) (hn : managed.Nodup) (h : Handler) (hh : h ≠ .err) (w : SigWorld)
    (hg : Guarded managed w) : Guarded managed (setSignalHandling managed h w) := by
  obtain ⟨a1, a2⟩ := setSignals_spec h hh managed w hn
  intro s hs
  rw [a1 s, a2 s] at hs
  rcases hs with hs | hs
  · split at hs
    · assumption
    · exact hg s (.inl hs)
  · split at hs
    · rename_i hm
      cases hu : uncatchable s with
      | true => simp [hu, tracer] at hs
      | false => exact ⟨hm, rfl⟩
    · exact hg s (.inr hs)

/-- What one piece of error handling leaves: the dispositions are those of before, or LvArray's default ones, and then
nothing enters the stack trace handler any more. -/
def Settled (managed : List Nat) (p q : Proc) : Prop :=
  q.onError = p.onError ∧
  ((q.sig = p.sig ∧ q.traces = p.traces) ∨
   (q.sig = setSignalHandling managed .dfl p.sig ∧ q.traces = p.traces + 1))

theorem deliver_ends (managed : List Nat) (hn : managed.Nodup) (p : Proc) (hg : Guarded managed p.sig)
    (hs : Sound p.onError) (s : Nat) :
    ∃ q, Ends managed (.deliver s) p q ∧ Settled managed p q ∧
      ((q.sig = p.sig ∧ q.traces = p.traces ∧ q.calls = p.calls) ∨ (p.alive = true ∧ p.sig.current s = tracer ∧
        q.sig = setSignalHandling managed .dfl p.sig ∧ q.traces = p.traces + 1 ∧ q.calls ≤ p.calls + 1 ∧
        (p.onError = none → q.alive = false) ∧ (p.onError ≠ none → q.calls = p.calls + 1))) := by
  by_cases ht : p.alive = true ∧ p.sig.current s = tracer
  · obtain ⟨ha, ht⟩ := ht
    obtain ⟨q, e, a1, a2, a3, a4, a5, a6⟩ := call_calm managed
      { p with traces := p.traces + 1, sig := setSignalHandling managed .dfl p.sig } (calm_of_default managed hn p.sig hg) hs
    exact ⟨q, .traceExit ha ht e, ⟨a2, .inr ⟨a1, a4⟩⟩, .inr ⟨ha, ht, a1, a4, a3, a5, a6 ha⟩⟩
  · cases ha : p.alive with
    | false => exact ⟨p, .dead ha, ⟨rfl, .inl ⟨rfl, rfl⟩⟩, .inl ⟨rfl, rfl, rfl⟩⟩
    | true =>
      have h2 : p.sig.current s ≠ tracer := fun h => ht ⟨ha, h⟩
      by_cases h1 : p.sig.current s = .dfl
      · by_cases hm : s ∈ managed
        · exact ⟨_, .deliverDefault ha h1 hm, ⟨rfl, .inl ⟨rfl, rfl⟩⟩, .inl ⟨rfl, rfl, rfl⟩⟩
        · exact ⟨_, .deliverUnmanaged ha h1 hm, ⟨rfl, .inl ⟨rfl, rfl⟩⟩, .inl ⟨rfl, rfl, rfl⟩⟩
      · exact ⟨_, .deliverOther ha h1 h2, ⟨rfl, .inl ⟨rfl, rfl⟩⟩, .inl ⟨rfl, rfl, rfl⟩⟩

theorem acts_ends (managed : List Nat) (hn : managed.Nodup) : ∀ (l : List ErrAct) (p : Proc), Guarded managed p.sig →
    Sound p.onError → ErrAct.error ∉ l →
    ∃ q, Ends managed (.acts l) p q ∧ Settled managed p q ∧ p.calls ≤ q.calls ∧ q.calls ≤ p.calls + 1 := by
  intro l
  induction l with
  | nil =>
    intro p _ _ _
    cases ha : p.alive with
    | false => exact ⟨p, .dead ha, ⟨rfl, .inl ⟨rfl, rfl⟩⟩, by omega, by omega⟩
    | true => exact ⟨p, .actsNil ha, ⟨rfl, .inl ⟨rfl, rfl⟩⟩, by omega, by omega⟩
  | cons a rest ih =>
    intro p hg hs hl
    rw [List.mem_cons, not_or] at hl
    cases ha : p.alive with
    | false => exact ⟨p, .dead ha, ⟨rfl, .inl ⟨rfl, rfl⟩⟩, by omega, by omega⟩
    | true =>
      cases a with
      | exit => exact ⟨_, .actsExit ha, ⟨rfl, .inl ⟨rfl, rfl⟩⟩, by dsimp only; omega, by dsimp only; omega⟩
      | error => exact absurd rfl hl.1
      | raise s =>
        obtain ⟨q, e1, hset, hq⟩ := deliver_ends managed hn p hg hs s
        have ho := hset.1
        rcases hq with ⟨a1, a2, a3⟩ | ⟨-, -, a1, a2, a3, a4, a5⟩
        · obtain ⟨r, e2, b0, b1, b2⟩ := ih q (by rw [a1]; exact hg) (by rw [ho]; exact hs) hl.2
          refine ⟨r, .actsRaise ha e1 e2, ⟨b0.1.trans ho, ?_⟩, by omega, by omega⟩
          have := b0.2
          rw [a1, a2] at this
          exact this
        · obtain ⟨r, e2, b1, b2, b3, b4⟩ := acts_calm managed rest q (by rw [a1]; exact calm_of_default managed hn p.sig hg) hl.2
          refine ⟨r, .actsRaise ha e1 e2, ⟨b2.trans ho, .inr ⟨b1.trans a1, b4.trans a2⟩⟩, ?_, by omega⟩
          by_cases hne : p.onError = none
          · -- the process is dead: nothing more happened
            have hd := a4 hne
            have hc := (calls_mono e1).1
            omega
          · have := a5 hne; omega

theorem call_ends (managed : List Nat) (hn : managed.Nodup) (p : Proc) (hg : Guarded managed p.sig) (hs : Sound p.onError) :
    ∃ q, Ends managed .callErrorHandler p q ∧ Settled managed p q ∧ q.calls ≤ p.calls + 2 ∧
      (p.onError = none → q.alive = false ∧ q.calls = p.calls) ∧
      (p.alive = true → p.onError ≠ none → p.calls + 1 ≤ q.calls) := by
  cases ha : p.alive with
  | false =>
    exact ⟨p, .dead ha, ⟨rfl, .inl ⟨rfl, rfl⟩⟩, by omega, fun _ => ⟨ha, rfl⟩, (fun h => by cases h)⟩
  | true =>
    cases ho : p.onError with
    | none =>
      obtain ⟨q, e1, hset, hq⟩ := deliver_ends managed hn p hg hs sigAbrt
      refine ⟨_, .callNone ha ho (.abort ha e1), ⟨hset.1, hset.2⟩, ?_, fun _ => ⟨rfl, ?_⟩, fun _ h => absurd rfl h⟩
      · dsimp only; rcases hq with ⟨-, -, h⟩ | ⟨-, -, -, -, h, -⟩ <;> omega
      · dsimp only
        rcases hq with ⟨-, -, h⟩ | ⟨-, ht, -⟩
        · exact h
        · -- SIGABRT enters the stack trace handler, which calls `abort` again
          cases e1 with
          | dead hd => rfl
          | deliverDefault => rfl
          | deliverUnmanaged => rfl
          | deliverOther => rfl
          | traceExit _ _ e2 =>
            cases e2 with
            | dead hd => rfl
            | callSome _ h' _ => exact absurd (ho.symm.trans h') (by simp)
            | callNone _ _ e3 =>
              obtain ⟨r, e4, a1, a2, a3, a4⟩ := deliver_calm managed
                { p with traces := p.traces + 1, sig := setSignalHandling managed .dfl p.sig }
                (calm_of_default managed hn p.sig hg) sigAbrt
              rw [Ends.unique e3 (.abort ha e4)]
              exact a3
    | some l =>
      obtain ⟨q, e1, a0, a1, a2⟩ := acts_ends managed hn l { p with calls := p.calls + 1 } hg hs (hs l ho)
      dsimp only at a1 a2
      exact ⟨q, .callSome ha ho e1, ⟨a0.1, a0.2⟩, by omega, (fun h => by cases h), fun _ _ => a1⟩

theorem Settled.guarded {managed : List Nat} (hn : managed.Nodup) {p q : Proc} (h : Settled managed p q)
    (hg : Guarded managed p.sig) : Guarded managed q.sig := by
  rcases h.2 with ⟨e, -⟩ | ⟨e, -⟩
  · rw [e]; exact hg
  · rw [e]; exact guarded_set managed hn .dfl (by simp) p.sig hg

/-- The events the property is about: `signal` is called with handlers; code outside LvArray installs
`stackTraceHandler( sig, true )` only for signals that LvArray manages and that can be caught; error handlers do not run into
LvArray errors themselves. -/
def properOp (managed : List Nat) : ProcOp → Prop
  | .sig (.set h) => h ≠ .err
  | .sig .reset => True
  | .sig (.other s h) => h ≠ .err ∧ (h = tracer → s ∈ managed ∧ uncatchable s = false)
  | .setErrorHandler l => Sound l
  | .error => True
  | .signal _ => True

/-- A process in which LvArray has done nothing yet. -/
def Fresh (p : Proc) : Prop := (∀ s, p.sig.current s ≠ tracer) ∧ (∀ s, p.sig.saved s = none) ∧ p.onError = none ∧ p.alive = true

theorem guarded_sig (managed : List Nat) (hn : managed.Nodup) (w : SigWorld) (hg : Guarded managed w) (o : SigOp)
    (ho : properOp managed (.sig o)) : Guarded managed (sigStep managed w o) := by
  cases o with
  | set h => exact guarded_set managed hn h ho w hg
  | reset =>
    intro s hs
    simp only [sigStep] at hs
    rw [reset_spec managed w hn s, reset_saved] at hs
    rcases hs with hs | hs
    · split at hs
      · assumption
      · exact hg s (.inl hs)
    · exact hg s (.inr hs)
  | other k h =>
    intro s hs
    simp only [sigStep, sysSignal] at hs
    split at hs
    · exact hg s hs
    · dsimp only at hs
      by_cases hk : s = k
      · subst hk
        rw [if_pos rfl] at hs
        rcases hs with hs | hs
        · exact ho.2 hs
        · exact hg s (.inr hs)
      · rw [if_neg hk] at hs
        exact hg s hs

/-- Everything that is needed of the state between two events. -/
def Orderly (managed : List Nat) (p : Proc) : Prop := Guarded managed p.sig ∧ Sound p.onError

theorem step_ends (managed : List Nat) (hn : managed.Nodup) (p : Proc) (hp : Orderly managed p) (o : ProcOp)
    (ho : properOp managed o) : ∃ q, ProcStep managed p o q ∧ Orderly managed q := by
  cases ha : p.alive with
  | false => exact ⟨p, .dead ha, hp⟩
  | true =>
    cases o with
    | sig o => exact ⟨_, .sig ha, guarded_sig managed hn p.sig hp.1 o ho, hp.2⟩
    | setErrorHandler l =>
      cases l with
      | some l => exact ⟨_, .setErrorHandler ha, hp.1, ho⟩
      | none =>
        obtain ⟨q, e, s, -⟩ := call_ends managed hn p hp.1 hp.2
        exact ⟨_, .setErrorHandlerNull ha e, s.guarded hn hp.1, ho⟩
    | error =>
      obtain ⟨q, e, s, -⟩ := call_ends managed hn p hp.1 hp.2
      exact ⟨q, .error ha e, s.guarded hn hp.1, by rw [s.1]; exact hp.2⟩
    | signal s =>
      obtain ⟨q, e, s, -⟩ := deliver_ends managed hn p hp.1 hp.2 s
      exact ⟨q, .signal ha e, s.guarded hn hp.1, by rw [s.1]; exact hp.2⟩

theorem ProcStep.unique {managed : List Nat} {p q r : Proc} {o : ProcOp} (h : ProcStep managed p o q)
    (h' : ProcStep managed p o r) : q = r := by
  cases h <;> cases h' <;> try (simp_all; done)
  · rename_i h1 _ _ h2; rw [Ends.unique h1 h2]
  · rename_i h1 _ h2; exact Ends.unique h1 h2
  · rename_i h1 _ h2; exact Ends.unique h1 h2

theorem run_ends (managed : List Nat) (hn : managed.Nodup) : ∀ (ops : List ProcOp) (p : Proc), Orderly managed p →
    (∀ o ∈ ops, properOp managed o) → ∃ q, ProcRun managed p ops q ∧ Orderly managed q := by
  intro ops
  induction ops with
  | nil => intro p hp _; exact ⟨p, .nil, hp⟩
  | cons o rest ih =>
    intro p hp ho
    obtain ⟨q, e, hq⟩ := step_ends managed hn p hp o (ho o (List.mem_cons_self ..))
    obtain ⟨r, e', hr⟩ := ih q hq (fun o' h' => ho o' (List.mem_cons_of_mem _ h'))
    exact ⟨r, .cons e e', hr⟩

theorem ProcRun.unique {managed : List Nat} {p q r : Proc} {ops : List ProcOp} (h : ProcRun managed p ops q)
    (h' : ProcRun managed p ops r) : q = r := by
  induction h generalizing r with
  | nil => cases h'; rfl
  | cons e _ ih =>
    cases h' with
    | cons e' r' =>
      rw [← ProcStep.unique e e'] at r'
      exact ih r'

theorem Fresh.orderly {managed : List Nat} {p : Proc} (h : Fresh p) : Orderly managed p :=
  ⟨(fun s hs => by
      rcases hs with hs | hs
      · exact absurd hs (h.1 s)
      · rw [h.2.1 s] at hs; cases hs),
    (fun l hl => by rw [h.2.2.1] at hl; cases hl)⟩

/-- **C63 (partial).** Let `p` be the process after any history of handler installations, errors and signals.  Whatever
happens next, an LvArray error or a signal, and whatever the user's error handler does (return, exit, fault, `abort`, any
number of times and in any order), the reaction comes to an end, in exactly one way.  The stack trace handler is entered at
most once and the error handler called at most twice (a second time when the error handler itself faults).  Once the stack
trace handler was entered, every managed signal is back at its default action (or the process is dead): it cannot be entered
a second time.  An error always reaches the error handler, and without one the process is dead afterwards, even if SIGABRT is
caught.  Missing for the full property: error handlers that run into an LvArray error themselves
(`C63_failing_error_handler_never_ends`), and that an error stops the program (`C63_error_is_survived`). -/
theorem C63_error_handling_ends_partial (managed : List Nat) (hn : managed.Nodup) (p0 : Proc) (h0 : Fresh p0)
    (history : List ProcOp) (hh : ∀ o ∈ history, properOp managed o) :
    ∃ p, ProcRun managed p0 history p ∧ (∀ p', ProcRun managed p0 history p' → p' = p) ∧
      ∀ (e : ProcOp), (e = .error ∨ ∃ s, e = .signal s) →
        ∃ q, ProcStep managed p e q ∧ (∀ q', ProcStep managed p e q' → q' = q) ∧
          p.traces ≤ q.traces ∧ q.traces ≤ p.traces + 1 ∧ q.calls ≤ p.calls + 2 ∧
          (q.traces = p.traces + 1 → ∀ s, q.sig.current s ≠ tracer ∧
            (s ∈ managed → uncatchable s = false → q.sig.current s = .dfl)) ∧
          (e = .error → p.alive = true → p.onError = none → q.alive = false) ∧
          (e = .error → p.alive = true → p.onError ≠ none → p.calls + 1 ≤ q.calls) := by
  obtain ⟨p, hr, hp⟩ := run_ends managed hn history p0 h0.orderly hh
  refine ⟨p, hr, fun p' h' => ProcRun.unique h' hr, fun e he => ?_⟩
  have hdfl : ∀ (q : Proc), Settled managed p q → q.traces = p.traces + 1 →
      ∀ s, q.sig.current s ≠ tracer ∧ (s ∈ managed → uncatchable s = false → q.sig.current s = .dfl) := by
    intro q hq ht s
    rcases hq.2 with ⟨-, h⟩ | ⟨h, -⟩
    · omega
    · rw [h]
      refine ⟨calm_of_default managed hn p.sig hp.1 s, fun hs hu => ?_⟩
      rw [(setSignals_spec .dfl (by simp) managed p.sig hn).1 s, if_pos ⟨hs, hu⟩]
  have htr : ∀ (q : Proc), Settled managed p q → p.traces ≤ q.traces ∧ q.traces ≤ p.traces + 1 := by
    intro q hq
    rcases hq.2 with ⟨-, h⟩ | ⟨-, h⟩ <;> omega
  rcases he with rfl | ⟨s, rfl⟩
  · cases ha : p.alive with
    | false =>
      refine ⟨p, .dead ha, fun q' h' => ProcStep.unique h' (.dead ha), by omega, by omega, by omega, by omega, ?_, ?_⟩ <;>
        · intro _ h; cases h
    | true =>
      obtain ⟨q, e, hq, h1, h2, h3⟩ := call_ends managed hn p hp.1 hp.2
      exact ⟨q, .error ha e, fun q' h' => ProcStep.unique h' (.error ha e), (htr q hq).1, (htr q hq).2, h1, hdfl q hq,
        fun _ _ h => (h2 h).1, fun _ h h' => h3 ha h'⟩
  · cases ha : p.alive with
    | false =>
      refine ⟨p, .dead ha, fun q' h' => ProcStep.unique h' (.dead ha), by omega, by omega, by omega, by omega, ?_, ?_⟩ <;>
        · intro h; cases h
    | true =>
      obtain ⟨q, e, hq, h⟩ := deliver_ends managed hn p hp.1 hp.2 s
      refine ⟨q, .signal ha e, fun q' h' => ProcStep.unique h' (.signal ha e), (htr q hq).1, (htr q hq).2, ?_, hdfl q hq,
        (fun h => by cases h), (fun h => by cases h)⟩
      rcases h with ⟨-, -, h⟩ | ⟨-, -, -, -, h, -⟩ <;> omega

/-- A process with default dispositions. -/
def plainProc : Proc := ⟨⟨fun _ => .dfl, fun _ => none⟩, none, true, 0, 0⟩

example : Fresh plainProc ∧ linuxSignals.Nodup ∧
    ∀ o ∈ [ProcOp.sig (.set tracer), .setErrorHandler (some [.raise 8, .exit]), .error], properOp linuxSignals o :=
  ⟨⟨fun s => by simp [plainProc, tracer], fun _ => rfl, rfl, rfl⟩, by decide, by
    intro o ho
    simp only [List.mem_cons, List.not_mem_nil, or_false] at ho
    rcases ho with rfl | rfl | rfl
    · simp [properOp, tracer]
    · intro l hl; cases hl; decide
    · trivial⟩

/-- The bound on the calls of the error handler is met: an error handler that causes a floating point exception, with the
stack trace handler installed, is called twice, and the second exception ends the process. -/
theorem C63_called_twice :
    let p : Proc := { plainProc with sig := setSignalHandling linuxSignals tracer plainProc.sig, onError := some [.raise 8] }
    ∃ q, ProcStep linuxSignals p .error q ∧ q.calls = 2 ∧ q.traces = 1 ∧ q.alive = false := by
  refine ⟨_, .error rfl (.callSome rfl rfl (.actsRaise rfl (.traceExit rfl (by decide) (.callSome rfl rfl
    (.actsRaise rfl (.deliverDefault rfl (by decide) (by decide)) (.dead rfl)))) (.dead rfl))), rfl, rfl, rfl⟩

/-- **C63, disagreement.** An LvArray error does not stop the program (its documentation says "Abort execution"): if the
error handler returns, so does the failed check, and the program goes on behind it. -/
theorem C63_error_is_survived (managed : List Nat) (p : Proc) (ha : p.alive = true) :
    ProcStep managed { p with onError := some [] } .error { p with onError := some [], calls := p.calls + 1 } :=
  .error ha (.callSome ha rfl (.actsNil ha))

/-- **C63, disagreement.** The reaction to an error never ends if the error handler runs into an LvArray error itself. -/
theorem C63_failing_error_handler_never_ends (managed : List Nat) (p : Proc) (ha : p.alive = true) (l : List ErrAct) :
    ¬ ∃ q, ProcStep managed { p with onError := some (.error :: l) } .error q := by
  suffices H : ∀ (t : Task) (a q : Proc), Ends managed t a q → a.alive = true → a.onError = some (.error :: l) →
      t ≠ .callErrorHandler ∧ t ≠ .acts (.error :: l) by
    rintro ⟨q, h⟩
    cases h with
    | dead hd => simp_all
    | error _ e => exact (H _ _ _ e ha rfl).1 rfl
  intro t a q h
  induction h with
  | callNone ha' hn _ _ => intro _ h; rw [hn] at h; cases h
  | callSome ha' hs _ ih =>
    intro h1 h2
    rw [hs] at h2; cases h2
    exact absurd rfl (ih h1 hs).2
  | actsError ha' _ _ ih _ =>
    intro h1 h2
    exact absurd rfl (ih h1 h2).1
  | dead hd => intro h; rw [hd] at h; cases h
  | _ => intro _ _; exact ⟨by simp, by simp⟩

end Props
end LvArray
