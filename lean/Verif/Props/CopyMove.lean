import Verif.World
/-!
# C12, C13, C14: copies, moves and aliasing arguments of one-dimensional arrays
-/

namespace LvArray.Props

open LvArray

set_option linter.unusedSectionVars false

variable {T : Type} [Inhabited T]

/-- Copy assignment of represented arrays. -/
theorem copyAssign_good (c : Cfg) {a b : Array1 T} {xs ys : List T} (ga : Good none a xs)
    (gb : Good none b ys) : ∃ a', a.copyAssign c b = .ok a' ∧ Good none a' ys := by
  have hr : a.buf.room ys.length := .inl (ga.heap rfl)
  unfold Array1.copyAssign
  rw [ga.size, gb.size, bufferManipulation.copyInto_rep c ga.rep gb.rep default hr, bind_ok]
  exact ⟨_, rfl, ga.mk' rfl rfl rfl rfl (Nat.le_max_right _ _) (maxCap_stack hr)⟩

theorem winv_step (c : Cfg) (hd : c.debug = false) {w : World T} {vars vars' : Nat → Option (List T)}
    (I : WInv w vars) (op : WOp T) (h : Spec.worldStep vars op = some vars') :
    ∃ w', w.step c op = .ok w' ∧ WInv w' vars' := by
  -- moving from `y` to a variable `x ≠ y` whose own storage, if any, is forgotten
  have hmove : ∀ x y ys, x ≠ y → vars y = some ys → ∀ hy, w.vars y = some hy →
      WInv (w.transfer x y hy)
        (upd (upd vars x (some ys)) y (some [])) := by
    intro x y ys hxy hyv hy ey
    obtain ⟨hy', ay, ey', ly, gy⟩ := I.decl y ys hyv
    rw [ey] at ey'; cases ey'
    unfold World.transfer
    refine ⟨?_, ?_, ?_, ?_⟩
    · intro z hz
      simp only [upd] at hz ⊢
      by_cases h1 : z = y
      · simp [h1] at hz
      · by_cases h2 : z = x
        · subst h2; simp [hxy] at hz
        · simp only [h1, h2, if_false] at hz ⊢; exact I.undecl z hz
    · intro z zs hz
      simp only [upd] at hz ⊢
      by_cases h1 : z = y
      · simp only [h1, if_true, Option.some.injEq] at hz ⊢
        subst hz
        exact ⟨_, _, rfl, rfl, Good.init T none⟩
      · by_cases h2 : z = x
        · subst h2
          simp only [h1, if_true, if_false, Option.some.injEq] at hz ⊢
          subst hz
          exact ⟨hy, ay, rfl, ly, gy⟩
        · simp only [h1, h2, if_false] at hz ⊢
          exact I.decl z zs hz
    · intro z1 z2 h1 h2 p e1 e2 p1 p2
      simp only [upd] at e1 e2
      have key : ∀ z hz, (if z = y then some { ptr := none, size := 0 }
          else if z = x then some hy else w.vars z) = some hz → hz.ptr = some p →
          (z = x ∧ hy.ptr = some p) ∨ (z ≠ x ∧ z ≠ y ∧ w.vars z = some hz) := by
        intro z hz e pz
        by_cases h1 : z = y
        · rw [if_pos h1] at e; cases e; cases pz
        · by_cases h2 : z = x
          · rw [if_neg h1, if_pos h2] at e; cases e; exact .inl ⟨h2, pz⟩
          · rw [if_neg h1, if_neg h2] at e; exact .inr ⟨h2, h1, e⟩
      rcases key z1 h1 e1 p1 with ⟨a1, b1⟩ | ⟨a1, b1, d1⟩ <;> rcases key z2 h2 e2 p2 with ⟨a2, b2⟩ | ⟨a2, b2, d2⟩
      · omega
      · exact (b2 (I.sep z2 y h2 hy p d2 ey p2 b1)).elim
      · exact (b1 (I.sep z1 y h1 hy p d1 ey p1 b2)).elim
      · exact I.sep z1 z2 h1 h2 p d1 d2 p1 p2
    · intro z hz p e pz
      simp only [upd] at e
      by_cases h1 : z = y
      · rw [if_pos h1] at e; cases e; cases pz
      · by_cases h2 : z = x
        · rw [if_neg h1, if_pos h2] at e; cases e; exact I.fresh y _ p ey pz
        · rw [if_neg h1, if_neg h2] at e; exact I.fresh z hz p e pz
  cases op with
  | new x =>
    simp only [Spec.worldStep, Option.ite_none_left_eq_some, Option.some.injEq] at h
    obtain ⟨hx, rfl⟩ := h
    have hx' : vars x = none := by simpa using hx
    refine ⟨w.declare x, by simp [World.step, I.undecl x hx'], ?_⟩
    unfold World.declare
    refine ⟨?_, ?_, ?_, ?_⟩
    · intro y hy
      by_cases hyx : y = x
      · subst hyx; simp [upd] at hy
      · rw [upd_ne _ _ hyx] at hy
        exact (upd_ne w.vars _ hyx).trans (I.undecl y hy)
    · intro y ys hy
      by_cases hyx : y = x
      · subst hyx
        simp only [upd_same, Option.some.injEq] at hy
        subst hy
        exact ⟨_, _, upd_same _ _ _, rfl, Good.init T none⟩
      · rw [upd_ne _ _ hyx] at hy
        obtain ⟨h1, a1, q1, q2⟩ := I.decl y ys hy
        exact ⟨h1, a1, (upd_ne w.vars _ hyx).trans q1, q2⟩
    · intro y z hy hz p ey ez py pz
      by_cases hyx : y = x
      · subst hyx; simp only [upd_same, Option.some.injEq] at ey; rw [← ey] at py; cases py
      · by_cases hzx : z = x
        · subst hzx; simp only [upd_same, Option.some.injEq] at ez; rw [← ez] at pz; cases pz
        · replace ey : w.vars y = some hy := (upd_ne w.vars _ hyx).symm.trans ey
          replace ez : w.vars z = some hz := (upd_ne w.vars _ hzx).symm.trans ez
          exact I.sep y z hy hz p ey ez py pz
    · intro y hy p ey py
      by_cases hyx : y = x
      · subst hyx; simp only [upd_same, Option.some.injEq] at ey; rw [← ey] at py; cases py
      · replace ey : w.vars y = some hy := (upd_ne w.vars _ hyx).symm.trans ey
        exact I.fresh y hy p ey py
  | call x op =>
    simp only [Spec.worldStep, Option.bind_eq_bind, Option.bind_eq_some_iff] at h
    obtain ⟨xs, hx, ys, hs, h⟩ := h
    cases h
    obtain ⟨hd1, a, e1, l1, g1⟩ := I.decl x xs hx
    obtain ⟨a', e2, g2⟩ := step_ok c g1 op hs (by
      intro hn
      cases op with
      | insert pos vs => cases vs with
        | nil => have := hn.1; rw [hd] at this; cases this
        | cons v vs => exact hn
      | _ => exact hn)
    refine ⟨_, by simp [World.step, World.var, e1, l1, e2], I.store e1 l1 g2⟩
  | copy x y =>
    simp only [Spec.worldStep, Option.bind_eq_bind, Option.bind_eq_some_iff] at h
    obtain ⟨xs, hx, ys, hy, h⟩ := h
    cases h
    obtain ⟨hd1, a, e1, l1, g1⟩ := I.decl x xs hx
    obtain ⟨hd2, b, e2, l2, g2⟩ := I.decl y ys hy
    obtain ⟨a', e3, g3⟩ := copyAssign_good c g1 g2
    refine ⟨_, by simp [World.step, World.var, e1, l1, e2, l2, e3], I.store e1 l1 g3⟩
  | moveNew x y =>
    simp only [Spec.worldStep, Option.bind_eq_bind, Option.bind_eq_some_iff,
      Option.ite_none_left_eq_some, Option.some.injEq] at h
    obtain ⟨ys, hy, hx, rfl⟩ := h
    have hx' : vars x = none := by simpa using hx
    obtain ⟨hd2, b, e2, l2, g2⟩ := I.decl y ys hy
    have hxy : x ≠ y := by intro e; subst e; rw [hy] at hx'; cases hx'
    refine ⟨w.transfer x y hd2, by simp [World.step, World.var, e2, I.undecl x hx'], hmove x y ys hxy hy hd2 e2⟩
  | moveTo x y =>
    simp only [Spec.worldStep, Option.bind_eq_bind, Option.bind_eq_some_iff,
      Option.ite_none_left_eq_some, Option.some.injEq] at h
    obtain ⟨xs, hx, ys, hy, hxy, rfl⟩ := h
    obtain ⟨hd1, a, e1, l1, g1⟩ := I.decl x xs hx
    obtain ⟨hd2, b, e2, l2, g2⟩ := I.decl y ys hy
    refine ⟨w.transfer x y hd2, by simp [World.step, World.var, e1, e2], hmove x y ys hxy hy hd2 e2⟩
  | del x =>
    simp only [Spec.worldStep, Option.bind_eq_bind, Option.bind_eq_some_iff] at h
    obtain ⟨xs, hx, h⟩ := h
    cases h
    obtain ⟨hd1, a, e1, l1, g1⟩ := I.decl x xs hx
    have hf : a.dtor c = .ok { a.buf with cap := 0, cell := fun _ => .raw } := by
      rw [Array1.dtor, g1.size, bufferManipulation.free_rep c g1.rep (g1.heap rfl)]
    refine ⟨w.remove x hd1, by simp [World.step, World.var, e1, l1, hf], ?_⟩
    unfold World.remove
    refine ⟨?_, ?_, ?_, ?_⟩
    · intro y hy
      by_cases hyx : y = x
      · subst hyx; exact upd_same _ _ _
      · rw [upd_ne _ _ hyx] at hy
        exact (upd_ne w.vars _ hyx).trans (I.undecl y hy)
    · intro y ys hy
      have hyx : y ≠ x := by intro e; subst e; rw [upd_same] at hy; cases hy
      rw [upd_ne _ _ hyx] at hy
      obtain ⟨hy1, ay, q1, q2, gy⟩ := I.decl y ys hy
      refine ⟨hy1, ay, (upd_ne w.vars _ hyx).trans q1, ?_, gy⟩
      unfold World.load at q2 ⊢
      cases hp : hy1.ptr with
      | none => simpa [hp] using q2
      | some p =>
        simp only [hp] at q2 ⊢
        have hne : hd1.ptr ≠ .some p := fun hc => hyx (I.sep y x hy1 hd1 p q1 e1 hp hc)
        have : freeMem w.mem hd1.ptr p = w.mem p := by
          cases hq : hd1.ptr with
          | none => rfl
          | some q => exact upd_ne _ _ (by intro e; subst e; exact hne hq)
        rw [this]; exact q2
    · intro y z hy hz p ey ez py pz
      have hyx : y ≠ x := by intro e; subst e; cases (upd_same w.vars y none).symm.trans ey
      have hzx : z ≠ x := by intro e; subst e; cases (upd_same w.vars z none).symm.trans ez
      replace ey : w.vars y = some hy := (upd_ne w.vars _ hyx).symm.trans ey
      replace ez : w.vars z = some hz := (upd_ne w.vars _ hzx).symm.trans ez
      exact I.sep y z hy hz p ey ez py pz
    · intro y hy p ey py
      have hyx : y ≠ x := by intro e; subst e; cases (upd_same w.vars y none).symm.trans ey
      replace ey : w.vars y = some hy := (upd_ne w.vars _ hyx).symm.trans ey
      exact I.fresh y hy p ey py

theorem winv_run (c : Cfg) (hd : c.debug = false) : ∀ (ops : List (WOp T)) (w : World T)
    (vars vars' : Nat → Option (List T)), WInv w vars → Spec.worldRun vars ops = some vars' →
    ∃ w', w.run c ops = .ok w' ∧ WInv w' vars'
  | [], w, vars, vars', I, h => by
    simp only [Spec.worldRun, Option.some.injEq] at h
    subst h; exact ⟨w, rfl, I⟩
  | op :: ops, w, vars, vars', I, h => by
    simp only [Spec.worldRun, Option.bind_eq_bind, Option.bind_eq_some_iff] at h
    obtain ⟨v1, h1, h2⟩ := h
    obtain ⟨w1, e1, I1⟩ := winv_step c hd I op h1
    obtain ⟨w2, e2, I2⟩ := winv_run c hd ops w1 v1 vars' I1 h2
    exact ⟨w2, by simp [World.run, e1, e2], I2⟩

theorem winv_empty : WInv (World.empty T) (fun _ => none) :=
  ⟨fun _ _ => rfl, (fun _ _ h => by cases h), (fun _ _ _ _ _ h => by cases h), (fun _ _ _ h => by cases h)⟩

/-- **C12 and C13 (values).** Any program that declares, mutates, copies, moves and destroys any number of arrays
behaves as if every variable were an independent sequence: a copy has the source's contents, a move transfers
them and leaves the source an empty array that can be used again, and a change to one variable is never visible
in another (they never share storage).  The release configuration (`c.debug = false`) is assumed because of
`C07_debug_empty_insert_aborts`; self-move is excluded, see `C13_self_move_loses_contents`. -/
theorem C12_C13_arrays_are_values (c : Cfg) (hd : c.debug = false) (prog : List (WOp T))
    (vars : Nat → Option (List T)) (h : Spec.worldRun (fun _ => none) prog = some vars) :
    ∃ w, (World.empty T).run c prog = .ok w ∧
      (∀ x xs, vars x = some xs → ∃ hdl a, w.vars x = some hdl ∧ w.load hdl = .ok a ∧ a.size = xs.length ∧
        ∀ i : Nat, (hi : i < xs.length) → a.get c i = .ok xs[i]) ∧
      (∀ x y hx hy p, w.vars x = some hx → w.vars y = some hy → hx.ptr = some p → hy.ptr = some p → x = y) := by
  obtain ⟨w, e, I⟩ := winv_run c hd prog _ _ vars winv_empty h
  refine ⟨w, e, ?_, I.sep⟩
  intro x xs hx
  obtain ⟨hdl, a, e1, e2, g⟩ := I.decl x xs hx
  exact ⟨hdl, a, e1, e2, g.size, fun i hi => get_ok c g i hi⟩

example : ((Spec.worldRun (T := Nat) (fun _ => none)
    [.new 0, .new 1, .call 0 (.emplaceBack 5), .copy 1 0, .call 0 (.set 0 6), .moveNew 2 0,
     .call 0 (.emplaceBack 9)]).map fun v => (v 0, v 1, v 2)) = some (some [9], some [5], some [6]) := by
  decide

/-- A program in which no array that owns storage is the target of a move assignment. -/
def noMoveOnto (prog : List (WOp T)) : Prop := ∀ x y, WOp.moveTo x y ∉ prog

/-- **C13 (no leak), partial.** Programs without move assignment never leak: every allocation belongs to exactly
one variable, so once all variables are destroyed nothing is left.  Missing: move assignment, which does leak
(`C13_move_assignment_leaks`). -/
theorem C13_no_leak_partial (c : Cfg) (hd : c.debug = false) (prog : List (WOp T)) (hm : noMoveOnto prog)
    (vars : Nat → Option (List T)) (h : Spec.worldRun (fun _ => none) prog = some vars) :
    ∃ w, (World.empty T).run c prog = .ok w ∧ (∀ p, ¬ w.leaked p) ∧
      ((∀ x, vars x = none) → ∀ p, w.mem p = none) := by
  suffices H : ∀ (prog : List (WOp T)) (w : World T) (v0 : Nat → Option (List T)), WInv w v0 →
      (∀ p, ¬ w.leaked p) → noMoveOnto prog → Spec.worldRun v0 prog = some vars →
      ∃ w', w.run c prog = .ok w' ∧ WInv w' vars ∧ (∀ p, ¬ w'.leaked p) by
    obtain ⟨w, e, I, hl⟩ := H prog _ _ winv_empty (fun p hp => hp.1 rfl) hm h
    refine ⟨w, e, hl, fun hv p => ?_⟩
    refine Decidable.byContradiction (p := w.mem p = none) (dec := ?_) fun hne => hl p ⟨hne, ?_⟩
    · cases w.mem p with
      | none => exact isTrue rfl
      | some _ => exact isFalse (by simp)
    · intro x hx ex; rw [I.undecl x (hv x)] at ex; cases ex
  intro prog
  induction prog with
  | nil =>
    intro w v0 I hl _ h
    simp only [Spec.worldRun, Option.some.injEq] at h
    subst h; exact ⟨w, rfl, I, hl⟩
  | cons op ops ih =>
    intro w v0 I hl hm h
    simp only [Spec.worldRun, Option.bind_eq_bind, Option.bind_eq_some_iff] at h
    obtain ⟨v1, h1, h2⟩ := h
    obtain ⟨w1, e1, I1⟩ := winv_step c hd I op h1
    have hl1 : ∀ p, ¬ w1.leaked p := by
      -- storing into a variable never leaks
      have hstore : ∀ x hx (a a' : Array1 T), w.vars x = some hx → w.load hx = .ok a →
          ∀ p, ¬ (w.store x hx a.buf.cap a').leaked p := by
        intro x hx a a' ex lx p hp
        obtain ⟨hne, hno⟩ := hp
        have hold : w.mem p ≠ none → (∀ y h, y ≠ x → w.vars y = some h → h.ptr ≠ some p) →
            hx.ptr = some p := by
          intro hmem hoth
          refine Decidable.byContradiction fun hc => hl p ⟨hmem, fun y h ey => ?_⟩
          by_cases hyx : y = x
          · subst hyx; rw [ex] at ey; cases ey; exact hc
          · exact hoth y h hyx ey
        unfold World.store at hne hno
        split at hne
        · rename_i hcap
          rw [if_pos hcap] at hno
          have hpx : hx.ptr = some p := by
            cases hq : hx.ptr with
            | none =>
              rw [hq] at hne
              have := hold hne (fun y h hy ey => hno y h (by simpa [upd, hy] using ey))
              rw [hq] at this; cases this
            | some q =>
              by_cases hqp : p = q
              · rw [hqp]
              · rw [hq] at hne
                have hne' : w.mem p ≠ none := by simpa [setMem, upd, hqp] using hne
                have := hold hne' (fun y h hy ey => hno y h (by simpa [upd, hy] using ey))
                rw [hq] at this; exact this
          exact hno x { hx with size := a'.size } (by simp [upd]) hpx
        · rename_i hcap
          rw [if_neg hcap] at hno
          have hpf : p ≠ w.fresh := by
            intro e; exact hno x { ptr := some w.fresh, size := a'.size } (by simp [upd]) (by rw [e])
          cases hq : hx.ptr with
          | none =>
            rw [hq] at hne
            have hne' : w.mem p ≠ none := by simpa [freeMem, upd, hpf] using hne
            have := hold hne' (fun y h hy ey => hno y h (by simpa [upd, hy] using ey))
            rw [hq] at this; cases this
          | some q =>
            rw [hq] at hne
            simp only [freeMem, upd, hpf, if_false] at hne
            by_cases hqp : p = q
            · rw [if_pos hqp] at hne; exact hne rfl
            · rw [if_neg hqp] at hne
              have := hold hne (fun y h hy ey => hno y h (by simpa [upd, hy] using ey))
              rw [hq] at this; cases this; exact hqp rfl
      cases op with
      | new x =>
        simp only [Spec.worldStep, Option.ite_none_left_eq_some] at h1
        have hx' : v0 x = none := by simpa using h1.1
        simp only [World.step, I.undecl x hx', Except.ok.injEq] at e1
        rw [← e1]
        intro p hp
        refine hl p ⟨hp.1, fun y h ey => hp.2 y h ?_⟩
        by_cases hyx : y = x
        · subst hyx; rw [I.undecl y hx'] at ey; cases ey
        · simpa [World.declare, upd, hyx] using ey
      | call x op =>
        simp only [World.step] at e1
        cases hv : w.vars x with
        | none => simp [World.var, hv] at e1
        | some hx =>
          simp only [World.var, hv, bind_ok] at e1
          cases hload : w.load hx with
          | error e => simp [hload] at e1
          | ok a =>
            simp only [hload, bind_ok] at e1
            cases hst : a.step c op with
            | error e => simp [hst] at e1
            | ok a' =>
              simp only [hst, bind_ok, Except.ok.injEq] at e1
              rw [← e1]; exact hstore x hx a a' hv hload
      | copy x y =>
        simp only [World.step] at e1
        cases hv : w.vars x with
        | none => simp [World.var, hv] at e1
        | some hx =>
          simp only [World.var, hv, bind_ok] at e1
          cases hload : w.load hx with
          | error e => simp [hload] at e1
          | ok a =>
            simp only [hload, bind_ok] at e1
            cases hv2 : w.vars y with
            | none => simp [hv2] at e1
            | some hy =>
              simp only [hv2, bind_ok] at e1
              cases hload2 : w.load hy with
              | error e => simp [hload2] at e1
              | ok b =>
                simp only [hload2, bind_ok] at e1
                cases hst : a.copyAssign c b with
                | error e => simp [hst] at e1
                | ok a' =>
                  simp only [hst, bind_ok, Except.ok.injEq] at e1
                  rw [← e1]; exact hstore x hx a a' hv hload
      | moveNew x y =>
        simp only [Spec.worldStep, Option.bind_eq_bind, Option.bind_eq_some_iff,
          Option.ite_none_left_eq_some, Option.some.injEq] at h1
        obtain ⟨ys, hy, hx, _⟩ := h1
        have hx' : v0 x = none := by simpa using hx
        obtain ⟨hd2, b, e2, l2, g2⟩ := I.decl y ys hy
        have hxy : x ≠ y := by intro e; subst e; rw [hy] at hx'; cases hx'
        simp only [World.step, World.var, e2, I.undecl x hx', bind_ok, Except.ok.injEq] at e1
        rw [← e1]
        intro p hp
        refine hl p ⟨hp.1, fun z h ez => ?_⟩
        by_cases hzy : z = y
        · subst hzy
          rw [e2] at ez; cases ez
          exact hp.2 x hd2 (by simp [World.transfer, upd, hxy])
        · by_cases hzx : z = x
          · subst hzx; rw [I.undecl z hx'] at ez; cases ez
          · exact hp.2 z h (by simp [World.transfer, upd, hzx, hzy, ez])
      | moveTo x y => exact (hm x y (by simp)).elim
      | del x =>
        simp only [World.step] at e1
        cases hv : w.vars x with
        | none => simp [World.var, hv] at e1
        | some hx =>
          simp only [World.var, hv, bind_ok] at e1
          cases hload : w.load hx with
          | error e => simp [hload] at e1
          | ok a =>
            simp only [hload, bind_ok] at e1
            cases hst : a.dtor c with
            | error e => simp [hst] at e1
            | ok b =>
              simp only [hst, bind_ok, Except.ok.injEq] at e1
              rw [← e1]
              intro p hp
              obtain ⟨hne, hno⟩ := hp
              cases hq : hx.ptr with
              | none =>
                simp only [World.remove, freeMem, hq] at hne
                refine hl p ⟨hne, fun y h ey => ?_⟩
                by_cases hyx : y = x
                · subst hyx; rw [hv] at ey; cases ey; rw [hq]; simp
                · exact hno y h (by simpa [World.remove, upd, hyx] using ey)
              | some q =>
                simp only [World.remove, freeMem, hq, upd] at hne
                by_cases hpq : p = q
                · rw [if_pos hpq] at hne; exact hne rfl
                · rw [if_neg hpq] at hne
                  refine hl p ⟨hne, fun y h ey => ?_⟩
                  by_cases hyx : y = x
                  · subst hyx; rw [hv] at ey; cases ey; rw [hq]; simp; omega
                  · exact hno y h (by simpa [World.remove, upd, hyx] using ey)
    obtain ⟨w2, e2, I2, hl2⟩ := ih w1 v1 I1 hl1 (fun x y hm' => hm x y (by simp [hm'])) h2
    exact ⟨w2, by simp [World.run, e1, e2], I2, hl2⟩

example : noMoveOnto (T := Nat) [.new 0, .call 0 (.emplaceBack 5), .moveNew 2 0, .del 2] ∧
    ((Spec.worldRun (T := Nat) (fun _ => none)
      [.new 0, .call 0 (.emplaceBack 5), .moveNew 2 0, .del 2]).map fun v => (v 0, v 2)) = some (some [], none) := by
  constructor
  · intro x y h; simp at h
  · decide

/-- **C13, disagreement.** Move assignment onto any array that owns storage leaks that storage with all its
elements: `MallocBuffer::operator=( MallocBuffer && )` overwrites the pointer without freeing it and
`Array::operator=( Array && )` does not release it first. -/
theorem C13_move_assignment_leaks (c : Cfg) {w : World T} {vars : Nat → Option (List T)} (I : WInv w vars)
    {x y p : Nat} {hx hy : Handle} (ex : w.vars x = some hx) (ey : w.vars y = some hy) (hp : hx.ptr = some p)
    (hmem : w.mem p ≠ none) (hxy : x ≠ y) :
    ∃ w', w.step c (.moveTo x y) = .ok w' ∧ w'.leaked p := by
  refine ⟨w.transfer x y hy, by simp [World.step, World.var, ex, ey], hmem, ?_⟩
  unfold World.transfer
  intro z h ez
  simp only [upd] at ez
  by_cases h1 : z = y
  · rw [if_pos h1] at ez; cases ez; simp
  · rw [if_neg h1] at ez
    by_cases h2 : z = x
    · rw [if_pos h2] at ez; cases ez
      intro hc; exact hxy (I.sep x y hx _ p ex ey hp hc)
    · rw [if_neg h2] at ez
      intro hc; exact h2 (I.sep z x h hx p ez ex hc hp)

/-- Does allocation `p` exist without an owner among variables 0 and 1? -/
def leakedIn01 (r : R (World Nat)) (p : Nat) : Bool :=
  match r with
  | .ok w => (w.mem p).isSome &&
      (match w.vars 0 with | some h => h.ptr != some p | none => true) &&
      (match w.vars 1 with | some h => h.ptr != some p | none => true)
  | .error _ => false

/-- A concrete program reaching the leak: `a.emplace_back(1); b.emplace_back(2); a = std::move( b );` -/
theorem C13_move_assignment_leaks_witness :
    leakedIn01 ((World.empty Nat).run { trivial := false, boundsCheck := true, debug := false }
      [.new 0, .new 1, .call 0 (.emplaceBack 1), .call 1 (.emplaceBack 2), .moveTo 0 1]) 0 = true := by
  decide +kernel

/-- **C13, disagreement.** `a = std::move( a )` leaves `a` empty and its storage leaked. -/
theorem C13_self_move_loses_contents (c : Cfg) {w : World T} {x : Nat} {hx : Handle}
    (ex : w.vars x = some hx) :
    ∃ w', w.step c (.moveTo x x) = .ok w' ∧ w'.vars x = some { ptr := none, size := 0 } ∧ w'.mem = w.mem := by
  refine ⟨w.transfer x x hx, by simp [World.step, World.var, ex], ?_, rfl⟩
  simp [World.transfer, upd]

/-! ### C14: arguments that alias the container -/

/-- **C14, partial.** If the capacity suffices, `a.emplace_back( a[ i ] )` appends the value `a[ i ]` had. Missing:
the case that reallocates, which is undefined behaviour (`C14_emplace_back_dangles`). -/
theorem C14_emplace_back_alias_partial (c : Cfg) {a : Array1 T} {xs : List T} (g : Good none a xs) (i : Nat)
    (hi : i < xs.length) (hcap : xs.length < a.buf.cap) :
    ∃ a', a.emplaceBackSelf c i = .ok a' ∧ Good none a' (xs ++ [xs[i]]) := by
  have hr : a.buf.room (xs.length + 1) := .inl (g.heap rfl)
  have hgc : a.buf.grownCap (xs.length + 1) = a.buf.cap := by unfold Buf.grownCap; rw [if_neg (by omega)]
  unfold Array1.emplaceBackSelf
  rw [g.size, bufferManipulation.check_ok c _ _ g.rep.2, bind_ok,
    bufferManipulation.dynamicReserve_rep c g.rep _ hr, bind_ok, if_neg (by omega)]
  have hrep : Rep { a.buf with cap := a.buf.grownCap (xs.length + 1),
                               moves := a.buf.moves + a.buf.growMoves xs.length (xs.length + 1) } xs :=
    ⟨g.rep.1, by rw [show (Buf.cap _) = a.buf.grownCap (xs.length + 1) from rfl, hgc]; omega⟩
  rw [bufferManipulation.read_rep hrep i hi, bind_ok]
  simp only []
  rw [arrayManipulation.emplaceBack_eq, bind_ok]
  · refine ⟨_, rfl, g.mk' (by simp) rfl rfl ?_ (by simp [hgc]; omega) (fun _ => hgc)⟩
    simp only [Nat.zero_add]
    rw [g.rep.1]
    apply cellsOf_eq
    · intro k hk
      simp only [List.length_append, List.length_singleton] at hk
      by_cases hkx : k = xs.length
      · subst hkx; simp [upd]
      · have : k < xs.length := by omega
        rw [upd_ne _ _ hkx, cellsOf_lt this, List.getElem_append_left this]
    · intro k hk
      simp only [List.length_append, List.length_singleton] at hk
      rw [upd_ne _ _ (by omega), cellsOf_ge (by omega)]
  · show 0 + xs.length < a.buf.grownCap (xs.length + 1); omega
  · show a.buf.cell _ = _
    rw [g.rep.1]; exact cellsOf_ge (by omega)

/-- **C14, disagreement.** Whenever the array is full, `a.emplace_back( a[ i ] )` reads through a reference into
storage that the call has already released. -/
theorem C14_emplace_back_dangles (c : Cfg) {a : Array1 T} {xs : List T} (g : Good none a xs) (i : Nat)
    (hcap : xs.length = a.buf.cap) : a.emplaceBackSelf c i = .error (.ub .dangling) := by
  have hr : a.buf.room (xs.length + 1) := .inl (g.heap rfl)
  unfold Array1.emplaceBackSelf
  rw [g.size, bufferManipulation.check_ok c _ _ g.rep.2, bind_ok,
    bufferManipulation.dynamicReserve_rep c g.rep _ hr, bind_ok, if_pos (by omega)]
  rfl

/-- Run an aliasing call after a history, keeping only the outcome. -/
def aliasOutcome (c : Cfg) (ops : List (VecOp Nat)) (f : Array1 Nat → R (Array1 Nat)) : Except Err (List (Option Nat)) :=
  match (Array1.init Nat none).run c ops with
  | .error e => .error e
  | .ok a =>
    match f a with
    | .error e => .error e
    | .ok a' => .ok ((List.range a'.size).map fun i : Nat => match a'.get c i with | .ok v => some v | .error _ => none)

/-- **C14, disagreement (witness for emplace_back).** Two `emplace_back` calls fill the first allocation; the third
one, with an argument from the array, dangles. -/
theorem C14_emplace_back_witness :
    aliasOutcome { trivial := true, boundsCheck := true, debug := true }
      [.emplaceBack 10, .emplaceBack 20] (fun a => a.emplaceBackSelf
        { trivial := true, boundsCheck := true, debug := true } 0)
      = .error (.ub .dangling) := by decide +kernel

/-- **C14, disagreement (emplace).** Even with room, `a.emplace( 0, a[ 1 ] )` on `10, 20, 30` inserts `10`, the
value shifted into the referenced slot, instead of `20`. -/
theorem C14_emplace_alias_wrong_value :
    aliasOutcome { trivial := true, boundsCheck := true, debug := true }
      [.reserve 8, .emplaceBack 10, .emplaceBack 20, .emplaceBack 30] (fun a => a.emplaceSelf
        { trivial := true, boundsCheck := true, debug := true } 0 1)
      = .ok [some 10, some 10, some 20, some 30] := by decide +kernel

/-- **C14, disagreement (resizeDefault).** Growing past the capacity with `resizeDefault( n, a[ 0 ] )` reads
released storage. -/
theorem C14_resizeDefault_dangles :
    aliasOutcome { trivial := true, boundsCheck := true, debug := true }
      [.emplaceBack 10] (fun a => a.resizeDefaultSelf
        { trivial := true, boundsCheck := true, debug := true } 5 0)
      = .error (.ub .dangling) := by decide +kernel

/-- **C14, exactly (emplace).** `a.emplace( pos, a[ i ] )` on an array that holds `xs`: with a full buffer it reads released
storage; with room it inserts the value `a[ i ]` had if `i < pos`, and inserts the value of the element before it if `i > pos`.
If `i = pos` it reads an object that was already moved away and destroyed; the bytes of one of a trivial type are still there. -/
theorem C14_emplace_alias_exact (c : Cfg) {limit : Option Nat} {a : Array1 T} {xs : List T} (g : Good limit a xs) (pos i : Nat)
    (hi : i < xs.length) (hp : pos ≤ xs.length) (hf : Spec.fits limit (xs.length + 1)) :
    (xs.length = a.buf.cap → a.emplaceSelf c pos i = .error (.ub .dangling)) ∧
    (xs.length < a.buf.cap → i < pos →
      ∃ a', a.emplaceSelf c pos i = .ok a' ∧ Good limit a' (xs.take pos ++ xs[i] :: xs.drop pos)) ∧
    (xs.length < a.buf.cap → i = pos → c.trivial = false → a.emplaceSelf c pos i = .error (.ub .rawRead)) ∧
    (xs.length < a.buf.cap → i = pos → c.trivial = true →
      ∃ a', a.emplaceSelf c pos i = .ok a' ∧ Good limit a' (xs.take pos ++ xs[i] :: xs.drop pos)) ∧
    (xs.length < a.buf.cap → pos < i →
      ∃ a', a.emplaceSelf c pos i = .ok a' ∧ Good limit a' (xs.take pos ++ xs[i - 1] :: xs.drop pos)) := by
  have hr := (g.room _).2 hf
  have hle := a.buf.le_grownCap (xs.length + 1)
  -- the buffer after reserving
  let b0 : Buf T := { a.buf with cap := a.buf.grownCap (xs.length + 1), moves := a.buf.moves + a.buf.growMoves xs.length (xs.length + 1) }
  let b1 : Buf T := { b0 with
        cell := fun k =>
          if k < 0 + pos then b0.cell k
          else if k < 0 + pos + 1 then .raw
          else if k < 0 + xs.length + 1 then b0.cell (k - 1)
          else b0.cell k
        lostMoved := b0.lostMoved + arrayManipulation.shiftUpLost c xs.length pos 1
        moves := b0.moves + arrayManipulation.shiftMoves xs.length pos 1 }
  have hcell : b0.cell = cellsOf xs := g.rep.1
  have h1 : arrayManipulation.shiftUp c b0 0 xs.length pos 1 = .ok b1 := by
    refine arrayManipulation.shiftUp_eq c b0 0 xs.length pos 1 hp ?_ ?_ ?_
    · show 0 + xs.length + 1 ≤ a.buf.grownCap (xs.length + 1); omega
    · intro k _ hk; rw [hcell, cellsOf_lt (by omega)]; rfl
    · intro k hk _; rw [hcell, cellsOf_ge (by omega)]
  have hgen : ∀ (r : R (Array1 T)), a.emplaceSelf c pos i = r ↔
      ((if a.buf.cap < xs.length + 1 then .error (.ub .dangling) else Buf.readStale c a.buf b1 i) >>= fun v =>
        b1.construct c pos v >>= fun b => .ok { buf := b, size := xs.length + 1 }) = r := by
    intro r
    unfold Array1.emplaceSelf
    rw [g.size, bufferManipulation.checkInsert_ok c _ _ _ g.rep.2 hp, bind_ok,
      bufferManipulation.dynamicReserve_rep c g.rep _ hr, bind_ok, arrayManipulation.assertNonNull_ok c _ 0, bind_ok,
      arrayManipulation.checkInsertBounds_ok c _ _ hp, bind_ok, h1, bind_ok]
    · by_cases hc : a.buf.cap < xs.length + 1
      · simp only [hc, if_true]
      · simp only [hc, if_false]
    · show 0 < a.buf.grownCap (xs.length + 1); omega
  have hcons : ∀ (v : T), xs.length < a.buf.cap → ∃ a', (b1.construct c pos v >>= fun b =>
      (.ok { buf := b, size := xs.length + 1 } : R (Array1 T))) = .ok a' ∧
      Good limit a' (xs.take pos ++ v :: xs.drop pos) := by
    intro v hlt
    have he := bufferManipulation.emplace_rep c g.rep pos v hp hr
    rw [bufferManipulation.emplace, bufferManipulation.checkInsert_ok c _ _ _ g.rep.2 hp, bind_ok,
      bufferManipulation.dynamicReserve_rep c g.rep _ hr, bind_ok, arrayManipulation.emplace,
      arrayManipulation.assertNonNull_ok c _ 0 (show 0 < a.buf.grownCap (xs.length + 1) by omega), bind_ok,
      arrayManipulation.checkInsertBounds_ok c _ _ hp, bind_ok, h1, bind_ok, Nat.zero_add] at he
    rw [he, bind_ok]
    exact ⟨_, rfl, g.mk' (by simp; omega) rfl rfl rfl (by simp; omega) (grownCap_stack hr)⟩
  have hread : ∀ (k : Nat), k < xs.length → b1.read k = (match b1.cell k with
      | .raw => .error (.ub .rawRead) | .live v => .ok v | .moved => .error (.ub .movedRead)) := by
    intro k hk
    unfold Buf.read
    rw [if_pos (show k < a.buf.grownCap (xs.length + 1) by omega)]
    cases b1.cell k <;> rfl
  have hold : a.buf.read i = .ok xs[i] := by
    unfold Buf.read
    rw [if_pos (by have := g.rep.2; omega), g.rep.1, cellsOf_lt hi]
  refine ⟨fun h => (hgen _).2 ?_, fun h hip => ?_, fun h hip ht => (hgen _).2 ?_, fun h hip ht => ?_, fun h hip => ?_⟩
  · rw [if_pos (by omega)]; rfl
  · have hc1 : b1.cell i = .live xs[i] := by
      show (if i < 0 + pos then b0.cell i else _) = _
      rw [if_pos (by omega), hcell, cellsOf_lt hi]
    have : Buf.readStale c a.buf b1 i = .ok xs[i] := by
      unfold Buf.readStale
      rw [hc1]; simp only
      rw [hread i hi, hc1]
    obtain ⟨a', e, ga⟩ := hcons xs[i] h
    exact ⟨a', (hgen _).2 (by rw [if_neg (by omega), this, bind_ok, e]), ga⟩
  · have hc1 : b1.cell i = .raw := by
      show (if i < 0 + pos then b0.cell i else if i < 0 + pos + 1 then .raw else _) = _
      rw [if_neg (by omega), if_pos (by omega)]
    have : Buf.readStale c a.buf b1 i = .error (.ub .rawRead) := by
      unfold Buf.readStale
      rw [hc1]; simp only [ht]
      rw [if_neg (by simp), hread i hi, hc1]
    rw [if_neg (by omega), this]; rfl
  · have hc1 : b1.cell i = .raw := by
      show (if i < 0 + pos then b0.cell i else if i < 0 + pos + 1 then .raw else _) = _
      rw [if_neg (by omega), if_pos (by omega)]
    have : Buf.readStale c a.buf b1 i = .ok xs[i] := by
      unfold Buf.readStale
      rw [hc1]; simp only [ht]
      rw [if_pos trivial, hold]
    obtain ⟨a', e, ga⟩ := hcons xs[i] h
    exact ⟨a', (hgen _).2 (by rw [if_neg (by omega), this, bind_ok, e]), ga⟩
  · have hc1 : b1.cell i = .live xs[i - 1] := by
      show (if i < 0 + pos then b0.cell i else if i < 0 + pos + 1 then .raw else
        if i < 0 + xs.length + 1 then b0.cell (i - 1) else _) = _
      rw [if_neg (by omega), if_neg (by omega), if_pos (by omega), hcell, cellsOf_lt (by omega)]
    have : Buf.readStale c a.buf b1 i = .ok xs[i - 1] := by
      unfold Buf.readStale
      rw [hc1]; simp only
      rw [hread i hi, hc1]
    obtain ⟨a', e, ga⟩ := hcons xs[i - 1] h
    exact ⟨a', (hgen _).2 (by rw [if_neg (by omega), this, bind_ok, e]), ga⟩

/-- **C14, exactly (resizeDefault).** `a.resizeDefault( n, a[ i ] )` does what it should exactly up to the capacity, whether it
shrinks (even if `a[ i ]` itself is destroyed) or grows the array; beyond the capacity it reads released storage. -/
theorem C14_resizeDefault_alias_exact (c : Cfg) {limit : Option Nat} {a : Array1 T} {xs : List T} (g : Good limit a xs)
    (n i : Nat) (hi : i < xs.length) (hf : Spec.fits limit n) :
    (n ≤ a.buf.cap → ∃ a', a.resizeDefaultSelf c n i = .ok a' ∧
      Good limit a' (xs.take n ++ List.replicate (n - xs.length) xs[i])) ∧
    (a.buf.cap < n → a.resizeDefaultSelf c n i = .error (.ub .dangling)) := by
  have hr := (g.room _).2 hf
  have hle := g.rep.2
  let b0 : Buf T := { a.buf with cap := max a.buf.cap n, moves := a.buf.moves + a.buf.growMoves xs.length n }
  have hcell : b0.cell = cellsOf xs := g.rep.1
  let b1 : Buf T := { b0 with cell := fun k => if n ≤ k ∧ k < n + (xs.length - n) then .raw else b0.cell k }
  have h1 : arrayManipulation.destroy c b0 n (xs.length - n) = .ok b1 := by
    refine arrayManipulation.destroy_eq c b0 n _ (.inr fun k h1 h2 => ⟨?_, ?_⟩)
    · show k < max a.buf.cap n; omega
    · rw [hcell]; exact cellsOf_notRaw (by omega)
  have hstart : ∀ (r : R (Array1 T)), a.resizeDefaultSelf c n i = r ↔
      (forUp (n - xs.length) xs.length (fun k b => do
        let v ← if a.buf.cap < n then .error (.ub .dangling) else b.read i
        b.construct c k v) b1 >>= fun b => .ok { buf := b, size := n }) = r := by
    intro r
    unfold Array1.resizeDefaultSelf
    rw [g.size, bufferManipulation.check_ok c _ _ g.rep.2, bind_ok, bufferManipulation.reserve_rep c g.rep _ hr, bind_ok,
      h1, bind_ok]
  refine ⟨fun hc => ?_, fun hc => (hstart _).2 ?_⟩
  · have hloop := forUp_eq (f := fun k (b : Buf T) => do
        let v ← if a.buf.cap < n then .error (.ub .dangling) else b.read i
        b.construct c k v) (s := b1)
        (fun m => { b1 with cell := fun k => if xs.length ≤ k ∧ k < m then .live xs[i] else b1.cell k }) (n - xs.length) xs.length
        ?_ ?_
    · have hres := (hstart (.ok { buf := { b1 with cell := fun k => if xs.length ≤ k ∧ k < xs.length + (n - xs.length) then .live xs[i] else b1.cell k }, size := n })).2 (by rw [hloop, bind_ok])
      by_cases hn : xs.length ≤ n
      · refine ⟨_, hres, g.mk' (by simp; omega) rfl rfl ?_ ?_ (maxCap_stack hr)⟩
        · apply cellsOf_eq
          · intro k hk
            simp only [List.length_append, List.length_take, List.length_replicate] at hk
            by_cases hkx : k < xs.length
            · dsimp only [b1]
              rw [if_neg (by omega), if_neg (by omega), hcell, cellsOf_lt hkx, List.getElem_append_left (by simp; omega)]
              simp
            · dsimp only
              rw [if_pos (by omega), List.getElem_append_right (by simp; omega)]
              simp
          · intro k hk
            simp only [List.length_append, List.length_take, List.length_replicate] at hk
            dsimp only [b1]
            rw [if_neg (by omega), if_neg (by omega), hcell, cellsOf_ge (by omega)]
        · show _ ≤ max a.buf.cap n
          simp only [List.length_append, List.length_take, List.length_replicate]; omega
      · refine ⟨_, hres, g.mk' (by simp; omega) rfl rfl ?_ ?_ (maxCap_stack hr)⟩
        · apply cellsOf_eq
          · intro k hk
            simp only [List.length_append, List.length_take, List.length_replicate] at hk
            dsimp only [b1]
            rw [if_neg (by omega), if_neg (by omega), hcell, cellsOf_lt (by omega), List.getElem_append_left (by simp; omega)]
            simp
          · intro k hk
            simp only [List.length_append, List.length_take, List.length_replicate] at hk
            dsimp only [b1]
            rw [if_neg (by omega)]
            by_cases hkx : k < xs.length
            · rw [if_pos (by omega)]
            · rw [if_neg (by omega), hcell, cellsOf_ge (by omega)]
        · show _ ≤ max a.buf.cap n
          simp only [List.length_append, List.length_take, List.length_replicate]; omega
    · dsimp only [b1]; simp only [Buf.mk.injEq, true_and, and_true]; funext k; grind
    · intro k h1 h2
      dsimp only
      have hrd : Buf.read { b1 with cell := fun j => if xs.length ≤ j ∧ j < k then .live xs[i] else b1.cell j } i = .ok xs[i] := by
        unfold Buf.read
        rw [if_pos (show i < max a.buf.cap n by omega)]
        dsimp only [b1]
        rw [if_neg (by omega), if_neg (by omega), hcell, cellsOf_lt hi]
      rw [if_neg (by omega), hrd, bind_ok, arrayManipulation.construct_eq]
      · simp only [Except.ok.injEq, Buf.mk.injEq, true_and, and_true]; funext j; grind [upd]
      · show k < max a.buf.cap n; omega
      · dsimp only [b1]
        rw [if_neg (by omega), if_neg (by omega), hcell, cellsOf_ge (by omega)]
  · obtain ⟨m, hm⟩ : ∃ m, n - xs.length = m + 1 := ⟨n - xs.length - 1, by omega⟩
    rw [hm]
    unfold forUp
    simp only [if_pos hc]
    rfl
/-- The cases of `emplace` and both of `resizeDefault` occur. -/
example :
    let c : Cfg := { trivial := true, boundsCheck := true, debug := true }
    let ops : List (VecOp Nat) := [.reserve 8, .emplaceBack 10, .emplaceBack 20, .emplaceBack 30]
    aliasOutcome c ops (fun a => a.emplaceSelf c 2 1) = .ok [some 10, some 20, some 20, some 30] ∧
    aliasOutcome c ops (fun a => a.emplaceSelf c 1 1) = .ok [some 10, some 20, some 20, some 30] ∧
    aliasOutcome { c with trivial := false } ops (fun a => a.emplaceSelf { c with trivial := false } 1 1)
      = .error (.ub .rawRead) ∧
    aliasOutcome c ops (fun a => a.emplaceSelf c 1 2) = .ok [some 10, some 20, some 20, some 30] ∧
    aliasOutcome c (ops ++ [.resize 8]) (fun a => a.emplaceSelf c 1 2) = .error (.ub .dangling) ∧
    aliasOutcome c ops (fun a => a.resizeDefaultSelf c 5 1) = .ok [some 10, some 20, some 30, some 20, some 20] ∧
    aliasOutcome c ops (fun a => a.resizeDefaultSelf c 1 1) = .ok [some 10] ∧
    aliasOutcome c ops (fun a => a.resizeDefaultSelf c 9 1) = .error (.ub .dangling) := by decide +kernel

end LvArray.Props
