import Verif.Heap

/-!
# Programs over many containers: objects never share storage
-/

namespace LvArray.Heap

open Spec

variable {T : Type}

theorem ptrs_null (l : List (Store T)) : ptrs (l.map Slot.null) = [] := by
  induction l with
  | nil => rfl
  | cons s l ih => exact ih

theorem mem_ptrs {slot : Slot T} {p : Nat} : p ∈ ptrs [slot] ↔ slot = .at p := by
  cases slot <;> simp [ptrs, eq_comm]

theorem ptrs_cons (slot : Slot T) (slots : List (Slot T)) : ptrs (slot :: slots) = ptrs [slot] ++ ptrs slots := by
  cases slot <;> simp [ptrs]

theorem deref_congr {h h' : Heap T} {slot : Slot T} (H : ∀ p, slot = .at p → h'.cells p = h.cells p) :
    h'.deref slot = h.deref slot := by
  cases slot with
  | null s => rfl
  | «at» p => simp [Heap.deref, H p rfl]

theorem derefs_congr {h h' : Heap T} {slots : List (Slot T)} (H : ∀ p ∈ ptrs slots, h'.cells p = h.cells p) :
    h'.derefs slots = h.derefs slots := by
  induction slots with
  | nil => rfl
  | cons slot slots ih =>
    rw [ptrs_cons] at H
    rw [Heap.derefs, Heap.derefs, ih fun p hp => H p (List.mem_append_right _ hp),
      deref_congr fun p hp => H p (List.mem_append_left _ (mem_ptrs.2 hp))]

theorem derefs_null (h : Heap T) (l : List (Store T)) : h.derefs (l.map Slot.null) = .ok l := by
  induction l with
  | nil => rfl
  | cons s l ih => simp [Heap.derefs, Heap.deref, ih]

/-- What writing back one or more buffers does to the heap. -/
structure Puts (h h' : Heap T) (slots slots' : List (Slot T)) (stores : List (Store T)) : Prop where
  read : h'.derefs slots' = .ok stores
  frame : ∀ p, p < h.fresh → p ∉ ptrs slots → h'.cells p = h.cells p
  sub : ∀ p ∈ ptrs slots', p ∈ ptrs slots ∨ (h.fresh ≤ p ∧ p < h'.fresh)
  nodup : (ptrs slots').Nodup
  fresh : h.fresh ≤ h'.fresh
  leak : ∀ p, h'.cells p ≠ none → p ∈ ptrs slots' ∨ (h.cells p ≠ none ∧ p ∉ ptrs slots)

theorem putOne_spec (h : Heap T) (slot : Slot T) (s : Store T) :
    Puts h (h.putOne slot s).1 [slot] [(h.putOne slot s).2] [s] := by
  unfold Heap.putOne
  by_cases h0 : s.cap = 0
  · rw [if_pos h0]
    cases slot with
    | null t => exact ⟨rfl, fun _ _ _ => rfl, by simp [ptrs], by simp [ptrs], Nat.le_refl _, fun p hp => .inr ⟨hp, by simp [ptrs]⟩⟩
    | «at» p =>
      refine ⟨rfl, fun q _ hq => upd_ne _ _ ?_, by simp [ptrs], by simp [ptrs], Nat.le_refl _, fun q hq => .inr ?_⟩
      · simpa [ptrs] using hq
      · have hqp : q ≠ p := by rintro rfl; exact hq (upd_same _ _ _)
        exact ⟨by rw [← (upd_ne h.cells none hqp)]; exact hq, by simpa [ptrs] using hqp⟩
  · rw [if_neg h0]
    by_cases hc : h.capAt slot = s.cap
    · rw [if_pos hc]
      cases slot with
      | null t => exact absurd hc.symm h0
      | «at» p =>
        refine ⟨by simp [Heap.derefs, Heap.deref, upd], fun q _ hq => upd_ne _ _ (by simpa [ptrs] using hq),
          fun q hq => .inl hq, by simp [ptrs], Nat.le_refl _, fun q hq => ?_⟩
        by_cases hqp : q = p
        · exact .inl (by simp [ptrs, hqp])
        · exact .inr ⟨by rw [← (upd_ne h.cells (some s) hqp)]; exact hq, by simpa [ptrs] using hqp⟩
    · rw [if_neg hc]
      refine ⟨by simp [Heap.derefs, Heap.deref, upd], fun q hq hn => ?_, fun q hq => .inr ?_, by simp [ptrs], Nat.le_succ _,
        fun q hq => ?_⟩
      · have : q ≠ h.fresh := by omega
        refine (upd_ne _ _ this).trans ?_
        cases slot with
        | null t => rfl
        | «at» p => exact upd_ne _ _ (by simpa [ptrs] using hn)
      · simp [ptrs] at hq
        simp; omega
      · by_cases hqf : q = h.fresh
        · exact .inl (by simp [ptrs, hqf])
        · have hq : (h.free slot).cells q ≠ none := by rw [← (upd_ne (h.free slot).cells (some s) hqf)]; exact hq
          cases slot with
          | null t => exact .inr ⟨hq, by simp [ptrs]⟩
          | «at» p =>
            have hqp : q ≠ p := by rintro rfl; exact hq (upd_same _ _ _)
            exact .inr ⟨by rw [← (upd_ne h.cells none hqp)]; exact hq, by simpa [ptrs] using hqp⟩

/-- Two writes after each other. -/
theorem Puts.cons {h h1 h2 : Heap T} {slot slot' : Slot T} {slots slots' : List (Slot T)} {s : Store T} {ss : List (Store T)}
    (a : Puts h h1 [slot] [slot'] [s]) (b : Puts h1 h2 slots slots' ss) (hn : (ptrs (slot :: slots)).Nodup)
    (hf : ∀ p ∈ ptrs (slot :: slots), p < h.fresh) : Puts h h2 (slot :: slots) (slot' :: slots') (s :: ss) := by
  rw [ptrs_cons] at hn hf
  have hdis : ∀ p ∈ ptrs [slot], p ∉ ptrs slots := fun p h1 h2 => (List.nodup_append.1 hn).2.2 p h1 p h2 rfl
  have hs' : ∀ p ∈ ptrs [slot'], p < h1.fresh ∧ p ∉ ptrs slots := by
    intro p hp
    rcases a.sub p hp with h3 | ⟨h3, h4⟩
    · exact ⟨Nat.lt_of_lt_of_le (hf p (List.mem_append_left _ h3)) a.fresh, hdis p h3⟩
    · exact ⟨h4, fun h5 => by have := hf p (List.mem_append_right _ h5); omega⟩
  have hread : h2.deref slot' = .ok s := by
    rw [deref_congr (h := h1) fun p hp => b.frame p (hs' p (mem_ptrs.2 hp)).1 (hs' p (mem_ptrs.2 hp)).2]
    have := a.read
    rw [Heap.derefs] at this
    obtain ⟨x, h3, h4⟩ := bind_eq_ok.1 this
    rw [h3]
    simp only [Heap.derefs, bind_ok, Except.ok.injEq, List.cons.injEq, and_true] at h4
    rw [h4]
  refine ⟨by rw [Heap.derefs, hread, bind_ok, b.read, bind_ok], fun p hp hn => ?_, fun p hp => ?_, ?_,
    Nat.le_trans a.fresh b.fresh, fun p hp => ?_⟩
  · rw [ptrs_cons, List.mem_append, not_or] at hn
    rw [b.frame p (Nat.lt_of_lt_of_le hp a.fresh) hn.2, a.frame p hp hn.1]
  · rw [ptrs_cons, List.mem_append] at hp
    rw [ptrs_cons, List.mem_append]
    have h1 := a.fresh
    have h2 := b.fresh
    rcases hp with hp | hp
    · rcases a.sub p hp with h | h
      · exact .inl (.inl h)
      · exact .inr (by omega)
    · rcases b.sub p hp with h | h
      · exact .inl (.inr h)
      · exact .inr (by omega)
  · rw [ptrs_cons, List.nodup_append]
    refine ⟨a.nodup, b.nodup, fun p h3 q h4 e => ?_⟩
    subst e
    rcases b.sub p h4 with h5 | ⟨h5, -⟩
    · exact (hs' p h3).2 h5
    · have := (hs' p h3).1; omega
  · rw [ptrs_cons slot' slots', ptrs_cons slot slots, List.mem_append, List.mem_append, not_or]
    rcases b.leak p hp with h3 | ⟨h3, h4⟩
    · exact .inl (.inr h3)
    · rcases a.leak p h3 with h5 | ⟨h5, h6⟩
      · exact .inl (.inl h5)
      · exact .inr ⟨h5, h6, h4⟩

theorem put_spec (stores : List (Store T)) : ∀ (h : Heap T) (slots : List (Slot T)), slots.length ≤ stores.length →
    (ptrs slots).Nodup → (∀ p ∈ ptrs slots, p < h.fresh) →
    Puts h (h.put slots stores).1 slots (h.put slots stores).2 stores := by
  induction stores with
  | nil =>
    intro h slots hl _ _
    have : slots = [] := by simpa using hl
    subst this
    exact ⟨rfl, fun _ _ _ => rfl, by simp [Heap.put, ptrs], by simp [Heap.put, ptrs], Nat.le_refl _,
      fun p hp => .inr ⟨hp, by simp [ptrs]⟩⟩
  | cons s ss ih =>
    intro h slots hl hn hf
    cases slots with
    | nil =>
      have a := putOne_spec h (.null s) s
      have b := ih (h.putOne (.null s) s).1 [] (by simp) (by simp [ptrs]) (by simp [ptrs])
      have := a.cons b (by simp [ptrs]) (by simp [ptrs])
      refine ⟨this.read, fun p hp _ => this.frame p hp (by simp [ptrs]), fun p hp => .inr ?_, this.nodup, this.fresh,
        fun p hp => ?_⟩
      · rcases this.sub p hp with h1 | h1
        · simp [ptrs] at h1
        · exact h1
      · rcases this.leak p hp with h1 | h1
        · exact .inl h1
        · exact .inr ⟨h1.1, by simp [ptrs]⟩
    | cons slot slots =>
      have a := putOne_spec h slot s
      have b := ih (h.putOne slot s).1 slots (by simpa using hl)
        (by rw [ptrs_cons] at hn; exact (List.nodup_append.1 hn).2.1)
        (fun p hp => Nat.lt_of_lt_of_le (hf p (by rw [ptrs_cons]; exact List.mem_append_right _ hp)) a.fresh)
      exact a.cons b hn hf

/-- Buffers without capacity need no allocation. -/
theorem put_zero (stores : List (Store T)) (hz : ∀ s ∈ stores, s.cap = 0) : ∀ (h : Heap T) (slots : List (Slot T)),
    ptrs (h.put slots stores).2 = [] := by
  induction stores with
  | nil => intro h slots; cases slots <;> rfl
  | cons s ss ih =>
    intro h slots
    have ih := ih (fun t ht => hz t (List.mem_cons_of_mem _ ht))
    have h1 : ∀ slot, (h.putOne slot s).2 = .null s := fun slot => by
      unfold Heap.putOne; rw [if_pos (hz s (List.mem_cons_self ..))]
    cases slots with
    | nil => simp only [Heap.put, h1]; exact ih _ _
    | cons slot slots => simp only [Heap.put, h1]; exact ih _ _

variable {Args Op Out : Type} {K : Class T Args Op Out}

/-- The single object model of `K` refines `A`: `Rel` relates objects to values, `Weak` holds of every object that may still
be moved or destroyed, `Spent` of every object that may also be assigned to. -/
structure Refines (c : Cfg) (K : Class T Args Op Out) (A : Values Args Op Out) (Rel : K.Obj → A.S → Prop) (Weak Spent : K.Obj → Prop) :
    Prop where
  join : ∀ o, K.join (K.fields o) (K.buffers o) = o
  count : ∀ o o', (K.buffers o).length = (K.buffers o').length
  weak : ∀ {o s}, Rel o s → Weak o
  spent : ∀ {o}, Spent o → Weak o
  construct : ∀ {args s}, A.construct args = some s → ∃ o, K.construct c args = .ok o ∧ Rel o s
  call : ∀ {o s op s' out}, Rel o s → A.call s op = some (s', out) → ∃ o', K.call c o op = .ok (o', out) ∧ Rel o' s'
  copyNew : ∀ {o s}, Rel o s → ∃ o', K.copyAssign c K.blank o = .ok o' ∧ Rel o' s
  copyOver : ∀ {o d src s}, Rel o d → Rel src s → A.overwrite d s = true → ∃ o', K.copyAssign c o src = .ok o' ∧ Rel o' s
  copySpent : ∀ {o src s}, Spent o → Rel src s → ∃ o', K.copyAssign c o src = .ok o' ∧ Rel o' s
  selfCopy : ∀ {o s}, Rel o s → A.selfCopy = true → ∃ o', K.selfAssign c o = .ok o' ∧ Rel o' s
  moved : ∀ {o} (b), Weak o → Spent (K.movedFrom b o) ∧ ∀ s, A.afterMove = some s → Rel (K.movedFrom b o) s
  beforeMove : ∀ {o}, Weak o → ∃ o', K.beforeMove c o = .ok o' ∧ Spent o'
  dtor : ∀ {o}, Weak o → ∃ o', K.dtor c o = .ok o' ∧ Spent o' ∧ ∀ s ∈ K.buffers o', s.cap = 0

/-- What a variable's object must be. -/
def HeldBy {A : Values Args Op Out} (Rel : K.Obj → A.S → Prop) (Spent : K.Obj → Prop) (o : K.Obj) : Held A.S → Prop
  | .value s => Rel o s
  | .moved => Spent o

/-- The heap realises the variables and nothing is shared. -/
structure Inv {A : Values Args Op Out} (Rel : K.Obj → A.S → Prop) (Spent : K.Obj → Prop) (w : World K) (vars : Vars A) : Prop where
  undecl : ∀ x, vars x = none → w.vars x = none
  decl : ∀ x st, vars x = some st → ∃ h o, w.vars x = some h ∧ w.load h = .ok o ∧ HeldBy Rel Spent o st
  count : ∀ x h, w.vars x = some h → h.slots.length = (K.buffers K.blank).length
  nodup : ∀ x h, w.vars x = some h → (ptrs h.slots).Nodup
  sep : ∀ x y hx hy p, w.vars x = some hx → w.vars y = some hy → p ∈ ptrs hx.slots → p ∈ ptrs hy.slots → x = y
  fresh : ∀ x h p, w.vars x = some h → p ∈ ptrs h.slots → p < w.heap.fresh

theorem put_length (stores : List (Store T)) : ∀ (h : Heap T) (slots : List (Slot T)), (h.put slots stores).2.length = stores.length := by
  induction stores with
  | nil => intro h slots; cases slots <;> rfl
  | cons s ss ih => intro h slots; cases slots <;> simp [Heap.put, ih]

theorem load_congr {w w' : World K} {h : Handle K} (H : ∀ p ∈ ptrs h.slots, w'.heap.cells p = w.heap.cells p) :
    w'.load h = w.load h := by
  unfold World.load; rw [derefs_congr H]

namespace Inv

variable {c : Cfg} {A : Values Args Op Out} {Rel : K.Obj → A.S → Prop} {Weak Spent : K.Obj → Prop} {w : World K} {vars : Vars A}

/-- The pointers that may be written back to `x`: those it has, or none. -/
def Mine (w : World K) (x : Nat) (slots : List (Slot T)) : Prop := slots = [] ∨ ∃ h, w.vars x = some h ∧ slots = h.slots

theorem puts (hR : Refines c K A Rel Weak Spent) (I : Inv Rel Spent w vars) {x : Nat} {slots : List (Slot T)} (hm : Mine w x slots) (o : K.Obj) :
    Puts w.heap (w.heap.put slots (K.buffers o)).1 slots (w.heap.put slots (K.buffers o)).2 (K.buffers o) := by
  apply put_spec
  · rcases hm with rfl | ⟨h, h1, rfl⟩
    · simp
    · rw [I.count x h h1, hR.count o K.blank]; exact Nat.le_refl _
  · rcases hm with rfl | ⟨h, h1, rfl⟩
    · simp [ptrs]
    · exact I.nodup x h h1
  · rcases hm with rfl | ⟨h, h1, rfl⟩
    · simp [ptrs]
    · exact fun p hp => I.fresh x h p h1 hp

theorem mine_sep (I : Inv Rel Spent w vars) {x : Nat} {slots : List (Slot T)} (hm : Mine w x slots) {y : Nat} {hy : Handle K} {p : Nat}
    (h1 : w.vars y = some hy) (h2 : p ∈ ptrs hy.slots) (h3 : p ∈ ptrs slots) : y = x := by
  rcases hm with rfl | ⟨h, h4, rfl⟩
  · simp [ptrs] at h3
  · exact I.sep y x hy h p h1 h4 h2 h3

/-- Writing an object to `x` changes no other variable. -/
theorem store (hR : Refines c K A Rel Weak Spent) (I : Inv Rel Spent w vars) {x : Nat} {slots : List (Slot T)} (hm : Mine w x slots) {o : K.Obj}
    {st : Held A.S} (ho : HeldBy Rel Spent o st) : Inv Rel Spent (w.store x slots o) (upd vars x (some st)) := by
  have P := I.puts hR hm o
  have hx : (w.store x slots o).vars x = some { fields := K.fields o, slots := (w.heap.put slots (K.buffers o)).2 } := upd_same _ _ _
  have hy : ∀ y, y ≠ x → (w.store x slots o).vars y = w.vars y := fun y h => upd_ne _ _ h
  refine ⟨fun y h => ?_, fun y st' h => ?_, fun y h e => ?_, fun y h e => ?_, fun y z h1 h2 p e1 e2 p1 p2 => ?_, fun y h p e hp => ?_⟩
  · have hyx : y ≠ x := by rintro rfl; rw [upd_same] at h; cases h
    rw [upd_ne _ _ hyx] at h
    rw [hy y hyx]; exact I.undecl y h
  · by_cases hyx : y = x
    · subst hyx
      rw [upd_same] at h; cases h
      refine ⟨_, o, hx, ?_, ho⟩
      unfold World.load
      have : (w.store y slots o).heap.derefs (w.heap.put slots (K.buffers o)).2 = .ok (K.buffers o) := P.read
      simp only [this, bind_ok, hR.join]
    · rw [upd_ne _ _ hyx] at h
      obtain ⟨h1, o1, e1, e2, e3⟩ := I.decl y st' h
      refine ⟨h1, o1, by rw [hy y hyx, e1], ?_, e3⟩
      rw [load_congr fun p hp => P.frame p (I.fresh y h1 p e1 hp) fun hc => hyx (I.mine_sep hm e1 hp hc)]
      exact e2
  · by_cases hyx : y = x
    · subst hyx
      rw [hx] at e; cases e
      rw [put_length, hR.count o K.blank]
    · rw [hy y hyx] at e; exact I.count y h e
  · by_cases hyx : y = x
    · subst hyx
      rw [hx] at e; cases e
      exact P.nodup
    · rw [hy y hyx] at e; exact I.nodup y h e
  · by_cases hyx : y = x <;> by_cases hzx : z = x
    · omega
    · subst hyx
      rw [hx] at e1; cases e1
      rw [hy z hzx] at e2
      rcases P.sub p p1 with h | ⟨h, -⟩
      · exact (I.mine_sep hm e2 p2 h).symm
      · have := I.fresh z h2 p e2 p2; omega
    · subst hzx
      rw [hx] at e2; cases e2
      rw [hy y hyx] at e1
      rcases P.sub p p2 with h | ⟨h, -⟩
      · exact I.mine_sep hm e1 p1 h
      · have := I.fresh y h1 p e1 p1; omega
    · rw [hy y hyx] at e1; rw [hy z hzx] at e2
      exact I.sep y z h1 h2 p e1 e2 p1 p2
  · have hfr : w.heap.fresh ≤ (w.store x slots o).heap.fresh := P.fresh
    by_cases hyx : y = x
    · subst hyx
      rw [hx] at e; cases e
      rcases P.sub p hp with h | ⟨-, h⟩
      · rcases hm with rfl | ⟨h', h4, rfl⟩
        · simp [ptrs] at h
        · have := I.fresh y h' p h4 h; omega
      · exact h
    · rw [hy y hyx] at e
      have := I.fresh y h p e hp; omega

/-- The new owner gets the pointers, the old one keeps none. -/
theorem transfer (hR : Refines c K A Rel Weak Spent) (I : Inv Rel Spent w vars) {b : Bool} {x y : Nat} (hxy : x ≠ y) {hy : Handle K} {oy : K.Obj}
    {st : Held A.S} (e1 : w.vars y = some hy) (e2 : w.load hy = .ok oy) (e3 : HeldBy Rel Spent oy st) :
    Inv Rel Spent (w.transfer b x y hy oy) (upd (upd vars x (some st)) y (some A.left)) := by
  have hw : Weak oy := by
    cases st with
    | value s => exact hR.weak e3
    | moved => exact hR.spent e3
  have hleft : HeldBy Rel Spent (K.movedFrom b oy) A.left := by
    unfold Values.left
    cases ha : A.afterMove with
    | none => exact (hR.moved b hw).1
    | some s => exact (hR.moved b hw).2 s ha
  let left : Handle K := { fields := K.fields (K.movedFrom b oy), slots := (K.buffers (K.movedFrom b oy)).map .null }
  have hl : ptrs left.slots = [] := ptrs_null _
  have vy : (w.transfer b x y hy oy).vars y = some left := upd_same _ _ _
  have vx : (w.transfer b x y hy oy).vars x = some hy := (upd_ne _ _ hxy).trans (upd_same _ _ _)
  have vz : ∀ z, z ≠ x → z ≠ y → (w.transfer b x y hy oy).vars z = w.vars z := fun z h1 h2 => (upd_ne _ _ h2).trans (upd_ne _ _ h1)
  have key : ∀ z hz, (w.transfer b x y hy oy).vars z = some hz →
      (z = y ∧ hz = left) ∨ (z = x ∧ hz = hy) ∨ (z ≠ x ∧ z ≠ y ∧ w.vars z = some hz) := by
    intro z hz e
    by_cases h1 : z = y
    · subst h1; rw [vy] at e; cases e; exact .inl ⟨rfl, rfl⟩
    · by_cases h2 : z = x
      · subst h2; rw [vx] at e; cases e; exact .inr (.inl ⟨rfl, rfl⟩)
      · rw [vz z h2 h1] at e; exact .inr (.inr ⟨h2, h1, e⟩)
  refine ⟨fun z h => ?_, fun z st' h => ?_, fun z h e => ?_, fun z h e => ?_, fun z1 z2 h1 h2 p q1 q2 p1 p2 => ?_, fun z h p e hp => ?_⟩
  · have h1 : z ≠ y := by rintro rfl; rw [upd_same] at h; cases h
    rw [upd_ne _ _ h1] at h
    have h2 : z ≠ x := by rintro rfl; rw [upd_same] at h; cases h
    rw [upd_ne _ _ h2] at h
    rw [vz z h2 h1]; exact I.undecl z h
  · by_cases h1 : z = y
    · subst h1
      rw [upd_same] at h; cases h
      refine ⟨_, K.movedFrom b oy, vy, ?_, hleft⟩
      show (w.heap.derefs left.slots >>= fun bs => _) = _
      rw [derefs_null, bind_ok]
      show Except.ok (K.join left.fields _) = _
      rw [hR.join]
    · rw [upd_ne _ _ h1] at h
      by_cases h2 : z = x
      · subst h2
        rw [upd_same] at h; cases h
        exact ⟨hy, oy, vx, e2, e3⟩
      · rw [upd_ne _ _ h2] at h
        obtain ⟨hz, o, q1, q2, q3⟩ := I.decl z st' h
        exact ⟨hz, o, by rw [vz z h2 h1, q1], q2, q3⟩
  · rcases key z h e with ⟨-, rfl⟩ | ⟨-, rfl⟩ | ⟨-, -, h3⟩
    · show (List.map _ _).length = _
      rw [List.length_map, hR.count _ K.blank]
    · exact I.count y _ e1
    · exact I.count z h h3
  · rcases key z h e with ⟨-, rfl⟩ | ⟨-, rfl⟩ | ⟨-, -, h3⟩
    · rw [hl]; exact List.nodup_nil
    · exact I.nodup y _ e1
    · exact I.nodup z h h3
  · rcases key z1 h1 q1 with ⟨-, rfl⟩ | ⟨rfl, rfl⟩ | ⟨a1, b1, d1⟩
    · rw [hl] at p1; cases p1
    · rcases key z2 h2 q2 with ⟨-, rfl⟩ | ⟨rfl, rfl⟩ | ⟨a2, b2, d2⟩
      · rw [hl] at p2; cases p2
      · rfl
      · exact absurd (I.sep z2 y h2 h1 p d2 e1 p2 p1) b2
    · rcases key z2 h2 q2 with ⟨-, rfl⟩ | ⟨rfl, rfl⟩ | ⟨a2, b2, d2⟩
      · rw [hl] at p2; cases p2
      · exact absurd (I.sep z1 y h1 h2 p d1 e1 p1 p2) b1
      · exact I.sep z1 z2 h1 h2 p d1 d2 p1 p2
  · rcases key z h e with ⟨-, rfl⟩ | ⟨-, rfl⟩ | ⟨-, -, h3⟩
    · rw [hl] at hp; cases hp
    · exact I.fresh y _ p e1 hp
    · exact I.fresh z h p h3 hp

/-- Forgetting a variable. -/
theorem forget (I : Inv Rel Spent w vars) (x : Nat) : Inv Rel Spent { w with vars := upd w.vars x none } (upd vars x none) := by
  have hv : ∀ y h, upd w.vars x none y = some h → y ≠ x ∧ w.vars y = some h := by
    intro y h e
    by_cases hyx : y = x
    · subst hyx; rw [upd_same] at e; cases e
    · rw [upd_ne _ _ hyx] at e; exact ⟨hyx, e⟩
  refine ⟨fun y h => ?_, fun y st h => ?_, fun y h e => I.count y h (hv y h e).2, fun y h e => I.nodup y h (hv y h e).2,
    fun y z h1 h2 p e1 e2 => I.sep y z h1 h2 p (hv y h1 e1).2 (hv z h2 e2).2, fun y h p e => I.fresh y h p (hv y h e).2⟩
  · by_cases hyx : y = x
    · subst hyx; exact upd_same _ _ _
    · rw [upd_ne _ _ hyx] at h
      exact (upd_ne w.vars _ hyx).trans (I.undecl y h)
  · have hyx : y ≠ x := by rintro rfl; rw [upd_same] at h; cases h
    rw [upd_ne _ _ hyx] at h
    obtain ⟨h1, o, e1, e2, e3⟩ := I.decl y st h
    exact ⟨h1, o, (upd_ne w.vars _ hyx).trans e1, e2, e3⟩

theorem held_weak (hR : Refines c K A Rel Weak Spent) {o : K.Obj} {st : Held A.S} (h : HeldBy Rel Spent o st) : Weak o := by
  cases st with
  | value s => exact hR.weak h
  | moved => exact hR.spent h

theorem valueOf_some {vars : Vars A} {x : Nat} {s : A.S} (h : valueOf vars x = some s) : vars x = some (.value s) := by
  unfold valueOf at h
  split at h
  · rename_i s' e; cases h; exact e
  · cases h

theorem mine (e : w.vars x = some h) : Mine w x h.slots := .inr ⟨h, e, rfl⟩

theorem step (hR : Refines c K A Rel Weak Spent) (I : Inv Rel Spent w vars) (st : Stmt Args Op) {vars' : Vars A} {out : Option Out}
    (hs : stmtStep A vars st = some (vars', out)) : ∃ w', w.step c st = .ok (w', out) ∧ Inv Rel Spent w' vars' := by
  have hvar : ∀ {x h}, w.vars x = some h → w.var x = .ok h := fun e => by simp [World.var, e]
  have hund : ∀ {x}, ¬ (vars x).isSome = true → w.undeclared x = .ok () := fun {x} e => by
    have : vars x = none := by simpa using e
    simp [World.undeclared, I.undecl x this]
  cases st with
  | new x args =>
    simp only [stmtStep, Option.ite_none_left_eq_some, Option.map_eq_some_iff] at hs
    obtain ⟨hx, s, h1, h2⟩ := hs
    cases h2
    obtain ⟨o, h2, h3⟩ := hR.construct h1
    exact ⟨_, by simp [World.step, hund hx, h2], I.store hR (.inl rfl) (st := .value s) h3⟩
  | call x op =>
    simp only [stmtStep, Option.bind_eq_some_iff, Option.map_eq_some_iff] at hs
    obtain ⟨s, hx, r, h1, h2⟩ := hs
    cases h2
    obtain ⟨h, o, e1, e2, e3⟩ := I.decl x _ (valueOf_some hx)
    obtain ⟨o', h2, h3⟩ := hR.call (s' := r.1) (out := r.2) e3 h1
    exact ⟨_, by simp [World.step, hvar e1, e2, h2], I.store hR (mine e1) (st := .value r.1) h3⟩
  | copyNew x y =>
    simp only [stmtStep, Option.ite_none_left_eq_some, Option.map_eq_some_iff] at hs
    obtain ⟨hx, s, h1, h2⟩ := hs
    cases h2
    obtain ⟨h, o, e1, e2, e3⟩ := I.decl y _ (valueOf_some h1)
    obtain ⟨o', h2, h3⟩ := hR.copyNew e3
    exact ⟨_, by simp [World.step, hund hx, hvar e1, e2, h2], I.store hR (.inl rfl) (st := .value s) h3⟩
  | copy x y =>
    simp only [stmtStep] at hs
    split at hs
    · rename_i hxy
      subst hxy
      simp only [Option.ite_none_right_eq_some, Option.map_eq_some_iff] at hs
      obtain ⟨hc, s, h1, h2⟩ := hs
      cases h2
      obtain ⟨h, o, e1, e2, e3⟩ := I.decl x _ (valueOf_some h1)
      obtain ⟨o', h2, h3⟩ := hR.selfCopy e3 hc
      have := I.store hR (mine e1) (st := .value s) h3
      rw [show upd vars x (some (.value s)) = vars from by
        funext z; by_cases hz : z = x
        · subst hz; rw [upd_same]; exact (valueOf_some h1).symm
        · exact upd_ne _ _ hz] at this
      exact ⟨_, by simp [World.step, hvar e1, e2, h2], this⟩
    · rename_i hxy
      simp only [Option.bind_eq_some_iff, Option.ite_none_right_eq_some] at hs
      obtain ⟨d, hx, s, h1, hc, h2⟩ := hs
      cases h2
      obtain ⟨h, o, e1, e2, e3⟩ := I.decl x _ hx
      obtain ⟨hy, oy, q1, q2, q3⟩ := I.decl y _ (valueOf_some h1)
      obtain ⟨o', h2, h3⟩ : ∃ o', K.copyAssign c o oy = .ok o' ∧ Rel o' s := by
        cases d with
        | value d => exact hR.copyOver e3 q3 hc
        | moved => exact hR.copySpent e3 q3
      exact ⟨_, by simp [World.step, hvar e1, e2, hxy, hvar q1, q2, h2], I.store hR (mine e1) (st := .value s) h3⟩
  | moveNew x y =>
    simp only [stmtStep, Option.ite_none_left_eq_some, Option.map_eq_some_iff] at hs
    obtain ⟨hx, s, h1, h2⟩ := hs
    cases h2
    obtain ⟨hy, oy, q1, q2, q3⟩ := I.decl y _ h1
    have hxy : x ≠ y := by rintro rfl; simp [h1] at hx
    exact ⟨_, by simp [World.step, hund hx, hvar q1, q2], I.transfer hR (b := false) hxy q1 q2 q3⟩
  | moveTo x y =>
    simp only [stmtStep, Option.ite_none_left_eq_some, Option.bind_eq_some_iff, Option.map_eq_some_iff] at hs
    obtain ⟨hxy, d, hx, s, h1, h2⟩ := hs
    cases h2
    obtain ⟨h, o, e1, e2, e3⟩ := I.decl x _ hx
    obtain ⟨o', h2, h3⟩ := hR.beforeMove (held_weak hR e3)
    have I1 := I.store hR (mine e1) (st := .moved) h3
    have hyx : y ≠ x := fun e => hxy e.symm
    obtain ⟨hy, oy, q1, q2, q3⟩ := I1.decl y s (by rw [upd_ne _ _ hyx]; exact h1)
    have I2 := I1.transfer hR (b := true) hxy q1 q2 q3
    rw [show upd (upd (upd vars x (some .moved)) x (some s)) y (some A.left) = upd (upd vars x (some s)) y (some A.left) from by
      funext z; unfold upd; split <;> simp_all] at I2
    have hv : (w.store x h.slots o').var y = .ok hy := by simp [World.var, q1]
    exact ⟨_, by simp [World.step, hvar e1, e2, h2, hv, q2], I2⟩
  | del x =>
    simp only [stmtStep, Option.map_eq_some_iff] at hs
    obtain ⟨d, hx, h2⟩ := hs
    cases h2
    obtain ⟨h, o, e1, e2, e3⟩ := I.decl x _ hx
    obtain ⟨o', h2, h3, -⟩ := hR.dtor (held_weak hR e3)
    have I1 := (I.store hR (mine e1) (st := .moved) h3).forget x
    rw [show upd (upd vars x (some .moved)) x none = upd vars x none from by
      funext z; unfold upd; split <;> rfl] at I1
    exact ⟨_, by simp [World.step, hvar e1, e2, h2], I1⟩

theorem run (hR : Refines c K A Rel Weak Spent) (prog : List (Stmt Args Op)) : ∀ {w : World K} {vars vars' : Vars A} {outs : List (Option Out)},
    Inv Rel Spent w vars → stmtRun A vars prog = some (vars', outs) → ∃ w', w.run c prog = .ok (w', outs) ∧ Inv Rel Spent w' vars' := by
  induction prog with
  | nil => intro w vars vars' outs I hs; cases hs; exact ⟨w, rfl, I⟩
  | cons st prog ih =>
    intro w vars vars' outs I hs
    simp only [stmtRun, Option.bind_eq_some_iff, Option.map_eq_some_iff] at hs
    obtain ⟨r, h1, q, h2, h3⟩ := hs
    cases h3
    obtain ⟨w1, e1, I1⟩ := I.step hR st (vars' := r.1) (out := r.2) h1
    obtain ⟨w2, e2, I2⟩ := ih (vars' := q.1) (outs := q.2) I1 h2
    exact ⟨w2, by simp [World.run, e1, e2], I2⟩

theorem empty : Inv (K := K) (A := A) Rel Spent World.empty (fun _ => none) :=
  ⟨fun _ _ => rfl, (fun _ _ h => by cases h), (fun _ _ h => by cases h), (fun _ _ h => by cases h), (fun _ _ _ _ _ h => by cases h),
    (fun _ _ _ h => by cases h)⟩

/-! ## Nothing is leaked -/

/-- Every allocation belongs to a variable. -/
def NoLeak (w : World K) : Prop := ∀ p, ¬ w.leaked p

theorem noLeak_owner {w : World K} (h : NoLeak w) {p : Nat} (hp : w.heap.cells p ≠ none) : ∃ x h, w.vars x = some h ∧ p ∈ ptrs h.slots := by
  refine Classical.byContradiction fun hn => h p ⟨hp, fun x hx e hm => hn ⟨x, hx, e, hm⟩⟩

theorem store_noLeak (hR : Refines c K A Rel Weak Spent) (I : Inv Rel Spent w vars) (hl : NoLeak w) {x : Nat} {slots : List (Slot T)}
    (hm : (slots = [] ∧ w.vars x = none) ∨ ∃ h, w.vars x = some h ∧ slots = h.slots) (o : K.Obj) : NoLeak (w.store x slots o) := by
  have hm' : Mine w x slots := by
    rcases hm with ⟨h, -⟩ | h
    · exact .inl h
    · exact .inr h
  have P := I.puts hR hm' o
  rintro p ⟨hp, hn⟩
  rcases P.leak p hp with h1 | ⟨h1, h2⟩
  · exact hn x _ (upd_same _ _ _) h1
  · obtain ⟨y, hy, e1, e2⟩ := noLeak_owner hl h1
    by_cases hyx : y = x
    · subst hyx
      rcases hm with ⟨-, h3⟩ | ⟨h, h3, rfl⟩
      · rw [e1] at h3; cases h3
      · rw [e1] at h3; cases h3; exact h2 e2
    · exact hn y hy ((upd_ne _ _ hyx).trans e1) e2

theorem transfer_noLeak (hl : NoLeak w) {b : Bool} {x y : Nat} (hxy : x ≠ y) {hy : Handle K} {oy : K.Obj} (e : w.vars y = some hy)
    (hx : ∀ h, w.vars x = some h → ptrs h.slots = []) : NoLeak (w.transfer b x y hy oy) := by
  rintro p ⟨hp, hn⟩
  obtain ⟨z, hz, e1, e2⟩ := noLeak_owner hl hp
  by_cases h1 : z = y
  · subst h1
    rw [e] at e1; cases e1
    exact hn x _ ((upd_ne _ _ hxy).trans (upd_same _ _ _)) e2
  · by_cases h2 : z = x
    · subst h2
      rw [hx hz e1] at e2; cases e2
    · exact hn z hz ((upd_ne _ _ h1).trans ((upd_ne _ _ h2).trans e1)) e2

theorem forget_noLeak (hl : NoLeak w) {x : Nat} (hx : ∀ h, w.vars x = some h → ptrs h.slots = []) :
    NoLeak { w with vars := upd w.vars x none } := by
  rintro p ⟨hp, hn⟩
  obtain ⟨z, hz, e1, e2⟩ := noLeak_owner hl hp
  by_cases h2 : z = x
  · subst h2
    rw [hx hz e1] at e2; cases e2
  · exact hn z hz ((upd_ne w.vars _ h2).trans e1) e2

theorem store_zero {x : Nat} {slots : List (Slot T)} {o : K.Obj} (hz : ∀ s ∈ K.buffers o, s.cap = 0) :
    ∀ h, (w.store x slots o).vars x = some h → ptrs h.slots = [] := by
  intro h e
  have : (w.store x slots o).vars x = some { fields := K.fields o, slots := (w.heap.put slots (K.buffers o)).2 } := upd_same _ _ _
  rw [this] at e; cases e
  exact put_zero _ hz _ _

/-- Move assignment releases the storage of the destination. -/
def Releases (c : Cfg) (K : Class T Args Op Out) (Weak : K.Obj → Prop) : Prop :=
  ∀ o o', Weak o → K.beforeMove c o = .ok o' → ∀ s ∈ K.buffers o', s.cap = 0

theorem var_ok {x : Nat} {h : Handle K} (e : w.var x = .ok h) : w.vars x = some h := by
  unfold World.var at e
  split at e
  · rename_i h' e'; cases e; exact e'
  · cases e

theorem undeclared_ok {x : Nat} {u : Unit} (e : w.undeclared x = .ok u) : w.vars x = none := by
  unfold World.undeclared at e
  split at e
  · cases e
  · rename_i e'; exact e'

theorem step_noLeak (hR : Refines c K A Rel Weak Spent) (I : Inv Rel Spent w vars) (hl : NoLeak w) (st : Stmt Args Op)
    (hf : (∀ x y, st ≠ .moveTo x y) ∨ Releases c K Weak) {vars' : Vars A} {out out' : Option Out}
    (hs : stmtStep A vars st = some (vars', out)) {w' : World K} (hw : w.step c st = .ok (w', out')) : NoLeak w' := by
  cases st with
  | new x args =>
    simp only [World.step, bind_eq_ok] at hw
    obtain ⟨_, h1, o, _, h3⟩ := hw
    cases h3
    exact store_noLeak hR I hl (.inl ⟨rfl, undeclared_ok h1⟩) o
  | call x op =>
    simp only [World.step, bind_eq_ok] at hw
    obtain ⟨h, h1, o, _, r, _, h3⟩ := hw
    cases h3
    exact store_noLeak hR I hl (.inr ⟨h, var_ok h1, rfl⟩) _
  | copyNew x y =>
    simp only [World.step, bind_eq_ok] at hw
    obtain ⟨_, h1, _, _, _, _, o, _, h3⟩ := hw
    cases h3
    exact store_noLeak hR I hl (.inl ⟨rfl, undeclared_ok h1⟩) o
  | copy x y =>
    simp only [World.step, bind_eq_ok] at hw
    obtain ⟨h, h1, o, _, hw⟩ := hw
    split at hw
    · simp only [bind_eq_ok] at hw
      obtain ⟨o', _, h3⟩ := hw
      cases h3
      exact store_noLeak hR I hl (.inr ⟨h, var_ok h1, rfl⟩) _
    · simp only [bind_eq_ok] at hw
      obtain ⟨_, _, _, _, o', _, h3⟩ := hw
      cases h3
      exact store_noLeak hR I hl (.inr ⟨h, var_ok h1, rfl⟩) _
  | moveNew x y =>
    simp only [World.step, bind_eq_ok] at hw
    obtain ⟨_, h1, hy, h2, oy, _, h3⟩ := hw
    cases h3
    have hx := undeclared_ok h1
    have hy' := var_ok h2
    refine transfer_noLeak hl ?_ hy' fun h e => by rw [hx] at e; cases e
    rintro rfl
    rw [hx] at hy'; cases hy'
  | moveTo x y =>
    simp only [World.step, bind_eq_ok] at hw
    obtain ⟨h, h1, o, h2, o', h3, hy, h4, oy, h5, h6⟩ := hw
    cases h6
    simp only [stmtStep, Option.ite_none_left_eq_some, Option.bind_eq_some_iff, Option.map_eq_some_iff] at hs
    obtain ⟨hxy, d, hx, -⟩ := hs
    obtain ⟨h', o1, e1, e2, e3⟩ := I.decl x _ hx
    rw [var_ok h1] at e1; cases e1
    rw [h2] at e2; cases e2
    rcases hf with hf | hf
    · exact absurd rfl (hf x y)
    · exact transfer_noLeak (store_noLeak hR I hl (.inr ⟨h, var_ok h1, rfl⟩) _) hxy (var_ok h4)
        (store_zero (hf o o' (held_weak hR e3) h3))
  | del x =>
    simp only [World.step, bind_eq_ok] at hw
    obtain ⟨h, h1, o, h2, o', h3, h6⟩ := hw
    cases h6
    simp only [stmtStep, Option.map_eq_some_iff] at hs
    obtain ⟨d, hx, -⟩ := hs
    obtain ⟨h', o1, e1, e2, e3⟩ := I.decl x _ hx
    rw [var_ok h1] at e1; cases e1
    rw [h2] at e2; cases e2
    obtain ⟨o2, q1, -, q2⟩ := hR.dtor (held_weak hR e3)
    rw [q1] at h3; cases h3
    exact forget_noLeak (store_noLeak hR I hl (.inr ⟨h, var_ok h1, rfl⟩) _) (store_zero q2)

theorem run_noLeak (hR : Refines c K A Rel Weak Spent) (prog : List (Stmt Args Op))
    (hf : (∀ x y, .moveTo x y ∉ prog) ∨ Releases c K Weak) : ∀ {w : World K} {vars vars' : Vars A} {outs : List (Option Out)},
    Inv Rel Spent w vars → NoLeak w → stmtRun A vars prog = some (vars', outs) →
    ∃ w', w.run c prog = .ok (w', outs) ∧ Inv Rel Spent w' vars' ∧ NoLeak w' := by
  induction prog with
  | nil => intro w vars vars' outs I hl hs; cases hs; exact ⟨w, rfl, I, hl⟩
  | cons st prog ih =>
    intro w vars vars' outs I hl hs
    simp only [stmtRun, Option.bind_eq_some_iff, Option.map_eq_some_iff] at hs
    obtain ⟨r, h1, q, h2, h3⟩ := hs
    cases h3
    obtain ⟨w1, e1, I1⟩ := I.step hR st (vars' := r.1) (out := r.2) h1
    have hl1 : NoLeak w1 := step_noLeak hR I hl st (by
      rcases hf with hf | hf
      · exact .inl fun x y e => hf x y (by rw [e]; exact List.mem_cons_self ..)
      · exact .inr hf) (vars' := r.1) (out := r.2) h1 e1
    obtain ⟨w2, e2, I2, hl2⟩ := ih (by
      rcases hf with hf | hf
      · exact .inl fun x y e => hf x y (List.mem_cons_of_mem _ e)
      · exact .inr hf) (vars' := q.1) (outs := q.2) I1 hl1 h2
    exact ⟨w2, by simp [World.run, e1, e2], I2, hl2⟩

theorem empty_noLeak : NoLeak (World.empty (K := K)) := fun _ h => h.1 rfl

/-- Without variables there are no allocations. -/
theorem all_gone (I : Inv Rel Spent w vars) (hl : NoLeak w) (h : ∀ x, vars x = none) (p : Nat) : w.heap.cells p = none := by
  refine Classical.byContradiction fun hp => ?_
  obtain ⟨x, hx, e, -⟩ := noLeak_owner hl hp
  rw [I.undecl x (h x)] at e; cases e

end Inv

end LvArray.Heap
