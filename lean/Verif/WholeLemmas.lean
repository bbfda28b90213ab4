import Verif.Spec.Whole
import Verif.ChaiLemmas
/-!
# Lemmas about whole-array assignment
-/

namespace LvArray.Whole

open LvArray.Chai LvArray.Spec

variable {T : Type}

/-- One array: its record, the number of slots, the values by position, the space they are in and whether it is touched. -/
structure Arr (T : Type) where
  id : Nat
  cap : Nat
  data : Data T
  current : Space
  touched : Bool

/-- The heap holds these arrays. -/
structure Keeps (h : Heap (Data T)) (A : List (Arr T)) : Prop where
  held : ∀ (k : Nat) a, A[k]? = some a → ∃ r, h.get a.id = some r ∧ (0 < a.cap → Holds r a.data a.current a.touched)
  apart : ∀ (k l : Nat) a b, A[k]? = some a → A[l]? = some b → a.id = b.id → k = l

/-- `b` is a buffer of the array with record `id` and `cap` slots, last moved to `p`. -/
structure BufOf (id cap : Nat) (b : Buffer) (p : Space) (c : Bool) : Prop where
  record : b.record = some id
  slots : b.cap = cap
  isConst : b.isConst = c
  pointer : 0 < cap → b.pointer = some p

theorem get_set_ne {C : Type} (h : Heap C) {i j : Nat} (hij : i ≠ j) (r : Option (Record C)) : Heap.get (h.set i r) j = h.get j := by
  simp [Heap.get, List.getElem?_set_ne hij]

/-- Changing the record of one array. -/
theorem Keeps.set {h : Heap (Data T)} {A : List (Arr T)} (hk : Keeps h A) {k : Nat} {a a' : Arr T} (ha : A[k]? = some a)
    (hid : a'.id = a.id) {r : Record (Data T)} (hr : 0 < a'.cap → Holds r a'.data a'.current a'.touched) :
    Keeps (h.set a.id (some r)) (A.set k a') := by
  obtain ⟨r0, hr0, -⟩ := hk.held k a ha
  have hkl := (List.getElem?_eq_some_iff.1 ha).1
  refine ⟨fun l b hb => ?_, fun l m b d hb hd e => ?_⟩
  · by_cases hl : l = k
    · subst hl
      rw [List.getElem?_set_self hkl] at hb
      cases hb
      exact ⟨r, by rw [hid]; exact Heap.get_set hr0 _, hr⟩
    · rw [List.getElem?_set_ne (Ne.symm hl)] at hb
      obtain ⟨r1, h1, h2⟩ := hk.held l b hb
      exact ⟨r1, by rw [get_set_ne _ (fun e => hl (hk.apart k l a b ha hb e).symm)]; exact h1, h2⟩
  · have get : ∀ (l : Nat) b, (A.set k a')[l]? = some b → ∃ b', A[l]? = some b' ∧ b'.id = b.id := fun l b hb => by
      by_cases hl : l = k
      · subst hl
        rw [List.getElem?_set_self hkl] at hb
        cases hb
        exact ⟨a, ha, hid.symm⟩
      · rw [List.getElem?_set_ne (Ne.symm hl)] at hb
        exact ⟨b, hb, rfl⟩
    obtain ⟨b', h1, h2⟩ := get l b hb
    obtain ⟨d', h3, h4⟩ := get m d hd
    exact hk.apart l m b' d' h1 h3 (h2.trans (e.trans h4.symm))

/-- Nothing about an array without slots matters. -/
theorem Keeps.empty {h : Heap (Data T)} {A : List (Arr T)} (hk : Keeps h A) {k : Nat} {a a' : Arr T} (ha : A[k]? = some a)
    (hid : a'.id = a.id) (hc : a'.cap = 0) : Keeps h (A.set k a') := by
  obtain ⟨r0, hr0, -⟩ := hk.held k a ha
  have hkl := (List.getElem?_eq_some_iff.1 ha).1
  have h' := hk.set ha hid (r := r0) (fun hp => by omega)
  have : h.set a.id (some r0) = h := by
    unfold Heap.get at hr0
    rcases hn : h[a.id]? with _ | o
    · rw [hn] at hr0; cases hr0
    · rw [hn] at hr0
      simp at hr0
      subst hr0
      obtain ⟨hl, e⟩ := List.getElem?_eq_some_iff.1 hn
      rw [← e, List.set_getElem_self]
  rwa [this] at h'

/-- The data of an array is brought to space `s`. -/
def Arr.bring (a : Arr T) (s : Space) (touch : Bool) : Arr T :=
  { a with current := s, touched := touch || (a.touched && s = a.current) }

theorem Keeps.move {h : Heap (Data T)} {A : List (Arr T)} (hk : Keeps h A) {k : Nat} {a : Arr T} (ha : A[k]? = some a) {b : Buffer}
    {p : Space} {c : Bool} (hb : BufOf a.id a.cap b p c) (s : Space) (touch : Bool) :
    ∃ h' b', Chai.move (fun _ => none) h b (some s) touch = .ok (h', b') ∧ Keeps h' (A.set k (a.bring s (touch && !c))) ∧
      BufOf a.id a.cap b' s c := by
  obtain ⟨r, hr, hh⟩ := hk.held k a ha
  by_cases hc : a.cap = 0
  · refine ⟨h, b, ?_, hk.empty ha rfl hc, hb.record, hb.slots, hb.isConst, fun hp => by omega⟩
    simp [Chai.move, hb.record, hb.slots, hc]
  · have hpos : 0 < a.cap := by omega
    refine ⟨_, _, move_ok _ hr hb.record (by rw [hb.slots]; exact hpos) s touch, ?_, hb.record, hb.slots, hb.isConst, fun _ => rfl⟩
    refine hk.set ha (a' := a.bring s (touch && !c)) rfl fun _ => ?_
    rw [hb.isConst, Bool.and_comm]
    exact ((hh hpos).move _ s (touch && !c)).1

theorem Keeps.read {h : Heap (Data T)} {A : List (Arr T)} (hk : Keeps h A) {k : Nat} {a : Arr T} (ha : A[k]? = some a) {b : Buffer}
    {c : Bool} (hb : BufOf a.id a.cap b a.current c) {i : Nat} (hi : i < a.cap) {x : T} (hx : a.data i = some x) :
    Chai.read h b a.current i = .ok x := by
  obtain ⟨r, hr, hh⟩ := hk.held k a ha
  have hpos : 0 < a.cap := by omega
  simp only [Chai.read, deref_ok hr hb.record (hb.pointer hpos) (hh hpos).copy, bind_ok, hb.slots, hi, if_true, hx]

theorem Keeps.write {h : Heap (Data T)} {A : List (Arr T)} (hk : Keeps h A) {k : Nat} {a : Arr T} (ha : A[k]? = some a) {b : Buffer}
    {c : Bool} (hb : BufOf a.id a.cap b a.current c) (ht : a.touched = true) {i : Nat} (hi : i < a.cap) (x : T) :
    ∃ h', Chai.write h b a.current i x = .ok h' ∧ Keeps h' (A.set k { a with data := fun j => if j = i then some x else a.data j }) := by
  obtain ⟨r, hr, hh⟩ := hk.held k a ha
  have hpos : 0 < a.cap := by omega
  have hh := hh hpos
  rw [ht] at hh
  refine ⟨_, ?_, hk.set ha (a' := { a with data := fun j => if j = i then some x else a.data j }) rfl (r := { r with copy := put r.copy a.current (some fun j => if j = i then some x else a.data j) }) fun _ => ?_⟩
  · simp only [Chai.write, deref_ok hr hb.record (hb.pointer hpos) hh.copy, bind_ok, hb.slots, hi, if_true, hb.record, hr]
  · simp only [ht]
    exact (hh.write _).1

/-! ## Loops -/

/-- How many turns a thread needs at most. -/
def Worker.left (w : Worker T) : Nat := 2 * w.todo.length - (if w.loaded.isSome then 1 else 0)

variable {turn : Heap (Data T) → Worker T → R (Heap (Data T) × Worker T)}

/-- Turns of threads that each keep an invariant. -/
theorem interleave_inv {I : Heap (Data T) → List (Worker T) → Prop}
    (hturn : ∀ h ws (k : Nat) w, I h ws → ws[k]? = some w →
      ∃ h' w', turn h w = .ok (h', w') ∧ I h' (ws.set k w') ∧ w'.left ≤ w.left - 1)
    (ks : List Nat) : ∀ h ws, I h ws →
      ∃ h' ws', interleave turn h ws ks = .ok (h', ws') ∧ I h' ws' ∧ ws'.length = ws.length ∧
        ∀ (k : Nat) w, ws[k]? = some w → ∃ w', ws'[k]? = some w' ∧ w'.left ≤ w.left - ks.count k := by
  induction ks with
  | nil => exact fun h ws hi => ⟨h, ws, rfl, hi, rfl, fun k w hw => ⟨w, hw, by simp⟩⟩
  | cons k ks ih =>
    intro h ws hi
    rcases hw : ws[k]? with _ | w
    · obtain ⟨h', ws', e, hi', hl, hd⟩ := ih h ws hi
      refine ⟨h', ws', by simp only [interleave, hw, e], hi', hl, fun l w hl => ?_⟩
      obtain ⟨w', h1, h2⟩ := hd l w hl
      refine ⟨w', h1, ?_⟩
      have : k ≠ l := fun e => by rw [e, hl] at hw; cases hw
      rw [List.count_cons_of_ne this]; exact h2
    · obtain ⟨h1, w1, e1, hi1, hlt⟩ := hturn h ws k w hi hw
      obtain ⟨h', ws', e, hi', hl, hd⟩ := ih h1 (ws.set k w1) hi1
      refine ⟨h', ws', by simp only [interleave, hw, e1, bind_ok, e], hi', by rw [hl, List.length_set], fun l w2 hl2 => ?_⟩
      by_cases hkl : l = k
      · subst hkl
        rw [hw] at hl2; cases hl2
        obtain ⟨w', h3, h4⟩ := hd l w1 (List.getElem?_set_self (List.getElem?_eq_some_iff.1 hw).1)
        refine ⟨w', h3, ?_⟩
        rw [List.count_cons_self]; omega
      · obtain ⟨w', h3, h4⟩ := hd l w2 (by rw [List.getElem?_set_ne (Ne.symm hkl)]; exact hl2)
        refine ⟨w', h3, ?_⟩
        rw [List.count_cons_of_ne (Ne.symm hkl)]; exact h4

theorem count_rest (ws : List (Worker T)) {k : Nat} {w : Worker T} (hw : ws[k]? = some w) : 2 * w.todo.length ≤ (rest ws).count k := by
  have hk := (List.getElem?_eq_some_iff.1 hw).1
  have hp : (List.range ws.length).Perm (k :: (List.range ws.length).erase k) := List.perm_cons_erase (List.mem_range.2 hk)
  have h2 : (rest ws).Perm ((k :: (List.range ws.length).erase k).flatMap
      fun k => List.replicate (2 * ((ws[k]?).elim 0 fun w => w.todo.length)) k) := hp.flatMap_right _
  rw [h2.count_eq k, List.flatMap_cons, List.count_append, hw]
  simp

/-- A parallel loop whose turns keep an invariant ends with every iteration made. -/
theorem forall_inv {I : Heap (Data T) → List (Worker T) → Prop} {P : Policy} {n : Nat} {h : Heap (Data T)}
    (h0 : ∀ ws : List (Worker T), (∀ w ∈ ws, w.loaded = none) → (∀ i, (∃ w ∈ ws, i ∈ w.todo) ↔ i < n) → I h ws)
    (hturn : ∀ h ws (k : Nat) w, I h ws → ws[k]? = some w →
      ∃ h' w', turn h w = .ok (h', w') ∧ I h' (ws.set k w') ∧ w'.left ≤ w.left - 1) :
    ∃ h' ws', forall_ turn P n h = .ok h' ∧ I h' ws' ∧ ∀ w ∈ ws', w.todo = [] := by
  obtain ⟨ws, hws⟩ : ∃ ws : List (Worker T), ws = (P.split n).map fun is => { todo := is, loaded := none } := ⟨_, rfl⟩
  have hnone : ∀ w ∈ ws, w.loaded = none := fun w hw => by
    rw [hws] at hw
    obtain ⟨is, -, rfl⟩ := List.mem_map.1 hw
    rfl
  have hi : I h ws := h0 ws hnone fun i => by
    have := (P.once n).mem_iff (a := i)
    rw [List.mem_flatten, List.mem_range] at this
    rw [← this, hws]
    constructor
    · rintro ⟨w, hw, hi⟩
      obtain ⟨is, his, rfl⟩ := List.mem_map.1 hw
      exact ⟨is, his, hi⟩
    · rintro ⟨is, his, hi⟩
      exact ⟨_, List.mem_map.2 ⟨is, his, rfl⟩, hi⟩
  obtain ⟨h', ws', e, hi', hlen, hd⟩ := interleave_inv hturn (P.order ++ rest ws) h ws hi
  refine ⟨h', ws', ?_, hi', fun w' hw' => ?_⟩
  · simp only [forall_, ← hws, e, bind_ok]
  · obtain ⟨k, hk⟩ := List.getElem?_of_mem hw'
    have hkl : k < ws.length := by
      rw [← hlen]; exact (List.getElem?_eq_some_iff.1 hk).1
    obtain ⟨w2, h1, h2⟩ := hd k ws[k] (List.getElem?_eq_getElem hkl)
    rw [hk] at h1; cases h1
    have hc := count_rest ws (List.getElem?_eq_getElem hkl)
    rw [List.count_append] at h2
    have h3 : ws[k].left ≤ 2 * ws[k].todo.length := Nat.sub_le _ _
    have h4 : w'.left = 0 := by omega
    unfold Worker.left at h4
    refine List.eq_nil_of_length_eq_zero ?_
    split at h4 <;> omega

/-- The iterations that are left after one was made. -/
theorem mem_todo_set {ws : List (Worker T)} {k : Nat} {w w' : Worker T} (hw : ws[k]? = some w) {i j : Nat} {is : List Nat}
    (he : w.todo = i :: is) (he' : w'.todo = is) (h : ∃ w ∈ ws, j ∈ w.todo) : j = i ∨ ∃ w ∈ ws.set k w', j ∈ w.todo := by
  obtain ⟨w0, h0, hj⟩ := h
  obtain ⟨l, hl⟩ := List.getElem?_of_mem h0
  by_cases hkl : l = k
  · subst hkl
    rw [hw] at hl; cases hl
    rw [he] at hj
    rcases List.mem_cons.1 hj with rfl | hj
    · exact Or.inl rfl
    · exact Or.inr ⟨w', List.mem_set (List.getElem?_eq_some_iff.1 hw).1 _, by rw [he']; exact hj⟩
  · exact Or.inr ⟨w0, List.mem_of_getElem? (by rw [List.getElem?_set_ne (Ne.symm hkl)]; exact hl), hj⟩

theorem mem_todo_same {ws : List (Worker T)} {k : Nat} {w w' : Worker T} (hw : ws[k]? = some w) {j : Nat}
    (he : w'.todo = w.todo) (h : ∃ w ∈ ws, j ∈ w.todo) : ∃ w ∈ ws.set k w', j ∈ w.todo := by
  obtain ⟨w0, h0, hj⟩ := h
  obtain ⟨l, hl⟩ := List.getElem?_of_mem h0
  by_cases hkl : l = k
  · subst hkl
    rw [hw] at hl; cases hl
    exact ⟨w', List.mem_set (List.getElem?_eq_some_iff.1 hw).1 _, by rw [he]; exact hj⟩
  · exact ⟨w0, List.mem_of_getElem? (by rw [List.getElem?_set_ne (Ne.symm hkl)]; exact hl), hj⟩

theorem set_worker_self {ws : List (Worker T)} {k : Nat} {w : Worker T} (hw : ws[k]? = some w) : ws.set k w = ws := by
  obtain ⟨hl, e⟩ := List.getElem?_eq_some_iff.1 hw
  rw [← e, List.set_getElem_self]

theorem left_set {w w' : Worker T} {i : Nat} {is : List Nat} (he : w.todo = i :: is) (hl : w'.todo = is) (hn : w'.loaded = none) :
    w'.left ≤ w.left - 1 := by
  unfold Worker.left
  rw [he, hl, hn]
  simp only [List.length_cons, Option.isSome_none, Bool.false_eq_true, if_false]
  split <;> omega

/-- The loop of `setValues( value )`. -/
theorem Keeps.setLoop {h : Heap (Data T)} {A : List (Arr T)} (hk : Keeps h A) {k : Nat} {a : Arr T} (ha : A[k]? = some a) {b : Buffer}
    {c : Bool} (hb : BufOf a.id a.cap b a.current c) (ht : a.touched = true) (P : Policy) (x : T) :
    ∃ h' d, forall_ (setTurn x b a.current) P a.cap h = .ok h' ∧ Keeps h' (A.set k { a with data := d }) ∧
      ∀ j, j < a.cap → d j = some x := by
  have hkl := (List.getElem?_eq_some_iff.1 ha).1
  obtain ⟨h', ws, e, ⟨d, hd, hdone, -⟩, hnil⟩ := forall_inv (turn := setTurn x b a.current) (P := P) (n := a.cap) (h := h)
    (I := fun h ws => ∃ d, Keeps h (A.set k { a with data := d }) ∧
      (∀ j, j < a.cap → d j = some x ∨ ∃ w ∈ ws, j ∈ w.todo) ∧ ∀ w ∈ ws, ∀ i ∈ w.todo, i < a.cap)
    (fun ws _ hm => ⟨a.data, by
      rw [show ({ a with data := a.data } : Arr T) = a from rfl]
      obtain ⟨hl, e⟩ := List.getElem?_eq_some_iff.1 ha
      rw [← e, List.set_getElem_self]; exact hk, fun j hj => Or.inr ((hm j).2 hj), fun w hw i hi => (hm i).1 ⟨w, hw, hi⟩⟩)
    (fun h ws m w hi hw => by
      obtain ⟨d, hd, hdone, hlt⟩ := hi
      unfold setTurn
      split
      · next e => exact ⟨h, w, rfl, by rw [set_worker_self hw]; exact ⟨d, hd, hdone, hlt⟩, by simp [Worker.left, e]⟩
      · next i is e =>
        have hwm := List.mem_of_getElem? hw
        obtain ⟨h', e', hd'⟩ := hd.write (k := k) (a := { a with data := d }) (by rw [List.getElem?_set_self hkl]) (b := b) hb ht
          (hlt w hwm i (by rw [e]; simp)) x
        rw [List.set_set] at hd'
        refine ⟨h', _, by rw [show Chai.write h b a.current i x = .ok h' from e', bind_ok],
          ⟨fun j => if j = i then some x else d j, hd', fun j hj => ?_, ?_⟩, left_set e rfl rfl⟩
        · by_cases hji : j = i
          · exact Or.inl (by simp [hji])
          · rcases hdone j hj with h1 | h1
            · exact Or.inl (by simp [hji, h1])
            · rcases mem_todo_set (w' := { todo := is, loaded := none }) hw e rfl h1 with h2 | h2
              · exact absurd h2 hji
              · exact Or.inr h2
        · intro w0 hw0 i0 hi0
          rcases List.mem_or_eq_of_mem_set hw0 with h1 | h1
          · exact hlt w0 h1 i0 hi0
          · subst h1
            exact hlt w hwm i0 (by rw [e]; exact List.mem_cons_of_mem _ hi0))
  refine ⟨h', d, e, hd, fun j hj => ?_⟩
  rcases hdone j hj with h1 | ⟨w, hw, hj⟩
  · exact h1
  · rw [hnil w hw] at hj; cases hj

/-- The loop of `setValues( rhs )`. -/
theorem Keeps.copyLoop {h : Heap (Data T)} {A : List (Arr T)} (hk : Keeps h A) {k l : Nat} {a a2 : Arr T} (ha : A[k]? = some a)
    (ha2 : A[l]? = some a2) {b b2 : Buffer} {c c2 : Bool} (hb : BufOf a.id a.cap b a.current c) (ht : a.touched = true)
    (hb2 : BufOf a2.id a2.cap b2 a2.current c2) (hcap : a2.cap = a.cap) (hcur : a2.current = a.current)
    {f : Nat → T} (hf : ∀ j, j < a.cap → a2.data j = some (f j)) (P : Policy) :
    ∃ h' d, forall_ (copyTurn b b2 a.current) P a.cap h = .ok h' ∧ Keeps h' (A.set k { a with data := d }) ∧
      ∀ j, j < a.cap → d j = some (f j) := by
  have hkl := (List.getElem?_eq_some_iff.1 ha).1
  obtain ⟨h', ws, e, ⟨d, hd, hdone, -⟩, hnil⟩ := forall_inv (turn := copyTurn b b2 a.current) (P := P) (n := a.cap) (h := h)
    (I := fun h ws => ∃ d, Keeps h (A.set k { a with data := d }) ∧
      (∀ j, j < a.cap → d j = some (f j) ∨ ((∃ w ∈ ws, j ∈ w.todo) ∧ d j = a.data j)) ∧ (∀ w ∈ ws, ∀ i ∈ w.todo, i < a.cap) ∧
      ∀ w ∈ ws, ∀ i is x, w.todo = i :: is → w.loaded = some x → x = f i)
    (fun ws hn hm => ⟨a.data, by
      rw [show ({ a with data := a.data } : Arr T) = a from rfl]
      obtain ⟨hl, e⟩ := List.getElem?_eq_some_iff.1 ha
      rw [← e, List.set_getElem_self]; exact hk, fun j hj => Or.inr ⟨(hm j).2 hj, rfl⟩, fun w hw i hi => (hm i).1 ⟨w, hw, hi⟩,
      fun w hw i is x _ hx => by rw [hn w hw] at hx; cases hx⟩)
    (fun h ws m w hi hw => by
      obtain ⟨d, hd, hdone, hlt, hload⟩ := hi
      have hwm := List.mem_of_getElem? hw
      unfold copyTurn
      split
      · next e => exact ⟨h, w, rfl, by rw [set_worker_self hw]; exact ⟨d, hd, hdone, hlt, hload⟩, by simp [Worker.left, e]⟩
      · next i is e en =>
        have hi := hlt w hwm i (by rw [e]; simp)
        have hr : Chai.read h b2 a.current i = .ok (f i) := by
          by_cases hlk : l = k
          · subst hlk
            rw [ha] at ha2; cases ha2
            refine hd.read (k := l) (a := { a with data := d }) (by rw [List.getElem?_set_self hkl]) (b := b2) hb2 hi ?_
            rcases hdone i hi with h1 | ⟨-, h1⟩
            · exact h1
            · exact h1.trans (hf i hi)
          · rw [← hcur]
            exact hd.read (k := l) (a := a2) (by rw [List.getElem?_set_ne (Ne.symm hlk)]; exact ha2) hb2 (by rw [hcap]; exact hi) (hf i hi)
        refine ⟨h, _, by rw [hr, bind_ok], ⟨d, hd, fun j hj => ?_, ?_, ?_⟩, ?_⟩
        · rcases hdone j hj with h1 | ⟨h1, h2⟩
          · exact Or.inl h1
          · exact Or.inr ⟨mem_todo_same (w' := { w with loaded := some (f i) }) hw rfl h1, h2⟩
        · intro w0 hw0 i0 hi0
          rcases List.mem_or_eq_of_mem_set hw0 with h1 | h1
          · exact hlt w0 h1 i0 hi0
          · subst h1
            exact hlt w hwm i0 hi0
        · intro w0 hw0 i0 is0 x0 he0 hx0
          rcases List.mem_or_eq_of_mem_set hw0 with h1 | h1
          · exact hload w0 h1 i0 is0 x0 he0 hx0
          · subst h1
            rw [e] at he0
            cases he0
            cases hx0
            rfl
        · unfold Worker.left
          rw [e, en]
          simp
      · next i is x e en =>
        have hx := hload w hwm i is x e en
        subst hx
        have hi := hlt w hwm i (by rw [e]; simp)
        obtain ⟨h', e', hd'⟩ := hd.write (k := k) (a := { a with data := d }) (by rw [List.getElem?_set_self hkl]) (b := b) hb ht hi (f i)
        rw [List.set_set] at hd'
        refine ⟨h', _, by rw [show Chai.write h b a.current i (f i) = .ok h' from e', bind_ok],
          ⟨fun j => if j = i then some (f i) else d j, hd', fun j hj => ?_, ?_, ?_⟩, left_set e rfl rfl⟩
        · by_cases hji : j = i
          · exact Or.inl (by simp [hji])
          · rcases hdone j hj with h1 | ⟨h1, h3⟩
            · exact Or.inl (by simp [hji, h1])
            · rcases mem_todo_set (w' := { todo := is, loaded := none }) hw e rfl h1 with h2 | h2
              · exact absurd h2 hji
              · exact Or.inr ⟨h2, by simp [hji, h3]⟩
        · intro w0 hw0 i0 hi0
          rcases List.mem_or_eq_of_mem_set hw0 with h1 | h1
          · exact hlt w0 h1 i0 hi0
          · subst h1
            exact hlt w hwm i0 (by rw [e]; exact List.mem_cons_of_mem _ hi0)
        · intro w0 hw0 i0 is0 x0 he0 hx0
          rcases List.mem_or_eq_of_mem_set hw0 with h1 | h1
          · exact hload w0 h1 i0 is0 x0 he0 hx0
          · subst h1
            cases hx0)
  refine ⟨h', d, e, hd, fun j hj => ?_⟩
  rcases hdone j hj with h1 | ⟨⟨w, hw, hj⟩, -⟩
  · exact h1
  · rw [hnil w hw] at hj; cases hj

/-- Values set one after the other. -/
theorem Keeps.fill {h : Heap (Data T)} {A : List (Arr T)} (hk : Keeps h A) {k : Nat} {a : Arr T} (ha : A[k]? = some a) {b : Buffer}
    {c : Bool} (hb : BufOf a.id a.cap b a.current c) (ht : a.touched = true) (x : T) (n : Nat) (hn : n ≤ a.cap) :
    ∃ h' d, Whole.fill b a.current x n h = .ok h' ∧ Keeps h' (A.set k { a with data := d }) ∧ ∀ j, j < n → d j = some x := by
  have hkl := (List.getElem?_eq_some_iff.1 ha).1
  induction n with
  | zero =>
    refine ⟨h, a.data, rfl, ?_, fun j hj => by omega⟩
    obtain ⟨hl, e⟩ := List.getElem?_eq_some_iff.1 ha
    rw [show ({ a with data := a.data } : Arr T) = a from rfl, ← e, List.set_getElem_self]; exact hk
  | succ n ih =>
    obtain ⟨h1, d, e1, k1, hd⟩ := ih (by omega)
    obtain ⟨h2, e2, k2⟩ := k1.write (k := k) (a := { a with data := d }) (by rw [List.getElem?_set_self hkl]) (b := b) hb ht
      (i := n) (by exact hn) x
    rw [List.set_set] at k2
    refine ⟨h2, _, by simp only [Whole.fill, e1, bind_ok]; exact e2, k2, fun j hj => ?_⟩
    by_cases hjn : j = n
    · simp [hjn]
    · simp only [hjn, if_false]; exact hd j (by omega)

end LvArray.Whole
