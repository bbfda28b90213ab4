import Verif.Arguments
import Verif.Props.OwnRows

/-!
# C74: how arguments are given
-/

namespace LvArray.Props

open LvArray Layout Spec

set_option linter.unusedSectionVars false

variable {T A : Type} [Inhabited T]

/-! ### Ranges -/

/-- The range may be gone over again from the first iterator. -/
def Source.Again (s : Source T) : Prop := s.category ≠ .input ∨ s.items = []

theorem usable_again {s : Source T} (h : s.category ≠ .input) (front it : Nat) : s.usable front it = true := by
  simp [Source.usable, h]

theorem usable_self (s : Source T) (it : Nat) : s.usable it it = true := by simp [Source.usable]

theorem usable_of {s : Source T} {front it : Nat} (h : s.category ≠ .input ∨ front = it) : s.usable front it = true := by
  rcases h with h | rfl
  · exact usable_again h _ _
  · exact usable_self _ _

theorem count_ok (s : Source T) : ∀ (k front it n : Nat), k = s.items.length - it → (s.category ≠ .input ∨ front = it) →
    ∃ f, s.count front it n = .ok (n + (s.items.length - it), f) ∧ (front = it → it ≤ s.items.length → f = s.items.length) := by
  intro k
  induction k with
  | zero =>
    intro front it n hk h
    refine ⟨front, ?_, fun _ _ => by omega⟩
    rw [Source.count, if_pos (usable_of h), if_neg (by omega), ← hk,
      Nat.add_zero]
  | succ k ih =>
    intro front it n hk h
    obtain ⟨f, h1, h2⟩ := ih (max front (it + 1)) (it + 1) (n + 1) (by omega) (by
      rcases h with h | rfl
      · exact .inl h
      · exact .inr (by omega))
    refine ⟨f, ?_, fun e _ => h2 (by omega) (by omega)⟩
    rw [Source.count, if_pos (usable_of h), if_pos (by omega), h1]
    congr 2
    omega

theorem iterDistance_ok (s : Source T) {front : Nat} (h : s.category ≠ .input ∨ front = 0) :
    ∃ f, s.iterDistance front = .ok (s.items.length, f) ∧ (s.category = .input → front = 0 → f = s.items.length) := by
  unfold Source.iterDistance
  obtain ⟨f, h1, h2⟩ := count_ok s _ front 0 0 rfl h
  rw [Nat.zero_add, Nat.sub_zero] at h1
  cases hc : s.category with
  | random => exact ⟨front, rfl, fun h => by cases h⟩
  | forward => exact ⟨f, h1, fun h => by cases h⟩
  | input => exact ⟨f, h1, fun _ e => h2 e (Nat.zero_le _)⟩

theorem append_items (c : Cfg) (s : Source T) (q : Nat) : ∀ (k front it : Nat) (b : Buf T), k = s.items.length - it →
    it ≤ s.items.length → (s.category ≠ .input ∨ front = it) →
    s.append c front it b q it =
      (forUp k (q + it) (fun j b => b.construct c j (s.items.getD (j - q) default)) b >>= fun b => .ok (b, s.items.length)) := by
  intro k
  induction k with
  | zero =>
    intro front it b hk hle h
    rw [Source.append, if_pos (usable_of h), dif_neg (by omega)]
    show _ = Except.ok _
    congr 2
    omega
  | succ k ih =>
    intro front it b hk hle h
    rw [Source.append, if_pos (usable_of h), dif_pos (by omega)]
    have hg : s.items.getD (q + it - q) default = s.items[it]'(by omega) := by
      rw [Nat.add_sub_cancel_left, List.getD_eq_getElem?_getD, List.getElem?_eq_getElem (by omega)]; rfl
    simp only [forUp]
    rw [hg, bind_assoc]
    refine bind_congr fun b' => ?_
    exact ih _ _ b' (by omega) (by omega) (by
      rcases h with h | rfl
      · exact .inl h
      · exact .inr (by omega))

theorem insert_items (c : Cfg) (s : Source T) (q : Nat) : ∀ (k front it : Nat) (b : Buf T), k = s.items.length - it →
    it ≤ s.items.length → (s.category ≠ .input ∨ front = it) →
    s.insert c k front it b q it =
      forUp k (q + it) (fun j b => b.construct c j (s.items.getD (j - q) default)) b := by
  intro k
  induction k with
  | zero => intro front it b hk hle h; rfl
  | succ k ih =>
    intro front it b hk hle h
    rw [Source.insert, if_pos (usable_of h), dif_pos (by omega)]
    have hg : s.items.getD (q + it - q) default = s.items[it]'(by omega) := by
      rw [Nat.add_sub_cancel_left, List.getD_eq_getElem?_getD, List.getElem?_eq_getElem (by omega)]; rfl
    simp only [forUp]
    rw [hg]
    refine bind_congr fun b' => ?_
    exact ih _ _ b' (by omega) (by omega) (by
      rcases h with h | rfl
      · exact .inl h
      · exact .inr (by omega))

theorem again_of {s : Source T} (h : Source.Again s) {front : Nat} (hf : s.items = [] → front = 0) : s.category ≠ .input ∨ front = 0 := by
  rcases h with h | h
  · exact .inl h
  · exact .inr (hf h)

/-- The distance of a range that may be gone over again; the range may be used after that. -/
theorem distance_again {s : Source T} (h : Source.Again s) {front : Nat} (hf : s.category ≠ .input ∨ front = 0) :
    ∃ f, s.iterDistance front = .ok (s.items.length, f) ∧ (s.category ≠ .input ∨ f = 0) := by
  obtain ⟨f, h1, h2⟩ := iterDistance_ok s hf
  refine ⟨f, h1, ?_⟩
  by_cases hc : s.category = .input
  · rcases h with h | h
    · exact absurd hc h
    · rcases hf with h' | h'
      · exact absurd hc h'
      · exact .inr (by rw [h2 hc h', h]; rfl)
  · exact .inl hc

theorem viewAppend_again (c : Cfg) (a : AoA T) (i : Nat) {s : Source T} {front : Nat} (h : s.category ≠ .input ∨ front = 0) :
    a.viewAppendFrom c i s front = a.viewAppendToArray c i s.items := by
  unfold AoA.viewAppendFrom AoA.viewAppendToArray arrayManipulation.append arrayManipulation.constructRange
  refine bind_congr fun _ => bind_congr fun p => bind_congr fun m => ?_
  rw [append_items c s (p + m) s.items.length front 0 a.values rfl (Nat.zero_le _) h, bind_assoc]
  exact bind_congr fun _ => rfl

theorem viewInsert_again (c : Cfg) (a : AoA T) (i j : Nat) {s : Source T} (hs : Source.Again s) {front : Nat}
    (h : s.category ≠ .input ∨ front = 0) : a.viewInsertFrom c i j s front = a.viewInsertIntoArray c i j s.items := by
  obtain ⟨f, h1, h2⟩ := distance_again hs h
  unfold AoA.viewInsertFrom AoA.viewInsertIntoArray arrayManipulation.insert arrayManipulation.constructRange
  simp only [h1, bind_ok, bind_assoc]
  refine bind_congr fun _ => bind_congr fun _ => bind_congr fun p => bind_congr fun m => bind_congr fun _ => bind_congr fun _ =>
    bind_congr fun b => ?_
  rw [insert_items c s (p + j) s.items.length f 0 b rfl (Nat.zero_le _) h2]
  rfl

/-- **C74 (ranges).** Ranges given by random access, bidirectional and forward iterators, and empty ranges, are inserted and
appended like lists of the same values; the view appends every range like that. -/
theorem C74_ranges (c : Cfg) (s : Source T) :
    (Source.Again s →
      (∀ (a : Array1 T) (pos : Int), a.insertFrom c pos s = a.insert c pos s.items) ∧
      (∀ (a : AoA T) (i : Nat), a.appendFrom c i s = a.appendToArray c i s.items) ∧
      (∀ (a : AoA T) (i j : Nat), a.insertFrom c i j s = a.insertIntoArray c i j s.items) ∧
      (∀ a : AoA T, a.appendArrayFrom c s = a.appendArray c s.items) ∧
      (∀ (a : AoA T) (i : Nat), a.insertArrayFrom c i s = a.insertArray c i s.items) ∧
      (∀ (a : AoA T) (i j : Nat), a.viewInsertFrom c i j s 0 = a.viewInsertIntoArray c i j s.items)) ∧
    (∀ (a : AoA T) (i : Nat), a.viewAppendFrom c i s 0 = a.viewAppendToArray c i s.items) := by
  refine ⟨fun hs => ?_, fun a i => viewAppend_again c a i (.inr rfl)⟩
  obtain ⟨f, h1, h2⟩ := distance_again hs (.inr rfl)
  have happ : ∀ (a : AoA T) (i : Nat), a.appendFrom c i s = a.appendToArray c i s.items := by
    intro a i
    unfold AoA.appendFrom AoA.appendToArray
    simp only [h1, bind_ok]
    exact bind_congr fun _ => viewAppend_again c _ i h2
  refine ⟨fun a pos => ?_, happ, fun a i j => ?_, fun a => bind_congr fun _ => happ _ _, fun a i => bind_congr fun _ => happ _ _,
    fun a i j => viewInsert_again c a i j hs (.inr rfl)⟩
  · unfold Array1.insertFrom Array1.insert bufferManipulation.insert arrayManipulation.insert arrayManipulation.constructRange
    simp only [h1, bind_ok, bind_assoc]
    refine bind_congr fun pos => bind_congr fun _ => bind_congr fun _ => bind_congr fun _ => bind_congr fun _ => bind_congr fun b => ?_
    rw [insert_items c s pos s.items.length f 0 b rfl (Nat.zero_le _) h2]
    simp only [Nat.zero_add, Nat.add_zero]
  · unfold AoA.insertFrom AoA.insertIntoArray
    simp only [h1, bind_ok]
    exact bind_congr fun _ => viewInsert_again c _ i j hs h2

/-- A range that can be gone over once only, and is not empty. -/
def Source.Once (s : Source T) : Prop := s.category = .input ∧ s.items ≠ []

theorem usable_once {s : Source T} (h : Source.Once s) : s.usable s.items.length 0 = false := by
  have := List.length_pos_iff.2 h.2
  simp only [Source.usable, h.1, bne_self_eq_false, Bool.false_or, beq_eq_false_iff_ne]
  omega

theorem distance_once {s : Source T} (h : Source.Once s) : s.iterDistance 0 = .ok (s.items.length, s.items.length) := by
  obtain ⟨f, h1, h2⟩ := iterDistance_ok s (front := 0) (.inr rfl)
  rw [h1, h2 h.1 rfl]

theorem append_once (c : Cfg) {s : Source T} (h : Source.Once s) (b : Buf T) (q i : Nat) :
    s.append c s.items.length 0 b q i = .error (.ub .overrun) := by
  rw [Source.append, if_neg (by rw [usable_once h]; simp)]

theorem insert_once (c : Cfg) {s : Source T} (h : Source.Once s) (b : Buf T) (q i : Nat) :
    s.insert c s.items.length s.items.length 0 b q i = .error (.ub .overrun) := by
  obtain ⟨n, hn⟩ : ∃ n, s.items.length = n + 1 := ⟨s.items.length - 1, by have := List.length_pos_iff.2 h.2; omega⟩
  have hu := usable_once h
  rw [hn] at hu ⊢
  rw [Source.insert, if_neg (by rw [hu]; simp)]

/-- **C74 (ranges), disagreement.** Whenever a call with a list of values succeeds, the same call with a single pass range of these
values uses an iterator that is no longer valid: the number of values is counted first. -/
theorem C74_single_pass_undefined (c : Cfg) (s : Source T) (h : Source.Once s) :
    (∀ (a a' : Array1 T) (pos : Int), a.insert c pos s.items = .ok a' → a.insertFrom c pos s = .error (.ub .overrun)) ∧
    (∀ (a a' : AoA T) (i : Nat), a.appendToArray c i s.items = .ok a' → a.appendFrom c i s = .error (.ub .overrun)) ∧
    (∀ (a a' : AoA T) (i j : Nat), a.insertIntoArray c i j s.items = .ok a' → a.insertFrom c i j s = .error (.ub .overrun)) ∧
    (∀ a a' : AoA T, a.appendArray c s.items = .ok a' → a.appendArrayFrom c s = .error (.ub .overrun)) ∧
    (∀ (a a' : AoA T) (i : Nat), a.insertArray c i s.items = .ok a' → a.insertArrayFrom c i s = .error (.ub .overrun)) ∧
    (∀ (a a' : AoA T) (i j : Nat), a.viewInsertIntoArray c i j s.items = .ok a' →
      a.viewInsertFrom c i j s 0 = .error (.ub .overrun)) := by
  have hd := distance_once h
  have happ : ∀ (a a' : AoA T) (i : Nat), a.appendToArray c i s.items = .ok a' → a.appendFrom c i s = .error (.ub .overrun) := by
    intro a a' i ha
    unfold AoA.appendToArray AoA.viewAppendToArray at ha
    obtain ⟨a1, e1, ha⟩ := bind_eq_ok.1 ha
    obtain ⟨_, e2, ha⟩ := bind_eq_ok.1 ha
    obtain ⟨p, e3, ha⟩ := bind_eq_ok.1 ha
    obtain ⟨m, e4, ha⟩ := bind_eq_ok.1 ha
    unfold AoA.appendFrom AoA.viewAppendFrom
    simp only [hd, bind_ok, e1, e2, e3, e4, append_once c h]
    rfl
  have hview : ∀ (a a' : AoA T) (i j : Nat), a.viewInsertIntoArray c i j s.items = .ok a' →
      ∃ p m b, a.shape.checkInsertBounds2 c i j = .ok () ∧ a.shape.capacityCheck c i s.items.length = .ok () ∧ a.ptr i = .ok p ∧
        a.shape.sizeOfArray c i = .ok m ∧ arrayManipulation.assertNonNull c a.values p = .ok () ∧
        arrayManipulation.checkInsertBounds c m j = .ok () ∧ arrayManipulation.shiftUp c a.values p m j s.items.length = .ok b := by
    intro a a' i j ha
    unfold AoA.viewInsertIntoArray arrayManipulation.insert at ha
    obtain ⟨_, e1, ha⟩ := bind_eq_ok.1 ha
    obtain ⟨_, e2, ha⟩ := bind_eq_ok.1 ha
    obtain ⟨p, e3, ha⟩ := bind_eq_ok.1 ha
    obtain ⟨m, e4, ha⟩ := bind_eq_ok.1 ha
    obtain ⟨v, e5, _⟩ := bind_eq_ok.1 ha
    obtain ⟨_, e6, e5⟩ := bind_eq_ok.1 e5
    obtain ⟨_, e7, e5⟩ := bind_eq_ok.1 e5
    obtain ⟨b, e8, _⟩ := bind_eq_ok.1 e5
    exact ⟨p, m, b, e1, e2, e3, e4, e6, e7, e8⟩
  refine ⟨fun a a' pos ha => ?_, happ, fun a a' i j ha => ?_, fun a a' ha => ?_, fun a a' i ha => ?_, fun a a' i j ha => ?_⟩
  · unfold Array1.insert bufferManipulation.insert arrayManipulation.insert at ha
    obtain ⟨q, e1, ha⟩ := bind_eq_ok.1 ha
    obtain ⟨_, ha, _⟩ := bind_eq_ok.1 ha
    obtain ⟨_, e2, ha⟩ := bind_eq_ok.1 ha
    obtain ⟨b, e3, ha⟩ := bind_eq_ok.1 ha
    obtain ⟨_, e4, ha⟩ := bind_eq_ok.1 ha
    obtain ⟨_, e5, ha⟩ := bind_eq_ok.1 ha
    obtain ⟨_, e6, ha⟩ := bind_eq_ok.1 ha
    unfold Array1.insertFrom
    simp only [e1, e2, hd, bind_ok, e3, e4, e5, e6, insert_once c h]
    rfl
  · obtain ⟨a1, e0, ha⟩ := bind_eq_ok.1 ha
    obtain ⟨p, m, b, e1, e2, e3, e4, e5, e6, e7⟩ := hview _ _ _ _ ha
    have hd' : s.iterDistance s.items.length = .error (.ub .overrun) := by
      have hu := usable_once h
      unfold Source.iterDistance
      rw [h.1]
      show s.count s.items.length 0 0 = _
      rw [Source.count, if_neg (by rw [hu]; simp)]
    unfold AoA.insertFrom AoA.viewInsertFrom
    simp only [hd, bind_ok, e0, e1, hd']
    rfl
  · obtain ⟨sh, e0, ha⟩ := bind_eq_ok.1 ha
    unfold AoA.appendArrayFrom
    rw [e0, bind_ok]
    exact happ _ _ _ ha
  · obtain ⟨sh, e0, ha⟩ := bind_eq_ok.1 ha
    unfold AoA.insertArrayFrom
    rw [e0, bind_ok]
    exact happ _ _ _ ha
  · obtain ⟨p, m, b, e1, e2, e3, e4, e5, e6, e7⟩ := hview _ _ _ _ ha
    unfold AoA.viewInsertFrom
    simp only [e1, hd, bind_ok, e2, e3, e4, e5, e6, e7, insert_once c h]
    rfl

/-! ## Values -/

theorem made_length {A : Type} (make : A → T × A) : ∀ (n : Nat) (args : A), (made make n args).length = n
  | 0, _ => rfl
  | n + 1, args => by simp [made, made_length make n]

/-- The loop constructs the values one after another. -/
theorem constructMaking_items {A : Type} (c : Cfg) (make : A → T × A) (q : Nat) : ∀ (n : Nat) (pre : List T) (b : Buf T) (args : A),
    arrayManipulation.constructMaking c make b (q + pre.length) n args =
      (forUp n (q + pre.length) (fun j b => b.construct c j ((pre ++ made make n args).getD (j - q) default)) b >>=
        fun b => .ok (b, leftOf make n args)) := by
  intro n
  induction n with
  | zero => intro pre b args; rfl
  | succ n ih =>
    intro pre b args
    have hg : (pre ++ made make (n + 1) args).getD (q + pre.length - q) default = (make args).1 := by
      rw [Nat.add_sub_cancel_left, List.getD_eq_getElem?_getD, List.getElem?_append_right (Nat.le_refl _), Nat.sub_self]; rfl
    have h2 := fun b => ih (pre ++ [(make args).1]) b (make args).2
    simp only [List.append_assoc, List.length_append, List.length_cons, List.length_nil, List.cons_append, List.nil_append,
      Nat.zero_add, ← Nat.add_assoc] at h2
    unfold arrayManipulation.constructMaking at h2 ⊢
    simp only [forUp]
    rw [hg, bind_assoc, bind_assoc]
    refine bind_congr fun b' => ?_
    rw [bind_ok, h2 b']
    rfl

/-- Elements of a row are appended to or removed from it. -/
theorem resizeMaking_win {A : Type} {c : Cfg} {Q : Cell T → Prop} {b0 b : Buf T} {p cap : Nat} {f : List T}
    (h : Win Q b0 b p cap f 0 []) (make : A → T × A) (n : Nat) (hn : n ≤ cap) (args : A) :
    ∃ b1, arrayManipulation.resizeMaking c make b p f.length n args = .ok (b1, leftOf make (n - f.length) args) ∧
      Win Q b0 b1 p cap (f.take n ++ made make (n - f.length) args) 0 [] := by
  unfold arrayManipulation.resizeMaking
  rcases Nat.le_total n f.length with hl | hl
  · obtain ⟨b1, h1, w⟩ := h.resizeTo (c := c) n hn default
    rw [Nat.sub_eq_zero_of_le hl] at w ⊢
    unfold arrayManipulation.resize at h1
    rw [Nat.sub_eq_zero_of_le hl] at h1
    obtain ⟨b2, h2, h3⟩ := bind_eq_ok.1 h1
    cases h3
    exact ⟨b1, by rw [h2]; rfl, w⟩
  · obtain ⟨b1, h1, w⟩ := h.appendMany (c := c) (made make (n - f.length) args) (by rw [made_length]; omega)
    rw [Nat.sub_eq_zero_of_le hl, List.take_of_length_le hl]
    refine ⟨b1, ?_, w⟩
    have e := constructMaking_items c make (p + f.length) (n - f.length) [] b args
    simp only [List.length_nil, Nat.add_zero, List.nil_append] at e
    show arrayManipulation.constructMaking c make b (p + f.length) (n - f.length) args = _
    unfold arrayManipulation.append arrayManipulation.constructRange at h1
    rw [made_length] at h1
    rw [e, h1]
    rfl

/-- **C74 (values), exactly.** `resizeArray( i, n, args ... )` appends the values that are built one after another from what is left
of the arguments, or removes elements; nothing else changes except the capacity. -/
theorem C74_resize_exact {A : Type} (c : Cfg) {a : AoA T} {L : List (List T × Nat)} (h : Reach c a L) (make : A → T × A)
    (i n : Nat) (args : A) {xs : List T} {cap : Nat} (hi : L[i]? = some (xs, cap))
    (hroom : cap < n → Relocatable c L ∨ (L.map (·.2)).sum + (n - cap) ≤ a.values.cap) :
    ∃ a', a.resizeArrayMaking c make i n args = .ok (a', leftOf make (n - xs.length) args) ∧
      Shows c a' ((L.map (·.1)).set i (xs.take n ++ made make (n - xs.length) args)) ∧
      Capacities c a' ((L.map (·.2)).set i (max cap n)) := by
  obtain ⟨hlt, hx⟩ := List.getElem?_eq_some_iff.1 hi
  have hsplit : L = L.take i ++ (xs, cap) :: L.drop (i + 1) := by
    rw [← hx, ← List.drop_eq_getElem_cons hlt, List.take_append_drop]
  have hlen : (L.take i).length = i := by simp; omega
  have hg0 := reach_good h
  generalize hA : L.take i = P at hsplit hlen
  generalize hB : L.drop (i + 1) = B at hsplit
  subst hsplit
  subst hlen
  have hfx := hg0.lay.fits (xs, cap) (by simp)
  simp only at hfx
  unfold AoA.resizeArrayMaking
  rw [hg0.checkBounds (by simp), bind_ok, hg0.shape.capacityOfAt rfl, bind_ok]
  have hgrow : ∃ a1, AoA.growIf c (decide (cap < n)) a P.length n = .ok a1 ∧ AGood a1 (P ++ (xs, max cap n) :: B) := by
    unfold AoA.growIf
    by_cases hc : cap < n
    · simp only [hc, decide_true, if_true]
      have := hg0.setCapacity (c := c) n
      rw [List.take_of_length_le (by omega)] at this
      rw [Nat.max_eq_right (by omega)]
      rcases this with ⟨_, a1, e, g, _⟩ | ⟨hno, _⟩
      · exact ⟨a1, e, g⟩
      · refine absurd ?_ hno
        rcases hroom hc with h | h
        · exact .inr h
        · refine .inl ?_
          simp only [List.map_append, List.map_cons, List.sum_append, List.sum_cons] at h
          simp only [total_append, total_cons]
          unfold total
          omega
    · simp only [hc, decide_false, if_false, Bool.false_eq_true]
      rw [Nat.max_eq_left (by omega)]
      exact ⟨a, rfl, hg0⟩
  obtain ⟨a1, e1, hg⟩ := hgrow
  obtain ⟨b1, h1, w⟩ := resizeMaking_win (c := c) (hg.lay.toWin IsRaw) make n (by omega) args
  obtain ⟨s', h2, hg2⟩ := hg.afterRow (c := c) w
  have hl : (xs.take n ++ made make (n - xs.length) args).length = n := by simp [made_length]; omega
  rw [hl] at h2
  rw [e1, bind_ok, hg.shape.sizeOfAt rfl, bind_ok, hg.checkBounds (by simp), bind_ok, hg.ptr, bind_ok, h1, bind_ok]
  simp only [h2, bind_ok]
  refine ⟨_, rfl, ?_, ?_⟩
  · have := shows_of_good (c := c) hg2
    simpa using this
  · have := capacities_of_good (c := c) hg2
    simpa using this

theorem made_unchanged {A : Type} (make : A → T × A) {args : A} (h : (make args).2 = args) :
    ∀ n : Nat, made make n args = List.replicate n (make args).1
  | 0 => rfl
  | n + 1 => by rw [made, h, made_unchanged make h n, List.replicate_succ]

/-- **C74 (values), partial.** `resizeArray( i, n, args ... )` does the same as `vector[ i ].resize( n, T( args ... ) )` if building an
element leaves the arguments as they were, and if it builds at most one element.  Missing: arguments that are used up, see
`C74_moved_arguments`. -/
theorem C74_resize_partial {A : Type} (c : Cfg) {a : AoA T} {L : List (List T × Nat)} (h : Reach c a L) (make : A → T × A)
    (i n : Nat) (args : A) {xs : List T} {cap : Nat} (hi : L[i]? = some (xs, cap))
    (hroom : cap < n → Relocatable c L ∨ (L.map (·.2)).sum + (n - cap) ≤ a.values.cap)
    (hargs : (make args).2 = args ∨ n ≤ xs.length + 1) :
    ∃ a' L', vvcStep L (.resizeArray i n (make args).1) = some L' ∧
      (a.resizeArrayMaking c make i n args >>= fun r => .ok r.1) = .ok a' ∧ Shows c a' (L'.map (·.1)) ∧ Capacities c a' (L'.map (·.2)) := by
  obtain ⟨a', h1, h2, h3⟩ := C74_resize_exact c h make i n args hi hroom
  have hm : made make (n - xs.length) args = List.replicate (n - xs.length) (make args).1 := by
    rcases hargs with he | he
    · exact made_unchanged make he _
    · rcases Nat.lt_or_ge xs.length n with hlt | hge
      · rw [show n - xs.length = 1 by omega]; rfl
      · rw [Nat.sub_eq_zero_of_le hge]; rfl
  refine ⟨a', L.set i (xs.take n ++ List.replicate (n - xs.length) (make args).1, max cap n), ?_, by rw [h1]; rfl, ?_, ?_⟩
  · simp only [vvcStep, onRowC, hi, if_true]
  · rw [List.map_set, ← hm]; exact h2
  · rw [List.map_set]; exact h3

/-- **C74 (values), disagreement.** The second new element is built from what building the first one has left of the arguments, not
from the arguments: the loop forwards them again and again. -/
theorem C74_moved_arguments {A : Type} (c : Cfg) {a : AoA T} {L : List (List T × Nat)} (h : Reach c a L) (make : A → T × A)
    (i n : Nat) (args : A) {xs : List T} {cap : Nat} (hi : L[i]? = some (xs, cap))
    (hroom : cap < n → Relocatable c L ∨ (L.map (·.2)).sum + (n - cap) ≤ a.values.cap)
    (hn : xs.length + 2 ≤ n) :
    ∃ a' left, a.resizeArrayMaking c make i n args = .ok (a', left) ∧
      a'.get c i xs.length = .ok (make args).1 ∧ a'.get c i (xs.length + 1) = .ok (make (make args).2).1 := by
  obtain ⟨a', h1, ⟨_, h2⟩, _⟩ := C74_resize_exact c h make i n args hi hroom
  obtain ⟨hlt, _⟩ := List.getElem?_eq_some_iff.1 hi
  obtain ⟨m, hm⟩ : ∃ m, n - xs.length = m + 2 := ⟨n - xs.length - 2, by omega⟩
  have hrow := (h2 i (by simpa using hlt)).2
  simp only [List.getElem_set_self, hm] at hrow
  have hl := made_length make (m + 2) args
  refine ⟨a', _, h1, ?_, ?_⟩
  · rw [hrow xs.length (by simp [hl]; omega)]
    rw [List.getElem_append_right (by simp; omega)]
    simp [made, List.take_of_length_le (show xs.length ≤ n by omega)]
  · rw [hrow (xs.length + 1) (by simp [hl]; omega)]
    rw [List.getElem_append_right (by simp; omega)]
    simp only [made, List.take_of_length_le (show xs.length ≤ n by omega), Nat.add_sub_cancel_left, List.getElem_cons_succ,
      List.getElem_cons_zero]

/-! ### The hypotheses are met -/

/-- A string that is passed as an rvalue: the constructor takes its contents. -/
def moveString (s : String) : String × String := (s, "")

/-- A string that is passed as an lvalue. -/
def copyString (s : String) : String × String := (s, s)

/-- Two rows of strings; the first has one element and room for one more. -/
theorem strings_reach : ∃ a : AoA String, Reach { debug := true, boundsCheck := true, trivial := false } a [(["x"], 2), ([], 2)] :=
  ⟨_, 2, 2, [.emplaceBack 0 "x"], _, by intro _ op h; simp at h; subst h; trivial, rfl, rfl, rfl⟩

/-- `a.resizeArray( 1, 2, std::string( "abc" ) )`: the second element is empty. -/
example : ∃ (a a' : AoA String) (left : String), Reach { debug := true, boundsCheck := true, trivial := false } a [(["x"], 2), ([], 2)] ∧
    a.resizeArrayMaking { debug := true, boundsCheck := true, trivial := false } moveString 1 2 "abc" = .ok (a', left) ∧
    a'.get { debug := true, boundsCheck := true, trivial := false } 1 0 = .ok "abc" ∧ a'.get { debug := true, boundsCheck := true, trivial := false } 1 1 = .ok "" := by
  obtain ⟨a, ha⟩ := strings_reach
  obtain ⟨a', left, h1, h2, h3⟩ := C74_moved_arguments _ ha moveString 1 2 "abc" (xs := []) (cap := 2) rfl (by omega) (by simp)
  exact ⟨a, a', left, ha, h1, h2, h3⟩

/-- With `std::string const s( "abc" )` the two elements are equal. -/
example : ∃ (a a' : AoA String), Reach { debug := true, boundsCheck := true, trivial := false } a [(["x"], 2), ([], 2)] ∧
    (a.resizeArrayMaking { debug := true, boundsCheck := true, trivial := false } copyString 1 2 "abc" >>= fun r => .ok r.1) = .ok a' ∧
    Shows { debug := true, boundsCheck := true, trivial := false } a' [["x"], ["abc", "abc"]] := by
  obtain ⟨a, ha⟩ := strings_reach
  obtain ⟨a', L', h0, h1, h2, _⟩ := C74_resize_partial _ ha copyString 1 2 "abc" (xs := []) (cap := 2) rfl (by omega) (.inl rfl)
  cases h0
  exact ⟨a, a', ha, h1, h2⟩

/-- A list of two values given by forward iterators and by a stream. -/
example : Source.Again { items := [1, 2], category := .forward : Source Nat } ∧
    Source.Once { items := [1, 2], category := .input : Source Nat } := ⟨.inl (by simp), rfl, by simp⟩

/-- Inserting from a stream into an array fails, from a list it does not. -/
example :
    let c : Cfg := { debug := false, boundsCheck := true, trivial := true }
    let a : Array1 Nat := Array1.init Nat none
    (a.insertFrom c 0 { items := [1, 2], category := .forward } >>= fun a => .ok (a.size, a.buf.read 0, a.buf.read 1)) =
      .ok (2, .ok 1, .ok 2) ∧
    (a.insertFrom c 0 { items := [1, 2], category := .input } >>= fun _ => .ok ()) = .error (.ub .overrun) := by
  decide +kernel

end LvArray.Props
