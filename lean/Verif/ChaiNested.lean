import Verif.ChaiLemmas
/-!
# Lemmas about arrays of arrays in `ChaiBuffer`
-/

namespace LvArray.Chai

open LvArray.Spec

theorem Heap.get_set_ne {C : Type} (h : Heap C) {id id' : Nat} (hne : id' ≠ id) (r : Option (Record C)) :
    Heap.get (h.set id r) id' = h.get id' := by
  simp [Heap.get, List.getElem?_set_ne (Ne.symm hne)]

/-- `moveRecord` to another space. -/
theorem moveRecord_touched {C : Type} (fresh : C) {r : Record C} {l s : Space} {src : C} (hl : r.last = some l) (hs : l ≠ s)
    (hc : r.copy l = some src) (ht : r.touched l = true) (touch : Bool) :
    (moveRecord fresh r s touch).copy = put r.copy s (some src) ∧ (moveRecord fresh r s touch).last = some s ∧
    (moveRecord fresh r s touch).touched s = touch ∧ ∀ s', s' ≠ s → (moveRecord fresh r s touch).touched s' = false := by
  obtain ⟨copy, tch, last⟩ := r
  simp only at hl hc ht
  subst hl
  have hne : ¬ (some l = some s) := fun e => hs (Option.some.inj e)
  have hm : managerMove fresh ⟨copy, tch, some l⟩ s = ⟨put copy s (some src), fun _ => false, some l⟩ := by
    simp only [managerMove, hne, if_false]
    rw [put_ne _ _ hs, hc]
    simp only [ht, if_true]
    congr 1
    funext s'
    by_cases e : s' = s
    · subst e; rw [put_same, put_same]
    · rw [put_ne _ _ e, put_ne _ _ e, put_ne _ _ e]
  cases touch
  · simp [moveRecord, hm]
  · refine ⟨by simp [moveRecord, hm], by simp [moveRecord, hm], by simp [moveRecord, hm, put_same], fun s' hs' => ?_⟩
    simp [moveRecord, hm, put_ne _ _ hs']

theorem moveRecord_untouched {C : Type} (fresh : C) {r : Record C} {l s : Space} {src dst : C} (hl : r.last = some l) (hs : l ≠ s)
    (hc : r.copy l = some src) (hd : r.copy s = some dst) (ht : r.touched l = false) (ht' : r.touched s = false) (touch : Bool) :
    (moveRecord fresh r s touch).copy = r.copy ∧ (moveRecord fresh r s touch).last = some s ∧
    (moveRecord fresh r s touch).touched s = touch ∧ ∀ s', s' ≠ s → (moveRecord fresh r s touch).touched s' = false := by
  obtain ⟨copy, tch, last⟩ := r
  simp only at hl hc hd ht ht'
  subst hl
  have hne : ¬ (some l = some s) := fun e => hs (Option.some.inj e)
  have hm : managerMove fresh ⟨copy, tch, some l⟩ s = ⟨copy, tch, some l⟩ := by
    simp only [managerMove, hne, if_false]
    rw [put_ne _ _ hs, hc, hd]
    simp only [ht, Bool.false_eq_true, if_false, Option.getD_some]
    congr 1
    funext s'
    by_cases e : s' = s
    · subst e; rw [put_same, hd]
    · rw [put_ne _ _ e]
  have hother : ∀ s', s' ≠ s → tch s' = false := fun s' hs' => by
    have : s' = l := by cases s <;> cases s' <;> cases l <;> simp_all
    rw [this, ht]
  cases touch
  · have e : moveRecord fresh ⟨copy, tch, some l⟩ s false = ⟨copy, tch, some s⟩ := by simp [moveRecord, hm]
    rw [e]
    exact ⟨rfl, rfl, ht', hother⟩
  · refine ⟨by simp [moveRecord, hm], by simp [moveRecord, hm], by simp [moveRecord, hm, put_same], fun s' hs' => ?_⟩
    simp [moveRecord, hm, put_ne _ _ hs', hother s' hs']

theorem moveRecord_same {C : Type} (fresh : C) {r : Record C} {s : Space} (hl : r.last = some s) (touch : Bool) :
    (moveRecord fresh r s touch).copy = r.copy ∧ (moveRecord fresh r s touch).last = some s ∧
    (moveRecord fresh r s touch).touched s = (r.touched s || touch) ∧
    ∀ s', s' ≠ s → (moveRecord fresh r s touch).touched s' = r.touched s' := by
  have hm : managerMove fresh r s = r := by simp [managerMove, hl]
  cases touch
  · simp [moveRecord, hm]
  · refine ⟨by simp [moveRecord, hm], by simp [moveRecord, hm], by simp [moveRecord, hm, put_same], fun s' hs' => ?_⟩
    simp [moveRecord, hm, put_ne _ _ hs']

/-- The inner arrays stored in an allocation of the outer array: each with its own record, and with a pointer as `P` says if it has an
allocation. -/
def Entries (caps : List Nat) (P : Option Space → Prop) (d : Data Buffer) : Prop :=
  ∀ i (h : i < caps.length), ∃ p, d i = some ⟨p, caps[i], some i, false⟩ ∧ (0 < caps[i] → P p)

/-- The records of the inner arrays. -/
def InnerHolds {T : Type} (caps : List Nat) (inner : Heap (Data T)) (value : Nat → Nat → Option T) (current : Space) (touched : Bool) : Prop :=
  ∀ i (h : i < caps.length), 0 < caps[i] → ∃ r, inner.get i = some r ∧ Holds r (value i) current touched

theorem moveInnerData_ok {T : Type} {caps : List Nat} {inner : Heap (Data T)} {value : Nat → Nat → Option T} {current s : Space}
    {touched : Bool} (hI : InnerHolds caps inner value current touched) {d : Data Buffer} (hd : Entries caps (fun _ => True) d)
    (hs : s ≠ current) (touch : Bool) : ∀ size, size ≤ caps.length →
    ∃ inner' d', moveInnerData inner d s touch size = .ok (inner', d') ∧
      (∀ i (h : i < caps.length), i < size → ∃ p, d' i = some ⟨p, caps[i], some i, false⟩ ∧ (0 < caps[i] → p = some s)) ∧
      (∀ i, size ≤ i → d' i = d i) ∧
      (∀ i (h : i < caps.length), i < size → 0 < caps[i] → ∃ r, inner'.get i = some r ∧ Holds r (value i) s touch) ∧
      (∀ i, size ≤ i → inner'.get i = inner.get i)
  | 0, _ => ⟨inner, d, rfl, fun i _ h => absurd h (by omega), fun _ _ => rfl, fun i _ h => absurd h (by omega), fun _ _ => rfl⟩
  | size + 1, hle => by
    obtain ⟨inner', d', e, h1, h2, h3, h4⟩ := moveInnerData_ok hI hd hs touch size (by omega)
    have hlt : size < caps.length := by omega
    obtain ⟨p, hp, -⟩ := hd size hlt
    have hp' : d' size = some ⟨p, caps[size], some size, false⟩ := by rw [h2 size (by omega), hp]
    by_cases hz : caps[size] = 0
    · refine ⟨inner', fun i => if i = size then some ⟨p, caps[size], some size, false⟩ else d' i, ?_, fun i hi hlt' => ?_, fun i hi => ?_,
        fun i hi hlt' hpos => ?_, fun i hi => h4 i (by omega)⟩
      · simp only [moveInnerData, e, bind_ok, hp']
        simp [Chai.move, hz, bind_ok]
      · by_cases ei : i = size
        · subst ei
          exact ⟨p, by simp, fun h => absurd h (by omega)⟩
        · obtain ⟨q, hq, hq'⟩ := h1 i hi (by omega)
          exact ⟨q, by simp [ei, hq], hq'⟩
      · have : i ≠ size := by omega
        simp [this, h2 i (by omega)]
      · have : i ≠ size := fun e => by subst e; omega
        exact h3 i hi (by omega) hpos
    · have hpos : 0 < caps[size] := Nat.pos_of_ne_zero hz
      obtain ⟨r, hr, hH⟩ := hI size hlt hpos
      have hr' : inner'.get size = some r := by rw [h4 size (by omega), hr]
      obtain ⟨hm, -⟩ := hH.move (fun _ => none) s touch
      have hdec : decide (s = current) = false := by simp [hs]
      rw [hdec, Bool.and_false, Bool.or_false] at hm
      refine ⟨inner'.set size (some (moveRecord (fun _ => none) r s touch)),
        fun i => if i = size then some ⟨some s, caps[size], some size, false⟩ else d' i, ?_, fun i hi hlt' => ?_, fun i hi => ?_,
        fun i hi hlt' hpos => ?_, fun i hi => ?_⟩
      · simp only [moveInnerData, e, bind_ok, hp']
        rw [move_ok _ hr' (b := ⟨p, caps[size], some size, false⟩) rfl hpos]
        simp [bind_ok]
      · by_cases ei : i = size
        · subst ei
          exact ⟨some s, by simp, fun _ => rfl⟩
        · obtain ⟨q, hq, hq'⟩ := h1 i hi (by omega)
          exact ⟨q, by simp [ei, hq], hq'⟩
      · have : i ≠ size := by omega
        simp [this, h2 i (by omega)]
      · by_cases ei : i = size
        · subst ei
          exact ⟨_, Heap.get_set hr' _, hm⟩
        · rw [Heap.get_set_ne _ ei]
          exact h3 i hi (by omega) hpos
      · rw [Heap.get_set_ne _ (by omega)]
        exact h4 i (by omega)

/-- The record of the outer array. -/
structure OuterHolds (caps : List Nat) (r : Record (Data Buffer)) (current : Space) : Prop where
  last : r.last = some current
  copy : ∃ d, r.copy current = some d ∧ Entries caps (fun p => p = some current) d
  other : ∀ s, s ≠ current → r.touched s = false
  same : r.touched current = false → ∀ s, s ≠ current →
    ∃ d, r.copy s = some d ∧ Entries caps (fun p => s = .device → p = some .device) d

theorem Entries.mono {caps : List Nat} {P Q : Option Space → Prop} (h : ∀ p, P p → Q p) {d : Data Buffer} (hd : Entries caps P d) :
    Entries caps Q d := fun i hi => by
  obtain ⟨p, e, hp⟩ := hd i hi
  exact ⟨p, e, fun hpos => h p (hp hpos)⟩

/-- `moveNested` by a view that is on the host, if the data is there and the move is to the device. -/
theorem moveNested_ok {T : Type} {caps : List Nat} (hn : 0 < caps.length) {h : NHeap T} {r : Record (Data Buffer)} {value : Nat → Nat → Option T}
    {current : Space} {touched : Bool} (hr : h.outer.get 0 = some r) (hO : OuterHolds caps r current)
    (hI : InnerHolds caps h.inner value current touched) {p : Space} {oc : Bool} (hp : r.copy p ≠ none) (s : Space)
    (hrule : ¬ (current = .host ∧ s = .device ∧ p ≠ .host)) (innerConst touch : Bool) :
    ∃ h' r', moveNested h ⟨some p, caps.length, some 0, oc⟩ innerConst caps.length (some s) touch =
        .ok (h', ⟨some s, caps.length, some 0, oc⟩) ∧ h'.outer.get 0 = some r' ∧ OuterHolds caps r' s ∧
      InnerHolds caps h'.inner value s (touchedAfter true touched current s (touch && !innerConst)) ∧
      ∀ q, r.copy q ≠ none → r'.copy q ≠ none := by
  obtain ⟨d, hd, hE⟩ := hO.copy
  have hl := hO.last
  by_cases hs : s = current
  · subst hs
    obtain ⟨m1, m2, m3, m4⟩ := moveRecord_same (fun _ => none) hl (!oc && touch)
    refine ⟨⟨h.outer.set 0 (some (moveRecord (fun _ => none) r s (!oc && touch))), h.inner⟩, moveRecord (fun _ => none) r s (!oc && touch),
      ?_, Heap.get_set hr _, ⟨m2, ⟨d, by rw [m1]; exact hd, hE⟩, fun s' hs' => by rw [m4 s' hs', hO.other s' hs'], fun ht => ?_⟩, ?_, ?_⟩
    · simp only [moveNested, Nat.ne_of_gt hn, if_false, hr, hl, ne_eq, not_true_eq_false, decide_false, Bool.and_false, moveInnerIf,
        Bool.false_eq_true, bind_ok, move_ok _ hr (b := ⟨some p, caps.length, some 0, oc⟩) rfl hn]
    · rw [m3] at ht
      rw [m1]
      exact hO.same (by revert ht; cases r.touched s <;> simp)
    · simp only [touchedAfter, if_true, Bool.not_true, Bool.false_and, Bool.or_false]
      exact hI
    · rw [m1]; exact fun q hq => hq
  · have hs' : current ≠ s := fun e => hs e.symm
    have hta : touchedAfter true touched current s (touch && !innerConst) = (!innerConst && touch) := by
      simp only [touchedAfter, hs, if_false, Bool.and_comm]
    rw [hta]
    by_cases hh : current = .host
    · -- from the host to the device
      subst hh
      have hsd : s = .device := by cases s <;> simp_all
      subst hsd
      have hph : p = .host := by
        by_cases e : p = .host
        · exact e
        · exact absurd ⟨rfl, rfl, e⟩ hrule
      subst hph
      obtain ⟨inner', d', e, h1, h2, h3, h4⟩ := moveInnerData_ok hI (hE.mono fun _ _ => trivial) hs (!innerConst && touch) caps.length
        (Nat.le_refl _)
      have hE' : Entries caps (fun p => p = some .device) d' := fun i hi => h1 i hi hi
      obtain ⟨r1, hr1⟩ : ∃ r1, r1 = { r with copy := put r.copy .host (some d') } := ⟨_, rfl⟩
      have hl1 : r1.last = some .host := by rw [hr1]; exact hl
      have hc1 : r1.copy .host = some d' := by rw [hr1]; exact put_same r.copy .host (some d')
      have ht1 : ∀ s, r1.touched s = r.touched s := fun s => by rw [hr1]
      have hg : Heap.get (h.outer.set 0 (some r1)) 0 = some r1 := Heap.get_set hr _
      have hmv : moveNested h ⟨some .host, caps.length, some 0, oc⟩ innerConst caps.length (some .device) touch =
          .ok (⟨(h.outer.set 0 (some r1)).set 0 (some (moveRecord (fun _ => none) r1 .device (!oc && touch))), inner'⟩,
            ⟨some .device, caps.length, some 0, oc⟩) := by
        simp only [moveNested, Nat.ne_of_gt hn, if_false, hr, hl]
        have c1 : (decide True && decide (some Space.host ≠ some Space.device)) = true := by decide
        have c2 : (decide (some Space.host = some Space.device) && decide (some Space.host ≠ some Space.device)) = false := by decide
        rw [c1, c2]
        simp only [moveInnerIf, if_true, moveInner, deref_ok hr (b := ⟨some .host, caps.length, some 0, oc⟩) rfl rfl hd, bind_ok, e, hr,
          ← hr1, move_ok _ hg (b := ⟨some .host, caps.length, some 0, oc⟩) rfl hn, Bool.false_eq_true, if_false]
      have hInner : InnerHolds caps inner' value .device (!innerConst && touch) := fun i hi hpos => h3 i hi hi hpos
      cases ht : r.touched .host
      · obtain ⟨d2, hd2, hE2⟩ := hO.same ht .device hs
        have hd2' : r1.copy .device = some d2 := by rw [hr1]; simp only; rw [put_ne _ _ hs, hd2]
        obtain ⟨m1, m2, m3, m4⟩ := moveRecord_untouched (fun _ => none) hl1 hs' hc1 hd2' (by rw [ht1, ht])
          (by rw [ht1]; exact hO.other _ hs) (!oc && touch)
        refine ⟨_, _, hmv, Heap.get_set hg _, ⟨m2, ⟨d2, by rw [m1]; exact hd2', hE2.mono fun p hp => hp rfl⟩, m4, fun _ s hs => ?_⟩,
          hInner, fun q hq => ?_⟩
        · have : s = .host := by cases s <;> simp_all
          subst this
          exact ⟨d', by rw [m1]; exact hc1, hE'.mono fun p hp _ => hp⟩
        · rw [m1, hr1]; simp only
          by_cases eq : q = .host
          · rw [eq, put_same]; exact fun e => by cases e
          · rw [put_ne _ _ eq]; exact hq
      · obtain ⟨m1, m2, m3, m4⟩ := moveRecord_touched (fun _ => none) hl1 hs' hc1 (by rw [ht1, ht]) (!oc && touch)
        refine ⟨_, _, hmv, Heap.get_set hg _, ⟨m2, ⟨d', by rw [m1, put_same], hE'⟩, m4, fun _ s hs => ?_⟩,
          hInner, fun q hq => ?_⟩
        · have : s = .host := by cases s <;> simp_all
          subst this
          exact ⟨d', by rw [m1, put_ne _ _ hs]; exact hc1, hE'.mono fun p hp _ => hp⟩
        · rw [m1]
          by_cases eq : q = .device
          · rw [eq, put_same]; exact fun e => by cases e
          · have : q = .host := by cases q <;> simp_all
            rw [put_ne _ _ eq, this, hc1]; exact fun e => by cases e
    · -- from the device to the host
      have hcd : current = .device := by cases current <;> simp_all
      subst hcd
      have hsh : s = .host := by cases s <;> simp_all
      subst hsh
      -- the outer array first
      have hout : ∃ d1, (moveRecord (fun _ => none) r .host (!oc && touch)).copy .host = some d1 ∧ Entries caps (fun _ => True) d1 ∧
          (moveRecord (fun _ => none) r .host (!oc && touch)).copy .device = some d ∧
          (moveRecord (fun _ => none) r .host (!oc && touch)).last = some .host ∧
          (moveRecord (fun _ => none) r .host (!oc && touch)).touched .device = false := by
        cases ht : r.touched .device
        · obtain ⟨d2, hd2, hE2⟩ := hO.same ht .host hs
          obtain ⟨m1, m2, m3, m4⟩ := moveRecord_untouched (fun _ => none) hl hs' hd hd2 ht (hO.other _ hs) (!oc && touch)
          exact ⟨d2, by rw [m1]; exact hd2, hE2.mono fun _ _ => trivial, by rw [m1]; exact hd, m2, m4 _ hs'⟩
        · obtain ⟨m1, m2, m3, m4⟩ := moveRecord_touched (fun _ => none) hl hs' hd ht (!oc && touch)
          exact ⟨d, by rw [m1, put_same], hE.mono fun _ _ => trivial, by rw [m1, put_ne _ _ hs']; exact hd, m2, m4 _ hs'⟩
      obtain ⟨d1, hd1, hE1, hdev, hlast, htd⟩ := hout
      obtain ⟨r1, hr1⟩ : ∃ r1, r1 = moveRecord (fun _ => none) r .host (!oc && touch) := ⟨_, rfl⟩
      rw [← hr1] at hd1 hdev hlast htd
      obtain ⟨inner', d', e, h1, h2, h3, h4⟩ := moveInnerData_ok hI hE1 hs (!innerConst && touch) caps.length (Nat.le_refl _)
      have hg : Heap.get (h.outer.set 0 (some r1)) 0 = some r1 := Heap.get_set hr _
      have hmv : moveNested h ⟨some p, caps.length, some 0, oc⟩ innerConst caps.length (some .host) touch =
          .ok (⟨(h.outer.set 0 (some r1)).set 0 (some { r1 with copy := put r1.copy .host (some d') }), inner'⟩,
            ⟨some .host, caps.length, some 0, oc⟩) := by
        simp only [moveNested, Nat.ne_of_gt hn, if_false, hr, hl]
        have c1 : (decide (some Space.device = some Space.host) && decide (some Space.device ≠ some Space.host)) = false := by decide
        have c2 : (decide True && decide (some Space.device ≠ some Space.host)) = true := by decide
        rw [c1, c2]
        simp only [moveInnerIf, Bool.false_eq_true, if_false, bind_ok, move_ok _ hr (b := ⟨some p, caps.length, some 0, oc⟩) rfl hn, ← hr1,
          if_true, moveInner, deref_ok hg (b := ⟨some .host, caps.length, some 0, oc⟩) rfl rfl hd1, e, hg]
      refine ⟨_, _, hmv, Heap.get_set hg _, ⟨hlast, ⟨d', put_same r1.copy .host (some d'), fun i hi => h1 i hi hi⟩, fun s hs => ?_, fun _ s hs => ?_⟩,
        fun i hi hpos => h3 i hi hi hpos, fun q hq => ?_⟩
      · have : s = .device := by cases s <;> simp_all
        rw [this]; exact htd
      · have : s = .device := by cases s <;> simp_all
        subst this
        exact ⟨d, by simp only; rw [put_ne _ _ hs]; exact hdev, hE.mono fun p hp _ => hp⟩
      · simp only
        by_cases eq : q = .host
        · rw [eq, put_same]; exact fun e => by cases e
        · have : q = .device := by cases q <;> simp_all
          rw [put_ne _ _ eq, this, hdev]; exact fun e => by cases e

end LvArray.Chai
