import Verif.ChaiLemmas
import Verif.Spec.Placed

/-!
# One buffer of a container in several memory spaces
-/

namespace LvArray.Placed

open Chai (Space Record Heap Buffer put Holds)

variable {X : Type}

/-- An allocation of size zero holds nothing. -/
def norm (b : Buf X) : Buf X := if b.cap = 0 then Buf.empty else b

theorem norm_cap (b : Buf X) : (norm b).cap = b.cap := by
  unfold norm
  split
  · next h => rw [h]; rfl
  · rfl

theorem norm_zero {b : Buf X} (h : (norm b).cap = 0) : norm b = Buf.empty := by
  rw [norm_cap] at h
  simp [norm, h]

theorem norm_of_pos {b : Buf X} (h : b.cap ≠ 0) : norm b = b := by simp [norm, h]

/-- View `v` of the list, if it is valid. -/
abbrev at_ {A : Type} (vs : List (Option A)) (v : Nat) : Option A := (vs[v]?).getD none

theorem at_lt {A : Type} {vs : List (Option A)} {v : Nat} {x : A} (h : at_ vs v = some x) : v < vs.length := by
  refine Nat.lt_of_not_le fun hn => ?_
  simp [at_, List.getElem?_eq_none hn] at h

theorem at_append {A : Type} {vs : List (Option A)} {x y : A} {v : Nat} (h : at_ (vs ++ [some x]) v = some y) :
    at_ vs v = some y ∨ (v = vs.length ∧ x = y) := by
  rcases Nat.lt_trichotomy v vs.length with hv | hv | hv
  · left; rw [at_, List.getElem?_append_left hv] at h; exact h
  · right; subst hv; simp [at_] at h; exact ⟨rfl, h⟩
  · rw [at_, List.getElem?_append_right (by omega), List.getElem?_eq_none (by simp; omega)] at h
    cases h

theorem at_set {A : Type} {vs : List (Option A)} {x y : A} {v w : Nat} (h : at_ (vs.set w (some x)) v = some y) :
    (v ≠ w ∧ at_ vs v = some y) ∨ (v = w ∧ w < vs.length ∧ x = y) := by
  by_cases e : v = w
  · right
    subst e
    by_cases hv : v < vs.length
    · simp [at_, hv] at h; exact ⟨rfl, hv, h⟩
    · rw [at_, List.getElem?_eq_none (by simp; omega)] at h; cases h
  · left
    rw [at_, List.getElem?_set_ne (Ne.symm e)] at h
    exact ⟨e, h⟩

theorem at_map {A B : Type} {vs : List (Option A)} {f : A → B} {v : Nat} {y : B} (h : at_ (vs.map (Option.map f)) v = some y) :
    ∃ x, at_ vs v = some x ∧ f x = y := by
  simp only [at_, List.getElem?_map] at h ⊢
  cases hv : vs[v]? with
  | none => rw [hv] at h; cases h
  | some o =>
    rw [hv] at h
    simp only [Option.map_some, Option.getD_some] at h ⊢
    exact Option.map_eq_some_iff.1 h

theorem at_map_of {A B : Type} {vs : List (Option A)} {f : A → B} {v : Nat} {x : A} (h : at_ vs v = some x) :
    at_ (vs.map (Option.map f)) v = some (f x) := by
  simp only [at_, List.getElem?_map] at h ⊢
  cases hv : vs[v]? with
  | none => rw [hv] at h; cases h
  | some o =>
    rw [hv] at h
    simp only [Option.map_some, Option.getD_some] at h ⊢
    rw [h]; rfl

/-- One buffer: the records `h`, the buffers `bs` of the views, where each view is and whether it is read-only, and what the buffer holds
in the space `cur`. -/
structure Track (h : Heap (Buf X)) (bs : List Buffer) (vs : List (Option (Space × Bool))) (value : Buf X) (cur : Space)
    (touched : Bool) (rec : Option Nat) : Prop where
  zero : value.cap = 0 → value = Buf.empty
  noRec : rec = none → value.cap = 0
  alive : ∀ id, rec = some id → ∃ r, h.get id = some r ∧ (0 < value.cap → Holds r value cur touched)
  len : bs.length = vs.length
  view : ∀ v p k, at_ vs v = some (p, k) → ∃ ptr, bs[v]? = some ⟨ptr, value.cap, rec, k⟩ ∧ (0 < value.cap → ptr = some p)

namespace Track

variable {h : Heap (Buf X)} {bs : List Buffer} {vs : List (Option (Space × Bool))} {value : Buf X} {cur : Space} {touched : Bool}
  {rec : Option Nat} {v : Nat} {p : Space} {k : Bool}

/-- A view is added. -/
theorem append (t : Track h bs vs value cur touched rec) {ptr : Option Space} (hp : 0 < value.cap → ptr = some p) :
    Track h (bs ++ [⟨ptr, value.cap, rec, k⟩]) (vs ++ [some (p, k)]) value cur touched rec := by
  refine ⟨t.zero, t.noRec, t.alive, by simp [t.len], fun v' p' k' hv => ?_⟩
  rcases at_append hv with hv | ⟨rfl, e⟩
  · obtain ⟨ptr', h1, h2⟩ := t.view v' p' k' hv
    exact ⟨ptr', by rw [List.getElem?_append_left (by rw [t.len]; exact at_lt hv)]; exact h1, h2⟩
  · cases e
    exact ⟨ptr, by simp [← t.len], hp⟩

/-- A view is replaced. -/
theorem set (t : Track h bs vs value cur touched rec) {ptr : Option Space} (hp : 0 < value.cap → ptr = some p) :
    Track h (bs.set v ⟨ptr, value.cap, rec, k⟩) (vs.set v (some (p, k))) value cur touched rec := by
  refine ⟨t.zero, t.noRec, t.alive, by simp [t.len], fun v' p' k' hv => ?_⟩
  rcases at_set hv with ⟨hne, hv⟩ | ⟨rfl, hl, e⟩
  · obtain ⟨ptr', h1, h2⟩ := t.view v' p' k' hv
    exact ⟨ptr', by rw [List.getElem?_set_ne (Ne.symm hne)]; exact h1, h2⟩
  · cases e
    exact ⟨ptr, by simp [t.len, hl], hp⟩

/-- The records are moved; the views stay. -/
theorem move (t : Track h bs vs value cur touched rec) (hv : at_ vs v = some (p, k)) (s : Space) (touch : Bool) :
    ∃ b ptr h', bs[v]? = some b ∧ moveBuf h b (some s) touch = .ok (h', ⟨ptr, value.cap, rec, k⟩) ∧ (0 < value.cap → ptr = some s) ∧
      Track h' bs vs value s ((touch && !k) || (touched && decide (s = cur))) rec := by
  obtain ⟨ptr, hb, hp⟩ := t.view v p k hv
  rcases Nat.eq_zero_or_pos value.cap with hz | hpos
  · refine ⟨_, ptr, h, hb, ?_, fun hh => by omega, t.zero, t.noRec, fun id hid => ?_, t.len, fun v' p' k' hv' => ?_⟩
    · cases rec <;> simp [moveBuf, Chai.move, hz]
    · obtain ⟨r, hr, -⟩ := t.alive id hid
      exact ⟨r, hr, fun hh => by omega⟩
    · exact t.view v' p' k' hv'
  · cases hrec : rec with
    | none => have := t.noRec hrec; omega
    | some id =>
      subst hrec
      obtain ⟨r, hr, hh⟩ := t.alive id rfl
      obtain ⟨hm, -⟩ := (hh hpos).move (freshBuf value.cap) s (!k && touch)
      refine ⟨_, some s, _, hb, Chai.move_ok _ hr (b := ⟨ptr, value.cap, some id, k⟩) rfl hpos s touch, fun _ => rfl, t.zero, t.noRec,
        fun id' hid => ?_, t.len, t.view⟩
      cases hid
      refine ⟨_, Chai.Heap.get_set hr _, fun _ => ?_⟩
      rw [Bool.and_comm touch]
      exact hm

theorem moveNone (t : Track h bs vs value cur touched rec) (hv : at_ vs v = some (p, k)) (touch : Bool) :
    ∃ ptr, bs[v]? = some ⟨ptr, value.cap, rec, k⟩ ∧
      moveBuf h ⟨ptr, value.cap, rec, k⟩ none touch = .ok (h, ⟨ptr, value.cap, rec, k⟩) ∧ (0 < value.cap → ptr = some p) := by
  obtain ⟨ptr, hb, hp⟩ := t.view v p k hv
  exact ⟨ptr, hb, Chai.move_none _ _ _ _, hp⟩

/-- What code finds through a view in the space of the data. -/
theorem content (t : Track h bs vs value cur touched rec) (hv : at_ vs v = some (cur, k)) {b : Buffer} (hb : bs[v]? = some b) :
    Placed.content h b cur = .ok value := by
  obtain ⟨ptr, hb', hp⟩ := t.view v cur k hv
  rw [hb] at hb'
  cases hb'
  unfold Placed.content
  rcases Nat.eq_zero_or_pos value.cap with hz | hpos
  · rw [if_pos hz, t.zero hz]
  · rw [if_neg (by show value.cap ≠ 0; omega)]
    cases hrec : rec with
    | none => have := t.noRec hrec; omega
    | some id =>
      subst hrec
      obtain ⟨r, hr, hh⟩ := t.alive id rfl
      exact Chai.deref_ok hr rfl (hp hpos) (hh hpos).copy

/-- Code in the space of the data leaves `x` in the buffer. -/
theorem write (t : Track h bs vs value cur touched rec) (hv : at_ vs v = some (cur, k)) {b : Buffer} (hb : bs[v]? = some b) {x : Buf X}
    (hc : x.cap = value.cap) (hx : (k = false ∧ touched = true) ∨ x = value) :
    ∃ h', writeBack h b cur x = .ok h' ∧ Track h' bs vs (norm x) cur touched rec := by
  obtain ⟨ptr, hb', hp⟩ := t.view v cur k hv
  rw [hb] at hb'
  cases hb'
  unfold writeBack
  rcases Nat.eq_zero_or_pos value.cap with hz | hpos
  · rw [if_pos (Or.inl hz)]
    refine ⟨h, rfl, ?_⟩
    rw [norm_zero (by rw [norm_cap]; omega), ← t.zero hz]
    exact t
  · rw [norm_of_pos (by omega)]
    cases hk : k with
    | true =>
      rw [if_pos (Or.inr rfl)]
      refine ⟨h, rfl, ?_⟩
      rcases hx with ⟨h1, -⟩ | rfl
      · rw [hk] at h1; cases h1
      · exact t
    | false =>
      rw [if_neg (by simp; omega)]
      cases hrec : rec with
      | none => have := t.noRec hrec; omega
      | some id =>
        subst hrec
        obtain ⟨r, hr, hh⟩ := t.alive id rfl
        simp only [hr]
        refine ⟨_, rfl, fun h0 => (by omega), fun h0 => (by cases h0), fun id' hid => ?_, t.len, by rw [hc]; exact t.view⟩
        cases hid
        refine ⟨_, Chai.Heap.get_set hr _, fun _ => ?_⟩
        rcases hx with ⟨-, h1⟩ | rfl
        · subst h1
          exact ((hh hpos).write x).1
        · have he := hh hpos
          have : put r.copy cur (some x) = r.copy := by
            funext s
            by_cases e : s = cur
            · subst e; rw [Chai.put_same, he.copy]
            · rw [Chai.put_ne _ _ e]
          rw [this]
          exact he

/-- The host leaves `x` in a buffer of the container. -/
theorem replace (t : Track h bs vs value .host true rec) (hv : at_ vs 0 = some (.host, false)) (hr : rec ≠ none) {b : Buffer}
    (hb : bs[0]? = some b) (again : Bool) (x : Buf X) :
    ∃ h' b' rec', rec' ≠ none ∧ Placed.replace h b again x = .ok (h', b') ∧
      Track h' (bs.set 0 b') ((List.replicate vs.length none).set 0 (some (.host, false))) (norm x) .host true rec' := by
  obtain ⟨ptr, hb', hp⟩ := t.view 0 .host false hv
  rw [hb] at hb'
  cases hb'
  cases hrec : rec with
  | none => exact absurd hrec hr
  | some id =>
    subst hrec
    obtain ⟨r, hr', hh⟩ := t.alive id rfl
    have hl := at_lt hv
    have hviews : ∀ (b' : Buffer) (v' : Nat) p' k', at_ ((List.replicate vs.length none).set 0 (some (Space.host, false))) v' = some (p', k') →
        v' = 0 ∧ p' = .host ∧ k' = false ∧ (bs.set 0 b')[v']? = some b' := by
      intro b' v' p' k' hv'
      rcases at_set hv' with ⟨_, hv'⟩ | ⟨rfl, _, e⟩
      · simp only [at_, List.getElem?_replicate] at hv'
        split at hv' <;> cases hv'
      · cases e
        exact ⟨rfl, rfl, rfl, by rw [List.getElem?_set_self (by rw [t.len]; exact hl)]⟩
    unfold Placed.replace
    simp only
    split
    · rw [hr']
      refine ⟨_, _, some h.length, by simp, rfl, fun h0 => norm_zero h0, fun h0 => (by cases h0), fun id' hid => ?_, by simp [t.len],
        fun v' p' k' hv' => ?_⟩
      · cases hid
        refine ⟨_, by simp [Chai.Heap.get]; rfl, fun hpos => ?_⟩
        rw [norm_cap] at hpos
        rw [norm_of_pos (by omega)]
        refine ⟨rfl, rfl, rfl, fun s hs => Chai.put_ne (fun _ => false) true hs, fun e => (by cases e)⟩
      · obtain ⟨rfl, rfl, rfl, e⟩ := hviews _ v' p' k' hv'
        exact ⟨some .host, by rw [e, norm_cap], fun _ => rfl⟩
    · next hc =>
      have hcap : x.cap = value.cap := by simp at hc; exact hc.2
      obtain ⟨h', hw, t'⟩ := t.write hv hb hcap (Or.inl ⟨rfl, rfl⟩)
      refine ⟨h', _, some id, by simp, by rw [hw]; rfl, t'.zero, t'.noRec, t'.alive, by simp [t.len], fun v' p' k' hv' => ?_⟩
      obtain ⟨rfl, rfl, rfl, e⟩ := hviews _ v' p' k' hv'
      refine ⟨ptr, by rw [e, norm_cap, hcap], ?_⟩
      rw [norm_cap, hcap]
      exact hp

/-- A container without this buffer. -/
theorem absent (t : Track h bs vs (Buf.empty : Buf X) cur touched none) (hv : at_ vs 0 = some (p, k)) {b : Buffer} (hb : bs[0]? = some b)
    (again : Bool) (x : Buf X) :
    Placed.replace h b again x = .ok (h, b) ∧
      Track h (bs.set 0 b) ((List.replicate vs.length none).set 0 (some (p, k))) (Buf.empty : Buf X) cur touched none := by
  obtain ⟨ptr, hb', hp⟩ := t.view 0 p k hv
  rw [hb] at hb'
  cases hb'
  refine ⟨rfl, t.zero, t.noRec, t.alive, by simp [t.len], fun v' p' k' hv' => ?_⟩
  rcases at_set hv' with ⟨_, hv'⟩ | ⟨rfl, _, e⟩
  · simp only [at_, List.getElem?_replicate] at hv'
    split at hv' <;> cases hv'
  · cases e
    exact ⟨ptr, by rw [List.getElem?_set_self (by rw [t.len]; exact at_lt hv)], hp⟩

/-- A container on the host. -/
theorem start (x : Buf X) : Track (onHost x).1 [(onHost x).2] [some (.host, false)] (norm x) .host true (some 0) := by
  refine ⟨norm_zero, fun h => (by cases h), fun id hid => ?_, rfl, fun v p k hv => ?_⟩
  · cases hid
    refine ⟨_, rfl, fun hpos => ?_⟩
    rw [norm_cap] at hpos
    rw [norm_of_pos (by omega)]
    exact ⟨rfl, rfl, rfl, fun s hs => Chai.put_ne (fun _ => false) true hs, fun e => (by cases e)⟩
  · match v, hv with
    | 0, hv => cases hv; exact ⟨some .host, by rw [norm_cap]; rfl, fun _ => rfl⟩
    | v + 1, hv => simp [at_] at hv

theorem startAbsent : Track ([] : Heap (Buf X)) [⟨none, 0, none, false⟩] [some (.host, false)] (Buf.empty : Buf X) .host true none := by
  refine ⟨fun _ => rfl, fun _ => rfl, fun id hid => (by cases hid), rfl, fun v p k hv => ?_⟩
  match v, hv with
  | 0, hv => cases hv; exact ⟨none, rfl, fun h => absurd h (Nat.lt_irrefl 0)⟩
  | v + 1, hv => simp [at_] at hv

end Track

end LvArray.Placed
