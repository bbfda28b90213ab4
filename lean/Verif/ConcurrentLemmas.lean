import Verif.Concurrent
import Verif.AoAStep

/-!
# Invariant of concurrent `emplaceBackAtomic`
-/

namespace LvArray.Concurrent

open Layout

variable {T : Type}

/-- The values of the calls that concern array `i`. -/
def vals (i : Nat) (calls : List (Nat × T)) : List T := (calls.filter fun q => q.1 == i).map (·.2)

@[simp] theorem vals_nil (i : Nat) : vals i ([] : List (Nat × T)) = [] := rfl
@[simp] theorem vals_append (i : Nat) (a b : List (Nat × T)) : vals i (a ++ b) = vals i a ++ vals i b := by simp [vals]
theorem vals_cons (i j : Nat) (v : T) (a : List (Nat × T)) :
    vals i ((j, v) :: a) = (if j = i then [v] else []) ++ vals i a := by
  unfold vals; by_cases h : j = i <;> simp [h]

/-- The array, the position in it and the value a thread has claimed but not yet written. -/
def slot (t : Appender T) : Option (Nat × Nat × T) :=
  match t.calls, t.pc with
  | (i, v) :: _, .claimed _ n => some (i, n, v)
  | (i, v) :: _, .checked _ n => some (i, n, v)
  | _, _ => none

/-- The calls of a thread that have not claimed a position yet. -/
def unclaimed (t : Appender T) : List (Nat × T) :=
  match t.pc with
  | .claimed _ _ => t.calls.tail
  | .checked _ _ => t.calls.tail
  | _ => t.calls

/-- A slot of an array with old contents `xs` and claims `g`. -/
def claimCell (xs : List T) (g : List (T × Bool)) (j : Nat) : Cell T :=
  match xs[j]? with
  | some v => .live v
  | none =>
    match g[j - xs.length]? with
    | some (v, true) => .live v
    | _ => .raw

/-- What the local variables of a thread have to do with the layout. -/
def PcOk (L : Layout T) (t : Appender T) : Prop :=
  match t.calls with
  | [] => t.pc = .start
  | (i, _) :: _ =>
    match t.pc with
    | .start => True
    | .addressed p => i < L.length ∧ p = total (L.take i)
    | .claimed p _ => i < L.length ∧ p = total (L.take i)
    | .checked p n => p = total (L.take i) ∧ ∃ xs cap, L[i]? = some (xs, cap) ∧ n < cap

/-- The state while threads append: `L` is the layout at the beginning, `prog` the calls of the threads, and `G i` the values
claimed in array `i`, in the order of their positions, each with a flag that tells whether it has been written. -/
structure AInv (L : Layout T) (prog : List (List (Nat × T))) (G : Nat → List (T × Bool)) (s : Shared T)
    (ts : List (Appender T)) : Prop where
  shape : ShGood s.view.shape (L.mapIdx fun i r => r.1.length + (G i).length) L.caps
  kind : s.view.values.kind = .malloc
  room : total L ≤ s.view.values.cap
  lost : s.view.values.lostLive = 0
  out : ∀ k, total L ≤ k → s.view.values.cell k = .raw
  cell : ∀ (i : Nat) xs cap, L[i]? = some (xs, cap) → ∀ j, j < cap →
    s.view.values.cell (total (L.take i) + j) = claimCell xs (G i) j
  dom : ∀ i, L.length ≤ i → G i = []
  pcs : ∀ t ∈ ts, PcOk L t
  slots : ∀ t ∈ ts, ∀ i n v, slot t = some (i, n, v) → ∃ xs cap m, L[i]? = some (xs, cap) ∧ n = xs.length + m ∧
    (G i)[m]? = some (v, false)
  own : ∀ (k k' : Nat) t t' i n v v', ts[k]? = some t → ts[k']? = some t' → slot t = some (i, n, v) → slot t' = some (i, n, v') → k = k'
  pend : ∀ (i : Nat) xs cap (m : Nat) v, L[i]? = some (xs, cap) → (G i)[m]? = some (v, false) → ∃ t ∈ ts, ∃ v', slot t = some (i, xs.length + m, v')
  order : ∀ (k : Nat) t calls, ts[k]? = some t → prog[k]? = some calls → ∃ pre, calls = pre ++ unclaimed t ∧
    ∀ i, (vals i pre).Sublist ((G i).map (·.1))
  perm : ∀ i, ((G i).map (·.1) ++ vals i (ts.flatMap unclaimed)).Perm (vals i prog.flatten)
  count : ts.length = prog.length
  written : ∀ a ∈ s.writes, ∃ (i : Nat) (xs : List T) (cap m : Nat) (v : T), L[i]? = some (xs, cap) ∧ (G i)[m]? = some (v, true) ∧ xs.length + m < cap ∧
    a = total (L.take i) + (xs.length + m)
  once : s.writes.Nodup
  fits : ∀ (i : Nat) xs cap (m : Nat) v, L[i]? = some (xs, cap) → (G i)[m]? = some (v, true) → xs.length + m < cap

/-- The calls name existing arrays and the capacities suffice. -/
def Enough (L : Layout T) (prog : List (List (Nat × T))) : Prop :=
  (∀ calls ∈ prog, ∀ q ∈ calls, q.1 < L.length) ∧
  ∀ (i : Nat) xs cap, L[i]? = some (xs, cap) → xs.length + (vals i prog.flatten).length ≤ cap

/-! ### Addresses -/

theorem off_succ {L : Layout T} {i : Nat} {xs : List T} {cap : Nat} (h : L[i]? = some (xs, cap)) :
    total (L.take (i + 1)) = total (L.take i) + cap := by
  rw [List.take_add_one, h]
  simp

theorem off_mono (L : Layout T) {i j : Nat} (h : i ≤ j) : total (L.take i) ≤ total (L.take j) := by
  have := take_sum_le L.caps h
  rwa [caps_take, caps_take, caps_sum, caps_sum] at this

theorem off_lt_total {L : Layout T} {i : Nat} {xs : List T} {cap j : Nat} (h : L[i]? = some (xs, cap)) (hj : j < cap) :
    total (L.take i) + j < total L := by
  have h1 := off_succ h
  have hi : i < L.length := by rw [List.getElem?_eq_some_iff] at h; exact h.1
  have h2 := off_mono L (i := i + 1) (j := L.length) hi
  rw [List.take_length] at h2
  omega

theorem addr_inj {L : Layout T} {i i' : Nat} {xs xs' : List T} {cap cap' j j' : Nat} (h : L[i]? = some (xs, cap))
    (h' : L[i']? = some (xs', cap')) (hj : j < cap) (hj' : j' < cap')
    (e : total (L.take i) + j = total (L.take i') + j') : i = i' ∧ j = j' := by
  rcases Nat.lt_trichotomy i i' with hlt | rfl | hlt
  · have := off_mono L (i := i + 1) (j := i') hlt
    rw [off_succ h] at this; omega
  · exact ⟨rfl, by omega⟩
  · have := off_mono L (i := i' + 1) (j := i) hlt
    rw [off_succ h'] at this; omega

/-! ### One turn -/

theorem unclaimed_eq (t t' : Appender T) (h : unclaimed t' = unclaimed t) (A B : List (Appender T)) :
    (A ++ t' :: B).flatMap unclaimed = (A ++ t :: B).flatMap unclaimed := by
  simp [h]

/-- Replacing a thread by one with the same claims and calls left. -/
theorem AInv.local {L : Layout T} {prog : List (List (Nat × T))} {G : Nat → List (T × Bool)} {s : Shared T}
    {ts : List (Appender T)} (h : AInv L prog G s ts) {k : Nat} {t t' : Appender T} (hk : ts[k]? = some t)
    (hpc : PcOk L t') (hs : slot t' = slot t) (hu : unclaimed t' = unclaimed t) : AInv L prog G s (ts.set k t') := by
  have hkl : k < ts.length := by rw [List.getElem?_eq_some_iff] at hk; exact hk.1
  have hget : ∀ (q : Nat) u, (ts.set k t')[q]? = some u → ∃ u', ts[q]? = some u' ∧ slot u = slot u' ∧ unclaimed u = unclaimed u' ∧
      (PcOk L u' → PcOk L u) := by
    intro q u hq
    by_cases e : k = q
    · subst e
      rw [List.getElem?_set_self hkl] at hq
      cases hq
      exact ⟨t, hk, hs, hu, fun _ => hpc⟩
    · rw [List.getElem?_set_ne e] at hq
      exact ⟨u, hq, rfl, rfl, id⟩
  have hmem : ∀ u ∈ ts.set k t', ∃ u' ∈ ts, slot u = slot u' ∧ unclaimed u = unclaimed u' ∧ (PcOk L u' → PcOk L u) := by
    intro u hu
    obtain ⟨q, hq⟩ := List.mem_iff_getElem?.1 hu
    obtain ⟨u', h1, h2⟩ := hget q u hq
    exact ⟨u', List.mem_of_getElem? h1, h2⟩
  have hfm : (ts.set k t').flatMap unclaimed = ts.flatMap unclaimed := by
    obtain ⟨A, B, rfl, rfl⟩ : ∃ A B, ts = A ++ t :: B ∧ k = A.length := by
      refine ⟨ts.take k, ts.drop (k + 1), ?_, by simp; omega⟩
      rw [List.getElem?_eq_some_iff] at hk
      obtain ⟨h1, rfl⟩ := hk
      simp
    simp [hu]
  refine ⟨h.shape, h.kind, h.room, h.lost, h.out, h.cell, h.dom, ?_, ?_, ?_, ?_, ?_, ?_, by simp [h.count], h.written, h.once, h.fits⟩
  · intro u hu
    obtain ⟨u', h1, -, -, h2⟩ := hmem u hu
    exact h2 (h.pcs u' h1)
  · intro u hu i n v e
    obtain ⟨u', h1, h2, -⟩ := hmem u hu
    exact h.slots u' h1 i n v (h2 ▸ e)
  · intro q q' u u' i n v v' h1 h2 h3 h4
    obtain ⟨w, k1, k2, -⟩ := hget q u h1
    obtain ⟨w', k1', k2', -⟩ := hget q' u' h2
    exact h.own q q' w w' i n v v' k1 k1' (k2 ▸ h3) (k2' ▸ h4)
  · intro i xs cap m v h1 h2
    obtain ⟨u, h3, v', h4⟩ := h.pend i xs cap m v h1 h2
    obtain ⟨q, hq⟩ := List.mem_iff_getElem?.1 h3
    by_cases e : k = q
    · subst e
      rw [hk] at hq
      cases hq
      exact ⟨t', List.mem_iff_getElem?.2 ⟨k, by rw [List.getElem?_set_self hkl]⟩, v', by rw [hs, h4]⟩
    · exact ⟨u, List.mem_iff_getElem?.2 ⟨q, by rw [List.getElem?_set_ne e]; exact hq⟩, v', h4⟩
  · intro q u calls h1 h2
    obtain ⟨u', k1, -, k2, -⟩ := hget q u h1
    rw [k2]
    exact h.order q u' calls k1 h2
  · intro i
    rw [hfm]
    exact h.perm i

theorem split_thread {α : Type} {ts : List α} {k : Nat} {t : α} (hk : ts[k]? = some t) :
    ∃ A B, ts = A ++ t :: B ∧ k = A.length := by
  rw [List.getElem?_eq_some_iff] at hk
  obtain ⟨h1, rfl⟩ := hk
  exact ⟨ts.take k, ts.drop (k + 1), by simp, by simp; omega⟩

theorem set_get {α : Type} {ts : List α} {k : Nat} {t' : α} (hk : k < ts.length) (q : Nat) (u : α)
    (h : (ts.set k t')[q]? = some u) : (q = k ∧ u = t') ∨ (q ≠ k ∧ ts[q]? = some u) := by
  by_cases e : k = q
  · subst e; rw [List.getElem?_set_self hk] at h; cases h; exact .inl ⟨rfl, rfl⟩
  · rw [List.getElem?_set_ne e] at h; exact .inr ⟨Ne.symm e, h⟩

theorem sizes_claim (L : Layout T) (G : Nat → List (T × Bool)) (i : Nat) (xs : List T) (cap : Nat) (hL : L[i]? = some (xs, cap))
    (x : T × Bool) :
    (L.mapIdx fun i r => r.1.length + (G i).length).set i (xs.length + (G i).length + 1) =
      L.mapIdx fun j r => r.1.length + (upd G i (G i ++ [x]) j).length := by
  apply List.ext_getElem?
  intro j
  by_cases e : i = j
  · subst e
    have hi : i < L.length := by rw [List.getElem?_eq_some_iff] at hL; exact hL.1
    rw [List.getElem?_set_self (by simpa using hi)]
    simp [hL, upd]; omega
  · rw [List.getElem?_set_ne e]
    simp [upd, Ne.symm e]

theorem claimCell_claim (xs : List T) (g : List (T × Bool)) (v : T) (j : Nat) :
    claimCell xs (g ++ [(v, false)]) j = claimCell xs g j := by
  unfold claimCell
  cases xs[j]? with
  | some _ => rfl
  | none =>
    simp only
    by_cases h : j - xs.length < g.length
    · rw [List.getElem?_append_left h]
    · rw [List.getElem?_append_right (by omega)]
      rw [List.getElem?_eq_none (by omega : g.length ≤ j - xs.length)]
      by_cases h2 : j - xs.length - g.length = 0
      · simp [h2]
      · rw [List.getElem?_eq_none (by simp; omega)]

variable {c : Cfg}

/-- The turn that increments the size. -/
theorem AInv.claim {L : Layout T} {prog : List (List (Nat × T))} {G : Nat → List (T × Bool)} {s : Shared T}
    {ts : List (Appender T)} (h : AInv L prog G s ts) {k : Nat} {t : Appender T} (hk : ts[k]? = some t)
    {i : Nat} {v : T} {rest : List (Nat × T)} {p : Nat} (hc : t.calls = (i, v) :: rest) (hp : t.pc = .addressed p) :
    ∃ s' t', appendTurn c s t = .ok (s', t') ∧ AInv L prog (upd G i (G i ++ [(v, false)])) s' (ts.set k t') := by
  have hkl : k < ts.length := by rw [List.getElem?_eq_some_iff] at hk; exact hk.1
  have hpc := h.pcs t (List.mem_of_getElem? hk)
  simp only [PcOk, hc, hp] at hpc
  obtain ⟨hi, hpo⟩ := hpc
  obtain ⟨⟨xs, cap⟩, hL⟩ : ∃ r, L[i]? = some r := ⟨L[i], List.getElem?_eq_getElem hi⟩
  have hslot : slot t = none := by simp [slot, hc, hp]
  have hun : unclaimed t = (i, v) :: rest := by simp [unclaimed, hp, hc]
  have hread : s.view.shape.sizes.read i = .ok (xs.length + (G i).length) :=
    h.shape.siz.read (by simp [hL])
  obtain ⟨sh, hset, hsh⟩ := h.shape.setSize (c := c) (i := i) (by simp [Layout.caps]; exact hi) (xs.length + (G i).length + 1)
  rw [sizes_claim L G i xs cap hL (v, false)] at hsh
  have hG : ∀ (j m : Nat) x, (G j)[m]? = some x → (upd G i (G i ++ [(v, false)]) j)[m]? = some x := by
    intro j m x hx
    by_cases e : j = i
    · subst e
      have hm : m < (G j).length := by rw [List.getElem?_eq_some_iff] at hx; exact hx.1
      simp only [upd, if_pos]
      rw [List.getElem?_append_left hm, hx]
    · simp only [upd, if_neg e]; exact hx
  obtain ⟨t', ht', hun', hslot', hpc'⟩ : ∃ t' : Appender T, t' = { t with pc := .claimed p (xs.length + (G i).length) } ∧
      unclaimed t' = rest ∧ slot t' = some (i, xs.length + (G i).length, v) ∧ PcOk L t' :=
    ⟨_, rfl, by simp [unclaimed, hc], by simp [slot, hc], by simp only [PcOk, hc]; exact ⟨hi, hpo⟩⟩
  have hGi : (upd G i (G i ++ [(v, false)]) i) = G i ++ [(v, false)] := by simp [upd]
  refine ⟨{ s with view := { s.view with shape := sh } }, t', ?_, ?_⟩
  · unfold appendTurn
    simp only [hc, hp, hread, bind_ok, hset, ht']
  obtain ⟨A, B, hts, hkA⟩ := split_thread hk
  refine ⟨hsh, h.kind, h.room, h.lost, h.out, ?_, ?_, ?_, ?_, ?_, ?_, ?_, ?_, by simp [h.count], ?_, h.once, ?_⟩
  · intro i' xs' cap' hL' j hj
    rw [h.cell i' xs' cap' hL' j hj]
    by_cases e : i' = i
    · subst e; rw [hGi, claimCell_claim]
    · simp only [upd, if_neg e]
  · intro i' hi'
    simp only [upd, if_neg (by omega : i' ≠ i)]
    exact h.dom i' hi'
  · intro u hu
    obtain ⟨q, hq⟩ := List.mem_iff_getElem?.1 hu
    rcases set_get hkl q u hq with ⟨rfl, rfl⟩ | ⟨-, hq⟩
    · exact hpc'
    · exact h.pcs u (List.mem_of_getElem? hq)
  · intro u hu i' n' v' hs'
    obtain ⟨q, hq⟩ := List.mem_iff_getElem?.1 hu
    rcases set_get hkl q u hq with ⟨rfl, rfl⟩ | ⟨-, hq⟩
    · rw [hslot'] at hs'
      simp only [Option.some.injEq, Prod.mk.injEq] at hs'
      obtain ⟨rfl, rfl, rfl⟩ := hs'
      exact ⟨xs, cap, (G i).length, hL, rfl, by rw [hGi]; simp⟩
    · obtain ⟨xs', cap', m, e1, e2, e3⟩ := h.slots u (List.mem_of_getElem? hq) i' n' v' hs'
      exact ⟨xs', cap', m, e1, e2, hG _ _ _ e3⟩
  · have key : ∀ (q : Nat) u v', ts[q]? = some u → slot u = some (i, xs.length + (G i).length, v') → False := by
      intro q u v' hq hs'
      obtain ⟨xs', cap', m, e1, e2, e3⟩ := h.slots u (List.mem_of_getElem? hq) _ _ _ hs'
      rw [hL] at e1
      cases e1
      have hm : m < (G i).length := by rw [List.getElem?_eq_some_iff] at e3; exact e3.1
      omega
    intro q q' u u' i' n' v' v'' hq hq' hs hs'
    rcases set_get hkl q u hq with ⟨e1, e2⟩ | ⟨-, hq1⟩
    · rcases set_get hkl q' u' hq' with ⟨e1', e2'⟩ | ⟨-, hq1'⟩
      · rw [e1, e1']
      · rw [e2, hslot'] at hs; cases hs
        exact (key q' u' v'' hq1' hs').elim
    · rcases set_get hkl q' u' hq' with ⟨e1', e2'⟩ | ⟨-, hq1'⟩
      · rw [e2', hslot'] at hs'; cases hs'
        exact (key q u v' hq1 hs).elim
      · exact h.own q q' u u' i' n' v' v'' hq1 hq1' hs hs'
  · intro i' xs' cap' m v' hL' hm
    have hold : (G i')[m]? = some (v', false) → ∃ u ∈ ts.set k t', ∃ v'', slot u = some (i', xs'.length + m, v'') := by
      intro hm
      obtain ⟨u, hu, v'', hs⟩ := h.pend i' xs' cap' m v' hL' hm
      obtain ⟨q, hq⟩ := List.mem_iff_getElem?.1 hu
      have hqk : k ≠ q := by rintro rfl; rw [hk] at hq; cases hq; rw [hslot] at hs; cases hs
      exact ⟨u, List.mem_iff_getElem?.2 ⟨q, by rw [List.getElem?_set_ne hqk]; exact hq⟩, v'', hs⟩
    by_cases e : i' = i
    · subst e
      rw [hGi] at hm
      rw [hL] at hL'; cases hL'
      by_cases hml : m < (G i').length
      · rw [List.getElem?_append_left hml] at hm
        exact hold hm
      · have : m = (G i').length := by
          rw [List.getElem?_append_right (by omega), List.getElem?_eq_some_iff] at hm
          obtain ⟨hm, _⟩ := hm
          simp at hm; omega
        subst this
        exact ⟨t', List.mem_iff_getElem?.2 ⟨k, by rw [List.getElem?_set_self hkl]⟩, v, hslot'⟩
    · simp only [upd, if_neg e] at hm
      exact hold hm
  · intro q u calls hq hpq
    rcases set_get hkl q u hq with ⟨rfl, rfl⟩ | ⟨-, hq⟩
    · obtain ⟨pre, e1, e2⟩ := h.order q t calls hk hpq
      refine ⟨pre ++ [(i, v)], by rw [e1, hun, hun']; simp, ?_⟩
      intro i'
      rw [vals_append, vals_cons]
      by_cases e : i = i'
      · subst e; rw [hGi]
        simpa using (e2 i).append (List.Sublist.refl [v])
      · simp only [upd, if_neg (Ne.symm e), if_neg e, vals_nil, List.append_nil]
        exact e2 i'
    · obtain ⟨pre, e1, e2⟩ := h.order q u calls hq hpq
      refine ⟨pre, e1, fun i' => ?_⟩
      by_cases e : i' = i
      · subst e; rw [hGi, List.map_append]
        exact (e2 i').trans (List.sublist_append_left _ _)
      · simp only [upd, if_neg e]; exact e2 i'
  · intro i'
    have hp' := h.perm i'
    subst hts; subst hkA
    have e1 : (A ++ t :: B).set A.length t' = A ++ t' :: B := by simp
    rw [e1]
    simp only [List.flatMap_append, List.flatMap_cons, hun, hun', vals_append, vals_cons, List.cons_append] at hp' ⊢
    refine List.Perm.trans ?_ hp'
    by_cases e : i = i'
    · subst e
      rw [hGi, if_pos rfl]
      simp only [List.map_append, List.map_cons, List.map_nil, List.append_assoc]
      refine List.Perm.append_left _ ?_
      rw [List.cons_append, List.nil_append, List.cons_append, List.nil_append]
      exact List.perm_middle.symm
    · simp [upd, e, Ne.symm e]
  · intro a ha
    obtain ⟨i', xs', cap', m, v', e1, e2, e3, e4⟩ := h.written a ha
    exact ⟨i', xs', cap', m, v', e1, hG _ _ _ e2, e3, e4⟩
  · intro i' xs' cap' m v' hL' hm
    by_cases e : i' = i
    · subst e
      rw [hGi] at hm
      by_cases hml : m < (G i').length
      · rw [List.getElem?_append_left hml] at hm
        exact h.fits i' xs' cap' m v' hL' hm
      · rw [List.getElem?_append_right (by omega), List.getElem?_singleton] at hm
        split at hm <;> cases hm
    · simp only [upd, if_neg e] at hm
      exact h.fits i' xs' cap' m v' hL' hm

theorem claimCell_write (xs : List T) (g : List (T × Bool)) (v : T) (m j : Nat) (hm : g[m]? = some (v, false)) :
    claimCell xs (g.set m (v, true)) j = if j = xs.length + m then .live v else claimCell xs g j := by
  have hml : m < g.length := by rw [List.getElem?_eq_some_iff] at hm; exact hm.1
  unfold claimCell
  by_cases h : j < xs.length
  · rw [List.getElem?_eq_getElem h, if_neg (by omega)]
  · rw [List.getElem?_eq_none (by omega)]
    simp only
    by_cases e : j = xs.length + m
    · rw [if_pos e, e, Nat.add_sub_cancel_left, List.getElem?_set_self hml]
    · rw [if_neg e, List.getElem?_set_ne (by omega)]

/-- The turn that constructs the value. -/
theorem AInv.write {L : Layout T} {prog : List (List (Nat × T))} {G : Nat → List (T × Bool)} {s : Shared T}
    {ts : List (Appender T)} (h : AInv L prog G s ts) {k : Nat} {t : Appender T} (hk : ts[k]? = some t)
    {i : Nat} {v : T} {rest : List (Nat × T)} {p n : Nat} (hc : t.calls = (i, v) :: rest) (hp : t.pc = .checked p n) :
    ∃ G' s' t', appendTurn c s t = .ok (s', t') ∧ AInv L prog G' s' (ts.set k t') := by
  have hkl : k < ts.length := by rw [List.getElem?_eq_some_iff] at hk; exact hk.1
  have hpc := h.pcs t (List.mem_of_getElem? hk)
  simp only [PcOk, hc, hp] at hpc
  obtain ⟨hpo, xs, cap, hL, hncap⟩ := hpc
  have hslot : slot t = some (i, n, v) := by simp [slot, hc, hp]
  have hun : unclaimed t = rest := by simp [unclaimed, hp, hc]
  obtain ⟨xs', cap', m, e1, e2, hm⟩ := h.slots t (List.mem_of_getElem? hk) i n v hslot
  rw [hL] at e1; cases e1
  subst e2
  have hml : m < (G i).length := by rw [List.getElem?_eq_some_iff] at hm; exact hm.1
  have hcell : s.view.values.cell (p + (xs.length + m)) = .raw := by
    rw [hpo, h.cell i xs cap hL _ hncap]
    unfold claimCell
    rw [List.getElem?_eq_none (by omega), Nat.add_sub_cancel_left, hm]
  have hbound : p + (xs.length + m) < s.view.values.cap := by
    have := off_lt_total hL hncap
    have := h.room
    omega
  obtain ⟨G', hG'⟩ : ∃ G', G' = upd G i ((G i).set m (v, true)) := ⟨_, rfl⟩
  have hGi : G' i = (G i).set m (v, true) := by simp [hG', upd]
  have hGo : ∀ j, j ≠ i → G' j = G j := by intro j hj; simp [hG', upd, hj]
  have hmap : ∀ j, (G' j).map (·.1) = (G j).map (·.1) := by
    intro j
    by_cases e : j = i
    · subst e; rw [hGi, List.map_set]
      apply List.ext_getElem?
      intro q
      by_cases e : m = q
      · subst e; rw [List.getElem?_set_self (by simpa using hml)]; simp [hm]
      · rw [List.getElem?_set_ne e]
    · rw [hGo j e]
  have hlen : ∀ j, (G' j).length = (G j).length := by
    intro j; have := congrArg List.length (hmap j); simpa using this
  have hGf : ∀ (j q : Nat) x, (G' j)[q]? = some (x, false) → (G j)[q]? = some (x, false) ∧ ¬ (j = i ∧ q = m) := by
    intro j q x hx
    by_cases e : j = i
    · subst e
      rw [hGi] at hx
      by_cases e : m = q
      · subst e; rw [List.getElem?_set_self hml] at hx; cases hx
      · rw [List.getElem?_set_ne e] at hx; exact ⟨hx, fun hh => e hh.2.symm⟩
    · rw [hGo j e] at hx; exact ⟨hx, fun hh => e hh.1⟩
  have hGk : ∀ (j q : Nat) x, (G j)[q]? = some x → ¬ (j = i ∧ q = m) → (G' j)[q]? = some x := by
    intro j q x hx hne
    by_cases e : j = i
    · subst e
      rw [hGi, List.getElem?_set_ne (fun hh => hne ⟨rfl, hh.symm⟩)]; exact hx
    · rw [hGo j e]; exact hx
  refine ⟨G', { view := { s.view with values := { s.view.values with
      cell := upd s.view.values.cell (p + (xs.length + m)) (.live v) } }, writes := (p + (xs.length + m)) :: s.writes },
    { calls := rest, pc := .start }, ?_, ?_⟩
  · unfold appendTurn
    simp only [hc, hp]
    rw [arrayManipulation.emplaceBack_eq c _ _ _ v hbound hcell, bind_ok]
  obtain ⟨t', ht', hun', hslot'⟩ : ∃ t' : Appender T, t' = ⟨rest, .start⟩ ∧ unclaimed t' = rest ∧ slot t' = none :=
    ⟨_, rfl, rfl, by unfold slot; split <;> simp_all⟩
  have hpc' : PcOk L t' := by rw [ht']; cases rest <;> simp [PcOk]
  rw [← ht']
  obtain ⟨A, B, hts, hkA⟩ := split_thread hk
  refine ⟨?_, h.kind, h.room, h.lost, ?_, ?_, ?_, ?_, ?_, ?_, ?_, ?_, ?_, by simp [h.count], ?_, ?_, ?_⟩
  · simp only [hlen]; exact h.shape
  · intro q hq
    have := off_lt_total hL hncap
    simp only [upd, if_neg (by omega : q ≠ p + (xs.length + m))]
    exact h.out q hq
  · intro i' xs' cap' hL' j hj
    by_cases e : i' = i
    · subst e
      rw [hL] at hL'; cases hL'
      rw [hGi, claimCell_write xs _ v m j hm, ← h.cell i' xs cap hL j hj, ← hpo]
      simp only [upd]
      by_cases ej : j = xs.length + m
      · rw [if_pos ej, if_pos (by omega)]
      · rw [if_neg ej, if_neg (by omega)]
    · have : total (L.take i') + j ≠ p + (xs.length + m) := by
        intro hh
        rw [hpo] at hh
        exact e (addr_inj hL' hL hj hncap hh).1
      simp only [upd, if_neg this]
      rw [hGo i' e]
      exact h.cell i' xs' cap' hL' j hj
  · intro i' hi'
    have : i < L.length := by rw [List.getElem?_eq_some_iff] at hL; exact hL.1
    rw [hGo i' (by omega)]
    exact h.dom i' hi'
  · intro u hu
    obtain ⟨q, hq⟩ := List.mem_iff_getElem?.1 hu
    rcases set_get hkl q u hq with ⟨rfl, rfl⟩ | ⟨-, hq⟩
    · exact hpc'
    · exact h.pcs u (List.mem_of_getElem? hq)
  · intro u hu i' n' v' hs'
    obtain ⟨q, hq⟩ := List.mem_iff_getElem?.1 hu
    rcases set_get hkl q u hq with ⟨rfl, rfl⟩ | ⟨hqk, hq⟩
    · rw [hslot'] at hs'; cases hs'
    · obtain ⟨xs', cap', m', e1, e2, e3⟩ := h.slots u (List.mem_of_getElem? hq) i' n' v' hs'
      refine ⟨xs', cap', m', e1, e2, hGk _ _ _ e3 ?_⟩
      rintro ⟨rfl, rfl⟩
      rw [hL] at e1; cases e1
      subst e2
      exact hqk (h.own q k u t i' _ v' v hq hk hs' hslot)
  · intro q q' u u' i' n' v' v'' hq hq' hs hs'
    rcases set_get hkl q u hq with ⟨rfl, rfl⟩ | ⟨-, hq⟩
    · rw [hslot'] at hs; cases hs
    · rcases set_get hkl q' u' hq' with ⟨rfl, rfl⟩ | ⟨-, hq'⟩
      · rw [hslot'] at hs'; cases hs'
      · exact h.own q q' u u' i' n' v' v'' hq hq' hs hs'
  · intro i' xs' cap' m' v' hL' hm'
    obtain ⟨h1, h2⟩ := hGf _ _ _ hm'
    obtain ⟨u, hu, v'', hs⟩ := h.pend i' xs' cap' m' v' hL' h1
    obtain ⟨q, hq⟩ := List.mem_iff_getElem?.1 hu
    have hqk : k ≠ q := by
      rintro rfl
      rw [hk] at hq; cases hq
      rw [hslot] at hs
      simp only [Option.some.injEq, Prod.mk.injEq] at hs
      obtain ⟨rfl, e2, -⟩ := hs
      rw [hL] at hL'; cases hL'
      exact h2 ⟨rfl, by omega⟩
    exact ⟨u, List.mem_iff_getElem?.2 ⟨q, by rw [List.getElem?_set_ne hqk]; exact hq⟩, v'', hs⟩
  · intro q u calls hq hpq
    rcases set_get hkl q u hq with ⟨rfl, rfl⟩ | ⟨-, hq⟩
    · obtain ⟨pre, e1, e2⟩ := h.order q t calls hk hpq
      exact ⟨pre, by rw [e1, hun, hun'], fun i' => by rw [hmap]; exact e2 i'⟩
    · obtain ⟨pre, e1, e2⟩ := h.order q u calls hq hpq
      exact ⟨pre, e1, fun i' => by rw [hmap]; exact e2 i'⟩
  · intro i'
    have hp' := h.perm i'
    rw [hmap]
    subst hts; subst hkA
    simpa [hun, hun'] using hp'
  · intro a ha
    rcases List.mem_cons.1 ha with rfl | ha
    · exact ⟨i, xs, cap, m, v, hL, by rw [hGi, List.getElem?_set_self hml], hncap, by rw [hpo]⟩
    · obtain ⟨i', xs', cap', m', v', e1, e2, e3, e4⟩ := h.written a ha
      refine ⟨i', xs', cap', m', v', e1, hGk _ _ _ e2 ?_, e3, e4⟩
      rintro ⟨rfl, rfl⟩
      rw [hm] at e2; cases e2
  · refine List.nodup_cons.2 ⟨?_, h.once⟩
    intro ha
    obtain ⟨i', xs', cap', m', v', e1, e2, e3, e4⟩ := h.written _ ha
    rw [hpo] at e4
    obtain ⟨rfl, e5⟩ := addr_inj hL e1 hncap e3 e4
    rw [hL] at e1; cases e1
    have : m = m' := by omega
    subst this
    rw [hm] at e2; cases e2
  · intro i' xs' cap' m' v' hL' hm'
    by_cases e : i' = i
    · subst e
      rw [hL] at hL'; cases hL'
      rw [hGi] at hm'
      by_cases e : m = m'
      · subst e; exact hncap
      · rw [List.getElem?_set_ne e] at hm'
        exact h.fits i' xs cap m' v' hL hm'
    · rw [hGo i' e] at hm'
      exact h.fits i' xs' cap' m' v' hL' hm'

/-- The calls a thread has left are calls of its program. -/
theorem AInv.mem_prog {L : Layout T} {prog : List (List (Nat × T))} {G : Nat → List (T × Bool)} {s : Shared T}
    {ts : List (Appender T)} (h : AInv L prog G s ts) {k : Nat} {t : Appender T} (hk : ts[k]? = some t) :
    ∃ calls ∈ prog, ∀ q ∈ unclaimed t, q ∈ calls := by
  have hkl : k < prog.length := by rw [← h.count]; rw [List.getElem?_eq_some_iff] at hk; exact hk.1
  obtain ⟨pre, e, -⟩ := h.order k t _ hk (List.getElem?_eq_getElem hkl)
  exact ⟨prog[k], List.getElem_mem hkl, fun q hq => by rw [e]; exact List.mem_append_right _ hq⟩

/-- One turn keeps the invariant or, with bounds checks and too small capacities or indices out of range, reports. -/
theorem AInv.step {L : Layout T} {prog : List (List (Nat × T))} {G : Nat → List (T × Bool)} {s : Shared T}
    {ts : List (Appender T)} (h : AInv L prog G s ts) {k : Nat} {t : Appender T} (hk : ts[k]? = some t)
    (hsafe : c.boundsCheck = true ∨ Enough L prog) :
    (∃ G' s' t', appendTurn c s t = .ok (s', t') ∧ AInv L prog G' s' (ts.set k t')) ∨
    (appendTurn c s t = .error .abort ∧ c.boundsCheck = true ∧ ¬ Enough L prog) := by
  obtain ⟨calls, pc⟩ := t
  cases calls with
  | nil =>
    refine .inl ⟨G, s, ⟨[], pc⟩, rfl, ?_⟩
    have : ts.set k ⟨[], pc⟩ = ts := by
      obtain ⟨h1, h2⟩ := List.getElem?_eq_some_iff.1 hk
      rw [← h2]; simp
    rwa [this]
  | cons q rest =>
    obtain ⟨i, v⟩ := q
    cases pc with
    | start =>
      by_cases hi : i < L.length
      · refine .inl ⟨G, s, ⟨(i, v) :: rest, .addressed (total (L.take i))⟩, ?_, ?_⟩
        · unfold appendTurn
          simp only
          rw [h.shape.checkBounds (by simpa [Layout.caps] using hi), bind_ok]
          unfold AoA.ptr
          rw [h.shape.readOff (by simp [Layout.caps]; omega), bind_ok, caps_take, caps_sum]
        · exact h.local hk (by simp [PcOk, hi]) (by simp [slot]) (by simp [unclaimed])
      · have hne : ¬ Enough L prog := by
          intro hE
          obtain ⟨calls, h1, h2⟩ := h.mem_prog hk
          exact hi (hE.1 calls h1 (i, v) (h2 _ (by simp [unclaimed])))
        rcases hsafe with hb | hE
        · refine .inr ⟨?_, hb, hne⟩
          unfold appendTurn
          simp only
          rw [h.shape.checkBounds_abort hb (by simp [Layout.caps]; omega), bind_err]
        · exact (hne hE).elim
    | addressed p =>
      obtain ⟨s', t', h1, h2⟩ := h.claim (c := c) hk rfl rfl
      exact .inl ⟨_, s', t', h1, h2⟩
    | claimed p n =>
      have hpc := h.pcs _ (List.mem_of_getElem? hk)
      simp only [PcOk] at hpc
      obtain ⟨hi, hpo⟩ := hpc
      obtain ⟨xs, cap, m, e1, e2, hm⟩ := h.slots _ (List.mem_of_getElem? hk) i n v rfl
      have hcap : s.view.shape.capacityOfArray c i = .ok cap := by
        rw [h.shape.capacityOf (by simpa [Layout.caps] using hi)]
        rw [List.getElem?_eq_some_iff] at e1
        obtain ⟨_, e1⟩ := e1
        simp [Layout.caps, e1]
      have hfit : Enough L prog → n < cap := by
        intro hE
        have h1 := hE.2 i xs cap e1
        have h2 := (h.perm i).length_eq
        simp only [List.length_append, List.length_map] at h2
        have h3 : m < (G i).length := by rw [List.getElem?_eq_some_iff] at hm; exact hm.1
        omega
      by_cases hn : n < cap
      · refine .inl ⟨G, s, ⟨(i, v) :: rest, .checked p n⟩, ?_, ?_⟩
        · unfold appendTurn
          simp only
          split
          · rw [hcap, bind_ok]
            simp only [errorIf]
            rw [if_neg (by simp; omega), bind_ok]
          · rfl
        · exact h.local hk (by simp only [PcOk]; exact ⟨hpo, xs, cap, e1, hn⟩) rfl rfl
      · rcases hsafe with hb | hE
        · refine .inr ⟨?_, hb, fun hE => hn (hfit hE)⟩
          unfold appendTurn
          simp only [hb, if_true]
          rw [hcap, bind_ok]
          simp only [errorIf]
          rw [if_pos (by simp; omega), bind_err]
        · exact (hn (hfit hE)).elim
    | checked p n =>
      obtain ⟨G', s', t', h1, h2⟩ := h.write (c := c) hk rfl rfl
      exact .inl ⟨G', s', t', h1, h2⟩

/-- Any schedule. -/
theorem AInv.run {L : Layout T} {prog : List (List (Nat × T))} (hsafe : c.boundsCheck = true ∨ Enough L prog)
    (sched : List Nat) {G : Nat → List (T × Bool)} {s : Shared T} {ts : List (Appender T)} (h : AInv L prog G s ts) :
    (∃ G' s' ts', interleave (appendTurn c) s ts sched = .ok (s', ts') ∧ AInv L prog G' s' ts') ∨
    (interleave (appendTurn c) s ts sched = .error .abort ∧ c.boundsCheck = true ∧ ¬ Enough L prog) := by
  induction sched generalizing G s ts with
  | nil => exact .inl ⟨G, s, ts, rfl, h⟩
  | cons k ks ih =>
    unfold interleave
    cases hk : ts[k]? with
    | none => exact ih h
    | some t =>
      rcases h.step (c := c) hk hsafe with ⟨G', s', t', h1, h2⟩ | ⟨h1, h2⟩
      · simp only [h1, bind_ok]
        exact ih h2
      · simp only [h1, bind_err]
        exact .inr ⟨trivial, h2⟩

/-! ### Beginning and end -/

theorem cells_at {X : Type} {L : Layout X} {i : Nat} {xs : List X} {cap j : Nat} (h : L[i]? = some (xs, cap)) (hj : j < cap) :
    cells L (total (L.take i) + j) = cellsOf xs j := by
  obtain ⟨hi, h1⟩ := List.getElem?_eq_some_iff.1 h
  obtain ⟨A, xs', cap', B, rfl, rfl, h2⟩ := split1 hi
  rw [h2] at h1
  cases h1
  rw [List.take_left]
  exact cells_row A xs cap B j hj

theorem locate {X : Type} (L : Layout X) (k : Nat) (hk : k < total L) :
    ∃ i xs cap j, L[i]? = some (xs, cap) ∧ j < cap ∧ k = total (L.take i) + j := by
  induction L generalizing k with
  | nil => simp at hk
  | cons r L ih =>
    obtain ⟨xs, cap⟩ := r
    by_cases h : k < cap
    · exact ⟨0, xs, cap, k, rfl, h, by simp⟩
    · simp only [total_cons] at hk
      obtain ⟨i, ys, cap', j, h1, h2, h3⟩ := ih (k - cap) (by omega)
      exact ⟨i + 1, ys, cap', j, by simpa using h1, h2, by simp; omega⟩

theorem AInv.init {a : AoA T} {L : Layout T} (h : AGood a L) (prog : List (List (Nat × T))) :
    AInv L prog (fun _ => []) ⟨a, []⟩ (appenders prog) := by
  have hslot : ∀ t ∈ appenders prog, slot t = none := by
    intro t ht
    simp only [appenders, List.mem_map] at ht
    obtain ⟨cs, -, rfl⟩ := ht
    unfold slot; split <;> simp_all
  refine ⟨?_, h.lay.kind, h.lay.room, h.lay.lost, ?_, ?_, fun _ _ => rfl, ?_, ?_, ?_, ?_, ?_, ?_, by simp [appenders], ?_,
    List.nodup_nil, ?_⟩
  · have := h.shape
    unfold LShape at this
    have e : (L.mapIdx fun i r => r.1.length + ((fun _ => []) i : List (T × Bool)).length) = L.szs := by
      apply List.ext_getElem?; simp [Layout.szs]
    rw [e]; exact this
  · intro k hk; show a.values.cell k = _; rw [h.lay.cell, cells_ge hk]
  · intro i xs cap hL j hj
    show a.values.cell _ = _
    rw [h.lay.cell, cells_at hL hj]
    unfold claimCell
    by_cases hx : j < xs.length
    · rw [cellsOf_lt hx, List.getElem?_eq_getElem hx]
    · rw [cellsOf_ge (by omega), List.getElem?_eq_none (by omega)]
      simp
  · intro t ht
    simp only [appenders, List.mem_map] at ht
    obtain ⟨cs, -, rfl⟩ := ht
    cases cs <;> simp [PcOk]
  · intro t ht i n v e
    rw [hslot t ht] at e; cases e
  · intro k k' t t' i n v v' h1 _ h2
    rw [hslot t (List.mem_of_getElem? h1)] at h2; cases h2
  · intro i xs cap m v _ e; simp at e
  · intro k t calls h1 h2
    refine ⟨[], ?_, fun i => by simp⟩
    simp only [appenders, List.getElem?_map, h2, Option.map_some, Option.some.injEq] at h1
    subst h1; rfl
  · intro i
    have : (appenders prog).flatMap unclaimed = prog.flatten := by
      simp [appenders, List.flatMap_map, unclaimed]
    rw [this]; simp
  · intro a ha; cases ha
  · intro i xs cap m v _ e; simp at e

/-- The rows with what was appended to them. -/
def appended (L : Layout T) (G : Nat → List (T × Bool)) : Layout T := L.mapIdx fun i r => (r.1 ++ (G i).map (·.1), r.2)

theorem appended_get {L : Layout T} {G : Nat → List (T × Bool)} {i : Nat} {xs : List T} {cap : Nat}
    (h : L[i]? = some (xs, cap)) : (appended L G)[i]? = some (xs ++ (G i).map (·.1), cap) := by
  simp [appended, h]

theorem appended_caps (L : Layout T) (G : Nat → List (T × Bool)) : (appended L G).caps = L.caps := by
  apply List.ext_getElem?; intro i; simp [Layout.caps, appended]; rfl

/-- When no call is left the object is well-formed again. -/
theorem AInv.done {L : Layout T} {prog : List (List (Nat × T))} {G : Nat → List (T × Bool)} {s : Shared T}
    {ts : List (Appender T)} (h : AInv L prog G s ts) (hf : ∀ r ∈ L, r.1.length ≤ r.2) (hd : ∀ t ∈ ts, t.calls = []) : AGood s.view (appended L G) := by
  have hall : ∀ (i : Nat) xs cap (m : Nat) x, L[i]? = some (xs, cap) → (G i)[m]? = some x → x.2 = true := by
    intro i xs cap m x hL hm
    obtain ⟨v, b⟩ := x
    cases b with
    | true => rfl
    | false =>
      obtain ⟨t, ht, v', hs⟩ := h.pend i xs cap m v hL hm
      simp [slot, hd t ht] at hs
  have hlen : ∀ (i : Nat) xs cap, L[i]? = some (xs, cap) → xs.length + (G i).length ≤ cap := by
    intro i xs cap hL
    have h0 := hf _ (List.mem_of_getElem? hL)
    simp only at h0
    rcases Nat.eq_zero_or_pos (G i).length with e | e
    · omega
    · have hm : (G i)[(G i).length - 1]? = some (G i)[(G i).length - 1] := List.getElem?_eq_getElem (by omega)
      have hb := hall i xs cap _ _ hL hm
      have := h.fits i xs cap _ (G i)[(G i).length - 1].1 hL (by rw [hm, ← hb])
      omega
  have htot : ∀ i, total ((appended L G).take i) = total (L.take i) := by
    intro i
    rw [← caps_sum, ← caps_sum, ← caps_take, ← caps_take, appended_caps]
  have htotal : total (appended L G) = total L := by rw [← caps_sum, ← caps_sum, appended_caps]
  refine ⟨?_, h.kind, ?_, by rw [htotal]; exact h.room, ?_, h.lost⟩
  · have e : (appended L G).szs = L.mapIdx fun i r => r.1.length + (G i).length := by
      apply List.ext_getElem?
      intro i
      simp only [Layout.szs, appended, List.getElem?_map, List.getElem?_mapIdx, Option.map_map]
      congr 1
      funext r
      simp
    unfold LShape
    rw [e, appended_caps]
    exact h.shape
  · intro r hr
    obtain ⟨i, hi⟩ := List.mem_iff_getElem?.1 hr
    simp only [appended, List.getElem?_mapIdx, Option.map_eq_some_iff] at hi
    obtain ⟨⟨xs, cap⟩, hL, rfl⟩ := hi
    simpa using hlen i xs cap hL
  · funext k
    by_cases hk : k < total L
    · obtain ⟨i, xs, cap, j, hL, hj, rfl⟩ := locate L k hk
      rw [h.cell i xs cap hL j hj, ← htot i, cells_at (appended_get hL) hj]
      unfold claimCell
      by_cases hx : j < xs.length
      · rw [List.getElem?_eq_getElem hx, cellsOf_lt (by simp; omega), List.getElem_append_left hx]
      · rw [List.getElem?_eq_none (by omega)]
        simp only
        by_cases hg : j - xs.length < (G i).length
        · have hm : (G i)[j - xs.length]? = some (G i)[j - xs.length] := List.getElem?_eq_getElem hg
          have hb := hall i xs cap _ _ hL hm
          rw [cellsOf_lt (by simp; omega), List.getElem_append_right (by omega), List.getElem_map, hm]
          generalize (G i)[j - xs.length] = x at hb ⊢
          obtain ⟨v, b⟩ := x
          simp only at hb
          subst hb
          rfl
        · rw [List.getElem?_eq_none (by omega), cellsOf_ge (by simp; omega)]
    · rw [h.out k (by omega), cells_ge (by rw [htotal]; omega)]

end LvArray.Concurrent
