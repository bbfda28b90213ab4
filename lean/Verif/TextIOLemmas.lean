import Verif.TextIO
import Verif.Spec.Text
import Verif.Props.SliceOps
import Verif.Props.ArrayResize

/-!
# Lemmas about text output and input
-/

namespace LvArray.TextIO

open indexing Spec

variable {T : Type}

/-! ## Separated items -/

/-- `sep ++ item lo ++ sep ++ item (lo + 1) ++ ...`, `n` items. -/
def restItems {α : Type} (sep : List α) (item : Nat → List α) : Nat → Nat → List α
  | 0, _ => []
  | n + 1, lo => sep ++ (item lo ++ restItems sep item n (lo + 1))

theorem intercalate_range' {α : Type} (sep : List α) (item : Nat → List α) (n lo : Nat) :
    sep.intercalate ((List.range' lo (n + 1)).map item) = item lo ++ restItems sep item n (lo + 1) := by
  induction n generalizing lo with
  | zero => simp [List.intercalate, restItems]
  | succ n ih =>
    rw [List.range'_succ, List.map_cons]
    have hne : (List.range' (lo + 1) (n + 1)).map item ≠ [] := by simp
    have : ∀ (x : List α) (l : List (List α)), l ≠ [] → sep.intercalate (x :: l) = x ++ (sep ++ sep.intercalate l) := by
      intro x l hl
      cases l with
      | nil => exact absurd rfl hl
      | cons y ys => simp [List.intercalate, List.intersperse]
    rw [this _ _ hne, ih, restItems]

theorem intercalate_range {α : Type} (sep : List α) (item : Nat → List α) (n : Nat) :
    sep.intercalate ((List.range (n + 1)).map item) = item 0 ++ restItems sep item n 1 := by
  rw [List.range_eq_range', intercalate_range']

theorem restItems_flatten {α : Type} (sep : List (List α)) (item : Nat → List (List α)) (n lo : Nat) :
    (restItems sep item n lo).flatten = restItems sep.flatten (fun i => (item i).flatten) n lo := by
  induction n generalizing lo with
  | zero => rfl
  | succ n ih => simp [restItems, ih]

/-! ## Output -/

theorem forUp_restItems (sep : List Char) (item : Nat → List Char) (f : Nat → R (List Char)) (n lo : Nat) (text : List Char)
    (h : ∀ i, lo ≤ i → i < lo + n → f i = .ok (item i)) :
    forUp n lo (fun i text => do let x ← f i; .ok (text ++ sep ++ x)) text = .ok (text ++ restItems sep item n lo) := by
  induction n generalizing lo text with
  | zero => simp [forUp, restItems]
  | succ n ih =>
    rw [forUp, h lo (by omega) (by omega)]
    simp only [bind_ok]
    rw [ih (lo + 1) _ (fun i h1 h2 => h i (by omega) (by omega))]
    simp [restItems]

theorem write_pretty (c : Cfg) (show' : T → List Char) (b : Buf T) (n : Nat) (s : Slice) (f : List Int → T)
    (hn : s.dims.length = n) (hs : s.strides.length = s.dims.length)
    (hf : ∀ idx, InBounds s.dims idx → ∃ k : Nat, s.call c idx = .ok k ∧ b.read k = .ok (f idx)) :
    write c show' b n s = .ok (pretty show' s.dims f) := by
  induction n generalizing s f with
  | zero =>
    have hd : s.dims = [] := List.eq_nil_of_length_eq_zero hn
    obtain ⟨k, hk, hb⟩ := hf [] (by rw [hd]; trivial)
    rw [Props.slice_call_ok c s (idx := []) (by rw [hd]; trivial)] at hk
    have hg : getLinearIndex s.usd s.strides [] = 0 := by cases s.strides <;> rfl
    rw [hg, Int.add_zero] at hk
    have hk' : s.data = k := Except.ok.inj hk
    rw [write, hd, pretty, hk']
    have : ¬ ((k : Int) < 0) := by omega
    simp [this, hb]
  | succ n ih =>
    obtain ⟨d, ds, hd⟩ : ∃ d ds, s.dims = d :: ds := by
      cases h : s.dims with
      | nil => rw [h] at hn; simp at hn
      | cons d ds => exact ⟨d, ds, rfl⟩
    have hdh : s.dims.headD 0 = d := by rw [hd]; rfl
    have hitem : ∀ (i : Nat), i < d → (do write c show' b n (← s.at_ c i) : R (List Char)) =
        .ok (pretty show' ds (fun idx => f ((i : Int) :: idx))) := by
      intro i hi
      obtain ⟨t, ht, htd, hts, htc⟩ := Props.at_ok c s hd hs i hi
      rw [ht, bind_ok, ih t (fun idx => f ((i : Int) :: idx)) (by rw [htd]; rw [hd] at hn; simpa using hn) hts, htd]
      intro idx hidx
      rw [htd] at hidx
      rw [htc idx (InBounds.length hidx)]
      exact hf _ (by rw [hd]; exact ⟨⟨by omega, by omega⟩, hidx⟩)
    rw [write, hdh, hd, pretty]
    cases d with
    | zero => simp [firstItem, forUp, List.intercalate]
    | succ d =>
      rw [firstItem, if_pos (by omega), hitem 0 (by omega)]
      simp only [bind_ok]
      have := forUp_restItems [',', ' '] (fun i => pretty show' ds (fun idx => f ((i : Int) :: idx)))
        (fun (i : Nat) => do write c show' b n (← s.at_ c i)) d 1 (pretty show' ds (fun idx => f (((0 : Nat) : Int) :: idx)))
        (fun i h1 h2 => hitem i (by omega))
      rw [show d + 1 - 1 = d by omega]
      simp only [bind_assoc] at this
      rw [this, bind_ok, show ", ".toList = [',', ' '] by rfl, intercalate_range]
      simp

/-! ## The text without spaces -/

/-- The text without spaces. -/
def compact (show' : T → List Char) (dims : List Nat) (f : List Int → T) : List Char := (tokens show' dims f).flatten

theorem compact_nil (show' : T → List Char) (f : List Int → T) : compact show' [] f = show' (f []) := by
  simp [compact, tokens]

theorem compact_cons (show' : T → List Char) (d : Nat) (ds : List Nat) (f : List Int → T) :
    compact show' ((d + 1) :: ds) f =
      '{' :: (compact show' ds (fun idx => f (((0 : Nat) : Int) :: idx)) ++
        (restItems [','] (fun (i : Nat) => compact show' ds (fun idx => f ((i : Int) :: idx))) d 1 ++ ['}'])) := by
  simp only [compact, tokens, intercalate_range, List.flatten_append, restItems_flatten]
  simp

/-- Every value of the array is written as one token. -/
def Plain (show' : T → List Char) (dims : List Nat) (f : List Int → T) : Prop :=
  ∀ idx, InBounds dims idx → show' (f idx) ≠ [] ∧ ∀ ch ∈ show' (f idx), ch ≠ ' ' ∧ ch ≠ '{' ∧ ch ≠ '}' ∧ ch ≠ ','

theorem Plain.item {show' : T → List Char} {d : Nat} {ds : List Nat} {f : List Int → T} (h : Plain show' (d :: ds) f) {i : Nat}
    (hi : i < d) : Plain show' ds (fun idx => f ((i : Int) :: idx)) :=
  fun _ hidx => h _ ⟨⟨by omega, by omega⟩, hidx⟩

theorem restItems_induct {α : Type} {P : List α → Prop} (sep : List α) (item : Nat → List α) (n lo : Nat) (x : List α) (hx : P x)
    (h : ∀ i, lo ≤ i → i < lo + n → ∀ y, P y → P (y ++ (sep ++ item i))) : P (x ++ restItems sep item n lo) := by
  induction n generalizing lo x with
  | zero => simpa [restItems] using hx
  | succ n ih =>
    rw [restItems, show x ++ (sep ++ (item lo ++ restItems sep item n (lo + 1))) =
      (x ++ (sep ++ item lo)) ++ restItems sep item n (lo + 1) by simp]
    exact ih (lo + 1) _ (h lo (by omega) (by omega) x hx) (fun i h1 h2 => h i (by omega) (by omega))

/-! ### Tokens -/

/-- A brace or a comma. -/
def Punct (t : List Char) : Prop := t = ['{'] ∨ t = ['}'] ∨ t = [',']

/-- The text of a value. -/
def Value (t : List Char) : Prop := t ≠ [] ∧ ∀ ch ∈ t, ch ≠ ' ' ∧ ch ≠ '{' ∧ ch ≠ '}' ∧ ch ≠ ','

/-- Tokens of which no two neighbours are values. -/
def Separated : List (List Char) → Prop
  | [] => True
  | t :: ts => (Punct t ∨ Value t) ∧ (Value t → ∀ u ∈ ts.head?, Punct u) ∧ Separated ts

theorem Separated.append {p : List Char} (hp : Punct p) {a b : List (List Char)} (ha : Separated a) (hb : Separated b) :
    Separated (a ++ (p :: b)) := by
  induction a with
  | nil => exact ⟨.inl hp, fun hv => absurd hv.2 (by rcases hp with h | h | h <;> simp [h]), hb⟩
  | cons t ts ih =>
    obtain ⟨h1, h2, h3⟩ := ha
    refine ⟨h1, fun hv u hu => ?_, ih h3⟩
    cases ts with
    | nil => simp at hu; exact hu ▸ hp
    | cons w ws => exact h2 hv u (by simpa using hu)

theorem tokens_separated {show' : T → List Char} {dims : List Nat} {f : List Int → T} (h : Plain show' dims f) :
    Separated (tokens show' dims f) := by
  induction dims generalizing f with
  | nil => exact ⟨.inr (h [] trivial), fun _ u hu => by simp at hu, trivial⟩
  | cons d ds ih =>
    rw [tokens]
    have hi : Separated ([[',']].intercalate ((List.range d).map fun (i : Nat) => tokens show' ds fun idx => f ((i : Int) :: idx))) := by
      cases d with
      | zero => exact trivial
      | succ d =>
        rw [intercalate_range]
        refine restItems_induct _ _ _ _ _ (ih (h.item (by omega))) (fun i _ hi y hy => ?_)
        exact hy.append (.inr (.inr rfl)) (ih (h.item (by omega)))
    have := Separated.append (a := []) (.inl rfl) trivial (hi.append (p := ['}']) (.inr (.inl rfl)) (b := []) trivial)
    simpa using this

theorem checkDelimiters_append (st : Bool × Bool) (a b : List Char) :
    checkDelimiters st (a ++ b) = checkDelimiters st a >>= fun st => checkDelimiters st b := by
  induction a generalizing st with
  | nil => rfl
  | cons ch a ih =>
    simp only [List.cons_append, checkDelimiters]
    cases delimiterStep st ch with
    | error e => rfl
    | ok st' => simp only [bind_ok]; exact ih st'

theorem checkDelimiters_spaces (st : Bool × Bool) (n : Nat) :
    ∃ b, checkDelimiters st (List.replicate n ' ') = .ok (st.1, b) := by
  induction n generalizing st with
  | zero => exact ⟨st.2, rfl⟩
  | succ n ih =>
    obtain ⟨b, hb⟩ := ih (st.1, true)
    exact ⟨b, by simpa [List.replicate_succ, checkDelimiters, delimiterStep, errorIf] using hb⟩

theorem checkDelimiters_value (st : Bool × Bool) (t : List Char) (ht : Value t) (hst : st.1 = true → st.2 = false) :
    checkDelimiters st t = .ok (true, false) := by
  obtain ⟨hne, hch⟩ := ht
  induction t generalizing st with
  | nil => exact absurd rfl hne
  | cons ch t ih =>
    obtain ⟨h1, h2, h3, h4⟩ := hch ch (by simp)
    have hstep : delimiterStep st ch = .ok (true, false) := by
      unfold delimiterStep
      rw [show (ch != '{' && ch != ',' && ch != '}' && ch != ' ' && st.1 && st.2) = false by
        cases hb : st.1 with
        | false => simp
        | true => simp [hst hb]]
      simp [h1, h2, h3, h4]
    rw [checkDelimiters, hstep, bind_ok]
    cases t with
    | nil => rfl
    | cons x xs => exact ih (true, false) (by simp) (by simp) (fun c hc => hch c (by simp [hc]))

theorem checkDelimiters_spaced {ts : List (List Char)} {text : List Char} (h : Spaced ts text) (hs : Separated ts) (st : Bool × Bool)
    (hst : st.1 = true → ∀ u ∈ ts.head?, Punct u) : ∃ st', checkDelimiters st text = .ok st' := by
  induction h generalizing st with
  | nil n =>
    obtain ⟨b, hb⟩ := checkDelimiters_spaces st n
    exact ⟨_, hb⟩
  | @cons n t ts text hts ih =>
    obtain ⟨h1, h2, h3⟩ := hs
    obtain ⟨b, hb⟩ := checkDelimiters_spaces st n
    rw [checkDelimiters_append, hb, bind_ok, checkDelimiters_append]
    by_cases hp : Punct t
    · have : checkDelimiters (st.1, b) t = .ok (false, false) := by
        rcases hp with rfl | rfl | rfl <;> simp [checkDelimiters, delimiterStep, errorIf]
      rw [this, bind_ok]
      exact ih h3 _ (by simp)
    · have hv := h1.resolve_left hp
      rw [checkDelimiters_value (st.1, b) _ hv (fun h => absurd (hst h t (by simp)) hp), bind_ok]
      exact ih h3 _ (fun _ => h2 hv)

theorem filter_spaced {ts : List (List Char)} {text : List Char} (h : Spaced ts text) (hs : Separated ts) :
    text.filter (· != ' ') = ts.flatten := by
  induction h with
  | nil n => simp
  | @cons n t ts text hts ih =>
    obtain ⟨h1, h2, h3⟩ := hs
    have : t.filter (· != ' ') = t := by
      rw [List.filter_eq_self]
      intro ch hch
      rcases h1 with (rfl | rfl | rfl) | hv
      · simp at hch; simp [hch]
      · simp at hch; simp [hch]
      · simp at hch; simp [hch]
      · simpa using (hv.2 ch hch).1
    rw [List.filter_append, List.filter_append, this, ih h3]
    simp

theorem _root_.LvArray.Spec.Spaced.append {a b : List (List Char)} {s t : List Char} (ha : Spaced a s) (hb : Spaced b t) : Spaced (a ++ b) (s ++ t) := by
  induction ha with
  | nil n =>
    cases hb with
    | nil m => simpa using Spaced.nil (n + m)
    | @cons m u us text hus =>
      have := Spaced.cons (n + m) u hus
      rw [← List.replicate_append_replicate, List.append_assoc] at this
      exact this
  | @cons n u us text hus ih =>
    have := Spaced.cons n u ih
    simpa using this

theorem pretty_spaced (show' : T → List Char) (dims : List Nat) (f : List Int → T) :
    Spaced (tokens show' dims f) (pretty show' dims f) := by
  induction dims generalizing f with
  | nil => simpa [tokens, pretty] using Spaced.cons 0 (show' (f [])) (Spaced.nil 0)
  | cons d ds ih =>
    rw [tokens, pretty]
    have hopen : Spaced [['{']] "{ ".toList := by simpa using Spaced.cons 0 ['{'] (Spaced.nil 1)
    have hclose : Spaced [['}']] " }".toList := by simpa using Spaced.cons 1 ['}'] (Spaced.nil 0)
    have hcomma : Spaced [[',']] ", ".toList := by simpa using Spaced.cons 0 [','] (Spaced.nil 1)
    refine (hopen.append ?_).append hclose
    cases d with
    | zero => exact Spaced.nil 0
    | succ d =>
      rw [intercalate_range, intercalate_range]
      refine (ih _).append ?_
      generalize 1 = lo
      induction d generalizing lo with
      | zero => exact Spaced.nil 0
      | succ d ihd => exact hcomma.append ((ih _).append (ihd (lo + 1)))

end LvArray.TextIO
