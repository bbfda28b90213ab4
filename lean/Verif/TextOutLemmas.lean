import Verif.TextOut
import Verif.TextIOLemmas
import Verif.Spec.Printed

/-!
# Texts determine what was printed

`Coded E P g`: followed by a comma or a space, the text `g a` determines `a` up to `E` and where the rest of the text starts.
-/

namespace LvArray.TextIO

open Spec

variable {α β T V : Type}

/-! ## Loops -/

theorem forUp_append (f : Nat → List Char → R (List Char)) (item : Nat → List Char) (n lo : Nat) (text : List Char)
    (h : ∀ i text, lo ≤ i → i < lo + n → f i text = .ok (text ++ item i)) :
    forUp n lo f text = .ok (text ++ ((List.range' lo n).map item).flatten) := by
  induction n generalizing lo text with
  | zero => simp [forUp]
  | succ n ih =>
    rw [forUp, h lo text (by omega) (by omega), bind_ok, ih (lo + 1) _ (fun i text h1 h2 => h i text (by omega) (by omega))]
    simp [List.range'_succ]

theorem map_range_getElem {β : Type} (xs : List α) (g : α → β) (f : Nat → β) (h : ∀ i (hi : i < xs.length), f i = g xs[i]) :
    (List.range' 0 xs.length).map f = xs.map g := by
  apply List.ext_getElem
  · simp
  · intro i h1 h2
    simp at h1
    simp [h i h1]

theorem zipIdx_map_range {β : Type} (xs : List α) (g : α × Nat → β) (f : Nat → β) (h : ∀ i (hi : i < xs.length), f i = g (xs[i], i)) :
    (List.range' 0 xs.length).map f = xs.zipIdx.map g := by
  apply List.ext_getElem
  · simp
  · intro i h1 h2
    simp at h1
    simp [h i h1]

/-- Items separated by commas. -/
def separated (g : α → List Char) : List α → List Char
  | [] => []
  | x :: xs => [',', ' '] ++ (g x ++ separated g xs)

theorem intercalate_cons (g : α → List Char) (x : α) (xs : List α) :
    ", ".toList.intercalate ((x :: xs).map g) = g x ++ separated g xs := by
  induction xs generalizing x with
  | nil => simp [List.intercalate, separated]
  | cons y ys ih =>
    have : ", ".toList.intercalate ((x :: y :: ys).map g) = g x ++ (", ".toList ++ ", ".toList.intercalate ((y :: ys).map g)) := by
      simp [List.intercalate, List.intersperse]
    rw [this, ih, separated]
    rfl

theorem separated_eq (g : α → List Char) (xs : List α) :
    separated g xs = (xs.map fun x => [',', ' '] ++ g x).flatten := by
  induction xs with
  | nil => rfl
  | cons x xs ih => simp [separated, ih]

theorem listed_nil (g : α → List Char) : listed g [] = ['{', ' ', ' ', '}'] := rfl

theorem listed_cons (g : α → List Char) (x : α) (xs : List α) :
    listed g (x :: xs) = '{' :: ' ' :: (g x ++ (separated g xs ++ [' ', '}'])) := by
  rw [listed, intercalate_cons]
  simp

/-! ## Codes -/

/-- The text starts with a space or a comma. -/
def Delim : List Char → Prop
  | ch :: _ => ch = ' ' ∨ ch = ','
  | [] => False

structure Coded (E : α → α → Prop) (P : α → Prop) (g : α → List Char) : Prop where
  head : ∀ a, P a → ∃ ch t, g a = ch :: t ∧ ch ≠ ' '
  uniq : ∀ a b r r', P a → P b → Delim r → Delim r' → g a ++ r = g b ++ r' → E a b ∧ r = r'

theorem split_unique (p : Char → Bool) {s s' r r' : List Char} (hs : ∀ ch ∈ s, p ch = true) (hs' : ∀ ch ∈ s', p ch = true)
    (hr : ∀ ch ∈ r.head?, p ch = false) (hr' : ∀ ch ∈ r'.head?, p ch = false) (h : s ++ r = s' ++ r') : s = s' ∧ r = r' := by
  induction s generalizing s' with
  | nil =>
    cases s' with
    | nil => exact ⟨rfl, h⟩
    | cons x s' =>
      subst h
      have h1 := hr x (by simp)
      rw [hs' x (by simp)] at h1; cases h1
  | cons x s ih =>
    cases s' with
    | nil =>
      simp only [List.nil_append] at h
      subst h
      have h1 := hr' x (by simp)
      rw [hs x (by simp)] at h1; cases h1
    | cons y s' =>
      simp only [List.cons_append, List.cons.injEq] at h
      obtain ⟨e1, e2⟩ := ih (fun ch hch => hs ch (by simp [hch])) (fun ch hch => hs' ch (by simp [hch])) h.2
      exact ⟨by rw [h.1, e1], e2⟩

theorem coded_of_legible {show' : T → List Char} {P : T → Prop} (h : Legible show' P) : Coded Eq P show' where
  head a ha := by
    obtain ⟨h1, h2⟩ := h.word a ha
    cases e : show' a with
    | nil => exact absurd e h1
    | cons ch t => exact ⟨ch, t, rfl, (h2 ch (by simp [e])).1⟩
  uniq a b r r' ha hb hr hr' e := by
    have hd : ∀ {s : List Char}, Delim s → ∀ ch ∈ s.head?, (ch != ' ' && ch != ',') = false := by
      intro s hs ch hch
      cases s with
      | nil => exact absurd hs (by simp [Delim])
      | cons x s =>
        simp only [List.head?_cons, Option.mem_def, Option.some.injEq] at hch
        subst hch
        rcases hs with rfl | rfl <;> rfl
    have hw : ∀ {x : T}, P x → ∀ ch ∈ show' x, (ch != ' ' && ch != ',') = true := by
      intro x hx ch hch
      obtain ⟨h1, h2, -⟩ := (h.word x hx).2 ch hch
      simp [h1, h2]
    obtain ⟨e1, e2⟩ := split_unique (fun ch => ch != ' ' && ch != ',') (hw ha) (hw hb) (hd hr) (hd hr') e
    exact ⟨h.inj a b ha hb e1, e2⟩

theorem delim_rest (g : α → List Char) (xs : List α) (r : List Char) : Delim (separated g xs ++ (' ' :: '}' :: r)) := by
  cases xs with
  | nil => exact .inl rfl
  | cons x xs => exact .inr rfl

theorem separated_unique {E : α → α → Prop} {P : α → Prop} {g : α → List Char} (h : Coded E P g) (xs : List α) : ∀ (ys : List α)
    (r r' : List Char), (∀ x ∈ xs, P x) → (∀ y ∈ ys, P y) →
    separated g xs ++ (' ' :: '}' :: r) = separated g ys ++ (' ' :: '}' :: r') → List.Forall₂ E xs ys ∧ r = r' := by
  induction xs with
  | nil =>
    intro ys r r' _ _ e
    cases ys with
    | nil => simp [separated] at e; exact ⟨.nil, e⟩
    | cons y ys => simp [separated] at e
  | cons x xs ih =>
    intro ys r r' hx hy e
    cases ys with
    | nil => simp [separated] at e
    | cons y ys =>
      simp only [separated, List.cons_append, List.nil_append, List.append_assoc, List.cons.injEq, true_and] at e
      obtain ⟨e1, e2⟩ := h.uniq x y _ _ (hx x (by simp)) (hy y (by simp)) (delim_rest g xs r) (delim_rest g ys r') e
      obtain ⟨e3, e4⟩ := ih ys r r' (fun z hz => hx z (by simp [hz])) (fun z hz => hy z (by simp [hz])) e2
      exact ⟨.cons e1 e3, e4⟩

/-- A list in braces needs no delimiter after it. -/
theorem listed_unique {E : α → α → Prop} {P : α → Prop} {g : α → List Char} (h : Coded E P g) (xs ys : List α)
    (r r' : List Char) (hx : ∀ x ∈ xs, P x) (hy : ∀ y ∈ ys, P y) (e : listed g xs ++ r = listed g ys ++ r') :
    List.Forall₂ E xs ys ∧ r = r' := by
  cases xs with
  | nil =>
    cases ys with
    | nil => simp [listed_nil] at e; exact ⟨.nil, e⟩
    | cons y ys =>
      obtain ⟨ch, t, e1, e2⟩ := h.head y (hy y (by simp))
      rw [listed_nil, listed_cons, e1] at e
      simp only [List.cons_append, List.cons.injEq, true_and] at e
      exact absurd e.1.symm e2
  | cons x xs =>
    cases ys with
    | nil =>
      obtain ⟨ch, t, e1, e2⟩ := h.head x (hx x (by simp))
      rw [listed_nil, listed_cons, e1] at e
      simp only [List.cons_append, List.cons.injEq, true_and] at e
      exact absurd e.1 e2
    | cons y ys =>
      rw [listed_cons, listed_cons] at e
      simp only [List.cons_append, List.nil_append, List.append_assoc, List.cons.injEq, true_and] at e
      obtain ⟨e1, e2⟩ := h.uniq x y _ _ (hx x (by simp)) (hy y (by simp)) (delim_rest g xs r) (delim_rest g ys r') e
      obtain ⟨e3, e4⟩ := separated_unique h xs ys r r' (fun z hz => hx z (by simp [hz])) (fun z hz => hy z (by simp [hz])) e2
      exact ⟨.cons e1 e3, e4⟩

theorem forall₂_eq {xs ys : List α} (h : List.Forall₂ Eq xs ys) : xs = ys := by
  induction h with
  | nil => rfl
  | cons e _ ih => rw [e, ih]

theorem coded_listed {E : α → α → Prop} {P : α → Prop} {g : α → List Char} (h : Coded E P g) :
    Coded (List.Forall₂ E) (fun xs => ∀ x ∈ xs, P x) (listed g) where
  head xs _ := by
    cases xs with
    | nil => exact ⟨'{', _, listed_nil g, by decide⟩
    | cons x xs => exact ⟨'{', _, listed_cons g x xs, by decide⟩
  uniq xs ys r r' hx hy _ _ e := listed_unique h xs ys r r' hx hy e

/-! ## Numbers -/

theorem decimal_digit {n : Nat} {ch : Char} (h : ch ∈ decimal n) : ch.isDigit = true :=
  Nat.isDigit_of_mem_toDigits (by omega) (by omega) h

theorem decimal_head (n : Nat) : ∃ ch t, decimal n = ch :: t ∧ ch.isDigit = true := by
  cases h : decimal n with
  | nil => exact absurd h Nat.toDigits_ne_nil
  | cons ch t => exact ⟨ch, t, rfl, decimal_digit (by rw [h]; simp)⟩

theorem legible_decimal : Legible decimal (fun _ => True) where
  inj x y _ _ h := by
    have h1 : Nat.ofDigitChars 10 (decimal x) 0 = x := Nat.ofDigitChars_ten_toDigits
    have h2 : Nat.ofDigitChars 10 (decimal y) 0 = y := Nat.ofDigitChars_ten_toDigits
    rw [← h1, ← h2, h]
  word x _ := by
    refine ⟨Nat.toDigits_ne_nil, fun ch hch => ?_⟩
    have hd := decimal_digit hch
    refine ⟨?_, ?_, ?_, ?_⟩ <;> (intro e; rw [e] at hd; exact absurd hd (by decide))

theorem showInt_nat (n : Nat) : showInt (n : Int) = decimal n := by
  unfold showInt decimal
  rw [if_neg (by omega), Int.natAbs_natCast]

/-! ## The whole texts -/

theorem printedSet_unique {show' : T → List Char} {P : T → Prop} (h : Legible show' P) {xs ys : List T} (hx : ∀ x ∈ xs, P x)
    (hy : ∀ y ∈ ys, P y) (e : printedSet show' xs = printedSet show' ys) : xs = ys := by
  have hne : ∀ (z : T) (zs : List T), "{}".toList ≠ listed show' (z :: zs) := by
    intro z zs e
    rw [listed_cons] at e
    simp at e
  cases xs with
  | nil =>
    cases ys with
    | nil => rfl
    | cons y ys => exact absurd e (hne y ys)
  | cons x xs =>
    cases ys with
    | nil => exact absurd e.symm (hne x xs)
    | cons y ys =>
      exact forall₂_eq (listed_unique (coded_of_legible h) _ _ [] [] hx hy (by simpa [printedSet] using e)).1

/-- The values of one array, each followed by a comma and a space. -/
theorem followed_unique {show' : T → List Char} {P : T → Prop} (h : Legible show' P) (xs : List T) : ∀ (ys : List T)
    (r r' : List Char), (∀ x ∈ xs, P x) → (∀ y ∈ ys, P y) →
    (xs.map fun x => show' x ++ ", ".toList).flatten ++ ('}' :: r) = (ys.map fun x => show' x ++ ", ".toList).flatten ++ ('}' :: r') →
    xs = ys ∧ r = r' := by
  have hhead : ∀ (z : T) (s s' : List Char), P z → '}' :: s = show' z ++ s' → False := by
    intro z s s' hz e
    obtain ⟨h1, h2⟩ := h.word z hz
    cases e1 : show' z with
    | nil => exact h1 e1
    | cons ch t =>
      rw [e1] at e
      exact (h2 ch (by simp [e1])).2.2.2 (List.cons.inj e).1.symm
  have hc := coded_of_legible h
  induction xs with
  | nil =>
    intro ys r r' _ hy e
    cases ys with
    | nil => simp at e; exact ⟨rfl, e⟩
    | cons y ys =>
      simp only [List.map_nil, List.flatten_nil, List.nil_append, List.map_cons, List.flatten_cons, List.append_assoc] at e
      exact absurd e (fun e => hhead y _ _ (hy y (by simp)) e)
  | cons x xs ih =>
    intro ys r r' hx hy e
    cases ys with
    | nil =>
      simp only [List.map_nil, List.flatten_nil, List.nil_append, List.map_cons, List.flatten_cons, List.append_assoc] at e
      exact absurd e.symm (fun e => hhead x _ _ (hx x (by simp)) e)
    | cons y ys =>
      simp only [List.map_cons, List.flatten_cons, List.append_assoc] at e
      have hd : ∀ s, Delim (", ".toList ++ s) := fun s => .inr rfl
      obtain ⟨e1, e2⟩ := hc.uniq x y _ _ (hx x (by simp)) (hy y (by simp)) (hd _) (hd _) e
      obtain ⟨e3, e4⟩ := ih ys r r' (fun z hz => hx z (by simp [hz])) (fun z hz => hy z (by simp [hz]))
        (List.append_cancel_left e2)
      exact ⟨by rw [e1, e3], e4⟩

/-- Lines that each determine what they were printed from, up to a closing brace. -/
theorem lines_unique {P : α → Prop} (line : Nat → α → List Char)
    (hhead : ∀ i a, ∃ ch t, line i a = ch :: t ∧ ch ≠ '}')
    (hline : ∀ i a b r r', P a → P b → line i a ++ r = line i b ++ r' → a = b ∧ r = r') (xs : List α) : ∀ (ys : List α) (lo : Nat)
    (r r' : List Char), (∀ x ∈ xs, P x) → (∀ y ∈ ys, P y) →
    ((xs.zipIdx lo).map fun p => line p.2 p.1).flatten ++ ('}' :: r) = ((ys.zipIdx lo).map fun p => line p.2 p.1).flatten ++ ('}' :: r') →
    xs = ys ∧ r = r' := by
  induction xs with
  | nil =>
    intro ys lo r r' _ _ e
    cases ys with
    | nil => simp at e; exact ⟨rfl, e⟩
    | cons y ys =>
      obtain ⟨ch, t, e1, e2⟩ := hhead lo y
      simp only [List.zipIdx_nil, List.zipIdx_cons, List.map_nil, List.flatten_nil, List.nil_append, List.map_cons, List.flatten_cons,
        e1, List.cons_append, List.cons.injEq] at e
      exact absurd e.1.symm e2
  | cons x xs ih =>
    intro ys lo r r' hx hy e
    cases ys with
    | nil =>
      obtain ⟨ch, t, e1, e2⟩ := hhead lo x
      simp only [List.zipIdx_nil, List.zipIdx_cons, List.map_nil, List.flatten_nil, List.nil_append, List.map_cons, List.flatten_cons,
        e1, List.cons_append, List.cons.injEq] at e
      exact absurd e.1 e2
    | cons y ys =>
      simp only [List.zipIdx_cons, List.map_cons, List.flatten_cons, List.append_assoc] at e
      obtain ⟨e1, e2⟩ := hline lo x y _ _ (hx x (by simp)) (hy y (by simp)) e
      obtain ⟨e3, e4⟩ := ih ys (lo + 1) r r' (fun z hz => hx z (by simp [hz])) (fun z hz => hy z (by simp [hz])) e2
      exact ⟨by rw [e1, e3], e4⟩

theorem printedRows_unique {show' : T → List Char} {P : T → Prop} (h : Legible show' P) {rows rows' : List (List T)}
    (hx : ∀ r ∈ rows, ∀ x ∈ r, P x) (hy : ∀ r ∈ rows', ∀ x ∈ r, P x) (e : printedRows show' rows = printedRows show' rows') :
    rows = rows' := by
  have key := lines_unique (P := fun r : List T => ∀ x ∈ r, P x)
    (fun i (r : List T) => decimal i ++ "\t{".toList ++ (r.map fun x => show' x ++ ", ".toList).flatten ++ "}\n".toList)
    (fun i a => by
      obtain ⟨ch, t, e1, e2⟩ := decimal_head i
      refine ⟨ch, t ++ "\t{".toList ++ (a.map fun x => show' x ++ ", ".toList).flatten ++ "}\n".toList, by rw [e1]; rfl, ?_⟩
      intro e3; rw [e3] at e2; exact absurd e2 (by decide))
    (fun i a b r r' ha hb e => by
      simp only [List.append_assoc] at e
      replace e := List.append_cancel_left (List.append_cancel_left e)
      obtain ⟨e1, e2⟩ := followed_unique h a b ('\n' :: r) ('\n' :: r') ha hb e
      exact ⟨e1, (List.cons.inj e2).2⟩)
    rows rows' 0 ['\n'] ['\n'] hx hy
  unfold printedRows at e
  simp only [List.append_assoc] at e
  simp only [List.append_assoc] at key
  exact (key (List.append_cancel_left e)).1

theorem printedMatrix_unique {show' : V → List Char} {P : V → Prop} (h : Legible show' P) {rows rows' : List (List (Nat × V))}
    (hx : ∀ r ∈ rows, ∀ x ∈ r, P x.2) (hy : ∀ r ∈ rows', ∀ x ∈ r, P x.2) (e : printedMatrix show' rows = printedMatrix show' rows') :
    rows = rows' := by
  have key := lines_unique (P := fun r : List (Nat × V) => ∀ x ∈ r, P x.2)
    (fun i (r : List (Nat × V)) => "row ".toList ++ decimal i ++ "\n\tcolumns: ".toList ++ listed decimal (r.map (·.1)) ++
      "\n\tvalues: ".toList ++ listed show' (r.map (·.2)) ++ "\n".toList)
    (fun i a => ⟨'r', _, rfl, by decide⟩)
    (fun i a b r r' ha hb e => by
      simp only [List.append_assoc] at e
      replace e := List.append_cancel_left (List.append_cancel_left (List.append_cancel_left e))
      obtain ⟨e1, e2⟩ := listed_unique (coded_of_legible legible_decimal) _ _ _ _ (fun _ _ => trivial) (fun _ _ => trivial) e
      obtain ⟨e3, e4⟩ := listed_unique (coded_of_legible h) _ _ _ _ (by simpa using fun y x hxy => ha (x, y) hxy)
        (by simpa using fun y x hxy => hb (x, y) hxy) (List.append_cancel_left e2)
      refine ⟨?_, List.append_cancel_left e4⟩
      have e5 := forall₂_eq e1
      have e6 := forall₂_eq e3
      rw [← List.zip_unzip a, ← List.zip_unzip b, List.unzip_eq_map, List.unzip_eq_map, e5, e6])
    rows rows' 0 ['\n'] ['\n'] hx hy
  unfold printedMatrix at e
  simp only [List.append_assoc] at e
  simp only [List.append_assoc] at key
  exact (key (List.append_cancel_left e)).1

/-! ## Arrays -/

theorem pretty_cons (show' : T → List Char) (d : Nat) (ds : List Nat) (f : List Int → T) :
    pretty show' (d :: ds) f =
      listed (fun p : List Nat × (List Int → T) => pretty show' p.1 p.2)
        ((List.range d).map fun (i : Nat) => (ds, fun idx => f ((i : Int) :: idx))) := by
  rw [pretty, listed, List.map_map]
  rfl

/-- The same dimension sizes and the same values. -/
def SameArray (p q : List Nat × (List Int → T)) : Prop := p.1 = q.1 ∧ ∀ idx, InBounds p.1 idx → p.2 idx = q.2 idx

theorem coded_pretty {show' : T → List Char} {P : T → Prop} (h : Legible show' P) (n : Nat) :
    Coded (SameArray (T := T)) (fun p => p.1.length = n ∧ (∀ d ∈ p.1, 0 < d) ∧ ∀ idx, InBounds p.1 idx → P (p.2 idx))
      (fun p => pretty show' p.1 p.2) := by
  induction n with
  | zero =>
    refine ⟨fun a ha => ?_, fun a b r r' ha hb hr hr' e => ?_⟩
    · obtain ⟨dims, f⟩ := a
      obtain rfl : dims = [] := List.eq_nil_of_length_eq_zero ha.1
      exact (coded_of_legible h).head _ (ha.2.2 [] trivial)
    · obtain ⟨dims, f⟩ := a
      obtain rfl : dims = [] := List.eq_nil_of_length_eq_zero ha.1
      obtain ⟨dims', f'⟩ := b
      obtain rfl : dims' = [] := List.eq_nil_of_length_eq_zero hb.1
      obtain ⟨e1, e2⟩ := (coded_of_legible h).uniq _ _ r r' (ha.2.2 [] trivial) (hb.2.2 [] trivial) hr hr' e
      refine ⟨⟨rfl, fun idx hidx => ?_⟩, e2⟩
      cases idx with
      | nil => exact e1
      | cons _ _ => exact absurd hidx (by simp [InBounds])
  | succ n ih =>
    have hsub : ∀ (d : Nat) (ds : List Nat) (f : List Int → T), (d :: ds).length = n + 1 → (∀ d' ∈ d :: ds, 0 < d') →
        (∀ idx, InBounds (d :: ds) idx → P (f idx)) →
        ∀ p ∈ (List.range d).map fun (i : Nat) => (ds, fun idx => f ((i : Int) :: idx)),
          p.1.length = n ∧ (∀ d ∈ p.1, 0 < d) ∧ ∀ idx, InBounds p.1 idx → P (p.2 idx) := by
      intro d ds f h1 h2 h3 p hp
      obtain ⟨i, hi, rfl⟩ := List.mem_map.1 hp
      refine ⟨by simpa using h1, fun d' hd' => h2 d' (by simp [hd']), fun idx hidx => h3 _ ⟨⟨by omega, ?_⟩, hidx⟩⟩
      have := List.mem_range.1 hi
      omega
    refine ⟨fun a ha => ?_, fun a b r r' ha hb hr hr' e => ?_⟩
    · obtain ⟨dims, f⟩ := a
      cases dims with
      | nil => exact absurd ha.1 (by simp)
      | cons d ds =>
        rw [pretty_cons]
        exact (coded_listed ih).head _ (hsub d ds f ha.1 ha.2.1 ha.2.2)
    · obtain ⟨dims, f⟩ := a
      obtain ⟨dims', f'⟩ := b
      cases dims with
      | nil => exact absurd ha.1 (by simp)
      | cons d ds =>
        cases dims' with
        | nil => exact absurd hb.1 (by simp)
        | cons d' ds' =>
          simp only [pretty_cons] at e
          obtain ⟨e1, e2⟩ := (coded_listed ih).uniq _ _ r r' (hsub d ds f ha.1 ha.2.1 ha.2.2) (hsub d' ds' f' hb.1 hb.2.1 hb.2.2) hr hr' e
          have hd : d = d' := by simpa using e1.length_eq
          subst hd
          have hget : ∀ i, i < d → SameArray (ds, fun idx => f ((i : Int) :: idx)) (ds', fun idx => f' ((i : Int) :: idx)) := by
            intro i hi
            have := e1.get (i := i) (by simpa using hi) (by simpa using hi)
            simpa using this
          have hds : ds = ds' := (hget 0 (ha.2.1 d (by simp))).1
          subst hds
          refine ⟨⟨rfl, fun idx hidx => ?_⟩, e2⟩
          cases idx with
          | nil => exact absurd hidx (by simp [InBounds])
          | cons i idx =>
            obtain ⟨⟨h1, h2⟩, h3⟩ := hidx
            have := (hget i.toNat (by omega)).2 idx h3
            rw [show ((i.toNat : Nat) : Int) = i by omega] at this
            exact this

end LvArray.TextIO
