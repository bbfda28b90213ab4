import Verif.TextIOLemmas

/-!
# Lemmas about the checks of `stringToArray` and the pass that determines the dimensions
-/

namespace LvArray.TextIO

open indexing Spec

variable {T : Type}

/-! ## Format -/

theorem hasPair_append (x y : Char) (a b : List Char) :
    hasPair x y (a ++ b) = (hasPair x y a || hasPair x y b || (a.getLast? == some x && b.head? == some y)) := by
  induction a with
  | nil => simp [hasPair]
  | cons p a ih =>
    cases a with
    | nil =>
      cases b with
      | nil => simp [hasPair]
      | cons q b => simp [hasPair, Bool.or_comm]
    | cons q a =>
      simp only [List.cons_append, hasPair] at ih ⊢
      rw [ih, List.getLast?_cons_cons]
      simp only [Bool.or_assoc]

/-- What the checks on the text without spaces look for. -/
structure Good (s : List Char) : Prop where
  ne : s ≠ []
  head : s.head? ≠ some '}'
  last : s.getLast? ≠ some '{'
  pair1 : hasPair '}' '{' s = false
  pair2 : hasPair '{' '}' s = false
  count : s.count '{' = s.count '}'

theorem hasPair_plain {x y : Char} {s : List Char} (h : ∀ ch ∈ s, ch ≠ x) : hasPair x y s = false := by
  induction s with
  | nil => rfl
  | cons a s ih =>
    cases s with
    | nil => rfl
    | cons b s =>
      have := ih (fun ch hch => h ch (by simp [hch]))
      simp only [hasPair, Bool.or_eq_false_iff, Bool.and_eq_false_iff]
      exact ⟨.inl (by simpa using h a (by simp)), this⟩

theorem Good.value {t : List Char} (h : Value t) : Good t where
  ne := h.1
  head := fun he => (h.2 _ (List.mem_of_mem_head? he)).2.2.1 rfl
  last := fun he => (h.2 _ (List.mem_of_getLast? he)).2.1 rfl
  pair1 := hasPair_plain fun ch hch => (h.2 ch hch).2.2.1
  pair2 := hasPair_plain fun ch hch => (h.2 ch hch).2.1
  count := by
    rw [List.count_eq_zero_of_not_mem (fun hm => (h.2 _ hm).2.1 rfl),
      List.count_eq_zero_of_not_mem (fun hm => (h.2 _ hm).2.2.1 rfl)]

theorem Good.comma {a b : List Char} (ha : Good a) (hb : Good b) : Good (a ++ ([','] ++ b)) where
  ne := by simp [ha.ne]
  head := by rw [List.head?_append_of_ne_nil _ ha.ne]; exact ha.head
  last := by rw [← List.append_assoc, List.getLast?_append_of_ne_nil _ hb.ne]; exact hb.last
  pair1 := by rw [hasPair_append, hasPair_append, ha.pair1, hb.pair1]; simp [hasPair]
  pair2 := by rw [hasPair_append, hasPair_append, ha.pair2, hb.pair2]; simp [hasPair]
  count := by simp [List.count_append, ha.count, hb.count]

theorem Good.braces {a : List Char} (ha : Good a) : Good ('{' :: (a ++ ['}'])) where
  ne := by simp
  head := by simp
  last := by simp [List.getLast?_cons]
  pair1 := by
    rw [show '{' :: (a ++ ['}']) = ['{'] ++ (a ++ ['}']) by rfl]
    rw [hasPair_append, hasPair_append, ha.pair1]; simp [hasPair]
  pair2 := by
    have h1 : (a ++ ['}']).head? = a.head? := List.head?_append_of_ne_nil _ ha.ne
    rw [show '{' :: (a ++ ['}']) = ['{'] ++ (a ++ ['}']) by rfl, hasPair_append, hasPair_append, h1, ha.pair2]
    have := ha.head
    have := ha.last
    simp [hasPair, *]
  count := by simp [List.count_append, List.count_cons, ha.count]

theorem compact_good {show' : T → List Char} {dims : List Nat} {f : List Int → T} (h : Plain show' dims f) (hpos : ∀ d ∈ dims, 0 < d) :
    Good (compact show' dims f) := by
  induction dims generalizing f with
  | nil => rw [compact_nil]; exact .value (h [] trivial)
  | cons d ds ih =>
    obtain ⟨d, rfl⟩ : ∃ e, d = e + 1 := ⟨d - 1, by have := hpos d (by simp); omega⟩
    have hpos' : ∀ d ∈ ds, 0 < d := fun d hd => hpos d (by simp [hd])
    rw [compact_cons, ← List.append_assoc]
    refine Good.braces (restItems_induct _ _ _ _ _ (ih (h.item (by omega)) hpos') (fun i _ hi y hy => ?_))
    exact hy.comma (ih (h.item (by omega)) hpos')

theorem compact_lead {show' : T → List Char} {dims : List Nat} {f : List Int → T} (h : Plain show' dims f) (hpos : ∀ d ∈ dims, 0 < d) :
    ∃ ch tail, compact show' dims f = List.replicate dims.length '{' ++ ch :: tail ∧ ch ≠ '{' := by
  induction dims generalizing f with
  | nil =>
    rw [compact_nil]
    obtain ⟨hne, hch⟩ := h [] trivial
    cases hs : show' (f []) with
    | nil => exact absurd hs hne
    | cons ch tail => exact ⟨ch, tail, by simp, (hch ch (by simp [hs])).2.1⟩
  | cons d ds ih =>
    obtain ⟨d, rfl⟩ : ∃ e, d = e + 1 := ⟨d - 1, by have := hpos d (by simp); omega⟩
    obtain ⟨ch, tail, ht, hch⟩ := ih (h.item (i := 0) (by omega)) (fun d hd => hpos d (by simp [hd]))
    rw [compact_cons, ht]
    exact ⟨ch, _, by simp [List.replicate_succ]; rfl, hch⟩

theorem findIdx?_lead (n : Nat) (ch : Char) (tail : List Char) (h : ch ≠ '{') :
    (List.replicate n '{' ++ ch :: tail).findIdx? (· != '{') = some n := by
  induction n with
  | zero => simp [List.findIdx?_cons, h]
  | succ n ih => simp [List.replicate_succ, List.findIdx?_cons, ih]

theorem checkFormat_compact {show' : T → List Char} {dims : List Nat} {f : List Int → T} (h : Plain show' dims f)
    (hpos : ∀ d ∈ dims, 0 < d) (hn : dims ≠ []) : checkFormat dims.length (compact show' dims f) = .ok () := by
  have hg := compact_good h hpos
  obtain ⟨ch, tail, ht, hch⟩ := compact_lead h hpos
  have hhead : (compact show' dims f).head? = some '{' := by
    cases dims with
    | nil => exact absurd rfl hn
    | cons d ds => rw [ht]; simp [List.replicate_succ]
  have hfind : (compact show' dims f).findIdx? (· != '{') = some dims.length := by rw [ht]; exact findIdx?_lead _ _ _ hch
  unfold checkFormat
  rw [hg.pair1, hg.pair2, hg.count, hhead, hfind]
  simp [errorIf]

theorem compact_ne_empty {show' : T → List Char} {dims : List Nat} {f : List Int → T} (h : Plain show' dims f)
    (hpos : ∀ d ∈ dims, 0 < d) : compact show' dims f ≠ ['{', '}'] := fun he => by
  have := (compact_good h hpos).pair2
  rw [he] at this
  exact absurd this (by decide)

/-! ## The dimensions -/

/-- State of the pass at the start of a sub-array of nesting level `l`: the deeper levels are not being counted, and those seen before
have the right length. -/
structure Before (D : List Nat) (l : Nat) (s : Scan) : Prop where
  level : s.dimLevel = (l : Int) - 1
  one : ∀ j, l ≤ j → s.currentDims j = 1
  set : ∀ j, l ≤ j → s.dims j = if s.dimSet j then D.getD j 0 else 1

/-- State at its end, compared to the start. -/
structure After (D : List Nat) (l : Nat) (s s' : Scan) : Prop where
  before : Before D l s'
  all : ∀ j, l ≤ j → j < D.length → s'.dimSet j = true
  keep : ∀ j, j < l → s'.dims j = s.dims j ∧ s'.currentDims j = s.currentDims j ∧ s'.dimSet j = s.dimSet j
  last : s'.lastChar ≠ '{' ∧ s'.lastChar ≠ ','

theorem run_value (n : Nat) (s : Scan) (t rest : List Char) (h : Value t) :
    ∃ ch, ch ≠ '{' ∧ ch ≠ ',' ∧ Scan.run n s (t ++ rest) = Scan.run n { s with lastChar := ch } rest := by
  obtain ⟨hne, hch⟩ := h
  induction t generalizing s with
  | nil => exact absurd rfl hne
  | cons ch t ih =>
    obtain ⟨h1, h2, h3, h4⟩ := hch ch (by simp)
    have hstep : ∀ last, s.step n ch last = .ok { s with lastChar := ch } := by intro last; simp [Scan.step, h2, h3, h4]
    rw [List.cons_append, Scan.run, hstep, bind_ok]
    cases t with
    | nil => exact ⟨ch, h2, h4, rfl⟩
    | cons x xs =>
      obtain ⟨ch', a, b, h⟩ := ih { s with lastChar := ch } (by simp) (fun c hc => hch c (by simp [hc]))
      exact ⟨ch', a, b, h⟩

/-- State while the items of level `l` are read: `k` of them are complete. -/
structure Within (D : List Nat) (l k : Nat) (s0 s : Scan) : Prop where
  level : s.dimLevel = (l : Int)
  cur : s.currentDims l = k
  dim : s.dims l = if s.dimSet l then D.getD l 0 else k
  one : ∀ j, l < j → s.currentDims j = 1
  set : ∀ j, l < j → s.dims j = if s.dimSet j then D.getD j 0 else 1
  all : ∀ j, l < j → j < D.length → s.dimSet j = true
  keep : ∀ j, j < l → s.dims j = s0.dims j ∧ s.currentDims j = s0.currentDims j ∧ s.dimSet j = s0.dimSet j
  same : s.dimSet l = s0.dimSet l
  last : s.lastChar ≠ '{' ∧ s.lastChar ≠ ','

theorem run_items (D : List Nat) (l : Nat) (hl : l < D.length) (item : Nat → List Char) (s0 : Scan)
    (hitem : ∀ i s rest, i < D.getD l 0 → Before D (l + 1) s →
      ∃ s', Scan.run D.length s (item i ++ rest) = Scan.run D.length s' rest ∧ After D (l + 1) s s')
    (n k : Nat) (s : Scan) (rest : List Char) (hk : k + n ≤ D.getD l 0) (hw : Within D l k s0 s) :
    ∃ s', Scan.run D.length s (restItems [','] item n k ++ rest) = Scan.run D.length s' rest ∧ Within D l (k + n) s0 s' := by
  induction n generalizing k s with
  | zero => exact ⟨s, rfl, hw⟩
  | succ n ih =>
    have hlev : s.level D.length = .ok l := by
      unfold Scan.level
      rw [hw.level, if_pos ⟨by omega, by omega⟩]; rfl
    obtain ⟨t, ht⟩ : ∃ t : Scan, t = { s with
      dims := if s.dimSet l then s.dims else upd s.dims l (s.dims l + 1)
      currentDims := upd s.currentDims l (s.currentDims l + 1)
      lastChar := ',' } := ⟨_, rfl⟩
    have hstep : ∀ last, s.step D.length ',' last = .ok t := by
      intro last
      have h1 := hw.last
      rw [ht]
      simp [Scan.step, h1.1, h1.2, hlev, errorIf]
    have hb : Before D (l + 1) t := by
      refine ⟨by rw [ht]; show s.dimLevel = _; rw [hw.level]; omega, fun j hj => ?_, fun j hj => ?_⟩
      · rw [ht]; show upd _ _ _ _ = _
        rw [upd, if_neg (by omega)]; exact hw.one j (by omega)
      · have := hw.set j (by omega)
        rw [ht]
        show (if s.dimSet l = true then s.dims else upd s.dims l (s.dims l + 1)) j = if s.dimSet j = true then _ else _
        split
        · exact this
        · rw [upd, if_neg (by omega)]; exact this
    obtain ⟨u, hu, ha⟩ := hitem k t (restItems [','] item n (k + 1) ++ rest) (by omega) hb
    have hkeep := ha.keep l (by omega)
    have hw' : Within D l (k + 1) s0 u := by
      refine ⟨by have := ha.before.level; omega, ?_, ?_, fun j hj => ha.before.one j (by omega), fun j hj => ha.before.set j (by omega),
        fun j h1 h2 => ha.all j (by omega) h2, fun j hj => ?_, ?_, ha.last⟩
      · rw [hkeep.2.1, ht]; show upd _ _ _ _ = _
        rw [upd, if_pos rfl, hw.cur]
      · have h1 := hw.dim
        rw [hkeep.1, hkeep.2.2, ht]
        show (if s.dimSet l = true then s.dims else upd s.dims l (s.dims l + 1)) l = if s.dimSet l = true then _ else _
        cases hsl : s.dimSet l with
        | true => simpa [hsl] using h1
        | false => simp [hsl] at h1; simp [upd, h1]
      · obtain ⟨a, b, c'⟩ := ha.keep j (by omega)
        obtain ⟨a', b', c''⟩ := hw.keep j hj
        rw [a, b, c', ht, ← a', ← b', ← c'']
        refine ⟨?_, ?_, rfl⟩
        · show (if s.dimSet l = true then s.dims else upd s.dims l (s.dims l + 1)) j = _
          split
          · rfl
          · rw [upd, if_neg (by omega)]
        · show upd _ _ _ _ = _; rw [upd, if_neg (by omega)]
      · rw [hkeep.2.2, ht]; exact hw.same
    obtain ⟨v, hv, hwv⟩ := ih (k + 1) u (by omega) hw'
    refine ⟨v, ?_, by rwa [show k + (n + 1) = k + 1 + n by omega]⟩
    rw [← hv, ← hu, restItems, List.append_assoc, List.append_assoc, List.singleton_append, Scan.run, hstep, bind_ok]

theorem run_compact {show' : T → List Char} (D : List Nat) (l : Nat) (ds : List Nat) (f : List Int → T)
    (hD : D.drop l = ds) (hl : l ≤ D.length) (hpos : ∀ d ∈ ds, 0 < d) (h : Plain show' ds f) (s : Scan) (rest : List Char)
    (hs : Before D l s) (hrest : l = 0 → rest = []) :
    ∃ s', Scan.run D.length s (compact show' ds f ++ rest) = Scan.run D.length s' rest ∧ After D l s s' := by
  induction ds generalizing l f s rest with
  | nil =>
    rw [compact_nil]
    obtain ⟨ch, h1, h2, he⟩ := run_value D.length s (show' (f [])) rest (h [] trivial)
    refine ⟨_, he, ⟨hs.level, hs.one, hs.set⟩, fun j h1 h2 => ?_, fun j _ => ⟨rfl, rfl, rfl⟩, h1, h2⟩
    have := congrArg List.length hD
    simp at this; omega
  | cons d ds ih =>
    have hlt : l < D.length := by
      have := congrArg List.length hD
      simp at this; omega
    have hd : D.getD l 0 = d := by
      have := congrArg List.head? hD
      simp only [List.head?_drop, List.head?_cons] at this
      rw [List.getD_eq_getElem?_getD, this]; rfl
    have hds : D.drop (l + 1) = ds := by rw [← List.tail_drop, hD]; rfl
    obtain ⟨e, rfl⟩ : ∃ e, d = e + 1 := ⟨d - 1, by have := hpos d (by simp); omega⟩
    have hpos' : ∀ d ∈ ds, 0 < d := fun d hd => hpos d (by simp [hd])
    rw [compact_cons]
    have hstep0 : ∀ last, s.step D.length '{' last = .ok { s with dimLevel := s.dimLevel + 1, lastChar := '{' } := by
      intro last; simp [Scan.step]
    have hitem : ∀ (i : Nat) (s : Scan) (rest : List Char), i < D.getD l 0 → Before D (l + 1) s →
        ∃ s', Scan.run D.length s (compact show' ds (fun idx => f ((i : Int) :: idx)) ++ rest) = Scan.run D.length s' rest ∧
          After D (l + 1) s s' := fun i s rest hi hb =>
      ih (l + 1) _ hds (by omega) hpos' (h.item (by omega)) s rest hb (by omega)
    have hb1 : Before D (l + 1) { s with dimLevel := s.dimLevel + 1, lastChar := '{' } :=
      ⟨by have := hs.level; show s.dimLevel + 1 = _; omega, fun j hj => hs.one j (by omega), fun j hj => hs.set j (by omega)⟩
    obtain ⟨t, ht, ha⟩ := hitem 0 { s with dimLevel := s.dimLevel + 1, lastChar := '{' }
      (restItems [','] (fun (i : Nat) => compact show' ds (fun idx => f ((i : Int) :: idx))) e 1 ++ ('}' :: rest)) (by omega) hb1
    have hkeep := ha.keep l (by omega)
    have hw : Within D l 1 s t := by
      refine ⟨by have := ha.before.level; omega, ?_, ?_, fun j hj => ha.before.one j (by omega),
        fun j hj => ha.before.set j (by omega), fun j h1 h2 => ha.all j (by omega) h2, fun j hj => ha.keep j (by omega), hkeep.2.2, ha.last⟩
      · rw [hkeep.2.1]; exact hs.one l (by omega)
      · rw [hkeep.1, hkeep.2.2]; exact hs.set l (by omega)
    obtain ⟨u, hu, hwu⟩ := run_items D l hlt (fun (i : Nat) => compact show' ds (fun idx => f ((i : Int) :: idx))) s hitem e 1 t
      ('}' :: rest) (by omega) hw
    have hlev : u.level D.length = .ok l := by
      unfold Scan.level
      rw [hwu.level, if_pos ⟨by omega, by omega⟩]; rfl
    have hdim : u.dims l = D.getD l 0 := by rw [hwu.dim]; split <;> omega
    have hstep1 : u.step D.length '}' rest.isEmpty = .ok
        { u with dimSet := upd u.dimSet l true, currentDims := upd u.currentDims l 1, dimLevel := u.dimLevel - 1, lastChar := '}' } := by
      have h1 : (u.dims l != u.currentDims l) = false := by rw [hdim, hwu.cur, hd]; simp; omega
      have h2 : (decide (u.dimLevel - 1 < 0) && !rest.isEmpty) = false := by
        rw [hwu.level]
        by_cases h0 : l = 0
        · simp [hrest h0]
        · simp; omega
      simp only [Scan.step]
      rw [if_neg (by decide), if_pos trivial, hlev, bind_ok, h1, h2]
      simp [errorIf]
    refine ⟨{ u with dimSet := upd u.dimSet l true, currentDims := upd u.currentDims l 1, dimLevel := u.dimLevel - 1, lastChar := '}' },
      ?_, ⟨?_, fun j hj => ?_, fun j hj => ?_⟩, fun j h1 h2 => ?_, fun j hj => ?_, ?_⟩
    · rw [List.cons_append, Scan.run, hstep0, bind_ok]
      simp only [List.append_assoc, List.singleton_append]
      rw [ht, hu, Scan.run, hstep1, bind_ok]
    · show u.dimLevel - 1 = _; rw [hwu.level]
    · show upd _ _ _ _ = _
      by_cases e : j = l
      · rw [upd, if_pos e]
      · rw [upd, if_neg e]; exact hwu.one j (by omega)
    · show u.dims j = if upd u.dimSet l true j = true then _ else _
      by_cases e : j = l
      · rw [e, hdim]; simp [upd]
      · rw [upd, if_neg e]; exact hwu.set j (by omega)
    · show upd _ _ _ _ = _
      by_cases e : j = l
      · rw [upd, if_pos e]
      · rw [upd, if_neg e]; exact hwu.all j (by omega) h2
    · obtain ⟨a, b, c'⟩ := hwu.keep j hj
      refine ⟨a, ?_, ?_⟩
      · show upd _ _ _ _ = _; rw [upd, if_neg (by omega)]; exact b
      · show upd _ _ _ _ = _; rw [upd, if_neg (by omega)]; exact c'
    · exact ⟨by show '}' ≠ '{'; decide, by show '}' ≠ ','; decide⟩

theorem scan_compact {show' : T → List Char} (D : List Nat) (f : List Int → T) (hpos : ∀ d ∈ D, 0 < d) (h : Plain show' D f) :
    ∃ s, Scan.init.run D.length (compact show' D f) = .ok s ∧ s.dimLevel = -1 ∧
      (List.range D.length).map (fun k => (s.dims k : Int)) = D.map (fun (d : Nat) => (d : Int)) := by
  obtain ⟨s, hs, ha⟩ := run_compact D 0 D f rfl (by omega) hpos h Scan.init [] ⟨rfl, fun _ _ => rfl, fun _ _ => rfl⟩ (fun _ => rfl)
  rw [List.append_nil] at hs
  refine ⟨s, hs, ha.before.level, ?_⟩
  apply List.ext_getElem
  · simp
  · intro k h1 h2
    simp only [List.length_map, List.length_range] at h1
    have := ha.before.set k (by omega)
    rw [ha.all k (by omega) h1, if_pos rfl, List.getD_eq_getElem?_getD, List.getElem?_eq_getElem h1] at this
    simp [this]

end LvArray.TextIO
