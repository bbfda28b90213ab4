import Verif.TextIOScan

/-!
# Lemmas about the recursive `Read` of `stringToArray`

`parse` reads the values of a nested list without storing them; `read` stores exactly the values found by `parse`.
-/

namespace LvArray.TextIO

open indexing Spec bufferManipulation

variable {T : Type}

/-- `n` items, separated by spaces. -/
def parseItems {F : Type} (v : F) (p : List Char → Option (F × List Char)) : Nat → List Char → Option ((Nat → F) × List Char)
  | 0, text => some (fun _ => v, text)
  | n + 1, text =>
    match p (skipDelimiters text) with
    | none => none
    | some (g, t) =>
      match parseItems v p n t with
      | none => none
      | some (gs, t') => some (fun i => match i with | 0 => g | i + 1 => gs i, t')

/-- The values of the nested list at the start of `text`, and the rest of the text. -/
def parse (extract : List Char → Option (T × List Char)) (v : T) : List Nat → List Char → Option ((List Int → T) × List Char)
  | [], text => (extract text).map fun r => (fun _ => r.1, r.2)
  | d :: ds, text =>
    if text.head? = some '{' then
      match parseItems (fun _ => v) (parse extract v ds) d (text.drop 1) with
      | none => none
      | some (gs, t) =>
        if (skipDelimiters t).head? = some '}' then
          some (fun idx => gs (idx.headD 0).toNat idx.tail, (skipDelimiters t).drop 1)
        else none
    else none

/-- `read` on a slice stores what was parsed at the addresses of the slice, or aborts. -/
def Stores (c : Cfg) (s : Slice) (b : Buf T) (xs : List T) (r : R (List Char × Buf T)) : Option ((List Int → T) × List Char) → Prop
  | none => r = .error .abort
  | some (f, rest) => ∃ xs', xs'.length = xs.length ∧ r = .ok (rest, { b with cell := cellsOf xs' }) ∧
      (∀ idx, InBounds s.dims idx → ∀ k : Nat, s.call c idx = .ok k → xs'[k]? = some (f idx)) ∧
      ∀ k : Nat, (∀ idx, InBounds s.dims idx → s.call c idx ≠ .ok (k : Int)) → xs'[k]? = xs[k]?

theorem read_items (c : Cfg) (extract : List Char → Option (T × List Char)) (v : T) (m : Nat) (s : Slice) {d : Nat} {ds : List Nat}
    (hd : s.dims = d :: ds) (hs : s.strides.length = s.dims.length) (hdist : Props.Distinct c s)
    (ih : ∀ (t : Slice) (text : List Char) (b : Buf T) (xs : List T), t.dims = ds → t.strides.length = t.dims.length →
      Props.Distinct c t → (∀ idx, InBounds t.dims idx → ∃ k : Nat, t.call c idx = .ok k ∧ k < xs.length) → Rep b xs →
      Stores c t b xs (read c extract m t text b) (parse extract v t.dims text))
    (n lo : Nat) (hlo : lo + n ≤ d) (text : List Char) (b : Buf T) (xs : List T)
    (hr : ∀ idx, InBounds s.dims idx → ∃ k : Nat, s.call c idx = .ok k ∧ k < xs.length) (hb : Rep b xs) :
    match parseItems (fun _ => v) (parse extract v ds) n text with
    | none => forUp n lo (fun i (r : List Char × Buf T) => do
        read c extract m (← s.at_ c i) (skipDelimiters r.1) r.2) (text, b) = .error .abort
    | some (gs, rest) => ∃ xs', xs'.length = xs.length ∧ forUp n lo (fun i (r : List Char × Buf T) => do
        read c extract m (← s.at_ c i) (skipDelimiters r.1) r.2) (text, b) = .ok (rest, { b with cell := cellsOf xs' }) ∧
      (∀ i : Nat, i < n → ∀ idx, InBounds ds idx → ∀ k : Nat, s.call c (((lo + i : Nat) : Int) :: idx) = .ok (k : Int) →
        xs'[k]? = some (gs i idx)) ∧
      ∀ k : Nat, (∀ i : Nat, i < n → ∀ idx, InBounds ds idx → s.call c (((lo + i : Nat) : Int) :: idx) ≠ .ok (k : Int)) →
        xs'[k]? = xs[k]? := by
  induction n generalizing lo text b xs with
  | zero =>
    refine ⟨xs, rfl, ?_, fun i hi => absurd hi (by omega), fun k _ => rfl⟩
    obtain ⟨h1, h2⟩ := hb
    rw [forUp, ← h1]
  | succ n ihn =>
    obtain ⟨t, ht, htd, hts, htc⟩ := Props.at_ok c s hd hs lo (by omega)
    have hin : ∀ (i : Nat) idx, i < d → InBounds ds idx → InBounds s.dims ((i : Int) :: idx) := by
      intro i idx hi hidx; rw [hd]; exact ⟨⟨by omega, by omega⟩, hidx⟩
    have htdist : Props.Distinct c t := by
      intro i j hi hj h
      rw [htd] at hi hj
      rw [htc i (InBounds.length hi), htc j (InBounds.length hj)] at h
      have := hdist _ _ (hin lo i (by omega) hi) (hin lo j (by omega) hj) h
      exact (List.cons.inj this).2
    have h1 := ih t (skipDelimiters text) b xs htd hts htdist (fun idx hidx => by
      rw [htd] at hidx
      rw [htc idx (InBounds.length hidx)]
      exact hr _ (hin lo idx (by omega) hidx)) hb
    rw [parseItems]
    simp only [forUp, ht, bind_ok]
    rw [htd] at h1
    cases hp : parse extract v ds (skipDelimiters text) with
    | none =>
      rw [hp] at h1
      simp only [Stores] at h1
      simp only [h1, bind_err]
    | some r =>
      obtain ⟨g, text1⟩ := r
      rw [hp] at h1
      obtain ⟨xs1, hlen1, hread1, hval1, hkeep1⟩ := h1
      rw [htd] at hval1 hkeep1
      simp only [hread1, bind_ok]
      have hb1 : Rep { b with cell := cellsOf xs1 } xs1 := ⟨rfl, by have := hb.2; show xs1.length ≤ b.cap; omega⟩
      have h2 := ihn (lo + 1) (by omega) text1 { b with cell := cellsOf xs1 } xs1
        (fun idx hidx => by obtain ⟨k, hk, hlt⟩ := hr idx hidx; exact ⟨k, hk, by omega⟩) hb1
      cases hq : parseItems (fun _ => v) (parse extract v ds) n text1 with
      | none => rw [hq] at h2; exact h2
      | some r2 =>
        obtain ⟨gs, rest⟩ := r2
        rw [hq] at h2
        obtain ⟨xs2, hlen2, hread2, hval2, hkeep2⟩ := h2
        refine ⟨xs2, by omega, hread2, fun i hi idx hidx k hk => ?_, fun k hk => ?_⟩
        · cases i with
          | zero =>
            rw [hkeep2 k (fun j hj jdx hjdx he => ?_)]
            · exact hval1 idx hidx k (by rw [htc idx (InBounds.length hidx)]; exact hk)
            · have := hdist _ _ (hin (lo + 1 + j) jdx (by omega) hjdx) (hin (lo + 0) idx (by omega) hidx) (by rw [he, hk])
              have := (List.cons.inj this).1
              omega
          | succ i =>
            exact hval2 i (by omega) idx hidx k (by rw [show lo + 1 + i = lo + (i + 1) by omega]; exact hk)
        · rw [hkeep2 k (fun j hj jdx hjdx => by
            rw [show lo + 1 + j = lo + (j + 1) by omega]; exact hk (j + 1) (by omega) jdx hjdx)]
          refine hkeep1 k (fun idx hidx => ?_)
          rw [htc idx (InBounds.length hidx)]
          exact hk 0 (by omega) idx hidx

theorem read_parse (c : Cfg) (extract : List Char → Option (T × List Char)) (v : T) (n : Nat) (s : Slice) (text : List Char)
    (b : Buf T) (xs : List T) (hn : s.dims.length = n) (hs : s.strides.length = s.dims.length) (hdist : Props.Distinct c s)
    (hr : ∀ idx, InBounds s.dims idx → ∃ k : Nat, s.call c idx = .ok k ∧ k < xs.length) (hb : Rep b xs) :
    Stores c s b xs (read c extract n s text b) (parse extract v s.dims text) := by
  induction n generalizing s text b xs with
  | zero =>
    have hd : s.dims = [] := List.eq_nil_of_length_eq_zero hn
    obtain ⟨k, hk, hlt⟩ := hr [] (by rw [hd]; trivial)
    have hk0 := hk
    rw [Props.slice_call_ok c s (idx := []) (by rw [hd]; trivial)] at hk
    have hg : getLinearIndex s.usd s.strides [] = 0 := by cases s.strides <;> rfl
    rw [hg, Int.add_zero] at hk
    have hk' : s.data = k := Except.ok.inj hk
    rw [hd, parse, read, readValue]
    cases he : extract text with
    | none => simp [Stores]
    | some r =>
      have h0 : ¬ ((k : Int) < 0) := by omega
      simp only [Option.map_some, Stores, bind_ok, hk', h0, if_false, Int.toNat_natCast, write_rep c hb k r.1 hlt]
      refine ⟨xs.set k r.1, by simp, rfl, fun idx hidx j hj => ?_, fun j hj => ?_⟩
      · rw [hd] at hidx
        have : idx = [] := by cases idx with | nil => rfl | cons _ _ => exact absurd hidx (by simp [InBounds])
        rw [this, hk0] at hj
        have hj' : k = j := by have := Except.ok.inj hj; omega
        rw [← hj']; simp [hlt]
      · have : k ≠ j := fun e => hj [] (by rw [hd]; trivial) (by rw [hk0, e])
        rw [List.getElem?_set_ne this]
  | succ n ih =>
    obtain ⟨d, ds, hd⟩ : ∃ d ds, s.dims = d :: ds := by
      cases h : s.dims with
      | nil => rw [h] at hn; simp at hn
      | cons d ds => exact ⟨d, ds, rfl⟩
    have hdh : s.dims.headD 0 = d := by rw [hd]; rfl
    have hdn : ds.length = n := by rw [hd] at hn; simpa using hn
    rw [read, hdh, hd, parse]
    by_cases hhead : text.head? = some '{'
    · rw [if_pos hhead, show (text.head? != some '{') = false by simp [hhead], errorIf_false, bind_ok]
      have h1 := read_items c extract v n s hd hs hdist (fun t text b xs h1 h2 h3 h4 h5 => ih t text b xs (by rw [h1, hdn]) h2 h3 h4 h5)
        d 0 (by omega) (text.drop 1) b xs hr hb
      cases hp : parseItems (fun _ => v) (parse extract v ds) d (text.drop 1) with
      | none => rw [hp] at h1; simp only [Stores, h1, bind_err]
      | some r =>
        obtain ⟨gs, t⟩ := r
        rw [hp] at h1
        obtain ⟨xs', hlen, hread, hval, hkeep⟩ := h1
        simp only [hread, bind_ok]
        by_cases hcl : (skipDelimiters t).head? = some '}'
        · rw [if_pos hcl, show ((skipDelimiters t).head? != some '}') = false by simp [hcl], errorIf_false, bind_ok]
          refine ⟨xs', hlen, rfl, fun idx hidx k hk => ?_, fun k hk => hkeep k (fun i hi idx hidx => ?_)⟩
          · rw [hd] at hidx
            cases idx with
            | nil => exact absurd hidx (by simp [InBounds])
            | cons i is =>
              obtain ⟨⟨h0, h1⟩, h2⟩ := hidx
              have := hval i.toNat (by omega) is h2 k (by
                rw [show ((0 + i.toNat : Nat) : Int) = i by omega]; exact hk)
              simpa using this
          · exact hk _ (by rw [hd]; exact ⟨⟨by omega, by omega⟩, hidx⟩)
        · rw [if_neg hcl, show ((skipDelimiters t).head? != some '}') = true by simp [hcl], errorIf_true, bind_err]
          rfl
    · rw [if_neg hhead, show (text.head? != some '{') = true by simp [hhead], errorIf_true, bind_err]
      rfl

/-! ## Parsing the text of an array -/

theorem separate_append (a b : List Char) : separate (a ++ b) = separate a ++ separate b := by simp [separate]

theorem separate_value {t : List Char} (h : ∀ ch ∈ t, ch ≠ '}' ∧ ch ≠ ',') : separate t = t := by
  induction t with
  | nil => rfl
  | cons ch t ih =>
    have := ih (fun c hc => h c (by simp [hc]))
    obtain ⟨h1, h2⟩ := h ch (by simp)
    rw [show ch :: t = [ch] ++ t by rfl, separate_append, this]
    simp [separate, h1, h2]

theorem skipDelimiters_cons (ch : Char) (t : List Char) (h : ch ≠ ' ') : skipDelimiters (ch :: t) = ch :: t := by
  simp [skipDelimiters, h]

theorem skipDelimiters_space (t : List Char) : skipDelimiters (' ' :: t) = skipDelimiters t := by
  simp [skipDelimiters]

/-- Every value of the array can be read back. -/
def Readable (show' : T → List Char) (extract : List Char → Option (T × List Char)) (dims : List Nat) (f : List Int → T) : Prop :=
  ∀ idx, InBounds dims idx → ReadsBack show' extract (f idx)

theorem Readable.plain {show' : T → List Char} {extract : List Char → Option (T × List Char)} {dims : List Nat} {f : List Int → T}
    (h : Readable show' extract dims f) : Plain show' dims f := fun idx hidx => ⟨(h idx hidx).nonempty, (h idx hidx).plain⟩

theorem Readable.item {show' : T → List Char} {extract : List Char → Option (T × List Char)} {d : Nat} {ds : List Nat} {f : List Int → T}
    (h : Readable show' extract (d :: ds) f) {i : Nat} (hi : i < d) : Readable show' extract ds (fun idx => f ((i : Int) :: idx)) :=
  fun _ hidx => h _ ⟨⟨by omega, by omega⟩, hidx⟩

theorem separate_compact_head {show' : T → List Char} {dims : List Nat} {f : List Int → T} (h : Plain show' dims f)
    (hpos : ∀ d ∈ dims, 0 < d) : ∃ ch tail, separate (compact show' dims f) = ch :: tail ∧ ch ≠ ' ' := by
  cases dims with
  | nil =>
    obtain ⟨hne, hch⟩ := h [] trivial
    rw [compact_nil, separate_value (fun ch hc => ⟨(hch ch hc).2.2.1, (hch ch hc).2.2.2⟩)]
    cases hs : show' (f []) with
    | nil => exact absurd hs hne
    | cons ch tail => exact ⟨ch, tail, rfl, (hch ch (by simp [hs])).1⟩
  | cons d ds =>
    obtain ⟨d, rfl⟩ : ∃ e, d = e + 1 := ⟨d - 1, by have := hpos d (by simp); omega⟩
    rw [compact_cons]
    exact ⟨'{', _, by simp [separate]; rfl, by decide⟩

theorem parse_rest {F : Type} (v : F) (p : List Char → Option (F × List Char)) (item : Nat → List Char) (Q : Nat → F → Prop)
    (n lo : Nat) (r : List Char)
    (hitem : ∀ i, lo ≤ i → i < lo + n → ∀ r, ∃ g, p (separate (item i) ++ ' ' :: r) = some (g, ' ' :: r) ∧ Q i g)
    (hhead : ∀ i, lo ≤ i → i < lo + n → ∃ ch tail, separate (item i) = ch :: tail ∧ ch ≠ ' ') :
    ∃ gs, parseItems v p n (separate (restItems [','] item n lo) ++ ' ' :: r) = some (gs, ' ' :: r) ∧ ∀ i, i < n → Q (lo + i) (gs i) := by
  induction n generalizing lo with
  | zero => exact ⟨_, rfl, fun i hi => absurd hi (by omega)⟩
  | succ n ih =>
    obtain ⟨gs, hgs, hQ⟩ := ih (lo + 1) (fun i h1 h2 => hitem i (by omega) (by omega)) (fun i h1 h2 => hhead i (by omega) (by omega))
    obtain ⟨r', hr'⟩ : ∃ r', separate (restItems [','] item n (lo + 1)) ++ ' ' :: r = ' ' :: r' := by
      cases n with
      | zero => exact ⟨r, by simp [restItems, separate]⟩
      | succ n => rw [restItems, separate_append]; exact ⟨_, rfl⟩
    obtain ⟨g, hg, hQg⟩ := hitem lo (by omega) (by omega) r'
    obtain ⟨ch, tail, htail, hch⟩ := hhead lo (by omega) (by omega)
    have : skipDelimiters (separate (restItems [','] item (n + 1) lo) ++ ' ' :: r) = separate (item lo) ++ ' ' :: r' := by
      rw [restItems, separate_append, separate_append, List.append_assoc, List.append_assoc, hr']
      show skipDelimiters (' ' :: (separate (item lo) ++ ' ' :: r')) = _
      rw [skipDelimiters_space, htail, List.cons_append, skipDelimiters_cons _ _ hch]
    rw [parseItems, this, hg]
    simp only
    rw [← hr', hgs]
    refine ⟨_, rfl, fun i hi => ?_⟩
    cases i with
    | zero => exact hQg
    | succ i =>
      have := hQ i (by omega)
      rw [show lo + (i + 1) = lo + 1 + i by omega]; exact this

theorem parse_compact {show' : T → List Char} {extract : List Char → Option (T × List Char)} (v : T) (ds : List Nat) (f : List Int → T)
    (h : Readable show' extract ds f) (hpos : ∀ d ∈ ds, 0 < d) (rest : List Char) (hrest : ds = [] → ∃ r, rest = ' ' :: r) :
    ∃ g, parse extract v ds (separate (compact show' ds f) ++ rest) = some (g, rest) ∧ ∀ idx, InBounds ds idx → g idx = f idx := by
  induction ds generalizing f rest with
  | nil =>
    obtain ⟨r, rfl⟩ := hrest rfl
    have hv := h [] trivial
    rw [compact_nil, separate_value (fun ch hc => ⟨(hv.plain ch hc).2.2.1, (hv.plain ch hc).2.2.2⟩), parse, hv.back r]
    refine ⟨_, rfl, fun idx hidx => ?_⟩
    cases idx with
    | nil => rfl
    | cons _ _ => exact absurd hidx (by simp [InBounds])
  | cons d ds ih =>
    obtain ⟨e, rfl⟩ : ∃ e, d = e + 1 := ⟨d - 1, by have := hpos d (by simp); omega⟩
    have hpos' : ∀ d ∈ ds, 0 < d := fun d hd => hpos d (by simp [hd])
    have hitem : ∀ (i : Nat), i < e + 1 → ∀ r, ∃ g, parse extract v ds
        (separate (compact show' ds (fun idx => f ((i : Int) :: idx))) ++ ' ' :: r) = some (g, ' ' :: r) ∧
        ∀ idx, InBounds ds idx → g idx = f ((i : Int) :: idx) := fun i hi r =>
      ih _ (h.item hi) hpos' (' ' :: r) (fun _ => ⟨r, rfl⟩)
    have hhead : ∀ (i : Nat), i < e + 1 → ∃ ch tail, separate (compact show' ds (fun idx => f ((i : Int) :: idx))) = ch :: tail ∧ ch ≠ ' ' :=
      fun i hi => separate_compact_head (h.item hi).plain hpos'
    obtain ⟨gs, hgs, hQ⟩ := parse_rest (fun _ => v) (parse extract v ds) (fun (i : Nat) => compact show' ds (fun idx => f ((i : Int) :: idx)))
      (fun i g => ∀ idx, InBounds ds idx → g idx = f ((i : Int) :: idx)) e 1 ('}' :: rest)
      (fun i _ hi r => hitem i (by omega) r) (fun i _ hi => hhead i (by omega))
    obtain ⟨r', hr'⟩ : ∃ r', separate (restItems [','] (fun (i : Nat) => compact show' ds (fun idx => f ((i : Int) :: idx))) e 1) ++
        ' ' :: '}' :: rest = ' ' :: r' := by
      cases e with
      | zero => exact ⟨'}' :: rest, by simp [restItems, separate]⟩
      | succ n => rw [restItems, separate_append]; exact ⟨_, rfl⟩
    obtain ⟨g, hg, hQg⟩ := hitem 0 (by omega) r'
    obtain ⟨ch, tail, htail, hch⟩ := hhead 0 (by omega)
    have htext : separate (compact show' ((e + 1) :: ds) f) ++ rest =
        '{' :: (separate (compact show' ds (fun idx => f (((0 : Nat) : Int) :: idx))) ++
          (separate (restItems [','] (fun (i : Nat) => compact show' ds (fun idx => f ((i : Int) :: idx))) e 1) ++ ' ' :: '}' :: rest)) := by
      rw [compact_cons, show ∀ x : List Char, '{' :: x = ['{'] ++ x from fun _ => rfl]
      simp only [separate_append]
      simp [separate]
    rw [htext, parse, List.head?_cons, if_pos rfl, List.drop_succ_cons, List.drop_zero, parseItems]
    have hskip : skipDelimiters (separate (compact show' ds (fun idx => f (((0 : Nat) : Int) :: idx))) ++
        (separate (restItems [','] (fun (i : Nat) => compact show' ds (fun idx => f ((i : Int) :: idx))) e 1) ++ ' ' :: '}' :: rest)) =
        separate (compact show' ds (fun idx => f (((0 : Nat) : Int) :: idx))) ++ ' ' :: r' := by
      rw [hr', htail, List.cons_append, skipDelimiters_cons _ _ hch]
    rw [hskip, hg]
    simp only
    rw [← hr', hgs]
    simp only
    rw [skipDelimiters_space, skipDelimiters_cons _ _ (by decide), List.head?_cons, if_pos rfl]
    refine ⟨_, rfl, fun idx hidx => ?_⟩
    cases idx with
    | nil => exact absurd hidx (by simp [InBounds])
    | cons i is =>
      obtain ⟨⟨h0, h1⟩, h2⟩ := hidx
      simp only [List.headD_cons, List.tail_cons]
      cases hi : i.toNat with
      | zero =>
        have : i = ((0 : Nat) : Int) := by omega
        rw [this]; exact hQg is h2
      | succ j =>
        have := hQ j (by omega) is h2
        rw [show i = ((1 + j : Nat) : Int) by omega]; exact this

end LvArray.TextIO
