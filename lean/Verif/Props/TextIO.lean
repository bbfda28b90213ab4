import Verif.TextIOOutcome
import Mathlib.Tactic.IntervalCases

/-!
# C36, C37: text output and input of arrays

`Spec.pretty`, `Spec.tokens` and `Spec.Spaced` describe the text; `output` is `stream << array`, `stringToArray` is
`input::stringToArray( array, text )`.
-/

namespace LvArray.Props

open indexing Spec bufferManipulation TextIO

variable {T : Type}

/-! ## C36 -/

/-- **C36**, output: an array of any shape (also an empty one) is printed as the nested list of its values, whatever its
permutation. -/
theorem C36_output (c : Cfg) (show' : T → List Char) (a : ArrayN T) (h : Wf a) (f : List Int → T)
    (hf : ∀ idx, InBounds a.dims idx → a.get c idx = .ok (f idx)) : output c show' a = .ok (pretty show' a.dims f) := by
  have hview := h.view
  have hp := h.isPerm
  obtain ⟨-, hrange, -, -⟩ := C01_bijection c a.perm a.dims h.perm h.len
  refine write_pretty c show' a.buf _ a.view f rfl ?_ (fun idx hidx => ?_)
  · show a.strides.length = a.dims.length
    rw [h.strides]; exact (calculateStrides_spec hp).1
  · obtain ⟨k, hk, h0, -⟩ := hrange idx hidx
    have := hf idx hidx
    unfold ArrayN.get at this
    rw [hview, hk, bind_ok, if_neg (by omega)] at this
    exact ⟨k.toNat, by rw [hview, hk, Int.toNat_of_nonneg h0], this⟩

/-- **C36**, input: the tokens of a nested list with any spaces around them are read as the shape and the values of the list, into any
array of the same rank, whatever its permutation, shape and contents were; it only has to have room. -/
theorem C36_input (c : Cfg) (show' : T → List Char) (extract : List Char → Option (T × List Char)) (dims : List Nat) (f : List Int → T)
    (hpos : ∀ d ∈ dims, 0 < d) (hf : ∀ idx, InBounds dims idx → ReadsBack show' extract (f idx))
    (text : List Char) (ht : Spaced (tokens show' dims f) text)
    (a : ArrayN T) (h : Wf a) (hl : a.dims.length = dims.length) (v : T) :
    (a.buf.room dims.prod → ∃ a', stringToArray c extract a v text = .ok a' ∧ Wf a' ∧ a'.perm = a.perm ∧ a'.dims = dims ∧
      ∀ c' idx, InBounds dims idx → a'.get c' idx = .ok (f idx)) ∧
    (¬ a.buf.room dims.prod → stringToArray c extract a v text = .error .abort) := by
  have hR : Readable show' extract dims f := hf
  have hsep := tokens_separated hR.plain
  obtain ⟨st, hst⟩ := checkDelimiters_spaced ht hsep (false, false) (by simp)
  have hfil := filter_spaced ht hsep
  have hne : dims ≠ [] := by
    intro e; have := h.index; rw [hl, e] at this; exact absurd this (by simp)
  obtain ⟨s, hs, hlev, hdims⟩ := scan_compact dims f hpos hR.plain
  have hD : (List.range dims.length).map s.dims = dims := by
    have := congrArg (List.map Int.toNat) hdims
    simpa [List.map_map, Function.comp_def] using this
  obtain ⟨g, hg, hgf⟩ := parse_compact v dims f hR hpos [] (fun e => absurd e hne)
  have hout : outcome extract v a.dims.length text = .ok (some (dims, g)) := by
    unfold outcome
    rw [hst, hfil, hl, show (tokens show' dims f).flatten = compact show' dims f from rfl]
    simp only [bind_ok]
    rw [if_neg (compact_ne_empty hR.plain hpos), checkFormat_compact hR.plain hpos hne, bind_ok, hs, bind_ok, hlev, hD]
    rw [List.append_nil] at hg
    rw [hg]
    rfl
  have hmain := stringToArray_outcome c extract v a h text
  rw [hout] at hmain
  obtain ⟨-, -, h1, h2⟩ := hmain
  refine ⟨fun hr => ?_, h2⟩
  obtain ⟨a', ha', hw, hp, hd, -, -, -, -, hget⟩ := h1 hr
  exact ⟨a', ha', hw, hp, hd, fun c' idx hidx => by rw [hget c' idx hidx, hgf idx hidx]⟩

/-- **C36.** Printing an array with all dimensions positive and reading the text into an array of the same rank, with any
permutation, shape and contents, gives the same dimensions and values. -/
theorem C36_round_trip (c c' : Cfg) (show' : T → List Char) (extract : List Char → Option (T × List Char))
    (a : ArrayN T) (ha : Wf a) (hpos : ∀ d ∈ a.dims, 0 < d)
    (hv : ∀ idx x, InBounds a.dims idx → a.get c idx = .ok x → ReadsBack show' extract x)
    (t : ArrayN T) (ht : Wf t) (hl : t.dims.length = a.dims.length) (hroom : t.buf.room a.dims.prod) (v : T) :
    ∃ text t', output c show' a = .ok text ∧ stringToArray c' extract t v text = .ok t' ∧ Wf t' ∧ t'.perm = t.perm ∧
      t'.dims = a.dims ∧ ∀ idx, InBounds a.dims idx → ∃ x, a.get c idx = .ok x ∧ t'.get c' idx = .ok x := by
  have hex : ∀ idx, InBounds a.dims idx → ∃ x, a.get c idx = .ok x := by
    intro idx hidx
    have hp := ha.isPerm
    obtain ⟨hpv, hlen, hst, hix, xs, hrep, hxs⟩ := ha
    obtain ⟨-, hrange, -, -⟩ := C01_bijection c a.perm a.dims hpv hlen
    obtain ⟨k, hk, h0, h1⟩ := hrange idx hidx
    have hcall := call_ok hp c hidx
    rw [hk] at hcall
    exact ⟨_, get_of_cell hst hp c hidx (m := k.toNat) (by rw [Int.toNat_of_nonneg h0]; exact (Except.ok.inj hcall).symm)
      (by have := hrep.2; omega) (by rw [hrep.1, cellsOf_lt (by omega)])⟩
  obtain ⟨f, hf⟩ : ∃ f : List Int → T, ∀ idx, InBounds a.dims idx → a.get c idx = .ok (f idx) := by
    refine ⟨fun idx => match a.get c idx with | .ok x => x | .error _ => v, fun idx hidx => ?_⟩
    obtain ⟨x, hx⟩ := hex idx hidx
    simp only [hx]
  obtain ⟨t', h1, h2, h3, h4, h5⟩ := (C36_input c' show' extract a.dims f hpos (fun idx hidx => hv idx _ hidx (hf idx hidx))
    (pretty show' a.dims f) (pretty_spaced show' a.dims f) t ht hl v).1 hroom
  exact ⟨_, t', C36_output c show' a ha f hf, h1, h2, h3, h4, fun idx hidx => ⟨f idx, hf idx hidx, h5 c' idx hidx⟩⟩

/-- **C36**: a one dimensional array without elements is printed as braces only and read back as an array without elements. -/
theorem C36_empty (c c' : Cfg) (show' : T → List Char) (extract : List Char → Option (T × List Char)) (a : ArrayN T) (ha : Wf a)
    (hd : a.dims = [0]) (t : ArrayN T) (ht : Wf t) (hl : t.dims.length = 1) (v : T) :
    ∃ t', output c show' a = .ok "{  }".toList ∧ stringToArray c' extract t v "{  }".toList = .ok t' ∧ Wf t' ∧ t'.dims = [0] := by
  have h1 := C36_output c show' a ha (fun _ => v) (fun idx hidx => by
    rw [hd] at hidx
    cases idx with
    | nil => exact absurd hidx (by simp [InBounds])
    | cons i is => obtain ⟨⟨h0, h1⟩, -⟩ := hidx; omega)
  rw [hd] at h1
  obtain ⟨t', ht', hres, -, -⟩ := C11_clear c' t ht v
  refine ⟨t', h1, ?_, hres.1, ?_⟩
  · have := stringToArray_outcome c' extract v t ht "{  }".toList
    have ho : outcome extract v t.dims.length "{  }".toList = .ok none := rfl
    rw [ho] at this
    rw [this, ht']
  · rw [hres.2.2.2.1]
    have hi := ht.index
    obtain ⟨d, hd'⟩ : ∃ d, t.dims = [d] := by
      cases h : t.dims with
      | nil => rw [h] at hl; simp at hl
      | cons d ds => cases ds with
        | nil => exact ⟨d, rfl⟩
        | cons _ _ => rw [h] at hl; simp at hl
    rw [hd'] at hi ⊢
    have : t.resizeIndex = 0 := by simpa using hi
    rw [this]; rfl

/-! ### Values -/

theorem isDigit_plain {ch : Char} (h : ch.isDigit = true) : ch ≠ ' ' ∧ ch ≠ '{' ∧ ch ≠ '}' ∧ ch ≠ ',' ∧ ch ≠ '-' ∧ ch ≠ '+' ∧
    ch.isWhitespace = false := by
  refine ⟨?_, ?_, ?_, ?_, ?_, ?_, ?_⟩
  iterate 6 (intro e; rw [e] at h; exact absurd h (by decide))
  cases hw : ch.isWhitespace with
  | false => rfl
  | true =>
    exfalso
    simp only [Char.isWhitespace, Bool.or_eq_true, beq_iff_eq, decide_eq_true_eq] at hw
    rcases hw with ((hw | hw) | hw) | hw <;> (rw [hw] at h; exact absurd h (by decide))

/-- Every value of a signed integer type can be printed and read back. -/
theorem C36_integers (lo hi v : Int) (h : lo ≤ v ∧ v ≤ hi) : ReadsBack showInt (extractInt lo hi) v := by
  have hdig : ∀ ch ∈ Nat.toDigits 10 v.natAbs, ch.isDigit = true := fun ch hch => Nat.isDigit_of_mem_toDigits (by omega) (by omega) hch
  have hne : Nat.toDigits 10 v.natAbs ≠ [] := Nat.toDigits_ne_nil
  have htake : ∀ rest, (Nat.toDigits 10 v.natAbs ++ ' ' :: rest).takeWhile Char.isDigit = Nat.toDigits 10 v.natAbs := by
    intro rest
    rw [List.takeWhile_append_of_pos hdig]
    simp [show Char.isDigit ' ' = false by decide]
  have hdrop : ∀ rest, (Nat.toDigits 10 v.natAbs ++ ' ' :: rest).dropWhile Char.isDigit = ' ' :: rest := by
    intro rest
    rw [List.dropWhile_append_of_pos hdig]
    simp [show Char.isDigit ' ' = false by decide]
  have hof : ofDigits (Nat.toDigits 10 v.natAbs) = v.natAbs := Nat.ofDigitChars_ten_toDigits
  refine ⟨?_, fun ch hch => ?_, fun rest => ?_⟩
  · unfold showInt; split
    · simp
    · exact hne
  · unfold showInt at hch
    split at hch
    · rcases List.mem_cons.mp hch with rfl | hch
      · decide
      · obtain ⟨a, b, c, d, -⟩ := isDigit_plain (hdig ch hch); exact ⟨a, b, c, d⟩
    · obtain ⟨a, b, c, d, -⟩ := isDigit_plain (hdig ch hch); exact ⟨a, b, c, d⟩
  · by_cases hv : v < 0
    · have h1 : (showInt v ++ ' ' :: rest).dropWhile Char.isWhitespace = '-' :: (Nat.toDigits 10 v.natAbs ++ ' ' :: rest) := by
        unfold showInt; rw [if_pos hv, List.cons_append, List.dropWhile_cons_of_neg (by decide)]
      unfold extractInt
      rw [h1]
      simp only [takeSign, htake, hdrop, hof, if_neg hne, if_true]
      rw [show -(v.natAbs : Int) = v by omega, if_neg (by omega), if_neg (by omega)]
    · obtain ⟨ch, tail, hct⟩ : ∃ ch tail, Nat.toDigits 10 v.natAbs = ch :: tail := by
        cases hx : Nat.toDigits 10 v.natAbs with
        | nil => exact absurd hx hne
        | cons ch tail => exact ⟨ch, tail, rfl⟩
      obtain ⟨-, -, -, -, h5, h6, h7⟩ := isDigit_plain (hdig ch (by rw [hct]; simp))
      have h1 : (showInt v ++ ' ' :: rest).dropWhile Char.isWhitespace = Nat.toDigits 10 v.natAbs ++ ' ' :: rest := by
        unfold showInt; rw [if_neg hv, hct, List.cons_append, List.dropWhile_cons_of_neg (by simp [h7])]
      have h2 : takeSign (Nat.toDigits 10 v.natAbs ++ ' ' :: rest) = (false, Nat.toDigits 10 v.natAbs ++ ' ' :: rest) := by
        rw [hct, List.cons_append, takeSign]
        · intro x e; exact h5 (List.cons.inj e).1
        · intro x e; exact h6 (List.cons.inj e).1
      unfold extractInt
      rw [h1, h2]
      simp only [htake, hdrop, hof, if_neg hne]
      simp only [Bool.false_eq_true, if_false]
      rw [show (v.natAbs : Int) = v by omega, if_neg (by omega), if_neg (by omega)]

/-- Every string without white space, braces and commas can be printed and read back. -/
theorem C36_strings (v : List Char) (hne : v ≠ []) (h : ∀ ch ∈ v, ch.isWhitespace = false ∧ ch ≠ '{' ∧ ch ≠ '}' ∧ ch ≠ ',') :
    ReadsBack showString extractString v := by
  have hall : ∀ ch ∈ v, (!Char.isWhitespace ch) = true := fun ch hch => by simp [(h ch hch).1]
  refine ⟨hne, fun ch hch => ⟨fun e => ?_, (h ch hch).2⟩, fun rest => ?_⟩
  · have := (h ch hch).1
    rw [e] at this; exact absurd this (by decide)
  · have h1 : (v ++ ' ' :: rest).dropWhile Char.isWhitespace = v ++ ' ' :: rest := by
      cases v with
      | nil => exact absurd rfl hne
      | cons ch t => rw [List.cons_append, List.dropWhile_cons_of_neg (by simp [(h ch (by simp)).1])]
    unfold extractString showString
    rw [h1]
    simp only [List.takeWhile_append_of_pos hall, List.dropWhile_append_of_pos hall]
    simp [show Char.isWhitespace ' ' = true by decide, hne]

/-! ## C37 -/

/-- **C37**, the effect of any text: there is an outcome, an error or a request, that depends on the rank and the text only.  For every
array of that rank `stringToArray` either reports the error, or empties the array, or gives it the requested shape, with all dimensions
positive, and *all* its values (nothing remains of what was in the array); if a fixed buffer has no room it aborts. -/
theorem C37_outcome (extract : List Char → Option (T × List Char)) (v : T) (ndim : Nat) (text : List Char) :
    ∃ o : R (Option (List Nat × (List Int → T))),
      ((∀ k, (text.take k).count '{' ≤ (text.take k).count '}' + ndim) → ∀ e, o = .error e → e = .abort) ∧
      ∀ (c : Cfg) (a : ArrayN T), Wf a → a.dims.length = ndim →
        match o with
        | .error e => stringToArray c extract a v text = .error e
        | .ok none => ∃ a', stringToArray c extract a v text = .ok a' ∧ Wf a' ∧ a'.dims = a.dims.set a.resizeIndex 0 ∧ a'.size = 0
        | .ok (some (dims, f)) => dims.length = ndim ∧ (∀ d ∈ dims, 0 < d) ∧
            (a.buf.room dims.prod → ∃ a', stringToArray c extract a v text = .ok a' ∧ Wf a' ∧ a'.perm = a.perm ∧ a'.dims = dims ∧
              a'.resizeIndex = a.resizeIndex ∧ a'.buf.kind = a.buf.kind ∧ a'.buf.lostLive = a.buf.lostLive ∧
              a'.buf.lostMoved = a.buf.lostMoved ∧ ∀ c' idx, InBounds dims idx → a'.get c' idx = .ok (f idx)) ∧
            (¬ a.buf.room dims.prod → stringToArray c extract a v text = .error .abort) := by
  refine ⟨outcome extract v ndim text, fun hd e he => outcome_shallow extract v ndim text hd he, fun c a h hl => ?_⟩
  have := stringToArray_outcome c extract v a h text
  rw [hl] at this
  cases ho : outcome extract v ndim text with
  | error e => rw [ho] at this; exact this
  | ok o =>
    rw [ho] at this
    cases o with
    | none =>
      obtain ⟨a', ha', hres, hsz, -⟩ := C11_clear c a h v
      exact ⟨a', by rw [this, ha'], hres.1, hres.2.2.2.1, hsz⟩
    | some r => exact this

/-- **C37**, safety for every text whose braces are never nested deeper than the rank: `stringToArray` aborts with an error, or leaves the
array in a proper state with the same rank.  (Missing for the full statement: deeper nesting, see `C37_deep_nesting`.) -/
theorem C37_safe_partial (c : Cfg) (extract : List Char → Option (T × List Char)) (v : T) (a : ArrayN T) (h : Wf a) (text : List Char)
    (hd : ∀ k, (text.take k).count '{' ≤ (text.take k).count '}' + a.dims.length) :
    stringToArray c extract a v text = .error .abort ∨
    ∃ a', stringToArray c extract a v text = .ok a' ∧ Wf a' ∧ a'.dims.length = a.dims.length := by
  obtain ⟨o, ho, hall⟩ := C37_outcome extract v a.dims.length text
  have := hall c a h rfl
  match o, ho, this with
  | .error e, ho, this => rw [ho hd e rfl] at this; exact .inl this
  | .ok none, _, this =>
    obtain ⟨a', h1, h2, h3, -⟩ := this
    exact .inr ⟨a', h1, h2, by rw [h3]; simp⟩
  | .ok (some (dims, f)), _, this =>
    obtain ⟨hl, -, h1, h2⟩ := this
    by_cases hr : a.buf.room dims.prod
    · obtain ⟨a', e, hw, -, hdm, -⟩ := h1 hr
      exact .inr ⟨a', e, hw, by rw [hdm, hl]⟩
    · exact .inl (h2 hr)

/-- `{{...{1,{2}}...}}`: one more level of nesting than `n`, but only in the second entry. -/
def deepText (n : Nat) : List Char := List.replicate n '{' ++ '1' :: ',' :: '{' :: '2' :: '}' :: List.replicate n '}'

theorem checkDelimiters_noSpace (st : Bool × Bool) (text : List Char) (h : ' ' ∉ text) (hst : st.2 = false) :
    ∃ st', checkDelimiters st text = .ok st' := by
  induction text generalizing st with
  | nil => exact ⟨st, rfl⟩
  | cons ch t ih =>
    have hch : ch ≠ ' ' := fun e => h (by simp [e])
    rw [checkDelimiters, delimiterStep, hst]
    simp only [Bool.and_false, errorIf_false, bind_ok]
    split
    · exact ih _ (fun hm => h (by simp [hm])) rfl
    · simp only [ne_eq, hch, not_false_eq_true, if_true, bind_ok]
      exact ih _ (fun hm => h (by simp [hm])) rfl

theorem run_open (ndim m : Nat) (s : Scan) (rest : List Char) :
    ∃ ch, s.run ndim (List.replicate m '{' ++ rest) = Scan.run ndim { s with dimLevel := s.dimLevel + m, lastChar := ch } rest := by
  induction m generalizing s with
  | zero => exact ⟨s.lastChar, by simp⟩
  | succ m ih =>
    obtain ⟨ch, hch⟩ := ih { s with dimLevel := s.dimLevel + 1, lastChar := '{' }
    refine ⟨ch, ?_⟩
    rw [List.replicate_succ, List.cons_append, Scan.run]
    simp only [Scan.step, if_true, bind_ok]
    rw [hch]
    simp only [Nat.cast_add, Nat.cast_one, Int.add_assoc, Int.add_comm 1]

theorem hasPair_replicate {x y : Char} (h : x ≠ y) (n : Nat) (ch : Char) : hasPair x y (List.replicate n ch) = false := by
  induction n with
  | zero => rfl
  | succ n ih =>
    cases n with
    | zero => rfl
    | succ n =>
      simp only [List.replicate_succ] at ih ⊢
      rw [hasPair, ih, Bool.or_false, Bool.and_eq_false_iff]
      by_cases e : ch = x
      · right; rw [e]; simpa using h
      · left; simpa using e

/-- **C37 fails**: for every rank there is a text which passes all checks before the pass that determines the dimensions, and makes that
pass use the entry after the last one of its work arrays (/repo/src/input.hpp 237-239): undefined behaviour, for every array of that
rank and every type of values. -/
theorem C37_deep_nesting (c : Cfg) (extract : List Char → Option (T × List Char)) (v : T) (a : ArrayN T) (h : Wf a) :
    stringToArray c extract a v (deepText a.dims.length) = .error (.ub .outOfBounds) := by
  obtain ⟨n, hn⟩ : ∃ n, a.dims.length = n + 1 := ⟨a.dims.length - 1, by have := h.index; omega⟩
  have hns : ' ' ∉ deepText (n + 1) := by simp [deepText, List.mem_replicate]
  have hfil : (deepText (n + 1)).filter (· != ' ') = deepText (n + 1) := by
    rw [List.filter_eq_self]; intro ch hch
    have : ch ≠ ' ' := fun e => hns (e ▸ hch)
    simpa using this
  obtain ⟨st, hst⟩ := checkDelimiters_noSpace (false, false) _ hns rfl
  have hne : deepText (n + 1) ≠ ['{', '}'] := by
    intro e; have := congrArg List.length e; simp [deepText] at this; omega
  have hfmt : checkFormat (n + 1) (deepText (n + 1)) = .ok () := by
    have hcat : deepText (n + 1) = List.replicate (n + 1) '{' ++ (['1', ',', '{', '2', '}'] ++ List.replicate (n + 1) '}') := rfl
    have p1 : hasPair '}' '{' (deepText (n + 1)) = false := by
      rw [hcat, hasPair_append, hasPair_append, hasPair_replicate (by decide), hasPair_replicate (by decide)]
      simp [hasPair, List.replicate_succ]
    have p2 : hasPair '{' '}' (deepText (n + 1)) = false := by
      rw [hcat, hasPair_append, hasPair_append, hasPair_replicate (by decide), hasPair_replicate (by decide)]
      simp [hasPair, List.replicate_succ]
    have p3 : (deepText (n + 1)).head? = some '{' := by simp [hcat, List.replicate_succ]
    have p4 : (deepText (n + 1)).count '{' = (deepText (n + 1)).count '}' := by
      simp [hcat, List.count_append, List.count_replicate, List.count_cons]
    have p5 : (deepText (n + 1)).findIdx? (· != '{') = some (n + 1) := findIdx?_lead _ _ _ (by decide)
    unfold checkFormat
    rw [p1, p2, p3, p4, p5]
    simp [errorIf]
  have hrun : Scan.init.run (n + 1) (deepText (n + 1)) = .error (.ub .outOfBounds) := by
    obtain ⟨ch, hch⟩ := run_open (n + 1) (n + 1) Scan.init ('1' :: ',' :: '{' :: '2' :: '}' :: List.replicate (n + 1) '}')
    unfold deepText
    rw [hch]
    have hl : Scan.init.dimLevel + ((n + 1 : Nat) : Int) = n := by show (-1 : Int) + _ = _; omega
    rw [hl]
    have h1 : (0 : Int) ≤ n ∧ (n : Int) < ((n + 1 : Nat) : Int) := by omega
    have h2 : ¬ ((0 : Int) ≤ (n : Int) + 1 ∧ (n : Int) + 1 < ((n + 1 : Nat) : Int)) := by omega
    simp [Scan.run, Scan.step, Scan.level, Scan.init, errorIf, h1]
  have := stringToArray_outcome c extract v a h (deepText (n + 1))
  have ho : outcome extract v a.dims.length (deepText (n + 1)) = .error (.ub .outOfBounds) := by
    unfold outcome
    rw [hst, hfil, hn]
    simp only [bind_ok]
    rw [if_neg hne, hfmt, bind_ok, hrun, bind_err]
  rw [ho] at this
  rw [hn]
  exact this

/-! ### Examples -/

/-- A 2 x 3 array with the given permutation. -/
def sample23 (perm : List Nat) : R (ArrayN Int) := do
  let a ← (ArrayN.init Int perm).resize ⟨true, true, false⟩ [2, 3] 0
  let a ← a.set ⟨true, true, false⟩ [0, 0] (-7)
  let a ← a.set ⟨true, true, false⟩ [0, 2] 12
  a.set ⟨true, true, false⟩ [1, 1] 305

/-- A round trip between different permutations, into an array that was not empty. -/
example : (do
      let a ← sample23 [0, 1]
      let t ← (ArrayN.init Int [1, 0]).resize ⟨true, true, false⟩ [1, 4] 9
      let text ← output ⟨true, true, false⟩ showInt a
      let t ← stringToArray ⟨true, true, false⟩ (extractInt (-2147483648) 2147483647) t 0 text
      .ok (String.ofList text == "{ { -7, 0, 12 }, { 0, 305, 0 } }", t.dims, readIs (t.get ⟨true, true, false⟩ [0, 0]) (-7),
        readIs (t.get ⟨true, true, false⟩ [0, 2]) 12, readIs (t.get ⟨true, true, false⟩ [1, 1]) 305,
        readIs (t.get ⟨true, true, false⟩ [1, 2]) 0) : R _) = .ok (true, [2, 3], true, true, true, true) := by
  decide +kernel

/-- The hypotheses of `C36_input` are met by a text with irregular spaces. -/
example : Spaced (tokens showInt [2] (fun idx => if idx = [0] then 5 else -6)) " {5  ,-6 }  ".toList :=
  Spaced.cons 1 ['{'] (Spaced.cons 0 ['5'] (Spaced.cons 2 [','] (Spaced.cons 0 ['-', '6'] (Spaced.cons 1 ['}'] (Spaced.nil 2)))))

example : ReadsBack showInt (extractInt (-128) 127) (-6) := C36_integers _ _ _ (by decide)

example : ReadsBack showString extractString "ab-c".toList := C36_strings _ (by decide) (by decide)

/-- The hypothesis of `C37_safe_partial` is met by malformed text, and the text is rejected. -/
example : (∀ k, ("{1,2},3}".toList.take k).count '{' ≤ ("{1,2},3}".toList.take k).count '}' + 1) ∧
    (do stringToArray ⟨true, true, false⟩ (extractInt (-128) 127) (ArrayN.init Int [0]) 0 "{1,2},3}".toList : R _).toBool = false := by
  refine ⟨fun k => ?_, by decide +kernel⟩
  by_cases h : k < 8
  · interval_cases k <;> decide
  · rw [List.take_of_length_le (by simp; omega)]; decide

/-- Ragged text is rejected. -/
example : (match stringToArray ⟨true, true, false⟩ (extractInt (-128) 127) (ArrayN.init Int [0, 1]) 0 "{{1,2},{3}}".toList with
    | .error .abort => true | _ => false) = true := by
  decide +kernel

/-- A shortcoming within the statement of C37: malformed text is not always rejected.  In `{1-2,}` there is one item followed by a
comma without an item, yet it is read as the two values `1` and `-2`. -/
theorem C37_malformed_accepted :
    (do
      let a ← stringToArray ⟨true, true, false⟩ (extractInt (-128) 127) (ArrayN.init Int [0]) 0 "{1-2,}".toList
      .ok (a.dims, readIs (a.get ⟨true, true, false⟩ [0]) 1, readIs (a.get ⟨true, true, false⟩ [1]) (-2)) : R _) =
      .ok ([2], true, true) := by
  decide +kernel

/-- `C37_deep_nesting` for rank 1: the text is `{1,{2}}`. -/
example : deepText 1 = "{1,{2}}".toList ∧
    (match stringToArray ⟨true, true, false⟩ (extractInt (-128) 127) (ArrayN.init Int [0]) 0 (deepText 1) with
      | .error (.ub .outOfBounds) => true | _ => false) = true := by
  decide +kernel

end LvArray.Props
