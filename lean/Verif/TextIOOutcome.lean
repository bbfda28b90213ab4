import Verif.TextIORead

/-!
# What `stringToArray` does to any array, for any text
-/

namespace LvArray.TextIO

open indexing Spec bufferManipulation Props

variable {T : Type}

/-! ## The pass that determines the dimensions, on any text -/

theorem errorIf_cases (b : Bool) : errorIf b = .ok () ∧ b = false ∨ errorIf b = .error .abort := by
  cases b with
  | true => exact .inr rfl
  | false => exact .inl ⟨rfl, rfl⟩

/-- Either the dimensions found so far stay positive, or the pass aborts or uses an entry which does not exist. -/
theorem run_positive (n : Nat) (s : Scan) (text : List Char) (hs : ∀ j, 0 < s.dims j) {s' : Scan} (h : s.run n text = .ok s') :
    ∀ j, 0 < s'.dims j := by
  induction text generalizing s with
  | nil => rw [Scan.run] at h; cases h; exact hs
  | cons ch text ih =>
    rw [Scan.run] at h
    obtain ⟨t, ht, h⟩ := bind_eq_ok.mp h
    refine ih t ?_ h
    rw [Scan.step] at ht
    split at ht
    · cases ht; exact hs
    · split at ht
      · obtain ⟨l, -, ht⟩ := bind_eq_ok.mp ht
        obtain ⟨-, -, ht⟩ := bind_eq_ok.mp ht
        obtain ⟨-, -, ht⟩ := bind_eq_ok.mp ht
        cases ht; exact hs
      · split at ht
        · obtain ⟨-, -, ht⟩ := bind_eq_ok.mp ht
          obtain ⟨l, -, ht⟩ := bind_eq_ok.mp ht
          cases ht
          intro j
          show 0 < (if s.dimSet l = true then s.dims else upd s.dims l (s.dims l + 1)) j
          split
          · exact hs j
          · rw [upd]; split
            · omega
            · exact hs j
        · cases ht; exact hs

/-- If the nesting never gets deeper than `n`, the pass finishes or aborts. -/
theorem run_shallow (n : Nat) (s : Scan) (text : List Char) (h0 : 0 ≤ s.dimLevel ∨ text.head? = some '{' ∧ s.dimLevel = -1 ∨ text = [])
    (hd : ∀ k, s.dimLevel + (text.take k).count '{' - (text.take k).count '}' < n) :
    s.run n text = .error .abort ∨ ∃ s', s.run n text = .ok s' := by
  induction text generalizing s with
  | nil => exact .inr ⟨s, rfl⟩
  | cons ch text ih =>
    rw [Scan.run]
    have hd' : ∀ (t : Scan), t.dimLevel = s.dimLevel + (if ch = '{' then 1 else 0) - (if ch = '}' then 1 else 0) →
        ∀ k, t.dimLevel + (text.take k).count '{' - (text.take k).count '}' < n := by
      intro t ht k
      have := hd (k + 1)
      simp only [List.take_succ_cons, List.count_cons, beq_iff_eq] at this
      rw [ht]
      split at this <;> split at this <;> simp_all <;> omega
    by_cases hopen : ch = '{'
    · have hstep : s.step n ch text.isEmpty = .ok { s with dimLevel := s.dimLevel + 1, lastChar := ch } := by simp [Scan.step, hopen]
      rw [hstep, bind_ok]
      refine ih _ (.inl ?_) (hd' _ (by simp [hopen]))
      show 0 ≤ s.dimLevel + 1
      rcases h0 with h | ⟨-, h⟩ | h
      · omega
      · omega
      · exact absurd h (by simp)
    · have hl0 : 0 ≤ s.dimLevel := by
        rcases h0 with h | ⟨h, -⟩ | h
        · exact h
        · simp at h; exact absurd h hopen
        · exact absurd h (by simp)
      have hlev : s.level n = .ok s.dimLevel.toNat := by
        have := hd 0
        simp at this
        rw [Scan.level, if_pos ⟨hl0, this⟩]
      rw [Scan.step, if_neg hopen]
      by_cases hclose : ch = '}'
      · rw [if_pos hclose, hlev, bind_ok]
        rcases errorIf_cases (s.dims s.dimLevel.toNat != s.currentDims s.dimLevel.toNat) with ⟨h, -⟩ | h
        · rw [h, bind_ok]
          rcases errorIf_cases (decide (s.dimLevel - 1 < 0) && !text.isEmpty) with ⟨h, hb⟩ | h
          · rw [h, bind_ok, bind_ok]
            refine ih _ ?_ (hd' _ (by simp [hclose]))
            simp only [Bool.and_eq_false_iff, decide_eq_false_iff_not, Bool.not_eq_false', List.isEmpty_iff] at hb
            rcases hb with hb | hb
            · exact .inl (by show 0 ≤ s.dimLevel - 1; omega)
            · exact .inr (.inr hb)
          · rw [h]; exact .inl rfl
        · rw [h]; exact .inl rfl
      · rw [if_neg hclose]
        by_cases hcomma : ch = ','
        · rw [if_pos hcomma, hlev]
          rcases errorIf_cases (s.lastChar == '{' || s.lastChar == ',') with ⟨h, -⟩ | h
          · rw [h, bind_ok, bind_ok, bind_ok]
            exact ih _ (.inl hl0) (hd' _ (by simp [hopen, hclose]))
          · rw [h]; exact .inl rfl
        · rw [if_neg hcomma, bind_ok]
          exact ih _ (.inl hl0) (hd' _ (by simp [hopen, hclose]))

theorem checkDelimiters_cases (st : Bool × Bool) (text : List Char) :
    checkDelimiters st text = .error .abort ∨ ∃ st', checkDelimiters st text = .ok st' := by
  induction text generalizing st with
  | nil => exact .inr ⟨st, rfl⟩
  | cons ch text ih =>
    rw [checkDelimiters, delimiterStep]
    rcases errorIf_cases (ch != '{' && ch != ',' && ch != '}' && ch != ' ' && st.1 && st.2) with ⟨h, -⟩ | h
    · rw [h, bind_ok]
      split
      · exact ih _
      · split
        · exact ih _
        · exact ih _
    · rw [h]; exact .inl rfl

theorem checkFormat_cases (n : Nat) (s : List Char) : checkFormat n s = .error .abort ∨ checkFormat n s = .ok () ∧ s.head? = some '{' := by
  unfold checkFormat
  rcases errorIf_cases (hasPair '}' '{' s) with ⟨h, -⟩ | h <;> rw [h]
  rotate_left
  · exact .inl rfl
  rw [bind_ok]
  rcases errorIf_cases (s.head? != some '{') with ⟨h, hb⟩ | h <;> rw [h]
  rotate_left
  · exact .inl rfl
  rw [bind_ok]
  rcases errorIf_cases (s.count '{' != s.count '}') with ⟨h, -⟩ | h <;> rw [h]
  rotate_left
  · exact .inl rfl
  rw [bind_ok]
  rcases errorIf_cases (hasPair '{' '}' s) with ⟨h, -⟩ | h <;> rw [h]
  rotate_left
  · exact .inl rfl
  rw [bind_ok]
  rcases errorIf_cases (s.findIdx? (· != '{') != some n) with ⟨h, -⟩ | h <;> rw [h]
  rotate_left
  · exact .inl rfl
  exact .inr ⟨rfl, by simpa using hb⟩

/-! ## The whole function -/

/-- What the text asks for: `none` to empty the array, or a shape and the values. -/
def outcome (extract : List Char → Option (T × List Char)) (v : T) (ndim : Nat) (text : List Char) :
    R (Option (List Nat × (List Int → T))) := do
  let _ ← checkDelimiters (false, false) text
  let s := text.filter (· != ' ')
  if s = ['{', '}'] then .ok none
  else do
    checkFormat ndim s
    let st ← Scan.init.run ndim s
    errorIf (st.dimLevel != -1)
    match parse extract v ((List.range ndim).map st.dims) (separate s) with
    | none => .error .abort
    | some (f, _) => .ok (some ((List.range ndim).map st.dims, f))

theorem read_wf (c : Cfg) (extract : List Char → Option (T × List Char)) (v : T) (a : ArrayN T) (h : Wf a) (text : List Char) :
    match parse extract v a.dims text with
    | none => read c extract a.dims.length a.view text a.buf = .error .abort
    | some (f, rest) => ∃ b, read c extract a.dims.length a.view text a.buf = .ok (rest, b) ∧ Wf { a with buf := b } ∧
        b.kind = a.buf.kind ∧ b.cap = a.buf.cap ∧ b.lostLive = a.buf.lostLive ∧ b.lostMoved = a.buf.lostMoved ∧
        ∀ c' idx, InBounds a.dims idx → ArrayN.get c' { a with buf := b } idx = .ok (f idx) := by
  have hview := h.view
  have hp := h.isPerm
  obtain ⟨hpv, hlen, hst, hix, xs, hrep, hxs⟩ := h
  obtain ⟨-, hrange, hinj, -⟩ := C01_bijection c a.perm a.dims hpv hlen
  have hsl : a.view.strides.length = a.view.dims.length := by
    show a.strides.length = a.dims.length
    rw [hst]
    exact (calculateStrides_spec hp).1
  have := read_parse c extract v a.dims.length a.view text a.buf xs rfl hsl
    (by rw [hview]; exact fun i j hi hj h => hinj i j hi hj h)
    (fun idx hidx => by
      obtain ⟨k, hk, h0, h1⟩ := hrange idx hidx
      exact ⟨k.toNat, by rw [hview, hk, Int.toNat_of_nonneg h0], by omega⟩) hrep
  have hvd : a.view.dims = a.dims := rfl
  rw [hvd] at this
  cases hpz : parse extract v a.dims text with
  | none => rw [hpz] at this; exact this
  | some r =>
    obtain ⟨f, rest⟩ := r
    rw [hpz] at this
    obtain ⟨xs', hl', hread, hval, -⟩ := this
    have hrep' : Rep { a.buf with cell := cellsOf xs' } xs' := ⟨rfl, by have := hrep.2; show xs'.length ≤ a.buf.cap; omega⟩
    refine ⟨_, hread, ⟨hpv, hlen, hst, hix, xs', hrep', by rw [hl', hxs]⟩, rfl, rfl, rfl, rfl, fun c' idx hidx => ?_⟩
    obtain ⟨k, hk, h0, h1⟩ := hrange idx hidx
    have hcall := call_ok hp c hidx
    rw [hk] at hcall
    have hx := hval idx hidx k.toNat (by rw [hview, hk, Int.toNat_of_nonneg h0])
    obtain ⟨hlt, hx⟩ := List.getElem?_eq_some_iff.mp hx
    refine get_of_cell (a := { a with buf := { a.buf with cell := cellsOf xs' } }) hst hp c' hidx (m := k.toNat)
      (by rw [Int.toNat_of_nonneg h0]; exact (Except.ok.inj hcall).symm) (by have := hrep.2; show k.toNat < a.buf.cap; omega) ?_
    show cellsOf xs' _ = _
    rw [cellsOf_lt hlt, hx]

/-- `stringToArray` does what the text asks for. -/
theorem stringToArray_outcome (c : Cfg) (extract : List Char → Option (T × List Char)) (v : T) (a : ArrayN T) (h : Wf a) (text : List Char) :
    match outcome extract v a.dims.length text with
    | .error e => stringToArray c extract a v text = .error e
    | .ok none => stringToArray c extract a v text = a.clear c v
    | .ok (some (dims, f)) => dims.length = a.dims.length ∧ (∀ d ∈ dims, 0 < d) ∧
        (a.buf.room dims.prod → ∃ a', stringToArray c extract a v text = .ok a' ∧ Wf a' ∧ a'.perm = a.perm ∧ a'.dims = dims ∧
          a'.resizeIndex = a.resizeIndex ∧ a'.buf.kind = a.buf.kind ∧ a'.buf.lostLive = a.buf.lostLive ∧
          a'.buf.lostMoved = a.buf.lostMoved ∧ ∀ c' idx, InBounds dims idx → a'.get c' idx = .ok (f idx)) ∧
        (¬ a.buf.room dims.prod → stringToArray c extract a v text = .error .abort) := by
  unfold outcome stringToArray
  cases checkDelimiters (false, false) text with
  | error e => simp only [bind_err]
  | ok st =>
    simp only [bind_ok]
    generalize text.filter (· != ' ') = s
    by_cases hempty : s = ['{', '}']
    · rw [if_pos hempty, if_pos hempty]
    · rw [if_neg hempty, if_neg hempty]
      cases checkFormat a.dims.length s with
      | error e => simp only [bind_err]
      | ok u =>
        simp only [bind_ok]
        cases hrun : Scan.init.run a.dims.length s with
        | error e => simp only [bind_err]
        | ok st =>
          simp only [bind_ok]
          cases errorIf (st.dimLevel != -1) with
          | error e => simp only [bind_err]
          | ok u =>
            simp only [bind_ok]
            obtain ⟨D, hD⟩ : ∃ D, D = (List.range a.dims.length).map st.dims := ⟨_, rfl⟩
            have hDl : D.length = a.dims.length := by rw [hD]; simp
            have hpos : ∀ d ∈ D, 0 < d := by
              intro d hd
              rw [hD, List.mem_map] at hd
              obtain ⟨k, -, rfl⟩ := hd
              exact run_positive _ _ _ (fun _ => Nat.one_pos) hrun k
            have hI : (List.range a.dims.length).map (fun k => (st.dims k : Int)) = D.map (fun (d : Nat) => (d : Int)) := by
              rw [hD, List.map_map]; rfl
            have hN : (D.map (fun (d : Nat) => (d : Int))).map Int.toNat = D := by
              rw [List.map_map]; conv_rhs => rw [← List.map_id D]
              exact List.map_congr_left (fun d _ => by simp)
            have hres := (C11_resize c a h (D.map (fun (d : Nat) => (d : Int))) v).2 (by simpa using hDl)
              (fun d hd => by rw [List.mem_map] at hd; obtain ⟨k, -, rfl⟩ := hd; omega)
            rw [hN] at hres
            rw [← hD, hI]
            by_cases hroom : a.buf.room D.prod
            · obtain ⟨a1, ha1, hwf1, hperm1, hidx1, hdims1, -, -, hk1, hl1, hm1⟩ := hres.1 hroom
              rw [ha1]
              simp only [bind_ok]
              have hr := read_wf c extract v a1 hwf1 (separate s)
              rw [hdims1] at hr ⊢
              cases hp : parse extract v D (separate s) with
              | none =>
                rw [hp] at hr
                simp only [hr, bind_err]
              | some r =>
                obtain ⟨f, rest⟩ := r
                rw [hp] at hr
                obtain ⟨b, hb, hwfb, hkb, -, hlb, hmb, hget⟩ := hr
                refine ⟨hDl, hpos, fun _ => ⟨_, ?_, hwfb, hperm1, rfl, hidx1, by rw [← hk1]; exact hkb, by rw [← hl1]; exact hlb,
                  by rw [← hm1]; exact hmb, hget⟩, fun hn => absurd hroom hn⟩
                rw [hb, bind_ok]
            · rw [hres.2 hroom]
              cases hp : parse extract v D (separate s) with
              | none => simp only [bind_err]
              | some r => exact ⟨hDl, hpos, fun hy => absurd hy hroom, fun _ => by simp only [bind_err]⟩

theorem take_filter_prefix (text : List Char) (k : Nat) :
    ∃ j, (text.filter (· != ' ')).take k = (text.take j).filter (· != ' ') := by
  induction text generalizing k with
  | nil => exact ⟨0, by simp⟩
  | cons ch t ih =>
    cases k with
    | zero => exact ⟨0, by simp⟩
    | succ k =>
      by_cases hch : ch = ' '
      · obtain ⟨j, hj⟩ := ih (k + 1)
        exact ⟨j + 1, by simpa [hch] using hj⟩
      · obtain ⟨j, hj⟩ := ih k
        exact ⟨j + 1, by simpa [hch] using hj⟩

/-- Text with nesting at most the rank never makes `stringToArray` use an entry which does not exist. -/
theorem outcome_shallow (extract : List Char → Option (T × List Char)) (v : T) (ndim : Nat) (text : List Char)
    (hd : ∀ k, (text.take k).count '{' ≤ (text.take k).count '}' + ndim) {e : Err} (h : outcome extract v ndim text = .error e) :
    e = .abort := by
  unfold outcome at h
  rcases checkDelimiters_cases (false, false) text with hc | ⟨st, hc⟩
  · rw [hc] at h; cases h; rfl
  rw [hc] at h
  simp only [bind_ok] at h
  split at h
  · cases h
  rcases checkFormat_cases ndim (text.filter (· != ' ')) with hf | ⟨hf, hhead⟩
  · rw [hf] at h; cases h; rfl
  rw [hf] at h
  simp only [bind_ok] at h
  have hcount : ∀ (ch : Char) (l : List Char), ch ≠ ' ' → (l.filter (· != ' ')).count ch = l.count ch := by
    intro ch l hne
    exact List.count_filter (by simpa using hne)
  have hpre : ∀ k, ∃ j, (text.filter (· != ' ')).take k = (text.take j).filter (· != ' ') := by
    exact take_filter_prefix text
  rcases run_shallow ndim Scan.init (text.filter (· != ' ')) (.inr (.inl ⟨hhead, rfl⟩)) (fun k => by
    obtain ⟨j, hj⟩ := hpre k
    rw [hj, hcount _ _ (by decide), hcount _ _ (by decide)]
    have := hd j
    show (-1 : Int) + _ - _ < _
    omega) with hr | ⟨s', hr⟩
  · rw [hr] at h; cases h; rfl
  rw [hr] at h
  simp only [bind_ok] at h
  rcases errorIf_cases (s'.dimLevel != -1) with ⟨hx, -⟩ | hx
  · rw [hx] at h
    simp only [bind_ok] at h
    split at h
    · cases h; rfl
    · cases h
  · rw [hx] at h; cases h; rfl

end LvArray.TextIO
