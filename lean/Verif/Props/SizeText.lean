import Verif.SizeText
import Mathlib.Tactic.Ring
import Mathlib.Tactic.Linarith

/-!
# C90: amounts of memory in messages
-/

namespace LvArray.Props

open LvArray Spec system

/-! ## Rounding -/

theorem nearestEven_cases (n : Nat) {d : Nat} (hd : 0 < d) :
    2 * n ≤ 2 * (nearestEven n d * d) + d ∧ 2 * (nearestEven n d * d) ≤ 2 * n + d := by
  have h := Nat.div_add_mod n d
  have hm := Nat.mod_lt n hd
  have e1 : (n / d + 1) * d = d * (n / d) + d := by ring
  have e2 : n / d * d = d * (n / d) := by ring
  unfold nearestEven
  split
  · omega
  · split
    · omega
    · split <;> omega

theorem nearestEven_mono {m n : Nat} (d : Nat) (h : m ≤ n) : nearestEven m d ≤ nearestEven n d := by
  have hq : m / d ≤ n / d := Nat.div_le_div_right h
  by_cases e : m / d = n / d
  · have h1 := Nat.div_add_mod m d
    have h2 := Nat.div_add_mod n d
    rw [e] at h1
    have hr : m % d ≤ n % d := by omega
    unfold nearestEven
    rw [e]
    generalize m % d = a at *
    generalize n % d = b at *
    generalize n / d = q at *
    by_cases ha : 2 * a < d <;> by_cases hb : 2 * b < d <;> by_cases ha' : d < 2 * a <;> by_cases hb' : d < 2 * b <;>
      by_cases hq' : q % 2 = 0 <;> simp only [ha, hb, ha', hb', hq', if_true, if_false] <;> omega
  · have h1 : nearestEven m d ≤ m / d + 1 := by
      unfold nearestEven; split
      · omega
      · split
        · omega
        · split <;> omega
    have h2 : n / d ≤ nearestEven n d := by
      unfold nearestEven; split
      · omega
      · split
        · omega
        · split <;> omega
    omega

theorem nearestEven_mul (k : Nat) {d : Nat} (hd : 0 < d) : nearestEven (k * d) d = k := by
  unfold nearestEven
  rw [Nat.mul_mod_left, Nat.mul_div_cancel _ hd, if_pos (by omega)]

theorem nearestEven_nearest (n d t : Nat) (hd : 0 < d) :
    ((n : Int) - nearestEven n d * d).natAbs ≤ ((n : Int) - t * d).natAbs := by
  obtain ⟨h1, h2⟩ := nearestEven_cases n hd
  rcases Nat.lt_trichotomy t (nearestEven n d) with h | h | h
  · have h3 : t * d + d ≤ nearestEven n d * d := by
      have := Nat.mul_le_mul_right d (show t + 1 ≤ nearestEven n d by omega)
      rw [Nat.add_mul, Nat.one_mul] at this
      exact this
    have e1 : (nearestEven n d : Int) * d = (nearestEven n d * d : Nat) := by push_cast; rfl
    have e2 : (t : Int) * d = (t * d : Nat) := by push_cast; rfl
    rw [e1, e2]
    omega
  · rw [h]
  · have h3 : nearestEven n d * d + d ≤ t * d := by
      have := Nat.mul_le_mul_right d (show nearestEven n d + 1 ≤ t by omega)
      rw [Nat.add_mul, Nat.one_mul] at this
      exact this
    have e1 : (nearestEven n d : Int) * d = (nearestEven n d * d : Nat) := by push_cast; rfl
    have e2 : (t : Int) * d = (t * d : Nat) := by push_cast; rfl
    rw [e1, e2]
    omega

theorem toDouble_eq {n : Nat} (h : n < 2 ^ 53) : toDouble n = n := by
  have : n.log2 - 52 = 0 := by
    by_cases h0 : n = 0
    · subst h0; rfl
    · have := (Nat.log2_lt h0).2 h
      omega
  unfold toDouble
  rw [this, Nat.pow_zero]
  have := nearestEven_mul n (d := 1) (by omega)
  rw [Nat.mul_one] at this
  rw [this, Nat.mul_one]

/-- The last of the 53 bits of the significand. -/
theorem last_bit {n : Nat} (h : 2 ^ 53 ≤ n) : 2 ^ 52 * 2 ^ (n.log2 - 52) ≤ n ∧ 2 ≤ 2 ^ (n.log2 - 52) := by
  have h0 : n ≠ 0 := by
    have : 0 < 2 ^ 53 := by norm_num
    omega
  have h1 := Nat.log2_self_le h0
  have h2 : 53 ≤ n.log2 := (Nat.le_log2 h0).2 h
  constructor
  · rw [← Nat.pow_add]
    have : 52 + (n.log2 - 52) = n.log2 := by omega
    rw [this]; exact h1
  · exact le_trans (show 2 ≤ 2 ^ 1 by norm_num) (Nat.pow_le_pow_right (by omega) (by omega))

theorem toDouble_large {n : Nat} (h : 2 ^ 53 ≤ n) : 2 ^ 53 ≤ toDouble n := by
  obtain ⟨h1, h2⟩ := last_bit h
  have h3 := nearestEven_mono (2 ^ (n.log2 - 52)) h1
  rw [nearestEven_mul _ (by omega)] at h3
  unfold toDouble
  calc 2 ^ 53 = 2 ^ 52 * 2 := by norm_num
    _ ≤ _ := Nat.mul_le_mul h3 h2

theorem toDouble_near (n : Nat) : 2 ^ 53 * ((n : Int) - toDouble n).natAbs ≤ n := by
  by_cases h : n < 2 ^ 53
  · rw [toDouble_eq h]; simp
  · obtain ⟨h1, h2⟩ := last_bit (not_lt.1 h)
    obtain ⟨h3, h4⟩ := nearestEven_cases n (d := 2 ^ (n.log2 - 52)) (by omega)
    unfold toDouble
    generalize nearestEven n (2 ^ (n.log2 - 52)) * 2 ^ (n.log2 - 52) = x at *
    generalize 2 ^ (n.log2 - 52) = y at *
    omega

/-! ## The text -/

/-- The number of tenths that `calculateSize` prints. -/
theorem calculateSize_eq (bytes : Nat) :
    calculateSize bytes = (amount (nearestEven (10 * toDouble bytes) (2 ^ unitOf bytes)) (unitOf bytes)).take 9 := by
  have h : ∀ k, bytes >>> k ≠ 0 ↔ 2 ^ k ≤ bytes := by
    intro k
    rw [Nat.shiftRight_eq_div_pow, Nat.ne_zero_iff_zero_lt, Nat.div_pos_iff]
    have := Nat.two_pow_pos k
    omega
  unfold calculateSize unitOf
  simp only [h]
  by_cases h1 : 2 ^ 30 ≤ bytes
  · simp only [if_pos h1]
    simp [printUnits, amount, unitName]
  · simp only [if_neg h1]
    by_cases h2 : 2 ^ 20 ≤ bytes
    · simp only [if_pos h2]
      simp [printUnits, amount, unitName]
    · simp only [if_neg h2]
      simp [printUnits, amount, unitName]

theorem amount_length (t u : Nat) : (amount t u).length ≤ 9 ↔ t < 100000 := by
  have h1 : (unitName u).length = 2 := by
    unfold unitName; split
    · rfl
    · split <;> rfl
  have h2 : (decimal (t % 10)).length = 1 := by
    have := (Nat.length_toDigits_le_iff (b := 10) (n := t % 10) (k := 1) (by omega) (by omega)).2 (by omega)
    have p : 0 < (Nat.toDigits 10 (t % 10)).length := Nat.length_toDigits_pos
    unfold decimal
    omega
  have h3 := Nat.length_toDigits_le_iff (b := 10) (n := t / 10) (k := 4) (by omega) (by omega)
  have e : (".".toList).length = 1 := rfl
  have e' : (" ".toList).length = 1 := rfl
  unfold amount
  simp only [List.length_append, h1, h2, e, e']
  simp only [decimal]
  constructor
  · intro h
    have := h3.1 (by omega)
    omega
  · intro h
    have := h3.2 (by omega)
    omega

/-- Below `2^53` bytes the conversion to floating point is exact; a larger number of bytes is off by its `2^53`rd part. -/
theorem tenths_near (bytes : Nat) :
    2 ^ 54 * ((10 * bytes : Int) - nearestEven (10 * toDouble bytes) (2 ^ unitOf bytes) * 2 ^ unitOf bytes).natAbs ≤
      2 ^ 53 * 2 ^ unitOf bytes + 20 * bytes := by
  have h1 := toDouble_near bytes
  obtain ⟨h2, h3⟩ := nearestEven_cases (10 * toDouble bytes) (Nat.two_pow_pos (unitOf bytes))
  have e : (nearestEven (10 * toDouble bytes) (2 ^ unitOf bytes) : Int) * 2 ^ unitOf bytes =
      (nearestEven (10 * toDouble bytes) (2 ^ unitOf bytes) * 2 ^ unitOf bytes : Nat) := by push_cast; rfl
  rw [e]
  generalize nearestEven (10 * toDouble bytes) (2 ^ unitOf bytes) * 2 ^ unitOf bytes = x at *
  generalize 2 ^ unitOf bytes = y at *
  generalize toDouble bytes = z at *
  omega

theorem tenths_small {bytes : Nat} (h : bytes < 2 ^ 30) : nearestEven (10 * toDouble bytes) (2 ^ unitOf bytes) ≤ 10240 := by
  rw [toDouble_eq (lt_trans h (by norm_num))]
  unfold unitOf
  rw [if_neg (by omega)]
  split
  · have := nearestEven_mono (2 ^ 20) (show 10 * bytes ≤ 10240 * 2 ^ 20 by omega)
    rwa [nearestEven_mul _ (by norm_num)] at this
  · have := nearestEven_mono (2 ^ 10) (show 10 * bytes ≤ 10240 * 2 ^ 10 by omega)
    rwa [nearestEven_mul _ (by norm_num)] at this

theorem tenths_fit (bytes : Nat) : nearestEven (10 * toDouble bytes) (2 ^ unitOf bytes) < 100000 ↔ bytes ≤ largestShown := by
  have hL : largestShown < 2 ^ 53 := by decide
  by_cases h : bytes < 2 ^ 30
  · have h1 := tenths_small h
    have h2 : 2 ^ 30 ≤ largestShown := by decide
    omega
  · have hu : unitOf bytes = 30 := if_pos (not_lt.1 h)
    rw [hu]
    constructor
    · intro h1
      by_contra h2
      have h3 : largestShown + 1 ≤ toDouble bytes := by
        by_cases h4 : bytes < 2 ^ 53
        · rw [toDouble_eq h4]; omega
        · have := toDouble_large (not_lt.1 h4)
          omega
      have h5 := nearestEven_mono (2 ^ 30) (Nat.mul_le_mul_left 10 h3)
      have h6 : nearestEven (10 * (largestShown + 1)) (2 ^ 30) = 100000 := by decide
      omega
    · intro h1
      rw [toDouble_eq (by omega)]
      have h5 := nearestEven_mono (2 ^ 30) (Nat.mul_le_mul_left 10 h1)
      have h6 : nearestEven (10 * largestShown) (2 ^ 30) = 99999 := by decide
      omega

/-- **C90** (the amount).  Up to 9999.9 gigabytes the text is the nearest number of tenths of the largest unit that is not larger than
the amount (or of kilobytes), with the name of the unit. -/
theorem C90_amount_partial (bytes : Nat) (h : bytes ≤ largestShown) :
    ∃ tenths, calculateSize bytes = amount tenths (unitOf bytes) ∧ NearestTenths bytes tenths (unitOf bytes) := by
  refine ⟨nearestEven (10 * toDouble bytes) (2 ^ unitOf bytes), ?_, ?_⟩
  · rw [calculateSize_eq]
    exact List.take_of_length_le ((amount_length _ _).2 ((tenths_fit bytes).2 h))
  · intro other
    rw [toDouble_eq (lt_of_le_of_lt h (by decide))]
    have := nearestEven_nearest (10 * bytes) (2 ^ unitOf bytes) other (Nat.two_pow_pos _)
    push_cast at this
    exact this

/-- Bytes, kilobytes, megabytes and gigabytes; an amount just below a megabyte is 1024 kilobytes. -/
example : calculateSize 52 = "0.1 KB".toList ∧ calculateSize (2 ^ 20 - 1) = "1024.0 KB".toList ∧
    calculateSize (3 * 2 ^ 19) = "1.5 MB".toList ∧ calculateSize largestShown = "9999.9 GB".toList ∧ largestShown < 2 ^ 64 := by
  decide +kernel

/-- **C90** (order).  A larger number of bytes is never shown as a smaller amount. -/
theorem C90_order (bytes bytes' : Nat) (hle : bytes ≤ bytes') (h : bytes' ≤ largestShown) :
    ∃ tenths tenths', calculateSize bytes = amount tenths (unitOf bytes) ∧ calculateSize bytes' = amount tenths' (unitOf bytes') ∧
      tenths * 2 ^ unitOf bytes ≤ tenths' * 2 ^ unitOf bytes' := by
  have full : ∀ b, b ≤ largestShown → calculateSize b = amount (nearestEven (10 * b) (2 ^ unitOf b)) (unitOf b) := by
    intro b hb
    rw [calculateSize_eq, toDouble_eq (lt_of_le_of_lt hb (by decide))]
    refine List.take_of_length_le ((amount_length _ _).2 ?_)
    have := (tenths_fit b).2 hb
    rwa [toDouble_eq (lt_of_le_of_lt hb (by decide))] at this
  refine ⟨_, _, full bytes (le_trans hle h), full bytes' h, ?_⟩
  by_cases hu : unitOf bytes = unitOf bytes'
  · rw [hu]
    exact Nat.mul_le_mul_right _ (nearestEven_mono _ (Nat.mul_le_mul_left 10 hle))
  · -- the amount where the unit of `bytes'` begins is between the two
    have low : 10 * 2 ^ unitOf bytes' ≤ nearestEven (10 * bytes') (2 ^ unitOf bytes') * 2 ^ unitOf bytes' := by
      have : 2 ^ unitOf bytes' ≤ bytes' := by
        unfold unitOf at hu ⊢
        split
        · assumption
        · split
          · assumption
          · rename_i h1 h2
            rw [if_neg (by omega), if_neg (by omega), if_neg h1, if_neg h2] at hu
            exact absurd rfl hu
      have := nearestEven_mono (2 ^ unitOf bytes') (Nat.mul_le_mul_left 10 this)
      rw [nearestEven_mul _ (Nat.two_pow_pos _)] at this
      exact Nat.mul_le_mul_right _ this
    refine le_trans ?_ low
    have high : ∀ k u, bytes ≤ k * 2 ^ u → nearestEven (10 * bytes) (2 ^ u) * 2 ^ u ≤ 10 * (k * 2 ^ u) := by
      intro k u hk
      have := nearestEven_mono (2 ^ u) (show 10 * bytes ≤ (10 * k) * 2 ^ u by rw [Nat.mul_assoc]; omega)
      rw [nearestEven_mul _ (Nat.two_pow_pos _)] at this
      rw [← Nat.mul_assoc]
      exact Nat.mul_le_mul_right _ this
    unfold unitOf at hu ⊢
    by_cases a1 : 2 ^ 30 ≤ bytes
    · rw [if_pos a1, if_pos (by omega)] at hu
      exact absurd rfl hu
    · rw [if_neg a1] at hu ⊢
      by_cases a2 : 2 ^ 20 ≤ bytes
      · rw [if_pos a2] at hu ⊢
        by_cases b1 : 2 ^ 30 ≤ bytes'
        · rw [if_pos b1]
          exact le_trans (high (2 ^ 10) 20 (by omega)) (by norm_num)
        · rw [if_neg b1, if_pos (by omega)] at hu
          exact absurd rfl hu
      · rw [if_neg a2] at hu ⊢
        by_cases b1 : 2 ^ 30 ≤ bytes'
        · rw [if_pos b1]
          exact le_trans (high (2 ^ 10) 10 (by omega)) (by norm_num)
        · rw [if_neg b1] at hu ⊢
          by_cases b2 : 2 ^ 20 ≤ bytes'
          · rw [if_pos b2]
            exact le_trans (high (2 ^ 10) 10 (by omega)) (by norm_num)
          · rw [if_neg b2] at hu
            exact absurd rfl hu

example : calculateSize 1048575 = amount 10240 10 ∧ calculateSize 1048576 = amount 10 20 ∧ 10240 * 2 ^ 10 = 10 * 2 ^ 20 := by
  decide +kernel

/-- **C90** (cut off).  From about 9999.95 gigabytes on the text is not the amount with its unit: it is cut off after nine characters.
The number it begins with is off by half a tenth of a gigabyte and the rounding to 53 bits. -/
theorem C90_cut_off (bytes : Nat) (h : largestShown < bytes) :
    (∀ tenths unit, calculateSize bytes ≠ amount tenths unit) ∧
    ∃ tenths, calculateSize bytes = (amount tenths 30).take 9 ∧
      2 ^ 54 * ((10 * bytes : Int) - tenths * 2 ^ 30).natAbs ≤ 2 ^ 53 * 2 ^ 30 + 20 * bytes := by
  have hu : unitOf bytes = 30 := if_pos (le_trans (by decide) h.le)
  have he := calculateSize_eq bytes
  have hn := tenths_near bytes
  rw [hu] at he hn
  refine ⟨?_, _, he, hn⟩
  intro t u hc
  have hlong := mt (tenths_fit bytes).1 (not_le.2 h)
  rw [hu] at hlong
  have hB : 'B' ∈ calculateSize bytes := by
    rw [hc]
    unfold amount unitName
    refine List.mem_append_right _ ?_
    split
    · decide
    · split <;> decide
  rw [he] at hB
  generalize nearestEven (10 * toDouble bytes) (2 ^ 30) = t' at *
  have hl := mt (amount_length t' 30).1 hlong
  have hd : ∀ n, 'B' ∉ decimal n := fun n hm => absurd (Nat.isDigit_of_mem_toDigits (by omega) (by omega) hm) (by decide)
  have split : amount t' 30 = (decimal (t' / 10) ++ ".".toList ++ decimal (t' % 10) ++ " G".toList) ++ ['B'] := by
    simp [amount, unitName]
  rw [split] at hB hl
  rw [List.length_append, List.length_singleton] at hl
  rw [List.take_append_of_le_length (by omega)] at hB
  have := List.mem_of_mem_take hB
  simp [hd] at this

/-- The unit loses its second letter, then both, then the number its decimal; the largest number of bytes is shown as a number
that is a hundred times too small. -/
theorem C90_witness : calculateSize (largestShown + 1) = "10000.0 G".toList ∧ calculateSize (10 ^ 15) = "931322.6 ".toList ∧
    calculateSize (2 * 10 ^ 15) = "1862645.1".toList ∧ calculateSize (2 ^ 64 - 1) = "171798691".toList := by
  decide +kernel

/-! ## The message about a move -/

/-- **C90** (the message).  The message about a move is always written, and its columns line up: the amount takes up nine characters,
blanks and then the text of the amount.  Nothing is written about an allocation or a release. -/
theorem C90_message (typeString name : List Char) (bytes : Nat) (host : Bool) :
    (∃ padded, padded.length = 9 ∧ (∃ k, padded = List.replicate k ' ' ++ calculateSize bytes) ∧
      moveCallback typeString name bytes .move host =
        .ok ("Moved ".toList ++ padded ++ (if host then " to the HOST  : " else " to the DEVICE: ").toList ++ typeString ++ " ".toList ++
          name ++ "\n".toList)) ∧
    ∀ act, act ≠ .move → moveCallback typeString name bytes act host = .ok [] := by
  have hl : (calculateSize bytes).length ≤ 9 := by
    rw [calculateSize_eq, List.length_take]
    omega
  refine ⟨⟨List.replicate (9 - (calculateSize bytes).length) ' ' ++ calculateSize bytes, ?_, ⟨_, rfl⟩, ?_⟩, ?_⟩
  · rw [List.length_append, List.length_replicate]
    omega
  · unfold moveCallback paddedSize
    rw [if_pos rfl, if_neg (by omega), bind_ok]
    cases host <;> simp
  · intro act h
    exact if_neg h

example : moveCallback "Array".toList "a".toList 1536 .move true = .ok "Moved    1.5 KB to the HOST  : Array a\n".toList := by
  decide +kernel

end LvArray.Props
