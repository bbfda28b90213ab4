import Mathlib.Data.Real.Basic
import Mathlib.Tactic.Linarith
import Mathlib.Tactic.Positivity
import Mathlib.Tactic.Ring

/-!
# Polynomials that are not negative on [0, 1]

Bounds of the errors of the polynomials in /repo/src/math.hpp 766-835.  Each proof writes the polynomial on some intervals [a, b] as a
sum of products of powers of t - a and b - t with positive factors (its Bernstein form).
-/

namespace LvArray.math.Poly

/-- `Qa( t ) ( 1 + t ) - 1` is at least -5e-7. -/
theorem atan_der_low {t : ℝ} (h0 : 0 ≤ t) (h1 : t ≤ 1) : 0 ≤
    (57 / 125000000) * t ^ 0 + (4421 / 500000000) * t ^ 1 + (-291783 / 1000000000) * t ^ 2 + (149393 / 40000000) * t ^ 3 +
    (-24276359 / 1000000000) * t ^ 4 + (4531587 / 50000000) * t ^ 5 + (-51495307 / 250000000) * t ^ 6 +
    (72432959 / 250000000) * t ^ 7 + (-246272061 / 1000000000) * t ^ 8 + (23178547 / 200000000) * t ^ 9 +
    (-23178547 / 1000000000) * t ^ 10 := by
  rcases le_total t (1 / 2) with h | h
  · rcases le_total t (1 / 4) with h | h
    · have key : ∀ x y : ℝ, 0 ≤ x → 0 ≤ y → 0 ≤
          (933888 / 1953125) * x ^ 0 * y ^ 10 + (13865984 / 1953125) * x ^ 1 * y ^ 9 + (45420672 / 1953125) * x ^ 2 * y ^ 8 +
          (95770912 / 1953125) * x ^ 3 * y ^ 7 + (173032872 / 1953125) * x ^ 4 * y ^ 6 +
          (240054984 / 1953125) * x ^ 5 * y ^ 5 + (45064722 / 390625) * x ^ 6 * y ^ 4 + (273036271 / 3906250) * x ^ 7 * y ^ 3 +
          (1649097747 / 62500000) * x ^ 8 * y ^ 2 + (1427248983 / 250000000) * x ^ 9 * y ^ 1 +
          (109545573 / 200000000) * x ^ 10 * y ^ 0 := by
        intro x y hx hy
        positivity
      have := key (t - (0)) ((1 / 4) - t) (by linarith) (by linarith)
      refine le_of_le_of_eq this ?_
      ring
    · have key : ∀ x y : ℝ, 0 ≤ x → 0 ≤ y → 0 ≤
          (109545573 / 200000000) * x ^ 0 * y ^ 10 + (655695171 / 125000000) * x ^ 1 * y ^ 9 +
          (5553663219 / 250000000) * x ^ 2 * y ^ 8 + (109365379 / 1953125) * x ^ 3 * y ^ 7 +
          (2997100493 / 31250000) * x ^ 4 * y ^ 6 + (462431607 / 3906250) * x ^ 5 * y ^ 5 +
          (163805063 / 1562500) * x ^ 6 * y ^ 4 + (24953384 / 390625) * x ^ 7 * y ^ 3 + (98104317 / 3906250) * x ^ 8 * y ^ 2 +
          (2230444 / 390625) * x ^ 9 * y ^ 1 + (1115246 / 1953125) * x ^ 10 * y ^ 0 := by
        intro x y hx hy
        positivity
      have := key (t - (1 / 4)) ((1 / 2) - t) (by linarith) (by linarith)
      refine le_of_le_of_eq this ?_
      ring
  · rcases le_total t (3 / 4) with h | h
    · have key : ∀ x y : ℝ, 0 ≤ x → 0 ≤ y → 0 ≤
          (1115246 / 1953125) * x ^ 0 * y ^ 10 + (446108 / 78125) * x ^ 1 * y ^ 9 + (98112957 / 3906250) * x ^ 2 * y ^ 8 +
          (124784096 / 1953125) * x ^ 3 * y ^ 7 + (819183683 / 7812500) * x ^ 4 * y ^ 6 +
          (462548187 / 3906250) * x ^ 5 * y ^ 5 + (2998009453 / 31250000) * x ^ 6 * y ^ 4 +
          (218803999 / 3906250) * x ^ 7 * y ^ 3 + (5555588019 / 250000000) * x ^ 8 * y ^ 2 +
          (131184647 / 25000000) * x ^ 9 * y ^ 1 + (547917561 / 1000000000) * x ^ 10 * y ^ 0 := by
        intro x y hx hy
        positivity
      have := key (t - (1 / 2)) ((3 / 4) - t) (by linarith) (by linarith)
      refine le_of_le_of_eq this ?_
      ring
    · have key : ∀ x y : ℝ, 0 ≤ x → 0 ≤ y → 0 ≤
          (547917561 / 1000000000) * x ^ 0 * y ^ 10 + (285548267 / 50000000) * x ^ 1 * y ^ 9 +
          (1649660451 / 62500000) * x ^ 2 * y ^ 8 + (136564651 / 1953125) * x ^ 3 * y ^ 7 +
          (225402141 / 1953125) * x ^ 4 * y ^ 6 + (240142788 / 1953125) * x ^ 5 * y ^ 5 +
          (173097912 / 1953125) * x ^ 6 * y ^ 4 + (95801696 / 1953125) * x ^ 7 * y ^ 3 + (9085824 / 390625) * x ^ 8 * y ^ 2 +
          (13867008 / 1953125) * x ^ 9 * y ^ 1 + (933888 / 1953125) * x ^ 10 * y ^ 0 := by
        intro x y hx hy
        positivity
      have := key (t - (3 / 4)) ((1) - t) (by linarith) (by linarith)
      refine le_of_le_of_eq this ?_
      ring

/-- `Qa( t ) ( 1 + t ) - 1` is at most 5e-7. -/
theorem atan_der_high {t : ℝ} (h0 : 0 ≤ t) (h1 : t ≤ 1) : 0 ≤
    (17 / 31250000) * t ^ 0 + (-4421 / 500000000) * t ^ 1 + (291783 / 1000000000) * t ^ 2 + (-149393 / 40000000) * t ^ 3 +
    (24276359 / 1000000000) * t ^ 4 + (-4531587 / 50000000) * t ^ 5 + (51495307 / 250000000) * t ^ 6 +
    (-72432959 / 250000000) * t ^ 7 + (246272061 / 1000000000) * t ^ 8 + (-23178547 / 200000000) * t ^ 9 +
    (23178547 / 1000000000) * t ^ 10 := by
  rcases le_total t (1 / 2) with h | h
  · have key : ∀ x y : ℝ, 0 ≤ x → 0 ≤ y → 0 ≤
        (1088 / 1953125) * x ^ 0 * y ^ 10 + (2038 / 1953125) * x ^ 1 * y ^ 9 + (230547 / 3906250) * x ^ 2 * y ^ 8 +
        (36539 / 1562500) * x ^ 3 * y ^ 7 + (554521 / 15625000) * x ^ 4 * y ^ 6 + (1059849 / 7812500) * x ^ 5 * y ^ 5 +
        (279742 / 1953125) * x ^ 6 * y ^ 4 + (2315053 / 31250000) * x ^ 7 * y ^ 3 + (5813157 / 250000000) * x ^ 8 * y ^ 2 +
        (466401 / 100000000) * x ^ 9 * y ^ 1 + (466377 / 1000000000) * x ^ 10 * y ^ 0 := by
      intro x y hx hy
      positivity
    have := key (t - (0)) ((1 / 2) - t) (by linarith) (by linarith)
    refine le_of_le_of_eq this ?_
    ring
  · have key : ∀ x y : ℝ, 0 ≤ x → 0 ≤ y → 0 ≤
        (466377 / 1000000000) * x ^ 0 * y ^ 10 + (466353 / 100000000) * x ^ 1 * y ^ 9 + (5812077 / 250000000) * x ^ 2 * y ^ 8 +
        (1157263 / 15625000) * x ^ 3 * y ^ 7 + (4474703 / 31250000) * x ^ 4 * y ^ 6 + (2118891 / 15625000) * x ^ 5 * y ^ 5 +
        (553811 / 15625000) * x ^ 6 * y ^ 4 + (182501 / 7812500) * x ^ 7 * y ^ 3 + (230517 / 3906250) * x ^ 8 * y ^ 2 +
        (2036 / 1953125) * x ^ 9 * y ^ 1 + (1088 / 1953125) * x ^ 10 * y ^ 0 := by
      intro x y hx hy
      positivity
    have := key (t - (1 / 2)) ((1) - t) (by linarith) (by linarith)
    refine le_of_le_of_eq this ?_
    ring

/-- The polynomial of `atan2Impl` less the integral of `Qa` is at least -4.5e-6. -/
theorem atan_low {t : ℝ} (h0 : 0 ≤ t) (h1 : t ≤ 1) : 0 ≤
    (87 / 500000000) * t ^ 0 + (1007323 / 3000000000) * t ^ 1 + (-10759853 / 2500000000) * t ^ 2 +
    (147291009 / 7000000000) * t ^ 3 + (-151464107 / 3000000000) * t ^ 4 + (66615567 / 1000000000) * t ^ 5 +
    (-675075179 / 13000000000) * t ^ 6 + (128447781 / 5000000000) * t ^ 7 + (-69535641 / 8500000000) * t ^ 8 +
    (23178547 / 19000000000) * t ^ 9 := by
  rcases le_total t (1 / 2) with h | h
  · rcases le_total t (1 / 4) with h | h
    · have key : ∀ x y : ℝ, 0 ≤ x → 0 ≤ y → 0 ≤
          (89088 / 1953125) * x ^ 0 * y ^ 9 + (26268544 / 1171875) * x ^ 1 * y ^ 8 + (3139709504 / 29296875) * x ^ 2 * y ^ 7 +
          (43590577336 / 205078125) * x ^ 3 * y ^ 6 + (15218925466 / 68359375) * x ^ 4 * y ^ 5 +
          (141548469 / 1093750) * x ^ 5 * y ^ 4 + (56442289027 / 1421875000) * x ^ 6 * y ^ 3 +
          (470786613361 / 85312500000) * x ^ 7 * y ^ 2 + (1435385572223 / 2900625000000) * x ^ 8 * y ^ 1 +
          (57911004768983 / 440895000000000) * x ^ 9 * y ^ 0 := by
        intro x y hx hy
        positivity
      have := key (t - (0)) ((1 / 4) - t) (by linarith) (by linarith)
      refine le_of_le_of_eq this ?_
      ring
    · have key : ∀ x y : ℝ, 0 ≤ x → 0 ≤ y → 0 ≤
          (57911004768983 / 440895000000000) * x ^ 0 * y ^ 9 + (24241749378347 / 12967500000000) * x ^ 1 * y ^ 8 +
          (32506036575611 / 1968281250000) * x ^ 2 * y ^ 7 + (12436265741841 / 176640625000) * x ^ 3 * y ^ 6 +
          (2200560695544151 / 13777968750000) * x ^ 4 * y ^ 5 + (1448707473479443 / 6888984375000) * x ^ 5 * y ^ 4 +
          (143353512413186 / 861123046875) * x ^ 6 * y ^ 3 + (22430450827896 / 287041015625) * x ^ 7 * y ^ 2 +
          (11502307885953 / 574082031250) * x ^ 8 * y ^ 1 + (620393607053 / 287041015625) * x ^ 9 * y ^ 0 := by
        intro x y hx hy
        positivity
      have := key (t - (1 / 4)) ((1 / 2) - t) (by linarith) (by linarith)
      refine le_of_le_of_eq this ?_
      ring
  · rcases le_total t (3 / 4) with h | h
    · have key : ∀ x y : ℝ, 0 ≤ x → 0 ≤ y → 0 ≤
          (620393607053 / 287041015625) * x ^ 0 * y ^ 9 + (309481770513 / 16402343750) * x ^ 1 * y ^ 8 +
          (19748667155904 / 287041015625) * x ^ 2 * y ^ 7 + (23410241867438 / 172224609375) * x ^ 3 * y ^ 6 +
          (1087276239620947 / 6888984375000) * x ^ 4 * y ^ 5 + (1505937144501157 / 13777968750000) * x ^ 5 * y ^ 4 +
          (60773947170007 / 1377796875000) * x ^ 6 * y ^ 3 + (10875802778987 / 1059843750000) * x ^ 7 * y ^ 2 +
          (75077516963999 / 44089500000000) * x ^ 8 * y ^ 1 + (36040345913863 / 146965000000000) * x ^ 9 * y ^ 0 := by
        intro x y hx hy
        positivity
      have := key (t - (1 / 2)) ((3 / 4) - t) (by linarith) (by linarith)
      refine le_of_le_of_eq this ?_
      ring
    · have key : ∀ x y : ℝ, 0 ≤ x → 0 ≤ y → 0 ≤
          (36040345913863 / 146965000000000) * x ^ 0 * y ^ 9 + (298850877427153 / 110223750000000) * x ^ 1 * y ^ 8 +
          (4244412120067 / 231562500000) * x ^ 2 * y ^ 7 + (126810666613621 / 1722246093750) * x ^ 3 * y ^ 6 +
          (49796106698216 / 287041015625) * x ^ 4 * y ^ 5 + (1075157883756 / 4416015625) * x ^ 5 * y ^ 4 +
          (11551412063616 / 57408203125) * x ^ 6 * y ^ 3 + (2239735598816 / 24603515625) * x ^ 7 * y ^ 2 +
          (3074388971392 / 172224609375) * x ^ 8 * y ^ 1 + (48187761152 / 172224609375) * x ^ 9 * y ^ 0 := by
        intro x y hx hy
        positivity
      have := key (t - (3 / 4)) ((1) - t) (by linarith) (by linarith)
      refine le_of_le_of_eq this ?_
      ring

/-- The polynomial of `atan2Impl` less the integral of `Qa` is at most 4.5e-6. -/
theorem atan_high {t : ℝ} (h0 : 0 ≤ t) (h1 : t ≤ 1) : 0 ≤
    (4413 / 500000000) * t ^ 0 + (-1007323 / 3000000000) * t ^ 1 + (10759853 / 2500000000) * t ^ 2 +
    (-147291009 / 7000000000) * t ^ 3 + (151464107 / 3000000000) * t ^ 4 + (-66615567 / 1000000000) * t ^ 5 +
    (675075179 / 13000000000) * t ^ 6 + (-128447781 / 5000000000) * t ^ 7 + (69535641 / 8500000000) * t ^ 8 +
    (-23178547 / 19000000000) * t ^ 9 := by
  rcases le_total t (1 / 4) with h | h
  · rcases le_total t (1 / 16) with h | h
    · have key : ∀ x y : ℝ, 0 ≤ x → 0 ≤ y → 0 ≤
          (1184605667328 / 1953125) * x ^ 0 * y ^ 9 + (23534315241472 / 5859375) * x ^ 1 * y ^ 8 +
          (335533120159744 / 29296875) * x ^ 2 * y ^ 7 + (3753319460274176 / 205078125) * x ^ 3 * y ^ 6 +
          (1220776646629376 / 68359375) * x ^ 4 * y ^ 5 + (148655837225856 / 13671875) * x ^ 5 * y ^ 4 +
          (144890218843208 / 35546875) * x ^ 6 * y ^ 3 + (986675410302367 / 1066406250) * x ^ 7 * y ^ 2 +
          (20102558188863641 / 145031250000) * x ^ 8 * y ^ 1 + (1364200363097273549 / 88179000000000) * x ^ 9 * y ^ 0 := by
        intro x y hx hy
        positivity
      have := key (t - (0)) ((1 / 16) - t) (by linarith) (by linarith)
      refine le_of_le_of_eq this ?_
      ring
    · rcases le_total t (1 / 8) with h | h
      · have key : ∀ x y : ℝ, 0 ≤ x → 0 ≤ y → 0 ≤
            (1364200363097273549 / 88179000000000) * x ^ 0 * y ^ 9 + (362742681085936181 / 2593500000000) * x ^ 1 * y ^ 8 +
            (736369487069857267 / 787312500000) * x ^ 2 * y ^ 7 + (264924196859329767 / 70656250000) * x ^ 3 * y ^ 6 +
            (24174669557951411539 / 2755593750000) * x ^ 4 * y ^ 5 + (86204081447115489359 / 6888984375000) * x ^ 5 * y ^ 4 +
            (19136299230689492261 / 1722246093750) * x ^ 6 * y ^ 3 + (1728828524900915523 / 287041015625) * x ^ 7 * y ^ 2 +
            (1050686519963249859 / 574082031250) * x ^ 8 * y ^ 1 + (68762905369293979 / 287041015625) * x ^ 9 * y ^ 0 := by
          intro x y hx hy
          positivity
        have := key (t - (1 / 16)) ((1 / 8) - t) (by linarith) (by linarith)
        refine le_of_le_of_eq this ?_
        ring
      · have key : ∀ x y : ℝ, 0 ≤ x → 0 ≤ y → 0 ≤
            (68762905369293979 / 146965000000000) * x ^ 0 * y ^ 9 + (23703291911990811 / 4322500000000) * x ^ 1 * y ^ 8 +
            (35518026429793881 / 1312187500000) * x ^ 2 * y ^ 7 + (78517765367144429 / 1059843750000) * x ^ 3 * y ^ 6 +
            (1720196712612675959 / 13777968750000) * x ^ 4 * y ^ 5 + (932185013347747199 / 6888984375000) * x ^ 5 * y ^ 4 +
            (54459107446985387 / 574082031250) * x ^ 6 * y ^ 3 + (35881452595780949 / 861123046875) * x ^ 7 * y ^ 2 +
            (17984254928661257 / 1722246093750) * x ^ 8 * y ^ 1 + (982290805151017 / 861123046875) * x ^ 9 * y ^ 0 := by
          intro x y hx hy
          positivity
        have := key (t - (1 / 8)) ((1 / 4) - t) (by linarith) (by linarith)
        refine le_of_le_of_eq this ?_
        ring
  · rcases le_total t (3 / 4) with h | h
    · rcases le_total t (1 / 2) with h | h
      · have key : ∀ x y : ℝ, 0 ≤ x → 0 ≤ y → 0 ≤
            (982290805151017 / 440895000000000) * x ^ 0 * y ^ 9 + (251105788541653 / 12967500000000) * x ^ 1 * y ^ 8 +
            (134669254304389 / 1968281250000) * x ^ 2 * y ^ 7 + (22570525938159 / 176640625000) * x ^ 3 * y ^ 6 +
            (1895233931015849 / 13777968750000) * x ^ 4 * y ^ 5 + (599189839800557 / 6888984375000) * x ^ 5 * y ^ 4 +
            (27304597026814 / 861123046875) * x ^ 6 * y ^ 3 + (1949279092104 / 287041015625) * x ^ 7 * y ^ 2 +
            (687557074047 / 574082031250) * x ^ 8 * y ^ 1 + (56821112947 / 287041015625) * x ^ 9 * y ^ 0 := by
          intro x y hx hy
          positivity
        have := key (t - (1 / 4)) ((1 / 2) - t) (by linarith) (by linarith)
        refine le_of_le_of_eq this ?_
        ring
      · have key : ∀ x y : ℝ, 0 ≤ x → 0 ≤ y → 0 ≤
            (56821112947 / 287041015625) * x ^ 0 * y ^ 9 + (38800085487 / 16402343750) * x ^ 1 * y ^ 8 +
            (4631062764096 / 287041015625) * x ^ 2 * y ^ 7 + (10721380020562 / 172224609375) * x ^ 3 * y ^ 6 +
            (960621073659053 / 6888984375000) * x ^ 4 * y ^ 5 + (2589857482058843 / 13777968750000) * x ^ 5 * y ^ 4 +
            (212279027933993 / 1377796875000) * x ^ 6 * y ^ 3 + (79141661541013 / 1059843750000) * x ^ 7 * y ^ 2 +
            (861104111964001 / 44089500000000) * x ^ 8 * y ^ 1 + (310693590726137 / 146965000000000) * x ^ 9 * y ^ 0 := by
          intro x y hx hy
          positivity
        have := key (t - (1 / 2)) ((3 / 4) - t) (by linarith) (by linarith)
        refine le_of_le_of_eq this ?_
        ring
    · rcases le_total t (7 / 8) with h | h
      · have key : ∀ x y : ℝ, 0 ≤ x → 0 ≤ y → 0 ≤
            (310693590726137 / 287041015625) * x ^ 0 * y ^ 9 + (16555139729177087 / 1722246093750) * x ^ 1 * y ^ 8 +
            (2466386817605891 / 66240234375) * x ^ 2 * y ^ 7 + (141857273858691359 / 1722246093750) * x ^ 3 * y ^ 6 +
            (787752211741928477 / 6888984375000) * x ^ 4 * y ^ 5 + (1418606877564164753 / 13777968750000) * x ^ 5 * y ^ 4 +
            (825255958420743763 / 13777968750000) * x ^ 6 * y ^ 3 + (2183162433177171 / 100937500000) * x ^ 7 * y ^ 2 +
            (46125795167163111 / 10497500000000) * x ^ 8 * y ^ 1 + (8098077370693819 / 20995000000000) * x ^ 9 * y ^ 0 := by
          intro x y hx hy
          positivity
        have := key (t - (3 / 4)) ((7 / 8) - t) (by linarith) (by linarith)
        refine le_of_le_of_eq this ?_
        ring
      · have key : ∀ x y : ℝ, 0 ≤ x → 0 ≤ y → 0 ≤
            (8098077370693819 / 20995000000000) * x ^ 0 * y ^ 9 + (1337845058454063 / 524875000000) * x ^ 1 * y ^ 8 +
            (2253054408305343 / 328046875000) * x ^ 2 * y ^ 7 + (1719096028547836 / 172224609375) * x ^ 3 * y ^ 6 +
            (512737641399616 / 50654296875) * x ^ 4 * y ^ 5 + (1978360875883904 / 172224609375) * x ^ 5 * y ^ 4 +
            (821782003955712 / 57408203125) * x ^ 6 * y ^ 3 + (422485284958208 / 34444921875) * x ^ 7 * y ^ 2 +
            (194859015897088 / 34444921875) * x ^ 8 * y ^ 1 + (183368228274176 / 172224609375) * x ^ 9 * y ^ 0 := by
          intro x y hx hy
          positivity
        have := key (t - (7 / 8)) ((1) - t) (by linarith) (by linarith)
        refine le_of_le_of_eq this ?_
        ring

/-- `Qc( t )² ( 2 - t ) - 4` is at least -3e-6. -/
theorem acos_der_low {t : ℝ} (h0 : 0 ≤ t) (h1 : t ≤ 1) : 0 ≤
    (4157483761 / 1250000000000000) * t ^ 0 + (-82660786089 / 1562500000000000) * t ^ 1 +
    (700304883501109 / 500000000000000000) * t ^ 2 + (-14182923251110921 / 1000000000000000000) * t ^ 3 +
    (17839842183275351 / 250000000000000000) * t ^ 4 + (-99700876486308459 / 500000000000000000) * t ^ 5 +
    (80381861446421259 / 250000000000000000) * t ^ 6 + (-58515925353907559 / 200000000000000000) * t ^ 7 +
    (33417115486947807 / 250000000000000000) * t ^ 8 + (-20771240746436063 / 1000000000000000000) * t ^ 9 +
    (969967830166549 / 250000000000000000) * t ^ 10 + (-11363248576010893 / 1000000000000000000) * t ^ 11 +
    (3701032908795063 / 250000000000000000) * t ^ 12 + (-3821165016077617 / 250000000000000000) * t ^ 13 +
    (1388035632106951 / 125000000000000000) * t ^ 14 + (-278044059679917 / 50000000000000000) * t ^ 15 +
    (53195744429363 / 31250000000000000) * t ^ 16 + (-3905868410929 / 15625000000000000) * t ^ 17 := by
  rcases le_total t (1 / 2) with h | h
  · have key : ∀ x y : ℝ, 0 ≤ x → 0 ≤ y → 0 ≤
        (66519740176 / 152587890625) * x ^ 0 * y ^ 17 + (3009032760112 / 762939453125) * x ^ 1 * y ^ 16 +
        (758526900343349 / 15258789062500) * x ^ 2 * y ^ 15 + (20535345600286819 / 61035156250000) * x ^ 3 * y ^ 14 +
        (19017774907956297 / 15258789062500) * x ^ 4 * y ^ 13 + (354821713961391731 / 122070312500000) * x ^ 5 * y ^ 12 +
        (116424580706071923 / 24414062500000) * x ^ 6 * y ^ 11 + (6014647569538372869 / 976562500000000) * x ^ 7 * y ^ 10 +
        (855172995587972309 / 122070312500000) * x ^ 8 * y ^ 9 + (5729351718251072089 / 781250000000000) * x ^ 9 * y ^ 8 +
        (13054424607027099417 / 1953125000000000) * x ^ 10 * y ^ 7 +
        (76312240903849734811 / 15625000000000000) * x ^ 11 * y ^ 6 +
        (5280367244046231129 / 1953125000000000) * x ^ 12 * y ^ 5 + (8548458647117083793 / 7812500000000000) * x ^ 13 * y ^ 4 +
        (979162103909937799 / 3125000000000000) * x ^ 14 * y ^ 3 + (3778132563891361951 / 62500000000000000) * x ^ 15 * y ^ 2 +
        (222645050405553223 / 31250000000000000) * x ^ 16 * y ^ 1 + (24576157436934643 / 62500000000000000) * x ^ 17 * y ^ 0 := by
      intro x y hx hy
      positivity
    have := key (t - (0)) ((1 / 2) - t) (by linarith) (by linarith)
    refine le_of_le_of_eq this ?_
    ring
  · have key : ∀ x y : ℝ, 0 ≤ x → 0 ≤ y → 0 ≤
        (24576157436934643 / 62500000000000000) * x ^ 0 * y ^ 17 + (48787406505583927 / 7812500000000000) * x ^ 1 * y ^ 16 +
        (2898278983628401471 / 62500000000000000) * x ^ 2 * y ^ 15 +
        (1371578290613546639 / 6250000000000000) * x ^ 3 * y ^ 14 +
        (11958247846614462421 / 15625000000000000) * x ^ 4 * y ^ 13 +
        (16604339787964364813 / 7812500000000000) * x ^ 5 * y ^ 12 +
        (74978600054922163159 / 15625000000000000) * x ^ 6 * y ^ 11 +
        (13509796457558450269 / 1562500000000000) * x ^ 7 * y ^ 10 + (4703860492377663871 / 390625000000000) * x ^ 8 * y ^ 9 +
        (6134181798517622711 / 488281250000000) * x ^ 9 * y ^ 8 + (9300392297373731547 / 976562500000000) * x ^ 10 * y ^ 7 +
        (99329617880395241 / 19531250000000) * x ^ 11 * y ^ 6 + (92133628341928631 / 48828125000000) * x ^ 12 * y ^ 5 +
        (66275814924034249 / 122070312500000) * x ^ 13 * y ^ 4 + (2109810968798553 / 12207031250000) * x ^ 14 * y ^ 3 +
        (1749018315501281 / 30517578125000) * x ^ 15 * y ^ 2 + (39826999091064 / 3814697265625) * x ^ 16 * y ^ 1 +
        (1276000006272 / 3814697265625) * x ^ 17 * y ^ 0 := by
      intro x y hx hy
      positivity
    have := key (t - (1 / 2)) ((1) - t) (by linarith) (by linarith)
    refine le_of_le_of_eq this ?_
    ring

/-- `Qc( t )² ( 2 - t ) - 4` is at most 3e-6. -/
theorem acos_der_high {t : ℝ} (h0 : 0 ≤ t) (h1 : t ≤ 1) : 0 ≤
    (3342516239 / 1250000000000000) * t ^ 0 + (82660786089 / 1562500000000000) * t ^ 1 +
    (-700304883501109 / 500000000000000000) * t ^ 2 + (14182923251110921 / 1000000000000000000) * t ^ 3 +
    (-17839842183275351 / 250000000000000000) * t ^ 4 + (99700876486308459 / 500000000000000000) * t ^ 5 +
    (-80381861446421259 / 250000000000000000) * t ^ 6 + (58515925353907559 / 200000000000000000) * t ^ 7 +
    (-33417115486947807 / 250000000000000000) * t ^ 8 + (20771240746436063 / 1000000000000000000) * t ^ 9 +
    (-969967830166549 / 250000000000000000) * t ^ 10 + (11363248576010893 / 1000000000000000000) * t ^ 11 +
    (-3701032908795063 / 250000000000000000) * t ^ 12 + (3821165016077617 / 250000000000000000) * t ^ 13 +
    (-1388035632106951 / 125000000000000000) * t ^ 14 + (278044059679917 / 50000000000000000) * t ^ 15 +
    (-53195744429363 / 31250000000000000) * t ^ 16 + (3905868410929 / 15625000000000000) * t ^ 17 := by
  rcases le_total t (1 / 2) with h | h
  · have key : ∀ x y : ℝ, 0 ≤ x → 0 ≤ y → 0 ≤
        (53480259824 / 152587890625) * x ^ 0 * y ^ 17 + (7190967239888 / 762939453125) * x ^ 1 * y ^ 16 +
        (873473099656651 / 15258789062500) * x ^ 2 * y ^ 15 + (12104654399713181 / 61035156250000) * x ^ 3 * y ^ 14 +
        (9542225092043703 / 15258789062500) * x ^ 4 * y ^ 13 + (239226286038608269 / 122070312500000) * x ^ 5 * y ^ 12 +
        (121194619293928077 / 24414062500000) * x ^ 6 * y ^ 11 + (8921416430461627131 / 976562500000000) * x ^ 7 * y ^ 10 +
        (1478587004412027691 / 122070312500000) * x ^ 8 * y ^ 9 + (9206712281748927911 / 781250000000000) * x ^ 9 * y ^ 8 +
        (16817703392972900583 / 1953125000000000) * x ^ 10 * y ^ 7 +
        (75764047096150265189 / 15625000000000000) * x ^ 11 * y ^ 6 +
        (4224400755953768871 / 1953125000000000) * x ^ 12 * y ^ 5 + (6074261352882916207 / 7812500000000000) * x ^ 13 * y ^ 4 +
        (692005896090062201 / 3125000000000000) * x ^ 14 * y ^ 3 + (2906539436108638049 / 62500000000000000) * x ^ 15 * y ^ 2 +
        (195146949594446777 / 31250000000000000) * x ^ 16 * y ^ 1 + (24575842563065357 / 62500000000000000) * x ^ 17 * y ^ 0 := by
      intro x y hx hy
      positivity
    have := key (t - (0)) ((1 / 2) - t) (by linarith) (by linarith)
    refine le_of_le_of_eq this ?_
    ring
  · have key : ∀ x y : ℝ, 0 ≤ x → 0 ≤ y → 0 ≤
        (24575842563065357 / 62500000000000000) * x ^ 0 * y ^ 17 + (55660593494416073 / 7812500000000000) * x ^ 1 * y ^ 16 +
        (3786393016371598529 / 62500000000000000) * x ^ 2 * y ^ 15 +
        (1970757709386453361 / 6250000000000000) * x ^ 3 * y ^ 14 +
        (17287192153385537579 / 15625000000000000) * x ^ 4 * y ^ 13 +
        (21414732212035635187 / 7812500000000000) * x ^ 5 * y ^ 12 +
        (77097687945077836841 / 15625000000000000) * x ^ 6 * y ^ 11 +
        (10387905942441549731 / 1562500000000000) * x ^ 7 * y ^ 10 + (2764171507622336129 / 390625000000000) * x ^ 8 * y ^ 9 +
        (3200858201482377289 / 488281250000000) * x ^ 9 * y ^ 8 + (5635671702626268453 / 976562500000000) * x ^ 10 * y ^ 7 +
        (90765742119604759 / 19531250000000) * x ^ 11 * y ^ 6 + (145485571658071369 / 48828125000000) * x ^ 12 * y ^ 5 +
        (162204185075965751 / 122070312500000) * x ^ 13 * y ^ 4 + (4418189031201447 / 12207031250000) * x ^ 14 * y ^ 3 +
        (1514981684498719 / 30517578125000) * x ^ 15 * y ^ 2 + (11173000908936 / 3814697265625) * x ^ 16 * y ^ 1 +
        (1723999993728 / 3814697265625) * x ^ 17 * y ^ 0 := by
      intro x y hx hy
      positivity
    have := key (t - (1 / 2)) ((1) - t) (by linarith) (by linarith)
    refine le_of_le_of_eq this ?_
    ring

/-- The polynomial of `acosImpl` less the integral of `Qc` is at least -6.85e-5. -/
theorem acos_low {t : ℝ} (h0 : 0 ≤ t) (h1 : t ≤ 1) : 0 ≤
    (49 / 50000000) * t ^ 0 + (5796847 / 3000000000) * t ^ 1 + (-10615571 / 1250000000) * t ^ 2 +
    (78308567 / 7000000000) * t ^ 3 + (-36179369 / 9000000000) * t ^ 4 + (21445029 / 11000000000) * t ^ 5 +
    (-1690477 / 406250000) * t ^ 6 + (19011161 / 7500000000) * t ^ 7 + (-1976327 / 2125000000) * t ^ 8 := by
  rcases le_total t (5 / 8) with h | h
  · rcases le_total t (1 / 2) with h | h
    · have key : ∀ x y : ℝ, 0 ≤ x → 0 ≤ y → 0 ≤
          (98 / 390625) * x ^ 0 * y ^ 8 + (5843887 / 23437500) * x ^ 1 * y ^ 7 + (140019419 / 117187500) * x ^ 2 * y ^ 6 +
          (2520987439 / 1093750000) * x ^ 3 * y ^ 5 + (8847637903 / 3937500000) * x ^ 4 * y ^ 4 +
          (98620007659 / 86625000000) * x ^ 5 * y ^ 3 + (102211766387 / 375375000000) * x ^ 6 * y ^ 2 +
          (263880291517 / 11261250000000) * x ^ 7 * y ^ 1 + (157024061879 / 191441250000000) * x ^ 8 * y ^ 0 := by
        intro x y hx hy
        positivity
      have := key (t - (0)) ((1 / 2) - t) (by linarith) (by linarith)
      refine le_of_le_of_eq this ?_
      ring
    · have key : ∀ x y : ℝ, 0 ≤ x → 0 ≤ y → 0 ≤
          (80396319682048 / 1495634765625) * x ^ 0 * y ^ 8 + (3646979086976 / 23740234375) * x ^ 1 * y ^ 7 +
          (32230852608352 / 299126953125) * x ^ 2 * y ^ 6 + (3689298057784 / 7669921875) * x ^ 3 * y ^ 5 +
          (236416410510298 / 99708984375) * x ^ 4 * y ^ 4 + (4447788318740759 / 997089843750) * x ^ 5 * y ^ 3 +
          (48704575056998713 / 11965078125000) * x ^ 6 * y ^ 2 + (1956109888040743 / 1063562500000) * x ^ 7 * y ^ 1 +
          (1269157883950483 / 3828825000000) * x ^ 8 * y ^ 0 := by
        intro x y hx hy
        positivity
      have := key (t - (1 / 2)) ((5 / 8) - t) (by linarith) (by linarith)
      refine le_of_le_of_eq this ?_
      ring
  · rcases le_total t (3 / 4) with h | h
    · have key : ∀ x y : ℝ, 0 ≤ x → 0 ≤ y → 0 ≤
          (1269157883950483 / 3828825000000) * x ^ 0 * y ^ 8 + (33161326365652633 / 9572062500000) * x ^ 1 * y ^ 7 +
          (41071672682944609 / 2658906250000) * x ^ 2 * y ^ 6 + (65625519170181359 / 1709296875000) * x ^ 3 * y ^ 5 +
          (6338330190278341 / 108773437500) * x ^ 4 * y ^ 4 + (2209299735699989 / 39883593750) * x ^ 5 * y ^ 3 +
          (3216260756469869 / 99708984375) * x ^ 6 * y ^ 2 + (5250301397673058 / 498544921875) * x ^ 7 * y ^ 1 +
          (245433029262936 / 166181640625) * x ^ 8 * y ^ 0 := by
        intro x y hx hy
        positivity
      have := key (t - (5 / 8)) ((3 / 4) - t) (by linarith) (by linarith)
      refine le_of_le_of_eq this ?_
      ring
    · have key : ∀ x y : ℝ, 0 ≤ x → 0 ≤ y → 0 ≤
          (30679128657867 / 5317812500000) * x ^ 0 * y ^ 8 + (1792643827896319 / 31906875000000) * x ^ 1 * y ^ 7 +
          (366999081873857 / 1595343750000) * x ^ 2 * y ^ 6 + (2049818474231741 / 3988359375000) * x ^ 3 * y ^ 5 +
          (28965905926184 / 42732421875) * x ^ 4 * y ^ 4 + (575227263538 / 1087734375) * x ^ 5 * y ^ 3 +
          (7528241930824 / 33236328125) * x ^ 6 * y ^ 2 + (949460030048 / 23009765625) * x ^ 7 * y ^ 1 +
          (3814683904 / 59825390625) * x ^ 8 * y ^ 0 := by
        intro x y hx hy
        positivity
      have := key (t - (3 / 4)) ((1) - t) (by linarith) (by linarith)
      refine le_of_le_of_eq this ?_
      ring

/-- The polynomial of `acosImpl` less the integral of `Qc` is at most 6.85e-5. -/
theorem acos_high {t : ℝ} (h0 : 0 ≤ t) (h1 : t ≤ 1) : 0 ≤
    (6801 / 50000000) * t ^ 0 + (-5796847 / 3000000000) * t ^ 1 + (10615571 / 1250000000) * t ^ 2 +
    (-78308567 / 7000000000) * t ^ 3 + (36179369 / 9000000000) * t ^ 4 + (-21445029 / 11000000000) * t ^ 5 +
    (1690477 / 406250000) * t ^ 6 + (-19011161 / 7500000000) * t ^ 7 + (1976327 / 2125000000) * t ^ 8 := by
  rcases le_total t (1 / 4) with h | h
  · rcases le_total t (1 / 8) with h | h
    · have key : ∀ x y : ℝ, 0 ≤ x → 0 ≤ y → 0 ≤
          (891420672 / 390625) * x ^ 0 * y ^ 8 + (83226595328 / 5859375) * x ^ 1 * y ^ 7 +
          (1106169493504 / 29296875) * x ^ 2 * y ^ 6 + (3806720897856 / 68359375) * x ^ 3 * y ^ 5 +
          (6089557783096 / 123046875) * x ^ 4 * y ^ 4 + (7278661921921 / 270703125) * x ^ 5 * y ^ 3 +
          (50575783795741 / 5865234375) * x ^ 6 * y ^ 2 + (4161761173985501 / 2815312500000) * x ^ 7 * y ^ 1 +
          (10063549384894349 / 95720625000000) * x ^ 8 * y ^ 0 := by
        intro x y hx hy
        positivity
      have := key (t - (0)) ((1 / 8) - t) (by linarith) (by linarith)
      refine le_of_le_of_eq this ?_
      ring
    · rcases le_total t (3 / 16) with h | h
      · have key : ∀ x y : ℝ, 0 ≤ x → 0 ≤ y → 0 ≤
            (40254197539577396 / 1495634765625) * x ^ 0 * y ^ 8 + (200050610643914684 / 1495634765625) * x ^ 1 * y ^ 7 +
            (129971252771407118 / 498544921875) * x ^ 2 * y ^ 6 + (378008379087518411 / 1495634765625) * x ^ 3 * y ^ 5 +
            (45133565386521961 / 299126953125) * x ^ 4 * y ^ 4 + (21009585015704141 / 181289062500) * x ^ 5 * y ^ 3 +
            (456810335812376033 / 3988359375000) * x ^ 6 * y ^ 2 + (73456573184940853 / 1139531250000) * x ^ 7 * y ^ 1 +
            (146916701092779287 / 10635625000000) * x ^ 8 * y ^ 0 := by
          intro x y hx hy
          positivity
        have := key (t - (1 / 8)) ((3 / 16) - t) (by linarith) (by linarith)
        refine le_of_le_of_eq this ?_
        ring
      · have key : ∀ x y : ℝ, 0 ≤ x → 0 ≤ y → 0 ≤
            (146916701092779287 / 10635625000000) * x ^ 0 * y ^ 8 + (1248804400818765473 / 7976718750000) * x ^ 1 * y ^ 7 +
            (302793969564700429 / 398835937500) * x ^ 2 * y ^ 6 + (1013160803327166341 / 498544921875) * x ^ 3 * y ^ 5 +
            (140419982730355804 / 42732421875) * x ^ 4 * y ^ 4 + (448656246762037168 / 135966796875) * x ^ 5 * y ^ 3 +
            (335422952131489344 / 166181640625) * x ^ 6 * y ^ 2 + (15883574279193856 / 23009765625) * x ^ 7 * y ^ 1 +
            (151640767351365632 / 1495634765625) * x ^ 8 * y ^ 0 := by
          intro x y hx hy
          positivity
        have := key (t - (3 / 16)) ((1 / 4) - t) (by linarith) (by linarith)
        refine le_of_le_of_eq this ?_
        ring
  · rcases le_total t (3 / 4) with h | h
    · rcases le_total t (1 / 2) with h | h
      · have key : ∀ x y : ℝ, 0 ≤ x → 0 ≤ y → 0 ≤
            (18510835858321 / 11965078125000) * x ^ 0 * y ^ 8 + (126035246189077 / 6381375000000) * x ^ 1 * y ^ 7 +
            (4838338043079257 / 47860312500000) * x ^ 2 * y ^ 6 + (196426948960981 / 725156250000) * x ^ 3 * y ^ 5 +
            (336672740818633 / 797671875000) * x ^ 4 * y ^ 4 + (8696912437189 / 21914062500) * x ^ 5 * y ^ 3 +
            (132813410591899 / 598253906250) * x ^ 6 * y ^ 2 + (3081378268763 / 45322265625) * x ^ 7 * y ^ 1 +
            (13114406916242 / 1495634765625) * x ^ 8 * y ^ 0 := by
          intro x y hx hy
          positivity
        have := key (t - (1 / 4)) ((1 / 2) - t) (by linarith) (by linarith)
        refine le_of_le_of_eq this ?_
        ring
      · have key : ∀ x y : ℝ, 0 ≤ x → 0 ≤ y → 0 ≤
            (13114406916242 / 1495634765625) * x ^ 0 * y ^ 8 + (108145027790693 / 1495634765625) * x ^ 1 * y ^ 7 +
            (251500227286897 / 997089843750) * x ^ 2 * y ^ 6 + (2898047125536803 / 5982539062500) * x ^ 3 * y ^ 5 +
            (1334129251614743 / 2393015625000) * x ^ 4 * y ^ 4 + (283588169913467 / 725156250000) * x ^ 5 * y ^ 3 +
            (2580960652772351 / 15953437500000) * x ^ 6 * y ^ 2 + (162748162414441 / 4558125000000) * x ^ 7 * y ^ 1 +
            (17066489262133 / 5317812500000) * x ^ 8 * y ^ 0 := by
          intro x y hx hy
          positivity
        have := key (t - (1 / 2)) ((3 / 4) - t) (by linarith) (by linarith)
        refine le_of_le_of_eq this ?_
        ring
    · rcases le_total t (7 / 8) with h | h
      · have key : ∀ x y : ℝ, 0 ≤ x → 0 ≤ y → 0 ≤
            (136531914097064 / 166181640625) * x ^ 0 * y ^ 8 + (527334926738426 / 99708984375) * x ^ 1 * y ^ 7 +
            (7042473194966971 / 498544921875) * x ^ 2 * y ^ 6 + (19948075735377221 / 997089843750) * x ^ 3 * y ^ 5 +
            (18901466672048341 / 1196507812500) * x ^ 4 * y ^ 4 + (78420639657077689 / 11965078125000) * x ^ 5 * y ^ 3 +
            (253191353730283 / 227906250000) * x ^ 6 * y ^ 2 + (168440898185779 / 6837187500000) * x ^ 7 * y ^ 1 +
            (246462976545839 / 13674375000000) * x ^ 8 * y ^ 0 := by
          intro x y hx hy
          positivity
        have := key (t - (3 / 4)) ((7 / 8) - t) (by linarith) (by linarith)
        refine le_of_le_of_eq this ?_
        ring
      · have key : ∀ x y : ℝ, 0 ≤ x → 0 ≤ y → 0 ≤
            (246462976545839 / 13674375000000) * x ^ 0 * y ^ 8 + (601087638060311 / 2279062500000) * x ^ 1 * y ^ 7 +
            (2379936840484321 / 854648437500) * x ^ 2 * y ^ 6 + (579327984718409 / 45322265625) * x ^ 3 * y ^ 5 +
            (3011322594199904 / 99708984375) * x ^ 4 * y ^ 4 + (806840128320704 / 19941796875) * x ^ 5 * y ^ 3 +
            (9350931010409984 / 299126953125) * x ^ 6 * y ^ 2 + (1300287504265216 / 99708984375) * x ^ 7 * y ^ 1 +
            (136530820530176 / 59825390625) * x ^ 8 * y ^ 0 := by
          intro x y hx hy
          positivity
        have := key (t - (7 / 8)) ((1) - t) (by linarith) (by linarith)
        refine le_of_le_of_eq this ?_
        ring

/-- The derivative of the polynomial of `atan2Impl` in the square of the ratio is at least -0.334. -/
theorem atan_slope_low {t : ℝ} (h0 : 0 ≤ t) (h1 : t ≤ 1) : 0 ≤
    (1005403 / 1000000000) * t ^ 0 + (7825437 / 20000000) * t ^ 1 + (-363717213 / 1000000000) * t ^ 2 +
    (28738657 / 125000000) * t ^ 3 + (-1348047 / 20000000) * t ^ 4 := by
  have key : ∀ x y : ℝ, 0 ≤ x → 0 ≤ y → 0 ≤
      (1005403 / 1000000000) * x ^ 0 * y ^ 4 + (197646731 / 500000000) * x ^ 1 * y ^ 3 +
      (163226151 / 200000000) * x ^ 2 * y ^ 2 + (85038999 / 125000000) * x ^ 3 * y ^ 1 +
      (95533473 / 500000000) * x ^ 4 * y ^ 0 := by
    intro x y hx hy
    positivity
  have := key (t - (0)) ((1) - t) (by linarith) (by linarith)
  refine le_of_le_of_eq this ?_
  ring

/-- It is not positive. -/
theorem atan_slope_high {t : ℝ} (h0 : 0 ≤ t) (h1 : t ≤ 1) : 0 ≤
    (332994597 / 1000000000) * t ^ 0 + (-7825437 / 20000000) * t ^ 1 + (363717213 / 1000000000) * t ^ 2 +
    (-28738657 / 125000000) * t ^ 3 + (1348047 / 20000000) * t ^ 4 := by
  have key : ∀ x y : ℝ, 0 ≤ x → 0 ≤ y → 0 ≤
      (332994597 / 1000000000) * x ^ 0 * y ^ 4 + (470353269 / 500000000) * x ^ 1 * y ^ 3 +
      (237573849 / 200000000) * x ^ 2 * y ^ 2 + (81961001 / 125000000) * x ^ 3 * y ^ 1 +
      (71466527 / 500000000) * x ^ 4 * y ^ 0 := by
    intro x y hx hy
    positivity
  have := key (t - (0)) ((1) - t) (by linarith) (by linarith)
  refine le_of_le_of_eq this ?_
  ring

end LvArray.math.Poly
