import Mathlib.Tactic.Ring
import Mathlib.Tactic.Positivity
import Mathlib.Tactic.Linarith
import Mathlib.Data.Real.Basic

/-! # The polynomial inequality behind the spin dependence of equatorial orbits -/

namespace KGP.EMono

set_option maxRecDepth 100000 in
set_option maxHeartbeats 2000000 in
/-- the polynomial inequality behind the monotonicity -/
lemma spin_key {h v m : ℝ} (hh : 0 ≤ h) (hv : 0 ≤ v) (hm : 0 ≤ m) (h0 : 0 < m + v) {s r T S : ℝ} (hT : T = 1 + v)
    (hs : s = T + m) (hr : r = s + h) (hS : S = r + s) :
    2 * S * T * (S + T - 2) * (S ^ 2 + S * T - 2 * (r * s)) ^ 2
      < r * s * (S ^ 2 + S * T - 2 * S + 2 * T) ^ 2 * (r * s + S * T + T ^ 2) := by
  subst hS hr hs hT
  have key : 0 < 144 * (m + v) ^ 2 + (624 * m ^ 3 + 1108 * m ^ 4 + 1032 * m ^ 5 + 532 * m ^ 6 + 144 * m ^ 7 + 16 * m ^ 8 + 2112 * v * m ^ 2
        + 5336 * v * m ^ 3 + 6496 * v * m ^ 4 + 4160 * v * m ^ 5 + 1352 * v * m ^ 6 + 176 * v * m ^ 7
        + 2352 * v ^ 2 * m + 9508 * v ^ 2 * m ^ 2 + 16136 * v ^ 2 * m ^ 3 + 13372 * v ^ 2 * m ^ 4
        + 5368 * v ^ 2 * m ^ 5 + 836 * v ^ 2 * m ^ 6 + 864 * v ^ 3 + 7440 * v ^ 3 * m + 19792 * v ^ 3 * m ^ 2
        + 22632 * v ^ 3 * m ^ 3 + 11688 * v ^ 3 * m ^ 4 + 2240 * v ^ 3 * m ^ 5 + 2160 * v ^ 4 + 12000 * v ^ 4 * m
        + 21288 * v ^ 4 * m ^ 2 + 15080 * v ^ 4 * m ^ 3 + 3704 * v ^ 4 * m ^ 4 + 2880 * v ^ 5 + 10560 * v ^ 5 * m
        + 11536 * v ^ 5 * m ^ 2 + 3872 * v ^ 5 * m ^ 3 + 2160 * v ^ 6 + 4848 * v ^ 6 * m + 2500 * v ^ 6 * m ^ 2
        + 864 * v ^ 7 + 912 * v ^ 7 * m + 144 * v ^ 8 + 144 * h * m + 936 * h * m ^ 2 + 2216 * h * m ^ 3
        + 2580 * h * m ^ 4 + 1596 * h * m ^ 5 + 504 * h * m ^ 6 + 64 * h * m ^ 7 + 144 * h * v + 2112 * h * v * m
        + 8004 * h * v * m ^ 2 + 12992 * h * v * m ^ 3 + 10400 * h * v * m ^ 4 + 4056 * h * v * m ^ 5
        + 616 * h * v * m ^ 6 + 1176 * h * v ^ 2 + 9508 * h * v ^ 2 * m + 24204 * h * v ^ 2 * m ^ 2
        + 26744 * h * v ^ 2 * m ^ 3 + 13420 * h * v ^ 2 * m ^ 4 + 2508 * h * v ^ 2 * m ^ 5 + 3720 * h * v ^ 3
        + 19792 * h * v ^ 3 * m + 33948 * h * v ^ 3 * m ^ 2 + 23376 * h * v ^ 3 * m ^ 3 + 5600 * h * v ^ 3 * m ^ 4
        + 6000 * h * v ^ 4 + 21288 * h * v ^ 4 * m + 22620 * h * v ^ 4 * m ^ 2 + 7408 * h * v ^ 4 * m ^ 3
        + 5280 * h * v ^ 5 + 11536 * h * v ^ 5 * m + 5808 * h * v ^ 5 * m ^ 2 + 2424 * h * v ^ 6
        + 2500 * h * v ^ 6 * m + 456 * h * v ^ 7 + 312 * h ^ 2 * m + 1385 * h ^ 2 * m ^ 2 + 2322 * h ^ 2 * m ^ 3
        + 1853 * h ^ 2 * m ^ 4 + 708 * h ^ 2 * m ^ 5 + 104 * h ^ 2 * m ^ 6 + 276 * h ^ 2 * v + 3120 * h ^ 2 * v * m
        + 8512 * h ^ 2 * v * m ^ 2 + 9518 * h ^ 2 * v * m ^ 3 + 4722 * h ^ 2 * v * m ^ 4 + 860 * h ^ 2 * v * m ^ 5
        + 1684 * h ^ 2 * v ^ 2 + 10188 * h ^ 2 * v ^ 2 * m + 18042 * h ^ 2 * v ^ 2 * m ^ 2
        + 12414 * h ^ 2 * v ^ 2 * m ^ 3 + 2921 * h ^ 2 * v ^ 2 * m ^ 4 + 3976 * h ^ 2 * v ^ 3
        + 14964 * h ^ 2 * v ^ 3 * m + 16088 * h ^ 2 * v ^ 3 * m ^ 2 + 5218 * h ^ 2 * v ^ 3 * m ^ 3
        + 4584 * h ^ 2 * v ^ 4 + 10284 * h ^ 2 * v ^ 4 * m + 5173 * h ^ 2 * v ^ 4 * m ^ 2 + 2596 * h ^ 2 * v ^ 5
        + 2700 * h ^ 2 * v ^ 5 * m + 580 * h ^ 2 * v ^ 6 + 277 * h ^ 3 * m + 903 * h ^ 3 * m ^ 2
        + 1046 * h ^ 3 * m ^ 3 + 510 * h ^ 3 * m ^ 4 + 88 * h ^ 3 * m ^ 5 + 226 * h ^ 3 * v + 2016 * h ^ 3 * v * m
        + 3877 * h ^ 3 * v * m ^ 2 + 2684 * h ^ 3 * v * m ^ 3 + 610 * h ^ 3 * v * m ^ 4 + 1060 * h ^ 3 * v ^ 2
        + 4670 * h ^ 3 * v ^ 2 * m + 5201 * h ^ 3 * v ^ 2 * m ^ 2 + 1662 * h ^ 3 * v ^ 2 * m ^ 3
        + 1824 * h ^ 3 * v ^ 3 + 4400 * h ^ 3 * v ^ 3 * m + 2227 * h ^ 3 * v ^ 3 * m ^ 2 + 1372 * h ^ 3 * v ^ 4
        + 1469 * h ^ 3 * v ^ 4 * m + 382 * h ^ 3 * v ^ 5 + 129 * h ^ 4 * m + 288 * h ^ 4 * m ^ 2 + 198 * h ^ 4 * m ^ 3
        + 41 * h ^ 4 * m ^ 4 + 98 * h ^ 4 * v + 643 * h ^ 4 * v * m + 756 * h ^ 4 * v * m ^ 2
        + 230 * h ^ 4 * v * m ^ 3 + 334 * h ^ 4 * v ^ 2 + 935 * h ^ 4 * v ^ 2 * m + 472 * h ^ 4 * v ^ 2 * m ^ 2
        + 374 * h ^ 4 * v ^ 3 + 421 * h ^ 4 * v ^ 3 * m + 138 * h ^ 4 * v ^ 4 + 31 * h ^ 5 * m + 39 * h ^ 5 * m ^ 2
        + 10 * h ^ 5 * m ^ 3 + 22 * h ^ 5 * v + 90 * h ^ 5 * v * m + 43 * h ^ 5 * v * m ^ 2 + 48 * h ^ 5 * v ^ 2
        + 59 * h ^ 5 * v ^ 2 * m + 26 * h ^ 5 * v ^ 3 + 3 * h ^ 6 * m + h ^ 6 * m ^ 2 + 2 * h ^ 6 * v
        + 3 * h ^ 6 * v * m + 2 * h ^ 6 * v ^ 2) := by
    positivity
  rw [← sub_pos]
  refine lt_of_lt_of_eq key ?_
  ring

end KGP.EMono
