import Mathlib.Analysis.SpecialFunctions.Sqrt
import Mathlib.Topology.Order.IntermediateValue
import Mathlib.Tactic.LinearCombination
import Mathlib.Tactic.Linarith
import Mathlib.Tactic.Positivity

/-!
# How the constants of a bound orbit move with its turning points and its inclination

The radial potential in the variables `A = a²`, `b = a x`, `E`, `Y` with `L = x Y` and
`Q = (1 - x²)(a²(1 - E²) + Y²)`.  In these variables prograde (`b > 0`), polar (`b = 0`) and retrograde (`b < 0`)
orbits are alike.
-/

namespace KGP.EMono

open Set Filter Topology

/-- `r² - 2 r + a²` -/
def D (A r : ℝ) : ℝ := r ^ 2 - 2 * r + A
/-- the radial potential -/
def R (A b E Y r : ℝ) : ℝ :=
  (E * (r ^ 2 + A) - b * Y) ^ 2 - D A r * (r ^ 2 + A - b ^ 2 + (Y - b * E) ^ 2)
/-- half of its derivative with respect to `E` -/
def al (A b E Y r : ℝ) : ℝ := (r ^ 2 + A) * (E * (r ^ 2 + A) - b * Y) - b * D A r * (b * E - Y)
/-- minus half of its derivative with respect to `Y` -/
def be (A b E Y r : ℝ) : ℝ := b * (E * (r ^ 2 + A) - b * Y) - D A r * (b * E - Y)
/-- half of its derivative with respect to `b` -/
def rh (A b E Y r : ℝ) : ℝ := D A r * (b - E * (b * E - Y)) - Y * (E * (r ^ 2 + A) - b * Y)
/-- the divided difference of the potential -/
def DR (A b E Y r s : ℝ) : ℝ :=
  E * (r + s) * (E * (r ^ 2 + A) - b * Y + (E * (s ^ 2 + A) - b * Y))
    - (r + s - 2) * (r ^ 2 + A - b ^ 2 + (Y - b * E) ^ 2) - D A s * (r + s)
def alD (A b E Y r s : ℝ) : ℝ :=
  E * ((r + s) * (r ^ 2 + s ^ 2) + A * (r + s + 2) + (A - b ^ 2) * (r + s - 2)) - 2 * b * Y
def beD (_A b E Y r s : ℝ) : ℝ := 2 * b * E + (r + s - 2) * Y
def rhD (_A b E Y r s : ℝ) : ℝ := (b - E * (b * E - Y)) * (r + s - 2) - Y * E * (r + s)
/-- the Jacobian of the values at two radii, divided by the distance of the radii -/
def Br (A b E Y r s : ℝ) : ℝ := be A b E Y r * alD A b E Y r s - al A b E Y r * beD A b E Y r s
/-- the remaining quadratic factor -/
noncomputable def q (A b E Y r s t : ℝ) : ℝ :=
  (E ^ 2 - 1) * t ^ 2 + (2 + (E ^ 2 - 1) * (r + s)) * t
    - A * (A - b ^ 2) * (1 - E ^ 2) / (r * s) - (A - b ^ 2) * Y ^ 2 / (r * s)

lemma R_sub (A b E Y r s : ℝ) : R A b E Y r - R A b E Y s = (r - s) * DR A b E Y r s := by
  unfold R DR D; ring

lemma al_sub (A b E Y r s : ℝ) : al A b E Y r - al A b E Y s = (r - s) * alD A b E Y r s := by
  unfold al alD D; ring

lemma be_sub (A b E Y r s : ℝ) : be A b E Y r - be A b E Y s = (r - s) * beD A b E Y r s := by
  unfold be beD D; ring

lemma jac (A b E Y r s : ℝ) : al A b E Y r * be A b E Y s - be A b E Y r * al A b E Y s = (r - s) * Br A b E Y r s := by
  have h1 := al_sub A b E Y r s
  have h2 := be_sub A b E Y r s
  unfold Br
  linear_combination -(al A b E Y r) * h2 + be A b E Y r * h1

/-- exact first differences in `E`, `Y` -/
lemma R_diff (A b E Y E' Y' r : ℝ) : R A b E' Y' r - R A b E Y r
    = 2 * (al A b ((E + E') / 2) ((Y + Y') / 2) r * (E' - E) - be A b ((E + E') / 2) ((Y + Y') / 2) r * (Y' - Y)) := by
  unfold R al be D; ring

lemma DR_diff (A b E Y E' Y' r s : ℝ) : DR A b E' Y' r s - DR A b E Y r s
    = 2 * (alD A b ((E + E') / 2) ((Y + Y') / 2) r s * (E' - E)
      - beD A b ((E + E') / 2) ((Y + Y') / 2) r s * (Y' - Y)) := by
  unfold DR alD beD D; ring

/-- exact first difference in `b` -/
lemma R_diff_b (A b b' E Y r : ℝ) : R A b' E Y r - R A b E Y r = 2 * rh A ((b + b') / 2) E Y r * (b' - b) := by
  unfold R rh D; ring

lemma DR_diff_b (A b b' E Y r s : ℝ) : DR A b' E Y r s - DR A b E Y r s
    = 2 * rhD A ((b + b') / 2) E Y r s * (b' - b) := by
  unfold DR rhD D; ring

/-- the Jacobian of an orbit -/
lemma Br_orbit {A b E Y r s : ℝ} (h1 : R A b E Y r = 0) (h2 : DR A b E Y r s = 0) :
    (r ^ 2 + A - b ^ 2 + (Y - b * E) ^ 2) * (s ^ 2 + A - b ^ 2 + (Y - b * E) ^ 2) * Br A b E Y r s
      = (E * (r ^ 2 + A) - b * Y) * (E * (s ^ 2 + A) - b * Y) * (r + s)
        * ((r ^ 2 + A - b ^ 2) * (s ^ 2 + A - b ^ 2)) * (b - E * (b * E - Y)) := by
  obtain ⟨V, hV⟩ : ∃ V, V = b * E - Y := ⟨_, rfl⟩
  obtain ⟨k, hk⟩ : ∃ k, k = r ^ 2 + A - b ^ 2 := ⟨_, rfl⟩
  obtain ⟨j, hj⟩ : ∃ j, j = s ^ 2 + A - b ^ 2 := ⟨_, rfl⟩
  have key : (r ^ 2 + A - b ^ 2 + (Y - b * E) ^ 2) * (s ^ 2 + A - b ^ 2 + (Y - b * E) ^ 2) * Br A b E Y r s
      - (E * (r ^ 2 + A) - b * Y) * (E * (s ^ 2 + A) - b * Y) * (r + s)
        * ((r ^ 2 + A - b ^ 2) * (s ^ 2 + A - b ^ 2)) * (b - E * (b * E - Y))
      = V * ((r + s) * (E * (k ^ 2 + k * j + j ^ 2) + (E * V ^ 2 + b * V) * (k + j) + b * V ^ 3)) * R A b E Y r
        - V * k * (E * k + b * V) * (k + V ^ 2) * DR A b E Y r s := by
    rw [hV, hk, hj]
    unfold Br R DR al be alD beD D
    ring
  rw [h1, h2, mul_zero, mul_zero, sub_zero, sub_eq_zero] at key
  exact key

lemma W_orbit {A b E Y r s : ℝ} (h1 : R A b E Y r = 0) (h2 : DR A b E Y r s = 0) :
    D A r * D A s * (r + s) * ((b * E - Y) * (b - E * (b * E - Y)))
      = -((E * (r ^ 2 + A) - b * Y) * (E * (s ^ 2 + A) - b * Y) * (2 * E * (r * s - A) - b * Y * (r + s - 2))) := by
  have key : D A r * D A s * (r + s) * ((b * E - Y) * (b - E * (b * E - Y)))
      + (E * (r ^ 2 + A) - b * Y) * (E * (s ^ 2 + A) - b * Y) * (2 * E * (r * s - A) - b * Y * (r + s - 2))
      = ((E * (r ^ 2 + A) - b * Y) * (r + s - 2) + D A s * (E * (r + s))) * R A b E Y r
        - D A r * (E * (r ^ 2 + A) - b * Y) * DR A b E Y r s := by
    unfold R DR D
    ring
  rw [h1, h2, mul_zero, mul_zero, sub_zero] at key
  linarith

lemma rb_orbit (A b E Y r s : ℝ) : rh A b E Y r * beD A b E Y r s - be A b E Y r * rhD A b E Y r s
    = -((b ^ 2 * (1 - E ^ 2) + Y ^ 2) * (2 * E * (r * s - A) - b * Y * (r + s - 2))) := by
  unfold rh beD be rhD D; ring

/-- the data of a bound orbit between `s` and `r` -/
structure Orb (A b r s E Y : ℝ) : Prop where
  hb : b ^ 2 ≤ A
  hA : A ≤ 1
  hs : 1 ≤ s
  hsr : s ≤ r
  hE : 0 < E
  hE1 : E < 1
  hY : 0 < Y
  root : R A b E Y r = 0
  root' : DR A b E Y r s = 0
  hPr : 0 < E * (r ^ 2 + A) - b * Y
  hPs : 0 < E * (s ^ 2 + A) - b * Y
  hD : 0 < D A s
  sum : (1 - E ^ 2) * (r + s + 1) ≤ 2
  hq : ∀ t, s ≤ t → q A b E Y r s t < 0

namespace Orb

variable {A b r s E Y : ℝ}

lemma root_s (o : Orb A b r s E Y) : R A b E Y s = 0 := by
  have := R_sub A b E Y r s
  rw [o.root, o.root', mul_zero] at this
  linarith

lemma D_pos (o : Orb A b r s E Y) : 0 < D A r := by
  have h := o.hD
  have := o.hs
  have := o.hsr
  unfold D at *
  nlinarith

lemma E2 (o : Orb A b r s E Y) : E ^ 2 < 1 := by
  have := o.hE; have := o.hE1; nlinarith

/-- the energy exceeds the potential at rest -/
lemma above_aux {A b E r s : ℝ} (hb : b ^ 2 ≤ A) (hA : A ≤ 1) (hs : 1 ≤ s) (hr : 1 ≤ r) (hE : E ^ 2 < 1)
    (hsum : (1 - E ^ 2) * (r + s + 1) ≤ 2) : D A r < E ^ 2 * (r ^ 2 + A - b ^ 2) := by
  have h0 : 0 < r + s + 1 := by linarith
  have hb0 : 0 ≤ b ^ 2 := sq_nonneg b
  have hk : 0 < r ^ 2 + A - b ^ 2 := by nlinarith
  have h1 : (1 - E ^ 2) * (r + s + 1) * (r ^ 2 + A - b ^ 2) ≤ 2 * (r ^ 2 + A - b ^ 2) :=
    mul_le_mul_of_nonneg_right hsum hk.le
  have h2 : b ^ 2 * (r + s - 1) ≤ 1 * (r + s - 1) :=
    mul_le_mul_of_nonneg_right (hb.trans hA) (by linarith)
  have h3 : 0 ≤ (r - 1) * (s - 1) := mul_nonneg (by linarith) (by linarith)
  have h4 : 2 * (r ^ 2 + A - b ^ 2) < (2 * r - b ^ 2) * (r + s + 1) := by nlinarith
  have h5 : (1 - E ^ 2) * (r ^ 2 + A - b ^ 2) < 2 * r - b ^ 2 := by
    refine lt_of_mul_lt_mul_right ?_ h0.le
    nlinarith
  unfold D
  nlinarith

lemma above_r (o : Orb A b r s E Y) : D A r < E ^ 2 * (r ^ 2 + A - b ^ 2) :=
  above_aux o.hb o.hA o.hs (o.hs.trans o.hsr) o.E2 o.sum

lemma above_s (o : Orb A b r s E Y) : D A s < E ^ 2 * (s ^ 2 + A - b ^ 2) :=
  above_aux o.hb o.hA (o.hs.trans o.hsr) o.hs o.E2 (by have := o.sum; linarith)

lemma V_neg_aux {A b E Y r : ℝ} (hE : 0 < E) (hY : 0 < Y) (hD : 0 < D A r) (hb : b ^ 2 ≤ A) (hr : 1 ≤ r) (hA : A ≤ 1)
    (hR : R A b E Y r = 0) (h : D A r < E ^ 2 * (r ^ 2 + A - b ^ 2)) : b * E < Y := by
  by_contra hcon
  have hV : 0 ≤ b * E - Y := by linarith
  obtain ⟨V, hVd⟩ : ∃ V, V = b * E - Y := ⟨_, rfl⟩
  obtain ⟨k, hk⟩ : ∃ k, k = r ^ 2 + A - b ^ 2 := ⟨_, rfl⟩
  rw [← hVd] at hV
  rw [← hk] at h
  have hk0 : 0 < k := by rw [hk]; nlinarith [sq_nonneg b]
  have hbE : 0 < b * E := by linarith
  have hb0 : 0 < b := (pos_iff_pos_of_mul_pos hbE).mpr hE
  have hVb : V ≤ b * E := by linarith
  have e : k * (E ^ 2 * k - D A r) = V * (D A r * V - 2 * E * b * k - b ^ 2 * V) := by
    have : R A b E Y r = (E * k + b * V) ^ 2 - D A r * (k + V ^ 2) := by rw [hk, hVd]; unfold R; ring
    rw [hR] at this
    linarith
  have hDk : D A r ≤ k := by rw [hk]; unfold D; nlinarith
  have h1 : D A r * V ≤ k * (b * E) := mul_le_mul hDk hVb hV hk0.le
  have h2 : 0 < k * (E ^ 2 * k - D A r) := mul_pos hk0 (by linarith)
  have h3 : D A r * V - 2 * E * b * k - b ^ 2 * V ≤ 0 := by
    have : 0 ≤ b ^ 2 * V := by positivity
    have : 0 < k * (b * E) := by positivity
    nlinarith
  nlinarith [mul_nonneg hV (neg_nonneg.mpr h3)]

lemma V_neg (o : Orb A b r s E Y) : b * E < Y :=
  V_neg_aux o.hE o.hY o.hD o.hb o.hs o.hA o.root_s o.above_s

/-- the two signs at a turning point -/
lemma signs_aux {A b E Y r : ℝ} (hE : 0 < E) (hE1 : E < 1) (hD : 0 < D A r) (hb : b ^ 2 ≤ A) (hr : 1 ≤ r) (hA : A ≤ 1)
    (hP : 0 < E * (r ^ 2 + A) - b * Y) (hV : b * E < Y)
    (hR : R A b E Y r = 0) (h : D A r < E ^ 2 * (r ^ 2 + A - b ^ 2)) :
    0 < be A b E Y r ∧ 0 < b - E * (b * E - Y) := by
  have hE2 : 0 < 1 - E ^ 2 := by nlinarith
  rcases le_or_gt 0 b with h0 | h0
  · constructor
    · unfold be
      have h1 := mul_nonneg h0 hP.le
      have h2 := mul_pos hD (sub_pos.mpr hV)
      nlinarith
    · have h1 : 0 < E * (Y - b * E) := mul_pos hE (by linarith)
      nlinarith
  · obtain ⟨v, hv⟩ : ∃ v, v = Y - b * E := ⟨_, rfl⟩
    obtain ⟨c, hc⟩ : ∃ c, c = -b := ⟨_, rfl⟩
    obtain ⟨k, hk⟩ : ∃ k, k = r ^ 2 + A - b ^ 2 := ⟨_, rfl⟩
    obtain ⟨d, hd⟩ : ∃ d, d = D A r := ⟨_, rfl⟩
    rw [← hk, ← hd] at h
    rw [← hd] at hD
    have hv0 : 0 < v := by linarith
    have hc0 : 0 < c := by linarith
    have hk0 : 0 < k := by rw [hk]; nlinarith [sq_nonneg b]
    have e : v * ((d - c ^ 2) * v - 2 * c * E * k) = k * (E ^ 2 * k - d) := by
      have : R A b E Y r = (E * k + c * v) ^ 2 - d * (k + v ^ 2) := by rw [hk, hv, hc, hd]; unfold R; ring
      rw [hR] at this
      linarith
    have h1 : 0 < v * ((d - c ^ 2) * v - 2 * c * E * k) := by
      rw [e]; exact mul_pos hk0 (by linarith)
    have h2 : 0 < (d - c ^ 2) * v - 2 * c * E * k := (pos_iff_pos_of_mul_pos h1).mp hv0
    have h3 : 0 < c * E * k := by positivity
    have h4 : be A b E Y r = (d - c ^ 2) * v - c * E * k := by
      rw [hk, hv, hc, hd]; unfold be; ring
    refine ⟨by rw [h4]; linarith, ?_⟩
    have h5 : b - E * (b * E - Y) = E * v - c := by rw [hv, hc]; ring
    rw [h5]
    have h6 : 0 < (d - c ^ 2) * v := by linarith
    have h7 : 0 < d - c ^ 2 := (pos_iff_pos_of_mul_pos h6).mpr hv0
    have h8 : 0 < (d - c ^ 2) * (E * v - c) := by
      have h9 : 0 < E * ((d - c ^ 2) * v - 2 * c * E * k) := mul_pos hE h2
      have h10 : 0 < c * (E ^ 2 * k - d) := mul_pos hc0 (by linarith)
      have h11 : 0 < c * d := by positivity
      have h12 : 0 < c * c ^ 2 := by positivity
      nlinarith
    exact (pos_iff_pos_of_mul_pos h8).mp h7

lemma be_r (o : Orb A b r s E Y) : 0 < be A b E Y r :=
  (signs_aux o.hE o.hE1 o.D_pos o.hb (o.hs.trans o.hsr) o.hA o.hPr o.V_neg o.root o.above_r).1

lemma be_s (o : Orb A b r s E Y) : 0 < be A b E Y s :=
  (signs_aux o.hE o.hE1 o.hD o.hb o.hs o.hA o.hPs o.V_neg o.root_s o.above_s).1

lemma m_pos (o : Orb A b r s E Y) : 0 < b - E * (b * E - Y) :=
  (signs_aux o.hE o.hE1 o.hD o.hb o.hs o.hA o.hPs o.V_neg o.root_s o.above_s).2

lemma al_aux {A b E Y r : ℝ} (hE : 0 < E) (hY : 0 < Y) (hD : 0 < D A r) (hb : b ^ 2 ≤ A) (hr : 1 ≤ r)
    (hR : R A b E Y r = 0) (hbe : 0 < be A b E Y r) : 0 < al A b E Y r := by
  have e : E * al A b E Y r = D A r * (r ^ 2 + A - b ^ 2) + Y * be A b E Y r := by
    have : E * al A b E Y r = R A b E Y r + D A r * (r ^ 2 + A - b ^ 2) + Y * be A b E Y r := by
      unfold al be R; ring
    rw [this, hR]; ring
  have hk0 : 0 < r ^ 2 + A - b ^ 2 := by nlinarith [sq_nonneg b]
  have : 0 < E * al A b E Y r := by rw [e]; positivity
  exact (pos_iff_pos_of_mul_pos this).mp hE

lemma al_r (o : Orb A b r s E Y) : 0 < al A b E Y r := al_aux o.hE o.hY o.D_pos o.hb (o.hs.trans o.hsr) o.root o.be_r
lemma al_s (o : Orb A b r s E Y) : 0 < al A b E Y s := al_aux o.hE o.hY o.hD o.hb o.hs o.root_s o.be_s

lemma Br_pos (o : Orb A b r s E Y) : 0 < Br A b E Y r s := by
  have h := Br_orbit o.root o.root'
  have hs := o.hs
  have hr := o.hs.trans o.hsr
  have hb := o.hb
  have h1 : 0 < r ^ 2 + A - b ^ 2 := by nlinarith
  have h2 : 0 < s ^ 2 + A - b ^ 2 := by nlinarith
  have h3 := o.hPr
  have h4 := o.hPs
  have h5 := o.m_pos
  have h6 : 0 < (r ^ 2 + A - b ^ 2 + (Y - b * E) ^ 2) * (s ^ 2 + A - b ^ 2 + (Y - b * E) ^ 2) := by positivity
  have h7 : 0 < r + s := by linarith
  have h8 : 0 < (r ^ 2 + A - b ^ 2 + (Y - b * E) ^ 2) * (s ^ 2 + A - b ^ 2 + (Y - b * E) ^ 2) * Br A b E Y r s := by
    rw [h]; positivity
  exact (pos_iff_pos_of_mul_pos h8).mp h6

lemma W_pos (o : Orb A b r s E Y) : 0 < 2 * E * (r * s - A) - b * Y * (r + s - 2) := by
  have h := W_orbit o.root o.root'
  have h3 := o.hPr
  have h4 := o.hPs
  have h5 := o.m_pos
  have h7 : 0 < r + s := by linarith [o.hs, o.hsr]
  have h6 : 0 < Y - b * E := by linarith [o.V_neg]
  have h8 : 0 < D A r * D A s * (r + s) * ((Y - b * E) * (b - E * (b * E - Y))) := by
    have := o.hD; have := o.D_pos; positivity
  have h9 : 0 < (E * (r ^ 2 + A) - b * Y) * (E * (s ^ 2 + A) - b * Y) * (2 * E * (r * s - A) - b * Y * (r + s - 2)) := by
    nlinarith
  exact (pos_iff_pos_of_mul_pos h9).mp (by positivity)

/-- the factorisation -/
lemma factor (o : Orb A b r s E Y) (t : ℝ) : R A b E Y t = (t - r) * (t - s) * q A b E Y r s t := by
  have hr0 : r ≠ 0 := by linarith [o.hs, o.hsr]
  have hs0 : s ≠ 0 := by linarith [o.hs]
  have h1 := o.root
  have h2 := o.root'
  have key : r * s * (R A b E Y t - (t - r) * (t - s) * q A b E Y r s t)
      = t * ((t - r) * (r * DR A b E Y r s - R A b E Y r) + s * R A b E Y r) := by
    unfold q R DR D
    field_simp
    ring
  rw [h1, h2] at key
  have : r * s * (R A b E Y t - (t - r) * (t - s) * q A b E Y r s t) = 0 := by rw [key]; ring
  rcases mul_eq_zero.mp this with h | h
  · exact absurd h (mul_ne_zero hr0 hs0)
  · linarith

end Orb

/-- **Larger turning points**: the rows at the new apoapsis and the old periapsis. -/
lemma step {A b r s E Y r' s' E' Y' : ℝ} (o : Orb A b r s E Y) (o' : Orb A b r' s' E' Y') (hr : r < r') (hs : s < s')
    (hq : q A b E' Y' r' s' s < 0)
    (a1 : 0 < al A b ((E + E') / 2) ((Y + Y') / 2) r') (b1 : 0 < be A b ((E + E') / 2) ((Y + Y') / 2) r')
    (a2 : 0 < al A b ((E + E') / 2) ((Y + Y') / 2) s) (b2 : 0 < be A b ((E + E') / 2) ((Y + Y') / 2) s)
    (hB : 0 < Br A b ((E + E') / 2) ((Y + Y') / 2) r' s) : E < E' ∧ Y < Y' := by
  have hsr := o.hsr
  have hsr' := o'.hsr
  have c1 : R A b E Y r' < 0 := by
    rw [o.factor]
    have := o.hq r' (by linarith)
    have h : 0 < (r' - r) * (r' - s) := mul_pos (by linarith) (by linarith)
    exact mul_neg_of_pos_of_neg h this
  have c2 : R A b E' Y' s < 0 := by
    rw [o'.factor]
    have h : 0 < (s - r') * (s - s') := mul_pos_of_neg_of_neg (by linarith) (by linarith)
    exact mul_neg_of_pos_of_neg h hq
  have d1 := R_diff A b E Y E' Y' r'
  have d2 := R_diff A b E Y E' Y' s
  rw [o'.root] at d1
  rw [o.root_s] at d2
  have j := jac A b ((E + E') / 2) ((Y + Y') / 2) r' s
  have hj : 0 < (r' - s) * Br A b ((E + E') / 2) ((Y + Y') / 2) r' s := mul_pos (by linarith) hB
  rw [← j] at hj
  generalize al A b ((E + E') / 2) ((Y + Y') / 2) r' = α₁ at *
  generalize be A b ((E + E') / 2) ((Y + Y') / 2) r' = β₁ at *
  generalize al A b ((E + E') / 2) ((Y + Y') / 2) s = α₂ at *
  generalize be A b ((E + E') / 2) ((Y + Y') / 2) s = β₂ at *
  have hE : 0 < (α₁ * β₂ - β₁ * α₂) * (E' - E) := by
    have h1 : 0 < -R A b E Y r' * β₂ := mul_pos (by linarith) b2
    have h2 : 0 < -R A b E' Y' s * β₁ := mul_pos (by linarith) b1
    nlinarith
  have hY : 0 < (α₁ * β₂ - β₁ * α₂) * (Y' - Y) := by
    have h1 : 0 < -R A b E Y r' * α₂ := mul_pos (by linarith) a2
    have h2 : 0 < -R A b E' Y' s * α₁ := mul_pos (by linarith) a1
    nlinarith
  exact ⟨by linarith [(pos_iff_pos_of_mul_pos hE).mp hj], by linarith [(pos_iff_pos_of_mul_pos hY).mp hj]⟩

/-- **Larger `b`**: the turning points stay. -/
lemma step_b {A b b' r s E Y E' Y' : ℝ} (o : Orb A b r s E Y) (o' : Orb A b' r s E' Y') (hb : b < b')
    (hB : 0 < Br A b' ((E + E') / 2) ((Y + Y') / 2) r s)
    (hW : rh A ((b + b') / 2) E Y r * beD A b' ((E + E') / 2) ((Y + Y') / 2) r s
      - be A b' ((E + E') / 2) ((Y + Y') / 2) r * rhD A ((b + b') / 2) E Y r s < 0) : E' < E := by
  have d1 := R_diff A b' E Y E' Y' r
  have d2 := DR_diff A b' E Y E' Y' r s
  have f1 := R_diff_b A b b' E Y r
  have f2 := DR_diff_b A b b' E Y r s
  rw [o'.root] at d1
  rw [o'.root'] at d2
  rw [o.root] at f1
  rw [o.root'] at f2
  unfold Br at hB
  have g1 : al A b' ((E + E') / 2) ((Y + Y') / 2) r * (E' - E) - be A b' ((E + E') / 2) ((Y + Y') / 2) r * (Y' - Y)
      = -(rh A ((b + b') / 2) E Y r * (b' - b)) := by linarith
  have g2 : alD A b' ((E + E') / 2) ((Y + Y') / 2) r s * (E' - E)
        - beD A b' ((E + E') / 2) ((Y + Y') / 2) r s * (Y' - Y)
      = -(rhD A ((b + b') / 2) E Y r s * (b' - b)) := by linarith
  clear d1 d2 f1 f2
  generalize al A b' ((E + E') / 2) ((Y + Y') / 2) r = α₁ at *
  generalize be A b' ((E + E') / 2) ((Y + Y') / 2) r = β₁ at *
  generalize alD A b' ((E + E') / 2) ((Y + Y') / 2) r s = α₂ at *
  generalize beD A b' ((E + E') / 2) ((Y + Y') / 2) r s = β₂ at *
  generalize rh A ((b + b') / 2) E Y r = ρ₁ at *
  generalize rhD A ((b + b') / 2) E Y r s = ρ₂ at *
  have e : (β₁ * α₂ - α₁ * β₂) * (E' - E) = (ρ₁ * β₂ - β₁ * ρ₂) * (b' - b) := by
    linear_combination β₁ * g2 - β₂ * g1
  have h : (β₁ * α₂ - α₁ * β₂) * (E' - E) < 0 := by
    rw [e]; exact mul_neg_of_neg_of_pos hW (by linarith)
  have := (pos_iff_neg_of_mul_neg h).mp hB
  linarith

/-- A function that is continuous and increases to the right of every point increases. -/
lemma lt_of_local {f : ℝ → ℝ} {u v : ℝ} (huv : u < v) (hc : ContinuousOn f (Icc u v))
    (hl : ∀ t ∈ Ico u v, ∀ᶠ t' in 𝓝[>] t, f t < f t') : f u < f v := by
  have mono : ∀ w, u ≤ w → w < v → f w ≤ f v := by
    intro w huw hwv
    have hsub : Icc w v ⊆ {t | f w ≤ f t} := by
      have hcl : IsClosed ({t | f w ≤ f t} ∩ Icc w v) := by
        rw [inter_comm]
        exact (hc.mono (Icc_subset_Icc_left huw)).preimage_isClosed_of_isClosed isClosed_Icc isClosed_Ici
      refine hcl.Icc_subset_of_forall_mem_nhdsWithin (le_refl (f w)) ?_
      rintro t ⟨ht, ht1⟩
      have := hl t ⟨huw.trans ht1.1, ht1.2⟩
      filter_upwards [this] with t' h'
      exact le_trans ht h'.le
    exact hsub (right_mem_Icc.mpr hwv.le)
  have h1 := hl u ⟨le_rfl, huv⟩
  have h2 : ∀ᶠ t in 𝓝[>] u, t < v := mem_nhdsWithin_of_mem_nhds (Iio_mem_nhds huv)
  obtain ⟨t, ⟨h3, h4⟩, h5⟩ := ((h1.and h2).and self_mem_nhdsWithin).exists
  exact lt_of_lt_of_le h3 (mono t (le_of_lt h5) h4)

lemma al_cont {A : ℝ} : Continuous fun v : ℝ × ℝ × ℝ × ℝ => al A v.1 v.2.1 v.2.2.1 v.2.2.2 := by
  unfold al D; fun_prop
lemma be_cont {A : ℝ} : Continuous fun v : ℝ × ℝ × ℝ × ℝ => be A v.1 v.2.1 v.2.2.1 v.2.2.2 := by
  unfold be D; fun_prop
lemma Br_cont {A : ℝ} : Continuous fun v : ℝ × ℝ × ℝ × ℝ × ℝ => Br A v.1 v.2.1 v.2.2.1 v.2.2.2.1 v.2.2.2.2 := by
  unfold Br al be alD beD D; fun_prop
lemma q_cont {A b r s : ℝ} (hr : r ≠ 0) (hs : s ≠ 0) (E Y t : ℝ) :
    ContinuousAt (fun v : ℝ × ℝ × ℝ × ℝ => q A b v.1 v.2.1 v.2.2.1 v.2.2.2 t) (E, Y, r, s) := by
  have h : (E, Y, r, s).2.2.1 * (E, Y, r, s).2.2.2 ≠ 0 := mul_ne_zero hr hs
  unfold q
  fun_prop (disch := exact h)

/-- Locally, larger turning points belong to larger `E` and `Y`. -/
lemma local_turning {A b : ℝ} {r s E Y : ℝ → ℝ} {p : ℝ} (o : Orb A b (r p) (s p) (E p) (Y p))
    (o' : ∀ᶠ t in 𝓝[>] p, Orb A b (r t) (s t) (E t) (Y t) ∧ r p < r t ∧ s p < s t)
    (hr : Tendsto r (𝓝[>] p) (𝓝 (r p))) (hs : Tendsto s (𝓝[>] p) (𝓝 (s p)))
    (hE : Tendsto E (𝓝[>] p) (𝓝 (E p))) (hY : Tendsto Y (𝓝[>] p) (𝓝 (Y p))) :
    ∀ᶠ t in 𝓝[>] p, E p < E t ∧ Y p < Y t := by
  have mE : Tendsto (fun t => (E p + E t) / 2) (𝓝[>] p) (𝓝 (E p)) := by
    have := (hE.const_add (E p)).div_const 2
    rwa [add_self_div_two] at this
  have mY : Tendsto (fun t => (Y p + Y t) / 2) (𝓝[>] p) (𝓝 (Y p)) := by
    have := (hY.const_add (Y p)).div_const 2
    rwa [add_self_div_two] at this
  have cb : Tendsto (fun _ : ℝ => b) (𝓝[>] p) (𝓝 b) := tendsto_const_nhds
  have cs : Tendsto (fun _ : ℝ => s p) (𝓝[>] p) (𝓝 (s p)) := tendsto_const_nhds
  have t1 := (al_cont (A := A)).continuousAt.tendsto.comp (cb.prodMk_nhds (mE.prodMk_nhds (mY.prodMk_nhds hr)))
  have t2 := (be_cont (A := A)).continuousAt.tendsto.comp (cb.prodMk_nhds (mE.prodMk_nhds (mY.prodMk_nhds hr)))
  have t3 := (al_cont (A := A)).continuousAt.tendsto.comp (cb.prodMk_nhds (mE.prodMk_nhds (mY.prodMk_nhds cs)))
  have t4 := (be_cont (A := A)).continuousAt.tendsto.comp (cb.prodMk_nhds (mE.prodMk_nhds (mY.prodMk_nhds cs)))
  have t5 := (Br_cont (A := A)).continuousAt.tendsto.comp
    (cb.prodMk_nhds (mE.prodMk_nhds (mY.prodMk_nhds (hr.prodMk_nhds cs))))
  have hr0 : r p ≠ 0 := by linarith [o.hs, o.hsr]
  have hs0 : s p ≠ 0 := by linarith [o.hs]
  have t6 := (q_cont (A := A) (b := b) hr0 hs0 (E p) (Y p) (s p)).tendsto.comp
    (hE.prodMk_nhds (hY.prodMk_nhds (hr.prodMk_nhds hs)))
  have e1 := t1.eventually (lt_mem_nhds o.al_r)
  have e2 := t2.eventually (lt_mem_nhds o.be_r)
  have e3 := t3.eventually (lt_mem_nhds o.al_s)
  have e4 := t4.eventually (lt_mem_nhds o.be_s)
  have e5 := t5.eventually (lt_mem_nhds o.Br_pos)
  have e6 := t6.eventually (gt_mem_nhds (o.hq (s p) le_rfl))
  filter_upwards [o', e1, e2, e3, e4, e5, e6] with t ⟨h1, h2, h3⟩ k1 k2 k3 k4 k5 k6
  exact step o h1 h2 h3 k6 k1 k2 k3 k4 k5

lemma W_cont {A : ℝ} : Continuous fun v : ℝ × ℝ × ℝ × ℝ × ℝ × ℝ × ℝ × ℝ =>
    rh A v.1 v.2.1 v.2.2.1 v.2.2.2.1 * beD A v.2.2.2.2.1 v.2.2.2.2.2.1 v.2.2.2.2.2.2.1 v.2.2.2.1 v.2.2.2.2.2.2.2
      - be A v.2.2.2.2.1 v.2.2.2.2.2.1 v.2.2.2.2.2.2.1 v.2.2.2.1 * rhD A v.1 v.2.1 v.2.2.1 v.2.2.2.1 v.2.2.2.2.2.2.2 := by
  unfold rh beD be rhD D; fun_prop

/-- Locally, a larger `b` belongs to a smaller `E`. -/
lemma local_b {A r s : ℝ} {b E Y : ℝ → ℝ} {x : ℝ} (o : Orb A (b x) r s (E x) (Y x))
    (o' : ∀ᶠ t in 𝓝[>] x, Orb A (b t) r s (E t) (Y t) ∧ b x < b t)
    (hb : Tendsto b (𝓝[>] x) (𝓝 (b x)))
    (hE : Tendsto E (𝓝[>] x) (𝓝 (E x))) (hY : Tendsto Y (𝓝[>] x) (𝓝 (Y x))) :
    ∀ᶠ t in 𝓝[>] x, E t < E x := by
  have mE : Tendsto (fun t => (E x + E t) / 2) (𝓝[>] x) (𝓝 (E x)) := by
    have := (hE.const_add (E x)).div_const 2
    rwa [add_self_div_two] at this
  have mY : Tendsto (fun t => (Y x + Y t) / 2) (𝓝[>] x) (𝓝 (Y x)) := by
    have := (hY.const_add (Y x)).div_const 2
    rwa [add_self_div_two] at this
  have mb : Tendsto (fun t => (b x + b t) / 2) (𝓝[>] x) (𝓝 (b x)) := by
    have := (hb.const_add (b x)).div_const 2
    rwa [add_self_div_two] at this
  have cc : ∀ c : ℝ, Tendsto (fun _ : ℝ => c) (𝓝[>] x) (𝓝 c) := fun c => tendsto_const_nhds
  have t5 := (Br_cont (A := A)).continuousAt.tendsto.comp
    (hb.prodMk_nhds (mE.prodMk_nhds (mY.prodMk_nhds ((cc r).prodMk_nhds (cc s)))))
  have t6 := (W_cont (A := A)).continuousAt.tendsto.comp
    (mb.prodMk_nhds ((cc (E x)).prodMk_nhds ((cc (Y x)).prodMk_nhds ((cc r).prodMk_nhds
      (hb.prodMk_nhds (mE.prodMk_nhds (mY.prodMk_nhds (cc s))))))))
  have e5 := t5.eventually (lt_mem_nhds o.Br_pos)
  have hneg : rh A (b x) (E x) (Y x) r * beD A (b x) (E x) (Y x) r s
      - be A (b x) (E x) (Y x) r * rhD A (b x) (E x) (Y x) r s < 0 := by
    rw [rb_orbit]
    have h1 := o.W_pos
    have h2 := o.E2
    have h3 := o.hY
    have h4 : 0 ≤ b x ^ 2 * (1 - E x ^ 2) := mul_nonneg (sq_nonneg _) (by linarith)
    have h5 : 0 < b x ^ 2 * (1 - E x ^ 2) + Y x ^ 2 := by positivity
    linarith [mul_pos h5 h1]
  have e6 := t6.eventually (gt_mem_nhds hneg)
  filter_upwards [o', e5, e6] with t ⟨h1, h2⟩ k5 k6
  exact step_b o h1 h2 k5 k6

end KGP.EMono
