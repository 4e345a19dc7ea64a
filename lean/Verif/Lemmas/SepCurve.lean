import Verif.Lemmas.SepMono
import Mathlib.Analysis.Calculus.MeanValue

/-!
# The prograde separatrix polynomial has at most one zero between `1 + e` and 4

The separatrix polynomial is written in terms of the four roots `ρ r, r, r, q r` of the radial potential of
a marginal orbit (`r = p/(1+e)`, `ρ = (1+e)/(1-e)`).  It is quadratic in `a²` with an explicit prograde root
`Af`, and `Af` is monotone along the curve of fixed `a² (1 - x²)`.
-/

namespace KGP.SepCurve

open Real

/-- The separatrix polynomial in terms of the roots, homogeneous in `(d, n)`; `n/d` is the ratio of the
innermost root and the double root. -/
def Sh (A r ρ d n : ℝ) : ℝ :=
  (A * ((ρ * d + n + 2 * d) * r - 4 * d) + 2 * r ^ 2 * (d + 2 * (ρ * d + n) + ρ * n)
      - r ^ 3 * (ρ * d + n + 2 * (ρ * n))) ^ 2
    - 8 * ((ρ * d + n + 2 * d) * r - 2 * d)
      * (r ^ 2 * A * (d + 2 * (ρ * d + n) + ρ * n) - d * A ^ 2 - r ^ 4 * (ρ * n))

open SepCert in
lemma S_eq {p A e w ρ c r u : ℝ} (hc : 1 - e = c) (hf : 1 + e = ρ * c) (hp : p = ρ * c * r)
    (hu : A * w = u * r ^ 2) :
    N p A e w ^ 2 - 8 * A * (1 - w) * (M1 p A e w * M2 p A e w)
      = (ρ ^ 2 * c ^ 3) ^ 4 * r ^ 6 * Sh A r ρ (ρ - u * (ρ + 2)) (u * (2 * ρ + 1 - u)) := by
  have hK : K e = ρ ^ 2 * c ^ 3 := by unfold K; rw [hc, hf]; ring
  have hg : g e = (ρ + 2) * ρ * c ^ 2 := by
    unfold g; rw [hf, show 3 - e = ρ * c + 2 * c by linarith]; ring
  have h3 : 3 + e = 2 * ρ * c + c := by linarith
  have hD : D p A e w = ρ ^ 2 * c ^ 3 * r ^ 3 * (ρ - u * (ρ + 2)) := by
    unfold D; rw [hu, hg, hp]; ring
  have hB : B p A e w = ρ ^ 2 * c ^ 3 * r ^ 2 * (2 * ρ + 1 - u) := by
    unfold B; rw [mul_assoc (K e), hu, hK, h3, hp]; ring
  have hM1 : M1 p A e w = (ρ ^ 2 * c ^ 3) ^ 2 * r ^ 3
      * ((ρ * (ρ - u * (ρ + 2)) + u * (2 * ρ + 1 - u) + 2 * (ρ - u * (ρ + 2))) * r
        - 2 * (ρ - u * (ρ + 2))) := by
    unfold M1; rw [mul_assoc (K e), hu, hD, hB, hg, hK, hp]; ring
  have hM2 : M2 p A e w = (ρ ^ 2 * c ^ 3) ^ 2 * r ^ 3
      * (ρ * r ^ 2 * (2 * ρ + 1 - u) - A * (ρ - u * (ρ + 2))) := by
    unfold M2; rw [hD, hB, hK, hp]; ring
  have hN : N p A e w = (ρ ^ 2 * c ^ 3) ^ 2 * r ^ 3
      * (A * ((ρ * (ρ - u * (ρ + 2)) + u * (2 * ρ + 1 - u) + 2 * (ρ - u * (ρ + 2))) * r
          - 4 * (ρ - u * (ρ + 2)))
        + 2 * r ^ 2 * (ρ - u * (ρ + 2) + 2 * (ρ * (ρ - u * (ρ + 2)) + u * (2 * ρ + 1 - u))
          + ρ * (u * (2 * ρ + 1 - u)))
        - r ^ 3 * (ρ * (ρ - u * (ρ + 2)) + u * (2 * ρ + 1 - u)
          + 2 * (ρ * (u * (2 * ρ + 1 - u))))) := by
    unfold N G H; rw [hu, hD, hB, hg, hK, h3, hp]; ring
  rw [show 8 * A * (1 - w) = 8 * (A - A * w) by ring, hu, hM1, hM2, hN]
  unfold Sh
  ring

/-! ### No zero where the innermost root would exceed the double root -/

lemma Sh_at_one (A r ρ d n : ℝ) : Sh A r ρ d n =
    r ^ 2 * (r - 1) ^ 2 * (((ρ * d + n) * (r - 1) + 2 * (ρ * n) * r + 2 * d) ^ 2
        - 4 * (ρ * d + n) * ((ρ * d + n) * r + 2 * d * (r - 1)))
    + (1 - A) * (2 * r ^ 2 * (-((ρ * d + n + 2 * d) ^ 2
        - 2 * r * (d + 2 * (ρ * d + n) + ρ * n) * (ρ * d + n + 2 * d)
        - r ^ 2 * (ρ * d + n + 2 * d) * (ρ * d + n + 2 * (ρ * n))
        + 4 * r * d * (ρ * d + n + 2 * (ρ * n)))))
    + (1 - A) ^ 2 * ((ρ * d + n + 2 * d) ^ 2 * r ^ 2) := by
  unfold Sh; ring

/-- The first term. -/
lemma bracket_nonneg {g P d r : ℝ} (hr : 1 ≤ r) (hg : 0 ≤ g) (hP : 0 ≤ P) (h1 : g ≤ P + d) (h2 : d ≤ P) :
    0 ≤ (g * (r - 1) + 2 * P * r + 2 * d) ^ 2 - 4 * g * (g * r + 2 * d * (r - 1)) := by
  obtain ⟨t, ht⟩ : ∃ t, t = r - 1 := ⟨_, rfl⟩
  obtain rfl : r = 1 + t := by linarith
  have ht0 : 0 ≤ t := by linarith
  have k0 : 0 ≤ (P + d) ^ 2 - g ^ 2 := by nlinarith
  have k1 : 0 ≤ g * (P + d - g) + 2 * P * (P + d - g) + 2 * g * (P - d) := by
    have := mul_nonneg hg (sub_nonneg.mpr h1)
    have := mul_nonneg hP (sub_nonneg.mpr h1)
    have := mul_nonneg hg (sub_nonneg.mpr h2)
    linarith
  have : (g * (1 + t - 1) + 2 * P * (1 + t) + 2 * d) ^ 2 - 4 * g * (g * (1 + t) + 2 * d * (1 + t - 1))
      = 4 * ((P + d) ^ 2 - g ^ 2)
        + 4 * t * (g * (P + d - g) + 2 * P * (P + d - g) + 2 * g * (P - d))
        + t ^ 2 * (g + 2 * P) ^ 2 := by ring
  rw [this]
  positivity

lemma FR_nonpos {ρ u g P d : ℝ} (hρ : 1 ≤ ρ) (hu : 0 ≤ u) (hu1 : u ≤ 1) (hd : d = ρ - u * (ρ + 2))
    (hg : g = (1 - u) * (ρ ^ 2 + u)) (hP : P = ρ * (u * (2 * ρ + 1 - u))) :
    4 * u ^ 2 * (g + 2 * d) ^ 2 - 4 * u * (1 + u) * (d + 2 * g + P) * (g + 2 * d)
      - (1 + u) ^ 2 * (g + 2 * d) * (g + 2 * P) + 8 * u * (1 + u) * d * (g + 2 * P) ≤ 0 := by
  obtain ⟨a, ha⟩ : ∃ a, a = ρ - 1 := ⟨_, rfl⟩
  obtain rfl : ρ = 1 + a := by linarith
  have ha0 : 0 ≤ a := by linarith
  have hv : 0 ≤ 1 - u := by linarith
  have c0 : 0 ≤ 3 + 49 * u - 74 * u ^ 2 + 26 * u ^ 3 + 7 * u ^ 4 - 11 * u ^ 5 := by
    nlinarith [mul_nonneg hu hv, mul_nonneg (mul_nonneg hu hu) hv, mul_nonneg (mul_nonneg hu hv) (sq_nonneg u),
      mul_nonneg (mul_nonneg hu hv) (mul_nonneg hu hv), mul_nonneg hv (mul_nonneg hv hv)]
  have c1 : 0 ≤ 10 + 146 * u - 108 * u ^ 2 + 20 * u ^ 3 + 2 * u ^ 4 - 6 * u ^ 5 := by
    nlinarith [mul_nonneg hu hv, mul_nonneg (mul_nonneg hu hu) hv, mul_nonneg (mul_nonneg hu hv) (sq_nonneg u),
      mul_nonneg (mul_nonneg hu hv) (mul_nonneg hu hv), mul_nonneg hu (mul_nonneg (sq_nonneg u) (mul_nonneg hu hv))]
  have c2 : 0 ≤ 12 + 160 * u - 16 * u ^ 2 + 16 * u ^ 3 - 12 * u ^ 4 := by
    nlinarith [mul_nonneg hu hv, mul_nonneg (mul_nonneg hu hu) hv, mul_nonneg (mul_nonneg hu hv) (sq_nonneg u)]
  have c3 : 0 ≤ 6 + 76 * u + 32 * u ^ 2 + 20 * u ^ 3 - 6 * u ^ 4 := by
    nlinarith [mul_nonneg hu hv, mul_nonneg (mul_nonneg hu hu) hv, mul_nonneg (mul_nonneg hu hv) (sq_nonneg u)]
  have c4 : 0 ≤ 1 + 13 * u + 11 * u ^ 2 + 7 * u ^ 3 := by positivity
  have e : 4 * u ^ 2 * (g + 2 * d) ^ 2 - 4 * u * (1 + u) * (d + 2 * g + P) * (g + 2 * d)
      - (1 + u) ^ 2 * (g + 2 * d) * (g + 2 * P) + 8 * u * (1 + u) * d * (g + 2 * P)
      = -((1 - u) * ((3 + 49 * u - 74 * u ^ 2 + 26 * u ^ 3 + 7 * u ^ 4 - 11 * u ^ 5)
        + a * (10 + 146 * u - 108 * u ^ 2 + 20 * u ^ 3 + 2 * u ^ 4 - 6 * u ^ 5)
        + a ^ 2 * (12 + 160 * u - 16 * u ^ 2 + 16 * u ^ 3 - 12 * u ^ 4)
        + a ^ 3 * (6 + 76 * u + 32 * u ^ 2 + 20 * u ^ 3 - 6 * u ^ 4)
        + a ^ 4 * (1 + 13 * u + 11 * u ^ 2 + 7 * u ^ 3))) := by
    rw [hd, hg, hP]; ring
  rw [e, neg_nonpos]
  exact mul_nonneg hv (by positivity)

/-- The second term. -/
lemma slope_nonpos {ρ u g P d r : ℝ} (hρ : 1 ≤ ρ) (hu : 0 < u) (hr : 1 ≤ r) (hur : u * r ^ 2 < 1)
    (hd : d = ρ - u * (ρ + 2)) (hg : g = (1 - u) * (ρ ^ 2 + u)) (hP : P = ρ * (u * (2 * ρ + 1 - u)))
    (hP0 : 0 ≤ P) (hgP : g ≤ P + d) (h4 : 0 ≤ d → 4 * d ≤ g + 2 * d) :
    (g + 2 * d) ^ 2 - 2 * r * (d + 2 * g + P) * (g + 2 * d) - r ^ 2 * (g + 2 * d) * (g + 2 * P)
      + 4 * r * d * (g + 2 * P) ≤ 0 := by
  have hu1 : u < 1 := by nlinarith
  have hg0 : 0 ≤ g := by rw [hg]; exact mul_nonneg (by linarith) (by positivity)
  rcases le_or_gt 0 (g + 2 * d) with hk | hk
  · have hε : 0 ≤ d + 2 * g + P := by linarith
    have h1 : (g + 2 * d) ^ 2 ≤ 2 * r * (d + 2 * g + P) * (g + 2 * d) := by
      have : g + 2 * d ≤ 2 * r * (d + 2 * g + P) := by nlinarith
      nlinarith
    have h2 : 4 * r * d * (g + 2 * P) ≤ r ^ 2 * (g + 2 * d) * (g + 2 * P) := by
      have : 4 * r * d ≤ r ^ 2 * (g + 2 * d) := by
        rcases le_or_gt 0 d with h | h
        · have h5 := h4 h
          have : r * (4 * d) ≤ r * (g + 2 * d) := mul_le_mul_of_nonneg_left h5 (by linarith)
          have : 0 ≤ (r - 1) * (r * (g + 2 * d)) := by
            apply mul_nonneg (by linarith); positivity
          nlinarith
        · have : 0 ≤ r ^ 2 * (g + 2 * d) := by positivity
          nlinarith
      exact mul_le_mul_of_nonneg_right this (by linarith)
    linarith
  · -- convexity in `r` between 1 and `(1 + u)/(2u)`
    have hFR := FR_nonpos hρ hu.le hu1.le hd hg hP
    have hF1 : (g + 2 * d) ^ 2 - 2 * (d + 2 * g + P) * (g + 2 * d) - (g + 2 * d) * (g + 2 * P)
      + 4 * d * (g + 2 * P) ≤ 0 := by
      have : (g + 2 * d) ^ 2 - 2 * (d + 2 * g + P) * (g + 2 * d) - (g + 2 * d) * (g + 2 * P)
        + 4 * d * (g + 2 * P) = -(4 * g * (g + P + d)) := by ring
      rw [this, neg_nonpos]
      exact mul_nonneg (by linarith) (by linarith)
    have hR : 0 ≤ 1 + u - 2 * u * r := by nlinarith [mul_nonneg hu.le (sq_nonneg (r - 1))]
    have hκ : 0 ≤ -(g + 2 * d) * (g + 2 * P) := mul_nonneg (by linarith) (by linarith)
    obtain ⟨F1, hF1d⟩ : ∃ F, F = (g + 2 * d) ^ 2 - 2 * (d + 2 * g + P) * (g + 2 * d)
      - (g + 2 * d) * (g + 2 * P) + 4 * d * (g + 2 * P) := ⟨_, rfl⟩
    obtain ⟨F2, hF2d⟩ : ∃ F, F = 4 * u ^ 2 * (g + 2 * d) ^ 2 - 4 * u * (1 + u) * (d + 2 * g + P) * (g + 2 * d)
      - (1 + u) ^ 2 * (g + 2 * d) * (g + 2 * P) + 8 * u * (1 + u) * d * (g + 2 * P) := ⟨_, rfl⟩
    have key : 2 * u * (1 - u) * ((g + 2 * d) ^ 2 - 2 * r * (d + 2 * g + P) * (g + 2 * d)
      - r ^ 2 * (g + 2 * d) * (g + 2 * P) + 4 * r * d * (g + 2 * P))
      = 2 * u * ((1 + u - 2 * u * r) * F1) + (r - 1) * F2
        - (-(g + 2 * d) * (g + 2 * P)) * ((1 - u) * ((r - 1) * (1 + u - 2 * u * r))) := by
      rw [hF1d, hF2d]; ring
    rw [← hF1d] at hF1
    rw [← hF2d] at hFR
    have k1 : (1 + u - 2 * u * r) * F1 ≤ 0 := mul_nonpos_of_nonneg_of_nonpos hR hF1
    have k2 : (r - 1) * F2 ≤ 0 := mul_nonpos_of_nonneg_of_nonpos (by linarith) hFR
    have k3 : 0 ≤ (-(g + 2 * d) * (g + 2 * P)) * ((1 - u) * ((r - 1) * (1 + u - 2 * u * r))) :=
      mul_nonneg hκ (mul_nonneg (by linarith) (mul_nonneg (by linarith) hR))
    have k4 : 2 * u * ((1 + u - 2 * u * r) * F1) ≤ 0 := mul_nonpos_of_nonneg_of_nonpos (by linarith) k1
    have h0 : 0 < 2 * u * (1 - u) := mul_pos (by linarith) (by linarith)
    by_contra hcon
    have := mul_pos h0 (not_le.mp hcon)
    linarith

/-- Outside `r = 1` there is no zero with innermost root at or above the double root. -/
lemma Sh_pos {A ρ u r : ℝ} (hρ : 1 ≤ ρ) (hr : 1 ≤ r) (hA : A < 1) (hu : 0 < u) (hur : u * r ^ 2 ≤ A)
    (h : ρ - u * (ρ + 2) ≤ u * (2 * ρ + 1 - u)) :
    0 < Sh A r ρ (ρ - u * (ρ + 2)) (u * (2 * ρ + 1 - u)) := by
  have hu1 : u < 1 := by nlinarith
  obtain ⟨d, hd⟩ : ∃ d, d = ρ - u * (ρ + 2) := ⟨_, rfl⟩
  obtain ⟨n, hn⟩ : ∃ n, n = u * (2 * ρ + 1 - u) := ⟨_, rfl⟩
  have hn0 : 0 < n := by rw [hn]; exact mul_pos hu (by linarith)
  obtain ⟨g, hg⟩ : ∃ g, g = ρ * d + n := ⟨_, rfl⟩
  obtain ⟨P, hP⟩ : ∃ P, P = ρ * n := ⟨_, rfl⟩
  rw [← hd, ← hn] at h ⊢
  have hg' : g = (1 - u) * (ρ ^ 2 + u) := by rw [hg, hd, hn]; ring
  have hg0 : 0 < g := by rw [hg']; exact mul_pos (by linarith) (by positivity)
  have hPn : n ≤ P := by rw [hP]; nlinarith
  have hgP : g ≤ P + d := by
    have : P + d - g = (ρ - 1) * (n - d) := by rw [hP, hg]; ring
    have : 0 ≤ (ρ - 1) * (n - d) := mul_nonneg (by linarith) (by linarith)
    linarith
  have hs := slope_nonpos hρ hu hr (by linarith) hd hg' (by rw [hP, hn]) (by linarith) hgP (by
    intro h0; rw [hg]; nlinarith)
  have hb := bracket_nonneg hr hg0.le (by linarith : 0 ≤ P) hgP (by linarith)
  rw [Sh_at_one, ← hg, ← hP]
  have hA' : 0 < 1 - A := by linarith
  have t1 : 0 ≤ r ^ 2 * (r - 1) ^ 2 * ((g * (r - 1) + 2 * P * r + 2 * d) ^ 2
        - 4 * g * (g * r + 2 * d * (r - 1))) := mul_nonneg (by positivity) hb
  by_cases hk : g + 2 * d = 0
  · have hd0 : d < 0 := by linarith
    rw [hk] at hs ⊢
    have : 4 * r * d * (g + 2 * P) < 0 := by
      have : 0 < g + 2 * P := by linarith
      have : 4 * r * d < 0 := by nlinarith
      nlinarith
    have : 0 < (1 - A) * (2 * r ^ 2 * (-(4 * r * d * (g + 2 * P)))) := by
      apply mul_pos hA'
      exact mul_pos (by positivity) (by linarith)
    nlinarith
  · have t2 : 0 ≤ (1 - A) * (2 * r ^ 2 * (-((g + 2 * d) ^ 2
        - 2 * r * (d + 2 * g + P) * (g + 2 * d) - r ^ 2 * (g + 2 * d) * (g + 2 * P)
        + 4 * r * d * (g + 2 * P)))) :=
      mul_nonneg hA'.le (mul_nonneg (by positivity) (by linarith))
    have t3 : 0 < (1 - A) ^ 2 * ((g + 2 * d) ^ 2 * r ^ 2) := by positivity
    linarith

/-! ### The explicit prograde root -/

/-- `P` in the notes: the rational part -/
def Pf (ρ q r : ℝ) : ℝ :=
  (ρ + q + 2 * (ρ * q)) * ((ρ + q + 2) * r - 2) + 2 * (2 * (ρ + q + 1) ^ 2 + ρ * q * (ρ + q))

/-- the radicand -/
def hf (ρ q r : ℝ) : ℝ := (ρ + q) * ((ρ + q + 2) * r - 2)

/-- The value of `a²` for which a marginal prograde orbit has roots proportional to `ρ, 1, 1, q`. -/
noncomputable def Af (ρ q r : ℝ) : ℝ :=
  r * (Pf ρ q r - 4 * (1 + (ρ + q) + ρ * q) * √(hf ρ q r)) / (ρ + q + 2) ^ 2

lemma Sh_dehom {A r ρ d n : ℝ} (hd : d ≠ 0) : Sh A r ρ d n = d ^ 2 * Sh A r ρ 1 (n / d) := by
  unfold Sh; field_simp

lemma Sh_square (A r ρ q : ℝ) : (ρ + q + 2) ^ 2 * Sh A r ρ 1 q
    = r ^ 2 * (((ρ + q + 2) ^ 2 * A - r * Pf ρ q r) ^ 2
      - r ^ 2 * (16 * (1 + (ρ + q) + ρ * q) ^ 2 * hf ρ q r)) := by
  unfold Sh Pf hf; ring

section
variable {A r ρ q : ℝ} (hρ : 1 ≤ ρ) (hq : 0 ≤ q) (hr : 1 ≤ r) (hA : A ≤ 1)
include hρ hq hr

lemma hf_pos : 0 < hf ρ q r := by
  unfold hf
  refine mul_pos (by linarith) ?_
  nlinarith

include hA

lemma branch : (ρ + q + 2) ^ 2 * A - r * Pf ρ q r < 0 := by
  have h1 : (ρ + q + 2) ^ 2 * A ≤ (ρ + q + 2) ^ 2 := by nlinarith [sq_nonneg (ρ + q + 2)]
  have h2 : (ρ + q + 2) ^ 2 < 4 * (ρ + q + 1) ^ 2 := by nlinarith
  have h3 : 4 * (ρ + q + 1) ^ 2 ≤ Pf ρ q r := by
    unfold Pf
    have : 0 ≤ (ρ + q + 2 * (ρ * q)) * ((ρ + q + 2) * r - 2) := mul_nonneg (by positivity) (by nlinarith)
    have : 0 ≤ ρ * q * (ρ + q) := by positivity
    linarith
  nlinarith

lemma le_Af (h : 0 ≤ Sh A r ρ 1 q) : A ≤ Af ρ q r := by
  have hb := branch hρ hq hr hA
  have hh := hf_pos hρ hq hr
  have hs := Real.sq_sqrt hh.le
  have hs0 := Real.sqrt_nonneg (hf ρ q r)
  have e := Sh_square A r ρ q
  have hκ : 0 < (ρ + q + 2) ^ 2 := by positivity
  have h1 : 0 ≤ r ^ 2 * (((ρ + q + 2) ^ 2 * A - r * Pf ρ q r) ^ 2
      - r ^ 2 * (16 * (1 + (ρ + q) + ρ * q) ^ 2 * hf ρ q r)) := by rw [← e]; positivity
  have h2 := nonneg_of_mul_nonneg_right h1 (by positivity : 0 < r ^ 2)
  rw [Af, le_div_iff₀ hκ]
  have h3 : (4 * r * (1 + (ρ + q) + ρ * q) * √(hf ρ q r)) ^ 2
      ≤ (-((ρ + q + 2) ^ 2 * A - r * Pf ρ q r)) ^ 2 := by
    rw [mul_pow, hs]; linarith
  have h4 := abs_le_of_sq_le_sq' h3 (by linarith)
  linarith [h4.2]

lemma eq_Af (h : Sh A r ρ 1 q = 0) : A = Af ρ q r := by
  have hb := branch hρ hq hr hA
  have hh := hf_pos hρ hq hr
  have hs := Real.sq_sqrt hh.le
  have hs0 := Real.sqrt_nonneg (hf ρ q r)
  have e := Sh_square A r ρ q
  have hκ : 0 < (ρ + q + 2) ^ 2 := by positivity
  rw [h, mul_zero] at e
  have h2 := (mul_eq_zero.mp e.symm).resolve_left (by positivity)
  rw [Af, eq_div_iff hκ.ne']
  have h3 : (4 * r * (1 + (ρ + q) + ρ * q) * √(hf ρ q r)) ^ 2
      = (-((ρ + q + 2) ^ 2 * A - r * Pf ρ q r)) ^ 2 := by
    rw [mul_pow, hs]; linarith
  rcases sq_eq_sq_iff_eq_or_eq_neg.mp h3 with h4 | h4
  · linarith
  · have : 0 ≤ 4 * r * (1 + (ρ + q) + ρ * q) * √(hf ρ q r) := by positivity
    linarith

end

/-- The scaled square root. -/
noncomputable def kf (ρ q r : ℝ) : ℝ := √(hf ρ q r) / (ρ + q)

def q2 (g P k : ℝ) : ℝ := (g + 2 * P) * g * k ^ 2 - g * (3 + 2 * g + P) * k + 2 * (1 + g + P)
def a3 (g P k : ℝ) : ℝ := g * (g + 2 * P) * k ^ 2 - 2 * g * (g + 2) * k + (4 + 2 * g - g ^ 2 + 4 * P)

lemma kf_spec {ρ q r : ℝ} (hg : 0 < ρ + q) (hh : 0 ≤ hf ρ q r) :
    (ρ + q) * kf ρ q r ^ 2 = (ρ + q + 2) * r - 2 := by
  unfold kf
  rw [div_pow, Real.sq_sqrt hh]
  unfold hf
  field_simp

lemma Af_kf {ρ q r : ℝ} (hg : 0 < ρ + q) (hh : 0 ≤ hf ρ q r) :
    Af ρ q r - 1 = (kf ρ q r - 1) ^ 2 * (ρ + q) * a3 (ρ + q) (ρ * q) (kf ρ q r) / (ρ + q + 2) ^ 3 := by
  have hk := kf_spec hg hh
  have hs : √(hf ρ q r) = (ρ + q) * kf ρ q r := by unfold kf; field_simp
  unfold Af Pf a3
  rw [hs, ← hk]
  generalize kf ρ q r = k at *
  generalize ρ * q = P at *
  generalize ρ + q = g at *
  have hr : r = (g * k ^ 2 + 2) / (g + 2) := by field_simp; linarith
  rw [hr]
  field_simp
  ring

lemma hasDerivAt_Af {ρ : ℝ} {q r : ℝ → ℝ} {q' r' t : ℝ} (hg : 0 < ρ + q t) (hh : 0 < hf ρ (q t) (r t))
    (hq : HasDerivAt q q' t) (hr : HasDerivAt r r' t) :
    HasDerivAt (fun t => Af ρ (q t) (r t))
      (2 * (kf ρ (q t) (r t) - 1) * q2 (ρ + q t) (ρ * q t) (kf ρ (q t) (r t))
          / ((ρ + q t + 2) ^ 2 * kf ρ (q t) (r t)) * r'
        + 2 * r t * (kf ρ (q t) (r t) - 1) ^ 2 * (1 + ρ)
          * ((1 + ρ) * (ρ + q t) * kf ρ (q t) (r t) - 2 * (1 + q t))
          / ((ρ + q t + 2) ^ 3 * kf ρ (q t) (r t)) * q') t := by
  have hk := kf_spec hg hh.le
  have hs : √(hf ρ (q t) (r t)) = (ρ + q t) * kf ρ (q t) (r t) := by unfold kf; field_simp
  have hk0 : 0 < kf ρ (q t) (r t) := div_pos (Real.sqrt_pos.mpr hh) hg
  have dg : HasDerivAt (fun t => ρ + q t) q' t := hq.const_add ρ
  have dκ : HasDerivAt (fun t => ρ + q t + 2) q' t := dg.add_const 2
  have dP : HasDerivAt (fun t => ρ * q t) (ρ * q') t := hq.const_mul ρ
  have dm := (dκ.mul hr).sub_const (2 : ℝ)
  have dh := dg.mul dm
  have dsq := dh.sqrt (by simpa [hf] using hh.ne')
  have dPf := ((dg.add (dP.const_mul 2)).mul dm).add
    ((((dg.add_const 1).pow 2).const_mul 2).add (dP.mul dg) |>.const_mul 2)
  have dsig := ((dg.const_add 1).add dP).const_mul 4
  have dall := (hr.mul (dPf.sub (dsig.mul dsq))).div (dκ.pow 2) (pow_ne_zero 2 (ne_of_gt (by linarith)))
  refine dall.congr_deriv ?_
  have hs' : √((ρ + q t) * ((ρ + q t + 2) * r t - 2)) = (ρ + q t) * kf ρ (q t) (r t) := hs
  simp only [Pi.add_apply, Pi.mul_apply, Pi.sub_apply, Pi.pow_apply] 
  rw [hs', ← hk]
  unfold q2
  generalize kf ρ (q t) (r t) = k at *
  generalize q t = q at *
  generalize r t = r at *
  have hr : r = ((ρ + q) * k ^ 2 + 2) / ((ρ + q) + 2) := by field_simp; linarith
  rw [hr]
  clear dall dsig dPf dsq dh dm dP dκ dg hh hr hs hs'
  field_simp
  ring

/-! ### Polynomial inequalities -/

lemma ab_one {ρ q : ℝ} (hρ : 1 ≤ ρ) (h0 : (9 / 50) ≤ q) (h1 : q ≤ 1) :
    (-2 * q ^ 2 + q ^ 3 - ρ * q ^ 2 + 2 * ρ * q ^ 3 + 2 * ρ ^ 2 - ρ ^ 2 * q + ρ ^ 3 - 2 * ρ ^ 3 * q)
      + (4 * q + 4 * q ^ 2 - q ^ 3 - 4 * ρ + 5 * ρ * q ^ 2 - 4 * ρ ^ 2 - 3 * ρ ^ 2 * q - ρ ^ 3) ≤ 0 := by
  obtain ⟨a, ha⟩ : ∃ a, a = ρ - 1 := ⟨_, rfl⟩
  obtain rfl : ρ = 1 + a := by linarith
  have ha0 : 0 ≤ a := by linarith
  have k0 : 0 ≤ q - (9 / 50) := by linarith
  have k1 : 0 ≤ 1 - q := by linarith
  have key : 0 ≤ (18762 / 1681) * (1 - q) ^ 3
        + (55400 / 1681) * (q - (9 / 50)) ^ 1 * (1 - q) ^ 2
        + (40000 / 1681) * (q - (9 / 50)) ^ 2 * (1 - q) ^ 1
        + (1297342 / 68921) * a ^ 1 * (1 - q) ^ 3
        + (5159500 / 68921) * a ^ 1 * (q - (9 / 50)) ^ 1 * (1 - q) ^ 2
        + (6000000 / 68921) * a ^ 1 * (q - (9 / 50)) ^ 2 * (1 - q) ^ 1
        + (2000000 / 68921) * a ^ 1 * (q - (9 / 50)) ^ 3
        + (475000 / 68921) * a ^ 2 * (1 - q) ^ 3
        + (2450000 / 68921) * a ^ 2 * (q - (9 / 50)) ^ 1 * (1 - q) ^ 2
        + (3475000 / 68921) * a ^ 2 * (q - (9 / 50)) ^ 2 * (1 - q) ^ 1
        + (1500000 / 68921) * a ^ 2 * (q - (9 / 50)) ^ 3
        + (45000 / 68921) * a ^ 3 * (1 - q) ^ 3
        + (340000 / 68921) * a ^ 3 * (q - (9 / 50)) ^ 1 * (1 - q) ^ 2
        + (545000 / 68921) * a ^ 3 * (q - (9 / 50)) ^ 2 * (1 - q) ^ 1
        + (250000 / 68921) * a ^ 3 * (q - (9 / 50)) ^ 3 := by positivity
  linarith only [key]

lemma ab_s {ρ q : ℝ} (hρ : 1 ≤ ρ) (h0 : (9 / 50) ≤ q) (h1 : q ≤ 1) :
    (-2 * q ^ 2 + q ^ 3 - ρ * q ^ 2 + 2 * ρ * q ^ 3 + 2 * ρ ^ 2 - ρ ^ 2 * q + ρ ^ 3 - 2 * ρ ^ 3 * q) * (3 / 2 * ρ + 17 / 10)
      + (4 * q + 4 * q ^ 2 - q ^ 3 - 4 * ρ + 5 * ρ * q ^ 2 - 4 * ρ ^ 2 - 3 * ρ ^ 2 * q - ρ ^ 3) * ρ ≤ 0 := by
  obtain ⟨a, ha⟩ : ∃ a, a = ρ - 1 := ⟨_, rfl⟩
  obtain rfl : ρ = 1 + a := by linarith
  have ha0 : 0 ≤ a := by linarith
  have k0 : 0 ≤ q - (9 / 50) := by linarith
  have k1 : 0 ≤ 1 - q := by linarith
  have key : 0 ≤ (13983 / 8405) * (1 - q) ^ 3
        + (28340 / 1681) * (q - (9 / 50)) ^ 1 * (1 - q) ^ 2
        + (40000 / 1681) * (q - (9 / 50)) ^ 2 * (1 - q) ^ 1
        + (3945179 / 689210) * a ^ 1 * (1 - q) ^ 3
        + (4450200 / 68921) * a ^ 1 * (q - (9 / 50)) ^ 1 * (1 - q) ^ 2
        + (6738000 / 68921) * a ^ 1 * (q - (9 / 50)) ^ 2 * (1 - q) ^ 1
        + (2000000 / 68921) * a ^ 1 * (q - (9 / 50)) ^ 3
        + (397638 / 68921) * a ^ 2 * (1 - q) ^ 3
        + (5482375 / 68921) * a ^ 2 * (q - (9 / 50)) ^ 1 * (1 - q) ^ 2
        + (9341500 / 68921) * a ^ 2 * (q - (9 / 50)) ^ 2 * (1 - q) ^ 1
        + (4050000 / 68921) * a ^ 2 * (q - (9 / 50)) ^ 3
        + (110250 / 68921) * a ^ 3 * (1 - q) ^ 3
        + (2370500 / 68921) * a ^ 3 * (q - (9 / 50)) ^ 1 * (1 - q) ^ 2
        + (4410250 / 68921) * a ^ 3 * (q - (9 / 50)) ^ 2 * (1 - q) ^ 1
        + (2150000 / 68921) * a ^ 3 * (q - (9 / 50)) ^ 3
        + (5000 / 68921) * a ^ 4 * (1 - q) ^ 3
        + (322500 / 68921) * a ^ 4 * (q - (9 / 50)) ^ 1 * (1 - q) ^ 2
        + (630000 / 68921) * a ^ 4 * (q - (9 / 50)) ^ 2 * (1 - q) ^ 1
        + (312500 / 68921) * a ^ 4 * (q - (9 / 50)) ^ 3 := by positivity
  linarith only [key]

lemma T_s {ρ q : ℝ} (hρ : 1 ≤ ρ) (h0 : 0 ≤ q) (h1 : q ≤ (9 / 50)) :
    (ρ + q + 2) * ((ρ + q + 2 * (ρ * q)) * (ρ + q) * (3 / 2 * ρ + 17 / 10) ^ 2 - (ρ + q) * (3 + 2 * (ρ + q) + ρ * q) * (3 / 2 * ρ + 17 / 10) * ρ
      + 2 * (1 + (ρ + q) + ρ * q) * ρ ^ 2) - q * (2 * ((3 / 2 * ρ + 17 / 10) - ρ) * (1 + ρ)
        * ((1 + ρ) * (ρ + q) * (3 / 2 * ρ + 17 / 10) - 2 * (1 + q) * ρ)) + 1 / 100 ≤ 0 := by
  obtain ⟨a, ha⟩ : ∃ a, a = ρ - 1 := ⟨_, rfl⟩
  obtain rfl : ρ = 1 + a := by linarith
  have ha0 : 0 ≤ a := by linarith
  have k0 : 0 ≤ q := by linarith
  have k1 : 0 ≤ (9 / 50) - q := by linarith
  have key : 0 ≤ (658750 / 729) * ((9 / 50) - q) ^ 3
        + (526750 / 243) * q ^ 1 * ((9 / 50) - q) ^ 2
        + (335350 / 243) * q ^ 2 * ((9 / 50) - q) ^ 1
        + (1728838 / 18225) * q ^ 3
        + (2402500 / 729) * a ^ 1 * ((9 / 50) - q) ^ 3
        + (2018350 / 243) * a ^ 1 * q ^ 1 * ((9 / 50) - q) ^ 2
        + (1492477 / 243) * a ^ 1 * q ^ 2 * ((9 / 50) - q) ^ 1
        + (40078379 / 36450) * a ^ 1 * q ^ 3
        + (1131250 / 243) * a ^ 2 * ((9 / 50) - q) ^ 3
        + (326275 / 27) * a ^ 2 * q ^ 1 * ((9 / 50) - q) ^ 2
        + (1572313 / 162) * a ^ 2 * q ^ 2 * ((9 / 50) - q) ^ 1
        + (2196697 / 972) * a ^ 2 * q ^ 3
        + (771250 / 243) * a ^ 3 * ((9 / 50) - q) ^ 3
        + (676750 / 81) * a ^ 3 * q ^ 1 * ((9 / 50) - q) ^ 2
        + (1134845 / 162) * a ^ 3 * q ^ 2 * ((9 / 50) - q) ^ 1
        + (885077 / 486) * a ^ 3 * q ^ 3
        + (756250 / 729) * a ^ 4 * ((9 / 50) - q) ^ 3
        + (666625 / 243) * a ^ 4 * q ^ 1 * ((9 / 50) - q) ^ 2
        + (570925 / 243) * a ^ 4 * q ^ 2 * ((9 / 50) - q) ^ 1
        + (469150 / 729) * a ^ 4 * q ^ 3
        + (31250 / 243) * a ^ 5 * ((9 / 50) - q) ^ 3
        + (27500 / 81) * a ^ 5 * q ^ 1 * ((9 / 50) - q) ^ 2
        + (23750 / 81) * a ^ 5 * q ^ 2 * ((9 / 50) - q) ^ 1
        + (20000 / 243) * a ^ 5 * q ^ 3 := by positivity
  linarith only [key]

/-- The derivative of `Af` along `q r² = const` has the sign of this. -/
def Tk (ρ q k : ℝ) : ℝ := (ρ + q + 2) * q2 (ρ + q) (ρ * q) k
  - q * (2 * (k - 1) * (1 + ρ) * ((1 + ρ) * (ρ + q) * k - 2 * (1 + q)))

lemma T_neg {ρ q k : ℝ} (hρ : 1 ≤ ρ) (hq : 0 ≤ q) (hq1 : q ≤ 1) (hk : 1 < k)
    (hks : ρ * k ≤ 3 / 2 * ρ + 17 / 10) (ha : a3 (ρ + q) (ρ * q) k < 0) : Tk ρ q k < 0 := by
  rcases le_total (9 / 50) q with h | h
  · have h1 := ab_one hρ h hq1
    have h2 := ab_s hρ h hq1
    obtain ⟨α, hα⟩ : ∃ α, α = (-2 * q ^ 2 + q ^ 3 - ρ * q ^ 2 + 2 * ρ * q ^ 3 + 2 * ρ ^ 2 - ρ ^ 2 * q + ρ ^ 3
      - 2 * ρ ^ 3 * q) := ⟨_, rfl⟩
    obtain ⟨β, hβ⟩ : ∃ β, β = (4 * q + 4 * q ^ 2 - q ^ 3 - 4 * ρ + 5 * ρ * q ^ 2 - 4 * ρ ^ 2 - 3 * ρ ^ 2 * q
      - ρ ^ 3) := ⟨_, rfl⟩
    rw [← hα, ← hβ] at h1 h2
    have h3 : (α * k + β) * (1 / 2 * ρ + 17 / 10)
        = (3 / 2 * ρ + 17 / 10 - ρ * k) * (α + β) + (k - 1) * (α * (3 / 2 * ρ + 17 / 10) + β * ρ) := by ring
    have h4 : (α * k + β) * (1 / 2 * ρ + 17 / 10) ≤ 0 := by
      rw [h3]
      have := mul_nonpos_of_nonneg_of_nonpos (sub_nonneg.mpr hks) h1
      have := mul_nonpos_of_nonneg_of_nonpos (sub_nonneg.mpr hk.le) h2
      linarith
    have h5 : α * k + β ≤ 0 := by
      by_contra hcon
      have := mul_pos (not_le.mp hcon) (show 0 < 1 / 2 * ρ + 17 / 10 by linarith)
      linarith
    have e : 2 * Tk ρ q k = (ρ + q + 2) * a3 (ρ + q) (ρ * q) k + (k - 1) * (α * k + β) := by
      rw [hα, hβ]; unfold Tk q2 a3; ring
    have h6 := mul_neg_of_pos_of_neg (show 0 < ρ + q + 2 by linarith) ha
    have h7 := mul_nonpos_of_nonneg_of_nonpos (sub_nonneg.mpr hk.le) h5
    linarith
  · have h1 := T_s hρ hq h
    obtain ⟨Z, hZ⟩ : ∃ Z, Z = (ρ + q + 2) * ((ρ + q + 2 * (ρ * q)) * (ρ + q) * (3 / 2 * ρ + 17 / 10) ^ 2
      - (ρ + q) * (3 + 2 * (ρ + q) + ρ * q) * (3 / 2 * ρ + 17 / 10) * ρ
      + 2 * (1 + (ρ + q) + ρ * q) * ρ ^ 2) - q * (2 * ((3 / 2 * ρ + 17 / 10) - ρ) * (1 + ρ)
        * ((1 + ρ) * (ρ + q) * (3 / 2 * ρ + 17 / 10) - 2 * (1 + q) * ρ)) := ⟨_, rfl⟩
    rw [← hZ] at h1
    have e : ρ * (1 / 2 * ρ + 17 / 10) * Tk ρ q k
        = -(ρ * ((3 / 2 * ρ + 17 / 10 - ρ * k) * ((ρ + q + 2) ^ 2 * ((ρ - 1) * (1 - q))))) + (k - 1) * Z
          - (q ^ 3 + 2 * ρ * q + 3 * ρ * q ^ 2 + 2 * ρ * q ^ 3 + 2 * ρ ^ 2 + 3 * ρ ^ 2 * q + 2 * ρ ^ 2 * q ^ 2
            + ρ ^ 3) * ((1 / 2 * ρ + 17 / 10) * ((k - 1) * (3 / 2 * ρ + 17 / 10 - ρ * k))) := by
      rw [hZ]; unfold Tk q2; ring
    have k1 : 0 ≤ 3 / 2 * ρ + 17 / 10 - ρ * k := by linarith
    have k2 : 0 ≤ ρ * ((3 / 2 * ρ + 17 / 10 - ρ * k) * ((ρ + q + 2) ^ 2 * ((ρ - 1) * (1 - q)))) :=
      mul_nonneg (by linarith) (mul_nonneg k1 (mul_nonneg (sq_nonneg _)
        (mul_nonneg (by linarith) (by linarith))))
    have k3 : (k - 1) * Z < 0 := mul_neg_of_pos_of_neg (by linarith) (by linarith)
    have k4 : 0 ≤ (q ^ 3 + 2 * ρ * q + 3 * ρ * q ^ 2 + 2 * ρ * q ^ 3 + 2 * ρ ^ 2 + 3 * ρ ^ 2 * q
            + 2 * ρ ^ 2 * q ^ 2
            + ρ ^ 3) * ((1 / 2 * ρ + 17 / 10) * ((k - 1) * (3 / 2 * ρ + 17 / 10 - ρ * k))) :=
      mul_nonneg (by positivity) (mul_nonneg (by linarith) (mul_nonneg (by linarith) k1))
    by_contra hcon
    have := mul_nonneg (show 0 ≤ ρ * (1 / 2 * ρ + 17 / 10) by positivity) (not_lt.mp hcon)
    linarith

/-! ### Monotonicity of the root -/

lemma kf_gt_one {ρ q r : ℝ} (hρ : 1 ≤ ρ) (hq : 0 ≤ q) (hr : 1 < r) : 1 < kf ρ q r := by
  have hh := hf_pos hρ hq hr.le
  have hk := kf_spec (by linarith : 0 < ρ + q) hh.le
  have h0 : 0 < kf ρ q r := div_pos (Real.sqrt_pos.mpr hh) (by linarith)
  have h1 : 0 < (ρ + q + 2) * (r - 1) := mul_pos (by linarith) (by linarith)
  by_contra hcon
  have : kf ρ q r ^ 2 ≤ 1 := by nlinarith [not_lt.mp hcon]
  have : (ρ + q) * kf ρ q r ^ 2 ≤ (ρ + q) * 1 := mul_le_mul_of_nonneg_left this (by linarith)
  linarith

lemma kf_le {ρ q r : ℝ} (hρ : 1 ≤ ρ) (hq : 0 ≤ q) (hr : 1 ≤ r) (hr1 : ρ * r ≤ 2 * (1 + ρ)) :
    ρ * kf ρ q r ≤ 3 / 2 * ρ + 17 / 10 := by
  have hh := hf_pos hρ hq hr
  have hk := kf_spec (by linarith : 0 < ρ + q) hh.le
  have hgp : 0 < ρ + q := by linarith
  generalize kf ρ q r = k at *
  have h1 : (ρ + q) * (k ^ 2 - r) = 2 * (r - 1) := by linarith
  have h2 : ρ * (k ^ 2 - r) ≤ 2 * (r - 1) := by
    have : 0 ≤ k ^ 2 - r := by
      by_contra hcon
      have := mul_neg_of_pos_of_neg hgp (not_le.mp hcon)
      linarith
    nlinarith
  have h3 : (ρ * k) ^ 2 ≤ (3 / 2 * ρ + 17 / 10) ^ 2 := by
    have : ρ * (ρ * (k ^ 2 - r)) ≤ ρ * (2 * (r - 1)) := mul_le_mul_of_nonneg_left h2 (by linarith)
    nlinarith
  exact (abs_le_of_sq_le_sq' h3 (by linarith)).2

/-- `Af` decreases along `q r² = const` as long as it is below 1. -/
lemma path {ρ q r0 r1 : ℝ} (hρ : 1 ≤ ρ) (hq : 0 ≤ q) (hq1 : q ≤ 1) (hr0 : 1 < r0) (h01 : r0 < r1)
    (hr1 : ρ * r1 ≤ 2 * (1 + ρ)) (hA : Af ρ q r0 < 1) :
    Af ρ (q * r0 ^ 2 / r1 ^ 2) r1 < Af ρ q r0 := by
  obtain ⟨c, hc⟩ : ∃ c, c = q * r0 ^ 2 := ⟨_, rfl⟩
  have hc0 : 0 ≤ c := by rw [hc]; positivity
  have hqt : ∀ t, r0 ≤ t → 0 ≤ c / t ^ 2 ∧ c / t ^ 2 ≤ 1 := by
    intro t ht
    have ht0 : 0 < t := by linarith
    refine ⟨by positivity, ?_⟩
    rw [div_le_one (by positivity), hc]
    have : r0 ^ 2 ≤ t ^ 2 := by nlinarith
    nlinarith
  have hder : ∀ t, r0 ≤ t → HasDerivAt (fun t => Af ρ (c / t ^ 2) t)
      (2 * (kf ρ (c / t ^ 2) t - 1) * Tk ρ (c / t ^ 2) (kf ρ (c / t ^ 2) t)
        / ((ρ + c / t ^ 2 + 2) ^ 3 * kf ρ (c / t ^ 2) t)) t := by
    intro t ht
    have ht0 : 0 < t := by linarith
    obtain ⟨q0, -⟩ := hqt t ht
    have hh := hf_pos hρ q0 (by linarith : 1 ≤ t)
    have dq : HasDerivAt (fun t : ℝ => c / t ^ 2) (-2 * (c / t ^ 2) / t) t := by
      have := (hasDerivAt_const t c).div (hasDerivAt_pow 2 t) (by positivity)
      refine this.congr_deriv ?_
      norm_num
      field_simp
    refine (hasDerivAt_Af (q := fun t => c / t ^ 2) (r := fun t => t) (by linarith) hh dq
      (hasDerivAt_id t)).congr_deriv ?_
    have hk0 : 0 < kf ρ (c / t ^ 2) t := div_pos (Real.sqrt_pos.mpr hh) (by linarith)
    unfold Tk
    generalize kf ρ (c / t ^ 2) t = k at *
    generalize c / t ^ 2 = q at *
    have : 0 < ρ + q + 2 := by linarith
    field_simp
    ring
  have hneg : ∀ t, r0 ≤ t → t ≤ r1 → Af ρ (c / t ^ 2) t < 1 →
      2 * (kf ρ (c / t ^ 2) t - 1) * Tk ρ (c / t ^ 2) (kf ρ (c / t ^ 2) t)
        / ((ρ + c / t ^ 2 + 2) ^ 3 * kf ρ (c / t ^ 2) t) < 0 := by
    intro t ht ht1 hlt
    obtain ⟨q0, q1⟩ := hqt t ht
    have hh := hf_pos hρ q0 (by linarith : 1 ≤ t)
    have hk1 := kf_gt_one hρ q0 (by linarith : 1 < t)
    have hks := kf_le hρ q0 (by linarith : 1 ≤ t) (by nlinarith)
    have he := Af_kf (by linarith : 0 < ρ + c / t ^ 2) hh.le
    have ha : a3 (ρ + c / t ^ 2) (ρ * (c / t ^ 2)) (kf ρ (c / t ^ 2) t) < 0 := by
      by_contra hcon
      have : 0 ≤ (kf ρ (c / t ^ 2) t - 1) ^ 2 * (ρ + c / t ^ 2)
          * a3 (ρ + c / t ^ 2) (ρ * (c / t ^ 2)) (kf ρ (c / t ^ 2) t) / (ρ + c / t ^ 2 + 2) ^ 3 :=
        div_nonneg (mul_nonneg (by positivity) (not_lt.mp hcon)) (by positivity)
      linarith
    have hT := T_neg hρ q0 q1 hk1 hks ha
    have hk0 : 0 < kf ρ (c / t ^ 2) t := by linarith
    apply div_neg_of_neg_of_pos
    · exact mul_neg_of_pos_of_neg (by linarith) hT
    · positivity
  have hA' : (fun t => Af ρ (c / t ^ 2) t) r0 < 1 := by
    have : c / r0 ^ 2 = q := by rw [hc]; field_simp
    simp only [this]; exact hA
  have hcont : ContinuousOn (fun t => Af ρ (c / t ^ 2) t) (Set.Icc r0 r1) := fun t ht =>
    (hder t ht.1).continuousAt.continuousWithinAt
  have hle : ∀ t ∈ Set.Icc r0 r1, (fun t => Af ρ (c / t ^ 2) t) t
      ≤ (fun _ => Af ρ (c / r0 ^ 2) r0) t := by
    intro t ht
    refine image_le_of_deriv_right_lt_deriv_boundary (B := fun _ => Af ρ (c / r0 ^ 2) r0) (B' := fun _ => 0)
      hcont (fun x hx => (hder x hx.1).hasDerivWithinAt) le_rfl (fun x => hasDerivAt_const x _) ?_ ht
    intro x hx heq
    refine hneg x hx.1 hx.2.le ?_
    have heq' : Af ρ (c / x ^ 2) x = Af ρ (c / r0 ^ 2) r0 := heq
    rw [heq']; exact hA'
  have hanti := strictAntiOn_of_deriv_neg (convex_Icc r0 r1) hcont (by
    intro t ht
    rw [interior_Icc] at ht
    rw [(hder t ht.1.le).deriv]
    exact hneg t ht.1.le ht.2.le (lt_of_le_of_lt (hle t ⟨ht.1.le, ht.2.le⟩) hA'))
  have := hanti (Set.left_mem_Icc.mpr h01.le) (Set.right_mem_Icc.mpr h01.le) h01
  simp only at this
  have e0 : c / r0 ^ 2 = q := by rw [hc]; field_simp
  rw [e0] at this
  rw [← hc]; exact this

/-- `Af` increases with `q`. -/
lemma Af_mono {ρ q q' r : ℝ} (hρ : 1 ≤ ρ) (hr : 1 < r) (hq : 0 ≤ q) (h : q ≤ q') :
    Af ρ q r ≤ Af ρ q' r := by
  have hder : ∀ t, 0 ≤ t → HasDerivAt (fun t => Af ρ t r) (2 * r * (kf ρ t r - 1) ^ 2 * (1 + ρ)
          * ((1 + ρ) * (ρ + t) * kf ρ t r - 2 * (1 + t)) / ((ρ + t + 2) ^ 3 * kf ρ t r)) t := by
    intro t ht
    refine (hasDerivAt_Af (q := fun t => t) (r := fun _ => r) (by linarith) (hf_pos hρ ht hr.le)
      (hasDerivAt_id t) (hasDerivAt_const t r)).congr_deriv ?_
    ring
  have hmono := monotoneOn_of_deriv_nonneg (convex_Icc q q') (f := fun t => Af ρ t r)
    (fun t ht => (hder t (hq.trans ht.1)).continuousAt.continuousWithinAt)
    (fun t ht => (hder t (hq.trans (interior_subset ht).1)).differentiableAt.differentiableWithinAt) (by
      intro t ht
      have ht0 := hq.trans (interior_subset ht).1
      rw [(hder t ht0).deriv]
      have hk := kf_gt_one hρ ht0 hr
      have h1 : 2 * (1 + t) ≤ (1 + ρ) * (ρ + t) * kf ρ t r := by
        have e1 : 2 * (1 + t) ≤ (1 + ρ) * (ρ + t) := by nlinarith
        have : (1 + ρ) * (ρ + t) * 1 ≤ (1 + ρ) * (ρ + t) * kf ρ t r :=
          mul_le_mul_of_nonneg_left hk.le (by positivity)
        linarith
      apply div_nonneg
      · exact mul_nonneg (by positivity) (by linarith)
      · have : 0 ≤ kf ρ t r := by linarith
        positivity)
  exact hmono (Set.left_mem_Icc.mpr h) (Set.right_mem_Icc.mpr h) h

/-- A point of the curve with `A < 1` has `r ≠ 1`. -/
lemma r_gt_one {A ρ q r : ℝ} (hρ : 1 ≤ ρ) (hq : 0 ≤ q) (hr : 1 ≤ r) (hA : A < 1) (hAf : A = Af ρ q r) :
    1 < r := by
  refine lt_of_le_of_ne hr (fun h => ?_)
  subst h
  have hh := hf_pos hρ hq hr
  have hg : 0 < ρ + q := by linarith
  have hk := kf_spec hg hh.le
  have hk1 : kf ρ q 1 ^ 2 = 1 := by
    have : (ρ + q) * (kf ρ q 1 ^ 2 - 1) = 0 := by linarith
    linarith [(mul_eq_zero.mp this).resolve_left hg.ne']
  have hk0 : 0 < kf ρ q 1 := div_pos (Real.sqrt_pos.mpr hh) hg
  have hk2 : kf ρ q 1 = 1 := by
    have : (kf ρ q 1 - 1) * (kf ρ q 1 + 1) = 0 := by linear_combination hk1
    linarith [(mul_eq_zero.mp this).resolve_right (by linarith)]
  have := Af_kf hg hh.le
  rw [hk2, ← hAf] at this
  have h0 : (1 - 1 : ℝ) ^ 2 = 0 := by norm_num
  rw [h0, zero_mul, zero_mul, zero_div] at this
  linarith

lemma q_le {ρ u0 u1 r0 r1 y : ℝ} (hρ : 1 ≤ ρ) (hy : 0 ≤ y) (hu01 : u1 ≤ u0) (hr1 : 0 < r1)
    (hy0 : y = u0 * r0 ^ 2) (hy1 : y = u1 * r1 ^ 2)
    (hd0 : 0 < ρ - u0 * (ρ + 2)) (hd1 : 0 < ρ - u1 * (ρ + 2)) :
    u1 * (2 * ρ + 1 - u1) / (ρ - u1 * (ρ + 2))
      ≤ u0 * (2 * ρ + 1 - u0) / (ρ - u0 * (ρ + 2)) * r0 ^ 2 / r1 ^ 2 := by
  have e0 : u0 * (2 * ρ + 1 - u0) / (ρ - u0 * (ρ + 2)) * r0 ^ 2
      = y * ((2 * ρ + 1 - u0) / (ρ - u0 * (ρ + 2))) := by
    rw [hy0]; ring
  have e1 : u1 * (2 * ρ + 1 - u1) / (ρ - u1 * (ρ + 2)) * r1 ^ 2
      = y * ((2 * ρ + 1 - u1) / (ρ - u1 * (ρ + 2))) := by
    rw [hy1]; ring
  rw [le_div_iff₀ (by positivity), e0, e1]
  refine mul_le_mul_of_nonneg_left ?_ hy
  rw [div_le_div_iff₀ hd1 hd0]
  have h1 : 0 ≤ (u0 - u1) * (2 * ρ ^ 2 + 4 * ρ + 2) := mul_nonneg (by linarith) (by positivity)
  linarith

lemma core {A ρ u0 u1 r0 r1 y : ℝ} (hA1 : A < 1) (hρ : 1 ≤ ρ)
    (h1r0 : 1 ≤ r0) (h01 : r0 < r1) (hρr1 : ρ * r1 ≤ 2 * (1 + ρ)) (hyA : y ≤ A) (hy : 0 ≤ y)
    (hy0 : y = u0 * r0 ^ 2) (hy1 : y = u1 * r1 ^ 2) (hu00 : 0 ≤ u0) (hu10 : 0 ≤ u1) (hu01 : u1 ≤ u0)
    (hz : Sh A r0 ρ (ρ - u0 * (ρ + 2)) (u0 * (2 * ρ + 1 - u0)) = 0) :
    Sh A r1 ρ (ρ - u1 * (ρ + 2)) (u1 * (2 * ρ + 1 - u1)) < 0 := by
  have hr02 : 1 ≤ r0 ^ 2 := one_le_pow₀ h1r0
  have hu0lt : u0 < 1 := by
    have := mul_le_mul_of_nonneg_left hr02 hu00
    linarith
  have hnd : u0 * (2 * ρ + 1 - u0) < ρ - u0 * (ρ + 2) := by
    by_contra hcon
    rcases eq_or_lt_of_le hu00 with h | h
    · rw [← h] at hcon; apply hcon; rw [zero_mul, zero_mul]; linarith
    · have := Sh_pos hρ h1r0 hA1 h (by linarith) (not_lt.mp hcon)
      rw [hz] at this; exact lt_irrefl _ this
  have hn0 : 0 ≤ u0 * (2 * ρ + 1 - u0) := mul_nonneg hu00 (by linarith)
  have hd0 : 0 < ρ - u0 * (ρ + 2) := by linarith
  have hd1 : 0 < ρ - u1 * (ρ + 2) := by
    have := mul_le_mul_of_nonneg_right hu01 (by linarith : 0 ≤ ρ + 2)
    linarith
  have hn1 : 0 ≤ u1 * (2 * ρ + 1 - u1) := mul_nonneg hu10 (by linarith)
  rw [Sh_dehom hd0.ne'] at hz
  rw [Sh_dehom hd1.ne']
  have hz2 := (mul_eq_zero.mp hz).resolve_left (pow_ne_zero 2 hd0.ne')
  have hqq := q_le hρ hy hu01 (by linarith) hy0 hy1 hd0 hd1
  have hq00 : 0 ≤ u0 * (2 * ρ + 1 - u0) / (ρ - u0 * (ρ + 2)) := div_nonneg hn0 hd0.le
  have hq01 : u0 * (2 * ρ + 1 - u0) / (ρ - u0 * (ρ + 2)) ≤ 1 := by rw [div_le_one hd0]; exact hnd.le
  have hq10 : 0 ≤ u1 * (2 * ρ + 1 - u1) / (ρ - u1 * (ρ + 2)) := div_nonneg hn1 hd1.le
  refine mul_neg_of_pos_of_neg (pow_pos hd1 2) ?_
  generalize u0 * (2 * ρ + 1 - u0) / (ρ - u0 * (ρ + 2)) = q0 at *
  generalize u1 * (2 * ρ + 1 - u1) / (ρ - u1 * (ρ + 2)) = q1 at *
  have hAf := eq_Af hρ hq00 h1r0 hA1.le hz2
  have hr0lt := r_gt_one hρ hq00 h1r0 hA1 hAf
  have hpath := path hρ hq00 hq01 hr0lt h01 hρr1 (by rw [← hAf]; exact hA1)
  have hm := Af_mono hρ (by linarith : 1 < r1) hq10 hqq
  by_contra hcon
  have := le_Af hρ hq10 (by linarith : 1 ≤ r1) hA1.le (not_lt.mp hcon)
  linarith

open SepCert in
/-- **No second zero.** After a zero `s ≥ 1 + e` the separatrix polynomial is negative up to `p = 4`. -/
lemma neg_after_zero {A e w s p : ℝ} (hA : 0 < A) (hA1 : A < 1) (he : 0 ≤ e) (he1 : e < 1) (hw : 0 ≤ w)
    (hw1 : w ≤ 1) (hs : 1 + e ≤ s) (hsp : s < p) (hp : p ≤ 4)
    (hz : N s A e w ^ 2 - 8 * A * (1 - w) * (M1 s A e w * M2 s A e w) = 0) :
    N p A e w ^ 2 - 8 * A * (1 - w) * (M1 p A e w * M2 p A e w) < 0 := by
  have hc0 : 0 < 1 - e := by linarith
  have hf0 : 0 < 1 + e := by linarith
  obtain ⟨c, hc⟩ : ∃ c, c = 1 - e := ⟨_, rfl⟩
  obtain ⟨ρ, hρd⟩ : ∃ ρ, ρ = (1 + e) / (1 - e) := ⟨_, rfl⟩
  have hρc : 1 + e = ρ * c := by rw [hρd, hc]; field_simp
  have hρ : 1 ≤ ρ := by rw [hρd, le_div_iff₀ hc0]; linarith
  obtain ⟨r0, hr0⟩ : ∃ r, r = s / (1 + e) := ⟨_, rfl⟩
  obtain ⟨r1, hr1⟩ : ∃ r, r = p / (1 + e) := ⟨_, rfl⟩
  have hs0 : s = ρ * c * r0 := by rw [← hρc, hr0]; field_simp
  have hp1 : p = ρ * c * r1 := by rw [← hρc, hr1]; field_simp
  have h1r0 : 1 ≤ r0 := by rw [hr0, le_div_iff₀ hf0]; linarith
  have h01 : r0 < r1 := by rw [hr0, hr1]; exact div_lt_div_of_pos_right hsp hf0
  have hρr1 : ρ * r1 ≤ 2 * (1 + ρ) := by
    have h1 : c * (ρ * r1) ≤ c * (2 * (1 + ρ)) := by
      have e1 : c * (ρ * r1) = p := by rw [hp1]; ring
      have e2 : c * (2 * (1 + ρ)) = 2 * (c + ρ * c) := by ring
      rw [e1, e2, ← hρc, hc]; linarith
    exact le_of_mul_le_mul_left h1 (by rw [hc]; exact hc0)
  obtain ⟨u0, hu0⟩ : ∃ u, u = A * w / r0 ^ 2 := ⟨_, rfl⟩
  obtain ⟨u1, hu1⟩ : ∃ u, u = A * w / r1 ^ 2 := ⟨_, rfl⟩
  have hr0p : 0 < r0 := by linarith
  have hr1p : 0 < r1 := by linarith
  have hy0 : A * w = u0 * r0 ^ 2 := by rw [hu0]; field_simp
  have hy1 : A * w = u1 * r1 ^ 2 := by rw [hu1]; field_simp
  have hAw : A * w ≤ A := by nlinarith
  have hAw0 : 0 ≤ A * w := by positivity
  have hu00 : 0 ≤ u0 := by rw [hu0]; positivity
  have hu10 : 0 ≤ u1 := by rw [hu1]; positivity
  have hu01 : u1 ≤ u0 := by
    rw [hu0, hu1]
    exact div_le_div_of_nonneg_left hAw0 (by positivity) (by nlinarith)
  have hK : 0 < (ρ ^ 2 * c ^ 3) ^ 4 := by
    have : 0 < c := by rw [hc]; exact hc0
    positivity
  rw [S_eq hc.symm hρc hs0 hy0] at hz
  rw [S_eq hc.symm hρc hp1 hy1]
  have hz' := (mul_eq_zero.mp hz).resolve_left (mul_pos hK (pow_pos hr0p 6)).ne'
  exact mul_neg_of_pos_of_neg (mul_pos hK (pow_pos hr1p 6))
    (core hA1 hρ h1r0 h01 hρr1 hAw hAw0 hy0 hy1 hu00 hu10 hu01 hz')

end KGP.SepCurve
