import Verif.Model.Constants
import Verif.Spec.Orbits
import Mathlib.Tactic.Linarith
import Mathlib.Tactic.Ring
import Mathlib.Tactic.Positivity
import Mathlib.Tactic.FieldSimp
import Mathlib.Tactic.LinearCombination

/-!
# Schmidt's formula for the constants of motion

The determinants `kappa, rho, sigma, epsilon, eta` of constants.py:280-290 have the common factor
`r1 - r2` (`-1` for circular orbits, where the second row is the derivative of the first).  Divided by
it, they are the symmetric polynomials below in `u = r1 + r2`, `v = r1 r2`, `A = a²`, `w = 1 - x²`.
-/

namespace KGP.Schmidt

set_option linter.unusedSectionVars false

def kapH (u v A w : ℝ) : ℝ :=
  v ^ 2 * u - 2 * v * (u ^ 2 - 2 * v) - 4 * v ^ 2 + 4 * v * u + A * w * (u ^ 3 - 2 * v * u)
    - 2 * A * w * (u ^ 2 - v) - 2 * A * v + A ^ 2 * w ^ 2 * u - 2 * A ^ 2 * w ^ 2 + 2 * A ^ 2 * w
def rhoH (u v A w : ℝ) : ℝ :=
  v ^ 2 * u - 2 * v * (u ^ 2 - 2 * v) - 2 * v ^ 2 + A * w * (u ^ 3 - 2 * v * u) - 4 * A * v
    + A ^ 2 * w ^ 2 * u - 2 * A ^ 2 * w ^ 2 + 4 * A ^ 2 * w
def epsH (u v A w : ℝ) : ℝ :=
  2 * v * (u ^ 2 - 2 * v) + 2 * v ^ 2 - 4 * v * u + 2 * A * w * v + 2 * A * v - 2 * A ^ 2 * w
def etaH (u v A w : ℝ) : ℝ :=
  2 * v * (u ^ 2 - 2 * v) + 2 * v ^ 2 + 2 * A * w * v + 2 * A * v - 2 * A ^ 2 * w
def TH (v A w : ℝ) : ℝ := v - A * w
/-- product of the two `Δ` -/
def DDH (u v A : ℝ) : ℝ := v ^ 2 - 2 * v * u + A * (u ^ 2 - 2 * v) + 4 * v - 2 * A * u + A ^ 2
/-- product of the two `Σ` at the polar turning point -/
def SSH (u v A w : ℝ) : ℝ := v ^ 2 + A * w * (u ^ 2 - 2 * v) + A ^ 2 * w ^ 2
def WH (u v A w : ℝ) : ℝ := rhoH u v A w ^ 2 - 8 * A * (1 - w) * etaH u v A w * TH v A w
def NH (u v A w : ℝ) : ℝ :=
  kapH u v A w * rhoH u v A w - 4 * A * (1 - w) * epsH u v A w * TH v A w
def Y2H (u v A w : ℝ) : ℝ := 8 * A * (1 - w) * TH v A w ^ 3 * u * DDH u v A * SSH u v A w
def thetaH (u v A w : ℝ) : ℝ :=
  2 * v ^ 3 - 2 * A * v ^ 2 * (w + 2) + 2 * A * v * u ^ 2 + 2 * A ^ 2 * v * (2 * w + 1)
    - 2 * A ^ 2 * w * u ^ 2 - 2 * A ^ 3 * w - 4 * A * u * v * (1 - w)

lemma Y2_eq (u v A w : ℝ) : Y2H u v A w = -2 * A * (1 - w) * TH v A w
    * (-2 * A * (1 - w) * TH v A w * epsH u v A w ^ 2 + rhoH u v A w * epsH u v A w * kapH u v A w
      - etaH u v A w * kapH u v A w ^ 2) := by
  simp only [Y2H, kapH, rhoH, epsH, etaH, TH, DDH, SSH]
  ring

lemma theta_eq (u v A w : ℝ) : kapH u v A w * etaH u v A w - epsH u v A w * rhoH u v A w
    = 2 * TH v A w * thetaH u v A w := by
  simp only [kapH, rhoH, epsH, etaH, TH, thetaH]
  ring

/-- Plücker relations at one radius. -/
lemma pluecker (r s A w : ℝ) :
    let D := r ^ 2 - 2 * r + A
    let H := (1 - w) * (r * (r - 2)) + w * D
    (r ^ 2 + A * w) * D * (-2 * TH (r * s) A w) - 2 * r * kapH (r + s) (r * s) A w
      + H * epsH (r + s) (r * s) A w = 0
    ∧ (r ^ 4 + A * (r * (r + 2) + w * D)) * (-2 * TH (r * s) A w) - 2 * r * rhoH (r + s) (r * s) A w
      + H * etaH (r + s) (r * s) A w = 0 := by
  intro D H
  simp only [D, H, kapH, rhoH, epsH, etaH, TH]
  constructor <;> ring

/-- Plücker relations for the derivatives, on a circular orbit. -/
lemma pluecker' (r A w : ℝ) :
    let H' := 2 * (r - 1)
    (2 * (2 * r - 3) * r ^ 2 + 2 * A * ((1 + w) * r - w)) * (-2 * TH (r * r) A w)
        - 2 * kapH (r + r) (r * r) A w + H' * epsH (r + r) (r * r) A w = 0
    ∧ (4 * r ^ 3 + 2 * A * ((1 + w) * r + (1 - w))) * (-2 * TH (r * r) A w)
        - 2 * rhoH (r + r) (r * r) A w + H' * etaH (r + r) (r * r) A w = 0 := by
  intro H'
  simp only [H', kapH, rhoH, epsH, etaH, TH]
  constructor <;> ring

/-! ### the algebra of the formula -/

/-- The quadratic equation for `E²`, its branches and the sign of `L`. -/
lemma core {A X T κ ρ ε η θ Y W N g : ℝ} (hA : 0 < A) (hX : 0 < X) (hT : 0 < T) (hκ : 0 < κ)
    (hρ : 0 < ρ) (hθ : 0 < θ) (hW : 0 < W) (hN : 0 < N) (hY0 : 0 ≤ Y)
    (hY : Y ^ 2 = -2 * A * X * T * (-2 * A * X * T * ε ^ 2 + ρ * ε * κ - η * κ ^ 2))
    (eW : W = ρ ^ 2 - 8 * A * X * η * T) (eN : N = κ * ρ - 4 * A * X * ε * T)
    (eθ : κ * η - ε * ρ = 2 * T * θ) (hg : g = 1 ∨ g = -1) :
    let t := (N - g * 2 * Y) / W
    0 < t ∧ W * t ^ 2 - 2 * N * t + κ ^ 2 = 0 ∧ 0 < g * (κ - ρ * t) ∧ t * (N + g * 2 * Y) = κ ^ 2
      ∧ 0 < N + g * 2 * Y := by
  intro t
  have hg2 : g ^ 2 = 1 := by rcases hg with h | h <;> rw [h] <;> norm_num
  have h1 : N ^ 2 - 4 * Y ^ 2 = W * κ ^ 2 := by rw [hY, eW, eN]; ring
  have h2 : 0 < W * κ ^ 2 := by positivity
  have h3 : 2 * Y < N := by nlinarith
  have h4 : 0 < N - g * 2 * Y := by rcases hg with h | h <;> rw [h] <;> linarith
  have h4' : 0 < N + g * 2 * Y := by rcases hg with h | h <;> rw [h] <;> linarith
  have ht : 0 < t := div_pos h4 hW
  have hWt : W * t = N - g * 2 * Y := by simp only [t]; field_simp
  have hWne := hW.ne'
  have h5 : t * (N + g * 2 * Y) = κ ^ 2 := by
    have : W * (t * (N + g * 2 * Y)) = W * κ ^ 2 := by
      rw [← mul_assoc, hWt, ← h1]; linear_combination -4 * Y ^ 2 * hg2
    exact mul_left_cancel₀ hWne this
  have h6 : W * t ^ 2 - 2 * N * t + κ ^ 2 = 0 := by
    rw [← h5]; linear_combination t * hWt
  refine ⟨ht, h6, ?_, h5, h4'⟩
  have h7 : (κ * W - ρ * N) ^ 2 - 4 * ρ ^ 2 * Y ^ 2 = -(16 * A * X * T ^ 2 * W * κ * θ) := by
    have : (κ * W - ρ * N) ^ 2 - 4 * ρ ^ 2 * Y ^ 2
        = κ ^ 2 * W ^ 2 - 2 * κ * ρ * N * W + ρ ^ 2 * (N ^ 2 - 4 * Y ^ 2) := by ring
    rw [this, h1]
    have e1 : κ * W - 2 * ρ * N + ρ ^ 2 * κ = -(16 * A * X * T ^ 2 * θ) := by
      rw [eW, eN]; linear_combination -8 * A * X * T * eθ
    linear_combination W * κ * e1
  have h8 : (κ * W - ρ * N) ^ 2 < (2 * ρ * Y) ^ 2 := by
    have : 0 < 16 * A * X * T ^ 2 * W * κ * θ := by positivity
    nlinarith
  have h9 := abs_lt_of_sq_lt_sq h8 (by positivity)
  have h10 : W * (g * (κ - ρ * t)) = g * (κ * W - ρ * N) + 2 * ρ * Y := by
    linear_combination -g * ρ * hWt + 2 * ρ * Y * hg2
  have h11 := abs_lt.mp h9
  have h12 : 0 < W * (g * (κ - ρ * t)) := by
    rw [h10]; rcases hg with h | h <;> rw [h] <;> linarith [h11.1, h11.2]
  exact (pos_iff_pos_of_mul_pos h12).mp hW

/-- With `L = (κ - ρE²)/(4aTE)` both linear combinations of the turning-point equations hold. -/
lemma combos {a A X T κ ρ ε η W N E L : ℝ} (ha : a ≠ 0) (hA : A = a ^ 2) (hX : X ≠ 0) (hT : T ≠ 0)
    (hE : E ≠ 0) (eW : W = ρ ^ 2 - 8 * A * X * η * T) (eN : N = κ * ρ - 4 * A * X * ε * T)
    (hq : W * (E ^ 2) ^ 2 - 2 * N * E ^ 2 + κ ^ 2 = 0) (hL : L = (κ - ρ * E ^ 2) / (4 * a * T * E)) :
    ρ * E ^ 2 + 4 * a * T * (E * L) - κ = 0 ∧ η * E ^ 2 - 2 * T * L ^ 2 / X - ε = 0 := by
  have h1 : 4 * a * T * E * L = κ - ρ * E ^ 2 := by rw [hL]; field_simp
  refine ⟨by linear_combination h1, ?_⟩
  have h2 : 8 * A * T * E ^ 2 * (X * (η * E ^ 2 - ε) - 2 * T * L ^ 2) = 0 := by
    have : 16 * A * T ^ 2 * E ^ 2 * L ^ 2 = (κ - ρ * E ^ 2) ^ 2 := by rw [← h1, hA]; ring
    rw [eW, eN] at hq
    linear_combination -hq - this
  have hA0 : A ≠ 0 := by rw [hA]; positivity
  have h3 : 8 * A * T * E ^ 2 ≠ 0 := by positivity
  have h4 := (mul_eq_zero.mp h2).resolve_left h3
  field_simp
  linear_combination h4

/-! ### signs

In the variables `p`, `l = 1 - e²` (so `u = 2p/l`, `v = p²/l`). -/

def kapS (p l A w : ℝ) : ℝ :=
  p ^ 4 * (p - 4) + p ^ 2 * l * (4 * p - A * l) + A * w * p ^ 2 * (p * (4 - 2 * l) - 4 * l + l ^ 2)
    + A ^ 2 * w ^ 2 * p * l ^ 2 + A ^ 2 * w * (1 - w) * l ^ 3
def rhoS (p l A w : ℝ) : ℝ :=
  p ^ 2 * (p ^ 2 * (p - 4 + l) - 2 * A * l ^ 2) + A * w * p ^ 3 * (4 - 2 * l)
    + A ^ 2 * w ^ 2 * p * l ^ 2 + A ^ 2 * w * (2 - w) * l ^ 3
def epsS (p l A w : ℝ) : ℝ :=
  p ^ 4 * (4 - l) - 4 * p ^ 3 * l + A * p ^ 2 * l ^ 2 * (1 + w) - A ^ 2 * w * l ^ 3
def etaS (p l A w : ℝ) : ℝ :=
  p ^ 4 * (4 - l) + A * p ^ 2 * l ^ 2 * (1 + w) - A ^ 2 * w * l ^ 3
def TS (p l A w : ℝ) : ℝ := p ^ 2 - A * w * l
def thetaS (p l A w : ℝ) : ℝ :=
  p ^ 6 + A * p ^ 4 * (4 - (w + 2) * l) - 4 * A * p ^ 3 * (1 - w) * l + A ^ 2 * p ^ 2 * l ^ 2 * (2 * w + 1)
    - 4 * A ^ 2 * w * p ^ 2 * l - A ^ 3 * w * l ^ 3
/-- `(rho - kappa)/l` -/
def US (p l A w : ℝ) : ℝ :=
  p ^ 2 * (p ^ 2 - 4 * p - A * l) + A * w * p ^ 2 * (4 - l) + A ^ 2 * w * l ^ 2
def WS (p l A w : ℝ) : ℝ := rhoS p l A w ^ 2 - 4 * A * (1 - w) * etaS p l A w * TS p l A w * l ^ 2
def NS (p l A w : ℝ) : ℝ :=
  kapS p l A w * rhoS p l A w - 2 * A * (1 - w) * epsS p l A w * TS p l A w * l ^ 2

lemma scale {p l A w : ℝ} (hl : l ≠ 0) :
    kapH (2 * p / l) (p ^ 2 / l) A w = 2 / l ^ 3 * kapS p l A w
    ∧ rhoH (2 * p / l) (p ^ 2 / l) A w = 2 / l ^ 3 * rhoS p l A w
    ∧ epsH (2 * p / l) (p ^ 2 / l) A w = 2 / l ^ 3 * epsS p l A w
    ∧ etaH (2 * p / l) (p ^ 2 / l) A w = 2 / l ^ 3 * etaS p l A w
    ∧ thetaH (2 * p / l) (p ^ 2 / l) A w = 2 / l ^ 3 * thetaS p l A w
    ∧ TH (p ^ 2 / l) A w = 1 / l * TS p l A w
    ∧ WH (2 * p / l) (p ^ 2 / l) A w = 4 / l ^ 6 * WS p l A w
    ∧ NH (2 * p / l) (p ^ 2 / l) A w = 4 / l ^ 6 * NS p l A w := by
  have h1 : kapH (2 * p / l) (p ^ 2 / l) A w = 2 / l ^ 3 * kapS p l A w := by
    unfold kapH kapS; field_simp; ring
  have h2 : rhoH (2 * p / l) (p ^ 2 / l) A w = 2 / l ^ 3 * rhoS p l A w := by
    unfold rhoH rhoS; field_simp; ring
  have h3 : epsH (2 * p / l) (p ^ 2 / l) A w = 2 / l ^ 3 * epsS p l A w := by
    unfold epsH epsS; field_simp; ring
  have h4 : etaH (2 * p / l) (p ^ 2 / l) A w = 2 / l ^ 3 * etaS p l A w := by
    unfold etaH etaS; field_simp; ring
  have h5 : thetaH (2 * p / l) (p ^ 2 / l) A w = 2 / l ^ 3 * thetaS p l A w := by
    unfold thetaH thetaS; field_simp; ring
  have h6 : TH (p ^ 2 / l) A w = 1 / l * TS p l A w := by
    unfold TH TS; field_simp
  refine ⟨h1, h2, h3, h4, h5, h6, ?_, ?_⟩
  · unfold WH WS; rw [h2, h4, h6]; field_simp; ring
  · unfold NH NS; rw [h1, h2, h3, h6]; field_simp; ring

section
variable {p l A w : ℝ} (hp : 4 < p) (hl : 0 < l) (hl1 : l ≤ 1) (hA : 0 ≤ A) (hA1 : A ≤ 1)
  (hw : 0 ≤ w) (hw1 : w ≤ 1)
include hp hl hl1 hA hA1 hw hw1

lemma kapS_pos : 0 < kapS p l A w := by
  have h1 : 0 < p ^ 4 * (p - 4) := by have : 0 < p - 4 := by linarith
                                      positivity
  have h2 : 0 ≤ 4 * p - A * l := by nlinarith
  have h3 : 0 ≤ p * (4 - 2 * l) - 4 * l + l ^ 2 := by nlinarith
  have h4 : 0 ≤ 1 - w := by linarith
  unfold kapS; positivity

lemma rho_core : p ^ 2 * l - 2 * A * l ^ 2 > 0 := by
  have h1 : A * l ≤ 1 := by nlinarith
  have h2 : 0 < p ^ 2 - 2 * (A * l) := by nlinarith
  have h3 := mul_pos hl h2
  linarith

lemma rhoS_lower : p ^ 2 * (p ^ 2 * (p - 4 + l) - 2 * A * l ^ 2) ≤ rhoS p l A w := by
  have h3 : 0 ≤ 4 - 2 * l := by linarith
  have h4 : 0 ≤ 2 - w := by linarith
  have : 0 ≤ A * w * p ^ 3 * (4 - 2 * l)
    + A ^ 2 * w ^ 2 * p * l ^ 2 + A ^ 2 * w * (2 - w) * l ^ 3 := by positivity
  unfold rhoS; linarith

lemma rhoS_pos : 0 < rhoS p l A w := by
  have h0 := rho_core hp hl hl1 hA hA1 hw hw1
  have h1 := rhoS_lower hp hl hl1 hA hA1 hw hw1
  have h2 : 0 < p ^ 2 * (p ^ 2 * (p - 4 + l) - 2 * A * l ^ 2) := by
    have : 0 < p ^ 2 * (p - 4) := by have : 0 < p - 4 := by linarith
                                     positivity
    have : 0 < p ^ 2 * (p - 4 + l) - 2 * A * l ^ 2 := by linarith
    positivity
  linarith

lemma TS_pos : 0 < TS p l A w ∧ TS p l A w ≤ p ^ 2 := by
  have h1 : A * w ≤ 1 := by nlinarith
  have h0 : 0 ≤ A * w := by positivity
  have h2 : A * w * l ≤ 1 := by nlinarith
  have h3 : 0 ≤ A * w * l := by positivity
  unfold TS; constructor <;> nlinarith

lemma etaS_pos : 0 < etaS p l A w := by
  have h3 : 0 < 4 - l := by linarith
  have h4 : A * l ≤ 1 := by nlinarith
  have h5 : 0 ≤ p ^ 2 - A * l := by nlinarith
  have h6 : etaS p l A w = p ^ 4 * (4 - l) + A * p ^ 2 * l ^ 2 + A * w * l ^ 2 * (p ^ 2 - A * l) := by
    unfold etaS; ring
  rw [h6]; positivity

lemma epsS_pos : 0 < epsS p l A w := by
  have h4 : A * l ≤ 1 := by nlinarith
  have h5 : 0 ≤ p ^ 2 - A * l := by nlinarith
  have h7 : 0 < p * (4 - l) - 4 * l := by nlinarith
  have h6 : epsS p l A w = p ^ 3 * (p * (4 - l) - 4 * l) + A * p ^ 2 * l ^ 2
      + A * w * l ^ 2 * (p ^ 2 - A * l) := by
    unfold epsS; ring
  rw [h6]; positivity

/-- upper bound of `eta T` by its value at `w = 0` -/
lemma etaT_le : etaS p l A w * TS p l A w ≤ p ^ 4 * (p ^ 2 * (4 - l) + A * l ^ 2) := by
  have h1 : 0 ≤ 4 - 2 * l := by linarith
  have h2 : p ^ 4 * (p ^ 2 * (4 - l) + A * l ^ 2) - etaS p l A w * TS p l A w
      = A * w * l * p ^ 4 * (4 - 2 * l) + A ^ 2 * w * l ^ 3 * (p ^ 2 - A * w * l)
        + A ^ 2 * w * l ^ 3 * p ^ 2 * (1 + w) := by
    unfold etaS TS; ring
  have h3 := (TS_pos hp hl hl1 hA hA1 hw hw1).1
  unfold TS at h3
  have : 0 ≤ A * w * l * p ^ 4 * (4 - 2 * l) + A ^ 2 * w * l ^ 3 * (p ^ 2 - A * w * l)
        + A ^ 2 * w * l ^ 3 * p ^ 2 * (1 + w) := by positivity
  linarith

lemma WS_pos : 0 < WS p l A w := by
  have h0 := rho_core hp hl hl1 hA hA1 hw hw1
  have h1 := rhoS_lower hp hl hl1 hA hA1 hw hw1
  have h2 := etaT_le hp hl hl1 hA hA1 hw hw1
  obtain ⟨b, hb⟩ : ∃ b, b = p ^ 2 * (p - 4 + l) - 2 * A * l ^ 2 := ⟨_, rfl⟩
  rw [← hb] at h1
  have hb0 : 0 < b := by
    have : 0 < p ^ 2 * (p - 4) := by have : 0 < p - 4 := by linarith
                                     positivity
    rw [hb]; linarith
  have h3 : (p ^ 2 * b) ^ 2 ≤ rhoS p l A w ^ 2 := by
    have : 0 < p ^ 2 * b := by positivity
    nlinarith
  have h4 : 4 * A * (1 - w) * etaS p l A w * TS p l A w * l ^ 2
      ≤ 4 * A * l ^ 2 * (p ^ 4 * (p ^ 2 * (4 - l) + A * l ^ 2)) := by
    have h5 : (1 - w) * (etaS p l A w * TS p l A w) ≤ p ^ 4 * (p ^ 2 * (4 - l) + A * l ^ 2) := by
      have := mul_pos (etaS_pos hp hl hl1 hA hA1 hw hw1) (TS_pos hp hl hl1 hA hA1 hw hw1).1
      nlinarith
    have h6 : 0 ≤ 4 * A * l ^ 2 := by positivity
    have := mul_le_mul_of_nonneg_left h5 h6
    linarith
  have h5 : (p ^ 2 * b) ^ 2 - 4 * A * l ^ 2 * (p ^ 4 * (p ^ 2 * (4 - l) + A * l ^ 2))
      = p ^ 7 * (p * (p - 4 + l) ^ 2 - 4 * A * l ^ 2) := by
    rw [hb]; ring
  have h6 : 0 < p * (p - 4 + l) ^ 2 - 4 * A * l ^ 2 := by
    have h7 : l ^ 2 < (p - 4 + l) ^ 2 := by nlinarith
    have h8 : A * l ^ 2 ≤ l ^ 2 := by nlinarith [sq_nonneg l]
    nlinarith [sq_nonneg l]
  have h7 : 0 < p ^ 7 * (p * (p - 4 + l) ^ 2 - 4 * A * l ^ 2) := by positivity
  unfold WS
  linarith

lemma thetaS_pos : 0 < thetaS p l A w := by
  have h1 : 1 ≤ 4 - (w + 2) * l := by nlinarith
  have h2 : (1 - w) * l ≤ 1 := by nlinarith
  have h2' : 0 ≤ (1 - w) * l := mul_nonneg (by linarith) hl.le
  have h3 : 0 ≤ A * p ^ 3 := by positivity
  have h4 : A * p ^ 4 ≤ A * p ^ 4 * (4 - (w + 2) * l) := by
    have : 0 ≤ A * p ^ 4 := by positivity
    nlinarith
  have h5 : A * p ^ 3 * ((1 - w) * l) ≤ A * p ^ 3 := by nlinarith
  have h6 : 4 * (A * p ^ 3) ≤ A * p ^ 4 := by nlinarith
  have hA2 : A ^ 2 ≤ 1 := by nlinarith
  have hA3 : A ^ 3 ≤ 1 := by nlinarith [sq_nonneg A]
  have hwl : w * l ≤ 1 := by nlinarith
  have hwl0 : 0 ≤ w * l := by positivity
  have h7 : A ^ 2 * (w * l) ≤ 1 := by nlinarith [sq_nonneg A]
  have hl3 : l ^ 3 ≤ 1 := pow_le_one₀ hl.le hl1
  have h8 : A ^ 3 * (w * l ^ 3) ≤ 1 := by
    have : w * l ^ 3 ≤ 1 := by nlinarith [pow_pos hl 3]
    have h0 : 0 ≤ w * l ^ 3 := by positivity
    nlinarith [pow_nonneg hA 3]
  have h9 : 0 ≤ A ^ 2 * p ^ 2 * l ^ 2 * (2 * w + 1) := by positivity
  have h10 : A ^ 2 * (w * l) * p ^ 2 ≤ p ^ 2 := by nlinarith [sq_nonneg p]
  have h11 : 4 * p ^ 2 + 1 < p ^ 6 := by
    have : 16 < p ^ 2 := by nlinarith
    have : 256 < p ^ 4 := by nlinarith
    nlinarith
  unfold thetaS
  nlinarith

lemma NS_pos : 0 < NS p l A w := by
  have hW := WS_pos hp hl hl1 hA hA1 hw hw1
  have hη := etaS_pos hp hl hl1 hA hA1 hw hw1
  have hε := epsS_pos hp hl hl1 hA hA1 hw hw1
  have hκ := kapS_pos hp hl hl1 hA hA1 hw hw1
  have hρ := rhoS_pos hp hl hl1 hA hA1 hw hw1
  have hθ := thetaS_pos hp hl hl1 hA hA1 hw hw1
  have hT := (TS_pos hp hl hl1 hA hA1 hw hw1).1
  have e1 : kapS p l A w * etaS p l A w - epsS p l A w * rhoS p l A w
      = TS p l A w * l ^ 2 * thetaS p l A w := by
    unfold kapS etaS epsS rhoS TS thetaS; ring
  have h0 : 0 < TS p l A w * l ^ 2 * thetaS p l A w := by positivity
  have e2 : 2 * etaS p l A w * NS p l A w
      = epsS p l A w * WS p l A w + rhoS p l A w
        * (kapS p l A w * etaS p l A w + (kapS p l A w * etaS p l A w - epsS p l A w * rhoS p l A w)) := by
    unfold NS WS; ring
  have h1 : 0 < 2 * etaS p l A w * NS p l A w := by
    rw [e2, e1]; positivity
  exact (pos_iff_pos_of_mul_pos h1).mp (by positivity)

end

end KGP.Schmidt
