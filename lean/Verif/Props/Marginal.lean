import Verif.Props.RootsStable
import Verif.Props.Separatrix

/-!
# C42: the separatrix polynomial vanishes at the separatrix
-/

namespace KGP

open Classical Real

/-- algebraic core: `β = 1-E²`, roots `r1, r2, r2, y` -/
lemma marginal_core {A eps l q F K g p e w x r1 r2 y : ℝ}
    (hr1 : r1 * (1 - e) = p) (hr2 : r2 * (1 + e) = p) (hw : w = 1 - x ^ 2)
    (hK : K = (1 - e) * (1 + e) ^ 2) (hg : g = (3 - e) * (1 + e))
    (h1 : 2 * (eps + 1) = r1 + 2 * r2 + y)
    (h2 : A + l + q = 2 * r1 * r2 + r2 ^ 2 + y * (r1 + 2 * r2))
    (h3 : 2 * (l + q + A * eps - F) = r1 * r2 ^ 2 + y * (2 * r1 * r2 + r2 ^ 2))
    (h4 : A * q = r1 * r2 ^ 2 * y)
    (hz : q - (q + A + l) * w + A * w ^ 2 = 0) :
    SepCert.D p A e w * y = A * w * SepCert.B p A e w
      ∧ SepCert.M1 p A e w = 2 * K * eps * SepCert.D p A e w
      ∧ SepCert.M2 p A e w * x ^ 2 = K * l * SepCert.D p A e w
      ∧ SepCert.N p A e w = 2 * K * F * SepCert.D p A e w := by
  have hl : l = x ^ 2 * (A + l + q - A - A * w) := by rw [hw] at hz ⊢; linear_combination -hz
  have hq : q = w * (A + l + q - A * w) := by linear_combination hz
  have k1 : K * r1 = p * (1 + e) ^ 2 := by rw [hK, ← hr1]; ring
  have k2 : K * r2 = p * (1 - e) * (1 + e) := by rw [hK, ← hr2]; ring
  have k12 : K * (r1 * r2) = p ^ 2 * (1 + e) := by
    rw [hK]; linear_combination (1 + e) * (r2 * (1 + e)) * hr1 + (1 + e) * p * hr2
  have k22 : K * r2 ^ 2 = p ^ 2 * (1 - e) := by
    rw [hK]; linear_combination (1 - e) * (r2 * (1 + e) + p) * hr2
  have k122 : K * (r1 * r2 ^ 2) = p ^ 3 := by
    rw [hK]; linear_combination (r2 * (1 + e)) ^ 2 * hr1 + p * (r2 * (1 + e) + p) * hr2
  have ke2 : K * (A + l + q) = p ^ 2 * (3 + e) + y * p * g := by
    rw [h2, hg]; linear_combination 2 * k12 + k22 + y * (k1 + 2 * k2)
  have keps : 2 * K * eps = p * g + K * y - 2 * K := by
    rw [hg]; linear_combination K * h1 + k1 + 2 * k2
  have kF : 2 * K * F = SepCert.G p A e + y * SepCert.H p A e := by
    simp only [SepCert.G, SepCert.H]
    have a1 : SepCert.K e = K := by rw [hK, SepCert.K]
    have a2 : SepCert.g e = g := by rw [hg, SepCert.g]
    rw [a1, a2]
    linear_combination (-K) * h3 + 2 * ke2 + A * keps - k122 - y * (2 * k12 + k22)
  have hD : SepCert.D p A e w * y = A * w * SepCert.B p A e w := by
    have a1 : SepCert.K e = K := by rw [hK, SepCert.K]
    have a2 : SepCert.g e = g := by rw [hg, SepCert.g]
    simp only [SepCert.D, SepCert.B, a1, a2]
    linear_combination A * w * ke2 - K * h4 + A * K * hq - y * k122
  have a1 : SepCert.K e = K := by rw [hK, SepCert.K]
  have a2 : SepCert.g e = g := by rw [hg, SepCert.g]
  refine ⟨hD, ?_, ?_, ?_⟩
  · rw [SepCert.M1, a1, a2]
    linear_combination (-SepCert.D p A e w) * keps - K * hD
  · have hB : SepCert.B p A e w = K * (A + l + q - A * w) - y * p * g := by
      rw [SepCert.B, a1]; linear_combination -ke2
    have hDD : SepCert.D p A e w = p ^ 3 - p * g * (A * w) := by rw [SepCert.D, a2]; ring
    have : SepCert.M2 p A e w = K * (A + l + q - A - A * w) * SepCert.D p A e w := by
      rw [SepCert.M2, a1]
      linear_combination (-p * g) * hD + (SepCert.D p A e w) * hB - SepCert.B p A e w * hDD
    rw [this]; linear_combination (-K * SepCert.D p A e w) * hl
  · rw [SepCert.N]
    linear_combination (-SepCert.D p A e w) * kF - SepCert.H p A e * hD

/-- **C42.** If the radial potential of the constants `(E, L, Q)` has the turning points `p/(1-e)`
and `p/(1+e)`, the latter as a *double* root (so that the orbit is marginally stable), and the polar
turning point is at `cos²θ = 1 - x²`, then the polynomial whose zero `separatrix` looks for vanishes
at `p`. -/
theorem C42_marginal_orbit_zero (a p e x E L Q y : ℝ) (he1 : e ≠ 1) (he2 : e ≠ -1) (hE : E ^ 2 ≠ 1)
    (hR : Spec.RadialRoots a E L Q (p / (1 - e)) (p / (1 + e)) (p / (1 + e)) y)
    (hZ : Spec.Zpol a E L Q (1 - x ^ 2) = 0) :
    SFull p a e x = 0 := by
  obtain ⟨v1, v2, v3, v4⟩ := RadialRoots.vieta hR
  have hb : 1 - E ^ 2 ≠ 0 := fun h => hE (by linarith)
  have h1e : 1 - e ≠ 0 := fun h => he1 (by linarith)
  have h2e : 1 + e ≠ 0 := fun h => he2 (by linarith)
  obtain ⟨r1, hr1⟩ : ∃ r, r = p / (1 - e) := ⟨_, rfl⟩
  obtain ⟨r2, hr2⟩ : ∃ r, r = p / (1 + e) := ⟨_, rfl⟩
  rw [← hr1, ← hr2] at v1 v2 v3 v4
  have hr1' : r1 * (1 - e) = p := by rw [hr1]; field_simp
  have hr2' : r2 * (1 + e) = p := by rw [hr2]; field_simp
  obtain ⟨b, hbb⟩ : ∃ b, b = 1 - E ^ 2 := ⟨_, rfl⟩
  unfold Spec.Zpol at hZ
  rw [← hbb] at hb v1 v2 v3 v4 hZ
  have hE2 : E ^ 2 = 1 - b := by linarith
  obtain ⟨-, c1, c2, c3⟩ := marginal_core (A := a ^ 2) (eps := E ^ 2 / b) (l := L ^ 2 / b)
    (q := Q / b) (F := 2 * a * E * L / b) (x := x) (w := 1 - x ^ 2) (y := y) hr1' hr2' rfl rfl rfl
    (by field_simp; linear_combination -v1 + 2 * hE2)
    (by field_simp; linear_combination -v2)
    (by field_simp; linear_combination -v3)
    (by field_simp; linear_combination -v4)
    (by field_simp; linear_combination hZ)
  rw [SFull_eq, c3, c1]
  obtain ⟨D, hD⟩ : ∃ D, D = SepCert.D p (a ^ 2) e (1 - x ^ 2) := ⟨_, rfl⟩
  obtain ⟨K, hK⟩ : ∃ D, D = (1 - e) * (1 + e) ^ 2 := ⟨_, rfl⟩
  rw [← hD, ← hK] at c2 ⊢
  have : (2 * a * E * L / b) ^ 2 = 4 * a ^ 2 * (E ^ 2 / b) * (L ^ 2 / b) := by field_simp; ring
  linear_combination (4 * K ^ 2 * D ^ 2) * this - (16 * a ^ 2 * K * (E ^ 2 / b) * D) * c2

/-- Non-vacuity of C42: an eccentric, inclined, marginally stable orbit around a fast spinning black
hole, `a² = 24/25`, `p = 18/5`, `e = 1/2`, `x² = 8√10 - 25 ≈ 0.298`, with `E² = 27/32`, `L = 3/2`,
`Q = 27/5` and radial roots `36/5, 12/5, 12/5, 4/5`. -/
example : SFull (18 / 5) (√(24 / 25)) (1 / 2) (√(8 * √10 - 25)) = 0 := by
  have h10 : √10 ^ 2 = 10 := Real.sq_sqrt (by norm_num)
  have h10' : (3125 / 1000 : ℝ) ≤ √10 := Real.le_sqrt_of_sq_le (by norm_num)
  have ha : √(24 / 25) ^ 2 = 24 / 25 := Real.sq_sqrt (by norm_num)
  have hE : √(27 / 32) ^ 2 = 27 / 32 := Real.sq_sqrt (by norm_num)
  have hx : √(8 * √10 - 25) ^ 2 = 8 * √10 - 25 := Real.sq_sqrt (by linarith)
  have haE : √(24 / 25) * √(27 / 32) = 9 / 10 := by
    rw [← Real.sqrt_mul (by norm_num), show (24 / 25 : ℝ) * (27 / 32) = (9 / 10) ^ 2 by norm_num,
      Real.sqrt_sq (by norm_num)]
  refine C42_marginal_orbit_zero _ _ _ _ (√(27 / 32)) (3 / 2) (27 / 5) (4 / 5) (by norm_num)
    (by norm_num) (by rw [hE]; norm_num) ?_ ?_
  · intro r
    generalize √(27 / 32 : ℝ) = E at *
    generalize √(24 / 25 : ℝ) = a at *
    norm_num
    unfold Spec.R Spec.Delta
    linear_combination ((36 / 5 - r) * (r - 12 / 5) * (r - 12 / 5) * (r - 4 / 5)) * hE + (r ^ 4 + 2 * r ^ 2 * a ^ 2 + a ^ 4 - a ^ 2 * (r ^ 2 - 2 * r + a ^ 2)) * hE
      + ((27 / 32 * (2 * r ^ 2 + a ^ 2) + 27 / 32 * 24 / 25) + 9 / 4 - (r ^ 2 + 9 / 4 + 27 / 5)
          - (27 / 32) * (r ^ 2 - 2 * r + a ^ 2) - 27 / 32 * 24 / 25 ) * ha
      + (-3 * (r ^ 2 + a ^ 2) + 3 * (r ^ 2 - 2 * r + a ^ 2)) * haE
  · unfold Spec.Zpol
    rw [ha, hE, hx]
    linear_combination 64 * (24 / 25 * (1 - 27 / 32)) * h10

end KGP
