import Verif.Lemmas.SchmidtUnique
import Verif.Lemmas.Threshold
import Verif.Lemmas.SepCurve

/-!
# Schmidt's formula for prograde orbits close to the horizon

For `p ≤ 4` the coefficients of the quadratic equation for `E²` have no definite sign.  Outside the
separatrix (where its polynomial is negative) the formula is still right, provided its divisors are not zero.
-/

namespace KGP.SepCurve

/-- The Boyer–Lindquist `Δ` is not negative where `A = Af`. -/
lemma horizon_le_Af {ρ q r : ℝ} (hρ : 1 ≤ ρ) (hq : 0 ≤ q) (hr : 1 ≤ r) :
    2 * r - r ^ 2 ≤ Af ρ q r := by
  have hh := hf_pos hρ hq hr
  have hg : 0 < ρ + q := by linarith
  have hk := kf_spec hg hh.le
  have hA := Af_kf hg hh.le
  have hP : 0 ≤ ρ * q := by positivity
  have hk0 : 0 ≤ kf ρ q r := div_nonneg (Real.sqrt_nonneg _) hg.le
  generalize Af ρ q r = A at *
  generalize kf ρ q r = k at *
  generalize ρ * q = P at *
  generalize ρ + q = g at *
  have hg2 : 0 < g + 2 := by linarith
  have e1 : r = (g * k ^ 2 + 2) / (g + 2) := by field_simp; linarith
  have e2 : A - (2 * r - r ^ 2)
      = g * (k - 1) ^ 2 * (a3 g P k + g * (g + 2) * (k + 1) ^ 2) / (g + 2) ^ 3 := by
    have : A = 1 + (k - 1) ^ 2 * g * a3 g P k / (g + 2) ^ 3 := by linarith
    rw [this, e1]; field_simp; ring
  have e3 : a3 g P k + g * (g + 2) * (k + 1) ^ 2
      = g * (g + 2 * P) * k ^ 2 + g * (g + 2) * k ^ 2 + 4 + 4 * g + 4 * P := by
    unfold a3; ring
  have : 0 ≤ A - (2 * r - r ^ 2) := by rw [e2, e3]; positivity
  linarith

lemma Af_lt {A ρ q r : ℝ} (hρ : 1 ≤ ρ) (hq : 0 ≤ q) (hr : 1 ≤ r) (h : Sh A r ρ 1 q < 0) :
    Af ρ q r < A := by
  have hh := hf_pos hρ hq hr
  have hs := Real.sq_sqrt hh.le
  have hs0 := Real.sqrt_nonneg (hf ρ q r)
  have e := Sh_square A r ρ q
  have hκ : 0 < (ρ + q + 2) ^ 2 := by positivity
  have h1 : r ^ 2 * (((ρ + q + 2) ^ 2 * A - r * Pf ρ q r) ^ 2
      - r ^ 2 * (16 * (1 + (ρ + q) + ρ * q) ^ 2 * hf ρ q r)) < 0 := by
    rw [← e]; exact mul_neg_of_pos_of_neg hκ h
  have h2 : ((ρ + q + 2) ^ 2 * A - r * Pf ρ q r) ^ 2
      - r ^ 2 * (16 * (1 + (ρ + q) + ρ * q) ^ 2 * hf ρ q r) < 0 := by
    by_contra hcon
    have := mul_nonneg (sq_nonneg r) (not_lt.mp hcon)
    linarith
  rw [Af, div_lt_iff₀ hκ]
  have h3 : ((ρ + q + 2) ^ 2 * A - r * Pf ρ q r) ^ 2 
      < (4 * r * (1 + (ρ + q) + ρ * q) * √(hf ρ q r)) ^ 2 := by
    rw [mul_pow _ (√(hf ρ q r)), hs]; linarith
  have h4 := abs_lt_of_sq_lt_sq h3 (by positivity)
  linarith [(abs_lt.mp h4).1]

open SepCert in
lemma M2_pos_inner {A e w p : ℝ} (hA : 0 < A) (hA1 : A < 1) (he : 0 ≤ e) (he1 : e < 1) (hw : 0 ≤ w)
    (hw1 : w ≤ 1) (hp : 1 + e ≤ p) : 0 < M2 p A e w := by
  have hc0 : 0 < 1 - e := by linarith
  have hf0 : 0 < 1 + e := by linarith
  have hp0 : 0 < p := by linarith
  have hKe : 0 < K e := by unfold K; positivity
  have k1 : M2 p A e w = p * (p ^ 4 * (3 + e) - K e * A * p ^ 2 * (1 + w) + A ^ 2 * K e * w * g e) := by
    unfold M2 B D; ring
  have hKp2 : K e ≤ p ^ 2 := by
    have h1 : (1 + e) ^ 2 ≤ p ^ 2 := pow_le_pow_left₀ hf0.le hp 2
    have h2 : (1 - e) * (1 + e) ^ 2 ≤ 1 * (1 + e) ^ 2 :=
      mul_le_mul_of_nonneg_right (by linarith) (by positivity)
    unfold K; linarith
  have h6 : A * (1 + w) ≤ 2 := by
    have := mul_le_mul hA1.le (by linarith : 1 + w ≤ 2) (by linarith) (by norm_num)
    linarith
  have h7 : K e * (A * (1 + w)) ≤ p ^ 2 * 2 :=
    mul_le_mul hKp2 h6 (by positivity) (by positivity)
  have h5 := mul_le_mul_of_nonneg_right h7 (sq_nonneg p)
  have hg0 : 0 < g e := by unfold g; exact mul_pos (by linarith) hf0
  have h8 : 0 ≤ A ^ 2 * K e * w * g e := by positivity
  have h9 : 0 ≤ p ^ 4 * e := by positivity
  have h10 : 0 < p ^ 4 := by positivity
  rw [k1]
  refine mul_pos hp0 ?_
  have e1 : p ^ 2 * 2 * p ^ 2 = 2 * p ^ 4 := by ring
  linarith

open SepCert in
/-- Outside the separatrix the inner turning point is outside the horizon, and the auxiliary polynomials
are positive. -/
lemma inner_geom {A e w p : ℝ} (hA : 0 < A) (hA1 : A < 1) (he : 0 ≤ e) (he1 : e < 1) (hw : 0 ≤ w)
    (hw1 : w ≤ 1) (hp : 1 + e ≤ p)
    (hS : N p A e w ^ 2 - 8 * A * (1 - w) * (M1 p A e w * M2 p A e w) < 0) :
    0 < D p A e w ∧ 2 * p * (1 + e) < p ^ 2 + A * (1 + e) ^ 2
      ∧ 0 < M1 p A e w ∧ 0 < M2 p A e w := by
  have hc0 : 0 < 1 - e := by linarith
  have hf0 : 0 < 1 + e := by linarith
  obtain ⟨c, hc⟩ : ∃ c, c = 1 - e := ⟨_, rfl⟩
  obtain ⟨ρ, hρd⟩ : ∃ ρ, ρ = (1 + e) / (1 - e) := ⟨_, rfl⟩
  have hρc : 1 + e = ρ * c := by rw [hρd, hc]; field_simp
  have hρ : 1 ≤ ρ := by rw [hρd, le_div_iff₀ hc0]; linarith
  obtain ⟨r, hr⟩ : ∃ r, r = p / (1 + e) := ⟨_, rfl⟩
  have hpr : p = ρ * c * r := by rw [← hρc, hr]; field_simp
  have h1r : 1 ≤ r := by rw [hr, le_div_iff₀ hf0]; linarith
  obtain ⟨u, hu⟩ : ∃ u, u = A * w / r ^ 2 := ⟨_, rfl⟩
  have hrp : 0 < r := by linarith
  have hy : A * w = u * r ^ 2 := by rw [hu]; field_simp
  have hAw : A * w ≤ A := by nlinarith
  have hAw0 : 0 ≤ A * w := by positivity
  have hu0 : 0 ≤ u := by rw [hu]; positivity
  have hK : 0 < (ρ ^ 2 * c ^ 3) ^ 4 := by
    have : 0 < c := by rw [hc]; exact hc0
    positivity
  have hS' := hS
  rw [S_eq hc.symm hρc hpr hy] at hS
  have hSh : Sh A r ρ (ρ - u * (ρ + 2)) (u * (2 * ρ + 1 - u)) < 0 := by
    by_contra hcon
    have := mul_nonneg (mul_pos hK (pow_pos hrp 6)).le (not_lt.mp hcon)
    linarith
  have hr2 : 1 ≤ r ^ 2 := one_le_pow₀ h1r
  have hult : u < 1 := by
    have := mul_le_mul_of_nonneg_left hr2 hu0
    linarith
  have hnd : u * (2 * ρ + 1 - u) < ρ - u * (ρ + 2) := by
    by_contra hcon
    rcases eq_or_lt_of_le hu0 with h | h
    · rw [← h] at hcon; apply hcon; rw [zero_mul, zero_mul]; linarith
    · have := Sh_pos hρ h1r hA1 h (by linarith) (not_lt.mp hcon)
      linarith
  have hn0 : 0 ≤ u * (2 * ρ + 1 - u) := mul_nonneg hu0 (by linarith)
  have hd0 : 0 < ρ - u * (ρ + 2) := by linarith
  rw [Sh_dehom hd0.ne'] at hSh
  have hS1 : Sh A r ρ 1 (u * (2 * ρ + 1 - u) / (ρ - u * (ρ + 2))) < 0 := by
    by_contra hcon
    have := mul_nonneg (pow_pos hd0 2).le (not_lt.mp hcon)
    linarith
  have hq0 : 0 ≤ u * (2 * ρ + 1 - u) / (ρ - u * (ρ + 2)) := div_nonneg hn0 hd0.le
  have hlt := Af_lt hρ hq0 h1r hS1
  have hle := horizon_le_Af hρ hq0 h1r
  have hhor : 2 * r - r ^ 2 < A := by linarith
  have hKe : 0 < K e := by unfold K; positivity
  have hD : 0 < D p A e w := by
    have hcp : 0 < c := by rw [hc]; exact hc0
    have e1 : D p A e w = p * (ρ * c ^ 2 * r ^ 2) * (ρ - u * (ρ + 2)) := by
      unfold D g
      rw [hy, hρc, show 3 - e = ρ * c + 2 * c by linarith]
      rw [hpr]; ring
    have hpp : 0 < p := by linarith
    rw [e1]; positivity
  have hM2 := M2_pos_inner hA hA1 he he1 hw hw1 hp
  refine ⟨hD, ?_, ?_, hM2⟩
  · have : p = r * (1 + e) := by rw [hr]; field_simp
    have h2 : 0 < (1 + e) ^ 2 * (A - (2 * r - r ^ 2)) := mul_pos (by positivity) (by linarith)
    rw [this]; linarith
  · have h1 : 0 < 8 * A * (1 - w) * (M1 p A e w * M2 p A e w) := by linarith [sq_nonneg (N p A e w)]
    have h2 : 0 ≤ 8 * A * (1 - w) := by have : 0 ≤ 1 - w := by linarith
                                        positivity
    have h3 := pos_of_mul_pos_right h1 h2
    exact pos_of_mul_pos_left h3 hM2.le

end KGP.SepCurve

namespace KGP.Schmidt

open Classical Real SepCert

set_option linter.unusedSectionVars false

section
variable {p e A w : ℝ} (hA : 0 < A) (hA1 : A < 1) (he : 0 ≤ e) (he1 : e < 1) (hw : 0 ≤ w)
    (hw1 : w ≤ 1) (hp : 1 + e ≤ p)
include hA hA1 he he1 hw hw1 hp

lemma TS_pos_inner : 0 < TS p (1 - e ^ 2) A w ∧ 0 < p ^ 2 - A * (1 - e ^ 2) := by
  have hl : 0 < 1 - e ^ 2 := by nlinarith
  have hl1 : 1 - e ^ 2 ≤ 1 := by linarith [sq_nonneg e]
  have h1 : A * (1 - e ^ 2) < 1 := by
    have := mul_le_mul_of_nonneg_left hl1 hA.le
    linarith
  have h0 : 0 ≤ A * (1 - e ^ 2) := by positivity
  have h2 : w * (A * (1 - e ^ 2)) ≤ 1 * (A * (1 - e ^ 2)) := mul_le_mul_of_nonneg_right hw1 h0
  have h3 : 1 ≤ p ^ 2 := one_le_pow₀ (by linarith)
  unfold TS
  constructor <;> linarith

lemma thetaS_pos_inner : 0 < thetaS p (1 - e ^ 2) A w := by
  have h1 := (TS_pos_inner hA hA1 he he1 hw hw1 hp).2
  have hl1 : 1 - e ^ 2 ≤ 1 := by linarith [sq_nonneg e]
  have hp0 : 0 < p := by linarith
  have hpl : 0 ≤ p - (1 - e ^ 2) := by linarith
  have e1 : thetaS p (1 - e ^ 2) A w
      = (1 - w) * (p ^ 2 * ((p ^ 2 - A * (1 - e ^ 2)) ^ 2 + 4 * A * p * (p - (1 - e ^ 2))))
        + w * ((p ^ 2 - A * (1 - e ^ 2)) ^ 3 + 4 * A * p ^ 2 * (p ^ 2 - A * (1 - e ^ 2))) := by
    unfold thetaS; ring
  have k1 : 0 < p ^ 2 * ((p ^ 2 - A * (1 - e ^ 2)) ^ 2 + 4 * A * p * (p - (1 - e ^ 2))) := by positivity
  have k2 : 0 < (p ^ 2 - A * (1 - e ^ 2)) ^ 3 + 4 * A * p ^ 2 * (p ^ 2 - A * (1 - e ^ 2)) := by positivity
  rw [e1]
  rcases eq_or_lt_of_le hw1 with h | h
  · rw [h]; linarith
  · have : 0 < 1 - w := by linarith
    positivity

lemma etaS_pos_inner : 0 < etaS p (1 - e ^ 2) A w := by
  have h1 := (TS_pos_inner hA hA1 he he1 hw hw1 hp).2
  have hp0 : 0 < p := by linarith
  have h3 : 0 < 4 - (1 - e ^ 2) := by linarith [sq_nonneg e]
  have h6 : etaS p (1 - e ^ 2) A w = p ^ 4 * (4 - (1 - e ^ 2)) + A * p ^ 2 * (1 - e ^ 2) ^ 2
      + A * w * (1 - e ^ 2) ^ 2 * (p ^ 2 - A * (1 - e ^ 2)) := by
    unfold etaS; ring
  rw [h6]; positivity

lemma epsS_pos_inner (hh : 2 * p * (1 + e) < p ^ 2 + A * (1 + e) ^ 2) : 0 < epsS p (1 - e ^ 2) A w := by
  have h1 := (TS_pos_inner hA hA1 he he1 hw hw1 hp).2
  have hp0 : 0 < p := by linarith
  have hc : 0 < 1 - e := by linarith
  have h6 : epsS p (1 - e ^ 2) A w = 2 * p ^ 3 * (1 + e) * (p - (1 - e ^ 2))
      + p ^ 2 * (1 - e) ^ 2 * (p ^ 2 + A * (1 + e) ^ 2 - 2 * p * (1 + e))
      + A * w * (1 - e ^ 2) ^ 2 * (p ^ 2 - A * (1 - e ^ 2)) := by
    unfold epsS; ring
  have h7 : 0 ≤ p - (1 - e ^ 2) := by linarith [sq_nonneg e]
  have h8 : 0 < p ^ 2 + A * (1 + e) ^ 2 - 2 * p * (1 + e) := by linarith
  rw [h6]; positivity

end

/-- The value of the quadratic at the critical energy is the separatrix polynomial. -/
lemma star_value (p A e w : ℝ) :
    WS p (1 - e ^ 2) A w * M1 p A e w ^ 2
      - 2 * NS p (1 - e ^ 2) A w * M1 p A e w * (M1 p A e w + 2 * K e * D p A e w)
      + kapS p (1 - e ^ 2) A w ^ 2 * (M1 p A e w + 2 * K e * D p A e w) ^ 2
      = ((1 - e ^ 2) ^ 2 * TS p (1 - e ^ 2) A w) ^ 2
        * (N p A e w ^ 2 - 8 * A * (1 - w) * (M1 p A e w * M2 p A e w)) := by
  have h1 := star_kappa p A e w
  have h2 := star_eta p A e w
  unfold WS NS
  generalize kapS p (1 - e ^ 2) A w = κ at *
  generalize rhoS p (1 - e ^ 2) A w = ρ at *
  generalize etaS p (1 - e ^ 2) A w = η at *
  generalize epsS p (1 - e ^ 2) A w = ε at *
  generalize TS p (1 - e ^ 2) A w = T at *
  generalize M1 p A e w = m at *
  generalize M2 p A e w = k at *
  generalize m + 2 * K e * D p A e w = d at *
  generalize N p A e w = n at *
  generalize 1 - e ^ 2 = l at *
  linear_combination (κ * d - ρ * m + l ^ 2 * T * n) * h1 - 4 * A * (1 - w) * T * l ^ 2 * m * h2

/-- The branch of the energy for prograde orbits, without assuming the signs of `κ, ρ, W, N`. -/
lemma core_inner {A X T κ ρ ε η θ Y W N : ℝ} (hA : 0 < A) (hX : 0 < X) (hT : 0 < T)
    (hθ : 0 < θ) (hε : 0 < ε) (hη : 0 < η) (hW : W ≠ 0) (hN : 0 < W → 0 < N) (hY0 : 0 ≤ Y)
    (hY : Y ^ 2 = -2 * A * X * T * (-2 * A * X * T * ε ^ 2 + ρ * ε * κ - η * κ ^ 2))
    (eW : W = ρ ^ 2 - 8 * A * X * η * T) (eN : N = κ * ρ - 4 * A * X * ε * T)
    (eθ : κ * η - ε * ρ = 2 * T * θ) :
    let t := (N - 2 * Y) / W
    0 < t ∧ W * t ^ 2 - 2 * N * t + κ ^ 2 = 0 ∧ 0 < κ - ρ * t ∧ t * (N + 2 * Y) = κ ^ 2
      ∧ W * t ≤ N := by
  intro t
  have h1 : N ^ 2 - 4 * Y ^ 2 = W * κ ^ 2 := by rw [hY, eW, eN]; ring
  have hk0 : κ = 0 → N < 0 := by
    intro h
    have : 0 < 4 * A * X * ε * T := by positivity
    rw [eN, h]; linarith
  have hWt : W * t = N - 2 * Y := by simp only [t]; field_simp
  have ht : 0 < t := by
    rcases lt_or_gt_of_ne hW with h | h
    · refine div_pos_of_neg_of_neg ?_ h
      by_contra hcon
      have h2 : 0 ≤ N := by linarith
      have hk : κ ≠ 0 := fun hk => by linarith [hk0 hk]
      have h3 : W * κ ^ 2 < 0 := mul_neg_of_neg_of_pos h (by positivity)
      nlinarith
    · have hN' := hN h
      have hk : κ ≠ 0 := fun hk => by linarith [hk0 hk]
      have h3 : 0 < W * κ ^ 2 := by positivity
      exact div_pos (by nlinarith) h
  have h5 : t * (N + 2 * Y) = κ ^ 2 := by
    have : W * (t * (N + 2 * Y)) = W * κ ^ 2 := by
      rw [← mul_assoc, hWt, ← h1]; ring
    exact mul_left_cancel₀ hW this
  have h6 : W * t ^ 2 - 2 * N * t + κ ^ 2 = 0 := by
    rw [← h5]; linear_combination t * hWt
  refine ⟨ht, h6, ?_, h5, by linarith⟩
  have h7 : (κ - ρ * t) ^ 2 = 8 * A * X * T * t * (η * t - ε) := by
    rw [eW, eN] at h6; linear_combination h6
  have h8 : 0 ≤ η * t - ε := by
    by_contra hcon
    have : 8 * A * X * T * t * (η * t - ε) < 0 := mul_neg_of_pos_of_neg (by positivity) (not_le.mp hcon)
    linarith [sq_nonneg (κ - ρ * t)]
  have hTθ : 0 < 2 * T * θ := by positivity
  rcases le_or_gt ρ 0 with hρ | hρ
  · have h9 : 0 < η * (κ - ρ * t) := by
      have := mul_nonneg (neg_nonneg.mpr hρ) h8
      linarith
    exact (pos_iff_pos_of_mul_pos h9).mp hη
  · have hκ : 0 < κ := by
      have : 0 < κ * η := by have := mul_pos hε hρ; linarith
      exact (pos_iff_pos_of_mul_pos this).mpr hη
    have h10 : W * (κ - ρ * t) = (κ * W - ρ * N) + 2 * ρ * Y := by linear_combination -ρ * hWt
    have h7' : (κ * W - ρ * N) ^ 2 - 4 * ρ ^ 2 * Y ^ 2 = -(16 * A * X * T ^ 2 * κ * θ) * W := by
      have : (κ * W - ρ * N) ^ 2 - 4 * ρ ^ 2 * Y ^ 2
          = κ ^ 2 * W ^ 2 - 2 * κ * ρ * N * W + ρ ^ 2 * (N ^ 2 - 4 * Y ^ 2) := by ring
      rw [this, h1]
      have e1 : κ * W - 2 * ρ * N + ρ ^ 2 * κ = -(16 * A * X * T ^ 2 * θ) := by
        rw [eW, eN]; linear_combination -8 * A * X * T * eθ
      linear_combination W * κ * e1
    have hc : 0 < 16 * A * X * T ^ 2 * κ * θ := by positivity
    have hρY : 0 ≤ 2 * ρ * Y := by positivity
    rcases lt_or_gt_of_ne hW with h | h
    · have h11 : κ * W - ρ * N = -(4 * A * X * T * (ε * ρ + 4 * T * θ)) := by
        rw [eW, eN]; linear_combination -8 * A * X * T * eθ
      have h12 : 0 < 4 * A * X * T * (ε * ρ + 4 * T * θ) := by positivity
      have h13 : 0 < -(16 * A * X * T ^ 2 * κ * θ) * W := mul_pos_of_neg_of_neg (by linarith) h
      have h14 : (2 * ρ * Y) ^ 2 < (-(κ * W - ρ * N)) ^ 2 := by nlinarith
      have h15 := abs_lt_of_sq_lt_sq h14 (by linarith)
      rw [abs_of_nonneg hρY] at h15
      have h16 : W * (κ - ρ * t) < 0 := by rw [h10]; linarith
      by_contra hcon
      have := mul_nonneg_of_nonpos_of_nonpos h.le (not_lt.mp hcon)
      linarith
    · have h13 : 0 < 16 * A * X * T ^ 2 * κ * θ * W := mul_pos hc h
      have h14 : (κ * W - ρ * N) ^ 2 < (2 * ρ * Y) ^ 2 := by nlinarith
      have h15 := abs_lt.mp (abs_lt_of_sq_lt_sq h14 hρY)
      have h16 : 0 < W * (κ - ρ * t) := by rw [h10]; linarith [h15.1]
      exact (pos_iff_pos_of_mul_pos h16).mp h

/-- Everything for a pair of radii, prograde, the determinants being free variables. -/
lemma exact_abs_inner {a x r s E L κ ρ ε η θ T W N Y : ℝ} (ha : 0 < a) (hx0 : 0 < x) (hx : x ^ 2 ≤ 1)
    (hr : 0 < r) (hθ : 0 < θ) (hε : 0 < ε) (hη : 0 < η) (hT : 0 < T) (hW : W ≠ 0) (hN : 0 < W → 0 < N)
    (hYn : 0 ≤ Y) (hdel : 0 < r ^ 2 - 2 * r + a ^ 2) (hh : (coefficients r a x).h ≠ 0)
    (hYs : Y ^ 2 = -2 * a ^ 2 * x ^ 2 * T * (-2 * a ^ 2 * x ^ 2 * T * ε ^ 2 + ρ * ε * κ - η * κ ^ 2))
    (hWd : W = ρ ^ 2 - 8 * a ^ 2 * x ^ 2 * η * T) (hNd : N = κ * ρ - 4 * a ^ 2 * x ^ 2 * ε * T)
    (hth : κ * η - ε * ρ = 2 * T * θ)
    (P : ∀ r', r' = r ∨ r' = s →
      let D := r' ^ 2 - 2 * r' + a ^ 2
      let H := (1 - (1 - x ^ 2)) * (r' * (r' - 2)) + (1 - x ^ 2) * D
      (r' ^ 2 + a ^ 2 * (1 - x ^ 2)) * D * (-2 * T) - 2 * r' * κ + H * ε = 0
      ∧ (r' ^ 4 + a ^ 2 * (r' * (r' + 2) + (1 - x ^ 2) * D)) * (-2 * T) - 2 * r' * ρ + H * η = 0)
    (P' : r = s →
      (2 * (2 * r - 3) * r ^ 2 + 2 * a ^ 2 * ((1 + (1 - x ^ 2)) * r - (1 - x ^ 2))) * (-2 * T)
        - 2 * κ + 2 * (r - 1) * ε = 0
      ∧ (4 * r ^ 3 + 2 * a ^ 2 * ((1 + (1 - x ^ 2)) * r + (1 - (1 - x ^ 2)))) * (-2 * T)
        - 2 * ρ + 2 * (r - 1) * η = 0)
    (hE : E = √((N - Real.sign x * 2 * Y) / W)) (hL : L = solveL x E (coefficients r a x)) :
    0 < E ∧ 0 < Real.sign x * L
    ∧ Spec.R a E L (carterFormula a x E L) r = 0 ∧ Spec.R a E L (carterFormula a x E L) s = 0
    ∧ (r = s → deriv (Spec.R a E L (carterFormula a x E L)) r = 0)
    ∧ W * (E ^ 2) ^ 2 - 2 * N * E ^ 2 + κ ^ 2 = 0
    ∧ 0 < Real.sign x * (κ - ρ * E ^ 2) ∧ W * E ^ 2 ≤ N
    ∧ 0 < (coefficients r a x).h * L + (coefficients r a x).g * E := by
  have hA : 0 < a ^ 2 := by positivity
  have hX : 0 < x ^ 2 := by positivity
  have hg : Real.sign x = 1 := Real.sign_of_pos hx0
  have hw0 : 0 ≤ 1 - x ^ 2 := by linarith
  have hX1 : 1 - (1 - x ^ 2) = x ^ 2 := by ring
  obtain ⟨P1, P2⟩ := P r (.inl rfl)
  obtain ⟨ht, hq, hsg, htk, hNY⟩ := core_inner hA hX hT hθ hε hη hW hN hYn hYs hWd hNd hth
  rw [hg, one_mul] at hE
  have hEpos : 0 < E := by rw [hE]; exact Real.sqrt_pos.mpr ht
  have hE2 : E ^ 2 = (N - 2 * Y) / W := by rw [hE, Real.sq_sqrt ht.le]
  rw [← hE2] at hq hsg htk hNY
  obtain ⟨L', hL'⟩ : ∃ L', L' = (κ - ρ * E ^ 2) / (4 * a * T * E) := ⟨_, rfl⟩
  obtain ⟨c1, c2⟩ := combos ha.ne' rfl hX.ne' hT.ne' hEpos.ne' hWd hNd hq hL'
  have hz : √(1 - x ^ 2) ^ 2 = 1 - x ^ 2 := Real.sq_sqrt hw0
  have c2' : x ^ 2 * (η * E ^ 2 - ε) = 2 * T * L' ^ 2 := by
    field_simp at c2; linear_combination c2
  have hL0 : 0 < L' := by rw [hL']; positivity
  have hhc : (coefficients r a x).h = ((1 - (1 - x ^ 2)) * (r * (r - 2))
      + (1 - x ^ 2) * (r ^ 2 - 2 * r + a ^ 2)) / x ^ 2 := by
    simp only [coefficients, hz, hX1]; field_simp; try ring
  have hgc : (coefficients r a x).g = 2 * a * r := rfl
  have hbr : 0 < Real.sign x * ((coefficients r a x).h * L' + (coefficients r a x).g * E) := by
    rw [hg, one_mul, hgc]
    have hgE : 0 < 2 * a * r * E := by positivity
    rcases lt_or_gt_of_ne hh with h | h
    · rw [hhc] at h ⊢
      obtain ⟨Hh, eH⟩ : ∃ Hh, Hh = (1 - (1 - x ^ 2)) * (r * (r - 2))
        + (1 - x ^ 2) * (r ^ 2 - 2 * r + a ^ 2) := ⟨_, rfl⟩
      rw [← eH] at P1 h ⊢
      have hHn : Hh < 0 := by
        by_contra hcon
        exact absurd h (not_lt.mpr (div_nonneg (not_lt.mp hcon) hX.le))
      have hLL : 4 * a * T * E * L' = κ - ρ * E ^ 2 := by linear_combination c1
      have hd : 0 < (r ^ 2 + a ^ 2 * (1 - x ^ 2)) * (r ^ 2 - 2 * r + a ^ 2) := by positivity
      have hκ : κ < 0 := by
        have k1 := mul_neg_of_neg_of_pos hHn hε
        have k2 : 0 < (r ^ 2 + a ^ 2 * (1 - x ^ 2)) * (r ^ 2 - 2 * r + a ^ 2) * T := mul_pos hd hT
        by_contra hcon
        have k3 := mul_nonneg hr.le (not_lt.mp hcon)
        linarith
      have hNY0 : 0 < N + 2 * Y := by
        have : 0 < E ^ 2 * (N + 2 * Y) := by rw [htk]; have := hκ.ne; positivity
        exact (pos_iff_pos_of_mul_pos this).mp (by positivity)
      have e1 : (N + 2 * Y) * (Hh * (κ - ρ * E ^ 2) + 8 * a ^ 2 * x ^ 2 * T * r * E ^ 2)
          = -κ * (8 * a ^ 2 * x ^ 2 * T ^ 2 * ((r ^ 2 + a ^ 2 * (1 - x ^ 2)) * (r ^ 2 - 2 * r + a ^ 2))
            + 2 * (-Hh) * Y) := by
        linear_combination (-Hh * ρ + 8 * a ^ 2 * x ^ 2 * T * r) * htk + Hh * κ * hNd
          - 4 * a ^ 2 * x ^ 2 * T * κ * P1
      have hHn' : 0 < -Hh := by linarith
      have hκ' : 0 < -κ := by linarith
      have h2 : 0 < -κ * (8 * a ^ 2 * x ^ 2 * T ^ 2
          * ((r ^ 2 + a ^ 2 * (1 - x ^ 2)) * (r ^ 2 - 2 * r + a ^ 2)) + 2 * (-Hh) * Y) := by positivity
      have h3 : 0 < Hh * (κ - ρ * E ^ 2) + 8 * a ^ 2 * x ^ 2 * T * r * E ^ 2 := by
        rw [← e1] at h2
        exact (pos_iff_pos_of_mul_pos h2).mp hNY0
      have h4 : 4 * a * T * E * x ^ 2 * (Hh / x ^ 2 * L' + 2 * a * r * E)
          = Hh * (κ - ρ * E ^ 2) + 8 * a ^ 2 * x ^ 2 * T * r * E ^ 2 := by
        rw [← hLL]; field_simp; try ring
      rw [← h4] at h3
      exact (pos_iff_pos_of_mul_pos h3).mp (by positivity)
    · have h1 := mul_pos h hL0
      linarith
  obtain ⟨hLeq, hR1, hR2, hR3⟩ := exact_tail hx0.ne' hx hT P P' c1 c2' hh hbr hL
  exact ⟨hEpos, by rw [hLeq, hg, one_mul]; exact hL0, hR1, hR2, hR3, hq, by rw [hg, one_mul]; exact hsg, hNY,
    by rw [hLeq]; rwa [hg, one_mul] at hbr⟩

/-- The smaller root is below the point where the quadratic is negative. -/
lemma below_of_smaller {W N κ t m d : ℝ} (hd : 0 < d) (hm : 0 < m) (ht : 0 < t) (h : W * t ≤ N)
    (hq : W * t ^ 2 - 2 * N * t + κ ^ 2 = 0)
    (hneg : W * m ^ 2 - 2 * N * m * d + κ ^ 2 * d ^ 2 < 0) : t * d < m := by
  have hdiff : W * m ^ 2 - 2 * N * m * d + κ ^ 2 * d ^ 2
      = (m - t * d) * (W * (m + t * d) - 2 * N * d) := by linear_combination d ^ 2 * hq
  rw [hdiff] at hneg
  by_contra hcon
  have h1 : m - t * d ≤ 0 := by linarith
  have h2 : 0 < W * (m + t * d) - 2 * N * d := by
    by_contra hh
    have := mul_nonneg_of_nonpos_of_nonpos h1 (not_lt.mp hh)
    linarith
  have h3 : 0 ≤ 2 * N - W * t := by
    have : 0 ≤ t * (2 * N - W * t) := by nlinarith [sq_nonneg κ]
    exact nonneg_of_mul_nonneg_right this ht
  rcases le_or_gt W 0 with hW | hW
  · have h4 := mul_nonpos_of_nonpos_of_nonneg hW hm.le
    have h5 := mul_nonneg h3 hd.le
    linarith
  · have h4 := mul_le_mul_of_nonneg_left (by linarith : m ≤ t * d) hW.le
    have h5 := mul_le_mul_of_nonneg_right h hd.le
    linarith

/-- The future-directed orbit is chosen: `E (r² + a²) > a L` at the outer, hence at the inner turning
point. -/
lemma future_inner {a x r s E L : ℝ} (ha : 0 < a) (hx0 : 0 < x) (hx : x ^ 2 ≤ 1) (hr : 0 < r) (hs : 1 ≤ s)
    (hds : 0 < s * (s - 2) + a ^ 2) (hE : 0 < E) (hL : 0 < L)
    (h1 : Spec.R a E L (carterFormula a x E L) r = 0)
    (hdr : 0 < r ^ 2 - 2 * r + a ^ 2)
    (hb : 0 < (coefficients r a x).h * L + (coefficients r a x).g * E)
    (hnn : ∀ t, s ≤ t → t ≤ r → 0 ≤ Spec.R a E L (carterFormula a x E L) t) :
    a * L < E * (s ^ 2 + a ^ 2) := by
  have hX : 0 < x ^ 2 := by positivity
  have hw0 : 0 ≤ 1 - x ^ 2 := by linarith
  have hz : √(1 - x ^ 2) ^ 2 = 1 - x ^ 2 := Real.sq_sqrt hw0
  -- the potential as `P² - Δ (r² + w a² + (aEx² - L)²/x²)`
  have hRf : ∀ t, Spec.R a E L (carterFormula a x E L) t = (E * (t ^ 2 + a ^ 2) - a * L) ^ 2
      - (t ^ 2 - 2 * t + a ^ 2) * (t ^ 2 + (1 - x ^ 2) * a ^ 2 + (a * E * x ^ 2 - L) ^ 2 / x ^ 2) := by
    intro t
    rw [carterFormula_eq hx]
    unfold Spec.R Spec.Delta
    field_simp
    ring
  have hKp : ∀ t, 0 < t → 0 < t ^ 2 + (1 - x ^ 2) * a ^ 2 + (a * E * x ^ 2 - L) ^ 2 / x ^ 2 := by
    intro t ht; positivity
  -- at the outer turning point
  have hP1 : 0 < E * (r ^ 2 + a ^ 2) - a * L := by
    have q0 := C45_quadratic_form a x r E L hx0.ne' hx
    rw [h1] at q0
    have hd : 0 < (coefficients r a x).d := by
      simp only [coefficients, hz]; positivity
    have hα : 0 < ((coefficients r a x).f * E - (coefficients r a x).g * L) * E := by
      have := mul_pos hb hL
      have e1 : ((coefficients r a x).f * E - (coefficients r a x).g * L) * E
          = (coefficients r a x).d + ((coefficients r a x).h * L + (coefficients r a x).g * E) * L := by
        linear_combination -q0
      rw [e1]; positivity
    have hα' := (pos_iff_pos_of_mul_pos hα).mpr hE
    have eα : (coefficients r a x).f * E - (coefficients r a x).g * L
        = (r ^ 2 + a ^ 2) * (E * (r ^ 2 + a ^ 2) - a * L)
          - a * (r ^ 2 - 2 * r + a ^ 2) * (a * E * x ^ 2 - L) := by
      simp only [coefficients, hz]; ring
    rw [eα] at hα'
    rw [hRf] at h1
    have hf : 0 < (r ^ 2 + a ^ 2) ^ 2 - a ^ 2 * (r ^ 2 - 2 * r + a ^ 2) * x ^ 2 := by
      have : (r ^ 2 + a ^ 2) ^ 2 - a ^ 2 * (r ^ 2 - 2 * r + a ^ 2) * x ^ 2
          = r ^ 4 + a ^ 2 * (r * (r + 2)) + a ^ 2 * (1 - x ^ 2) * (r ^ 2 - 2 * r + a ^ 2) := by ring
      rw [this]; positivity
    have hge : (r ^ 2 - 2 * r + a ^ 2) * ((a * E * x ^ 2 - L) ^ 2 / x ^ 2)
        ≤ (E * (r ^ 2 + a ^ 2) - a * L) ^ 2 := by
      have : 0 ≤ (r ^ 2 - 2 * r + a ^ 2) * (r ^ 2 + (1 - x ^ 2) * a ^ 2) := by positivity
      linarith
    generalize E * (r ^ 2 + a ^ 2) - a * L = P at *
    generalize a * E * x ^ 2 - L = y at *
    generalize r ^ 2 - 2 * r + a ^ 2 = Δ at *
    by_contra hcon
    have hP0 : P ≤ 0 := not_lt.mp hcon
    have k1 : 0 ≤ (r ^ 2 + a ^ 2) * (-P) := mul_nonneg (by positivity) (by linarith)
    have k2 : (r ^ 2 + a ^ 2) * (-P) < -(a * Δ * y) := by linarith
    have k3 : ((r ^ 2 + a ^ 2) * (-P)) ^ 2 < (a * Δ * y) ^ 2 := by
      have := mul_self_lt_mul_self k1 k2
      nlinarith
    have k4 : Δ * y ^ 2 ≤ x ^ 2 * P ^ 2 := by
      have : Δ * y ^ 2 = x ^ 2 * (Δ * (y ^ 2 / x ^ 2)) := by field_simp
      rw [this]; exact mul_le_mul_of_nonneg_left hge hX.le
    have k5 : (a * Δ * y) ^ 2 ≤ a ^ 2 * Δ * (x ^ 2 * P ^ 2) := by
      have := mul_le_mul_of_nonneg_left k4 (by positivity : 0 ≤ a ^ 2 * Δ)
      linarith
    have k6 : 0 ≤ ((r ^ 2 + a ^ 2) ^ 2 - a ^ 2 * Δ * x ^ 2) * P ^ 2 := mul_nonneg hf.le (sq_nonneg P)
    linarith
  -- the potential is not negative in between
  by_contra hcon
  have hPs : E * (s ^ 2 + a ^ 2) - a * L ≤ 0 := by linarith
  -- the point where `P` vanishes
  obtain ⟨t, ht⟩ : ∃ t, t = √(a * L / E - a ^ 2) := ⟨_, rfl⟩
  have hts : s ^ 2 ≤ a * L / E - a ^ 2 := by
    rw [le_sub_iff_add_le, le_div_iff₀ hE]; linarith
  have ht2 : t ^ 2 = a * L / E - a ^ 2 := by rw [ht]; exact Real.sq_sqrt (by nlinarith)
  have ht0 : 0 ≤ t := by rw [ht]; exact Real.sqrt_nonneg _
  have hst : s ≤ t := by
    by_contra hh
    nlinarith
  have htr : t ≤ r := by
    by_contra hh
    have : a * L / E - a ^ 2 < r ^ 2 := by rw [sub_lt_iff_lt_add, div_lt_iff₀ hE]; linarith
    nlinarith
  have hPt : E * (t ^ 2 + a ^ 2) - a * L = 0 := by rw [ht2]; field_simp; ring
  have hRt : Spec.R a E L (carterFormula a x E L) t < 0 := by
    rw [hRf, hPt]
    have k1 := hKp t (by linarith)
    have k2 : 0 < t ^ 2 - 2 * t + a ^ 2 := by
      have : 0 ≤ (t - s) * (t + s - 2) := mul_nonneg (by linarith) (by linarith)
      linarith
    have := mul_pos k2 k1
    linarith
  have := hnn t hst htr
  linarith

/-- The conclusion of `exact_kerr` for prograde orbits outside the separatrix, whatever `p`. -/
lemma exact_inner {a p e x E L : ℝ} (ha : 0 < a) (ha1 : a < 1) (hp : 1 + e ≤ p) (he : 0 ≤ e) (he1 : e < 1)
    (hx0 : 0 < x) (hx : x ^ 2 ≤ 1)
    (hS : N p (a ^ 2) e (1 - x ^ 2) ^ 2
      - 8 * a ^ 2 * (1 - (1 - x ^ 2)) * (M1 p (a ^ 2) e (1 - x ^ 2) * M2 p (a ^ 2) e (1 - x ^ 2)) < 0)
    (hreg : Regular a p e x) (hE : E = energyFormula a p e x)
    (hL : L = angularMomentumFormula a p e x E) :
    Exact a p e x E L ∧ E ^ 2 * (M1 p (a ^ 2) e (1 - x ^ 2) + 2 * SepCert.K e * D p (a ^ 2) e (1 - x ^ 2))
        < M1 p (a ^ 2) e (1 - x ^ 2)
      ∧ ((∀ t, p / (1 + e) ≤ t → t ≤ p / (1 - e) → 0 ≤ Spec.R a E L (carterFormula a x E L) t) →
        a * L < E * ((p / (1 + e)) ^ 2 + a ^ 2)) := by
  have hA : 0 < a ^ 2 := by positivity
  have hA1 : a ^ 2 < 1 := by nlinarith
  have hw : 0 ≤ 1 - x ^ 2 := by linarith
  have hw1 : 1 - x ^ 2 ≤ 1 := by linarith [sq_nonneg x]
  have hl : 0 < 1 - e ^ 2 := by nlinarith
  have hm : 0 < 1 - e := by linarith
  have hpl : 0 < 1 + e := by linarith
  have hp0 : 0 < p := by linarith
  obtain ⟨g1, g2, g3, g4⟩ := SepCurve.inner_geom hA hA1 he he1 hw hw1 hp hS
  obtain ⟨r, er⟩ : ∃ r, r = p / (1 - e) := ⟨_, rfl⟩
  obtain ⟨s, es⟩ : ∃ s, s = p / (1 + e) := ⟨_, rfl⟩
  have hu : r + s = 2 * p / (1 - e ^ 2) := by
    have : (1 - e ^ 2) = (1 - e) * (1 + e) := by ring
    rw [er, es, this]; field_simp; ring
  have hv : r * s = p ^ 2 / (1 - e ^ 2) := by
    have : (1 - e ^ 2) = (1 - e) * (1 + e) := by ring
    rw [er, es, this]; field_simp
  have hs1 : 1 ≤ s := by rw [es, le_div_iff₀ hpl]; linarith
  have hrs : s ≤ r := by rw [er, es]; exact div_le_div_of_nonneg_left hp0.le hm (by linarith)
  have hds : 0 < s * (s - 2) + a ^ 2 := by
    have : p = s * (1 + e) := by rw [es]; field_simp
    rw [this] at g2
    have : 0 < (1 + e) ^ 2 * (s * (s - 2) + a ^ 2) := by linarith
    exact (pos_iff_pos_of_mul_pos this).mp (by positivity)
  have hdr : 0 < r * (r - 2) + a ^ 2 := by
    have : 0 ≤ (r - s) * (r + s - 2) := mul_nonneg (by linarith) (by linarith)
    linarith
  obtain ⟨s1, s2, s3, s4, s5, s6, s7, s8⟩ := scale (p := p) (A := a ^ 2) (w := 1 - x ^ 2) hl.ne'
  rw [← hu, ← hv] at s1 s2 s3 s4 s5 s7 s8
  rw [← hv] at s6
  obtain ⟨f1, f2, f3⟩ := formulas_eq (a := a) hp0 he he1 hx0.ne' hx er es
  have hEf := hE.trans f1
  have hLf := hL.trans (f2 E)
  obtain ⟨hW, hh⟩ := f3.mp hreg
  have k3 := thetaS_pos_inner hA hA1 he he1 hw hw1 hp
  have k4 := (TS_pos_inner hA hA1 he he1 hw hw1 hp).1
  have k7 := epsS_pos_inner hA hA1 he he1 hw hw1 hp g2
  have k8 := etaS_pos_inner hA hA1 he he1 hw hw1 hp
  have hK : 0 < SepCert.K e := by unfold SepCert.K; positivity
  have hdd : 0 < M1 p (a ^ 2) e (1 - x ^ 2) + 2 * SepCert.K e * D p (a ^ 2) e (1 - x ^ 2) := by positivity
  have hstar := star_value p (a ^ 2) e (1 - x ^ 2)
  have hneg : WS p (1 - e ^ 2) (a ^ 2) (1 - x ^ 2) * M1 p (a ^ 2) e (1 - x ^ 2) ^ 2
      - 2 * NS p (1 - e ^ 2) (a ^ 2) (1 - x ^ 2) * M1 p (a ^ 2) e (1 - x ^ 2)
        * (M1 p (a ^ 2) e (1 - x ^ 2) + 2 * SepCert.K e * D p (a ^ 2) e (1 - x ^ 2))
      + kapS p (1 - e ^ 2) (a ^ 2) (1 - x ^ 2) ^ 2
        * (M1 p (a ^ 2) e (1 - x ^ 2) + 2 * SepCert.K e * D p (a ^ 2) e (1 - x ^ 2)) ^ 2 < 0 := by
    rw [hstar]; exact mul_neg_of_pos_of_neg (by positivity) hS
  have l3 : 0 < 2 / (1 - e ^ 2) ^ 3 := by positivity
  have l6 : 0 < 4 / (1 - e ^ 2) ^ 6 := by positivity
  have hWN : 0 < WS p (1 - e ^ 2) (a ^ 2) (1 - x ^ 2) → 0 < NS p (1 - e ^ 2) (a ^ 2) (1 - x ^ 2) := by
    intro hWp
    generalize M1 p (a ^ 2) e (1 - x ^ 2) + 2 * SepCert.K e * D p (a ^ 2) e (1 - x ^ 2) = dd at *
    generalize M1 p (a ^ 2) e (1 - x ^ 2) = m at *
    generalize WS p (1 - e ^ 2) (a ^ 2) (1 - x ^ 2) = W at *
    generalize NS p (1 - e ^ 2) (a ^ 2) (1 - x ^ 2) = N' at *
    generalize kapS p (1 - e ^ 2) (a ^ 2) (1 - x ^ 2) = κ at *
    have h1 : 0 < W * m ^ 2 := by positivity
    have h2 : 0 ≤ κ ^ 2 * dd ^ 2 := by positivity
    have h3 : 0 < N' * (2 * m * dd) := by linarith
    exact (pos_iff_pos_of_mul_pos h3).mpr (by positivity)
  have hX1 : 1 - (1 - x ^ 2) = x ^ 2 := by ring
  have hr0 : 0 < r := by linarith
  have hSS : 0 ≤ SSH (r + s) (r * s) (a ^ 2) (1 - x ^ 2) := by
    unfold SSH
    have : 0 ≤ (r + s) ^ 2 - 2 * (r * s) := by
      have e1 : (r + s) ^ 2 - 2 * (r * s) = r ^ 2 + s ^ 2 := by ring
      rw [e1]; positivity
    positivity
  have hT : 0 < TH (r * s) (a ^ 2) (1 - x ^ 2) := by rw [s6]; positivity
  have hDD : 0 ≤ DDH (r + s) (r * s) (a ^ 2) := by
    have e1 : DDH (r + s) (r * s) (a ^ 2) = (r * (r - 2) + a ^ 2) * (s * (s - 2) + a ^ 2) := by
      unfold DDH; ring
    rw [e1]; positivity
  have hY2 : 0 ≤ Y2H (r + s) (r * s) (a ^ 2) (1 - x ^ 2) := by
    have : 0 < r + s := by linarith
    unfold Y2H; rw [hX1]; positivity
  have hYs := Real.sq_sqrt hY2
  have hYe := Y2_eq (r + s) (r * s) (a ^ 2) (1 - x ^ 2)
  rw [hX1] at hYe
  obtain ⟨q1, q2, q3, q4, q5, q6, q7, q8, q9⟩ := exact_abs_inner (r := r) (s := s) ha hx0 hx hr0
    (by rw [s5]; positivity) (by rw [s3]; positivity) (by rw [s4]; positivity) hT hW
    (by
      rw [s7, s8]
      intro h
      exact mul_pos l6 (hWN ((pos_iff_pos_of_mul_pos h).mp l6)))
    (Real.sqrt_nonneg _) (by linarith) hh (hYs.trans hYe)
    (by unfold WH; rw [hX1]) (by unfold NH; rw [hX1]) (theta_eq _ _ _ _) (by
      rintro r' (rfl | rfl)
      · exact pluecker r' s (a ^ 2) (1 - x ^ 2)
      · have := pluecker r' r (a ^ 2) (1 - x ^ 2)
        rw [add_comm r' r, mul_comm r' r] at this
        exact this) (by rintro rfl; exact pluecker' r (a ^ 2) (1 - x ^ 2)) hEf hLf
  have e36 : (2 / (1 - e ^ 2) ^ 3) ^ 2 = 4 / (1 - e ^ 2) ^ 6 := by
    rw [div_pow, ← pow_mul]; norm_num
  have hquad : WS p (1 - e ^ 2) (a ^ 2) (1 - x ^ 2) * (E ^ 2) ^ 2
      - 2 * NS p (1 - e ^ 2) (a ^ 2) (1 - x ^ 2) * E ^ 2
      + kapS p (1 - e ^ 2) (a ^ 2) (1 - x ^ 2) ^ 2 = 0 := by
    rw [s1, s7, s8] at q6
    have : 4 / (1 - e ^ 2) ^ 6 * (WS p (1 - e ^ 2) (a ^ 2) (1 - x ^ 2) * (E ^ 2) ^ 2
      - 2 * NS p (1 - e ^ 2) (a ^ 2) (1 - x ^ 2) * E ^ 2
      + kapS p (1 - e ^ 2) (a ^ 2) (1 - x ^ 2) ^ 2) = 0 := by
      linear_combination q6 - kapS p (1 - e ^ 2) (a ^ 2) (1 - x ^ 2) ^ 2 * e36
    exact (mul_eq_zero.mp this).resolve_left l6.ne'
  have hbelow : E ^ 2 * (M1 p (a ^ 2) e (1 - x ^ 2) + 2 * SepCert.K e * D p (a ^ 2) e (1 - x ^ 2))
        < M1 p (a ^ 2) e (1 - x ^ 2) := by
    have q8' : WS p (1 - e ^ 2) (a ^ 2) (1 - x ^ 2) * E ^ 2 ≤ NS p (1 - e ^ 2) (a ^ 2) (1 - x ^ 2) := by
      rw [s7, s8, mul_assoc] at q8
      exact le_of_mul_le_mul_left q8 l6
    have hE2 : 0 < E ^ 2 := by positivity
    exact below_of_smaller hdd g3 hE2 q8' hquad hneg
  refine ⟨⟨q1, q2, ⟨by rw [← er]; exact q3, by rw [← es]; exact q4, ?_⟩, hquad, ?_⟩, hbelow, ?_⟩
  · intro h0
    have e1 : r = p := by rw [er, h0]; simp
    have e2 : s = p := by rw [es, h0]; simp
    rw [← e1]; exact q5 (by rw [e1, e2])
  · rw [s1, s2] at q7
    have : Real.sign x * (2 / (1 - e ^ 2) ^ 3 * kapS p (1 - e ^ 2) (a ^ 2) (1 - x ^ 2)
        - 2 / (1 - e ^ 2) ^ 3 * rhoS p (1 - e ^ 2) (a ^ 2) (1 - x ^ 2) * E ^ 2)
      = 2 / (1 - e ^ 2) ^ 3 * (Real.sign x * (kapS p (1 - e ^ 2) (a ^ 2) (1 - x ^ 2)
        - rhoS p (1 - e ^ 2) (a ^ 2) (1 - x ^ 2) * E ^ 2)) := by ring
    rw [this] at q7
    exact pos_of_mul_pos_right q7 l3.le
  · rw [← es, ← er]
    intro hnn
    have hL0 : 0 < L := by rwa [Real.sign_of_pos hx0, one_mul] at q2
    exact future_inner ha hx0 hx hr0 hs1 hds q1 hL0 q3 (by linarith) q9 hnn

/-! ### existence and uniqueness, without the code -/

/-- A root of the quadratic below the point where it is negative, on the right side. -/
lemma exists_root {κ ρ ε η c W N m d : ℝ} (hc : 0 < c) (hε : 0 < ε) (hη : 0 < η)
    (hθ : 0 < κ * η - ε * ρ) (hm : 0 < m) (hd : 0 < d) (eW : W = ρ ^ 2 - c * η)
    (eN : 2 * N = 2 * (κ * ρ) - c * ε) (hneg : W * m ^ 2 - 2 * N * m * d + κ ^ 2 * d ^ 2 < 0) :
    ∃ t, 0 < t ∧ t * d < m ∧ W * t ^ 2 - 2 * N * t + κ ^ 2 = 0 ∧ 0 < κ - ρ * t := by
  -- sign of `κ - ρ t` at a root, if `ρ ≤ 0`
  have side : ∀ t, 0 < t → W * t ^ 2 - 2 * N * t + κ ^ 2 = 0 → ρ ≤ 0 → 0 < κ - ρ * t := by
    intro t ht hq hρ
    have h7 : (κ - ρ * t) ^ 2 = c * t * (η * t - ε) := by
      rw [eW] at hq; linear_combination hq + t * eN
    have h8 : 0 ≤ η * t - ε := by
      by_contra hcon
      have : c * t * (η * t - ε) < 0 := mul_neg_of_pos_of_neg (by positivity) (not_le.mp hcon)
      linarith [sq_nonneg (κ - ρ * t)]
    have h9 : 0 < η * (κ - ρ * t) := by
      have := mul_nonneg (neg_nonneg.mpr hρ) h8
      linarith
    exact (pos_iff_pos_of_mul_pos h9).mp hη
  by_cases hκ0 : κ = 0
  · have hρ : ρ < 0 := by
      by_contra hcon
      have := mul_nonneg hε.le (not_lt.mp hcon)
      rw [hκ0] at hθ; linarith
    rw [hκ0] at hneg eN side ⊢
    have h1 : m * (W * m + c * ε * d) < 0 := by
      have : m * (W * m + c * ε * d) = W * m ^ 2 - 2 * N * m * d + 0 ^ 2 * d ^ 2 := by
        linear_combination m * d * eN
      linarith
    have h2 : W * m + c * ε * d < 0 := by
      by_contra hcon
      have := mul_nonneg hm.le (not_lt.mp hcon)
      linarith
    have hce : 0 < c * ε * d := by positivity
    have hW : W < 0 := by
      by_contra hcon
      have := mul_nonneg (not_lt.mp hcon) hm.le
      linarith
    have hW' : 0 < -W := by linarith
    have ht : 0 < c * ε / -W := by positivity
    have hq : W * (c * ε / -W) ^ 2 - 2 * N * (c * ε / -W) + 0 ^ 2 = 0 := by
      rw [eN]; field_simp; ring
    refine ⟨c * ε / -W, ht, ?_, hq, side _ ht hq hρ.le⟩
    rw [div_mul_eq_mul_div, div_lt_iff₀ hW']; linarith
  · have hκ2 : 0 < κ ^ 2 := by positivity
    -- the right end of the interval
    obtain ⟨b, hb0, hbm, hbρ, hbq⟩ : ∃ b, 0 < b ∧ b * d ≤ m ∧ (0 < ρ → ρ * b ≤ κ)
        ∧ W * b ^ 2 - 2 * N * b + κ ^ 2 < 0 := by
      have hmd : W * (m / d) ^ 2 - 2 * N * (m / d) + κ ^ 2 < 0 := by
        have : W * (m / d) ^ 2 - 2 * N * (m / d) + κ ^ 2
            = (W * m ^ 2 - 2 * N * m * d + κ ^ 2 * d ^ 2) / d ^ 2 := by field_simp
        rw [this]; exact div_neg_of_neg_of_pos hneg (by positivity)
      by_cases h : 0 < ρ ∧ κ / ρ ≤ m / d
      · obtain ⟨hρ, h⟩ := h
        have hκ : 0 < κ := by
          have : 0 < κ * η := by have := mul_pos hε hρ; linarith
          exact (pos_iff_pos_of_mul_pos this).mpr hη
        refine ⟨κ / ρ, by positivity, ?_, fun _ => ?_, ?_⟩
        · rwa [le_div_iff₀ hd] at h
        · field_simp; exact le_rfl
        · have : W * (κ / ρ) ^ 2 - 2 * N * (κ / ρ) + κ ^ 2 = -(c * κ * (κ * η - ε * ρ) / ρ ^ 2) := by
            rw [eW, eN]; field_simp; ring
          rw [this]
          have : 0 < c * κ * (κ * η - ε * ρ) / ρ ^ 2 := by positivity
          linarith
      · refine ⟨m / d, by positivity, ?_, fun hρ => ?_, hmd⟩
        · rw [div_mul_cancel₀ _ hd.ne']
        · have := not_le.mp fun hh => h ⟨hρ, hh⟩
          rw [lt_div_iff₀ hρ] at this; linarith
    have hcont : ContinuousOn (fun t : ℝ => W * t ^ 2 - 2 * N * t + κ ^ 2) (Set.Icc 0 b) := by fun_prop
    have hivt := intermediate_value_Ioo' hb0.le hcont
    obtain ⟨t, ⟨ht0, htb⟩, ht⟩ := hivt (show (0:ℝ) ∈ Set.Ioo _ _ from ⟨hbq, by simpa using hκ2⟩)
    refine ⟨t, ht0, lt_of_lt_of_le (mul_lt_mul_of_pos_right htb hd) hbm, ht, ?_⟩
    rcases le_or_gt ρ 0 with hρ | hρ
    · exact side t ht0 ht hρ
    · have := hbρ hρ
      have := mul_lt_mul_of_pos_left htb hρ
      linarith

/-- At most one root below a point where the quadratic is negative. -/
lemma unique_root {W N κ t t' m d : ℝ} (hd : 0 < d) (ht : 0 < t) (ht' : 0 < t')
    (h : W * t ^ 2 - 2 * N * t + κ ^ 2 = 0) (h' : W * t' ^ 2 - 2 * N * t' + κ ^ 2 = 0)
    (hm : t * d < m) (hm' : t' * d < m) (hneg : W * m ^ 2 - 2 * N * m * d + κ ^ 2 * d ^ 2 < 0) :
    t = t' := by
  by_contra hne
  have h1 : W * (t + t') = 2 * N := by
    have : (t - t') * (W * (t + t') - 2 * N) = 0 := by linear_combination h - h'
    linarith [(mul_eq_zero.mp this).resolve_left (sub_ne_zero.mpr hne)]
  have h2 : W * m ^ 2 - 2 * N * m * d + κ ^ 2 * d ^ 2 = W * ((m - t * d) * (m - t' * d)) := by
    linear_combination d ^ 2 * h + m * d * h1 - d ^ 2 * t * h1
  rw [h2] at hneg
  have h3 : 0 < (m - t * d) * (m - t' * d) := mul_pos (by linarith) (by linarith)
  have hW : W < 0 := by
    by_contra hcon
    have := mul_nonneg (not_lt.mp hcon) h3.le
    linarith
  have h4 : κ ^ 2 = W * (t * t') := by linear_combination h - t * h1
  have h5 := mul_neg_of_neg_of_pos hW (mul_pos ht ht')
  linarith [sq_nonneg κ]

/-- Every root of the quadratic on the prograde side is an orbit. -/
lemma orbit_of_root {a p e x t : ℝ} (ha : 0 < a) (ha1 : a < 1) (hp : 1 + e ≤ p) (he : 0 ≤ e) (he1 : e < 1)
    (hx0 : 0 < x) (hx : x ^ 2 ≤ 1) (ht : 0 < t)
    (hq : WS p (1 - e ^ 2) (a ^ 2) (1 - x ^ 2) * t ^ 2 - 2 * NS p (1 - e ^ 2) (a ^ 2) (1 - x ^ 2) * t
      + kapS p (1 - e ^ 2) (a ^ 2) (1 - x ^ 2) ^ 2 = 0)
    (hside : 0 < kapS p (1 - e ^ 2) (a ^ 2) (1 - x ^ 2) - rhoS p (1 - e ^ 2) (a ^ 2) (1 - x ^ 2) * t) :
    ∃ E L, 0 < E ∧ 0 < L ∧ E ^ 2 = t ∧ Spec.TurningPoints a E L (carterFormula a x E L) p e := by
  have hA : 0 < a ^ 2 := by positivity
  have hA1 : a ^ 2 < 1 := by nlinarith
  have hw : 0 ≤ 1 - x ^ 2 := by linarith
  have hw1 : 1 - x ^ 2 ≤ 1 := by linarith [sq_nonneg x]
  have hl : 0 < 1 - e ^ 2 := by nlinarith
  have hm : 0 < 1 - e := by linarith
  have hpl : 0 < 1 + e := by linarith
  have hp0 : 0 < p := by linarith
  have hX : 0 < x ^ 2 := by positivity
  have hX1 : 1 - (1 - x ^ 2) = x ^ 2 := by ring
  obtain ⟨r, er⟩ : ∃ r, r = p / (1 - e) := ⟨_, rfl⟩
  obtain ⟨s, es⟩ : ∃ s, s = p / (1 + e) := ⟨_, rfl⟩
  have hu : r + s = 2 * p / (1 - e ^ 2) := by
    have : (1 - e ^ 2) = (1 - e) * (1 + e) := by ring
    rw [er, es, this]; field_simp; ring
  have hv : r * s = p ^ 2 / (1 - e ^ 2) := by
    have : (1 - e ^ 2) = (1 - e) * (1 + e) := by ring
    rw [er, es, this]; field_simp
  obtain ⟨s1, s2, s3, s4, s5, s6, s7, s8⟩ := scale (p := p) (A := a ^ 2) (w := 1 - x ^ 2) hl.ne'
  rw [← hu, ← hv] at s1 s2 s3 s4 s5 s7 s8
  rw [← hv] at s6
  have k4 := (TS_pos_inner hA hA1 he he1 hw hw1 hp).1
  have l3 : 0 < 2 / (1 - e ^ 2) ^ 3 := by positivity
  have hT : 0 < TH (r * s) (a ^ 2) (1 - x ^ 2) := by rw [s6]; positivity
  obtain ⟨E, hEd⟩ : ∃ E, E = √t := ⟨_, rfl⟩
  have hE : 0 < E := by rw [hEd]; exact Real.sqrt_pos.mpr ht
  have hE2 : E ^ 2 = t := by rw [hEd]; exact Real.sq_sqrt ht.le
  have e36 : (2 / (1 - e ^ 2) ^ 3) ^ 2 = 4 / (1 - e ^ 2) ^ 6 := by
    rw [div_pow, ← pow_mul]; norm_num
  have hqH : WH (r + s) (r * s) (a ^ 2) (1 - x ^ 2) * (E ^ 2) ^ 2
      - 2 * NH (r + s) (r * s) (a ^ 2) (1 - x ^ 2) * E ^ 2
      + kapH (r + s) (r * s) (a ^ 2) (1 - x ^ 2) ^ 2 = 0 := by
    rw [s1, s7, s8, hE2]
    linear_combination 4 / (1 - e ^ 2) ^ 6 * hq + kapS p (1 - e ^ 2) (a ^ 2) (1 - x ^ 2) ^ 2 * e36
  have hsH : 0 < kapH (r + s) (r * s) (a ^ 2) (1 - x ^ 2)
      - rhoH (r + s) (r * s) (a ^ 2) (1 - x ^ 2) * E ^ 2 := by
    rw [s1, s2, hE2]
    have := mul_pos l3 hside
    linarith
  obtain ⟨L, hLd⟩ : ∃ L, L = (kapH (r + s) (r * s) (a ^ 2) (1 - x ^ 2)
      - rhoH (r + s) (r * s) (a ^ 2) (1 - x ^ 2) * E ^ 2) / (4 * a * TH (r * s) (a ^ 2) (1 - x ^ 2) * E) :=
    ⟨_, rfl⟩
  obtain ⟨c1, c2⟩ := combos (X := x ^ 2) ha.ne' rfl hX.ne' hT.ne' hE.ne' (by unfold WH; rw [hX1])
    (by unfold NH; rw [hX1]) hqH hLd
  have c2' : x ^ 2 * (etaH (r + s) (r * s) (a ^ 2) (1 - x ^ 2) * E ^ 2
      - epsH (r + s) (r * s) (a ^ 2) (1 - x ^ 2)) = 2 * TH (r * s) (a ^ 2) (1 - x ^ 2) * L ^ 2 := by
    field_simp at c2; linear_combination c2
  obtain ⟨q3, q4, q5⟩ := turning_of_combos (r := r) (s := s) hx0.ne' hx hT (by
      rintro r' (rfl | rfl)
      · exact pluecker r' s (a ^ 2) (1 - x ^ 2)
      · have := pluecker r' r (a ^ 2) (1 - x ^ 2)
        rw [add_comm r' r, mul_comm r' r] at this
        exact this) (by rintro rfl; exact pluecker' r (a ^ 2) (1 - x ^ 2)) c1 c2'
  refine ⟨E, L, hE, by rw [hLd]; positivity, hE2, ⟨by rw [← er]; exact q3, by rw [← es]; exact q4, ?_⟩⟩
  intro h0
  have e1 : r = p := by rw [er, h0]; simp
  have e2 : s = p := by rw [es, h0]; simp
  rw [← e1]; exact q5 (by rw [e1, e2])

/-- Outside the separatrix the orbit exists, whatever the code does. -/
lemma exists_inner {a p e x : ℝ} (ha : 0 < a) (ha1 : a < 1) (hp : 1 + e ≤ p) (he : 0 ≤ e) (he1 : e < 1)
    (hx0 : 0 < x) (hx : x ^ 2 ≤ 1)
    (hS : N p (a ^ 2) e (1 - x ^ 2) ^ 2
      - 8 * a ^ 2 * (1 - (1 - x ^ 2)) * (M1 p (a ^ 2) e (1 - x ^ 2) * M2 p (a ^ 2) e (1 - x ^ 2)) < 0) :
    ∃ E L, 0 < E ∧ 0 < L ∧ Spec.TurningPoints a E L (carterFormula a x E L) p e
      ∧ E ^ 2 * (M1 p (a ^ 2) e (1 - x ^ 2) + 2 * SepCert.K e * D p (a ^ 2) e (1 - x ^ 2))
        < M1 p (a ^ 2) e (1 - x ^ 2) := by
  have hA : 0 < a ^ 2 := by positivity
  have hA1 : a ^ 2 < 1 := by nlinarith
  have hw : 0 ≤ 1 - x ^ 2 := by linarith
  have hw1 : 1 - x ^ 2 ≤ 1 := by linarith [sq_nonneg x]
  have hl : 0 < 1 - e ^ 2 := by nlinarith
  have hm : 0 < 1 - e := by linarith
  have hpl : 0 < 1 + e := by linarith
  have hp0 : 0 < p := by linarith
  have hX : 0 < x ^ 2 := by positivity
  have hX1 : 1 - (1 - x ^ 2) = x ^ 2 := by ring
  obtain ⟨g1, g2, g3, g4⟩ := SepCurve.inner_geom hA hA1 he he1 hw hw1 hp hS
  have k3 := thetaS_pos_inner hA hA1 he he1 hw hw1 hp
  have k4 := (TS_pos_inner hA hA1 he he1 hw hw1 hp).1
  have k7 := epsS_pos_inner hA hA1 he he1 hw hw1 hp g2
  have k8 := etaS_pos_inner hA hA1 he he1 hw hw1 hp
  have hK : 0 < SepCert.K e := by unfold SepCert.K; positivity
  have hdd : 0 < M1 p (a ^ 2) e (1 - x ^ 2) + 2 * SepCert.K e * D p (a ^ 2) e (1 - x ^ 2) := by positivity
  have hneg := star_value p (a ^ 2) e (1 - x ^ 2) ▸ mul_neg_of_pos_of_neg
    (by positivity : 0 < ((1 - e ^ 2) ^ 2 * TS p (1 - e ^ 2) (a ^ 2) (1 - x ^ 2)) ^ 2) hS
  have hth : kapS p (1 - e ^ 2) (a ^ 2) (1 - x ^ 2) * etaS p (1 - e ^ 2) (a ^ 2) (1 - x ^ 2)
      - epsS p (1 - e ^ 2) (a ^ 2) (1 - x ^ 2) * rhoS p (1 - e ^ 2) (a ^ 2) (1 - x ^ 2)
      = (1 - e ^ 2) ^ 2 * TS p (1 - e ^ 2) (a ^ 2) (1 - x ^ 2) * thetaS p (1 - e ^ 2) (a ^ 2) (1 - x ^ 2) := by
    simp only [kapS, etaS, epsS, rhoS, TS, thetaS]; ring
  obtain ⟨t, ht, htm, hq, hside⟩ := exists_root
    (c := 4 * a ^ 2 * x ^ 2 * TS p (1 - e ^ 2) (a ^ 2) (1 - x ^ 2) * (1 - e ^ 2) ^ 2) (by positivity) k7 k8
    (by rw [hth]; positivity) g3 hdd (by unfold WS; rw [hX1]; ring)
    (by unfold NS; rw [hX1]; ring) hneg
  obtain ⟨E, L, hE, hL, hE2, hT⟩ := orbit_of_root ha ha1 hp he he1 hx0 hx ht hq hside
  exact ⟨E, L, hE, hL, hT, by rw [hE2]; exact htm⟩

/-- The stable orbit is unique. -/
lemma unique_inner {a p e x E L E' L' : ℝ} (ha : 0 < a) (ha1 : a < 1) (hp : 1 + e ≤ p) (he : 0 ≤ e)
    (he1 : e < 1) (hx0 : 0 < x) (hx : x ^ 2 ≤ 1)
    (hS : N p (a ^ 2) e (1 - x ^ 2) ^ 2
      - 8 * a ^ 2 * (1 - (1 - x ^ 2)) * (M1 p (a ^ 2) e (1 - x ^ 2) * M2 p (a ^ 2) e (1 - x ^ 2)) < 0)
    (hE : 0 < E) (hE' : 0 < E') (hT : Spec.TurningPoints a E L (carterFormula a x E L) p e)
    (hT' : Spec.TurningPoints a E' L' (carterFormula a x E' L') p e)
    (hb : E ^ 2 * (M1 p (a ^ 2) e (1 - x ^ 2) + 2 * SepCert.K e * D p (a ^ 2) e (1 - x ^ 2))
        < M1 p (a ^ 2) e (1 - x ^ 2))
    (hb' : E' ^ 2 * (M1 p (a ^ 2) e (1 - x ^ 2) + 2 * SepCert.K e * D p (a ^ 2) e (1 - x ^ 2))
        < M1 p (a ^ 2) e (1 - x ^ 2)) : E = E' ∧ L = L' := by
  have hA : 0 < a ^ 2 := by positivity
  have hA1 : a ^ 2 < 1 := by nlinarith
  have hw : 0 ≤ 1 - x ^ 2 := by linarith
  have hw1 : 1 - x ^ 2 ≤ 1 := by linarith [sq_nonneg x]
  have hl : 0 < 1 - e ^ 2 := by nlinarith
  have hm : 0 < 1 - e := by linarith
  have hpl : 0 < 1 + e := by linarith
  have hp0 : 0 < p := by linarith
  have hX1 : 1 - (1 - x ^ 2) = x ^ 2 := by ring
  obtain ⟨g1, g2, g3, g4⟩ := SepCurve.inner_geom hA hA1 he he1 hw hw1 hp hS
  have k4 := (TS_pos_inner hA hA1 he he1 hw hw1 hp).1
  have hK : 0 < SepCert.K e := by unfold SepCert.K; positivity
  have hdd : 0 < M1 p (a ^ 2) e (1 - x ^ 2) + 2 * SepCert.K e * D p (a ^ 2) e (1 - x ^ 2) := by positivity
  have hneg := star_value p (a ^ 2) e (1 - x ^ 2) ▸ mul_neg_of_pos_of_neg
    (by positivity : 0 < ((1 - e ^ 2) ^ 2 * TS p (1 - e ^ 2) (a ^ 2) (1 - x ^ 2)) ^ 2) hS
  obtain ⟨r1, r2⟩ := relations_pe ha.ne' hp0.ne' he he1 hx0.ne' hx hT
  obtain ⟨r1', r2'⟩ := relations_pe ha.ne' hp0.ne' he he1 hx0.ne' hx hT'
  obtain ⟨s1, s2, s3, s4, s5, s6, s7, s8⟩ := scale (p := p) (A := a ^ 2) (w := 1 - x ^ 2) hl.ne'
  have hTH : 0 < TH (p ^ 2 / (1 - e ^ 2)) (a ^ 2) (1 - x ^ 2) := by rw [s6]; positivity
  have l6 : 0 < 4 / (1 - e ^ 2) ^ 6 := by positivity
  have e36 : (2 / (1 - e ^ 2) ^ 3) ^ 2 = 4 / (1 - e ^ 2) ^ 6 := by
    rw [div_pow, ← pow_mul]; norm_num
  have quad : ∀ E L : ℝ, rhoH (2 * p / (1 - e ^ 2)) (p ^ 2 / (1 - e ^ 2)) (a ^ 2) (1 - x ^ 2) * E ^ 2
      + 4 * a * TH (p ^ 2 / (1 - e ^ 2)) (a ^ 2) (1 - x ^ 2) * (E * L)
      - kapH (2 * p / (1 - e ^ 2)) (p ^ 2 / (1 - e ^ 2)) (a ^ 2) (1 - x ^ 2) = 0 →
      x ^ 2 * (etaH (2 * p / (1 - e ^ 2)) (p ^ 2 / (1 - e ^ 2)) (a ^ 2) (1 - x ^ 2) * E ^ 2
        - epsH (2 * p / (1 - e ^ 2)) (p ^ 2 / (1 - e ^ 2)) (a ^ 2) (1 - x ^ 2))
      = 2 * TH (p ^ 2 / (1 - e ^ 2)) (a ^ 2) (1 - x ^ 2) * L ^ 2 →
      WS p (1 - e ^ 2) (a ^ 2) (1 - x ^ 2) * (E ^ 2) ^ 2
        - 2 * NS p (1 - e ^ 2) (a ^ 2) (1 - x ^ 2) * E ^ 2
        + kapS p (1 - e ^ 2) (a ^ 2) (1 - x ^ 2) ^ 2 = 0 := by
    intro E L h1 h2
    have h3 : WH (2 * p / (1 - e ^ 2)) (p ^ 2 / (1 - e ^ 2)) (a ^ 2) (1 - x ^ 2) * (E ^ 2) ^ 2
      - 2 * NH (2 * p / (1 - e ^ 2)) (p ^ 2 / (1 - e ^ 2)) (a ^ 2) (1 - x ^ 2) * E ^ 2
      + kapH (2 * p / (1 - e ^ 2)) (p ^ 2 / (1 - e ^ 2)) (a ^ 2) (1 - x ^ 2) ^ 2 = 0 := by
      unfold WH NH
      rw [hX1]
      generalize kapH (2 * p / (1 - e ^ 2)) (p ^ 2 / (1 - e ^ 2)) (a ^ 2) (1 - x ^ 2) = κ at *
      generalize rhoH (2 * p / (1 - e ^ 2)) (p ^ 2 / (1 - e ^ 2)) (a ^ 2) (1 - x ^ 2) = ρ at *
      generalize epsH (2 * p / (1 - e ^ 2)) (p ^ 2 / (1 - e ^ 2)) (a ^ 2) (1 - x ^ 2) = ε at *
      generalize etaH (2 * p / (1 - e ^ 2)) (p ^ 2 / (1 - e ^ 2)) (a ^ 2) (1 - x ^ 2) = η at *
      generalize TH (p ^ 2 / (1 - e ^ 2)) (a ^ 2) (1 - x ^ 2) = T at *
      linear_combination (ρ * E ^ 2 - 4 * a * T * (E * L) - κ) * h1 - 8 * a ^ 2 * T * E ^ 2 * h2
    rw [s1, s7, s8] at h3
    have : 4 / (1 - e ^ 2) ^ 6 * (WS p (1 - e ^ 2) (a ^ 2) (1 - x ^ 2) * (E ^ 2) ^ 2
      - 2 * NS p (1 - e ^ 2) (a ^ 2) (1 - x ^ 2) * E ^ 2
      + kapS p (1 - e ^ 2) (a ^ 2) (1 - x ^ 2) ^ 2) = 0 := by
      linear_combination h3 - kapS p (1 - e ^ 2) (a ^ 2) (1 - x ^ 2) ^ 2 * e36
    exact (mul_eq_zero.mp this).resolve_left l6.ne'
  have hEE : E ^ 2 = E' ^ 2 := unique_root hdd (by positivity) (by positivity) (quad E L r1 r2)
    (quad E' L' r1' r2') hb hb' hneg
  have hE2 : E = E' := by
    have := abs_eq_abs.mpr (sq_eq_sq_iff_eq_or_eq_neg.mp hEE)
    rwa [abs_of_pos hE, abs_of_pos hE'] at this
  subst hE2
  refine ⟨rfl, ?_⟩
  clear s1 s2 s3 s4 s5 s6 s7 s8 quad hneg
  generalize TH (p ^ 2 / (1 - e ^ 2)) (a ^ 2) (1 - x ^ 2) = T at *
  have : 4 * a * T * E * (L - L') = 0 := by linear_combination r1 - r1'
  have hne : 4 * a * T * E ≠ 0 := by positivity
  linarith [(mul_eq_zero.mp this).resolve_left hne]

end KGP.Schmidt
