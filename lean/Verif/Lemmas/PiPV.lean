import Verif.Lemmas.CarlsonPV

/-!
# `_ellippiinc` with characteristic `n > 1` (Cauchy principal value)
-/

namespace KGP

open MeasureTheory Real Set Filter Topology intervalIntegral

/-- the logarithmic part of the principal value -/
noncomputable def pvTerm (n m φ : ℝ) : ℝ :=
  1 / (2 * √((n - 1) * (1 - m / n)))
    * Real.log ((cos φ * √(1 - m * sin φ ^ 2) + √((n - 1) * (1 - m / n)) * sin φ)
      / (cos φ * √(1 - m * sin φ ^ 2) - √((n - 1) * (1 - m / n)) * sin φ))

section
variable {n m : ℝ} (hn : 1 < n) (hm0 : 0 ≤ m) (hm : m < 1)
include hn hm0 hm

lemma pv_ratio : 0 ≤ m / n ∧ m / n < 1 := by
  constructor
  · positivity
  · rw [div_lt_one (by linarith)]; linarith

lemma pv_P_pos : 0 < √((n - 1) * (1 - m / n)) :=
  Real.sqrt_pos.mpr (mul_pos (by linarith) (by linarith [(pv_ratio hn hm0 hm).2]))

lemma pv_P_sq : √((n - 1) * (1 - m / n)) ^ 2 = (n - 1) * (1 - m / n) :=
  Real.sq_sqrt (mul_pos (by linarith) (by linarith [(pv_ratio hn hm0 hm).2])).le

lemma pv_base {ψ : ℝ} (h0 : 0 ≤ ψ) (h1 : ψ ≤ π / 2) (hne : n * sin ψ ^ 2 ≠ 1) :
    sin ψ * elliprf (cos ψ ^ 2) (1 - m * sin ψ ^ 2) 1
      + 1 / 3 * n * sin ψ ^ 3
        * elliprj (cos ψ ^ 2) (1 - m * sin ψ ^ 2) 1 (1 - n * sin ψ ^ 2)
      = (∫ t in (0:ℝ)..ψ, 1 / √(1 - m * sin t ^ 2)) - Spec.Pi (m / n) ψ m + pvTerm n m ψ := by
  rcases h0.eq_or_lt with rfl | h0
  · simp [Spec.Pi, pvTerm]
  have hs : 0 < sin ψ := sin_pos_of_pos_of_lt_pi h0 (by linarith [pi_pos])
  have hc : 0 ≤ cos ψ := cos_nonneg_of_neg_pi_div_two_le_of_le (by linarith [pi_pos]) h1
  have hP := pv_P_pos hn hm0 hm
  have hP2 := pv_P_sq hn hm0 hm
  obtain ⟨hr0, hr1⟩ := pv_ratio hn hm0 hm
  have hcs := Real.sin_sq_add_cos_sq ψ
  have hs1 : sin ψ ^ 2 ≤ 1 := by nlinarith [sq_nonneg (cos ψ)]
  have hn0 : n ≠ 0 := by linarith
  have hmn : m / n * n = m := by field_simp
  have H : PVData (cos ψ ^ 2) (1 - m * sin ψ ^ 2) (n * sin ψ ^ 2) (m / n * sin ψ ^ 2)
      (√((n - 1) * (1 - m / n)) * sin ψ) :=
    { hx := by positivity
      hy := one_sub_mul_sin_sq_pos hm ψ
      hy1 := by have : 0 ≤ m * sin ψ ^ 2 := by positivity
                linarith
      hu := by positivity
      hv0 := by positivity
      hv1 := by nlinarith
      hB := by positivity
      prod := by
        have : cos ψ ^ 2 = 1 - sin ψ ^ 2 := by linarith
        rw [this]
        linear_combination (sin ψ ^ 4) * hmn
      sum := by
        have : cos ψ ^ 2 = 1 - sin ψ ^ 2 := by linarith
        rw [this, mul_pow, hP2]
        linear_combination (-(sin ψ ^ 2)) * hmn }
  have hJ := H.elliprj_eq hne
  have hlog : pvLog (cos ψ ^ 2) (1 - m * sin ψ ^ 2) (√((n - 1) * (1 - m / n)) * sin ψ) 0
      = Real.log ((cos ψ * √(1 - m * sin ψ ^ 2) + √((n - 1) * (1 - m / n)) * sin ψ)
      / (cos ψ * √(1 - m * sin ψ ^ 2) - √((n - 1) * (1 - m / n)) * sin ψ)) := by
    unfold pvLog
    rw [zero_add, zero_add, zero_add, Real.sqrt_one, mul_one, Real.sqrt_mul (by positivity),
      Real.sqrt_sq hc]
  have hPi := carlson_Pi h0.le h1 hr1 hm
  have hF := carlson_F h0 h1 hm
  rw [hlog] at hJ
  rw [← hPi, ← hF]
  unfold pvTerm
  generalize elliprj _ _ _ (1 - n * sin ψ ^ 2) = J at *
  generalize elliprj _ _ _ (1 - m / n * sin ψ ^ 2) = J' at *
  generalize elliprf _ _ _ = F at *
  generalize Real.log _ = Lg at *
  generalize √((n - 1) * (1 - m / n)) = P at *
  have e : 1 / (P * sin ψ) * Lg = 2 / sin ψ * (1 / (2 * P) * Lg) := by field_simp
  rw [e] at hJ
  generalize 1 / (2 * P) * Lg = T at *
  have e2 : sin ψ / 2 * (2 / sin ψ * T) = T := by field_simp
  linear_combination (sin ψ / 2) * hJ + e2

lemma evenPer_pv : EvenPer fun t => 1 / √(1 - m * sin t ^ 2)
    - 1 / ((1 - m / n * sin t ^ 2) * √(1 - m * sin t ^ 2)) := by
  have h1 := evenPer_F hm
  have h2 := evenPer_Pi (pv_ratio hn hm0 hm).2 hm
  exact ⟨h1.cont.sub h2.cont, fun t => congrArg₂ (· - ·) (h1.per t) (h2.per t),
    fun t => congrArg₂ (· - ·) (h1.even t) (h2.even t)⟩

lemma pv_integral (φ : ℝ) : (∫ t in (0:ℝ)..φ, (1 / √(1 - m * sin t ^ 2)
    - 1 / ((1 - m / n * sin t ^ 2) * √(1 - m * sin t ^ 2))))
    = (∫ t in (0:ℝ)..φ, 1 / √(1 - m * sin t ^ 2)) - Spec.Pi (m / n) φ m :=
  intervalIntegral.integral_sub ((evenPer_F hm).intervalIntegrable 0 φ)
    ((evenPer_Pi (pv_ratio hn hm0 hm).2 hm).intervalIntegrable 0 φ)

omit hn hm0 hm in
lemma pvTerm_neg (φ : ℝ) : pvTerm n m (-φ) = -pvTerm n m φ := by
  unfold pvTerm
  rw [Real.sin_neg, Real.cos_neg, neg_sq, ← mul_neg, ← Real.log_inv, inv_div]
  congr 3 <;> ring

omit hn hm0 hm in
lemma pvTerm_add_pi (φ : ℝ) : pvTerm n m (φ + π) = pvTerm n m φ := by
  unfold pvTerm
  rw [Real.sin_add_pi, Real.cos_add_pi, neg_sq]
  congr 2
  rw [← neg_div_neg_eq]
  congr 1 <;> ring

omit hn hm0 hm in
lemma pvTerm_periodic : Function.Periodic (pvTerm n m) π := pvTerm_add_pi

omit hm0 hm in
lemma ellippiK_gt : 1 < n → 0 ≤ m → m < 1 →
    ellippiK n m = (∫ t in (0:ℝ)..(π / 2), (1 / √(1 - m * sin t ^ 2)
    - 1 / ((1 - m / n * sin t ^ 2) * √(1 - m * sin t ^ 2)))) := by
  intro hn hm0 hm
  have h := pv_base hn hm0 hm (ψ := π / 2) (by positivity) le_rfl (by simp; linarith)
  rw [← pv_integral hn hm0 hm] at h
  have h2 : pvTerm n m (π / 2) = 0 := by
    unfold pvTerm
    simp
    right; right
    have := (pv_P_pos hn hm0 hm).ne'
    rw [div_neg, div_self this]
  rw [h2, add_zero] at h
  rw [← h]
  simp [ellippiK]

/-- For `n > 1` `_ellippiinc` is the Cauchy principal value. -/
theorem ellippiincK_gt {φ : ℝ} (hne : n * sin φ ^ 2 ≠ 1) :
    ellippiincK φ n m = (∫ t in (0:ℝ)..φ, (1 / √(1 - m * sin t ^ 2)
    - 1 / ((1 - m / n * sin t ^ 2) * √(1 - m * sin t ^ 2)))) + pvTerm n m φ := by
  classical
  let I0 : ℝ → ℝ := fun ψ => sin ψ * elliprf (cos ψ ^ 2) (1 - m * sin ψ ^ 2) 1
      + 1 / 3 * n * sin ψ ^ 3 * elliprj (cos ψ ^ 2) (1 - m * sin ψ ^ 2) 1 (1 - n * sin ψ ^ 2)
  let I : ℝ → ℝ := fun ψ => if n * sin ψ ^ 2 = 1 then (∫ t in (0:ℝ)..ψ, (1 / √(1 - m * sin t ^ 2)
    - 1 / ((1 - m / n * sin t ^ 2) * √(1 - m * sin t ^ 2)))) else I0 ψ - pvTerm n m ψ
  have hh := halfPeriod_eq (evenPer_pv hn hm0 hm) I (ellippiK n m) (by
    intro ψ h0 h1
    simp only [I]
    split_ifs with h
    · rfl
    · rw [pv_integral hn hm0 hm]
      have := pv_base hn hm0 hm h0 h1 h
      simp only [I0]
      linarith) (ellippiK_gt hn hn hm0 hm) φ
  have hred : n * sin |arcsin (sin φ)| ^ 2 ≠ 1 := by
    have : sin |arcsin (sin φ)| ^ 2 = sin φ ^ 2 := by
      rcases abs_choice (arcsin (sin φ)) with h | h <;> rw [h]
      · rw [sin_arcsin (neg_one_le_sin φ) (sin_le_one φ)]
      · rw [Real.sin_neg, neg_sq, sin_arcsin (neg_one_le_sin φ) (sin_le_one φ)]
    rw [this]; exact hne
  have hI : I |arcsin (sin φ)| = I0 |arcsin (sin φ)| - pvTerm n m |arcsin (sin φ)| := if_neg hred
  rw [hI] at hh
  rw [← hh]
  have hdef : ellippiincK φ n m = if ⌊φ / (π/2)⌋ % 2 = 0 then (⌊φ / (π/2)⌋ : ℝ) * ellippiK n m + I0 |arcsin (sin φ)|
      else ((⌊φ / (π/2)⌋ : ℝ) + 1) * ellippiK n m - I0 |arcsin (sin φ)| := rfl
  rw [hdef]
  obtain ⟨h1, h2⟩ := floor_half_pi φ
  generalize hk : ⌊φ / (π/2)⌋ = N at *
  rcases Int.even_or_odd' N with ⟨k, hk | hk⟩
  · subst hk
    push_cast at h1 h2
    have ha : |arcsin (sin φ)| = φ - k * π := abs_arcsin_sin_even (by linarith) (by linarith)
    have hp : pvTerm n m (φ - k * π) = pvTerm n m φ := pvTerm_periodic.sub_int_mul_eq k
    rw [if_pos (by omega), if_pos (by omega), ha, hp]; ring
  · subst hk
    push_cast at h1 h2
    have ha : |arcsin (sin φ)| = (k+1) * π - φ := abs_arcsin_sin_odd (by linarith) (by linarith)
    have hp : pvTerm n m ((k+1) * π - φ) = -pvTerm n m φ := by
      have := (pvTerm_periodic (n := n) (m := m)).int_mul_sub_eq (x := φ) (k + 1)
      push_cast at this
      rw [this, pvTerm_neg]
    rw [if_neg (by omega), if_neg (by omega), ha, hp]; ring

/-- The derivative of `_ellippiinc` for `n > 1`, away from its singularities. -/
theorem hasDerivAt_ellippiincK_gt {φ : ℝ} (hne : n * sin φ ^ 2 ≠ 1) :
    HasDerivAt (fun φ => ellippiincK φ n m) (1 / ((1 - n * sin φ ^ 2) * √(1 - m * sin φ ^ 2))) φ := by
  have hev : (fun φ => ellippiincK φ n m) =ᶠ[𝓝 φ] fun φ => (∫ t in (0:ℝ)..φ, (1 / √(1 - m * sin t ^ 2)
    - 1 / ((1 - m / n * sin t ^ 2) * √(1 - m * sin t ^ 2)))) + pvTerm n m φ := by
    have hc : ContinuousAt (fun φ => n * sin φ ^ 2) φ := by fun_prop
    filter_upwards [hc.eventually_ne hne] with ψ hψ
    exact ellippiincK_gt hn hm0 hm hψ
  refine HasDerivAt.congr_of_eventuallyEq ?_ hev
  have hP := pv_P_pos hn hm0 hm
  have hP2 := pv_P_sq hn hm0 hm
  obtain ⟨hr0, hr1⟩ := pv_ratio hn hm0 hm
  have hcs := Real.sin_sq_add_cos_sq φ
  have hn0 : n ≠ 0 := by linarith
  have hmn : m / n * n = m := by field_simp
  have hd1 := one_sub_mul_sin_sq_pos hm φ
  have hd := Real.sqrt_pos.mpr hd1
  have hd2 := Real.sq_sqrt hd1.le
  have hr2 := one_sub_mul_sin_sq_pos hr1 φ
  have hn1 : 1 - n * sin φ ^ 2 ≠ 0 := sub_ne_zero.mpr (Ne.symm hne)
  have hNM : (cos φ * √(1 - m * sin φ ^ 2) + √((n - 1) * (1 - m / n)) * sin φ)
      * (cos φ * √(1 - m * sin φ ^ 2) - √((n - 1) * (1 - m / n)) * sin φ)
      = (1 - n * sin φ ^ 2) * (1 - m / n * sin φ ^ 2) := by
    generalize m / n = k at *
    have hc2 : cos φ ^ 2 = 1 - sin φ ^ 2 := by linarith
    linear_combination cos φ ^ 2 * hd2 - sin φ ^ 2 * hP2 + (1 - m * sin φ ^ 2) * hc2
      - (sin φ ^ 2 * sin φ ^ 2 - sin φ ^ 2) * hmn
  have hprod : (1 - n * sin φ ^ 2) * (1 - m / n * sin φ ^ 2) ≠ 0 := mul_ne_zero hn1 hr2.ne'
  have hN : cos φ * √(1 - m * sin φ ^ 2) + √((n - 1) * (1 - m / n)) * sin φ ≠ 0 := by
    intro h; rw [h, zero_mul] at hNM; exact hprod hNM.symm
  have hM : cos φ * √(1 - m * sin φ ^ 2) - √((n - 1) * (1 - m / n)) * sin φ ≠ 0 := by
    intro h; rw [h, mul_zero] at hNM; exact hprod hNM.symm
  have dsin := Real.hasDerivAt_sin φ
  have ddn : HasDerivAt (fun φ => √(1 - m * sin φ ^ 2))
      (-(m * (sin φ * cos φ)) / √(1 - m * sin φ ^ 2)) φ := by
    have := (((dsin.pow 2).const_mul m).const_sub 1).sqrt hd1.ne'
    refine this.congr_deriv ?_
    simp only [Pi.pow_apply]
    rw [div_eq_div_iff (by positivity) (by positivity)]
    push_cast; ring
  have dA := (Real.hasDerivAt_cos φ).mul ddn
  have dB := dsin.const_mul (√((n - 1) * (1 - m / n)))
  have dlog := ((dA.add dB).div (dA.sub dB) hM).log (div_ne_zero hN hM)
  have dT := dlog.const_mul (1 / (2 * √((n - 1) * (1 - m / n))))
  have dI := (evenPer_pv hn hm0 hm).hasDerivAt φ
  refine (dI.add dT).congr_deriv ?_
  simp only [Pi.add_apply, Pi.sub_apply, Pi.div_apply, Pi.mul_apply]
  have e1 : ∀ a b X Y : ℝ, X ≠ 0 → Y ≠ 0 → (a * Y - X * b) / Y ^ 2 / (X / Y) = (a * Y - b * X) / (X * Y) := by
    intro a b X Y hX hY
    field_simp
  rw [e1 _ _ _ _ hN hM, hNM]
  generalize √((n - 1) * (1 - m / n)) = P at *
  generalize √(1 - m * sin φ ^ 2) = dn at *
  have e2 : (-sin φ * dn + cos φ * (-(m * (sin φ * cos φ)) / dn) + P * cos φ) * (cos φ * dn - P * sin φ)
      - (-sin φ * dn + cos φ * (-(m * (sin φ * cos φ)) / dn) - P * cos φ) * (cos φ * dn + P * sin φ)
      = 2 * P * (1 - m * sin φ ^ 4) / dn := by
    rw [eq_div_iff hd.ne']
    have hc2 : cos φ ^ 2 = 1 - sin φ ^ 2 := by linarith
    have e3 : -(m * (sin φ * cos φ)) / dn * dn = -(m * (sin φ * cos φ)) := by field_simp
    generalize -(m * (sin φ * cos φ)) / dn = Z at *
    linear_combination (-2 * P * sin φ * cos φ) * e3 + (2 * P * (sin φ ^ 2 + cos φ ^ 2)) * hd2
      + (2 * P * (1 - m * sin φ ^ 2) + 2 * P * m * sin φ ^ 2) * hc2
  rw [e2]
  have e5 : 1 / (2 * P) * (2 * P * (1 - m * sin φ ^ 4) / dn
        / ((1 - n * sin φ ^ 2) * (1 - m / n * sin φ ^ 2)))
      = (1 - m * sin φ ^ 4) / (dn * ((1 - n * sin φ ^ 2) * (1 - m / n * sin φ ^ 2))) := by
    generalize (1 - n * sin φ ^ 2) * (1 - m / n * sin φ ^ 2) = X at *
    field_simp
  rw [e5]
  have e6 : 1 - m * sin φ ^ 4 = (1 - m / n * sin φ ^ 2) + (1 - n * sin φ ^ 2)
      - (1 - n * sin φ ^ 2) * (1 - m / n * sin φ ^ 2) := by
    linear_combination (sin φ ^ 4) * hmn
  rw [e6]
  have hr2' := hr2.ne'
  generalize 1 - n * sin φ ^ 2 = X at *
  generalize 1 - m / n * sin φ ^ 2 = Y at *
  field_simp
  ring

omit hn hm0 in
lemma pv_NM (hn' : 1 < n) (hm0' : 0 ≤ m) (φ : ℝ) :
    (cos φ * √(1 - m * sin φ ^ 2) + √((n - 1) * (1 - m / n)) * sin φ)
      * (cos φ * √(1 - m * sin φ ^ 2) - √((n - 1) * (1 - m / n)) * sin φ)
      = (1 - n * sin φ ^ 2) * (1 - m / n * sin φ ^ 2) := by
  have hP2 := pv_P_sq hn' hm0' hm
  have hcs := Real.sin_sq_add_cos_sq φ
  have hn0 : n ≠ 0 := by linarith
  have hmn : m / n * n = m := by field_simp
  have hd2 := Real.sq_sqrt (one_sub_mul_sin_sq_pos hm φ).le
  generalize m / n = k at *
  have hc2 : cos φ ^ 2 = 1 - sin φ ^ 2 := by linarith
  linear_combination cos φ ^ 2 * hd2 - sin φ ^ 2 * hP2 + (1 - m * sin φ ^ 2) * hc2
    - (sin φ ^ 2 * sin φ ^ 2 - sin φ ^ 2) * hmn

/-- No jump across a pole. -/
theorem ellippiincK_pole {φ : ℝ} (hpole : n * sin φ ^ 2 = 1) :
    Tendsto (fun ε => ellippiincK (φ + ε) n m - ellippiincK (φ - ε) n m) (𝓝[>] 0) (𝓝 0) := by
  have hP := pv_P_pos hn hm0 hm
  obtain ⟨hr0, hr1⟩ := pv_ratio hn hm0 hm
  have hs0 : sin φ ≠ 0 := by rintro h; rw [h] at hpole; norm_num at hpole
  have hs1 : sin φ ^ 2 < 1 := by
    have : 0 < sin φ ^ 2 := by positivity
    nlinarith
  have hc0 : cos φ ≠ 0 := by
    intro h
    have := Real.sin_sq_add_cos_sq φ
    rw [h] at this; nlinarith
  have h2s : sin (2 * φ) ≠ 0 := by
    rw [Real.sin_two_mul]; positivity
  -- the continuous comparison function
  let P := √((n - 1) * (1 - m / n))
  let Nf : ℝ → ℝ := fun x => cos x * √(1 - m * sin x ^ 2) + P * sin x
  let Mf : ℝ → ℝ := fun x => cos x * √(1 - m * sin x ^ 2) - P * sin x
  have hNc : Continuous Nf := by fun_prop
  have hMc : Continuous Mf := by fun_prop
  have hNM : ∀ x, Nf x * Mf x = (1 - n * sin x ^ 2) * (1 - m / n * sin x ^ 2) :=
    pv_NM hm hn hm0
  have hfac : ∀ ε, 1 - n * sin (φ + ε) ^ 2 = -n * (sin (2 * φ + ε) * sin ε) := by
    intro ε
    have h1 : sin (φ + ε) ^ 2 - sin φ ^ 2 = sin (2 * φ + ε) * sin ε := by
      rw [show 2 * φ + ε = φ + (φ + ε) by ring, Real.sin_add φ (φ + ε)]
      simp only [Real.sin_add, Real.cos_add]
      have e2 := Real.sin_sq_add_cos_sq ε
      linear_combination (sin φ ^ 2) * e2
    linear_combination (-n) * h1 - hpole
  obtain ⟨σ, F, hFc, hF0, hFlog⟩ : ∃ (σ : ℝ) (F : ℝ → ℝ), Continuous F ∧ F φ ≠ 0 ∧
      ∀ x, Nf x * Mf x ≠ 0 → Real.log (Nf x / Mf x) = σ * (2 * Real.log (F x) - Real.log (Nf x * Mf x)) := by
    by_cases hN : Nf φ ≠ 0
    · refine ⟨1, Nf, hNc, hN, fun x hx => ?_⟩
      have h1 := left_ne_zero_of_mul hx
      have h2 := right_ne_zero_of_mul hx
      rw [Real.log_div h1 h2, Real.log_mul h1 h2]; ring
    · refine ⟨-1, Mf, hMc, ?_, fun x hx => ?_⟩
      · intro hM
        have hN' : Nf φ = 0 := not_not.mp hN
        have : 2 * P * sin φ = 0 := by
          have : Nf φ - Mf φ = 2 * P * sin φ := by simp only [Nf, Mf]; ring
          rw [← this, hN', hM, sub_zero]
        rcases mul_eq_zero.mp this with h | h
        · have : P ≠ 0 := hP.ne'
          exact this (by linarith)
        · exact hs0 h
      · have h1 := left_ne_zero_of_mul hx
        have h2 := right_ne_zero_of_mul hx
        rw [Real.log_div h1 h2, Real.log_mul h1 h2]; ring
  let c : ℝ → ℝ := fun ε => (∫ t in (0:ℝ)..(φ + ε), (1 / √(1 - m * sin t ^ 2)
      - 1 / ((1 - m / n * sin t ^ 2) * √(1 - m * sin t ^ 2))))
    + 1 / (2 * P) * (σ * (2 * Real.log (F (φ + ε)) - Real.log (-n * sin (2 * φ + ε))
      - Real.log (1 - m / n * sin (φ + ε) ^ 2)))
  have hc : ContinuousAt c 0 := by
    have hG : Continuous fun x => ∫ t in (0:ℝ)..x, (1 / √(1 - m * sin t ^ 2)
      - 1 / ((1 - m / n * sin t ^ 2) * √(1 - m * sin t ^ 2))) :=
      intervalIntegral.continuous_primitive (fun a b => (evenPer_pv hn hm0 hm).intervalIntegrable a b) 0
    have hG' : ContinuousAt (fun ε => ∫ t in (0:ℝ)..(φ + ε), (1 / √(1 - m * sin t ^ 2)
      - 1 / ((1 - m / n * sin t ^ 2) * √(1 - m * sin t ^ 2)))) 0 :=
      (hG.comp (continuous_const.add continuous_id)).continuousAt
    have hF' : ContinuousAt (fun ε => F (φ + ε)) 0 :=
      (hFc.comp (continuous_const.add continuous_id)).continuousAt
    refine hG'.add (continuousAt_const.mul (continuousAt_const.mul (((continuousAt_const.mul
      (hF'.log (by simpa using hF0))).sub (ContinuousAt.log (by fun_prop) ?_)).sub
      (ContinuousAt.log (by fun_prop) ?_))))
    · rw [add_zero]
      exact mul_ne_zero (by linarith) h2s
    · exact (one_sub_mul_sin_sq_pos hr1 _).ne'
  have hval : ∀ᶠ ε in 𝓝[≠] (0:ℝ), ellippiincK (φ + ε) n m
      = c ε - 1 / (2 * P) * (σ * Real.log (sin ε)) := by
    have h1 : ∀ᶠ ε in 𝓝 (0:ℝ), sin (2 * φ + ε) ≠ 0 := by
      have : ContinuousAt (fun ε => sin (2 * φ + ε)) 0 := by fun_prop
      exact this.eventually_ne (by simpa using h2s)
    have h2 : ∀ᶠ ε in 𝓝[≠] (0:ℝ), sin ε ≠ 0 := by
      have : ∀ᶠ ε in 𝓝[≠] (0:ℝ), ε ∈ Set.Ioo (-π) π :=
        nhdsWithin_le_nhds (Ioo_mem_nhds (by linarith [pi_pos]) pi_pos)
      filter_upwards [this, self_mem_nhdsWithin] with ε h h0
      intro hs
      rw [Real.sin_eq_zero_iff_of_lt_of_lt h.1 h.2] at hs
      exact h0 hs
    filter_upwards [nhdsWithin_le_nhds h1, h2] with ε h1 h2
    have hX : 1 - n * sin (φ + ε) ^ 2 ≠ 0 := by
      rw [hfac]; exact mul_ne_zero (by linarith) (mul_ne_zero h1 h2)
    have hY : 1 - m / n * sin (φ + ε) ^ 2 ≠ 0 := (one_sub_mul_sin_sq_pos hr1 _).ne'
    rw [ellippiincK_gt hn hm0 hm (fun h => hX (by rw [h, sub_self]))]
    have hT : pvTerm n m (φ + ε) = 1 / (2 * P) * Real.log (Nf (φ + ε) / Mf (φ + ε)) := rfl
    rw [hT, hFlog _ (by rw [hNM]; exact mul_ne_zero hX hY), hNM, Real.log_mul hX hY, hfac,
      show -n * (sin (2 * φ + ε) * sin ε) = -n * sin (2 * φ + ε) * sin ε by ring,
      Real.log_mul (mul_ne_zero (show -n ≠ 0 by intro h; linarith) h1) h2]
    simp only [c]
    ring
  have hplus : ∀ᶠ ε in 𝓝[>] (0:ℝ), ellippiincK (φ + ε) n m
      = c ε - 1 / (2 * P) * (σ * Real.log (sin ε)) :=
    nhdsWithin_mono 0 (fun x hx => ne_of_gt hx) hval
  have hminus : ∀ᶠ ε in 𝓝[>] (0:ℝ), ellippiincK (φ - ε) n m
      = c (-ε) - 1 / (2 * P) * (σ * Real.log (sin ε)) := by
    have ht : Tendsto (fun ε : ℝ => -ε) (𝓝[>] 0) (𝓝[≠] 0) := by
      refine tendsto_nhdsWithin_iff.mpr ⟨?_, ?_⟩
      · have : Continuous fun ε : ℝ => -ε := continuous_neg
        have := this.tendsto 0
        rw [neg_zero] at this
        exact this.mono_left nhdsWithin_le_nhds
      · filter_upwards [self_mem_nhdsWithin] with ε hε
        have : (0:ℝ) < ε := hε
        exact ne_of_lt (by linarith)
    filter_upwards [ht.eventually hval] with ε h
    rw [sub_eq_add_neg, h, Real.sin_neg, Real.log_neg_eq_log]
  have hlim : Tendsto (fun ε : ℝ => c ε - c (-ε)) (𝓝[>] 0) (𝓝 0) := by
    have h1 : Tendsto c (𝓝[>] 0) (𝓝 (c 0)) := hc.tendsto.mono_left nhdsWithin_le_nhds
    have h2 : Tendsto (fun ε : ℝ => c (-ε)) (𝓝[>] 0) (𝓝 (c 0)) := by
      have hneg : Tendsto (fun ε : ℝ => -ε) (𝓝[>] 0) (𝓝 0) := by
        have := (continuous_neg (G := ℝ)).tendsto 0
        rw [neg_zero] at this
        exact this.mono_left nhdsWithin_le_nhds
      exact hc.tendsto.comp hneg
    have := h1.sub h2
    rwa [sub_self] at this
  refine hlim.congr' ?_
  filter_upwards [hplus, hminus] with ε h1 h2
  rw [h1, h2]; ring

end

end KGP
