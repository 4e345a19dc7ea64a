import Verif.Props.ConstantsSmooth
import Verif.Props.ClosedForms
import Verif.Props.Future
import Verif.Lemmas.Actions

/-!
# C71 — the fundamental frequencies are the derivatives of the energy with respect to the actions

The actions `J_r = (1/2π) ∮ p_r dr`, `J_θ = (1/2π) ∮ p_θ dθ` and `L` are defined from the separated potentials,
without elliptic integrals and without the code.
-/

namespace KGP

open Classical Real Set Filter Topology MeasureTheory intervalIntegral

/-! ## Specification -/

/-- `J_r = (1/2π) ∮ p_r dr` with `p_r = ±√R/Δ`, between the turning points `r₂` and `r₁` -/
noncomputable def Spec.radialAction (a E L Q r₂ r₁ : ℝ) : ℝ :=
  1 / π * ∫ r in r₂..r₁, √(Spec.R a E L Q r) / Spec.Delta a r

/-- `J_θ = (1/2π) ∮ p_θ dθ` with `p_θ = ±√Θ`, between the turning points `θ₁` and `π - θ₁` -/
noncomputable def Spec.polarAction (a E L Q θ₁ : ℝ) : ℝ :=
  1 / π * ∫ θ in θ₁..(π - θ₁), √(Spec.Theta a E L Q θ)

/-! ## Averages -/

namespace FirstLaw

/-- the part of `dt/dλ` that depends on `r` -/
noncomputable def tr (a E L r : ℝ) : ℝ := (r ^ 2 + a ^ 2) / Spec.Delta a r * (E * (r ^ 2 + a ^ 2) - a * L) - a * (a * E - L)

/-- the part of `dφ/dλ` that depends on `r` -/
noncomputable def phr (a E L r : ℝ) : ℝ := a / Spec.Delta a r * (E * (r ^ 2 + a ^ 2) - a * L) - a * E

lemma dt_split (a E L r θ : ℝ) : Spec.dtdlam a E L r θ = tr a E L r + a ^ 2 * E * cos θ ^ 2 := by
  unfold Spec.dtdlam tr
  rw [Real.sin_sq]; ring

lemma dphi_split (a E L r θ : ℝ) : Spec.dphidlam a E L r θ = phr a E L r + L / sin θ ^ 2 := by
  unfold Spec.dphidlam phr
  ring

lemma polar_pos {a E L Q zm zp v : ℝ} (H : PolarConfig a E L Q zm zp) (hv : v ≤ zm) :
    0 < Q + L ^ 2 + a ^ 2 * (1 - E ^ 2) * (1 - zm) - a ^ 2 * (1 - E ^ 2) * v := by
  have hE : 0 < 1 - E ^ 2 := H.hE
  have hz0 := H.z0
  have hz1 := H.z1
  have hL0 : 0 < L ^ 2 := by have := H.hL; positivity
  have hroot := H.root
  unfold Spec.Zpol at hroot
  obtain ⟨h, hh⟩ : ∃ h, h = a ^ 2 * (1 - E ^ 2) := ⟨_, rfl⟩
  have hh0 : 0 ≤ h := by rw [hh]; positivity
  rw [← hh] at hroot ⊢
  have hQ : Q * (1 - zm) = zm * (h * (1 - zm) + L ^ 2) := by linear_combination hroot
  have hQ0 : 0 ≤ Q := by
    have : 0 ≤ Q * (1 - zm) := by
      rw [hQ]; have : 0 ≤ 1 - zm := by linarith
      positivity
    exact (mul_nonneg_iff_of_pos_right (by linarith)).mp this
  have h1 : h * v ≤ h * zm := mul_le_mul_of_nonneg_left hv hh0
  have h3 : (Q + L ^ 2 + h * (1 - 2 * zm)) * (1 - zm) = L ^ 2 + h * (1 - zm) ^ 2 := by linear_combination hQ
  have h4 : 0 < (Q + L ^ 2 + h * (1 - 2 * zm)) * (1 - zm) := by rw [h3]; positivity
  have := (mul_pos_iff_of_pos_right (show 0 < 1 - zm by linarith)).mp h4
  linarith

section
variable {rs : RootScalar} {a p e x : ℝ} {T : Traj} {m : MinoFreqs} {E L Q r1 r2 r3 r4 zm zp : ℝ}
  (D : StableData rs a p e x ⟨0, 0, 0, 0⟩ T m E L Q r1 r2 r3 r4 zm zp) (hb : Spec.BoundGeodesic a E L Q r1 r2 r3 r4)
include D hb

lemma tr_cont : Continuous (fun l => tr a E L (T.r l)) ∧ Continuous (fun l => phr a E L (T.r l)) := by
  have hr : Continuous T.r := continuous_iff_continuousAt.mpr fun l => (D.radial hb l).2.1.continuousAt
  have h0 : ∀ l, Spec.Delta a (T.r l) ≠ 0 := fun l => (D.outside hb l).1.ne'
  have hD : Continuous fun l => Spec.Delta a (T.r l) := by unfold Spec.Delta; fun_prop
  unfold tr phr
  exact ⟨((Continuous.div (by fun_prop) hD h0).mul (by fun_prop)).sub continuous_const,
    ((Continuous.div (by fun_prop) hD h0).mul (by fun_prop)).sub continuous_const⟩

lemma mean_radial (hU : 0 < m.upsilonR) :
    (∫ l in (0:ℝ)..(π / m.upsilonR), tr a E L (T.r l)) = (m.gamma - gammaT a E L zm zp) * (π / m.upsilonR)
    ∧ (∫ l in (0:ℝ)..(π / m.upsilonR), phr a E L (T.r l)) = (m.upsilonPhi - phiT a L zm zp) * (π / m.upsilonR) := by
  have H := D.polar hb.energy hb.nonpolar
  have HR := BoundGeodesic.config hb
  obtain ⟨p1, p2, o1, o2⟩ := HR.dt_dphi_osc (a := a) (E := E) (L := L) (Q := Q) (lt_trans hb.horizon hb.r32)
  have ht : T.t = fun lam => 0 + m.gamma * lam
      + (radialSolutions a (E, L, Q) (r1, r2, r3, r4)).dt (m.upsilonR * lam + 0)
      + (polarSolutionsCore a (E, L, Q) zm zp).dt (m.upsilonTheta * lam + 0)
      - ((radialSolutions a (E, L, Q) (r1, r2, r3, r4)).dt 0
        + (polarSolutionsCore a (E, L, Q) zm zp).dt 0) := by
    rw [D.hT]; rfl
  have hphi : T.phi = fun lam => 0 + m.upsilonPhi * lam
      + (radialSolutions a (E, L, Q) (r1, r2, r3, r4)).dphi (m.upsilonR * lam + 0)
      + (polarSolutionsCore a (E, L, Q) zm zp).dphi (m.upsilonTheta * lam + 0)
      - ((radialSolutions a (E, L, Q) (r1, r2, r3, r4)).dphi 0
        + (polarSolutionsCore a (E, L, Q) zm zp).dphi 0) := by
    rw [D.hT]; rfl
  obtain ⟨c1, c2⟩ := tr_cont D hb
  have hz : ∀ {f : ℝ → ℝ}, Function.Periodic f (2 * π) → (∀ q, f (-q) = -f q) → f 0 = 0 ∧ f π = 0 := by
    intro f hp ho
    have e0 := ho 0
    rw [neg_zero] at e0
    have e1 := hp (-π)
    rw [ho, show -π + 2 * π = π by ring] at e1
    exact ⟨by linarith, by linarith⟩
  have hend : m.upsilonR * (π / m.upsilonR) + 0 = π := by rw [add_zero, mul_div_cancel₀ _ hU.ne']
  have hth : ∀ lam, (polarSolutionsCore a (E, L, Q) zm zp).pos (m.upsilonTheta * lam + 0) = T.theta lam := fun lam => by
    rw [D.hT]; rfl
  have d := fun lam => D.timeEq hb lam
  have d3 := fun lam => polar_dt H m.upsilonTheta (D.upsilonTheta hb.energy hb.nonpolar) 0 lam
  simp only [hth] at d3
  constructor
  · have k : ∀ lam, HasDerivAt (fun l => (radialSolutions a (E, L, Q) (r1, r2, r3, r4)).dt (m.upsilonR * l + 0))
        (tr a E L (T.r lam) - (m.gamma - gammaT a E L zm zp)) lam := by
      intro lam
      have := (((d lam).1.sub ((hasDerivAt_id' lam).const_mul m.gamma)).sub (d3 lam).1).add_const
        ((radialSolutions a (E, L, Q) (r1, r2, r3, r4)).dt 0 + (polarSolutionsCore a (E, L, Q) zm zp).dt 0)
      refine (this.congr_deriv (by rw [dt_split]; ring)).congr_of_eventuallyEq (Eventually.of_forall fun l => ?_)
      rw [ht]
      simp only [Pi.sub_apply]
      ring
    have := integral_eq_sub_of_hasDerivAt (fun l _ => k l)
      ((c1.sub continuous_const).intervalIntegrable 0 (π / m.upsilonR))
    rw [hend, mul_zero, add_zero, (hz p1 o1).1, (hz p1 o1).2, integral_sub (c1.intervalIntegrable _ _)
      (continuous_const.intervalIntegrable _ _), intervalIntegral.integral_const, smul_eq_mul] at this
    linarith
  · have k : ∀ lam, HasDerivAt (fun l => (radialSolutions a (E, L, Q) (r1, r2, r3, r4)).dphi (m.upsilonR * l + 0))
        (phr a E L (T.r lam) - (m.upsilonPhi - phiT a L zm zp)) lam := by
      intro lam
      have := (((d lam).2.sub ((hasDerivAt_id' lam).const_mul m.upsilonPhi)).sub (d3 lam).2).add_const
        ((radialSolutions a (E, L, Q) (r1, r2, r3, r4)).dphi 0 + (polarSolutionsCore a (E, L, Q) zm zp).dphi 0)
      refine (this.congr_deriv (by rw [dphi_split]; ring)).congr_of_eventuallyEq (Eventually.of_forall fun l => ?_)
      rw [hphi]
      simp only [Pi.sub_apply]
      ring
    have := integral_eq_sub_of_hasDerivAt (fun l _ => k l)
      ((c2.sub continuous_const).intervalIntegrable 0 (π / m.upsilonR))
    rw [hend, mul_zero, add_zero, (hz p2 o2).1, (hz p2 o2).2, integral_sub (c2.intervalIntegrable _ _)
      (continuous_const.intervalIntegrable _ _), intervalIntegral.integral_const, smul_eq_mul] at this
    linarith

lemma cos_theta (lam : ℝ) : cos (T.theta lam) = √zm * sin (amT (mT a zm zp) (m.upsilonTheta * lam)) := by
  have H := D.polar hb.energy hb.nonpolar
  have hth : T.theta lam = (polarSolutionsCore a (E, L, Q) zm zp).pos (m.upsilonTheta * lam + 0) := by
    rw [D.hT]; rfl
  rw [hth, add_zero, polar_pos_eq H, Real.cos_arccos]
  all_goals
    have h0 := Real.sqrt_nonneg zm
    have h1 : √zm ≤ 1 := Real.sqrt_le_one.mpr H.z1.le
    nlinarith [Real.sin_le_one (amT (mT a zm zp) (m.upsilonTheta * lam)),
      Real.neg_one_le_sin (amT (mT a zm zp) (m.upsilonTheta * lam))]

lemma mean_polar (hU : 0 < m.upsilonTheta) :
    (∫ l in (0:ℝ)..(π / m.upsilonTheta), a ^ 2 * E * cos (T.theta l) ^ 2) = gammaT a E L zm zp * (π / m.upsilonTheta)
    ∧ (∫ l in (0:ℝ)..(π / m.upsilonTheta), L / (1 - cos (T.theta l) ^ 2)) = phiT a L zm zp * (π / m.upsilonTheta) := by
  have H := D.polar hb.energy hb.nonpolar
  obtain ⟨p1, p2⟩ := H.dt_dphi_osc
  have hm := H.mT_lt
  have hth : ∀ lam, (polarSolutionsCore a (E, L, Q) zm zp).pos (m.upsilonTheta * lam + 0) = T.theta lam := fun lam => by
    rw [D.hT]; rfl
  have d3 := fun lam => polar_dt H m.upsilonTheta (D.upsilonTheta hb.energy hb.nonpolar) 0 lam
  simp only [hth] at d3
  have hc : Continuous T.theta := continuous_iff_continuousAt.mpr fun l => (D.polarEq hb l).2.2.1.continuousAt
  have hs : ∀ l, 1 - cos (T.theta l) ^ 2 = sin (T.theta l) ^ 2 := fun l => (Real.sin_sq _).symm
  have hs0 : ∀ l, sin (T.theta l) ^ 2 ≠ 0 := fun l => (pow_pos (D.polarEq hb l).2.1 2).ne'
  have hper : ∀ l, cos (T.theta (l + π / m.upsilonTheta)) ^ 2 = cos (T.theta l) ^ 2 := fun l => by
    rw [cos_theta D hb, cos_theta D hb, mul_add, mul_div_cancel₀ _ hU.ne']
    have : amT (mT a zm zp) (m.upsilonTheta * l + π) = amT (mT a zm zp) (m.upsilonTheta * l) + π := by
      unfold amT
      have h := am_add_int hm (2 / π * ellipk (mT a zm zp) * (m.upsilonTheta * l + π / 2)) 1
      push_cast at h
      rw [one_mul] at h
      rw [← h]
      congr 1
      have := Real.pi_ne_zero
      field_simp
      ring
    rw [this, Real.sin_add_pi]; ring
  have half : ∀ {f g : ℝ → ℝ} {A : ℝ}, Continuous f → (∀ l, f (l + π / m.upsilonTheta) = f l) → Function.Periodic g (2 * π)
      → (∀ l, HasDerivAt (fun l => g (m.upsilonTheta * l + 0)) (f l - A) l)
      → (∫ l in (0:ℝ)..(π / m.upsilonTheta), f l) = A * (π / m.upsilonTheta) := by
    intro f g A hf hp hg hd
    have e1 := integral_eq_sub_of_hasDerivAt (fun l _ => hd l)
      ((hf.sub continuous_const).intervalIntegrable 0 (2 * (π / m.upsilonTheta)))
    have e2 := hg 0
    rw [zero_add] at e2
    rw [show m.upsilonTheta * (2 * (π / m.upsilonTheta)) + 0 = 2 * π by field_simp; ring, mul_zero, add_zero, e2, sub_self,
      integral_sub (hf.intervalIntegrable _ _) (continuous_const.intervalIntegrable _ _), intervalIntegral.integral_const, smul_eq_mul] at e1
    have e3 := Function.Periodic.intervalIntegral_add_eq (f := f) (T := π / m.upsilonTheta) hp 0 (π / m.upsilonTheta)
    rw [zero_add] at e3
    have e4 := integral_add_adjacent_intervals (hf.intervalIntegrable 0 (π / m.upsilonTheta))
      (hf.intervalIntegrable (μ := volume) (π / m.upsilonTheta) (π / m.upsilonTheta + π / m.upsilonTheta))
    rw [← e3, ← two_mul] at e4
    rw [← two_mul] at e4
    linarith
  constructor
  · exact half (by fun_prop) (fun l => by simp only [hper]) p1 fun l => (d3 l).1
  · exact half (Continuous.div continuous_const (by fun_prop) fun l => by rw [hs]; exact hs0 l)
      (fun l => by simp only [hper]) p2 fun l => by rw [hs]; exact (d3 l).2

/-- Means over half a radial period as integrals over `χ`. -/
lemma radial_int (hU : 0 < m.upsilonR)
    (hstrict : e ≠ 0 → ∀ lam, sin (m.upsilonR * lam + 0) ≠ 0 → p / (1 + e) < T.r lam ∧ T.r lam < p / (1 - e))
    {f : ℝ → ℝ} (hf : ContinuousOn f (Icc r2 r1)) :
    (∫ l in (0:ℝ)..(π / m.upsilonR), f (T.r l))
      = ∫ χ in (0:ℝ)..π, f ((r1 + r2) / 2 - (r1 - r2) / 2 * cos χ)
        / √(Action.X (1 - E ^ 2) ((1 - E ^ 2) * (r3 + r4)) ((1 - E ^ 2) * (r3 * r4))
          ((r1 + r2) / 2 - (r1 - r2) / 2 * cos χ)) := by
  have hE : 0 < 1 - E ^ 2 := by linarith [hb.energy]
  have hXf : ∀ r, Action.X (1 - E ^ 2) ((1 - E ^ 2) * (r3 + r4)) ((1 - E ^ 2) * (r3 * r4)) r
      = (1 - E ^ 2) * (r - r3) * (r - r4) := fun r => by unfold Action.X; ring
  have hX0 : ∀ r, r2 ≤ r → 0 < Action.X (1 - E ^ 2) ((1 - E ^ 2) * (r3 + r4)) ((1 - E ^ 2) * (r3 * r4)) r := fun r hr => by
    rw [hXf]
    have h1 : 0 < r - r3 := by linarith [hb.r32]
    have h2 : 0 < r - r4 := by linarith [hb.r32, hb.r43]
    positivity
  have hr : Continuous T.r := continuous_iff_continuousAt.mpr fun l => (D.radial hb l).2.1.continuousAt
  rcases eq_or_lt_of_le hb.r21 with h21 | h21
  · -- circular
    have hc : ∀ l, T.r l = r1 := fun l => le_antisymm (D.r_bounds hb l).2 (h21 ▸ (D.r_bounds hb l).1)
    have hU' : m.upsilonR = √((1 - E ^ 2) * (r1 - r3) * (r1 - r4)) := by
      rw [D.upsilonR, rFrequencyCore_eq (BoundGeodesic.config hb)]
      unfold mR
      rw [h21, sub_self, zero_mul, zero_div, ellipk_zero]
      field_simp
    simp only [hc]
    rw [h21, sub_self, zero_div]
    simp only [zero_mul, sub_zero]
    rw [show (r1 + r1) / 2 = r1 by ring, hXf, ← hU', intervalIntegral.integral_const, intervalIntegral.integral_const]
    simp only [smul_eq_mul, sub_zero]
    ring
  · have hd : 0 < (r1 - r2) / 2 := by linarith
    have hτ : 0 < π / m.upsilonR := by positivity
    have e1 : (r1 + r2) / 2 - (r1 - r2) / 2 = r2 := by ring
    have e2 : (r1 + r2) / 2 + (r1 - r2) / 2 = r1 := by ring
    have hpos : ∀ t, T.r t = (radialSolutions a (E, L, Q) (r1, r2, r3, r4)).pos (m.upsilonR * t) := fun t => by
      rw [D.hT]; simp only [assembleTrajectory, add_zero]
    have HR := BoundGeodesic.config hb
    have hs : ∀ t ∈ Ioo 0 (π / m.upsilonR), 0 < sin (m.upsilonR * t) := fun t ht => by
      refine Real.sin_pos_of_pos_of_lt_pi (mul_pos hU ht.1) ?_
      have := ht.2
      rw [lt_div_iff₀ hU] at this
      linarith
    have hin : ∀ t ∈ Ioo 0 (π / m.upsilonR), r2 < T.r t ∧ T.r t < r1 := by
      intro t ht
      have he : e ≠ 0 := by
        rintro rfl
        obtain ⟨h1, h2⟩ := D.roots12
        rw [h1, h2] at h21
        simp at h21
      have := hstrict he t (by rw [add_zero]; exact (hs t ht).ne')
      rwa [← D.roots12.1, ← D.roots12.2] at this
    refine Action.average (r := T.r) (S := fun y => √(Action.X (1 - E ^ 2) ((1 - E ^ 2) * (r3 + r4)) ((1 - E ^ 2) * (r3 * r4)) y))
      (f := f) hd hτ hr ?_ ?_ ?_ ?_ ?_ ?_ ?_ ?_
    · rw [e1, hpos, mul_zero, radial_at_zero HR]
    · rw [e2, hpos, mul_div_cancel₀ _ hU.ne', radial_at_pi HR]
    · rw [e1, e2]; exact hin
    · rw [e1, e2]; exact fun t => D.r_bounds hb t
    · intro t ht
      refine (D.radial hb t).2.1.congr_deriv ?_
      have := (hin t ht)
      rw [add_zero, Real.sign_of_pos (hs t ht), one_mul, ← Real.sqrt_mul (by nlinarith), hXf, hb.roots]
      congr 1
      ring
    · refine Continuous.continuousOn ?_
      unfold Action.X
      fun_prop
    · rw [e1, e2]
      exact fun y hy => Real.sqrt_pos.mpr (hX0 y hy.1)
    · rw [e1, e2]; exact hf

/-- Means over half a polar period as integrals over `χ`. -/
lemma polar_int (hU : 0 < m.upsilonTheta) {f : ℝ → ℝ} (hf : ContinuousOn f (Icc 0 zm)) :
    (∫ l in (0:ℝ)..(π / m.upsilonTheta), f (cos (T.theta l) ^ 2))
      = ∫ χ in (0:ℝ)..π, f (zm * cos χ ^ 2)
        / √((Q + L ^ 2 + a ^ 2 * (1 - E ^ 2) * (1 - zm)) - a ^ 2 * (1 - E ^ 2) * (zm * cos χ ^ 2)) := by
  have H := D.polar hb.energy hb.nonpolar
  have hm := H.mT_lt
  have hE : 0 < 1 - E ^ 2 := H.hE
  have hz0 := H.z0
  have hz1 := H.z1
  have hL0 : 0 < L ^ 2 := by have := H.hL; positivity
  have hroot := H.root
  unfold Spec.Zpol at hroot
  obtain ⟨g, hg⟩ : ∃ g, g = Q + L ^ 2 + a ^ 2 * (1 - E ^ 2) * (1 - zm) := ⟨_, rfl⟩
  obtain ⟨h, hh⟩ : ∃ h, h = a ^ 2 * (1 - E ^ 2) := ⟨_, rfl⟩
  have hh0 : 0 ≤ h := by rw [hh]; positivity
  have hfac : ∀ v, Spec.Zpol a E L Q v = (zm - v) * (g - h * v) := fun v => by
    unfold Spec.Zpol
    rw [hg, hh]
    linear_combination hroot
  have hX0 : ∀ v, v ≤ zm → 0 < g - h * v := fun v hv => by
    rw [hg, hh]; exact polar_pos H hv
  rw [← hg, ← hh]
  have hct := cos_theta D hb
  rcases eq_or_lt_of_le hz0 with hz | hz
  · -- equatorial
    rw [← hz] at hct ⊢
    simp only [Real.sqrt_zero, zero_mul] at hct
    simp only [hct, zero_mul, mul_zero, sub_zero]
    have hUt : m.upsilonTheta = √g := by
      have hmT : mT a zm zp = 0 := by unfold mT; rw [← hz, zero_div, ite_self]
      rw [D.upsilonTheta hb.energy hb.nonpolar, hmT, ellipk_zero, polarW, e0zpOf, ← hz]
      have hL1 : 0 < |L| := abs_pos.mpr H.hL
      have hQ : Q = 0 := by rw [← hz] at hroot; linarith
      rw [sub_zero, mul_one, mul_one, Real.sqrt_div' _ (sq_nonneg L), Real.sqrt_sq_eq_abs, hg, hQ, ← hz]
      rw [show 0 + L ^ 2 + a ^ 2 * (1 - E ^ 2) * (1 - 0) = a ^ 2 * (1 - E ^ 2) + L ^ 2 by ring]
      field_simp
    rw [← hUt, intervalIntegral.integral_const, intervalIntegral.integral_const]
    simp only [smul_eq_mul, sub_zero]
    rw [show (0:ℝ) ^ 2 = 0 by norm_num]
    ring
  · have hsz : 0 < √zm := Real.sqrt_pos.mpr hz
    have hsz2 := Real.sq_sqrt hz0
    have hτ : 0 < π / m.upsilonTheta := by positivity
    have hc : Continuous T.theta := continuous_iff_continuousAt.mpr fun l => (D.polarEq hb l).2.2.1.continuousAt
    have hmono : StrictMono (amT (mT a zm zp)) := by
      intro u v huv
      unfold amT
      refine am_strictMono hm (mul_lt_mul_of_pos_left (by linarith) ?_)
      have := ellipk_pos hm
      positivity
    have hs : ∀ t ∈ Ioo 0 (π / m.upsilonTheta), 0 < m.upsilonTheta * t ∧ m.upsilonTheta * t < π := fun t ht => by
      refine ⟨mul_pos hU ht.1, ?_⟩
      have := ht.2
      rw [lt_div_iff₀ hU] at this
      linarith
    have hin : ∀ t ∈ Ioo 0 (π / m.upsilonTheta), -√zm < cos (T.theta t) ∧ cos (T.theta t) < √zm := by
      intro t ht
      obtain ⟨l, u⟩ := hs t ht
      have l' := hmono l
      have u' := hmono u
      rw [amT_zero hm] at l'
      rw [amT_pi hm] at u'
      rw [hct]
      generalize amT (mT a zm zp) (m.upsilonTheta * t) = y at *
      have e : sin y = -sin (y - π) := by rw [Real.sin_sub_pi]; ring
      have c : 0 < cos (y - π) := Real.cos_pos_of_mem_Ioo ⟨by linarith, by linarith⟩
      have s := Real.sin_sq_add_cos_sq (y - π)
      have s1 : sin (y - π) < 1 := by nlinarith
      have s2 : -1 < sin (y - π) := by nlinarith
      rw [e]
      constructor <;> nlinarith
    have hmem : ∀ t, -√zm ≤ cos (T.theta t) ∧ cos (T.theta t) ≤ √zm := fun t => by
      rw [hct]
      constructor <;> nlinarith [Real.sin_le_one (amT (mT a zm zp) (m.upsilonTheta * t)),
        Real.neg_one_le_sin (amT (mT a zm zp) (m.upsilonTheta * t))]
    have hsqm : ∀ y, -√zm ≤ y → y ≤ √zm → y ^ 2 ≤ zm := fun y h1 h2 => by nlinarith
    have key := Action.average (m := 0) (d := √zm) (τ := π / m.upsilonTheta) (r := fun t => -cos (T.theta t))
      (S := fun y => √(g - h * y ^ 2)) (f := fun y => f (y ^ 2)) hsz hτ (by fun_prop) ?_ ?_ ?_ ?_ ?_ ?_ ?_ ?_
    · simp only [neg_sq, zero_sub, mul_pow, hsz2] at key
      exact key
    · simp only [hct, mul_zero, amT_zero hm, Real.sin_pi_div_two, mul_one, zero_sub]
    · simp only [hct, mul_div_cancel₀ _ hU.ne', amT_pi hm]
      rw [show 3 * π / 2 = π / 2 + π by ring, Real.sin_add_pi, Real.sin_pi_div_two]
      ring
    · intro t ht
      have := hin t ht
      constructor <;> linarith [this.1, this.2]
    · intro t
      have := hmem t
      constructor <;> linarith [this.1, this.2]
    · intro t ht
      obtain ⟨k1, k2, k3, -⟩ := D.polarEq hb t
      have hsn : 0 < sin (m.upsilonTheta * t) := Real.sin_pos_of_pos_of_lt_pi (hs t ht).1 (hs t ht).2
      have := ((Real.hasDerivAt_cos _).comp t k3).neg
      refine this.congr_deriv ?_
      have hb1 := hsqm _ (hmem t).1 (hmem t).2
      rw [add_zero, Real.sign_of_pos hsn, one_mul, ← Real.sqrt_mul (by rw [hsz2]; nlinarith), hfac]
      simp only [sub_zero, neg_sq, hsz2]
      field_simp
    · refine Continuous.continuousOn ?_
      fun_prop
    · rw [zero_sub, zero_add]
      exact fun y hy => Real.sqrt_pos.mpr (hX0 _ (hsqm y hy.1 hy.2))
    · rw [zero_sub, zero_add]
      exact hf.comp (by fun_prop) fun y hy => ⟨sq_nonneg y, hsqm y hy.1 hy.2⟩

end

/-- the coefficients of the remaining factor of the radial potential, without its roots -/
lemma coeffs {a E L Q r1 r2 r3 r4 : ℝ} (h : Spec.RadialRoots a E L Q r1 r2 r3 r4) :
    2 - 2 * ((r1 + r2) / 2) * (1 - E ^ 2) = (1 - E ^ 2) * (r3 + r4)
    ∧ a ^ 2 * (1 - E ^ 2) + L ^ 2 + Q - 2 * ((r1 + r2) / 2) * (2 - 2 * ((r1 + r2) / 2) * (1 - E ^ 2))
        - (((r1 + r2) / 2) ^ 2 - ((r1 - r2) / 2) ^ 2) * (1 - E ^ 2) = (1 - E ^ 2) * (r3 * r4) := by
  obtain ⟨v1, v2, -, -⟩ := RadialRoots.vieta h
  constructor
  · linear_combination -v1
  · linear_combination -v2 + (r1 + r2) * v1

section
variable {a s₀ : ℝ} {p e x E L Q : ℝ → ℝ} {p' e' x' E' L' Q' : ℝ} (ha : 0 ≤ a) (ha1 : a < 1)
  (hp : HasDerivAt p p' s₀) (he : HasDerivAt e e' s₀) (hx : HasDerivAt x x' s₀)
  (hE : HasDerivAt E E' s₀) (hL : HasDerivAt L L' s₀) (hQ : HasDerivAt Q Q' s₀)
  (hst : ∀ᶠ s in 𝓝 s₀, (0 ≤ e s ∧ e s < 1) ∧ x s ^ 2 ≤ 1 ∧ Spec.StableConstants a (p s) (e s) (x s) (E s) (L s) (Q s))
include ha ha1 hp he hE hL hQ hst

lemma radial_action_deriv {r3 r4 : ℝ} (hroots : Spec.RadialRoots a (E s₀) (L s₀) (Q s₀) (p s₀ / (1 - e s₀)) (p s₀ / (1 + e s₀)) r3 r4)
    (h43 : r4 ≤ r3) (h32 : r3 < p s₀ / (1 + e s₀)) :
    HasDerivAt (fun s => Spec.radialAction a (E s) (L s) (Q s) (p s / (1 + e s)) (p s / (1 - e s)))
      (1 / π * ∫ χ in (0:ℝ)..π, (fun r => E' * tr a (E s₀) (L s₀) r - L' * (phr a (E s₀) (L s₀) r + L s₀) - Q' / 2)
          ((p s₀ / (1 - e s₀) + p s₀ / (1 + e s₀)) / 2 - (p s₀ / (1 - e s₀) - p s₀ / (1 + e s₀)) / 2 * cos χ)
        / √(Action.X (1 - E s₀ ^ 2) ((1 - E s₀ ^ 2) * (r3 + r4)) ((1 - E s₀ ^ 2) * (r3 * r4))
          ((p s₀ / (1 - e s₀) + p s₀ / (1 + e s₀)) / 2 - (p s₀ / (1 - e s₀) - p s₀ / (1 + e s₀)) / 2 * cos χ))) s₀ := by
  obtain ⟨⟨he0, he1⟩, -, hhor, hE0, hE1, -⟩ := hst.self_of_nhds
  obtain ⟨R1, hR1⟩ : ∃ R1 : ℝ → ℝ, R1 = fun s => p s / (1 - e s) := ⟨_, rfl⟩
  obtain ⟨R2, hR2⟩ : ∃ R2 : ℝ → ℝ, R2 = fun s => p s / (1 + e s) := ⟨_, rfl⟩
  have q1 : ∀ s, p s / (1 - e s) = R1 s := fun s => by rw [hR1]
  have q2 : ∀ s, p s / (1 + e s) = R2 s := fun s => by rw [hR2]
  have dR1 := hp.div (he.const_sub 1) (show 1 - e s₀ ≠ 0 by linarith)
  have dR2 := hp.div (he.const_add 1) (show 1 + e s₀ ≠ 0 by linarith)
  have hsn := Real.sqrt_nonneg (1 - a ^ 2)
  have hsq := Real.sq_sqrt (show 0 ≤ 1 - a ^ 2 by nlinarith)
  have hDel : ∀ r, 1 + √(1 - a ^ 2) < r → 0 < Spec.Delta a r := fun r hr => by unfold Spec.Delta; nlinarith
  have h21 : R2 s₀ ≤ R1 s₀ := by
    rw [hR1, hR2]
    have : 0 < p s₀ / (1 + e s₀) := by linarith
    have hp0 : 0 < p s₀ := by
      rcases div_pos_iff.mp this with h | h
      · exact h.1
      · linarith [h.2]
    exact div_le_div_of_nonneg_left hp0.le (by linarith) (by linarith)
  have hm := (dR1.add dR2).div_const 2
  have hd := (dR1.sub dR2).div_const 2
  have hβ := (hE.fun_pow 2).const_sub 1
  have hb := ((hm.const_mul 2).mul hβ).const_sub 2
  have hc := ((((hβ.const_mul (a ^ 2)).add (hL.fun_pow 2)).add hQ).sub ((hm.const_mul 2).mul hb)).sub
    (((hm.fun_pow 2).sub (hd.fun_pow 2)).mul hβ)
  simp only [q1, q2] at hroots h32 hhor ⊢
  obtain ⟨c1, c2⟩ := coeffs hroots
  have hmem : ∀ χ, R2 s₀ ≤ (R1 s₀ + R2 s₀) / 2 - (R1 s₀ - R2 s₀) / 2 * cos χ := fun χ => by
    nlinarith [Real.cos_le_one χ]
  have hXf : ∀ r, Action.X (1 - E s₀ ^ 2) ((1 - E s₀ ^ 2) * (r3 + r4)) ((1 - E s₀ ^ 2) * (r3 * r4)) r
      = (1 - E s₀ ^ 2) * (r - r3) * (r - r4) := fun r => by unfold Action.X; ring
  have hβ0 : 0 < 1 - E s₀ ^ 2 := by nlinarith
  have hX : ∀ χ, 0 < Action.X (1 - E s₀ ^ 2) ((1 - E s₀ ^ 2) * (r3 + r4)) ((1 - E s₀ ^ 2) * (r3 * r4))
      ((R1 s₀ + R2 s₀) / 2 - (R1 s₀ - R2 s₀) / 2 * cos χ) := fun χ => by
    rw [hXf]
    have := hmem χ
    exact mul_pos (mul_pos hβ0 (by linarith)) (by linarith)
  have hD : ∀ χ, 0 < Spec.Delta a ((R1 s₀ + R2 s₀) / 2 - (R1 s₀ - R2 s₀) / 2 * cos χ) := fun χ =>
    hDel _ (lt_of_lt_of_le hhor (hmem χ))
  have key := Action.radial_action (a := a) (s₀ := s₀) (m := fun s => (R1 s + R2 s) / 2) (d := fun s => (R1 s - R2 s) / 2)
    (β := fun s => 1 - E s ^ 2) (b := fun s => 2 - 2 * ((R1 s + R2 s) / 2) * (1 - E s ^ 2))
    (c := fun s => a ^ 2 * (1 - E s ^ 2) + L s ^ 2 + Q s - 2 * ((R1 s + R2 s) / 2) * (2 - 2 * ((R1 s + R2 s) / 2) * (1 - E s ^ 2))
        - (((R1 s + R2 s) / 2) ^ 2 - ((R1 s - R2 s) / 2) ^ 2) * (1 - E s ^ 2))
    (by rw [hR1, hR2]; exact hm) (by rw [hR1, hR2]; exact hd) hβ (by rw [hR1, hR2]; exact hb) (by rw [hR1, hR2]; exact hc)
    (by simp only [c2]; simp only [c1]; exact hX) hD (R := fun s r => Spec.R a (E s) (L s) (Q s) r)
    (R' := fun r => 2 * (E s₀ * (r ^ 2 + a ^ 2) - a * L s₀) * (E' * (r ^ 2 + a ^ 2) - a * L')
      - Spec.Delta a r * (2 * (L s₀ - a * E s₀) * (L' - a * E') + Q')) ?_ ?_
  · have key' := key.const_mul (1 / π)
    simp only [c2] at key'
    simp only [c1] at key'
    refine (key'.congr_deriv ?_).congr_of_eventuallyEq (Eventually.of_forall fun s => ?_)
    · congr 1
      refine integral_congr fun χ _ => ?_
      have h1 := hD χ
      have h2 := Real.sqrt_pos.mpr (hX χ)
      beta_reduce
      generalize √(Action.X (1 - E s₀ ^ 2) ((1 - E s₀ ^ 2) * (r3 + r4)) ((1 - E s₀ ^ 2) * (r3 * r4))
          ((R1 s₀ + R2 s₀) / 2 - (R1 s₀ - R2 s₀) / 2 * cos χ)) = q at *
      unfold tr phr
      generalize (R1 s₀ + R2 s₀) / 2 - (R1 s₀ - R2 s₀) / 2 * cos χ = r at *
      generalize Spec.Delta a r = D at *
      field_simp
      ring
    · unfold Spec.radialAction
      beta_reduce
      rw [show (R1 s + R2 s) / 2 - (R1 s - R2 s) / 2 = R2 s by ring, show (R1 s + R2 s) / 2 + (R1 s - R2 s) / 2 = R1 s by ring]
  · intro r
    have hP := (hE.mul_const (r ^ 2 + a ^ 2)).sub (hL.const_mul a)
    have hX := hL.sub (hE.const_mul a)
    have := (hP.fun_pow 2).sub (((((hX.fun_pow 2)).const_add (r ^ 2)).add hQ).const_mul (Spec.Delta a r))
    unfold Spec.R
    refine (this.congr_deriv ?_).congr_of_eventuallyEq (Eventually.of_forall fun s => rfl)
    simp only [Pi.sub_apply]
    push_cast
    ring
  · filter_upwards [hst] with s hs
    obtain ⟨⟨he0, he1⟩, -, hhor, -, -, -, -, -, r3, r4, hr, -, -⟩ := hs
    rw [q1, q2] at hr
    rw [q2] at hhor
    have h21 : R2 s ≤ R1 s := by
      rw [hR1, hR2]
      have h1 := q2 s
      have : 0 < p s / (1 + e s) := by rw [h1]; linarith
      have hp0 : 0 < p s := by
        rcases div_pos_iff.mp this with h | h
        · exact h.1
        · linarith [h.2]
      exact div_le_div_of_nonneg_left hp0.le (by linarith) (by linarith)
    refine ⟨by linarith, fun r hr => hDel r (by linarith [hr.1]), fun r => ?_⟩
    obtain ⟨c1, c2⟩ := coeffs hr
    rw [c2, c1, hr]
    unfold Action.X
    ring

end

section
variable {a s₀ : ℝ} {p e x E L Q : ℝ → ℝ} {x' E' L' Q' : ℝ}
  (hx : HasDerivAt x x' s₀) (hE : HasDerivAt E E' s₀) (hL : HasDerivAt L L' s₀) (hQ : HasDerivAt Q Q' s₀)
  (hst : ∀ᶠ s in 𝓝 s₀, x s ^ 2 ≤ 1 ∧ Spec.StableConstants a (p s) (e s) (x s) (E s) (L s) (Q s))
include hx hE hL hQ hst

lemma polar_action_deriv (hx0 : x s₀ ≠ 0) {zp : ℝ} (H : PolarConfig a (E s₀) (L s₀) (Q s₀) (1 - x s₀ ^ 2) zp) :
    HasDerivAt (fun s => Spec.polarAction a (E s) (L s) (Q s) (arccos √(1 - x s ^ 2)))
      (1 / π * ∫ χ in (0:ℝ)..π, (fun v => Q' / 2 + E' * (a ^ 2 * E s₀ * v) - L' * (L s₀ / (1 - v) - L s₀)) ((1 - x s₀ ^ 2) * cos χ ^ 2)
        / √((Q s₀ + L s₀ ^ 2 + a ^ 2 * (1 - E s₀ ^ 2) * (1 - (1 - x s₀ ^ 2)))
            - a ^ 2 * (1 - E s₀ ^ 2) * ((1 - x s₀ ^ 2) * cos χ ^ 2))) s₀ := by
  have hβ := (hE.fun_pow 2).const_sub 1
  have hw := (hx.fun_pow 2).const_sub 1
  have hg := (hQ.add (hL.fun_pow 2)).add ((hβ.const_mul (a ^ 2)).mul (hw.const_sub 1))
  have hh := hβ.const_mul (a ^ 2)
  have hz0 := H.z0
  have hz1 := H.z1
  have hcos : ∀ χ, (1 - x s₀ ^ 2) * cos χ ^ 2 ≤ 1 - x s₀ ^ 2 := fun χ => by
    nlinarith [Real.sin_sq_add_cos_sq χ, sq_nonneg (sin χ)]
  have hX : ∀ χ, 0 < (Q s₀ + L s₀ ^ 2 + a ^ 2 * (1 - E s₀ ^ 2) * (1 - (1 - x s₀ ^ 2)))
            - a ^ 2 * (1 - E s₀ ^ 2) * ((1 - x s₀ ^ 2) * cos χ ^ 2) := fun χ => polar_pos H (hcos χ)
  have hD : ∀ χ, 0 < 1 - (1 - x s₀ ^ 2) * cos χ ^ 2 := fun χ => by linarith [hcos χ]
  have key := Action.polar_action (s₀ := s₀) (w := fun s => 1 - x s ^ 2)
    (g := fun s => Q s + L s ^ 2 + a ^ 2 * (1 - E s ^ 2) * (1 - (1 - x s ^ 2)))
    (h := fun s => a ^ 2 * (1 - E s ^ 2)) hw hg hh hX hD
    (Th := fun s θ => Spec.Theta a (E s) (L s) (Q s) θ)
    (Th' := fun θ => Q' - cos θ ^ 2 * (-(2 * a ^ 2 * E s₀ * E') + 2 * L s₀ * L' / sin θ ^ 2)) ?_ ?_
  · have key' := key.const_mul (1 / π)
    refine (key'.congr_deriv ?_).congr_of_eventuallyEq (Eventually.of_forall fun s => rfl)
    congr 1
    refine integral_congr fun χ _ => ?_
    have h1 := hD χ
    have h2 := Real.sqrt_pos.mpr (hX χ)
    have hz := Real.sqrt_nonneg (1 - x s₀ ^ 2)
    have hzs : √(1 - x s₀ ^ 2) ≤ 1 := Real.sqrt_le_one.mpr hz1.le
    have hc1 : -1 ≤ √(1 - x s₀ ^ 2) * cos χ := by nlinarith [Real.neg_one_le_cos χ, Real.cos_le_one χ]
    have hc2 : √(1 - x s₀ ^ 2) * cos χ ≤ 1 := by nlinarith [Real.neg_one_le_cos χ, Real.cos_le_one χ]
    beta_reduce
    rw [Real.sin_sq, Real.cos_arccos hc1 hc2, mul_pow, Real.sq_sqrt hz0]
    generalize √(Q s₀ + L s₀ ^ 2 + a ^ 2 * (1 - E s₀ ^ 2) * (1 - (1 - x s₀ ^ 2))
            - a ^ 2 * (1 - E s₀ ^ 2) * ((1 - x s₀ ^ 2) * cos χ ^ 2)) = q at *
    generalize (1 - x s₀ ^ 2) * cos χ ^ 2 = v at *
    field_simp
    ring
  · intro θ hθ
    have := (((hβ.const_mul (a ^ 2)).add ((hL.fun_pow 2).div_const (sin θ ^ 2))).const_mul (cos θ ^ 2))
    refine ((hQ.sub this).congr_deriv ?_).congr_of_eventuallyEq (Eventually.of_forall fun s => rfl)
    push_cast
    ring
  · filter_upwards [hst, hx.continuousAt.eventually_ne hx0] with s hs hxs
    obtain ⟨hx2, -, -, -, -, -, hZ, -⟩ := hs
    refine ⟨⟨by linarith, by have := pow_pos (abs_pos.mpr hxs) 2; rw [sq_abs] at this; linarith⟩, fun θ hθ => ?_⟩
    unfold Spec.Theta
    unfold Spec.Zpol at hZ
    have hc2 : cos θ ^ 2 = 1 - sin θ ^ 2 := Real.cos_sq' θ
    rw [hc2, eq_div_iff (pow_pos hθ 2).ne']
    field_simp
    linear_combination hZ

end

end FirstLaw

open FirstLaw

/-- The first law, for given derivatives of the constants. -/
lemma first_law_core (rs : RootScalar) (a s₀ : ℝ) (p e x E L Q : ℝ → ℝ) (p' e' x' E' L' Q' : ℝ) (ha : 0 ≤ a)
    (hp : HasDerivAt p p' s₀) (he : HasDerivAt e e' s₀) (hx : HasDerivAt x x' s₀)
    (hE : HasDerivAt E E' s₀) (hL : HasDerivAt L L' s₀) (hQ : HasDerivAt Q Q' s₀)
    (horb : ∀ᶠ s in 𝓝 s₀, Spec.BoundOrbit rs a (p s) (e s) (x s)
      ∧ (0 < x s → p s ≤ 4 → Spec.DivisorsNonzero a (p s) (e s) (x s))
      ∧ constantsOfMotion rs a (p s) (e s) (x s) = .ok (E s, L s, Q s))
    (he1 : e s₀ < 1) (hx0 : x s₀ ≠ 0)
    (hne : x s₀ < 0 ∨ E s₀ * ((1 + √(1 - a ^ 2)) ^ 2 + a ^ 2) ≠ a * L s₀) :
    ∃ m Ωr Ωθ Ωφ Jr' Jθ', minoFrequencies rs a (p s₀) (e s₀) (x s₀) = .ok m
      ∧ fundamentalFrequencies rs a (p s₀) (e s₀) (x s₀) = .ok (Ωr, Ωθ, Ωφ)
      ∧ HasDerivAt (fun s => Spec.radialAction a (E s) (L s) (Q s) (p s / (1 + e s)) (p s / (1 - e s))) Jr' s₀
      ∧ HasDerivAt (fun s => Spec.polarAction a (E s) (L s) (Q s) (arccos √(1 - x s ^ 2))) Jθ' s₀
      ∧ m.gamma * E' = m.upsilonR * Jr' + m.upsilonTheta * Jθ' + m.upsilonPhi * L'
      ∧ E' = Ωr * Jr' + Ωθ * Jθ' + Ωφ * L' := by
  have hst : ∀ᶠ s in 𝓝 s₀, (0 ≤ e s ∧ e s < 1) ∧ x s ^ 2 ≤ 1
      ∧ Spec.StableConstants a (p s) (e s) (x s) (E s) (L s) (Q s) := by
    filter_upwards [horb, he.continuousAt.eventually_lt continuousAt_const he1] with s hs hes
    obtain ⟨hb, hd, hc⟩ := hs
    obtain ⟨E1, L1, Q1, hc1, h1⟩ := constants_stable hb ha hes hd
    have := Except.ok.inj (hc.symm.trans hc1)
    simp only [Prod.mk.injEq] at this
    obtain ⟨rfl, rfl, rfl⟩ := this
    obtain ⟨-, ⟨he0, -⟩, hxa, -⟩ := hb
    exact ⟨⟨he0, hes⟩, by rw [← sq_abs]; nlinarith [abs_nonneg (x s)], h1⟩
  obtain ⟨hbo, hdiv, hcon⟩ := horb.self_of_nhds
  have hne' : x s₀ < 0 ∨ ∀ E1 L1 Q1, constantsOfMotion rs a (p s₀) (e s₀) (x s₀) = .ok (E1, L1, Q1) →
      E1 * ((1 + √(1 - a ^ 2)) ^ 2 + a ^ 2) ≠ a * L1 := by
    refine hne.imp_right fun h E1 L1 Q1 h1 => ?_
    have := Except.ok.inj (h1.symm.trans hcon)
    simp only [Prod.mk.injEq] at this
    rw [this.1, this.2.1]
    exact h
  have ha1 : a < 1 := by have := hbo.1; rwa [abs_of_nonneg ha] at this
  obtain ⟨T, m, E0, L0, Q0, r1, r2, r3, r4, hT, hm, hc, hr, hb, -⟩ :=
    orbit_hyps ⟨0, 0, 0, 0⟩ hbo ha he1.ne hx0 hdiv hne'
  have hcc := Except.ok.inj (hc.symm.trans hcon)
  simp only [Prod.mk.injEq] at hcc
  obtain ⟨rfl, rfl, rfl⟩ := hcc
  obtain ⟨m', zm, zp, D⟩ := stableData_of ha hT hc hr
  obtain rfl := D.mino_eq hm
  have C20 := C20_radial ha hT hm hc hr hb
  have C20p := C20_polar ha hT hm hc hr hb
  have hUr : 0 < m'.upsilonR := C20.2.2.2.1
  have hUt : 0 < m'.upsilonTheta := C20p.2.2.2.1
  obtain ⟨T2, m2, -, -, -, -, hm2, -, -, -, -, -, -, -, hG, -⟩ := C22_kerr rs a _ _ _ ⟨0, 0, 0, 0⟩ hbo ha he1.ne hx0 hdiv hne'
  obtain rfl : m' = m2 := Except.ok.inj (hm.symm.trans hm2)
  have H := D.polar hb.energy hb.nonpolar
  obtain ⟨h1, h2⟩ := D.roots12
  have hz := D.zm_eq
  subst h1 h2 hz
  have A1 := radial_action_deriv ha ha1 hp he hE hL hQ hst hb.roots hb.r43 hb.r32
  have A2 := polar_action_deriv hx hE hL hQ (hst.mono fun s h => h.2) hx0 H
  obtain ⟨c1, c2⟩ := tr_cont D hb
  obtain ⟨M1, M2⟩ := mean_radial D hb hUr
  obtain ⟨N1, N2⟩ := mean_polar D hb hUt
  refine ⟨m', _, _, _, _, _, hm, (C25_fundamental rs a _ _ _ m' hm).1, A1, A2, ?_⟩
  have hDel : ∀ r ∈ Icc (p s₀ / (1 + e s₀)) (p s₀ / (1 - e s₀)), Spec.Delta a r ≠ 0 := fun r hr => by
    have hhor := hst.self_of_nhds.2.2.1
    have hsn := Real.sqrt_nonneg (1 - a ^ 2)
    have hsq := Real.sq_sqrt (show 0 ≤ 1 - a ^ 2 by nlinarith)
    have : 0 < Spec.Delta a r := by unfold Spec.Delta; nlinarith [hr.1]
    exact this.ne'
  have hDc : ContinuousOn (fun r => Spec.Delta a r) (Icc (p s₀ / (1 + e s₀)) (p s₀ / (1 - e s₀))) := by
    unfold Spec.Delta; fun_prop
  have I1 := radial_int D hb hUr C20.2.2.2.2.2
    (f := fun r => E' * tr a (E s₀) (L s₀) r - L' * (phr a (E s₀) (L s₀) r + L s₀) - Q' / 2) (by
      unfold tr phr
      refine ((ContinuousOn.mul continuousOn_const ?_).sub (ContinuousOn.mul continuousOn_const ?_)).sub continuousOn_const
      · exact ((ContinuousOn.div (by fun_prop) hDc hDel).mul (by fun_prop)).sub continuousOn_const
      · exact (((ContinuousOn.div (by fun_prop) hDc hDel).mul (by fun_prop)).sub continuousOn_const).add continuousOn_const)
  have I2 := polar_int D hb hUt
    (f := fun v => Q' / 2 + E' * (a ^ 2 * E s₀ * v) - L' * (L s₀ / (1 - v) - L s₀)) (by
      refine (ContinuousOn.add (by fun_prop) (by fun_prop)).sub (ContinuousOn.mul continuousOn_const (ContinuousOn.sub
        (ContinuousOn.div continuousOn_const (by fun_prop) fun v hv => ?_) continuousOn_const))
      have := H.z1
      have := hv.2
      intro h0
      linarith)
  rw [← I1, ← I2]
  have hth : Continuous T.theta := continuous_iff_continuousAt.mpr fun l => (D.polarEq hb l).2.2.1.continuousAt
  have hcc : Continuous fun l => L s₀ / (1 - cos (T.theta l) ^ 2) := by
    refine Continuous.div continuous_const (by fun_prop) fun l => ?_
    rw [← Real.sin_sq]
    exact (pow_pos (D.polarEq hb l).2.1 2).ne'
  have K1 : (∫ l in (0:ℝ)..(π / m'.upsilonR), (E' * tr a (E s₀) (L s₀) (T.r l)
        - L' * (phr a (E s₀) (L s₀) (T.r l) + L s₀) - Q' / 2))
      = (E' * (m'.gamma - gammaT a (E s₀) (L s₀) (1 - x s₀ ^ 2) zp)
        - L' * (m'.upsilonPhi - phiT a (L s₀) (1 - x s₀ ^ 2) zp + L s₀) - Q' / 2) * (π / m'.upsilonR) := by
    rw [integral_sub (Continuous.intervalIntegrable (by fun_prop) _ _) (by simp),
      integral_sub (Continuous.intervalIntegrable (by fun_prop) _ _) (Continuous.intervalIntegrable (by fun_prop) _ _),
      intervalIntegral.integral_const_mul, intervalIntegral.integral_const_mul,
      integral_add (Continuous.intervalIntegrable (by fun_prop) _ _) (by simp), M1, M2,
      intervalIntegral.integral_const, intervalIntegral.integral_const]
    simp only [smul_eq_mul, sub_zero]
    ring
  have K2 : (∫ l in (0:ℝ)..(π / m'.upsilonTheta), (Q' / 2 + E' * (a ^ 2 * E s₀ * cos (T.theta l) ^ 2)
        - L' * (L s₀ / (1 - cos (T.theta l) ^ 2) - L s₀)))
      = (Q' / 2 + E' * gammaT a (E s₀) (L s₀) (1 - x s₀ ^ 2) zp
        - L' * (phiT a (L s₀) (1 - x s₀ ^ 2) zp - L s₀)) * (π / m'.upsilonTheta) := by
    rw [integral_sub (Continuous.intervalIntegrable (by fun_prop) _ _) (Continuous.intervalIntegrable (by fun_prop) _ _),
      integral_add (by simp) (Continuous.intervalIntegrable (by fun_prop) _ _),
      intervalIntegral.integral_const_mul E', intervalIntegral.integral_const_mul L',
      integral_sub (Continuous.intervalIntegrable (by fun_prop) _ _) (by simp), N1, N2,
      intervalIntegral.integral_const, intervalIntegral.integral_const]
    simp only [smul_eq_mul, sub_zero]
    ring
  beta_reduce
  rw [K1, K2]
  have hpi := Real.pi_ne_zero
  have hUr' := hUr.ne'
  have hUt' := hUt.ne'
  have hG' := hG.ne'
  clear K1 K2 I1 I2 A1 A2 M1 M2 N1 N2
  generalize gammaT a (E s₀) (L s₀) (1 - x s₀ ^ 2) zp = gT
  generalize phiT a (L s₀) (1 - x s₀ ^ 2) zp = pT
  constructor
  · field_simp
    ring
  · field_simp
    ring

/-- **C71.** The first law: along any differentiable one-parameter family `(p, e, x)(s)` of bound orbits, with `E`, `L`, `Q` returned by
`constants_of_motion`, the derivative of the energy is the sum of the derivatives of the three actions
`J_r`, `J_θ`, `J_φ = L`, each times the corresponding frequency returned by `fundamental_frequencies`.
So the frequencies returned by the code are `∂E/∂J_r`, `∂E/∂J_θ` and `∂E/∂J_φ`. -/
theorem C71_first_law (rs : RootScalar) (a s₀ : ℝ) (p e x E L Q : ℝ → ℝ) (ha : 0 ≤ a)
    (hp : DifferentiableAt ℝ p s₀) (he : DifferentiableAt ℝ e s₀) (hx : DifferentiableAt ℝ x s₀)
    (horb : ∀ᶠ s in 𝓝 s₀, Spec.BoundOrbit rs a (p s) (e s) (x s)
      ∧ (0 < x s → p s ≤ 4 → Spec.DivisorsNonzero a (p s) (e s) (x s))
      ∧ constantsOfMotion rs a (p s) (e s) (x s) = .ok (E s, L s, Q s))
    (he1 : e s₀ < 1) (hx0 : x s₀ ≠ 0)
    (hne : x s₀ < 0 ∨ E s₀ * ((1 + √(1 - a ^ 2)) ^ 2 + a ^ 2) ≠ a * L s₀) :
    ∃ m Ωr Ωθ Ωφ E' L' Jr' Jθ', minoFrequencies rs a (p s₀) (e s₀) (x s₀) = .ok m
      ∧ fundamentalFrequencies rs a (p s₀) (e s₀) (x s₀) = .ok (Ωr, Ωθ, Ωφ)
      ∧ HasDerivAt E E' s₀ ∧ HasDerivAt L L' s₀
      ∧ HasDerivAt (fun s => Spec.radialAction a (E s) (L s) (Q s) (p s / (1 + e s)) (p s / (1 - e s))) Jr' s₀
      ∧ HasDerivAt (fun s => Spec.polarAction a (E s) (L s) (Q s) (arccos √(1 - x s ^ 2))) Jθ' s₀
      ∧ E' = Ωr * Jr' + Ωθ * Jθ' + Ωφ * L'
      ∧ m.gamma * E' = m.upsilonR * Jr' + m.upsilonTheta * Jθ' + m.upsilonPhi * L' := by
  obtain ⟨dE, dL, dQ⟩ := C72_constants_derivative rs s₀ (fun _ => a) p e x E L Q (differentiableAt_const a) hp he hx
    (horb.mono fun s h => ⟨h.1, ha, h.2⟩) he1
  obtain ⟨m, Ωr, Ωθ, Ωφ, Jr', Jθ', h1, h2, h3, h4, h5, h6⟩ := first_law_core rs a s₀ p e x E L Q _ _ _ _ _ _ ha
    hp.hasDerivAt he.hasDerivAt hx.hasDerivAt dE.hasDerivAt dL.hasDerivAt dQ.hasDerivAt horb he1 hx0 hne
  exact ⟨m, Ωr, Ωθ, Ωφ, _, _, Jr', Jθ', h1, h2, dE.hasDerivAt, dL.hasDerivAt, h3, h4, h6, h5⟩

/-- **C71.** For circular equatorial orbits both other actions vanish: `dE/dr = Ω_φ dL/dr` with the azimuthal frequency
returned by `fundamental_frequencies`. -/
theorem C71_circular (rs : RootScalar) (a p σ : ℝ) (hσ : σ = 1 ∨ σ = -1) (ha : 0 ≤ a)
    (h : Spec.BoundOrbit rs a p 0 σ) (hp : σ = 1 → p ≠ 2 ∧ p * (p - 3) ^ 2 ≠ 4 * a ^ 2)
    (hne : σ = 1 → Spec.circularE a σ p * ((1 + √(1 - a ^ 2)) ^ 2 + a ^ 2) ≠ a * Spec.circularL a σ p) :
    ∃ Ωr Ωθ Ωφ E' L', fundamentalFrequencies rs a p 0 σ = .ok (Ωr, Ωθ, Ωφ)
      ∧ HasDerivAt (Spec.circularE a σ) E' p ∧ HasDerivAt (Spec.circularL a σ) L' p
      ∧ (∀ᶠ r in 𝓝 p, constantsOfMotion rs a r 0 σ = .ok (Spec.circularE a σ r, Spec.circularL a σ r, 0))
      ∧ E' = Ωφ * L' := by
  have hσ0 : σ ≠ 0 := by rcases hσ with h | h <;> rw [h] <;> norm_num
  have hopen : ∀ᶠ r in 𝓝 p, Spec.BoundOrbit rs a r 0 σ ∧ (σ = 1 → r ≠ 2 ∧ r * (r - 3) ^ 2 ≠ 4 * a ^ 2) := by
    obtain ⟨h1, h2, h3, s, hs, hsp⟩ := id h
    have c1 : ∀ᶠ r in 𝓝 p, s < r := lt_mem_nhds hsp
    rcases hσ with hh | hh
    · have c2 : ∀ᶠ r in 𝓝 p, r ≠ 2 := continuousAt_id.eventually_ne (hp hh).1
      have c3 : ∀ᶠ r in 𝓝 p, r * (r - 3) ^ 2 ≠ 4 * a ^ 2 :=
        ContinuousAt.eventually_ne (g := fun r : ℝ => r * (r - 3) ^ 2) (by fun_prop) (hp hh).2
      filter_upwards [c1, c2, c3] with r k1 k2 k3
      exact ⟨⟨h1, h2, h3, s, hs, k1⟩, fun _ => ⟨k2, k3⟩⟩
    · filter_upwards [c1] with r k1
      exact ⟨⟨h1, h2, h3, s, hs, k1⟩, fun h1 => absurd h1 (by rw [hh]; norm_num)⟩
  have hcon : ∀ᶠ r in 𝓝 p, constantsOfMotion rs a r 0 σ = .ok (Spec.circularE a σ r, Spec.circularL a σ r, 0) :=
    hopen.mono fun r hr => (C51_circular_constants rs a r σ hσ ha hr.1 hr.2).1
  obtain ⟨m, Ωr, Ωθ, Ωφ, E', L', Jr', Jθ', -, k2, k3, k4, k5, k6, k7, -⟩ := C71_first_law rs a p (fun r => r) (fun _ => 0)
    (fun _ => σ) (Spec.circularE a σ) (Spec.circularL a σ) (fun _ => 0) ha differentiableAt_id (differentiableAt_const _)
    (differentiableAt_const _) (by
      filter_upwards [hopen, hcon] with r h1 h2
      obtain ⟨-, -, -, -, -, -, -, -, -, -, -, hdiv⟩ := circular_data hσ ha h1.1 h1.2
      exact ⟨h1.1, hdiv, h2⟩) (by norm_num) hσ0 (by
      rcases hσ with hh | hh
      · exact .inr (hne hh)
      · exact .inl (by rw [hh]; norm_num))
  refine ⟨Ωr, Ωθ, Ωφ, E', L', k2, k3, k4, hcon, ?_⟩
  have z1 : Jr' = 0 := by
    refine k5.unique ((hasDerivAt_const p (0:ℝ)).congr_of_eventuallyEq (Eventually.of_forall fun r => ?_))
    simp [Spec.radialAction]
  have z2 : Jθ' = 0 := by
    have hσ2 : σ ^ 2 = 1 := by rcases hσ with h | h <;> rw [h] <;> norm_num
    refine k6.unique ((hasDerivAt_const p (0:ℝ)).congr_of_eventuallyEq (Eventually.of_forall fun r => ?_))
    simp only [Spec.polarAction, hσ2, sub_self, Real.sqrt_zero, Real.arccos_zero]
    rw [show π - π / 2 = π / 2 by ring, integral_same, mul_zero]
  rw [k7, z1, z2]; ring

/-- The hypotheses of C71 are met by a family of inclined eccentric orbits in which all three parameters vary and the
actions are not constant: `p = 13 + s`, `e = 1/2 - s`, `x = -1/2 + 2s`, `a = 9/10`. -/
example (rs : RootScalar) : ∃ E L Q : ℝ → ℝ, ∀ᶠ s : ℝ in 𝓝 0,
    Spec.BoundOrbit rs (9 / 10) (13 + s) (1 / 2 - s) (-1 / 2 + 2 * s)
      ∧ (0 < -1 / 2 + 2 * s → 13 + s ≤ 4 → Spec.DivisorsNonzero (9 / 10) (13 + s) (1 / 2 - s) (-1 / 2 + 2 * s))
      ∧ constantsOfMotion rs (9 / 10) (13 + s) (1 / 2 - s) (-1 / 2 + 2 * s) = .ok (E s, L s, Q s) := by
  refine ⟨fun s => (constForm (9 / 10, 13 + s, 1 / 2 - s, -1 / 2 + 2 * s)).1,
    fun s => (constForm (9 / 10, 13 + s, 1 / 2 - s, -1 / 2 + 2 * s)).2.1,
    fun s => (constForm (9 / 10, 13 + s, 1 / 2 - s, -1 / 2 + 2 * s)).2.2, ?_⟩
  filter_upwards [Ioo_mem_nhds (show (-1 / 10 : ℝ) < 0 by norm_num) (show (0:ℝ) < 1 / 10 by norm_num)] with s hs
  obtain ⟨h1, h2⟩ := hs
  have hb : Spec.BoundOrbit rs (9 / 10) (13 + s) (1 / 2 - s) (-1 / 2 + 2 * s) :=
    C11_accepts_wide _ _ _ _ _ (by rw [abs_lt]; norm_num) (by linarith) (by linarith)
      (by rw [abs_le]; constructor <;> linarith) (by linarith)
  have hd : 0 < -1 / 2 + 2 * s → 13 + s ≤ 4 → Spec.DivisorsNonzero (9 / 10) (13 + s) (1 / 2 - s) (-1 / 2 + 2 * s) :=
    fun _ h => absurd h (by linarith)
  exact ⟨hb, hd, (constForm_spec rs hb (by norm_num) (by linarith) hd).1⟩

end KGP
