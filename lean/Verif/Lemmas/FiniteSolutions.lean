import Verif.Lemmas.Finite
import Verif.Spec.Orbits
import Verif.Spec.Kerr
import Verif.Props.StableExact

/-!
# C76: the phase solutions, the roots and the constants of motion
-/

namespace KGP

open Classical Real

/-- `fl1`, also opening the elliptic integrals of the code. -/
macro "fl3" : tactic => `(tactic| first
  | fl1
  | with_reducible refine ellippiN_fin ?_ ?_ ?_ ?_
  | with_reducible refine ellippiincN_fin ?_ ?_ ?_ ?_ ?_
  | with_reducible refine ellipeincN_fin ?_ ?_ ?_)

macro "fl2" : tactic => `(tactic| repeat' fl3)

namespace FinGeo
variable {a E L Q r1 r2 r3 r4 zm zp : ℝ} {vE vL vQ v1 v2 v3 v4 vm vp : Fl}

/-- The functions of the phase are numbers. -/
structure SolsFin (S : PhaseSolsN) (T : PhaseSols) : Prop where
  pos : ∀ v q, v = .fin q → S.pos v = .fin (T.pos q)
  dt : ∀ v q, v = .fin q → S.dt v = .fin (T.dt q)
  dphi : ∀ v q, v = .fin q → S.dphi v = .fin (T.dphi q)

lemma sn_sq_le (u m : ℝ) : 0 ≤ (ellipj u m).sn ^ 2 ∧ (ellipj u m).sn ^ 2 ≤ 1 :=
  ⟨sq_nonneg _, Real.sin_sq_le_one _⟩

lemma one_sub_mul_pos {m y : ℝ} (hm : m < 1) (h0 : 0 ≤ y) (h1 : y ≤ 1) : 0 < 1 - m * y := by
  rcases le_total m 0 with h | h
  · have := mul_nonneg (neg_nonneg.mpr h) h0
    linarith
  · have := mul_le_mul_of_nonneg_left h1 h
    linarith

lemma radialSolutionsN_fin (H : FinGeo a E L r1 r2 r3 r4 zm zp)
    (V : FinVals E L Q r1 r2 r3 r4 vE vL vQ v1 v2 v3 v4) :
    SolsFin (radialSolutionsN a (vE, vL, vQ) (v1, v2, v3, v4)) (radialSolutions a (E, L, Q) (r1, r2, r3, r4)) := by
  obtain ⟨hE, hL, hQ, h1, h2, h3, h4⟩ := V
  have hk : Fl.sqrt ((v1 - v2) * (v3 - v4) / ((v1 - v3) * (v2 - v4)))
      = .fin √((r1 - r2) * (r3 - r4) / ((r1 - r3) * (r2 - r4))) := H.kRN_fin h1 h2 h3 h4
  have hk2 := H.k2_lt
  have hk3 := hk2.2
  have hh := H.hR_lt
  obtain ⟨f0, f1, f2, f3, f4, f5, f6, f7, f8, f9, f10, f11, f12, f13, f14⟩ := H.facts
  have g2 : π * √((1 - E ^ 2) * (r1 - r3) * (r2 - r4)) ≠ 0 := mul_ne_zero f14 f11
  have g3 : (2:ℝ) ≠ 0 := two_ne_zero
  have g4 : (r3 - (1 + √(1 - a ^ 2))) * (r2 - (1 + √(1 - a ^ 2))) ≠ 0 := mul_ne_zero f5 f7
  have g5 : (r3 - (1 - √(1 - a ^ 2))) * (r2 - (1 - √(1 - a ^ 2))) ≠ 0 := mul_ne_zero f6 f8
  have g6 : (1 + √(1 - a ^ 2) - (1 - √(1 - a ^ 2))) * √((1 - E ^ 2) * (r1 - r3) * (r2 - r4)) ≠ 0 :=
    mul_ne_zero f9 f11
  obtain ⟨-, -, -, k1, k2, k3, k4, -⟩ := H
  have m1 : ∀ u m : ℝ, (r1 - r2) * (ellipj u m).sn ^ 2 - (r1 - r3) ≠ 0 := by
    intro u m
    have := mul_le_mul_of_nonneg_left (sn_sq_le u m).2 (show 0 ≤ r1 - r2 by linarith)
    have : (r1 - r2) * (ellipj u m).sn ^ 2 - (r1 - r3) < 0 := by linarith
    exact this.ne
  have m2 : ∀ u m : ℝ, (r1 - r2) / (r1 - r3) * (ellipj u m).sn ^ 2 - 1 ≠ 0 := by
    intro u m
    have := one_sub_mul_pos hh (sn_sq_le u m).1 (sn_sq_le u m).2
    linarith
  have m3 : ∀ u m : ℝ, m < 1 → 0 ≤ 1 - m * (ellipj u m).sn ^ 2 := by
    intro u m hm
    exact (one_sub_mul_pos hm (sn_sq_le u m).1 (sn_sq_le u m).2).le
  refine ⟨fun v q hv => ?_, fun v q hv => ?_, fun v q hv => ?_⟩
  · have := m1 (ellipk (√((r1 - r2) * (r3 - r4) / ((r1 - r3) * (r2 - r4))) ^ 2) * q / π)
      (√((r1 - r2) * (r3 - r4) / ((r1 - r3) * (r2 - r4))) ^ 2)
    simp only [radialSolutionsN, radialSolutions]
    fl
  · have := m2 (ellipk (√((r1 - r2) * (r3 - r4) / ((r1 - r3) * (r2 - r4))) ^ 2) * q / π)
      (√((r1 - r2) * (r3 - r4) / ((r1 - r3) * (r2 - r4))) ^ 2)
    have := m3 (ellipk (√((r1 - r2) * (r3 - r4) / ((r1 - r3) * (r2 - r4))) ^ 2) * q / π)
      (√((r1 - r2) * (r3 - r4) / ((r1 - r3) * (r2 - r4))) ^ 2) hk3
    simp only [radialSolutionsN, radialSolutions]
    fl2
  · simp only [radialSolutionsN, radialSolutions]
    fl2

lemma polarSolutionsN_fin (H : FinGeo a E L r1 r2 r3 r4 zm zp) (hE : vE = .fin E) (hL : vL = .fin L)
    (hm : vm = .fin zm) (hp : a ≠ 0 → vp = .fin zp) :
    SolsFin (polarSolutionsN a (vE, vL, vQ) (vm, vp)) (polarSolutionsCore a (E, L, Q) zm zp) := by
  have hs := H.a2s_fin hE hL hm hp
  obtain ⟨kt, k0, k1⟩ := H.kThetaN_fin hm hp
  have kk : 0 ≤ kThetaOf a zm zp ^ 2 ∧ kThetaOf a zm zp ^ 2 < 1 := ⟨k0, k1⟩
  have he := H.e0zpN_fin hE hL hm
  have he0 := H.e0zp_pos.le
  have hes := (Real.sqrt_pos.mpr H.e0zp_pos).ne'
  have hz0 := H.zm0
  have hz1 := H.zm1
  have hpi := Real.pi_pos.ne'
  have hL0 := H.hL
  have g3 : (2:ℝ) ≠ 0 := two_ne_zero
  refine ⟨fun v q hv => ?_, fun v q hv => ?_, fun v q hv => ?_⟩
  · have hd : ∀ u m : ℝ, -1 ≤ √zm * (ellipj u m).sn ∧ √zm * (ellipj u m).sn ≤ 1 := by
      intro u m
      rw [← abs_le, abs_mul, abs_of_nonneg (Real.sqrt_nonneg _)]
      have h1 : √zm ≤ 1 := Real.sqrt_le_one.mpr hz1.le
      exact mul_le_one₀ h1 (abs_nonneg _) (Real.abs_sin_le_one _)
    simp only [polarSolutionsN, polarSolutionsCore]
    fl
    exact hd _ _
  · simp only [polarSolutionsN, polarSolutionsCore]
    fl2
  · simp only [polarSolutionsN, polarSolutionsCore]
    fl2

end FinGeo

end KGP
