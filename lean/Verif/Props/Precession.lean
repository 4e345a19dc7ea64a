import Verif.Lemmas.Precession
import Verif.Props.KerrOrbits

/-!
# C60: the order of the frequencies (precession)

For every bound orbit the radial frequency is smaller than the polar one (the periapsis advances), and for a spinning
hole the azimuthal frequency is larger than the polar one on prograde orbits and larger than minus the polar one on
retrograde ones (the orbital plane is dragged along with the hole).
-/

namespace KGP

open Classical Real

section
variable {a E L Q zm zp : ℝ} (H : PolarConfig a E L Q zm zp)
include H

lemma PolarConfig.D_pos : 0 < a ^ 2 * (1 - E ^ 2) * (1 - zm) + L ^ 2 := by
  have h1 : 0 < 1 - zm := by linarith [H.z1]
  have h2 := H.hE
  have h3 := H.hL
  positivity

lemma PolarConfig.mT_eq_mul : mT a zm zp = zm * (a ^ 2 * (1 - E ^ 2) * (1 - zm)
    / (a ^ 2 * (1 - E ^ 2) * (1 - zm) + L ^ 2)) := by
  unfold mT
  split_ifs with h
  · rw [h]; simp
  · rw [H.zp_eq h]
    have h1 : 1 - zm ≠ 0 := by linarith [H.z1]
    have h2 := H.hE.ne'
    have h3 := H.hL
    field_simp

/-- `L² + Q` from the polar turning point. -/
lemma PolarConfig.S_eq : L ^ 2 = (1 - zm) * (L ^ 2 + Q - a ^ 2 * (1 - E ^ 2) * zm) := by
  have := H.root
  unfold Spec.Zpol at this
  linear_combination -this

/-- `U_θ² ≥ (L²+Q+a²(1-E²)) - 2a²(1-E²)z₋`. -/
lemma PolarConfig.upsilon_ge {U : ℝ} (hU : U = π * polarW a E L zm / (2 * ellipk (mT a zm zp))) :
    0 < L ^ 2 + Q + a ^ 2 * (1 - E ^ 2) - 2 * (a ^ 2 * (1 - E ^ 2)) * zm
    ∧ L ^ 2 + Q + a ^ 2 * (1 - E ^ 2) - 2 * (a ^ 2 * (1 - E ^ 2)) * zm ≤ U ^ 2 ∧ 0 < U := by
  have hK := ellipk_pos H.mT_lt
  have hW := H.W_pos
  have h1 : 0 < 1 - zm := by linarith [H.z1]
  have hk := ellipk_le H.mT_nonneg H.mT_lt
  have hpi := Real.pi_pos
  have hUp : 0 < U := by rw [hU]; positivity
  have hs : 0 < √(1 - mT a zm zp) := Real.sqrt_pos.mpr (by linarith [H.mT_lt])
  have hs2 : √(1 - mT a zm zp) ^ 2 = 1 - mT a zm zp := Real.sq_sqrt (by linarith [H.mT_lt])
  have hge : polarW a E L zm * √(1 - mT a zm zp) ≤ U := by
    rw [hU, le_div_iff₀ (by positivity)]
    nlinarith
  have hsq : (polarW a E L zm * √(1 - mT a zm zp)) ^ 2
      = L ^ 2 + Q + a ^ 2 * (1 - E ^ 2) - 2 * (a ^ 2 * (1 - E ^ 2)) * zm := by
    have hW2 := H.W_sq
    have hD := H.D_pos
    have hS := H.S_eq
    rw [mul_pow, hs2, H.mT_eq_mul]
    have e1 : (1 - zm * (a ^ 2 * (1 - E ^ 2) * (1 - zm) / (a ^ 2 * (1 - E ^ 2) * (1 - zm) + L ^ 2)))
        * (a ^ 2 * (1 - E ^ 2) * (1 - zm) + L ^ 2) = a ^ 2 * (1 - E ^ 2) * (1 - zm) ^ 2 + L ^ 2 := by
      field_simp; ring
    generalize a ^ 2 * (1 - E ^ 2) * (1 - zm) / (a ^ 2 * (1 - E ^ 2) * (1 - zm) + L ^ 2) = u at *
    have h2 : 1 - zm ≠ 0 := h1.ne'
    apply mul_left_cancel₀ h2
    linear_combination (1 - zm * u) * hW2 + e1 + hS
  refine ⟨?_, ?_, hUp⟩
  · rw [← hsq]; positivity
  · rw [← hsq]; gcongr

/-- The polar part of the azimuthal frequency in terms of the polar frequency. -/
lemma PolarConfig.phiT_bounds {U : ℝ} (hU : U = π * polarW a E L zm / (2 * ellipk (mT a zm zp))) :
    let D := a ^ 2 * (1 - E ^ 2) * (1 - zm) + L ^ 2
    let u := a ^ 2 * (1 - E ^ 2) * (1 - zm) / D
    |phiT a L zm zp| ≤ U ∧ U - |phiT a L zm zp| ≤ √D * (u / ((2 - u) * √(1 - zm * u))) := by
  intro D u
  have hD : 0 < D := H.D_pos
  have h1 : 0 < 1 - zm := by linarith [H.z1]
  have hB : 0 ≤ a ^ 2 * (1 - E ^ 2) * (1 - zm) := by have := H.hE; positivity
  have u0 : 0 ≤ u := by positivity
  have u1 : u < 1 := by
    have := H.hL
    rw [div_lt_one hD]
    have : 0 < L ^ 2 := by positivity
    linarith
  have hm : mT a zm zp = zm * u := H.mT_eq_mul
  have hK : 0 < ellipk (zm * u) := by rw [← hm]; exact ellipk_pos H.mT_lt
  obtain ⟨b1, b2⟩ := pi_bounds H.z0 H.z1 u0 u1
  have hsz : 0 < √(1 - zm) := Real.sqrt_pos.mpr h1
  have hsz2 : √(1 - zm) ^ 2 = 1 - zm := Real.sq_sqrt h1.le
  have hsD : 0 < √D := Real.sqrt_pos.mpr hD
  have hsD2 : √D ^ 2 = D := Real.sq_sqrt hD.le
  have hLD : |L| = √D * √(1 - u) := by
    rw [← Real.sqrt_mul hD.le, ← Real.sqrt_sq_eq_abs]
    congr 1
    rw [mul_sub, mul_one, mul_div_cancel₀ _ hD.ne']
    show L ^ 2 = (a ^ 2 * (1 - E ^ 2) * (1 - zm) + L ^ 2) - _
    ring
  have hW : polarW a E L zm = √D / √(1 - zm) := by
    have := H.W_sq
    rw [eq_div_iff hsz.ne', ← sq_eq_sq₀ (mul_nonneg H.W_pos.le hsz.le) hsD.le, mul_pow, hsz2, hsD2, this]
  have hPi : 0 ≤ ellippiK zm (zm * u) := by
    have hm1 : zm * u < 1 := by rw [← hm]; exact H.mT_lt
    rw [ellippiK_eq H.z1 hm1]
    unfold Spec.Pi
    refine intervalIntegral.integral_nonneg (by positivity) fun t _ => ?_
    have k1 := one_sub_mul_sin_sq_pos H.z1 t
    positivity
  have hU' : U = √D * (π / (2 * √(1 - zm))) / ellipk (zm * u) := by
    rw [hU, hW, hm]; field_simp
  have hphi : |phiT a L zm zp| = √D * (√(1 - u) * ellippiK zm (zm * u)) / ellipk (zm * u) := by
    unfold phiT
    rw [hm, abs_div, abs_of_pos hK, abs_mul, abs_of_nonneg hPi, hLD]; ring
  rw [hphi, hU']
  constructor
  · gcongr
  · rw [← sub_div, ← mul_sub, div_le_iff₀ hK]
    calc _ ≤ √D * (u / ((2 - u) * √(1 - zm * u)) * ellipk (zm * u)) := by gcongr
      _ = _ := by ring

end

/-- For three roots above `1` and a non-negative one. -/
lemma BoundGeodesic.S_ge {a E L Q r1 r2 r3 r4 : ℝ} (hb : Spec.BoundGeodesic a E L Q r1 r2 r3 r4) (hQ : 0 ≤ Q)
    (ha : a ^ 2 < 1) : 1 < r3 ∧ 0 ≤ r4 ∧ 2 ≤ L ^ 2 + Q + a ^ 2 * (1 - E ^ 2) := by
  obtain ⟨v1, v2, -, v4⟩ := RadialRoots.vieta hb.roots
  have hE : 0 < 1 - E ^ 2 := by linarith [hb.energy]
  have h3 : 1 < r3 := by
    have : 0 < √(1 - a ^ 2) := Real.sqrt_pos.mpr (by linarith)
    linarith [hb.horizon]
  have h2 := hb.r32
  have h1 := hb.r21
  have h4 : 0 ≤ r4 := by
    have hp : 0 < (1 - E ^ 2) * (r1 * r2 * r3) := by
      have : 0 < r3 := by linarith
      have : 0 < r2 := by linarith
      have : 0 < r1 := by linarith
      positivity
    have : 0 ≤ (1 - E ^ 2) * (r1 * r2 * r3) * r4 := by
      have : 0 ≤ a ^ 2 * Q := by positivity
      linarith
    exact nonneg_of_mul_nonneg_right this hp
  refine ⟨h3, h4, ?_⟩
  have key : r1 + r2 + r3 + r4 ≤ r1 * r2 + r1 * r3 + r1 * r4 + r2 * r3 + r2 * r4 + r3 * r4 := by
    have k1 : 0 ≤ (r1 - 1) * (r2 - 1) := mul_nonneg (by linarith) (by linarith)
    have k2 : 0 ≤ (r1 - 1) * (r3 - 1) := mul_nonneg (by linarith) (by linarith)
    have k3 : 0 ≤ (r2 - 1) * (r3 - 1) := mul_nonneg (by linarith) (by linarith)
    have k4 : 0 ≤ (r1 - 1) * r4 := mul_nonneg (by linarith) h4
    have k5 : 0 ≤ (r2 - 1) * r4 := mul_nonneg (by linarith) h4
    have k6 : 0 ≤ (r3 - 1) * r4 := mul_nonneg (by linarith) h4
    linarith
  have := mul_le_mul_of_nonneg_left key hE.le
  linarith

/-- The inequality between the roots behind `Υ_r < Υ_θ`. -/
lemma roots_ineq {r1 r2 r3 r4 : ℝ} (h1 : r2 ≤ r1) (h2 : r3 < r2) (h3 : 0 < r3) (h4 : 0 ≤ r4) (h43 : r4 ≤ r3) :
    ((r1 - r3) * (r2 - r4)) ^ 2 + 4 * (r1 * r2 * r3 * r4)
      < (r1 * r2 + r1 * r3 + r1 * r4 + r2 * r3 + r2 * r4 + r3 * r4) ^ 2 := by
  obtain ⟨X, hX⟩ : ∃ X, X = (r1 - r3) * (r2 - r4) := ⟨_, rfl⟩
  have hX0 : 0 < X := by rw [hX]; exact mul_pos (by linarith) (by linarith)
  have p1 : 0 < r1 * r3 := mul_pos (by linarith) h3
  have p2 : 0 ≤ r2 * r4 := mul_nonneg (by linarith) h4
  have p3 : 0 ≤ r1 * r4 := mul_nonneg (by linarith) h4
  have p4 : 0 < r2 * r3 := mul_pos (by linarith) h3
  have e : r1 * r2 + r1 * r3 + r1 * r4 + r2 * r3 + r2 * r4 + r3 * r4
      = X + (r1 * r3 + r2 * r4 + 2 * (r1 * r4) + 2 * (r2 * r3)) := by rw [hX]; ring
  have e4 : r1 * r2 * r3 * r4 = (r1 * r3) * (r2 * r4) := by ring
  rw [e, ← hX, e4]
  generalize r1 * r3 = s at *
  generalize r2 * r4 = t at *
  generalize r1 * r4 = v at *
  generalize r2 * r3 = w at *
  nlinarith [sq_nonneg (s - t), mul_pos hX0 p1, mul_pos hX0 p4, mul_nonneg hX0.le p2, mul_nonneg hX0.le p3,
    mul_nonneg p1.le p2, mul_nonneg p3 p4.le, mul_nonneg p1.le p3, mul_nonneg p2 p4.le, mul_pos p1 p4,
    mul_nonneg p2 p3]

/-- The estimate behind `Υ_θ < Υ_φ`. -/
lemma drag_ineq {a E B S z : ℝ} (ha0 : 0 < a) (ha1 : a ^ 2 < 1) (hE0 : 0 < E) (hE1 : E < 1) (hB : B = a ^ 2 * (1 - E ^ 2))
    (hS : 2 ≤ S + B) (hz0 : 0 ≤ z) (hz1 : z < 1) (u : ℝ) (hu : u * (S + B - B * z) = B) :
    a ^ 2 * (1 + E) ^ 2 * (1 - z) < (2 - u) ^ 2 * (S + B - 2 * B * z) := by
  have hB0 : 0 < B := by
    rw [hB]; exact mul_pos (by positivity) (by nlinarith)
  have hB1 : B ≤ 1 - E ^ 2 := by
    rw [hB]; nlinarith
  have hB2 : B < 1 := by nlinarith
  have hBz : B * z ≤ B := by nlinarith
  have hd : 2 - B ≤ S + B - B * z := by linarith
  have hu0 : 0 < u := by
    by_contra h
    push Not at h
    nlinarith
  have hu1 : u * (1 + E ^ 2) ≤ 1 - E ^ 2 := by
    have k1 : u * (2 - B) ≤ B := by
      calc u * (2 - B) ≤ u * (S + B - B * z) := by gcongr
        _ = B := hu
    have k2 : u ≤ 1 := by nlinarith
    nlinarith
  have h2u : 1 + 3 * E ^ 2 ≤ (2 - u) * (1 + E ^ 2) := by linarith
  have hp : (1 + E) ^ 2 * (1 + E ^ 2) ^ 2 < 2 * (1 + 3 * E ^ 2) ^ 2 := by
    nlinarith [mul_pos hE0 (sub_pos.mpr hE1), mul_pos (mul_pos hE0 hE0) (sub_pos.mpr hE1),
      mul_pos (mul_pos hE0 (sub_pos.mpr hE1)) (sub_pos.mpr hE1), sq_nonneg (E ^ 2 - E), sq_nonneg (3 * E - 1),
      mul_pos (mul_pos (mul_pos hE0 hE0) hE0) (sub_pos.mpr hE1), pow_pos hE0 3, pow_pos hE0 4, pow_pos hE0 5,
      mul_pos (pow_pos hE0 4) (sub_pos.mpr hE1), mul_pos (pow_pos hE0 5) (sub_pos.mpr hE1)]
  have h1 : (1 + E) ^ 2 < 2 * (2 - u) ^ 2 := by
    have q : 0 < 1 + E ^ 2 := by positivity
    have : (1 + 3 * E ^ 2) ^ 2 ≤ ((2 - u) * (1 + E ^ 2)) ^ 2 := by gcongr
    have k : (1 + E) ^ 2 * (1 + E ^ 2) ^ 2 < 2 * (2 - u) ^ 2 * (1 + E ^ 2) ^ 2 := by nlinarith
    exact lt_of_mul_lt_mul_right k (by positivity)
  have h2 : 2 * (1 - z) ≤ S + B - 2 * B * z := by nlinarith
  have hz : 0 < 1 - z := by linarith
  calc a ^ 2 * (1 + E) ^ 2 * (1 - z) ≤ 1 * (1 + E) ^ 2 * (1 - z) := by gcongr
    _ < 2 * (2 - u) ^ 2 * (1 - z) := by rw [one_mul]; gcongr
    _ = (2 - u) ^ 2 * (2 * (1 - z)) := by ring
    _ ≤ _ := by gcongr


/-- The velocity of the radial part of `φ` is at least `a(1-E)`. -/
lemma drag_pointwise {a E L Q r : ℝ} (ha : 0 ≤ a) (ha1 : a ^ 2 < 1) (hr : 1 ≤ r) (hD : 0 < Spec.Delta a r) (hQ : 0 ≤ Q)
    (hR : 0 ≤ Spec.R a E L Q r) (hP : 0 < E * (r ^ 2 + a ^ 2) - a * L) :
    a * (1 - E) ≤ a * (2 * E * r - a * L) / Spec.Delta a r := by
  have h1 : Spec.Delta a r ≤ E * (r ^ 2 + a ^ 2) - a * L := by
    refine (pow_le_pow_iff_left₀ hD.le hP.le two_ne_zero).mp ?_
    have h2 : Spec.Delta a r ≤ r ^ 2 := by unfold Spec.Delta; nlinarith
    have h3 : Spec.Delta a r * Spec.Delta a r ≤ Spec.Delta a r * (r ^ 2 + (L - a * E) ^ 2 + Q) := by
      gcongr
      nlinarith [sq_nonneg (L - a * E)]
    unfold Spec.R at hR
    nlinarith
  rw [le_div_iff₀ hD, mul_assoc]
  refine mul_le_mul_of_nonneg_left ?_ ha
  have : E * (r ^ 2 + a ^ 2) = E * Spec.Delta a r + 2 * E * r := by unfold Spec.Delta; ring
  linarith

section
variable {rs : RootScalar} {a p e x : ℝ} {q : Phases} {T : Traj} {m : MinoFreqs}
  {E L Q r1 r2 r3 r4 : ℝ}
  (ha : 0 ≤ a) (hT : stableTrajectoryNat rs a p e x q = .ok T)
  (hm : minoFrequencies rs a p e x = .ok m)
  (hc : constantsOfMotion rs a p e x = .ok (E, L, Q))
  (hr : stableRadialRoots rs a p e x = .ok (r1, r2, r3, r4))
  (hb : Spec.BoundGeodesic a E L Q r1 r2 r3 r4) (hQ : 0 ≤ Q)
include ha hT hm hc hr hb hQ

lemma radial_lt_polar : m.upsilonR < m.upsilonTheta := by
  obtain ⟨m', zm, zp, D⟩ := stableData_of ha hT hc hr
  obtain rfl := D.mino_eq hm
  have H := D.polar hb.energy hb.nonpolar
  have HR := BoundGeodesic.config hb
  have hE : 0 < 1 - E ^ 2 := by linarith [hb.energy]
  have ha1 : a ^ 2 < 1 := by nlinarith [D.spin.1, D.spin.2]
  obtain ⟨h3, h4, -⟩ := BoundGeodesic.S_ge hb hQ ha1
  obtain ⟨g1, g2, g3⟩ := H.upsilon_ge (D.upsilonTheta hb.energy hb.nonpolar)
  obtain ⟨-, v2, -, v4⟩ := RadialRoots.vieta hb.roots
  have hX := HR.pos13_24
  have hri := roots_ineq hb.r21 hb.r32 (by linarith) h4 hb.r43
  have hle : m'.upsilonR ≤ √((1 - E ^ 2) * (r1 - r3) * (r2 - r4)) := by
    rw [D.upsilonR, rFrequencyCore_eq HR]
    have hK := ellipk_ge HR.mR_nonneg HR.mR_lt
    have hKp := ellipk_pos HR.mR_lt
    rw [div_le_iff₀ (by positivity)]
    have := Real.sqrt_nonneg ((1 - E ^ 2) * (r1 - r3) * (r2 - r4))
    nlinarith
  refine lt_of_le_of_lt hle ?_
  rw [Real.sqrt_lt' g3, mul_assoc]
  refine lt_of_lt_of_le ?_ g2
  refine lt_of_pow_lt_pow_left₀ 2 g1.le ?_
  have hroot := H.root
  unfold Spec.Zpol at hroot
  have e1 : (L ^ 2 + Q + a ^ 2 * (1 - E ^ 2) - 2 * (a ^ 2 * (1 - E ^ 2)) * zm) ^ 2
      = ((1 - E ^ 2) * (r1 * r2 + r1 * r3 + r1 * r4 + r2 * r3 + r2 * r4 + r3 * r4)) ^ 2
        - 4 * (1 - E ^ 2) * ((1 - E ^ 2) * (r1 * r2 * r3 * r4)) := by
    rw [v2, v4]
    linear_combination 4 * (a ^ 2 * (1 - E ^ 2)) * hroot
  rw [e1]
  have hE2 : 0 < (1 - E ^ 2) ^ 2 := by positivity
  have := mul_lt_mul_of_pos_left hri hE2
  nlinarith

/-- Frame dragging: the radial part of the azimuthal frequency. -/
lemma phiR_ge (hE0 : 0 < E) (hf : a * L < E * (r2 ^ 2 + a ^ 2)) : a * (1 - E) ≤ phiR a E L r1 r2 r3 r4 := by
  have hUr := (C20_radial ha hT hm hc hr hb).2.2.2.1
  obtain ⟨m', zm, zp, D⟩ := stableData_of ha hT hc hr
  obtain rfl := D.mino_eq hm
  have HR := BoundGeodesic.config hb
  have hs0 := Real.sqrt_nonneg (1 - a ^ 2)
  have ha1 : a ^ 2 < 1 := by nlinarith [D.spin.1, D.spin.2]
  have hs1 : 0 < √(1 - a ^ 2) := Real.sqrt_pos.mpr (by linarith)
  have hs2 : √(1 - a ^ 2) ^ 2 = 1 - a ^ 2 := Real.sq_sqrt (by linarith)
  have d := fun lam => (radial_dt (Q := Q) HR (show 0 < 1 - E ^ 2 by linarith [hb.energy])
    (a := a) (L := L) (lt_trans hb.horizon hb.r32) hb.horizon.ne'
    (by linarith [hb.horizon] : (1 - √(1 - a ^ 2)) < r3).ne' q.qr lam).2
  rw [← D.upsilonR] at d
  obtain ⟨-, p2, -, -⟩ := HR.dt_dphi_osc (a := a) (E := E) (L := L) (Q := Q) (lt_trans hb.horizon hb.r32)
  obtain ⟨B, hB⟩ := periodic_bounded p2 (continuous_of_phase hUr fun l => (d l).continuousAt)
  refine mean_ge (fun l => hB (m'.upsilonR * l + q.qr)) d fun l => ?_
  have hrT : (radialSolutions a (E, L, Q) (r1, r2, r3, r4)).pos (m'.upsilonR * l + q.qr) = T.r l := by
    rw [D.hT]; rfl
  rw [hrT]
  obtain ⟨hD, hout⟩ := D.outside hb l
  have hrb := D.r_bounds hb l
  have hR := (D.radial hb l).1
  generalize T.r l = r at *
  have hr2 : 0 < r2 := by linarith [hb.r32, hb.horizon]
  have hP : 0 < E * (r ^ 2 + a ^ 2) - a * L := by
    have : r2 ^ 2 ≤ r ^ 2 := by have := hrb.1; gcongr
    have : E * (r2 ^ 2 + a ^ 2) ≤ E * (r ^ 2 + a ^ 2) := by gcongr
    linarith
  have := drag_pointwise ha ha1 (by linarith) hD hQ hR hP
  refine this.trans (le_of_eq ?_)
  have n1 : r - (1 + √(1 - a ^ 2)) ≠ 0 := by linarith
  have n2 : r - (1 - √(1 - a ^ 2)) ≠ 0 := by intro h; linarith
  have hDe : Spec.Delta a r = (r - (1 + √(1 - a ^ 2))) * (r - (1 - √(1 - a ^ 2))) := by
    unfold Spec.Delta; linear_combination hs2
  rw [hDe]
  generalize √(1 - a ^ 2) = s at *
  have n3 : 1 + s - (1 - s) ≠ 0 := by intro h; linarith
  field_simp
  ring

lemma azimuth_bounds (ha0 : 0 < a) (hE0 : 0 < E) (hE1 : E < 1) (hf : a * L < E * (r2 ^ 2 + a ^ 2)) :
    -m.upsilonTheta < m.upsilonPhi ∧ (0 < L → m.upsilonTheta < m.upsilonPhi) := by
  have hR := phiR_ge ha hT hm hc hr hb hQ hE0 hf
  obtain ⟨m', zm, zp, D⟩ := stableData_of ha hT hc hr
  obtain rfl := D.mino_eq hm
  have H := D.polar hb.energy hb.nonpolar
  have hU := D.upsilonTheta hb.energy hb.nonpolar
  have hph := D.upsilonPhi hb
  obtain ⟨b1, b2⟩ := H.phiT_bounds hU
  have ha1 : a ^ 2 < 1 := by nlinarith [D.spin.1, D.spin.2]
  have hpos : 0 < a * (1 - E) := mul_pos ha0 (by linarith)
  have hb1 := abs_le.mp b1
  refine ⟨by linarith, fun hL => ?_⟩
  have hKp := ellipk_pos H.mT_lt
  have hphi0 : |phiT a L zm zp| = phiT a L zm zp := by
    refine abs_of_nonneg ?_
    unfold phiT
    have hPi : 0 ≤ ellippiK zm (mT a zm zp) := by
      rw [ellippiK_eq H.z1 H.mT_lt]
      unfold Spec.Pi
      refine intervalIntegral.integral_nonneg (by positivity) fun t _ => ?_
      have k1 := one_sub_mul_sin_sq_pos H.z1 t
      positivity
    positivity
  rw [hphi0] at b2
  suffices hlt : √(a ^ 2 * (1 - E ^ 2) * (1 - zm) + L ^ 2)
      * (a ^ 2 * (1 - E ^ 2) * (1 - zm) / (a ^ 2 * (1 - E ^ 2) * (1 - zm) + L ^ 2)
        / ((2 - a ^ 2 * (1 - E ^ 2) * (1 - zm) / (a ^ 2 * (1 - E ^ 2) * (1 - zm) + L ^ 2))
          * √(1 - zm * (a ^ 2 * (1 - E ^ 2) * (1 - zm) / (a ^ 2 * (1 - E ^ 2) * (1 - zm) + L ^ 2))))) < a * (1 - E) by
    linarith
  have hS := (BoundGeodesic.S_ge hb hQ ha1).2.2
  have hSe := H.S_eq
  have hD := H.D_pos
  have hz : 0 < 1 - zm := by linarith [H.z1]
  obtain ⟨B, hB⟩ : ∃ B, B = a ^ 2 * (1 - E ^ 2) := ⟨_, rfl⟩
  obtain ⟨S, hSd⟩ : ∃ S, S = L ^ 2 + Q := ⟨_, rfl⟩
  have hB0 : 0 < B := by rw [hB]; have := H.hE; positivity
  rw [← hB, ← hSd] at hSe
  rw [← hSd, ← hB] at hS
  rw [← hB] at hD ⊢
  have hDe : B * (1 - zm) + L ^ 2 = (1 - zm) * (S + B - B * zm) := by linear_combination hSe
  rw [hDe] at hD ⊢
  have hy : 0 < S + B - B * zm := (mul_pos_iff_of_pos_left hz).mp hD
  have hue : B * (1 - zm) / ((1 - zm) * (S + B - B * zm)) = B / (S + B - B * zm) := by
    field_simp
  rw [hue]
  obtain ⟨u, hu⟩ : ∃ u, u = B / (S + B - B * zm) := ⟨_, rfl⟩
  have hu' : u * (S + B - B * zm) = B := by rw [hu]; field_simp
  rw [← hu]
  have hkey := drag_ineq ha0 ha1 hE0 hE1 hB hS H.z0 H.z1 u hu'
  have hu0 : 0 < u := by rw [hu]; positivity
  have hu1 : u < 2 := by
    rw [hu, div_lt_iff₀ hy]
    nlinarith [H.z0, H.z1]
  have hm1 : 0 < 1 - zm * u := by
    have : u ≤ 1 := by
      rw [hu, div_le_one hy]
      nlinarith [H.z0, H.z1, sq_nonneg L]
    nlinarith [H.z0, H.z1]
  have hden : 0 < (2 - u) * √(1 - zm * u) := mul_pos (by linarith) (Real.sqrt_pos.mpr hm1)
  rw [mul_div_assoc', div_lt_iff₀ hden]
  have hE2 : 0 < 1 - E := by linarith
  refine lt_of_pow_lt_pow_left₀ 2 (by positivity) ?_
  rw [mul_pow, mul_pow, mul_pow, mul_pow, Real.sq_sqrt hD.le, Real.sq_sqrt hm1.le]
  have e1 : (1 - zm) * (S + B - B * zm) * u ^ 2 = (1 - zm) * u * B := by linear_combination (1 - zm) * u * hu'
  have e2 : (S + B - B * zm) * (1 - zm * u) = S + B - 2 * B * zm := by linear_combination -zm * hu'
  rw [e1]
  have e3 : (S + B - B * zm) * ((1 - zm) * u * B) = (1 - zm) * B ^ 2 := by linear_combination (1 - zm) * B * hu'
  have hBE : B = a * (1 - E) * (a * (1 + E)) := by rw [hB]; ring
  refine lt_of_mul_lt_mul_left (a := S + B - B * zm) ?_ hy.le
  rw [e3]
  calc (1 - zm) * B ^ 2 = (a * (1 - E)) ^ 2 * (a ^ 2 * (1 + E) ^ 2 * (1 - zm)) := by rw [hBE]; ring
    _ < (a * (1 - E)) ^ 2 * ((2 - u) ^ 2 * (S + B - 2 * B * zm)) := by gcongr
    _ = (S + B - B * zm) * (a ^ 2 * (1 - E) ^ 2 * ((2 - u) ^ 2 * (1 - zm * u))) := by rw [← e2]; ring

end

/-- **C60.** Let `0 ≤ a < 1`, `0 ≤ e < 1`, `x ≠ 0`, and let the orbit be accepted (with the exceptions of C22 for prograde
orbits).  Then the frequencies returned by `mino_frequencies` satisfy `0 < Υ_r < Υ_θ`; without spin `|Υ_φ| = Υ_θ`; with
spin `Υ_θ < Υ_φ` on prograde orbits and `-Υ_θ < Υ_φ` on retrograde ones.  The frequencies in coordinate time returned by
`fundamental_frequencies` are ordered in the same way. -/
theorem C60_order (rs : RootScalar) (a p e x : ℝ) (h : Spec.BoundOrbit rs a p e x)
    (ha : 0 ≤ a) (he1 : e ≠ 1) (hx0 : x ≠ 0) (hp : 0 < x → p ≤ 4 → Spec.DivisorsNonzero a p e x)
    (hne : x < 0 ∨ ∀ E L Q, constantsOfMotion rs a p e x = .ok (E, L, Q) →
      E * ((1 + √(1 - a ^ 2)) ^ 2 + a ^ 2) ≠ a * L) :
    ∃ m wr wth wph, minoFrequencies rs a p e x = .ok m
      ∧ fundamentalFrequencies rs a p e x = .ok (wr, wth, wph)
      ∧ 0 < m.upsilonR ∧ m.upsilonR < m.upsilonTheta ∧ 0 < wr ∧ wr < wth
      ∧ (a = 0 → m.upsilonPhi = Real.sign x * m.upsilonTheta ∧ wph = Real.sign x * wth)
      ∧ (0 < a → 0 < x → m.upsilonTheta < m.upsilonPhi ∧ wth < wph)
      ∧ (0 < a → x < 0 → -m.upsilonTheta < m.upsilonPhi ∧ -wth < wph) := by
  obtain ⟨T, m, E, L, Q, r1, r2, r3, r4, hT, hm, hc, hr, hb, hE, hE1, hL, hQ, hf, hr2, e2⟩ :=
    orbit_hyps ⟨0, 0, 0, 0⟩ h ha he1 hx0 hp hne
  have hUr := (C20_radial ha hT hm hc hr hb).2.2.2.1
  have h1 := radial_lt_polar ha hT hm hc hr hb hQ
  have hg : 0 < m.gamma := by
    obtain ⟨-, -, hg, -⟩ := C46_future ha hT hm hc hr hb hE hf
    have : 0 < (p / (1 + e)) ^ 2 := by rw [← e2]; positivity
    linarith
  refine ⟨m, _, _, _, hm, (C25_fundamental rs a p e x m hm).1, hUr, h1, div_pos hUr hg, by gcongr, ?_, ?_, ?_⟩
  · intro h0
    have key : m.upsilonPhi = Real.sign x * m.upsilonTheta := by
      rw [minoFrequencies_eq, guard_bind_ok_iff] at hm
      obtain ⟨-, rfl⟩ := hm
      rw [sa_of_nonneg ha, sx_of_nonneg ha]
      simp only [pureMino, purePhi, pureTheta, if_pos h0]
      obtain ⟨⟨he, he2⟩, hx, hpp⟩ := schwarzschild_bound (h0 ▸ h)
      have hs : 0 < √(-3 - e ^ 2 + p) := Real.sqrt_pos.mpr (by nlinarith)
      have hp0 : 0 < p := by linarith
      rw [abs_mul, abs_of_pos (show 0 < p / √(-3 - e ^ 2 + p) by positivity)]
      have : |if e = 0 then Real.sign x else 1| = 1 := by
        split_ifs
        · rcases lt_or_gt_of_ne hx0 with k | k
          · rw [Real.sign_of_neg k]; simp
          · rw [Real.sign_of_pos k]; simp
        · simp
      rw [this]; ring
    exact ⟨key, by rw [key]; ring⟩
  · intro h0 hx
    rw [Real.sign_of_pos hx, one_mul] at hL
    have := (azimuth_bounds ha hT hm hc hr hb hQ h0 hE hE1 hf).2 hL
    exact ⟨this, by gcongr⟩
  · intro h0 _
    have := (azimuth_bounds ha hT hm hc hr hb hQ h0 hE hE1 hf).1
    exact ⟨this, by rw [← neg_div]; gcongr⟩

/-- Prograde orbits far from a spinning hole meet the hypothesis `E(r₊²+a²) ≠ aL` of C22, C58, C60: there `aL` is
larger. -/
theorem C22_far_prograde (rs : RootScalar) (a p e x : ℝ) (h : Spec.BoundOrbit rs a p e x) (ha : 0 < a) (he1 : e ≠ 1)
    (hx : 0 < x) (hfar : 16 < a ^ 2 * x ^ 2 * (p / (2 * (1 + e)) - 2)) :
    ∀ E L Q, constantsOfMotion rs a p e x = .ok (E, L, Q) → E * ((1 + √(1 - a ^ 2)) ^ 2 + a ^ 2) < a * L := by
  intro E L Q hc
  obtain ⟨hal, ⟨he, -⟩, hx1, -⟩ := id h
  have hal' : a < 1 := by rwa [abs_of_pos ha] at hal
  have ha1 : a ^ 2 < 1 := by nlinarith
  have hx2 : x ^ 2 ≤ 1 := (sq_le_one_iff_abs_le_one x).mpr hx1
  have hp : 4 < p := by
    by_contra hp
    push Not at hp
    have h1 : p / (2 * (1 + e)) ≤ 2 := by
      rw [div_le_iff₀ (by linarith)]; nlinarith
    have h2 : 0 < a ^ 2 * x ^ 2 := by positivity
    nlinarith
  obtain ⟨E', L', Q', r1, r2, r3, r4, hc', -, hE, hE1, hL, hQ, e1, e2, hR, h32, h21, h4, h3, h4', -⟩ :=
    C04_boundGeodesic rs a p e x h ha he1 hx.ne' (fun _ h4 => absurd h4 (not_le.mpr hp))
  have hcc := Except.ok.inj (hc.symm.trans hc')
  simp only [Prod.mk.injEq] at hcc
  obtain ⟨rfl, rfl, rfl⟩ := hcc
  have hz := C05_inclination_root rs a p e x E L Q hx.ne' hc
  rw [Real.sign_of_pos hx, one_mul] at hL
  obtain ⟨v1, v2, -, -⟩ := RadialRoots.vieta hR
  have hs := Real.sqrt_nonneg (1 - a ^ 2)
  have hs1 : √(1 - a ^ 2) ≤ 1 := Real.sqrt_le_one.mpr (by nlinarith)
  have hb : 0 < 1 - E ^ 2 := by nlinarith
  have p3 : 0 < r3 := by linarith
  have p2 : 0 < r2 := by linarith
  have p1 : 0 < r1 := by linarith
  have k1 : 1 ≤ (1 - E ^ 2) * (2 * r1) := by nlinarith
  have k2 : r2 / 2 ≤ a ^ 2 * (1 - E ^ 2) + L ^ 2 + Q := by
    rw [← v2]
    have k3 : (1 - E ^ 2) * (r1 * r2) ≤ (1 - E ^ 2) * (r1 * r2 + r1 * r3 + r1 * r4 + r2 * r3 + r2 * r4 + r3 * r4) := by
      gcongr
      have : 0 ≤ r1 * r3 + r1 * r4 + r2 * r3 + r2 * r4 + r3 * r4 := by positivity
      linarith
    have k4 : r2 / 2 * 1 ≤ r2 / 2 * ((1 - E ^ 2) * (2 * r1)) := by gcongr
    linarith
  have hS : L ^ 2 = x ^ 2 * (L ^ 2 + Q - a ^ 2 * (1 - E ^ 2) * (1 - x ^ 2)) := by
    unfold Spec.Zpol at hz
    linear_combination -hz
  have hB : a ^ 2 * (1 - E ^ 2) ≤ 1 := by nlinarith [sq_nonneg E]
  have hB0 : 0 ≤ a ^ 2 * (1 - E ^ 2) := by positivity
  have k5 : x ^ 2 * (r2 / 2 - 2) ≤ L ^ 2 := by
    rw [hS]
    have k : a ^ 2 * (1 - E ^ 2) * (1 - x ^ 2) ≤ 1 := mul_le_one₀ hB (by linarith) (by linarith [sq_nonneg x])
    exact mul_le_mul_of_nonneg_left (by linarith) (sq_nonneg x)
  have e3 : r2 / 2 = p / (2 * (1 + e)) := by rw [e2]; field_simp
  rw [e3] at k5
  have k6 : 16 < (a * L) ^ 2 := by
    rw [mul_pow]
    have : a ^ 2 * (x ^ 2 * (p / (2 * (1 + e)) - 2)) ≤ a ^ 2 * L ^ 2 := mul_le_mul_of_nonneg_left k5 (sq_nonneg a)
    linarith
  have k7 : 4 < a * L := by
    have : 0 < a * L := by positivity
    exact lt_of_pow_lt_pow_left₀ 2 this.le (by linarith)
  have k8 : (1 + √(1 - a ^ 2)) ^ 2 + a ^ 2 ≤ 4 := by
    have k := Real.sq_sqrt (show 0 ≤ 1 - a ^ 2 by linarith)
    have : (1 + √(1 - a ^ 2)) ^ 2 + a ^ 2 = 2 + 2 * √(1 - a ^ 2) := by linear_combination k
    linarith
  have k9 : E * ((1 + √(1 - a ^ 2)) ^ 2 + a ^ 2) ≤ 1 * 4 := mul_le_mul hE1.le k8 (by positivity) zero_le_one
  linarith

/-- A prograde inclined eccentric orbit: `Υ_r < Υ_θ < Υ_φ`. -/
example (rs : RootScalar) : ∃ m, minoFrequencies rs (9 / 10) 400 (1 / 2) (1 / 2) = .ok m
    ∧ m.upsilonR < m.upsilonTheta ∧ m.upsilonTheta < m.upsilonPhi := by
  have h : Spec.BoundOrbit rs (9 / 10) 400 (1 / 2) (1 / 2) := C11_accepts_wide _ _ _ _ _ (by norm_num [abs_lt])
    (by norm_num) (by norm_num) (by norm_num [abs_le]) (by norm_num)
  obtain ⟨m, wr, wth, wph, hm, -, -, h1, -, -, -, h2, -⟩ := C60_order rs _ _ _ _ h (by norm_num) (by norm_num)
    (by norm_num) (fun _ h4 => absurd h4 (by norm_num))
    (Or.inr fun E L Q hc => (C22_far_prograde rs _ _ _ _ h (by norm_num) (by norm_num) (by norm_num) (by norm_num)
      E L Q hc).ne)
  exact ⟨m, hm, h1, (h2 (by norm_num) (by norm_num)).1⟩

/-- A retrograde inclined eccentric orbit. -/
example (rs : RootScalar) : ∃ m, minoFrequencies rs (9 / 10) 13 (1 / 2) (-1 / 2) = .ok m
    ∧ m.upsilonR < m.upsilonTheta ∧ -m.upsilonTheta < m.upsilonPhi := by
  have h : Spec.BoundOrbit rs (9 / 10) 13 (1 / 2) (-1 / 2) := C11_accepts_wide _ _ _ _ _ (by norm_num [abs_lt])
    (by norm_num) (by norm_num) (by norm_num [abs_le]) (by norm_num)
  obtain ⟨m, wr, wth, wph, hm, -, -, h1, -, -, -, -, h2⟩ := C60_order rs _ _ _ _ h (by norm_num) (by norm_num)
    (by norm_num) (fun h => absurd h (by norm_num)) (Or.inl (by norm_num))
  exact ⟨m, hm, h1, (h2 (by norm_num) (by norm_num)).1⟩

/-- A prograde orbit that meets the hypotheses of C22. -/
example (rs : RootScalar) (q : Phases) :
    ∃ T, stableTrajectoryNat rs (9 / 10) 400 (1 / 2) (1 / 2) q = .ok T ∧ StrictMono T.t := by
  have h : Spec.BoundOrbit rs (9 / 10) 400 (1 / 2) (1 / 2) := C11_accepts_wide _ _ _ _ _ (by norm_num [abs_lt])
    (by norm_num) (by norm_num) (by norm_num [abs_le]) (by norm_num)
  obtain ⟨T, m, E, L, Q, hT, -, -, -, -, -, -, -, -, -, -, -, hmono, -⟩ := C22_kerr rs _ _ _ _ q h (by norm_num)
    (by norm_num) (by norm_num) (fun _ h4 => absurd h4 (by norm_num))
    (Or.inr fun E L Q hc => (C22_far_prograde rs _ _ _ _ h (by norm_num) (by norm_num) (by norm_num) (by norm_num)
      E L Q hc).ne)
  exact ⟨T, hT, hmono⟩

end KGP
