import Verif.Props.InitialValue
import Verif.Props.PlungeSymmetry

/-!
# C54 for `Orbit` objects built from initial conditions that plunge
-/

namespace KGP

open Classical Real Filter Topology

/-- On the interval `(l₁, l₂)` of Mino time the curve `X` with tangent `V` (per unit of proper time) solves
the geodesic equation of the metric `g`, starts from `x₀`, `v₀` at Mino time `0`, and every other solution with these
initial data agrees with it. -/
def Spec.TheMinoGeodesicFrom (a : ℝ) (g : (Fin 4 → ℝ) → Matrix (Fin 4) (Fin 4) ℝ) (x₀ v₀ : Fin 4 → ℝ) (l₁ l₂ : ℝ)
    (X V : ℝ → Fin 4 → ℝ) : Prop :=
  X 0 = x₀ ∧ V 0 = v₀
  ∧ (∀ l, l₁ < l → l < l₂ → Spec.GeodesicAt g X V (Spec.Sigma a (X l 1) (X l 2)) l)
  ∧ ∀ Y W : ℝ → Fin 4 → ℝ,
      (∀ l, l₁ < l → l < l₂ → Spec.GeodesicAt g Y W (Spec.Sigma a (Y l 1) (Y l 2)) l) →
      Y 0 = x₀ → W 0 = v₀ → ∀ l, l₁ < l → l < l₂ → Y l = X l ∧ W l = V l

/-- What the methods of a plunging `Orbit` return. -/
lemma plunge_methods {rs : RootScalar} {o : OrbitObj} {a E L Q : ℝ} {T U : Traj} (hst : o.stable = false)
    (hoa : o.a = a) (hcs : o.consts = (E, L, Q)) (hT : o.trajectoryNat rs = .ok T)
    (hU : o.fourVelocity rs = .ok U) :
    plungingTrajectoryNat a E L Q o.phases = .ok T
    ∧ U = fourVelocity a T (E, L, Q) o.upsilonR o.upsilonTheta o.phases := by
  constructor
  · rw [← hT]
    unfold OrbitObj.trajectoryNat
    simp only [Option.getD_none, hcs, hst, hoa, Bool.false_eq_true, if_false]
  · unfold OrbitObj.fourVelocity at hU
    have : o.trajectoryNat rs (some o.phases) = .ok T := by rw [← hT]; rfl
    simp only [Option.getD_none, this, bind_ok, pure, Except.pure, hoa, hcs] at hU
    exact (Except.ok.inj hU).symm

/-- **C54 for plunging `Orbit`s with two complex roots.** Let a position off the axis and off the horizons and a
velocity of norm `-1` be given, off the equatorial plane (`Q ≠ 0`), with `E² < 1`, whose radial potential has two
complex roots, and let no horizon be a root of the potential.  Then `Orbit` accepts the initial conditions, and on
every Mino time interval around `0` on which the particle meets no horizon, no removable pole of the closed form
(C47) and not the ring `Σ = 0`, its trajectory is the geodesic of the metric with exactly these initial
data, and its tangent is the orbit's four-velocity. -/
theorem C54_orbit_complex_plunge (rs : RootScalar) {a E L Q r1 r2 : ℝ} {r3 r4 : ℂ} {pos vel : Vec4}
    (M mu : Option ℝ) (ha : a ≠ 0) (ha1 : a ^ 2 < 1)
    (hc : constantsFromInitialConditions a pos vel = .ok (E, L, Q))
    (hnorm : norm4 a pos.t pos.r pos.theta pos.phi vel = -1) (h0 : 0 < pos.theta) (hpi : pos.theta < π)
    (hr0 : Spec.Sigma a pos.r pos.theta ≠ 0) (hD : Spec.Delta a pos.r ≠ 0)
    (hE : E ^ 2 < 1) (hQ : Q ≠ 0) (hax : L ≠ 0 ∨ Q < a ^ 2 * (1 - E ^ 2))
    (hr : plungingRadialRoots a E L Q = .ok (.cplx r1 r2 r3 r4)) (hAB : r1 + r2 ≠ 2 * r3.re)
    (hh : ∀ rh, Spec.Delta a rh = 0 → E * (rh ^ 2 + a ^ 2) ≠ a * L) :
    ∃ o T U, mkOrbit rs a pos vel M mu = .ok o ∧ o.stable = false ∧ o.consts = (E, L, Q)
      ∧ o.trajectoryNat rs = .ok T ∧ o.fourVelocity rs = .ok U ∧ T.at 0 = pos ∧ U.at 0 = vel
      ∧ (∀ l₁ l₂, l₁ < 0 → 0 < l₂ →
        (∀ l, l₁ < l → l < l₂ → Spec.Sigma a (T.r l) (T.theta l) ≠ 0
          ∧ ∀ rh, Spec.Delta a rh = 0 → T.r l ≠ rh
            ∧ ((r2 - r3.re) ^ 2 + r4.im ^ 2) * (T.r l - r1) * (rh - r1)
              ≠ ((r1 - r3.re) ^ 2 + r4.im ^ 2) * (r2 - T.r l) * (r2 - rh)) →
        Spec.TheMinoGeodesicFrom a (kerrMetric a) pos.toVec vel.toVec l₁ l₂ T.toCurve U.toCurve)
      ∧ ((∀ rh, Spec.Delta a rh = 0 →
            ((r2 - r3.re) ^ 2 + r4.im ^ 2) * (pos.r - r1) * (rh - r1)
              ≠ ((r1 - r3.re) ^ 2 + r4.im ^ 2) * (r2 - pos.r) * (r2 - rh)) →
          ∃ l₁ l₂, l₁ < 0 ∧ 0 < l₂ ∧
            Spec.TheMinoGeodesicFrom a (kerrMetric a) pos.toVec vel.toVec l₁ l₂ T.toCurve U.toCurve) := by
  have hsin := Real.sin_pos_of_pos_of_lt_pi h0 hpi
  obtain ⟨hQ0, -⟩ := carter_nonneg hE hr0 hD hsin.ne' hc
  obtain ⟨o, ho, hst, hcs⟩ := C44_constructible rs M mu ha hc hnorm hE hr
  have h12 : r1 < r2 := cplx_outer_lt ha1 hE hr
  obtain ⟨T, U, hT, hT0, hU, hU0⟩ := C44_velocity ho hst hcs hE hr hr0 hD hQ hax h12 h0 hpi hnorm
  obtain ⟨E', L', Q', uR, uT, -, -, hu, -, hoa, hocs, hou, hout⟩ := mkOrbit_plunge ho hst
  obtain ⟨rfl, rfl, rfl⟩ : E' = E ∧ L' = L ∧ Q' = Q := by
    rw [hocs] at hcs; simpa using hcs
  obtain ⟨hT1, rfl⟩ := plunge_methods hst hoa hcs hT hU
  rw [hou, hout] at hU hU0
  have key : ∀ l₁ l₂, l₁ < 0 → 0 < l₂ →
      (∀ l, l₁ < l → l < l₂ → Spec.Sigma a (T.r l) (T.theta l) ≠ 0
        ∧ ∀ rh, Spec.Delta a rh = 0 → T.r l ≠ rh
          ∧ ((r2 - r3.re) ^ 2 + r4.im ^ 2) * (T.r l - r1) * (rh - r1)
            ≠ ((r1 - r3.re) ^ 2 + r4.im ^ 2) * (r2 - T.r l) * (r2 - rh)) →
      Spec.TheMinoGeodesicFrom a (kerrMetric a) pos.toVec vel.toVec l₁ l₂ T.toCurve
        (fourVelocity a T (E', L', Q') uR uT o.phases).toCurve := by
    refine fun l₁ l₂ h1 h2 hreg => ⟨?_, ?_, ?_, ?_⟩
    · rw [← hT0, toVec_at]
    · rw [← hU0, toVec_at]
    · intro l k1 k2
      exact C53_complex_plunge hE hr hu hT1 ha ha1 hQ0 hax hAB hh l (hreg l k1 k2).2 (hreg l k1 k2).1
    · intro Y W hY hY0 hW0
      exact C54_complex_plunge hE hr hu hT1 ha ha1 hQ0 hax hAB hh ⟨h1, h2⟩ (fun l k1 k2 => (hreg l k1 k2).2)
        (fun l k1 k2 => (hreg l k1 k2).1) Y W hY (by rw [hY0, ← hT0, toVec_at]) (by rw [hW0, ← hU0, toVec_at])
  refine ⟨o, T, _, ho, hst, hcs, hT, hU, hT0, hU0, key, fun hp => ?_⟩
  have er : T.r 0 = pos.r := congrArg Vec4.r hT0
  have eth : T.theta 0 = pos.theta := congrArg Vec4.theta hT0
  have cr : ContinuousAt T.r 0 := (C31_radial_equation hE hr hu hT1 0).2.2.2.continuousAt
  obtain ⟨-, zmx, -, -, -, -, hth⟩ := C32_polar_equation hE hr hu hT1 ha hQ0 hax
  have ct : ContinuousAt T.theta 0 := (hth 0).2.2.2.continuousAt
  have n1 : ∀ᶠ l in 𝓝 (0:ℝ), Spec.Sigma a (T.r l) (T.theta l) ≠ 0 := by
    refine ContinuousAt.eventually_ne (x := 0) (g := fun l => Spec.Sigma a (T.r l) (T.theta l)) ?_ (by rwa [er, eth])
    unfold Spec.Sigma
    fun_prop
  have n2 : ∀ rh, Spec.Delta a rh = 0 → ∀ᶠ l in 𝓝 (0:ℝ), T.r l ≠ rh
      ∧ ((r2 - r3.re) ^ 2 + r4.im ^ 2) * (T.r l - r1) * (rh - r1)
        - ((r1 - r3.re) ^ 2 + r4.im ^ 2) * (r2 - T.r l) * (r2 - rh) ≠ 0 := by
    intro rh hrh
    refine (ContinuousAt.eventually_ne cr ?_).and (ContinuousAt.eventually_ne (x := 0) (by fun_prop) ?_)
    · rw [er]; rintro rfl; exact hD hrh
    · rw [er]; exact sub_ne_zero.mpr (hp rh hrh)
  have hsq : √(1 - a ^ 2) ^ 2 = 1 - a ^ 2 := Real.sq_sqrt (by linarith)
  have two : ∀ rh, Spec.Delta a rh = 0 → rh = 1 + √(1 - a ^ 2) ∨ rh = 1 - √(1 - a ^ 2) := by
    intro rh h
    have : (rh - (1 + √(1 - a ^ 2))) * (rh - (1 - √(1 - a ^ 2))) = 0 := by
      unfold Spec.Delta at h
      linear_combination h - hsq
    rcases mul_eq_zero.mp this with h | h
    · left; linarith
    · right; linarith
  have n3 := n1.and ((n2 _ (Delta_rPlus ha1.le)).and (n2 (1 - √(1 - a ^ 2))
    (by unfold Spec.Delta; linear_combination hsq)))
  obtain ⟨l₁, l₂, hmem, hsub⟩ := mem_nhds_iff_exists_Ioo_subset.mp n3
  refine ⟨l₁, l₂, hmem.1, hmem.2, key l₁ l₂ hmem.1 hmem.2 fun l k1 k2 => ?_⟩
  obtain ⟨m1, m2, m3⟩ := hsub ⟨k1, k2⟩
  refine ⟨m1, fun rh hrh => ?_⟩
  rcases two rh hrh with rfl | rfl
  · exact ⟨m2.1, sub_ne_zero.mp m2.2⟩
  · exact ⟨m3.1, sub_ne_zero.mp m3.2⟩

/-- **C54 for plunging `Orbit`s with four real roots.** Let a position off the axis and off the horizons and a velocity
of norm `-1` be given, with `Q ≠ 0`, `L ≠ 0`, `E² < 1`, four real roots, the position between the two roots that
enclose the horizons (as labelled by the code) and classified as a plunge by `is_stable`, exactly at a
turning point or at least the tolerance `1e-4` away from it, and let no horizon be a root.  Then `Orbit` accepts
the initial conditions, and on every Mino time interval around `0` on which the particle meets no horizon the trajectory
is the geodesic of the metric with exactly these initial data; such an interval exists. -/
theorem C54_orbit_real_plunge (rs : RootScalar) {a E L Q r1 r2 r3 r4 : ℝ} {pos vel : Vec4}
    (M mu : Option ℝ) (ha : a ≠ 0) (ha1 : a ^ 2 < 1)
    (hc : constantsFromInitialConditions a pos vel = .ok (E, L, Q))
    (hnorm : norm4 a pos.t pos.r pos.theta pos.phi vel = -1) (h0 : 0 < pos.theta) (hpi : pos.theta < π)
    (hr0 : Spec.Sigma a pos.r pos.theta ≠ 0) (hD : Spec.Delta a pos.r ≠ 0)
    (hE : E ^ 2 < 1) (hQ : Q ≠ 0) (hL : L ≠ 0)
    (hr : plungingRadialRoots a E L Q = .ok (.real r1 r2 r3 r4)) (hsep : r3 < r2 ∨ r1 < r4)
    (hcl : icIsStable a pos vel (some (E, L, Q)) = .ok false)
    (hr2 : r2 ≤ pos.r) (hr1 : pos.r ≤ r1)
    (c1 : Spec.ClearOf 1e-4 pos.r r1) (c2 : Spec.ClearOf 1e-4 pos.r r2)
    (hclear : ∀ zm, 0 ≤ zm → zm < 1 → Spec.Zpol a E L Q zm = 0 →
      Spec.ClearOf 1e-4 pos.theta (arccos (√zm)) ∧ Spec.ClearOf 1e-4 pos.theta (π - arccos (√zm)))
    (hh : ∀ rh, Spec.Delta a rh = 0 → E * (rh ^ 2 + a ^ 2) ≠ a * L) :
    ∃ o T U, mkOrbit rs a pos vel M mu = .ok o ∧ o.stable = false ∧ o.consts = (E, L, Q)
      ∧ o.trajectoryNat rs = .ok T ∧ o.fourVelocity rs = .ok U ∧ T.at 0 = pos ∧ U.at 0 = vel
      ∧ (∀ l₁ l₂, l₁ < 0 → 0 < l₂ → (∀ l, l₁ < l → l < l₂ → Spec.Delta a (T.r l) ≠ 0) →
        Spec.TheMinoGeodesicFrom a (kerrMetric a) pos.toVec vel.toVec l₁ l₂ T.toCurve U.toCurve)
      ∧ ∃ l₁ l₂, l₁ < 0 ∧ 0 < l₂ ∧
        Spec.TheMinoGeodesicFrom a (kerrMetric a) pos.toVec vel.toVec l₁ l₂ T.toCurve U.toCurve := by
  have hsin := Real.sin_pos_of_pos_of_lt_pi h0 hpi
  obtain ⟨hQ0, -⟩ := carter_nonneg hE hr0 hD hsin.ne' hc
  have hQp : 0 < Q := lt_of_le_of_ne hQ0 hQ.symm
  obtain ⟨o, ho, hst, hcs⟩ := C34_real_constructible rs M mu ha hc hnorm hE hL hr hcl
  obtain ⟨T, U, hT, hT0, hU, hU0⟩ := C35_real_plunge ho hst hcs hE hL hr hsep hQ hr0 hD h0 hpi hr2 hr1 hnorm
    c1 c2 hclear
  obtain ⟨E', L', Q', uR, uT, -, -, hu, -, hoa, hocs, hou, hout⟩ := mkOrbit_plunge ho hst
  obtain ⟨rfl, rfl, rfl⟩ : E' = E ∧ L' = L ∧ Q' = Q := by
    rw [hocs] at hcs; simpa using hcs
  obtain ⟨hT1, rfl⟩ := plunge_methods hst hoa hcs hT hU
  rw [hou, hout] at hU hU0
  have key : ∀ l₁ l₂, l₁ < 0 → 0 < l₂ → (∀ l, l₁ < l → l < l₂ → Spec.Delta a (T.r l) ≠ 0) →
      Spec.TheMinoGeodesicFrom a (kerrMetric a) pos.toVec vel.toVec l₁ l₂ T.toCurve
        (fourVelocity a T (E', L', Q') uR uT o.phases).toCurve := by
    refine fun l₁ l₂ h1 h2 hreg => ⟨?_, ?_, ?_, ?_⟩
    · rw [← hT0, toVec_at]
    · rw [← hU0, toVec_at]
    · intro l k1 k2
      exact C53_real_plunge ha ha1 hE hL hr hsep hu hT1 hQp hh l (hreg l k1 k2)
    · intro Y W hY hY0 hW0
      exact C54_real_plunge ha ha1 hE hL hr hsep hu hT1 hQp hh ⟨h1, h2⟩ hreg
        Y W hY (by rw [hY0, ← hT0, toVec_at]) (by rw [hW0, ← hU0, toVec_at])
  refine ⟨o, T, _, ho, hst, hcs, hT, hU, hT0, hU0, key, ?_⟩
  have er : T.r 0 = pos.r := congrArg Vec4.r hT0
  have cr : ContinuousAt T.r 0 := (C50_radial_polar ha hE hL hQ0 hr hsep hu hT1 0).2.1.continuousAt
  have n1 : ∀ᶠ l in 𝓝 (0:ℝ), Spec.Delta a (T.r l) ≠ 0 := by
    refine ContinuousAt.eventually_ne (x := 0) (g := fun l => Spec.Delta a (T.r l)) ?_ (by rwa [er])
    unfold Spec.Delta
    fun_prop
  obtain ⟨l₁, l₂, hmem, hsub⟩ := mem_nhds_iff_exists_Ioo_subset.mp n1
  exact ⟨l₁, l₂, hmem.1, hmem.2, key l₁ l₂ hmem.1 hmem.2 fun l k1 k2 => hsub ⟨k1, k2⟩⟩

/-- Non-vacuity: a complex-root plunge around a hole of spin `4/5`, started inwards at `r = 3`. -/
example (rs : RootScalar) : ∃ vel o T U, vel.r < 0 ∧ mkOrbit rs (4 / 5) ⟨1, 3, π / 2, 2⟩ vel = .ok o
    ∧ o.stable = false ∧ o.trajectoryNat rs = .ok T ∧ o.fourVelocity rs = .ok U
    ∧ ∃ l₁ l₂, l₁ < 0 ∧ 0 < l₂ ∧ Spec.TheMinoGeodesicFrom (4 / 5) (kerrMetric (4 / 5))
      (⟨1, 3, π / 2, 2⟩ : Vec4).toVec vel.toVec l₁ l₂ T.toCurve U.toCurve := by
  obtain ⟨r3, r4, hr, h3⟩ := exPlunge_roots
  have hE : √(66825 / 91777) ^ 2 < (1 : ℝ) := by rw [exPlungeE]; norm_num
  have hE0 : 0 < √(66825 / 91777 : ℝ) := Real.sqrt_pos.mpr (by norm_num)
  have hpi := Real.pi_pos
  have hS : Spec.Sigma (4 / 5) 3 (π / 2) = 9 := by simp [Spec.Sigma]; norm_num
  have hD : Spec.Delta (4 / 5) 3 ≠ 0 := by norm_num [Spec.Delta]
  have hR : 0 < Spec.R (4 / 5) (√(66825 / 91777)) (4 / 5 * √(66825 / 91777)) (98 / 1873) 3 := by
    rw [exPlunge_R, Real.sq_sqrt (by norm_num : (0:ℝ) ≤ 784 / 15595 - (49 / 15595) ^ 2), exPlungeE]
    norm_num
  have hT : Spec.Theta (4 / 5) (√(66825 / 91777)) (4 / 5 * √(66825 / 91777)) (98 / 1873) (π / 2)
      = 98 / 1873 := by simp [Spec.Theta]
  obtain ⟨hc, hn⟩ := velocityOf_ok (a := 4 / 5) (E := √(66825 / 91777)) (L := 4 / 5 * √(66825 / 91777))
    (Q := 98 / 1873) (sr := -1) (sθ := 1) (pos := ⟨1, 3, π / 2, 2⟩) (by norm_num) (by norm_num)
    (by simp only [hS]; norm_num) hD (by simp) hR.le (by simp only [hT]; norm_num)
  have two : ∀ rh, Spec.Delta (4 / 5) rh = 0 → rh = 8 / 5 ∨ rh = 2 / 5 := by
    intro rh h
    have : (rh - 8 / 5) * (rh - 2 / 5) = 0 := by
      unfold Spec.Delta at h
      linear_combination h
    rcases mul_eq_zero.mp this with h | h
    · left; linarith
    · right; linarith
  have hh : ∀ rh, Spec.Delta (4 / 5) rh = 0 →
      √(66825 / 91777) * (rh ^ 2 + (4 / 5) ^ 2) ≠ 4 / 5 * (4 / 5 * √(66825 / 91777)) := by
    intro rh h he
    have : √(66825 / 91777) * rh ^ 2 = 0 := by linear_combination he
    rcases two rh h with rfl | rfl
    · have : 0 < √(66825 / 91777) * (8 / 5) ^ 2 := by positivity
      linarith
    · have : 0 < √(66825 / 91777) * (2 / 5) ^ 2 := by positivity
      linarith
  obtain ⟨o, T, U, ho, hst, -, hTT, hU, -, -, -, hint⟩ := C54_orbit_complex_plunge rs none none (by norm_num) (by norm_num) hc hn
    (by simp only []; positivity) (by simp only []; linarith) (by simp only [hS]; norm_num) hD hE (by norm_num)
    (.inl (by positivity)) hr (by rw [h3]; norm_num) hh
  obtain ⟨l₁, l₂, g⟩ := hint (by
    have hv : r4.im ^ 2 = 784 / 15595 - (49 / 15595) ^ 2 := by
      have hf := (C30_complex _ _ _ _ _ _ _ _ hE.ne hr).2.2.2 3
      rw [exPlunge_R, Real.sq_sqrt (by norm_num : (0:ℝ) ≤ 784 / 15595 - (49 / 15595) ^ 2), exPlungeE, h3] at hf
      linarith
    intro rh h
    rw [h3, hv]
    rcases two rh h with rfl | rfl <;> norm_num)
  refine ⟨_, o, T, U, ?_, ho, hst, hTT, hU, l₁, l₂, g⟩
  simp only [Spec.velocityOf, hS]
  have := Real.sqrt_pos.mpr hR
  linarith

/-- Non-vacuity: a plunge with four real roots around a hole of spin `12/13`, started inwards at `r = 2`. -/
example (rs : RootScalar) : ∃ vel o T U, vel.r < 0 ∧ mkOrbit rs (12 / 13) ⟨1, 2, π / 2, 3⟩ vel = .ok o
    ∧ o.stable = false ∧ o.trajectoryNat rs = .ok T ∧ o.fourVelocity rs = .ok U
    ∧ ∃ l₁ l₂, l₁ < 0 ∧ 0 < l₂ ∧ Spec.TheMinoGeodesicFrom (12 / 13) (kerrMetric (12 / 13))
      (⟨1, 2, π / 2, 3⟩ : Vec4).toVec vel.toVec l₁ l₂ T.toCurve U.toCurve := by
  have hpi := Real.pi_pos
  have hE0 := exE_pos
  have hE2 := exE_sq
  have hE : exE ^ 2 < 1 := by rw [hE2]; norm_num
  have hS : Spec.Sigma (12 / 13) 2 (π / 2) = 4 := by simp [Spec.Sigma]; norm_num
  have hD : Spec.Delta (12 / 13) 2 ≠ 0 := by norm_num [Spec.Delta]
  have hR : 0 < Spec.R (12 / 13) exE (12 / 13 * exE) (8294400 / 679439) 2 := by
    rw [exReal_roots, hE2]; norm_num
  have hT : Spec.Theta (12 / 13) exE (12 / 13 * exE) (8294400 / 679439) (π / 2) = 8294400 / 679439 := by
    simp [Spec.Theta]
  obtain ⟨hc, hn⟩ := velocityOf_ok (a := 12 / 13) (E := exE) (L := 12 / 13 * exE)
    (Q := 8294400 / 679439) (sr := -1) (sθ := 1) (pos := ⟨1, 2, π / 2, 3⟩) (by norm_num) (by norm_num)
    (by simp only [hS]; norm_num) hD (by simp) hR.le (by simp only [hT]; norm_num)
  have hL : 12 / 13 * exE ≠ 0 := by positivity
  obtain ⟨-, -, c3, -⟩ := C36_four_real (12 / 13) exE (12 / 13 * exE) (8294400 / 679439) 1e-4
    (45 / 4) 8 (2880 / 1369) (576 / 955) ⟨1, 2, π / 2, 3⟩
    (Spec.velocityOf (12 / 13) exE (12 / 13 * exE) (8294400 / 679439) ⟨1, 2, π / 2, 3⟩ (-1) 1) hE.ne
    exReal_roots (by norm_num) (by norm_num) (by norm_num)
  have two : ∀ rh, Spec.Delta (12 / 13) rh = 0 → rh = 8 / 13 ∨ rh = 18 / 13 := by
    intro rh h
    have : (rh - 8 / 13) * (rh - 18 / 13) = 0 := by
      unfold Spec.Delta at h
      linear_combination h
    rcases mul_eq_zero.mp this with h | h
    · left; linarith
    · right; linarith
  have hh : ∀ rh, Spec.Delta (12 / 13) rh = 0 →
      exE * (rh ^ 2 + (12 / 13) ^ 2) ≠ 12 / 13 * (12 / 13 * exE) := by
    intro rh h he
    have : exE * rh ^ 2 = 0 := by linear_combination he
    rcases two rh h with rfl | rfl
    · have : 0 < exE * (8 / 13) ^ 2 := by positivity
      linarith
    · have : 0 < exE * (18 / 13) ^ 2 := by positivity
      linarith
  obtain ⟨o, T, U, ho, hst, -, hTT, hU, -, -, -, hint⟩ := C54_orbit_real_plunge rs none none (by norm_num)
    (by norm_num) hc hn
    (by simp only []; positivity) (by simp only []; linarith) (by simp only [hS]; norm_num) hD hE (by norm_num)
    hL exPlungeLabels (by norm_num) (c3 (by rw [exHorizon]; norm_num)) (by norm_num) (by norm_num)
    (.inr (by norm_num [abs_of_neg])) (.inr (by norm_num [abs_of_pos])) (by
      intro zm h0 h1 hz
      have hz' : 1 / 4 ≤ zm := by
        unfold Spec.Zpol at hz
        rw [mul_pow, hE2] at hz
        nlinarith
      have hs : 1 / 2 ≤ √zm := by
        rw [show (1 / 2 : ℝ) = √(1 / 4) by
          rw [show (1 / 4 : ℝ) = (1 / 2) ^ 2 by norm_num, Real.sqrt_sq (by norm_num)]]
        exact Real.sqrt_le_sqrt hz'
      have hs1 : √zm ≤ 1 := Real.sqrt_le_one.mpr h1.le
      have h2 : 1 / 2 ≤ arcsin (√zm) := by
        have h3 : 0 ≤ arcsin (√zm) := Real.arcsin_nonneg.mpr (Real.sqrt_nonneg _)
        have := Real.sin_le h3
        rw [Real.sin_arcsin (by linarith) hs1] at this
        linarith
      rw [Real.arccos]
      constructor
      · right
        rw [abs_of_nonneg (by simp only []; linarith)]
        simp only []
        norm_num; linarith
      · right
        rw [abs_of_nonpos (by simp only []; linarith)]
        simp only []
        norm_num; linarith) hh
  refine ⟨_, o, T, U, ?_, ho, hst, hTT, hU, hint⟩
  simp only [Spec.velocityOf, hS]
  have := Real.sqrt_pos.mpr hR
  linarith

end KGP
