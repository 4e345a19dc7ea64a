import Verif.Props.KerrOrbits
import Verif.Props.Restart

/-!
# C52 — symmetries and exact periods of stable trajectories

The Kerr spacetime is stationary, axisymmetric, symmetric under reflection in the equatorial plane and under
simultaneous reversal of `t` and `φ`.  The trajectories computed by the library inherit all four symmetries,
exactly and at all times, although the code evaluates them through `floor`-based case distinctions in the
incomplete elliptic integrals.  The periods `2π/Υ` are the least ones.
-/

namespace KGP

open Classical Real

lemma amT_add_pi {m : ℝ} (hm : m < 1) (q : ℝ) : amT m (q + π) = amT m q + π := by
  unfold amT
  have := am_add_int hm (2 / π * ellipk m * (q + π / 2)) 1
  push_cast at this
  rw [show 2 / π * ellipk m * (q + π + π / 2) = 2 / π * ellipk m * (q + π / 2) + 2 * 1 * ellipk m by
      have := Real.pi_ne_zero; field_simp; ring, this]
  ring

/-- Two functions with the same derivative that agree at `0` are equal. -/
lemma eq_of_deriv_eq {f g : ℝ → ℝ} {f' : ℝ → ℝ} (hf : ∀ y, HasDerivAt f (f' y) y)
    (hg : ∀ y, HasDerivAt g (f' y) y) (h0 : f 0 = g 0) : ∀ y, f y = g y := by
  intro y
  have hd : ∀ y, HasDerivAt (fun y => f y - g y) 0 y := fun y => ((hf y).sub (hg y)).congr_deriv (sub_self _)
  have := is_const_of_deriv_eq_zero (fun y => (hd y).differentiableAt) (fun y => (hd y).deriv) y 0
  linarith

section
variable {rs : RootScalar} {a p e x E L Q r1 r2 r3 r4 : ℝ} {q q' : Phases} {T T' : Traj} {m : MinoFreqs}
  (ha : 0 ≤ a) (hT : stableTrajectoryNat rs a p e x q = .ok T)
  (hT' : stableTrajectoryNat rs a p e x q' = .ok T')
  (hm : minoFrequencies rs a p e x = .ok m)
  (hc : constantsOfMotion rs a p e x = .ok (E, L, Q))
  (hr : stableRadialRoots rs a p e x = .ok (r1, r2, r3, r4))
  (hb : Spec.BoundGeodesic a E L Q r1 r2 r3 r4)

include ha hT hm hc hr hb in
/-- `r` and `θ` as functions of the phases; `t` and `φ` at Mino time 0. -/
lemma phase_forms : ∃ zm zp, PolarConfig a E L Q zm zp ∧ zm = 1 - x ^ 2
    ∧ (∀ l, T.r l = rOf r1 r2 r3 (sin (amR (mR r1 r2 r3 r4) (m.upsilonR * l + q.qr)) ^ 2))
    ∧ (∀ l, T.theta l = arccos (√zm * sin (amT (mT a zm zp) (m.upsilonTheta * l + q.qtheta))))
    ∧ T.t 0 = q.qt ∧ T.phi 0 = q.qphi ∧ stablePolarRootsCore a x (E, L, Q) = (zm, zp) := by
  obtain ⟨m1, zm, zp, D⟩ := stableData_of ha hT hc hr
  obtain rfl : m1 = m := D.mino_eq hm
  have HP := D.polar hb.energy hb.nonpolar
  refine ⟨zm, zp, HP, D.zm_eq, ?_, ?_, ?_, ?_, D.hzz⟩
  · intro l
    rw [D.hT]
    exact radial_pos_eq (a := a) (cs := (E, L, Q)) (BoundGeodesic.config hb) _
  · intro l
    rw [D.hT]
    exact polar_pos_eq HP _
  · rw [D.hT]; exact (assembleTrajectory_zero _ _ _ _).1
  · rw [D.hT]; exact (assembleTrajectory_zero _ _ _ _).2

include ha hT hT' hm hc hr hb in
lemma reversal_core (hq : q' = ⟨-q.qt, -q.qr, -q.qtheta, -q.qphi⟩) (lam : ℝ) :
    T'.t (-lam) = -T.t lam ∧ T'.r (-lam) = T.r lam ∧ T'.theta (-lam) = T.theta lam
      ∧ T'.phi (-lam) = -T.phi lam := by
  obtain ⟨zm, zp, HP, -, h1, h2, h3, h4, hz⟩ := phase_forms ha hT hm hc hr hb
  obtain ⟨zm', zp', -, -, h1', h2', h3', h4', hz'⟩ := phase_forms ha hT' hm hc hr hb
  obtain ⟨rfl, rfl⟩ : zm = zm' ∧ zp = zp' := by simpa using hz.symm.trans hz'
  subst hq
  have kr : ∀ l, T'.r (-l) = T.r l := by
    intro l
    rw [h1, h1', show m.upsilonR * -l + -q.qr = -(m.upsilonR * l + q.qr) by ring,
      amR_neg (BoundGeodesic.config hb).mR_lt, Real.sin_neg, neg_sq]
  have kth : ∀ l, T'.theta (-l) = T.theta l := by
    intro l
    rw [h2, h2', show m.upsilonTheta * -l + -q.qtheta = -(m.upsilonTheta * l + q.qtheta) by ring,
      amT_neg HP.mT_lt, Real.sin_pi_sub]
  have d' : ∀ l, HasDerivAt (fun l => -T'.t (-l)) (Spec.dtdlam a E L (T.r l) (T.theta l)) l
      ∧ HasDerivAt (fun l => -T'.phi (-l)) (Spec.dphidlam a E L (T.r l) (T.theta l)) l := by
    intro l
    obtain ⟨c1, c2⟩ := C22_time_azimuth ha hT' hm hc hr hb (-l)
    rw [kr, kth] at c1 c2
    have hn : HasDerivAt (fun l : ℝ => -l) (-1) l := hasDerivAt_neg l
    exact ⟨(c1.comp l hn).neg.congr_deriv (by ring), (c2.comp l hn).neg.congr_deriv (by ring)⟩
  have d := fun l => C22_time_azimuth ha hT hm hc hr hb l
  have e1 := eq_of_deriv_eq (fun l => (d' l).1) (fun l => (d l).1) (by simp [h3, h3']) lam
  have e2 := eq_of_deriv_eq (fun l => (d' l).2) (fun l => (d l).2) (by simp [h4, h4']) lam
  exact ⟨by linarith, kr lam, kth lam, by linarith⟩

include ha hT hT' hm hc hr hb in
lemma reflection_core (hq : q' = ⟨q.qt, q.qr, q.qtheta + π, q.qphi⟩) (lam : ℝ) :
    T'.t lam = T.t lam ∧ T'.r lam = T.r lam ∧ T'.theta lam = π - T.theta lam ∧ T'.phi lam = T.phi lam := by
  obtain ⟨zm, zp, HP, -, h1, h2, h3, h4, hz⟩ := phase_forms ha hT hm hc hr hb
  obtain ⟨zm', zp', -, -, h1', h2', h3', h4', hz'⟩ := phase_forms ha hT' hm hc hr hb
  obtain ⟨rfl, rfl⟩ : zm = zm' ∧ zp = zp' := by simpa using hz.symm.trans hz'
  subst hq
  have kr : ∀ l, T'.r l = T.r l := by intro l; rw [h1, h1']
  have kth : ∀ l, T'.theta l = π - T.theta l := by
    intro l
    rw [h2, h2', ← add_assoc, amT_add_pi HP.mT_lt, Real.sin_add_pi, mul_neg, Real.arccos_neg]
  have d' : ∀ l, HasDerivAt T'.t (Spec.dtdlam a E L (T.r l) (T.theta l)) l
      ∧ HasDerivAt T'.phi (Spec.dphidlam a E L (T.r l) (T.theta l)) l := by
    intro l
    have := C22_time_azimuth ha hT' hm hc hr hb l
    rw [kr, kth] at this
    simpa only [Spec.dtdlam, Spec.dphidlam, Real.sin_pi_sub] using this
  have d := fun l => C22_time_azimuth ha hT hm hc hr hb l
  exact ⟨eq_of_deriv_eq (fun l => (d' l).1) (fun l => (d l).1) (by rw [h3, h3']) lam, kr lam, kth lam,
    eq_of_deriv_eq (fun l => (d' l).2) (fun l => (d l).2) (by rw [h4, h4']) lam⟩

include ha hT hm hc hr hb in
lemma period_core (c : ℝ) :
    (0 < e → (∀ lam, T.r (lam + c) = T.r lam) → ∃ k : ℤ, c = k * (2 * π / m.upsilonR))
    ∧ (x ^ 2 < 1 → (∀ lam, T.theta (lam + c) = T.theta lam) → ∃ k : ℤ, c = k * (2 * π / m.upsilonTheta)) := by
  obtain ⟨zm, zp, HP, hzm, h1, h2, -, -, -⟩ := phase_forms ha hT hm hc hr hb
  have HR := BoundGeodesic.config hb
  have hUr := (C20_radial ha hT hm hc hr hb).2.2.2.1
  have hUt := (C20_polar ha hT hm hc hr hb).2.2.2.1
  constructor
  · intro he hper
    have h12 : r2 < r1 := by
      obtain ⟨m1, zm, zp, D⟩ := stableData_of ha hT hc hr
      obtain ⟨e1, e2⟩ := D.roots12
      have hr2 : 0 < r2 := by linarith [Real.sqrt_nonneg (1 - a ^ 2), hb.horizon, hb.r32]
      have hp0 : 0 < p := by
        rw [e2] at hr2
        exact (div_pos_iff_of_pos_right (by linarith)).mp hr2
      rw [e1, e2]
      exact div_lt_div_of_pos_left hp0 (by linarith [D.ecc.2]) (by linarith)
    have h := hper (-q.qr / m.upsilonR)
    rw [h1, h1] at h
    have e0 : m.upsilonR * (-q.qr / m.upsilonR) + q.qr = 0 := by field_simp; ring
    have e1 : m.upsilonR * (-q.qr / m.upsilonR + c) + q.qr = m.upsilonR * c := by field_simp; ring
    rw [e0, e1] at h
    obtain ⟨k, hk⟩ := radial_phase_unique HR.mR_lt (rOf_injective HR h12 h).symm (by simp)
    refine ⟨k, ?_⟩
    rw [zero_add] at hk
    field_simp
    linarith
  · intro hx hper
    have h := hper (-q.qtheta / m.upsilonTheta)
    rw [h2, h2] at h
    have e0 : m.upsilonTheta * (-q.qtheta / m.upsilonTheta) + q.qtheta = 0 := by field_simp; ring
    have e1 : m.upsilonTheta * (-q.qtheta / m.upsilonTheta + c) + q.qtheta = m.upsilonTheta * c := by
      field_simp; ring
    rw [e0, e1] at h
    have hz0 : 0 < √zm := Real.sqrt_pos.mpr (by rw [hzm]; linarith)
    have hz1 : √zm ≤ 1 := Real.sqrt_le_one.mpr (by rw [hzm]; nlinarith [sq_nonneg x])
    have hb' : ∀ y, -1 ≤ √zm * sin y ∧ √zm * sin y ≤ 1 := fun y => by
      have := Real.neg_one_le_sin y
      have := Real.sin_le_one y
      constructor <;> nlinarith
    have h' := Real.arccos_injOn (hb' _) (hb' _) h
    have h'' := mul_left_cancel₀ hz0.ne' h'
    obtain ⟨k, hk⟩ := polar_phase_unique HP.mT_lt h''.symm (by simp)
    refine ⟨k, ?_⟩
    rw [zero_add] at hk
    field_simp
    linarith

end

section
variable (rs : RootScalar) (a p e x : ℝ) (q : Phases) (h : Spec.BoundOrbit rs a p e x)
  (ha : 0 ≤ a) (he1 : e ≠ 1) (hx0 : x ≠ 0) (hp : 0 < x → p ≤ 4 → Spec.DivisorsNonzero a p e x)
  (hne : x < 0 ∨ ∀ E L Q, constantsOfMotion rs a p e x = .ok (E, L, Q) →
    E * ((1 + √(1 - a ^ 2)) ^ 2 + a ^ 2) ≠ a * L)
include h ha he1 hx0 hp hne

/-- **C52 (reversal).** Negating all four initial phases runs the orbit backwards: `r` and `θ` are
retraced, `t` and `φ` change sign. -/
theorem C52_reversal : ∃ T T', stableTrajectoryNat rs a p e x q = .ok T
    ∧ stableTrajectoryNat rs a p e x ⟨-q.qt, -q.qr, -q.qtheta, -q.qphi⟩ = .ok T'
    ∧ ∀ lam, T'.t (-lam) = -T.t lam ∧ T'.r (-lam) = T.r lam ∧ T'.theta (-lam) = T.theta lam
      ∧ T'.phi (-lam) = -T.phi lam := by
  obtain ⟨T, m, E, L, Q, r1, r2, r3, r4, hT, hm, hc, hr, hb, -⟩ := orbit_hyps q h ha he1 hx0 hp hne
  exact ⟨T, _, hT, stableTrajectoryNat_of hm hc _, fun lam =>
    reversal_core ha hT (stableTrajectoryNat_of hm hc _) hm hc hr hb rfl lam⟩

/-- **C52 (reflection).** Adding half a turn to the polar phase reflects the orbit in the equatorial plane
and changes nothing else. -/
theorem C52_reflection : ∃ T T', stableTrajectoryNat rs a p e x q = .ok T
    ∧ stableTrajectoryNat rs a p e x ⟨q.qt, q.qr, q.qtheta + π, q.qphi⟩ = .ok T'
    ∧ ∀ lam, T'.t lam = T.t lam ∧ T'.r lam = T.r lam ∧ T'.theta lam = π - T.theta lam
      ∧ T'.phi lam = T.phi lam := by
  obtain ⟨T, m, E, L, Q, r1, r2, r3, r4, hT, hm, hc, hr, hb, -⟩ := orbit_hyps q h ha he1 hx0 hp hne
  exact ⟨T, _, hT, stableTrajectoryNat_of hm hc _, fun lam =>
    reflection_core ha hT (stableTrajectoryNat_of hm hc _) hm hc hr hb rfl lam⟩

omit h ha he1 hx0 hp hne in
/-- **C52 (stationarity and axisymmetry).** The phases of `t` and `φ` only shift `t` and `φ`. -/
theorem C52_shift (T : Traj) (hT : stableTrajectoryNat rs a p e x q = .ok T) (dt dphi : ℝ) :
    ∃ T', stableTrajectoryNat rs a p e x ⟨q.qt + dt, q.qr, q.qtheta, q.qphi + dphi⟩ = .ok T'
      ∧ ∀ lam, T'.t lam = T.t lam + dt ∧ T'.r lam = T.r lam ∧ T'.theta lam = T.theta lam
        ∧ T'.phi lam = T.phi lam + dphi := by
  obtain ⟨m, cs, zz, hm, hcs, rfl, rfl⟩ := stableTrajectoryNat_ok hT
  refine ⟨_, stableTrajectoryNat_of hm hcs _, fun lam => ⟨?_, rfl, rfl, ?_⟩⟩ <;>
    simp only [assembleTrajectory] <;> ring

/-- **C52 (least periods).** For an eccentric orbit the Mino-time periods of `r` are exactly the multiples of
`2π/Υ_r`, and for an inclined orbit those of `θ` are exactly the multiples of `2π/Υ_θ`; circular orbits
have constant `r` and equatorial ones constant `θ`. -/
theorem C52_least_period : ∃ T m, stableTrajectoryNat rs a p e x q = .ok T
    ∧ minoFrequencies rs a p e x = .ok m ∧ 0 < m.upsilonR ∧ 0 < m.upsilonTheta
    ∧ (0 < e → ∀ c, (∀ lam, T.r (lam + c) = T.r lam) ↔ ∃ k : ℤ, c = k * (2 * π / m.upsilonR))
    ∧ (x ^ 2 < 1 → ∀ c, (∀ lam, T.theta (lam + c) = T.theta lam) ↔ ∃ k : ℤ, c = k * (2 * π / m.upsilonTheta))
    ∧ (e = 0 → ∀ lam, T.r lam = p) ∧ (x ^ 2 = 1 → ∀ lam, T.theta lam = π / 2) := by
  obtain ⟨T, m, E, L, Q, r1, r2, r3, r4, hT, hm, hc, hr, hb, -⟩ := orbit_hyps q h ha he1 hx0 hp hne
  have A := C20_radial ha hT hm hc hr hb
  have B := C20_polar ha hT hm hc hr hb
  have P := period_core ha hT hm hc hr hb
  refine ⟨T, m, hT, hm, A.2.2.2.1, B.2.2.2.1, fun he c => ⟨(P c).1 he, ?_⟩, fun hx c => ⟨(P c).2 hx, ?_⟩, ?_, ?_⟩
  · rintro ⟨k, rfl⟩
    exact Function.Periodic.int_mul (f := T.r) A.2.2.2.2.1 k
  · rintro ⟨k, rfl⟩
    exact Function.Periodic.int_mul (f := T.theta) B.2.2.2.2 k
  · intro he lam
    have := A.1 lam
    rw [he, add_zero, sub_zero, div_one] at this
    exact le_antisymm this.2 this.1
  · intro hx lam
    have := B.1 lam
    rw [hx, sub_self, Real.sqrt_zero, Real.arccos_zero] at this
    linarith [this.1, this.2]

end

/-- Non-vacuity: an eccentric inclined retrograde orbit at spin 0.9; its `r` has no period smaller than
`2π/Υ_r`. -/
example (rs : RootScalar) (q : Phases) : ∃ T m, stableTrajectoryNat rs (9 / 10) 13 (1 / 2) (-1 / 2) q = .ok T
    ∧ minoFrequencies rs (9 / 10) 13 (1 / 2) (-1 / 2) = .ok m
    ∧ ¬ ∀ lam, T.r (lam + π / m.upsilonR) = T.r lam := by
  obtain ⟨T, m, hT, hm, hU, -, hper, -⟩ := C52_least_period rs (9 / 10) 13 (1 / 2) (-1 / 2) q
      (C11_accepts_wide rs _ _ _ _ (by norm_num [abs_lt]) (by norm_num) (by norm_num)
        (by norm_num [abs_le]) (by norm_num)) (by norm_num) (by norm_num) (by norm_num)
      (fun h => absurd h (by norm_num)) (Or.inl (by norm_num))
  refine ⟨T, m, hT, hm, fun h => ?_⟩
  obtain ⟨k, hk⟩ := (hper (by norm_num) _).mp h
  have hpi := Real.pi_pos
  have : (1:ℝ) = 2 * k := by
    field_simp at hk
    linarith
  have h2 : (1:ℤ) = 2 * k := by exact_mod_cast this
  omega

end KGP
