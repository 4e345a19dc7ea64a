import Verif.Props.RoundTrip

/-!
# C34 for Schwarzschild: which part of the initial data an `Orbit` with `a = 0` reproduces
-/

namespace KGP

open Classical Real

/-- For `a = 0` the outer two radial roots and the inclination determine the constants of motion. -/
lemma schwarzschild_constants_unique {E L Q r1 r2 r3 p e x : ℝ} (hE0 : 0 < E) (hE1 : E < 1)
    (hR : Spec.RadialRoots 0 E L Q r1 r2 r3 0) (h3 : 0 < r3) (hp : 0 < p) (he : 0 ≤ e) (he1 : e < 1)
    (d1 : p / (1 - e) = r1) (d2 : p / (1 + e) = r2) (hs : Real.sign L = Real.sign x)
    (hx : x ^ 2 * (L ^ 2 + Q) = L ^ 2) :
    r3 = 2 * p / (p - 4) ∧ 4 < p ∧ 0 < p - 3 - e ^ 2
      ∧ E = √(((p - 2) ^ 2 - 4 * e ^ 2) / (p * (p - 3 - e ^ 2)))
      ∧ L = x * p / √(p - 3 - e ^ 2) ∧ Q = (1 - x ^ 2) * p ^ 2 / (p - 3 - e ^ 2) := by
  obtain ⟨v1, v2, v3, -⟩ := RadialRoots.vieta hR
  have b : 0 < 1 - E ^ 2 := by nlinarith
  have e1 : 0 < 1 - e := by linarith
  have e2 : 0 < 1 + e := by linarith
  have hm : 0 < 1 - e ^ 2 := by nlinarith
  -- the third root
  have k : (1 - E ^ 2) * (r1 * r2 * r3) = 2 * ((1 - E ^ 2) * (r1 * r2 + (r1 + r2) * r3)) := by
    linear_combination v3 - 2 * v2
  have k2 : r1 * r2 * r3 = 2 * (r1 * r2 + (r1 + r2) * r3) := by
    have := mul_left_cancel₀ b.ne' (show (1 - E ^ 2) * (r1 * r2 * r3)
      = (1 - E ^ 2) * (2 * (r1 * r2 + (r1 + r2) * r3)) by linear_combination k)
    exact this
  have k3 : r3 * (p - 4) = 2 * p := by
    rw [← d1, ← d2] at k2
    field_simp at k2
    linear_combination k2
  have hp4 : 4 < p := by
    by_contra hcon
    have : r3 * (p - 4) ≤ 0 := mul_nonpos_of_nonneg_of_nonpos h3.le (by linarith [not_lt.mp hcon])
    linarith
  have hp4' : p - 4 ≠ 0 := by linarith
  have hr3 : r3 = 2 * p / (p - 4) := by rw [eq_div_iff hp4']; exact k3
  have hpos : 0 < p - 3 - e ^ 2 := by nlinarith
  have hb : 1 - E ^ 2 = (1 - e ^ 2) * (p - 4) / (p * (p - 3 - e ^ 2)) := by
    rw [← d1, ← d2, hr3] at v1
    have h1 : p / (1 - e) + p / (1 + e) + 2 * p / (p - 4) + 0
        = 2 * p * (p - 3 - e ^ 2) / ((1 - e ^ 2) * (p - 4)) := by
      rw [show 1 - e ^ 2 = (1 - e) * (1 + e) by ring]
      field_simp
      ring
    rw [h1] at v1
    rw [eq_div_iff (by positivity)]
    field_simp at v1
    linarith
  have hE2 : E ^ 2 = ((p - 2) ^ 2 - 4 * e ^ 2) / (p * (p - 3 - e ^ 2)) := by
    have : E ^ 2 = 1 - (1 - e ^ 2) * (p - 4) / (p * (p - 3 - e ^ 2)) := by linarith
    rw [this, eq_div_iff (by positivity), sub_mul, div_mul_cancel₀ _ (by positivity)]
    ring
  have hK : L ^ 2 + Q = p ^ 2 / (p - 3 - e ^ 2) := by
    have h1 : 2 * (L ^ 2 + Q) = (1 - E ^ 2) * (r1 * r2 * r3) := by linear_combination -v3
    rw [hb, ← d1, ← d2, hr3] at h1
    have h2 : (1 - e ^ 2) * (p - 4) / (p * (p - 3 - e ^ 2)) * (p / (1 - e) * (p / (1 + e)) * (2 * p / (p - 4)))
        = 2 * (p ^ 2 / (p - 3 - e ^ 2)) := by
      rw [show 1 - e ^ 2 = (1 - e) * (1 + e) by ring]
      field_simp
    linarith
  refine ⟨hr3, hp4, hpos, ?_, ?_, ?_⟩
  · rw [← hE2, Real.sqrt_sq hE0.le]
  · have hL2 : L ^ 2 = (x * p / √(p - 3 - e ^ 2)) ^ 2 := by
      rw [div_pow, Real.sq_sqrt hpos.le, ← hx, hK]; ring
    have hq : 0 < √(p - 3 - e ^ 2) := Real.sqrt_pos.mpr hpos
    have hsx : Real.sign (x * p / √(p - 3 - e ^ 2)) = Real.sign x := by
      rcases lt_trichotomy x 0 with h | h | h
      · rw [Real.sign_of_neg h, Real.sign_of_neg]
        exact div_neg_of_neg_of_pos (mul_neg_of_neg_of_pos h hp) hq
      · rw [h]; simp
      · rw [Real.sign_of_pos h, Real.sign_of_pos (by positivity)]
    rcases sq_eq_sq_iff_eq_or_eq_neg.mp hL2 with h | h
    · exact h
    · rw [h, Real.sign_neg, hsx] at hs
      have hx0 : x = 0 := by
        rcases lt_trichotomy x 0 with h' | h' | h'
        · rw [Real.sign_of_neg h'] at hs; norm_num at hs
        · exact h'
        · rw [Real.sign_of_pos h'] at hs; norm_num at hs
      rw [h, hx0]; simp
  · have : Q = (1 - x ^ 2) * (L ^ 2 + Q) := by linear_combination hx
    rw [this, hK]; ring

section
variable (rs : RootScalar) {E L Q r1 r2 r3 : ℝ} {pos vel : Vec4} (M mu : Option ℝ)
  (hc : constantsFromInitialConditions 0 pos vel = .ok (E, L, Q))
  (hnorm : norm4 0 pos.t pos.r pos.theta pos.phi vel = -1) (h0 : 0 < pos.theta) (hpi : pos.theta < π)
  (hE0 : 0 < E) (hE1 : E < 1) (hL : L ≠ 0)
  (hR : Spec.RadialRoots 0 E L Q r1 r2 r3 0) (h3 : 0 < r3) (h32 : r3 < r2) (h21 : r2 ≤ r1) (hout : 2 < r2)
  (hr2 : r2 ≤ pos.r) (hr1 : pos.r ≤ r1)
include hc hnorm h0 hpi hE0 hE1 hL hR h3 h32 h21 hout hr2 hr1

/-- **C34 (Schwarzschild).** Every normalised initial velocity of a bound Schwarzschild geodesic with `L ≠ 0` is
accepted by `Orbit` and classified as stable.  The orbit reproduces `r` (and the constants of motion)
as in the rotating case, and also `t`, `θ` and `φ` if the initial polar angle is within the tolerance of a turning
point (in particular for equatorial motion).  Otherwise the polar phase, and with it `t`, `θ` and `φ`, is computed
from the square root of `-4`: it is not a number. -/
theorem C34_schwarzschild : ∃ o p e x T, mkOrbit rs 0 pos vel M mu = .ok o ∧ o.stable = true
    ∧ o.consts = (E, L, Q) ∧ o.apex = (p, e, x) ∧ p / (1 - e) = r1 ∧ p / (1 + e) = r2
    ∧ Real.sign x = Real.sign L ∧ x ^ 2 * (L ^ 2 + Q) = L ^ 2
    ∧ constantsOfMotion rs 0 p e x = .ok (E, L, Q)
    ∧ o.trajectoryNat rs = .ok T
    ∧ |T.r 0 - pos.r| < 1e-4
    ∧ (Spec.ClearOf 1e-4 pos.r r1 → Spec.ClearOf 1e-4 pos.r r2 → T.r 0 = pos.r)
    ∧ (|pos.theta - arccos (√(1 - x ^ 2))| < 1e-4 ∨ |pos.theta - (π - arccos (√(1 - x ^ 2)))| < 1e-4 →
        T.t 0 = pos.t ∧ |T.theta 0 - pos.theta| < 1e-4 ∧ T.phi 0 = pos.phi)
    ∧ (1e-4 ≤ |pos.theta - arccos (√(1 - x ^ 2))| → 1e-4 ≤ |pos.theta - (π - arccos (√(1 - x ^ 2)))| →
        ∃ lam, o.phases.qtheta = if vel.theta < 0 then lam * (0 / npSqrt (-4)) + 3 * π / 2
          else π / 2 - lam * (0 / npSqrt (-4))) := by
  have hE2 : E ^ 2 < 1 := by nlinarith
  have hth : sin pos.theta ≠ 0 := (Real.sin_pos_of_pos_of_lt_pi h0 hpi).ne'
  have hrp : 0 < pos.r := by linarith
  have hD : Spec.Delta 0 pos.r ≠ 0 := by
    have : 0 < pos.r * (pos.r - 2) := mul_pos hrp (by linarith)
    unfold Spec.Delta
    intro h; linarith
  have hS : Spec.Sigma 0 pos.r pos.theta ≠ 0 := by unfold Spec.Sigma; positivity
  obtain ⟨hQ, -⟩ := carter_nonneg hE2 hS hD hth hc
  have hL2 : 0 < L ^ 2 := by positivity
  have hK : 0 < L ^ 2 + Q := by linarith
  -- the inclination
  obtain ⟨z, hz⟩ : ∃ z, z = Q / (L ^ 2 + Q) := ⟨_, rfl⟩
  have hz0 : 0 ≤ z := by rw [hz]; positivity
  have hz1 : z < 1 := by rw [hz, div_lt_one hK]; linarith
  have hzK : z * (L ^ 2 + Q) = Q := by rw [hz, div_mul_cancel₀ _ hK.ne']
  have hpol : polarRootsNumpy 0 E L Q = .ok (z, z) := by
    have := npRoots_polar_linear (a := 0) (E := E) (L := L) (Q := Q) (lead := -(L ^ 2 + Q)) (s0 := z)
      (by linarith) (fun w => by unfold Spec.Zpol; linear_combination -hzK)
    rw [polarRootsNumpy, this]
    simp
  have hrad : radialRootsNumpy 0 E L Q = .ok (0, r3, r2, r1) := by
    have := npRoots_radial_real (a := 0) (E := E) (L := L) (Q := Q) (lead := -(1 - E ^ 2))
      (s0 := 0) (s1 := r3) (s2 := r2) (s3 := r1) (by linarith)
      (fun r => by rw [hR]; ring) h3.le h32.le h21
    rw [radialRootsNumpy, this]
    simp
  obtain ⟨p, hp⟩ : ∃ p, p = 2 * r1 * r2 / (r1 + r2) := ⟨_, rfl⟩
  obtain ⟨e, he⟩ : ∃ e, e = (r1 - r2) / (r1 + r2) := ⟨_, rfl⟩
  obtain ⟨x, hx⟩ : ∃ x, x = Real.sign L * √(1 - z) := ⟨_, rfl⟩
  have r1p : 0 < r1 := by linarith
  have r2p : 0 < r2 := by linarith
  have d1 : p / (1 - e) = r1 := by
    rw [hp, he, show 1 - (r1 - r2) / (r1 + r2) = 2 * r2 / (r1 + r2) by field_simp; ring]; field_simp
  have d2 : p / (1 + e) = r2 := by
    rw [hp, he, show 1 + (r1 - r2) / (r1 + r2) = 2 * r1 / (r1 + r2) by field_simp; ring]; field_simp
  have hp0 : 0 < p := by rw [hp]; positivity
  have he0 : 0 ≤ e := by rw [he]; exact div_nonneg (by linarith) (by linarith)
  have he1 : e < 1 := by rw [he, div_lt_one (by linarith)]; linarith
  have hsq : √(1 - z) ^ 2 = 1 - z := Real.sq_sqrt (by linarith)
  have hsp : 0 < √(1 - z) := Real.sqrt_pos.mpr (by linarith)
  have hsg : Real.sign L = 1 ∨ Real.sign L = -1 := by
    rcases lt_or_gt_of_ne hL with h | h
    · right; exact Real.sign_of_neg h
    · left; exact Real.sign_of_pos h
  have hxx : x ^ 2 = 1 - z := by
    rw [hx, mul_pow, hsq]; rcases hsg with h | h <;> rw [h] <;> ring
  have hsx : Real.sign x = Real.sign L := by
    rw [hx]; rcases hsg with h | h
    · rw [h, one_mul, Real.sign_of_pos hsp]
    · rw [h, Real.sign_of_neg (by linarith)]
  have hx0 : x ≠ 0 := by
    intro h; rw [h] at hxx; linarith
  have hxle : |x| ≤ 1 := by
    rw [← sq_le_one_iff_abs_le_one]; linarith
  have hxK : x ^ 2 * (L ^ 2 + Q) = L ^ 2 := by rw [hxx]; linear_combination -hzK
  have hap : apexFromConstants 0 E L Q = .ok (0, p, e, x) := by
    simp only [apexFromConstants, hrad, hpol, bind_ok]
    rw [hp, he, hx]; rfl
  have hZ : Spec.Zpol 0 E L Q (1 - x ^ 2) = 0 := by
    unfold Spec.Zpol; rw [hxx]; linear_combination -hzK
  have hB : Spec.BoundOrbit rs 0 p e x := by
    refine bound_of_stable rs le_rfl one_pos he0 he1 hxle ?_
    refine ⟨?_, E, L, Q, r3, 0, hE0, hE1, hsx.symm, hQ, hZ, ?_, h3.le, by rw [d2]; exact h32⟩
    · rw [d2]
      have : √(1 - (0:ℝ) ^ 2) = 1 := by norm_num
      rw [this]; linarith
    · rw [d1, d2]; exact hR
  have hcm : constantsOfMotion rs 0 p e x = .ok (E, L, Q) := by
    obtain ⟨-, -, -, u1, u2, u3⟩ := schwarzschild_constants_unique hE0 hE1 hR h3 hp0 he0 he1 d1 d2 hsx.symm hxK
    rw [C07_constants rs p e x hB, ← u1, ← u2, ← u3]
  -- the geodesic
  obtain ⟨E', L', Q', s1, s2, s3, s4, hc', hr', hb'⟩ := schwarzschild_boundGeodesic rs p e x hB he1.ne hx0
  obtain ⟨rfl, rfl, rfl⟩ : E' = E ∧ L' = L ∧ Q' = Q := by
    have := Except.ok.inj (hc'.symm.trans hcm); simpa using this
  have hcore := stableRadialRootsCore_eq hR (by linarith : 0 < 1 - E' ^ 2) h3.le h3 r1p r2p d1 d2
  obtain ⟨rfl, rfl, rfl, rfl⟩ : s1 = r1 ∧ s2 = r2 ∧ s3 = r3 ∧ s4 = 0 := by
    unfold stableRadialRoots at hr'
    simp only [constantsOr, hcm, bind_ok, hcore] at hr'
    have := Except.ok.inj hr'
    simp only [Prod.mk.injEq] at this
    exact ⟨this.1.symm, this.2.1.symm, this.2.2.1.symm, this.2.2.2.symm⟩
  -- the constructor
  have hg : orbitNormGuard 0 pos vel = .ok () := by
    unfold orbitNormGuard raiseIf
    rw [hnorm]
    norm_num [bind, Except.bind]
  obtain ⟨c1, -⟩ := C36_four_real 0 E' L' Q' 1e-4 s1 s2 s3 0 pos vel hE2.ne hR h3.le h32.le h21
  have hcl := c1 ⟨by
      have : √(1 - (0:ℝ) ^ 2) = 1 := by norm_num
      rw [this]; linarith, by norm_num; exact ⟨by linarith, by linarith⟩⟩
  have hcl' : icIsStable 0 pos vel = .ok true := by
    unfold icIsStable at hcl ⊢
    simp only [icConstantsOr, hc, bind_ok, pure, Except.pure] at hcl ⊢
    exact hcl
  obtain ⟨-, -, -, -, k5, k6⟩ := C12_frequency_contract rs 0 p e x none none none
  obtain ⟨m, hm⟩ := k5.1.mpr ⟨hB, hx0, he1.ne⟩
  obtain ⟨om, hom⟩ := k6.1.mpr ⟨hB, hx0, he1.ne⟩
  obtain ⟨q, hq⟩ : ∃ q, stableOrbitInitialPhases 0 pos vel = .ok q := by
    unfold stableOrbitInitialPhases
    simp only [icConstantsOr, hc, hrad, hpol, bind_ok, pure, Except.pure]
    exact ⟨_, rfl⟩
  obtain ⟨o, ho, hst, hocs, hoap, hoa, hoq⟩ : ∃ o, mkOrbit rs 0 pos vel M mu = .ok o ∧ o.stable = true
      ∧ o.consts = (E', L', Q') ∧ o.apex = (p, e, x) ∧ o.a = 0 ∧ o.phases = q := by
    unfold mkOrbit
    simp only [hg, hc, hcl', hap, hm, hom, hq, bind_ok, if_true]
    exact ⟨_, rfl, rfl, rfl, rfl, rfl, rfl⟩
  have hTn := stableTrajectoryNat_of hm hcm q
  obtain ⟨T, hT⟩ : ∃ T, stableTrajectoryNat rs 0 p e x q = .ok T := ⟨_, hTn⟩
  have hoT : o.trajectoryNat rs = .ok T := by
    unfold OrbitObj.trajectoryNat
    simp only [Option.getD_none, hoap, hocs, hst, if_true, hoa, hoq, hT]
  obtain ⟨m', zm, zp, D⟩ := stableData_of le_rfl hT hcm hr'
  have hph := stablePhases_eq hc hpol hrad hq
  have HP := D.polar hb'.energy hb'.nonpolar
  obtain ⟨s1', s2'⟩ := r_start (a := 0) (cs := (E', L', Q')) (L := L') (Q := Q') (dr0 := vel.r)
    (BoundGeodesic.config hb') (by linarith)
    (show (0:ℝ) < 1e-4 by norm_num) (rFrequencyCore_reverse E' s1 s2 s3 0) hr2 hr1
  have hr : T.r 0 = (radialSolutions 0 (E', L', Q') (s1, s2, s3, 0)).pos q.qr := by
    rw [D.hT]; simp only [assembleTrajectory, mul_zero, zero_add]
  have hthT : T.theta 0 = (polarSolutionsCore 0 (E', L', Q') zm zp).pos q.qtheta := by
    rw [D.hT]; simp only [assembleTrajectory, mul_zero, zero_add]
  rw [polar_pos_eq HP] at hthT
  have hzz : √(1 - x ^ 2) = √z := by rw [hxx]; congr 1; ring
  have hzm : √zm = √z := by rw [D.zm_eq, hzz]
  refine ⟨o, p, e, x, T, ho, hst, hocs, hoap, d1, d2, hsx, hxK, hcm, hoT, ?_, ?_, ?_, ?_⟩
  · rw [hr, hph]; exact s1'
  · intro c1 c2; rw [hr, hph]; exact (s2' c1 c2).1
  · rw [hzm] at hthT
    rw [hzz]
    intro hnear
    refine ⟨by rw [D.hT]; simp only [assembleTrajectory, mul_zero, zero_add, hph]; ring, ?_,
      by rw [D.hT]; simp only [assembleTrajectory, mul_zero, zero_add, hph]; ring⟩
    have hqt : q.qtheta = initialPhaseTheta 0 (E', L', Q') (0, s3, s2, s1) (z, z) pos.theta vel.theta 1e-4 none := by
      rw [hph]
    by_cases n1 : |pos.theta - arccos (√z)| < 1e-4
    · have hq0 : q.qtheta = 0 := by rw [hqt]; exact initialPhaseTheta_near.1 n1
      rw [hthT, hq0, amT_zero HP.mT_lt, Real.sin_pi_div_two, mul_one, abs_sub_comm]
      exact n1
    · have n2 := hnear.resolve_left n1
      have hq0 : q.qtheta = π := by rw [hqt]; exact initialPhaseTheta_near.2 (not_lt.mp n1) n2
      rw [hthT, hq0, amT_pi HP.mT_lt, show 3 * π / 2 = π / 2 + π by ring, Real.sin_add_pi,
        Real.sin_pi_div_two, mul_neg_one, Real.arccos_neg, abs_sub_comm]
      exact n2
  · intro n1 n2
    rw [hzz] at n1 n2
    refine C34_schwarzschild_violation ho hocs hE2 hR h3 h32.le h21 hpol n1 n2

end

end KGP
