import Verif.Lemmas.InitialPhase
import Verif.Props.Geodesic
import Verif.Props.Objects
import Verif.Props.Roots
import Verif.Props.Deltas

/-!
# C34, C35: an `Orbit` reproduces its initial position and velocity
-/

namespace KGP

open Classical Real

namespace Spec

/-- A coordinate is either exactly at a turning point or at least `tol` away from it. -/
def ClearOf (tol y turn : ℝ) : Prop := y = turn ∨ tol ≤ |y - turn|

end Spec

/-! ### the two coordinates at Mino time zero -/

lemma r_start {a E L Q r1 r2 r3 r4 r0 dr0 tol : ℝ} {passed : Roots4} {cs : Consts}
    (H : RootsConfig r1 r2 r3 r4) (hE : 0 < 1 - E ^ 2) (htol : 0 < tol)
    (hU : rFrequencyCore E passed = rFrequencyCore E (r1, r2, r3, r4))
    (h2 : r2 ≤ r0) (h1 : r0 ≤ r1) :
    let q := initialPhaseR (E, L, Q) passed (r1, r2, r3, r4) r0 dr0 tol none
    let r := (radialSolutions a cs (r1, r2, r3, r4)).pos q
    |r - r0| < tol
    ∧ (Spec.ClearOf tol r0 r1 → Spec.ClearOf tol r0 r2 → r = r0
      ∧ (r0 = r1 ∨ r0 = r2 ∨ (0 < dr0 → 0 < sin q) ∧ (dr0 ≤ 0 → sin q < 0))) := by
  intro q r
  have hm := H.mR_lt
  have hr : r = rOf r1 r2 r3 (sin (amR (mR r1 r2 r3 r4) q) ^ 2) := radial_pos_eq H q
  by_cases n2 : |r0 - r2| < tol
  · have hq : q = 0 := initialPhaseR_near.1 n2
    have hr2 : r = r2 := by
      rw [hr, hq, amR_zero hm, Real.sin_zero, show (0:ℝ) ^ 2 = 0 by norm_num, rOf_zero H.ne13]
    refine ⟨by rw [hr2, abs_sub_comm]; exact n2, fun _ c2 => ?_⟩
    rcases c2 with c2 | c2
    · exact ⟨by rw [hr2, c2], .inr (.inl c2)⟩
    · exact absurd n2 (not_lt.mpr c2)
  · push Not at n2
    by_cases n1 : |r0 - r1| < tol
    · have hq : q = π := initialPhaseR_near.2 n2 n1
      have hr1 : r = r1 := by
        rw [hr, hq, amR_pi hm, Real.sin_pi_div_two, show (1:ℝ) ^ 2 = 1 by norm_num, rOf_one H.ne23]
      refine ⟨by rw [hr1, abs_sub_comm]; exact n1, fun c1 _ => ?_⟩
      rcases c1 with c1 | c1
      · exact ⟨by rw [hr1, c1], .inl c1⟩
      · exact absurd n1 (not_lt.mpr c1)
    · push Not at n1
      have g2 : r2 < r0 := lt_of_le_of_ne h2 (by
        rintro rfl; rw [sub_self, abs_zero] at n2; linarith)
      have g1 : r0 < r1 := lt_of_le_of_ne h1 (by
        rintro rfl; rw [sub_self, abs_zero] at n1; linarith)
      obtain ⟨e1, e2, e3⟩ := initialPhaseR_inverts (L := L) (Q := Q) (dr0 := dr0) H hE hU g2 g1 n2 n1
      have : r = r0 := by rw [hr]; exact e1
      exact ⟨by rw [this, sub_self, abs_zero]; exact htol, fun _ _ => ⟨this, .inr (.inr ⟨e2, e3⟩)⟩⟩

lemma theta_start {a E L Q zm zp θ0 dθ0 tol : ℝ} {passed : Roots4}
    (H : PolarConfig a E L Q zm zp) (ha : a ≠ 0) (htol : 0 < tol) (h0 : 0 < θ0) (hpi : θ0 < π)
    (hc : cos θ0 ^ 2 ≤ zm) :
    let q := initialPhaseTheta a (E, L, Q) passed (zm, zp) θ0 dθ0 tol none
    let θ := (polarSolutionsCore a (E, L, Q) zm zp).pos q
    |θ - θ0| < tol
    ∧ (Spec.ClearOf tol θ0 (arccos (√zm)) → Spec.ClearOf tol θ0 (π - arccos (√zm)) → θ = θ0
      ∧ (θ0 = arccos (√zm) ∨ θ0 = π - arccos (√zm)
        ∨ (dθ0 < 0 → sin q < 0) ∧ (0 ≤ dθ0 → 0 < sin q))) := by
  intro q θ
  have hm := H.mT_lt
  have hth : θ = arccos (√zm * sin (amT (mT a zm zp) q)) := polar_pos_eq H q
  by_cases n1 : |θ0 - arccos (√zm)| < tol
  · have hq : q = 0 := initialPhaseTheta_near.1 n1
    have hr2 : θ = arccos (√zm) := by rw [hth, hq, amT_zero hm, Real.sin_pi_div_two, mul_one]
    refine ⟨by rw [hr2, abs_sub_comm]; exact n1, fun c1 _ => ?_⟩
    rcases c1 with c1 | c1
    · exact ⟨by rw [hr2, c1], .inl c1⟩
    · exact absurd n1 (not_lt.mpr c1)
  · push Not at n1
    by_cases n2 : |θ0 - (π - arccos (√zm))| < tol
    · have hq : q = π := initialPhaseTheta_near.2 n1 n2
      have hr1 : θ = π - arccos (√zm) := by
        rw [hth, hq, amT_pi hm, show 3 * π / 2 = π / 2 + π by ring, Real.sin_add_pi,
          Real.sin_pi_div_two, mul_neg, mul_one, Real.arccos_neg]
      refine ⟨by rw [hr1, abs_sub_comm]; exact n2, fun _ c1 => ?_⟩
      rcases c1 with c1 | c1
      · exact ⟨by rw [hr1, c1], .inr (.inl c1)⟩
      · exact absurd n2 (not_lt.mpr c1)
    · push Not at n2
      have hlt : cos θ0 ^ 2 < zm := by
        refine lt_of_le_of_ne hc fun h => ?_
        have hs : √zm = |cos θ0| := by rw [← h, Real.sqrt_sq_eq_abs]
        rcases abs_choice (cos θ0) with h' | h'
        · rw [hs, h', Real.arccos_cos h0.le hpi.le, sub_self, abs_zero] at n1
          linarith
        · rw [hs, h', Real.arccos_neg, Real.arccos_cos h0.le hpi.le, sub_sub_cancel, sub_self,
            abs_zero] at n2
          linarith
      obtain ⟨e1, e2, e3⟩ := initialPhaseTheta_inverts (passed := passed) (dθ0 := dθ0) H ha hlt n1 n2
      have : θ = θ0 := by rw [hth, e1, Real.arccos_cos h0.le hpi.le]
      exact ⟨by rw [this, sub_self, abs_zero]; exact htol, fun _ _ => ⟨this, .inr (.inr ⟨e2, e3⟩)⟩⟩

/-! ### the roots found by numpy -/

/-- For `a ≠ 0`, `E² < 1`, `L ≠ 0` numpy finds two real polar roots, separated by `1`. -/
lemma polarRootsNumpy_real {a E L Q : ℝ} (ha : a ≠ 0) (hE : 0 < 1 - E ^ 2) (hL : L ≠ 0) :
    ∃ zm zp, polarRootsNumpy a E L Q = .ok (zm, zp) ∧ zm < 1 ∧ 1 < zp
      ∧ ∀ z, Spec.Zpol a E L Q z = a ^ 2 * (1 - E ^ 2) * ((z - zm) * (z - zp)) := by
  have hA : 0 < a ^ 2 * (1 - E ^ 2) := by positivity
  obtain ⟨A, hAd⟩ : ∃ A, A = a ^ 2 * (1 - E ^ 2) := ⟨_, rfl⟩
  obtain ⟨B, hB⟩ : ∃ B, B = Q + A + L ^ 2 := ⟨_, rfl⟩
  rw [← hAd] at hA
  have hL2 : 0 < L ^ 2 := by positivity
  have hdisc : B ^ 2 - 4 * A * Q = (B - 2 * A) ^ 2 + 4 * A * L ^ 2 := by rw [hB]; ring
  have hd0 : 0 ≤ B ^ 2 - 4 * A * Q := by rw [hdisc]; positivity
  obtain ⟨s, hs⟩ : ∃ s, s = √(B ^ 2 - 4 * A * Q) := ⟨_, rfl⟩
  have hs2 : s ^ 2 = B ^ 2 - 4 * A * Q := by rw [hs]; exact Real.sq_sqrt hd0
  have hs0 : 0 ≤ s := by rw [hs]; exact Real.sqrt_nonneg _
  have hgt : |B - 2 * A| < s := by
    apply abs_lt_of_sq_lt_sq _ hs0
    rw [hs2, hdisc]
    have : 0 < 4 * A * L ^ 2 := by positivity
    linarith
  obtain ⟨g1, g2⟩ := abs_lt.mp hgt
  have hfac : ∀ z, Spec.Zpol a E L Q z = A * ((z - (B - s) / (2 * A)) * (z - (B + s) / (2 * A))) := by
    intro z
    have e1 : A * ((z - (B - s) / (2 * A)) * (z - (B + s) / (2 * A)))
        = A * z ^ 2 - B * z + (B ^ 2 - s ^ 2) / (4 * A) := by field_simp; ring
    have e2 : (B ^ 2 - s ^ 2) / (4 * A) = Q := by rw [hs2]; field_simp; ring
    rw [e1, e2, Spec.Zpol, hB, hAd]; ring
  have h1 : (B - s) / (2 * A) < 1 := by rw [div_lt_one (by positivity)]; linarith
  have h2 : 1 < (B + s) / (2 * A) := by rw [lt_div_iff₀ (by positivity)]; linarith
  refine ⟨(B - s) / (2 * A), (B + s) / (2 * A), ?_, h1, h2, ?_⟩
  · have := npRoots_polar_real hA.ne' hfac (by linarith)
    rw [polarRootsNumpy, this]
    simp [ha, -Complex.ofReal_div]
  · rw [← hAd]; exact hfac

lemma polarConfig_of {a E L Q zm zp : ℝ} (hE : 0 < 1 - E ^ 2) (hL : L ≠ 0)
    (h0 : 0 ≤ zm) (h1 : zm < 1)
    (hf : ∀ z, Spec.Zpol a E L Q z = a ^ 2 * (1 - E ^ 2) * ((z - zm) * (z - zp))) :
    PolarConfig a E L Q zm zp := by
  refine ⟨h0, h1, hL, hE, by rw [hf, sub_self]; ring, fun _ => ?_⟩
  have k := hf 1
  rw [show Spec.Zpol a E L Q 1 = -L ^ 2 by rw [Spec.Zpol]; ring] at k
  have hz : 1 - zm ≠ 0 := by linarith
  have hE' := hE.ne'
  have : L ^ 2 = a ^ 2 * (1 - E ^ 2) * (1 - zm) * (zp - 1) := by linear_combination -k
  rw [this]; field_simp; ring

/-- `stable_radial_roots` recovers the four roots from the two turning points. -/
lemma stableRadialRootsCore_eq {a p e E L Q r1 r2 r3 r4 : ℝ}
    (hR : Spec.RadialRoots a E L Q r1 r2 r3 r4) (hE : 0 < 1 - E ^ 2) (h43 : r4 ≤ r3) (h3 : 0 < r3)
    (hr1 : 0 < r1) (hr2 : 0 < r2) (e1 : p / (1 - e) = r1) (e2 : p / (1 + e) = r2) :
    stableRadialRootsCore a p e (E, L, Q) = (r1, r2, r3, r4) := by
  obtain ⟨v1, -, -, v4⟩ := RadialRoots.vieta hR
  have hS : 2 / (1 - E ^ 2) - r1 - r2 = r3 + r4 := by
    rw [← v1, mul_div_cancel_left₀ _ hE.ne']; ring
  have hP : a ^ 2 * Q / (r1 * r2 * (1 - E ^ 2)) = r3 * r4 := by
    rw [← v4]; field_simp
  have hq : √((r3 + r4) ^ 2 - 4 * (r3 * r4)) = r3 - r4 := by
    rw [show (r3 + r4) ^ 2 - 4 * (r3 * r4) = (r3 - r4) ^ 2 by ring]
    exact Real.sqrt_sq (by linarith)
  have e3 : (r3 + r4 + (r3 - r4)) / 2 = r3 := by ring
  simp only [stableRadialRootsCore, e1, e2, hS, hP, hq, e3, mul_div_cancel_left₀ _ h3.ne']

/-! ### unfolding `Orbit.__init__` -/

lemma mkOrbit_stable {rs : RootScalar} {a : ℝ} {pos vel : Vec4} {M mu : Option ℝ} {o : OrbitObj}
    (ho : mkOrbit rs a pos vel M mu = .ok o) (hs : o.stable = true) :
    ∃ E L Q p e x m, constantsFromInitialConditions a pos vel = .ok (E, L, Q)
      ∧ apexFromConstants a E L Q = .ok (a, p, e, x)
      ∧ minoFrequencies rs a p e x = .ok m
      ∧ stableOrbitInitialPhases a pos vel = .ok o.phases
      ∧ o.a = a ∧ o.apex = (p, e, x) ∧ o.consts = (E, L, Q)
      ∧ o.upsilonR = m.upsilonR ∧ o.upsilonTheta = m.upsilonTheta := by
  unfold mkOrbit at ho
  obtain ⟨-, -, ho⟩ := bind_eq_ok.mp ho
  obtain ⟨⟨E, L, Q⟩, hc, ho⟩ := bind_eq_ok.mp ho
  obtain ⟨st, -, ho⟩ := bind_eq_ok.mp ho
  simp only [] at ho
  split_ifs at ho with h
  · obtain ⟨⟨a', p, e, x⟩, hap, ho2⟩ := bind_eq_ok.mp ho
    obtain ⟨m, hm, ho3⟩ := bind_eq_ok.mp ho2
    obtain ⟨om, -, ho4⟩ := bind_eq_ok.mp ho3
    obtain ⟨q, hq, hfin⟩ := bind_eq_ok.mp ho4
    have ha' : a' = a := by
      unfold apexFromConstants at hap
      obtain ⟨_, -, hap⟩ := bind_eq_ok.mp hap
      obtain ⟨_, -, hap⟩ := bind_eq_ok.mp hap
      have := Except.ok.inj hap
      simp only [Prod.mk.injEq] at this
      exact this.1.symm
    subst ha'
    cases Except.ok.inj hfin
    exact ⟨E, L, Q, p, e, x, m, hc, hap, hm, hq, rfl, rfl, rfl, rfl, rfl⟩
  · obtain ⟨-, -, ho⟩ := bind_eq_ok.mp ho
    obtain ⟨⟨uR, uT⟩, -, ho⟩ := bind_eq_ok.mp ho
    obtain ⟨q, -, ho⟩ := bind_eq_ok.mp ho
    cases Except.ok.inj ho
    exact absurd hs (by simp)

/-- What the initial phases are, given the roots. -/
lemma stablePhases_eq {a E L Q r1 r2 r3 r4 zm zp tol : ℝ} {pos vel : Vec4} {q : Phases}
    (hc : constantsFromInitialConditions a pos vel = .ok (E, L, Q))
    (hz : polarRootsNumpy a E L Q = .ok (zm, zp))
    (hr : radialRootsNumpy a E L Q = .ok (r4, r3, r2, r1))
    (hq : stableOrbitInitialPhases a pos vel (tol := tol) = .ok q) :
    q = { qt := pos.t
          qr := initialPhaseR (E, L, Q) (r4, r3, r2, r1) (r1, r2, r3, r4) pos.r vel.r tol none
          qtheta := initialPhaseTheta a (E, L, Q) (r4, r3, r2, r1) (zm, zp) pos.theta vel.theta tol none
          qphi := pos.phi } := by
  unfold stableOrbitInitialPhases at hq
  simp only [icConstantsOr, hc, hz, hr, bind_ok] at hq
  exact (Except.ok.inj hq).symm

/-- The polar motion range contains the initial polar angle. -/
lemma theta_in_range {a E L Q zm zp : ℝ} {pos vel : Vec4} (ha : a ≠ 0) (hE : 0 < 1 - E ^ 2)
    (hS : Spec.Sigma a pos.r pos.theta ≠ 0) (hD : Spec.Delta a pos.r ≠ 0)
    (hs : sin pos.theta ≠ 0)
    (hc : constantsFromInitialConditions a pos vel = .ok (E, L, Q)) (hzp : 1 < zp)
    (hf : ∀ z, Spec.Zpol a E L Q z = a ^ 2 * (1 - E ^ 2) * ((z - zm) * (z - zp))) :
    cos pos.theta ^ 2 ≤ zm := by
  obtain ⟨h, -⟩ := C02_radial_equation a pos vel hS hD hs E L Q hc
  have hcs := Real.sin_sq_add_cos_sq pos.theta
  have hZ : Spec.Zpol a E L Q (cos pos.theta ^ 2) = sin pos.theta ^ 2 * Spec.Theta a E L Q pos.theta := by
    unfold Spec.Theta Spec.Zpol
    have h2 : cos pos.theta ^ 2 = 1 - sin pos.theta ^ 2 := by linarith
    rw [h2]; field_simp; ring
  have h0 : 0 ≤ Spec.Zpol a E L Q (cos pos.theta ^ 2) := by
    rw [hZ, ← h]; positivity
  rw [hf] at h0
  by_contra hn
  push Not at hn
  have hA : 0 < a ^ 2 * (1 - E ^ 2) := by positivity
  have hs2 : 0 < sin pos.theta ^ 2 := by positivity
  have : (cos pos.theta ^ 2 - zm) * (cos pos.theta ^ 2 - zp) < 0 :=
    mul_neg_of_pos_of_neg (by linarith) (by linarith)
  nlinarith [mul_pos hA (neg_pos.mpr this)]

/-- All the data behind a stable `Orbit` built from initial conditions. -/
lemma orbit_data {rs : RootScalar} {a : ℝ} {pos vel : Vec4} {M mu : Option ℝ} {o : OrbitObj}
    {p e x E L Q r1 r2 r3 r4 : ℝ} (ha : 0 < a) (ho : mkOrbit rs a pos vel M mu = .ok o)
    (hst : o.stable = true) (hcs : o.consts = (E, L, Q)) (hap : o.apex = (p, e, x))
    (hb : Spec.BoundGeodesic a E L Q r1 r2 r3 r4)
    (hrt : constantsOfMotion rs a p e x = .ok (E, L, Q))
    (hr2 : r2 ≤ pos.r) (h0 : 0 < pos.theta) (hpi : pos.theta < π) :
    ∃ T m zm zp, o.trajectoryNat rs = .ok T
      ∧ StableData rs a p e x o.phases T m E L Q r1 r2 r3 r4 zm zp
      ∧ o.a = a ∧ o.upsilonR = m.upsilonR ∧ o.upsilonTheta = m.upsilonTheta
      ∧ PolarConfig a E L Q zm zp
      ∧ cos pos.theta ^ 2 ≤ zm
      ∧ constantsFromInitialConditions a pos vel = .ok (E, L, Q)
      ∧ (a < 1 ∧ 0 < Spec.Sigma a pos.r pos.theta ∧ 0 < Spec.Delta a pos.r)
      ∧ o.phases = { qt := pos.t
                     qr := initialPhaseR (E, L, Q) (r4, r3, r2, r1) (r1, r2, r3, r4) pos.r vel.r 1e-4 none
                     qtheta := initialPhaseTheta a (E, L, Q) (r4, r3, r2, r1) (zm, zp) pos.theta
                        vel.theta 1e-4 none
                     qphi := pos.phi } := by
  obtain ⟨E', L', Q', p', e', x', m, hc, hapx, hm, hq, hoa, hoap, hocs, hou, hout⟩ :=
    mkOrbit_stable ho hst
  obtain ⟨rfl, rfl, rfl⟩ : E' = E ∧ L' = L ∧ Q' = Q := by
    rw [hocs] at hcs; simpa using hcs
  obtain ⟨rfl, rfl, rfl⟩ : p' = p ∧ e' = e ∧ x' = x := by
    rw [hoap] at hap; simpa using hap
  have hE : 0 < 1 - E' ^ 2 := by linarith [hb.energy]
  have hL := hb.nonpolar
  obtain ⟨zm, zp, hz, hz1, hzp, hf⟩ := polarRootsNumpy_real (Q := Q') ha.ne' hE hL
  have hrad : radialRootsNumpy a E' L' Q' = .ok (r4, r3, r2, r1) := by
    have := npRoots_radial_real (a := a) (E := E') (L := L') (Q := Q') (lead := -(1 - E' ^ 2))
      (s0 := r4) (s1 := r3) (s2 := r2) (s3 := r1) (by linarith)
      (fun r => by rw [hb.roots]; ring) hb.r43 hb.r32.le hb.r21
    rw [radialRootsNumpy, this]
    simp
  have hphase := stablePhases_eq hc hz hrad hq
  have hT : o.trajectoryNat rs = stableTrajectoryNat rs a p' e' x' o.phases := by
    unfold OrbitObj.trajectoryNat
    simp only [Option.getD_none, hoap, hocs, hst, if_true, hoa]
  have hTn := stableTrajectoryNat_of hm hrt o.phases
  obtain ⟨T, hTT⟩ : ∃ T, stableTrajectoryNat rs a p' e' x' o.phases = .ok T := ⟨_, hTn⟩
  have hsq := Real.sqrt_nonneg (1 - a ^ 2)
  have hr3 : 0 < r3 := by linarith [hb.horizon]
  have hr2p : 0 < r2 := by linarith [hb.r32]
  have hr1p : 0 < r1 := by linarith [hb.r21]
  -- the apex parameters
  have hapx2 := hapx
  unfold apexFromConstants at hapx2
  simp only [hrad, hz, bind_ok] at hapx2
  have hapx3 := Except.ok.inj hapx2
  simp only [Prod.mk.injEq, true_and] at hapx3
  obtain ⟨hp, he, hx⟩ := hapx3
  have hr12 : r1 + r2 ≠ 0 := by linarith
  have d1 : p' / (1 - e') = r1 := by
    rw [← hp, ← he, show 1 - (r1 - r2) / (r1 + r2) = 2 * r2 / (r1 + r2) by field_simp; ring]
    field_simp
  have d2 : p' / (1 + e') = r2 := by
    rw [← hp, ← he, show 1 + (r1 - r2) / (r1 + r2) = 2 * r1 / (r1 + r2) by field_simp; ring]
    field_simp
  have hcore := stableRadialRootsCore_eq hb.roots hE hb.r43 hr3 hr1p hr2p d1 d2
  have hrr : stableRadialRoots rs a p' e' x' = .ok (r1, r2, r3, r4) := by
    unfold stableRadialRoots
    simp only [constantsOr, hrt, bind_ok, hcore]
    rfl
  obtain ⟨m', zm', zp', D⟩ := stableData_of ha.le hTT hrt hrr
  have hmm : m' = m := Except.ok.inj (D.mino.symm.trans hm)
  subst hmm
  have ha1 : a < 1 := D.spin.2
  have hs5 := Real.sq_sqrt (show 0 ≤ 1 - a ^ 2 by nlinarith)
  have hout' : 1 + √(1 - a ^ 2) < pos.r := by linarith [hb.horizon, hb.r32]
  have hDelta : 0 < Spec.Delta a pos.r := by
    have : Spec.Delta a pos.r = (pos.r - 1 - √(1 - a ^ 2)) * (pos.r - 1 + √(1 - a ^ 2)) := by
      unfold Spec.Delta; linear_combination hs5
    rw [this]; exact mul_pos (by linarith) (by linarith)
  have hSig : 0 < Spec.Sigma a pos.r pos.theta := by
    have : 0 < pos.r := by linarith
    unfold Spec.Sigma; positivity
  have hsin : sin pos.theta ≠ 0 := (Real.sin_pos_of_pos_of_lt_pi h0 hpi).ne'
  have hrange := theta_in_range ha.ne' hE hSig.ne' hDelta.ne' hsin hc hzp hf
  have hzm0 : 0 ≤ zm := le_trans (sq_nonneg _) hrange
  have HP := polarConfig_of hE hL hzm0 hz1 hf
  -- the polar roots of the trajectory are those found by numpy
  have hxx : x' ^ 2 = 1 - zm := by
    rw [← hx, mul_pow, Real.sq_sqrt (by linarith)]
    rcases lt_or_gt_of_ne hL with h | h
    · rw [Real.sign_of_neg h]; ring
    · rw [Real.sign_of_pos h]; ring
  have hzm' : zm' = zm := by rw [D.zm_eq, hxx]; ring
  have HP' := D.polar hb.energy hb.nonpolar
  have hzp' : zp' = zp := by rw [HP'.zp_eq ha.ne', HP.zp_eq ha.ne', hzm']
  subst hzm' hzp'
  exact ⟨T, m', zm', zp', by rw [hT, hTT], D, hoa, hou, hout, HP', hrange, hc,
    ⟨ha1, hSig, hDelta⟩, hphase⟩

section
variable {rs : RootScalar} {a : ℝ} {pos vel : Vec4} {M mu : Option ℝ} {o : OrbitObj}
  {p e x E L Q r1 r2 r3 r4 : ℝ} (ha : 0 < a) (ho : mkOrbit rs a pos vel M mu = .ok o)
  (hst : o.stable = true) (hcs : o.consts = (E, L, Q)) (hap : o.apex = (p, e, x))
  (hb : Spec.BoundGeodesic a E L Q r1 r2 r3 r4)
  (hrt : constantsOfMotion rs a p e x = .ok (E, L, Q))
  (hr2 : r2 ≤ pos.r) (hr1 : pos.r ≤ r1) (h0 : 0 < pos.theta) (hpi : pos.theta < π)
include ha ho hst hcs hap hb hrt hr2 hr1 h0 hpi

/-- **C34.** A stable `Orbit` built from initial conditions in a rotating spacetime starts at its
initial position: `t` and `φ` always, `r` and `θ` exactly unless they are within the tolerance `1e-4`
of a turning point without being at it, and to within that tolerance in every case.  (`hrt`: the
orbital parameters computed by the constructor have the constants of motion of the initial velocity,
i.e. `constants_of_motion` inverts `apex_from_constants`, C04 and C09.) -/
theorem C34_position :
    ∃ T, o.trajectoryNat rs = .ok T ∧ T.t 0 = pos.t ∧ T.phi 0 = pos.phi
      ∧ |T.r 0 - pos.r| < 1e-4 ∧ |T.theta 0 - pos.theta| < 1e-4
      ∧ (Spec.ClearOf 1e-4 pos.r r1 → Spec.ClearOf 1e-4 pos.r r2 → T.r 0 = pos.r)
      ∧ (Spec.ClearOf 1e-4 pos.theta (arccos (√(1 - x ^ 2)))
        → Spec.ClearOf 1e-4 pos.theta (π - arccos (√(1 - x ^ 2))) → T.theta 0 = pos.theta) := by
  obtain ⟨T, m, zm, zp, hT, D, hoa, hu, hut, HP, hrange, hc, -, hph⟩ :=
    orbit_data ha ho hst hcs hap hb hrt hr2 h0 hpi
  have hE : 0 < 1 - E ^ 2 := by linarith [hb.energy]
  obtain ⟨s1, s2⟩ := r_start (a := a) (cs := (E, L, Q)) (L := L) (Q := Q) (dr0 := vel.r)
    (BoundGeodesic.config hb) hE
    (show (0:ℝ) < 1e-4 by norm_num) (rFrequencyCore_reverse E r1 r2 r3 r4) hr2 hr1
  obtain ⟨s3, s4⟩ := theta_start (passed := (r4, r3, r2, r1)) (dθ0 := vel.theta) HP ha.ne'
    (show (0:ℝ) < 1e-4 by norm_num) h0 hpi hrange
  have hr : T.r 0 = (radialSolutions a (E, L, Q) (r1, r2, r3, r4)).pos o.phases.qr := by
    rw [D.hT]; simp only [assembleTrajectory, mul_zero, zero_add]
  have hth : T.theta 0 = (polarSolutionsCore a (E, L, Q) zm zp).pos o.phases.qtheta := by
    rw [D.hT]; simp only [assembleTrajectory, mul_zero, zero_add]
  rw [hph] at hr hth
  refine ⟨T, hT, ?_, ?_, ?_, ?_, ?_, ?_⟩
  · rw [D.hT]; simp only [assembleTrajectory, mul_zero, zero_add, hph]; ring
  · rw [D.hT]; simp only [assembleTrajectory, mul_zero, zero_add, hph]; ring
  · rw [hr]; exact s1
  · rw [hth]; exact s3
  · intro c1 c2; rw [hr]; exact (s2 c1 c2).1
  · rw [← D.zm_eq]
    intro c1 c2; rw [hth]; exact (s4 c1 c2).1

end

/-- A signed square root. -/
lemma signed_sqrt {S v s R : ℝ} (hS : 0 < S) (h : (S * v) ^ 2 = R)
    (hs : R = 0 ∨ (0 < v → 0 < s) ∧ (v < 0 → s < 0)) : copysign1 s * √|R| / S = v := by
  rw [← h, abs_of_nonneg (sq_nonneg _), Real.sqrt_sq_eq_abs, div_eq_iff hS.ne', abs_mul,
    abs_of_pos hS]
  rcases hs with hs | ⟨hp, hn⟩
  · have : v = 0 := by
      rw [← h] at hs
      have := pow_eq_zero_iff (two_ne_zero) |>.mp hs
      exact (mul_eq_zero.mp this).resolve_left hS.ne'
    rw [this]; simp
  · rcases lt_trichotomy v 0 with h' | h' | h'
    · rw [copysign1, if_pos (hn h'), abs_of_neg h']; ring
    · rw [h']; simp
    · rw [copysign1, if_neg (not_lt.mpr (hp h').le), abs_of_pos h']; ring

lemma zpol_of_theta (a E L Q : ℝ) {θ : ℝ} (h : sin θ ≠ 0) :
    Spec.Zpol a E L Q (cos θ ^ 2) = sin θ ^ 2 * Spec.Theta a E L Q θ := by
  unfold Spec.Theta Spec.Zpol
  have h2 : cos θ ^ 2 = 1 - sin θ ^ 2 := by linarith [Real.sin_sq_add_cos_sq θ]
  rw [h2]; field_simp; ring

/-- The four-velocity at Mino time zero, once the position and the signs are right. -/
lemma fourVelocity_start {a E L Q uR uT : ℝ} {T : Traj} {q : Phases} {pos vel : Vec4}
    (hSig : 0 < Spec.Sigma a pos.r pos.theta) (hD : Spec.Delta a pos.r ≠ 0)
    (hsin : 0 < sin pos.theta)
    (hc : constantsFromInitialConditions a pos vel = .ok (E, L, Q))
    (hnorm : norm4 a pos.t pos.r pos.theta pos.phi vel = -1)
    (hr : T.r 0 = pos.r) (hth : T.theta 0 = pos.theta)
    (sR : Spec.R a E L Q pos.r = 0 ∨ (0 < vel.r → 0 < sin q.qr) ∧ (vel.r < 0 → sin q.qr < 0))
    (sT : Spec.Theta a E L Q pos.theta = 0 ∨ (0 < vel.theta → 0 < sin q.qtheta)
      ∧ (vel.theta < 0 → sin q.qtheta < 0)) :
    (fourVelocity a T (E, L, Q) uR uT q).at 0 = vel := by
  obtain ⟨k2, k0, k3, k1⟩ := C02_radial_equation a pos vel hSig.ne' hD hsin.ne' E L Q hc
  have k1 := k1 hnorm
  obtain ⟨vt, vr, vth, vph⟩ := vel
  simp only [Traj.at, Vec4.mk.injEq, fourVelocity, mul_zero, zero_add, hr, hth]
  simp only at k0 k1 k2 k3 sR sT
  have hSd : pos.r ^ 2 + a ^ 2 * cos pos.theta ^ 2 = Spec.Sigma a pos.r pos.theta := rfl
  have hDd : pos.r ^ 2 - 2 * pos.r + a ^ 2 = Spec.Delta a pos.r := rfl
  have hsc : 1 - cos pos.theta ^ 2 = sin pos.theta ^ 2 := by
    linarith [Real.sin_sq_add_cos_sq pos.theta]
  rw [hSd, hDd, hsc]
  have hS0 := hSig.ne'
  refine ⟨?_, ?_, ?_, ?_⟩
  · have : vt = Spec.dtdlam a E L pos.r pos.theta / Spec.Sigma a pos.r pos.theta := by
      rw [← k0]; field_simp
    rw [this, Spec.dtdlam]
    generalize Spec.Delta a pos.r = Dl
    generalize Spec.Sigma a pos.r pos.theta = S
    ring
  · rw [fvR_eq]
    exact signed_sqrt hSig k1 sR
  · rw [fvZ_eq _ _ _ _ _ hsin.ne']
    refine signed_sqrt (mul_pos hSig hsin) ?_ ?_
    · rw [← k2]; ring
    · rcases sT with s | s
      · left; rw [s, mul_zero]
      · right; exact s
  · have : vph = Spec.dphidlam a E L pos.r pos.theta / Spec.Sigma a pos.r pos.theta := by
      rw [← k3]; field_simp
    rw [this, Spec.dphidlam]
    generalize Spec.Delta a pos.r = Dl
    generalize Spec.Sigma a pos.r pos.theta = S
    ring

section
variable {rs : RootScalar} {a : ℝ} {pos vel : Vec4} {M mu : Option ℝ} {o : OrbitObj}
  {p e x E L Q r1 r2 r3 r4 : ℝ} (ha : 0 < a) (ho : mkOrbit rs a pos vel M mu = .ok o)
  (hst : o.stable = true) (hcs : o.consts = (E, L, Q)) (hap : o.apex = (p, e, x))
  (hb : Spec.BoundGeodesic a E L Q r1 r2 r3 r4)
  (hrt : constantsOfMotion rs a p e x = .ok (E, L, Q))
  (hr2 : r2 ≤ pos.r) (hr1 : pos.r ≤ r1) (h0 : 0 < pos.theta) (hpi : pos.theta < π)
include ha ho hst hcs hap hb hrt hr2 hr1 h0 hpi

/-- **C35.** If moreover the initial velocity has norm exactly `-1` and the initial position is not
within the tolerance of a turning point (or is exactly at it), `four_velocity()` at Mino time `0` is the
initial velocity, including the signs of `u^r` and `u^θ`. -/
theorem C35_velocity (hnorm : norm4 a pos.t pos.r pos.theta pos.phi vel = -1)
    (c1 : Spec.ClearOf 1e-4 pos.r r1) (c2 : Spec.ClearOf 1e-4 pos.r r2)
    (c3 : Spec.ClearOf 1e-4 pos.theta (arccos (√(1 - x ^ 2))))
    (c4 : Spec.ClearOf 1e-4 pos.theta (π - arccos (√(1 - x ^ 2)))) :
    ∃ U, o.fourVelocity rs = .ok U ∧ U.at 0 = vel := by
  obtain ⟨T, m, zm, zp, hT, D, hoa, hu, hut, HP, hrange, hc, ⟨-, hSig, hDelta⟩, hph⟩ :=
    orbit_data ha ho hst hcs hap hb hrt hr2 h0 hpi
  obtain ⟨T', hT', -, -, -, -, hr, hth⟩ :=
    C34_position ha ho hst hcs hap hb hrt hr2 hr1 h0 hpi
  obtain rfl : T = T' := Except.ok.inj (hT.symm.trans hT')
  have hr := hr c1 c2
  have hth := hth c3 c4
  have hE : 0 < 1 - E ^ 2 := by linarith [hb.energy]
  rw [← D.zm_eq] at c3 c4
  obtain ⟨-, s2⟩ := r_start (a := a) (cs := (E, L, Q)) (L := L) (Q := Q) (dr0 := vel.r)
    (BoundGeodesic.config hb) hE
    (show (0:ℝ) < 1e-4 by norm_num) (rFrequencyCore_reverse E r1 r2 r3 r4) hr2 hr1
  obtain ⟨-, s4⟩ := theta_start (passed := (r4, r3, r2, r1)) (dθ0 := vel.theta) HP ha.ne'
    (show (0:ℝ) < 1e-4 by norm_num) h0 hpi hrange
  have s2 := (s2 c1 c2).2
  have s4 := (s4 c3 c4).2
  have hsin := Real.sin_pos_of_pos_of_lt_pi h0 hpi
  refine ⟨KGP.fourVelocity a T (E, L, Q) m.upsilonR m.upsilonTheta o.phases, ?_, ?_⟩
  · unfold OrbitObj.fourVelocity
    have : o.trajectoryNat rs (some o.phases) = .ok T := by
      rw [← hT]; rfl
    simp only [Option.getD_none, this, bind_ok, pure, Except.pure, hoa, hu, hut, hcs]
  · have hqr : o.phases.qr
        = initialPhaseR (E, L, Q) (r4, r3, r2, r1) (r1, r2, r3, r4) pos.r vel.r 1e-4 none := by
      rw [hph]
    have hqt : o.phases.qtheta = initialPhaseTheta a (E, L, Q) (r4, r3, r2, r1) (zm, zp) pos.theta
                        vel.theta 1e-4 none := by
      rw [hph]
    rw [← hqr] at s2
    rw [← hqt] at s4
    refine fourVelocity_start hSig hDelta.ne' hsin hc hnorm hr hth ?_ ?_
    · rcases s2 with s | s | s
      · left; rw [s, hb.roots]; ring
      · left; rw [s, hb.roots]; ring
      · right; exact ⟨s.1, fun h => s.2 h.le⟩
    · have hZ := zpol_of_theta a E L Q hsin.ne'
      have hroot : cos pos.theta ^ 2 = zm → Spec.Theta a E L Q pos.theta = 0 := by
        intro h
        rw [h, HP.root] at hZ
        exact (mul_eq_zero.mp hZ.symm).resolve_left (by positivity)
      have hsq : √zm ≤ 1 := by
        rw [show (1:ℝ) = √1 by simp]; exact Real.sqrt_le_sqrt HP.z1.le
      have hsq0 := Real.sqrt_nonneg zm
      rcases s4 with s | s | s
      · left; apply hroot
        rw [s, Real.cos_arccos (by linarith) hsq, Real.sq_sqrt HP.z0]
      · left; apply hroot
        rw [s, Real.cos_pi_sub, Real.cos_arccos (by linarith) hsq, neg_sq, Real.sq_sqrt HP.z0]
      · right; exact ⟨fun h => s.2 h.le, s.1⟩

end

end KGP
