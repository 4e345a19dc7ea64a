import Verif.Props.InitialData
import Verif.Props.Plunge

/-!
# C44 (and C34, C35 for plunging orbits): a plunging `Orbit` reproduces its initial data
-/

namespace KGP

open Classical Real

/-! ### unfolding `Orbit.__init__` -/

lemma mkOrbit_plunge {rs : RootScalar} {a : ℝ} {pos vel : Vec4} {M mu : Option ℝ} {o : OrbitObj}
    (ho : mkOrbit rs a pos vel M mu = .ok o) (hs : o.stable = false) :
    ∃ E L Q uR uT, constantsFromInitialConditions a pos vel = .ok (E, L, Q) ∧ a ≠ 0
      ∧ plungingMinoFrequencies a E L Q = .ok (uR, uT)
      ∧ plungingOrbitInitialPhases a pos vel = .ok o.phases
      ∧ o.a = a ∧ o.consts = (E, L, Q) ∧ o.upsilonR = uR ∧ o.upsilonTheta = uT := by
  unfold mkOrbit at ho
  obtain ⟨-, -, ho⟩ := bind_eq_ok.mp ho
  obtain ⟨⟨E, L, Q⟩, hc, ho⟩ := bind_eq_ok.mp ho
  obtain ⟨st, -, ho⟩ := bind_eq_ok.mp ho
  simp only [] at ho
  split_ifs at ho with h
  · obtain ⟨⟨a', p, e, x⟩, hap, ho2⟩ := bind_eq_ok.mp ho
    obtain ⟨m, hm, ho3⟩ := bind_eq_ok.mp ho2
    obtain ⟨om, -, ho4⟩ := bind_eq_ok.mp ho3
    obtain ⟨q, hq, hfin⟩ := bind_eq_ok.mp ho4
    cases Except.ok.inj hfin
    exact absurd hs (by simp)
  · obtain ⟨_, hg, ho2⟩ := bind_eq_ok.mp ho
    have ha : a ≠ 0 := by
      intro h0
      rw [raiseIf, if_pos h0] at hg
      cases hg
    obtain ⟨⟨uR, uT⟩, hu, ho3⟩ := bind_eq_ok.mp ho2
    obtain ⟨q, hq, hfin⟩ := bind_eq_ok.mp ho3
    cases Except.ok.inj hfin
    exact ⟨E, L, Q, uR, uT, hc, ha, hu, hq, rfl, rfl, rfl, rfl⟩

/-! ### complex roots -/

/-- The radial phase computed for a complex-root plunge inverts the radial solution. -/
lemma cplxPhaseR_inverts {E r1 r2 u v r0 dr0 : ℝ} (H : CplxConfig r1 r2 u v) (hE : 0 < 1 - E ^ 2)
    (h12 : r1 < r2) (h1 : r1 ≤ r0) (h2 : r0 ≤ r2) :
    let A := plungeA r2 u v
    let B := plungeB r1 u v
    let lamR := (-1) / √((1 - E ^ 2) * A * B)
      * ellipkinc (π / 2 - arcsin ((B * (r2 - r0) - A * (r0 - r1))
          / (B * (r2 - r0) + A * (r0 - r1)))) (plungeKR r1 r2 A B ^ 2)
    let U := plungeUpsilonRComplex E r1 r2 u v
    let q := if dr0 > 0 then -lamR * U else 2 * π + lamR * U
    rC r1 r2 u v (cos (amC (mC r1 r2 u v) q)) = r0
      ∧ (r1 < r0 → r0 < r2 → (0 < dr0 → 0 < sin q) ∧ (dr0 ≤ 0 → sin q < 0)) := by
  intro A B lamR U q
  have hA : 0 < A := H.A_pos
  have hB : 0 < B := H.B_pos
  have hm := H.mC_lt
  have hpi := Real.pi_pos
  have hS : 0 < B * (r2 - r0) + A * (r0 - r1) := by
    rcases h2.eq_or_lt with h | h
    · rw [h, sub_self, mul_zero, zero_add]; exact mul_pos hA (by linarith)
    · have := mul_pos hB (sub_pos.mpr h)
      have := mul_nonneg hA.le (sub_nonneg.mpr h1)
      linarith
  obtain ⟨c, hc⟩ : ∃ c, c = (B * (r2 - r0) - A * (r0 - r1)) / (B * (r2 - r0) + A * (r0 - r1)) :=
    ⟨_, rfl⟩
  have k1 := mul_nonneg hA.le (sub_nonneg.mpr h1)
  have k2 := mul_nonneg hB.le (sub_nonneg.mpr h2)
  have hcS : c * (B * (r2 - r0) + A * (r0 - r1)) = B * (r2 - r0) - A * (r0 - r1) := by
    rw [hc]; field_simp
  have hc1 : c ≤ 1 := by rw [hc, div_le_one hS]; linarith
  have hc0 : -1 ≤ c := by rw [hc, le_div_iff₀ hS]; linarith
  obtain ⟨φ, hφ⟩ : ∃ φ, φ = π / 2 - arcsin c := ⟨_, rfl⟩
  have hcos : cos φ = c := by rw [hφ, Real.cos_pi_div_two_sub, Real.sin_arcsin hc0 hc1]
  have hrc : rC r1 r2 u v c = r0 := by
    have hD := H.D_pos hc0 hc1
    rw [← sub_eq_zero, H.rC_sub hc0 hc1, div_eq_zero_iff]
    left
    change A * (1 + c) * (r1 - r0) + B * (1 - c) * (r2 - r0) = 0
    linear_combination -hcS
  obtain ⟨F, hF⟩ : ∃ F, F = ellipkinc φ (mC r1 r2 u v) := ⟨_, rfl⟩
  obtain ⟨K, hK⟩ : ∃ K, K = ellipk (mC r1 r2 u v) := ⟨_, rfl⟩
  have hK0 : 0 < K := by rw [hK]; exact ellipk_pos hm
  have hamF : jacobiAm F (mC r1 r2 u v) = φ := by rw [hF]; exact am_ellipkinc hm φ
  have hprod : lamR * U = -(π * F / (2 * K)) := by
    simp only [lamR, U]
    rw [H.upsilon_eq, H.sq_k, ← hc, ← hφ, ← hF, ← hK]
    change (-1) / √((1 - E ^ 2) * A * B) * F * (π * √(A * B * (1 - E ^ 2)) / (2 * K)) = _
    rw [show (1 - E ^ 2) * A * B = A * B * (1 - E ^ 2) by ring]
    have : √(A * B * (1 - E ^ 2)) ≠ 0 := (Real.sqrt_pos.mpr (by positivity)).ne'
    field_simp
  have hq : q = if dr0 > 0 then π * F / (2 * K) else 2 * π - π * F / (2 * K) := by
    simp only [q, neg_mul, hprod, neg_neg, ← sub_eq_add_neg]
  have ham1 : amC (mC r1 r2 u v) (π * F / (2 * K)) = φ := by
    unfold amC
    rw [← hK, show 2 * K * (π * F / (2 * K)) / π = F by field_simp, hamF]
  have ham2 : amC (mC r1 r2 u v) (2 * π - π * F / (2 * K)) = 2 * π - φ := by
    rw [show 2 * π - π * F / (2 * K) = -(π * F / (2 * K)) + 2 * π by ring, amC_add hm]
    have : amC (mC r1 r2 u v) (-(π * F / (2 * K))) = -φ := by
      rw [← ham1]
      unfold amC
      rw [show 2 * ellipk (mC r1 r2 u v) * -(π * F / (2 * K)) / π
        = -(2 * ellipk (mC r1 r2 u v) * (π * F / (2 * K)) / π) by ring, am_neg hm]
    rw [this]; ring
  have hpos : r1 < r0 → r0 < r2 → 0 < sin (π * F / (2 * K)) := by
    intro g1 g2
    have k1 := mul_pos hA (sub_pos.mpr g1)
    have k2 := mul_pos hB (sub_pos.mpr g2)
    have e1 : c < 1 := by rw [hc, div_lt_one hS]; linarith
    have e0 : -1 < c := by rw [hc, lt_div_iff₀ hS]; linarith
    have hs : 0 < sin φ := by
      rw [hφ, Real.sin_pi_div_two_sub, Real.cos_arcsin]
      exact Real.sqrt_pos.mpr (by nlinarith)
    have := sign_amC hm (π * F / (2 * K))
    rw [ham1, Real.sign_of_pos hs] at this
    by_contra hn
    rcases (not_lt.mp hn).lt_or_eq with h | h
    · rw [Real.sign_of_neg h] at this; norm_num at this
    · rw [h, Real.sign_zero] at this; norm_num at this
  by_cases hd : dr0 > 0
  · rw [hq, if_pos hd]
    exact ⟨by rw [ham1, hcos, hrc], fun g1 g2 => ⟨fun _ => hpos g1 g2, fun h => absurd hd (not_lt.mpr h)⟩⟩
  · rw [hq, if_neg hd]
    refine ⟨by rw [ham2, Real.cos_two_pi_sub, hcos, hrc], fun g1 g2 => ⟨fun h => absurd h hd, fun _ => ?_⟩⟩
    rw [Real.sin_two_pi_sub]
    linarith [hpos g1 g2]

lemma amC_shift (m q : ℝ) : amC m (q + π / 2) = amT m q := by
  unfold amC amT
  congr 1
  ring

/-- The polar phase computed for a complex-root plunge inverts the polar solution. -/
lemma cplxPhaseTheta_inverts {a E L Q θ0 dθ0 : ℝ} (P : PlungePolar a E L Q) (hQ : 0 < Q)
    (h0 : 0 < θ0) (hpi : θ0 < π) (hc : cos θ0 ^ 2 ≤ plungeZm a E L Q) :
    let q := initialPhaseThetaBranch θ0 dθ0
      (1 / plungeZ2 a E L Q * ellipkinc (arcsin (cos θ0 / plungeZ1 a E L Q)) (plungeKTheta a E L Q ^ 2))
      (plungeUpsilonThetaComplex a E L Q)
    (plungingPolarSolutionsCore a E L Q (plungeUpsilonThetaComplex a E L Q)).pos (q + π / 2) = θ0
      ∧ (cos θ0 ^ 2 < plungeZm a E L Q → (dθ0 < 0 → sin q < 0) ∧ (0 ≤ dθ0 → 0 < sin q)) := by
  intro q
  obtain ⟨z0, z1, zp, hZ⟩ := P.roots
  have hz : 0 < plungeZm a E L Q := by
    refine lt_of_le_of_ne z0 fun h => ?_
    have := hZ 0
    rw [← h, sub_self, mul_zero, zero_mul] at this
    simp [Spec.Zpol] at this
    linarith
  have hs : √(plungeZm a E L Q) = plungeZ1 a E L Q := Real.sqrt_sq plungeZ1_nonneg
  have hs0 : 0 < plungeZ1 a E L Q := by rw [← hs]; exact Real.sqrt_pos.mpr hz
  have hk := P.k_bounds.2
  have habs : |cos θ0| ≤ plungeZ1 a E L Q := by
    rw [← Real.sqrt_sq_eq_abs, ← hs]; exact Real.sqrt_le_sqrt hc
  obtain ⟨k1, k2⟩ := polarPhase_inverts (dθ0 := dθ0) (θ0 := θ0)
    (lam := 1 / plungeZ2 a E L Q
      * ellipkinc (arcsin (cos θ0 / plungeZ1 a E L Q)) (plungeKTheta a E L Q ^ 2))
    (u := plungeUpsilonThetaComplex a E L Q) hk hs0 habs (by
      have h2 := P.z2_pos.ne'
      have h3 := (ellipk_pos hk).ne'
      unfold plungeUpsilonThetaComplex
      field_simp)
  refine ⟨?_, fun h => k2 ?_⟩
  · rw [P.pos_eq, amC_shift, hs]
    change arccos (plungeZ1 a E L Q * sin (amT (plungeKTheta a E L Q ^ 2) q)) = θ0
    rw [k1, Real.arccos_cos h0.le hpi.le]
  · rw [← Real.sqrt_sq_eq_abs, ← hs]; exact Real.sqrt_lt_sqrt (sq_nonneg _) h

/-- **C44.** The special case `q_theta0 = 0` for equatorial data (`dθ0 == 0` and `θ0 == π/2`) in
`plunging_orbit_initial_phases` and `stable_orbit_initial_phases` never takes effect: the phase is the
one of the last branch. -/
theorem C44_equatorial_branch_dead (lam u : ℝ) :
    initialPhaseThetaBranch (π / 2) 0 lam u = π / 2 - lam * u := by
  rw [initialPhaseThetaBranch_eq, if_neg (lt_irrefl _)]

/-- For any velocity with `E² < 1`: the Carter constant is not negative, and `cos²θ0` is in the
allowed polar range. -/
lemma carter_nonneg {a E L Q : ℝ} {pos vel : Vec4} (hE : E ^ 2 < 1)
    (hS : Spec.Sigma a pos.r pos.theta ≠ 0) (hD : Spec.Delta a pos.r ≠ 0) (hs : sin pos.theta ≠ 0)
    (hc : constantsFromInitialConditions a pos vel = .ok (E, L, Q)) :
    0 ≤ Q ∧ 0 ≤ Spec.Zpol a E L Q (cos pos.theta ^ 2) := by
  obtain ⟨h, -⟩ := C02_radial_equation a pos vel hS hD hs E L Q hc
  have hZ := zpol_of_theta a E L Q hs
  have hs2 : 0 < sin pos.theta ^ 2 := by positivity
  have h0 : 0 ≤ Spec.Zpol a E L Q (cos pos.theta ^ 2) := by rw [hZ, ← h]; positivity
  refine ⟨?_, h0⟩
  have hcs := Real.sin_sq_add_cos_sq pos.theta
  have h1 : Q * sin pos.theta ^ 2 = Spec.Zpol a E L Q (cos pos.theta ^ 2)
      + cos pos.theta ^ 2 * (a ^ 2 * (1 - E ^ 2) * sin pos.theta ^ 2 + L ^ 2) := by
    unfold Spec.Zpol
    have h2 : cos pos.theta ^ 2 = 1 - sin pos.theta ^ 2 := by linarith
    rw [h2]; ring
  have h3 : 0 ≤ cos pos.theta ^ 2 * (a ^ 2 * (1 - E ^ 2) * sin pos.theta ^ 2 + L ^ 2) := by
    have : 0 ≤ 1 - E ^ 2 := by linarith
    positivity
  by_contra hn
  nlinarith [mul_neg_of_neg_of_pos (not_le.mp hn) hs2]

section
variable {rs : RootScalar} {a : ℝ} {pos vel : Vec4} {M mu : Option ℝ} {o : OrbitObj}
  {E L Q r1 r2 : ℝ} {r3 r4 : ℂ} (ho : mkOrbit rs a pos vel M mu = .ok o)
  (hst : o.stable = false) (hcs : o.consts = (E, L, Q)) (hE : E ^ 2 < 1)
  (hr : plungingRadialRoots a E L Q = .ok (.cplx r1 r2 r3 r4))

include ho hst hcs hr in
/-- The data behind a complex-root plunging `Orbit`. -/
lemma orbit_cplx_data :
    ∃ T, o.trajectoryNat rs = .ok T ∧ constantsFromInitialConditions a pos vel = .ok (E, L, Q)
      ∧ a ≠ 0 ∧ o.a = a
      ∧ T = assemblePlunge
        (plungingRadialSolutionsCore a E L r1 r2 r3.re r4.im (plungeUpsilonRComplex E r1 r2 r3.re r4.im))
        (plungingPolarSolutionsCore a E L Q (plungeUpsilonThetaComplex a E L Q))
        (plungeUpsilonRComplex E r1 r2 r3.re r4.im) (plungeUpsilonThetaComplex a E L Q) o.phases
      ∧ o.phases = complexPlungeInitialPhases a E L Q r1 r2 r3.re r4.im pos vel
        (plungeUpsilonRComplex E r1 r2 r3.re r4.im) (plungeUpsilonThetaComplex a E L Q) := by
  obtain ⟨E', L', Q', uR, uT, hc, ha, hu, hph, hoa, hocs, hou, hout⟩ := mkOrbit_plunge ho hst
  obtain ⟨rfl, rfl, rfl⟩ : E' = E ∧ L' = L ∧ Q' = Q := by
    rw [hocs] at hcs; simpa using hcs
  obtain ⟨h1, h2⟩ := cplx_calls o.phases hr
  refine ⟨_, ?_, hc, ha, hoa, rfl, ?_⟩
  · rw [← h2]
    unfold OrbitObj.trajectoryNat
    simp only [Option.getD_none, hocs, hst, hoa, Bool.false_eq_true, if_false]
  · unfold plungingOrbitInitialPhases at hph
    simp only [icConstantsOr, hc, hr, h1, bind_ok] at hph
    exact (Except.ok.inj hph).symm

include ho hst hcs hE hr

/-- **C44.** A complex-root plunging `Orbit` off the equatorial plane (`Q ≠ 0`) that does not reach
the axis starts exactly at its initial position. -/
theorem C44_position (hr0 : Spec.Sigma a pos.r pos.theta ≠ 0) (hD : Spec.Delta a pos.r ≠ 0)
    (hQ : Q ≠ 0) (hax : L ≠ 0 ∨ Q < a ^ 2 * (1 - E ^ 2)) (h12 : r1 < r2)
    (hr1 : r1 ≤ pos.r) (hr2 : pos.r ≤ r2) (h0 : 0 < pos.theta) (hpi : pos.theta < π) :
    ∃ T, o.trajectoryNat rs = .ok T ∧ T.at 0 = pos := by
  obtain ⟨T, hT, hc, ha, hoa, hTd, hph⟩ := orbit_cplx_data ho hst hcs hr
  have H := cplxConfig_of hE hr
  have hsin := (Real.sin_pos_of_pos_of_lt_pi h0 hpi).ne'
  obtain ⟨hQ0, hz0⟩ := carter_nonneg hE hr0 hD hsin hc
  have P : PlungePolar a E L Q := ⟨ha, hE, hQ0, hax⟩
  obtain ⟨_, z1, zp, hZ⟩ := P.roots
  have hrange : cos pos.theta ^ 2 ≤ plungeZm a E L Q := by
    rw [hZ] at hz0
    by_contra hn
    have hcs := Real.sin_sq_add_cos_sq pos.theta
    have hs2 : 0 < sin pos.theta ^ 2 := by positivity
    have : (cos pos.theta ^ 2 - plungeZm a E L Q) * (cos pos.theta ^ 2 - plungeZp a E L Q) < 0 :=
      mul_neg_of_pos_of_neg (by linarith [not_le.mp hn]) (by linarith)
    have := mul_pos P.c_pos (neg_pos.mpr this)
    nlinarith
  refine ⟨T, hT, ?_⟩
  have e1 := (cplxPhaseR_inverts (dr0 := vel.r) H (by linarith : 0 < 1 - E ^ 2) h12 hr1 hr2).1
  have e2 := (cplxPhaseTheta_inverts (dθ0 := vel.theta) P (lt_of_le_of_ne hQ0 hQ.symm) h0 hpi hrange).1
  have er : T.r 0 = pos.r := by
    rw [hTd, cplx_r H, mul_zero, zero_add, hph]; exact e1
  have eth : T.theta 0 = pos.theta := by
    rw [hTd]
    simp only [assemblePlunge, mul_zero, zero_add, hph]; exact e2
  have et : T.t 0 = pos.t := by
    rw [hTd]; simp only [assemblePlunge, mul_zero, zero_add, hph, complexPlungeInitialPhases]; ring
  have ep : T.phi 0 = pos.phi := by
    rw [hTd]; simp only [assemblePlunge, mul_zero, zero_add, hph, complexPlungeInitialPhases]; ring
  simp only [Traj.at, er, eth, et, ep]

/-- **C44.** For a velocity of norm `-1` the initial radius is between the two real roots. -/
theorem C44_in_range (hr0 : Spec.Sigma a pos.r pos.theta ≠ 0) (hD : Spec.Delta a pos.r ≠ 0)
    (hsin : sin pos.theta ≠ 0) (hnorm : norm4 a pos.t pos.r pos.theta pos.phi vel = -1) :
    r1 ≤ pos.r ∧ pos.r ≤ r2 := by
  obtain ⟨T, hT, hc, ha, hoa, hTd, hph⟩ := orbit_cplx_data ho hst hcs hr
  obtain ⟨-, -, -, k⟩ := C02_radial_equation a pos vel hr0 hD hsin E L Q hc
  have hR : 0 ≤ Spec.R a E L Q pos.r := by rw [← k hnorm]; positivity
  obtain ⟨h12, hv, h4, hf⟩ := C30_complex a E L Q r1 r2 r3 r4 hE.ne hr
  rw [hf] at hR
  have hb : 0 < 1 - E ^ 2 := by linarith
  have hv' : r4.im ≠ 0 := by rw [h4, Complex.conj_im]; linarith
  have hq : 0 < (pos.r - r3.re) ^ 2 + r4.im ^ 2 := by positivity
  have h5 : 0 ≤ (r2 - pos.r) * (pos.r - r1) := by
    by_contra h
    have h6 := mul_neg_of_pos_of_neg hb (not_le.mp h)
    have h7 := mul_neg_of_neg_of_pos h6 hq
    linarith
  constructor
  · by_contra h; nlinarith
  · by_contra h; nlinarith

/-- **C44.** `four_velocity()` of such an `Orbit` at Mino time `0` is the initial velocity, when that
has norm exactly `-1`. -/
theorem C44_velocity (hr0 : Spec.Sigma a pos.r pos.theta ≠ 0) (hD : Spec.Delta a pos.r ≠ 0)
    (hQ : Q ≠ 0) (hax : L ≠ 0 ∨ Q < a ^ 2 * (1 - E ^ 2)) (h12 : r1 < r2)
    (h0 : 0 < pos.theta) (hpi : pos.theta < π)
    (hnorm : norm4 a pos.t pos.r pos.theta pos.phi vel = -1) :
    ∃ T U, o.trajectoryNat rs = .ok T ∧ T.at 0 = pos ∧ o.fourVelocity rs = .ok U ∧ U.at 0 = vel := by
  have hsin := Real.sin_pos_of_pos_of_lt_pi h0 hpi
  obtain ⟨hr1, hr2⟩ := C44_in_range ho hst hcs hE hr hr0 hD hsin.ne' hnorm
  obtain ⟨T', hT', hpos⟩ := C44_position ho hst hcs hE hr hr0 hD hQ hax h12 hr1 hr2 h0 hpi
  obtain ⟨T, hT, hc, ha, hoa, hTd, hph⟩ := orbit_cplx_data ho hst hcs hr
  obtain rfl : T = T' := Except.ok.inj (hT.symm.trans hT')
  have H := cplxConfig_of hE hr
  have hSig : 0 < Spec.Sigma a pos.r pos.theta := by
    refine lt_of_le_of_ne ?_ hr0.symm
    unfold Spec.Sigma; positivity
  obtain ⟨hQ0, hz0⟩ := carter_nonneg hE hr0 hD hsin.ne' hc
  have P : PlungePolar a E L Q := ⟨ha, hE, hQ0, hax⟩
  obtain ⟨_, z1, zp, hZ⟩ := P.roots
  have hrange : cos pos.theta ^ 2 ≤ plungeZm a E L Q := by
    rw [hZ] at hz0
    by_contra hn
    have hcs := Real.sin_sq_add_cos_sq pos.theta
    have hs2 : 0 < sin pos.theta ^ 2 := by positivity
    have : (cos pos.theta ^ 2 - plungeZm a E L Q) * (cos pos.theta ^ 2 - plungeZp a E L Q) < 0 :=
      mul_neg_of_pos_of_neg (by linarith [not_le.mp hn]) (by linarith)
    have := mul_pos P.c_pos (neg_pos.mpr this)
    nlinarith
  have hf := (C30_complex a E L Q r1 r2 r3 r4 hE.ne hr).2.2.2
  refine ⟨T, KGP.fourVelocity a T (E, L, Q) o.upsilonR o.upsilonTheta o.phases, hT, hpos, ?_, ?_⟩
  · unfold OrbitObj.fourVelocity
    have : o.trajectoryNat rs (some o.phases) = .ok T := by
      rw [← hT]; rfl
    simp only [Option.getD_none, this, bind_ok, pure, Except.pure, hoa, hcs]
  · refine fourVelocity_start hSig hD hsin hc hnorm (congrArg Vec4.r hpos) (congrArg Vec4.theta hpos)
      ?_ ?_
    · rcases hr1.eq_or_lt with h | g1
      · left; rw [hf, ← h]; ring
      rcases hr2.eq_or_lt with h | g2
      · left; rw [hf, h]; ring
      right
      have e := (cplxPhaseR_inverts (dr0 := vel.r) H (by linarith : 0 < 1 - E ^ 2) h12 hr1 hr2).2 g1 g2
      rw [hph]
      exact ⟨e.1, fun h => e.2 h.le⟩
    · rcases hrange.eq_or_lt with h | g
      · left
        have := zpol_of_theta a E L Q hsin.ne'
        rw [h, hZ, sub_self, mul_zero, zero_mul] at this
        exact (mul_eq_zero.mp this.symm).resolve_left (by positivity)
      · right
        have e := (cplxPhaseTheta_inverts (dθ0 := vel.theta) P (lt_of_le_of_ne hQ0 hQ.symm) h0 hpi
          hrange).2 g
        rw [hph]
        exact ⟨fun h => e.2 h.le, e.1⟩

end

end KGP
