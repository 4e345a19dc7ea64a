import Verif.Props.InitialPlunge

/-!
# C48: the `stable` flag of an `Orbit` is physically right
-/

namespace KGP

open Classical Real

lemma mkOrbit_class {rs : RootScalar} {a : ℝ} {pos vel : Vec4} {M mu : Option ℝ} {o : OrbitObj}
    (ho : mkOrbit rs a pos vel M mu = .ok o) :
    constantsFromInitialConditions a pos vel = .ok o.consts
      ∧ icIsStable a pos vel (some o.consts) = .ok o.stable ∧ o.a = a := by
  cases hs : o.stable with
  | true =>
    obtain ⟨E, L, Q, p, e, x, m, hc, hap, hm, hq, hoa, -, hcs, -⟩ := mkOrbit_stable ho hs
    refine ⟨by rw [hcs, hc], ?_, hoa⟩
    unfold mkOrbit at ho
    obtain ⟨-, -, ho⟩ := bind_eq_ok.mp ho
    obtain ⟨⟨E', L', Q'⟩, hc', ho⟩ := bind_eq_ok.mp ho
    obtain ⟨st, hst, ho⟩ := bind_eq_ok.mp ho
    have : st = true := by
      by_contra hn
      simp only [if_neg hn] at ho
      obtain ⟨-, -, ho⟩ := bind_eq_ok.mp ho
      obtain ⟨⟨uR, uT⟩, -, ho⟩ := bind_eq_ok.mp ho
      obtain ⟨q, -, ho⟩ := bind_eq_ok.mp ho
      cases Except.ok.inj ho
      exact absurd hs (by simp)
    subst this
    unfold icIsStable at hst ⊢
    simp only [icConstantsOr, hc, bind_ok] at hst
    simp only [icConstantsOr, hcs, pure, Except.pure, bind_ok]
    exact hst
  | false =>
    obtain ⟨E, L, Q, uR, uT, hc, ha, -, -, hoa, hcs, -⟩ := mkOrbit_plunge ho hs
    refine ⟨by rw [hcs, hc], ?_, hoa⟩
    unfold mkOrbit at ho
    obtain ⟨-, -, ho⟩ := bind_eq_ok.mp ho
    obtain ⟨⟨E', L', Q'⟩, hc', ho⟩ := bind_eq_ok.mp ho
    obtain ⟨st, hst, ho⟩ := bind_eq_ok.mp ho
    have : st = false := by
      by_contra hn
      have hn : st = true := by simpa using hn
      simp only [if_pos hn] at ho
      obtain ⟨⟨a', p, e, x⟩, hap, ho2⟩ := bind_eq_ok.mp ho
      obtain ⟨m, hm, ho3⟩ := bind_eq_ok.mp ho2
      obtain ⟨om, -, ho4⟩ := bind_eq_ok.mp ho3
      obtain ⟨q, hq, hfin⟩ := bind_eq_ok.mp ho4
      cases Except.ok.inj hfin
      exact absurd hs (by simp)
    subst this
    unfold icIsStable at hst ⊢
    simp only [icConstantsOr, hc, bind_ok] at hst
    simp only [icConstantsOr, hcs, pure, Except.pure, bind_ok]
    exact hst

/-- Between the horizons the radial potential is positive. -/
lemma R_pos_between {a E L Q r : ℝ} (hQ : 0 ≤ Q) (hr : r ≠ 0) (hD : Spec.Delta a r < 0) :
    0 < Spec.R a E L Q r := by
  unfold Spec.R
  have h1 : 0 < r ^ 2 + (L - a * E) ^ 2 + Q := by positivity
  nlinarith [mul_pos (neg_pos.mpr hD) h1, sq_nonneg (E * (r ^ 2 + a ^ 2) - a * L)]

lemma R_pos_horizon {a E L Q r : ℝ} (hD : Spec.Delta a r = 0) (h : E * (r ^ 2 + a ^ 2) ≠ a * L) :
    0 < Spec.R a E L Q r := by
  unfold Spec.R
  rw [hD, zero_mul, sub_zero]
  have := sub_ne_zero.mpr h
  positivity

/-- Where `R ≥ 0` for four real roots and `E² < 1`. -/
lemma RadialRoots.nonneg_iff {a E L Q s0 s1 s2 s3 r : ℝ} (hE : E ^ 2 < 1)
    (hR : Spec.RadialRoots a E L Q s3 s2 s1 s0) (h01 : s0 ≤ s1) (h12 : s1 ≤ s2) (h23 : s2 ≤ s3) :
    0 ≤ Spec.R a E L Q r ↔ (s0 ≤ r ∧ r ≤ s1) ∨ (s2 ≤ r ∧ r ≤ s3) := by
  rw [hR]
  have hb : 0 < 1 - E ^ 2 := by linarith
  have e : (1 - E ^ 2) * (s3 - r) * (r - s2) * (r - s1) * (r - s0)
      = (1 - E ^ 2) * (((s3 - r) * (r - s2)) * ((r - s1) * (r - s0))) := by ring
  rw [e, mul_nonneg_iff_of_pos_left hb]
  constructor
  · intro h
    by_contra hn
    push Not at hn
    obtain ⟨n1, n2⟩ := hn
    rcases lt_or_ge r s0 with g | g
    · have := mul_neg_of_pos_of_neg (show 0 < s3 - r by linarith) (show r - s2 < 0 by linarith)
      have := mul_neg_of_neg_of_pos this (mul_pos_of_neg_of_neg (show r - s1 < 0 by linarith)
        (show r - s0 < 0 by linarith))
      linarith
    · have g1 := n1 g
      rcases lt_or_ge r s2 with g2 | g2
      · rcases g.eq_or_lt with g0 | g0
        · linarith
        · have := mul_neg_of_pos_of_neg (show 0 < s3 - r by linarith) (show r - s2 < 0 by linarith)
          have := mul_neg_of_neg_of_pos this (mul_pos (show 0 < r - s1 by linarith)
            (show 0 < r - s0 by linarith))
          linarith
      · have g3 := n2 g2
        have := mul_neg_of_neg_of_pos (show s3 - r < 0 by linarith) (show 0 < r - s2 by linarith)
        have := mul_neg_of_neg_of_pos this (mul_pos (show 0 < r - s1 by linarith)
            (show 0 < r - s0 by linarith))
        linarith
  · rintro (⟨g0, g1⟩ | ⟨g2, g3⟩)
    · exact mul_nonneg_of_nonpos_of_nonpos
        (mul_nonpos_of_nonneg_of_nonpos (by linarith) (by linarith))
        (mul_nonpos_of_nonpos_of_nonneg (by linarith) (by linarith))
    · exact mul_nonneg (mul_nonneg (by linarith) (by linarith))
        (mul_nonneg (by linarith) (by linarith))

section
variable {a E L Q : ℝ} (ha1 : a ^ 2 < 1)

include ha1 in
lemma horizon_facts : 0 < √(1 - a ^ 2) ∧ Spec.Delta a (1 + √(1 - a ^ 2)) = 0
    ∧ Spec.Delta a (1 - √(1 - a ^ 2)) = 0 ∧ √(1 - a ^ 2) ≤ 1
    ∧ ∀ r, 1 - √(1 - a ^ 2) < r → r < 1 + √(1 - a ^ 2) → Spec.Delta a r < 0 ∧ 0 < r := by
  have h2 : √(1 - a ^ 2) ^ 2 = 1 - a ^ 2 := Real.sq_sqrt (by linarith)
  have h0 : 0 < √(1 - a ^ 2) := Real.sqrt_pos.mpr (by linarith)
  have hle : √(1 - a ^ 2) ≤ 1 := Real.sqrt_le_one.mpr (by nlinarith [sq_nonneg a])
  refine ⟨h0, ?_, ?_, hle, fun r h3 h4 => ⟨?_, by linarith⟩⟩
  · unfold Spec.Delta; linear_combination h2
  · unfold Spec.Delta; linear_combination h2
  · have : Spec.Delta a r = (r - (1 - √(1 - a ^ 2))) * (r - (1 + √(1 - a ^ 2))) := by
      unfold Spec.Delta; linear_combination h2
    rw [this]
    exact mul_neg_of_pos_of_neg (by linarith) (by linarith)

include ha1 in
/-- Both horizons are strictly inside the same one of the two radial ranges. -/
lemma horizons_side {s0 s1 s2 s3 : ℝ} (hE : E ^ 2 < 1) (hQ : 0 ≤ Q)
    (hR : Spec.RadialRoots a E L Q s3 s2 s1 s0) (h01 : s0 ≤ s1) (h12 : s1 ≤ s2) (h23 : s2 ≤ s3)
    (hh : ∀ rh, Spec.Delta a rh = 0 → E * (rh ^ 2 + a ^ 2) ≠ a * L) :
    (s0 < 1 - √(1 - a ^ 2) ∧ 1 + √(1 - a ^ 2) < s1)
    ∨ (s2 < 1 - √(1 - a ^ 2) ∧ 1 + √(1 - a ^ 2) < s3) := by
  obtain ⟨h0, dp, dm, hle, hbt⟩ := horizon_facts ha1
  have Rp := R_pos_horizon (Q := Q) dp (hh _ dp)
  have Rm := R_pos_horizon (Q := Q) dm (hh _ dm)
  have Rb : ∀ r, 1 - √(1 - a ^ 2) < r → r < 1 + √(1 - a ^ 2) → 0 < Spec.R a E L Q r := fun r g1 g2 =>
    R_pos_between hQ (hbt r g1 g2).2.ne' (hbt r g1 g2).1
  have root : ∀ s, s = s0 ∨ s = s1 ∨ s = s2 ∨ s = s3 → Spec.R a E L Q s = 0 := by
    rintro s (h | h | h | h) <;> rw [h, hR] <;> ring
  have out : ∀ s, Spec.R a E L Q s = 0 → s < 1 - √(1 - a ^ 2) ∨ 1 + √(1 - a ^ 2) < s := by
    intro s hs
    by_contra hn
    push Not at hn
    obtain ⟨g1, g2⟩ := hn
    rcases g1.eq_or_lt with g | g
    · rw [← g] at hs; linarith
    rcases g2.eq_or_lt with g' | g'
    · rw [g'] at hs; linarith
    · linarith [Rb s g g']
  have o0 := out s0 (root _ (.inl rfl))
  have o1 := out s1 (root _ (.inr (.inl rfl)))
  have o2 := out s2 (root _ (.inr (.inr (.inl rfl))))
  have o3 := out s3 (root _ (.inr (.inr (.inr rfl))))
  rcases (RadialRoots.nonneg_iff hE hR h01 h12 h23).mp Rp.le with ⟨g1, g2⟩ | ⟨g1, g2⟩
  · left
    refine ⟨?_, ?_⟩
    · rcases o0 with h | h
      · exact h
      · linarith
    · rcases o1 with h | h
      · linarith
      · exact h
  · right
    refine ⟨?_, ?_⟩
    · rcases o2 with h | h
      · exact h
      · linarith
    · rcases o3 with h | h
      · linarith
      · exact h

end

section
variable {rs : RootScalar} {a : ℝ} {pos vel : Vec4} {M mu : Option ℝ} {o : OrbitObj}
  {E L Q : ℝ} (ho : mkOrbit rs a pos vel M mu = .ok o) (ha1 : a ^ 2 < 1)
  (hcs : o.consts = (E, L, Q)) (hE : E ^ 2 < 1)
  (hr0 : Spec.Sigma a pos.r pos.theta ≠ 0) (hD : Spec.Delta a pos.r ≠ 0)
  (hsin : sin pos.theta ≠ 0) (hnorm : norm4 a pos.t pos.r pos.theta pos.phi vel = -1)
  (hh : ∀ rh, Spec.Delta a rh = 0 → E * (rh ^ 2 + a ^ 2) ≠ a * L)
include ho ha1 hcs hE hr0 hD hsin hnorm hh

/-- **C48.** Four real radial roots, the two ranges of motion `[s0,s1]` and `[s2,s3]` being further apart
than the tolerance: an `Orbit` built from a velocity of norm `-1` is classified as stable exactly when the
range containing `r0` is outside the outer horizon; it is then the outer range and both horizons are
inside the other one.  Otherwise (`stable = False`) both horizons are inside the range of `r0`. -/
theorem C48_four_real {s0 s1 s2 s3 : ℝ} (hR : Spec.RadialRoots a E L Q s3 s2 s1 s0) (h01 : s0 ≤ s1)
    (h12 : s1 + 1e-4 < s2) (h23 : s2 ≤ s3) :
    (o.stable = true → s2 ≤ pos.r ∧ pos.r ≤ s3 ∧ 1 + √(1 - a ^ 2) < s1
      ∧ s0 < 1 - √(1 - a ^ 2))
    ∧ (o.stable = false →
      (s0 ≤ pos.r ∧ pos.r ≤ s1 ∧ s0 < 1 - √(1 - a ^ 2) ∧ 1 + √(1 - a ^ 2) < s1)
      ∨ (s2 ≤ pos.r ∧ pos.r ≤ s3 ∧ s2 < 1 - √(1 - a ^ 2) ∧ 1 + √(1 - a ^ 2) < s3)) := by
  obtain ⟨hc, hcl, hoa⟩ := mkOrbit_class ho
  rw [hcs] at hc hcl
  obtain ⟨hQ, -⟩ := carter_nonneg hE hr0 hD hsin hc
  obtain ⟨-, -, -, k⟩ := C02_radial_equation a pos vel hr0 hD hsin E L Q hc
  have hRn : 0 ≤ Spec.R a E L Q pos.r := by rw [← k hnorm]; positivity
  have h12' : s1 ≤ s2 := by norm_num at h12; linarith
  have hrange := (RadialRoots.nonneg_iff hE hR h01 h12' h23).mp hRn
  have hside := horizons_side ha1 hE hQ hR h01 h12' h23 hh
  obtain ⟨h0, -, -, -, -⟩ := horizon_facts ha1
  obtain ⟨c1, c2, c3, c4, c5, c6⟩ := C36_four_real a E L Q 1e-4 s3 s2 s1 s0 pos vel hE.ne hR h01 h12' h23
  constructor
  · intro hs
    rw [hs] at hcl
    rcases hrange with ⟨g0, g1⟩ | ⟨g2, g3⟩
    · exfalso
      have hno : ¬ (s2 - 1e-4 ≤ pos.r ∧ pos.r ≤ s3 + 1e-4) := by
        rintro ⟨h, -⟩; linarith
      rcases lt_or_ge (1 - √(1 - a ^ 2)) s2 with h | h
      · have := c3 ⟨h, hno, by norm_num; exact ⟨by linarith, by linarith⟩⟩
        rw [this] at hcl
        simp at hcl
      · obtain ⟨s, hs'⟩ := c5 ⟨h, hno⟩
        rw [hs'] at hcl
        cases hcl
    · rcases hside with h | h
      · exact ⟨g2, g3, h.2, h.1⟩
      · exfalso
        have := c2 ⟨h.1, by norm_num; exact ⟨by linarith, by linarith⟩⟩
        rw [this] at hcl
        simp at hcl
  · intro hs
    rw [hs] at hcl
    rcases hrange with ⟨g0, g1⟩ | ⟨g2, g3⟩
    · left
      rcases hside with h | h
      · exact ⟨g0, g1, h⟩
      · exfalso
        obtain ⟨s, hs'⟩ := c5 ⟨h.1.le, by rintro ⟨h, -⟩; linarith⟩
        rw [hs'] at hcl
        cases hcl
    · right
      rcases hside with h | h
      · exfalso
        have := c1 ⟨by linarith, by norm_num; exact ⟨by linarith, by linarith⟩⟩
        rw [this] at hcl
        simp at hcl
      · exact ⟨g2, g3, h⟩

/-- **C48.** Two complex roots: never classified as stable, and the range of motion between the two real
roots contains both horizons and `r0`. -/
theorem C48_two_complex {s0 s1 u v : ℝ} (h01 : s0 ≤ s1) (hv : v ≠ 0)
    (hR : ∀ r, Spec.R a E L Q r = (1 - E ^ 2) * (s1 - r) * (r - s0) * ((r - u) ^ 2 + v ^ 2)) :
    o.stable = false ∧ s0 ≤ pos.r ∧ pos.r ≤ s1 ∧ s0 < 1 - √(1 - a ^ 2) ∧ 1 + √(1 - a ^ 2) < s1 := by
  obtain ⟨hc, hcl, hoa⟩ := mkOrbit_class ho
  rw [hcs] at hc hcl
  rw [C36_two_complex a E L Q 1e-4 s0 s1 u v pos vel hE.ne hv hR] at hcl
  obtain ⟨-, -, -, k⟩ := C02_radial_equation a pos vel hr0 hD hsin E L Q hc
  have hRn : 0 ≤ Spec.R a E L Q pos.r := by rw [← k hnorm]; positivity
  have hb : 0 < 1 - E ^ 2 := by linarith
  have hq : ∀ r, 0 < (r - u) ^ 2 + v ^ 2 := fun r => by positivity
  have hin : ∀ r, 0 ≤ Spec.R a E L Q r → s0 ≤ r ∧ r ≤ s1 := by
    intro r hr
    rw [hR] at hr
    have h5 : 0 ≤ (s1 - r) * (r - s0) := by
      by_contra h
      have h6 := mul_neg_of_pos_of_neg hb (not_le.mp h)
      have h7 := mul_neg_of_neg_of_pos h6 (hq r)
      linarith
    constructor
    · by_contra h; nlinarith
    · by_contra h; nlinarith
  obtain ⟨h0, dp, dm, hle, hbt⟩ := horizon_facts ha1
  have Rp := R_pos_horizon (Q := Q) dp (hh _ dp)
  have Rm := R_pos_horizon (Q := Q) dm (hh _ dm)
  have r0 : Spec.R a E L Q s0 = 0 := by rw [hR]; ring
  have r1 : Spec.R a E L Q s1 = 0 := by rw [hR]; ring
  obtain ⟨g1, g2⟩ := hin _ hRn
  refine ⟨(Except.ok.inj hcl).symm, g1, g2, lt_of_le_of_ne (hin _ Rm.le).1 ?_,
    lt_of_le_of_ne (hin _ Rp.le).2 ?_⟩
  · intro h; rw [← h, r0] at Rm; exact lt_irrefl _ Rm
  · intro h; rw [h, r1] at Rp; exact lt_irrefl _ Rp

end

end KGP

namespace KGP

open Classical Real

section
variable {rs : RootScalar} {a : ℝ} {pos vel : Vec4} {M mu : Option ℝ} {o : OrbitObj}
  {E L Q r1 r2 r3 r4 : ℝ} (ho : mkOrbit rs a pos vel M mu = .ok o)
  (hst : o.stable = false) (hcs : o.consts = (E, L, Q)) (hE : E ^ 2 < 1) (hL : L ≠ 0)
  (hr : plungingRadialRoots a E L Q = .ok (.real r1 r2 r3 r4)) (hsep : r3 < r2 ∨ r1 < r4)
include ho hst hcs hE hL hr hsep

/-- The data behind a real-root plunging `Orbit`. -/
lemma orbit_real_data (hQ0 : Q ≠ 0) (hr0 : Spec.Sigma a pos.r pos.theta ≠ 0)
    (hD : Spec.Delta a pos.r ≠ 0) (hsin : sin pos.theta ≠ 0) :
    ∃ T m zm zp, o.trajectoryNat rs = .ok T
      ∧ constantsFromInitialConditions a pos vel = .ok (E, L, Q)
      ∧ a ≠ 0 ∧ o.a = a ∧ RootsConfig r1 r2 r3 r4 ∧ PolarConfig a E L Q zm zp
      ∧ cos pos.theta ^ 2 ≤ zm
      ∧ (∀ z, Spec.Zpol a E L Q z = a ^ 2 * (1 - E ^ 2) * ((z - zm) * (z - zp)))
      ∧ T = assembleTrajectory (radialSolutions a (E, L, Q) (r1, r2, r3, r4))
          (polarSolutionsCore a (E, L, Q) zm zp) m o.phases
      ∧ o.phases = { qt := pos.t
                     qr := initialPhaseR (E, L, Q) (r1, r2, r3, r4) (r1, r2, r3, r4) pos.r vel.r 1e-4 none
                     qtheta := initialPhaseTheta a (E, L, Q) (r1, r2, r3, r4) (zm, zp) pos.theta
                        vel.theta 1e-4 none
                     qphi := pos.phi } := by
  obtain ⟨E', L', Q', uR, uT, hc, ha, hu, hph, hoa, hocs, hou, hout⟩ := mkOrbit_plunge ho hst
  obtain ⟨rfl, rfl, rfl⟩ : E' = E ∧ L' = L ∧ Q' = Q := by
    rw [hocs] at hcs; simpa using hcs
  have hb : 0 < 1 - E' ^ 2 := by linarith
  obtain ⟨zm, zp, hz, hz1, hzp, hf⟩ := polarRootsNumpy_real (Q := Q') ha hb hL
  have hrange := theta_in_range ha hb hr0 hD hsin hc hzp hf
  have HP := polarConfig_of hb hL (le_trans (sq_nonneg _) hrange) hz1 hf
  obtain ⟨hR, h21, h43, -⟩ := C30_real a E' L' Q' r1 r2 r3 r4 hE.ne hr
  have hg := finite_gamma ha hE.ne hQ0 hr
  refine ⟨_, minoFrequenciesFromConstants a (E', L', Q') (r1, r2, r3, r4) (zm, zp), zm, zp, ?_, hc, ha,
    hoa, ⟨h21, h43, hsep⟩, HP, hrange, hf, rfl, ?_⟩
  · unfold OrbitObj.trajectoryNat plungingTrajectoryNat realPlungeTrajectoryNat
    simp only [Option.getD_none, hocs, hst, hoa, Bool.false_eq_true, if_false, hr, bind_ok, hz,
      polarSolutions, pure, Except.pure, if_neg hg]
  · unfold plungingOrbitInitialPhases stableOrbitInitialPhases at hph
    simp only [icConstantsOr, hc, hr, hz, bind_ok, pure, Except.pure] at hph
    exact (Except.ok.inj hph).symm

/-- **C34 (plunging orbits with four real roots).** The trajectory starts at the initial position: `t`
and `φ` always, `r` and `θ` to within the tolerance `1e-4`, and exactly unless they are within that
tolerance of a turning point without being at it.  `zm` is the smaller root of the polar potential.
Equatorial orbits (`Q = 0`) are excluded, see `C34_equatorial_violation`. -/
theorem C34_real_plunge (hQ0 : Q ≠ 0) (hr0 : Spec.Sigma a pos.r pos.theta ≠ 0) (hD : Spec.Delta a pos.r ≠ 0)
    (h0 : 0 < pos.theta) (hpi : pos.theta < π) (hr2 : r2 ≤ pos.r) (hr1 : pos.r ≤ r1) :
    ∃ T, o.trajectoryNat rs = .ok T ∧ T.t 0 = pos.t ∧ T.phi 0 = pos.phi
      ∧ |T.r 0 - pos.r| < 1e-4 ∧ |T.theta 0 - pos.theta| < 1e-4
      ∧ (Spec.ClearOf 1e-4 pos.r r1 → Spec.ClearOf 1e-4 pos.r r2 → T.r 0 = pos.r)
      ∧ ∃ zm, 0 ≤ zm ∧ zm < 1 ∧ Spec.Zpol a E L Q zm = 0 ∧
        (Spec.ClearOf 1e-4 pos.theta (arccos (√zm))
        → Spec.ClearOf 1e-4 pos.theta (π - arccos (√zm)) → T.theta 0 = pos.theta) := by
  have hsin := Real.sin_pos_of_pos_of_lt_pi h0 hpi
  obtain ⟨T, m, zm, zp, hT, hc, ha, hoa, HR, HP, hrange, hf, hTd, hph⟩ :=
    orbit_real_data ho hst hcs hE hL hr hsep hQ0 hr0 hD hsin.ne'
  have hb : 0 < 1 - E ^ 2 := by linarith
  obtain ⟨s1, s2⟩ := r_start (a := a) (cs := (E, L, Q)) (L := L) (Q := Q) (dr0 := vel.r)
    HR hb (show (0:ℝ) < 1e-4 by norm_num) (rfl : rFrequencyCore E (r1, r2, r3, r4) = _) hr2 hr1
  obtain ⟨s3, s4⟩ := theta_start (passed := (r1, r2, r3, r4)) (dθ0 := vel.theta) HP ha
    (show (0:ℝ) < 1e-4 by norm_num) h0 hpi hrange
  have er : T.r 0 = (radialSolutions a (E, L, Q) (r1, r2, r3, r4)).pos o.phases.qr := by
    rw [hTd]; simp only [assembleTrajectory, mul_zero, zero_add]
  have eth : T.theta 0 = (polarSolutionsCore a (E, L, Q) zm zp).pos o.phases.qtheta := by
    rw [hTd]; simp only [assembleTrajectory, mul_zero, zero_add]
  rw [hph] at er eth
  refine ⟨T, hT, ?_, ?_, ?_, ?_, ?_, zm, HP.z0, HP.z1, HP.root, ?_⟩
  · rw [hTd]; simp only [assembleTrajectory, mul_zero, zero_add, hph]; ring
  · rw [hTd]; simp only [assembleTrajectory, mul_zero, zero_add, hph]; ring
  · rw [er]; exact s1
  · rw [eth]; exact s3
  · intro c1 c2; rw [er]; exact (s2 c1 c2).1
  · intro c1 c2; rw [eth]; exact (s4 c1 c2).1

/-- **C35 (plunging orbits with four real roots).** If moreover the initial velocity has norm exactly
`-1` and the initial position is at least the tolerance away from every turning point (or at it), then
`four_velocity()` at Mino time `0` is the initial velocity. -/
theorem C35_real_plunge (hQ0 : Q ≠ 0) (hr0 : Spec.Sigma a pos.r pos.theta ≠ 0) (hD : Spec.Delta a pos.r ≠ 0)
    (h0 : 0 < pos.theta) (hpi : pos.theta < π) (hr2 : r2 ≤ pos.r) (hr1 : pos.r ≤ r1)
    (hnorm : norm4 a pos.t pos.r pos.theta pos.phi vel = -1)
    (c1 : Spec.ClearOf 1e-4 pos.r r1) (c2 : Spec.ClearOf 1e-4 pos.r r2)
    (hclear : ∀ zm, 0 ≤ zm → zm < 1 → Spec.Zpol a E L Q zm = 0 →
      Spec.ClearOf 1e-4 pos.theta (arccos (√zm)) ∧ Spec.ClearOf 1e-4 pos.theta (π - arccos (√zm))) :
    ∃ T U, o.trajectoryNat rs = .ok T ∧ T.at 0 = pos ∧ o.fourVelocity rs = .ok U ∧ U.at 0 = vel := by
  have hsin := Real.sin_pos_of_pos_of_lt_pi h0 hpi
  obtain ⟨T, m, zm, zp, hT, hc, ha, hoa, HR, HP, hrange, hf, hTd, hph⟩ :=
    orbit_real_data ho hst hcs hE hL hr hsep hQ0 hr0 hD hsin.ne'
  obtain ⟨c3, c4⟩ := hclear zm HP.z0 HP.z1 HP.root
  have hb : 0 < 1 - E ^ 2 := by linarith
  obtain ⟨-, s2⟩ := r_start (a := a) (cs := (E, L, Q)) (L := L) (Q := Q) (dr0 := vel.r)
    HR hb (show (0:ℝ) < 1e-4 by norm_num) (rfl : rFrequencyCore E (r1, r2, r3, r4) = _) hr2 hr1
  obtain ⟨-, s4⟩ := theta_start (passed := (r1, r2, r3, r4)) (dθ0 := vel.theta) HP ha
    (show (0:ℝ) < 1e-4 by norm_num) h0 hpi hrange
  obtain ⟨s1, s2⟩ := s2 c1 c2
  obtain ⟨s3, s4⟩ := s4 c3 c4
  have er : T.r 0 = pos.r := by
    rw [hTd]; simp only [assembleTrajectory, mul_zero, zero_add, hph]; exact s1
  have eth : T.theta 0 = pos.theta := by
    rw [hTd]; simp only [assembleTrajectory, mul_zero, zero_add, hph]; exact s3
  have et : T.t 0 = pos.t := by
    rw [hTd]; simp only [assembleTrajectory, mul_zero, zero_add, hph]; ring
  have ep : T.phi 0 = pos.phi := by
    rw [hTd]; simp only [assembleTrajectory, mul_zero, zero_add, hph]; ring
  have hSig : 0 < Spec.Sigma a pos.r pos.theta := by
    refine lt_of_le_of_ne ?_ hr0.symm
    unfold Spec.Sigma; positivity
  have hR := (C30_real a E L Q r1 r2 r3 r4 hE.ne hr).1
  refine ⟨T, KGP.fourVelocity a T (E, L, Q) o.upsilonR o.upsilonTheta o.phases, hT, ?_, ?_, ?_⟩
  · simp only [Traj.at, er, eth, et, ep]
  · unfold OrbitObj.fourVelocity
    have : o.trajectoryNat rs (some o.phases) = .ok T := by
      rw [← hT]; rfl
    simp only [Option.getD_none, this, bind_ok, pure, Except.pure, hoa, hcs]
  · refine fourVelocity_start hSig hD hsin hc hnorm er eth ?_ ?_
    · rw [hph]
      rcases s2 with s | s | s
      · left; rw [s, hR]; ring
      · left; rw [s, hR]; ring
      · right; exact ⟨s.1, fun h => s.2 h.le⟩
    · have hZ := zpol_of_theta a E L Q hsin.ne'
      have hroot : cos pos.theta ^ 2 = zm → Spec.Theta a E L Q pos.theta = 0 := by
        intro h
        rw [h, HP.root] at hZ
        exact (mul_eq_zero.mp hZ.symm).resolve_left (by positivity)
      have hsq : √zm ≤ 1 := by
        rw [show (1:ℝ) = √1 by simp]; exact Real.sqrt_le_sqrt HP.z1.le
      have hsq0 := Real.sqrt_nonneg zm
      rw [hph]
      rcases s4 with s | s | s
      · left; apply hroot
        rw [s, Real.cos_arccos (by linarith) hsq, Real.sq_sqrt HP.z0]
      · left; apply hroot
        rw [s, Real.cos_pi_sub, Real.cos_arccos (by linarith) hsq, neg_sq, Real.sq_sqrt HP.z0]
      · right; exact ⟨fun h => s.2 h.le, s.1⟩

omit hsep in
/-- **C34 (false for equatorial plunges with four real roots).** If the motion starts in the equatorial
plane (`Q = 0`) inside the innermost radial range `[0, r1]`, the returned time coordinate is not a number
at any Mino time: `Gamma` is `inf`. -/
theorem C34_equatorial_violation (hQ0 : Q = 0) (hr2 : r2 = 0) (hr1 : r1 ≠ 0) :
    ∃ T, o.trajectoryNat rs = .ok T ∧ T.t = pyInfTimes := by
  obtain ⟨E', L', Q', uR, uT, hc, ha, hu, hph, hoa, hocs, hou, hout⟩ := mkOrbit_plunge ho hst
  obtain ⟨rfl, rfl, rfl⟩ : E' = E ∧ L' = L ∧ Q' = Q := by
    rw [hocs] at hcs; simpa using hcs
  have hb : 0 < 1 - E' ^ 2 := by linarith
  obtain ⟨zm, zp, hz, hz1, hzp, hf⟩ := polarRootsNumpy_real (Q := Q') ha hb hL
  subst hQ0 hr2
  have hT : ∃ T, plungingTrajectoryNat a E' L' 0 o.phases = .ok T := by
    unfold plungingTrajectoryNat realPlungeTrajectoryNat
    simp only [hr, bind_ok, hz, polarSolutions, pure, Except.pure]
    exact ⟨_, rfl⟩
  obtain ⟨T, hT⟩ := hT
  refine ⟨T, ?_, C18_equatorial_violation a E' L' r1 r3 r4 o.phases hr1 hr T hT⟩
  unfold OrbitObj.trajectoryNat
  simp only [Option.getD_none, hocs, hst, hoa, Bool.false_eq_true, if_false]
  exact hT

omit hsep hL in
/-- **C48.** The labels of `plunging_radial_roots` agree with the classification: for a plunging `Orbit`
with four real roots and a velocity of norm `-1`, `r0` is between `r2` and `r1`, and so are both
horizons. -/
theorem C48_plunge_labels (ha1 : a ^ 2 < 1) (hr0 : Spec.Sigma a pos.r pos.theta ≠ 0)
    (hD : Spec.Delta a pos.r ≠ 0) (hsin : sin pos.theta ≠ 0)
    (hnorm : norm4 a pos.t pos.r pos.theta pos.phi vel = -1)
    (hh : ∀ rh, Spec.Delta a rh = 0 → E * (rh ^ 2 + a ^ 2) ≠ a * L)
    (hsep : r3 + 1e-4 < r2 ∨ r1 + 1e-4 < r4) :
    r2 ≤ pos.r ∧ pos.r ≤ r1 ∧ r2 < 1 - √(1 - a ^ 2) ∧ 1 + √(1 - a ^ 2) < r1 := by
  obtain ⟨hR, h21, h43, hcase⟩ := C30_real a E L Q r1 r2 r3 r4 hE.ne hr
  obtain ⟨h0, -, -, -, -⟩ := horizon_facts ha1
  rcases hsep with hs | hs
  · have h := (C48_four_real ho ha1 hcs hE hr0 hD hsin hnorm hh (s0 := r4) (s1 := r3) (s2 := r2)
      (s3 := r1) hR h43 hs h21).2 hst
    rcases h with h | h
    · rcases hcase with ⟨-, hc⟩ | ⟨hc, -⟩
      · linarith
      · norm_num at hs; linarith
    · exact h
  · have hR' : Spec.RadialRoots a E L Q r3 r4 r1 r2 := fun r => by rw [hR]; ring
    have h := (C48_four_real ho ha1 hcs hE hr0 hD hsin hnorm hh (s0 := r2) (s1 := r1) (s2 := r4)
      (s3 := r3) hR' h21 hs h43).2 hst
    rcases h with h | h
    · exact h
    · rcases hcase with ⟨hc, -⟩ | ⟨-, hc⟩
      · norm_num at hs; linarith
      · norm_num at hs; linarith

end

end KGP

namespace KGP

open Classical Real

/-- **C44 (constructibility).** Every normalised initial velocity whose radial potential has two complex
roots is accepted by `Orbit` and classified as a plunge. -/
theorem C44_constructible (rs : RootScalar) {a E L Q r1 r2 : ℝ} {r3 r4 : ℂ} {pos vel : Vec4}
    (M mu : Option ℝ) (ha : a ≠ 0)
    (hc : constantsFromInitialConditions a pos vel = .ok (E, L, Q))
    (hnorm : norm4 a pos.t pos.r pos.theta pos.phi vel = -1) (hE : E ^ 2 < 1)
    (hr : plungingRadialRoots a E L Q = .ok (.cplx r1 r2 r3 r4)) :
    ∃ o, mkOrbit rs a pos vel M mu = .ok o ∧ o.stable = false ∧ o.consts = (E, L, Q) := by
  have hg : orbitNormGuard a pos vel = .ok () := by
    unfold orbitNormGuard raiseIf
    rw [hnorm]
    norm_num [bind, Except.bind]
  obtain ⟨h12, hv, h4, hf⟩ := C30_complex a E L Q r1 r2 r3 r4 hE.ne hr
  have hcl := C36_two_complex a E L Q 1e-4 r1 r2 r3.re r4.im pos vel hE.ne
    (by rw [h4, Complex.conj_im]; linarith) hf
  have hcl' : icIsStable a pos vel = .ok false := by
    unfold icIsStable at hcl ⊢
    simp only [icConstantsOr, hc, bind_ok, pure, Except.pure] at hcl ⊢
    exact hcl
  obtain ⟨hu, -⟩ := cplx_calls ⟨0, 0, 0, 0⟩ hr
  have hph : ∃ q, plungingOrbitInitialPhases a pos vel = .ok q := by
    unfold plungingOrbitInitialPhases
    simp only [icConstantsOr, hc, hr, hu, bind_ok]
    exact ⟨_, rfl⟩
  obtain ⟨q, hq⟩ := hph
  unfold mkOrbit
  simp only [hg, hc, hcl', hu, hq, bind_ok, raiseIf, if_neg ha, Bool.false_eq_true, if_false]
  exact ⟨_, rfl, rfl, rfl⟩

/-- The velocity at `pos` with given constants of motion and given signs of `u^r` and `u^θ`. -/
noncomputable def Spec.velocityOf (a E L Q : ℝ) (pos : Vec4) (sr sθ : ℝ) : Vec4 :=
  { t := Spec.dtdlam a E L pos.r pos.theta / Spec.Sigma a pos.r pos.theta
    r := sr * √(Spec.R a E L Q pos.r) / Spec.Sigma a pos.r pos.theta
    theta := sθ * √(Spec.Theta a E L Q pos.theta) / Spec.Sigma a pos.r pos.theta
    phi := Spec.dphidlam a E L pos.r pos.theta / Spec.Sigma a pos.r pos.theta }

lemma velocityOf_ok {a E L Q sr sθ : ℝ} {pos : Vec4} (hr : sr ^ 2 = 1) (hθ : sθ ^ 2 = 1)
    (hS : Spec.Sigma a pos.r pos.theta ≠ 0) (hD : Spec.Delta a pos.r ≠ 0) (hs : sin pos.theta ≠ 0)
    (hR : 0 ≤ Spec.R a E L Q pos.r) (hT : 0 ≤ Spec.Theta a E L Q pos.theta) :
    constantsFromInitialConditions a pos (Spec.velocityOf a E L Q pos sr sθ) = .ok (E, L, Q)
    ∧ norm4 a pos.t pos.r pos.theta pos.phi (Spec.velocityOf a E L Q pos sr sθ) = -1 := by
  have h0 : Spec.Sigma a pos.r pos.theta * (Spec.velocityOf a E L Q pos sr sθ).t
      = Spec.dtdlam a E L pos.r pos.theta := by
    simp only [Spec.velocityOf]; field_simp
  have h3 : Spec.Sigma a pos.r pos.theta * (Spec.velocityOf a E L Q pos sr sθ).phi
      = Spec.dphidlam a E L pos.r pos.theta := by
    simp only [Spec.velocityOf]; field_simp
  have h1 : (Spec.Sigma a pos.r pos.theta * (Spec.velocityOf a E L Q pos sr sθ).r) ^ 2
      = Spec.R a E L Q pos.r := by
    simp only [Spec.velocityOf, mul_div_cancel₀ _ hS, mul_pow, hr, Real.sq_sqrt hR, one_mul]
  have h2 : (Spec.Sigma a pos.r pos.theta * (Spec.velocityOf a E L Q pos sr sθ).theta) ^ 2
      = Spec.Theta a E L Q pos.theta := by
    simp only [Spec.velocityOf, mul_div_cancel₀ _ hS, mul_pow, hθ, Real.sq_sqrt hT, one_mul]
  refine ⟨C02_roundtrip a E L Q pos _ hS hD hs h0 h2 h3, ?_⟩
  rw [norm4, C03_metric_is_kerr _ _ _ _ _ hS]
  exact kerr_norm_of_components hS hD hs _ h0 h1 h2 h3

/-- A concrete complex-root plunging `Orbit`, started inwards at `r = 3` on the equator with a polar
velocity: it starts there with that velocity. -/
example (rs : RootScalar) : ∃ (vel : Vec4) (o : OrbitObj) (T U : Traj),
    mkOrbit rs (4 / 5) ⟨1, 3, π / 2, 2⟩ vel none none = .ok o ∧ o.stable = false
    ∧ vel.r < 0 ∧ 0 < vel.theta
    ∧ o.trajectoryNat rs = .ok T ∧ T.at 0 = ⟨1, 3, π / 2, 2⟩ ∧ o.fourVelocity rs = .ok U
    ∧ U.at 0 = vel := by
  obtain ⟨r3, r4, hr, h3⟩ := exPlunge_roots
  have hE : √(66825 / 91777) ^ 2 < (1 : ℝ) := by rw [exPlungeE]; norm_num
  have hE0 : 0 < √(66825 / 91777 : ℝ) := Real.sqrt_pos.mpr (by norm_num)
  have hpi := Real.pi_pos
  have hS : Spec.Sigma (4 / 5) 3 (π / 2) = 9 := by simp [Spec.Sigma]; norm_num
  have hD : Spec.Delta (4 / 5) 3 ≠ 0 := by norm_num [Spec.Delta]
  have hR : 0 < Spec.R (4 / 5) (√(66825 / 91777)) (4 / 5 * √(66825 / 91777)) (98 / 1873) 3 := by
    rw [exPlunge_R, Real.sq_sqrt (by norm_num : (0:ℝ) ≤ 784 / 15595 - (49 / 15595) ^ 2), exPlungeE]
    norm_num
  have hT : Spec.Theta (4 / 5) (√(66825 / 91777)) (4 / 5 * √(66825 / 91777)) (98 / 1873) (π / 2)
      = 98 / 1873 := by simp [Spec.Theta]
  obtain ⟨hc, hn⟩ := velocityOf_ok (a := 4 / 5) (E := √(66825 / 91777)) (L := 4 / 5 * √(66825 / 91777))
    (Q := 98 / 1873) (sr := -1) (sθ := 1) (pos := ⟨1, 3, π / 2, 2⟩) (by norm_num) (by norm_num)
    (by simp only [hS]; norm_num) hD (by simp) hR.le (by simp only [hT]; norm_num)
  obtain ⟨o, ho, hst, hcs⟩ := C44_constructible rs none none (by norm_num) hc hn hE hr
  obtain ⟨T, U, h⟩ := C44_velocity ho hst hcs hE hr (by simp only [hS]; norm_num) hD (by norm_num)
    (.inl (by positivity)) (by norm_num) (by simp only []; positivity) (by simp only []; linarith) hn
  refine ⟨_, o, T, U, ho, hst, ?_, ?_, h⟩
  · simp only [Spec.velocityOf, hS]
    have := Real.sqrt_pos.mpr hR
    linarith
  · simp only [Spec.velocityOf, hS, hT]
    have : 0 < √(98 / 1873 : ℝ) := Real.sqrt_pos.mpr (by norm_num)
    linarith

end KGP

namespace KGP

open Classical Real

/-- **C34 (constructibility of plunges with four real roots).** Every normalised initial velocity
classified as a plunge by `is_stable`, with `L ≠ 0` and four real roots, is accepted by `Orbit`. -/
theorem C34_real_constructible (rs : RootScalar) {a E L Q r1 r2 r3 r4 : ℝ} {pos vel : Vec4}
    (M mu : Option ℝ) (ha : a ≠ 0)
    (hc : constantsFromInitialConditions a pos vel = .ok (E, L, Q))
    (hnorm : norm4 a pos.t pos.r pos.theta pos.phi vel = -1) (hE : E ^ 2 < 1) (hL : L ≠ 0)
    (hr : plungingRadialRoots a E L Q = .ok (.real r1 r2 r3 r4))
    (hcl : icIsStable a pos vel (some (E, L, Q)) = .ok false) :
    ∃ o, mkOrbit rs a pos vel M mu = .ok o ∧ o.stable = false ∧ o.consts = (E, L, Q) := by
  have hg : orbitNormGuard a pos vel = .ok () := by
    unfold orbitNormGuard raiseIf
    rw [hnorm]
    norm_num [bind, Except.bind]
  have hcl' : icIsStable a pos vel = .ok false := by
    unfold icIsStable at hcl ⊢
    simp only [icConstantsOr, hc, bind_ok, pure, Except.pure] at hcl ⊢
    exact hcl
  obtain ⟨zm, zp, hz, -⟩ := polarRootsNumpy_real (Q := Q) ha (by linarith : 0 < 1 - E ^ 2) hL
  have hu : ∃ u, plungingMinoFrequencies a E L Q = .ok u := by
    unfold plungingMinoFrequencies
    simp only [hr, bind_ok, plungingMinoFrequenciesOf, hz]
    exact ⟨_, rfl⟩
  obtain ⟨⟨uR, uT⟩, hu⟩ := hu
  have hph : ∃ q, plungingOrbitInitialPhases a pos vel = .ok q := by
    unfold plungingOrbitInitialPhases stableOrbitInitialPhases
    simp only [icConstantsOr, hc, hr, hz, bind_ok, pure, Except.pure]
    exact ⟨_, rfl⟩
  obtain ⟨q, hq⟩ := hph
  unfold mkOrbit
  simp only [hg, hc, hcl', hu, hq, bind_ok, raiseIf, if_neg ha, Bool.false_eq_true, if_false]
  exact ⟨_, rfl, rfl, rfl⟩

/-! ### A concrete potential with four real roots: `a = 12/13`, `E² = 104366031/114825191`,
`L = 12E/13`, `Q = 8294400/679439`; the roots are `576/955`, `2880/1369`, `8`, `45/4` and the horizons
`8/13`, `18/13`. -/

noncomputable def exE : ℝ := √(104366031 / 114825191)

lemma exE_sq : exE ^ 2 = 104366031 / 114825191 := Real.sq_sqrt (by norm_num)

lemma exE_pos : 0 < exE := Real.sqrt_pos.mpr (by norm_num)

lemma exReal_roots : Spec.RadialRoots (12 / 13) exE (12 / 13 * exE) (8294400 / 679439)
    (45 / 4) 8 (2880 / 1369) (576 / 955) := by
  intro r
  have hE := exE_sq
  rw [hE]
  generalize exE = E at *
  unfold Spec.R Spec.Delta
  linear_combination (r ^ 2 + (12 / 13) ^ 2 - 12 / 13 * (12 / 13)) ^ 2 * hE

lemma exHorizon : √(1 - (12 / 13 : ℝ) ^ 2) = 5 / 13 := by
  rw [show 1 - (12 / 13 : ℝ) ^ 2 = (5 / 13) ^ 2 by norm_num]
  exact Real.sqrt_sq (by norm_num)

lemma exPlungeLabels : plungingRadialRoots (12 / 13) exE (12 / 13 * exE) (8294400 / 679439)
    = .ok (.real (2880 / 1369) (576 / 955) (45 / 4) 8) := by
  have h := npRoots_radial_real (a := 12 / 13) (E := exE) (L := 12 / 13 * exE) (Q := 8294400 / 679439)
    (lead := -(1 - exE ^ 2)) (s0 := 576 / 955) (s1 := 2880 / 1369) (s2 := 8) (s3 := 45 / 4)
    (by rw [exE_sq]; norm_num) (fun r => by rw [exReal_roots]; ring) (by norm_num) (by norm_num)
    (by norm_num)
  rw [plungingRadialRoots, h, labelPlungeRoots,
    realRoots_four (by norm_num) (by norm_num) (by norm_num), exHorizon]
  norm_num

/-- `a = 5/8`, `E = √(7/8)`, `L = 25/8 E`, `Q = 0`: an equatorial orbit with radial roots
`10, 7/2, 5/2, 0`. -/
lemma exEquatorial_roots : Spec.RadialRoots (5 / 8) (√(7 / 8)) (25 / 8 * √(7 / 8)) 0 10 (7 / 2) (5 / 2) 0 := by
  intro r
  have hE : √(7 / 8) ^ 2 = (7 / 8 : ℝ) := Real.sq_sqrt (by norm_num)
  rw [hE]
  generalize √(7 / 8) = E at *
  unfold Spec.R Spec.Delta
  linear_combination ((r ^ 2 + (5 / 8) ^ 2 - 5 / 8 * (25 / 8)) ^ 2
    - (r ^ 2 - 2 * r + (5 / 8) ^ 2) * (25 / 8 - 5 / 8) ^ 2) * hE

lemma exEquatorial_labels : plungingRadialRoots (5 / 8) (√(7 / 8)) (25 / 8 * √(7 / 8)) 0
    = .ok (.real (5 / 2) 0 10 (7 / 2)) := by
  have hE : √(7 / 8) ^ 2 = (7 / 8 : ℝ) := Real.sq_sqrt (by norm_num)
  have h := npRoots_radial_real (a := 5 / 8) (E := √(7 / 8)) (L := 25 / 8 * √(7 / 8)) (Q := 0)
    (lead := -(1 - √(7 / 8) ^ 2)) (s0 := 0) (s1 := 5 / 2) (s2 := 7 / 2) (s3 := 10)
    (by rw [hE]; norm_num) (fun r => by rw [exEquatorial_roots]; ring) (by norm_num) (by norm_num)
    (by norm_num)
  rw [plungingRadialRoots, h, labelPlungeRoots,
    realRoots_four (by norm_num) (by norm_num) (by norm_num)]
  have h2 := Real.sqrt_nonneg (1 - (5 / 8 : ℝ) ^ 2)
  simp only []
  rw [if_pos (show (5 / 2 : ℝ) > 1 - √(1 - (5 / 8) ^ 2) by linarith)]

/-- The violation is reached by an ordinary `Orbit`: a particle in the equatorial plane at `r = 2`, moving
inwards, is accepted; its azimuth starts at `3`, but its time coordinate is never a number. -/
example (rs : RootScalar) : ∃ (vel : Vec4) (o : OrbitObj) (T : Traj),
    mkOrbit rs (5 / 8) ⟨1, 2, π / 2, 3⟩ vel none none = .ok o ∧ o.stable = false
    ∧ vel.r < 0 ∧ o.trajectoryNat rs = .ok T ∧ T.t = pyInfTimes := by
  have hE2 : √(7 / 8) ^ 2 = (7 / 8 : ℝ) := Real.sq_sqrt (by norm_num)
  have hE0 : 0 < √(7 / 8 : ℝ) := Real.sqrt_pos.mpr (by norm_num)
  have hE : √(7 / 8 : ℝ) ^ 2 < 1 := by rw [hE2]; norm_num
  have hS : Spec.Sigma (5 / 8) 2 (π / 2) = 4 := by simp [Spec.Sigma]; norm_num
  have hD : Spec.Delta (5 / 8) 2 ≠ 0 := by norm_num [Spec.Delta]
  have hR : 0 < Spec.R (5 / 8) (√(7 / 8)) (25 / 8 * √(7 / 8)) 0 2 := by
    rw [exEquatorial_roots, hE2]; norm_num
  have hT : Spec.Theta (5 / 8) (√(7 / 8)) (25 / 8 * √(7 / 8)) 0 (π / 2) = 0 := by
    simp [Spec.Theta]
  obtain ⟨hc, hn⟩ := velocityOf_ok (a := 5 / 8) (E := √(7 / 8)) (L := 25 / 8 * √(7 / 8))
    (Q := 0) (sr := -1) (sθ := 1) (pos := ⟨1, 2, π / 2, 3⟩) (by norm_num) (by norm_num)
    (by simp only [hS]; norm_num) hD (by simp) hR.le (by simp only [hT]; norm_num)
  have hL : 25 / 8 * √(7 / 8) ≠ (0:ℝ) := by positivity
  have hs := Real.sqrt_nonneg (1 - (5 / 8 : ℝ) ^ 2)
  obtain ⟨-, -, c3, -⟩ := C36_four_real (5 / 8) (√(7 / 8)) (25 / 8 * √(7 / 8)) 0 1e-4
    10 (7 / 2) (5 / 2) 0 ⟨1, 2, π / 2, 3⟩
    (Spec.velocityOf (5 / 8) (√(7 / 8)) (25 / 8 * √(7 / 8)) 0 ⟨1, 2, π / 2, 3⟩ (-1) 1) hE.ne
    exEquatorial_roots (by norm_num) (by norm_num) (by norm_num)
  obtain ⟨o, ho, hst, hcs⟩ := C34_real_constructible rs none none (by norm_num) hc hn hE hL
    exEquatorial_labels (c3 (by
      refine ⟨by linarith, ?_⟩
      norm_num))
  obtain ⟨T, h1, h2⟩ := C34_equatorial_violation ho hst hcs hE hL exEquatorial_labels rfl rfl (by norm_num)
  refine ⟨_, o, T, ho, hst, ?_, h1, h2⟩
  simp only [Spec.velocityOf, hS]
  have := Real.sqrt_pos.mpr hR
  linarith

/-- A real-root plunging `Orbit` started inwards at `r = 2` with a polar velocity meets all hypotheses of
the theorems above, and starts there with that velocity. -/
example (rs : RootScalar) : ∃ (vel : Vec4) (o : OrbitObj) (T U : Traj),
    mkOrbit rs (12 / 13) ⟨1, 2, π / 2, 3⟩ vel none none = .ok o ∧ o.stable = false
    ∧ vel.r < 0 ∧ 0 < vel.theta
    ∧ o.trajectoryNat rs = .ok T ∧ T.at 0 = ⟨1, 2, π / 2, 3⟩ ∧ o.fourVelocity rs = .ok U
    ∧ U.at 0 = vel := by
  have hpi := Real.pi_pos
  have hE0 := exE_pos
  have hE2 := exE_sq
  have hE : exE ^ 2 < 1 := by rw [hE2]; norm_num
  have hS : Spec.Sigma (12 / 13) 2 (π / 2) = 4 := by simp [Spec.Sigma]; norm_num
  have hD : Spec.Delta (12 / 13) 2 ≠ 0 := by norm_num [Spec.Delta]
  have hR : 0 < Spec.R (12 / 13) exE (12 / 13 * exE) (8294400 / 679439) 2 := by
    rw [exReal_roots, hE2]; norm_num
  have hT : Spec.Theta (12 / 13) exE (12 / 13 * exE) (8294400 / 679439) (π / 2) = 8294400 / 679439 := by
    simp [Spec.Theta]
  obtain ⟨hc, hn⟩ := velocityOf_ok (a := 12 / 13) (E := exE) (L := 12 / 13 * exE)
    (Q := 8294400 / 679439) (sr := -1) (sθ := 1) (pos := ⟨1, 2, π / 2, 3⟩) (by norm_num) (by norm_num)
    (by simp only [hS]; norm_num) hD (by simp) hR.le (by simp only [hT]; norm_num)
  have hL : 12 / 13 * exE ≠ 0 := by positivity
  obtain ⟨-, -, c3, -⟩ := C36_four_real (12 / 13) exE (12 / 13 * exE) (8294400 / 679439) 1e-4
    (45 / 4) 8 (2880 / 1369) (576 / 955) ⟨1, 2, π / 2, 3⟩
    (Spec.velocityOf (12 / 13) exE (12 / 13 * exE) (8294400 / 679439) ⟨1, 2, π / 2, 3⟩ (-1) 1) hE.ne
    exReal_roots (by norm_num) (by norm_num) (by norm_num)
  obtain ⟨o, ho, hst, hcs⟩ := C34_real_constructible rs none none (by norm_num) hc hn hE hL
    exPlungeLabels (c3 (by rw [exHorizon]; norm_num))
  obtain ⟨T, U, h⟩ := C35_real_plunge ho hst hcs hE hL exPlungeLabels (by norm_num) (by norm_num)
    (by simp only [hS]; norm_num) hD (by simp only []; positivity) (by simp only []; linarith)
    (by norm_num) (by norm_num) hn (.inr (by norm_num [abs_of_neg])) (.inr (by norm_num [abs_of_pos])) (by
      intro zm h0 h1 hz
      have hz' : 1 / 4 ≤ zm := by
        unfold Spec.Zpol at hz
        rw [mul_pow, hE2] at hz
        nlinarith
      have hs : 1 / 2 ≤ √zm := by
        rw [show (1 / 2 : ℝ) = √(1 / 4) by
          rw [show (1 / 4 : ℝ) = (1 / 2) ^ 2 by norm_num, Real.sqrt_sq (by norm_num)]]
        exact Real.sqrt_le_sqrt hz'
      have hs1 : √zm ≤ 1 := Real.sqrt_le_one.mpr h1.le
      have h2 : 1 / 2 ≤ arcsin (√zm) := by
        have h3 : 0 ≤ arcsin (√zm) := Real.arcsin_nonneg.mpr (Real.sqrt_nonneg _)
        have := Real.sin_le h3
        rw [Real.sin_arcsin (by linarith) hs1] at this
        linarith
      rw [Real.arccos]
      constructor
      · right
        rw [abs_of_nonneg (by simp only []; linarith)]
        simp only []
        norm_num; linarith
      · right
        rw [abs_of_nonpos (by simp only []; linarith)]
        simp only []
        norm_num; linarith)
  refine ⟨_, o, T, U, ho, hst, ?_, ?_, h⟩
  · simp only [Spec.velocityOf, hS]
    have := Real.sqrt_pos.mpr hR
    linarith
  · simp only [Spec.velocityOf, hS, hT]
    have : 0 < √(8294400 / 679439 : ℝ) := Real.sqrt_pos.mpr (by norm_num)
    linarith

end KGP

namespace KGP

open Classical Real

/-- **C34 (violated for Schwarzschild).** For `a = 0` and an initial polar angle off the turning points
`stable_orbit_initial_phases` computes the polar phase from a polar frequency that is not a number: it
passes the radial roots to `_theta_frequency_from_constants` in ascending order, so that the latter
computes `p = 0`, `e = -1` and divides by the square root of `-4`. -/
theorem C34_schwarzschild_violation {rs : RootScalar} {pos vel : Vec4} {M mu : Option ℝ} {o : OrbitObj}
    {E L Q r1 r2 r3 zm zp : ℝ} (ho : mkOrbit rs 0 pos vel M mu = .ok o)
    (hcs : o.consts = (E, L, Q)) (hE : E ^ 2 < 1) (hR : Spec.RadialRoots 0 E L Q r1 r2 r3 0)
    (h3 : 0 < r3) (h32 : r3 ≤ r2) (h21 : r2 ≤ r1) (hz : polarRootsNumpy 0 E L Q = .ok (zm, zp))
    (n1 : 1e-4 ≤ |pos.theta - arccos (√zm)|) (n2 : 1e-4 ≤ |pos.theta - (π - arccos (√zm))|) :
    ∃ lam, o.phases.qtheta
      = if vel.theta < 0 then lam * (0 / npSqrt (-4)) + 3 * π / 2 else π / 2 - lam * (0 / npSqrt (-4)) := by
  have hs : o.stable = true := (C37_schwarzschild rs M mu).2 pos vel o ho
  obtain ⟨E', L', Q', p, e, x, m, hc, hap, hm, hq, hoa, -, hocs, -⟩ := mkOrbit_stable ho hs
  obtain ⟨rfl, rfl, rfl⟩ : E' = E ∧ L' = L ∧ Q' = Q := by
    rw [hocs] at hcs; simpa using hcs
  have hrad : radialRootsNumpy 0 E' L' Q' = .ok (0, r3, r2, r1) := by
    have := npRoots_radial_real (a := 0) (E := E') (L := L') (Q := Q') (lead := -(1 - E' ^ 2))
      (s0 := 0) (s1 := r3) (s2 := r2) (s3 := r1) (by linarith)
      (fun r => by rw [hR]; ring) h3.le h32 h21
    rw [radialRootsNumpy, this]
    simp
  have hph := stablePhases_eq hc hz hrad hq
  have hu : thetaFrequencyFromConstants 0 (E', L', Q') (0, r3, r2, r1) (zm, zp) = 0 / npSqrt (-4) := by
    have e1 : (0 - r3) / (0 + r3) = -1 := by field_simp; ring
    simp only [thetaFrequencyFromConstants, if_true, e1, mul_zero, zero_mul, zero_div]
  rw [hph]
  simp only [initialPhaseTheta, if_neg (not_lt.mpr n1), if_neg (not_lt.mpr n2), hu,
    initialPhaseThetaBranch_eq]
  exact ⟨_, rfl⟩

end KGP
