import Verif.Props.GeodesicApi
import Verif.Props.Deltas

/-!
# C43: negative spins

`StableOrbit` replaces `(a, x)` with `(|a|, sgn(a) x)` before doing anything else, so for `a < 0` it
returns a geodesic of the spin-`|a|` hole.  `stable_trajectory` called directly computes the constants
of motion and the frequencies for the standardised parameters, but hands the raw `a` to
`radial_solutions`; the azimuth it returns is therefore not a geodesic for either sign of the spin.
-/

namespace KGP

open Classical Real

lemma polarSolutionsCore_abs (a : ℝ) (cs : Consts) (zm zp : ℝ) :
    polarSolutionsCore |a| cs zm zp = polarSolutionsCore a cs zm zp := by
  simp only [polarSolutionsCore, e0zpOf, a2sqrtZpOverE0, kThetaOf, sq_abs, abs_eq_zero]

lemma stableRadialRootsCore_abs (a p e : ℝ) (cs : Consts) :
    stableRadialRootsCore |a| p e cs = stableRadialRootsCore a p e cs := by
  simp only [stableRadialRootsCore, sq_abs]

lemma stablePolarRootsCore_std (a x : ℝ) (cs : Consts) :
    stablePolarRootsCore |a| (sx a x) cs = stablePolarRootsCore a x cs := by
  simp only [stablePolarRootsCore, sq_abs, sx_sq, abs_eq_zero]

lemma radialSolutions_pos_abs (a : ℝ) (cs : Consts) (rr : Roots4) :
    (radialSolutions |a| cs rr).pos = (radialSolutions a cs rr).pos := by
  simp only [radialSolutions]

lemma abs_eq_sa (a : ℝ) : |a| = sa a := by unfold sa; rfl

section
variable {rs : RootScalar} {a p e x : ℝ} {q : Phases} {T T' : Traj} {E L Q r1 r2 r3 r4 : ℝ}
  (ha : a < 0) (hT : stableTrajectoryNat rs a p e x q = .ok T)
  (hT' : stableTrajectoryNat rs |a| p e (Spec.signedX a x) q = .ok T')
  (hc : constantsOfMotion rs |a| p e (Spec.signedX a x) = .ok (E, L, Q))
  (hr : stableRadialRoots rs |a| p e (Spec.signedX a x) = .ok (r1, r2, r3, r4))
  (hb : Spec.BoundGeodesic |a| E L Q r1 r2 r3 r4) (hE : 0 < E)
include ha hT hT' hc hr hb hE

omit hE in
/-- **C43 (violated).** For `a < 0`, `stable_trajectory(a, p, e, x)` has the radial and polar motion of
the geodesic `T'` of the standardised orbit, but its azimuthal velocity is off: it differs from that of
the spin-`|a|` geodesic by `4|a|E (c - r/Δ)` and from that of the spin-`a` geodesic by the non-zero
constant `4|a|E c`, where `c` is the value of `r/Δ` at some point of the orbit. -/
theorem C43_azimuth : T.r = T'.r ∧ T.theta = T'.theta ∧
    ∃ lam0, ∀ lam,
      let f := fun l => T'.r l / Spec.Delta a (T'.r l)
      0 < f lam ∧
      HasDerivAt T.phi (Spec.dphidlam |a| E L (T.r lam) (T.theta lam)
        + 4 * |a| * E * (f lam0 - f lam)) lam ∧
      HasDerivAt T.phi (Spec.dphidlam a E L (T.r lam) (T.theta lam) + 4 * |a| * E * f lam0) lam := by
  have ha0 := abs_nonneg a
  obtain ⟨m, zm, zp, D⟩ := stableData_of ha0 hT' hc hr
  have HR := BoundGeodesic.config hb
  obtain ⟨m', cs, zz, hm', hcs, hz, hTe⟩ := stableTrajectoryNat_ok hT
  have em : m' = m := by
    have h1 := D.mino
    rw [← sx_eq, abs_eq_sa, minoFrequencies_eq, sa_sa, sx_sa, ← minoFrequencies_eq] at h1
    exact Except.ok.inj (hm'.symm.trans h1)
  have ec : cs = (E, L, Q) := by
    have h1 := hc
    rw [← sx_eq, abs_eq_sa, constantsOfMotion_std] at h1
    exact Except.ok.inj (hcs.symm.trans h1)
  subst em ec
  have ezz : zz = (zm, zp) := by
    rw [hz, ← stablePolarRootsCore_std, sx_eq]; exact D.hzz
  have err : stableRadialRootsCore a p e (E, L, Q) = (r1, r2, r3, r4) := by
    rw [← stableRadialRootsCore_abs]; exact D.hrr
  rw [ezz, err, ← polarSolutionsCore_abs] at hTe
  have eR : T.r = T'.r := by
    rw [hTe, D.hT]; simp only [assembleTrajectory, radialSolutions_pos_abs]
  have eTh : T.theta = T'.theta := by
    rw [hTe, D.hT]; simp only [assembleTrajectory]
  refine ⟨eR, eTh, ?_⟩
  have hD0 : ∀ lam, 0 < Spec.Delta a (T'.r lam) ∧ 0 < T'.r lam := by
    intro lam
    obtain ⟨h1, h2⟩ := D.outside hb lam
    refine ⟨?_, by linarith [Real.sqrt_nonneg (1 - |a| ^ 2)]⟩
    unfold Spec.Delta at h1 ⊢; rwa [sq_abs] at h1
  have hU := D.upsilonR
  have hUpos : 0 < m'.upsilonR := (C20_radial ha0 hT' D.mino hc hr hb).2.2.2.1
  have hhor : 1 + √(1 - a ^ 2) < r3 := by have := hb.horizon; rwa [sq_abs] at this
  have hsq := Real.sqrt_nonneg (1 - a ^ 2)
  have ha2 : 0 < 1 - a ^ 2 := by have := D.spin; rw [← sq_abs]; nlinarith
  have hs1 := Real.sqrt_pos.mpr ha2
  have hs2 := Real.sq_sqrt ha2.le
  have hm1 : 1 - √(1 - a ^ 2) < r3 := by linarith
  -- derivative of the difference of the radial parts
  obtain ⟨K, hK⟩ : ∃ K, K = phiR |a| E L r1 r2 r3 r4 - phiR a E L r1 r2 r3 r4 := ⟨_, rfl⟩
  obtain ⟨g, hg⟩ : ∃ g : ℝ → ℝ, g = fun l =>
      (radialSolutions |a| (E, L, Q) (r1, r2, r3, r4)).dphi (m'.upsilonR * l + q.qr)
      - (radialSolutions a (E, L, Q) (r1, r2, r3, r4)).dphi (m'.upsilonR * l + q.qr) := ⟨_, rfl⟩
  have hd : ∀ lam, HasDerivAt g (4 * |a| * E * (T'.r lam / Spec.Delta a (T'.r lam)) - K) lam := by
    intro lam
    obtain ⟨-, d1⟩ := radial_dt (Q := Q) HR (show 0 < 1 - E ^ 2 by linarith [hb.energy])
      (a := a) (L := L) (lt_trans hhor hb.r32) hhor.ne' hm1.ne' q.qr lam
    obtain ⟨-, d2⟩ := radial_dt (Q := Q) HR (show 0 < 1 - E ^ 2 by linarith [hb.energy])
      (a := |a|) (L := L) (by rw [sq_abs]; exact lt_trans hhor hb.r32) (by rw [sq_abs]; exact hhor.ne')
      (by rw [sq_abs]; exact hm1.ne') q.qr lam
    rw [← hU] at d1 d2
    have hr' : (radialSolutions a (E, L, Q) (r1, r2, r3, r4)).pos (m'.upsilonR * lam + q.qr) = T'.r lam := by
      rw [D.hT]; simp only [assembleTrajectory, radialSolutions_pos_abs]
    have hr'' : (radialSolutions |a| (E, L, Q) (r1, r2, r3, r4)).pos (m'.upsilonR * lam + q.qr) = T'.r lam := by
      rw [D.hT]; simp only [assembleTrajectory, radialSolutions_pos_abs]
    rw [hr'] at d1
    rw [hr'', sq_abs] at d2
    have hd := d2.sub d1
    rw [hg]
    refine hd.congr_deriv ?_
    have hfac : Spec.Delta a (T'.r lam) = (T'.r lam - (1 + √(1 - a ^ 2))) * (T'.r lam - (1 - √(1 - a ^ 2))) := by
      unfold Spec.Delta; linear_combination hs2
    have hb2 := (D.r_bounds hb lam).1
    have h32 := hb.r32
    have k1 : T'.r lam - (1 + √(1 - a ^ 2)) ≠ 0 := by linarith
    have k2 : T'.r lam - (1 - √(1 - a ^ 2)) ≠ 0 := by linarith
    have A1 := dphi_algebra (E := E) (l := a * L) (b := a ^ 2) (S := √(1 - a ^ 2)) (r := T'.r lam)
      (by linarith) hs1.ne' k1 k2
    have A2 := dphi_algebra (E := E) (l := |a| * L) (b := a ^ 2) (S := √(1 - a ^ 2)) (r := T'.r lam)
      (by linarith) hs1.ne' k1 k2
    have hkey : |a| * ((E * (T'.r lam ^ 2 + a ^ 2) - |a| * L) / ((T'.r lam - (1 + √(1 - a ^ 2))) * (T'.r lam - (1 - √(1 - a ^ 2)))) - E)
        - a * ((E * (T'.r lam ^ 2 + a ^ 2) - a * L) / ((T'.r lam - (1 + √(1 - a ^ 2))) * (T'.r lam - (1 - √(1 - a ^ 2)))) - E)
        = 4 * |a| * E * (T'.r lam / ((T'.r lam - (1 + √(1 - a ^ 2))) * (T'.r lam - (1 - √(1 - a ^ 2))))) := by
      rw [← hfac]
      have hDne := (hD0 lam).1.ne'
      rw [abs_of_neg ha]
      field_simp
      unfold Spec.Delta
      ring
    rw [hfac, ← hkey, hK, ← A1, ← A2]
    ring
  -- periodicity gives a point where the derivative vanishes
  obtain ⟨-, per1, -, -⟩ := HR.dt_dphi_osc (a := a) (E := E) (L := L) (Q := Q) (lt_trans hhor hb.r32)
  obtain ⟨-, per2, -, -⟩ := HR.dt_dphi_osc (a := |a|) (E := E) (L := L) (Q := Q)
    (by rw [sq_abs]; exact lt_trans hhor hb.r32)
  have hgp : g 0 = g (2 * π / m'.upsilonR) := by
    rw [hg]
    simp only [mul_zero, zero_add]
    rw [show m'.upsilonR * (2 * π / m'.upsilonR) + q.qr = q.qr + 2 * π by field_simp; ring, per1, per2]
  obtain ⟨lam0, -, h0⟩ := exists_hasDerivAt_eq_zero (f := g)
    (f' := fun lam => 4 * |a| * E * (T'.r lam / Spec.Delta a (T'.r lam)) - K)
    (a := 0) (b := 2 * π / m'.upsilonR) (by positivity)
    (fun l _ => (hd l).continuousAt.continuousWithinAt) hgp (fun l _ => hd l)
  refine ⟨lam0, fun lam => ?_⟩
  intro f
  have hphi : T.phi = fun l => T'.phi l - g l + g 0 := by
    funext l
    rw [hTe, D.hT, hg]
    simp only [assembleTrajectory, mul_zero, zero_add]
    ring
  have hmain : HasDerivAt T.phi (Spec.dphidlam |a| E L (T.r lam) (T.theta lam)
        + 4 * |a| * E * (f lam0 - f lam)) lam := by
    rw [hphi, eR, eTh]
    refine (((D.timeEq hb lam).2.sub (hd lam)).add_const _).congr_deriv ?_
    simp only [f]
    linear_combination -h0
  refine ⟨div_pos (hD0 lam).2 (hD0 lam).1, hmain, hmain.congr_deriv ?_⟩
  simp only [f, Spec.dphidlam, eR, eTh]
  have e1 : Spec.Delta |a| (T'.r lam) = Spec.Delta a (T'.r lam) := by unfold Spec.Delta; rw [sq_abs]
  rw [e1, abs_of_neg ha]
  have hDne := (hD0 lam).1.ne'
  have hsin := (D.polarEq hb lam).2.1.ne'
  field_simp
  unfold Spec.Delta
  ring

/-- **C43 (violated).** In particular the trajectory returned for an eccentric orbit with `a < 0` is
not the one of the `StableOrbit` with the same arguments, and is not a geodesic with the constants
`E`, `L` for the spin `|a|`, nor (whatever the eccentricity) for the spin `a`. -/
theorem C43_not_geodesic :
    (e ≠ 0 → T.phi ≠ T'.phi)
    ∧ (e ≠ 0 → ¬ ∀ lam, HasDerivAt T.phi (Spec.dphidlam |a| E L (T.r lam) (T.theta lam)) lam)
    ∧ ∀ lam, ¬ HasDerivAt T.phi (Spec.dphidlam a E L (T.r lam) (T.theta lam)) lam := by
  obtain ⟨eR, eTh, lam0, hl⟩ := C43_azimuth ha hT hT' hc hr hb
  have ha0 := abs_nonneg a
  have hapos : 0 < |a| := abs_pos.mpr ha.ne
  obtain ⟨m, zm, zp, D⟩ := stableData_of ha0 hT' hc hr
  have hk : 0 < 4 * |a| * E := by positivity
  obtain ⟨hrange, hmin, hmax, hU, -, -⟩ := C20_radial ha0 hT' D.mino hc hr hb
  have hnot : e ≠ 0 → ¬ ∀ lam, HasDerivAt T.phi (Spec.dphidlam |a| E L (T.r lam) (T.theta lam)) lam := by
    intro he h
    have hconst : ∀ lam, T'.r lam / Spec.Delta a (T'.r lam)
        = T'.r lam0 / Spec.Delta a (T'.r lam0) := by
      intro lam
      have h1 := (h lam).unique (hl lam).2.1
      have h2 : 4 * |a| * E * (T'.r lam0 / Spec.Delta a (T'.r lam0) - T'.r lam / Spec.Delta a (T'.r lam)) = 0 := by
        linarith
      rcases mul_eq_zero.mp h2 with h3 | h3
      · exact absurd h3 hk.ne'
      · linarith
    have hA := hmin (-q.qr / m.upsilonR) 0 (by field_simp; simp)
    have hB := hmax ((π - q.qr) / m.upsilonR) 0 (by field_simp; simp)
    obtain ⟨h1, h2⟩ := D.roots12
    rw [← h2] at hA
    rw [← h1] at hB
    have hAB := (hconst (-q.qr / m.upsilonR)).trans (hconst ((π - q.qr) / m.upsilonR)).symm
    have oA := D.outside hb (-q.qr / m.upsilonR)
    have oB := D.outside hb ((π - q.qr) / m.upsilonR)
    rw [hA] at hAB oA
    rw [hB] at hAB oB
    have hsq : (|a|) ^ 2 < 1 := by nlinarith [D.spin.1, D.spin.2]
    have hs := Real.sqrt_nonneg (1 - |a| ^ 2)
    have hD2 : Spec.Delta a r2 ≠ 0 := by have := oA.1.ne'; unfold Spec.Delta at this ⊢; rwa [sq_abs] at this
    have hD1 : Spec.Delta a r1 ≠ 0 := by have := oB.1.ne'; unfold Spec.Delta at this ⊢; rwa [sq_abs] at this
    rw [div_eq_div_iff hD2 hD1] at hAB
    unfold Spec.Delta at hAB
    have hfac : (r1 - r2) * (r1 * r2 - a ^ 2) = 0 := by linear_combination hAB
    rw [sq_abs] at hsq
    have h12 : 1 < r1 * r2 := by nlinarith [oA.2, oB.2]
    rcases mul_eq_zero.mp hfac with h3 | h3
    · apply he
      have hp : 0 < p := by
        have : 0 < r2 := by linarith [oA.2]
        have h4 := D.ecc.1
        rw [h2] at this
        by_contra h5
        have := div_nonpos_of_nonpos_of_nonneg (not_lt.mp h5) (by linarith : 0 ≤ 1 + e)
        linarith
      have h4 : r1 = r2 := by linarith
      rw [h1, h2, div_eq_div_iff (by linarith [D.ecc.2]) (by linarith [D.ecc.1])] at h4
      have : p * (2 * e) = 0 := by linarith
      rcases mul_eq_zero.mp this with h6 | h6
      · exact absurd h6 hp.ne'
      · linarith
    · linarith
  refine ⟨fun he heq => hnot he fun lam => ?_, hnot, fun lam h => ?_⟩
  · rw [heq, eR, eTh]; exact (D.timeEq hb lam).2
  · have h1 := h.unique (hl lam).2.2
    have h2 := mul_pos hk (hl lam0).1
    linarith

end

/-- **C43.** The hypotheses `hT`, `hT'`, `hc`, `hr` are met by all parameters accepted by the frequency
functions, whatever the sign of the spin: `stable_trajectory` raises no error. -/
theorem C43_accepts (rs : RootScalar) (a p e x : ℝ) (q : Phases)
    (h : Spec.BoundOrbit rs a p e x ∧ x ≠ 0 ∧ e ≠ 1) :
    (stableTrajectoryNat rs a p e x q).Returns
    ∧ (stableTrajectoryNat rs |a| p e (Spec.signedX a x) q).Returns
    ∧ (constantsOfMotion rs |a| p e (Spec.signedX a x)).Returns
    ∧ (stableRadialRoots rs |a| p e (Spec.signedX a x)).Returns := by
  obtain ⟨cs, m, hcs, hm, -, hT⟩ := stableTrajectoryNat_std h q
  have e1 : constantsOfMotion rs a p e x = .ok cs := by rw [← constantsOfMotion_std, hcs]
  have e2 : minoFrequencies rs a p e x = .ok m := by
    rw [← hm, minoFrequencies_eq, minoFrequencies_eq, sa_sa, sx_sa]
  rw [← sx_eq]
  refine ⟨⟨_, stableTrajectoryNat_of e2 e1 q⟩, hT, ⟨cs, hcs⟩, ?_⟩
  refine ⟨stableRadialRootsCore (sa a) p e cs, ?_⟩
  unfold stableRadialRoots
  rw [abs_eq_sa]
  simp only [constantsOr, hcs, bind_ok]
  rfl

end KGP
