import Verif.Props.StableExact
import Verif.Props.Future
import Verif.Props.NegativeSpin

/-!
# End to end: Kerr orbits

The theorems C20–C25, C46 assume that the numbers computed by the library are the constants and roots
of a bound geodesic.  Here that assumption is discharged: from the parameters alone, `stable_trajectory`
returns a geodesic.
-/

namespace KGP

open Classical Real

/-- The hypotheses of C20–C25 and C46 hold for accepted Kerr orbits. -/
lemma kerr_hyps {rs : RootScalar} {a p e x : ℝ} (q : Phases) (h : Spec.BoundOrbit rs a p e x)
    (ha : 0 < a) (he1 : e ≠ 1) (hx0 : x ≠ 0) (hp : 0 < x → p ≤ 4 → Spec.DivisorsNonzero a p e x)
    (hne : x < 0 ∨ ∀ E L Q, constantsOfMotion rs a p e x = .ok (E, L, Q) →
      E * ((1 + √(1 - a ^ 2)) ^ 2 + a ^ 2) ≠ a * L) :
    ∃ T m E L Q r1 r2 r3 r4, stableTrajectoryNat rs a p e x q = .ok T
      ∧ minoFrequencies rs a p e x = .ok m
      ∧ constantsOfMotion rs a p e x = .ok (E, L, Q)
      ∧ stableRadialRoots rs a p e x = .ok (r1, r2, r3, r4)
      ∧ Spec.BoundGeodesic a E L Q r1 r2 r3 r4 ∧ 0 < E ∧ E < 1 ∧ 0 < Real.sign x * L ∧ 0 ≤ Q
      ∧ a * L < E * (r2 ^ 2 + a ^ 2) ∧ 0 < r2 ∧ r2 = p / (1 + e) := by
  obtain ⟨E, L, Q, r1, r2, r3, r4, hc, hr, hE, hE1, hL, hQ, -, e2, -, h32, -, -, h3, -, hf,
    hb⟩ :=
    C04_boundGeodesic rs a p e x h ha he1 hx0 hp
  obtain ⟨m, hm⟩ := (C12_frequency_contract rs a p e x none none none).2.2.2.2.1.1.mpr
    ⟨h, hx0, he1⟩
  refine ⟨_, m, E, L, Q, r1, r2, r3, r4, stableTrajectoryNat_of hm hc q, hm, hc, hr, hb ?_, hE, hE1, hL,
    hQ, by rw [e2]; exact hf, ?_, e2⟩
  swap
  · linarith [Real.sqrt_nonneg (1 - a ^ 2)]
  rcases hne with hx | hx
  · intro heq
    rw [Real.sign_of_neg hx] at hL
    have h1 : 0 < E * ((1 + √(1 - a ^ 2)) ^ 2 + a ^ 2) := by positivity
    have h2 : 0 < a * -L := mul_pos ha (by linarith)
    linarith
  · exact hx E L Q hc

/-- The hypotheses of C20–C25 and C46 hold for accepted orbits. -/
lemma orbit_hyps {rs : RootScalar} {a p e x : ℝ} (q : Phases) (h : Spec.BoundOrbit rs a p e x)
    (ha : 0 ≤ a) (he1 : e ≠ 1) (hx0 : x ≠ 0) (hp : 0 < x → p ≤ 4 → Spec.DivisorsNonzero a p e x)
    (hne : x < 0 ∨ ∀ E L Q, constantsOfMotion rs a p e x = .ok (E, L, Q) →
      E * ((1 + √(1 - a ^ 2)) ^ 2 + a ^ 2) ≠ a * L) :
    ∃ T m E L Q r1 r2 r3 r4, stableTrajectoryNat rs a p e x q = .ok T
      ∧ minoFrequencies rs a p e x = .ok m
      ∧ constantsOfMotion rs a p e x = .ok (E, L, Q)
      ∧ stableRadialRoots rs a p e x = .ok (r1, r2, r3, r4)
      ∧ Spec.BoundGeodesic a E L Q r1 r2 r3 r4 ∧ 0 < E ∧ E < 1 ∧ 0 < Real.sign x * L ∧ 0 ≤ Q
      ∧ a * L < E * (r2 ^ 2 + a ^ 2) ∧ 0 < r2 ∧ r2 = p / (1 + e) := by
  rcases eq_or_lt_of_le ha with h0 | h0
  · subst h0
    obtain ⟨E, L, Q, r1, r2, r3, r4, hc, hr, hb⟩ := schwarzschild_boundGeodesic rs p e x h he1 hx0
    obtain ⟨E', L', Q', hc', hE, hE1, h1, h2, hQ, -⟩ := C07_turning rs p e x h he1
    have hcc := Except.ok.inj (hc.symm.trans hc')
    simp only [Prod.mk.injEq] at hcc
    obtain ⟨rfl, rfl, rfl⟩ := hcc
    obtain ⟨m, hm⟩ := (C12_frequency_contract rs 0 p e x none none none).2.2.2.2.1.1.mpr ⟨h, hx0, he1⟩
    have e2 : r2 = p / (1 + e) := by
      unfold stableRadialRoots at hr
      simp only [constantsOr, hc, bind_ok] at hr
      unfold stableRadialRootsCore at hr
      have := Except.ok.inj hr
      simp only [Prod.mk.injEq] at this
      exact this.2.1.symm
    have hr2 : 0 < r2 := by
      have k1 := hb.horizon
      have k2 := hb.r32
      have k3 := Real.sqrt_nonneg (1 - (0:ℝ) ^ 2)
      linarith
    refine ⟨_, m, E, L, Q, r1, r2, r3, r4, stableTrajectoryNat_of hm hc q, hm, hc, hr, hb, hE, hE1, ?_, hQ, ?_,
      hr2, e2⟩
    · rcases lt_or_gt_of_ne hx0 with k | k
      · rw [Real.sign_of_neg k]; linarith [h2 k]
      · rw [Real.sign_of_pos k]; linarith [h1 k]
    · have : 0 < E * (r2 ^ 2 + 0 ^ 2) := by positivity
      linarith
  · exact kerr_hyps q h h0 he1 hx0 hp hne

/-- **C20–C25, C46 from the parameters alone.** Let `0 ≤ a < 1`, `0 ≤ e < 1`, `x ≠ 0`, and let the orbit be accepted;
for a prograde orbit assume moreover that `r₊` is not a root of its radial potential and, if `p ≤ 4`, that the
divisors in the formulas for `E` and `L` do not vanish.  Then `stable_trajectory(a, p, e, x, q)` returns a curve which, for
every Mino time, moves between the two requested radii and inclinations, solves the four geodesic
equations with the constants returned by `constants_of_motion`, has unit timelike tangent, stays outside
the horizon, and runs into the future. -/
theorem C22_kerr (rs : RootScalar) (a p e x : ℝ) (q : Phases) (h : Spec.BoundOrbit rs a p e x)
    (ha : 0 ≤ a) (he1 : e ≠ 1) (hx0 : x ≠ 0) (hp : 0 < x → p ≤ 4 → Spec.DivisorsNonzero a p e x)
    (hne : x < 0 ∨ ∀ E L Q, constantsOfMotion rs a p e x = .ok (E, L, Q) →
      E * ((1 + √(1 - a ^ 2)) ^ 2 + a ^ 2) ≠ a * L) :
    ∃ T m E L Q, stableTrajectoryNat rs a p e x q = .ok T
      ∧ minoFrequencies rs a p e x = .ok m
      ∧ constantsOfMotion rs a p e x = .ok (E, L, Q)
      ∧ 0 < E ∧ E < 1 ∧ 0 < Real.sign x * L ∧ 0 ≤ Q
      ∧ 0 < m.upsilonR ∧ 0 < m.upsilonTheta ∧ 0 < m.gamma
      ∧ (∀ lam,
          HasDerivAt T.t (Spec.dtdlam a E L (T.r lam) (T.theta lam)) lam
          ∧ HasDerivAt T.r (Real.sign (sin (m.upsilonR * lam + q.qr)) * √(Spec.R a E L Q (T.r lam))) lam
          ∧ HasDerivAt T.theta (Real.sign (sin (m.upsilonTheta * lam + q.qtheta))
              * √(Spec.Theta a E L Q (T.theta lam))) lam
          ∧ HasDerivAt T.phi (Spec.dphidlam a E L (T.r lam) (T.theta lam)) lam
          ∧ p / (1 + e) ≤ T.r lam ∧ T.r lam ≤ p / (1 - e)
          ∧ arccos (√(1 - x ^ 2)) ≤ T.theta lam ∧ T.theta lam ≤ π - arccos (√(1 - x ^ 2))
          ∧ outerHorizon a < T.r lam
          ∧ norm4 a (T.t lam) (T.r lam) (T.theta lam) (T.phi lam)
              ((fourVelocity a T (E, L, Q) m.upsilonR m.upsilonTheta q).at lam) = -1)
      ∧ (∃ l1 l2, T.r l1 = p / (1 + e) ∧ T.r l2 = p / (1 - e))
      ∧ StrictMono T.t
      ∧ ∃ B, ∀ lam, |T.t lam - (q.qt + m.gamma * lam)| ≤ B
          ∧ |T.phi lam - (q.qphi + m.upsilonPhi * lam)| ≤ B := by
  obtain ⟨T, m, E, L, Q, r1, r2, r3, r4, hT, hm, hc, hr, hb, hE, hE1, hL, hQ, hf, hr2, e2⟩ :=
    orbit_hyps q h ha he1 hx0 hp hne
  obtain ⟨hrr, hper, hapo, hUr, -, -⟩ := C20_radial ha hT hm hc hr hb
  obtain ⟨hth, -, -, hUt, -⟩ := C20_polar ha hT hm hc hr hb
  obtain ⟨-, hmono, hg, -⟩ := C46_future ha hT hm hc hr hb hE hf
  refine ⟨T, m, E, L, Q, hT, hm, hc, hE, hE1, hL, hQ, hUr, hUt, ?_, ?_, ?_, hmono,
    C25_secular ha hT hm hc hr hb⟩
  · have : 0 < (p / (1 + e)) ^ 2 := by rw [← e2]; positivity
    linarith
  · intro lam
    obtain ⟨d1, d2, -, -⟩ := C21_radial_polar ha hT hm hc hr hb lam
    obtain ⟨d3, d4⟩ := C22_time_azimuth ha hT hm hc hr hb lam
    obtain ⟨n1, n2, -, -⟩ := C23_norm ha hT hm hc hr hb lam
    exact ⟨d3, d1, d2, d4, (hrr lam).1, (hrr lam).2, (hth lam).1, (hth lam).2, n2, n1⟩
  · refine ⟨-q.qr / m.upsilonR, (π - q.qr) / m.upsilonR, hper _ 0 ?_, hapo _ 0 ?_⟩
    · field_simp; push_cast; ring
    · field_simp; push_cast; ring

/-- Non-vacuity: a retrograde inclined eccentric orbit around a spinning hole, for any phases. -/
example (rs : RootScalar) (q : Phases) :
    ∃ T, stableTrajectoryNat rs (9 / 10) 13 (1 / 2) (-1 / 2) q = .ok T ∧ StrictMono T.t := by
  obtain ⟨T, m, E, L, Q, hT, -, -, -, -, -, -, -, -, -, -, -, hmono, -⟩ :=
    C22_kerr rs (9 / 10) 13 (1 / 2) (-1 / 2) q
      (C11_accepts_wide rs _ _ _ _ (by norm_num [abs_lt]) (by norm_num) (by norm_num)
        (by norm_num [abs_le]) (by norm_num)) (by norm_num) (by norm_num) (by norm_num)
      (fun h => absurd h (by norm_num)) (Or.inl (by norm_num))
  exact ⟨T, hT, hmono⟩

/-- **C43 (violated), from the parameters alone.** For every accepted orbit with `-1 < a < 0`, `0 ≤ e < 1`, `x ≠ 0`
and all phases `stable_trajectory` returns a curve whose azimuthal velocity is at no Mino time that of a
geodesic with spin `a`; and for `e > 0` it is not a geodesic with spin `|a|` either.  (For `x < 0`, which the code turns
into prograde orbits, with the same exceptions as in C22.) -/
theorem C43_kerr (rs : RootScalar) (a p e x : ℝ) (q : Phases) (h : Spec.BoundOrbit rs a p e x)
    (ha : a < 0) (he1 : e ≠ 1) (hx0 : x ≠ 0) (hp : x < 0 → p ≤ 4 → Spec.DivisorsNonzero a p e x)
    (hne : 0 < x ∨ ∀ E L Q, constantsOfMotion rs a p e x = .ok (E, L, Q) →
      E * ((1 + √(1 - a ^ 2)) ^ 2 + a ^ 2) ≠ |a| * L) :
    ∃ T E L Q, stableTrajectoryNat rs a p e x q = .ok T
      ∧ constantsOfMotion rs a p e x = .ok (E, L, Q)
      ∧ (∀ lam, ¬ HasDerivAt T.phi (Spec.dphidlam a E L (T.r lam) (T.theta lam)) lam)
      ∧ (e ≠ 0 → ¬ ∀ lam, HasDerivAt T.phi (Spec.dphidlam |a| E L (T.r lam) (T.theta lam)) lam) := by
  have hsx : Spec.signedX a x = -x := by unfold Spec.signedX; rw [if_pos ha]
  have hsx' : Spec.signedX |a| (Spec.signedX a x) = Spec.signedX a x := by
    conv_lhs => rw [Spec.signedX, if_neg (not_lt.mpr (abs_nonneg a))]
  have hB' : Spec.BoundOrbit rs |a| p e (Spec.signedX a x) := by
    obtain ⟨hal, he, hx, s, hs, hsp⟩ := h
    refine ⟨by rwa [abs_abs], he, ?_, s, by rw [abs_abs, hsx']; exact hs, hsp⟩
    rw [hsx, abs_neg]; exact hx
  have hcs : constantsOfMotion rs |a| p e (Spec.signedX a x) = constantsOfMotion rs a p e x := by
    rw [← constantsOfMotion_std rs a, sx_eq]
    rfl
  obtain ⟨T', m, E, L, Q, r1, r2, r3, r4, hT', hm, hc, hr, hb, hE, -⟩ := kerr_hyps q hB'
    (abs_pos.mpr ha.ne) he1 (by rw [hsx]; exact neg_ne_zero.mpr hx0)
    (fun h h4 => by
      have := hp (by rw [hsx] at h; linarith) h4
      rw [divisors_iff] at this ⊢
      rwa [abs_abs, hsx'])
    (by
      rcases hne with h | h
      · exact Or.inl (by rw [hsx]; linarith)
      · refine Or.inr fun E L Q hc => ?_
        rw [hcs] at hc
        rw [sq_abs]
        exact h E L Q hc)
  obtain ⟨⟨T, hT⟩, -⟩ := C43_accepts rs a p e x q ⟨h, hx0, he1⟩
  obtain ⟨-, h2, h3⟩ := C43_not_geodesic ha hT hT' hc hr hb hE
  exact ⟨T, E, L, Q, hT, by rw [← hcs]; exact hc, h3, h2⟩

/-- Non-vacuity of `C43_kerr`. -/
example (rs : RootScalar) : Spec.BoundOrbit rs (-9 / 10) 13 (1 / 2) (1 / 2) :=
  C11_accepts_wide rs _ _ _ _ (by norm_num [abs_lt]) (by norm_num) (by norm_num)
    (by norm_num [abs_le]) (by norm_num)

end KGP
