import Verif.Lemmas.PostNewton

/-!
# C62, C63: far from the hole the orbits are Kepler's, with Einstein's and Lense and Thirring's corrections
-/

namespace KGP

open Classical Real Filter Topology

/-- What the theorem needs to know about the orbit with semi-latus rectum `p`. -/
structure FarOrbit (rs : RootScalar) (a p e x : ℝ) (m : MinoFreqs) (E L Q r3 r4 zp : ℝ) : Prop where
  mino : minoFrequencies rs a p e x = .ok m
  consts : constantsOfMotion rs a p e x = .ok (E, L, Q)
  bound : Spec.BoundGeodesic a E L Q (p / (1 - e)) (p / (1 + e)) r3 r4
  energy : 0 < E
  sign : 0 < Real.sign x * L
  carter : 0 ≤ Q
  polar : PolarConfig a E L Q (1 - x ^ 2) zp
  r40 : 0 ≤ r4
  r41 : r4 ≤ 1
  upsilonR : m.upsilonR = rFrequencyCore E (p / (1 - e), p / (1 + e), r3, r4)
  upsilonTheta : m.upsilonTheta = π * polarW a E L (1 - x ^ 2) / (2 * ellipk (mT a (1 - x ^ 2) zp))
  upsilonPhi : m.upsilonPhi = phiT a L (1 - x ^ 2) zp + phiR a E L (p / (1 - e)) (p / (1 + e)) r3 r4
  gamma : m.gamma = 4 * E + gammaT a E L (1 - x ^ 2) zp + gammaR a E L (p / (1 - e)) (p / (1 + e)) r3 r4

lemma BoundGeodesic.fourth_le {a E L Q r1 r2 r3 r4 : ℝ} (hb : Spec.BoundGeodesic a E L Q r1 r2 r3 r4) (ha : a ^ 2 < 1) :
    r4 ≤ 1 := by
  have hs := Real.sqrt_nonneg (1 - a ^ 2)
  have hs2 : √(1 - a ^ 2) ^ 2 = 1 - a ^ 2 := Real.sq_sqrt (by linarith)
  have hR := hb.roots (1 - √(1 - a ^ 2))
  have hD : Spec.Delta a (1 - √(1 - a ^ 2)) = 0 := by unfold Spec.Delta; linear_combination hs2
  unfold Spec.R at hR
  rw [hD, zero_mul, sub_zero] at hR
  have h3 := hb.horizon
  have h32 := hb.r32
  have h21 := hb.r21
  by_contra hcon
  push Not at hcon
  have k1 : 0 < (1 - E ^ 2) * (r1 - (1 - √(1 - a ^ 2))) := mul_pos (by linarith [hb.energy]) (by linarith)
  have k2 : 0 < (r2 - (1 - √(1 - a ^ 2))) * (r3 - (1 - √(1 - a ^ 2))) := mul_pos (by linarith) (by linarith)
  have k3 := mul_pos (mul_pos k1 k2) (show 0 < r4 - (1 - √(1 - a ^ 2)) by linarith)
  have k4 := sq_nonneg (E * ((1 - √(1 - a ^ 2)) ^ 2 + a ^ 2) - a * L)
  rw [hR] at k4
  linarith

lemma farOrbit_of {rs : RootScalar} {a p e x : ℝ} (h : Spec.BoundOrbit rs a p e x)
    (ha : 0 ≤ a) (he1 : e ≠ 1) (hx0 : x ≠ 0) (hp : 4 < p)
    (hfar : 0 < a → 0 < x → 16 < a ^ 2 * x ^ 2 * (p / (2 * (1 + e)) - 2)) :
    ∃ m E L Q r3 r4 zp, FarOrbit rs a p e x m E L Q r3 r4 zp := by
  have ha1 : a ^ 2 < 1 := (sq_lt_one_iff_abs_lt_one a).mpr h.1
  have hne : x < 0 ∨ ∀ E L Q, constantsOfMotion rs a p e x = .ok (E, L, Q) →
      E * ((1 + √(1 - a ^ 2)) ^ 2 + a ^ 2) ≠ a * L := by
    rcases lt_or_gt_of_ne hx0 with k | k
    · exact Or.inl k
    · refine Or.inr ?_
      rcases eq_or_lt_of_le ha with h0 | h0
      · subst h0
        intro E L Q hc
        obtain ⟨E', L', Q', hc', hE, -⟩ := C07_turning rs p e x h he1
        have hcc := Except.ok.inj (hc.symm.trans hc')
        simp only [Prod.mk.injEq] at hcc
        rw [hcc.1]
        have : 0 < E' * ((1 + √(1 - 0 ^ 2)) ^ 2 + 0 ^ 2) := by positivity
        rw [zero_mul]; exact this.ne'
      · exact fun E L Q hc => (C22_far_prograde rs a p e x h h0 he1 k (hfar h0 k) E L Q hc).ne
  obtain ⟨T, m, E, L, Q, r1, r2, r3, r4, hT, hm, hc, hr, hb, hE, hE1, hL, hQ, hf, hr2, e2⟩ :=
    orbit_hyps ⟨0, 0, 0, 0⟩ h ha he1 hx0 (fun _ h4 => absurd h4 (not_le.mpr hp)) hne
  obtain ⟨m', zm, zp, D⟩ := stableData_of ha hT hc hr
  obtain rfl := D.mino_eq hm
  have hP := D.polar hb.energy hb.nonpolar
  have hU := D.upsilonTheta hb.energy hb.nonpolar
  have hUr := D.upsilonR
  have hph := D.upsilonPhi hb
  have hg := D.gamma hb
  obtain ⟨e1, -⟩ := D.roots12
  have hz := D.zm_eq
  subst e1 e2 hz
  clear D hT hr hne h
  exact ⟨m', E, L, Q, r3, r4, zp, ⟨hm, hc, hb, hE, hL, hQ, hP, (BoundGeodesic.S_ge hb hQ ha1).2.1,
    BoundGeodesic.fourth_le hb ha1, hUr, hU, hph, hg⟩⟩

lemma farOrbits (rs : RootScalar) {a e x : ℝ} (ha : 0 ≤ a) (ha1 : a < 1) (he : 0 ≤ e) (he1 : e < 1) (hx0 : x ≠ 0)
    (hx : |x| ≤ 1) : ∃ (m : ℝ → MinoFreqs) (E L Q r3 r4 zp : ℝ → ℝ), Far a e x E L Q r3 r4 zp
      ∧ ∀ᶠ p in atTop, FarOrbit rs a p e x (m p) (E p) (L p) (Q p) (r3 p) (r4 p) (zp p) := by
  have hev : ∀ᶠ p in atTop, ∃ m E L Q r3 r4 zp, FarOrbit rs a p e x m E L Q r3 r4 zp := by
    have h2 : 0 < 2 * (1 + e) := by linarith
    have hlim : 0 < a → Tendsto (fun p : ℝ => a ^ 2 * x ^ 2 * (p / (2 * (1 + e)) - 2)) atTop atTop := fun h0 =>
      (tendsto_atTop_add_const_right _ _ (tendsto_id.atTop_div_const h2)).const_mul_atTop (by positivity)
    have hfar : ∀ᶠ p : ℝ in atTop, 0 < a → 0 < x → 16 < a ^ 2 * x ^ 2 * (p / (2 * (1 + e)) - 2) := by
      by_cases h0 : 0 < a
      · filter_upwards [(hlim h0).eventually_gt_atTop 16] with p hp _ _ using hp
      · exact Eventually.of_forall fun p h => absurd h h0
    filter_upwards [hfar, eventually_gt_atTop 12] with p hp h12
    exact farOrbit_of (C11_accepts_wide rs a p e x (by rwa [abs_of_nonneg ha]) he he1.le hx h12) ha he1.ne hx0
      (by linarith) hp
  rw [Filter.eventually_iff_exists_mem] at hev
  obtain ⟨v, hv, hvp⟩ := hev
  have : ∀ p, ∃ m E L Q r3 r4 zp, p ∈ v → FarOrbit rs a p e x m E L Q r3 r4 zp := by
    intro p
    by_cases hp : p ∈ v
    · obtain ⟨m, E, L, Q, r3, r4, zp, h⟩ := hvp p hp
      exact ⟨m, E, L, Q, r3, r4, zp, fun _ => h⟩
    · exact ⟨⟨0, 0, 0, 0⟩, 0, 0, 0, 0, 0, 0, fun h => absurd h hp⟩
  choose m E L Q r3 r4 zp hF using this
  refine ⟨m, E, L, Q, r3, r4, zp, ⟨by nlinarith, he, he1, hx0, (sq_le_one_iff_abs_le_one x).mpr hx, ?_⟩, ?_⟩
  · filter_upwards [hv] with p hp
    have A := hF p hp
    exact ⟨A.bound, A.energy, A.sign, A.carter, A.polar, A.r40, A.r41⟩
  · filter_upwards [hv] with p hp
    exact hF p hp

lemma kepler_nonneg (rs : RootScalar) (a e x : ℝ) (ha : 0 ≤ a) (ha1 : a < 1) (he : 0 ≤ e) (he1 : e < 1) (hx0 : x ≠ 0)
    (hx : |x| ≤ 1) :
    ∃ (E L Q : ℝ → ℝ) (m : ℝ → MinoFreqs) (wr wth wph : ℝ → ℝ),
      (∀ᶠ p in atTop, constantsOfMotion rs a p e x = .ok (E p, L p, Q p) ∧ minoFrequencies rs a p e x = .ok (m p)
        ∧ fundamentalFrequencies rs a p e x = .ok (wr p, wth p, wph p))
      ∧ Tendsto (fun p => (1 - E p) * (p / (1 - e ^ 2))) atTop (𝓝 (1 / 2))
      ∧ Tendsto (fun p => L p / √p) atTop (𝓝 x)
      ∧ Tendsto (fun p => (L p ^ 2 + Q p) / p) atTop (𝓝 1)
      ∧ Tendsto (fun p => wr p * √((p / (1 - e ^ 2)) ^ 3)) atTop (𝓝 1)
      ∧ Tendsto (fun p => wth p * √((p / (1 - e ^ 2)) ^ 3)) atTop (𝓝 1)
      ∧ Tendsto (fun p => wph p * √((p / (1 - e ^ 2)) ^ 3)) atTop (𝓝 (Real.sign x)) := by
  obtain ⟨m, E, L, Q, r3, r4, zp, F, hF⟩ := farOrbits rs ha ha1 he he1 hx0 hx
  have hq := F.sq0
  have hqs : 0 < √(1 - e ^ 2) := Real.sqrt_pos.mpr hq
  have hpinf : Tendsto (fun p : ℝ => 1 / p) atTop (𝓝 0) := tendsto_const_nhds.div_atTop tendsto_id
  have hgam : Tendsto (fun p => (m p).gamma / p ^ 2) atTop (𝓝 (1 / ((1 - e ^ 2) * √(1 - e ^ 2)))) := by
    have h := ((((F.en.const_mul 4).mul (hpinf.mul hpinf)).add F.gammaT0).add F.gammaR0)
    rw [mul_zero, mul_zero, zero_add, zero_add] at h
    refine h.congr' ?_
    filter_upwards [hF, eventually_gt_atTop 0] with p hp h0
    rw [hp.gamma]
    field_simp
  have key : ∀ (u : ℝ → ℝ) (k : ℝ), Tendsto (fun p => u p / √p) atTop (𝓝 k) →
      Tendsto (fun p => u p / (m p).gamma * √((p / (1 - e ^ 2)) ^ 3)) atTop (𝓝 k) := by
    intro u k hu
    have h := (hu.div hgam (by positivity)).mul_const (1 / ((1 - e ^ 2) * √(1 - e ^ 2)))
    rw [div_mul_cancel₀ _ (by positivity)] at h
    refine h.congr' ?_
    filter_upwards [eventually_gt_atTop 0, hgam.eventually
      (lt_mem_nhds (show (0:ℝ) < 1 / ((1 - e ^ 2) * √(1 - e ^ 2)) by positivity))] with p h0 hg
    have hsp : 0 < √p := Real.sqrt_pos.mpr h0
    have hg0 : (m p).gamma ≠ 0 := by intro h; rw [h] at hg; simp at hg
    have e1 : √((p / (1 - e ^ 2)) ^ 3) = p / (1 - e ^ 2) * (√p / √(1 - e ^ 2)) := by
      rw [show (p / (1 - e ^ 2)) ^ 3 = (p / (1 - e ^ 2)) ^ 2 * (p / (1 - e ^ 2)) by ring,
        Real.sqrt_mul (by positivity), Real.sqrt_sq (by positivity), Real.sqrt_div h0.le]
    have e2 : √p ^ 2 = p := Real.sq_sqrt h0.le
    rw [e1, Pi.div_apply]
    clear hg h hgam e1
    generalize √(1 - e ^ 2) = v at *
    generalize 1 - e ^ 2 = v2 at *
    have := hq.ne'
    field_simp
    linear_combination -(u p) * e2
  refine ⟨E, L, Q, m, fun p => (m p).upsilonR / (m p).gamma, fun p => (m p).upsilonTheta / (m p).gamma,
    fun p => (m p).upsilonPhi / (m p).gamma, ?_, ?_, F.Ls, F.s, key _ _ ?_, key _ _ ?_, key _ _ ?_⟩
  · filter_upwards [hF] with p hp
    exact ⟨hp.consts, hp.mino, (C25_fundamental rs a p e x (m p) hp.mino).1⟩
  · have h := (F.b.div_const (1 - e ^ 2)).div (F.en.const_add 1) (by norm_num)
    rw [div_self hq.ne', show (1:ℝ) + 1 = 2 by norm_num] at h
    refine h.congr' ?_
    filter_upwards [hF] with p hp
    have := hp.energy
    rw [Pi.div_apply]
    have : 1 + E p ≠ 0 := by positivity
    field_simp
    ring
  · refine F.upsilonR.congr' ?_
    filter_upwards [hF] with p hp
    rw [hp.upsilonR]
  · refine F.upsilonT.congr' ?_
    filter_upwards [hF] with p hp
    rw [hp.upsilonTheta]
  · refine F.upsilonPhi.congr' ?_
    filter_upwards [hF] with p hp
    rw [hp.upsilonPhi]

/-- **C62 (Kepler limit).** Let `|a| < 1`, `0 ≤ e < 1`, `x ≠ 0`; `signedX a x` is the inclination relative to the spin
direction.  For all large `p` the functions return, and as `p → ∞`, with the semi-major axis `A = p/(1-e²)`:
the binding energy times `A` tends to `1/2`; `L/√p → cos ι`, `(L²+Q)/p → 1` (Newton's values); and the three frequencies in
coordinate time times `A^{3/2}` tend to one up to the sense of rotation (Kepler's third law, closed orbits). -/
theorem C62_kepler (rs : RootScalar) (a e x : ℝ) (ha : |a| < 1) (he : 0 ≤ e) (he1 : e < 1) (hx0 : x ≠ 0) (hx : |x| ≤ 1) :
    ∃ (E L Q wr wth wph : ℝ → ℝ),
      (∀ᶠ p in atTop, constantsOfMotion rs a p e x = .ok (E p, L p, Q p)
        ∧ fundamentalFrequencies rs a p e x = .ok (wr p, wth p, wph p))
      ∧ Tendsto (fun p => (1 - E p) * (p / (1 - e ^ 2))) atTop (𝓝 (1 / 2))
      ∧ Tendsto (fun p => L p / √p) atTop (𝓝 (Spec.signedX a x))
      ∧ Tendsto (fun p => (L p ^ 2 + Q p) / p) atTop (𝓝 1)
      ∧ Tendsto (fun p => wr p * √((p / (1 - e ^ 2)) ^ 3)) atTop (𝓝 1)
      ∧ Tendsto (fun p => wth p * √((p / (1 - e ^ 2)) ^ 3)) atTop (𝓝 1)
      ∧ Tendsto (fun p => wph p * √((p / (1 - e ^ 2)) ^ 3)) atTop (𝓝 (Real.sign (Spec.signedX a x))) := by
  obtain ⟨E, L, Q, m, wr, wth, wph, h, h1, h2, h3, h4, h5, h6⟩ := kepler_nonneg rs |a| e (Spec.signedX a x) (abs_nonneg a)
    ha he he1 ((signedX_eq_zero a x).not.mpr hx0) (by rwa [abs_signedX])
  refine ⟨E, L, Q, wr, wth, wph, ?_, h1, h2, h3, h4, h5, h6⟩
  filter_upwards [h] with p hp
  obtain ⟨k1, -, k2⟩ := hp
  rw [← sx_eq, abs_eq_sa] at k1 k2
  rw [constantsOfMotion_std] at k1
  rw [fundamentalFrequencies_eq, sa_sa, sx_sa, ← fundamentalFrequencies_eq] at k2
  exact ⟨k1, k2⟩

lemma precession_nonneg (rs : RootScalar) (a e x : ℝ) (ha : 0 ≤ a) (ha1 : a < 1) (he : 0 ≤ e) (he1 : e < 1) (hx0 : x ≠ 0)
    (hx : |x| ≤ 1) :
    ∃ m : ℝ → MinoFreqs, (∀ᶠ p in atTop, minoFrequencies rs a p e x = .ok (m p))
      ∧ Tendsto (fun p => p * (2 * π * (|(m p).upsilonPhi| / (m p).upsilonR - 1))) atTop (𝓝 (6 * π))
      ∧ Tendsto (fun p => p * (2 * π * ((m p).upsilonTheta / (m p).upsilonR - 1))) atTop (𝓝 (6 * π))
      ∧ Tendsto (fun p => p * √p * (2 * π * ((m p).upsilonPhi / (m p).upsilonTheta - Real.sign x))) atTop (𝓝 (4 * π * a)) := by
  obtain ⟨m, E, L, Q, r3, r4, zp, F, hF⟩ := farOrbits rs ha ha1 he he1 hx0 hx
  have hs1 : Real.sign x * Real.sign x = 1 := by
    rcases lt_or_gt_of_ne hx0 with k | k
    · rw [Real.sign_of_neg k]; norm_num
    · rw [Real.sign_of_pos k]; norm_num
  have hU : Tendsto (fun p => (m p).upsilonTheta / √p) atTop (𝓝 1) := by
    refine F.upsilonT.congr' ?_
    filter_upwards [hF] with p hp
    rw [hp.upsilonTheta]
  have hP : Tendsto (fun p => (m p).upsilonPhi / √p) atTop (𝓝 (Real.sign x)) := by
    refine F.upsilonPhi.congr' ?_
    filter_upwards [hF] with p hp
    rw [hp.upsilonPhi]
  have hap : FirstOrder (fun p => (m p).upsilonR / (m p).upsilonTheta) (-3) := by
    refine F.apsidal.congr ?_
    filter_upwards [hF] with p hp
    rw [hp.upsilonR, hp.upsilonTheta]
  have hdiff : Tendsto (fun p => p * ((m p).upsilonPhi - Real.sign x * (m p).upsilonTheta)) atTop (𝓝 (2 * a)) := by
    have h := F.phiT1.add F.phiR1
    rw [zero_add] at h
    refine h.congr' ?_
    filter_upwards [hF] with p hp
    rw [hp.upsilonPhi, hp.upsilonTheta]
    ring
  have hUpos : ∀ᶠ p in atTop, 0 < (m p).upsilonTheta ∧ 0 < p := by
    filter_upwards [hU.eventually (lt_mem_nhds one_pos), eventually_gt_atTop 0] with p hp h0
    exact ⟨(div_pos_iff_of_pos_right (Real.sqrt_pos.mpr h0)).mp hp, h0⟩
  have hnode : Tendsto (fun p => p * √p * ((m p).upsilonPhi / (m p).upsilonTheta - Real.sign x)) atTop (𝓝 (2 * a)) := by
    have h := hdiff.div hU one_ne_zero
    rw [div_one] at h
    refine h.congr' ?_
    filter_upwards [hUpos] with p hp
    have h1 := hp.1.ne'
    have h2 : 0 < √p := Real.sqrt_pos.mpr hp.2
    rw [Pi.div_apply]
    field_simp
  have hf : FirstOrder (fun p => |(m p).upsilonPhi| / (m p).upsilonTheta) 0 := by
    have h : Tendsto (fun p => Real.sign x * ((p * √p * ((m p).upsilonPhi / (m p).upsilonTheta - Real.sign x)) / √p)) atTop
        (𝓝 (Real.sign x * 0)) := (hnode.div_atTop tendsto_sqrt_atTop).const_mul _
    rw [mul_zero] at h
    refine Tendsto.congr' ?_ h
    have hpos : ∀ᶠ p in atTop, 0 < Real.sign x * ((m p).upsilonPhi / √p) := by
      have := hP.const_mul (Real.sign x)
      rw [hs1] at this
      exact this.eventually (lt_mem_nhds one_pos)
    filter_upwards [hUpos, hpos] with p hp hq
    have h2 : 0 < √p := Real.sqrt_pos.mpr hp.2
    rw [mul_div_assoc', div_pos_iff_of_pos_right h2] at hq
    have habs : |(m p).upsilonPhi| = Real.sign x * (m p).upsilonPhi := by
      have h3 : |Real.sign x| = 1 := by
        rcases lt_or_gt_of_ne hx0 with k | k
        · rw [Real.sign_of_neg k]; norm_num
        · rw [Real.sign_of_pos k]; norm_num
      rw [← abs_of_pos hq, abs_mul, h3, one_mul]
    rw [habs]
    have h5 : p * √p / √p = p := mul_div_cancel_right₀ _ h2.ne'
    rw [mul_div_right_comm, h5]
    linear_combination -p * hs1
  refine ⟨m, by filter_upwards [hF] with p hp using hp.mino, ?_, ?_, ?_⟩
  · have h := (Tendsto.const_mul (2 * π) (hf.div hap))
    rw [show 2 * π * (0 - -3) = 6 * π by ring] at h
    refine h.congr' ?_
    filter_upwards [hUpos] with p hp
    have h1 := hp.1.ne'
    rw [div_div_div_cancel_right₀ h1]
    ring
  · have h := (Tendsto.const_mul (2 * π) hap.inv)
    rw [show 2 * π * - -3 = 6 * π by ring] at h
    refine h.congr fun p => ?_
    simp only [inv_div]
    ring
  · have h := hnode.const_mul (2 * π)
    rw [show 2 * π * (2 * a) = 4 * π * a by ring] at h
    exact h.congr fun p => by ring

/-- **C63 (precession).** Let `|a| < 1`, `0 ≤ e < 1`, `x ≠ 0`.  As `p → ∞` the perihelion advance per radial period,
`2π(|Υ_φ|/Υ_r - 1)`, is `6π/p` to leading order (Einstein), also when measured by the polar phase; and the advance of the
node per polar period, `2π(Υ_φ/Υ_θ ∓ 1)`, is `4π|a|/p^{3/2}` in the direction of the spin (Lense and Thirring). -/
theorem C63_precession (rs : RootScalar) (a e x : ℝ) (ha : |a| < 1) (he : 0 ≤ e) (he1 : e < 1) (hx0 : x ≠ 0) (hx : |x| ≤ 1) :
    ∃ m : ℝ → MinoFreqs, (∀ᶠ p in atTop, minoFrequencies rs a p e x = .ok (m p))
      ∧ Tendsto (fun p => p * (2 * π * (|(m p).upsilonPhi| / (m p).upsilonR - 1))) atTop (𝓝 (6 * π))
      ∧ Tendsto (fun p => p * (2 * π * ((m p).upsilonTheta / (m p).upsilonR - 1))) atTop (𝓝 (6 * π))
      ∧ Tendsto (fun p => p * √p * (2 * π * ((m p).upsilonPhi / (m p).upsilonTheta - Real.sign (Spec.signedX a x)))) atTop
          (𝓝 (4 * π * |a|)) := by
  obtain ⟨m, h, h1, h2, h3⟩ := precession_nonneg rs |a| e (Spec.signedX a x) (abs_nonneg a)
    ha he he1 ((signedX_eq_zero a x).not.mpr hx0) (by rwa [abs_signedX])
  refine ⟨m, ?_, h1, h2, h3⟩
  filter_upwards [h] with p hp
  rw [← sx_eq, abs_eq_sa, minoFrequencies_eq, sa_sa, sx_sa, ← minoFrequencies_eq] at hp
  exact hp

/-- An inclined orbit in a rotating spacetime: at large `p` the perihelion advances by more than `5π/p` per radial period. -/
example (rs : RootScalar) : ∃ m : ℝ → MinoFreqs, ∀ᶠ p in atTop, minoFrequencies rs (9 / 10) p (1 / 2) (-1 / 2) = .ok (m p)
    ∧ 5 * π / p < 2 * π * (|(m p).upsilonPhi| / (m p).upsilonR - 1) := by
  obtain ⟨m, h, h1, -⟩ := C63_precession rs (9 / 10) (1 / 2) (-1 / 2) (by norm_num [abs_lt]) (by norm_num) (by norm_num)
    (by norm_num) (by norm_num [abs_le])
  refine ⟨m, ?_⟩
  filter_upwards [h, h1.eventually (lt_mem_nhds (show 5 * π < 6 * π by linarith [Real.pi_pos])), eventually_gt_atTop 0]
    with p k1 k2 k3
  refine ⟨k1, ?_⟩
  rw [div_lt_iff₀ k3]
  linarith

/-- A case of C62: at large `p` the orbital period is Kepler's within a per cent. -/
example (rs : RootScalar) : ∃ wr : ℝ → ℝ, ∀ᶠ p in atTop, (∃ wth wph, fundamentalFrequencies rs (9 / 10) p (1 / 2) (1 / 3)
    = .ok (wr p, wth, wph)) ∧ 99 / 100 < wr p * √((p / (1 - (1 / 2) ^ 2)) ^ 3) := by
  obtain ⟨E, L, Q, wr, wth, wph, h, -, -, -, h1, -⟩ := C62_kepler rs (9 / 10) (1 / 2) (1 / 3) (by norm_num [abs_lt])
    (by norm_num) (by norm_num) (by norm_num) (by norm_num [abs_le])
  refine ⟨wr, ?_⟩
  filter_upwards [h, h1.eventually (lt_mem_nhds (show (99:ℝ) / 100 < 1 by norm_num))] with p k1 k2
  exact ⟨⟨_, _, k1.2⟩, k2⟩

end KGP
