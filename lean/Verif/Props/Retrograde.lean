import Verif.Props.ZoomWhirl
import Verif.Props.SepOrder

/-!
# C60, C61 — the sense of rotation

`x < 0` is documented as "retrograde".  Frame dragging acts against the motion of a retrograde orbit; these theorems
say that it never wins: the azimuthal frequency of every accepted orbit has the sign of `x`.
-/

namespace KGP

open Classical Real Filter Topology SepCert

/-- Chebyshev's inequality for the complete integral of the third kind. -/
lemma pi_ge {n m : ℝ} (n0 : 0 ≤ n) (n1 : n < 1) (m0 : 0 ≤ m) (m1 : m < 1) :
    ellipk m / √(1 - n) ≤ ellippiK n m := by
  have hs : 0 < √(1 - n) := Real.sqrt_pos.mpr (by linarith)
  have hs2 : √(1 - n) ^ 2 = 1 - n := Real.sq_sqrt (by linarith)
  have hs1 : √(1 - n) ≤ 1 := Real.sqrt_le_one.mpr (by linarith)
  have e0 : π / (2 * √(1 - n)) = ∫ t in (0:ℝ)..(π / 2), 1 / (1 - n * sin t ^ 2) := by
    rw [← ellippiK_zero n1, ellippiK_eq n1 zero_lt_one]
    unfold Spec.Pi
    simp
  have c0 : Continuous fun t => 1 / (1 - n * sin t ^ 2) :=
    Continuous.div continuous_const (by fun_prop) fun t => (one_sub_mul_sin_sq_pos n1 t).ne'
  have c1 := cont_K m1
  have c2 := cont_Pi n1 m1
  generalize √(1 - n) = s at *
  have hσ : m * (1 / (1 + s)) < 1 := by
    have : 1 / (1 + s) ≤ 1 := by rw [div_le_one (by linarith)]; linarith
    have : 0 ≤ 1 / (1 + s) := by positivity
    nlinarith
  obtain ⟨G, hG⟩ : ∃ G, G = 1 / √(1 - m * (1 / (1 + s))) := ⟨_, rfl⟩
  have key : ∀ t, (1 / s) * (1 / √(1 - m * sin t ^ 2)) + G * (1 / (1 - n * sin t ^ 2)) - (1 / s) * G
      ≤ 1 / ((1 - n * sin t ^ 2) * √(1 - m * sin t ^ 2)) := by
    intro t
    have k1 := one_sub_mul_sin_sq_pos n1 t
    have k2 := one_sub_mul_sin_sq_pos m1 t
    have hn : n = (1 - s) * (1 + s) := by linear_combination hs2
    have e1 : 1 / ((1 - n * sin t ^ 2) * √(1 - m * sin t ^ 2))
        = (1 / (1 - n * sin t ^ 2)) * (1 / √(1 - m * sin t ^ 2)) := by rw [one_div_mul_one_div]
    rw [e1]
    suffices h : 0 ≤ (1 / (1 - n * sin t ^ 2) - 1 / s) * (1 / √(1 - m * sin t ^ 2) - G) by linarith
    rcases le_total (1 / (1 + s)) (sin t ^ 2) with h | h
    · refine mul_nonneg (sub_nonneg.mpr ?_) (sub_nonneg.mpr ?_)
      · refine one_div_le_one_div_of_le k1 ?_
        rw [div_le_iff₀ (by linarith)] at h
        have := mul_le_mul_of_nonneg_left h (by linarith : 0 ≤ 1 - s)
        rw [hn]; linarith
      · rw [hG]
        refine one_div_le_one_div_of_le (Real.sqrt_pos.mpr k2) (Real.sqrt_le_sqrt ?_)
        have := mul_le_mul_of_nonneg_left h m0
        linarith
    · refine mul_nonneg_of_nonpos_of_nonpos (sub_nonpos.mpr ?_) (sub_nonpos.mpr ?_)
      · refine one_div_le_one_div_of_le hs ?_
        rw [le_div_iff₀ (by linarith)] at h
        have := mul_le_mul_of_nonneg_left h (by linarith : 0 ≤ 1 - s)
        rw [hn]; linarith
      · rw [hG]
        refine one_div_le_one_div_of_le (Real.sqrt_pos.mpr (by linarith)) (Real.sqrt_le_sqrt ?_)
        have := mul_le_mul_of_nonneg_left h m0
        linarith
  have i1 := (c1.const_mul (1 / s)).intervalIntegrable (μ := MeasureTheory.volume) 0 (π / 2)
  have i2 := (c0.const_mul G).intervalIntegrable (μ := MeasureTheory.volume) 0 (π / 2)
  have hpi := Real.pi_pos
  have hint : (1 / s) * ellipk m + G * (π / (2 * s)) - (1 / s) * G * (π / 2) ≤ ellippiK n m := by
    rw [ellippiK_eq n1 m1, e0]
    unfold ellipk Spec.Pi
    have e3 : (1 / s) * G * (π / 2) = ∫ _ in (0:ℝ)..(π / 2), (1 / s) * G := by
      rw [intervalIntegral.integral_const, smul_eq_mul]; ring
    rw [e3, ← intervalIntegral.integral_const_mul, ← intervalIntegral.integral_const_mul,
      ← intervalIntegral.integral_add i1 i2, ← intervalIntegral.integral_sub (i1.add i2) (by simp)]
    refine intervalIntegral.integral_mono_on (by positivity) ((i1.add i2).sub (by simp))
      (c2.intervalIntegrable _ _) fun t _ => ?_
    exact key t
  have e4 : (1 / s) * ellipk m + G * (π / (2 * s)) - (1 / s) * G * (π / 2) = ellipk m / s := by
    field_simp; ring
  rw [e4] at hint
  exact hint

/-- Polar orbits, and all retrograde ones, need `p > 21/4 + 3e/4`. -/
lemma value_ge_retrograde {a e x s : ℝ} (ha : 0 ≤ a) (ha1 : a < 1) (he : 0 ≤ e) (he1 : e ≤ 1) (hl : -1 ≤ x)
    (hx : x ≤ 0) (hv : IsSeparatrixValue a e x s) : 21 / 4 + 3 / 4 * e < s := by
  by_cases ha0 : a = 0
  · rw [hv.zero ha0]; linarith
  have h4 : (4:ℝ) < 21 / 4 + 3 / 4 * e := by linarith
  have hA : a ^ 2 ≤ 1 := by nlinarith
  -- the polar value
  have hpol : ∀ pp, SPolar pp a e = 0 → 1 + √3 + √(3 + 2 * √3) ≤ pp → 21 / 4 + 3 / 4 * e < pp := by
    intro pp hz hpp
    have hpl := polarLo_bounds.1
    unfold polarLo at hpl
    have hN1 : 0 < N (21 / 4 + 3 / 4 * e) 1 e 1 := by
      have e1 : N (21 / 4 + 3 / 4 * e) 1 e 1 = 332639 / 4096 + 6952235 / 2048 * e + 3848833 / 4096 * e ^ 2
          + 193741 / 1024 * e ^ 3 + 7537 / 4096 * e ^ 4 + e ^ 5 * (3275 / 2048 - 625 / 4096 * e) := by
        simp only [N, G, D, B, H, g, K]; ring
      rw [e1]
      have : 0 ≤ 3275 / 2048 - 625 / 4096 * e := by linarith
      positivity
    have hN : 0 < N (21 / 4 + 3 / 4 * e) (a ^ 2) e 1 := by
      rcases eq_or_lt_of_le hA with h | h
      · rw [h]; exact hN1
      · exact hN1.trans (N_polar_anti (sq_nonneg a) h he he1 h4.le)
    by_contra hcon
    have hanti := ratio_strictAnti (sq_nonneg a) hA he he1 (zero_le_one : (0:ℝ) ≤ 1) le_rfl
    have h5 := hanti.antitoneOn (Set.mem_Ici.mpr (by linarith : 4 ≤ pp)) (Set.mem_Ici.mpr h4.le) (not_lt.mp hcon)
    have h6 : ratio pp (a ^ 2) e 1 = 0 := by
      unfold ratio; rw [SepN_polar, hz]; simp
    have n1 := M1_pos h4.le (sq_nonneg a) hA he he1 (zero_le_one : (0:ℝ) ≤ 1) le_rfl
    have n2 := M2_pos h4.le (sq_nonneg a) hA he he1 (zero_le_one : (0:ℝ) ≤ 1) le_rfl
    have h7 : 0 < ratio (21 / 4 + 3 / 4 * e) (a ^ 2) e 1 := div_pos hN (Real.sqrt_pos.mpr (mul_pos n1 n2))
    rw [h6] at h5
    linarith
  rcases eq_or_lt_of_le hx with h | h
  · obtain ⟨j1, j2, -⟩ := hv.polar ha0 h
    exact hpol s j1 j2
  · rcases eq_or_lt_of_le hl with h' | h'
    · linarith [(hv.retrograde ha0 h'.symm).2.1]
    · obtain ⟨pp, h1, h2, h3, -⟩ := hv.generic_retrograde ha0 h' h
      linarith [hpol pp h1 h2]

/-- The final estimate. -/
lemma retro_core {l r : ℝ} (hl : 11 / 5 ≤ l) (hr : 3 ≤ r) : (r ^ 2 - 2 * r + 1) / 10 ≤ l * (r * (r - 2)) - 2 * r := by
  have h1 : 0 ≤ (l - 11 / 5) * (r * (r - 2)) := mul_nonneg (by linarith) (mul_nonneg (by linarith) (by linarith))
  nlinarith

lemma drag_retro {a E L l r : ℝ} (ha : 0 ≤ a) (ha1 : a < 1) (hE0 : 0 < E) (hE1 : E < 1) (hLl : -L ≤ l)
    (hl : 11 / 5 ≤ l) (hr : 3 ≤ r) : a * (2 * E * r - a * L) / Spec.Delta a r ≤ l - 1 / 10 := by
  have hcore := retro_core hl hr
  have hA := sq_nonneg a
  have hA1 : a ^ 2 ≤ 1 := by nlinarith
  have hD2 : 0 < Spec.Delta a r := by unfold Spec.Delta; nlinarith
  rw [div_le_iff₀ hD2]
  have k1 : a * (2 * E * r) ≤ 2 * r := by
    have h1 : a * E ≤ 1 := by nlinarith
    have := mul_le_mul_of_nonneg_right h1 (by linarith : 0 ≤ 2 * r)
    linarith
  have k2 : a ^ 2 * (-L) ≤ a ^ 2 * l := mul_le_mul_of_nonneg_left hLl hA
  have k3 : (l - 1 / 10) * Spec.Delta a r = l * (r * (r - 2)) + a ^ 2 * l - (r ^ 2 - 2 * r + a ^ 2) / 10 := by
    unfold Spec.Delta; ring
  rw [k3]
  linarith

/-- `L² / x² ≥ (11/5)²` from the turning points. -/
lemma ell_ge {E L Q a zm r1 r2 r3 r4 p : ℝ} (hE : 0 < 1 - E ^ 2) (ha : a ^ 2 ≤ 1) (hz1 : zm ≤ 1)
    (hS : L ^ 2 = (1 - zm) * (L ^ 2 + Q - a ^ 2 * (1 - E ^ 2) * zm)) (hz : zm < 1)
    (v1 : (1 - E ^ 2) * (r1 + r2 + r3 + r4) = 2)
    (v2 : (1 - E ^ 2) * (r1 * r2 + r1 * r3 + r1 * r4 + r2 * r3 + r2 * r4 + r3 * r4)
      = a ^ 2 * (1 - E ^ 2) + L ^ 2 + Q)
    (h3 : 0 ≤ r3) (h4 : 0 ≤ r4) (_hr1 : 0 < r1) (_hr2 : 0 < r2) (hp : p * (r1 + r2) = 2 * (r1 * r2))
    (hp1 : 21 / 4 ≤ p) (hps : 2 * p ≤ r1 + r2) : (11 / 5) ^ 2 ≤ L ^ 2 / (1 - zm) := by
  have hz' : 0 < 1 - zm := by linarith
  rw [hS, mul_div_cancel_left₀ _ hz'.ne']
  have hle : (1 - E ^ 2) * (r1 * r2 + r1 * r3 + r1 * r4 + r2 * r3 + r2 * r4 + r3 * r4) - (1 - E ^ 2) * 2
      ≤ L ^ 2 + Q - a ^ 2 * (1 - E ^ 2) * zm := by
    rw [v2]
    have h1 : a ^ 2 * (1 - E ^ 2) ≤ 1 * (1 - E ^ 2) := by gcongr
    have h2 : a ^ 2 * (1 - E ^ 2) * zm ≤ a ^ 2 * (1 - E ^ 2) * 1 := by gcongr
    linarith
  refine le_trans ?_ hle
  have hsum : p * (r1 + r2 + r3 + r4)
      ≤ 2 * (r1 * r2 + r1 * r3 + r1 * r4 + r2 * r3 + r2 * r4 + r3 * r4) := by
    have k1 : 0 ≤ (2 * (r1 + r2) - p) * (r3 + r4) := mul_nonneg (by linarith) (by linarith)
    have k2 : 0 ≤ r3 * r4 := mul_nonneg h3 h4
    linarith
  have k3 := mul_le_mul_of_nonneg_left hsum hE.le
  have k4 : (1 - E ^ 2) * (2 * p) ≤ 2 := by
    have := mul_le_mul_of_nonneg_left (by linarith : 2 * p ≤ r1 + r2 + r3 + r4) hE.le
    linarith
  have k5 : (1 - E ^ 2) * (21 / 2) ≤ 2 := by
    have := mul_le_mul_of_nonneg_left (by linarith : 21 / 2 ≤ 2 * p) hE.le
    linarith
  have k6 : (1 - E ^ 2) * (p * (r1 + r2 + r3 + r4)) = 2 * p := by linear_combination p * v1
  rw [k6] at k3
  linarith

section
variable {rs : RootScalar} {a p e x : ℝ} {q : Phases} {T : Traj} {m : MinoFreqs}
  {E L Q r1 r2 r3 r4 : ℝ}
  (ha : 0 ≤ a) (hT : stableTrajectoryNat rs a p e x q = .ok T)
  (hm : minoFrequencies rs a p e x = .ok m)
  (hc : constantsOfMotion rs a p e x = .ok (E, L, Q))
  (hr : stableRadialRoots rs a p e x = .ok (r1, r2, r3, r4))
  (hb : Spec.BoundGeodesic a E L Q r1 r2 r3 r4) (hQ : 0 ≤ Q)
include ha hT hm hc hr hb hQ

/-- Frame dragging of retrograde orbits is strongest at periapsis. -/
lemma phiR_le (hE0 : 0 < E) (hL : L < 0) :
    phiR a E L r1 r2 r3 r4 ≤ a * (2 * E * r2 - a * L) / Spec.Delta a r2 := by
  have hUr := (C20_radial ha hT hm hc hr hb).2.2.2.1
  obtain ⟨m', zm, zp, D⟩ := stableData_of ha hT hc hr
  obtain rfl := D.mino_eq hm
  have HR := BoundGeodesic.config hb
  have hs0 := Real.sqrt_nonneg (1 - a ^ 2)
  have ha1 : a ^ 2 < 1 := by nlinarith [D.spin.1, D.spin.2]
  have hs1 : 0 < √(1 - a ^ 2) := Real.sqrt_pos.mpr (by linarith)
  have hs2 : √(1 - a ^ 2) ^ 2 = 1 - a ^ 2 := Real.sq_sqrt (by linarith)
  have d := fun lam => (radial_dt (Q := Q) HR (show 0 < 1 - E ^ 2 by linarith [hb.energy])
    (a := a) (L := L) (lt_trans hb.horizon hb.r32) hb.horizon.ne'
    (by linarith [hb.horizon] : (1 - √(1 - a ^ 2)) < r3).ne' q.qr lam).2
  rw [← D.upsilonR] at d
  obtain ⟨-, p2, -, -⟩ := HR.dt_dphi_osc (a := a) (E := E) (L := L) (Q := Q) (lt_trans hb.horizon hb.r32)
  obtain ⟨B, hB⟩ := periodic_bounded p2 (continuous_of_phase hUr fun l => (d l).continuousAt)
  have hneg : -(a * (2 * E * r2 - a * L) / Spec.Delta a r2) ≤ -phiR a E L r1 r2 r3 r4 := by
    refine mean_ge (fun l => by rw [Pi.neg_apply, abs_neg]; exact hB (m'.upsilonR * l + q.qr))
      (fun l => ((d l).neg).congr_deriv (neg_sub' _ _)) fun l => neg_le_neg ?_
    have hrT : (radialSolutions a (E, L, Q) (r1, r2, r3, r4)).pos (m'.upsilonR * l + q.qr) = T.r l := by
      rw [D.hT]; rfl
    rw [hrT]
    obtain ⟨hD, hout⟩ := D.outside hb l
    have hrb := D.r_bounds hb l
    generalize T.r l = r at *
    have hr2 : 1 + √(1 - a ^ 2) < r2 := lt_trans hb.horizon hb.r32
    have n1 : r - (1 + √(1 - a ^ 2)) ≠ 0 := by linarith
    have n2 : r - (1 - √(1 - a ^ 2)) ≠ 0 := by intro h; linarith
    have hDe : ∀ r, Spec.Delta a r = (r - (1 + √(1 - a ^ 2))) * (r - (1 - √(1 - a ^ 2))) := fun r => by
      unfold Spec.Delta; linear_combination hs2
    have hD2 : 0 < Spec.Delta a r2 := by
      rw [hDe]; exact mul_pos (by linarith) (by linarith)
    have hle : a * (2 * E * r - a * L) / Spec.Delta a r ≤ a * (2 * E * r2 - a * L) / Spec.Delta a r2 := by
      rw [div_le_div_iff₀ hD hD2, mul_assoc a, mul_assoc a]
      refine mul_le_mul_of_nonneg_left ?_ ha
      have k0 : 0 ≤ r - r2 := by linarith [hrb.1]
      have k1 : 0 ≤ 2 * E * ((r - r2) * (r * r2 - a ^ 2)) := by
        have : 0 ≤ r * r2 - a ^ 2 := by nlinarith [hrb.1]
        positivity
      have k2 : 0 ≤ (-(a * L)) * ((r - r2) * (r + r2 - 2)) := by
        have h1 : 0 ≤ -(a * L) := by nlinarith
        have h2 : 0 ≤ r + r2 - 2 := by linarith [hrb.1]
        exact mul_nonneg h1 (mul_nonneg k0 h2)
      unfold Spec.Delta
      linarith
    refine le_trans (le_of_eq ?_) hle
    rw [hDe r]
    generalize √(1 - a ^ 2) = s at *
    have n3 : 1 + s - (1 - s) ≠ 0 := by intro h; linarith
    field_simp
    ring
  linarith

/-- The azimuthal frequency of a retrograde orbit is at most `-1/10`. -/
lemma azimuth_retrograde (hE0 : 0 < E) (hE1 : E < 1) (hL : L < 0) (he : 0 ≤ e) (he1 : e < 1) (hp : 21 / 4 + 3 / 4 * e < p)
    (e1 : r1 = p / (1 - e)) (e2 : r2 = p / (1 + e)) : m.upsilonPhi ≤ -(1 / 10) := by
  have hR := phiR_le ha hT hm hc hr hb hQ hE0 hL
  obtain ⟨m', zm, zp, D⟩ := stableData_of ha hT hc hr
  obtain rfl := D.mino_eq hm
  have H := D.polar hb.energy hb.nonpolar
  have hph := D.upsilonPhi hb
  have ha1 : a ^ 2 < 1 := by nlinarith [D.spin.1, D.spin.2]
  have ha1' : a < 1 := by nlinarith
  obtain ⟨h3, h4, -⟩ := BoundGeodesic.S_ge hb hQ ha1
  obtain ⟨v1, v2, -, -⟩ := RadialRoots.vieta hb.roots
  have hE : 0 < 1 - E ^ 2 := by linarith [hb.energy]
  have q1 : 0 < 1 + e := by linarith
  have q2 : 0 < 1 - e := by linarith
  have hp0 : 0 < p := by linarith
  have hr1 : 0 < r1 := by rw [e1]; positivity
  have hr2 : 0 < r2 := by rw [e2]; positivity
  have hr23 : 3 ≤ r2 := by rw [e2, le_div_iff₀ q1]; linarith
  have hpr : p * (r1 + r2) = 2 * (r1 * r2) := by rw [e1, e2]; field_simp; ring
  have hps : 2 * p ≤ r1 + r2 := by
    have : r1 + r2 = 2 * p / ((1 - e) * (1 + e)) := by rw [e1, e2]; field_simp; ring
    rw [this, le_div_iff₀ (by positivity)]
    nlinarith [mul_nonneg hp0.le (mul_nonneg he he)]
  have hz : 0 < 1 - zm := by linarith [H.z1]
  have hell := ell_ge hE ha1.le H.z1.le H.S_eq H.z1 v1 v2 (by linarith) h4 hr1 hr2 hpr (by linarith) hps
  have hsz : 0 < √(1 - zm) := Real.sqrt_pos.mpr hz
  have hsz2 : √(1 - zm) ^ 2 = 1 - zm := Real.sq_sqrt hz.le
  have hsz1 : √(1 - zm) ≤ 1 := Real.sqrt_le_one.mpr (by linarith [H.z0])
  obtain ⟨l, hl⟩ : ∃ l, l = -L / √(1 - zm) := ⟨_, rfl⟩
  have hl0 : 0 < l := by rw [hl]; exact div_pos (by linarith) hsz
  have hl1 : 11 / 5 ≤ l := by
    refine (pow_le_pow_iff_left₀ (by norm_num) hl0.le two_ne_zero).mp ?_
    rw [hl, div_pow (-L), hsz2, neg_sq]; exact hell
  have hLl : -L ≤ l := by
    rw [hl, le_div_iff₀ hsz]
    nlinarith
  have hpol : phiT a L zm zp ≤ -l := by
    have hK := ellipk_pos H.mT_lt
    have hpg := pi_ge H.z0 H.z1 H.mT_nonneg H.mT_lt
    unfold phiT
    rw [div_le_iff₀ hK, hl]
    have := mul_le_mul_of_nonneg_left hpg (by linarith : 0 ≤ -L)
    have e3 : -(-L / √(1 - zm)) * ellipk (mT a zm zp) = -(-L * (ellipk (mT a zm zp) / √(1 - zm))) := by
      field_simp
    rw [e3]; linarith
  have hdrag := drag_retro ha ha1' hE0 hE1 hLl hl1 hr23
  rw [hph]
  linarith

end

/-- The radial turning points used by the code. -/
lemma roots_first {rs : RootScalar} {a p e x r1 r2 r3 r4 : ℝ} (hr : stableRadialRoots rs a p e x = .ok (r1, r2, r3, r4)) :
    r1 = p / (1 - e) ∧ r2 = p / (1 + e) := by
  unfold stableRadialRoots at hr
  cases hc : constantsOr rs a p e x none with
  | error er => rw [hc, bind_error] at hr; cases hr
  | ok c =>
    rw [hc, bind_ok] at hr
    unfold stableRadialRootsCore at hr
    have := Except.ok.inj hr
    simp only [Prod.mk.injEq] at this
    exact ⟨this.1.symm, this.2.1.symm⟩

/-- Retrograde orbits, from the parameters alone. -/
lemma retrograde_sense (rs : RootScalar) {a p e x : ℝ} {m : MinoFreqs} (h : Spec.BoundOrbit rs a p e x) (ha : 0 ≤ a)
    (he1 : e ≠ 1) (hx0 : x < 0) (hm : minoFrequencies rs a p e x = .ok m) :
    m.upsilonPhi ≤ -(1 / 10) ∧ 0 < m.gamma := by
  obtain ⟨T, m', E, L, Q, r1, r2, r3, r4, hT, hm', hc, hr, hb, hE, hE1, hL, hQ, hf, hr2, e2⟩ :=
    orbit_hyps ⟨0, 0, 0, 0⟩ h ha he1 hx0.ne (fun h => absurd h (by linarith)) (Or.inl hx0)
  obtain rfl := Except.ok.inj (hm.symm.trans hm')
  obtain ⟨hal, ⟨he, he1'⟩, hx1, s, hs, hsp⟩ := h
  rw [abs_of_nonneg ha] at hal
  unfold Spec.signedX at hs
  rw [if_neg (by linarith), abs_of_nonneg ha] at hs
  obtain ⟨s', hs', hv⟩ := C15_separatrix_returns rs a e x ha hal he he1' (abs_le.mp hx1).1 (abs_le.mp hx1).2
  obtain rfl := Except.ok.inj (hs.symm.trans hs')
  have hsv := value_ge_retrograde ha hal he he1' (abs_le.mp hx1).1 hx0.le hv
  rw [Real.sign_of_neg hx0] at hL
  obtain ⟨f1, f2⟩ := roots_first hr
  refine ⟨azimuth_retrograde ha hT hm hc hr hb hQ hE hE1 (by linarith) he (lt_of_le_of_ne he1' he1) (by linarith) f1 f2, ?_⟩
  obtain ⟨-, -, hg, -⟩ := C46_future ha hT hm hc hr hb hE hf
  have : 0 < (p / (1 + e)) ^ 2 := by rw [← e2]; positivity
  linarith

/-- **C60 (sense of rotation).** The azimuthal frequency of every accepted orbit has the sign of `x`, in Mino time
and in coordinate time: frame dragging never turns a retrograde orbit round. -/
theorem C60_sense (rs : RootScalar) (a p e x : ℝ) (h : Spec.BoundOrbit rs a p e x)
    (ha : 0 ≤ a) (he1 : e ≠ 1) (hx0 : x ≠ 0) (hp : 0 < x → p ≤ 4 → Spec.DivisorsNonzero a p e x)
    (hne : x < 0 ∨ ∀ E L Q, constantsOfMotion rs a p e x = .ok (E, L, Q) →
      E * ((1 + √(1 - a ^ 2)) ^ 2 + a ^ 2) ≠ a * L) :
    ∃ m wr wth wph, minoFrequencies rs a p e x = .ok m
      ∧ fundamentalFrequencies rs a p e x = .ok (wr, wth, wph)
      ∧ (0 < x → 0 < m.upsilonPhi ∧ 0 < wph) ∧ (x < 0 → m.upsilonPhi < 0 ∧ wph < 0) := by
  obtain ⟨m, wr, wth, wph, hm, hw, u1, u2, w1, w2, o0, o1, o2⟩ := C60_order rs a p e x h ha he1 hx0 hp hne
  refine ⟨m, wr, wth, wph, hm, hw, fun hx => ?_, fun hx => ?_⟩
  · rcases eq_or_lt_of_le ha with h0 | h0
    · obtain ⟨k1, k2⟩ := o0 h0.symm
      rw [k1, k2, Real.sign_of_pos hx]
      constructor <;> linarith
    · obtain ⟨k1, k2⟩ := o1 h0 hx
      constructor <;> linarith
  · obtain ⟨k1, k2⟩ := retrograde_sense rs h ha he1 hx hm
    refine ⟨by linarith, ?_⟩
    have := (C25_fundamental rs a p e x m hm).1
    have h2 := Except.ok.inj (hw.symm.trans this)
    simp only [Prod.mk.injEq] at h2
    rw [h2.2.2]
    exact div_neg_of_neg_of_pos (by linarith) k2

/-- **C61 (retrograde whirl).** As `p` decreases to the separatrix, retrograde orbits make more and more turns
around the hole per radial period, backwards. -/
theorem C61_whirl_retrograde (rs : RootScalar) (a e x : ℝ) (ha : 0 ≤ a) (ha1 : a < 1) (he : 0 ≤ e) (he1 : e < 1)
    (hl : -1 ≤ x) (hx0 : x < 0) :
    ∃ (s : ℝ) (m : ℝ → MinoFreqs) (w : ℝ → ℝ × ℝ × ℝ), separatrix rs a e x = .ok s
      ∧ (∀ p, s < p → minoFrequencies rs a p e x = .ok (m p) ∧ fundamentalFrequencies rs a p e x = .ok (w p))
      ∧ Tendsto (fun p => (m p).upsilonPhi / (m p).upsilonR) (𝓝[>] s) atBot
      ∧ Tendsto (fun p => (w p).2.2 / (w p).1) (𝓝[>] s) atBot := by
  have hx : |x| ≤ 1 := abs_le.mpr ⟨hl, by linarith⟩
  obtain ⟨s, m, hs, hm, hR, -, -⟩ := C61_zoom_whirl rs a e x ha ha1 he he1 hx0.ne hx
  have hB : ∀ p, s < p → Spec.BoundOrbit rs a p e x := fun p hp => by
    refine ⟨by rwa [abs_of_nonneg ha], ⟨he, he1.le⟩, hx, s, ?_, hp⟩
    unfold Spec.signedX
    rwa [if_neg (by linarith), abs_of_nonneg ha]
  have hbd := fun p hp => retrograde_sense rs (hB p hp) ha he1.ne hx0 (hm p hp)
  have hRpos : ∀ᶠ p in 𝓝[>] s, 0 < (m p).upsilonR := by
    filter_upwards [(tendsto_nhdsWithin_iff.mp hR).2] with p hp
    exact hp
  have hmain : Tendsto (fun p => (m p).upsilonPhi / (m p).upsilonR) (𝓝[>] s) atBot := by
    have h1 : Tendsto (fun p => -(1 / 10) * ((m p).upsilonR)⁻¹) (𝓝[>] s) atBot :=
      (tendsto_inv_nhdsGT_zero.comp hR).const_mul_atTop_of_neg (by norm_num)
    refine tendsto_atBot_mono' _ ?_ h1
    filter_upwards [hRpos, self_mem_nhdsWithin] with p h2 h3
    have := (hbd p h3).1
    rw [← div_eq_mul_inv]
    gcongr
  refine ⟨s, m, fun p => ((m p).upsilonR / (m p).gamma, (m p).upsilonTheta / (m p).gamma, (m p).upsilonPhi / (m p).gamma),
    hs, fun p hp => ⟨hm p hp, (C25_fundamental rs a p e x _ (hm p hp)).1⟩, hmain, ?_⟩
  refine hmain.congr' ?_
  filter_upwards [hRpos, self_mem_nhdsWithin] with p h2 h3
  have := (hbd p h3).2
  show (m p).upsilonPhi / (m p).upsilonR = (m p).upsilonPhi / (m p).gamma / ((m p).upsilonR / (m p).gamma)
  field_simp

/-- Non-vacuity: a nearly polar retrograde orbit around a fast hole. -/
example (rs : RootScalar) : ∃ (s : ℝ) (m : ℝ → MinoFreqs) (w : ℝ → ℝ × ℝ × ℝ), separatrix rs (99 / 100) (1 / 2) (-1 / 100) = .ok s
    ∧ (∀ p, s < p → minoFrequencies rs (99 / 100) p (1 / 2) (-1 / 100) = .ok (m p)
      ∧ fundamentalFrequencies rs (99 / 100) p (1 / 2) (-1 / 100) = .ok (w p))
    ∧ Tendsto (fun p => (m p).upsilonPhi / (m p).upsilonR) (𝓝[>] s) atBot := by
  obtain ⟨s, m, w, h1, h2, h3, -⟩ := C61_whirl_retrograde rs (99 / 100) (1 / 2) (-1 / 100) (by norm_num) (by norm_num)
    (by norm_num) (by norm_num) (by norm_num) (by norm_num)
  exact ⟨s, m, w, h1, h2, h3⟩

end KGP
