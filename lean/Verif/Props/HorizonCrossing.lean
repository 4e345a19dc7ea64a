import Verif.Lemmas.LogDivergence
import Verif.Props.RealPlunge

/-!
# C59: plunges cross both horizons, and there coordinate time and azimuth diverge

`trajectory` of a plunge gives Boyer–Lindquist coordinates as functions of Mino time, also beyond the horizons.
The theorems say that every plunge crosses each horizon inwards at a finite Mino time and that the returned `t` and
`φ` tend to `±∞` there, with the sign of general relativity.
-/

namespace KGP

open Classical Real Filter Topology

/-- What C59 says about a curve with constants `E`, `L` at a Mino time `lam0` at which it is on the horizon `rh`: it moves
through it with a velocity `d ≠ 0`, and `t`, `φ` diverge on both sides with the sign determined by the direction of motion,
by the horizon (`rh > 1` for the outer one) and by `E(rh²+a²) - aL`. -/
def Spec.DivergesAt (a E L rh : ℝ) (T : Traj) (lam0 : ℝ) : Prop :=
  ∃ d, HasDerivAt T.r d lam0 ∧ d ≠ 0
    ∧ (d * (rh - 1) * (E * (rh ^ 2 + a ^ 2) - a * L) < 0 → Tendsto T.t (𝓝[≠] lam0) atTop)
    ∧ (0 < d * (rh - 1) * (E * (rh ^ 2 + a ^ 2) - a * L) → Tendsto T.t (𝓝[≠] lam0) atBot)
    ∧ (a * (d * (rh - 1) * (E * (rh ^ 2 + a ^ 2) - a * L)) < 0 → Tendsto T.phi (𝓝[≠] lam0) atTop)
    ∧ (0 < a * (d * (rh - 1) * (E * (rh ^ 2 + a ^ 2) - a * L)) → Tendsto T.phi (𝓝[≠] lam0) atBot)

lemma horizon_ne_one {a h : ℝ} (ha1 : a ^ 2 < 1) (hD : Spec.Delta a h = 0) : h - 1 ≠ 0 := by
  intro hh
  have : h = 1 := by linarith
  rw [this] at hD
  unfold Spec.Delta at hD
  nlinarith

lemma horizon_sq_pos {a h : ℝ} (ha : a ≠ 0) : 0 < h ^ 2 + a ^ 2 := by positivity

lemma diverges_of {a E L rh d lam0 : ℝ} {T : Traj} (ha : a ≠ 0) (ha1 : a ^ 2 < 1) (hD : Spec.Delta a rh = 0)
    (h0 : T.r lam0 = rh) (hd : HasDerivAt T.r d lam0) (hd0 : d ≠ 0) (hθ : ContinuousAt T.theta lam0)
    (hs : sin (T.theta lam0) ≠ 0)
    (ht : ∀ᶠ l in 𝓝[≠] lam0, HasDerivAt T.t (Spec.dtdlam a E L (T.r l) (T.theta l)) l
      ∧ HasDerivAt T.phi (Spec.dphidlam a E L (T.r l) (T.theta l)) l) :
    Spec.DivergesAt a E L rh T lam0 := by
  obtain ⟨k1, k2⟩ := residues (E := E) (L := L) ha1 hD h0 hd hd0 hθ hs
  have hne : d * (rh - 1) ≠ 0 := mul_ne_zero hd0 (horizon_ne_one ha1 hD)
  have hp : 0 < rh ^ 2 + a ^ 2 := horizon_sq_pos ha
  have hD2 : 0 < (d * (rh - 1)) ^ 2 := by positivity
  unfold Spec.DivergesAt
  generalize E * (rh ^ 2 + a ^ 2) - a * L = k at *
  generalize rh ^ 2 + a ^ 2 = s at *
  have e1 : s * k / (2 * (d * (rh - 1))) = s / (2 * (d * (rh - 1)) ^ 2) * (d * (rh - 1) * k) := by
    generalize d * (rh - 1) = y at *; field_simp
  have e2 : a * k / (2 * (d * (rh - 1))) = 1 / (2 * (d * (rh - 1)) ^ 2) * (a * (d * (rh - 1) * k)) := by
    generalize d * (rh - 1) = y at *; field_simp
  have p1 : 0 < s / (2 * (d * (rh - 1)) ^ 2) := by positivity
  have p2 : 0 < 1 / (2 * (d * (rh - 1)) ^ 2) := by positivity
  rw [e1] at k1
  rw [e2] at k2
  refine ⟨d, hd, hd0, fun h => ?_, fun h => ?_, fun h => ?_, fun h => ?_⟩
  · exact log_div (mul_neg_of_pos_of_neg p1 h) (ht.mono fun l h => h.1) k1
  · exact log_div_neg (mul_pos p1 h) (ht.mono fun l h => h.1) k1
  · exact log_div (mul_neg_of_pos_of_neg p2 h) (ht.mono fun l h => h.2) k2
  · exact log_div_neg (mul_pos p2 h) (ht.mono fun l h => h.2) k2

/-- Between a maximum and the next minimum a curve passes every value in between, inwards if its velocity has the sign of
the sine of the phase. -/
lemma crosses_inward {f R : ℝ → ℝ} {U q0 lo hi y : ℝ} (hU : 0 < U)
    (hlo : ∀ lam, U * lam + q0 = 2 * π → f lam = lo) (hhi : ∀ lam, U * lam + q0 = π → f lam = hi)
    (hd : ∀ lam, HasDerivAt f (Real.sign (sin (U * lam + q0)) * √(R (f lam))) lam)
    (hz : ∀ lam, sin (U * lam + q0) = 0 → R (f lam) = 0) (h1 : lo < y) (h2 : y < hi) (hR : 0 < R y) :
    ∃ lam, f lam = y ∧ HasDerivAt f (-√(R y)) lam := by
  obtain ⟨A, hA⟩ : ∃ A, A = (π - q0) / U := ⟨_, rfl⟩
  obtain ⟨B, hB⟩ : ∃ B, B = (2 * π - q0) / U := ⟨_, rfl⟩
  have eA : U * A + q0 = π := by rw [hA]; field_simp; ring
  have eB : U * B + q0 = 2 * π := by rw [hB]; field_simp; ring
  have hAB : A ≤ B := by
    rw [hA, hB]; gcongr; linarith [Real.pi_pos]
  have hc : ContinuousOn f (Set.Icc A B) := fun l _ => (hd l).continuousAt.continuousWithinAt
  obtain ⟨l, hl, hfl⟩ := intermediate_value_Icc' hAB hc
    (show y ∈ Set.Icc (f B) (f A) by rw [hlo B eB, hhi A eA]; exact ⟨h1.le, h2.le⟩)
  refine ⟨l, hfl, ?_⟩
  have hs : sin (U * l + q0) ≤ 0 := by
    have e : sin (U * l + q0) = -sin (U * l + q0 - π) := by rw [Real.sin_sub_pi, neg_neg]
    rw [e]
    have a1 : U * A ≤ U * l := by have := hl.1; gcongr
    have a2 : U * l ≤ U * B := by have := hl.2; gcongr
    have := Real.sin_nonneg_of_nonneg_of_le_pi (x := U * l + q0 - π) (by linarith) (by linarith)
    linarith
  have hs0 : sin (U * l + q0) ≠ 0 := by
    intro h
    have := hz l h
    rw [hfl] at this
    linarith
  have := hd l
  rw [hfl, Real.sign_of_neg (lt_of_le_of_ne hs hs0)] at this
  exact this.congr_deriv (by ring)

section
variable {a E L Q r1 r2 uR uTheta : ℝ} {r3 r4 : ℂ} {q : Phases} {T : Traj}
  (ha : a ≠ 0) (ha1 : a ^ 2 < 1) (hE : E ^ 2 < 1) (hQ : 0 ≤ Q) (hax : L ≠ 0 ∨ Q < a ^ 2 * (1 - E ^ 2))
  (hr : plungingRadialRoots a E L Q = .ok (.cplx r1 r2 r3 r4))
  (hT : plungingTrajectoryNat a E L Q q = .ok T)
  (hh : ∀ rh, Spec.Delta a rh = 0 → E * (rh ^ 2 + a ^ 2) ≠ a * L)
include ha ha1 hE hQ hax hr hT hh

omit ha ha1 hQ hax in
/-- **C59, two complex roots.** Every plunge passes each horizon inwards at some Mino time. -/
theorem C59_crosses_complex (rh : ℝ) (hD : Spec.Delta a rh = 0) :
    ∃ lam d, T.r lam = rh ∧ HasDerivAt T.r d lam ∧ d < 0 := by
  obtain ⟨⟨uR, uTheta⟩, hu⟩ := (C31_returns a E L Q r1 r2 r3 r4 q hr).2
  obtain ⟨hU, hper, hlo, hhi⟩ := C31_period hE hr hu hT
  obtain ⟨b1, b2⟩ := horizons_between hE hr hD (hh rh hD)
  have hR : 0 < Spec.R a E L Q rh := by
    unfold Spec.R
    rw [hD, zero_mul, sub_zero]
    have : E * (rh ^ 2 + a ^ 2) - a * L ≠ 0 := sub_ne_zero.mpr (hh rh hD)
    positivity
  obtain ⟨l, h1, h2⟩ := crosses_inward (f := T.r) (R := Spec.R a E L Q) (U := uR) (q0 := q.qr) (lo := r1) (hi := r2)
    hU (fun lam h => by
      have h' : uR * (lam - 2 * π / uR) + q.qr = 0 := by
        have := hU.ne'; field_simp; linarith
      have e := hper (lam - 2 * π / uR)
      rw [sub_add_cancel] at e
      rw [e]; exact hlo _ h') hhi
    (fun lam => (C31_radial_equation hE hr hu hT lam).2.2.2) (fun lam => C31_turning hE hr hu hT lam) b1 b2 hR
  exact ⟨l, _, h1, h2, neg_lt_zero.mpr (Real.sqrt_pos.mpr hR)⟩

/-- **C59, two complex roots.** Wherever the particle is on a horizon, `t` and `φ` diverge. -/
theorem C59_diverges_complex (hAB : r1 + r2 ≠ 2 * r3.re) (rh lam : ℝ) (hD : Spec.Delta a rh = 0) (h0 : T.r lam = rh) :
    Spec.DivergesAt a E L rh T lam := by
  obtain ⟨⟨uR, uTheta⟩, hu⟩ := (C31_returns a E L Q r1 r2 r3 r4 q hr).2
  have H := cplxConfig_of hE hr
  have hR : 0 < Spec.R a E L Q rh := by
    unfold Spec.R
    rw [hD, zero_mul, sub_zero]
    have : E * (rh ^ 2 + a ^ 2) - a * L ≠ 0 := sub_ne_zero.mpr (hh rh hD)
    positivity
  obtain ⟨d, hd, hd2⟩ := C31_radial_squared hE hr hu hT lam
  have hd0 : d ≠ 0 := by
    rintro rfl
    rw [h0] at hd2
    nlinarith
  obtain ⟨-, zm, -, -, -, -, hth⟩ := C32_polar_equation hE hr hu hT ha hQ hax
  obtain ⟨-, hs, -, hθ⟩ := hth lam
  refine diverges_of ha ha1 hD h0 hd hd0 hθ.continuousAt hs.ne' ?_
  have hsing : ∀ h, Spec.Delta a h = 0 → ∀ᶠ l in 𝓝[≠] lam, T.r l ≠ h ∧
      ((r2 - r3.re) ^ 2 + r4.im ^ 2) * (T.r l - r1) * (h - r1)
        ≠ ((r1 - r3.re) ^ 2 + r4.im ^ 2) * (r2 - T.r l) * (r2 - h) := by
    intro h hh0
    obtain ⟨b1, b2⟩ := horizons_between hE hr hh0 (hh h hh0)
    have hv : 0 < r4.im ^ 2 := by have := H.hv; positivity
    have hc : 0 < ((r2 - r3.re) ^ 2 + r4.im ^ 2) * (h - r1) + ((r1 - r3.re) ^ 2 + r4.im ^ 2) * (r2 - h) := by
      have p1 : 0 < h - r1 := by linarith
      have p2 : 0 < r2 - h := by linarith
      positivity
    filter_upwards [hd.eventually_ne (c := h) hd0, hd.eventually_ne
      (c := (((r2 - r3.re) ^ 2 + r4.im ^ 2) * (h - r1) * r1 + ((r1 - r3.re) ^ 2 + r4.im ^ 2) * (r2 - h) * r2)
        / (((r2 - r3.re) ^ 2 + r4.im ^ 2) * (h - r1) + ((r1 - r3.re) ^ 2 + r4.im ^ 2) * (r2 - h))) hd0] with l k1 k2
    refine ⟨k1, fun k3 => k2 ?_⟩
    rw [eq_div_iff hc.ne']
    linear_combination k3
  have hs1 : 0 < √(1 - a ^ 2) := Real.sqrt_pos.mpr (by linarith)
  have hs2 : √(1 - a ^ 2) ^ 2 = 1 - a ^ 2 := Real.sq_sqrt (by linarith)
  have dp : Spec.Delta a (1 + √(1 - a ^ 2)) = 0 := by unfold Spec.Delta; linear_combination hs2
  have dm : Spec.Delta a (1 - √(1 - a ^ 2)) = 0 := by unfold Spec.Delta; linear_combination hs2
  filter_upwards [hsing _ dp, hsing _ dm] with l k1 k2
  refine C47_plunge_time_azimuth hE hr hu hT ha ha1 hQ hax hAB hh l fun h hh0 => ?_
  have : (h - (1 + √(1 - a ^ 2))) * (h - (1 - √(1 - a ^ 2))) = 0 := by
    unfold Spec.Delta at hh0; linear_combination hh0 - hs2
  rcases mul_eq_zero.mp this with e | e
  · obtain rfl : h = 1 + √(1 - a ^ 2) := by linarith
    exact k1
  · obtain rfl : h = 1 - √(1 - a ^ 2) := by linarith
    exact k2

/-- **C59, two complex roots: infall through the outer horizon.** If `E(r₊²+a²) > aL` (future-directed
motion), the particle passes the outer horizon inwards at some finite Mino time, and `t → +∞` there. -/
theorem C59_infall_complex (hAB : r1 + r2 ≠ 2 * r3.re)
    (hf : a * L < E * ((1 + √(1 - a ^ 2)) ^ 2 + a ^ 2)) :
    ∃ lam d, T.r lam = 1 + √(1 - a ^ 2) ∧ HasDerivAt T.r d lam ∧ d < 0 ∧ Tendsto T.t (𝓝[≠] lam) atTop := by
  have hs1 : 0 < √(1 - a ^ 2) := Real.sqrt_pos.mpr (by linarith)
  have hs2 : √(1 - a ^ 2) ^ 2 = 1 - a ^ 2 := Real.sq_sqrt (by linarith)
  have dp : Spec.Delta a (1 + √(1 - a ^ 2)) = 0 := by unfold Spec.Delta; linear_combination hs2
  obtain ⟨lam, d, h0, hd, hneg⟩ := C59_crosses_complex hE hr hT hh _ dp
  obtain ⟨d', hd', -, h1, -⟩ := C59_diverges_complex ha ha1 hE hQ hax hr hT hh hAB _ lam dp h0
  obtain rfl := hd.unique hd'
  refine ⟨lam, d, h0, hd, hneg, h1 ?_⟩
  refine mul_neg_of_neg_of_pos ?_ (by linarith)
  exact mul_neg_of_neg_of_pos hneg (by linarith)

end

section
variable {a E L Q r1 r2 r3 r4 : ℝ} {q : Phases} {T : Traj}
  (ha : a ≠ 0) (ha1 : a ^ 2 < 1) (hE : E ^ 2 < 1) (hL : L ≠ 0) (hQ : 0 < Q)
  (hr : plungingRadialRoots a E L Q = .ok (.real r1 r2 r3 r4)) (hsep : r3 < r2 ∨ r1 < r4)
  (hT : plungingTrajectoryNat a E L Q q = .ok T)
  (hh : ∀ rh, Spec.Delta a rh = 0 → E * (rh ^ 2 + a ^ 2) ≠ a * L)
include ha ha1 hE hL hQ hr hsep hT hh

/-- **C59, four real roots.** Every plunge passes each horizon inwards at some Mino time. -/
theorem C59_crosses_real (rh : ℝ) (hD : Spec.Delta a rh = 0) :
    ∃ lam d, T.r lam = rh ∧ HasDerivAt T.r d lam ∧ d < 0 := by
  obtain ⟨⟨uR, uTheta, hu⟩, -⟩ := C50_returns ha hE hL hr q
  obtain ⟨hU, -, hper, hlo, hhi⟩ := C50_range ha hE hL hQ.le hr hsep hu hT
  obtain ⟨b2, b1, -⟩ := C50_horizons ha1 hE hQ.le hr hh
  have hs1 : 0 < √(1 - a ^ 2) := Real.sqrt_pos.mpr (by linarith)
  have hs2 : √(1 - a ^ 2) ^ 2 = 1 - a ^ 2 := Real.sq_sqrt (by linarith)
  have hb : r2 < rh ∧ rh < r1 := by
    have : (rh - (1 + √(1 - a ^ 2))) * (rh - (1 - √(1 - a ^ 2))) = 0 := by
      unfold Spec.Delta at hD; linear_combination hD - hs2
    rcases mul_eq_zero.mp this with e | e <;> constructor <;> linarith
  have hR : 0 < Spec.R a E L Q rh := by
    unfold Spec.R
    rw [hD, zero_mul, sub_zero]
    have : E * (rh ^ 2 + a ^ 2) - a * L ≠ 0 := sub_ne_zero.mpr (hh rh hD)
    positivity
  obtain ⟨l, h1, h2⟩ := crosses_inward (f := T.r) (R := Spec.R a E L Q) (U := uR) (q0 := q.qr) (lo := r2) (hi := r1)
    hU (fun lam h => by
      have h' : uR * (lam - 2 * π / uR) + q.qr = 0 := by
        have := hU.ne'; field_simp; linarith
      have e := hper (lam - 2 * π / uR)
      rw [sub_add_cancel] at e
      rw [e]; exact hlo _ h') hhi
    (fun lam => (C50_radial_polar ha hE hL hQ.le hr hsep hu hT lam).2.1)
    (fun lam => (C50_radial_polar ha hE hL hQ.le hr hsep hu hT lam).2.2.1) hb.1 hb.2 hR
  exact ⟨l, _, h1, h2, neg_lt_zero.mpr (Real.sqrt_pos.mpr hR)⟩

/-- **C59, four real roots.** Wherever the particle is on a horizon, `t` and `φ` diverge. -/
theorem C59_diverges_real (rh lam : ℝ) (hD : Spec.Delta a rh = 0) (h0 : T.r lam = rh) :
    Spec.DivergesAt a E L rh T lam := by
  obtain ⟨⟨uR, uTheta, hu⟩, -⟩ := C50_returns ha hE hL hr q
  have hR : 0 < Spec.R a E L Q rh := by
    unfold Spec.R
    rw [hD, zero_mul, sub_zero]
    have : E * (rh ^ 2 + a ^ 2) - a * L ≠ 0 := sub_ne_zero.mpr (hh rh hD)
    positivity
  obtain ⟨-, hd, hz, hs, -, hθ, -⟩ := C50_radial_polar ha hE hL hQ.le hr hsep hu hT lam
  have hd0 : Real.sign (sin (uR * lam + q.qr)) * √(Spec.R a E L Q (T.r lam)) ≠ 0 := by
    refine mul_ne_zero (fun h => ?_) ?_
    · rw [Real.sign_eq_zero_iff] at h
      have := hz h
      rw [h0] at this
      linarith
    · rw [h0]; exact (Real.sqrt_pos.mpr hR).ne'
  refine diverges_of ha ha1 hD h0 hd hd0 hθ.continuousAt hs.ne' ?_
  have hs2 : √(1 - a ^ 2) ^ 2 = 1 - a ^ 2 := Real.sq_sqrt (by linarith)
  filter_upwards [hd.eventually_ne (c := 1 + √(1 - a ^ 2)) hd0, hd.eventually_ne (c := 1 - √(1 - a ^ 2)) hd0] with l k1 k2
  obtain ⟨g1, g2⟩ := C50_time_azimuth ha ha1 hE hL hQ.le hr hsep hu hT hh l (by
    have : Spec.Delta a (T.r l) = (T.r l - (1 + √(1 - a ^ 2))) * (T.r l - (1 - √(1 - a ^ 2))) := by
      unfold Spec.Delta; linear_combination hs2
    rw [this]
    exact mul_ne_zero (sub_ne_zero.mpr k1) (sub_ne_zero.mpr k2))
  exact ⟨g1 hQ.ne', g2⟩

end

/-- The real-root plunge of C50 meets the hypotheses; it falls through its outer horizon `18/13` while `t → +∞`. -/
example (q : Phases) : ∃ T lam, plungingTrajectoryNat (12 / 13) exE (12 / 13 * exE) (8294400 / 679439) q = .ok T
    ∧ T.r lam = 18 / 13 ∧ Tendsto T.t (𝓝[≠] lam) atTop := by
  have hE : exE ^ 2 < 1 := by rw [exE_sq]; norm_num
  have hE0 := exE_pos
  have hL : (12 / 13 * exE : ℝ) ≠ 0 := by positivity
  obtain ⟨-, T, hT⟩ := C50_returns (by norm_num) hE hL exPlungeLabels q
  have hh : ∀ rh, Spec.Delta (12 / 13) rh = 0 → exE * (rh ^ 2 + (12 / 13) ^ 2) ≠ 12 / 13 * (12 / 13 * exE) := by
    intro rh hrh h
    have h1 : exE * rh ^ 2 = 0 := by linear_combination h
    have h2 : rh = 0 := by
      rcases mul_eq_zero.mp h1 with h | h
      · exact absurd h hE0.ne'
      · exact pow_eq_zero_iff two_ne_zero |>.mp h
    rw [h2] at hrh
    unfold Spec.Delta at hrh
    norm_num at hrh
  have hD : Spec.Delta (12 / 13) (18 / 13) = 0 := by unfold Spec.Delta; norm_num
  obtain ⟨lam, d, h0, hd, hneg⟩ := C59_crosses_real (by norm_num) (by norm_num) hE hL (by norm_num) exPlungeLabels
    (by norm_num) hT hh _ hD
  obtain ⟨d', hd', -, h1, -⟩ := C59_diverges_real (by norm_num) (by norm_num) hE hL (by norm_num) exPlungeLabels
    (by norm_num) hT hh _ lam hD h0
  obtain rfl := hd.unique hd'
  refine ⟨T, lam, hT, h0, h1 ?_⟩
  have : exE * ((18 / 13) ^ 2 + (12 / 13) ^ 2) - 12 / 13 * (12 / 13 * exE) = (18 / 13) ^ 2 * exE := by ring
  rw [this]
  exact mul_neg_of_neg_of_pos (mul_neg_of_neg_of_pos hneg (by norm_num)) (by positivity)

end KGP
