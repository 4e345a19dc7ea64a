import Verif.Props.Deltas
import Mathlib.Analysis.Calculus.Deriv.MeanValue

/-!
# C25 (secular rates) and C46 (the time coordinate increases)
-/

namespace KGP

open Classical Real

lemma periodic_bounded {f : ℝ → ℝ} (hf : Function.Periodic f (2 * π)) (hc : Continuous f) :
    ∃ B, ∀ y, |f y| ≤ B := by
  obtain ⟨B, hB⟩ := isCompact_Icc.exists_bound_of_continuousOn (s := Set.Icc 0 (2 * π)) hc.continuousOn
  refine ⟨B, fun y => ?_⟩
  obtain ⟨z, hz, hyz⟩ := hf.exists_mem_Ico₀ Real.two_pi_pos y
  rw [hyz]
  exact hB z ⟨hz.1, hz.2.le⟩

lemma continuous_of_phase {f : ℝ → ℝ} {U q0 : ℝ} (hU : 0 < U)
    (h : ∀ lam, ContinuousAt (fun l => f (U * l + q0)) lam) : Continuous f := by
  have h1 : Continuous fun l => f (U * l + q0) := continuous_iff_continuousAt.mpr h
  have : f = (fun l => f (U * l + q0)) ∘ fun y => (y - q0) / U := by
    funext y
    simp only [Function.comp]
    congr 1
    field_simp; ring
  rw [this]
  exact h1.comp (by fun_prop)

section
variable {rs : RootScalar} {a p e x : ℝ} {q : Phases} {T : Traj} {m : MinoFreqs}
  {E L Q r1 r2 r3 r4 : ℝ}
  (ha : 0 ≤ a) (hT : stableTrajectoryNat rs a p e x q = .ok T)
  (hm : minoFrequencies rs a p e x = .ok m)
  (hc : constantsOfMotion rs a p e x = .ok (E, L, Q))
  (hr : stableRadialRoots rs a p e x = .ok (r1, r2, r3, r4))
  (hb : Spec.BoundGeodesic a E L Q r1 r2 r3 r4)
include ha hT hm hc hr hb

/-- **C25 (secular rates).** `Γ` and `Υ_φ` are the mean rates of `t` and `φ` in Mino time: the
deviation from linear growth is bounded for all times. -/
theorem C25_secular : ∃ B, ∀ lam, |T.t lam - (q.qt + m.gamma * lam)| ≤ B
    ∧ |T.phi lam - (q.qphi + m.upsilonPhi * lam)| ≤ B := by
  have hUr := (C20_radial ha hT hm hc hr hb).2.2.2.1
  have hUt := (C20_polar ha hT hm hc hr hb).2.2.2.1
  obtain ⟨m', zm, zp, D⟩ := stableData_of ha hT hc hr
  obtain rfl := D.mino_eq hm
  have HP := D.polar hb.energy hb.nonpolar
  have HR := BoundGeodesic.config hb
  have hs0 := Real.sqrt_nonneg (1 - a ^ 2)
  have d12 := fun lam => radial_dt (Q := Q) HR (show 0 < 1 - E ^ 2 by linarith [hb.energy])
    (a := a) (L := L) (lt_trans hb.horizon hb.r32) hb.horizon.ne'
    (by linarith [hb.horizon] : (1 - √(1 - a ^ 2)) < r3).ne' q.qr lam
  have d34 := fun lam => polar_dt HP m'.upsilonTheta (D.upsilonTheta hb.energy hb.nonpolar) q.qtheta lam
  rw [← D.upsilonR] at d12
  obtain ⟨p1, p2, -, -⟩ := HR.dt_dphi_osc (a := a) (E := E) (L := L) (Q := Q)
    (lt_trans hb.horizon hb.r32)
  obtain ⟨p3, p4⟩ := HP.dt_dphi_osc
  obtain ⟨B1, h1⟩ := periodic_bounded p1 (continuous_of_phase hUr fun l => (d12 l).1.continuousAt)
  obtain ⟨B2, h2⟩ := periodic_bounded p2 (continuous_of_phase hUr fun l => (d12 l).2.continuousAt)
  obtain ⟨B3, h3⟩ := periodic_bounded p3 (continuous_of_phase hUt fun l => (d34 l).1.continuousAt)
  obtain ⟨B4, h4⟩ := periodic_bounded p4 (continuous_of_phase hUt fun l => (d34 l).2.continuousAt)
  refine ⟨2 * B1 + 2 * B2 + 2 * B3 + 2 * B4, fun lam => ?_⟩
  have n1 := le_trans (abs_nonneg _) (h1 0)
  have n2 := le_trans (abs_nonneg _) (h2 0)
  have n3 := le_trans (abs_nonneg _) (h3 0)
  have n4 := le_trans (abs_nonneg _) (h4 0)
  rw [D.hT]
  simp only [assembleTrajectory]
  have a1 := abs_le.mp (h1 (m'.upsilonR * lam + q.qr))
  have a1' := abs_le.mp (h1 q.qr)
  have a2 := abs_le.mp (h2 (m'.upsilonR * lam + q.qr))
  have a2' := abs_le.mp (h2 q.qr)
  have a3 := abs_le.mp (h3 (m'.upsilonTheta * lam + q.qtheta))
  have a3' := abs_le.mp (h3 q.qtheta)
  have a4 := abs_le.mp (h4 (m'.upsilonTheta * lam + q.qtheta))
  have a4' := abs_le.mp (h4 q.qtheta)
  constructor
  · rw [abs_le]; constructor <;> linarith
  · rw [abs_le]; constructor <;> linarith

end

/-! ## C46 -/

/-- For any timelike geodesic outside the horizon with `E(r²+a²) > aL`, `dt/dλ ≥ r²`. -/
lemma dtdlam_ge {a E L Q r θ : ℝ} (hD : 0 < Spec.Delta a r) (hr : 0 < r) (hs : 0 < sin θ)
    (hR : 0 ≤ Spec.R a E L Q r) (hTh : 0 ≤ Spec.Theta a E L Q θ) (hP : a * L < E * (r ^ 2 + a ^ 2)) :
    r ^ 2 ≤ Spec.dtdlam a E L r θ := by
  have hsc := Real.sin_sq_add_cos_sq θ
  obtain ⟨s, hs'⟩ : ∃ s, s = sin θ := ⟨_, rfl⟩
  obtain ⟨c, hc'⟩ : ∃ c, c = cos θ := ⟨_, rfl⟩
  rw [← hs'] at hs
  -- `B² ≤ K sin²θ`
  have hB : (a * E * s ^ 2 - L) ^ 2 ≤ ((L - a * E) ^ 2 + Q) * s ^ 2 := by
    have h1 : Spec.Theta a E L Q θ * s ^ 2
        = ((L - a * E) ^ 2 + Q) * s ^ 2 - (a * E * s ^ 2 - L) ^ 2 - a ^ 2 * c ^ 2 * s ^ 2 := by
      unfold Spec.Theta
      rw [← hs', ← hc']
      have : c ^ 2 = 1 - s ^ 2 := by rw [hs', hc']; linarith
      rw [this]
      field_simp
      ring
    have h2 : 0 ≤ Spec.Theta a E L Q θ * s ^ 2 := by positivity
    nlinarith [sq_nonneg (a * c * s)]
  have hs1 : s ^ 2 ≤ 1 := by rw [hs']; exact Real.sin_sq_le_one θ
  obtain ⟨K, hK⟩ : ∃ K, K = (L - a * E) ^ 2 + Q := ⟨_, rfl⟩
  rw [← hK] at hB
  have hK0 : 0 ≤ K := by
    have : 0 ≤ K * s ^ 2 := le_trans (sq_nonneg _) hB
    exact nonneg_of_mul_nonneg_left this (by positivity)
  obtain ⟨B, hBd⟩ : ∃ B, B = a * E * s ^ 2 - L := ⟨_, rfl⟩
  rw [← hBd] at hB
  obtain ⟨P, hPd⟩ : ∃ P, P = E * (r ^ 2 + a ^ 2) - a * L := ⟨_, rfl⟩
  have hP0 : 0 < P := by rw [hPd]; linarith
  obtain ⟨Δ, hΔ⟩ : ∃ Δ, Δ = Spec.Delta a r := ⟨_, rfl⟩
  rw [← hΔ] at hD
  have hΔle : Δ ≤ r ^ 2 + a ^ 2 := by rw [hΔ]; unfold Spec.Delta; linarith
  have hR' : Δ * (r ^ 2 + K) ≤ P ^ 2 := by
    unfold Spec.R at hR
    rw [← hPd, ← hΔ] at hR
    rw [hK]; linarith
  -- `a|B| ≤ a√K`
  have hBK : B ^ 2 ≤ K := hB.trans (by nlinarith)
  have hk := Real.sq_sqrt hK0
  have hk0 := Real.sqrt_nonneg K
  have haB : a * B ≤ |a| * √K := by
    calc a * B ≤ |a * B| := le_abs_self _
      _ = |a| * |B| := abs_mul _ _
      _ ≤ |a| * √K := by
        apply mul_le_mul_of_nonneg_left _ (abs_nonneg a)
        exact Real.abs_le_sqrt hBK
  -- `(r²+a²) P / Δ ≥ r² + |a| √K`
  have hmain : r ^ 2 + |a| * √K ≤ (r ^ 2 + a ^ 2) / Δ * P := by
    rw [div_mul_eq_mul_div, le_div_iff₀ hD]
    refine (sq_le_sq₀ (by positivity) (by positivity)).mp ?_
    have e1 : (r ^ 2 + |a| * √K) ^ 2 ≤ (r ^ 2 + a ^ 2) * (r ^ 2 + K) := by
      have : (r ^ 2 + a ^ 2) * (r ^ 2 + K) - (r ^ 2 + |a| * √K) ^ 2 = r ^ 2 * (√K - |a|) ^ 2 := by
        rw [← sq_abs a]; linear_combination (-(r ^ 2 + |a| ^ 2)) * hk
      nlinarith [mul_nonneg (sq_nonneg r) (sq_nonneg (√K - |a|))]
    have e2 : ((r ^ 2 + |a| * √K) * Δ) ^ 2 ≤ (r ^ 2 + a ^ 2) * (r ^ 2 + K) * Δ ^ 2 := by
      rw [mul_pow]; exact mul_le_mul_of_nonneg_right e1 (sq_nonneg Δ)
    have e3 : (r ^ 2 + a ^ 2) * (r ^ 2 + K) * Δ ^ 2 ≤ (r ^ 2 + a ^ 2) * Δ * P ^ 2 := by
      have := mul_le_mul_of_nonneg_left hR' (show 0 ≤ (r ^ 2 + a ^ 2) * Δ by positivity)
      nlinarith
    have e4 : (r ^ 2 + a ^ 2) * Δ * P ^ 2 ≤ ((r ^ 2 + a ^ 2) * P) ^ 2 := by
      rw [mul_pow, sq (r ^ 2 + a ^ 2)]
      apply mul_le_mul_of_nonneg_right _ (sq_nonneg P)
      exact mul_le_mul_of_nonneg_left hΔle (by positivity)
    linarith
  unfold Spec.dtdlam
  rw [← hs', ← hΔ, ← hPd, ← hBd]
  linarith

/-- Outside `r = 2` a geodesic of positive energy has `E(r²+a²) > aL`. -/
lemma future_of_ge_two {a E L Q r : ℝ} (hE : 0 < E) (hQ : 0 ≤ Q) (hr : 2 ≤ r)
    (hR : 0 ≤ Spec.R a E L Q r) : a * L < E * (r ^ 2 + a ^ 2) := by
  by_contra hcon
  push Not at hcon
  obtain ⟨y, hy⟩ : ∃ y, y = a * L - E * (r ^ 2 + a ^ 2) := ⟨_, rfl⟩
  have hy0 : 0 ≤ y := by rw [hy]; linarith
  have hk : a * (L - a * E) = y + E * r ^ 2 := by rw [hy]; ring
  have hDa : a ^ 2 ≤ Spec.Delta a r := by unfold Spec.Delta; nlinarith
  have ha : a ≠ 0 := by
    rintro rfl
    have : 0 < E * (r ^ 2 + 0 ^ 2) := by positivity
    nlinarith
  have ha2 : 0 < a ^ 2 := by positivity
  unfold Spec.R at hR
  have h1 : (E * (r ^ 2 + a ^ 2) - a * L) ^ 2 = y ^ 2 := by rw [hy]; ring
  rw [h1] at hR
  have h2 : a ^ 2 * (L - a * E) ^ 2 ≤ Spec.Delta a r * (L - a * E) ^ 2 :=
    mul_le_mul_of_nonneg_right hDa (sq_nonneg _)
  have h3 : a ^ 2 * (L - a * E) ^ 2 = (y + E * r ^ 2) ^ 2 := by rw [← hk]; ring
  have h4 : 0 < E * r ^ 2 := by positivity
  have h5 : 0 ≤ Spec.Delta a r * (r ^ 2 + Q) := mul_nonneg (by linarith) (by positivity)
  nlinarith [mul_nonneg hy0 h4.le, sq_nonneg (E * r ^ 2), mul_pos h4 h4]

section
variable {rs : RootScalar} {a p e x : ℝ} {q : Phases} {T : Traj} {m : MinoFreqs}
  {E L Q r1 r2 r3 r4 : ℝ}
  (ha : 0 ≤ a) (hT : stableTrajectoryNat rs a p e x q = .ok T)
  (hm : minoFrequencies rs a p e x = .ok m)
  (hc : constantsOfMotion rs a p e x = .ok (E, L, Q))
  (hr : stableRadialRoots rs a p e x = .ok (r1, r2, r3, r4))
  (hb : Spec.BoundGeodesic a E L Q r1 r2 r3 r4)
include ha hT hm hc hr hb

/-- **C46.** If at periapsis `E(r²+a²) > aL` with `E > 0`, the trajectory is future directed: `dt/dλ`
is at least `r²` everywhere, `t` is strictly increasing, and `Γ ≥ r_min² > 0`, so the
Boyer–Lindquist frequencies are finite and `Ω_r, Ω_θ > 0`. -/
theorem C46_future (hE : 0 < E) (hP : a * L < E * (r2 ^ 2 + a ^ 2)) :
    (∀ lam, ∃ d, HasDerivAt T.t d lam ∧ T.r lam ^ 2 ≤ d)
    ∧ StrictMono T.t ∧ (p / (1 + e)) ^ 2 ≤ m.gamma
    ∧ ∃ wr wth wph, fundamentalFrequencies rs a p e x = .ok (wr, wth, wph) ∧ 0 < wr ∧ 0 < wth := by
  have hd : ∀ lam, ∃ d, HasDerivAt T.t d lam ∧ T.r lam ^ 2 ≤ d := by
    intro lam
    obtain ⟨-, -, hR, hTh⟩ := C21_radial_polar ha hT hm hc hr hb lam
    obtain ⟨ht, -⟩ := C22_time_azimuth ha hT hm hc hr hb lam
    obtain ⟨m', zm, zp, D⟩ := stableData_of ha hT hc hr
    obtain ⟨-, hsin, -, -⟩ := D.polarEq hb lam
    obtain ⟨hD, hout⟩ := D.outside hb lam
    have hr0 : 0 < T.r lam := by linarith [Real.sqrt_nonneg (1 - a ^ 2)]
    have hr2 : 0 < r2 := by linarith [Real.sqrt_nonneg (1 - a ^ 2), hb.horizon, hb.r32]
    refine ⟨_, ht, dtdlam_ge hD hr0 hsin hR hTh ?_⟩
    have h2 := (D.r_bounds hb lam).1
    have : r2 ^ 2 ≤ T.r lam ^ 2 := pow_le_pow_left₀ hr2.le h2 2
    nlinarith
  obtain ⟨hrb, -, -, hUr, -, -⟩ := C20_radial ha hT hm hc hr hb
  obtain ⟨-, -, -, hUt, -⟩ := C20_polar ha hT hm hc hr hb
  have hmin : 0 < p / (1 + e) := by
    obtain ⟨m', zm, zp, D⟩ := stableData_of ha hT hc hr
    rw [← D.roots12.2]
    linarith [Real.sqrt_nonneg (1 - a ^ 2), hb.horizon, hb.r32]
  have hdiff : Differentiable ℝ T.t := fun lam => (hd lam).choose_spec.1.differentiableAt
  have hderiv : ∀ lam, (p / (1 + e)) ^ 2 ≤ deriv T.t lam := by
    intro lam
    obtain ⟨d, h1, h2⟩ := hd lam
    rw [h1.deriv]
    exact le_trans (pow_le_pow_left₀ hmin.le (hrb lam).1 2) h2
  have hG : (p / (1 + e)) ^ 2 ≤ m.gamma := by
    obtain ⟨B, hB⟩ := C25_secular ha hT hm hc hr hb
    by_contra hcon
    push Not at hcon
    have hB0 : 0 ≤ B := le_trans (abs_nonneg _) (hB 0).1
    obtain ⟨k, hk⟩ : ∃ k, k = (p / (1 + e)) ^ 2 - m.gamma := ⟨_, rfl⟩
    have hk0 : 0 < k := by linarith
    have hlam : 0 < (2 * B + 1) / k := by positivity
    have hmv := Convex.mul_sub_le_image_sub_of_le_deriv (D := Set.univ) convex_univ hdiff.continuous.continuousOn
      (by rw [interior_univ]; exact hdiff.differentiableOn) (fun y _ => hderiv y)
      0 (Set.mem_univ _) ((2 * B + 1) / k) (Set.mem_univ _) hlam.le
    have h1 := abs_le.mp (hB ((2 * B + 1) / k)).1
    have h2 := abs_le.mp (hB 0).1
    have h3 : k * ((2 * B + 1) / k) = 2 * B + 1 := by field_simp
    generalize (2 * B + 1) / k = y at *
    rw [hk] at h3
    nlinarith
  refine ⟨hd, strictMono_of_deriv_pos fun lam => lt_of_lt_of_le (by positivity) (hderiv lam), hG, ?_⟩
  have hGpos : 0 < m.gamma := lt_of_lt_of_le (by positivity) hG
  exact ⟨_, _, _, (C25_fundamental rs a p e x m hm).1, div_pos hUr hGpos, div_pos hUt hGpos⟩

/-- **C46.** In particular for every orbit of positive energy with periapsis at `r ≥ 2`. -/
theorem C46_future_outside (hE : 0 < E) (hQ : 0 ≤ Q) (h2 : 2 ≤ p / (1 + e)) :
    (∀ lam, ∃ d, HasDerivAt T.t d lam ∧ T.r lam ^ 2 ≤ d)
    ∧ StrictMono T.t ∧ (p / (1 + e)) ^ 2 ≤ m.gamma
    ∧ ∃ wr wth wph, fundamentalFrequencies rs a p e x = .ok (wr, wth, wph) ∧ 0 < wr ∧ 0 < wth := by
  refine C46_future ha hT hm hc hr hb hE (future_of_ge_two (Q := Q) hE hQ ?_ ?_)
  · obtain ⟨m', zm, zp, D⟩ := stableData_of ha hT hc hr
    rw [D.roots12.2]; exact h2
  · rw [hb.roots]; simp

end

end KGP
