import Verif.Props.TrajectoryContinuity
import Verif.Props.Precession

/-!
# Bound orbits far from the hole
-/

namespace KGP

open Classical Real Filter Topology

lemma PolarConfig.a2s_eq {a E L Q zm zp : ℝ} (H : PolarConfig a E L Q zm zp) : a2sqrtZpOverE0 a E L zm zp
    = (a ^ 2 * (1 - E ^ 2) * (1 - zm) + L ^ 2) / ((1 - zm) * (1 - E ^ 2)) / √(e0zpOf a E L zm) := by
  have h1 : 0 < 1 - zm := by linarith [H.z1]
  have h2 := H.hE
  have h3 := H.hL
  by_cases h : a = 0
  · unfold a2sqrtZpOverE0 e0zpOf
    rw [if_pos h, h]
    have e1 : (0 ^ 2 * (1 - E ^ 2) * (1 - zm) + L ^ 2) / (L ^ 2 * (1 - zm)) = (1 - zm)⁻¹ := by
      field_simp; ring
    rw [e1, Real.sqrt_inv]
    have h4 : 0 < √(1 - zm) := Real.sqrt_pos.mpr h1
    have h5 : √(1 - zm) ^ 2 = 1 - zm := Real.sq_sqrt h1.le
    generalize √(1 - zm) = k at *
    rw [← h5]
    field_simp
    ring
  · have e := H.W_sq_zp h
    have e2 := H.W_sq
    have h4 := H.e0zp_pos
    have e3 : a ^ 2 * (1 - E ^ 2) / L ^ 2 * zp = e0zpOf a E L zm := by
      rw [H.zp_eq h, e0zpOf]; field_simp
    unfold a2sqrtZpOverE0
    rw [if_neg h, e3]
    congr 1
    rw [eq_div_iff (by positivity)]
    linear_combination e2 - (1 - zm) * e

lemma horizon_int {r1 r2 r3 r4 y : ℝ} (H : RootsConfig r1 r2 r3 r4) (h32 : r3 < r2) (hy : y < r3) :
    1 / (r3 - y) * (ellipk (mR r1 r2 r3 r4) - (r2 - r3) / (r2 - y) * ellippiK (hPM r1 r2 r3 y) (mR r1 r2 r3 r4))
      = (∫ t in (0:ℝ)..(π / 2), 1 / (rOf r1 r2 r3 (sin t ^ 2) - y) * (1 / √(1 - mR r1 r2 r3 r4 * sin t ^ 2)))
    ∧ Continuous fun t => 1 / (rOf r1 r2 r3 (sin t ^ 2) - y) * (1 / √(1 - mR r1 r2 r3 r4 * sin t ^ 2)) := by
  have hm := H.mR_lt
  have hn := H.hPM_lt (show y < r2 by linarith)
  have h2y : 0 < r2 - y := by linarith
  have e0 : ∀ t, 1 / (r3 - y) * (1 / √(1 - mR r1 r2 r3 r4 * sin t ^ 2)
      - (r2 - r3) / (r2 - y) * (1 / ((1 - hPM r1 r2 r3 y * sin t ^ 2) * √(1 - mR r1 r2 r3 r4 * sin t ^ 2))))
      = 1 / (rOf r1 r2 r3 (sin t ^ 2) - y) * (1 / √(1 - mR r1 r2 r3 r4 * sin t ^ 2)) := by
    intro t
    rw [← H.r_inv_gen h2y.ne' (by linarith) t (by linarith [one_sub_mul_sin_sq_pos hn t])]
    have k1 := (one_sub_mul_sin_sq_pos hn t).ne'
    have k2 := (Real.sqrt_pos.mpr (one_sub_mul_sin_sq_pos hm t)).ne'
    generalize √(1 - mR r1 r2 r3 r4 * sin t ^ 2) = d at *
    generalize 1 - hPM r1 r2 r3 y * sin t ^ 2 = w at *
    field_simp
  simp only [← e0]
  refine ⟨?_, ((cont_K hm).sub ((cont_Pi hn hm).const_mul _)).const_mul _⟩
  rw [intervalIntegral.integral_const_mul, intervalIntegral.integral_sub ((cont_K hm).intervalIntegrable _ _)
    (((cont_Pi hn hm).const_mul _).intervalIntegrable _ _), intervalIntegral.integral_const_mul, ellippiK_eq hn hm]
  rfl

/-- The average of `1/(r - y)` over a radial period, in terms of elliptic integrals. -/
lemma horizon_avg {r1 r2 r3 r4 y : ℝ} (H : RootsConfig r1 r2 r3 r4) (h32 : r3 < r2) (hy : y < r3) :
    |1 / (r3 - y) * (ellipk (mR r1 r2 r3 r4) - (r2 - r3) / (r2 - y) * ellippiK (hPM r1 r2 r3 y) (mR r1 r2 r3 r4))|
      ≤ 1 / (r2 - y) * ellipk (mR r1 r2 r3 r4) := by
  have hm := H.mR_lt
  have h2y : 0 < r2 - y := by linarith
  obtain ⟨e1, hc⟩ := horizon_int H h32 hy
  have hint : IntervalIntegrable (fun t => 1 / (rOf r1 r2 r3 (sin t ^ 2) - y) * (1 / √(1 - mR r1 r2 r3 r4 * sin t ^ 2)))
      MeasureTheory.volume 0 (π / 2) := hc.intervalIntegrable _ _
  rw [e1]
  have hpt : ∀ t, 0 ≤ 1 / (rOf r1 r2 r3 (sin t ^ 2) - y) * (1 / √(1 - mR r1 r2 r3 r4 * sin t ^ 2))
      ∧ 1 / (rOf r1 r2 r3 (sin t ^ 2) - y) * (1 / √(1 - mR r1 r2 r3 r4 * sin t ^ 2))
        ≤ 1 / (r2 - y) * (1 / √(1 - mR r1 r2 r3 r4 * sin t ^ 2)) := by
    intro t
    have k := (H.r_mem t).1
    have k2 := Real.sqrt_pos.mpr (one_sub_mul_sin_sq_pos hm t)
    have k3 : 0 < rOf r1 r2 r3 (sin t ^ 2) - y := by linarith
    exact ⟨by positivity, by gcongr⟩
  rw [abs_of_nonneg (intervalIntegral.integral_nonneg (by positivity) fun t _ => (hpt t).1)]
  unfold ellipk
  rw [← intervalIntegral.integral_const_mul]
  exact intervalIntegral.integral_mono_on (by positivity) hint
    (((cont_K hm).const_mul _).intervalIntegrable _ _) fun t _ => (hpt t).2

/-- The radial part of the azimuthal frequency as an average over a radial period. -/
lemma phiR_int {a E L r1 r2 r3 r4 : ℝ} (H : RootsConfig r1 r2 r3 r4) (h32 : r3 < r2) (ha : a ^ 2 < 1)
    (h3 : 1 + √(1 - a ^ 2) < r3) : Continuous (fun t => (2 * E * rOf r1 r2 r3 (sin t ^ 2) - a * L)
      / Spec.Delta a (rOf r1 r2 r3 (sin t ^ 2)) * (1 / √(1 - mR r1 r2 r3 r4 * sin t ^ 2))) ∧
    phiR a E L r1 r2 r3 r4 = a / ellipk (mR r1 r2 r3 r4)
      * ∫ t in (0:ℝ)..(π / 2), (2 * E * rOf r1 r2 r3 (sin t ^ 2) - a * L) / Spec.Delta a (rOf r1 r2 r3 (sin t ^ 2))
        * (1 / √(1 - mR r1 r2 r3 r4 * sin t ^ 2)) := by
  have hs : 0 < √(1 - a ^ 2) := Real.sqrt_pos.mpr (by linarith)
  have hs2 : √(1 - a ^ 2) ^ 2 = 1 - a ^ 2 := Real.sq_sqrt (by linarith)
  have hK := (ellipk_pos H.mR_lt).ne'
  obtain ⟨e1, c1⟩ := horizon_int H h32 h3
  obtain ⟨e2, c2⟩ := horizon_int H h32 (y := 1 - √(1 - a ^ 2)) (by linarith)
  have hpt : ∀ t, (2 * E * rOf r1 r2 r3 (sin t ^ 2) - a * L) / Spec.Delta a (rOf r1 r2 r3 (sin t ^ 2))
        * (1 / √(1 - mR r1 r2 r3 r4 * sin t ^ 2))
      = (2 * E * (1 + √(1 - a ^ 2)) - a * L) / (2 * √(1 - a ^ 2))
          * (1 / (rOf r1 r2 r3 (sin t ^ 2) - (1 + √(1 - a ^ 2))) * (1 / √(1 - mR r1 r2 r3 r4 * sin t ^ 2)))
        - (2 * E * (1 - √(1 - a ^ 2)) - a * L) / (2 * √(1 - a ^ 2))
          * (1 / (rOf r1 r2 r3 (sin t ^ 2) - (1 - √(1 - a ^ 2))) * (1 / √(1 - mR r1 r2 r3 r4 * sin t ^ 2))) := by
    intro t
    have k := (H.r_mem t).1
    generalize rOf r1 r2 r3 (sin t ^ 2) = r at *
    have hD : Spec.Delta a r = (r - (1 + √(1 - a ^ 2))) * (r - (1 - √(1 - a ^ 2))) := by
      unfold Spec.Delta; linear_combination hs2
    rw [hD]
    generalize √(1 - a ^ 2) = s at *
    have n1 : r - (1 + s) ≠ 0 := by linarith
    have n2 : r - (1 - s) ≠ 0 := by intro h; linarith
    field_simp
    ring
  simp only [hpt]
  refine ⟨(c1.const_mul _).sub (c2.const_mul _), ?_⟩
  rw [intervalIntegral.integral_sub ((c1.const_mul _).intervalIntegrable _ _) ((c2.const_mul _).intervalIntegrable _ _),
    intervalIntegral.integral_const_mul, intervalIntegral.integral_const_mul, ← e1, ← e2]
  simp only [phiR]
  generalize ellippiK (hPM r1 r2 r3 (1 + √(1 - a ^ 2))) (mR r1 r2 r3 r4) = P1
  generalize ellippiK (hPM r1 r2 r3 (1 - √(1 - a ^ 2))) (mR r1 r2 r3 r4) = P2
  generalize ellipk _ = k at *
  generalize √(1 - a ^ 2) = s at *
  generalize k - (r2 - r3) / (r2 - (1 + s)) * P1 = A1
  generalize k - (r2 - r3) / (r2 - (1 - s)) * P2 = A2
  have n1 : r3 - (1 + s) ≠ 0 := by intro h; linarith
  have n2 : r3 - (1 - s) ≠ 0 := by intro h; linarith
  have n3 : 1 + s - (1 - s) ≠ 0 := by intro h; linarith
  have n4 := hs.ne'
  rw [show 1 + s - (1 - s) = 2 * s by ring]
  field_simp

/-- Orbits with given `a`, `e`, `x` and large `p`. -/
structure Far (a e x : ℝ) (E L Q r3 r4 zp : ℝ → ℝ) : Prop where
  spin : a ^ 2 < 1
  he : 0 ≤ e
  he1 : e < 1
  hx0 : x ≠ 0
  hx1 : x ^ 2 ≤ 1
  ev : ∀ᶠ p in atTop, Spec.BoundGeodesic a (E p) (L p) (Q p) (p / (1 - e)) (p / (1 + e)) (r3 p) (r4 p)
    ∧ 0 < E p ∧ 0 < Real.sign x * L p ∧ 0 ≤ Q p ∧ PolarConfig a (E p) (L p) (Q p) (1 - x ^ 2) (zp p)
    ∧ 0 ≤ r4 p ∧ r4 p ≤ 1

namespace Far

/-- The inner roots are bounded. -/
lemma third_le {a E L Q r1 r2 r3 r4 : ℝ} (hb : Spec.BoundGeodesic a E L Q r1 r2 r3 r4) (ha : a ^ 2 < 1) (hQ : 0 ≤ Q)
    (h4 : 0 ≤ r4) (h41 : r4 ≤ 1) (h2 : 1 ≤ r2) : 1 ≤ r3 ∧ r3 ≤ 32 := by
  obtain ⟨v1, v2, v3, v4⟩ := RadialRoots.vieta hb.roots
  have hE := hb.energy
  have h32 := hb.r32
  have h21 := hb.r21
  have h3 := hb.horizon
  have hs := Real.sqrt_nonneg (1 - a ^ 2)
  have hβ : 0 < 1 - E ^ 2 := by linarith
  refine ⟨by linarith, ?_⟩
  have h12 : 1 ≤ r1 * r2 := by nlinarith
  have k : ∀ {x y : ℝ}, 0 ≤ x → x ≤ r1 → 0 ≤ y → y ≤ r2 → x * y ≤ r1 * r2 := fun h1 h2 h3 h4 =>
    mul_le_mul h2 h4 h3 (by linarith)
  have e2 : r1 * r2 + r1 * r3 + r1 * r4 + r2 * r3 + r2 * r4 + r3 * r4 ≤ 6 * (r1 * r2) := by
    have q2 := k (x := r1) (y := r3) (by linarith) (by linarith) (by linarith) (by linarith)
    have q3 := k (x := r1) (y := r4) (by linarith) (by linarith) (by linarith) (by linarith)
    have q4 := k (x := r2) (y := r3) (by linarith) (by linarith) (by linarith) (by linarith)
    have q5 := k (x := r2) (y := r4) (by linarith) (by linarith) (by linarith) (by linarith)
    have q6 := k (x := r3) (y := r4) (by linarith) (by linarith) (by linarith) (by linarith)
    linarith
  have hS : L ^ 2 + Q ≤ 6 * ((1 - E ^ 2) * (r1 * r2)) := by
    have := mul_le_mul_of_nonneg_left e2 hβ.le
    have : 0 ≤ a ^ 2 * (1 - E ^ 2) := by positivity
    linarith
  have hT : (1 - E ^ 2) * (r1 * r2) * r3 ≤ 4 * (L ^ 2 + Q) + 4 := by
    have p1 : 0 ≤ (1 - E ^ 2) * (r1 * r2 * r4 + r1 * r3 * r4 + r2 * r3 * r4) := by
      have : 0 ≤ r1 := by linarith
      have : 0 ≤ r2 := by linarith
      have : 0 ≤ r3 := by linarith
      positivity
    have p2 : (L - a * E) ^ 2 ≤ 2 * L ^ 2 + 2 := by
      have : a ^ 2 * E ^ 2 ≤ 1 := mul_le_one₀ ha.le (sq_nonneg _) hE.le
      nlinarith [sq_nonneg (L + a * E)]
    have : 0 ≤ L ^ 2 := sq_nonneg L
    nlinarith
  have hb1 : 1 / 2 ≤ (1 - E ^ 2) * (r1 * r2) := by
    have : (1 - E ^ 2) * (r1 + r2 + r3 + r4) ≤ (1 - E ^ 2) * (4 * r1) :=
      mul_le_mul_of_nonneg_left (by linarith) hβ.le
    have h1 : 1 / 2 ≤ (1 - E ^ 2) * r1 := by linarith
    nlinarith
  generalize (1 - E ^ 2) * (r1 * r2) = g at *
  by_contra hcon
  push Not at hcon
  nlinarith

variable {a e x : ℝ} {E L Q r3 r4 zp : ℝ → ℝ} (F : Far a e x E L Q r3 r4 zp)
include F

lemma k1 : 0 < 1 - e := by linarith [F.he1]
lemma k2 : 0 < 1 + e := by linarith [F.he]

lemma ev3 : ∀ᶠ p in atTop, 1 ≤ r3 p ∧ r3 p ≤ 32 := by
  filter_upwards [F.ev, eventually_ge_atTop (1 + e)] with p hp hp2
  obtain ⟨hb, -, -, hQ, -, h4, h41⟩ := hp
  exact third_le hb F.spin hQ h4 h41 ((one_le_div F.k2).mpr hp2)

lemma t3 : Tendsto (fun p => r3 p / p) atTop (𝓝 0) := by
  have h : Tendsto (fun p : ℝ => 32 / p) atTop (𝓝 0) := tendsto_const_nhds.div_atTop tendsto_id
  refine tendsto_of_tendsto_of_tendsto_of_le_of_le' tendsto_const_nhds h ?_ ?_
  · filter_upwards [F.ev3, eventually_gt_atTop 0] with p hp h0
    exact div_nonneg (by linarith [hp.1]) h0.le
  · filter_upwards [F.ev3, eventually_gt_atTop 0] with p hp h0
    gcongr
    exact hp.2

lemma t4 : Tendsto (fun p => r4 p / p) atTop (𝓝 0) := by
  have h : Tendsto (fun p : ℝ => 1 / p) atTop (𝓝 0) := tendsto_const_nhds.div_atTop tendsto_id
  refine tendsto_of_tendsto_of_tendsto_of_le_of_le' tendsto_const_nhds h ?_ ?_
  · filter_upwards [F.ev, eventually_gt_atTop 0] with p hp h0
    exact div_nonneg hp.2.2.2.2.2.1 h0.le
  · filter_upwards [F.ev, eventually_gt_atTop 0] with p hp h0
    gcongr
    exact hp.2.2.2.2.2.2

lemma b : Tendsto (fun p => (1 - E p ^ 2) * p) atTop (𝓝 (1 - e ^ 2)) := by
  have h1 := F.k1
  have h2 := F.k2
  have hlim : Tendsto (fun p => 2 / (1 / (1 - e) + 1 / (1 + e) + r3 p / p + r4 p / p)) atTop
      (𝓝 (2 / (1 / (1 - e) + 1 / (1 + e) + 0 + 0))) := by
    refine tendsto_const_nhds.div ((tendsto_const_nhds.add F.t3).add F.t4) ?_
    have : 0 < 1 / (1 - e) + 1 / (1 + e) + 0 + 0 := by positivity
    exact this.ne'
  have e1 : 2 / (1 / (1 - e) + 1 / (1 + e) + 0 + 0) = 1 - e ^ 2 := by field_simp; ring
  rw [e1] at hlim
  refine hlim.congr' ?_
  filter_upwards [F.ev, F.ev3, eventually_gt_atTop 0] with p hp h3 h0
  obtain ⟨v1, -⟩ := RadialRoots.vieta hp.1.roots
  have h4 := hp.2.2.2.2.2.1
  have : 0 < 1 / (1 - e) + 1 / (1 + e) + r3 p / p + r4 p / p := by
    have := h3.1
    positivity
  rw [div_eq_iff this.ne', ← v1]
  field_simp

lemma beta : Tendsto (fun p => 1 - E p ^ 2) atTop (𝓝 0) := by
  refine (F.b.div_atTop tendsto_id).congr' ?_
  filter_upwards [eventually_gt_atTop 0] with p h0
  simp only [id]
  field_simp

lemma en : Tendsto E atTop (𝓝 1) := by
  have h : Tendsto (fun p => √(1 - (1 - E p ^ 2))) atTop (𝓝 √(1 - 0)) := (F.beta.const_sub 1).sqrt
  rw [sub_zero, Real.sqrt_one] at h
  refine h.congr' ?_
  filter_upwards [F.ev] with p hp
  rw [sub_sub_cancel, Real.sqrt_sq hp.2.1.le]

lemma s : Tendsto (fun p => (L p ^ 2 + Q p) / p) atTop (𝓝 1) := by
  have h1 := F.k1
  have h2 := F.k2
  have hp0 : Tendsto (fun p : ℝ => a ^ 2 * (1 - E p ^ 2) / p) atTop (𝓝 0) :=
    (F.beta.const_mul (a ^ 2)).div_atTop tendsto_id
  have hlim := (F.b.mul ((((tendsto_const_nhds (x := 1 / (1 - e) * (1 / (1 + e)))).add
    ((F.t3.add F.t4).const_mul (1 / (1 - e)))).add ((F.t3.add F.t4).const_mul (1 / (1 + e)))).add
      (F.t3.mul F.t4))).sub hp0
  have e1 : (1 - e ^ 2) * (1 / (1 - e) * (1 / (1 + e)) + 1 / (1 - e) * (0 + 0) + 1 / (1 + e) * (0 + 0) + 0 * 0) - 0 = 1 := by
    field_simp; ring
  rw [e1] at hlim
  refine hlim.congr' ?_
  filter_upwards [F.ev, eventually_gt_atTop 0] with p hp h0
  obtain ⟨-, v2, -⟩ := RadialRoots.vieta hp.1.roots
  rw [eq_div_iff h0.ne']
  have e2 : L p ^ 2 + Q p = (1 - E p ^ 2) * (p / (1 - e) * (p / (1 + e)) + p / (1 - e) * r3 p + p / (1 - e) * r4 p
    + p / (1 + e) * r3 p + p / (1 + e) * r4 p + r3 p * r4 p) - a ^ 2 * (1 - E p ^ 2) := by linarith
  rw [e2]
  field_simp
  ring

lemma L2 : Tendsto (fun p => L p ^ 2 / p) atTop (𝓝 (x ^ 2)) := by
  have hp0 : Tendsto (fun p : ℝ => a ^ 2 * (1 - E p ^ 2) * (1 - x ^ 2) / p) atTop (𝓝 0) :=
    ((F.beta.const_mul (a ^ 2)).mul_const (1 - x ^ 2)).div_atTop tendsto_id
  have hlim := (F.s.sub hp0).const_mul (x ^ 2)
  rw [sub_zero, mul_one] at hlim
  refine hlim.congr' ?_
  filter_upwards [F.ev, eventually_gt_atTop 0] with p hp h0
  have hr := hp.2.2.2.2.1.root
  unfold Spec.Zpol at hr
  field_simp
  linear_combination hr

lemma Ls : Tendsto (fun p => L p / √p) atTop (𝓝 x) := by
  have h := F.L2.sqrt
  rw [Real.sqrt_sq_eq_abs] at h
  have h2 := h.const_mul (Real.sign x)
  have e1 : Real.sign x * |x| = x := by
    rcases lt_or_gt_of_ne F.hx0 with k | k
    · rw [Real.sign_of_neg k, abs_of_neg k]; ring
    · rw [Real.sign_of_pos k, abs_of_pos k]; ring
  rw [e1] at h2
  refine h2.congr' ?_
  filter_upwards [F.ev, eventually_gt_atTop 0] with p hp h0
  rw [Real.sqrt_div (sq_nonneg _), Real.sqrt_sq_eq_abs]
  have := hp.2.2.1
  rcases lt_or_gt_of_ne F.hx0 with k | k
  · rw [Real.sign_of_neg k] at this ⊢
    rw [abs_of_neg (by linarith)]; ring
  · rw [Real.sign_of_pos k] at this ⊢
    rw [abs_of_pos (by linarith)]; ring

lemma Lp : Tendsto (fun p => L p / p) atTop (𝓝 0) := by
  have h : Tendsto (fun p : ℝ => L p / √p / √p) atTop (𝓝 0) := F.Ls.div_atTop (tendsto_sqrt_atTop)
  refine h.congr' ?_
  filter_upwards [eventually_gt_atTop 0] with p h0
  rw [div_div, Real.mul_self_sqrt h0.le]

/-! ## Moduli and elliptic integrals -/

lemma pos1 {p : ℝ} (h : 0 < p) : 0 < p / (1 - e) := div_pos h F.k1

lemma mR0 : Tendsto (fun p => mR (p / (1 - e)) (p / (1 + e)) (r3 p) (r4 p)) atTop (𝓝 0) := by
  have h1 := F.k1
  have h2 := F.k2
  have hlim : Tendsto (fun p => (1 / (1 - e) - 1 / (1 + e)) * (r3 p / p - r4 p / p)
      / ((1 / (1 - e) - r3 p / p) * (1 / (1 + e) - r4 p / p))) atTop
      (𝓝 ((1 / (1 - e) - 1 / (1 + e)) * (0 - 0) / ((1 / (1 - e) - 0) * (1 / (1 + e) - 0)))) := by
    refine ((F.t3.sub F.t4).const_mul _).div ((F.t3.const_sub _).mul (F.t4.const_sub _)) ?_
    rw [sub_zero, sub_zero]
    positivity
  rw [sub_self, mul_zero, zero_div] at hlim
  refine hlim.congr' ?_
  filter_upwards [eventually_gt_atTop 0] with p h0
  unfold mR
  rw [show p / (1 - e) - p / (1 + e) = p * (1 / (1 - e) - 1 / (1 + e)) by ring,
    show r3 p - r4 p = p * (r3 p / p - r4 p / p) by field_simp,
    show p / (1 - e) - r3 p = p * (1 / (1 - e) - r3 p / p) by field_simp,
    show p / (1 + e) - r4 p = p * (1 / (1 + e) - r4 p / p) by field_simp]
  generalize 1 / (1 - e) - r3 p / p = u
  generalize 1 / (1 + e) - r4 p / p = v
  rw [show ∀ A B : ℝ, p * A * (p * B) = p ^ 2 * (A * B) by intros; ring,
    show ∀ A B : ℝ, p * A * (p * B) = p ^ 2 * (A * B) by intros; ring, mul_div_mul_left _ _ (by positivity)]

lemma hR0 : Tendsto (fun p => (p / (1 - e) - p / (1 + e)) / (p / (1 - e) - r3 p)) atTop (𝓝 (2 * e / (1 + e))) := by
  have h1 := F.k1
  have h2 := F.k2
  have hlim : Tendsto (fun p => (1 / (1 - e) - 1 / (1 + e)) / (1 / (1 - e) - r3 p / p)) atTop
      (𝓝 ((1 / (1 - e) - 1 / (1 + e)) / (1 / (1 - e) - 0))) := by
    refine tendsto_const_nhds.div (F.t3.const_sub _) ?_
    rw [sub_zero]; positivity
  have e1 : (1 / (1 - e) - 1 / (1 + e)) / (1 / (1 - e) - 0) = 2 * e / (1 + e) := by field_simp; ring
  rw [e1] at hlim
  refine hlim.congr' ?_
  filter_upwards [eventually_gt_atTop 0] with p h0
  rw [show p / (1 - e) - p / (1 + e) = p * (1 / (1 - e) - 1 / (1 + e)) by ring,
    show p / (1 - e) - r3 p = p * (1 / (1 - e) - r3 p / p) by field_simp, mul_div_mul_left _ _ h0.ne']

/-- `a²(1-E²)x² + L²` -/
lemma D0 : Tendsto (fun p => (a ^ 2 * (1 - E p ^ 2) * x ^ 2 + L p ^ 2) / p) atTop (𝓝 (x ^ 2)) := by
  have hp0 : Tendsto (fun p : ℝ => a ^ 2 * (1 - E p ^ 2) * x ^ 2 / p) atTop (𝓝 0) :=
    ((F.beta.const_mul (a ^ 2)).mul_const (x ^ 2)).div_atTop tendsto_id
  have h := hp0.add F.L2
  rw [zero_add] at h
  exact h.congr fun p => (add_div _ _ _).symm

lemma mT0 : Tendsto (fun p => mT a (1 - x ^ 2) (zp p)) atTop (𝓝 0) := by
  have hx := F.hx0
  have hp0 : Tendsto (fun p : ℝ => a ^ 2 * (1 - E p ^ 2) * x ^ 2 / p) atTop (𝓝 0) :=
    ((F.beta.const_mul (a ^ 2)).mul_const (x ^ 2)).div_atTop tendsto_id
  have h := (hp0.div F.D0 (by positivity)).const_mul (1 - x ^ 2)
  rw [zero_div, mul_zero] at h
  refine h.congr' ?_
  filter_upwards [F.ev, eventually_gt_atTop 0] with p hp h0
  rw [hp.2.2.2.2.1.mT_eq_mul, sub_sub_cancel, Pi.div_apply, div_div_div_cancel_right₀ h0.ne']

end Far

lemma tendsto_ellipk {ι : Type*} {l : Filter ι} {m : ι → ℝ} (h : Tendsto m l (𝓝 0)) :
    Tendsto (fun i => ellipk (m i)) l (𝓝 (π / 2)) := by
  have hc : ContinuousWithinAt (fun w : ℝ => ellipk w) Set.univ 0 := cw_ellipk continuousWithinAt_id one_pos
  rw [continuousWithinAt_univ] at hc
  have := hc.tendsto.comp h
  rwa [ellipk_zero] at this

lemma tendsto_ellipe {ι : Type*} {l : Filter ι} {m : ι → ℝ} (h : Tendsto m l (𝓝 0)) :
    Tendsto (fun i => ellipe (m i)) l (𝓝 (π / 2)) := by
  have hc : ContinuousWithinAt (fun w : ℝ => ellipe w) Set.univ 0 := cw_ellipe continuousWithinAt_id
  rw [continuousWithinAt_univ] at hc
  have := hc.tendsto.comp h
  rwa [ellipe_zero] at this

lemma tendsto_ellippi {ι : Type*} {l : Filter ι} {n m : ι → ℝ} {n0 : ℝ} (hn : Tendsto n l (𝓝 n0)) (hn1 : n0 < 1)
    (h : Tendsto m l (𝓝 0)) :
    Tendsto (fun i => ellippiK (n i) (m i)) l (𝓝 (π / (2 * √(1 - n0)))) := by
  have hc : ContinuousWithinAt (fun w : ℝ × ℝ => ellippiK w.1 w.2) Set.univ (n0, 0) :=
    cw_ellippi continuous_fst.continuousWithinAt continuous_snd.continuousWithinAt hn1 one_pos
  rw [continuousWithinAt_univ] at hc
  have := hc.tendsto.comp (hn.prodMk_nhds h)
  rw [ellippiK_zero hn1] at this
  exact this

namespace Far
variable {a e x : ℝ} {E L Q r3 r4 zp : ℝ → ℝ} (F : Far a e x E L Q r3 r4 zp)
include F

/-! ## Frequencies -/

lemma sq0 : 0 < 1 - e ^ 2 := by nlinarith [F.k1, F.k2, mul_pos F.k1 F.k2]

lemma cfg {p : ℝ} (hb : Spec.BoundGeodesic a (E p) (L p) (Q p) (p / (1 - e)) (p / (1 + e)) (r3 p) (r4 p)) :
    RootsConfig (p / (1 - e)) (p / (1 + e)) (r3 p) (r4 p) := ⟨hb.r21, hb.r43, Or.inl hb.r32⟩

lemma upsilonR : Tendsto (fun p => rFrequencyCore (E p) (p / (1 - e), p / (1 + e), r3 p, r4 p) / √p) atTop (𝓝 1) := by
  have h1 := F.k1
  have h2 := F.k2
  have hs := ((F.b.mul (F.t3.const_sub (1 / (1 - e)))).mul (F.t4.const_sub (1 / (1 + e)))).sqrt
  have e1 : (1 - e ^ 2) * (1 / (1 - e) - 0) * (1 / (1 + e) - 0) = 1 := by field_simp; ring
  rw [e1, Real.sqrt_one] at hs
  have hlim := (hs.const_mul π).div ((tendsto_ellipk F.mR0).const_mul 2) (by positivity)
  rw [mul_one, mul_div_cancel₀ _ two_ne_zero, div_self Real.pi_ne_zero] at hlim
  refine hlim.congr' ?_
  filter_upwards [F.ev, eventually_gt_atTop 0] with p hp h0
  rw [rFrequencyCore_eq (F.cfg hp.1), Pi.div_apply]
  have hs0 : 0 < √p := Real.sqrt_pos.mpr h0
  have e2 : (1 - E p ^ 2) * (p / (1 - e) - r3 p) * (p / (1 + e) - r4 p)
      = p * ((1 - E p ^ 2) * p * (1 / (1 - e) - r3 p / p) * (1 / (1 + e) - r4 p / p)) := by field_simp
  rw [e2, Real.sqrt_mul h0.le]
  generalize √((1 - E p ^ 2) * p * (1 / (1 - e) - r3 p / p) * (1 / (1 + e) - r4 p / p)) = u
  generalize ellipk _ = k
  by_cases hk : k = 0
  · simp [hk]
  field_simp

lemma W : Tendsto (fun p => polarW a (E p) (L p) (1 - x ^ 2) / √p) atTop (𝓝 1) := by
  have hx := F.hx0
  have h := (F.D0.div_const (x ^ 2)).sqrt
  rw [div_self (by positivity), Real.sqrt_one] at h
  refine h.congr' ?_
  filter_upwards [F.ev, eventually_gt_atTop 0] with p hp h0
  have H := hp.2.2.2.2.1
  have hW := H.W_sq
  rw [sub_sub_cancel] at hW
  have : (a ^ 2 * (1 - E p ^ 2) * x ^ 2 + L p ^ 2) / p / x ^ 2 = (polarW a (E p) (L p) (1 - x ^ 2) / √p) ^ 2 := by
    rw [div_pow, Real.sq_sqrt h0.le, ← hW]
    field_simp
  rw [this, Real.sqrt_sq (div_nonneg H.W_pos.le (Real.sqrt_nonneg _))]

lemma upsilonT : Tendsto (fun p => π * polarW a (E p) (L p) (1 - x ^ 2) / (2 * ellipk (mT a (1 - x ^ 2) (zp p))) / √p)
    atTop (𝓝 1) := by
  have hlim := (F.W.const_mul π).div ((tendsto_ellipk F.mT0).const_mul 2) (by positivity)
  rw [mul_one, mul_div_cancel₀ _ two_ne_zero, div_self Real.pi_ne_zero] at hlim
  refine hlim.congr fun p => ?_
  rw [Pi.div_apply]
  ring

lemma phiT0 : Tendsto (fun p => phiT a (L p) (1 - x ^ 2) (zp p) / √p) atTop (𝓝 (Real.sign x)) := by
  have hx := F.hx0
  have hz : 1 - x ^ 2 < 1 := by have : 0 < x ^ 2 := by positivity
                                linarith
  have hlim := (F.Ls.mul (tendsto_ellippi tendsto_const_nhds hz F.mT0)).div (tendsto_ellipk F.mT0) (by positivity)
  have e1 : x * (π / (2 * √(1 - (1 - x ^ 2)))) / (π / 2) = Real.sign x := by
    rw [sub_sub_cancel, Real.sqrt_sq_eq_abs]
    have hp := Real.pi_ne_zero
    rcases lt_or_gt_of_ne hx with k | k
    · rw [Real.sign_of_neg k, abs_of_neg k]; field_simp
    · rw [Real.sign_of_pos k, abs_of_pos k]; field_simp
  rw [e1] at hlim
  refine hlim.congr fun p => ?_
  rw [Pi.div_apply]
  unfold phiT
  ring

/-- the horizon averages vanish -/
lemma horizon0 {y : ℝ} (hy : y ≤ 1 + √(1 - a ^ 2)) : Tendsto (fun p =>
    1 / (r3 p - y) * (ellipk (mR (p / (1 - e)) (p / (1 + e)) (r3 p) (r4 p)) - (p / (1 + e) - r3 p) / (p / (1 + e) - y)
      * ellippiK (hPM (p / (1 - e)) (p / (1 + e)) (r3 p) y) (mR (p / (1 - e)) (p / (1 + e)) (r3 p) (r4 p)))
      / ellipk (mR (p / (1 - e)) (p / (1 + e)) (r3 p) (r4 p))) atTop (𝓝 0) := by
  have h2 := F.k2
  have hb : Tendsto (fun p : ℝ => 1 / (p / (1 + e) - y)) atTop (𝓝 0) :=
    tendsto_const_nhds.div_atTop (tendsto_atTop_add_const_right _ _ (tendsto_id.atTop_div_const h2))
  refine squeeze_zero_norm' ?_ hb
  filter_upwards [F.ev, eventually_gt_atTop 0] with p hp h0
  have C := F.cfg hp.1
  have hK := ellipk_pos C.mR_lt
  have := horizon_avg C hp.1.r32 (lt_of_le_of_lt hy hp.1.horizon)
  rw [Real.norm_eq_abs, abs_div, abs_of_pos hK, div_le_iff₀ hK]
  exact this

lemma phiR0 : Tendsto (fun p => phiR a (E p) (L p) (p / (1 - e)) (p / (1 + e)) (r3 p) (r4 p) / √p) atTop (𝓝 0) := by
  have hs := Real.sqrt_nonneg (1 - a ^ 2)
  have hE : Tendsto (fun p => E p / √p) atTop (𝓝 0) := F.en.div_atTop tendsto_sqrt_atTop
  have hc : ∀ y : ℝ, Tendsto (fun p => 2 * (E p / √p) * y - a * (L p / √p)) atTop (𝓝 (2 * 0 * y - a * x)) :=
    fun y => ((hE.const_mul 2).mul_const y).sub (F.Ls.const_mul a)
  have h := (((hc (1 + √(1 - a ^ 2))).mul (F.horizon0 le_rfl)).sub ((hc (1 - √(1 - a ^ 2))).mul
    (F.horizon0 (y := 1 - √(1 - a ^ 2)) (by linarith)))).const_mul (a / ((1 + √(1 - a ^ 2)) - (1 - √(1 - a ^ 2))))
  rw [mul_zero, mul_zero, sub_zero, mul_zero] at h
  refine h.congr fun p => ?_
  simp only [phiR]
  ring

lemma upsilonPhi : Tendsto (fun p => (phiT a (L p) (1 - x ^ 2) (zp p)
    + phiR a (E p) (L p) (p / (1 - e)) (p / (1 + e)) (r3 p) (r4 p)) / √p) atTop (𝓝 (Real.sign x)) := by
  have h := F.phiT0.add F.phiR0
  rw [add_zero] at h
  exact h.congr fun p => (add_div _ _ _).symm

lemma gammaT0 : Tendsto (fun p => gammaT a (E p) (L p) (1 - x ^ 2) (zp p) / p ^ 2) atTop (𝓝 0) := by
  have hx := F.hx0
  have hq := F.sq0
  have hK := tendsto_ellipk F.mT0
  have h := ((F.D0.div (F.b.const_mul (x ^ 2)) (by positivity)).mul F.en).mul
    ((hK.sub (tendsto_ellipe F.mT0)).div hK (by positivity))
  rw [sub_self, zero_div, mul_zero] at h
  refine h.congr' ?_
  filter_upwards [F.ev, eventually_gt_atTop 0] with p hp h0
  have H := hp.2.2.2.2.1
  unfold gammaT
  rw [H.a2s_eq]
  have hs : 0 < √(e0zpOf a (E p) (L p) (1 - x ^ 2)) := Real.sqrt_pos.mpr H.e0zp_pos
  simp only [Pi.div_apply, sub_sub_cancel]
  generalize √(e0zpOf a (E p) (L p) (1 - x ^ 2)) = w at *
  generalize (ellipk (mT a (1 - x ^ 2) (zp p)) - ellipe (mT a (1 - x ^ 2) (zp p))) = u at *
  generalize ellipk (mT a (1 - x ^ 2) (zp p)) = k at *
  have hE := H.hE.ne'
  generalize 1 - E p ^ 2 = b at *
  by_cases hk : k = 0
  · simp [hk]
  field_simp

lemma gammaR0 : Tendsto (fun p => gammaR a (E p) (L p) (p / (1 - e)) (p / (1 + e)) (r3 p) (r4 p) / p ^ 2) atTop
    (𝓝 (1 / ((1 - e ^ 2) * √(1 - e ^ 2)))) := by
  have h1 := F.k1
  have h2 := F.k2
  have hs := Real.sqrt_nonneg (1 - a ^ 2)
  have hK := tendsto_ellipk F.mR0
  have hn1 : 2 * e / (1 + e) < 1 := by rw [div_lt_one h2]; linarith
  have hP := (tendsto_ellippi F.hR0 hn1 F.mR0).div hK (by positivity)
  have hEl := (tendsto_ellipe F.mR0).div hK (by positivity)
  have hKK := hK.div hK (by positivity)
  have hpi := Real.pi_pos
  rw [div_self (by positivity)] at hEl hKK
  have hpinf : Tendsto (fun p : ℝ => 1 / p) atTop (𝓝 0) := tendsto_const_nhds.div_atTop tendsto_id
  have hE2 := F.en.mul (hpinf.mul hpinf)
  have hL2 := F.Lp.mul hpinf
  have hc : ∀ y : ℝ, Tendsto (fun p => (4 * (E p * (1 / p * (1 / p))) - a * (L p / p * (1 / p))) * y
      - 2 * a ^ 2 * (E p * (1 / p * (1 / p)))) atTop (𝓝 ((4 * (1 * (0 * 0)) - a * (0 * 0)) * y - 2 * a ^ 2 * (1 * (0 * 0)))) :=
    fun y => (((hE2.const_mul 4).sub (hL2.const_mul a)).mul_const y).sub (hE2.const_mul (2 * a ^ 2))
  have hor := (((hc (1 + √(1 - a ^ 2))).mul (F.horizon0 le_rfl)).sub ((hc (1 - √(1 - a ^ 2))).mul
    (F.horizon0 (y := 1 - √(1 - a ^ 2)) (by linarith)))).const_mul (2 / ((1 + √(1 - a ^ 2)) - (1 - √(1 - a ^ 2))))
  have hmain := ((F.en.div_const 2).mul ((((F.t3.mul (((tendsto_const_nhds (x := 1 / (1 - e))).add_const (1 / (1 + e))).add
    F.t3)).sub_const (1 / (1 - e) * (1 / (1 + e)))).mul hKK |>.add
      (((F.t3.const_sub (1 / (1 + e))).mul ((((tendsto_const_nhds (x := 1 / (1 - e))).add_const (1 / (1 + e))).add F.t3).add
        F.t4)).mul hP)).add (((F.t3.const_sub (1 / (1 - e))).mul (F.t4.const_sub (1 / (1 + e)))).mul hEl)))
  have hlin := (F.en.const_mul 2).mul (((F.t3.mul hpinf).mul hKK).add (((F.t3.const_sub (1 / (1 + e))).mul hpinf).mul hP))
  have h := (hmain.add hlin).add hor
  have e1 : √(1 - 2 * e / (1 + e)) = √(1 - e ^ 2) / (1 + e) := by
    have : 1 - 2 * e / (1 + e) = (1 - e ^ 2) / (1 + e) ^ 2 := by field_simp; ring
    rw [this, Real.sqrt_div' _ (by positivity), Real.sqrt_sq h2.le]
  have hq := F.sq0
  have hq2 : 0 < √(1 - e ^ 2) := Real.sqrt_pos.mpr hq
  rw [e1] at h
  refine (h.congr' ?_).mono_right (le_of_eq ?_)
  · filter_upwards [F.ev, eventually_gt_atTop 0] with p hp h0
    have hk := ellipk_pos (F.cfg hp.1).mR_lt
    simp only [gammaR, Pi.div_apply]
    generalize ellippiK (hPM (p / (1 - e)) (p / (1 + e)) (r3 p) (1 + √(1 - a ^ 2))) _ = P1
    generalize ellippiK (hPM (p / (1 - e)) (p / (1 + e)) (r3 p) (1 - √(1 - a ^ 2))) _ = P2
    generalize ellippiK _ _ = P3
    generalize ellipe _ = el
    generalize ellipk _ = k at *
    have hk' : k / k = 1 := div_self hk.ne'
    rw [hk']
    have n1 := h1.ne'
    have n2 := h2.ne'
    have n3 := h0.ne'
    have n4 := hk.ne'
    have q1 : E p / 2 * ((r3 p / p * (1 / (1 - e) + 1 / (1 + e) + r3 p / p) - 1 / (1 - e) * (1 / (1 + e))) * 1
        + (1 / (1 + e) - r3 p / p) * (1 / (1 - e) + 1 / (1 + e) + r3 p / p + r4 p / p) * (P3 / k)
        + (1 / (1 - e) - r3 p / p) * (1 / (1 + e) - r4 p / p) * (el / k))
        = 1 / k * (E p / 2 * ((r3 p * (p / (1 - e) + p / (1 + e) + r3 p) - p / (1 - e) * (p / (1 + e))) * k
          + (p / (1 + e) - r3 p) * (p / (1 - e) + p / (1 + e) + r3 p + r4 p) * P3
          + (p / (1 - e) - r3 p) * (p / (1 + e) - r4 p) * el)) / p ^ 2 := by
      field_simp
    have q2 : 2 * E p * (r3 p / p * (1 / p) * 1 + (1 / (1 + e) - r3 p / p) * (1 / p) * (P3 / k))
        = 1 / k * (2 * E p * (r3 p * k + (p / (1 + e) - r3 p) * P3)) / p ^ 2 := by
      field_simp
    rw [q1, q2]
    generalize √(1 - a ^ 2) = s at *
    generalize k - (p / (1 + e) - r3 p) / (p / (1 + e) - (1 + s)) * P1 = A1
    generalize k - (p / (1 + e) - r3 p) / (p / (1 + e) - (1 - s)) * P2 = A2
    ring
  · congr 1
    generalize √(1 - e ^ 2) = w at *
    have n1 := hq.ne'
    field_simp
    ring

end Far

end KGP
