import Verif.Lemmas.Kepler

/-!
# First corrections to Kepler's orbits
-/

namespace KGP

open Classical Real Filter Topology

private lemma le_of_sq_le_sq0 {u v : ℝ} (h : u ^ 2 ≤ v ^ 2) (hv : 0 ≤ v) : u ≤ v :=
  (le_abs_self u).trans (abs_le_of_sq_le_sq h hv)

lemma inv_sqrt_bounds {y : ℝ} (h0 : 0 ≤ y) (h1 : y ≤ 1 / 2) :
    1 + y / 2 ≤ 1 / √(1 - y) ∧ 1 / √(1 - y) ≤ 1 + y / 2 + y ^ 2 := by
  have hy : 0 < 1 - y := by linarith
  have hs : 0 < √(1 - y) := Real.sqrt_pos.mpr hy
  have hs2 : √(1 - y) ^ 2 = 1 - y := Real.sq_sqrt hy.le
  constructor
  · rw [le_div_iff₀ hs]
    refine le_of_sq_le_sq0 ?_ zero_le_one
    rw [mul_pow, hs2]
    have : 0 ≤ y ^ 2 * (3 + y) := by positivity
    nlinarith
  · rw [div_le_iff₀ hs]
    refine le_of_sq_le_sq0 ?_ (by positivity)
    rw [mul_pow, hs2]
    have h2 : 0 ≤ y ^ 2 * (5 / 4 - 5 / 4 * y - y ^ 3) := by
      refine mul_nonneg (sq_nonneg y) ?_
      have : y ^ 3 ≤ (1 / 2) ^ 3 := by gcongr
      linarith
    nlinarith

lemma ellipk_bounds {m : ℝ} (h0 : 0 ≤ m) (h1 : m ≤ 1 / 2) :
    m / 4 ≤ ellipk m * (2 / π) - 1 ∧ ellipk m * (2 / π) - 1 ≤ m / 4 + m ^ 2 := by
  have hm : m < 1 := by linarith
  have hpi := Real.pi_pos
  have hs2 : ∫ t in (0:ℝ)..(π / 2), sin t ^ 2 = π / 4 := by
    rw [integral_sin_sq]; simp; ring
  have hi : IntervalIntegrable (fun t => sin t ^ 2) MeasureTheory.volume 0 (π / 2) :=
    (by fun_prop : Continuous fun t => sin t ^ 2).intervalIntegrable _ _
  have hb : ∀ t, 1 + m / 2 * sin t ^ 2 ≤ 1 / √(1 - m * sin t ^ 2)
      ∧ 1 / √(1 - m * sin t ^ 2) ≤ (1 + m ^ 2) + m / 2 * sin t ^ 2 := by
    intro t
    have hs := sin_sq_le_one t
    have hs0 := sq_nonneg (sin t)
    have hms : m * sin t ^ 2 ≤ m := mul_le_of_le_one_right h0 hs
    obtain ⟨k1, k2⟩ := inv_sqrt_bounds (y := m * sin t ^ 2) (by positivity) (by linarith)
    have : (m * sin t ^ 2) ^ 2 ≤ m ^ 2 := by gcongr
    exact ⟨by linarith, by linarith⟩
  have hl : ∫ t in (0:ℝ)..(π / 2), (1 + m / 2 * sin t ^ 2) = π / 2 + m / 2 * (π / 4) := by
    rw [intervalIntegral.integral_add (by simp) (hi.const_mul _), intervalIntegral.integral_const_mul, hs2]
    simp
  have hu : ∫ t in (0:ℝ)..(π / 2), ((1 + m ^ 2) + m / 2 * sin t ^ 2) = π / 2 * (1 + m ^ 2) + m / 2 * (π / 4) := by
    rw [intervalIntegral.integral_add (by simp) (hi.const_mul _), intervalIntegral.integral_const_mul, hs2]
    simp
    ring
  have k1 : π / 2 + m / 2 * (π / 4) ≤ ellipk m := by
    rw [← hl]
    exact intervalIntegral.integral_mono_on (by positivity) ((by fun_prop : Continuous _).intervalIntegrable _ _)
      ((cont_K hm).intervalIntegrable _ _) fun t _ => (hb t).1
  have k2 : ellipk m ≤ π / 2 * (1 + m ^ 2) + m / 2 * (π / 4) := by
    rw [← hu]
    exact intervalIntegral.integral_mono_on (by positivity) ((cont_K hm).intervalIntegrable _ _)
      ((by fun_prop : Continuous _).intervalIntegrable _ _) fun t _ => (hb t).2
  constructor
  · have : (π / 2 + m / 2 * (π / 4)) * (2 / π) ≤ ellipk m * (2 / π) := by gcongr
    have e : (π / 2 + m / 2 * (π / 4)) * (2 / π) = 1 + m / 4 := by field_simp
    linarith
  · have : ellipk m * (2 / π) ≤ (π / 2 * (1 + m ^ 2) + m / 2 * (π / 4)) * (2 / π) := by gcongr
    have e : (π / 2 * (1 + m ^ 2) + m / 2 * (π / 4)) * (2 / π) = 1 + m ^ 2 + m / 4 := by field_simp
    linarith

/-! ## First order expansions `f = 1 + k/p + o(1/p)` -/

def FirstOrder (f : ℝ → ℝ) (k : ℝ) : Prop := Tendsto (fun p => p * (f p - 1)) atTop (𝓝 k)

namespace FirstOrder
variable {f g : ℝ → ℝ} {k l : ℝ}

lemma tendsto (h : FirstOrder f k) : Tendsto f atTop (𝓝 1) := by
  have h1 : Tendsto (fun p => p * (f p - 1) / p + 1) atTop (𝓝 (0 + 1)) :=
    (Tendsto.div_atTop h tendsto_id).add_const 1
  rw [zero_add] at h1
  refine h1.congr' ?_
  filter_upwards [eventually_gt_atTop 0] with p h0
  field_simp; ring

lemma congr (h : FirstOrder f k) (he : ∀ᶠ p in atTop, f p = g p) : FirstOrder g k :=
  Tendsto.congr' (he.mono fun p hp => by rw [hp]) h

lemma mul (hf : FirstOrder f k) (hg : FirstOrder g l) : FirstOrder (fun p => f p * g p) (k + l) := by
  have h := (Tendsto.mul hf hg.tendsto).add hg
  rw [mul_one] at h
  exact h.congr fun p => by ring

lemma inv (hf : FirstOrder f k) : FirstOrder (fun p => (f p)⁻¹) (-k) := by
  have h := (Tendsto.neg hf).mul (hf.tendsto.inv₀ one_ne_zero)
  rw [inv_one, mul_one] at h
  refine Tendsto.congr' ?_ h
  filter_upwards [hf.tendsto.eventually_ne one_ne_zero] with p hp
  field_simp
  ring

lemma div (hf : FirstOrder f k) (hg : FirstOrder g l) : FirstOrder (fun p => f p / g p) (k - l) := by
  have := hf.mul hg.inv
  rw [← sub_eq_add_neg] at this
  exact this.congr (Eventually.of_forall fun p => (div_eq_mul_inv _ _).symm)

lemma sqrt (hf : FirstOrder f k) : FirstOrder (fun p => √(f p)) (k / 2) := by
  have h1 := (hf.tendsto.sqrt).add_const 1
  rw [Real.sqrt_one, show (1:ℝ) + 1 = 2 by norm_num] at h1
  have h := Tendsto.div hf h1 two_ne_zero
  refine Tendsto.congr' ?_ h
  filter_upwards [hf.tendsto.eventually (lt_mem_nhds one_pos)] with p hp
  have h2 : √(f p) ^ 2 = f p := Real.sq_sqrt hp.le
  have h3 : √(f p) + 1 ≠ 0 := by positivity
  rw [Pi.div_apply, div_eq_iff h3]
  linear_combination -p * h2

lemma ellipk {m : ℝ → ℝ} (hm : Tendsto (fun p => p * m p) atTop (𝓝 k)) (h0 : ∀ᶠ p in atTop, 0 ≤ m p) :
    FirstOrder (fun p => KGP.ellipk (m p) * (2 / π)) (k / 4) := by
  have hz : Tendsto m atTop (𝓝 0) := by
    refine (hm.div_atTop tendsto_id).congr' ?_
    filter_upwards [eventually_gt_atTop 0] with p h0
    simp only [id]; field_simp
  have hu : Tendsto (fun p => p * m p / 4 + p * m p * m p) atTop (𝓝 (k / 4 + k * 0)) := (hm.div_const 4).add (hm.mul hz)
  rw [mul_zero, add_zero] at hu
  refine tendsto_of_tendsto_of_tendsto_of_le_of_le' (hm.div_const 4) hu ?_ ?_
  · filter_upwards [h0, hz.eventually (ge_mem_nhds (show (0:ℝ) < 1 / 2 by norm_num)), eventually_gt_atTop 0] with p h1 h2 h3
    have := mul_le_mul_of_nonneg_left (ellipk_bounds h1 h2).1 h3.le
    linarith
  · filter_upwards [h0, hz.eventually (ge_mem_nhds (show (0:ℝ) < 1 / 2 by norm_num)), eventually_gt_atTop 0] with p h1 h2 h3
    have := mul_le_mul_of_nonneg_left (ellipk_bounds h1 h2).2 h3.le
    nlinarith

end FirstOrder

private lemma dominated {a E L r p w : ℝ} (ha : a ^ 2 < 1) (hE : |E| ≤ 1) (hL : |L| ≤ r) (hr : 4 ≤ r) (hp : 0 < p)
    (hpr : p ≤ 2 * r) (hw0 : 0 ≤ w) (hw : w ≤ 2) : ‖p * ((2 * E * r - a * L) / Spec.Delta a r * w)‖ ≤ 192 := by
  have ha1 : |a| ≤ 1 := (sq_le_one_iff_abs_le_one _).mp ha.le
  have hD : r ^ 2 / 2 ≤ Spec.Delta a r := by
    unfold Spec.Delta
    nlinarith [sq_nonneg a]
  have hD0 : 0 < Spec.Delta a r := by nlinarith
  have hN : |2 * E * r - a * L| ≤ 3 * r := by
    have k1 : |2 * E * r| ≤ 2 * r := by
      rw [abs_mul, abs_mul, abs_of_pos (show (0:ℝ) < 2 by norm_num), abs_of_pos (show 0 < r by linarith)]
      nlinarith
    have k2 : |a * L| ≤ r := by
      rw [abs_mul]
      calc |a| * |L| ≤ 1 * r := mul_le_mul ha1 hL (abs_nonneg _) zero_le_one
        _ = r := one_mul r
    have := abs_sub (2 * E * r) (a * L)
    linarith
  rw [Real.norm_eq_abs, abs_mul, abs_mul, abs_div, abs_of_pos hp, abs_of_pos hD0, abs_of_nonneg hw0]
  have k3 : |2 * E * r - a * L| / Spec.Delta a r ≤ 6 / r := by
    rw [div_le_div_iff₀ hD0 (by linarith)]
    calc |2 * E * r - a * L| * r ≤ 3 * r * r := by gcongr
      _ ≤ 6 * (r ^ 2 / 2) := by ring_nf; rfl
      _ ≤ 6 * Spec.Delta a r := by gcongr
  have hr0 : 0 < r := by linarith
  calc p * (|2 * E * r - a * L| / Spec.Delta a r * w) ≤ (2 * r) * (6 / r * 2) := by gcongr
    _ = 24 := by field_simp; norm_num
    _ ≤ 192 := by norm_num

namespace Far
variable {a e x : ℝ} {E L Q r3 r4 zp : ℝ → ℝ} (F : Far a e x E L Q r3 r4 zp)
include F

lemma Qp : Tendsto (fun p => Q p / p) atTop (𝓝 (1 - x ^ 2)) :=
  (F.s.sub F.L2).congr fun p => by rw [← sub_div]; congr 1; ring

lemma bp : Tendsto (fun p => (1 - E p ^ 2) * p * (1 / (1 - e) * (1 / (1 + e)))) atTop (𝓝 1) := by
  have h1 := F.k1
  have h2 := F.k2
  have h := F.b.mul_const (1 / (1 - e) * (1 / (1 + e)))
  have e1 : (1 - e ^ 2) * (1 / (1 - e) * (1 / (1 + e))) = 1 := by field_simp; ring
  rwa [e1] at h

lemma prod34 : Tendsto (fun p => r3 p * r4 p) atTop (𝓝 (a ^ 2 * (1 - x ^ 2))) := by
  have h1 := F.k1
  have h2 := F.k2
  have h := (F.Qp.const_mul (a ^ 2)).div F.bp one_ne_zero
  rw [div_one] at h
  refine h.congr' ?_
  filter_upwards [F.ev, eventually_gt_atTop 0] with p hp h0
  obtain ⟨-, -, -, v4⟩ := RadialRoots.vieta hp.1.roots
  have hb : 0 < 1 - E p ^ 2 := by linarith [hp.1.energy]
  rw [Pi.div_apply, div_eq_iff (by positivity), mul_div_assoc', ← v4]
  field_simp

lemma sum34 : Tendsto (fun p => r3 p + r4 p) atTop (𝓝 2) := by
  have h1 := F.k1
  have h2 := F.k2
  have hpinf : Tendsto (fun p : ℝ => 1 / p) atTop (𝓝 0) := tendsto_const_nhds.div_atTop tendsto_id
  have hE := ((F.en.mul F.Lp).const_mul (2 * a)).sub (((F.en.mul F.en).mul hpinf).const_mul (a ^ 2))
  have hN := (F.s.sub hE).const_mul 2
  have hM := (F.b.mul (F.prod34.mul hpinf)).mul_const (1 / (1 - e) + 1 / (1 + e))
  have h := (hN.sub hM).div F.bp one_ne_zero
  have e1 : (2 * (1 - (2 * a * (1 * 0) - a ^ 2 * (1 * 1 * 0)))
    - (1 - e ^ 2) * (a ^ 2 * (1 - x ^ 2) * 0) * (1 / (1 - e) + 1 / (1 + e))) / 1 = 2 := by ring
  rw [e1] at h
  refine h.congr' ?_
  filter_upwards [F.ev, eventually_gt_atTop 0] with p hp h0
  obtain ⟨-, -, v3, -⟩ := RadialRoots.vieta hp.1.roots
  have hb : 0 < 1 - E p ^ 2 := by linarith [hp.1.energy]
  rw [Pi.div_apply, div_eq_iff (by positivity)]
  have e2 : 2 * ((L p ^ 2 + Q p) / p - (2 * a * (E p * (L p / p)) - a ^ 2 * (E p * E p * (1 / p))))
    = (2 * ((L p - a * E p) ^ 2 + Q p)) / p := by field_simp; ring
  have e3 : 2 * ((L p - a * E p) ^ 2 + Q p) = (1 - E p ^ 2) * (p / (1 - e) * (p / (1 + e)) * r3 p
      + p / (1 - e) * (p / (1 + e)) * r4 p + p / (1 - e) * r3 p * r4 p + p / (1 + e) * r3 p * r4 p) := by
    linarith
  rw [e2, e3]
  field_simp
  ring

/-- Half the distance of the inner roots in the limit. -/
lemma sig : 0 ≤ 1 - a ^ 2 * (1 - x ^ 2) := by
  have h1 := F.spin
  have h2 := F.hx1
  have h3 : a ^ 2 * (1 - x ^ 2) ≤ 1 := mul_le_one₀ h1.le (by linarith) (by linarith [sq_nonneg x])
  linarith

lemma diff34 : Tendsto (fun p => r3 p - r4 p) atTop (𝓝 (2 * √(1 - a ^ 2 * (1 - x ^ 2)))) := by
  have h := ((F.sum34.pow 2).sub (F.prod34.const_mul 4)).sqrt
  have e1 : √(2 ^ 2 - 4 * (a ^ 2 * (1 - x ^ 2))) = 2 * √(1 - a ^ 2 * (1 - x ^ 2)) := by
    rw [show 2 ^ 2 - 4 * (a ^ 2 * (1 - x ^ 2)) = 2 ^ 2 * (1 - a ^ 2 * (1 - x ^ 2)) by ring, Real.sqrt_mul (by norm_num),
      Real.sqrt_sq (by norm_num)]
  rw [e1] at h
  refine h.congr' ?_
  filter_upwards [F.ev] with p hp
  rw [show (r3 p + r4 p) ^ 2 - 4 * (r3 p * r4 p) = (r3 p - r4 p) ^ 2 by ring,
    Real.sqrt_sq (by linarith [hp.1.r43])]

lemma lim3 : Tendsto r3 atTop (𝓝 (1 + √(1 - a ^ 2 * (1 - x ^ 2)))) := by
  have h := (F.sum34.add F.diff34).div_const 2
  rw [show (2 + 2 * √(1 - a ^ 2 * (1 - x ^ 2))) / 2 = 1 + √(1 - a ^ 2 * (1 - x ^ 2)) by ring] at h
  exact h.congr fun p => by ring

lemma lim4 : Tendsto r4 atTop (𝓝 (1 - √(1 - a ^ 2 * (1 - x ^ 2)))) := by
  have h := (F.sum34.sub F.diff34).div_const 2
  rw [show (2 - 2 * √(1 - a ^ 2 * (1 - x ^ 2))) / 2 = 1 - √(1 - a ^ 2 * (1 - x ^ 2)) by ring] at h
  exact h.congr fun p => by ring

lemma mR1 : Tendsto (fun p => p * mR (p / (1 - e)) (p / (1 + e)) (r3 p) (r4 p)) atTop
    (𝓝 (4 * e * √(1 - a ^ 2 * (1 - x ^ 2)))) := by
  have h1 := F.k1
  have h2 := F.k2
  have h := (F.diff34.const_mul (1 / (1 - e) - 1 / (1 + e))).div
    ((F.t3.const_sub (1 / (1 - e))).mul (F.t4.const_sub (1 / (1 + e)))) (by rw [sub_zero, sub_zero]; positivity)
  have e1 : (1 / (1 - e) - 1 / (1 + e)) * (2 * √(1 - a ^ 2 * (1 - x ^ 2))) / ((1 / (1 - e) - 0) * (1 / (1 + e) - 0))
      = 4 * e * √(1 - a ^ 2 * (1 - x ^ 2)) := by
    field_simp; ring
  rw [e1] at h
  refine h.congr' ?_
  filter_upwards [F.ev, eventually_gt_atTop 0] with p hp h0
  have C := F.cfg hp.1
  have n1 := C.ne13
  have n2 := C.ne24
  unfold mR
  have q1 : 1 / (1 - e) - r3 p / p = (p / (1 - e) - r3 p) / p := by field_simp
  have q2 : 1 / (1 + e) - r4 p / p = (p / (1 + e) - r4 p) / p := by field_simp
  have q3 : 1 / (1 - e) - 1 / (1 + e) = (p / (1 - e) - p / (1 + e)) / p := by field_simp
  rw [Pi.div_apply, q1, q2, q3]
  generalize p / (1 - e) - r3 p = u at *
  generalize p / (1 + e) - r4 p = v at *
  field_simp

lemma mT1 : Tendsto (fun p => p * mT a (1 - x ^ 2) (zp p)) atTop (𝓝 0) := by
  have hx := F.hx0
  have h := (((F.beta.const_mul (a ^ 2)).mul_const (x ^ 2)).div F.D0 (by positivity)).const_mul (1 - x ^ 2)
  rw [mul_zero, zero_mul, zero_div, mul_zero] at h
  refine h.congr' ?_
  filter_upwards [F.ev, eventually_gt_atTop 0] with p hp h0
  have H := hp.2.2.2.2.1
  have hD := H.D_pos
  rw [H.mT_eq_mul, Pi.div_apply]
  rw [sub_sub_cancel] at hD ⊢
  generalize a ^ 2 * (1 - E p ^ 2) * x ^ 2 + L p ^ 2 = D at *
  field_simp

/-- the square of the polar wave number -/
lemma W2 {p : ℝ} (hb : Spec.BoundGeodesic a (E p) (L p) (Q p) (p / (1 - e)) (p / (1 + e)) (r3 p) (r4 p))
    (H : PolarConfig a (E p) (L p) (Q p) (1 - x ^ 2) (zp p)) :
    polarW a (E p) (L p) (1 - x ^ 2) ^ 2 = (1 - E p ^ 2) * (p / (1 - e) * (p / (1 + e))
      + (p / (1 - e) + p / (1 + e)) * (r3 p + r4 p) + r3 p * r4 p - a ^ 2 * (1 - x ^ 2)) := by
  obtain ⟨-, v2, -⟩ := RadialRoots.vieta hb.roots
  have hW := H.W_sq
  have hr := H.root
  unfold Spec.Zpol at hr
  have hx : x ^ 2 ≠ 0 := pow_ne_zero 2 F.hx0
  rw [sub_sub_cancel] at hW
  apply mul_right_cancel₀ hx
  linear_combination hW - x ^ 2 * v2 - hr

lemma ratio : FirstOrder (fun p => (1 - E p ^ 2) * (p / (1 - e) - r3 p) * (p / (1 + e) - r4 p)
    / polarW a (E p) (L p) (1 - x ^ 2) ^ 2) (-(6 - 2 * e * √(1 - a ^ 2 * (1 - x ^ 2)))) := by
  have h1 := F.k1
  have h2 := F.k2
  have hpinf : Tendsto (fun p : ℝ => 1 / p) atTop (𝓝 0) := tendsto_const_nhds.div_atTop tendsto_id
  have hN := ((((F.lim4.const_mul (1 / (1 - e))).add (F.lim3.const_mul (1 / (1 + e)))).add
    (F.sum34.const_mul (1 / (1 - e) + 1 / (1 + e)))).sub (hpinf.const_mul (a ^ 2 * (1 - x ^ 2)))).neg
  have hM := ((F.sum34.const_mul (1 / (1 - e) + 1 / (1 + e))).mul hpinf).const_add (1 / (1 - e) * (1 / (1 + e))) |>.add
    ((F.prod34.sub_const (a ^ 2 * (1 - x ^ 2))).mul (hpinf.mul hpinf))
  have h := hN.div hM (by rw [mul_zero, mul_zero, mul_zero, add_zero, add_zero]; positivity)
  have e1 : -(1 / (1 - e) * (1 - √(1 - a ^ 2 * (1 - x ^ 2))) + 1 / (1 + e) * (1 + √(1 - a ^ 2 * (1 - x ^ 2)))
      + (1 / (1 - e) + 1 / (1 + e)) * 2 - a ^ 2 * (1 - x ^ 2) * 0)
      / (1 / (1 - e) * (1 / (1 + e)) + (1 / (1 - e) + 1 / (1 + e)) * 2 * 0 + (a ^ 2 * (1 - x ^ 2) - a ^ 2 * (1 - x ^ 2)) * (0 * 0))
      = -(6 - 2 * e * √(1 - a ^ 2 * (1 - x ^ 2))) := by
    generalize √(1 - a ^ 2 * (1 - x ^ 2)) = w
    rw [mul_zero, mul_zero, mul_zero, mul_zero, add_zero, add_zero, sub_zero]
    field_simp
    ring
  rw [e1] at h
  refine Tendsto.congr' ?_ h
  filter_upwards [F.ev, eventually_gt_atTop 0] with p hp h0
  have H := hp.2.2.2.2.1
  have hW := F.W2 hp.1 H
  have hWp := H.W_pos
  have hb : 0 < 1 - E p ^ 2 := by linarith [hp.1.energy]
  have hB : 0 < p / (1 - e) * (p / (1 + e)) + (p / (1 - e) + p / (1 + e)) * (r3 p + r4 p) + r3 p * r4 p - a ^ 2 * (1 - x ^ 2) := by
    have : 0 < polarW a (E p) (L p) (1 - x ^ 2) ^ 2 := by positivity
    rw [hW] at this
    exact (mul_pos_iff_of_pos_left hb).mp this
  rw [hW, Pi.div_apply]
  have q : 1 / (1 - e) * (1 / (1 + e)) + (1 / (1 - e) + 1 / (1 + e)) * (r3 p + r4 p) * (1 / p)
      + (r3 p * r4 p - a ^ 2 * (1 - x ^ 2)) * (1 / p * (1 / p))
      = (p / (1 - e) * (p / (1 + e)) + (p / (1 - e) + p / (1 + e)) * (r3 p + r4 p) + r3 p * r4 p - a ^ 2 * (1 - x ^ 2)) / p ^ 2 := by
    field_simp
    ring
  have q2 : -(1 / (1 - e) * r4 p + 1 / (1 + e) * r3 p + (1 / (1 - e) + 1 / (1 + e)) * (r3 p + r4 p) - a ^ 2 * (1 - x ^ 2) * (1 / p))
      = ((p / (1 - e) - r3 p) * (p / (1 + e) - r4 p) - (p / (1 - e) * (p / (1 + e)) + (p / (1 - e) + p / (1 + e)) * (r3 p + r4 p)
        + r3 p * r4 p - a ^ 2 * (1 - x ^ 2))) / p := by
    field_simp
    ring
  rw [q, q2]
  generalize p / (1 - e) * (p / (1 + e)) + (p / (1 - e) + p / (1 + e)) * (r3 p + r4 p) + r3 p * r4 p - a ^ 2 * (1 - x ^ 2) = u at *
  rw [mul_assoc, mul_div_mul_left _ _ hb.ne']
  generalize (p / (1 - e) - r3 p) * (p / (1 + e) - r4 p) = v at *
  field_simp

/-- **Υ_r/Υ_θ = 1 - 3/p + …** -/
lemma apsidal : FirstOrder (fun p => rFrequencyCore (E p) (p / (1 - e), p / (1 + e), r3 p, r4 p)
    / (π * polarW a (E p) (L p) (1 - x ^ 2) / (2 * ellipk (mT a (1 - x ^ 2) (zp p))))) (-3) := by
  have k1 := FirstOrder.ellipk F.mR1 (by filter_upwards [F.ev] with p hp using (F.cfg hp.1).mR_nonneg)
  have k2 := FirstOrder.ellipk F.mT1 (by filter_upwards [F.ev] with p hp using hp.2.2.2.2.1.mT_nonneg)
  have h := F.ratio.sqrt.mul (k2.div k1)
  have e1 : -(6 - 2 * e * √(1 - a ^ 2 * (1 - x ^ 2))) / 2 + (0 / 4 - 4 * e * √(1 - a ^ 2 * (1 - x ^ 2)) / 4) = -3 := by ring
  rw [e1] at h
  refine h.congr ?_
  filter_upwards [F.ev] with p hp
  have H := hp.2.2.2.2.1
  have C := F.cfg hp.1
  have hW := H.W_pos
  have n1 := (ellipk_pos C.mR_lt).ne'
  have n2 := (ellipk_pos H.mT_lt).ne'
  have hpi := Real.pi_ne_zero
  rw [rFrequencyCore_eq C, Real.sqrt_div' _ (by positivity), Real.sqrt_sq hW.le]
  generalize √_ = u
  generalize ellipk (mT _ _ _) = v at *
  generalize ellipk _ = w at *
  field_simp

/-- The polar part of the azimuthal frequency agrees with the polar frequency to this order. -/
lemma phiT1 : Tendsto (fun p => p * (phiT a (L p) (1 - x ^ 2) (zp p) - Real.sign x
    * (π * polarW a (E p) (L p) (1 - x ^ 2) / (2 * ellipk (mT a (1 - x ^ 2) (zp p)))))) atTop (𝓝 0) := by
  have hx := F.hx0
  have hsp : Tendsto (fun p : ℝ => 1 / √p) atTop (𝓝 0) := tendsto_const_nhds.div_atTop tendsto_sqrt_atTop
  -- u = B/D
  have hu0 : Tendsto (fun p => a ^ 2 * (1 - E p ^ 2) * x ^ 2 / (a ^ 2 * (1 - E p ^ 2) * x ^ 2 + L p ^ 2)) atTop (𝓝 0) := by
    have hp0 : Tendsto (fun p : ℝ => a ^ 2 * (1 - E p ^ 2) * x ^ 2 / p) atTop (𝓝 0) :=
      ((F.beta.const_mul (a ^ 2)).mul_const (x ^ 2)).div_atTop tendsto_id
    have h := hp0.div F.D0 (by positivity)
    rw [zero_div] at h
    refine h.congr' ?_
    filter_upwards [eventually_gt_atTop 0] with p h0
    rw [Pi.div_apply, div_div_div_cancel_right₀ h0.ne']
  have hbig : Tendsto (fun p => (a ^ 2 * x ^ 2 * ((1 - E p ^ 2) * p) / √((a ^ 2 * (1 - E p ^ 2) * x ^ 2 + L p ^ 2) / p) * (1 / √p))
      / ((2 - a ^ 2 * (1 - E p ^ 2) * x ^ 2 / (a ^ 2 * (1 - E p ^ 2) * x ^ 2 + L p ^ 2))
        * √(1 - (1 - x ^ 2) * (a ^ 2 * (1 - E p ^ 2) * x ^ 2 / (a ^ 2 * (1 - E p ^ 2) * x ^ 2 + L p ^ 2))))) atTop (𝓝 0) := by
    have hs : √(x ^ 2) ≠ 0 := by rw [Real.sqrt_sq_eq_abs]; exact abs_ne_zero.mpr hx
    have h := ((((F.b.const_mul (a ^ 2 * x ^ 2)).div F.D0.sqrt hs).mul hsp)).div
      ((hu0.const_sub 2).mul ((hu0.const_mul (1 - x ^ 2)).const_sub 1).sqrt) (by norm_num)
    rw [mul_zero, zero_div] at h
    exact h
  refine squeeze_zero_norm' ?_ hbig
  filter_upwards [F.ev, eventually_gt_atTop 0] with p hp h0
  have H := hp.2.2.2.2.1
  obtain ⟨b1, b2⟩ := H.phiT_bounds (U := π * polarW a (E p) (L p) (1 - x ^ 2) / (2 * ellipk (mT a (1 - x ^ 2) (zp p)))) rfl
  have hD := H.D_pos
  rw [sub_sub_cancel] at b2 hD
  have hsg : phiT a (L p) (1 - x ^ 2) (zp p) = Real.sign x * |phiT a (L p) (1 - x ^ 2) (zp p)| := by
    have hPi : 0 ≤ ellippiK (1 - x ^ 2) (mT a (1 - x ^ 2) (zp p)) := by
      rw [ellippiK_eq H.z1 H.mT_lt]
      unfold Spec.Pi
      refine intervalIntegral.integral_nonneg (by positivity) fun t _ => ?_
      have k1 := one_sub_mul_sin_sq_pos H.z1 t
      positivity
    have hK := ellipk_pos H.mT_lt
    unfold phiT
    rw [abs_div, abs_mul, abs_of_nonneg hPi, abs_of_pos hK]
    have hl := hp.2.2.1
    rcases lt_or_gt_of_ne hx with k | k
    · rw [Real.sign_of_neg k] at hl ⊢
      rw [abs_of_neg (by linarith)]; ring
    · rw [Real.sign_of_pos k] at hl ⊢
      rw [abs_of_pos (by linarith)]; ring
  rw [hsg]
  generalize π * polarW a (E p) (L p) (1 - x ^ 2) / (2 * ellipk (mT a (1 - x ^ 2) (zp p))) = U at *
  rw [Real.norm_eq_abs, abs_mul, ← mul_sub, abs_mul, abs_of_pos h0, abs_sub_comm, abs_of_nonneg (show 0 ≤ U - |phiT a (L p) (1 - x ^ 2) (zp p)| by linarith)]
  have hs1 : |Real.sign x| = 1 := by
    rcases lt_or_gt_of_ne hx with k | k
    · rw [Real.sign_of_neg k]; simp
    · rw [Real.sign_of_pos k]; simp
  rw [hs1, one_mul]
  refine (mul_le_mul_of_nonneg_left b2 h0.le).trans (le_of_eq ?_)
  have hsD : 0 < √(a ^ 2 * (1 - E p ^ 2) * x ^ 2 + L p ^ 2) := Real.sqrt_pos.mpr hD
  have hsD2 : √(a ^ 2 * (1 - E p ^ 2) * x ^ 2 + L p ^ 2) ^ 2 = a ^ 2 * (1 - E p ^ 2) * x ^ 2 + L p ^ 2 := Real.sq_sqrt hD.le
  have hsq : 0 < √p := Real.sqrt_pos.mpr h0
  rw [Real.sqrt_div hD.le]
  have e1 : √(a ^ 2 * (1 - E p ^ 2) * x ^ 2 + L p ^ 2) * (a ^ 2 * (1 - E p ^ 2) * x ^ 2 / (a ^ 2 * (1 - E p ^ 2) * x ^ 2 + L p ^ 2))
      = a ^ 2 * (1 - E p ^ 2) * x ^ 2 / √(a ^ 2 * (1 - E p ^ 2) * x ^ 2 + L p ^ 2) := by
    rw [mul_div_assoc', div_eq_div_iff hD.ne' hsD.ne']
    linear_combination (a ^ 2 * (1 - E p ^ 2) * x ^ 2) * hsD2
  rw [mul_div_assoc', e1]
  generalize √(a ^ 2 * (1 - E p ^ 2) * x ^ 2 + L p ^ 2) = w at *
  generalize (2 - a ^ 2 * (1 - E p ^ 2) * x ^ 2 / (a ^ 2 * (1 - E p ^ 2) * x ^ 2 + L p ^ 2))
        * √(1 - (1 - x ^ 2) * (a ^ 2 * (1 - E p ^ 2) * x ^ 2 / (a ^ 2 * (1 - E p ^ 2) * x ^ 2 + L p ^ 2))) = v
  field_simp

/-- The radius at a given phase, in units of `p`. -/
lemma radius (t : ℝ) : Tendsto (fun p => rOf (p / (1 - e)) (p / (1 + e)) (r3 p) (sin t ^ 2) / p) atTop
    (𝓝 (1 / (1 + e - 2 * e * sin t ^ 2))) := by
  have h1 := F.k1
  have h2 := F.k2
  have he := F.he
  have hS := sin_sq_le_one t
  have hS0 := sq_nonneg (sin t)
  generalize sin t ^ 2 = S at *
  have hd : 0 < 1 + e - 2 * e * S := by nlinarith
  have hd2 : 0 < 1 / (1 - e) - (1 / (1 - e) - 1 / (1 + e)) * S := by
    have : 1 / (1 - e) - (1 / (1 - e) - 1 / (1 + e)) * S = (1 + e - 2 * e * S) / ((1 - e) * (1 + e)) := by
      field_simp; ring
    rw [this]; positivity
  have hN := ((F.t3.const_sub (1 / (1 - e))).mul_const (1 / (1 + e))).sub ((F.t3.const_mul (1 / (1 - e) - 1 / (1 + e))).mul_const S)
  have hM := (F.t3.const_sub (1 / (1 - e))).sub_const ((1 / (1 - e) - 1 / (1 + e)) * S)
  have h := hN.div hM (by rw [sub_zero]; exact hd2.ne')
  have e1 : ((1 / (1 - e) - 0) * (1 / (1 + e)) - (1 / (1 - e) - 1 / (1 + e)) * 0 * S)
      / (1 / (1 - e) - 0 - (1 / (1 - e) - 1 / (1 + e)) * S) = 1 / (1 + e - 2 * e * S) := by
    rw [mul_zero, zero_mul, sub_zero, sub_zero, div_eq_div_iff hd2.ne' hd.ne']
    field_simp
    ring
  rw [e1] at h
  refine h.congr' ?_
  filter_upwards [eventually_gt_atTop 0] with p h0
  unfold rOf
  rw [Pi.div_apply]
  have q1 : (1 / (1 - e) - r3 p / p) * (1 / (1 + e)) - (1 / (1 - e) - 1 / (1 + e)) * (r3 p / p) * S
      = (p / (1 + e) * (p / (1 - e) - r3 p) - r3 p * (p / (1 - e) - p / (1 + e)) * S) / p ^ 2 := by
    field_simp
  have q2 : 1 / (1 - e) - r3 p / p - (1 / (1 - e) - 1 / (1 + e)) * S
      = (p / (1 - e) - r3 p - (p / (1 - e) - p / (1 + e)) * S) / p := by
    field_simp
  rw [q1, q2, show r3 p * (p / (1 - e) - p / (1 + e)) * S - p / (1 + e) * (p / (1 - e) - r3 p)
      = -(p / (1 + e) * (p / (1 - e) - r3 p) - r3 p * (p / (1 - e) - p / (1 + e)) * S) by ring,
    show (p / (1 - e) - p / (1 + e)) * S - (p / (1 - e) - r3 p) = -(p / (1 - e) - r3 p - (p / (1 - e) - p / (1 + e)) * S) by ring,
    neg_div_neg_eq]
  generalize p / (1 + e) * (p / (1 - e) - r3 p) - r3 p * (p / (1 - e) - p / (1 + e)) * S = u
  generalize p / (1 - e) - r3 p - (p / (1 - e) - p / (1 + e)) * S = v
  by_cases hv : v = 0
  · simp [hv]
  field_simp

/-- The radial part of the azimuthal frequency (frame dragging). -/
lemma phiR1 : Tendsto (fun p => p * phiR a (E p) (L p) (p / (1 - e)) (p / (1 + e)) (r3 p) (r4 p)) atTop (𝓝 (2 * a)) := by
  have h1 := F.k1
  have h2 := F.k2
  have he := F.he
  have hpi := Real.pi_pos
  have hint : Tendsto (fun p => ∫ t in (0:ℝ)..(π / 2), p * ((2 * E p * rOf (p / (1 - e)) (p / (1 + e)) (r3 p) (sin t ^ 2) - a * L p)
        / Spec.Delta a (rOf (p / (1 - e)) (p / (1 + e)) (r3 p) (sin t ^ 2))
        * (1 / √(1 - mR (p / (1 - e)) (p / (1 + e)) (r3 p) (r4 p) * sin t ^ 2)))) atTop
      (𝓝 (∫ t in (0:ℝ)..(π / 2), 2 * (1 + e - 2 * e * sin t ^ 2))) := by
    refine intervalIntegral.tendsto_integral_filter_of_dominated_convergence (fun _ => 192) ?_ ?_ (by simp) ?_
    · filter_upwards [F.ev] with p hp
      exact ((phiR_int (F.cfg hp.1) hp.1.r32 F.spin hp.1.horizon).1.const_mul p).aestronglyMeasurable
    · filter_upwards [F.ev, eventually_gt_atTop (4 * (1 + e)), F.mR0.eventually (gt_mem_nhds (show (0:ℝ) < 1 / 2 by norm_num)),
        (F.Lp.eventually (Metric.ball_mem_nhds 0 (show 0 < 1 / (1 + e) by positivity)))] with p hp hbig hm hL
      refine Eventually.of_forall fun t _ => ?_
      have C := F.cfg hp.1
      obtain ⟨hr, -⟩ := C.r_mem t
      have hp0 : 0 < p := by linarith
      have hE1 : |E p| ≤ 1 := (sq_le_one_iff_abs_le_one _).mp hp.1.energy.le
      have hL' : |L p| ≤ p / (1 + e) := by
        rw [dist_zero_right, Real.norm_eq_abs, abs_div, abs_of_pos hp0, div_lt_iff₀ hp0] at hL
        refine hL.le.trans (le_of_eq ?_)
        ring
      have hr4 : 4 ≤ p / (1 + e) := by rw [le_div_iff₀ h2]; exact hbig.le
      have hpr : p ≤ 2 * rOf (p / (1 - e)) (p / (1 + e)) (r3 p) (sin t ^ 2) := by
        have : p = p / (1 + e) * (1 + e) := by field_simp
        have he1 := F.he1
        nlinarith
      have hw : 1 / √(1 - mR (p / (1 - e)) (p / (1 + e)) (r3 p) (r4 p) * sin t ^ 2) ≤ 2 := by
        have hS := sin_sq_le_one t
        have hS0 := sq_nonneg (sin t)
        have hm0 := C.mR_nonneg
        rw [div_le_iff₀ (Real.sqrt_pos.mpr (one_sub_mul_sin_sq_pos C.mR_lt t))]
        have : 1 / 2 ≤ √(1 - mR (p / (1 - e)) (p / (1 + e)) (r3 p) (r4 p) * sin t ^ 2) := by
          refine Real.le_sqrt_of_sq_le ?_
          nlinarith
        linarith
      have hw0 : 0 ≤ 1 / √(1 - mR (p / (1 - e)) (p / (1 + e)) (r3 p) (r4 p) * sin t ^ 2) := by positivity
      generalize 1 / √(1 - mR (p / (1 - e)) (p / (1 + e)) (r3 p) (r4 p) * sin t ^ 2) = w at *
      generalize rOf (p / (1 - e)) (p / (1 + e)) (r3 p) (sin t ^ 2) = r at *
      exact dominated F.spin hE1 (hL'.trans hr) (hr4.trans hr) hp0 hpr hw0 hw
    · refine Eventually.of_forall fun t _ => ?_
      have hS := sin_sq_le_one t
      have hS0 := sq_nonneg (sin t)
      have hd : 0 < 1 + e - 2 * e * sin t ^ 2 := by have := F.he1; nlinarith
      have hpinf : Tendsto (fun p : ℝ => 1 / p) atTop (𝓝 0) := tendsto_const_nhds.div_atTop tendsto_id
      have hw := ((F.mR0.mul_const (sin t ^ 2)).const_sub 1).sqrt
      rw [zero_mul, sub_zero, Real.sqrt_one] at hw
      have hr := F.radius t
      have hN := ((F.en.const_mul 2).mul hr).sub (F.Lp.const_mul a)
      have hM := ((hr.pow 2).sub ((hr.const_mul 2).mul hpinf)).add ((hpinf.pow 2).const_mul (a ^ 2))
      have h := (hN.div hM (by simp; exact hd.ne')).mul (hw.inv₀ one_ne_zero)
      have e1 : (2 * 1 * (1 / (1 + e - 2 * e * sin t ^ 2)) - a * 0) / ((1 / (1 + e - 2 * e * sin t ^ 2)) ^ 2
          - 2 * (1 / (1 + e - 2 * e * sin t ^ 2)) * 0 + a ^ 2 * 0 ^ 2) * 1⁻¹ = 2 * (1 + e - 2 * e * sin t ^ 2) := by
        generalize 1 + e - 2 * e * sin t ^ 2 = d at *
        have := hd.ne'
        rw [mul_zero, mul_zero, sub_zero, sub_zero, inv_one]
        field_simp
        norm_num
      rw [e1] at h
      refine h.congr' ?_
      filter_upwards [eventually_gt_atTop 0] with p h0
      rw [Pi.div_apply]
      generalize rOf (p / (1 - e)) (p / (1 + e)) (r3 p) (sin t ^ 2) = r
      have q1 : 2 * E p * (r / p) - a * (L p / p) = (2 * E p * r - a * L p) / p := by field_simp
      have q2 : (r / p) ^ 2 - 2 * (r / p) * (1 / p) + a ^ 2 * (1 / p) ^ 2 = Spec.Delta a r / p ^ 2 := by
        unfold Spec.Delta; field_simp
      rw [q1, q2]
      generalize Spec.Delta a r = D
      by_cases hD : D = 0
      · simp [hD]
      field_simp
  have hval : ∫ t in (0:ℝ)..(π / 2), 2 * (1 + e - 2 * e * sin t ^ 2) = π := by
    have hi : IntervalIntegrable (fun t => sin t ^ 2) MeasureTheory.volume 0 (π / 2) :=
      (by fun_prop : Continuous fun t => sin t ^ 2).intervalIntegrable _ _
    rw [intervalIntegral.integral_const_mul, intervalIntegral.integral_sub (by simp) (hi.const_mul _),
      intervalIntegral.integral_const_mul, integral_sin_sq]
    simp
    ring
  rw [hval] at hint
  have h := ((tendsto_const_nhds (x := a)).div (tendsto_ellipk F.mR0) (by positivity)).mul hint
  have e1 : a / (π / 2) * π = 2 * a := by field_simp
  rw [e1] at h
  refine h.congr' ?_
  filter_upwards [F.ev] with p hp
  rw [(phiR_int (F.cfg hp.1) hp.1.r32 F.spin hp.1.horizon).2, intervalIntegral.integral_const_mul, Pi.div_apply]
  ring

end Far

end KGP
