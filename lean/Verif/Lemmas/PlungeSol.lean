import Verif.Lemmas.PolarSol
import Verif.Model.Plunge

/-!
# Calculus of the complex-root plunge (plunge.py:174-233, 318-476)
-/

namespace KGP

open Classical Real

/-- The real roots `r1 ≤ r2` and the complex pair `u ± i v`. -/
structure CplxConfig (r1 r2 u v : ℝ) : Prop where
  h12 : r1 ≤ r2
  hv : v ≠ 0

/-- `k_r²` of equation 42 -/
noncomputable def mC (r1 r2 u v : ℝ) : ℝ :=
  ((r2 - r1) ^ 2 - (plungeA r2 u v - plungeB r1 u v) ^ 2) / (4 * plungeA r2 u v * plungeB r1 u v)

section
variable {r1 r2 u v : ℝ} (H : CplxConfig r1 r2 u v)
include H

lemma CplxConfig.A_pos : 0 < plungeA r2 u v :=
  Real.sqrt_pos.mpr (by have := H.hv; positivity)

lemma CplxConfig.B_pos : 0 < plungeB r1 u v :=
  Real.sqrt_pos.mpr (by have := H.hv; positivity)

omit H in
lemma plungeA_sq : plungeA r2 u v ^ 2 = (r2 - u) ^ 2 + v ^ 2 := Real.sq_sqrt (by positivity)

omit H in
lemma plungeB_sq : plungeB r1 u v ^ 2 = (r1 - u) ^ 2 + v ^ 2 := Real.sq_sqrt (by positivity)

/-- `|(r1-u)(r2-u)+v²| < AB`, strictly unless `r1 = r2`. -/
lemma CplxConfig.cauchy : (r1 - u) * (r2 - u) + v ^ 2 ≤ plungeA r2 u v * plungeB r1 u v ∧
    -(plungeA r2 u v * plungeB r1 u v) < (r1 - u) * (r2 - u) + v ^ 2 := by
  have hA := H.A_pos
  have hB := H.B_pos
  have h1 : ((r1 - u) * (r2 - u) + v ^ 2) ^ 2 + ((r2 - r1) * v) ^ 2
      = (plungeA r2 u v * plungeB r1 u v) ^ 2 := by
    rw [mul_pow (plungeA r2 u v), plungeA_sq, plungeB_sq]; ring
  have hAB : 0 < plungeA r2 u v * plungeB r1 u v := mul_pos hA hB
  refine ⟨abs_le_of_sq_le_sq' (by nlinarith) hAB.le |>.2, ?_⟩
  by_contra hc
  push Not at hc
  have h3 : ((r2 - r1) * v) ^ 2 = 0 := by nlinarith [sq_nonneg ((r2 - r1) * v)]
  have h4 : r2 - r1 = 0 := by
    have := pow_eq_zero_iff (n := 2) (by norm_num) |>.mp h3
    exact (mul_eq_zero.mp this).resolve_right H.hv
  have h5 : r2 = r1 := by linarith
  rw [h5] at hc
  have : 0 < v ^ 2 := by have := H.hv; positivity
  rw [h5] at hAB
  nlinarith [sq_nonneg (r1 - u)]

lemma CplxConfig.mC_mul : mC r1 r2 u v * (4 * plungeA r2 u v * plungeB r1 u v)
    = (r2 - r1) ^ 2 - (plungeA r2 u v - plungeB r1 u v) ^ 2 := by
  have hA := H.A_pos.ne'
  have hB := H.B_pos.ne'
  unfold mC
  exact div_mul_cancel₀ _ (by positivity)

lemma CplxConfig.mC_nonneg : 0 ≤ mC r1 r2 u v := by
  have hA := H.A_pos
  have hB := H.B_pos
  refine div_nonneg ?_ (by positivity)
  have := H.cauchy.1
  have h1 := plungeA_sq (r2 := r2) (u := u) (v := v)
  have h2 := plungeB_sq (r1 := r1) (u := u) (v := v)
  nlinarith

lemma CplxConfig.mC_lt : mC r1 r2 u v < 1 := by
  have hA := H.A_pos
  have hB := H.B_pos
  unfold mC
  rw [div_lt_one (by positivity)]
  have := H.cauchy.2
  have h1 := plungeA_sq (r2 := r2) (u := u) (v := v)
  have h2 := plungeB_sq (r1 := r1) (u := u) (v := v)
  nlinarith

lemma CplxConfig.sq_k : plungeKR r1 r2 (plungeA r2 u v) (plungeB r1 u v) ^ 2 = mC r1 r2 u v :=
  Real.sq_sqrt H.mC_nonneg

lemma CplxConfig.sq_k_abs : √(|((r2 - r1) ^ 2 - (plungeA r2 u v - plungeB r1 u v) ^ 2)
    / (4 * plungeA r2 u v * plungeB r1 u v)|) ^ 2 = mC r1 r2 u v := by
  have := H.mC_nonneg
  unfold mC at *
  rw [abs_of_nonneg this, Real.sq_sqrt this]

lemma CplxConfig.upsilon_eq (E : ℝ) : plungeUpsilonRComplex E r1 r2 u v
    = π * √(plungeA r2 u v * plungeB r1 u v * (1 - E ^ 2)) / (2 * ellipk (mC r1 r2 u v)) := by
  simp only [plungeUpsilonRComplex, H.sq_k_abs]

lemma CplxConfig.D_pos {c : ℝ} (h1 : -1 ≤ c) (h2 : c ≤ 1) :
    0 < plungeA r2 u v * (1 + c) + plungeB r1 u v * (1 - c) := by
  have hA := H.A_pos
  have hB := H.B_pos
  rcases h2.eq_or_lt with rfl | h
  · linarith
  · have : 0 < plungeB r1 u v * (1 - c) := mul_pos hB (by linarith)
    have : 0 ≤ plungeA r2 u v * (1 + c) := mul_nonneg hA.le (by linarith)
    linarith

end

/-- `r` as a function of `cn` -/
noncomputable def rC (r1 r2 u v c : ℝ) : ℝ :=
  (plungeA r2 u v * r1 * (1 + c) + plungeB r1 u v * r2 * (1 - c))
    / (plungeA r2 u v * (1 + c) + plungeB r1 u v * (1 - c))

/-- The amplitude of the radial elliptic functions at phase `q`. -/
noncomputable def amC (m q : ℝ) : ℝ := jacobiAm (2 * ellipk m * q / π) m

lemma cplx_pos_eq {a E L r1 r2 u v : ℝ} (H : CplxConfig r1 r2 u v) (U q : ℝ) :
    (plungingRadialSolutionsCore a E L r1 r2 u v U).pos q
      = rC r1 r2 u v (cos (amC (mC r1 r2 u v) q)) := by
  simp only [plungingRadialSolutionsCore, H.sq_k, ellipj]
  change _ = rC r1 r2 u v (cos (jacobiAm (2 * ellipk (mC r1 r2 u v) * q / π) (mC r1 r2 u v)))
  generalize jacobiAm (2 * ellipk (mC r1 r2 u v) * q / π) (mC r1 r2 u v) = w
  have h1 := H.D_pos (c := cos w) (neg_one_le_cos w) (cos_le_one w)
  have h2 := H.D_pos (c := -cos w) (by linarith [cos_le_one w]) (by linarith [neg_one_le_cos w])
  unfold rC
  rw [Real.sin_sq]
  generalize cos w = c at *
  generalize plungeA r2 u v = A at *
  generalize plungeB r1 u v = B at *
  have h3 : 4 * A * B + (A - B) ^ 2 * (1 - c ^ 2)
      = (A * (1 + c) + B * (1 - c)) * (A * (1 + -c) + B * (1 - -c)) := by ring
  rw [h3, div_eq_div_iff (mul_pos h1 h2).ne' h1.ne']
  ring

section
variable {r1 r2 u v : ℝ} (H : CplxConfig r1 r2 u v) {c : ℝ} (h1 : -1 ≤ c) (h2 : c ≤ 1)
include H h1 h2

lemma CplxConfig.rC_sub (y : ℝ) : rC r1 r2 u v c - y
    = (plungeA r2 u v * (1 + c) * (r1 - y) + plungeB r1 u v * (1 - c) * (r2 - y))
      / (plungeA r2 u v * (1 + c) + plungeB r1 u v * (1 - c)) := by
  have := (H.D_pos h1 h2).ne'
  unfold rC
  field_simp
  ring

lemma CplxConfig.rC_mem : r1 ≤ rC r1 r2 u v c ∧ rC r1 r2 u v c ≤ r2 := by
  have hD := H.D_pos h1 h2
  have hA := H.A_pos.le
  have hB := H.B_pos.le
  have h12 : 0 ≤ r2 - r1 := by linarith [H.h12]
  have hc1 : 0 ≤ 1 + c := by linarith
  have hc2 : 0 ≤ 1 - c := by linarith
  constructor
  · rw [← sub_nonneg, H.rC_sub h1 h2]
    apply div_nonneg _ hD.le
    rw [sub_self]; positivity
  · rw [← sub_nonpos, H.rC_sub h1 h2]
    apply div_nonpos_of_nonpos_of_nonneg _ hD.le
    rw [sub_self, mul_zero, add_zero]
    exact mul_nonpos_of_nonneg_of_nonpos (by positivity) (by linarith)

/-- The radial potential (up to `1 - E²`) at `rC c`. -/
lemma CplxConfig.pot : (r2 - rC r1 r2 u v c) * (rC r1 r2 u v c - r1)
      * ((rC r1 r2 u v c - u) ^ 2 + v ^ 2)
    = plungeA r2 u v * plungeB r1 u v * (1 - c ^ 2) * (1 - mC r1 r2 u v * (1 - c ^ 2))
      * (2 * plungeA r2 u v * plungeB r1 u v * (r2 - r1)
        / (plungeA r2 u v * (1 + c) + plungeB r1 u v * (1 - c)) ^ 2) ^ 2 := by
  have hD := (H.D_pos h1 h2).ne'
  have hm := H.mC_mul
  have hA2 := plungeA_sq (r2 := r2) (u := u) (v := v)
  have hB2 := plungeB_sq (r1 := r1) (u := u) (v := v)
  rw [show r2 - rC r1 r2 u v c = -(rC r1 r2 u v c - r2) by ring, H.rC_sub h1 h2, H.rC_sub h1 h2,
    H.rC_sub h1 h2]
  generalize mC r1 r2 u v = m at *
  generalize plungeA r2 u v = A at *
  generalize plungeB r1 u v = B at *
  obtain ⟨D, hDd⟩ : ∃ D, D = A * (1 + c) + B * (1 - c) := ⟨_, rfl⟩
  rw [← hDd] at hD ⊢
  have key : (A * (1 + c) * (r1 - u) + B * (1 - c) * (r2 - u)) ^ 2 + v ^ 2 * D ^ 2
      = 4 * A ^ 2 * B ^ 2 * (1 - m * (1 - c ^ 2)) := by
    rw [hDd]
    have e : (r1 - u) * (r2 - u) + v ^ 2 = (A ^ 2 + B ^ 2 - (r2 - r1) ^ 2) / 2 := by
      rw [hA2, hB2]; ring
    have h3 : (A * (1 + c) * (r1 - u) + B * (1 - c) * (r2 - u)) ^ 2
        + v ^ 2 * (A * (1 + c) + B * (1 - c)) ^ 2
        = A ^ 2 * (1 + c) ^ 2 * ((r1 - u) ^ 2 + v ^ 2) + B ^ 2 * (1 - c) ^ 2 * ((r2 - u) ^ 2 + v ^ 2)
          + 2 * A * B * (1 - c ^ 2) * ((r1 - u) * (r2 - u) + v ^ 2) := by ring
    rw [h3, ← hA2, ← hB2, e]
    linear_combination A * B * (1 - c ^ 2) * hm
  have h4 : ((A * (1 + c) * (r1 - u) + B * (1 - c) * (r2 - u)) / D) ^ 2 + v ^ 2
      = 4 * A ^ 2 * B ^ 2 * (1 - m * (1 - c ^ 2)) / D ^ 2 := by
    rw [← key, div_pow, add_div, mul_div_assoc, div_self (pow_ne_zero 2 hD), mul_one]
  rw [h4, sub_self, sub_self]
  field_simp
  ring

end

lemma CplxConfig.hasDerivAt_rC {r1 r2 u v : ℝ} (H : CplxConfig r1 r2 u v) {c : ℝ} (h1 : -1 ≤ c)
    (h2 : c ≤ 1) : HasDerivAt (rC r1 r2 u v)
      (-(2 * plungeA r2 u v * plungeB r1 u v * (r2 - r1))
        / (plungeA r2 u v * (1 + c) + plungeB r1 u v * (1 - c)) ^ 2) c := by
  have hD := (H.D_pos h1 h2).ne'
  have hcn := hasDerivAt_id' c
  have e1 := ((hcn.const_add 1).const_mul (plungeA r2 u v * r1)).add
    ((hcn.const_sub 1).const_mul (plungeB r1 u v * r2))
  have e2 := ((hcn.const_add 1).const_mul (plungeA r2 u v)).add
    ((hcn.const_sub 1).const_mul (plungeB r1 u v))
  refine (e1.div e2 hD).congr_deriv ?_
  simp only [Pi.add_apply]
  congr 1
  ring

/-- The sign of `sn` at radial phase `q`. -/
lemma sign_amC {m : ℝ} (hm : m < 1) (q : ℝ) :
    Real.sign (sin (amC m q)) = Real.sign (sin q) := by
  have hpi := Real.pi_pos
  have hK := ellipk_pos hm
  refine sign_sin_eq (f := amC m) ?_ ?_ q
  · intro y z h
    exact am_strictMono hm (show 2 * ellipk m * y / π < 2 * ellipk m * z / π by gcongr)
  · intro k
    unfold amC
    rw [show 2 * ellipk m * (k * π) / π = 2 * k * ellipk m by field_simp, am_int hm]

lemma amC_add {m : ℝ} (hm : m < 1) (q : ℝ) : amC m (q + 2 * π) = amC m q + 2 * π := by
  unfold amC
  have h := am_add_int hm (2 * ellipk m * q / π) 2
  push_cast at h
  rw [← h]
  congr 1
  have := Real.pi_ne_zero
  field_simp

lemma amC_zero {m : ℝ} (hm : m < 1) : amC m 0 = 0 := by
  unfold amC; simp [am_zero hm]

lemma amC_pi {m : ℝ} (hm : m < 1) : amC m π = π := by
  unfold amC
  have h := am_int hm 1
  push_cast at h
  rw [show 2 * ellipk m * π / π = 2 * 1 * ellipk m by have := Real.pi_ne_zero; field_simp, h, one_mul]

/-- phase advance -/
lemma hasDerivAt_amC_arg {m w U q0 lam : ℝ} (hm : m < 1) (hU : U = π * w / (2 * ellipk m)) :
    HasDerivAt (fun l => 2 * ellipk m * (U * l + q0) / π) w lam := by
  have hK := (ellipk_pos hm).ne'
  have hpi := Real.pi_ne_zero
  have := ((((hasDerivAt_id' lam).const_mul U).add_const q0).const_mul (2 * ellipk m)).div_const π
  refine this.congr_deriv ?_
  rw [hU]; field_simp

/-- **the radial equation of a complex-root plunge**, with the sign -/
lemma cplx_radial_equation {a E L r1 r2 u v : ℝ} (H : CplxConfig r1 r2 u v)
    (hE : 0 ≤ 1 - E ^ 2) (U' q0 lam : ℝ) :
    let U := plungeUpsilonRComplex E r1 r2 u v
    let r := fun lam => (plungingRadialSolutionsCore a E L r1 r2 u v U').pos (U * lam + q0)
    0 ≤ (1 - E ^ 2) * (r2 - r lam) * (r lam - r1) * ((r lam - u) ^ 2 + v ^ 2) ∧
    HasDerivAt r (Real.sign (sin (U * lam + q0))
      * √((1 - E ^ 2) * (r2 - r lam) * (r lam - r1) * ((r lam - u) ^ 2 + v ^ 2))) lam := by
  intro U r
  have hm := H.mC_lt
  have hA := H.A_pos
  have hB := H.B_pos
  obtain ⟨c, hc⟩ : ∃ c, c = √(plungeA r2 u v * plungeB r1 u v * (1 - E ^ 2)) := ⟨_, rfl⟩
  have hc0 : 0 ≤ c := by rw [hc]; exact Real.sqrt_nonneg _
  have hc2 : c ^ 2 = plungeA r2 u v * plungeB r1 u v * (1 - E ^ 2) := by
    rw [hc]; exact Real.sq_sqrt (by positivity)
  have hU : U = π * c / (2 * ellipk (mC r1 r2 u v)) := by
    rw [hc]; exact H.upsilon_eq E
  have hr : r = fun lam => rC r1 r2 u v (cos (amC (mC r1 r2 u v) (U * lam + q0))) := by
    funext l; exact cplx_pos_eq H _ _
  have hq := hasDerivAt_amC_arg (q0 := q0) (lam := lam) hm hU
  have hcn := (hasDerivAt_cn hm _).comp lam hq
  obtain ⟨w, hw⟩ : ∃ w, w = amC (mC r1 r2 u v) (U * lam + q0) := ⟨_, rfl⟩
  have hsg := sign_amC hm (U * lam + q0)
  rw [← hw] at hsg
  have hD := H.D_pos (c := cos w) (neg_one_le_cos w) (cos_le_one w)
  have hrl : r lam = rC r1 r2 u v (cos w) := by rw [hr, hw]
  have hpot := H.pot (c := cos w) (neg_one_le_cos w) (cos_le_one w)
  rw [← hrl, ← Real.sin_sq] at hpot
  have hd2 : √(1 - mC r1 r2 u v * sin w ^ 2) ^ 2 = 1 - mC r1 r2 u v * sin w ^ 2 :=
    Real.sq_sqrt (one_sub_mul_sin_sq_pos hm w).le
  obtain ⟨Y, hY⟩ : ∃ Y, Y = c * √(1 - mC r1 r2 u v * sin w ^ 2)
      * (2 * plungeA r2 u v * plungeB r1 u v * (r2 - r1)
        / (plungeA r2 u v * (1 + cos w) + plungeB r1 u v * (1 - cos w)) ^ 2) := ⟨_, rfl⟩
  have hYnn : 0 ≤ Y := by
    rw [hY]
    have : 0 ≤ r2 - r1 := by linarith [H.h12]
    positivity
  have hR : (1 - E ^ 2) * (r2 - r lam) * (r lam - r1) * ((r lam - u) ^ 2 + v ^ 2)
      = (sin w * Y) ^ 2 := by
    have : (1 - E ^ 2) * (r2 - r lam) * (r lam - r1) * ((r lam - u) ^ 2 + v ^ 2)
      = (1 - E ^ 2) * ((r2 - r lam) * (r lam - r1) * ((r lam - u) ^ 2 + v ^ 2)) := by ring
    rw [this, hpot, ← hd2, hY]
    linear_combination (-(sin w ^ 2 * √(1 - mC r1 r2 u v * sin w ^ 2) ^ 2
      * (2 * plungeA r2 u v * plungeB r1 u v * (r2 - r1)
        / (plungeA r2 u v * (1 + cos w) + plungeB r1 u v * (1 - cos w)) ^ 2) ^ 2)) * hc2
  refine ⟨by rw [hR]; positivity, ?_⟩
  rw [hR, Real.sqrt_sq_eq_abs, abs_mul, abs_of_nonneg hYnn, ← hsg]
  have hss : Real.sign (sin w) * (|sin w| * Y) = sin w * Y := by
    rcases lt_trichotomy (sin w) 0 with h | h | h
    · rw [Real.sign_of_neg h, abs_of_neg h]; ring
    · rw [h]; simp
    · rw [Real.sign_of_pos h, abs_of_pos h]; ring
  rw [hss]
  have hder := (H.hasDerivAt_rC (c := cos w) (neg_one_le_cos w) (cos_le_one w))
  rw [hw] at hder
  have h3 := hder.comp lam hcn
  rw [hr]
  refine h3.congr_deriv ?_
  change -(2 * plungeA r2 u v * plungeB r1 u v * (r2 - r1))
    / (plungeA r2 u v * (1 + cos (amC (mC r1 r2 u v) (U * lam + q0)))
      + plungeB r1 u v * (1 - cos (amC (mC r1 r2 u v) (U * lam + q0)))) ^ 2
    * (-sin (amC (mC r1 r2 u v) (U * lam + q0))
      * √(1 - mC r1 r2 u v * sin (amC (mC r1 r2 u v) (U * lam + q0)) ^ 2) * c) = _
  rw [← hw, hY]; ring

/-! ### the integrals of `r` and `r²` -/

/-- `arctan2` in terms of the half-angle: `atan2(y, x) = 2 arctan t`. -/
lemma arctan2_eq_two_arctan {x y t ρ : ℝ} (hρ : 0 < ρ) (hx : x = ρ * ((1 - t ^ 2) / (1 + t ^ 2)))
    (hy : y = ρ * (2 * t / (1 + t ^ 2))) : arctan2 y x = 2 * arctan t := by
  have h1 := neg_pi_div_two_lt_arctan t
  have h2 := arctan_lt_pi_div_two t
  have hc : cos (2 * arctan t) = (1 - t ^ 2) / (1 + t ^ 2) := by
    rw [cos_two_mul, cos_sq_arctan]
    have : 1 + t ^ 2 ≠ 0 := by positivity
    field_simp; ring
  have hs : sin (2 * arctan t) = 2 * t / (1 + t ^ 2) := by
    rw [sin_two_mul, ← tan_mul_cos (cos_arctan_pos t).ne', tan_arctan]
    rw [show 2 * (t * cos (arctan t)) * cos (arctan t) = 2 * t * cos (arctan t) ^ 2 by ring,
      cos_sq_arctan]
    ring
  unfold arctan2
  have : (⟨x, y⟩ : ℂ) = (ρ : ℂ) * (Complex.cos ((2 * arctan t : ℝ) : ℂ)
      + Complex.sin ((2 * arctan t : ℝ) : ℂ) * Complex.I) := by
    rw [← Complex.ofReal_cos, ← Complex.ofReal_sin, hc, hs]
    apply Complex.ext
    · simp only [Complex.mul_re, Complex.add_re, Complex.ofReal_re, Complex.ofReal_im,
        Complex.I_re, Complex.I_im, Complex.add_im, Complex.mul_im]
      rw [hx]; ring
    · simp only [Complex.mul_re, Complex.add_re, Complex.ofReal_re, Complex.ofReal_im,
        Complex.I_re, Complex.I_im, Complex.add_im, Complex.mul_im]
      rw [hy]; ring
  rw [this, Complex.arg_mul_cos_add_sin_mul_I hρ ⟨by linarith, by linarith⟩]

section
variable {r1 r2 u v : ℝ} (H : CplxConfig r1 r2 u v)
include H

/-- the argument of the arctangent in `I_r`: derivative of `arctan (d sn / (2 √(AB) dn))` -/
lemma CplxConfig.hasDerivAt_arctan (x : ℝ) :
    let A := plungeA r2 u v
    let B := plungeB r1 u v
    let m := mC r1 r2 u v
    HasDerivAt (fun x => arctan ((r2 - r1) * sin (jacobiAm x m)
        / (2 * √(A * B) * √(1 - m * sin (jacobiAm x m) ^ 2))))
      (2 * √(A * B) * (r2 - r1) * cos (jacobiAm x m)
        / (4 * A * B + (A - B) ^ 2 * sin (jacobiAm x m) ^ 2)) x := by
  intro A B m
  have hA : 0 < A := H.A_pos
  have hB : 0 < B := H.B_pos
  have hm : m < 1 := H.mC_lt
  have hmm : m * (4 * A * B) = (r2 - r1) ^ 2 - (A - B) ^ 2 := H.mC_mul
  have hdn := dn_pos hm x
  have hg : 0 < √(A * B) := Real.sqrt_pos.mpr (mul_pos hA hB)
  have hg2 : √(A * B) ^ 2 = A * B := Real.sq_sqrt (mul_pos hA hB).le
  have hd2 : √(1 - m * sin (jacobiAm x m) ^ 2) ^ 2 = 1 - m * sin (jacobiAm x m) ^ 2 :=
    Real.sq_sqrt (one_sub_mul_sin_sq_pos hm _).le
  have h := (((hasDerivAt_sn hm x).const_mul (r2 - r1)).div
    ((hasDerivAt_dn hm x).const_mul (2 * √(A * B))) (by positivity)).arctan
  refine h.congr_deriv ?_
  simp only [Pi.div_apply]
  have hP : 0 < 4 * A * B + (A - B) ^ 2 * sin (jacobiAm x m) ^ 2 := by positivity
  have e1 : 1 + ((r2 - r1) * sin (jacobiAm x m)
        / (2 * √(A * B) * √(1 - m * sin (jacobiAm x m) ^ 2))) ^ 2
      = (4 * A * B + (A - B) ^ 2 * sin (jacobiAm x m) ^ 2)
        / (4 * A * B * √(1 - m * sin (jacobiAm x m) ^ 2) ^ 2) := by
    rw [div_pow, mul_pow, mul_pow, mul_pow, hg2]
    have hdd := (pow_pos hdn 2).ne'
    rw [eq_div_iff (by positivity)]
    rw [add_mul, div_mul_eq_mul_div]
    have h5 : ∀ X Y : ℝ, X ≠ 0 → Y * (4 * A * B * X) / (2 ^ 2 * (A * B) * X) = Y := by
      intro X Y hX; field_simp; norm_num
    rw [h5 _ _ hdd, hd2]
    linear_combination (-(sin (jacobiAm x m) ^ 2)) * hmm
  rw [e1]
  generalize sin (jacobiAm x m) = s at *
  generalize cos (jacobiAm x m) = c at *
  generalize √(1 - m * s ^ 2) = dn at *
  have e2 : ((r2 - r1) * (c * dn) * (2 * √(A * B) * dn)
      - (r2 - r1) * s * (2 * √(A * B) * (-m * s * c))) = 2 * √(A * B) * (r2 - r1) * c := by
    linear_combination 2 * √(A * B) * (r2 - r1) * c * hd2
  rw [e2]
  generalize √(A * B) = g at *
  generalize 4 * A * B + (A - B) ^ 2 * s ^ 2 = P at *
  rw [show 4 * A * B = 4 * (A * B) by ring, ← hg2]
  field_simp
  ring

end

section
variable {r1 r2 u v : ℝ} (H : CplxConfig r1 r2 u v)
include H

lemma CplxConfig.lt_of_ne (hAB : plungeA r2 u v ≠ plungeB r1 u v) : r1 < r2 :=
  lt_of_le_of_ne H.h12 (by rintro rfl; exact hAB rfl)

lemma CplxConfig.upsilon_pos {E : ℝ} (hE : 0 < 1 - E ^ 2) :
    0 < plungeUpsilonRComplex E r1 r2 u v := by
  rw [H.upsilon_eq]
  have := ellipk_pos H.mC_lt
  have := H.A_pos
  have := H.B_pos
  positivity

/-- `rC` over the common denominator of the code. -/
lemma CplxConfig.rC_eq (w : ℝ) :
    let A := plungeA r2 u v
    let B := plungeB r1 u v
    rC r1 r2 u v (cos w) = ((A - B) * (A * r1 - B * r2) * sin w ^ 2 + 2 * A * B * (r1 + r2)
        - 2 * A * B * (r2 - r1) * cos w) / (4 * A * B + (A - B) ^ 2 * sin w ^ 2) := by
  intro A B
  have h1 := H.D_pos (c := cos w) (neg_one_le_cos w) (cos_le_one w)
  have h2 := H.D_pos (c := -cos w) (by linarith [cos_le_one w]) (by linarith [neg_one_le_cos w])
  unfold rC
  rw [Real.sin_sq]
  change 0 < A * (1 + cos w) + B * (1 - cos w) at h1
  change 0 < A * (1 + -cos w) + B * (1 - -cos w) at h2
  change (A * r1 * (1 + cos w) + B * r2 * (1 - cos w)) / (A * (1 + cos w) + B * (1 - cos w)) = _
  generalize cos w = c at *
  have h3 : 4 * A * B + (A - B) ^ 2 * (1 - c ^ 2)
      = (A * (1 + c) + B * (1 - c)) * (A * (1 + -c) + B * (1 - -c)) := by ring
  rw [h3, div_eq_div_iff h1.ne' (mul_pos h1 h2).ne']
  ring

/-- `d I_r / dλ = r` -/
lemma CplxConfig.hasDerivAt_Ir {a E : ℝ} (hE : 0 < 1 - E ^ 2)
    (hAB : plungeA r2 u v ≠ plungeB r1 u v) (q0 lam : ℝ) :
    let U := plungeUpsilonRComplex E r1 r2 u v
    HasDerivAt (fun l => (plungingRadialIntegralsCore a E r1 r2 u v U).Ir (U * l + q0))
      (rC r1 r2 u v (cos (amC (mC r1 r2 u v) (U * lam + q0)))) lam := by
  intro U
  have hm := H.mC_lt
  have hA := H.A_pos
  have hB := H.B_pos
  have hU : U = π * √(plungeA r2 u v * plungeB r1 u v * (1 - E ^ 2))
    / (2 * ellipk (mC r1 r2 u v)) := H.upsilon_eq E
  have hUpos : 0 < U := H.upsilon_pos hE
  have hn : -1 / (4 * plungeA r2 u v * plungeB r1 u v / (plungeA r2 u v - plungeB r1 u v) ^ 2) < 1 := by
    have : -1 / (4 * plungeA r2 u v * plungeB r1 u v / (plungeA r2 u v - plungeB r1 u v) ^ 2) ≤ 0 :=
      div_nonpos_of_nonpos_of_nonneg (by norm_num) (by positivity)
    linarith
  have hfun : (fun l => (plungingRadialIntegralsCore a E r1 r2 u v U).Ir (U * l + q0)) = fun l =>
      (plungeA r2 u v * r1 - plungeB r1 u v * r2) / (plungeA r2 u v - plungeB r1 u v)
        * ((U * l + q0) / U)
      - 1 / √(1 - E ^ 2) * arctan ((r2 - r1) * sin (jacobiAm (2 * ellipk (mC r1 r2 u v)
            * (U * l + q0) / π) (mC r1 r2 u v))
          / (2 * √(plungeA r2 u v * plungeB r1 u v) * √(1 - mC r1 r2 u v
            * sin (jacobiAm (2 * ellipk (mC r1 r2 u v) * (U * l + q0) / π) (mC r1 r2 u v)) ^ 2)))
      + (plungeA r2 u v + plungeB r1 u v) * (r2 - r1) / (2 * (plungeA r2 u v - plungeB r1 u v)
          * √(plungeA r2 u v * plungeB r1 u v * (1 - E ^ 2)))
        * Spec.Pi (-1 / (4 * plungeA r2 u v * plungeB r1 u v
            / (plungeA r2 u v - plungeB r1 u v) ^ 2))
          (jacobiAm (2 * ellipk (mC r1 r2 u v) * (U * l + q0) / π) (mC r1 r2 u v))
          (mC r1 r2 u v) := by
    funext l
    simp only [plungingRadialIntegralsCore, H.sq_k, ellipj, ellippiincK_eq hn hm]
  rw [hfun]
  have hq := hasDerivAt_amC_arg (q0 := q0) (lam := lam) hm hU
  have d1 : HasDerivAt (fun l => (U * l + q0) / U) 1 lam := by
    refine ((((hasDerivAt_id' lam).const_mul U).add_const q0).div_const U).congr_deriv ?_
    field_simp
  have d2 := (H.hasDerivAt_arctan _).comp lam hq
  have d3 := (hasDerivAt_Pi_am hm hn _).comp lam hq
  have := ((d1.const_mul ((plungeA r2 u v * r1 - plungeB r1 u v * r2)
      / (plungeA r2 u v - plungeB r1 u v))).sub (d2.const_mul (1 / √(1 - E ^ 2)))).add
    (d3.const_mul ((plungeA r2 u v + plungeB r1 u v) * (r2 - r1)
      / (2 * (plungeA r2 u v - plungeB r1 u v) * √(plungeA r2 u v * plungeB r1 u v * (1 - E ^ 2)))))
  refine this.congr_deriv ?_
  rw [H.rC_eq]
  change _ * 1 - 1 / √(1 - E ^ 2) * (2 * √(plungeA r2 u v * plungeB r1 u v) * (r2 - r1)
      * cos (amC (mC r1 r2 u v) (U * lam + q0))
      / (4 * plungeA r2 u v * plungeB r1 u v + (plungeA r2 u v - plungeB r1 u v) ^ 2
        * sin (amC (mC r1 r2 u v) (U * lam + q0)) ^ 2)
      * √(plungeA r2 u v * plungeB r1 u v * (1 - E ^ 2)))
    + _ * (1 / (1 - -1 / (4 * plungeA r2 u v * plungeB r1 u v
            / (plungeA r2 u v - plungeB r1 u v) ^ 2)
        * sin (amC (mC r1 r2 u v) (U * lam + q0)) ^ 2)
      * √(plungeA r2 u v * plungeB r1 u v * (1 - E ^ 2))) = _
  generalize amC (mC r1 r2 u v) (U * lam + q0) = w
  have hw : √(plungeA r2 u v * plungeB r1 u v * (1 - E ^ 2))
      = √(plungeA r2 u v * plungeB r1 u v) * √(1 - E ^ 2) := Real.sqrt_mul (by positivity) _
  have hg : 0 < √(plungeA r2 u v * plungeB r1 u v) := Real.sqrt_pos.mpr (by positivity)
  have hg2 : √(plungeA r2 u v * plungeB r1 u v) ^ 2 = plungeA r2 u v * plungeB r1 u v :=
    Real.sq_sqrt (by positivity)
  have he : 0 < √(1 - E ^ 2) := Real.sqrt_pos.mpr hE
  rw [hw]
  generalize √(plungeA r2 u v * plungeB r1 u v) = g at *
  generalize √(1 - E ^ 2) = ε at *
  generalize plungeA r2 u v = A at *
  generalize plungeB r1 u v = B at *
  have hAB' : A - B ≠ 0 := sub_ne_zero.mpr hAB
  obtain ⟨P, hP⟩ : ∃ P, P = 4 * A * B + (A - B) ^ 2 * sin w ^ 2 := ⟨_, rfl⟩
  have hPpos : 0 < P := by rw [hP]; positivity
  have e1 : 1 - -1 / (4 * A * B / (A - B) ^ 2) * sin w ^ 2 = P / (4 * A * B) := by
    rw [hP]; field_simp; ring
  rw [e1, ← hP]
  have e2 : ((A * r1 - B * r2) / (A - B) * 1 - 1 / ε * (2 * g * (r2 - r1) * cos w / P * (g * ε))
      + (A + B) * (r2 - r1) / (2 * (A - B) * (g * ε)) * (1 / (P / (4 * A * B)) * (g * ε)))
      = (A * r1 - B * r2) / (A - B) - 2 * g ^ 2 * (r2 - r1) * cos w / P
        + 2 * A * B * (A + B) * (r2 - r1) / ((A - B) * P) := by
    field_simp; ring
  rw [e2, hg2, eq_div_iff hPpos.ne']
  have e3 : ((A * r1 - B * r2) / (A - B) - 2 * (A * B) * (r2 - r1) * cos w / P
        + 2 * A * B * (A + B) * (r2 - r1) / ((A - B) * P)) * P
      = (A * r1 - B * r2) / (A - B) * P - 2 * (A * B) * (r2 - r1) * cos w
        + 2 * A * B * (A + B) * (r2 - r1) / (A - B) := by
    field_simp
  rw [e3, hP]
  field_simp
  ring

end

set_option maxRecDepth 100000 in
lemma ir2_poly {A B r1 r2 m s c P : ℝ} (hP : P = 4 * A * B + (A - B) ^ 2 * s ^ 2)
    (hsc : s ^ 2 + c ^ 2 = 1)
    (hmm : m * (4 * A * B) = (r2 - r1) ^ 2 - (A - B) ^ 2) :
    (A * r1 ^ 2 - B * r2 ^ 2) * P ^ 2 + (A - B) * (A * B) * (1 - m * s ^ 2) * P ^ 2
      - (A + B) * (A ^ 2 + 2 * r1 ^ 2 - B ^ 2 - 2 * r2 ^ 2) * (A * B) * P
      - A * B * (A - B) ^ 2 * (((A - B) * s ^ 2 * (1 - m * s ^ 2)
          + (A + B - (A - B) * c) * (c * (1 - m * s ^ 2) - m * s ^ 2 * c)) * P
        - (A + B - (A - B) * c) * 2 * s ^ 2 * c * (1 - m * s ^ 2) * (A - B) ^ 2)
      + (A - B) * (A ^ 2 + 2 * r1 ^ 2 - B ^ 2 - 2 * r2 ^ 2) * (A * B) * c * P
    = (A - B) * ((A - B) * (A * r1 - B * r2) * s ^ 2 + 2 * A * B * (r1 + r2)
        - 2 * A * B * (r2 - r1) * c) ^ 2 := by
  have hs : s ^ 2 = 1 - c ^ 2 := by linarith
  rw [hs] at hP ⊢
  subst hP
  linear_combination ((A - B) * (-(1 - c ^ 2)) * (4 * A * B + (A - B) ^ 2 * (1 - c ^ 2)) ^ 2 / 4
    - (A - B) ^ 2 / 4 * ((-(A - B) * (1 - c ^ 2) ^ 2 - (A + B - (A - B) * c) * 2 * c * (1 - c ^ 2))
       * (4 * A * B + (A - B) ^ 2 * (1 - c ^ 2))
       + (A + B - (A - B) * c) * 2 * (1 - c ^ 2) ^ 2 * c * (A - B) ^ 2)) * hmm

lemma ir2_algebra {A B r1 r2 m s c g ε dn : ℝ} (hA : 0 < A) (hB : 0 < B) (hAB' : A - B ≠ 0)
    (hg : 0 < g) (he : 0 < ε) (hd : 0 < r2 - r1)
    (hg2 : g ^ 2 = A * B) (hd2 : dn ^ 2 = 1 - m * s ^ 2) (hsc : s ^ 2 + c ^ 2 = 1)
    (hmm : m * (4 * A * B) = (r2 - r1) ^ 2 - (A - B) ^ 2) :
    (A * r1 ^ 2 - B * r2 ^ 2) / (A - B) * 1 + g / ε * ((1 - m * s ^ 2) * (g * ε)) -
          (A + B) * (A ^ 2 + 2 * r1 ^ 2 - B ^ 2 - 2 * r2 ^ 2) / (4 * (A - B) * (g * ε)) *
            (1 / (1 - -1 / (4 * A * B / (A - B) ^ 2) * s ^ 2) * (g * ε)) -
        g / ((A - B) * ε) *
          ((((-((A - B) * (-s * dn)) * s + (A + B - (A - B) * c) * (c * dn)) * dn +
                    (A + B - (A - B) * c) * s * (-m * s * c)) *
                  (4 * A * B / (A - B) ^ 2 + s ^ 2) -
                (A + B - (A - B) * c) * s * dn * (((2:ℕ):ℝ) * s ^ (2 - 1) * (c * dn))) /
              (4 * A * B / (A - B) ^ 2 + s ^ 2) ^ 2 *
            (g * ε)) +
      (A ^ 2 + 2 * r1 ^ 2 - B ^ 2 - 2 * r2 ^ 2) / (4 * (r2 - r1) * ε) *
        (2 * (2 * g * (r2 - r1) * c / (4 * A * B + (A - B) ^ 2 * s ^ 2) * (g * ε))) =
    (((A - B) * (A * r1 - B * r2) * s ^ 2 + 2 * A * B * (r1 + r2) - 2 * A * B * (r2 - r1) * c) /
        (4 * A * B + (A - B) ^ 2 * s ^ 2)) ^ 2 := by
  obtain ⟨P, hP⟩ : ∃ P, P = 4 * A * B + (A - B) ^ 2 * s ^ 2 := ⟨_, rfl⟩
  have hPpos : 0 < P := by rw [hP]; positivity
  have hpoly := ir2_poly hP hsc hmm
  have e1 : 1 - -1 / (4 * A * B / (A - B) ^ 2) * s ^ 2 = P / (4 * A * B) := by
    rw [hP]; field_simp; ring
  have e2 : 4 * A * B / (A - B) ^ 2 + s ^ 2 = P / (A - B) ^ 2 := by
    rw [hP]; field_simp
  rw [e1, e2, ← hP]
  have e3 : ((-((A - B) * (-s * dn)) * s + (A + B - (A - B) * c) * (c * dn)) * dn +
                    (A + B - (A - B) * c) * s * (-m * s * c))
      = (A - B) * s ^ 2 * (1 - m * s ^ 2)
          + (A + B - (A - B) * c) * (c * (1 - m * s ^ 2) - m * s ^ 2 * c) := by
    linear_combination ((A - B) * s ^ 2 + (A + B - (A - B) * c) * c) * hd2
  have e4 : (A + B - (A - B) * c) * s * dn * (((2:ℕ):ℝ) * s ^ (2 - 1) * (c * dn))
      = (A + B - (A - B) * c) * 2 * s ^ 2 * c * (1 - m * s ^ 2) := by
    norm_num
    linear_combination (A + B - (A - B) * c) * 2 * s ^ 2 * c * hd2
  rw [e3, e4]
  generalize (A - B) * s ^ 2 * (1 - m * s ^ 2)
          + (A + B - (A - B) * c) * (c * (1 - m * s ^ 2) - m * s ^ 2 * c) = N1 at *
  generalize (A + B - (A - B) * c) * 2 * s ^ 2 * c * (1 - m * s ^ 2) = N2 at *
  generalize (A - B) * (A * r1 - B * r2) * s ^ 2 + 2 * A * B * (r1 + r2) - 2 * A * B * (r2 - r1) * c
    = N at *
  generalize A ^ 2 + 2 * r1 ^ 2 - B ^ 2 - 2 * r2 ^ 2 = G at *
  generalize 1 - m * s ^ 2 = D2 at *
  generalize A * r1 ^ 2 - B * r2 ^ 2 = J at *
  have hne : r2 - r1 ≠ 0 := hd.ne'
  generalize r2 - r1 = d at *
  generalize A - B = X at *
  have t1 : g / ε * (D2 * (g * ε)) = A * B * D2 := by rw [← hg2]; field_simp
  have t2 : (A + B) * G / (4 * X * (g * ε)) * (1 / (P / (4 * A * B)) * (g * ε))
      = (A + B) * G * (A * B) / (X * P) := by field_simp
  have t3 : g / (X * ε) * ((N1 * (P / X ^ 2) - N2) / (P / X ^ 2) ^ 2 * (g * ε))
      = A * B * X ^ 2 * (N1 * P - N2 * X ^ 2) / (X * P ^ 2) := by rw [← hg2]; field_simp
  have t4 : G / (4 * d * ε) * (2 * (2 * g * d * c / P * (g * ε))) = G * (A * B) * c / P := by
    rw [← hg2]; field_simp; norm_num
  rw [t1, t2, t3, t4, div_pow, eq_div_iff (pow_ne_zero 2 hPpos.ne')]
  apply mul_right_cancel₀ hAB'
  have t5 : (J / X * 1 + A * B * D2 - (A + B) * G * (A * B) / (X * P)
      - A * B * X ^ 2 * (N1 * P - N2 * X ^ 2) / (X * P ^ 2) + G * (A * B) * c / P) * P ^ 2 * X
      = J * P ^ 2 + X * (A * B) * D2 * P ^ 2 - (A + B) * G * (A * B) * P
        - A * B * X ^ 2 * (N1 * P - N2 * X ^ 2) + X * G * (A * B) * c * P := by
    field_simp
  rw [t5]
  linear_combination hpoly

section
variable {r1 r2 u v : ℝ} (H : CplxConfig r1 r2 u v)
include H

/-- the `arctan2` term of `I_r²` is twice the arctangent of `I_r` -/
lemma CplxConfig.arctan2_eq (hAB : plungeA r2 u v ≠ plungeB r1 u v) (w : ℝ) :
    let A := plungeA r2 u v
    let B := plungeB r1 u v
    let m := mC r1 r2 u v
    let f := 4 * A * B / (A - B) ^ 2
    arctan2 (2 * sin w * √(1 - m * sin w ^ 2) * √(f * (1 + f * m)))
        (f - (1 + 2 * f * m) * sin w ^ 2)
      = 2 * arctan ((r2 - r1) * sin w / (2 * √(A * B) * √(1 - m * sin w ^ 2))) := by
  intro A B m f
  have hA : 0 < A := H.A_pos
  have hB : 0 < B := H.B_pos
  have hm : m < 1 := H.mC_lt
  have hAB' : A - B ≠ 0 := sub_ne_zero.mpr hAB
  have hd : 0 < r2 - r1 := by linarith [H.lt_of_ne hAB]
  have hmm : m * (4 * A * B) = (r2 - r1) ^ 2 - (A - B) ^ 2 := H.mC_mul
  have hf : 0 < f := by positivity
  have hfm : f * m * (A - B) ^ 2 = (r2 - r1) ^ 2 - (A - B) ^ 2 := by
    rw [← hmm]; simp only [f]; field_simp
  have hg : 0 < √(A * B) := Real.sqrt_pos.mpr (mul_pos hA hB)
  have hg2 : √(A * B) ^ 2 = A * B := Real.sq_sqrt (mul_pos hA hB).le
  have hsq : √(f * (1 + f * m)) = 2 * √(A * B) * (r2 - r1) / (A - B) ^ 2 := by
    have : f * (1 + f * m) = (2 * √(A * B) * (r2 - r1) / (A - B) ^ 2) ^ 2 := by
      rw [div_pow, mul_pow, mul_pow, hg2]
      have h1 : 1 + f * m = (r2 - r1) ^ 2 / (A - B) ^ 2 := by
        rw [eq_div_iff (pow_ne_zero 2 hAB')]; linarith
      rw [h1]; simp only [f]; field_simp; norm_num
    rw [this]; exact Real.sqrt_sq (by positivity)
  have hdn : 0 < √(1 - m * sin w ^ 2) := Real.sqrt_pos.mpr (one_sub_mul_sin_sq_pos hm w)
  have hd2 : √(1 - m * sin w ^ 2) ^ 2 = 1 - m * sin w ^ 2 :=
    Real.sq_sqrt (one_sub_mul_sin_sq_pos hm w).le
  rw [hsq]
  obtain ⟨t, ht⟩ : ∃ t, t = (r2 - r1) * sin w / (2 * √(A * B) * √(1 - m * sin w ^ 2)) := ⟨_, rfl⟩
  rw [← ht]
  have htm : 2 * √(A * B) * √(1 - m * sin w ^ 2) * t = (r2 - r1) * sin w := by
    rw [ht]; field_simp
  generalize √(1 - m * sin w ^ 2) = dn at *
  generalize sin w = s at *
  generalize √(A * B) = g at *
  have ht2 : 4 * A * B * dn ^ 2 * t ^ 2 = (r2 - r1) ^ 2 * s ^ 2 := by
    rw [← mul_pow, ← htm, mul_pow, mul_pow, mul_pow, hg2]; ring
  have ht3 : 4 * A * B * dn ^ 2 * (1 + t ^ 2) = 4 * A * B + (A - B) ^ 2 * s ^ 2 := by
    linear_combination ht2 + 4 * A * B * hd2 - s ^ 2 * hmm
  have hfs : f * (A - B) ^ 2 = 4 * A * B := by simp only [f]; field_simp
  have hft : f * dn ^ 2 * (1 + t ^ 2) = f + s ^ 2 := by
    apply mul_right_cancel₀ (pow_ne_zero 2 hAB')
    linear_combination ht3 + (dn ^ 2 * (1 + t ^ 2) - 1) * hfs
  have h1t : ∀ X Y : ℝ, X * (1 + t ^ 2) * (Y / (1 + t ^ 2)) = X * Y := by
    intro X Y; have : (1 + t ^ 2) ≠ 0 := by positivity
    field_simp
  refine arctan2_eq_two_arctan (ρ := f + s ^ 2) (by positivity) ?_ ?_
  · rw [← hft, h1t]
    have e : f * dn ^ 2 * t ^ 2 * (A - B) ^ 2 = (r2 - r1) ^ 2 * s ^ 2 := by
      linear_combination ht2 + dn ^ 2 * t ^ 2 * hfs
    apply mul_right_cancel₀ (pow_ne_zero 2 hAB')
    linear_combination (-s ^ 2) * hfm + e - f * (A - B) ^ 2 * hd2
  · rw [← hft, h1t]
    apply mul_right_cancel₀ (pow_ne_zero 2 hAB')
    have : 2 * s * dn * (2 * g * (r2 - r1) / (A - B) ^ 2) * (A - B) ^ 2
        = 4 * g * dn * ((r2 - r1) * s) := by field_simp; ring
    rw [this, ← htm]
    linear_combination 8 * dn ^ 2 * t * hg2 - 2 * dn ^ 2 * t * hfs

/-- `d I_r² / dλ = r²` -/
lemma CplxConfig.hasDerivAt_Ir2 {a E : ℝ} (hE : 0 < 1 - E ^ 2)
    (hAB : plungeA r2 u v ≠ plungeB r1 u v) (q0 lam : ℝ) :
    let U := plungeUpsilonRComplex E r1 r2 u v
    HasDerivAt (fun l => (plungingRadialIntegralsCore a E r1 r2 u v U).Ir2 (U * l + q0))
      (rC r1 r2 u v (cos (amC (mC r1 r2 u v) (U * lam + q0))) ^ 2) lam := by
  intro U
  have hm := H.mC_lt
  have hA := H.A_pos
  have hB := H.B_pos
  have hU : U = π * √(plungeA r2 u v * plungeB r1 u v * (1 - E ^ 2))
    / (2 * ellipk (mC r1 r2 u v)) := H.upsilon_eq E
  have hUpos : 0 < U := H.upsilon_pos hE
  have hmm := H.mC_mul
  have hd : 0 < r2 - r1 := by linarith [H.lt_of_ne hAB]
  have hrC := H.rC_eq
  have harc := H.arctan2_eq hAB
  have dar := H.hasDerivAt_arctan
  dsimp only at hrC harc dar
  have hsqk := H.sq_k
  have hn : -1 / (4 * plungeA r2 u v * plungeB r1 u v / (plungeA r2 u v - plungeB r1 u v) ^ 2) < 1 := by
    have : -1 / (4 * plungeA r2 u v * plungeB r1 u v / (plungeA r2 u v - plungeB r1 u v) ^ 2) ≤ 0 :=
      div_nonpos_of_nonpos_of_nonneg (by norm_num) (by positivity)
    linarith
  have hq := hasDerivAt_amC_arg (q0 := q0) (lam := lam) hm hU
  have hw : √(plungeA r2 u v * plungeB r1 u v * (1 - E ^ 2))
      = √(plungeA r2 u v * plungeB r1 u v) * √(1 - E ^ 2) := Real.sqrt_mul (by positivity) _
  have hw' : √((1 - E ^ 2) * plungeA r2 u v * plungeB r1 u v)
      = √(plungeA r2 u v * plungeB r1 u v) * √(1 - E ^ 2) := by rw [← hw]; congr 1; ring
  have hg : 0 < √(plungeA r2 u v * plungeB r1 u v) := Real.sqrt_pos.mpr (by positivity)
  have hg2 : √(plungeA r2 u v * plungeB r1 u v) ^ 2 = plungeA r2 u v * plungeB r1 u v :=
    Real.sq_sqrt (by positivity)
  have he : 0 < √(1 - E ^ 2) := Real.sqrt_pos.mpr hE
  have hfun : (fun l => (plungingRadialIntegralsCore a E r1 r2 u v U).Ir2 (U * l + q0)) = fun l =>
      (plungeA r2 u v * r1 ^ 2 - plungeB r1 u v * r2 ^ 2) / (plungeA r2 u v - plungeB r1 u v)
        * ((U * l + q0) / U)
      + √(plungeA r2 u v * plungeB r1 u v) / √(1 - E ^ 2)
        * Spec.E (jacobiAm (2 * ellipk (mC r1 r2 u v) * (U * l + q0) / π) (mC r1 r2 u v))
          (mC r1 r2 u v)
      - (plungeA r2 u v + plungeB r1 u v) * (plungeA r2 u v ^ 2 + 2 * r1 ^ 2 - plungeB r1 u v ^ 2
          - 2 * r2 ^ 2) / (4 * (plungeA r2 u v - plungeB r1 u v)
            * (√(plungeA r2 u v * plungeB r1 u v) * √(1 - E ^ 2)))
        * Spec.Pi (-1 / (4 * plungeA r2 u v * plungeB r1 u v
            / (plungeA r2 u v - plungeB r1 u v) ^ 2))
          (jacobiAm (2 * ellipk (mC r1 r2 u v) * (U * l + q0) / π) (mC r1 r2 u v))
          (mC r1 r2 u v)
      - √(plungeA r2 u v * plungeB r1 u v) / ((plungeA r2 u v - plungeB r1 u v) * √(1 - E ^ 2))
        * ((plungeA r2 u v + plungeB r1 u v - (plungeA r2 u v - plungeB r1 u v)
            * cos (jacobiAm (2 * ellipk (mC r1 r2 u v) * (U * l + q0) / π) (mC r1 r2 u v)))
          * sin (jacobiAm (2 * ellipk (mC r1 r2 u v) * (U * l + q0) / π) (mC r1 r2 u v))
          * √(1 - mC r1 r2 u v
            * sin (jacobiAm (2 * ellipk (mC r1 r2 u v) * (U * l + q0) / π) (mC r1 r2 u v)) ^ 2)
          / (4 * plungeA r2 u v * plungeB r1 u v / (plungeA r2 u v - plungeB r1 u v) ^ 2
            + sin (jacobiAm (2 * ellipk (mC r1 r2 u v) * (U * l + q0) / π) (mC r1 r2 u v)) ^ 2))
      + (plungeA r2 u v ^ 2 + 2 * r1 ^ 2 - plungeB r1 u v ^ 2 - 2 * r2 ^ 2)
          / (4 * (r2 - r1) * √(1 - E ^ 2))
        * (2 * arctan ((r2 - r1) * sin (jacobiAm (2 * ellipk (mC r1 r2 u v)
            * (U * l + q0) / π) (mC r1 r2 u v))
          / (2 * √(plungeA r2 u v * plungeB r1 u v) * √(1 - mC r1 r2 u v
            * sin (jacobiAm (2 * ellipk (mC r1 r2 u v) * (U * l + q0) / π) (mC r1 r2 u v)) ^ 2)))) := by
    funext l
    simp only [plungingRadialIntegralsCore, hsqk, ellipj, ellippiincK_eq hn hm, hw', harc]
    rw [show ellipeinc = Spec.E from rfl]
    congr 2
    generalize jacobiAm (2 * ellipk (mC r1 r2 u v) * (U * l + q0) / π) (mC r1 r2 u v) = w
    rw [div_mul_div_comm]
    congr 1
    ring
  rw [hfun]
  rw [hw] at hq
  generalize mC r1 r2 u v = m at *
  generalize √(plungeA r2 u v * plungeB r1 u v) = g at *
  generalize √(1 - E ^ 2) = ε at *
  generalize plungeA r2 u v = A at *
  generalize plungeB r1 u v = B at *
  have hAB' : A - B ≠ 0 := sub_ne_zero.mpr hAB
  have d1 : HasDerivAt (fun l => (U * l + q0) / U) 1 lam := by
    refine ((((hasDerivAt_id' lam).const_mul U).add_const q0).div_const U).congr_deriv ?_
    field_simp
  have d2 := (dar _).comp lam hq
  have d3 := (hasDerivAt_Pi_am hm hn _).comp lam hq
  have d4 := (hasDerivAt_E_am hm _).comp lam hq
  have hsn := hasDerivAt_sn hm (2 * ellipk m * (U * lam + q0) / π)
  have hcn := hasDerivAt_cn hm (2 * ellipk m * (U * lam + q0) / π)
  have hdn := hasDerivAt_dn hm (2 * ellipk m * (U * lam + q0) / π)
  have d5 := ((((((hcn.const_mul (A - B)).const_sub (A + B)).mul hsn).mul hdn).div
    ((hsn.pow 2).const_add (4 * A * B / (A - B) ^ 2)) (by
      have : 0 < 4 * A * B / (A - B) ^ 2 := by positivity
      simp only [Pi.pow_apply]; positivity))).comp lam hq
  have := (((((d1.const_mul ((A * r1 ^ 2 - B * r2 ^ 2) / (A - B))).add
      (d4.const_mul (g / ε))).sub (d3.const_mul ((A + B) * (A ^ 2 + 2 * r1 ^ 2 - B ^ 2 - 2 * r2 ^ 2)
        / (4 * (A - B) * (g * ε))))).sub (d5.const_mul (g / ((A - B) * ε)))).add
      ((d2.const_mul 2).const_mul ((A ^ 2 + 2 * r1 ^ 2 - B ^ 2 - 2 * r2 ^ 2) / (4 * (r2 - r1) * ε))))
  refine this.congr_deriv ?_
  rw [hrC]
  simp only [Pi.mul_apply, Pi.pow_apply]
  have hdp := dn_pos hm (2 * ellipk m * (U * lam + q0) / π)
  have hd2 : √(1 - m * sin (jacobiAm (2 * ellipk m * (U * lam + q0) / π) m) ^ 2) ^ 2
    = 1 - m * sin (jacobiAm (2 * ellipk m * (U * lam + q0) / π) m) ^ 2 :=
    Real.sq_sqrt (one_sub_mul_sin_sq_pos hm _).le
  unfold amC
  have hsc := Real.sin_sq_add_cos_sq (jacobiAm (2 * ellipk m * (U * lam + q0) / π) m)
  generalize jacobiAm (2 * ellipk m * (U * lam + q0) / π) m = w at *
  generalize √(1 - m * sin w ^ 2) = dn at *
  clear d1 d2 d3 d4 d5 this hsn hcn hdn harc dar hrC hfun
  generalize sin w = s at *
  generalize cos w = c at *
  exact ir2_algebra hA hB hAB' hg he hd hg2 hd2 hsc hmm

end

/-! ### the polar motion -/

/-- A plunge of a spinning black hole, `E² < 1`, that does not reach the axis. -/
structure PlungePolar (a E L Q : ℝ) : Prop where
  ha : a ≠ 0
  hE : E ^ 2 < 1
  hQ : 0 ≤ Q
  axis : L ≠ 0 ∨ Q < a ^ 2 * (1 - E ^ 2)

/-- smaller root of the polar potential -/
noncomputable def plungeZm (a E L Q : ℝ) : ℝ := plungeZ1 a E L Q ^ 2

/-- larger root of the polar potential -/
noncomputable def plungeZp (a E L Q : ℝ) : ℝ := plungeZ2 a E L Q ^ 2 / (a ^ 2 * (1 - E ^ 2))

section
variable {a E L Q : ℝ} (H : PlungePolar a E L Q)
include H

lemma PlungePolar.c_pos : 0 < a ^ 2 * (1 - E ^ 2) := by
  have h1 := H.ha
  have h2 := H.hE
  have : 0 < 1 - E ^ 2 := by linarith
  positivity

/-- Facts about the two roots as computed by the code. -/
lemma PlungePolar.roots : 0 ≤ plungeZm a E L Q ∧ plungeZm a E L Q < 1 ∧ 1 ≤ plungeZp a E L Q ∧
    ∀ z, Spec.Zpol a E L Q z
      = a ^ 2 * (1 - E ^ 2) * (z - plungeZm a E L Q) * (z - plungeZp a E L Q) := by
  have hc := H.c_pos
  unfold plungeZm plungeZp plungeZ1 plungeZ2 Spec.Zpol
  obtain ⟨c, hcd⟩ : ∃ c, c = a ^ 2 * (1 - E ^ 2) := ⟨_, rfl⟩
  have hax := H.axis
  have hQ := H.hQ
  rw [← hcd] at hc hax ⊢
  have hdisc : 0 ≤ (1 + (L ^ 2 + Q) / c) ^ 2 - 4 * Q / c := by
    have : (1 + (L ^ 2 + Q) / c) ^ 2 - 4 * Q / c
        = (1 - (L ^ 2 + Q) / c) ^ 2 + 4 * L ^ 2 / c := by field_simp; ring
    rw [this]; positivity
  obtain ⟨D, hD⟩ : ∃ D, D = √((1 + (L ^ 2 + Q) / c) ^ 2 - 4 * Q / c) := ⟨_, rfl⟩
  have hD0 : 0 ≤ D := by rw [hD]; exact Real.sqrt_nonneg _
  have hD2 : D ^ 2 = (1 + (L ^ 2 + Q) / c) ^ 2 - 4 * Q / c := by rw [hD]; exact Real.sq_sqrt hdisc
  rw [← hD]
  have hS0 : 0 ≤ 1 + (L ^ 2 + Q) / c := by positivity
  have hDle : D ≤ 1 + (L ^ 2 + Q) / c := by
    apply abs_le_of_sq_le_sq' _ hS0 |>.2
    rw [hD2]
    have : 0 ≤ 4 * Q / c := by positivity
    linarith
  rw [Real.sq_sqrt (by linarith), Real.sq_sqrt (by positivity)]
  have e : c / 2 * (1 + (L ^ 2 + Q) / c + D) / c = 1 / 2 * (1 + (L ^ 2 + Q) / c + D) := by
    field_simp
  rw [e]
  have hD2' : D ^ 2 = (1 - (L ^ 2 + Q) / c) ^ 2 + 4 * L ^ 2 / c := by
    rw [hD2]; field_simp; ring
  have hL0 : 0 ≤ 4 * L ^ 2 / c := by positivity
  obtain ⟨S, hS⟩ : ∃ S, S = (L ^ 2 + Q) / c := ⟨_, rfl⟩
  rw [← hS] at hD2 hD2' hS0 hDle ⊢
  refine ⟨by linarith, ?_, ?_, ?_⟩
  · -- zm < 1
    have : S - 1 < D := by
      rcases hax with h | h
      · have : 0 < 4 * L ^ 2 / c := by positivity
        exact abs_lt_of_sq_lt_sq' (by nlinarith) hD0 |>.2
      · by_cases hL : L = 0
        · have : S < 1 := by rw [hS, hL, div_lt_one hc]; nlinarith
          linarith
        · have : 0 < 4 * L ^ 2 / c := by positivity
          exact abs_lt_of_sq_lt_sq' (by nlinarith) hD0 |>.2
    linarith
  · have : 1 - S ≤ D := abs_le_of_sq_le_sq' (by nlinarith) hD0 |>.2
    linarith
  · intro z
    have h1 : c * S = L ^ 2 + Q := by rw [hS]; field_simp
    have h2 : c * (4 * Q / c) = 4 * Q := by field_simp
    linear_combination (1 / 4 * c) * hD2 - 1 / 4 * h2 + z * h1

omit H in
lemma plungeZ1_nonneg : 0 ≤ plungeZ1 a E L Q := Real.sqrt_nonneg _

lemma PlungePolar.z2_sq : plungeZ2 a E L Q ^ 2 = a ^ 2 * (1 - E ^ 2) * plungeZp a E L Q := by
  unfold plungeZp
  have := H.c_pos.ne'
  rw [mul_div_cancel₀ _ this]

lemma PlungePolar.z2_pos : 0 < plungeZ2 a E L Q := by
  have h1 := H.z2_sq
  have h2 := H.roots.2.2.1
  have h3 := H.c_pos
  have : plungeZ2 a E L Q ≠ 0 := by
    intro h
    rw [h] at h1
    have : 0 < a ^ 2 * (1 - E ^ 2) * plungeZp a E L Q := by positivity
    norm_num at h1
    rcases h1 with (h1 | h1) | h1
    · exact H.ha h1
    · have := H.hE; linarith
    · linarith
  exact lt_of_le_of_ne (Real.sqrt_nonneg _) this.symm

lemma PlungePolar.sq_k : plungeKTheta a E L Q ^ 2 = plungeZm a E L Q / plungeZp a E L Q := by
  have h := H.z2_sq
  have h1 := H.c_pos.ne'
  have h2 : plungeZp a E L Q ≠ 0 := by have := H.roots.2.2.1; positivity
  unfold plungeKTheta
  rw [div_pow, mul_pow, mul_pow, Real.sq_sqrt (by linarith [H.hE]), h]
  change a ^ 2 * (1 - E ^ 2) * plungeZm a E L Q / _ = _
  exact mul_div_mul_left _ _ h1

lemma PlungePolar.k_bounds : 0 ≤ plungeKTheta a E L Q ^ 2 ∧ plungeKTheta a E L Q ^ 2 < 1 := by
  refine ⟨by positivity, ?_⟩
  obtain ⟨h0, h1, h2, -⟩ := H.roots
  rw [H.sq_k, div_lt_one (by linarith)]
  linarith

lemma PlungePolar.upsilon_pos : 0 < plungeUpsilonThetaComplex a E L Q := by
  have := H.z2_pos
  have := ellipk_pos H.k_bounds.2
  have := Real.pi_pos
  unfold plungeUpsilonThetaComplex
  positivity

lemma PlungePolar.arg (q : ℝ) : plungeZ2 a E L Q * (q / plungeUpsilonThetaComplex a E L Q)
    = 2 * ellipk (plungeKTheta a E L Q ^ 2) * q / π := by
  have := H.z2_pos.ne'
  have := (ellipk_pos H.k_bounds.2).ne'
  have := Real.pi_ne_zero
  unfold plungeUpsilonThetaComplex
  field_simp

lemma PlungePolar.pos_eq (q : ℝ) :
    (plungingPolarSolutionsCore a E L Q (plungeUpsilonThetaComplex a E L Q)).pos q
      = arccos (√(plungeZm a E L Q) * sin (amC (plungeKTheta a E L Q ^ 2) q)) := by
  simp only [plungingPolarSolutionsCore, ellipj, H.arg, amC, plungeZm, Real.sqrt_sq plungeZ1_nonneg]

lemma PlungePolar.hasDerivAt_arg (q0 lam : ℝ) :
    HasDerivAt (fun l => 2 * ellipk (plungeKTheta a E L Q ^ 2)
      * (plungeUpsilonThetaComplex a E L Q * l + q0) / π) (plungeZ2 a E L Q) lam := by
  refine hasDerivAt_amC_arg H.k_bounds.2 ?_
  unfold plungeUpsilonThetaComplex
  have := (ellipk_pos H.k_bounds.2).ne'
  field_simp

omit H in
lemma sign_cos_amC {m : ℝ} (hm : m < 1) (q : ℝ) :
    Real.sign (cos (amC m q)) = Real.sign (cos q) := by
  have h := sign_neg_cn hm (q - π / 2)
  rw [show 2 / π * ellipk m * (q - π / 2 + π / 2) = 2 * ellipk m * q / π by ring,
    Real.sin_sub_pi_div_two] at h
  have h2 : ∀ x : ℝ, Real.sign (-x) = -Real.sign x := fun x => Real.sign_neg
  rw [h2, h2] at h
  exact neg_injective h

lemma PlungePolar.polar_equation (q0 lam : ℝ) :
    let U := plungeUpsilonThetaComplex a E L Q
    let θ := fun l => (plungingPolarSolutionsCore a E L Q U).pos (U * l + q0)
    0 ≤ Spec.Zpol a E L Q (cos (θ lam) ^ 2) ∧ 0 < sin (θ lam) ∧
    HasDerivAt θ (-Real.sign (cos (U * lam + q0)) * √(Spec.Zpol a E L Q (cos (θ lam) ^ 2))
      / sin (θ lam)) lam := by
  intro U θ
  obtain ⟨h0, h1, h2, hZ⟩ := H.roots
  have hm := H.k_bounds.2
  have hk := H.sq_k
  have hq := H.hasDerivAt_arg q0 lam
  have hz2 := H.z2_pos
  have hz2s := H.z2_sq
  have hθ : θ = fun l => arccos (√(plungeZm a E L Q)
      * sin (amC (plungeKTheta a E L Q ^ 2) (U * l + q0))) := by
    funext l; exact H.pos_eq _
  have hsg := sign_cos_amC hm (U * lam + q0)
  have hsn := (hasDerivAt_sn hm _).comp lam hq
  have hb := sqrt_sin_bound h0 h1 (amC (plungeKTheta a E L Q ^ 2) (U * lam + q0))
  have hd := (Real.hasDerivAt_arccos hb.1.ne' hb.2.ne).comp lam (hsn.const_mul √(plungeZm a E L Q))
  have hl : θ lam = arccos (√(plungeZm a E L Q)
      * sin (amC (plungeKTheta a E L Q ^ 2) (U * lam + q0))) := by rw [hθ]
  have hs : sin (θ lam) = √(1 - plungeZm a E L Q
      * sin (amC (plungeKTheta a E L Q ^ 2) (U * lam + q0)) ^ 2) := by
    rw [hl]; exact sin_polar h0 _
  have hspos : 0 < sin (θ lam) := by
    rw [hs]; exact Real.sqrt_pos.mpr (one_sub_mul_sin_sq_pos h1 _)
  have hZ' : Spec.Zpol a E L Q (cos (θ lam) ^ 2) = (√(plungeZm a E L Q) * plungeZ2 a E L Q
      * cos (amC (plungeKTheta a E L Q ^ 2) (U * lam + q0))
      * √(1 - plungeKTheta a E L Q ^ 2
        * sin (amC (plungeKTheta a E L Q ^ 2) (U * lam + q0)) ^ 2)) ^ 2 := by
    rw [hl, cos_sq_polar h0 h1, hZ, mul_pow, mul_pow, mul_pow, Real.sq_sqrt h0,
      Real.sq_sqrt (one_sub_mul_sin_sq_pos hm _).le, Real.cos_sq', hz2s, hk]
    have : plungeZp a E L Q ≠ 0 := by linarith
    field_simp
    ring
  refine ⟨by rw [hZ']; positivity, hspos, ?_⟩
  rw [hZ', Real.sqrt_sq_eq_abs, ← hsg]
  have hθ' : θ = arccos ∘ (fun x => √(plungeZm a E L Q)
      * ((fun u => sin (jacobiAm u (plungeKTheta a E L Q ^ 2))) ∘
      fun l => 2 * ellipk (plungeKTheta a E L Q ^ 2) * (U * l + q0) / π) x) := by rw [hθ]; rfl
  rw [← hθ'] at hd
  refine hd.congr_deriv ?_
  have hden : √(1 - (√(plungeZm a E L Q)
      * sin (amC (plungeKTheta a E L Q ^ 2) (U * lam + q0))) ^ 2) = sin (θ lam) := by
    rw [mul_pow, Real.sq_sqrt h0, hs]
  change -(1 / √(1 - (√(plungeZm a E L Q)
      * sin (amC (plungeKTheta a E L Q ^ 2) (U * lam + q0))) ^ 2))
    * (√(plungeZm a E L Q) * (cos (amC (plungeKTheta a E L Q ^ 2) (U * lam + q0))
      * √(1 - plungeKTheta a E L Q ^ 2 * sin (amC (plungeKTheta a E L Q ^ 2) (U * lam + q0)) ^ 2)
      * plungeZ2 a E L Q)) = _
  rw [hden]
  have hdn := Real.sqrt_nonneg (1 - plungeKTheta a E L Q ^ 2
    * sin (amC (plungeKTheta a E L Q ^ 2) (U * lam + q0)) ^ 2)
  generalize √(1 - plungeKTheta a E L Q ^ 2
    * sin (amC (plungeKTheta a E L Q ^ 2) (U * lam + q0)) ^ 2) = d at *
  have hsz := Real.sqrt_nonneg (plungeZm a E L Q)
  generalize √(plungeZm a E L Q) = z at *
  generalize cos (amC (plungeKTheta a E L Q ^ 2) (U * lam + q0)) = C at *
  generalize plungeZ2 a E L Q = W at *
  have hCC : Real.sign C * |C| = C := by
    rcases lt_trichotomy C 0 with h | h | h
    · rw [Real.sign_of_neg h, abs_of_neg h]; ring
    · rw [h]; simp
    · rw [Real.sign_of_pos h, abs_of_pos h]; ring
  rw [abs_mul, abs_mul, abs_mul, abs_of_nonneg hsz, abs_of_pos hz2, abs_of_nonneg hdn]
  rw [show -Real.sign C * (z * W * |C| * d) = -((Real.sign C * |C|) * (z * W * d)) by ring, hCC]
  ring

lemma PlungePolar.polar_dt (q0 lam : ℝ) :
    let U := plungeUpsilonThetaComplex a E L Q
    let P := plungingPolarSolutionsCore a E L Q U
    let θ := P.pos (U * lam + q0)
    HasDerivAt (fun l => P.dt (U * l + q0)) (-(a ^ 2 * E * sin θ ^ 2)) lam ∧
    HasDerivAt (fun l => P.dphi (U * l + q0)) (L / sin θ ^ 2) lam := by
  intro U P θ
  obtain ⟨h0, h1, h2, hZ⟩ := H.roots
  have hm := H.k_bounds.2
  have hk := H.sq_k
  have hq := H.hasDerivAt_arg q0 lam
  have hz2 := H.z2_pos
  have hz2s := H.z2_sq
  have hUpos : 0 < U := H.upsilon_pos
  have hE : 1 - E ^ 2 ≠ 0 := by linarith [H.hE]
  have hθ : θ = arccos (√(plungeZm a E L Q)
      * sin (amC (plungeKTheta a E L Q ^ 2) (U * lam + q0))) := H.pos_eq _
  have hs : sin θ ^ 2 = 1 - plungeZm a E L Q
      * sin (amC (plungeKTheta a E L Q ^ 2) (U * lam + q0)) ^ 2 := by
    rw [hθ, sin_polar h0]; exact Real.sq_sqrt (one_sub_mul_sin_sq_pos h1 _).le
  have d1 : HasDerivAt (fun l => (U * l + q0) / U) 1 lam := by
    refine ((((hasDerivAt_id' lam).const_mul U).add_const q0).div_const U).congr_deriv ?_
    field_simp
  constructor
  · have dE := (hasDerivAt_E_am hm _).comp lam hq
    have hfun : (fun l => P.dt (U * l + q0)) = fun l => E / (1 - E ^ 2)
        * ((plungeZ2 a E L Q ^ 2 - a ^ 2 * (1 - E ^ 2)) * ((U * l + q0) / U)
          - plungeZ2 a E L Q * Spec.E (jacobiAm (2 * ellipk (plungeKTheta a E L Q ^ 2)
            * (U * l + q0) / π) (plungeKTheta a E L Q ^ 2)) (plungeKTheta a E L Q ^ 2)) := by
      funext l
      simp only [P, plungingPolarSolutionsCore, ellipj, U, H.arg]
      rfl
    rw [hfun]
    refine (((d1.const_mul (plungeZ2 a E L Q ^ 2 - a ^ 2 * (1 - E ^ 2))).sub
      (dE.const_mul (plungeZ2 a E L Q))).const_mul (E / (1 - E ^ 2))).congr_deriv ?_
    change E / (1 - E ^ 2) * ((plungeZ2 a E L Q ^ 2 - a ^ 2 * (1 - E ^ 2)) * 1
      - plungeZ2 a E L Q * ((1 - plungeKTheta a E L Q ^ 2
        * sin (amC (plungeKTheta a E L Q ^ 2) (U * lam + q0)) ^ 2) * plungeZ2 a E L Q)) = _
    rw [hs]
    generalize sin (amC (plungeKTheta a E L Q ^ 2) (U * lam + q0)) ^ 2 = S
    have hkz : plungeKTheta a E L Q ^ 2 * plungeZ2 a E L Q ^ 2
        = a ^ 2 * (1 - E ^ 2) * plungeZm a E L Q := by
      rw [hk, hz2s]
      have : plungeZp a E L Q ≠ 0 := by linarith
      field_simp
    have : (plungeZ2 a E L Q ^ 2 - a ^ 2 * (1 - E ^ 2)) * 1
      - plungeZ2 a E L Q * ((1 - plungeKTheta a E L Q ^ 2 * S) * plungeZ2 a E L Q)
      = -(a ^ 2 * (1 - E ^ 2) * (1 - plungeZm a E L Q * S)) := by
      linear_combination S * hkz
    rw [this]
    field_simp
  · have dP := (hasDerivAt_Pi_am hm h1 _).comp lam hq
    have hfun : (fun l => P.dphi (U * l + q0)) = fun l => L / plungeZ2 a E L Q
        * Spec.Pi (plungeZm a E L Q) (jacobiAm (2 * ellipk (plungeKTheta a E L Q ^ 2)
            * (U * l + q0) / π) (plungeKTheta a E L Q ^ 2)) (plungeKTheta a E L Q ^ 2) := by
      funext l
      simp only [P, plungingPolarSolutionsCore, ellipj, U, H.arg]
      rw [← ellippiincK_eq h1 hm]
      rfl
    rw [hfun]
    refine (dP.const_mul (L / plungeZ2 a E L Q)).congr_deriv ?_
    change L / plungeZ2 a E L Q * (1 / (1 - plungeZm a E L Q
        * sin (amC (plungeKTheta a E L Q ^ 2) (U * lam + q0)) ^ 2) * plungeZ2 a E L Q) = _
    rw [hs]
    have := (one_sub_mul_sin_sq_pos h1 (amC (plungeKTheta a E L Q ^ 2) (U * lam + q0))).ne'
    field_simp

end

end KGP
