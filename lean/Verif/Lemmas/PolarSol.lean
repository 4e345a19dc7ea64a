import Verif.Lemmas.RadialSol
import Mathlib.Analysis.SpecialFunctions.Trigonometric.InverseDeriv
import Mathlib.Analysis.SpecialFunctions.Trigonometric.ArctanDeriv

/-!
# Calculus of the polar solution (stable.py:388-461)
-/

namespace KGP

open Classical Real

/-- The two numbers handed to `polar_solutions`: `zm ∈ [0,1)` is a root of the polar potential and,
for `a ≠ 0`, `zp` is the other one, written as `stable_polar_roots` computes it. -/
structure PolarConfig (a E L Q zm zp : ℝ) : Prop where
  z0 : 0 ≤ zm
  z1 : zm < 1
  hL : L ≠ 0
  hE : 0 < 1 - E ^ 2
  root : Spec.Zpol a E L Q zm = 0
  zp_eq : a ≠ 0 → zp = 1 + L ^ 2 / (a ^ 2 * (1 - E ^ 2) * (1 - zm))

/-- `k_theta²` -/
noncomputable def mT (a zm zp : ℝ) : ℝ := if a = 0 then 0 else zm / zp

/-- `dλ`-derivative of the argument of the polar elliptic functions -/
noncomputable def polarW (a E L zm : ℝ) : ℝ := |L| * √(e0zpOf a E L zm)

section
variable {a E L Q zm zp : ℝ} (H : PolarConfig a E L Q zm zp)
include H

lemma PolarConfig.zp_gt (ha : a ≠ 0) : 1 < zp := by
  rw [H.zp_eq ha]
  have h1 := H.z1
  have h2 := H.hE
  have h3 := H.hL
  have h4 : 0 < 1 - zm := by linarith
  have : 0 < L ^ 2 / (a ^ 2 * (1 - E ^ 2) * (1 - zm)) := by positivity
  linarith

lemma PolarConfig.mT_nonneg : 0 ≤ mT a zm zp := by
  unfold mT
  split_ifs with h
  · exact le_rfl
  · have := H.zp_gt h; exact div_nonneg H.z0 (by linarith)

lemma PolarConfig.mT_lt : mT a zm zp < 1 := by
  unfold mT
  split_ifs with h
  · exact one_pos
  · have := H.zp_gt h
    rw [div_lt_one (by linarith)]; linarith [H.z1]

lemma PolarConfig.sq_k : kThetaOf a zm zp ^ 2 = mT a zm zp := by
  have h := H.mT_nonneg
  unfold mT kThetaOf at *
  split_ifs at * with h0
  · norm_num
  · exact Real.sq_sqrt h

lemma PolarConfig.sq_k' (ha : a ≠ 0) : √(zm / zp) ^ 2 = mT a zm zp := by
  have := H.sq_k; rwa [kThetaOf, if_neg ha] at this

lemma PolarConfig.e0zp_pos : 0 < e0zpOf a E L zm := by
  unfold e0zpOf
  have h1 := H.z1
  have h2 := H.hE
  have h3 := H.hL
  have h4 : 0 < 1 - zm := by linarith
  positivity

lemma PolarConfig.W_pos : 0 < polarW a E L zm :=
  mul_pos (abs_pos.mpr H.hL) (Real.sqrt_pos.mpr H.e0zp_pos)

lemma PolarConfig.W_sq : polarW a E L zm ^ 2 * (1 - zm) = a ^ 2 * (1 - E ^ 2) * (1 - zm) + L ^ 2 := by
  unfold polarW
  rw [mul_pow, sq_abs, Real.sq_sqrt H.e0zp_pos.le, e0zpOf]
  have h1 : 1 - zm ≠ 0 := by linarith [H.z1]
  have := H.hL
  field_simp

lemma PolarConfig.W_sq_zp (ha : a ≠ 0) : polarW a E L zm ^ 2 = a ^ 2 * (1 - E ^ 2) * zp := by
  have h1 : 1 - zm ≠ 0 := by linarith [H.z1]
  have h2 := H.hE.ne'
  apply mul_right_cancel₀ h1
  rw [H.W_sq, H.zp_eq ha]
  field_simp

lemma PolarConfig.Z_factor (S : ℝ) :
    Spec.Zpol a E L Q (zm * S) = zm * polarW a E L zm ^ 2 * (1 - S) * (1 - mT a zm zp * S) := by
  have h1 : 1 - zm ≠ 0 := by linarith [H.z1]
  have hr := H.root
  have hW := H.W_sq
  by_cases ha : a = 0
  · subst ha
    unfold mT
    rw [if_pos rfl]
    apply mul_right_cancel₀ h1
    unfold Spec.Zpol at *
    linear_combination (-(zm * (1 - S))) * hW + (1 - zm * S) * hr
  · have hWz := H.W_sq_zp ha
    have hzp := (zero_lt_one.trans (H.zp_gt ha)).ne'
    unfold mT
    rw [if_neg ha]
    have : zm / zp * S = zm * S / zp := by ring
    have h3 : zm * polarW a E L zm ^ 2 * (1 - S) * (1 - zm / zp * S)
        = zm * (a ^ 2 * (1 - E ^ 2)) * (1 - S) * (zp - zm * S) := by
      rw [hWz]; field_simp
    rw [h3]
    rw [hWz] at hW
    apply mul_right_cancel₀ h1
    unfold Spec.Zpol at *
    linear_combination (-(zm * (1 - S))) * hW + (1 - zm * S) * hr

end

/-- The polar amplitude at phase `q`. -/
noncomputable def amT (m q : ℝ) : ℝ := jacobiAm (2 / π * ellipk m * (q + π / 2)) m

lemma amT_zero {m : ℝ} (hm : m < 1) : amT m 0 = π / 2 := by
  unfold amT
  rw [zero_add, show 2 / π * ellipk m * (π / 2) = ellipk m by
    have := Real.pi_ne_zero; field_simp, am_K hm]

lemma amT_add {m : ℝ} (hm : m < 1) (q : ℝ) : amT m (q + 2 * π) = amT m q + 2 * π := by
  unfold amT
  have h := am_add_int hm (2 / π * ellipk m * (q + π / 2)) 2
  push_cast at h
  rw [show 2 / π * ellipk m * (q + 2 * π + π / 2)
    = 2 / π * ellipk m * (q + π / 2) + 2 * 2 * ellipk m by
      have := Real.pi_ne_zero; field_simp; ring, h]

lemma amT_pi {m : ℝ} (hm : m < 1) : amT m π = 3 * π / 2 := by
  unfold amT
  have h := am_int_K hm 3
  push_cast at h
  rw [show 2 / π * ellipk m * (π + π / 2) = 3 * ellipk m by
      have := Real.pi_ne_zero; field_simp; ring, h]; ring

lemma polar_pos_eq {a E L Q zm zp : ℝ} (H : PolarConfig a E L Q zm zp) (q : ℝ) :
    (polarSolutionsCore a (E, L, Q) zm zp).pos q = arccos (√zm * sin (amT (mT a zm zp) q)) := by
  simp only [polarSolutionsCore, H.sq_k, ellipj, amT]

section
variable {zm : ℝ} (h0 : 0 ≤ zm) (h1 : zm < 1)
include h0 h1

lemma sqrt_sin_bound (w : ℝ) : -1 < √zm * sin w ∧ √zm * sin w < 1 := by
  have hs : √zm < 1 := by rw [show (1:ℝ) = √1 by simp]; exact Real.sqrt_lt_sqrt h0 h1
  have hs0 := Real.sqrt_nonneg zm
  constructor <;> nlinarith [Real.neg_one_le_sin w, Real.sin_le_one w]

lemma cos_polar (w : ℝ) : cos (arccos (√zm * sin w)) = √zm * sin w := by
  have := sqrt_sin_bound h0 h1 w
  exact Real.cos_arccos this.1.le this.2.le

lemma cos_sq_polar (w : ℝ) : cos (arccos (√zm * sin w)) ^ 2 = zm * sin w ^ 2 := by
  rw [cos_polar h0 h1, mul_pow, Real.sq_sqrt h0]

omit h1 in
lemma sin_polar (w : ℝ) : sin (arccos (√zm * sin w)) = √(1 - zm * sin w ^ 2) := by
  rw [Real.sin_arccos, mul_pow, Real.sq_sqrt h0]

omit h0 h1 in
lemma polar_mem (w : ℝ) : arccos (√zm) ≤ arccos (√zm * sin w)
    ∧ arccos (√zm * sin w) ≤ π - arccos (√zm) := by
  have hs0 := Real.sqrt_nonneg zm
  constructor
  · apply Real.arccos_le_arccos
    nlinarith [Real.sin_le_one w]
  · rw [← Real.arccos_neg]
    apply Real.arccos_le_arccos
    nlinarith [Real.neg_one_le_sin w]

end

/-- The polar equation, with the sign. -/
lemma polar_equation {a E L Q zm zp : ℝ} (H : PolarConfig a E L Q zm zp) (U : ℝ)
    (hU : U = π * polarW a E L zm / (2 * ellipk (mT a zm zp))) (q0 lam : ℝ) :
    let θ := fun lam => (polarSolutionsCore a (E, L, Q) zm zp).pos (U * lam + q0)
    0 ≤ Spec.Zpol a E L Q (cos (θ lam) ^ 2) ∧ 0 < sin (θ lam) ∧
    HasDerivAt θ (Real.sign (sin (U * lam + q0)) * √(Spec.Zpol a E L Q (cos (θ lam) ^ 2))
      / sin (θ lam)) lam ∧
    (sin (U * lam + q0) = 0 → Spec.Zpol a E L Q (cos (θ lam) ^ 2) = 0) := by
  intro θ
  have hm := H.mT_lt
  have hK := (ellipk_pos hm).ne'
  have hpi := Real.pi_ne_zero
  have hW := H.W_pos
  have hθ : θ = fun lam => arccos (√zm * sin (amT (mT a zm zp) (U * lam + q0))) := by
    funext l; exact polar_pos_eq H _
  have hq : HasDerivAt (fun l => 2 / π * ellipk (mT a zm zp) * (U * l + q0 + π / 2))
      (polarW a E L zm) lam := by
    have := ((((hasDerivAt_id' lam).const_mul U).add_const q0).add_const (π / 2)).const_mul
      (2 / π * ellipk (mT a zm zp))
    refine this.congr_deriv ?_
    rw [hU]; field_simp
  have hsn := (hasDerivAt_sn hm _).comp lam hq
  have hb := sqrt_sin_bound H.z0 H.z1 (amT (mT a zm zp) (U * lam + q0))
  have hd := (Real.hasDerivAt_arccos hb.1.ne' hb.2.ne).comp lam (hsn.const_mul √zm)
  have hsg := sign_neg_cn hm (U * lam + q0)
  have hl : θ lam = arccos (√zm * sin (amT (mT a zm zp) (U * lam + q0))) := by rw [hθ]
  have hc2 : cos (θ lam) ^ 2 = zm * sin (amT (mT a zm zp) (U * lam + q0)) ^ 2 := by
    rw [hl]; exact cos_sq_polar H.z0 H.z1 _
  have hs : sin (θ lam) = √(1 - zm * sin (amT (mT a zm zp) (U * lam + q0)) ^ 2) := by
    rw [hl]; exact sin_polar H.z0 _
  have hspos : 0 < sin (θ lam) := by
    rw [hs]; exact Real.sqrt_pos.mpr (one_sub_mul_sin_sq_pos H.z1 _)
  have hZ : Spec.Zpol a E L Q (cos (θ lam) ^ 2) = (√zm * polarW a E L zm
      * cos (amT (mT a zm zp) (U * lam + q0))
      * √(1 - mT a zm zp * sin (amT (mT a zm zp) (U * lam + q0)) ^ 2)) ^ 2 := by
    rw [hc2, H.Z_factor, mul_pow, mul_pow, mul_pow, Real.sq_sqrt H.z0,
      Real.sq_sqrt (one_sub_mul_sin_sq_pos hm _).le, Real.cos_sq']
  have hzero : sin (U * lam + q0) = 0 → Spec.Zpol a E L Q (cos (θ lam) ^ 2) = 0 := by
    intro h
    rw [h, Real.sign_zero, Real.sign_eq_zero_iff, neg_eq_zero] at hsg
    rw [hZ, amT, hsg]; ring
  refine ⟨by rw [hZ]; positivity, hspos, ?_, hzero⟩
  rw [hZ, Real.sqrt_sq_eq_abs]
  have hθ' : θ = arccos ∘ (fun x => √zm * ((fun u => sin (jacobiAm u (mT a zm zp))) ∘
      fun l => 2 / π * ellipk (mT a zm zp) * (U * l + q0 + π / 2)) x) := by rw [hθ]; rfl
  rw [← hθ'] at hd
  refine hd.congr_deriv ?_
  have hden : √(1 - (√zm * sin (amT (mT a zm zp) (U * lam + q0))) ^ 2) = sin (θ lam) := by
    rw [mul_pow, Real.sq_sqrt H.z0, hs]
  change -(1 / √(1 - (√zm * sin (amT (mT a zm zp) (U * lam + q0))) ^ 2))
    * (√zm * (cos (amT (mT a zm zp) (U * lam + q0))
      * √(1 - mT a zm zp * sin (amT (mT a zm zp) (U * lam + q0)) ^ 2) * polarW a E L zm)) = _
  rw [hden]
  change Real.sign (-cos (amT (mT a zm zp) (U * lam + q0))) = _ at hsg
  rw [← hsg]
  have hdn := Real.sqrt_nonneg (1 - mT a zm zp * sin (amT (mT a zm zp) (U * lam + q0)) ^ 2)
  generalize √(1 - mT a zm zp * sin (amT (mT a zm zp) (U * lam + q0)) ^ 2) = d at *
  have hsz := Real.sqrt_nonneg zm
  generalize √zm = z at *
  generalize cos (amT (mT a zm zp) (U * lam + q0)) = C at *
  generalize polarW a E L zm = W at *
  have hCC : Real.sign (-C) * |C| = -C := by
    rcases lt_trichotomy C 0 with h | h | h
    · rw [Real.sign_of_pos (by linarith), abs_of_neg h, one_mul]
    · rw [h]; simp
    · rw [Real.sign_of_neg (by linarith), abs_of_pos h]; ring
  rw [abs_mul, abs_mul, abs_mul, abs_of_nonneg hsz, abs_of_pos hW, abs_of_nonneg hdn]
  rw [show Real.sign (-C) * (z * W * |C| * d) = (Real.sign (-C) * |C|) * (z * W * d) by ring, hCC]
  ring

/-- derivative of the amplitude-composed integrals along the polar phase -/
lemma hasDerivAt_polar_u {m U W q0 lam : ℝ} (hm : m < 1) (hU : U = π * W / (2 * ellipk m)) :
    HasDerivAt (fun l => 2 / π * ellipk m * (U * l + q0 + π / 2)) W lam := by
  have hK := (ellipk_pos hm).ne'
  have hpi := Real.pi_ne_zero
  have := ((((hasDerivAt_id' lam).const_mul U).add_const q0).add_const (π / 2)).const_mul
      (2 / π * ellipk m)
  refine this.congr_deriv ?_
  rw [hU]; field_simp

/-- `a² √(z₊/ε₀) √(ε₀ z₊) = a² z₊` -/
lemma PolarConfig.a2s_mul {a E L Q zm zp : ℝ} (H : PolarConfig a E L Q zm zp) (ha : a ≠ 0) :
    a2sqrtZpOverE0 a E L zm zp * √(e0zpOf a E L zm) = a ^ 2 * zp := by
  have h : a ^ 2 * (1 - E ^ 2) / L ^ 2 * zp = e0zpOf a E L zm := by
    rw [H.zp_eq ha, e0zpOf]
    have h1 : 1 - zm ≠ 0 := by linarith [H.z1]
    have h2 := H.hL
    have h3 := H.hE.ne'
    field_simp
  unfold a2sqrtZpOverE0
  rw [if_neg ha, h]
  have := (Real.sqrt_pos.mpr H.e0zp_pos).ne'
  field_simp

lemma ellipk_zero : ellipk 0 = π / 2 := by simp [ellipk]
lemma ellipe_zero : ellipe 0 = π / 2 := by simp [ellipe]

lemma sign_mul_abs_div {L : ℝ} (h : L ≠ 0) : Real.sign L * |L| = L := by
  rcases lt_or_gt_of_ne h with h | h
  · rw [Real.sign_of_neg h, abs_of_neg h]; ring
  · rw [Real.sign_of_pos h, abs_of_pos h]; ring

/-- The polar part of `Gamma`. -/
noncomputable def gammaT (a E L zm zp : ℝ) : ℝ :=
  a2sqrtZpOverE0 a E L zm zp * E * √(e0zpOf a E L zm)
    * (ellipk (mT a zm zp) - ellipe (mT a zm zp)) / ellipk (mT a zm zp)

/-- The polar part of `Upsilon_phi`. -/
noncomputable def phiT (a L zm zp : ℝ) : ℝ :=
  L * ellippiK zm (mT a zm zp) / ellipk (mT a zm zp)

lemma polar_dt {a E L Q zm zp : ℝ} (H : PolarConfig a E L Q zm zp) (U : ℝ)
    (hU : U = π * polarW a E L zm / (2 * ellipk (mT a zm zp))) (q0 lam : ℝ) :
    let P := polarSolutionsCore a (E, L, Q) zm zp
    let θ := P.pos (U * lam + q0)
    HasDerivAt (fun l => P.dt (U * l + q0)) (a ^ 2 * E * cos θ ^ 2 - gammaT a E L zm zp) lam
    ∧ HasDerivAt (fun l => P.dphi (U * l + q0)) (L / sin θ ^ 2 - phiT a L zm zp) lam := by
  intro P θ
  have hm := H.mT_lt
  have hK := (ellipk_pos hm).ne'
  have hpi := Real.pi_ne_zero
  have hq := hasDerivAt_polar_u (q0 := q0) (lam := lam) hm hU
  have hθ : θ = arccos (√zm * sin (amT (mT a zm zp) (U * lam + q0))) := polar_pos_eq H _
  have hc2 : cos θ ^ 2 = zm * sin (amT (mT a zm zp) (U * lam + q0)) ^ 2 := by
    rw [hθ]; exact cos_sq_polar H.z0 H.z1 _
  have hs : sin θ ^ 2 = 1 - zm * sin (amT (mT a zm zp) (U * lam + q0)) ^ 2 := by
    rw [hθ, sin_polar H.z0]; exact Real.sq_sqrt (one_sub_mul_sin_sq_pos H.z1 _).le
  have hq' : HasDerivAt (fun l => U * l + q0 + π / 2) U lam := by
    simpa using (((hasDerivAt_id' lam).const_mul U).add_const q0).add_const (π / 2)
  have hE0 : √(e0zpOf a E L zm) ≠ 0 := (Real.sqrt_pos.mpr H.e0zp_pos).ne'
  have hLne := H.hL
  have hsl := sign_mul_abs_div hLne
  constructor
  · have dE := (hasDerivAt_E_am hm _).comp lam hq
    have hfun : (fun l => P.dt (U * l + q0)) = fun l => Real.sign L * a2sqrtZpOverE0 a E L zm zp * E / L
        * (2 / π * ellipe (mT a zm zp) * (U * l + q0 + π / 2)
          - Spec.E (amT (mT a zm zp) (U * l + q0)) (mT a zm zp)) := by
      funext l
      simp only [P, polarSolutionsCore, H.sq_k, ellipj, amT, ellipeincK_eq hm]
    rw [hfun]
    have hd := ((hq'.const_mul (2 / π * ellipe (mT a zm zp))).sub dE).const_mul
      (Real.sign L * a2sqrtZpOverE0 a E L zm zp * E / L)
    refine hd.congr_deriv ?_
    change Real.sign L * a2sqrtZpOverE0 a E L zm zp * E / L
      * (2 / π * ellipe (mT a zm zp) * U
        - (1 - mT a zm zp * sin (amT (mT a zm zp) (U * lam + q0)) ^ 2) * polarW a E L zm) = _
    rw [hc2]
    generalize sin (amT (mT a zm zp) (U * lam + q0)) ^ 2 = S
    rw [hU]
    unfold gammaT polarW
    by_cases ha : a = 0
    · subst ha
      simp only [mT, if_true, ellipk_zero, ellipe_zero]
      field_simp
      ring
    · have h2 := H.a2s_mul ha
      have h3 : mT a zm zp * zp = zm := by
        unfold mT; rw [if_neg ha]
        exact div_mul_cancel₀ _ (zero_lt_one.trans (H.zp_gt ha)).ne'
      have h4 : Real.sign L * a2sqrtZpOverE0 a E L zm zp * E / L
        * (2 / π * ellipe (mT a zm zp) * (π * (|L| * √(e0zpOf a E L zm)) / (2 * ellipk (mT a zm zp)))
        - (1 - mT a zm zp * S) * (|L| * √(e0zpOf a E L zm)))
        = (a2sqrtZpOverE0 a E L zm zp * √(e0zpOf a E L zm)) * E * ((Real.sign L * |L|) / L)
          * (ellipe (mT a zm zp) / ellipk (mT a zm zp) - (1 - mT a zm zp * S)) := by
        field_simp
      have h5 : a2sqrtZpOverE0 a E L zm zp * E * √(e0zpOf a E L zm)
          * (ellipk (mT a zm zp) - ellipe (mT a zm zp)) / ellipk (mT a zm zp)
        = (a2sqrtZpOverE0 a E L zm zp * √(e0zpOf a E L zm)) * E
          * ((ellipk (mT a zm zp) - ellipe (mT a zm zp)) / ellipk (mT a zm zp)) := by ring
      rw [h4, h5, h2, hsl, div_self hLne, mul_one, sub_div, div_self hK]
      linear_combination a ^ 2 * E * S * h3
  · have dP := (hasDerivAt_Pi_am hm H.z1 _).comp lam hq
    have hfun : (fun l => P.dphi (U * l + q0)) = fun l => Real.sign L * 1 / √(e0zpOf a E L zm)
        * (Spec.Pi zm (amT (mT a zm zp) (U * l + q0)) (mT a zm zp)
          - 2 / π * ellippiK zm (mT a zm zp) * (U * l + q0 + π / 2)) := by
      funext l
      simp only [P, polarSolutionsCore, H.sq_k, ellipj, amT, ellippiincK_eq H.z1 hm]
    rw [hfun]
    have hd := (dP.sub (hq'.const_mul (2 / π * ellippiK zm (mT a zm zp)))).const_mul
      (Real.sign L * 1 / √(e0zpOf a E L zm))
    refine hd.congr_deriv ?_
    change Real.sign L * 1 / √(e0zpOf a E L zm)
      * (1 / (1 - zm * sin (amT (mT a zm zp) (U * lam + q0)) ^ 2) * polarW a E L zm
        - 2 / π * ellippiK zm (mT a zm zp) * U) = _
    have hpos := (one_sub_mul_sin_sq_pos H.z1 (amT (mT a zm zp) (U * lam + q0))).ne'
    rw [hs]
    generalize sin (amT (mT a zm zp) (U * lam + q0)) ^ 2 = S at *
    rw [hU]
    unfold phiT polarW
    have h4 : Real.sign L * 1 / √(e0zpOf a E L zm)
      * (1 / (1 - zm * S) * (|L| * √(e0zpOf a E L zm))
        - 2 / π * ellippiK zm (mT a zm zp) * (π * (|L| * √(e0zpOf a E L zm)) / (2 * ellipk (mT a zm zp))))
      = (Real.sign L * |L|) * (1 / (1 - zm * S)
        - ellippiK zm (mT a zm zp) / ellipk (mT a zm zp)) := by
      field_simp
    rw [h4, hsl]
    ring

/-- `Π(n|0) = π/(2√(1-n))` -/
lemma ellippiK_zero {n : ℝ} (hn : n < 1) : ellippiK n 0 = π / (2 * √(1 - n)) := by
  rw [ellippiK_eq hn zero_lt_one]
  obtain ⟨b, hb⟩ : ∃ b, b = √(1 - n) := ⟨_, rfl⟩
  have hb0 : 0 < b := by rw [hb]; exact Real.sqrt_pos.mpr (by linarith)
  have hb2 : n = 1 - b ^ 2 := by rw [hb, Real.sq_sqrt (by linarith)]; ring
  rw [← hb]
  have hden : ∀ t, 0 < cos t ^ 2 + b * sin t ^ 2 := by
    intro t
    by_cases h : cos t = 0
    · have := Real.sin_sq_add_cos_sq t
      rw [h] at this
      have : sin t ^ 2 = 1 := by linarith
      rw [this]; positivity
    · positivity
  have hF : ∀ t, HasDerivAt (fun t => (t + arctan ((b - 1) * sin t * cos t / (cos t ^ 2 + b * sin t ^ 2))) / b)
      (1 / ((1 - n * sin t ^ 2) * √(1 - 0 * sin t ^ 2))) t := by
    intro t
    have hs := Real.hasDerivAt_sin t
    have hc := Real.hasDerivAt_cos t
    have h1 := ((hs.const_mul (b - 1)).mul hc).div ((hc.pow 2).add ((hs.pow 2).const_mul b)) (hden t).ne'
    have h2 := ((hasDerivAt_id' t).add h1.arctan).div_const b
    refine h2.congr_deriv ?_
    rw [zero_mul, sub_zero, Real.sqrt_one, mul_one, hb2]
    simp only [Pi.add_apply, Pi.mul_apply, Pi.pow_apply, Pi.div_apply]
    have hd := (hden t).ne'
    have hsc := Real.sin_sq_add_cos_sq t
    have hN : (cos t ^ 2 + b * sin t ^ 2) ^ 2 + ((b - 1) * sin t * cos t) ^ 2
        = cos t ^ 2 + b ^ 2 * sin t ^ 2 := by
      have h : cos t ^ 2 = 1 - sin t ^ 2 := by linarith
      linear_combination (cos t ^ 2 + b ^ 2 * sin t ^ 2) * hsc
    have hM : 1 - (1 - b ^ 2) * sin t ^ 2 = cos t ^ 2 + b ^ 2 * sin t ^ 2 := by linarith
    have hMpos : 0 < cos t ^ 2 + b ^ 2 * sin t ^ 2 := by
      rw [← hN]; positivity
    rw [hM]
    generalize hS : sin t = s at *
    generalize hC : cos t = c at *
    have hA : 1 + ((b - 1) * s * c / (c ^ 2 + b * s ^ 2)) ^ 2
        = (c ^ 2 + b ^ 2 * s ^ 2) / (c ^ 2 + b * s ^ 2) ^ 2 := by
      rw [← hN]; field_simp
    have hMne := hMpos.ne'
    rw [hA]
    push_cast
    rw [div_eq_div_iff hb0.ne' hMne, one_div_div]
    norm_num
    have e3 : (c ^ 2 + b * s ^ 2) ^ 2 / (c ^ 2 + b ^ 2 * s ^ 2)
        * (((((b - 1) * c * c + -((b - 1) * s * s)) * (c ^ 2 + b * s ^ 2)
          - (b - 1) * s * c * (-(2 * c * s) + b * (2 * s * c))) / (c ^ 2 + b * s ^ 2) ^ 2))
        = (((b - 1) * c * c + -((b - 1) * s * s)) * (c ^ 2 + b * s ^ 2)
          - (b - 1) * s * c * (-(2 * c * s) + b * (2 * s * c))) / (c ^ 2 + b ^ 2 * s ^ 2) := by
      field_simp
    rw [e3, add_mul, div_mul_cancel₀ _ hMne]
    linear_combination (c ^ 2 * b - c ^ 2 + b + b * s ^ 2 - b ^ 2 * s ^ 2) * hsc
  have hint := intervalIntegral.integral_eq_sub_of_hasDerivAt (a := 0) (b := π / 2)
    (fun t _ => hF t) ((evenPer_Pi hn zero_lt_one).intervalIntegrable _ _)
  show ∫ θ in (0:ℝ)..(π / 2), 1 / ((1 - n * sin θ ^ 2) * √(1 - 0 * sin θ ^ 2)) = _
  rw [hint]
  simp
  ring

end KGP
