import Verif.Lemmas.Carlson
import Mathlib.Analysis.SpecialFunctions.Log.Deriv
import Mathlib.Analysis.SpecialFunctions.Trigonometric.ArctanDeriv
import Mathlib.MeasureTheory.Integral.IntegralEqImproper
import Mathlib.Tactic.LinearCombination

/-!
# The Carlson integral `R_J` with negative last argument (Cauchy principal value)

`R_J(x, y, 1, 1-u)` for `u > 1` is reduced to `R_J(x, y, 1, 1-v)` with `u v = (1-x)(1-y)`.
-/

namespace KGP

open MeasureTheory Real Set Filter Topology

/-- The hypotheses of the reduction: `B² = u + v - (1-x) - (1-y)`. -/
structure PVData (x y u v B : ℝ) : Prop where
  hx : 0 ≤ x
  hy : 0 < y
  hy1 : y ≤ 1
  hu : 0 < u
  hv0 : 0 ≤ v
  hv1 : v < 1
  hB : 0 < B
  prod : u * v = (1 - x) * (1 - y)
  sum : B ^ 2 = u + v - (1 - x) - (1 - y)

/-- the logarithm -/
noncomputable def pvLog (x y B t : ℝ) : ℝ :=
  Real.log ((√((t + x) * (t + y)) + B * √(t + 1)) / (√((t + x) * (t + y)) - B * √(t + 1)))

/-- the radical -/
noncomputable def pvR (x y t : ℝ) : ℝ := √((t + x) * (t + y) * (t + 1))

section
variable {x y u v B : ℝ} (H : PVData x y u v B)
include H

lemma PVData.factor (t : ℝ) :
    (t + x) * (t + y) - B ^ 2 * (t + 1) = (t + (1 - u)) * (t + (1 - v)) := by
  rw [H.sum]
  linear_combination (-1) * H.prod

lemma PVData.A_pos {t : ℝ} (ht : 0 < t) : 0 < √((t + x) * (t + y)) :=
  Real.sqrt_pos.mpr (by have := H.hx; have := H.hy; positivity)

lemma PVData.R_eq {t : ℝ} (ht : 0 ≤ t) : pvR x y t = √((t + x) * (t + y)) * √(t + 1) :=
  Real.sqrt_mul (by have := H.hx; have := H.hy; positivity) _

lemma PVData.R_pos {t : ℝ} (ht : 0 < t) : 0 < pvR x y t :=
  Real.sqrt_pos.mpr (by have := H.hx; have := H.hy; positivity)

lemma PVData.AB_mul {t : ℝ} (ht : 0 ≤ t) :
    (√((t + x) * (t + y)) + B * √(t + 1)) * (√((t + x) * (t + y)) - B * √(t + 1))
      = (t + (1 - u)) * (t + (1 - v)) := by
  have h1 : √((t + x) * (t + y)) ^ 2 = (t + x) * (t + y) :=
    Real.sq_sqrt (by have := H.hx; have := H.hy; positivity)
  have h2 : √(t + 1) ^ 2 = t + 1 := Real.sq_sqrt (by linarith)
  rw [← H.factor]
  linear_combination h1 - B ^ 2 * h2

lemma PVData.AB_pos {t : ℝ} (ht : 0 ≤ t) : 0 < √((t + x) * (t + y)) + B * √(t + 1) := by
  have := H.hB
  have : 0 < √(t + 1) := Real.sqrt_pos.mpr (by linarith)
  positivity

lemma PVData.AB_ne {t : ℝ} (ht : 0 ≤ t) (hp : t + (1 - u) ≠ 0) :
    √((t + x) * (t + y)) - B * √(t + 1) ≠ 0 := by
  have h := H.AB_mul ht
  have h2 : t + (1 - v) ≠ 0 := by linarith [H.hv1]
  intro h0
  rw [h0, mul_zero] at h
  exact mul_ne_zero hp h2 h.symm

lemma PVData.hasDerivAt_log {t : ℝ} (ht : 0 < t) (hp : t + (1 - u) ≠ 0) :
    HasDerivAt (pvLog x y B) (-B * (1 / pvR x y t + u * (1 / ((t + (1 - u)) * pvR x y t))
      + v * (1 / ((t + (1 - v)) * pvR x y t)))) t := by
  have hxy : (t + x) * (t + y) ≠ 0 := by have := H.hx; have := H.hy; positivity
  have ht1 : t + 1 ≠ 0 := by linarith
  have hA : HasDerivAt (fun t => √((t + x) * (t + y))) ((2 * t + x + y) / (2 * √((t + x) * (t + y)))) t := by
    have h := (((hasDerivAt_id' t).add_const x).mul ((hasDerivAt_id' t).add_const y)).sqrt hxy
    refine h.congr_deriv ?_
    simp only [Pi.mul_apply]
    congr 1; ring
  have hBd : HasDerivAt (fun t => B * √(t + 1)) (B * (1 / (2 * √(t + 1)))) t :=
    (((hasDerivAt_id' t).add_const 1).sqrt ht1).const_mul B
  have hne := H.AB_ne ht.le hp
  have hpos := H.AB_pos ht.le
  have hlog := ((hA.add hBd).div (hA.sub hBd) hne).log (div_ne_zero hpos.ne' hne)
  refine hlog.congr_deriv ?_
  simp only [Pi.add_apply, Pi.sub_apply, Pi.div_apply]
  have hmul := H.AB_mul ht.le
  have hApos := H.A_pos ht
  have hSpos : 0 < √(t + 1) := Real.sqrt_pos.mpr (by linarith)
  have hA2 : √((t + x) * (t + y)) ^ 2 = (t + x) * (t + y) :=
    Real.sq_sqrt (by have := H.hx; have := H.hy; positivity)
  have hS2 : √(t + 1) ^ 2 = t + 1 := Real.sq_sqrt (by linarith)
  rw [H.R_eq ht.le]
  have hv : t + (1 - v) ≠ 0 := by linarith [H.hv1]
  have hprod := H.prod
  generalize √((t + x) * (t + y)) = A at *
  generalize √(t + 1) = S at *
  have e1 : ∀ a b X Y : ℝ, X ≠ 0 → Y ≠ 0 → (a * Y - X * b) / Y ^ 2 / (X / Y) = (a * Y - b * X) / (X * Y) := by
    intro a b X Y hX hY
    field_simp
  rw [e1 _ _ _ _ hpos.ne' hne, hmul]
  have e2 : ((2 * t + x + y) / (2 * A) + B * (1 / (2 * S))) * (A - B * S)
      - ((2 * t + x + y) / (2 * A) - B * (1 / (2 * S))) * (A + B * S)
      = B * (A ^ 2 - (2 * t + x + y) * S ^ 2) / (A * S) := by
    field_simp; ring
  rw [e2, hA2, hS2]
  have e3 : (t + x) * (t + y) - (2 * t + x + y) * (t + 1) = -((t + 1) ^ 2 - u * v) := by
    rw [hprod]; ring
  rw [e3]
  generalize A * S = W
  have e4 : (t + 1) ^ 2 - u * v = (t + (1 - u)) * (t + (1 - v)) + u * (t + (1 - v)) + v * (t + (1 - u)) := by
    ring
  rw [e4]
  field_simp

lemma PVData.tendsto_log : Tendsto (pvLog x y B) atTop (𝓝 0) := by
  have hy := H.hy
  have hB := H.hB
  have hx := H.hx
  have hratio : Tendsto (fun t => B * √(t + 1) / √((t + x) * (t + y))) atTop (𝓝 0) := by
    have hup : Tendsto (fun t => B / √y * (1 / √t)) atTop (𝓝 0) := by
      have : Tendsto (fun t : ℝ => 1 / √t) atTop (𝓝 0) := by
        simpa [Function.comp_def] using tendsto_inv_atTop_zero.comp Real.tendsto_sqrt_atTop
      simpa using this.const_mul (B / √y)
    refine tendsto_of_tendsto_of_tendsto_of_le_of_le' tendsto_const_nhds hup ?_ ?_
    · filter_upwards with t; positivity
    · filter_upwards [eventually_gt_atTop 0] with t ht
      have h1 : √y * √t * √(t + 1) ≤ √((t + x) * (t + y)) := by
        rw [← Real.sqrt_mul hy.le, ← Real.sqrt_mul (by positivity)]
        apply Real.sqrt_le_sqrt
        have : y * (t + 1) ≤ t + y := by nlinarith [H.hy1]
        have h2 : t * (y * (t + 1)) ≤ (t + x) * (t + y) :=
          mul_le_mul (by linarith) this (by positivity) (by linarith)
        linarith
      have hs1 : 0 < √(t + 1) := Real.sqrt_pos.mpr (by linarith)
      have hs2 : 0 < √t := Real.sqrt_pos.mpr ht
      have hs3 : 0 < √y := Real.sqrt_pos.mpr hy
      rw [div_mul_div_comm, mul_one, div_le_div_iff₀ (H.A_pos ht) (by positivity)]
      nlinarith
  have h2 : Tendsto (fun t => Real.log ((1 + B * √(t + 1) / √((t + x) * (t + y)))
      / (1 - B * √(t + 1) / √((t + x) * (t + y))))) atTop (𝓝 0) := by
    have h3 : Tendsto (fun t => (1 + B * √(t + 1) / √((t + x) * (t + y)))
      / (1 - B * √(t + 1) / √((t + x) * (t + y)))) atTop (𝓝 ((1 + 0) / (1 - 0))) :=
      (hratio.const_add 1).div (hratio.const_sub 1) (by norm_num)
    have h4 := (Real.continuousAt_log (x := (1 + 0) / (1 - 0)) (by norm_num)).tendsto.comp h3
    simpa [Function.comp_def] using h4
  refine h2.congr' ?_
  filter_upwards [eventually_gt_atTop 0] with t ht
  have hA := (H.A_pos ht).ne'
  unfold pvLog
  congr 1
  rw [← mul_div_mul_left _ _ hA]
  congr 1 <;> field_simp

/-- the symmetric difference of the logarithm across the pole tends to zero -/
lemma PVData.tendsto_pole (hu1 : 1 < u) :
    Tendsto (fun ε => pvLog x y B (u - 1 - ε) - pvLog x y B (u - 1 + ε)) (𝓝[>] 0) (𝓝 0) := by
  let c : ℝ → ℝ := fun t => 2 * Real.log (√((t + x) * (t + y)) + B * √(t + 1)) - Real.log (t + (1 - v))
  have hc : ContinuousAt c (u - 1) := by
    have h1 := H.AB_pos (t := u - 1) (by linarith)
    have h2 : (u - 1) + (1 - v) ≠ 0 := by linarith [H.hv1]
    refine ContinuousAt.sub (ContinuousAt.mul continuousAt_const (ContinuousAt.log ?_ h1.ne'))
      (ContinuousAt.log ?_ h2)
    · fun_prop
    · fun_prop
  have hlog : ∀ t, 0 < t → t + (1 - u) ≠ 0 → pvLog x y B t = c t - Real.log (t + (1 - u)) := by
    intro t ht hp
    have hne := H.AB_ne ht.le hp
    have hpos := H.AB_pos ht.le
    have hmul := H.AB_mul ht.le
    have hv : t + (1 - v) ≠ 0 := by linarith [H.hv1]
    simp only [c, pvLog]
    rw [Real.log_div hpos.ne' hne]
    have : Real.log (√((t + x) * (t + y)) - B * √(t + 1))
        = Real.log (t + (1 - u)) + Real.log (t + (1 - v))
          - Real.log (√((t + x) * (t + y)) + B * √(t + 1)) := by
      rw [← Real.log_mul hp hv, ← hmul, Real.log_mul hpos.ne' hne]; ring
    rw [this]; ring
  have h1 : Tendsto (fun ε : ℝ => c (u - 1 - ε) - c (u - 1 + ε)) (𝓝[>] 0) (𝓝 (c (u - 1) - c (u - 1))) := by
    have ha : Tendsto (fun ε : ℝ => u - 1 - ε) (𝓝[>] 0) (𝓝 (u - 1)) := by
      have : Continuous fun ε : ℝ => u - 1 - ε := by fun_prop
      have := this.tendsto 0
      rw [sub_zero] at this
      exact this.mono_left nhdsWithin_le_nhds
    have hb : Tendsto (fun ε : ℝ => u - 1 + ε) (𝓝[>] 0) (𝓝 (u - 1)) := by
      have : Continuous fun ε : ℝ => u - 1 + ε := by fun_prop
      have := this.tendsto 0
      rw [add_zero] at this
      exact this.mono_left nhdsWithin_le_nhds
    exact (hc.tendsto.comp ha).sub (hc.tendsto.comp hb)
  rw [sub_self] at h1
  refine h1.congr' ?_
  have hmem : Ioo (0:ℝ) (u - 1) ∈ 𝓝[>] (0:ℝ) := Ioo_mem_nhdsGT (by linarith)
  filter_upwards [hmem] with ε hε
  rw [hlog (u - 1 - ε) (by linarith [hε.2]) (by have := hε.1; intro h; linarith),
    hlog (u - 1 + ε) (by linarith [hε.1]) (by have := hε.1; intro h; linarith)]
  rw [show u - 1 - ε + (1 - u) = -ε by ring, show u - 1 + ε + (1 - u) = ε by ring, Real.log_neg_eq_log]
  ring

/-- `1/R` is integrable on `(0, ∞)` -/
lemma PVData.integrable_R : IntegrableOn (fun t => 1 / pvR x y t) (Ioi 0) := by
  have hy := H.hy
  have hx := H.hx
  have hdom : IntegrableOn (fun t : ℝ => 1 / (√t * (t + 1))) (Ioi 0) := by
    refine integrableOn_Ioi_deriv_of_nonneg (g := fun t => 2 * arctan (√t)) (l := 2 * (π / 2)) ?_ ?_ ?_ ?_
    · exact (by fun_prop : Continuous fun t : ℝ => 2 * arctan √t).continuousWithinAt
    · intro t ht
      have ht : (0:ℝ) < t := ht
      have h := (((hasDerivAt_id' t).sqrt ht.ne').arctan).const_mul 2
      refine h.congr_deriv ?_
      rw [Real.sq_sqrt ht.le]
      have : 0 < √t := Real.sqrt_pos.mpr ht
      field_simp
      ring
    · intro t ht
      have ht : (0:ℝ) < t := ht
      positivity
    · exact ((tendsto_arctan_atTop.mono_right nhdsWithin_le_nhds).comp
        Real.tendsto_sqrt_atTop).const_mul 2
  refine Integrable.mono' (hdom.const_mul (1 / √y)) ?_ ?_
  · apply Measurable.aestronglyMeasurable
    unfold pvR
    fun_prop
  · filter_upwards [ae_restrict_mem measurableSet_Ioi] with t ht
    have ht : (0:ℝ) < t := ht
    have hR := H.R_pos ht
    rw [Real.norm_eq_abs, abs_of_pos (by positivity), div_mul_div_comm, mul_one]
    have hs2 : 0 < √t := Real.sqrt_pos.mpr ht
    have hs3 : 0 < √y := Real.sqrt_pos.mpr hy
    apply one_div_le_one_div_of_le (by positivity)
    rw [show √y * (√t * (t + 1)) = √(y * t * (t + 1) ^ 2) by
      rw [Real.sqrt_mul (by positivity), Real.sqrt_mul hy.le, Real.sqrt_sq (by linarith)]; ring]
    apply Real.sqrt_le_sqrt
    have : y * (t + 1) ≤ t + y := by nlinarith [H.hy1]
    have h2 : t * (y * (t + 1)) ≤ (t + x) * (t + y) :=
      mul_le_mul (by linarith) this (by positivity) (by linarith)
    nlinarith

/-- `1/((t+p)R)` is integrable wherever `|t+p|` is bounded below -/
lemma PVData.integrable_RJ {p ε : ℝ} (hε : 0 < ε) {s : Set ℝ} (hs : MeasurableSet s)
    (hs0 : s ⊆ Ioi 0) (hsε : ∀ t ∈ s, ε ≤ |t + p|) :
    IntegrableOn (fun t => 1 / ((t + p) * pvR x y t)) s := by
  refine Integrable.mono' ((H.integrable_R.mono_set hs0).const_mul (1 / ε)) ?_ ?_
  · apply Measurable.aestronglyMeasurable
    unfold pvR
    fun_prop
  · filter_upwards [ae_restrict_mem hs] with t ht
    have hR := H.R_pos (hs0 ht)
    have := hsε t ht
    rw [Real.norm_eq_abs, abs_div, abs_one, abs_mul, abs_of_pos hR, div_mul_div_comm, mul_one]
    apply one_div_le_one_div_of_le (by positivity)
    exact mul_le_mul_of_nonneg_right this hR.le

lemma PVData.continuousWithinAt_log (hu1 : u ≠ 1) :
    ContinuousWithinAt (pvLog x y B) (Ici 0) 0 := by
  have hne := H.AB_ne (t := 0) le_rfl (by intro h; apply hu1; linarith)
  have hpos := H.AB_pos (t := 0) le_rfl
  apply ContinuousAt.continuousWithinAt
  unfold pvLog
  refine ContinuousAt.log (ContinuousAt.div ?_ ?_ hne) (div_ne_zero hpos.ne' hne) <;> fun_prop

omit H in
lemma pvR_sqrt (t : ℝ) : √((t + x) * (t + y) * (t + 1)) = pvR x y t := rfl

/-- the proper case -/
lemma PVData.integral_lt (hu1 : u < 1) :
    u * (∫ t in Ioi (0:ℝ), 1 / ((t + (1 - u)) * pvR x y t))
      = -(∫ t in Ioi (0:ℝ), 1 / pvR x y t)
        - v * (∫ t in Ioi (0:ℝ), 1 / ((t + (1 - v)) * pvR x y t)) + 1 / B * pvLog x y B 0 := by
  have i1 := H.integrable_R
  have iu := H.integrable_RJ (p := 1 - u) (ε := 1 - u) (by linarith) measurableSet_Ioi subset_rfl
    (fun t ht => by rw [abs_of_pos (by linarith [show (0:ℝ) < t from ht])]; linarith [show (0:ℝ) < t from ht])
  have hv1 := H.hv1
  have iv := H.integrable_RJ (p := 1 - v) (ε := 1 - v) (by linarith) measurableSet_Ioi subset_rfl
    (fun t ht => by rw [abs_of_pos (by linarith [show (0:ℝ) < t from ht])]; linarith [show (0:ℝ) < t from ht])
  have hI := integral_Ioi_of_hasDerivAt_of_tendsto (H.continuousWithinAt_log hu1.ne)
    (fun t ht => H.hasDerivAt_log ht (by linarith [show (0:ℝ) < t from ht]))
    (((i1.add (iu.const_mul u)).add (iv.const_mul v)).const_mul (-B)) H.tendsto_log
  rw [integral_const_mul] at hI
  erw [integral_add (i1.add (iu.const_mul u)) (iv.const_mul v), integral_add i1 (iu.const_mul u)] at hI
  rw [integral_const_mul, integral_const_mul] at hI
  have hB := H.hB.ne'
  field_simp
  linarith

omit H in
/-- removing a shrinking symmetric interval does not change the integral -/
lemma tendsto_integral_gap {f : ℝ → ℝ} {c : ℝ} (hc : 0 < c) (hf : IntegrableOn f (Ioi 0)) :
    Tendsto (fun ε => (∫ t in Ioc (0:ℝ) (c - ε), f t) + ∫ t in Ioi (c + ε), f t) (𝓝[>] 0)
      (𝓝 (∫ t in Ioi (0:ℝ), f t)) := by
  let g : ℝ → ℝ := (Ioi (0:ℝ)).indicator f
  have hg : Integrable g := (integrable_indicator_iff measurableSet_Ioi).mpr hf
  have hF : Continuous fun b => ∫ t in (0:ℝ)..b, g t :=
    intervalIntegral.continuous_primitive (fun a b => hg.intervalIntegrable) 0
  have e1 : ∀ b, 0 ≤ b → ∫ t in Ioc (0:ℝ) b, f t = ∫ t in (0:ℝ)..b, g t := by
    intro b hb
    rw [intervalIntegral.integral_of_le hb]
    apply setIntegral_congr_fun measurableSet_Ioc
    intro t ht
    simp only [g]
    rw [indicator_of_mem (show t ∈ Ioi (0:ℝ) from ht.1)]
  have e2 : ∀ b, 0 ≤ b → ∫ t in Ioi b, f t = (∫ t in Ioi (0:ℝ), f t) - ∫ t in (0:ℝ)..b, g t := by
    intro b hb
    rw [← e1 b hb, ← Ioc_union_Ioi_eq_Ioi hb, setIntegral_union (by
      rw [Set.disjoint_left]; intro t h1 h2; exact absurd h2 (not_lt.mpr h1.2)) measurableSet_Ioi
      (hf.mono_set Ioc_subset_Ioi_self) (hf.mono_set (Ioi_subset_Ioi hb))]
    ring
  have h3 : Tendsto (fun ε => (∫ t in (0:ℝ)..(c - ε), g t)
      + ((∫ t in Ioi (0:ℝ), f t) - ∫ t in (0:ℝ)..(c + ε), g t)) (𝓝[>] 0)
      (𝓝 (∫ t in Ioi (0:ℝ), f t)) := by
    have hcont : Continuous fun ε : ℝ => (∫ t in (0:ℝ)..(c - ε), g t)
      + ((∫ t in Ioi (0:ℝ), f t) - ∫ t in (0:ℝ)..(c + ε), g t) :=
      (hF.comp (continuous_const.sub continuous_id)).add
        (continuous_const.sub (hF.comp (continuous_const.add continuous_id)))
    have := hcont.tendsto 0
    simp only [sub_zero, add_zero, add_sub_cancel] at this
    exact this.mono_left nhdsWithin_le_nhds
  refine h3.congr' ?_
  filter_upwards [Ioo_mem_nhdsGT hc] with ε hε
  rw [e1 _ (by linarith [hε.2]), e2 (c + ε) (by linarith [hε.1])]

/-- the principal value case -/
lemma PVData.tendsto_gt (hu1 : 1 < u) :
    Tendsto (fun ε => (∫ t in Ioc (0:ℝ) (-(1 - u) - ε), 1 / ((t + (1 - u)) * pvR x y t))
        + ∫ t in Ioi (-(1 - u) + ε), 1 / ((t + (1 - u)) * pvR x y t)) (𝓝[>] 0)
      (𝓝 (1 / u * (-(∫ t in Ioi (0:ℝ), 1 / pvR x y t)
        - v * (∫ t in Ioi (0:ℝ), 1 / ((t + (1 - v)) * pvR x y t)) + 1 / B * pvLog x y B 0))) := by
  have i1 := H.integrable_R
  have hv1 := H.hv1
  have iv := H.integrable_RJ (p := 1 - v) (ε := 1 - v) (by linarith) measurableSet_Ioi subset_rfl
    (fun t ht => by rw [abs_of_pos (by linarith [show (0:ℝ) < t from ht])]; linarith [show (0:ℝ) < t from ht])
  have hc : 0 < -(1 - u) := by linarith
  have t1 := tendsto_integral_gap hc i1
  have tv := tendsto_integral_gap hc iv
  have tp := H.tendsto_pole hu1
  have hlim := ((((t1.neg).sub (tv.const_mul v)).add
    ((tp.const_mul (-1 / B)).add_const (1 / B * pvLog x y B 0))).const_mul (1 / u))
  rw [mul_zero, zero_add] at hlim
  refine hlim.congr' ?_
  filter_upwards [Ioo_mem_nhdsGT hc] with ε hε
  obtain ⟨hε0, hε1⟩ := hε
  have iu1 := H.integrable_RJ (p := 1 - u) (ε := ε) hε0 (s := Ioc 0 (-(1 - u) - ε)) measurableSet_Ioc
    Ioc_subset_Ioi_self (fun t ht => by
      rw [abs_of_neg (by linarith [ht.2])]; linarith [ht.2])
  have iu2 := H.integrable_RJ (p := 1 - u) (ε := ε) hε0 (s := Ioi (-(1 - u) + ε)) measurableSet_Ioi
    (Ioi_subset_Ioi (by linarith)) (fun t ht => by
      have ht : -(1 - u) + ε < t := ht
      rw [abs_of_pos (by linarith)]; linarith)
  have i11 := i1.mono_set (Ioc_subset_Ioi_self : Ioc 0 (-(1 - u) - ε) ⊆ _)
  have iv1 := iv.mono_set (Ioc_subset_Ioi_self : Ioc 0 (-(1 - u) - ε) ⊆ _)
  have i12 := i1.mono_set (Ioi_subset_Ioi (by linarith) : Ioi (-(1 - u) + ε) ⊆ _)
  have iv2 := iv.mono_set (Ioi_subset_Ioi (by linarith) : Ioi (-(1 - u) + ε) ⊆ _)
  have hI1 := intervalIntegral.integral_eq_sub_of_hasDeriv_right_of_le (f := pvLog x y B)
    (a := 0) (b := -(1 - u) - ε) (by linarith) (f' := fun t => -B * (1 / pvR x y t + u * (1 / ((t + (1 - u)) * pvR x y t))
      + v * (1 / ((t + (1 - v)) * pvR x y t))))
    (by
      intro t ht
      rcases ht.1.eq_or_lt with h0 | h0
      · subst h0
        exact (H.continuousWithinAt_log hu1.ne').mono Icc_subset_Ici_self
      · exact (H.hasDerivAt_log h0 (by linarith [ht.2])).continuousAt.continuousWithinAt)
    (fun t ht => (H.hasDerivAt_log ht.1 (by linarith [ht.2])).hasDerivWithinAt)
    ((intervalIntegrable_iff_integrableOn_Ioc_of_le (by linarith)).mpr
      (((i11.add (iu1.const_mul u)).add (iv1.const_mul v)).const_mul (-B)))
  have hI2 := integral_Ioi_of_hasDerivAt_of_tendsto (a := -(1 - u) + ε)
    (H.hasDerivAt_log (by linarith) (by linarith)).continuousAt.continuousWithinAt
    (fun t ht => H.hasDerivAt_log (by linarith [show _ < t from ht]) (by linarith [show _ < t from ht]))
    (((i12.add (iu2.const_mul u)).add (iv2.const_mul v)).const_mul (-B)) H.tendsto_log
  rw [intervalIntegral.integral_of_le (by linarith), integral_const_mul] at hI1
  rw [integral_const_mul] at hI2
  erw [integral_add (i11.add (iu1.const_mul u)) (iv1.const_mul v), integral_add i11 (iu1.const_mul u)] at hI1
  erw [integral_add (i12.add (iu2.const_mul u)) (iv2.const_mul v), integral_add i12 (iu2.const_mul u)] at hI2
  rw [integral_const_mul, integral_const_mul] at hI1 hI2
  have hB := H.hB.ne'
  have hu := H.hu.ne'
  rw [show u - 1 - ε = -(1 - u) - ε by ring, show u - 1 + ε = -(1 - u) + ε by ring]
  field_simp
  linarith

/-- **Carlson's reduction** of `R_J` with (possibly) negative last argument. -/
theorem PVData.elliprj_eq (hu1 : u ≠ 1) :
    u * (2 / 3) * elliprj x y 1 (1 - u)
      = -2 * elliprf x y 1 - v * (2 / 3) * elliprj x y 1 (1 - v) + 1 / B * pvLog x y B 0 := by
  have hv : elliprj x y 1 (1 - v) = 3 / 2 * ∫ t in Ioi (0:ℝ), 1 / ((t + (1 - v)) * pvR x y t) := by
    rw [elliprj, if_pos (by linarith [H.hv1])]; rfl
  have hF : elliprf x y 1 = 1 / 2 * ∫ t in Ioi (0:ℝ), 1 / pvR x y t := rfl
  rw [hv, hF]
  rcases lt_or_gt_of_ne hu1 with h | h
  · have := H.integral_lt h
    rw [elliprj, if_pos (by linarith)]
    simp only [pvR_sqrt]
    linarith
  · have := (H.tendsto_gt h).limUnder_eq
    rw [elliprj, if_neg (by linarith)]
    simp only [pvR_sqrt]
    rw [this]
    have hu := H.hu.ne'
    field_simp

end

end KGP
