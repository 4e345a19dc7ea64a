import Verif.Lemmas.Carlson
import Verif.Lemmas.Radial
import Verif.Model.Stable
import Mathlib.Tactic.LinearCombination
import Mathlib.Tactic.FieldSimp

/-!
# Calculus of the radial solution (stable.py:272-385)
-/

namespace KGP

open Classical Real

/-! ### phases: a strictly monotone map fixing all multiples of `π` preserves the sign of `sin` -/

lemma sign_sin_eq {f : ℝ → ℝ} (hf : StrictMono f) (hk : ∀ k : ℤ, f (k * π) = k * π) (y : ℝ) :
    Real.sign (sin (f y)) = Real.sign (sin y) := by
  have hpi := Real.pi_pos
  set k : ℤ := ⌊y / π⌋ with hkdef
  have h1 : (k : ℝ) * π ≤ y := by
    have := Int.floor_le (y / π); rwa [le_div_iff₀ hpi] at this
  have h2 : y < (k + 1) * π := by
    have := Int.lt_floor_add_one (y / π); rwa [div_lt_iff₀ hpi] at this
  have hf1 : (k : ℝ) * π ≤ f y := by rw [← hk k]; exact hf.monotone h1
  have hf2 : f y < (k + 1) * π := by
    have := hf h2
    have h3 := hk (k + 1)
    push_cast at h3
    rwa [h3] at this
  have key : ∀ w, (k : ℝ) * π < w → w < (k + 1) * π →
      Real.sign (sin w) = (-1) ^ k := by
    intro w hw1 hw2
    have hw : sin w = (-1) ^ k * sin (w - k * π) := by
      have := Real.sin_sub_int_mul_pi w k
      rw [this, ← mul_assoc, ← zpow_add₀ (by norm_num)]
      rw [show k + k = 2 * k by ring, zpow_mul]; norm_num
    have hs : 0 < sin (w - k * π) := Real.sin_pos_of_pos_of_lt_pi (by linarith) (by linarith)
    rw [hw]
    rcases Int.even_or_odd k with h | h
    · rw [h.neg_one_zpow, one_mul, Real.sign_of_pos hs]
    · rw [h.neg_one_zpow, neg_one_mul, Real.sign_of_neg (by linarith)]
  rcases h1.eq_or_lt with h | h
  · rw [← h, hk]
  · have hf1' : (k : ℝ) * π < f y := by rw [← hk k]; exact hf h
    rw [key _ h h2, key _ hf1' hf2]

lemma am_int_K {m : ℝ} (hm : m < 1) (k : ℤ) : jacobiAm (k * ellipk m) m = k * (π / 2) := by
  rcases Int.even_or_odd' k with ⟨j, rfl | rfl⟩
  · push_cast; rw [am_int hm]; ring
  · have := am_add_int hm (ellipk m) j
    rw [am_K hm] at this
    push_cast
    rw [show (2 * (j:ℝ) + 1) * ellipk m = ellipk m + 2 * j * ellipk m by ring, this]; ring

/-- The sign of `sn·cn` at radial phase `q`. -/
lemma sign_sn_cn {m : ℝ} (hm : m < 1) (q : ℝ) :
    Real.sign (sin (2 * jacobiAm (ellipk m * q / π) m)) = Real.sign (sin q) := by
  have hpi := Real.pi_pos
  have hK := ellipk_pos hm
  refine sign_sin_eq (f := fun q => 2 * jacobiAm (ellipk m * q / π) m) ?_ ?_ q
  · intro y z h
    have := am_strictMono hm (show ellipk m * y / π < ellipk m * z / π by gcongr)
    simpa using this
  · intro k
    have : ellipk m * (k * π) / π = k * ellipk m := by field_simp
    show 2 * jacobiAm (ellipk m * (k * π) / π) m = _
    rw [this, am_int_K hm]; ring

/-- The sign of `-cn` at polar phase `q`. -/
lemma sign_neg_cn {m : ℝ} (hm : m < 1) (q : ℝ) :
    Real.sign (-cos (jacobiAm (2 / π * ellipk m * (q + π / 2)) m)) = Real.sign (sin q) := by
  have hpi := Real.pi_pos
  have hK := ellipk_pos hm
  have := sign_sin_eq (f := fun q => jacobiAm (2 / π * ellipk m * (q + π / 2)) m - π / 2) ?_ ?_ q
  · simp only [sin_sub_pi_div_two] at this
    exact this
  · intro y z h
    have := am_strictMono hm (show 2 / π * ellipk m * (y + π / 2) < 2 / π * ellipk m * (z + π / 2) by
      gcongr)
    simpa using this
  · intro k
    have h1 : 2 / π * ellipk m * (k * π + π / 2) = ((2 * k + 1 : ℤ) : ℝ) * ellipk m := by
      push_cast; field_simp
    show jacobiAm (2 / π * ellipk m * (k * π + π / 2)) m - π / 2 = _
    rw [h1, am_int_K hm]; push_cast; ring

/-! ### the configuration of the four roots -/

/-- Motion between `r2 ≤ r1`, the other two roots `r4 ≤ r3` both below (bound orbits, deeply bound
real-root plunges) or both above (real-root plunges inside a bound region). -/
structure RootsConfig (r1 r2 r3 r4 : ℝ) : Prop where
  h21 : r2 ≤ r1
  h43 : r4 ≤ r3
  sep : r3 < r2 ∨ r1 < r4

/-- `k_r²` -/
noncomputable def mR (r1 r2 r3 r4 : ℝ) : ℝ := (r1 - r2) * (r3 - r4) / ((r1 - r3) * (r2 - r4))

section
variable {r1 r2 r3 r4 : ℝ} (H : RootsConfig r1 r2 r3 r4)
include H

lemma RootsConfig.pos13_24 : 0 < (r1 - r3) * (r2 - r4) := by
  obtain ⟨h1, h2, h | h⟩ := H
  · exact mul_pos (by linarith) (by linarith)
  · exact mul_pos_of_neg_of_neg (by linarith) (by linarith)

lemma RootsConfig.pos13_23 : 0 < (r1 - r3) * (r2 - r3) := by
  obtain ⟨h1, h2, h | h⟩ := H
  · exact mul_pos (by linarith) (by linarith)
  · exact mul_pos_of_neg_of_neg (by linarith) (by linarith)

lemma RootsConfig.pos14_23 : 0 < (r1 - r4) * (r2 - r3) := by
  obtain ⟨h1, h2, h | h⟩ := H
  · exact mul_pos (by linarith) (by linarith)
  · exact mul_pos_of_neg_of_neg (by linarith) (by linarith)

lemma RootsConfig.ne13 : r1 - r3 ≠ 0 := fun h => by have := H.pos13_24; rw [h] at this; simp at this
lemma RootsConfig.ne24 : r2 - r4 ≠ 0 := fun h => by have := H.pos13_24; rw [h] at this; simp at this
lemma RootsConfig.ne23 : r2 - r3 ≠ 0 := fun h => by have := H.pos13_23; rw [h] at this; simp at this

lemma RootsConfig.mR_nonneg : 0 ≤ mR r1 r2 r3 r4 :=
  div_nonneg (mul_nonneg (by linarith [H.h21]) (by linarith [H.h43])) H.pos13_24.le

lemma RootsConfig.mR_lt : mR r1 r2 r3 r4 < 1 := by
  unfold mR
  rw [div_lt_one H.pos13_24]
  linarith [H.pos14_23]

lemma RootsConfig.sq_k : √((r1 - r2) * (r3 - r4) / ((r1 - r3) * (r2 - r4))) ^ 2 = mR r1 r2 r3 r4 :=
  Real.sq_sqrt H.mR_nonneg

lemma RootsConfig.denom (s : ℝ) (hs : s ^ 2 ≤ 1) :
    0 < (r1 - r3) * ((r1 - r3) - (r1 - r2) * s ^ 2) := by
  have h1 := H.pos13_23
  have h2 : 0 < (r1 - r3) ^ 2 := by have := H.ne13; positivity
  have : (r1 - r3) * ((r1 - r3) - (r1 - r2) * s ^ 2)
      = (1 - s ^ 2) * (r1 - r3) ^ 2 + s ^ 2 * ((r1 - r3) * (r2 - r3)) := by ring
  rw [this]
  rcases hs.eq_or_lt with h | h
  · rw [h]; linarith
  · have : 0 < (1 - s ^ 2) * (r1 - r3) ^ 2 := mul_pos (by linarith) h2
    have : 0 ≤ s ^ 2 * ((r1 - r3) * (r2 - r3)) := by positivity
    linarith

lemma RootsConfig.denom_ne (s : ℝ) (hs : s ^ 2 ≤ 1) : (r1 - r3) - (r1 - r2) * s ^ 2 ≠ 0 :=
  right_ne_zero_of_mul (H.denom s hs).ne'

end

/-- `r` as a function of `sn²` -/
noncomputable def rOf (r1 r2 r3 S : ℝ) : ℝ :=
  (r3 * (r1 - r2) * S - r2 * (r1 - r3)) / ((r1 - r2) * S - (r1 - r3))

lemma radial_pos_eq {a : ℝ} {cs : Consts} {r1 r2 r3 r4 : ℝ} (H : RootsConfig r1 r2 r3 r4) (q : ℝ) :
    (radialSolutions a cs (r1, r2, r3, r4)).pos q
      = rOf r1 r2 r3 (sin (jacobiAm (ellipk (mR r1 r2 r3 r4) * q / π) (mR r1 r2 r3 r4)) ^ 2) := by
  obtain ⟨E, L, Q⟩ := cs
  simp only [radialSolutions, H.sq_k, ellipj, rOf]

section
variable {r1 r2 r3 r4 : ℝ} (H : RootsConfig r1 r2 r3 r4) (S : ℝ) (hD : (r1 - r3) - (r1 - r2) * S ≠ 0)
include hD

lemma rOf_sub_r2 : rOf r1 r2 r3 S - r2 = (r1 - r2) * (r2 - r3) * S / ((r1 - r3) - (r1 - r2) * S) := by
  have : (r1 - r2) * S - (r1 - r3) ≠ 0 := by intro h; apply hD; linarith
  unfold rOf
  rw [eq_div_iff hD, sub_mul, div_mul_eq_mul_div, sub_eq_iff_eq_add, div_eq_iff this]; ring

lemma r1_sub_rOf : r1 - rOf r1 r2 r3 S = (r1 - r2) * (r1 - r3) * (1 - S) / ((r1 - r3) - (r1 - r2) * S) := by
  have := rOf_sub_r2 S hD
  have h2 : r1 - rOf r1 r2 r3 S = (r1 - r2) - (rOf r1 r2 r3 S - r2) := by ring
  rw [h2, this]; field_simp; ring

lemma rOf_sub_r3 : rOf r1 r2 r3 S - r3 = (r1 - r3) * (r2 - r3) / ((r1 - r3) - (r1 - r2) * S) := by
  have := rOf_sub_r2 S hD
  have h2 : rOf r1 r2 r3 S - r3 = (r2 - r3) + (rOf r1 r2 r3 S - r2) := by ring
  rw [h2, this]; field_simp; ring

lemma rOf_sub (y : ℝ) : rOf r1 r2 r3 S - y
    = ((r1 - r3) * (r2 - y) - (r1 - r2) * (r3 - y) * S) / ((r1 - r3) - (r1 - r2) * S) := by
  have := rOf_sub_r2 S hD
  have h2 : rOf r1 r2 r3 S - y = (r2 - y) + (rOf r1 r2 r3 S - r2) := by ring
  rw [h2, this]; field_simp; ring

end

lemma RootsConfig.rOf_sub_r4 {r1 r2 r3 r4 : ℝ} (H : RootsConfig r1 r2 r3 r4) (S : ℝ)
    (hD : (r1 - r3) - (r1 - r2) * S ≠ 0) : rOf r1 r2 r3 S - r4
    = (r1 - r3) * (r2 - r4) * (1 - mR r1 r2 r3 r4 * S) / ((r1 - r3) - (r1 - r2) * S) := by
  rw [rOf_sub S hD]
  congr 1
  have h1 := H.ne13
  have h2 := H.ne24
  unfold mR
  field_simp

/-- The derivative of `rOf ∘ sn²`. -/
lemma hasDerivAt_rOf {r1 r2 r3 r4 : ℝ} (H : RootsConfig r1 r2 r3 r4) (u : ℝ) :
    let m := mR r1 r2 r3 r4
    let s := sin (jacobiAm u m)
    HasDerivAt (fun u => rOf r1 r2 r3 (sin (jacobiAm u m) ^ 2))
      (2 * (r1 - r2) * (r1 - r3) * (r2 - r3) * s * cos (jacobiAm u m) * √(1 - m * s ^ 2)
        / ((r1 - r3) - (r1 - r2) * s ^ 2) ^ 2) u := by
  intro m s
  have hs : s ^ 2 ≤ 1 := sin_sq_le_one _
  have hD := H.denom_ne s hs
  have hD' : (r1 - r2) * s ^ 2 - (r1 - r3) ≠ 0 := by intro h; apply hD; linarith
  have hsn := (hasDerivAt_sn H.mR_lt u).pow 2
  have := ((hsn.const_mul (r3 * (r1 - r2))).sub_const (r2 * (r1 - r3))).div
    ((hsn.const_mul (r1 - r2)).sub_const (r1 - r3)) hD'
  refine this.congr_deriv ?_
  simp only [Pi.pow_apply]
  change (_ * (((2:ℕ):ℝ) * s ^ (2 - 1) * (cos (jacobiAm u m) * √(1 - m * s ^ 2)))
      * ((r1 - r2) * s ^ 2 - (r1 - r3)) - (r3 * (r1 - r2) * s ^ 2 - r2 * (r1 - r3))
      * (_ * (((2:ℕ):ℝ) * s ^ (2 - 1) * (cos (jacobiAm u m) * √(1 - m * s ^ 2)))))
        / ((r1 - r2) * s ^ 2 - (r1 - r3)) ^ 2 = _
  rw [div_eq_div_iff (pow_ne_zero 2 hD') (pow_ne_zero 2 hD)]
  push_cast
  ring

/-- phase advance: `u = K q / π` with `q = Υ λ + q0`, `Υ = π c / (2K)` -/
lemma phase_u {K c q0 : ℝ} (hK : K ≠ 0) (lam : ℝ) :
    HasDerivAt (fun lam => K * (π * c / (2 * K) * lam + q0) / π) (c / 2) lam := by
  have h1 := ((((hasDerivAt_id' lam).const_mul (π * c / (2 * K))).add_const q0).const_mul K).div_const π
  refine h1.congr_deriv ?_
  have := Real.pi_ne_zero
  field_simp

lemma rFrequencyCore_eq {E r1 r2 r3 r4 : ℝ} (H : RootsConfig r1 r2 r3 r4) :
    rFrequencyCore E (r1, r2, r3, r4)
      = π * √((1 - E ^ 2) * (r1 - r3) * (r2 - r4)) / (2 * ellipk (mR r1 r2 r3 r4)) := by
  simp only [rFrequencyCore, kR, H.sq_k]

/-- The radial equation, with the sign. -/
lemma radial_equation {a E : ℝ} {cs : Consts} {r1 r2 r3 r4 : ℝ} (H : RootsConfig r1 r2 r3 r4)
    (hE : 0 ≤ 1 - E ^ 2) (q0 lam : ℝ) :
    let U := rFrequencyCore E (r1, r2, r3, r4)
    let r := fun lam => (radialSolutions a cs (r1, r2, r3, r4)).pos (U * lam + q0)
    0 ≤ (1 - E ^ 2) * (r1 - r lam) * (r lam - r2) * (r lam - r3) * (r lam - r4) ∧
    HasDerivAt r (Real.sign (sin (U * lam + q0))
      * √((1 - E ^ 2) * (r1 - r lam) * (r lam - r2) * (r lam - r3) * (r lam - r4))) lam ∧
    (sin (U * lam + q0) = 0 →
      (1 - E ^ 2) * (r1 - r lam) * (r lam - r2) * (r lam - r3) * (r lam - r4) = 0) := by
  intro U r
  have hm := H.mR_lt
  have hK := (ellipk_pos hm).ne'
  obtain ⟨c, hc⟩ : ∃ c, c = √((1 - E ^ 2) * (r1 - r3) * (r2 - r4)) := ⟨_, rfl⟩
  have hc0 : 0 ≤ c := by rw [hc]; exact Real.sqrt_nonneg _
  have hc2 : c ^ 2 = (1 - E ^ 2) * (r1 - r3) * (r2 - r4) := by
    rw [hc]; refine Real.sq_sqrt ?_
    rw [mul_assoc]; exact mul_nonneg hE H.pos13_24.le
  have hU : U = π * c / (2 * ellipk (mR r1 r2 r3 r4)) := by
    rw [hc]; exact rFrequencyCore_eq H
  have hr : r = fun lam => rOf r1 r2 r3
      (sin (jacobiAm (ellipk (mR r1 r2 r3 r4) * (U * lam + q0) / π) (mR r1 r2 r3 r4)) ^ 2) := by
    funext l; exact radial_pos_eq H _
  have h1 := phase_u (K := ellipk (mR r1 r2 r3 r4)) (c := c) (q0 := q0) hK lam
  rw [← hU] at h1
  have hd := (hasDerivAt_rOf H _).comp lam h1
  rw [show (fun u => rOf r1 r2 r3 (sin (jacobiAm u (mR r1 r2 r3 r4)) ^ 2))
    ∘ (fun lam => ellipk (mR r1 r2 r3 r4) * (U * lam + q0) / π) = r from hr.symm] at hd
  obtain ⟨w, hw⟩ : ∃ w, w = jacobiAm (ellipk (mR r1 r2 r3 r4) * (U * lam + q0) / π)
    (mR r1 r2 r3 r4) := ⟨_, rfl⟩
  have hsg := sign_sn_cn hm (U * lam + q0)
  rw [← hw] at hsg hd
  have hrl : r lam = rOf r1 r2 r3 (sin w ^ 2) := by rw [hr, hw]
  have hs : sin w ^ 2 ≤ 1 := sin_sq_le_one _
  have hD := H.denom_ne (sin w) hs
  have hd2 : √(1 - mR r1 r2 r3 r4 * sin w ^ 2) ^ 2 = 1 - mR r1 r2 r3 r4 * sin w ^ 2 :=
    Real.sq_sqrt (one_sub_mul_sin_sq_pos hm w).le
  have hdpos : 0 < √(1 - mR r1 r2 r3 r4 * sin w ^ 2) :=
    Real.sqrt_pos.mpr (one_sub_mul_sin_sq_pos hm w)
  obtain ⟨v, hv⟩ : ∃ v, v = 2 * (r1 - r2) * (r1 - r3) * (r2 - r3) * sin w * cos w
        * √(1 - mR r1 r2 r3 r4 * sin w ^ 2)
        / ((r1 - r3) - (r1 - r2) * sin w ^ 2) ^ 2 * (c / 2) := ⟨_, rfl⟩
  have hR : (1 - E ^ 2) * (r1 - r lam) * (r lam - r2) * (r lam - r3) * (r lam - r4) = v ^ 2 := by
    rw [hrl, r1_sub_rOf _ hD, rOf_sub_r2 _ hD, rOf_sub_r3 _ hD, H.rOf_sub_r4 _ hD, ← hd2, hv,
      ← Real.cos_sq' w]
    have h3 : ∀ X Y : ℝ, (1 - E ^ 2) * ((r1 - r2) * (r1 - r3) * cos w ^ 2 / X) * ((r1 - r2) * (r2 - r3) * sin w ^ 2 / X)
      * ((r1 - r3) * (r2 - r3) / X) * ((r1 - r3) * (r2 - r4) * Y ^ 2 / X)
      = ((1 - E ^ 2) * (r1 - r3) * (r2 - r4)) * ((r1 - r2) * (r1 - r3) * (r2 - r3) * sin w * cos w * Y / X ^ 2) ^ 2 := by
      intro X Y; ring
    rw [h3, ← hc2]; ring
  have hzero : sin (U * lam + q0) = 0 → v ^ 2 = 0 := by
    intro h
    rw [h, Real.sign_zero, Real.sign_eq_zero_iff, Real.sin_two_mul] at hsg
    rw [hv, show 2 * (r1 - r2) * (r1 - r3) * (r2 - r3) * sin w * cos w
        = (r1 - r2) * (r1 - r3) * (r2 - r3) * (2 * sin w * cos w) by ring, hsg]
    simp
  refine ⟨by rw [hR]; positivity, hd.congr_deriv ?_, by rw [hR]; exact hzero⟩
  rw [hR, Real.sqrt_sq_eq_abs, ← hsg, ← hv]
  have hv2 : v = sin (2 * w) * ((r1 - r2) * ((r1 - r3) * (r2 - r3))
        * √(1 - mR r1 r2 r3 r4 * sin w ^ 2)
        / ((r1 - r3) - (r1 - r2) * sin w ^ 2) ^ 2 * (c / 2)) := by
    rw [hv, Real.sin_two_mul]; ring
  have hnn : 0 ≤ (r1 - r2) * ((r1 - r3) * (r2 - r3))
        * √(1 - mR r1 r2 r3 r4 * sin w ^ 2)
        / ((r1 - r3) - (r1 - r2) * sin w ^ 2) ^ 2 * (c / 2) := by
    have h1 := H.pos13_23
    have h2 : 0 ≤ r1 - r2 := by linarith [H.h21]
    positivity
  rw [hv2]
  generalize (r1 - r2) * ((r1 - r3) * (r2 - r3)) * √(1 - mR r1 r2 r3 r4 * sin w ^ 2)
        / ((r1 - r3) - (r1 - r2) * sin w ^ 2) ^ 2 * (c / 2) = Y at hnn
  rw [abs_mul, abs_of_nonneg hnn]
  rcases lt_trichotomy (sin (2 * w)) 0 with h | h | h
  · rw [Real.sign_of_neg h, abs_of_neg h]; ring
  · rw [h]; simp
  · rw [Real.sign_of_pos h, abs_of_pos h]; ring

/-! ### range, end points, periodicity -/

lemma RootsConfig.r_mem {r1 r2 r3 r4 : ℝ} (H : RootsConfig r1 r2 r3 r4) (w : ℝ) :
    r2 ≤ rOf r1 r2 r3 (sin w ^ 2) ∧ rOf r1 r2 r3 (sin w ^ 2) ≤ r1 := by
  have hs : sin w ^ 2 ≤ 1 := sin_sq_le_one _
  have hD := H.denom_ne (sin w) hs
  have hDp := H.denom (sin w) hs
  have h13 := H.ne13
  constructor
  · rw [← sub_nonneg, rOf_sub_r2 _ hD, show (r1 - r2) * (r2 - r3) * sin w ^ 2
      / ((r1 - r3) - (r1 - r2) * sin w ^ 2) = (r1 - r2) * ((r1 - r3) * (r2 - r3)) * sin w ^ 2
      / ((r1 - r3) * ((r1 - r3) - (r1 - r2) * sin w ^ 2)) by field_simp]
    have h1 := H.pos13_23
    have h2 : 0 ≤ r1 - r2 := by linarith [H.h21]
    positivity
  · rw [← sub_nonneg, r1_sub_rOf _ hD, show (r1 - r2) * (r1 - r3) * (1 - sin w ^ 2)
      / ((r1 - r3) - (r1 - r2) * sin w ^ 2) = (r1 - r2) * (r1 - r3) ^ 2 * (1 - sin w ^ 2)
      / ((r1 - r3) * ((r1 - r3) - (r1 - r2) * sin w ^ 2)) by field_simp]
    have h2 : 0 ≤ r1 - r2 := by linarith [H.h21]
    have h3 : 0 ≤ 1 - sin w ^ 2 := by linarith
    positivity

/-- The radial amplitude at phase `q`. -/
noncomputable def amR (m q : ℝ) : ℝ := jacobiAm (ellipk m * q / π) m

lemma amR_zero {m : ℝ} (hm : m < 1) : amR m 0 = 0 := by
  unfold amR; rw [mul_zero, zero_div, am_zero hm]

lemma amR_pi {m : ℝ} (hm : m < 1) : amR m π = π / 2 := by
  unfold amR; rw [mul_div_assoc, div_self Real.pi_ne_zero, mul_one, am_K hm]

lemma amR_add {m : ℝ} (hm : m < 1) (q : ℝ) : amR m (q + 2 * π) = amR m q + π := by
  unfold amR
  rw [show ellipk m * (q + 2 * π) / π = ellipk m * q / π + 2 * ellipk m by
    have := Real.pi_ne_zero; field_simp, am_add_two_K hm]

lemma amR_neg {m : ℝ} (hm : m < 1) (q : ℝ) : amR m (-q) = -amR m q := by
  unfold amR
  rw [show ellipk m * (-q) / π = -(ellipk m * q / π) by ring, am_neg hm]

lemma rOf_zero {r1 r2 r3 : ℝ} (h : r1 - r3 ≠ 0) : rOf r1 r2 r3 0 = r2 := by
  unfold rOf
  rw [mul_zero, mul_zero, zero_sub, zero_sub, neg_div_neg_eq, mul_div_cancel_right₀ _ h]

lemma rOf_one {r1 r2 r3 : ℝ} (h : r2 - r3 ≠ 0) : rOf r1 r2 r3 1 = r1 := by
  unfold rOf
  rw [show r3 * (r1 - r2) * 1 - r2 * (r1 - r3) = r1 * ((r1 - r2) * 1 - (r1 - r3)) by ring]
  refine mul_div_cancel_right₀ _ ?_
  intro h2; apply h; linarith

/-! ### the oscillating integrals -/

section
variable {m : ℝ} (hm : m < 1) {q : ℝ → ℝ} {lam c : ℝ}
  (hq : HasDerivAt q (π * c / (2 * ellipk m)) lam)
include hm hq

lemma hasDerivAt_amR : HasDerivAt (fun l => amR m (q l))
    (√(1 - m * sin (amR m (q lam)) ^ 2) * (c / 2)) lam := by
  have hK := (ellipk_pos hm).ne'
  have h1 : HasDerivAt (fun l => ellipk m * q l / π) (c / 2) lam := by
    refine ((hq.const_mul (ellipk m)).div_const π).congr_deriv ?_
    have := Real.pi_ne_zero
    field_simp
  exact (hasDerivAt_am hm _).comp lam h1

lemma hasDerivAt_PiOsc_of {n : ℝ}
    (hd : HasDerivAt (fun φ => ellippiincK φ n m) (1 / ((1 - n * sin (amR m (q lam)) ^ 2)
      * √(1 - m * sin (amR m (q lam)) ^ 2))) (amR m (q lam)))
    (hne : n * sin (amR m (q lam)) ^ 2 ≠ 1) :
    HasDerivAt (fun l => ellippiincK (amR m (q l)) n m - q l / π * ellippiK n m)
      (c / 2 * (1 / (1 - n * sin (amR m (q lam)) ^ 2) - ellippiK n m / ellipk m)) lam := by
  have hK := (ellipk_pos hm).ne'
  have hpi := Real.pi_ne_zero
  have h2 := hd.comp lam (hasDerivAt_amR hm hq)
  refine (h2.sub ((hq.div_const π).mul_const (ellippiK n m))).congr_deriv ?_
  have h1 : √(1 - m * sin (amR m (q lam)) ^ 2) ≠ 0 :=
    (Real.sqrt_pos.mpr (one_sub_mul_sin_sq_pos hm _)).ne'
  have h3 : 1 - n * sin (amR m (q lam)) ^ 2 ≠ 0 := fun h => hne (by linarith)
  generalize √(1 - m * sin (amR m (q lam)) ^ 2) = d at *
  generalize 1 - n * sin (amR m (q lam)) ^ 2 = e at *
  field_simp

lemma hasDerivAt_PiOsc {n : ℝ} (hn : n < 1) :
    HasDerivAt (fun l => ellippiincK (amR m (q l)) n m - q l / π * ellippiK n m)
      (c / 2 * (1 / (1 - n * sin (amR m (q lam)) ^ 2) - ellippiK n m / ellipk m)) lam := by
  have hK := (ellipk_pos hm).ne'
  have hpi := Real.pi_ne_zero
  have h1 : HasDerivAt (fun l => ellipk m * q l / π) (c / 2) lam := by
    refine ((hq.const_mul (ellipk m)).div_const π).congr_deriv ?_
    field_simp
  have h2 := (hasDerivAt_Pi_am hm hn (ellipk m * q lam / π)).comp lam h1
  have h3 := h2.sub ((hq.div_const π).mul_const (ellippiK n m))
  have h4 : (fun l => ellippiincK (amR m (q l)) n m - q l / π * ellippiK n m)
      = ((fun u => Spec.Pi n (jacobiAm u m) m) ∘ fun l => ellipk m * q l / π)
        - fun l => q l / π * ellippiK n m := by
    funext l
    simp only [Pi.sub_apply, Function.comp, amR, ellippiincK_eq hn hm]
  rw [h4]
  refine h3.congr_deriv ?_
  unfold amR
  field_simp

lemma hasDerivAt_EOsc :
    HasDerivAt (fun l => ellipeincK (amR m (q l)) m - q l / π * ellipe m)
      (c / 2 * ((1 - m * sin (amR m (q lam)) ^ 2) - ellipe m / ellipk m)) lam := by
  have hK := (ellipk_pos hm).ne'
  have hpi := Real.pi_ne_zero
  have h1 : HasDerivAt (fun l => ellipk m * q l / π) (c / 2) lam := by
    refine ((hq.const_mul (ellipk m)).div_const π).congr_deriv ?_
    field_simp
  have h2 := (hasDerivAt_E_am hm (ellipk m * q lam / π)).comp lam h1
  have h3 := h2.sub ((hq.div_const π).mul_const (ellipe m))
  have h4 : (fun l => ellipeincK (amR m (q l)) m - q l / π * ellipe m)
      = ((fun u => Spec.E (jacobiAm u m) m) ∘ fun l => ellipk m * q l / π)
        - fun l => q l / π * ellipe m := by
    funext l
    simp only [Pi.sub_apply, Function.comp, amR, ellipeincK_eq hm]
  rw [h4]
  refine h3.congr_deriv ?_
  unfold amR
  field_simp

/-- derivative of `h sn cn dn / (h sn² - 1)` -/
lemma hasDerivAt_G {h : ℝ} (hh : h < 1) :
    HasDerivAt (fun l => h * sin (amR m (q l)) * cos (amR m (q l))
        * √(1 - m * sin (amR m (q l)) ^ 2) / (h * sin (amR m (q l)) ^ 2 - 1))
      (let S := sin (amR m (q lam)) ^ 2
       c / 2 * (h * (((1 - 2 * S) * (1 - m * S) - m * S * (1 - S)) * (h * S - 1)
        - 2 * h * S * (1 - S) * (1 - m * S)) / (h * S - 1) ^ 2)) lam := by
  have hK := (ellipk_pos hm).ne'
  have hpi := Real.pi_ne_zero
  have h1 : HasDerivAt (fun l => ellipk m * q l / π) (c / 2) lam := by
    refine ((hq.const_mul (ellipk m)).div_const π).congr_deriv ?_
    field_simp
  have hs := hasDerivAt_sn hm (ellipk m * q lam / π)
  have hc := hasDerivAt_cn hm (ellipk m * q lam / π)
  have hd := hasDerivAt_dn hm (ellipk m * q lam / π)
  have hne : h * sin (jacobiAm (ellipk m * q lam / π) m) ^ 2 - 1 ≠ 0 := by
    have := one_sub_mul_sin_sq_pos hh (jacobiAm (ellipk m * q lam / π) m)
    intro hz; linarith
  have hG := ((((hs.const_mul h).mul hc).mul hd).div (((hs.pow 2).const_mul h).sub_const 1) hne)
  have h2 := hG.comp lam h1
  refine h2.congr_deriv ?_
  simp only [Pi.mul_apply, Pi.pow_apply, amR]
  have hd2 : √(1 - m * sin (jacobiAm (ellipk m * q lam / π) m) ^ 2) ^ 2
      = 1 - m * sin (jacobiAm (ellipk m * q lam / π) m) ^ 2 :=
    Real.sq_sqrt (one_sub_mul_sin_sq_pos hm _).le
  have hc2 := Real.cos_sq' (jacobiAm (ellipk m * q lam / π) m)
  generalize jacobiAm (ellipk m * q lam / π) m = w at *
  generalize √(1 - m * sin w ^ 2) = d at *
  generalize cos w = C at *
  generalize sin w = s at *
  generalize c / 2 = c at *
  rw [div_mul_eq_mul_div, mul_div_assoc', div_left_inj' (pow_ne_zero 2 hne)]
  push_cast
  norm_num
  linear_combination (c * h * ((C ^ 2 - s ^ 2) * (h * s ^ 2 - 1) - 2 * h * s ^ 2 * C ^ 2)) * hd2
    + (c * h * ((h * s ^ 2 - 1) * (1 - m * s ^ 2 - m * s ^ 2) - 2 * h * s ^ 2 * (1 - m * s ^ 2))) * hc2

end

/-! ### dt and dφ -/

/-- Algebra behind `r²` in `dt/dλ`. -/
lemma RootsConfig.r_sq {r1 r2 r3 r4 : ℝ} (H : RootsConfig r1 r2 r3 r4) (S : ℝ)
    (hD : (r1 - r3) - (r1 - r2) * S ≠ 0) :
    let m := mR r1 r2 r3 r4
    let h := (r1 - r2) / (r1 - r3)
    (r3 * (r1 + r2 + r3) - r1 * r2) + (r2 - r3) * (r1 + r2 + r3 + r4) * (1 / (1 - h * S))
      + (r1 - r3) * (r2 - r4) * ((1 - m * S)
        + h * (((1 - 2 * S) * (1 - m * S) - m * S * (1 - S)) * (h * S - 1)
        - 2 * h * S * (1 - S) * (1 - m * S)) / (h * S - 1) ^ 2) = 2 * rOf r1 r2 r3 S ^ 2 := by
  intro m h
  have h13 := H.ne13
  have h24 := H.ne24
  have hr : rOf r1 r2 r3 S = r3 + (r1 - r3) * (r2 - r3) / ((r1 - r3) - (r1 - r2) * S) := by
    rw [← rOf_sub_r3 S hD]; ring
  have e1 : 1 - h * S = ((r1 - r3) - (r1 - r2) * S) / (r1 - r3) := by
    simp only [h]; field_simp
  have e2 : h * S - 1 = -(((r1 - r3) - (r1 - r2) * S) / (r1 - r3)) := by rw [← e1]; ring
  rw [hr, e2, e1]
  simp only [h, m, mR]
  field_simp
  ring

lemma RootsConfig.r_lin {r1 r2 r3 r4 : ℝ} (H : RootsConfig r1 r2 r3 r4) (S : ℝ)
    (hD : (r1 - r3) - (r1 - r2) * S ≠ 0) :
    r3 + (r2 - r3) * (1 / (1 - (r1 - r2) / (r1 - r3) * S)) = rOf r1 r2 r3 S := by
  have h13 := H.ne13
  have hr : rOf r1 r2 r3 S = r3 + (r1 - r3) * (r2 - r3) / ((r1 - r3) - (r1 - r2) * S) := by
    rw [← rOf_sub_r3 S hD]; ring
  have e1 : 1 - (r1 - r2) / (r1 - r3) * S = ((r1 - r3) - (r1 - r2) * S) / (r1 - r3) := by field_simp
  rw [hr, e1]; field_simp

/-- `h_±` -/
noncomputable def hPM (r1 r2 r3 y : ℝ) : ℝ := (r1 - r2) * (r3 - y) / ((r1 - r3) * (r2 - y))

lemma RootsConfig.hPM_lt {r1 r2 r3 r4 : ℝ} (H : RootsConfig r1 r2 r3 r4) {y : ℝ}
    (h2 : y < r2) : hPM r1 r2 r3 y < 1 := by
  have h13 := H.ne13
  have h2' : r2 - y ≠ 0 := by linarith
  have : 1 - hPM r1 r2 r3 y = (r1 - y) * ((r1 - r3) * (r2 - r3)) / ((r1 - r3) ^ 2 * (r2 - y)) := by
    unfold hPM; field_simp; ring
  have hpos : 0 < 1 - hPM r1 r2 r3 y := by
    rw [this]
    have h1 := H.pos13_23
    have h3 : 0 < r1 - y := by linarith [H.h21]
    have h4 : 0 < r2 - y := by linarith
    positivity
  linarith

lemma RootsConfig.r_inv_gen {r1 r2 r3 r4 : ℝ} (H : RootsConfig r1 r2 r3 r4) {y : ℝ} (h2' : r2 - y ≠ 0)
    (h3 : r3 - y ≠ 0) (w : ℝ) (hne : hPM r1 r2 r3 y * sin w ^ 2 ≠ 1) :
    1 / (r3 - y) * (1 - (r2 - r3) / (r2 - y) * (1 / (1 - hPM r1 r2 r3 y * sin w ^ 2)))
      = 1 / (rOf r1 r2 r3 (sin w ^ 2) - y) := by
  have h13 := H.ne13
  have hs : sin w ^ 2 ≤ 1 := sin_sq_le_one _
  have hD := H.denom_ne (sin w) hs
  have hpos : 1 - hPM r1 r2 r3 y * sin w ^ 2 ≠ 0 := fun h => hne (by linarith)
  have e1 : 1 - hPM r1 r2 r3 y * sin w ^ 2
      = ((r1 - r3) * (r2 - y) - (r1 - r2) * (r3 - y) * sin w ^ 2) / ((r1 - r3) * (r2 - y)) := by
    unfold hPM; field_simp
  have hN : (r1 - r3) * (r2 - y) - (r1 - r2) * (r3 - y) * sin w ^ 2 ≠ 0 := by
    intro h; rw [e1, h, zero_div] at hpos; exact hpos rfl
  rw [e1, rOf_sub _ hD, one_div_div, one_div_div]
  have e2 : (r3 - y) * ((r1 - r3) - (r1 - r2) * sin w ^ 2)
      = ((r1 - r3) * (r2 - y) - (r1 - r2) * (r3 - y) * sin w ^ 2) - (r2 - r3) * (r1 - r3) := by ring
  generalize (r1 - r3) * (r2 - y) - (r1 - r2) * (r3 - y) * sin w ^ 2 = N at *
  generalize (r1 - r3) - (r1 - r2) * sin w ^ 2 = D at *
  field_simp
  linear_combination -e2

/-- off the horizon `y` the integrand of the third kind has no pole -/
lemma RootsConfig.no_pole {r1 r2 r3 r4 : ℝ} (H : RootsConfig r1 r2 r3 r4) {y : ℝ} (h2' : r2 - y ≠ 0)
    (w : ℝ) (hr : rOf r1 r2 r3 (sin w ^ 2) ≠ y) : hPM r1 r2 r3 y * sin w ^ 2 ≠ 1 := by
  intro h
  have h13 := H.ne13
  have hD := H.denom_ne (sin w) (sin_sq_le_one _)
  apply hr
  rw [← sub_eq_zero, rOf_sub _ hD]
  have : (r1 - r3) * (r2 - y) - (r1 - r2) * (r3 - y) * sin w ^ 2 = 0 := by
    unfold hPM at h
    field_simp at h
    linarith
  rw [this, zero_div]

/-- The radial part of `Gamma` (frequencies.py:361-389) with `2Υ_r/(π c) = 1/K`. -/
noncomputable def gammaR (a E L : ℝ) (r1 r2 r3 r4 : ℝ) : ℝ :=
  let m := mR r1 r2 r3 r4
  let rPlus := 1 + √(1 - a ^ 2)
  let rMinus := 1 - √(1 - a ^ 2)
  1 / ellipk m * (E / 2
          * ((r3 * (r1 + r2 + r3) - r1 * r2) * ellipk m
            + (r2 - r3) * (r1 + r2 + r3 + r4) * ellippiK ((r1 - r2) / (r1 - r3)) m
            + (r1 - r3) * (r2 - r4) * ellipe m)
        + 2 * E * (r3 * ellipk m + (r2 - r3) * ellippiK ((r1 - r2) / (r1 - r3)) m)
        + 2 / (rPlus - rMinus)
          * (((4 * E - a * L) * rPlus - 2 * a ^ 2 * E) / (r3 - rPlus)
              * (ellipk m - (r2 - r3) / (r2 - rPlus) * ellippiK (hPM r1 r2 r3 rPlus) m)
            - ((4 * E - a * L) * rMinus - 2 * a ^ 2 * E) / (r3 - rMinus)
              * (ellipk m - (r2 - r3) / (r2 - rMinus) * ellippiK (hPM r1 r2 r3 rMinus) m)))

/-- The radial part of `Upsilon_phi` (frequencies.py:264-279). -/
noncomputable def phiR (a E L : ℝ) (r1 r2 r3 r4 : ℝ) : ℝ :=
  let m := mR r1 r2 r3 r4
  let rPlus := 1 + √(1 - a ^ 2)
  let rMinus := 1 - √(1 - a ^ 2)
  a / ((rPlus - rMinus) * ellipk m)
      * ((2 * E * rPlus - a * L) / (r3 - rPlus)
          * (ellipk m - (r2 - r3) / (r2 - rPlus) * ellippiK (hPM r1 r2 r3 rPlus) m)
        - (2 * E * rMinus - a * L) / (r3 - rMinus)
          * (ellipk m - (r2 - r3) / (r2 - rMinus) * ellippiK (hPM r1 r2 r3 rMinus) m))

/-- `_ellippiinc(·, n, m)` is differentiable with the documented integrand at `w` (off the poles) -/
def PiRegular (n m w : ℝ) : Prop :=
  HasDerivAt (fun φ => ellippiincK φ n m) (1 / ((1 - n * sin w ^ 2) * √(1 - m * sin w ^ 2))) w
    ∧ n * sin w ^ 2 ≠ 1

lemma piRegular_of_lt {n m : ℝ} (hn : n < 1) (hm : m < 1) (w : ℝ) : PiRegular n m w := by
  refine ⟨?_, ?_⟩
  · have h : (fun φ => ellippiincK φ n m) = fun φ => Spec.Pi n φ m := by
      funext φ; exact ellippiincK_eq hn hm φ
    rw [h]
    exact (evenPer_Pi hn hm).hasDerivAt w
  · have := one_sub_mul_sin_sq_pos hn w
    intro h; linarith

/-- `dt/dλ` from the radial part of the time coordinate. -/
lemma radial_dt_gen {a E L Q : ℝ} {r1 r2 r3 r4 : ℝ} (H : RootsConfig r1 r2 r3 r4)
    (hE : 0 < 1 - E ^ 2) (h2p' : r2 ≠ 1 + √(1 - a ^ 2)) (h2m' : r2 ≠ 1 - √(1 - a ^ 2))
    (h3p : r3 ≠ 1 + √(1 - a ^ 2)) (h3m : r3 ≠ 1 - √(1 - a ^ 2)) (q0 lam : ℝ)
    (regP : PiRegular (hPM r1 r2 r3 (1 + √(1 - a ^ 2))) (mR r1 r2 r3 r4)
      (amR (mR r1 r2 r3 r4) (rFrequencyCore E (r1, r2, r3, r4) * lam + q0)))
    (regM : PiRegular (hPM r1 r2 r3 (1 - √(1 - a ^ 2))) (mR r1 r2 r3 r4)
      (amR (mR r1 r2 r3 r4) (rFrequencyCore E (r1, r2, r3, r4) * lam + q0))) :
    let U := rFrequencyCore E (r1, r2, r3, r4)
    let R := radialSolutions a (E, L, Q) (r1, r2, r3, r4)
    let rp := 1 + √(1 - a ^ 2)
    let rm := 1 - √(1 - a ^ 2)
    let r := R.pos (U * lam + q0)
    HasDerivAt (fun l => R.dt (U * l + q0))
      (E * r ^ 2 + 2 * E * r + 2 / (rp - rm) * (((4 * E - a * L) * rp - 2 * a ^ 2 * E) / (r - rp)
        - ((4 * E - a * L) * rm - 2 * a ^ 2 * E) / (r - rm)) - gammaR a E L r1 r2 r3 r4) lam
    ∧ HasDerivAt (fun l => R.dphi (U * l + q0))
      (a / (rp - rm) * ((2 * E * rp - a * L) / (r - rp) - (2 * E * rm - a * L) / (r - rm))
        - phiR a E L r1 r2 r3 r4) lam := by
  intro U R rp rm r
  have hm := H.mR_lt
  have hKpos := ellipk_pos hm
  have hK := hKpos.ne'
  have hpi := Real.pi_ne_zero
  obtain ⟨c, hc⟩ : ∃ c, c = √((1 - E ^ 2) * (r1 - r3) * (r2 - r4)) := ⟨_, rfl⟩
  have hc0 : c ≠ 0 := by
    rw [hc]; refine (Real.sqrt_pos.mpr ?_).ne'
    rw [mul_assoc]; exact mul_pos hE H.pos13_24
  have hU : U = π * c / (2 * ellipk (mR r1 r2 r3 r4)) := by
    rw [hc]; exact rFrequencyCore_eq H
  have hq : HasDerivAt (fun l => U * l + q0) (π * c / (2 * ellipk (mR r1 r2 r3 r4))) lam := by
    rw [← hU]
    simpa using ((hasDerivAt_id' lam).const_mul U).add_const q0
  have hRn : (r1 - r2) / (r1 - r3) < 1 := by
    have h13 := H.ne13
    have : 1 - (r1 - r2) / (r1 - r3) = ((r1 - r3) * (r2 - r3)) / (r1 - r3) ^ 2 := by field_simp; ring
    have h2 : 0 < 1 - (r1 - r2) / (r1 - r3) := by
      rw [this]; have := H.pos13_23; positivity
    linarith
  have dR := hasDerivAt_PiOsc hm hq hRn
  have dP := hasDerivAt_PiOsc_of hm hq regP.1 regP.2
  have dM := hasDerivAt_PiOsc_of hm hq regM.1 regM.2
  have dE := (hasDerivAt_EOsc hm hq).add (hasDerivAt_G hm hq hRn)
  have hr : r = rOf r1 r2 r3 (sin (amR (mR r1 r2 r3 r4) (U * lam + q0)) ^ 2) := radial_pos_eq H _
  have h3p' : r3 - rp ≠ 0 := sub_ne_zero.mpr h3p
  have h3m' : r3 - rm ≠ 0 := sub_ne_zero.mpr h3m
  have hs : sin (amR (mR r1 r2 r3 r4) (U * lam + q0)) ^ 2 ≤ 1 := sin_sq_le_one _
  have hD := H.denom_ne _ hs
  have i1 := H.r_sq _ hD
  have i2 := H.r_lin _ hD
  have h2p : r2 - rp ≠ 0 := sub_ne_zero.mpr h2p'
  have h2m : r2 - rm ≠ 0 := sub_ne_zero.mpr h2m'
  have i3 := H.r_inv_gen h2p h3p' (amR (mR r1 r2 r3 r4) (U * lam + q0)) regP.2
  have i4 := H.r_inv_gen h2m h3m' (amR (mR r1 r2 r3 r4) (U * lam + q0)) regM.2
  rw [← hr] at i1 i2 i3 i4
  constructor
  · have hfun : (fun l => R.dt (U * l + q0)) = fun l => 2 / c
        * (E / 2
            * ((r2 - r3) * (r1 + r2 + r3 + r4)
                * (ellippiincK (amR (mR r1 r2 r3 r4) (U * l + q0)) ((r1 - r2) / (r1 - r3)) (mR r1 r2 r3 r4)
                  - (U * l + q0) / π * ellippiK ((r1 - r2) / (r1 - r3)) (mR r1 r2 r3 r4))
              + (r1 - r3) * (r2 - r4)
                * ((ellipeincK (amR (mR r1 r2 r3 r4) (U * l + q0)) (mR r1 r2 r3 r4)
                    - (U * l + q0) / π * ellipe (mR r1 r2 r3 r4))
                  + (r1 - r2) / (r1 - r3) * sin (amR (mR r1 r2 r3 r4) (U * l + q0))
                    * cos (amR (mR r1 r2 r3 r4) (U * l + q0))
                    * √(1 - mR r1 r2 r3 r4 * sin (amR (mR r1 r2 r3 r4) (U * l + q0)) ^ 2)
                    / ((r1 - r2) / (r1 - r3) * sin (amR (mR r1 r2 r3 r4) (U * l + q0)) ^ 2 - 1)))
          + 2 * E * (r2 - r3) * (ellippiincK (amR (mR r1 r2 r3 r4) (U * l + q0)) ((r1 - r2) / (r1 - r3)) (mR r1 r2 r3 r4)
              - (U * l + q0) / π * ellippiK ((r1 - r2) / (r1 - r3)) (mR r1 r2 r3 r4))
          - 2 / (rp - rm)
            * (((4 * E - a * L) * rp - 2 * a ^ 2 * E) * (r2 - r3)
                / ((r3 - rp) * (r2 - rp))
                * (ellippiincK (amR (mR r1 r2 r3 r4) (U * l + q0)) (hPM r1 r2 r3 rp) (mR r1 r2 r3 r4)
                  - (U * l + q0) / π * ellippiK (hPM r1 r2 r3 rp) (mR r1 r2 r3 r4))
              - ((4 * E - a * L) * rm - 2 * a ^ 2 * E) * (r2 - r3)
                / ((r3 - rm) * (r2 - rm))
                * (ellippiincK (amR (mR r1 r2 r3 r4) (U * l + q0)) (hPM r1 r2 r3 rm) (mR r1 r2 r3 r4)
                  - (U * l + q0) / π * ellippiK (hPM r1 r2 r3 rm) (mR r1 r2 r3 r4)))) := by
      funext l
      simp only [R, radialSolutions, H.sq_k, ← hc, ellipj, amR, hPM]
      ring
    rw [hfun]
    have hd := ((((dR.const_mul ((r2 - r3) * (r1 + r2 + r3 + r4))).add
      (dE.const_mul ((r1 - r3) * (r2 - r4)))).const_mul (E / 2)).add
      (dR.const_mul (2 * E * (r2 - r3)))).sub
      (((dP.const_mul (((4 * E - a * L) * rp - 2 * a ^ 2 * E) * (r2 - r3) / ((r3 - rp) * (r2 - rp)))).sub
        (dM.const_mul (((4 * E - a * L) * rm - 2 * a ^ 2 * E) * (r2 - r3) / ((r3 - rm) * (r2 - rm))))).const_mul
        (2 / (rp - rm)))
    refine (hd.const_mul (2 / c)).congr_deriv ?_
    clear hd hfun dR dP dM dE regP regM
    simp only [gammaR]
    change _ = E * r ^ 2 + 2 * E * r + 2 / (rp - rm) * (((4 * E - a * L) * rp - 2 * a ^ 2 * E) / (r - rp)
        - ((4 * E - a * L) * rm - 2 * a ^ 2 * E) / (r - rm)) - 1 / ellipk (mR r1 r2 r3 r4) * (E / 2
          * ((r3 * (r1 + r2 + r3) - r1 * r2) * ellipk (mR r1 r2 r3 r4)
            + (r2 - r3) * (r1 + r2 + r3 + r4) * ellippiK ((r1 - r2) / (r1 - r3)) (mR r1 r2 r3 r4)
            + (r1 - r3) * (r2 - r4) * ellipe (mR r1 r2 r3 r4))
        + 2 * E * (r3 * ellipk (mR r1 r2 r3 r4) + (r2 - r3) * ellippiK ((r1 - r2) / (r1 - r3)) (mR r1 r2 r3 r4))
        + 2 / (rp - rm)
          * (((4 * E - a * L) * rp - 2 * a ^ 2 * E) / (r3 - rp)
              * (ellipk (mR r1 r2 r3 r4) - (r2 - r3) / (r2 - rp) * ellippiK (hPM r1 r2 r3 rp) (mR r1 r2 r3 r4))
            - ((4 * E - a * L) * rm - 2 * a ^ 2 * E) / (r3 - rm)
              * (ellipk (mR r1 r2 r3 r4) - (r2 - r3) / (r2 - rm) * ellippiK (hPM r1 r2 r3 rm) (mR r1 r2 r3 r4))))
    rw [div_eq_mul_one_div _ (r - rp), div_eq_mul_one_div _ (r - rm), ← i3, ← i4, ← i2,
      show E * (r3 + (r2 - r3) * (1 / (1 - (r1 - r2) / (r1 - r3) * sin (amR (mR r1 r2 r3 r4) (U * lam + q0)) ^ 2))) ^ 2
        = E / 2 * (2 * r ^ 2) by rw [i2]; ring, ← i1]
    clear i1 i2 i3 i4 hq hr
    generalize 1 / (1 - (r1 - r2) / (r1 - r3) * sin (amR (mR r1 r2 r3 r4) (U * lam + q0)) ^ 2) = X1
    generalize 1 / (1 - hPM r1 r2 r3 rp * sin (amR (mR r1 r2 r3 r4) (U * lam + q0)) ^ 2) = X2
    generalize 1 / (1 - hPM r1 r2 r3 rm * sin (amR (mR r1 r2 r3 r4) (U * lam + q0)) ^ 2) = X3
    generalize (r1 - r2) / (r1 - r3) * (((1 - 2 * sin (amR (mR r1 r2 r3 r4) (U * lam + q0)) ^ 2)
        * (1 - mR r1 r2 r3 r4 * sin (amR (mR r1 r2 r3 r4) (U * lam + q0)) ^ 2)
        - mR r1 r2 r3 r4 * sin (amR (mR r1 r2 r3 r4) (U * lam + q0)) ^ 2
          * (1 - sin (amR (mR r1 r2 r3 r4) (U * lam + q0)) ^ 2))
        * ((r1 - r2) / (r1 - r3) * sin (amR (mR r1 r2 r3 r4) (U * lam + q0)) ^ 2 - 1)
        - 2 * ((r1 - r2) / (r1 - r3)) * sin (amR (mR r1 r2 r3 r4) (U * lam + q0)) ^ 2
          * (1 - sin (amR (mR r1 r2 r3 r4) (U * lam + q0)) ^ 2)
          * (1 - mR r1 r2 r3 r4 * sin (amR (mR r1 r2 r3 r4) (U * lam + q0)) ^ 2))
        / ((r1 - r2) / (r1 - r3) * sin (amR (mR r1 r2 r3 r4) (U * lam + q0)) ^ 2 - 1) ^ 2 = X4
    generalize mR r1 r2 r3 r4 * sin (amR (mR r1 r2 r3 r4) (U * lam + q0)) ^ 2 = X5
    generalize ellippiK ((r1 - r2) / (r1 - r3)) (mR r1 r2 r3 r4) = P1
    generalize ellippiK (hPM r1 r2 r3 rp) (mR r1 r2 r3 r4) = P2
    generalize ellippiK (hPM r1 r2 r3 rm) (mR r1 r2 r3 r4) = P3
    generalize ellipe (mR r1 r2 r3 r4) = P4
    generalize ellipk (mR r1 r2 r3 r4) = K at *
    clear_value rp rm
    generalize hZ : 2 / (rp - rm) = Z
    field_simp
    ring
  · have hfun : (fun l => R.dphi (U * l + q0)) = fun l =>
      (-2) * a / ((rp - rm) * c)
        * ((2 * E * rp - a * L) * (r2 - r3) / ((r3 - rp) * (r2 - rp))
            * (ellippiincK (amR (mR r1 r2 r3 r4) (U * l + q0)) (hPM r1 r2 r3 rp) (mR r1 r2 r3 r4)
                  - (U * l + q0) / π * ellippiK (hPM r1 r2 r3 rp) (mR r1 r2 r3 r4))
          - (2 * E * rm - a * L) * (r2 - r3) / ((r3 - rm) * (r2 - rm))
            * (ellippiincK (amR (mR r1 r2 r3 r4) (U * l + q0)) (hPM r1 r2 r3 rm) (mR r1 r2 r3 r4)
                  - (U * l + q0) / π * ellippiK (hPM r1 r2 r3 rm) (mR r1 r2 r3 r4))) := by
      funext l
      simp only [R, radialSolutions, H.sq_k, ← hc, ellipj, amR, hPM, rp, rm]
    rw [hfun]
    have hd := ((dP.const_mul ((2 * E * rp - a * L) * (r2 - r3) / ((r3 - rp) * (r2 - rp)))).sub
        (dM.const_mul ((2 * E * rm - a * L) * (r2 - r3) / ((r3 - rm) * (r2 - rm))))).const_mul
        ((-2) * a / ((rp - rm) * c))
    refine hd.congr_deriv ?_
    clear hd hfun dR dP dM dE regP regM
    simp only [phiR]
    change _ = a / (rp - rm) * ((2 * E * rp - a * L) / (r - rp) - (2 * E * rm - a * L) / (r - rm))
       - a / ((rp - rm) * ellipk (mR r1 r2 r3 r4))
      * ((2 * E * rp - a * L) / (r3 - rp)
          * (ellipk (mR r1 r2 r3 r4) - (r2 - r3) / (r2 - rp) * ellippiK (hPM r1 r2 r3 rp) (mR r1 r2 r3 r4))
        - (2 * E * rm - a * L) / (r3 - rm)
          * (ellipk (mR r1 r2 r3 r4) - (r2 - r3) / (r2 - rm) * ellippiK (hPM r1 r2 r3 rm) (mR r1 r2 r3 r4)))
    rw [div_eq_mul_one_div _ (r - rp), div_eq_mul_one_div _ (r - rm), ← i3, ← i4]
    clear i1 i2 i3 i4 hq hr
    generalize 1 / (1 - hPM r1 r2 r3 rp * sin (amR (mR r1 r2 r3 r4) (U * lam + q0)) ^ 2) = X2
    generalize 1 / (1 - hPM r1 r2 r3 rm * sin (amR (mR r1 r2 r3 r4) (U * lam + q0)) ^ 2) = X3
    generalize ellippiK (hPM r1 r2 r3 rp) (mR r1 r2 r3 r4) = P2
    generalize ellippiK (hPM r1 r2 r3 rm) (mR r1 r2 r3 r4) = P3
    generalize ellipk (mR r1 r2 r3 r4) = K at *
    clear_value rp rm
    rw [show (-2) * a / ((rp - rm) * c) = a / (rp - rm) * (-2 / c) by
      rw [div_mul_div_comm]; ring, show a / ((rp - rm) * K) = a / (rp - rm) * (1 / K) by
      rw [div_mul_div_comm]; ring]
    generalize a / (rp - rm) = Z
    field_simp
    ring

/-- For orbits that stay outside the horizon. -/
lemma radial_dt {a E L Q : ℝ} {r1 r2 r3 r4 : ℝ} (H : RootsConfig r1 r2 r3 r4)
    (hE : 0 < 1 - E ^ 2) (hp : 1 + √(1 - a ^ 2) < r2) (h3p : r3 ≠ 1 + √(1 - a ^ 2))
    (h3m : r3 ≠ 1 - √(1 - a ^ 2)) (q0 lam : ℝ) :
    let U := rFrequencyCore E (r1, r2, r3, r4)
    let R := radialSolutions a (E, L, Q) (r1, r2, r3, r4)
    let rp := 1 + √(1 - a ^ 2)
    let rm := 1 - √(1 - a ^ 2)
    let r := R.pos (U * lam + q0)
    HasDerivAt (fun l => R.dt (U * l + q0))
      (E * r ^ 2 + 2 * E * r + 2 / (rp - rm) * (((4 * E - a * L) * rp - 2 * a ^ 2 * E) / (r - rp)
        - ((4 * E - a * L) * rm - 2 * a ^ 2 * E) / (r - rm)) - gammaR a E L r1 r2 r3 r4) lam
    ∧ HasDerivAt (fun l => R.dphi (U * l + q0))
      (a / (rp - rm) * ((2 * E * rp - a * L) / (r - rp) - (2 * E * rm - a * L) / (r - rm))
        - phiR a E L r1 r2 r3 r4) lam := by
  have hsq := Real.sqrt_nonneg (1 - a ^ 2)
  have hrm : 1 - √(1 - a ^ 2) < r2 := by linarith
  exact radial_dt_gen H hE hp.ne' hrm.ne' h3p h3m q0 lam (piRegular_of_lt (H.hPM_lt hp) H.mR_lt _)
    (piRegular_of_lt (H.hPM_lt hrm) H.mR_lt _)

end KGP
