import Verif.Lemmas.Precession
import Verif.Props.KerrOrbits
import Verif.Props.StableIff
import Mathlib.Analysis.SpecialFunctions.Integrals.Basic

/-!
# Limits of bound orbits at the separatrix
-/

namespace KGP

open Classical Real Filter Topology

/-! ## `K(m)` diverges as `m → 1` -/

lemma ellipk_ge_log {m : ℝ} (h0 : 0 ≤ m) (hm : m < 1) : log (1 + π / 2 / √(1 - m)) ≤ ellipk m := by
  have hd : 0 < √(1 - m) := Real.sqrt_pos.mpr (by linarith)
  have hd2 : √(1 - m) ^ 2 = 1 - m := Real.sq_sqrt (by linarith)
  have hpi := Real.pi_pos
  generalize hdd : √(1 - m) = d at *
  have hder : ∀ t ∈ Set.uIcc 0 (π / 2), HasDerivAt (fun t => -log (d + π / 2 - t)) (1 / (d + π / 2 - t)) t := by
    intro t ht
    rw [Set.uIcc_of_le (by positivity)] at ht
    have hne : d + π / 2 - t ≠ 0 := by linarith [ht.2]
    refine ((((hasDerivAt_id t).const_sub (d + π / 2)).log hne).neg).congr_deriv ?_
    simp [neg_div]
  have hcont : ContinuousOn (fun t => 1 / (d + π / 2 - t)) (Set.uIcc 0 (π / 2)) := by
    refine ContinuousOn.div continuousOn_const (by fun_prop) fun t ht => ?_
    rw [Set.uIcc_of_le (by positivity)] at ht
    linarith [ht.2]
  have hint := intervalIntegral.integral_eq_sub_of_hasDerivAt hder hcont.intervalIntegrable
  have hle : ∫ t in (0:ℝ)..(π / 2), 1 / (d + π / 2 - t) ≤ ellipk m := by
    unfold ellipk
    refine intervalIntegral.integral_mono_on (by positivity) hcont.intervalIntegrable ((cont_K hm).intervalIntegrable _ _)
      fun t ht => ?_
    have h1 := one_sub_mul_sin_sq_pos hm t
    refine one_div_le_one_div_of_le (Real.sqrt_pos.mpr h1) ?_
    refine Real.sqrt_le_iff.mpr ⟨by linarith [ht.2], ?_⟩
    have hc : cos t ≤ π / 2 - t := by
      rw [← Real.sin_pi_div_two_sub]; exact Real.sin_le (by linarith [ht.2])
    have hc0 : 0 ≤ cos t := Real.cos_nonneg_of_mem_Icc ⟨by linarith [ht.1], by linarith [ht.2]⟩
    have hs := Real.sin_sq_add_cos_sq t
    have hcc : cos t ^ 2 ≤ (π / 2 - t) ^ 2 := by gcongr
    have : 0 ≤ d * (π / 2 - t) := mul_nonneg hd.le (by linarith [ht.2])
    have e : 1 - m * sin t ^ 2 = d ^ 2 + m * cos t ^ 2 := by rw [hd2]; linear_combination -m * hs
    have : m * cos t ^ 2 ≤ cos t ^ 2 := by nlinarith [sq_nonneg (cos t)]
    rw [e]; nlinarith
  rw [hint] at hle
  refine le_trans (le_of_eq ?_) hle
  have e1 : d + π / 2 - π / 2 = d := by ring
  rw [e1, sub_zero, neg_sub_neg, ← Real.log_div (by positivity) hd.ne']
  congr 1
  field_simp

lemma ellipk_tendsto {ι : Type*} {l : Filter ι} {m : ι → ℝ} (h0 : ∀ᶠ i in l, 0 ≤ m i ∧ m i < 1)
    (hm : Tendsto m l (𝓝 1)) : Tendsto (fun i => ellipk (m i)) l atTop := by
  have hd : Tendsto (fun i => √(1 - m i)) l (𝓝[>] 0) := by
    refine tendsto_nhdsWithin_iff.mpr ⟨?_, ?_⟩
    · have : Tendsto (fun i => √(1 - m i)) l (𝓝 √(1 - 1)) := (tendsto_const_nhds.sub hm).sqrt
      simpa using this
    · filter_upwards [h0] with i hi
      exact Real.sqrt_pos.mpr (by linarith [hi.2])
  have h2 : Tendsto (fun i => log (1 + π / 2 / √(1 - m i))) l atTop := by
    refine Real.tendsto_log_atTop.comp (tendsto_const_nhds.add_atTop ?_)
    simp only [div_eq_mul_inv (π / 2)]
    exact (tendsto_inv_nhdsGT_zero.comp hd).const_mul_atTop (by positivity)
  refine tendsto_atTop_mono' l ?_ h2
  filter_upwards [h0] with i hi
  exact ellipk_ge_log hi.1 hi.2

/-! ## a limit of stable orbits with `r3 < r2` is a stable orbit -/

lemma two_le_S {a E L Q r1 r2 r3 r4 : ℝ} (hR : Spec.RadialRoots a E L Q r1 r2 r3 r4) (hb : 0 < 1 - E ^ 2)
    (h1 : 1 ≤ r1) (h2 : 1 ≤ r2) (h3 : 1 ≤ r3) (h4 : 0 ≤ r4) : 2 ≤ L ^ 2 + Q + a ^ 2 * (1 - E ^ 2) := by
  obtain ⟨v1, v2, -, v4⟩ := RadialRoots.vieta hR
  have key : r1 + r2 + r3 + r4 ≤ r1 * r2 + r1 * r3 + r1 * r4 + r2 * r3 + r2 * r4 + r3 * r4 := by
    have k1 : 0 ≤ (r1 - 1) * (r2 - 1) := mul_nonneg (by linarith) (by linarith)
    have k2 : 0 ≤ (r1 - 1) * (r3 - 1) := mul_nonneg (by linarith) (by linarith)
    have k3 : 0 ≤ (r2 - 1) * (r3 - 1) := mul_nonneg (by linarith) (by linarith)
    have k4 : 0 ≤ (r1 - 1) * r4 := mul_nonneg (by linarith) h4
    have k5 : 0 ≤ (r2 - 1) * r4 := mul_nonneg (by linarith) h4
    have k6 : 0 ≤ (r3 - 1) * r4 := mul_nonneg (by linarith) h4
    linarith
  have := mul_le_mul_of_nonneg_left key hb.le
  linarith

lemma zero_energy {a L Q r : ℝ} (ha : 0 ≤ a) (hA : a ^ 2 < 1) (hL : L ≠ 0) (hQ : 0 ≤ Q) (hr : 1 + √(1 - a ^ 2) < r)
    (h : 2 < r ∨ a = 0) (hR : Spec.R a 0 L Q r = 0) : False := by
  unfold Spec.R Spec.Delta at hR
  have hL2 : 0 < L ^ 2 := by positivity
  have hs := Real.sqrt_nonneg (1 - a ^ 2)
  have hr0 : 0 < r := by linarith
  have hD : 0 < r ^ 2 - 2 * r + a ^ 2 := by
    have h1 := Real.sq_sqrt (show 0 ≤ 1 - a ^ 2 by linarith)
    have h2 : √(1 - a ^ 2) ^ 2 < (r - 1) ^ 2 := by gcongr; linarith
    linarith
  have hrq : 0 < r ^ 2 + Q := by positivity
  have h3 : 0 < (r ^ 2 - 2 * r + a ^ 2) * (r ^ 2 + Q) := mul_pos hD hrq
  have h4 : 0 ≤ (r ^ 2 - 2 * r) * L ^ 2 := by
    refine mul_nonneg ?_ hL2.le
    rcases h with h | h
    · have : 0 < r * (r - 2) := mul_pos hr0 (by linarith)
      linarith
    · rw [h] at hD; linarith
  linarith

lemma limit_stable {a p e x E L Q r3 r4 : ℝ} (ha : 0 ≤ a) (ha1 : a < 1) (he : 0 ≤ e) (he1 : e < 1) (hx0 : x ≠ 0)
    (hx1 : x ^ 2 ≤ 1) (hp : 0 < p) (hret : x < 0 → 2 < p / (1 + e)) (hE : 0 ≤ E) (hL : 0 ≤ Real.sign x * L) (hQ : 0 ≤ Q)
    (hZ : Spec.Zpol a E L Q (1 - x ^ 2) = 0)
    (hR : Spec.RadialRoots a E L Q (p / (1 - e)) (p / (1 + e)) r3 r4) (h3 : 1 + √(1 - a ^ 2) ≤ r3)
    (h4 : 0 ≤ r4) (h43 : r4 ≤ 1 - √(1 - a ^ 2)) (h32 : r3 < p / (1 + e))
    (hf : 0 < x → a * L ≤ E * ((p / (1 + e)) ^ 2 + a ^ 2)) : Spec.StableOrbit a p e x := by
  unfold Spec.StableOrbit
  obtain ⟨v1, v2, -, v4⟩ := RadialRoots.vieta hR
  have hA : a ^ 2 < 1 := by nlinarith
  have hs : 0 < √(1 - a ^ 2) := Real.sqrt_pos.mpr (by linarith)
  have h21 : p / (1 + e) ≤ p / (1 - e) := by
    apply div_le_div_of_nonneg_left hp.le (by linarith) (by linarith)
  have hR2 := hR (p / (1 + e))
  generalize p / (1 + e) = r2 at *
  generalize p / (1 - e) = r1 at *
  have hsum : 0 < r1 + r2 + r3 + r4 := by linarith
  have hb : 0 < 1 - E ^ 2 := by
    by_contra h
    push Not at h
    have := mul_nonneg (neg_nonneg.mpr h) hsum.le
    linarith
  have hE1 : E < 1 := by nlinarith
  have hSB : 2 ≤ L ^ 2 + Q + a ^ 2 * (1 - E ^ 2) :=
    two_le_S hR hb (by linarith) (by linarith) (by linarith) h4
  have hB0 : 0 ≤ a ^ 2 * (1 - E ^ 2) := by positivity
  have hB1 : a ^ 2 * (1 - E ^ 2) < 1 := by nlinarith [sq_nonneg E, sq_nonneg a]
  have hx2 : 0 < x ^ 2 := by positivity
  have hL0 : L ≠ 0 := by
    rintro rfl
    unfold Spec.Zpol at hZ
    have h1 : x ^ 2 * (0 ^ 2 + Q - a ^ 2 * (1 - E ^ 2) * (1 - x ^ 2)) = 0 := by linear_combination hZ
    have h2 := (mul_eq_zero.mp h1).resolve_left hx2.ne'
    have h3 : a ^ 2 * (1 - E ^ 2) * (1 - x ^ 2) ≤ a ^ 2 * (1 - E ^ 2) := by nlinarith
    linarith
  have hL' : Real.sign L = Real.sign x := by
    rcases lt_or_gt_of_ne hx0 with k | k
    · rw [Real.sign_of_neg k] at hL ⊢
      exact Real.sign_of_neg (lt_of_le_of_ne (by linarith) hL0)
    · rw [Real.sign_of_pos k] at hL ⊢
      exact Real.sign_of_pos (lt_of_le_of_ne (by linarith) (Ne.symm hL0))
  have hE0 : 0 < E := by
    rcases eq_or_lt_of_le hE with h | h
    · exfalso
      subst h
      have hR0 : Spec.R a 0 L Q r2 = 0 := by rw [hR2]; ring
      have hr2 : 1 + √(1 - a ^ 2) < r2 := by linarith
      refine zero_energy ha hA hL0 hQ hr2 ?_ hR0
      rcases lt_or_gt_of_ne hx0 with k | k
      · exact Or.inl (hret k)
      · have h1 := hf k
        rw [Real.sign_of_pos k, one_mul] at hL
        have h2 : a * L = 0 := le_antisymm (by linarith) (mul_nonneg ha hL)
        exact Or.inr ((mul_eq_zero.mp h2).resolve_right hL0)
    · exact h
  exact ⟨by linarith, E, L, Q, r3, r4, hE0, hE1, hL', hQ, hZ, hR, by linarith, h32⟩

/-- Compactness: if every limit point of a bounded family is excluded unless it lies in `S`, ... -/
lemma tendsto_of_limit_points {ι : Type*} {l : Filter ι} {F : ι → ℝ × ℝ × ℝ × ℝ × ℝ} {K : Set (ℝ × ℝ × ℝ × ℝ × ℝ)}
    (hK : IsCompact K) (hF : ∀ᶠ i in l, F i ∈ K) {g : ι → ℝ} {c : ℝ}
    (h : ∀ u : Ultrafilter ι, ↑u ≤ l → ∀ y ∈ K, Tendsto F u (𝓝 y) → Tendsto g u (𝓝 c)) : Tendsto g l (𝓝 c) := by
  rw [tendsto_iff_ultrafilter]
  intro u hu
  have hKu : F ⁻¹' K ∈ (u : Filter ι) := hu hF
  obtain ⟨y, hy, hyu⟩ := hK.ultrafilter_le_nhds (u.map F) (le_principal_iff.mpr hKu)
  exact h u hu y hy hyu

/-! ## the divisors of `energy` and `angular_momentum` vanish for finitely many `p` only -/

/-- A polynomial function. -/
def IsPoly (f : ℝ → ℝ) : Prop := ∃ P : Polynomial ℝ, ∀ t, f t = P.eval t

namespace IsPoly
lemma const (c : ℝ) : IsPoly fun _ => c := ⟨Polynomial.C c, fun t => by simp⟩
lemma id : IsPoly fun t => t := ⟨Polynomial.X, fun t => by simp⟩
lemma add {f g : ℝ → ℝ} (hf : IsPoly f) (hg : IsPoly g) : IsPoly fun t => f t + g t := by
  obtain ⟨P, hP⟩ := hf
  obtain ⟨R, hR⟩ := hg
  exact ⟨P + R, fun t => by simp [hP, hR]⟩
lemma mul {f g : ℝ → ℝ} (hf : IsPoly f) (hg : IsPoly g) : IsPoly fun t => f t * g t := by
  obtain ⟨P, hP⟩ := hf
  obtain ⟨R, hR⟩ := hg
  exact ⟨P * R, fun t => by simp [hP, hR]⟩
lemma sub {f g : ℝ → ℝ} (hf : IsPoly f) (hg : IsPoly g) : IsPoly fun t => f t - g t := by
  obtain ⟨P, hP⟩ := hf
  obtain ⟨R, hR⟩ := hg
  exact ⟨P - R, fun t => by simp [hP, hR]⟩
lemma pow {f : ℝ → ℝ} (hf : IsPoly f) (n : ℕ) : IsPoly fun t => f t ^ n := by
  obtain ⟨P, hP⟩ := hf
  exact ⟨P ^ n, fun t => by simp [hP]⟩
lemma divc {f : ℝ → ℝ} (hf : IsPoly f) (c : ℝ) : IsPoly fun t => f t / c := by
  obtain ⟨P, hP⟩ := hf
  exact ⟨P * Polynomial.C c⁻¹, fun t => by simp [hP, div_eq_mul_inv]⟩

lemma finite {f : ℝ → ℝ} (hf : IsPoly f) {t : ℝ} (ht : f t ≠ 0) : {t | f t = 0}.Finite := by
  obtain ⟨P, hP⟩ := hf
  have hP0 : P ≠ 0 := by rintro rfl; exact ht (by simp [hP])
  refine (P.roots.toFinset.finite_toSet).subset fun t ht => ?_
  simp only [Set.mem_setOf_eq] at ht
  simp [hP0, ← hP, ht]
end IsPoly

lemma regular_of_four_lt {a p e x : ℝ} (ha1 : a ^ 2 ≤ 1) (hp : 4 < p) (he : 0 ≤ e) (he1 : e < 1)
    (hx0 : x ≠ 0) (hx : x ^ 2 ≤ 1) : Schmidt.Regular a p e x := by
  have hA : 0 ≤ a ^ 2 := sq_nonneg a
  have hw : 0 ≤ 1 - x ^ 2 := by linarith
  have hw1 : 1 - x ^ 2 ≤ 1 := by linarith [sq_nonneg x]
  have hl : 0 < 1 - e ^ 2 := by nlinarith
  have hl1 : 1 - e ^ 2 ≤ 1 := by linarith [sq_nonneg e]
  have hm : 0 < 1 - e := by linarith
  have hpl : 0 < 1 + e := by linarith
  have hr : 2 < p / (1 - e) := by rw [lt_div_iff₀ hm]; linarith
  have hu : p / (1 - e) + p / (1 + e) = 2 * p / (1 - e ^ 2) := by
    have : (1 - e ^ 2) = (1 - e) * (1 + e) := by ring
    rw [this]; field_simp; ring
  have hv : p / (1 - e) * (p / (1 + e)) = p ^ 2 / (1 - e ^ 2) := by
    have : (1 - e ^ 2) = (1 - e) * (1 + e) := by ring
    rw [this]; field_simp
  obtain ⟨-, -, -, -, -, -, s7, -⟩ := Schmidt.scale (p := p) (A := a ^ 2) (w := 1 - x ^ 2) hl.ne'
  rw [(Schmidt.formulas_eq (a := a) (by linarith : 0 < p) he he1 hx0 hx rfl rfl).2.2, hu, hv, s7]
  have k5 := Schmidt.WS_pos hp hl hl1 hA ha1 hw hw1
  refine ⟨by positivity, ?_⟩
  have hz : √(1 - x ^ 2) ^ 2 = 1 - x ^ 2 := Real.sq_sqrt hw
  simp only [coefficients, hz]
  generalize p / (1 - e) = r at *
  have h1 : 0 < r * (r - 2) := mul_pos (by linarith) (by linarith)
  have h2 : 0 ≤ (1 - x ^ 2) / (1 - (1 - x ^ 2)) := div_nonneg hw (by nlinarith)
  have h3 : 0 ≤ r ^ 2 - 2 * r + a ^ 2 := by nlinarith
  have := mul_nonneg h2 h3
  linarith

lemma irregular_finite {a e x : ℝ} (ha1 : a ^ 2 ≤ 1) (he : 0 ≤ e) (he1 : e < 1)
    (hx0 : x ≠ 0) (hx : x ^ 2 ≤ 1) : {p | ¬ Schmidt.Regular a p e x}.Finite := by
  have h5 := regular_of_four_lt ha1 (show (4:ℝ) < 5 by norm_num) he he1 hx0 hx
  unfold Schmidt.Regular at h5 ⊢
  simp only at h5 ⊢
  obtain ⟨w1, w2⟩ := h5
  have ph : IsPoly fun p => (coefficients (p / (1 - e)) a x).h := by
    simp only [coefficients]
    repeat' first
      | exact IsPoly.const _ | exact IsPoly.id | apply IsPoly.sub | apply IsPoly.add | apply IsPoly.mul
      | apply IsPoly.pow | apply IsPoly.divc
  have pW : IsPoly fun p => ((coefficients (p / (1 - e)) a x).f
        * (if e = 0 then coefficientsDerivative p a x else coefficients (p / (1 + e)) a x).h
      - (coefficients (p / (1 - e)) a x).h
        * (if e = 0 then coefficientsDerivative p a x else coefficients (p / (1 + e)) a x).f) ^ 2
      + 4 * ((coefficients (p / (1 - e)) a x).f
          * (if e = 0 then coefficientsDerivative p a x else coefficients (p / (1 + e)) a x).g
        - (coefficients (p / (1 - e)) a x).g
          * (if e = 0 then coefficientsDerivative p a x else coefficients (p / (1 + e)) a x).f)
      * ((coefficients (p / (1 - e)) a x).g
          * (if e = 0 then coefficientsDerivative p a x else coefficients (p / (1 + e)) a x).h
        - (coefficients (p / (1 - e)) a x).h
          * (if e = 0 then coefficientsDerivative p a x else coefficients (p / (1 + e)) a x).g) := by
    by_cases h0 : e = 0
    · simp only [if_pos h0, coefficients, coefficientsDerivative]
      repeat' first
        | exact IsPoly.const _ | exact IsPoly.id | apply IsPoly.sub | apply IsPoly.add | apply IsPoly.mul
        | apply IsPoly.pow | apply IsPoly.divc
    · simp only [if_neg h0, coefficients]
      repeat' first
        | exact IsPoly.const _ | exact IsPoly.id | apply IsPoly.sub | apply IsPoly.add | apply IsPoly.mul
        | apply IsPoly.pow | apply IsPoly.divc
  refine ((pW.finite w1).union (ph.finite w2)).subset fun p hp => ?_
  simp only [Set.mem_setOf_eq, not_and_or, not_not] at hp
  exact hp

end KGP
