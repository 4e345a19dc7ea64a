import Verif.Props.ConstantsKerr
import Verif.Props.Future
import Verif.Lemmas.SchmidtInner
import Verif.Lemmas.SepParabola

/-!
# C16: `is_stable` is physically right

`is_stable` compares `p` with a zero of a polynomial.  The theorems say that for `p > 4` this decides
whether the orbit with the turning points `p/(1-e)`, `p/(1+e)` and inclination `x` is stable: whether the
next root of its radial potential lies strictly below `p/(1+e)`.
-/

namespace KGP

open Classical Real SepCert

/-- Turning points from the roots of the potential. -/
lemma RadialRoots.turning {a E L Q p e r3 r4 : ℝ}
    (hR : Spec.RadialRoots a E L Q (p / (1 - e)) (p / (1 + e)) r3 r4) :
    Spec.TurningPoints a E L Q p e := by
  refine ⟨by rw [hR]; ring, by rw [hR]; ring, ?_⟩
  rintro rfl
  have hR' : ∀ r, Spec.R a E L Q r = (r - p) * (-((1 - E ^ 2) * ((r - p) * (r - r3) * (r - r4)))) := by
    intro r; rw [hR]; norm_num; ring
  have h1 : HasDerivAt (fun r : ℝ => r - p) 1 p := (hasDerivAt_id p).sub_const p
  have h2 : DifferentiableAt ℝ (fun r : ℝ => -((1 - E ^ 2) * ((r - p) * (r - r3) * (r - r4)))) p := by
    fun_prop
  have h3 := h1.mul h2.hasDerivAt
  have h4 : Spec.R a E L Q = (fun r : ℝ => r - p) *
      (fun r : ℝ => -((1 - E ^ 2) * ((r - p) * (r - r3) * (r - r4)))) := by
    funext r; rw [hR']; rfl
  rw [h4, h3.deriv]
  simp

/-- The polar root determines `Q`. -/
lemma carter_of_zpol {a x E L Q : ℝ} (hx : x ^ 2 ≤ 1) (hx0 : x ≠ 0)
    (hZ : Spec.Zpol a E L Q (1 - x ^ 2) = 0) : Q = carterFormula a x E L := by
  rw [carterFormula_eq hx]
  have hx2 : x ^ 2 ≠ 0 := by positivity
  unfold Spec.Zpol at hZ
  field_simp
  linear_combination hZ

/-- The value `separatrix` returns, if it is at least 4, is *the* point where the ratio is `2√2 a x`. -/
lemma ratio_separatrix {a e x s : ℝ} (ha : 0 < a) (ha1 : a < 1) (he : 0 ≤ e) (he1 : e ≤ 1)
    (hx0 : x ≠ 0) (hl : -1 ≤ x) (hr : x ≤ 1) (hs : 4 ≤ s) (hv : IsSeparatrixValue a e x s) :
    ratio s (a ^ 2) e (1 - x ^ 2) = 2 * √2 * a * x := by
  have hA : a ^ 2 ≤ 1 := by nlinarith
  have hx : x ^ 2 ≤ 1 := by nlinarith
  have hw : 0 ≤ 1 - x ^ 2 := by linarith
  have hw1 : 1 - x ^ 2 ≤ 1 := by linarith [sq_nonneg x]
  have hpl := polarLo_bounds.1
  have hsq := (ratio_sq_of_zero ha.le hA he he1 hx hs).mp (hv.generic ha.ne')
  have h20 : 0 < √(2:ℝ) := Real.sqrt_pos.mpr (by norm_num)
  have hanti := ratio_strictAnti (sq_nonneg a) hA he he1 hw hw1
  rcases lt_or_gt_of_ne hx0 with hneg | hpos
  · have hc : 2 * √2 * a * x < 0 := mul_neg_of_pos_of_neg (by positivity) hneg
    -- a point `q ≤ s` where the polynomial is negative
    have key : ∃ q, 4 ≤ q ∧ q ≤ s ∧ SFull q a e x < 0 := by
      rcases eq_or_lt_of_le hl with h | h
      · obtain ⟨-, h2, -⟩ := hv.retrograde ha.ne' h.symm
        refine ⟨6 + 2 * e, by linarith, h2, ?_⟩
        rw [← h, SFull_neg_one]
        exact mul_neg_of_pos_of_neg (by positivity) (SEq_mid_neg ha.ne' hA he he1)
      · obtain ⟨pp, h1, h2, h3, -⟩ := hv.generic_retrograde ha.ne' h hneg
        exact ⟨pp, by unfold polarLo at hpl; linarith, h3, SFull_polar_neg ha.ne' hA he he1 hx hx0 h2 h1⟩
    obtain ⟨q, hq4, hqs, hq⟩ := key
    have hne : q ≠ s := by
      rintro rfl
      rw [hv.generic ha.ne'] at hq; exact lt_irrefl _ hq
    have hlt := hanti (Set.mem_Ici.mpr hq4) (Set.mem_Ici.mpr hs) (lt_of_le_of_ne hqs hne)
    simp only at hlt
    have hqq := ratio_sq_of_nonpos ha.le hA he he1 hx hq4 hq.le
    rw [← hsq] at hqq
    rcases sq_eq_sq_iff_eq_or_eq_neg.mp hsq with h | h
    · exact h
    · exfalso
      have h1 : 0 < ratio s (a ^ 2) e (1 - x ^ 2) := by rw [h]; linarith
      nlinarith
  · have hc : 0 < 2 * √2 * a * x := by positivity
    have hnn : 0 ≤ ratio s (a ^ 2) e (1 - x ^ 2) := by
      rcases eq_or_lt_of_le hr with h | h
      · obtain ⟨-, -, h2⟩ := hv.prograde ha.ne' h
        refine ratio_nonneg ha.le hA he he1 hx hs ?_
        rw [h, show (1:ℝ) - 1 ^ 2 = 0 by norm_num]
        exact N_equatorial_nonneg (sq_nonneg a) he he1 hs h2
      · obtain ⟨pe, pp, -, -, -, h1, h2, -, -, h3⟩ := hv.generic_prograde ha.ne' hpos h
        have hp4 : 4 ≤ pp := by unfold polarLo at hpl; linarith
        have := ratio_nonneg ha.le hA he he1 hx hp4 (N_polar_nonneg hA he he1 hx h2 h1)
        exact this.trans (hanti.antitoneOn (Set.mem_Ici.mpr hs) (Set.mem_Ici.mpr hp4) h3)
    rcases sq_eq_sq_iff_eq_or_eq_neg.mp hsq with h | h
    · exact h
    · exfalso; linarith

/-- The third root is below the second iff `E²` is below the critical value. -/
lemma third_root_iff {a p e x E L Q r1 r2 r3 r4 : ℝ} (hA : a ^ 2 < 1) (hp : 1 + e ≤ p) (he : 0 ≤ e)
    (he1 : e < 1) (hx : x ^ 2 ≤ 1) (hE : E ^ 2 < 1) (hr1 : r1 = p / (1 - e)) (hr2 : r2 = p / (1 + e))
    (hR : Spec.RadialRoots a E L Q r1 r2 r3 r4) (hZ : Spec.Zpol a E L Q (1 - x ^ 2) = 0)
    (h42 : r4 < r2) :
    r3 < r2 ↔ E ^ 2 * (M1 p (a ^ 2) e (1 - x ^ 2) + 2 * SepCert.K e * D p (a ^ 2) e (1 - x ^ 2))
        < M1 p (a ^ 2) e (1 - x ^ 2) := by
  obtain ⟨v1, v2, v3, v4⟩ := RadialRoots.vieta hR
  have h1e : 0 < 1 - e := by linarith
  have h2e : 0 < 1 + e := by linarith
  have hr1' : r1 * (1 - e) = p := by rw [hr1]; field_simp
  have hr2' : r2 * (1 + e) = p := by rw [hr2]; field_simp
  have hw : 0 ≤ 1 - x ^ 2 := by linarith
  have hw1 : 1 - x ^ 2 ≤ 1 := by linarith [sq_nonneg x]
  have hr2pos : 1 ≤ r2 := by rw [hr2, le_div_iff₀ h2e]; linarith
  have hr1pos : 1 ≤ r1 := by rw [hr1, le_div_iff₀ h1e]; linarith
  clear hR v3 hr1 hr2
  obtain ⟨b, hb⟩ : ∃ b, b = 1 - E ^ 2 := ⟨_, rfl⟩
  have hE2 : E ^ 2 = 1 - b := by linarith
  have hb0 : 0 < b := by linarith
  unfold Spec.Zpol at hZ
  rw [← hb] at v1 v2 v4 hZ
  obtain ⟨w, hwd⟩ : ∃ w, w = 1 - x ^ 2 := ⟨_, rfl⟩
  obtain ⟨A, hAd⟩ : ∃ A, A = a ^ 2 := ⟨_, rfl⟩
  rw [← hwd] at hZ hw hw1 ⊢
  have hA0 : 0 ≤ A := by rw [hAd]; positivity
  rw [← hAd] at v2 v4 hZ hA ⊢
  have hAw : A * w < 1 := lt_of_le_of_lt (mul_le_of_le_one_right hA0 hw1) hA
  have hpos : 0 < r1 * r2 - A * w := by nlinarith
  -- the product of the inner roots
  have hm : r3 * r4 * (r1 * r2 - A * w) = A * w * (r1 * r2 + (r1 + r2) * (r3 + r4) - A * w) := by
    have : b * (r3 * r4 * (r1 * r2 - A * w) - A * w * (r1 * r2 + (r1 + r2) * (r3 + r4) - A * w)) = 0 := by
      linear_combination v4 - A * w * v2 + A * hZ
    have := (mul_eq_zero.mp this).resolve_left hb0.ne'
    linarith
  have hK : 0 < SepCert.K e := by unfold SepCert.K; positivity
  have key : M1 p A e w * b - 2 * SepCert.K e * D p A e w * E ^ 2
      = b * SepCert.K e ^ 2 * ((r2 - r3) * (r2 - r4)) * (r1 * r2 - A * w) := by
    rw [hE2]
    obtain ⟨k, hk⟩ : ∃ k, k = SepCert.K e := ⟨_, rfl⟩
    have hk' : k = (1 - e) * (1 + e) ^ 2 := by rw [hk, SepCert.K]
    have k1 : k * r1 = p * (1 + e) ^ 2 := by rw [hk', ← hr1']; ring
    have k2 : k * r2 = p * (1 - e) * (1 + e) := by rw [hk', ← hr2']; ring
    have k12 : k * (r1 * r2) = p ^ 2 * (1 + e) := by
      rw [hk']; linear_combination (1 + e) * (r2 * (1 + e)) * hr1' + (1 + e) * p * hr2'
    have k22 : k * r2 ^ 2 = p ^ 2 * (1 - e) := by
      rw [hk']; linear_combination (1 - e) * (r2 * (1 + e) + p) * hr2'
    have k122 : k * (r1 * r2 ^ 2) = p ^ 3 := by
      rw [hk']; linear_combination (r2 * (1 + e)) ^ 2 * hr1' + p * (r2 * (1 + e) + p) * hr2'
    have hpg : p * g e = k * (r1 + 2 * r2) := by unfold g; linear_combination -k1 - 2 * k2
    have hB : B p A e w = k * (2 * (r1 * r2) + r2 ^ 2 - A * w) := by
      rw [B, ← hk]; linear_combination -2 * k12 - k22
    have hD : D p A e w = k * (r1 * r2 ^ 2 - A * w * (r1 + 2 * r2)) := by
      rw [D]; linear_combination -k122 - A * w * hpg
    rw [M1, hpg, hB, hD, ← hk]
    linear_combination (k ^ 2 * (r1 * r2 ^ 2 - A * w * (r1 + 2 * r2))) * v1
      - b * k ^ 2 * hm
  have hK2 : 0 < b * SepCert.K e ^ 2 := by positivity
  constructor
  · intro h
    have h3 : 0 < b * SepCert.K e ^ 2 * ((r2 - r3) * (r2 - r4)) * (r1 * r2 - A * w) :=
      mul_pos (mul_pos hK2 (mul_pos (by linarith) (by linarith))) hpos
    rw [hE2] at *
    linarith
  · intro h
    by_contra hcon
    have h3 : (r2 - r3) * (r2 - r4) ≤ 0 :=
      mul_nonpos_of_nonpos_of_nonneg (by linarith) (by linarith)
    have h4 : b * SepCert.K e ^ 2 * ((r2 - r3) * (r2 - r4)) * (r1 * r2 - A * w) ≤ 0 :=
      mul_nonpos_of_nonpos_of_nonneg (mul_nonpos_of_nonneg_of_nonpos hK2.le h3) hpos.le
    rw [hE2] at *
    linarith

lemma sign_mul_pos {x L : ℝ} (hx0 : x ≠ 0) : 0 < Real.sign x * L ↔ Real.sign L = Real.sign x := by
  rcases lt_or_gt_of_ne hx0 with h | h
  · rw [Real.sign_of_neg h]
    constructor
    · intro hL; rw [Real.sign_of_neg (by linarith)]
    · intro hL
      rcases lt_trichotomy L 0 with k | k | k
      · linarith
      · rw [k, Real.sign_zero] at hL; norm_num at hL
      · rw [Real.sign_of_pos k] at hL; norm_num at hL
  · rw [Real.sign_of_pos h]
    constructor
    · intro hL; rw [Real.sign_of_pos (by linarith)]
    · intro hL
      rcases lt_trichotomy L 0 with k | k | k
      · rw [Real.sign_of_neg k] at hL; norm_num at hL
      · rw [k, Real.sign_zero] at hL; norm_num at hL
      · linarith

/-- Negative after a zero, up to `p = 4`, in terms of the polynomial the code evaluates. -/
lemma SFull_neg_after {a e x s p : ℝ} (ha : 0 < a) (ha1 : a < 1) (he : 0 ≤ e) (he1 : e ≤ 1) (hx : x ^ 2 ≤ 1)
    (hs : 1 + e ≤ s) (hsp : s < p) (hp : p ≤ 4) (hz : SFull s a e x = 0) : SFull p a e x < 0 := by
  rw [SFull_eq] at hz ⊢
  have hA1 : a ^ 2 < 1 := by nlinarith
  have : N p (a ^ 2) e (1 - x ^ 2) ^ 2 - 8 * a ^ 2 * (1 - (1 - x ^ 2))
      * (M1 p (a ^ 2) e (1 - x ^ 2) * M2 p (a ^ 2) e (1 - x ^ 2)) < 0 := by
    rcases eq_or_lt_of_le he1 with rfl | he1
    · exact SepParabola.neg_after_zero (s := s) (by positivity) hA1 (by linarith) (by linarith [sq_nonneg x])
        (by linarith) hsp hp (by rw [← hz]; ring)
    · exact SepCurve.neg_after_zero (s := s) (by positivity) hA1 he he1 (by linarith) (by linarith [sq_nonneg x])
        hs hsp hp (by rw [← hz]; ring)
  refine lt_of_eq_of_lt ?_ this
  ring

lemma separatrix_ge {a e x s : ℝ} (hv : IsSeparatrixValue a e x s) (ha : a ≠ 0) (hx : 0 < x) (hx1 : x ≤ 1) :
    1 + e ≤ s := by
  rcases eq_or_lt_of_le hx1 with h | h
  · exact (hv.prograde ha h).2.1
  · obtain ⟨pe, pp, h1, h2, h3, h4, h5, h6, h7, h8⟩ := hv.generic_prograde ha hx h
    linarith

section
variable {rs : RootScalar} {a p e x s : ℝ} (ha : 0 < a) (ha1 : a < 1) (he : 0 ≤ e) (he1 : e ≤ 1)
  (hx0 : x ≠ 0) (hl : -1 ≤ x) (hr : x ≤ 1) (hp : 4 < p) (hs : separatrix rs a e x = .ok s)
include ha ha1 he he1 hx0 hl hr hp hs

lemma sep_of_ratio (h : ratio p (a ^ 2) e (1 - x ^ 2) < 2 * √2 * a * x) : s < p := by
  obtain ⟨s', hs', hv⟩ := C15_separatrix_returns rs a e x ha.le ha1 he he1 hl hr
  obtain rfl : s = s' := Except.ok.inj (hs.symm.trans hs')
  by_contra hcon
  have h4 : 4 ≤ s := by linarith
  have hA : a ^ 2 ≤ 1 := by nlinarith
  have hanti := ratio_strictAnti (sq_nonneg a) hA he he1 (w := 1 - x ^ 2) (by nlinarith)
    (by linarith [sq_nonneg x])
  have := hanti.antitoneOn (Set.mem_Ici.mpr hp.le) (Set.mem_Ici.mpr h4) (not_lt.mp hcon)
  rw [ratio_separatrix ha ha1 he he1 hx0 hl hr h4 hv] at this
  linarith

omit hs in
lemma ratio_of_value (hv : IsSeparatrixValue a e x s) (hsp : s < p) :
    ratio p (a ^ 2) e (1 - x ^ 2) < 2 * √2 * a * x := by
  have hA : a ^ 2 ≤ 1 := by nlinarith
  have hx : x ^ 2 ≤ 1 := by nlinarith
  have hanti := ratio_strictAnti (sq_nonneg a) hA he he1 (w := 1 - x ^ 2) (by nlinarith)
    (by linarith [sq_nonneg x])
  have hpl := polarLo_bounds.1
  have big : 4 ≤ s → ratio p (a ^ 2) e (1 - x ^ 2) < 2 * √2 * a * x := by
    intro h4
    have := hanti (Set.mem_Ici.mpr h4) (Set.mem_Ici.mpr hp.le) hsp
    simp only at this
    rwa [ratio_separatrix ha ha1 he he1 hx0 hl hr h4 hv] at this
  rcases lt_or_gt_of_ne hx0 with hneg | hpos
  · refine big ?_
    rcases eq_or_lt_of_le hl with h | h
    · obtain ⟨-, h2, -⟩ := hv.retrograde ha.ne' h.symm
      linarith
    · obtain ⟨pp, -, h2, h3, -⟩ := hv.generic_retrograde ha.ne' h hneg
      unfold polarLo at hpl; linarith
  · rcases le_or_gt 4 s with h4 | h4
    · exact big h4
    have hneg := SFull_neg_after ha ha1 he he1 hx (separatrix_ge hv ha.ne' hpos hr) h4 le_rfl
      (hv.generic ha.ne')
    have hsq := ratio_sq_of_nonpos ha.le hA he he1 hx le_rfl hneg.le
    have hz0 := mt (ratio_sq_of_zero ha.le hA he he1 hx le_rfl).mpr hneg.ne
    have hc0 : 0 < 2 * √2 * a * x := by positivity
    have hlt : ratio 4 (a ^ 2) e (1 - x ^ 2) < 2 * √2 * a * x :=
      lt_of_le_of_ne (abs_le_of_sq_le_sq' hsq hc0.le).2 (fun h => hz0 (by rw [h]))
    exact lt_of_le_of_lt (hanti.antitoneOn (Set.mem_Ici.mpr le_rfl) (Set.mem_Ici.mpr hp.le) hp.le) hlt

lemma ratio_of_sep (hsp : s < p) : ratio p (a ^ 2) e (1 - x ^ 2) < 2 * √2 * a * x := by
  obtain ⟨s', hs', hv⟩ := C15_separatrix_returns rs a e x ha.le ha1 he he1 hl hr
  obtain rfl : s = s' := Except.ok.inj (hs.symm.trans hs')
  exact ratio_of_value ha ha1 he he1 hx0 hl hr hp hv hsp

end

lemma value_unique_lt {a e x s s' : ℝ} (ha : 0 < a) (ha1 : a < 1) (he : 0 ≤ e) (he1 : e ≤ 1)
    (hl : -1 ≤ x) (hr : x ≤ 1) (hv : IsSeparatrixValue a e x s) (hv' : IsSeparatrixValue a e x s') :
    ¬ s < s' := by
  intro hlt
  have hpl := polarLo_bounds.1
  have hA : a ^ 2 ≤ 1 := by nlinarith
  have hx : x ^ 2 ≤ 1 := by nlinarith
  have hanti := ratio_strictAnti (sq_nonneg a) hA he he1 (w := 1 - x ^ 2) (by linarith)
    (by linarith [sq_nonneg x])
  by_cases hx0 : x = 0
  · have h1 : 4 ≤ s := by have := (hv.polar ha.ne' hx0).2.1; unfold polarLo at hpl; linarith
    have h2 : 4 ≤ s' := by linarith
    have e1 := (ratio_sq_of_zero ha.le hA he he1 hx h1).mp (hv.generic ha.ne')
    have e2 := (ratio_sq_of_zero ha.le hA he he1 hx h2).mp (hv'.generic ha.ne')
    have := hanti (Set.mem_Ici.mpr h1) (Set.mem_Ici.mpr h2) hlt
    simp only at this
    rw [hx0, mul_zero] at e1 e2
    rw [hx0, pow_eq_zero_iff two_ne_zero |>.mp (e1.trans (by norm_num)),
      pow_eq_zero_iff two_ne_zero |>.mp (e2.trans (by norm_num))] at this
    exact lt_irrefl _ this
  rcases lt_or_ge 4 s' with h4 | h4
  · have h1 := ratio_of_value ha ha1 he he1 hx0 hl hr h4 hv hlt
    rw [ratio_separatrix ha ha1 he he1 hx0 hl hr h4.le hv'] at h1
    exact lt_irrefl _ h1
  · rcases lt_or_gt_of_ne hx0 with hneg | hpos
    · have : 4 < s' := by
        rcases eq_or_lt_of_le hl with h | h
        · obtain ⟨-, h2, -⟩ := hv'.retrograde ha.ne' h.symm
          linarith
        · obtain ⟨pp, -, h2, h3, -⟩ := hv'.generic_retrograde ha.ne' h hneg
          unfold polarLo at hpl; linarith
      linarith
    · have := SFull_neg_after ha ha1 he he1 hx (separatrix_ge hv ha.ne' hpos hr) hlt h4
        (hv.generic ha.ne')
      rw [hv'.generic ha.ne'] at this
      exact lt_irrefl _ this

/-- **C15 (uniqueness).** The documented equation and bracket determine the separatrix: there
is exactly one value, so the result of `separatrix` does not depend on which zero the root finder
converges to. -/
theorem C15_unique (a e x : ℝ) (ha : 0 ≤ a) (ha1 : a < 1) (he : 0 ≤ e) (he1 : e ≤ 1) (hl : -1 ≤ x)
    (hr : x ≤ 1) :
    (∃! s, IsSeparatrixValue a e x s)
      ∧ (∀ s, IsSeparatrixValue a e x s → ∀ rs : RootScalar, separatrix rs a e x = .ok s) := by
  have hu : ∀ s s', IsSeparatrixValue a e x s → IsSeparatrixValue a e x s' → s = s' := by
    intro s s' hv hv'
    rcases eq_or_lt_of_le ha with h | h
    · rw [hv.zero h.symm, hv'.zero h.symm]
    · exact le_antisymm (not_lt.mp (value_unique_lt h ha1 he he1 hl hr hv' hv))
        (not_lt.mp (value_unique_lt h ha1 he he1 hl hr hv hv'))
  refine ⟨?_, fun s hv rs => ?_⟩
  · obtain ⟨s, -, hv⟩ := C15_separatrix_returns exampleRS a e x ha ha1 he he1 hl hr
    exact ⟨s, hv, fun s' hv' => hu _ _ hv' hv⟩
  · obtain ⟨s', hs', hv'⟩ := C15_separatrix_returns rs a e x ha ha1 he he1 hl hr
    rw [hs', hu _ _ hv hv']

/-! ## Accepted orbits -/

/-- Constants of a bound stable orbit with the given turning points: `E` is below the critical energy. -/
structure StableConsts (a p e x E L : ℝ) : Prop where
  energy_pos : 0 < E
  sign : 0 < Real.sign x * L
  turning : Spec.TurningPoints a E L (carterFormula a x E L) p e
  below : E ^ 2 * (M1 p (a ^ 2) e (1 - x ^ 2) + 2 * SepCert.K e * D p (a ^ 2) e (1 - x ^ 2))
        < M1 p (a ^ 2) e (1 - x ^ 2)

/-- The divisors of `energy` and `angular_momentum` (constants.py:292-297, 351) are not zero.  Where one of
them is, the code returns `nan` (see the two `violation` theorems of C04). -/
def Spec.DivisorsNonzero (a p e x : ℝ) : Prop :=
  let c1 := coefficients (p / (1 - e)) |a| (Spec.signedX a x)
  let c2 := if e = 0 then coefficientsDerivative p |a| (Spec.signedX a x)
    else coefficients (p / (1 + e)) |a| (Spec.signedX a x)
  (c1.f * c2.h - c1.h * c2.f) ^ 2 + 4 * (c1.f * c2.g - c1.g * c2.f) * (c1.g * c2.h - c1.h * c2.g) ≠ 0
    ∧ c1.h ≠ 0

lemma divisors_iff (a p e x : ℝ) :
    Spec.DivisorsNonzero a p e x ↔ Schmidt.Regular |a| p e (Spec.signedX a x) := Iff.rfl

section
variable {a p e x s : ℝ} (ha : 0 < a) (ha1 : a < 1) (he : 0 ≤ e) (he1 : e < 1)
  (hx0 : x ≠ 0) (hl : -1 ≤ x) (hr : x ≤ 1) (hv : IsSeparatrixValue a e x s) (hsp : s < p)
include ha ha1 he he1 hx0 hl hr hv hsp

/-- Above the separatrix: prograde below `p = 4`, or `p > 4`. -/
lemma accepted_cases : 4 < p ∨ (0 < x ∧ p ≤ 4 ∧ 1 + e ≤ p
    ∧ N p (a ^ 2) e (1 - x ^ 2) ^ 2 - 8 * a ^ 2 * (1 - (1 - x ^ 2))
      * (M1 p (a ^ 2) e (1 - x ^ 2) * M2 p (a ^ 2) e (1 - x ^ 2)) < 0) := by
  have hx : x ^ 2 ≤ 1 := by nlinarith
  have hpl := polarLo_bounds.1
  rcases lt_or_ge 4 p with h4 | h4
  · exact Or.inl h4
  right
  rcases lt_or_gt_of_ne hx0 with hneg | hpos
  · exfalso
    rcases eq_or_lt_of_le hl with h | h
    · obtain ⟨-, h2, -⟩ := hv.retrograde ha.ne' h.symm
      linarith
    · obtain ⟨pp, -, h2, h3, -⟩ := hv.generic_retrograde ha.ne' h hneg
      unfold polarLo at hpl; linarith
  · have h1 := separatrix_ge hv ha.ne' hpos hr
    have := SFull_neg_after ha ha1 he he1.le hx h1 hsp h4 (hv.generic ha.ne')
    rw [SFull_eq] at this
    refine ⟨hpos, h4, by linarith, lt_of_eq_of_lt ?_ this⟩
    ring

/-- What acceptance means for the geometry. -/
lemma accepted_geom : 0 < D p (a ^ 2) e (1 - x ^ 2) ∧ 0 < M1 p (a ^ 2) e (1 - x ^ 2)
    ∧ 1 + √(1 - a ^ 2) < p / (1 + e) ∧ 1 + e ≤ p := by
  have hA : a ^ 2 < 1 := by nlinarith
  have hA0 : 0 < a ^ 2 := by positivity
  have hx : x ^ 2 ≤ 1 := by nlinarith
  have hw : 0 ≤ 1 - x ^ 2 := by linarith
  have hw1 : 1 - x ^ 2 ≤ 1 := by linarith [sq_nonneg x]
  rcases accepted_cases ha ha1 he he1 hx0 hl hr hv hsp with h | ⟨-, -, h1, hS⟩
  · refine ⟨D_pos h.le hA0.le hA.le he he1.le hw hw1, M1_pos h.le hA0.le hA.le he he1.le hw hw1, ?_,
      by linarith⟩
    have hsq := Real.sqrt_le_one.mpr (show 1 - a ^ 2 ≤ 1 by nlinarith)
    rw [lt_div_iff₀ (by linarith)]; nlinarith [Real.sqrt_nonneg (1 - a ^ 2)]
  · obtain ⟨g1, g2, g3, -⟩ := SepCurve.inner_geom hA0 hA he he1 hw hw1 h1 hS
    refine ⟨g1, g3, ?_, h1⟩
    have h2e : 0 < 1 + e := by linarith
    obtain ⟨r, hrd⟩ : ∃ r, r = p / (1 + e) := ⟨_, rfl⟩
    have hpr : p = r * (1 + e) := by rw [hrd]; field_simp
    rw [← hrd]
    have hr1 : 1 ≤ r := by rw [hrd, le_div_iff₀ h2e]; linarith
    have h3 : 2 * r < r ^ 2 + a ^ 2 := by
      rw [hpr] at g2
      have : 0 < (1 + e) ^ 2 * (r ^ 2 + a ^ 2 - 2 * r) := by nlinarith
      have := pos_of_mul_pos_right this (by positivity)
      linarith
    have h4 : √(1 - a ^ 2) < r - 1 := by
      rw [Real.sqrt_lt' (by
        rcases eq_or_lt_of_le hr1 with h | h
        · rw [← h] at h3; nlinarith
        · linarith)]
      nlinarith
    linarith

/-- Above the separatrix there is a stable orbit. -/
lemma accepted_exists : ∃ E L, StableConsts a p e x E L := by
  have hx : x ^ 2 ≤ 1 := by nlinarith
  rcases accepted_cases ha ha1 he he1 hx0 hl hr hv hsp with h | ⟨hpos, -, h1, hS⟩
  · have hX := Schmidt.exact_kerr ha ha1.le h he he1 hx0 hx rfl rfl
    exact ⟨_, _, hX.energy_pos, hX.sign, hX.turning,
      (Schmidt.below_star_iff ha ha1.le h he he1 hx0 hx hX).mpr
        (ratio_of_value ha ha1 he he1.le hx0 hl hr h hv hsp)⟩
  · obtain ⟨E, L, h1, h2, h3, h4⟩ := Schmidt.exists_inner ha ha1 h1 he he1 hpos hx hS
    exact ⟨E, L, h1, by rw [Real.sign_of_pos hpos, one_mul]; exact h2, h3, h4⟩

/-- It is unique. -/
lemma accepted_unique {E L E' L' : ℝ} (h : StableConsts a p e x E L) (h' : StableConsts a p e x E' L') :
    E = E' ∧ L = L' := by
  have hx : x ^ 2 ≤ 1 := by nlinarith
  rcases accepted_cases ha ha1 he he1 hx0 hl hr hv hsp with h4 | ⟨hpos, -, h1, hS⟩
  · exact Schmidt.unique ha ha1.le h4 he he1 hx0 hx h.energy_pos h.sign h.turning h'.energy_pos h'.sign
      h'.turning
  · exact Schmidt.unique_inner ha ha1 h1 he he1 hpos hx hS h.energy_pos h'.energy_pos h.turning h'.turning
      h.below h'.below

/-- The code's formulas give it, where they do not divide by zero. -/
lemma accepted_formula (hreg : 0 < x → p ≤ 4 → Schmidt.Regular a p e x) :
    StableConsts a p e x (energyFormula a p e x) (angularMomentumFormula a p e x (energyFormula a p e x)) := by
  have hx : x ^ 2 ≤ 1 := by nlinarith
  rcases accepted_cases ha ha1 he he1 hx0 hl hr hv hsp with h | ⟨hpos, h4, h1, hS⟩
  · have hX := Schmidt.exact_kerr ha ha1.le h he he1 hx0 hx rfl rfl
    exact ⟨hX.energy_pos, hX.sign, hX.turning,
      (Schmidt.below_star_iff ha ha1.le h he he1 hx0 hx hX).mpr
        (ratio_of_value ha ha1 he he1.le hx0 hl hr h hv hsp)⟩
  · obtain ⟨hX, hb, -⟩ := Schmidt.exact_inner ha ha1 h1 he he1 hpos hx hS (hreg hpos h4) rfl rfl
    exact ⟨hX.energy_pos, hX.sign, hX.turning, hb⟩

/-- The roots of its radial potential. -/
lemma stable_of_consts {rs : RootScalar} {E L : ℝ} (hX : StableConsts a p e x E L) :
    ∃ r1 r2 r3 r4, stableRadialRoots rs a p e x (some (E, L, carterFormula a x E L))
        = .ok (r1, r2, r3, r4)
      ∧ E ^ 2 < 1 ∧ 0 ≤ carterFormula a x E L ∧ r1 = p / (1 - e) ∧ r2 = p / (1 + e)
      ∧ Spec.RadialRoots a E L (carterFormula a x E L) r1 r2 r3 r4
      ∧ r3 < r2 ∧ r2 ≤ r1 ∧ 0 ≤ r4
      ∧ 1 + √(1 - a ^ 2) ≤ r3 ∧ r4 ≤ 1 - √(1 - a ^ 2) := by
  have hA : a ^ 2 < 1 := by nlinarith
  have hx : x ^ 2 ≤ 1 := by nlinarith
  obtain ⟨m2, m1, hhor, h1e⟩ := accepted_geom ha ha1 he he1 hx0 hl hr hv hsp
  have hb := hX.below
  have hE1 : E ^ 2 < 1 := by
    have hK : 0 < SepCert.K e := by
      have : 0 < 1 - e := by linarith
      unfold SepCert.K; positivity
    by_contra hcon
    have k1 : M1 p (a ^ 2) e (1 - x ^ 2) * 1 ≤ M1 p (a ^ 2) e (1 - x ^ 2) * E ^ 2 :=
      mul_le_mul_of_nonneg_left (not_lt.mp hcon) m1.le
    have k2 : 0 ≤ E ^ 2 * (2 * SepCert.K e * D p (a ^ 2) e (1 - x ^ 2)) := by positivity
    linarith
  have hQ : 0 ≤ carterFormula a x E L := by
    rw [carterFormula_eq hx]
    have : 0 ≤ 1 - E ^ 2 := by linarith
    have : 0 ≤ 1 - x ^ 2 := by linarith
    positivity
  have hZ : Spec.Zpol a E L (carterFormula a x E L) (1 - x ^ 2) = 0 := by
    rw [carterFormula_eq hx]; unfold Spec.Zpol; field_simp; ring
  have hsn := Real.sqrt_nonneg (1 - a ^ 2)
  obtain ⟨r1, r2, r3, r4, hrr, e1, e2, hR, h21, h2, h3, h4, hr4, -⟩ :=
    C08_bound rs a p e x E L _ hA.le hE1 he he1 hhor hX.turning
  refine ⟨r1, r2, r3, r4, hrr, hE1, hQ, e1, e2, hR, ?_, h21, hr4 hQ, h3, h4⟩
  exact (third_root_iff hA h1e he he1 hx hE1 e1 e2 hR hZ (by linarith)).mpr hb

/-- It runs into the future. -/
lemma accepted_future (hreg : 0 < x → p ≤ 4 → Schmidt.Regular a p e x) {E L : ℝ}
    (hX : StableConsts a p e x E L) : a * L < E * ((p / (1 + e)) ^ 2 + a ^ 2) := by
  have hx : x ^ 2 ≤ 1 := by nlinarith
  obtain ⟨r1, r2, r3, r4, -, hE1, hQ, rfl, rfl, hR, h32, h21, -, h3, h4⟩ :=
    stable_of_consts (rs := exampleRS) ha ha1 he he1 hx0 hl hr hv hsp hX
  rcases accepted_cases ha ha1 he he1 hx0 hl hr hv hsp with h | ⟨hpos, h4', h1, hS⟩
  · refine future_of_ge_two hX.energy_pos hQ ?_ (le_of_eq (by rw [hR]; ring))
    rw [le_div_iff₀ (by linarith)]; linarith
  · obtain ⟨rfl, rfl⟩ := accepted_unique ha ha1 he he1 hx0 hl hr hv hsp hX
      (accepted_formula ha ha1 he he1 hx0 hl hr hv hsp hreg)
    obtain ⟨-, -, hf⟩ := Schmidt.exact_inner ha ha1 h1 he he1 hpos hx hS (hreg hpos h4') rfl rfl
    refine hf fun t ht1 ht2 => ?_
    rw [hR]
    have hs := Real.sqrt_nonneg (1 - a ^ 2)
    have : 0 ≤ (1 - energyFormula a p e x ^ 2) * (p / (1 - e) - t) * (t - p / (1 + e)) * (t - r3) * (t - r4) := by
      refine mul_nonneg (mul_nonneg (mul_nonneg (mul_nonneg ?_ ?_) ?_) ?_) ?_ <;> linarith
    linarith

end

/-- Accepted orbits with `a > 0`, unpacked. -/
lemma bound_value {rs : RootScalar} {a p e x : ℝ} (h : Spec.BoundOrbit rs a p e x) (ha : 0 < a)
    (he1 : e ≠ 1) :
    a < 1 ∧ 0 ≤ e ∧ e < 1 ∧ -1 ≤ x ∧ x ≤ 1 ∧ |a| = a ∧ Spec.signedX a x = x
      ∧ ∃ s, IsSeparatrixValue a e x s ∧ s < p := by
  obtain ⟨hal, ⟨he, hel⟩, hx, s, hs, hsp⟩ := h
  have hlt := lt_of_le_of_ne hel he1
  have habs : |a| = a := abs_of_pos ha
  have hsx : Spec.signedX a x = x := by
    unfold Spec.signedX; rw [if_neg (by linarith)]
  rw [habs] at hal
  rw [hsx, habs] at hs
  obtain ⟨s', hs', hv⟩ := C15_separatrix_returns rs a e x ha.le hal he hel (abs_le.mp hx).1 (abs_le.mp hx).2
  obtain rfl : s = s' := Except.ok.inj (hs.symm.trans hs')
  exact ⟨hal, he, hlt, (abs_le.mp hx).1, (abs_le.mp hx).2, habs, hsx, s, hv, hsp⟩

/-- **C04, C08.** Every accepted Kerr orbit is a bound geodesic: `constants_of_motion` returns constants
with `0 < E < 1`, `L` of the sign of `x` and `Q ≥ 0`, and `stable_radial_roots` returns the four roots of
the radial potential in the order `r4 ≤ r₋ < r₊ ≤ r3 < r2 = p/(1+e) ≤ r1 = p/(1-e)`, with `r3` strictly
outside the horizon unless `E (r₊² + a²) = a L`; and the orbit runs into the future.  For prograde orbits
with `p ≤ 4` it is assumed that the divisors in the code's formulas do not vanish. -/
theorem C04_boundGeodesic (rs : RootScalar) (a p e x : ℝ) (h : Spec.BoundOrbit rs a p e x)
    (ha : 0 < a) (he1 : e ≠ 1) (hx0 : x ≠ 0) (hp : 0 < x → p ≤ 4 → Spec.DivisorsNonzero a p e x) :
    ∃ E L Q r1 r2 r3 r4, constantsOfMotion rs a p e x = .ok (E, L, Q)
      ∧ stableRadialRoots rs a p e x = .ok (r1, r2, r3, r4)
      ∧ 0 < E ∧ E < 1 ∧ 0 < Real.sign x * L ∧ 0 ≤ Q
      ∧ r1 = p / (1 - e) ∧ r2 = p / (1 + e)
      ∧ Spec.RadialRoots a E L Q r1 r2 r3 r4
      ∧ r3 < r2 ∧ r2 ≤ r1 ∧ 0 ≤ r4
      ∧ 1 + √(1 - a ^ 2) ≤ r3 ∧ r4 ≤ 1 - √(1 - a ^ 2)
      ∧ a * L < E * ((p / (1 + e)) ^ 2 + a ^ 2)
      ∧ (E * ((1 + √(1 - a ^ 2)) ^ 2 + a ^ 2) ≠ a * L → Spec.BoundGeodesic a E L Q r1 r2 r3 r4) := by
  have hc0 := constantsOfMotion_of_bound h
  obtain ⟨hal, he, hlt, hl, hr, habs, hsx, s, hv, hsp⟩ := bound_value h ha he1
  have hreg : 0 < x → p ≤ 4 → Schmidt.Regular a p e x := by
    intro h1 h2
    have := (divisors_iff a p e x).mp (hp h1 h2)
    rwa [habs, hsx] at this
  have hX := accepted_formula ha hal he hlt hx0 hl hr hv hsp hreg
  have hf := accepted_future ha hal he hlt hx0 hl hr hv hsp hreg hX
  have hA : a ^ 2 ≤ 1 := by nlinarith
  obtain ⟨E, hEd⟩ : ∃ E, E = energyFormula a p e x := ⟨_, rfl⟩
  obtain ⟨L, hLd⟩ : ∃ L, L = angularMomentumFormula a p e x (energyFormula a p e x) := ⟨_, rfl⟩
  have hc : constantsOfMotion rs a p e x = .ok (E, L, carterFormula a x E L) := by
    have h1 : sx a x = x := by rw [sx_eq]; exact hsx
    have h2 : sa a = a := habs
    rw [hc0, h1, h2, pureConsts, if_neg hx0, hEd, hLd]
  rw [← hLd, ← hEd] at hX hf
  obtain ⟨r1, r2, r3, r4, hrr, hE1, hQ, e1, e2, hR, h32, h21, h4, h3, h5⟩ :=
    stable_of_consts (rs := rs) ha hal he hlt hx0 hl hr hv hsp hX
  have hrr' : stableRadialRoots rs a p e x = .ok (r1, r2, r3, r4) := by
    rw [← hrr]; unfold stableRadialRoots; simp only [constantsOr, hc]; rfl
  refine ⟨E, L, _, r1, r2, r3, r4, hc, hrr', hX.energy_pos, by nlinarith [hX.energy_pos], hX.sign, hQ,
    e1, e2, hR, h32, h21, h4, h3, h5, hf, ?_⟩
  intro hne
  have hL : L ≠ 0 := by
    intro h0
    have := hX.sign
    rw [h0] at this
    simp at this
  have hsn := Real.sqrt_nonneg (1 - a ^ 2)
  refine ⟨hE1, hL, hR, by linarith, h32, h21, lt_of_le_of_ne h3 ?_⟩
  intro heq
  have k := hR (1 + √(1 - a ^ 2))
  rw [R_horizon hA] at k
  rw [show 1 + √(1 - a ^ 2) - r3 = 0 by linarith, mul_zero, zero_mul] at k
  exact hne (by linarith [pow_eq_zero_iff two_ne_zero |>.mp k])

/-- For either sign of the spin the constants are those of the equivalent orbit with spin `|a|`. -/
lemma bound_std {rs : RootScalar} {a p e x : ℝ} (h : Spec.BoundOrbit rs a p e x) :
    Spec.BoundOrbit rs |a| p e (Spec.signedX a x)
      ∧ constantsOfMotion rs |a| p e (Spec.signedX a x) = constantsOfMotion rs a p e x
      ∧ (Spec.DivisorsNonzero |a| p e (Spec.signedX a x) ↔ Spec.DivisorsNonzero a p e x) := by
  have hsx' : Spec.signedX |a| (Spec.signedX a x) = Spec.signedX a x := by
    conv_lhs => rw [Spec.signedX, if_neg (not_lt.mpr (abs_nonneg a))]
  refine ⟨?_, ?_, ?_⟩
  · obtain ⟨hal, he, hx, s, hs, hsp⟩ := h
    refine ⟨by rwa [abs_abs], he, ?_, s, by rw [abs_abs, hsx']; exact hs, hsp⟩
    unfold Spec.signedX; split_ifs
    · rw [abs_neg]; exact hx
    · exact hx
  · rw [← constantsOfMotion_std rs a, sx_eq]; rfl
  · unfold Spec.DivisorsNonzero; rw [abs_abs, hsx']

/-- **C04.** The orbit is bound: `0 < E < 1` and `Q ≥ 0`, for every accepted orbit with either sign of
the spin; and `p/(1-e)`, `p/(1+e)` are the turning points, `1 - x²` is a zero of the polar potential and `L`
has the sign of the standardised inclination. -/
theorem C04_energy (rs : RootScalar) (a p e x : ℝ) (h : Spec.BoundOrbit rs a p e x)
    (ha : a ≠ 0) (he1 : e ≠ 1) (hx0 : x ≠ 0)
    (hp : 0 < Spec.signedX a x → p ≤ 4 → Spec.DivisorsNonzero a p e x) :
    ∃ E L Q, constantsOfMotion rs a p e x = .ok (E, L, Q) ∧ 0 < E ∧ E < 1 ∧ 0 ≤ Q
      ∧ (0 < Spec.signedX a x → 0 < L) ∧ (Spec.signedX a x < 0 → L < 0)
      ∧ Spec.TurningPoints |a| E L Q p e ∧ Spec.Zpol a E L Q (1 - x ^ 2) = 0 := by
  have hsx0 : Spec.signedX a x ≠ 0 := by rw [Ne, signedX_eq_zero]; exact hx0
  obtain ⟨hb, hc, hd⟩ := bound_std h
  obtain ⟨E, L, Q, r1, r2, r3, r4, hc', -, hE, hE1, hL, hQ, rfl, rfl, hR, -⟩ :=
    C04_boundGeodesic rs |a| p e (Spec.signedX a x) hb (abs_pos.mpr ha) he1 hsx0
      (fun h1 h2 => hd.mpr (hp h1 h2))
  have hcc := hc.symm.trans hc'
  refine ⟨E, L, Q, hcc, hE, hE1, hQ, ?_, ?_, RadialRoots.turning hR,
    C05_inclination_root rs a p e x E L Q hx0 hcc⟩
  · intro hs
    rwa [Real.sign_of_pos hs, one_mul] at hL
  · intro hs
    rw [Real.sign_of_neg hs] at hL
    linarith

/-- Non-vacuity inside `p = 4`: `a = 99/100`, `p = 7/2`, `e = 0`, `x = 1` is accepted and the divisors do
not vanish. -/
example (rs : RootScalar) : Spec.BoundOrbit rs (99 / 100) (7 / 2) 0 1
    ∧ Spec.DivisorsNonzero (99 / 100) (7 / 2) 0 1 := by
  constructor
  · refine accepts_circular (by norm_num) (by norm_num) fun t h0 h1 ht => ?_
    by_contra hcon
    have h2 : 1 / 2 ≤ t := by nlinarith [not_lt.mp hcon]
    have h3 : (1 - t) ^ 2 ≤ (1 / 2) ^ 2 := by nlinarith
    have h4 : (1 - t) ^ 2 * (1 + 2 * t + 3 * t ^ 2) ≤ (1 - t) * (1 / 2) * (1 + 2 * t + 3 * t ^ 2) := by
      refine mul_le_mul_of_nonneg_right (by nlinarith) (by positivity)
    have h5 : (1 - t) * (1 / 2) * (1 + 2 * t + 3 * t ^ 2) ≤ 79 / 100 := by
      nlinarith [mul_nonneg h0 (sq_nonneg (t - 1 / 2)), sq_nonneg (t - 1 / 2), mul_nonneg h0 h0,
        sq_nonneg (t - 2 / 3), mul_nonneg h0 (sq_nonneg (t - 2 / 3))]
    norm_num at ht
    linarith
  · have hs : Spec.signedX (99 / 100) 1 = 1 := by unfold Spec.signedX; rw [if_neg (by norm_num)]
    have ha : |(99 / 100 : ℝ)| = 99 / 100 := abs_of_pos (by norm_num)
    unfold Spec.DivisorsNonzero
    rw [hs, ha]
    norm_num [coefficients, coefficientsDerivative]

end KGP
