import Verif.Props.StableIff
import Verif.Lemmas.Parabolic

/-!
# Marginally bound orbits (`e = 1`)

For `e = 1` the API accepts parabolic orbits: `E = 1`, no outer turning point, inner turning point `p/2`.
The theorems say that `is_stable` (and so acceptance) is right for them too, and that
`constants_of_motion` returns their constants.
-/

namespace KGP

open Classical Real SepCert

/-- There is a stable parabolic orbit outside the horizon with inclination `x` and periapsis `p/2`: some
constants of motion with `E = 1`, `L` of the sign of `x` and `Q ≥ 0` have this inclination, `p/2` is the
largest root of the radial potential and the next root is strictly below. -/
def Spec.MarginalOrbit (a p x : ℝ) : Prop :=
  1 + √(1 - a ^ 2) < p / 2 ∧
  ∃ L Q r3 r4, Real.sign L = Real.sign x ∧ 0 ≤ Q ∧ Spec.Zpol a 1 L Q (1 - x ^ 2) = 0
    ∧ (∀ r, Spec.R a 1 L Q r = 2 * (r - p / 2) * (r - r3) * (r - r4)) ∧ r4 ≤ r3 ∧ r3 < p / 2

namespace Marginal

/-- The condition on `y = √(L² + Q)`. -/
def Cond (a r x y : ℝ) : Prop :=
  0 < y ∧ (r ^ 2 - 2 * r + a ^ 2 * (1 - x ^ 2)) * y ^ 2 + 4 * a * x * r * y = 2 * r * (r ^ 2 + a ^ 2)
    ∧ y ^ 2 * (r ^ 2 - a ^ 2 * (1 - x ^ 2)) < 4 * r ^ 3

lemma horizon_sq {a : ℝ} (hA : a ^ 2 < 1) :
    (1 + √(1 - a ^ 2)) ^ 2 - 2 * (1 + √(1 - a ^ 2)) + a ^ 2 = 0 := by
  have := Real.sq_sqrt (show 0 ≤ 1 - a ^ 2 by linarith)
  linear_combination this

lemma delta_pos {a r : ℝ} (hA : a ^ 2 < 1) (h : 1 + √(1 - a ^ 2) < r) :
    1 ≤ r ∧ 0 < r ^ 2 - 2 * r + a ^ 2 := by
  have h1 := Real.sqrt_nonneg (1 - a ^ 2)
  have h2 := Real.sq_sqrt (show 0 ≤ 1 - a ^ 2 by linarith)
  exact ⟨by linarith, by nlinarith⟩

lemma outside_iff {a r : ℝ} (hA : a ^ 2 < 1) (hr : 1 ≤ r) (h : 0 < r ^ 2 - 2 * r + a ^ 2) :
    1 + √(1 - a ^ 2) < r := by
  have h4 : √(1 - a ^ 2) < r - 1 := by
    rw [Real.sqrt_lt' (by
      rcases eq_or_lt_of_le hr with h' | h'
      · rw [← h'] at h; nlinarith
      · linarith)]
    nlinarith
  linarith

/-- The stable parabolic orbit in terms of `y`. -/
lemma orbit_iff {a p x : ℝ} (hA : a ^ 2 < 1) (hx : x ^ 2 ≤ 1) :
    Spec.MarginalOrbit a p x ↔ 1 + √(1 - a ^ 2) < p / 2 ∧ ∃ y, Cond a (p / 2) x y := by
  constructor
  · rintro ⟨hh, L, Q, r3, r4, hs, hQ, hZ, hR, h43, h32⟩
    obtain ⟨y, hy, rfl, rfl⟩ := Parabolic.exists_y hx hs hQ hZ
    have := (delta_pos hA hh).1
    exact ⟨hh, y, Parabolic.cond_of_roots (by linarith) hy hR h43 h32⟩
  · rintro ⟨hh, y, hy, e1, e2⟩
    have := (delta_pos hA hh).1
    obtain ⟨r3, r4, hR, h4, h3, h32⟩ := Parabolic.roots_of_cond (by linarith) hh (horizon_sq hA) e1 e2
    exact ⟨hh, x * y, (1 - x ^ 2) * y ^ 2, r3, r4, Parabolic.sign_y hy,
      mul_nonneg (by linarith) (sq_nonneg y), Parabolic.zpol_y a x y, hR, by linarith, h32⟩

/-- The critical `y`. -/
lemma exists_t {a r x : ℝ} (hA : a ^ 2 < 1) (hx : x ^ 2 ≤ 1) (hr : 1 ≤ r) :
    ∃ t, 0 < t ∧ (r ^ 2 - a ^ 2 * (1 - x ^ 2)) * t ^ 2 = 4 * r ^ 3 := by
  have hD := Parabolic.D_pos hA hx hr
  have hr0 : 0 < r := by linarith
  refine ⟨√(4 * r ^ 3 / (r ^ 2 - a ^ 2 * (1 - x ^ 2))), Real.sqrt_pos.mpr (by positivity), ?_⟩
  rw [Real.sq_sqrt (by positivity)]; field_simp

/-- The separatrix ratio at `e = 1`. -/
lemma ratio_iff {a r x t : ℝ} (hA : a ^ 2 < 1) (hx : x ^ 2 ≤ 1) (hr : 1 ≤ r) (ht : 0 < t)
    (htt : (r ^ 2 - a ^ 2 * (1 - x ^ 2)) * t ^ 2 = 4 * r ^ 3) :
    ratio (2 * r) (a ^ 2) 1 (1 - x ^ 2) < 2 * √2 * a * x ↔
      0 < (r ^ 4 - 4 * r ^ 3 + (3 * (a ^ 2 * (1 - x ^ 2)) - a ^ 2) * r ^ 2 + a ^ 2 * (a ^ 2 * (1 - x ^ 2)))
        + 2 * a * x * (r ^ 2 - a ^ 2 * (1 - x ^ 2)) * t := by
  have hD := Parabolic.D_pos hA hx hr
  have hr0 : 0 < r := by linarith
  have h2 : 0 < √(2:ℝ) := Real.sqrt_pos.mpr (by norm_num)
  have h22 : √(2:ℝ) ^ 2 = 2 := Real.sq_sqrt (by norm_num)
  have hsq : √(M1 (2 * r) (a ^ 2) 1 (1 - x ^ 2) * M2 (2 * r) (a ^ 2) 1 (1 - x ^ 2))
      = √2 * (32 * r ^ 2 * ((r ^ 2 - a ^ 2 * (1 - x ^ 2)) * t)) := by
    rw [SepParabola.M1_one, SepParabola.M2_one]
    refine (Real.sqrt_eq_iff_mul_self_eq (by positivity) (by positivity)).mpr ?_
    linear_combination -(1024 * r ^ 4 * ((r ^ 2 - a ^ 2 * (1 - x ^ 2)) * t) ^ 2) * h22
      - 2048 * r ^ 4 * (r ^ 2 - a ^ 2 * (1 - x ^ 2)) * htt
  unfold ratio
  rw [hsq, SepParabola.N_one, div_lt_iff₀ (by positivity)]
  generalize r ^ 2 - a ^ 2 * (1 - x ^ 2) = D at *
  generalize r ^ 4 - 4 * r ^ 3 + (3 * (a ^ 2 * (1 - x ^ 2)) - a ^ 2) * r ^ 2 + a ^ 2 * (a ^ 2 * (1 - x ^ 2)) = F
  have e : 2 * √2 * a * x * (√2 * (32 * r ^ 2 * (D * t))) = 64 * r ^ 2 * (2 * a * x * D * t) := by
    linear_combination (64 * a * x * r ^ 2 * D * t) * h22
  rw [e, ← sub_pos, show 64 * r ^ 2 * (2 * a * x * D * t) - -(64 * r ^ 2 * F)
    = 64 * r ^ 2 * (F + 2 * a * x * D * t) by ring]
  exact mul_pos_iff_of_pos_left (by positivity)

/-- Acceptance in terms of the critical value. -/
lemma accepted_iff (rs : RootScalar) {a p x s : ℝ} (ha : 0 ≤ a) (ha1 : a < 1)
    (hl : -1 ≤ x) (hr : x ≤ 1) (hs : separatrix rs a 1 x = .ok s) (hv : IsSeparatrixValue a 1 x s) :
    s < p ↔ Spec.MarginalOrbit a p x := by
  have hA : a ^ 2 < 1 := by nlinarith
  have hx : x ^ 2 ≤ 1 := by nlinarith
  have hw : 0 ≤ 1 - x ^ 2 := by linarith
  have hw1 : 1 - x ^ 2 ≤ 1 := by linarith [sq_nonneg x]
  have hsn := Real.sqrt_nonneg (1 - a ^ 2)
  have hs1 : √(1 - a ^ 2) ≤ 1 := Real.sqrt_le_one.mpr (by nlinarith)
  have hpl := polarLo_bounds.1
  rw [orbit_iff hA hx]
  obtain ⟨r, hrp⟩ : ∃ r, r = p / 2 := ⟨_, rfl⟩
  obtain rfl : p = 2 * r := by rw [hrp]; ring
  rw [← hrp]
  -- the equivalence with the sign at the critical value
  have crit : 1 + √(1 - a ^ 2) < r → ∃ t, 0 < t ∧ (r ^ 2 - a ^ 2 * (1 - x ^ 2)) * t ^ 2 = 4 * r ^ 3
      ∧ ((∃ y, Cond a r x y) ↔ 0 < (r ^ 4 - 4 * r ^ 3 + (3 * (a ^ 2 * (1 - x ^ 2)) - a ^ 2) * r ^ 2
          + a ^ 2 * (a ^ 2 * (1 - x ^ 2))) + 2 * a * x * (r ^ 2 - a ^ 2 * (1 - x ^ 2)) * t) := by
    intro h
    obtain ⟨h1, h2⟩ := delta_pos hA h
    obtain ⟨t, ht, htt⟩ := exists_t hA hx h1
    exact ⟨t, ht, htt, Parabolic.crit_iff ha hA hx h1 h2 ht htt⟩
  rcases eq_or_lt_of_le ha with rfl | h0
  · -- Schwarzschild
    rw [hv.zero rfl]
    have e0 : √(1 - (0:ℝ) ^ 2) = 1 := by norm_num
    constructor
    · intro h
      have hh : 1 + √(1 - (0:ℝ) ^ 2) < r := by rw [e0]; linarith
      obtain ⟨t, ht, htt, hc⟩ := crit hh
      refine ⟨hh, hc.mpr ?_⟩
      have : 0 < r ^ 3 * (r - 4) := mul_pos (by have : 0 < r := by linarith
                                                positivity) (by linarith)
      nlinarith
    · rintro ⟨hh, hy⟩
      obtain ⟨t, ht, htt, hc⟩ := crit hh
      have h1 := hc.mp hy
      rw [e0] at hh
      have : 0 < r ^ 3 * (r - 4) := by nlinarith
      have := pos_of_mul_pos_right this (by have : 0 < r := by linarith
                                            positivity)
      linarith
  rcases lt_or_ge 4 (2 * r) with h4 | h4
  · -- outside `p = 4`
    have hh : 1 + √(1 - a ^ 2) < r := by linarith
    obtain ⟨t, ht, htt, hc⟩ := crit hh
    have hr1 : 1 ≤ r := by linarith
    have hri := ratio_iff hA hx hr1 ht htt
    have hgoal : s < 2 * r ↔ ratio (2 * r) (a ^ 2) 1 (1 - x ^ 2) < 2 * √2 * a * x := by
      by_cases hx0 : x = 0
      · subst hx0
        have hs4 : 4 < s := by have := (hv.polar h0.ne' rfl).2.1; unfold polarLo at hpl; linarith
        have hanti := ratio_strictAnti (sq_nonneg a) hA.le zero_le_one le_rfl hw hw1
        have hrs : ratio s (a ^ 2) 1 (1 - 0 ^ 2) = 0 := by
          have := (ratio_sq_of_zero h0.le hA.le zero_le_one le_rfl hx hs4.le).mp (hv.generic h0.ne')
          rw [mul_zero] at this
          exact pow_eq_zero_iff two_ne_zero |>.mp (this.trans (by norm_num))
        have h1 := hanti.lt_iff_gt (Set.mem_Ici.mpr h4.le) (Set.mem_Ici.mpr hs4.le)
        simp only [hrs] at h1
        rw [mul_zero]; exact h1.symm
      · exact ⟨ratio_of_sep h0 ha1 zero_le_one le_rfl hx0 hl hr h4 hs,
          sep_of_ratio h0 ha1 zero_le_one le_rfl hx0 hl hr h4 hs⟩
    rw [hgoal, hri, hc]
    exact ⟨fun h => ⟨hh, h⟩, fun h => h.2⟩
  · -- inside
    have hSf : ∀ t, (r ^ 2 - a ^ 2 * (1 - x ^ 2)) * t ^ 2 = 4 * r ^ 3 → SFull (2 * r) a 1 x
        = 4096 * r ^ 4 * ((r ^ 4 - 4 * r ^ 3 + (3 * (a ^ 2 * (1 - x ^ 2)) - a ^ 2) * r ^ 2
          + a ^ 2 * (a ^ 2 * (1 - x ^ 2))) ^ 2 - (2 * a * x * (r ^ 2 - a ^ 2 * (1 - x ^ 2)) * t) ^ 2) := by
      intro t htt
      rw [SFull_form, SepParabola.N_one, SepParabola.M1_one, SepParabola.M2_one]
      linear_combination (16384 * r ^ 4 * a ^ 2 * x ^ 2 * (r ^ 2 - a ^ 2 * (1 - x ^ 2))) * htt
    constructor
    · intro h
      have hpos : 0 < x := by
        by_contra hcon
        have : 4 < s := by
          rcases eq_or_lt_of_le (not_lt.mp hcon) with k | k
          · have := (hv.polar h0.ne' k).2.1; unfold polarLo at hpl; linarith
          · rcases eq_or_lt_of_le hl with k' | k'
            · obtain ⟨-, h2, -⟩ := hv.retrograde h0.ne' k'.symm
              linarith
            · obtain ⟨pp, -, h2, h3, -⟩ := hv.generic_retrograde h0.ne' k' k
              unfold polarLo at hpl; linarith
        linarith
      have hs2 := separatrix_ge hv h0.ne' hpos hr
      have hS := SFull_neg_after h0 ha1 zero_le_one le_rfl hx hs2 h h4 (hv.generic h0.ne')
      have hout := SepParabola.outside (p := 2 * r) (by positivity : 0 < a ^ 2) hA hw hw1 (by linarith)
        (by rw [← SFull_form]; exact hS)
      have hh := outside_iff hA (by linarith : 1 ≤ r) (by nlinarith)
      obtain ⟨t, ht, htt, hc⟩ := crit hh
      refine ⟨hh, hc.mpr ?_⟩
      rw [hSf t htt] at hS
      have hr0 : 0 < r := by linarith
      have h5 := neg_of_mul_neg_right hS (by positivity)
      have hD := Parabolic.D_pos hA hx (by linarith : 1 ≤ r)
      have h6 : 0 ≤ 2 * a * x * (r ^ 2 - a ^ 2 * (1 - x ^ 2)) * t := by positivity
      have h7 := (abs_lt_of_sq_lt_sq' (sub_neg.mp h5) h6).1
      linarith
    · rintro ⟨hh, hy⟩
      obtain ⟨t, ht, htt, hc⟩ := crit hh
      have hF := hc.mp hy
      have hr1 : 1 ≤ r := (delta_pos hA hh).1
      have hr0 : 0 < r := by linarith
      have hD := Parabolic.D_pos hA hx hr1
      have hN := SepCert.N_nonneg_inner (sq_nonneg a) hA.le zero_le_one le_rfl hw hw1 (by linarith) h4
      rw [SepParabola.N_one] at hN
      have hF0 : r ^ 4 - 4 * r ^ 3 + (3 * (a ^ 2 * (1 - x ^ 2)) - a ^ 2) * r ^ 2
          + a ^ 2 * (a ^ 2 * (1 - x ^ 2)) ≤ 0 := by
        by_contra hcon
        have : 0 < 64 * r ^ 2 * (r ^ 4 - 4 * r ^ 3 + (3 * (a ^ 2 * (1 - x ^ 2)) - a ^ 2) * r ^ 2
          + a ^ 2 * (a ^ 2 * (1 - x ^ 2))) := mul_pos (by positivity) (not_le.mp hcon)
        linarith
      have hSS := hSf t htt
      generalize hFd : r ^ 4 - 4 * r ^ 3 + (3 * (a ^ 2 * (1 - x ^ 2)) - a ^ 2) * r ^ 2
          + a ^ 2 * (a ^ 2 * (1 - x ^ 2)) = F at *
      have hpos : 0 < x := by
        have h5 : 0 < 2 * a * (r ^ 2 - a ^ 2 * (1 - x ^ 2)) * t * x := by linarith
        exact pos_of_mul_pos_right h5 (by positivity)
      refine sep_lt_of_neg h0 ha1 zero_le_one le_rfl hpos hr h4 (by linarith) hv ?_
      rw [hSS]
      refine mul_neg_of_pos_of_neg (by positivity) ?_
      have : F ^ 2 < (2 * a * x * (r ^ 2 - a ^ 2 * (1 - x ^ 2)) * t) ^ 2 := by
        refine sq_lt_sq' (by linarith) (by linarith)
      linarith

lemma disc_nonneg {a r x : ℝ} (hx : x ^ 2 ≤ 1) (hr : 1 ≤ r) (hΔ : 0 < r ^ 2 - 2 * r + a ^ 2) :
    0 ≤ 4 * a ^ 2 * x ^ 2 * r ^ 2 + 2 * r * (r ^ 2 + a ^ 2) * (r ^ 2 - 2 * r + a ^ 2 * (1 - x ^ 2)) := by
  have e : 4 * a ^ 2 * x ^ 2 * r ^ 2 + 2 * r * (r ^ 2 + a ^ 2) * (r ^ 2 - 2 * r + a ^ 2 * (1 - x ^ 2))
      = 2 * r * (r ^ 2 - 2 * r + a ^ 2) * (r ^ 2 + a ^ 2 * (1 - x ^ 2)) := by ring
  rw [e]
  have : 0 ≤ 1 - x ^ 2 := by linarith
  have : 0 ≤ r := by linarith
  positivity

/-- `y` is unique. -/
lemma cond_unique {a r x y y' : ℝ} (ha : 0 ≤ a) (hA : a ^ 2 < 1) (hx : x ^ 2 ≤ 1) (hr : 1 + √(1 - a ^ 2) < r)
    (h : Cond a r x y) (h' : Cond a r x y') : y = y' := by
  obtain ⟨h1, h2⟩ := delta_pos hA hr
  obtain ⟨hy, e1, e2⟩ := h
  obtain ⟨hy', e1', e2'⟩ := h'
  by_cases h0 : r ^ 2 - 2 * r + a ^ 2 * (1 - x ^ 2) = 0
  · rw [h0, zero_mul, zero_add] at e1 e1'
    have hc : 0 < 2 * r * (r ^ 2 + a ^ 2) := by
      have : 0 < r := by linarith
      positivity
    have : 4 * a * x * r ≠ 0 := by
      intro h; rw [h] at e1; linarith
    exact mul_left_cancel₀ this (e1.trans e1'.symm)
  · obtain ⟨s, hs⟩ : ∃ s, s = √(4 * a ^ 2 * x ^ 2 * r ^ 2
        + 2 * r * (r ^ 2 + a ^ 2) * (r ^ 2 - 2 * r + a ^ 2 * (1 - x ^ 2))) := ⟨_, rfl⟩
    have hnn : 0 ≤ 4 * a ^ 2 * x ^ 2 * r ^ 2
        + 2 * r * (r ^ 2 + a ^ 2) * (r ^ 2 - 2 * r + a ^ 2 * (1 - x ^ 2)) := disc_nonneg hx h1 h2
    have hss := Real.sq_sqrt hnn
    rw [← hs] at hss
    have hs0 : 0 ≤ s := hs ▸ Real.sqrt_nonneg _
    rw [Parabolic.root_formula ha hA hx h1 h2 rfl h0 hy e1 e2 hs0 hss,
      Parabolic.root_formula ha hA hx h1 h2 rfl h0 hy' e1' e2' hs0 hss]

/-- The angular momentum of the code. -/
lemma code_L {a r x y : ℝ} (ha : 0 ≤ a) (hA : a ^ 2 < 1) (hx : x ^ 2 ≤ 1) (hx0 : x ≠ 0)
    (hr : 1 + √(1 - a ^ 2) < r) (h0 : r ^ 2 - 2 * r + a ^ 2 * (1 - x ^ 2) ≠ 0) (h : Cond a r x y) :
    solveL x 1 (coefficients r a x) = x * y := by
  obtain ⟨h1, h2⟩ := delta_pos hA hr
  obtain ⟨hy, e1, e2⟩ := h
  have hz : √(1 - x ^ 2) ^ 2 = 1 - x ^ 2 := Real.sq_sqrt (by linarith)
  have hnn := disc_nonneg (a := a) hx h1 h2
  have hss := Real.sq_sqrt hnn
  have hs0 := Real.sqrt_nonneg (4 * a ^ 2 * x ^ 2 * r ^ 2
        + 2 * r * (r ^ 2 + a ^ 2) * (r ^ 2 - 2 * r + a ^ 2 * (1 - x ^ 2)))
  have hyf := Parabolic.root_formula ha hA hx h1 h2 rfl h0 hy e1 e2 hs0 hss
  have hh : (coefficients r a x).h = (r ^ 2 - 2 * r + a ^ 2 * (1 - x ^ 2)) / x ^ 2 := by
    simp only [coefficients, hz]; field_simp; ring
  have hdisc : -(coefficients r a x).d * (coefficients r a x).h + 1 ^ 2 * ((coefficients r a x).g ^ 2
        + (coefficients r a x).f * (coefficients r a x).h)
      = (4 * a ^ 2 * x ^ 2 * r ^ 2 + 2 * r * (r ^ 2 + a ^ 2) * (r ^ 2 - 2 * r + a ^ 2 * (1 - x ^ 2))) / x ^ 2 := by
    rw [hh]; simp only [coefficients, hz]; field_simp; ring
  have hsgn : Real.sign x / √(x ^ 2) = 1 / x := by
    rw [Real.sqrt_sq_eq_abs]
    rcases lt_or_gt_of_ne hx0 with k | k
    · rw [Real.sign_of_neg k, abs_of_neg k]; field_simp
    · rw [Real.sign_of_pos k, abs_of_pos k]
  have hg : (coefficients r a x).g = 2 * a * r := rfl
  unfold solveL
  rw [hdisc, hh, hg, Real.sqrt_div hnn, hyf]
  generalize √(4 * a ^ 2 * x ^ 2 * r ^ 2
        + 2 * r * (r ^ 2 + a ^ 2) * (r ^ 2 - 2 * r + a ^ 2 * (1 - x ^ 2))) = s at *
  rw [show Real.sign x * (s / √(x ^ 2)) = s * (Real.sign x / √(x ^ 2)) by ring, hsgn]
  generalize r ^ 2 - 2 * r + a ^ 2 * (1 - x ^ 2) = H at *
  field_simp

end Marginal

/-- **C16 (`e = 1`).** For marginally bound orbits `is_stable` decides whether there is a stable parabolic
orbit with this inclination and periapsis `p/2`. -/
theorem C16_marginal (rs : RootScalar) (a p x : ℝ) (ha : 0 ≤ a) (ha1 : a < 1) (hl : -1 ≤ x) (hr : x ≤ 1) :
    (isStable rs a p 1 x = .ok true ↔ Spec.MarginalOrbit a p x)
      ∧ (isStable rs a p 1 x = .ok false ↔ ¬ Spec.MarginalOrbit a p x) := by
  obtain ⟨s, hs, hv⟩ := C15_separatrix_returns rs a 1 x ha ha1 zero_le_one le_rfl hl hr
  have hiff : isStable rs a p 1 x = .ok true ↔ Spec.MarginalOrbit a p x := by
    rw [(C16_threshold rs a 1 x).2.1 p s hs]
    exact Marginal.accepted_iff rs ha ha1 hl hr hs hv
  refine ⟨hiff, ?_⟩
  rw [← hiff]
  obtain ⟨b, hb⟩ := (C16_contract rs a p 1 x).1.mpr ⟨⟨ha, ha1⟩, ⟨zero_le_one, le_rfl⟩, hl, hr⟩
  rw [hb]
  cases b <;> simp

/-- **C04 (`e = 1`).** Every accepted parabolic orbit for which `angular_momentum` does not divide by zero:
`constants_of_motion` returns `E = 1`, an `L` of the sign of the (standardised) inclination and a `Q ≥ 0`
for which `1 - x²` is a zero of the polar potential, `p/2` is the largest zero of the radial potential, the
next one is strictly below and not inside the horizon; these are the only constants with `E = 1` of which
this is true. -/
theorem C04_marginal (rs : RootScalar) (a p x : ℝ) (h : Spec.BoundOrbit rs a p 1 x)
    (h0 : x ≠ 0 → (p / 2) ^ 2 - 2 * (p / 2) + a ^ 2 * (1 - x ^ 2) ≠ 0) :
    ∃ L Q r3 r4, constantsOfMotion rs a p 1 x = .ok (1, L, Q)
      ∧ Real.sign L = Real.sign (Spec.signedX a x) ∧ 0 ≤ Q ∧ Spec.Zpol |a| 1 L Q (1 - x ^ 2) = 0
      ∧ (∀ r, Spec.R |a| 1 L Q r = 2 * (r - p / 2) * (r - r3) * (r - r4))
      ∧ r4 ≤ 1 + √(1 - a ^ 2) ∧ 1 + √(1 - a ^ 2) ≤ r3 ∧ r3 < p / 2
      ∧ ∀ L' Q' r3' r4', Real.sign L' = Real.sign (Spec.signedX a x) → 0 ≤ Q' →
          Spec.Zpol |a| 1 L' Q' (1 - x ^ 2) = 0 →
          (∀ r, Spec.R |a| 1 L' Q' r = 2 * (r - p / 2) * (r - r3') * (r - r4')) → r4' ≤ r3' → r3' < p / 2 →
          L' = L ∧ Q' = Q := by
  have hc := constantsOfMotion_of_bound h
  have hbo := h
  obtain ⟨ha1, -, hx1, s, hs, hsp⟩ := h
  have hX : |Spec.signedX a x| ≤ 1 := by rw [abs_signedX]; exact hx1
  have hX2 : Spec.signedX a x ^ 2 = x ^ 2 := by rw [← sq_abs, abs_signedX, sq_abs]
  obtain ⟨s', hs', hv⟩ := C15_separatrix_returns rs |a| 1 (Spec.signedX a x) (abs_nonneg a) ha1 zero_le_one
    le_rfl (abs_le.mp hX).1 (abs_le.mp hX).2
  obtain rfl : s = s' := Except.ok.inj (hs.symm.trans hs')
  have hM := (Marginal.accepted_iff rs (abs_nonneg a) ha1 (abs_le.mp hX).1 (abs_le.mp hX).2 hs hv).mp hsp
  have hA : |a| ^ 2 < 1 := by rw [sq_abs]; nlinarith [abs_nonneg a, sq_abs a]
  have hx2 : Spec.signedX a x ^ 2 ≤ 1 := by rw [← sq_abs]; nlinarith [abs_nonneg (Spec.signedX a x)]
  obtain ⟨hh, y, hy⟩ := (Marginal.orbit_iff hA hx2).mp hM
  have hd := (Marginal.delta_pos hA hh).1
  obtain ⟨r3, r4, hR, h4, h3, h32⟩ := Parabolic.roots_of_cond (by linarith) hh (Marginal.horizon_sq hA) hy.2.1
    hy.2.2
  have hz : √(1 - Spec.signedX a x ^ 2) ^ 2 = 1 - Spec.signedX a x ^ 2 := Real.sq_sqrt (by linarith)
  -- the constants of the code
  have hcode : constantsOfMotion rs a p 1 x
      = .ok (1, Spec.signedX a x * y, (1 - Spec.signedX a x ^ 2) * y ^ 2) := by
    by_cases hx0 : x = 0
    · subst hx0
      have hsx : Spec.signedX a 0 = 0 := by rw [signedX_eq_zero]
      obtain ⟨Q, hQc, hQ, hQR⟩ := C06_polar_marginal rs a p hbo
      rw [hQc, hsx]
      have hQy : Q = y ^ 2 := by
        rw [hsx] at hy
        have h1 := hy.2.1
        have hD := (Marginal.delta_pos hA hh).2
        rw [sq_abs] at h1 hD
        unfold Spec.R Spec.Delta at hQR
        have : ((p / 2) ^ 2 - 2 * (p / 2) + a ^ 2) * (Q - y ^ 2) = 0 := by
          linear_combination -hQR - h1
        linarith [(mul_eq_zero.mp this).resolve_left hD.ne']
      rw [hQy]; norm_num
    · have hsx : Spec.signedX a x ≠ 0 := by rw [Ne, signedX_eq_zero]; exact hx0
      have h0' : (p / 2) ^ 2 - 2 * (p / 2) + |a| ^ 2 * (1 - Spec.signedX a x ^ 2) ≠ 0 := by
        rw [sq_abs, hX2]; exact h0 hx0
      have hL := Marginal.code_L (abs_nonneg a) hA hx2 hsx hh h0' hy
      rw [hc, sx_eq]
      simp only [pureConsts, energyFormula, angularMomentumFormula, sa, if_true, if_neg hsx,
        show (1:ℝ) + 1 = 2 by norm_num, hL, carterFormula, hz]
      have : (1 - Spec.signedX a x ^ 2) * (|a| ^ 2 * (1 - 1 ^ 2) + (Spec.signedX a x * y) ^ 2
          / (1 - (1 - Spec.signedX a x ^ 2))) = (1 - Spec.signedX a x ^ 2) * y ^ 2 := by
        rw [show 1 - (1 - Spec.signedX a x ^ 2) = Spec.signedX a x ^ 2 by ring]
        field_simp; ring
      rw [this]
  rw [← hX2, ← sq_abs a]
  refine ⟨_, _, r3, r4, hcode, Parabolic.sign_y hy.1, mul_nonneg (by linarith) (sq_nonneg y),
    Parabolic.zpol_y _ _ _, hR, h4, h3, h32, ?_⟩
  intro L' Q' r3' r4' k1 k2 k3 k4 k5 k6
  obtain ⟨y', hy', rfl, rfl⟩ := Parabolic.exists_y hx2 k1 k2 k3
  have hy'' := Parabolic.cond_of_roots (by linarith) hy' k4 k5 k6
  obtain rfl := Marginal.cond_unique (abs_nonneg a) hA hx2 hh hy'' hy
  exact ⟨rfl, rfl⟩

/-- Every stable parabolic orbit is accepted. -/
lemma bound_of_marginal (rs : RootScalar) {a p x : ℝ} (ha : 0 ≤ a) (ha1 : a < 1) (hx : |x| ≤ 1)
    (h : Spec.MarginalOrbit a p x) : Spec.BoundOrbit rs a p 1 x := by
  obtain ⟨hl, hr⟩ := abs_le.mp hx
  obtain ⟨s, hs, hv⟩ := C15_separatrix_returns rs a 1 x ha ha1 zero_le_one le_rfl hl hr
  refine ⟨by rwa [abs_of_nonneg ha], ⟨zero_le_one, le_rfl⟩, hx, s, ?_,
    (Marginal.accepted_iff rs ha ha1 hl hr hs hv).mpr h⟩
  have : Spec.signedX a x = x := by unfold Spec.signedX; rw [if_neg (not_lt.mpr ha)]
  rw [abs_of_nonneg ha, this]; exact hs

/-- **C04 (violated at isolated radii), 3.** The hypothesis of `C04_marginal` is not implied by acceptance:
the stable parabolic equatorial orbit `a = 9/10`, `p = 4` is accepted, but the coefficient by which
`angular_momentum` divides is zero there. -/
theorem C04_marginal_violation (rs : RootScalar) :
    Spec.MarginalOrbit (9 / 10) 4 1 ∧ Spec.BoundOrbit rs (9 / 10) 4 1 1
      ∧ (angularMomentum rs (9 / 10) 4 1 1).Returns
      ∧ (coefficients (4 / (1 + 1)) (9 / 10) 1).h = 0 := by
  have hM : Spec.MarginalOrbit (9 / 10) 4 1 := by
    rw [Marginal.orbit_iff (by norm_num) (by norm_num)]
    refine ⟨?_, 4 * (4 + 81 / 100) / (36 / 5), by norm_num, by norm_num, by norm_num⟩
    have : √(1 - (9 / 10 : ℝ) ^ 2) < 1 := by
      rw [Real.sqrt_lt' one_pos]; norm_num
    linarith
  have hb := bound_of_marginal rs (by norm_num) (by norm_num) (by norm_num) hM
  refine ⟨hM, hb, ?_, ?_⟩
  · rw [angularMomentum_eq, (constantsGuard_iff rs _ _ _ _).mpr hb]
    exact ⟨_, rfl⟩
  · norm_num [coefficients]

/-- Non-vacuity of C04 for `e = 1`: an inclined retrograde orbit. -/
example : ∃ L Q r3 r4, constantsOfMotion exampleRS (1 / 2) 13 1 (-1 / 3) = .ok (1, L, Q)
    ∧ L < 0 ∧ (∀ r, Spec.R |1 / 2| 1 L Q r = 2 * (r - 13 / 2) * (r - r3) * (r - r4)) ∧ r3 < 13 / 2 := by
  have hb : Spec.BoundOrbit exampleRS (1 / 2) 13 1 (-1 / 3) := by
    refine C11_accepts_wide exampleRS _ _ _ _ ?_ zero_le_one le_rfl ?_ (by norm_num)
    · rw [abs_of_pos (by norm_num)]; norm_num
    · rw [abs_of_neg (by norm_num)]; norm_num
  obtain ⟨L, Q, r3, r4, h1, h2, -, -, h3, -, -, h4, -⟩ := C04_marginal exampleRS (1 / 2) 13 (-1 / 3) hb
    (fun _ => by norm_num)
  have hs : Spec.signedX (1 / 2) (-1 / 3) = -1 / 3 := by unfold Spec.signedX; rw [if_neg (by norm_num)]
  rw [hs, Real.sign_of_neg (show (-1 / 3 : ℝ) < 0 by norm_num)] at h2
  refine ⟨L, Q, r3, r4, h1, ?_, h3, h4⟩
  by_contra hc
  rcases eq_or_lt_of_le (not_lt.mp hc) with k | k
  · rw [← k, Real.sign_zero] at h2; norm_num at h2
  · rw [Real.sign_of_pos k] at h2; norm_num at h2

/-- Non-vacuity of C16 for `e = 1`: both answers occur. -/
example : Spec.MarginalOrbit (9 / 10) 4 1 ∧ ¬ Spec.MarginalOrbit (9 / 10) 4 (-1) := by
  refine ⟨(C04_marginal_violation exampleRS).1, ?_⟩
  rw [Marginal.orbit_iff (by norm_num) (by norm_num)]
  rintro ⟨-, y, hy, e1, -⟩
  norm_num at e1
  linarith

end KGP
