import Verif.Lemmas.EccMono
import Verif.Lemmas.SpinCert
import Mathlib.Analysis.Calculus.Deriv.Mul
import Mathlib.Analysis.Calculus.Deriv.Inv
import Mathlib.Analysis.Calculus.Deriv.Pow
import Mathlib.Analysis.Calculus.Deriv.MeanValue
import Mathlib.Analysis.SpecialFunctions.Sqrt

/-!
# How the constants of equatorial and of polar orbits move with the spin

With the turning points `r`, `s` fixed, the sum `T` of the two inner roots is an explicit function of the spin (polar orbits),
or the spin an explicit function of `T` (equatorial orbits).
-/

namespace KGP.EMono

open Set Filter Topology

namespace Pre

variable {A b r s E Y : ℝ} (o : Pre A b r s E Y)
include o

lemma middle (hr : 0 < r) (hs : 0 < s) :
    (r * s + (r + s) * iT E r s + iM A b E Y r s - A - (A - b ^ 2)) * (1 - E ^ 2) = Y ^ 2 := by
  have hE := o.E2
  have f0 := o.fac hr hs 0
  have f1 := o.fac hr hs 1
  have f2 := o.fac hr hs (-1)
  rw [q_eq hE hr hs] at f0 f1 f2
  generalize iT E r s = T at *
  generalize iM A b E Y r s = M at *
  unfold R D at f0 f1 f2
  linear_combination (1 / 2) * f1 + (1 / 2) * f2 - f0

end Pre

/-! ## Equatorial orbits -/

/-- the (signed) spin of an equatorial orbit between `s` and `r` with third root `T`, times `r + s + T` -/
noncomputable def spinOf (r s T : ℝ) : ℝ :=
  (√(2 * (r + s) * (r * s + (r + s) * T + T ^ 2)) - √((r + s + T - 2) * T * (r * s))) / (r + s + T)

section Equatorial

variable {r s : ℝ} (hs : 1 < s) (hsr : s ≤ r)
include hs hsr

set_option maxHeartbeats 1000000 in
lemma spinOf_deriv {T : ℝ} (hT : 1 ≤ T) (hTs : T ≤ s) : deriv (spinOf r s) T < 0 := by
  obtain ⟨S, hS⟩ : ∃ S, S = r + s := ⟨_, rfl⟩
  have key := spin_key (h := r - s) (v := T - 1) (m := s - T) (s := s) (r := r) (T := T) (by linarith) (by linarith)
    (by linarith) (by linarith) (by ring) (by ring) (by ring) hS
  have hf : spinOf r s = fun t => (√(2 * S * (r * s + S * t + t ^ 2)) - √((S + t - 2) * t * (r * s))) / (S + t) := by
    funext t; unfold spinOf; rw [hS]
  have hP : 0 < r * s := mul_pos (by linarith) (by linarith)
  have hPS : 4 * (r * s) ≤ S ^ 2 := by rw [hS]; nlinarith [sq_nonneg (r - s)]
  generalize r * s = P at *
  have hST : 2 * T ≤ S := by linarith
  have hT0 : 0 < T := by linarith
  have hS2 : 2 < S := by linarith
  have hS0 : 0 < S := by linarith
  have u1 : 0 < 2 * S * (P + S * T + T ^ 2) := by positivity
  have u2 : 0 < (S + T - 2) * T * P := by
    have : 0 < S + T - 2 := by linarith
    positivity
  have d1 : HasDerivAt (fun t => 2 * S * (P + S * t + t ^ 2)) (2 * S * (S + 2 * T)) T := by
    have := ((((hasDerivAt_id T).const_mul S).const_add P).add ((hasDerivAt_id T).fun_pow 2)).const_mul (2 * S)
    refine this.congr_deriv ?_
    simp only [id]; ring
  have d2 : HasDerivAt (fun t => (S + t - 2) * t * P) ((S + 2 * T - 2) * P) T := by
    have := ((((hasDerivAt_id T).const_add S).sub_const 2).mul (hasDerivAt_id T)).mul_const P
    refine this.congr_deriv ?_
    simp only [id]; ring
  have d3 : HasDerivAt (fun t => S + t) 1 T := (hasDerivAt_id T).const_add S
  have d := ((d1.sqrt u1.ne').sub (d2.sqrt u2.ne')).div d3 (by positivity)
  have hd := d.deriv
  change deriv (fun t => (√(2 * S * (P + S * t + t ^ 2)) - √((S + t - 2) * t * P)) / (S + t)) T = _ at hd
  rw [← hf] at hd
  rw [hd]
  have n1 := Real.sqrt_pos.mpr u1
  have n2 := Real.sqrt_pos.mpr u2
  have q1 := Real.sq_sqrt u1.le
  have q2 := Real.sq_sqrt u2.le
  simp only [Pi.sub_apply]
  generalize √(2 * S * (P + S * T + T ^ 2)) = x at *
  generalize √((S + T - 2) * T * P) = y at *
  refine div_neg_of_neg_of_pos ?_ (by positivity)
  have k1 : 2 * S * (S ^ 2 + S * T - 2 * P) * y < P * (S ^ 2 + S * T - 2 * S + 2 * T) * x := by
    have z1 : 0 ≤ P * (S ^ 2 + S * T - 2 * S + 2 * T) * x := by
      have : 0 ≤ S ^ 2 + S * T - 2 * S + 2 * T := by nlinarith
      positivity
    refine lt_of_pow_lt_pow_left₀ 2 z1 ?_
    have e1 : (2 * S * (S ^ 2 + S * T - 2 * P) * y) ^ 2
        = 2 * S * P * (2 * S * T * (S + T - 2) * (S ^ 2 + S * T - 2 * P) ^ 2) := by
      rw [mul_pow, q2]; ring
    have e2 : (P * (S ^ 2 + S * T - 2 * S + 2 * T) * x) ^ 2
        = 2 * S * P * (P * (S ^ 2 + S * T - 2 * S + 2 * T) ^ 2 * (P + S * T + T ^ 2)) := by
      rw [mul_pow, q1]; ring
    rw [e1, e2]
    exact mul_lt_mul_of_pos_left key (by positivity)
  have e3 : (2 * S * (S + 2 * T) / (2 * x) - (S + 2 * T - 2) * P / (2 * y)) * (S + T) - (x - y) * 1
      = (2 * S * (S ^ 2 + S * T - 2 * P) * y - P * (S ^ 2 + S * T - 2 * S + 2 * T) * x) / (2 * x * y) := by
    field_simp
    linear_combination (-2 * y) * q1 + 2 * x * q2
  rw [e3]
  exact div_neg_of_neg_of_pos (by linarith) (by positivity)

/-- the spin decreases with the third root -/
lemma spinOf_anti : StrictAntiOn (spinOf r s) (Icc 1 s) := by
  refine strictAntiOn_of_deriv_neg (convex_Icc 1 s) (fun t ht => ?_) fun t ht => ?_
  · have := spinOf_deriv hs hsr ht.1 ht.2
    exact (differentiableAt_of_deriv_ne_zero this.ne).continuousAt.continuousWithinAt
  · rw [interior_Icc] at ht
    exact spinOf_deriv hs hsr ht.1.le ht.2.le

end Equatorial

namespace Orb

variable {b r s E Y : ℝ} (o : Orb (b ^ 2) b r s E Y)
include o

lemma geom : 1 < s ∧ 0 < r ∧ 0 < s := by
  have h1 := o.hs
  have h2 := o.hsr
  have h3 : 1 < s := by
    refine lt_of_le_of_ne h1 fun h => ?_
    have h4 := o.hD
    have h5 := o.hA
    unfold D at h4
    rw [← h] at h4
    linarith
  exact ⟨h3, by linarith, by linarith⟩

lemma equatorial_T : 1 ≤ iT E r s ∧ iT E r s ≤ s := by
  obtain ⟨h1, h2, h3⟩ := o.geom
  have hM : iM (b ^ 2) b E Y r s = 0 := by unfold iM; simp
  have k1 := o.pre.T_ge o.hb o.hA h1 o.hsr
  have k2 := o.pre.N_nonneg h1 o.hsr le_rfl
  rw [hM] at k1 k2
  refine ⟨by linarith, ?_⟩
  have : 0 ≤ s * (s - iT E r s) := by linarith
  linarith [nonneg_of_mul_nonneg_right this h3]

/-- the relations between the constants and the third root of an equatorial orbit -/
lemma equatorial : (1 - E ^ 2) * (r + s + iT E r s) = 2 ∧ (Y - b * E) ^ 2 * (r + s + iT E r s) = iT E r s * (r * s)
    ∧ (r * s + (r + s) * iT E r s - b ^ 2) * (1 - E ^ 2) = Y ^ 2 := by
  obtain ⟨h1, h2, h3⟩ := o.geom
  have hM : iM (b ^ 2) b E Y r s = 0 := by unfold iM; simp
  have hP : 0 < r * s := mul_pos h2 h3
  refine ⟨o.pre.hST, ?_, ?_⟩
  · have := (o.pre.coeffs h2 h3).2
    refine mul_left_cancel₀ hP.ne' ?_
    linear_combination this
  · have := o.pre.middle h2 h3
    rw [hM] at this
    linear_combination this

/-- the spin is a function of the turning points and the third root -/
lemma equatorial_spin : b = spinOf r s (iT E r s) ∧ Y = (1 - E ^ 2) * √(iT E r s * (r * s) / (r + s + iT E r s))
    + E * (√(2 * (r + s) * (r * s + (r + s) * iT E r s + iT E r s ^ 2)) / (r + s + iT E r s)) := by
  obtain ⟨h1, h2, h3⟩ := o.geom
  obtain ⟨t1, t2⟩ := o.equatorial_T
  obtain ⟨k1, k2, k3⟩ := o.equatorial
  have hm := o.m_pos
  have hV := o.V_neg
  have hE := o.hE
  have hP : 0 < r * s := mul_pos h2 h3
  unfold spinOf
  have hS1 : 1 < r + s := by linarith
  generalize hS : r + s = S at *
  generalize iT E r s = T at *
  generalize r * s = P at *
  obtain ⟨V, hVd⟩ : ∃ V, V = Y - b * E := ⟨_, rfl⟩
  have hV0 : 0 < V := by linarith
  have hY : Y = V + b * E := by linarith
  have hST : 0 < S + T := by linarith
  have hE2 : E ^ 2 * (S + T) = S + T - 2 := by linarith
  have hV2 : V ^ 2 * (S + T) = T * P := by rw [hVd]; exact k2
  have e1 : √(T * P / (S + T)) = V := by
    rw [← hV2, mul_div_assoc, div_self hST.ne', mul_one, Real.sqrt_sq hV0.le]
  have e2 : √((S + T - 2) * T * P) = E * V * (S + T) := by
    rw [mul_assoc, ← hE2, ← hV2, show E ^ 2 * (S + T) * (V ^ 2 * (S + T)) = (E * V * (S + T)) ^ 2 by ring]
    exact Real.sqrt_sq (by positivity)
  have hw : 0 < b + E * V := by rw [hVd]; linarith
  have e3 : √(2 * S * (P + S * T + T ^ 2)) = (b + E * V) * (S + T) := by
    have : 2 * S * (P + S * T + T ^ 2) = ((b + E * V) * (S + T)) ^ 2 := by
      rw [hY] at k3
      have k4 : b ^ 2 + 2 * b * E * V + V ^ 2 = (P + S * T) * (1 - E ^ 2) := by linear_combination -k3
      have k5 : (b + E * V) ^ 2 * (S + T) ^ 2 = (P + S * T) * (1 - E ^ 2) * (S + T) ^ 2 - (1 - E ^ 2) * V ^ 2 * (S + T) ^ 2 := by
        linear_combination (S + T) ^ 2 * k4
      linear_combination -k5 - (P + S * T) * (S + T) * k1 + (1 - E ^ 2) * (S + T) * hV2 + T * P * k1
    rw [this]
    exact Real.sqrt_sq (by positivity)
  rw [e1, e2, e3, mul_div_assoc, div_self hST.ne', mul_one, ← sub_mul, mul_div_assoc, div_self hST.ne', mul_one]
  exact ⟨by ring, by rw [hY]; ring⟩

end Orb

/-- Equatorial orbits between the same turning points: the energy and the angular momentum decrease when the (signed)
spin grows. -/
lemma equatorial_order {b b' r s E Y E' Y' : ℝ} (o : Orb (b ^ 2) b r s E Y) (o' : Orb (b' ^ 2) b' r s E' Y') (h : b < b') :
    E' < E ∧ Y' < Y := by
  obtain ⟨g1, g2, g3⟩ := o.geom
  have hT : iT E' r s < iT E r s := by
    by_contra hc
    have := (spinOf_anti g1 o.hsr).antitoneOn o.equatorial_T o'.equatorial_T (not_lt.mp hc)
    rw [← o.equatorial_spin.1, ← o'.equatorial_spin.1] at this
    linarith
  obtain ⟨t1, t2⟩ := o.equatorial_T
  obtain ⟨t1', t2'⟩ := o'.equatorial_T
  obtain ⟨k1, -, -⟩ := o.equatorial
  obtain ⟨k1', -, -⟩ := o'.equatorial
  have hY := o.equatorial_spin.2
  have hY' := o'.equatorial_spin.2
  have hsr := o.hsr
  have hE := o.hE
  have hE' := o'.hE
  have hP : 0 < r * s := mul_pos g2 g3
  have hPS : 4 * (r * s) ≤ (r + s) ^ 2 := by nlinarith [sq_nonneg (r - s)]
  have hS1 : 2 * s ≤ r + s := by linarith
  clear o o'
  generalize hS : r + s = S at *
  generalize iT E r s = T at *
  generalize iT E' r s = T' at *
  generalize r * s = P at *
  have hST : 0 < S + T := by linarith
  have hST' : 0 < S + T' := by linarith
  have hT0' : 0 < T' := by linarith
  have hT0 : 0 < T := by linarith
  have hEE : E' < E := by
    refine lt_of_pow_lt_pow_left₀ 2 hE.le ?_
    have e1 : 1 - E ^ 2 = 2 / (S + T) := by rw [eq_div_iff hST.ne']; exact k1
    have e2 : 1 - E' ^ 2 = 2 / (S + T') := by rw [eq_div_iff hST'.ne']; exact k1'
    have : 2 / (S + T) < 2 / (S + T') := div_lt_div_of_pos_left two_pos hST' (by linarith)
    linarith
  refine ⟨hEE, ?_⟩
  have b1 : 0 < 1 - E ^ 2 := (pos_iff_pos_of_mul_pos (a := 1 - E ^ 2) (b := S + T) (by linarith)).mpr hST
  have b2 : 0 < 1 - E' ^ 2 := (pos_iff_pos_of_mul_pos (a := 1 - E' ^ 2) (b := S + T') (by linarith)).mpr hST'
  have c1 : √(2 * S * (P + S * T' + T' ^ 2)) / (S + T') ≤ √(2 * S * (P + S * T + T ^ 2)) / (S + T) := by
    have hS0 : 0 < S := by linarith
    refine abs_le_of_sq_le_sq ?_ (by positivity) |> (le_abs_self _).trans
    rw [div_pow, div_pow, Real.sq_sqrt (by positivity), Real.sq_sqrt (by positivity), div_le_div_iff₀ (by positivity) (by positivity)]
    have h1 : (S + T) * P ≤ (S + T) * (S ^ 2 / 4) := mul_le_mul_of_nonneg_left (by linarith) hST.le
    have h2 : (S + T') * P ≤ (S + T') * (S ^ 2 / 4) := mul_le_mul_of_nonneg_left (by linarith) hST'.le
    have h3 : S * (S * S) ≤ S * ((S + T) * (S + T')) :=
      mul_le_mul_of_nonneg_left (mul_le_mul (by linarith) (by linarith) hS0.le hST.le) hS0.le
    have h4 : (S + T) * S ^ 2 + (S + T') * S ^ 2 ≤ 4 * (S * ((S + T) * (S + T'))) := by
      nlinarith [mul_nonneg (mul_nonneg hS0.le hT0.le) hT0'.le, mul_nonneg hS0.le (mul_nonneg hS0.le hT0.le),
        mul_nonneg hS0.le (mul_nonneg hS0.le hT0'.le)]
    have : 0 ≤ 2 * S * ((T - T') * (S * ((S + T) * (S + T')) - P * (S + T + (S + T')))) :=
      mul_nonneg (by linarith) (mul_nonneg (by linarith) (by linarith))
    linarith
  have c2 : (1 - E' ^ 2) * √(T' * P / (S + T')) ≤ (1 - E ^ 2) * √(T * P / (S + T)) := by
    have e1 : 1 - E ^ 2 = 2 / (S + T) := by rw [eq_div_iff hST.ne']; exact k1
    have e2 : 1 - E' ^ 2 = 2 / (S + T') := by rw [eq_div_iff hST'.ne']; exact k1'
    refine abs_le_of_sq_le_sq ?_ (by positivity) |> (le_abs_self _).trans
    rw [mul_pow, mul_pow, Real.sq_sqrt (by positivity), Real.sq_sqrt (by positivity), e1, e2, div_pow, div_pow,
      div_mul_div_comm, div_mul_div_comm, div_le_div_iff₀ (by positivity) (by positivity)]
    obtain ⟨u, hu⟩ : ∃ u, u = S + T := ⟨_, rfl⟩
    obtain ⟨v, hv⟩ : ∃ v, v = S + T' := ⟨_, rfl⟩
    have hu3 : 2 * u ≤ 3 * S := by linarith
    have hv3 : 2 * v ≤ 3 * S := by linarith
    rw [← hu] at hST
    rw [← hv] at hST'
    have huv : 0 < u * v := by positivity
    have h1 : u * v * (2 * (u + v)) ≤ u * v * (6 * S) := mul_le_mul_of_nonneg_left (by linarith) huv.le
    have h2 : 0 ≤ S * (u - v) ^ 2 := mul_nonneg (by linarith) (sq_nonneg _)
    have h3 : 0 ≤ 4 * P * ((u - v) * (S * (u ^ 2 + u * v + v ^ 2) - u * v * (u + v))) :=
      mul_nonneg (by linarith) (mul_nonneg (by linarith) (by linarith))
    have hT1 : T = u - S := by linarith
    have hT2 : T' = v - S := by linarith
    rw [← hu, ← hv, hT1, hT2]
    linarith
  rw [hY, hY']
  have c3 : 0 < √(2 * S * (P + S * T + T ^ 2)) / (S + T) := by
    have hS0 : 0 < S := by linarith
    have : 0 < 2 * S * (P + S * T + T ^ 2) := by positivity
    have := Real.sqrt_pos.mpr this
    positivity
  have c4 : E' * (√(2 * S * (P + S * T' + T' ^ 2)) / (S + T')) < E * (√(2 * S * (P + S * T + T ^ 2)) / (S + T)) :=
    (mul_le_mul_of_nonneg_left c1 hE'.le).trans_lt (mul_lt_mul_of_pos_right hEE c3)
  linarith

/-! ## Polar orbits -/

namespace Orb

variable {A r s E Y : ℝ} (o : Orb A 0 r s E Y)
include o

/-- the relations between the constants and the inner roots of a polar orbit, with `w = 1 / (r s - A)` -/
lemma polar : ∃ w, 0 < w ∧ (r * s - A) * w = 1 ∧ 0 < iT E r s ∧ (1 - E ^ 2) * (r + s + iT E r s) = 2
    ∧ iT E r s * (1 - (r + s) ^ 2 * w + (r + s) * (r + s - 2) * (r * s) * w ^ 2) = 2
    ∧ (A * (1 - E ^ 2) + Y ^ 2) * (r + s + iT E r s) = 2 * (r * s) * (1 + (r + s) * iT E r s * w) := by
  have hs1 : 1 < s := by
    refine lt_of_le_of_ne o.hs fun h => ?_
    have h4 := o.hD
    have h5 := o.hA
    unfold D at h4
    rw [← h] at h4
    linarith
  have hsr := o.hsr
  have hs0 : 0 < s := by linarith
  have hr0 : 0 < r := by linarith
  have hA0 : 0 ≤ A := by simpa using o.hb
  have hg : 0 < r * s - A := by nlinarith [o.hA]
  obtain ⟨c1, c2⟩ := o.pre.coeffs hr0 hs0
  have c3 := o.pre.middle hr0 hs0
  have c4 := o.pre.hST
  have c5 := o.pre.T_ge o.hb o.hA hs1 hsr
  have c6 := o.pre.M_nonneg o.hb hs1 hsr
  have hP : 0 < r * s := mul_pos hr0 hs0
  have hS1 : 1 < r + s := by linarith
  generalize iT E r s = T at *
  generalize iM A 0 E Y r s = M at *
  clear o
  generalize r + s = S at *
  generalize r * s = P at *
  have hT : 0 < T := by linarith
  have hw : (P - A) * (P - A)⁻¹ = 1 := mul_inv_cancel₀ hg.ne'
  have hw0 : 0 < (P - A)⁻¹ := inv_pos.mpr hg
  refine ⟨(P - A)⁻¹, hw0, hw, hT, c4, ?_, ?_⟩
  · generalize (P - A)⁻¹ = w at *
    have c3' : Y ^ 2 * (S + T) = 2 * (P + S * T + M - A - A) := by
      rw [← c3]; linear_combination (P + S * T + M - A - A) * c4
    have k : T * ((P - A) ^ 2 + S * (S - 2) * P - S ^ 2 * (P - A)) = 2 * (P - A) ^ 2 := by
      linear_combination -c2 + (P - A) * c3' + 2 * c1
    have e1 : P * w = 1 + A * w := by linarith
    have k2 : (P - A) ^ 2 * w ^ 2 = 1 := by rw [← mul_pow, hw, one_pow]
    have k3 : (P - A) * w ^ 2 = w := by rw [pow_two, ← mul_assoc, hw, one_mul]
    linear_combination w ^ 2 * k - (T - 2) * k2 + T * S ^ 2 * k3
  · generalize (P - A)⁻¹ = w at *
    have c3' : Y ^ 2 * (S + T) = 2 * (P + S * T + M - A - A) := by
      rw [← c3]; linear_combination (P + S * T + M - A - A) * c4
    have k : (A * (1 - E ^ 2) + Y ^ 2) * (S + T) * (P - A) = 2 * P * ((P - A) + S * T) := by
      linear_combination (P - A) * A * c4 + (P - A) * c3' + 2 * c1
    linear_combination w * k - ((A * (1 - E ^ 2) + Y ^ 2) * (S + T) - 2 * P) * hw

end Orb

lemma polar_z {S P y y' : ℝ} (h4 : 4 < S) (hPS : 4 * P ≤ S ^ 2) (y1 : 1 ≤ y) (y2 : 1 < y') :
    0 < 2 * S * (S - 2) * S ^ 2 * (y * y') - 4 * P * S - 2 * S * (S - 2) * P * (y + y') := by
  have hS0 : 0 < S := by linarith
  have a1 : 0 ≤ (y - 1) * (y' - 1) := mul_nonneg (by linarith) (by linarith)
  have a2 : 1 < y * y' := by linarith
  have a3 : 4 * P * S ≤ S ^ 2 * S := mul_le_mul_of_nonneg_right hPS hS0.le
  have a4 : 0 < S * (S - 2) := mul_pos hS0 (by linarith)
  have a5 : S * (S - 2) * (4 * P * (y + y')) ≤ S * (S - 2) * (S ^ 2 * (2 * (y * y'))) := by
    refine mul_le_mul_of_nonneg_left ?_ a4.le
    exact mul_le_mul hPS (by linarith) (by linarith) (by positivity)
  have a6 : 0 < S * (S - 2) * S ^ 2 * (y * y' - 1) := mul_pos (by positivity) (by linarith)
  have a7 : 0 < S ^ 3 * (S - 3) := mul_pos (by positivity) (by linarith)
  linarith

set_option maxHeartbeats 1000000 in
/-- Polar orbits between the same turning points: the energy and the Carter constant decrease when the spin grows. -/
lemma polar_order {A A' r s E Y E' Y' : ℝ} (o : Orb A 0 r s E Y) (o' : Orb A' 0 r s E' Y') (h : A < A') (h4 : 4 < r + s) :
    E' < E ∧ A' * (1 - E' ^ 2) + Y' ^ 2 < A * (1 - E ^ 2) + Y ^ 2 := by
  obtain ⟨w, hw, hgw, hT, k1, k2, k3⟩ := o.polar
  obtain ⟨w', hw', hgw', hT', k1', k2', k3'⟩ := o'.polar
  have hE := o.hE
  have hA : 0 ≤ A := by simpa using o.hb
  have hP : 0 < r * s := mul_pos (by linarith [o.hs, o.hsr]) (by linarith [o.hs])
  have hPS : 4 * (r * s) ≤ (r + s) ^ 2 := by nlinarith [sq_nonneg (r - s)]
  clear o o'
  generalize iT E r s = T at *
  generalize iT E' r s = T' at *
  generalize r + s = S at *
  generalize r * s = P at *
  have hww : w < w' := by
    have g1 : 0 < P - A' := (pos_iff_pos_of_mul_pos (by rw [hgw']; exact one_pos)).mpr hw'
    have : 0 < (P - A') * (w' - w) := by nlinarith
    linarith [(pos_iff_pos_of_mul_pos this).mp g1]
  have y1 : 1 ≤ P * w := by nlinarith [mul_nonneg hA hw.le]
  have y2 : 1 < P * w' := lt_of_le_of_lt y1 (mul_lt_mul_of_pos_left hww hP)
  have hphi : 1 - S ^ 2 * w + S * (S - 2) * P * w ^ 2 < 1 - S ^ 2 * w' + S * (S - 2) * P * w' ^ 2 := by
    have h1 : 0 < (S - 2) * (P * w + P * w' - 2) := mul_pos (by linarith) (by linarith)
    have h2 : 0 < S * ((w' - w) * ((S - 2) * (P * w + P * w') - S)) :=
      mul_pos (by linarith) (mul_pos (by linarith) (by linarith))
    linarith
  have hTT : T' < T := by
    generalize 1 - S ^ 2 * w + S * (S - 2) * P * w ^ 2 = f at *
    generalize 1 - S ^ 2 * w' + S * (S - 2) * P * w' ^ 2 = f' at *
    by_contra hc
    have h1 : 0 < f := (pos_iff_pos_of_mul_pos (by rw [k2]; exact two_pos)).mp hT
    nlinarith [mul_lt_mul_of_pos_left hphi hT', mul_le_mul_of_nonneg_right (not_lt.mp hc) h1.le]
  have hST : 0 < S + T := by linarith
  have hST' : 0 < S + T' := by linarith
  refine ⟨?_, ?_⟩
  · refine lt_of_pow_lt_pow_left₀ 2 hE.le ?_
    have e1 : 1 - E ^ 2 = 2 / (S + T) := by rw [eq_div_iff hST.ne']; exact k1
    have e2 : 1 - E' ^ 2 = 2 / (S + T') := by rw [eq_div_iff hST'.ne']; exact k1'
    have : 2 / (S + T) < 2 / (S + T') := div_lt_div_of_pos_left two_pos hST' (by linarith)
    linarith
  · generalize A * (1 - E ^ 2) + Y ^ 2 = Q at *
    generalize A' * (1 - E' ^ 2) + Y' ^ 2 = Q' at *
    -- in terms of w
    obtain ⟨n, hn⟩ : ∃ n, n = 1 - S * (S - 2) * w + S * (S - 2) * P * w ^ 2 := ⟨_, rfl⟩
    obtain ⟨d, hd⟩ : ∃ d, d = S + 2 - S ^ 3 * w + S * (S * (S - 2)) * P * w ^ 2 := ⟨_, rfl⟩
    obtain ⟨n', hn'⟩ : ∃ n, n = 1 - S * (S - 2) * w' + S * (S - 2) * P * w' ^ 2 := ⟨_, rfl⟩
    obtain ⟨d', hd'⟩ : ∃ d, d = S + 2 - S ^ 3 * w' + S * (S * (S - 2)) * P * w' ^ 2 := ⟨_, rfl⟩
    have q1 : T * d = 2 * (S + T) := by rw [hd]; linear_combination S * k2
    have q1' : T' * d' = 2 * (S + T') := by rw [hd']; linear_combination S * k2'
    have hd0 : 0 < d := (pos_iff_pos_of_mul_pos (a := T) (by rw [q1]; linarith)).mp hT
    have hd0' : 0 < d' := (pos_iff_pos_of_mul_pos (a := T') (by rw [q1']; linarith)).mp hT'
    have q2 : Q * d = 2 * P * n := by
      refine mul_left_cancel₀ (mul_pos hT hST).ne' ?_
      have : T * n = 2 + 2 * S * T * w - 0 := by rw [hn]; linear_combination k2
      linear_combination T * d * k3 - (S + T) * 2 * P * this + 2 * P * (1 + S * T * w) * q1
    have q2' : Q' * d' = 2 * P * n' := by
      refine mul_left_cancel₀ (mul_pos hT' hST').ne' ?_
      have : T' * n' = 2 + 2 * S * T' * w' - 0 := by rw [hn']; linear_combination k2'
      linear_combination T' * d' * k3' - (S + T') * 2 * P * this + 2 * P * (1 + S * T' * w') * q1'
    have hlt : n' * d < n * d' := by
      have e : n * d' - n' * d
          = (w' - w) * (2 * S * (S - 2) * S ^ 2 * P * w * w' - 4 * S - 2 * S * (S - 2) * P * (w + w')) := by
        rw [hn, hd, hn', hd']; ring
      have hS0 : 0 < S := by linarith
      have z : 0 < P * (2 * S * (S - 2) * S ^ 2 * P * w * w' - 4 * S - 2 * S * (S - 2) * P * (w + w')) := by
        generalize hy : P * w = y at *
        generalize hy' : P * w' = y' at *
        have e2 : P * (2 * S * (S - 2) * S ^ 2 * P * w * w' - 4 * S - 2 * S * (S - 2) * P * (w + w'))
            = 2 * S * (S - 2) * S ^ 2 * (y * y') - 4 * P * S - 2 * S * (S - 2) * P * (y + y') := by
          rw [← hy, ← hy']; ring
        rw [e2]
        exact polar_z h4 hPS y1 y2
      have := (pos_iff_pos_of_mul_pos z).mp hP
      have := mul_pos (sub_pos.mpr hww) this
      linarith
    have : Q' * (d * d') < Q * (d * d') := by
      calc Q' * (d * d') = d * (Q' * d') := by ring
        _ = 2 * P * (n' * d) := by rw [q2']; ring
        _ < 2 * P * (n * d') := mul_lt_mul_of_pos_left hlt (by linarith)
        _ = d' * (Q * d) := by rw [q2]; ring
        _ = Q * (d * d') := by ring
    exact lt_of_mul_lt_mul_right this (by positivity)

end KGP.EMono
