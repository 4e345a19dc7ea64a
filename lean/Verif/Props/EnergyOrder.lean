import Verif.Props.StableIff
import Verif.Props.SepOrder
import Verif.Lemmas.EnergyPath

/-!
# C65, C66 — how the constants of motion are ordered

A wider orbit of the same eccentricity and inclination has a larger energy, angular momentum and Carter constant;
a more prograde orbit of the same size and eccentricity has a smaller energy.
-/

namespace KGP

open Classical Real Filter Topology SepCert Schmidt

/-- `E`, `L`, `Q` are the constants of a stable bound orbit outside the horizon with inclination `x` and turning points
`p/(1-e)`, `p/(1+e)`. -/
def Spec.StableConstants (a p e x E L Q : ℝ) : Prop :=
  1 + √(1 - a ^ 2) < p / (1 + e) ∧ 0 < E ∧ E < 1 ∧ Real.sign L = Real.sign x ∧ 0 ≤ Q
    ∧ Spec.Zpol a E L Q (1 - x ^ 2) = 0
    ∧ ∃ r3 r4, Spec.RadialRoots a E L Q (p / (1 - e)) (p / (1 + e)) r3 r4 ∧ r4 ≤ r3 ∧ r3 < p / (1 + e)

lemma stableOrbit_iff {a p e x : ℝ} : Spec.StableOrbit a p e x ↔ ∃ E L Q, Spec.StableConstants a p e x E L Q := by
  constructor
  · rintro ⟨h, E, L, Q, r3, r4, h1, h2, h3, h4, h5, h6, h7, h8⟩
    exact ⟨E, L, Q, h, h1, h2, h3, h4, h5, r3, r4, h6, h7, h8⟩
  · rintro ⟨E, L, Q, h, h1, h2, h3, h4, h5, r3, r4, h6, h7, h8⟩
    exact ⟨h, E, L, Q, r3, r4, h1, h2, h3, h4, h5, h6, h7, h8⟩

/-- the potential in the two sets of variables -/
lemma R_vars (a x E Y t : ℝ) :
    Spec.R a E (x * Y) ((1 - x ^ 2) * (a ^ 2 * (1 - E ^ 2) + Y ^ 2)) t = EMono.R (a ^ 2) (a * x) E Y t := by
  unfold Spec.R Spec.Delta EMono.R EMono.D; ring

/-- the remaining factor -/
lemma q_roots {a x E Y r s r3 r4 : ℝ} (hr : r ≠ 0) (hs : s ≠ 0)
    (hR : Spec.RadialRoots a E (x * Y) ((1 - x ^ 2) * (a ^ 2 * (1 - E ^ 2) + Y ^ 2)) r s r3 r4) (t : ℝ) :
    EMono.q (a ^ 2) (a * x) E Y r s t = -((1 - E ^ 2) * ((t - r3) * (t - r4))) := by
  obtain ⟨v1, -, -, v4⟩ := RadialRoots.vieta hR
  unfold EMono.q
  have : a ^ 2 * (a ^ 2 - (a * x) ^ 2) * (1 - E ^ 2) / (r * s) + (a ^ 2 - (a * x) ^ 2) * Y ^ 2 / (r * s)
      = (1 - E ^ 2) * (r3 * r4) := by
    field_simp
    linear_combination -v4
  linear_combination -this - t * v1

private lemma gt_one {u v : ℝ} (hu : 1 < u) (hv : 1 < v) : 1 < u * v := by nlinarith
private lemma ge_one {u v : ℝ} (hu : 1 ≤ u) (hv : 1 ≤ v) : 1 ≤ u * v := by nlinarith
private lemma D_aux {a s : ℝ} (h0 : 0 ≤ √(1 - a ^ 2)) (hq : √(1 - a ^ 2) ^ 2 = 1 - a ^ 2) (h : 1 + √(1 - a ^ 2) < s) :
    0 < EMono.D (a ^ 2) s := by
  unfold EMono.D; nlinarith
private lemma D_mono {A s t : ℝ} (hs : 1 < s) (ht : s ≤ t) (h : 0 < EMono.D A s) : 0 < EMono.D A t := by
  unfold EMono.D at *; nlinarith
private lemma K_aux {a x t y : ℝ} (hb : (a * x) ^ 2 ≤ a ^ 2) (ht : 1 < t) : 0 < t ^ 2 + a ^ 2 - (a * x) ^ 2 + y ^ 2 := by
  nlinarith [sq_nonneg y]

section
variable {a p e x E L Q : ℝ} (ha : 0 ≤ a) (ha1 : a < 1) (he : 0 ≤ e) (he1 : e < 1) (hx : x ^ 2 ≤ 1)

set_option maxHeartbeats 1000000 in
include ha ha1 he he1 hx in
/-- Stable constants in the variables of `EMono`. -/
lemma StableConstants.orb (h : Spec.StableConstants a p e x E L Q) :
    ∃ Y, EMono.Orb (a ^ 2) (a * x) (p / (1 - e)) (p / (1 + e)) E Y ∧ L = x * Y
      ∧ Q = (1 - x ^ 2) * (a ^ 2 * (1 - E ^ 2) + Y ^ 2) := by
  obtain ⟨hhor, hE, hE1, hL, hQ, hZ, r3, r4, hR, h43, h32⟩ := h
  have hA : a ^ 2 < 1 := by nlinarith
  have hA0 : 0 ≤ a ^ 2 := sq_nonneg a
  have hE2 : E ^ 2 < 1 := by nlinarith
  obtain ⟨g3, g4, g5, hpe, h21, -⟩ := stable_geom hA he he1 hx hhor hE2 hQ hZ hR h43 h32
  have hsn := Real.sqrt_nonneg (1 - a ^ 2)
  have hsq := Real.sq_sqrt (show 0 ≤ 1 - a ^ 2 by linarith)
  obtain ⟨v1, v2, v3, v4⟩ := RadialRoots.vieta hR
  obtain ⟨r, hr⟩ : ∃ r, r = p / (1 - e) := ⟨_, rfl⟩
  obtain ⟨s, hs⟩ : ∃ s, s = p / (1 + e) := ⟨_, rfl⟩
  rw [← hr, ← hs] at hR v1 v2 v3 v4 h21
  rw [← hs] at hhor h32
  rw [← hr, ← hs]
  have hs1 : 1 < s := by linarith
  have hr1 : 1 < r := by linarith
  have hw : 0 ≤ 1 - x ^ 2 := by linarith
  -- `Y`
  have hY2 : 0 < L ^ 2 + Q - (1 - x ^ 2) * a ^ 2 * (1 - E ^ 2) := by
    have e2 : L ^ 2 + Q - (1 - x ^ 2) * a ^ 2 * (1 - E ^ 2)
        = (1 - E ^ 2) * (r * s + r * r3 + r * r4 + s * r3 + s * r4 + r3 * r4 - a ^ 2 - (1 - x ^ 2) * a ^ 2) := by
      linear_combination -v2
    rw [e2]
    refine mul_pos (by linarith) ?_
    have i1 : 1 < r * s := gt_one hr1 hs1
    have i2 : 1 ≤ r * r3 := ge_one hr1.le (by linarith)
    have i3 : 0 ≤ r * r4 := mul_nonneg (by linarith) g4
    have i4 : 1 ≤ s * r3 := ge_one hs1.le (by linarith)
    have i5 : 0 ≤ s * r4 := mul_nonneg (by linarith) g4
    have i6 : 0 ≤ r3 * r4 := mul_nonneg (by linarith) g4
    have i7 : (1 - x ^ 2) * a ^ 2 ≤ 1 * 1 := mul_le_mul (by linarith [sq_nonneg x]) hA.le hA0 zero_le_one
    linarith
  obtain ⟨Y, hY, hLY, hYQ⟩ : ∃ Y, 0 < Y ∧ L = x * Y ∧ Q = (1 - x ^ 2) * (a ^ 2 * (1 - E ^ 2) + Y ^ 2) := by
    by_cases hx0 : x = 0
    · subst hx0
      obtain rfl := sign_eq_zero' hL
      refine ⟨√(0 ^ 2 + Q - (1 - 0 ^ 2) * a ^ 2 * (1 - E ^ 2)), Real.sqrt_pos.mpr hY2, by ring, ?_⟩
      rw [Real.sq_sqrt hY2.le]; ring
    · have hLx := (sign_mul_pos hx0).mpr hL
      refine ⟨L / x, ?_, by field_simp, ?_⟩
      · rcases lt_or_gt_of_ne hx0 with k | k
        · rw [Real.sign_of_neg k] at hLx
          exact div_pos_of_neg_of_neg (by linarith) k
        · rw [Real.sign_of_pos k] at hLx
          exact div_pos (by linarith) k
      · unfold Spec.Zpol at hZ
        have : x ^ 2 ≠ 0 := by positivity
        field_simp
        linear_combination hZ
  refine ⟨Y, ?_, hLY, hYQ⟩
  subst hLY hYQ
  have hRv : ∀ t, EMono.R (a ^ 2) (a * x) E Y t = (1 - E ^ 2) * (r - t) * (t - s) * (t - r3) * (t - r4) := by
    intro t; rw [← R_vars]; exact hR t
  have hqv := q_roots (a := a) (x := x) (Y := Y) (by linarith) (by linarith) hR
  have root : EMono.R (a ^ 2) (a * x) E Y r = 0 := by rw [hRv]; ring
  have root' : EMono.DR (a ^ 2) (a * x) E Y r s = 0 := by
    have key : r * s * (EMono.R (a ^ 2) (a * x) E Y (r + 1)
          - (r + 1 - r) * (r + 1 - s) * EMono.q (a ^ 2) (a * x) E Y r s (r + 1))
        = (r + 1) * ((r + 1 - r) * (r * EMono.DR (a ^ 2) (a * x) E Y r s - EMono.R (a ^ 2) (a * x) E Y r)
          + s * EMono.R (a ^ 2) (a * x) E Y r) := by
      have hr0 : r ≠ 0 := by linarith
      have hs0 : s ≠ 0 := by linarith
      unfold EMono.q EMono.R EMono.DR EMono.D
      field_simp
      ring
    rw [root, hqv, hRv] at key
    have k2 : (r + 1) * r * EMono.DR (a ^ 2) (a * x) E Y r s = 0 := by linear_combination -key
    exact (mul_eq_zero.mp k2).resolve_left (by positivity)
  have hb : (a * x) ^ 2 ≤ a ^ 2 := by
    rw [mul_pow]; exact mul_le_of_le_one_right hA0 hx
  have hDs : 0 < EMono.D (a ^ 2) s := D_aux hsn hsq hhor
  have hDt : ∀ t, s ≤ t → 0 < EMono.D (a ^ 2) t := fun t ht => D_mono hs1 ht hDs
  have hsum : (1 - E ^ 2) * (r + s + 1) ≤ 2 := by
    have : (1 - E ^ 2) * (r + s + 1) ≤ (1 - E ^ 2) * (r + s + r3 + r4) :=
      mul_le_mul_of_nonneg_left (by linarith) (by linarith)
    linarith
  -- the sign of the time component
  have hne : ∀ t, s ≤ t → t ≤ r → E * (t ^ 2 + a ^ 2) - a * x * Y ≠ 0 := by
    intro t h1 h2 h0
    have hpos : 0 ≤ EMono.R (a ^ 2) (a * x) E Y t := by
      rw [hRv]
      exact mul_nonneg (mul_nonneg (mul_nonneg (mul_nonneg (by linarith) (by linarith)) (by linarith)) (by linarith))
        (by linarith)
    have hneg : EMono.R (a ^ 2) (a * x) E Y t < 0 := by
      unfold EMono.R
      rw [h0]
      have h3 : 0 < t ^ 2 + a ^ 2 - (a * x) ^ 2 + (Y - a * x * E) ^ 2 := K_aux hb (by linarith)
      have := mul_pos (hDt t h1) h3
      linarith
    linarith
  have hPP : 0 < (E * (r ^ 2 + a ^ 2) - a * x * Y) * (E * (s ^ 2 + a ^ 2) - a * x * Y) := by
    by_contra hcon
    have n1 := hne r h21 le_rfl
    have n2 := hne s le_rfl h21
    have hmono : E * (s ^ 2 + a ^ 2) - a * x * Y ≤ E * (r ^ 2 + a ^ 2) - a * x * Y := by
      have : E * (s ^ 2 + a ^ 2) ≤ E * (r ^ 2 + a ^ 2) := mul_le_mul_of_nonneg_left
        (by have := pow_le_pow_left₀ (by linarith : 0 ≤ s) h21 2; linarith) hE.le
      linarith
    have hlo : E * (s ^ 2 + a ^ 2) - a * x * Y ≤ 0 := by
      by_contra h5
      exact hcon (mul_pos (by linarith) (by linarith))
    have hhi : 0 ≤ E * (r ^ 2 + a ^ 2) - a * x * Y := by
      by_contra h5
      exact hcon (mul_pos_of_neg_of_neg (by linarith) (by linarith))
    have hc : ContinuousOn (fun t : ℝ => E * (t ^ 2 + a ^ 2) - a * x * Y) (Set.Icc s r) := by fun_prop
    obtain ⟨t, ht, h0⟩ := intermediate_value_Icc h21 hc ⟨hlo, hhi⟩
    exact hne t ht.1 ht.2 h0
  obtain ⟨hPr, hPs⟩ := EMono.future hb hA.le hs1.le h21 hDs hE hE1 hY root root' hsum hPP
  refine ⟨hb, hA.le, hs1.le, h21, hE, hE1, hY, root, root', hPr, hPs, hDs, hsum, ?_⟩
  intro t ht
  rw [hqv]
  have : 0 < (1 - E ^ 2) * ((t - r3) * (t - r4)) :=
    mul_pos (by linarith) (mul_pos (by linarith) (by linarith))
  linarith

end

/-- Without rotation of the orbit the constants are determined by the turning points. -/
lemma EMono.unique_zero {A r s E Y E' Y' : ℝ} (o : EMono.Orb A 0 r s E Y) (o' : EMono.Pre A 0 r s E' Y') :
    E' = E ∧ Y' = Y := by
  have hE := o.hE
  have hY := o.hY
  have hE' := o'.hE
  have hY' := o'.hY
  have hB := o.Br_pos
  have d1 := EMono.R_diff A 0 E Y E' Y' r
  have d2 := EMono.DR_diff A 0 E Y E' Y' r s
  rw [o.root, o'.root] at d1
  rw [o.root', o'.root'] at d2
  obtain ⟨κ, hκ⟩ : ∃ κ, κ = EMono.D A r * ((r + s) * (r ^ 2 + s ^ 2) + 2 * A * (r + s)) - (r ^ 2 + A) ^ 2 * (r + s - 2) :=
    ⟨_, rfl⟩
  have hBr : ∀ E Y, EMono.Br A 0 E Y r s = E * Y * κ := by
    intro E Y; rw [hκ]; unfold EMono.Br EMono.al EMono.be EMono.alD EMono.beD; ring
  rw [hBr] at hB
  have hκ0 : 0 < κ := (pos_iff_pos_of_mul_pos hB).mp (by positivity)
  have h1 : EMono.Br A 0 ((E + E') / 2) ((Y + Y') / 2) r s * (E' - E) = 0 := by
    unfold EMono.Br
    linear_combination (EMono.beD A 0 ((E + E') / 2) ((Y + Y') / 2) r s / 2) * d1
      - (EMono.be A 0 ((E + E') / 2) ((Y + Y') / 2) r / 2) * d2
  rw [hBr] at h1
  have hEE : E' - E = 0 := (mul_eq_zero.mp h1).resolve_left (by
    have : 0 < (E + E') / 2 * ((Y + Y') / 2) * κ := mul_pos (mul_pos (by linarith) (by linarith)) hκ0
    exact this.ne')
  rw [hEE] at d1
  have h2 : EMono.be A 0 ((E + E') / 2) ((Y + Y') / 2) r * (Y' - Y) = 0 := by linarith
  have h3 : EMono.be A 0 ((E + E') / 2) ((Y + Y') / 2) r = EMono.D A r * ((Y + Y') / 2) := by unfold EMono.be; ring
  rw [h3] at h2
  have hYY : Y' - Y = 0 := (mul_eq_zero.mp h2).resolve_left (by
    have := mul_pos o.D_pos (show 0 < (Y + Y') / 2 by linarith)
    exact this.ne')
  exact ⟨by linarith, by linarith⟩

/-- The quadratic equation of `E²`. -/
lemma quad_of_turning {a p e x E L : ℝ} (ha : 0 < a) (hp : 1 + e ≤ p) (he : 0 ≤ e)
    (he1 : e < 1) (hx0 : 0 < x) (hx : x ^ 2 ≤ 1)
    (hT : Spec.TurningPoints a E L (carterFormula a x E L) p e) :
    WS p (1 - e ^ 2) (a ^ 2) (1 - x ^ 2) * (E ^ 2) ^ 2
        - 2 * NS p (1 - e ^ 2) (a ^ 2) (1 - x ^ 2) * E ^ 2
        + kapS p (1 - e ^ 2) (a ^ 2) (1 - x ^ 2) ^ 2 = 0 := by
  have hl : 0 < 1 - e ^ 2 := by nlinarith
  have hp0 : 0 < p := by linarith
  have hX1 : 1 - (1 - x ^ 2) = x ^ 2 := by ring
  obtain ⟨h1, h2⟩ := relations_pe ha.ne' hp0.ne' he he1 hx0.ne' hx hT
  obtain ⟨s1, -, -, -, -, -, s7, s8⟩ := scale (p := p) (A := a ^ 2) (w := 1 - x ^ 2) hl.ne'
  have l6 : 0 < 4 / (1 - e ^ 2) ^ 6 := by positivity
  have e36 : (2 / (1 - e ^ 2) ^ 3) ^ 2 = 4 / (1 - e ^ 2) ^ 6 := by
    rw [div_pow, ← pow_mul]; norm_num
  have h3 : WH (2 * p / (1 - e ^ 2)) (p ^ 2 / (1 - e ^ 2)) (a ^ 2) (1 - x ^ 2) * (E ^ 2) ^ 2
      - 2 * NH (2 * p / (1 - e ^ 2)) (p ^ 2 / (1 - e ^ 2)) (a ^ 2) (1 - x ^ 2) * E ^ 2
      + kapH (2 * p / (1 - e ^ 2)) (p ^ 2 / (1 - e ^ 2)) (a ^ 2) (1 - x ^ 2) ^ 2 = 0 := by
    clear s1 s7 s8
    unfold WH NH
    rw [hX1]
    generalize kapH (2 * p / (1 - e ^ 2)) (p ^ 2 / (1 - e ^ 2)) (a ^ 2) (1 - x ^ 2) = κ at *
    generalize rhoH (2 * p / (1 - e ^ 2)) (p ^ 2 / (1 - e ^ 2)) (a ^ 2) (1 - x ^ 2) = ρ at *
    generalize epsH (2 * p / (1 - e ^ 2)) (p ^ 2 / (1 - e ^ 2)) (a ^ 2) (1 - x ^ 2) = ε at *
    generalize etaH (2 * p / (1 - e ^ 2)) (p ^ 2 / (1 - e ^ 2)) (a ^ 2) (1 - x ^ 2) = η at *
    generalize TH (p ^ 2 / (1 - e ^ 2)) (a ^ 2) (1 - x ^ 2) = T at *
    linear_combination (ρ * E ^ 2 - 4 * a * T * (E * L) - κ) * h1 - 8 * a ^ 2 * T * E ^ 2 * h2
  rw [s1, s7, s8] at h3
  have : 4 / (1 - e ^ 2) ^ 6 * (WS p (1 - e ^ 2) (a ^ 2) (1 - x ^ 2) * (E ^ 2) ^ 2
      - 2 * NS p (1 - e ^ 2) (a ^ 2) (1 - x ^ 2) * E ^ 2
      + kapS p (1 - e ^ 2) (a ^ 2) (1 - x ^ 2) ^ 2) = 0 := by
    linear_combination h3 - kapS p (1 - e ^ 2) (a ^ 2) (1 - x ^ 2) ^ 2 * e36
  exact (mul_eq_zero.mp this).resolve_left l6.ne'

/-- The two inner roots never meet the periapsis inside the accepted region. -/
lemma third_ne {a p e x E L r3 r4 : ℝ} (ha : 0 < a) (ha1 : a < 1) (hp : 1 + e ≤ p) (he : 0 ≤ e)
    (he1 : e < 1) (hx0 : 0 < x) (hx : x ^ 2 ≤ 1)
    (hS : N p (a ^ 2) e (1 - x ^ 2) ^ 2
      - 8 * a ^ 2 * (1 - (1 - x ^ 2)) * (M1 p (a ^ 2) e (1 - x ^ 2) * M2 p (a ^ 2) e (1 - x ^ 2)) < 0)
    (hE : E ^ 2 < 1) (hR : Spec.RadialRoots a E L (carterFormula a x E L) (p / (1 - e)) (p / (1 + e)) r3 r4) :
    r3 ≠ p / (1 + e) := by
  intro h3
  have hZ : Spec.Zpol a E L (carterFormula a x E L) (1 - x ^ 2) = 0 := Zpol_carter hx hx0.ne'
  have hT := RadialRoots.turning hR
  have hquad := quad_of_turning ha hp he he1 hx0 hx hT
  obtain ⟨v1, -, -, -⟩ := RadialRoots.vieta hR
  have hm := inner_product hE hR hZ
  obtain ⟨r1, hr1⟩ : ∃ r, r = p / (1 - e) := ⟨_, rfl⟩
  obtain ⟨r2, hr2⟩ : ∃ r, r = p / (1 + e) := ⟨_, rfl⟩
  obtain ⟨t1, t2, t3, t4, t5⟩ := pe_roots he he1 hr1 hr2
  rw [← hr1, ← hr2] at v1 hm
  rw [← hr2] at h3
  have key : M1 p (a ^ 2) e (1 - x ^ 2) * (1 - E ^ 2)
        - 2 * SepCert.K e * D p (a ^ 2) e (1 - x ^ 2) * E ^ 2 = 0 := by
    have hB : B p (a ^ 2) e (1 - x ^ 2) = SepCert.K e * (2 * (r1 * r2) + r2 ^ 2 - a ^ 2 * (1 - x ^ 2)) := by
      rw [B]; linear_combination t5
    have hD : D p (a ^ 2) e (1 - x ^ 2)
        = SepCert.K e * (r1 * r2 ^ 2 - a ^ 2 * (1 - x ^ 2) * (r1 + 2 * r2)) := by
      rw [D]; linear_combination t4 - a ^ 2 * (1 - x ^ 2) * t3
    have : M1 p (a ^ 2) e (1 - x ^ 2) * (1 - E ^ 2)
        - 2 * SepCert.K e * D p (a ^ 2) e (1 - x ^ 2) * E ^ 2
      = (1 - E ^ 2) * SepCert.K e ^ 2 * ((r2 - r3) * (r2 - r4)) * (r1 * r2 - a ^ 2 * (1 - x ^ 2)) := by
      rw [M1, t3, hB, hD]
      linear_combination (SepCert.K e ^ 2 * (r1 * r2 ^ 2 - a ^ 2 * (1 - x ^ 2) * (r1 + 2 * r2))) * v1
        - (1 - E ^ 2) * SepCert.K e ^ 2 * hm
    rw [this, h3]; ring
  have hA : 0 < a ^ 2 := by positivity
  have hA1 : a ^ 2 < 1 := by nlinarith
  have hw : 0 ≤ 1 - x ^ 2 := by linarith
  have hw1 : 1 - x ^ 2 ≤ 1 := by linarith [sq_nonneg x]
  have k4 := (TS_pos_inner hA hA1 he he1 hw hw1 hp).1
  have hl : 0 < 1 - e ^ 2 := by nlinarith
  have hneg := mul_neg_of_pos_of_neg
    (by positivity : 0 < ((1 - e ^ 2) ^ 2 * TS p (1 - e ^ 2) (a ^ 2) (1 - x ^ 2)) ^ 2) hS
  rw [← star_value] at hneg
  clear hS k4 t1 t2 t3 t4 t5 hm v1 hR hT hZ
  generalize M1 p (a ^ 2) e (1 - x ^ 2) = m at *
  generalize SepCert.K e * D p (a ^ 2) e (1 - x ^ 2) = k at *
  have key' : m = E ^ 2 * (m + 2 * SepCert.K e * D p (a ^ 2) e (1 - x ^ 2)) := by linarith
  generalize m + 2 * SepCert.K e * D p (a ^ 2) e (1 - x ^ 2) = d at *
  rw [key'] at hneg
  have : WS p (1 - e ^ 2) (a ^ 2) (1 - x ^ 2) * (E ^ 2 * d) ^ 2
      - 2 * NS p (1 - e ^ 2) (a ^ 2) (1 - x ^ 2) * (E ^ 2 * d) * d
      + kapS p (1 - e ^ 2) (a ^ 2) (1 - x ^ 2) ^ 2 * d ^ 2 = 0 := by
    linear_combination d ^ 2 * hquad
  linarith

/-- A limit of orbits that lies in the accepted region is the orbit there. -/
lemma pre_unique {a p e x s E Y E' Y' : ℝ} (ha : 0 ≤ a) (ha1 : a < 1) (he : 0 ≤ e) (he1 : e < 1) (hl : -1 ≤ x) (hr : x ≤ 1)
    (hv : IsSeparatrixValue a e x s) (hsp : s < p)
    (hhor : 1 + √(1 - a ^ 2) < p / (1 + e))
    (o : EMono.Orb (a ^ 2) (a * x) (p / (1 - e)) (p / (1 + e)) E Y)
    (o' : EMono.Pre (a ^ 2) (a * x) (p / (1 - e)) (p / (1 + e)) E' Y') : E' = E ∧ Y' = Y := by
  by_cases h0 : a * x = 0
  · rw [h0] at o o'
    exact EMono.unique_zero o o'
  have ha0 : 0 < a := lt_of_le_of_ne ha (fun h => h0 (by rw [← h]; ring))
  have hx0 : x ≠ 0 := fun h => h0 (by rw [h]; ring)
  have hx : x ^ 2 ≤ 1 := by nlinarith
  have hA : a ^ 2 < 1 := by nlinarith
  have hsn := Real.sqrt_nonneg (1 - a ^ 2)
  -- the spec-level data of a limit
  have data : ∀ E Y, EMono.Pre (a ^ 2) (a * x) (p / (1 - e)) (p / (1 + e)) E Y →
      0 < E ∧ E ^ 2 < 1 ∧ 0 < Y ∧ 0 < Real.sign x * (x * Y)
      ∧ Spec.TurningPoints a E (x * Y) (carterFormula a x E (x * Y)) p e
      ∧ ∃ r3 r4, Spec.RadialRoots a E (x * Y) (carterFormula a x E (x * Y)) (p / (1 - e)) (p / (1 + e)) r3 r4
        ∧ r3 ≤ p / (1 + e) ∧ r4 < p / (1 + e) := by
    intro E Y h
    have hE := h.E_pos o.hb o.hA o.hs o.hsr o.hD
    have hY := h.Y_pos o.hb o.hA o.hs o.hsr o.hD
    have hE2 := h.E2
    have hc : carterFormula a x E (x * Y) = (1 - x ^ 2) * (a ^ 2 * (1 - E ^ 2) + Y ^ 2) := by
      rw [carterFormula_eq hx]; field_simp
    have hsr := o.hsr
    have hs1 : 1 < p / (1 + e) := by linarith
    have hfac : ∀ t, Spec.R a E (x * Y) (carterFormula a x E (x * Y)) t
        = (t - p / (1 - e)) * ((t - p / (1 + e)) * EMono.q (a ^ 2) (a * x) E Y (p / (1 - e)) (p / (1 + e)) t) := by
      intro t
      rw [hc, R_vars]
      have h1 := h.root
      have h2 := h.root'
      have hr0 : p / (1 - e) ≠ 0 := by linarith
      have hs0 : p / (1 + e) ≠ 0 := by linarith
      generalize p / (1 - e) = r at *
      generalize p / (1 + e) = s at *
      have key : r * s * (EMono.R (a ^ 2) (a * x) E Y t - (t - r) * (t - s) * EMono.q (a ^ 2) (a * x) E Y r s t)
          = t * ((t - r) * (r * EMono.DR (a ^ 2) (a * x) E Y r s - EMono.R (a ^ 2) (a * x) E Y r)
            + s * EMono.R (a ^ 2) (a * x) E Y r) := by
        unfold EMono.q EMono.R EMono.DR EMono.D
        field_simp
        ring
      rw [h1, h2] at key
      have : r * s * (EMono.R (a ^ 2) (a * x) E Y t - (t - r) * (t - s) * EMono.q (a ^ 2) (a * x) E Y r s t) = 0 := by
        rw [key]; ring
      rcases mul_eq_zero.mp this with h | h
      · exact absurd h (mul_ne_zero hr0 hs0)
      · linarith
    have hT : Spec.TurningPoints a E (x * Y) (carterFormula a x E (x * Y)) p e := by
      refine ⟨by rw [hfac]; ring, by rw [hfac]; ring, ?_⟩
      rintro rfl
      have e1 : p / (1 - 0) = p := by norm_num
      have e2 : p / (1 + 0) = p := by norm_num
      have hR' : Spec.R a E (x * Y) (carterFormula a x E (x * Y))
          = fun t => (t - p) * ((t - p) * EMono.q (a ^ 2) (a * x) E Y p p t) := by
        funext t; rw [hfac, e1, e2]
      rw [hR']
      have h1 : HasDerivAt (fun r : ℝ => r - p) 1 p := (hasDerivAt_id p).sub_const p
      have h2 : DifferentiableAt ℝ (fun t : ℝ => (t - p) * EMono.q (a ^ 2) (a * x) E Y p p t) p := by
        unfold EMono.q; fun_prop
      have h3 := h1.fun_mul h2.hasDerivAt
      rw [h3.deriv]; ring
    obtain ⟨r1, r2, r3, r4, -, e1, e2, hR, h21, h2, h3, h4, -, -⟩ :=
      C08_bound exampleRS a p e x E (x * Y) _ hA.le hE2 he he1 hhor hT
    subst e1 e2
    refine ⟨hE, hE2, hY, ?_, hT, r3, r4, hR, ?_, by linarith⟩
    · rcases lt_or_gt_of_ne hx0 with k | k
      · rw [Real.sign_of_neg k]; have := mul_neg_of_neg_of_pos k hY; linarith
      · rw [Real.sign_of_pos k]; have := mul_pos k hY; linarith
    · by_contra hcon
      have hqv := q_roots (a := a) (x := x) (Y := Y) (by linarith) (by linarith) (hc ▸ hR)
      have k := h.hq ((p / (1 + e) + r3) / 2) (by linarith)
      rw [hqv] at k
      have : 0 < (1 - E ^ 2) * ((r3 - (p / (1 + e) + r3) / 2) * ((p / (1 + e) + r3) / 2 - r4)) :=
        mul_pos (by linarith) (mul_pos (by linarith) (by linarith))
      linarith
  obtain ⟨d1, d2, d3, d4, d5, r3, r4, d6, d7, d8⟩ := data E Y o.pre
  obtain ⟨d1', d2', d3', d4', d5', r3', r4', d6', d7', d8'⟩ := data E' Y' o'
  have fin : E' = E ∧ x * Y' = x * Y := by
    rcases accepted_cases ha0 ha1 he he1 hx0 hl hr hv hsp with h4 | ⟨hpos, -, h1, hS⟩
    · exact Schmidt.unique ha0 ha1.le h4 he he1 hx0 hx d1' d4' d5' d1 d4 d5
    · have hb := (third_root_iff hA h1 he he1 hx d2 rfl rfl d6 (Zpol_carter hx hx0) d8).mp
        (lt_of_le_of_ne d7 (third_ne ha0 ha1 h1 he he1 hpos hx hS d2 d6))
      have hb' := (third_root_iff hA h1 he he1 hx d2' rfl rfl d6' (Zpol_carter hx hx0) d8').mp
        (lt_of_le_of_ne d7' (third_ne ha0 ha1 h1 he he1 hpos hx hS d2' d6'))
      exact Schmidt.unique_inner ha0 ha1 h1 he he1 hpos hx hS d1' d1 d5' d5 hb' hb
  exact ⟨fin.1, mul_left_cancel₀ hx0 fin.2⟩

/-- The constants of a stable orbit are determined by its parameters. -/
lemma StableConstants.unique {a p e x s E L Q E' L' Q' : ℝ} (ha : 0 ≤ a) (ha1 : a < 1) (he : 0 ≤ e) (he1 : e < 1)
    (hl : -1 ≤ x) (hr : x ≤ 1) (hv : IsSeparatrixValue a e x s) (hsp : s < p)
    (h : Spec.StableConstants a p e x E L Q) (h' : Spec.StableConstants a p e x E' L' Q') :
    E' = E ∧ L' = L ∧ Q' = Q := by
  have hx : x ^ 2 ≤ 1 := by nlinarith
  obtain ⟨Y, o, rfl, rfl⟩ := StableConstants.orb ha ha1 he he1 hx h
  obtain ⟨Y', o', rfl, rfl⟩ := StableConstants.orb ha ha1 he he1 hx h'
  obtain ⟨rfl, rfl⟩ := pre_unique ha ha1 he he1 hl hr hv hsp h.1 o o'.pre
  exact ⟨rfl, rfl, rfl⟩

section
variable {a p p' e x E L Q E' L' Q' : ℝ} (ha : 0 ≤ a) (ha1 : a < 1) (he : 0 ≤ e) (he1 : e < 1) (hl : -1 ≤ x) (hr : x ≤ 1)
include ha ha1 he he1 hl hr

/-- Wider orbits. -/
lemma order_p (hpp : p < p') (h : Spec.StableConstants a p e x E L Q) (h' : Spec.StableConstants a p' e x E' L' Q') :
    E < E' ∧ (x ≠ 0 → |L| < |L'|) ∧ (x ^ 2 ≠ 1 → Q < Q') := by
  have hx : x ^ 2 ≤ 1 := by nlinarith
  obtain ⟨s, hs, hv⟩ := C15_separatrix_returns exampleRS a e x ha ha1 he he1.le hl hr
  have stab : ∀ t, s < t ↔ Spec.StableOrbit a t e x := fun t =>
    ((C16_threshold exampleRS a e x).2.1 t s hs).symm.trans (C16_exact exampleRS a t e x ha ha1 he he1 hl hr).1
  have hsp : s < p := (stab p).mpr (stableOrbit_iff.mpr ⟨_, _, _, h⟩)
  have ex : ∀ t, s < t → ∃ E Y, EMono.Orb (a ^ 2) (a * x) (t / (1 - e)) (t / (1 + e)) E Y
      ∧ 1 + √(1 - a ^ 2) < t / (1 + e) := by
    intro t ht
    obtain ⟨E, L, Q, hc⟩ := stableOrbit_iff.mp ((stab t).mp ht)
    obtain ⟨Y, o, -⟩ := StableConstants.orb ha ha1 he he1 hx hc
    exact ⟨E, Y, o, hc.1⟩
  choose! fE fY ho hhor using ex
  have hm : 0 < 1 - e := by linarith
  have hpl : 0 < 1 + e := by linarith
  have cr : ∀ t : ℝ, Tendsto (fun t : ℝ => t / (1 - e)) (𝓝 t) (𝓝 (t / (1 - e))) := fun t => tendsto_id.div_const _
  have cs : ∀ t : ℝ, Tendsto (fun t : ℝ => t / (1 + e)) (𝓝 t) (𝓝 (t / (1 + e))) := fun t => tendsto_id.div_const _
  have cont : ∀ t, s < t → Tendsto fE (𝓝 t) (𝓝 (fE t)) ∧ Tendsto fY (𝓝 t) (𝓝 (fY t)) := by
    intro t ht
    have hsn := Real.sqrt_nonneg (1 - a ^ 2)
    have := hhor t ht
    refine EMono.limit (A := a ^ 2) (b := fun _ => a * x) (b₀ := a * x) (l := 𝓝 t) ?_ tendsto_const_nhds (cr t) (cs t) (by linarith) (ho t ht).hsr ?_
    · filter_upwards [lt_mem_nhds ht] with t' h' using ho t' h'
    · intro E' Y' h'
      exact pre_unique ha ha1 he he1 hl hr hv ht (hhor t ht) (ho t ht) h'
  have hright : ∀ t, s < t → ∀ᶠ t' in 𝓝[>] t, EMono.Orb (a ^ 2) (a * x) (t' / (1 - e)) (t' / (1 + e)) (fE t') (fY t')
      ∧ t / (1 - e) < t' / (1 - e) ∧ t / (1 + e) < t' / (1 + e) := by
    intro t ht
    filter_upwards [self_mem_nhdsWithin] with t' h'
    exact ⟨ho t' (lt_trans ht h'), div_lt_div_of_pos_right h' hm, div_lt_div_of_pos_right h' hpl⟩
  have loc : ∀ t, s < t → ∀ᶠ t' in 𝓝[>] t, fE t < fE t' ∧ fY t < fY t' := fun t ht =>
    EMono.local_turning (r := fun t => t / (1 - e)) (s := fun t => t / (1 + e)) (ho t ht) (hright t ht)
      ((cr t).mono_left nhdsWithin_le_nhds) ((cs t).mono_left nhdsWithin_le_nhds)
      ((cont t ht).1.mono_left nhdsWithin_le_nhds) ((cont t ht).2.mono_left nhdsWithin_le_nhds)
  have locQ : ∀ t, s < t → ∀ᶠ t' in 𝓝[>] t, fY t ^ 2 - a ^ 2 * fE t ^ 2 < fY t' ^ 2 - a ^ 2 * fE t' ^ 2 := fun t ht =>
    EMono.local_gain (r := fun t => t / (1 - e)) (s := fun t => t / (1 + e)) (ho t ht) (hright t ht)
      ((cr t).mono_left nhdsWithin_le_nhds) ((cs t).mono_left nhdsWithin_le_nhds)
      ((cont t ht).1.mono_left nhdsWithin_le_nhds) ((cont t ht).2.mono_left nhdsWithin_le_nhds)
  have cE : ContinuousOn fE (Set.Icc p p') := fun t ht =>
    (cont t (lt_of_lt_of_le hsp ht.1)).1.mono_left nhdsWithin_le_nhds
  have cY : ContinuousOn fY (Set.Icc p p') := fun t ht =>
    (cont t (lt_of_lt_of_le hsp ht.1)).2.mono_left nhdsWithin_le_nhds
  have m1 := EMono.lt_of_local hpp cE fun t ht => (loc t (lt_of_lt_of_le hsp ht.1)).mono fun _ h => h.1
  have m2 := EMono.lt_of_local hpp cY fun t ht => (loc t (lt_of_lt_of_le hsp ht.1)).mono fun _ h => h.2
  have m3 := EMono.lt_of_local (f := fun t => fY t ^ 2 - a ^ 2 * fE t ^ 2) hpp
    ((cY.pow 2).sub (continuousOn_const.mul (cE.pow 2))) fun t ht => locQ t (lt_of_lt_of_le hsp ht.1)
  obtain ⟨Y, o, rfl, rfl⟩ := StableConstants.orb ha ha1 he he1 hx h
  obtain ⟨Y', o', rfl, rfl⟩ := StableConstants.orb ha ha1 he he1 hx h'
  obtain ⟨rfl, rfl⟩ := pre_unique ha ha1 he he1 hl hr hv hsp h.1 (ho p hsp) o.pre
  obtain ⟨rfl, rfl⟩ := pre_unique ha ha1 he he1 hl hr hv (hsp.trans hpp) h'.1 (ho p' (hsp.trans hpp)) o'.pre
  refine ⟨m1, fun hx0 => ?_, fun hx1 => ?_⟩
  · rw [abs_mul, abs_mul, abs_of_pos o.hY, abs_of_pos o'.hY]
    exact mul_lt_mul_of_pos_left m2 (abs_pos.mpr hx0)
  · exact mul_lt_mul_of_pos_left (by linarith) (by have := lt_of_le_of_ne hx hx1; linarith)

end

/-- More prograde orbits. -/
lemma order_x {a p e x x' E L Q E' L' Q' : ℝ} (ha : 0 < a) (ha1 : a < 1) (he : 0 ≤ e) (he1 : e < 1) (hl : -1 ≤ x)
    (hxx : x < x') (hr : x' ≤ 1) (h : Spec.StableConstants a p e x E L Q)
    (h' : Spec.StableConstants a p e x' E' L' Q') : E' < E := by
  have val : ∀ t ∈ Set.Icc x x', ∃ s, IsSeparatrixValue a e t s ∧ s < p ∧ Spec.StableOrbit a p e t := by
    intro t ht
    have hlt : -1 ≤ t := hl.trans ht.1
    have hrt : t ≤ 1 := ht.2.trans hr
    obtain ⟨s, hs, hv⟩ := C15_separatrix_returns exampleRS a e t ha.le ha1 he he1.le hlt hrt
    have st : isStable exampleRS a p e t = .ok true := by
      have s0 := (C16_exact exampleRS a p e x ha.le ha1 he he1 hl (hxx.le.trans hr)).1.mpr
        (stableOrbit_iff.mpr ⟨_, _, _, h⟩)
      rcases eq_or_lt_of_le ht.1 with h1 | h1
      · rw [← h1]; exact s0
      · exact (C64_inclination exampleRS a e x t ha ha1 he he1.le hl h1 hrt).2 p s0
    exact ⟨s, hv, ((C16_threshold exampleRS a e t).2.1 p s hs).mp st,
      (C16_exact exampleRS a p e t ha.le ha1 he he1 hlt hrt).1.mp st⟩
  have sq : ∀ t ∈ Set.Icc x x', t ^ 2 ≤ 1 := fun t ht => by
    have h1 : -1 ≤ t := hl.trans ht.1
    have h2 : t ≤ 1 := ht.2.trans hr
    nlinarith
  have ex : ∀ t, t ∈ Set.Icc x x' → ∃ E Y, EMono.Orb (a ^ 2) (a * t) (p / (1 - e)) (p / (1 + e)) E Y := by
    intro t ht
    obtain ⟨s, -, -, hst⟩ := val t ht
    obtain ⟨E, L, Q, hc⟩ := stableOrbit_iff.mp hst
    obtain ⟨Y, o, -⟩ := StableConstants.orb ha.le ha1 he he1 (sq t ht) hc
    exact ⟨E, Y, o⟩
  choose! fE fY ho using ex
  have hsn := Real.sqrt_nonneg (1 - a ^ 2)
  have hhor := h.1
  have cb : ∀ t : ℝ, Tendsto (fun t : ℝ => a * t) (𝓝 t) (𝓝 (a * t)) := fun t => tendsto_id.const_mul a
  have cont : ∀ t ∈ Set.Icc x x', Tendsto fE (𝓝[Set.Icc x x'] t) (𝓝 (fE t)) ∧ Tendsto fY (𝓝[Set.Icc x x'] t) (𝓝 (fY t)) := by
    intro t ht
    obtain ⟨s, hv, hsp, -⟩ := val t ht
    refine EMono.limit (A := a ^ 2) (r := fun _ => p / (1 - e)) (s := fun _ => p / (1 + e)) ?_ ((cb t).mono_left nhdsWithin_le_nhds) tendsto_const_nhds tendsto_const_nhds
      (by linarith) (ho t ht).hsr ?_
    · filter_upwards [self_mem_nhdsWithin] with t' h' using ho t' h'
    · intro E' Y' h'
      exact pre_unique ha.le ha1 he he1 (hl.trans ht.1) (ht.2.trans hr) hv hsp hhor (ho t ht) h'
  have near : ∀ t ∈ Set.Ico x x', 𝓝[>] t ≤ 𝓝[Set.Icc x x'] t := by
    intro t ht
    rw [← nhdsWithin_Ioo_eq_nhdsGT ht.2]
    exact nhdsWithin_mono _ (fun u hu => ⟨ht.1.trans hu.1.le, hu.2.le⟩)
  have loc : ∀ t ∈ Set.Ico x x', ∀ᶠ t' in 𝓝[>] t, - fE t < - fE t' := by
    intro t ht
    have ht' := Set.Ico_subset_Icc_self ht
    have := EMono.local_b (b := fun t => a * t) (ho t ht')
      (by
        have h1 : ∀ᶠ t' in 𝓝[>] t, t' ∈ Set.Icc x x' := near t ht self_mem_nhdsWithin
        filter_upwards [self_mem_nhdsWithin, h1] with t' h2 h3
        exact ⟨ho t' h3, mul_lt_mul_of_pos_left h2 ha⟩)
      ((cb t).mono_left nhdsWithin_le_nhds) ((cont t ht').1.mono_left (near t ht)) ((cont t ht').2.mono_left (near t ht))
    exact this.mono fun t' h => by linarith
  have m := EMono.lt_of_local (f := fun t => - fE t) hxx (fun t ht => (cont t ht).1.neg) loc
  have hx0 : x ∈ Set.Icc x x' := Set.left_mem_Icc.mpr hxx.le
  have hx1 : x' ∈ Set.Icc x x' := Set.right_mem_Icc.mpr hxx.le
  obtain ⟨Y, o, -, -⟩ := StableConstants.orb ha.le ha1 he he1 (sq x hx0) h
  obtain ⟨Y', o', -, -⟩ := StableConstants.orb ha.le ha1 he he1 (sq x' hx1) h'
  obtain ⟨s, hv, hsp, -⟩ := val x hx0
  obtain ⟨s', hv', hsp', -⟩ := val x' hx1
  obtain ⟨rfl, rfl⟩ := pre_unique ha.le ha1 he he1 hl (hxx.le.trans hr) hv hsp hhor (ho x hx0) o.pre
  obtain ⟨rfl, rfl⟩ := pre_unique ha.le ha1 he he1 (hl.trans hxx.le) hr hv' hsp' hhor (ho x' hx1) o'.pre
  linarith

/-- `constants_of_motion` returns the constants of the orbit. -/
lemma constants_stable {rs : RootScalar} {a p e x : ℝ} (h : Spec.BoundOrbit rs a p e x) (ha : 0 ≤ a) (he1 : e < 1)
    (hd : 0 < x → p ≤ 4 → Spec.DivisorsNonzero a p e x) :
    ∃ E L Q, constantsOfMotion rs a p e x = .ok (E, L, Q) ∧ Spec.StableConstants a p e x E L Q := by
  obtain ⟨hal, ⟨he, -⟩, hxa, s, hs, hsp⟩ := id h
  have hxl := (abs_le.mp hxa).1
  have hxr := (abs_le.mp hxa).2
  rw [abs_of_nonneg ha] at hal
  have hx : x ^ 2 ≤ 1 := by nlinarith
  have hsx : Spec.signedX a x = x := by unfold Spec.signedX; rw [if_neg (not_lt.mpr ha)]
  rw [abs_of_nonneg ha, hsx] at hs
  have hst : Spec.StableOrbit a p e x := (C16_exact rs a p e x ha hal he he1 hxl hxr).1.mp
    (((C16_threshold rs a e x).2.1 p s hs).mpr hsp)
  obtain ⟨hhor, -⟩ := id hst
  have hA : a ^ 2 < 1 := by nlinarith
  rcases eq_or_lt_of_le ha with h0 | h0
  · subst h0
    obtain ⟨E, L, Q, hc, hE, hE1, hL1, hL2, hQ, hT⟩ := C07_turning rs p e x h he1.ne
    have hc' := C07_constants rs p e x h
    have hcc := Except.ok.inj (hc.symm.trans hc')
    simp only [Prod.mk.injEq] at hcc
    obtain ⟨-, eL, eQ⟩ := hcc
    have h6 : 6 + 2 * e < p := (stable_zero rs he he1 hxl hxr).mpr hst
    have hE2 : E ^ 2 < 1 := by nlinarith
    obtain ⟨r1, r2, r3, r4, -, e1, e2, hR, h21, h2, h3, h4, -, -⟩ :=
      C08_bound rs 0 p e x E L Q (by norm_num) hE2 he he1 hhor hT
    subst e1 e2
    have hs0 : √(1 - (0:ℝ) ^ 2) = 1 := by norm_num
    rw [hs0] at h3 h4
    refine ⟨E, L, Q, hc, hhor, hE, hE1, ?_, hQ, ?_, r3, r4, hR, by linarith, ?_⟩
    · rcases lt_trichotomy x 0 with k | k | k
      · rw [Real.sign_of_neg k, Real.sign_of_neg (hL2 k)]
      · rw [eL, k]; simp
      · rw [Real.sign_of_pos k, Real.sign_of_pos (hL1 k)]
    · have hp3 : 0 < p - 3 - e ^ 2 := by nlinarith
      have hsq := Real.sq_sqrt hp3.le
      have hL : L ^ 2 = x ^ 2 * p ^ 2 / (p - 3 - e ^ 2) := by
        rw [eL, div_pow, hsq]; ring
      unfold Spec.Zpol
      rw [hL, eQ]
      field_simp; ring
    · exact (schwarzschild_third he he1 hE2 (by linarith) hR (by linarith)).mpr h6
  · by_cases hx0 : x = 0
    · subst hx0
      obtain ⟨E, Q, hc, hE, hE1, hQ, hT⟩ := C06_polar_exact rs a p e h he1.ne
      have hE2 : E ^ 2 < 1 := by nlinarith
      obtain ⟨r1, r2, r3, r4, -, e1, e2, hR, h21, h2, h3, h4', hr4, -⟩ :=
        C08_bound rs a p e 0 E 0 Q hA.le hE2 he he1 hhor hT
      have hsn := Real.sqrt_nonneg (1 - a ^ 2)
      obtain ⟨E', L', Q', h'⟩ := stableOrbit_iff.mp hst
      obtain ⟨-, hE', hE1', hL', hQ', hZ', r3', r4', hR', h43', h32'⟩ := h'
      obtain rfl := sign_eq_zero' hL'
      have hE2' : E' ^ 2 < 1 := by nlinarith
      obtain ⟨g3, g4, g5, hpe, g21, -⟩ := stable_geom hA he he1 hx hhor hE2' hQ' hZ' hR' h43' h32'
      have hN := (polar_root_iff hA he he1 hE2' rfl rfl hR' g21 (by linarith) (by linarith) g4 (by linarith)).mp h32'
      have hlt := (polar_root_iff hA he he1 hE2 e1 e2 hR h21 (by linarith) (by linarith) (hr4 hQ.le)
        (by linarith)).mpr hN
      subst e1 e2
      exact ⟨E, 0, Q, hc, hhor, hE, hE1, rfl, hQ.le, by unfold Spec.Zpol; ring, r3, r4, hR, by linarith, hlt⟩
    · obtain ⟨E, L, Q, r1, r2, r3, r4, hc, -, hE, hE1, hL, hQ, rfl, rfl, hR, h32, -, -, h3, h4, -, -⟩ :=
        C04_boundGeodesic rs a p e x h h0 he1.ne hx0 hd
      have hsn := Real.sqrt_nonneg (1 - a ^ 2)
      refine ⟨E, L, Q, hc, hhor, hE, hE1, (sign_mul_pos hx0).mp hL, hQ, ?_, r3, r4, hR, by linarith, h32⟩
      exact C05_inclination_root rs a p e x E L Q hx0 hc

/-- **C65.** Wider orbits of the same eccentricity and inclination: `constants_of_motion` returns a larger energy, a
larger angular momentum (in absolute value, unless the orbit is polar) and a larger Carter constant (unless the orbit
is equatorial).  All `p' > p` are accepted with `p`.  For prograde orbits with `p ≤ 4` the divisors of the code's
formulas are assumed not to vanish at the two orbits compared (not in between). -/
theorem C65_wider (rs : RootScalar) (a p p' e x : ℝ) (h : Spec.BoundOrbit rs a p e x) (he1 : e < 1) (hpp : p < p')
    (hd : 0 < Spec.signedX a x → p ≤ 4 → Spec.DivisorsNonzero a p e x)
    (hd' : 0 < Spec.signedX a x → p' ≤ 4 → Spec.DivisorsNonzero a p' e x) :
    Spec.BoundOrbit rs a p' e x
    ∧ ∃ E L Q E' L' Q', constantsOfMotion rs a p e x = .ok (E, L, Q) ∧ constantsOfMotion rs a p' e x = .ok (E', L', Q')
      ∧ E < E' ∧ (x ≠ 0 → |L| < |L'|) ∧ (|x| ≠ 1 → Q < Q') := by
  have h' : Spec.BoundOrbit rs a p' e x := by
    obtain ⟨h1, h2, h3, s, hs, hsp⟩ := h
    exact ⟨h1, h2, h3, s, hs, hsp.trans hpp⟩
  refine ⟨h', ?_⟩
  obtain ⟨b, hc, d⟩ := bound_std h
  obtain ⟨b', hc', d'⟩ := bound_std h'
  obtain ⟨E, L, Q, c, hs⟩ := constants_stable b (abs_nonneg a) he1 fun h1 h2 => d.mpr (hd h1 h2)
  obtain ⟨E', L', Q', c', hs'⟩ := constants_stable b' (abs_nonneg a) he1 fun h1 h2 => d'.mpr (hd' h1 h2)
  rw [hc] at c
  rw [hc'] at c'
  have hX := abs_le.mp (by rw [abs_signedX]; exact h.2.2.1 : |Spec.signedX a x| ≤ 1)
  obtain ⟨o1, o2, o3⟩ := order_p (abs_nonneg a) h.1 h.2.1.1 he1 hX.1 hX.2 hpp hs hs'
  refine ⟨E, L, Q, E', L', Q', c, c', o1, fun hx => o2 ((signedX_eq_zero a x).not.mpr hx), fun hx => o3 fun h1 => hx ?_⟩
  have : |Spec.signedX a x| ^ 2 = 1 := by rw [sq_abs]; exact h1
  rw [abs_signedX] at this
  have h0 := abs_nonneg x
  nlinarith

/-- **C66.** More prograde orbits of the same size and eccentricity: around a spinning hole, `constants_of_motion` returns
a smaller energy the larger the (signed) inclination is, from the retrograde through the polar to the prograde orbits.
All more prograde orbits are accepted with the given one. -/
theorem C66_more_prograde (rs : RootScalar) (a p e x x' : ℝ) (ha : a ≠ 0) (h : Spec.BoundOrbit rs a p e x) (he1 : e < 1)
    (hxx : Spec.signedX a x < Spec.signedX a x') (hx' : |x'| ≤ 1)
    (hd : 0 < Spec.signedX a x → p ≤ 4 → Spec.DivisorsNonzero a p e x)
    (hd' : 0 < Spec.signedX a x' → p ≤ 4 → Spec.DivisorsNonzero a p e x') :
    Spec.BoundOrbit rs a p e x'
    ∧ ∃ E L Q E' L' Q', constantsOfMotion rs a p e x = .ok (E, L, Q) ∧ constantsOfMotion rs a p e x' = .ok (E', L', Q')
      ∧ E' < E := by
  have ha0 : 0 < |a| := abs_pos.mpr ha
  have hX := abs_le.mp (by rw [abs_signedX]; exact h.2.2.1 : |Spec.signedX a x| ≤ 1)
  have hX' := abs_le.mp (by rw [abs_signedX]; exact hx' : |Spec.signedX a x'| ≤ 1)
  have h' : Spec.BoundOrbit rs a p e x' := by
    obtain ⟨h1, h2, h3, s, hs, hsp⟩ := id h
    obtain ⟨⟨s1, s2, k1, k2, k3⟩, -⟩ := C64_inclination rs |a| e _ _ ha0 h1 h2.1 h2.2 hX.1 hxx hX'.2
    obtain rfl : s = s1 := Except.ok.inj (hs.symm.trans k1)
    exact ⟨h1, h2, hx', s2, k2, k3.trans hsp⟩
  refine ⟨h', ?_⟩
  obtain ⟨b, hc, d⟩ := bound_std h
  obtain ⟨b', hc', d'⟩ := bound_std h'
  obtain ⟨E, L, Q, c, hs⟩ := constants_stable b ha0.le he1 fun h1 h2 => d.mpr (hd h1 h2)
  obtain ⟨E', L', Q', c', hs'⟩ := constants_stable b' ha0.le he1 fun h1 h2 => d'.mpr (hd' h1 h2)
  rw [hc] at c
  rw [hc'] at c'
  exact ⟨E, L, Q, E', L', Q', c, c', order_x ha0 h.1 h.2.1.1 he1 hX.1 hxx hX'.2 hs hs'⟩

/-- **C65** (the orbits themselves, without any assumption on the code's divisors): stable orbits have unique constants,
these are ordered, and the orbits run into the future. -/
theorem C65_orbits (a p p' e x E L Q E' L' Q' : ℝ) (ha : 0 ≤ a) (ha1 : a < 1) (he : 0 ≤ e) (he1 : e < 1) (hx : |x| ≤ 1)
    (h : Spec.StableConstants a p e x E L Q) (h' : Spec.StableConstants a p' e x E' L' Q') :
    (p = p' → E' = E ∧ L' = L ∧ Q' = Q)
    ∧ (p < p' → E < E' ∧ (x ≠ 0 → |L| < |L'|) ∧ (|x| ≠ 1 → Q < Q'))
    ∧ a * L < E * ((p / (1 + e)) ^ 2 + a ^ 2) := by
  have hX := abs_le.mp hx
  refine ⟨?_, fun hpp => ?_, ?_⟩
  · rintro rfl
    obtain ⟨s, hs, hv⟩ := C15_separatrix_returns exampleRS a e x ha ha1 he he1.le hX.1 hX.2
    have hsp : s < p := ((C16_threshold exampleRS a e x).2.1 p s hs).mp
      ((C16_exact exampleRS a p e x ha ha1 he he1 hX.1 hX.2).1.mpr (stableOrbit_iff.mpr ⟨_, _, _, h⟩))
    exact StableConstants.unique ha ha1 he he1 hX.1 hX.2 hv hsp h h'
  · obtain ⟨o1, o2, o3⟩ := order_p ha ha1 he he1 hX.1 hX.2 hpp h h'
    refine ⟨o1, o2, fun hx1 => o3 fun h1 => hx1 ?_⟩
    have : |x| ^ 2 = 1 := by rw [sq_abs]; exact h1
    have h0 := abs_nonneg x
    nlinarith
  · obtain ⟨Y, o, rfl, -⟩ := StableConstants.orb ha ha1 he he1 (by nlinarith) h
    have := o.hPs
    linarith

/-- Non-vacuity of C65 and C66: inclined eccentric orbits around a spinning hole, and a hole with negative spin. -/
example (rs : RootScalar) : (∃ E L Q E' L' Q', constantsOfMotion rs (9 / 10) 13 (1 / 2) (1 / 3) = .ok (E, L, Q)
      ∧ constantsOfMotion rs (9 / 10) 14 (1 / 2) (1 / 3) = .ok (E', L', Q') ∧ E < E' ∧ |L| < |L'| ∧ Q < Q')
    ∧ ∃ E L Q E' L' Q', constantsOfMotion rs (-9 / 10) 13 (1 / 2) 1 = .ok (E, L, Q)
      ∧ constantsOfMotion rs (-9 / 10) 13 (1 / 2) (-1 / 3) = .ok (E', L', Q') ∧ E' < E := by
  constructor
  · have hb : Spec.BoundOrbit rs (9 / 10) 13 (1 / 2) (1 / 3) :=
      C11_accepts_wide rs _ _ _ _ (by rw [abs_of_pos] <;> norm_num) (by norm_num) (by norm_num)
        (by rw [abs_of_pos] <;> norm_num) (by norm_num)
    obtain ⟨-, E, L, Q, E', L', Q', h1, h2, h3, h4, h5⟩ := C65_wider rs (9 / 10) 13 14 (1 / 2) (1 / 3) hb
      (by norm_num) (by norm_num) (fun _ h => absurd h (by norm_num)) (fun _ h => absurd h (by norm_num))
    exact ⟨E, L, Q, E', L', Q', h1, h2, h3, h4 (by norm_num), h5 (by rw [abs_of_pos] <;> norm_num)⟩
  · have hb : Spec.BoundOrbit rs (-9 / 10) 13 (1 / 2) 1 :=
      C11_accepts_wide rs _ _ _ _ (by rw [abs_of_neg] <;> norm_num) (by norm_num) (by norm_num)
        (by norm_num) (by norm_num)
    exact (C66_more_prograde rs (-9 / 10) 13 (1 / 2) 1 (-1 / 3) (by norm_num) hb (by norm_num)
      (by unfold Spec.signedX; norm_num) (by rw [abs_of_neg] <;> norm_num)
      (fun _ h => absurd h (by norm_num)) (fun _ h => absurd h (by norm_num))).2

end KGP
