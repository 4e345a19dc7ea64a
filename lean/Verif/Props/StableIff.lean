import Verif.Props.StableExact
import Verif.Lemmas.StableConverse

/-!
# C16: `is_stable` answers "is this orbit stable?"

`is_stable` compares `p` with a zero of a polynomial.  The theorem says that for every spin `0 ≤ a < 1`,
every inclination and every `e < 1` this decides whether there is a bound orbit outside the horizon with
turning points `p/(1-e)` and `p/(1+e)` whose radial potential has its next root strictly below `p/(1+e)`.
-/

namespace KGP

open Classical Real SepCert Schmidt

/-- There is a bound orbit outside the horizon with inclination `x`, turning points `p/(1-e)` and
`p/(1+e)`, and it is stable: some constants of motion with `0 < E < 1`, `L` of the sign of `x` and `Q ≥ 0`
have this inclination and these turning points, and the next root of the radial potential is strictly below
`p/(1+e)`. -/
def Spec.StableOrbit (a p e x : ℝ) : Prop :=
  1 + √(1 - a ^ 2) < p / (1 + e) ∧
  ∃ E L Q r3 r4, 0 < E ∧ E < 1 ∧ Real.sign L = Real.sign x ∧ 0 ≤ Q ∧ Spec.Zpol a E L Q (1 - x ^ 2) = 0
    ∧ Spec.RadialRoots a E L Q (p / (1 - e)) (p / (1 + e)) r3 r4 ∧ r4 ≤ r3 ∧ r3 < p / (1 + e)

/-- The two forms of the product of the inner roots. -/
lemma inner_product {a E L Q w r1 r2 r3 r4 : ℝ} (hE : E ^ 2 < 1) (hR : Spec.RadialRoots a E L Q r1 r2 r3 r4)
    (hZ : Spec.Zpol a E L Q w = 0) :
    r3 * r4 * (r1 * r2 - a ^ 2 * w) = a ^ 2 * w * (r1 * r2 + (r1 + r2) * (r3 + r4) - a ^ 2 * w) := by
  obtain ⟨v1, v2, v3, v4⟩ := RadialRoots.vieta hR
  have hb0 : 1 - E ^ 2 ≠ 0 := by linarith
  unfold Spec.Zpol at hZ
  have : (1 - E ^ 2) * (r3 * r4 * (r1 * r2 - a ^ 2 * w)
      - a ^ 2 * w * (r1 * r2 + (r1 + r2) * (r3 + r4) - a ^ 2 * w)) = 0 := by
    linear_combination v4 - a ^ 2 * w * v2 + a ^ 2 * hZ
  have := (mul_eq_zero.mp this).resolve_left hb0
  linarith

/-- `p`, `e` in terms of the turning points. -/
lemma pe_roots {p e : ℝ} (he : 0 ≤ e) (he1 : e < 1) {r1 r2 : ℝ} (hr1 : r1 = p / (1 - e))
    (hr2 : r2 = p / (1 + e)) :
    r1 * (1 - e) = p ∧ r2 * (1 + e) = p ∧ p * g e = SepCert.K e * (r1 + 2 * r2)
      ∧ p ^ 3 = SepCert.K e * (r1 * r2 ^ 2) ∧ p ^ 2 * (3 + e) = SepCert.K e * (2 * (r1 * r2) + r2 ^ 2) := by
  have h1e : 0 < 1 - e := by linarith
  have h2e : 0 < 1 + e := by linarith
  have hr1' : r1 * (1 - e) = p := by rw [hr1]; field_simp
  have hr2' : r2 * (1 + e) = p := by rw [hr2]; field_simp
  refine ⟨hr1', hr2', ?_, ?_, ?_⟩
  · unfold g SepCert.K
    linear_combination -(1 + e) ^ 2 * hr1' - 2 * (1 - e) * (1 + e) * hr2'
  · unfold SepCert.K
    linear_combination -(r2 * (1 + e)) ^ 2 * hr1' - p * (r2 * (1 + e) + p) * hr2'
  · unfold SepCert.K
    linear_combination -2 * (1 + e) * (r2 * (1 + e)) * hr1' - 2 * (1 + e) * p * hr2'
      - (1 - e) * (r2 * (1 + e) + p) * hr2'

/-- The geometry of a stable orbit. -/
lemma stable_geom {a p e x E L Q r3 r4 : ℝ} (hA : a ^ 2 < 1) (he : 0 ≤ e) (he1 : e < 1) (hx : x ^ 2 ≤ 1)
    (hhor : 1 + √(1 - a ^ 2) < p / (1 + e)) (hE : E ^ 2 < 1) (hQ : 0 ≤ Q)
    (hZ : Spec.Zpol a E L Q (1 - x ^ 2) = 0)
    (hR : Spec.RadialRoots a E L Q (p / (1 - e)) (p / (1 + e)) r3 r4) (h43 : r4 ≤ r3) (h32 : r3 < p / (1 + e)) :
    1 + √(1 - a ^ 2) ≤ r3 ∧ 0 ≤ r4 ∧ r4 ≤ 1 - √(1 - a ^ 2) ∧ 1 + e ≤ p ∧ p / (1 + e) ≤ p / (1 - e)
      ∧ 0 < D p (a ^ 2) e (1 - x ^ 2) ∧ 0 < M1 p (a ^ 2) e (1 - x ^ 2)
      ∧ E ^ 2 * (M1 p (a ^ 2) e (1 - x ^ 2) + 2 * SepCert.K e * D p (a ^ 2) e (1 - x ^ 2))
        < M1 p (a ^ 2) e (1 - x ^ 2) := by
  have hsn := Real.sqrt_nonneg (1 - a ^ 2)
  have h1e : 0 < 1 - e := by linarith
  have h2e : 0 < 1 + e := by linarith
  have hT := RadialRoots.turning hR
  obtain ⟨r1, r2, r3', r4', -, e1, e2, hR', h21, -, g3, g4, hr4, -⟩ :=
    C08_bound exampleRS a p e x E L Q hA.le hE he he1 hhor hT
  have hr4' := hr4 hQ
  obtain ⟨t1, t2, t3, t4, t5⟩ := pe_roots he he1 e1 e2
  rw [← e1, ← e2] at hR
  rw [← e2] at hhor h32
  rw [← e1, ← e2]
  have hb : 1 - E ^ 2 ≠ 0 := by linarith
  have hsum : r3 + r4 = r3' + r4' := by
    have k1 := (RadialRoots.vieta hR).1
    have k2 := (RadialRoots.vieta hR').1
    have : (1 - E ^ 2) * ((r3 + r4) - (r3' + r4')) = 0 := by linear_combination k1 - k2
    linarith [(mul_eq_zero.mp this).resolve_left hb]
  have hprod : r3 * r4 = r3' * r4' := by
    have k1 := (RadialRoots.vieta hR).2.1
    have k2 := (RadialRoots.vieta hR').2.1
    have : (1 - E ^ 2) * (r3 * r4 - r3' * r4') = 0 := by
      linear_combination k1 - k2 - (1 - E ^ 2) * (r1 + r2) * hsum
    linarith [(mul_eq_zero.mp this).resolve_left hb]
  have hz : (r3 - r3') * (r3 - r4') = 0 := by linear_combination r3 * hsum - hprod
  have hr3 : r3 = r3' := by
    rcases mul_eq_zero.mp hz with h | h
    · linarith
    · linarith
  have hr4e : r4 = r4' := by linarith
  subst hr3 hr4e
  have hpe : 1 + e ≤ p := by nlinarith
  have h42 : r4 < r2 := by linarith
  have hb' := (third_root_iff hA hpe he he1 hx hE e1 e2 hR hZ h42).mp h32
  have hw : 0 ≤ 1 - x ^ 2 := by linarith
  have hu : 0 ≤ a ^ 2 * (1 - x ^ 2) := by positivity
  have hu1 : a ^ 2 * (1 - x ^ 2) < 1 := by nlinarith [sq_nonneg x, sq_nonneg a]
  have hD0 := Schmidt.D_of_roots hu hu1 h21 h32 (by linarith) hr4' (by linarith) (inner_product hE hR hZ)
  have hK : 0 < SepCert.K e := by unfold SepCert.K; positivity
  have hD : D p (a ^ 2) e (1 - x ^ 2) = SepCert.K e * (r1 * r2 ^ 2 - a ^ 2 * (1 - x ^ 2) * (r1 + 2 * r2)) := by
    rw [D]; linear_combination t4 - a ^ 2 * (1 - x ^ 2) * t3
  have hD1 : 0 < D p (a ^ 2) e (1 - x ^ 2) := by rw [hD]; exact mul_pos hK hD0
  refine ⟨g3, hr4', g4, hpe, h21, hD1, ?_, hb'⟩
  have k1 : 0 ≤ E ^ 2 * (2 * SepCert.K e * D p (a ^ 2) e (1 - x ^ 2)) := by positivity
  have k2 : 0 < M1 p (a ^ 2) e (1 - x ^ 2) * (1 - E ^ 2) := by linarith
  exact pos_of_mul_pos_left k2 (by linarith)

/-- The radial potential is not negative between the turning points. -/
lemma stable_nonneg {a E L Q r1 r2 r3 r4 : ℝ} (hE : E ^ 2 < 1) (hR : Spec.RadialRoots a E L Q r1 r2 r3 r4)
    (h43 : r4 ≤ r3) (h32 : r3 ≤ r2) (t : ℝ) (h1 : r2 ≤ t) (h2 : t ≤ r1) : 0 ≤ Spec.R a E L Q t := by
  rw [hR]
  have : 0 ≤ (1 - E ^ 2) * (r1 - t) * (t - r2) * (t - r3) * (t - r4) := by
    refine mul_nonneg (mul_nonneg (mul_nonneg (mul_nonneg ?_ ?_) ?_) ?_) ?_ <;> linarith
  linarith

/-- `r3 ≤ r2` if `E²` does not exceed the critical value. -/
lemma third_root_le {a p e x E L Q r1 r2 r3 r4 : ℝ} (hA : a ^ 2 < 1) (he : 0 ≤ e)
    (he1 : e < 1) (hx : x ^ 2 ≤ 1) (hE : E ^ 2 < 1) (hr1 : r1 = p / (1 - e)) (hr2 : r2 = p / (1 + e))
    (hR : Spec.RadialRoots a E L Q r1 r2 r3 r4) (hZ : Spec.Zpol a E L Q (1 - x ^ 2) = 0)
    (h42 : r4 < r2) (h21 : r2 ≤ r1) (h1 : 1 < r2)
    (h : E ^ 2 * (M1 p (a ^ 2) e (1 - x ^ 2) + 2 * SepCert.K e * D p (a ^ 2) e (1 - x ^ 2))
        ≤ M1 p (a ^ 2) e (1 - x ^ 2)) : r3 ≤ r2 := by
  obtain ⟨v1, -, -, -⟩ := RadialRoots.vieta hR
  have hm := inner_product hE hR hZ
  obtain ⟨t1, t2, t3, t4, t5⟩ := pe_roots he he1 hr1 hr2
  have h1e : 0 < 1 - e := by linarith
  have hK : 0 < SepCert.K e := by unfold SepCert.K; positivity
  have hw : 0 ≤ 1 - x ^ 2 := by linarith
  have hu1 : a ^ 2 * (1 - x ^ 2) < 1 := by nlinarith [sq_nonneg x, sq_nonneg a]
  have hv : 0 < r1 * r2 - a ^ 2 * (1 - x ^ 2) := by nlinarith
  have key : M1 p (a ^ 2) e (1 - x ^ 2) * (1 - E ^ 2)
        - 2 * SepCert.K e * D p (a ^ 2) e (1 - x ^ 2) * E ^ 2
      = (1 - E ^ 2) * SepCert.K e ^ 2 * ((r2 - r3) * (r2 - r4)) * (r1 * r2 - a ^ 2 * (1 - x ^ 2)) := by
    have hB : B p (a ^ 2) e (1 - x ^ 2) = SepCert.K e * (2 * (r1 * r2) + r2 ^ 2 - a ^ 2 * (1 - x ^ 2)) := by
      rw [B]; linear_combination t5
    have hD : D p (a ^ 2) e (1 - x ^ 2)
        = SepCert.K e * (r1 * r2 ^ 2 - a ^ 2 * (1 - x ^ 2) * (r1 + 2 * r2)) := by
      rw [D]; linear_combination t4 - a ^ 2 * (1 - x ^ 2) * t3
    rw [M1, t3, hB, hD]
    linear_combination (SepCert.K e ^ 2 * (r1 * r2 ^ 2 - a ^ 2 * (1 - x ^ 2) * (r1 + 2 * r2))) * v1
      - (1 - E ^ 2) * SepCert.K e ^ 2 * hm
  by_contra hcon
  have h3 : (1 - E ^ 2) * SepCert.K e ^ 2 * ((r2 - r3) * (r2 - r4)) * (r1 * r2 - a ^ 2 * (1 - x ^ 2)) < 0 := by
    refine mul_neg_of_neg_of_pos (mul_neg_of_pos_of_neg ?_ (mul_neg_of_neg_of_pos ?_ ?_)) hv
    · exact mul_pos (by linarith) (by positivity)
    · linarith
    · linarith
  linarith

lemma one_sub_sq_pos {e : ℝ} (he : 0 ≤ e) (he1 : e < 1) : 0 < 1 - e ^ 2 := by nlinarith

lemma quad_form (p l A w t : ℝ) :
    WS p l A w * t ^ 2 - 2 * NS p l A w * t + kapS p l A w ^ 2
      = (kapS p l A w - rhoS p l A w * t) ^ 2
        - 4 * A * (1 - w) * TS p l A w * l ^ 2 * (t * (etaS p l A w * t - epsS p l A w)) := by
  unfold WS NS; ring

lemma no_touch {c t t' z η ε : ℝ} (hc : 0 < c) (ht : 0 < t) (htt : t < t') (hη : 0 < η)
    (h1 : 0 = z ^ 2 - c * (t * (η * t - ε))) (h2 : 0 = 0 ^ 2 - c * (t' * (η * t' - ε))) : False := by
  have k1 : 0 ≤ c * t * (η * t - ε) := by nlinarith [sq_nonneg z]
  have k2 := nonneg_of_mul_nonneg_right k1 (by positivity)
  have k3 : 0 < η * (t' - t) := mul_pos hη (by linarith)
  have k4 : 0 < c * (t' * (η * t' - ε)) := mul_pos hc (mul_pos (by linarith) (by linarith))
  linarith

lemma no_beyond {κ ρ t t' d m : ℝ} (htt : t < t') (h1 : 0 < κ - ρ * t) (h2 : κ - ρ * t' < 0)
    (hd : 0 < d) (hm : t' * d ≤ m) (hn : 0 ≤ κ * d - ρ * m) : False := by
  have hρ : 0 < ρ := by
    have : 0 < ρ * (t' - t) := by linarith
    exact pos_of_mul_pos_left this (by linarith)
  have k1 := mul_le_mul_of_nonneg_left hm hρ.le
  have k2 := mul_neg_of_neg_of_pos h2 hd
  linarith

lemma L_side {a p e x E L : ℝ} (ha : 0 < a) (hp0 : 0 < p) (he : 0 ≤ e) (he1 : e < 1) (hx0 : 0 < x)
    (hx : x ^ 2 ≤ 1) (hTS : 0 < TS p (1 - e ^ 2) (a ^ 2) (1 - x ^ 2)) (hE : 0 < E) (hL : 0 < L)
    (hT : Spec.TurningPoints a E L (carterFormula a x E L) p e) :
    0 < kapS p (1 - e ^ 2) (a ^ 2) (1 - x ^ 2) - rhoS p (1 - e ^ 2) (a ^ 2) (1 - x ^ 2) * E ^ 2 := by
  have hl : 0 < 1 - e ^ 2 := by nlinarith
  obtain ⟨h1, -⟩ := relations_pe ha.ne' hp0.ne' he he1 hx0.ne' hx hT
  obtain ⟨s1, s2, s3, s4, s5, s6, s7, s8⟩ := scale (p := p) (A := a ^ 2) (w := 1 - x ^ 2) hl.ne'
  rw [s1, s2, s6] at h1
  have h2 : 0 < 2 / (1 - e ^ 2) ^ 3 * (kapS p (1 - e ^ 2) (a ^ 2) (1 - x ^ 2)
      - rhoS p (1 - e ^ 2) (a ^ 2) (1 - x ^ 2) * E ^ 2) := by
    have : 0 < 4 * a * (1 / (1 - e ^ 2) * TS p (1 - e ^ 2) (a ^ 2) (1 - x ^ 2)) * (E * L) := by positivity
    linarith
  exact pos_of_mul_pos_right h2 (by positivity)

/-- A prograde stable orbit inside `p = 4` makes the separatrix polynomial negative. -/
lemma stable_inner {a p e x E L Q r3 r4 : ℝ} (ha : 0 < a) (ha1 : a < 1) (he : 0 ≤ e) (he1 : e < 1)
    (hx0 : 0 < x) (hx1 : x ≤ 1) (hp4 : p ≤ 4)
    (hhor : 1 + √(1 - a ^ 2) < p / (1 + e)) (hE0 : 0 < E) (hE : E ^ 2 < 1) (hL : 0 < L) (hQ : 0 ≤ Q)
    (hZ : Spec.Zpol a E L Q (1 - x ^ 2) = 0)
    (hR : Spec.RadialRoots a E L Q (p / (1 - e)) (p / (1 + e)) r3 r4) (h43 : r4 ≤ r3)
    (h32 : r3 < p / (1 + e)) :
    N p (a ^ 2) e (1 - x ^ 2) ^ 2 - 8 * a ^ 2 * (1 - (1 - x ^ 2))
      * (M1 p (a ^ 2) e (1 - x ^ 2) * M2 p (a ^ 2) e (1 - x ^ 2)) < 0 := by
  have hA : a ^ 2 < 1 := by nlinarith
  have hx : x ^ 2 ≤ 1 := by nlinarith
  have hw : 0 ≤ 1 - x ^ 2 := by linarith
  have hw1 : 1 - x ^ 2 ≤ 1 := by linarith [sq_nonneg x]
  have hsn := Real.sqrt_nonneg (1 - a ^ 2)
  have hss := Real.sq_sqrt (show 0 ≤ 1 - a ^ 2 by linarith)
  obtain ⟨g3, g4, g5, hpe, h21, hD, hM1, hb⟩ := stable_geom hA he he1 hx hhor hE hQ hZ hR h43 h32
  obtain rfl := carter_of_zpol hx hx0.ne' hZ
  have hp0 : 0 < p := by linarith
  have hT := RadialRoots.turning hR
  have hr2 : 1 < p / (1 + e) := by linarith
  have hdel : 0 < p / (1 + e) * (p / (1 + e) - 2) + a ^ 2 := by nlinarith
  have slope : ∀ E L r3 r4, 0 < E → E ^ 2 < 1 → 0 < L →
      Spec.RadialRoots a E L (carterFormula a x E L) (p / (1 - e)) (p / (1 + e)) r3 r4 → r4 ≤ r3 →
      r3 ≤ p / (1 + e) → WS p (1 - e ^ 2) (a ^ 2) (1 - x ^ 2) * E ^ 2
        < NS p (1 - e ^ 2) (a ^ 2) (1 - x ^ 2) := by
    intro E L r3 r4 hE0 hE hL hR h43 h32
    refine Schmidt.slope_neg ha ha1 hpe he he1 hx0 hx hE0 hE.le hL (RadialRoots.turning hR) ?_
    exact Schmidt.same_sign hx0 hx hE0 hr2.le h21 hdel (stable_nonneg hE hR h43 h32)
  have hs := slope E L r3 r4 hE0 hE hL hR h43 h32.le
  have hq := Schmidt.quad_of_turning ha hp0 he he1 hx0 hx hT
  have hK : 0 < SepCert.K e := by
    have : 0 < 1 - e := by linarith
    unfold SepCert.K; positivity
  have hdd : 0 < M1 p (a ^ 2) e (1 - x ^ 2) + 2 * SepCert.K e * D p (a ^ 2) e (1 - x ^ 2) := by positivity
  by_contra hcon
  have hTS := (Schmidt.TS_pos_inner (by positivity : 0 < a ^ 2) hA he he1 hw hw1 hpe).1
  have hsv := Schmidt.star_value p (a ^ 2) e (1 - x ^ 2)
  have hS : 0 ≤ ((1 - e ^ 2) ^ 2 * TS p (1 - e ^ 2) (a ^ 2) (1 - x ^ 2)) ^ 2
      * (N p (a ^ 2) e (1 - x ^ 2) ^ 2 - 8 * a ^ 2 * (1 - (1 - x ^ 2))
        * (M1 p (a ^ 2) e (1 - x ^ 2) * M2 p (a ^ 2) e (1 - x ^ 2))) :=
    mul_nonneg (sq_nonneg _) (not_lt.mp hcon)
  rw [← hsv] at hS
  obtain ⟨t', ht', htm, hq', hs'⟩ := Schmidt.other_root hdd hq hs hb hS
  have ht0 : 0 < t' := lt_trans (by positivity) ht'
  have ht1 : t' < 1 := by
    by_contra h
    have k1 : M1 p (a ^ 2) e (1 - x ^ 2) + 2 * SepCert.K e * D p (a ^ 2) e (1 - x ^ 2)
      ≤ t' * (M1 p (a ^ 2) e (1 - x ^ 2) + 2 * SepCert.K e * D p (a ^ 2) e (1 - x ^ 2)) :=
      le_mul_of_one_le_left hdd.le (not_lt.mp h)
    have k2 : 0 < 2 * SepCert.K e * D p (a ^ 2) e (1 - x ^ 2) := by positivity
    linarith
  rcases lt_trichotomy 0 (kapS p (1 - e ^ 2) (a ^ 2) (1 - x ^ 2)
      - rhoS p (1 - e ^ 2) (a ^ 2) (1 - x ^ 2) * t') with hside | hside | hside
  · obtain ⟨E', L', hE', hL', rfl, hT'⟩ := Schmidt.orbit_of_root ha ha1 hpe he he1 hx0 hx ht0 hq' hside
    obtain ⟨r1, r2, r3', r4', -, rfl, rfl, hR', -, -, k3, k4, -, -⟩ :=
      C08_bound exampleRS a p e x E' L' _ hA.le ht1 he he1 hhor hT'
    have hZ' : Spec.Zpol a E' L' (carterFormula a x E' L') (1 - x ^ 2) = 0 := by
      rw [carterFormula_eq hx]; unfold Spec.Zpol; field_simp; ring
    have h3 := third_root_le hA he he1 hx ht1 rfl rfl hR' hZ' (by linarith) h21 hr2 htm
    have := slope E' L' r3' r4' hE' ht1 hL' hR' (by linarith) h3
    linarith
  · have hη := Schmidt.etaS_pos_inner (by positivity : 0 < a ^ 2) hA he he1 hw hw1 hpe
    have f1 := quad_form p (1 - e ^ 2) (a ^ 2) (1 - x ^ 2) (E ^ 2)
    have f2 := quad_form p (1 - e ^ 2) (a ^ 2) (1 - x ^ 2) t'
    rw [hq] at f1
    rw [hq', ← hside] at f2
    have hl : 0 < 1 - e ^ 2 := one_sub_sq_pos he he1
    have hX1 : 1 - (1 - x ^ 2) = x ^ 2 := by ring
    have hc : 0 < 4 * a ^ 2 * (1 - (1 - x ^ 2)) * TS p (1 - e ^ 2) (a ^ 2) (1 - x ^ 2) * (1 - e ^ 2) ^ 2 := by
      rw [hX1]; positivity
    exact no_touch hc (by positivity) ht' hη f1 f2
  · have hN := SepCert.N_nonneg_inner (sq_nonneg a) hA.le he he1.le hw hw1 hpe hp4
    have hk := star_kappa p (a ^ 2) e (1 - x ^ 2)
    have hl : 0 < 1 - e ^ 2 := one_sub_sq_pos he he1
    have hpos : 0 ≤ (1 - e ^ 2) ^ 2 * TS p (1 - e ^ 2) (a ^ 2) (1 - x ^ 2) * N p (a ^ 2) e (1 - x ^ 2) := by
      positivity
    rw [← hk] at hpos
    have hLs := L_side ha hp0 he he1 hx0 hx hTS hE0 hL hT
    exact no_beyond ht' hLs hside hdd htm hpos

/-- Retrograde and polar stable orbits have `p > 4`. -/
lemma stable_four {a p e x E L Q r3 r4 : ℝ} (hA : a ^ 2 < 1) (he : 0 ≤ e) (he1 : e < 1) (hx : x ^ 2 ≤ 1)
    (hhor : 1 + √(1 - a ^ 2) < p / (1 + e)) (hE0 : 0 < E) (hE : E ^ 2 < 1) (hQ : 0 ≤ Q) (haL : a * L ≤ 0)
    (hZ : Spec.Zpol a E L Q (1 - x ^ 2) = 0)
    (hR : Spec.RadialRoots a E L Q (p / (1 - e)) (p / (1 + e)) r3 r4) (h43 : r4 ≤ r3)
    (h32 : r3 < p / (1 + e)) : 4 < p := by
  have hsn := Real.sqrt_nonneg (1 - a ^ 2)
  obtain ⟨g3, g4, g5, hpe, h21, -⟩ := stable_geom hA he he1 hx hhor hE hQ hZ hR h43 h32
  obtain ⟨v1, v2, v3, v4⟩ := RadialRoots.vieta hR
  obtain ⟨r1, hr1⟩ : ∃ r, r = p / (1 - e) := ⟨_, rfl⟩
  obtain ⟨r2, hr2⟩ : ∃ r, r = p / (1 + e) := ⟨_, rfl⟩
  obtain ⟨t1, t2, -⟩ := pe_roots he he1 hr1 hr2
  rw [← hr1, ← hr2] at v1 v2 v3 h21
  rw [← hr2] at hhor h32
  have h := Schmidt.four_lt_of_retro (b := 1 - E ^ 2) (A := a ^ 2) (E := E) (L := L) (Q := Q) (al := a * L)
    (r1 := r1) (r2 := r2) (r3 := r3) (r4 := r4) (by linarith) (sq_nonneg a) hA (by ring) hE0.le haL h21 h32
    (by linarith) g4 (by linarith) v1 (by linear_combination v2) (by linear_combination v3)
  have h2 : 0 < r2 := by linarith
  have h1 : 0 < r1 := by linarith
  have h3 : p * (r1 + r2) = 2 * (r1 * r2) := by linear_combination -r2 * t1 - r1 * t2
  by_contra hcon
  have : p * (r1 + r2) ≤ 4 * (r1 + r2) := mul_le_mul_of_nonneg_right (not_lt.mp hcon) (by linarith)
  linarith

/-- Polar orbits: the third root is below the second iff `N < 0`. -/
lemma polar_root_iff {a p e E Q r1 r2 r3 r4 : ℝ} (hA : a ^ 2 < 1) (he : 0 ≤ e) (he1 : e < 1)
    (hE : E ^ 2 < 1) (hr1 : r1 = p / (1 - e)) (hr2 : r2 = p / (1 + e))
    (hR : Spec.RadialRoots a E 0 Q r1 r2 r3 r4) (h21 : r2 ≤ r1) (h1 : 1 < r2) (h3 : 0 < r3) (h4 : 0 ≤ r4)
    (h42 : r4 < r2) : r3 < r2 ↔ N p (a ^ 2) e 1 < 0 := by
  have hZ : Spec.Zpol a E 0 Q 1 = 0 := by unfold Spec.Zpol; ring
  have hm := inner_product hE hR hZ
  obtain ⟨v1, v2, v3, -⟩ := RadialRoots.vieta hR
  obtain ⟨t1, t2, t3, t4, t5⟩ := pe_roots he he1 hr1 hr2
  have h1e : 0 < 1 - e := by linarith
  have hK : 0 < SepCert.K e := by unfold SepCert.K; positivity
  have hv : 0 < r1 * r2 - a ^ 2 := by nlinarith
  have hb : 1 - E ^ 2 ≠ 0 := by linarith
  rw [mul_one] at hm
  -- the third symmetric function
  have hs : r1 * r2 * (r3 + r4) + r3 * r4 * (r1 + r2)
      = 2 * (r1 * r2 + (r1 + r2) * (r3 + r4) + r3 * r4) - 4 * a ^ 2 + a ^ 2 * (r1 + r2 + r3 + r4) := by
    have : (1 - E ^ 2) * (r1 * r2 * (r3 + r4) + r3 * r4 * (r1 + r2)
      - (2 * (r1 * r2 + (r1 + r2) * (r3 + r4) + r3 * r4) - 4 * a ^ 2 + a ^ 2 * (r1 + r2 + r3 + r4))) = 0 := by
      linear_combination v3 - 2 * v2 - a ^ 2 * v1
    linarith [(mul_eq_zero.mp this).resolve_left hb]
  generalize a ^ 2 = A at *
  obtain ⟨d, hd⟩ : ∃ d, d = (r1 * r2 - A) * (r1 * r2 - 2 * (r1 + r2) - A)
    + A * (r1 + r2) * (r1 + r2 - 2) := ⟨_, rfl⟩
  have hS : (r3 + r4) * d = 2 * (r1 * r2 - A) ^ 2 := by
    rw [hd]; linear_combination (r1 * r2 - A) * hs - (r1 + r2 - 2) * hm
  have hd0 : 0 < d := by
    have : 0 < (r3 + r4) * d := by rw [hS]; positivity
    exact pos_of_mul_pos_right this (by linarith)
  have hN : N p A e 1 = SepCert.K e ^ 2 * (2 * (r1 * r2 - A) * (r2 * (r1 * r2 - A) - A * (r1 + r2))
      - d * (r2 ^ 2 + A)) := by
    have hB : B p A e 1 = SepCert.K e * (2 * (r1 * r2) + r2 ^ 2 - A) := by rw [B]; linear_combination t5
    have hD : D p A e 1 = SepCert.K e * (r1 * r2 ^ 2 - A * (r1 + 2 * r2)) := by
      rw [D]; linear_combination t4 - A * t3
    have hG : G p A e = SepCert.K e * (2 * (2 * (r1 * r2) + r2 ^ 2) - 4 * A + A * (r1 + 2 * r2) - r1 * r2 ^ 2) := by
      rw [G]; linear_combination 2 * t5 + A * t3 - t4
    have hH : H p A e = SepCert.K e * (2 * (r1 + 2 * r2) + A - (2 * (r1 * r2) + r2 ^ 2)) := by
      rw [H]; linear_combination 2 * t3 - t5
    rw [N, hB, hD, hG, hH, hd]; ring
  have key : (r1 * r2 - A) * (SepCert.K e ^ 2 * (d * ((r2 - r3) * (r2 - r4))) + N p A e 1) = 0 := by
    rw [hN]
    linear_combination (SepCert.K e ^ 2 * d) * hm + SepCert.K e ^ 2 * (-(r1 * r2 - A) * r2 + A * (r1 + r2)) * hS
  have key2 := (mul_eq_zero.mp key).resolve_left hv.ne'
  have hc : 0 < SepCert.K e ^ 2 * d * (r2 - r4) := mul_pos (by positivity) (by linarith)
  have e1 : N p A e 1 = -(SepCert.K e ^ 2 * d * (r2 - r4) * (r2 - r3)) := by linear_combination key2
  rw [e1, neg_lt_zero]
  constructor
  · intro h; exact mul_pos hc (by linarith)
  · intro h; linarith [pos_of_mul_pos_right h hc.le]

/-- The polynomial the code evaluates. -/
lemma SFull_form (p a e x : ℝ) : SFull p a e x
    = N p (a ^ 2) e (1 - x ^ 2) ^ 2 - 8 * a ^ 2 * (1 - (1 - x ^ 2))
      * (M1 p (a ^ 2) e (1 - x ^ 2) * M2 p (a ^ 2) e (1 - x ^ 2)) := by
  rw [SFull_eq]; ring

/-- Where the polynomial is negative below `p = 4`, the separatrix is below. -/
lemma sep_lt_of_neg {a p e x s : ℝ} (ha : 0 < a) (ha1 : a < 1) (he : 0 ≤ e) (he1 : e ≤ 1) (hx0 : 0 < x)
    (hx1 : x ≤ 1) (hp4 : p ≤ 4) (hpe : 1 + e ≤ p) (hv : IsSeparatrixValue a e x s)
    (hS : SFull p a e x < 0) : s < p := by
  have hA : a ^ 2 < 1 := by nlinarith
  have hx : x ^ 2 ≤ 1 := by nlinarith
  have hw : 0 ≤ 1 - x ^ 2 := by linarith
  have hw1 : 1 - x ^ 2 ≤ 1 := by linarith [sq_nonneg x]
  have h0 : 0 ≤ SFull (1 + e) a e x := by
    by_contra h
    rw [SFull_form] at h
    rcases eq_or_lt_of_le he1 with rfl | he1
    · have := SepParabola.outside (by positivity : 0 < a ^ 2) hA hw hw1 (by norm_num) (not_le.mp h)
      linarith
    · obtain ⟨-, h2, -⟩ := SepCurve.inner_geom (by positivity : 0 < a ^ 2) hA he he1 hw hw1 le_rfl (not_le.mp h)
      have : 0 < (1 + e) ^ 2 * (1 - a ^ 2) := mul_pos (by positivity) (by linarith)
      linarith
  obtain ⟨z, ⟨hz1, hz2⟩, hz⟩ := intermediate_value_Icc' hpe (continuous_SFull a e x).continuousOn
    (Set.mem_Icc.mpr ⟨hS.le, h0⟩)
  simp only at hz
  have hzp : z < p := by
    refine lt_of_le_of_ne hz2 ?_
    rintro rfl
    rw [hz] at hS; exact lt_irrefl _ hS
  by_contra hcon
  have hps := not_lt.mp hcon
  rcases le_or_gt s 4 with h4 | h4
  · have := SFull_neg_after ha ha1 he he1 hx hz1 (lt_of_lt_of_le hzp hps) h4 hz
    rw [hv.generic ha.ne'] at this
    exact lt_irrefl _ this
  · have hn := SFull_neg_after ha ha1 he he1 hx hz1 (lt_of_lt_of_le hzp hp4) le_rfl hz
    have hsq := ratio_sq_of_nonpos ha.le hA.le he he1 hx le_rfl hn.le
    have hc0 : 0 < 2 * √2 * a * x := by positivity
    have hle := (abs_le_of_sq_le_sq' hsq hc0.le).2
    have hanti := ratio_strictAnti (sq_nonneg a) hA.le he he1 hw hw1
    have hlt := hanti (Set.mem_Ici.mpr le_rfl) (Set.mem_Ici.mpr h4.le) h4
    simp only at hlt
    rw [ratio_separatrix ha ha1 he he1 hx0.ne' (by linarith) hx1 h4.le hv] at hlt
    linarith

/-- Schwarzschild: the third root. -/
lemma schwarzschild_third {p e E L Q r3 r4 : ℝ} (he : 0 ≤ e) (he1 : e < 1) (hE : E ^ 2 < 1) (hp : 0 < p)
    (hR : Spec.RadialRoots 0 E L Q (p / (1 - e)) (p / (1 + e)) r3 r4) (h3 : 0 < r3) :
    r3 < p / (1 + e) ↔ 6 + 2 * e < p := by
  obtain ⟨v1, v2, v3, v4⟩ := RadialRoots.vieta hR
  obtain ⟨r1, hr1⟩ : ∃ r, r = p / (1 - e) := ⟨_, rfl⟩
  obtain ⟨r2, hr2⟩ : ∃ r, r = p / (1 + e) := ⟨_, rfl⟩
  obtain ⟨t1, t2, -⟩ := pe_roots he he1 hr1 hr2
  have h1 : 0 < r1 := by rw [hr1]; exact div_pos hp (by linarith)
  have h2 : 0 < r2 := by rw [hr2]; exact div_pos hp (by linarith)
  rw [← hr1, ← hr2] at v1 v2 v3 v4
  rw [← hr2]
  have hb : 1 - E ^ 2 ≠ 0 := by linarith
  have h4 : r4 = 0 := by
    have : (1 - E ^ 2) * (r1 * r2 * r3) * r4 = 0 := by linear_combination v4
    exact (mul_eq_zero.mp this).resolve_left (mul_ne_zero hb (by positivity))
  subst h4
  have k : r1 * r2 * r3 = 2 * (r1 * r2 + (r1 + r2) * r3) := by
    have : (1 - E ^ 2) * (r1 * r2 * r3 - 2 * (r1 * r2 + (r1 + r2) * r3)) = 0 := by
      linear_combination v3 - 2 * v2
    linarith [(mul_eq_zero.mp this).resolve_left hb]
  have k2 : p * (r1 + r2) = 2 * (r1 * r2) := by linear_combination -r2 * t1 - r1 * t2
  have k3 : r3 * (p - 4) = 2 * p := by
    have : r1 * r2 * (r3 * (p - 4) - 2 * p) = 0 := by linear_combination p * k + 2 * r3 * k2
    have := (mul_eq_zero.mp this).resolve_left (by positivity)
    linarith
  have h4 : 0 < p - 4 := by
    have : 0 < r3 * (p - 4) := by rw [k3]; linarith
    exact pos_of_mul_pos_right this h3.le
  have k5 : (r2 - r3) * ((p - 4) * (1 + e)) = p * (p - (6 + 2 * e)) := by
    linear_combination (p - 4) * t2 - (1 + e) * k3
  have h5 : 0 < (p - 4) * (1 + e) := mul_pos h4 (by linarith)
  constructor
  · intro h
    have : 0 < p * (p - (6 + 2 * e)) := by rw [← k5]; exact mul_pos (by linarith) h5
    linarith [pos_of_mul_pos_right this hp.le]
  · intro h
    have : 0 < (r2 - r3) * ((p - 4) * (1 + e)) := by rw [k5]; exact mul_pos hp (by linarith)
    linarith [pos_of_mul_pos_left this h5.le]

lemma sign_eq_zero' {L : ℝ} (h : Real.sign L = Real.sign 0) : L = 0 := by
  rw [Real.sign_zero] at h; exact Real.sign_eq_zero_iff.mp h

/-- An accepted Schwarzschild orbit is stable, and conversely. -/
lemma stable_zero (rs : RootScalar) {p e x : ℝ} (he : 0 ≤ e) (he1 : e < 1) (hl : -1 ≤ x) (hr : x ≤ 1) :
    6 + 2 * e < p ↔ Spec.StableOrbit 0 p e x := by
  have hx : x ^ 2 ≤ 1 := by nlinarith
  have h2e : 0 < 1 + e := by linarith
  have hs0 : √(1 - (0:ℝ) ^ 2) = 1 := by norm_num
  constructor
  · intro h
    have hhor : 1 + √(1 - (0:ℝ) ^ 2) < p / (1 + e) := by
      rw [hs0, lt_div_iff₀ h2e]; linarith
    obtain ⟨s, hs, hv⟩ := C15_separatrix_returns rs 0 e x le_rfl one_pos he he1.le hl hr
    have hbo : Spec.BoundOrbit rs 0 p e x := by
      refine ⟨by norm_num, ⟨he, he1.le⟩, abs_le.mpr ⟨hl, hr⟩, s, ?_, by rw [hv.zero rfl]; exact h⟩
      have : Spec.signedX 0 x = x := by unfold Spec.signedX; simp
      rw [abs_zero, this]; exact hs
    obtain ⟨E, L, Q, hc, hE, hE1, hL1, hL2, hQ, hT⟩ := C07_turning rs p e x hbo he1.ne
    have hc' := C07_constants rs p e x hbo
    have hcc := Except.ok.inj (hc.symm.trans hc')
    simp only [Prod.mk.injEq] at hcc
    obtain ⟨-, eL, eQ⟩ := hcc
    have hE2 : E ^ 2 < 1 := by nlinarith
    obtain ⟨r1, r2, r3, r4, -, e1, e2, hR, h21, h2, h3, h4, -, -⟩ :=
      C08_bound rs 0 p e x E L Q (by norm_num) hE2 he he1 hhor hT
    subst e1 e2
    rw [hs0] at h3 h4
    refine ⟨hhor, E, L, Q, r3, r4, hE, hE1, ?_, hQ, ?_, hR, by linarith, ?_⟩
    · rcases lt_trichotomy x 0 with k | k | k
      · rw [Real.sign_of_neg k, Real.sign_of_neg (hL2 k)]
      · rw [eL, k]; simp
      · rw [Real.sign_of_pos k, Real.sign_of_pos (hL1 k)]
    · have hp3 : 0 < p - 3 - e ^ 2 := by nlinarith
      have hsq := Real.sq_sqrt hp3.le
      have hL : L ^ 2 = x ^ 2 * p ^ 2 / (p - 3 - e ^ 2) := by
        rw [eL, div_pow, hsq]; ring
      unfold Spec.Zpol
      rw [hL, eQ]
      field_simp; ring
    · exact (schwarzschild_third he he1 hE2 (by linarith) hR (by linarith)).mpr h
  · rintro ⟨hhor, E, L, Q, r3, r4, hE, hE1, hL, hQ, hZ, hR, h43, h32⟩
    have hE2 : E ^ 2 < 1 := by nlinarith
    obtain ⟨g3, g4, g5, hpe, h21, -⟩ := stable_geom (a := 0) (by norm_num) he he1 hx hhor hE2 hQ hZ hR h43 h32
    rw [hs0] at g3
    exact (schwarzschild_third he he1 hE2 (by linarith) hR (by linarith)).mp h32

/-- Polar orbits. -/
lemma stable_polar (rs : RootScalar) {a p e s : ℝ} (ha : 0 < a) (ha1 : a < 1) (he : 0 ≤ e) (he1 : e < 1)
    (hs : separatrix rs a e 0 = .ok s) (hv : IsSeparatrixValue a e 0 s) :
    s < p ↔ Spec.StableOrbit a p e 0 := by
  have hA : a ^ 2 < 1 := by nlinarith
  have hpl := polarLo_bounds.1
  have hs4 : 4 < s := by have := (hv.polar ha.ne' rfl).2.1; unfold polarLo at hpl; linarith
  have hx : (0:ℝ) ^ 2 ≤ 1 := by norm_num
  have hw : 1 - (0:ℝ) ^ 2 = 1 := by norm_num
  have hsn := Real.sqrt_nonneg (1 - a ^ 2)
  have hanti := ratio_strictAnti (sq_nonneg a) hA.le he he1.le (w := 1) zero_le_one le_rfl
  have hrs : ratio s (a ^ 2) e 1 = 0 := by
    have := (ratio_sq_of_zero ha.le hA.le he he1.le hx hs4.le).mp (hv.generic ha.ne')
    rw [mul_zero, hw] at this
    exact pow_eq_zero_iff two_ne_zero |>.mp (this.trans (by norm_num))
  have hiff : 4 < p → (s < p ↔ N p (a ^ 2) e 1 < 0) := by
    intro h4
    have h1 := hanti.lt_iff_gt (Set.mem_Ici.mpr h4.le) (Set.mem_Ici.mpr hs4.le)
    simp only [hrs] at h1
    rw [← h1]
    have n1 := M1_pos h4.le (sq_nonneg a) hA.le he he1.le zero_le_one le_rfl
    have n2 := M2_pos h4.le (sq_nonneg a) hA.le he he1.le zero_le_one le_rfl
    have h0 := Real.sqrt_pos.mpr (mul_pos n1 n2)
    unfold ratio
    constructor
    · intro h
      by_contra hcon
      exact absurd h (not_lt.mpr (div_nonneg (not_lt.mp hcon) h0.le))
    · intro h; exact div_neg_of_neg_of_pos h h0
  constructor
  · intro h
    have h4 : 4 < p := by linarith
    have hhor : 1 + √(1 - a ^ 2) < p / (1 + e) := by
      have hsq := Real.sqrt_le_one.mpr (show 1 - a ^ 2 ≤ 1 by nlinarith)
      rw [lt_div_iff₀ (by linarith)]; nlinarith
    have hbo : Spec.BoundOrbit rs a p e 0 := by
      refine ⟨by rwa [abs_of_pos ha], ⟨he, he1.le⟩, by norm_num, s, ?_, h⟩
      have : Spec.signedX a 0 = 0 := by unfold Spec.signedX; simp
      rw [abs_of_pos ha, this]; exact hs
    obtain ⟨E, Q, -, hE, hE1, hQ, hT⟩ := C06_polar_exact rs a p e hbo he1.ne
    have hE2 : E ^ 2 < 1 := by nlinarith
    obtain ⟨r1, r2, r3, r4, -, e1, e2, hR, h21, h2, h3, h4', hr4, -⟩ :=
      C08_bound rs a p e 0 E 0 Q hA.le hE2 he he1 hhor hT
    have hlt := (polar_root_iff hA he he1 hE2 e1 e2 hR h21 (by linarith) (by linarith) (hr4 hQ.le)
      (by linarith)).mpr ((hiff h4).mp h)
    subst e1 e2
    refine ⟨hhor, E, 0, Q, r3, r4, hE, hE1, rfl, hQ.le, by unfold Spec.Zpol; ring, hR, by linarith, hlt⟩
  · rintro ⟨hhor, E, L, Q, r3, r4, hE, hE1, hL, hQ, hZ, hR, h43, h32⟩
    have hE2 : E ^ 2 < 1 := by nlinarith
    obtain rfl := sign_eq_zero' hL
    have h4 := stable_four hA he he1 hx hhor hE hE2 hQ (by simp) hZ hR h43 h32
    obtain ⟨g3, g4, g5, hpe, h21, -⟩ := stable_geom hA he he1 hx hhor hE2 hQ hZ hR h43 h32
    exact (hiff h4).mpr ((polar_root_iff hA he he1 hE2 rfl rfl hR h21 (by linarith) (by linarith) g4
      (by linarith)).mp h32)

/-- Inclined and equatorial Kerr orbits. -/
lemma stable_kerr (rs : RootScalar) {a p e x s : ℝ} (ha : 0 < a) (ha1 : a < 1) (he : 0 ≤ e) (he1 : e < 1)
    (hx0 : x ≠ 0) (hl : -1 ≤ x) (hr : x ≤ 1)
    (hs : separatrix rs a e x = .ok s) (hv : IsSeparatrixValue a e x s) :
    s < p ↔ Spec.StableOrbit a p e x := by
  have hA : a ^ 2 < 1 := by nlinarith
  have hx : x ^ 2 ≤ 1 := by nlinarith
  have hsn := Real.sqrt_nonneg (1 - a ^ 2)
  constructor
  · intro h
    obtain ⟨E, L, hX⟩ := accepted_exists ha ha1 he he1 hx0 hl hr hv h
    obtain ⟨-, -, hhor, -⟩ := accepted_geom ha ha1 he he1 hx0 hl hr hv h
    obtain ⟨r1, r2, r3, r4, -, hE1, hQ, rfl, rfl, hR, h32, -, -, h3, h4⟩ :=
      stable_of_consts (rs := rs) ha ha1 he he1 hx0 hl hr hv h hX
    have := hX.energy_pos
    refine ⟨hhor, E, L, _, r3, r4, hX.energy_pos, by nlinarith, (sign_mul_pos hx0).mp hX.sign, hQ, ?_, hR,
      by linarith, h32⟩
    rw [carterFormula_eq hx]; unfold Spec.Zpol; field_simp; ring
  · rintro ⟨hhor, E, L, Q, r3, r4, hE, hE1, hL, hQ, hZ, hR, h43, h32⟩
    have hE2 : E ^ 2 < 1 := by nlinarith
    have hL' := (sign_mul_pos hx0).mpr hL
    rcases lt_or_ge 4 p with h4 | h4
    · have hX := Schmidt.exact_kerr ha ha1.le h4 he he1 hx0 hx rfl rfl
      have hQ' := carter_of_zpol hx hx0 hZ
      obtain ⟨rfl, rfl⟩ := Schmidt.unique ha ha1.le h4 he he1 hx0 hx hE hL' (hQ' ▸ RadialRoots.turning hR)
        hX.energy_pos hX.sign hX.turning
      refine sep_of_ratio ha ha1 he he1.le hx0 hl hr h4 hs ?_
      exact (Schmidt.below_star_iff ha ha1.le h4 he he1 hx0 hx hX).mp
        ((third_root_iff hA (by linarith) he he1 hx hE2 rfl rfl hR hZ (by linarith)).mp h32)
    · rcases lt_or_gt_of_ne hx0 with hneg | hpos
      · rw [Real.sign_of_neg hneg] at hL'
        have := stable_four hA he he1 hx hhor hE hE2 hQ (mul_nonpos_of_nonneg_of_nonpos ha.le (by linarith))
          hZ hR h43 h32
        linarith
      · rw [Real.sign_of_pos hpos, one_mul] at hL'
        have hS := stable_inner ha ha1 he he1 hpos hr h4 hhor hE hE2 hL' hQ hZ hR h43 h32
        rw [← SFull_form] at hS
        obtain ⟨-, -, -, hpe, -⟩ := stable_geom hA he he1 hx hhor hE2 hQ hZ hR h43 h32
        exact sep_lt_of_neg ha ha1 he he1.le hpos hr h4 hpe hv hS

/-- **C16.** `is_stable` decides whether there is a stable bound orbit with these turning points and
inclination, for every accepted `a`, `e`, `x` with `e < 1` and every real `p`. -/
theorem C16_exact (rs : RootScalar) (a p e x : ℝ) (ha : 0 ≤ a) (ha1 : a < 1) (he : 0 ≤ e) (he1 : e < 1)
    (hl : -1 ≤ x) (hr : x ≤ 1) :
    (isStable rs a p e x = .ok true ↔ Spec.StableOrbit a p e x)
      ∧ (isStable rs a p e x = .ok false ↔ ¬ Spec.StableOrbit a p e x) := by
  obtain ⟨s, hs, hv⟩ := C15_separatrix_returns rs a e x ha ha1 he he1.le hl hr
  have hiff := (C16_threshold rs a e x).2.1 p s hs
  have hiff' : isStable rs a p e x = .ok true ↔ Spec.StableOrbit a p e x := by
    rw [hiff]
    rcases eq_or_lt_of_le ha with h0 | h0
    · subst h0
      rw [hv.zero rfl]
      exact stable_zero rs he he1 hl hr
    · by_cases hx0 : x = 0
      · subst hx0; exact stable_polar rs h0 ha1 he he1 hs hv
      · exact stable_kerr rs h0 ha1 he he1 hx0 hl hr hs hv
  refine ⟨hiff', ?_⟩
  rw [← hiff']
  obtain ⟨b, hb⟩ := (C16_contract rs a p e x).1.mpr ⟨⟨ha, ha1⟩, ⟨he, he1.le⟩, hl, hr⟩
  rw [hb]
  cases b <;> simp

/-- Every stable orbit is accepted. -/
lemma bound_of_stable (rs : RootScalar) {a p e x : ℝ} (ha : 0 ≤ a) (ha1 : a < 1) (he : 0 ≤ e) (he1 : e < 1)
    (hx : |x| ≤ 1) (h : Spec.StableOrbit a p e x) : Spec.BoundOrbit rs a p e x := by
  obtain ⟨hl, hr⟩ := abs_le.mp hx
  obtain ⟨s, hs, -⟩ := C15_separatrix_returns rs a e x ha ha1 he he1.le hl hr
  have h1 := (C16_exact rs a p e x ha ha1 he he1 hl hr).1.mpr h
  have h2 := ((C16_threshold rs a e x).2.1 p s hs).mp h1
  refine ⟨by rwa [abs_of_nonneg ha], ⟨he, he1.le⟩, hx, s, ?_, h2⟩
  have : Spec.signedX a x = x := by unfold Spec.signedX; rw [if_neg (not_lt.mpr ha)]
  rw [abs_of_nonneg ha, this]; exact hs

/-- Non-vacuity of C16 (exactness): both answers occur. -/
example : Spec.StableOrbit (1 / 2) 13 (1 / 2) (1 / 3) ∧ ¬ Spec.StableOrbit (1 / 2) 5 (1 / 2) (-1 / 3) := by
  have hpl := polarLo_bounds.1
  constructor
  · refine (C16_exact exampleRS _ _ _ _ (by norm_num) (by norm_num) (by norm_num) (by norm_num) (by norm_num)
      (by norm_num)).1.mp ?_
    obtain ⟨s, hs, hv⟩ := C15_separatrix_returns exampleRS (1 / 2) (1 / 2) (1 / 3) (by norm_num) (by norm_num)
      (by norm_num) (by norm_num) (by norm_num) (by norm_num)
    refine ((C16_threshold _ _ _ _).2.1 _ _ hs).mpr ?_
    obtain ⟨pe, pp, h1, h2, h3, h4, h5, h6, h7, h8⟩ := hv.generic_prograde (by norm_num) (by norm_num)
      (by norm_num)
    linarith
  · rw [← (C16_exact exampleRS _ _ _ _ (by norm_num) (by norm_num) (by norm_num) (by norm_num) (by norm_num)
      (by norm_num)).1]
    obtain ⟨s, hs, hv⟩ := C15_separatrix_returns exampleRS (1 / 2) (1 / 2) (-1 / 3) (by norm_num)
      (by norm_num) (by norm_num) (by norm_num) (by norm_num) (by norm_num)
    rw [(C16_threshold _ _ _ _).2.1 _ _ hs]
    obtain ⟨pp, h1, h2, h3, h4⟩ := hv.generic_retrograde (by norm_num) (by norm_num) (by norm_num)
    unfold polarLo at hpl
    linarith

end KGP
