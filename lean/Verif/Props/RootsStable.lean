import Verif.Props.Api
import Verif.Lemmas.Radial

/-!
# C05, C08, C09: the Carter constant, the radial and polar roots, and the inverse map
-/

namespace KGP

open Classical Real

/-! ## C05 -/

lemma carterFormula_eq {a x E L : ℝ} (hx : x ^ 2 ≤ 1) :
    carterFormula a x E L = (1 - x ^ 2) * (a ^ 2 * (1 - E ^ 2) + L ^ 2 / x ^ 2) := by
  have h : √(1 - x ^ 2) ^ 2 = 1 - x ^ 2 := Real.sq_sqrt (by linarith)
  simp only [carterFormula, h]
  congr 3
  ring

lemma Zpol_carter {a x E L : ℝ} (hx : x ^ 2 ≤ 1) (hx0 : x ≠ 0) :
    Spec.Zpol a E L (carterFormula a x E L) (1 - x ^ 2) = 0 := by
  rw [carterFormula_eq hx, Spec.Zpol]
  field_simp
  ring

lemma guard_bind_ok_iff {α : Type} {g : Py Unit} {v w : α} :
    (g >>= fun _ => (.ok v : Py α)) = .ok w ↔ g = .ok () ∧ v = w := by
  cases g with
  | error er => simp [bind_error]
  | ok u => simp [bind_ok]

lemma sx_sq (a x : ℝ) : sx a x ^ 2 = x ^ 2 := by
  rw [sx_eq]; unfold Spec.signedX; split_ifs <;> ring

lemma sx_ne_zero {a x : ℝ} : sx a x ≠ 0 ↔ x ≠ 0 := by
  rw [sx_eq, Ne, signedX_eq_zero]

lemma sa_sq (a : ℝ) : sa a ^ 2 = a ^ 2 := sq_abs a

lemma Zpol_sa (a E L Q z : ℝ) : Spec.Zpol (sa a) E L Q z = Spec.Zpol a E L Q z := by
  simp only [Spec.Zpol, sa_sq]

/-- **C05.** Whenever `constants_of_motion` returns for a non-polar orbit, the inclination is encoded
in the constants: `z = 1 - x²` is a root of the polar potential. -/
theorem C05_inclination_root (rs : RootScalar) (a p e x E L Q : ℝ) (hx : x ≠ 0)
    (h : constantsOfMotion rs a p e x = .ok (E, L, Q)) :
    Spec.Zpol a E L Q (1 - x ^ 2) = 0 := by
  rw [constantsOfMotion_eq, guard_bind_ok_iff, constantsGuard_iff] at h
  obtain ⟨hb, hv⟩ := h
  have hx1 : x ^ 2 ≤ 1 := by rw [← sq_abs]; nlinarith [hb.2.2.1, abs_nonneg x]
  have hsx := sx_ne_zero (a := a).mpr hx
  simp only [pureConsts, if_neg hsx, Prod.mk.injEq] at hv
  obtain ⟨hE, hL, hQ⟩ := hv
  have := Zpol_carter (a := sa a) (x := sx a x) (E := E) (L := L) (by rw [sx_sq]; exact hx1) hsx
  rw [hE] at hL hQ
  rw [hL] at hQ
  rw [hQ, Zpol_sa, sx_sq] at this
  exact this

/-- **C05 (roots).** `stable_polar_roots` returns both roots of the polar potential (for any triple of
constants for which `1 - x²` is a root, in particular those of `constants_of_motion`). -/
theorem C05_polar_roots (rs : RootScalar) (a p e x E L Q : ℝ) (ha : a ≠ 0) (_hL : L ≠ 0)
    (hE : E ^ 2 ≠ 1) (hx : x ≠ 0) (hroot : Spec.Zpol a E L Q (1 - x ^ 2) = 0) :
    ∃ zm zp, stablePolarRoots rs a p e x (some (E, L, Q)) = .ok (zm, zp)
      ∧ zm = 1 - x ^ 2 ∧ Spec.PolarRoots a E L Q zm zp := by
  refine ⟨_, _, rfl, rfl, ?_⟩
  intro z
  simp only [if_neg ha]
  have hb : 1 - E ^ 2 ≠ 0 := sub_ne_zero.mpr (Ne.symm hE)
  have hxx : 1 - (1 - x ^ 2) = x ^ 2 := by ring
  rw [hxx]
  have hzp : 1 + 1 / (a ^ 2 * (1 - E ^ 2) / L ^ 2 * x ^ 2) = 1 + L ^ 2 / (a ^ 2 * (1 - E ^ 2) * x ^ 2) := by
    field_simp
  rw [hzp]
  simp only [Spec.Zpol] at hroot ⊢
  have hQ : Q * x ^ 2 = (1 - x ^ 2) * (a ^ 2 * (1 - E ^ 2) * x ^ 2 + L ^ 2) := by
    linear_combination hroot
  obtain ⟨b, hbd⟩ : ∃ b, b = 1 - E ^ 2 := ⟨_, rfl⟩
  rw [← hbd] at hb hQ ⊢
  have hQ' : Q = (1 - x ^ 2) * (a ^ 2 * b * x ^ 2 + L ^ 2) / x ^ 2 := by
    field_simp; linarith
  rw [hQ']
  field_simp
  ring

/-- Non-vacuity of C05: the orbit `a = 9/10, p = 13, e = 1/2, x = 1/3` is accepted. -/
example (rs : RootScalar) : ∃ E L Q, constantsOfMotion rs (9 / 10) 13 (1 / 2) (1 / 3) = .ok (E, L, Q)
    ∧ Spec.Zpol (9 / 10) E L Q (1 - (1 / 3) ^ 2) = 0 := by
  have hb : Spec.BoundOrbit rs (9 / 10) 13 (1 / 2) (1 / 3) :=
    C11_accepts_wide _ _ _ _ _ (by norm_num [abs_lt]) (by norm_num) (by norm_num)
      (by norm_num [abs_le]) (by norm_num)
  obtain ⟨⟨E, L, Q⟩, hv⟩ := (C11_constants_contract rs (9 / 10) 13 (1 / 2) (1 / 3) none none).2.2.2.1.mpr hb
  exact ⟨E, L, Q, hv, C05_inclination_root rs _ _ _ _ _ _ _ (by norm_num) hv⟩

/-! ## C08 -/

/-- **C08.** If `p/(1-e)` and `p/(1+e)` are the turning points, the four numbers returned by
`stable_radial_roots` are the roots of the radial potential with multiplicity, as soon as the
discriminant is non-negative and the third root is not zero. -/
theorem C08_factorisation (rs : RootScalar) (a p e x E L Q : ℝ) (hE : E ^ 2 ≠ 1) (hp : p ≠ 0)
    (he1 : e ≠ 1) (he2 : e ≠ -1) (h : Spec.TurningPoints a E L Q p e) :
    let S := 2 / (1 - E ^ 2) - p / (1 - e) - p / (1 + e)
    let P := a ^ 2 * Q / (p / (1 - e) * (p / (1 + e)) * (1 - E ^ 2))
    0 ≤ S ^ 2 - 4 * P → S + √(S ^ 2 - 4 * P) ≠ 0 →
    ∃ r3 r4, stableRadialRoots rs a p e x (some (E, L, Q)) = .ok (p / (1 - e), p / (1 + e), r3, r4)
      ∧ Spec.RadialRoots a E L Q (p / (1 - e)) (p / (1 + e)) r3 r4 := by
  intro S P hd h3
  refine ⟨_, _, rfl, ?_⟩
  intro r
  rw [R_cofactor hE hp he1 he2 h]
  show (1 - E ^ 2) * (p / (1 - e) - r) * (r - p / (1 + e)) * (r ^ 2 - S * r + P)
    = (1 - E ^ 2) * (p / (1 - e) - r) * (r - p / (1 + e)) * (r - (S + √(S ^ 2 - 4 * P)) / 2)
      * (r - P / ((S + √(S ^ 2 - 4 * P)) / 2))
  clear_value S P
  obtain ⟨s, hs⟩ : ∃ s, s = √(S ^ 2 - 4 * P) := ⟨_, rfl⟩
  have hs2 : s ^ 2 = S ^ 2 - 4 * P := by rw [hs]; exact Real.sq_sqrt hd
  have hr4 : P / ((S + s) / 2) = (S - s) / 2 := by
    rw [← hs] at h3
    rw [div_div_eq_mul_div, div_eq_iff h3]
    linear_combination (1 / 2) * hs2
  rw [← hs, hr4]
  have : (r - (S + s) / 2) * (r - (S - s) / 2) = r ^ 2 - S * r + P := by
    linear_combination (-1 / 4) * hs2
  rw [mul_assoc _ (r - (S + s) / 2), this]

/-- **C08 (bound orbits).** For a bound orbit (`E² < 1`) whose periastron `p/(1+e)` is outside the
event horizon the discriminant condition always holds: `stable_radial_roots` returns all four roots of
`R`, with `r1 ≥ r2` outside the horizon, `r3` at or outside it and `r4` at or inside the inner one; and
if the particle can move between the turning points (`R ≥ 0` there, `e ≠ 0`) then `r2 ≥ r3`: the
documented decreasing order. -/
theorem C08_bound (rs : RootScalar) (a p e x E L Q : ℝ) (ha : a ^ 2 ≤ 1) (hE : E ^ 2 < 1)
    (he : 0 ≤ e) (he1 : e < 1) (hp : 1 + √(1 - a ^ 2) < p / (1 + e))
    (h : Spec.TurningPoints a E L Q p e) :
    ∃ r1 r2 r3 r4, stableRadialRoots rs a p e x (some (E, L, Q)) = .ok (r1, r2, r3, r4)
      ∧ r1 = p / (1 - e) ∧ r2 = p / (1 + e)
      ∧ Spec.RadialRoots a E L Q r1 r2 r3 r4
      ∧ r2 ≤ r1 ∧ 1 + √(1 - a ^ 2) < r2 ∧ 1 + √(1 - a ^ 2) ≤ r3 ∧ r4 ≤ 1 - √(1 - a ^ 2)
      ∧ (0 ≤ Q → 0 ≤ r4)
      ∧ (e ≠ 0 → (∀ r, r2 ≤ r → r ≤ r1 → 0 ≤ Spec.R a E L Q r) → r3 ≤ r2) := by
  have hsq := Real.sqrt_nonneg (1 - a ^ 2)
  have hpos : 0 < p / (1 + e) := by linarith
  have hp0 : 0 < p := by
    have := mul_pos hpos (show 0 < 1 + e by linarith)
    rwa [div_mul_cancel₀ _ (by linarith : (1 + e) ≠ 0)] at this
  have hr21 : p / (1 + e) ≤ p / (1 - e) :=
    div_le_div_of_nonneg_left hp0.le (by linarith) (by linarith)
  have hb : 0 < 1 - E ^ 2 := by linarith
  have hfac := fun r => R_cofactor hE.ne hp0.ne' he1.ne (by linarith : e ≠ -1) h r
  have key := C08_factorisation rs a p e x E L Q hE.ne hp0.ne' he1.ne (by linarith) h
  obtain ⟨S, hS⟩ : ∃ S, S = 2 / (1 - E ^ 2) - p / (1 - e) - p / (1 + e) := ⟨_, rfl⟩
  obtain ⟨P, hP⟩ : ∃ P, P = a ^ 2 * Q / (p / (1 - e) * (p / (1 + e)) * (1 - E ^ 2)) := ⟨_, rfl⟩
  rw [← hS, ← hP] at hfac
  simp only [← hS, ← hP] at key
  generalize hr1 : p / (1 - e) = r1 at *
  generalize hr2 : p / (1 + e) = r2 at *
  -- the cofactor is non-positive at both horizons
  have hneg : ∀ rh, Spec.Delta a rh = 0 → rh < r2 → rh ^ 2 - S * rh + P ≤ 0 := by
    intro rh hD hlt
    have h1 := R_horizon_nonneg (E := E) (L := L) (Q := Q) hD
    rw [hfac] at h1
    have h2 : 0 < (1 - E ^ 2) * (r1 - rh) * (r2 - rh) :=
      mul_pos (mul_pos hb (by linarith)) (by linarith)
    by_contra hc
    push Not at hc
    nlinarith [mul_pos h2 hc]
  have hplus := hneg _ (Delta_rPlus ha) hp
  have hminus := hneg _ (Delta_rMinus ha) (by linarith)
  generalize hrp : 1 + √(1 - a ^ 2) = rp at *
  generalize hrm : 1 - √(1 - a ^ 2) = rm at *
  have hrp1 : 1 ≤ rp := by linarith
  have hrmp : rm ≤ rp := by linarith
  have hd : 0 ≤ S ^ 2 - 4 * P := by nlinarith [sq_nonneg (2 * rp - S)]
  obtain ⟨s, hs⟩ : ∃ s, s = √(S ^ 2 - 4 * P) := ⟨_, rfl⟩
  have hs2 : s ^ 2 = S ^ 2 - 4 * P := by rw [hs]; exact Real.sq_sqrt hd
  have hs0 : 0 ≤ s := by rw [hs]; exact Real.sqrt_nonneg _
  have hbound : ∀ z, z ^ 2 - S * z + P ≤ 0 → (S - s) / 2 ≤ z ∧ z ≤ (S + s) / 2 := by
    intro z hz
    have : (2 * z - S) ^ 2 ≤ s ^ 2 := by rw [hs2]; nlinarith
    have := abs_le_of_sq_le_sq' this hs0
    constructor <;> linarith [this.1, this.2]
  have hp' := hbound _ hplus
  have hm' := hbound _ hminus
  have hSs : 0 < S + s := by linarith
  obtain ⟨r3, r4, hcall, hroots⟩ := key hd (by rw [← hs]; exact hSs.ne')
  have hval : (r1, r2, (S + s) / 2, P / ((S + s) / 2)) = (r1, r2, r3, r4) := by
    have : stableRadialRoots rs a p e x (some (E, L, Q))
        = .ok (r1, r2, (S + s) / 2, P / ((S + s) / 2)) := by
      rw [hs, hS, hP, ← hr1, ← hr2]; rfl
    rw [this] at hcall
    exact Except.ok.inj hcall
  simp only [Prod.mk.injEq, true_and] at hval
  obtain ⟨hr3, hr4⟩ := hval
  have hr4' : r4 = (S - s) / 2 := by
    rw [← hr4, div_div_eq_mul_div, div_eq_iff hSs.ne']; linear_combination (1 / 2) * hs2
  refine ⟨r1, r2, r3, r4, hcall, rfl, rfl, hroots, hr21, hp, by rw [← hr3]; exact hp'.2,
    by rw [hr4']; exact hm'.1, ?_, ?_⟩
  · intro hQ
    rw [← hr4, hP]
    have : 0 < r1 := lt_of_lt_of_le hpos hr21
    positivity
  · intro he0 hR
    by_contra hc
    push Not at hc
    have hlt : r2 < r1 := by
      rw [← hr1, ← hr2]
      have : 0 < e := lt_of_le_of_ne he (Ne.symm he0)
      exact div_lt_div_of_pos_left hp0 (by linarith) (by linarith)
    obtain ⟨z, hz1, hz2⟩ := exists_between (lt_min hlt hc)
    have h1 := hR z hz1.le (hz2.le.trans (min_le_left _ _))
    rw [hroots] at h1
    have e1 : 0 < r1 - z := by linarith [min_le_left r1 r3]
    have e2 : z - r3 < 0 := by linarith [min_le_right r1 r3]
    have e3 : 0 < z - r4 := by rw [hr4']; linarith [hm'.1]
    have h2 : 0 < (1 - E ^ 2) * (r1 - z) * (z - r2) * (z - r4) :=
      mul_pos (mul_pos (mul_pos hb e1) (by linarith)) e3
    nlinarith [mul_pos h2 (neg_pos.mpr e2)]

/-! ## C09 -/

/-- Vieta's formulas for the radial potential. -/
lemma RadialRoots.vieta {a E L Q r1 r2 r3 r4 : ℝ} (h : Spec.RadialRoots a E L Q r1 r2 r3 r4) :
    (1 - E ^ 2) * (r1 + r2 + r3 + r4) = 2
    ∧ (1 - E ^ 2) * (r1 * r2 + r1 * r3 + r1 * r4 + r2 * r3 + r2 * r4 + r3 * r4)
        = a ^ 2 * (1 - E ^ 2) + L ^ 2 + Q
    ∧ (1 - E ^ 2) * (r1 * r2 * r3 + r1 * r2 * r4 + r1 * r3 * r4 + r2 * r3 * r4)
        = 2 * ((L - a * E) ^ 2 + Q)
    ∧ (1 - E ^ 2) * (r1 * r2 * r3 * r4) = a ^ 2 * Q := by
  have k0 := h 0
  have k1 := h 1
  have k2 := h (-1)
  have k3 := h 2
  have k4 := h (-2)
  simp only [R_expand] at k0 k1 k2 k3 k4
  refine ⟨?_, ?_, ?_, ?_⟩
  · linear_combination (-1 / 12) * k3 + (1 / 12) * k4 + (1 / 6) * k1 - (1 / 6) * k2
  · linear_combination (1 / 2) * k1 + (1 / 2) * k2 - k0
  · linear_combination (-2 / 3) * k1 + (2 / 3) * k2 + (1 / 12) * k3 - (1 / 12) * k4
  · linear_combination k0

/-- **C09.** `apex_from_constants` recovers the orbital parameters: if the radial potential has the
ordered roots `r4 ≤ r3 ≤ p/(1+e) ≤ p/(1-e)`, the polar one has the root `1 - x²`, and `L` has the sign of
`x`, then it returns exactly `(a, p, e, x)`. -/
theorem C09_apex_inverse (a p e x E L Q r3 r4 : ℝ) (hE : E ^ 2 < 1) (hp : 0 < p) (he : 0 ≤ e)
    (he1 : e < 1) (hx : |x| ≤ 1) (h43 : r4 ≤ r3) (h32 : r3 ≤ p / (1 + e))
    (hR : Spec.RadialRoots a E L Q (p / (1 - e)) (p / (1 + e)) r3 r4)
    (hZ : Spec.Zpol a E L Q (1 - x ^ 2) = 0) (hL : Real.sign L = Real.sign x) :
    apexFromConstants a E L Q = .ok (a, p, e, x) := by
  have hm : 0 < 1 - e := by linarith
  have hpl : 0 < 1 + e := by linarith
  have hb : 0 < 1 - E ^ 2 := by linarith
  have hx2 : x ^ 2 ≤ 1 := by rw [← sq_abs]; nlinarith [abs_nonneg x]
  have hr21 : p / (1 + e) ≤ p / (1 - e) :=
    div_le_div_of_nonneg_left hp.le (by linarith) (by linarith)
  have hrad : radialRootsNumpy a E L Q = .ok (r4, r3, p / (1 + e), p / (1 - e)) := by
    have := npRoots_radial_real (a := a) (E := E) (L := L) (Q := Q) (lead := -(1 - E ^ 2))
      (s0 := r4) (s1 := r3) (s2 := p / (1 + e)) (s3 := p / (1 - e)) (by linarith)
      (fun r => by rw [hR]; ring) h43 h32 hr21
    rw [radialRootsNumpy, this]
    simp [-Complex.ofReal_div]
  -- the first polar root returned gives back x
  have hpol : ∃ zm zp, polarRootsNumpy a E L Q = .ok (zm, zp)
      ∧ Real.sign L * √(1 - zm) = x := by
    have hfin : ∀ zm, (x ≠ 0 → zm = 1 - x ^ 2) → Real.sign L * √(1 - zm) = x := by
      intro zm hz
      by_cases hx0 : x = 0
      · rw [hL, hx0, Real.sign_zero, zero_mul]
      · rw [hL, hz hx0, show 1 - (1 - x ^ 2) = x ^ 2 by ring, Real.sqrt_sq_eq_abs]
        rcases lt_or_gt_of_ne hx0 with h | h
        · rw [Real.sign_of_neg h, abs_of_neg h]; ring
        · rw [Real.sign_of_pos h, abs_of_pos h]; ring
    have hLx : x ≠ 0 → L ≠ 0 := by
      intro hx0 hL0
      rw [hL0, Real.sign_zero] at hL
      exact hx0 (Real.sign_eq_zero_iff.mp hL.symm)
    by_cases ha : a = 0
    · -- linear polynomial
      have hV := RadialRoots.vieta hR
      rw [ha] at hV
      have hLQ : Q + L ^ 2 ≠ 0 := by
        intro h0
        obtain ⟨-, v2, v3, v4⟩ := hV
        have hr1 : 0 < p / (1 - e) := div_pos hp hm
        have hr2 : 0 < p / (1 + e) := div_pos hp hpl
        generalize p / (1 - e) = r1 at *
        generalize p / (1 + e) = r2 at *
        have h34 : r3 * r4 = 0 := by
          have : (1 - E ^ 2) * (r1 * r2) * (r3 * r4) = 0 := by linear_combination v4
          exact (mul_eq_zero.mp this).resolve_left (by positivity)
        have hsum : r3 + r4 = 0 := by
          have : (1 - E ^ 2) * (r1 * r2) * (r3 + r4) = 0 := by
            linear_combination v3 + 2 * h0 - (1 - E ^ 2) * (r1 + r2) * h34
          exact (mul_eq_zero.mp this).resolve_left (by positivity)
        have : (1 - E ^ 2) * (r1 * r2) = 0 := by
          linear_combination v2 + h0 - (1 - E ^ 2) * (r1 + r2) * hsum - (1 - E ^ 2) * h34
        exact absurd this (by positivity)
      have hlin : npRoots (polarPoly a E L Q) = [((Q / (Q + L ^ 2) : ℝ) : ℂ)] := by
        apply npRoots_polar_linear (lead := -(Q + L ^ 2)) (neg_ne_zero.mpr hLQ)
        intro z
        rw [Spec.Zpol, ha]; field_simp; ring
      refine ⟨Q / (Q + L ^ 2), Q / (Q + L ^ 2), ?_, hfin _ ?_⟩
      · rw [polarRootsNumpy, hlin]; simp [ha, -Complex.ofReal_div]
      · intro _
        rw [Spec.Zpol, ha] at hZ
        rw [div_eq_iff hLQ]; linear_combination hZ
    · have ha2 : 0 < a ^ 2 := by positivity
      have hlead : a ^ 2 * (1 - E ^ 2) ≠ 0 := by positivity
      obtain ⟨c, hc⟩ : ∃ c, c = (Q + a ^ 2 * (1 - E ^ 2) + L ^ 2) / (a ^ 2 * (1 - E ^ 2))
        - (1 - x ^ 2) := ⟨_, rfl⟩
      have hfac : ∀ z, Spec.Zpol a E L Q z
          = a ^ 2 * (1 - E ^ 2) * ((z - (1 - x ^ 2)) * (z - c)) := by
        intro z
        have hc' : a ^ 2 * (1 - E ^ 2) * c = Q + a ^ 2 * (1 - E ^ 2) + L ^ 2
            - a ^ 2 * (1 - E ^ 2) * (1 - x ^ 2) := by
          rw [hc]; field_simp
        simp only [Spec.Zpol] at hZ ⊢
        linear_combination hZ + (z - (1 - x ^ 2)) * hc'
      have hsorted : ∃ zm zp, npRoots (polarPoly a E L Q) = [((zm : ℝ) : ℂ), ((zp : ℝ) : ℂ)]
          ∧ (x ≠ 0 → zm = 1 - x ^ 2) := by
        rcases le_total (1 - x ^ 2) c with hle | hle
        · exact ⟨_, _, npRoots_polar_real hlead hfac hle, fun _ => rfl⟩
        · refine ⟨c, 1 - x ^ 2, npRoots_polar_real hlead (fun z => by rw [hfac]; ring) hle, ?_⟩
          intro hx0
          exfalso
          have h1 := hfac 1
          have hL0 := hLx hx0
          have hneg : Spec.Zpol a E L Q 1 = - L ^ 2 := by rw [Spec.Zpol]; ring
          rw [hneg] at h1
          have hx2' : 0 < x ^ 2 := by positivity
          have : 0 < a ^ 2 * (1 - E ^ 2) * ((1 - (1 - x ^ 2)) * (1 - c)) :=
            mul_pos (by positivity) (mul_pos (by linarith) (by linarith))
          have : 0 < L ^ 2 := by positivity
          linarith
      obtain ⟨zm, zp, hz, hzx⟩ := hsorted
      refine ⟨zm, zp, ?_, hfin _ hzx⟩
      rw [polarRootsNumpy, hz]; simp [ha]
  obtain ⟨zm, zp, hz, hzx⟩ := hpol
  simp only [apexFromConstants, hrad, hz, bind_ok, hzx]
  have e1 : 2 * (p / (1 - e)) * (p / (1 + e)) / (p / (1 - e) + p / (1 + e)) = p := by
    field_simp; ring
  have e2 : (p / (1 - e) - p / (1 + e)) / (p / (1 - e) + p / (1 + e)) = e := by
    field_simp; ring
  rw [e1, e2]
  rfl

/-- **C09 (object).** Hence `StableOrbit.from_constants` builds the orbit `StableOrbit(a, p, e, x)`. -/
theorem C09_from_constants (rs : RootScalar) (a p e x E L Q r3 r4 : ℝ) (q : Phases)
    (M mu : Option ℝ) (hE : E ^ 2 < 1) (hp : 0 < p) (he : 0 ≤ e)
    (he1 : e < 1) (hx : |x| ≤ 1) (h43 : r4 ≤ r3) (h32 : r3 ≤ p / (1 + e))
    (hR : Spec.RadialRoots a E L Q (p / (1 - e)) (p / (1 + e)) r3 r4)
    (hZ : Spec.Zpol a E L Q (1 - x ^ 2) = 0) (hL : Real.sign L = Real.sign x) :
    stableOrbitFromConstants rs a E L Q q M mu = mkStableOrbit rs a p e x q M mu := by
  unfold stableOrbitFromConstants
  rw [C09_apex_inverse a p e x E L Q r3 r4 hE hp he he1 hx h43 h32 hR hZ hL]
  rfl

/-- Non-vacuity of C09: the inclined circular Schwarzschild orbit `p = 10`, `x = 1/2`, whose constants
are `E² = 32/35`, `L² = 25/7`, `Q = 75/7`. -/
example : apexFromConstants 0 (√(32 / 35)) (√(25 / 7)) (75 / 7) = .ok (0, 10, 0, 1 / 2) := by
  have hE : √(32 / 35) ^ 2 = (32 / 35 : ℝ) := Real.sq_sqrt (by norm_num)
  have hL : √(25 / 7) ^ 2 = (25 / 7 : ℝ) := Real.sq_sqrt (by norm_num)
  have hLpos : 0 < √(25 / 7) := Real.sqrt_pos.mpr (by norm_num)
  refine C09_apex_inverse 0 10 0 (1 / 2) _ _ _ (10 / 3) 0 (by rw [hE]; norm_num) (by norm_num)
    le_rfl (by norm_num) (by norm_num [abs_le]) (by norm_num) (by norm_num) ?_ ?_ ?_
  · intro r
    rw [R_expand, hE, hL]; norm_num; ring
  · rw [Spec.Zpol, hE, hL]; norm_num
  · rw [Real.sign_of_pos hLpos, Real.sign_of_pos (by norm_num)]

end KGP
