import Verif.Lemmas.FiniteOrbits
import Verif.Props.Parabolic
import Verif.Props.HorizonRoot
import Verif.Props.GeodesicApi

/-!
# C76: no operation fails on an accepted orbit
-/

namespace KGP

open Classical Real

lemma constantsOfMotionN_eq {rs : RootScalar} {a p e x : ℝ} (h : Spec.BoundOrbit rs a p e x) :
    constantsOfMotionN rs a p e x = .ok (energyFormulaN (sa a) p e (sx a x),
      angularMomentumFormulaN (sa a) p e (sx a x) (energyFormulaN (sa a) p e (sx a x)),
      if sx a x = 0 then carterPolarFormulaN (sa a) p e
      else carterFormulaN (sa a) (sx a x) (energyFormulaN (sa a) p e (sx a x))
        (angularMomentumFormulaN (sa a) p e (sx a x) (energyFormulaN (sa a) p e (sx a x)))) := by
  have hg := (constantsGuard_iff rs a p e x).mpr h
  simp only [constantsOfMotionN, standardize_eq, hg, bind_ok]
  rfl

lemma solveLN_exc {x : ℝ} {vE : Fl} {c : Coeffs} {n : CoeffsN} (hn : n = c.toN) (hh : c.h = 0) :
    solveLN x vE n = .exc := by
  subst hn
  exact Fl.div_zero (by simp only [Coeffs.toN, hh])

lemma solveLN_excE {x : ℝ} {c : CoeffsN} : solveLN x .exc c = .exc := by
  unfold solveLN
  rw [Fl.neg_exc, Fl.mul_exc_left, Fl.add_exc_left, Fl.div_exc_left]

lemma schmidtEnergyN_exc {x : ℝ} {c1 c2 : Coeffs} {n1 n2 : CoeffsN} (h1 : n1 = c1.toN) (h2 : n2 = c2.toN)
    (hW : (c1.f * c2.h - c1.h * c2.f) ^ 2
      + 4 * (c1.f * c2.g - c1.g * c2.f) * (c1.g * c2.h - c1.h * c2.g) = 0) :
    schmidtEnergyN x n1 n2 = .exc := by
  subst h1; subst h2
  unfold schmidtEnergyN
  have : (c1.toN.f * c2.toN.h - c1.toN.h * c2.toN.f) ^ 2
      + 4 * (c1.toN.f * c2.toN.g - c1.toN.g * c2.toN.f) * (c1.toN.g * c2.toN.h - c1.toN.h * c2.toN.g)
      = .fin 0 := by
    rw [← hW]
    simp only [Coeffs.toN]
    fl
  simp only [Fl.div_zero this, Fl.sqrt_exc]

/-- If a divisor vanishes the angular momentum is not a number. -/
lemma angularMomentumN_exc {a p e x : ℝ} (hx0 : x ≠ 0) (hx : x ^ 2 ≤ 1) (he0 : 0 ≤ e) (he1 : e ≠ 1)
    (hreg : ¬ Schmidt.Regular a p e x) :
    angularMomentumFormulaN a p e x (energyFormulaN a p e x) = .exc := by
  have hm : 1 - e ≠ 0 := sub_ne_zero.mpr (Ne.symm he1)
  have hpl : 1 + e ≠ 0 := by intro h; linarith
  have v1 : ((p : Fl) / (1 - (e : Fl))) = .fin (p / (1 - e)) := by fl
  have v2 : ((p : Fl) / (1 + (e : Fl))) = .fin (p / (1 + e)) := by fl
  unfold angularMomentumFormulaN
  rw [if_neg hx0, if_neg he1]
  by_cases hh : (coefficients (p / (1 - e)) a x).h = 0
  · exact solveLN_exc (coefficientsN_fin v1 hx0 hx) hh
  · unfold Schmidt.Regular at hreg
    simp only at hreg
    have hW := by_contra fun k => hreg ⟨k, hh⟩
    suffices energyFormulaN a p e x = .exc by rw [this]; exact solveLN_excE
    unfold energyFormulaN
    rw [if_neg he1, if_neg hx0]
    by_cases h0 : e = 0
    · have hp : p / (1 - e) = p := by rw [h0]; simp
      rw [hp] at hW
      rw [if_pos h0] at hW ⊢
      exact schmidtEnergyN_exc (coefficientsN_fin rfl hx0 hx) (coefficientsDerivativeN_fin rfl hx0 hx) hW
    · rw [if_neg h0] at hW ⊢
      exact schmidtEnergyN_exc (coefficientsN_fin v1 hx0 hx) (coefficientsN_fin v2 hx0 hx) hW

/-- The divisor of the marginal orbit. -/
lemma marginal_h {a p x : ℝ} (hx0 : x ≠ 0) (hx : x ^ 2 ≤ 1) :
    (coefficients (p / (1 + 1)) a x).h = 0 ↔ (p / 2) ^ 2 - 2 * (p / 2) + a ^ 2 * (1 - x ^ 2) = 0 := by
  have hz : √(1 - x ^ 2) ^ 2 = 1 - x ^ 2 := Real.sq_sqrt (by linarith)
  have hX : x ^ 2 ≠ 0 := pow_ne_zero 2 hx0
  have : (coefficients (p / (1 + 1)) a x).h = ((p / 2) ^ 2 - 2 * (p / 2) + a ^ 2 * (1 - x ^ 2)) / x ^ 2 := by
    simp only [coefficients, hz]
    rw [sub_sub_cancel]
    field_simp
    ring
  rw [this, div_eq_zero_iff]
  exact or_iff_left hX

/-- The divisors in the formulas for `E` and `L` of the orbit `(a, p, e, x)`. -/
def Spec.CleanDivisors (a p e x : ℝ) : Prop :=
  x ≠ 0 → if e = 1 then (p / 2) ^ 2 - 2 * (p / 2) + a ^ 2 * (1 - x ^ 2) ≠ 0 else Spec.DivisorsNonzero a p e x

/-- Accepted orbits with positive spin: the energy is positive and the turning points are right, if the divisors do not
vanish. -/
lemma turning_of_bound {rs : RootScalar} {a p e x : ℝ} (h : Spec.BoundOrbit rs a p e x) (ha : 0 ≤ a)
    (he1 : e ≠ 1) (hx0 : x ≠ 0) (hd : Spec.DivisorsNonzero a p e x) :
    ∃ E L Q, constantsOfMotion rs a p e x = .ok (E, L, Q) ∧ 0 < E ∧ Spec.TurningPoints a E L Q p e := by
  rcases eq_or_lt_of_le ha with h0 | h0
  · subst h0
    obtain ⟨E, L, Q, hc, hE, -, -, -, -, hT⟩ := C07_turning rs p e x h he1
    exact ⟨E, L, Q, hc, hE, hT⟩
  · obtain ⟨E, L, Q, r1, r2, r3, r4, hc, -, hE, -, -, -, rfl, rfl, hR, -⟩ :=
      C04_boundGeodesic rs a p e x h h0 he1 hx0 (fun _ _ => hd)
    exact ⟨E, L, Q, hc, hE, turning_of_roots hR⟩

/-- **C76.** For every accepted orbit (either sign of the spin, polar and marginally bound ones included) the computation of
`constants_of_motion` meets no division by zero and no root of a negative number exactly when the divisors of its
formulas do not vanish; otherwise the angular momentum it returns is not a number. -/
theorem C76_constants (rs : RootScalar) (a p e x : ℝ) (h : Spec.BoundOrbit rs a p e x) :
    ∃ E L Q vE vL vQ, constantsOfMotion rs a p e x = .ok (E, L, Q)
      ∧ constantsOfMotionN rs a p e x = .ok (vE, vL, vQ)
      ∧ (Spec.CleanDivisors a p e x → vE = .fin E ∧ vL = .fin L ∧ vQ = .fin Q)
      ∧ (¬ Spec.CleanDivisors a p e x → vL = .exc) := by
  have hcc := constantsOfMotion_of_bound h
  have hcN := constantsOfMotionN_eq h
  have hpc : ∃ E L Q, pureConsts (sa a) p e (sx a x) = (E, L, Q) := ⟨_, _, _, rfl⟩
  obtain ⟨E, L, Q, hpc⟩ := hpc
  have hsx : sx a x = Spec.signedX a x := sx_eq a x
  have hx : x ^ 2 ≤ 1 := (sq_le_one_iff_abs_le_one x).mpr h.2.2.1
  have hxx : Spec.signedX a x ^ 2 = x ^ 2 := by rw [← sq_abs, abs_signedX, sq_abs]
  have haa : (sa a) ^ 2 = a ^ 2 := sq_abs a
  obtain ⟨he0, hel⟩ := h.2.1
  rw [hpc] at hcc
  refine ⟨E, L, Q, _, _, _, hcc, hcN, ?_, ?_⟩
  · intro hd
    by_cases hx0 : x = 0
    · -- polar orbits
      subst hx0
      have h0 : sx a 0 = 0 := by simp [sx]
      have hp := polar_bound h
      have hD := (polarDenominator_neg (a := sa a) hp he0 hel).ne
      have hDN : polarDenominatorN (sa a) p e = .fin (polarDenominator (sa a) p e) := by
        have h3 : (3 : Fl) = .fin 3 := rfl
        have h4 : (-1 : Fl) = .fin (-1) := rfl
        unfold polarDenominatorN polarDenominator
        fl
      rw [h0] at hpc ⊢
      simp only [pureConsts, if_pos, Prod.mk.injEq] at hpc
      obtain ⟨rfl, rfl, rfl⟩ := hpc
      refine ⟨?_, ?_, ?_⟩
      · by_cases he1 : e = 1
        · subst he1
          simp only [energyFormulaN, energyFormula, if_pos]
          fl
        · obtain ⟨E', Q', hc', hE', -⟩ := C06_polar_exact rs a p e h he1
          have hEE := Except.ok.inj (hcc.symm.trans hc')
          simp only [Prod.mk.injEq] at hEE
          have hpos := hE'
          rw [← hEE.1] at hpos
          simp only [energyFormula, if_neg he1, if_pos] at hpos
          have hA := (Real.sqrt_pos.mp hpos).le
          have h5 : (-2 : Fl) = .fin (-2) := rfl
          have h6 : (-4 : Fl) = .fin (-4) := rfl
          have h4 : (-1 : Fl) = .fin (-1) := rfl
          simp only [energyFormulaN, energyFormula, if_neg he1, if_pos]
          fl
      · simp only [angularMomentumFormulaN, angularMomentumFormula, if_pos]
        fl
      · have h5 : (-2 : Fl) = .fin (-2) := rfl
        have h4 : (-1 : Fl) = .fin (-1) := rfl
        simp only [if_pos, carterPolarFormulaN, carterPolarFormula]
        fl
    · have hX0 : sx a x ≠ 0 := by rw [hsx, Ne, signedX_eq_zero]; exact hx0
      have hX : sx a x ^ 2 ≤ 1 := by rw [hsx, hxx]; exact hx
      simp only [Spec.CleanDivisors] at hd
      have hd := hd hx0
      rw [if_neg hX0]
      simp only [pureConsts, if_neg hX0, Prod.mk.injEq] at hpc
      obtain ⟨rfl, rfl, rfl⟩ := hpc
      by_cases he1 : e = 1
      · subst he1
        rw [if_pos rfl] at hd
        obtain ⟨L', Q', r3, r4, hc', -, -, -, hR, -⟩ := C04_marginal rs a p x h (fun _ => hd)
        have hEE := Except.ok.inj (hcc.symm.trans hc')
        simp only [Prod.mk.injEq] at hEE
        obtain ⟨e1, e2, e3⟩ := hEE
        have q : Spec.R (sa a) 1 L' Q' (p / (1 + 1)) = 0 := by
          have := hR (p / (1 + 1))
          rw [show sa a = |a| from rfl, this]
          norm_num
        rw [← e3, ← e2, e1, C45_quadratic_form _ _ _ _ _ hX0 hX] at q
        have hh : (coefficients (p / (1 + 1)) (sa a) (sx a x)).h ≠ 0 := by
          rw [Ne, marginal_h hX0 hX, haa, hsx, hxx]; exact hd
        have hEN : energyFormulaN (sa a) p 1 (sx a x) = .fin (energyFormula (sa a) p 1 (sx a x)) := by
          simp only [energyFormulaN, energyFormula, if_pos]
          fl
        have v2 : ((p : Fl) / (1 + ((1:ℝ) : Fl))) = .fin (p / (1 + 1)) := by
          have : (1 + 1 : ℝ) ≠ 0 := by norm_num
          fl
        have hLN : angularMomentumFormulaN (sa a) p 1 (sx a x) (energyFormulaN (sa a) p 1 (sx a x))
            = .fin (angularMomentumFormula (sa a) p 1 (sx a x) (energyFormula (sa a) p 1 (sx a x))) := by
          conv_lhs => unfold angularMomentumFormulaN
          rw [if_neg hX0, if_pos rfl]
          rw [e1] at hEN ⊢
          refine (solveLN_fin (coefficientsN_fin v2 hX0 hX) hEN q hh).trans ?_
          congr 1
          conv_rhs => unfold angularMomentumFormula
          rw [if_neg hX0, if_pos rfl]
        exact ⟨hEN, hLN, carterFormulaN_fin hX0 hX hEN hLN⟩
      · rw [if_neg he1] at hd
        obtain ⟨hb, hcs, hdd⟩ := bound_std h
        obtain ⟨E', L', Q', hc', hE', hT⟩ := turning_of_bound hb (abs_nonneg a) he1 (hsx ▸ hX0) (hdd.mpr hd)
        have hEE := Except.ok.inj ((hcs.symm.trans hc').symm.trans hcc)
        simp only [Prod.mk.injEq] at hEE
        obtain ⟨rfl, rfl, rfl⟩ := hEE
        have hreg : Schmidt.Regular (sa a) p e (sx a x) := by
          rw [hsx]; exact (divisors_iff a p e x).mp hd
        exact constants_fin hX0 hX he0 he1 hreg hE' hT
  · intro hd
    simp only [Spec.CleanDivisors, Classical.not_imp] at hd
    obtain ⟨hx0, hd⟩ := hd
    have hX0 : sx a x ≠ 0 := by rw [hsx, Ne, signedX_eq_zero]; exact hx0
    have hX : sx a x ^ 2 ≤ 1 := by rw [hsx, hxx]; exact hx
    by_cases he1 : e = 1
    · subst he1
      rw [if_pos rfl, not_not] at hd
      have hh : (coefficients (p / (1 + 1)) (sa a) (sx a x)).h = 0 := by
        rw [marginal_h hX0 hX, haa, hsx, hxx]; exact hd
      have v2 : ((p : Fl) / (1 + ((1:ℝ) : Fl))) = .fin (p / (1 + 1)) := by
        have : (1 + 1 : ℝ) ≠ 0 := by norm_num
        fl
      unfold angularMomentumFormulaN
      rw [if_neg hX0, if_pos rfl]
      exact solveLN_exc (coefficientsN_fin v2 hX0 hX) hh
    · rw [if_neg he1] at hd
      refine angularMomentumN_exc hX0 hX he0 he1 fun hreg => hd ?_
      rw [divisors_iff, ← hsx]
      exact hreg

/-- **C76.** For every accepted orbit with non-negative spin outside the exceptional cases, `stable_trajectory` returns functions whose values
are numbers at every Mino time, and so are the frequencies and the components of the four-velocity; they are the
numbers the theorems on trajectories are about. -/
theorem C76_trajectory (rs : RootScalar) (a p e x : ℝ) (q : Phases) (h : Spec.BoundOrbit rs a p e x)
    (ha : 0 ≤ a) (he1 : e ≠ 1) (hx0 : x ≠ 0) (hp : 0 < x → p ≤ 4 → Spec.DivisorsNonzero a p e x)
    (hne : x < 0 ∨ ∀ E L Q, constantsOfMotion rs a p e x = .ok (E, L, Q) →
      E * ((1 + √(1 - a ^ 2)) ^ 2 + a ^ 2) ≠ a * L) :
    ∃ T m E L Q TN, stableTrajectoryNat rs a p e x q = .ok T ∧ minoFrequencies rs a p e x = .ok m
      ∧ constantsOfMotion rs a p e x = .ok (E, L, Q)
      ∧ constantsOfMotionN rs a p e x = .ok (.fin E, .fin L, .fin Q)
      ∧ minoFrequenciesN rs a p e x
        = .ok ⟨.fin m.upsilonR, .fin m.upsilonTheta, .fin m.upsilonPhi, .fin m.gamma⟩
      ∧ stableTrajectoryN rs a p e x q = .ok TN
      ∧ ∀ lam, (TN.t lam = .fin (T.t lam) ∧ TN.r lam = .fin (T.r lam) ∧ TN.theta lam = .fin (T.theta lam)
          ∧ TN.phi lam = .fin (T.phi lam))
        ∧ let V := fourVelocity a T (E, L, Q) m.upsilonR m.upsilonTheta q
          let VN := fourVelocityN a TN (.fin E, .fin L, .fin Q) (.fin m.upsilonR) (.fin m.upsilonTheta) q
          VN.t lam = .fin (V.t lam) ∧ VN.r lam = .fin (V.r lam) ∧ VN.theta lam = .fin (V.theta lam)
            ∧ VN.phi lam = .fin (V.phi lam) := by
  obtain ⟨T, m, E, L, Q, r1, r2, r3, r4, hT, hm, hc, hr, hb, hE, -, -, -, -, -, -⟩ :=
    orbit_hyps q h ha he1 hx0 hp hne
  obtain ⟨m', zm, zp, D⟩ := stableData_of ha hT hc hr
  obtain rfl := D.mino_eq hm
  have hT' : Spec.TurningPoints a E L Q p e := by
    have := hb.roots
    rw [D.roots12.1, D.roots12.2] at this
    exact turning_of_roots this
  have hcN := constantsOfMotionN_fin h ha he1 hx0 hp hc hE hT'
  obtain ⟨hM, TN, hTN, hval⟩ := D.finite hb hcN
  refine ⟨T, _, E, L, Q, TN, hT, hm, hc, hcN, hM, hTN, fun lam => ⟨hval lam, ?_⟩⟩
  obtain ⟨-, v2, v3, -⟩ := hval lam
  obtain ⟨T', m'', E', L', Q', hT'', -, -, -, -, -, -, -, -, -, hall, -⟩ := C22_kerr rs a p e x q h ha he1 hx0 hp hne
  obtain rfl : T' = T := Except.ok.inj (hT''.symm.trans hT)
  obtain ⟨-, -, -, -, -, -, t1, t2, hor, -⟩ := hall lam
  have ha1 : a < 1 := D.spin.2
  have hs0 := Real.sqrt_nonneg (1 - a ^ 2)
  have hs2 : √(1 - a ^ 2) ^ 2 = 1 - a ^ 2 := Real.sq_sqrt (by nlinarith)
  have hor' : 1 + √(1 - a ^ 2) < T'.r lam := hor
  refine fourVelocityN_fin v2 v3 rfl rfl (by linarith) ?_ ?_
  · nlinarith
  · have hx2 : 0 < x ^ 2 := by positivity
    have hlt : √(1 - x ^ 2) < 1 := by rw [Real.sqrt_lt' one_pos]; linarith
    have h0 : 0 < arccos (√(1 - x ^ 2)) := Real.arccos_pos.mpr hlt
    exact (Real.sin_pos_of_pos_of_lt_pi (by linarith) (by linarith)).ne'

example (rs : RootScalar) : ∃ a p e x, Spec.BoundOrbit rs a p e x ∧ 0 ≤ a ∧ e ≠ 1 ∧ x ≠ 0
    ∧ (0 < x → p ≤ 4 → Spec.DivisorsNonzero a p e x) ∧ (x < 0 ∨ False) :=
  ⟨9 / 10, 13, 1 / 2, -1 / 2, C11_accepts_wide rs _ _ _ _ (by rw [abs_of_pos] <;> norm_num) (by norm_num) (by norm_num)
    (by rw [abs_of_neg] <;> norm_num) (by norm_num), by norm_num, by norm_num, by norm_num,
    fun h => absurd h (by norm_num), Or.inl (by norm_num)⟩

lemma constantsOfMotionN_std (rs : RootScalar) (a p e x : ℝ) :
    constantsOfMotionN rs (sa a) p e (sx a x) = constantsOfMotionN rs a p e x := by
  unfold constantsOfMotionN
  rw [standardize_idem, standardize_eq]

lemma minoFrequenciesN_std (rs : RootScalar) (a p e x : ℝ) :
    minoFrequenciesN rs (sa a) p e (sx a x) = minoFrequenciesN rs a p e x := by
  unfold minoFrequenciesN
  rw [constantsOfMotionN_std, standardize_idem, standardize_eq]

/-- **C76.** The Mino-time and the observer's frequencies, for either sign of the spin. -/
theorem C76_frequencies (rs : RootScalar) (a p e x : ℝ) (h : Spec.BoundOrbit rs a p e x)
    (he1 : e ≠ 1) (hx0 : x ≠ 0) (hp : 0 < Spec.signedX a x → p ≤ 4 → Spec.DivisorsNonzero a p e x)
    (hne : Spec.signedX a x < 0 ∨ ∀ E L Q, constantsOfMotion rs a p e x = .ok (E, L, Q) →
      E * ((1 + √(1 - a ^ 2)) ^ 2 + a ^ 2) ≠ |a| * L) :
    ∃ m W, minoFrequencies rs a p e x = .ok m ∧ fundamentalFrequencies rs a p e x = .ok W
      ∧ minoFrequenciesN rs a p e x
        = .ok ⟨.fin m.upsilonR, .fin m.upsilonTheta, .fin m.upsilonPhi, .fin m.gamma⟩
      ∧ fundamentalFrequenciesN rs a p e x = .ok (.fin W.1, .fin W.2.1, .fin W.2.2) := by
  obtain ⟨hb, hc, hd⟩ := bound_std h
  have hX0 : Spec.signedX a x ≠ 0 := by rw [Ne, signedX_eq_zero]; exact hx0
  have hne' : Spec.signedX a x < 0 ∨ ∀ E L Q, constantsOfMotion rs |a| p e (Spec.signedX a x) = .ok (E, L, Q) →
      E * ((1 + √(1 - |a| ^ 2)) ^ 2 + |a| ^ 2) ≠ |a| * L := by
    rw [hc, sq_abs]; exact hne
  have hp' : 0 < Spec.signedX a x → p ≤ 4 → Spec.DivisorsNonzero |a| p e (Spec.signedX a x) :=
    fun h1 h2 => hd.mpr (hp h1 h2)
  have q : Phases := ⟨0, 0, 0, 0⟩
  obtain ⟨T, m, E, L, Q, TN, -, hm, -, -, hN, -, -⟩ :=
    C76_trajectory rs |a| p e (Spec.signedX a x) q hb (abs_nonneg a) he1 hX0 hp' hne'
  obtain ⟨T', m', E', L', Q', -, hm', -, -, -, -, -, -, -, hg, -⟩ :=
    C22_kerr rs |a| p e (Spec.signedX a x) q hb (abs_nonneg a) he1 hX0 hp' hne'
  obtain rfl : m' = m := Except.ok.inj (hm'.symm.trans hm)
  have hN' : minoFrequenciesN rs a p e x
      = .ok ⟨.fin m'.upsilonR, .fin m'.upsilonTheta, .fin m'.upsilonPhi, .fin m'.gamma⟩ := by
    rw [← minoFrequenciesN_std, sx_eq]; exact hN
  have hM : minoFrequencies rs a p e x = .ok m' := by
    rw [← hm, minoFrequencies_eq, minoFrequencies_eq rs |a|, ← sx_eq]
    change _ = (minoGuard rs (sa (sa a)) p e (sx (sa a) (sx a x)) >>= fun _ =>
      .ok (pureMino (sa (sa a)) p e (sx (sa a) (sx a x))))
    rw [sa_sa, sx_sa]
  have hg0 := hg.ne'
  refine ⟨m', (m'.upsilonR / m'.gamma, m'.upsilonTheta / m'.gamma, m'.upsilonPhi / m'.gamma), hM, ?_, hN', ?_⟩
  · rw [minoFrequencies_eq, guard_bind_ok_iff] at hM
    rw [fundamentalFrequencies_eq, guard_bind_ok_iff]
    refine ⟨hM.1, ?_⟩
    rw [← hM.2]
  · have k1 : Fl.fin m'.upsilonR / Fl.fin m'.gamma = .fin (m'.upsilonR / m'.gamma) := by fl
    have k2 : Fl.fin m'.upsilonTheta / Fl.fin m'.gamma = .fin (m'.upsilonTheta / m'.gamma) := by fl
    have k3 : Fl.fin m'.upsilonPhi / Fl.fin m'.gamma = .fin (m'.upsilonPhi / m'.gamma) := by fl
    simp only [fundamentalFrequenciesN, hN', bind_ok, k1, k2, k3]
    rfl

/-- **C76 (violated on isolated orbits).** The second exceptional case is met by accepted orbits: for every spin
`0 < a ≤ 3/4` there is one for which the azimuthal frequency, `gamma` and, at every Mino time, `t` and `φ` are not
numbers, although no function raises. -/
theorem C76_horizon_violation (rs : RootScalar) (a : ℝ) (ha : 0 < a) (ha1 : a ≤ 3 / 4) :
    ∃ p, 12 < p ∧ Spec.BoundOrbit rs a p 0 1
      ∧ (∃ E L, constantsOfMotionN rs a p 0 1 = .ok (.fin E, .fin L, .fin 0))
      ∧ (∃ m, minoFrequenciesN rs a p 0 1 = .ok m ∧ m.upsilonPhi = .exc ∧ m.gamma = .exc)
      ∧ ∀ q, ∃ T, stableTrajectoryN rs a p 0 1 q = .ok T ∧ ∀ lam, T.t lam = .exc ∧ T.phi lam = .exc := by
  obtain ⟨p, E, L, r3, r4, hp, hB, hc, hr, -, h3, -⟩ := C22_horizon_root_violation rs a ha ha1
  have hdiv : (0:ℝ) < 1 → p ≤ 4 → Spec.DivisorsNonzero a p 0 1 := fun _ h => by linarith
  obtain ⟨E', L', Q', s1, s2, s3, s4, hc', hr', hE, hE1, -, -, e1, e2, hR, h32, h21, -⟩ :=
    C04_boundGeodesic rs a p 0 1 hB ha zero_ne_one one_ne_zero hdiv
  have hcc := Except.ok.inj (hc'.symm.trans hc)
  have hrr := Except.ok.inj (hr'.symm.trans hr)
  simp only [Prod.mk.injEq] at hcc hrr
  obtain ⟨rfl, rfl, rfl⟩ := hcc
  obtain ⟨rfl, rfl, rfl, rfl⟩ := hrr
  have hT : Spec.TurningPoints a E' L' 0 s2 0 := by
    refine turning_of_roots (r3 := s3) (r4 := s4) ?_
    simpa using hR
  have hcN := constantsOfMotionN_fin hB ha.le zero_ne_one one_ne_zero hdiv hc hE hT
  have hcore : stableRadialRootsCore a s2 0 (E', L', 0) = (s2, s2, s3, s4) := by
    unfold stableRadialRoots at hr
    simp only [constantsOr, hc, bind_ok] at hr
    exact Except.ok.inj hr
  have hs := Real.sqrt_nonneg (1 - a ^ 2)
  have hrN := stableRadialRootsN_fin (vL := .fin L') rfl rfl le_rfl zero_ne_one hcore hR (by nlinarith)
    (by linarith) h32 h21
  have hz0 : 0 ≤ 1 - a ^ 2 := by nlinarith
  have hzero : (Fl.fin s3 - (1 + Fl.sqrt (1 - (a : Fl) ^ 2))) = .fin 0 := by
    rw [← h3]; fl
  obtain ⟨m0, hm0⟩ := (C12_frequency_contract rs a s2 0 1 none none none).2.2.2.2.1.1.mpr
    ⟨hB, one_ne_zero, zero_ne_one⟩
  rw [minoFrequencies_eq, guard_bind_ok_iff] at hm0
  have hfg := (minoGuard_ok_iff rs (sa a) s2 0 (sx a 1)).mp hm0.1
  rw [sa_of_nonneg ha.le, sx_of_nonneg ha.le] at hfg
  have hst : standardizeParams a 1 = (a, 1) := by
    rw [standardize_eq, sa_of_nonneg ha.le, sx_of_nonneg ha.le]
  have hM : minoFrequenciesN rs a s2 0 1 = .ok (minoN a s2 0 1 (.fin E', .fin L', .fin 0)
      (.fin s2, .fin s2, .fin s3, .fin s4) (stablePolarRootsN a 1 (.fin E', .fin L', .fin 0))) := by
    simp only [minoFrequenciesN, hcN, bind_ok, hst, hfg, hrN]
    rfl
  obtain ⟨vm, vp, hz⟩ : ∃ vm vp, stablePolarRootsN a 1 (.fin E', .fin L', .fin 0) = (vm, vp) := ⟨_, _, rfl⟩
  have hphi : (minoN a s2 0 1 (.fin E', .fin L', .fin 0)
      (.fin s2, .fin s2, .fin s3, .fin s4) (stablePolarRootsN a 1 (.fin E', .fin L', .fin 0))).upsilonPhi = .exc := by
    rw [hz]
    simp only [minoN, phiFrequencyN, if_neg ha.ne', Fl.div_zero hzero, Fl.mul_exc_left, Fl.mul_exc_right,
      Fl.sub_exc_left, Fl.add_exc_right]
  have hga : (minoN a s2 0 1 (.fin E', .fin L', .fin 0)
      (.fin s2, .fin s2, .fin s3, .fin s4) (stablePolarRootsN a 1 (.fin E', .fin L', .fin 0))).gamma = .exc := by
    rw [hz]
    simp only [minoN, gammaN, Fl.div_zero hzero, Fl.mul_exc_left, Fl.mul_exc_right,
      Fl.sub_exc_left, Fl.add_exc_right]
  refine ⟨s2, hp, hB, ⟨E', L', hcN⟩, ⟨_, hM, hphi, hga⟩, fun q => ⟨assembleTrajectoryN
    (radialSolutionsN a (.fin E', .fin L', .fin 0) (.fin s2, .fin s2, .fin s3, .fin s4))
    (polarSolutionsN a (.fin E', .fin L', .fin 0) (stablePolarRootsN a 1 (.fin E', .fin L', .fin 0)))
    (minoN a s2 0 1 (.fin E', .fin L', .fin 0)
      (.fin s2, .fin s2, .fin s3, .fin s4) (stablePolarRootsN a 1 (.fin E', .fin L', .fin 0))) q,
    ?_, fun lam => ?_⟩⟩
  · simp only [stableTrajectoryN, hM, hcN, bind_ok, hrN]
    rfl
  · simp only [assembleTrajectoryN, hphi, hga, Fl.mul_exc_left, Fl.add_exc_left, Fl.add_exc_right, Fl.sub_exc_left,
      and_self]

/-- **C76 (violated on isolated orbits).** The first exceptional case is met too: at `a = 19/20` the accepted circular
equatorial orbit `p = 2` gets an angular momentum that is not a number. -/
theorem C76_divisor_violation (rs : RootScalar) :
    Spec.BoundOrbit rs (19 / 20) 2 0 1
      ∧ ∃ vE vQ, constantsOfMotionN rs (19 / 20) 2 0 1 = .ok (vE, .exc, vQ) := by
  obtain ⟨hB, -, hh⟩ := C04_ergosphere_violation rs
  refine ⟨hB, ?_⟩
  obtain ⟨E, L, Q, vE, vL, vQ, -, hN, -, hbad⟩ := C76_constants rs (19 / 20) 2 0 1 hB
  have : vL = .exc := by
    refine hbad fun hcl => ?_
    have h1 := hcl one_ne_zero
    rw [if_neg zero_ne_one] at h1
    have h2 := h1.2
    have e1 : |(19 / 20 : ℝ)| = 19 / 20 := abs_of_pos (by norm_num)
    have e2 : Spec.signedX (19 / 20) 1 = 1 := by
      unfold Spec.signedX; rw [if_neg (by norm_num)]
    rw [e1, e2] at h2
    exact h2 hh
  subst this
  exact ⟨_, _, hN⟩

end KGP
