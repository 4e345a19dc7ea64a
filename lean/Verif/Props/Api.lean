import Verif.Props.Separatrix
import Verif.Props.Units

/-!
# C10–C13: the contract of the constants and frequency functions
-/

namespace KGP

open Classical Real

/-- The inclination after moving the sign of the spin into it. -/
noncomputable def Spec.signedX (a x : ℝ) : ℝ := if a < 0 then -x else x

/-- Parameters of a bound orbit that the constants API accepts: `|a| < 1`, `0 ≤ e ≤ 1`, `|x| ≤ 1` and
`p` above the separatrix of the equivalent orbit with non-negative spin. -/
def Spec.BoundOrbit (rs : RootScalar) (a p e x : ℝ) : Prop :=
  |a| < 1 ∧ (0 ≤ e ∧ e ≤ 1) ∧ |x| ≤ 1
    ∧ ∃ s, separatrix rs |a| e (Spec.signedX a x) = .ok s ∧ s < p

lemma sx_eq (a x : ℝ) : sx a x = Spec.signedX a x := by
  unfold sx copysign1 Spec.signedX
  split_ifs <;> ring

lemma abs_signedX (a x : ℝ) : |Spec.signedX a x| = |x| := by
  unfold Spec.signedX; split_ifs <;> simp

lemma signedX_eq_zero (a x : ℝ) : Spec.signedX a x = 0 ↔ x = 0 := by
  unfold Spec.signedX; split_ifs <;> simp

lemma constantsGuard_iff (rs : RootScalar) (a p e x : ℝ) :
    constantsGuard rs (sa a) p e (sx a x) = .ok () ↔ Spec.BoundOrbit rs a p e x := by
  rw [constantsGuard_ok_iff, sx_eq]
  unfold Spec.BoundOrbit sa
  have hx := abs_signedX a x
  constructor
  · rintro ⟨h1, ⟨⟨-, h3⟩, h4, h5⟩, h6⟩
    exact ⟨lt_of_le_of_ne h3 h1, h4, by rw [← hx]; exact abs_le.mpr h5, h6⟩
  · rintro ⟨h1, h2, h3, h4⟩
    rw [← hx] at h3
    exact ⟨h1.ne, ⟨⟨abs_nonneg a, h1.le⟩, h2, abs_le.mp h3⟩, h4⟩

lemma raiseIf_err {c : Prop} {m : String} :
    raiseIf c (.valueError m) = .ok () ∨ (raiseIf c (.valueError m)).IsValueError := by
  unfold raiseIf; split_ifs
  · exact .inr ⟨_, rfl⟩
  · exact .inl rfl

lemma isValueError_bind {α β : Type} {x : Py α} {f : α → Py β} (h : x.IsValueError) :
    (x >>= f).IsValueError := by
  obtain ⟨m, hm⟩ := h
  exact ⟨m, by rw [hm, bind_error]⟩

lemma stableGuard_err (rs : RootScalar) (a p e x : ℝ) :
    (do let st ← isStable rs a p e x; raiseIf (st = false) errUnstable) = .ok ()
      ∨ (do let st ← isStable rs a p e x
            raiseIf (st = false) errUnstable : Py Unit).IsValueError := by
  by_cases h : (isStable rs a p e x).Returns
  · obtain ⟨b, hb⟩ := h
    rw [hb, bind_ok]; exact raiseIf_err
  · exact .inr (isValueError_bind ((C16_contract rs a p e x).2 h))

lemma constantsGuard_err (rs : RootScalar) (a p e x : ℝ) :
    constantsGuard rs a p e x = .ok () ∨ (constantsGuard rs a p e x).IsValueError := by
  unfold constantsGuard
  rcases raiseIf_err (c := a = 1) (m := "Extreme Kerr not supported") with h | h
  · rw [errExtreme, h, bind_ok]
    rcases raiseIf_err (c := ¬ validParams a e x)
      (m := "a^2, e and x^2 must be between 0 and 1") with h | h
    · rw [errParams, h, bind_ok]; exact stableGuard_err rs a p e x
    · exact .inr (isValueError_bind h)
  · exact .inr (isValueError_bind h)

lemma frequencyGuard_err (rs : RootScalar) (a p e x : ℝ) :
    frequencyGuard rs a p e x = .ok () ∨ (frequencyGuard rs a p e x).IsValueError := by
  unfold frequencyGuard
  rcases raiseIf_err (c := a = 1) (m := "Extreme Kerr not supported") with h | h
  · rw [errExtreme, h, bind_ok]
    rcases raiseIf_err (c := x = 0) (m := "Polar orbits not supported") with h | h
    · rw [h, bind_ok]
      rcases raiseIf_err (c := e = 1) (m := "Marginally bound orbits not supported") with h | h
      · rw [h, bind_ok]
        rcases raiseIf_err (c := ¬ validParams a e x)
          (m := "a^2, e and x^2 must be between 0 and 1") with h | h
        · rw [errParams, h, bind_ok]; exact stableGuard_err rs a p e x
        · exact .inr (isValueError_bind h)
      · exact .inr (isValueError_bind h)
    · exact .inr (isValueError_bind h)
  · exact .inr (isValueError_bind h)

lemma minoGuard_err (rs : RootScalar) (a p e x : ℝ) :
    minoGuard rs a p e x = .ok () ∨ (minoGuard rs a p e x).IsValueError := by
  unfold minoGuard
  rcases constantsGuard_err rs a p e x with h | h
  · rw [h, bind_ok]; exact frequencyGuard_err rs a p e x
  · exact .inr (isValueError_bind h)

/-- A call that returns exactly when `P` holds and raises `ValueError` exactly when it does not. -/
def Spec.ReturnsIff {α : Type} (x : Py α) (P : Prop) : Prop :=
  (x.Returns ↔ P) ∧ (x.IsValueError ↔ ¬ P)

lemma returnsIff_guard {α : Type} {g : Py Unit} {v : α} {P : Prop} (hP : g = .ok () ↔ P)
    (herr : g = .ok () ∨ g.IsValueError) :
    Spec.ReturnsIff (g >>= fun _ => .ok v) P := by
  rcases herr with h | ⟨m, hm⟩
  · rw [h, bind_ok]
    have hp := hP.mp h
    refine ⟨iff_of_true ⟨_, rfl⟩ hp, iff_of_false ?_ (not_not.mpr hp)⟩
    rintro ⟨m, hm⟩; cases hm
  · have hp : ¬ P := fun hp => by have := hP.mpr hp; rw [hm] at this; cases this
    rw [hm, bind_error]
    refine ⟨iff_of_false ?_ hp, iff_of_true ⟨_, rfl⟩ hp⟩
    rintro ⟨v, hv⟩; cases hv

/-- **C11.** `energy`, `angular_momentum`, `carter_constant` and `constants_of_motion` return a value
exactly for the parameters of a bound orbit, and raise `ValueError` for every other real input,
whatever optional arguments are passed. -/
theorem C11_constants_contract (rs : RootScalar) (a p e x : ℝ) (E L : Option ℝ) :
    Spec.ReturnsIff (energy rs a p e x) (Spec.BoundOrbit rs a p e x)
      ∧ Spec.ReturnsIff (angularMomentum rs a p e x E) (Spec.BoundOrbit rs a p e x)
      ∧ Spec.ReturnsIff (carterConstant rs a p e x E L) (Spec.BoundOrbit rs a p e x)
      ∧ Spec.ReturnsIff (constantsOfMotion rs a p e x) (Spec.BoundOrbit rs a p e x) := by
  rw [energy_eq, angularMomentum_eq, carterConstant_eq, constantsOfMotion_eq]
  have h1 := constantsGuard_iff rs a p e x
  have h2 := constantsGuard_err rs (sa a) p e (sx a x)
  exact ⟨returnsIff_guard h1 h2, returnsIff_guard h1 h2, returnsIff_guard h1 h2,
    returnsIff_guard h1 h2⟩

/-- **C12.** The six frequency functions return a value exactly for bound, non-polar orbits with
`e < 1`, and raise `ValueError` for every other real input. -/
theorem C12_frequency_contract (rs : RootScalar) (a p e x : ℝ) (cs : Option Consts)
    (uR uT : Option ℝ) :
    let Ok := Spec.BoundOrbit rs a p e x ∧ x ≠ 0 ∧ e ≠ 1
    Spec.ReturnsIff (rFrequency rs a p e x cs) Ok
      ∧ Spec.ReturnsIff (thetaFrequency rs a p e x cs) Ok
      ∧ Spec.ReturnsIff (phiFrequency rs a p e x cs uR uT) Ok
      ∧ Spec.ReturnsIff (gamma rs a p e x cs uR uT) Ok
      ∧ Spec.ReturnsIff (minoFrequencies rs a p e x) Ok
      ∧ Spec.ReturnsIff (fundamentalFrequencies rs a p e x) Ok := by
  intro Ok
  rw [rFrequency_eq, thetaFrequency_eq, phiFrequency_eq, gamma_eq, minoFrequencies_eq,
    fundamentalFrequencies_eq]
  have h1 : frequencyGuard rs (sa a) p e (sx a x) = .ok () ↔ Ok := by
    rw [frequencyGuard_ok_iff, constantsGuard_iff, sx_eq, Ne, signedX_eq_zero]
  have h2 := frequencyGuard_err rs (sa a) p e (sx a x)
  have h3 : minoGuard rs (sa a) p e (sx a x) = .ok () ↔ Ok := (minoGuard_ok_iff _ _ _ _ _).trans h1
  have h4 := minoGuard_err rs (sa a) p e (sx a x)
  exact ⟨returnsIff_guard h1 h2, returnsIff_guard h1 h2, returnsIff_guard h1 h2,
    returnsIff_guard h1 h2, returnsIff_guard h3 h4, returnsIff_guard h3 h4⟩

/-- Every `p > 12` is above the separatrix, so the accepted region is non-trivial for every spin. -/
theorem C11_accepts_wide (rs : RootScalar) (a p e x : ℝ) (ha : |a| < 1) (he : 0 ≤ e) (he1 : e ≤ 1)
    (hx : |x| ≤ 1) (hp : 12 < p) : Spec.BoundOrbit rs a p e x := by
  refine ⟨ha, ⟨he, he1⟩, hx, ?_⟩
  have hx' := hx
  rw [← abs_signedX a x] at hx'
  obtain ⟨hl, hr⟩ := abs_le.mp hx'
  obtain ⟨s, hs, hv⟩ := C15_separatrix_returns rs |a| e (Spec.signedX a x) (abs_nonneg a) ha he he1
    hl hr
  refine ⟨s, hs, lt_of_le_of_lt ?_ hp⟩
  have hsq : √(1 + e) ≤ 3 / 2 := by
    rw [Real.sqrt_le_left (by norm_num)]; linarith
  by_cases h0 : |a| = 0
  · rw [hv.zero h0]; linarith
  rcases lt_trichotomy (Spec.signedX a x) 0 with h | h | h
  · rcases eq_or_lt_of_le hl with h1 | h1
    · have := (hv.retrograde h0 h1.symm).2.2; linarith
    · obtain ⟨_, _, _, _, h2⟩ := hv.generic_retrograde h0 h1 h; exact h2
  · have := (hv.polar h0 h).2.2; linarith
  · rcases eq_or_lt_of_le hr with h1 | h1
    · have := (hv.prograde h0 h1).2.2; linarith
    · obtain ⟨pe, pp, _, _, _, _, _, h3, _, h4⟩ := hv.generic_prograde h0 h h1
      linarith

/-- Every `p > 8` is above the separatrix of a prograde (or polar) orbit. -/
theorem C11_accepts_prograde (rs : RootScalar) (a p e x : ℝ) (ha : |a| < 1) (he : 0 ≤ e) (he1 : e ≤ 1)
    (hx : |x| ≤ 1) (hs : 0 ≤ Spec.signedX a x) (hp : 8 < p) : Spec.BoundOrbit rs a p e x := by
  refine ⟨ha, ⟨he, he1⟩, hx, ?_⟩
  have hx' := hx
  rw [← abs_signedX a x] at hx'
  obtain ⟨hl, hr⟩ := abs_le.mp hx'
  obtain ⟨s, hs', hv⟩ := C15_separatrix_returns rs |a| e (Spec.signedX a x) (abs_nonneg a) ha he he1
    hl hr
  refine ⟨s, hs', lt_of_le_of_lt ?_ hp⟩
  by_cases h0 : |a| = 0
  · rw [hv.zero h0]; linarith
  rcases eq_or_lt_of_le hs with h | h
  · exact (hv.polar h0 h.symm).2.2
  · rcases eq_or_lt_of_le hr with h1 | h1
    · have := (hv.prograde h0 h1).2.2; linarith
    · obtain ⟨pe, pp, _, _, _, _, _, h3, _, h4⟩ := hv.generic_prograde h0 h h1
      exact h4.trans h3

/-- Non-vacuity of C11/C12: an accepted retrograde orbit given with negative spin, and rejected
inputs of every kind. -/
example (rs : RootScalar) : Spec.BoundOrbit rs (-9 / 10) 13 (1 / 2) (1 / 3)
    ∧ ¬ Spec.BoundOrbit rs (-1) 13 (1 / 2) (1 / 3) ∧ ¬ Spec.BoundOrbit rs 0 7 (1 / 2) 1 := by
  refine ⟨C11_accepts_wide _ _ _ _ _ (by norm_num [abs_lt]) (by norm_num) (by norm_num)
    (by norm_num [abs_le]) (by norm_num), ?_, ?_⟩
  · rintro ⟨h, -⟩; norm_num at h
  · rintro ⟨-, -, -, s, hs, hp⟩
    rw [abs_zero, C07_separatrix rs _ _ (by norm_num) (by norm_num) (by norm_num [Spec.signedX])
      (by norm_num [Spec.signedX])] at hs
    injection hs with hs
    rw [← hs] at hp
    norm_num at hp

/-! ## C10 -/

lemma sa_neg (a : ℝ) : sa (-a) = sa a := abs_neg a

lemma sx_neg {a : ℝ} (ha : a ≠ 0) (x : ℝ) : sx (-a) (-x) = sx a x := by
  unfold sx copysign1
  rcases lt_or_gt_of_ne ha with h | h
  · rw [if_neg (by linarith), if_pos h]; ring
  · rw [if_pos (by linarith), if_neg (by linarith)]; ring

/-- **C10.** Flipping the signs of spin and inclination together changes nothing: every function of
the constants and frequency API gives the same outcome (same value or same error). -/
theorem C10_sign_flip (rs : RootScalar) (a p e x : ℝ) (ha : a ≠ 0) (E L uR uT : Option ℝ)
    (cs : Option Consts) :
    energy rs (-a) p e (-x) = energy rs a p e x
      ∧ angularMomentum rs (-a) p e (-x) E = angularMomentum rs a p e x E
      ∧ carterConstant rs (-a) p e (-x) E L = carterConstant rs a p e x E L
      ∧ constantsOfMotion rs (-a) p e (-x) = constantsOfMotion rs a p e x
      ∧ rFrequency rs (-a) p e (-x) cs = rFrequency rs a p e x cs
      ∧ thetaFrequency rs (-a) p e (-x) cs = thetaFrequency rs a p e x cs
      ∧ phiFrequency rs (-a) p e (-x) cs uR uT = phiFrequency rs a p e x cs uR uT
      ∧ gamma rs (-a) p e (-x) cs uR uT = gamma rs a p e x cs uR uT
      ∧ minoFrequencies rs (-a) p e (-x) = minoFrequencies rs a p e x
      ∧ fundamentalFrequencies rs (-a) p e (-x) = fundamentalFrequencies rs a p e x := by
  simp only [energy_eq, angularMomentum_eq, carterConstant_eq, constantsOfMotion_eq, rFrequency_eq,
    thetaFrequency_eq, phiFrequency_eq, gamma_eq, minoFrequencies_eq, fundamentalFrequencies_eq,
    sa_neg, sx_neg ha, and_self]

/-- **C10 (object).** The whole `StableOrbit` object, including `initial_position` and
`initial_velocity`, is the same for `(a, x)` and `(-a, -x)`. -/
theorem C10_stable_orbit (rs : RootScalar) (a p e x : ℝ) (ha : a ≠ 0) (q : Phases)
    (M mu : Option ℝ) :
    mkStableOrbit rs (-a) p e (-x) q M mu = mkStableOrbit rs a p e x q M mu := by
  unfold mkStableOrbit
  have h : standardizeParams (-a) (-x) = standardizeParams a x := by
    rw [standardize_eq, standardize_eq, sa_neg, sx_neg ha]
  rw [h]

/-- At `a = 0` the flip is *not* an identity (the code treats `-0.0 = 0` as prograde): the orbit is
then mirrored. This is why C10 needs `a ≠ 0`. -/
example : standardizeParams (-0) (-1) ≠ standardizeParams 0 1 := by
  simp [standardizeParams, copysign1]; norm_num

/-! ## C13 -/

/-- **C13.** Passing the values that a function would compute itself gives the same outcome as
omitting them. -/
theorem C13_precomputed (rs : RootScalar) (a p e x : ℝ) :
    (∀ E, energy rs a p e x = .ok E →
      angularMomentum rs a p e x (some E) = angularMomentum rs a p e x none
      ∧ carterConstant rs a p e x (some E) none = carterConstant rs a p e x none none
      ∧ ∀ L, angularMomentum rs a p e x none = .ok L →
          carterConstant rs a p e x (some E) (some L) = carterConstant rs a p e x none none)
      ∧ (∀ cs, constantsOfMotion rs a p e x = .ok cs →
        rFrequency rs a p e x (some cs) = rFrequency rs a p e x none
        ∧ thetaFrequency rs a p e x (some cs) = thetaFrequency rs a p e x none
        ∧ phiFrequency rs a p e x (some cs) none none = phiFrequency rs a p e x none none none
        ∧ gamma rs a p e x (some cs) none none = gamma rs a p e x none none none
        ∧ (∀ uR uT, rFrequency rs a p e x none = .ok uR → thetaFrequency rs a p e x none = .ok uT →
          phiFrequency rs a p e x (some cs) (some uR) (some uT)
              = phiFrequency rs a p e x none none none
          ∧ gamma rs a p e x (some cs) (some uR) (some uT) = gamma rs a p e x none none none)) := by
  have hok : ∀ {α : Type} {g : Py Unit} {v w : α}, (g >>= fun _ => (.ok v : Py α)) = .ok w → v = w := by
    intro α g v w h
    cases g with
    | error er => rw [bind_error] at h; cases h
    | ok u => rw [bind_ok] at h; exact Except.ok.inj h
  constructor
  · intro E hE
    rw [energy_eq] at hE
    have hE' := hok hE
    subst hE'
    refine ⟨by simp only [angularMomentum_eq]; rfl, by simp only [carterConstant_eq]; rfl, ?_⟩
    intro L hL
    rw [angularMomentum_eq] at hL
    have hL' := hok hL
    subst hL'
    simp only [carterConstant_eq]; rfl
  · intro cs hcs
    rw [constantsOfMotion_eq] at hcs
    have hcs' := hok hcs
    subst hcs'
    refine ⟨by simp only [rFrequency_eq]; rfl, by simp only [thetaFrequency_eq]; rfl,
      by simp only [phiFrequency_eq]; rfl, by simp only [gamma_eq]; rfl, ?_⟩
    intro uR uT hR hT
    rw [rFrequency_eq] at hR
    rw [thetaFrequency_eq] at hT
    have hR' := hok hR
    have hT' := hok hT
    subst hR'
    subst hT'
    exact ⟨by simp only [phiFrequency_eq]; rfl, by simp only [gamma_eq]; rfl⟩

/-- **C13 (triple).** `constants_of_motion` is the triple of the three separate functions, each
called without precomputed arguments. -/
theorem C13_constants_triple (rs : RootScalar) (a p e x E L Q : ℝ) :
    constantsOfMotion rs a p e x = .ok (E, L, Q) ↔
      energy rs a p e x = .ok E ∧ angularMomentum rs a p e x none = .ok L
        ∧ carterConstant rs a p e x none none = .ok Q := by
  rw [energy_eq, angularMomentum_eq, carterConstant_eq, constantsOfMotion_eq]
  cases constantsGuard rs (sa a) p e (sx a x) with
  | error er => simp [bind_error]
  | ok u =>
    simp only [bind_ok, Except.ok.injEq, pureConsts, Prod.mk.injEq, Option.getD_none]

/-- **C13 (standardisation).** Calling any function with already standardised parameters gives the
same outcome. -/
theorem C13_standardised (rs : RootScalar) (a p e x : ℝ) :
    let a' := (standardizeParams a x).1
    let x' := (standardizeParams a x).2
    energy rs a' p e x' = energy rs a p e x
      ∧ constantsOfMotion rs a' p e x' = constantsOfMotion rs a p e x
      ∧ minoFrequencies rs a' p e x' = minoFrequencies rs a p e x
      ∧ fundamentalFrequencies rs a' p e x' = fundamentalFrequencies rs a p e x
      ∧ standardizeParams a' x' = (a', x') := by
  simp only [standardize_eq, energy_eq, constantsOfMotion_eq, minoFrequencies_eq,
    fundamentalFrequencies_eq, sa_sa, sx_sa, and_self]

end KGP
