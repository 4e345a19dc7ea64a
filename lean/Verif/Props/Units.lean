import Verif.Model.Orbit
import Mathlib.Tactic.Linarith
import Mathlib.Tactic.FieldSimp
import Mathlib.Tactic.Positivity
import Mathlib.Tactic.NormNum

/-! # C25, C26, C27, C28: physical units -/

namespace KGP

open KGP.Units

lemma c_pos : 0 < Units.c := by norm_num [Units.c]
lemma G_pos : 0 < Units.G := by norm_num [Units.G]
lemma solarMass_pos : 0 < solarMass := by norm_num [solarMass]

/-! ## C27 -/

/-- What it means for a conversion `f(quantity, M)` to be linear in the quantity and to scale with
the `k`-th power of the mass. -/
structure Homogeneous (f : ℝ → ℝ → ℝ) (k : ℤ) : Prop where
  add : ∀ x y M, f (x + y) M = f x M + f y M
  smul : ∀ s x M, f (s * x) M = s * f x M
  mass : ∀ s x M, s ≠ 0 → f x (s * M) = s ^ k * f x M

/-- **C27** every conversion is linear in the quantity and scales with the right power of `M`. -/
theorem C27_homogeneous :
    Homogeneous distanceInMeters 1 ∧ Homogeneous distanceInCm 1 ∧ Homogeneous distanceInKm 1 ∧
    Homogeneous distanceInLightyears 1 ∧ Homogeneous distanceInAu 1 ∧
    Homogeneous timeInSeconds 1 ∧ Homogeneous timeInDays 1 ∧ Homogeneous time2InSeconds2 2 ∧
    Homogeneous energyInJoules 1 ∧ Homogeneous energyInErgs 1 ∧
    Homogeneous angularMomentumInMks 2 ∧ Homogeneous angularMomentumInCgs 2 ∧
    Homogeneous carterConstantInMks 4 ∧ Homogeneous carterConstantInCgs 4 ∧
    Homogeneous frequencyInHz (-1) ∧ Homogeneous frequencyInMHz (-1) := by
  refine ⟨?_, ?_, ?_, ?_, ?_, ?_, ?_, ?_, ?_, ?_, ?_, ?_, ?_, ?_, ?_, ?_⟩ <;>
  · refine ⟨fun x y M => ?_, fun s x M => ?_, fun s x M hs => ?_⟩ <;>
    simp only [distanceInMeters, distanceInCm, distanceInKm, distanceInLightyears, distanceInAu,
      timeInSeconds, timeInDays, time2InSeconds2, energyInJoules, energyInErgs,
      angularMomentumInMks, angularMomentumInCgs, carterConstantInMks, carterConstantInCgs,
      frequencyInHz, frequencyInMHz, massInKg, zpow_neg, zpow_ofNat, pow_one] <;>
    (try field_simp)

/-- **C27** the physical content: one unit of distance is `G m / c²` metres, one unit of time
`G m / c³` seconds, energies are `m c²`, angular momenta `G m² / c`, Carter constants its square
(so with mass⁴), frequencies are in units of `c³/(G m)`, where `m = M` solar masses in kilograms. -/
theorem C27_definition (x M : ℝ) :
    let m := M * 1.98847e30
    let G := (6.67408e-11 : ℝ)
    let c := (299792458 : ℝ)
    distanceInMeters x M = x * (G * m / c ^ 2) ∧
    timeInSeconds x M = x * (G * m / c ^ 3) ∧
    energyInJoules x M = x * (m * c ^ 2) ∧
    angularMomentumInMks x M = x * (G * m ^ 2 / c) ∧
    carterConstantInMks x M = x * (G * m ^ 2 / c) ^ 2 ∧
    time2InSeconds2 x M = x * (G * m / c ^ 3) ^ 2 ∧
    frequencyInHz x M = x / (G * m / c ^ 3) := by
  refine ⟨?_, ?_, ?_, ?_, ?_, ?_, ?_⟩ <;>
  simp only [distanceInMeters, timeInSeconds, energyInJoules, angularMomentumInMks,
    carterConstantInMks, time2InSeconds2, frequencyInHz, massInKg, solarMass, Units.G, Units.c] <;>
  (try field_simp)

/-- **C27** the derived units. -/
theorem C27_ratios (x M : ℝ) :
    distanceInCm x M = 100 * distanceInMeters x M ∧
    1000 * distanceInKm x M = distanceInMeters x M ∧
    86400 * timeInDays x M = timeInSeconds x M ∧
    energyInErgs x M = 10 ^ 7 * energyInJoules x M ∧
    angularMomentumInCgs x M = 10 ^ 7 * angularMomentumInMks x M ∧
    carterConstantInCgs x M = 10 ^ 14 * carterConstantInMks x M ∧
    frequencyInMHz x M = 1000 * frequencyInHz x M ∧
    149600000000 * distanceInAu x M = distanceInMeters x M ∧
    9461000000000000 * distanceInLightyears x M = distanceInMeters x M := by
  refine ⟨?_, ?_, ?_, ?_, ?_, ?_, ?_, ?_, ?_⟩ <;>
  simp only [distanceInCm, distanceInKm, timeInDays, energyInErgs, angularMomentumInCgs,
    carterConstantInCgs, frequencyInMHz, distanceInAu, distanceInLightyears] <;> norm_num <;> ring

/-- **C27** light travels one unit of distance in one unit of time; frequency × time and
`time² / (time·time)` are dimensionless. -/
theorem C27_consistent (x y M : ℝ) (hM : M ≠ 0) :
    distanceInMeters x M = 299792458 * timeInSeconds x M ∧
    frequencyInHz x M * timeInSeconds y M = x * y ∧
    time2InSeconds2 (x * y) M = timeInSeconds x M * timeInSeconds y M := by
  have h1 := c_pos.ne'
  have h2 := G_pos.ne'
  have h3 := solarMass_pos.ne'
  have hc : (299792458 : ℝ) = Units.c := rfl
  refine ⟨?_, ?_, ?_⟩ <;>
  simp only [distanceInMeters, timeInSeconds, frequencyInHz, time2InSeconds2, massInKg, hc] <;>
  field_simp

/-! ## C26 -/

/-- **C26** (holds) the energy returned by `Orbit.constants_of_motion("mks")` is `E μ c²` and the
`"cgs"` one the same in erg, with `μ` in kilograms. -/
theorem C26_energy (o : OrbitObj) (M mu : ℝ) (hM : o.M = some M) (hmu : o.mu = some mu)
    (hM0 : M ≠ 0) :
    ∃ E L Q E' L' Q', o.constantsOfMotion "mks" = .ok (E, L, Q) ∧
      o.constantsOfMotion "cgs" = .ok (E', L', Q') ∧
      E = o.consts.1 * massInKg mu * Units.c ^ 2 ∧
      E' = 10 ^ 7 * E ∧ L' = 10 ^ 7 * L ∧ Q' = 10 ^ 14 * Q := by
  simp only [OrbitObj.constantsOfMotion, hM, hmu]
  refine ⟨_, _, _, _, _, _, by simp; exact ⟨rfl, rfl, rfl⟩, by simp; exact ⟨rfl, rfl, rfl⟩, ?_⟩
  refine ⟨?_, ?_, ?_, ?_⟩
  · simp only [scaleConstants, energyInJoules, massInKg]; field_simp
  all_goals
    simp only [energyInErgs, angularMomentumInCgs, carterConstantInCgs]; norm_num; ring

/-- **C26** (violated) the angular momentum and the Carter constant returned by
`Orbit.constants_of_motion("mks")` are *not* the physical ones `L · G μ M / c` and
`Q · (G μ M / c)²` with masses in kilograms: they carry an extra factor of one solar mass in
kilograms, respectively its square (constants.py:745-746 is called with `M = 1`, which multiplies by
`solar_mass`, and orbit.py:253-254 then converts an already mass-scaled number). -/
theorem C26_extra_solar_mass (o : OrbitObj) (M mu : ℝ) (hM : o.M = some M) (hmu : o.mu = some mu)
    (hM0 : M ≠ 0) :
    ∃ E L Q, o.constantsOfMotion "mks" = .ok (E, L, Q) ∧
      L = solarMass * (o.consts.2.1 * (Units.G * massInKg mu * massInKg M / Units.c)) ∧
      Q = solarMass ^ 2 * (o.consts.2.2 * (Units.G * massInKg mu * massInKg M / Units.c) ^ 2) := by
  have h1 := c_pos.ne'
  simp only [OrbitObj.constantsOfMotion, hM, hmu]
  refine ⟨_, _, _, by simp; exact ⟨rfl, rfl, rfl⟩, ?_, ?_⟩
  · simp only [scaleConstants, angularMomentumInMks, massInKg, one_mul]; field_simp
  · simp only [scaleConstants, carterConstantInMks, massInKg, one_mul]; field_simp

/-- **C26** (violated, as a negation) for every orbit with `L ≠ 0` and non-zero masses the returned
`L` differs from the physical one. -/
theorem C26_violated (o : OrbitObj) (M mu : ℝ) (hM : o.M = some M) (hmu : o.mu = some mu)
    (hM0 : M ≠ 0) (hmu0 : mu ≠ 0) (hL : o.consts.2.1 ≠ 0) :
    ¬ ∃ E Q, o.constantsOfMotion "mks" = .ok
      (E, o.consts.2.1 * (Units.G * massInKg mu * massInKg M / Units.c), Q) := by
  rintro ⟨E, Q, h⟩
  obtain ⟨E', L', Q', h', hL', -⟩ := C26_extra_solar_mass o M mu hM hmu hM0
  rw [h] at h'
  simp only [Except.ok.injEq, Prod.mk.injEq] at h'
  rw [← h'.2.1] at hL'
  have hpos : o.consts.2.1 * (Units.G * massInKg mu * massInKg M / Units.c) ≠ 0 := by
    have := c_pos.ne'; have := G_pos.ne'; have := solarMass_pos.ne'
    simp only [massInKg]; positivity
  have : (1 : ℝ) = solarMass := by
    apply mul_right_cancel₀ hpos; rw [one_mul]; exact hL'
  norm_num [solarMass] at this

/-! ## C25 (the unit part) -/

/-- **C25** the Boyer–Lindquist frequencies are the Mino frequencies divided by `Γ`, in natural
units and also after conversion: the converted values still satisfy `Ω = Υ/Γ`; `mHz` is 1000 `Hz`. -/
theorem C25_units (o : OrbitObj) (M : ℝ) (hM : o.M = some M) (hM0 : M ≠ 0) (units : String)
    (hu : units = "mks" ∨ units = "cgs") :
    ∃ m mp om omp omm,
      o.minoFrequencies "natural" = .ok m ∧ o.minoFrequencies units = .ok mp ∧
      o.fundamentalFrequencies "natural" = .ok om ∧ o.fundamentalFrequencies units = .ok omp ∧
      o.fundamentalFrequencies "mHz" = .ok omm ∧
      om = (m.upsilonR / m.gamma, m.upsilonTheta / m.gamma, m.upsilonPhi / m.gamma) ∧
      omp = (mp.upsilonR / mp.gamma, mp.upsilonTheta / mp.gamma, mp.upsilonPhi / mp.gamma) ∧
      omm = (1000 * omp.1, 1000 * omp.2.1, 1000 * omp.2.2) ∧
      omp = (frequencyInHz om.1 M, frequencyInHz om.2.1 M, frequencyInHz om.2.2 M) := by
  have h1 := c_pos.ne'
  have h2 := G_pos.ne'
  have h3 := solarMass_pos.ne'
  have hnat : units ≠ "natural" := by rcases hu with rfl | rfl <;> decide
  simp only [OrbitObj.minoFrequencies, OrbitObj.fundamentalFrequencies, hM, if_pos hu, if_neg hnat,
    if_true]
  refine ⟨_, _, _, _, (frequencyInMHz (o.upsilonR / o.gamma) M,
    frequencyInMHz (o.upsilonTheta / o.gamma) M, frequencyInMHz (o.upsilonPhi / o.gamma) M),
    rfl, rfl, rfl, rfl, ?_, rfl, ?_, ?_, rfl⟩
  · simp
  · have key : ∀ x : ℝ, frequencyInHz (x / o.gamma) M
        = timeInSeconds x M / time2InSeconds2 o.gamma M := by
      intro x
      simp only [frequencyInHz, timeInSeconds, time2InSeconds2, massInKg]
      by_cases hg : o.gamma = 0
      · simp [hg]
      · field_simp
    simp only [key]
  · simp only [frequencyInMHz]; norm_num; refine ⟨?_, ?_, ?_⟩ <;> ring

/-! ## C28 -/

/-- **C28** requesting physical units without the masses raises `ValueError` at once, for every
unit string other than `"natural"`, in the trajectory function of stable orbits and in the
frequency and constants methods. -/
theorem C28_missing_mass (rs : RootScalar) (o : OrbitObj) (hM : o.M = none) (q : Option Phases)
    (du tu : String) (h : du ≠ "natural" ∨ tu ≠ "natural") (hst : o.stable = true) :
    (o.trajectory rs q du tu).IsValueError ∧
    (∀ u, u ≠ "natural" → (o.minoFrequencies u).IsValueError ∧
      (o.fundamentalFrequencies u).IsValueError ∧ (o.constantsOfMotion u).IsValueError) := by
  refine ⟨⟨"M must be specified to convert to physical units", ?_⟩, fun u hu => ⟨?_, ?_, ?_⟩⟩
  · simp only [OrbitObj.trajectory, hst, if_true, stableTrajectory, unitsGuard, hM, raiseIf]
    rw [if_pos ⟨h, trivial⟩]
    rfl
  · simp only [Py.IsValueError, OrbitObj.minoFrequencies, hM, if_neg hu]; exact ⟨_, rfl⟩
  · simp only [Py.IsValueError, OrbitObj.fundamentalFrequencies, hM, if_neg hu]; exact ⟨_, rfl⟩
  · simp only [Py.IsValueError, OrbitObj.constantsOfMotion, hM, if_neg hu]; exact ⟨_, rfl⟩

/-- **C28** the same for plunging orbits: the guard fires whenever the radial roots exist. -/
theorem C28_missing_mass_plunge (rs : RootScalar) (o : OrbitObj) (hM : o.M = none)
    (q : Option Phases) (du tu : String) (h : du ≠ "natural" ∨ tu ≠ "natural")
    (hst : o.stable = false) (pr : PlungeRoots)
    (hpr : plungingRadialRoots o.a o.consts.1 o.consts.2.1 o.consts.2.2 = .ok pr) :
    (o.trajectory rs q du tu).IsValueError := by
  refine ⟨"M must be specified to convert to physical units", ?_⟩
  simp only [OrbitObj.trajectory, hst, plungingTrajectory, hpr, unitsGuard, hM, raiseIf,
    Bool.false_eq_true, if_false]
  rw [if_pos ⟨h, trivial⟩]
  rfl

/-- **C28** with natural units the masses are never needed: the result of every method is the same
whatever `M` and `mu` are. -/
theorem C28_natural_needs_no_mass (rs : RootScalar) (o : OrbitObj) (M mu : Option ℝ)
    (q : Option Phases) :
    ({ o with M := M, mu := mu } : OrbitObj).trajectory rs q = o.trajectory rs q ∧
    ({ o with M := M, mu := mu } : OrbitObj).minoFrequencies = o.minoFrequencies ∧
    ({ o with M := M, mu := mu } : OrbitObj).fundamentalFrequencies = o.fundamentalFrequencies ∧
    ({ o with M := M, mu := mu } : OrbitObj).constantsOfMotion = o.constantsOfMotion := by
  refine ⟨?_, rfl, rfl, rfl⟩
  simp [OrbitObj.trajectory, stableTrajectory, plungingTrajectory, unitsGuard, Traj.withUnits,
    convTime, convDistance]

/-- **C28** an unknown unit makes the frequency and constants methods raise `ValueError`. -/
theorem C28_unknown_unit (o : OrbitObj) (u : String) (h1 : u ≠ "natural") (h2 : u ≠ "mks")
    (h3 : u ≠ "cgs") :
    (o.minoFrequencies u).IsValueError ∧ (o.constantsOfMotion u).IsValueError ∧
    (u ≠ "mHz" → (o.fundamentalFrequencies u).IsValueError) := by
  refine ⟨?_, ?_, fun h4 => ?_⟩
  · rcases hM : o.M with _ | M
    · simp only [Py.IsValueError, OrbitObj.minoFrequencies, hM, if_neg h1]; exact ⟨_, rfl⟩
    · simp only [Py.IsValueError, OrbitObj.minoFrequencies, hM, if_neg h1, h2, h3, or_self, if_false]; exact ⟨_, rfl⟩
  · rcases hM : o.M with _ | M
    · simp only [Py.IsValueError, OrbitObj.constantsOfMotion, hM, if_neg h1]; exact ⟨_, rfl⟩
    · rcases hmu : o.mu with _ | mu
      · simp only [Py.IsValueError, OrbitObj.constantsOfMotion, hM, hmu, if_neg h1]; exact ⟨_, rfl⟩
      · simp only [Py.IsValueError, OrbitObj.constantsOfMotion, hM, hmu, if_neg h1, if_neg h2,
          if_neg h3]; exact ⟨_, rfl⟩
  · rcases hM : o.M with _ | M
    · simp only [Py.IsValueError, OrbitObj.fundamentalFrequencies, hM, if_neg h1]; exact ⟨_, rfl⟩
    · simp only [Py.IsValueError, OrbitObj.fundamentalFrequencies, hM, if_neg h1, h2, h3, h4, or_self,
        if_false]; exact ⟨_, rfl⟩

/-- **C28** in the trajectory functions an unknown unit (with `M` given) does not raise when the
trajectory is built; it is only detected (`KeyError`) when the affected component is evaluated, and
the other components are those of the natural-units trajectory. -/
theorem C28_lazy_key_error (rs : RootScalar) (o : OrbitObj) (M : ℝ) (hM : o.M = some M)
    (q : Option Phases) (du tu : String) (T : Traj) (hst : o.stable = true)
    (hT : o.trajectoryNat rs q = .ok T) :
    ∃ P : TrajPy, o.trajectory rs q du tu = .ok P ∧ P.theta = T.theta ∧ P.phi = T.phi ∧
      (du ∉ ["natural", "mks", "cgs", "au", "km"] → ∀ lam, P.r lam = .error (.keyError du)) ∧
      (tu ∉ ["natural", "mks", "cgs", "days"] → ∀ lam, P.t lam = .error (.keyError tu)) ∧
      (du = "natural" → ∀ lam, P.r lam = .ok (T.r lam)) ∧
      (tu = "natural" → ∀ lam, P.t lam = .ok (T.t lam)) ∧
      (du = "mks" → ∀ lam, P.r lam = .ok (distanceInMeters (T.r lam) M)) ∧
      (du = "cgs" → ∀ lam, P.r lam = .ok (distanceInCm (T.r lam) M)) ∧
      (du = "au" → ∀ lam, P.r lam = .ok (distanceInAu (T.r lam) M)) ∧
      (du = "km" → ∀ lam, P.r lam = .ok (distanceInKm (T.r lam) M)) ∧
      (tu = "mks" ∨ tu = "cgs" → ∀ lam, P.t lam = .ok (timeInSeconds (T.t lam) M)) ∧
      (tu = "days" → ∀ lam, P.t lam = .ok (timeInDays (T.t lam) M)) := by
  refine ⟨T.withUnits (some M) du tu, ?_, rfl, rfl, ?_, ?_, ?_, ?_, ?_, ?_, ?_, ?_, ?_, ?_⟩
  · simp only [OrbitObj.trajectoryNat, hst, if_true] at hT
    simp only [OrbitObj.trajectory, hst, if_true, stableTrajectory, unitsGuard, raiseIf, hM]
    rw [if_neg (by simp)]
    show (stableTrajectoryNat _ _ _ _ _ _ >>= _) = _
    rw [hT]
    rfl
  · intro h lam
    simp only [List.mem_cons, List.not_mem_nil, or_false, not_or] at h
    simp [Traj.withUnits, convDistance, h]
  · intro h lam
    simp only [List.mem_cons, List.not_mem_nil, or_false, not_or] at h
    simp [Traj.withUnits, convTime, h]
  · rintro rfl lam; simp [Traj.withUnits, convDistance]
  · rintro rfl lam; simp [Traj.withUnits, convTime]
  · rintro rfl lam; simp [Traj.withUnits, convDistance, withM]
  · rintro rfl lam; simp [Traj.withUnits, convDistance, withM]
  · rintro rfl lam; simp [Traj.withUnits, convDistance, withM]
  · rintro rfl lam; simp [Traj.withUnits, convDistance, withM]
  · rintro (rfl | rfl) lam <;> simp [Traj.withUnits, convTime, withM]
  · rintro rfl lam; simp [Traj.withUnits, convTime, withM]

end KGP
