import Verif.Model.Orbit
import Mathlib.Tactic.Linarith
import Mathlib.Tactic.FieldSimp

/-! # Every API function is a guard followed by a pure formula -/

namespace KGP

open Classical Real

lemma copysign1_abs (a : ℝ) : copysign1 |a| = 1 := by
  simp [copysign1, not_lt.mpr (abs_nonneg a)]

lemma standardize_abs (a x : ℝ) : standardizeParams |a| x = (|a|, x) := by
  simp [standardizeParams, copysign1_abs]

lemma standardize_of_nonneg {a : ℝ} (ha : 0 ≤ a) (x : ℝ) : standardizeParams a x = (a, x) := by
  have := standardize_abs a x
  rwa [abs_of_nonneg ha] at this

/-- the standardised spin and inclination -/
noncomputable def sa (a : ℝ) : ℝ := |a|
noncomputable def sx (a x : ℝ) : ℝ := x * copysign1 a

lemma standardize_eq (a x : ℝ) : standardizeParams a x = (sa a, sx a x) := rfl

lemma standardize_idem (a x : ℝ) : standardizeParams (sa a) (sx a x) = (sa a, sx a x) :=
  standardize_abs _ _

lemma sa_sa (a : ℝ) : sa (sa a) = sa a := abs_abs a
lemma sx_sa (a x : ℝ) : sx (sa a) x = x := by simp [sx, sa, copysign1_abs]

lemma bind_ok {α β : Type} (v : α) (f : α → Py β) : ((Except.ok v : Py α) >>= f) = f v := rfl
lemma bind_error {α β : Type} (e : PyErr) (f : α → Py β) :
    ((Except.error e : Py α) >>= f) = .error e := rfl

/-- `energy`, `angular_momentum`, `carter_constant` after the guards. -/
noncomputable def pureConsts (a p e x : ℝ) : Consts :=
  let E := energyFormula a p e x
  let L := angularMomentumFormula a p e x E
  (E, L, if x = 0 then carterPolarFormula a p e else carterFormula a x E L)

lemma guard_bind_self {α : Type} (g : Py Unit) (f : Py α) :
    (g >>= fun _ => g >>= fun _ => f) = (g >>= fun _ => f) := by
  cases g <;> rfl

lemma guard_bind_congr {α : Type} (g : Py Unit) (f f' : Py α) (h : g = .ok () → f = f') :
    (g >>= fun _ => f) = (g >>= fun _ => f') := by
  cases g with
  | error e => rfl
  | ok u => exact h rfl

lemma energy_eq (rs : RootScalar) (a p e x : ℝ) : energy rs a p e x =
    (constantsGuard rs (sa a) p e (sx a x) >>= fun _ =>
      .ok (energyFormula (sa a) p e (sx a x))) := rfl

lemma energy_std (rs : RootScalar) (a p e x : ℝ) :
    energy rs (sa a) p e (sx a x) = energy rs a p e x := by
  rw [energy_eq, energy_eq, sa_sa, sx_sa]

lemma angularMomentum_eq (rs : RootScalar) (a p e x : ℝ) (E : Option ℝ) :
    angularMomentum rs a p e x E =
    (constantsGuard rs (sa a) p e (sx a x) >>= fun _ =>
      .ok (angularMomentumFormula (sa a) p e (sx a x)
        (E.getD (energyFormula (sa a) p e (sx a x))))) := by
  unfold angularMomentum
  rw [standardize_eq]
  apply guard_bind_congr
  intro h
  cases E with
  | some E => rfl
  | none =>
    simp only [energy_eq, sa_sa, sx_sa, h, bind_ok]
    rfl

lemma angularMomentum_std (rs : RootScalar) (a p e x : ℝ) (E : Option ℝ) :
    angularMomentum rs (sa a) p e (sx a x) E = angularMomentum rs a p e x E := by
  rw [angularMomentum_eq, angularMomentum_eq, sa_sa, sx_sa]

lemma carterConstant_eq (rs : RootScalar) (a p e x : ℝ) (E L : Option ℝ) :
    carterConstant rs a p e x E L =
    (constantsGuard rs (sa a) p e (sx a x) >>= fun _ =>
      .ok (if sx a x = 0 then carterPolarFormula (sa a) p e else
        carterFormula (sa a) (sx a x) (E.getD (energyFormula (sa a) p e (sx a x)))
          (L.getD (angularMomentumFormula (sa a) p e (sx a x)
            (E.getD (energyFormula (sa a) p e (sx a x))))))) := by
  unfold carterConstant
  rw [standardize_eq]
  apply guard_bind_congr
  intro h
  by_cases hx : sx a x = 0
  · simp only [hx, if_true]; rfl
  · simp only [hx, if_false]
    cases E <;> cases L <;>
    simp only [energy_eq, angularMomentum_eq, sa_sa, sx_sa, h, bind_ok] <;> rfl

lemma constantsOfMotion_eq (rs : RootScalar) (a p e x : ℝ) : constantsOfMotion rs a p e x =
    (constantsGuard rs (sa a) p e (sx a x) >>= fun _ => .ok (pureConsts (sa a) p e (sx a x))) := by
  unfold constantsOfMotion
  simp only [energy_eq, angularMomentum_eq, carterConstant_eq]
  cases constantsGuard rs (sa a) p e (sx a x) <;> rfl

lemma constantsOfMotion_std (rs : RootScalar) (a p e x : ℝ) :
    constantsOfMotion rs (sa a) p e (sx a x) = constantsOfMotion rs a p e x := by
  rw [constantsOfMotion_eq, constantsOfMotion_eq, sa_sa, sx_sa]

/-! ### guards -/

lemma raiseIf_ok_iff {c : Prop} {e : PyErr} : raiseIf c e = .ok () ↔ ¬ c := by
  unfold raiseIf; split_ifs with h <;> simp [h]

lemma raiseIf_bind_ok_iff {c : Prop} {e : PyErr} {β : Type} {f : Py β} {v : β} :
    (raiseIf c e >>= fun _ => f) = .ok v ↔ ¬ c ∧ f = .ok v := by
  unfold raiseIf; split_ifs with h
  · simp [h, bind_error]
  · simp [h, bind_ok]

lemma isStable_eq (rs : RootScalar) (a p e x : ℝ) : isStable rs a p e x =
    (separatrix rs a e x >>= fun s => .ok (decide (p > s))) := by
  unfold isStable
  congr 1
  funext s
  by_cases h : p > s <;> simp [h] <;> rfl

lemma constantsGuard_ok_iff (rs : RootScalar) (a p e x : ℝ) :
    constantsGuard rs a p e x = .ok () ↔
      a ≠ 1 ∧ validParams a e x ∧ ∃ s, separatrix rs a e x = .ok s ∧ s < p := by
  unfold constantsGuard
  rw [raiseIf_bind_ok_iff, raiseIf_bind_ok_iff, isStable_eq, not_not]
  refine and_congr Iff.rfl (and_congr Iff.rfl ?_)
  cases separatrix rs a e x with
  | error e => simp [bind_error]
  | ok s => simp [bind_ok, raiseIf_ok_iff]

lemma frequencyGuard_ok_iff (rs : RootScalar) (a p e x : ℝ) :
    frequencyGuard rs a p e x = .ok () ↔
      constantsGuard rs a p e x = .ok () ∧ x ≠ 0 ∧ e ≠ 1 := by
  rw [constantsGuard_ok_iff]
  unfold frequencyGuard
  rw [raiseIf_bind_ok_iff, raiseIf_bind_ok_iff, raiseIf_bind_ok_iff, raiseIf_bind_ok_iff,
    isStable_eq, not_not]
  cases separatrix rs a e x with
  | error e => simp [bind_error]
  | ok s => simp [bind_ok, raiseIf_ok_iff]; tauto

lemma constantsOr_std (rs : RootScalar) (a p e x : ℝ) (cs : Option Consts)
    (h : constantsGuard rs (sa a) p e (sx a x) = .ok ()) :
    constantsOr rs (sa a) p e (sx a x) cs = .ok (cs.getD (pureConsts (sa a) p e (sx a x))) := by
  cases cs with
  | some cs => rfl
  | none =>
    simp only [constantsOr, constantsOfMotion_eq, sa_sa, sx_sa, h, bind_ok]
    rfl

lemma guard_bind_guard {α : Type} (g g' : Py Unit) (f : Py α) (h : g = .ok () → g' = .ok ()) :
    (g >>= fun _ => g' >>= fun _ => f) = (g >>= fun _ => f) := by
  apply guard_bind_congr
  intro hg
  rw [h hg]; rfl

lemma rFrequency_eq (rs : RootScalar) (a p e x : ℝ) (cs : Option Consts) :
    rFrequency rs a p e x cs = (frequencyGuard rs (sa a) p e (sx a x) >>= fun _ =>
      .ok (rFrequencyCore (cs.getD (pureConsts (sa a) p e (sx a x))).1
        (stableRadialRootsCore (sa a) p e (cs.getD (pureConsts (sa a) p e (sx a x)))))) := by
  unfold rFrequency
  rw [standardize_eq]
  apply guard_bind_congr
  intro h
  have hc := ((frequencyGuard_ok_iff _ _ _ _ _).mp h).1
  simp only [constantsOr_std rs a p e x cs hc, bind_ok]
  rfl

/-- `theta_frequency` after the guards, for known constants. -/
noncomputable def pureTheta (a p e x : ℝ) (cs : Consts) : ℝ :=
  if a = 0 then p / √(-3 - e ^ 2 + p) * (if e = 0 then Real.sign x else 1)
  else thetaFrequencyCore a cs.1 cs.2.1 (stablePolarRootsCore a x cs).1
    (stablePolarRootsCore a x cs).2

/-- `phi_frequency` after the guards. -/
noncomputable def purePhi (a p e x : ℝ) (cs : Consts) (uR uTheta : ℝ) : ℝ :=
  if a = 0 then Real.sign x * p / √(-3 - e ^ 2 + p)
  else phiFrequencyCore a cs (stableRadialRootsCore a p e cs) (stablePolarRootsCore a x cs)
    uR uTheta

/-- `gamma` after the guards (for `e ≠ 1`). -/
noncomputable def pureGamma (a p e x : ℝ) (cs : Consts) (uR uTheta : ℝ) : ℝ :=
  gammaCore a cs (stableRadialRootsCore a p e cs) (stablePolarRootsCore a x cs) uR uTheta

/-- `r_frequency` after the guards. -/
noncomputable def pureR (a p e : ℝ) (cs : Consts) : ℝ :=
  rFrequencyCore cs.1 (stableRadialRootsCore a p e cs)

lemma thetaFrequency_eq (rs : RootScalar) (a p e x : ℝ) (cs : Option Consts) :
    thetaFrequency rs a p e x cs = (frequencyGuard rs (sa a) p e (sx a x) >>= fun _ =>
      .ok (pureTheta (sa a) p e (sx a x) (cs.getD (pureConsts (sa a) p e (sx a x))))) := by
  unfold thetaFrequency
  rw [standardize_eq]
  apply guard_bind_congr
  intro h
  have hc := ((frequencyGuard_ok_iff _ _ _ _ _).mp h).1
  by_cases h0 : sa a = 0
  · simp only [pureTheta, if_pos h0]; rfl
  · simp only [pureTheta, if_neg h0, constantsOr_std rs a p e x cs hc, bind_ok]
    rfl

lemma phiFrequency_eq (rs : RootScalar) (a p e x : ℝ) (cs : Option Consts) (uR uT : Option ℝ) :
    phiFrequency rs a p e x cs uR uT = (frequencyGuard rs (sa a) p e (sx a x) >>= fun _ =>
      let cs' := cs.getD (pureConsts (sa a) p e (sx a x))
      .ok (purePhi (sa a) p e (sx a x) cs' (uR.getD (pureR (sa a) p e cs'))
        (uT.getD (pureTheta (sa a) p e (sx a x) cs')))) := by
  unfold phiFrequency
  rw [standardize_eq]
  apply guard_bind_congr
  intro h
  have hc := ((frequencyGuard_ok_iff _ _ _ _ _).mp h).1
  by_cases h0 : sa a = 0
  · simp only [purePhi, if_pos h0]; rfl
  · simp only [purePhi, if_neg h0, constantsOr_std rs a p e x cs hc, bind_ok]
    cases uR <;> cases uT <;>
    simp only [rFrequency_eq, thetaFrequency_eq, sa_sa, sx_sa, h, bind_ok, stableRadialRoots,
      stablePolarRoots, constantsOr] <;> rfl

lemma gamma_eq (rs : RootScalar) (a p e x : ℝ) (cs : Option Consts) (uR uT : Option ℝ) :
    gamma rs a p e x cs uR uT = (frequencyGuard rs (sa a) p e (sx a x) >>= fun _ =>
      let cs' := cs.getD (pureConsts (sa a) p e (sx a x))
      .ok (pureGamma (sa a) p e (sx a x) cs' (uR.getD (pureR (sa a) p e cs'))
        (uT.getD (pureTheta (sa a) p e (sx a x) cs')))) := by
  unfold gamma
  rw [standardize_eq]
  apply guard_bind_congr
  intro h
  have hc := ((frequencyGuard_ok_iff _ _ _ _ _).mp h).1
  have he := ((frequencyGuard_ok_iff _ _ _ _ _).mp h).2.2
  simp only [if_neg he, constantsOr_std rs a p e x cs hc, bind_ok]
  cases uR <;> cases uT <;>
  simp only [rFrequency_eq, thetaFrequency_eq, sa_sa, sx_sa, h, bind_ok, stableRadialRoots,
      stablePolarRoots, constantsOr] <;> rfl

/-- All Mino frequencies after the guards. -/
noncomputable def pureMino (a p e x : ℝ) : MinoFreqs :=
  let cs := pureConsts a p e x
  let uR := pureR a p e cs
  let uT := pureTheta a p e x cs
  ⟨uR, |uT|, purePhi a p e x cs uR uT, pureGamma a p e x cs uR uT⟩

/-- The guards of `mino_frequencies` and `fundamental_frequencies`: first those of the constants,
then those of the frequencies. -/
noncomputable def minoGuard (rs : RootScalar) (a p e x : ℝ) : Py Unit := do
  constantsGuard rs a p e x
  frequencyGuard rs a p e x

lemma minoGuard_ok_iff (rs : RootScalar) (a p e x : ℝ) :
    minoGuard rs a p e x = .ok () ↔ frequencyGuard rs a p e x = .ok () := by
  unfold minoGuard
  rw [frequencyGuard_ok_iff]
  cases h : constantsGuard rs a p e x with
  | error e => simp [bind_error]
  | ok u =>
    rw [bind_ok, frequencyGuard_ok_iff, h]

lemma minoFrequencies_eq (rs : RootScalar) (a p e x : ℝ) : minoFrequencies rs a p e x =
    (minoGuard rs (sa a) p e (sx a x) >>= fun _ => .ok (pureMino (sa a) p e (sx a x))) := by
  unfold minoFrequencies minoGuard
  simp only [constantsOfMotion_eq, rFrequency_eq, thetaFrequency_eq, phiFrequency_eq, gamma_eq]
  cases constantsGuard rs (sa a) p e (sx a x) <;>
  cases frequencyGuard rs (sa a) p e (sx a x) <;> rfl

lemma fundamentalFrequencies_eq (rs : RootScalar) (a p e x : ℝ) :
    fundamentalFrequencies rs a p e x =
    (minoGuard rs (sa a) p e (sx a x) >>= fun _ =>
      let m := pureMino (sa a) p e (sx a x)
      .ok (m.upsilonR / m.gamma, m.upsilonTheta / m.gamma, m.upsilonPhi / m.gamma)) := by
  unfold fundamentalFrequencies minoGuard
  simp only [constantsOfMotion_eq, rFrequency_eq, thetaFrequency_eq, phiFrequency_eq, gamma_eq]
  cases constantsGuard rs (sa a) p e (sx a x) <;>
  cases frequencyGuard rs (sa a) p e (sx a x) <;> rfl

end KGP
