import Verif.Props.Periapsis
import Verif.Props.Unbound

/-!
# C79, C80 for orbits given by initial data

An `Orbit` constructed from an arbitrary position and velocity and marked stable obeys the same sharp bounds.
-/

namespace KGP

open Classical Real

variable {rs : RootScalar} {a : ℝ} {pos vel : Vec4} {M mu : Option ℝ} {o : OrbitObj} {E L Q p e x : ℝ}

/-- **C79 (initial data).** Whatever position and velocity `Orbit` was given: if it is marked stable, its energy lies strictly
between that of the innermost stable circular orbit and `1`. -/
theorem C79_initial_data (ha : 0 < a) (ho : mkOrbit rs a pos vel M mu = .ok o)
    (hst : o.stable = true) (hcs : o.consts = (E, L, Q)) (hap : o.apex = (p, e, x))
    (hsin : sin pos.theta ≠ 0) (hE : 0 < E) (hp : 0 < x → p ≤ 4 → Spec.DivisorsNonzero a p e x) :
    ∃ s, separatrix rs a 0 1 = .ok s ∧ √(1 - 2 / (3 * s)) < E ∧ E < 1 ∧ 1 / √3 < E := by
  obtain ⟨hb, -, he1, -, -, -, hc⟩ := C75_parameters ha ho hst hcs hap hsin hE hp
  have hm : E ∈ Spec.BoundEnergies rs a := by
    refine ⟨p, e, x, L, Q, hb, lt_of_le_of_ne hb.2.1.2 he1, ?_, hc⟩
    unfold Spec.signedX
    rw [if_neg (not_lt.mpr ha.le)]
    exact hp
  obtain ⟨s, hs, -, -, h, -⟩ := C79_energy_bounds rs a hb.1
  rw [abs_of_pos ha] at hs
  exact ⟨s, hs, (h E hm).1, (h E hm).2, (C79_efficiency rs).1 a E hb.1 hm⟩

/-- **C80 (initial data).** Its trajectory, for all initial phases, never comes to the marginally bound radius. -/
theorem C80_initial_data (ha : 0 < a) (ho : mkOrbit rs a pos vel M mu = .ok o)
    (hst : o.stable = true) (hcs : o.consts = (E, L, Q)) (hap : o.apex = (p, e, x))
    (hsin : sin pos.theta ≠ 0) (hE : 0 < E) (hp : 0 < x → p ≤ 4 → Spec.DivisorsNonzero a p e x)
    (hh : x < 0 ∨ E * ((1 + √(1 - a ^ 2)) ^ 2 + a ^ 2) ≠ a * L) (q : Option Phases) :
    ∃ T, o.trajectoryNat rs q = .ok T ∧ ∀ lam, 2 - a + 2 * √(1 - a) < T.r lam := by
  obtain ⟨hb, -⟩ := C75_parameters ha ho hst hcs hap hsin hE hp
  obtain ⟨T, f, hT, -, -, h⟩ := C75_geodesic ha ho hst hcs hap hsin hE hp hh q
  refine ⟨T, hT, fun lam => ?_⟩
  have h1 := (C80_periapsis rs a p e x hb).1
  rw [abs_of_pos ha] at h1
  obtain ⟨-, -, -, -, -, h2, -, -⟩ := h lam
  exact lt_of_lt_of_le h1 h2

/-- Non-vacuity: the orbit of the instance of C75. -/
example (rs : RootScalar) : ∃ vel o s, mkOrbit rs (12 / 13) ⟨1, 10, π / 2, 3⟩ vel none none = .ok o ∧ o.stable = true
    ∧ separatrix rs (12 / 13) 0 1 = .ok s ∧ √(1 - 2 / (3 * s)) < o.consts.1 ∧ 1 / √3 < o.consts.1 := by
  obtain ⟨vel, o, x, T, f, ho, hst, hap, -, -, hE, -⟩ := C75_instance rs none
  obtain ⟨s, hs, h1, -, h2⟩ := C79_initial_data (E := o.consts.1) (L := o.consts.2.1) (Q := o.consts.2.2) (by norm_num) ho hst rfl
    hap (by simp) hE (fun _ h => absurd h (by norm_num))
  exact ⟨vel, o, s, ho, hst, hs, h1, h2⟩

end KGP
