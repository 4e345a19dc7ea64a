import Verif.Props.Plunge
import Verif.Props.Restart

/-!
# Turns and parity of the phase solutions

How the functions returned by `radial_solutions`, `polar_solutions` and their plunging counterparts change
under `q ↦ q + 2π`, `q ↦ q + π` and `q ↦ -q`.  Everything follows from the floor-based definition of the incomplete
integrals and from the quasi-periodicity of `am`; no integral is differentiated, so the identities also hold beyond
the horizons and at the poles.
-/

namespace KGP

open Classical Real

lemma floor_add_two (φ : ℝ) : ⌊(φ + π) / (π / 2)⌋ = ⌊φ / (π / 2)⌋ + 2 := by
  have hpi := Real.pi_ne_zero
  rw [show (φ + π) / (π / 2) = φ / (π / 2) + (2 : ℤ) by push_cast; field_simp, Int.floor_add_intCast]

lemma abs_arcsin_sin_add_pi (φ : ℝ) : |arcsin (sin (φ + π))| = |arcsin (sin φ)| := by
  rw [Real.sin_add_pi, Real.arcsin_neg, abs_neg]

theorem ellippiincK_add_pi (φ n m : ℝ) : ellippiincK (φ + π) n m = ellippiincK φ n m + 2 * ellippiK n m := by
  unfold ellippiincK
  simp only [floor_add_two, abs_arcsin_sin_add_pi, Int.add_emod_right]
  split_ifs <;> push_cast <;> ring

theorem ellipeincK_add_pi (φ m : ℝ) : ellipeincK (φ + π) m = ellipeincK φ m + 2 * ellipe m := by
  unfold ellipeincK
  simp only [floor_add_two, abs_arcsin_sin_add_pi, Int.add_emod_right]
  split_ifs <;> push_cast <;> ring

/-- The floor bookkeeping is odd, if the incomplete part vanishes at `0` and is complete at `π/2`. -/
lemma bookkeeping_neg {K : ℝ} {I : ℝ → ℝ} (h0 : I 0 = 0) (h1 : I (π / 2) = K) (φ : ℝ) :
    (if ⌊-φ / (π / 2)⌋ % 2 = 0 then (⌊-φ / (π / 2)⌋ : ℝ) * K + I |arcsin (sin (-φ))|
      else ((⌊-φ / (π / 2)⌋ : ℝ) + 1) * K - I |arcsin (sin (-φ))|)
    = -(if ⌊φ / (π / 2)⌋ % 2 = 0 then (⌊φ / (π / 2)⌋ : ℝ) * K + I |arcsin (sin φ)|
      else ((⌊φ / (π / 2)⌋ : ℝ) + 1) * K - I |arcsin (sin φ)|) := by
  have hpi := Real.pi_pos
  rw [Real.sin_neg, Real.arcsin_neg, abs_neg, neg_div]
  generalize hx : φ / (π / 2) = x
  have hφ : φ = x * (π / 2) := by rw [← hx]; field_simp
  by_cases hi : (⌊x⌋ : ℝ) = x
  · have hf : ⌊-x⌋ = -⌊x⌋ := by
      rw [← hi, Int.floor_intCast, ← Int.cast_neg, Int.floor_intCast]
    rw [hf]
    generalize ⌊x⌋ = N at *
    rcases Int.even_or_odd' N with ⟨k, hk | hk⟩
    · have e1 : N % 2 = 0 := by omega
      have e2 : -N % 2 = 0 := by omega
      have hs : sin φ = 0 := by
        rw [hφ, ← hi, hk]; push_cast
        rw [show 2 * (k:ℝ) * (π / 2) = k * π by ring]; exact Real.sin_int_mul_pi k
      rw [if_pos e1, if_pos e2, hs, Real.arcsin_zero, abs_zero, h0]
      push_cast; ring
    · have e1 : ¬ N % 2 = 0 := by omega
      have e2 : ¬ -N % 2 = 0 := by omega
      have hs : |arcsin (sin φ)| = π / 2 := by
        have h2 : sin φ = cos (k * π) := by
          rw [hφ, ← hi, hk]; push_cast
          rw [show (2 * (k:ℝ) + 1) * (π / 2) = k * π + π / 2 by ring, Real.sin_add_pi_div_two]
        rw [h2]
        rcases Int.even_or_odd' k with ⟨j, hj | hj⟩
        · rw [hj]; push_cast
          rw [show 2 * (j:ℝ) * π = j * (2 * π) by ring, Real.cos_int_mul_two_pi, Real.arcsin_one, abs_of_pos (by positivity)]
        · rw [hj]; push_cast
          rw [show (2 * (j:ℝ) + 1) * π = j * (2 * π) + π by ring, Real.cos_int_mul_two_pi_add_pi, Real.arcsin_neg_one,
            abs_neg, abs_of_pos (by positivity)]
      rw [if_neg e1, if_neg e2, hs, h1]
      push_cast; ring
  · have hf : ⌊-x⌋ = -⌊x⌋ - 1 := by
      rw [Int.floor_eq_iff]; push_cast
      have h2 := Int.floor_le x
      have h3 := Int.lt_floor_add_one x
      have h4 := lt_of_le_of_ne h2 hi
      constructor <;> linarith
    rw [hf]
    generalize ⌊x⌋ = N
    by_cases e1 : N % 2 = 0
    · have e2 : ¬ (-N - 1) % 2 = 0 := by omega
      rw [if_pos e1, if_neg e2]; push_cast; ring
    · have e2 : (-N - 1) % 2 = 0 := by omega
      rw [if_neg e1, if_pos e2]; push_cast; ring

theorem ellippiincK_neg (φ n m : ℝ) : ellippiincK (-φ) n m = -ellippiincK φ n m := by
  unfold ellippiincK
  exact bookkeeping_neg (K := ellippiK n m) (I := fun p => sin p * elliprf (cos p ^ 2) (1 - m * sin p ^ 2) 1
    + 1 / 3 * n * sin p ^ 3 * elliprj (cos p ^ 2) (1 - m * sin p ^ 2) 1 (1 - n * sin p ^ 2))
    (by simp) (by simp [ellippiK]) φ

theorem ellipeinc_add_pi (φ m : ℝ) : ellipeinc (φ + π) m = ellipeinc φ m + ellipeinc π m := by
  unfold ellipeinc
  have hc : Continuous fun t => √(1 - m * sin t ^ 2) := by fun_prop
  have hper : Function.Periodic (fun t => √(1 - m * sin t ^ 2)) π := by
    intro t; simp only [Real.sin_add_pi, neg_sq]
  have h1 := intervalIntegral.integral_add_adjacent_intervals (hc.intervalIntegrable 0 φ) (hc.intervalIntegrable φ (φ + π))
    (μ := MeasureTheory.volume)
  rw [← h1, hper.intervalIntegral_add_eq φ 0, zero_add]

theorem ellipeinc_neg (φ m : ℝ) : ellipeinc (-φ) m = -ellipeinc φ m := by
  unfold ellipeinc
  have h := intervalIntegral.integral_comp_neg (a := 0) (b := φ) (fun t => √(1 - m * sin t ^ 2))
  simp only [Real.sin_neg, neg_sq, neg_zero] at h
  rw [h, intervalIntegral.integral_symm]

lemma ellipeincK_neg {m : ℝ} (hm : m < 1) (φ : ℝ) : ellipeincK (-φ) m = -ellipeincK φ m := by
  rw [ellipeincK_eq hm, ellipeincK_eq hm]
  exact ellipeinc_neg φ m

lemma amC_neg {m : ℝ} (hm : m < 1) (q : ℝ) : amC m (-q) = -amC m q := by
  unfold amC
  rw [show 2 * ellipk m * (-q) / π = -(2 * ellipk m * q / π) by ring, am_neg hm]

lemma amC_add_pi {m : ℝ} (hm : m < 1) (q : ℝ) : amC m (q + π) = amC m q + π := by
  unfold amC
  have h := am_add_int hm (2 * ellipk m * q / π) 1
  push_cast at h
  rw [one_mul] at h
  rw [← h]
  congr 1
  have := Real.pi_ne_zero
  field_simp

/-- How a pair of phase solutions behaves under a turn: the position repeats, the contributions to `t` and `φ`
increase by a constant. -/
structure Turning (S : PhaseSols) (P ct cphi : ℝ) : Prop where
  pos : ∀ q, S.pos (q + P) = S.pos q
  dt : ∀ q, S.dt (q + P) = S.dt q + ct
  dphi : ∀ q, S.dphi (q + P) = S.dphi q + cphi

lemma add_int_of_add {f : ℝ → ℝ} {P c : ℝ} (h : ∀ q, f (q + P) = f q + c) (k : ℤ) (q : ℝ) :
    f (q + k * P) = f q + k * c := by
  induction k using Int.induction_on with
  | zero => simp
  | succ n ih =>
    push_cast at ih ⊢
    rw [show q + ((n:ℝ) + 1) * P = (q + n * P) + P by ring, h, ih]; ring
  | pred n ih =>
    push_cast at ih ⊢
    have := h (q + (-(n:ℝ) - 1) * P)
    rw [show q + (-(n:ℝ) - 1) * P + P = q + -(n:ℝ) * P by ring, ih] at this
    linarith

lemma Turning.turns {S : PhaseSols} {P ct cphi : ℝ} (h : Turning S P ct cphi) (k : ℤ) (q : ℝ) :
    S.pos (q + k * P) = S.pos q ∧ S.dt (q + k * P) = S.dt q + k * ct
      ∧ S.dphi (q + k * P) = S.dphi q + k * cphi := by
  refine ⟨?_, add_int_of_add h.dt k q, add_int_of_add h.dphi k q⟩
  have := add_int_of_add (f := S.pos) (P := P) (c := 0) (fun q => by rw [h.pos, add_zero]) k q
  rwa [mul_zero, add_zero] at this

/-- `S` is even in the position and odd in the contributions to `t` and `φ`, about the phase `c`. -/
structure Mirrored (S : PhaseSols) (c : ℝ) : Prop where
  pos : ∀ q, S.pos (c - q) = S.pos q
  dt : ∀ q q', S.dt (c - q) - S.dt (c - q') = -(S.dt q - S.dt q')
  dphi : ∀ q q', S.dphi (c - q) - S.dphi (c - q') = -(S.dphi q - S.dphi q')

section
variable {r1 r2 r3 r4 : ℝ} (H : RootsConfig r1 r2 r3 r4)
include H

lemma radialSols_turning (a : ℝ) (cs : Consts) : Turning (radialSolutions a cs (r1, r2, r3, r4)) (2 * π) 0 0 := by
  obtain ⟨E, L, Q⟩ := cs
  have hm := H.mR_lt
  have hpi := Real.pi_ne_zero
  have key : ∀ q, jacobiAm (ellipk (mR r1 r2 r3 r4) * (q + 2 * π) / π) (mR r1 r2 r3 r4)
      = jacobiAm (ellipk (mR r1 r2 r3 r4) * q / π) (mR r1 r2 r3 r4) + π := amR_add hm
  have hq : ∀ q : ℝ, (q + 2 * π) / π = q / π + 2 := fun q => by field_simp
  constructor <;> intro q <;>
    simp only [radialSolutions, H.sq_k, ellipj, key, Real.sin_add_pi, Real.cos_add_pi, ellippiincK_add_pi,
      ellipeincK_add_pi, neg_sq, hq] <;> ring

lemma radialSols_mirrored (a : ℝ) (cs : Consts) : Mirrored (radialSolutions a cs (r1, r2, r3, r4)) 0 := by
  obtain ⟨E, L, Q⟩ := cs
  have hm := H.mR_lt
  have key : ∀ q, jacobiAm (ellipk (mR r1 r2 r3 r4) * (0 - q) / π) (mR r1 r2 r3 r4)
      = -jacobiAm (ellipk (mR r1 r2 r3 r4) * q / π) (mR r1 r2 r3 r4) := fun q => by
    rw [zero_sub]; exact amR_neg hm q
  constructor
  · intro q
    simp only [radialSolutions, H.sq_k, ellipj, key, Real.sin_neg, neg_sq]
  · intro q q'
    simp only [radialSolutions, H.sq_k, ellipj, key, Real.sin_neg, Real.cos_neg, neg_sq, ellippiincK_neg, ellipeincK_neg hm]
    ring
  · intro q q'
    simp only [radialSolutions, H.sq_k, ellipj, key, Real.sin_neg, Real.cos_neg, neg_sq, ellippiincK_neg, ellipeincK_neg hm]
    ring

end

section
variable {a E L Q zm zp : ℝ} (H : PolarConfig a E L Q zm zp)
include H

lemma polar_half_turn (q : ℝ) : (polarSolutionsCore a (E, L, Q) zm zp).pos (q + π)
      = π - (polarSolutionsCore a (E, L, Q) zm zp).pos q
    ∧ (polarSolutionsCore a (E, L, Q) zm zp).dt (q + π) = (polarSolutionsCore a (E, L, Q) zm zp).dt q
    ∧ (polarSolutionsCore a (E, L, Q) zm zp).dphi (q + π) = (polarSolutionsCore a (E, L, Q) zm zp).dphi q := by
  have hm := H.mT_lt
  have hpi := Real.pi_ne_zero
  have key : jacobiAm (2 / π * ellipk (mT a zm zp) * (q + π + π / 2)) (mT a zm zp)
      = jacobiAm (2 / π * ellipk (mT a zm zp) * (q + π / 2)) (mT a zm zp) + π := by
    have := am_add_int hm (2 / π * ellipk (mT a zm zp) * (q + π / 2)) 1
    push_cast at this
    rw [show 2 / π * ellipk (mT a zm zp) * (q + π + π / 2)
      = 2 / π * ellipk (mT a zm zp) * (q + π / 2) + 2 * 1 * ellipk (mT a zm zp) by field_simp; ring, this, one_mul]
  refine ⟨?_, ?_, ?_⟩ <;>
    simp only [polarSolutionsCore, H.sq_k, ellipj, key, Real.sin_add_pi, ellippiincK_add_pi, ellipeincK_add_pi]
  · rw [mul_neg, Real.arccos_neg]
  · field_simp; ring
  · field_simp; ring

lemma polarSols_turning : Turning (polarSolutionsCore a (E, L, Q) zm zp) (2 * π) 0 0 := by
  constructor <;> intro q <;> rw [show q + 2 * π = q + π + π by ring]
  · rw [(polar_half_turn H _).1, (polar_half_turn H _).1]; ring
  · rw [(polar_half_turn H _).2.1, (polar_half_turn H _).2.1]; ring
  · rw [(polar_half_turn H _).2.2, (polar_half_turn H _).2.2]; ring

lemma polarSols_mirrored : Mirrored (polarSolutionsCore a (E, L, Q) zm zp) 0 := by
  have hm := H.mT_lt
  have hpi := Real.pi_ne_zero
  have key : ∀ q, jacobiAm (2 / π * ellipk (mT a zm zp) * (0 - q + π / 2)) (mT a zm zp)
      = -jacobiAm (2 / π * ellipk (mT a zm zp) * (q + π / 2)) (mT a zm zp) + π := fun q => by
    have := amT_neg hm q
    unfold amT at this
    rw [zero_sub, this]; ring
  constructor
  · intro q
    simp only [polarSolutionsCore, H.sq_k, ellipj, key, Real.sin_add_pi, Real.sin_neg, neg_neg]
  · intro q q'
    simp only [polarSolutionsCore, H.sq_k, ellipj, key, ellipeincK_add_pi, ellipeincK_neg hm]
    ring
  · intro q q'
    simp only [polarSolutionsCore, H.sq_k, ellipj, key, ellippiincK_add_pi, ellippiincK_neg]
    ring

end

section
variable {r1 r2 u v : ℝ} (H : CplxConfig r1 r2 u v)
include H

lemma cplx_turning (a E L U : ℝ) : ∃ ct cphi, Turning (plungingRadialSolutionsCore a E L r1 r2 u v U) (2 * π) ct cphi := by
  have hm := H.mC_lt
  have key : ∀ q, jacobiAm (2 * ellipk (mC r1 r2 u v) * (q + 2 * π) / π) (mC r1 r2 u v)
      = jacobiAm (2 * ellipk (mC r1 r2 u v) * q / π) (mC r1 r2 u v) + 2 * π := amC_add hm
  have hPi : ∀ φ n, ellippiincK (φ + 2 * π) n (mC r1 r2 u v) = ellippiincK φ n (mC r1 r2 u v) + 4 * ellippiK n (mC r1 r2 u v) := by
    intro φ n
    rw [show φ + 2 * π = φ + π + π by ring, ellippiincK_add_pi, ellippiincK_add_pi]; ring
  have hE : ∀ φ, ellipeinc (φ + 2 * π) (mC r1 r2 u v) = ellipeinc φ (mC r1 r2 u v) + 2 * ellipeinc π (mC r1 r2 u v) := by
    intro φ
    rw [show φ + 2 * π = φ + π + π by ring, ellipeinc_add_pi, ellipeinc_add_pi]; ring
  have hq : ∀ q, (q + 2 * π) / U = q / U + 2 * π / U := fun q => add_div _ _ _
  have hIr : ∃ c, ∀ q, (plungingRadialIntegralsCore a E r1 r2 u v U).Ir (q + 2 * π)
      = (plungingRadialIntegralsCore a E r1 r2 u v U).Ir q + c := by
    refine ⟨(plungingRadialIntegralsCore a E r1 r2 u v U).Ir (2 * π) - (plungingRadialIntegralsCore a E r1 r2 u v U).Ir 0, fun q => ?_⟩
    have h0 := key 0
    rw [zero_add] at h0
    simp only [plungingRadialIntegralsCore, H.sq_k, ellipj, key, h0, Real.sin_add_two_pi, Real.cos_add_two_pi, hPi, hE, hq]
    ring
  have hIr2 : ∃ c, ∀ q, (plungingRadialIntegralsCore a E r1 r2 u v U).Ir2 (q + 2 * π)
      = (plungingRadialIntegralsCore a E r1 r2 u v U).Ir2 q + c := by
    refine ⟨(plungingRadialIntegralsCore a E r1 r2 u v U).Ir2 (2 * π) - (plungingRadialIntegralsCore a E r1 r2 u v U).Ir2 0, fun q => ?_⟩
    have h0 := key 0
    rw [zero_add] at h0
    simp only [plungingRadialIntegralsCore, H.sq_k, ellipj, key, h0, Real.sin_add_two_pi, Real.cos_add_two_pi, hPi, hE, hq]
    ring
  have hIrh : ∀ rh, ∃ c, ∀ q, plungeIrh E (plungeA r2 u v) (plungeB r1 u v) r1 r2 U rh (q + 2 * π)
      = plungeIrh E (plungeA r2 u v) (plungeB r1 u v) r1 r2 U rh q + c := by
    intro rh
    refine ⟨plungeIrh E (plungeA r2 u v) (plungeB r1 u v) r1 r2 U rh (2 * π)
      - plungeIrh E (plungeA r2 u v) (plungeB r1 u v) r1 r2 U rh 0, fun q => ?_⟩
    have h0 := key 0
    rw [zero_add] at h0
    simp only [plungeIrh, H.sq_k, ellipj, key, h0, Real.sin_add_two_pi, Real.cos_add_two_pi, hPi, hE, hq]
    ring
  obtain ⟨c1, h1⟩ := hIr
  obtain ⟨c2, h2⟩ := hIr2
  obtain ⟨c3, h3⟩ := hIrh (1 + √(1 - a ^ 2))
  obtain ⟨c4, h4⟩ := hIrh (1 - √(1 - a ^ 2))
  refine ⟨(plungingRadialSolutionsCore a E L r1 r2 u v U).dt (2 * π) - (plungingRadialSolutionsCore a E L r1 r2 u v U).dt 0,
    (plungingRadialSolutionsCore a E L r1 r2 u v U).dphi (2 * π) - (plungingRadialSolutionsCore a E L r1 r2 u v U).dphi 0, ?_, ?_, ?_⟩
  · intro q
    rw [cplx_pos_eq H, cplx_pos_eq H, amC_add hm, Real.cos_add_two_pi]
  · intro q
    have e1 := h1 0
    have e2 := h2 0
    have e3 : (plungingRadialIntegralsCore a E r1 r2 u v U).IrPlus (q + 2 * π)
      = (plungingRadialIntegralsCore a E r1 r2 u v U).IrPlus q + c3 := h3 q
    have e3' : (plungingRadialIntegralsCore a E r1 r2 u v U).IrPlus (0 + 2 * π)
      = (plungingRadialIntegralsCore a E r1 r2 u v U).IrPlus 0 + c3 := h3 0
    have e4 : (plungingRadialIntegralsCore a E r1 r2 u v U).IrMinus (q + 2 * π)
      = (plungingRadialIntegralsCore a E r1 r2 u v U).IrMinus q + c4 := h4 q
    have e4' : (plungingRadialIntegralsCore a E r1 r2 u v U).IrMinus (0 + 2 * π)
      = (plungingRadialIntegralsCore a E r1 r2 u v U).IrMinus 0 + c4 := h4 0
    rw [zero_add] at e1 e2 e3' e4'
    simp only [plungingRadialSolutionsCore, h1, h2, e1, e2, e3, e4, e3', e4', hq]
    ring
  · intro q
    have e3 : (plungingRadialIntegralsCore a E r1 r2 u v U).IrPlus (q + 2 * π)
      = (plungingRadialIntegralsCore a E r1 r2 u v U).IrPlus q + c3 := h3 q
    have e3' : (plungingRadialIntegralsCore a E r1 r2 u v U).IrPlus (0 + 2 * π)
      = (plungingRadialIntegralsCore a E r1 r2 u v U).IrPlus 0 + c3 := h3 0
    have e4 : (plungingRadialIntegralsCore a E r1 r2 u v U).IrMinus (q + 2 * π)
      = (plungingRadialIntegralsCore a E r1 r2 u v U).IrMinus q + c4 := h4 q
    have e4' : (plungingRadialIntegralsCore a E r1 r2 u v U).IrMinus (0 + 2 * π)
      = (plungingRadialIntegralsCore a E r1 r2 u v U).IrMinus 0 + c4 := h4 0
    rw [zero_add] at e3' e4'
    simp only [plungingRadialSolutionsCore, e3, e4, e3', e4']
    ring

end

section
variable {a E L Q : ℝ} (H : PlungePolar a E L Q)
include H

lemma plungePolar_half (q : ℝ) : let S := plungingPolarSolutionsCore a E L Q (plungeUpsilonThetaComplex a E L Q)
    S.pos (q + π) = π - S.pos q ∧ S.dt (q + π) = S.dt q + (S.dt π - S.dt 0)
      ∧ S.dphi (q + π) = S.dphi q + (S.dphi π - S.dphi 0) := by
  intro S
  have hm := H.k_bounds.2
  have key : ∀ q, jacobiAm (2 * ellipk (plungeKTheta a E L Q ^ 2) * (q + π) / π) (plungeKTheta a E L Q ^ 2)
      = jacobiAm (2 * ellipk (plungeKTheta a E L Q ^ 2) * q / π) (plungeKTheta a E L Q ^ 2) + π := amC_add_pi hm
  have k0 := key 0
  rw [zero_add] at k0
  refine ⟨?_, ?_, ?_⟩ <;>
    simp only [S, plungingPolarSolutionsCore, ellipj, H.arg, key, k0, Real.sin_add_pi, ellipeinc_add_pi, ellippiincK_add_pi]
  · rw [mul_neg, Real.arccos_neg]
  · ring
  · ring

lemma plungePolar_turning : ∃ ct cphi,
    Turning (plungingPolarSolutionsCore a E L Q (plungeUpsilonThetaComplex a E L Q)) (2 * π) ct cphi := by
  obtain ⟨S, hS⟩ : ∃ S, S = plungingPolarSolutionsCore a E L Q (plungeUpsilonThetaComplex a E L Q) := ⟨_, rfl⟩
  have h := plungePolar_half H
  simp only [← hS] at h ⊢
  refine ⟨2 * (S.dt π - S.dt 0), 2 * (S.dphi π - S.dphi 0), fun q => ?_, fun q => ?_, fun q => ?_⟩ <;>
    rw [show q + 2 * π = q + π + π by ring]
  · rw [(h _).1, (h _).1]; ring
  · rw [(h _).2.1, (h _).2.1]; ring
  · rw [(h _).2.2, (h _).2.2]; ring

lemma plungePolar_mirrored :
    Mirrored (plungingPolarSolutionsCore a E L Q (plungeUpsilonThetaComplex a E L Q)) π := by
  have hm := H.k_bounds.2
  have key : ∀ q, jacobiAm (2 * ellipk (plungeKTheta a E L Q ^ 2) * (π - q) / π) (plungeKTheta a E L Q ^ 2)
      = -jacobiAm (2 * ellipk (plungeKTheta a E L Q ^ 2) * q / π) (plungeKTheta a E L Q ^ 2) + π := fun q => by
    have h1 := amC_add_pi hm (-q)
    rw [amC_neg hm] at h1
    rw [show π - q = -q + π by ring]
    exact h1
  constructor
  · intro q
    simp only [plungingPolarSolutionsCore, ellipj, H.arg, key, Real.sin_add_pi, Real.sin_neg, neg_neg]
  · intro q q'
    simp only [plungingPolarSolutionsCore, ellipj, H.arg, key, ellipeinc_add_pi, ellipeinc_neg]
    ring
  · intro q q'
    simp only [plungingPolarSolutionsCore, ellipj, H.arg, key, ellippiincK_add_pi, ellippiincK_neg]
    ring

end

section
variable {r1 r2 u v : ℝ} (H : CplxConfig r1 r2 u v)
include H

lemma cplx_mirrored (a E L U : ℝ) (hAB : plungeA r2 u v ≠ plungeB r1 u v) :
    Mirrored (plungingRadialSolutionsCore a E L r1 r2 u v U) 0 := by
  have hm := H.mC_lt
  have key : ∀ q, jacobiAm (2 * ellipk (mC r1 r2 u v) * (-q) / π) (mC r1 r2 u v)
      = -jacobiAm (2 * ellipk (mC r1 r2 u v) * q / π) (mC r1 r2 u v) := amC_neg hm
  have h1 : ∀ q, (plungingRadialIntegralsCore a E r1 r2 u v U).Ir (-q)
      = -(plungingRadialIntegralsCore a E r1 r2 u v U).Ir q := by
    intro q
    simp only [plungingRadialIntegralsCore, H.sq_k, ellipj, key]
    generalize jacobiAm (2 * ellipk (mC r1 r2 u v) * q / π) (mC r1 r2 u v) = w
    simp only [Real.sin_neg, neg_sq, ellippiincK_neg]
    rw [show (r2 - r1) * -sin w / (2 * √(plungeA r2 u v * plungeB r1 u v) * √(1 - mC r1 r2 u v * sin w ^ 2))
      = -((r2 - r1) * sin w / (2 * √(plungeA r2 u v * plungeB r1 u v) * √(1 - mC r1 r2 u v * sin w ^ 2))) by ring,
      Real.arctan_neg]
    ring
  have h2 : ∀ q, (plungingRadialIntegralsCore a E r1 r2 u v U).Ir2 (-q)
      = -(plungingRadialIntegralsCore a E r1 r2 u v U).Ir2 q := by
    intro q
    have h := H.arctan2_eq hAB
    simp only [] at h
    simp only [plungingRadialIntegralsCore, H.sq_k, ellipj, key]
    generalize jacobiAm (2 * ellipk (mC r1 r2 u v) * q / π) (mC r1 r2 u v) = w
    rw [h, h]
    simp only [Real.sin_neg, Real.cos_neg, neg_sq, ellippiincK_neg, ellipeinc_neg]
    rw [show (r2 - r1) * -sin w / (2 * √(plungeA r2 u v * plungeB r1 u v) * √(1 - mC r1 r2 u v * sin w ^ 2))
      = -((r2 - r1) * sin w / (2 * √(plungeA r2 u v * plungeB r1 u v) * √(1 - mC r1 r2 u v * sin w ^ 2))) by ring,
      Real.arctan_neg]
    ring
  have h3 : ∀ rh q, plungeIrh E (plungeA r2 u v) (plungeB r1 u v) r1 r2 U rh (-q)
      = -plungeIrh E (plungeA r2 u v) (plungeB r1 u v) r1 r2 U rh q := by
    intro rh q
    have hlog : ∀ X Y : ℝ, Real.log (X / Y) = -Real.log (Y / X) := fun X Y => by
      rw [← Real.log_inv, inv_div]
    simp only [plungeIrh, H.sq_k, ellipj, key]
    generalize jacobiAm (2 * ellipk (mC r1 r2 u v) * q / π) (mC r1 r2 u v) = w
    simp only [Real.sin_neg, neg_sq, ellippiincK_neg]
    generalize plungeD (plungeA r2 u v) (plungeB r1 u v) r1 r2 rh = D
    generalize √(1 - D ^ 2 * mC r1 r2 u v) = k1
    generalize √(1 - mC r1 r2 u v * sin w ^ 2) = k2
    rw [show D * k1 + k2 * -sin w = D * k1 - k2 * sin w by ring, show D * k1 - k2 * -sin w = D * k1 + k2 * sin w by ring,
      hlog]
    ring
  constructor
  · intro q
    rw [zero_sub, cplx_pos_eq H, cplx_pos_eq H, amC_neg hm, Real.cos_neg]
  · intro q q'
    have e3 : ∀ q, (plungingRadialIntegralsCore a E r1 r2 u v U).IrPlus (-q)
      = -(plungingRadialIntegralsCore a E r1 r2 u v U).IrPlus q := h3 _
    have e4 : ∀ q, (plungingRadialIntegralsCore a E r1 r2 u v U).IrMinus (-q)
      = -(plungingRadialIntegralsCore a E r1 r2 u v U).IrMinus q := h3 _
    simp only [zero_sub, plungingRadialSolutionsCore, h1, h2, e3, e4]
    ring
  · intro q q'
    have e3 : ∀ q, (plungingRadialIntegralsCore a E r1 r2 u v U).IrPlus (-q)
      = -(plungingRadialIntegralsCore a E r1 r2 u v U).IrPlus q := h3 _
    have e4 : ∀ q, (plungingRadialIntegralsCore a E r1 r2 u v U).IrMinus (-q)
      = -(plungingRadialIntegralsCore a E r1 r2 u v U).IrMinus q := h3 _
    simp only [zero_sub, plungingRadialSolutionsCore, e3, e4]
    ring

end

end KGP
