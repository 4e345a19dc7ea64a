import Verif.Lemmas.FinitePlunge
import Verif.Props.Plunge

/-!
# C77: where the formulas of a complex-root plunge fail
-/

namespace KGP

open Classical Real

section
variable {r1 r2 u v rh E : ℝ} {vA vB vrh vq vU : Fl} {q U : ℝ} (H : CplxConfig r1 r2 u v)
include H

/-- the two horizons coincide with a root, or the integrand has a pole -/
lemma plungeIrhN_exc (hE : 0 < 1 - E ^ 2) (hA : vA = .fin (plungeA r2 u v)) (hB : vB = .fin (plungeB r1 u v))
    (hr : vrh = .fin rh) (hq : vq = .fin q)
    (h : rh = r1 ∨ rh = r2 ∨ r1 < rh ∧ rh < r2 ∧ (plungeD (plungeA r2 u v) (plungeB r1 u v) r1 r2 rh ^ 2 = 1
      ∨ sin (amC (mC r1 r2 u v) q) ^ 2 = plungeD (plungeA r2 u v) (plungeB r1 u v) r1 r2 rh ^ 2)) :
    plungeIrhN E r1 r2 vA vB vU vrh vq = .exc := by
  have hA0 := H.A_pos
  have hB0 := H.B_pos
  have g0 : 0 ≤ plungeA r2 u v * plungeB r1 u v * (1 - E ^ 2) := by positivity
  have div0 : rh = r1 ∨ rh = r2 → plungeIrhN E r1 r2 vA vB vU vrh vq = .exc := by
    intro h
    have hz : 2 * Fl.sqrt (vA * vB * (1 - (E : Fl) ^ 2)) * (vrh - r1) * (r2 - vrh)
        * (vA * (r1 - vrh) - vB * (r2 - vrh)) = .fin 0 := by
      have : 2 * √(plungeA r2 u v * plungeB r1 u v * (1 - E ^ 2)) * (rh - r1) * (r2 - rh)
          * (plungeA r2 u v * (r1 - rh) - plungeB r1 u v * (r2 - rh)) = 0 := by
        rcases h with rfl | rfl <;> ring
      rw [← this]
      fl4
    simp only [plungeIrhN, Fl.div_zero hz, Fl.mul_exc_left, Fl.add_exc_right, Fl.sub_exc_left]
  rcases h with h | h | ⟨h1, h2, h⟩
  · exact div0 (Or.inl h)
  · exact div0 (Or.inr h)
  have e1 := sub_pos.mpr h1
  have e2 := sub_pos.mpr h2
  have hS := H.S_pos h1 h2
  have hDpos : 0 < plungeD (plungeA r2 u v) (plungeB r1 u v) r1 r2 rh := by
    unfold plungeD; positivity
  have hDN : plungeDN r1 r2 vA vB vrh = .fin (plungeD (plungeA r2 u v) (plungeB r1 u v) r1 r2 rh) := by
    have g1 : 0 ≤ 4 * plungeA r2 u v * plungeB r1 u v * (r2 - rh) * (rh - r1) := by positivity
    have g2 := hS.ne'
    unfold plungeDN plungeD
    fl4
  have hk := plungeKRN_fin H hA hB
  have kb := plungeK_bounds H
  have kb1 := kb.2
  have hpi := Real.pi_ne_zero
  have hD2 : plungeD (plungeA r2 u v) (plungeB r1 u v) r1 r2 rh ^ 2 ≠ 0 := by positivity
  have hPi : ellippiincN (Fl.ellipjPh (2 * Fl.ellipk (plungeKRN r1 r2 vA vB ^ 2) * vq / (π : Fl))
      (plungeKRN r1 r2 vA vB ^ 2)) (1 / plungeDN r1 r2 vA vB vrh ^ 2) (plungeKRN r1 r2 vA vB ^ 2) = .exc := by
    refine ellippiincN_exc (φ := (ellipj (2 * ellipk (plungeKR r1 r2 (plungeA r2 u v) (plungeB r1 u v) ^ 2) * q / π)
      (plungeKR r1 r2 (plungeA r2 u v) (plungeB r1 u v) ^ 2)).ph)
      (n := 1 / plungeD (plungeA r2 u v) (plungeB r1 u v) r1 r2 rh ^ 2) ?_ ?_ ?_
    · fl4
    · fl4
    · rcases h with h | h
      · left; rw [h, div_one]
      · right
        rw [← h, H.sq_k]
        change 1 / sin (amC (mC r1 r2 u v) q) ^ 2 * sin (amC (mC r1 r2 u v) q) ^ 2 = 1
        rw [← h] at hD2
        exact one_div_mul_cancel hD2
  simp only [plungeIrhN, hPi, Fl.mul_exc_right, Fl.add_exc_right, Fl.sub_exc_left]

omit H in
/-- equal moduli: division by `A - B` -/
lemma plungeIrN_exc (h : vA - vB = .fin 0) : plungeIrN E r1 r2 vA vB vU vq = .exc := by
  simp only [plungeIrN, Fl.div_zero h, Fl.mul_exc_left, Fl.add_exc_left, Fl.sub_exc_left]

/-- `D² = 1` in terms of the roots -/
lemma plungeD_eq_one (h1 : r1 < rh) (h2 : rh < r2) : plungeD (plungeA r2 u v) (plungeB r1 u v) r1 r2 rh ^ 2 = 1
    ↔ ((r2 - u) ^ 2 + v ^ 2) * (rh - r1) ^ 2 = ((r1 - u) ^ 2 + v ^ 2) * (r2 - rh) ^ 2 := by
  have hA := H.A_pos
  have hB := H.B_pos
  have hS := H.S_pos h1 h2
  rw [H.D_sq h1 h2, ← plungeA_sq, ← plungeB_sq]
  generalize plungeA r2 u v = A at *
  generalize plungeB r1 u v = B at *
  rw [div_eq_one_iff_eq (by positivity)]
  constructor
  · intro h
    have h3 : (A * (rh - r1) - B * (r2 - rh)) ^ 2 = 0 := by linear_combination -h
    have h4 : A * (rh - r1) = B * (r2 - rh) := sub_eq_zero.mp (pow_eq_zero_iff two_ne_zero |>.mp h3)
    rw [← mul_pow, ← mul_pow, h4]
  · intro h
    have h4 : (A * (rh - r1) - B * (r2 - rh)) * (A * (rh - r1) + B * (r2 - rh)) = 0 := by linear_combination h
    have h5 := (mul_eq_zero.mp h4).resolve_right hS.ne'
    linear_combination (-(A * (rh - r1) - B * (r2 - rh))) * h5

/-- `sn² = D²` in terms of the radius -/
lemma plungeD_eq_sin (h1 : r1 < rh) (h2 : rh < r2) (w : ℝ) :
    sin w ^ 2 = plungeD (plungeA r2 u v) (plungeB r1 u v) r1 r2 rh ^ 2
    ↔ rC r1 r2 u v (cos w) = rh ∨ ((r2 - u) ^ 2 + v ^ 2) * (rC r1 r2 u v (cos w) - r1) * (rh - r1)
      = ((r1 - u) ^ 2 + v ^ 2) * (r2 - rC r1 r2 u v (cos w)) * (r2 - rh) := by
  have hA := H.A_pos
  have hB := H.B_pos
  have hS := H.S_pos h1 h2
  have hcl := cos_le_one w
  have hcg := neg_one_le_cos w
  have hDp := H.D_pos hcg hcl
  have e0 := H.rC_sub hcg hcl rh
  have e1 := H.rC_sub hcg hcl r1
  have e2 := H.rC_sub hcg hcl r2
  rw [H.D_sq h1 h2, Real.sin_sq, ← plungeA_sq, ← plungeB_sq]
  generalize rC r1 r2 u v (cos w) = r at *
  generalize plungeA r2 u v = A at *
  generalize plungeB r1 u v = B at *
  generalize cos w = c at *
  rw [eq_div_iff (by positivity)]
  have f0 := (eq_div_iff hDp.ne').mp e0
  have f1 := (eq_div_iff hDp.ne').mp e1
  have f2 := (eq_div_iff hDp.ne').mp e2
  have hd : 0 < r2 - r1 := by linarith
  constructor
  · intro hcon
    have e3 : (A * (1 + c) * (r1 - rh) + B * (1 - c) * (r2 - rh))
        * (A * (1 - c) * (r1 - rh) + B * (1 + c) * (r2 - rh)) = 0 := by
      linear_combination hcon
    rcases mul_eq_zero.mp e3 with h | h
    · left
      rw [h] at f0
      have := (mul_eq_zero.mp f0).resolve_right hDp.ne'
      linarith
    · right
      apply mul_right_cancel₀ hDp.ne'
      linear_combination A ^ 2 * (rh - r1) * f1 + B ^ 2 * (r2 - rh) * f2 - A * B * (r2 - r1) * h
  · intro h
    rcases h with h | h
    · have : A * (1 + c) * (r1 - rh) + B * (1 - c) * (r2 - rh) = 0 := by
        rw [← f0, h]; ring
      linear_combination (A * (1 - c) * (r1 - rh) + B * (1 + c) * (r2 - rh)) * this
    · have h3 : A * B * (r2 - r1) * (A * (1 - c) * (r1 - rh) + B * (1 + c) * (r2 - rh)) = 0 := by
        linear_combination A ^ 2 * (rh - r1) * f1 + B ^ 2 * (r2 - rh) * f2 - (A * (1 + c) + B * (1 - c)) * h
      have h4 : A * (1 - c) * (r1 - rh) + B * (1 + c) * (r2 - rh) = 0 :=
        (mul_eq_zero.mp h3).resolve_left (by positivity)
      linear_combination (A * (1 + c) * (r1 - rh) + B * (1 - c) * (r2 - rh)) * h4

end

end KGP
