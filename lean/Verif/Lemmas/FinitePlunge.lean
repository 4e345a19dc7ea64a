import Verif.Lemmas.FiniteSolutions
import Verif.Lemmas.PlungeHorizon
import Verif.Model.FinitePlunge

/-!
# C77: complex-root plunges in arithmetic with failing operations
-/

namespace KGP

open Classical Real

namespace Fl
variable {u v : Fl} {x y : ℝ}

lemma log' (h : u = fin x) (hx : 0 < x) : log u = fin (Real.log x) := part_fin h hx
lemma arctan' (h : u = fin x) : arctan u = fin (Real.arctan x) := by subst h; rfl
lemma arctan2' (h : u = fin x) (k : v = fin y) : arctan2 u v = fin (KGP.arctan2 x y) := part2_fin h k trivial
lemma ellipjDn' (h : u = fin x) (k : v = fin y) (h1 : 0 ≤ y ∧ y < 1) :
    ellipjDn u v = fin (KGP.ellipj x y).dn := part2_fin (f := fun u m => (KGP.ellipj u m).dn) h k ⟨h1.1, h1.2.le⟩
lemma ellipeinc' (h : u = fin x) (k : v = fin y) (h1 : y < 1) :
    ellipeinc u v = fin (KGP.ellipeinc x y) := part2_fin h k h1.le
lemma log_exc : log exc = exc := rfl
lemma log_nonpos (h : u = fin x) (hx : x ≤ 0) : log u = exc := by
  subst h; exact if_neg (not_lt.mpr hx)

end Fl

section
variable {vphi vm vn : Fl} {φ m n : ℝ}

lemma sin_fold (φ : ℝ) : Real.sin |Real.arcsin (Real.sin φ)| ^ 2 = Real.sin φ ^ 2 := by
  rcases abs_choice (Real.arcsin (Real.sin φ)) with h | h <;>
    rw [h] <;> simp [Real.sin_arcsin (Real.neg_one_le_sin φ) (Real.sin_le_one φ)]

lemma ellippiN_fin' (hn : vn = .fin n) (hm : vm = .fin m) (h1 : n ≠ 1) (h2 : m < 1) :
    ellippiN vn vm = .fin (ellippiK n m) := by
  have h3 : 1 - n ≠ 0 := sub_ne_zero.mpr h1.symm
  unfold ellippiN ellippiK
  fl
  all_goals linarith

/-- `Π(φ, n, m)` of the code is a number unless `n = 1` or `n sin²φ = 1`. -/
lemma ellippiincN_fin' (hp : vphi = .fin φ) (hn : vn = .fin n) (hm : vm = .fin m) (h1 : n ≠ 1)
    (h1' : n * Real.sin φ ^ 2 ≠ 1) (h2 : m < 1) :
    ellippiincN vphi vn vm = .fin (ellippiincK φ n m) := by
  have hpi : π / 2 ≠ 0 := by positivity
  have hf : Fl.floor (vphi / ((π : Fl) / 2)) = .fin (⌊φ / (π / 2)⌋ : ℝ) := by
    have : vphi / ((π : Fl) / 2) = .fin (φ / (π / 2)) := by
      fl
      · norm_num
    rw [this]; rfl
  unfold ellippiincN ellippiincK
  simp only [hf, floor_floor]
  have h0 : 0 < 1 - m * Real.sin |Real.arcsin (Real.sin φ)| ^ 2 := one_sub_pos h2 _
  have h0n : 1 - n * Real.sin |Real.arcsin (Real.sin φ)| ^ 2 ≠ 0 := by
    rw [sin_fold]; exact sub_ne_zero.mpr h1'.symm
  have h3 := sq_nonneg (Real.cos |Real.arcsin (Real.sin φ)|)
  have h4 := ellippiN_fin' hn hm h1 h2
  split_ifs
  all_goals fl
  all_goals norm_num

lemma elliprj1_pole (x y : Fl) : Fl.elliprj1 x y (.fin 0) = .exc := by
  cases x <;> cases y <;> simp [Fl.elliprj1, Fl.part2]

lemma ellippiN_exc (hn : vn = .fin 1) : ellippiN vn vm = .exc := by
  have : (1 : Fl) - vn = .fin 0 := by
    rw [show (0:ℝ) = 1 - 1 by norm_num]; fl
  unfold ellippiN
  rw [this]
  rw [elliprj1_pole, Fl.mul_exc_right, Fl.add_exc_right]

/-- at the pole of the integrand the value is not a number -/
lemma ellippiincN_exc (hp : vphi = .fin φ) (hn : vn = .fin n)
    (h : n = 1 ∨ n * Real.sin φ ^ 2 = 1) : ellippiincN vphi vn vm = .exc := by
  have hpi : π / 2 ≠ 0 := by positivity
  have hf : Fl.floor (vphi / ((π : Fl) / 2)) = .fin (⌊φ / (π / 2)⌋ : ℝ) := by
    have : vphi / ((π : Fl) / 2) = .fin (φ / (π / 2)) := by
      fl
      · norm_num
    rw [this]; rfl
  unfold ellippiincN
  simp only [hf]
  rcases h with h | h
  · rw [ellippiN_exc (hn.trans (by rw [h]))]
    split_ifs
    · rw [Fl.mul_exc_right, Fl.add_exc_left]
    · rw [Fl.mul_exc_right, Fl.sub_exc_left]
  · have hz : (1 : Fl) - vn * Fl.sin (Fl.abs (Fl.arcsin (Fl.sin vphi))) ^ 2 = .fin 0 := by
      have : (0:ℝ) = 1 - n * Real.sin |Real.arcsin (Real.sin φ)| ^ 2 := by rw [sin_fold, h]; norm_num
      rw [this]
      fl
    simp only [hz, elliprj1_pole, Fl.mul_exc_right, Fl.add_exc_right, Fl.sub_exc_right, ite_self]

end

/-- `fl1` with the functions of this file. -/
macro "fl5" : tactic => `(tactic| first
  | fl1
  | with_reducible refine Fl.log' ?_ ?_
  | with_reducible refine Fl.arctan' ?_
  | with_reducible refine Fl.arctan2' ?_ ?_
  | with_reducible refine Fl.ellipjDn' ?_ ?_ ?_
  | with_reducible refine Fl.ellipeinc' ?_ ?_ ?_)

macro "fl4" : tactic => `(tactic| repeat' fl5)

section
variable {r1 r2 u v rh E : ℝ} {vA vB vrh vq vU : Fl} {q U : ℝ} (H : CplxConfig r1 r2 u v)
include H

omit H in
lemma plungeAN_fin : plungeAN r2 u v = .fin (plungeA r2 u v) := by
  have : 0 ≤ (r2 - u) ^ 2 + v ^ 2 := by positivity
  unfold plungeAN plungeA
  fl

omit H in
lemma plungeBN_fin : plungeBN r1 u v = .fin (plungeB r1 u v) := by
  have : 0 ≤ (r1 - u) ^ 2 + v ^ 2 := by positivity
  unfold plungeBN plungeB
  fl

lemma plungeKRN_fin (hA : vA = .fin (plungeA r2 u v)) (hB : vB = .fin (plungeB r1 u v)) :
    plungeKRN r1 r2 vA vB = .fin (plungeKR r1 r2 (plungeA r2 u v) (plungeB r1 u v)) := by
  have h1 := H.A_pos
  have h2 := H.B_pos
  have h3 : 4 * plungeA r2 u v * plungeB r1 u v ≠ 0 := by positivity
  have h4 := H.mC_nonneg
  unfold mC at h4
  unfold plungeKRN plungeKR
  fl

lemma plungeK_bounds : 0 ≤ plungeKR r1 r2 (plungeA r2 u v) (plungeB r1 u v) ^ 2
    ∧ plungeKR r1 r2 (plungeA r2 u v) (plungeB r1 u v) ^ 2 < 1 := by
  rw [H.sq_k]; exact ⟨H.mC_nonneg, H.mC_lt⟩

lemma plungeUpsilonRN_fin (hE : 0 < 1 - E ^ 2) :
    plungeUpsilonRN E r1 r2 u v = .fin (plungeUpsilonRComplex E r1 r2 u v) := by
  have h1 := H.A_pos
  have h2 := H.B_pos
  have hA := plungeAN_fin (r2 := r2) (u := u) (v := v)
  have hB := plungeBN_fin (r1 := r1) (u := u) (v := v)
  have h3 : 4 * plungeA r2 u v * plungeB r1 u v ≠ 0 := by positivity
  have h4 := H.mC_nonneg
  have h5 := H.mC_lt
  have h6 := H.sq_k_abs
  have h7 : √(|((r2 - r1) ^ 2 - (plungeA r2 u v - plungeB r1 u v) ^ 2)
    / (4 * plungeA r2 u v * plungeB r1 u v)|) ^ 2 < 1 := by rw [h6]; exact h5
  have h8 := abs_nonneg (((r2 - r1) ^ 2 - (plungeA r2 u v - plungeB r1 u v) ^ 2)
    / (4 * plungeA r2 u v * plungeB r1 u v))
  have h9 : 2 * ellipk (√(|((r2 - r1) ^ 2 - (plungeA r2 u v - plungeB r1 u v) ^ 2)
    / (4 * plungeA r2 u v * plungeB r1 u v)|) ^ 2) ≠ 0 := mul_ne_zero two_ne_zero (ellipk_pos h7).ne'
  have h10 : 0 ≤ plungeA r2 u v * plungeB r1 u v * (1 - E ^ 2) := by positivity
  unfold plungeUpsilonRN plungeUpsilonRComplex
  simp only
  fl

/-- `I_r±` is a number away from the poles. -/
lemma plungeIrhN_fin (hE : 0 < 1 - E ^ 2) (hA : vA = .fin (plungeA r2 u v)) (hB : vB = .fin (plungeB r1 u v))
    (hr : vrh = .fin rh) (hq : vq = .fin q) (hU : vU = .fin U) (hU0 : U ≠ 0) (h1 : r1 < rh) (h2 : rh < r2)
    (hD1 : plungeD (plungeA r2 u v) (plungeB r1 u v) r1 r2 rh ^ 2 ≠ 1)
    (hne : sin (amC (mC r1 r2 u v) q) ^ 2 ≠ plungeD (plungeA r2 u v) (plungeB r1 u v) r1 r2 rh ^ 2) :
    plungeIrhN E r1 r2 vA vB vU vrh vq = .fin (plungeIrh E (plungeA r2 u v) (plungeB r1 u v) r1 r2 U rh q) := by
  have hk := plungeKRN_fin H hA hB
  have kb := plungeK_bounds H
  have kb1 := kb.2
  have hA0 := H.A_pos
  have hB0 := H.B_pos
  have hS := H.S_pos h1 h2
  have hDle := H.D_sq_le h1 h2
  have hκ := H.kappa_sq h1 h2
  have e1 := sub_pos.mpr h1
  have e2 := sub_pos.mpr h2
  have hDpos : 0 < plungeD (plungeA r2 u v) (plungeB r1 u v) r1 r2 rh := by
    unfold plungeD; positivity
  have hDN : plungeDN r1 r2 vA vB vrh = .fin (plungeD (plungeA r2 u v) (plungeB r1 u v) r1 r2 rh) := by
    have g1 : 0 ≤ 4 * plungeA r2 u v * plungeB r1 u v * (r2 - rh) * (rh - r1) := by positivity
    have g2 := hS.ne'
    unfold plungeDN plungeD
    fl4
  have hph : sin (ellipj (2 * ellipk (plungeKR r1 r2 (plungeA r2 u v) (plungeB r1 u v) ^ 2) * q / π)
      (plungeKR r1 r2 (plungeA r2 u v) (plungeB r1 u v) ^ 2)).ph ^ 2 ≠ plungeD (plungeA r2 u v) (plungeB r1 u v) r1 r2 rh ^ 2 := by
    rw [H.sq_k]; exact hne
  rw [← H.sq_k] at hκ
  unfold plungeIrhN plungeIrh
  simp only
  have hdn : (ellipj (2 * ellipk (plungeKR r1 r2 (plungeA r2 u v) (plungeB r1 u v) ^ 2) * q / π)
      (plungeKR r1 r2 (plungeA r2 u v) (plungeB r1 u v) ^ 2)).dn
      = √(1 - plungeKR r1 r2 (plungeA r2 u v) (plungeB r1 u v) ^ 2
        * (ellipj (2 * ellipk (plungeKR r1 r2 (plungeA r2 u v) (plungeB r1 u v) ^ 2) * q / π)
      (plungeKR r1 r2 (plungeA r2 u v) (plungeB r1 u v) ^ 2)).sn ^ 2) := rfl
  have hsn : (ellipj (2 * ellipk (plungeKR r1 r2 (plungeA r2 u v) (plungeB r1 u v) ^ 2) * q / π)
      (plungeKR r1 r2 (plungeA r2 u v) (plungeB r1 u v) ^ 2)).sn = sin (ellipj (2 * ellipk (plungeKR r1 r2 (plungeA r2 u v) (plungeB r1 u v) ^ 2) * q / π)
      (plungeKR r1 r2 (plungeA r2 u v) (plungeB r1 u v) ^ 2)).ph := rfl
  obtain ⟨w, hw⟩ : ∃ w, w = 2 * ellipk (plungeKR r1 r2 (plungeA r2 u v) (plungeB r1 u v) ^ 2) * q / π := ⟨_, rfl⟩
  have hwN : 2 * Fl.ellipk (plungeKRN r1 r2 vA vB ^ 2) * vq / (π : Fl) = .fin w := by
    have := Real.pi_ne_zero
    rw [hw]
    fl4
  rw [hwN]
  rw [← hw] at hph hdn hsn ⊢
  generalize plungeKRN r1 r2 vA vB = kN at *
  generalize plungeDN r1 r2 vA vB vrh = DN at *
  generalize plungeKR r1 r2 (plungeA r2 u v) (plungeB r1 u v) = k at *
  generalize plungeD (plungeA r2 u v) (plungeB r1 u v) r1 r2 rh = D at *
  generalize plungeA r2 u v = A at *
  generalize plungeB r1 u v = B at *
  have hsne : (ellipj w (k ^ 2)).sn ^ 2 ≠ D ^ 2 := by rw [hsn]; exact hph
  have hT : A * (r1 - rh) - B * (r2 - rh) ≠ 0 := by
    intro h; nlinarith
  have g0 : 0 ≤ A * B * (1 - E ^ 2) := by positivity
  have g0' : √(A * B * (1 - E ^ 2)) ≠ 0 := by positivity
  have g1 : 2 * √(A * B * (1 - E ^ 2)) * (rh - r1) * (r2 - rh) * (A * (r1 - rh) - B * (r2 - rh)) ≠ 0 :=
    mul_ne_zero (by positivity) hT
  have g2 : D ^ 2 ≠ 0 := by positivity
  have g3 : 1 / D ^ 2 ≠ 1 := by
    intro h; rw [div_eq_one_iff_eq g2] at h; exact hD1 h.symm
  have g4 : 1 / D ^ 2 * sin (ellipj w (k ^ 2)).ph ^ 2 ≠ 1 := by
    intro h
    field_simp at h
    exact hph h
  have g5 : 0 ≤ r2 - r1 := by linarith
  have g6' : 0 < 1 - D ^ 2 * k ^ 2 := by nlinarith [sq_nonneg D, sq_nonneg k]
  have g6 := g6'.le
  have g7 : 0 ≤ (1 - E ^ 2) * (r2 - rh) * (rh - r1) := by positivity
  have g8' : 0 < A ^ 2 * (rh - r1) - (r2 - rh) * (r1 ^ 2 - B ^ 2 + r2 * rh - r1 * (r2 + rh)) := by
    rw [hκ] at g6'
    by_contra hc
    have : (r2 - r1) * (A ^ 2 * (rh - r1) - (r2 - rh) * (r1 ^ 2 - B ^ 2 + r2 * rh - r1 * (r2 + rh)))
        / (A * (rh - r1) + B * (r2 - rh)) ^ 2 ≤ 0 :=
      div_nonpos_of_nonpos_of_nonneg (mul_nonpos_of_nonneg_of_nonpos g5 (not_lt.mp hc)) (sq_nonneg _)
    linarith
  have g8 := g8'.le
  have g9 : 4 * √((1 - E ^ 2) * (r2 - rh) * (rh - r1))
      * √(A ^ 2 * (rh - r1) - (r2 - rh) * (r1 ^ 2 - B ^ 2 + r2 * rh - r1 * (r2 + rh))) ≠ 0 := by
    have := Real.sqrt_pos.mpr g8'
    positivity
  have sums : ∀ s : ℝ, s = 1 ∨ s = -1 → 0 < (D * √(1 - D ^ 2 * k ^ 2) + s * ((ellipj w (k ^ 2)).dn * (ellipj w (k ^ 2)).sn)) ^ 2
      + (k * (D ^ 2 - (ellipj w (k ^ 2)).sn ^ 2)) ^ 2 := by
    intro s hs
    rw [hdn]
    generalize (ellipj w (k ^ 2)).sn = sn at *
    have hs2 : s ^ 2 = 1 := by rcases hs with rfl | rfl <;> norm_num
    by_cases hk0 : k = 0
    · subst hk0
      have : D + s * sn ≠ 0 := by
        intro h
        apply hsne
        have : D = -(s * sn) := by linarith
        rw [this, neg_sq, mul_pow, hs2, one_mul]
      norm_num
      positivity
    · have : D ^ 2 - sn ^ 2 ≠ 0 := sub_ne_zero.mpr hsne.symm
      positivity
  have s1 : 0 < (D * √(1 - D ^ 2 * k ^ 2) + (ellipj w (k ^ 2)).dn * (ellipj w (k ^ 2)).sn) ^ 2
      + (k * (D ^ 2 - (ellipj w (k ^ 2)).sn ^ 2)) ^ 2 := by
    have := sums 1 (Or.inl rfl); rwa [one_mul] at this
  have s2 : 0 < (D * √(1 - D ^ 2 * k ^ 2) - (ellipj w (k ^ 2)).dn * (ellipj w (k ^ 2)).sn) ^ 2
      + (k * (D ^ 2 - (ellipj w (k ^ 2)).sn ^ 2)) ^ 2 := by
    have := sums (-1) (Or.inr rfl); rwa [neg_one_mul, ← sub_eq_add_neg] at this
  have s3 := div_pos s1 s2
  have s2' := s2.ne'
  have hPi : ellippiincN (Fl.ellipjPh (.fin w) (kN ^ 2)) (1 / DN ^ 2) (kN ^ 2)
      = .fin (ellippiincK (ellipj w (k ^ 2)).ph (1 / D ^ 2) (k ^ 2)) := by
    refine ellippiincN_fin' ?_ ?_ ?_ g3 g4 kb1 <;> fl4
  fl4

omit H in
lemma sq_ne_of_sum {A B : ℝ} (hA : plungeA r2 u v = A) (hB : plungeB r1 u v = B) (hAB : r1 + r2 ≠ 2 * u)
    (h : r1 ≠ r2) : A - B ≠ 0 := by
  intro h0
  have h3 : plungeA r2 u v ^ 2 = plungeB r1 u v ^ 2 := by rw [hA, hB, sub_eq_zero.mp h0]
  rw [plungeA_sq, plungeB_sq] at h3
  have h4 : (r2 - r1) * (r1 + r2 - 2 * u) = 0 := by linear_combination h3
  rcases mul_eq_zero.mp h4 with h5 | h5
  · exact h (by linarith)
  · exact hAB (by linarith)

/-- `I_r` and `I_r²` are numbers at every phase. -/
lemma plungeIrN_fin (hE : 0 < 1 - E ^ 2) (hA : vA = .fin (plungeA r2 u v)) (hB : vB = .fin (plungeB r1 u v))
    (hq : vq = .fin q) (hU : vU = .fin U) (hU0 : U ≠ 0) (h12 : r1 < r2) (hAB : r1 + r2 ≠ 2 * u) (a : ℝ) :
    plungeIrN E r1 r2 vA vB vU vq = .fin ((plungingRadialIntegralsCore a E r1 r2 u v U).Ir q) ∧
    plungeIr2N E r1 r2 vA vB vU vq = .fin ((plungingRadialIntegralsCore a E r1 r2 u v U).Ir2 q) := by
  have hk := plungeKRN_fin H hA hB
  have kb := plungeK_bounds H
  have kb1 := kb.2
  have hA0 := H.A_pos
  have hB0 := H.B_pos
  have hne : plungeA r2 u v - plungeB r1 u v ≠ 0 := sq_ne_of_sum rfl rfl hAB h12.ne
  have e1 : 0 < r2 - r1 := by linarith
  simp only [plungeIrN, plungeIr2N, plungingRadialIntegralsCore]
  have hdn : (ellipj (2 * ellipk (plungeKR r1 r2 (plungeA r2 u v) (plungeB r1 u v) ^ 2) * q / π)
      (plungeKR r1 r2 (plungeA r2 u v) (plungeB r1 u v) ^ 2)).dn
      = √(1 - plungeKR r1 r2 (plungeA r2 u v) (plungeB r1 u v) ^ 2
        * sin (ellipj (2 * ellipk (plungeKR r1 r2 (plungeA r2 u v) (plungeB r1 u v) ^ 2) * q / π)
      (plungeKR r1 r2 (plungeA r2 u v) (plungeB r1 u v) ^ 2)).ph ^ 2) := rfl
  obtain ⟨w, hw⟩ : ∃ w, w = 2 * ellipk (plungeKR r1 r2 (plungeA r2 u v) (plungeB r1 u v) ^ 2) * q / π := ⟨_, rfl⟩
  have hwN : 2 * Fl.ellipk (plungeKRN r1 r2 vA vB ^ 2) * vq / (π : Fl) = .fin w := by
    have := Real.pi_ne_zero
    rw [hw]
    fl4
  rw [hwN]
  rw [← hw] at hdn ⊢
  generalize plungeKRN r1 r2 vA vB = kN at *
  generalize plungeKR r1 r2 (plungeA r2 u v) (plungeB r1 u v) = k at *
  generalize plungeA r2 u v = A at *
  generalize plungeB r1 u v = B at *
  have hdpos : 0 < (ellipj w (k ^ 2)).dn := by
    rw [hdn]
    exact Real.sqrt_pos.mpr (one_sub_pos kb1 _)
  have g1 : (A - B) ^ 2 ≠ 0 := pow_ne_zero 2 hne
  have g1' : 0 < (A - B) ^ 2 := by positivity
  obtain ⟨f, hf⟩ : ∃ f, f = 4 * A * B / (A - B) ^ 2 := ⟨_, rfl⟩
  have hfpos : 0 < f := by rw [hf]; positivity
  have hfN : 4 * vA * vB / (vA - vB) ^ 2 = .fin f := by rw [hf]; fl4
  rw [hfN, ← hf]
  have hf0 := hfpos.ne'
  have g2 : 0 ≤ A * B := by positivity
  have g3 : 0 ≤ A * B * (1 - E ^ 2) := by positivity
  have g4 : 0 ≤ (1 - E ^ 2) * A * B := by positivity
  have g5 := hE.le
  have g6 : √(1 - E ^ 2) ≠ 0 := by positivity
  have g7 : 2 * √(A * B) * (ellipj w (k ^ 2)).dn ≠ 0 := by positivity
  have g8 : 2 * (A - B) * √(A * B * (1 - E ^ 2)) ≠ 0 := mul_ne_zero (mul_ne_zero two_ne_zero hne) (by positivity)
  have g9 : 4 * (A - B) * √((1 - E ^ 2) * A * B) ≠ 0 := mul_ne_zero (mul_ne_zero four_ne_zero hne) (by positivity)
  have g10 : f + (ellipj w (k ^ 2)).sn ^ 2 ≠ 0 := by positivity
  have g11 : (A - B) * √(1 - E ^ 2) * (f + (ellipj w (k ^ 2)).sn ^ 2) ≠ 0 := mul_ne_zero (mul_ne_zero hne g6) g10
  have g12 : 4 * (r2 - r1) * √(1 - E ^ 2) ≠ 0 := by positivity
  have g13 : 0 ≤ f * (1 + f * k ^ 2) := by positivity
  have g14 : -1 / f < 1 := lt_trans (div_neg_of_neg_of_pos (by norm_num) hfpos) one_pos
  have hPi : ellippiincN (Fl.ellipjPh (.fin w) (kN ^ 2)) (-1 / (.fin f)) (kN ^ 2)
      = .fin (ellippiincK (ellipj w (k ^ 2)).ph (-1 / f) (k ^ 2)) := by
    refine ellippiincN_fin ?_ ?_ ?_ g14 kb1 <;> fl4
  constructor
  · fl4
  · fl4

/-- `r` is a number at every phase. -/
lemma plungePosN_fin {a L : ℝ} (hq : vq = .fin q) :
    (plungingRadialSolutionsN a E L r1 r2 u v vU).pos vq
      = .fin ((plungingRadialSolutionsCore a E L r1 r2 u v U).pos q) := by
  have hA := plungeAN_fin (r2 := r2) (u := u) (v := v)
  have hB := plungeBN_fin (r1 := r1) (u := u) (v := v)
  have hk := plungeKRN_fin H hA hB
  have kb := plungeK_bounds H
  have kb1 := kb.2
  have hA0 := H.A_pos
  have hB0 := H.B_pos
  have hpi := Real.pi_ne_zero
  simp only [plungingRadialSolutionsN, plungingRadialSolutionsCore]
  have g : ∀ s : ℝ, 4 * plungeA r2 u v * plungeB r1 u v + (plungeA r2 u v - plungeB r1 u v) ^ 2 * s ^ 2 ≠ 0 := by
    intro s
    have : 0 ≤ (plungeA r2 u v - plungeB r1 u v) ^ 2 * s ^ 2 := by positivity
    positivity
  fl4
  exact g _

end

section
variable {a E L Q : ℝ} {vq : Fl} {q : ℝ} (P : PlungePolar a E L Q)
include P

lemma plungeZN_fin : plungeZ1N a E L Q = .fin (plungeZ1 a E L Q) ∧ plungeZ2N a E L Q = .fin (plungeZ2 a E L Q) := by
  have hc := P.c_pos
  have hQ := P.hQ
  have hc0 := hc.ne'
  have h0 : 0 ≤ (1 + (L ^ 2 + Q) / (a ^ 2 * (1 - E ^ 2))) ^ 2 - 4 * Q / (a ^ 2 * (1 - E ^ 2)) := by
    have : (1 + (L ^ 2 + Q) / (a ^ 2 * (1 - E ^ 2))) ^ 2 - 4 * Q / (a ^ 2 * (1 - E ^ 2))
        = (1 - (L ^ 2 + Q) / (a ^ 2 * (1 - E ^ 2))) ^ 2 + 4 * L ^ 2 / (a ^ 2 * (1 - E ^ 2)) := by
      generalize a ^ 2 * (1 - E ^ 2) = c at *
      field_simp
      ring
    rw [this]; positivity
  have hS0 : 0 ≤ 1 + (L ^ 2 + Q) / (a ^ 2 * (1 - E ^ 2)) := by positivity
  have h1 : √((1 + (L ^ 2 + Q) / (a ^ 2 * (1 - E ^ 2))) ^ 2 - 4 * Q / (a ^ 2 * (1 - E ^ 2)))
      ≤ 1 + (L ^ 2 + Q) / (a ^ 2 * (1 - E ^ 2)) := by
    refine Real.sqrt_le_iff.mpr ⟨hS0, ?_⟩
    have : 0 ≤ 4 * Q / (a ^ 2 * (1 - E ^ 2)) := by positivity
    linarith
  have h2 : 0 ≤ 1 / 2 * (1 + (L ^ 2 + Q) / (a ^ 2 * (1 - E ^ 2))
    - √((1 + (L ^ 2 + Q) / (a ^ 2 * (1 - E ^ 2))) ^ 2 - 4 * Q / (a ^ 2 * (1 - E ^ 2)))) := by linarith
  have h3 : 0 ≤ a ^ 2 * (1 - E ^ 2) / 2 * (1 + (L ^ 2 + Q) / (a ^ 2 * (1 - E ^ 2))
    + √((1 + (L ^ 2 + Q) / (a ^ 2 * (1 - E ^ 2))) ^ 2 - 4 * Q / (a ^ 2 * (1 - E ^ 2)))) := by positivity
  have h4 : (2:ℝ) ≠ 0 := two_ne_zero
  constructor
  · unfold plungeZ1N plungeZ1
    fl4
  · unfold plungeZ2N plungeZ2
    fl4

lemma plungeKThetaN_fin : plungeKThetaN a E L Q = .fin (plungeKTheta a E L Q) := by
  obtain ⟨z1, z2⟩ := plungeZN_fin P
  have h1 : 0 ≤ 1 - E ^ 2 := by linarith [P.hE]
  have h2 := P.z2_pos.ne'
  unfold plungeKThetaN plungeKTheta
  fl4

lemma plungeUpsilonThetaN_fin : plungeUpsilonThetaN a E L Q = .fin (plungeUpsilonThetaComplex a E L Q) := by
  obtain ⟨z1, z2⟩ := plungeZN_fin P
  have hk := plungeKThetaN_fin P
  have kb := P.k_bounds.2
  have h1 := (ellipk_pos kb).ne'
  have h4 : (2:ℝ) ≠ 0 := two_ne_zero
  unfold plungeUpsilonThetaN plungeUpsilonThetaComplex
  fl4

/-- The polar functions are numbers at every phase. -/
lemma plungingPolarSolutionsN_fin : FinGeo.SolsFin
    (plungingPolarSolutionsN a E L Q (plungeUpsilonThetaN a E L Q))
    (plungingPolarSolutionsCore a E L Q (plungeUpsilonThetaComplex a E L Q)) := by
  obtain ⟨z1, z2⟩ := plungeZN_fin P
  have hk := plungeKThetaN_fin P
  have hU := plungeUpsilonThetaN_fin P
  have kb := P.k_bounds
  have kb1 := kb.2
  have hU0 := P.upsilon_pos.ne'
  have hz2 := P.z2_pos.ne'
  have hz1 : plungeZ1 a E L Q ^ 2 < 1 := P.roots.2.1
  have hE : 1 - E ^ 2 ≠ 0 := by have := P.hE; intro h; linarith
  refine ⟨fun v q hv => ?_, fun v q hv => ?_, fun v q hv => ?_⟩
  · have hd : ∀ s : ℝ, -1 ≤ plungeZ1 a E L Q * sin s ∧ plungeZ1 a E L Q * sin s ≤ 1 := by
      intro s
      rw [← abs_le, abs_mul, abs_of_nonneg plungeZ1_nonneg]
      have h1 : plungeZ1 a E L Q ≤ 1 := by
        have := plungeZ1_nonneg (a := a) (E := E) (L := L) (Q := Q)
        nlinarith
      exact mul_le_one₀ h1 (abs_nonneg _) (Real.abs_sin_le_one _)
    simp only [plungingPolarSolutionsN, plungingPolarSolutionsCore]
    fl4
    exact hd _
  · simp only [plungingPolarSolutionsN, plungingPolarSolutionsCore]
    fl4
  · have hPi : ∀ y : Fl, ∀ w : ℝ, y = .fin w → ellippiincN (Fl.ellipjPh y (plungeKThetaN a E L Q ^ 2)) (plungeZ1N a E L Q ^ 2)
        (plungeKThetaN a E L Q ^ 2)
        = .fin (ellippiincK (ellipj w (plungeKTheta a E L Q ^ 2)).ph (plungeZ1 a E L Q ^ 2) (plungeKTheta a E L Q ^ 2)) := by
      intro y w hy
      refine ellippiincN_fin ?_ ?_ ?_ hz1 kb1 <;> fl4
    simp only [plungingPolarSolutionsN, plungingPolarSolutionsCore]
    refine Fl.mul ?_ (hPi _ _ ?_)
    · fl4
    · fl4

end

end KGP
