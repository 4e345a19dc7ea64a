import Verif.Lemmas.FinitePlungeExc
import Verif.Model.FiniteRealPlunge
import Verif.Props.RealPlunge
import Verif.Props.FinitePlunge

/-!
# C78: real-root plunges in arithmetic with failing operations
-/

namespace KGP

open Classical Real

/-- `fl1`, with the elliptic integrals at any characteristic off the pole. -/
macro "fl6" : tactic => `(tactic| first
  | fl1
  | with_reducible refine ellippiN_fin' ?_ ?_ ?_ ?_
  | with_reducible refine ellippiincN_fin' ?_ ?_ ?_ ?_ ?_ ?_
  | with_reducible refine ellipeincN_fin ?_ ?_ ?_)

/-- The polar lemmas of C76 only use the polar roots. -/
lemma PolarConfig.finGeo {a E L Q zm zp : ℝ} (H : PolarConfig a E L Q zm zp) (ha : a ≠ 0) (ha1 : a ^ 2 < 1) :
    FinGeo a E L 10 10 9 0 zm zp := by
  have : √(1 - a ^ 2) ≤ 1 := Real.sqrt_le_one.mpr (by nlinarith [sq_nonneg a])
  exact ⟨ha1, by linarith [H.hE], H.hL, by norm_num, by norm_num, le_rfl, by linarith, H.z0, H.z1, fun _ => H.zp_gt ha⟩

section
variable {a E L Q r1 r2 r3 r4 zm zp : ℝ}

/-- `y` is not one of `r1`, `r2`, `r3` -/
structure OffRoots (r1 r2 r3 y : ℝ) : Prop where
  h1 : y ≠ r1
  h2 : y ≠ r2
  h3 : y ≠ r3

lemma RootsConfig.one_sub_hPM (H : RootsConfig r1 r2 r3 r4) {y s : ℝ} (h2 : y ≠ r2) (hs : s ^ 2 ≤ 1) :
    rOf r1 r2 r3 (s ^ 2) - y = (r1 - r3) * (r2 - y) * (1 - hPM r1 r2 r3 y * s ^ 2) / ((r1 - r3) - (r1 - r2) * s ^ 2) := by
  have hD := H.denom_ne s hs
  rw [rOf_sub _ hD]
  congr 1
  have h13 := H.ne13
  have : r2 - y ≠ 0 := sub_ne_zero.mpr h2.symm
  unfold hPM
  field_simp

lemma RootsConfig.hPM_pole (H : RootsConfig r1 r2 r3 r4) {y s : ℝ} (h2 : y ≠ r2) (hs : s ^ 2 ≤ 1) :
    hPM r1 r2 r3 y * s ^ 2 = 1 ↔ rOf r1 r2 r3 (s ^ 2) = y := by
  have h := H.one_sub_hPM h2 hs
  have hD := H.denom_ne s hs
  have h13 := H.ne13
  have hy : r2 - y ≠ 0 := sub_ne_zero.mpr h2.symm
  constructor
  · intro k
    rw [k, sub_self, mul_zero, zero_div] at h
    linarith
  · intro k
    rw [k, sub_self, eq_comm, div_eq_zero_iff] at h
    have h' := h.resolve_right hD
    have := (mul_eq_zero.mp h').resolve_left (mul_ne_zero h13 hy)
    linarith

lemma RootsConfig.hPM_ne_one (H : RootsConfig r1 r2 r3 r4) {y : ℝ} (h1 : y ≠ r1) (h2 : y ≠ r2) : hPM r1 r2 r3 y ≠ 1 := by
  have h := (H.hPM_pole (s := 1) h2 (by norm_num)).not
  rw [one_pow, mul_one] at h
  refine h.mpr fun k => h1 ?_
  have := r1_sub_rOf (r1 := r1) (r2 := r2) (r3 := r3) 1 (by have := H.ne23; intro h; apply this; linarith)
  rw [sub_self, mul_zero, zero_div] at this
  linarith

lemma RootsConfig.kRN_fin (H : RootsConfig r1 r2 r3 r4) :
    kRN (.fin r1, .fin r2, .fin r3, .fin r4) = .fin √((r1 - r2) * (r3 - r4) / ((r1 - r3) * (r2 - r4))) := by
  have k := H.mR_nonneg
  have k2 := H.pos13_24.ne'
  unfold mR at k
  simp only [kRN]
  fl

lemma RootsConfig.k2 (H : RootsConfig r1 r2 r3 r4) :
    0 ≤ √((r1 - r2) * (r3 - r4) / ((r1 - r3) * (r2 - r4))) ^ 2 ∧
    √((r1 - r2) * (r3 - r4) / ((r1 - r3) * (r2 - r4))) ^ 2 < 1 := by
  refine ⟨by positivity, ?_⟩
  rw [H.sq_k]; exact H.mR_lt

lemma RootsConfig.rad_pos (H : RootsConfig r1 r2 r3 r4) (hE : E ^ 2 < 1) : 0 < (1 - E ^ 2) * (r1 - r3) * (r2 - r4) := by
  rw [mul_assoc]; exact mul_pos (by linarith) H.pos13_24

lemma RootsConfig.rFrequencyN_fin (H : RootsConfig r1 r2 r3 r4) (hE : E ^ 2 < 1) :
    rFrequencyN (.fin E) (.fin r1, .fin r2, .fin r3, .fin r4) = .fin (rFrequencyCore E (r1, r2, r3, r4)) := by
  have hk := H.kRN_fin
  have hk2 := H.k2.2
  have hK := (ellipk_pos hk2).ne'
  have hs := (H.rad_pos hE).le
  simp only [rFrequencyN, rFrequencyCore, kR]
  fl
  simpa using hK

lemma thetaFromConstantsN_fin (H : PolarConfig a E L Q zm zp) (ha : a ≠ 0) (ha1 : a ^ 2 < 1) {rr : Roots4} {rrN : Roots4N} :
    thetaFrequencyFromConstantsN a (.fin E, .fin L, .fin Q) rrN (.fin zm, .fin zp)
      = .fin (thetaFrequencyFromConstants a (E, L, Q) rr (zm, zp)) := by
  obtain ⟨r1, r2, r3, r4⟩ := rr
  obtain ⟨v1, v2, v3, v4⟩ := rrN
  simp only [thetaFrequencyFromConstantsN, thetaFrequencyFromConstants, if_neg ha]
  exact (H.finGeo ha ha1).thetaFrequencyN_fin ha 0 0 0 rfl rfl rfl rfl

/-- The divisors of the radial formulas when neither horizon is a root. -/
lemma RootsConfig.facts (H : RootsConfig r1 r2 r3 r4) (hE : E ^ 2 < 1) (ha1 : a ^ 2 < 1)
    (hp : OffRoots r1 r2 r3 (1 + √(1 - a ^ 2))) (hm : OffRoots r1 r2 r3 (1 - √(1 - a ^ 2))) :
    0 ≤ 1 - a ^ 2 ∧ r1 - r3 ≠ 0
    ∧ (r1 - r3) * (r2 - (1 + √(1 - a ^ 2))) ≠ 0 ∧ (r1 - r3) * (r2 - (1 - √(1 - a ^ 2))) ≠ 0
    ∧ (r1 - r3) * (r2 - r4) ≠ 0
    ∧ r3 - (1 + √(1 - a ^ 2)) ≠ 0 ∧ r3 - (1 - √(1 - a ^ 2)) ≠ 0
    ∧ r2 - (1 + √(1 - a ^ 2)) ≠ 0 ∧ r2 - (1 - √(1 - a ^ 2)) ≠ 0
    ∧ 1 + √(1 - a ^ 2) - (1 - √(1 - a ^ 2)) ≠ 0
    ∧ 0 ≤ (1 - E ^ 2) * (r1 - r3) * (r2 - r4) ∧ √((1 - E ^ 2) * (r1 - r3) * (r2 - r4)) ≠ 0
    ∧ (r1 - r2) * (r3 - (1 + √(1 - a ^ 2))) / ((r1 - r3) * (r2 - (1 + √(1 - a ^ 2)))) ≠ 1
    ∧ (r1 - r2) * (r3 - (1 - √(1 - a ^ 2))) / ((r1 - r3) * (r2 - (1 - √(1 - a ^ 2)))) ≠ 1
    ∧ π ≠ 0 := by
  have hs : 0 < √(1 - a ^ 2) := Real.sqrt_pos.mpr (by linarith)
  have f1 := H.ne13
  have f2 : r2 - (1 + √(1 - a ^ 2)) ≠ 0 := sub_ne_zero.mpr hp.h2.symm
  have f3 : r2 - (1 - √(1 - a ^ 2)) ≠ 0 := sub_ne_zero.mpr hm.h2.symm
  have hE' := H.rad_pos hE
  refine ⟨by linarith, f1, mul_ne_zero f1 f2, mul_ne_zero f1 f3, H.pos13_24.ne', sub_ne_zero.mpr hp.h3.symm,
    sub_ne_zero.mpr hm.h3.symm, f2, f3, ?_, hE'.le, (Real.sqrt_pos.mpr hE').ne', H.hPM_ne_one hp.h1 hp.h2,
    H.hPM_ne_one hm.h1 hm.h2, Real.pi_pos.ne'⟩
  have : 1 + √(1 - a ^ 2) - (1 - √(1 - a ^ 2)) = 2 * √(1 - a ^ 2) := by ring
  rw [this]; positivity

section
variable (H : RootsConfig r1 r2 r3 r4) (P : PolarConfig a E L Q zm zp) (ha : a ≠ 0) (ha1 : a ^ 2 < 1)
  (hp : OffRoots r1 r2 r3 (1 + √(1 - a ^ 2))) (hm : OffRoots r1 r2 r3 (1 - √(1 - a ^ 2)))
include H P ha ha1 hp hm

lemma phiFromConstantsN_fin {vR vT : Fl} {uR uT : ℝ} (hR : vR = .fin uR) (hT : vT = .fin uT) :
    phiFrequencyFromConstantsN a (.fin E, .fin L, .fin Q) (.fin r1, .fin r2, .fin r3, .fin r4) (.fin zm, .fin zp) vR vT
      = .fin (phiFrequencyFromConstants a (E, L, Q) (r1, r2, r3, r4) (zm, zp) uR uT) := by
  have G := P.finGeo ha ha1
  obtain ⟨k0, -, k1⟩ := G.kT_lt ha
  have he := G.e0zpN_fin (vE := .fin E) (vL := .fin L) (vm := .fin zm) rfl rfl rfl
  have he0 := G.e0zp_pos.le
  have hes := (Real.sqrt_pos.mpr G.e0zp_pos).ne'
  have hz : zp ≠ 0 := by linarith [G.zp1 ha]
  have hzm := P.z1.ne
  have hk := H.kRN_fin
  have hk2 := H.k2.2
  obtain ⟨f0, f1, f2, f3, f4, f5, f6, f7, f8, f9, f10, f11, f12, f13, f14⟩ := H.facts G.hE ha1 hp hm
  have g1 : π * √(e0zpOf a E L zm) ≠ 0 := mul_ne_zero f14 hes
  have g2 : π * (1 + √(1 - a ^ 2) - (1 - √(1 - a ^ 2))) * √((1 - E ^ 2) * (r1 - r3) * (r2 - r4)) ≠ 0 :=
    mul_ne_zero (mul_ne_zero f14 f9) f11
  simp only [phiFrequencyFromConstantsN, phiFrequencyFromConstants, phiFrequencyN, phiFrequencyCore, if_neg ha, kR]
  repeat' fl6

lemma gammaN_fin_real {vR vT : Fl} {uR uT : ℝ} (hR : vR = .fin uR) (hT : vT = .fin uT) :
    gammaN a (.fin E, .fin L, .fin Q) (.fin r1, .fin r2, .fin r3, .fin r4) (.fin zm, .fin zp) vR vT
      = .fin (gammaCore a (E, L, Q) (r1, r2, r3, r4) (zm, zp) uR uT) := by
  have G := P.finGeo ha ha1
  have hs := G.a2s_fin (vE := .fin E) (vL := .fin L) (vm := .fin zm) (vp := .fin zp) rfl rfl rfl (fun _ => rfl)
  obtain ⟨kt, -, k1⟩ := G.kThetaN_fin (vm := .fin zm) (vp := .fin zp) rfl (fun _ => rfl)
  have hk := H.kRN_fin
  have hk2 := H.k2.2
  have hh := H.hR_lt.ne
  obtain ⟨f0, f1, f2, f3, f4, f5, f6, f7, f8, f9, f10, f11, f12, f13, f14⟩ := H.facts G.hE ha1 hp hm
  have g1 : π * L ≠ 0 := mul_ne_zero f14 P.hL
  have g2 : π * √((1 - E ^ 2) * (r1 - r3) * (r2 - r4)) ≠ 0 := mul_ne_zero f14 f11
  have g3 : (2:ℝ) ≠ 0 := two_ne_zero
  simp only [gammaN, gammaCore, kR]
  repeat' fl6

end

/-- `sn²` of the code at the phase `q` -/
noncomputable def snR (r1 r2 r3 r4 q : ℝ) : ℝ :=
  (ellipj (ellipk (√((r1 - r2) * (r3 - r4) / ((r1 - r3) * (r2 - r4))) ^ 2) * q / π)
    (√((r1 - r2) * (r3 - r4) / ((r1 - r3) * (r2 - r4))) ^ 2)).sn

lemma RootsConfig.pos_eq (_H : RootsConfig r1 r2 r3 r4) {cs : Consts} (q : ℝ) :
    (radialSolutions a cs (r1, r2, r3, r4)).pos q = rOf r1 r2 r3 (snR r1 r2 r3 r4 q ^ 2) := rfl

lemma RootsConfig.posN_fin (H : RootsConfig r1 r2 r3 r4) {vq : Fl} {q : ℝ} (hq : vq = .fin q) :
    (radialSolutionsN a (.fin E, .fin L, .fin Q) (.fin r1, .fin r2, .fin r3, .fin r4)).pos vq
      = .fin ((radialSolutions a (E, L, Q) (r1, r2, r3, r4)).pos q) := by
  have hk : Fl.sqrt ((Fl.fin r1 - Fl.fin r2) * (Fl.fin r3 - Fl.fin r4) / ((Fl.fin r1 - Fl.fin r3) * (Fl.fin r2 - Fl.fin r4)))
      = .fin √((r1 - r2) * (r3 - r4) / ((r1 - r3) * (r2 - r4))) := H.kRN_fin
  have hk2 := H.k2
  have hk3 := hk2.2
  have hpi := Real.pi_ne_zero
  have hd : (r1 - r2) * (ellipj (ellipk (√((r1 - r2) * (r3 - r4) / ((r1 - r3) * (r2 - r4))) ^ 2) * q / π)
    (√((r1 - r2) * (r3 - r4) / ((r1 - r3) * (r2 - r4))) ^ 2)).sn ^ 2 - (r1 - r3) ≠ 0 := by
    have := H.denom_ne (snR r1 r2 r3 r4 q) (Real.sin_sq_le_one _)
    intro h; apply this; unfold snR; linarith
  simp only [radialSolutionsN, radialSolutions]
  fl

section
variable (H : RootsConfig r1 r2 r3 r4) (hE : E ^ 2 < 1) (ha1 : a ^ 2 < 1) {vq : Fl} {q : ℝ} (hq : vq = .fin q)
include H ha1 hq

include hE in
/-- Numbers when neither horizon is a root and the radius is not on a horizon. -/
lemma radialN_fin_real (hp : OffRoots r1 r2 r3 (1 + √(1 - a ^ 2))) (hm : OffRoots r1 r2 r3 (1 - √(1 - a ^ 2)))
    (hr : ∀ rh, Spec.Delta a rh = 0 → (radialSolutions a (E, L, Q) (r1, r2, r3, r4)).pos q ≠ rh) :
    let S := radialSolutionsN a (.fin E, .fin L, .fin Q) (.fin r1, .fin r2, .fin r3, .fin r4)
    let S' := radialSolutions a (E, L, Q) (r1, r2, r3, r4)
    S.dt vq = .fin (S'.dt q) ∧ S.dphi vq = .fin (S'.dphi q) := by
  intro S S'
  have hk : Fl.sqrt ((Fl.fin r1 - Fl.fin r2) * (Fl.fin r3 - Fl.fin r4) / ((Fl.fin r1 - Fl.fin r3) * (Fl.fin r2 - Fl.fin r4)))
      = .fin √((r1 - r2) * (r3 - r4) / ((r1 - r3) * (r2 - r4))) := H.kRN_fin
  have hk2 := H.k2
  have hk3 := hk2.2
  have hh := H.hR_lt
  have hh' := hh.ne
  obtain ⟨f0, f1, f2, f3, f4, f5, f6, f7, f8, f9, f10, f11, f12, f13, f14⟩ := H.facts hE ha1 hp hm
  have g2 : π * √((1 - E ^ 2) * (r1 - r3) * (r2 - r4)) ≠ 0 := mul_ne_zero f14 f11
  have g3 : (2:ℝ) ≠ 0 := two_ne_zero
  have g4 : (r3 - (1 + √(1 - a ^ 2))) * (r2 - (1 + √(1 - a ^ 2))) ≠ 0 := mul_ne_zero f5 f7
  have g5 : (r3 - (1 - √(1 - a ^ 2))) * (r2 - (1 - √(1 - a ^ 2))) ≠ 0 := mul_ne_zero f6 f8
  have g6 : (1 + √(1 - a ^ 2) - (1 - √(1 - a ^ 2))) * √((1 - E ^ 2) * (r1 - r3) * (r2 - r4)) ≠ 0 :=
    mul_ne_zero f9 f11
  have hs1 : snR r1 r2 r3 r4 q ^ 2 ≤ 1 := Real.sin_sq_le_one _
  have dp := hr _ ((delta_zero_iff ha1).mpr (Or.inl rfl))
  have dm := hr _ ((delta_zero_iff ha1).mpr (Or.inr rfl))
  rw [H.pos_eq] at dp dm
  have pp := fun h => dp ((H.hPM_pole hp.h2 hs1).mp h)
  have pm := fun h => dm ((H.hPM_pole hm.h2 hs1).mp h)
  have pR : (r1 - r2) / (r1 - r3) * snR r1 r2 r3 r4 q ^ 2 < 1 := by
    have := FinGeo.one_sub_mul_pos hh (sq_nonneg (snR r1 r2 r3 r4 q)) hs1
    linarith
  have m2 : (r1 - r2) / (r1 - r3) * snR r1 r2 r3 r4 q ^ 2 - 1 ≠ 0 := by linarith
  have m3 := (FinGeo.one_sub_mul_pos hk3 (sq_nonneg (snR r1 r2 r3 r4 q)) hs1).le
  have pR' := pR.ne
  unfold hPM at pp pm
  unfold snR at pp pm m2 m3 pR'
  simp only [ellipj] at pp pm pR'
  constructor
  · simp only [S, S', radialSolutionsN, radialSolutions]
    repeat' fl6
    all_goals first | exact pp | exact pm | exact pR'
  · simp only [S, S', radialSolutionsN, radialSolutions]
    repeat' fl6
    all_goals first | exact pp | exact pm

/-- Not numbers when a horizon is one of the roots `r1`, `r2`, `r3`, or the radius is on a horizon. -/
lemma radialN_exc_real {rh : ℝ} (hrh : Spec.Delta a rh = 0)
    (h : ¬ OffRoots r1 r2 r3 rh ∨ (radialSolutions a (E, L, Q) (r1, r2, r3, r4)).pos q = rh) :
    let S := radialSolutionsN a (.fin E, .fin L, .fin Q) (.fin r1, .fin r2, .fin r3, .fin r4)
    S.dt vq = .exc ∧ S.dphi vq = .exc := by
  intro S
  have hk : Fl.sqrt ((Fl.fin r1 - Fl.fin r2) * (Fl.fin r3 - Fl.fin r4) / ((Fl.fin r1 - Fl.fin r3) * (Fl.fin r2 - Fl.fin r4)))
      = .fin √((r1 - r2) * (r3 - r4) / ((r1 - r3) * (r2 - r4))) := H.kRN_fin
  have hk2 := H.k2
  have hk3 := hk2.2
  have hpi := Real.pi_ne_zero
  have ha2 : 0 ≤ 1 - a ^ 2 := by linarith
  have f1 := H.ne13
  have hs1 : snR r1 r2 r3 r4 q ^ 2 ≤ 1 := Real.sin_sq_le_one _
  rw [H.pos_eq] at h
  have hph : Fl.ellipjPh (Fl.ellipk (Fl.sqrt ((Fl.fin r1 - Fl.fin r2) * (Fl.fin r3 - Fl.fin r4) / ((Fl.fin r1 - Fl.fin r3) * (Fl.fin r2 - Fl.fin r4))) ^ 2) * vq / (π : Fl))
      (Fl.sqrt ((Fl.fin r1 - Fl.fin r2) * (Fl.fin r3 - Fl.fin r4) / ((Fl.fin r1 - Fl.fin r3) * (Fl.fin r2 - Fl.fin r4))) ^ 2)
      = .fin (ellipj (ellipk (√((r1 - r2) * (r3 - r4) / ((r1 - r3) * (r2 - r4))) ^ 2) * q / π)
          (√((r1 - r2) * (r3 - r4) / ((r1 - r3) * (r2 - r4))) ^ 2)).ph := by
    fl
  -- one horizon is enough
  have key : ∀ {y : ℝ} {vy : Fl}, vy = .fin y → (¬ OffRoots r1 r2 r3 y ∨ rOf r1 r2 r3 (snR r1 r2 r3 r4 q ^ 2) = y) →
      ∀ c : Fl, c * (Fl.fin r2 - Fl.fin r3) / ((Fl.fin r3 - vy) * (Fl.fin r2 - vy))
        * (ellippiincN (Fl.ellipjPh (Fl.ellipk (Fl.sqrt ((Fl.fin r1 - Fl.fin r2) * (Fl.fin r3 - Fl.fin r4) / ((Fl.fin r1 - Fl.fin r3) * (Fl.fin r2 - Fl.fin r4))) ^ 2) * vq / (π : Fl))
              (Fl.sqrt ((Fl.fin r1 - Fl.fin r2) * (Fl.fin r3 - Fl.fin r4) / ((Fl.fin r1 - Fl.fin r3) * (Fl.fin r2 - Fl.fin r4))) ^ 2))
            ((Fl.fin r1 - Fl.fin r2) * (Fl.fin r3 - vy) / ((Fl.fin r1 - Fl.fin r3) * (Fl.fin r2 - vy)))
            (Fl.sqrt ((Fl.fin r1 - Fl.fin r2) * (Fl.fin r3 - Fl.fin r4) / ((Fl.fin r1 - Fl.fin r3) * (Fl.fin r2 - Fl.fin r4))) ^ 2)
          - vq / (π : Fl) * ellippiN ((Fl.fin r1 - Fl.fin r2) * (Fl.fin r3 - vy) / ((Fl.fin r1 - Fl.fin r3) * (Fl.fin r2 - vy)))
            (Fl.sqrt ((Fl.fin r1 - Fl.fin r2) * (Fl.fin r3 - Fl.fin r4) / ((Fl.fin r1 - Fl.fin r3) * (Fl.fin r2 - Fl.fin r4))) ^ 2)) = .exc := by
    intro y vy hv hy c
    by_cases h2 : y = r2
    · have : (Fl.fin r3 - vy) * (Fl.fin r2 - vy) = .fin 0 := by
        rw [show (0:ℝ) = (r3 - y) * (r2 - y) by rw [h2]; ring]
        fl
      rw [Fl.div_zero this, Fl.mul_exc_left]
    by_cases h3 : y = r3
    · have : (Fl.fin r3 - vy) * (Fl.fin r2 - vy) = .fin 0 := by
        rw [show (0:ℝ) = (r3 - y) * (r2 - y) by rw [h3]; ring]
        fl
      rw [Fl.div_zero this, Fl.mul_exc_left]
    have hd : (r1 - r3) * (r2 - y) ≠ 0 := mul_ne_zero f1 (sub_ne_zero.mpr (Ne.symm h2))
    have hn : (Fl.fin r1 - Fl.fin r2) * (Fl.fin r3 - vy) / ((Fl.fin r1 - Fl.fin r3) * (Fl.fin r2 - vy))
        = .fin (hPM r1 r2 r3 y) := by
      unfold hPM
      fl
    have : hPM r1 r2 r3 y = 1 ∨ hPM r1 r2 r3 y * Real.sin (ellipj (ellipk (√((r1 - r2) * (r3 - r4) / ((r1 - r3) * (r2 - r4))) ^ 2) * q / π)
          (√((r1 - r2) * (r3 - r4) / ((r1 - r3) * (r2 - r4))) ^ 2)).ph ^ 2 = 1 := by
      rcases hy with hy | hy
      · left
        have h1 : y = r1 := by
          by_contra h1
          exact hy ⟨h1, h2, h3⟩
        have hpole := (H.hPM_pole (y := y) (s := 1) h2 (by norm_num)).mpr ?_
        · simpa using hpole
        · have := r1_sub_rOf (r1 := r1) (r2 := r2) (r3 := r3) 1 (by have := H.ne23; intro h; apply this; linarith)
          rw [sub_self, mul_zero, zero_div] at this
          rw [one_pow, h1]; linarith
      · right
        exact (H.hPM_pole h2 hs1).mpr hy
    rw [ellippiincN_exc hph hn this, Fl.sub_exc_left, Fl.mul_exc_right]
  have hP : (1 : Fl) + Fl.sqrt (1 - (a : Fl) ^ 2) = .fin (1 + √(1 - a ^ 2)) := by fl
  have hM : (1 : Fl) - Fl.sqrt (1 - (a : Fl) ^ 2) = .fin (1 - √(1 - a ^ 2)) := by fl
  rcases (delta_zero_iff ha1).mp hrh with e | e <;> rw [e] at h
  · have := key hP h
    constructor <;> simp only [S, radialSolutionsN, this, Fl.mul_exc_right, Fl.sub_exc_left, Fl.sub_exc_right]
  · have := key hM h
    constructor <;> simp only [S, radialSolutionsN, this, Fl.mul_exc_right, Fl.sub_exc_right]

end
end

end KGP
